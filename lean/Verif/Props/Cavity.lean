import Verif.Props.MeshGeom

/-!
# Location of a point and growth of the cavity
-/

set_option linter.unusedSectionVars false

namespace Gbs

variable {K : Type} [Field K] [LinearOrder K] [IsStrictOrderedRing K] {h : Mesh (K × K)} {F : List ℕ} {f a b c : ℕ} {xy : K × K}

/-- The value of `in_circle` on the corners of a face. -/
def faceInc (h : Mesh (K × K)) (f : ℕ) (p : K × K) : K := inCircle (Spec.corners h f).1 (Spec.corners h f).2.1 (Spec.corners h f).2.2 p

theorem Spec.Valid.inCircleFace (H : Spec.Valid h F) (hf : f ∈ F) (p : K × K) : h.inCircleFace p f = .ok (faceInc h f p) := by
  unfold Mesh.inCircleFace
  rw [H.triCoords hf]; rfl

theorem Spec.Valid.getTriangleEdges (t : Tri h f a b c) (hfe : h.fe f = some a) : h.getTriangleEdges f = .ok [b, a, c] := by
  unfold Mesh.getTriangleEdges
  rw [hfe]
  simp only [deref, t.na, t.pa, R_bind_ok]; rfl

/-- What the search may find. -/
inductive Seeds (h : Mesh (K × K)) (F : List ℕ) (xy : K × K) : List ℕ → Prop
  | inside {f : ℕ} : f ∈ F → Spec.InsideFace h f xy → Seeds h F xy [f]
  | edge {f g e o : ℕ} : f ∈ F → g ∈ F → Spec.InFace h f xy → ¬Spec.IsCorner h f xy → (h.he e).face = some f → Spec.side h e xy = 0 →
      (h.he e).opp = some o → (h.he o).face = some g → Seeds h F xy [f, g]
  | outer {f e : ℕ} : f ∈ F → Spec.InFace h f xy → ¬Spec.IsCorner h f xy → (h.he e).face = some f → Spec.side h e xy = 0 →
      (h.he e).opp = none → Seeds h F xy [f]

theorem Spec.Valid.onEdge (t : Tri h f a b c) (hfe : h.fe f = some a) {o0 o1 : K} :
    h.onEdge f o0 o1 = .ok (if o0 = 0 then b else if o1 = 0 then c else a) := by
  unfold Mesh.onEdge
  rw [hfe]
  simp only [deref, R_bind_ok, t.na, t.nb]
  split
  · rfl
  · split <;> rfl

theorem Spec.Valid.locate_spec (H : Spec.Valid h F) (xy : K × K) : ∀ F0 : List ℕ, (∀ f ∈ F0, f ∈ F) →
    ∃ r, h.locate xy F0 = .ok r ∧ ((r = none ∧ ∃ f ∈ F0, Spec.IsCorner h f xy) ∨ (r = some [] ∧ ∀ f ∈ F0, ¬Spec.InFace h f xy) ∨
      ∃ s, r = some s ∧ Seeds h F xy s) := by
  intro F0
  induction F0 with
  | nil => intro _; exact ⟨some [], rfl, Or.inr (Or.inl ⟨rfl, by simp⟩)⟩
  | cons f F0 ih =>
    intro hF0
    have hf := hF0 f (by simp)
    obtain ⟨a, b, c, t, hfe⟩ := H.tri hf
    have sa : Spec.side h a xy = orient2d (Spec.endPt h c) (Spec.endPt h a) xy := by rw [Spec.side, t.startPt, orient2d_eq]
    have sb : Spec.side h b xy = orient2d (Spec.endPt h a) (Spec.endPt h b) xy := by rw [Spec.side, t.rotate.startPt, orient2d_eq]
    have sc : Spec.side h c xy = orient2d (Spec.endPt h b) (Spec.endPt h c) xy := by rw [Spec.side, t.rotate.rotate.startPt, orient2d_eq]
    rw [Mesh.locate, H.triCoords hf, t.corners hfe, R_bind_ok]
    simp only
    by_cases hc : xy = Spec.endPt h a ∨ xy = Spec.endPt h b ∨ xy = Spec.endPt h c
    · rw [if_pos hc]
      exact ⟨none, rfl, Or.inl ⟨rfl, f, by simp, t.isCorner.mpr hc⟩⟩
    rw [if_neg hc, ← sa, ← sb, ← sc]
    by_cases hout : Spec.side h b xy < 0 ∨ Spec.side h c xy < 0 ∨ Spec.side h a xy < 0
    · rw [if_pos hout]
      obtain ⟨r, h1, h2⟩ := ih fun g hg => hF0 g (by simp [hg])
      refine ⟨r, h1, ?_⟩
      rcases h2 with ⟨rfl, g, hg, hcg⟩ | ⟨rfl, h2⟩ | h2
      · exact Or.inl ⟨rfl, g, by simp [hg], hcg⟩
      · refine Or.inr (Or.inl ⟨rfl, ?_⟩)
        intro g hg
        rcases List.mem_cons.mp hg with rfl | hg
        · rw [t.inFace]
          rintro ⟨q1, q2, q3⟩
          rcases hout with hh | hh | hh <;> linarith
        · exact h2 g hg
      · exact Or.inr (Or.inr h2)
    rw [if_neg hout]
    push Not at hout
    have hin : Spec.InFace h f xy := t.inFace.mpr ⟨hout.2.2, hout.1, hout.2.1⟩
    have hnc : ¬Spec.IsCorner h f xy := fun hh => hc (t.isCorner.mp hh)
    by_cases hz : Spec.side h b xy = 0 ∨ Spec.side h c xy = 0 ∨ Spec.side h a xy = 0
    · rw [if_pos hz, Spec.Valid.onEdge t hfe, R_bind_ok]
      obtain ⟨e, he, hef, he0⟩ : ∃ e, (if Spec.side h b xy = 0 then b else if Spec.side h c xy = 0 then c else a) = e ∧ (h.he e).face = some f ∧
          Spec.side h e xy = 0 := by
        by_cases h1 : Spec.side h b xy = 0
        · exact ⟨b, by rw [if_pos h1], t.fb, h1⟩
        · by_cases h2 : Spec.side h c xy = 0
          · exact ⟨c, by rw [if_neg h1, if_pos h2], t.fc, h2⟩
          · exact ⟨a, by rw [if_neg h1, if_neg h2], t.fa, by tauto⟩
      rw [he]
      refine ⟨_, rfl, Or.inr (Or.inr ⟨_, rfl, ?_⟩)⟩
      rcases H.across ⟨f, hf, hef⟩ with ⟨h1, h2⟩ | ⟨o, g, h1, h2, h3, h4⟩
      · rw [h1]; exact .outer hf hin hnc hef he0 h2
      · rw [h4]; exact .edge hf h3 hin hnc hef he0 h1 h2
    · rw [if_neg hz]
      push Not at hz
      refine ⟨_, rfl, Or.inr (Or.inr ⟨_, rfl, .inside hf (t.insideFace.mpr ⟨?_, ?_, ?_⟩)⟩)⟩
      · exact lt_of_le_of_ne hout.2.2 hz.2.2.symm
      · exact lt_of_le_of_ne hout.1 hz.1.symm
      · exact lt_of_le_of_ne hout.2.1 hz.2.1.symm

theorem Seeds.mem {s : List ℕ} (hs : Seeds h F xy s) : ∀ f ∈ s, f ∈ F := by
  cases hs with
  | inside hf _ => simpa using hf
  | edge hf hg => simp [hf, hg]
  | outer hf => simpa using hf

theorem Seeds.ne_nil {s : List ℕ} (hs : Seeds h F xy s) : s ≠ [] := by cases hs <;> simp

theorem Seeds.nodup (H : Spec.Valid h F) (hw : Spec.Ccw h F) {s : List ℕ} (hs : Seeds h F xy s) : s.Nodup := by
  cases hs with
  | inside hf _ => simp
  | edge hf hg _ _ he _ ho hog =>
    have := H.not_self hw hf he ho
    simp
    rintro rfl; exact this hog
  | outer hf => simp

theorem seedCavity_nodup {s : List ℕ} (hs : s.Nodup) : Mesh.seedCavity s = (s, s.reverse) := by
  unfold Mesh.seedCavity
  have : ∀ (s a b : List ℕ), (a ++ s).Nodup →
      s.foldl (fun (s : List ℕ × List ℕ) f => if f ∈ s.1 then s else (s.1 ++ [f], f :: s.2)) (a, b) = (a ++ s, s.reverse ++ b) := by
    intro s
    induction s with
    | nil => intro a b _; simp
    | cons x s ih =>
      intro a b hnd
      have hx : x ∉ a := by
        intro hx
        rw [List.nodup_append] at hnd
        exact hnd.2.2 x hx x (by simp) rfl
      rw [List.foldl_cons, if_neg hx, ih _ _ (by simpa using hnd)]
      simp
  simpa using this s [] [] (by simpa using hs)

/-- The invariant of the growth. -/
structure Grown (h : Mesh (K × K)) (F s : List ℕ) (xy : K × K) (C st : List ℕ) : Prop where
  nodup : C.Nodup
  sub : ∀ f ∈ C, f ∈ F
  seeds : ∀ f ∈ s, f ∈ C
  inc : ∀ f ∈ C, f ∈ s ∨ 0 < faceInc h f xy
  stack : ∀ f ∈ st, f ∈ C
  closed : ∀ f ∈ C, f ∉ st → ∀ e o g, (h.he e).face = some f → (h.he e).opp = some o → (h.he o).face = some g → g ∈ C ∨ faceInc h g xy ≤ 0

theorem growEdge_spec (H : Spec.Valid h F) {s : List ℕ} {C st pend : List ℕ} {e : ℕ} (he : Spec.Live h F e)
    (hG : C.Nodup ∧ (∀ f ∈ C, f ∈ F) ∧ (∀ f ∈ s, f ∈ C) ∧ (∀ f ∈ C, f ∈ s ∨ 0 < faceInc h f xy) ∧ ∀ f ∈ pend ++ st, f ∈ C) :
    ∃ C' st', h.growEdge xy (C, st) e = .ok (C', st') ∧
      (C'.Nodup ∧ (∀ f ∈ C', f ∈ F) ∧ (∀ f ∈ s, f ∈ C') ∧ (∀ f ∈ C', f ∈ s ∨ 0 < faceInc h f xy) ∧ ∀ f ∈ pend ++ st', f ∈ C') ∧
      (∀ f ∈ C, f ∈ C') ∧ (∀ f ∈ st, f ∈ st') ∧ (∀ f ∈ C', f ∈ C ∨ f ∈ st') ∧
      C'.length + st.length = C.length + st'.length ∧
      (∀ o g, (h.he e).opp = some o → (h.he o).face = some g → g ∈ C' ∨ faceInc h g xy ≤ 0) := by
  obtain ⟨g1, g2, g3, g4, g5⟩ := hG
  have hG := And.intro g1 (And.intro g2 (And.intro g3 (And.intro g4 g5)))
  unfold Mesh.growEdge
  rcases H.across he with ⟨h1, h2⟩ | ⟨o, g, h1, h2, h3, h4⟩
  · rw [h1]
    exact ⟨C, st, rfl, hG, fun _ h => h, fun _ h => h, fun _ h => Or.inl h, rfl, fun o g ho => by rw [h2] at ho; simp at ho⟩
  · rw [h4]
    have huniq : ∀ o' g', (h.he e).opp = some o' → (h.he o').face = some g' → g' = g := by
      intro o' g' ho' hg'
      rw [h1] at ho'; cases ho'
      rw [h2] at hg'; cases hg'; rfl
    by_cases hgC : g ∈ C
    · simp only [hgC, if_true]
      exact ⟨C, st, rfl, hG, fun _ h => h, fun _ h => h, fun _ h => Or.inl h, rfl, fun o' g' ho' hg' => by rw [huniq o' g' ho' hg']; exact Or.inl hgC⟩
    · simp only [hgC, if_false]
      rw [H.inCircleFace h3, R_bind_ok]
      by_cases hd : 0 < faceInc h g xy
      · rw [if_pos hd]
        refine ⟨C ++ [g], g :: st, rfl, ⟨?_, ?_, ?_, ?_, ?_⟩, ?_, ?_, ?_, ?_, ?_⟩
        · rw [List.nodup_append]
          exact ⟨g1, by simp, fun x hx y hy => by simp at hy; subst hy; rintro rfl; exact hgC hx⟩
        · intro x hx
          rcases List.mem_append.mp hx with hx | hx
          · exact g2 x hx
          · simp at hx; subst hx; exact h3
        · intro x hx; simp [g3 x hx]
        · intro x hx
          rcases List.mem_append.mp hx with hx | hx
          · exact g4 x hx
          · simp at hx; subst hx; exact Or.inr hd
        · intro x hx
          rcases List.mem_append.mp hx with hx | hx
          · simp [g5 x (by simp [hx])]
          · rcases List.mem_cons.mp hx with rfl | hx
            · simp
            · simp [g5 x (by simp [hx])]
        · intro x hx; simp [hx]
        · intro x hx; simp [hx]
        · intro x hx
          rcases List.mem_append.mp hx with hx | hx
          · exact Or.inl hx
          · simp at hx; subst hx; simp
        · simp; omega
        · intro o' g' ho' hg'
          rw [huniq o' g' ho' hg']; simp
      · rw [if_neg hd]
        exact ⟨C, st, rfl, hG, fun _ h => h, fun _ h => h, fun _ h => Or.inl h, rfl, fun o' g' ho' hg' => by
          rw [huniq o' g' ho' hg']; exact Or.inr (not_lt.mp hd)⟩

theorem growEdges_spec (H : Spec.Valid h F) {s pend : List ℕ} : ∀ (es C st : List ℕ), (∀ e ∈ es, Spec.Live h F e) →
    (C.Nodup ∧ (∀ f ∈ C, f ∈ F) ∧ (∀ f ∈ s, f ∈ C) ∧ (∀ f ∈ C, f ∈ s ∨ 0 < faceInc h f xy) ∧ ∀ f ∈ pend ++ st, f ∈ C) →
    ∃ C' st', es.foldlM (h.growEdge xy) (C, st) = .ok (C', st') ∧
      (C'.Nodup ∧ (∀ f ∈ C', f ∈ F) ∧ (∀ f ∈ s, f ∈ C') ∧ (∀ f ∈ C', f ∈ s ∨ 0 < faceInc h f xy) ∧ ∀ f ∈ pend ++ st', f ∈ C') ∧
      (∀ f ∈ C, f ∈ C') ∧ (∀ f ∈ st, f ∈ st') ∧ (∀ f ∈ C', f ∈ C ∨ f ∈ st') ∧
      C'.length + st.length = C.length + st'.length ∧
      (∀ e ∈ es, ∀ o g, (h.he e).opp = some o → (h.he o).face = some g → g ∈ C' ∨ faceInc h g xy ≤ 0) := by
  intro es
  induction es with
  | nil =>
    intro C st _ hG
    exact ⟨C, st, rfl, hG, fun _ h => h, fun _ h => h, fun _ h => Or.inl h, rfl, by simp⟩
  | cons e es ih =>
    intro C st hl hG
    obtain ⟨C1, st1, a1, a2, a3, a4, a5, a6, a7⟩ := growEdge_spec H (hl e (by simp)) hG
    obtain ⟨C2, st2, b1, b2, b3, b4, b5, b6, b7⟩ := ih C1 st1 (fun e he => hl e (by simp [he])) a2
    refine ⟨C2, st2, by rw [List.foldlM_cons, a1, R_bind_ok, b1], b2, fun x hx => b3 x (a3 x hx), fun x hx => b4 x (a4 x hx), ?_, by omega, ?_⟩
    · intro x hx
      rcases b5 x hx with hx | hx
      · rcases a5 x hx with hx | hx
        · exact Or.inl hx
        · exact Or.inr (b4 x hx)
      · exact Or.inr hx
    · intro e' he' o g ho hg
      rcases List.mem_cons.mp he' with rfl | he'
      · rcases a7 o g ho hg with hh | hh
        · exact Or.inl (b3 g hh)
        · exact Or.inr hh
      · exact b7 e' he' o g ho hg

/-- The growth ends, and the cavity is closed. -/
theorem growCavity_spec (H : Spec.Valid h F) {s : List ℕ} : ∀ (k : ℕ) (C st : List ℕ), Grown h F s xy C st → st.length + h.nF ≤ k + C.length →
    ∃ C', h.growCavity xy k (C, st) = .ok C' ∧ Grown h F s xy C' [] := by
  intro k
  induction k with
  | zero =>
    intro C st hG hk
    have hlen : C.length ≤ h.nF := Mesh.length_le_of_lt hG.nodup fun f hf => H.faces f (hG.sub f hf)
    cases st with
    | nil => exact ⟨C, rfl, hG⟩
    | cons x st => simp at hk; omega
  | succ k ih =>
    intro C st hG hk
    cases st with
    | nil => exact ⟨C, rfl, hG⟩
    | cons f st =>
      have hfC := hG.stack f (by simp)
      have hfF := hG.sub f hfC
      obtain ⟨a, b, c, t, hfe⟩ := H.tri hfF
      rw [Mesh.growCavity, Spec.Valid.getTriangleEdges t hfe, R_bind_ok]
      have hlive : ∀ e ∈ [b, a, c], Spec.Live h F e := by
        intro e he
        simp at he
        rcases he with rfl | rfl | rfl
        exacts [⟨f, hfF, t.fb⟩, ⟨f, hfF, t.fa⟩, ⟨f, hfF, t.fc⟩]
      obtain ⟨C', st', h1, ⟨m1, m2, m3, m4, m5⟩, h3, h4, h5, h6, h7⟩ := growEdges_spec H (s := s) (pend := [f]) [b, a, c] C st hlive
        ⟨hG.nodup, hG.sub, hG.seeds, hG.inc, hG.stack⟩
      rw [h1, R_bind_ok]
      refine ih C' st' ⟨m1, m2, m3, m4, fun x hx => m5 x (by simp [hx]), ?_⟩ (by simp at hk; omega)
      intro x hx hxs e o g he ho hg
      by_cases hxf : x = f
      · subst hxf
        exact h7 e (by rcases t.own e he with rfl | rfl | rfl <;> simp) o g ho hg
      · rcases h5 x hx with hxC | hxs'
        · rcases hG.closed x hxC (by simp [hxf]; exact fun hc => hxs (h4 x hc)) e o g he ho hg with hh | hh
          · exact Or.inl (h3 g hh)
          · exact Or.inr hh
        · exact absurd hxs' hxs

theorem Seeds.grow (H : Spec.Valid h F) (hw : Spec.Ccw h F) {s : List ℕ} (hs : Seeds h F xy s) :
    ∃ C, h.growCavity xy (h.nF + 1) (Mesh.seedCavity s) = .ok C ∧ Grown h F s xy C [] := by
  rw [seedCavity_nodup (hs.nodup H hw)]
  refine growCavity_spec H _ s s.reverse ⟨hs.nodup H hw, hs.mem, fun _ h => h, fun f hf => Or.inl hf, fun f hf => by simpa using hf, ?_⟩ ?_
  · intro f hf hf'
    simp [hf] at hf'
  · simp; omega

theorem isStarLoop_spec (H : Spec.Valid h F) (xy : K × K) : ∀ l : List ℕ, (∀ e ∈ l, Spec.Live h F e) →
    ∃ r, h.isStarLoop xy l = .ok r ∧ (r = true ↔ ∀ e ∈ l, 0 < Spec.side h e xy) := by
  intro l
  induction l with
  | nil => intro _; exact ⟨true, rfl, by simp⟩
  | cons e l ih =>
    intro hl
    obtain ⟨r, h1, h2⟩ := ih fun x hx => hl x (by simp [hx])
    rw [Mesh.isStarLoop, H.startCo (hl e (by simp)), R_bind_ok, H.endCo (hl e (by simp)), R_bind_ok, orient2d_eq]
    by_cases hs : Spec.area2 (Spec.startPt h e) (Spec.endPt h e) xy ≤ 0
    · rw [if_pos hs]
      refine ⟨false, rfl, by simp, ?_⟩
      intro hh
      exact absurd (hh e (by simp)) (not_lt.mpr hs)
    · rw [if_neg hs]
      refine ⟨r, h1, ?_⟩
      rw [h2]
      simp only [List.forall_mem_cons]
      exact ⟨fun hh => ⟨not_le.mp hs, hh⟩, fun hh => hh.2⟩

theorem isSingleStar_spec (H : Spec.Valid h F) (xy : K × K) {ls : List (List ℕ)} (hl : ∀ l ∈ ls, l ≠ [] ∧ ∀ e ∈ l, Spec.Live h F e) :
    ∃ r, h.isSingleStar xy ls = .ok r ∧ (r = true ↔ ∃ l, ls = [l] ∧ ∀ e ∈ l, 0 < Spec.side h e xy) := by
  match ls with
  | [] => exact ⟨false, rfl, by simp⟩
  | [l] =>
    obtain ⟨r, h1, h2⟩ := isStarLoop_spec H xy l (hl l (by simp)).2
    refine ⟨r, ?_, ?_⟩
    · show (if l.isEmpty = true then pure false else h.isStarLoop xy l) = _
      rw [if_neg (by simpa using (hl l (by simp)).1), h1]
    · rw [h2]; simp
  | _ :: _ :: _ => exact ⟨false, rfl, by simp⟩

end Gbs
