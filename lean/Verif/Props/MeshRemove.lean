import Verif.Props.MeshFlip
import Mathlib.Tactic.IntervalCases

/-!
# Removal of faces
-/

namespace Gbs

variable {P : Type} {h h' : Mesh P} {F G : List ℕ} {f a b c : ℕ}

/-- The same objects but for opposites. -/
structure SameBut (h h' : Mesh P) : Prop where
  co : h'.co = h.co
  ve : h'.ve = h.ve
  fe : h'.fe = h.fe
  nE : h'.nE = h.nE
  nV : h'.nV = h.nV
  nF : h'.nF = h.nF
  vertex : ∀ e, (h'.he e).vertex = (h.he e).vertex
  face : ∀ e, (h'.he e).face = (h.he e).face
  next : ∀ e, (h'.he e).next = (h.he e).next
  prev : ∀ e, (h'.he e).prev = (h.he e).prev

theorem SameBut.refl (h : Mesh P) : SameBut h h := ⟨rfl, rfl, rfl, rfl, rfl, rfl, fun _ => rfl, fun _ => rfl, fun _ => rfl, fun _ => rfl⟩

theorem SameBut.trans {h1 h2 h3 : Mesh P} (s : SameBut h1 h2) (t : SameBut h2 h3) : SameBut h1 h3 :=
  ⟨t.co.trans s.co, t.ve.trans s.ve, t.fe.trans s.fe, t.nE.trans s.nE, t.nV.trans s.nV, t.nF.trans s.nF, fun e => (t.vertex e).trans (s.vertex e),
    fun e => (t.face e).trans (s.face e), fun e => (t.next e).trans (s.next e), fun e => (t.prev e).trans (s.prev e)⟩

theorem SameBut.tri (s : SameBut h h') (t : Tri h f a b c) : Tri h' f a b c :=
  ⟨t.ab, t.bc, t.ca, by rw [s.next, t.na], by rw [s.next, t.nb], by rw [s.next, t.nc], by rw [s.prev, t.pa], by rw [s.prev, t.pb], by rw [s.prev, t.pc],
    by rw [s.face, t.fa], by rw [s.face, t.fb], by rw [s.face, t.fc], fun e he => t.own e (by rw [← s.face]; exact he)⟩

theorem SameBut.live (s : SameBut h h') {e : ℕ} : Spec.Live h' F e ↔ Spec.Live h F e := by
  unfold Spec.Live
  simp only [s.face]

theorem unlinkOpp_spec (h : Mesh P) (x : ℕ) : SameBut h (h.unlinkOpp x) ∧
    ∀ e, ((h.unlinkOpp x).he e).opp = if (h.he x).opp = some e then none else (h.he e).opp := by
  unfold Mesh.unlinkOpp
  rcases ho : (h.he x).opp with _ | o
  · exact ⟨SameBut.refl h, fun e => by simp⟩
  · have key : ∀ {A : Type} (g : HEdge → A) (_ : ∀ r : HEdge, g { r with opp := none } = g r) (e : ℕ),
        g ((h.setE o fun r => { r with opp := none }).he e) = g (h.he e) := by
      intro A g hg e
      by_cases heo : e = o
      · subst heo; simp only [Mesh.setE, Function.update_self]; exact hg _
      · simp only [Mesh.setE, Function.update_of_ne heo]
    refine ⟨⟨rfl, rfl, rfl, rfl, rfl, rfl, key _ fun _ => rfl, key _ fun _ => rfl, key _ fun _ => rfl, key _ fun _ => rfl⟩, ?_⟩
    intro e
    by_cases heo : o = e
    · subst heo; simp [Mesh.setE]
    · rw [if_neg (by simpa using heo)]
      simp only [Mesh.setE, Function.update_of_ne (Ne.symm heo)]

theorem unlinkAll_spec : ∀ (l : List ℕ) (h : Mesh P), SameBut h (l.foldl Mesh.unlinkOpp h) ∧
    (∀ e, ((l.foldl Mesh.unlinkOpp h).he e).opp = (h.he e).opp ∨
      ((l.foldl Mesh.unlinkOpp h).he e).opp = none ∧ ∃ x ∈ l, (h.he x).opp = some e) ∧
    ∀ e, ∀ x ∈ l, (h.he x).opp = some e → (∀ y ∈ l, (h.he y).opp ≠ some x) → ((l.foldl Mesh.unlinkOpp h).he e).opp = none := by
  intro l
  induction l with
  | nil => intro h; exact ⟨SameBut.refl h, fun e => Or.inl rfl, by simp⟩
  | cons y l ih =>
    intro h
    obtain ⟨s1, s2⟩ := unlinkOpp_spec h y
    obtain ⟨t1, t2, t3⟩ := ih (h.unlinkOpp y)
    rw [List.foldl_cons]
    refine ⟨s1.trans t1, ?_, ?_⟩
    · intro e
      rcases t2 e with h1 | ⟨h1, x, hx, h2⟩
      · rw [s2 e] at h1
        by_cases hye : (h.he y).opp = some e
        · rw [if_pos hye] at h1
          exact Or.inr ⟨h1, y, by simp, hye⟩
        · rw [if_neg hye] at h1; exact Or.inl h1
      · refine Or.inr ⟨h1, x, by simp [hx], ?_⟩
        rw [s2 x] at h2
        split at h2
        · simp at h2
        · exact h2
    · intro e x hx hxe hno
      by_cases hye : (h.he y).opp = some e
      · have h0 : ((h.unlinkOpp y).he e).opp = none := by rw [s2 e, if_pos hye]
        rcases t2 e with h1 | ⟨h1, -⟩
        · rw [h1, h0]
        · exact h1
      · rcases List.mem_cons.mp hx with rfl | hx
        · exact absurd hxe hye
        · refine t3 e x hx ?_ ?_
          · rw [s2 x, if_neg (hno y (by simp)), hxe]
          · intro z hz hzx
            rw [s2 z] at hzx
            split at hzx
            · simp at hzx
            · exact hno z (by simp [hz]) hzx

/-- One face is removed. -/
theorem Spec.Valid.remove (H : Spec.Valid h (G ++ f :: F)) (t : Tri h f a b c) :
    Spec.Valid ([a, b, c].foldl Mesh.unlinkOpp h) (G ++ F) ∧ SameBut h ([a, b, c].foldl Mesh.unlinkOpp h) ∧
    ∀ e, Spec.Live h (G ++ F) e → (∃ o, (h.he e).opp = some o ∧ (h.he o).face = some f ∧ (([a, b, c].foldl Mesh.unlinkOpp h).he e).opp = none) ∨
      ((∀ o, (h.he e).opp = some o → (h.he o).face ≠ some f) ∧ (([a, b, c].foldl Mesh.unlinkOpp h).he e).opp = (h.he e).opp) := by
  obtain ⟨S, u1, u2⟩ := unlinkAll_spec [a, b, c] h
  generalize hh : [a, b, c].foldl Mesh.unlinkOpp h = h' at S u1 u2
  have hsub : ∀ g ∈ G ++ F, g ∈ G ++ f :: F ∧ g ≠ f := by
    intro g hg
    refine ⟨by simp only [List.mem_append, List.mem_cons] at hg ⊢; tauto, ?_⟩
    rintro rfl
    have := H.nodup
    rw [List.nodup_append] at this
    rcases List.mem_append.mp hg with hg | hg
    · exact absurd rfl (this.2.2 g hg g (by simp))
    · exact (List.nodup_cons.mp this.2.1).1 hg
  have hfF : f ∈ G ++ f :: F := by simp
  have hlf : ∀ x ∈ [a, b, c], Spec.Live h (G ++ f :: F) x ∧ (h.he x).face = some f := by
    intro x hx
    simp only [List.mem_cons, List.not_mem_nil, or_false] at hx
    rcases hx with rfl | rfl | rfl
    exacts [⟨⟨f, hfF, t.fa⟩, t.fa⟩, ⟨⟨f, hfF, t.fb⟩, t.fb⟩, ⟨⟨f, hfF, t.fc⟩, t.fc⟩]
  have hfl : ∀ x, (h.he x).face = some f → x ∈ [a, b, c] := fun x hx => by
    rcases t.own x hx with rfl | rfl | rfl <;> simp
  have hcase : ∀ e, Spec.Live h (G ++ F) e → (∃ o, (h.he e).opp = some o ∧ (h.he o).face = some f ∧ (h'.he e).opp = none) ∨
      ((∀ o, (h.he e).opp = some o → (h.he o).face ≠ some f) ∧ (h'.he e).opp = (h.he e).opp) := by
    rintro e ⟨g, hg, heg⟩
    obtain ⟨hg', hgf⟩ := hsub g hg
    have hef : (h.he e).face ≠ some f := by rw [heg]; simpa using hgf
    by_cases hc : ∃ o, (h.he e).opp = some o ∧ (h.he o).face = some f
    · obtain ⟨o, ho, hof⟩ := hc
      refine Or.inl ⟨o, ho, hof, u2 e o (hfl o hof) (H.opp e o ⟨g, hg', heg⟩ ho).2.1 ?_⟩
      intro y hy hyo
      have := (H.opp y o (hlf y hy).1 hyo).2.1
      rw [(H.opp e o ⟨g, hg', heg⟩ ho).2.1] at this
      cases this
      exact hef (hlf e hy).2
    · refine Or.inr ⟨fun o ho hof => hc ⟨o, ho, hof⟩, ?_⟩
      rcases u1 e with h1 | ⟨-, x, hx, hxe⟩
      · exact h1
      · exact absurd ⟨x, (H.opp x e (hlf x hx).1 hxe).2.1, (hlf x hx).2⟩ hc
  refine ⟨⟨?_, ?_, ?_, ?_, ?_, ?_⟩, S, hcase⟩
  · exact H.nodup.sublist (List.Sublist.append_left (List.sublist_cons_self f F) G)
  · intro g hg; rw [S.nF]; exact H.faces g (hsub g hg).1
  · intro e g he; rw [S.face] at he; rw [S.nE, S.nF]; exact H.edges e g he
  · intro g hg
    obtain ⟨x, y, z, t', hfe⟩ := H.tri (hsub g hg).1
    exact ⟨x, y, z, tri_iff.mpr ⟨S.tri t', by rw [S.fe]; exact hfe⟩⟩
  · intro e he
    rw [S.vertex, S.nV]
    obtain ⟨g, hg, heg⟩ := S.live.mp he
    exact H.vertex e ⟨g, (hsub g hg).1, heg⟩
  · intro e o he ho
    have hl := S.live.mp he
    have hl' : Spec.Live h (G ++ f :: F) e := by
      obtain ⟨g, hg, heg⟩ := hl; exact ⟨g, (hsub g hg).1, heg⟩
    rcases hcase e hl with ⟨o', -, -, h3⟩ | ⟨h1, h2⟩
    · rw [h3] at ho; cases ho
    · rw [h2] at ho
      obtain ⟨k1, k2, p, k3, k4⟩ := H.opp e o hl' ho
      obtain ⟨g, hg, hog⟩ := k1
      have hof := h1 o ho
      have hgGF : g ∈ G ++ F := by
        simp only [List.mem_append, List.mem_cons] at hg ⊢
        rcases hg with hg | rfl | hg
        · exact Or.inl hg
        · exact absurd hog hof
        · exact Or.inr hg
      have hlo : Spec.Live h (G ++ F) o := ⟨g, hgGF, hog⟩
      refine ⟨S.live.mpr hlo, ?_, p, by rw [S.prev]; exact k3, by rw [S.vertex, S.vertex]; exact k4⟩
      rcases hcase o hlo with ⟨e', q1, q2, -⟩ | ⟨-, q2⟩
      · rw [k2] at q1; cases q1
        obtain ⟨g', hg', heg'⟩ := hl
        rw [q2] at heg'; cases heg'
        exact absurd rfl (hsub f hg').2
      · rw [q2]; exact k2

/-- The face has the vertex as a corner. -/
def Spec.HasVertex (h : Mesh P) (v f : ℕ) : Prop := ∃ e, (h.he e).face = some f ∧ (h.he e).vertex = some v

open Classical in
theorem removeFaces_spec (v : ℕ) : ∀ (F G : List ℕ) (h : Mesh P), Spec.Valid h (G ++ F) →
    ∃ h', Mesh.removeFaces v h F = .ok (h', F.filter fun f => decide (¬Spec.HasVertex h v f)) ∧ SameBut h h' ∧
      Spec.Valid h' (G ++ F.filter fun f => decide (¬Spec.HasVertex h v f)) ∧
      ∀ e, Spec.Live h (G ++ F.filter fun f => decide (¬Spec.HasVertex h v f)) e →
        (∃ o g, (h.he e).opp = some o ∧ (h.he o).face = some g ∧ g ∈ F ∧ Spec.HasVertex h v g ∧ (h'.he e).opp = none) ∨
        ((∀ o g, (h.he e).opp = some o → (h.he o).face = some g → g ∈ F → ¬Spec.HasVertex h v g) ∧ (h'.he e).opp = (h.he e).opp) := by
  intro F
  induction F with
  | nil => intro G h H; exact ⟨h, rfl, SameBut.refl h, by simpa using H, fun e he => Or.inr ⟨by simp, rfl⟩⟩
  | cons f F ih =>
    intro G h H
    have hfF : f ∈ G ++ f :: F := by simp
    obtain ⟨a, b, c, t, hfe⟩ := H.tri hfF
    rw [Mesh.removeFaces, H.getFaceEdges t hfe, R_bind_ok]
    have hany : ([a, b, c].any fun e => decide ((h.he e).vertex = some v)) = true ↔ Spec.HasVertex h v f := by
      simp only [List.any_eq_true, decide_eq_true_eq]
      constructor
      · rintro ⟨x, hx, hv⟩
        simp only [List.mem_cons, List.not_mem_nil, or_false] at hx
        rcases hx with rfl | rfl | rfl
        exacts [⟨_, t.fa, hv⟩, ⟨_, t.fb, hv⟩, ⟨_, t.fc, hv⟩]
      · rintro ⟨x, hx, hv⟩
        refine ⟨x, ?_, hv⟩
        rcases t.own x hx with rfl | rfl | rfl <;> simp
    by_cases hv : Spec.HasVertex h v f
    · rw [if_pos (hany.mpr hv), List.filter_cons_of_neg (by simpa using hv)]
      obtain ⟨V1, S1, C1⟩ := H.remove t
      obtain ⟨h', r1, r2, r3, r4⟩ := ih G _ V1
      have hiff : ∀ g, Spec.HasVertex ([a, b, c].foldl Mesh.unlinkOpp h) v g ↔ Spec.HasVertex h v g := by
        intro g; unfold Spec.HasVertex; simp only [S1.face, S1.vertex]
      simp only [hiff] at r1 r3 r4
      refine ⟨h', r1, S1.trans r2, r3, ?_⟩
      intro e he
      have heGF : Spec.Live h (G ++ F) e := by
        obtain ⟨g, hg, heg⟩ := he
        refine ⟨g, ?_, heg⟩
        simp only [List.mem_append, List.mem_filter] at hg ⊢
        tauto
      rcases C1 e heGF with ⟨o, q1, q2, q3⟩ | ⟨q1, q2⟩
      · left
        refine ⟨o, f, q1, q2, by simp, hv, ?_⟩
        rcases r4 e (S1.live.mpr he) with ⟨o', g', p1, p2, p3, p4, p5⟩ | ⟨p1, p2⟩
        · exact p5
        · rw [p2, q3]
      · rcases r4 e (S1.live.mpr he) with ⟨o', g', p1, p2, p3, p4, p5⟩ | ⟨p1, p2⟩
        · left
          exact ⟨o', g', by rw [← q2]; exact p1, by rw [← S1.face]; exact p2, by simp [p3], p4, p5⟩
        · right
          refine ⟨?_, by rw [p2, q2]⟩
          intro o g ho hog hg
          rcases List.mem_cons.mp hg with rfl | hg
          · exact absurd hog (q1 o ho)
          · exact p1 o g (by rw [q2]; exact ho) (by rw [S1.face]; exact hog) hg
    · rw [if_neg (fun hh => hv (hany.mp hh)), List.filter_cons_of_pos (by simpa using hv)]
      obtain ⟨h', r1, r2, r3, r4⟩ := ih (G ++ [f]) h (by simpa using H)
      rw [r1, R_bind_ok]
      refine ⟨h', rfl, r2, by simpa using r3, ?_⟩
      intro e he
      rcases r4 e (by simpa using he) with ⟨o, g, q1, q2, q3, q4⟩ | ⟨q1, q2⟩
      · exact Or.inl ⟨o, g, q1, q2, by simp [q3], q4⟩
      · refine Or.inr ⟨?_, q2⟩
        intro o g ho hog hg
        rcases List.mem_cons.mp hg with rfl | hg
        · exact hv
        · exact q1 o g ho hog hg

open Classical in
/-- C71: `remove_faces` keeps exactly the faces that do not have the vertex, in the same order; the mesh is still correctly linked, a half-edge that is kept
loses its opposite exactly when the face on the other side is removed, and nothing else changes. -/
theorem C71_remove_faces (H : Spec.Valid h F) (v : ℕ) :
    ∃ h', Mesh.removeFaces v h F = .ok (h', F.filter fun f => decide (¬Spec.HasVertex h v f)) ∧ SameBut h h' ∧
      Spec.Valid h' (F.filter fun f => decide (¬Spec.HasVertex h v f)) ∧
      ∀ e, Spec.Live h (F.filter fun f => decide (¬Spec.HasVertex h v f)) e →
        (∃ o g, (h.he e).opp = some o ∧ (h.he o).face = some g ∧ g ∈ F ∧ Spec.HasVertex h v g ∧ (h'.he e).opp = none) ∨
        ((∀ o g, (h.he e).opp = some o → (h.he o).face = some g → g ∈ F → ¬Spec.HasVertex h v g) ∧ (h'.he e).opp = (h.he e).opp) := by
  simpa using removeFaces_spec v F [] h H

/-- The vertex 3 of two triangles is removed with its triangle. -/
example : ∃ h', Mesh.removeFaces 3 Sample.twoTris [0, 1] = .ok (h', [0]) ∧ Spec.Valid h' [0] ∧ (h'.he 1).opp = none := by
  classical
  obtain ⟨h', h1, h2, h3, h4⟩ := C71_remove_faces Sample.twoTris_valid 3
  have n0 : ¬Spec.HasVertex Sample.twoTris 3 0 := by
    rintro ⟨e, he, hv⟩
    have := (Sample.twoTris_valid.edges e 0 he).1
    change e < 6 at this
    interval_cases e <;> revert he hv <;> decide
  have n1 : Spec.HasVertex Sample.twoTris 3 1 := ⟨4, rfl, rfl⟩
  have hF : ([0, 1].filter fun f => decide (¬Spec.HasVertex Sample.twoTris 3 f)) = [0] := by simp [n0, n1]
  rw [hF] at h1 h3 h4
  refine ⟨h', h1, h3, ?_⟩
  rcases h4 1 ⟨0, by simp, rfl⟩ with ⟨o, g, -, -, -, -, h5⟩ | ⟨h5, -⟩
  · exact h5
  · exact absurd n1 (h5 3 1 rfl rfl (by simp))

end Gbs
