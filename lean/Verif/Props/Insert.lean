import Verif.Props.Refill
import Mathlib.Tactic.IntervalCases

/-!
# C42: insertion of a point
-/

set_option linter.unusedSectionVars false

namespace Gbs

variable {K : Type} [Field K] [LinearOrder K] [IsStrictOrderedRing K] {h h' : Mesh (K × K)} {F C l : List ℕ} {f a b c : ℕ} {xy : K × K}

/-- A loop seen counter-clockwise has at least three half-edges. -/
theorem Spec.Loop.three (hl : Spec.Loop h l) (hs : ∀ e ∈ l, 0 < Spec.side h e xy) : 3 ≤ l.length := by
  obtain ⟨hc, x, y, hx, hy, hxy⟩ := hl
  match l, hc, hx, hy with
  | [], _, hx, _ => simp at hx
  | [e], _, hx, hy =>
    simp at hx hy; subst hx; subst hy
    have := hs e (by simp)
    unfold Spec.side Spec.startPt Spec.endPt at this
    rw [hxy] at this
    unfold Spec.area2 at this
    linarith
  | [e, g], hc, hx, hy =>
    simp at hx hy; subst hx; subst hy
    have h1 := hs e (by simp)
    have h2 := hs g (by simp)
    have h3 := (List.isChain_cons_cons.mp hc).1
    unfold Spec.side Spec.startPt Spec.endPt at h1 h2
    rw [hxy] at h1
    rw [← h3] at h2
    unfold Spec.area2 at h1 h2
    linarith
  | _ :: _ :: _ :: _, _, _, _ => simp

/-- The loops around a cavity and the test. -/
theorem tryCavity (H : Spec.Valid h F) (hC : ∀ f ∈ C, f ∈ F) (hnd : C.Nodup) (xy : K × K) :
    ∃ ls r, h.getOrientedFacesBoundaries C = .ok ls ∧ h.isSingleStar xy ls = .ok r ∧
      (r = true ↔ ∃ l, ls = [l] ∧ ∀ e ∈ l, 0 < Spec.side h e xy) ∧ (∀ l, ls = [l] → Bordered h F C l) ∧
      ls.flatten.Nodup ∧ (∀ e, e ∈ ls.flatten ↔ Spec.Border h C e) ∧ ∀ l ∈ ls, Spec.Loop h l := by
  obtain ⟨ls, h1, h2, h3, h4⟩ := C43_oriented_boundaries H hC hnd
  have hne : ∀ l ∈ ls, l ≠ [] := by
    intro l hl
    obtain ⟨-, x, y, hx, -⟩ := h4 l hl
    rintro rfl; simp at hx
  obtain ⟨r, h5, h6⟩ := isSingleStar_spec H xy (ls := ls) fun l hl => ⟨hne l hl, fun e he => by
    obtain ⟨⟨f, hf, hef⟩, -⟩ := (h3 e).mp (List.mem_flatten.mpr ⟨l, hl, he⟩)
    exact ⟨f, hC f hf, hef⟩⟩
  refine ⟨ls, r, h1, h5, h6, ?_, h2, h3, h4⟩
  rintro l rfl
  exact ⟨hC, hnd, by simpa using h2, hne l (by simp), fun e => by simpa using h3 e, h4 l (by simp)⟩

/-- The seeds of a point on an edge between two faces: the other half-edges have it on their left. -/
theorem Spec.Valid.edge_sides (H : Spec.Valid h F) (hw : Spec.Ccw h F) {g e o : ℕ} (hf : f ∈ F) (hg : g ∈ F) (hin : Spec.InFace h f xy)
    (hnc : ¬Spec.IsCorner h f xy) (he : (h.he e).face = some f) (h0 : Spec.side h e xy = 0) (ho : (h.he e).opp = some o)
    (hog : (h.he o).face = some g) {b c b' c' : ℕ} (t : Tri h f e b c) (u : Tri h g o b' c') :
    0 < Spec.side h b xy ∧ 0 < Spec.side h c xy ∧ 0 < Spec.side h b' xy ∧ 0 < Spec.side h c' xy := by
  have hwf := hw f hf
  rw [H.faceArea2 hf t] at hwf
  have hwg := hw g hg
  rw [H.faceArea2 hg u] at hwg
  obtain ⟨h1, h2⟩ := t.on_edge hwf hin hnc h0
  refine ⟨h1, h2, ?_⟩
  obtain ⟨p1, p2⟩ := H.opp_pts ⟨f, hf, he⟩ ho
  rw [t.startPt] at p2
  rw [u.startPt] at p1
  rw [p1, p2] at hwg
  rw [Spec.side, t.startPt] at h0
  rw [Spec.side, t.rotate.startPt] at h1
  rw [Spec.side, t.rotate.rotate.startPt] at h2
  rw [Spec.side, Spec.side, u.rotate.startPt, u.rotate.rotate.startPt, p1, p2]
  generalize Spec.endPt h e = Q at *
  generalize Spec.endPt h b = X at *
  generalize Spec.endPt h c = P at *
  generalize Spec.endPt h b' = D at *
  have k1 : Spec.area2 P D xy * Spec.area2 Q X P = Spec.area2 P D Q * Spec.area2 X P xy + Spec.area2 P D X * Spec.area2 P Q xy := by
    unfold Spec.area2; ring
  have k2 : Spec.area2 D Q xy * Spec.area2 Q X P = Spec.area2 D Q P * Spec.area2 Q X xy + Spec.area2 D Q X * Spec.area2 P Q xy := by
    unfold Spec.area2; ring
  have e1 : Spec.area2 P D Q = Spec.area2 P D Q := rfl
  have e2 : Spec.area2 D Q P = Spec.area2 P D Q := by unfold Spec.area2; ring
  rw [h0, mul_zero, add_zero] at k1 k2
  have q1 : 0 < Spec.area2 P D xy * Spec.area2 Q X P := by rw [k1]; exact mul_pos hwg h2
  have q2 : 0 < Spec.area2 D Q xy * Spec.area2 Q X P := by rw [k2, e2]; exact mul_pos hwg h1
  exact ⟨(mul_pos_iff_of_pos_right hwf).mp q1, (mul_pos_iff_of_pos_right hwf).mp q2⟩

theorem length_flatten_three : ∀ (ls : List (List ℕ)), (∀ l ∈ ls, 3 ≤ l.length) → 3 * ls.length ≤ ls.flatten.length := by
  intro ls
  induction ls with
  | nil => simp
  | cons l ls ih =>
    intro hl
    have := ih fun x hx => hl x (by simp [hx])
    have := hl l (by simp)
    rw [List.flatten_cons, List.length_append, List.length_cons]; omega

/-- The border of the seeds is one loop seen counter-clockwise, unless the point is on an outer edge. -/
theorem Seeds.fallback (H : Spec.Valid h F) (hw : Spec.Ccw h F) {s : List ℕ}
    (hs : (∃ f, f ∈ F ∧ Spec.InsideFace h f xy ∧ s = [f]) ∨ ∃ f g e o, f ∈ F ∧ g ∈ F ∧ Spec.InFace h f xy ∧ ¬Spec.IsCorner h f xy ∧
      (h.he e).face = some f ∧ Spec.side h e xy = 0 ∧ (h.he e).opp = some o ∧ (h.he o).face = some g ∧ s = [f, g])
    {ls : List (List ℕ)} (hnd : ls.flatten.Nodup) (hmem : ∀ e, e ∈ ls.flatten ↔ Spec.Border h s e) (hloop : ∀ l ∈ ls, Spec.Loop h l) :
    ∃ l, ls = [l] ∧ ∀ e ∈ l, 0 < Spec.side h e xy := by
  -- sides, at most five half-edges, at least one
  suffices hkey : (∀ e ∈ ls.flatten, 0 < Spec.side h e xy) ∧ ls.flatten.length ≤ 5 ∧ ls.flatten ≠ [] by
    obtain ⟨k1, k2, k3⟩ := hkey
    have h3 := length_flatten_three ls fun l hl => (hloop l hl).three fun e he => k1 e (List.mem_flatten.mpr ⟨l, hl, he⟩)
    match ls with
    | [] => simp at k3
    | [l] => exact ⟨l, rfl, fun e he => k1 e (by simpa using he)⟩
    | _ :: _ :: _ => simp only [List.length_cons] at h3; omega
  rcases hs with ⟨f, hf, hin, rfl⟩ | ⟨f, g, e, o, hf, hg, hin, hnc, he, h0, ho, hog, rfl⟩
  · obtain ⟨a, b, c, t, -⟩ := H.tri hf
    have hface : ∀ e ∈ ls.flatten, (h.he e).face = some f := by
      intro e he
      obtain ⟨⟨g, hg, heg⟩, -⟩ := (hmem e).mp he
      simp at hg; subst hg; exact heg
    refine ⟨fun e he => hin e (hface e he), ?_, ?_⟩
    · have : ls.flatten.length ≤ [a, b, c].length := (hnd.subperm fun e he => by
        rcases t.own e (hface e he) with rfl | rfl | rfl <;> simp).length_le
      simp only [List.length_cons, List.length_nil] at this
      omega
    · have ha : a ∈ ls.flatten := (hmem a).mpr ⟨⟨f, by simp, t.fa⟩, fun o ho g hg => by
        simp at hg; subst hg
        exact H.not_self hw hf t.fa ho⟩
      intro hc; rw [hc] at ha; simp at ha
  · obtain ⟨b, c, t⟩ := H.triAt hf he
    obtain ⟨b', c', u⟩ := H.triAt hg hog
    obtain ⟨s1, s2, s3, s4⟩ := H.edge_sides hw hf hg hin hnc he h0 ho hog t u
    have hoe : (h.he o).opp = some e := (H.opp_start ⟨f, hf, he⟩ ho).2.1
    have hface : ∀ x ∈ ls.flatten, x ∈ [b, c, b', c'] := by
      intro x hx
      obtain ⟨⟨k, hk, hxk⟩, hopp⟩ := (hmem x).mp hx
      simp at hk
      rcases hk with rfl | rfl
      · rcases t.own x hxk with rfl | rfl | rfl
        · exact absurd hog (hopp o ho g (by simp))
        · simp
        · simp
      · rcases u.own x hxk with rfl | rfl | rfl
        · exact absurd he (hopp e hoe f (by simp))
        · simp
        · simp
    refine ⟨?_, ?_, ?_⟩
    · intro x hx
      have := hface x hx
      simp at this
      rcases this with rfl | rfl | rfl | rfl <;> assumption
    · have : ls.flatten.length ≤ [b, c, b', c'].length := (hnd.subperm hface).length_le
      simp only [List.length_cons, List.length_nil] at this
      omega
    · have hb : b ∈ ls.flatten := (hmem b).mpr ⟨⟨f, by simp, t.fb⟩, fun x hx k hk hxk => by
        simp at hk
        rcases hk with rfl | rfl
        · exact H.not_self hw hf t.fb hx hxk
        · exact t.ab.symm (H.share_one hw hf hg he ho hog t.fb hx hxk)⟩
      intro hc; rw [hc] at hb; simp at hb

/-- On an outer edge no cavity passes the test. -/
theorem outer_refused (hmemC : f ∈ C) {e : ℕ} (he : (h.he e).face = some f) (h0 : Spec.side h e xy = 0) (ho : (h.he e).opp = none)
    {ls : List (List ℕ)} (hmem : ∀ e, e ∈ ls.flatten ↔ Spec.Border h C e) : ¬∃ l, ls = [l] ∧ ∀ e ∈ l, 0 < Spec.side h e xy := by
  rintro ⟨l, rfl, hp⟩
  have hel : e ∈ [l].flatten := (hmem e).mpr ⟨⟨f, hmemC, he⟩, fun o ho' => by rw [ho] at ho'; simp at ho'⟩
  have := hp e (by simpa using hel)
  rw [h0] at this
  exact lt_irrefl _ this

/-- Why the point is not inserted. -/
def Refused (h : Mesh (K × K)) (F : List ℕ) (xy : K × K) : Prop :=
  (∃ f ∈ F, Spec.IsCorner h f xy) ∨ (∀ f ∈ F, ¬Spec.InFace h f xy) ∨
    ∃ f e, f ∈ F ∧ (h.he e).face = some f ∧ (h.he e).opp = none ∧ Spec.InFace h f xy ∧ Spec.side h e xy = 0

/-- What `boyerWatson` does. -/
theorem boyerWatson_spec (H : Spec.Valid h F) (hw : Spec.Ccw h F) (xy : K × K) :
    ∃ s r, h.boyerWatson F xy = .ok (s, r) ∧
      ((r = none ∧ s = (h, F) ∧ Refused h F xy) ∨
      ∃ sd C l h', Seeds h F xy sd ∧ (∀ f ∈ sd, f ∈ C) ∧
        (Grown h F sd xy C [] ∨ C = sd ∧ ∃ C' ls, Grown h F sd xy C' [] ∧ ls.flatten.Nodup ∧ (∀ e, e ∈ ls.flatten ↔ Spec.Border h C' e) ∧
          (∀ l ∈ ls, Spec.Loop h l) ∧ ¬∃ l, ls = [l] ∧ ∀ e ∈ l, 0 < Spec.side h e xy) ∧
        Bordered h F C l ∧ (∀ e ∈ l, 0 < Spec.side h e xy) ∧ Refilled h h' F C l xy ∧
        s = (h', F.filter (fun f => decide (f ∉ C)) ++ (List.range l.length).map (h.nF + ·)) ∧
        r = some (h.nV, F.filter (fun f => decide (f ∈ C)), (List.range l.length).map (h.nF + ·))) := by
  unfold Mesh.boyerWatson
  obtain ⟨r, h1, h2⟩ := H.locate_spec xy F fun _ h => h
  rw [h1, R_bind_ok]
  rcases h2 with ⟨rfl, hc⟩ | ⟨rfl, hc⟩ | ⟨sd, rfl, hs⟩
  · exact ⟨(h, F), none, rfl, Or.inl ⟨rfl, rfl, Or.inl hc⟩⟩
  · exact ⟨(h, F), none, rfl, Or.inl ⟨rfl, rfl, Or.inr (Or.inl hc)⟩⟩
  · obtain ⟨x, rest, rfl⟩ := List.exists_cons_of_ne_nil hs.ne_nil
    simp only
    obtain ⟨C, g1, g2⟩ := hs.grow H hw
    rw [g1, R_bind_ok]
    obtain ⟨ls, r, t1, t2, t3, t4, t5, t6, t7⟩ := tryCavity H g2.sub g2.nodup xy
    rw [t1, R_bind_ok, t2, R_bind_ok]
    by_cases hr : r = true
    · obtain ⟨l, rfl, hp⟩ := t3.mp hr
      obtain ⟨h', f1, f2⟩ := fillCavity_spec H (t4 l rfl) xy
      rw [if_pos hr, f1]
      exact ⟨_, _, rfl, Or.inr ⟨_, C, l, h', hs, g2.seeds, Or.inl g2, t4 l rfl, hp, f2, rfl, rfl⟩⟩
    · rw [if_neg hr]
      obtain ⟨ls', r', u1, u2, u3, u4, u5, u6, u7⟩ := tryCavity H hs.mem (hs.nodup H hw) xy
      rw [u1, R_bind_ok, u2, R_bind_ok]
      by_cases hr' : r' = true
      · obtain ⟨l, rfl, hp⟩ := u3.mp hr'
        obtain ⟨h', f1, f2⟩ := fillCavity_spec H (u4 l rfl) xy
        rw [if_pos hr', f1]
        exact ⟨_, _, rfl, Or.inr ⟨_, _, l, h', hs, fun _ h => h, Or.inr ⟨rfl, C, ls, g2, t5, t6, t7, fun hh => hr (t3.mpr hh)⟩, u4 l rfl, hp, f2, rfl, rfl⟩⟩
      · rw [if_neg hr']
        refine ⟨_, _, rfl, Or.inl ⟨rfl, rfl, Or.inr (Or.inr ?_)⟩⟩
        have hno : ¬∃ l, ls' = [l] ∧ ∀ e ∈ l, 0 < Spec.side h e xy := fun hh => hr' (u3.mpr hh)
        generalize hsd : x :: rest = sd at *
        cases hs with
        | @inside f hf hin => exact absurd (Seeds.fallback H hw (Or.inl ⟨f, hf, hin, rfl⟩) u5 u6 u7) hno
        | @edge f g e o hf hg hin hnc he h0 ho hog =>
          exact absurd (Seeds.fallback H hw (Or.inr ⟨f, g, e, o, hf, hg, hin, hnc, he, h0, ho, hog, rfl⟩) u5 u6 u7) hno
        | @outer f e hf hin hnc he h0 ho => exact ⟨f, e, hf, he, ho, hin, h0⟩

/-! ## Number of faces that contain a point -/

open Classical in
/-- The number of faces of the list that have the point strictly inside. -/
noncomputable def Spec.cover (h : Mesh (K × K)) (F : List ℕ) (p : K × K) : ℕ := F.countP fun f => decide (Spec.InsideFace h f p)

/-- The point is on the line of no side of a face. -/
def Spec.Generic (h : Mesh (K × K)) (F : List ℕ) (p : K × K) : Prop := ∀ e, Spec.Live h F e → Spec.side h e p ≠ 0

/-- The signed crossings of a face. -/
theorem Spec.Valid.faceCrossing (H : Spec.Valid h F) (hw : Spec.Ccw h F) (hf : f ∈ F) (p : K × K) :
    (faceSum (crossing p) h f = 0 ∨ faceSum (crossing p) h f = 1) ∧ (faceSum (crossing p) h f = 1 → Spec.InFace h f p) ∧
      (Spec.InsideFace h f p → faceSum (crossing p) h f = 1) := by
  obtain ⟨a, b, c, t, -⟩ := H.tri hf
  have hpos := hw f hf
  rw [H.faceArea2 hf t] at hpos
  have hs := triCrossing_spec (p := p) hpos
  rw [H.faceSumTri (crossing p) hf t]
  unfold triCrossing InClosed InOpen at hs
  refine ⟨hs.1, fun h1 => t.inFace.mpr ?_, fun h1 => hs.2.2 ?_⟩
  · obtain ⟨q1, q2, q3⟩ := hs.2.1 h1
    unfold Spec.side
    rw [t.startPt, t.rotate.startPt, t.rotate.rotate.startPt]
    exact ⟨q3, q1, q2⟩
  · obtain ⟨q1, q2, q3⟩ := t.insideFace.mp h1
    unfold Spec.side at q1 q2 q3
    rw [t.startPt] at q1
    rw [t.rotate.startPt] at q2
    rw [t.rotate.rotate.startPt] at q3
    exact ⟨q2, q3, q1⟩

theorem Spec.Valid.cover_eq (H : Spec.Valid h F) (hw : Spec.Ccw h F) {p : K × K} (hp : Spec.Generic h F p) :
    (Spec.cover h F p : ℤ) = (F.map (faceSum (crossing p) h)).sum := by
  classical
  unfold Spec.cover
  rw [countP_eq_sum]
  congr 1
  apply List.map_congr_left
  intro f hf
  obtain ⟨h1, h2, h3⟩ := H.faceCrossing hw hf p
  by_cases hin : Spec.InsideFace h f p
  · rw [if_pos hin, h3 hin]
  · rw [if_neg hin]
    rcases h1 with h1 | h1
    · rw [h1]
    · exact absurd (fun e he => lt_of_le_of_ne (h2 h1 e he) (hp e ⟨f, hf, he⟩).symm) hin

/-- The area of a face as a sum over its sides. -/
theorem faceArea2_eq_sum : Spec.faceArea2 h f = faceSum (fun p q => p.1 * q.2 - p.2 * q.1) h f := by
  unfold Spec.faceArea2 faceSum Spec.area2
  simp only; ring

/-- C42: on a valid mesh of counter-clockwise triangles `boyerWatson` has no undefined behaviour and ends. Either it leaves the mesh as it is, or it replaces
some triangles by new ones, each of which has the new point as a corner; the mesh is valid again, its triangles are strictly counter-clockwise, the sum of
their areas is the same, every point which is on the line of no side is inside as many triangles as before, and the other triangles are unchanged. -/
theorem C42_insert (H : Spec.Valid h F) (hw : Spec.Ccw h F) (xy : K × K) :
    ∃ h' F' r, h.boyerWatson F xy = .ok ((h', F'), r) ∧
      ((r = none ∧ h' = h ∧ F' = F) ∨
      ∃ del new, r = some (h.nV, del, new) ∧ F' = F.filter (fun f => decide (f ∉ del)) ++ new ∧ del ≠ [] ∧ (∀ f ∈ del, f ∈ F) ∧ new ≠ [] ∧
        (∀ f ∈ new, f ∉ F ∧ ∃ a b c, Tri h' f a b c ∧ (h'.he a).vertex = some h.nV) ∧
        h'.co h.nV = xy ∧ (∀ u < h.nV, h'.co u = h.co u) ∧ h'.nV = h.nV + 1 ∧
        Spec.Valid h' F' ∧ Spec.Ccw h' F' ∧ (F'.map (Spec.faceArea2 h')).sum = (F.map (Spec.faceArea2 h)).sum ∧
        (∀ p, Spec.Generic h F p → Spec.Generic h' F' p → Spec.cover h' F' p = Spec.cover h F p) ∧
        (∀ f ∈ F, f ∉ del → h'.fe f = h.fe f ∧ ∀ e, (h.he e).face = some f → h'.he e = h.he e)) := by
  obtain ⟨⟨h', F'⟩, r, h1, h2⟩ := boyerWatson_spec H hw xy
  refine ⟨h', F', r, h1, ?_⟩
  rcases h2 with ⟨h2, h3, -⟩ | ⟨sd, C, l, h'', hs, hsC, -, B, hp, R, hss, hr⟩
  · simp only [Prod.mk.injEq] at h3
    exact Or.inl ⟨h2, h3⟩
  · right
    simp only [Prod.mk.injEq] at hss
    obtain ⟨rfl, hF'⟩ := hss
    have hdel : ∀ f ∈ F, (f ∈ F.filter (fun f => decide (f ∈ C)) ↔ f ∈ C) := by
      intro f hf; simp [hf]
    have hfil : F.filter (fun f => decide (f ∉ F.filter (fun f => decide (f ∈ C)))) = F.filter (fun f => decide (f ∉ C)) := by
      apply List.filter_congr
      intro f hf
      rw [decide_eq_decide, hdel f hf]
    have hV := R.valid
    have hW := R.ccw H hw B hp
    refine ⟨_, _, hr, by rw [hfil, hF'], ?_, ?_, ?_, ?_, R.co_new, fun u hu => R.co_old hu, R.nV, by rw [hF']; exact hV, by rw [hF']; exact hW, ?_, ?_, ?_⟩
    · obtain ⟨x, rest, rfl⟩ := List.exists_cons_of_ne_nil hs.ne_nil
      intro hc
      have hx : x ∈ F.filter (fun f => decide (f ∈ C)) := (hdel x (hs.mem x (by simp))).mpr (hsC x (by simp))
      rw [hc] at hx; simp at hx
    · intro f hf
      exact (List.mem_filter.mp hf).1
    · simpa using B.ne
    · intro f hf
      obtain ⟨i, hi, rfl⟩ := mem_new.mp hf
      refine ⟨fun hc => absurd (H.faces _ hc) (by omega), ?_⟩
      obtain ⟨a, b, t, -, q, -⟩ := R.tris i hi
      exact ⟨a, b, l[i], t.rotate, q⟩
    · rw [hF']
      have := R.conserve (A := K) (fun x hx => by linarith) (fun p q => p.1 * q.2 - p.2 * q.1) (fun p q => by ring) H B
      have e : ∀ m : Mesh (K × K), Spec.faceArea2 m = faceSum (fun p q => p.1 * q.2 - p.2 * q.1) m := fun m => funext fun _ => faceArea2_eq_sum
      rw [e, e]; exact this
    · intro p hp1 hp2
      have := R.conserve (A := ℤ) (fun x hx => by omega) (crossing p) (fun a b => crossing_swap p a b) H B
      rw [hF'] at hp2 ⊢
      have e1 := H.cover_eq hw hp1
      have e2 := hV.cover_eq hW hp2
      rw [← e1, ← e2] at this
      exact_mod_cast this
    · intro f hf hfd
      have hfC : f ∉ C := fun hc => hfd ((hdel f hf).mpr hc)
      exact ⟨R.fe f (H.faces f hf), fun e he => (R.kept H B hf hfC he).1⟩

/-- C42: a point of the mesh which is neither a corner of a face nor on an edge without a face on the other side is inserted. -/
theorem C42_inserted (H : Spec.Valid h F) (hw : Spec.Ccw h F) (hin : ∃ f ∈ F, Spec.InFace h f xy) (hc : ∀ f ∈ F, ¬Spec.IsCorner h f xy)
    (ho : ∀ f ∈ F, ∀ e, (h.he e).face = some f → Spec.InFace h f xy → Spec.side h e xy = 0 → (h.he e).opp ≠ none) :
    ∃ s v del new, h.boyerWatson F xy = .ok (s, some (v, del, new)) := by
  obtain ⟨s, r, h1, h2⟩ := boyerWatson_spec H hw xy
  rcases h2 with ⟨-, -, h3⟩ | ⟨sd, C, l, h'', hs, hsC, -, B, hp, R, hss, hr⟩
  · exfalso
    rcases h3 with ⟨f, hf, hfc⟩ | h3 | ⟨f, e, hf, he, hopp, hfi, h0⟩
    · exact hc f hf hfc
    · obtain ⟨f, hf, hfi⟩ := hin
      exact h3 f hf hfi
    · exact ho f hf e he hfi h0 hopp
  · exact ⟨s, _, _, _, by rw [h1, hr]⟩

/-- C42: a point out of all the faces is not inserted, nor is one on an edge without a face on the other side when no other face has it: the comment of the
code says that the smallest cavity always works. -/
theorem C42_refused (H : Spec.Valid h F) (hw : Spec.Ccw h F)
    (hr : (∀ f ∈ F, ¬Spec.InFace h f xy) ∨ ∃ f e, f ∈ F ∧ (h.he e).face = some f ∧ (h.he e).opp = none ∧ Spec.side h e xy = 0 ∧
      ∀ g ∈ F, Spec.InFace h g xy → g = f) : h.boyerWatson F xy = .ok ((h, F), none) := by
  obtain ⟨s, r, h1, h2⟩ := boyerWatson_spec H hw xy
  rcases h2 with ⟨rfl, rfl, -⟩ | ⟨sd, C, l, h'', hs, hsC, -, B, hp, R, hss, -⟩
  · exact h1
  · exfalso
    obtain ⟨x, hx, hxF, hxi⟩ : ∃ x, x ∈ sd ∧ x ∈ F ∧ Spec.InFace h x xy := by
      cases hs with
      | inside hf hin => exact ⟨_, by simp, hf, fun e he => (hin e he).le⟩
      | edge hf hg hin => exact ⟨_, by simp, hf, hin⟩
      | outer hf hin => exact ⟨_, by simp, hf, hin⟩
    rcases hr with hr | ⟨f, e, hf, he, hopp, h0, hu⟩
    · exact hr x hxF hxi
    · have := hu x hxF hxi
      subst this
      have hel : e ∈ l := (B.mem e).mpr ⟨⟨x, hsC x hx, he⟩, fun o ho => by rw [hopp] at ho; simp at ho⟩
      have := hp e hel
      rw [h0] at this
      exact lt_irrefl _ this

/-! ## The hypotheses are met -/

/-- A square cut in two. -/
def Sample.squareMesh : Mesh (ℚ × ℚ) :=
  ⟨Sample.twoTris.he, fun v => if v = 1 then (4, 0) else if v = 2 then (0, 4) else if v = 3 then (4, 4) else (0, 0), Sample.twoTris.ve, Sample.twoTris.fe,
    6, 4, 2⟩

theorem Sample.squareMesh_valid : Spec.Valid Sample.squareMesh [0, 1] :=
  ⟨Sample.twoTris_valid.nodup, Sample.twoTris_valid.faces, Sample.twoTris_valid.edges, Sample.twoTris_valid.ring, Sample.twoTris_valid.vertex,
    Sample.twoTris_valid.opp⟩

theorem Sample.squareMesh_ccw : Spec.Ccw Sample.squareMesh [0, 1] := by
  intro f hf
  simp at hf
  rcases hf with rfl | rfl <;> decide +kernel

example : ∃ s v del new, Sample.squareMesh.boyerWatson [0, 1] (1, 1) = .ok (s, some (v, del, new)) ∧ Spec.Valid s.1 s.2 ∧
    (s.2.map (Spec.faceArea2 s.1)).sum = 32 := by
  have hin : ∃ f ∈ [0, 1], Spec.InFace Sample.squareMesh f (1, 1) := by
    refine ⟨0, by simp, ?_⟩
    intro e he
    have := (Sample.squareMesh_valid.edges e 0 he).1
    change e < 6 at this
    interval_cases e <;> first | decide +kernel | (simp [Sample.squareMesh, Sample.twoTris] at he)
  obtain ⟨s, v, del, new, h1⟩ := C42_inserted Sample.squareMesh_valid Sample.squareMesh_ccw (xy := (1, 1)) hin (by
    rintro f hf ⟨e, he, hc⟩
    have := (Sample.squareMesh_valid.edges e f he).1
    change e < 6 at this
    revert hc
    interval_cases e <;> decide +kernel) (by
    intro f hf e he _ h0
    have := (Sample.squareMesh_valid.edges e f he).1
    change e < 6 at this
    revert h0
    interval_cases e <;> decide +kernel)
  obtain ⟨h', F', r, g1, g2⟩ := C42_insert Sample.squareMesh_valid Sample.squareMesh_ccw (1, 1)
  rw [h1] at g1
  cases g1
  rcases g2 with ⟨g2, -⟩ | ⟨del', new', -, -, -, -, -, -, -, -, -, k1, -, k2, -⟩
  · simp at g2
  · refine ⟨_, v, del, new, h1, k1, k2.trans ?_⟩
    decide +kernel

/-- The middle of an outer edge of the square is not inserted. -/
example : Sample.squareMesh.boyerWatson [0, 1] (2, 0) = .ok ((Sample.squareMesh, [0, 1]), none) := by
  refine C42_refused Sample.squareMesh_valid Sample.squareMesh_ccw (Or.inr ⟨0, 0, by simp, rfl, rfl, by decide +kernel, ?_⟩)
  intro g hg hin
  simp at hg
  rcases hg with rfl | rfl
  · rfl
  · exact absurd (hin 3 rfl) (by decide +kernel)

end Gbs
