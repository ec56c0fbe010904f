import Verif.Props.Delaunay
import Verif.Props.MeshRemove

/-!
# C70: the triangulation of a list of points
-/

set_option linter.unusedSectionVars false

namespace Gbs

variable {K : Type} [Field K] [LinearOrder K] [IsStrictOrderedRing K] {h h' : Mesh (K × K)} {F : List ℕ} {f a b c : ℕ} {xy : K × K}

/-- Two triangles make a rectangle. -/
structure Rect (h : Mesh (K × K)) (lo hi : K × K) : Prop where
  e0 : h.he 0 = ⟨some 0, some 0, some 1, some 2, none⟩
  e1 : h.he 1 = ⟨some 1, some 0, some 2, some 0, some 3⟩
  e2 : h.he 2 = ⟨some 2, some 0, some 0, some 1, none⟩
  e3 : h.he 3 = ⟨some 0, some 1, some 5, some 4, some 1⟩
  e4 : h.he 4 = ⟨some 1, some 1, some 3, some 5, none⟩
  e5 : h.he 5 = ⟨some 3, some 1, some 4, some 3, none⟩
  other : ∀ e, 6 ≤ e → (h.he e).face = none
  c0 : h.co 0 = (hi.1, lo.2)
  c1 : h.co 1 = (lo.1, hi.2)
  c2 : h.co 2 = lo
  c3 : h.co 3 = hi
  f0 : h.fe 0 = some 0
  f1 : h.fe 1 = some 4
  nE : h.nE = 6
  nV : h.nV = 4
  nF : h.nF = 2

/-- The construction of the rectangle. -/
def rectOf (lo hi : K × K) : R (Mesh (K × K) × List ℕ) := do
  let (h, e1) := Mesh.empty.newEdgeAt (hi.1, lo.2)
  let (h, e2) := h.newEdgeAt (lo.1, hi.2)
  let (h, e3) := h.newEdgeAt lo
  let (h, f1) ← h.makeFace [e1, e2, e3]
  let f1 ← deref f1
  let (h, f2) ← h.addFace f1 (some e2) hi
  let f2 ← deref f2
  pure (h, [f1, f2])

/-- The three first half-edges. -/
def rect3 (lo hi : K × K) : Mesh (K × K) := ((((Mesh.empty.newEdgeAt (hi.1, lo.2)).1).newEdgeAt (lo.1, hi.2)).1.newEdgeAt lo).1

theorem rect3_he (lo hi : K × K) (e : ℕ) : (rect3 lo hi).he e = if e < 3 then ⟨some e, none, none, none, none⟩ else {} := by
  match e with
  | 0 => rfl
  | 1 => rfl
  | 2 => rfl
  | n + 3 => rw [if_neg (by omega)]; rfl

theorem rectOf_spec (lo hi : K × K) : ∃ h, rectOf lo hi = .ok (h, [0, 1]) ∧ Rect h lo hi := by
  obtain ⟨h1, a1, a2, a3, a4, a5, a6, a7, a8, a9, a10, a11⟩ := (rect3 lo hi).makeFace3 (a := 0) (b := 1) (c := 2) (by decide) (by decide) (by decide)
  simp only [rect3_he] at a8 a9 a10 a11
  have n1 : (rect3 lo hi).nF = 0 := rfl
  have n2 : (rect3 lo hi).nE = 3 := rfl
  have n3 : (rect3 lo hi).nV = 3 := rfl
  simp only [n1, n2, n3] at a1 a2 a5 a6 a7 a8 a9 a10
  obtain ⟨h2, b1, b2, b3, b4, b5, b6, b7, b8, b9, b10, b11, b12, -⟩ := addFaceBody_spec h1 (e := 1) (p := 0) (s := 0) (t := 1) hi (by omega)
    (by rw [a9]) (by rw [a8]; rfl) (by rw [a9]; rfl)
  rw [a5] at b2 b8 b9 b10 b6 b7 b12
  rw [a7] at b1 b3 b6 b8 b9 b10
  rw [a6] at b4 b5 b10
  refine ⟨h2, ?_, ?_⟩
  · have e1 : rectOf lo hi = ((rect3 lo hi).makeFace [0, 1, 2] >>= fun x => do
        let f1 ← deref x.2
        let (h, f2) ← x.1.addFace f1 (some 1) hi
        let f2 ← deref f2
        pure (h, [f1, f2])) := rfl
    rw [e1, a1, R_bind_ok]
    have e2 : h1.addFace 0 (some 1) hi = h1.addFaceBody 1 hi := by
      simp [Mesh.addFace, a9]
    show (h1.addFace 0 (some 1) hi >>= _) = _
    rw [e2, b1, R_bind_ok]
    rfl
  · have o : ∀ e, 6 ≤ e → h2.he e = {} := by
      intro e he
      rw [b12 e (by omega), a11 e (by omega) (by omega) (by omega), if_neg (by omega)]
    refine ⟨?_, ?_, ?_, b8, b9, b10, fun e he => by rw [o e he], ?_, ?_, ?_, ?_, ?_, ?_, by omega, by omega, by omega⟩
    · rw [b11 0 (by omega) (by omega), a8]; rfl
    · rw [b7, a9]; rfl
    · rw [b11 2 (by omega) (by omega), a10]; rfl
    · rw [b5, a3]; rfl
    · rw [b5, a3]; rfl
    · rw [b5, a3]; rfl
    · rw [b5]; rfl
    · rw [b6, a2]; rfl
    · rw [b6]; rfl

variable {lo hi : K × K}

theorem Rect.cases (R : Rect h lo hi) {e f : ℕ} (he : (h.he e).face = some f) :
    (f = 0 ∧ (e = 0 ∨ e = 1 ∨ e = 2)) ∨ (f = 1 ∧ (e = 3 ∨ e = 4 ∨ e = 5)) := by
  rcases Nat.lt_or_ge e 6 with h6 | h6
  · have h' := he
    interval_cases e <;> simp [R.e0, R.e1, R.e2, R.e3, R.e4, R.e5] at h' <;> omega
  · rw [R.other e h6] at he; cases he

theorem Rect.tri0 (R : Rect h lo hi) : Tri h 0 0 1 2 := by
  refine ⟨by decide, by decide, by decide, ?_, ?_, ?_, ?_, ?_, ?_, ?_, ?_, ?_, ?_⟩ <;> try simp [R.e0, R.e1, R.e2]
  intro e he
  rcases R.cases he with ⟨-, hh⟩ | ⟨hh, -⟩
  · exact hh
  · simp at hh

theorem Rect.tri1 (R : Rect h lo hi) : Tri h 1 4 3 5 := by
  refine ⟨by decide, by decide, by decide, ?_, ?_, ?_, ?_, ?_, ?_, ?_, ?_, ?_, ?_⟩ <;> try simp [R.e3, R.e4, R.e5]
  intro e he
  rcases R.cases he with ⟨hh, -⟩ | ⟨-, hh⟩
  · simp at hh
  · tauto

theorem Rect.valid (R : Rect h lo hi) : Spec.Valid h [0, 1] := by
  refine Spec.Valid.of_tri (by decide) ?_ ?_ ?_ ?_ ?_
  · intro f hf; rw [R.nF]; simp at hf; omega
  · intro e f he
    rw [R.nE, R.nF]
    rcases R.cases he with ⟨rfl, h1⟩ | ⟨rfl, h1⟩ <;> omega
  · intro f hf
    simp at hf
    rcases hf with rfl | rfl
    exacts [⟨0, 1, 2, R.tri0, R.f0⟩, ⟨4, 3, 5, R.tri1, R.f1⟩]
  · rintro e ⟨f, -, he⟩
    rw [R.nV]
    rcases R.cases he with ⟨-, rfl | rfl | rfl⟩ | ⟨-, rfl | rfl | rfl⟩ <;> simp [R.e0, R.e1, R.e2, R.e3, R.e4, R.e5]
  · rintro e o ⟨f, -, he⟩ ho
    rcases R.cases he with ⟨-, rfl | rfl | rfl⟩ | ⟨-, rfl | rfl | rfl⟩ <;> simp [R.e0, R.e1, R.e2, R.e3, R.e4, R.e5] at ho <;> subst ho
    · exact ⟨⟨1, by simp, by rw [R.e3]⟩, by rw [R.e3], by simp [Spec.start, R.e3, R.e1, R.e0]⟩
    · exact ⟨⟨0, by simp, by rw [R.e1]⟩, by rw [R.e1], by simp [Spec.start, R.e3, R.e1, R.e4]⟩

theorem Rect.pts (R : Rect h lo hi) : Spec.endPt h 0 = (hi.1, lo.2) ∧ Spec.endPt h 1 = (lo.1, hi.2) ∧ Spec.endPt h 2 = lo ∧
    Spec.endPt h 3 = (hi.1, lo.2) ∧ Spec.endPt h 4 = (lo.1, hi.2) ∧ Spec.endPt h 5 = hi := by
  refine ⟨?_, ?_, ?_, ?_, ?_, ?_⟩ <;> simp [Spec.endPt, R.e0, R.e1, R.e2, R.e3, R.e4, R.e5, R.c0, R.c1, R.c2, R.c3]

/-- The corners of a rectangle. -/
def Spec.rectCorners (lo hi : K × K) : List (K × K) := [lo, (hi.1, lo.2), hi, (lo.1, hi.2)]

theorem Rect.isVertex (R : Rect h lo hi) {u : K × K} : Spec.IsVertex h [0, 1] u ↔ u ∈ Spec.rectCorners lo hi := by
  obtain ⟨p0, p1, p2, p3, p4, p5⟩ := R.pts
  constructor
  · rintro ⟨e, ⟨f, -, he⟩, rfl⟩
    rcases R.cases he with ⟨-, rfl | rfl | rfl⟩ | ⟨-, rfl | rfl | rfl⟩ <;> simp [p0, p1, p2, p3, p4, p5, Spec.rectCorners]
  · intro hu
    simp only [Spec.rectCorners, List.mem_cons, List.not_mem_nil, or_false] at hu
    rcases hu with rfl | rfl | rfl | rfl
    · exact ⟨2, ⟨0, by simp, R.tri0.fc⟩, p2⟩
    · exact ⟨0, ⟨0, by simp, R.tri0.fa⟩, p0⟩
    · exact ⟨5, ⟨1, by simp, R.tri1.fc⟩, p5⟩
    · exact ⟨1, ⟨0, by simp, R.tri0.fb⟩, p1⟩

/-- A point strictly inside the rectangle is strictly on the left of the four outer edges. -/
theorem Rect.inside (R : Rect h lo hi) {q : K × K} (h1 : lo.1 < q.1) (h2 : q.1 < hi.1) (h3 : lo.2 < q.2) (h4 : q.2 < hi.2) :
    ∀ e, Spec.Live h [0, 1] e → (h.he e).opp = none → 0 < Spec.side h e q := by
  obtain ⟨p0, p1, p2, p3, p4, p5⟩ := R.pts
  rintro e ⟨f, -, he⟩ ho
  unfold Spec.side
  rcases R.cases he with ⟨-, rfl | rfl | rfl⟩ | ⟨-, rfl | rfl | rfl⟩
  · rw [R.tri0.startPt, p0, p2]
    have := mul_pos (show 0 < hi.1 - lo.1 by linarith) (show 0 < q.2 - lo.2 by linarith)
    unfold Spec.area2; simp only; linarith
  · rw [R.e1] at ho; cases ho
  · rw [R.tri0.rotate.rotate.startPt, p1, p2]
    have := mul_pos (show 0 < hi.2 - lo.2 by linarith) (show 0 < q.1 - lo.1 by linarith)
    unfold Spec.area2; simp only; linarith
  · rw [R.e3] at ho; cases ho
  · rw [R.tri1.startPt, p4, p5]
    have := mul_pos (show 0 < hi.1 - lo.1 by linarith) (show 0 < hi.2 - q.2 by linarith)
    unfold Spec.area2; simp only; linarith
  · rw [R.tri1.rotate.rotate.startPt, p3, p5]
    have := mul_pos (show 0 < hi.2 - lo.2 by linarith) (show 0 < hi.1 - q.1 by linarith)
    unfold Spec.area2; simp only; linarith

theorem crossing_flat (p a b : K × K) (hab : a.2 = b.2) : crossing p a b = 0 := by
  apply crossing_same
  rw [hab]
  rcases le_or_gt b.2 p.2 with h1 | h1
  exacts [Or.inl ⟨h1, h1⟩, Or.inr ⟨h1, h1⟩]

theorem crossing_le (p a b : K × K) : crossing p a b ≤ 1 := by
  unfold crossing; split_ifs <;> omega

theorem Rect.delaunay (R : Rect h lo hi) (h1 : lo.1 < hi.1) (h2 : lo.2 < hi.2) : Spec.Delaunay h [0, 1] := by
  obtain ⟨p0, p1, p2, p3, p4, p5⟩ := R.pts
  have H := R.valid
  have t0 := R.tri0
  have t1 := R.tri1
  have m0 : 0 ∈ [0, 1] := by simp
  have m1 : 1 ∈ [0, 1] := by simp
  have hpos := mul_pos (sub_pos.mpr h1) (sub_pos.mpr h2)
  have hw : Spec.Ccw h [0, 1] := by
    intro f hf
    simp at hf
    rcases hf with rfl | rfl
    · rw [H.faceArea2 m0 t0, p0, p1, p2]; unfold Spec.area2; simp only; linarith
    · rw [H.faceArea2 m1 t1, p3, p4, p5]; unfold Spec.area2; simp only; linarith
  refine ⟨H, hw, by simp, ?_, ?_, ?_⟩
  · intro f hf u hu
    rw [outOfCircle_iff (hw f hf)]
    rw [R.isVertex] at hu
    apply le_of_eq
    simp at hf
    simp only [Spec.rectCorners, List.mem_cons, List.not_mem_nil, or_false] at hu
    rcases hf with rfl | rfl
    · rw [H.faceInc m0 t0, p0, p1, p2]
      rcases hu with rfl | rfl | rfl | rfl <;> unfold inCircle <;> simp only <;> ring
    · rw [H.faceInc m1 t1, p3, p4, p5]
      rcases hu with rfl | rfl | rfl | rfl <;> unfold inCircle <;> simp only <;> ring
  · rintro e ⟨f, -, he⟩ ho u hu
    rw [R.isVertex] at hu
    simp only [Spec.rectCorners, List.mem_cons, List.not_mem_nil, or_false] at hu
    unfold Spec.side
    rcases R.cases he with ⟨-, rfl | rfl | rfl⟩ | ⟨-, rfl | rfl | rfl⟩
    · rw [R.tri0.startPt, p0, p2]
      rcases hu with rfl | rfl | rfl | rfl <;> unfold Spec.area2 <;> simp only <;> linarith
    · rw [R.e1] at ho; cases ho
    · rw [R.tri0.rotate.rotate.startPt, p1, p2]
      rcases hu with rfl | rfl | rfl | rfl <;> unfold Spec.area2 <;> simp only <;> linarith
    · rw [R.e3] at ho; cases ho
    · rw [R.tri1.startPt, p4, p5]
      rcases hu with rfl | rfl | rfl | rfl <;> unfold Spec.area2 <;> simp only <;> linarith
    · rw [R.tri1.rotate.rotate.startPt, p3, p5]
      rcases hu with rfl | rfl | rfl | rfl <;> unfold Spec.area2 <;> simp only <;> linarith
  · intro p
    simp only [List.map_cons, List.map_nil, List.sum_cons, List.sum_nil, add_zero]
    rw [H.faceSumTri _ m0 t0, H.faceSumTri _ m1 t1, p0, p1, p2, p3, p4, p5, crossing_swap p (hi.1, lo.2) (lo.1, hi.2),
      crossing_flat p lo (hi.1, lo.2) rfl, crossing_flat p hi (lo.1, hi.2) rfl]
    have k1 := crossing_le p (hi.1, lo.2) hi
    have k2 : crossing p (lo.1, hi.2) lo ≤ 0 := by
      unfold crossing
      rw [if_neg]
      · split_ifs <;> omega
      · rintro ⟨q1, q2, -⟩
        simp only at q1
        linarith
    linarith

/-- The insertions. -/
theorem insertAll_spec : ∀ (X : List (K × K)) (h : Mesh (K × K)) (F : List ℕ), Spec.Delaunay h F →
    (∀ x ∈ X, ∀ e, Spec.Live h F e → (h.he e).opp = none → 0 < Spec.side h e x) →
    ∃ h' F', Mesh.insertAll (h, F) X = .ok (h', F') ∧ Spec.Delaunay h' F' ∧ (∀ u, Spec.IsVertex h' F' u ↔ u ∈ X ∨ Spec.IsVertex h F u) ∧
      (∀ e, Spec.Live h' F' e → (h'.he e).opp = none → Spec.Live h F e ∧ (h.he e).opp = none ∧ ∀ q, Spec.side h' e q = Spec.side h e q) ∧
      h.nV ≤ h'.nV ∧ (∀ v < h.nV, h'.co v = h.co v) ∧ ∀ v, h.nV ≤ v → v < h'.nV → h'.co v ∈ X := by
  intro X
  induction X with
  | nil =>
    intro h F D _
    exact ⟨h, F, rfl, D, by simp, fun e he ho => ⟨he, ho, fun _ => rfl⟩, le_rfl, fun _ _ => rfl, fun v k1 k2 => absurd k2 (not_lt.mpr k1)⟩
  | cons x X ih =>
    intro h F D hX
    obtain ⟨h1, F1, r, a1, a2, a3, a4, a5, a6, a7⟩ := C69_insert D (hX x (by simp))
    obtain ⟨h2, F2, b1, b2, b3, b4, b5, b6, b7⟩ := ih h1 F1 a2 (by
      intro y hy e he ho
      obtain ⟨k1, k2, k3⟩ := a4 e he ho
      rw [k3]
      exact hX y (by simp [hy]) e k1 k2)
    refine ⟨h2, F2, ?_, b2, ?_, ?_, a5.trans b5, ?_, ?_⟩
    · rw [Mesh.insertAll, a1, R_bind_ok]; exact b1
    · intro u
      rw [b3, a3, List.mem_cons]
      tauto
    · intro e he ho
      obtain ⟨k1, k2, k3⟩ := b4 e he ho
      obtain ⟨l1, l2, l3⟩ := a4 e k1 k2
      exact ⟨l1, l2, fun q => (k3 q).trans (l3 q)⟩
    · intro v hv
      rw [b6 v (hv.trans_le a5), a6 v hv]
    · intro v k1 k2
      rcases Nat.lt_or_ge v h1.nV with k3 | k3
      · rw [b6 v k3, a7 v k1 k3]; simp
      · exact List.mem_cons_of_mem _ (b7 v k3 k2)

open Classical in
theorem removeAll_spec : ∀ (vs : List ℕ) (h : Mesh (K × K)) (F : List ℕ), Spec.Valid h F →
    ∃ h', Mesh.removeAll (h, F) vs = .ok (h', F.filter fun f => decide (∀ v ∈ vs, ¬Spec.HasVertex h v f)) ∧ SameBut h h' ∧
      Spec.Valid h' (F.filter fun f => decide (∀ v ∈ vs, ¬Spec.HasVertex h v f)) := by
  intro vs
  induction vs with
  | nil => intro h F H; exact ⟨h, by simp [Mesh.removeAll], SameBut.refl h, by simpa using H⟩
  | cons v vs ih =>
    intro h F H
    obtain ⟨h1, a1, a2, a3, -⟩ := removeFaces_spec v F [] h H
    obtain ⟨h2, b1, b2, b3⟩ := ih h1 _ a3
    have hiff : ∀ v g, Spec.HasVertex h1 v g ↔ Spec.HasVertex h v g := by
      intro v g; unfold Spec.HasVertex; simp only [a2.face, a2.vertex]
    have hF : ((F.filter fun f => decide (¬Spec.HasVertex h v f)).filter fun f => decide (∀ w ∈ vs, ¬Spec.HasVertex h1 w f)) =
        F.filter fun f => decide (∀ w ∈ v :: vs, ¬Spec.HasVertex h w f) := by
      rw [List.filter_filter]
      apply List.filter_congr
      intro f _
      simp only [hiff, List.forall_mem_cons]
      by_cases h1 : Spec.HasVertex h v f <;> by_cases h2 : ∀ w ∈ vs, ¬Spec.HasVertex h w f <;> simp [h1, h2]
    simp only [List.nil_append] at b1 b3
    rw [hF] at b1 b3
    exact ⟨h2, by rw [Mesh.removeAll, a1, R_bind_ok]; exact b1, a2.trans b2, b3⟩

/-- Two triangles with a common point, strictly inside the first, no corner of one strictly inside the circle of the other: the same corners, when those of the
second on the circle of the first are corners of the first. -/
theorem same_triangle {a b c a' b' c' q : K × K} (hA : 0 < Spec.area2 a b c) (hA' : 0 < Spec.area2 a' b' c') (q1 : 0 < Spec.area2 a b q)
    (q2 : 0 < Spec.area2 b c q) (q3 : 0 < Spec.area2 c a q) (q1' : 0 ≤ Spec.area2 a' b' q) (q2' : 0 ≤ Spec.area2 b' c' q) (q3' : 0 ≤ Spec.area2 c' a' q)
    (ha : inCircle a' b' c' a ≤ 0) (hb : inCircle a' b' c' b ≤ 0) (hc : inCircle a' b' c' c ≤ 0)
    (h' : ∀ x, x = a' ∨ x = b' ∨ x = c' → x = a ∨ x = b ∨ x = c ∨ inCircle a b c x < 0) :
    (a' = a ∧ b' = b ∧ c' = c) ∨ (a' = b ∧ b' = c ∧ c' = a) ∨ (a' = c ∧ b' = a ∧ c' = b) := by
  set A := Spec.area2 a b c with hAd
  set A' := Spec.area2 a' b' c' with hAd'
  let g : K × K → K := fun p => A' * inCircle a b c p - A * inCircle a' b' c' p
  obtain ⟨k0, k1, k2, hg⟩ : ∃ k0 k1 k2 : K, ∀ p, g p = k0 + k1 * p.1 + k2 * p.2 := by
    refine ⟨g (0, 0), g (1, 0) - g (0, 0), g (0, 1) - g (0, 0), fun p => ?_⟩
    simp only [g, hAd, hAd']
    unfold inCircle Spec.area2
    ring
  have bar : ∀ a b c p : K × K, Spec.area2 a b c * g p = Spec.area2 b c p * g a + Spec.area2 c a p * g b + Spec.area2 a b p * g c := by
    intro a b c p
    simp only [hg]
    unfold Spec.area2
    ring
  have zero : ∀ a b c : K × K, inCircle a b c a = 0 ∧ inCircle a b c b = 0 ∧ inCircle a b c c = 0 := by
    intro a b c
    refine ⟨?_, ?_, ?_⟩ <;> unfold inCircle <;> ring
  have ga : g a = - (A * inCircle a' b' c' a) := by simp only [g, (zero a b c).1]; ring
  have gb : g b = - (A * inCircle a' b' c' b) := by simp only [g, (zero a b c).2.1]; ring
  have gc : g c = - (A * inCircle a' b' c' c) := by simp only [g, (zero a b c).2.2]; ring
  have ga0 : 0 ≤ g a := by rw [ga]; linarith [mul_nonpos_of_nonneg_of_nonpos hA.le ha]
  have gb0 : 0 ≤ g b := by rw [gb]; linarith [mul_nonpos_of_nonneg_of_nonpos hA.le hb]
  have gc0 : 0 ≤ g c := by rw [gc]; linarith [mul_nonpos_of_nonneg_of_nonpos hA.le hc]
  have inc' : ∀ x, x = a' ∨ x = b' ∨ x = c' → g x = A' * inCircle a b c x ∧ inCircle a b c x ≤ 0 := by
    intro x hx
    constructor
    · rcases hx with rfl | rfl | rfl
      · simp only [g, (zero x b' c').1]; ring
      · simp only [g, (zero a' x c').2.1]; ring
      · simp only [g, (zero a' b' x).2.2]; ring
    · rcases h' x hx with rfl | rfl | rfl | hh
      · exact (zero x b c).1.le
      · exact (zero a x c).2.1.le
      · exact (zero a b x).2.2.le
      · exact hh.le
  have g0' : ∀ x, x = a' ∨ x = b' ∨ x = c' → g x ≤ 0 := by
    intro x hx
    rw [(inc' x hx).1]
    exact mul_nonpos_of_nonneg_of_nonpos hA'.le (inc' x hx).2
  have e1 := bar a b c q
  have e2 := bar a' b' c' q
  rw [← hAd] at e1
  rw [← hAd'] at e2
  have t1 := mul_nonneg q2.le ga0
  have t2 := mul_nonneg q3.le gb0
  have t3 := mul_nonneg q1.le gc0
  have s1 := mul_nonpos_of_nonneg_of_nonpos q2' (g0' a' (Or.inl rfl))
  have s2 := mul_nonpos_of_nonneg_of_nonpos q3' (g0' b' (Or.inr (Or.inl rfl)))
  have s3 := mul_nonpos_of_nonneg_of_nonpos q1' (g0' c' (Or.inr (Or.inr rfl)))
  have gq : g q = 0 := by
    have u1 : 0 ≤ A * g q := by linarith
    have u2 : A' * g q ≤ 0 := by linarith
    have u3 : 0 ≤ g q := nonneg_of_mul_nonneg_right u1 hA
    have u4 : g q ≤ 0 := by
      by_contra hn
      have := mul_pos hA' (not_le.mp hn)
      linarith
    exact le_antisymm u4 u3
  rw [gq, mul_zero] at e1
  have za : g a = 0 := (mul_eq_zero.mp (by linarith : Spec.area2 b c q * g a = 0)).resolve_left q2.ne'
  have zb : g b = 0 := (mul_eq_zero.mp (by linarith : Spec.area2 c a q * g b = 0)).resolve_left q3.ne'
  have zc : g c = 0 := (mul_eq_zero.mp (by linarith : Spec.area2 a b q * g c = 0)).resolve_left q1.ne'
  have all : ∀ p, g p = 0 := by
    intro p
    have := bar a b c p
    rw [za, zb, zc, ← hAd] at this
    exact (mul_eq_zero.mp (by linarith : A * g p = 0)).resolve_left hA.ne'
  have corner : ∀ x, x = a' ∨ x = b' ∨ x = c' → x = a ∨ x = b ∨ x = c := by
    intro x hx
    rcases h' x hx with hh | hh | hh | hh
    · exact Or.inl hh
    · exact Or.inr (Or.inl hh)
    · exact Or.inr (Or.inr hh)
    · have h1 := (inc' x hx).1
      rw [all x] at h1
      have := (mul_eq_zero.mp h1.symm).resolve_left hA'.ne'
      linarith
  rw [hAd] at hA
  rw [hAd'] at hA'
  have deg : ∀ u v : K × K, Spec.area2 u u v = 0 ∧ Spec.area2 u v v = 0 ∧ Spec.area2 u v u = 0 := by
    intro u v; refine ⟨?_, ?_, ?_⟩ <;> unfold Spec.area2 <;> ring
  have s1 : Spec.area2 a c b = - Spec.area2 a b c := by unfold Spec.area2; ring
  have s2 : Spec.area2 c b a = - Spec.area2 a b c := by unfold Spec.area2; ring
  have s3 : Spec.area2 b a c = - Spec.area2 a b c := by unfold Spec.area2; ring
  rcases corner a' (Or.inl rfl) with ea | ea | ea <;> rcases corner b' (Or.inr (Or.inl rfl)) with eb | eb | eb <;>
    rcases corner c' (Or.inr (Or.inr rfl)) with ec | ec | ec <;> rw [ea, eb, ec] at hA' <;> first
    | exact Or.inl ⟨ea, eb, ec⟩
    | exact Or.inr (Or.inl ⟨ea, eb, ec⟩)
    | exact Or.inr (Or.inr ⟨ea, eb, ec⟩)
    | (exfalso; simp only [(deg _ _).1, (deg _ _).2.1, (deg _ _).2.2, s1, s2, s3, lt_irrefl] at hA'; try linarith)

theorem SameBut.endPt (s : SameBut h h') (e : ℕ) : Spec.endPt h' e = Spec.endPt h e := by unfold Spec.endPt; rw [s.vertex, s.co]

theorem SameBut.corners (s : SameBut h h') (f : ℕ) : Spec.corners h' f = Spec.corners h f := by
  unfold Spec.corners; simp only [s.endPt, s.fe, s.next]

theorem cover_le (H : Spec.Valid h F) (hw : Spec.Ccw h F) (p : K × K) : (Spec.cover h F p : ℤ) ≤ (F.map (faceSum (crossing p) h)).sum := by
  classical
  have key : ∀ S : List ℕ, (∀ f ∈ S, f ∈ F) → (S.countP (fun f => decide (Spec.InsideFace h f p)) : ℤ) ≤ (S.map (faceSum (crossing p) h)).sum := by
    intro S
    induction S with
    | nil => simp
    | cons f S ih =>
      intro hS
      have h1 := ih fun g hg => hS g (by simp [hg])
      obtain ⟨h2, -, h3⟩ := H.faceCrossing hw (hS f (by simp)) p
      rw [List.countP_cons, List.map_cons, List.sum_cons]
      by_cases hin : Spec.InsideFace h f p
      · rw [h3 hin, if_pos (by simpa using hin)]
        push_cast
        linarith
      · rw [if_neg (by simpa using hin)]
        push_cast
        rcases h2 with h2 | h2 <;> rw [h2] <;> linarith
  exact key F fun _ h => h

/-- The smallest box around a list of points. -/
structure Spec.BoxOf (X : List (K × K)) (lo hi : K × K) : Prop where
  inside : ∀ p ∈ X, lo.1 ≤ p.1 ∧ lo.2 ≤ p.2 ∧ p.1 ≤ hi.1 ∧ p.2 ≤ hi.2
  left : ∃ p ∈ X, p.1 = lo.1
  bottom : ∃ p ∈ X, p.2 = lo.2
  right : ∃ p ∈ X, p.1 = hi.1
  top : ∃ p ∈ X, p.2 = hi.2

/-- The corners of the encompassing rectangle: the box, larger by `pc` percent on the right, and by `pc` percent of the new size on the left. -/
def Spec.farCorners (pc : K) (lo hi : K × K) : List (K × K) :=
  let hi' : K × K := (hi.1 + pc / 100 * (hi.1 - lo.1), hi.2 + pc / 100 * (hi.2 - lo.2))
  let lo' : K × K := (lo.1 - pc / 100 * (hi'.1 - lo.1), lo.2 - pc / 100 * (hi'.2 - lo.2))
  Spec.rectCorners lo' hi'

/-- The first half of `delaunay2DBoyerWatson`: the encompassing rectangle is triangulated with the points. -/
theorem C70_inserted {pc : K} (hpc : 0 < pc) {X : List (K × K)} (h1 : ∃ p ∈ X, ∃ q ∈ X, p.1 ≠ q.1) (h2 : ∃ p ∈ X, ∃ q ∈ X, p.2 ≠ q.2) :
    ∃ lo hi s h F, Spec.BoxOf X lo hi ∧ Mesh.getEncompassingMesh pc X = .ok s ∧ Mesh.insertAll s X = .ok (h, F) ∧ Spec.Delaunay h F ∧
      (∀ u, Spec.IsVertex h F u ↔ u ∈ X ∨ u ∈ Spec.farCorners pc lo hi) ∧
      (∀ q : K × K, lo.1 ≤ q.1 → lo.2 ≤ q.2 → q.1 ≤ hi.1 → q.2 ≤ hi.2 →
        (∃ f ∈ F, Spec.InFace h f q) ∧ ∀ e, Spec.Live h F e → (h.he e).opp = none → 0 < Spec.side h e q) ∧
      4 ≤ h.nV ∧ (∀ v < 4, h.co v ∈ Spec.farCorners pc lo hi) ∧ (∀ v, 4 ≤ v → v < h.nV → h.co v ∈ X) ∧ ∀ x ∈ X, x ∉ Spec.farCorners pc lo hi := by
  obtain ⟨p, hp, q, hq, hpq⟩ := h1
  obtain ⟨p', hp', q', hq', hpq'⟩ := h2
  obtain ⟨x, l, rfl⟩ := List.exists_cons_of_ne_nil (List.ne_nil_of_mem hp)
  obtain ⟨lo, hi, hb, k1, k2, k3, k4, k5⟩ := C45_min_max x l
  generalize x :: l = X at *
  have hlt1 : lo.1 < hi.1 := by
    obtain ⟨a1, -, a2, -⟩ := k1 p hp
    obtain ⟨b1, -, b2, -⟩ := k1 q hq
    rcases lt_or_gt_of_ne hpq with hh | hh <;> linarith
  have hlt2 : lo.2 < hi.2 := by
    obtain ⟨-, a1, -, a2⟩ := k1 p' hp'
    obtain ⟨-, b1, -, b2⟩ := k1 q' hq'
    rcases lt_or_gt_of_ne hpq' with hh | hh <;> linarith
  have hq0 : 0 < pc / 100 := by positivity
  set r := pc / 100 with hr
  set hi' : K × K := (hi.1 + r * (hi.1 - lo.1), hi.2 + r * (hi.2 - lo.2)) with hhi
  set lo' : K × K := (lo.1 - r * (hi'.1 - lo.1), lo.2 - r * (hi'.2 - lo.2)) with hlo
  have m1 : hi.1 < hi'.1 := by rw [hhi]; simp only; linarith [mul_pos hq0 (sub_pos.mpr hlt1)]
  have m2 : hi.2 < hi'.2 := by rw [hhi]; simp only; linarith [mul_pos hq0 (sub_pos.mpr hlt2)]
  have m3 : lo'.1 < lo.1 := by rw [hlo]; simp only; linarith [mul_pos hq0 (show 0 < hi'.1 - lo.1 by linarith)]
  have m4 : lo'.2 < lo.2 := by rw [hlo]; simp only; linarith [mul_pos hq0 (show 0 < hi'.2 - lo.2 by linarith)]
  obtain ⟨h0, r1, r2⟩ := rectOf_spec lo' hi'
  have hD := r2.delaunay (by linarith) (by linarith)
  have henc : Mesh.getEncompassingMesh pc X = .ok (h0, [0, 1]) := by
    rw [Mesh.getEncompassingMesh, hb, R_bind_ok]
    exact r1
  have hin : ∀ q : K × K, lo.1 ≤ q.1 → lo.2 ≤ q.2 → q.1 ≤ hi.1 → q.2 ≤ hi.2 → ∀ e, Spec.Live h0 [0, 1] e → (h0.he e).opp = none →
      0 < Spec.side h0 e q := fun q u1 u2 u3 u4 => r2.inside (by linarith) (by linarith) (by linarith) (by linarith)
  obtain ⟨h, F, i1, i2, i3, i4, i5, i6, i7⟩ := insertAll_spec X h0 [0, 1] hD (fun x hx => by
    obtain ⟨u1, u2, u3, u4⟩ := k1 x hx
    exact hin x u1 u2 u3 u4)
  rw [r2.nV] at i5 i6 i7
  refine ⟨lo, hi, (h0, [0, 1]), h, F, ⟨k1, k2, k3, k4, k5⟩, henc, i1, i2, ?_, ?_, i5, ?_, i7, ?_⟩
  · intro u
    rw [i3, r2.isVertex]
    rfl
  · intro q u1 u2 u3 u4
    have hside : ∀ e, Spec.Live h F e → (h.he e).opp = none → 0 < Spec.side h e q := by
      intro e he ho
      obtain ⟨v1, v2, v3⟩ := i4 e he ho
      rw [v3]
      exact hin q u1 u2 u3 u4 e v1 v2
    exact ⟨i2.located (xy := q) hside, hside⟩
  · intro v hv
    rw [i6 v hv]
    show h0.co v ∈ Spec.rectCorners lo' hi'
    interval_cases v
    · rw [r2.c0]; simp [Spec.rectCorners]
    · rw [r2.c1]; simp [Spec.rectCorners]
    · rw [r2.c2]; simp [Spec.rectCorners]
    · rw [r2.c3]; simp [Spec.rectCorners]
  · intro y hy hc
    obtain ⟨u1, u2, u3, u4⟩ := k1 y hy
    change y ∈ Spec.rectCorners lo' hi' at hc
    simp only [Spec.rectCorners, List.mem_cons, List.not_mem_nil, or_false] at hc
    rcases hc with rfl | rfl | rfl | rfl <;> (try simp only at u1 u2 u3 u4) <;> linarith

open Classical in
/-- C70: `delaunay2DBoyerWatson` of points not all on one horizontal or vertical line succeeds. The triangles are counter-clockwise, correctly linked, do not
overlap, their corners are points of the list, and no point of the list is strictly inside the circle of a triangle. Three points of the list, when the other
points and the corners of the encompassing rectangle are strictly outside their circle, make a triangle of the result. -/
theorem C70_delaunay {pc : K} (hpc : 0 < pc) {X : List (K × K)} (h1 : ∃ p ∈ X, ∃ q ∈ X, p.1 ≠ q.1) (h2 : ∃ p ∈ X, ∃ q ∈ X, p.2 ≠ q.2)
    {corners : List ℕ} (hcor : ∀ v, v ∈ corners ↔ v < 4) :
    ∃ h F, Mesh.delaunay2D pc corners X = .ok (h, F) ∧ Spec.Valid h F ∧ Spec.Ccw h F ∧ (∀ u, Spec.IsVertex h F u → u ∈ X) ∧
      (∀ f ∈ F, ∀ x ∈ X, Spec.OutOfCircle h f x) ∧ (∀ p, Spec.cover h F p ≤ 1) ∧
      ∀ lo hi, Spec.BoxOf X lo hi → ∀ a ∈ X, ∀ b ∈ X, ∀ c ∈ X, 0 < Spec.area2 a b c →
        ∀ o, Spec.dist2 o a = Spec.dist2 o b → Spec.dist2 o a = Spec.dist2 o c →
        (∀ x, x ∈ X ∨ x ∈ Spec.farCorners pc lo hi → x = a ∨ x = b ∨ x = c ∨ Spec.dist2 o a < Spec.dist2 o x) →
        ∃ f ∈ F, Spec.corners h f = (a, b, c) ∨ Spec.corners h f = (b, c, a) ∨ Spec.corners h f = (c, a, b) := by
  obtain ⟨lo, hi, s, h, F, k1, k2, k3, D, k4, k5, k6, k7, k8, k9⟩ := C70_inserted hpc h1 h2
  obtain ⟨h', r1, S, V⟩ := removeAll_spec corners h F D.valid
  generalize hF' : (F.filter fun f => decide (∀ v ∈ corners, ¬Spec.HasVertex h v f)) = F' at r1 V
  have hsub : ∀ f, f ∈ F' ↔ f ∈ F ∧ ∀ v, v < 4 → ¬Spec.HasVertex h v f := by
    intro f
    rw [← hF', List.mem_filter, decide_eq_true_eq]
    simp only [hcor]
  have hW : Spec.Ccw h' F' := by
    intro f hf
    rw [Spec.faceArea2, S.corners]
    exact D.ccw f ((hsub f).mp hf).1
  refine ⟨h', F', ?_, V, hW, ?_, ?_, ?_, ?_⟩
  · unfold Mesh.delaunay2D
    rw [k2, R_bind_ok, k3, R_bind_ok]
    exact r1
  · rintro u ⟨e, ⟨f, hf, hef⟩, rfl⟩
    rw [S.face] at hef
    obtain ⟨hf, hv⟩ := (hsub f).mp hf
    obtain ⟨v, hv1, hv2, hv3⟩ := D.valid.vertexEq ⟨f, hf, hef⟩
    rw [S.endPt, hv3]
    refine k8 v ?_ hv2
    by_contra hn
    exact hv v (by omega) ⟨e, hef, hv1⟩
  · intro f hf x hx
    have := D.empty f ((hsub f).mp hf).1 x ((k4 x).mpr (Or.inl hx))
    unfold Spec.OutOfCircle at this ⊢
    rw [S.corners]
    exact this
  · intro p
    have c1 := cover_le V hW p
    have c2 : (F'.map (faceSum (crossing p) h')).sum ≤ (F.map (faceSum (crossing p) h)).sum := by
      have e1 : F'.map (faceSum (crossing p) h') = F'.map (faceSum (crossing p) h) := by
        apply List.map_congr_left
        intro f _
        unfold faceSum
        rw [S.corners]
      rw [e1, sum_filter_split (faceSum (crossing p) h) (fun f => ∀ v ∈ corners, ¬Spec.HasVertex h v f) F, hF']
      have := crossing_sum_nonneg D.valid D.ccw p (F.filter fun f => decide (¬∀ v ∈ corners, ¬Spec.HasVertex h v f))
        (fun f hf => (List.mem_filter.mp hf).1)
      linarith
    have := D.once p
    have : (Spec.cover h' F' p : ℤ) ≤ 1 := by linarith
    exact_mod_cast this
  · intro lo2 hi2 hbox a ha b hb c hc hA o ho1 ho2 hout
    have hbe : lo2 = lo ∧ hi2 = hi := by
      have le : ∀ {l l' u u' : K × K}, Spec.BoxOf X l u → Spec.BoxOf X l' u' → l.1 ≤ l'.1 ∧ l.2 ≤ l'.2 ∧ u'.1 ≤ u.1 ∧ u'.2 ≤ u.2 := by
        intro l l' u u' b1 b2
        obtain ⟨p1, m1, e1⟩ := b2.left
        obtain ⟨p2, m2, e2⟩ := b2.bottom
        obtain ⟨p3, m3, e3⟩ := b2.right
        obtain ⟨p4, m4, e4⟩ := b2.top
        exact ⟨by rw [← e1]; exact (b1.inside p1 m1).1, by rw [← e2]; exact (b1.inside p2 m2).2.1, by rw [← e3]; exact (b1.inside p3 m3).2.2.1,
          by rw [← e4]; exact (b1.inside p4 m4).2.2.2⟩
      obtain ⟨u1, u2, u3, u4⟩ := le hbox k1
      obtain ⟨w1, w2, w3, w4⟩ := le k1 hbox
      exact ⟨Prod.ext (le_antisymm u1 w1) (le_antisymm u2 w2), Prod.ext (le_antisymm w3 u3) (le_antisymm w4 u4)⟩
    rw [hbe.1, hbe.2] at hout
    clear hbe hbox lo2 hi2
    have hO : 0 < orient2d a b c := by rw [orient2d_eq]; exact hA
    -- the middle of the triangle
    set q : K × K := ((a.1 + b.1 + c.1) / 3, (a.2 + b.2 + c.2) / 3) with hq
    have a1 : Spec.area2 a b q = Spec.area2 a b c / 3 := by rw [hq]; unfold Spec.area2; ring
    have a2 : Spec.area2 b c q = Spec.area2 a b c / 3 := by rw [hq]; unfold Spec.area2; ring
    have a3 : Spec.area2 c a q = Spec.area2 a b c / 3 := by rw [hq]; unfold Spec.area2; ring
    obtain ⟨la1, la2, la3, la4⟩ := k1.inside a ha
    obtain ⟨lb1, lb2, lb3, lb4⟩ := k1.inside b hb
    obtain ⟨lc1, lc2, lc3, lc4⟩ := k1.inside c hc
    obtain ⟨⟨f, hf, hin⟩, -⟩ := k5 q (by rw [hq]; simp only; linarith) (by rw [hq]; simp only; linarith) (by rw [hq]; simp only; linarith)
      (by rw [hq]; simp only; linarith)
    obtain ⟨x, y, z, t, hfe⟩ := D.valid.tri hf
    have hAf := D.ccw f hf
    rw [D.valid.faceArea2 hf t] at hAf
    have hin' := t.inFace.mp hin
    unfold Spec.side at hin'
    rw [t.startPt, t.rotate.startPt, t.rotate.rotate.startPt] at hin'
    obtain ⟨i1, i2, i3⟩ := hin'
    have hinc : ∀ u ∈ X, inCircle (Spec.endPt h x) (Spec.endPt h y) (Spec.endPt h z) u ≤ 0 := by
      intro u hu
      rw [← D.valid.faceInc hf t]
      exact D.inc hf ((k4 u).mpr (Or.inl hu))
    have hvx : ∀ e, e = x ∨ e = y ∨ e = z → Spec.IsVertex h F (Spec.endPt h e) := by
      rintro e (rfl | rfl | rfl)
      exacts [⟨_, ⟨f, hf, t.fa⟩, rfl⟩, ⟨_, ⟨f, hf, t.fb⟩, rfl⟩, ⟨_, ⟨f, hf, t.fc⟩, rfl⟩]
    have hsame := same_triangle (q := q) hA hAf (by rw [a1]; linarith) (by rw [a2]; linarith) (by rw [a3]; linarith) i2 i3 i1 (hinc a ha) (hinc b hb)
      (hinc c hc) (by
        intro u hu
        have hu' : Spec.IsVertex h F u := by
          rcases hu with rfl | rfl | rfl
          exacts [hvx x (Or.inl rfl), hvx y (Or.inr (Or.inl rfl)), hvx z (Or.inr (Or.inr rfl))]
        rcases hout u ((k4 u).mp hu') with e | e | e | e
        · exact Or.inl e
        · exact Or.inr (Or.inl e)
        · exact Or.inr (Or.inr (Or.inl e))
        · exact Or.inr (Or.inr (Or.inr ((C45_in_circle hO o ho1 ho2 u).2.2.mpr e))))
    have hmem : f ∈ F' := by
      rw [hsub]
      refine ⟨hf, ?_⟩
      rintro v hv ⟨e, he, hev⟩
      have hX : Spec.endPt h e ∈ X := by
        rcases t.own e he with rfl | rfl | rfl <;> rcases hsame with ⟨e1, e2, e3⟩ | ⟨e1, e2, e3⟩ | ⟨e1, e2, e3⟩ <;> first
          | (rw [e1]; assumption)
          | (rw [e2]; assumption)
          | (rw [e3]; assumption)
      refine k9 _ hX ?_
      rw [Spec.endPt, hev]
      exact k7 v hv
    refine ⟨f, hmem, ?_⟩
    rw [S.corners, t.corners hfe]
    rcases hsame with ⟨e1, e2, e3⟩ | ⟨e1, e2, e3⟩ | ⟨e1, e2, e3⟩ <;> rw [e1, e2, e3] <;> simp

/-- The faces of a result. -/
def facesOf (r : R (Mesh (K × K) × List ℕ)) : List ((K × K) × (K × K) × (K × K)) :=
  match r with
  | .ok s => s.2.map (Spec.corners s.1)
  | .error _ => []

/-- The code does not do what a Delaunay triangulation does: three points that are not aligned make no triangle, because a corner of the encompassing
rectangle is in their circle. -/
theorem C70_hull_missed : Spec.area2 ((0, 0) : ℚ × ℚ) (2, 3) (1, 1) < 0 ∧
    ∃ h, Mesh.delaunay2D (K := ℚ) 10 [0, 1, 2, 3] [(0, 0), (1, 1), (2, 3)] = .ok (h, []) := by
  refine ⟨by decide +kernel, ?_⟩
  obtain ⟨h, F, h1, -⟩ := C70_delaunay (K := ℚ) (pc := 10) (by norm_num) (X := [(0, 0), (1, 1), (2, 3)]) ⟨(0, 0), by simp, (1, 1), by simp, by norm_num⟩
    ⟨(0, 0), by simp, (1, 1), by simp, by norm_num⟩ (corners := [0, 1, 2, 3]) (by intro v; simp; omega)
  refine ⟨h, ?_⟩
  have : facesOf (Mesh.delaunay2D (K := ℚ) 10 [0, 1, 2, 3] [(0, 0), (1, 1), (2, 3)]) = [] := by decide +kernel
  rw [h1] at this ⊢
  simp only [facesOf, List.map_eq_nil_iff] at this
  rw [this]

/-- A triangle of the hull of four points is missing. -/
example : facesOf (Mesh.delaunay2D (K := ℚ) 10 [0, 1, 2, 3] [(0, 0), (4, 0), (2, 1 / 10), (2, 2)]) =
    [((2, 1 / 10), (2, 2), (0, 0)), ((4, 0), (2, 2), (2, 1 / 10))] := by decide +kernel

/-- The hypotheses of completeness can be met. -/
example : ∃ h F, Mesh.delaunay2D (K := ℚ) 100 [0, 1, 2, 3] [(0, 0), (4, 0), (2, 3), (2, 1)] = .ok (h, F) ∧ ∃ f ∈ F,
    Spec.corners h f = ((0, 0), (4, 0), (2, 1)) ∨ Spec.corners h f = ((4, 0), (2, 1), (0, 0)) ∨ Spec.corners h f = ((2, 1), (0, 0), (4, 0)) := by
  obtain ⟨h, F, h1, -, -, -, -, -, h7⟩ := C70_delaunay (K := ℚ) (pc := 100) (by norm_num) (X := [(0, 0), (4, 0), (2, 3), (2, 1)])
    ⟨(0, 0), by simp, (4, 0), by simp, by norm_num⟩ ⟨(0, 0), by simp, (2, 3), by simp, by norm_num⟩ (corners := [0, 1, 2, 3]) (by intro v; simp; omega)
  refine ⟨h, F, h1, h7 (0, 0) (4, 3) ⟨?_, ⟨(0, 0), by simp⟩, ⟨(0, 0), by simp⟩, ⟨(4, 0), by simp⟩, ⟨(2, 3), by simp⟩⟩ (0, 0) (by simp) (4, 0) (by simp)
    (2, 1) (by simp) (by decide +kernel) (2, -3 / 2) (by decide +kernel) (by decide +kernel) ?_⟩
  · simp only [List.forall_mem_cons, List.not_mem_nil, false_imp_iff, implies_true, and_true]
    decide +kernel
  · intro x hx
    simp only [List.mem_cons, List.not_mem_nil, or_false, Spec.farCorners, Spec.rectCorners] at hx
    rcases hx with (rfl | rfl | rfl | rfl) | rfl | rfl | rfl | rfl <;> decide +kernel

/-- An insertion in the square. -/
example : ∃ h0 h' F' r, rectOf ((0, 0) : ℚ × ℚ) (4, 4) = .ok (h0, [0, 1]) ∧ h0.boyerWatson [0, 1] (1, 2) = .ok ((h', F'), r) ∧ Spec.Delaunay h' F' ∧
    Spec.IsVertex h' F' (1, 2) := by
  obtain ⟨h0, r1, r2⟩ := rectOf_spec ((0, 0) : ℚ × ℚ) (4, 4)
  obtain ⟨h', F', r, k1, k2, k3, -⟩ := C69_insert (r2.delaunay (by norm_num) (by norm_num)) (xy := (1, 2))
    (r2.inside (by norm_num) (by norm_num) (by norm_num) (by norm_num))
  exact ⟨h0, h', F', r, r1, k1, k2, (k3 _).mpr (Or.inl rfl)⟩

end Gbs
