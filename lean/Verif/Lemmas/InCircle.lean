import Verif.Lemmas.Crossing

/-!
# The circle of a triangle
-/

namespace Gbs

variable {K : Type} [Field K] [LinearOrder K] [IsStrictOrderedRing K]

omit [LinearOrder K] [IsStrictOrderedRing K] in
theorem inCircle_rotate (a b c d : K × K) : inCircle b c a d = inCircle a b c d := by unfold inCircle; ring

omit [LinearOrder K] [IsStrictOrderedRing K] in
theorem inCircle_swap (a b c d : K × K) : inCircle b a c d = - inCircle a b c d := by unfold inCircle; ring

omit [LinearOrder K] [IsStrictOrderedRing K] in
theorem inCircle_swap_last (a b c d : K × K) : inCircle a b d c = - inCircle a b c d := by unfold inCircle; ring

omit [LinearOrder K] [IsStrictOrderedRing K] in
/-- Circles through two points. -/
theorem inCircle_pencil (a b x y p : K × K) :
    Spec.area2 a b y * inCircle a b x p - Spec.area2 a b x * inCircle a b y p = - inCircle a b y x * Spec.area2 a b p := by
  unfold inCircle Spec.area2; ring

omit [LinearOrder K] [IsStrictOrderedRing K] in
/-- The power of a point given by its barycentric coordinates. -/
theorem inCircle_power (a b c p : K × K) :
    inCircle a b c p * Spec.area2 a b c =
      Spec.area2 b c p * Spec.area2 c a p * ((a.1 - b.1) ^ 2 + (a.2 - b.2) ^ 2) +
      Spec.area2 c a p * Spec.area2 a b p * ((b.1 - c.1) ^ 2 + (b.2 - c.2) ^ 2) +
      Spec.area2 a b p * Spec.area2 b c p * ((c.1 - a.1) ^ 2 + (c.2 - a.2) ^ 2) := by
  unfold inCircle Spec.area2; ring

/-- A point of a closed triangle which is not a corner is strictly inside its circle. -/
theorem inCircle_pos {a b c p : K × K} (hw : 0 < Spec.area2 a b c) (h1 : 0 ≤ Spec.area2 a b p) (h2 : 0 ≤ Spec.area2 b c p)
    (h3 : 0 ≤ Spec.area2 c a p) (hnc : (0 < Spec.area2 a b p ∧ 0 < Spec.area2 b c p) ∨ (0 < Spec.area2 b c p ∧ 0 < Spec.area2 c a p) ∨
      (0 < Spec.area2 c a p ∧ 0 < Spec.area2 a b p)) : 0 < inCircle a b c p := by
  have hp := inCircle_power a b c p
  have pos : ∀ u v : K × K, u ≠ v → 0 < (u.1 - v.1) ^ 2 + (u.2 - v.2) ^ 2 := by
    intro u v huv
    rcases eq_or_ne u.1 v.1 with he | he
    · have : u.2 ≠ v.2 := fun hh => huv (Prod.ext he hh)
      have := sq_pos_of_ne_zero (sub_ne_zero.mpr this)
      have := sq_nonneg (u.1 - v.1)
      linarith
    · have := sq_pos_of_ne_zero (sub_ne_zero.mpr he)
      have := sq_nonneg (u.2 - v.2)
      linarith
  have hab : 0 < (a.1 - b.1) ^ 2 + (a.2 - b.2) ^ 2 := pos a b (by rintro rfl; unfold Spec.area2 at hw; linarith)
  have hbc : 0 < (b.1 - c.1) ^ 2 + (b.2 - c.2) ^ 2 := pos b c (by rintro rfl; unfold Spec.area2 at hw; linarith)
  have hca : 0 < (c.1 - a.1) ^ 2 + (c.2 - a.2) ^ 2 := pos c a (by rintro rfl; unfold Spec.area2 at hw; linarith)
  have t1 := mul_nonneg (mul_nonneg h2 h3) hab.le
  have t2 := mul_nonneg (mul_nonneg h3 h1) hbc.le
  have t3 := mul_nonneg (mul_nonneg h1 h2) hca.le
  have : 0 < inCircle a b c p * Spec.area2 a b c := by
    rw [hp]
    rcases hnc with ⟨q1, q2⟩ | ⟨q1, q2⟩ | ⟨q1, q2⟩
    · have := mul_pos (mul_pos q1 q2) hca; linarith
    · have := mul_pos (mul_pos q1 q2) hab; linarith
    · have := mul_pos (mul_pos q1 q2) hbc; linarith
  exact (mul_pos_iff_of_pos_right hw).mp this

/-- Beyond an edge, the circle of a triangle is in the circle of its neighbour, when this one does not have its third corner inside. -/
theorem inCircle_beyond {a b x y p : K × K} (hx : 0 < Spec.area2 a b x) (hy : 0 < Spec.area2 b a y) (hd : inCircle b a y x ≤ 0)
    (hin : 0 < inCircle a b x p) (hout : inCircle b a y p ≤ 0) : 0 < Spec.area2 a b p := by
  by_contra hn
  push Not at hn
  have hp := inCircle_pencil a b x y p
  have hy' : Spec.area2 a b y < 0 := by rw [area2_swap] at hy; linarith
  have hd' : 0 ≤ inCircle a b y x := by rw [inCircle_swap] at hd; linarith
  have ho' : 0 ≤ inCircle a b y p := by rw [inCircle_swap] at hout; linarith
  have t1 := mul_neg_of_neg_of_pos hy' hin
  have t2 := mul_nonneg hx.le ho'
  have t3 := mul_nonneg_of_nonpos_of_nonpos (neg_nonpos.mpr hd') hn
  linarith

/-- The circle of a new triangle has no point on the left of the edge that was not in the circle of the old triangle. -/
theorem inCircle_new_left {a b x p u : K × K} (hx : 0 < Spec.area2 a b x) (hp : 0 < Spec.area2 a b p) (hin : 0 < inCircle a b x p)
    (hu : inCircle a b x u ≤ 0) (hs : 0 ≤ Spec.area2 a b u) : inCircle a b p u ≤ 0 := by
  have key := inCircle_pencil a b x p u
  rw [inCircle_swap_last a b x p, neg_neg] at key
  have t1 := mul_nonpos_of_nonneg_of_nonpos hp.le hu
  have t2 := mul_nonneg hin.le hs
  by_contra hn
  push Not at hn
  have := mul_pos hx hn
  linarith

/-- Nor one on the right of the edge that was not in the circle of the neighbour. -/
theorem inCircle_new_right {a b y p u : K × K} (hy : 0 < Spec.area2 b a y) (hp : 0 < Spec.area2 a b p) (hout : inCircle b a y p ≤ 0)
    (hu : inCircle b a y u ≤ 0) (hs : Spec.area2 a b u ≤ 0) : inCircle a b p u ≤ 0 := by
  have key := inCircle_pencil a b y p u
  rw [inCircle_swap_last a b y p, neg_neg] at key
  have hy' : Spec.area2 a b y < 0 := by rw [area2_swap] at hy; linarith
  have hu' : 0 ≤ inCircle a b y u := by rw [inCircle_swap] at hu; linarith
  have ho' : 0 ≤ inCircle a b y p := by rw [inCircle_swap] at hout; linarith
  have t1 := mul_nonneg hp.le hu'
  have t2 := mul_nonpos_of_nonneg_of_nonpos ho' hs
  by_contra hn
  push Not at hn
  have := mul_neg_of_neg_of_pos hy' hn
  linarith

end Gbs
