import Verif.Model.Geom2
import Verif.Lemmas.OkInv
import Verif.Lemmas.Rational
import Mathlib.LinearAlgebra.Matrix.Determinant.Basic
import Mathlib.Tactic.LinearCombination
import Mathlib.Tactic.FieldSimp

/-!
# C45: planar predicates
-/

set_option linter.unusedSectionVars false

namespace Gbs

variable {K : Type} [Field K] [LinearOrder K] [IsStrictOrderedRing K]

/-- Squared distance of two points of the plane. -/
def Spec.dist2 (p q : K × K) : K := (p.1 - q.1) ^ 2 + (p.2 - q.2) ^ 2

/-- `d` is in the convex hull of `a`, `b`, `c`. -/
def Spec.InHull (a b c d : K × K) : Prop := ∃ α β γ : K, 0 ≤ α ∧ 0 ≤ β ∧ 0 ≤ γ ∧ α + β + γ = 1 ∧ d = α • a + β • b + γ • c

/-- Three points are on one line. -/
def Spec.Collinear3 (a b c : K × K) : Prop :=
  ∃ l m n : K, (l ≠ 0 ∨ m ≠ 0) ∧ l * a.1 + m * a.2 = n ∧ l * b.1 + m * b.2 = n ∧ l * c.1 + m * c.2 = n

/-- C45: `orient_2d` is twice the signed area: the determinant of the homogeneous coordinates; it is alternating, invariant under translation,
adds up over a subdivision, vanishes exactly for points on one line, and its half absolute value is `tri_area`. -/
theorem C45_orient (a b c : K × K) :
    orient2d a b c = Matrix.det !![a.1, a.2, 1; b.1, b.2, 1; c.1, c.2, 1] ∧
    orient2d b a c = -orient2d a b c ∧ orient2d a c b = -orient2d a b c ∧ orient2d b c a = orient2d a b c ∧
    (∀ t, orient2d (a + t) (b + t) (c + t) = orient2d a b c) ∧
    (∀ p, orient2d a b p + orient2d b c p + orient2d c a p = orient2d a b c) ∧
    (orient2d a b c = 0 ↔ Spec.Collinear3 a b c) ∧
    triArea a b c = |orient2d a b c| / 2 ∧ (areCcw a b c = true ↔ 0 ≤ orient2d a b c) := by
  refine ⟨?_, ?_, ?_, ?_, ?_, ?_, ⟨?_, ?_⟩, ?_, ?_⟩
  · rw [Matrix.det_fin_three]
    simp [orient2d]; ring
  · unfold orient2d; ring
  · unfold orient2d; ring
  · unfold orient2d; ring
  · intro t; unfold orient2d; simp only [Prod.fst_add, Prod.snd_add]; ring
  · intro p; unfold orient2d; ring
  · intro h
    unfold orient2d at h
    by_cases hab : a = b
    · by_cases hac : a = c
      · subst hab hac
        exact ⟨1, 0, _, Or.inl one_ne_zero, rfl, rfl, rfl⟩
      · subst hab
        refine ⟨c.2 - a.2, a.1 - c.1, (c.2 - a.2) * a.1 + (a.1 - c.1) * a.2, ?_, rfl, rfl, by ring⟩
        by_contra hc
        push Not at hc
        exact hac (Prod.ext (by linear_combination hc.2) (by linear_combination -hc.1))
    · refine ⟨b.2 - a.2, a.1 - b.1, (b.2 - a.2) * a.1 + (a.1 - b.1) * a.2, ?_, rfl, by ring, by linear_combination -h⟩
      by_contra hc
      push Not at hc
      exact hab (Prod.ext (by linear_combination hc.2) (by linear_combination -hc.1))
  · rintro ⟨l, m, n, hlm, ha, hb, hc⟩
    unfold orient2d
    rcases hlm with hl | hm
    · have : l * ((a.1 - c.1) * (b.2 - c.2) - (a.2 - c.2) * (b.1 - c.1)) = 0 := by
        linear_combination (b.2 - c.2) * (ha - hc) - (a.2 - c.2) * (hb - hc)
      exact (mul_eq_zero.mp this).resolve_left hl
    · have : m * ((a.1 - c.1) * (b.2 - c.2) - (a.2 - c.2) * (b.1 - c.1)) = 0 := by
        linear_combination (a.1 - c.1) * (hb - hc) - (b.1 - c.1) * (ha - hc)
      exact (mul_eq_zero.mp this).resolve_left hm
  · unfold triArea
    rw [show (b.1 - a.1) * (c.2 - a.2) - (b.2 - a.2) * (c.1 - a.1) = orient2d a b c by unfold orient2d; ring]
    ring
  · simp [areCcw]

/-- C45: for a counter-clockwise triangle `in_circle` is positive exactly for the points strictly inside the circumscribed circle, null on it,
negative outside. -/
theorem C45_in_circle {a b c : K × K} (h : 0 < orient2d a b c) (o : K × K) (hab : Spec.dist2 o a = Spec.dist2 o b)
    (hac : Spec.dist2 o a = Spec.dist2 o c) (d : K × K) :
    (0 < inCircle a b c d ↔ Spec.dist2 o d < Spec.dist2 o a) ∧ (inCircle a b c d = 0 ↔ Spec.dist2 o d = Spec.dist2 o a) ∧
    (inCircle a b c d < 0 ↔ Spec.dist2 o a < Spec.dist2 o d) := by
  have key : inCircle a b c d = orient2d a b c * (Spec.dist2 o a - Spec.dist2 o d) := by
    unfold Spec.dist2 at hab hac ⊢
    unfold inCircle orient2d
    linear_combination (-((a.2 - d.2) * (c.1 - d.1) - (a.1 - d.1) * (c.2 - d.2))) * hab +
      (-((a.1 - d.1) * (b.2 - d.2) - (b.1 - d.1) * (a.2 - d.2))) * hac
  rw [key]
  refine ⟨?_, ?_, ?_⟩
  · rw [mul_pos_iff_of_pos_left h, sub_pos]
  · rw [mul_eq_zero, or_iff_right h.ne', sub_eq_zero, eq_comm]
  · rw [← sub_neg (a := Spec.dist2 o a)]
    exact ⟨fun h' => by nlinarith, fun h' => mul_neg_of_pos_of_neg h h'⟩

theorem orient_combination (a b c d : K × K) :
    orient2d a b c • d = orient2d b c d • a + orient2d c a d • b + orient2d a b d • c := by
  unfold orient2d
  ext
  · simp only [Prod.smul_fst, Prod.fst_add, smul_eq_mul]; ring
  · simp only [Prod.smul_snd, Prod.snd_add, smul_eq_mul]; ring

theorem inHull_iff {a b c d : K × K} (h : orient2d a b c ≠ 0) : Spec.InHull a b c d ↔
    0 ≤ orient2d b c d / orient2d a b c ∧ 0 ≤ orient2d c a d / orient2d a b c ∧ 0 ≤ orient2d a b d / orient2d a b c := by
  constructor
  · rintro ⟨α, β, γ, h1, h2, h3, hs, rfl⟩
    have hg : γ = 1 - α - β := by linear_combination hs
    subst hg
    have e1 : orient2d b c (α • a + β • b + (1 - α - β) • c) = α * orient2d a b c := by
      unfold orient2d; simp only [Prod.fst_add, Prod.snd_add, Prod.smul_fst, Prod.smul_snd, smul_eq_mul]; ring
    have e2 : orient2d c a (α • a + β • b + (1 - α - β) • c) = β * orient2d a b c := by
      unfold orient2d; simp only [Prod.fst_add, Prod.snd_add, Prod.smul_fst, Prod.smul_snd, smul_eq_mul]; ring
    have e3 : orient2d a b (α • a + β • b + (1 - α - β) • c) = (1 - α - β) * orient2d a b c := by
      unfold orient2d; simp only [Prod.fst_add, Prod.snd_add, Prod.smul_fst, Prod.smul_snd, smul_eq_mul]; ring
    rw [e1, e2, e3, mul_div_cancel_right₀ _ h, mul_div_cancel_right₀ _ h, mul_div_cancel_right₀ _ h]
    exact ⟨h1, h2, h3⟩
  · rintro ⟨h1, h2, h3⟩
    refine ⟨_, _, _, h1, h2, h3, ?_, ?_⟩
    · rw [← add_div, ← add_div, div_eq_one_iff_eq h]
      unfold orient2d; ring
    · have := orient_combination a b c d
      have h4 := congrArg (fun x => (orient2d a b c)⁻¹ • x) this
      simp only [smul_add, smul_smul, inv_mul_cancel₀ h, one_smul] at h4
      simpa only [div_eq_inv_mul] using h4

theorem div_nonneg_neg {x y : K} (h : y < 0) : 0 ≤ x / y ↔ x ≤ 0 := by
  rw [le_div_iff_of_neg h, zero_mul]

theorem div_nonneg_pos {x y : K} (h : 0 < y) : 0 ≤ x / y ↔ 0 ≤ x := by
  rw [le_div_iff₀ h, zero_mul]

theorem triSign_eq (p1 p2 p3 : K × K) : triSign p1 p2 p3 = orient2d p2 p3 p1 := by unfold triSign orient2d; ring

/-- C45: for a triangle that is not degenerate, of either orientation, `in_triangle` is the membership in the convex hull of the vertices. -/
theorem C45_in_triangle {a b c : K × K} (h : orient2d a b c ≠ 0) (d : K × K) : inTriangle a b c d = true ↔ Spec.InHull a b c d := by
  rw [inHull_iff h]
  have hs : orient2d a b d + orient2d b c d + orient2d c a d = orient2d a b c := (C45_orient a b c).2.2.2.2.2.1 d
  simp only [inTriangle, triSign_eq, Bool.not_eq_true', Bool.and_eq_false_iff, Bool.or_eq_false_iff, decide_eq_false_iff_not, not_lt]
  rcases lt_or_gt_of_ne h with hn | hp
  · simp only [div_nonneg_neg hn]
    constructor
    · rintro (⟨⟨h1, h2⟩, h3⟩ | ⟨⟨h1, h2⟩, h3⟩)
      · linarith
      · exact ⟨h2, h3, h1⟩
    · rintro ⟨h1, h2, h3⟩
      exact Or.inr ⟨⟨h3, h1⟩, h2⟩
  · simp only [div_nonneg_pos hp]
    constructor
    · rintro (⟨⟨h1, h2⟩, h3⟩ | ⟨⟨h1, h2⟩, h3⟩)
      · exact ⟨h2, h3, h1⟩
      · linarith
    · rintro ⟨h1, h2, h3⟩
      exact Or.inl ⟨⟨h3, h1⟩, h2⟩

/-- C45: `triangle_barycentric_coordinates` gives the unique coordinates of the point in the frame `a`, `c - a`, `b - a`; a degenerate triangle
divides by zero. -/
theorem C45_barycentric (a b c d : K × K) :
    (orient2d a b c ≠ 0 → ∃ u v, triBary a b c d = .ok (u, v) ∧ d = a + u • (c - a) + v • (b - a) ∧
      ∀ u' v' : K, d = a + u' • (c - a) + v' • (b - a) → u' = u ∧ v' = v) ∧
    (orient2d a b c = 0 → triBary a b c d = .error .divZero) := by
  have hden : ((c.1 - a.1) * (c.1 - a.1) + (c.2 - a.2) * (c.2 - a.2)) * ((b.1 - a.1) * (b.1 - a.1) + (b.2 - a.2) * (b.2 - a.2)) -
      ((c.1 - a.1) * (b.1 - a.1) + (c.2 - a.2) * (b.2 - a.2)) * ((c.1 - a.1) * (b.1 - a.1) + (c.2 - a.2) * (b.2 - a.2)) =
      orient2d a b c ^ 2 := by unfold orient2d; ring
  constructor
  · intro h
    have e : triBary a b c d = .ok (orient2d a b d / orient2d a b c, orient2d c a d / orient2d a b c) := by
      simp only [triBary, hden]
      rw [fdiv_ok (pow_ne_zero 2 h), R_bind_ok, R_pure]
      congr 2
      · rw [mul_one_div, div_eq_div_iff (pow_ne_zero 2 h) h]
        unfold orient2d; ring
      · rw [mul_one_div, div_eq_div_iff (pow_ne_zero 2 h) h]
        unfold orient2d; ring
    refine ⟨_, _, e, ?_, ?_⟩
    · have := orient_combination a b c d
      have hs : orient2d a b d + orient2d b c d + orient2d c a d = orient2d a b c := (C45_orient a b c).2.2.2.2.2.1 d
      have h1 := congrArg Prod.fst this
      have h2 := congrArg Prod.snd this
      simp only [Prod.fst_add, Prod.snd_add, Prod.smul_fst, Prod.smul_snd, smul_eq_mul] at h1 h2
      ext
      · simp only [Prod.fst_add, Prod.smul_fst, Prod.fst_sub, smul_eq_mul]
        field_simp
        linear_combination h1 + a.1 * hs
      · simp only [Prod.snd_add, Prod.smul_snd, Prod.snd_sub, smul_eq_mul]
        field_simp
        linear_combination h2 + a.2 * hs
    · intro u' v' hd
      constructor
      · rw [eq_div_iff h, hd]
        unfold orient2d
        simp only [Prod.fst_add, Prod.snd_add, Prod.smul_fst, Prod.smul_snd, Prod.fst_sub, Prod.snd_sub, smul_eq_mul]
        ring
      · rw [eq_div_iff h, hd]
        unfold orient2d
        simp only [Prod.fst_add, Prod.snd_add, Prod.smul_fst, Prod.smul_snd, Prod.fst_sub, Prod.snd_sub, smul_eq_mul]
        ring
  · intro h
    simp only [triBary, hden, h]
    rw [fdiv, if_pos (by simp), R_bind_error]

/-- C45: for a triangle that is not degenerate `in_triangle_barycentric` is the membership in the convex hull, hence agrees with `in_triangle`. -/
theorem C45_in_triangle_barycentric {a b c : K × K} (h : orient2d a b c ≠ 0) (d : K × K) :
    ∃ r, inTriangleBary a b c d = .ok r ∧ (r = true ↔ Spec.InHull a b c d) := by
  unfold inTriangleBary
  by_cases hv : d = a ∨ d = b ∨ d = c
  · rw [if_pos hv]
    refine ⟨true, rfl, fun _ => ?_, fun _ => rfl⟩
    rcases hv with rfl | rfl | rfl
    · exact ⟨1, 0, 0, zero_le_one, le_rfl, le_rfl, by simp, by simp⟩
    · exact ⟨0, 1, 0, le_rfl, zero_le_one, le_rfl, by simp, by simp⟩
    · exact ⟨0, 0, 1, le_rfl, le_rfl, zero_le_one, by simp, by simp⟩
  · rw [if_neg hv]
    obtain ⟨u, v, e, hd, hu⟩ := (C45_barycentric a b c d).1 h
    refine ⟨_, by rw [e, R_bind_ok]; rfl, ?_⟩
    simp only [Bool.and_eq_true, decide_eq_true_eq]
    constructor
    · rintro ⟨⟨h1, h2⟩, h3⟩
      refine ⟨1 - u - v, v, u, by linarith, h2, h1, by ring, ?_⟩
      rw [hd]
      ext
      · simp only [Prod.fst_add, Prod.smul_fst, Prod.fst_sub, smul_eq_mul]; ring
      · simp only [Prod.snd_add, Prod.smul_snd, Prod.snd_sub, smul_eq_mul]; ring
    · rintro ⟨α, β, γ, h1, h2, h3, hs, hd'⟩
      obtain ⟨rfl, rfl⟩ := hu γ β (by
        rw [hd']
        have hα : α = 1 - β - γ := by linear_combination hs
        rw [hα]
        ext
        · simp only [Prod.fst_add, Prod.smul_fst, Prod.fst_sub, smul_eq_mul]; ring
        · simp only [Prod.snd_add, Prod.smul_snd, Prod.snd_sub, smul_eq_mul]; ring)
      exact ⟨⟨h3, h2⟩, by linarith⟩

/-- C45: `circle_center` is at the same distance from the three points, and is the only such point; nearly aligned points give no centre. -/
theorem C45_circle_center {eps : K} (heps : 0 < eps) (a b c : K × K) :
    (eps ≤ |2 * orient2d a b c| → ∃ o, circleCenter eps a b c = .ok (some o) ∧ Spec.dist2 o a = Spec.dist2 o b ∧
      Spec.dist2 o a = Spec.dist2 o c ∧ ∀ o', Spec.dist2 o' a = Spec.dist2 o' b → Spec.dist2 o' a = Spec.dist2 o' c → o' = o) ∧
    (|2 * orient2d a b c| < eps → circleCenter eps a b c = .ok none) := by
  have hG : 2 * ((b.1 - a.1) * (c.2 - b.2) - (b.2 - a.2) * (c.1 - b.1)) = 2 * orient2d a b c := by unfold orient2d; ring
  constructor
  · intro h
    have h0 : 2 * orient2d a b c ≠ 0 := fun h' => by rw [h', abs_zero] at h; exact absurd h (not_le.mpr heps)
    have h00 : orient2d a b c ≠ 0 := fun h' => h0 (by rw [h', mul_zero])
    have key : ∀ o : K × K, (Spec.dist2 o a = Spec.dist2 o b ↔
        2 * ((b.1 - a.1) * o.1 + (b.2 - a.2) * o.2) = (b.1 - a.1) * (a.1 + b.1) + (b.2 - a.2) * (a.2 + b.2)) ∧
        (Spec.dist2 o a = Spec.dist2 o c ↔
        2 * ((c.1 - a.1) * o.1 + (c.2 - a.2) * o.2) = (c.1 - a.1) * (a.1 + c.1) + (c.2 - a.2) * (a.2 + c.2)) := by
      intro o
      unfold Spec.dist2
      exact ⟨⟨fun h => by linear_combination h, fun h => by linear_combination h⟩,
        ⟨fun h => by linear_combination h, fun h => by linear_combination h⟩⟩
    simp only [circleCenter, hG]
    rw [if_neg (not_lt.mpr h), fdiv_ok h0, fdiv_ok h0]
    simp only [R_bind_ok, R_pure]
    refine ⟨_, rfl, ?_, ?_, ?_⟩
    · rw [(key _).1]
      simp only []
      field_simp
      unfold orient2d
      ring
    · rw [(key _).2]
      simp only []
      field_simp
      unfold orient2d
      ring
    · intro o' h1 h2
      rw [(key _).1] at h1
      rw [(key _).2] at h2
      ext
      · simp only []
        rw [eq_div_iff h0]
        unfold orient2d
        linear_combination (c.2 - a.2) * h1 - (b.2 - a.2) * h2
      · simp only []
        rw [eq_div_iff h0]
        unfold orient2d
        linear_combination (b.1 - a.1) * h2 - (c.1 - a.1) * h1
  · intro h
    simp only [circleCenter, hG]
    rw [if_pos h, R_pure]

/-- C45: `computeUV` gives the coordinates of the orthogonal projection of the point on the plane of the triangle: the rest is orthogonal to both
sides; in particular it reproduces the points of that plane. A degenerate triangle is refused. -/
theorem C45_compute_uv {eps : K} (heps : 0 < eps) {n : ℕ} (a b c p : Fin n → K) {det : K}
    (hdet : det = (∑ i, (b i - a i) * (b i - a i)) * (∑ i, (c i - a i) * (c i - a i)) - (∑ i, (b i - a i) * (c i - a i)) ^ 2) :
    (eps ≤ |det| → ∃ u v, computeUV eps a b c p = .ok (u, v) ∧
      ∑ i, (p i - (a i + u * (b i - a i) + v * (c i - a i))) * (b i - a i) = 0 ∧
      ∑ i, (p i - (a i + u * (b i - a i) + v * (c i - a i))) * (c i - a i) = 0 ∧
      ∀ u' v' : K, (∀ i, p i = a i + u' * (b i - a i) + v' * (c i - a i)) → u' = u ∧ v' = v) ∧
    (|det| < eps → computeUV eps a b c p = .error (.thrown .runtime)) := by
  have e : ∀ x y : Fin n → K, ∑ i, (a i - x i) * (a i - y i) = ∑ i, (x i - a i) * (y i - a i) := fun x y =>
    Finset.sum_congr rfl fun i _ => by ring
  simp only [computeUV, e]
  have hd' : (∑ i, (b i - a i) * (b i - a i)) * (∑ i, (c i - a i) * (c i - a i)) -
      (∑ i, (b i - a i) * (c i - a i)) * (∑ i, (b i - a i) * (c i - a i)) = det := by rw [hdet]; ring
  rw [hd']
  constructor
  · intro h
    have h0 : det ≠ 0 := fun h' => by rw [h', abs_zero] at h; exact absurd h (not_le.mpr heps)
    rw [if_neg (not_lt.mpr h), fdiv_ok h0, fdiv_ok h0]
    simp only [R_bind_ok, R_pure]
    have split : ∀ (u v : K) (w : Fin n → K), ∑ i, (p i - (a i + u * (b i - a i) + v * (c i - a i))) * w i =
        ∑ i, w i * (p i - a i) - u * ∑ i, (b i - a i) * w i - v * ∑ i, (c i - a i) * w i := by
      intro u v w
      rw [Finset.mul_sum, Finset.mul_sum, ← Finset.sum_sub_distrib, ← Finset.sum_sub_distrib]
      exact Finset.sum_congr rfl fun i _ => by ring
    have hcb : ∑ i, (c i - a i) * (b i - a i) = ∑ i, (b i - a i) * (c i - a i) := Finset.sum_congr rfl fun i _ => by ring
    refine ⟨_, _, rfl, ?_, ?_, ?_⟩
    · rw [split _ _ (fun i => b i - a i), hcb]
      field_simp
      rw [hdet]; ring
    · rw [split _ _ (fun i => c i - a i)]
      field_simp
      rw [hdet]; ring
    · intro u' v' hp
      have f : ∀ w : Fin n → K, ∑ i, w i * (p i - a i) = u' * ∑ i, (b i - a i) * w i + v' * ∑ i, (c i - a i) * w i := by
        intro w
        rw [Finset.mul_sum, Finset.mul_sum, ← Finset.sum_add_distrib]
        exact Finset.sum_congr rfl fun i _ => by rw [hp i]; ring
      rw [f (fun i => b i - a i), f (fun i => c i - a i), hcb]
      constructor
      · rw [eq_div_iff h0, hdet]; ring
      · rw [eq_div_iff h0, hdet]; ring
  · intro h
    rw [if_pos h]

/-- C45: `getCoordsMinMax` of a non-empty list is its smallest bounding box. -/
theorem C45_min_max (x : K × K) (l : List (K × K)) : ∃ lo hi, coordsMinMax (x :: l) = .ok (lo, hi) ∧
    (∀ p ∈ x :: l, lo.1 ≤ p.1 ∧ lo.2 ≤ p.2 ∧ p.1 ≤ hi.1 ∧ p.2 ≤ hi.2) ∧
    (∃ p ∈ x :: l, p.1 = lo.1) ∧ (∃ p ∈ x :: l, p.2 = lo.2) ∧ (∃ p ∈ x :: l, p.1 = hi.1) ∧ ∃ p ∈ x :: l, p.2 = hi.2 := by
  suffices H : ∀ (l' s : List (K × K)) (lo hi : K × K), (∀ p ∈ s, lo.1 ≤ p.1 ∧ lo.2 ≤ p.2 ∧ p.1 ≤ hi.1 ∧ p.2 ≤ hi.2) →
      ((∃ p ∈ s, p.1 = lo.1) ∧ (∃ p ∈ s, p.2 = lo.2) ∧ (∃ p ∈ s, p.1 = hi.1) ∧ ∃ p ∈ s, p.2 = hi.2) →
      ∃ lo' hi', l'.foldl (fun m p => ((min m.1.1 p.1, min m.1.2 p.2), (max m.2.1 p.1, max m.2.2 p.2))) (lo, hi) = (lo', hi') ∧
      (∀ p ∈ s ++ l', lo'.1 ≤ p.1 ∧ lo'.2 ≤ p.2 ∧ p.1 ≤ hi'.1 ∧ p.2 ≤ hi'.2) ∧
      ((∃ p ∈ s ++ l', p.1 = lo'.1) ∧ (∃ p ∈ s ++ l', p.2 = lo'.2) ∧ (∃ p ∈ s ++ l', p.1 = hi'.1) ∧ ∃ p ∈ s ++ l', p.2 = hi'.2) by
    obtain ⟨lo, hi, h1, h2, h3⟩ := H l [x] x x (by simp) ⟨⟨x, by simp⟩, ⟨x, by simp⟩, ⟨x, by simp⟩, ⟨x, by simp⟩⟩
    refine ⟨lo, hi, ?_, h2, h3⟩
    simp only [coordsMinMax, List.foldl_cons, min_self, max_self]
    rw [← h1]
  intro l'
  induction l' with
  | nil => intro s lo hi h1 h2; exact ⟨lo, hi, rfl, by simpa using h1, by simpa using h2⟩
  | cons q l' ih =>
    intro s lo hi h1 h2
    have := ih (s ++ [q]) (min lo.1 q.1, min lo.2 q.2) (max hi.1 q.1, max hi.2 q.2) ?_ ?_
    · simpa [List.foldl_cons, List.append_assoc] using this
    · intro p hp
      rcases List.mem_append.mp hp with hp | hp
      · obtain ⟨g1, g2, g3, g4⟩ := h1 p hp
        exact ⟨(min_le_left _ _).trans g1, (min_le_left _ _).trans g2, g3.trans (le_max_left _ _), g4.trans (le_max_left _ _)⟩
      · obtain rfl : p = q := by simpa using hp
        exact ⟨min_le_right _ _, min_le_right _ _, le_max_right _ _, le_max_right _ _⟩
    · obtain ⟨⟨p1, m1, e1⟩, ⟨p2, m2, e2⟩, ⟨p3, m3, e3⟩, ⟨p4, m4, e4⟩⟩ := h2
      refine ⟨?_, ?_, ?_, ?_⟩
      · rcases min_choice lo.1 q.1 with h | h
        · exact ⟨p1, by simp [m1], by rw [h, e1]⟩
        · exact ⟨q, by simp, by rw [h]⟩
      · rcases min_choice lo.2 q.2 with h | h
        · exact ⟨p2, by simp [m2], by rw [h, e2]⟩
        · exact ⟨q, by simp, by rw [h]⟩
      · rcases max_choice hi.1 q.1 with h | h
        · exact ⟨p3, by simp [m3], by rw [h, e3]⟩
        · exact ⟨q, by simp, by rw [h]⟩
      · rcases max_choice hi.2 q.2 with h | h
        · exact ⟨p4, by simp [m4], by rw [h, e4]⟩
        · exact ⟨q, by simp, by rw [h]⟩

/-- C45 needs the triangle not to be degenerate: on a flat triangle `in_triangle` accepts every point of the line. -/
theorem C45_flat_triangle_witness : ∃ a b c d : ℚ × ℚ, orient2d a b c = 0 ∧ inTriangle a b c d = true ∧ ¬Spec.InHull a b c d := by
  refine ⟨(0, 0), (1, 0), (2, 0), (5, 0), by decide +kernel, by decide +kernel, ?_⟩
  rintro ⟨α, β, γ, h1, h2, h3, hs, hd⟩
  have := congrArg Prod.fst hd
  simp at this
  linarith

/-- The comment of `triangle_barycentric_coordinates` announces `d = u a + v b + (1 - u - v) c`, which is not what is returned. -/
theorem C45_barycentric_comment_witness : ∃ (a b c d : ℚ × ℚ) (u v : ℚ), triBary a b c d = .ok (u, v) ∧ d ≠ u • a + v • b + (1 - u - v) • c :=
  ⟨(0, 0), (1, 0), (0, 1), (0, 1), 1, 0, by decide +kernel, by decide +kernel⟩

/-! ## The hypotheses are met -/

example : 0 < orient2d ((0, 0) : ℚ × ℚ) (2, 0) (0, 2) ∧ Spec.dist2 ((1, 1) : ℚ × ℚ) (0, 0) = Spec.dist2 ((1, 1) : ℚ × ℚ) (2, 0) ∧
    Spec.dist2 ((1, 1) : ℚ × ℚ) (0, 0) = Spec.dist2 ((1, 1) : ℚ × ℚ) (0, 2) ∧ 0 < inCircle ((0, 0) : ℚ × ℚ) (2, 0) (0, 2) (1, 0) := by
  decide +kernel

example : circleCenter (1 / 1000 : ℚ) (0, 0) (2, 0) (0, 2) = .ok (some (1, 1)) := by decide +kernel

example : computeUV (1 / 1000 : ℚ) ![0, 0, 0] ![1, 0, 0] ![0, 1, 0] ![1 / 2, 1 / 4, 7] = .ok (1 / 2, 1 / 4) := by decide +kernel

end Gbs
