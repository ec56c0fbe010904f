import Verif.Model.Incenter
import Verif.Props.Frames
import Mathlib.Tactic.FieldSimp
import Mathlib.Tactic.LinearCombination

/-!
# C126: the perimeter and the incentre of a triangle
-/

set_option linter.unusedSectionVars false

namespace Gbs

variable {K : Type} [Field K] [LinearOrder K] [IsStrictOrderedRing K]

/-- Twice the signed area of the triangle `p`, `q`, `x`: positive when `x` is on the left of the line from `p` to `q`. -/
def Spec.leftOf (p q x : K × K) : K := (q.1 - p.1) * (x.2 - p.2) - (q.2 - p.2) * (x.1 - p.1)

/-- Scalar product of the vectors from `p` to `q` and from `p` to `x`. -/
def Spec.alongSide (p q x : K × K) : K := (q.1 - p.1) * (x.1 - p.1) + (q.2 - p.2) * (x.2 - p.2)

/-- `d` is the distance of the points `p` and `q`. -/
def Spec.IsDist (p q : K × K) (d : K) : Prop := 0 ≤ d ∧ d * d = (p.1 - q.1) * (p.1 - q.1) + (p.2 - q.2) * (p.2 - q.2)

theorem sideLen_dist {sqrt : K → K} (hs : IsSqrt sqrt) (p q : K × K) : Spec.IsDist p q (sideLen sqrt p q) :=
  hs _ (add_nonneg (mul_self_nonneg _) (mul_self_nonneg _))

theorem Spec.IsDist.unique {p q : K × K} {d e : K} (h : Spec.IsDist p q d) (h' : Spec.IsDist p q e) : d = e := by
  nlinarith [h.1, h'.1, mul_self_eq_mul_self_iff.mp (h.2.trans h'.2.symm) |>.elim id (fun k => by
    have h1 := h.1; have h2 := h'.1
    have : e = 0 := by linarith
    rw [k, this, neg_zero])]

theorem Spec.IsDist.symm {p q : K × K} {d : K} (h : Spec.IsDist p q d) : Spec.IsDist q p d := ⟨h.1, by rw [h.2]; ring⟩

theorem Spec.IsDist.eq_zero {p q : K × K} {d : K} (h : Spec.IsDist p q d) : d = 0 ↔ p = q := by
  constructor
  · rintro rfl
    have h2 := h.2
    rw [mul_zero] at h2
    have a1 := mul_self_nonneg (p.1 - q.1)
    have a2 := mul_self_nonneg (p.2 - q.2)
    have e1 : (p.1 - q.1) * (p.1 - q.1) = 0 := by linarith
    have e2 : (p.2 - q.2) * (p.2 - q.2) = 0 := by linarith
    exact Prod.ext (sub_eq_zero.mp (mul_self_eq_zero.mp e1)) (sub_eq_zero.mp (mul_self_eq_zero.mp e2))
  · rintro rfl
    exact mul_self_eq_zero.mp (by rw [h.2]; ring)

/-- The triangle inequality. -/
theorem Spec.IsDist.triangle {p q r : K × K} {d e f : K} (h : Spec.IsDist p q d) (h' : Spec.IsDist q r e) (h'' : Spec.IsDist p r f) : f ≤ d + e := by
  have hd := h.1
  have he := h'.1
  refine abs_le_of_sq_le_sq' ?_ (add_nonneg hd he) |>.2
  have cs : (p.1 - q.1) * (q.1 - r.1) + (p.2 - q.2) * (q.2 - r.2) ≤ d * e := by
    refine abs_le_of_sq_le_sq' ?_ (mul_nonneg hd he) |>.2
    have : (d * e) ^ 2 = ((p.1 - q.1) * (p.1 - q.1) + (p.2 - q.2) * (p.2 - q.2)) * ((q.1 - r.1) * (q.1 - r.1) + (q.2 - r.2) * (q.2 - r.2)) := by
      rw [← h.2, ← h'.2]; ring
    rw [this]
    nlinarith [mul_self_nonneg ((p.1 - q.1) * (q.2 - r.2) - (p.2 - q.2) * (q.1 - r.1))]
  have h1 := h.2
  have h2 := h'.2
  have h3 := h''.2
  nlinarith

/-- **C126**: the perimeter is the sum of the distances of the vertices; each side is at most its half, and it is zero only for three equal points. -/
theorem C126_perimeter {sqrt : K → K} (hs : IsSqrt sqrt) (a b c : K × K) {x y z : K} (hx : Spec.IsDist a b x) (hy : Spec.IsDist b c y)
    (hz : Spec.IsDist c a z) :
    perimeter sqrt a b c = x + y + z ∧ 2 * x ≤ perimeter sqrt a b c ∧ 2 * y ≤ perimeter sqrt a b c ∧ 2 * z ≤ perimeter sqrt a b c ∧
    (perimeter sqrt a b c = 0 ↔ a = b ∧ b = c) := by
  have e : perimeter sqrt a b c = x + y + z := by
    unfold perimeter
    dsimp only
    rw [(sideLen_dist hs b c).unique hy, (sideLen_dist hs a c).unique hz.symm, (sideLen_dist hs a b).unique hx]
    ring
  have t1 := hy.triangle hz hx.symm
  have t2 := hx.symm.triangle hz.symm hy
  have t3 := hy.symm.triangle hx.symm hz
  refine ⟨e, by rw [e]; linarith, by rw [e]; linarith, by rw [e]; linarith, ?_⟩
  rw [e, ← hx.eq_zero, ← hy.eq_zero]
  have := hx.1; have := hy.1; have := hz.1
  constructor
  · intro h; exact ⟨by linarith, by linarith⟩
  · rintro ⟨h1, h2⟩; linarith

/-- **C126**: the incentre of three points that are not all equal is at the same signed distance `r` of the three sides, this distance times the
perimeter being twice the area; the circle of this radius touches each side between its ends: the foot of the perpendicular is at half the perimeter
less the opposite side from each vertex. -/
theorem C126_incenter {sqrt : K → K} (hs : IsSqrt sqrt) {a b c : K × K} (hne : ¬(a = b ∧ b = c)) {x y z : K} (hx : Spec.IsDist a b x)
    (hy : Spec.IsDist b c y) (hz : Spec.IsDist c a z) :
    ∃ I r, incenter sqrt a b c = .ok I ∧ Spec.leftOf a b I = r * x ∧ Spec.leftOf b c I = r * y ∧ Spec.leftOf c a I = r * z ∧
      r * (x + y + z) = Spec.leftOf a b c ∧ 2 * Spec.alongSide a b I = x * (x + z - y) ∧ 2 * Spec.alongSide b c I = y * (y + x - z) ∧
      2 * Spec.alongSide c a I = z * (z + y - x) := by
  obtain ⟨e, -, -, -, hz0⟩ := C126_perimeter hs a b c hx hy hz
  have hp : x + y + z ≠ 0 := by rw [← e]; exact fun h => hne (hz0.mp h)
  have hx2 := hx.2
  have hy2 := hy.2
  have hz2 := hz.2
  refine ⟨((y * a.1 + z * b.1 + x * c.1) / (x + y + z), (y * a.2 + z * b.2 + x * c.2) / (x + y + z)), Spec.leftOf a b c / (x + y + z), ?_, ?_, ?_, ?_,
    div_mul_cancel₀ _ hp, ?_, ?_, ?_⟩
  · unfold incenter fdiv
    dsimp only
    rw [(sideLen_dist hs b c).unique hy, (sideLen_dist hs a c).unique hz.symm, (sideLen_dist hs a b).unique hx]
    have : y + z + x = x + y + z := by ring
    rw [this, if_neg hp, R_bind_ok, if_neg hp, R_bind_ok]
    rfl
  · unfold Spec.leftOf; field_simp; ring
  · unfold Spec.leftOf; field_simp; ring
  · unfold Spec.leftOf; field_simp; ring
  · unfold Spec.alongSide; field_simp; linear_combination (-2 * z - x) * hx2 + x * hy2 - x * hz2
  · unfold Spec.alongSide; field_simp; linear_combination (-2 * x - y) * hy2 + y * hz2 - y * hx2
  · unfold Spec.alongSide; field_simp; linear_combination (-2 * y - z) * hz2 + z * hx2 - z * hy2

/-- **C126**: a triangle that is not flat contains its incentre, strictly, and has no other point at the same signed distance of the three sides. -/
theorem C126_unique {sqrt : K → K} (hs : IsSqrt sqrt) {a b c : K × K} (hA : Spec.leftOf a b c ≠ 0) {x y z : K} (hx : Spec.IsDist a b x)
    (hy : Spec.IsDist b c y) (hz : Spec.IsDist c a z) :
    ∃ I, incenter sqrt a b c = .ok I ∧ 0 < Spec.leftOf a b I * Spec.leftOf a b c ∧ 0 < Spec.leftOf b c I * Spec.leftOf a b c ∧
      0 < Spec.leftOf c a I * Spec.leftOf a b c ∧
      ∀ J r, Spec.leftOf a b J = r * x → Spec.leftOf b c J = r * y → Spec.leftOf c a J = r * z → J = I := by
  have hab : a ≠ b := by rintro rfl; exact hA (by unfold Spec.leftOf; ring)
  have hbc : b ≠ c := by rintro rfl; exact hA (by unfold Spec.leftOf; ring)
  have hca : c ≠ a := by rintro rfl; exact hA (by unfold Spec.leftOf; ring)
  have px : 0 < x := lt_of_le_of_ne hx.1 (fun h => hab (hx.eq_zero.mp h.symm))
  have py : 0 < y := lt_of_le_of_ne hy.1 (fun h => hbc (hy.eq_zero.mp h.symm))
  have pz : 0 < z := lt_of_le_of_ne hz.1 (fun h => hca (hz.eq_zero.mp h.symm))
  obtain ⟨I, r, e, h1, h2, h3, h4, -⟩ := C126_incenter hs (fun h => hab h.1) hx hy hz
  have pp : 0 < x + y + z := by linarith
  have hr : r ≠ 0 := by rintro rfl; exact hA (by rw [← h4, zero_mul])
  have hrr := mul_self_pos.mpr hr
  refine ⟨I, e, ?_, ?_, ?_, ?_⟩
  · rw [h1, ← h4]; nlinarith [mul_pos hrr (mul_pos px pp)]
  · rw [h2, ← h4]; nlinarith [mul_pos hrr (mul_pos py pp)]
  · rw [h3, ← h4]; nlinarith [mul_pos hrr (mul_pos pz pp)]
  intro J s g1 g2 g3
  have hsum : Spec.leftOf a b J + Spec.leftOf b c J + Spec.leftOf c a J = Spec.leftOf a b c := by unfold Spec.leftOf; ring
  have hsr : s = r := by
    have : s * (x + y + z) = r * (x + y + z) := by rw [h4, ← hsum, g1, g2, g3]; ring
    exact mul_right_cancel₀ pp.ne' this
  subst hsr
  have k1 : Spec.leftOf a b J = Spec.leftOf a b I := g1.trans h1.symm
  have k3 : Spec.leftOf c a J = Spec.leftOf c a I := g3.trans h3.symm
  unfold Spec.leftOf at k1 k3 hA
  refine Prod.ext (mul_left_cancel₀ hA ?_) (mul_left_cancel₀ hA ?_)
  · linear_combination (c.1 - a.1) * k1 + (b.1 - a.1) * k3
  · linear_combination (c.2 - a.2) * k1 + (b.2 - a.2) * k3

/-- **C126**: three equal points have no incentre: the quotient is 0/0. -/
theorem C126_point {sqrt : K → K} (hs : IsSqrt sqrt) (a : K × K) : incenter sqrt a a a = .error .divZero := by
  have h : sideLen sqrt a a = 0 := (sideLen_dist hs a a).eq_zero.mpr rfl
  unfold incenter fdiv
  dsimp only
  rw [h, if_pos (by ring)]
  rfl

/-- **C126**: the hypotheses hold for the triangle of vertices (0, 0), (4, 0), (0, 3) over the reals, whose incentre is (1, 1). -/
theorem C126_witness : perimeter Real.sqrt (0, 0) (4, 0) (0, 3) = 12 ∧ incenter Real.sqrt (0, 0) (4, 0) (0, 3) = .ok (1, 1) := by
  have d1 : Spec.IsDist ((0, 0) : ℝ × ℝ) (4, 0) 4 := ⟨by norm_num, by norm_num⟩
  have d2 : Spec.IsDist ((4, 0) : ℝ × ℝ) (0, 3) 5 := ⟨by norm_num, by norm_num⟩
  have d3 : Spec.IsDist ((0, 3) : ℝ × ℝ) (0, 0) 3 := ⟨by norm_num, by norm_num⟩
  obtain ⟨I, e, -, -, -, u⟩ := C126_unique isSqrt_real (a := (0, 0)) (b := (4, 0)) (c := (0, 3)) (by norm_num [Spec.leftOf]) d1 d2 d3
  refine ⟨by rw [(C126_perimeter isSqrt_real _ _ _ d1 d2 d3).1]; norm_num, ?_⟩
  rw [e, u (1, 1) 1 (by norm_num [Spec.leftOf]) (by norm_num [Spec.leftOf]) (by norm_num [Spec.leftOf])]

end Gbs
