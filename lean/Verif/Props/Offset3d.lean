import Verif.Props.Circles
import Mathlib.Tactic.LinearCombination
import Mathlib.Analysis.SpecialFunctions.Trigonometric.Deriv

/-!
# C128: the offset of a space curve in a direction
-/

set_option linter.unusedSectionVars false

namespace Gbs

section Field

variable {K : Type} [Field K] [LinearOrder K] [IsStrictOrderedRing K]

/-- `q` is the point at the signed distance `o` of `p`, on the side of the vector product of the direction and of the tangent. -/
def Spec.OffsetPoint (dir tan p : Fin 3 → K) (o : K) (q : Fin 3 → K) : Prop :=
  dot (q - p) tan = 0 ∧ dot (q - p) dir = 0 ∧ sqNorm (q - p) = o * o ∧ 0 ≤ o * dot (q - p) (cross3 dir tan)

theorem adimV_ok {sqrt : K → K} (hs : IsSqrt sqrt) {n : ℕ} {x : Fin n → K} (hx : x ≠ 0) : adimV sqrt x = .ok ((vnorm sqrt x)⁻¹ • x) := by
  unfold adimV vdiv
  rw [if_neg (vnorm_ne_zero hs hx)]

theorem adimV_zero {sqrt : K → K} (hs : IsSqrt sqrt) {n : ℕ} : adimV sqrt (0 : Fin n → K) = .error .divZero := by
  unfold adimV vdiv
  rw [if_pos]
  have := vnorm_mul_self hs (0 : Fin n → K)
  rw [sqNorm_eq_zero.mpr rfl] at this
  exact mul_self_eq_zero.mp this

theorem vnorm_pos' {sqrt : K → K} (hs : IsSqrt sqrt) {n : ℕ} {x : Fin n → K} (hx : x ≠ 0) : 0 < vnorm sqrt x :=
  lt_of_le_of_ne (hs _ (sqNorm_nonneg x)).1 (vnorm_ne_zero hs hx).symm

theorem cross3_smul_right (a b : Fin 3 → K) (s : K) : cross3 a (s • b) = s • cross3 a b := by
  funext i
  fin_cases i
  · show a 1 * (s * b 2) - a 2 * (s * b 1) = s * (a 1 * b 2 - a 2 * b 1); ring
  · show a 2 * (s * b 0) - a 0 * (s * b 2) = s * (a 2 * b 0 - a 0 * b 2); ring
  · show a 0 * (s * b 1) - a 1 * (s * b 0) = s * (a 0 * b 1 - a 1 * b 0); ring

theorem sqNorm_smul' (s : K) {n : ℕ} (x : Fin n → K) : sqNorm (s • x) = s * s * sqNorm x := by
  unfold sqNorm
  rw [Finset.mul_sum]
  refine Finset.sum_congr rfl fun i _ => ?_
  simp only [Pi.smul_apply, smul_eq_mul]; ring

theorem dot_smul_left' (s : K) {n : ℕ} (x y : Fin n → K) : dot (s • x) y = s * dot x y := by
  unfold dot
  rw [Finset.mul_sum]
  refine Finset.sum_congr rfl fun i _ => ?_
  simp only [Pi.smul_apply, smul_eq_mul]; ring

/-- The normal of the offset. -/
theorem normal3 {sqrt : K → K} (hs : IsSqrt sqrt) {dir d1 : Fin 3 → K} (hx : cross3 dir d1 ≠ 0) :
    adimV sqrt d1 = .ok ((vnorm sqrt d1)⁻¹ • d1) ∧ ∃ (n : Fin 3 → K) (s : K), adimV sqrt (cross3 dir ((vnorm sqrt d1)⁻¹ • d1)) = .ok n ∧ 0 < s ∧ n = s • cross3 dir d1 ∧ sqNorm n = 1 := by
  have h1 : d1 ≠ 0 := by
    rintro rfl
    refine hx ?_
    have := cross3_smul_right dir (0 : Fin 3 → K) 0
    rwa [zero_smul, zero_smul] at this
  have p1 := vnorm_pos' hs h1
  have hx' : cross3 dir ((vnorm sqrt d1)⁻¹ • d1) ≠ 0 := by
    rw [cross3_smul_right]
    exact smul_ne_zero (inv_ne_zero p1.ne') hx
  have p2 := vnorm_pos' hs hx'
  refine ⟨adimV_ok hs h1, _, (vnorm sqrt (cross3 dir ((vnorm sqrt d1)⁻¹ • d1)))⁻¹ * (vnorm sqrt d1)⁻¹, adimV_ok hs hx',
    mul_pos (inv_pos.mpr p2) (inv_pos.mpr p1), ?_, ?_⟩
  · rw [mul_smul, ← cross3_smul_right dir d1]
  · rw [sqNorm_smul', ← vnorm_mul_self hs (cross3 dir ((vnorm sqrt d1)⁻¹ • d1))]
    rw [mul_mul_mul_comm, inv_mul_cancel₀ p2.ne', mul_one]

/-- **C128**: the point of the offset is at the distance of the offset from the point of the curve, orthogonally to the tangent and to the direction, on
the side given by the sign of the offset; this determines it. -/
theorem C128_point {sqrt : K → K} (hs : IsSqrt sqrt) {c : ACurve K (Fin 3 → K)} {off : K → ℕ → R K} {dir : Fin 3 → K} {u o : K} {p d1 : Fin 3 → K}
    (hp : c.value u 0 = .ok p) (hd : c.value u 1 = .ok d1) (ho : off u 0 = .ok o) (hx : cross3 dir d1 ≠ 0) :
    ∃ q, c.offset3d sqrt off dir u 0 = .ok q ∧ Spec.OffsetPoint dir d1 p o q ∧ ∀ q', Spec.OffsetPoint dir d1 p o q' → q' = q := by
  obtain ⟨e1, n, s, e2, hs0, hn, hn1⟩ := normal3 hs hx
  have hq : c.offset3d sqrt off dir u 0 = .ok (p + o • n) := by
    unfold ACurve.offset3d
    rw [if_pos rfl, hp, R_bind_ok, hd, R_bind_ok, e1, R_bind_ok, e2, R_bind_ok, ho, R_bind_ok]
    rfl
  obtain ⟨c0, c1, c2⟩ := cross3_apply dir d1
  have hcpos : 0 < sqNorm (cross3 dir d1) := lt_of_le_of_ne (sqNorm_nonneg _) (fun h => hx (sqNorm_eq_zero.mp h.symm))
  have hO : Spec.OffsetPoint dir d1 p o (p + o • n) := by
    have e : p + o • n - p = (o * s) • cross3 dir d1 := by rw [hn, smul_smul]; exact add_sub_cancel_left _ _
    refine ⟨?_, ?_, ?_, ?_⟩
    · rw [e, dot_smul_left', dot_three, c0, c1, c2]; ring
    · rw [e, dot_smul_left', dot_three, c0, c1, c2]; ring
    · rw [add_sub_cancel_left, sqNorm_smul', hn1, mul_one]
    · rw [e, dot_smul_left']
      have : dot (cross3 dir d1) (cross3 dir d1) = sqNorm (cross3 dir d1) := rfl
      rw [this]
      have := mul_nonneg (mul_nonneg (mul_self_nonneg o) hs0.le) hcpos.le
      linarith
  refine ⟨_, hq, hO, fun q' hO' => ?_⟩
  -- a vector orthogonal to the tangent and to the direction is along their product
  have par : ∀ w : Fin 3 → K, dot w d1 = 0 → dot w dir = 0 → sqNorm (cross3 dir d1) • w = dot w (cross3 dir d1) • cross3 dir d1 := by
    intro w h1 h2
    rw [dot_three] at h1 h2
    funext i
    simp only [Pi.smul_apply, smul_eq_mul, dot_three, sqNorm_three, c0, c1, c2]
    fin_cases i
    · show _ * w 0 = _ * cross3 dir d1 0
      rw [c0]
      linear_combination (-(dir 1 * (dir 0 * d1 1 - dir 1 * d1 0)) + dir 2 * (dir 2 * d1 0 - dir 0 * d1 2)) * h1 +
        (d1 1 * (dir 0 * d1 1 - dir 1 * d1 0) - d1 2 * (dir 2 * d1 0 - dir 0 * d1 2)) * h2
    · show _ * w 1 = _ * cross3 dir d1 1
      rw [c1]
      linear_combination (-(dir 2 * (dir 1 * d1 2 - dir 2 * d1 1)) + dir 0 * (dir 0 * d1 1 - dir 1 * d1 0)) * h1 +
        (d1 2 * (dir 1 * d1 2 - dir 2 * d1 1) - d1 0 * (dir 0 * d1 1 - dir 1 * d1 0)) * h2
    · show _ * w 2 = _ * cross3 dir d1 2
      rw [c2]
      linear_combination (-(dir 0 * (dir 2 * d1 0 - dir 0 * d1 2)) + dir 1 * (dir 1 * d1 2 - dir 2 * d1 1)) * h1 +
        (d1 0 * (dir 2 * d1 0 - dir 0 * d1 2) - d1 1 * (dir 1 * d1 2 - dir 2 * d1 1)) * h2
  set N := sqNorm (cross3 dir d1) with hN
  have key : ∀ q, Spec.OffsetPoint dir d1 p o q → dot (q - p) (cross3 dir d1) * dot (q - p) (cross3 dir d1) = N * (o * o) := by
    intro q h
    have h1 := par (q - p) h.1 h.2.1
    have h2 := congrArg (fun w => dot w (q - p)) h1
    simp only [dot_smul_left'] at h2
    have h3 : dot (q - p) (q - p) = o * o := h.2.2.1
    have h4 : dot (cross3 dir d1) (q - p) = dot (q - p) (cross3 dir d1) := by rw [dot_three, dot_three]; ring
    rw [h3, h4] at h2
    exact h2.symm
  have heq : dot (q' - p) (cross3 dir d1) = dot (p + o • n - p) (cross3 dir d1) := by
    have k1 := key _ hO'
    have k2 := key _ hO
    have g1 := hO'.2.2.2
    have g2 := hO.2.2.2
    rcases mul_self_eq_mul_self_iff.mp (k1.trans k2.symm) with h | h
    · exact h
    · by_cases ho0 : o = 0
      · have z : N * (o * o) = 0 := by rw [ho0]; ring
        rw [mul_self_eq_zero.mp (k1.trans z), mul_self_eq_zero.mp (k2.trans z)]
      · rw [h] at g1 ⊢
        have : o * dot (p + o • n - p) (cross3 dir d1) = 0 := by linarith
        rcases mul_eq_zero.mp this with h0 | h0
        · exact absurd h0 ho0
        · rw [h0, neg_zero]
  have h1 := par _ hO'.1 hO'.2.1
  have h2 := par _ hO.1 hO.2.1
  rw [heq, ← h2] at h1
  exact sub_left_injective (smul_right_injective _ hcpos.ne' h1)

/-- **C128**: where the curve is along the direction there is no offset: the quotient is 0/0, for the derivatives too. -/
theorem C128_along {sqrt : K → K} (hs : IsSqrt sqrt) {c : ACurve K (Fin 3 → K)} {off : K → ℕ → R K} {dir : Fin 3 → K} {u : K}
    {x : ℕ → Fin 3 → K} (hv : ∀ d, d ≤ 3 → c.value u d = .ok (x d)) (h1 : x 1 ≠ 0) (hx : cross3 dir (x 1) = 0) {d : ℕ} (hd : d ≤ 2) :
    c.offset3d sqrt off dir u d = .error .divZero := by
  have e1 := adimV_ok hs h1
  have e2 : adimV sqrt (cross3 dir ((vnorm sqrt (x 1))⁻¹ • x 1)) = .error .divZero := by
    rw [cross3_smul_right, hx, smul_zero]; exact adimV_zero hs
  unfold ACurve.offset3d
  have v0 := hv 0 (by omega)
  have v1 := hv 1 (by omega)
  have v2 := hv 2 (by omega)
  have v3 := hv 3 (by omega)
  interval_cases d
  · rw [if_pos rfl, v0, R_bind_ok, v1, R_bind_ok, e1, R_bind_ok, e2]; rfl
  · rw [if_neg (by decide), if_pos rfl, v1, R_bind_ok, v2, R_bind_ok, e1, R_bind_ok, e2]; rfl
  · rw [if_neg (by decide), if_neg (by decide), if_pos rfl, v1, R_bind_ok, v2, R_bind_ok, v3, R_bind_ok, e1, R_bind_ok, e2]; rfl

/-- **C128**: where the curve is straight to the second order, or the offset is zero, the derivatives of the offset are 0/0 too. -/
theorem C128_straight {sqrt : K → K} (hs : IsSqrt sqrt) {c : ACurve K (Fin 3 → K)} {off : K → ℕ → R K} {dir : Fin 3 → K} {u o : K}
    {x : ℕ → Fin 3 → K} (hv : ∀ d, d ≤ 3 → c.value u d = .ok (x d)) (ho : off u 0 = .ok o) (hx : cross3 dir (x 1) ≠ 0)
    (h0 : o = 0 ∨ cross3 (x 1) (x 2) = 0) {d : ℕ} (hd : d = 1 ∨ d = 2) : c.offset3d sqrt off dir u d = .error .divZero := by
  obtain ⟨e1, n, s, e2, -⟩ := normal3 hs hx
  have h1 : x 1 ≠ 0 := by
    intro h
    rw [h] at hx
    refine hx ?_
    have := cross3_smul_right dir (0 : Fin 3 → K) 0
    rwa [zero_smul, zero_smul] at this
  have p1 := vnorm_pos' hs h1
  have e3 : vdiv (cross3 (x 1) (x 2)) (vnorm sqrt (x 1) ^ 3) = .ok ((vnorm sqrt (x 1) ^ 3)⁻¹ • cross3 (x 1) (x 2)) := by
    unfold vdiv; rw [if_neg (pow_pos p1 3).ne']
  have e4 : adimV sqrt (o • (vnorm sqrt (x 1) ^ 3)⁻¹ • cross3 (x 1) (x 2)) = .error .divZero := by
    have : o • (vnorm sqrt (x 1) ^ 3)⁻¹ • cross3 (x 1) (x 2) = 0 := by
      rcases h0 with h | h
      · rw [h, zero_smul]
      · rw [h, smul_zero, smul_zero]
    rw [this]; exact adimV_zero hs
  have v1 := hv 1 (by omega)
  have v2 := hv 2 (by omega)
  have v3 := hv 3 (by omega)
  unfold ACurve.offset3d
  rcases hd with rfl | rfl
  · rw [if_neg (by decide), if_pos rfl, v1, R_bind_ok, v2, R_bind_ok, e1, R_bind_ok, e2, R_bind_ok, e3, R_bind_ok, ho, R_bind_ok, e4]; rfl
  · rw [if_neg (by decide), if_neg (by decide), if_pos rfl, v1, R_bind_ok, v2, R_bind_ok, v3, R_bind_ok, e1, R_bind_ok, e2, R_bind_ok, e3, R_bind_ok, ho,
      R_bind_ok, e4]; rfl

/-- **C128**: elsewhere the derivatives returned for an offset that is constant are those of the curve, whatever the offset. -/
theorem C128_constant {sqrt : K → K} (hs : IsSqrt sqrt) {c : ACurve K (Fin 3 → K)} {off : K → ℕ → R K} {dir : Fin 3 → K} {u o : K}
    {x : ℕ → Fin 3 → K} (hv : ∀ d, d ≤ 3 → c.value u d = .ok (x d)) (ho : off u 0 = .ok o) (ho1 : off u 1 = .ok 0) (ho2 : off u 2 = .ok 0)
    (hx : cross3 dir (x 1) ≠ 0) (h0 : o ≠ 0) (hk : cross3 (x 1) (x 2) ≠ 0) :
    c.offset3d sqrt off dir u 1 = .ok (x 1) ∧ c.offset3d sqrt off dir u 2 = .ok (x 2) := by
  obtain ⟨e1, n, s, e2, -⟩ := normal3 hs hx
  have h1 : x 1 ≠ 0 := by
    intro h
    rw [h] at hx
    refine hx ?_
    have := cross3_smul_right dir (0 : Fin 3 → K) 0
    rwa [zero_smul, zero_smul] at this
  have p1 := vnorm_pos' hs h1
  have e3 : vdiv (cross3 (x 1) (x 2)) (vnorm sqrt (x 1) ^ 3) = .ok ((vnorm sqrt (x 1) ^ 3)⁻¹ • cross3 (x 1) (x 2)) := by
    unfold vdiv; rw [if_neg (pow_pos p1 3).ne']
  have e4 := adimV_ok hs (x := o • (vnorm sqrt (x 1) ^ 3)⁻¹ • cross3 (x 1) (x 2))
    (smul_ne_zero h0 (smul_ne_zero (inv_ne_zero (pow_pos p1 3).ne') hk))
  have e5 : ∀ y : Fin 3 → K, vdiv y (vnorm sqrt (x 1)) = .ok ((vnorm sqrt (x 1))⁻¹ • y) := fun y => by unfold vdiv; rw [if_neg p1.ne']
  have v1 := hv 1 (by omega)
  have v2 := hv 2 (by omega)
  have v3 := hv 3 (by omega)
  constructor
  · unfold ACurve.offset3d
    rw [if_neg (by decide), if_pos rfl, v1, R_bind_ok, v2, R_bind_ok, e1, R_bind_ok, e2, R_bind_ok, e3, R_bind_ok, ho, R_bind_ok, e4, R_bind_ok, ho1,
      R_bind_ok, zero_smul, add_zero]; rfl
  · unfold ACurve.offset3d
    rw [if_neg (by decide), if_neg (by decide), if_pos rfl, v1, R_bind_ok, v2, R_bind_ok, v3, R_bind_ok, e1, R_bind_ok, e2, R_bind_ok, e3, R_bind_ok, ho,
      R_bind_ok, e4, R_bind_ok, e5, R_bind_ok]
    dsimp only
    rw [ho1, R_bind_ok, ho2, R_bind_ok, zero_smul, zero_smul, add_zero, add_zero]; rfl

/-- **C128**: the derivatives of order more than 2 are refused. -/
theorem C128_order (sqrt : K → K) (c : ACurve K (Fin 3 → K)) (off : K → ℕ → R K) (dir : Fin 3 → K) (u : K) {d : ℕ} (hd : 2 < d) :
    c.offset3d sqrt off dir u d = .error (.thrown .runtime) := by
  unfold ACurve.offset3d
  rw [if_neg (by omega), if_neg (by omega), if_neg (by omega)]

end Field

/-- The circle of radius 1 in the plane of `x` and `y`, with its derivatives. -/
noncomputable def Sample.circleXY : ACurve ℝ (Fin 3 → ℝ) :=
  ⟨0, 2 * Real.pi, fun t d => .ok ![Real.cos (t + d * (Real.pi / 2)), Real.sin (t + d * (Real.pi / 2)), 0]⟩

/-- **C128**: the offset by -1 of the circle of radius 1, in the direction of `z`, is the circle of radius 2, of derivative 2(-sin t, cos t) and of second
derivative -2(cos t, sin t); the derivatives returned are those of the circle of radius 1. -/
theorem C128_witness : ∃ F : ℝ → Fin 3 → ℝ, ∀ t,
    Sample.circleXY.offset3d Real.sqrt (fun _ d => .ok (if d = 0 then -1 else 0)) ![0, 0, 1] t 0 = .ok (F t) ∧
    F t = ![2 * Real.cos t, 2 * Real.sin t, 0] ∧ HasDerivAt F ![-(2 * Real.sin t), 2 * Real.cos t, 0] t ∧
    HasDerivAt (deriv F) ![-(2 * Real.cos t), -(2 * Real.sin t), 0] t ∧
    Sample.circleXY.offset3d Real.sqrt (fun _ d => .ok (if d = 0 then -1 else 0)) ![0, 0, 1] t 1 = .ok ![-Real.sin t, Real.cos t, 0] ∧
    Sample.circleXY.offset3d Real.sqrt (fun _ d => .ok (if d = 0 then -1 else 0)) ![0, 0, 1] t 2 = .ok ![-Real.cos t, -Real.sin t, 0] := by
  have v : ∀ t d, Sample.circleXY.value t d = .ok ![Real.cos (t + d * (Real.pi / 2)), Real.sin (t + d * (Real.pi / 2)), 0] := fun _ _ => rfl
  have v0 : ∀ t, Sample.circleXY.value t 0 = .ok ![Real.cos t, Real.sin t, 0] := fun t => by rw [v]; simp
  have w1 : ∀ t, (![Real.cos (t + (1 : ℕ) * (Real.pi / 2)), Real.sin (t + (1 : ℕ) * (Real.pi / 2)), 0] : Fin 3 → ℝ) = ![-Real.sin t, Real.cos t, 0] := fun t => by
    simp [Real.cos_add_pi_div_two, Real.sin_add_pi_div_two]
  have w2 : ∀ t, (![Real.cos (t + (2 : ℕ) * (Real.pi / 2)), Real.sin (t + (2 : ℕ) * (Real.pi / 2)), 0] : Fin 3 → ℝ) = ![-Real.cos t, -Real.sin t, 0] := fun t => by
    have : t + (2 : ℕ) * (Real.pi / 2) = t + Real.pi := by push_cast; ring
    rw [this, Real.cos_add_pi, Real.sin_add_pi]
  have v1 : ∀ t, Sample.circleXY.value t 1 = .ok ![-Real.sin t, Real.cos t, 0] := fun t => by rw [v, w1]
  have cr : ∀ t, cross3 ![0, 0, 1] (![-Real.sin t, Real.cos t, 0] : Fin 3 → ℝ) = ![-Real.cos t, -Real.sin t, 0] := fun t => by
    funext i; fin_cases i <;> simp [cross3]
  have crne : ∀ t, cross3 ![0, 0, 1] (![-Real.sin t, Real.cos t, 0] : Fin 3 → ℝ) ≠ 0 := fun t h => by
    rw [cr] at h
    have h1 := congrFun h 0
    have h2 := congrFun h 1
    simp at h1 h2
    have := Real.sin_sq_add_cos_sq t
    rw [h1, h2] at this
    norm_num at this
  have val : ∀ t, Sample.circleXY.offset3d Real.sqrt (fun _ d => .ok (if d = 0 then -1 else 0)) ![0, 0, 1] t 0 =
      .ok ![2 * Real.cos t, 2 * Real.sin t, 0] := fun t => by
    obtain ⟨q, e, -, hu⟩ := C128_point isSqrt_real (off := fun _ d => .ok (if d = 0 then -1 else 0)) (o := -1) (v0 t) (v1 t) rfl (crne t)
    rw [e, hu ![2 * Real.cos t, 2 * Real.sin t, 0]]
    have hsc := Real.sin_sq_add_cos_sq t
    refine ⟨?_, ?_, ?_, ?_⟩
    · rw [dot_three]; simp; ring
    · rw [dot_three]; simp
    · rw [sqNorm_three]; simp; nlinarith
    · rw [cr, dot_three]; simp; nlinarith
  have hd1 : ∀ t, HasDerivAt (fun t => (![2 * Real.cos t, 2 * Real.sin t, 0] : Fin 3 → ℝ)) ![-(2 * Real.sin t), 2 * Real.cos t, 0] t := fun t => by
    rw [hasDerivAt_pi]
    intro i
    fin_cases i
    · show HasDerivAt (fun t => 2 * Real.cos t) (-(2 * Real.sin t)) t
      exact ((Real.hasDerivAt_cos t).const_mul 2).congr_deriv (by ring)
    · exact (Real.hasDerivAt_sin t).const_mul 2
    · exact hasDerivAt_const t 0
  have hd2 : ∀ t, HasDerivAt (fun t => (![-(2 * Real.sin t), 2 * Real.cos t, 0] : Fin 3 → ℝ)) ![-(2 * Real.cos t), -(2 * Real.sin t), 0] t := fun t => by
    rw [hasDerivAt_pi]
    intro i
    fin_cases i
    · exact ((Real.hasDerivAt_sin t).const_mul 2).neg
    · show HasDerivAt (fun t => 2 * Real.cos t) (-(2 * Real.sin t)) t
      exact ((Real.hasDerivAt_cos t).const_mul 2).congr_deriv (by ring)
    · exact hasDerivAt_const t 0
  refine ⟨fun t => ![2 * Real.cos t, 2 * Real.sin t, 0], fun t => ⟨val t, rfl, hd1 t, ?_, ?_⟩⟩
  · have : deriv (fun t => (![2 * Real.cos t, 2 * Real.sin t, 0] : Fin 3 → ℝ)) = fun t => ![-(2 * Real.sin t), 2 * Real.cos t, 0] :=
      funext fun t => (hd1 t).deriv
    rw [this]
    exact hd2 t
  · have key := C128_constant isSqrt_real (c := Sample.circleXY) (off := fun _ d => .ok (if d = 0 then -1 else 0)) (dir := ![0, 0, 1]) (u := t) (o := -1)
      (x := fun d => ![Real.cos (t + d * (Real.pi / 2)), Real.sin (t + d * (Real.pi / 2)), 0]) (fun d _ => v t d) rfl rfl rfl
      (by rw [w1]; exact crne t) (by norm_num) (by
        rw [w1, w2]
        intro h
        have h2 := congrFun h 2
        simp [cross3] at h2
        have := Real.sin_sq_add_cos_sq t
        nlinarith)
    rw [w1, w2] at key
    exact key

end Gbs
