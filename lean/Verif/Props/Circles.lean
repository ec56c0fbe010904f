import Verif.Props.WrappedReal
import Mathlib.Analysis.SpecialFunctions.Trigonometric.Basic

/-!
# C63, C64: circles and surfaces of revolution; offset of a space curve
-/

set_option linter.unusedSectionVars false

namespace Gbs

section Algebra

variable {K : Type} [Field K] [LinearOrder K] [IsStrictOrderedRing K]

theorem dot_three (a b : Fin 3 → K) : dot a b = a 0 * b 0 + a 1 * b 1 + a 2 * b 2 := by
  unfold dot; rw [Fin.sum_univ_three]

theorem sqNorm_three (a : Fin 3 → K) : sqNorm a = a 0 * a 0 + a 1 * a 1 + a 2 * a 2 := by
  unfold sqNorm; rw [Fin.sum_univ_three]

theorem cross3_apply (a b : Fin 3 → K) : cross3 a b 0 = a 1 * b 2 - a 2 * b 1 ∧ cross3 a b 1 = a 2 * b 0 - a 0 * b 2 ∧
    cross3 a b 2 = a 0 * b 1 - a 1 * b 0 := ⟨rfl, rfl, rfl⟩

theorem dot_cross_left (a b : Fin 3 → K) : dot a (cross3 a b) = 0 := by
  obtain ⟨h0, h1, h2⟩ := cross3_apply a b
  rw [dot_three, h0, h1, h2]; ring

theorem cross_cross (a b : Fin 3 → K) : cross3 a (cross3 a b) = dot a b • a - sqNorm a • b := by
  obtain ⟨h0, h1, h2⟩ := cross3_apply a b
  obtain ⟨g0, g1, g2⟩ := cross3_apply a (cross3 a b)
  funext i
  simp only [Pi.sub_apply, Pi.smul_apply, smul_eq_mul, dot_three, sqNorm_three]
  fin_cases i
  · show cross3 a (cross3 a b) 0 = (a 0 * b 0 + a 1 * b 1 + a 2 * b 2) * a 0 - (a 0 * a 0 + a 1 * a 1 + a 2 * a 2) * b 0
    rw [g0, h1, h2]; ring
  · show cross3 a (cross3 a b) 1 = (a 0 * b 0 + a 1 * b 1 + a 2 * b 2) * a 1 - (a 0 * a 0 + a 1 * a 1 + a 2 * a 2) * b 1
    rw [g1, h0, h2]; ring
  · show cross3 a (cross3 a b) 2 = (a 0 * b 0 + a 1 * b 1 + a 2 * b 2) * a 2 - (a 0 * a 0 + a 1 * a 1 + a 2 * a 2) * b 2
    rw [g2, h0, h1]; ring

theorem cross3_comb (a b c : Fin 3 → K) (s t : K) : cross3 a (s • b + t • c) = s • cross3 a b + t • cross3 a c := by
  funext i
  obtain ⟨g0, g1, g2⟩ := cross3_apply a (s • b + t • c)
  fin_cases i
  · show cross3 a (s • b + t • c) 0 = s * (a 1 * b 2 - a 2 * b 1) + t * (a 1 * c 2 - a 2 * c 1)
    rw [g0]; simp only [Pi.add_apply, Pi.smul_apply, smul_eq_mul]; ring
  · show cross3 a (s • b + t • c) 1 = s * (a 2 * b 0 - a 0 * b 2) + t * (a 2 * c 0 - a 0 * c 2)
    rw [g1]; simp only [Pi.add_apply, Pi.smul_apply, smul_eq_mul]; ring
  · show cross3 a (s • b + t • c) 2 = s * (a 0 * b 1 - a 1 * b 0) + t * (a 0 * c 1 - a 1 * c 0)
    rw [g2]; simp only [Pi.add_apply, Pi.smul_apply, smul_eq_mul]; ring

theorem cross3_self (a : Fin 3 → K) : cross3 a a = 0 := by
  funext i
  obtain ⟨g0, g1, g2⟩ := cross3_apply a a
  fin_cases i
  · show cross3 a a 0 = 0; rw [g0]; ring
  · show cross3 a a 1 = 0; rw [g1]; ring
  · show cross3 a a 2 = 0; rw [g2]; ring

end Algebra

/-- A sequence of functions each the derivative of the one before. -/
theorem iteratedDeriv_of_chain {E : Type} [NormedAddCommGroup E] [NormedSpace ℝ E] {G : ℕ → ℝ → E}
    (h : ∀ d t, HasDerivAt (G d) (G (d + 1) t) t) (d : ℕ) : iteratedDeriv d (G 0) = G d := by
  induction d with
  | zero => simp
  | succ d ih =>
    rw [iteratedDeriv_succ, ih]
    funext t
    exact (h d t).deriv

theorem hasDerivAt_cos_shift (k t : ℝ) : HasDerivAt (fun t => Real.cos (t + k)) (Real.cos (t + (k + Real.pi / 2))) t := by
  have := ((hasDerivAt_id t).add_const k).cos
  refine this.congr_deriv ?_
  rw [show t + (k + Real.pi / 2) = (t + k) + Real.pi / 2 by ring, Real.cos_add_pi_div_two]
  simp

theorem hasDerivAt_sin_shift (k t : ℝ) : HasDerivAt (fun t => Real.sin (t + k)) (Real.sin (t + (k + Real.pi / 2))) t := by
  have := ((hasDerivAt_id t).add_const k).sin
  refine this.congr_deriv ?_
  rw [show t + (k + Real.pi / 2) = (t + k) + Real.pi / 2 by ring, Real.sin_add_pi_div_two]
  simp

/-- The derivatives of a turning vector. -/
theorem iteratedDeriv_turn {E : Type} [NormedAddCommGroup E] [NormedSpace ℝ E] (C x y : E) (d : ℕ) (u : ℝ) :
    iteratedDeriv d (fun t => C + (Real.cos t • x + Real.sin t • y)) u =
      (if d = 0 then C else 0) + (Real.cos (u + d * (1 / 2) * Real.pi) • x + Real.sin (u + d * (1 / 2) * Real.pi) • y) := by
  have := iteratedDeriv_of_chain (G := fun d t => (if d = 0 then C else 0) +
    (Real.cos (t + d * (1 / 2) * Real.pi) • x + Real.sin (t + d * (1 / 2) * Real.pi) • y)) (fun d t => by
      have h1 := (hasDerivAt_cos_shift ((d : ℝ) * (1 / 2) * Real.pi) t).smul_const x
      have h2 := (hasDerivAt_sin_shift ((d : ℝ) * (1 / 2) * Real.pi) t).smul_const y
      refine ((h1.add h2).const_add (if d = 0 then C else 0)).congr_deriv ?_
      simp only [Nat.add_eq_zero_iff, one_ne_zero, and_false, if_false, zero_add, Nat.cast_add, Nat.cast_one]
      rw [show ((d : ℝ) + 1) * (1 / 2) * Real.pi = d * (1 / 2) * Real.pi + Real.pi / 2 by ring]) d
  have h0 := congrFun this u
  simpa using h0

/-- C63: a plane circle is at distance `r` from its centre, and returns the derivatives of all orders of `C + r (cos t, sin t)`. -/
theorem C63_circle2d (r : ℝ) (C : Fin 2 → ℝ) (u : ℝ) (d : ℕ) :
    (circle2d Real.cos Real.sin Real.pi r C).value u d =
      .ok (iteratedDeriv d (fun t => C + (Real.cos t • ![r, 0] + Real.sin t • ![0, r])) u) ∧
    ∃ P, (circle2d Real.cos Real.sin Real.pi r C).value u 0 = .ok P ∧ sqNorm (P - C) = r * r := by
  have key : ∀ d : ℕ, (circle2d Real.cos Real.sin Real.pi r C).value u d =
      .ok ((if d = 0 then C else 0) + (Real.cos (u + d * (1 / 2) * Real.pi) • ![r, 0] + Real.sin (u + d * (1 / 2) * Real.pi) • ![0, r])) := by
    intro d
    have e : rotated2 Real.cos Real.sin (u + (d : ℝ) * (1 / 2) * Real.pi) ![r, 0] =
        Real.cos (u + d * (1 / 2) * Real.pi) • ![r, 0] + Real.sin (u + d * (1 / 2) * Real.pi) • ![0, r] := by
      funext i
      fin_cases i
      · show r * Real.cos (u + d * (1 / 2) * Real.pi) - 0 * Real.sin (u + d * (1 / 2) * Real.pi) =
          Real.cos (u + d * (1 / 2) * Real.pi) * r + Real.sin (u + d * (1 / 2) * Real.pi) * 0
        ring
      · show r * Real.sin (u + d * (1 / 2) * Real.pi) + 0 * Real.cos (u + d * (1 / 2) * Real.pi) =
          Real.cos (u + d * (1 / 2) * Real.pi) * 0 + Real.sin (u + d * (1 / 2) * Real.pi) * r
        ring
    simp only [circle2d, e, R_pure]
    by_cases hd : d = 0
    · rw [if_pos hd, if_pos hd, add_comm]
    · rw [if_neg hd, if_neg hd, zero_add]
  refine ⟨by rw [iteratedDeriv_turn, key d], _, key 0, ?_⟩
  rw [if_pos rfl, add_sub_cancel_left]
  unfold sqNorm
  rw [Fin.sum_univ_two]
  simp only [Pi.add_apply, Pi.smul_apply, smul_eq_mul, Matrix.cons_val_zero, Matrix.cons_val_one]
  linear_combination (r * r) * Real.cos_sq_add_sin_sq (u + ((0 : ℕ) : ℝ) * (1 / 2) * Real.pi)

theorem cs_one (a : ℝ) : Real.cos a * Real.cos a + Real.sin a * Real.sin a = 1 := by
  have := Real.cos_sq_add_sin_sq a
  linear_combination this

theorem circleValue_spec {z x : Fin 3 → ℝ} (C : Fin 3 → ℝ) (hz : z ≠ 0) (hzx : dot z x = 0) (u : ℝ) (d : ℕ) :
    circleValue Real.sqrt Real.cos Real.sin Real.pi C z x u d =
      .ok (iteratedDeriv d (fun t => C + (Real.cos t • x + Real.sin t • ((vnorm Real.sqrt z)⁻¹ • cross3 z x))) u) := by
  obtain ⟨L, h1, _, _, h4⟩ := (C47_rotate3 isSqrt_real Real.cos Real.sin (u + (d : ℝ) * (1 / 2) * Real.pi) z (cs_one _)).1 hz
  rw [iteratedDeriv_turn]
  simp only [circleValue, h1 x, R_bind_ok, R_pure, add_zero, h4 x hzx]
  by_cases hd : d = 0
  · rw [if_pos hd, if_pos hd, add_comm]
  · rw [if_neg hd, if_neg hd, zero_add]

theorem turn_norm {z x : Fin 3 → ℝ} (hz : z ≠ 0) (hzx : dot z x = 0) (a : ℝ) :
    sqNorm (Real.cos a • x + Real.sin a • ((vnorm Real.sqrt z)⁻¹ • cross3 z x)) = sqNorm x ∧
    dot z (Real.cos a • x + Real.sin a • ((vnorm Real.sqrt z)⁻¹ • cross3 z x)) = 0 := by
  obtain ⟨L, h1, h2, h3, h4⟩ := (C47_rotate3 isSqrt_real Real.cos Real.sin a z (cs_one a)).1 hz
  refine ⟨by rw [← h4 x hzx, h2], ?_⟩
  have hc := dot_cross_left z x
  rw [dot_three] at hc hzx ⊢
  simp only [Pi.add_apply, Pi.smul_apply, smul_eq_mul]
  linear_combination Real.cos a * hzx + Real.sin a * (vnorm Real.sqrt z)⁻¹ * hc

/-- C63: the circle built on a frame with orthogonal directions lies in the plane through its origin orthogonal to its main direction, at
distance `|r|`, starts along the second direction, and returns the derivatives of all orders of that motion. -/
theorem C63_circle3d (r : ℝ) {F : Ax2 ℝ} (h : F.Ortho) :
    ∃ c, circle3d Real.sqrt Real.cos Real.sin Real.pi r F = .ok c ∧ c.b0 = 0 ∧ c.b1 = 2 * Real.pi ∧
      ∃ f : ℝ → Fin 3 → ℝ, (∀ u d, c.value u d = .ok (iteratedDeriv d f u)) ∧
        (∀ u, sqNorm (f u - F.O) = r * r ∧ dot F.z (f u - F.O) = 0) ∧ f 0 = F.O + (r / vnorm Real.sqrt F.x) • F.x := by
  have hx := vnorm_ne_zero isSqrt_real h.x_ne
  have hxx := vnorm_mul_self isSqrt_real F.x
  set k := r / vnorm Real.sqrt F.x with hk
  have horth : dot F.z (k • F.x) = 0 := by
    have := h.orth
    rw [dot_three] at this ⊢
    simp only [Pi.smul_apply, smul_eq_mul]
    linear_combination k * this
  have hnorm : sqNorm (k • F.x) = r * r := by
    have : sqNorm (k • F.x) = k * k * sqNorm F.x := by
      rw [sqNorm_three, sqNorm_three]
      simp only [Pi.smul_apply, smul_eq_mul]
      ring
    rw [this, ← hxx, hk]
    field_simp
  refine ⟨⟨0, 2 * Real.pi, circleValue Real.sqrt Real.cos Real.sin Real.pi F.O F.z (k • F.x)⟩, ?_, rfl, rfl,
    fun t => F.O + (Real.cos t • (k • F.x) + Real.sin t • ((vnorm Real.sqrt F.z)⁻¹ • cross3 F.z (k • F.x))),
    fun u d => circleValue_spec F.O h.z_ne horth u d, fun u => ?_, ?_⟩
  · simp only [circle3d, fdiv_ok hx, R_bind_ok, R_pure]
    rw [← hk]
  · obtain ⟨a, b⟩ := turn_norm h.z_ne horth u
    simp only [add_sub_cancel_left]
    exact ⟨a.trans hnorm, b⟩
  · simp

/-- C63, circle given by its axis only, when the least coordinate of the axis direction vanishes. Missing: the other directions, for which the
starting vector chosen by the code is not orthogonal to the axis (`C63_axis_witness`). -/
theorem C63_circle_axis_partial (r : ℝ) (C : Fin 3 → ℝ) {z : Fin 3 → ℝ} (hz : z ≠ 0) (h : z (minCoord3 z) = 0) :
    ∃ f : ℝ → Fin 3 → ℝ, (∀ u d, (circle3dAx1 Real.sqrt Real.cos Real.sin Real.pi r C z).value u d = .ok (iteratedDeriv d f u)) ∧
      ∀ u, sqNorm (f u - C) = r * r ∧ dot z (f u - C) = 0 := by
  have horth : dot z (fun i => if i = minCoord3 z then r else 0) = 0 := by
    unfold dot
    simp [h]
  have hnorm : sqNorm (fun i => if i = minCoord3 z then r else 0) = r * r := by
    unfold sqNorm
    simp
  refine ⟨fun t => C + (Real.cos t • (fun i => if i = minCoord3 z then r else 0) +
    Real.sin t • ((vnorm Real.sqrt z)⁻¹ • cross3 z (fun i => if i = minCoord3 z then r else 0))),
    fun u d => circleValue_spec C hz horth u d, fun u => ?_⟩
  obtain ⟨a, b⟩ := turn_norm hz horth u
  simp only [add_sub_cancel_left]
  exact ⟨a.trans hnorm, b⟩

example : (![0, 0, 1] : Fin 3 → ℝ) ≠ 0 ∧ (![0, 0, 1] : Fin 3 → ℝ) (minCoord3 ![0, 0, 1]) = 0 := by
  constructor
  · intro h
    have := congrFun h 2
    simp at this
  · simp [minCoord3]

/-- C63 fails for a circle given by its axis: about the axis directed by `(-1,0,0)` the "circle" is a single point. -/
theorem C63_axis_witness (r : ℝ) (C : Fin 3 → ℝ) (u : ℝ) :
    (circle3dAx1 Real.sqrt Real.cos Real.sin Real.pi r C ![-1, 0, 0]).value u 0 = .ok (C + ![r, 0, 0]) := by
  have hz : (![-1, 0, 0] : Fin 3 → ℝ) ≠ 0 := by
    intro h
    have := congrFun h 0
    simp at this
  have hm : minCoord3 (![-1, 0, 0] : Fin 3 → ℝ) = 0 := by
    simp [minCoord3, not_lt.mpr (zero_le_one' ℝ)]
  obtain ⟨L, h1, _, h3, _⟩ := (C47_rotate3 isSqrt_real Real.cos Real.sin (u + ((0 : ℕ) : ℝ) * (1 / 2) * Real.pi) ![-1, 0, 0] (cs_one _)).1 hz
  have e : (fun i : Fin 3 => if i = (0 : Fin 3) then r else 0) = (-r) • (![-1, 0, 0] : Fin 3 → ℝ) := by
    funext i
    fin_cases i <;> simp
  have e' : (-r) • (![-1, 0, 0] : Fin 3 → ℝ) = ![r, 0, 0] := by
    funext i
    fin_cases i <;> simp
  simp only [circle3dAx1, circleValue, hm, e]
  rw [h1]
  have hL : L ![r, 0, 0] = ![r, 0, 0] := by rw [← e', map_smul, h3]
  simp only [R_bind_ok, R_pure, e', hL, add_zero, if_true]
  rw [add_comm]

/-! ## Offset of a space curve -/

/-- The derivative that `CurveOffset3D` returns is wrong: for the parabola `(t, t², 0)` offset by 1 in the plane orthogonal to `(0,0,1)` the
offset point is `(t,t²,0) + (-2t,1,0)/√(1+4t²)`, whose derivative at 0 is `(-1,0,0)`; the code returns `(1,0,0)`. -/
theorem C62_offset3d_witness : ∃ c : ACurve ℝ (Fin 3 → ℝ),
    (∀ t d, c.value t d = .ok (iteratedDeriv d (fun t : ℝ => (![t, t ^ 2, 0] : Fin 3 → ℝ)) t)) ∧
    ∃ F : ℝ → Fin 3 → ℝ, (∀ t, c.offset3d Real.sqrt (fun _ d => .ok (if d = 0 then 1 else 0)) ![0, 0, 1] t 0 = .ok (F t)) ∧
      HasDerivAt F ![-1, 0, 0] 0 ∧
      c.offset3d Real.sqrt (fun _ d => .ok (if d = 0 then 1 else 0)) ![0, 0, 1] 0 1 = .ok ![1, 0, 0] := by
  have ch : ∀ d, iteratedDeriv d (fun t : ℝ => (![t, t ^ 2, 0] : Fin 3 → ℝ)) =
      fun t => if d = 0 then ![t, t ^ 2, 0] else if d = 1 then ![1, 2 * t, 0] else if d = 2 then ![0, 2, 0] else 0 := by
    intro d
    have := iteratedDeriv_of_chain (G := fun d (t : ℝ) =>
      (if d = 0 then ![t, t ^ 2, 0] else if d = 1 then ![1, 2 * t, 0] else if d = 2 then ![0, 2, 0] else 0 : Fin 3 → ℝ)) (fun d t => by
      obtain _ | _ | _ | d := d
      · show HasDerivAt (fun t : ℝ => (![t, t ^ 2, 0] : Fin 3 → ℝ)) ![1, 2 * t, 0] t
        rw [hasDerivAt_pi]
        intro i
        fin_cases i
        · exact hasDerivAt_id t
        · show HasDerivAt (fun t : ℝ => t ^ 2) (2 * t) t
          simpa using hasDerivAt_pow 2 t
        · exact hasDerivAt_const t 0
      · show HasDerivAt (fun t : ℝ => (![1, 2 * t, 0] : Fin 3 → ℝ)) ![0, 2, 0] t
        rw [hasDerivAt_pi]
        intro i
        fin_cases i
        · exact hasDerivAt_const t 1
        · show HasDerivAt (fun t : ℝ => 2 * t) 2 t
          simpa using (hasDerivAt_id t).const_mul 2
        · exact hasDerivAt_const t 0
      · exact hasDerivAt_const t _
      · exact hasDerivAt_const t _) d
    exact this
  refine ⟨⟨0, 1, fun t d => .ok (iteratedDeriv d (fun t : ℝ => (![t, t ^ 2, 0] : Fin 3 → ℝ)) t)⟩, fun _ _ => rfl,
    fun t => ![t - 2 * t / Real.sqrt (1 + 4 * t ^ 2), t ^ 2 + 1 / Real.sqrt (1 + 4 * t ^ 2), 0], ?_, ?_, ?_⟩
  · intro t
    have hpos : 0 < 1 + 4 * t ^ 2 := by positivity
    set q := Real.sqrt (1 + 4 * t ^ 2) with hq
    have hq0 : 0 < q := Real.sqrt_pos.mpr hpos
    have hqq : q * q = 1 + 4 * t ^ 2 := Real.mul_self_sqrt hpos.le
    have n1 : vnorm Real.sqrt (![1, 2 * t, 0] : Fin 3 → ℝ) = q := by
      rw [hq]; unfold vnorm; rw [sqNorm_three]; congr 1
      show 1 * 1 + 2 * t * (2 * t) + 0 * 0 = 1 + 4 * t ^ 2
      ring
    have cr : cross3 ![0, 0, 1] (q⁻¹ • (![1, 2 * t, 0] : Fin 3 → ℝ)) = ![-(2 * t / q), 1 / q, 0] := by
      funext i
      fin_cases i
      · show 0 * (q⁻¹ * 0) - 1 * (q⁻¹ * (2 * t)) = -(2 * t / q)
        ring
      · show 1 * (q⁻¹ * 1) - 0 * (q⁻¹ * 0) = 1 / q
        ring
      · show 0 * (q⁻¹ * (2 * t)) - 0 * (q⁻¹ * 1) = 0
        ring
    have n2 : vnorm Real.sqrt (![-(2 * t / q), 1 / q, 0] : Fin 3 → ℝ) = 1 := by
      unfold vnorm; rw [sqNorm_three]
      rw [show (![-(2 * t / q), 1 / q, 0] : Fin 3 → ℝ) 0 * (![-(2 * t / q), 1 / q, 0] : Fin 3 → ℝ) 0 +
        (![-(2 * t / q), 1 / q, 0] : Fin 3 → ℝ) 1 * (![-(2 * t / q), 1 / q, 0] : Fin 3 → ℝ) 1 +
        (![-(2 * t / q), 1 / q, 0] : Fin 3 → ℝ) 2 * (![-(2 * t / q), 1 / q, 0] : Fin 3 → ℝ) 2 = 1 by
          show -(2 * t / q) * -(2 * t / q) + 1 / q * (1 / q) + 0 * 0 = 1
          field_simp
          linear_combination -hqq]
      exact Real.sqrt_one
    simp only [ACurve.offset3d, if_true, ch, one_ne_zero, if_false, R_bind_ok, adimV, n1, vdiv_real hq0.ne', cr, n2, vdiv_real one_ne_zero,
      inv_one, one_smul, R_pure]
    congr 1
    funext i
    fin_cases i
    · show t + -(2 * t / q) = t - 2 * t / q
      ring
    · rfl
    · show (0 : ℝ) + 0 = 0
      ring
  · rw [hasDerivAt_pi]
    have hr : HasDerivAt (fun t : ℝ => 1 + 4 * t ^ 2) 0 0 := by
      have := ((hasDerivAt_pow 2 (0 : ℝ)).const_mul 4).const_add 1
      simpa using this
    have hs : HasDerivAt (fun t : ℝ => Real.sqrt (1 + 4 * t ^ 2)) 0 0 := by
      have := hr.sqrt (by norm_num)
      simpa using this
    intro i
    fin_cases i
    · show HasDerivAt (fun t : ℝ => t - 2 * t / Real.sqrt (1 + 4 * t ^ 2)) (-1) 0
      have := (hasDerivAt_id (0 : ℝ)).sub (((hasDerivAt_id (0 : ℝ)).const_mul 2).div hs (by norm_num))
      refine this.congr_deriv ?_
      norm_num
    · show HasDerivAt (fun t : ℝ => t ^ 2 + 1 / Real.sqrt (1 + 4 * t ^ 2)) 0 0
      have := (hasDerivAt_pow 2 (0 : ℝ)).add ((hasDerivAt_const (0 : ℝ) (1 : ℝ)).div hs (by norm_num))
      refine this.congr_deriv ?_
      norm_num
    · exact hasDerivAt_const _ _
  · have n1 : vnorm Real.sqrt (![1, 0, 0] : Fin 3 → ℝ) = 1 := by unfold vnorm; rw [sqNorm_three]; simp
    have n2 : vnorm Real.sqrt (![0, 1, 0] : Fin 3 → ℝ) = 1 := by unfold vnorm; rw [sqNorm_three]; simp
    have c1 : cross3 ![0, 0, 1] (![1, 0, 0] : Fin 3 → ℝ) = ![0, 1, 0] := by
      funext i; fin_cases i <;> simp [cross3]
    have c2 : cross3 ![1, 0, 0] (![0, 2, 0] : Fin 3 → ℝ) = ![0, 0, 2] := by
      funext i; fin_cases i <;> simp [cross3]
    have n3 : vnorm Real.sqrt (![0, 0, 2] : Fin 3 → ℝ) ≠ 0 := by
      refine vnorm_ne_zero isSqrt_real fun h => ?_
      have := congrFun h 2
      simp at this
    simp only [ACurve.offset3d, one_ne_zero, if_false, ch, R_bind_ok, if_true, OfNat.ofNat_ne_zero, OfNat.ofNat_ne_one, mul_zero, adimV, n1,
      vdiv_real one_ne_zero, inv_one, one_smul, c1, n2, c2, one_pow, vdiv_real n3, zero_smul, add_zero, R_pure]

/-! ## C65: lines -/

/-- C65: the line through two distinct points runs at unit speed from the first one, meets the second one at their distance, and its derivatives
of all orders are those of that map; two coincident points divide by zero. Its bounds are the numeric limits given, so that a positive lower
limit (`numeric_limits::min()`) leaves the first point outside of the bounds. -/
theorem C65_line {n : ℕ} (lo hi : ℝ) (p1 p2 : Fin n → ℝ) :
    (p1 ≠ p2 → ∃ (c : ACurve ℝ (Fin n → ℝ)) (t : Fin n → ℝ) (l : ℝ), line Real.sqrt lo hi p1 p2 = .ok c ∧ sqNorm t = 1 ∧ 0 < l ∧
      l * l = sqNorm (p2 - p1) ∧ (∀ u d, c.value u d = .ok (iteratedDeriv d (fun v : ℝ => p1 + v • t) u)) ∧
      c.value l 0 = .ok p2 ∧ c.b0 = lo ∧ c.b1 = hi) ∧
    (p1 = p2 → line Real.sqrt lo hi p1 p2 = .error .divZero) := by
  constructor
  · intro hne
    have hd : p2 - p1 ≠ 0 := sub_ne_zero.mpr (Ne.symm hne)
    have hN : sqNorm (p2 - p1) ≠ 0 := fun h => hd (sqNorm_eq_zero.mp h)
    have hNp : 0 < sqNorm (p2 - p1) := lt_of_le_of_ne (sqNorm_nonneg _) (Ne.symm hN)
    have hl : 0 < Real.sqrt (sqNorm (p2 - p1)) := Real.sqrt_pos.mpr hNp
    have hll : Real.sqrt (sqNorm (p2 - p1)) * Real.sqrt (sqNorm (p2 - p1)) = sqNorm (p2 - p1) := Real.mul_self_sqrt hNp.le
    set l := Real.sqrt (sqNorm (p2 - p1)) with hldef
    have hv : vnorm Real.sqrt (p2 - p1) = l := rfl
    have hs : sqNorm (l⁻¹ • (p2 - p1)) = 1 := by
      have : sqNorm (l⁻¹ • (p2 - p1)) = l⁻¹ * l⁻¹ * sqNorm (p2 - p1) := by
        unfold sqNorm
        rw [Finset.mul_sum]
        exact Finset.sum_congr rfl fun i _ => by simp only [Pi.smul_apply, smul_eq_mul]; ring
      rw [this, ← hll]
      field_simp
    refine ⟨_, l⁻¹ • (p2 - p1), l, by rw [line, hv, vdiv_ok hl.ne', R_bind_ok, R_pure], hs, hl, hll, ?_, ?_, rfl, rfl⟩
    · intro u d
      have := iteratedDeriv_line p1 (l⁻¹ • (p2 - p1)) 0 u d
      simp only [sub_zero] at this
      simp only [R_pure, this]
    · simp only [R_pure, if_true]
      rw [smul_smul, mul_inv_cancel₀ hl.ne', one_smul]
      simp
  · rintro rfl
    have : vnorm Real.sqrt (p1 - p1) = 0 := by
      simp [vnorm, sqNorm]
    rw [line, this, vdiv, if_pos rfl, R_bind_error]

example : (![0, 0] : Fin 2 → ℝ) ≠ ![3, 4] := fun h => by have := congrFun h 0; simp at this

end Gbs
