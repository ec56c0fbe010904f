import Verif.Props.Circles

/-!
# C64: surfaces of revolution
-/

set_option linter.unusedSectionVars false

namespace Gbs

/-- What is used of `std::fmod`. -/
def IsFmod (fmod : ℝ → ℝ → ℝ) : Prop := ∀ v m, ∃ k : ℤ, fmod v m = v - k * m

theorem cos_fmod {fmod : ℝ → ℝ → ℝ} (h : IsFmod fmod) (v : ℝ) :
    Real.cos (fmod v (2 * Real.pi)) = Real.cos v ∧ Real.sin (fmod v (2 * Real.pi)) = Real.sin v := by
  obtain ⟨k, hk⟩ := h v (2 * Real.pi)
  rw [hk]
  exact ⟨Real.cos_sub_int_mul_two_pi v k, Real.sin_sub_int_mul_two_pi v k⟩

theorem sqNorm_unit {x : Fin 3 → ℝ} (hx : x ≠ 0) : sqNorm ((vnorm Real.sqrt x)⁻¹ • x) = 1 := by
  have h := vnorm_mul_self isSqrt_real x
  have hn := vnorm_ne_zero isSqrt_real hx
  have e : sqNorm ((vnorm Real.sqrt x)⁻¹ • x) = (vnorm Real.sqrt x * vnorm Real.sqrt x)⁻¹ * sqNorm x := by
    rw [sqNorm_three, sqNorm_three]
    simp only [Pi.smul_apply, smul_eq_mul, mul_inv]
    ring
  rw [e, h, inv_mul_cancel₀]
  rw [← h]
  exact mul_ne_zero hn hn

theorem revolution_from : trfLocMat Real.sqrt ⟨0, ![0, 1, 0], ![0, 0, 1]⟩ = .ok ((0 : Fin 3 → ℝ), !![0, 1, 0; 0, 0, 1; 1, 0, 0]) := by
  have n1 : vnorm Real.sqrt (![0, 0, 1] : Fin 3 → ℝ) = 1 := by unfold vnorm; rw [sqNorm_three]; simp
  have n2 : vnorm Real.sqrt (![0, 1, 0] : Fin 3 → ℝ) = 1 := by unfold vnorm; rw [sqNorm_three]; simp
  simp only [trfLocMat, n1, n2, vdiv_real one_ne_zero, inv_one, one_smul, R_bind_ok, R_pure]
  congr 2
  ext i j
  fin_cases i <;> fin_cases j <;> simp [cross3]

/-- The unit vectors of a frame: second direction, vector product, main direction. -/
structure FrameVec (F : Ax2 ℝ) (x y z : Fin 3 → ℝ) : Prop where
  hx : x = (vnorm Real.sqrt F.x)⁻¹ • F.x
  hz : z = (vnorm Real.sqrt F.z)⁻¹ • F.z
  hy : y = cross3 z x

theorem FrameVec.props {F : Ax2 ℝ} {x y z : Fin 3 → ℝ} (h : FrameVec F x y z) (hF : F.Ortho) :
    sqNorm x = 1 ∧ sqNorm z = 1 ∧ dot z x = 0 ∧ dot z y = 0 ∧ cross3 z y = -x ∧ z ≠ 0 ∧ vnorm Real.sqrt z = 1 := by
  have a : sqNorm x = 1 := by rw [h.hx]; exact sqNorm_unit hF.x_ne
  have b : sqNorm z = 1 := by rw [h.hz]; exact sqNorm_unit hF.z_ne
  have c : dot z x = 0 := by
    have := hF.orth
    rw [h.hx, h.hz]
    rw [dot_three] at this ⊢
    simp only [Pi.smul_apply, smul_eq_mul]
    linear_combination ((vnorm Real.sqrt F.z)⁻¹ * (vnorm Real.sqrt F.x)⁻¹) * this
  refine ⟨a, b, c, by rw [h.hy]; exact dot_cross_left z x, ?_, ?_, ?_⟩
  · rw [h.hy, cross_cross, c, b]
    simp
  · intro hc
    rw [hc] at b
    simp [sqNorm] at b
  · unfold vnorm
    rw [b, Real.sqrt_one]

/-- Rotation about the main direction of a frame. -/
theorem rotated3_frame {F : Ax2 ℝ} {x y z : Fin 3 → ℝ} (h : FrameVec F x y z) (hF : F.Ortho) (a p q r : ℝ) :
    rotated3 Real.sqrt Real.cos Real.sin a z (p • z + (q • x + r • y)) =
      .ok (p • z + ((Real.cos a * q - Real.sin a * r) • x + (Real.sin a * q + Real.cos a * r) • y)) := by
  obtain ⟨_, _, h3, h4, h5, h6, h7⟩ := h.props hF
  obtain ⟨L, e1, _, e3, e4⟩ := (C47_rotate3 isSqrt_real Real.cos Real.sin a z (cs_one a)).1 h6
  rw [e1]
  congr 1
  rw [map_add, map_add, map_smul, map_smul, map_smul, e3, e4 x h3, e4 y h4, h7, h5, ← h.hy]
  module

/-- What `SurfaceOfRevolution::value` computes before the rotation. -/
theorem revolution_matrix {F : Ax2 ℝ} {x y z : Fin 3 → ℝ} (h : FrameVec F x y z) (hF : F.Ortho) :
    ∃ M, trfMatrix2 Real.sqrt ⟨0, ![0, 1, 0], ![0, 0, 1]⟩ F = .ok M ∧
      ∀ X Y : ℝ, transformed4 M ![X, Y, 0] = X • z + Y • x + F.O := by
  obtain ⟨P, h1, _, _, _, _, h6, h7, _⟩ := (C46_single_frame isSqrt_real F).1 hF
  refine ⟨trfMatrix (F.O - P.mulVec 0) (P * !![0, 1, 0; 0, 0, 1; 1, 0, 0]), ?_, ?_⟩
  · simp only [trfMatrix2, trfLocMat2, h1, revolution_from, R_bind_ok, R_pure]
  · intro X Y
    have hx : P.mulVec ![1, 0, 0] = x := by
      rw [h.hx, ← h6, smul_smul, h6, inv_mul_cancel₀ (vnorm_ne_zero isSqrt_real hF.x_ne), one_smul]
    have hz : P.mulVec ![0, 0, 1] = z := by
      rw [h.hz, ← h7, smul_smul, h7, inv_mul_cancel₀ (vnorm_ne_zero isSqrt_real hF.z_ne), one_smul]
    rw [← hx, ← hz]
    funext i
    fin_cases i <;>
    · simp [transformed4, trfMatrix, Matrix.mulVec, dotProduct, Matrix.mul_apply, Fin.sum_univ_three, Fin.sum_univ_four]
      ring

/-- C64, exact value of a surface of revolution whose frame has its origin at the origin of the coordinates: for a profile with derivative
`(X, Y)` of order `du` at `u`, the derivative of order `dv` with respect to the angle of `X z + Y (cos w x + sin w y)`: the abscissa runs along
the axis, the ordinate is the distance to it. Missing: any other origin (`C64_origin_witness`). -/
theorem C64_revolution_partial {fmod : ℝ → ℝ → ℝ} (hf : IsFmod fmod) (c : ACurve ℝ (Fin 2 → ℝ)) {F : Ax2 ℝ} (hF : F.Ortho) (hO : F.O = 0)
    {x y z : Fin 3 → ℝ} (h : FrameVec F x y z) (a1 a2 : ℝ) :
    ∃ s, revolution Real.sqrt Real.cos Real.sin fmod Real.pi c F a1 a2 = .ok s ∧ s.u0 = c.b0 ∧ s.u1 = c.b1 ∧ s.v0 = a1 ∧ s.v1 = a2 ∧
      ∀ (u v : ℝ) (du dv : ℕ) (X Y : ℝ), c.value u du = .ok ![X, Y] →
        s.value u v du dv = .ok (iteratedDeriv dv (fun w => X • z + (Real.cos w • (Y • x) + Real.sin w • (Y • y))) v) := by
  obtain ⟨M, hM, hp⟩ := revolution_matrix h hF
  have hz : vdiv F.z (vnorm Real.sqrt F.z) = .ok z := by rw [vdiv_real (vnorm_ne_zero isSqrt_real hF.z_ne), h.hz]
  obtain ⟨_, _, h3, h4, h5, _, _⟩ := h.props hF
  simp only [revolution, hz, hM, R_bind_ok, R_pure]
  refine ⟨_, rfl, rfl, rfl, rfl, rfl, fun u v du dv X Y hc => ?_⟩
  obtain ⟨ec, es⟩ := cos_fmod hf v
  rw [iteratedDeriv_turn]
  simp only [hc, R_bind_ok, Matrix.cons_val_zero, Matrix.cons_val_one, hp, hO, add_zero, sub_zero, ite_self]
  obtain _ | dv := dv
  · simp only [if_true, R_bind_ok, Nat.cast_zero, zero_mul, add_zero]
    have := rotated3_frame h hF (fmod v (2 * Real.pi)) X Y 0
    rw [ec, es, zero_smul, add_zero] at this
    rw [this]
    congr 1
    module
  · simp only [Nat.add_eq_zero_iff, one_ne_zero, and_false, if_false, zero_add]
    have hcr : cross3 z (X • z + Y • x) = (0 : ℝ) • z + ((0 : ℝ) • x + Y • y) := by
      rw [cross3_comb, cross3_self, ← h.hy]
      module
    rw [hcr, rotated3_frame h hF]
    simp only [R_bind_ok]
    rw [rotated3_frame h hF, ec, es]
    congr 1
    have ea : v + ((dv + 1 : ℕ) : ℝ) * (1 / 2) * Real.pi = (v + (((dv + 1 : ℕ) : ℝ) - 1) * Real.pi / 2) + Real.pi / 2 := by push_cast; ring
    rw [ea, Real.cos_add_pi_div_two, Real.sin_add_pi_div_two]
    set b := (((dv + 1 : ℕ) : ℝ) - 1) * Real.pi / 2
    rw [Real.cos_add, Real.sin_add]
    module

/-- C64, derivatives with respect to the angle, for any origin of the frame: those of order one or more of the point of the profile are
exact, because the origin is subtracted before the rotation. Missing: the points themselves, and the derivatives along the profile, for
an origin that is not null (`C64_origin_witness`). -/
theorem C64_angle_derivatives_partial {fmod : ℝ → ℝ → ℝ} (hf : IsFmod fmod) (c : ACurve ℝ (Fin 2 → ℝ)) {F : Ax2 ℝ} (hF : F.Ortho)
    {x y z : Fin 3 → ℝ} (h : FrameVec F x y z) (a1 a2 : ℝ) :
    ∃ s, revolution Real.sqrt Real.cos Real.sin fmod Real.pi c F a1 a2 = .ok s ∧
      ∀ (u v : ℝ) (dv : ℕ) (X Y : ℝ), c.value u 0 = .ok ![X, Y] →
        s.value u v 0 (dv + 1) = .ok (iteratedDeriv (dv + 1) (fun w => F.O + X • z + (Real.cos w • (Y • x) + Real.sin w • (Y • y))) v) := by
  obtain ⟨M, hM, hp⟩ := revolution_matrix h hF
  have hz : vdiv F.z (vnorm Real.sqrt F.z) = .ok z := by rw [vdiv_real (vnorm_ne_zero isSqrt_real hF.z_ne), h.hz]
  obtain ⟨_, _, h3, h4, h5, _, _⟩ := h.props hF
  simp only [revolution, hz, hM, R_bind_ok, R_pure]
  refine ⟨_, rfl, fun u v dv X Y hc => ?_⟩
  obtain ⟨ec, es⟩ := cos_fmod hf v
  rw [iteratedDeriv_turn]
  simp only [hc, R_bind_ok, Matrix.cons_val_zero, Matrix.cons_val_one, hp, if_true]
  simp only [Nat.add_eq_zero_iff, one_ne_zero, and_false, if_false, zero_add]
  have hcr : cross3 z (X • z + Y • x + F.O - F.O) = (0 : ℝ) • z + ((0 : ℝ) • x + Y • y) := by
    rw [add_sub_cancel_right, cross3_comb, cross3_self, ← h.hy]
    module
  rw [hcr, rotated3_frame h hF]
  simp only [R_bind_ok]
  rw [rotated3_frame h hF, ec, es]
  congr 1
  have ea : v + ((dv + 1 : ℕ) : ℝ) * (1 / 2) * Real.pi = (v + (((dv + 1 : ℕ) : ℝ) - 1) * Real.pi / 2) + Real.pi / 2 := by push_cast; ring
  rw [ea, Real.cos_add_pi_div_two, Real.sin_add_pi_div_two]
  set b := (((dv + 1 : ℕ) : ℝ) - 1) * Real.pi / 2
  rw [Real.cos_add, Real.sin_add]
  module

/-- C64: the points of such a surface are at the distance given by the ordinate of the profile from the axis, at the height given by its
abscissa. -/
theorem C64_distance {F : Ax2 ℝ} (hF : F.Ortho) {x y z : Fin 3 → ℝ} (h : FrameVec F x y z) (X Y w : ℝ) :
    dot z (X • z + (Real.cos w • (Y • x) + Real.sin w • (Y • y))) = X ∧
    sqNorm (X • z + (Real.cos w • (Y • x) + Real.sin w • (Y • y)) - X • z) = Y * Y := by
  obtain ⟨h1, h2, h3, h4, h5, h6, h7⟩ := h.props hF
  obtain ⟨L, e1, e2, e3, e4⟩ := (C47_rotate3 isSqrt_real Real.cos Real.sin w z (cs_one w)).1 h6
  have hL : L (Y • x) = Real.cos w • (Y • x) + Real.sin w • (Y • y) := by
    rw [map_smul, e4 x h3, h7, inv_one, one_smul, ← h.hy]
    module
  constructor
  · rw [dot_three] at h3 h4 ⊢
    rw [sqNorm_three] at h2
    simp only [Pi.add_apply, Pi.smul_apply, smul_eq_mul]
    linear_combination X * h2 + Real.cos w * Y * h3 + Real.sin w * Y * h4
  · rw [add_sub_cancel_left, ← hL, e2]
    rw [sqNorm_three] at h1 ⊢
    simp only [Pi.smul_apply, smul_eq_mul]
    linear_combination (Y * Y) * h1

/-- The frame of the coordinates moved to `(1,0,0)`. -/
def Sample.frame (O : Fin 3 → ℝ) : Ax2 ℝ := ⟨O, ![0, 0, 1], ![1, 0, 0]⟩

theorem Sample.frame_ortho (O : Fin 3 → ℝ) : (Sample.frame O).Ortho where
  x_ne := by
    intro h
    have := congrFun h 0
    simp [Sample.frame] at this
  z_ne := by
    intro h
    have := congrFun h 2
    simp [Sample.frame] at this
  orth := by rw [dot_three]; simp [Sample.frame]

theorem Sample.frame_vec (O : Fin 3 → ℝ) : FrameVec (Sample.frame O) ![1, 0, 0] ![0, 1, 0] ![0, 0, 1] where
  hx := by
    have n1 : vnorm Real.sqrt (![1, 0, 0] : Fin 3 → ℝ) = 1 := by unfold vnorm; rw [sqNorm_three]; simp
    show _ = (vnorm Real.sqrt (![1, 0, 0] : Fin 3 → ℝ))⁻¹ • (![1, 0, 0] : Fin 3 → ℝ)
    rw [n1, inv_one, one_smul]
  hz := by
    have n1 : vnorm Real.sqrt (![0, 0, 1] : Fin 3 → ℝ) = 1 := by unfold vnorm; rw [sqNorm_three]; simp
    show _ = (vnorm Real.sqrt (![0, 0, 1] : Fin 3 → ℝ))⁻¹ • (![0, 0, 1] : Fin 3 → ℝ)
    rw [n1, inv_one, one_smul]
  hy := by funext i; fin_cases i <;> simp [cross3]

example : (Sample.frame 0).Ortho ∧ (Sample.frame 0).O = 0 ∧ IsFmod (fun v _ => v) :=
  ⟨Sample.frame_ortho 0, rfl, fun v m => ⟨0, by simp⟩⟩

/-- C64 fails when the origin of the frame is not on the parallel to the axis through the origin of the coordinates: the rotation is about the
origin of the coordinates. Here the axis passes through `(1,0,0)`; a point of the profile on the axis should stay at `(1,0,0)`, half a turn
moves it to `(-1,0,0)`; and the derivative of a constant profile is not null. -/
theorem C64_origin_witness {fmod : ℝ → ℝ → ℝ} (hf : IsFmod fmod) : ∃ (c : ACurve ℝ (Fin 2 → ℝ)) (s : ASurface ℝ (Fin 3 → ℝ)),
    (∀ u d, c.value u d = .ok ![0, 0]) ∧
    revolution Real.sqrt Real.cos Real.sin fmod Real.pi c (Sample.frame ![1, 0, 0]) 0 (2 * Real.pi) = .ok s ∧
    s.value 0 0 0 0 = .ok ![1, 0, 0] ∧ s.value 0 Real.pi 0 0 = .ok ![-1, 0, 0] ∧ s.value 0 0 1 0 = .ok ![1, 0, 0] := by
  have hF := Sample.frame_ortho ![1, 0, 0]
  have h := Sample.frame_vec ![1, 0, 0]
  obtain ⟨M, hM, hp⟩ := revolution_matrix h hF
  have hz : vdiv (Sample.frame ![1, 0, 0]).z (vnorm Real.sqrt (Sample.frame ![1, 0, 0]).z) = .ok ![0, 0, 1] := by
    rw [vdiv_real (vnorm_ne_zero isSqrt_real hF.z_ne), ← h.hz]
  have hrot : ∀ v, rotated3 Real.sqrt Real.cos Real.sin (fmod v (2 * Real.pi)) ![0, 0, 1] ![1, 0, 0] =
      .ok ![Real.cos v, Real.sin v, 0] := by
    intro v
    obtain ⟨ec, es⟩ := cos_fmod hf v
    have := rotated3_frame h hF (fmod v (2 * Real.pi)) 0 1 0
    rw [ec, es] at this
    rw [show (0 : ℝ) • (![0, 0, 1] : Fin 3 → ℝ) + ((1 : ℝ) • ![1, 0, 0] + (0 : ℝ) • ![0, 1, 0]) = ![1, 0, 0] by simp] at this
    rw [this]
    congr 1
    funext i
    fin_cases i <;> simp
  have hpt : (0 : ℝ) • (![0, 0, 1] : Fin 3 → ℝ) + (0 : ℝ) • ![1, 0, 0] + (Sample.frame ![1, 0, 0]).O = ![1, 0, 0] := by
    simp [Sample.frame]
  refine ⟨⟨0, 1, fun _ _ => .ok ![0, 0]⟩, ?_⟩
  simp only [revolution, hz, hM, R_bind_ok, R_pure]
  refine ⟨_, fun _ _ => trivial, rfl, ?_, ?_, ?_⟩
  · simp only [Matrix.cons_val_zero, Matrix.cons_val_one, hp, hpt, if_true, hrot]
    simp
  · simp only [Matrix.cons_val_zero, Matrix.cons_val_one, hp, hpt, if_true, hrot]
    simp
  · simp only [Matrix.cons_val_zero, Matrix.cons_val_one, hp, hpt, if_true, hrot]
    simp

end Gbs
