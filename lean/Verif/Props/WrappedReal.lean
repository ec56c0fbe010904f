import Verif.Props.Wrapped
import Verif.Props.Frames
import Mathlib.Analysis.Calculus.FDeriv.Symmetric
import Mathlib.Analysis.Calculus.Deriv.Prod
import Mathlib.Analysis.Calculus.Deriv.Inv
import Mathlib.Analysis.SpecialFunctions.Sqrt
import Mathlib.Analysis.SpecialFunctions.Trigonometric.Deriv

/-!
# C61–C64: curves on surfaces, curvilinear derivatives and offsets, circles, surfaces of revolution
-/

set_option linter.unusedSectionVars false

namespace Gbs

section OnSurface

variable {V : Type} [NormedAddCommGroup V] [NormedSpace ℝ V]

/-- The wrapped plane curve returns the derivatives of `f` at `u` up to the order 2, the surface the partial derivatives of `S` at `f u`. -/
structure OnSurfaceHyp (c : ACurve ℝ (Fin 2 → ℝ)) (s : ASurface ℝ V) (f : ℝ → ℝ × ℝ) (S : ℝ × ℝ → V) (u : ℝ) : Prop where
  crv : ∀ d, d ≤ 2 → c.value u d = .ok ![(iteratedDeriv d f u).1, (iteratedDeriv d f u).2]
  v00 : s.value (f u).1 (f u).2 0 0 = .ok (S (f u))
  v10 : s.value (f u).1 (f u).2 1 0 = .ok (fderiv ℝ S (f u) (1, 0))
  v01 : s.value (f u).1 (f u).2 0 1 = .ok (fderiv ℝ S (f u) (0, 1))
  v20 : s.value (f u).1 (f u).2 2 0 = .ok (fderiv ℝ (fderiv ℝ S) (f u) (1, 0) (1, 0))
  v11 : s.value (f u).1 (f u).2 1 1 = .ok (fderiv ℝ (fderiv ℝ S) (f u) (1, 0) (0, 1))
  v02 : s.value (f u).1 (f u).2 0 2 = .ok (fderiv ℝ (fderiv ℝ S) (f u) (0, 1) (0, 1))
  smooth_f : ContDiffAt ℝ 2 f u
  smooth_S : ContDiffAt ℝ 2 S (f u)

theorem pair_eq (p : ℝ × ℝ) : p = p.1 • ((1, 0) : ℝ × ℝ) + p.2 • ((0, 1) : ℝ × ℝ) := by
  ext <;> simp

/-- C61: the point and the first derivative of a curve on a surface are those of the composed map. -/
theorem C61_first {c : ACurve ℝ (Fin 2 → ℝ)} {s : ASurface ℝ V} {f : ℝ → ℝ × ℝ} {S : ℝ × ℝ → V} {u : ℝ} (h : OnSurfaceHyp c s f S u) :
    (c.onSurface s).b0 = c.b0 ∧ (c.onSurface s).b1 = c.b1 ∧
    (c.onSurface s).value u 0 = .ok ((S ∘ f) u) ∧ (c.onSurface s).value u 1 = .ok (deriv (S ∘ f) u) ∧
    ∀ d, 2 < d → (c.onSurface s).value u d = .error (.thrown .runtime) := by
  have c0 := h.crv 0 (by omega)
  have c1 := h.crv 1 (by omega)
  simp only [iteratedDeriv_zero, iteratedDeriv_one] at c0 c1
  refine ⟨rfl, rfl, ?_, ?_, ?_⟩
  · simp [ACurve.onSurface, c0, h.v00]
  · have := (HasFDerivAt.comp_hasDerivAt u (h.smooth_S.differentiableAt (by norm_num)).hasFDerivAt
      (h.smooth_f.differentiableAt (by norm_num)).hasDerivAt).deriv
    have hp := congrArg (fderiv ℝ S (f u)) (pair_eq (deriv f u))
    rw [map_add, map_smul, map_smul] at hp
    rw [this, hp]
    simp [ACurve.onSurface, c0, c1, h.v10, h.v01]
  · intro d hd
    obtain _ | _ | _ | d := d
    · omega
    · omega
    · omega
    · simp [ACurve.onSurface, c0]

/-- C61, what the code returns for the second derivative: the right value plus `(x'' - y'') ∂S/∂v`, because `gbs/curveonsurface.h:53` multiplies
the derivative along `v` by the second derivative of the first coordinate. Missing: the equality with the second derivative, false in general. -/
theorem C61_second_partial {c : ACurve ℝ (Fin 2 → ℝ)} {s : ASurface ℝ V} {f : ℝ → ℝ × ℝ} {S : ℝ × ℝ → V} {u : ℝ}
    (h : OnSurfaceHyp c s f S u) :
    (c.onSurface s).value u 2 = .ok (iteratedDeriv 2 (S ∘ f) u +
      ((iteratedDeriv 2 f u).1 - (iteratedDeriv 2 f u).2) • fderiv ℝ S (f u) (0, 1)) := by
  have c0 := h.crv 0 (by omega)
  have c1 := h.crv 1 (by omega)
  have c2 := h.crv 2 (by omega)
  simp only [iteratedDeriv_zero, iteratedDeriv_one] at c0 c1
  have hsym : fderiv ℝ (fderiv ℝ S) (f u) (0, 1) (1, 0) = fderiv ℝ (fderiv ℝ S) (f u) (1, 0) (0, 1) :=
    (h.smooth_S.isSymmSndFDerivAt (by simp)).eq _ _
  have e : iteratedDeriv 2 (S ∘ f) u = fderiv ℝ (fderiv ℝ S) (f u) (deriv f u) (deriv f u) + fderiv ℝ S (f u) (iteratedDeriv 2 f u) := by
    rw [iteratedDeriv_vcomp_two h.smooth_S h.smooth_f, iteratedFDeriv_two_apply]
  rw [e]
  rw [show fderiv ℝ (fderiv ℝ S) (f u) (deriv f u) (deriv f u) =
      fderiv ℝ (fderiv ℝ S) (f u) ((deriv f u).1 • ((1, 0) : ℝ × ℝ) + (deriv f u).2 • ((0, 1) : ℝ × ℝ))
        ((deriv f u).1 • ((1, 0) : ℝ × ℝ) + (deriv f u).2 • ((0, 1) : ℝ × ℝ)) by rw [← pair_eq]]
  rw [show fderiv ℝ S (f u) (iteratedDeriv 2 f u) = fderiv ℝ S (f u) ((iteratedDeriv 2 f u).1 • ((1, 0) : ℝ × ℝ) +
      (iteratedDeriv 2 f u).2 • ((0, 1) : ℝ × ℝ)) by rw [← pair_eq]]
  simp only [map_add, map_smul, add_apply, smul_apply, hsym]
  simp only [ACurve.onSurface, c0, c1, c2, R_bind_ok, R_pure, Matrix.cons_val_zero, Matrix.cons_val_one, Matrix.cons_val_fin_one, h.v10, h.v01, h.v20, h.v02, h.v11]
  norm_num
  module

/-- C61 fails for the second derivative: the curve `(t, t²)` on the surface `(u,v) ↦ v` has second derivative 2, the code returns 0. -/
theorem C61_second_witness : ∃ (c : ACurve ℝ (Fin 2 → ℝ)) (s : ASurface ℝ ℝ) (f : ℝ → ℝ × ℝ) (S : ℝ × ℝ → ℝ),
    OnSurfaceHyp c s f S 0 ∧ iteratedDeriv 2 (S ∘ f) 0 = 2 ∧ (c.onSurface s).value 0 2 = .ok 0 := by
  let f : ℝ → ℝ × ℝ := fun t => (t, t ^ 2)
  let S : ℝ × ℝ → ℝ := Prod.snd
  have hS : ContDiff ℝ 2 S := contDiff_snd
  have hf : ContDiff ℝ 2 f := by fun_prop
  let c : ACurve ℝ (Fin 2 → ℝ) := ⟨0, 1, fun u d => .ok ![(iteratedDeriv d f u).1, (iteratedDeriv d f u).2]⟩
  let s : ASurface ℝ ℝ := ⟨0, 1, 0, 1, fun u v du dv =>
    .ok (match du, dv with
      | 0, 0 => S (u, v)
      | 1, 0 => fderiv ℝ S (u, v) (1, 0)
      | 0, 1 => fderiv ℝ S (u, v) (0, 1)
      | 2, 0 => fderiv ℝ (fderiv ℝ S) (u, v) (1, 0) (1, 0)
      | 1, 1 => fderiv ℝ (fderiv ℝ S) (u, v) (1, 0) (0, 1)
      | _, _ => fderiv ℝ (fderiv ℝ S) (u, v) (0, 1) (0, 1))⟩
  have h : OnSurfaceHyp c s f S 0 := ⟨fun _ _ => rfl, rfl, rfl, rfl, rfl, rfl, rfl, hf.contDiffAt, hS.contDiffAt⟩
  have e1 : iteratedDeriv 2 (S ∘ f) 0 = 2 := by
    have : S ∘ f = fun t : ℝ => t ^ 2 := rfl
    rw [this]
    simp
  have e2 : iteratedDeriv 2 f 0 = (0, 2) := by
    have d1 : deriv f = fun t => (1, 2 * t) := by
      funext t
      have h2 : HasDerivAt (fun t : ℝ => t ^ 2) (2 * t) t := by simpa using hasDerivAt_pow 2 t
      exact ((hasDerivAt_id t).prodMk h2).deriv
    rw [iteratedDeriv_succ, iteratedDeriv_one, d1]
    have h2 : HasDerivAt (fun t : ℝ => 2 * t) 2 0 := by simpa using (hasDerivAt_id (0 : ℝ)).const_mul 2
    exact ((hasDerivAt_const 0 (1 : ℝ)).prodMk h2).deriv
  refine ⟨c, s, f, S, h, e1, ?_⟩
  rw [C61_second_partial h, e1, e2]
  have : fderiv ℝ S (f 0) = ContinuousLinearMap.snd ℝ ℝ ℝ := (hasFDerivAt_snd).fderiv
  rw [this]
  norm_num

end OnSurface

/-! ## Curvilinear derivatives and offsets -/

theorem vdiv_real {n : ℕ} {x : Fin n → ℝ} {a : ℝ} (ha : a ≠ 0) : vdiv x a = .ok (a⁻¹ • x) := by
  unfold vdiv
  rw [if_neg ha]

theorem hasDerivAt_sqNorm {n : ℕ} {f : ℝ → Fin n → ℝ} {f' : Fin n → ℝ} {u : ℝ} (h : HasDerivAt f f' u) :
    HasDerivAt (fun v => sqNorm (f v)) (2 * dotV (f u) f') u := by
  have h' := fun i => (hasDerivAt_pi.mp h) i
  have := HasDerivAt.fun_sum (u := Finset.univ) fun i _ => (h' i).mul (h' i)
  refine this.congr_deriv ?_
  unfold dotV
  rw [Finset.mul_sum]
  exact Finset.sum_congr rfl fun i _ => by ring

/-- C62: `d_dm` is the unit tangent, and `d_dm2` its derivative with respect to the curvilinear abscissa (whose derivative is the norm of the
tangent). A null tangent is a division by zero. -/
theorem C62_curvilinear {n : ℕ} (c : ACurve ℝ (Fin n → ℝ)) (f1 : ℝ → Fin n → ℝ) (x x2 : Fin n → ℝ) {u : ℝ} (h0 : c.value u 0 = .ok x)
    (h1 : ∀ v, c.value v 1 = .ok (f1 v)) (h2 : c.value u 2 = .ok x2) (hd : HasDerivAt f1 x2 u) :
    (f1 u ≠ 0 → ∃ t k, c.dDm Real.sqrt u = .ok t ∧ c.dDm2 u = .ok k ∧ sqNorm t = 1 ∧ f1 u = Real.sqrt (sqNorm (f1 u)) • t ∧
      ∃ T : ℝ → Fin n → ℝ, (∀ v, f1 v ≠ 0 → c.dDm Real.sqrt v = .ok (T v)) ∧ HasDerivAt T (Real.sqrt (sqNorm (f1 u)) • k) u) ∧
    (f1 u = 0 → c.dDm Real.sqrt u = .error .divZero ∧ c.dDm2 u = .error .divZero) := by
  constructor
  · intro hne
    have hN : sqNorm (f1 u) ≠ 0 := fun h => hne (sqNorm_eq_zero.mp h)
    have hNp : 0 < sqNorm (f1 u) := lt_of_le_of_ne (sqNorm_nonneg _) (Ne.symm hN)
    have hs0 : Real.sqrt (sqNorm (f1 u)) ≠ 0 := (Real.sqrt_pos.mpr hNp).ne'
    have hss : Real.sqrt (sqNorm (f1 u)) * Real.sqrt (sqNorm (f1 u)) = sqNorm (f1 u) := Real.mul_self_sqrt hNp.le
    have hT : ∀ v, f1 v ≠ 0 → c.dDm Real.sqrt v = .ok ((Real.sqrt (sqNorm (f1 v)))⁻¹ • f1 v) := by
      intro v hv
      have : vnorm Real.sqrt (f1 v) ≠ 0 := vnorm_ne_zero isSqrt_real hv
      simp only [ACurve.dDm, h1 v, R_bind_ok]
      exact vdiv_real this
    refine ⟨_, (sqNorm (f1 u) * sqNorm (f1 u))⁻¹ • (sqNorm (f1 u) • x2 - dotV (f1 u) x2 • f1 u), hT u hne, ?_, ?_, ?_,
      fun v => (Real.sqrt (sqNorm (f1 v)))⁻¹ • f1 v, hT, ?_⟩
    · simp only [ACurve.dDm2, h0, h1 u, h2, R_bind_ok]
      exact vdiv_real (mul_ne_zero hN hN)
    · have e : sqNorm ((Real.sqrt (sqNorm (f1 u)))⁻¹ • f1 u) = (Real.sqrt (sqNorm (f1 u)) * Real.sqrt (sqNorm (f1 u)))⁻¹ * sqNorm (f1 u) := by
        unfold sqNorm
        rw [Finset.mul_sum]
        exact Finset.sum_congr rfl fun i _ => by simp only [Pi.smul_apply, smul_eq_mul, mul_inv]; ring
      rw [e, hss, inv_mul_cancel₀ hN]
    · rw [smul_smul, mul_inv_cancel₀ hs0, one_smul]
    · have hsq := (hasDerivAt_sqNorm hd).sqrt hN
      have := (hsq.inv hs0).smul hd
      refine this.congr_deriv ?_
      funext i
      simp only [Pi.add_apply, Pi.smul_apply, Pi.sub_apply, smul_eq_mul, Pi.inv_apply]
      obtain ⟨s, hs⟩ : ∃ s, s = Real.sqrt (sqNorm (f1 u)) := ⟨_, rfl⟩
      rw [← hs] at hss hs0 ⊢
      rw [← hss]
      field_simp
      ring
  · intro h
    have hz : sqNorm (f1 u) = 0 := sqNorm_eq_zero.mpr h
    constructor
    · simp only [ACurve.dDm, h1 u, R_bind_ok, vnorm, hz, Real.sqrt_zero]
      simp [vdiv]
    · simp only [ACurve.dDm2, h0, h1 u, h2, R_bind_ok, hz]
      simp [vdiv]

/-- On the open set `O` the plane curve and the offset function return the derivatives of `(x 0, y 0)` and of `o 0`, and the tangent does not
vanish. -/
structure OffsetHyp (c : ACurve ℝ (Fin 2 → ℝ)) (off : ℝ → ℕ → R ℝ) (x y o : ℕ → ℝ → ℝ) (O : Set ℝ) : Prop where
  crv : ∀ v ∈ O, ∀ k, k ≤ 3 → c.value v k = .ok ![x k v, y k v]
  offs : ∀ v ∈ O, ∀ k, k ≤ 2 → off v k = .ok (o k v)
  dx : ∀ v ∈ O, ∀ k, k ≤ 2 → HasDerivAt (x k) (x (k + 1) v) v
  dy : ∀ v ∈ O, ∀ k, k ≤ 2 → HasDerivAt (y k) (y (k + 1) v) v
  doff : ∀ v ∈ O, ∀ k, k ≤ 1 → HasDerivAt (o k) (o (k + 1) v) v
  reg : ∀ v ∈ O, x 1 v * x 1 v + y 1 v * y 1 v ≠ 0

/-- C62: the offset of a plane curve is at the distance given by the offset function along the left normal, and the first and second
derivatives the code returns are those of the offset point; higher orders throw. -/
theorem C62_offset2d {c : ACurve ℝ (Fin 2 → ℝ)} {off : ℝ → ℕ → R ℝ} {x y o : ℕ → ℝ → ℝ} {O : Set ℝ} (h : OffsetHyp c off x y o O) :
    ∃ F0 F1 F2 : ℝ → Fin 2 → ℝ,
      (∀ v ∈ O, (c.offset2d Real.sqrt off).value v 0 = .ok (F0 v) ∧ (c.offset2d Real.sqrt off).value v 1 = .ok (F1 v) ∧
        (c.offset2d Real.sqrt off).value v 2 = .ok (F2 v)) ∧
      (∀ v ∈ O, HasDerivAt F0 (F1 v) v ∧ HasDerivAt F1 (F2 v) v) ∧
      (∀ v ∈ O, ∃ l : ℝ, 0 < l ∧ l * l = x 1 v * x 1 v + y 1 v * y 1 v ∧
        F0 v = ![x 0 v - o 0 v * y 1 v / l, y 0 v + o 0 v * x 1 v / l]) ∧
      ∀ v d, 2 < d → (c.offset2d Real.sqrt off).value v d = .error (.thrown .runtime) := by
  let r : ℝ → ℝ := fun v => x 1 v * x 1 v + y 1 v * y 1 v
  let s : ℝ → ℝ := fun v => Real.sqrt (r v)
  let dr : ℝ → ℝ := fun v => 2 * x 1 v * x 2 v + 2 * y 1 v * y 2 v
  let d2r : ℝ → ℝ := fun v => 2 * ((x 2 v * x 2 v + y 2 v * y 2 v) + (x 1 v * x 3 v + y 1 v * y 3 v))
  have rpos : ∀ v ∈ O, 0 < r v := fun v hv =>
    lt_of_le_of_ne (add_nonneg (mul_self_nonneg _) (mul_self_nonneg _)) (Ne.symm (h.reg v hv))
  have spos : ∀ v ∈ O, 0 < s v := fun v hv => Real.sqrt_pos.mpr (rpos v hv)
  have ss : ∀ v ∈ O, s v * s v = r v := fun v hv => Real.mul_self_sqrt (rpos v hv).le
  let F0 : ℝ → Fin 2 → ℝ := fun v => ![x 0 v - o 0 v * y 1 v / s v, y 0 v + o 0 v * x 1 v / s v]
  let F1 : ℝ → Fin 2 → ℝ := fun v => ![x 1 v - o 0 v * y 2 v / s v - y 1 v * (o 1 v * r v - 1 / 2 * o 0 v * dr v) / (r v * s v),
    y 1 v + o 0 v * x 2 v / s v + x 1 v * (o 1 v * r v - 1 / 2 * o 0 v * dr v) / (r v * s v)]
  let F2 : ℝ → Fin 2 → ℝ := fun v =>
    ![x 2 v - (o 2 v * y 1 v + 2 * o 1 v * y 2 v + o 0 v * y 3 v) / s v
        + (o 1 v * y 1 v * dr v + o 0 v * y 2 v * dr v + o 0 v * y 1 v * d2r v / 2) / s v / r v
        - 3 / 4 * o 0 v * y 1 v * dr v * dr v / s v / r v / r v,
      y 2 v + (o 2 v * x 1 v + 2 * o 1 v * x 2 v + o 0 v * x 3 v) / s v
        - (o 1 v * x 1 v * dr v + o 0 v * x 2 v * dr v + o 0 v * x 1 v * d2r v / 2) / s v / r v
        + 3 / 4 * o 0 v * x 1 v * dr v * dr v / s v / r v / r v]
  have hr : ∀ v ∈ O, HasDerivAt r (dr v) v := fun v hv => by
    have a := h.dx v hv 1 (by omega)
    have b := h.dy v hv 1 (by omega)
    exact ((a.mul a).add (b.mul b)).congr_deriv (by simp only [dr]; ring)
  have hsd : ∀ v ∈ O, HasDerivAt s (dr v / (2 * s v)) v := fun v hv => (hr v hv).sqrt (rpos v hv).ne'
  have hdr : ∀ v ∈ O, HasDerivAt dr (d2r v) v := fun v hv => by
    have a1 := h.dx v hv 1 (by omega)
    have b1 := h.dy v hv 1 (by omega)
    have a2 := h.dx v hv 2 (by omega)
    have b2 := h.dy v hv 2 (by omega)
    exact (((a1.const_mul 2).mul a2).add ((b1.const_mul 2).mul b2)).congr_deriv (by simp only [d2r]; ring)
  refine ⟨F0, F1, F2, ?_, ?_, ?_, ?_⟩
  · intro v hv
    have e0 := h.crv v hv 0 (by omega)
    have e1 := h.crv v hv 1 (by omega)
    have e2 := h.crv v hv 2 (by omega)
    have e3 := h.crv v hv 3 (by omega)
    have o0 := h.offs v hv 0 (by omega)
    have o1 := h.offs v hv 1 (by omega)
    have o2 := h.offs v hv 2 (by omega)
    have hq : sqNorm (![x 1 v, y 1 v] : Fin 2 → ℝ) = r v := by simp [sqNorm, Fin.sum_univ_two, r]
    have hq' : sqNorm (![-y 1 v, x 1 v] : Fin 2 → ℝ) = r v := by simp [sqNorm, Fin.sum_univ_two, r]; ring
    have hdr' : dotV ((2 : ℝ) • (![x 1 v, y 1 v] : Fin 2 → ℝ)) ![x 2 v, y 2 v] = dr v := by
      simp [dotV, Fin.sum_univ_two, dr]
    have hd2 : 2 * (dotV (![x 2 v, y 2 v] : Fin 2 → ℝ) ![x 2 v, y 2 v] + dotV (![x 1 v, y 1 v] : Fin 2 → ℝ) ![x 3 v, y 3 v]) = d2r v := by
      simp [dotV, Fin.sum_univ_two, d2r]
    have hs0 := (spos v hv).ne'
    have hr0 := (rpos v hv).ne'
    refine ⟨?_, ?_, ?_⟩
    · have hn : normal2 Real.sqrt ![x 1 v, y 1 v] = .ok ((s v)⁻¹ • ![-y 1 v, x 1 v]) := by
        simp only [normal2, vnorm, Matrix.cons_val_zero, Matrix.cons_val_one, hq']
        exact vdiv_real hs0
      simp only [ACurve.offset2d, if_true, e0, e1, R_bind_ok, hn, o0, R_pure, F0]
      congr 1
      funext i
      fin_cases i
      · show x 0 v + o 0 v * ((s v)⁻¹ * -y 1 v) = x 0 v - o 0 v * y 1 v / s v
        ring
      · show y 0 v + o 0 v * ((s v)⁻¹ * x 1 v) = y 0 v + o 0 v * x 1 v / s v
        ring
    · simp only [ACurve.offset2d, one_ne_zero, if_false, if_true, e1, e2, R_bind_ok, o0, o1, R_pure, hq, hdr', Matrix.cons_val_zero,
        Matrix.cons_val_one]
      rw [show Real.sqrt (r v) = s v from rfl, fdiv_ok hs0, R_bind_ok, fdiv_ok (mul_ne_zero hr0 hs0), R_bind_ok, fdiv_ok hs0, R_bind_ok,
        fdiv_ok (mul_ne_zero hr0 hs0), R_bind_ok]
    · simp only [ACurve.offset2d, OfNat.ofNat_ne_zero, OfNat.ofNat_ne_one, if_false, if_true, e1, e2, e3, R_bind_ok, o0, o1, o2, R_pure, hq, hdr', hd2,
        Matrix.cons_val_zero, Matrix.cons_val_one]
      rw [show Real.sqrt (r v) = s v from rfl, if_neg (by tauto)]
  · intro v hv
    have a0 := h.dx v hv 0 (by omega)
    have a1 := h.dx v hv 1 (by omega)
    have a2 := h.dx v hv 2 (by omega)
    have b0 := h.dy v hv 0 (by omega)
    have b1 := h.dy v hv 1 (by omega)
    have b2 := h.dy v hv 2 (by omega)
    have q0 := h.doff v hv 0 (by omega)
    have q1 := h.doff v hv 1 (by omega)
    have hs := hsd v hv
    have hr' := hr v hv
    have hd' := hdr v hv
    have hs0 := (spos v hv).ne'
    have hr0 := (rpos v hv).ne'
    have hss := ss v hv
    have hin := ((q1.mul hr').sub ((q0.const_mul (1 / 2)).mul hd'))
    constructor
    · rw [hasDerivAt_pi]
      intro i
      fin_cases i
      · refine (a0.sub ((q0.mul b1).div hs hs0)).congr_deriv ?_
        show _ = x 1 v - o 0 v * y 2 v / s v - y 1 v * (o 1 v * r v - 1 / 2 * o 0 v * dr v) / (r v * s v)
        simp only [Pi.mul_apply, zero_add, Nat.reduceAdd]
        rw [← hss]
        field_simp
        ring
      · refine (b0.add ((q0.mul a1).div hs hs0)).congr_deriv ?_
        show _ = y 1 v + o 0 v * x 2 v / s v + x 1 v * (o 1 v * r v - 1 / 2 * o 0 v * dr v) / (r v * s v)
        simp only [Pi.mul_apply, zero_add, Nat.reduceAdd]
        rw [← hss]
        field_simp
        ring
    · rw [hasDerivAt_pi]
      intro i
      fin_cases i
      · refine ((a1.sub ((q0.mul b2).div hs hs0)).sub ((b1.mul hin).div (hr'.mul hs) (mul_ne_zero hr0 hs0))).congr_deriv ?_
        show _ = x 2 v - (o 2 v * y 1 v + 2 * o 1 v * y 2 v + o 0 v * y 3 v) / s v
          + (o 1 v * y 1 v * dr v + o 0 v * y 2 v * dr v + o 0 v * y 1 v * d2r v / 2) / s v / r v
          - 3 / 4 * o 0 v * y 1 v * dr v * dr v / s v / r v / r v
        simp only [Pi.mul_apply, Pi.sub_apply, zero_add, Nat.reduceAdd]
        rw [← hss]
        field_simp
        ring
      · refine ((b1.add ((q0.mul a2).div hs hs0)).add ((a1.mul hin).div (hr'.mul hs) (mul_ne_zero hr0 hs0))).congr_deriv ?_
        show _ = y 2 v + (o 2 v * x 1 v + 2 * o 1 v * x 2 v + o 0 v * x 3 v) / s v
          - (o 1 v * x 1 v * dr v + o 0 v * x 2 v * dr v + o 0 v * x 1 v * d2r v / 2) / s v / r v
          + 3 / 4 * o 0 v * x 1 v * dr v * dr v / s v / r v / r v
        simp only [Pi.mul_apply, Pi.sub_apply, zero_add, Nat.reduceAdd]
        rw [← hss]
        field_simp
        ring
  · intro v hv
    exact ⟨s v, spos v hv, ss v hv, rfl⟩
  · intro v d hd
    obtain _ | _ | _ | d := d
    · omega
    · omega
    · omega
    · simp [ACurve.offset2d]

/-- The hypotheses of `C62_offset2d` are met by the parabola `(t, t²)` with the offset `1 + t`. -/
example : OffsetHyp ⟨0, 1, fun v k => .ok ![[v, 1, 0, 0].getD k 0, [v ^ 2, 2 * v, 2, 0].getD k 0]⟩ (fun v k => .ok ([1 + v, 1, 0].getD k 0))
    (fun k v => [v, 1, 0, 0].getD k 0) (fun k v => [v ^ 2, 2 * v, 2, 0].getD k 0) (fun k v => [1 + v, 1, 0].getD k 0) Set.univ where
  crv v _ k _ := rfl
  offs v _ k _ := rfl
  dx v _ k hk := by
    obtain _ | _ | _ | k := k
    · exact hasDerivAt_id v
    · exact hasDerivAt_const v 1
    · exact hasDerivAt_const v 0
    · omega
  dy v _ k hk := by
    obtain _ | _ | _ | k := k
    · show HasDerivAt (fun v : ℝ => v ^ 2) (2 * v) v
      simpa using hasDerivAt_pow 2 v
    · show HasDerivAt (fun v : ℝ => 2 * v) 2 v
      simpa using (hasDerivAt_id v).const_mul 2
    · exact hasDerivAt_const v 2
    · omega
  doff v _ k hk := by
    obtain _ | _ | k := k
    · exact (hasDerivAt_id v).const_add 1
    · exact hasDerivAt_const v 1
    · omega
  reg v _ := by
    show (1 : ℝ) * 1 + 2 * v * (2 * v) ≠ 0
    nlinarith [sq_nonneg v]

end Gbs
