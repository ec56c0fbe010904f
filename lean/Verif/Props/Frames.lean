import Verif.Props.Transform
import Mathlib.LinearAlgebra.Matrix.NonsingularInverse
import Mathlib.Analysis.Real.Sqrt

/-! # C46: transformations between frames -/

namespace Gbs

set_option linter.unusedSectionVars false

variable {K : Type} [Field K] [LinearOrder K] [IsStrictOrderedRing K]

/-- A frame with two non null orthogonal directions. -/
structure Ax2.Ortho (F : Ax2 K) : Prop where
  x_ne : F.x ≠ 0
  z_ne : F.z ≠ 0
  orth : dot F.z F.x = 0

/-- C46, one frame: `build_trf_matrix(R)` maps the origin to the origin of the frame, the first and third axes to its normalized directions
`R[2]` and `R[1]`, and the rotation part is direct and orthogonal. A null direction is a division by zero. -/
theorem C46_single_frame {sqrt : K → K} (hs : IsSqrt sqrt) (F : Ax2 K) :
    (F.Ortho → ∃ P, trfLocMat sqrt F = .ok (F.O, P) ∧ trfMatrixOf sqrt F = .ok (trfMatrix F.O P) ∧ P.transpose * P = 1 ∧ P.det = 1 ∧
      transformed F.O P 0 = F.O ∧
      vnorm sqrt F.x • P.mulVec ![1, 0, 0] = F.x ∧ vnorm sqrt F.z • P.mulVec ![0, 0, 1] = F.z ∧
      P.mulVec ![0, 1, 0] = cross3 (P.mulVec ![0, 0, 1]) (P.mulVec ![1, 0, 0])) ∧
    (F.x = 0 ∨ F.z = 0 → trfLocMat sqrt F = .error .divZero) := by
  constructor
  · intro h
    have hx := vnorm_ne_zero hs h.x_ne
    have hz := vnorm_ne_zero hs h.z_ne
    obtain ⟨a, ha⟩ : ∃ a, a = (vnorm sqrt F.x)⁻¹ • F.x := ⟨_, rfl⟩
    obtain ⟨b, hb⟩ : ∃ b, b = (vnorm sqrt F.z)⁻¹ • F.z := ⟨_, rfl⟩
    have e1 : F.x = vnorm sqrt F.x • a := by rw [ha, smul_smul, mul_inv_cancel₀ hx, one_smul]
    have e2 : F.z = vnorm sqrt F.z • b := by rw [hb, smul_smul, mul_inv_cancel₀ hz, one_smul]
    have na : a 0 * a 0 + a 1 * a 1 + a 2 * a 2 = 1 := by
      have := vnorm_mul_self hs F.x
      unfold sqNorm at this
      rw [Fin.sum_univ_three] at this
      rw [ha]
      simp only [Pi.smul_apply, smul_eq_mul]
      field_simp
      linear_combination -this
    have nb : b 0 * b 0 + b 1 * b 1 + b 2 * b 2 = 1 := by
      have := vnorm_mul_self hs F.z
      unfold sqNorm at this
      rw [Fin.sum_univ_three] at this
      rw [hb]
      simp only [Pi.smul_apply, smul_eq_mul]
      field_simp
      linear_combination -this
    have nab : b 0 * a 0 + b 1 * a 1 + b 2 * a 2 = 0 := by
      have := h.orth
      unfold dot at this
      rw [Fin.sum_univ_three] at this
      rw [ha, hb]
      simp only [Pi.smul_apply, smul_eq_mul]
      linear_combination ((vnorm sqrt F.z)⁻¹ * (vnorm sqrt F.x)⁻¹) * this
    have hP : trfLocMat sqrt F = .ok (F.O, Matrix.of (fun i j => ![a i, cross3 b a i, b i] j)) := by
      unfold trfLocMat vdiv
      rw [if_neg hx, R_bind_ok, if_neg hz, R_bind_ok, ← ha, ← hb]
      rfl
    have m0 : (Matrix.of (fun i j => ![a i, cross3 b a i, b i] j)).mulVec ![1, 0, 0] = a := by
      funext i; simp [Matrix.mulVec, dotProduct, Fin.sum_univ_three]
    have m1 : (Matrix.of (fun i j => ![a i, cross3 b a i, b i] j)).mulVec ![0, 1, 0] = cross3 b a := by
      funext i; simp [Matrix.mulVec, dotProduct, Fin.sum_univ_three]
    have m2 : (Matrix.of (fun i j => ![a i, cross3 b a i, b i] j)).mulVec ![0, 0, 1] = b := by
      funext i; simp [Matrix.mulVec, dotProduct, Fin.sum_univ_three]
    refine ⟨_, hP, ?_, ?_, ?_, ?_, ?_, ?_, ?_⟩
    · unfold trfMatrixOf
      rw [hP, R_bind_ok]
      rfl
    · have q0 : cross3 b a 0 = b 1 * a 2 - b 2 * a 1 := rfl
      have q1 : cross3 b a 1 = b 2 * a 0 - b 0 * a 2 := rfl
      have q2 : cross3 b a 2 = b 0 * a 1 - b 1 * a 0 := rfl
      ext i j
      rw [Matrix.mul_apply, Fin.sum_univ_three]
      fin_cases i <;> fin_cases j
      · show a 0 * a 0 + a 1 * a 1 + a 2 * a 2 = 1
        exact na
      · show a 0 * cross3 b a 0 + a 1 * cross3 b a 1 + a 2 * cross3 b a 2 = 0
        rw [q0, q1, q2]; ring
      · show a 0 * b 0 + a 1 * b 1 + a 2 * b 2 = 0
        linear_combination nab
      · show cross3 b a 0 * a 0 + cross3 b a 1 * a 1 + cross3 b a 2 * a 2 = 0
        rw [q0, q1, q2]; ring
      · show cross3 b a 0 * cross3 b a 0 + cross3 b a 1 * cross3 b a 1 + cross3 b a 2 * cross3 b a 2 = 1
        rw [q0, q1, q2]
        linear_combination (b 0 * b 0 + b 1 * b 1 + b 2 * b 2) * na + nb - (b 0 * a 0 + b 1 * a 1 + b 2 * a 2) * nab
      · show cross3 b a 0 * b 0 + cross3 b a 1 * b 1 + cross3 b a 2 * b 2 = 0
        rw [q0, q1, q2]; ring
      · show b 0 * a 0 + b 1 * a 1 + b 2 * a 2 = 0
        exact nab
      · show b 0 * cross3 b a 0 + b 1 * cross3 b a 1 + b 2 * cross3 b a 2 = 0
        rw [q0, q1, q2]; ring
      · show b 0 * b 0 + b 1 * b 1 + b 2 * b 2 = 1
        exact nb
    · rw [Matrix.det_fin_three]
      show a 0 * (b 2 * a 0 - b 0 * a 2) * b 2 - a 0 * b 1 * (b 0 * a 1 - b 1 * a 0) - (b 1 * a 2 - b 2 * a 1) * a 1 * b 2 +
        (b 1 * a 2 - b 2 * a 1) * b 1 * a 2 + b 0 * a 1 * (b 0 * a 1 - b 1 * a 0) - b 0 * (b 2 * a 0 - b 0 * a 2) * a 2 = 1
      linear_combination (b 0 * b 0 + b 1 * b 1 + b 2 * b 2) * na + nb - (b 0 * a 0 + b 1 * a 1 + b 2 * a 2) * nab
    · unfold transformed
      simp
    · rw [m0]; exact e1.symm
    · rw [m2]; exact e2.symm
    · rw [m0, m1, m2]
  · rintro h
    unfold trfLocMat vdiv
    by_cases hx : F.x = 0
    · rw [hx, vnorm_zero hs, if_pos rfl]
      rfl
    · have hz : F.z = 0 := by tauto
      rw [if_neg (vnorm_ne_zero hs hx), R_bind_ok, hz, vnorm_zero hs, if_pos rfl]
      rfl

/-- The rotation part of an orthogonal frame. -/
def Ax2.Rot (sqrt : K → K) (F : Ax2 K) (P : Matrix (Fin 3) (Fin 3) K) : Prop := trfLocMat sqrt F = .ok (F.O, P)

/-- C46, two frames: what `build_trf_matrix(R_from,R_to)` does. For orthogonal frames of rotation parts `PF`, `PT`, it maps the origin
of `R_from` to the origin of `R_to` exactly when `PF` keeps the origin of `R_from`, and the axes of `R_from` to those of `R_to` exactly when
`PF * PF = 1` (the code composes with `PF` instead of its inverse). -/
theorem C46_two_frames {sqrt : K → K} (hs : IsSqrt sqrt) {F T : Ax2 K} (hF : F.Ortho) (hT : T.Ortho) :
    ∃ PF PT Loc P, F.Rot sqrt PF ∧ T.Rot sqrt PT ∧ trfLocMat2 sqrt F T = .ok (Loc, P) ∧ trfMatrix2 sqrt F T = .ok (trfMatrix Loc P) ∧
      (transformed Loc P F.O = T.O ↔ PF.mulVec F.O = F.O) ∧
      ((∀ e, P.mulVec (PF.mulVec e) = PT.mulVec e) ↔ PF * PF = 1) := by
  obtain ⟨PF, f1, -, f3, -⟩ := (C46_single_frame hs F).1 hF
  obtain ⟨PT, t1, -, t3, -⟩ := (C46_single_frame hs T).1 hT
  have e : trfLocMat2 sqrt F T = .ok (T.O - PT.mulVec F.O, PT * PF) := by
    unfold trfLocMat2
    rw [t1, R_bind_ok]
    simp only
    rw [f1, R_bind_ok]
    rfl
  refine ⟨PF, PT, _, _, f1, t1, e, ?_, ?_, ?_⟩
  · unfold trfMatrix2
    rw [e, R_bind_ok]
    rfl
  · unfold transformed
    constructor
    · intro h
      have h' : PT.mulVec (PF.mulVec F.O) = PT.mulVec F.O := by
        rw [Matrix.mulVec_mulVec]
        have := congrArg (fun x => x - T.O + PT.mulVec F.O) h
        simp only [sub_self, zero_add] at this
        rw [← this]
        abel
      have := congrArg PT.transpose.mulVec h'
      rwa [Matrix.mulVec_mulVec, Matrix.mulVec_mulVec _ PT.transpose, t3, Matrix.one_mulVec, Matrix.one_mulVec] at this
    · intro h
      rw [← Matrix.mulVec_mulVec, h]
      abel
  · constructor
    · intro h
      have : PT * PF * PF = PT := by
        apply Matrix.ext_of_mulVec_single
        intro i
        rw [← Matrix.mulVec_mulVec]
        exact h _
      calc PF * PF = PT.transpose * (PT * PF * PF) := by rw [← Matrix.mul_assoc, ← Matrix.mul_assoc, t3, Matrix.one_mul]
        _ = 1 := by rw [this, t3]
    · intro h e
      rw [Matrix.mulVec_mulVec, Matrix.mul_assoc, h, Matrix.mul_one]

/-- C46 holds from a frame that has the directions of the reference axes: origin to origin, axes to axes, and the distances are kept.
(Partial: for a general first frame see `C46_two_frames` and `C46_witness`.) -/
theorem C46_from_reference_axes_partial {sqrt : K → K} (hs : IsSqrt sqrt) {F T : Ax2 K} (hz : F.z = ![0, 0, 1]) (hx : F.x = ![1, 0, 0]) (hT : T.Ortho) :
    ∃ M, trfMatrix2 sqrt F T = .ok M ∧ transformed4 M F.O = T.O ∧
      ∃ a b : Fin 3 → K, vnorm sqrt T.x • a = T.x ∧ vnorm sqrt T.z • b = T.z ∧
        transformed4 M (F.O + F.x) = T.O + a ∧ transformed4 M (F.O + F.z) = T.O + b ∧ transformed4 M (F.O + cross3 F.z F.x) = T.O + cross3 b a := by
  have h1 : sqrt 1 = 1 := by
    obtain ⟨p, q⟩ := hs 1 zero_le_one
    nlinarith
  have hF : F.Ortho := by
    refine ⟨?_, ?_, ?_⟩
    · rw [hx]; intro h; have := congrFun h 0; simp at this
    · rw [hz]; intro h; have := congrFun h 2; simp at this
    · rw [hx, hz]; simp [dot, Fin.sum_univ_three]
  obtain ⟨PF, f1, -, -⟩ := (C46_single_frame hs F).1 hF
  obtain ⟨PT, t1, -, t3, -, -, t6, t7, t8⟩ := (C46_single_frame hs T).1 hT
  have hPF : PF = 1 := by
    have n1 : vnorm sqrt F.x = 1 := by unfold vnorm sqNorm; rw [hx, Fin.sum_univ_three]; simp [h1]
    have n2 : vnorm sqrt F.z = 1 := by unfold vnorm sqNorm; rw [hz, Fin.sum_univ_three]; simp [h1]
    unfold trfLocMat vdiv at f1
    rw [n1, n2, if_neg one_ne_zero, R_bind_ok, if_neg one_ne_zero, R_bind_ok] at f1
    have := (Prod.mk.inj (Except.ok.inj f1)).2
    rw [← this, hx, hz]
    ext i j
    fin_cases i <;> fin_cases j <;> simp [cross3]
  have e : trfMatrix2 sqrt F T = .ok (trfMatrix (T.O - PT.mulVec F.O) PT) := by
    unfold trfMatrix2 trfLocMat2
    rw [t1, R_bind_ok]
    simp only
    rw [f1, R_bind_ok, hPF, Matrix.mul_one]
    rfl
  have key : ∀ v, transformed4 (trfMatrix (T.O - PT.mulVec F.O) PT) (F.O + v) = T.O + PT.mulVec v := by
    intro v
    rw [(C47_matrix _ _).2]
    unfold transformed
    rw [Matrix.mulVec_add]
    abel
  refine ⟨_, e, ?_, PT.mulVec ![1, 0, 0], PT.mulVec ![0, 0, 1], t6, t7, ?_, ?_, ?_⟩
  · have := key 0
    rwa [add_zero, Matrix.mulVec_zero, add_zero] at this
  · rw [key, hx]
  · rw [key, hz]
  · rw [key, ← t8, hz, hx]
    congr 2
    funext i
    fin_cases i <;> simp [cross3]

/-- C46 is false of the code for other first frames: from the orthonormal frame of origin `(1,0,0)` with the directions `(1,0,0)`, `(0,1,0)` to the reference frame,
neither the origin nor the main direction go where they should. -/
theorem C46_witness {sqrt : K → K} (hs : IsSqrt sqrt) :
    ∃ F T : Ax2 K, F.Ortho ∧ T.Ortho ∧ sqNorm F.x = 1 ∧ sqNorm F.z = 1 ∧ sqNorm T.x = 1 ∧ sqNorm T.z = 1 ∧
      ∃ M, trfMatrix2 sqrt F T = .ok M ∧ transformed4 M F.O ≠ T.O ∧ transformed4 M (F.O + F.z) - transformed4 M F.O ≠ T.z := by
  have h1 : sqrt 1 = 1 := by
    obtain ⟨p, q⟩ := hs 1 zero_le_one
    nlinarith
  refine ⟨⟨![1, 0, 0], ![1, 0, 0], ![0, 1, 0]⟩, ⟨![0, 0, 0], ![0, 0, 1], ![1, 0, 0]⟩, ⟨?_, ?_, ?_⟩, ⟨?_, ?_, ?_⟩, ?_, ?_, ?_, ?_, ?_⟩
  · intro h; have := congrFun h 1; simp at this
  · intro h; have := congrFun h 0; simp at this
  · simp [dot, Fin.sum_univ_three]
  · intro h; have := congrFun h 0; simp at this
  · intro h; have := congrFun h 2; simp at this
  · simp [dot, Fin.sum_univ_three]
  · simp [sqNorm, Fin.sum_univ_three]
  · simp [sqNorm, Fin.sum_univ_three]
  · simp [sqNorm, Fin.sum_univ_three]
  · simp [sqNorm, Fin.sum_univ_three]
  · have e : trfLocMat2 sqrt ⟨![1, 0, 0], ![1, 0, 0], ![0, 1, 0]⟩ ⟨![0, 0, 0], ![0, 0, 1], ![1, 0, 0]⟩ =
        .ok (![-1, 0, 0], (Matrix.of ![![0, 0, 1], ![1, 0, 0], ![0, 1, 0]] : Matrix (Fin 3) (Fin 3) K)) := by
      unfold trfLocMat2 trfLocMat vdiv
      simp only [vnorm, sqNorm, Fin.sum_univ_three, Matrix.cons_val_zero, Matrix.cons_val_one, 
        Matrix.cons_val, mul_zero, mul_one, add_zero, zero_add, h1, one_ne_zero, if_false, R_bind_ok, inv_one, one_smul, R_pure]
      congr 2
      · funext i
        fin_cases i <;> simp [cross3, Matrix.mulVec, dotProduct, Fin.sum_univ_three]
      · ext i j
        rw [Matrix.mul_apply, Fin.sum_univ_three]
        fin_cases i <;> fin_cases j <;> simp [cross3]
    refine ⟨trfMatrix ![-1, 0, 0] (Matrix.of ![![0, 0, 1], ![1, 0, 0], ![0, 1, 0]]), ?_, ?_, ?_⟩
    · unfold trfMatrix2
      rw [e, R_bind_ok]
      rfl
    · intro h
      have := congrFun h 0
      rw [(C47_matrix _ _).2] at this
      simp [transformed, Matrix.mulVec, dotProduct, Fin.sum_univ_three] at this
    · intro h
      have := congrFun h 1
      rw [(C47_matrix _ _).2, (C47_matrix _ _).2] at this
      simp [transformed, Matrix.mulVec, dotProduct, Fin.sum_univ_three, Matrix.vecHead, Matrix.vecTail] at this

theorem isSqrt_real : IsSqrt Real.sqrt := fun x hx => ⟨Real.sqrt_nonneg x, Real.mul_self_sqrt hx⟩

example : IsSqrt Real.sqrt ∧ (⟨![1, 2, 3], ![0, 0, 2], ![3, 4, 0]⟩ : Ax2 ℝ).Ortho := by
  refine ⟨isSqrt_real, ?_, ?_, ?_⟩
  · intro h; have := congrFun h 0; simp at this
  · intro h; have := congrFun h 2; simp at this
  · simp [dot, Fin.sum_univ_three]

end Gbs
