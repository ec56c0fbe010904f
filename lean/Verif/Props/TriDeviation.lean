import Verif.Model.TriDeviation
import Verif.Props.Circles
import Verif.Props.Frames
import Verif.Props.Offset3d
import Mathlib.Tactic.LinearCombination
import Mathlib.Tactic.FieldSimp

/-! # C133: deviation of a triangle from a surface -/

namespace Gbs

set_option linter.unusedSectionVars false

variable {K : Type} [Field K] [LinearOrder K] [IsStrictOrderedRing K]

/-- The vectors point in the same direction. -/
def Spec.SameDir (a b : Fin 3 → K) : Prop := ∃ k : K, 0 < k ∧ a = k • b

theorem unit_of {sqrt : K → K} (hs : IsSqrt sqrt) {a : Fin 3 → K} (ha : a ≠ 0) : sqNorm ((vnorm sqrt a)⁻¹ • a) = 1 := by
  rw [sqNorm_smul', ← vnorm_mul_self hs a]
  have := vnorm_ne_zero hs ha
  field_simp

theorem units_eq_iff {sqrt : K → K} (hs : IsSqrt sqrt) {a b : Fin 3 → K} (ha : a ≠ 0) (hb : b ≠ 0) :
    (vnorm sqrt a)⁻¹ • a = (vnorm sqrt b)⁻¹ • b ↔ Spec.SameDir a b := by
  have pa := vnorm_pos' hs ha
  have pb := vnorm_pos' hs hb
  constructor
  · intro h
    refine ⟨vnorm sqrt a * (vnorm sqrt b)⁻¹, by positivity, ?_⟩
    rw [mul_smul, ← h, smul_smul, mul_inv_cancel₀ pa.ne', one_smul]
  · rintro ⟨k, hk, e⟩
    have : vnorm sqrt a = k * vnorm sqrt b := by
      have h1 : vnorm sqrt a * vnorm sqrt a = (k * vnorm sqrt b) * (k * vnorm sqrt b) := by
        rw [vnorm_mul_self hs, e, sqNorm_smul', ← vnorm_mul_self hs b]; ring
      exact (mul_self_inj pa.le (by positivity)).mp h1
    rw [this, e, smul_smul]
    congr 1
    field_simp

theorem vnorm_neg_eq {sqrt : K → K} (a : Fin 3 → K) : vnorm sqrt (-a) = vnorm sqrt a := by
  unfold vnorm sqNorm; simp

/-- C133: the deviation is the distance of the unit normals: it is between 0 and 2, related to the cosine of their angle, 0 exactly when they are the same
and 2 exactly when they are opposite. -/
theorem C133_deviation {sqrt : K → K} (hs : IsSqrt sqrt) {S : K → K → ℕ → ℕ → R (Fin 3 → K)} {p q r : K × K} {v1 v2 v3 du dv : Fin 3 → K}
    (h1 : S p.1 p.2 0 0 = .ok v1) (h2 : S q.1 q.2 0 0 = .ok v2) (h3 : S r.1 r.2 0 0 = .ok v3)
    (hu : S ((p.1 + q.1 + r.1) / 3) ((p.2 + q.2 + r.2) / 3) 1 0 = .ok du) (hv : S ((p.1 + q.1 + r.1) / 3) ((p.2 + q.2 + r.2) / 3) 0 1 = .ok dv)
    (hN : cross3 (v2 - v1) (v3 - v1) ≠ 0) (hM : cross3 du dv ≠ 0) :
    ∃ d, triDeviation sqrt S p q r = .ok d ∧ 0 ≤ d ∧ d ≤ 2 ∧
      vnorm sqrt (cross3 (v2 - v1) (v3 - v1)) * vnorm sqrt (cross3 du dv) * (2 - d * d) = 2 * dot (cross3 (v2 - v1) (v3 - v1)) (cross3 du dv) ∧
      (d = 0 ↔ Spec.SameDir (cross3 (v2 - v1) (v3 - v1)) (cross3 du dv)) ∧
      (d = 2 ↔ Spec.SameDir (cross3 (v2 - v1) (v3 - v1)) (-cross3 du dv)) := by
  have e : triDeviation sqrt S p q r = .ok (vnorm sqrt ((vnorm sqrt (cross3 (v2 - v1) (v3 - v1)))⁻¹ • cross3 (v2 - v1) (v3 - v1) -
      (vnorm sqrt (cross3 du dv))⁻¹ • cross3 du dv)) := by
    unfold triDeviation
    simp only [h1, h2, h3, hu, hv, R_bind_ok, adimV, vdiv_ok (vnorm_ne_zero hs hN), vdiv_ok (vnorm_ne_zero hs hM)]
    rfl
  refine ⟨_, e, ?_⟩
  clear e
  generalize cross3 (v2 - v1) (v3 - v1) = N at hN ⊢
  generalize cross3 du dv = M at hM ⊢
  have pN := vnorm_pos' hs hN
  have pM := vnorm_pos' hs hM
  have uN := unit_of hs hN
  have uM := unit_of hs hM
  have hdot : vnorm sqrt N * vnorm sqrt M * dot ((vnorm sqrt N)⁻¹ • N) ((vnorm sqrt M)⁻¹ • M) = dot N M := by
    rw [dot_three, dot_three]
    simp only [Pi.smul_apply, smul_eq_mul]
    field_simp
  have hM' : (-M) ≠ 0 := neg_ne_zero.mpr hM
  have hsame := units_eq_iff hs hN hM
  have hopp := units_eq_iff hs hN hM'
  rw [vnorm_neg_eq, smul_neg] at hopp
  rw [← hsame, ← hopp, ← hdot]
  generalize (vnorm sqrt N)⁻¹ • N = n at *
  generalize (vnorm sqrt M)⁻¹ • M = m at *
  have d0 : 0 ≤ vnorm sqrt (n - m) := (hs _ (sqNorm_nonneg _)).1
  have dd := vnorm_mul_self hs (n - m)
  have hsub : sqNorm (n - m) = 2 - 2 * dot n m := by
    rw [sqNorm_three] at uN uM ⊢
    rw [dot_three]
    simp only [Pi.sub_apply]
    linear_combination uN + uM
  have hadd : sqNorm (n - m) + sqNorm (n + m) = 4 := by
    rw [sqNorm_three] at uN uM
    rw [sqNorm_three, sqNorm_three]
    simp only [Pi.sub_apply, Pi.add_apply]
    linear_combination 2 * uN + 2 * uM
  have hp := sqNorm_nonneg (n + m)
  generalize vnorm sqrt (n - m) = d at *
  refine ⟨d0, by nlinarith, ?_, ?_, ?_⟩
  · rw [dd, hsub]; ring
  · rw [← sub_eq_zero (a := n), ← sqNorm_eq_zero, ← dd, mul_self_eq_zero]
  · rw [eq_neg_iff_add_eq_zero, ← sqNorm_eq_zero]
    constructor
    · rintro rfl; linarith
    · intro h
      have : (d - 2) * (d + 2) = 0 := by linear_combination dd + hadd - h
      rcases mul_eq_zero.mp this with h | h <;> linarith

/-- C133: with two of its points exchanged, the square of the deviation of a triangle becomes what it lacks to be 4: it depends on the order of the points. -/
theorem C133_exchanged {sqrt : K → K} (hs : IsSqrt sqrt) {S : K → K → ℕ → ℕ → R (Fin 3 → K)} {p q r : K × K} {v1 v2 v3 du dv : Fin 3 → K}
    (h1 : S p.1 p.2 0 0 = .ok v1) (h2 : S q.1 q.2 0 0 = .ok v2) (h3 : S r.1 r.2 0 0 = .ok v3)
    (hu : S ((p.1 + q.1 + r.1) / 3) ((p.2 + q.2 + r.2) / 3) 1 0 = .ok du) (hv : S ((p.1 + q.1 + r.1) / 3) ((p.2 + q.2 + r.2) / 3) 0 1 = .ok dv)
    (hN : cross3 (v2 - v1) (v3 - v1) ≠ 0) (hM : cross3 du dv ≠ 0) :
    ∃ d d', triDeviation sqrt S p q r = .ok d ∧ triDeviation sqrt S p r q = .ok d' ∧ d * d + d' * d' = 4 := by
  have hneg : cross3 (v3 - v1) (v2 - v1) = -cross3 (v2 - v1) (v3 - v1) := by
    funext i
    fin_cases i <;> simp [cross3] <;> ring
  have c1 : p.1 + r.1 + q.1 = p.1 + q.1 + r.1 := by ring
  have c2 : p.2 + r.2 + q.2 = p.2 + q.2 + r.2 := by ring
  obtain ⟨d, e, _, _, hd, _⟩ := C133_deviation hs h1 h2 h3 hu hv hN hM
  obtain ⟨d', e', _, _, hd', _⟩ := C133_deviation hs (p := p) (q := r) (r := q) h1 h3 h2 (by rw [c1, c2]; exact hu) (by rw [c1, c2]; exact hv)
    (by rw [hneg]; exact neg_ne_zero.mpr hN) hM
  refine ⟨d, d', e, e', ?_⟩
  rw [hneg, vnorm_neg_eq] at hd'
  have hdn : dot (-cross3 (v2 - v1) (v3 - v1)) (cross3 du dv) = -dot (cross3 (v2 - v1) (v3 - v1)) (cross3 du dv) := by
    unfold dot; simp
  rw [hdn] at hd'
  have pp := mul_pos (vnorm_pos' hs hN) (vnorm_pos' hs hM)
  have : vnorm sqrt (cross3 (v2 - v1) (v3 - v1)) * vnorm sqrt (cross3 du dv) * (4 - (d * d + d' * d')) = 0 := by linear_combination hd + hd'
  rcases mul_eq_zero.mp this with h | h
  · exact absurd h pp.ne'
  · linarith

/-- C133: when the three points are aligned, the normal of the triangle is the quotient of zero by zero. -/
theorem C133_aligned {sqrt : K → K} (hs : IsSqrt sqrt) {S : K → K → ℕ → ℕ → R (Fin 3 → K)} {p q r : K × K} {v1 v2 v3 : Fin 3 → K}
    (h1 : S p.1 p.2 0 0 = .ok v1) (h2 : S q.1 q.2 0 0 = .ok v2) (h3 : S r.1 r.2 0 0 = .ok v3) (hN : cross3 (v2 - v1) (v3 - v1) = 0) :
    triDeviation sqrt S p q r = .error .divZero := by
  unfold triDeviation
  simp only [h1, h2, h3, R_bind_ok, adimV, hN, vnorm_zero hs, vdiv, if_pos]
  rfl

/-- The plane through `O` with the directions `A` and `B`. -/
def Spec.plane (O A B : Fin 3 → K) (u v : K) : ℕ → ℕ → R (Fin 3 → K)
  | 0, 0 => .ok (O + u • A + v • B)
  | 1, 0 => .ok A
  | 0, 1 => .ok B
  | _, _ => .ok 0

/-- C133: on a plane, on which all triangles lie, the deviation is 0 for those that turn in the positive direction in the parameters, and 2, the greatest there
is, for those that turn in the other one. -/
theorem C133_plane {sqrt : K → K} (hs : IsSqrt sqrt) {O A B : Fin 3 → K} (hAB : cross3 A B ≠ 0) (p q r : K × K) :
    (0 < (q.1 - p.1) * (r.2 - p.2) - (q.2 - p.2) * (r.1 - p.1) → triDeviation sqrt (Spec.plane O A B) p q r = .ok 0) ∧
    ((q.1 - p.1) * (r.2 - p.2) - (q.2 - p.2) * (r.1 - p.1) < 0 → triDeviation sqrt (Spec.plane O A B) p q r = .ok 2) ∧
    ((q.1 - p.1) * (r.2 - p.2) - (q.2 - p.2) * (r.1 - p.1) = 0 → triDeviation sqrt (Spec.plane O A B) p q r = .error .divZero) := by
  set D := (q.1 - p.1) * (r.2 - p.2) - (q.2 - p.2) * (r.1 - p.1) with hD
  have hc : cross3 (O + q.1 • A + q.2 • B - (O + p.1 • A + p.2 • B)) (O + r.1 • A + r.2 • B - (O + p.1 • A + p.2 • B)) = D • cross3 A B := by
    rw [hD]
    funext i
    fin_cases i <;> simp [cross3] <;> ring
  refine ⟨fun h => ?_, fun h => ?_, fun h => C133_aligned hs rfl rfl rfl (by rw [hc, h, zero_smul])⟩
  · obtain ⟨d, e, _, _, _, h0, _⟩ := C133_deviation hs (S := Spec.plane O A B) (p := p) (q := q) (r := r) rfl rfl rfl rfl rfl
      (by rw [hc]; exact smul_ne_zero h.ne' hAB) hAB
    rw [e, h0.mpr ⟨D, h, hc⟩]
  · obtain ⟨d, e, _, _, _, _, h0⟩ := C133_deviation hs (S := Spec.plane O A B) (p := p) (q := q) (r := r) rfl rfl rfl rfl rfl
      (by rw [hc]; exact smul_ne_zero h.ne hAB) hAB
    rw [e, h0.mpr ⟨-D, neg_pos.mpr h, by rw [hc, smul_neg, neg_smul, neg_neg]⟩]

/-- The plane through (1, 2, 3) with the directions (1, 0, 0) and (0, 2, 1), a triangle and the same one the other way round. -/
example : triDeviation Real.sqrt (Spec.plane ![1, 2, 3] ![1, 0, 0] ![0, 2, 1]) (0, 0) (1, 0) (0, 1) = .ok 0 ∧
    triDeviation Real.sqrt (Spec.plane ![1, 2, 3] ![1, 0, 0] ![0, 2, 1]) (0, 0) (0, 1) (1, 0) = .ok 2 := by
  have h : cross3 ![1, 0, 0] ![(0 : ℝ), 2, 1] ≠ 0 := fun h => by
    have := congrFun h 2
    rw [(cross3_apply _ _).2.2] at this
    norm_num at this
  exact ⟨(C133_plane isSqrt_real h _ _ _).1 (by norm_num), (C133_plane isSqrt_real h _ _ _).2.1 (by norm_num)⟩

/-- The saddle `(u, v, u v)`. -/
noncomputable def saddleS (u v : ℝ) : ℕ → ℕ → R (Fin 3 → ℝ)
  | 0, 0 => .ok ![u, v, u * v]
  | 1, 0 => .ok ![1, 0, v]
  | 0, 1 => .ok ![0, 1, u]
  | 1, 1 => .ok ![0, 0, 1]
  | _, _ => .ok 0

/-- A triangle on a saddle, in both orders of its points. -/
example : ∃ d d', triDeviation Real.sqrt saddleS (0, 0) (1, 0) (0, 1) = .ok d ∧ triDeviation Real.sqrt saddleS (0, 0) (0, 1) (1, 0) = .ok d' ∧
    d * d + d' * d' = 4 := by
  refine C133_exchanged isSqrt_real rfl rfl rfl rfl rfl (fun h => ?_) (fun h => ?_)
  · have := congrFun h 2
    rw [(cross3_apply _ _).2.2] at this
    norm_num at this
  · have := congrFun h 2
    rw [(cross3_apply _ _).2.2] at this
    norm_num at this

end Gbs
