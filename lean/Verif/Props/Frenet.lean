import Verif.Model.Frenet
import Verif.Props.RollingBall
import Verif.Props.WrappedReal
import Verif.Lemmas.Tfi
import Verif.Lemmas.Reparam

/-!
# C111: derivatives along the lines of a surface, tangent and normal lines of a curve
-/

set_option linter.unusedSectionVars false

namespace Gbs

/-- The line of a surface at a constant second parameter. -/
def Spec.lineU {K V : Type} (s : ASurface K V) (v : K) : ACurve K V := ⟨s.u0, s.u1, fun u d => s.value u v d 0⟩

/-- The line of a surface at a constant first parameter. -/
def Spec.lineV {K V : Type} (s : ASurface K V) (u : K) : ACurve K V := ⟨s.v0, s.v1, fun v d => s.value u v 0 d⟩

section field

variable {K : Type} [Field K] [LinearOrder K] {n : ℕ}

theorem dDmu_line (sqrt : K → K) (s : ASurface K (Fin n → K)) (u v : K) : s.dDmu sqrt u v = (Spec.lineU s v).dDm sqrt u := rfl

theorem dDmv_line (sqrt : K → K) (s : ASurface K (Fin n → K)) (u v : K) : s.dDmv sqrt u v = (Spec.lineV s u).dDm sqrt v := rfl

theorem dDmu2_line (s : ASurface K (Fin n → K)) (u v : K) : s.dDmu2 u v = (Spec.lineU s v).dDm2 u := by
  unfold ASurface.dDmu2 ACurve.dDm2 ASurface.derivatives Spec.lineU
  simp only [List.range_succ, List.range_zero, List.nil_append, List.cons_append, List.mapM_cons, List.mapM_nil, bind_assoc, pure_bind, List.flatten_cons,
    List.flatten_nil, List.append_nil]
  rfl

theorem dDmv2_line (s : ASurface K (Fin n → K)) (u v : K) : s.dDmv2 u v = (Spec.lineV s u).dDm2 v := by
  unfold ASurface.dDmv2 ACurve.dDm2 ASurface.derivatives Spec.lineV
  simp only [List.range_succ, List.range_zero, List.nil_append, List.cons_append, List.mapM_cons, List.mapM_nil, bind_assoc, pure_bind, List.flatten_cons,
    List.flatten_nil, List.append_nil]
  rfl

theorem flatten_rows {V : Type} (f : ℕ → ℕ → V) (n : ℕ) : ∀ m, (((List.range m).map fun a => (List.range n).map (f a)).flatten).length = m * n ∧
    ∀ a b, a < m → b < n → (((List.range m).map fun a => (List.range n).map (f a)).flatten)[a * n + b]? = some (f a b)
  | 0 => ⟨by simp, fun a b h => absurd h (Nat.not_lt_zero a)⟩
  | m + 1 => by
    obtain ⟨h1, h2⟩ := flatten_rows f n m
    rw [List.range_succ, List.map_append, List.flatten_append]
    refine ⟨by rw [List.length_append, h1]; simp [Nat.succ_mul], fun a b ha hb => ?_⟩
    rcases Nat.lt_succ_iff_lt_or_eq.mp ha with h | rfl
    · have : a * n + b < m * n := by
        calc a * n + b < a * n + n := by omega
          _ = (a + 1) * n := by ring
          _ ≤ m * n := Nat.mul_le_mul_right n h
      rw [List.getElem?_append_left (by rw [h1]; exact this)]
      exact h2 a b h hb
    · rw [List.getElem?_append_right (by rw [h1]; omega), h1]
      simp [hb]

/-- **C111** The derivatives up to the orders asked for are one after the other, those of the second parameter first. -/
theorem C111_derivatives {V : Type} (s : ASurface K V) (u v : K) (nu nv : ℕ) (D : ℕ → ℕ → V)
    (h : ∀ a b, a ≤ nu → b ≤ nv → s.value u v a b = .ok (D a b)) :
    ∃ l, s.derivatives u v nu nv = .ok l ∧ l.length = (nu + 1) * (nv + 1) ∧ ∀ a b, a ≤ nu → b ≤ nv → l[a * (nv + 1) + b]? = some (D a b) := by
  obtain ⟨h1, h2⟩ := flatten_rows D (nv + 1) (nu + 1)
  refine ⟨_, ?_, h1, fun a b ha hb => h2 a b (by omega) (by omega)⟩
  unfold ASurface.derivatives
  rw [mapM_ok (g := fun a => (List.range (nv + 1)).map (D a)) _ fun a ha => ?_]
  · rfl
  · exact mapM_ok _ fun b hb => h a b (by have := List.mem_range.mp ha; omega) (by have := List.mem_range.mp hb; omega)

/-- **C111** The lists hold at each place what the functions give for the parameters of this place. -/
theorem C111_lists (sqrt : K → K) (s : ASurface K (Fin n → K)) (uv : List (K × K)) (l : List (Fin n → K)) :
    (s.dDmus sqrt uv = .ok l ↔ l.length = uv.length ∧ ∀ (i : ℕ) (u v : K), uv[i]? = some (u, v) → ∃ x, l[i]? = some x ∧ s.dDmu sqrt u v = .ok x) ∧
    (s.dDmvs sqrt uv = .ok l ↔ l.length = uv.length ∧ ∀ (i : ℕ) (u v : K), uv[i]? = some (u, v) → ∃ x, l[i]? = some x ∧ s.dDmv sqrt u v = .ok x) ∧
    (s.dDmu2s uv = .ok l ↔ l.length = uv.length ∧ ∀ (i : ℕ) (u v : K), uv[i]? = some (u, v) → ∃ x, l[i]? = some x ∧ s.dDmu2 u v = .ok x) ∧
    (s.dDmv2s uv = .ok l ↔ l.length = uv.length ∧ ∀ (i : ℕ) (u v : K), uv[i]? = some (u, v) → ∃ x, l[i]? = some x ∧ s.dDmv2 u v = .ok x) := by
  have key : ∀ (f : K → K → R (Fin n → K)) (uv : List (K × K)) (l : List (Fin n → K)),
      (uv.mapM fun p => f p.1 p.2) = .ok l ↔ l.length = uv.length ∧ ∀ (i : ℕ) (u v : K), uv[i]? = some (u, v) → ∃ x, l[i]? = some x ∧ f u v = .ok x := by
    intro f uv
    induction uv with
    | nil =>
      intro l
      rw [List.mapM_nil]
      constructor
      · intro h
        cases h
        exact ⟨rfl, fun i u v h => by simp at h⟩
      · rintro ⟨h, -⟩
        rw [List.length_eq_zero_iff.mp h]
        rfl
    | cons p t ih =>
      intro l
      rw [List.mapM_cons]
      constructor
      · intro h
        obtain ⟨x, hx, h⟩ := R_bind_eq_ok.mp h
        obtain ⟨r, hr, h⟩ := R_bind_eq_ok.mp h
        cases h
        obtain ⟨h1, h2⟩ := (ih r).mp hr
        refine ⟨by simp [h1], fun i u v hi => ?_⟩
        cases i with
        | zero =>
          obtain rfl : p = (u, v) := by simpa using hi
          exact ⟨x, rfl, hx⟩
        | succ i => exact h2 i u v (by simpa using hi)
      · rintro ⟨h1, h2⟩
        cases l with
        | nil => simp at h1
        | cons x r =>
          obtain ⟨y, hy, hf⟩ := h2 0 p.1 p.2 rfl
          obtain rfl : x = y := by simpa using hy
          have hr := (ih r).mpr ⟨by simpa using h1, fun i u v hi => h2 (i + 1) u v (by simpa using hi)⟩
          rw [hf, R_bind_ok, hr, R_bind_ok]
          rfl
  exact ⟨key _ _ _, key _ _ _, key _ _ _, key _ _ _⟩

end field

/-- **C111** Along the lines of a surface: the first derivatives are the unit tangents of the lines, the second ones their derivatives with respect to the length
of the lines. Where the line stops it is a division by zero. -/
theorem C111_line_u {n : ℕ} (s : ASurface ℝ (Fin n → ℝ)) (f1 : ℝ → Fin n → ℝ) (x x2 : Fin n → ℝ) {u v : ℝ} (h0 : s.value u v 0 0 = .ok x)
    (h1 : ∀ u, s.value u v 1 0 = .ok (f1 u)) (h2 : s.value u v 2 0 = .ok x2) (hd : HasDerivAt f1 x2 u) :
    (f1 u ≠ 0 → ∃ t k, s.dDmu Real.sqrt u v = .ok t ∧ s.dDmu2 u v = .ok k ∧ sqNorm t = 1 ∧ f1 u = Real.sqrt (sqNorm (f1 u)) • t ∧
      ∃ T : ℝ → Fin n → ℝ, (∀ w, f1 w ≠ 0 → s.dDmu Real.sqrt w v = .ok (T w)) ∧ HasDerivAt T (Real.sqrt (sqNorm (f1 u)) • k) u) ∧
    (f1 u = 0 → s.dDmu Real.sqrt u v = .error .divZero ∧ s.dDmu2 u v = .error .divZero) := by
  simp only [dDmu_line, dDmu2_line]
  exact C62_curvilinear (Spec.lineU s v) f1 x x2 h0 h1 h2 hd

/-- **C111** The same along the lines of the other parameter. -/
theorem C111_line_v {n : ℕ} (s : ASurface ℝ (Fin n → ℝ)) (f1 : ℝ → Fin n → ℝ) (x x2 : Fin n → ℝ) {u v : ℝ} (h0 : s.value u v 0 0 = .ok x)
    (h1 : ∀ v, s.value u v 0 1 = .ok (f1 v)) (h2 : s.value u v 0 2 = .ok x2) (hd : HasDerivAt f1 x2 v) :
    (f1 v ≠ 0 → ∃ t k, s.dDmv Real.sqrt u v = .ok t ∧ s.dDmv2 u v = .ok k ∧ sqNorm t = 1 ∧ f1 v = Real.sqrt (sqNorm (f1 v)) • t ∧
      ∃ T : ℝ → Fin n → ℝ, (∀ w, f1 w ≠ 0 → s.dDmv Real.sqrt u w = .ok (T w)) ∧ HasDerivAt T (Real.sqrt (sqNorm (f1 v)) • k) v) ∧
    (f1 v = 0 → s.dDmv Real.sqrt u v = .error .divZero ∧ s.dDmv2 u v = .error .divZero) := by
  simp only [dDmv_line, dDmv2_line]
  exact C62_curvilinear (Spec.lineV s u) f1 x x2 h0 h1 h2 hd

section lines

variable {K : Type} [Field K] [LinearOrder K] [IsStrictOrderedRing K] {n : ℕ} {sqrt : K → K}

/-- **C111** The tangent line starts at the point of the curve, with a unit vector along the derivative. -/
theorem C111_tangent_line (hs : IsSqrt sqrt) {c : ACurve K (Fin n → K)} {u : K} {P T : Fin n → K} (h0 : c.value u 0 = .ok P) (h1 : c.value u 1 = .ok T) :
    (T ≠ 0 → ∃ (t : Fin n → K) (l : K), tangentialLine sqrt c u = .ok (P, t) ∧ 0 < l ∧ T = l • t ∧ ∑ i, t i ^ 2 = 1) ∧
    (T = 0 → tangentialLine sqrt c u = .error .divZero) := by
  constructor
  · intro hT
    have hn := vnorm_ne_zero hs hT
    have hp : 0 < vnorm sqrt T := lt_of_le_of_ne (hs _ (sqNorm_nonneg T)).1 (Ne.symm hn)
    refine ⟨(vnorm sqrt T)⁻¹ • T, vnorm sqrt T, ?_, hp, ?_, ?_⟩
    · rw [tangentialLine, h0, R_bind_ok, tangentialDirection, h1, R_bind_ok, vdiv, if_neg hn]
      rfl
    · rw [smul_smul, mul_inv_cancel₀ hn, one_smul]
    · have : ∑ i, ((vnorm sqrt T)⁻¹ • T) i ^ 2 = ((vnorm sqrt T)⁻¹) ^ 2 * sqNorm T := by
        rw [sqNorm, Finset.mul_sum]
        exact Finset.sum_congr rfl fun i _ => by simp only [Pi.smul_apply, smul_eq_mul]; ring
      rw [this, ← vnorm_mul_self hs T]
      field_simp
  · rintro rfl
    rw [tangentialLine, h0, R_bind_ok, tangentialDirection, h1, R_bind_ok, vdiv, if_pos (vnorm_zero hs)]
    rfl

/-- **C111** The normal line of a curve of space starts at the point of the curve; its direction is a unit vector, normal to the curve, opposite to the second
derivative with respect to the length, which is the curvature times it: it points away from the centre of curvature. Where the curve is straight it is a division
by zero. -/
theorem C111_normal_line (hs : IsSqrt sqrt) {c : ACurve K (Fin 3 → K)} {u : K} {P T A : Fin 3 → K} (h0 : c.value u 0 = .ok P) (h1 : c.value u 1 = .ok T)
    (h2 : c.value u 2 = .ok A) :
    (cross3 T A ≠ 0 → ∃ (d a : Fin 3 → K) (k : K), normalLine3 sqrt c u = .ok (P, d) ∧ ∑ i, d i ^ 2 = 1 ∧ ∑ i, d i * T i = 0 ∧ c.dDm2 u = .ok a ∧ 0 < k ∧ a = -(k • d) ∧
      ∑ i, d i * A i < 0) ∧
    (cross3 T A = 0 → normalLine3 sqrt c u = .error .divZero) := by
  constructor
  · intro hw
    have hT : T ≠ 0 := by
      rintro rfl
      apply hw
      funext i
      fin_cases i <;> simp [cross3]
    have hwn := vnorm_ne_zero hs hw
    have hTn := vnorm_ne_zero hs hT
    have hwp : 0 < vnorm sqrt (cross3 T A) := lt_of_le_of_ne (hs _ (sqNorm_nonneg _)).1 (Ne.symm hwn)
    have hTp : 0 < vnorm sqrt T := lt_of_le_of_ne (hs _ (sqNorm_nonneg _)).1 (Ne.symm hTn)
    have q1 := vnorm_mul_self hs (cross3 T A)
    have q2 := vnorm_mul_self hs T
    set w := vnorm sqrt (cross3 T A) with hwdef
    set t := vnorm sqrt T with htdef
    have hN : sqNorm T ≠ 0 := fun h => hT (sqNorm_eq_zero.mp h)
    have e1 : normalLine3 sqrt c u = .ok (P, t⁻¹ • cross3 T (w⁻¹ • cross3 T A)) := by
      rw [normalLine3, h0, R_bind_ok, normalDirection3, h1, R_bind_ok, h2, R_bind_ok]
      dsimp only
      rw [← hwdef, ← htdef, vdiv, if_neg hwn, R_bind_ok, vdiv, if_neg hTn]
      rfl
    have e2 : c.dDm2 u = .ok ((sqNorm T * sqNorm T)⁻¹ • (sqNorm T • A - dotV T A • T)) := by
      rw [ACurve.dDm2, h0, R_bind_ok, h1, R_bind_ok, h2, R_bind_ok]
      dsimp only
      rw [vdiv, if_neg (mul_ne_zero hN hN)]
    have hww : w * w = (T 1 * A 2 - T 2 * A 1) ^ 2 + (T 2 * A 0 - T 0 * A 2) ^ 2 + (T 0 * A 1 - T 1 * A 0) ^ 2 := by
      rw [q1]
      simp only [sqNorm, cross3, Fin.sum_univ_three, Matrix.cons_val_zero, Matrix.cons_val_one, Matrix.cons_val_two, Matrix.head_cons, Matrix.tail_cons]
      ring
    have htt : t * t = T 0 ^ 2 + T 1 ^ 2 + T 2 ^ 2 := by
      rw [q2]
      simp only [sqNorm, Fin.sum_univ_three]
      ring
    have hd : ∀ i, (t⁻¹ • cross3 T (w⁻¹ • cross3 T A)) i = t⁻¹ * w⁻¹ * ((T 0 * A 0 + T 1 * A 1 + T 2 * A 2) * T i - (t * t) * A i) := by
      intro i
      rw [htt]
      fin_cases i <;> simp [cross3] <;> ring
    have hdA : ∑ i, (t⁻¹ • cross3 T (w⁻¹ • cross3 T A)) i * A i = -(t⁻¹ * w) := by
      have : ∑ i, (t⁻¹ • cross3 T (w⁻¹ • cross3 T A)) i * A i = t⁻¹ * w⁻¹ * -(w * w) := by
        simp only [hd, Fin.sum_univ_three]
        rw [hww, htt]
        ring
      rw [this]
      field_simp
    refine ⟨_, _, w / (t * t * t), e1, ?_, ?_, e2, by positivity, ?_, ?_⟩
    · have : ∑ i, (t⁻¹ • cross3 T (w⁻¹ • cross3 T A)) i ^ 2 = (t⁻¹ * w⁻¹) ^ 2 * ((t * t) * (w * w)) := by
        simp only [hd, Fin.sum_univ_three]
        rw [hww, htt]
        ring
      rw [this]
      field_simp
    · simp only [hd, Fin.sum_univ_three]
      rw [htt]
      ring
    · funext i
      change _ = -(w / (t * t * t) * (t⁻¹ • cross3 T (w⁻¹ • cross3 T A)) i)
      rw [hd i, ← q2]
      have : dotV T A = T 0 * A 0 + T 1 * A 1 + T 2 * A 2 := by simp only [dotV, Fin.sum_univ_three]
      simp only [Pi.smul_apply, Pi.sub_apply, smul_eq_mul, this]
      field_simp
      ring
    · rw [hdA]
      exact neg_lt_zero.mpr (mul_pos (inv_pos.mpr hTp) hwp)
  · intro h
    rw [normalLine3, h0, R_bind_ok, normalDirection3, h1, R_bind_ok, h2, R_bind_ok]
    dsimp only
    rw [h, vnorm_zero hs, vdiv, if_pos rfl]
    rfl

/-- **C111** The normals of the plane and of space are not the same: for a curve of the plane that turns left, the normal of the plane is the one towards the centre
of curvature, and that of space the opposite; when it turns right both point away from the centre. -/
theorem C111_two_normals (hs : IsSqrt sqrt) {c : ACurve K (Fin 2 → K)} {c' : ACurve K (Fin 3 → K)} {u : K} {P T A : Fin 2 → K} (h0 : c.value u 0 = .ok P)
    (h1 : c.value u 1 = .ok T) (g0 : c'.value u 0 = .ok ![P 0, P 1, 0]) (g1 : c'.value u 1 = .ok ![T 0, T 1, 0])
    (g2 : c'.value u 2 = .ok ![A 0, A 1, 0]) {d : Fin 2 → K} {d' : Fin 3 → K} (hd : normalLine2 sqrt c u = .ok (P, d))
    (hd' : normalLine3 sqrt c' u = .ok (![P 0, P 1, 0], d')) :
    (0 < T 0 * A 1 - T 1 * A 0 → d' = -![d 0, d 1, 0]) ∧ (T 0 * A 1 - T 1 * A 0 < 0 → d' = ![d 0, d 1, 0]) := by
  have hT : T ≠ 0 := by
    rintro rfl
    rw [normalLine2, h0, R_bind_ok, h1, R_bind_ok] at hd
    obtain ⟨N, hN, -⟩ := R_bind_eq_ok.mp hd
    refine (vdiv_eq_ok hN).1 ?_
    have : (![-(0 : Fin 2 → K) 1, (0 : Fin 2 → K) 0] : Fin 2 → K) = 0 := by
      funext i
      fin_cases i <;> simp
    rw [this, vnorm_zero hs]
  rw [normalLine2_spec hs h0 h1 hT] at hd
  obtain rfl : (vnorm sqrt T)⁻¹ • ![-T 1, T 0] = d := (Prod.mk.inj (Except.ok.inj hd)).2
  have hc : cross3 ![T 0, T 1, 0] ![A 0, A 1, 0] = ![0, 0, T 0 * A 1 - T 1 * A 0] := by
    funext i
    fin_cases i <;> simp [cross3]
  have hn3 : vnorm sqrt ![T 0, T 1, 0] = vnorm sqrt T := by
    unfold vnorm sqNorm
    simp [Fin.sum_univ_three, Fin.sum_univ_two]
  have hw : vnorm sqrt ![0, 0, T 0 * A 1 - T 1 * A 0] = |T 0 * A 1 - T 1 * A 0| := by
    rw [← hs.mul_self _ (abs_nonneg (T 0 * A 1 - T 1 * A 0)), abs_mul_abs_self]
    unfold vnorm sqNorm
    simp [Fin.sum_univ_three]
  have main : T 0 * A 1 - T 1 * A 0 ≠ 0 → d' = (vnorm sqrt T)⁻¹ • cross3 ![T 0, T 1, 0] (|T 0 * A 1 - T 1 * A 0|⁻¹ • ![0, 0, T 0 * A 1 - T 1 * A 0]) := by
    intro hD
    rw [normalLine3, g0, R_bind_ok, normalDirection3, g1, R_bind_ok, g2, R_bind_ok] at hd'
    dsimp only at hd'
    rw [hc, hw, hn3, vdiv, if_neg (abs_ne_zero.mpr hD), R_bind_ok, vdiv, if_neg (vnorm_ne_zero hs hT), R_bind_ok] at hd'
    exact (Prod.mk.inj (Except.ok.inj hd')).2.symm
  constructor
  · intro h
    have e : (T 0 * A 1 - T 1 * A 0)⁻¹ • ![0, 0, T 0 * A 1 - T 1 * A 0] = ![0, 0, 1] := by
      funext i
      fin_cases i <;> simp [inv_mul_cancel₀ h.ne']
    rw [main h.ne', abs_of_pos h, e]
    funext i
    fin_cases i <;> simp [cross3]
  · intro h
    have e : (-(T 0 * A 1 - T 1 * A 0))⁻¹ • ![0, 0, T 0 * A 1 - T 1 * A 0] = ![0, 0, -1] := by
      funext i
      rw [inv_neg, neg_smul]
      fin_cases i <;> simp [inv_mul_cancel₀ h.ne]
    rw [main h.ne, abs_of_neg h, e]
    funext i
    fin_cases i <;> simp [cross3]

end lines

/-- The parabola `(t, t², 0)`, with its derivatives. -/
def Spec.parab : ACurve ℝ (Fin 3 → ℝ) := ⟨0, 1, fun t d => pure (if d = 0 then ![t, t ^ 2, 0] else if d = 1 then ![1, 2 * t, 0] else if d = 2 then ![0, 2, 0] else 0)⟩

/-- The hypotheses of `C111_normal_line`: the normal of the parabola at its summit is downwards. -/
example : cross3 (![1, 0, 0] : Fin 3 → ℝ) ![0, 2, 0] ≠ 0 ∧ ∃ d : Fin 3 → ℝ, normalLine3 Real.sqrt Spec.parab 0 = .ok (![0, 0, 0], d) ∧ d 1 < 0 := by
  have hw : cross3 (![1, 0, 0] : Fin 3 → ℝ) ![0, 2, 0] ≠ 0 := fun h => by
    have := congrFun h 2
    simp [cross3] at this
  refine ⟨hw, ?_⟩
  obtain ⟨d, a, k, e1, -, -, -, -, -, e2⟩ := (C111_normal_line isSqrt_real (c := Spec.parab) (u := 0) (P := ![0, 0, 0]) (T := ![1, 0, 0]) (A := ![0, 2, 0])
    (by simp [Spec.parab, R_pure]) (by simp [Spec.parab, R_pure]) (by simp [Spec.parab, R_pure])).1 hw
  refine ⟨d, e1, ?_⟩
  simp [Fin.sum_univ_three] at e2
  linarith

/-- The cylinder over the parabola, `(u, u², v)`, with the derivatives that are needed. -/
def Spec.cylinder : ASurface ℝ (Fin 3 → ℝ) :=
  ⟨0, 1, 0, 1, fun u v a b => pure (if a = 0 ∧ b = 0 then ![u, u ^ 2, v] else if a = 1 ∧ b = 0 then ![1, 2 * u, 0] else if a = 2 ∧ b = 0 then ![0, 2, 0]
    else if a = 0 ∧ b = 1 then ![0, 0, 1] else 0)⟩

/-- The hypotheses of `C111_line_u`. -/
example : ∃ k : Fin 3 → ℝ, Spec.cylinder.dDmu2 0 0 = .ok k := by
  have hd : HasDerivAt (fun u : ℝ => (![1, 2 * u, 0] : Fin 3 → ℝ)) ![0, 2, 0] 0 := by
    rw [hasDerivAt_pi]
    intro i
    fin_cases i
    · exact hasDerivAt_const _ _
    · simpa using (hasDerivAt_id (0 : ℝ)).const_mul 2
    · exact hasDerivAt_const _ _
  obtain ⟨t, k, -, h, -⟩ := (C111_line_u Spec.cylinder (fun u => ![1, 2 * u, 0]) ![0, 0, 0] ![0, 2, 0] (u := 0) (v := 0) (by simp [Spec.cylinder, R_pure])
    (fun u => by simp [Spec.cylinder, R_pure]) (by simp [Spec.cylinder, R_pure]) hd).1 (fun h => by simpa using congrFun h 0)
  exact ⟨k, h⟩

/-- The hypotheses of `C111_line_v`: the straight lines of the cylinder. -/
example : ∃ k : Fin 3 → ℝ, Spec.cylinder.dDmv2 1 0 = .ok k := by
  obtain ⟨t, k, -, h, -⟩ := (C111_line_v Spec.cylinder (fun _ => ![0, 0, 1]) ![1, 1, 0] 0 (u := 1) (v := 0) (by simp [Spec.cylinder, R_pure])
    (fun u => by simp [Spec.cylinder, R_pure]) (by simp [Spec.cylinder, R_pure]) (hasDerivAt_const _ _)).1 (fun h => by simpa using congrFun h 2)
  exact ⟨k, h⟩

/-- The hypotheses of `C111_tangent_line` and of `C111_two_normals`: the same parabola in the plane and in space. -/
example : ∃ (c : ACurve ℝ (Fin 2 → ℝ)) (d : Fin 2 → ℝ) (d' t : Fin 3 → ℝ), normalLine2 Real.sqrt c 0 = .ok (![0, 0], d) ∧
    normalLine3 Real.sqrt Spec.parab 0 = .ok (![0, 0, 0], d') ∧ tangentialLine Real.sqrt Spec.parab 0 = .ok (![0, 0, 0], t) ∧ d' = -![d 0, d 1, 0] := by
  have hP : Spec.parab.value 0 0 = .ok ![0, 0, 0] := by simp [Spec.parab, R_pure]
  have hT : Spec.parab.value 0 1 = .ok ![1, 0, 0] := by simp [Spec.parab, R_pure]
  have hA : Spec.parab.value 0 2 = .ok ![0, 2, 0] := by simp [Spec.parab, R_pure]
  obtain ⟨d', a, k, e1, -⟩ := (C111_normal_line isSqrt_real hP hT hA).1 (fun h => by
    have := congrFun h 2
    simp [cross3] at this)
  obtain ⟨t, l, e2, -⟩ := (C111_tangent_line isSqrt_real hP hT).1 (fun h => by simpa using congrFun h 0)
  have e3 := normalLine2_spec isSqrt_real (c := ⟨0, 1, fun t d => pure (if d = 0 then ![t, t ^ 2] else ![1, 2 * t])⟩) (u := 0) (P := ![0, 0]) (T := ![1, 0])
    (by simp [R_pure]) (by simp [R_pure]) (fun h => by simpa using congrFun h 0)
  refine ⟨_, _, d', t, e3, e1, e2, ?_⟩
  exact (C111_two_normals isSqrt_real (T := ![1, 0]) (A := ![0, 2]) (by simp [R_pure]) (by simp [R_pure]) (by simpa using hP) (by simpa using hT) (by simpa using hA) e3
    (by simpa using e1)).1 (by norm_num)

end Gbs
