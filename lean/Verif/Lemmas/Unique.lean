import Verif.Lemmas.Bezier
import Verif.Lemmas.InsertCurve
import Mathlib.Algebra.Polynomial.Roots

/-! # A spline determines its poles -/

namespace Gbs

set_option linter.unusedSectionVars false

variable {K : Type} [Field K] [LinearOrder K] [IsStrictOrderedRing K]
variable {V : Type} [AddCommGroup V] [Module K V]

open Polynomial in
/-- Vectors that make the Bernstein form vanish on `(0, 1)` are null. -/
theorem bernstein_zero {p : ℕ} {d : ℕ → V}
    (h : ∀ x : K, 0 < x → x < 1 → ∑ i ∈ Finset.range (p + 1), ((p.choose i : K) * (1 - x) ^ (p - i) * x ^ i) • d i = 0) :
    ∀ i, i ≤ p → d i = 0 := by
  intro i hi
  rw [← Module.forall_dual_apply_eq_zero_iff K]
  intro f
  set q : K[X] := ∑ i ∈ Finset.range (p + 1), C ((p.choose i : K) * f (d i)) * X ^ i with hq
  have hroot : ∀ y : K, 0 < y → q.eval y = 0 := by
    intro y hy
    have h1 : (0 : K) < 1 + y := by linarith
    have hx := h (y / (1 + y)) (div_pos hy h1) ((div_lt_one h1).mpr (by linarith))
    have hf := congrArg f hx
    rw [map_sum, map_zero] at hf
    have e : ∀ i ∈ Finset.range (p + 1), f (((p.choose i : K) * (1 - y / (1 + y)) ^ (p - i) * (y / (1 + y)) ^ i) • d i) =
        ((1 + y) ^ p)⁻¹ * ((p.choose i : K) * f (d i) * y ^ i) := by
      intro i hi
      have hip : i ≤ p := by have := Finset.mem_range.mp hi; omega
      have e1 : (1 : K) - y / (1 + y) = (1 + y)⁻¹ := by field_simp; ring
      have e2 : (1 + y) ^ p = (1 + y) ^ (p - i) * (1 + y) ^ i := by rw [← pow_add]; congr 1; omega
      rw [map_smul, smul_eq_mul, e1, e2, div_pow, inv_pow]
      field_simp
    rw [Finset.sum_congr rfl e, ← Finset.mul_sum] at hf
    have h2 : ((1 + y) ^ p)⁻¹ ≠ 0 := inv_ne_zero (pow_ne_zero _ h1.ne')
    have h3 := (mul_eq_zero.mp hf).resolve_left h2
    simp only [hq, eval_finsetSum, eval_mul, eval_C, eval_pow, eval_X]
    exact h3
  have hz : q = 0 := by
    apply Polynomial.eq_zero_of_infinite_isRoot
    apply (Set.Ioi_infinite (0 : K)).mono
    intro y hy
    exact hroot y hy
  have hc : q.coeff i = (p.choose i : K) * f (d i) := by
    simp only [hq, finset_sum_coeff, coeff_C_mul, coeff_X_pow]
    rw [Finset.sum_eq_single i]
    · simp
    · intro b _ hb; rw [if_neg (Ne.symm hb), mul_zero]
    · intro hb; exact absurd (Finset.mem_range.mpr (by omega)) hb
  rw [hz, coeff_zero] at hc
  exact (mul_eq_zero.mp hc.symm).resolve_left (by exact_mod_cast (Nat.choose_pos hi).ne')

/-- Blossoms with the same diagonal on an interval are equal. -/
theorem IsBlossom.eq_of_diag {p : ℕ} {F G : List K → V} (hF : IsBlossom p F) (hG : IsBlossom p G) {a b : K} (h : a < b)
    (hE : ∀ v, a < v → v < b → F (List.replicate p v) = G (List.replicate p v)) :
    ∀ xs : List K, xs.length = p → F xs = G xs := by
  apply hF.eq_of_two hG h
  have := bernstein_zero (K := K) (p := p)
    (d := fun j => F (List.replicate (p - j) a ++ List.replicate j b) - G (List.replicate (p - j) a ++ List.replicate j b)) (by
      intro x hx0 hx1
      have hv1 : a < (1 - x) * a + x * b := by nlinarith
      have hv2 : (1 - x) * a + x * b < b := by nlinarith
      have e := hE _ hv1 hv2
      rw [hF.bernstein a b x, hG.bernstein a b x, ← sub_eq_zero, ← Finset.sum_sub_distrib] at e
      simpa only [smul_sub] using e)
  intro j hj
  exact sub_eq_zero.mp (this j hj)

/-- Equality of the points of two splines of the same degree. -/
def SameVal (p : ℕ) (U : List K) (P : List V) (U' : List K) (P' : List V) : Prop :=
  ∀ v, kf U p ≤ v → v ≤ kf U P.length → ∃ i i', findSpan P.length p v U = .ok i ∧ findSpan P'.length p v U' = .ok i' ∧
    spanDer (kf U) P.length p i (pf P) 0 v = spanDer (kf U') P'.length p i' (pf P') 0 v

theorem SameMap.val {p : ℕ} {U U' : List K} {P P' : List V} (h : SameMap p U P p U' P') : SameVal p U P U' P' := by
  intro v h1 h2
  obtain ⟨i, i', e, e', hd⟩ := h v h1 h2
  exact ⟨i, i', e, e', hd 0⟩

/-- Two splines on the same knots with the same points have the same blossom on every span. -/
theorem SameVal.bl_eq {p : ℕ} {U U' : List K} {P P' : List V} (h : Wf p U P) (h' : Wf p U' P') (hS : SameVal p U P U' P')
    {k k' : ℕ} {a b : K} (hk1 : p ≤ k) (hk2 : k < P.length) (hk1' : p ≤ k') (hk2' : k' < P'.length) (hab : a < b)
    (ha : kf U k ≤ a) (hb : b ≤ kf U (k + 1)) (ha' : kf U' k' ≤ a) (hb' : b ≤ kf U' (k' + 1)) :
    ∀ xs : List K, xs.length = p → bl (kf U) k (pf P) xs = bl (kf U') k' (pf P') xs := by
  have hm := kf_mono h.sorted
  have hm' := kf_mono h'.sorted
  have hlt : kf U k < kf U (k + 1) := lt_of_le_of_lt ha (lt_of_lt_of_le hab hb)
  have hlt' : kf U' k' < kf U' (k' + 1) := lt_of_le_of_lt ha' (lt_of_lt_of_le hab hb')
  apply (bl_isBlossom hm hlt hk1 _).eq_of_diag (bl_isBlossom hm' hlt' hk1' _) hab
  intro v hv1 hv2
  have v1 : kf U p ≤ v := le_trans (le_trans (hm hk1) ha) hv1.le
  have v2 : v < kf U P.length := lt_of_lt_of_le (lt_of_lt_of_le hv2 hb) (hm (by omega))
  have v1' : kf U' p ≤ v := le_trans (le_trans (hm' hk1') ha') hv1.le
  have v2' : v < kf U' P'.length := lt_of_lt_of_le (lt_of_lt_of_le hv2 hb') (hm' (by omega))
  obtain ⟨i, i', e, e', hd⟩ := hS v v1 v2.le
  obtain ⟨i₀, e₀, a1, a2, a3, a4, -⟩ := findSpan_wf h v
  obtain ⟨i₁, e₁, b1, b2, b3, b4, -⟩ := findSpan_wf h' v
  obtain rfl : i = i₀ := by rw [e] at e₀; exact Except.ok.inj e₀
  obtain rfl : i' = i₁ := by rw [e'] at e₁; exact Except.ok.inj e₁
  have s1 := a4 v1 v2.le
  have s2 := b4 v1' v2'.le
  have s1' : Spec.InSpan (kf U) (kf U P.length) k v := by
    unfold Spec.InSpan; rw [if_neg v2.ne]; exact ⟨le_trans ha hv1.le, lt_of_lt_of_le hv2 hb⟩
  have s2' : Spec.InSpan (kf U') (kf U' P'.length) k' v := by
    unfold Spec.InSpan; rw [if_neg v2'.ne]; exact ⟨le_trans ha' hv1.le, lt_of_lt_of_le hv2 hb'⟩
  obtain rfl := InSpan_unique hm s1 s1'
  obtain rfl := InSpan_unique hm' s2 s2'
  have := hd
  simp only [spanDer, Function.iterate_zero, id_eq, Bp_eval] at this
  rw [sum_B_eq_bl _ _ _ _ a2 _ _ a1, sum_B_eq_bl _ _ _ _ b2 _ _ b1] at this
  exact this

/-- A spline determines its poles: on knots with `U i < U (i + p + 1)`, two lists of poles giving the same points are equal. -/
theorem SameVal.poles_eq {p : ℕ} {U : List K} {P P' : List V} (h : Wf p U P) (h' : Wf p U P') (hS : SameVal p U P U P')
    (hm : ∀ i, i < P.length → kf U i < kf U (i + p + 1)) : P = P' := by
  have hl : P.length = P'.length := by have := h.len; have := h'.len; omega
  apply List.ext_getElem? 
  intro i
  rcases Nat.lt_or_ge i P.length with hi | hi
  · rw [pf_getElem? hi, pf_getElem? (by omega)]
    congr 1
    have hmin := h.min
    have hex : ∃ k, i ≤ k ∧ k ≤ i + p ∧ p ≤ k ∧ k < P.length ∧ kf U k < kf U (k + 1) := by
      rcases Nat.lt_or_ge i (p + 1) with c1 | c1
      · exact ⟨p, by omega, by omega, le_rfl, by omega, h.first⟩
      · rcases Nat.lt_or_ge (i + p) (P.length - 1) with c2 | c2
        · by_contra hc
          push Not at hc
          have : ∀ j, j ≤ p + 1 → kf U (i + j) ≤ kf U i := by
            intro j
            induction j with
            | zero => intro _; exact le_rfl
            | succ j ih =>
              intro hj
              exact le_trans (hc (i + j) (by omega) (by omega) (by omega) (by omega)) (ih (by omega))
          have := this (p + 1) le_rfl
          rw [← add_assoc] at this
          exact absurd (hm i hi) (not_lt.mpr this)
        · refine ⟨P.length - 1, by omega, by omega, by omega, by omega, ?_⟩
          rw [show P.length - 1 + 1 = P.length by omega]
          exact h.last
    obtain ⟨k, k1, k2, k3, k4, k5⟩ := hex
    have e := hS.bl_eq h h' k3 k4 k3 (by omega) k5 le_rfl le_rfl le_rfl le_rfl (seg (kf U) (i + 1) p) (by simp)
    rwa [bl_dual (kf_mono h.sorted) k5 p _ i k3 (by omega) k1, bl_dual (kf_mono h.sorted) k5 p _ i k3 (by omega) k1] at e
  · rw [List.getElem?_eq_none hi, List.getElem?_eq_none (by omega)]

theorem SameMap.bl_eq {p : ℕ} {U U' : List K} {P P' : List V} (h : Wf p U P) (h' : Wf p U' P') (hS : SameMap p U P p U' P')
    {k k' : ℕ} {a b : K} (hk1 : p ≤ k) (hk2 : k < P.length) (hk1' : p ≤ k') (hk2' : k' < P'.length) (hab : a < b)
    (ha : kf U k ≤ a) (hb : b ≤ kf U (k + 1)) (ha' : kf U' k' ≤ a) (hb' : b ≤ kf U' (k' + 1)) :
    ∀ xs : List K, xs.length = p → bl (kf U) k (pf P) xs = bl (kf U') k' (pf P') xs :=
  hS.val.bl_eq h h' hk1 hk2 hk1' hk2' hab ha hb ha' hb'

theorem SameMap.poles_eq {p : ℕ} {U : List K} {P P' : List V} (h : Wf p U P) (h' : Wf p U P') (hS : SameMap p U P p U P')
    (hm : ∀ i, i < P.length → kf U i < kf U (i + p + 1)) : P = P' := hS.val.poles_eq h h' hm

end Gbs
