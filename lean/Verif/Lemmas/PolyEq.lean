import Verif.Lemmas.Eval
import Mathlib.LinearAlgebra.Dual.Lemmas
import Mathlib.Algebra.Polynomial.Roots
import Mathlib.Algebra.CharZero.Infinite
import Mathlib.Order.Interval.Set.Infinite
import Mathlib.Algebra.Order.Field.Basic

/-! # Vector polynomials that agree have the same derivatives -/

namespace Gbs

set_option linter.unusedSectionVars false

open Polynomial

variable {K : Type} [Field K] [LinearOrder K] [IsStrictOrderedRing K]
variable {V : Type} [AddCommGroup V] [Module K V]

theorem sum_derivative_congr {n n' : ℕ} {P P' : ℕ → V} {q q' : ℕ → K[X]}
    (h : ∀ v, ∑ j ∈ Finset.range n, (q j).eval v • P j = ∑ j ∈ Finset.range n', (q' j).eval v • P' j)
    (d : ℕ) (v : K) :
    ∑ j ∈ Finset.range n, (derivative^[d] (q j)).eval v • P j =
      ∑ j ∈ Finset.range n', (derivative^[d] (q' j)).eval v • P' j := by
  rw [← sub_eq_zero, ← Module.forall_dual_apply_eq_zero_iff K]
  intro f
  have hp : ∑ j ∈ Finset.range n, C (f (P j)) * q j = ∑ j ∈ Finset.range n', C (f (P' j)) * q' j := by
    apply Polynomial.funext
    intro v
    have := congrArg f (h v)
    simp only [map_sum, map_smul, smul_eq_mul] at this
    simp only [eval_finsetSum, eval_mul, eval_C]
    rw [Finset.sum_congr rfl fun j _ => mul_comm (f (P j)) _, this]
    exact Finset.sum_congr rfl fun j _ => mul_comm _ _
  have := congrArg (fun r => (derivative^[d] r).eval v) hp
  simp only [iterate_derivative_sum, iterate_derivative_C_mul, eval_finsetSum, eval_mul, eval_C] at this
  rw [map_sub, map_sum, map_sum, sub_eq_zero]
  simp only [map_smul, smul_eq_mul]
  rw [Finset.sum_congr rfl fun j _ => mul_comm _ (f (P j)), this]
  exact Finset.sum_congr rfl fun j _ => mul_comm _ _

/-- The same from infinitely many points. -/
theorem sum_derivative_congr_inf {n n' : ℕ} {P P' : ℕ → V} {q q' : ℕ → K[X]} {S : Set K} (hS : S.Infinite)
    (h : ∀ v ∈ S, ∑ j ∈ Finset.range n, (q j).eval v • P j = ∑ j ∈ Finset.range n', (q' j).eval v • P' j)
    (d : ℕ) (v : K) :
    ∑ j ∈ Finset.range n, (derivative^[d] (q j)).eval v • P j =
      ∑ j ∈ Finset.range n', (derivative^[d] (q' j)).eval v • P' j := by
  apply sum_derivative_congr
  intro v
  rw [← sub_eq_zero, ← Module.forall_dual_apply_eq_zero_iff K]
  intro f
  have hp : ∑ j ∈ Finset.range n, C (f (P j)) * q j = ∑ j ∈ Finset.range n', C (f (P' j)) * q' j := by
    apply Polynomial.eq_of_infinite_eval_eq
    apply hS.mono
    intro v hv
    have := congrArg f (h v hv)
    simp only [map_sum, map_smul, smul_eq_mul] at this
    simp only [Set.mem_setOf_eq, eval_finsetSum, eval_mul, eval_C]
    rw [Finset.sum_congr rfl fun j _ => mul_comm (f (P j)) _, this]
    exact Finset.sum_congr rfl fun j _ => mul_comm _ _
  have := congrArg (fun r => r.eval v) hp
  simp only [eval_finsetSum, eval_mul, eval_C] at this
  rw [map_sub, map_sum, map_sum, sub_eq_zero]
  simp only [map_smul, smul_eq_mul]
  rw [Finset.sum_congr rfl fun j _ => mul_comm _ (f (P j)), this]
  exact Finset.sum_congr rfl fun j _ => mul_comm _ _

/-- Spans with the same values on an interval have the same derivatives everywhere. -/
theorem spanDer_congr_Ioo {t t' : ℕ → K} {n n' p p' k k' : ℕ} {c c' : ℕ → V} {a b : K} (hab : a < b)
    (h : ∀ v, a < v → v < b → spanDer t n p k c 0 v = spanDer t' n' p' k' c' 0 v) (d : ℕ) (v : K) :
    spanDer t n p k c d v = spanDer t' n' p' k' c' d v := by
  unfold spanDer
  exact sum_derivative_congr_inf (Set.Ioo_infinite hab) (fun v hv => h v hv.1 hv.2) d v

/-- Spans with the same blossom on the diagonal have the same derivatives. -/
theorem spanDer_congr_bl {t t' : ℕ → K} {n n' p k k' : ℕ} {c c' : ℕ → V}
    (hk : p ≤ k) (hn : k < n) (hk' : p ≤ k') (hn' : k' < n')
    (h : ∀ v, bl t k c (List.replicate p v) = bl t' k' c' (List.replicate p v)) (d : ℕ) (v : K) :
    spanDer t n p k c d v = spanDer t' n' p k' c' d v := by
  unfold spanDer
  apply sum_derivative_congr
  intro v
  have h1 := sum_B_eq_bl t k n v hn p c hk
  have h2 := sum_B_eq_bl t' k' n' v hn' p c' hk'
  simp only [Bp_eval]
  rw [h1, h2, h v]

end Gbs
