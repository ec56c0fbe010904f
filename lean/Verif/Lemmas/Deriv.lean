import Verif.Lemmas.LocalBasis
import Mathlib.Algebra.Polynomial.Derivative
import Mathlib.Data.Nat.Factorial.Basic
import Mathlib.Tactic.LinearCombination

/-! # Derivatives of the span polynomials -/

namespace Gbs

set_option linter.unusedSectionVars false

open Polynomial

variable {K : Type*} [Field K] [LinearOrder K] [IsStrictOrderedRing K]

/-- The polynomial of `N_{i,p}` on the span `k`. -/
noncomputable def Bp (t : ℕ → K) (k : ℕ) : ℕ → ℕ → K[X]
  | 0, i => if i = k then 1 else 0
  | p + 1, i =>
      C ((t (i + p + 1) - t i)⁻¹) * (X - C (t i)) * Bp t k p i +
      C ((t (i + p + 2) - t (i + 1))⁻¹) * (C (t (i + p + 2)) - X) * Bp t k p (i + 1)

theorem Bp_eval (t : ℕ → K) (k p : ℕ) (u : K) : ∀ i, (Bp t k p i).eval u = B t k p i u := by
  induction p with
  | zero => intro i; simp only [Bp, B]; split <;> simp
  | succ p ih =>
    intro i
    simp only [Bp, B, eval_add, eval_mul, eval_sub, eval_C, eval_X, ih]
    ring

theorem Bp_eq_zero (t : ℕ → K) (k : ℕ) (p : ℕ) : ∀ (i : ℕ), (k < i ∨ i + p < k) →
    Bp t k p i = 0 := by
  induction p with
  | zero => intro i h; simp only [Bp]; rw [if_neg]; omega
  | succ p ih =>
    intro i h
    simp only [Bp]
    rw [ih i (by omega), ih (i+1) (by omega)]
    simp

theorem Bp_derivative {t : ℕ → K} (ht : Monotone t) (k p : ℕ) : ∀ i,
    derivative (Bp t k (p+1) i) = C ((p+1 : ℕ) : K) *
      (C ((t (i + p + 1) - t i)⁻¹) * Bp t k p i -
       C ((t (i + p + 2) - t (i + 1))⁻¹) * Bp t k p (i + 1)) := by
  induction p with
  | zero =>
    intro i
    simp only [Bp]
    split <;> split <;> first | omega | simp
  | succ p ih =>
    intro i
    rw [Bp]
    simp only [derivative_add, derivative_mul, derivative_sub, derivative_C, derivative_X, ih i, ih (i+1)]
    simp only [Bp]
    -- abbreviations
    have e1 : i + 1 + p + 1 = i + (p+1) + 1 := by omega
    have e2 : i + 1 + p + 2 = i + (p+1) + 2 := by omega
    have e3 : i + p + 2 = i + (p+1) + 1 := by omega
    simp only [e1, e2, e3]
    generalize Bp t k p i = P0
    generalize Bp t k p (i+1) = P1
    generalize Bp t k p (i+1+1) = P2
    have m1 : t i ≤ t (i+1) := ht (by omega)
    have m2 : t (i+1) ≤ t (i+(p+1)+1) := ht (by omega)
    have m3 : t (i+(p+1)+1) ≤ t (i+(p+1)+2) := ht (by omega)
    have key : ((t (i+(p+1)+1) - t (i+1))⁻¹ : K) *
        ((t (i+(p+1)+1) - t i)⁻¹ * (t (i+(p+1)+1) - t i)) =
        ((t (i+(p+1)+1) - t (i+1))⁻¹ : K) *
        ((t (i+(p+1)+2) - t (i+1))⁻¹ * (t (i+(p+1)+2) - t (i+1))) := by
      by_cases h : t (i+(p+1)+1) - t (i+1) = 0
      · simp [h]
      · have hpos : 0 < t (i+(p+1)+1) - t (i+1) :=
          lt_of_le_of_ne (by linarith) (Ne.symm h)
        rw [inv_mul_cancel₀ (by linarith : (0:K) < t (i+(p+1)+1) - t i).ne',
          inv_mul_cancel₀ (by linarith : (0:K) < t (i+(p+1)+2) - t (i+1)).ne']
    have key' := congrArg (C : K → K[X]) key
    simp only [C_mul, C_sub] at key'
    push_cast
    simp only [C_add, C_1]
    generalize (C ((t (i+(p+1)+1) - t (i+1))⁻¹) : K[X]) = I1 at *
    generalize (C ((t (i+(p+1)+1) - t i)⁻¹) : K[X]) = D0 at *
    generalize (C ((t (i+(p+1)+2) - t (i+1))⁻¹) : K[X]) = D1 at *
    generalize (C ((t (i+p+1) - t i)⁻¹) : K[X]) = I0 at *
    generalize (C ((t (i+(p+1)+2) - t (i+1+1))⁻¹) : K[X]) = I2 at *
    generalize (C (t (i+(p+1)+1)) : K[X]) = a at *
    generalize (C (t (i+(p+1)+2)) : K[X]) = b at *
    generalize (C (t i) : K[X]) = c at *
    generalize (C (t (i+1)) : K[X]) = d at *
    generalize (C (p : K) : K[X]) = q at *
    linear_combination (-(q + 1) * P1) * key'

/-- Coefficients of eq. (2.10) of the NURBS book for the basis function of index `m`. -/
def acoef (t : ℕ → K) (m p : ℕ) : ℕ → ℕ → K
  | 0, j => if j = 0 then 1 else 0
  | k + 1, j => (acoef t m p k j - (if j = 0 then 0 else acoef t m p k (j - 1))) /
      (t (m + p - k + j) - t (m + j))

theorem acoef_zero (t : ℕ → K) (m p : ℕ) : ∀ k j, k < j → acoef t m p k j = 0 := by
  intro k
  induction k with
  | zero => intro j h; simp only [acoef]; rw [if_neg (by omega)]
  | succ k ih =>
    intro j h
    simp only [acoef]
    rw [ih j (by omega), if_neg (by omega), ih (j-1) (by omega)]
    simp

theorem Bp_iterate_derivative {t : ℕ → K} (ht : Monotone t) (s m p : ℕ) : ∀ k, k ≤ p →
    derivative^[k] (Bp t s p m) = C ((p.descFactorial k : ℕ) : K) *
      ∑ j ∈ Finset.range (k+1), C (acoef t m p k j) * Bp t s (p - k) (m + j) := by
  intro k
  induction k with
  | zero => intro _; simp [acoef]
  | succ k ih =>
    intro hk
    rw [Function.iterate_succ_apply', ih (by omega)]
    obtain ⟨q, rfl⟩ : ∃ q, p = q + k + 1 := ⟨p - k - 1, by omega⟩
    have hq : q + k + 1 - k = q + 1 := by omega
    have hq' : q + k + 1 - (k+1) = q := by omega
    rw [hq, hq']
    rw [derivative_mul, derivative_C, zero_mul, zero_add, derivative_sum]
    simp only [derivative_mul, derivative_C, zero_mul, zero_add, Bp_derivative ht]
    rw [Nat.descFactorial_succ, hq]
    push_cast
    rw [C_mul, mul_comm (C ((q:K)+1)), mul_assoc]
    congr 1
    rw [Finset.sum_congr rfl (g := fun j => C ((q:K)+1) *
      (C (acoef t m (q+k+1) k j) * (C ((t (m + j + q + 1) - t (m+j))⁻¹) * Bp t s q (m+j)) -
      C (acoef t m (q+k+1) k j) * (C ((t (m + j + q + 2) - t (m+j+1))⁻¹) * Bp t s q (m+j+1))))
      (fun j _ => by ring)]
    rw [← Finset.mul_sum]
    congr 1
    rw [Finset.sum_sub_distrib]
    -- right-hand side: split the two terms of `acoef`
    have hR : ∀ j, C (acoef t m (q+k+1) (k+1) j) * Bp t s q (m+j) =
        C (acoef t m (q+k+1) k j) * (C ((t (m + j + q + 1) - t (m+j))⁻¹) * Bp t s q (m+j)) -
        C (if j = 0 then 0 else acoef t m (q+k+1) k (j-1)) *
          (C ((t (m + j + q + 1) - t (m+j))⁻¹) * Bp t s q (m+j)) := by
      intro j
      simp only [acoef]
      rw [show m + (q+k+1) - k + j = m + j + q + 1 by omega, div_eq_mul_inv, C_mul, C_sub]
      ring
    simp only [hR]
    rw [Finset.sum_sub_distrib]
    congr 1
    · rw [Finset.sum_range_succ _ (k+1), acoef_zero _ _ _ k (k+1) (by omega)]
      simp
    · rw [Finset.sum_range_succ' _ (k+1)]
      simp only [if_true, C_0, zero_mul, add_zero]
      apply Finset.sum_congr rfl
      intro j _
      rw [if_neg (by omega), Nat.add_sub_cancel]
      rw [show m + (j+1) + q + 1 = m + j + q + 2 by omega, show m + (j+1) = m + j + 1 by omega]

end Gbs
