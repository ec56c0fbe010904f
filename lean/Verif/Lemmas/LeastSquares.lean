import Verif.Model.Approx
import Verif.Lemmas.SurfInterp
import Mathlib.Tactic.LinearCombination

/-! # Least squares -/

namespace Gbs

set_option linter.unusedSectionVars false

open Polynomial
open scoped BigOperators

variable {K : Type} [Field K] [LinearOrder K] [IsStrictOrderedRing K]

theorem normal_apply (m n : ℕ) (N : ℕ → ℕ → K) (x : ℕ → K) (i : ℕ) :
    ∑ j ∈ Finset.range n, normalMatrix m N i j * x j = ∑ r ∈ Finset.range m, N r i * ∑ j ∈ Finset.range n, N r j * x j := by
  unfold normalMatrix
  simp only [Finset.sum_mul, Finset.mul_sum]
  rw [Finset.sum_comm]
  exact Finset.sum_congr rfl fun r _ => Finset.sum_congr rfl fun j _ => by ring

/-- Pairing `NᵀN x` with `y`. -/
theorem pair_normal (m n : ℕ) (N : ℕ → ℕ → K) (c : ℕ → K) (y : ℕ → K) :
    ∑ i ∈ Finset.range n, y i * ∑ r ∈ Finset.range m, N r i * c r = ∑ r ∈ Finset.range m, (∑ i ∈ Finset.range n, N r i * y i) * c r := by
  simp only [Finset.sum_mul, Finset.mul_sum]
  rw [Finset.sum_comm]
  exact Finset.sum_congr rfl fun r _ => Finset.sum_congr rfl fun j _ => by ring

/-- The normal matrix is regular when the rows determine the unknowns. -/
theorem regular_normal {m n : ℕ} {N : ℕ → ℕ → K}
    (h : ∀ x : ℕ → K, (∀ r, r < m → ∑ j ∈ Finset.range n, N r j * x j = 0) → ∀ j, j < n → x j = 0) : Spec.Regular n (normalMatrix m N) := by
  intro x hx
  apply h
  have h0 : ∑ r ∈ Finset.range m, (∑ j ∈ Finset.range n, N r j * x j) * (∑ j ∈ Finset.range n, N r j * x j) = 0 := by
    rw [← pair_normal]
    apply Finset.sum_eq_zero
    intro i hi
    rw [← normal_apply, hx i (Finset.mem_range.mp hi), mul_zero]
  intro r hr
  have := (Finset.sum_eq_zero_iff_of_nonneg (fun r _ => mul_self_nonneg _)).mp h0 r (Finset.mem_range.mpr hr)
  exact mul_self_eq_zero.mp this

/-- Pythagoras for a solution of the normal equations. -/
theorem lsq_pythagoras {m n : ℕ} {N : ℕ → ℕ → K} {b x : ℕ → K}
    (hx : ∀ i, i < n → ∑ j ∈ Finset.range n, normalMatrix m N i j * x j = ∑ r ∈ Finset.range m, N r i * b r) (y : ℕ → K) :
    ∑ r ∈ Finset.range m, (∑ j ∈ Finset.range n, N r j * y j - b r) ^ 2 =
      ∑ r ∈ Finset.range m, (∑ j ∈ Finset.range n, N r j * x j - b r) ^ 2 +
        ∑ r ∈ Finset.range m, (∑ j ∈ Finset.range n, N r j * (y j - x j)) ^ 2 := by
  have hc : ∑ r ∈ Finset.range m, (∑ j ∈ Finset.range n, N r j * (y j - x j)) * (∑ j ∈ Finset.range n, N r j * x j - b r) = 0 := by
    rw [← pair_normal]
    apply Finset.sum_eq_zero
    intro i hi
    have := hx i (Finset.mem_range.mp hi)
    rw [normal_apply] at this
    simp only [mul_sub, Finset.sum_sub_distrib]
    rw [← mul_sub, this, sub_self, mul_zero]
  have hd : ∀ r, ∑ j ∈ Finset.range n, N r j * y j = ∑ j ∈ Finset.range n, N r j * x j + ∑ j ∈ Finset.range n, N r j * (y j - x j) := by
    intro r
    rw [← Finset.sum_add_distrib]
    exact Finset.sum_congr rfl fun j _ => by ring
  have : ∀ r, (∑ j ∈ Finset.range n, N r j * y j - b r) ^ 2 = (∑ j ∈ Finset.range n, N r j * x j - b r) ^ 2 +
      (∑ j ∈ Finset.range n, N r j * (y j - x j)) ^ 2 +
        2 * ((∑ j ∈ Finset.range n, N r j * (y j - x j)) * (∑ j ∈ Finset.range n, N r j * x j - b r)) := by
    intro r; rw [hd r]; ring
  simp only [this]
  rw [Finset.sum_add_distrib, Finset.sum_add_distrib, ← Finset.mul_sum, hc]
  ring

/-- A solution of the normal equations minimizes the sum of the squares, and it is the only one when the rows determine the unknowns. -/
theorem lsq_min {m n : ℕ} {N : ℕ → ℕ → K} {b x : ℕ → K}
    (hx : ∀ i, i < n → ∑ j ∈ Finset.range n, normalMatrix m N i j * x j = ∑ r ∈ Finset.range m, N r i * b r) (y : ℕ → K) :
    ∑ r ∈ Finset.range m, (∑ j ∈ Finset.range n, N r j * x j - b r) ^ 2 ≤ ∑ r ∈ Finset.range m, (∑ j ∈ Finset.range n, N r j * y j - b r) ^ 2 := by
  rw [lsq_pythagoras hx y]
  exact le_add_of_nonneg_right (Finset.sum_nonneg fun r _ => sq_nonneg _)

theorem lsq_unique {m n : ℕ} {N : ℕ → ℕ → K} {b x : ℕ → K}
    (hx : ∀ i, i < n → ∑ j ∈ Finset.range n, normalMatrix m N i j * x j = ∑ r ∈ Finset.range m, N r i * b r)
    (h : ∀ x : ℕ → K, (∀ r, r < m → ∑ j ∈ Finset.range n, N r j * x j = 0) → ∀ j, j < n → x j = 0) {y : ℕ → K}
    (he : ∑ r ∈ Finset.range m, (∑ j ∈ Finset.range n, N r j * y j - b r) ^ 2 ≤ ∑ r ∈ Finset.range m, (∑ j ∈ Finset.range n, N r j * x j - b r) ^ 2) :
    ∀ j, j < n → y j = x j := by
  rw [lsq_pythagoras hx y] at he
  have h0 : ∑ r ∈ Finset.range m, (∑ j ∈ Finset.range n, N r j * (y j - x j)) ^ 2 = 0 :=
    le_antisymm (by linarith) (Finset.sum_nonneg fun r _ => sq_nonneg _)
  intro j hj
  have := h (fun j => y j - x j) (fun r hr => by
    have := (Finset.sum_eq_zero_iff_of_nonneg (fun r _ => sq_nonneg _)).mp h0 r (Finset.mem_range.mpr hr)
    exact pow_eq_zero_iff (two_ne_zero) |>.mp this) j hj
  exact sub_eq_zero.mp this

/-! ## Points -/

/-- Square of the Euclidean distance. -/
def Spec.sqDist {dim : ℕ} (x y : Fin dim → K) : K := ∑ t, (x t - y t) ^ 2

theorem sqDist_nonneg {dim : ℕ} (x y : Fin dim → K) : 0 ≤ Spec.sqDist x y := Finset.sum_nonneg fun _ _ => sq_nonneg _

theorem sum_smul_apply {dim : ℕ} {ι : Type} (s : Finset ι) (a : ι → K) (X : ι → Fin dim → K) (t : Fin dim) :
    (∑ j ∈ s, a j • X j) t = ∑ j ∈ s, a j * X j t := by
  rw [Finset.sum_apply]
  exact Finset.sum_congr rfl fun j _ => by rw [Pi.smul_apply, smul_eq_mul]

theorem sum_sqDist {dim m n : ℕ} (N : ℕ → ℕ → K) (b X : ℕ → Fin dim → K) :
    ∑ r ∈ Finset.range m, Spec.sqDist (∑ j ∈ Finset.range n, N r j • X j) (b r) =
      ∑ t, ∑ r ∈ Finset.range m, (∑ j ∈ Finset.range n, N r j * X j t - b r t) ^ 2 := by
  unfold Spec.sqDist
  rw [Finset.sum_comm]
  exact Finset.sum_congr rfl fun t _ => Finset.sum_congr rfl fun r _ => by rw [sum_smul_apply]

theorem normal_coord {dim m n : ℕ} {N : ℕ → ℕ → K} {b X : ℕ → Fin dim → K}
    (hx : ∀ i, i < n → ∑ j ∈ Finset.range n, normalMatrix m N i j • X j = ∑ r ∈ Finset.range m, N r i • b r) (t : Fin dim) :
    ∀ i, i < n → ∑ j ∈ Finset.range n, normalMatrix m N i j * X j t = ∑ r ∈ Finset.range m, N r i * b r t := by
  intro i hi
  have := congrFun (hx i hi) t
  rwa [sum_smul_apply, sum_smul_apply] at this

theorem lsq_min_vec {dim m n : ℕ} {N : ℕ → ℕ → K} {b X : ℕ → Fin dim → K}
    (hx : ∀ i, i < n → ∑ j ∈ Finset.range n, normalMatrix m N i j • X j = ∑ r ∈ Finset.range m, N r i • b r) (Y : ℕ → Fin dim → K) :
    ∑ r ∈ Finset.range m, Spec.sqDist (∑ j ∈ Finset.range n, N r j • X j) (b r) ≤
      ∑ r ∈ Finset.range m, Spec.sqDist (∑ j ∈ Finset.range n, N r j • Y j) (b r) := by
  rw [sum_sqDist, sum_sqDist]
  exact Finset.sum_le_sum fun t _ => lsq_min (normal_coord hx t) fun j => Y j t

theorem lsq_unique_vec {dim m n : ℕ} {N : ℕ → ℕ → K} {b X : ℕ → Fin dim → K}
    (hx : ∀ i, i < n → ∑ j ∈ Finset.range n, normalMatrix m N i j • X j = ∑ r ∈ Finset.range m, N r i • b r)
    (h : ∀ x : ℕ → K, (∀ r, r < m → ∑ j ∈ Finset.range n, N r j * x j = 0) → ∀ j, j < n → x j = 0) {Y : ℕ → Fin dim → K}
    (he : ∑ r ∈ Finset.range m, Spec.sqDist (∑ j ∈ Finset.range n, N r j • Y j) (b r) ≤
      ∑ r ∈ Finset.range m, Spec.sqDist (∑ j ∈ Finset.range n, N r j • X j) (b r)) :
    ∀ j, j < n → Y j = X j := by
  rw [sum_sqDist, sum_sqDist] at he
  have hle : ∀ t : Fin dim, ∑ r ∈ Finset.range m, (∑ j ∈ Finset.range n, N r j * X j t - b r t) ^ 2 ≤
      ∑ r ∈ Finset.range m, (∑ j ∈ Finset.range n, N r j * Y j t - b r t) ^ 2 := fun t => lsq_min (normal_coord hx t) fun j => Y j t
  have heq := (Finset.sum_eq_sum_iff_of_le fun t _ => hle t).mp (le_antisymm (Finset.sum_le_sum fun t _ => hle t) he)
  intro j hj
  funext t
  exact lsq_unique (normal_coord hx t) h (y := fun j => Y j t) (heq t (Finset.mem_univ t)).ge j hj

end Gbs
