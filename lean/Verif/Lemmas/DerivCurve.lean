import Verif.Lemmas.PolyEq
import Verif.Lemmas.Blossom

/-! # Poles of the derivative, continuity at the knots -/

namespace Gbs

set_option linter.unusedSectionVars false

open Polynomial

variable {K : Type} [Field K] [LinearOrder K] [IsStrictOrderedRing K]
variable {V : Type} [AddCommGroup V] [Module K V]

theorem Bp_shift (t : ℕ → K) (k p : ℕ) : ∀ i, Bp (fun j => t (j+1)) k p i = Bp t (k+1) p (i+1) := by
  induction p with
  | zero => intro i; simp [Bp]
  | succ p ih =>
    intro i
    simp only [Bp, ih]
    rw [show i + p + 1 + 1 = i + 1 + p + 1 by omega]

/-- Poles of the derivative of the curve of degree `p`. -/
def derP (t : ℕ → K) (p : ℕ) (P : ℕ → V) (i : ℕ) : V :=
  ((p : K) * (t (i+p+1) - t (i+1))⁻¹) • (P (i+1) - P i)

/-- The derivative of a curve is the curve of its derivative poles, on the knots without the first and last one. -/
theorem spanDer_succ {t : ℕ → K} (ht : Monotone t) {n p k : ℕ} (hp : p + 1 ≤ k) (hn : k < n) (P : ℕ → V)
    (d : ℕ) (v : K) :
    spanDer t n (p+1) k P (d+1) v =
      spanDer (fun j => t (j+1)) (n-1) p (k-1) (derP t (p+1) P) d v := by
  unfold spanDer
  simp only [Function.iterate_succ_apply]
  obtain ⟨n, rfl⟩ : ∃ m, n = m + 1 := ⟨n-1, by omega⟩
  obtain ⟨k, rfl⟩ : ∃ m, k = m + 1 := ⟨k-1, by omega⟩
  simp only [Nat.add_sub_cancel]
  simp only [Bp_shift]
  simp only [Bp_derivative ht, iterate_derivative_C_mul, iterate_derivative_sub, eval_mul, eval_C, eval_sub]
  simp only [mul_sub, sub_smul]
  rw [Finset.sum_sub_distrib]
  rw [Finset.sum_range_succ' (fun j => (((p+1 : ℕ) : K) * ((t (j+p+1) - t j)⁻¹ * eval v (derivative^[d] (Bp t (k+1) p j)))) • P j)]
  rw [Finset.sum_range_succ (fun j => (((p+1 : ℕ) : K) * ((t (j+p+2) - t (j+1))⁻¹ * eval v (derivative^[d] (Bp t (k+1) p (j+1))))) • P j)]
  rw [Bp_eq_zero t (k+1) p 0 (by omega), Bp_eq_zero t (k+1) p (n+1) (by omega)]
  simp only [iterate_derivative_zero, eval_zero, mul_zero, zero_smul, add_zero]
  rw [← Finset.sum_sub_distrib]
  apply Finset.sum_congr rfl
  intro j _
  unfold derP
  rw [show j + 1 + p + 1 = j + p + 2 by omega, show j + (p+1) + 1 = j + p + 2 by omega, smul_smul, ← smul_sub]
  congr 1
  ring

theorem spanDer_zero (t : ℕ → K) {n p k : ℕ} (hp : p ≤ k) (hn : k < n) (P : ℕ → V) (v : K) :
    spanDer t n p k P 0 v = bl t k P (List.replicate p v) := by
  unfold spanDer
  simp only [Function.iterate_zero, id, Bp_eval]
  exact sum_B_eq_bl t k n v hn p P hp

/-- A knot of multiplicity `k - m` (the spans `m` and `k` meet there): the derivatives up to the order
`p - (k - m)` agree. -/
theorem spanDer_adjacent {v : K} : ∀ (d : ℕ) {t : ℕ → K} (_ : Monotone t) {n p m k : ℕ} (_ : t m < t (m+1))
    (_ : t k < t (k+1)) (_ : m ≤ k) (_ : ∀ j, m < j → j ≤ k → t j = v) (_ : d + (k - m) ≤ p)
    (_ : p ≤ m) (_ : k < n) (P : ℕ → V),
    spanDer t n p m P d v = spanDer t n p k P d v := by
  intro d
  induction d with
  | zero =>
    intro t ht n p m k hm hk hmk hv hd hpm hn P
    rw [spanDer_zero t hpm (by omega), spanDer_zero t (by omega) hn]
    have hs : seg t (m+1) (k-m) = List.replicate (k-m) v := by
      unfold seg
      rw [List.eq_replicate_iff]
      refine ⟨by simp, ?_⟩
      intro x hx
      simp only [List.mem_map, List.mem_range'_1] at hx
      obtain ⟨j, hj, rfl⟩ := hx
      exact hv j (by omega) (by omega)
    have hr : List.replicate p v = seg t (m+1) (k-m) ++ List.replicate (p - (k-m)) v := by
      rw [hs, List.replicate_append_replicate]
      congr 1
      omega
    rw [hr]
    exact bl_adjacent ht hm hk hmk P _ p (by simp; omega) hpm
  | succ d ih =>
    intro t ht n p m k hm hk hmk hv hd hpm hn P
    obtain ⟨p, rfl⟩ : ∃ q, p = q + 1 := ⟨p - 1, by omega⟩
    rw [spanDer_succ ht hpm (by omega), spanDer_succ ht (by omega) hn]
    apply ih (fun a b hab => ht (by omega))
    · rwa [show m - 1 + 1 = m by omega]
    · rwa [show k - 1 + 1 = k by omega]
    · omega
    · intro j h1 h2
      exact hv (j+1) (by omega) (by omega)
    · omega
    · omega
    · omega

/-- Affine change of the parameter: `q(αx+β)` has the derivatives `α^d q^(d)(αx+β)`. -/
theorem iterate_derivative_affine (q : K[X]) (a b : K) : ∀ d,
    derivative^[d] (q.comp (C a * X + C b)) = C (a^d) * (derivative^[d] q).comp (C a * X + C b) := by
  intro d
  induction d with
  | zero => simp
  | succ d ih =>
    rw [Function.iterate_succ_apply', ih, Function.iterate_succ_apply', derivative_mul, derivative_comp]
    simp only [derivative_C, zero_mul, zero_add, derivative_add, derivative_mul, derivative_X, mul_one, add_zero]
    rw [pow_succ, C_mul]
    ring

theorem spanDer_affine {t t' : ℕ → K} {n n' p k k' : ℕ} {c c' : ℕ → V} {a b : K}
    (hk : p ≤ k) (hn : k < n) (hk' : p ≤ k') (hn' : k' < n')
    (h : ∀ v, bl t' k' c' (List.replicate p v) = bl t k c (List.replicate p (a * v + b))) (d : ℕ) (v : K) :
    spanDer t' n' p k' c' d v = a^d • spanDer t n p k c d (a * v + b) := by
  unfold spanDer
  rw [Finset.smul_sum]
  have := sum_derivative_congr (P := c') (P' := c) (n := n') (n' := n) (q := fun j => Bp t' k' p j)
    (q' := fun j => (Bp t k p j).comp (C a * X + C b)) (by
      intro v
      simp only [eval_comp, eval_add, eval_mul, eval_C, eval_X, Bp_eval]
      rw [sum_B_eq_bl t' k' n' v hn' p c' hk', sum_B_eq_bl t k n _ hn p c hk, h v]) d v
  rw [this]
  apply Finset.sum_congr rfl
  intro j _
  rw [iterate_derivative_affine, eval_mul, eval_C, eval_comp, smul_smul]
  simp

end Gbs
