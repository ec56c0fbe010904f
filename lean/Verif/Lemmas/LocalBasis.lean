import Verif.Spec.CoxDeBoor
import Mathlib.Algebra.Order.Field.Basic
import Mathlib.Algebra.Order.BigOperators.Group.Finset
import Mathlib.Algebra.BigOperators.Intervals
import Mathlib.Algebra.Module.BigOperators
import Mathlib.Tactic.Linarith
import Mathlib.Tactic.FieldSimp
import Mathlib.Tactic.Ring
import Mathlib.Tactic.Module
import Mathlib.Order.Monotone.Basic

/-!
# Basis functions of one knot span

`B t k p i u` is the polynomial that the Cox–de Boor function `N_{i,p}` is on
the span `k`.
-/

namespace Gbs

set_option linter.unusedSectionVars false

variable {K : Type*} [Field K] [LinearOrder K] [IsStrictOrderedRing K]
variable {V : Type*} [AddCommGroup V] [Module K V]

/-- Cox–de Boor recursion started from the indicator of the index `k`. -/
def B (t : ℕ → K) (k : ℕ) : ℕ → ℕ → K → K
  | 0, i, _ => if i = k then 1 else 0
  | p + 1, i, u =>
      (u - t i) / (t (i + p + 1) - t i) * B t k p i u +
      (t (i + p + 2) - u) / (t (i + p + 2) - t (i + 1)) * B t k p (i + 1) u

theorem B_eq_zero (t : ℕ → K) (k : ℕ) (p : ℕ) : ∀ (i : ℕ) (u : K), (k < i ∨ i + p < k) →
    B t k p i u = 0 := by
  induction p with
  | zero => intro i u h; simp only [B]; rw [if_neg]; omega
  | succ p ih =>
    intro i u h
    simp only [B]
    rw [ih i u (by omega), ih (i+1) u (by omega)]
    simp

theorem B_nonneg {t : ℕ → K} (ht : Monotone t) {k : ℕ} (p : ℕ) {u : K} (h1 : t k ≤ u)
    (h2 : u ≤ t (k+1)) : ∀ i, 0 ≤ B t k p i u := by
  induction p with
  | zero => intro i; simp only [B]; split <;> simp
  | succ p ih =>
    intro i
    simp only [B]
    apply add_nonneg
    · by_cases hk : k < i ∨ i + p < k
      · rw [B_eq_zero t k p i u hk]; simp
      · push Not at hk
        apply mul_nonneg _ (ih i)
        apply div_nonneg
        · have := ht hk.1; linarith
        · have := ht (show i ≤ i + p + 1 by omega); linarith
    · by_cases hk : k < i + 1 ∨ i + 1 + p < k
      · rw [B_eq_zero t k p (i+1) u hk]; simp
      · push Not at hk
        apply mul_nonneg _ (ih (i+1))
        apply div_nonneg
        · have := ht (show k + 1 ≤ i + p + 2 by omega); linarith
        · have := ht (show i + 1 ≤ i + p + 2 by omega); linarith

/-- One level of de Boor's scheme for degree `q`, argument `x`. -/
def dbStep (t : ℕ → K) (q : ℕ) (x : K) (c : ℕ → V) : ℕ → V := fun i =>
  ((t (i + q) - x) / (t (i + q) - t i)) • c (i - 1) + ((x - t i) / (t (i + q) - t i)) • c i

/-- Blossom (polar form) of the span `k`: de Boor's scheme with one argument per level. -/
def bl (t : ℕ → K) (k : ℕ) : (ℕ → V) → List K → V
  | c, [] => c k
  | c, x :: xs => bl t k (dbStep t (xs.length + 1) x c) xs

theorem sum_B_succ (t : ℕ → K) (k p n : ℕ) (hk : p + 1 ≤ k) (hn : k < n) (c : ℕ → V) (u : K) :
    ∑ i ∈ Finset.range n, B t k (p+1) i u • c i =
    ∑ i ∈ Finset.range n, B t k p i u • dbStep t (p+1) u c i := by
  obtain ⟨n, rfl⟩ : ∃ m, n = m + 1 := ⟨n - 1, by omega⟩
  have e1 : ∀ i, B t k (p+1) i u • c i =
      (((u - t i) / (t (i + p + 1) - t i)) * B t k p i u) • c i +
      (((t (i + 1 + p + 1) - u) / (t (i + 1 + p + 1) - t (i + 1))) * B t k p (i+1) u) • c (i + 1 - 1) := by
    intro i
    simp only [B, Nat.add_sub_cancel]
    rw [add_smul]
    have : i + p + 2 = i + 1 + p + 1 := by omega
    rw [this]
  have e2 : ∀ i, B t k p i u • dbStep t (p+1) u c i =
      (((u - t i) / (t (i + p + 1) - t i)) * B t k p i u) • c i +
      (((t (i + p + 1) - u) / (t (i + p + 1) - t i)) * B t k p i u) • c (i - 1) := by
    intro i
    simp only [dbStep]
    rw [show i + (p + 1) = i + p + 1 by omega]
    module
  simp_rw [e1, e2, Finset.sum_add_distrib]
  congr 1
  rw [Finset.sum_range_succ, Finset.sum_range_succ' (fun i => (((t (i + p + 1) - u) / (t (i + p + 1) - t i)) * B t k p i u) • c (i - 1))]
  rw [B_eq_zero t k p 0 u (by omega), B_eq_zero t k p (n+1) u (by omega)]
  simp

/-- The span-local Cox–de Boor sum is the diagonal of the blossom. -/
theorem sum_B_eq_bl (t : ℕ → K) (k n : ℕ) (u : K) (hn : k < n) : ∀ (p : ℕ) (c : ℕ → V), p ≤ k →
    ∑ i ∈ Finset.range n, B t k p i u • c i = bl t k c (List.replicate p u) := by
  intro p
  induction p with
  | zero =>
    intro c _
    simp only [B, bl, List.replicate]
    rw [Finset.sum_eq_single k]
    · simp
    · intro b _ hb; simp [hb]
    · intro h; simp at h; omega
  | succ p ih =>
    intro c hk
    rw [sum_B_succ t k p n hk hn, ih _ (by omega), List.replicate_succ, bl]
    simp

theorem dbStep_const {t : ℕ → K} (q : ℕ) (x : K) (v : V) (i : ℕ) (h : t i < t (i+q)) :
    dbStep t q x (fun _ => v) i = v := by
  simp only [dbStep]
  have : t (i+q) - t i ≠ 0 := (sub_pos.mpr h).ne'
  rw [← add_smul]
  rw [← add_div]
  have e : t (i + q) - x + (x - t i) = t (i+q) - t i := by ring
  rw [e, div_self this, one_smul]

theorem bl_const {t : ℕ → K} (ht : Monotone t) {k : ℕ} (hk : t k < t (k+1)) (v : V) :
    ∀ (xs : List K) (c : ℕ → V), xs.length ≤ k → (∀ i, k - xs.length ≤ i → i ≤ k → c i = v) →
      bl t k c xs = v := by
  intro xs
  induction xs with
  | nil => intro c _ h; exact h k (by simp) le_rfl
  | cons x xs ih =>
    intro c hl h
    simp only [List.length_cons] at hl h
    rw [bl]
    apply ih _ (by omega)
    intro i h1 h2
    have hlt : t i < t (i + (xs.length + 1)) :=
      lt_of_le_of_lt (ht h2) (lt_of_lt_of_le hk (ht (by omega)))
    rw [← dbStep_const (xs.length+1) x v i hlt]
    simp only [dbStep]
    rw [h (i-1) (by omega) (by omega), h i (by omega) h2]

/-- Partition of unity on a span. -/
theorem sum_B_eq_one {t : ℕ → K} (ht : Monotone t) {k n p : ℕ} (hk : t k < t (k+1))
    (hp : p ≤ k) (hn : k < n) (u : K) : ∑ i ∈ Finset.range n, B t k p i u = 1 := by
  have := sum_B_eq_bl (V := K) t k n u hn p (fun _ => 1) hp
  simp only [smul_eq_mul, mul_one] at this
  rw [this]
  exact bl_const ht hk 1 _ _ (by simpa using hp) (fun _ _ _ => rfl)

open Spec in
theorem InSpan_unique {t : ℕ → K} (ht : Monotone t) {T u : K} {i j : ℕ}
    (hi : InSpan t T i u) (hj : InSpan t T j u) : i = j := by
  unfold InSpan at hi hj
  rcases lt_trichotomy i j with h | h | h
  · exfalso
    have := ht (show i + 1 ≤ j by omega)
    split at hi
    · rw [if_pos ‹_›] at hj; exact absurd hj.1 (not_lt.mpr (hi.2 ▸ this))
    · rw [if_neg ‹_›] at hj; exact absurd hj.1 (not_le.mpr (lt_of_lt_of_le hi.2 this))
  · exact h
  · exfalso
    have := ht (show j + 1 ≤ i by omega)
    split at hi
    · rw [if_pos ‹_›] at hj; exact absurd hi.1 (not_lt.mpr (hj.2 ▸ this))
    · rw [if_neg ‹_›] at hj; exact absurd hi.1 (not_le.mpr (lt_of_lt_of_le hj.2 this))

open Spec in
/-- On its span the Cox–de Boor function is the span-local one. -/
theorem N_eq_B {t : ℕ → K} (ht : Monotone t) {T u : K} {k : ℕ} (hk : InSpan t T k u) (p : ℕ) :
    ∀ i, N t T p i u = B t k p i u := by
  induction p with
  | zero =>
    intro i
    simp only [N, B]
    by_cases h : i = k
    · subst h; simp [hk]
    · rw [if_neg h, if_neg]
      intro h'; exact h (InSpan_unique ht h' hk)
  | succ p ih => intro i; simp only [N, B, ih]

open Spec in
theorem InSpan_bounds {t : ℕ → K} {T u : K} {k : ℕ} (hk : InSpan t T k u) :
    t k ≤ u ∧ u ≤ t (k+1) ∧ t k < t (k+1) := by
  unfold InSpan at hk
  split at hk
  · subst_vars; refine ⟨hk.1.le, hk.2.ge, hk.2 ▸ hk.1⟩
  · exact ⟨hk.1, hk.2.le, lt_of_le_of_lt hk.1 hk.2⟩

open Spec in
theorem curve_eq_bl {t : ℕ → K} (ht : Monotone t) {n p k : ℕ} {u : K} (hk : InSpan t (t n) k u)
    (hp : p ≤ k) (hn : k < n) (c : ℕ → V) :
    curve t n p c u = bl t k c (List.replicate p u) := by
  rw [← sum_B_eq_bl t k n u hn p c hp, curve]
  exact Finset.sum_congr rfl fun i _ => by rw [N_eq_B ht hk]

end Gbs
