import Verif.Lemmas.Blossom
import Mathlib.Data.Nat.Choose.Sum

/-!
# The blossom of a polynomial
-/

namespace Gbs

variable {K : Type} [Field K] [LinearOrder K] [IsStrictOrderedRing K]
variable {V : Type} [AddCommGroup V] [Module K V]

/-- Elementary symmetric functions. -/
def esym : List K → ℕ → K
  | _, 0 => 1
  | [], _ + 1 => 0
  | x :: xs, k + 1 => x * esym xs k + esym xs (k + 1)

theorem esym_zero (xs : List K) : esym xs 0 = 1 := by cases xs <;> rfl

theorem esym_perm {xs ys : List K} (h : xs.Perm ys) : ∀ k, esym xs k = esym ys k := by
  induction h with
  | nil => exact fun _ => rfl
  | cons x _ ih =>
    intro k
    cases k with
    | zero => rw [esym_zero, esym_zero]
    | succ k => rw [esym, esym, ih k, ih (k + 1)]
  | swap x y l =>
    intro k
    match k with
    | 0 => rw [esym_zero, esym_zero]
    | 1 => simp only [esym, esym_zero]; ring
    | k + 2 => simp only [esym]; ring
  | trans _ _ h1 h2 => exact fun k => (h1 k).trans (h2 k)

theorem esym_affine (xs : List K) (y z a b : K) (hab : a + b = 1) (k : ℕ) :
    esym ((a * y + b * z) :: xs) k = a * esym (y :: xs) k + b * esym (z :: xs) k := by
  cases k with
  | zero => simp only [esym_zero]; linear_combination -hab
  | succ k =>
    simp only [esym]
    linear_combination -(esym xs (k + 1)) * hab

theorem esym_replicate (t : K) : ∀ p k, esym (List.replicate p t) k = (p.choose k : K) * t ^ k
  | p, 0 => by rw [esym_zero]; simp
  | 0, k + 1 => by simp [esym]
  | p + 1, k + 1 => by
    rw [List.replicate_succ, esym, esym_replicate t p k, esym_replicate t p (k + 1), Nat.choose_succ_succ]
    push_cast
    ring

/-- The blossom of degree `p` of the polynomial of coefficients `A`. -/
def polyBlossom (p : ℕ) (A : ℕ → V) (xs : List K) : V := ∑ k ∈ Finset.range (p + 1), (esym xs k / (p.choose k : K)) • A k

theorem polyBlossom_isBlossom (p : ℕ) (A : ℕ → V) : IsBlossom (K := K) p (polyBlossom p A) where
  perm _ h := by
    unfold polyBlossom
    exact Finset.sum_congr rfl fun k _ => by rw [esym_perm h]
  affine xs y z a b _ hab := by
    unfold polyBlossom
    rw [Finset.smul_sum, Finset.smul_sum, ← Finset.sum_add_distrib]
    refine Finset.sum_congr rfl fun k _ => ?_
    rw [esym_affine xs y z a b hab, smul_smul, smul_smul, ← add_smul]
    congr 1
    ring

theorem polyBlossom_diag (p : ℕ) (A : ℕ → V) (t : K) : polyBlossom p A (List.replicate p t) = ∑ k ∈ Finset.range (p + 1), t ^ k • A k := by
  unfold polyBlossom
  refine Finset.sum_congr rfl fun k hk => ?_
  have : (p.choose k : K) ≠ 0 := by exact_mod_cast (Nat.choose_pos (Nat.lt_succ_iff.mp (Finset.mem_range.mp hk))).ne'
  rw [esym_replicate, mul_div_cancel_left₀ _ this]

end Gbs
