import Verif.Lemmas.LocalBasis
import Mathlib.Data.List.Perm.Basic
import Mathlib.Tactic.LinearCombination

/-!
# Blossoms of B-spline spans

`bl t k c` is symmetric and multi-affine; it is the unique such form taking the
value `c i` at the knots `t (i+1), …, t (i+p)` for the active indices `i`.
-/

namespace Gbs

set_option linter.unusedSectionVars false

variable {K : Type*} [Field K] [LinearOrder K] [IsStrictOrderedRing K]
variable {V : Type*} [AddCommGroup V] [Module K V]

/-- The knots `t a, …, t (a+n-1)`. -/
def seg (t : ℕ → K) (a n : ℕ) : List K := (List.range' a n).map t

@[simp] theorem seg_length (t : ℕ → K) (a n : ℕ) : (seg t a n).length = n := by simp [seg]

@[simp] theorem seg_zero (t : ℕ → K) (a : ℕ) : seg t a 0 = [] := by simp [seg]

theorem seg_succ (t : ℕ → K) (a n : ℕ) : seg t a (n+1) = t a :: seg t (a+1) n := by
  simp [seg, List.range'_succ]

theorem seg_append (t : ℕ → K) (a n m : ℕ) : seg t a (n+m) = seg t a n ++ seg t (a+n) m := by
  simp [seg, ← List.map_append]

theorem seg_succ_last (t : ℕ → K) (a n : ℕ) : seg t a (n+1) = seg t a n ++ [t (a+n)] := by
  rw [seg_append]; simp [seg]

theorem seg_congr {t t' : ℕ → K} {a a' n : ℕ} (h : ∀ j, j < n → t (a+j) = t' (a'+j)) :
    seg t a n = seg t' a' n := by
  induction n generalizing a a' with
  | zero => simp
  | succ n ih =>
    rw [seg_succ, seg_succ, show t a = t' a' from by simpa using h 0 (by omega)]
    rw [ih]
    intro j hj
    have := h (j+1) (by omega)
    rw [show a + 1 + j = a + (j+1) by omega, show a' + 1 + j = a' + (j+1) by omega]; exact this

theorem bl_congr (t : ℕ → K) (k : ℕ) : ∀ (xs : List K) (c c' : ℕ → V), xs.length ≤ k →
    (∀ i, k - xs.length ≤ i → i ≤ k → c i = c' i) → bl t k c xs = bl t k c' xs := by
  intro xs
  induction xs with
  | nil => intro c c' _ h; exact h k (by simp) le_rfl
  | cons x xs ih =>
    intro c c' hl h
    simp only [List.length_cons] at hl h
    rw [bl, bl]
    apply ih _ _ (by omega)
    intro i h1 h2
    simp only [dbStep]
    rw [h (i-1) (by omega) (by omega), h i (by omega) h2]

theorem dbStep_comm {t : ℕ → K} (q i : ℕ) (x y : K) (c : ℕ → V)
    (h1 : t (i+1) < t (i+1+q))
    (h2 : t i < t (i+1+q)) (h3 : t (i+1) < t (i+q+2)) :
    dbStep t q y (dbStep t (q+1) x c) (i+1) = dbStep t q x (dbStep t (q+1) y c) (i+1) := by
  simp only [dbStep, Nat.add_sub_cancel]
  have e1 : i + (q+1) = i + 1 + q := by omega
  have e2 : i + 1 + (q+1) = i + q + 2 := by omega
  rw [e1, e2]
  have d1 : t (i+1+q) - t (i+1) ≠ 0 := (sub_pos.mpr h1).ne'
  have d2 : t (i+1+q) - t i ≠ 0 := (sub_pos.mpr h2).ne'
  have d3 : t (i+q+2) - t (i+1) ≠ 0 := (sub_pos.mpr h3).ne'
  generalize t (i+1+q) = a at *
  generalize t (i+1) = b at *
  generalize t i = d at *
  generalize t (i+q+2) = e at *
  match_scalars <;> (field_simp; try ring)

theorem bl_perm {t : ℕ → K} (ht : Monotone t) {k : ℕ} (hk : t k < t (k+1)) {xs ys : List K}
    (h : xs.Perm ys) : ∀ (c : ℕ → V), xs.length ≤ k → bl t k c xs = bl t k c ys := by
  induction h with
  | nil => intro c _; rfl
  | cons x h ih =>
    intro c hl
    rw [bl, bl, h.length_eq]
    exact ih _ (by simp at hl; omega)
  | swap x y l =>
    intro c hl
    simp only [List.length_cons] at hl
    simp only [bl, List.length_cons]
    apply bl_congr _ _ _ _ _ (by omega)
    intro i h1 h2
    obtain ⟨i, rfl⟩ : ∃ j, i = j + 1 := ⟨i - 1, by omega⟩
    apply dbStep_comm
    · exact lt_of_le_of_lt (ht h2) (lt_of_lt_of_le hk (ht (by omega)))
    · exact lt_of_le_of_lt (ht (show i ≤ k by omega)) (lt_of_lt_of_le hk (ht (by omega)))
    · exact lt_of_le_of_lt (ht h2) (lt_of_lt_of_le hk (ht (by omega)))
  | trans h1 h2 ih1 ih2 =>
    intro c hl
    rw [ih1 c hl, ih2 c (by rw [← h1.length_eq]; exact hl)]

theorem bl_add (t : ℕ → K) (k : ℕ) : ∀ (xs : List K) (c c' : ℕ → V) (a b : K),
    bl t k (fun i => a • c i + b • c' i) xs = a • bl t k c xs + b • bl t k c' xs := by
  intro xs
  induction xs with
  | nil => intros; rfl
  | cons x xs ih =>
    intro c c' a b
    simp only [bl]
    rw [← ih]
    congr 1
    funext i
    simp only [dbStep]
    module

theorem bl_affine (t : ℕ → K) (k : ℕ) (c : ℕ → V) (xs : List K) (y z a b : K)
    (hab : a + b = 1) :
    bl t k c ((a * y + b * z) :: xs) = a • bl t k c (y :: xs) + b • bl t k c (z :: xs) := by
  simp only [bl]
  rw [← bl_add]
  congr 1
  funext i
  simp only [dbStep]
  have ha : a = 1 - b := by linear_combination hab
  subst ha
  generalize t (i + (xs.length+1)) = r
  match_scalars <;> ring

/-- A symmetric multi-affine form of `p` arguments. -/
structure IsBlossom (p : ℕ) (F : List K → V) : Prop where
  perm : ∀ {xs ys : List K}, xs.length = p → xs.Perm ys → F xs = F ys
  affine : ∀ (xs : List K) (y z a b : K), xs.length + 1 = p → a + b = 1 →
    F ((a * y + b * z) :: xs) = a • F (y :: xs) + b • F (z :: xs)

theorem bl_isBlossom {t : ℕ → K} (ht : Monotone t) {k : ℕ} (hk : t k < t (k+1)) {p : ℕ}
    (hp : p ≤ k) (c : ℕ → V) : IsBlossom (K := K) p (bl t k c) where
  perm hx h := bl_perm ht hk h c (by omega)
  affine xs y z a b _ hab := bl_affine t k c xs y z a b hab

theorem IsBlossom.cons {p : ℕ} {F : List K → V} (hF : IsBlossom (p+1) F) (x : K) :
    IsBlossom p (fun xs => F (x :: xs)) where
  perm hx h := hF.perm (by simp [hx]) (h.cons x)
  affine xs y z a b hx hab := by
    have h1 : ∀ w, F (x :: w :: xs) = F (w :: x :: xs) := fun w =>
      hF.perm (by simp; omega) (List.Perm.swap _ _ _)
    simp only [h1]
    exact hF.affine (x :: xs) y z a b (by simp; omega) hab

theorem IsBlossom.append {p : ℕ} {F : List K → V} : ∀ (ys : List K),
    IsBlossom (p + ys.length) F → IsBlossom p (fun xs => F (ys ++ xs)) := by
  intro ys
  induction ys generalizing F with
  | nil => intro h; simpa using h
  | cons y ys ih =>
    intro h
    have := ih (F := fun xs => F (y :: xs)) (h.cons y)
    simpa using this

/-- Interpolation of a blossom in one argument between two knots. -/
theorem IsBlossom.interp {p : ℕ} {F : List K → V} (hF : IsBlossom (p+1) F) {xs : List K}
    (hx : xs.length = p) (x a b : K) (hab : b - a ≠ 0) :
    F (x :: xs) = ((b - x) / (b - a)) • F (a :: xs) + ((x - a) / (b - a)) • F (b :: xs) := by
  rw [← hF.affine xs a b _ _ (by omega)]
  · congr 2
    field_simp
    ring
  · field_simp
    ring

/-- A blossom is determined by its values at consecutive knots. -/
theorem bl_unique {t : ℕ → K} (ht : Monotone t) {k : ℕ} (hk : t k < t (k+1)) :
    ∀ (xs : List K) (F : List K → V) (c : ℕ → V), xs.length ≤ k → IsBlossom xs.length F →
      (∀ i, k - xs.length ≤ i → i ≤ k → c i = F (seg t (i+1) xs.length)) →
      bl t k c xs = F xs := by
  intro xs
  induction xs with
  | nil => intro F c _ _ h; simpa [bl] using h k (by simp) le_rfl
  | cons x xs ih =>
    intro F c hl hF h
    simp only [List.length_cons] at hl h hF
    rw [bl]
    rw [ih (fun ys => F (x :: ys)) _ (by omega) (hF.cons x)]
    intro i h1 h2
    have hlt : t i < t (i + (xs.length + 1)) :=
      lt_of_le_of_lt (ht h2) (lt_of_lt_of_le hk (ht (by omega)))
    rw [hF.interp (by simp) x (t i) (t (i + (xs.length+1))) (sub_pos.mpr hlt).ne']
    simp only [dbStep]
    have e1 : c (i-1) = F (t i :: seg t (i+1) xs.length) := by
      rw [h (i-1) (by omega) (by omega), show i - 1 + 1 = i by omega, seg_succ]
    have e2 : c i = F (t (i + (xs.length+1)) :: seg t (i+1) xs.length) := by
      rw [h i (by omega) h2, seg_succ_last]
      apply hF.perm (by simp)
      rw [show i + 1 + xs.length = i + (xs.length+1) by omega]
      exact (List.perm_append_comm (l₁ := seg t (i+1) xs.length) (l₂ := [t (i + (xs.length+1))]))
    rw [e1, e2]

/-- Dual functional property: poles are blossom values at consecutive knots. -/
theorem bl_dual {t : ℕ → K} (ht : Monotone t) {k : ℕ} (hk : t k < t (k+1)) :
    ∀ (p : ℕ) (c : ℕ → V) (i : ℕ), p ≤ k → k - p ≤ i → i ≤ k →
      bl t k c (seg t (i+1) p) = c i := by
  intro p
  induction p with
  | zero => intro c i _ h1 h2; simp [bl, show i = k by omega]
  | succ p ih =>
    intro c i hp h1 h2
    by_cases hi : i < k
    · rw [seg_succ, bl, seg_length, ih _ (i+1) (by omega) (by omega) (by omega)]
      have hlt : t (i+1) < t (i + 1 + (p + 1)) :=
        lt_of_le_of_lt (ht (show i+1 ≤ k by omega)) (lt_of_lt_of_le hk (ht (by omega)))
      simp only [dbStep]
      have hne : t (i+1+(p+1)) - t (i+1) ≠ 0 := (sub_pos.mpr hlt).ne'
      rw [div_self hne, sub_self, zero_div]
      simp
    · obtain rfl : i = k := by omega
      have : bl t i c (seg t (i+1) (p+1)) = bl t i c (t (i+1+p) :: seg t (i+1) p) := by
        rw [seg_succ_last]
        apply bl_perm ht hk _ _ (by simp; omega)
        exact (List.perm_append_comm (l₁ := seg t (i+1) p) (l₂ := [t (i+1+p)]))
      rw [this, bl, seg_length, ih _ i (by omega) (by omega) le_rfl]
      have hlt : t i < t (i + (p + 1)) := lt_of_lt_of_le hk (ht (by omega))
      simp only [dbStep]
      have hne : t (i+(p+1)) - t i ≠ 0 := (sub_pos.mpr hlt).ne'
      rw [show i + 1 + p = i + (p+1) by omega, div_self hne, sub_self, zero_div]
      simp

/-- Blossoms of two spans agree on argument lists containing the knots in between. -/
theorem bl_adjacent {t : ℕ → K} (ht : Monotone t) {m k : ℕ} (hm : t m < t (m+1))
    (hk : t k < t (k+1)) (hmk : m ≤ k) (c : ℕ → V) (xs : List K) (p : ℕ)
    (hl : xs.length + (k - m) = p) (hpm : p ≤ m) :
    bl t m c (seg t (m+1) (k-m) ++ xs) = bl t k c (seg t (m+1) (k-m) ++ xs) := by
  -- knot vector with the knots in between removed
  set τ : ℕ → K := fun j => if j ≤ m then t j else t (j + (k - m)) with hτ
  have hτm : Monotone τ := by
    intro a b hab
    simp only [hτ]
    split <;> split
    · exact ht hab
    · exact ht (by omega)
    · omega
    · exact ht (by omega)
  have hτk : τ m < τ (m+1) := by
    simp only [hτ, le_refl, if_true]
    rw [if_neg (by omega)]
    exact lt_of_lt_of_le hm (ht (by omega))
  have segτ : ∀ i, i ≤ m → m ≤ i + xs.length →
      (seg t (i+1) p).Perm (seg t (m+1) (k-m) ++ seg τ (i+1) xs.length) := by
    intro i h1 h2
    have e1 : seg t (i+1) p = seg t (i+1) (m-i) ++ seg t (m+1) (k-m) ++ seg t (k+1) (i + xs.length - m) := by
      have : p = (m-i) + (k-m) + (i + xs.length - m) := by omega
      rw [this, seg_append, seg_append]
      congr 2
      · congr 1
        omega
      · omega
    have e2 : seg τ (i+1) xs.length = seg t (i+1) (m-i) ++ seg t (k+1) (i+xs.length-m) := by
      have : xs.length = (m-i) + (i + xs.length - m) := by omega
      conv_lhs => rw [this]
      rw [seg_append]
      congr 1
      · apply seg_congr
        intro j hj
        simp only [hτ]
        rw [if_pos (by omega)]
      · apply seg_congr
        intro j hj
        simp only [hτ]
        rw [if_neg (by omega)]
        congr 1
        omega
    rw [e1, e2, ← List.append_assoc]
    exact List.perm_append_comm.append_right _
  have key : ∀ k', t k' < t (k'+1) → p ≤ k' → (k' = m ∨ k' = k) →
      bl t k' c (seg t (m+1) (k-m) ++ xs) = bl τ m c xs := by
    intro k' hk' hp hor
    symm
    apply bl_unique hτm hτk xs (fun ys => bl t k' c (seg t (m+1) (k-m) ++ ys)) c (by omega)
    · apply IsBlossom.append
      rw [seg_length]
      exact hl ▸ bl_isBlossom ht hk' (by omega) c
    · intro i h1 h2
      rw [← bl_perm ht hk' (segτ i h2 (by omega)) c (by simp; omega)]
      exact (bl_dual ht hk' p c i hp (by omega) (by omega)).symm
  rw [key m hm hpm (Or.inl rfl), key k hk (by omega) (Or.inr rfl)]

end Gbs
