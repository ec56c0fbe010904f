import Verif.Lemmas.Rational
import Verif.Lemmas.Copy
import Verif.Model.Interp
import Mathlib.Algebra.BigOperators.Intervals
import Mathlib.Algebra.BigOperators.Ring.Finset
import Mathlib.Algebra.Module.BigOperators
import Mathlib.Tactic.Abel

/-! # The banded LU decomposition -/

namespace Gbs

set_option linter.unusedSectionVars false

variable {K : Type} [Field K] [LinearOrder K] [IsStrictOrderedRing K]
variable {V : Type} [AddCommGroup V] [Module K V]

/-- Positions inside the band of an `n × n` matrix. -/
def InB (n kl ku i j : ℕ) : Prop := i < n ∧ j < n ∧ i ≤ j + kl ∧ j ≤ i + ku

instance (n kl ku i j : ℕ) : Decidable (InB n kl ku i j) := by unfold InB; infer_instance

/-- The matrix stored in the band. -/
def bandMat (n kl ku : ℕ) (M : List K) (i j : ℕ) : K := if InB n kl ku i j then M.getD (i * (kl + ku + 1) + j + kl - i) 0 else 0

theorem bandMat_of_not {n kl ku : ℕ} {M : List K} {i j : ℕ} (h : ¬InB n kl ku i j) : bandMat n kl ku M i j = 0 := if_neg h

section
variable {n kl ku : ℕ}

theorem band_lt {i j : ℕ} (h : InB n kl ku i j) : i * (kl + ku + 1) + j + kl - i < n * (kl + ku + 1) := by
  obtain ⟨h1, h2, h3, h4⟩ := h
  have : (i + 1) * (kl + ku + 1) ≤ n * (kl + ku + 1) := Nat.mul_le_mul_right _ h1
  rw [Nat.succ_mul] at this
  omega

theorem band_inj {i j i' j' : ℕ} (h : InB n kl ku i j) (h' : InB n kl ku i' j')
    (he : i * (kl + ku + 1) + j + kl - i = i' * (kl + ku + 1) + j' + kl - i') : i = i' ∧ j = j' := by
  obtain ⟨h1, h2, h3, h4⟩ := h
  obtain ⟨h1', h2', h3', h4'⟩ := h'
  have hii : i = i' := by
    rcases Nat.lt_trichotomy i i' with hlt | heq | hlt
    · have : (i + 1) * (kl + ku + 1) ≤ i' * (kl + ku + 1) := Nat.mul_le_mul_right _ hlt
      rw [Nat.succ_mul] at this
      omega
    · exact heq
    · have : (i' + 1) * (kl + ku + 1) ≤ i * (kl + ku + 1) := Nat.mul_le_mul_right _ hlt
      rw [Nat.succ_mul] at this
      omega
  subst hii
  exact ⟨rfl, by omega⟩

theorem bandGet_ok {M : List K} (hM : M.length = n * (kl + ku + 1)) {i j : ℕ} (h : InB n kl ku i j) :
    bandGet kl ku M i j = .ok (bandMat n kl ku M i j) := by
  have hl := band_lt h
  unfold bandGet bandIdx
  rw [usub_ok (by have := h.2.2.1; omega), R_bind_ok, rd_getD 0 (by omega)]
  unfold bandMat
  rw [if_pos h]

theorem bandSet_ok {M : List K} (hM : M.length = n * (kl + ku + 1)) {i j : ℕ} (h : InB n kl ku i j) (v : K) :
    ∃ M', bandSet kl ku M i j v = .ok M' ∧ M'.length = n * (kl + ku + 1) ∧
      ∀ i' j', bandMat n kl ku M' i' j' = if i' = i ∧ j' = j then v else bandMat n kl ku M i' j' := by
  have hl := band_lt h
  refine ⟨M.set (i * (kl + ku + 1) + j + kl - i) v, ?_, by simpa using hM, ?_⟩
  · unfold bandSet bandIdx
    rw [usub_ok (by have := h.2.2.1; omega), R_bind_ok, wr_ok (by omega)]
  · intro i' j'
    unfold bandMat
    by_cases h' : InB n kl ku i' j'
    · rw [if_pos h', if_pos h']
      by_cases he : i' = i ∧ j' = j
      · obtain ⟨rfl, rfl⟩ := he
        rw [if_pos ⟨rfl, rfl⟩, List.getD_eq_getElem?_getD, List.getElem?_set_self (by omega)]
        rfl
      · rw [if_neg he, List.getD_eq_getElem?_getD, List.getD_eq_getElem?_getD, List.getElem?_set_ne]
        intro hc
        exact he (band_inj h' h hc.symm)
    · rw [if_neg h', if_neg h', if_neg]
      rintro ⟨rfl, rfl⟩
      exact h' h

/-- Elimination of the column `k`. -/
def elim (k : ℕ) (a : ℕ → ℕ → K) (i j : ℕ) : K :=
  if k < i then (if j = k then a i k / a k k else if k < j then a i j - a i k / a k k * a k j else a i j) else a i j

theorem facRow_spec {growth : K} {k i : ℕ} {M : List K} (hM : M.length = n * (kl + ku + 1)) {akk : K} (hakk : akk ≠ 0) (hki : k < i) (hin : i < n)
    (hik : i ≤ k + kl) :
    ∃ s, facRow n kl ku growth akk k i (some M) = .ok s ∧ ∀ M', s = some M' → M'.length = n * (kl + ku + 1) ∧
      ∀ i' j', bandMat n kl ku M' i' j' = if i' = i then
        (if j' = k then bandMat n kl ku M i k / akk
          else if k < j' then bandMat n kl ku M i j' - bandMat n kl ku M i k / akk * bandMat n kl ku M k j' else bandMat n kl ku M i j')
        else bandMat n kl ku M i' j' := by
  have hInk : InB n kl ku i k := ⟨hin, by omega, hik, by omega⟩
  unfold facRow
  simp only
  rw [bandGet_ok hM hInk, R_bind_ok, fdiv_ok hakk, R_bind_ok]
  by_cases hg : growth < |bandMat n kl ku M i k / akk|
  · rw [if_pos hg]
    exact ⟨none, rfl, by simp⟩
  · rw [if_neg hg]
    obtain ⟨M1, e1, hl1, h1⟩ := bandSet_ok hM hInk (bandMat n kl ku M i k / akk)
    rw [e1, R_bind_ok]
    set l := bandMat n kl ku M i k / akk with hldef
    obtain ⟨M2, e2, hl2, h2⟩ := forLe_inv (a := k + 1) (b := min (k + ku) (n - 1)) (s := M1)
      (body := fun j M => do
        let x ← bandGet kl ku M i j
        let y ← bandGet kl ku M k j
        bandSet kl ku M i j (x - l * y))
      (fun t M2 => M2.length = n * (kl + ku + 1) ∧ ∀ i' j', bandMat n kl ku M2 i' j' =
        if i' = i ∧ k < j' ∧ j' < t then bandMat n kl ku M1 i j' - l * bandMat n kl ku M1 k j' else bandMat n kl ku M1 i' j')
      (by omega)
      ⟨hl1, fun i' j' => by rw [if_neg (by omega)]⟩
      (by
        rintro t M2 ht1 ht2 ⟨hl2, h2⟩
        have hIt : InB n kl ku i t := ⟨hin, by omega, by omega, by omega⟩
        have hKt : InB n kl ku k t := ⟨by omega, by omega, by omega, by omega⟩
        rw [bandGet_ok hl2 hIt, R_bind_ok, bandGet_ok hl2 hKt, R_bind_ok]
        obtain ⟨M3, e3, hl3, h3⟩ := bandSet_ok hl2 hIt (bandMat n kl ku M2 i t - l * bandMat n kl ku M2 k t)
        refine ⟨M3, e3, hl3, ?_⟩
        intro i' j'
        rw [h3]
        by_cases he : i' = i ∧ j' = t
        · obtain ⟨rfl, rfl⟩ := he
          rw [if_pos ⟨rfl, rfl⟩, if_pos ⟨rfl, by omega, by omega⟩, h2, h2, if_neg (by omega), if_neg (by omega)]
        · rw [if_neg he, h2]
          by_cases hc : i' = i ∧ k < j' ∧ j' < t
          · rw [if_pos hc, if_pos ⟨hc.1, hc.2.1, by omega⟩]
          · rw [if_neg hc, if_neg (by omega)])
    rw [e2, R_bind_ok]
    refine ⟨some M2, rfl, ?_⟩
    rintro M' hM'
    obtain rfl := Option.some.inj hM'
    refine ⟨hl2, ?_⟩
    intro i' j'
    rw [h2]
    by_cases hi : i' = i
    · subst hi
      rw [if_pos rfl]
      by_cases hj : j' = k
      · subst hj
        rw [if_neg (by omega), h1, if_pos ⟨rfl, rfl⟩, if_pos rfl]
      · rw [if_neg hj]
        by_cases hkj : k < j'
        · rw [if_pos hkj]
          by_cases hjm : j' < min (k + ku) (n - 1) + 1
          · rw [if_pos ⟨rfl, hkj, hjm⟩, h1, h1, if_neg (by omega), if_neg (by omega)]
          · rw [if_neg (by omega), h1, if_neg (by omega)]
            rw [bandMat_of_not (i := k) (j := j') (by rintro ⟨a, b, c, d⟩; omega)]
            ring
        · rw [if_neg hkj, if_neg (by omega), h1, if_neg (by omega)]
    · rw [if_neg hi, if_neg (by omega), h1, if_neg (by omega)]

theorem forN_none {body : ℕ → Option (List K) → R (Option (List K))} (h : ∀ i, body i none = .ok none) : ∀ m a, forN body m a none = .ok none := by
  intro m
  induction m with
  | zero => intro a; rfl
  | succ m ih => intro a; unfold forN; rw [h, R_bind_ok, ih]

theorem facStep_spec {tol growth : K} (htol : 0 ≤ tol) {k : ℕ} (hk : k < n) {M : List K} (hM : M.length = n * (kl + ku + 1)) :
    ∃ s, facStep n kl ku tol growth k (some M) = .ok s ∧ ∀ M', s = some M' → M'.length = n * (kl + ku + 1) ∧ bandMat n kl ku M k k ≠ 0 ∧
      ∀ i j, bandMat n kl ku M' i j = elim k (bandMat n kl ku M) i j := by
  have hIk : InB n kl ku k k := ⟨hk, hk, by omega, by omega⟩
  unfold facStep
  simp only
  rw [bandGet_ok hM hIk, R_bind_ok]
  by_cases ht : |bandMat n kl ku M k k| ≤ tol
  · rw [if_pos ht]; exact ⟨none, rfl, by simp⟩
  · rw [if_neg ht]
    have hakk : bandMat n kl ku M k k ≠ 0 := by
      intro h0; rw [h0, abs_zero] at ht; exact ht htol
    obtain ⟨s, e, h⟩ := forLe_inv (a := k + 1) (b := min (k + kl) (n - 1)) (s := some M)
      (body := facRow n kl ku growth (bandMat n kl ku M k k) k)
      (fun t s => ∀ M', s = some M' → M'.length = n * (kl + ku + 1) ∧
        ∀ i j, bandMat n kl ku M' i j = if i < t then elim k (bandMat n kl ku M) i j else bandMat n kl ku M i j)
      (by omega)
      (by
        rintro M' hM'
        obtain rfl := Option.some.inj hM'
        refine ⟨hM, fun i j => ?_⟩
        unfold elim
        split
        · rw [if_neg (by omega)]
        · rfl)
      (by
        rintro t s ht1 ht2 hs
        cases s with
        | none => exact ⟨none, rfl, by simp⟩
        | some M1 =>
          obtain ⟨hl1, h1⟩ := hs M1 rfl
          obtain ⟨s2, e2, h2⟩ := facRow_spec (growth := growth) (k := k) (i := t) hl1 hakk (by omega) (by omega) (by omega)
          refine ⟨s2, e2, ?_⟩
          intro M' hM'
          obtain ⟨hl2, h3⟩ := h2 M' hM'
          refine ⟨hl2, ?_⟩
          intro i j
          have hrow : ∀ j, bandMat n kl ku M1 t j = bandMat n kl ku M t j := fun j => by rw [h1, if_neg (by omega)]
          have hrowk : ∀ j, bandMat n kl ku M1 k j = bandMat n kl ku M k j := fun j => by
            rw [h1, if_pos (by omega)]; unfold elim; rw [if_neg (by omega)]
          rw [h3]
          by_cases hi : i = t
          · subst hi
            rw [if_pos rfl, if_pos (show i < i + 1 by omega)]
            unfold elim
            rw [if_pos (show k < i by omega)]
            simp only [hrow, hrowk]
          · rw [if_neg hi, h1]
            by_cases hlt : i < t
            · rw [if_pos hlt, if_pos (by omega)]
            · rw [if_neg hlt, if_neg (by omega)])
    refine ⟨s, e, ?_⟩
    intro M' hM'
    obtain ⟨hl, h1⟩ := h M' hM'
    refine ⟨hl, hakk, ?_⟩
    intro i j
    rw [h1]
    by_cases hi : i < min (k + kl) (n - 1) + 1
    · rw [if_pos hi]
    · rw [if_neg hi]
      unfold elim
      have h0 : bandMat n kl ku M i k = 0 := bandMat_of_not (by rintro ⟨a, b, c, d⟩; omega)
      split
      · split
        · rename_i hj; rw [hj, h0, zero_div]
        · split
          · rw [h0, zero_div, zero_mul, sub_zero]
          · rfl
      · rfl

/-- The lower factor read in the decomposed matrix. -/
def luL (a : ℕ → ℕ → K) (i m : ℕ) : K := if m < i then a i m else if m = i then 1 else 0
/-- The upper factor. -/
def luU (a : ℕ → ℕ → K) (m j : ℕ) : K := if m ≤ j then a m j else 0

/-- The invariant of the elimination: `A = L U + the part still to be eliminated`. -/
theorem elim_inv {A a : ℕ → ℕ → K} {k : ℕ} (hk : a k k ≠ 0)
    (h : ∀ i j, A i j = ∑ m ∈ Finset.range k, luL a i m * luU a m j + if k ≤ i ∧ k ≤ j then a i j else 0) (i j : ℕ) :
    A i j = ∑ m ∈ Finset.range (k + 1), luL (elim k a) i m * luU (elim k a) m j + if k + 1 ≤ i ∧ k + 1 ≤ j then elim k a i j else 0 := by
  have hsum : ∑ m ∈ Finset.range k, luL (elim k a) i m * luU (elim k a) m j = ∑ m ∈ Finset.range k, luL a i m * luU a m j := by
    apply Finset.sum_congr rfl
    intro m hm
    have hm := Finset.mem_range.mp hm
    have h1 : luL (elim k a) i m = luL a i m := by
      unfold luL elim
      split
      · split
        · rw [if_neg (by omega), if_neg (by omega)]
        · rfl
      · rfl
    have h2 : luU (elim k a) m j = luU a m j := by
      unfold luU elim
      rw [if_neg (show ¬k < m by omega)]
    rw [h1, h2]
  rw [h, Finset.sum_range_succ, hsum, add_assoc]
  congr 1
  have hUk : luU (elim k a) k j = if k ≤ j then a k j else 0 := by
    unfold luU elim; rw [if_neg (lt_irrefl k)]
  rw [hUk]
  by_cases hj : k ≤ j
  · rw [if_pos hj]
    rcases Nat.lt_trichotomy i k with hi | hi | hi
    · rw [if_neg (by omega), if_neg (by omega)]
      unfold luL
      rw [if_neg (by omega), if_neg (by omega)]
      ring
    · subst hi
      rw [if_pos ⟨le_rfl, hj⟩, if_neg (by omega)]
      unfold luL
      rw [if_neg (lt_irrefl _), if_pos rfl]
      ring
    · rw [if_pos ⟨by omega, hj⟩]
      have hL : luL (elim k a) i k = a i k / a k k := by
        unfold luL elim
        rw [if_pos hi, if_pos hi, if_pos rfl]
      rw [hL]
      rcases Nat.eq_or_lt_of_le hj with he | he
      · subst he
        rw [if_neg (by omega), add_zero, div_mul_cancel₀ _ hk]
      · rw [if_pos ⟨by omega, by omega⟩]
        unfold elim
        rw [if_pos hi, if_neg (by omega), if_pos he]
        ring
  · rw [if_neg hj, if_neg (by omega), if_neg (by omega)]
    ring

/-- `factorize_inplace` stays inside the storage; when it accepts, the result is an LU decomposition with non-zero pivots. -/
theorem factorize_spec {tol growth : K} (htol : 0 ≤ tol) {M : List K} (hM : M.length = n * (kl + ku + 1)) :
    ∃ s, factorize n kl ku tol growth M = .ok s ∧ ∀ M', s = some M' → M'.length = n * (kl + ku + 1) ∧
      (∀ i, i < n → bandMat n kl ku M' i i ≠ 0) ∧
      ∀ i j, i < n → j < n → bandMat n kl ku M i j =
        ∑ m ∈ Finset.range n, luL (bandMat n kl ku M') i m * luU (bandMat n kl ku M') m j := by
  obtain ⟨s, e, h⟩ := forLt_inv (a := 0) (b := n) (s := some M) (body := facStep n kl ku tol growth)
    (fun k s => ∀ M', s = some M' → M'.length = n * (kl + ku + 1) ∧ (∀ i, i < k → bandMat n kl ku M' i i ≠ 0) ∧
      ∀ i j, bandMat n kl ku M i j = ∑ m ∈ Finset.range k, luL (bandMat n kl ku M') i m * luU (bandMat n kl ku M') m j +
        if k ≤ i ∧ k ≤ j then bandMat n kl ku M' i j else 0)
    (by omega)
    (by
      rintro M' hM'
      obtain rfl := Option.some.inj hM'
      refine ⟨hM, by omega, ?_⟩
      intro i j
      simp)
    (by
      rintro k s hk0 hkn hs
      cases s with
      | none => exact ⟨none, rfl, by simp⟩
      | some M1 =>
        obtain ⟨hl1, hd1, h1⟩ := hs M1 rfl
        obtain ⟨s2, e2, h2⟩ := facStep_spec (growth := growth) htol hkn hl1
        refine ⟨s2, e2, ?_⟩
        intro M' hM'
        obtain ⟨hl2, hne, h3⟩ := h2 M' hM'
        have hfun : bandMat n kl ku M' = elim k (bandMat n kl ku M1) := by funext i j; exact h3 i j
        refine ⟨hl2, ?_, ?_⟩
        · intro i hi
          rw [hfun]
          unfold elim
          rw [if_neg (by omega)]
          rcases Nat.lt_or_ge i k with hik | hik
          · exact hd1 i hik
          · obtain rfl : i = k := by omega
            exact hne
        · intro i j
          rw [hfun]
          exact elim_inv hne h1 i j)
  refine ⟨s, e, ?_⟩
  intro M' hM'
  obtain ⟨hl, hd, h1⟩ := h M' hM'
  refine ⟨hl, hd, ?_⟩
  intro i j hi hj
  rw [h1, if_neg (by omega), add_zero]

/-- Forward substitution solves `L y = b`. -/
theorem bandForward_spec {M : List K} (hM : M.length = n * (kl + ku + 1)) {b x0 : List V} (hb : b.length = n) (hx : x0.length = n) :
    ∃ y, bandForward n kl ku M b x0 = .ok y ∧ y.length = n ∧
      ∀ i, i < n → ∑ m ∈ Finset.range n, luL (bandMat n kl ku M) i m • pf y m = pf b i := by
  obtain ⟨y, e, hl, h⟩ := forLt_inv (a := 0) (b := n) (s := x0)
    (body := fun i x => do
      let s ← rd b i
      let s ← forLt (i - kl) i (fun k s => do
        let a ← bandGet kl ku M i k
        let xk ← rd x k
        pure (s - a • xk)) s
      wr x i s)
    (fun t x => x.length = n ∧ ∀ i, i < t → pf x i = pf b i - ∑ m ∈ Finset.range i, bandMat n kl ku M i m • pf x m)
    (by omega) ⟨hx, by omega⟩
    (by
      rintro i x - hin ⟨hl, h⟩
      rw [rd_pf (by omega), R_bind_ok]
      obtain ⟨s, es, hs⟩ := forLt_inv (a := i - kl) (b := i) (s := pf b i)
        (body := fun k s => do
          let a ← bandGet kl ku M i k
          let xk ← rd x k
          pure (s - a • xk))
        (fun t s => s = pf b i - ∑ m ∈ Finset.range t, bandMat n kl ku M i m • pf x m)
        (by omega)
        (by
          rw [Finset.sum_eq_zero, sub_zero]
          intro m hm
          rw [bandMat_of_not, zero_smul]
          rintro ⟨-, -, hc, -⟩
          have := Finset.mem_range.mp hm
          omega)
        (by
          rintro k s hk1 hk2 rfl
          rw [bandGet_ok hM (show InB n kl ku i k from ⟨hin, by omega, by omega, by omega⟩), R_bind_ok, rd_pf (by omega), R_bind_ok]
          refine ⟨_, rfl, ?_⟩
          rw [Finset.sum_range_succ, sub_sub])
      rw [es, R_bind_ok, wr_ok (by omega)]
      have hset : ∀ m, pf (x.set i s) m = if m = i then s else pf x m := by
        intro m
        unfold pf
        rw [List.getD_eq_getElem?_getD, getElem?_set_of_lt (by omega)]
        split
        · rfl
        · rw [List.getD_eq_getElem?_getD]
      refine ⟨_, rfl, by simpa using hl, ?_⟩
      intro i' hi'
      rw [hset]
      have hsum : ∀ m', m' ≤ i → ∑ m ∈ Finset.range m', bandMat n kl ku M i' m • pf (x.set i s) m =
          ∑ m ∈ Finset.range m', bandMat n kl ku M i' m • pf x m := by
        intro m' hm'
        apply Finset.sum_congr rfl
        intro m hm
        rw [hset, if_neg (by have := Finset.mem_range.mp hm; omega)]
      rw [hsum i' (by omega)]
      by_cases hii : i' = i
      · subst hii
        rw [if_pos rfl, hs]
      · rw [if_neg hii]
        exact h i' (by omega))
  refine ⟨y, e, hl, ?_⟩
  intro i hi
  rw [← Finset.sum_range_add_sum_Ico _ (show i ≤ n by omega), Finset.sum_eq_sum_Ico_succ_bot hi]
  have h1 : ∑ m ∈ Finset.range i, luL (bandMat n kl ku M) i m • pf y m = ∑ m ∈ Finset.range i, bandMat n kl ku M i m • pf y m := by
    apply Finset.sum_congr rfl
    intro m hm
    unfold luL
    rw [if_pos (Finset.mem_range.mp hm)]
  have h2 : ∑ m ∈ Finset.Ico (i + 1) n, luL (bandMat n kl ku M) i m • pf y m = 0 := by
    apply Finset.sum_eq_zero
    intro m hm
    have := Finset.mem_Ico.mp hm
    unfold luL
    rw [if_neg (by omega), if_neg (by omega), zero_smul]
  have h3 : luL (bandMat n kl ku M) i i = 1 := by unfold luL; rw [if_neg (lt_irrefl _), if_pos rfl]
  rw [h1, h2, h3, one_smul, h i hi]
  abel

/-- Back substitution solves `U x = y`. -/
theorem bandBackward_spec {M : List K} (hM : M.length = n * (kl + ku + 1)) (hd : ∀ i, i < n → bandMat n kl ku M i i ≠ 0) {y : List V}
    (hy : y.length = n) :
    ∃ x, bandBackward n kl ku M y = .ok x ∧ x.length = n ∧
      ∀ i, i < n → ∑ j ∈ Finset.range n, luU (bandMat n kl ku M) i j • pf x j = pf y i := by
  obtain ⟨x, e, hl, -, h⟩ := forLt_inv (a := 0) (b := n) (s := y)
    (body := fun t x => do
      let i := n - 1 - t
      let s ← rd x i
      let s ← forLe (i + 1) (min (i + ku) (n - 1)) (fun j s => do
        let a ← bandGet kl ku M i j
        let xj ← rd x j
        pure (s - a • xj)) s
      let a ← bandGet kl ku M i i
      let q ← vdiv s a
      wr x i q)
    (fun t x => x.length = n ∧ (∀ i, i < n - t → pf x i = pf y i) ∧ ∀ i, n - t ≤ i → i < n →
      bandMat n kl ku M i i • pf x i = pf y i - ∑ j ∈ Finset.Ico (i + 1) n, bandMat n kl ku M i j • pf x j)
    (by omega) ⟨hy, fun _ _ => rfl, by omega⟩
    (by
      rintro t x - htn ⟨hl, h1, h2⟩
      simp only
      generalize hi : n - 1 - t = i
      have hin : i < n := by omega
      rw [rd_pf (by omega), R_bind_ok]
      obtain ⟨s, es, hs⟩ := forLe_inv (a := i + 1) (b := min (i + ku) (n - 1)) (s := pf x i)
        (body := fun j s => do
          let a ← bandGet kl ku M i j
          let xj ← rd x j
          pure (s - a • xj))
        (fun t s => s = pf x i - ∑ j ∈ Finset.Ico (i + 1) t, bandMat n kl ku M i j • pf x j)
        (by omega)
        (by rw [Finset.Ico_self, Finset.sum_empty, sub_zero])
        (by
          rintro j s hj1 hj2 rfl
          rw [bandGet_ok hM (show InB n kl ku i j from ⟨hin, by omega, by omega, by omega⟩), R_bind_ok, rd_pf (by omega), R_bind_ok]
          refine ⟨_, rfl, ?_⟩
          rw [Finset.sum_Ico_succ_top (by omega), sub_sub])
      rw [es, R_bind_ok, bandGet_ok hM (show InB n kl ku i i from ⟨hin, hin, by omega, by omega⟩), R_bind_ok, vdiv_ok (hd i hin), R_bind_ok,
        wr_ok (by omega)]
      have hset : ∀ m, pf (x.set i ((bandMat n kl ku M i i)⁻¹ • s)) m = if m = i then (bandMat n kl ku M i i)⁻¹ • s else pf x m := by
        intro m
        unfold pf
        rw [List.getD_eq_getElem?_getD, getElem?_set_of_lt (by omega)]
        split
        · rfl
        · rw [List.getD_eq_getElem?_getD]
      have hsum : ∀ i' , i ≤ i' → ∑ j ∈ Finset.Ico (i' + 1) n, bandMat n kl ku M i' j • pf (x.set i ((bandMat n kl ku M i i)⁻¹ • s)) j =
          ∑ j ∈ Finset.Ico (i' + 1) n, bandMat n kl ku M i' j • pf x j := by
        intro i' hi'
        apply Finset.sum_congr rfl
        intro m hm
        rw [hset, if_neg (by have := Finset.mem_Ico.mp hm; omega)]
      have hfull : s = pf x i - ∑ j ∈ Finset.Ico (i + 1) n, bandMat n kl ku M i j • pf x j := by
        rw [hs, ← Finset.sum_Ico_consecutive _ (show i + 1 ≤ min (i + ku) (n - 1) + 1 by omega) (show min (i + ku) (n - 1) + 1 ≤ n by omega)]
        rw [Finset.sum_eq_zero (s := Finset.Ico (min (i + ku) (n - 1) + 1) n), add_zero]
        intro j hj
        have := Finset.mem_Ico.mp hj
        rw [bandMat_of_not, zero_smul]
        rintro ⟨-, -, -, hc⟩
        omega
      refine ⟨_, rfl, by simpa using hl, ?_, ?_⟩
      · intro i' hi'
        rw [hset, if_neg (by omega)]
        exact h1 i' (by omega)
      · intro i' hi1 hi2
        rw [hsum i' (by omega), hset]
        by_cases hii : i' = i
        · subst hii
          rw [if_pos rfl, smul_smul, mul_inv_cancel₀ (hd _ hin), one_smul, hfull, h1 _ (by omega)]
        · rw [if_neg hii]
          exact h2 i' (by omega) hi2)
  refine ⟨x, e, hl, ?_⟩
  intro i hi
  rw [← Finset.sum_range_add_sum_Ico _ (show i ≤ n by omega), Finset.sum_eq_sum_Ico_succ_bot hi]
  rw [Finset.sum_eq_zero (s := Finset.range i), zero_add]
  · have hU : luU (bandMat n kl ku M) i i = bandMat n kl ku M i i := by unfold luU; rw [if_pos le_rfl]
    have hs : ∑ j ∈ Finset.Ico (i + 1) n, luU (bandMat n kl ku M) i j • pf x j = ∑ j ∈ Finset.Ico (i + 1) n, bandMat n kl ku M i j • pf x j := by
      apply Finset.sum_congr rfl
      intro j hj
      have := Finset.mem_Ico.mp hj
      unfold luU
      rw [if_pos (by omega)]
    rw [hU, h i (by omega) hi, hs]
    abel
  · intro m hm
    have := Finset.mem_range.mp hm
    unfold luU
    rw [if_neg (by omega), zero_smul]

/-- `solve` after an accepted factorization solves the system that was given. -/
theorem bandSolve_spec {tol growth : K} (htol : 0 ≤ tol) {M M' : List K} (hM : M.length = n * (kl + ku + 1))
    (hf : factorize n kl ku tol growth M = .ok (some M')) {b x0 : List V} (hb : b.length = n) (hx : x0.length = n) :
    ∃ x, bandSolve n kl ku M' b x0 = .ok x ∧ x.length = n ∧
      ∀ i, i < n → ∑ j ∈ Finset.range n, bandMat n kl ku M i j • pf x j = pf b i := by
  obtain ⟨s, e, h⟩ := factorize_spec (growth := growth) htol hM
  rw [hf] at e
  obtain ⟨hl, hd, hLU⟩ := h M' (Except.ok.inj e).symm
  obtain ⟨y, ey, hly, hy⟩ := bandForward_spec hl hb hx
  obtain ⟨x, ex, hlx, hxx⟩ := bandBackward_spec hl hd hly
  refine ⟨x, ?_, hlx, ?_⟩
  · unfold bandSolve
    rw [ey, R_bind_ok, ex]
  · intro i hi
    rw [← hy i hi]
    calc ∑ j ∈ Finset.range n, bandMat n kl ku M i j • pf x j
        = ∑ j ∈ Finset.range n, ∑ m ∈ Finset.range n, (luL (bandMat n kl ku M') i m * luU (bandMat n kl ku M') m j) • pf x j := by
          apply Finset.sum_congr rfl
          intro j hj
          rw [hLU i j hi (Finset.mem_range.mp hj), Finset.sum_smul]
      _ = ∑ m ∈ Finset.range n, ∑ j ∈ Finset.range n, (luL (bandMat n kl ku M') i m * luU (bandMat n kl ku M') m j) • pf x j :=
          Finset.sum_comm
      _ = ∑ m ∈ Finset.range n, luL (bandMat n kl ku M') i m • pf y m := by
          apply Finset.sum_congr rfl
          intro m hm
          rw [← hxx m (Finset.mem_range.mp hm), Finset.smul_sum]
          apply Finset.sum_congr rfl
          intro j _
          rw [mul_smul]

end
end Gbs
