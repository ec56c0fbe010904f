import Verif.Lemmas.Elevate
import Verif.Lemmas.Insert
import Verif.Lemmas.Rational
import Verif.Model.Degree

/-! # Degree elevation of a Bézier curve: the code computes the elevated blossom -/

namespace Gbs

set_option linter.unusedSectionVars false

variable {K : Type} [Field K] [LinearOrder K] [IsStrictOrderedRing K]
variable {V : Type} [AddCommGroup V] [Module K V]

theorem factI_eq : ∀ n, n ≤ 12 → factI n = .ok n.factorial := by
  intro n hn
  induction n with
  | zero => rfl
  | succ n ih =>
    rw [factI, ih (by omega), R_bind_ok, if_pos]
    · rfl
    · have h1 : (n + 1).factorial ≤ (12).factorial := Nat.factorial_le hn
      have h2 : (12).factorial < 2 ^ 31 := by decide
      exact lt_of_le_of_lt h1 h2

theorem factI_overflow : ∀ n, 13 ≤ n → factI n = .error .overflow := by
  intro n hn
  induction n with
  | zero => omega
  | succ n ih =>
    rw [factI]
    rcases Nat.lt_or_ge n 13 with h | h
    · obtain rfl : n = 12 := by omega
      rw [factI_eq 12 le_rfl, R_bind_ok]
      decide
    · rw [ih h]; rfl

theorem binomialI_eq {n k : ℕ} (hn : n ≤ 12) (hk : k ≤ n) : binomialI (K := K) n k = .ok (n.choose k : K) := by
  unfold binomialI
  split
  · rename_i h; subst h; simp [R_pure]
  · rw [factI_eq n hn, R_bind_ok, factI_eq k (by omega), R_bind_ok, factI_eq (n - k) (by omega), R_bind_ok, if_pos]
    · rw [fdiv_ok]
      · rw [Nat.cast_choose K hk]
        push_cast
        rfl
      · have := Nat.factorial_pos k; have := Nat.factorial_pos (n - k)
        have h : 0 < k.factorial * (n - k).factorial := by positivity
        exact_mod_cast h.ne'
    · have h1 : k.factorial * (n-k).factorial ≤ n.factorial := by
        apply Nat.le_of_dvd (Nat.factorial_pos _) (Nat.factorial_mul_factorial_dvd_factorial hk)
      have h2 : n.factorial ≤ (12).factorial := Nat.factorial_le hn
      have h3 : (12).factorial < 2 ^ 31 := by decide
      omega

/-- The coefficient of the pole `j` in the elevated pole `i`. -/
def elevCoef (K : Type) [Field K] (p t i j : ℕ) : K :=
  (p.choose j : K) * ((if j ≤ i then t.choose (i - j) else 0 : ℕ) : K) / ((p + t).choose i : K)

theorem sum_Ico_eq_range {n a b : ℕ} (hb : b ≤ n) {f : ℕ → V} (h : ∀ j, j < n → ¬ (a ≤ j ∧ j < b) → f j = 0) :
    ∑ j ∈ Finset.Ico a b, f j = ∑ j ∈ Finset.range n, f j := by
  apply Finset.sum_subset
  · intro j hj
    rw [Finset.mem_Ico] at hj
    exact Finset.mem_range.mpr (by omega)
  · intro j hj hj'
    rw [Finset.mem_Ico] at hj'
    exact h j (Finset.mem_range.mp hj) hj'

theorem bezierPole_spec {P : List V} {p t i : ℕ} (hP : P.length = p + 1) (h : p + t ≤ 12) (hi : i ≤ p + t) :
    bezierPole (K := K) P p t i = .ok (∑ j ∈ Finset.range (p + 1), elevCoef K p t i j • pf P j) := by
  unfold bezierPole
  obtain ⟨s, e, hs⟩ := forLe_inv (a := i - t) (b := min p i) (s := (0 : V))
    (body := fun j acc => do
      let b1 ← binomialI (K := K) p j
      let b2 ← binomialI (K := K) t (i - j)
      let b3 ← binomialI (K := K) (p + t) i
      let c ← fdiv (b1 * b2) b3
      let x ← rd P j
      pure (acc + c • x))
    (fun j acc => acc = ∑ k ∈ Finset.Ico (i - t) j, elevCoef K p t i k • pf P k) (by omega) (by simp)
    (by
      intro j acc hj1 hj2 hacc
      refine ⟨acc + elevCoef K p t i j • pf P j, ?_, ?_⟩
      · beta_reduce
        rw [binomialI_eq (by omega) (by omega), R_bind_ok, binomialI_eq (by omega) (by omega), R_bind_ok,
          binomialI_eq (by omega) hi, R_bind_ok, fdiv_ok (by exact_mod_cast (Nat.choose_pos hi).ne'), R_bind_ok,
          rd_pf (by omega), R_bind_ok]
        unfold elevCoef
        rw [if_pos (by omega)]
        rfl
      · rw [Finset.sum_Ico_succ_top hj1, hacc])
  rw [e, hs]
  congr 1
  apply sum_Ico_eq_range (by omega)
  intro j hj hj'
  have : elevCoef K p t i j = 0 := by
    unfold elevCoef
    split
    · rw [Nat.choose_eq_zero_of_lt (show t < i - j by omega)]; simp
    · simp
  rw [this, zero_smul]

theorem increaseBezier_spec {P : List V} {p t : ℕ} (hP : P.length = p + 1) (h : p + t ≤ 12) :
    ∃ Pt, increaseBezier K P p t = .ok Pt ∧ Pt.length = p + t + 1 ∧
      ∀ i, i ≤ p + t → pf Pt i = ∑ j ∈ Finset.range (p + 1), elevCoef K p t i j • pf P j := by
  unfold increaseBezier
  obtain ⟨D, e, hl, hD⟩ := fillLe_spec (D := List.replicate (p + 1 + t) (0:V)) (a := 0) (b := p + t) (off := 0) (by omega)
    (fun i Pt => do
      let x ← bezierPole (K := K) P p t i
      wr Pt i x) (fun i => ∑ j ∈ Finset.range (p + 1), elevCoef K p t i j • pf P j) (by
      intro i s _ hi hs
      rw [bezierPole_spec hP h hi, R_bind_ok]
      exact wr_ok (by rw [hs]; simp; omega)) (by simp)
  refine ⟨D, e, by rw [hl]; simp; omega, ?_⟩
  intro i hi
  have := hD i
  rw [if_pos (by omega)] at this
  simp [pf, List.getD_eq_getElem?_getD, this]

theorem increaseBezier_overflow {P : List V} {p t : ℕ} (h : 13 ≤ p + t) : increaseBezier K P p t = .error .overflow := by
  have hp : bezierPole (K := K) P p t 0 = .error .overflow := by
    unfold bezierPole forLe
    simp only [Nat.zero_sub, Nat.min_zero, Nat.sub_zero, Nat.zero_add, forN]
    have h3 : binomialI (K := K) (p + t) 0 = .error .overflow := by
      unfold binomialI; rw [if_neg (by omega), factI_overflow _ h]; rfl
    have hb : ∀ n, binomialI (K := K) n 0 = .ok 1 ∨ binomialI (K := K) n 0 = .error .overflow := by
      intro n
      rcases Nat.lt_or_ge n 13 with hn | hn
      · left; rw [binomialI_eq (by omega) (by omega)]; simp
      · right; unfold binomialI; rw [if_neg (by omega), factI_overflow _ hn]; rfl
    rcases hb p with e1 | e1
    · rcases hb t with e2 | e2
      · rw [e1, R_bind_ok, e2, R_bind_ok, h3]; rfl
      · rw [e1, R_bind_ok, e2]; rfl
    · rw [e1]; rfl
  unfold increaseBezier forLe
  rw [show p + t + 1 - 0 = (p + t) + 1 by omega, forN, hp]
  rfl

/-- The value of a blossom on the diagonal in terms of its values at two points. -/
theorem IsBlossom.bernstein {n : ℕ} {F : List K → V} (hF : IsBlossom n F) (a b x : K) :
    F (List.replicate n ((1 - x) * a + x * b)) =
      ∑ i ∈ Finset.range (n + 1), ((n.choose i : K) * (1 - x) ^ (n - i) * x ^ i) • F (List.replicate (n - i) a ++ List.replicate i b) := by
  induction n generalizing F with
  | zero => simp
  | succ n ih =>
    rw [List.replicate_succ, hF.affine _ _ _ _ _ (by simp) (by ring), ih (hF.cons a), ih (hF.cons b)]
    set G : ℕ → V := fun i => ((1 - x) ^ (n + 1 - i) * x ^ i) • F (List.replicate (n + 1 - i) a ++ List.replicate i b) with hG
    have e1 : (1 - x) • ∑ i ∈ Finset.range (n + 1), ((n.choose i : K) * (1 - x) ^ (n - i) * x ^ i) •
        F (a :: (List.replicate (n - i) a ++ List.replicate i b)) = ∑ i ∈ Finset.range (n + 2), (n.choose i : K) • G i := by
      rw [Finset.sum_range_succ _ (n + 1), Nat.choose_succ_self, Nat.cast_zero, zero_smul, add_zero, Finset.smul_sum]
      apply Finset.sum_congr rfl
      intro i hi
      have hi' := Finset.mem_range.mp hi
      simp only [hG]
      rw [smul_smul, smul_smul, ← List.cons_append, ← List.replicate_succ, show n - i + 1 = n + 1 - i by omega]
      congr 1
      rw [show n + 1 - i = (n - i) + 1 by omega, pow_succ]
      ring
    have e2 : x • ∑ i ∈ Finset.range (n + 1), ((n.choose i : K) * (1 - x) ^ (n - i) * x ^ i) •
        F (b :: (List.replicate (n - i) a ++ List.replicate i b)) = ∑ i ∈ Finset.range (n + 1), (n.choose i : K) • G (i + 1) := by
      rw [Finset.smul_sum]
      apply Finset.sum_congr rfl
      intro i hi
      have hi' := Finset.mem_range.mp hi
      simp only [hG]
      rw [smul_smul, smul_smul, hF.perm (ys := List.replicate (n + 1 - (i + 1)) a ++ List.replicate (i + 1) b) (by simp; omega)]
      · rw [show n + 1 - (i + 1) = n - i by omega, pow_succ]
        congr 1
        ring
      · rw [show n + 1 - (i + 1) = n - i by omega, List.replicate_succ]
        exact List.perm_middle.symm
    rw [e1, e2, Finset.sum_range_succ' _ (n + 1), Finset.sum_range_succ' _ (n + 1), add_right_comm, ← Finset.sum_add_distrib]
    congr 1
    · apply Finset.sum_congr rfl
      intro i _
      rw [← add_smul, Nat.choose_succ_succ']
      simp only [hG]
      rw [smul_smul]
      congr 1
      push_cast
      ring
    · simp [hG]

/-- The knots of a Bézier segment. -/
def bezT (p : ℕ) (a b : K) (j : ℕ) : K := if j ≤ p then a else b

theorem bezT_mono {p : ℕ} {a b : K} (h : a ≤ b) : Monotone (bezT p a b) := by
  intro i j hij
  unfold bezT
  split <;> split
  · exact le_rfl
  · exact h
  · omega
  · exact le_rfl

theorem seg_bezT (p : ℕ) (a b : K) {j n : ℕ} (hj : j ≤ p) (hn : p ≤ n + j) :
    seg (bezT p a b) (j + 1) n = List.replicate (p - j) a ++ List.replicate (n + j - p) b := by
  rw [show n = (p - j) + (n + j - p) by omega, seg_append]
  congr 1
  · have := seg_const (t := bezT p a b) (a := j + 1) (n := p - j) (u := a) (by
      intro k hk; unfold bezT; rw [if_pos (by omega)])
    exact this
  · rw [show p - j + (n + j - p) + j - p = n + j - p by omega]
    have := seg_const (t := bezT p a b) (a := j + 1 + (p - j)) (n := n + j - p) (u := b) (by
      intro k hk; unfold bezT; rw [if_neg (by omega)])
    exact this

/-- The blossom of a Bézier segment. -/
def bezBl (p : ℕ) (a b : K) (c : ℕ → V) : List K → V := bl (bezT p a b) p c

theorem bezBl_isBlossom {p : ℕ} {a b : K} (h : a < b) (c : ℕ → V) : IsBlossom p (bezBl p a b c) :=
  bl_isBlossom (bezT_mono h.le) (by unfold bezT; rw [if_pos le_rfl, if_neg (by omega)]; exact h) le_rfl c

theorem bezBl_pole {p : ℕ} {a b : K} (h : a < b) (c : ℕ → V) {j : ℕ} (hj : j ≤ p) :
    bezBl p a b c (List.replicate (p - j) a ++ List.replicate j b) = c j := by
  have := bl_dual (bezT_mono h.le) (k := p) (by unfold bezT; rw [if_pos le_rfl, if_neg (by omega)]; exact h) p c j le_rfl (by omega) hj
  rw [seg_bezT p a b hj (by omega), show p + j - p = j by omega] at this
  exact this

/-- A blossom is determined by its values at two points. -/
theorem IsBlossom.eq_of_two {p : ℕ} {F G : List K → V} (hF : IsBlossom p F) (hG : IsBlossom p G) {a b : K} (h : a < b)
    (hE : ∀ j, j ≤ p → F (List.replicate (p - j) a ++ List.replicate j b) = G (List.replicate (p - j) a ++ List.replicate j b)) :
    ∀ xs : List K, xs.length = p → F xs = G xs := by
  have key : ∀ H : List K → V, IsBlossom p H → (∀ j, j ≤ p → F (List.replicate (p - j) a ++ List.replicate j b) = H (List.replicate (p - j) a ++ List.replicate j b)) →
      ∀ xs : List K, xs.length = p → bezBl p a b (fun j => F (List.replicate (p - j) a ++ List.replicate j b)) xs = H xs := by
    intro H hH hE xs hx
    apply bl_unique (bezT_mono h.le) (k := p) (by unfold bezT; rw [if_pos le_rfl, if_neg (by omega)]; exact h) xs H
      (fun j => F (List.replicate (p - j) a ++ List.replicate j b)) (by omega) (by rw [hx]; exact hH)
    intro j _ hj
    rw [hx, seg_bezT p a b hj (by omega), show p + j - p = j by omega]
    exact hE j hj
  intro xs hx
  rw [← key F hF (fun _ _ => rfl) xs hx, key G hG hE xs hx]

end Gbs
