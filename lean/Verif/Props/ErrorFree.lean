import Verif.Props.Orient

/-!
# C75: the error-free transformations

The functions of `inc/topology/robustPredicates.h` that compute the rounding error of an operation along with its result.
-/

namespace Gbs.Pred

open Fl

variable {p : ℕ}

/-- A floating point number of `p` bits. -/
def Spec.IsFloat (p : ℕ) (x : ℚ) : Prop := ∃ m e : ℤ, |m| < 2 ^ p ∧ x = m * 2 ^ e

/-- `x` is a floating point number nearest to `v` and `y` is what is left, a floating point number too. -/
def Spec.ErrorFree (p : ℕ) (v : ℚ) (q : ℚ × ℚ) : Prop :=
  q.1 + q.2 = v ∧ Spec.IsFloat p q.1 ∧ Spec.IsFloat p q.2 ∧ ∀ z, Spec.IsFloat p z → |q.1 - v| ≤ |z - v|

/-- A list of floating point numbers in which the sum of those in front is smaller than the last bit of all those behind. -/
def Spec.Nonoverlapping (p : ℕ) (e : List ℚ) : Prop :=
  (∀ x ∈ e, Spec.IsFloat p x) ∧ ∀ l m, l ++ m = e → m ≠ [] → ∃ s : ℤ, |l.sum| < 2 ^ s ∧ ∀ y ∈ m, ∃ n : ℤ, y = n * 2 ^ s

/-- **C75**, `two_sum`, without assumption on the magnitudes. -/
theorem C75_two_sum (hp : 3 ≤ p) {a b : ℚ} (ha : Spec.IsFloat p a) (hb : Spec.IsFloat p b) :
    Spec.ErrorFree p (a + b) (twoSum (rnd p none) a b) := by
  have hp0 : 0 < p := by omega
  rw [twoSum_eq hp ha hb]
  refine ⟨by ring, rnd_rep hp0 _, ?_, fun z hz => rnd_nearest hp0 hz⟩
  have := (err_rep hp0 ha hb).neg
  rwa [neg_sub] at this

/-- **C75**, `two_diff`. -/
theorem C75_two_diff (hp : 3 ≤ p) {a b : ℚ} (ha : Spec.IsFloat p a) (hb : Spec.IsFloat p b) :
    Spec.ErrorFree p (a - b) (twoDiff (rnd p none) a b) := by
  have hp0 : 0 < p := by omega
  rw [twoDiff_eq hp ha hb]
  refine ⟨by ring, rnd_rep hp0 _, ?_, fun z hz => rnd_nearest hp0 hz⟩
  have := (err_rep hp0 ha (Rep.neg hb)).neg
  rwa [neg_sub, ← sub_eq_add_neg] at this

/-- **C75**, `fast_two_sum`, when the first number is not the smaller one. -/
theorem C75_fast_two_sum (hp : 0 < p) {a b : ℚ} (ha : Spec.IsFloat p a) (hb : Spec.IsFloat p b) (hab : |b| ≤ |a|) :
    Spec.ErrorFree p (a + b) (fastTwoSum (rnd p none) a b) := by
  rw [fastTwoSum_eq hp ha hb (.inl hab)]
  refine ⟨by ring, rnd_rep hp _, ?_, fun z hz => rnd_nearest hp hz⟩
  have := (err_rep hp ha hb).neg
  rwa [neg_sub] at this

/-- **C75**, `two_product`. -/
theorem C75_two_product (hp : 4 ≤ p) {a b : ℚ} (ha : Spec.IsFloat p a) (hb : Spec.IsFloat p b) :
    Spec.ErrorFree p (a * b) (twoProduct p (rnd p none) a b) := by
  have hp0 : 0 < p := by omega
  rw [twoProduct_eq hp ha hb]
  exact ⟨by ring, rnd_rep hp0 _, mul_err_rep hp ha hb, fun z hz => rnd_nearest hp0 hz⟩

theorem ex_iff {e : List ℚ} : ∀ {S : ℚ}, Ex p S e ↔
    (∀ x ∈ e, Spec.IsFloat p x) ∧ ∀ l m, l ++ m = e → m ≠ [] → ∃ s : ℤ, |S + l.sum| < 2 ^ s ∧ ∀ y ∈ m, ∃ n : ℤ, y = n * 2 ^ s := by
  induction e with
  | nil =>
    intro S
    simp only [Ex, true_iff]
    refine ⟨by simp, fun l m h hm => ?_⟩
    exact absurd (List.append_eq_nil_iff.1 h).2 hm
  | cons x e ih =>
    intro S
    simp only [Ex]
    rw [ih]
    constructor
    · rintro ⟨h1, ⟨s, h2, h3⟩, h4, h5⟩
      refine ⟨fun y hy => ?_, fun l m h hm => ?_⟩
      · rcases List.mem_cons.1 hy with rfl | hy
        · exact h1
        · exact h4 y hy
      · cases l with
        | nil =>
          rw [List.nil_append] at h
          subst h
          exact ⟨s, by simpa using h2, h3⟩
        | cons z l =>
          rw [List.cons_append, List.cons.injEq] at h
          obtain ⟨rfl, h⟩ := h
          obtain ⟨s, h6, h7⟩ := h5 l m h hm
          exact ⟨s, by rw [List.sum_cons, ← add_assoc]; exact h6, h7⟩
    · rintro ⟨h1, h2⟩
      refine ⟨h1 x (by simp), ?_, fun y hy => h1 y (by simp [hy]), fun l m h hm => ?_⟩
      · obtain ⟨s, h3, h4⟩ := h2 [] (x :: e) rfl (by simp)
        exact ⟨s, by simpa using h3, h4⟩
      · obtain ⟨s, h3, h4⟩ := h2 (x :: l) m (by rw [List.cons_append, h]) hm
        exact ⟨s, by rw [List.sum_cons, ← add_assoc] at h3; exact h3, h4⟩

theorem nonoverlapping_iff {e : List ℚ} : Spec.Nonoverlapping p e ↔ Ex p 0 e := by
  rw [ex_iff, Spec.Nonoverlapping]
  simp only [zero_add]

/-- **C75**, `fast_expansion_sum_zeroelim`: the sum of two expansions is exact and is an expansion again. It fits in an array of as many components as both have, and
its last component has the sign of the sum. -/
theorem C75_expansion_sum (hp : 3 ≤ p) {e f : List ℚ} (he : Spec.Nonoverlapping p e) (hf : Spec.Nonoverlapping p f) (he0 : e ≠ []) (hf0 : f ≠ []) :
    ∃ r, fastExpansionSum (rnd p none) (e.length + f.length) e f = .ok r ∧ Spec.Nonoverlapping p r ∧ r.sum = e.sum + f.sum ∧
      ∃ h : r ≠ [], SignType.sign (r.getLast h) = SignType.sign (e.sum + f.sum) := by
  obtain ⟨r, h1, h2, h3, h4, -, h5⟩ := fastExpansionSum_spec hp (nonoverlapping_iff.1 he) (nonoverlapping_iff.1 hf) he0 hf0 le_rfl
  exact ⟨r, h1, nonoverlapping_iff.2 h2, h3, h4, h5 _ (List.getLast?_eq_getLast_of_ne_nil h4)⟩

/-! ### Examples -/

/-- A sum whose rounding error is not zero, in four bits: `15 + 1 / 2`. -/
example : twoSum (rnd 4 none) 15 (1 / 2) = (16, -(1 / 2)) ∧ Spec.ErrorFree 4 (15 + 1 / 2) (twoSum (rnd 4 none) 15 (1 / 2)) :=
  ⟨by decide +kernel, C75_two_sum (by norm_num) ⟨15, 0, by norm_num, by norm_num⟩ ⟨1, -1, by norm_num, by norm_num⟩⟩

example : Spec.ErrorFree 4 (15 - 1 / 2) (twoDiff (rnd 4 none) 15 (1 / 2)) :=
  C75_two_diff (by norm_num) ⟨15, 0, by norm_num, by norm_num⟩ ⟨1, -1, by norm_num, by norm_num⟩

example : Spec.ErrorFree 4 (15 + 1 / 2) (fastTwoSum (rnd 4 none) 15 (1 / 2)) :=
  C75_fast_two_sum (by norm_num) ⟨15, 0, by norm_num, by norm_num⟩ ⟨1, -1, by norm_num, by norm_num⟩ (by norm_num [abs_of_pos])

/-- `13 * 11 = 144 - 1` in four bits. -/
example : twoProduct 4 (rnd 4 none) 13 11 = (144, -1) ∧ Spec.ErrorFree 4 (13 * 11) (twoProduct 4 (rnd 4 none) 13 11) :=
  ⟨by decide +kernel, C75_two_product (by norm_num) ⟨13, 0, by norm_num, by norm_num⟩ ⟨11, 0, by norm_num, by norm_num⟩⟩

theorem ex_sample (n : ℤ) (hn : |n| < 2 ^ 4) : Spec.Nonoverlapping 4 [1, n * 2 ^ (3 : ℤ)] := by
  rw [nonoverlapping_iff]
  refine ⟨⟨1, 0, by norm_num, by norm_num⟩, ⟨0, by norm_num, ?_⟩, ⟨n, 3, hn, rfl⟩, ⟨3, by norm_num, ?_⟩, trivial⟩
  · intro y hy
    simp only [List.mem_cons, List.not_mem_nil, or_false] at hy
    rcases hy with rfl | rfl
    · exact ⟨1, by norm_num⟩
    · exact ⟨n * 8, by push_cast; norm_num⟩
  · intro y hy
    simp only [List.mem_cons, List.not_mem_nil, or_false] at hy
    rw [hy]
    exact ⟨n, rfl⟩

/-- `(1 + 104) + (1 - 104)` in four bits: the last component is positive. -/
example : ∃ r, fastExpansionSum (rnd 4 none) 4 [1, (13 : ℤ) * 2 ^ (3 : ℤ)] [1, ((-13 : ℤ) : ℚ) * 2 ^ (3 : ℤ)] = .ok r ∧
    ∃ h : r ≠ [], 0 < r.getLast h := by
  obtain ⟨r, h1, -, -, h2, h3⟩ := C75_expansion_sum (by norm_num) (ex_sample 13 (by norm_num)) (ex_sample (-13) (by norm_num)) (by simp) (by simp)
  refine ⟨r, h1, h2, sign_eq_one_iff.1 (h3.trans (sign_pos ?_))⟩
  norm_num

end Gbs.Pred
