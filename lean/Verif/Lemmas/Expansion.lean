import Verif.Lemmas.ErrorFree
import Mathlib.Algebra.BigOperators.Group.List.Basic
import Mathlib.Data.Sign.Basic

/-!
# Expansions

An expansion is a list of floating point numbers, the sum of which is its value. The invariant used here is weaker than Shewchuk's strong
nonoverlapping property and is kept by `fast_expansion_sum_zeroelim`: each sum of the first components is less than a power of two that divides all
the other ones.
-/

namespace Gbs.Pred

open Fl

variable {p : ℕ}

/-- The components that are left of an expansion after those with sum `S`. -/
def Ex (p : ℕ) : ℚ → List ℚ → Prop
  | _, [] => True
  | S, x :: l => Rep p x ∧ (∃ s, |S| < 2 ^ s ∧ ∀ y ∈ x :: l, Mul s y) ∧ Ex p (S + x) l

theorem Ex.rep {S : ℚ} {l : List ℚ} (h : Ex p S l) : ∀ y ∈ l, Rep p y := by
  induction l generalizing S with
  | nil => simp
  | cons x l ih =>
    intro y hy
    rcases List.mem_cons.1 hy with rfl | hy
    · exact h.1
    · exact ih h.2.2 y hy

/-- The components after `g` are multiples of a power of two that is not less than `g`. -/
theorem Ex.tail_mul {S g : ℚ} {l : List ℚ} (h : Ex p S (g :: l)) : ∃ m, |g| ≤ 2 ^ m ∧ ∀ y ∈ l, Mul m y := by
  obtain ⟨hg, ⟨s, hs, hm⟩, ht⟩ := h
  cases l with
  | nil =>
    by_cases h0 : g = 0
    · exact ⟨0, by simp [h0], by simp⟩
    · obtain ⟨k, -, hk⟩ := exists_binade h0
      exact ⟨k + 1, hk.le, by simp⟩
  | cons x l =>
    obtain ⟨-, ⟨t, ht, hm'⟩, -⟩ := ht
    refine ⟨max s t, ?_, fun y hy => ?_⟩
    · refine (hm g (by simp)).abs.le_of_lt (two_mul_of_le (le_max_left s t)) ?_
      have h1 : |g| ≤ |S + g| + |S| := by
        have := abs_sub (S + g) S
        rwa [add_sub_cancel_left] at this
      have := two_le (le_max_right s t)
      linarith
    · rcases max_choice s t with hc | hc <;> rw [hc]
      · exact hm y (by simp [List.mem_cons.1 hy])
      · exact hm' y hy

theorem Ex.le_of_mem {S g : ℚ} {l : List ℚ} (h : Ex p S (g :: l)) : ∀ y ∈ l, y ≠ 0 → |g| ≤ |y| := by
  obtain ⟨m, hm, hl⟩ := h.tail_mul
  exact fun y hy h0 => hm.trans ((hl y hy).le_abs h0)

/-- The effect of one addition on the power of two that separates what is done from what is left. -/
theorem sum_step (hp : 2 ≤ p) {E F Q H g : ℚ} {e f : List ℚ} {s0 k : ℤ} (hsum : Q + H = E + F)
    (he : Ex p E (g :: e)) (hf : Ex p F f) (hk1 : 2 ^ k ≤ |g|) (hk2 : |g| < 2 ^ (k + 1)) (hF : |F| < 2 ^ (k + 1))
    (hfl : ∀ y ∈ f, y ≠ 0 → |g| ≤ |y|) (hH : |H| < 2 ^ s0) (hQ0 : Mul s0 Q) (hg0 : Mul s0 g)
    (he0 : ∀ y ∈ e, Mul s0 y) (hf0 : ∀ y ∈ f, Mul s0 y) :
    ∃ s, |H + (Q + g - rnd p none (Q + g))| < 2 ^ s ∧ Mul s (rnd p none (Q + g)) ∧ (∀ y ∈ e, Mul s y) ∧ ∀ y ∈ f, Mul s y := by
  have hp0 : 0 < p := by omega
  by_cases hr : Rep p (Q + g)
  · rw [hr.rnd, sub_self, add_zero]
    exact ⟨s0, hH, hQ0.add hg0, he0, hf0⟩
  -- the components of `e` that are left are multiples of `2 ^ k`
  have hek : ∀ y ∈ e, Mul k y := by
    obtain ⟨m, hm, hl⟩ := he.tail_mul
    intro y hy
    exact (hl y hy).mono (le_of_two_le (hk1.trans hm))
  -- the components of `f` that are left are multiples of `2 ^ l`, which is more than the others
  obtain ⟨l, hl1, hl2, hl3⟩ : ∃ l : ℤ, k + 1 - p ≤ l ∧ |F| < 2 ^ l ∧ ∀ y ∈ f, Mul l y := by
    cases f with
    | nil => exact ⟨k + 1, by omega, hF, by simp⟩
    | cons x f =>
      obtain ⟨m, hm, hml⟩ := hf.2.1
      refine ⟨max m (k + 1 - p), le_max_right _ _, hm.trans_le (two_le (le_max_left _ _)), fun y hy => ?_⟩
      rcases max_choice m (k + 1 - p) with hc | hc <;> rw [hc]
      · exact hml y hy
      · by_cases h0 : y = 0
        · rw [h0]
          exact Mul.zero _
        · exact (hf.rep y hy).mul (hk1.trans (hfl y hy h0))
  have hEg : |E + g| < 2 ^ (k + 1) := by
    obtain ⟨-, ⟨s, hs, hm⟩, -⟩ := he
    have hg := hm g (by simp)
    have hg0 : g ≠ 0 := by
      rintro rfl
      rw [abs_zero] at hk1
      linarith [two_pos k]
    have hsk : s < k + 1 := lt_of_two_lt ((hg.le_abs hg0).trans_lt hk2)
    have := hg.abs.add_le_of_lt (two_mul_of_le hsk.le) hk2
    exact (abs_add_le E g).trans_lt (by linarith)
  have hT : Q + g + H = (E + g) + F := by linarith
  have hT1 : |Q + g + H| < 2 ^ (k + 1) + 2 ^ l := by
    rw [hT]
    exact (abs_add_le _ _).trans_lt (by linarith)
  have hT2 : |Q + g + H| < 2 ^ (k + 2) := by
    rw [hT, show k + 2 = k + 1 + 1 by ring, two_succ]
    exact (abs_add_le _ _).trans_lt (by linarith)
  have hmR : Mul s0 (Q + g) := hQ0.add hg0
  have hRT : |Q + g| < |Q + g + H| + 2 ^ s0 := by
    have := abs_sub (Q + g + H) H
    rw [add_sub_cancel_right] at this
    linarith
  rcases rnd_ulp (p := p) (Q + g) with h0 | ⟨q, h1, h2, hq, hqe⟩
  · rw [h0] at hr
    exact absurd (Rep.zero p) hr
  have hs0q : s0 < q := by
    by_contra hc
    exact hr ((hmR.mono (not_lt.1 hc)).rep hp0 h2.le)
  have hsq : (2 : ℚ) ^ s0 ≤ 2 ^ (q - 1) := two_le (by omega)
  have hqq := two_pred q
  have hq1 : q + p - 1 ≤ k + 2 := by
    by_contra hc
    have e1 : (2 : ℚ) ^ (k + 2 + 1) ≤ 2 ^ (q + p - 1) := two_le (by omega)
    have e2 : (2 : ℚ) ^ (q + 1) ≤ 2 ^ (q + p - 1) := two_le (by omega)
    rw [two_succ] at e1 e2
    linarith [two_pos (q - 1)]
  have hq2 : q + p - 1 ≠ k + 2 := by
    intro hc
    rw [hc] at h1
    have : |Q + g| ≤ 2 ^ (k + 2) := hmR.abs.le_of_lt (two_mul_of_le (by omega)) (by linarith)
    have hq3 : |Q + g| = 2 ^ (k + 2) := le_antisymm this h1
    have hm : Mul (k + 2) |Q + g| := by rw [hq3]; exact two_mul_self _
    have hm' : Mul (k + 2) (Q + g) := by
      rcases abs_choice (Q + g) with h' | h' <;> rw [h'] at hm
      · exact hm
      · rw [← neg_neg (Q + g)]
        exact hm.neg
    exact hr (hm'.rep hp0 (this.trans (two_le (by omega))))
  have hHq : |H + (Q + g - rnd p none (Q + g))| < 2 ^ q := by
    rw [abs_sub_comm] at hqe
    exact (abs_add_le _ _).trans_lt (by linarith)
  by_cases hlq : q ≤ l
  · exact ⟨q, hHq, hq, fun y hy => (hek y hy).mono (by omega), fun y hy => (hl3 y hy).mono hlq⟩
  -- the sum is just above a power of two and is rounded to it
  have hle : l = k + 1 - p := by omega
  have hqe2 : q = l + 1 := by omega
  have hs0l : s0 ≤ l := by omega
  rw [show q + (p : ℤ) - 1 = k + 1 by omega] at h1
  have hup : |Q + g| ≤ 2 ^ (k + 1) + 2 ^ l :=
    hmR.abs.le_of_lt ((two_mul_of_le (by omega)).add (two_mul_of_le hs0l)) (by linarith)
  have hlk : k + 1 - (p : ℤ) = l := hle.symm
  have hsl : (2 : ℚ) ^ s0 ≤ 2 ^ l := two_le hs0l
  rcases le_total 0 (Q + g) with hpos | hneg
  · rw [abs_of_nonneg hpos] at h1 hup
    have hrt : rnd p none (Q + g) = 2 ^ (k + 1) := rnd_tie hp h1 (by rwa [hlk])
    refine ⟨l, ?_, ?_, fun y hy => (hek y hy).mono (by omega), hl3⟩
    · rw [hrt, abs_lt]
      have h3 := abs_lt.1 hH
      have h4 := (abs_lt.1 hT1).2
      constructor <;> linarith
    · rw [hrt]
      exact two_mul_of_le (by omega)
  · rw [abs_of_nonpos hneg] at h1 hup
    have hrt : rnd p none (Q + g) = -2 ^ (k + 1) := by
      have := rnd_tie hp h1 (by rwa [hlk])
      rw [rnd_neg] at this
      linarith
    refine ⟨l, ?_, ?_, fun y hy => (hek y hy).mono (by omega), hl3⟩
    · rw [hrt, abs_lt]
      have h3 := abs_lt.1 hH
      have h4 := (abs_lt.1 hT1).1
      constructor <;> linarith
    · rw [hrt]
      exact (two_mul_of_le (by omega)).neg

/-- State of the summation: `E` and `F` are the sums of the components already added, `e` and `f` those that are left, `Q` the running sum and `h` the
components already written. -/
structure SumInv (p : ℕ) (E F Q : ℚ) (h e f : List ℚ) : Prop where
  rep : Rep p Q
  reps : ∀ x ∈ h, Rep p x
  ne : ∀ x ∈ h, x ≠ 0
  sum : Q + h.sum = E + F
  exE : Ex p E e
  exF : Ex p F f
  bndE : ∀ y ∈ e, y ≠ 0 → ∀ k : ℤ, |y| < 2 ^ (k + 1) → |E| < 2 ^ (k + 1) ∧ |F| < 2 ^ (k + 1)
  bndF : ∀ y ∈ f, y ≠ 0 → ∀ k : ℤ, |y| < 2 ^ (k + 1) → |E| < 2 ^ (k + 1) ∧ |F| < 2 ^ (k + 1)
  split : ∀ l1 l2, h = l1 ++ l2 → ∃ s, |l1.sum| < 2 ^ s ∧ (∀ y ∈ l2, Mul s y) ∧ Mul s Q ∧ (∀ y ∈ e, Mul s y) ∧ ∀ y ∈ f, Mul s y

theorem SumInv.symm {E F Q : ℚ} {h e f : List ℚ} (i : SumInv p E F Q h e f) : SumInv p F E Q h f e where
  rep := i.rep
  reps := i.reps
  ne := i.ne
  sum := by rw [i.sum, add_comm]
  exE := i.exF
  exF := i.exE
  bndE := fun y hy h0 k hk => (i.bndF y hy h0 k hk).symm
  bndF := fun y hy h0 k hk => (i.bndE y hy h0 k hk).symm
  split := fun l1 l2 hl => by
    obtain ⟨s, h1, h2, h3, h4, h5⟩ := i.split l1 l2 hl
    exact ⟨s, h1, h2, h3, h5, h4⟩

/-- A nonzero error is written. -/
def nz (h : List ℚ) (x : ℚ) : List ℚ := if x ≠ 0 then h ++ [x] else h

theorem nz_sum (h : List ℚ) (x : ℚ) : (nz h x).sum = h.sum + x := by
  unfold nz
  split_ifs with hx
  · simp
  · rw [not_not.1 hx, add_zero]

theorem nz_length (h : List ℚ) (x : ℚ) : (nz h x).length ≤ h.length + 1 := by
  unfold nz
  split_ifs <;> simp

theorem pushNz_ok {cap : ℕ} {h : List ℚ} {x : ℚ} (hc : h.length < cap) : pushNz cap h x = .ok (nz h x) := by
  unfold pushNz nz push
  split_ifs <;> rfl

theorem append_eq_append_singleton {α : Type} {h l1 l2 : List α} {x : α} (hl : h ++ [x] = l1 ++ l2) :
    (l2 = [] ∧ l1 = h ++ [x]) ∨ ∃ l, l2 = l ++ [x] ∧ h = l1 ++ l := by
  rcases List.eq_nil_or_concat l2 with h0 | ⟨l, y, rfl⟩
  · subst h0
    exact .inl ⟨rfl, by simpa using hl.symm⟩
  · right
    rw [List.concat_eq_append, ← List.append_assoc] at hl
    obtain ⟨h1, h2⟩ := List.append_inj' hl rfl
    simp only [List.cons.injEq, and_true] at h2
    exact ⟨l, by rw [List.concat_eq_append, h2], h1⟩

theorem SumInv.step (hp : 2 ≤ p) {E F Q g : ℚ} {h e f : List ℚ} (i : SumInv p E F Q h (g :: e) f)
    (hord : g ≠ 0 → ∀ y ∈ f, y ≠ 0 → |g| ≤ |y|) :
    SumInv p (E + g) F (rnd p none (Q + g)) (nz h (Q + g - rnd p none (Q + g))) e f := by
  have hp0 : 0 < p := by omega
  have hgr := i.exE.1
  have bnd : ∀ y, y ∈ e ∨ y ∈ f → y ≠ 0 → ∀ k : ℤ, |y| < 2 ^ (k + 1) → |E + g| < 2 ^ (k + 1) ∧ |F| < 2 ^ (k + 1) := by
    intro y hy h0 k hk
    by_cases hg : g = 0
    · rw [hg, add_zero]
      rcases hy with hy | hy
      · exact i.bndE y (List.mem_cons_of_mem _ hy) h0 k hk
      · exact i.bndF y hy h0 k hk
    · have hgy : |g| ≤ |y| := by
        rcases hy with hy | hy
        · exact i.exE.le_of_mem y hy h0
        · exact hord hg y hy h0
      refine ⟨?_, (i.bndE g (by simp) hg k (hgy.trans_lt hk)).2⟩
      obtain ⟨-, ⟨s, hs, hm⟩, -⟩ := i.exE
      have hmg := hm g (by simp)
      have hsk : s < k + 1 := lt_of_two_lt ((hmg.le_abs hg).trans_lt (hgy.trans_lt hk))
      have := hmg.abs.add_le_of_lt (two_mul_of_le hsk.le) (hgy.trans_lt hk)
      exact (abs_add_le E g).trans_lt (by linarith)
  refine ⟨rnd_rep hp0 _, ?_, ?_, ?_, i.exE.2.2, i.exF, fun y hy => bnd y (.inl hy), fun y hy => bnd y (.inr hy), ?_⟩
  · intro x hx
    unfold nz at hx
    split_ifs at hx with h0
    · rcases List.mem_append.1 hx with h1 | h1
      · exact i.reps x h1
      · rw [List.mem_singleton.1 h1]
        have := (err_rep hp0 i.rep hgr).neg
        rwa [neg_sub] at this
    · exact i.reps x hx
  · intro x hx
    unfold nz at hx
    split_ifs at hx with h0
    · rcases List.mem_append.1 hx with h1 | h1
      · exact i.ne x h1
      · rw [List.mem_singleton.1 h1]
        exact h0
    · exact i.ne x hx
  · rw [nz_sum]
    linarith [i.sum]
  · -- what holds before the addition is kept
    have old : ∀ l1 l2, h = l1 ++ l2 → ∃ s, |l1.sum| < 2 ^ s ∧ (∀ y ∈ l2, Mul s y) ∧ Mul s (Q + g - rnd p none (Q + g)) ∧
        Mul s (rnd p none (Q + g)) ∧ (∀ y ∈ e, Mul s y) ∧ ∀ y ∈ f, Mul s y := by
      intro l1 l2 hl
      obtain ⟨s, h1, h2, h3, h4, h5⟩ := i.split l1 l2 hl
      have hR := h3.add (h4 g (by simp))
      exact ⟨s, h1, h2, hR.sub (hR.rnd hp0), hR.rnd hp0, fun y hy => h4 y (List.mem_cons_of_mem _ hy), h5⟩
    intro l1 l2 hl
    unfold nz at hl
    split_ifs at hl with h0
    · rcases append_eq_append_singleton hl with ⟨rfl, rfl⟩ | ⟨l, rfl, hl'⟩
      · have hg0 : g ≠ 0 := by
          rintro rfl
          rw [add_zero, i.rep.rnd, sub_self] at h0
          exact h0 rfl
        obtain ⟨k, hk1, hk2⟩ := exists_binade hg0
        obtain ⟨s0, a1, -, a3, a4, a5⟩ := i.split h [] (by simp)
        obtain ⟨s, b1, b2, b3, b4⟩ := sum_step hp i.sum i.exE i.exF hk1 hk2 (i.bndE g (by simp) hg0 k hk2).2 (hord hg0) a1 a3
          (a4 g (by simp)) (fun y hy => a4 y (List.mem_cons_of_mem _ hy)) a5
        refine ⟨s, ?_, by simp, b2, b3, b4⟩
        rw [List.sum_append, List.sum_singleton]
        exact b1
      · obtain ⟨s, c1, c2, c3, c4, c5, c6⟩ := old l1 l hl'
        refine ⟨s, c1, ?_, c4, c5, c6⟩
        intro y hy
        rcases List.mem_append.1 hy with h1 | h1
        · exact c2 y h1
        · rw [List.mem_singleton.1 h1]
          exact c3
    · obtain ⟨s, c1, c2, -, c4, c5, c6⟩ := old l1 l2 hl
      exact ⟨s, c1, c2, c4, c5, c6⟩

theorem drain_spec (hp : 3 ≤ p) {cap : ℕ} {F : ℚ} {f : List ℚ} (hf : f = []) {e : List ℚ} :
    ∀ {E Q : ℚ} {h : List ℚ}, SumInv p E F Q h e f → h.length + e.length ≤ cap →
    ∃ Q' h', drain (rnd p none) cap e Q h = .ok (Q', h') ∧ SumInv p (E + e.sum) F Q' h' [] f ∧ h'.length ≤ h.length + e.length := by
  induction e with
  | nil =>
    intro E Q h i _
    exact ⟨Q, h, rfl, by simpa using i, by simp⟩
  | cons g e ih =>
    intro E Q h i hc
    simp only [List.length_cons] at hc
    have hs := i.step (by omega) (by subst hf; simp)
    obtain ⟨Q', h', hd, hi, hl⟩ := ih hs (by have := nz_length h (Q + g - rnd p none (Q + g)); omega)
    refine ⟨Q', h', ?_, ?_, ?_⟩
    · rw [drain, twoSum_eq hp i.rep i.exE.1]
      simp only
      rw [pushNz_ok (by omega)]
      exact hd
    · rw [List.sum_cons, ← add_assoc]
      exact hi
    · have := nz_length h (Q + g - rnd p none (Q + g))
      simp only [List.length_cons]
      omega

theorem takeE_le {e f : ℚ} (h : takeE e f = true) : |e| ≤ |f| := by
  have h : (e < f ↔ -e < f) := by simpa [takeE] using h
  rcases le_total 0 e with he | he
  · rw [abs_of_nonneg he]
    by_cases hc : e < f
    · exact hc.le.trans (le_abs_self f)
    · have := not_lt.1 fun h' => hc (h.2 h')
      exact (by linarith : e ≤ -f).trans (neg_le_abs f)
  · rw [abs_of_nonpos he]
    by_cases hc : -e < f
    · exact hc.le.trans (le_abs_self f)
    · have := not_lt.1 fun h' => hc (h.1 h')
      exact (by linarith : -e ≤ -f).trans (neg_le_abs f)

theorem not_takeE_le {e f : ℚ} (h : takeE e f ≠ true) : |f| ≤ |e| := by
  have h : ¬ (e < f ↔ -e < f) := by simpa [takeE] using h
  rw [abs_le]
  by_cases hc : e < f
  · have h2 : ¬ -e < f := fun h' => h ⟨fun _ => h', fun _ => hc⟩
    have h2 := not_lt.1 h2
    rw [abs_of_nonpos (by linarith)]
    constructor <;> linarith
  · have h2 : -e < f := by
      by_contra h2
      exact h ⟨fun h' => absurd h' hc, fun h' => absurd h' h2⟩
    have hc := not_lt.1 hc
    rw [abs_of_nonneg (by linarith)]
    constructor <;> linarith

theorem order_e {F e0 f0 : ℚ} {f : List ℚ} (hf : Ex p F (f0 :: f)) (h : |e0| ≤ |f0|) :
    e0 ≠ 0 → ∀ y ∈ f0 :: f, y ≠ 0 → |e0| ≤ |y| := by
  intro h0 y hy hy0
  rcases List.mem_cons.1 hy with rfl | hy
  · exact h
  · exact h.trans (hf.le_of_mem y hy hy0)

theorem mergeLoop_spec (hp : 3 ≤ p) {cap : ℕ} (n : ℕ) : ∀ {e f : List ℚ} {E F Q : ℚ} {h : List ℚ}, e.length + f.length = n →
    SumInv p E F Q h e f → h.length + n ≤ cap →
    ∃ Q' h', mergeLoop (rnd p none) cap e f Q h = .ok (Q', h') ∧ SumInv p (E + e.sum) (F + f.sum) Q' h' [] [] ∧
      h'.length ≤ h.length + n := by
  induction n using Nat.strong_induction_on with
  | _ n ih =>
    intro e f E F Q h hn i hc
    match e, f, i, hn with
    | [], f, i, hn =>
      rw [mergeLoop, drain, R_bind_ok]
      simp only [List.length_nil, zero_add] at hn
      obtain ⟨Q', h', hd, hi, hl⟩ := drain_spec hp (f := []) rfl i.symm (by omega : h.length + f.length ≤ cap)
      exact ⟨Q', h', hd, by simpa using hi.symm, by omega⟩
      simp
    | g :: e, [], i, hn =>
      simp only [List.length_nil, add_zero] at hn
      obtain ⟨Q', h', hd, hi, hl⟩ := drain_spec hp (f := []) rfl i (by omega : h.length + (g :: e).length ≤ cap)
      rw [mergeLoop, hd, R_bind_ok]
      exact ⟨Q', h', rfl, by simpa using hi, by omega⟩
      simp
    | e0 :: e, f0 :: f, i, hn =>
      simp only [List.length_cons] at hn
      rw [mergeLoop]
      by_cases ht : takeE e0 f0 = true
      · rw [if_pos ht]
        have hs := i.step (by omega) (order_e i.exF (takeE_le ht))
        have hl0 := nz_length h (Q + e0 - rnd p none (Q + e0))
        obtain ⟨Q', h', hd, hi, hl⟩ := ih (n - 1) (by omega) (by simp only [List.length_cons]; omega) hs (by omega)
        refine ⟨Q', h', ?_, ?_, by omega⟩
        · rw [twoSum_eq hp i.rep i.exE.1]
          simp only
          rw [pushNz_ok (by omega)]
          exact hd
        · rw [List.sum_cons, ← add_assoc]
          exact hi
      · rw [if_neg ht]
        have hs := (i.symm.step (by omega) (order_e i.exE (not_takeE_le ht))).symm
        have hl0 := nz_length h (Q + f0 - rnd p none (Q + f0))
        obtain ⟨Q', h', hd, hi, hl⟩ := ih (n - 1) (by omega) (by simp only [List.length_cons]; omega) hs (by omega)
        refine ⟨Q', h', ?_, ?_, by omega⟩
        · rw [twoSum_eq hp i.rep i.exF.1]
          simp only
          rw [pushNz_ok (by omega)]
          exact hd
        · rw [List.sum_cons (a := f0), ← add_assoc]
          exact hi

theorem sumTail_spec (hp : 3 ≤ p) {cap : ℕ} {e f : List ℚ} {E F Q : ℚ} (i : SumInv p E F Q [] e f)
    (hQe : ∀ g ∈ e.head?, g ≠ 0 → |Q| ≤ |g|) (hQf : ∀ g ∈ f.head?, g ≠ 0 → |Q| ≤ |g|) (hc : e.length + f.length ≤ cap) :
    ∃ Q' h', sumTail (rnd p none) cap e f Q = .ok (Q', h') ∧ SumInv p (E + e.sum) (F + f.sum) Q' h' [] [] ∧
      h'.length ≤ e.length + f.length := by
  match e, f, i, hQe, hQf, hc with
  | [], f, i, _, _, hc =>
    simp only [List.length_nil, zero_add] at hc
    obtain ⟨Q', h', hd, hi, hl⟩ := drain_spec hp (f := []) rfl i.symm (by simpa using hc : ([] : List ℚ).length + f.length ≤ cap)
    refine ⟨Q', h', ?_, by simpa using hi.symm, by simpa using hl⟩
    rw [sumTail, drain, R_bind_ok]
    · exact hd
    · simp
  | g :: e, [], i, _, _, hc =>
    obtain ⟨Q', h', hd, hi, hl⟩ := drain_spec hp (f := []) rfl i (by simpa using hc : ([] : List ℚ).length + (g :: e).length ≤ cap)
    refine ⟨Q', h', ?_, by simpa using hi, by simpa using hl⟩
    rw [sumTail, hd, R_bind_ok]
    · rfl
    · simp
  | e0 :: e, f0 :: f, i, hQe, hQf, hc =>
    simp only [List.length_cons] at hc
    have hfast : ∀ g, (g ≠ 0 → |Q| ≤ |g|) → |Q| ≤ |g| ∨ g = 0 := by
      intro g hg
      by_cases h0 : g = 0
      · exact .inr h0
      · exact .inl (hg h0)
    rw [sumTail]
    by_cases ht : takeE e0 f0 = true
    · rw [if_pos ht]
      have hs := i.step (by omega) (order_e i.exF (takeE_le ht))
      have hl0 := nz_length [] (Q + e0 - rnd p none (Q + e0))
      simp only [List.length_nil, zero_add] at hl0
      obtain ⟨Q', h', hd, hi, hl⟩ := mergeLoop_spec hp (cap := cap) (e.length + (f0 :: f).length) rfl hs
        (by simp only [List.length_cons]; omega)
      refine ⟨Q', h', ?_, ?_, by simp only [List.length_cons] at hl ⊢; omega⟩
      · rw [fastTwoSum_eq (by omega) i.exE.1 i.rep (hfast e0 (hQe e0 rfl)), add_comm e0 Q]
        simp only
        rw [pushNz_ok (by rw [List.length_nil]; omega)]
        exact hd
      · rw [List.sum_cons, ← add_assoc]
        exact hi
    · rw [if_neg ht]
      have hs := (i.symm.step (by omega) (order_e i.exE (not_takeE_le ht))).symm
      have hl0 := nz_length [] (Q + f0 - rnd p none (Q + f0))
      simp only [List.length_nil, zero_add] at hl0
      obtain ⟨Q', h', hd, hi, hl⟩ := mergeLoop_spec hp (cap := cap) ((e0 :: e).length + f.length) rfl hs
        (by simp only [List.length_cons]; omega)
      refine ⟨Q', h', ?_, ?_, by simp only [List.length_cons] at hl ⊢; omega⟩
      · rw [fastTwoSum_eq (by omega) i.exF.1 i.rep (hfast f0 (hQf f0 rfl)), add_comm f0 Q]
        simp only
        rw [pushNz_ok (by rw [List.length_nil]; omega)]
        exact hd
      · rw [List.sum_cons (a := f0), ← add_assoc]
        exact hi

theorem common_mul {l : List ℚ} (h : ∀ y ∈ l, Rep p y) : ∃ s, ∀ y ∈ l, Mul s y := by
  induction l with
  | nil => exact ⟨0, by simp⟩
  | cons x l ih =>
    obtain ⟨s, hs⟩ := ih fun y hy => h y (List.mem_cons_of_mem _ hy)
    obtain ⟨t, ht, -⟩ := (h x (by simp)).exists_mul
    refine ⟨min s t, fun y hy => ?_⟩
    rcases List.mem_cons.1 hy with rfl | hy
    · exact ht.mono (min_le_right _ _)
    · exact (hs y hy).mono (min_le_left _ _)

theorem SumInv.init {e f : List ℚ} (he : Ex p 0 e) (hf : Ex p 0 f) : SumInv p 0 0 0 [] e f := by
  refine ⟨Rep.zero p, by simp, by simp, by simp, he, hf, ?_, ?_, ?_⟩
  · intro y _ _ k _
    simpa using two_pos (k + 1)
  · intro y _ _ k _
    simpa using two_pos (k + 1)
  · intro l1 l2 hl
    obtain ⟨rfl, rfl⟩ := List.append_eq_nil_iff.1 hl.symm
    obtain ⟨s, hs⟩ := common_mul (l := e ++ f) (p := p) (fun y hy => by
      rcases List.mem_append.1 hy with h | h
      · exact he.rep y h
      · exact hf.rep y h)
    exact ⟨s, by simpa using two_pos s, by simp, Mul.zero s, fun y hy => hs y (by simp [hy]), fun y hy => hs y (by simp [hy])⟩

theorem Ex_of_split {r : List ℚ} (hr : ∀ x ∈ r, Rep p x)
    (h : ∀ l1 l2, r = l1 ++ l2 → ∃ s, |l1.sum| < 2 ^ s ∧ ∀ y ∈ l2, Mul s y) : Ex p 0 r := by
  have key : ∀ l2 l1, r = l1 ++ l2 → Ex p l1.sum l2 := by
    intro l2
    induction l2 with
    | nil => intros; trivial
    | cons x l2 ih =>
      intro l1 hl
      refine ⟨hr x (by simp [hl]), h l1 (x :: l2) hl, ?_⟩
      have := ih (l1 ++ [x]) (by simp [hl])
      rwa [List.sum_append, List.sum_singleton] at this
  simpa using key r [] rfl

theorem Ex.split {S : ℚ} {l1 l2 : List ℚ} (h : Ex p S (l1 ++ l2)) : Ex p (S + l1.sum) l2 := by
  induction l1 generalizing S with
  | nil => simpa using h
  | cons x l ih =>
    rw [List.sum_cons, ← add_assoc]
    exact ih h.2.2

/-- The last component of an expansion gives the sign of its value. -/
theorem Ex.sign_last {l : List ℚ} {x : ℚ} (h : Ex p 0 (l ++ [x])) (hx : x ≠ 0) :
    SignType.sign (l ++ [x]).sum = SignType.sign x := by
  have := h.split
  rw [zero_add] at this
  obtain ⟨-, ⟨s, hs, hm⟩, -⟩ := this
  have hlt : |l.sum| < |x| := hs.trans_le ((hm x (by simp)).le_abs hx)
  rw [List.sum_append, List.sum_singleton]
  rcases lt_or_gt_of_ne hx with h0 | h0
  · rw [abs_of_neg h0] at hlt
    rw [sign_neg h0, sign_neg]
    linarith [le_abs_self l.sum]
  · rw [abs_of_pos h0] at hlt
    rw [sign_pos h0, sign_pos]
    linarith [neg_abs_le l.sum]

/-- `fast_expansion_sum_zeroelim` writes at most as many components as it reads; they are an expansion of the exact sum and the last one has its
sign. -/
theorem fastExpansionSum_spec (hp : 3 ≤ p) {cap : ℕ} {e f : List ℚ} (he : Ex p 0 e) (hf : Ex p 0 f) (he0 : e ≠ []) (hf0 : f ≠ [])
    (hc : e.length + f.length ≤ cap) :
    ∃ r, fastExpansionSum (rnd p none) cap e f = .ok r ∧ Ex p 0 r ∧ r.sum = e.sum + f.sum ∧ r ≠ [] ∧ r.length ≤ e.length + f.length ∧
      ∀ x ∈ r.getLast?, SignType.sign x = SignType.sign (e.sum + f.sum) := by
  match e, f, he0, hf0 with
  | e0 :: e, f0 :: f, _, _ =>
    have i0 := SumInv.init he hf
    obtain ⟨Q', h', hd, hi, hl⟩ : ∃ Q' h', (if takeE e0 f0 then sumTail (rnd p none) cap e (f0 :: f) e0
          else sumTail (rnd p none) cap (e0 :: e) f f0) = .ok (Q', h') ∧
        SumInv p (e0 :: e).sum (f0 :: f).sum Q' h' [] [] ∧ h'.length ≤ e.length + f.length + 1 := by
      simp only [List.length_cons] at hc
      by_cases ht : takeE e0 f0 = true
      · rw [if_pos ht]
        have hs := i0.step (by omega) (order_e i0.exF (takeE_le ht))
        rw [zero_add, he.1.rnd, sub_self] at hs
        simp only [nz, ne_eq, not_true_eq_false, if_false] at hs
        obtain ⟨Q', h', hd, hi, hl⟩ := sumTail_spec hp hs (cap := cap)
          (fun g hg h0 => he.le_of_mem g (List.mem_of_mem_head? hg) h0)
          (fun g hg h0 => by
            simp only [List.head?_cons, Option.mem_some_iff] at hg
            rw [← hg]
            exact takeE_le ht) (by simp only [List.length_cons]; omega)
        refine ⟨Q', h', hd, ?_, by simp only [List.length_cons] at hl; omega⟩
        rw [zero_add] at hi
        rwa [List.sum_cons (a := e0)]
      · rw [if_neg ht]
        have hs := (i0.symm.step (by omega) (order_e i0.exE (not_takeE_le ht))).symm
        rw [zero_add, hf.1.rnd, sub_self] at hs
        simp only [nz, ne_eq, not_true_eq_false, if_false] at hs
        obtain ⟨Q', h', hd, hi, hl⟩ := sumTail_spec hp hs (cap := cap)
          (fun g hg h0 => by
            simp only [List.head?_cons, Option.mem_some_iff] at hg
            rw [← hg]
            exact not_takeE_le ht)
          (fun g hg h0 => hf.le_of_mem g (List.mem_of_mem_head? hg) h0) (by simp only [List.length_cons]; omega)
        refine ⟨Q', h', hd, ?_, by simp only [List.length_cons] at hl; omega⟩
        rw [zero_add] at hi
        rwa [List.sum_cons (a := f0)]
    have hsum : Q' + h'.sum = (e0 :: e).sum + (f0 :: f).sum := hi.sum
    simp only [List.length_cons] at hc
    have hex : Ex p 0 (h' ++ [Q']) := by
      refine Ex_of_split ?_ ?_
      · intro x hx
        rcases List.mem_append.1 hx with h | h
        · exact hi.reps x h
        · rw [List.mem_singleton.1 h]
          exact hi.rep
      · intro l1 l2 hll
        rcases append_eq_append_singleton hll with ⟨rfl, rfl⟩ | ⟨l, rfl, hll'⟩
        · by_cases h0 : (h' ++ [Q']).sum = 0
          · exact ⟨0, by rw [h0]; simp, by simp⟩
          · obtain ⟨k, -, hk⟩ := exists_binade h0
            exact ⟨k + 1, hk, by simp⟩
        · obtain ⟨s, c1, c2, c3, -⟩ := hi.split l1 l hll'
          refine ⟨s, c1, fun y hy => ?_⟩
          rcases List.mem_append.1 hy with h | h
          · exact c2 y h
          · rw [List.mem_singleton.1 h]
            exact c3
    have hrun : fastExpansionSum (rnd p none) cap (e0 :: e) (f0 :: f) =
        ((if takeE e0 f0 then sumTail (rnd p none) cap e (f0 :: f) e0 else sumTail (rnd p none) cap (e0 :: e) f f0) >>= fun r =>
          if r.1 ≠ 0 ∨ r.2.length = 0 then push cap r.2 r.1 else .ok r.2) := by
      simp only [fastExpansionSum]
      split_ifs <;> rfl
    rw [hrun, hd, R_bind_ok]
    simp only
    by_cases hq : Q' ≠ 0 ∨ h'.length = 0
    · rw [if_pos hq, push, if_pos (by omega)]
      refine ⟨h' ++ [Q'], rfl, hex, ?_, by simp, by simp only [List.length_append, List.length_cons, List.length_nil]; omega, ?_⟩
      · rw [List.sum_append, List.sum_singleton, add_comm, hsum]
      · intro x hx
        simp only [List.getLast?_append, List.getLast?_singleton, Option.some_or, Option.mem_some_iff] at hx
        subst hx
        by_cases h0 : Q' = 0
        · have : h' = [] := List.length_eq_zero_iff.1 (hq.resolve_left (by simpa using h0))
          rw [this] at hsum
          rw [← hsum]
          simp
        · rw [← hex.sign_last h0, List.sum_append, List.sum_singleton, add_comm, hsum]
    · rw [if_neg hq]
      push Not at hq
      obtain ⟨h0, hne⟩ := hq
      have hne : h' ≠ [] := fun h => hne (by rw [h]; rfl)
      rw [h0, zero_add] at hsum
      obtain ⟨l, x, rfl⟩ := (List.eq_nil_or_concat h').resolve_left hne
      rw [List.concat_eq_append] at *
      have hex' : Ex p 0 (l ++ [x]) := by
        refine Ex_of_split hi.reps ?_
        intro l1 l2 hll
        obtain ⟨s, c1, c2, -⟩ := hi.split l1 l2 hll
        exact ⟨s, c1, c2⟩
      refine ⟨l ++ [x], rfl, hex', hsum, by simp, by simp only [List.length_cons]; omega, ?_⟩
      intro y hy
      simp only [List.getLast?_append, List.getLast?_singleton, Option.some_or, Option.mem_some_iff] at hy
      subst hy
      rw [← hsum, hex'.sign_last (hi.ne x (by simp))]

end Gbs.Pred
