import Verif.Lemmas.Expansion

/-!
# The four component differences and their estimates
-/

namespace Gbs.Pred

open Fl

variable {p : ℕ}

/-- The rounded value is a multiple of a power of two that is at least twice the error. -/
theorem rnd_half (X : ℚ) : ∃ q, Mul q (rnd p none X) ∧ |X - rnd p none X| ≤ 2 ^ (q - 1) := by
  rcases rnd_ulp (p := p) X with h0 | ⟨q, -, -, hq, he⟩
  · exact ⟨0, by rw [h0, rnd_zero]; exact Mul.zero 0, by rw [h0, rnd_zero]; simp⟩
  · exact ⟨q, hq, by rwa [abs_sub_comm]⟩

/-- What is known about the result of `two_two_diff`. -/
structure Diff4 (p : ℕ) (V : ℚ) (x0 x1 x2 x3 : ℚ) : Prop where
  r0 : Rep p x0
  r1 : Rep p x1
  r2 : Rep p x2
  r3 : Rep p x3
  sum : x0 + x1 + x2 + x3 = V
  small2 : |x2| ≤ 2 ^ (-(p : ℤ)) * |x3|
  half2 : ∃ s, |x2| ≤ 2 ^ (s - 1) ∧ Mul s x3
  half1 : ∃ s, |x1| ≤ 2 ^ (s - 1) ∧ Mul s x2 ∧ Mul s x3
  half0 : ∃ s, |x0| ≤ 2 ^ (s - 1) ∧ Mul s x1 ∧ Mul s x2 ∧ Mul s x3

theorem twoTwoDiff_spec (hp : 4 ≤ p) {a1 a0 b1 b0 : ℚ} (ha1 : Rep p a1) (ha0 : Rep p a0) (hb1 : Rep p b1) (hb0 : Rep p b0)
    (ha : ∃ q, Mul q a1 ∧ |a0| ≤ 2 ^ (q - 1)) (hb : ∃ q, Mul q b1 ∧ |b0| ≤ 2 ^ (q - 1)) :
    ∃ x0 x1 x2 x3, twoTwoDiff (rnd p none) a1 a0 b1 b0 = [x0, x1, x2, x3] ∧ Diff4 p (a1 + a0 - (b1 + b0)) x0 x1 x2 x3 ∧
      |x0| ≤ 2 ^ (-(p : ℤ)) * |a0 - b0| := by
  have hp0 : 0 < p := by omega
  have hp3 : 3 ≤ p := by omega
  obtain ⟨qa, hqa, haq⟩ := ha
  obtain ⟨qb, hqb, hbq⟩ := hb
  obtain ⟨i, hi⟩ : ∃ i, rnd p none (a0 - b0) = i := ⟨_, rfl⟩
  obtain ⟨j, hj⟩ : ∃ j, rnd p none (a1 + i) = j := ⟨_, rfl⟩
  obtain ⟨z, hz⟩ : ∃ z, a1 + i - j = z := ⟨_, rfl⟩
  obtain ⟨k, hk⟩ : ∃ k, rnd p none (z - b1) = k := ⟨_, rfl⟩
  obtain ⟨t, ht⟩ : ∃ t, rnd p none (j + k) = t := ⟨_, rfl⟩
  have hir : Rep p i := hi ▸ rnd_rep hp0 _
  have hjr : Rep p j := hj ▸ rnd_rep hp0 _
  have hkr : Rep p k := hk ▸ rnd_rep hp0 _
  have htr : Rep p t := ht ▸ rnd_rep hp0 _
  have hzr : Rep p z := by
    have := (err_rep hp0 ha1 hir).neg
    rw [neg_sub, hj, hz] at this
    exact this
  have hx0r : Rep p (a0 - b0 - i) := by
    have := (err_rep hp0 ha0 hb0.neg).neg
    rwa [neg_sub, ← sub_eq_add_neg, hi] at this
  have hx1r : Rep p (z - b1 - k) := by
    have := (err_rep hp0 hzr hb1.neg).neg
    rwa [neg_sub, ← sub_eq_add_neg, hk] at this
  have hx2r : Rep p (j + k - t) := by
    have := (err_rep hp0 hjr hkr).neg
    rwa [neg_sub, ht] at this
  refine ⟨a0 - b0 - i, z - b1 - k, j + k - t, t, ?_, ⟨hx0r, hx1r, hx2r, htr, by rw [← hz]; ring, ?_, ?_, ?_, ?_⟩, ?_⟩
  · simp only [twoTwoDiff, twoOneDiff]
    rw [twoDiff_eq hp3 ha0 hb0]
    simp only [hi]
    rw [twoSum_eq hp3 ha1 hir]
    simp only [hj, hz]
    rw [twoDiff_eq hp3 hzr hb1]
    simp only [hk]
    rw [twoSum_eq hp3 hjr hkr]
    simp only [ht]
  · have := (rnd_rel hp0 (j + k)).2
    rwa [ht, abs_sub_comm] at this
  · obtain ⟨q, h1, h2⟩ := rnd_half (p := p) (j + k)
    rw [ht] at h1 h2
    exact ⟨q, h2, h1⟩
  · obtain ⟨q1, h1, h2⟩ := rnd_half (p := p) (z - b1)
    obtain ⟨q2, h3, h4⟩ := rnd_half (p := p) (a1 + i)
    rw [hk] at h1 h2
    rw [hj, hz] at h4
    rw [hj] at h3
    have h5 : |z - b1 - k| ≤ |z| := by
      have := err_le_left hp0 (a := z) hb1.neg
      rwa [← sub_eq_add_neg, hk, abs_sub_comm] at this
    have hjs : Mul (min q1 q2) j := h3.mono (min_le_right _ _)
    have hks : Mul (min q1 q2) k := h1.mono (min_le_left _ _)
    have hts : Mul (min q1 q2) t := ht ▸ (hjs.add hks).rnd hp0
    refine ⟨min q1 q2, ?_, (hjs.add hks).sub hts, hts⟩
    rcases min_choice q1 q2 with h | h <;> rw [h]
    · exact h2
    · exact h5.trans h4
  · obtain ⟨q, h1, h2⟩ := rnd_half (p := p) (a0 - b0)
    rw [hi] at h1 h2
    have h3 : |a0 - b0 - i| ≤ |a0| := by
      have := err_le_left hp0 (a := a0) hb0.neg
      rwa [← sub_eq_add_neg, hi, abs_sub_comm] at this
    have h4 : |a0 - b0 - i| ≤ |b0| := by
      have := err_le_right hp0 (b := -b0) ha0
      rwa [← sub_eq_add_neg, hi, abs_sub_comm, abs_neg] at this
    obtain ⟨s, hs⟩ : ∃ s, s = min q (min qa qb) := ⟨_, rfl⟩
    have s1 : s ≤ q := hs ▸ min_le_left _ _
    have s2 : s ≤ qa := hs ▸ (min_le_right _ _).trans (min_le_left _ _)
    have s3 : s ≤ qb := hs ▸ (min_le_right _ _).trans (min_le_right _ _)
    have mi : Mul s i := h1.mono s1
    have ma : Mul s a1 := hqa.mono s2
    have mb : Mul s b1 := hqb.mono s3
    have mj : Mul s j := hj ▸ (ma.add mi).rnd hp0
    have mz : Mul s z := hz ▸ (ma.add mi).sub mj
    have mk : Mul s k := hk ▸ (mz.sub mb).rnd hp0
    have mt : Mul s t := ht ▸ (mj.add mk).rnd hp0
    refine ⟨s, ?_, (mz.sub mb).sub mk, (mj.add mk).sub mt, mt⟩
    rw [hs]
    rcases min_choice q (min qa qb) with h | h <;> rw [h]
    · exact h2
    · rcases min_choice qa qb with h | h <;> rw [h]
      · exact h3.trans haq
      · exact h4.trans hbq
  · have := (rnd_rel hp0 (a0 - b0)).1
    rwa [hi, abs_sub_comm] at this

theorem half_lt {s : ℤ} {x : ℚ} (h : |x| ≤ 2 ^ (s - 1)) : |x| < 2 ^ s := h.trans_lt (two_lt (by omega))

theorem Mul.half_le {s : ℤ} {x y : ℚ} (h : |x| ≤ 2 ^ (s - 1)) (hm : Mul s y) (hy : y ≠ 0) : |x| ≤ 1 / 2 * |y| := by
  have := hm.le_abs hy
  have := two_pred s
  linarith

theorem Diff4.ex {V x0 x1 x2 x3 : ℚ} (d : Diff4 p V x0 x1 x2 x3) : Ex p 0 [x0, x1, x2, x3] := by
  obtain ⟨s2, a2, m2⟩ := d.half2
  obtain ⟨s1, a1, m1, m1'⟩ := d.half1
  obtain ⟨s0, a0, m0, m0', m0''⟩ := d.half0
  obtain ⟨s, hs⟩ := common_mul (p := p) (l := [x0, x1, x2, x3]) (by
    intro y hy
    simp only [List.mem_cons, List.not_mem_nil, or_false] at hy
    rcases hy with rfl | rfl | rfl | rfl
    exacts [d.r0, d.r1, d.r2, d.r3])
  -- sums of the first components
  have b1 : ∃ s, |x0 + x1| < 2 ^ s ∧ Mul s x2 ∧ Mul s x3 ∧ (x1 ≠ 0 → s = s1) := by
    by_cases h1 : x1 = 0
    · exact ⟨s0, by rw [h1, add_zero]; exact half_lt a0, m0', m0'', fun h => absurd h1 h⟩
    · refine ⟨s1, ?_, m1, m1', fun _ => rfl⟩
      have := Mul.half_le a0 m0 h1
      have hx := abs_pos.2 h1
      rw [two_pred s1]
      exact (abs_add_le _ _).trans_lt (by linarith)
  have b2 : ∃ s, |x0 + x1 + x2| < 2 ^ s ∧ Mul s x3 := by
    by_cases h2 : x2 = 0
    · obtain ⟨t, h3, -, h5, -⟩ := b1
      exact ⟨t, by rwa [h2, add_zero], h5⟩
    · refine ⟨s2, ?_, m2⟩
      have hx := abs_pos.2 h2
      have h3 : |x0 + x1| < |x2| := by
        obtain ⟨t, h3, h4, -⟩ := b1
        exact h3.trans_le (h4.le_abs h2)
      rw [two_pred s2]
      exact (abs_add_le _ _).trans_lt (by linarith)
  refine ⟨d.r0, ⟨s, by simpa using two_pos s, hs⟩, d.r1, ⟨s0, by rw [zero_add]; exact half_lt a0, ?_⟩, d.r2, ?_, d.r3, ?_, trivial⟩
  · intro y hy
    simp only [List.mem_cons, List.not_mem_nil, or_false] at hy
    rcases hy with rfl | rfl | rfl
    exacts [m0, m0', m0'']
  · obtain ⟨t, h3, h4, h5, -⟩ := b1
    refine ⟨t, by rwa [zero_add], ?_⟩
    intro y hy
    simp only [List.mem_cons, List.not_mem_nil, or_false] at hy
    rcases hy with rfl | rfl
    exacts [h4, h5]
  · obtain ⟨t, h3, h4⟩ := b2
    refine ⟨t, by rwa [zero_add], ?_⟩
    intro y hy
    simp only [List.mem_cons, List.not_mem_nil, or_false] at hy
    rw [hy]
    exact h4

/-- Error of `estimate` on the result of `two_two_diff`. -/
theorem Diff4.estimate {V x0 x1 x2 x3 : ℚ} (hp : 6 ≤ p) (d : Diff4 p V x0 x1 x2 x3) :
    ∃ det, Pred.estimate (rnd p none) [x0, x1, x2, x3] = .ok det ∧ Rep p det ∧
      |det - V| ≤ 2 ^ (-(p : ℤ)) * (1 + 16 * 2 ^ (-(p : ℤ))) * |det| + |x0| ∧ |det - V| ≤ 1 / 2 * |det| := by
  have hp0 : 0 < p := by omega
  refine ⟨rnd p none (rnd p none (rnd p none (x0 + x1) + x2) + x3), rfl, rnd_rep hp0 _, ?_⟩
  have hε := eps_le hp
  have hε0 := two_pos (-(p : ℤ))
  generalize hεd : (2 : ℚ) ^ (-(p : ℤ)) = ε at *
  have hε1 : ε ≤ 1 / 64 := by linarith
  have rel : ∀ x, |rnd p none x - x| ≤ ε * |x| ∧ |rnd p none x - x| ≤ ε * |rnd p none x| := fun x => hεd ▸ rnd_rel hp0 x
  obtain ⟨s2, a2, m2⟩ := d.half2
  obtain ⟨s1, a1, m1, m1'⟩ := d.half1
  obtain ⟨s0, a0, m0, m0', m0''⟩ := d.half0
  have hsm := d.small2
  rw [hεd] at hsm
  rw [← d.sum]
  -- the first two components are dominated by any other nonzero one
  have dom : ∀ y, Mul s0 y → Mul s1 y → y ≠ 0 → |x0 + x1| ≤ 3 / 4 * |y| := by
    intro y h0 h1 hy
    refine (abs_add_le _ _).trans ?_
    have hy0 := abs_nonneg y
    by_cases hx1 : x1 = 0
    · rw [hx1, abs_zero]
      have := Mul.half_le a0 h0 hy
      linarith
    · have := Mul.half_le a0 m0 hx1
      have := Mul.half_le a1 h1 hy
      linarith
  have e1 : |rnd p none (x0 + x1) - (x0 + x1)| ≤ |x0| := err_le_left hp0 d.r1
  obtain ⟨e1r, e1q⟩ := rel (x0 + x1)
  have q1r := rnd_rep hp0 (p := p) (x0 + x1)
  generalize rnd p none (x0 + x1) = Q1 at *
  have hx00 := abs_nonneg x0
  by_cases h2 : x2 = 0
  · subst h2
    rw [add_zero, q1r.rnd]
    obtain ⟨e3r, e3q⟩ := rel (Q1 + x3)
    generalize rnd p none (Q1 + x3) = det at *
    have hd0 := abs_nonneg det
    have split : det - (x0 + x1 + 0 + x3) = (det - (Q1 + x3)) + (Q1 - (x0 + x1)) := by ring
    constructor
    · rw [split]
      refine (abs_add_le _ _).trans ?_
      have : 0 ≤ ε * (16 * ε) * |det| := by positivity
      linarith
    · by_cases h3 : x3 = 0
      · subst h3
        have hdq : det - (x0 + x1 + 0 + 0) = (det - (Q1 + 0)) + (Q1 - (x0 + x1)) := by ring
        rw [add_zero] at e3q e3r
        have hq : |Q1| ≤ 2 * |det| := by
          have := abs_sub_abs_le_abs_sub Q1 det
          rw [abs_sub_comm] at this
          nlinarith
        rw [hdq, add_zero]
        refine (abs_add_le _ _).trans ?_
        nlinarith
      · have hd := dom x3 m0'' m1' h3
        have hx3 := abs_nonneg x3
        have hq1 : |Q1| ≤ 7 / 8 * |x3| := by
          have := abs_sub_abs_le_abs_sub Q1 (x0 + x1)
          nlinarith [abs_nonneg (x0 + x1)]
        have hq2 : 1 / 8 * |x3| ≤ |Q1 + x3| := by
          have := abs_sub_abs_le_abs_sub x3 (-Q1)
          rw [abs_neg, sub_neg_eq_add, add_comm] at this
          linarith
        have hq3 : |Q1 + x3| ≤ 2 * |det| := by
          have := abs_sub_abs_le_abs_sub (Q1 + x3) det
          rw [abs_sub_comm] at this
          nlinarith
        rw [split]
        refine (abs_add_le _ _).trans ?_
        nlinarith
  · have h3 : x3 ≠ 0 := by
      rintro rfl
      rw [abs_zero, mul_zero] at hsm
      exact h2 (abs_eq_zero.1 (le_antisymm hsm (abs_nonneg _)))
    have hd := dom x2 m0' m1 h2
    have hx2 := abs_nonneg x2
    have hx3 := abs_nonneg x3
    have hq1 : |Q1| ≤ |x2| := by
      have := abs_sub_abs_le_abs_sub Q1 (x0 + x1)
      nlinarith [abs_nonneg (x0 + x1)]
    obtain ⟨e2r, -⟩ := rel (Q1 + x2)
    have hq12 : |Q1 + x2| ≤ 2 * |x2| := (abs_add_le _ _).trans (by linarith)
    generalize rnd p none (Q1 + x2) = Q2 at *
    have hq2 : |Q2| ≤ 3 * |x2| := by
      have := abs_sub_abs_le_abs_sub Q2 (Q1 + x2)
      nlinarith
    obtain ⟨-, e3q⟩ := rel (Q2 + x3)
    generalize rnd p none (Q2 + x3) = det at *
    have hd0 := abs_nonneg det
    have hq3 : 15 / 16 * |x3| ≤ |Q2 + x3| := by
      have := abs_sub_abs_le_abs_sub x3 (-Q2)
      rw [abs_neg, sub_neg_eq_add, add_comm] at this
      nlinarith
    have hq4 : |Q2 + x3| ≤ 65 / 64 * |det| := by
      have := abs_sub_abs_le_abs_sub (Q2 + x3) det
      rw [abs_sub_comm] at this
      nlinarith
    have hx3d : |x3| ≤ 2 * |det| := by linarith
    have split : det - (x0 + x1 + x2 + x3) = (det - (Q2 + x3)) + ((Q2 - (Q1 + x2)) + (Q1 - (x0 + x1))) := by ring
    have tot : |det - (x0 + x1 + x2 + x3)| ≤ ε * |det| + 11 / 4 * ε * |x2| := by
      rw [split]
      refine (abs_add_le _ _).trans ?_
      have := abs_add_le (Q2 - (Q1 + x2)) (Q1 - (x0 + x1))
      nlinarith
    have hx2d : |x2| ≤ ε * (2 * |det|) := hsm.trans (mul_le_mul_of_nonneg_left hx3d hε0.le)
    have tot2 : |det - (x0 + x1 + x2 + x3)| ≤ ε * |det| + 11 / 4 * ε * (ε * (2 * |det|)) :=
      tot.trans (by nlinarith)
    have hεd0 : 0 ≤ ε * |det| := mul_nonneg hε0.le hd0
    constructor
    · nlinarith
    · nlinarith

end Gbs.Pred
