import Verif.Lemmas.Float
import Verif.Model.Predicates

/-!
# Error-free transformations

Knuth's `two_sum`, Dekker's `fast_two_sum`, `split` and `two_product` give the rounded result and the exact error.
-/

namespace Gbs.Fl

variable {p : ℕ}

theorem rnd_err_lt {x : ℚ} {k : ℤ} (h : |x| < 2 ^ (k + 1)) : |Fl.rnd p none x - x| ≤ 2 ^ (k - p) := by
  by_cases h0 : x = 0
  · rw [h0, rnd_zero]
    simpa using (two_pos _).le
  obtain ⟨j, h1, h2⟩ := exists_binade h0
  refine (rnd_binade h1 h2).2.trans (two_le ?_)
  have := lt_of_two_lt (h1.trans_lt h)
  omega

theorem rnd_mul_of_le {x : ℚ} {k : ℤ} (h : 2 ^ k ≤ |x|) : Mul (k + 1 - p) (Fl.rnd p none x) := by
  have h0 : x ≠ 0 := by
    rintro rfl
    rw [abs_zero] at h
    linarith [two_pos k]
  obtain ⟨j, h1, h2⟩ := exists_binade h0
  refine (rnd_binade h1 h2).1.mono ?_
  have := lt_of_two_lt (h.trans_lt h2)
  omega

theorem err_le_left (hp : 0 < p) {a b : ℚ} (hb : Rep p b) : |Fl.rnd p none (a + b) - (a + b)| ≤ |a| := by
  have := rnd_nearest hp hb (x := a + b)
  rwa [show b - (a + b) = -a by ring, abs_neg] at this

theorem err_le_right (hp : 0 < p) {a b : ℚ} (ha : Rep p a) : |Fl.rnd p none (a + b) - (a + b)| ≤ |b| := by
  rw [add_comm a b]
  exact err_le_left hp ha

theorem rep_of_le_of_le (hp : 0 < p) {a b x : ℚ} (ha : Rep p a) (hb : Rep p b) (hx : ∀ s, Mul s a → Mul s b → Mul s x)
    (h1 : |x| ≤ |a|) (h2 : |x| ≤ |b|) : Rep p x := by
  obtain ⟨s, hs, hs'⟩ := ha.exists_mul
  obtain ⟨t, ht, ht'⟩ := hb.exists_mul
  rcases le_total s t with h | h
  · exact (hx s hs (ht.mono h)).rep hp (h1.trans hs'.le)
  · exact (hx t (hs.mono h) ht).rep hp (h2.trans ht'.le)

/-- The error of an addition is representable. -/
theorem err_rep (hp : 0 < p) {a b : ℚ} (ha : Rep p a) (hb : Rep p b) : Rep p (Fl.rnd p none (a + b) - (a + b)) :=
  rep_of_le_of_le hp ha hb (fun _ h h' => ((h.add h').rnd hp).sub (h.add h')) (err_le_left hp hb) (err_le_right hp ha)

/-- Sterbenz. -/
theorem sub_rep (hp : 0 < p) {a b : ℚ} (ha : Rep p a) (hb : Rep p b) (h1 : |a - b| ≤ |a|) (h2 : |a - b| ≤ |b|) :
    Rep p (a - b) :=
  rep_of_le_of_le hp ha hb (fun _ h h' => h.sub h') h1 h2

theorem fast_rep (hp : 0 < p) {a b : ℚ} (ha : Rep p a) (hb : Rep p b) (hab : |b| ≤ |a|) :
    Rep p (Fl.rnd p none (a + b) - a) := by
  by_cases hr : Rep p (a + b)
  · rw [hr.rnd]
    simpa using hb
  rcases rnd_ulp (p := p) (a + b) with h0 | ⟨q, h1, h2, hq, he⟩
  · rw [h0] at hr
    exact absurd (Rep.zero p) hr
  have ha0 : a ≠ 0 := by
    rintro rfl
    rw [abs_zero] at hab
    have : b = 0 := abs_eq_zero.1 (le_antisymm hab (abs_nonneg b))
    rw [this] at hr
    exact hr (by simpa using Rep.zero p)
  have hb0 : b ≠ 0 := by
    rintro rfl
    exact hr (by simpa using ha)
  obtain ⟨k, hk1, hk2⟩ := exists_binade ha0
  have hma := ha.mul hk1
  have hxa : |Fl.rnd p none (a + b) - a| ≤ |b| + 2 ^ (q - 1) := by
    have : Fl.rnd p none (a + b) - a = (Fl.rnd p none (a + b) - (a + b)) + b := by ring
    rw [this]
    exact (abs_add_le _ _).trans (by linarith)
  have hq1 : q + p - 1 < k + 2 := by
    refine lt_of_two_lt (h1.trans_lt ((abs_add_le a b).trans_lt ?_))
    rw [show k + 2 = (k + 1) + 1 by ring, two_succ]
    linarith
  by_cases hqa : q ≤ k + 1 - p
  · refine (hq.sub (hma.mono hqa)).rep hp (hxa.trans ?_)
    have hnb : ¬ Mul q b := fun h => hr (((hma.mono hqa).add h).rep hp h2.le)
    obtain ⟨l, hl1, hl2⟩ := exists_binade hb0
    have hl : l + 1 - p < q := by
      by_contra hc
      exact hnb ((hb.mul hl1).mono (not_lt.1 hc))
    have e1 : |b| ≤ 2 ^ (q + p - 1) := hl2.le.trans (two_le (by omega))
    have e2 : (2 : ℚ) ^ (q - 1) ≤ 2 ^ (q + p - 1) := two_le (by omega)
    rw [two_pred (q + p)]
    linarith
  · have hqe : q = k + 2 - p := by omega
    subst hqe
    refine ((hq.mono (by omega : k + 1 - (p : ℤ) ≤ _)).sub hma).rep hp (hxa.trans ?_)
    have e1 : |a| + 2 ^ (k + 1 - (p : ℤ)) ≤ 2 ^ (k + 1) := hma.abs.add_le_of_lt (two_mul_of_le (by omega)) hk2
    rw [show k + 2 - (p : ℤ) - 1 = k + 1 - p by ring, show k + 1 - (p : ℤ) + p = k + 1 by ring]
    linarith

theorem eps_le {p : ℕ} {n : ℕ} (h : n ≤ p) : (2 : ℚ) ^ (-(p : ℤ)) ≤ 1 / 2 ^ n := by
  have : (2 : ℚ) ^ (-(n : ℤ)) = 1 / 2 ^ n := by rw [zpow_neg, zpow_natCast, one_div]
  rw [← this]
  exact two_le (by omega)

end Gbs.Fl

namespace Gbs.Pred

open Fl

variable {p : ℕ}

/-- `fast_two_sum` gives the rounded sum and the exact error when the first term is the larger one or zero. -/
theorem fastTwoSum_eq (hp : 0 < p) {a b : ℚ} (ha : Rep p a) (hb : Rep p b) (hab : |b| ≤ |a| ∨ a = 0) :
    fastTwoSum (rnd p none) a b = (rnd p none (a + b), a + b - rnd p none (a + b)) := by
  have e : Rep p (rnd p none (a + b) - a) := by
    rcases hab with h | rfl
    · exact fast_rep hp ha hb h
    · rw [zero_add, hb.rnd]
      simpa using hb
  have e2 : Rep p (b - (rnd p none (a + b) - a)) := by
    have := (err_rep hp ha hb).neg
    convert this using 1
    ring
  simp only [fastTwoSum]
  rw [e.rnd, e2.rnd]
  congr 1
  ring

/-- `two_sum` gives the rounded sum and the exact error. -/
theorem twoSum_eq (hp : 3 ≤ p) {a b : ℚ} (ha : Rep p a) (hb : Rep p b) :
    twoSum (rnd p none) a b = (rnd p none (a + b), a + b - rnd p none (a + b)) := by
  have hp0 : 0 < p := by omega
  have hy : Rep p (a + b - rnd p none (a + b)) := by
    have := (err_rep hp0 ha hb).neg
    rwa [neg_sub] at this
  by_cases hr : Rep p (a + b)
  · simp only [twoSum]
    rw [hr.rnd, show a + b - a = b by ring, hb.rnd, show a + b - b = a by ring, ha.rnd]
    simp [rnd_zero]
  by_cases hab : |b| ≤ |a|
  · have e := fast_rep hp0 ha hb hab
    simp only [twoSum]
    rw [e.rnd, show rnd p none (a + b) - (rnd p none (a + b) - a) = a by ring, ha.rnd, sub_self, rnd_zero, zero_add,
      show b - (rnd p none (a + b) - a) = a + b - rnd p none (a + b) by ring, hy.rnd, hy.rnd]
  have hab := not_le.1 hab
  generalize hx : rnd p none (a + b) = x at *
  have hxr : Rep p x := hx ▸ rnd_rep hp0 _
  have h1 : |a| < |a + b| := by
    by_contra hc
    have hc := not_lt.1 hc
    refine hr ?_
    have := sub_rep hp0 ha hb.neg (by rwa [sub_neg_eq_add]) (by rw [sub_neg_eq_add, abs_neg]; exact hc.trans hab.le)
    rwa [sub_neg_eq_add] at this
  have h2 : |a| ≤ |x| := by
    by_contra hc
    have hc := not_le.1 hc
    have h3 : ∀ y, Rep p y → |x - (a + b)| ≤ |y - (a + b)| := fun y hy => hx ▸ rnd_nearest hp0 hy
    have h4 : |a + b| - |x| ≤ |x - (a + b)| := by
      rw [abs_sub_comm]
      exact abs_sub_abs_le_abs_sub _ _
    have hra : Rep p |a| := by
      rcases abs_choice a with h | h <;> rw [h]
      · exact ha
      · exact ha.neg
    rcases le_total 0 (a + b) with h5 | h5
    · have := h3 _ hra
      rw [abs_of_nonneg h5] at h1 h4
      rw [abs_of_nonpos (by linarith : |a| - (a + b) ≤ 0)] at this
      linarith
    · have := h3 _ hra.neg
      rw [abs_of_nonpos h5] at h1 h4
      rw [abs_of_nonneg (by linarith : 0 ≤ -|a| - (a + b))] at this
      linarith
  have e1 : Rep p (x - rnd p none (x - a)) := by
    have := (fast_rep hp0 hxr ha.neg (by rwa [abs_neg])).neg
    rwa [neg_sub, ← sub_eq_add_neg] at this
  have e2 : Rep p (a - (x - rnd p none (x - a))) := by
    have := err_rep hp0 hxr ha.neg
    rw [← sub_eq_add_neg] at this
    convert this using 1
    ring
  have hε := eps_le hp
  have e3 : Rep p (b - rnd p none (x - a)) := by
    have f1 := (rnd_rel hp0 (x - a)).1
    have f2 : |x - (a + b)| ≤ 2 ^ (-(p : ℤ)) * |a + b| := hx ▸ (rnd_rel hp0 (a + b)).1
    have f3 : |a + b| ≤ 2 * |b| := (abs_add_le a b).trans (by linarith)
    have hb0 := abs_nonneg b
    have hpos := two_pos (-(p : ℤ))
    have f4 : |x - (a + b)| ≤ 1 / 4 * |b| := f2.trans (by nlinarith)
    have f5 : |x - a| ≤ 5 / 4 * |b| := by
      have : x - a = (x - (a + b)) + b := by ring
      rw [this]
      exact (abs_add_le _ _).trans (by linarith)
    have f6 : |rnd p none (x - a) - (x - a)| ≤ 5 / 32 * |b| := f1.trans (by nlinarith [abs_nonneg (x - a)])
    have f7 : |b - rnd p none (x - a)| ≤ 1 / 2 * |b| := by
      have : b - rnd p none (x - a) = -(rnd p none (x - a) - (x - a)) - (x - (a + b)) := by ring
      rw [this]
      refine (abs_sub _ _).trans ?_
      rw [abs_neg]
      linarith
    refine sub_rep hp0 hb (rnd_rep hp0 _) (by linarith) ?_
    have := abs_sub_abs_le_abs_sub b (rnd p none (x - a))
    linarith
  simp only [twoSum, hx]
  rw [e1.rnd, e3.rnd, e2.rnd, show a - (x - rnd p none (x - a)) + (b - rnd p none (x - a)) = a + b - x by ring, hy.rnd]

theorem twoDiffTail_eq (hp : 3 ≤ p) {a b : ℚ} (ha : Rep p a) (hb : Rep p b) :
    twoDiffTail (rnd p none) a b (rnd p none (a - b)) = a - b - rnd p none (a - b) := by
  have := congrArg Prod.snd (twoSum_eq hp ha hb.neg)
  rw [← sub_eq_add_neg] at this
  refine Eq.trans ?_ this
  simp only [twoSum, twoDiffTail, ← sub_eq_add_neg]
  have e : rnd p none (a - rnd p none (a - b)) = -rnd p none (rnd p none (a - b) - a) := by rw [← rnd_neg, neg_sub]
  rw [e]
  congr 2
  · congr 2
    ring
  · congr 1
    ring

theorem twoDiff_eq (hp : 3 ≤ p) {a b : ℚ} (ha : Rep p a) (hb : Rep p b) :
    twoDiff (rnd p none) a b = (rnd p none (a - b), a - b - rnd p none (a - b)) := by
  simp only [twoDiff, twoDiffTail_eq hp ha hb]

theorem iterate_double (hp : 0 < p) (n : ℕ) : (fun s => rnd p none (s * 2))^[n] 1 = 2 ^ n := by
  induction n with
  | zero => simp
  | succ n ih =>
    rw [Function.iterate_succ_apply', ih, ← pow_succ, ← two_nat, (two_rep hp _).rnd]

theorem splitter_eq (hp : 3 ≤ p) : splitter p (rnd p none) = 2 ^ ((p + 1) / 2) + 1 := by
  unfold splitter
  rw [iterate_double (by omega)]
  refine Rep.rnd (Mul.rep (s := 0) (by omega) ⟨2 ^ ((p + 1) / 2) + 1, by push_cast; ring⟩ ?_)
  rw [abs_of_pos (by positivity), zero_add, two_nat]
  have h1 : (2 : ℚ) ^ ((p + 1) / 2) ≤ 2 ^ (p - 1) := pow_le_pow_right₀ (by norm_num) (by omega)
  have h2 : (1 : ℚ) ≤ 2 ^ (p - 1) := one_le_pow₀ (by norm_num)
  have h3 : (2 : ℚ) ^ p = 2 * 2 ^ (p - 1) := by rw [← pow_succ']; congr 1; omega
  linarith

/-- Veltkamp's splitting: the high part has the first bits, the low part is at most half a unit of its last place. -/
theorem split_spec (hp : 4 ≤ p) {a : ℚ} (ha : Rep p a) {u : ℤ} (h1 : 2 ^ (u + p - 1) ≤ |a|) (h2 : |a| < 2 ^ (u + p)) :
    ∃ hi lo, split p (rnd p none) a = (hi, lo) ∧ hi + lo = a ∧ Mul (u + ((p + 1) / 2 : ℕ)) hi ∧ Mul u lo ∧ |hi| ≤ 2 ^ (u + p) ∧
      |lo| ≤ 2 ^ (u + ((p + 1) / 2 : ℕ) - 1) := by
  have hp0 : 0 < p := by omega
  generalize hs : (p + 1) / 2 = s
  have hs1 : s ≤ p - 2 := by omega
  have hs2 : 2 ≤ s := by omega
  have hma : Mul u a := by
    have := ha.mul h1
    rwa [show u + (p : ℤ) - 1 + 1 - p = u by ring] at this
  have hpu := two_pos u
  have eus : (2 : ℚ) ^ (u + (s : ℤ)) = 2 ^ s * 2 ^ u := by rw [two_add, two_nat, mul_comm]
  have hs0 : (0 : ℚ) < 2 ^ s := by positivity
  have hab : |a| + 2 ^ u ≤ 2 ^ (u + p) := hma.abs.add_le_of_lt (two_mul_of_le (by omega)) h2
  -- the product by the splitter
  have hσ : |(2 ^ s + 1) * a| = (2 ^ s + 1) * |a| := by rw [abs_mul, abs_of_pos (by positivity)]
  have eps1 : (2 : ℚ) ^ (u + p + s) = 2 ^ s * 2 ^ (u + p) := by rw [two_add, two_nat, mul_comm]
  have eps2 : (2 : ℚ) ^ (u + p + s - 1) = 2 ^ s * 2 ^ (u + p - 1) := by
    rw [show u + (p : ℤ) + s - 1 = (u + p - 1) + s by ring, two_add, two_nat, mul_comm]
  have h2s : (2 : ℚ) ^ s * 2 ^ (u + p) ≥ 2 ^ (u + p) := by
    have : (1 : ℚ) ≤ 2 ^ s := one_le_pow₀ (by norm_num)
    nlinarith [two_pos (u + p)]
  have hc1 : |(2 ^ s + 1) * a| < 2 ^ (u + p + s + 1) := by
    rw [hσ, two_succ, eps1]
    nlinarith [abs_nonneg a]
  have hc2 : 2 ^ (u + p + s - 1) ≤ |(2 ^ s + 1) * a| := by
    rw [hσ, eps2]
    nlinarith [abs_nonneg a]
  have hd1 := rnd_err_lt (p := p) hc1
  rw [show u + (p : ℤ) + s - p = u + s by ring] at hd1
  have hmc := rnd_mul_of_le (p := p) hc2
  rw [show u + (p : ℤ) + s - 1 + 1 - p = u + s by ring] at hmc
  generalize hc : rnd p none ((2 ^ s + 1) * a) = c at *
  -- the big part
  have hca : c - a = 2 ^ s * a + (c - (2 ^ s + 1) * a) := by ring
  have hsa : |2 ^ s * a| = 2 ^ s * |a| := by rw [abs_mul, abs_of_pos hs0]
  have hca1 : |c - a| ≤ 2 ^ (u + p + s) := by
    rw [hca]
    refine (abs_add_le _ _).trans ?_
    rw [hsa, eps1]
    rw [eus] at hd1
    nlinarith
  have hca2 : 2 ^ (u + p + s - 1) ≤ |c - a| := by
    rcases lt_or_eq_of_le h1 with h | h
    · have h3 : (2 : ℚ) ^ (u + p - 1) + 2 ^ u ≤ |a| := (two_mul_of_le (by omega)).add_le_of_lt hma.abs h
      have h4 : |2 ^ s * a| - |c - (2 ^ s + 1) * a| ≤ |c - a| := by
        have := abs_sub_abs_le_abs_sub (2 ^ s * a) (-(c - (2 ^ s + 1) * a))
        rw [abs_neg, sub_neg_eq_add, ← hca] at this
        exact this
      rw [hsa] at h4
      rw [eps2]
      rw [eus] at hd1
      nlinarith
    · have hms : Mul (u + s) a := by
        rcases abs_choice a with h' | h'
        · rw [← h', ← h]
          exact two_mul_of_le (by omega)
        · rw [← neg_neg a, ← h', ← h]
          exact (two_mul_of_le (by omega)).neg
      have hms2 : Mul (u + s) ((2 ^ s + 1) * a) := by
        obtain ⟨n, hn⟩ := hms
        exact ⟨(2 ^ s + 1) * n, by rw [hn]; push_cast; ring⟩
      have hr : Rep p ((2 ^ s + 1) * a) := by
        refine hms2.rep hp0 ?_
        rw [hσ, ← h, show u + (s : ℤ) + p = u + p + s by ring, two_pred (u + p + s), eps2]
        have : (1 : ℚ) ≤ 2 ^ s := one_le_pow₀ (by norm_num)
        nlinarith [two_pos (u + p - 1)]
      rw [← hc, hr.rnd, show (2 ^ s + 1) * a - a = 2 ^ s * a by ring, hsa, ← h, eps2]
  have hmb := rnd_mul_of_le (p := p) hca2
  rw [show u + (p : ℤ) + s - 1 + 1 - p = u + s by ring] at hmb
  have hd2 : |rnd p none (c - a) - (c - a)| ≤ 2 ^ (u + s - 1) := by
    rcases lt_or_eq_of_le hca1 with h | h
    · have := rnd_err_lt (p := p) (k := u + p + s - 1) (by rwa [show u + (p : ℤ) + s - 1 + 1 = u + p + s by ring])
      rwa [show u + (p : ℤ) + s - 1 - p = u + s - 1 by ring] at this
    · have hm : Mul (u + p + s) |c - a| := by rw [h]; exact two_mul_self _
      have hm' : Mul (u + p + s) (c - a) := by
        rcases abs_choice (c - a) with h' | h' <;> rw [h'] at hm
        · exact hm
        · rw [← neg_neg (c - a)]
          exact hm.neg
      rw [(hm'.rep hp0 (hca1.trans (two_le (by omega)))).rnd]
      simpa using (two_pos _).le
  generalize hb : rnd p none (c - a) = b at *
  -- the high part
  have hhi : |c - b| ≤ 2 ^ (u + p) := by
    refine (hmc.sub hmb).abs.le_of_lt (two_mul_of_le (by omega)) ?_
    have : c - b = a - (b - (c - a)) := by ring
    rw [this]
    refine (abs_sub _ _).trans_lt ?_
    have := two_pred (u + (s : ℤ))
    linarith [two_pos (u + (s : ℤ) - 1)]
  have hrh : Rep p (c - b) := (hmc.sub hmb).rep hp0 (hhi.trans (two_le (by omega)))
  have hlo : a - (c - b) = b - (c - a) := by ring
  have hml : Mul u (a - (c - b)) := hma.sub ((hmc.sub hmb).mono (by omega))
  have hrl : Rep p (a - (c - b)) := by
    refine hml.rep hp0 ?_
    rw [hlo]
    exact hd2.trans (two_le (by omega))
  refine ⟨c - b, a - (c - b), ?_, by ring, hmc.sub hmb, hml, hhi, by rw [hlo]; exact hd2⟩
  simp only [split]
  rw [splitter_eq (by omega), hs, hc, hb, hrh.rnd, hrl.rnd]

theorem split_zero (p : ℕ) : split p (rnd p none) 0 = (0, 0) := by simp [split, rnd_zero]

theorem abs_mul_le {a b : ℚ} {s t : ℤ} (ha : |a| ≤ 2 ^ s) (hb : |b| ≤ 2 ^ t) : |a * b| ≤ 2 ^ (s + t) := by
  rw [abs_mul, two_add]
  exact mul_le_mul ha hb (abs_nonneg b) (two_pos s).le

/-- Dekker's product: the rounded product and the exact error. -/
theorem twoProduct_eq (hp : 4 ≤ p) {a b : ℚ} (ha : Rep p a) (hb : Rep p b) :
    twoProduct p (rnd p none) a b = (rnd p none (a * b), a * b - rnd p none (a * b)) := by
  have hp0 : 0 < p := by omega
  by_cases ha0 : a = 0
  · subst ha0
    rcases hsb : split p (rnd p none) b with ⟨bhi, blo⟩
    simp [twoProduct, hsb, split_zero, rnd_zero]
  by_cases hb0 : b = 0
  · subst hb0
    rcases hsa : split p (rnd p none) a with ⟨ahi, alo⟩
    simp [twoProduct, hsa, split_zero, rnd_zero]
  obtain ⟨k, hk1, hk2⟩ := exists_binade ha0
  obtain ⟨l, hl1, hl2⟩ := exists_binade hb0
  obtain ⟨u, rfl⟩ : ∃ u : ℤ, k = u + p - 1 := ⟨k + 1 - p, by ring⟩
  obtain ⟨v, rfl⟩ : ∃ v : ℤ, l = v + p - 1 := ⟨l + 1 - p, by ring⟩
  rw [show u + (p : ℤ) - 1 + 1 = u + p by ring] at hk2
  rw [show v + (p : ℤ) - 1 + 1 = v + p by ring] at hl2
  obtain ⟨ahi, alo, hsa, hae, hmah, hmal, hah, hal⟩ := split_spec hp ha hk1 hk2
  obtain ⟨bhi, blo, hsb, hbe, hmbh, hmbl, hbh, hbl⟩ := split_spec hp hb hl1 hl2
  generalize hs : (p + 1) / 2 = s at *
  have hs1 : s ≤ p - 2 := by omega
  have hs2 : 2 ≤ s := by omega
  have hs3 : p ≤ 2 * s := by omega
  have hs4 : 2 * s ≤ p + 1 := by omega
  have hab1 : 2 ^ (u + v + 2 * p - 2) ≤ |a * b| := by
    rw [abs_mul, show u + v + 2 * (p : ℤ) - 2 = (u + p - 1) + (v + p - 1) by ring, two_add]
    exact mul_le_mul hk1 hl1 (two_pos _).le (abs_nonneg a)
  have hab2 : |a * b| < 2 ^ (u + v + 2 * p - 1 + 1) := by
    rw [abs_mul, show u + v + 2 * (p : ℤ) - 1 + 1 = (u + p) + (v + p) by ring, two_add]
    exact mul_lt_mul'' hk2 hl2 (abs_nonneg a) (abs_nonneg b)
  have hd := rnd_err_lt (p := p) hab2
  rw [show u + v + 2 * (p : ℤ) - 1 - p = u + v + p - 1 by ring] at hd
  have hmx := rnd_mul_of_le (p := p) hab1
  rw [show u + v + 2 * (p : ℤ) - 2 + 1 - p = u + v + p - 1 by ring] at hmx
  generalize hx : rnd p none (a * b) = x at *
  have hm1 : Mul (u + v + 2 * s) (ahi * bhi) := by
    have := hmah.mul hmbh
    rwa [show u + (s : ℤ) + (v + s) = u + v + 2 * s by ring] at this
  have hl1' : |ahi * bhi| ≤ 2 ^ (u + v + 2 * p) := by
    have := abs_mul_le hah hbh
    rwa [show u + (p : ℤ) + (v + p) = u + v + 2 * p by ring] at this
  have hm2 : Mul (u + v + s) (alo * bhi) := by
    have := hmal.mul hmbh
    rwa [show u + (v + (s : ℤ)) = u + v + s by ring] at this
  have hl2' : |alo * bhi| ≤ 2 ^ (u + v + p + s - 1) := by
    have := abs_mul_le hal hbh
    rwa [show u + (s : ℤ) - 1 + (v + p) = u + v + p + s - 1 by ring] at this
  have hm3 : Mul (u + v + s) (ahi * blo) := by
    have := hmah.mul hmbl
    rwa [show u + (s : ℤ) + v = u + v + s by ring] at this
  have hl3' : |ahi * blo| ≤ 2 ^ (u + v + p + s - 1) := by
    have := abs_mul_le hah hbl
    rwa [show u + (p : ℤ) + (v + s - 1) = u + v + p + s - 1 by ring] at this
  have hm4 : Mul (u + v) (alo * blo) := hmal.mul hmbl
  have hl4' : |alo * blo| ≤ 2 ^ (u + v + p - 1) := by
    have := abs_mul_le hal hbl
    exact this.trans (two_le (by omega))
  have r1 : Rep p (ahi * bhi) := hm1.rep hp0 (hl1'.trans (two_le (by omega)))
  have r2 : Rep p (alo * bhi) := hm2.rep hp0 (hl2'.trans (two_le (by omega)))
  have r3 : Rep p (ahi * blo) := hm3.rep hp0 (hl3'.trans (two_le (by omega)))
  have r4 : Rep p (alo * blo) := hm4.rep hp0 (hl4'.trans (two_le (by omega)))
  have hdecomp : a * b = ahi * bhi + alo * bhi + ahi * blo + alo * blo := by
    rw [← hae, ← hbe]
    ring
  have p1 : (2 : ℚ) ^ (u + v + p + s) = 2 * 2 ^ (u + v + p + s - 1) := two_pred _
  have p2 : (2 : ℚ) ^ (u + v + p + s) ≤ 2 ^ (u + v + 2 * p - 2) := two_le (by omega)
  have p3 : (2 : ℚ) ^ (u + v + p - 1 + 1) = 2 * 2 ^ (u + v + p - 1) := two_succ _
  have p4 : (2 : ℚ) ^ (u + v + p - 1 + 1) ≤ 2 ^ (u + v + 2 * p - 2) := two_le (by omega)
  have p5 : (2 : ℚ) ^ (u + v + 2 * p - 2 + 1) = 2 * 2 ^ (u + v + 2 * p - 2) := two_succ _
  have p6 : (2 : ℚ) ^ (u + v + p - 1 + 1) ≤ 2 ^ (u + v + p + s - 1) := two_le (by omega)
  have q1 : Rep p (x - ahi * bhi) := by
    refine (hmx.sub (hm1.mono (by omega))).rep hp0 ?_
    rw [show u + v + (p : ℤ) - 1 + p = u + v + 2 * p - 2 + 1 by ring, p5]
    have : x - ahi * bhi = (x - a * b) + (alo * bhi + ahi * blo + alo * blo) := by rw [hdecomp]; ring
    rw [this]
    refine (abs_add_le _ _).trans ?_
    have := abs_add_le (alo * bhi + ahi * blo) (alo * blo)
    have := abs_add_le (alo * bhi) (ahi * blo)
    linarith
  have q2 : Rep p (x - ahi * bhi - alo * bhi) := by
    refine (((hmx.sub (hm1.mono (by omega))).mono (by omega : u + v + (s : ℤ) ≤ _)).sub hm2).rep hp0 ?_
    rw [show u + v + (s : ℤ) + p = u + v + p + s by ring, p1]
    have : x - ahi * bhi - alo * bhi = (x - a * b) + (ahi * blo + alo * blo) := by rw [hdecomp]; ring
    rw [this]
    refine (abs_add_le _ _).trans ?_
    have := abs_add_le (ahi * blo) (alo * blo)
    linarith
  have q3 : Rep p (x - ahi * bhi - alo * bhi - ahi * blo) := by
    have hm : Mul (u + v) (x - ahi * bhi - alo * bhi - ahi * blo) :=
      (((hmx.mono (by omega)).sub (hm1.mono (by omega))).sub (hm2.mono (by omega))).sub (hm3.mono (by omega))
    refine hm.rep hp0 ?_
    rw [show u + v + (p : ℤ) = u + v + p - 1 + 1 by ring, p3]
    have : x - ahi * bhi - alo * bhi - ahi * blo = (x - a * b) + alo * blo := by rw [hdecomp]; ring
    rw [this]
    refine (abs_add_le _ _).trans ?_
    linarith
  have q4 : Rep p (a * b - x) := by
    have hm : Mul (u + v) (a * b - x) := by
      rw [hdecomp]
      exact ((((hm1.mono (by omega)).add (hm2.mono (by omega))).add (hm3.mono (by omega))).add hm4).sub (hmx.mono (by omega))
    refine hm.rep hp0 ?_
    rw [abs_sub_comm]
    exact hd.trans (two_le (by omega))
  simp only [twoProduct, hsa, hsb, hx]
  rw [r1.rnd, r2.rnd, r3.rnd, r4.rnd, q1.rnd, q2.rnd, q3.rnd,
    show alo * blo - (x - ahi * bhi - alo * bhi - ahi * blo) = a * b - x by rw [hdecomp]; ring, q4.rnd]

/-- The error of a product of representable numbers is representable. -/
theorem mul_err_rep (hp : 4 ≤ p) {a b : ℚ} (ha : Rep p a) (hb : Rep p b) : Rep p (a * b - rnd p none (a * b)) := by
  have := congrArg Prod.snd (twoProduct_eq hp ha hb)
  simp only at this
  rw [← this]
  exact rnd_rep (by omega) _

end Gbs.Pred
