import Verif.Lemmas.TwoTwoDiff
import Mathlib.Tactic.LinearCombination

/-!
# The adaptive stages of the orientation predicate
-/

namespace Gbs.Pred

open Fl

variable {p : ℕ}

theorem sign_eq_of_lt {a b : ℚ} (h : |a - b| < |a|) : SignType.sign a = SignType.sign b := by
  have h1 := abs_lt.1 h
  rcases lt_trichotomy a 0 with h0 | h0 | h0
  · rw [abs_of_neg h0] at h1
    rw [sign_neg h0, sign_neg (by linarith)]
  · rw [h0, abs_zero] at h
    linarith [abs_nonneg (0 - b)]
  · rw [abs_of_pos h0] at h1
    rw [sign_pos h0, sign_pos (by linarith)]

theorem sign_eq_of_le {a b : ℚ} (h : |a - b| ≤ 1 / 2 * |a|) : SignType.sign a = SignType.sign b := by
  by_cases h0 : a = 0
  · rw [h0] at h
    simp only [zero_sub, abs_neg, abs_zero, mul_zero] at h
    rw [h0, abs_eq_zero.1 (le_antisymm h (abs_nonneg b))]
  · exact sign_eq_of_lt (h.trans_lt (by linarith [abs_pos.2 h0]))

theorem sign_rnd (hp : 0 < p) (x : ℚ) : SignType.sign (rnd p none x) = SignType.sign x := by
  rcases lt_trichotomy x 0 with h | h | h
  · rw [sign_neg h, sign_neg (rnd_neg_of_neg hp h)]
  · rw [h, rnd_zero]
  · rw [sign_pos h, sign_pos (rnd_pos hp h)]

/-! ### The constants -/

theorem Rep.mul_two {x : ℚ} (h : Rep p x) (s : ℤ) : Rep p (x * 2 ^ s) := by
  obtain ⟨m, e, hm, rfl⟩ := h
  exact ⟨m, e + s, hm, by rw [two_add]; ring⟩

theorem epsilon_eq (hp : 0 < p) : epsilon p (rnd p none) = 2 ^ (-(p : ℤ)) := by
  have : (2 : ℚ) ^ (1 - (p : ℤ)) / 2 = 2 ^ (-(p : ℤ)) := by
    rw [show 1 - (p : ℤ) = -(p : ℤ) + 1 by ring, two_succ]
    ring
  rw [epsilon, this, (two_rep hp _).rnd]

theorem int_rep (hp : 0 < p) (n : ℤ) (h : |n| ≤ 2 ^ p) : Rep p n := by
  refine Mul.rep (s := 0) hp ⟨n, by simp⟩ ?_
  rw [zero_add, two_nat]
  exact_mod_cast h

theorem const_rep {n : ℤ} {k : ℕ} {s : ℤ} (hp : 0 < p) (hs : s ≤ 0) (hk : s ≤ k - p)
    (h : |(n : ℚ) + 2 ^ k * 2 ^ (-(p : ℤ))| ≤ 2 ^ (s + p)) : Rep p (n + 2 ^ k * 2 ^ (-(p : ℤ))) := by
  have : Mul 0 (n : ℚ) := ⟨n, by simp⟩
  refine Mul.rep hp (Mul.add (this.mono hs) ?_) h
  rw [← two_nat, ← two_add]
  exact two_mul_of_le (by omega)

theorem ccwerrboundA_eq (hp : 8 ≤ p) :
    ccwerrboundA p (rnd p none) = (3 + 16 * 2 ^ (-(p : ℤ))) * 2 ^ (-(p : ℤ)) := by
  have hp0 : 0 < p := by omega
  have hε := eps_le hp
  have hε0 := two_pos (-(p : ℤ))
  have h1 : Rep p (16 * 2 ^ (-(p : ℤ))) := by
    have := two_rep hp0 (4 + -(p : ℤ))
    rw [two_add] at this
    convert this using 1
    norm_num
  have h2 : Rep p (3 + 16 * 2 ^ (-(p : ℤ))) := by
    have := const_rep (p := p) (n := 3) (k := 4) (s := 2 - p) hp0 (by omega) (by push_cast; omega) (by
      rw [show 2 - (p : ℤ) + p = 2 by ring, abs_of_pos (by push_cast; positivity)]
      norm_num
      norm_num at hε
      linarith)
    convert this using 2 <;> norm_num
  rw [ccwerrboundA, epsilon_eq hp0, h1.rnd, h2.rnd, (Rep.mul_two h2 _).rnd]

theorem resulterrbound_eq (hp : 8 ≤ p) :
    resulterrbound p (rnd p none) = (3 + 8 * 2 ^ (-(p : ℤ))) * 2 ^ (-(p : ℤ)) := by
  have hp0 : 0 < p := by omega
  have hε := eps_le hp
  have hε0 := two_pos (-(p : ℤ))
  have h1 : Rep p (8 * 2 ^ (-(p : ℤ))) := by
    have := two_rep hp0 (3 + -(p : ℤ))
    rw [two_add] at this
    convert this using 1
    norm_num
  have h2 : Rep p (3 + 8 * 2 ^ (-(p : ℤ))) := by
    have := const_rep (p := p) (n := 3) (k := 3) (s := 2 - p) hp0 (by omega) (by push_cast; omega) (by
      rw [show 2 - (p : ℤ) + p = 2 by ring, abs_of_pos (by push_cast; positivity)]
      norm_num
      norm_num at hε
      linarith)
    convert this using 2 <;> norm_num
  rw [resulterrbound, epsilon_eq hp0, h1.rnd, h2.rnd, (Rep.mul_two h2 _).rnd]

theorem ccwerrboundB_eq (hp : 8 ≤ p) :
    ccwerrboundB p (rnd p none) = (2 + 12 * 2 ^ (-(p : ℤ))) * 2 ^ (-(p : ℤ)) := by
  have hp0 : 0 < p := by omega
  have hε := eps_le hp
  have hε0 := two_pos (-(p : ℤ))
  have h12 : Rep p 12 := by
    have := int_rep hp0 12 (by
      have : (2 : ℤ) ^ 8 ≤ 2 ^ p := pow_le_pow_right₀ (by norm_num) hp
      norm_num at this ⊢
      linarith)
    exact_mod_cast this
  have h1 : Rep p (12 * 2 ^ (-(p : ℤ))) := Rep.mul_two h12 _
  have h2 : Rep p (2 + 12 * 2 ^ (-(p : ℤ))) := by
    refine Mul.rep (s := 2 - p) hp0 (Mul.add ?_ ?_) ?_
    · have := two_mul_of_le (s := 2 - (p : ℤ)) (t := 1) (by omega)
      simpa using this
    · exact ⟨3, by rw [show 2 - (p : ℤ) = 2 + -p by ring, two_add]; norm_num; ring⟩
    · rw [show 2 - (p : ℤ) + p = 2 by ring, abs_of_pos (by positivity)]
      norm_num
      norm_num at hε
      linarith
  rw [ccwerrboundB, epsilon_eq hp0, h1.rnd, h2.rnd, (Rep.mul_two h2 _).rnd]

theorem ccwerrboundC_eq (hp : 8 ≤ p) :
    ccwerrboundC p (rnd p none) = (9 + 64 * 2 ^ (-(p : ℤ))) * 2 ^ (-(p : ℤ)) * 2 ^ (-(p : ℤ)) := by
  have hp0 : 0 < p := by omega
  have hε := eps_le hp
  have hε0 := two_pos (-(p : ℤ))
  have h1 : Rep p (64 * 2 ^ (-(p : ℤ))) := by
    have := two_rep hp0 (6 + -(p : ℤ))
    rw [two_add] at this
    convert this using 1
    norm_num
  have h2 : Rep p (9 + 64 * 2 ^ (-(p : ℤ))) := by
    have := const_rep (p := p) (n := 9) (k := 6) (s := 4 - p) hp0 (by omega) (by push_cast; omega) (by
      rw [show 4 - (p : ℤ) + p = 4 by ring, abs_of_pos (by push_cast; positivity)]
      norm_num
      norm_num at hε
      linarith)
    convert this using 2 <;> norm_num
  rw [ccwerrboundC, epsilon_eq hp0, h1.rnd, h2.rnd, (Rep.mul_two h2 _).rnd, (Rep.mul_two (Rep.mul_two h2 _) _).rnd]

/-! ### Error analysis -/

/-- A product of rounded factors. -/
theorem prod_err {ε X x Y y : ℚ} (hX : |X - x| ≤ ε * |x|) (hY : |Y - y| ≤ ε * |y|) :
    |X * Y - x * y| ≤ (2 * ε + ε ^ 2) * (|x| * |y|) := by
  have : X * Y - x * y = (X - x) * (Y - y) + (x * (Y - y) + (X - x) * y) := by ring
  rw [this]
  have h1 := abs_add_le ((X - x) * (Y - y)) (x * (Y - y) + (X - x) * y)
  have h2 := abs_add_le (x * (Y - y)) ((X - x) * y)
  rw [abs_mul] at h1
  rw [abs_mul, abs_mul] at h2
  have h3 : |X - x| * |Y - y| ≤ (ε * |x|) * (ε * |y|) :=
    mul_le_mul hX hY (abs_nonneg _) ((abs_nonneg _).trans hX)
  have h4 : |x| * |Y - y| ≤ |x| * (ε * |y|) := mul_le_mul_of_nonneg_left hY (abs_nonneg _)
  have h5 : |X - x| * |y| ≤ ε * |x| * |y| := mul_le_mul_of_nonneg_right hX (abs_nonneg _)
  nlinarith

/-- A rounded sum of two rounded small terms. -/
theorem lin_err {ε a b m : ℚ} (hp : 0 < p) (hε : (2 : ℚ) ^ (-(p : ℤ)) = ε) (hε0 : 0 < ε) (hε1 : ε ≤ 1 / 256) (ha : |a| ≤ ε * m)
    (hb : |b| ≤ ε * m) (hm : 0 ≤ m) :
    |rnd p none (rnd p none a + rnd p none b) - (a + b)| ≤ (4 + 1 / 16) * ε ^ 2 * m ∧
      |rnd p none (rnd p none a + rnd p none b)| ≤ (2 + 1 / 16) * ε * m := by
  have rel : ∀ x, |rnd p none x - x| ≤ ε * |x| := fun x => hε ▸ (rnd_rel hp x).1
  have h1 := rel a
  have h2 := rel b
  have h3 := rel (rnd p none a + rnd p none b)
  have h4 : |rnd p none a - a| ≤ ε * (ε * m) := h1.trans (mul_le_mul_of_nonneg_left ha hε0.le)
  have h5 : |rnd p none b - b| ≤ ε * (ε * m) := h2.trans (mul_le_mul_of_nonneg_left hb hε0.le)
  have h6 : |rnd p none a| ≤ ε * m + ε * (ε * m) := by
    have := abs_sub_abs_le_abs_sub (rnd p none a) a
    linarith
  have h7 : |rnd p none b| ≤ ε * m + ε * (ε * m) := by
    have := abs_sub_abs_le_abs_sub (rnd p none b) b
    linarith
  generalize rnd p none a = fa at *
  generalize rnd p none b = fb at *
  have h8 : |fa + fb| ≤ 2 * (ε * m + ε * (ε * m)) := (abs_add_le _ _).trans (by linarith)
  have h9 : |rnd p none (fa + fb) - (fa + fb)| ≤ ε * (2 * (ε * m + ε * (ε * m))) := h3.trans (mul_le_mul_of_nonneg_left h8 hε0.le)
  have hεm : 0 ≤ ε * m := mul_nonneg hε0.le hm
  have hεεm : 0 ≤ ε * (ε * m) := mul_nonneg hε0.le hεm
  have k1 : ε * (ε * m) ≤ 1 / 256 * (ε * m) := mul_le_mul_of_nonneg_right hε1 hεm
  have k2 : ε * (ε * (ε * m)) ≤ 1 / 256 * (ε * (ε * m)) := mul_le_mul_of_nonneg_right hε1 hεεm
  constructor
  · have : rnd p none (fa + fb) - (a + b) = (rnd p none (fa + fb) - (fa + fb)) + ((fa - a) + (fb - b)) := by ring
    rw [this]
    have e1 := abs_add_le (rnd p none (fa + fb) - (fa + fb)) ((fa - a) + (fb - b))
    have e2 := abs_add_le (fa - a) (fb - b)
    have : (4 + 1 / 16) * ε ^ 2 * m = (4 + 1 / 16) * (ε * (ε * m)) := by ring
    rw [this]
    linarith
  · have := abs_sub_abs_le_abs_sub (rnd p none (fa + fb)) (fa + fb)
    have e : (2 + 1 / 16) * ε * m = (2 + 1 / 16) * (ε * m) := by ring
    rw [e]
    linarith

theorem numB {ε ds d : ℚ} (hε0 : 0 < ε) (hε1 : ε ≤ 1 / 256) (hds : 0 < ds) (h6 : (1 - ε) * ((2 + 12 * ε) * ε * ds) ≤ d) :
    ε * (1 + 16 * ε) * d + ε ^ 2 * ((1 + ε) * ds) + (2 * ε + ε ^ 2) * ((1 + ε) * ((1 + ε) * ds)) < d := by
  have h7 : (1 - ε * (1 + 16 * ε)) * ((1 - ε) * ((2 + 12 * ε) * ε * ds)) ≤ (1 - ε * (1 + 16 * ε)) * d :=
    mul_le_mul_of_nonneg_left h6 (by nlinarith)
  have e : (1 - ε * (1 + 16 * ε)) * ((1 - ε) * ((2 + 12 * ε) * ε * ds)) -
      (ε ^ 2 * ((1 + ε) * ds) + (2 * ε + ε ^ 2) * ((1 + ε) * ((1 + ε) * ds))) =
      ε ^ 2 * ds * (2 - 59 * ε - 149 * ε ^ 2 + 192 * ε ^ 3) := by ring
  have h9 : 0 < 2 - 59 * ε - 149 * ε ^ 2 + 192 * ε ^ 3 := by
    have : 0 < ε ^ 3 := by positivity
    nlinarith
  have := mul_pos (by positivity : 0 < ε ^ 2 * ds) h9
  linarith

theorem numC {ε ds d d' dv M : ℚ} (hε0 : 0 < ε) (hε1 : ε ≤ 1 / 256) (hds : 0 < ds) (hd0 : 0 ≤ d)
    (hM : M ≤ (1 + ε) * ((1 + ε) * ds))
    (g4 : (1 - ε) * ((1 - ε) * ((9 + 64 * ε) * ε * ε * ds) + (1 - ε) * ((3 + 8 * ε) * ε * d)) ≤ d')
    (herr : dv ≤ ε * (1 + 16 * ε) * d + ε ^ 2 * ((1 + ε) * ds)) :
    ε * d' + dv + (7 + 1 / 8) * ε ^ 2 * M < d' := by
  have hε2 : 0 < 1 - ε := by linarith
  -- bounds by multiples of `ε ^ 2 * ds` and `ε * d`
  obtain ⟨A, hA⟩ : ∃ A, A = ε ^ 2 * ds := ⟨_, rfl⟩
  obtain ⟨Bd, hBd⟩ : ∃ Bd, Bd = ε * d := ⟨_, rfl⟩
  have hA0 : 0 < A := by rw [hA]; positivity
  have hB0 : 0 ≤ Bd := by rw [hBd]; positivity
  have b1 : (7 + 1 / 8) * ε ^ 2 * M ≤ (7 + 5 / 16) * A := by
    have k1 : ε ^ 2 * M ≤ ε ^ 2 * ((1 + ε) * ((1 + ε) * ds)) := mul_le_mul_of_nonneg_left hM (by positivity)
    have k2 : ε ^ 2 * ((1 + ε) * ((1 + ε) * ds)) = (1 + ε) ^ 2 * A := by rw [hA]; ring
    have k3 : (1 + ε) ^ 2 ≤ 1 + 1 / 64 := by nlinarith
    have k4 := mul_le_mul_of_nonneg_right k3 hA0.le
    nlinarith
  have b2 : dv ≤ (1 + 1 / 16) * Bd + (1 + 1 / 16) * A := by
    have k1 : ε * (1 + 16 * ε) * d = (1 + 16 * ε) * Bd := by rw [hBd]; ring
    have k2 : ε ^ 2 * ((1 + ε) * ds) = (1 + ε) * A := by rw [hA]; ring
    rw [k1, k2] at herr
    nlinarith
  have b3 : (1 - ε) * ((1 - ε) * (9 * A) + (1 - ε) * (3 * Bd)) ≤ d' := by
    refine le_trans (mul_le_mul_of_nonneg_left ?_ hε2.le) g4
    have k1 : (9 + 64 * ε) * ε * ε * ds = (9 + 64 * ε) * A := by rw [hA]; ring
    have k2 : (3 + 8 * ε) * ε * d = (3 + 8 * ε) * Bd := by rw [hBd]; ring
    rw [k1, k2]
    have k3 : 9 * A ≤ (9 + 64 * ε) * A := mul_le_mul_of_nonneg_right (by linarith) hA0.le
    have k4 : 3 * Bd ≤ (3 + 8 * ε) * Bd := mul_le_mul_of_nonneg_right (by linarith) hB0
    have := mul_le_mul_of_nonneg_left k3 hε2.le
    have := mul_le_mul_of_nonneg_left k4 hε2.le
    linarith
  have b4 : (1 - ε) ^ 3 * (9 * A + 3 * Bd) ≤ (1 - ε) * d' := by
    have := mul_le_mul_of_nonneg_left b3 hε2.le
    have e : (1 - ε) * ((1 - ε) * ((1 - ε) * (9 * A) + (1 - ε) * (3 * Bd))) = (1 - ε) ^ 3 * (9 * A + 3 * Bd) := by ring
    linarith
  have b5 : (1 - 1 / 64 : ℚ) ≤ (1 - ε) ^ 3 := by
    have : 0 ≤ ε ^ 2 * (3 - ε) := by
      have : 0 ≤ 3 - ε := by linarith
      positivity
    nlinarith
  have b6 : (1 - 1 / 64) * (9 * A + 3 * Bd) ≤ (1 - ε) ^ 3 * (9 * A + 3 * Bd) := mul_le_mul_of_nonneg_right b5 (by linarith)
  linarith

theorem abs_ge_of_or {d e : ℚ} (h : d ≥ e ∨ -d ≥ e) : e ≤ |d| := by
  rcases h with h | h
  · exact h.trans (le_abs_self d)
  · exact h.trans (neg_le_abs d)

theorem rd_getLast {l : List ℚ} (h : l ≠ []) : (do
    let last ← usub l.length 1
    rd l last) = .ok (l.getLast h) := by
  have hl := List.length_pos_of_ne_nil h
  rw [usub_ok (by omega), R_bind_ok, rd_ok (by omega), List.getLast_eq_getElem]

/-- The adaptive stage. -/
theorem adapt_sign (hp : 8 ≤ p) {a b c : ℚ × ℚ} (ha1 : Rep p a.1) (ha2 : Rep p a.2) (hb1 : Rep p b.1) (hb2 : Rep p b.2)
    (hc1 : Rep p c.1) (hc2 : Rep p c.2) {ds : ℚ} (hds : 0 < ds)
    (hsum : |rnd p none (rnd p none (a.1 - c.1) * rnd p none (b.2 - c.2))| +
      |rnd p none (rnd p none (a.2 - c.2) * rnd p none (b.1 - c.1))| ≤ (1 + 2 ^ (-(p : ℤ))) * ds) :
    ∃ r, orient2dAdapt p (rnd p none) a b c ds = .ok r ∧
      SignType.sign r = SignType.sign ((a.1 - c.1) * (b.2 - c.2) - (a.2 - c.2) * (b.1 - c.1)) := by
  have hp0 : 0 < p := by omega
  have hp4 : 4 ≤ p := by omega
  have hε := eps_le hp
  have hε0 := two_pos (-(p : ℤ))
  obtain ⟨ε, hεd⟩ : ∃ ε : ℚ, (2 : ℚ) ^ (-(p : ℤ)) = ε := ⟨_, rfl⟩
  rw [hεd] at hε hε0 hsum
  have hε1 : ε ≤ 1 / 256 := by norm_num at hε ⊢; exact hε
  have rel : ∀ x, |rnd p none x - x| ≤ ε * |x| ∧ |rnd p none x - x| ≤ ε * |rnd p none x| := fun x => hεd ▸ rnd_rel hp0 x
  -- differences and their tails
  have diff : ∀ {x y : ℚ}, Rep p x → Rep p y → ∃ d t, rnd p none (x - y) = d ∧ twoDiffTail (rnd p none) x y d = t ∧ Rep p d ∧ Rep p t ∧
      x - y = d + t ∧ |t| ≤ ε * |d| := by
    intro x y hx hy
    refine ⟨_, _, rfl, rfl, rnd_rep hp0 _, ?_, ?_, ?_⟩
    · exact rnd_rep hp0 _
    · rw [twoDiffTail_eq (by omega) hx hy]
      ring
    · rw [twoDiffTail_eq (by omega) hx hy, abs_sub_comm]
      exact (rel (x - y)).2
  obtain ⟨acx, acxt, e1, t1, racx, racxt, d1, n1⟩ := diff ha1 hc1
  obtain ⟨bcx, bcxt, e2, t2, rbcx, rbcxt, d2, n2⟩ := diff hb1 hc1
  obtain ⟨acy, acyt, e3, t3, racy, racyt, d3, n3⟩ := diff ha2 hc2
  obtain ⟨bcy, bcyt, e4, t4, rbcy, rbcyt, d4, n4⟩ := diff hb2 hc2
  rw [e1, e2, e3, e4] at hsum
  rw [d1, d2, d3, d4]
  -- four component differences of products
  have four : ∀ {x y z w : ℚ}, Rep p x → Rep p y → Rep p z → Rep p w → ∃ x0 x1 x2 x3,
      twoTwoDiff (rnd p none) (rnd p none (x * y)) (x * y - rnd p none (x * y)) (rnd p none (z * w)) (z * w - rnd p none (z * w)) =
        [x0, x1, x2, x3] ∧ Diff4 p (x * y - z * w) x0 x1 x2 x3 ∧
        |x0| ≤ ε * (ε * |rnd p none (x * y)| + ε * |rnd p none (z * w)|) := by
    intro x y z w hx hy hz hw
    obtain ⟨q1, h1, h2⟩ := rnd_half (p := p) (x * y)
    obtain ⟨q2, h3, h4⟩ := rnd_half (p := p) (z * w)
    obtain ⟨x0, x1, x2, x3, h5, h6, h7⟩ := twoTwoDiff_spec hp4 (rnd_rep hp0 (x * y)) (mul_err_rep hp4 hx hy)
      (rnd_rep hp0 (z * w)) (mul_err_rep hp4 hz hw) ⟨q1, h1, h2⟩ ⟨q2, h3, h4⟩
    refine ⟨x0, x1, x2, x3, h5, ?_, ?_⟩
    · rw [show rnd p none (x * y) + (x * y - rnd p none (x * y)) - (rnd p none (z * w) + (z * w - rnd p none (z * w))) =
        x * y - z * w by ring] at h6
      exact h6
    · rw [hεd] at h7
      refine h7.trans (mul_le_mul_of_nonneg_left ?_ hε0.le)
      refine (abs_sub _ _).trans ?_
      have r1 := (rel (x * y)).2
      have r2 := (rel (z * w)).2
      rw [abs_sub_comm] at r1 r2
      linarith
  obtain ⟨x0, x1, x2, x3, hB, dB, hx0⟩ := four racx rbcy racy rbcx
  obtain ⟨det, hest, hdr, herr, hhalf⟩ := dB.estimate (by omega)
  rw [hεd] at herr
  -- the magnitudes
  have hM1 : |acx| * |bcy| ≤ (1 + ε) * |rnd p none (acx * bcy)| := by
    have h1 := (rel (acx * bcy)).2
    have h2 := abs_sub_abs_le_abs_sub (acx * bcy) (rnd p none (acx * bcy))
    rw [abs_sub_comm, abs_mul] at h2
    linarith
  have hM2 : |acy| * |bcx| ≤ (1 + ε) * |rnd p none (acy * bcx)| := by
    have h1 := (rel (acy * bcx)).2
    have h2 := abs_sub_abs_le_abs_sub (acy * bcx) (rnd p none (acy * bcx))
    rw [abs_sub_comm, abs_mul] at h2
    linarith
  have hx0' : |x0| ≤ ε ^ 2 * ((1 + ε) * ds) := by
    have : ε * (ε * |rnd p none (acx * bcy)| + ε * |rnd p none (acy * bcx)|) =
      ε ^ 2 * (|rnd p none (acx * bcy)| + |rnd p none (acy * bcx)|) := by ring
    rw [this] at hx0
    exact hx0.trans (mul_le_mul_of_nonneg_left hsum (by positivity))
  have hM : |acx| * |bcy| + |acy| * |bcx| ≤ (1 + ε) * ((1 + ε) * ds) := by
    have := mul_le_mul_of_nonneg_left hsum (by linarith : 0 ≤ 1 + ε)
    linarith
  have hM0 : 0 ≤ |acx| * |bcy| := by positivity
  have hM0' : 0 ≤ |acy| * |bcx| := by positivity
  obtain ⟨V, hV⟩ : ∃ V, acx * bcy - acy * bcx = V := ⟨_, rfl⟩
  rw [hV] at herr hhalf dB
  have hd0 := abs_nonneg det
  unfold orient2dAdapt
  simp only [e1, e2, e3, e4, t1, t2, t3, t4, twoProduct_eq hp4 racx rbcy, twoProduct_eq hp4 racy rbcx, hB, hest, R_bind_ok]
  by_cases hcB : det ≥ rnd p none (ccwerrboundB p (rnd p none) * ds) ∨ -det ≥ rnd p none (ccwerrboundB p (rnd p none) * ds)
  · -- second filter
    rw [if_pos hcB]
    refine ⟨det, rfl, ?_⟩
    have h1 := abs_ge_of_or hcB
    rw [ccwerrboundB_eq hp, hεd] at h1
    have hb0 : 0 < (2 + 12 * ε) * ε * ds := by positivity
    have h2 := (abs_le.1 (rel ((2 + 12 * ε) * ε * ds)).1).1
    rw [abs_of_pos hb0] at h2
    have h3 : |V - ((acx + acxt) * (bcy + bcyt) - (acy + acyt) * (bcx + bcxt))| ≤
        (2 * ε + ε ^ 2) * (|acx| * |bcy| + |acy| * |bcx|) := by
      have k1 := prod_err (ε := ε) (X := acx + acxt) (x := acx) (Y := bcy + bcyt) (y := bcy) (by simpa using n1) (by simpa using n4)
      have k2 := prod_err (ε := ε) (X := acy + acyt) (x := acy) (Y := bcx + bcxt) (y := bcx) (by simpa using n3) (by simpa using n2)
      have : V - ((acx + acxt) * (bcy + bcyt) - (acy + acyt) * (bcx + bcxt)) =
          ((acy + acyt) * (bcx + bcxt) - acy * bcx) - ((acx + acxt) * (bcy + bcyt) - acx * bcy) := by rw [← hV]; ring
      rw [this]
      refine (abs_sub _ _).trans ?_
      linarith
    have h4 : (2 * ε + ε ^ 2) * (|acx| * |bcy| + |acy| * |bcx|) ≤ (2 * ε + ε ^ 2) * ((1 + ε) * ((1 + ε) * ds)) :=
      mul_le_mul_of_nonneg_left hM (by positivity)
    refine sign_eq_of_lt ?_
    have h5 : |det - ((acx + acxt) * (bcy + bcyt) - (acy + acyt) * (bcx + bcxt))| ≤
        |det - V| + |V - ((acx + acxt) * (bcy + bcyt) - (acy + acyt) * (bcx + bcxt))| := by
      have := abs_add_le (det - V) (V - ((acx + acxt) * (bcy + bcyt) - (acy + acyt) * (bcx + bcxt)))
      rwa [sub_add_sub_cancel] at this
    have h6 : (1 - ε) * ((2 + 12 * ε) * ε * ds) ≤ |det| := by linarith
    have h7 := numB hε0 hε1 hds h6
    linarith
  rw [if_neg hcB]
  simp only [R_pure]
  by_cases hz : acxt = 0 ∧ acyt = 0 ∧ bcxt = 0 ∧ bcyt = 0
  · -- no tails
    rw [if_pos hz]
    obtain ⟨z1, z2, z3, z4⟩ := hz
    refine ⟨det, rfl, ?_⟩
    rw [z1, z2, z3, z4, add_zero, add_zero, add_zero, add_zero, hV]
    exact sign_eq_of_le hhalf
  rw [if_neg hz]
  generalize hcorr : rnd p none (rnd p none (rnd p none (acx * bcyt) + rnd p none (bcy * acxt)) -
    rnd p none (rnd p none (acy * bcxt) + rnd p none (bcx * acyt))) = corr
  generalize hdet' : rnd p none (det + corr) = det'
  by_cases hcC : det' ≥ rnd p none (rnd p none (ccwerrboundC p (rnd p none) * ds) + rnd p none (resulterrbound p (rnd p none) * |det|)) ∨
      -det' ≥ rnd p none (rnd p none (ccwerrboundC p (rnd p none) * ds) + rnd p none (resulterrbound p (rnd p none) * |det|))
  · -- third filter
    rw [if_pos hcC]
    refine ⟨det', rfl, ?_⟩
    have h1 := abs_ge_of_or hcC
    rw [ccwerrboundC_eq hp, resulterrbound_eq hp, hεd] at h1
    have hC0 : 0 < (9 + 64 * ε) * ε * ε * ds := by positivity
    have hR0 : 0 ≤ (3 + 8 * ε) * ε * |det| := by positivity
    have f1 := (abs_le.1 (rel ((9 + 64 * ε) * ε * ε * ds)).1).1
    have f2 := (abs_le.1 (rel ((3 + 8 * ε) * ε * |det|)).1).1
    rw [abs_of_pos hC0] at f1
    rw [abs_of_nonneg hR0] at f2
    generalize rnd p none ((9 + 64 * ε) * ε * ε * ds) = fC at *
    generalize rnd p none ((3 + 8 * ε) * ε * |det|) = fR at *
    have g1 : (1 - ε) * ((9 + 64 * ε) * ε * ε * ds) ≤ fC := by linarith
    have g2 : (1 - ε) * ((3 + 8 * ε) * ε * |det|) ≤ fR := by linarith
    have hε2 : 0 < 1 - ε := by linarith
    have g3 : 0 ≤ fC + fR := by
      have := mul_nonneg hε2.le hC0.le
      have := mul_nonneg hε2.le hR0
      linarith
    have f3 := (abs_le.1 (rel (fC + fR)).1).1
    rw [abs_of_nonneg g3] at f3
    have g4 : (1 - ε) * ((1 - ε) * ((9 + 64 * ε) * ε * ε * ds) + (1 - ε) * ((3 + 8 * ε) * ε * |det|)) ≤ |det'| := by
      have : (1 - ε) * (fC + fR) ≤ |det'| := by linarith
      exact (mul_le_mul_of_nonneg_left (by linarith) hε2.le).trans this
    -- the correction
    have l1 := lin_err (p := p) (ε := ε) (a := acx * bcyt) (b := bcy * acxt) (m := |acx| * |bcy|) hp0 hεd hε0 hε1
      (by rw [abs_mul]; have := mul_le_mul_of_nonneg_left n4 (abs_nonneg acx); linarith)
      (by rw [abs_mul]; have := mul_le_mul_of_nonneg_left n1 (abs_nonneg bcy); linarith) hM0
    have l2 := lin_err (p := p) (ε := ε) (a := acy * bcxt) (b := bcx * acyt) (m := |acy| * |bcx|) hp0 hεd hε0 hε1
      (by rw [abs_mul]; have := mul_le_mul_of_nonneg_left n2 (abs_nonneg acy); linarith)
      (by rw [abs_mul]; have := mul_le_mul_of_nonneg_left n3 (abs_nonneg bcx); linarith) hM0'
    generalize rnd p none (rnd p none (acx * bcyt) + rnd p none (bcy * acxt)) = w1 at *
    generalize rnd p none (rnd p none (acy * bcxt) + rnd p none (bcx * acyt)) = w2 at *
    generalize hMd : |acx| * |bcy| = M1 at *
    generalize hMd' : |acy| * |bcx| = M2 at *
    have l3 : |corr - (w1 - w2)| ≤ ε * ((2 + 1 / 16) * ε * M1 + (2 + 1 / 16) * ε * M2) := by
      rw [← hcorr]
      refine (rel (w1 - w2)).1.trans (mul_le_mul_of_nonneg_left ?_ hε0.le)
      exact (abs_sub _ _).trans (by linarith [l1.2, l2.2])
    have l4 : |acxt * bcyt - acyt * bcxt| ≤ ε ^ 2 * M1 + ε ^ 2 * M2 := by
      refine (abs_sub _ _).trans ?_
      rw [abs_mul, abs_mul]
      have k1 := mul_le_mul n1 n4 (abs_nonneg _) ((abs_nonneg _).trans n1)
      have k2 := mul_le_mul n3 n2 (abs_nonneg _) ((abs_nonneg _).trans n3)
      have j1 : ε * |acx| * (ε * |bcy|) = ε ^ 2 * M1 := by rw [← hMd]; ring
      have j2 : ε * |acy| * (ε * |bcx|) = ε ^ 2 * M2 := by rw [← hMd']; ring
      linarith
    have l5 : |det' - (det + corr)| ≤ ε * |det'| := hdet' ▸ (rel (det + corr)).2
    have tot : |det' - ((acx + acxt) * (bcy + bcyt) - (acy + acyt) * (bcx + bcxt))| ≤
        ε * |det'| + |det - V| + (7 + 1 / 8) * ε ^ 2 * (M1 + M2) := by
      have : det' - ((acx + acxt) * (bcy + bcyt) - (acy + acyt) * (bcx + bcxt)) =
          (det' - (det + corr)) + (det - V) + (corr - (w1 - w2)) + (w1 - (acx * bcyt + bcy * acxt)) -
            (w2 - (acy * bcxt + bcx * acyt)) - (acxt * bcyt - acyt * bcxt) := by rw [← hV]; ring
      rw [this]
      have k1 := abs_sub ((det' - (det + corr)) + (det - V) + (corr - (w1 - w2)) + (w1 - (acx * bcyt + bcy * acxt)) -
            (w2 - (acy * bcxt + bcx * acyt))) (acxt * bcyt - acyt * bcxt)
      have k2 := abs_sub ((det' - (det + corr)) + (det - V) + (corr - (w1 - w2)) + (w1 - (acx * bcyt + bcy * acxt)))
            (w2 - (acy * bcxt + bcx * acyt))
      have k3 := abs_add_le ((det' - (det + corr)) + (det - V) + (corr - (w1 - w2))) (w1 - (acx * bcyt + bcy * acxt))
      have k4 := abs_add_le ((det' - (det + corr)) + (det - V)) (corr - (w1 - w2))
      have k5 := abs_add_le (det' - (det + corr)) (det - V)
      have j : ε * ((2 + 1 / 16) * ε * M1 + (2 + 1 / 16) * ε * M2) = (2 + 1 / 16) * ε ^ 2 * M1 + (2 + 1 / 16) * ε ^ 2 * M2 := by ring
      have j2 : (7 + 1 / 8) * ε ^ 2 * (M1 + M2) = (7 + 1 / 8) * ε ^ 2 * M1 + (7 + 1 / 8) * ε ^ 2 * M2 := by ring
      rw [j] at l3
      rw [j2]
      linarith [l1.1, l2.1]
    refine sign_eq_of_lt (tot.trans_lt ?_)
    exact numC hε0 hε1 hds hd0 hM g4 (by linarith)
  rw [if_neg hcC]
  -- the exact expansion
  obtain ⟨u0, u1, u2, u3, hU1, dU1, -⟩ := four racxt rbcy racyt rbcx
  obtain ⟨v0, v1, v2, v3, hU2, dU2, -⟩ := four racx rbcyt racy rbcxt
  obtain ⟨w0, w1, w2, w3, hU3, dU3, -⟩ := four racxt rbcyt racyt rbcxt
  obtain ⟨C1, hC1, xC1, sC1, nC1, lC1, -⟩ := fastExpansionSum_spec (p := p) (by omega) (cap := 8) dB.ex dU1.ex (by simp) (by simp) (by simp)
  simp only [List.length_cons, List.length_nil] at lC1
  obtain ⟨C2, hC2, xC2, sC2, nC2, lC2, -⟩ := fastExpansionSum_spec (p := p) (by omega) (cap := 12) xC1 dU2.ex nC1 (by simp)
    (by simp only [List.length_cons, List.length_nil]; omega)
  simp only [List.length_cons, List.length_nil] at lC2
  obtain ⟨D, hD, xD, sD, nD, lD, gD⟩ := fastExpansionSum_spec (p := p) (by omega) (cap := 16) xC2 dU3.ex nC2 (by simp)
    (by simp only [List.length_cons, List.length_nil]; omega)
  simp only [twoProduct_eq hp4 racxt rbcy, twoProduct_eq hp4 racyt rbcx, twoProduct_eq hp4 racx rbcyt, twoProduct_eq hp4 racy rbcxt,
    twoProduct_eq hp4 racxt rbcyt, twoProduct_eq hp4 racyt rbcxt, hU1, hU2, hU3, hC1, hC2, hD, R_bind_ok]
  refine ⟨D.getLast nD, rd_getLast nD, ?_⟩
  rw [gD _ (List.getLast?_eq_getLast_of_ne_nil nD), sC2, sC1]
  congr 1
  simp only [List.sum_cons, List.sum_nil]
  have q1 := dB.sum
  have q2 := dU1.sum
  have q3 := dU2.sum
  have q4 := dU3.sum
  rw [← hV] at q1
  linear_combination q1 + q2 + q3 + q4

end Gbs.Pred
