import Verif.Model.Float

/-!
# Properties of rounding to nearest, ties to even

`Mul s x` says that `x` is a multiple of `2 ^ s`, `Rep p x` that it is a floating point number of precision `p`.
-/

namespace Gbs.Fl

/-- `x` is a multiple of `2 ^ s`. -/
def Mul (s : ℤ) (x : ℚ) : Prop := ∃ n : ℤ, x = n * 2 ^ s

/-- `x` is a floating point number of precision `p`: a significand of at most `p` bits and any exponent. -/
def Rep (p : ℕ) (x : ℚ) : Prop := ∃ m e : ℤ, |m| < 2 ^ p ∧ x = m * 2 ^ e

theorem two_pos (s : ℤ) : (0 : ℚ) < 2 ^ s := zpow_pos (by norm_num) s

theorem two_le {s t : ℤ} (h : s ≤ t) : (2 : ℚ) ^ s ≤ 2 ^ t := zpow_le_zpow_right₀ (by norm_num) h

theorem two_lt {s t : ℤ} (h : s < t) : (2 : ℚ) ^ s < 2 ^ t := zpow_lt_zpow_right₀ (by norm_num) h

theorem lt_of_two_lt {s t : ℤ} (h : (2 : ℚ) ^ s < 2 ^ t) : s < t := by
  by_contra hc
  exact absurd h (not_lt.2 (two_le (not_lt.1 hc)))

theorem le_of_two_le {s t : ℤ} (h : (2 : ℚ) ^ s ≤ 2 ^ t) : s ≤ t := by
  by_contra hc
  exact absurd h (not_le.2 (two_lt (not_le.1 hc)))

theorem two_add (s t : ℤ) : (2 : ℚ) ^ (s + t) = 2 ^ s * 2 ^ t := zpow_add₀ (by norm_num) s t

theorem two_succ (s : ℤ) : (2 : ℚ) ^ (s + 1) = 2 * 2 ^ s := by rw [two_add, zpow_one, mul_comm]

theorem two_pred (s : ℤ) : (2 : ℚ) ^ s = 2 * 2 ^ (s - 1) := by rw [← two_succ]; congr 1; ring

theorem two_nat (n : ℕ) : (2 : ℚ) ^ (n : ℤ) = 2 ^ n := zpow_natCast _ n

theorem Mul.zero (s : ℤ) : Mul s 0 := ⟨0, by simp⟩

theorem Mul.neg {s : ℤ} {x : ℚ} (h : Mul s x) : Mul s (-x) := by
  obtain ⟨n, rfl⟩ := h
  exact ⟨-n, by push_cast; ring⟩

theorem Mul.add {s : ℤ} {x y : ℚ} (h : Mul s x) (h' : Mul s y) : Mul s (x + y) := by
  obtain ⟨n, rfl⟩ := h
  obtain ⟨m, rfl⟩ := h'
  exact ⟨n + m, by push_cast; ring⟩

theorem Mul.sub {s : ℤ} {x y : ℚ} (h : Mul s x) (h' : Mul s y) : Mul s (x - y) := by
  rw [sub_eq_add_neg]
  exact h.add h'.neg

theorem Mul.mul {s t : ℤ} {x y : ℚ} (h : Mul s x) (h' : Mul t y) : Mul (s + t) (x * y) := by
  obtain ⟨n, rfl⟩ := h
  obtain ⟨m, rfl⟩ := h'
  exact ⟨n * m, by rw [two_add]; push_cast; ring⟩

theorem two_mul_self (s : ℤ) : Mul s (2 ^ s) := ⟨1, by simp⟩

theorem Mul.mono {s t : ℤ} {x : ℚ} (h : Mul t x) (hst : s ≤ t) : Mul s x := by
  obtain ⟨n, rfl⟩ := h
  obtain ⟨k, hk⟩ := Int.eq_ofNat_of_zero_le (sub_nonneg.2 hst)
  refine ⟨n * 2 ^ k, ?_⟩
  have : t = s + k := by omega
  rw [this, two_add, two_nat]
  push_cast
  ring

theorem two_mul_of_le {s t : ℤ} (h : s ≤ t) : Mul s (2 ^ t) := (two_mul_self t).mono h

theorem Mul.le_abs {s : ℤ} {x : ℚ} (h : Mul s x) (h0 : x ≠ 0) : 2 ^ s ≤ |x| := by
  obtain ⟨n, rfl⟩ := h
  have hn : n ≠ 0 := by rintro rfl; simp at h0
  have h1 : (1 : ℚ) ≤ |(n : ℚ)| := by
    have := Int.one_le_abs hn
    exact_mod_cast this
  rw [abs_mul, abs_of_pos (two_pos s)]
  nlinarith [two_pos s]

/-- Two multiples of `2 ^ s` that are less than `2 ^ s` apart in the wrong order are in the right order. -/
theorem Mul.le_of_lt {s : ℤ} {x y : ℚ} (h : Mul s x) (h' : Mul s y) (hlt : x < y + 2 ^ s) : x ≤ y := by
  by_contra hc
  have hc := not_le.1 hc
  have := (h.sub h').le_abs (by linarith [sub_pos.2 hc])
  rw [abs_of_pos (sub_pos.2 hc)] at this
  linarith

theorem Mul.add_le_of_lt {s : ℤ} {x y : ℚ} (h : Mul s x) (h' : Mul s y) (hlt : x < y) : x + 2 ^ s ≤ y :=
  (h.add (two_mul_self s)).le_of_lt h' (by linarith)

theorem Mul.abs {s : ℤ} {x : ℚ} (h : Mul s x) : Mul s |x| := by
  rcases abs_choice x with h0 | h0 <;> rw [h0]
  · exact h
  · exact h.neg

theorem Rep.zero (p : ℕ) : Rep p 0 := ⟨0, 0, by positivity, by simp⟩

theorem Rep.neg {p : ℕ} {x : ℚ} (h : Rep p x) : Rep p (-x) := by
  obtain ⟨m, e, hm, rfl⟩ := h
  exact ⟨-m, e, by rwa [abs_neg], by push_cast; ring⟩

/-- A multiple of `2 ^ s` of magnitude at most `2 ^ (s + p)` is representable. -/
theorem Mul.rep {p : ℕ} {s : ℤ} {x : ℚ} (hp : 0 < p) (h : Mul s x) (hle : |x| ≤ 2 ^ (s + p)) : Rep p x := by
  obtain ⟨n, rfl⟩ := h
  rw [abs_mul, abs_of_pos (two_pos s), two_add, mul_comm, two_nat] at hle
  have hle : |(n : ℚ)| ≤ 2 ^ p := le_of_mul_le_mul_left hle (two_pos s)
  have hn : |n| ≤ 2 ^ p := by exact_mod_cast hle
  rcases lt_or_eq_of_le hn with h | h
  · exact ⟨n, s, h, rfl⟩
  · have h1 : (1 : ℤ) < 2 ^ p := one_lt_pow₀ (by norm_num) hp.ne'
    rcases abs_choice n with hc | hc
    · refine ⟨1, s + p, by simpa using h1, ?_⟩
      rw [← hc, h, two_add, two_nat]
      push_cast
      ring
    · refine ⟨-1, s + p, by simpa using h1, ?_⟩
      have : n = -2 ^ p := by omega
      rw [this, two_add, two_nat]
      push_cast
      ring

theorem two_rep {p : ℕ} (hp : 0 < p) (s : ℤ) : Rep p (2 ^ s) :=
  (two_mul_self s).rep hp (by rw [abs_of_pos (two_pos s)]; exact two_le (by omega))

/-- A representable number of magnitude at least `2 ^ k` is a multiple of `2 ^ (k + 1 - p)`. -/
theorem Rep.mul {p : ℕ} {x : ℚ} {k : ℤ} (h : Rep p x) (hk : 2 ^ k ≤ |x|) : Mul (k + 1 - p) x := by
  obtain ⟨m, e, hm, rfl⟩ := h
  refine Mul.mono ⟨m, rfl⟩ ?_
  rw [abs_mul, abs_of_pos (two_pos e)] at hk
  have hm' : |(m : ℚ)| < 2 ^ p := by exact_mod_cast hm
  have : (2 : ℚ) ^ k < 2 ^ (e + p) := by
    rw [two_add, mul_comm, two_nat]
    exact lt_of_le_of_lt hk (mul_lt_mul_of_pos_right hm' (two_pos e))
  have := lt_of_two_lt this
  omega

theorem Rep.exists_mul {p : ℕ} {x : ℚ} (h : Rep p x) : ∃ s, Mul s x ∧ |x| < 2 ^ (s + p) := by
  obtain ⟨m, e, hm, rfl⟩ := h
  refine ⟨e, ⟨m, rfl⟩, ?_⟩
  have hm' : |(m : ℚ)| < 2 ^ p := by exact_mod_cast hm
  rw [abs_mul, abs_of_pos (two_pos e), two_add, mul_comm, two_nat]
  exact mul_lt_mul_of_pos_left hm' (two_pos e)

theorem exists_binade {x : ℚ} (h : x ≠ 0) : ∃ k : ℤ, 2 ^ k ≤ |x| ∧ |x| < 2 ^ (k + 1) := by
  refine ⟨Int.log 2 |x|, ?_, ?_⟩
  · exact_mod_cast Int.zpow_log_le_self (b := 2) (by norm_num) (abs_pos.2 h)
  · exact_mod_cast Int.lt_zpow_succ_log_self (b := 2) (by norm_num) |x|

theorem binade_unique {x : ℚ} {k l : ℤ} (h1 : 2 ^ k ≤ |x|) (h2 : |x| < 2 ^ (k + 1)) (h3 : 2 ^ l ≤ |x|)
    (h4 : |x| < 2 ^ (l + 1)) : k = l := by
  have := lt_of_two_lt (lt_of_le_of_lt h1 h4)
  have := lt_of_two_lt (lt_of_le_of_lt h3 h2)
  omega

theorem log_eq {x : ℚ} {k : ℤ} (h1 : 2 ^ k ≤ |x|) (h2 : |x| < 2 ^ (k + 1)) : Int.log 2 |x| = k := by
  have h0 : x ≠ 0 := by
    rintro rfl
    rw [abs_zero] at h1
    linarith [two_pos k]
  refine binade_unique (x := x) ?_ ?_ h1 h2
  · exact_mod_cast Int.zpow_log_le_self (b := 2) (by norm_num) (abs_pos.2 h0)
  · exact_mod_cast Int.lt_zpow_succ_log_self (b := 2) (by norm_num) |x|

/-! ### Rounding to an integer -/

theorem roundEven_near (y : ℚ) : |roundEven y - y| ≤ 1 / 2 := by
  have h1 := Int.floor_le y
  have h2 := Int.lt_floor_add_one y
  unfold roundEven
  split_ifs with ha hb hc
  · rw [abs_le]; constructor <;> linarith
  · push_cast; rw [abs_le]; constructor <;> linarith
  · rw [abs_le]; constructor <;> linarith [not_lt.1 hb]
  · push_cast; rw [abs_le]; constructor <;> linarith [not_lt.1 ha, not_lt.1 hb]

theorem roundEven_even {y : ℚ} (h : |roundEven y - y| = 1 / 2) : roundEven y % 2 = 0 := by
  have h1 := Int.floor_le y
  have h2 := Int.lt_floor_add_one y
  unfold roundEven at h ⊢
  split_ifs at h ⊢ with ha hb hc
  · exfalso
    rw [abs_sub_comm, abs_of_nonneg (by linarith)] at h
    linarith
  · exfalso
    push_cast at h
    rw [abs_of_nonneg (by linarith)] at h
    linarith
  · exact hc
  · omega

/-- The nearest integer is determined by the distance and, in the case of a tie, by the parity. -/
theorem roundEven_unique {y : ℚ} {n : ℤ} (h : |(n : ℚ) - y| ≤ 1 / 2) (he : |(n : ℚ) - y| = 1 / 2 → n % 2 = 0) :
    roundEven y = n := by
  have h1 := roundEven_near y
  have h2 : |((roundEven y : ℤ) : ℚ) - n| ≤ 1 := by
    have : ((roundEven y : ℤ) : ℚ) - n = (roundEven y - y) - (n - y) := by ring
    rw [this]
    exact (abs_sub _ _).trans (by linarith)
  have h3 : |roundEven y - n| ≤ 1 := by exact_mod_cast h2
  by_contra hc
  have h4 : |roundEven y - n| = 1 := by
    have := Int.one_le_abs (sub_ne_zero.2 hc)
    omega
  have h5 : |((roundEven y : ℤ) : ℚ) - n| = 1 := by exact_mod_cast h4
  have h6 : |((roundEven y : ℤ) : ℚ) - n| ≤ |roundEven y - y| + |n - y| := by
    have : ((roundEven y : ℤ) : ℚ) - n = (roundEven y - y) - (n - y) := by ring
    rw [this]
    exact abs_sub _ _
  have e1 := roundEven_even (y := y) (by linarith)
  have e2 := he (by linarith)
  rcases abs_choice (roundEven y - n) with h | h <;> omega

theorem roundEven_neg (y : ℚ) : roundEven (-y) = -roundEven y := by
  have hn : |((-roundEven y : ℤ) : ℚ) - -y| = |roundEven y - y| := by
    rw [← abs_neg]
    congr 1
    push_cast
    ring
  refine roundEven_unique ?_ fun h => ?_
  · rw [hn]
    exact roundEven_near y
  · rw [hn] at h
    have := roundEven_even h
    omega

theorem roundEven_int (n : ℤ) : roundEven n = n :=
  roundEven_unique (by simp) (by simp)

theorem roundEven_nearest (y : ℚ) (n : ℤ) : |roundEven y - y| ≤ |n - y| := by
  by_contra hc
  have hc := not_le.1 hc
  have h1 := roundEven_near y
  have : roundEven y = n := roundEven_unique (by linarith) (by intro h; linarith)
  rw [this] at hc
  exact lt_irrefl _ hc

/-! ### Rounding to a floating point number without underflow -/

theorem rnd_zero (p : ℕ) (lo : Option ℤ) : rnd p lo 0 = 0 := by simp [rnd]

theorem rnd_neg (p : ℕ) (lo : Option ℤ) (x : ℚ) : rnd p lo (-x) = -rnd p lo x := by
  have he : expo p lo (-x) = expo p lo x := by cases lo <;> simp [expo]
  unfold rnd
  by_cases h : x = 0
  · simp [h]
  · rw [if_neg (by simpa using h), if_neg h, he, neg_div, roundEven_neg]
    push_cast
    ring

variable {p : ℕ}

/-- In the binade from `2 ^ k` to `2 ^ (k + 1)` the result is a multiple of the unit in the last place, at most half of it away. -/
theorem rnd_binade {x : ℚ} {k : ℤ} (h1 : 2 ^ k ≤ |x|) (h2 : |x| < 2 ^ (k + 1)) :
    Mul (k + 1 - p) (rnd p none x) ∧ |rnd p none x - x| ≤ 2 ^ (k - p) := by
  have h0 : x ≠ 0 := by
    rintro rfl
    rw [abs_zero] at h1
    linarith [two_pos k]
  have he : expo p none x = k + 1 - p := by
    simp only [expo]
    rw [log_eq h1 h2]
    ring
  have hr : rnd p none x = roundEven (x / 2 ^ (k + 1 - (p : ℤ))) * 2 ^ (k + 1 - (p : ℤ)) := by
    unfold rnd
    rw [if_neg h0, he]
  refine ⟨⟨_, hr⟩, ?_⟩
  have h3 := roundEven_near (x / 2 ^ (k + 1 - (p : ℤ)))
  have hpos := two_pos (k + 1 - (p : ℤ))
  have : rnd p none x - x = (roundEven (x / 2 ^ (k + 1 - (p : ℤ))) - x / 2 ^ (k + 1 - (p : ℤ))) * 2 ^ (k + 1 - (p : ℤ)) := by
    rw [hr]
    field_simp
  rw [this, abs_mul, abs_of_pos hpos]
  have e : (2 : ℚ) ^ (k + 1 - (p : ℤ)) = 2 * 2 ^ (k - (p : ℤ)) := by rw [← two_succ]; congr 1; ring
  rw [e] at h3 ⊢
  nlinarith [two_pos (k - (p : ℤ))]

theorem rnd_eq_of_near {x y : ℚ} {k : ℤ} (h1 : 2 ^ k ≤ |x|) (h2 : |x| < 2 ^ (k + 1)) (hy : Mul (k + 1 - p) y)
    (hn : |y - x| ≤ 2 ^ (k - p)) (he : |y - x| = 2 ^ (k - p) → Mul (k + 2 - p) y) : rnd p none x = y := by
  have h0 : x ≠ 0 := by
    rintro rfl
    rw [abs_zero] at h1
    linarith [two_pos k]
  have hex : expo p none x = k + 1 - p := by
    simp only [expo]
    rw [log_eq h1 h2]
    ring
  have hr : rnd p none x = roundEven (x / 2 ^ (k + 1 - (p : ℤ))) * 2 ^ (k + 1 - (p : ℤ)) := by
    unfold rnd
    rw [if_neg h0, hex]
  obtain ⟨n, rfl⟩ := hy
  rw [hr]
  have hpos := two_pos (k + 1 - (p : ℤ))
  have e : (2 : ℚ) ^ (k + 1 - (p : ℤ)) = 2 * 2 ^ (k - (p : ℤ)) := by rw [← two_succ]; congr 1; ring
  have hd : |(n : ℚ) * 2 ^ (k + 1 - (p : ℤ)) - x| = |(n : ℚ) - x / 2 ^ (k + 1 - (p : ℤ))| * (2 * 2 ^ (k - (p : ℤ))) := by
    rw [← e]
    nth_rw 3 [← abs_of_pos hpos]
    rw [← abs_mul]
    congr 1
    field_simp
  have hq := two_pos (k - (p : ℤ))
  rw [hd] at hn he
  congr 2
  refine roundEven_unique ?_ fun h => ?_
  · by_contra hc
    nlinarith [not_le.1 hc]
  · obtain ⟨m, hm⟩ := he (by rw [h]; ring)
    have e2 : (2 : ℚ) ^ (k + 2 - (p : ℤ)) = 2 * 2 ^ (k + 1 - (p : ℤ)) := by rw [← two_succ]; congr 1; ring
    rw [e2] at hm
    have hm2 : (n : ℚ) = (2 * m : ℤ) := by
      have : (n : ℚ) * 2 ^ (k + 1 - (p : ℤ)) = (2 * m : ℤ) * 2 ^ (k + 1 - (p : ℤ)) := by push_cast; linarith
      exact mul_right_cancel₀ hpos.ne' this
    have : n = 2 * m := by exact_mod_cast hm2
    omega

/-- A representable number is not changed by rounding. -/
theorem Rep.rnd {x : ℚ} (h : Rep p x) : Fl.rnd p none x = x := by
  by_cases h0 : x = 0
  · rw [h0, rnd_zero]
  obtain ⟨k, h1, h2⟩ := exists_binade h0
  refine rnd_eq_of_near h1 h2 (h.mul h1) ?_ ?_
  · simpa using (two_pos _).le
  · intro h
    simp only [sub_self, abs_zero] at h
    linarith [two_pos (k - (p : ℤ))]

theorem rnd_abs_le {x : ℚ} {k : ℤ} (hp : 0 < p) (h1 : 2 ^ k ≤ |x|) (h2 : |x| < 2 ^ (k + 1)) :
    2 ^ k ≤ |Fl.rnd p none x| ∧ |Fl.rnd p none x| ≤ 2 ^ (k + 1) := by
  obtain ⟨hm, hn⟩ := rnd_binade (p := p) h1 h2
  have e : (2 : ℚ) ^ (k + 1 - (p : ℤ)) = 2 * 2 ^ (k - (p : ℤ)) := by rw [← two_succ]; congr 1; ring
  have hq := two_pos (k - (p : ℤ))
  have h3 : |x| - 2 ^ (k - (p : ℤ)) ≤ |Fl.rnd p none x| := by
    have := abs_sub_abs_le_abs_sub x (Fl.rnd p none x)
    rw [abs_sub_comm] at this
    linarith
  have h4 : |Fl.rnd p none x| ≤ |x| + 2 ^ (k - (p : ℤ)) := by
    have := abs_sub_abs_le_abs_sub (Fl.rnd p none x) x
    linarith
  constructor
  · exact (two_mul_of_le (by omega)).le_of_lt hm.abs (by rw [e]; linarith)
  · exact hm.abs.le_of_lt (two_mul_of_le (by omega)) (by rw [e]; linarith)

theorem rnd_rep (hp : 0 < p) (x : ℚ) : Rep p (Fl.rnd p none x) := by
  by_cases h0 : x = 0
  · rw [h0, rnd_zero]
    exact Rep.zero p
  obtain ⟨k, h1, h2⟩ := exists_binade h0
  exact (rnd_binade h1 h2).1.rep hp ((rnd_abs_le hp h1 h2).2.trans (two_le (by omega)))

/-- The result is a nearest floating point number. -/
theorem rnd_nearest (hp : 0 < p) {x y : ℚ} (hy : Rep p y) : |Fl.rnd p none x - x| ≤ |y - x| := by
  by_cases h0 : x = 0
  · rw [h0, rnd_zero]
    simp
  obtain ⟨k, h1, h2⟩ := exists_binade h0
  have key : ∀ z, Mul (k + 1 - p) z → |Fl.rnd p none x - x| ≤ |z - x| := by
    rintro z ⟨n, rfl⟩
    have hex : expo p none x = k + 1 - p := by
      simp only [expo]
      rw [log_eq h1 h2]
      ring
    have hr : Fl.rnd p none x = roundEven (x / 2 ^ (k + 1 - (p : ℤ))) * 2 ^ (k + 1 - (p : ℤ)) := by
      unfold Fl.rnd
      rw [if_neg h0, hex]
    have hpos := two_pos (k + 1 - (p : ℤ))
    have hd : ∀ n : ℤ, |(n : ℚ) * 2 ^ (k + 1 - (p : ℤ)) - x| = |(n : ℚ) - x / 2 ^ (k + 1 - (p : ℤ))| * 2 ^ (k + 1 - (p : ℤ)) := by
      intro n
      nth_rw 3 [← abs_of_pos hpos]
      rw [← abs_mul]
      congr 1
      field_simp
    rw [hr, hd, hd]
    exact mul_le_mul_of_nonneg_right (roundEven_nearest _ n) hpos.le
  by_cases hk : 2 ^ k ≤ |y|
  · exact key y (hy.mul hk)
  · have hk := not_le.1 hk
    have hm : Mul (k + 1 - (p : ℤ)) (2 ^ k) := two_mul_of_le (by omega)
    rcases le_total 0 x with hx | hx
    · rw [abs_of_nonneg hx] at h1
      refine (key _ hm).trans ?_
      have := le_abs_self y
      rw [abs_of_nonpos (by linarith), abs_of_nonpos (by linarith)]
      linarith
    · rw [abs_of_nonpos hx] at h1
      refine (key _ hm.neg).trans ?_
      have := neg_abs_le y
      rw [abs_of_nonneg (by linarith), abs_of_nonneg (by linarith)]
      linarith

/-- Rounding keeps multiples of powers of two. -/
theorem Mul.rnd (hp : 0 < p) {s : ℤ} {x : ℚ} (h : Mul s x) : Mul s (Fl.rnd p none x) := by
  by_cases h0 : x = 0
  · rw [h0, rnd_zero]
    exact Mul.zero s
  obtain ⟨k, h1, h2⟩ := exists_binade h0
  by_cases hs : s ≤ k + 1 - p
  · exact (rnd_binade h1 h2).1.mono hs
  · rw [(h.rep hp (h2.le.trans (two_le (by omega)))).rnd]
    exact h

/-- The result, the unit of its last place and the error. -/
theorem rnd_ulp (x : ℚ) : x = 0 ∨ ∃ q : ℤ, 2 ^ (q + p - 1) ≤ |x| ∧ |x| < 2 ^ (q + p) ∧ Mul q (Fl.rnd p none x) ∧
    |Fl.rnd p none x - x| ≤ 2 ^ (q - 1) := by
  by_cases h0 : x = 0
  · exact .inl h0
  obtain ⟨k, h1, h2⟩ := exists_binade h0
  obtain ⟨h3, h4⟩ := rnd_binade (p := p) h1 h2
  refine .inr ⟨k + 1 - p, ?_, ?_, h3, ?_⟩
  · convert h1 using 2; ring
  · convert h2 using 2; ring
  · convert h4 using 2; ring

/-- Ties at a power of two go to it. -/
theorem rnd_tie (hp : 2 ≤ p) {x : ℚ} {k : ℤ} (h1 : 2 ^ k ≤ x) (h2 : x ≤ 2 ^ k + 2 ^ (k - p)) : Fl.rnd p none x = 2 ^ k := by
  have hx : |x| = x := abs_of_nonneg ((two_pos k).le.trans h1)
  have h3 : (2 : ℚ) ^ (k - (p : ℤ)) < 2 ^ k := two_lt (by omega)
  refine rnd_eq_of_near (k := k) (by rwa [hx]) ?_ (two_mul_of_le (by omega)) ?_ fun _ => two_mul_of_le (by omega)
  · rw [hx, two_succ]
    linarith
  · rw [abs_sub_comm, abs_of_nonneg (by linarith)]
    linarith

/-- Relative error with respect to the argument and to the result. -/
theorem rnd_rel (hp : 0 < p) (x : ℚ) : |Fl.rnd p none x - x| ≤ 2 ^ (-(p : ℤ)) * |x| ∧
    |Fl.rnd p none x - x| ≤ 2 ^ (-(p : ℤ)) * |Fl.rnd p none x| := by
  by_cases h0 : x = 0
  · rw [h0, rnd_zero]
    simp
  obtain ⟨k, h1, h2⟩ := exists_binade h0
  obtain ⟨h3, h4⟩ := rnd_binade (p := p) h1 h2
  have h5 := (rnd_abs_le hp h1 h2).1
  have e : (2 : ℚ) ^ (k - (p : ℤ)) = 2 ^ (-(p : ℤ)) * 2 ^ k := by rw [← two_add]; congr 1; ring
  rw [e] at h4
  exact ⟨h4.trans (mul_le_mul_of_nonneg_left h1 (two_pos _).le), h4.trans (mul_le_mul_of_nonneg_left h5 (two_pos _).le)⟩

theorem rnd_pos (hp : 0 < p) {x : ℚ} (h : 0 < x) : 0 < Fl.rnd p none x := by
  obtain ⟨k, h1, h2⟩ := exists_binade h.ne'
  obtain ⟨h3, h4⟩ := rnd_binade (p := p) h1 h2
  rw [abs_of_pos h] at h1
  have h5 := (rnd_abs_le hp (by rwa [abs_of_pos h]) h2).1
  have h6 := (abs_le.1 h4).1
  have h7 : (2 : ℚ) ^ (k - (p : ℤ)) < 2 ^ k := two_lt (by omega)
  linarith

theorem rnd_neg_of_neg (hp : 0 < p) {x : ℚ} (h : x < 0) : Fl.rnd p none x < 0 := by
  have := rnd_pos hp (neg_pos.2 h)
  rw [rnd_neg] at this
  linarith

theorem rnd_pos_iff (hp : 0 < p) {x : ℚ} : 0 < Fl.rnd p none x ↔ 0 < x := by
  constructor
  · intro h
    by_contra hc
    rcases lt_or_eq_of_le (not_lt.1 hc) with h1 | h1
    · exact absurd h (not_lt.2 (rnd_neg_of_neg hp h1).le)
    · rw [h1, rnd_zero] at h
      exact lt_irrefl _ h
  · exact rnd_pos hp

theorem rnd_neg_iff (hp : 0 < p) {x : ℚ} : Fl.rnd p none x < 0 ↔ x < 0 := by
  have := rnd_pos_iff (p := p) hp (x := -x)
  rw [rnd_neg] at this
  simpa using this

theorem rnd_eq_zero (hp : 0 < p) {x : ℚ} : Fl.rnd p none x = 0 ↔ x = 0 := by
  constructor
  · intro h
    rcases lt_trichotomy x 0 with h1 | h1 | h1
    · linarith [rnd_neg_of_neg hp h1]
    · exact h1
    · linarith [rnd_pos hp h1]
  · rintro rfl
    exact rnd_zero p none

end Gbs.Fl
