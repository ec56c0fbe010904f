import Verif.Lemmas.Adapt

/-!
# The range of the numbers of the orientation predicate

Every number that the predicate rounds is a multiple of a power of two and is bounded, so that a rounding that is only right in this range gives
the same result.
-/

namespace Gbs.Pred

open Fl

variable {p : ℕ} {fl : ℚ → ℚ} {l u : ℤ}

/-- Multiple of `2 ^ s`, at most `2 ^ t` in magnitude. -/
def In (s t : ℤ) (x : ℚ) : Prop := Mul s x ∧ |x| ≤ 2 ^ t

theorem In.mono {s t s' t' : ℤ} {x : ℚ} (h : In s t x) (hs : s' ≤ s := by omega) (ht : t ≤ t' := by omega) : In s' t' x :=
  ⟨h.1.mono hs, h.2.trans (two_le ht)⟩

theorem In.add {s t : ℤ} {x y : ℚ} (h : In s t x) (h' : In s t y) : In s (t + 1) (x + y) :=
  ⟨h.1.add h'.1, (abs_add_le x y).trans (by rw [two_succ]; linarith [h.2, h'.2])⟩

theorem In.sub {s t : ℤ} {x y : ℚ} (h : In s t x) (h' : In s t y) : In s (t + 1) (x - y) :=
  ⟨h.1.sub h'.1, (abs_sub x y).trans (by rw [two_succ]; linarith [h.2, h'.2])⟩

theorem In.neg {s t : ℤ} {x : ℚ} (h : In s t x) : In s t (-x) := ⟨h.1.neg, by rw [abs_neg]; exact h.2⟩

theorem In.abs {s t : ℤ} {x : ℚ} (h : In s t x) : In s t |x| := ⟨h.1.abs, by rw [abs_abs]; exact h.2⟩

theorem In.mul {s t s' t' : ℤ} {x y : ℚ} (h : In s t x) (h' : In s' t' y) : In (s + s') (t + t') (x * y) := by
  refine ⟨h.1.mul h'.1, ?_⟩
  rw [abs_mul, two_add]
  exact mul_le_mul h.2 h'.2 (abs_nonneg y) (two_pos t).le

theorem rnd_le_two (hp : 0 < p) {t : ℤ} {x : ℚ} (h : |x| ≤ 2 ^ t) : |Fl.rnd p none x| ≤ 2 ^ t := by
  by_cases h0 : x = 0
  · rw [h0, rnd_zero, abs_zero]
    exact (two_pos t).le
  obtain ⟨k, h1, h2⟩ := exists_binade h0
  rcases (le_of_two_le (h1.trans h)).eq_or_lt with rfl | h3
  · have h4 : |x| = 2 ^ k := le_antisymm h h1
    have : Rep p x := by
      rcases abs_choice x with h5 | h5
      · rw [h5] at h4
        rw [h4]
        exact two_rep hp k
      · rw [h5] at h4
        rw [← neg_neg x, h4]
        exact (two_rep hp k).neg
    rw [this.rnd]
    exact h
  · exact (rnd_abs_le hp h1 h2).2.trans (two_le (by omega))

theorem In.rnd (hp : 0 < p) {s t : ℤ} {x : ℚ} (h : In s t x) : In s t (Fl.rnd p none x) :=
  ⟨h.1.rnd hp, rnd_le_two hp h.2⟩

theorem In.zero (s t : ℤ) : In s t 0 := ⟨Mul.zero s, by rw [abs_zero]; exact (two_pos t).le⟩

/-- A rounding that is right for the multiples of `2 ^ l` up to `2 ^ u`. -/
def Right (p : ℕ) (l u : ℤ) (fl : ℚ → ℚ) : Prop := ∀ x, In l u x → fl x = Fl.rnd p none x

theorem Right.eq (hfl : Right p l u fl) {s t : ℤ} {x : ℚ} (h : In s t x) (hs : l ≤ s := by omega) (ht : t ≤ u := by omega) :
    fl x = Fl.rnd p none x := hfl x h.mono

theorem twoSum_range (hp : 0 < p) (hfl : Right p l u fl) {s t : ℤ} {a b : ℚ} (ha : In s t a) (hb : In s t b)
    (hs : l ≤ s := by omega) (ht : t + 5 ≤ u := by omega) :
    twoSum fl a b = twoSum (rnd p none) a b ∧ In s (t + 5) (twoSum (rnd p none) a b).1 ∧ In s (t + 5) (twoSum (rnd p none) a b).2 := by
  simp only [twoSum]
  have h1 := ha.add hb
  rw [hfl.eq h1]
  have k1 := h1.rnd hp
  have h2 := k1.sub (ha.mono (s' := s) (t' := t + 1))
  rw [hfl.eq h2]
  have k2 := h2.rnd hp
  have h3 := (k1.mono (s' := s) (t' := t + 1 + 1)).sub k2
  rw [hfl.eq h3]
  have k3 := h3.rnd hp
  have h4 := (hb.mono (s' := s) (t' := t + 1 + 1)).sub k2
  rw [hfl.eq h4]
  have k4 := h4.rnd hp
  have h5 := (ha.mono (s' := s) (t' := t + 1 + 1 + 1)).sub k3
  rw [hfl.eq h5]
  have k5 := h5.rnd hp
  have h6 := k5.add (k4.mono (s' := s) (t' := t + 1 + 1 + 1 + 1))
  rw [hfl.eq h6]
  exact ⟨rfl, k1.mono, (h6.rnd hp).mono⟩

theorem twoDiffTail_range (hp : 0 < p) (hfl : Right p l u fl) {s t : ℤ} {a b x : ℚ} (ha : In s t a) (hb : In s t b) (hx : In s (t + 1) x)
    (hs : l ≤ s := by omega) (ht : t + 5 ≤ u := by omega) :
    twoDiffTail fl a b x = twoDiffTail (rnd p none) a b x ∧ In s (t + 5) (twoDiffTail (rnd p none) a b x) := by
  simp only [twoDiffTail]
  have h2 := (ha.mono (s' := s) (t' := t + 1)).sub hx
  rw [hfl.eq h2]
  have k2 := h2.rnd hp
  have h3 := (hx.mono (s' := s) (t' := t + 1 + 1)).add k2
  rw [hfl.eq h3]
  have k3 := h3.rnd hp
  have h4 := k2.sub (hb.mono (s' := s) (t' := t + 1 + 1))
  rw [hfl.eq h4]
  have k4 := h4.rnd hp
  have h5 := (ha.mono (s' := s) (t' := t + 1 + 1 + 1)).sub k3
  rw [hfl.eq h5]
  have k5 := h5.rnd hp
  have h6 := k5.add (k4.mono (s' := s) (t' := t + 1 + 1 + 1 + 1))
  rw [hfl.eq h6]
  exact ⟨rfl, (h6.rnd hp).mono⟩

theorem twoDiff_range (hp : 0 < p) (hfl : Right p l u fl) {s t : ℤ} {a b : ℚ} (ha : In s t a) (hb : In s t b)
    (hs : l ≤ s := by omega) (ht : t + 5 ≤ u := by omega) :
    twoDiff fl a b = twoDiff (rnd p none) a b ∧ In s (t + 5) (twoDiff (rnd p none) a b).1 ∧ In s (t + 5) (twoDiff (rnd p none) a b).2 := by
  simp only [twoDiff]
  have h1 := ha.sub hb
  rw [hfl.eq h1]
  have k1 := h1.rnd hp
  have h2 := twoDiffTail_range hp hfl ha hb k1
  rw [h2.1]
  exact ⟨rfl, k1.mono, h2.2⟩

theorem fastTwoSum_range (hp : 0 < p) (hfl : Right p l u fl) {s t : ℤ} {a b : ℚ} (ha : In s t a) (hb : In s t b)
    (hs : l ≤ s := by omega) (ht : t + 5 ≤ u := by omega) :
    fastTwoSum fl a b = fastTwoSum (rnd p none) a b ∧ In s (t + 5) (fastTwoSum (rnd p none) a b).1 ∧
      In s (t + 5) (fastTwoSum (rnd p none) a b).2 := by
  simp only [fastTwoSum]
  have h1 := ha.add hb
  rw [hfl.eq h1]
  have k1 := h1.rnd hp
  have h2 := k1.sub (ha.mono (s' := s) (t' := t + 1))
  rw [hfl.eq h2]
  have k2 := h2.rnd hp
  have h3 := (hb.mono (s' := s) (t' := t + 1 + 1)).sub k2
  rw [hfl.eq h3]
  exact ⟨rfl, k1.mono, (h3.rnd hp).mono⟩

theorem two_in (k : ℤ) : In k k ((2 : ℚ) ^ k) := ⟨two_mul_self k, by rw [abs_of_pos (two_pos k)]⟩

theorem one_in {t : ℤ} (ht : 0 ≤ t) : In 0 t (1 : ℚ) := by
  have := two_in 0
  rw [zpow_zero] at this
  exact this.mono

theorem nat_in (n k : ℕ) (h : n ≤ 2 ^ k) : In 0 k (n : ℚ) := by
  refine ⟨⟨n, by simp⟩, ?_⟩
  rw [abs_of_nonneg (by positivity), two_nat]
  exact_mod_cast h

theorem splitter_range (hp : 4 ≤ p) (hfl : Right p l u fl) (hl : l ≤ 0) (hu : p ≤ u) :
    splitter p fl = splitter p (rnd p none) ∧ In 0 p (splitter p (rnd p none)) := by
  have hp0 : 0 < p := by omega
  have it : ∀ n : ℕ, n ≤ p → (fun s => fl (s * 2))^[n] 1 = 2 ^ n := by
    intro n
    induction n with
    | zero => intro _; simp
    | succ n ih =>
      intro hn
      rw [Function.iterate_succ_apply', ih (by omega)]
      have e : (2 : ℚ) ^ n * 2 = 2 ^ ((n + 1 : ℕ) : ℤ) := by rw [zpow_natCast]; ring
      rw [e, hfl.eq ((two_in _).mono (s' := 0) (t' := p) (by omega) (by omega)) (by omega) (by omega), (two_rep hp0 _).rnd, zpow_natCast]
  have it' : ∀ n : ℕ, (fun s => rnd p none (s * 2))^[n] 1 = 2 ^ n := by
    intro n
    induction n with
    | zero => simp
    | succ n ih =>
      rw [Function.iterate_succ_apply', ih]
      have e : (2 : ℚ) ^ n * 2 = 2 ^ ((n + 1 : ℕ) : ℤ) := by rw [zpow_natCast]; ring
      rw [e, (two_rep hp0 _).rnd, zpow_natCast]
  have h : In 0 p ((2 : ℚ) ^ ((p + 1) / 2) + 1) := by
    have h1 := (two_in (((p + 1) / 2 : ℕ) : ℤ)).mono (s' := 0) (t' := (p : ℤ) - 1) (by omega) (by omega)
    have h2 := h1.add (one_in (t := (p : ℤ) - 1) (by omega))
    rw [zpow_natCast] at h2
    exact h2.mono
  rw [splitter, splitter, it _ (by omega), it', hfl.eq h]
  exact ⟨rfl, h.rnd hp0⟩

theorem split_range (hp : 4 ≤ p) (hfl : Right p l u fl) {s t : ℤ} {a : ℚ} (ha : In s t a) (hl : l ≤ 0) (ht0 : 0 ≤ t)
    (hs : l ≤ s := by omega) (ht : t + p + 3 ≤ u := by omega) :
    split p fl a = split p (rnd p none) a ∧ In s (t + p + 3) (split p (rnd p none) a).1 ∧ In s (t + p + 3) (split p (rnd p none) a).2 := by
  have hp0 : 0 < p := by omega
  obtain ⟨hsp, hsp'⟩ := splitter_range hp hfl hl (by omega)
  simp only [split]
  rw [hsp]
  have h1 := (hsp'.mul ha).mono (s' := s) (t' := t + p)
  rw [hfl.eq h1]
  have k1 := h1.rnd hp0
  have h2 := k1.sub (ha.mono (s' := s) (t' := t + p))
  rw [hfl.eq h2]
  have k2 := h2.rnd hp0
  have h3 := (k1.mono (s' := s) (t' := t + p + 1)).sub k2
  rw [hfl.eq h3]
  have k3 := h3.rnd hp0
  have h4 := (ha.mono (s' := s) (t' := t + p + 1 + 1)).sub k3
  rw [hfl.eq h4]
  exact ⟨rfl, k3.mono, (h4.rnd hp0).mono⟩

theorem twoProduct_range (hp : 4 ≤ p) (hfl : Right p l u fl) {s t : ℤ} {a b : ℚ} (ha : In s t a) (hb : In s t b) (hl : l ≤ 0) (ht0 : 0 ≤ t)
    (hs0 : s ≤ 0) (hs : l ≤ 2 * s := by omega) (ht : 2 * t + 2 * p + 10 ≤ u := by omega) :
    twoProduct p fl a b = twoProduct p (rnd p none) a b ∧ In (2 * s) (2 * t + 2 * p + 10) (twoProduct p (rnd p none) a b).1 ∧
      In (2 * s) (2 * t + 2 * p + 10) (twoProduct p (rnd p none) a b).2 := by
  have hp0 : 0 < p := by omega
  obtain ⟨e1, i1, i2⟩ := split_range hp hfl ha hl ht0
  obtain ⟨e2, i3, i4⟩ := split_range hp hfl hb hl ht0
  simp only [twoProduct]
  rw [e1, e2]
  generalize split p (rnd p none) a = q at *
  obtain ⟨ahi, alo⟩ := q
  generalize split p (rnd p none) b = q at *
  obtain ⟨bhi, blo⟩ := q
  dsimp only at i1 i2 i3 i4 ⊢
  have h1 := (ha.mul hb).mono (s' := 2 * s) (t' := 2 * t)
  rw [hfl.eq h1]
  have k1 := h1.rnd hp0
  have h2 := (i1.mul i3).mono (s' := 2 * s) (t' := 2 * t + 2 * p + 6)
  have h3 := (i2.mul i3).mono (s' := 2 * s) (t' := 2 * t + 2 * p + 7)
  have h4 := (i1.mul i4).mono (s' := 2 * s) (t' := 2 * t + 2 * p + 8)
  have h5 := (i2.mul i4).mono (s' := 2 * s) (t' := 2 * t + 2 * p + 9)
  rw [hfl.eq h2, hfl.eq h3, hfl.eq h4, hfl.eq h5]
  have j1 := (k1.mono (s' := 2 * s) (t' := 2 * t + 2 * p + 6)).sub (h2.rnd hp0)
  rw [hfl.eq j1]
  have j2 := (((j1.rnd hp0).mono (s' := 2 * s) (t' := 2 * t + 2 * p + 7)).sub (h3.rnd hp0)).mono (s' := 2 * s) (t' := 2 * t + 2 * p + 8)
  rw [hfl.eq j2]
  have j3 := ((j2.rnd hp0).sub (h4.rnd hp0)).mono (s' := 2 * s) (t' := 2 * t + 2 * p + 9)
  rw [hfl.eq j3]
  have j4 := (h5.rnd hp0).sub (j3.rnd hp0)
  rw [hfl.eq j4]
  exact ⟨rfl, k1.mono, (j4.rnd hp0).mono⟩

theorem twoTwoDiff_range (hp : 0 < p) (hfl : Right p l u fl) {s t : ℤ} {a1 a0 b1 b0 : ℚ} (ha1 : In s t a1) (ha0 : In s t a0)
    (hb1 : In s t b1) (hb0 : In s t b0) (hs : l ≤ s := by omega) (ht : t + 20 ≤ u := by omega) :
    twoTwoDiff fl a1 a0 b1 b0 = twoTwoDiff (rnd p none) a1 a0 b1 b0 ∧ ∀ x ∈ twoTwoDiff (rnd p none) a1 a0 b1 b0, In s (t + 20) x := by
  simp only [twoTwoDiff, twoOneDiff]
  obtain ⟨e1, i1, i2⟩ := twoDiff_range hp hfl ha0 hb0
  rw [e1]
  generalize twoDiff (rnd p none) a0 b0 = q at *
  obtain ⟨i, x0⟩ := q
  dsimp only at i1 i2 ⊢
  obtain ⟨e2, i3, i4⟩ := twoSum_range hp hfl (ha1.mono (s' := s) (t' := t + 5)) i1
  rw [e2]
  generalize twoSum (rnd p none) a1 i = q at *
  obtain ⟨j, z0⟩ := q
  dsimp only at i3 i4 ⊢
  obtain ⟨e3, i5, i6⟩ := twoDiff_range hp hfl i4 (hb1.mono (s' := s) (t' := t + 5 + 5))
  rw [e3]
  generalize twoDiff (rnd p none) z0 b1 = q at *
  obtain ⟨i', x1⟩ := q
  dsimp only at i5 i6 ⊢
  obtain ⟨e4, i7, i8⟩ := twoSum_range hp hfl (i3.mono (s' := s) (t' := t + 5 + 5 + 5)) i5
  rw [e4]
  refine ⟨rfl, ?_⟩
  intro x hx
  simp only [List.mem_cons, List.not_mem_nil, or_false] at hx
  rcases hx with rfl | rfl | rfl | rfl
  · exact i2.mono
  · exact i6.mono
  · exact i8.mono
  · exact i7.mono

theorem estimate_range (hp : 0 < p) (hfl : Right p l u fl) {s t : ℤ} {e : List ℚ} (he : ∀ x ∈ e, In s t x) (hs : l ≤ s)
    (ht : t + e.length ≤ u) :
    estimate fl e = estimate (rnd p none) e ∧ ∀ r, estimate (rnd p none) e = .ok r → In s (t + e.length) r := by
  cases e with
  | nil => exact ⟨rfl, fun r h => by simp [estimate] at h⟩
  | cons q e =>
    have key : ∀ (e : List ℚ) (q : ℚ) (t' : ℤ), In s t' q → t ≤ t' → (∀ x ∈ e, In s t x) → t' + e.length ≤ u →
        e.foldl (fun q e => fl (q + e)) q = e.foldl (fun q e => rnd p none (q + e)) q ∧
          In s (t' + e.length) (e.foldl (fun q e => rnd p none (q + e)) q) := by
      intro e
      induction e with
      | nil => intro q t' hq _ _ _; exact ⟨rfl, by simpa using hq⟩
      | cons x e ih =>
        intro q t' hq htt he hu
        simp only [List.length_cons, Nat.cast_add, Nat.cast_one] at hu
        have h1 := hq.add ((he x (by simp)).mono (s' := s) (t' := t'))
        have h2 := ih (rnd p none (q + x)) (t' + 1) (h1.rnd hp) (by omega) (fun y hy => he y (by simp [hy])) (by omega)
        simp only [List.foldl_cons]
        rw [hfl.eq h1]
        refine ⟨h2.1, h2.2.mono le_rfl ?_⟩
        simp only [List.length_cons, Nat.cast_add, Nat.cast_one]
        omega
    simp only [List.length_cons, Nat.cast_add, Nat.cast_one] at ht
    have h := key e q t (he q (by simp)) le_rfl (fun y hy => he y (by simp [hy])) (by omega)
    simp only [estimate]
    refine ⟨by rw [h.1], ?_⟩
    intro r hr
    cases hr
    refine h.2.mono le_rfl ?_
    simp only [List.length_cons, Nat.cast_add, Nat.cast_one]
    omega

theorem pushNz_in {cap : ℕ} {h h' : List ℚ} {x : ℚ} {s t : ℤ} (hh : ∀ y ∈ h, In s t y) (hx : In s t x) (he : pushNz cap h x = .ok h') :
    ∀ y ∈ h', In s t y := by
  unfold pushNz push at he
  split_ifs at he <;> cases he
  · intro y hy
    rcases List.mem_append.1 hy with h1 | h1
    · exact hh y h1
    · rw [List.mem_singleton.1 h1]
      exact hx
  · exact hh

theorem drain_range (hp : 0 < p) (hfl : Right p l u fl) {s : ℤ} (hs : l ≤ s) (cap : ℕ) : ∀ (e : List ℚ) (Q : ℚ) (h : List ℚ) (t : ℤ),
    (∀ x ∈ e, In s t x) → In s t Q → (∀ x ∈ h, In s t x) → t + 5 * e.length ≤ u →
    drain fl cap e Q h = drain (rnd p none) cap e Q h ∧
      ∀ r, drain (rnd p none) cap e Q h = .ok r → In s (t + 5 * e.length) r.1 ∧ ∀ x ∈ r.2, In s (t + 5 * e.length) x := by
  intro e
  induction e with
  | nil =>
    intro Q h t _ hQ hh _
    refine ⟨rfl, fun r hr => ?_⟩
    simp only [drain] at hr
    cases hr
    exact ⟨hQ.mono le_rfl (by simp), fun x hx => (hh x hx).mono le_rfl (by simp)⟩
  | cons g e ih =>
    intro Q h t he hQ hh hu
    simp only [List.length_cons, Nat.cast_add, Nat.cast_one] at hu ⊢
    obtain ⟨e1, i1, i2⟩ := twoSum_range hp hfl hQ (he g (by simp)) hs (by omega)
    simp only [drain]
    rw [e1]
    generalize twoSum (rnd p none) Q g = q at *
    obtain ⟨Qn, hn⟩ := q
    dsimp only at i1 i2 ⊢
    cases hps : pushNz cap h hn with
    | error er => exact ⟨rfl, fun r hr => by rw [R_bind_error] at hr; cases hr⟩
    | ok h' =>
      rw [R_bind_ok, R_bind_ok]
      have hin := pushNz_in (fun y hy => (hh y hy).mono (s' := s) (t' := t + 5)) i2 hps
      have := ih Qn h' (t + 5) (fun x hx => (he x (by simp [hx])).mono) i1 hin (by omega)
      refine ⟨this.1, fun r hr => ?_⟩
      have h2 := this.2 r hr
      exact ⟨h2.1.mono le_rfl (by omega), fun x hx => (h2.2 x hx).mono le_rfl (by omega)⟩

theorem drain2_range (hp : 0 < p) (hfl : Right p l u fl) {s : ℤ} (hs : l ≤ s) (cap : ℕ) (e f : List ℚ) (Q : ℚ) (h : List ℚ) (t : ℤ)
    (he : ∀ x ∈ e, In s t x) (hf : ∀ x ∈ f, In s t x) (hQ : In s t Q) (hh : ∀ x ∈ h, In s t x) (hu : t + 5 * (e.length + f.length) ≤ u) :
    (do
      let (Q, h) ← drain fl cap e Q h
      drain fl cap f Q h) = (do
      let (Q, h) ← drain (rnd p none) cap e Q h
      drain (rnd p none) cap f Q h) ∧
      ∀ r, (do
      let (Q, h) ← drain (rnd p none) cap e Q h
      drain (rnd p none) cap f Q h) = .ok r → In s (t + 5 * (e.length + f.length)) r.1 ∧ ∀ x ∈ r.2, In s (t + 5 * (e.length + f.length)) x := by
  have h1 := drain_range hp hfl hs cap e Q h t he hQ hh (by omega)
  rw [h1.1]
  cases hd : drain (rnd p none) cap e Q h with
  | error er => exact ⟨rfl, fun r hr => by rw [R_bind_error] at hr; cases hr⟩
  | ok q =>
    have h2 := h1.2 q hd
    obtain ⟨Q', h'⟩ := q
    rw [R_bind_ok, R_bind_ok]
    have h3 := drain_range hp hfl hs cap f Q' h' (t + 5 * e.length) (fun x hx => (hf x hx).mono le_rfl (by omega)) h2.1 h2.2 (by omega)
    refine ⟨h3.1, fun r hr => ?_⟩
    have h4 := h3.2 r hr
    exact ⟨h4.1.mono le_rfl (by omega), fun x hx => (h4.2 x hx).mono le_rfl (by omega)⟩

theorem mergeLoop_range (hp : 0 < p) (hfl : Right p l u fl) {s : ℤ} (hs : l ≤ s) (cap : ℕ) : ∀ (n : ℕ) (e f : List ℚ) (Q : ℚ) (h : List ℚ) (t : ℤ),
    e.length + f.length = n → (∀ x ∈ e, In s t x) → (∀ x ∈ f, In s t x) → In s t Q → (∀ x ∈ h, In s t x) → t + 5 * n ≤ u →
    mergeLoop fl cap e f Q h = mergeLoop (rnd p none) cap e f Q h ∧
      ∀ r, mergeLoop (rnd p none) cap e f Q h = .ok r → In s (t + 5 * n) r.1 ∧ ∀ x ∈ r.2, In s (t + 5 * n) x := by
  intro n
  induction n with
  | zero =>
    intro e f Q h t hn he hf hQ hh hu
    obtain rfl : e = [] := List.eq_nil_of_length_eq_zero (by omega)
    obtain rfl : f = [] := List.eq_nil_of_length_eq_zero (by omega)
    have := drain2_range hp hfl hs cap [] [] Q h t he hf hQ hh (by simpa using hu)
    rw [mergeLoop.eq_def, mergeLoop.eq_def]
    simpa using this
  | succ n ih =>
    intro e f Q h t hn he hf hQ hh hu
    have base : (e = [] ∨ f = []) → mergeLoop fl cap e f Q h = mergeLoop (rnd p none) cap e f Q h ∧
      ∀ r, mergeLoop (rnd p none) cap e f Q h = .ok r → In s (t + 5 * (n + 1 : ℕ)) r.1 ∧ ∀ x ∈ r.2, In s (t + 5 * (n + 1 : ℕ)) x := by
      intro hor
      have := drain2_range hp hfl hs cap e f Q h t he hf hQ hh (by rw [← hn] at hu; push_cast at hu; exact hu)
      rw [← hn]
      push_cast
      rcases hor with rfl | rfl
      · rw [mergeLoop.eq_2 _ _ _ _ _ _ (by intros; simp_all), mergeLoop.eq_2 _ _ _ _ _ _ (by intros; simp_all)]
        exact this
      · rw [mergeLoop.eq_2 _ _ _ _ _ _ (by intros; simp_all), mergeLoop.eq_2 _ _ _ _ _ _ (by intros; simp_all)]
        exact this
    rcases e with _ | ⟨en, e⟩
    · exact base (.inl rfl)
    rcases f with _ | ⟨fn, f⟩
    · exact base (.inr rfl)
    push_cast at hu ⊢
    simp only [List.length_cons] at hn
    rw [mergeLoop, mergeLoop]
    by_cases ht : takeE en fn
    · rw [if_pos ht, if_pos ht]
      obtain ⟨e1, i1, i2⟩ := twoSum_range hp hfl hQ (he en (by simp)) hs (by omega)
      rw [e1]
      generalize twoSum (rnd p none) Q en = q at *
      obtain ⟨Qn, hn'⟩ := q
      dsimp only at i1 i2 ⊢
      cases hps : pushNz cap h hn' with
      | error er => exact ⟨rfl, fun r hr => by rw [R_bind_error] at hr; cases hr⟩
      | ok h' =>
        rw [R_bind_ok, R_bind_ok]
        have hin := pushNz_in (fun y hy => (hh y hy).mono (s' := s) (t' := t + 5)) i2 hps
        have := ih e (fn :: f) Qn h' (t + 5) (by simp only [List.length_cons]; omega) (fun x hx => (he x (by simp [hx])).mono)
          (fun x hx => (hf x hx).mono) i1 hin (by omega)
        refine ⟨this.1, fun r hr => ?_⟩
        have h2 := this.2 r hr
        exact ⟨h2.1.mono le_rfl (by omega), fun x hx => (h2.2 x hx).mono le_rfl (by omega)⟩
    · rw [if_neg ht, if_neg ht]
      obtain ⟨e1, i1, i2⟩ := twoSum_range hp hfl hQ (hf fn (by simp)) hs (by omega)
      rw [e1]
      generalize twoSum (rnd p none) Q fn = q at *
      obtain ⟨Qn, hn'⟩ := q
      dsimp only at i1 i2 ⊢
      cases hps : pushNz cap h hn' with
      | error er => exact ⟨rfl, fun r hr => by rw [R_bind_error] at hr; cases hr⟩
      | ok h' =>
        rw [R_bind_ok, R_bind_ok]
        have hin := pushNz_in (fun y hy => (hh y hy).mono (s' := s) (t' := t + 5)) i2 hps
        have := ih (en :: e) f Qn h' (t + 5) (by simp only [List.length_cons]; omega) (fun x hx => (he x hx).mono)
          (fun x hx => (hf x (by simp [hx])).mono) i1 hin (by omega)
        refine ⟨this.1, fun r hr => ?_⟩
        have h2 := this.2 r hr
        exact ⟨h2.1.mono le_rfl (by omega), fun x hx => (h2.2 x hx).mono le_rfl (by omega)⟩

theorem sumTail_range (hp : 0 < p) (hfl : Right p l u fl) {s : ℤ} (hs : l ≤ s) (cap : ℕ) (e f : List ℚ) (Q : ℚ) (t : ℤ)
    (he : ∀ x ∈ e, In s t x) (hf : ∀ x ∈ f, In s t x) (hQ : In s t Q) (hu : t + 5 * (e.length + f.length) ≤ u) :
    sumTail fl cap e f Q = sumTail (rnd p none) cap e f Q ∧
      ∀ r, sumTail (rnd p none) cap e f Q = .ok r → In s (t + 5 * (e.length + f.length)) r.1 ∧ ∀ x ∈ r.2, In s (t + 5 * (e.length + f.length)) x := by
  have hnil : ∀ t, ∀ x ∈ ([] : List ℚ), In s t x := fun _ x hx => by simp at hx
  rcases e with _ | ⟨en, e⟩
  · simpa only [sumTail] using drain2_range hp hfl hs cap [] f Q [] t he hf hQ (hnil t) hu
  rcases f with _ | ⟨fn, f⟩
  · simpa only [sumTail] using drain2_range hp hfl hs cap (en :: e) [] Q [] t he hf hQ (hnil t) hu
  simp only [List.length_cons, Nat.cast_add, Nat.cast_one] at hu ⊢
  simp only [sumTail]
  by_cases ht : takeE en fn
  · rw [if_pos ht, if_pos ht]
    obtain ⟨e1, i1, i2⟩ := fastTwoSum_range hp hfl (he en (by simp)) hQ hs (by omega)
    rw [e1]
    generalize fastTwoSum (rnd p none) en Q = q at *
    obtain ⟨Qn, hn'⟩ := q
    dsimp only at i1 i2 ⊢
    cases hps : pushNz cap [] hn' with
    | error er => exact ⟨rfl, fun r hr => by rw [R_bind_error] at hr; cases hr⟩
    | ok h' =>
      rw [R_bind_ok, R_bind_ok]
      have hin := pushNz_in (hnil (t + 5)) i2 hps
      have := mergeLoop_range hp hfl hs cap _ e (fn :: f) Qn h' (t + 5) rfl (fun x hx => (he x (by simp [hx])).mono)
        (fun x hx => (hf x hx).mono) i1 hin (by simp only [List.length_cons]; push_cast; omega)
      simp only [List.length_cons, Nat.cast_add, Nat.cast_one] at this
      refine ⟨this.1, fun r hr => ?_⟩
      have h2 := this.2 r hr
      exact ⟨h2.1.mono le_rfl (by omega), fun x hx => (h2.2 x hx).mono le_rfl (by omega)⟩
  · rw [if_neg ht, if_neg ht]
    obtain ⟨e1, i1, i2⟩ := fastTwoSum_range hp hfl (hf fn (by simp)) hQ hs (by omega)
    rw [e1]
    generalize fastTwoSum (rnd p none) fn Q = q at *
    obtain ⟨Qn, hn'⟩ := q
    dsimp only at i1 i2 ⊢
    cases hps : pushNz cap [] hn' with
    | error er => exact ⟨rfl, fun r hr => by rw [R_bind_error] at hr; cases hr⟩
    | ok h' =>
      rw [R_bind_ok, R_bind_ok]
      have hin := pushNz_in (hnil (t + 5)) i2 hps
      have := mergeLoop_range hp hfl hs cap _ (en :: e) f Qn h' (t + 5) rfl (fun x hx => (he x hx).mono)
        (fun x hx => (hf x (by simp [hx])).mono) i1 hin (by simp only [List.length_cons]; push_cast; omega)
      simp only [List.length_cons, Nat.cast_add, Nat.cast_one] at this
      refine ⟨this.1, fun r hr => ?_⟩
      have h2 := this.2 r hr
      exact ⟨h2.1.mono le_rfl (by omega), fun x hx => (h2.2 x hx).mono le_rfl (by omega)⟩

theorem fastExpansionSum_range (hp : 0 < p) (hfl : Right p l u fl) {s : ℤ} (hs : l ≤ s) (cap : ℕ) (e f : List ℚ) (t : ℤ)
    (he : ∀ x ∈ e, In s t x) (hf : ∀ x ∈ f, In s t x) (hu : t + 5 * (e.length + f.length) ≤ u) :
    fastExpansionSum fl cap e f = fastExpansionSum (rnd p none) cap e f ∧
      ∀ r, fastExpansionSum (rnd p none) cap e f = .ok r → ∀ x ∈ r, In s (t + 5 * (e.length + f.length)) x := by
  rcases e with _ | ⟨en, e⟩
  · exact ⟨rfl, fun r hr => by simp only [fastExpansionSum] at hr; cases hr⟩
  rcases f with _ | ⟨fn, f⟩
  · exact ⟨rfl, fun r hr => by simp only [fastExpansionSum] at hr; cases hr⟩
  simp only [List.length_cons, Nat.cast_add, Nat.cast_one] at hu ⊢
  have key : (if takeE en fn then sumTail fl cap e (fn :: f) en else sumTail fl cap (en :: e) f fn) =
      (if takeE en fn then sumTail (rnd p none) cap e (fn :: f) en else sumTail (rnd p none) cap (en :: e) f fn) ∧
      ∀ r, (if takeE en fn then sumTail (rnd p none) cap e (fn :: f) en else sumTail (rnd p none) cap (en :: e) f fn) = .ok r →
        In s (t + 5 * (e.length + 1 + (f.length + 1))) r.1 ∧ ∀ x ∈ r.2, In s (t + 5 * (e.length + 1 + (f.length + 1))) x := by
    by_cases ht : takeE en fn
    · rw [if_pos ht, if_pos ht]
      have := sumTail_range hp hfl hs cap e (fn :: f) en t (fun x hx => he x (by simp [hx])) hf (he en (by simp))
        (by simp only [List.length_cons]; push_cast; omega)
      simp only [List.length_cons, Nat.cast_add, Nat.cast_one] at this
      refine ⟨this.1, fun r hr => ?_⟩
      have h2 := this.2 r hr
      exact ⟨h2.1.mono le_rfl (by omega), fun x hx => (h2.2 x hx).mono le_rfl (by omega)⟩
    · rw [if_neg ht, if_neg ht]
      have := sumTail_range hp hfl hs cap (en :: e) f fn t he (fun x hx => hf x (by simp [hx])) (hf fn (by simp))
        (by simp only [List.length_cons]; push_cast; omega)
      simp only [List.length_cons, Nat.cast_add, Nat.cast_one] at this
      refine ⟨this.1, fun r hr => ?_⟩
      have h2 := this.2 r hr
      exact ⟨h2.1.mono le_rfl (by omega), fun x hx => (h2.2 x hx).mono le_rfl (by omega)⟩
  have shape : ∀ fl', fastExpansionSum fl' cap (en :: e) (fn :: f) =
      ((if takeE en fn then sumTail fl' cap e (fn :: f) en else sumTail fl' cap (en :: e) f fn) >>= fun q =>
        if q.1 ≠ 0 ∨ q.2.length = 0 then push cap q.2 q.1 else .ok q.2) := by
    intro fl'
    simp only [fastExpansionSum]
    split_ifs <;> rfl
  rw [shape, shape, key.1]
  refine ⟨rfl, fun r hr => ?_⟩
  cases hq : (if takeE en fn then sumTail (rnd p none) cap e (fn :: f) en else sumTail (rnd p none) cap (en :: e) f fn) with
  | error er => rw [hq, R_bind_error] at hr; cases hr
  | ok q =>
    rw [hq, R_bind_ok] at hr
    have h2 := key.2 q hq
    unfold push at hr
    split_ifs at hr <;> cases hr
    · intro y hy
      rcases List.mem_append.1 hy with h1 | h1
      · exact h2.2 y h1
      · rw [List.mem_singleton.1 h1]
        exact h2.1
    · exact h2.2

/-! ### Lengths -/

theorem pushNz_len {cap : ℕ} {h h' : List ℚ} {x : ℚ} (hh : h.length ≤ cap) (he : pushNz cap h x = .ok h') : h'.length ≤ cap := by
  unfold pushNz push at he
  split_ifs at he <;> cases he
  · rw [List.length_append, List.length_singleton]
    omega
  · exact hh

theorem drain_len (fl : ℚ → ℚ) (cap : ℕ) : ∀ (e : List ℚ) (Q : ℚ) (h : List ℚ) (r : ℚ × List ℚ), h.length ≤ cap → drain fl cap e Q h = .ok r →
    r.2.length ≤ cap := by
  intro e
  induction e with
  | nil => intro Q h r hh hr; simp only [drain] at hr; cases hr; exact hh
  | cons g e ih =>
    intro Q h r hh hr
    simp only [drain] at hr
    cases hps : pushNz cap h (twoSum fl Q g).2 with
    | error er => rw [hps, R_bind_error] at hr; cases hr
    | ok h' =>
      rw [hps, R_bind_ok] at hr
      exact ih _ _ _ (pushNz_len hh hps) hr

theorem drain2_len (fl : ℚ → ℚ) (cap : ℕ) (e f : List ℚ) (Q : ℚ) (h : List ℚ) (r : ℚ × List ℚ) (hh : h.length ≤ cap)
    (hr : (do
      let (Q, h) ← drain fl cap e Q h
      drain fl cap f Q h) = .ok r) : r.2.length ≤ cap := by
  cases hd : drain fl cap e Q h with
  | error er => rw [hd, R_bind_error] at hr; cases hr
  | ok q =>
    rw [hd, R_bind_ok] at hr
    exact drain_len fl cap f _ _ _ (drain_len fl cap e Q h q hh hd) hr

theorem mergeLoop_len (fl : ℚ → ℚ) (cap : ℕ) : ∀ (n : ℕ) (e f : List ℚ) (Q : ℚ) (h : List ℚ) (r : ℚ × List ℚ), e.length + f.length = n →
    h.length ≤ cap → mergeLoop fl cap e f Q h = .ok r → r.2.length ≤ cap := by
  intro n
  induction n with
  | zero =>
    intro e f Q h r hn hh hr
    obtain rfl : e = [] := List.eq_nil_of_length_eq_zero (by omega)
    rw [mergeLoop.eq_2 _ _ _ _ _ _ (by intros; simp_all)] at hr
    exact drain2_len fl cap _ _ _ _ _ hh hr
  | succ n ih =>
    intro e f Q h r hn hh hr
    rcases e with _ | ⟨en, e⟩
    · rw [mergeLoop.eq_2 _ _ _ _ _ _ (by intros; simp_all)] at hr
      exact drain2_len fl cap _ _ _ _ _ hh hr
    rcases f with _ | ⟨fn, f⟩
    · rw [mergeLoop.eq_2 _ _ _ _ _ _ (by intros; simp_all)] at hr
      exact drain2_len fl cap _ _ _ _ _ hh hr
    simp only [List.length_cons] at hn
    rw [mergeLoop] at hr
    split_ifs at hr
    · cases hps : pushNz cap h (twoSum fl Q en).2 with
      | error er => simp only [hps] at hr; rw [R_bind_error] at hr; cases hr
      | ok h' =>
        simp only [hps] at hr
        rw [R_bind_ok] at hr
        exact ih _ _ _ _ _ (by simp only [List.length_cons]; omega) (pushNz_len hh hps) hr
    · cases hps : pushNz cap h (twoSum fl Q fn).2 with
      | error er => simp only [hps] at hr; rw [R_bind_error] at hr; cases hr
      | ok h' =>
        simp only [hps] at hr
        rw [R_bind_ok] at hr
        exact ih _ _ _ _ _ (by simp only [List.length_cons]; omega) (pushNz_len hh hps) hr

theorem sumTail_len (fl : ℚ → ℚ) (cap : ℕ) (e f : List ℚ) (Q : ℚ) (r : ℚ × List ℚ) (hr : sumTail fl cap e f Q = .ok r) : r.2.length ≤ cap := by
  rcases e with _ | ⟨en, e⟩
  · exact drain2_len fl cap _ _ _ _ _ (Nat.zero_le _) (by simpa only [sumTail] using hr)
  rcases f with _ | ⟨fn, f⟩
  · exact drain2_len fl cap _ _ _ _ _ (Nat.zero_le _) (by simpa only [sumTail] using hr)
  simp only [sumTail] at hr
  split_ifs at hr
  · cases hps : pushNz cap [] (fastTwoSum fl en Q).2 with
    | error er => rw [hps, R_bind_error] at hr; cases hr
    | ok h' =>
      rw [hps, R_bind_ok] at hr
      exact mergeLoop_len fl cap _ _ _ _ _ _ rfl (pushNz_len (Nat.zero_le _) hps) hr
  · cases hps : pushNz cap [] (fastTwoSum fl fn Q).2 with
    | error er => rw [hps, R_bind_error] at hr; cases hr
    | ok h' =>
      rw [hps, R_bind_ok] at hr
      exact mergeLoop_len fl cap _ _ _ _ _ _ rfl (pushNz_len (Nat.zero_le _) hps) hr

theorem fastExpansionSum_len (fl : ℚ → ℚ) (cap : ℕ) (e f r : List ℚ) (hr : fastExpansionSum fl cap e f = .ok r) : r.length ≤ cap := by
  rcases e with _ | ⟨en, e⟩
  · simp only [fastExpansionSum] at hr; cases hr
  rcases f with _ | ⟨fn, f⟩
  · simp only [fastExpansionSum] at hr; cases hr
  have shape : fastExpansionSum fl cap (en :: e) (fn :: f) =
      ((if takeE en fn then sumTail fl cap e (fn :: f) en else sumTail fl cap (en :: e) f fn) >>= fun q =>
        if q.1 ≠ 0 ∨ q.2.length = 0 then push cap q.2 q.1 else .ok q.2) := by
    simp only [fastExpansionSum]
    split_ifs <;> rfl
  rw [shape] at hr
  cases hq : (if takeE en fn then sumTail fl cap e (fn :: f) en else sumTail fl cap (en :: e) f fn) with
  | error er => rw [hq, R_bind_error] at hr; cases hr
  | ok q =>
    rw [hq, R_bind_ok] at hr
    have h2 : q.2.length ≤ cap := by
      split_ifs at hq
      · exact sumTail_len _ _ _ _ _ _ hq
      · exact sumTail_len _ _ _ _ _ _ hq
    unfold push at hr
    split_ifs at hr <;> cases hr
    · rw [List.length_append, List.length_singleton]
      omega
    · exact h2

theorem twoTwoDiff_len (fl : ℚ → ℚ) (a1 a0 b1 b0 : ℚ) : (twoTwoDiff fl a1 a0 b1 b0).length = 4 := rfl

/-! ### The constants -/

theorem epsilon_range (hp : 0 < p) (hfl : Right p l u fl) (hl : l ≤ -p) (hu : 0 ≤ u) :
    epsilon p fl = epsilon p (rnd p none) ∧ In (-p) (-p) (epsilon p (rnd p none)) := by
  have e := epsilon_eq hp
  have h : (2 : ℚ) ^ (1 - (p : ℤ)) / 2 = 2 ^ (-(p : ℤ)) := by
    rw [show 1 - (p : ℤ) = -(p : ℤ) + 1 by ring, two_succ]
    ring
  rw [e]
  refine ⟨?_, two_in _⟩
  rw [epsilon, h, hfl.eq (two_in (-(p : ℤ))) hl (by omega), (two_rep hp _).rnd]

theorem bound_range (hp : 0 < p) (hfl : Right p l u fl) (hl : l ≤ -(2 * p)) (hu : 8 ≤ u) (n m : ℕ) (hn : n ≤ 2 ^ 6) (hm : m ≤ 2 ^ 6) :
    fl (fl (n + fl (m * epsilon p fl)) * epsilon p fl) =
      rnd p none (rnd p none (n + rnd p none (m * epsilon p (rnd p none))) * epsilon p (rnd p none)) ∧
      In (-(2 * p)) 7 (rnd p none (rnd p none (n + rnd p none (m * epsilon p (rnd p none))) * epsilon p (rnd p none))) := by
  obtain ⟨h1, h2⟩ := epsilon_range hp hfl (by omega) (by omega)
  rw [h1]
  have h3 := (((nat_in m 6 hm).mul h2)).mono (s' := -(p : ℤ)) (t' := 6)
  rw [hfl.eq h3]
  have h4 := ((nat_in n 6 hn).mono (s' := -(p : ℤ)) (t' := 6)).add (h3.rnd hp)
  rw [hfl.eq h4]
  have h5 := ((h4.rnd hp).mul h2).mono (s' := -(2 * (p : ℤ))) (t' := 7)
  rw [hfl.eq h5]
  exact ⟨rfl, h5.rnd hp⟩

theorem ccwerrboundA_range (hp : 0 < p) (hfl : Right p l u fl) (hl : l ≤ -(3 * p)) (hu : 8 ≤ u) :
    ccwerrboundA p fl = ccwerrboundA p (rnd p none) ∧ In (-(3 * p)) 7 (ccwerrboundA p (rnd p none)) := by
  have := bound_range hp hfl (by omega) hu 3 16 (by norm_num) (by norm_num)
  exact ⟨this.1, this.2.mono⟩

theorem ccwerrboundB_range (hp : 0 < p) (hfl : Right p l u fl) (hl : l ≤ -(3 * p)) (hu : 8 ≤ u) :
    ccwerrboundB p fl = ccwerrboundB p (rnd p none) ∧ In (-(3 * p)) 7 (ccwerrboundB p (rnd p none)) := by
  have := bound_range hp hfl (by omega) hu 2 12 (by norm_num) (by norm_num)
  exact ⟨this.1, this.2.mono⟩

theorem resulterrbound_range (hp : 0 < p) (hfl : Right p l u fl) (hl : l ≤ -(3 * p)) (hu : 8 ≤ u) :
    resulterrbound p fl = resulterrbound p (rnd p none) ∧ In (-(3 * p)) 7 (resulterrbound p (rnd p none)) := by
  have := bound_range hp hfl (by omega) hu 3 8 (by norm_num) (by norm_num)
  exact ⟨this.1, this.2.mono⟩

theorem ccwerrboundC_range (hp : 0 < p) (hfl : Right p l u fl) (hl : l ≤ -(3 * p)) (hu : 8 ≤ u) :
    ccwerrboundC p fl = ccwerrboundC p (rnd p none) ∧ In (-(3 * p)) 7 (ccwerrboundC p (rnd p none)) := by
  have h1 := bound_range hp hfl (by omega) hu 9 64 (by norm_num) (by norm_num)
  obtain ⟨h2, h3⟩ := epsilon_range hp hfl (by omega) (by omega)
  have h4 := (h1.2.mul h3).mono (s' := -(3 * (p : ℤ))) (t' := 7)
  have h5 := h1.1
  push_cast at h5 h4
  rw [ccwerrboundC, h5, h2, hfl.eq h4]
  exact ⟨rfl, h4.rnd hp⟩

/-! ### The predicate -/

theorem adapt_range (hp : 4 ≤ p) (hfl : Right p l u fl) {g h : ℤ} {a b c : ℚ × ℚ} {ds : ℚ} (ha1 : In g h a.1) (ha2 : In g h a.2)
    (hb1 : In g h b.1) (hb2 : In g h b.2) (hc1 : In g h c.1) (hc2 : In g h c.2) (hds : In (2 * g) (2 * h + 3) ds)
    (hg : g ≤ 0) (hh : 0 ≤ h) (hl : l ≤ 2 * g - 3 * p) (hu : 2 * h + 2 * p + 220 ≤ u) :
    orient2dAdapt p fl a b c ds = orient2dAdapt p (rnd p none) a b c ds := by
  have hp0 : 0 < p := by omega
  obtain ⟨eB, iB⟩ := ccwerrboundB_range hp0 hfl (by omega) (by omega)
  obtain ⟨eC, iC⟩ := ccwerrboundC_range hp0 hfl (by omega) (by omega)
  obtain ⟨eR, iR⟩ := resulterrbound_range hp0 hfl (by omega) (by omega)
  -- differences and tails
  have diff : ∀ {x y : ℚ}, In g h x → In g h y → fl (x - y) = rnd p none (x - y) ∧ In g (h + 5) (rnd p none (x - y)) ∧
      twoDiffTail fl x y (rnd p none (x - y)) = twoDiffTail (rnd p none) x y (rnd p none (x - y)) ∧
      In g (h + 5) (twoDiffTail (rnd p none) x y (rnd p none (x - y))) := by
    intro x y hx hy
    have h1 := hx.sub hy
    have h2 := twoDiffTail_range hp0 hfl hx hy (h1.rnd hp0)
    exact ⟨hfl.eq h1, (h1.rnd hp0).mono, h2.1, h2.2⟩
  obtain ⟨e1, i1, f1, j1⟩ := diff ha1 hc1
  obtain ⟨e2, i2, f2, j2⟩ := diff hb1 hc1
  obtain ⟨e3, i3, f3, j3⟩ := diff ha2 hc2
  obtain ⟨e4, i4, f4, j4⟩ := diff hb2 hc2
  unfold orient2dAdapt
  dsimp only
  rw [e1, e2, e3, e4, f1, f2, f3, f4, eB, eC, eR]
  generalize twoDiffTail (rnd p none) a.1 c.1 (rnd p none (a.1 - c.1)) = acxt at *
  generalize twoDiffTail (rnd p none) b.1 c.1 (rnd p none (b.1 - c.1)) = bcxt at *
  generalize twoDiffTail (rnd p none) a.2 c.2 (rnd p none (a.2 - c.2)) = acyt at *
  generalize twoDiffTail (rnd p none) b.2 c.2 (rnd p none (b.2 - c.2)) = bcyt at *
  generalize rnd p none (a.1 - c.1) = acx at *
  generalize rnd p none (b.1 - c.1) = bcx at *
  generalize rnd p none (a.2 - c.2) = acy at *
  generalize rnd p none (b.2 - c.2) = bcy at *
  -- differences of products
  have four : ∀ {x y z w : ℚ}, In g (h + 5) x → In g (h + 5) y → In g (h + 5) z → In g (h + 5) w →
      twoProduct p fl x y = twoProduct p (rnd p none) x y ∧ twoProduct p fl z w = twoProduct p (rnd p none) z w ∧
      twoTwoDiff fl (twoProduct p (rnd p none) x y).1 (twoProduct p (rnd p none) x y).2 (twoProduct p (rnd p none) z w).1
        (twoProduct p (rnd p none) z w).2 =
      twoTwoDiff (rnd p none) (twoProduct p (rnd p none) x y).1 (twoProduct p (rnd p none) x y).2 (twoProduct p (rnd p none) z w).1
        (twoProduct p (rnd p none) z w).2 ∧
      ∀ v ∈ twoTwoDiff (rnd p none) (twoProduct p (rnd p none) x y).1 (twoProduct p (rnd p none) x y).2 (twoProduct p (rnd p none) z w).1
        (twoProduct p (rnd p none) z w).2, In (2 * g) (2 * h + 2 * p + 40) v := by
    intro x y z w hx hy hz hw
    obtain ⟨h1, h2, h3⟩ := twoProduct_range hp hfl hx hy (by omega) (by omega) hg
    obtain ⟨h4, h5, h6⟩ := twoProduct_range hp hfl hz hw (by omega) (by omega) hg
    obtain ⟨h7, h8⟩ := twoTwoDiff_range hp0 hfl h2 h3 h5 h6
    exact ⟨h1, h4, h7, fun v hv => (h8 v hv).mono⟩
  obtain ⟨q1, q2, q3, q4⟩ := four i1 i4 i3 i2
  obtain ⟨r1, r2, r3, r4⟩ := four j1 i4 j3 i2
  obtain ⟨s1, s2, s3, s4⟩ := four i1 j4 i3 j2
  obtain ⟨t1, t2, t3, t4⟩ := four j1 j4 j3 j2
  rw [q1, q2, r1, r2, s1, s2, t1, t2, q3, r3, s3, t3]
  have l4 := twoTwoDiff_len
  have lB := l4 (rnd p none) (twoProduct p (rnd p none) acx bcy).1 (twoProduct p (rnd p none) acx bcy).2 (twoProduct p (rnd p none) acy bcx).1
    (twoProduct p (rnd p none) acy bcx).2
  have lr := l4 (rnd p none) (twoProduct p (rnd p none) acxt bcy).1 (twoProduct p (rnd p none) acxt bcy).2 (twoProduct p (rnd p none) acyt bcx).1
    (twoProduct p (rnd p none) acyt bcx).2
  have ls := l4 (rnd p none) (twoProduct p (rnd p none) acx bcyt).1 (twoProduct p (rnd p none) acx bcyt).2 (twoProduct p (rnd p none) acy bcxt).1
    (twoProduct p (rnd p none) acy bcxt).2
  have lt := l4 (rnd p none) (twoProduct p (rnd p none) acxt bcyt).1 (twoProduct p (rnd p none) acxt bcyt).2
    (twoProduct p (rnd p none) acyt bcxt).1 (twoProduct p (rnd p none) acyt bcxt).2
  generalize twoTwoDiff (rnd p none) (twoProduct p (rnd p none) acx bcy).1 (twoProduct p (rnd p none) acx bcy).2
    (twoProduct p (rnd p none) acy bcx).1 (twoProduct p (rnd p none) acy bcx).2 = B at *
  generalize twoTwoDiff (rnd p none) (twoProduct p (rnd p none) acxt bcy).1 (twoProduct p (rnd p none) acxt bcy).2
    (twoProduct p (rnd p none) acyt bcx).1 (twoProduct p (rnd p none) acyt bcx).2 = ur at *
  generalize twoTwoDiff (rnd p none) (twoProduct p (rnd p none) acx bcyt).1 (twoProduct p (rnd p none) acx bcyt).2
    (twoProduct p (rnd p none) acy bcxt).1 (twoProduct p (rnd p none) acy bcxt).2 = us at *
  generalize twoTwoDiff (rnd p none) (twoProduct p (rnd p none) acxt bcyt).1 (twoProduct p (rnd p none) acxt bcyt).2
    (twoProduct p (rnd p none) acyt bcxt).1 (twoProduct p (rnd p none) acyt bcxt).2 = ut at *
  obtain ⟨es, is⟩ := estimate_range hp0 hfl q4 (by omega) (by rw [lB]; omega)
  rw [es]
  cases hest : estimate (rnd p none) B with
  | error er => rfl
  | ok det =>
    rw [R_bind_ok, R_bind_ok]
    have hdet := is det hest
    rw [lB] at hdet
    -- bounds
    have b1 := (iB.mul hds).mono (s' := 2 * g - 3 * p) (t' := 2 * h + 10)
    have b2 := (iC.mul hds).mono (s' := 2 * g - 3 * p) (t' := 2 * h + 2 * p + 60)
    have b3 := (iR.mul hdet.abs).mono (s' := 2 * g - 3 * p) (t' := 2 * h + 2 * p + 60)
    have b4 := (b2.rnd hp0).add (b3.rnd hp0)
    -- the correction
    have c1 := (i1.mul j4).mono (s' := 2 * g) (t' := 2 * h + 10)
    have c2 := (i4.mul j1).mono (s' := 2 * g) (t' := 2 * h + 10)
    have c3 := (i3.mul j2).mono (s' := 2 * g) (t' := 2 * h + 10)
    have c4 := (i2.mul j3).mono (s' := 2 * g) (t' := 2 * h + 10)
    have c5 := (c1.rnd hp0).add (c2.rnd hp0)
    have c6 := (c3.rnd hp0).add (c4.rnd hp0)
    have c7 := (c5.rnd hp0).sub (c6.rnd hp0)
    have c8 := (hdet.mono (s' := 2 * g) (t' := 2 * h + 2 * p + 60)).add ((c7.rnd hp0).mono (s' := 2 * g) (t' := 2 * h + 2 * p + 60))
    rw [hfl.eq b1, hfl.eq b2, hfl.eq b3, hfl.eq b4, hfl.eq c1, hfl.eq c2, hfl.eq c3, hfl.eq c4, hfl.eq c5, hfl.eq c6, hfl.eq c7, hfl.eq c8]
    -- the expansions
    obtain ⟨x1, y1⟩ := fastExpansionSum_range hp0 hfl (by omega) 8 B ur _ q4 r4 (by rw [lB, lr]; omega)
    have z1 := fastExpansionSum_len (rnd p none) 8 B ur
    rw [x1]
    congr 1
    congr 1
    congr 1
    cases hC1 : fastExpansionSum (rnd p none) 8 B ur with
    | error er => rfl
    | ok C1 =>
      rw [R_bind_ok, R_bind_ok]
      have y1 := y1 C1 hC1
      have z1 := z1 C1 hC1
      rw [lB, lr] at y1
      have y1' : ∀ x ∈ C1, In (2 * g) (2 * h + 2 * p + 80) x := fun x hx => (y1 x hx).mono
      obtain ⟨x2, y2⟩ := fastExpansionSum_range hp0 hfl (by omega) 12 C1 us _ y1' (fun x hx => (s4 x hx).mono) (by rw [ls]; omega)
      rw [x2]
      cases hC2 : fastExpansionSum (rnd p none) 12 C1 us with
      | error er => rfl
      | ok C2 =>
        rw [R_bind_ok, R_bind_ok]
        have y2 := y2 C2 hC2
        have z2 := fastExpansionSum_len (rnd p none) 12 C1 us C2 hC2
        rw [ls] at y2
        have y2' : ∀ x ∈ C2, In (2 * g) (2 * h + 2 * p + 140) x := fun x hx => (y2 x hx).mono
        obtain ⟨x3, -⟩ := fastExpansionSum_range hp0 hfl (by omega) 16 C2 ut _ y2' (fun x hx => (t4 x hx).mono) (by rw [lt]; omega)
        rw [x3]

theorem orient2d_range (hp : 4 ≤ p) (hfl : Right p l u fl) {g h : ℤ} {a b c : ℚ × ℚ} (ha1 : In g h a.1) (ha2 : In g h a.2)
    (hb1 : In g h b.1) (hb2 : In g h b.2) (hc1 : In g h c.1) (hc2 : In g h c.2)
    (hg : g ≤ 0) (hh : 0 ≤ h) (hl : l ≤ 2 * g - 3 * p) (hu : 2 * h + 2 * p + 220 ≤ u) :
    orient2d p fl a b c = orient2d p (rnd p none) a b c := by
  have hp0 : 0 < p := by omega
  obtain ⟨eA, iA⟩ := ccwerrboundA_range hp0 hfl (by omega) (by omega)
  have h1 := ha1.sub hc1
  have h2 := hb2.sub hc2
  have h3 := ha2.sub hc2
  have h4 := hb1.sub hc1
  have h5 := ((h1.rnd hp0).mul (h2.rnd hp0)).mono (s' := 2 * g) (t' := 2 * h + 2)
  have h6 := ((h3.rnd hp0).mul (h4.rnd hp0)).mono (s' := 2 * g) (t' := 2 * h + 2)
  have h7 := (h5.rnd hp0).sub (h6.rnd hp0)
  have h8 := (h5.rnd hp0).add (h6.rnd hp0)
  have h9 := (h5.rnd hp0).neg.sub (h6.rnd hp0)
  have h8' := (h8.rnd hp0).mono (s' := 2 * g) (t' := 2 * h + 3)
  have h9' := (h9.rnd hp0).mono (s' := 2 * g) (t' := 2 * h + 3)
  have b8 := (iA.mul h8').mono (s' := 2 * g - 3 * p) (t' := 2 * h + 10)
  have b9 := (iA.mul h9').mono (s' := 2 * g - 3 * p) (t' := 2 * h + 10)
  unfold orient2d
  dsimp only
  rw [hfl.eq h1, hfl.eq h2, hfl.eq h3, hfl.eq h4, hfl.eq h5, hfl.eq h6, eA]
  rw [hfl.eq h7, hfl.eq h8, hfl.eq h9, hfl.eq b8, hfl.eq b9,
    adapt_range hp hfl ha1 ha2 hb1 hb2 hc1 hc2 h8' hg hh hl hu, adapt_range hp hfl ha1 ha2 hb1 hb2 hc1 hc2 h9' hg hh hl hu]

end Gbs.Pred
