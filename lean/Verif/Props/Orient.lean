import Verif.Lemmas.Range

/-!
# C74: the orientation predicate has the exact sign

`orient2d` of `inc/topology/robustPredicates.h` returns a number with the sign of the exact determinant of its three points.
-/

namespace Gbs.Pred

open Fl

variable {p : ℕ}

/-- **C74**, exponents without bounds. For any three points with representable coordinates and any precision of at least eight bits, `orient2d` does not read or write
outside its arrays and its result has the sign of the exact determinant. -/
theorem C74_orient2d_sign (hp : 8 ≤ p) {a b c : ℚ × ℚ} (hrep : ∀ x ∈ [a.1, a.2, b.1, b.2, c.1, c.2], ∃ m e : ℤ, |m| < 2 ^ p ∧ x = m * 2 ^ e) :
    ∃ r, orient2d p (rnd p none) a b c = .ok r ∧
      SignType.sign r = SignType.sign ((a.1 - c.1) * (b.2 - c.2) - (a.2 - c.2) * (b.1 - c.1)) := by
  have hp0 : 0 < p := by omega
  have ha1 : Rep p a.1 := hrep _ (by simp)
  have ha2 : Rep p a.2 := hrep _ (by simp)
  have hb1 : Rep p b.1 := hrep _ (by simp)
  have hb2 : Rep p b.2 := hrep _ (by simp)
  have hc1 : Rep p c.1 := hrep _ (by simp)
  have hc2 : Rep p c.2 := hrep _ (by simp)
  have hε := eps_le hp
  have hε0 := two_pos (-(p : ℤ))
  -- the sign of a product
  have sgn : ∀ x y : ℚ, SignType.sign (rnd p none (rnd p none x * rnd p none y)) = SignType.sign (x * y) := by
    intro x y
    rw [sign_rnd hp0, sign_mul, sign_mul, sign_rnd hp0, sign_rnd hp0]
  have sl := sgn (a.1 - c.1) (b.2 - c.2)
  have sr := sgn (a.2 - c.2) (b.1 - c.1)
  -- the first filter
  have filter : ∀ ds, 0 < ds → |rnd p none (rnd p none (a.1 - c.1) * rnd p none (b.2 - c.2))| +
      |rnd p none (rnd p none (a.2 - c.2) * rnd p none (b.1 - c.1))| ≤ (1 + 2 ^ (-(p : ℤ))) * ds →
      ∃ r, (if rnd p none (rnd p none (rnd p none (a.1 - c.1) * rnd p none (b.2 - c.2)) -
          rnd p none (rnd p none (a.2 - c.2) * rnd p none (b.1 - c.1))) ≥ rnd p none (ccwerrboundA p (rnd p none) * ds) ∨
          -rnd p none (rnd p none (rnd p none (a.1 - c.1) * rnd p none (b.2 - c.2)) -
          rnd p none (rnd p none (a.2 - c.2) * rnd p none (b.1 - c.1))) ≥ rnd p none (ccwerrboundA p (rnd p none) * ds) then
          .ok (rnd p none (rnd p none (rnd p none (a.1 - c.1) * rnd p none (b.2 - c.2)) -
          rnd p none (rnd p none (a.2 - c.2) * rnd p none (b.1 - c.1))))
          else orient2dAdapt p (rnd p none) a b c ds) = .ok r ∧
        SignType.sign r = SignType.sign ((a.1 - c.1) * (b.2 - c.2) - (a.2 - c.2) * (b.1 - c.1)) := by
    intro ds hds hsum
    by_cases hc : rnd p none (rnd p none (rnd p none (a.1 - c.1) * rnd p none (b.2 - c.2)) -
          rnd p none (rnd p none (a.2 - c.2) * rnd p none (b.1 - c.1))) ≥ rnd p none (ccwerrboundA p (rnd p none) * ds) ∨
          -rnd p none (rnd p none (rnd p none (a.1 - c.1) * rnd p none (b.2 - c.2)) -
          rnd p none (rnd p none (a.2 - c.2) * rnd p none (b.1 - c.1))) ≥ rnd p none (ccwerrboundA p (rnd p none) * ds)
    · rw [if_pos hc]
      refine ⟨_, rfl, ?_⟩
      have h1 := abs_ge_of_or hc
      obtain ⟨ε, hεd⟩ : ∃ ε : ℚ, (2 : ℚ) ^ (-(p : ℤ)) = ε := ⟨_, rfl⟩
      rw [ccwerrboundA_eq hp] at h1
      rw [hεd] at h1 hε hε0 hsum
      have hε1 : ε ≤ 1 / 256 := by norm_num at hε ⊢; exact hε
      have rel : ∀ x, |rnd p none x - x| ≤ ε * |x| ∧ |rnd p none x - x| ≤ ε * |rnd p none x| := fun x => hεd ▸ rnd_rel hp0 x
      have prod : ∀ x y, |rnd p none (rnd p none x * rnd p none y) - x * y| ≤
          (3 * ε + 3 * ε ^ 2 + ε ^ 3) * |rnd p none (rnd p none x * rnd p none y)| := by
        intro x y
        have k1 := (rel (rnd p none x * rnd p none y)).2
        have k2 := prod_err (ε := ε) (X := x) (x := rnd p none x) (Y := y) (y := rnd p none y)
          (by rw [abs_sub_comm]; exact (rel x).2) (by rw [abs_sub_comm]; exact (rel y).2)
        have k3 : |rnd p none x| * |rnd p none y| ≤ (1 + ε) * |rnd p none (rnd p none x * rnd p none y)| := by
          have h2 := abs_sub_abs_le_abs_sub (rnd p none x * rnd p none y) (rnd p none (rnd p none x * rnd p none y))
          rw [abs_sub_comm, abs_mul] at h2
          linarith
        have k4 : (2 * ε + ε ^ 2) * (|rnd p none x| * |rnd p none y|) ≤
            (2 * ε + ε ^ 2) * ((1 + ε) * |rnd p none (rnd p none x * rnd p none y)|) := mul_le_mul_of_nonneg_left k3 (by positivity)
        rw [abs_sub_comm (x * y)] at k2
        have k5 := abs_sub_le (rnd p none (rnd p none x * rnd p none y)) (rnd p none x * rnd p none y) (x * y)
        linarith
      have p1 := prod (a.1 - c.1) (b.2 - c.2)
      have p2 := prod (a.2 - c.2) (b.1 - c.1)
      generalize rnd p none (rnd p none (a.1 - c.1) * rnd p none (b.2 - c.2)) = dl at *
      generalize rnd p none (rnd p none (a.2 - c.2) * rnd p none (b.1 - c.1)) = dr at *
      generalize (a.1 - c.1) * (b.2 - c.2) = L at *
      generalize (a.2 - c.2) * (b.1 - c.1) = M at *
      have k1 := (rel (dl - dr)).2
      generalize rnd p none (dl - dr) = det at *
      refine sign_eq_of_lt ?_
      have k2 : |det - (L - M)| ≤ |det - (dl - dr)| + (|dl - L| + |dr - M|) := by
        have e : det - (L - M) = (det - (dl - dr)) + ((dl - L) - (dr - M)) := by ring
        rw [e]
        exact (abs_add_le _ _).trans (add_le_add_right (abs_sub _ _) _)
      have hA0 : 0 < (3 + 16 * ε) * ε * ds := by positivity
      have k3 := (abs_le.1 (rel ((3 + 16 * ε) * ε * ds)).1).1
      rw [abs_of_pos hA0] at k3
      have k4 : (1 - ε) * ((3 + 16 * ε) * ε * ds) ≤ |det| := by linarith
      have k5 : (1 - ε) * ((1 - ε) * ((3 + 16 * ε) * ε * ds)) ≤ (1 - ε) * |det| := mul_le_mul_of_nonneg_left k4 (by linarith)
      have k6 : (3 * ε + 3 * ε ^ 2 + ε ^ 3) * (|dl| + |dr|) ≤ (3 * ε + 3 * ε ^ 2 + ε ^ 3) * ((1 + ε) * ds) :=
        mul_le_mul_of_nonneg_left hsum (by positivity)
      have k7 : (1 - ε) * ((1 - ε) * ((3 + 16 * ε) * ε * ds)) - (3 * ε + 3 * ε ^ 2 + ε ^ 3) * ((1 + ε) * ds) =
          ε ^ 2 * ds * (4 - 33 * ε + 15 * ε ^ 2) := by ring
      have k8 : 0 < 4 - 33 * ε + 15 * ε ^ 2 := by nlinarith
      have k9 := mul_pos (by positivity : 0 < ε ^ 2 * ds) k8
      linarith
    · rw [if_neg hc]
      exact adapt_sign hp ha1 ha2 hb1 hb2 hc1 hc2 hds hsum
  -- the sum of two positive numbers
  have psum : ∀ x y, 0 < x → 0 < y → 0 < rnd p none (x + y) ∧ x + y ≤ (1 + 2 ^ (-(p : ℤ))) * rnd p none (x + y) := by
    intro x y hx hy
    have h1 := rnd_pos hp0 (by linarith : 0 < x + y)
    have h2 := (abs_le.1 (rnd_rel hp0 (x + y)).2).1
    rw [abs_of_pos h1] at h2
    exact ⟨h1, by linarith⟩
  unfold orient2d
  dsimp only
  generalize hdl : rnd p none (rnd p none (a.1 - c.1) * rnd p none (b.2 - c.2)) = dl at *
  generalize hdr : rnd p none (rnd p none (a.2 - c.2) * rnd p none (b.1 - c.1)) = dr at *
  -- the shortcuts
  have short : (0 < dl ∧ dr ≤ 0) ∨ (dl < 0 ∧ 0 ≤ dr) ∨ dl = 0 → SignType.sign (rnd p none (dl - dr)) =
      SignType.sign ((a.1 - c.1) * (b.2 - c.2) - (a.2 - c.2) * (b.1 - c.1)) := by
    intro h
    rw [sign_rnd hp0]
    have cp : ∀ {x y : ℚ}, SignType.sign x = SignType.sign y → (0 < x → 0 < y) ∧ (x < 0 → y < 0) ∧ (x = 0 → y = 0) := by
      intro x y hxy
      refine ⟨fun hx => ?_, fun hx => ?_, fun hx => ?_⟩
      · rw [sign_pos hx] at hxy
        exact sign_eq_one_iff.1 hxy.symm
      · rw [sign_neg hx] at hxy
        exact sign_eq_neg_one_iff.1 hxy.symm
      · rw [hx, sign_zero] at hxy
        exact sign_eq_zero_iff.1 hxy.symm
    obtain ⟨l1, l2, l3⟩ := cp sl
    obtain ⟨r1, r2, r3⟩ := cp sr
    rcases h with ⟨h1, h2⟩ | ⟨h1, h2⟩ | h1
    · have := l1 h1
      rcases h2.lt_or_eq with h2 | h2
      · have := r2 h2
        rw [sign_pos (by linarith), sign_pos (by linarith)]
      · have := r3 h2
        rw [sign_pos (by linarith), sign_pos (by linarith)]
    · have := l2 h1
      rcases h2.lt_or_eq with h2 | h2
      · have := r1 h2
        rw [sign_neg (by linarith), sign_neg (by linarith)]
      · have := r3 h2.symm
        rw [sign_neg (by linarith), sign_neg (by linarith)]
    · rw [l3 h1, h1, zero_sub, zero_sub, Left.sign_neg, Left.sign_neg, sr]
  by_cases h1 : dl > 0
  · rw [if_pos h1]
    by_cases h2 : dr ≤ 0
    · rw [if_pos h2]
      exact ⟨_, rfl, short (.inl ⟨h1, h2⟩)⟩
    · rw [if_neg h2]
      have h2 := not_le.1 h2
      obtain ⟨k1, k2⟩ := psum dl dr h1 h2
      exact filter _ k1 (by rw [abs_of_pos h1, abs_of_pos h2]; exact k2)
  · rw [if_neg h1]
    by_cases h2 : dl < 0
    · rw [if_pos h2]
      by_cases h3 : dr ≥ 0
      · rw [if_pos h3]
        exact ⟨_, rfl, short (.inr (.inl ⟨h2, h3⟩))⟩
      · rw [if_neg h3]
        have h3 := not_le.1 h3
        obtain ⟨k1, k2⟩ := psum (-dl) (-dr) (by linarith) (by linarith)
        rw [← sub_eq_add_neg] at k1 k2
        exact filter _ k1 (by rw [abs_of_neg h2, abs_of_neg h3]; linarith)
    · rw [if_neg h2]
      exact ⟨_, rfl, short (.inr (.inr (le_antisymm (not_lt.1 h1) (not_lt.1 h2))))⟩

/-! ### Floating point types with bounded exponents -/

theorem roundEven_int (n : ℤ) : roundEven n = n := by
  unfold roundEven
  simp

/-- The subnormal numbers are no restriction for the multiples of the smallest one. -/
theorem rnd_subnormal (hp : 0 < p) {l : ℤ} {x : ℚ} (h : Mul l x) : rnd p (some l) x = rnd p none x := by
  by_cases h0 : x = 0
  · rw [h0]
    simp [rnd]
  by_cases hc : l ≤ Int.log 2 |x| - p + 1
  · unfold rnd
    rw [if_neg h0, if_neg h0]
    simp only [expo]
    rw [max_eq_left hc]
  · have hrep : Rep p x := by
      refine h.rep hp ?_
      have : |x| < 2 ^ (Int.log 2 |x| + 1) := by exact_mod_cast Int.lt_zpow_succ_log_self (b := 2) (by norm_num) |x|
      exact this.le.trans (two_le (by omega))
    rw [hrep.rnd]
    obtain ⟨n, rfl⟩ := h
    unfold rnd
    rw [if_neg h0]
    simp only [expo]
    rw [max_eq_right (by omega), mul_div_assoc, div_self (two_pos l).ne', mul_one, roundEven_int]

/-- **C74**, with underflow and overflow. `fl` is the rounding of a floating point type of precision `p` whose smallest number is `2 ^ l`, and it need only round
correctly up to `2 ^ u`. For coordinates that are multiples of `2 ^ g` and at most `2 ^ h`, the result of `orient2d` has the sign of the exact determinant. -/
theorem C74_orient2d_range (hp : 8 ≤ p) {l u g h : ℤ} {fl : ℚ → ℚ} (hfl : ∀ x, |x| ≤ 2 ^ u → fl x = rnd p (some l) x) (hg : g ≤ 0) (hh : 0 ≤ h)
    (hl : l ≤ 2 * g - 3 * p) (hu : 2 * h + 2 * p + 220 ≤ u) {a b c : ℚ × ℚ}
    (hrep : ∀ x ∈ [a.1, a.2, b.1, b.2, c.1, c.2], (∃ m e : ℤ, |m| < 2 ^ p ∧ g ≤ e ∧ x = m * 2 ^ e) ∧ |x| ≤ 2 ^ h) :
    ∃ r, orient2d p fl a b c = .ok r ∧
      SignType.sign r = SignType.sign ((a.1 - c.1) * (b.2 - c.2) - (a.2 - c.2) * (b.1 - c.1)) := by
  have hin : ∀ x ∈ [a.1, a.2, b.1, b.2, c.1, c.2], In g h x := by
    intro x hx
    obtain ⟨⟨m, e, -, he, hm⟩, hb⟩ := hrep x hx
    exact ⟨Mul.mono (t := e) ⟨m, hm⟩ he, hb⟩
  have hr : Right p l u fl := fun x hx => (hfl x hx.2).trans (rnd_subnormal (by omega) hx.1)
  rw [orient2d_range (by omega) hr (hin _ (by simp)) (hin _ (by simp)) (hin _ (by simp)) (hin _ (by simp)) (hin _ (by simp)) (hin _ (by simp)) hg hh hl hu]
  refine C74_orient2d_sign hp fun x hx => ?_
  obtain ⟨⟨m, e, h1, -, h2⟩, -⟩ := hrep x hx
  exact ⟨m, e, h1, h2⟩

/-- **C74** for `double`, whatever the operations do beyond `2 ^ 1023`: the sign is exact for coordinates that are multiples of `2 ^ (-457)`, zero included, and at most
`2 ^ 348` in magnitude. -/
theorem C74_orient2d_double {fl : ℚ → ℚ} (hfl : ∀ x, |x| ≤ 2 ^ (1023 : ℤ) → fl x = rnd 53 (some (-1074)) x) {a b c : ℚ × ℚ}
    (hrep : ∀ x ∈ [a.1, a.2, b.1, b.2, c.1, c.2], (∃ m e : ℤ, |m| < 2 ^ 53 ∧ -457 ≤ e ∧ x = m * 2 ^ e) ∧ |x| ≤ 2 ^ (348 : ℤ)) :
    ∃ r, orient2d 53 fl a b c = .ok r ∧
      SignType.sign r = SignType.sign ((a.1 - c.1) * (b.2 - c.2) - (a.2 - c.2) * (b.1 - c.1)) :=
  C74_orient2d_range (by norm_num) hfl (by norm_num) (by norm_num) (by norm_num) (by norm_num) hrep

/-- The documentation of `orient2d`, without a condition on the coordinates, is wrong for `double`: three points that are not collinear, for which the result is zero,
because the product of two small differences underflows. -/
theorem C74_orient2d_underflow : ∃ a b c : ℚ × ℚ,
    (∀ x ∈ [a.1, a.2, b.1, b.2, c.1, c.2], ∃ m e : ℤ, |m| < 2 ^ 53 ∧ -1074 ≤ e ∧ x = m * 2 ^ e) ∧
      orient2d 53 (rnd 53 (some (-1074))) a b c = .ok 0 ∧ (a.1 - c.1) * (b.2 - c.2) - (a.2 - c.2) * (b.1 - c.1) ≠ 0 := by
  refine ⟨(1 / 2 ^ 600, 0), (0, 1 / 2 ^ 600), (0, 0), ?_, by decide +kernel, by norm_num⟩
  intro x hx
  simp only [List.mem_cons, List.not_mem_nil, or_false] at hx
  have h : x = 1 / 2 ^ 600 ∨ x = 0 := by tauto
  rcases h with rfl | rfl
  · exact ⟨1, -600, by norm_num, by norm_num, by rw [zpow_neg]; norm_num⟩
  · exact ⟨0, 0, by norm_num, by norm_num, by norm_num⟩

/-! ### Examples -/

/-- Three collinear points with eight bit coordinates, whose differences are not representable: the result is zero. -/
example : orient2d 8 (rnd 8 none) (129 / 128, 129 / 128) (3, 3) (193 / 8, 193 / 8) = .ok 0 := by
  obtain ⟨r, h, hs⟩ := C74_orient2d_sign (p := 8) le_rfl (a := (129 / 128, 129 / 128)) (b := (3, 3)) (c := (193 / 8, 193 / 8)) (by
    intro x hx
    simp only [List.mem_cons, List.not_mem_nil, or_false] at hx
    rcases hx with rfl | rfl | rfl | rfl | rfl | rfl
    · exact ⟨129, -7, by norm_num, by norm_num⟩
    · exact ⟨129, -7, by norm_num, by norm_num⟩
    · exact ⟨3, 0, by norm_num, by norm_num⟩
    · exact ⟨3, 0, by norm_num, by norm_num⟩
    · exact ⟨193, -3, by norm_num, by norm_num⟩
    · exact ⟨193, -3, by norm_num, by norm_num⟩)
  rw [h, sign_eq_zero_iff.1 (hs.trans (sign_eq_zero_iff.2 (by norm_num)))]

theorem large_bound : (25 : ℚ) ≤ 2 ^ (348 : ℤ) := le_trans (by norm_num) (two_le (show (5 : ℤ) ≤ 348 by norm_num))

/-- In `double`: the points `(0.5, 0.5)`, `(12, 12)` and `(24, 24 + 2 ^ (-48))` turn counter-clockwise, and `orient2d` sees it. -/
example : ∃ r, orient2d 53 (rnd 53 (some (-1074))) (1 / 2, 1 / 2) (12, 12) (24, 24 + 1 / 2 ^ 48) = .ok r ∧ 0 < r := by
  have hb := large_bound
  obtain ⟨r, h, hs⟩ := C74_orient2d_double (fl := rnd 53 (some (-1074))) (fun _ _ => rfl) (a := (1 / 2, 1 / 2)) (b := (12, 12))
      (c := (24, 24 + 1 / 2 ^ 48)) (by
    intro x hx
    simp only [List.mem_cons, List.not_mem_nil, or_false] at hx
    rcases hx with rfl | rfl | rfl | rfl | rfl | rfl
    · exact ⟨⟨1, -1, by norm_num, by norm_num, by norm_num⟩, by rw [abs_of_pos (by norm_num)]; exact le_trans (by norm_num) hb⟩
    · exact ⟨⟨1, -1, by norm_num, by norm_num, by norm_num⟩, by rw [abs_of_pos (by norm_num)]; exact le_trans (by norm_num) hb⟩
    · exact ⟨⟨12, 0, by norm_num, by norm_num, by norm_num⟩, by rw [abs_of_pos (by norm_num)]; exact le_trans (by norm_num) hb⟩
    · exact ⟨⟨12, 0, by norm_num, by norm_num, by norm_num⟩, by rw [abs_of_pos (by norm_num)]; exact le_trans (by norm_num) hb⟩
    · exact ⟨⟨24, 0, by norm_num, by norm_num, by norm_num⟩, by rw [abs_of_pos (by norm_num)]; exact le_trans (by norm_num) hb⟩
    · exact ⟨⟨24 * 2 ^ 48 + 1, -48, by norm_num, by norm_num, by norm_num⟩, by rw [abs_of_pos (by norm_num)]; exact le_trans (by norm_num) hb⟩)
  refine ⟨r, h, sign_eq_one_iff.1 (hs.trans (sign_pos ?_))⟩
  norm_num

end Gbs.Pred
