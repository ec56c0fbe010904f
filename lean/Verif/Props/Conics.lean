import Verif.Props.Frames

/-! # C26 (ellipses and circles), C60 (segments) -/

namespace Gbs

set_option linter.unusedSectionVars false

open Polynomial

variable {K : Type} [Field K] [LinearOrder K] [IsStrictOrderedRing K]
variable {V : Type} [AddCommGroup V] [Module K V]

/-- Quadratic basis functions of a span between two double knots. -/
theorem spanDer_quadratic {t : ℕ → K} {n j : ℕ} {a b : K} (hab : a < b) (h1 : t (j + 1) = a) (h2 : t (j + 2) = a) (h3 : t (j + 3) = b)
    (h4 : t (j + 4) = b) (hn : j + 2 < n) (P : ℕ → V) (s : K) :
    spanDer t n 2 (j + 2) P 0 (a + s * (b - a)) = (1 - s) ^ 2 • P j + (2 * s * (1 - s)) • P (j + 1) + s ^ 2 • P (j + 2) := by
  have hne : b - a ≠ 0 := by linarith
  rw [spanDer_window t (by omega) hn]
  simp only [Function.iterate_zero, id_eq, Bp_eval, Finset.sum_range_succ, Finset.sum_range_zero, zero_add,
    show j + 2 - 2 = j by omega, add_zero]
  have b0 : B t (j + 2) 2 j (a + s * (b - a)) = (1 - s) ^ 2 := by
    simp only [B, if_neg (show ¬ (j = j + 2) by omega), if_neg (show ¬ (j + 1 = j + 2) by omega), if_pos (show j + 1 + 1 = j + 2 by omega),
      if_true, mul_zero, zero_add, mul_one, show j + 0 + 2 = j + 2 by omega, show j + 1 + 0 + 2 = j + 3 by omega, show j + 1 + 1 = j + 2 by omega,
      show j + 1 + 2 = j + 3 by omega, h1, h2, h3, h4]
    field_simp
    ring
  have b1 : B t (j + 2) 2 (j + 1) (a + s * (b - a)) = 2 * s * (1 - s) := by
    simp only [B, if_neg (show ¬ (j + 1 = j + 2) by omega), if_pos (show j + 1 + 1 = j + 2 by omega), if_neg (show ¬ (j + 1 + 1 + 1 = j + 2) by omega),
      if_true, mul_zero, zero_add, add_zero, mul_one, show j + 1 + 0 + 2 = j + 3 by omega, show j + 1 + 1 + 1 = j + 3 by omega,
      show j + 1 + 1 + 0 + 1 = j + 3 by omega, show j + 1 + 1 + 2 = j + 4 by omega, show j + 1 + 1 = j + 2 by omega, show j + 2 + 0 + 2 = j + 4 by omega,
      h1, h2, h3, h4]
    field_simp
    ring
  have b2 : B t (j + 2) 2 (j + 2) (a + s * (b - a)) = s ^ 2 := by
    simp only [B, if_neg (show ¬ (j + 2 + 1 = j + 2) by omega), if_neg (show ¬ (j + 2 + 1 + 1 = j + 2) by omega), if_pos rfl,
      if_true, mul_zero, zero_add, add_zero, mul_one, show j + 2 + 0 + 1 = j + 3 by omega, show j + 2 + 1 + 1 = j + 4 by omega, h1, h2, h3, h4]
    field_simp
    ring
  rw [b0, b1, b2]

/-- The knots of the ellipse. -/
def ellKnots (K : Type) [Field K] : List K := [0, 0, 0, 1/4, 1/4, 1/2, 1/2, 3/4, 3/4, 1, 1, 1]

theorem ellKnots_kwf : KWf 2 (ellKnots K) 9 where
  sorted := by
    unfold ellKnots
    simp only [List.pairwise_cons, List.mem_cons, List.not_mem_nil, or_false, forall_eq_or_imp, forall_eq, IsEmpty.forall_iff, implies_true,
      List.Pairwise.nil, and_true]
    norm_num
  len := rfl
  min := by decide
  first := by show (0 : K) < 1/4; norm_num
  last := by show (3/4 : K) < 1; norm_num

/-- The values of an ellipse, quarter by quarter. -/
theorem buildEllipse_spec {eps : K} (heps : 0 < eps) {sqrt : K → K} (hs : IsSqrt sqrt) {n : ℕ} (r1 r2 : K) (center : Fin (n + 2) → K) :
    ∃ c, buildEllipse eps sqrt r1 r2 center = .ok c ∧ c.Good ∧ c.deg = 2 ∧ c.b0 = 0 ∧ c.b1 = 1 ∧
      ∀ u, 0 ≤ u → u ≤ 1 → ∀ junk, ∃ k : ℕ, k < 4 ∧ ∃ s a b : K, 0 ≤ s ∧ s ≤ 1 ∧ u = (k + s) / 4 ∧ 0 ≤ a ∧ 0 ≤ b ∧ a ^ 2 + b ^ 2 = 1 ∧
        (s = 0 → a = 1) ∧ (s = 1 → b = 1) ∧
        c.ratValue eps junk u = .ok (fun i => center i + if i = 0 then r1 * (if k = 0 then a else if k = 1 then -b else if k = 2 then -a else b)
          else if i = 1 then r2 * (if k = 0 then b else if k = 1 then a else if k = 2 then -b else -a) else 0) := by
  obtain ⟨hq0, hq⟩ := hs 2 (by norm_num)
  obtain ⟨w, hw⟩ : ∃ w, w = sqrt 2 / 2 := ⟨_, rfl⟩
  have hw0 : 0 ≤ w := by rw [hw]; positivity
  have hww : w ^ 2 = 1 / 2 := by rw [hw, div_pow, pow_two, hq]; norm_num
  set PL : List ((Fin (n + 2) → K) × K) := ([ellPole r1 0 1, ellPole (w * r1) (w * r2) w, ellPole 0 r2 1, ellPole (-w * r1) (w * r2) w, ellPole (-r1) 0 1,
    ellPole (-w * r1) (-w * r2) w, ellPole 0 (-r2) 1, ellPole (w * r1) (-w * r2) w, ellPole r1 0 1]).map (translatedH center) with hPL
  obtain ⟨c, ec, c1, c2, c3, c4, c5, hg, -⟩ := mk_clamped heps (ellKnots_kwf (K := K)) (P := PL) rfl (by decide) rfl rfl
  have hb0 : c.b0 = 0 := c4
  have hb1 : c.b1 = 1 := c5
  refine ⟨c, ?_, hg, c1, hb0, hb1, ?_⟩
  · unfold buildEllipse
    simp only
    rw [← hw]
    exact ec
  intro u hu0 hu1 junk
  obtain ⟨i, hin, a1, a2, -, -, hr⟩ := Curve.rat_spec heps hg (Or.inl (by rw [c1]; decide)) (u := u) (by rw [hb0]; exact hu0) (by rw [hb1]; exact hu1)
  rw [c1] at a1
  have hl : c.poles.length = 9 := by rw [c2]; rfl
  rw [c1, c2, c3, show PL.length = 9 from rfl] at hr
  rw [c3, hl] at hin
  rw [hl] at a2
  obtain ⟨i1, i2, i3⟩ := InSpan_bounds hin
  -- a point from its homogeneous span
  have fin : ∀ (s : K) (k : ℕ), k < 4 → 0 ≤ s → s ≤ 1 → u = (k + s) / 4 →
      ((spanDer (kf (ellKnots K)) 9 2 i (pf PL) 0 u).2 = (1 - s) ^ 2 + 2 * s * (1 - s) * w + s ^ 2) →
      ((spanDer (kf (ellKnots K)) 9 2 i (pf PL) 0 u).1 = fun i => ((1 - s) ^ 2 + 2 * s * (1 - s) * w + s ^ 2) * center i +
        if i = 0 then r1 * (if k = 0 then (1 - s) ^ 2 + 2 * s * (1 - s) * w else if k = 1 then -(2 * s * (1 - s) * w + s ^ 2) else
          if k = 2 then -((1 - s) ^ 2 + 2 * s * (1 - s) * w) else 2 * s * (1 - s) * w + s ^ 2)
        else if i = 1 then r2 * (if k = 0 then 2 * s * (1 - s) * w + s ^ 2 else if k = 1 then (1 - s) ^ 2 + 2 * s * (1 - s) * w else
          if k = 2 then -(2 * s * (1 - s) * w + s ^ 2) else -((1 - s) ^ 2 + 2 * s * (1 - s) * w)) else 0) →
      ∃ k : ℕ, k < 4 ∧ ∃ s a b : K, 0 ≤ s ∧ s ≤ 1 ∧ u = (k + s) / 4 ∧ 0 ≤ a ∧ 0 ≤ b ∧ a ^ 2 + b ^ 2 = 1 ∧
        (s = 0 → a = 1) ∧ (s = 1 → b = 1) ∧
        c.ratValue eps junk u = .ok (fun i => center i + if i = 0 then r1 * (if k = 0 then a else if k = 1 then -b else if k = 2 then -a else b)
          else if i = 1 then r2 * (if k = 0 then b else if k = 1 then a else if k = 2 then -b else -a) else 0) := by
    intro s k hk s0 s1 hu e2 e1
    set W := (1 - s) ^ 2 + 2 * s * (1 - s) * w + s ^ 2 with hW
    have s1' : 0 ≤ 1 - s := by linarith
    have hm : 0 ≤ 2 * s * (1 - s) * w := by positivity
    have hWp : 0 < W := by
      have : 0 < (1 - s) ^ 2 + s ^ 2 := by nlinarith [sq_nonneg (1 - 2 * s)]
      rw [hW]; linarith
    have hW0 : W ≠ 0 := hWp.ne'
    refine ⟨k, hk, s, ((1 - s) ^ 2 + 2 * s * (1 - s) * w) / W, (2 * s * (1 - s) * w + s ^ 2) / W, s0, s1, hu, ?_, ?_, ?_, ?_, ?_, ?_⟩
    · positivity
    · positivity
    · field_simp
      rw [hW]
      linear_combination (4 * s ^ 2 * (1 - s) ^ 2) * hww
    · rintro rfl
      rw [hW]; simp
    · rintro rfl
      rw [hW]; simp
    · rw [(hr (by rw [e2]; exact hW0)).1 junk 0 (by omega), quotB_eq, e1, e2]
      simp only [Finset.range_zero, Finset.sum_empty, sub_zero]
      congr 1
      funext j
      simp only [Pi.smul_apply, smul_eq_mul]
      by_cases j0 : j = 0
      · simp only [j0, if_true]
        have : k = 0 ∨ k = 1 ∨ k = 2 ∨ k = 3 := by omega
        rcases this with rfl | rfl | rfl | rfl <;> simp <;> field_simp <;> ring
      · by_cases j1 : j = 1
        · simp only [j1, if_true]
          have : k = 0 ∨ k = 1 ∨ k = 2 ∨ k = 3 := by omega
          rcases this with rfl | rfl | rfl | rfl <;> simp <;> field_simp <;> ring
        · simp only [j0, j1, if_false, add_zero]
          field_simp
  have hp : ∀ k x y z, PL[k]? = some (translatedH center (ellPole x y z)) →
      pf PL k = ((fun i => z * center i + if i = 0 then x else if i = 1 then y else 0), z) := by
    intro k x y z h
    rw [pf_of_getElem? h]
    ext i
    · simp only [translatedH, ellPole, Pi.add_apply, Pi.smul_apply, smul_eq_mul]
      ring
    · rfl
  have k0 : kf (ellKnots K) 2 = 0 := rfl
  have k2 : kf (ellKnots K) 4 = 1/4 := rfl
  have k4 : kf (ellKnots K) 6 = 1/2 := rfl
  have k6 : kf (ellKnots K) 8 = 3/4 := rfl
  have k7 : kf (ellKnots K) 9 = 1 := rfl
  have quarter : ∀ (k : ℕ), k < 4 → i = 2 * k + 2 → kf (ellKnots K) (2 * k + 1) = k / 4 → kf (ellKnots K) (2 * k + 2) = k / 4 →
      kf (ellKnots K) (2 * k + 3) = (k + 1) / 4 → kf (ellKnots K) (2 * k + 4) = (k + 1) / 4 →
      ∃ s : K, 0 ≤ s ∧ s ≤ 1 ∧ u = (k + s) / 4 ∧ spanDer (kf (ellKnots K)) 9 2 i (pf PL) 0 u =
        (1 - s) ^ 2 • pf PL (2 * k) + (2 * s * (1 - s)) • pf PL (2 * k + 1) + s ^ 2 • pf PL (2 * k + 2) := by
    intro k hk hi e1 e2 e3 e4
    subst hi
    rw [e2] at i1
    rw [show 2 * k + 2 + 1 = 2 * k + 3 by omega, e3] at i2
    refine ⟨4 * u - k, by linarith, by linarith, by ring, ?_⟩
    have := spanDer_quadratic (show (k : K) / 4 < (k + 1) / 4 by linarith) e1 e2 e3 e4 (show 2 * k + 2 < 9 by omega) (pf PL) (4 * u - k)
    rw [← this]
    congr 1
    ring
  have hc : i = 2 * 0 + 2 ∨ i = 2 * 1 + 2 ∨ i = 2 * 2 + 2 ∨ i = 2 * 3 + 2 := by
    have : i = 2 ∨ i = 3 ∨ i = 4 ∨ i = 5 ∨ i = 6 ∨ i = 7 ∨ i = 8 := by omega
    rcases this with h | h | h | h | h | h | h
    · omega
    · subst h; exact absurd i3 (lt_irrefl _)
    · omega
    · subst h; exact absurd i3 (lt_irrefl _)
    · omega
    · subst h; exact absurd i3 (lt_irrefl _)
    · omega
  rcases hc with h | h | h | h
  · obtain ⟨s, s0, s1, hu, e⟩ := quarter 0 (by omega) h (by show (0:K) = _; norm_num) (by show (0:K) = _; norm_num) (by show (1/4:K) = _; norm_num)
      (by show (1/4:K) = _; norm_num)
    rw [hp 0 r1 0 1 rfl, hp 1 (w * r1) (w * r2) w rfl, hp 2 0 r2 1 rfl] at e
    apply fin s 0 (by omega) s0 s1 hu
    · rw [e]; simp
    · rw [e]; funext i; simp; split_ifs <;> ring
  · obtain ⟨s, s0, s1, hu, e⟩ := quarter 1 (by omega) h (by show (1/4:K) = _; norm_num) (by show (1/4:K) = _; norm_num) (by show (1/2:K) = _; norm_num)
      (by show (1/2:K) = _; norm_num)
    rw [hp 2 0 r2 1 rfl, hp 3 (-w * r1) (w * r2) w rfl, hp 4 (-r1) 0 1 rfl] at e
    apply fin s 1 (by omega) s0 s1 hu
    · rw [e]; simp
    · rw [e]; funext i; simp; split_ifs <;> ring
  · obtain ⟨s, s0, s1, hu, e⟩ := quarter 2 (by omega) h (by show (1/2:K) = _; norm_num) (by show (1/2:K) = _; norm_num) (by show (3/4:K) = _; norm_num)
      (by show (3/4:K) = _; norm_num)
    rw [hp 4 (-r1) 0 1 rfl, hp 5 (-w * r1) (-w * r2) w rfl, hp 6 0 (-r2) 1 rfl] at e
    apply fin s 2 (by omega) s0 s1 hu
    · rw [e]; simp
    · rw [e]; funext i; simp; split_ifs <;> ring
  · obtain ⟨s, s0, s1, hu, e⟩ := quarter 3 (by omega) h (by show (3/4:K) = _; norm_num) (by show (3/4:K) = _; norm_num) (by show (1:K) = _; norm_num)
      (by show (1:K) = _; norm_num)
    rw [hp 6 0 (-r2) 1 rfl, hp 7 (w * r1) (-w * r2) w rfl, hp 8 r1 0 1 rfl] at e
    apply fin s 3 (by omega) s0 s1 hu
    · rw [e]; simp
    · rw [e]; funext i; simp; split_ifs <;> ring

/-- C26: every point of `build_ellipse(r1,r2,center)` satisfies the equation of the ellipse, in the plane `xy` through the centre. -/
theorem C26_ellipse {eps : K} (heps : 0 < eps) {sqrt : K → K} (hs : IsSqrt sqrt) {n : ℕ} {r1 r2 : K} (h1 : r1 ≠ 0) (h2 : r2 ≠ 0)
    (center : Fin (n + 2) → K) :
    ∃ c, buildEllipse eps sqrt r1 r2 center = .ok c ∧ c.b0 = 0 ∧ c.b1 = 1 ∧
      ∀ u, 0 ≤ u → u ≤ 1 → ∀ junk, ∃ pt, c.ratValue eps junk u = .ok pt ∧
        ((pt 0 - center 0) / r1) ^ 2 + ((pt 1 - center 1) / r2) ^ 2 = 1 ∧ ∀ i : Fin (n + 2), 2 ≤ (i : ℕ) → pt i = center i := by
  obtain ⟨c, e, -, -, b0, b1, h⟩ := buildEllipse_spec heps hs r1 r2 center
  refine ⟨c, e, b0, b1, ?_⟩
  intro u hu0 hu1 junk
  obtain ⟨k, hk, s, a, b, -, -, -, -, -, hab, -, -, hv⟩ := h u hu0 hu1 junk
  refine ⟨_, hv, ?_, ?_⟩
  · have : k = 0 ∨ k = 1 ∨ k = 2 ∨ k = 3 := by omega
    rcases this with rfl | rfl | rfl | rfl <;> simp <;> field_simp <;> linear_combination hab
  · intro i hi
    have i0 : i ≠ 0 := by rintro rfl; simp at hi
    have i1 : i ≠ 1 := by rintro rfl; simp at hi
    simp [i0, i1]

/-- C26: the ellipse turns counterclockwise once, from the quarter point `(r1, 0)`, each quarter of the parameters giving a quarter of the curve. -/
theorem C26_quarters {eps : K} (heps : 0 < eps) {sqrt : K → K} (hs : IsSqrt sqrt) {n : ℕ} {r1 r2 : K} (center : Fin (n + 2) → K) :
    ∃ c, buildEllipse eps sqrt r1 r2 center = .ok c ∧
      (∀ m : ℕ, m ≤ 4 → ∀ junk, ∃ pt, c.ratValue eps junk ((m : K) / 4) = .ok pt ∧
        pt 0 = center 0 + r1 * (if m = 0 ∨ m = 4 then 1 else if m = 2 then -1 else 0) ∧
        pt 1 = center 1 + r2 * (if m = 1 then 1 else if m = 3 then -1 else 0)) ∧
      ∀ u, 0 ≤ u → u ≤ 1 → ∀ junk, ∃ pt, ∃ x y : K, c.ratValue eps junk u = .ok pt ∧ pt 0 = center 0 + r1 * x ∧ pt 1 = center 1 + r2 * y ∧
        (u < 1/4 → 0 ≤ x ∧ 0 ≤ y) ∧ (1/4 < u → u < 1/2 → x ≤ 0 ∧ 0 ≤ y) ∧ (1/2 < u → u < 3/4 → x ≤ 0 ∧ y ≤ 0) ∧ (3/4 < u → 0 ≤ x ∧ y ≤ 0) := by
  obtain ⟨c, e, -, -, b0, b1, h⟩ := buildEllipse_spec heps hs r1 r2 center
  refine ⟨c, e, ?_, ?_⟩
  · intro m hm junk
    have hm' : (m : K) ≤ 4 := by exact_mod_cast hm
    have hm0 : (0 : K) ≤ m := Nat.cast_nonneg m
    obtain ⟨k, hk, s, a, b, s0, s1, hu, a0, b0, hab, ha, hb, hv⟩ := h ((m : K) / 4) (by linarith) (by linarith) junk
    refine ⟨_, hv, ?_⟩
    have hks : (m : K) = k + s := by linarith
    have h1 : k ≤ m := by
      have : (k : K) ≤ m := by linarith
      exact_mod_cast this
    have h2 : m ≤ k + 1 := by
      have : (m : K) ≤ (k + 1 : ℕ) := by push_cast; linarith
      exact_mod_cast this
    have hc : (m = k ∧ a = 1 ∧ b = 0) ∨ (m = k + 1 ∧ a = 0 ∧ b = 1) := by
      rcases Nat.lt_or_ge k m with h3 | h3
      · right
        have hm1 : m = k + 1 := by omega
        have : s = 1 := by rw [hm1] at hks; push_cast at hks; linarith
        have hb1 := hb this
        refine ⟨hm1, ?_, hb1⟩
        rw [hb1] at hab
        exact pow_eq_zero_iff (two_ne_zero) |>.mp (by linarith)
      · left
        have hm1 : m = k := by omega
        have : s = 0 := by rw [hm1] at hks; linarith
        have ha1 := ha this
        refine ⟨hm1, ha1, ?_⟩
        rw [ha1] at hab
        exact pow_eq_zero_iff (two_ne_zero) |>.mp (by linarith)
    have : k = 0 ∨ k = 1 ∨ k = 2 ∨ k = 3 := by omega
    rcases hc with ⟨h4, ha, hb⟩ | ⟨h4, ha, hb⟩ <;> rcases this with rfl | rfl | rfl | rfl <;> subst h4 <;> simp [ha, hb]
  · intro u hu0 hu1 junk
    obtain ⟨k, hk, s, a, b, s0, s1, hu, a0, b0, hab, ha, hb, hv⟩ := h u hu0 hu1 junk
    refine ⟨_, _, _, hv, by simp only [if_true]; rfl, by simp only [one_ne_zero, if_false, if_true]; rfl, ?_⟩
    have : k = 0 ∨ k = 1 ∨ k = 2 ∨ k = 3 := by omega
    have hq : ∀ j : ℕ, k = j → (j : K) / 4 ≤ u ∧ u ≤ (j + 1) / 4 := by
      rintro j rfl
      exact ⟨by linarith, by linarith⟩
    rcases this with rfl | rfl | rfl | rfl
    · have := hq 0 rfl
      push_cast at this
      refine ⟨fun _ => ⟨by simpa using a0, by simpa using b0⟩, ?_, ?_, ?_⟩
      all_goals intros; exfalso; linarith
    · have := hq 1 rfl
      push_cast at this
      refine ⟨?_, fun _ _ => ⟨by simpa using b0, by simpa using a0⟩, ?_, ?_⟩
      all_goals intros; exfalso; linarith
    · have := hq 2 rfl
      push_cast at this
      refine ⟨?_, ?_, fun _ _ => ⟨by simpa using a0, by simpa using b0⟩, ?_⟩
      all_goals intros; exfalso; linarith
    · have := hq 3 rfl
      push_cast at this
      refine ⟨?_, ?_, ?_, fun _ => ⟨by simpa using b0, by simpa using a0⟩⟩
      all_goals intros; exfalso; linarith

/-- C26: every point of `build_circle` is at the distance `r` of the centre (squared distances; in any dimension). -/
theorem C26_circle {eps : K} (heps : 0 < eps) {sqrt : K → K} (hs : IsSqrt sqrt) {n : ℕ} {r : K} (hr : r ≠ 0) (center : Fin (n + 2) → K) :
    ∃ c, buildCircle eps sqrt r center = .ok c ∧ c.b0 = 0 ∧ c.b1 = 1 ∧
      ∀ u, 0 ≤ u → u ≤ 1 → ∀ junk, ∃ pt, c.ratValue eps junk u = .ok pt ∧ sqNorm (pt - center) = r ^ 2 := by
  obtain ⟨c, e, b0, b1, h⟩ := C26_ellipse heps hs hr hr center
  refine ⟨c, e, b0, b1, fun u hu0 hu1 junk => ?_⟩
  obtain ⟨pt, hv, h1, h2⟩ := h u hu0 hu1 junk
  refine ⟨pt, hv, ?_⟩
  unfold sqNorm
  rw [Fin.sum_univ_succ, Fin.sum_univ_succ, Finset.sum_eq_zero]
  · simp only [Pi.sub_apply]
    field_simp at h1
    rw [show (Fin.succ (0 : Fin (n + 1))) = 1 from rfl]
    linear_combination h1
  · intro i _
    rw [Pi.sub_apply, h2 i.succ.succ (by simp), sub_self, mul_zero]

example : IsSqrt Real.sqrt ∧ (0 : ℝ) < 1/1000000 ∧ (3 : ℝ) ≠ 0 ∧ (2 : ℝ) ≠ 0 := ⟨isSqrt_real, by norm_num, by norm_num, by norm_num⟩

/-! ## C60 -/

/-- C60: `build_segment(p1,p2)` runs from `p1` to `p2` at constant speed over `[0, 1]` (normalized) or `[0, |p2-p1|]`. -/
theorem C60_segment {eps : K} (heps : 0 < eps) {sqrt : K → K} (hs : IsSqrt sqrt) {n : ℕ} (p1 p2 : Fin n → K) (normalized : Bool)
    (hne : normalized = true ∨ p1 ≠ p2) :
    ∃ c l, buildSegment eps sqrt p1 p2 normalized = .ok c ∧ c.Good ∧ c.b0 = 0 ∧ c.b1 = l ∧ 0 < l ∧
      (normalized = true → l = 1) ∧ (normalized = false → l ^ 2 = sqNorm (p2 - p1)) ∧
      ∀ u, 0 ≤ u → u ≤ l → ∀ junk, c.value eps junk u = .ok (p1 + (u / l) • (p2 - p1)) ∧
        c.value eps junk u 1 = .ok (l⁻¹ • (p2 - p1)) := by
  obtain ⟨l, hl⟩ : ∃ l, l = if normalized then 1 else vnorm sqrt (p2 - p1) := ⟨_, rfl⟩
  have hpos : 0 < l := by
    rcases normalized with _ | _
    · simp only [Bool.false_eq_true, if_false] at hl
      have h2 : p1 ≠ p2 := by simpa using hne
      have := vnorm_ne_zero hs (sub_ne_zero.mpr h2.symm)
      have h0 := (hs _ (sqNorm_nonneg (p2 - p1))).1
      rw [hl]
      exact lt_of_le_of_ne h0 this.symm
    · simp only [if_true] at hl
      rw [hl]; exact one_pos
  have hk : KWf 1 [0, 0, l, l] 2 := ⟨by simp [hpos.le], rfl, by decide, hpos, hpos⟩
  obtain ⟨c, ec, c1, c2, c3, c4, c5, hg, hv⟩ := mk_clamped heps hk (P := [p1, p2]) rfl (by decide) rfl rfl
  refine ⟨c, l, ?_, hg, c4, c5, hpos, ?_, ?_, ?_⟩
  · unfold buildSegment
    simp only
    rw [← hl]
    exact ec
  · rintro rfl; simpa using hl
  · rintro rfl
    simp only [Bool.false_eq_true, if_false] at hl
    rw [pow_two, hl, vnorm_mul_self hs]
  · intro u hu0 hu1 junk
    obtain ⟨i, e, a1, a2, -⟩ := findSpan_kwf hk u
    obtain rfl : i = 1 := by omega
    have h0 := hv u 1 hu0 hu1 e junk
    have k0 : kf [0, 0, l, l] 0 = 0 := rfl
    have k1 : kf [0, 0, l, l] 1 = 0 := rfl
    have k2 : kf [0, 0, l, l] 2 = l := rfl
    have k3 : kf [0, 0, l, l] 3 = l := rfl
    have B0 : Bp (kf [0, 0, l, l]) 1 1 0 = C l⁻¹ * (C l - X) := by
      apply Polynomial.funext
      intro x
      rw [Bp_eval]
      simp [B, k1, k2]
      ring
    have B1 : Bp (kf [0, 0, l, l]) 1 1 1 = C l⁻¹ * X := by
      apply Polynomial.funext
      intro x
      rw [Bp_eval]
      simp [B, k1, k2]
      ring
    constructor
    · rw [h0 0, spanDer_window _ (by omega) (by omega)]
      congr 1
      simp only [Finset.sum_range_succ, Finset.sum_range_zero, zero_add, Nat.sub_self, add_zero, Function.iterate_zero, id_eq, B0, B1]
      rw [show pf [p1, p2] 0 = p1 from rfl, show pf [p1, p2] 1 = p2 from rfl]
      simp only [eval_mul, eval_sub, eval_C, eval_X, mul_sub, inv_mul_cancel₀ hpos.ne', sub_smul, one_smul, smul_sub]
      rw [show u / l = l⁻¹ * u by ring]
      abel
    · rw [h0 1, spanDer_window _ (by omega) (by omega)]
      congr 1
      simp only [Finset.sum_range_succ, Finset.sum_range_zero, zero_add, Nat.sub_self, add_zero, Function.iterate_one, B0, B1]
      rw [show pf [p1, p2] 0 = p1 from rfl, show pf [p1, p2] 1 = p2 from rfl]
      simp only [derivative_mul, derivative_sub, derivative_C, derivative_X, zero_mul, zero_add, zero_sub, eval_mul, eval_neg, eval_C, eval_one, mul_one,
        mul_neg, neg_smul, smul_sub]
      abel

/-- C60: with coincident points and the curvilinear parameter, a degenerate curve is built without error and its evaluation divides zero by zero. -/
theorem C60_coincident_witness : ∃ c : Curve ℚ (Fin 1 → ℚ), buildSegment (1/1000000) id ![1] ![1] false = .ok c ∧
    c.value (1/1000000) 0 0 = .error .divZero := by
  refine ⟨⟨1, [![1], ![1]], [0, 0, 0, 0], 0, 0⟩, ?_, ?_⟩ <;> decide +kernel

example : IsSqrt Real.sqrt ∧ (![1, 2] : Fin 2 → ℝ) ≠ ![3, 4] := by
  refine ⟨isSqrt_real, ?_⟩
  intro h
  have := congrFun h 0
  norm_num at this

end Gbs
