import Verif.Lemmas.OkInv
import Verif.Model.Tfi
import Verif.Props.Collocation

/-! # Loops and functions of the transfinite interpolation -/

namespace Gbs

set_option linter.unusedSectionVars false

variable {K : Type} [Field K] [LinearOrder K] [IsStrictOrderedRing K]
variable {V : Type} [AddCommGroup V] [Module K V]

/-- An invariant indexed by the counter, kept by the iterations that succeed, holds after a loop that succeeds. -/
theorem forLt_okI {S : Type} (I : ℕ → S → Prop) {body : ℕ → S → R S} {a b : ℕ} {s s' : S} (hab : a ≤ b) (h : forLt a b body s = .ok s')
    (h0 : I a s) (hs : ∀ i s s', a ≤ i → i < b → body i s = .ok s' → I i s → I (i + 1) s') : I b s' := by
  have key : ∀ n a s, a + n = b → (∀ i s s', a ≤ i → i < b → body i s = .ok s' → I i s → I (i + 1) s') → forN body n a s = .ok s' →
      I a s → I b s' := by
    intro n
    induction n with
    | zero =>
      intro a s hb _ h hI
      cases h
      obtain rfl : a = b := by omega
      exact hI
    | succ n ih =>
      intro a s hb hs h hI
      rw [forN] at h
      obtain ⟨s1, h1, h2⟩ := R_bind_eq_ok.mp h
      exact ih (a + 1) s1 (by omega) (fun i s s' hi => hs i s s' (by omega)) h2 (hs a s s1 le_rfl (by omega) h1 hI)
  exact key (b - a) a s (by omega) hs h h0

/-- What `mapM` returns. -/
theorem mapM_inv {α β : Type} {f : α → R β} : ∀ {l : List α} {r : List β}, l.mapM f = .ok r →
    r.length = l.length ∧ ∀ (i : ℕ) (x : α), l[i]? = some x → ∃ y, f x = .ok y ∧ r[i]? = some y := by
  intro l
  induction l with
  | nil => intro r h; cases h; simp
  | cons a l ih =>
    intro r h
    rw [List.mapM_cons] at h
    obtain ⟨y, h1, h2⟩ := R_bind_eq_ok.mp h
    obtain ⟨ys, h3, h4⟩ := R_bind_eq_ok.mp h2
    cases h4
    obtain ⟨e1, e2⟩ := ih h3
    refine ⟨by simp [e1], ?_⟩
    intro i x hx
    cases i with
    | zero =>
      simp only [List.getElem?_cons_zero, Option.some.injEq] at hx
      subst hx
      exact ⟨y, h1, by simp⟩
    | succ i =>
      rw [List.getElem?_cons_succ] at hx
      obtain ⟨z, z1, z2⟩ := e2 i x hx
      exact ⟨z, z1, by rw [List.getElem?_cons_succ]; exact z2⟩

theorem mapM_exists {α β : Type} {f : α → R β} : ∀ (l : List α), (∀ x ∈ l, ∃ y, f x = .ok y) → ∃ r, l.mapM f = .ok r := by
  intro l
  induction l with
  | nil => intro _; exact ⟨[], rfl⟩
  | cons a l ih =>
    intro h
    obtain ⟨y, hy⟩ := h a (by simp)
    obtain ⟨r, hr⟩ := ih (fun x hx => h x (by simp [hx]))
    exact ⟨y :: r, by rw [List.mapM_cons, hy, R_bind_ok, hr]; rfl⟩

theorem mapM_range_inv {β : Type} {f : ℕ → R β} {n : ℕ} {r : List β} (h : (List.range n).mapM f = .ok r) :
    r.length = n ∧ ∀ i, i < n → ∃ y, f i = .ok y ∧ r[i]? = some y := by
  obtain ⟨h1, h2⟩ := mapM_inv h
  refine ⟨by simpa using h1, fun i hi => h2 i i (List.getElem?_range hi)⟩

theorem mapM_range_exists {β : Type} {f : ℕ → R β} {n : ℕ} (h : ∀ i, i < n → ∃ y, f i = .ok y) : ∃ r, (List.range n).mapM f = .ok r :=
  mapM_exists _ fun i hi => h i (List.mem_range.mp hi)

/-! ## The functions of degree 1 from the indices to the parameters -/

/-- The interpolation of degree 1 has the data as poles, hence stays between bounds of the data. -/
theorem interpLine {eps meps : K} (heps : 0 < eps) (hm : 0 ≤ meps) (growth junk x0 : K) {Q u : List K} (hl : Q.length = u.length)
    (hn : 2 ≤ u.length) (hu : u.Pairwise (· < ·)) {sparse : ℕ → List (ℕ × ℕ × K) → List K → R (List K)} (hS : Spec.SolvesRegular sparse) :
    ∃ c, interpolateCn eps meps growth junk x0 sparse Q u 1 = .ok c ∧
      (∀ i, i < u.length → ∀ junk', c.value eps junk' (kf u i) = .ok (kf Q i)) ∧
      ∀ (lo hi : K), (∀ q ∈ Q, lo ≤ q ∧ q ≤ hi) → ∀ t, kf u 0 ≤ t → t ≤ kf u (u.length - 1) →
        ∃ v, lo ≤ v ∧ v ≤ hi ∧ ∀ junk', c.value eps junk' t = .ok v := by
  obtain ⟨c, ec, hg, hd, hlP, hb0, hb1, hv⟩ := C36_interpolate_points heps hm growth junk x0 (p := 1) le_rfl (by decide) hl hn hu hS
  have hval : ∀ i, i < u.length → ∀ junk', c.value eps junk' (kf u i) = .ok (kf Q i) := fun i hi junk' =>
    hv i _ _ (kf_getElem? (by omega)) (kf_getElem? hi) junk'
  refine ⟨c, ec, hval, ?_⟩
  rw [List.head?_eq_getElem?, kf_getElem? (by omega), Option.some.injEq] at hb0
  rw [List.getLast?_eq_getElem?, kf_getElem? (by omega), Option.some.injEq] at hb1
  -- the knots
  obtain ⟨k, ek, hlk, hk0, hk1, hk2, -⟩ := C54_averaged_knots (V := K) (p := 1) le_rfl hn hu
  have hck : c.knots = k := by
    unfold interpolateCn at ec
    rw [ek, R_bind_ok] at ec
    obtain ⟨P, -, h2⟩ := R_bind_eq_ok.mp ec
    unfold Curve.mk? at h2
    split at h2
    · obtain ⟨b, -, h3⟩ := R_bind_eq_ok.mp h2
      split at h3
      · cases h3; rfl
      · cases h3
    · cases h2
  have hlt : ∀ i j, i < j → j < u.length → kf u i < kf u j := by
    intro i j hij hj
    rw [kf_of_lt (by omega), kf_of_lt (by omega)]
    exact List.pairwise_iff_getElem.mp hu i j _ _ hij
  have hknot : ∀ j, j < u.length → kf k (j + 1) = kf u j := by
    intro j hj
    have hs : k[j + 1]? = some (kf u j) := by
      rcases Nat.eq_zero_or_pos j with rfl | h1
      · rw [hk0 1 le_rfl, kf_getElem? (by omega)]
      · rcases Nat.lt_or_ge j (u.length - 1) with h2 | h2
        · have := hk2 j h1 h2
          rw [Nat.add_comm 1 j] at this
          rw [this]
          simp
        · rw [hk1 (j + 1) (by omega) (by omega), kf_getElem? (by omega), show u.length - 1 = j by omega]
    exact (kf_of_some hs).2
  have hbig : c.BigOk eps := Or.inl (by rw [hd]; decide)
  -- the value on a span
  have hspan : ∀ t, c.b0 ≤ t → t ≤ c.b1 → ∃ i, i + 1 < u.length ∧ kf u i ≤ t ∧ t ≤ kf u (i + 1) ∧
      (t < kf u (i + 1) ∨ t = kf u (u.length - 1)) ∧ ∀ junk', c.value eps junk' t = .ok ((kf u (i + 1) - t) / (kf u (i + 1) - kf u i) * pf c.poles i +
        (t - kf u i) / (kf u (i + 1) - kf u i) * pf c.poles (i + 1)) := by
    intro t h1 h2
    obtain ⟨i, -, hin, hdi, hip, hvv⟩ := Curve.value_span heps hg hbig h1 h2
    rw [hd] at hdi
    rw [hlP, hl] at hip
    obtain ⟨j, rfl⟩ : ∃ j, i = j + 1 := ⟨i - 1, by omega⟩
    have hin' := hin
    obtain ⟨b1, b2, b3⟩ := InSpan_bounds hin
    rw [hck] at b1 b2 b3
    rw [hknot j (by omega)] at b1 b3
    rw [hknot (j + 1) hip] at b2 b3
    refine ⟨j, hip, b1, b2, ?_, ?_⟩
    · unfold Spec.InSpan at hin'
      rw [hck, hlP, hl, show u.length = (u.length - 1) + 1 by omega, hknot (u.length - 1) (by omega)] at hin'
      split at hin'
      · rename_i h; exact Or.inr (by rw [show u.length = (u.length - 1) + 1 by omega] at h ⊢; simpa using h)
      · rw [hknot (j + 1) hip] at hin'; exact Or.inl hin'.2
    · intro junk'
      rw [hvv junk' 0, hd, spanDer_window _ (by omega) (by rw [hlP, hl]; exact hip)]
      have hne : kf u (j + 1) - kf u j ≠ 0 := by linarith
      rw [Finset.sum_range_succ, Finset.sum_range_one]
      simp only [Polynomial.derivative, Bp_eval, Function.iterate_zero, id_eq, B, Nat.add_sub_cancel, Nat.add_zero, smul_eq_mul]
      rw [hck, show j + 0 + 2 = (j + 1) + 1 by omega, hknot j (by omega), hknot (j + 1) hip]
      simp
  have hpole : ∀ j, j < u.length → pf c.poles j = kf Q j := by
    intro j hj
    have m0 : c.b0 ≤ kf u j := by
      rw [hb0]; exact kf_mono (hu.imp le_of_lt) (Nat.zero_le j)
    have m1 : kf u j ≤ c.b1 := by
      rw [hb1]; exact kf_mono (hu.imp le_of_lt) (by omega)
    obtain ⟨i, hi, h1, h2, h3, h4⟩ := hspan (kf u j) m0 m1
    have h5 := h4 junk
    rw [hval j hj junk, Except.ok.injEq] at h5
    have hne : kf u (i + 1) - kf u i ≠ 0 := by have := hlt i (i + 1) (by omega) hi; linarith
    rw [h5]
    have hij : i ≤ j := by
      by_contra hc
      have := hlt j i (by omega) (by omega)
      linarith
    rcases h3 with h3 | h3
    · have : j = i := by
        rcases Nat.lt_or_ge i j with h | h
        · have := kf_mono (hu.imp le_of_lt) (show i + 1 ≤ j from h)
          linarith
        · omega
      subst this
      rw [div_self hne, sub_self, zero_div, one_mul, zero_mul, add_zero]
    · have hjl : j = u.length - 1 := by
        by_contra hc
        have := hlt j (u.length - 1) (by omega) (by omega)
        linarith
      have : i + 1 = j := by
        by_contra hc
        have := hlt (i + 1) j (by omega) (by omega)
        linarith
      rw [← this, sub_self, zero_div, div_self hne, one_mul, zero_mul, zero_add]
  intro lo hi hq t h1 h2
  obtain ⟨i, hi', h3, h4, -, h6⟩ := hspan t (by rw [hb0]; exact h1) (by rw [hb1]; exact h2)
  refine ⟨_, ?_, ?_, h6⟩
  all_goals
    rw [hpole i (by omega), hpole (i + 1) hi']
    have hq1 := hq (kf Q i) (List.mem_of_getElem? (kf_getElem? (show i < Q.length by omega)))
    have hq2 := hq (kf Q (i + 1)) (List.mem_of_getElem? (kf_getElem? (show i + 1 < Q.length by omega)))
    have hpos : 0 < kf u (i + 1) - kf u i := by have := hlt i (i + 1) (by omega) hi'; linarith
    rw [div_mul_eq_mul_div, div_mul_eq_mul_div, ← add_div]
    first
      | rw [le_div_iff₀ hpos]; nlinarith [mul_le_mul_of_nonneg_left hq1.1 (show 0 ≤ kf u (i + 1) - t by linarith), mul_le_mul_of_nonneg_left hq2.1 (show 0 ≤ t - kf u i by linarith)]
      | rw [div_le_iff₀ hpos]; nlinarith [mul_le_mul_of_nonneg_left hq1.2 (show 0 ≤ kf u (i + 1) - t by linarith), mul_le_mul_of_nonneg_left hq2.2 (show 0 ≤ t - kf u i by linarith)]

end Gbs
