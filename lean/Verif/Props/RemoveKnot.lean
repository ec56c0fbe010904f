import Verif.Lemmas.RemoveKnot
import Verif.Lemmas.Unique
import Verif.Lemmas.Mult
import Verif.Lemmas.OkInv
import Verif.Props.Insertion

/-! # C49: knot removal -/

namespace Gbs

set_option linter.unusedSectionVars false

variable {K : Type} [Field K] [LinearOrder K] [IsStrictOrderedRing K]
variable {V : Type} [AddCommGroup V] [Module K V]

theorem upperBound_eq {U : List K} (hU : U.Pairwise (· ≤ ·)) {u : K} {r : ℕ} (h1 : kf U r ≤ u) (h2 : u < kf U (r + 1)) (hr : r + 1 < U.length) :
    upperBound U u = r + 1 := by
  have hm := kf_mono hU
  rcases Nat.lt_trichotomy (upperBound U u) (r + 1) with h | h | h
  · have a := lt_kf_upperBound (U := U) (u := u) (by omega)
    have b := hm (show upperBound U u ≤ r by omega)
    exact absurd (lt_of_lt_of_le a b) (not_lt.mpr h1)
  · exact h
  · exact absurd h2 (not_lt.mpr (kf_le_of_lt_upperBound h))

theorem lowerBound_eq {U : List K} (hU : U.Pairwise (· ≤ ·)) {u : K} {r : ℕ} (h1 : kf U r < u) (h2 : u ≤ kf U (r + 1)) (hr : r + 1 < U.length) :
    lowerBound U u = r + 1 := by
  have hm := kf_mono hU
  rcases Nat.lt_trichotomy (lowerBound U u) (r + 1) with h | h | h
  · have a := le_kf_lowerBound (U := U) (u := u) (by omega)
    have b := hm (show lowerBound U u ≤ r by omega)
    exact absurd (le_trans a b) (not_le.mpr h1)
  · exact h
  · exact absurd h2 (not_le.mpr (kf_lt_of_lt_lowerBound h))

/-- What an insertion gives to a removal. -/
theorem insert_removable {p N : ℕ} {U₀ : List K} {P₀ : List V} {u : K} (hw : Wf p U₀ P₀) (h1 : kf U₀ p < u) (h2 : u < kf U₀ P₀.length)
    (hN : 1 ≤ N) (hs : multOf U₀ u + N ≤ p) {idx : ℤ} {U : List K} {P : List V}
    (hins : insertKnots u p N U₀ P₀ = .ok (idx, U, P)) :
    Wf p U P ∧ kf U p < u ∧ u < kf U P.length ∧ multOf U u = multOf U₀ u + N ∧ P.length = P₀.length + N ∧ remKnots U u N = U₀ ∧
    AgreeAt p (bl (kf U) (upperBound U u - 1 - multOf U u) (pf P)) (bl (kf U) (upperBound U u - 1) (pf P)) u (multOf U u - N) ∧
    ∀ i, i < P₀.length → remP (kf U) p (upperBound U u - 1) (multOf U u) (pf P) N i = pf P₀ i := by
  have hmin : N = min N (p - multOf U₀ u) := by omega
  obtain ⟨k, hk⟩ : ∃ k, k = upperBound U₀ u - 1 := ⟨_, rfl⟩
  obtain ⟨s₀, hs₀⟩ : ∃ s₀, s₀ = multOf U₀ u := ⟨_, rfl⟩
  obtain ⟨hI, Q, e, hl, q1, q2, q3⟩ := insertKnots_spec hw.sorted hw.len h1.le h2 hN (by omega) hk hmin
  obtain ⟨Q', e', -, hw', d0, d1, -, -⟩ := insertKnots_same hw h1 h2 hN (by omega) hk hmin
  rw [hins] at e e'
  obtain ⟨-, hU, rfl⟩ : idx = _ ∧ U = _ ∧ P = Q := by simpa using Except.ok.inj e
  obtain ⟨-, hU', rfl⟩ : idx = _ ∧ U = _ ∧ P = Q' := by simpa using Except.ok.inj e'
  rw [← hU'] at hw' d0 d1
  have hpk := hI.pk; have hkn := hI.kn; have hlen := hw.len; have hlen' := hw'.len
  rw [← hs₀] at hI q2 q3 hs
  have hkf : kf U = tIns (kf U₀) k N u := by rw [hU']; exact kf_insKnots (by omega)
  have hsk : s₀ + p ≤ k := by
    by_contra hc
    have := kf_mono hw.sorted (show k - s₀ ≤ p by omega)
    have hmul := hI.mult
    rcases Nat.eq_zero_or_pos s₀ with h0 | h0
    · omega
    · have := hmul p (by omega) hpk
      rw [this] at h1
      exact lt_irrefl _ h1
  have hub : upperBound U u = k + N + 1 := by
    apply upperBound_eq hw'.sorted
    · rw [hkf]; unfold tIns; rw [if_neg (by omega), if_pos le_rfl]
    · rw [hkf]; unfold tIns; rw [if_neg (by omega), if_neg (by omega), show k + N + 1 - N = k + 1 by omega]; exact hI.hi
    · omega
  have hlb : lowerBound U u = k - s₀ + 1 := by
    apply lowerBound_eq hw'.sorted
    · rw [hkf]; unfold tIns; rw [if_pos (by omega)]; exact hI.below
    · rw [hkf]; unfold tIns
      split
      · exact (hI.mult _ (by omega) (by omega)).ge
      · rw [if_pos (by omega)]
    · omega
  have hmu : multOf U u = s₀ + N := by unfold multOf; omega
  -- the spans around the knot
  have spanL : kf U (k - s₀) < kf U (k - s₀ + 1) := by
    have a := kf_lt_of_lt_lowerBound (U := U) (u := u) (j := k - s₀) (by omega)
    have b := le_kf_lowerBound (U := U) (u := u) (by omega)
    rw [hlb] at b
    exact lt_of_lt_of_le a b
  have spanR : kf U (k + N) < kf U (k + N + 1) := by
    have a := kf_le_of_lt_upperBound (U := U) (u := u) (j := k + N) (by omega)
    have b := lt_kf_upperBound (U := U) (u := u) (by omega)
    rw [hub] at b
    exact lt_of_le_of_lt a b
  have span0 : kf U₀ (k - s₀) < kf U₀ (k - s₀ + 1) := by
    rcases Nat.eq_zero_or_pos s₀ with h0 | h0
    · rw [h0, Nat.sub_zero]; exact hI.tk
    · rw [hI.mult (k - s₀ + 1) (by omega) (by omega)]; exact hI.below
  have bL : ∀ xs : List K, xs.length = p → bl (kf U) (k - s₀) (pf P) xs = bl (kf U₀) (k - s₀) (pf P₀) xs := by
    obtain ⟨m, m1, m2, m3, m4, m5, -, m6⟩ := insert_bl hI (Q := pf P) q1 q2 q3 (k' := k - s₀) (by rw [← hkf]; exact spanL) (by omega) (by omega)
    rw [← hkf] at m4 m5 m6
    have e0 : kf U (k - s₀) = kf U₀ (k - s₀) := by rw [hkf]; unfold tIns; rw [if_pos (by omega)]
    have : m = k - s₀ := by
      have hm := kf_mono hw.sorted
      rcases Nat.lt_trichotomy m (k - s₀) with hc | hc | hc
      · have a := hm (show m + 1 ≤ k - s₀ by omega)
        rw [← e0] at a
        exact absurd (lt_of_lt_of_le spanL (le_trans m5 a)) (lt_irrefl _)
      · exact hc
      · have a := hm (show k - s₀ + 1 ≤ m by omega)
        rw [e0] at m4
        exact absurd (lt_of_lt_of_le span0 (le_trans a m4)) (lt_irrefl _)
    rw [this] at m6
    exact m6
  have bR : ∀ xs : List K, xs.length = p → bl (kf U) (k + N) (pf P) xs = bl (kf U₀) k (pf P₀) xs := by
    obtain ⟨m, m1, m2, m3, m4, m5, -, m6⟩ := insert_bl hI (Q := pf P) q1 q2 q3 (k' := k + N) (by rw [← hkf]; exact spanR) (by omega) (by omega)
    rw [← hkf] at m4 m5 m6
    have e0 : kf U (k + N) = u := by rw [hkf]; unfold tIns; rw [if_neg (by omega), if_pos le_rfl]
    have e1 : kf U (k + N + 1) = kf U₀ (k + 1) := by
      rw [hkf]; unfold tIns; rw [if_neg (by omega), if_neg (by omega), show k + N + 1 - N = k + 1 by omega]
    have : m = k := by
      have hm := kf_mono hw.sorted
      rcases Nat.lt_trichotomy m k with hc | hc | hc
      · have a := hm (show m + 1 ≤ k by omega)
        have b := le_trans (le_trans m5 a) hI.lo
        rw [← e0] at b
        exact absurd (lt_of_lt_of_le spanR b) (lt_irrefl _)
      · exact hc
      · have a := hm (show k + 1 ≤ m by omega)
        rw [e0] at m4
        exact absurd (lt_of_lt_of_le hI.hi (le_trans a m4)) (lt_irrefl _)
    rw [this] at m6
    exact m6
  rw [hub, hmu, show k + N + 1 - 1 = k + N by omega, show k + N - (s₀ + N) = k - s₀ by omega, show s₀ + N - N = s₀ by omega]
  refine ⟨hw', by rw [d0]; exact h1, by rw [d1]; exact h2, by omega, hl, ?_, ?_, ?_⟩
  · unfold remKnots
    have hlA : (U₀.take (k + 1) ++ List.replicate N u).length = k + N + 1 := by simp; omega
    have e1 : U.drop (k + N + 1) = U₀.drop (k + 1) := by
      rw [hU, ← List.append_assoc, ← hlA, List.drop_left]
    have e2 : U.take (k + 1) = U₀.take (k + 1) := by
      rw [hU, List.take_append_of_le_length (by simp; omega), List.take_take, min_self]
    rw [hub, show k + N + 1 - N = k + 1 by omega, e1, e2, List.take_append_drop]
  · intro ys hy
    rw [bL _ (by simp; omega), bR _ (by simp; omega)]
    have e := bl_adjacent (kf_mono hw.sorted) span0 hI.tk (by omega) (pf P₀) ys p (by omega) (by omega)
    rw [show k - (k - s₀) = s₀ by omega, seg_const (u := u) (fun j hj => hI.mult _ (by omega) (by omega))] at e
    exact e
  · intro i hi
    have hR : RemOk (kf U) P.length p (k + N) (s₀ + N) u := by
      have := (remOk_of hw'.sorted hlen' (by rw [d0]; exact h1) (by rw [d1]; exact h2) (by omega) (by omega)).1
      rwa [hub, hmu, show k + N + 1 - 1 = k + N by omega] at this
    by_cases c1 : i + p + N < k + N
    · unfold remP
      rw [if_pos c1]; exact q1 i (by omega)
    · by_cases c2 : i + (s₀ + N) ≤ k + N
      · rw [remP_F hR _ (by omega) c2, show k + N - (s₀ + N) = k - s₀ by omega, bL _ (by simp)]
        rw [show tRem (kf U) (k + N) N = kf U₀ by
          funext j
          rw [hkf]
          unfold tRem tIns
          by_cases c : j + N ≤ k + N
          · rw [if_pos c, if_pos (by omega)]
          · rw [if_neg c, if_neg (by omega), if_neg (by omega), show j + N - N = j by omega]]
        exact bl_dual (kf_mono hw.sorted) span0 p _ i (by omega) (by omega) (by omega)
      · unfold remP
        rw [if_neg c1, if_neg c2, q2 (i + N) (by omega) (by omega), show i + N - N = i by omega]

theorem list_eq_of_pf {P Q : List V} (hl : P.length = Q.length) (h : ∀ i, i < P.length → pf P i = pf Q i) : P = Q := by
  apply List.ext_getElem?
  intro i
  rcases Nat.lt_or_ge i P.length with hi | hi
  · rw [pf_getElem? hi, pf_getElem? (by omega), h i hi]
  · rw [List.getElem?_eq_none hi, List.getElem?_eq_none (by omega)]

/-- C49: `remove_knot` undoes a knot insertion, exactly: the knots and the poles come back. -/
theorem C49_undo_insertion {eps : K} (heps : 0 ≤ eps) {p N : ℕ} {U₀ : List K} {P₀ : List V} {u : K} (hw : Wf p U₀ P₀)
    (h1 : kf U₀ p < u) (h2 : u < kf U₀ P₀.length) (hN : 1 ≤ N) (hs : U₀.count u + N ≤ p) {idx : ℤ} {U : List K} {P : List V}
    (hins : insertKnots u p N U₀ P₀ = .ok (idx, U, P)) :
    removeKnot eps u N U P p = .ok (U₀, P₀) := by
  rw [count_eq_multOf hw.sorted] at hs
  obtain ⟨hw', a1, a2, a3, a4, a5, a6, a7⟩ := insert_removable hw h1 h2 hN hs hins
  obtain ⟨-, Q, e, hl, hQ⟩ := removeKnot_spec heps hw'.sorted hw'.len a1 a2 hN (by omega) (by omega) rfl rfl a6
  rw [e, a5]
  congr 2
  apply list_eq_of_pf (by omega)
  intro i hi
  rw [hQ i (by omega), a7 i (by omega)]

/-- C49: so does the version with a tolerance, whatever the tolerance (the distance of a point to itself is accepted); it reports all the
removals. -/
theorem C49_undo_insertion_tol {eps : K} (heps : 0 ≤ eps) {near : V → V → Bool} (hn : ∀ x, near x x = true) {p N : ℕ} {U₀ : List K}
    {P₀ : List V} {u : K} (hw : Wf p U₀ P₀)
    (h1 : kf U₀ p < u) (h2 : u < kf U₀ P₀.length) (hN : 1 ≤ N) (hs : U₀.count u + N ≤ p) {idx : ℤ} {U : List K} {P : List V}
    (hins : insertKnots u p N U₀ P₀ = .ok (idx, U, P)) :
    removeKnotTol eps near u p N U P = .ok (N, U₀, P₀) := by
  rw [count_eq_multOf hw.sorted] at hs
  obtain ⟨hw', a1, a2, a3, a4, a5, a6, a7⟩ := insert_removable hw h1 h2 hN hs hins
  obtain ⟨-, Q, e, hl, hQ⟩ := removeKnotTol_spec heps hn hw'.sorted hw'.len a1 a2 hN (by omega) (by omega) rfl rfl a6
  rw [e, a5]
  congr 3
  apply list_eq_of_pf (by omega)
  intro i hi
  rw [hQ i (by omega), a7 i (by omega)]

/-- The hypotheses are met by the sample curve: the inserted knot is removed. -/
example : Wf Sample.c.deg Sample.c.knots Sample.c.poles ∧ kf Sample.c.knots 2 < 3/2 ∧ 3/2 < kf Sample.c.knots 5 ∧
    Sample.c.knots.count (3/2) + 1 ≤ 2 ∧ insertKnots (3/2) Sample.c.deg 1 Sample.c.knots Sample.c.poles =
      .ok (2, [0, 0, 0, 1, 3/2, 2, 3, 3, 3], [(0, 0), (1, 2), (5/2, 5/4), (13/4, 1/2), (4, -1), (6, 0)]) :=
  ⟨Sample.c_good.wf, by decide +kernel, by decide +kernel, by decide +kernel, by decide +kernel⟩

/-- C49: a removable knot is removed. If some poles `P₀` on the knots without `N` copies of `u` describe the same map, then `remove_knot`
returns exactly these knots and these poles, for any curve whose interior knots have multiplicity at most the degree. -/
theorem C49_removes {eps : K} (heps : 0 ≤ eps) {p N : ℕ} {U : List K} {P P₀ : List V} {u : K} (hw : Wf p U P)
    (h1 : kf U p < u) (h2 : u < kf U P.length) (hN : 1 ≤ N) (hNs : N ≤ U.count u)
    (hm : ∀ i, i < P.length → kf U i < kf U (i + p + 1)) (hc : U.count u ≤ p)
    (hw₀ : Wf p (remKnots U u N) P₀) (hS : SameMap p U P p (remKnots U u N) P₀) :
    removeKnot eps u N U P p = .ok (remKnots U u N, P₀) := by
  rw [count_eq_multOf hw.sorted] at hNs hc
  obtain ⟨hR, hub⟩ := remOk_of hw.sorted hw.len h1 h2 (by omega) hc
  have hps := hR.ps; have hrn := hR.rn; have hsp := hR.sp
  obtain ⟨r, hr⟩ : ∃ r, r = upperBound U u - 1 := ⟨_, rfl⟩
  obtain ⟨s, hs⟩ : ∃ s, s = multOf U u := ⟨_, rfl⟩
  rw [← hr, ← hs] at hR hps
  rw [← hr] at hrn
  rw [← hs] at hNs hc hsp
  have hlen := hw.len; have hmn := hw.min
  have hrk : remKnots U u N = U.take (r + 1 - N) ++ U.drop (r + 1) := by unfold remKnots; rw [show upperBound U u = r + 1 by omega]
  have hkf : kf (remKnots U u N) = tRem (kf U) r N := by rw [hrk]; exact kf_remKnots (by omega) (by omega)
  have hl0 : (remKnots U u N).length = U.length - N := by rw [hrk]; simp; omega
  have hlP : P₀.length = P.length - N := by have := hw₀.len; omega
  have b1 : kf (remKnots U u N) p < u := by
    rw [hkf]; unfold tRem; rw [if_pos (by omega)]; exact h1
  have b2 : u < kf (remKnots U u N) P₀.length := by
    rw [hkf, hlP]; unfold tRem; rw [if_neg (by omega), show P.length - N + N = P.length by omega]; exact h2
  have hub0 : upperBound (remKnots U u N) u = r - N + 1 := by
    apply upperBound_eq hw₀.sorted
    · rw [hkf]; unfold tRem; rw [if_pos (by omega)]
      exact le_trans (hR.mono (show r - N ≤ r by omega)) (hR.mult r (by omega) le_rfl).le
    · rw [hkf]; unfold tRem; rw [if_neg (by omega)]; exact hR.high (by omega)
    · omega
  have hlb0 : lowerBound (remKnots U u N) u = r - s + 1 := by
    apply lowerBound_eq hw₀.sorted
    · rw [hkf]; unfold tRem; rw [if_pos (by omega)]; exact hR.below
    · rw [hkf]; unfold tRem
      split
      · exact (hR.mult _ (by omega) (by omega)).ge
      · exact (hR.high (by omega)).le
    · omega
  have hmu0 : multOf (remKnots U u N) u = s - N := by unfold multOf; omega
  obtain ⟨Q, e, hQl, hwQ, d0, d1, hSQ, -⟩ := insertKnots_same hw₀ b1 b2 hN (by omega) (k := r - N) (by omega) (r' := N) (by omega)
  have hUins : insKnots (remKnots U u N) (r - N) N u = U := by
    have hk2 : kf (insKnots (remKnots U u N) (r - N) N u) = kf U := by
      rw [kf_insKnots (by omega), hkf, tIns_tRem hR hNs]
    have hl2 : (insKnots (remKnots U u N) (r - N) N u).length = U.length := by
      rw [insKnots_length (by omega)]; omega
    apply List.ext_getElem?
    intro i
    rcases Nat.lt_or_ge i U.length with hi | hi
    · rw [kf_getElem? (by omega), kf_getElem? hi, hk2]
    · rw [List.getElem?_eq_none (by omega), List.getElem?_eq_none hi]
  rw [hUins] at e hwQ d0 d1 hSQ
  have hPQ : P = Q := by
    refine SameMap.poles_eq hw hwQ (hS.trans hSQ ?_ ?_) hm
    · rw [hkf]; unfold tRem; rw [if_pos (by omega)]
    · rw [hkf, hlP]; unfold tRem; rw [if_neg (by omega), show P.length - N + N = P.length by omega]
  rw [← hPQ] at e
  exact C49_undo_insertion heps hw₀ b1 b2 hN (by rw [count_eq_multOf hw₀.sorted, hmu0]; omega) e

theorem remFinish_length {p r s t : ℕ} {U U' : List K} {A A' : List V} (h : remFinish p r s t U A = .ok (U', A')) :
    U'.length + t = U.length ∧ A'.length + t = A.length := by
  unfold remFinish at h
  obtain ⟨W, hW, h⟩ := R_bind_eq_ok.mp h
  obtain ⟨c, -, h⟩ := R_bind_eq_ok.mp h
  obtain ⟨ji, -, h⟩ := R_bind_eq_ok.mp h
  obtain ⟨jA, hjA, h⟩ := R_bind_eq_ok.mp h
  obtain ⟨nA, hnA, h⟩ := R_bind_eq_ok.mp h
  obtain ⟨nU, hnU, h⟩ := R_bind_eq_ok.mp h
  obtain ⟨a1, rfl⟩ := usub_eq_ok.mp hnA
  obtain ⟨a2, rfl⟩ := usub_eq_ok.mp hnU
  have e := R_pure_eq_ok.mp h
  have hWl := forLt_ok (fun W : List K => W.length = U.length) (by
    intro i s s' hb hs
    obtain ⟨d, -, hb⟩ := R_bind_eq_ok.mp hb
    obtain ⟨x, -, hb⟩ := R_bind_eq_ok.mp hb
    obtain ⟨-, rfl⟩ := wr_eq_ok.mp hb
    simpa using hs) hW rfl
  have hAl := forLt_ok (fun W : ℕ × List V => W.2.length = A.length) (by
    intro i s s' hb hs
    obtain ⟨x, -, hb⟩ := R_bind_eq_ok.mp hb
    obtain ⟨y, hy, hb⟩ := R_bind_eq_ok.mp hb
    obtain ⟨-, rfl⟩ := wr_eq_ok.mp hy
    obtain rfl := R_pure_eq_ok.mp hb
    simpa using hs) hjA rfl
  rw [Prod.mk.injEq] at e
  obtain ⟨rfl, rfl⟩ := e
  beta_reduce at hWl hAl
  simp only [List.length_take]
  omega

theorem remCommit_length {temp : List V} {t off : ℕ} : ∀ (j i : ℕ) (A A' : List V), remCommit temp t off j i A = .ok A' → A'.length = A.length := by
  intro j
  induction j with
  | zero => intro i A A' h; cases h; rfl
  | succ j ih =>
    intro i A A' h
    unfold remCommit at h
    split at h
    · obtain ⟨_, -, h⟩ := R_bind_eq_ok.mp h
      obtain ⟨_, -, h⟩ := R_bind_eq_ok.mp h
      obtain ⟨A1, h1, h⟩ := R_bind_eq_ok.mp h
      obtain ⟨_, -, h⟩ := R_bind_eq_ok.mp h
      obtain ⟨_, -, h⟩ := R_bind_eq_ok.mp h
      obtain ⟨A2, h2, h⟩ := R_bind_eq_ok.mp h
      obtain ⟨-, rfl⟩ := wr_eq_ok.mp h1
      obtain ⟨-, rfl⟩ := wr_eq_ok.mp h2
      rw [ih _ _ _ h]
      simp
    · obtain rfl := R_pure_eq_ok.mp h
      rfl

theorem remTolLoop_length {near : V → V → Bool} {u : K} {U : List K} {p r s : ℕ} : ∀ (n t : ℕ) (A temp : List V) (res : ℕ × List V),
    remTolLoop near u U p r s n t A temp = .ok res → res.2.length = A.length ∧ t ≤ res.1 ∧ (res.1 = t → res.2 = A) := by
  intro n
  induction n with
  | zero => intro t A temp res h; cases h; exact ⟨rfl, le_rfl, fun _ => rfl⟩
  | succ n ih =>
    intro t A temp res h
    unfold remTolLoop at h
    obtain ⟨⟨first, off, last, st⟩, -, h⟩ := R_bind_eq_ok.mp h
    simp only at h
    have fin : ∀ b : Bool, (if b = true then do
          let A ← remCommit st.temp t off last first A
          remTolLoop near u U p r s n (t + 1) A st.temp
        else pure (t, A)) = .ok res → res.2.length = A.length ∧ t ≤ res.1 ∧ (res.1 = t → res.2 = A) := by
      intro b hb
      split at hb
      · obtain ⟨A1, h1, hb⟩ := R_bind_eq_ok.mp hb
        obtain ⟨g1, g2, -⟩ := ih _ _ _ _ hb
        exact ⟨g1.trans (remCommit_length _ _ _ _ h1), by omega, fun e => by omega⟩
      · obtain rfl := R_pure_eq_ok.mp hb
        exact ⟨rfl, le_rfl, fun _ => rfl⟩
    split at h
    · obtain ⟨_, -, h⟩ := R_bind_eq_ok.mp h
      obtain ⟨_, -, h⟩ := R_bind_eq_ok.mp h
      obtain ⟨_, -, h⟩ := R_bind_eq_ok.mp h
      obtain ⟨b, -, h⟩ := R_bind_eq_ok.mp h
      exact fin b h
    · obtain ⟨_, -, h⟩ := R_bind_eq_ok.mp h
      obtain ⟨_, -, h⟩ := R_bind_eq_ok.mp h
      obtain ⟨_, -, h⟩ := R_bind_eq_ok.mp h
      obtain ⟨_, -, h⟩ := R_bind_eq_ok.mp h
      obtain ⟨_, -, h⟩ := R_bind_eq_ok.mp h
      obtain ⟨_, -, h⟩ := R_bind_eq_ok.mp h
      obtain ⟨_, -, h⟩ := R_bind_eq_ok.mp h
      obtain ⟨b, -, h⟩ := R_bind_eq_ok.mp h
      exact fin b h

/-- C49: whatever the curve, the knot and the tolerance, when `remove_knot` reports `t` removals there are `t` knots and `t` poles fewer, and
when it reports none the curve is unchanged. -/
theorem C49_counts {eps : K} {near : V → V → Bool} {u : K} {p num t : ℕ} {U U' : List K} {P P' : List V}
    (h : removeKnotTol eps near u p num U P = .ok (t, U', P')) :
    U'.length + t = U.length ∧ P'.length + t = P.length ∧ (t = 0 → U' = U ∧ P' = P) := by
  unfold removeKnotTol at h
  obtain ⟨r, -, h⟩ := R_bind_eq_ok.mp h
  obtain ⟨x, -, h⟩ := R_bind_eq_ok.mp h
  split at h
  · have := R_pure_eq_ok.mp h
    simp only [Prod.mk.injEq] at this
    obtain ⟨rfl, rfl, rfl⟩ := this
    exact ⟨rfl, rfl, fun _ => ⟨rfl, rfl⟩⟩
  · split at h
    · have := R_pure_eq_ok.mp h
      simp only [Prod.mk.injEq] at this
      obtain ⟨rfl, rfl, rfl⟩ := this
      exact ⟨rfl, rfl, fun _ => ⟨rfl, rfl⟩⟩
    · simp only at h
      obtain ⟨⟨t', A⟩, h1, h⟩ := R_bind_eq_ok.mp h
      obtain ⟨g1, -, g3⟩ := remTolLoop_length _ _ _ _ _ h1
      simp only at h g1 g3
      split at h
      · rename_i h0
        have := R_pure_eq_ok.mp h
        simp only [Prod.mk.injEq] at this
        obtain ⟨rfl, rfl, rfl⟩ := this
        exact ⟨rfl, g1, fun _ => ⟨rfl, g3 h0⟩⟩
      · rename_i h0
        obtain ⟨⟨U1, P1⟩, h2, h⟩ := R_bind_eq_ok.mp h
        have := R_pure_eq_ok.mp h
        simp only [Prod.mk.injEq] at this
        obtain ⟨rfl, rfl, rfl⟩ := this
        obtain ⟨f1, f2⟩ := remFinish_length h2
        exact ⟨f1, by omega, fun e => absurd e h0⟩

/-- C49, on a curve: a successful `removeKnot` keeps sizes consistent. -/
theorem C49_curve_counts {eps : K} {near : V → V → Bool} {u : K} {m : ℕ} {c c' : Curve K V} (h : c.removeKnot eps near u m = .ok c')
    (hc : c.knots.length = c.poles.length + c.deg + 1) :
    c'.knots.length = c'.poles.length + c'.deg + 1 ∧ c'.deg = c.deg ∧ c'.b0 = c.b0 ∧ c'.b1 = c.b1 := by
  unfold Curve.removeKnot at h
  obtain ⟨⟨t, U, P⟩, h1, h⟩ := R_bind_eq_ok.mp h
  obtain ⟨g1, g2, -⟩ := C49_counts h1
  obtain rfl := R_pure_eq_ok.mp h
  exact ⟨by simp only; omega, rfl, rfl, rfl⟩

/-! ### Asking for more removals than the multiplicity -/

/-- The loop does not stop at the multiplicity of the knot: on a straight line, asking for two removals of a simple knot writes past the end
of `temp`, although `m` is documented as a number of attempts. -/
theorem C49_num_above_multiplicity_witness :
    removeKnotTol (1 / 1000000 : ℚ) (fun a b : ℚ => decide (a = b)) 2 2 2 [0, 0, 0, 1, 2, 3, 4, 4, 4] [0, 1 / 2, 3 / 2, 5 / 2, 7 / 2, 4] =
      .error .oob := by decide +kernel

/-! ### The boolean overload -/

theorem rem1Loop_length {u : K} {U : List K} {A : List V} {p : ℕ} : ∀ (j i : ℕ) (Pi Pj : List V) (res : ℕ × ℕ × List V × List V),
    rem1Loop u U A p j i Pi Pj = .ok res → ∃ st, res.1 = i + st ∧ res.2.1 + st = j ∧ res.2.2.1.length = Pi.length + st ∧
      res.2.2.2.length = Pj.length + st ∧ ¬ (res.1 < res.2.1) ∧ (st = 0 ∨ i + 2 * st ≤ j + 1) := by
  intro j
  induction j with
  | zero => intro i Pi Pj res h; cases h; exact ⟨0, rfl, rfl, rfl, rfl, by simp, Or.inl rfl⟩
  | succ j ih =>
    intro i Pi Pj res h
    unfold rem1Loop at h
    split at h
    · rename_i hij
      obtain ⟨_, -, h⟩ := R_bind_eq_ok.mp h
      obtain ⟨_, -, h⟩ := R_bind_eq_ok.mp h
      obtain ⟨_, -, h⟩ := R_bind_eq_ok.mp h
      obtain ⟨_, -, h⟩ := R_bind_eq_ok.mp h
      obtain ⟨_, -, h⟩ := R_bind_eq_ok.mp h
      obtain ⟨_, -, h⟩ := R_bind_eq_ok.mp h
      obtain ⟨_, -, h⟩ := R_bind_eq_ok.mp h
      obtain ⟨_, -, h⟩ := R_bind_eq_ok.mp h
      obtain ⟨_, -, h⟩ := R_bind_eq_ok.mp h
      obtain ⟨_, -, h⟩ := R_bind_eq_ok.mp h
      obtain ⟨_, -, h⟩ := R_bind_eq_ok.mp h
      obtain ⟨_, -, h⟩ := R_bind_eq_ok.mp h
      obtain ⟨st, a1, a2, a3, a4, a5, a6⟩ := ih _ _ _ _ h
      refine ⟨st + 1, by omega, by omega, by rw [a3]; simp; omega, by rw [a4]; simp; omega, a5, Or.inr (by omega)⟩
    · obtain rfl := R_pure_eq_ok.mp h
      exact ⟨0, rfl, rfl, rfl, rfl, by omega, Or.inl rfl⟩

/-- C49 fails for the overload returning a boolean: whenever it reports a removal of a knot with `p - s` odd, the result has one knot fewer but
one pole more, so that it is not a spline any more. -/
theorem C49_boolean_overload_negative {eps : K} {near : V → V → Bool} {u : K} {p : ℕ} {U U' : List K} {P P' : List V}
    (hodd : (p - multOf U u) % 2 = 1) (hlen : U.length = P.length + p + 1)
    (h : removeKnot1 eps near u p U P = .ok (true, U', P')) :
    U'.length + 1 = U.length ∧ P'.length = P.length + 1 ∧ U'.length ≠ P'.length + p + 1 := by
  have hub := upperBound_le U u
  unfold removeKnot1 at h
  obtain ⟨r, hr, h⟩ := R_bind_eq_ok.mp h
  obtain ⟨r1, r2⟩ := usub_eq_ok.mp hr
  obtain ⟨x, -, h⟩ := R_bind_eq_ok.mp h
  split at h
  · cases h
  simp only at h
  obtain ⟨first, hf, h⟩ := R_bind_eq_ok.mp h
  obtain ⟨last, hl, h⟩ := R_bind_eq_ok.mp h
  obtain ⟨f1, hf1, h⟩ := R_bind_eq_ok.mp h
  obtain ⟨a, -, h⟩ := R_bind_eq_ok.mp h
  obtain ⟨b, hb, h⟩ := R_bind_eq_ok.mp h
  obtain ⟨⟨i, j, Pi, Pj⟩, hloop, h⟩ := R_bind_eq_ok.mp h
  have hb' : last + 1 < P.length := by
    have := rd_eq_ok.mp hb
    rw [List.getElem?_eq_some_iff] at this
    exact this.1
  obtain ⟨st, a1, a2, a3, a4, a5, a6⟩ := rem1Loop_length _ _ _ _ _ hloop
  obtain ⟨b1, b2⟩ := usub_eq_ok.mp hf
  obtain ⟨b3, b4⟩ := usub_eq_ok.mp hl
  have hmu : multOf U u = upperBound U u - lowerBound U u := rfl
  simp only [List.length_cons, List.length_nil] at a1 a2 a3 a4 a5 h
  have hji : j < i := by omega
  rw [if_pos hji] at h
  obtain ⟨x, -, h⟩ := R_bind_eq_ok.mp h
  obtain ⟨y, -, h⟩ := R_bind_eq_ok.mp h
  simp only [R_pure, R_bind_ok] at h
  split at h
  · cases h
  · rename_i Pi' Pj' heq
    split at heq
    · obtain ⟨rfl, rfl⟩ : Pi = Pi' ∧ Pj.tail = Pj' := by simpa using heq
      obtain ⟨-, rfl, rfl⟩ : true = true ∧ U.eraseIdx r = U' ∧ P.take first ++ Pi.reverse ++ Pj.tail ++ P.drop (last + 1) = P' := by
        simpa using h
      have e1 : (U.eraseIdx r).length = U.length - 1 := List.length_eraseIdx_of_lt (by omega)
      have e2 : (P.take first ++ Pi.reverse ++ Pj.tail ++ P.drop (last + 1)).length = P.length + 1 := by
        simp only [List.length_append, List.length_take, List.length_reverse, List.length_tail, List.length_drop]
        omega
      rw [e1, e2]
      omega
    · cases heq

/-- When `p - s` is even the sizes agree but the poles are wrong: removing the middle knot of a cubic straight line at constant speed gives
another speed. -/
theorem C49_boolean_overload_witness :
    removeKnot1 (1 / 1000000 : ℚ) (fun a b : ℚ => decide (a = b)) 2 3 [0, 0, 0, 0, 2, 4, 4, 4, 4] [0, 2 / 3, 2, 10 / 3, 4] =
      .ok (true, [0, 0, 0, 0, 4, 4, 4, 4], [0, 0, 4, 4]) ∧
    removeKnot (1 / 1000000 : ℚ) 2 1 [0, 0, 0, 0, 2, 4, 4, 4, 4] ([0, 2 / 3, 2, 10 / 3, 4] : List ℚ) 3 =
      .ok ([0, 0, 0, 0, 4, 4, 4, 4], [0, 4 / 3, 8 / 3, 4]) := by
  constructor <;> decide +kernel

/-- The hypothesis of the negative theorem is met, on a straight line. -/
example : removeKnot1 (1 / 1000000 : ℚ) (fun a b : ℚ => decide (|a - b| < 1)) 2 2 [0, 0, 0, 1, 2, 3, 4, 4, 4] [0, 1 / 2, 3 / 2, 5 / 2, 7 / 2, 4] =
    .ok (true, [0, 0, 0, 1, 3, 4, 4, 4], [0, 1 / 2, 1 / 2, 2, 7 / 2, 7 / 2, 4]) := by decide +kernel

end Gbs
