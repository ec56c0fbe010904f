import Verif.Lemmas.Mult
import Verif.Lemmas.DerivCurve
import Verif.Model.Trim

/-! # Trimming keeps the curve -/

namespace Gbs

set_option linter.unusedSectionVars false

variable {K : Type} [Field K] [LinearOrder K] [IsStrictOrderedRing K]
variable {V : Type} [AddCommGroup V] [Module K V]

theorem pf_drop (P : List V) (a i : ℕ) : pf (P.drop a) i = pf P (i + a) := by
  unfold pf
  rw [List.getD_eq_getElem?_getD, List.getD_eq_getElem?_getD, List.getElem?_drop, Nat.add_comm]

theorem pf_take (P : List V) {a i : ℕ} (h : i < a) : pf (P.take a) i = pf P i := by
  unfold pf
  rw [List.getD_eq_getElem?_getD, List.getD_eq_getElem?_getD, List.getElem?_take, if_pos h]

/-- Knots after dropping the first `a+1` ones and repeating the new first one. -/
theorem kf_cons_drop {U : List K} {g : K} {a j : ℕ} (hj : 1 ≤ j) (ha : a + 1 < U.length) :
    kf (g :: U.drop (a+1)) j = kf U (j + a) := by
  rcases Nat.lt_or_ge (j + a) U.length with h | h
  · rw [kf_of_lt h, kf_of_lt (by simp; omega)]
    obtain ⟨j, rfl⟩ : ∃ i, j = i + 1 := ⟨j - 1, by omega⟩
    simp only [List.getElem_cons_succ, List.getElem_drop]
    congr 1
    omega
  · rw [kf_of_ge h, kf_of_ge (by simp; omega)]
    have hne : U ≠ [] := by intro h0; rw [h0] at ha; simp at ha
    have hne2 : U.drop (a+1) ≠ [] := by
      intro h0; have := congrArg List.length h0; simp at this; omega
    rw [List.getLastD_eq_getLast?, List.getLastD_eq_getLast?, List.getLast?_cons, 
      List.getLast?_drop, if_neg (by omega), List.getLast?_eq_some_getLast hne]
    simp

theorem trimBegin_spec {eps : K} (heps : 0 < eps) {p : ℕ} {U : List K} {P : List V} (h : Wf p U P) {u : K} (hp : 1 ≤ p)
    (hcl : kf U 0 = kf U p) (h1 : kf U p + eps ≤ u) (h2 : u < kf U P.length) (hm : multOf U u ≤ p) :
    ∃ U' P', trimBegin eps p U P u = .ok (U', P') ∧ Wf p U' P' ∧ kf U' 0 = u ∧ kf U' p = u ∧
      kf U' P'.length = kf U P.length ∧ SameMap p U' P' p U P ∧
      (∀ x ∈ U', x ∈ u :: U) ∧ kLast U' = kLast U ∧ (∀ v, u < v → multOf U' v = multOf U v) := by
  have hlen := h.len
  have h1' : kf U p < u := by linarith
  obtain ⟨idx, U1, P1, e, hw, d0, d1, hS, hmu, hmem, hf, hlast, hcnt⟩ := insertKnots_full_same h hp h1' h2
  have hmu' : multOf U1 u = p := by omega
  have hm1 := kf_mono hw.sorted
  have hlu := lowerBound_le_upperBound U1 u
  have hul := upperBound_le U1 u
  have hlen1 := hw.len
  have hmin1 := hw.min
  unfold multOf at hmu'
  obtain ⟨a, ha⟩ : ∃ a, lowerBound U1 u = a + 1 := by
    refine ⟨lowerBound U1 u - 1, ?_⟩
    have : lowerBound U1 u ≠ 0 := by
      intro h0
      have := le_kf_lowerBound (U := U1) (u := u) (by omega)
      rw [h0, hf, hcl] at this
      exact absurd h1' (not_lt.mpr this)
    omega
  have hub : upperBound U1 u = a + 1 + p := by omega
  have hku : ∀ j, a + 1 ≤ j → j < a + 1 + p → kf U1 j = u := fun j q1 q2 => kf_of_mult hw.sorted (by omega) (by omega)
  have han : a + 1 + p ≤ P1.length := by
    by_contra hc
    have := hku (a + p) (by omega) (by omega)
    have h3 := hm1 (show P1.length ≤ a + p by omega)
    rw [this, d1] at h3
    exact absurd h2 (not_lt.mpr h3)
  have hub2 : u < kf U1 (a + 1 + p) := by
    rw [← hub]; exact lt_kf_upperBound (by omega)
  have hkk : ∀ j, 1 ≤ j → kf (u :: U1.drop (a+1)) j = kf U1 (j + a) := fun j hj => kf_cons_drop hj (by omega)
  have hU' : (u :: U1.drop (a+1)).Pairwise (· ≤ ·) := by
    rw [List.pairwise_cons]
    refine ⟨?_, hw.sorted.sublist (List.drop_sublist _ _)⟩
    intro x hx
    obtain ⟨i, hi, rfl⟩ := List.mem_drop_iff_getElem.mp hx
    have := hm1 (show a + 1 ≤ a + 1 + i by omega)
    rw [hku (a+1) (by omega) (by omega), kf_of_lt (i := a + 1 + i) (by omega)] at this
    exact this
  have hlenD : (P1.drop a).length = P1.length - a := by simp
  have hend : kf (u :: U1.drop (a+1)) (P1.drop a).length = kf U P.length := by
    rw [hlenD, hkk _ (by omega), ← d1]
    congr 1
    omega
  have hdom : kf (u :: U1.drop (a+1)) p = u := by
    rw [hkk p hp]; exact hku _ (by omega) (by omega)
  have hw' : Wf p (u :: U1.drop (a+1)) (P1.drop a) := by
    refine ⟨hU', ?_, ?_, ?_, ?_⟩
    · simp; omega
    · simp; omega
    · rw [hdom, hkk _ (by omega), show p + 1 + a = a + 1 + p by omega]; exact hub2
    · rw [hend, hlenD, hkk _ (by omega), ← d1, show P1.length - a - 1 + a = P1.length - 1 by omega]
      exact hw.last
  refine ⟨u :: U1.drop (a+1), P1.drop a, ?_, hw', ?_, hdom, hend, ?_, ?_, ?_, ?_⟩
  · unfold trimBegin
    rw [rd_kf (by omega), R_bind_ok, if_neg (by rw [hcl]; linarith), e]
    simp only [R_bind_ok]
    rw [ha, rd_kf (by simp; omega), R_bind_ok, usub_ok (by omega), R_bind_ok, if_neg (by omega)]
    have : kf (U1.drop (a+1)) 0 = u := by
      rw [kf_of_lt (by simp; omega)]
      simp only [List.getElem_drop]
      have := hku (a+1) (by omega) (by omega)
      rw [kf_of_lt (by omega)] at this
      exact this
    rw [this]
    rfl
  · rw [kf_of_lt (by simp)]; rfl
  · intro v hv1 hv2
    rw [hdom] at hv1
    rw [hend] at hv2
    have hsame : SameAt p U P p U1 P1 v := hS.at (by linarith) hv2
    refine SameAt.trans ?_ hsame.symm
    obtain ⟨k', -, c1, c2, c3, c4, -⟩ := findSpan_wf hw' v
    have hin := c4 (by rw [hdom]; exact hv1) (by rw [hend]; exact hv2)
    have hin1 : Spec.InSpan (kf U1) (kf U1 P1.length) (k' + a) v := by
      unfold Spec.InSpan at hin ⊢
      rw [hend, hkk k' (by omega), hkk (k'+1) (by omega)] at hin
      rw [d1, show k' + a + 1 = k' + 1 + a by omega]
      exact hin
    refine sameAt_of_bl hw' hw (by rw [hdom]; exact hv1) (by rw [hend]; exact hv2) (by rw [d0]; linarith)
      (by rw [d1]; exact hv2) hin hin1 ?_
    intro xs hx
    apply bl_window hm1 (kf_mono hU') (n' := (P1.drop a).length) (p := p) (fun j q1 _ => hkk j q1)
      (fun i _ => pf_drop _ _ _) c1 c2 _ c3 xs hx
    exact (InSpan_bounds hin1).2.2
  · intro x hx
    rcases List.mem_cons.mp hx with rfl | hx
    · exact List.mem_cons_self
    · exact hmem x (List.mem_of_mem_drop hx)
  · rw [← hlast]
    unfold kLast
    rw [show (u :: U1.drop (a+1)).length - 1 = U1.length - (a + 1) by simp, hkk _ (by omega)]
    congr 1
    omega
  · intro v hv
    rw [← count_eq_multOf hU', ← count_eq_multOf h.sorted, ← hcnt v hv.ne', List.count_cons,
      if_neg (by simpa using hv.ne)]
    conv_rhs => rw [← List.take_append_drop (a+1) U1, List.count_append]
    have : (U1.take (a+1)).count v = 0 := by
      rw [List.count_eq_zero]
      intro hx
      obtain ⟨i, hi, hx⟩ := List.mem_take_iff_getElem.mp hx
      have := kf_lt_of_lt_lowerBound (U := U1) (u := u) (j := i) (by omega)
      rw [kf_of_lt (by omega), hx] at this
      exact lt_asymm hv this
    omega

theorem kf_take_append {U : List K} {g : K} {m j : ℕ} (hm : m ≤ U.length) (hj : j < m) :
    kf (U.take m ++ [g]) j = kf U j := by
  rw [kf_of_lt (by simp; omega), kf_of_lt (by omega), List.getElem_append_left (by simp; omega), List.getElem_take]

theorem kf_take_append_last {U : List K} {g : K} {m j : ℕ} (hm : m ≤ U.length) (hj : m ≤ j) :
    kf (U.take m ++ [g]) j = g := by
  have hl : (U.take m ++ [g]).length = m + 1 := by simp; omega
  rw [kf_last (by simp) (by omega), hl, kf_of_lt (by simp; omega), List.getElem_append_right (by simp)]
  simp

theorem trimEnd_spec {eps : K} (heps : 0 < eps) {p : ℕ} {U : List K} {P : List V} (h : Wf p U P) {u : K} (hp : 1 ≤ p)
    (hcl : kLast U = kf U P.length) (h1 : kf U p < u) (h2 : u + eps ≤ kf U P.length) :
    ∃ U' P', trimEnd eps p U P u = .ok (U', P') ∧ Wf p U' P' ∧ kf U' 0 = kf U 0 ∧ kf U' p = kf U p ∧
      kf U' P'.length = u ∧ kLast U' = u ∧ (∀ v, kf U p ≤ v → v < u → SameAt p U' P' p U P v) ∧
      (∃ i i', findSpan P'.length p u U' = .ok i ∧ findSpan P.length p u U = .ok i' ∧ ∀ d, d + multOf U u ≤ p →
        spanDer (kf U') P'.length p i (pf P') d u = spanDer (kf U) P.length p i' (pf P) d u) ∧
      (∀ x ∈ U', x ∈ u :: U) := by
  have hlen := h.len
  have h2' : u < kf U P.length := by linarith
  obtain ⟨idx, U1, P1, e, hw, d0, d1, hS, hmu, hmem, hf, hlast, hcnt⟩ := insertKnots_full_same h hp h1 h2'
  have hmu' : p ≤ multOf U1 u := by omega
  have hm1 := kf_mono hw.sorted
  have hlu := lowerBound_le_upperBound U1 u
  have hul := upperBound_le U1 u
  have hlen1 := hw.len
  have hmin1 := hw.min
  unfold multOf at hmu'
  obtain ⟨q, hq⟩ : ∃ q, lowerBound U1 u = q := ⟨_, rfl⟩
  have hku : ∀ j, q ≤ j → j < q + p → kf U1 j = u := fun j q1 q2 => kf_of_mult hw.sorted (by omega) (by omega)
  have hlt : ∀ j, j < q → kf U1 j < u := fun j q1 => kf_lt_of_lt_lowerBound (by omega)
  have hpq : p < q := by
    by_contra hc
    have := hm1 (show q ≤ p by omega)
    rw [hku q le_rfl (by omega), d0] at this
    exact absurd h1 (not_lt.mpr this)
  have hqn : q + p ≤ P1.length := by
    by_contra hc
    have h3 := hm1 (show P1.length ≤ q + p - 1 by omega)
    rw [hku (q+p-1) (by omega) (by omega), d1] at h3
    exact absurd h2' (not_lt.mpr h3)
  have hkk : ∀ j, j < q + p → kf (U1.take (q+p) ++ [u]) j = kf U1 j := fun j hj => kf_take_append (by omega) hj
  have hkl : ∀ j, q ≤ j → kf (U1.take (q+p) ++ [u]) j = u := by
    intro j hj
    rcases Nat.lt_or_ge j (q+p) with h3 | h3
    · rw [hkk j h3, hku j hj h3]
    · exact kf_take_append_last (by omega) h3
  have hU' : (U1.take (q+p) ++ [u]).Pairwise (· ≤ ·) := by
    rw [List.pairwise_append]
    refine ⟨hw.sorted.sublist (List.take_sublist _ _), List.pairwise_singleton _ _, ?_⟩
    intro x hx y hy
    rw [List.mem_singleton] at hy
    subst hy
    obtain ⟨i, hi, rfl⟩ := List.mem_take_iff_getElem.mp hx
    rw [← kf_of_lt]
    exact kf_le_of_lt_upperBound (by omega)
  have hlenD : (P1.take q).length = q := by simp; omega
  have hdom : kf (U1.take (q+p) ++ [u]) p = kf U p := by rw [hkk p (by omega), d0]
  have hend : kf (U1.take (q+p) ++ [u]) (P1.take q).length = u := by rw [hlenD]; exact hkl q le_rfl
  have hw' : Wf p (U1.take (q+p) ++ [u]) (P1.take q) := by
    refine ⟨hU', ?_, ?_, ?_, ?_⟩
    · simp; omega
    · simp; omega
    · rw [hdom, ← d0, hkk _ (by omega)]; exact hw.first
    · rw [hend, hlenD, hkk _ (by omega)]; exact hlt _ (by omega)
  have hspan : ∀ k', p ≤ k' → k' < q → kf (U1.take (q+p) ++ [u]) k' < kf (U1.take (q+p) ++ [u]) (k'+1) →
      ∀ xs : List K, xs.length = p → bl (kf (U1.take (q+p) ++ [u])) k' (pf (P1.take q)) xs = bl (kf U1) k' (pf P1) xs := by
    intro k' c1 c2 c3 xs hx
    refine bl_window (a := 0) hm1 (kf_mono hU') (n' := q) (p := p) (fun j q1 q2 => hkk j q2)
      (fun i hi => pf_take _ hi) c1 c2 ?_ c3 xs hx
    rw [← hkk (k' + 0) (by omega), ← hkk (k'+0+1) (by omega)]
    exact c3
  have hbelow : ∀ v, kf U p ≤ v → v < u → SameAt p (U1.take (q+p) ++ [u]) (P1.take q) p U P v := by
    intro v hv1 hv2
    have hsame : SameAt p U P p U1 P1 v := hS.at hv1 (by linarith)
    refine SameAt.trans ?_ hsame.symm
    obtain ⟨k', -, c1, c2, c3, c4, -⟩ := findSpan_wf hw' v
    rw [hlenD] at c2
    have hin := c4 (by rw [hdom]; exact hv1) (by rw [hend]; exact hv2.le)
    have hin1 : Spec.InSpan (kf U1) (kf U1 P1.length) k' v := by
      unfold Spec.InSpan at hin ⊢
      rw [hend, if_neg hv2.ne, hkk k' (by omega), hkk (k'+1) (by omega)] at hin
      rw [if_neg (by rw [d1]; intro h3; linarith)]
      exact hin
    exact sameAt_of_bl hw' hw (by rw [hdom]; exact hv1) (by rw [hend]; exact hv2.le) (by rw [d0]; exact hv1)
      (by rw [d1]; linarith) hin hin1 (hspan k' c1 c2 c3)
  refine ⟨U1.take (q+p) ++ [u], P1.take q, ?_, hw', ?_, hdom, hend, ?_, hbelow, ?_, ?_⟩
  · unfold trimEnd
    rw [usub_ok (by omega), R_bind_ok, rd_kf (by omega), R_bind_ok, if_neg]
    · rw [e]
      simp only [R_bind_ok]
      rw [hq, if_neg (by omega), usub_ok (by simp; omega), R_bind_ok, rd_kf (by simp; omega), R_bind_ok, if_neg (by omega)]
      have : kf (U1.take (q+p)) ((U1.take (q+p)).length - 1) = u := by
        have hl : (U1.take (q+p)).length = q + p := by simp; omega
        rw [hl, kf_of_lt (by omega), List.getElem_take]
        have := hku (q+p-1) (by omega) (by omega)
        rw [kf_of_lt (by omega)] at this
        exact this
      rw [this]
      rfl
    · unfold kLast at hcl
      rw [hcl]; linarith
  · rw [hkk 0 (by omega), hf]
  · unfold kLast
    apply hkl
    simp; omega
  · obtain ⟨i, g1, c1, c2, c3, c4, -⟩ := findSpan_wf hw' u
    obtain ⟨i', f1, c1', c2', c3', c4', -⟩ := findSpan_wf h u
    refine ⟨i, i', g1, f1, ?_⟩
    intro d hd
    have hin := c4 (by rw [hdom]; exact h1.le) hend.ge
    have hin' := c4' h1.le h2'.le
    have hm := kf_mono h.sorted
    have hlu0 := lowerBound_le_upperBound U u
    have hul0 := upperBound_le U u
    have hpl : p < lowerBound U u := by
      by_contra hc
      have h3 := le_kf_lowerBound (U := U) (u := u) (by omega)
      have := hm (show lowerBound U u ≤ p by omega)
      linarith
    have hub : upperBound U u < U.length := by
      by_contra hc
      have h3 := kf_le_of_lt_upperBound (U := U) (u := u) (j := P.length) (by omega)
      linarith
    have hi' : i' = upperBound U u - 1 := by
      apply InSpan_unique hm hin'
      unfold Spec.InSpan
      rw [if_neg h2'.ne, show upperBound U u - 1 + 1 = upperBound U u by omega]
      exact ⟨kf_le_of_lt_upperBound (by omega), lt_kf_upperBound hub⟩
    obtain ⟨k, hk⟩ : ∃ k, k = lowerBound U u - 1 := ⟨_, rfl⟩
    have k1 : kf U k < u := kf_lt_of_lt_lowerBound (by omega)
    have k2 : u ≤ kf U (k+1) := by
      rw [show k + 1 = lowerBound U u by omega]
      exact le_kf_lowerBound (by omega)
    have i1 : kf (U1.take (q+p) ++ [u]) i < u ∧ kf (U1.take (q+p) ++ [u]) (i+1) = u := by
      unfold Spec.InSpan at hin
      rw [hend, if_pos rfl] at hin
      exact hin
    rw [spanDer_congr_Ioo (a := max (kf (U1.take (q+p) ++ [u]) i) (kf U k)) (b := u) (max_lt i1.1 k1)
      (t' := kf U) (n' := P.length) (p' := p) (k' := k) (c' := pf P)]
    · apply spanDer_adjacent d hm (lt_of_lt_of_le k1 k2) c3'
      · omega
      · intro j hj1 hj2
        exact kf_of_mult h.sorted (by omega) (by omega)
      · unfold multOf at hd
        omega
      · omega
      · exact c2'
    · intro v hv1 hv2
      obtain ⟨g2, g3⟩ := max_lt_iff.mp hv1
      have hkp := hm (show p ≤ k by omega)
      obtain ⟨x, y, e1, e2, e3⟩ := hbelow v (by linarith) hv2
      obtain ⟨x', e1', -, -, -, w1, -⟩ := findSpan_wf hw' v
      obtain ⟨y', e2', -, -, -, w2, -⟩ := findSpan_wf h v
      obtain rfl : x' = x := by rw [e1'] at e1; exact Except.ok.inj e1
      obtain rfl : y' = y := by rw [e2'] at e2; exact Except.ok.inj e2
      have hx : x' = i := by
        apply InSpan_unique (kf_mono hU') (w1 (by rw [hdom]; linarith) (by rw [hend]; exact hv2.le))
        unfold Spec.InSpan
        rw [hend, if_neg hv2.ne, i1.2]
        exact ⟨g2.le, hv2⟩
      have hy : y' = k := by
        apply InSpan_unique hm (w2 (by linarith) (by linarith))
        unfold Spec.InSpan
        rw [if_neg (by intro h3; linarith)]
        exact ⟨g3.le, by linarith⟩
      subst hx hy
      exact e3 0
  · intro x hx
    rw [List.mem_append, List.mem_singleton] at hx
    rcases hx with hx | rfl
    · exact hmem x (List.mem_of_mem_take hx)
    · exact List.mem_cons_self

end Gbs
