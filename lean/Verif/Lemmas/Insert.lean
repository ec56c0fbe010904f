import Verif.Lemmas.Copy
import Verif.Lemmas.InsertMath

/-! # Knot insertion: the code -/

namespace Gbs

set_option linter.unusedSectionVars false

variable {K : Type} [Field K] [LinearOrder K] [IsStrictOrderedRing K]
variable {V : Type} [AddCommGroup V] [Module K V]

theorem upperBound_le (U : List K) (u : K) : upperBound U u ≤ U.length := List.findIdx_le_length
theorem lowerBound_le (U : List K) (u : K) : lowerBound U u ≤ U.length := List.findIdx_le_length

theorem kf_le_of_lt_upperBound {U : List K} {u : K} {j : ℕ} (h : j < upperBound U u) : kf U j ≤ u := by
  have hl := upperBound_le U u
  have := List.not_of_lt_findIdx h
  simp at this
  rw [kf_of_lt (by omega)]
  exact this

theorem lt_kf_upperBound {U : List K} {u : K} (h : upperBound U u < U.length) : u < kf U (upperBound U u) := by
  rw [kf_of_lt h]
  have := List.findIdx_getElem (w := h)
  simp at this
  exact this

theorem kf_lt_of_lt_lowerBound {U : List K} {u : K} {j : ℕ} (h : j < lowerBound U u) : kf U j < u := by
  have hl := lowerBound_le U u
  have := List.not_of_lt_findIdx h
  simp at this
  rw [kf_of_lt (by omega)]
  exact this

theorem le_kf_lowerBound {U : List K} {u : K} (h : lowerBound U u < U.length) : u ≤ kf U (lowerBound U u) := by
  rw [kf_of_lt h]
  have := List.findIdx_getElem (w := h)
  simp at this
  exact this

theorem lowerBound_le_upperBound (U : List K) (u : K) : lowerBound U u ≤ upperBound U u := by
  by_contra hc
  have h1 : upperBound U u < lowerBound U u := by omega
  have h2 := kf_lt_of_lt_lowerBound h1
  have h3 := lt_kf_upperBound (lt_of_lt_of_le h1 (lowerBound_le U u))
  exact lt_asymm h2 h3

/-- The multiplicity computed by the code. -/
def multOf (U : List K) (u : K) : ℕ := upperBound U u - lowerBound U u

theorem insOk_of {U : List K} (hU : U.Pairwise (· ≤ ·)) {n p r : ℕ} {u : K} (hlen : U.length = n + p + 1)
    (h1 : kf U p ≤ u) (h2 : u < kf U n) (hr : 1 ≤ r) (hs : multOf U u + r ≤ p) :
    InsOk (kf U) n p (upperBound U u - 1) (multOf U u) r u ∧ 1 ≤ upperBound U u := by
  have hm := kf_mono hU
  have hlb := lowerBound_le_upperBound U u
  have hp : p < upperBound U u := by
    by_contra hc
    have a1 : upperBound U u < U.length := by omega
    have := lt_kf_upperBound a1
    have := hm (show upperBound U u ≤ p by omega)
    linarith
  have hn : upperBound U u ≤ n := by
    by_contra hc
    have := kf_le_of_lt_upperBound (U := U) (u := u) (j := n) (by omega)
    linarith
  have hl0 : 1 ≤ lowerBound U u := by
    unfold multOf at hs
    omega
  refine ⟨⟨hm, kf_le_of_lt_upperBound (by omega), ?_, by omega, by omega, hr, hs, ?_, ?_⟩, by omega⟩
  · rw [show upperBound U u - 1 + 1 = upperBound U u by omega]
    exact lt_kf_upperBound (by omega)
  · intro j g1 g2
    unfold multOf at g1
    apply le_antisymm
    · exact kf_le_of_lt_upperBound (by omega)
    · exact le_trans (le_kf_lowerBound (by omega)) (hm (show lowerBound U u ≤ j by omega))
  · apply kf_lt_of_lt_lowerBound
    unfold multOf
    omega

theorem seg_const {t : ℕ → K} {a n : ℕ} {u : K} (h : ∀ j, j < n → t (a + j) = u) :
    seg t a n = List.replicate n u := by
  rw [List.eq_replicate_iff]
  refine ⟨by simp, ?_⟩
  intro b hb
  simp only [seg, List.mem_map, List.mem_range'_1] at hb
  obtain ⟨x, ⟨hx1, hx2⟩, rfl⟩ := hb
  have := h (x - a) (by omega)
  rwa [show a + (x - a) = x by omega] at this

/-- Temporary poles of the insertion after `j` rounds. -/
def insG (t : ℕ → K) (p k : ℕ) (u : K) (c : ℕ → V) (j i : ℕ) : V :=
  bl t k c (List.replicate j u ++ seg t (k - p + j + i + 1) (p - j))

section
variable {t : ℕ → K} {n p k s r : ℕ} {u : K}

theorem insG_zero (h : InsOk t n p k s r u) (c : ℕ → V) {i : ℕ} (hi : i ≤ p) :
    insG t p k u c 0 i = c (k - p + i) := by
  have := h.pk
  unfold insG
  simp only [List.replicate_zero, List.nil_append, Nat.sub_zero, Nat.add_zero]
  exact bl_dual h.mono h.tk _ _ _ h.pk (by omega) (by omega)

theorem insG_step (h : InsOk t n p k s r u) (c : ℕ → V) {j i : ℕ} (hij : i + (j + 1) ≤ p) :
    t (k - p + (j+1) + i) < t (i + k + 1) ∧
    ((u - t (k - p + (j+1) + i)) / (t (i + k + 1) - t (k - p + (j+1) + i))) • insG t p k u c j (i+1) +
    (1 - (u - t (k - p + (j+1) + i)) / (t (i + k + 1) - t (k - p + (j+1) + i))) • insG t p k u c j i =
      insG t p k u c (j+1) i := by
  have hpk := h.pk
  have hab : t (k - p + (j+1) + i) < t (i + k + 1) :=
    lt_of_le_of_lt (h.mono (show k - p + (j+1) + i ≤ k by omega))
      (lt_of_lt_of_le h.tk (h.mono (by omega)))
  refine ⟨hab, ?_⟩
  have hne : t (i + k + 1) - t (k - p + (j+1) + i) ≠ 0 := (sub_pos.mpr hab).ne'
  set rest := List.replicate j u ++ seg t (k - p + (j+1) + i + 1) (p - (j+1)) with hrest
  have hB := bl_isBlossom h.mono h.tk hpk c
  obtain ⟨q, hq⟩ : ∃ q, p = q + 1 := ⟨p - 1, by omega⟩
  have hlen : rest.length = q := by simp [hrest]; omega
  have e1 : insG t p k u c (j+1) i = bl t k c (u :: rest) := by
    unfold insG
    rw [hrest, List.replicate_succ, List.cons_append]
  have e2 : insG t p k u c j (i+1) = bl t k c (t (i+k+1) :: rest) := by
    unfold insG
    apply hB.perm (by simp; omega)
    rw [show p - j = p - (j+1) + 1 by omega, seg_succ_last]
    rw [show k - p + j + (i+1) + 1 + (p - (j+1)) = i + k + 1 by omega,
      show k - p + j + (i+1) + 1 = k - p + (j+1) + i + 1 by omega, ← List.append_assoc]
    exact List.perm_append_singleton _ _
  have e3 : insG t p k u c j i = bl t k c (t (k - p + (j+1) + i) :: rest) := by
    unfold insG
    apply hB.perm (by simp; omega)
    rw [show p - j = p - (j+1) + 1 by omega, seg_succ,
      show k - p + j + i + 1 = k - p + (j+1) + i by omega]
    exact List.perm_middle
  rw [e1, e2, e3]
  rw [hq] at hB
  rw [hB.interp hlen u _ _ hne, add_comm]
  congr 2
  field_simp
  ring

theorem insG_first (h : InsOk t n p k s r u) (c : ℕ → V) {j : ℕ} (hj : j ≤ r) :
    insG t p k u c j 0 = bl t k c (seg (tIns t k r u) (k - p + j + 1) p) := by
  have hpk := h.pk; have hsr := h.sr
  have hB := bl_isBlossom h.mono h.tk hpk c
  unfold insG
  apply hB.perm (by simp; omega)
  conv_rhs => rw [show p = (p - j) + j by omega]
  rw [seg_append]
  have e1 : seg (tIns t k r u) (k - (p - j + j) + j + 1) (p - j) = seg t (k - p + j + 0 + 1) (p - j) := by
    apply seg_congr
    intro i hi
    unfold tIns
    rw [if_pos (by omega)]
    congr 1
    omega
  have e2 : seg (tIns t k r u) (k - (p - j + j) + j + 1 + (p - j)) j = List.replicate j u := by
    apply seg_const
    intro i hi
    unfold tIns
    rw [if_neg (by omega), if_pos (by omega)]
  rw [e1, e2]
  exact List.perm_append_comm

theorem insG_last (h : InsOk t n p k s r u) (c : ℕ → V) {j : ℕ} (hj : j ≤ r) :
    insG t p k u c j (p - (j + s)) = bl t k c (seg (tIns t k r u) (k + r - (j + s) + 1) p) := by
  have hpk := h.pk; have hsr := h.sr
  unfold insG
  congr 1
  have e0 : seg t (k - p + j + (p - (j+s)) + 1) (p - j) = List.replicate s u ++ seg t (k+1) (p - (j+s)) := by
    rw [show p - j = s + (p - (j+s)) by omega, seg_append]
    congr 1
    · apply seg_const
      intro i hi
      exact h.mult _ (by omega) (by omega)
    · congr 1; omega
  have e1 : seg (tIns t k r u) (k + r - (j + s) + 1) p =
      List.replicate (j + s) u ++ seg t (k+1) (p - (j+s)) := by
    conv_lhs => rw [show p = (j + s) + (p - (j+s)) by omega]
    rw [seg_append]
    congr 1
    · apply seg_const
      intro i hi
      unfold tIns
      split
      · rename_i h1; exact h.mult _ (by omega) h1
      · rw [if_pos (by omega)]
    · apply seg_congr
      intro i hi
      unfold tIns
      rw [if_neg (by omega), if_neg (by omega)]
      congr 1
      omega
  rw [e0, e1, List.replicate_add, List.append_assoc]

theorem insG_mid (h : InsOk t n p k s r u) (c : ℕ → V) {i : ℕ} (hi : k - p + r + i + s < k) :
    insG t p k u c r i = bl t k c (seg (tIns t k r u) (k - p + r + i + 1) p) := by
  have hpk := h.pk; have hsr := h.sr
  have hB := bl_isBlossom h.mono h.tk hpk c
  unfold insG
  apply hB.perm (by simp; omega)
  obtain ⟨x, hx⟩ : ∃ x, x = k - p + r + i := ⟨_, rfl⟩
  rw [← hx]
  have e1 : seg (tIns t k r u) (x + 1) p =
      seg t (x+1) (k - x) ++ (List.replicate r u ++ seg t (k+1) (p - r - (k - x))) := by
    conv_lhs => rw [show p = (k - x) + (r + (p - r - (k - x))) by omega]
    rw [seg_append, seg_append]
    congr 1
    · apply seg_congr
      intro i hi
      unfold tIns
      rw [if_pos (by omega)]
    · congr 1
      · apply seg_const
        intro i hi
        unfold tIns
        rw [if_neg (by omega), if_pos (by omega)]
      · apply seg_congr
        intro i hi
        unfold tIns
        rw [if_neg (by omega), if_neg (by omega)]
        congr 1
        omega
  have e2 : seg t (x+1) (p - r) = seg t (x+1) (k-x) ++ seg t (k+1) (p - r - (k-x)) := by
    conv_lhs => rw [show p - r = (k - x) + (p - r - (k - x)) by omega]
    rw [seg_append]
    congr 2
    omega
  rw [e1, e2]
  exact List.perm_append_comm_assoc _ _ _

end

/-- One round of blending. -/
theorem insInner_loop {U : List K} {n p k s r : ℕ} {u : K} (h : InsOk (kf U) n p k s r u)
    (hlen : U.length = n + p + 1) (c : ℕ → V) {j : ℕ} (hj : j + 1 + s ≤ p) {Rt : List V}
    (hl : Rt.length = p + 1)
    (hR : ∀ i, i + j + s ≤ p → Rt[i]? = some (insG (kf U) p k u c j i)) :
    ∃ Rt', forLe 0 (p - (j + 1 + s)) (insInner u U k (k - p + (j+1))) Rt = .ok Rt' ∧
      Rt'.length = p + 1 ∧
      ∀ i, i + (j + 1) + s ≤ p → Rt'[i]? = some (insG (kf U) p k u c (j+1) i) := by
  have hpk := h.pk; have hkn := h.kn
  obtain ⟨Rt', e, g1, g2, -⟩ := forLe_inv (a := 0) (b := p - (j + 1 + s))
    (body := insInner u U k (k - p + (j+1))) (s := Rt)
    (fun i Rt => Rt.length = p + 1 ∧ (∀ i', i' < i → Rt[i']? = some (insG (kf U) p k u c (j+1) i')) ∧
      (∀ i', i ≤ i' → i' + j + s ≤ p → Rt[i']? = some (insG (kf U) p k u c j i'))) (by omega)
    ⟨hl, by omega, fun i' _ h2 => hR i' h2⟩
    (by
      intro i Rt _ hi ⟨g1, g2, g3⟩
      obtain ⟨s1, s2⟩ := insG_step h c (j := j) (i := i) (by omega)
      refine ⟨Rt.set i (insG (kf U) p k u c (j+1) i), ?_, by simp [g1], ?_, ?_⟩
      · unfold insInner
        rw [rd_kf (by omega), R_bind_ok, rd_kf (by omega), R_bind_ok,
          fdiv_ok (sub_pos.mpr s1).ne', R_bind_ok, rd_eq_ok.mpr (g3 (i+1) (by omega) (by omega)), R_bind_ok,
          rd_eq_ok.mpr (g3 i le_rfl (by omega)), R_bind_ok, wr_ok (by omega), s2]
      · intro i' hi'
        rcases Nat.lt_or_ge i' i with h5 | h5
        · rw [List.getElem?_set_ne (by omega), g2 i' h5]
        · obtain rfl : i' = i := by omega
          rw [getElem?_set_of_lt (by omega)]
          simp
      · intro i' h5 h6
        rw [List.getElem?_set_ne (by omega), g3 i' (by omega) h6])
  exact ⟨Rt', e, g1, fun i hi => g2 i (by omega)⟩

theorem insOuter_loop {U : List K} {n p k s r : ℕ} {u : K} (h : InsOk (kf U) n p k s r u)
    (hlen : U.length = n + p + 1) (c : ℕ → V) {Rt Q : List V}
    (hl : Rt.length = p + 1) (hQ : Q.length = n + r)
    (hR : ∀ i, i + s ≤ p → Rt[i]? = some (c (k - p + i)))
    (hQ1 : ∀ i, i + p ≤ k → Q[i]? = some (c i))
    (hQ2 : ∀ i, k + r ≤ i + s → i < n + r → Q[i]? = some (c (i - r))) :
    ∃ st, forLe 1 r (insOuter u U p s r k) { Rt := Rt, Q := Q, L := 0 } = .ok st ∧
      st.L = k - p + r ∧ st.Q.length = n + r ∧ st.Rt.length = p + 1 ∧
      (∀ i, i + r + s ≤ p → st.Rt[i]? = some (insG (kf U) p k u c r i)) ∧
      (∀ i, i + p ≤ k → st.Q[i]? = some (c i)) ∧
      (∀ i, k + r ≤ i + s → i < n + r → st.Q[i]? = some (c (i - r))) ∧
      (∀ i, k < i + p → i + p ≤ k + r →
        st.Q[i]? = some (bl (kf U) k c (seg (tIns (kf U) k r u) (i+1) p))) ∧
      (∀ i, k ≤ i + s → i + s < k + r →
        st.Q[i]? = some (bl (kf U) k c (seg (tIns (kf U) k r u) (i+1) p))) := by
  have hpk := h.pk; have hkn := h.kn; have hsr := h.sr; have hr := h.rpos
  obtain ⟨st, e, g1, g2, g3, g4, g5, g6, g7, g8⟩ := forLe_inv (a := 1) (b := r)
    (body := insOuter u U p s r k) (s := { Rt := Rt, Q := Q, L := 0 })
    (fun j st => (1 < j → st.L = k - p + (j - 1)) ∧ st.Q.length = n + r ∧ st.Rt.length = p + 1 ∧
      (∀ i, i + (j - 1) + s ≤ p → st.Rt[i]? = some (insG (kf U) p k u c (j-1) i)) ∧
      (∀ i, i + p ≤ k → st.Q[i]? = some (c i)) ∧
      (∀ i, k + r ≤ i + s → i < n + r → st.Q[i]? = some (c (i - r))) ∧
      (∀ i, k < i + p → i + p ≤ k + (j - 1) →
        st.Q[i]? = some (bl (kf U) k c (seg (tIns (kf U) k r u) (i+1) p))) ∧
      (∀ i, k + r ≤ i + s + (j - 1) → i + s < k + r →
        st.Q[i]? = some (bl (kf U) k c (seg (tIns (kf U) k r u) (i+1) p)))) (by omega)
    (by
      refine ⟨by omega, hQ, hl, ?_, hQ1, hQ2, by intro i h1 h2; omega, by intro i h1 h2; omega⟩
      intro i hi
      simp only [Nat.sub_self] at hi ⊢
      rw [insG_zero h c (by omega)]
      exact hR i (by omega))
    (by
      intro j st hj1 hjr ⟨g1, g2, g3, g4, g5, g6, g7, g8⟩
      obtain ⟨j, rfl⟩ : ∃ q, j = q + 1 := ⟨j - 1, by omega⟩
      simp only [Nat.add_sub_cancel] at g1 g4 g7 g8 ⊢
      obtain ⟨Rt', e', q1, q2⟩ := insInner_loop h hlen c (j := j) (by omega) g3 g4
      have x0 := q2 0 (by omega)
      have xe := q2 (p - (j + 1 + s)) (by omega)
      have f0 := insG_first h c (j := j+1) (by omega)
      have fe := insG_last h c (j := j+1) (by omega)
      refine ⟨⟨Rt', (st.Q.set (k - p + (j+1)) (insG (kf U) p k u c (j+1) 0)).set (k + r - (j + 1 + s))
        (insG (kf U) p k u c (j+1) (p - (j+1+s))), k - p + (j+1)⟩, ?_, by simp, by simp [g2], q1, q2, ?_, ?_, ?_, ?_⟩
      · unfold insOuter
        rw [usub_ok hpk, R_bind_ok]
        simp only
        rw [usub_ok (by omega), R_bind_ok, e', R_bind_ok, rd_eq_ok.mpr x0, R_bind_ok, wr_ok (by omega), R_bind_ok,
          usub_ok (by omega), R_bind_ok, rd_eq_ok.mpr xe, R_bind_ok, wr_ok (by simp; omega), R_bind_ok]
        rfl
      · intro i hi
        simp only
        rw [List.getElem?_set_ne (by omega), List.getElem?_set_ne (by omega), g5 i hi]
      · intro i hi1 hi2
        simp only
        rw [List.getElem?_set_ne (by omega), List.getElem?_set_ne (by omega), g6 i hi1 hi2]
      · intro i hi1 hi2
        simp only
        by_cases hc : k + r - (j + 1 + s) = i
        · subst hc
          rw [getElem?_set_of_lt (by simp; omega)]
          simp [fe]
        · rw [List.getElem?_set_ne hc]
          by_cases hc2 : k - p + (j+1) = i
          · subst hc2
            rw [getElem?_set_of_lt (by omega)]
            simp [f0]
          · rw [List.getElem?_set_ne hc2, g7 i hi1 (by omega)]
      · intro i hi1 hi2
        simp only
        by_cases hc : k + r - (j + 1 + s) = i
        · subst hc
          rw [getElem?_set_of_lt (by simp; omega)]
          simp [fe]
        · rw [List.getElem?_set_ne hc]
          by_cases hc2 : k - p + (j+1) = i
          · subst hc2
            rw [getElem?_set_of_lt (by omega)]
            simp [f0]
          · rw [List.getElem?_set_ne hc2, g8 i (by omega) hi2])
  refine ⟨st, e, g1 (by omega), g2, g3, ?_, g5, g6, ?_, ?_⟩
  · intro i hi; exact g4 i (by omega)
  · intro i h1 h2; exact g7 i h1 (by omega)
  · intro i h1 h2; exact g8 i (by omega) h2

/-- Full specification of `insert_knots` when there is room for the insertion. -/
theorem insertKnots_spec {U : List K} (hU : U.Pairwise (· ≤ ·)) {P : List V} {p r : ℕ} {u : K}
    (hlen : U.length = P.length + p + 1) (h1 : kf U p ≤ u) (h2 : u < kf U P.length) (hr : 1 ≤ r)
    (hs : multOf U u < p) {k r' : ℕ} (hk : k = upperBound U u - 1) (hr' : r' = min r (p - multOf U u)) :
    InsOk (kf U) P.length p k (multOf U u) r' u ∧
    ∃ Q : List V, insertKnots u p r U P =
        .ok ((k : ℤ) + 1 + r' - (p + 1), U.take (k+1) ++ List.replicate r' u ++ U.drop (k+1), Q) ∧
      Q.length = P.length + r' ∧
      (∀ i, i + p ≤ k → pf Q i = pf P i) ∧
      (∀ i, k + r' ≤ i + multOf U u → i < P.length + r' → pf Q i = pf P (i - r')) ∧
      (∀ i, k < i + p → i + multOf U u < k + r' →
        pf Q i = bl (kf U) k (pf P) (seg (tIns (kf U) k r' u) (i+1) p)) := by
  obtain ⟨h, hub⟩ := insOk_of hU hlen h1 h2 (r := r') (by omega) (by omega)
  rw [← hk] at h
  refine ⟨h, ?_⟩
  have hpk := h.pk; have hkn := h.kn; have hsr := h.sr; have hrr := h.rpos
  have hlb := lowerBound_le_upperBound U u
  have hms : upperBound U u - lowerBound U u = multOf U u := rfl
  set s := multOf U u with hsdef
  have hsk : s ≤ k := by omega
  unfold insertKnots
  simp only [hms]
  rw [if_neg (by omega), usub_ok (by omega), R_bind_ok]
  simp only [← hr']
  rw [usub_ok hub, R_bind_ok, ← hk]
  obtain ⟨U1, e1, l1, g1⟩ := copyLe_spec (S := U) (D := List.replicate (U.length + r') (0:K)) (a := 0) (b := k) (off := 0)
    (by omega) (by omega) (by simp; omega)
  rw [e1, R_bind_ok]
  obtain ⟨U2, e2, l2, g2⟩ := fillLe_spec (D := U1) (a := 1) (b := r') (off := k) (by omega)
    (fun i UQ => wr UQ (i + k) u) (fun _ => u) (by
      intro i s _ _ hsl
      exact wr_ok (by rw [hsl, l1]; simp; omega)) (by rw [l1]; simp; omega)
  rw [e2, R_bind_ok]
  obtain ⟨U3, e3, l3, g3⟩ := copyLe_spec (S := U) (D := U2) (a := k+1) (b := P.length - 1 + p + 1) (off := r')
    (by omega) (by omega) (by rw [l2, l1]; simp; omega)
  rw [e3, R_bind_ok, usub_ok hpk, R_bind_ok]
  obtain ⟨Q1, e4, l4, g4⟩ := copyLe_spec (S := P) (D := List.replicate (P.length + r') (0:V)) (a := 0) (b := k - p) (off := 0)
    (by omega) (by omega) (by simp; omega)
  rw [e4, R_bind_ok, usub_ok hsk, R_bind_ok]
  obtain ⟨Q2, e5, l5, g5⟩ := copyLe_spec (S := P) (D := Q1) (a := k - s) (b := P.length - 1) (off := r')
    (by omega) (by omega) (by rw [l4]; simp; omega)
  rw [e5, R_bind_ok]
  obtain ⟨R1, e6, l6, g6⟩ := fillLe_spec (D := List.replicate (p + 1) (0:V)) (a := 0) (b := p - s) (off := 0) (by omega)
    (fun i Rt => do
      let x ← rd P (k - p + i)
      wr Rt i x) (fun i => pf P (k - p + i)) (by
      intro i s' _ hi hsl
      rw [rd_pf (by omega), R_bind_ok]
      exact wr_ok (by rw [hsl]; simp; omega)) (by simp)
  rw [e6, R_bind_ok]
  simp only [List.length_replicate] at l1 l4 l6
  obtain ⟨st, e7, hL, lQ, lR, hRt, hA, hB, hC, hD⟩ := insOuter_loop h hlen (pf P) (Rt := R1) (Q := Q2) l6 (by omega)
    (by
      intro i hi
      rw [g6 i, if_pos (by omega)]
      rfl)
    (by
      intro i hi
      rw [g5 i, if_neg (by omega), g4 i, if_pos (by omega)]
      exact pf_getElem? (by omega))
    (by
      intro i hi1 hi2
      rw [g5 i, if_pos (by omega)]
      exact pf_getElem? (by omega))
  rw [e7, R_bind_ok, hL]
  obtain ⟨Q3, e8, l8, g8⟩ := fillLt_spec (D := st.Q) (a := k - p + r' + 1) (b := k - s)
    (fun i Q => do
      let d ← usub i (k - p + r')
      let x ← rd st.Rt d
      wr Q i x) (fun i => insG (kf U) p k u (pf P) r' (i - (k - p + r'))) (by
      intro i s' h1 h2 hsl
      rw [usub_ok (by omega), R_bind_ok, rd_eq_ok.mpr (hRt _ (by omega)), R_bind_ok]
      exact wr_ok (by rw [hsl, lQ]; omega)) (by omega)
  rw [e8, R_bind_ok]
  refine ⟨Q3, ?_, by omega, ?_, ?_, ?_⟩
  · have : U3 = U.take (k+1) ++ List.replicate r' u ++ U.drop (k+1) := by
      apply List.ext_getElem?
      intro j
      rw [g3 j, g2 j, g1 j]
      rw [List.append_assoc, List.getElem?_append, List.getElem?_append]
      simp only [List.length_take, List.length_replicate]
      rw [show min (k+1) U.length = k + 1 by omega]
      by_cases c1 : j < k + 1
      · rw [if_neg (by omega), if_neg (by omega), if_pos (by omega), if_pos c1, List.getElem?_take, if_pos c1]
        rfl
      · rw [if_neg c1]
        by_cases c2 : j - (k+1) < r'
        · rw [if_neg (by omega), if_pos (by omega), if_pos c2, List.getElem?_replicate, if_pos c2]
        · rw [if_neg c2]
          rw [List.getElem?_drop, show k + 1 + (j - (k+1) - r') = j - r' by omega]
          by_cases c3 : j ≤ P.length - 1 + p + 1 + r'
          · rw [if_pos (by omega)]
          · rw [if_neg (by omega), if_neg (by omega), if_neg (by omega)]
            rw [List.getElem?_eq_none (by simp; omega), List.getElem?_eq_none (by omega)]
    rw [this]
    rfl
  · intro i hi
    have : Q3[i]? = some (pf P i) := by rw [g8 i, if_neg (by omega), hA i hi]
    simp [pf, List.getD_eq_getElem?_getD, this]
  · intro i hi1 hi2
    have : Q3[i]? = some (pf P (i - r')) := by rw [g8 i, if_neg (by omega), hB i hi1 hi2]
    simp [pf, List.getD_eq_getElem?_getD, this]
  · intro i hi1 hi2
    have : Q3[i]? = some (bl (kf U) k (pf P) (seg (tIns (kf U) k r' u) (i+1) p)) := by
      rw [g8 i]
      split
      · rename_i hc
        rw [insG_mid h _ (by omega)]
        congr 4
        omega
      · rename_i hc
        by_cases hc2 : i + p ≤ k + r'
        · exact hC i hi1 hc2
        · exact hD i (by omega) hi2
    simp [pf, List.getD_eq_getElem?_getD] at this ⊢
    simp [this]

end Gbs
