import Verif.Lemmas.InsertCurve

/-! # Multiplicities, windows of knots, separation -/

namespace Gbs

set_option linter.unusedSectionVars false

variable {K : Type} [Field K] [LinearOrder K] [IsStrictOrderedRing K]
variable {V : Type} [AddCommGroup V] [Module K V]

theorem kf_of_mult {U : List K} (hU : U.Pairwise (· ≤ ·)) {u : K} {j : ℕ} (h1 : lowerBound U u ≤ j)
    (h2 : j < upperBound U u) : kf U j = u := by
  have hul := upperBound_le U u
  apply le_antisymm (kf_le_of_lt_upperBound h2)
  exact le_trans (le_kf_lowerBound (by omega)) (kf_mono hU h1)

theorem count_eq_multOf {U : List K} (hU : U.Pairwise (· ≤ ·)) (u : K) : U.count u = multOf U u := by
  have hlu := lowerBound_le_upperBound U u
  have hul := upperBound_le U u
  have hsplit : U = U.take (lowerBound U u) ++
      ((U.drop (lowerBound U u)).take (multOf U u) ++ U.drop (upperBound U u)) := by
    conv_lhs => rw [← List.take_append_drop (lowerBound U u) U]
    congr 1
    conv_lhs => rw [← List.take_append_drop (multOf U u) (U.drop (lowerBound U u))]
    rw [List.drop_drop]
    congr 2
    unfold multOf; omega
  have hc := congrArg (List.count u) hsplit
  rw [List.count_append, List.count_append] at hc
  have hm := kf_mono hU
  have z1 : (U.take (lowerBound U u)).count u = 0 := by
    rw [List.count_eq_zero]
    intro hx
    obtain ⟨i, hi, hx⟩ := List.mem_take_iff_getElem.mp hx
    have := kf_lt_of_lt_lowerBound (U := U) (u := u) (j := i) (by omega)
    rw [kf_of_lt (by omega), hx] at this
    exact lt_irrefl _ this
  have z2 : (U.drop (upperBound U u)).count u = 0 := by
    rw [List.count_eq_zero]
    intro hx
    obtain ⟨i, hi, hx⟩ := List.mem_drop_iff_getElem.mp hx
    have a1 := lt_kf_upperBound (U := U) (u := u) (by omega)
    have a2 := hm (show upperBound U u ≤ upperBound U u + i by omega)
    rw [kf_of_lt (i := upperBound U u + i) (by omega)] at a2
    rw [hx] at a2
    exact absurd a1 (not_lt.mpr a2)
  have z3 : (U.drop (lowerBound U u)).take (multOf U u) = List.replicate (multOf U u) u := by
    rw [List.eq_replicate_iff]
    refine ⟨by simp [multOf]; omega, ?_⟩
    intro x hx
    obtain ⟨i, hi, hx⟩ := List.mem_take_iff_getElem.mp hx
    unfold multOf at hi
    simp only [List.length_drop] at hi
    rw [List.getElem_drop] at hx
    have a3 := kf_of_mult (u := u) (j := lowerBound U u + i) hU (by omega) (by omega)
    rw [kf_of_lt (by omega)] at a3
    rw [← hx, a3]
  rw [z1, z2, z3, List.count_replicate_self] at hc
  omega

/-- Two B-splines have the same value and derivatives at `v`. -/
def SameAt (p : ℕ) (U : List K) (P : List V) (p' : ℕ) (U' : List K) (P' : List V) (v : K) : Prop :=
  ∃ i i', findSpan P.length p v U = .ok i ∧ findSpan P'.length p' v U' = .ok i' ∧
    ∀ d, spanDer (kf U) P.length p i (pf P) d v = spanDer (kf U') P'.length p' i' (pf P') d v

theorem SameMap.at {p p' : ℕ} {U U' : List K} {P P' : List V} (h : SameMap p U P p' U' P') {v : K}
    (h1 : kf U p ≤ v) (h2 : v ≤ kf U P.length) : SameAt p U P p' U' P' v := h v h1 h2

theorem SameAt.symm {p p' : ℕ} {U U' : List K} {P P' : List V} {v : K}
    (h : SameAt p U P p' U' P' v) : SameAt p' U' P' p U P v := by
  obtain ⟨i, i', a, b, c⟩ := h
  exact ⟨i', i, b, a, fun d => (c d).symm⟩

theorem SameAt.refl {p : ℕ} {U : List K} {P : List V} (h : Wf p U P) (v : K) : SameAt p U P p U P v := by
  obtain ⟨i, e, -⟩ := findSpan_wf h v
  exact ⟨i, i, e, e, fun _ => rfl⟩

theorem SameAt.trans {p p' p'' : ℕ} {U U' U'' : List K} {P P' P'' : List V} {v : K}
    (h : SameAt p U P p' U' P' v) (h' : SameAt p' U' P' p'' U'' P'' v) : SameAt p U P p'' U'' P'' v := by
  obtain ⟨i, i', e1, e2, e3⟩ := h
  obtain ⟨j, j', f1, f2, f3⟩ := h'
  obtain rfl : i' = j := by rw [e2] at f1; exact Except.ok.inj f1
  exact ⟨i, j', e1, f2, fun d => (e3 d).trans (f3 d)⟩

/-- Spans that contain `v` and have the same blossom. -/
theorem sameAt_of_bl {p : ℕ} {U U' : List K} {P P' : List V} (h : Wf p U P) (h' : Wf p U' P') {v : K}
    (h1 : kf U p ≤ v) (h2 : v ≤ kf U P.length) (h1' : kf U' p ≤ v) (h2' : v ≤ kf U' P'.length)
    {k k' : ℕ} (hk : Spec.InSpan (kf U) (kf U P.length) k v)
    (hk' : Spec.InSpan (kf U') (kf U' P'.length) k' v)
    (hb : ∀ xs : List K, xs.length = p → bl (kf U) k (pf P) xs = bl (kf U') k' (pf P') xs) :
    SameAt p U P p U' P' v := by
  obtain ⟨i, e, a1, a2, a3, a4, -⟩ := findSpan_wf h v
  obtain ⟨i', e', b1, b2, b3, b4, -⟩ := findSpan_wf h' v
  obtain rfl := InSpan_unique (kf_mono h.sorted) (a4 h1 h2) hk
  obtain rfl := InSpan_unique (kf_mono h'.sorted) (b4 h1' h2') hk'
  refine ⟨i, i', e, e', ?_⟩
  intro d
  apply spanDer_congr_bl a1 a2 b1 b2
  intro w
  exact hb _ (by simp)

/-- A window of knots and poles has the same blossoms. -/
theorem bl_window {t t' : ℕ → K} (ht : Monotone t) (ht' : Monotone t') {p a n' k' : ℕ} {c c' : ℕ → V}
    (htt : ∀ j, 1 ≤ j → j < n' + p → t' j = t (j + a)) (hc : ∀ i, i < n' → c' i = c (i + a))
    (hp : p ≤ k') (hn : k' < n') (hk : t (k' + a) < t (k' + a + 1)) (hk' : t' k' < t' (k'+1))
    (xs : List K) (hx : xs.length = p) : bl t' k' c' xs = bl t (k' + a) c xs := by
  subst hx
  apply bl_unique ht' hk' xs (bl t (k'+a) c) c' hp
  · exact bl_isBlossom ht hk (by omega) c
  · intro i h1 h2
    rw [hc i (by omega), ← bl_dual ht hk xs.length c (i+a) (by omega) (by omega) (by omega)]
    congr 1
    apply seg_congr
    intro j hj
    rw [htt _ (by omega) (by omega)]
    congr 1
    omega

/-- The different elements of the list are separated by more than `eps`. -/
def SepL (eps : K) (L : List K) : Prop := ∀ a ∈ L, ∀ b ∈ L, a < b → eps < b - a

theorem kf_mem {U : List K} (h : U ≠ []) (i : ℕ) : kf U i ∈ U := by
  rcases Nat.lt_or_ge i U.length with h1 | h1
  · rw [kf_of_lt h1]; exact List.getElem_mem _
  · rw [kf_of_ge h1, List.getLastD_eq_getLast?, List.getLast?_eq_some_getLast h, Option.getD_some]
    exact List.getLast_mem h

theorem SepL.sep {eps : K} {L U : List K} (h : SepL eps L) (hne : U ≠ []) (hs : ∀ x ∈ U, x ∈ L) : Sep eps U :=
  fun i j hij => h _ (hs _ (kf_mem hne i)) _ (hs _ (kf_mem hne j)) hij

theorem Wf.ne {p : ℕ} {U : List K} {P : List V} (h : Wf p U P) : U ≠ [] := by
  intro h0; have := h.len; rw [h0] at this; simp at this

/-- Insertion up to the multiplicity `p`. -/
theorem insertKnots_full_same {p : ℕ} {U : List K} {P : List V} (h : Wf p U P) {u : K} (hp : 1 ≤ p)
    (h1 : kf U p < u) (h2 : u < kf U P.length) :
    ∃ idx U1 P1, insertKnots u p p U P = .ok (idx, U1, P1) ∧ Wf p U1 P1 ∧
      kf U1 p = kf U p ∧ kf U1 P1.length = kf U P.length ∧ SameMap p U P p U1 P1 ∧
      multOf U1 u = max p (multOf U u) ∧ (∀ x ∈ U1, x ∈ u :: U) ∧ kf U1 0 = kf U 0 ∧ kLast U1 = kLast U ∧
      (∀ v, v ≠ u → U1.count v = U.count v) := by
  by_cases hs : multOf U u < p
  · obtain ⟨hi, -⟩ := insOk_of h.sorted h.len h1.le h2 (r := 1) le_rfl (by omega)
    obtain ⟨Q, e, hl, hw, d0, d1, hS, -⟩ := insertKnots_same h h1 h2 hp hs rfl rfl
    have hlen := h.len
    have hkn := hi.kn
    refine ⟨_, _, _, e, hw, d0, d1, hS, ?_, ?_, ?_, ?_, ?_⟩
    · rw [← count_eq_multOf hw.sorted, (insKnots_perm _ _ _ _).count_eq, List.count_append,
        List.count_replicate_self, count_eq_multOf h.sorted]
      omega
    · intro x hx
      have := (insKnots_perm _ _ _ _).mem_iff.mp hx
      rw [List.mem_append, List.mem_replicate] at this
      rcases this with ⟨-, rfl⟩ | hx
      · exact List.mem_cons_self
      · exact List.mem_cons_of_mem _ hx
    · rw [kf_insKnots (by omega)]; unfold tIns; rw [if_pos (by omega)]
    · unfold kLast
      rw [insKnots_length (by omega), kf_insKnots (by omega)]
      unfold tIns
      rw [if_neg (by omega), if_neg (by omega)]
      congr 1
      omega
    · intro v hv
      rw [(insKnots_perm _ _ _ _).count_eq, List.count_append, List.count_replicate, if_neg (by simpa using hv.symm)]
      omega
  · refine ⟨(upperBound U u : ℤ) - 1 - p - (if upperBound U u = U.length then 1 else 0), U, P, ?_, h, rfl, rfl,
      SameMap.refl h, by omega, fun x hx => List.mem_cons_of_mem _ hx, rfl, rfl, fun _ _ => rfl⟩
    · unfold insertKnots
      simp only
      rw [if_pos (show p ≤ upperBound U u - lowerBound U u from not_lt.mp hs)]
      rfl

end Gbs
