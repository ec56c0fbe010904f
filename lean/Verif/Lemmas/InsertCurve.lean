import Verif.Lemmas.Insert
import Verif.Lemmas.EvalAll

/-! # Knot insertion keeps the curve -/

namespace Gbs

set_option linter.unusedSectionVars false

variable {K : Type} [Field K] [LinearOrder K] [IsStrictOrderedRing K]
variable {V : Type} [AddCommGroup V] [Module K V]

/-- The knot vector returned by the insertion. -/
def insKnots (U : List K) (k r : ℕ) (u : K) : List K :=
  U.take (k+1) ++ List.replicate r u ++ U.drop (k+1)

theorem insKnots_length {U : List K} {k r : ℕ} {u : K} (h : k < U.length) :
    (insKnots U k r u).length = U.length + r := by
  simp [insKnots]; omega

theorem insKnots_perm (U : List K) (k r : ℕ) (u : K) :
    (insKnots U k r u).Perm (List.replicate r u ++ U) := by
  unfold insKnots
  rw [List.append_assoc]
  refine (List.perm_append_comm_assoc _ _ _).trans ?_
  rw [List.take_append_drop]

theorem kf_last {U : List K} (h : U ≠ []) {i : ℕ} (hi : U.length ≤ i + 1) : kf U i = kf U (U.length - 1) := by
  have hl : 0 < U.length := List.length_pos_iff.mpr h
  rcases Nat.lt_or_ge i U.length with h1 | h1
  · congr 1; omega
  · rw [kf_of_ge h1, kf_of_lt (by omega : U.length - 1 < U.length),
      List.getLastD_eq_getLast?, List.getLast?_eq_some_getLast h, Option.getD_some,
      List.getLast_eq_getElem]

theorem kf_insKnots {U : List K} {k r : ℕ} {u : K} (h : k + 1 < U.length) :
    kf (insKnots U k r u) = tIns (kf U) k r u := by
  have main : ∀ j, j < U.length + r → kf (insKnots U k r u) j = tIns (kf U) k r u j := by
    intro j hj
    have hl := insKnots_length (U := U) (k := k) (r := r) (u := u) (by omega)
    have e : (insKnots U k r u)[j]? = some (kf (insKnots U k r u) j) := kf_getElem? (by omega)
    generalize kf (insKnots U k r u) j = w at e ⊢
    unfold insKnots at e
    rw [List.append_assoc, List.getElem?_append, List.getElem?_append] at e
    simp only [List.length_take, List.length_replicate] at e
    rw [show min (k+1) U.length = k + 1 by omega] at e
    unfold tIns
    split at e
    · rename_i c1
      rw [List.getElem?_take, if_pos c1, kf_getElem? (by omega)] at e
      rw [if_pos (by omega)]
      exact (Option.some.inj e).symm
    · rename_i c1
      rw [if_neg (by omega)]
      split at e
      · rename_i c2
        rw [List.getElem?_replicate, if_pos c2] at e
        rw [if_pos (by omega)]
        exact (Option.some.inj e).symm
      · rename_i c2
        rw [List.getElem?_drop, kf_getElem? (by omega)] at e
        rw [if_neg (by omega), ← Option.some.inj e]
        congr 1
        omega
  funext j
  have hl := insKnots_length (U := U) (k := k) (r := r) (u := u) (by omega)
  rcases Nat.lt_or_ge j (U.length + r) with hj | hj
  · exact main j hj
  · have hne : insKnots U k r u ≠ [] := by intro h0; rw [h0] at hl; simp at hl; omega
    have hne' : U ≠ [] := by intro h0; rw [h0] at h; simp at h
    rw [kf_last hne (by omega), main _ (by omega)]
    unfold tIns
    rw [if_neg (by omega), if_neg (by omega), if_neg (by omega), if_neg (by omega),
      kf_last hne' (by omega), kf_last (i := j - r) hne' (by omega)]

theorem insKnots_sorted {U : List K} (hU : U.Pairwise (· ≤ ·)) {k r : ℕ} {u : K}
    (h1 : kf U k ≤ u) (h2 : u ≤ kf U (k+1)) (hk : k < U.length) : (insKnots U k r u).Pairwise (· ≤ ·) := by
  have hm := kf_mono hU
  have a1 : ∀ x ∈ U.take (k+1), x ≤ u := by
    intro x hx
    obtain ⟨i, hi, rfl⟩ := List.mem_take_iff_getElem.mp hx
    refine le_trans ?_ h1
    have := hm (show i ≤ k by omega)
    rwa [kf_of_lt (by omega)] at this
  have a2 : ∀ x ∈ U.drop (k+1), u ≤ x := by
    intro x hx
    obtain ⟨i, hi, rfl⟩ := List.mem_drop_iff_getElem.mp hx
    refine le_trans h2 ?_
    have := hm (show k + 1 ≤ k + 1 + i by omega)
    rw [kf_of_lt (i := k + 1 + i) (by omega)] at this
    simpa [Nat.add_comm] using this
  unfold insKnots
  rw [List.pairwise_append, List.pairwise_append]
  refine ⟨⟨hU.sublist (List.take_sublist _ _), ?_, ?_⟩, hU.sublist (List.drop_sublist _ _), ?_⟩
  · rw [List.pairwise_replicate]; right; exact le_rfl
  · intro x hx y hy
    rw [List.mem_replicate] at hy
    rw [hy.2]; exact a1 x hx
  · intro x hx y hy
    rw [List.mem_append, List.mem_replicate] at hx
    rcases hx with hx | hx
    · exact le_trans (a1 x hx) (a2 y hy)
    · rw [hx.2]; exact a2 y hy

/-- Two B-splines (possibly of different degrees) define the same map, with all its derivatives, on the
domain of the first one. -/
def SameMap (p : ℕ) (U : List K) (P : List V) (p' : ℕ) (U' : List K) (P' : List V) : Prop :=
  ∀ v, kf U p ≤ v → v ≤ kf U P.length → ∃ i i', findSpan P.length p v U = .ok i ∧
    findSpan P'.length p' v U' = .ok i' ∧
    ∀ d, spanDer (kf U) P.length p i (pf P) d v = spanDer (kf U') P'.length p' i' (pf P') d v

theorem SameMap.refl {p : ℕ} {U : List K} {P : List V} (h : Wf p U P) : SameMap p U P p U P := by
  intro v _ _
  obtain ⟨i, e, -⟩ := findSpan_wf h v
  exact ⟨i, i, e, e, fun _ => rfl⟩

theorem SameMap.trans {p p' p'' : ℕ} {U U' U'' : List K} {P P' P'' : List V}
    (h : SameMap p U P p' U' P') (h' : SameMap p' U' P' p'' U'' P'')
    (hd : kf U' p' ≤ kf U p) (hd' : kf U P.length ≤ kf U' P'.length) : SameMap p U P p'' U'' P'' := by
  intro v h1 h2
  obtain ⟨i, i', e1, e2, e3⟩ := h v h1 h2
  obtain ⟨j, j', f1, f2, f3⟩ := h' v (le_trans hd h1) (le_trans h2 hd')
  obtain rfl : i' = j := by rw [e2] at f1; exact Except.ok.inj f1
  exact ⟨i, j', e1, f2, fun d => (e3 d).trans (f3 d)⟩

/-- Spans of the two knot vectors that contain the same parameter with the same blossom. -/
theorem sameMap_of_bl {p : ℕ} {U U' : List K} {P P' : List V} (h : Wf p U P) (h' : Wf p U' P')
    (hd : kf U' p ≤ kf U p) (hd' : kf U' P'.length = kf U P.length)
    (hb : ∀ k', kf U' k' < kf U' (k'+1) → p ≤ k' → k' < P'.length → ∃ m, p ≤ m ∧ m < P.length ∧
      kf U m < kf U (m+1) ∧ kf U m ≤ kf U' k' ∧ kf U' (k'+1) ≤ kf U (m+1) ∧
      ∀ xs : List K, xs.length = p → bl (kf U') k' (pf P') xs = bl (kf U) m (pf P) xs) :
    SameMap p U P p U' P' := by
  intro v hv1 hv2
  obtain ⟨i, e, a1, a2, a3, a4, -⟩ := findSpan_wf h v
  obtain ⟨i', e', b1, b2, b3, b4, -⟩ := findSpan_wf h' v
  refine ⟨i, i', e, e', ?_⟩
  have hs := a4 hv1 hv2
  have hs' := b4 (le_trans hd hv1) (hd' ▸ hv2)
  obtain ⟨m, m1, m2, m3, m4, m5, m6⟩ := hb i' b3 b1 b2
  have hsm : Spec.InSpan (kf U) (kf U P.length) m v := by
    unfold Spec.InSpan at hs' ⊢
    rw [hd'] at hs'
    split at hs'
    · rename_i hvT
      rw [if_pos hvT]
      refine ⟨lt_of_le_of_lt m4 hs'.1, le_antisymm ?_ (by rw [← hs'.2]; exact m5)⟩
      exact (kf_mono h.sorted) (by omega)
    · rename_i hvT
      rw [if_neg hvT]
      exact ⟨le_trans m4 hs'.1, lt_of_lt_of_le hs'.2 m5⟩
  obtain rfl : i = m := InSpan_unique (kf_mono h.sorted) hs hsm
  intro d
  apply spanDer_congr_bl a1 a2 b1 b2
  intro w
  exact (m6 _ (by simp)).symm

/-- Insertion with room: the result is well formed, has the same domain and the same map. -/
theorem insertKnots_same {p : ℕ} {U : List K} {P : List V} (h : Wf p U P) {u : K} {r : ℕ}
    (h1 : kf U p < u) (h2 : u < kf U P.length) (hr : 1 ≤ r) (hs : multOf U u < p) {k r' : ℕ}
    (hk : k = upperBound U u - 1) (hr' : r' = min r (p - multOf U u)) :
    ∃ Q, insertKnots u p r U P = .ok ((k : ℤ) + 1 + r' - (p + 1), insKnots U k r' u, Q) ∧
      Q.length = P.length + r' ∧ Wf p (insKnots U k r' u) Q ∧
      kf (insKnots U k r' u) p = kf U p ∧ kf (insKnots U k r' u) Q.length = kf U P.length ∧
      SameMap p U P p (insKnots U k r' u) Q ∧
      (p ≤ multOf U u + r → pf Q (k - multOf U u) = bl (kf U) k (pf P) (List.replicate p u)) := by
  obtain ⟨hi, Q, e, hl, q1, q2, q3⟩ := insertKnots_spec h.sorted h.len h1.le h2 hr hs hk hr'
  have hpk := hi.pk; have hkn := hi.kn; have hsr := hi.sr; have hrr := hi.rpos
  have hlen := h.len
  have hkf : kf (insKnots U k r' u) = tIns (kf U) k r' u := kf_insKnots (by omega)
  have d0 : kf (insKnots U k r' u) p = kf U p := by
    rw [hkf]; unfold tIns; rw [if_pos hpk]
  have d1 : kf (insKnots U k r' u) Q.length = kf U P.length := by
    rw [hkf, hl]; unfold tIns; rw [if_neg (by omega), if_neg (by omega)]; congr 1; omega
  have hw : Wf p (insKnots U k r' u) Q := by
    refine ⟨insKnots_sorted h.sorted hi.lo hi.hi.le (by omega), ?_, ?_, ?_, ?_⟩
    · rw [insKnots_length (by omega), hl, hlen]; omega
    · have := h.min; omega
    · rw [d0, hkf]; unfold tIns
      split
      · exact h.first
      · rw [if_pos (by omega)]; exact h1
    · rw [d1, hkf, hl]; unfold tIns
      rw [if_neg (by omega)]
      split
      · exact h2
      · rw [show P.length + r' - 1 - r' = P.length - 1 by omega]; exact h.last
  refine ⟨Q, e, hl, hw, d0, d1, ?_, ?_⟩
  · apply sameMap_of_bl h hw d0.le d1
    intro k' g1 g2 g3
    rw [hkf] at g1 ⊢
    obtain ⟨m, m1, m2, m3, m4, m5, -, m6⟩ := insert_bl hi (Q := pf Q) q1 q2 q3 g1 g2 (by omega)
    exact ⟨m, m1, m2, m3, m4, m5, m6⟩
  · intro hfull
    have hr2 : r' = p - multOf U u := by omega
    rw [q3 (k - multOf U u) (by omega) (by omega)]
    congr 1
    apply seg_const
    intro j hj
    unfold tIns
    split
    · rename_i hc; exact hi.mult _ (by omega) hc
    · rw [if_pos (by omega)]

end Gbs
