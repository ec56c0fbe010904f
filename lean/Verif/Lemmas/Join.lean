import Verif.Lemmas.Reparam
import Verif.Lemmas.Trim
import Verif.Model.Join

/-! # The knots of a joined curve, and its two parts -/

namespace Gbs

set_option linter.unusedSectionVars false

variable {K : Type} [Field K] [LinearOrder K] [IsStrictOrderedRing K]
variable {V : Type} [AddCommGroup V] [Module K V]

/-- The joined knots: the first ones without the last of them, then the second ones, shifted, without the first `p + 1`. -/
def joinedKnots (U1 U2 : List K) (p : ℕ) : List K :=
  U1.dropLast ++ (U2.map (fun k => k + (kLast U1 - kf U2 0))).drop (p + 1)

theorem joinKnots_ok {U1 U2 : List K} {p : ℕ} (h1 : U1 ≠ []) (h2 : p + 1 ≤ U2.length) : joinKnots U1 U2 p = .ok (joinedKnots U1 U2 p) := by
  have hl : 0 < U1.length := List.length_pos_iff.mpr h1
  unfold joinKnots joinedKnots
  rw [usub_ok (by omega), R_bind_ok, rd_kf (by omega), R_bind_ok, rd_kf (by omega), R_bind_ok]
  simp only [List.length_map]
  rw [if_neg (by omega)]
  have : (fun k => k + kf U1 (U1.length - 1) - kf U2 0) = fun k => k + (kLast U1 - kf U2 0) := by
    funext k; unfold kLast; ring
  rw [this]
  rfl

/-- What the joined knots and poles define. -/
theorem join_core {p : ℕ} {U1 U2 : List K} {P Q1 Q2 : List V} (h1 : Wf p U1 Q1) (h2 : Wf p U2 Q2) (hp : 1 ≤ p)
    (hc1 : kf U1 Q1.length = kLast U1) (hc2 : kf U2 0 = kf U2 p) (hl : P.length + 1 = Q1.length + Q2.length)
    (hP1 : ∀ i, i < Q1.length → pf P i = pf Q1 i) (hP2 : ∀ i, i < Q2.length → pf P (i + (Q1.length - 1)) = pf Q2 i) :
    Wf p (joinedKnots U1 U2 p) P ∧ kf (joinedKnots U1 U2 p) 0 = kf U1 0 ∧ kf (joinedKnots U1 U2 p) p = kf U1 p ∧
      kf (joinedKnots U1 U2 p) P.length = kf U2 Q2.length + (kLast U1 - kf U2 0) ∧
      kLast (joinedKnots U1 U2 p) = kLast U2 + (kLast U1 - kf U2 0) ∧
      (∀ v, kf U1 p ≤ v → v < kf U1 Q1.length → SameAt p (joinedKnots U1 U2 p) P p U1 Q1 v) ∧
      (∀ v, kf U2 p ≤ v → v ≤ kf U2 Q2.length → ∃ i i', findSpan P.length p (v + (kLast U1 - kf U2 0)) (joinedKnots U1 U2 p) = .ok i ∧
        findSpan Q2.length p v U2 = .ok i' ∧ ∀ d, spanDer (kf (joinedKnots U1 U2 p)) P.length p i (pf P) d (v + (kLast U1 - kf U2 0)) =
          spanDer (kf U2) Q2.length p i' (pf Q2) d v) := by
  set s := kLast U1 - kf U2 0 with hs
  set U := joinedKnots U1 U2 p with hU
  have l1 := h1.len
  have l2 := h2.len
  have m1 := h1.min
  have m2 := h2.min
  have hm1 := kf_mono h1.sorted
  have hm2 := kf_mono h2.sorted
  have hlen : U.length = P.length + p + 1 := by
    rw [hU, joinedKnots]; simp; omega
  have hA : ∀ j, j < Q1.length + p → kf U j = kf U1 j := by
    intro j hj
    rw [kf_of_lt (by omega), kf_of_lt (by omega)]
    simp only [hU, joinedKnots]
    rw [List.getElem_append_left (by simp; omega), List.getElem_dropLast]
  have hk1 : ∀ j, Q1.length ≤ j → kf U1 j = kLast U1 := by
    intro j hj
    refine le_antisymm ?_ (by rw [← hc1]; exact hm1 hj)
    unfold kLast
    rcases Nat.lt_or_ge j U1.length with h | h
    · exact hm1 (by omega)
    · rw [kf_of_ge h, kf_of_lt (by omega), List.getLastD_eq_getLast?, List.getLast?_eq_some_getLast h1.ne, Option.getD_some,
        List.getLast_eq_getElem]
  have hk2 : ∀ j, j ≤ p → kf U2 j = kf U2 0 := by
    intro j hj
    refine le_antisymm ?_ (hm2 (by omega))
    rw [hc2]
    exact hm2 hj
  have hB : ∀ j, 1 ≤ j → kf U (j + (Q1.length - 1)) = kf U2 j + s := by
    intro j hj
    rcases Nat.lt_or_ge p j with hjp | hjp
    · rcases Nat.lt_or_ge j U2.length with h | h
      · rw [kf_of_lt (by omega), kf_of_lt h]
        simp only [hU, joinedKnots]
        rw [List.getElem_append_right (by simp; omega), List.getElem_drop, List.getElem_map]
        simp only [List.length_dropLast]
        refine congrArg₂ (· + ·) ?_ rfl
        congr 1
        omega
      · have hUne : U ≠ [] := by intro h0; rw [h0] at hlen; simp at hlen
        rw [kf_of_ge (by omega), kf_of_ge h, List.getLastD_eq_getLast?, List.getLast?_eq_some_getLast hUne,
          List.getLastD_eq_getLast?, List.getLast?_eq_some_getLast h2.ne, Option.getD_some, Option.getD_some,
          List.getLast_eq_getElem, List.getLast_eq_getElem]
        simp only [hU, joinedKnots]
        rw [List.getElem_append_right (by simp; omega), List.getElem_drop, List.getElem_map]
        simp only [List.length_dropLast, List.length_append, List.length_drop, List.length_map]
        refine congrArg₂ (· + ·) ?_ rfl
        congr 1
        omega
    · rw [hA _ (by omega), hk1 _ (by omega), hk2 _ hjp, hs]; ring
  -- the knots are increasing
  have hsort : U.Pairwise (· ≤ ·) := by
    have hle : ∀ x ∈ U1, x ≤ kLast U1 := by
      intro x hx
      obtain ⟨i, hi, rfl⟩ := List.getElem_of_mem hx
      rw [← kf_of_lt hi]
      exact hm1 (by omega)
    rw [hU, joinedKnots, List.pairwise_append]
    refine ⟨h1.sorted.sublist (List.dropLast_sublist _), ?_, ?_⟩
    · refine List.Pairwise.sublist (List.drop_sublist _ _) ?_
      rw [List.pairwise_map]
      exact h2.sorted.imp (fun h => by linarith)
    · intro x hx y hy
      have := hle x (List.mem_of_mem_dropLast hx)
      obtain ⟨z, hz, rfl⟩ := List.mem_map.mp (List.mem_of_mem_drop hy)
      obtain ⟨i, hi, rfl⟩ := List.getElem_of_mem hz
      have h3 := hm2 (Nat.zero_le i)
      rw [kf_of_lt hi] at h3
      rw [← hs, hs]
      linarith
  have hmU := kf_mono hsort
  have hd0 : kf U p = kf U1 p := hA p (by omega)
  have hd1 : kf U P.length = kf U2 Q2.length + s := by
    rw [← hB _ (by omega)]
    congr 1
    omega
  have hb12 : kLast U1 = kf U2 p + s := by rw [← hc2, hs]; ring
  have hmid : kf U Q1.length = kLast U1 := by rw [hA _ (by omega), hc1]
  have hw : Wf p U P := by
    refine ⟨hsort, hlen, by omega, ?_, ?_⟩
    · rw [hd0]
      rw [hA _ (by omega)]
      exact h1.first
    · rw [hd1, show P.length - 1 = Q2.length - 1 + (Q1.length - 1) by omega, hB _ (by omega)]
      have := h2.last
      linarith
  refine ⟨hw, hA 0 (by omega), hd0, hd1, ?_, ?_, ?_⟩
  · unfold kLast
    rw [hlen, show P.length + p + 1 - 1 = (Q2.length + p) + (Q1.length - 1) by omega, hB _ (by omega), l2, show Q2.length + p + 1 - 1 = Q2.length + p by omega]
  · intro v hv1 hv2
    have hlt12 : kf U1 Q1.length < kf U P.length := by
      rw [hd1, hc1, hb12]
      have h3 := h2.first
      have h4 := hm2 (show p + 1 ≤ Q2.length by omega)
      linarith
    obtain ⟨k, -, a1, a2, a3, a4, -⟩ := findSpan_wf h1 v
    have hin := a4 hv1 hv2.le
    have hin' : Spec.InSpan (kf U) (kf U P.length) k v := by
      unfold Spec.InSpan at hin ⊢
      rw [if_neg (by rintro rfl; exact absurd hlt12 (not_lt.mpr hv2.le)), hA k (by omega), hA (k+1) (by omega)]
      rwa [if_neg hv2.ne] at hin
    refine sameAt_of_bl hw h1 (by rw [hd0]; exact hv1) (by linarith) hv1 hv2.le hin' hin ?_
    intro xs hx
    have := bl_window (t := kf U) (t' := kf U1) hmU hm1 (p := p) (a := 0) (n' := Q1.length) (k' := k) (c := pf P) (c' := pf Q1)
      (fun j _ hj => (hA j hj).symm) (fun i hi => (hP1 i hi).symm) a1 a2 (by rw [Nat.add_zero, hA k (by omega), hA (k+1) (by omega)]; exact a3) a3 xs hx
    rw [this, Nat.add_zero]
  · intro v hv1 hv2
    have hf : StrictMono (fun k : K => k + s) := fun a b hab => by simpa using hab
    have h2' := h2.map hf
    have hkm : ∀ j, kf (U2.map (fun k => k + s)) j = kf U2 j + s := kf_map h2.ne _
    obtain ⟨i', e', a1, a2, a3, a4, -⟩ := findSpan_wf h2 v
    have e2 := findSpan_map h2 hf hv1 hv2 e'
    have hin := a4 hv1 hv2
    have hin2 : Spec.InSpan (kf (U2.map (fun k => k + s))) (kf (U2.map (fun k => k + s)) Q2.length) i' (v + s) := by
      unfold Spec.InSpan at hin ⊢
      simp only [hkm, add_left_inj, add_lt_add_iff_right, add_le_add_iff_right]
      exact hin
    have hin' : Spec.InSpan (kf U) (kf U P.length) (i' + (Q1.length - 1)) (v + s) := by
      unfold Spec.InSpan at hin ⊢
      rw [hd1, show i' + (Q1.length - 1) + 1 = i' + 1 + (Q1.length - 1) by omega, hB (i' + 1) (by omega), hB i' (by omega)]
      simp only [add_left_inj, add_lt_add_iff_right, add_le_add_iff_right]
      exact hin
    obtain ⟨i, j, f1, f2, f3⟩ := sameAt_of_bl (v := v + s) hw h2' (by rw [hd0]; linarith [hm1 (show p ≤ Q1.length by omega)])
      (by rw [hd1]; linarith) (by rw [hkm]; linarith) (by rw [hkm]; linarith) hin' hin2 (by
        intro xs hx
        have := bl_window (t := kf U) (t' := kf (U2.map (fun k => k + s))) hmU (kf_mono h2'.sorted) (p := p) (a := Q1.length - 1)
          (n' := Q2.length) (k' := i') (c := pf P) (c' := pf Q2) (fun j hj _ => by rw [hkm, hB j hj]) (fun i hi => (hP2 i hi).symm) a1 a2
          (by rw [show i' + (Q1.length - 1) + 1 = i' + 1 + (Q1.length - 1) by omega, hB (i' + 1) (by omega), hB i' (by omega)]; linarith)
          (by rw [hkm, hkm]; linarith) xs hx
        exact this.symm)
    obtain rfl : j = i' := by rw [e2] at f2; exact (Except.ok.inj f2).symm
    refine ⟨i, j, f1, e', ?_⟩
    intro d
    rw [f3 d]
    have := spanDer_affine_knots (t := kf U2) (t' := kf (U2.map (fun k => k + s))) (g := 1) (e := s) one_ne_zero (fun j => by rw [hkm]; ring)
      a1 a2 (pf Q2) d v
    rw [one_mul, inv_one, one_pow, one_smul] at this
    exact this

end Gbs
