import Verif.Props.Unify

/-! # Curves already made compatible -/

namespace Gbs

set_option linter.unusedSectionVars false

open scoped BigOperators

variable {K : Type} [Field K] [LinearOrder K] [IsStrictOrderedRing K]
variable {V : Type} [AddCommGroup V] [Module K V]

/-- A clamped curve with separated knots, in terms of its different knots and their multiplicities. -/
theorem CurveInfo.Clamped.by {eps : K} (heps : 0 < eps) {c : CurveInfo K V} (h : c.Clamped) (hsep : SepL eps c.knots) :
    ∃ ks ms, c.toCurve.ClampedBy eps ks ms := by
  have hk := h.kc
  have hm := kf_mono h.sorted
  have hlen := h.len
  have hne : c.knots ≠ [] := hk.wf.ne
  obtain ⟨km, -, hD⟩ := unflatPairs_desc heps hne h.sorted hsep
  set ks := km.map Prod.fst with hks
  set ms := km.map Prod.snd with hms
  have hlks : ks.length = km.length := by rw [hks, List.length_map]
  have hlms : ms.length = km.length := by rw [hms, List.length_map]
  have hkf : ∀ i (hi : i < km.length), kf ks i = (km[i]).1 := by
    intro i hi
    rw [kf_of_lt (by rw [hlks]; exact hi)]
    simp [hks]
  have hmg : ∀ i (hi : i < km.length), ms.getD i 0 = (km[i]).2 := by
    intro i hi
    rw [List.getD_eq_getElem?_getD, hms, List.getElem?_map, List.getElem?_eq_getElem hi]
    rfl
  have hstrict : ∀ i j, i < j → j < km.length → kf ks i < kf ks j := by
    intro i j hij hj
    have hi : i < km.length := by omega
    have := List.pairwise_iff_getElem.mp hD.sorted i j (by simpa using hi) (by simpa using hj) hij
    rw [hkf i hi, hkf j hj]
    simpa using this
  have hcnt : ∀ i (hi : i < km.length), c.knots.count (kf ks i) = ms.getD i 0 ∧ 1 ≤ ms.getD i 0 := by
    intro i hi
    rw [hkf i hi, hmg i hi]
    exact hD.cnt _ (List.getElem_mem hi)
  have hmemk : ∀ i, i < km.length → kf ks i ∈ c.knots := by
    intro i hi
    obtain ⟨h1, h2⟩ := hcnt i hi
    exact List.count_pos_iff.mp (by omega)
  have hall : ∀ x ∈ c.knots, ∃ i, i < km.length ∧ kf ks i = x := by
    intro x hx
    obtain ⟨m, hm⟩ := hD.all x hx
    obtain ⟨i, hi, e⟩ := List.getElem_of_mem hm
    exact ⟨i, hi, by rw [hkf i hi, e]⟩
  have hpos : 0 < km.length := by
    obtain ⟨i, hi, -⟩ := hall _ (kf_mem hne 0)
    omega
  have h0 : kf ks 0 = kf c.knots 0 := by
    apply le_antisymm
    · obtain ⟨i, hi, e⟩ := hall _ (kf_mem hne 0)
      rw [← e]
      rcases Nat.eq_zero_or_pos i with rfl | h'
      · exact le_rfl
      · exact (hstrict 0 i h' hi).le
    · exact ((hk.mem _ (hmemk 0 hpos)).1)
  have h1 : kf ks (km.length - 1) = kLast c.knots := by
    apply le_antisymm
    · exact ((hk.mem _ (hmemk _ (by omega))).2)
    · obtain ⟨i, hi, e⟩ := hall (kLast c.knots) (kf_mem hne _)
      rw [← e]
      rcases Nat.lt_or_ge i (km.length - 1) with h' | h'
      · exact (hstrict i _ h' (by omega)).le
      · obtain rfl : i = km.length - 1 := by omega
        exact le_rfl
  have hflat : c.knots = flatF (kf ks) (fun i => ms.getD i 0) ks.length := by
    apply eq_flatF _ h.sorted
    · intro x
      rw [count_flatF, hlks]
      by_cases hx : x ∈ c.knots
      · obtain ⟨i, hi, rfl⟩ := hall x hx
        rw [(hcnt i hi).1, Finset.sum_eq_single i]
        · rw [if_pos rfl]
        · intro j hj hji
          have hj := Finset.mem_range.mp hj
          rw [if_neg]
          intro he
          rcases Nat.lt_or_gt_of_ne hji with h' | h'
          · exact absurd he (hstrict j i h' hi).ne
          · exact absurd he (hstrict i j h' hj).ne'
        · intro hn; exact absurd (Finset.mem_range.mpr hi) hn
      · rw [List.count_eq_zero_of_not_mem hx, eq_comm]
        apply Finset.sum_eq_zero
        intro i hi
        rw [if_neg]
        intro he
        exact hx (he ▸ hmemk i (Finset.mem_range.mp hi))
    · intro i j hij hj
      rw [hlks] at hj
      rcases Nat.lt_or_ge i j with h' | h'
      · exact (hstrict i j h' hj).le
      · obtain rfl : i = j := by omega
        exact le_rfl
  have hmsg : ∀ i, i < km.length → ms[i]? = some (ms.getD i 0) := by
    intro i hi
    rw [List.getD_eq_getElem?_getD, List.getElem?_eq_getElem (by omega)]
    rfl
  refine ⟨ks, ms, ⟨h.deg, ?_, ?_, ?_, ?_, ?_⟩, hk.good⟩
  · rw [flatF_eq_flatKnots ks ms (by rw [hlks, hlms])]
    exact congrArg _ hflat.symm
  · rw [List.pairwise_iff_getElem]
    intro i j hi hj hij
    rw [← kf_of_lt hi, ← kf_of_lt hj]
    have := hsep _ (hmemk i (by omega)) _ (hmemk j (by omega)) (hstrict i j hij (by omega))
    linarith
  · rw [List.head?_eq_getElem?, hmsg 0 hpos, ← (hcnt 0 hpos).1, h0]
    exact congrArg some h.first
  · rw [List.getLast?_eq_getElem?, hlms, hmsg _ (by omega), ← (hcnt _ (by omega)).1, h1]
    exact congrArg some h.last
  · intro i x hi0 hi1 hx
    rw [hlms] at hi1
    rw [hmsg i (by omega)] at hx
    obtain rfl := Option.some.inj hx
    obtain ⟨c1, c2⟩ := hcnt i (by omega)
    refine ⟨c2, ?_⟩
    rw [← c1]
    apply h.mid
    · rw [← h0]; exact hstrict 0 i hi0 (by omega)
    · rw [← h1]; exact hstrict i _ (by omega) (by omega)

/-- Two curves on the same knots with the same points have the same poles. -/
theorem CurveInfo.eq_of_points {eps : K} (heps : 0 < eps) {c c' : CurveInfo K V} (h : c.Clamped) (hp : c.deg ≤ stackMaxDegree)
    (hd : c'.deg = c.deg) (hk : c'.knots = c.knots) (hg : c'.toCurve.Good)
    (hv : ∀ v, c.toCurve.b0 ≤ v → v ≤ c.toCurve.b1 → ∀ junk junk' : K, c'.toCurve.value eps junk v 0 = c.toCurve.value eps junk' v 0) :
    c' = c := by
  have hG := h.kc.good
  have hlen : c'.poles.length = c.poles.length := by
    have h1 : c'.knots.length = c'.poles.length + c'.deg + 1 := hg.wf.len
    have h2 := h.len
    rw [hk, hd] at h1
    omega
  have hS : SameVal c.deg c.knots c.poles c.knots c'.poles := by
    intro v h1 h2
    have hb1 : c.toCurve.b0 ≤ v := by rw [hG.lo]; exact h1
    have hb2 : v ≤ c.toCurve.b1 := by rw [hG.hi]; exact h2
    obtain ⟨i, e, -, -, -, ev⟩ := Curve.value_span heps hG (Or.inl hp) hb1 hb2
    have ebb0 : c'.toCurve.b0 = c.toCurve.b0 := by show kf c'.knots 0 = kf c.knots 0; rw [hk]
    have ebb1 : c'.toCurve.b1 = c.toCurve.b1 := by show kLast c'.knots = kLast c.knots; rw [hk]
    obtain ⟨i', e', -, -, -, ev'⟩ := Curve.value_span heps hg (Or.inl (by show c'.deg ≤ _; rw [hd]; exact hp)) (u := v)
      (by rw [ebb0]; exact hb1) (by rw [ebb1]; exact hb2)
    have e1 : findSpan c'.poles.length c.deg v c.knots = .ok i' := by
      have := e'
      rw [show c'.toCurve.poles = c'.poles from rfl, show c'.toCurve.deg = c'.deg from rfl, show c'.toCurve.knots = c'.knots from rfl, hd, hk] at this
      exact this
    refine ⟨i, i', e, e1, ?_⟩
    have h3 := hv v hb1 hb2 0 0
    rw [ev, ev'] at h3
    have h4 := Except.ok.inj h3
    rw [show c'.toCurve.knots = c.knots from hk, show c'.toCurve.deg = c.deg from hd] at h4
    exact h4.symm
  have hw' : Wf c.deg c.knots c'.poles := by
    have := hg.wf
    rw [show c'.toCurve.knots = c.knots from hk, show c'.toCurve.deg = c.deg from hd] at this
    exact this
  have hP := SameVal.poles_eq h.kc.wf hw' hS (by
    intro i hi
    by_contra hc
    have hm := kf_mono h.sorted
    have heq : kf c.knots i = kf c.knots (i + c.deg + 1) := le_antisymm (hm (by omega)) (not_lt.mp hc)
    have hlen := h.len
    have hcount : c.deg + 2 ≤ c.knots.count (kf c.knots i) := by
      rw [count_eq_multOf h.sorted]
      unfold multOf
      have a1 : lowerBound c.knots (kf c.knots i) ≤ i := by
        by_contra hcc
        exact lt_irrefl _ (kf_lt_of_lt_lowerBound (U := c.knots) (u := kf c.knots i) (j := i) (by omega))
      have a2 : i + c.deg + 2 ≤ upperBound c.knots (kf c.knots i) := by
        by_contra hcc
        have hle := upperBound_le c.knots (kf c.knots i)
        have h3 := lt_kf_upperBound (U := c.knots) (u := kf c.knots i) (by omega)
        have h4 : kf c.knots (upperBound c.knots (kf c.knots i)) ≤ kf c.knots (i + c.deg + 1) := hm (by omega)
        rw [← heq] at h4
        linarith
      omega
    have hmemi := h.kc.mem _ (kf_mem h.kc.wf.ne i)
    rcases lt_trichotomy (kf c.knots 0) (kf c.knots i) with h1 | h1 | h1
    · rcases lt_trichotomy (kf c.knots i) (kLast c.knots) with h2 | h2 | h2
      · have := h.mid _ h1 h2; omega
      · rw [h2, h.last] at hcount; omega
      · linarith [hmemi.2]
    · rw [← h1, h.first] at hcount; omega
    · linarith [hmemi.1])
  cases c
  cases c'
  simp only at hd hk hP
  rw [hd, hk, hP]

theorem CurveInfo.eq_of_values {eps : K} (heps : 0 < eps) {c c' : CurveInfo K V} (h : c.Clamped) (hp : c.deg ≤ stackMaxDegree)
    (hd : c'.deg = c.deg) (hk : c'.knots = c.knots) (hg : c'.toCurve.Good)
    (hv : ∀ v d, c.toCurve.b0 ≤ v → v ≤ c.toCurve.b1 → ∀ junk junk' : K, c'.toCurve.value eps junk v d = c.toCurve.value eps junk' v d) :
    c' = c := CurveInfo.eq_of_points heps h hp hd hk hg (fun v => hv v 0)

/-- Curves with the same degree and the same knots are left as they are. -/
theorem unify_again {eps : K} (heps : 0 < eps) {l : List (CurveInfo K V)} (hne : l ≠ []) {q : ℕ} (hq : q ≤ 12) {W : List K} (hsep : SepL eps W)
    (hl : ∀ c ∈ l, c.deg = q ∧ c.knots = W ∧ c.Clamped) : unifyDegree eps l = .ok l ∧ unifyKnots eps l = .ok l := by
  have hq24 : q ≤ stackMaxDegree := by have : stackMaxDegree = 24 := rfl; omega
  constructor
  · obtain ⟨out, q', e, h1, ⟨c1, hc1, e1⟩, hR⟩ := C50_unify_degree heps hne (fun c hc => by rw [(hl c hc).1]; exact hq)
      (fun c hc => (hl c hc).2.2.by heps (by rw [(hl c hc).2.1]; exact hsep))
    have hqq : q' = q := by rw [← e1]; exact (hl c1 hc1).1
    subst hqq
    have : l = out := by
      apply List.forall₂_eq_eq_eq ▸ (List.forall₂_iff_get.mpr ⟨hR.length_eq, ?_⟩)
      intro i hi hi2
      have hr := hR.get hi hi2
      have hmem : l.get ⟨i, hi⟩ ∈ l := List.getElem_mem hi
      generalize l.get ⟨i, hi⟩ = c at hr hmem
      generalize out.get ⟨i, hi2⟩ = c' at hr
      obtain ⟨d1, d2, d3⟩ := hl c hmem
      obtain ⟨ks, ms, hk⟩ := d3.by heps (by rw [d2]; exact hsep)
      have hk' := hr.knots ks ms hk
      rw [d1, Nat.sub_self] at hk'
      simp only [Nat.add_zero, List.map_id'] at hk'
      have hkk : c'.knots = c.knots := by
        have a := hk.flat
        have b := hk'.flat
        rw [a] at b
        exact (Except.ok.inj b).symm
      refine (CurveInfo.eq_of_values heps d3 (by rw [d1]; exact hq24) (by rw [hr.deg, d1]) hkk hk'.good ?_).symm
      intro v d h1 h2 junk junk'
      obtain ⟨pt, a, b⟩ := hr.value v h1 h2 junk' junk d
      rw [a, b]
    rw [e, ← this]
  · cases l with
    | nil => exact absurd rfl hne
    | cons c0 cs =>
      obtain ⟨d1, d2, d3⟩ := hl c0 List.mem_cons_self
      have hlt := d3.lt
      have hid : ∀ c ∈ c0 :: cs, c.knots.map (rescale (kf c0.knots 0) (kLast c0.knots) c.knots) = W := by
        intro c hc
        rw [(hl c hc).2.1, d2]
        conv_rhs => rw [← List.map_id W]
        apply List.map_congr_left
        intro x _
        unfold rescale
        rw [d2] at hlt
        rw [mul_comm, mul_div_assoc, div_self (by linarith)]
        simp
      obtain ⟨out, W', e, hU, hW⟩ := C50_unify_knots heps (c0 := c0) (cs := cs) hq24 (fun c hc => ⟨(hl c hc).1, (hl c hc).2.2⟩) (by
        intro x hx y hy
        obtain ⟨c, hc, hx⟩ := List.mem_flatMap.mp hx
        obtain ⟨c', hc', hy⟩ := List.mem_flatMap.mp hy
        rw [hid c hc] at hx
        rw [hid c' hc'] at hy
        exact hsep x hx y hy)
      have hU0 := hU
      obtain ⟨c0', cs', h0, -, rfl⟩ := List.forall₂_cons_left_iff.mp hU
      have hW' : W' = W := by
        have hperm : W'.Perm W := by
          rw [List.perm_iff_count]
          intro x
          obtain ⟨-, c, hc, h⟩ := hW x
          rw [hid c hc] at h
          exact h.symm
        refine hperm.eq_of_pairwise (fun _ _ _ _ a b => le_antisymm a b) ?_ ?_
        · rw [← h0.knots]; exact h0.clamped.sorted
        · rw [← d2]; exact d3.sorted
      have : c0 :: cs = c0' :: cs' := by
        apply List.forall₂_eq_eq_eq ▸ (List.forall₂_iff_get.mpr ⟨hU0.length_eq, ?_⟩)
        intro i hi hi2
        have hr := hU0.get hi hi2
        have hmem : (c0 :: cs).get ⟨i, hi⟩ ∈ c0 :: cs := List.getElem_mem hi
        generalize (c0 :: cs).get ⟨i, hi⟩ = c at hr hmem
        generalize (c0' :: cs').get ⟨i, hi2⟩ = c' at hr
        obtain ⟨f1, f2, f3⟩ := hl c hmem
        refine (CurveInfo.eq_of_values heps f3 (by rw [f1]; exact hq24) (by rw [hr.deg, f1]) (by rw [hr.knots, hW', f2]) hr.good ?_).symm
        intro v d h1 h2 junk junk'
        have ea : kf c0.knots 0 = c.toCurve.b0 := by show _ = kf c.knots 0; rw [d2, f2]
        have eb : kLast c0.knots = c.toCurve.b1 := by show _ = kLast c.knots; rw [d2, f2]
        have hpos : 0 < c.toCurve.b1 - c.toCurve.b0 := by have := f3.lt; show 0 < kLast c.knots - kf c.knots 0; linarith
        obtain ⟨pt, a, b⟩ := hr.value ((v - c.toCurve.b0) / (c.toCurve.b1 - c.toCurve.b0)) d (div_nonneg (by linarith) hpos.le)
          ((div_le_one hpos).mpr (by linarith)) junk' junk
        rw [ea, eb, mul_div_cancel₀ _ hpos.ne', div_self hpos.ne', one_pow, one_smul, add_sub_cancel] at b
        rw [mul_div_cancel₀ _ hpos.ne', add_sub_cancel] at a
        rw [a, b]
      rw [e, ← this]

end Gbs
