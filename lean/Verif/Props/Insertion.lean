import Verif.Lemmas.InsertCurve
import Verif.Props.Evaluation

/-! # Knot insertion: C16, C17, C18, C19 -/

namespace Gbs

set_option linter.unusedSectionVars false

variable {K : Type} [Field K] [LinearOrder K] [IsStrictOrderedRing K]
variable {V : Type} [AddCommGroup V] [Module K V]

theorem insertKnots_full {u : K} {p r : ℕ} {U : List K} {P : List V} (h : p ≤ multOf U u) :
    insertKnots u p r U P =
      .ok ((upperBound U u : ℤ) - 1 - p - (if upperBound U u = U.length then 1 else 0), U, P) := by
  unfold insertKnots
  simp only
  rw [if_pos (show p ≤ upperBound U u - lowerBound U u from h)]
  rfl

/-- Same map, same values: two good curves related by `SameMap` evaluate to the same vectors. -/
theorem SameMap.value_eq {eps : K} (heps : 0 < eps) {c c' : Curve K V} (h : c.Good) (h' : c'.Good)
    (hb : c.BigOk eps) (hb' : c'.BigOk eps)
    (hs : SameMap c.deg c.knots c.poles c'.deg c'.knots c'.poles)
    (hd : c'.b0 ≤ c.b0) (hd' : c.b1 ≤ c'.b1)
    {v : K} (h1 : c.b0 ≤ v) (h2 : v ≤ c.b1) (junk junk' : K) (d : ℕ) :
    ∃ pt, c.value eps junk v d = .ok pt ∧ c'.value eps junk' v d = .ok pt := by
  obtain ⟨i, i', e, e', hh⟩ := hs v (by rw [← h.lo]; exact h1) (by rw [← h.hi]; exact h2)
  refine ⟨spanDer (kf c.knots) c.poles.length c.deg i (pf c.poles) d v, ?_, ?_⟩
  · rw [Curve.value_inBounds heps h1 h2]
    exact evalValue_all h.wf (Curve.evalOk heps h hb h1 (by linarith)) d e
  · rw [Curve.value_inBounds heps (le_trans hd h1) (le_trans h2 hd'), hh d]
    exact evalValue_all h'.wf (Curve.evalOk heps h' hb' (le_trans hd h1) (by linarith)) d e'

/-- What an evaluation above degree 24 needs after the insertion of `u`. -/
def Curve.BigOkIns (eps : K) (c : Curve K V) (u : K) : Prop :=
  c.deg ≤ stackMaxDegree ∨ (Sep eps c.knots ∧ c.b1 = kLast c.knots ∧
    ∀ i, kf c.knots i ≠ u → eps < |kf c.knots i - u|)

theorem Curve.BigOkIns.bigOk {eps : K} {c : Curve K V} {u : K} (h : c.BigOkIns eps u) : c.BigOk eps := by
  rcases h with h | ⟨h1, h2, -⟩
  · exact Or.inl h
  · exact Or.inr ⟨h1, h2⟩

theorem sep_insKnots {eps : K} {U : List K} {k r : ℕ} {u : K} (hk : k + 1 < U.length)
    (hs : Sep eps U) (hu : ∀ i, kf U i ≠ u → eps < |kf U i - u|) : Sep eps (insKnots U k r u) := by
  have hv : ∀ j, kf (insKnots U k r u) j = u ∨ ∃ i, kf (insKnots U k r u) j = kf U i := by
    intro j
    rw [kf_insKnots hk]
    unfold tIns
    split
    · exact Or.inr ⟨j, rfl⟩
    · split
      · exact Or.inl rfl
      · exact Or.inr ⟨_, rfl⟩
  intro a b hab
  rcases hv a with ha | ⟨i, ha⟩ <;> rcases hv b with hb | ⟨j, hb⟩ <;> rw [ha, hb] at hab ⊢
  · exact absurd hab (lt_irrefl _)
  · have := hu j hab.ne'
    rwa [abs_of_pos (sub_pos.mpr hab)] at this
  · have := hu i hab.ne
    rwa [abs_of_neg (sub_neg.mpr hab), neg_sub] at this
  · exact hs i j hab

/-- C16: inserting a knot strictly inside of the domain, any positive number of times, succeeds and gives a
curve with the same bounds and the same value and derivatives of all orders at every parameter. -/
theorem C16_insert_keeps_curve {eps : K} (heps : 0 < eps) {c : Curve K V} (h : c.Good) {u : K}
    (hb : c.BigOkIns eps u) (h1 : c.b0 < u) (h2 : u < c.b1) {m : ℕ} (hm : 1 ≤ m) :
    ∃ idx c', c.insertKnot u m = .ok (idx, c') ∧ c'.Good ∧ c'.b0 = c.b0 ∧ c'.b1 = c.b1 ∧
      ∀ v, c.b0 ≤ v → v ≤ c.b1 → ∀ (junk junk' : K) (d : ℕ),
        ∃ pt, c.value eps junk v d = .ok pt ∧ c'.value eps junk' v d = .ok pt := by
  rw [h.lo] at h1
  rw [h.hi] at h2
  by_cases hs : multOf c.knots u < c.deg
  · obtain ⟨Q, e, hl, hw, d0, d1, hS, -⟩ := insertKnots_same h.wf h1 h2 hm hs rfl rfl
    have hlen := h.wf.len
    have hup := h.wf.min
    have hkl : upperBound c.knots u - 1 + 1 < c.knots.length := by
      obtain ⟨hi, -⟩ := insOk_of h.wf.sorted h.wf.len h1.le h2 (r := 1) le_rfl (by omega)
      have := hi.kn
      omega
    refine ⟨((upperBound c.knots u - 1 : ℕ) : ℤ) + 1 + (min m (c.deg - multOf c.knots u) : ℕ) - (c.deg + 1), { c with knots := insKnots c.knots (upperBound c.knots u - 1) (min m (c.deg - multOf c.knots u)) u, poles := Q },
      ?_, ?_, rfl, rfl, ?_⟩
    · unfold Curve.insertKnot
      rw [e]
      rfl
    · exact ⟨hw, h.lo.trans d0.symm, h.hi.trans d1.symm⟩
    · intro v hv1 hv2 junk junk' d
      refine SameMap.value_eq (c' := { c with knots := insKnots c.knots (upperBound c.knots u - 1) (min m (c.deg - multOf c.knots u)) u, poles := Q }) heps h ⟨hw, h.lo.trans d0.symm, h.hi.trans d1.symm⟩ hb.bigOk ?_ hS le_rfl le_rfl hv1 hv2 junk junk' d
      rcases hb with hb | ⟨hb1, hb2, hb3⟩
      · exact Or.inl hb
      · refine Or.inr ⟨sep_insKnots hkl hb1 hb3, ?_⟩
        simp only
        rw [hb2]
        unfold kLast
        rw [insKnots_length (by omega), kf_insKnots hkl]
        unfold tIns
        rw [if_neg (by omega), if_neg (by omega)]
        congr 1
        omega
  · refine ⟨(upperBound c.knots u : ℤ) - 1 - c.deg - (if upperBound c.knots u = c.knots.length then 1 else 0), c, ?_, h, rfl, rfl, ?_⟩
    · unfold Curve.insertKnot
      rw [insertKnots_full (by omega)]
      rfl
    · intro v hv1 hv2 junk junk' d
      exact SameMap.value_eq heps h h hb.bigOk hb.bigOk (SameMap.refl h.wf) le_rfl le_rfl hv1 hv2 junk junk' d

example : Sample.c.Good ∧ Sample.c.BigOkIns (1/1000000) (3/2) ∧ Sample.c.b0 < 3/2 ∧ 3/2 < Sample.c.b1 :=
  ⟨Sample.c_good, Or.inl (by decide), by decide +kernel, by decide +kernel⟩

/-- C17: the insertion adds exactly `min m (p - s)` occurrences of `u` to the knots (`s` being the number of knots
equal to `u`), keeps them sorted, adds as many poles, and does not change the degree. -/
theorem C17_insert_shape {c : Curve K V} (h : c.Good) {u : K}
    (h1 : c.b0 < u) (h2 : u < c.b1) {m : ℕ} (hm : 1 ≤ m) :
    ∃ idx c', c.insertKnot u m = .ok (idx, c') ∧ c'.deg = c.deg ∧
      c'.knots.Perm (List.replicate (min m (c.deg - c.knots.count u)) u ++ c.knots) ∧
      c'.knots.Pairwise (· ≤ ·) ∧
      c'.poles.length = c.poles.length + min m (c.deg - c.knots.count u) ∧
      (c.deg ≤ c.knots.count u → c' = c) := by
  have hcount : c.knots.count u = multOf c.knots u := by
    have hsort := h.wf.sorted
    have hlu := lowerBound_le_upperBound c.knots u
    have hul := upperBound_le c.knots u
    have hsplit : c.knots = c.knots.take (lowerBound c.knots u) ++
        ((c.knots.drop (lowerBound c.knots u)).take (multOf c.knots u) ++ c.knots.drop (upperBound c.knots u)) := by
      conv_lhs => rw [← List.take_append_drop (lowerBound c.knots u) c.knots]
      congr 1
      conv_lhs => rw [← List.take_append_drop (multOf c.knots u) (c.knots.drop (lowerBound c.knots u))]
      rw [List.drop_drop]
      congr 2
      unfold multOf; omega
    have hc := congrArg (List.count u) hsplit
    rw [List.count_append, List.count_append] at hc
    have hm := kf_mono hsort
    have z1 : (c.knots.take (lowerBound c.knots u)).count u = 0 := by
      rw [List.count_eq_zero]
      intro hx
      obtain ⟨i, hi, hx⟩ := List.mem_take_iff_getElem.mp hx
      have := kf_lt_of_lt_lowerBound (U := c.knots) (u := u) (j := i) (by omega)
      rw [kf_of_lt (by omega), hx] at this
      exact lt_irrefl _ this
    have z2 : (c.knots.drop (upperBound c.knots u)).count u = 0 := by
      rw [List.count_eq_zero]
      intro hx
      obtain ⟨i, hi, hx⟩ := List.mem_drop_iff_getElem.mp hx
      have a1 := lt_kf_upperBound (U := c.knots) (u := u) (by omega)
      have a2 := hm (show upperBound c.knots u ≤ upperBound c.knots u + i by omega)
      rw [kf_of_lt (i := upperBound c.knots u + i) (by omega)] at a2
      rw [hx] at a2
      exact absurd a1 (not_lt.mpr a2)
    have z3 : (c.knots.drop (lowerBound c.knots u)).take (multOf c.knots u) = List.replicate (multOf c.knots u) u := by
      rw [List.eq_replicate_iff]
      refine ⟨by simp [multOf]; omega, ?_⟩
      intro x hx
      obtain ⟨i, hi, hx⟩ := List.mem_take_iff_getElem.mp hx
      unfold multOf at hi
      simp only [List.length_drop] at hi
      rw [List.getElem_drop] at hx
      have a1 := kf_le_of_lt_upperBound (U := c.knots) (u := u) (j := lowerBound c.knots u + i) (by omega)
      have a2 := le_trans (le_kf_lowerBound (U := c.knots) (u := u) (by omega)) (hm (show lowerBound c.knots u ≤ lowerBound c.knots u + i by omega))
      have a3 := le_antisymm a1 a2
      rw [kf_of_lt (by omega)] at a3
      rw [← hx, a3]
    rw [z1, z2, z3, List.count_replicate_self] at hc
    omega
  rw [h.lo] at h1
  rw [h.hi] at h2
  by_cases hs : multOf c.knots u < c.deg
  · obtain ⟨Q, e, hl, hw, d0, d1, hS, -⟩ := insertKnots_same h.wf h1 h2 hm hs rfl rfl
    refine ⟨((upperBound c.knots u - 1 : ℕ) : ℤ) + 1 + (min m (c.deg - multOf c.knots u) : ℕ) - (c.deg + 1), { c with knots := insKnots c.knots (upperBound c.knots u - 1) (min m (c.deg - multOf c.knots u)) u, poles := Q },
      ?_, rfl, ?_, hw.sorted, ?_, ?_⟩
    · unfold Curve.insertKnot
      rw [e]
      rfl
    · rw [hcount]; exact insKnots_perm _ _ _ _
    · rw [hcount]; exact hl
    · intro hc; omega
  · refine ⟨(upperBound c.knots u : ℤ) - 1 - c.deg - (if upperBound c.knots u = c.knots.length then 1 else 0), c, ?_, rfl, ?_, h.wf.sorted, ?_, fun _ => rfl⟩
    · unfold Curve.insertKnot
      rw [insertKnots_full (by omega)]
      rfl
    · rw [hcount, show min m (c.deg - multOf c.knots u) = 0 by omega]
      exact List.Perm.refl _
    · rw [hcount]; omega

/-- C18: when `u` reaches (or already has) multiplicity `p`, the returned index designates a pole equal to the
value of the curve at `u`. -/
theorem C18_insert_full_pole {eps : K} (heps : 0 < eps) {c : Curve K V} (h : c.Good) {u : K}
    (hb : c.BigOk eps) (h1 : c.b0 < u) (h2 : u < c.b1) {m : ℕ} (hm : c.deg ≤ multOf c.knots u + m)
    (hm1 : 1 ≤ m) (junk : K) :
    ∃ (i : ℕ) (c' : Curve K V), c.insertKnot u m = .ok ((i : ℤ), c') ∧ i < c'.poles.length ∧
      c.value eps junk u = .ok (pf c'.poles i) := by
  have hv := C04_value_eq_sum heps h hb h1.le h2.le junk
  rw [h.lo] at h1
  rw [h.hi] at h2
  have hmono := kf_mono h.wf.sorted
  have hlen := h.wf.len
  by_cases hs : multOf c.knots u < c.deg
  · obtain ⟨Q, e, hl, hw, d0, d1, hS, hpole⟩ := insertKnots_same h.wf h1 h2 hm1 hs rfl rfl
    obtain ⟨hi, -⟩ := insOk_of h.wf.sorted h.wf.len h1.le h2 (r := 1) le_rfl (by omega)
    have hpk := hi.pk; have hkn := hi.kn
    refine ⟨upperBound c.knots u - 1 - multOf c.knots u,
      { c with knots := insKnots c.knots (upperBound c.knots u - 1) (min m (c.deg - multOf c.knots u)) u, poles := Q }, ?_, ?_, ?_⟩
    · unfold Curve.insertKnot
      rw [e]
      simp only [R_bind_ok, R_pure]
      congr 2
      omega
    · simp only; omega
    · rw [hv, hpole hm]
      have hin : Spec.InSpan (kf c.knots) (kf c.knots c.poles.length) (upperBound c.knots u - 1) u := by
        unfold Spec.InSpan
        rw [if_neg h2.ne]
        exact ⟨hi.lo, hi.hi⟩
      exact congrArg _ (curve_eq_bl hmono hin hpk hkn (pf c.poles))
  · have hs' : c.deg ≤ multOf c.knots u := by omega
    have hup : c.deg < upperBound c.knots u := by
      by_contra hc
      have a1 : upperBound c.knots u < c.knots.length := by omega
      have a2 := lt_kf_upperBound a1
      have a3 := hmono (show upperBound c.knots u ≤ c.deg by omega)
      exact lt_asymm h1 (lt_of_lt_of_le a2 a3)
    have hn : upperBound c.knots u ≤ c.poles.length := by
      by_contra hc
      have := kf_le_of_lt_upperBound (U := c.knots) (u := u) (j := c.poles.length) (by omega)
      exact absurd h2 (not_lt.mpr this)
    refine ⟨upperBound c.knots u - 1 - c.deg, c, ?_, by omega, ?_⟩
    · unfold Curve.insertKnot
      rw [insertKnots_full hs', if_neg (by omega)]
      simp only [R_bind_ok, R_pure]
      congr 2
      omega
    · rw [hv]
      have hin : Spec.InSpan (kf c.knots) (kf c.knots c.poles.length) (upperBound c.knots u - 1) u := by
        unfold Spec.InSpan
        rw [if_neg h2.ne]
        refine ⟨kf_le_of_lt_upperBound (by omega), ?_⟩
        rw [show upperBound c.knots u - 1 + 1 = upperBound c.knots u by omega]
        exact lt_kf_upperBound (by omega)
      refine congrArg _ ((curve_eq_bl hmono hin (by omega) (by omega) (pf c.poles)).trans ?_)
      rw [← bl_dual hmono (InSpan_bounds hin).2.2 c.deg (pf c.poles) (upperBound c.knots u - 1 - c.deg) (by omega) (by omega) (by omega)]
      congr 1
      symm
      apply seg_const
      intro j hj
      apply le_antisymm
      · exact kf_le_of_lt_upperBound (by omega)
      · have hlu := lowerBound_le_upperBound c.knots u
        unfold multOf at hs'
        exact le_trans (le_kf_lowerBound (by omega)) (hmono (by omega))

/-- C18 at the ends of a clamped curve. -/
theorem C18_insert_ends {eps : K} (heps : 0 < eps) {c : Curve K V} (h : c.Good)
    (hb : c.BigOk eps) (hdeg : 1 ≤ c.deg)
    (hc0 : ∀ j, j ≤ c.deg → kf c.knots j = c.b0)
    (hc1 : ∀ j, c.poles.length ≤ j → kf c.knots j = c.b1) (m : ℕ) (junk : K) :
    (c.insertKnot c.b0 m = .ok (0, c) ∧ c.value eps junk c.b0 = .ok (pf c.poles 0)) ∧
    (c.insertKnot c.b1 m = .ok ((c.poles.length - 1 : ℕ), c) ∧
      c.value eps junk c.b1 = .ok (pf c.poles (c.poles.length - 1))) := by
  obtain ⟨v0, v1⟩ := C06_clamped_ends heps h hb junk
  have hmono := kf_mono h.wf.sorted
  have hlen := h.wf.len
  have hmin := h.wf.min
  refine ⟨⟨?_, v0 (fun j _ hj => hc0 j hj)⟩, ⟨?_, v1 (fun j hj _ => hc1 j hj)⟩⟩
  · have u1 : upperBound c.knots c.b0 = c.deg + 1 := by
      have hf := h.wf.first
      rw [← h.lo] at hf
      apply le_antisymm
      · by_contra hc
        have := kf_le_of_lt_upperBound (U := c.knots) (u := c.b0) (j := c.deg + 1) (by omega)
        exact absurd hf (not_lt.mpr this)
      · by_contra hc
        have := lt_kf_upperBound (U := c.knots) (u := c.b0) (by omega)
        rw [hc0 _ (by omega)] at this
        exact lt_irrefl _ this
    have l1 : lowerBound c.knots c.b0 = 0 := by
      by_contra hc
      have := kf_lt_of_lt_lowerBound (U := c.knots) (u := c.b0) (j := 0) (by omega)
      rw [hc0 0 (by omega)] at this
      exact lt_irrefl _ this
    unfold Curve.insertKnot
    rw [insertKnots_full (by unfold multOf; omega), u1, if_neg (by omega)]
    simp only [R_bind_ok, R_pure]
    congr 2
    push_cast
    omega
  · have u1 : upperBound c.knots c.b1 = c.knots.length := by
      apply le_antisymm (upperBound_le _ _)
      by_contra hc
      have a1 := lt_kf_upperBound (U := c.knots) (u := c.b1) (by omega)
      rcases Nat.lt_or_ge (upperBound c.knots c.b1) c.poles.length with h2 | h2
      · have := hmono h2.le
        rw [hc1 _ le_rfl] at this
        exact absurd a1 (not_lt.mpr this)
      · rw [hc1 _ h2] at a1
        exact lt_irrefl _ a1
    have l1 : lowerBound c.knots c.b1 ≤ c.poles.length := by
      by_contra hc
      have := kf_lt_of_lt_lowerBound (U := c.knots) (u := c.b1) (j := c.poles.length) (by omega)
      rw [hc1 _ le_rfl] at this
      exact lt_irrefl _ this
    unfold Curve.insertKnot
    rw [insertKnots_full (by unfold multOf; omega), u1, if_pos rfl]
    simp only [R_bind_ok, R_pure]
    congr 2
    omega

/-- C19, what holds: when `u` already has full multiplicity, inserting it any number of times (0 included) is the
identity. -/
theorem C19_insert_zero_partial (c : Curve K V) {u : K} (hs : c.deg ≤ multOf c.knots u) (m : ℕ) :
    ∃ idx, c.insertKnot u m = .ok (idx, c) := by
  refine ⟨(upperBound c.knots u : ℤ) - 1 - c.deg - (if upperBound c.knots u = c.knots.length then 1 else 0), ?_⟩
  unfold Curve.insertKnot
  rw [insertKnots_full hs]
  rfl

/-- C19 is false: inserting zero times a parameter that is not a knot of full multiplicity changes the poles. -/
theorem C19_insert_zero_witness :
    ∃ idx c', Sample.c.insertKnot (3/2) 0 = .ok (idx, c') ∧ c'.knots = Sample.c.knots ∧
      c'.poles = [(0,0), (3,1), (4,-1), (4,-1), (6,0)] ∧ c'.poles ≠ Sample.c.poles := by
  refine ⟨1, ⟨2, [(0,0), (3,1), (4,-1), (4,-1), (6,0)], [0,0,0,1,2,3,3,3], 0, 3⟩, ?_, ?_, ?_, ?_⟩ <;> decide +kernel

/-- Inserting a parameter outside of the knots leaves the arrays: the code does not check it. -/
theorem C16_outside_witness : Sample.c.insertKnot (-1) 1 = .error .oob ∧ Sample.c.insertKnot 4 1 = .error .oob := by
  constructor <;> decide +kernel

end Gbs
