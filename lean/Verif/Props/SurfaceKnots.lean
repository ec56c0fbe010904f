import Verif.Props.Surface

/-! # Knot insertion on surfaces and isoparametric curves: C29, C30 -/

namespace Gbs

set_option linter.unusedSectionVars false

variable {K : Type} [Field K] [LinearOrder K] [IsStrictOrderedRing K]
variable {V : Type} [AddCommGroup V] [Module K V]

theorem spanDer_zero_bl {p : ℕ} {U : List K} {P : List V} (h : Wf p U P) {u : K} (h1 : kf U p ≤ u) (h2 : u ≤ kf U P.length)
    {i k : ℕ} (e : findSpan P.length p u U = .ok i) (hk : Spec.InSpan (kf U) (kf U P.length) k u) :
    spanDer (kf U) P.length p i (pf P) 0 u = bl (kf U) k (pf P) (List.replicate p u) := by
  obtain ⟨i', e', a1, a2, -, a4, -⟩ := findSpan_kwf h.kwf u
  obtain rfl : i' = i := by rw [e] at e'; exact (Except.ok.inj e').symm
  have hi := a4 h1 h2
  obtain rfl := InSpan_unique (kf_mono h.sorted) hi hk
  rw [spanDer_eq_curve (kf_mono h.sorted) hi, curve_eq_bl (kf_mono h.sorted) hi a1 a2]

/-- Inserting `u` up to the multiplicity `p` makes the point of parameter `u` a pole, whose index is the one returned. -/
theorem insertKnots_iso {p : ℕ} {U : List K} {P : List V} (h : Wf p U P) {u : K} (h1 : kf U p ≤ u)
    (h2 : u < kf U P.length ∨ (u = kf U P.length ∧ kf U P.length = kLast U)) {i : ℕ} (hsp : findSpan P.length p u U = .ok i) :
    ∃ (idx : ℕ) (U' : List K) (Q : List V), insertKnots u p p U P = .ok ((idx : ℤ), U', Q) ∧ idx < Q.length ∧
      U'.length = Q.length + p + 1 ∧ pf Q idx = spanDer (kf U) P.length p i (pf P) 0 u := by
  have hm := kf_mono h.sorted
  have hlen := h.len
  have hmin := h.min
  rcases h2 with h2 | ⟨h2, h3⟩
  · have hp : p < upperBound U u := by
      by_contra hc
      have := lt_kf_upperBound (U := U) (u := u) (by omega)
      have := hm (show upperBound U u ≤ p by omega)
      linarith
    have hn : upperBound U u ≤ P.length := by
      by_contra hc
      have := kf_le_of_lt_upperBound (U := U) (u := u) (j := P.length) (by omega)
      linarith
    have hspan : Spec.InSpan (kf U) (kf U P.length) (upperBound U u - 1) u := by
      unfold Spec.InSpan
      rw [if_neg h2.ne]
      refine ⟨kf_le_of_lt_upperBound (by omega), ?_⟩
      rw [show upperBound U u - 1 + 1 = upperBound U u by omega]
      exact lt_kf_upperBound (by omega)
    rw [spanDer_zero_bl h h1 h2.le hsp hspan]
    by_cases hs : multOf U u < p
    · obtain ⟨hi, Q, e, hl, q1, q2, q3⟩ := insertKnots_spec h.sorted h.len h1 h2 (r := p) (by omega) hs rfl rfl
      have hpk := hi.pk; have hkn := hi.kn; have hsr := hi.sr
      have hkk := upperBound_le U u
      obtain ⟨idx, hidx⟩ : ∃ idx : ℕ, idx = upperBound U u - 1 - multOf U u := ⟨_, rfl⟩
      refine ⟨idx, insKnots U (upperBound U u - 1) (min p (p - multOf U u)) u, Q, ?_, by omega, ?_, ?_⟩
      · rw [e]; congr 2; omega
      · rw [insKnots_length (by omega)]; omega
      · rw [hidx, q3 _ (by omega) (by omega)]
        congr 1
        apply seg_const
        intro j hj
        unfold tIns
        split
        · rename_i hc; exact hi.mult _ (by omega) hc
        · rw [if_pos (by omega)]
    · refine ⟨upperBound U u - 1 - p, U, P, ?_, by omega, hlen, ?_⟩
      · rw [insertKnots_full (by omega), if_neg (by omega)]; congr 2; omega
      · obtain ⟨-, -, p3⟩ := InSpan_bounds hspan
        rw [← bl_dual hm p3 p (pf P) (upperBound U u - 1 - p) (by omega) (by omega) (by omega)]
        congr 1
        apply seg_const
        intro j hj
        have hms : upperBound U u - lowerBound U u = multOf U u := rfl
        apply le_antisymm
        · exact kf_le_of_lt_upperBound (by omega)
        · exact le_trans (le_kf_lowerBound (by omega)) (hm (show lowerBound U u ≤ _ by omega))
  · have hub : upperBound U u = U.length := by
      by_contra hc
      have := upperBound_le U u
      have a := lt_kf_upperBound (U := U) (u := u) (by omega)
      have := kf_le_kLast h.sorted (upperBound U u)
      rw [← h3, ← h2] at this
      linarith
    have hlb : lowerBound U u ≤ P.length := by
      by_contra hc
      have := kf_lt_of_lt_lowerBound (U := U) (u := u) (j := P.length) (by omega)
      rw [← h2] at this
      linarith
    have hms : upperBound U u - lowerBound U u = multOf U u := rfl
    have hall : ∀ j, P.length ≤ j → kf U j = u := by
      intro j hj
      apply le_antisymm
      · have := kf_le_kLast h.sorted j; rw [← h3, ← h2] at this; exact this
      · rw [h2]; exact hm hj
    have hlast := h.last
    have hspan : Spec.InSpan (kf U) (kf U P.length) (P.length - 1) u := by
      unfold Spec.InSpan
      rw [if_pos h2]
      refine ⟨hlast, ?_⟩
      rw [show P.length - 1 + 1 = P.length by omega]
    rw [spanDer_zero_bl h h1 h2.le hsp hspan]
    refine ⟨P.length - 1, U, P, ?_, by omega, hlen, ?_⟩
    · rw [insertKnots_full (by omega), if_pos hub, hub]; congr 2; omega
    · obtain ⟨-, -, p3⟩ := InSpan_bounds hspan
      rw [← bl_dual hm p3 p (pf P) (P.length - 1) (by omega) (by omega) (by omega)]
      congr 1
      apply seg_const
      intro j hj
      exact hall _ (by omega)

/-! ## Operations along one direction, through the columns -/

theorem Surface.colsU_length (s : Surface K V) : s.colsU.length = s.nPU := cols_length _ _ _
theorem Surface.colsV_length (s : Surface K V) : s.colsV.length = s.nPV := cols_length _ _ _

theorem Surface.Wf.colsU_wf {s : Surface K V} (h : s.Wf) : Gbs.Wf s.degU s.knotsU s.colsU := by
  have := h.u
  rw [← s.colsU_length] at this
  exact this.wf rfl

theorem Surface.Wf.colsV_wf {s : Surface K V} (h : s.Wf) : Gbs.Wf s.degV s.knotsV s.colsV := by
  have := h.v
  rw [← s.colsV_length] at this
  exact this.wf rfl

/-- Two surfaces with the same second direction, the columns of which define the same map along `u`. -/
theorem Surface.value_of_colsU {eps : K} (heps : 0 < eps) {s s' : Surface K V} (h : s.Wf) (h' : s'.Wf)
    (hb : s.BigOk eps) (hb' : s'.BigOk eps) (hk : s'.knotsV = s.knotsV) (hd : s'.degV = s.degV)
    {Q : List (ℕ → V)} (hn : s'.nPU = Q.length) (hP : ∀ i j, i < Q.length → j < s.nPV → s'.P i j = pf Q i j)
    (hs : SameMap s.degU s.knotsU s.colsU s'.degU s'.knotsU Q) {u v : K} (hi : s.In u v) (hi' : s'.In u v)
    (junk junk' : K) (du dv : ℕ) : ∃ pt, s.value eps junk u v du dv = .ok pt ∧ s'.value eps junk' u v du dv = .ok pt := by
  obtain ⟨i, j, ei, ej, -, -, -, -, -, -, e⟩ := Surface.value_spec heps h hb hi
  obtain ⟨i', j', ei', ej', -, -, -, -, -, -, e'⟩ := Surface.value_spec heps h' hb' hi'
  have hnV : s'.nPV = s.nPV := by unfold Surface.nPV; rw [hk, hd]
  rw [hk, hnV, hd, ej] at ej'
  obtain rfl := Except.ok.inj ej'
  obtain ⟨a, b, ea, eb, hd'⟩ := hs u hi.ku0 (by rw [s.colsU_length]; exact hi.ku1)
  rw [s.colsU_length, ei] at ea
  rw [← hn, ei'] at eb
  obtain rfl := Except.ok.inj ea
  obtain rfl := Except.ok.inj eb
  refine ⟨_, e junk du dv, ?_⟩
  rw [e' junk' du dv, Surface.der_colsU, Surface.der_colsU]
  have := hd' du
  rw [s.colsU_length] at this
  rw [this, hk, hnV, hd]
  congr 1
  apply spanDer_congr
  intro y hy
  rw [spanDer_apply, spanDer_apply, hn]
  apply spanDer_congr
  intro x hx
  rw [← hP x y hx hy]
  unfold Surface.colsU
  rw [pf_cols (by omega) (by omega)]

theorem Surface.value_of_colsV {eps : K} (heps : 0 < eps) {s s' : Surface K V} (h : s.Wf) (h' : s'.Wf)
    (hb : s.BigOk eps) (hb' : s'.BigOk eps) (hk : s'.knotsU = s.knotsU) (hd : s'.degU = s.degU)
    {Q : List (ℕ → V)} (hn : s'.nPV = Q.length) (hP : ∀ i j, i < s.nPU → j < Q.length → s'.P i j = pf Q j i)
    (hs : SameMap s.degV s.knotsV s.colsV s'.degV s'.knotsV Q) {u v : K} (hi : s.In u v) (hi' : s'.In u v)
    (junk junk' : K) (du dv : ℕ) : ∃ pt, s.value eps junk u v du dv = .ok pt ∧ s'.value eps junk' u v du dv = .ok pt := by
  obtain ⟨i, j, ei, ej, -, -, -, -, -, -, e⟩ := Surface.value_spec heps h hb hi
  obtain ⟨i', j', ei', ej', -, -, -, -, -, -, e'⟩ := Surface.value_spec heps h' hb' hi'
  have hnU : s'.nPU = s.nPU := by unfold Surface.nPU; rw [hk, hd]
  rw [hk, hnU, hd, ei] at ei'
  obtain rfl := Except.ok.inj ei'
  obtain ⟨a, b, ea, eb, hd'⟩ := hs v hi.kv0 (by rw [s.colsV_length]; exact hi.kv1)
  rw [s.colsV_length, ej] at ea
  rw [← hn, ej'] at eb
  obtain rfl := Except.ok.inj ea
  obtain rfl := Except.ok.inj eb
  refine ⟨_, e junk du dv, ?_⟩
  rw [e' junk' du dv, Surface.der_colsV, Surface.der_colsV]
  have := hd' dv
  rw [s.colsV_length] at this
  rw [this, hk, hnU, hd]
  congr 1
  apply spanDer_congr
  intro x hx
  rw [spanDer_apply, spanDer_apply, hn]
  apply spanDer_congr
  intro y hy
  rw [← hP x y hx hy]
  unfold Surface.colsV
  rw [pf_cols (by omega) (by omega)]

/-! ## C29 -/

/-- What an evaluation above degree 24 needs after the insertion of `u`: new knots separated from the others. -/
def KnotSepFrom (eps : K) (U : List K) (u : K) : Prop := ∀ i, kf U i ≠ u → eps < |kf U i - u|

theorem insKnots_count {U : List K} (k r : ℕ) (u x : K) : (insKnots U k r u).count x = U.count x + if x = u then r else 0 := by
  rw [(insKnots_perm _ _ _ _).count_eq, List.count_append, List.count_replicate]
  split
  · rename_i h; rw [if_pos (beq_iff_eq.mp h).symm]; omega
  · rename_i h; rw [if_neg (fun h' => h (beq_iff_eq.mpr h'.symm))]; omega

/-- C29: `insertKnotU` at a parameter strictly inside of the domain raises the multiplicity of `u` to `min(m+r,p)` (at least
`m`), changes nothing else in the knots, keeps the second direction and the bounds, and every value and mixed derivative. -/
theorem C29_insertKnotU {eps : K} (heps : 0 < eps) {s : Surface K V} (h : s.Wf) (hb : s.BigOk eps) {x : K}
    (h1 : kf s.knotsU s.degU < x) (h2 : x < kf s.knotsU s.nPU) {r : ℕ} (hr : 1 ≤ r)
    (hx : s.degU ≤ stackMaxDegree ∧ s.degV ≤ stackMaxDegree ∨ KnotSepFrom eps s.knotsU x) :
    ∃ idx s', s.insertKnotU x r = .ok (idx, s') ∧ s'.Wf ∧ s'.BigOk eps ∧ s'.degU = s.degU ∧ s'.degV = s.degV ∧
      s'.knotsV = s.knotsV ∧ s'.u0 = s.u0 ∧ s'.u1 = s.u1 ∧ s'.v0 = s.v0 ∧ s'.v1 = s.v1 ∧
      (∀ y, s'.knotsU.count y = if y = x then max (s.knotsU.count x) (min (s.knotsU.count x + r) s.degU) else s.knotsU.count y) ∧
      ∀ u v, s.In u v → ∀ (junk junk' : K) (du dv : ℕ),
        ∃ pt, s.value eps junk u v du dv = .ok pt ∧ s'.value eps junk' u v du dv = .ok pt := by
  have hw := h.colsU_wf
  have hlen := hw.len
  have hcl := s.colsU_length
  by_cases hs : multOf s.knotsU x < s.degU
  · obtain ⟨hi, -⟩ := insOk_of h.u.sorted hw.len h1.le (by rw [hcl]; exact h2) (r := 1) le_rfl (by omega)
    have hkn := hi.kn
    obtain ⟨Q, e, hl, hwQ, d0, d1, hS, -⟩ := insertKnots_same hw h1 (by rw [hcl]; exact h2) hr hs rfl rfl
    obtain ⟨S, e2, hSl, hn, hP⟩ := Surface.insertKnotU_eq h e hwQ.len
    rw [hcl] at d1
    set k := upperBound s.knotsU x - 1 with hk
    set r' := min r (s.degU - multOf s.knotsU x) with hr'
    set s' : Surface K V := { s with knotsU := insKnots s.knotsU k r' x, poles := S } with hs'
    have hw' : s'.Wf := by
      refine ⟨?_, h.v, ?_⟩
      · rw [hn]; exact hwQ.kwf
      · rw [hn]; exact hSl
    have hb' : s'.BigOk eps := by
      rcases hx with hx | hx
      · exact Or.inl hx
      · rcases hb with hb | ⟨g1, g2, g3, g4⟩
        · exact Or.inl hb
        · refine Or.inr ⟨sep_insKnots (by omega) g1 hx, ?_, g3, g4⟩
          rw [hn]
          change kf (insKnots s.knotsU k r' x) Q.length = kLast (insKnots s.knotsU k r' x)
          rw [d1, g2]
          unfold kLast
          rw [insKnots_length (by omega), kf_insKnots (by omega)]
          unfold tIns
          rw [if_neg (by omega), if_neg (by omega)]
          congr 1
          omega
    refine ⟨_, s', e2, hw', hb', rfl, rfl, rfl, rfl, rfl, rfl, rfl, ?_, ?_⟩
    · intro y
      change (insKnots s.knotsU k r' x).count y = _
      rw [insKnots_count]
      split
      · rename_i hy; subst hy
        rw [count_eq_multOf h.u.sorted]; omega
      · omega
    · intro u v hin junk junk' du dv
      have hin' : s'.In u v := by
        refine ⟨hin.u0, hin.u1, hin.v0, hin.v1, ?_, ?_, hin.kv0, hin.kv1⟩
        · rw [show kf s'.knotsU s'.degU = kf s.knotsU s.degU from d0]; exact hin.ku0
        · rw [hn, show kf s'.knotsU Q.length = kf s.knotsU s.nPU from d1]; exact hin.ku1
      exact Surface.value_of_colsU heps h hw' hb hb' rfl rfl hn hP hS hin hin' junk junk' du dv
  · have e : insertKnots x s.degU r s.knotsU s.colsU = _ := insertKnots_full (by omega)
    obtain ⟨S, e2, hSl, hn, hP⟩ := Surface.insertKnotU_eq h e hlen
    rw [hcl] at hSl hn
    set s' : Surface K V := { s with knotsU := s.knotsU, poles := S } with hs'
    have hw' : s'.Wf := ⟨h.u, h.v, hSl⟩
    refine ⟨_, s', e2, hw', hb, rfl, rfl, rfl, rfl, rfl, rfl, rfl, ?_, ?_⟩
    · intro y
      change s.knotsU.count y = _
      split
      · rename_i hy; subst hy
        rw [count_eq_multOf h.u.sorted]; omega
      · rfl
    · intro u v hin junk junk' du dv
      have hin' : s'.In u v := ⟨hin.u0, hin.u1, hin.v0, hin.v1, hin.ku0, hin.ku1, hin.kv0, hin.kv1⟩
      exact Surface.value_of_colsU heps h hw' hb hb rfl rfl (hn.trans hcl.symm) hP (SameMap.refl hw) hin hin' junk junk' du dv

/-- C29, second direction. -/
theorem C29_insertKnotV {eps : K} (heps : 0 < eps) {s : Surface K V} (h : s.Wf) (hb : s.BigOk eps) {x : K}
    (h1 : kf s.knotsV s.degV < x) (h2 : x < kf s.knotsV s.nPV) {r : ℕ} (hr : 1 ≤ r)
    (hx : s.degU ≤ stackMaxDegree ∧ s.degV ≤ stackMaxDegree ∨ KnotSepFrom eps s.knotsV x) :
    ∃ idx s', s.insertKnotV x r = .ok (idx, s') ∧ s'.Wf ∧ s'.BigOk eps ∧ s'.degU = s.degU ∧ s'.degV = s.degV ∧
      s'.knotsU = s.knotsU ∧ s'.u0 = s.u0 ∧ s'.u1 = s.u1 ∧ s'.v0 = s.v0 ∧ s'.v1 = s.v1 ∧
      (∀ y, s'.knotsV.count y = if y = x then max (s.knotsV.count x) (min (s.knotsV.count x + r) s.degV) else s.knotsV.count y) ∧
      ∀ u v, s.In u v → ∀ (junk junk' : K) (du dv : ℕ),
        ∃ pt, s.value eps junk u v du dv = .ok pt ∧ s'.value eps junk' u v du dv = .ok pt := by
  have hw := h.colsV_wf
  have hlen := hw.len
  have hcl := s.colsV_length
  by_cases hs : multOf s.knotsV x < s.degV
  · obtain ⟨hi, -⟩ := insOk_of h.v.sorted hw.len h1.le (by rw [hcl]; exact h2) (r := 1) le_rfl (by omega)
    have hkn := hi.kn
    obtain ⟨Q, e, hl, hwQ, d0, d1, hS, -⟩ := insertKnots_same hw h1 (by rw [hcl]; exact h2) hr hs rfl rfl
    obtain ⟨S, e2, hSl, hn, hP⟩ := Surface.insertKnotV_eq h e hwQ.len
    rw [hcl] at d1
    set k := upperBound s.knotsV x - 1 with hk
    set r' := min r (s.degV - multOf s.knotsV x) with hr'
    set s' : Surface K V := { s with knotsV := insKnots s.knotsV k r' x, poles := S } with hs'
    have hw' : s'.Wf := by
      refine ⟨h.u, ?_, ?_⟩
      · rw [hn]; exact hwQ.kwf
      · rw [hn]; exact hSl
    have hb' : s'.BigOk eps := by
      rcases hx with hx | hx
      · exact Or.inl hx
      · rcases hb with hb | ⟨g1, g2, g3, g4⟩
        · exact Or.inl hb
        · refine Or.inr ⟨g1, g2, sep_insKnots (by omega) g3 hx, ?_⟩
          rw [hn]
          change kf (insKnots s.knotsV k r' x) Q.length = kLast (insKnots s.knotsV k r' x)
          rw [d1, g4]
          unfold kLast
          rw [insKnots_length (by omega), kf_insKnots (by omega)]
          unfold tIns
          rw [if_neg (by omega), if_neg (by omega)]
          congr 1
          omega
    refine ⟨_, s', e2, hw', hb', rfl, rfl, rfl, rfl, rfl, rfl, rfl, ?_, ?_⟩
    · intro y
      change (insKnots s.knotsV k r' x).count y = _
      rw [insKnots_count]
      split
      · rename_i hy; subst hy
        rw [count_eq_multOf h.v.sorted]; omega
      · omega
    · intro u v hin junk junk' du dv
      have hin' : s'.In u v := by
        refine ⟨hin.u0, hin.u1, hin.v0, hin.v1, hin.ku0, hin.ku1, ?_, ?_⟩
        · rw [show kf s'.knotsV s'.degV = kf s.knotsV s.degV from d0]; exact hin.kv0
        · rw [hn, show kf s'.knotsV Q.length = kf s.knotsV s.nPV from d1]; exact hin.kv1
      exact Surface.value_of_colsV heps h hw' hb hb' rfl rfl hn hP hS hin hin' junk junk' du dv
  · have e : insertKnots x s.degV r s.knotsV s.colsV = _ := insertKnots_full (by omega)
    obtain ⟨S, e2, hSl, hn, hP⟩ := Surface.insertKnotV_eq h e hlen
    rw [hcl] at hSl hn
    set s' : Surface K V := { s with knotsV := s.knotsV, poles := S } with hs'
    have hw' : s'.Wf := ⟨h.u, h.v, hSl⟩
    refine ⟨_, s', e2, hw', hb, rfl, rfl, rfl, rfl, rfl, rfl, rfl, ?_, ?_⟩
    · intro y
      change s.knotsV.count y = _
      split
      · rename_i hy; subst hy
        rw [count_eq_multOf h.v.sorted]; omega
      · rfl
    · intro u v hin junk junk' du dv
      have hin' : s'.In u v := ⟨hin.u0, hin.u1, hin.v0, hin.v1, hin.ku0, hin.ku1, hin.kv0, hin.kv1⟩
      exact Surface.value_of_colsV heps h hw' hb hb rfl rfl (hn.trans hcl.symm) hP (SameMap.refl hw) hin hin' junk junk' du dv

/-! ## C30 -/

/-- C30: `isoU(u)` is the curve `v ↦ S(u,v)`, with all its derivatives. -/
theorem C30_isoU {eps : K} (heps : 0 < eps) {s : Surface K V} (h : s.Wf) (hb : s.BigOk eps) {u : K}
    (hu0 : s.u0 ≤ u) (hu1 : u ≤ s.u1) (h1 : kf s.knotsU s.degU ≤ u)
    (h2 : u < kf s.knotsU s.nPU ∨ (u = kf s.knotsU s.nPU ∧ kf s.knotsU s.nPU = kLast s.knotsU)) :
    ∃ c, s.isoU eps u = .ok c ∧ c.deg = s.degV ∧ c.knots = s.knotsV ∧ c.b0 = kf s.knotsV 0 ∧ c.b1 = kLast s.knotsV ∧
      Gbs.Wf c.deg c.knots c.poles ∧ c.poles.length = s.nPV ∧
      ∀ v, s.In u v → ∀ (junk junk' : K) (d : ℕ),
        ∃ pt, s.value eps junk u v 0 d = .ok pt ∧ c.value eps junk' v d = .ok pt := by
  obtain ⟨i, ei, -⟩ := findSpan_kwf h.u u
  have hw := h.colsU_wf
  have hcl := s.colsU_length
  obtain ⟨idx, U', Q, e, hidx, hl, hQ⟩ := insertKnots_iso hw (u := u) h1 (by rw [hcl]; exact h2) (i := i) (by rw [hcl]; exact ei)
  obtain ⟨S, e2, hSl, hn, hP⟩ := Surface.insertKnotU_eq h e hl
  set s' : Surface K V := { s with knotsU := U', poles := S } with hs'
  have hsz : s'.Sz := by
    refine ⟨by change s.degU + 1 ≤ U'.length; omega, h.sz.v, ?_⟩
    rw [hn]; exact hSl
  have hcv : (s'.colsV.map (projAt K idx)).length = s.nPV := by rw [List.length_map]; exact s'.colsV_length
  have hwc : Gbs.Wf s.degV s.knotsV (s'.colsV.map (projAt K idx)) := by
    have := h.v; rw [← hcv] at this; exact this.wf rfl
  refine ⟨⟨s.degV, s'.colsV.map (projAt K idx), s.knotsV, kf s.knotsV 0, kLast s.knotsV⟩, ?_, rfl, rfl, rfl, rfl, hwc, hcv, ?_⟩
  · unfold Surface.isoU
    rw [if_neg (by push Not; constructor <;> linarith), e2, R_bind_ok]
    simp only [Int.toNat_natCast]
    rw [if_neg (by omega), Surface.polesV_eq hsz (by rw [hn]; exact hidx), R_bind_ok]
    exact mk?_sorted eps _ h.v.sorted _ hwc.len hwc.min
  · intro v hin junk junk' d
    obtain ⟨i', j, ei', ej, -, -, -, -, -, -, ev⟩ := Surface.value_spec heps h hb hin
    rw [ei] at ei'
    obtain rfl := Except.ok.inj ei'
    refine ⟨_, ev junk 0 d, ?_⟩
    have g0 := kf_mono h.v.sorted (Nat.zero_le s.degV)
    have g1 := kf_le_kLast h.v.sorted s.nPV
    have := hin.kv0; have := hin.kv1
    rw [Curve.value_inBounds heps (by change kf s.knotsV 0 ≤ v; linarith) (by change v ≤ kLast s.knotsV; linarith)]
    change evalValue _ _ _ _ _ _ _ = _
    have hev : EvalOk eps s.degV s.knotsV (s'.colsV.map (projAt K idx)) v := by
      rcases Surface.evalOk heps hb hin with hh | hh
      · exact Or.inl hh.2
      · exact Or.inr (hh.2.recOk hcv)
    rw [evalValue_all hwc hev d (by rw [hcv]; exact ej), Surface.der_colsU, hcv]
    · congr 1
      apply spanDer_congr
      intro b hb'
      rw [pf_lmap, projAt_apply]
      unfold Surface.colsV
      rw [pf_cols (by exact hb') (by rw [hn]; exact hidx), hP idx b hidx hb']
      have := congrFun hQ b
      rw [hcl] at this
      exact this

/-- C30: `isoV(v)` is the curve `u ↦ S(u,v)`, with all its derivatives. -/
theorem C30_isoV {eps : K} (heps : 0 < eps) {s : Surface K V} (h : s.Wf) (hb : s.BigOk eps) {v : K}
    (hv0 : s.v0 ≤ v) (hv1 : v ≤ s.v1) (h1 : kf s.knotsV s.degV ≤ v)
    (h2 : v < kf s.knotsV s.nPV ∨ (v = kf s.knotsV s.nPV ∧ kf s.knotsV s.nPV = kLast s.knotsV)) :
    ∃ c, s.isoV eps v = .ok c ∧ c.deg = s.degU ∧ c.knots = s.knotsU ∧ c.b0 = kf s.knotsU 0 ∧ c.b1 = kLast s.knotsU ∧
      Gbs.Wf c.deg c.knots c.poles ∧ c.poles.length = s.nPU ∧
      ∀ u, s.In u v → ∀ (junk junk' : K) (d : ℕ),
        ∃ pt, s.value eps junk u v d 0 = .ok pt ∧ c.value eps junk' u d = .ok pt := by
  obtain ⟨j, ej, -⟩ := findSpan_kwf h.v v
  have hw := h.colsV_wf
  have hcl := s.colsV_length
  obtain ⟨idx, U', Q, e, hidx, hl, hQ⟩ := insertKnots_iso hw (u := v) h1 (by rw [hcl]; exact h2) (i := j) (by rw [hcl]; exact ej)
  obtain ⟨S, e2, hSl, hn, hP⟩ := Surface.insertKnotV_eq h e hl
  set s' : Surface K V := { s with knotsV := U', poles := S } with hs'
  have hsz : s'.Sz := by
    refine ⟨h.sz.u, by change s.degV + 1 ≤ U'.length; omega, ?_⟩
    rw [hn]; exact hSl
  have hcv : (s'.colsU.map (projAt K idx)).length = s.nPU := by rw [List.length_map]; exact s'.colsU_length
  have hwc : Gbs.Wf s.degU s.knotsU (s'.colsU.map (projAt K idx)) := by
    have := h.u; rw [← hcv] at this; exact this.wf rfl
  refine ⟨⟨s.degU, s'.colsU.map (projAt K idx), s.knotsU, kf s.knotsU 0, kLast s.knotsU⟩, ?_, rfl, rfl, rfl, rfl, hwc, hcv, ?_⟩
  · unfold Surface.isoV
    rw [if_neg (by push Not; constructor <;> linarith), e2, R_bind_ok]
    simp only [Int.toNat_natCast]
    rw [if_neg (by omega), Surface.polesU_eq hsz (by rw [hn]; exact hidx), R_bind_ok]
    exact mk?_sorted eps _ h.u.sorted _ hwc.len hwc.min
  · intro u hin junk junk' d
    obtain ⟨i, j', ei, ej', -, -, -, -, -, -, ev⟩ := Surface.value_spec heps h hb hin
    rw [ej] at ej'
    obtain rfl := Except.ok.inj ej'
    refine ⟨_, ev junk d 0, ?_⟩
    have g0 := kf_mono h.u.sorted (Nat.zero_le s.degU)
    have g1 := kf_le_kLast h.u.sorted s.nPU
    have := hin.ku0; have := hin.ku1
    rw [Curve.value_inBounds heps (by change kf s.knotsU 0 ≤ u; linarith) (by change u ≤ kLast s.knotsU; linarith)]
    change evalValue _ _ _ _ _ _ _ = _
    have hev : EvalOk eps s.degU s.knotsU (s'.colsU.map (projAt K idx)) u := by
      rcases Surface.evalOk heps hb hin with hh | hh
      · exact Or.inl hh.1
      · exact Or.inr (hh.1.recOk hcv)
    rw [evalValue_all hwc hev d (by rw [hcv]; exact ei), Surface.der_colsV, hcv]
    congr 1
    apply spanDer_congr
    intro b hb'
    rw [pf_lmap, projAt_apply]
    unfold Surface.colsU
    rw [pf_cols (by exact hb') (by rw [hn]; exact hidx), hP b idx hb' hidx]
    have := congrFun hQ b
    rw [hcl] at this
    exact this

end Gbs
