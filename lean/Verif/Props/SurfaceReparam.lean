import Verif.Props.SurfaceMisc

/-! # Reversal, change of bounds and trimming of surfaces: C56 -/

namespace Gbs

set_option linter.unusedSectionVars false

variable {K : Type} [Field K] [LinearOrder K] [IsStrictOrderedRing K]
variable {V : Type} [AddCommGroup V] [Module K V]

/-- The surface as a curve in `u`. -/
def Surface.curveU (s : Surface K V) : Curve K (ℕ → V) := ⟨s.degU, s.colsU, s.knotsU, s.u0, s.u1⟩

/-- The surface as a curve in `v`. -/
def Surface.curveV (s : Surface K V) : Curve K (ℕ → V) := ⟨s.degV, s.colsV, s.knotsV, s.v0, s.v1⟩

/-- Clamped knots, the bounds being the end knots; degrees evaluated without recursion. -/
structure Surface.Cl (s : Surface K V) : Prop where
  wf : s.Wf
  du : s.degU ≤ stackMaxDegree
  dv : s.degV ≤ stackMaxDegree
  u00 : kf s.knotsU 0 = s.u0
  u01 : kf s.knotsU s.degU = s.u0
  u10 : kf s.knotsU s.nPU = s.u1
  u11 : kLast s.knotsU = s.u1
  v00 : kf s.knotsV 0 = s.v0
  v01 : kf s.knotsV s.degV = s.v0
  v10 : kf s.knotsV s.nPV = s.v1
  v11 : kLast s.knotsV = s.v1

theorem Surface.Cl.big {s : Surface K V} (h : s.Cl) (eps : K) : s.BigOk eps := Or.inl ⟨h.du, h.dv⟩

theorem Surface.Cl.in {s : Surface K V} (h : s.Cl) {u v : K} (u0 : s.u0 ≤ u) (u1 : u ≤ s.u1) (v0 : s.v0 ≤ v) (v1 : v ≤ s.v1) : s.In u v :=
  ⟨u0, u1, v0, v1, by rw [h.u01]; exact u0, by rw [h.u10]; exact u1, by rw [h.v01]; exact v0, by rw [h.v10]; exact v1⟩

theorem Surface.Cl.goodU {s : Surface K V} (h : s.Cl) : s.curveU.Good :=
  ⟨h.wf.colsU_wf, h.u01.symm, by
    change s.u1 = kf s.knotsU s.colsU.length
    rw [s.colsU_length, h.u10]⟩

theorem Surface.Cl.clU {s : Surface K V} (h : s.Cl) : s.curveU.Clamped := ⟨h.u00, h.u11⟩

theorem Surface.Cl.goodV {s : Surface K V} (h : s.Cl) : s.curveV.Good :=
  ⟨h.wf.colsV_wf, h.v01.symm, by
    change s.v1 = kf s.knotsV s.colsV.length
    rw [s.colsV_length, h.v10]⟩

theorem Surface.Cl.clV {s : Surface K V} (h : s.Cl) : s.curveV.Clamped := ⟨h.v00, h.v11⟩

theorem Surface.invert_cl {s : Surface K V} (h : s.Wf) (du : s.degU ≤ stackMaxDegree) (dv : s.degV ≤ stackMaxDegree)
    (u0 : kf s.knotsU 0 = kf s.knotsU s.degU) (u1 : kf s.knotsU s.nPU = kLast s.knotsU)
    (v0 : kf s.knotsV 0 = kf s.knotsV s.degV) (v1 : kf s.knotsV s.nPV = kLast s.knotsV) :
    ∃ s', s.invertUV = .ok s' ∧ s'.Cl ∧ s'.degU = s.degV ∧ s'.degV = s.degU ∧ s'.knotsU = s.knotsV ∧ s'.knotsV = s.knotsU ∧
      s'.u0 = kf s.knotsV 0 ∧ s'.u1 = kLast s.knotsV ∧ s'.v0 = kf s.knotsU 0 ∧ s'.v1 = kLast s.knotsU := by
  obtain ⟨s', e, w, d1, d2, k1, k2, b1, b2, b3, b4, n1, n2, -⟩ := Surface.invertUV_eq h
  exact ⟨s', e, ⟨w, by rw [d1]; exact dv, by rw [d2]; exact du, by rw [b1, k1], by rw [b1, k1, d1, v0], by rw [b2, k1, n1, v1], by rw [b2, k1],
    by rw [b3, k2], by rw [b3, k2, d2, u0], by rw [b4, k2, n2, u1], by rw [b4, k2]⟩, d1, d2, k1, k2, b1, b2, b3, b4⟩

/-- A relation between curves in `u` is one between surfaces. -/
theorem Surface.transferU {eps : K} (heps : 0 < eps) {s s' : Surface K V} (h : s.Wf) (h' : s'.Wf)
    (hdu : s.degU ≤ stackMaxDegree) (hdv : s.degV ≤ stackMaxDegree) (d1 : s'.degU = s.degU) (d2 : s'.degV = s.degV)
    (hk : s'.knotsV = s.knotsV) {c' : Curve K (ℕ → V)} (c1 : c'.deg = s'.degU) (c2 : c'.knots = s'.knotsU)
    (c3 : c'.poles.length = s'.nPU) (b0 : c'.b0 = s'.u0) (b1 : c'.b1 = s'.u1)
    (hP : ∀ i j, i < s'.nPU → j < s.nPV → s'.P i j = pf c'.poles i j) {u u' v : K} (hi : s.In u v) (hi' : s'.In u' v)
    {g : K} {du : ℕ} (hv : ∃ pt, s.curveU.value eps 0 u du = .ok pt ∧ c'.value eps 0 u' du = .ok (g • pt))
    (junk junk' : K) (dv : ℕ) :
    ∃ pt, s.value eps junk u v du dv = .ok pt ∧ s'.value eps junk' u' v du dv = .ok (g • pt) := by
  obtain ⟨i, j, ei, ej, -, -, -, -, -, -, e⟩ := Surface.value_spec heps h (Or.inl ⟨hdu, hdv⟩) hi
  obtain ⟨i', j', ei', ej', -, -, -, -, -, -, e'⟩ := Surface.value_spec heps h' (Or.inl ⟨by rw [d1]; exact hdu, by rw [d2]; exact hdv⟩) hi'
  have hnV : s'.nPV = s.nPV := by unfold Surface.nPV; rw [hk, d2]
  rw [hk, hnV, d2, ej] at ej'
  obtain rfl := Except.ok.inj ej'
  obtain ⟨pt, hv1, hv2⟩ := hv
  have wc' : Gbs.Wf c'.deg c'.knots c'.poles := by rw [c1, c2]; exact h'.u.wf c3
  rw [Curve.value_inBounds heps (show s.curveU.b0 ≤ u from hi.u0) (show u ≤ s.curveU.b1 from hi.u1)] at hv1
  rw [Curve.value_inBounds heps (by rw [b0]; exact hi'.u0) (by rw [b1]; exact hi'.u1)] at hv2
  rw [evalValue_all wc' (Or.inl (by rw [c1, d1]; exact hdu)) du (by rw [c1, c2, c3]; exact ei')] at hv2
  have hv1' := evalValue_all (junk := (0 : K)) h.colsU_wf (Or.inl hdu) (eps := eps) (u := u) du (by rw [s.colsU_length]; exact ei)
  rw [show evalValue eps 0 u s.curveU.knots s.curveU.poles s.curveU.deg du = evalValue eps 0 u s.knotsU s.colsU s.degU du from rfl, hv1'] at hv1
  have hpt := Except.ok.inj hv1
  have hpt' := Except.ok.inj hv2
  rw [s.colsU_length] at hpt
  refine ⟨_, e junk du dv, ?_⟩
  rw [e' junk' du dv, Surface.der_colsU, Surface.der_colsU, hk, hnV, d2, ← spanDer_smul]
  congr 1
  apply spanDer_congr
  intro y hy
  rw [hpt, ← Pi.smul_apply, ← hpt', spanDer_apply, spanDer_apply, c3, c2, c1]
  apply spanDer_congr
  intro x hx
  rw [← hP x y hx hy]
  unfold Surface.colsU
  rw [pf_cols hx (by omega)]

theorem Surface.transferV {eps : K} (heps : 0 < eps) {s s' : Surface K V} (h : s.Wf) (h' : s'.Wf)
    (hdu : s.degU ≤ stackMaxDegree) (hdv : s.degV ≤ stackMaxDegree) (d1 : s'.degU = s.degU) (d2 : s'.degV = s.degV)
    (hk : s'.knotsU = s.knotsU) {c' : Curve K (ℕ → V)} (c1 : c'.deg = s'.degV) (c2 : c'.knots = s'.knotsV)
    (c3 : c'.poles.length = s'.nPV) (b0 : c'.b0 = s'.v0) (b1 : c'.b1 = s'.v1)
    (hP : ∀ i j, i < s.nPU → j < s'.nPV → s'.P i j = pf c'.poles j i) {u v v' : K} (hi : s.In u v) (hi' : s'.In u v')
    {g : K} {dv : ℕ} (hv : ∃ pt, s.curveV.value eps 0 v dv = .ok pt ∧ c'.value eps 0 v' dv = .ok (g • pt))
    (junk junk' : K) (du : ℕ) :
    ∃ pt, s.value eps junk u v du dv = .ok pt ∧ s'.value eps junk' u v' du dv = .ok (g • pt) := by
  obtain ⟨i, j, ei, ej, -, -, -, -, -, -, e⟩ := Surface.value_spec heps h (Or.inl ⟨hdu, hdv⟩) hi
  obtain ⟨i', j', ei', ej', -, -, -, -, -, -, e'⟩ := Surface.value_spec heps h' (Or.inl ⟨by rw [d1]; exact hdu, by rw [d2]; exact hdv⟩) hi'
  have hnU : s'.nPU = s.nPU := by unfold Surface.nPU; rw [hk, d1]
  rw [hk, hnU, d1, ei] at ei'
  obtain rfl := Except.ok.inj ei'
  obtain ⟨pt, hv1, hv2⟩ := hv
  have wc' : Gbs.Wf c'.deg c'.knots c'.poles := by rw [c1, c2]; exact h'.v.wf c3
  rw [Curve.value_inBounds heps (show s.curveV.b0 ≤ v from hi.v0) (show v ≤ s.curveV.b1 from hi.v1)] at hv1
  rw [Curve.value_inBounds heps (by rw [b0]; exact hi'.v0) (by rw [b1]; exact hi'.v1)] at hv2
  rw [evalValue_all wc' (Or.inl (by rw [c1, d2]; exact hdv)) dv (by rw [c1, c2, c3]; exact ej')] at hv2
  have hv1' := evalValue_all (junk := (0 : K)) h.colsV_wf (Or.inl hdv) (eps := eps) (u := v) dv (by rw [s.colsV_length]; exact ej)
  rw [show evalValue eps 0 v s.curveV.knots s.curveV.poles s.curveV.deg dv = evalValue eps 0 v s.knotsV s.colsV s.degV dv from rfl, hv1'] at hv1
  have hpt := Except.ok.inj hv1
  have hpt' := Except.ok.inj hv2
  rw [s.colsV_length] at hpt
  refine ⟨_, e junk du dv, ?_⟩
  rw [e' junk' du dv, Surface.der_colsV, Surface.der_colsV, hk, hnU, d1, ← spanDer_smul]
  congr 1
  apply spanDer_congr
  intro x hx
  rw [hpt, ← Pi.smul_apply, ← hpt', spanDer_apply, spanDer_apply, c3, c2, c1]
  apply spanDer_congr
  intro y hy
  rw [← hP x y hx hy]
  unfold Surface.colsV
  rw [pf_cols hy (by omega)]

/-! ## Change of bounds -/

theorem Surface.colsU_congr {s s' : Surface K V} (hn : s'.nPU = s.nPU) (hm : s'.nPV = s.nPV) (hp : s'.poles = s.poles) : s'.colsU = s.colsU := by
  unfold Surface.colsU Surface.P
  rw [hn, hm, hp]

theorem Surface.colsV_congr {s s' : Surface K V} (hn : s'.nPU = s.nPU) (hm : s'.nPV = s.nPV) (hp : s'.poles = s.poles) : s'.colsV = s.colsV := by
  unfold Surface.colsV Surface.P
  rw [hn, hm, hp]

/-- C56: changing the bounds along U is the affine reparametrization of `u`, keeping poles, degrees and the other direction. -/
theorem C56_changeUBounds {eps : K} (heps : 0 < eps) {s : Surface K V} (h : s.Cl) {a b : K} (hab : a < b) :
    ∃ s', s.changeUBounds a b = .ok s' ∧ s'.Cl ∧ s'.poles = s.poles ∧ s'.degU = s.degU ∧ s'.degV = s.degV ∧ s'.knotsV = s.knotsV ∧
      s'.u0 = a ∧ s'.u1 = b ∧ s'.v0 = s.v0 ∧ s'.v1 = s.v1 ∧
      ∀ t v, 0 ≤ t → t ≤ 1 → s.v0 ≤ v → v ≤ s.v1 → ∀ (junk junk' : K) (du dv : ℕ),
        ∃ pt, s.value eps junk (s.u0 + (s.u1 - s.u0) * t) v du dv = .ok pt ∧
          s'.value eps junk' (a + (b - a) * t) v du dv = .ok (((s.u1 - s.u0) / (b - a))^du • pt) := by
  obtain ⟨c', e, c1, c2, c3, c4, c5, c6, c7, c8, -⟩ := C22_change_bounds heps h.goodU h.clU hab (Or.inl h.du)
  have hlt : s.u0 < s.u1 := h.goodU.lt
  unfold Curve.changeBounds at e
  cases hc : changeBoundsK a b s.knotsU with
  | error er =>
    rw [show changeBoundsK a b s.curveU.knots = changeBoundsK a b s.knotsU from rfl, hc] at e
    simp at e
  | ok U =>
    rw [show changeBoundsK a b s.curveU.knots = changeBoundsK a b s.knotsU from rfl, hc, R_bind_ok] at e
    have hU : c'.knots = U := by rw [← Except.ok.inj e]
    have hUl : U.length = s.knotsU.length := by rw [← hU, c7]; rfl
    have hn : ({ s with knotsU := U, u0 := a, u1 := b } : Surface K V).nPU = s.nPU := by unfold Surface.nPU; simp only [hUl]
    have hcl : c'.poles.length = s.nPU := by rw [c2]; exact s.colsU_length
    have w' : ({ s with knotsU := U, u0 := a, u1 := b } : Surface K V).Wf := by
      refine ⟨?_, h.wf.v, ?_⟩
      · have := c5.wf.kwf
        rw [c1, hU, hcl] at this
        rw [hn]; exact this
      · rw [hn]; exact h.wf.len
    have k1 := c6.lo; have k2 := c5.lo; have k3 := c5.hi; have k4 := c6.hi
    rw [hU, c3] at k1
    rw [hU, c1, c3] at k2
    rw [hU, hcl, c4] at k3
    rw [hU, c4] at k4
    have hcl' : ({ s with knotsU := U, u0 := a, u1 := b } : Surface K V).Cl :=
      ⟨w', h.du, h.dv, k1, k2.symm, by rw [hn]; exact k3.symm, k4, h.v00, h.v01, h.v10, h.v11⟩
    refine ⟨{ s with knotsU := U, u0 := a, u1 := b }, ?_, hcl', rfl, rfl, rfl, rfl, rfl, rfl, rfl, rfl, ?_⟩
    · unfold Surface.changeUBounds; rw [hc]; rfl
    · intro t v t0 t1 v0 v1 junk junk' du dv
      have r1 : 0 ≤ (s.u1 - s.u0) * t := mul_nonneg (by linarith) t0
      have r2 : (s.u1 - s.u0) * t ≤ s.u1 - s.u0 := mul_le_of_le_one_right (by linarith) t1
      have r3 : 0 ≤ (b - a) * t := mul_nonneg (by linarith) t0
      have r4 : (b - a) * t ≤ b - a := mul_le_of_le_one_right (by linarith) t1
      have hin : s.In (s.u0 + (s.u1 - s.u0) * t) v := h.in (by linarith) (by linarith) v0 v1
      refine Surface.transferU heps h.wf w' h.du h.dv rfl rfl rfl (c' := c') c1 hU (by rw [hcl, hn]) c3 c4 ?_
        hin (hcl'.in (by change a ≤ _; linarith) (by change _ ≤ b; linarith) v0 v1) (c8 t du t0 t1 0 0) junk junk' dv
      intro i j hi hj
      rw [c2]
      change _ = pf s.colsU i j
      unfold Surface.colsU
      rw [pf_cols (by omega) hj]
      unfold Surface.P
      rw [hn]

/-- C56: same along V. -/
theorem C56_changeVBounds {eps : K} (heps : 0 < eps) {s : Surface K V} (h : s.Cl) {a b : K} (hab : a < b) :
    ∃ s', s.changeVBounds a b = .ok s' ∧ s'.Cl ∧ s'.poles = s.poles ∧ s'.degU = s.degU ∧ s'.degV = s.degV ∧ s'.knotsU = s.knotsU ∧
      s'.v0 = a ∧ s'.v1 = b ∧ s'.u0 = s.u0 ∧ s'.u1 = s.u1 ∧
      ∀ t u, 0 ≤ t → t ≤ 1 → s.u0 ≤ u → u ≤ s.u1 → ∀ (junk junk' : K) (du dv : ℕ),
        ∃ pt, s.value eps junk u (s.v0 + (s.v1 - s.v0) * t) du dv = .ok pt ∧
          s'.value eps junk' u (a + (b - a) * t) du dv = .ok (((s.v1 - s.v0) / (b - a))^dv • pt) := by
  obtain ⟨c', e, c1, c2, c3, c4, c5, c6, c7, c8, -⟩ := C22_change_bounds heps h.goodV h.clV hab (Or.inl h.dv)
  have hlt : s.v0 < s.v1 := h.goodV.lt
  unfold Curve.changeBounds at e
  cases hc : changeBoundsK a b s.knotsV with
  | error er =>
    rw [show changeBoundsK a b s.curveV.knots = changeBoundsK a b s.knotsV from rfl, hc] at e
    simp at e
  | ok U =>
    rw [show changeBoundsK a b s.curveV.knots = changeBoundsK a b s.knotsV from rfl, hc, R_bind_ok] at e
    have hU : c'.knots = U := by rw [← Except.ok.inj e]
    have hUl : U.length = s.knotsV.length := by rw [← hU, c7]; rfl
    have hn : ({ s with knotsV := U, v0 := a, v1 := b } : Surface K V).nPV = s.nPV := by unfold Surface.nPV; simp only [hUl]
    have hcl : c'.poles.length = s.nPV := by rw [c2]; exact s.colsV_length
    have w' : ({ s with knotsV := U, v0 := a, v1 := b } : Surface K V).Wf := by
      refine ⟨h.wf.u, ?_, ?_⟩
      · have := c5.wf.kwf
        rw [c1, hU, hcl] at this
        rw [hn]; exact this
      · rw [hn]; exact h.wf.len
    have k1 := c6.lo; have k2 := c5.lo; have k3 := c5.hi; have k4 := c6.hi
    rw [hU, c3] at k1
    rw [hU, c1, c3] at k2
    rw [hU, hcl, c4] at k3
    rw [hU, c4] at k4
    have hcl' : ({ s with knotsV := U, v0 := a, v1 := b } : Surface K V).Cl :=
      ⟨w', h.du, h.dv, h.u00, h.u01, h.u10, h.u11, k1, k2.symm, by rw [hn]; exact k3.symm, k4⟩
    refine ⟨{ s with knotsV := U, v0 := a, v1 := b }, ?_, hcl', rfl, rfl, rfl, rfl, rfl, rfl, rfl, rfl, ?_⟩
    · unfold Surface.changeVBounds; rw [hc]; rfl
    · intro t u t0 t1 u0 u1 junk junk' du dv
      have r1 : 0 ≤ (s.v1 - s.v0) * t := mul_nonneg (by linarith) t0
      have r2 : (s.v1 - s.v0) * t ≤ s.v1 - s.v0 := mul_le_of_le_one_right (by linarith) t1
      have r3 : 0 ≤ (b - a) * t := mul_nonneg (by linarith) t0
      have r4 : (b - a) * t ≤ b - a := mul_le_of_le_one_right (by linarith) t1
      have hin : s.In u (s.v0 + (s.v1 - s.v0) * t) := h.in u0 u1 (by linarith) (by linarith)
      refine Surface.transferV heps h.wf w' h.du h.dv rfl rfl rfl (c' := c') c1 hU (by rw [hcl, hn]) c3 c4 ?_
        hin (hcl'.in u0 u1 (by change a ≤ _; linarith) (by change _ ≤ b; linarith)) (c8 t dv t0 t1 0 0) junk junk' du
      intro i j hi hj
      rw [c2]
      change _ = pf s.colsV j i
      unfold Surface.colsV
      rw [pf_cols (by omega) hi]
      rfl

/-! ## Reversal -/

theorem reverse_row {P : List V} {n j : ℕ} (h : j * n + n ≤ P.length) :
    (P.take (j * n) ++ ((P.drop (j * n)).take n).reverse ++ P.drop (j * n + n)).length = P.length ∧
    (∀ i j', i < n → j' ≠ j → pf (P.take (j * n) ++ ((P.drop (j * n)).take n).reverse ++ P.drop (j * n + n)) (i + n * j') = pf P (i + n * j')) ∧
    (∀ i, i < n → pf (P.take (j * n) ++ ((P.drop (j * n)).take n).reverse ++ P.drop (j * n + n)) (i + n * j) = pf P (n - 1 - i + n * j)) := by
  have l1 : (P.take (j * n)).length = j * n := by rw [List.length_take]; omega
  have l2 : ((P.drop (j * n)).take n).reverse.length = n := by
    rw [List.length_reverse, List.length_take, List.length_drop]; omega
  have key : ∀ k, (P.take (j * n) ++ ((P.drop (j * n)).take n).reverse ++ P.drop (j * n + n))[k]? =
      if k < j * n then P[k]? else if k < j * n + n then P[2 * (j * n) + n - 1 - k]? else P[k]? := by
    intro k
    split
    · rename_i hk
      rw [List.getElem?_append_left (by rw [List.length_append]; omega), List.getElem?_append_left (by omega),
        List.getElem?_take_of_lt hk]
    · rename_i hk
      split
      · rename_i hk2
        have hk3 : k - j * n < n := by omega
        rw [List.getElem?_append_left (by rw [List.length_append]; omega), List.getElem?_append_right (by omega), l1,
          List.getElem?_reverse (by rw [List.length_take, List.length_drop]; omega), List.length_take, List.length_drop,
          List.getElem?_take_of_lt (by omega), List.getElem?_drop]
        congr 1
        omega
      · rename_i hk2
        rw [List.getElem?_append_right (by rw [List.length_append]; omega), List.length_append, l1, l2, List.getElem?_drop]
        congr 1
        omega
  refine ⟨?_, ?_, ?_⟩
  · rw [List.length_append, List.length_append, l1, l2, List.length_drop]; omega
  · intro i j' hi hj
    unfold pf
    rw [List.getD_eq_getElem?_getD, List.getD_eq_getElem?_getD, key]
    congr 1
    rcases Nat.lt_or_gt_of_ne hj with hj | hj
    · have : (j' + 1) * n ≤ j * n := Nat.mul_le_mul_right _ hj
      have e1 : (j' + 1) * n = n * j' + n := by ring
      rw [if_pos (by omega)]
    · have : (j + 1) * n ≤ j' * n := Nat.mul_le_mul_right _ hj
      have e1 : (j + 1) * n = j * n + n := by ring
      have e2 : j' * n = n * j' := by ring
      rw [if_neg (by omega), if_neg (by omega)]
  · intro i hi
    unfold pf
    have e2 : j * n = n * j := by ring
    rw [List.getD_eq_getElem?_getD, List.getD_eq_getElem?_getD, key, if_neg (by omega), if_pos (by omega)]
    congr 2
    omega

theorem Surface.reverseU_eq {s : Surface K V} (h : s.Wf) :
    ∃ S, s.reverseU = .ok { s with knotsU := s.knotsU.reverse.map (fun k => kf s.knotsU 0 + kLast s.knotsU - k), poles := S } ∧
      S.length = s.poles.length ∧ ∀ i j, i < s.nPU → j < s.nPV → pf S (i + s.nPU * j) = pf s.poles (s.nPU - 1 - i + s.nPU * j) := by
  obtain ⟨S, e, h1, h2⟩ := forLt_inv (a := 0) (b := s.nPV) (s := s.poles)
    (body := fun j P => if j * s.nPU + s.nPU ≤ P.length then
      pure (P.take (j * s.nPU) ++ ((P.drop (j * s.nPU)).take s.nPU).reverse ++ P.drop (j * s.nPU + s.nPU))
      else .error .oob)
    (fun j P => P.length = s.poles.length ∧ ∀ i j', i < s.nPU → j' < s.nPV →
      pf P (i + s.nPU * j') = if j' < j then pf s.poles (s.nPU - 1 - i + s.nPU * j') else pf s.poles (i + s.nPU * j')) (by omega)
    ⟨rfl, by intro i j' _ _; rw [if_neg (by omega)]⟩
    (by
      intro j P _ hj ⟨g1, g2⟩
      have hb : j * s.nPU + s.nPU ≤ P.length := by
        rw [g1, h.len]
        have := Nat.mul_le_mul_left s.nPU hj
        have e1 : s.nPU * (j+1) = j * s.nPU + s.nPU := by ring
        have e2 : s.nPU * j.succ = s.nPU * (j+1) := rfl
        omega
      obtain ⟨r1, r2, r3⟩ := reverse_row hb
      refine ⟨_, if_pos hb, by rw [r1, g1], ?_⟩
      intro i j' hi hj'
      by_cases hjj : j' = j
      · subst hjj
        rw [r3 i hi, if_pos (by omega), g2 _ _ (by omega) hj', if_neg (by omega)]
      · rw [r2 i j' hi hjj, g2 i j' hi hj']
        by_cases hlt : j' < j
        · rw [if_pos hlt, if_pos (by omega)]
        · rw [if_neg hlt, if_neg (by omega)])
  refine ⟨S, ?_, h1, ?_⟩
  · unfold Surface.reverseU
    rw [frontBack_eq h.u.ne, R_bind_ok]
    simp only
    rw [h.nU_eq, R_bind_ok, h.nV_eq, R_bind_ok, e]
    rfl
  · intro i j hi hj
    rw [h2 i j hi hj, if_pos hj]

/-- C56: reversal along U; derivatives at a knot of multiplicity `m`: up to the order `p-m`, where both sides agree. -/
theorem C56_reverseU {eps : K} (heps : 0 < eps) {s : Surface K V} (h : s.Cl) :
    ∃ s', s.reverseU = .ok s' ∧ s'.Cl ∧ s'.degU = s.degU ∧ s'.degV = s.degV ∧ s'.knotsV = s.knotsV ∧
      s'.u0 = s.u0 ∧ s'.u1 = s.u1 ∧ s'.v0 = s.v0 ∧ s'.v1 = s.v1 ∧
      ∀ u v, s.u0 ≤ u → u ≤ s.u1 → s.v0 ≤ v → v ≤ s.v1 → ∀ du, (u = s.u0 ∨ u = s.u1 ∨ s.knotsU.count (s.u0 + s.u1 - u) = 0 ∨
          du + s.knotsU.count (s.u0 + s.u1 - u) ≤ s.degU) → ∀ (junk junk' : K) (dv : ℕ),
        ∃ pt, s.value eps junk (s.u0 + s.u1 - u) v du dv = .ok pt ∧ s'.value eps junk' u v du dv = .ok ((-1 : K)^du • pt) := by
  obtain ⟨c', e, c1, c2, c3, c4, c5, c6, c7, -⟩ := C21_reverse heps h.goodU h.clU (Or.inl h.du)
  obtain ⟨S, eS, hS, hS2⟩ := Surface.reverseU_eq h.wf
  rw [Curve.reverse_ok h.goodU h.clU] at e
  rw [h.u00, h.u11] at eS
  have hU : c'.knots = s.knotsU.reverse.map (fun k => s.u0 + s.u1 - k) := by rw [← Except.ok.inj e]; rfl
  have hcl : c'.poles.length = s.nPU := by rw [c2, List.length_reverse]; exact s.colsU_length
  set s' : Surface K V := { s with knotsU := s.knotsU.reverse.map (fun k => s.u0 + s.u1 - k), poles := S } with hs'
  have hn : s'.nPU = s.nPU := by unfold Surface.nPU; simp [hs']
  have w' : s'.Wf := by
    refine ⟨?_, h.wf.v, ?_⟩
    · have := c5.wf.kwf
      rw [c1, hU, hcl] at this
      rw [hn]; exact this
    · rw [hn]; exact hS.trans h.wf.len
  have k1 := c6.lo; have k2 := c5.lo; have k3 := c5.hi; have k4 := c6.hi
  rw [hU, c3] at k1
  rw [hU, c1, c3] at k2
  rw [hU, hcl, c4] at k3
  rw [hU, c4] at k4
  have hcl' : s'.Cl :=
    ⟨w', h.du, h.dv, k1, k2.symm, by rw [hn]; exact k3.symm, k4, h.v00, h.v01, h.v10, h.v11⟩
  refine ⟨s', eS, hcl', rfl, rfl, rfl, rfl, rfl, rfl, rfl, ?_⟩
  intro u v u0 u1 v0 v1 du hd junk junk' dv
  have hin : s.In (s.u0 + s.u1 - u) v := h.in (by linarith) (by linarith) v0 v1
  refine Surface.transferU heps h.wf w' h.du h.dv rfl rfl rfl (c' := c') c1 hU (by rw [hcl, hn]) c3 c4 ?_
    hin (hcl'.in u0 u1 v0 v1) (c7 u du u0 u1 hd 0 0) junk junk' dv
  intro i j hi hj
  rw [hn] at hi
  unfold Surface.P
  rw [hn, hS2 i j hi hj, c2]
  have hl := s.colsU_length
  have : pf (s.curveU.poles.reverse) i = pf s.colsU (s.nPU - 1 - i) := by
    unfold pf
    rw [List.getD_eq_getElem?_getD, List.getD_eq_getElem?_getD]
    change (s.colsU.reverse[i]?).getD 0 = _
    rw [List.getElem?_reverse (by omega), hl]
  rw [this]
  unfold Surface.colsU
  rw [pf_cols (by omega) hj]
  rfl

/-- C56: reversal along V (through two exchanges of the parameters). -/
theorem C56_reverseV {eps : K} (heps : 0 < eps) {s : Surface K V} (h : s.Cl) :
    ∃ s', s.reverseV = .ok s' ∧ s'.Cl ∧ s'.degU = s.degU ∧ s'.degV = s.degV ∧ s'.knotsU = s.knotsU ∧
      s'.u0 = s.u0 ∧ s'.u1 = s.u1 ∧ s'.v0 = s.v0 ∧ s'.v1 = s.v1 ∧
      ∀ u v, s.u0 ≤ u → u ≤ s.u1 → s.v0 ≤ v → v ≤ s.v1 → ∀ dv, (v = s.v0 ∨ v = s.v1 ∨ s.knotsV.count (s.v0 + s.v1 - v) = 0 ∨
          dv + s.knotsV.count (s.v0 + s.v1 - v) ≤ s.degV) → ∀ (junk junk' : K) (du : ℕ),
        ∃ pt, s.value eps junk u (s.v0 + s.v1 - v) du dv = .ok pt ∧ s'.value eps junk' u v du dv = .ok ((-1 : K)^dv • pt) := by
  obtain ⟨s1, e1, l1, a1, a2, a3, a4, a5, a6, a7, a8⟩ := Surface.invert_cl h.wf h.du h.dv (by rw [h.u00, h.u01]) (by rw [h.u10, h.u11])
    (by rw [h.v00, h.v01]) (by rw [h.v10, h.v11])
  rw [h.v00] at a5; rw [h.v11] at a6; rw [h.u00] at a7; rw [h.u11] at a8
  obtain ⟨s2, e2, l2, b1, b2, b3, b4, b5, b6, b7, hv2⟩ := C56_reverseU heps l1
  obtain ⟨s3, e3, l3, c1, c2, c3, c4, c5, c6, c7, c8⟩ := Surface.invert_cl l2.wf l2.du l2.dv (by rw [l2.u00, l2.u01]) (by rw [l2.u10, l2.u11])
    (by rw [l2.v00, l2.v01]) (by rw [l2.v10, l2.v11])
  rw [l2.v00] at c5; rw [l2.v11] at c6; rw [l2.u00] at c7; rw [l2.u11] at c8
  refine ⟨s3, ?_, l3, by rw [c1, b2, a2], by rw [c2, b1, a1], by rw [c3, b3, a4], by rw [c5, b6, a7], by rw [c6, b7, a8],
    by rw [c7, b4, a5], by rw [c8, b5, a6], ?_⟩
  · unfold Surface.reverseV; rw [e1, R_bind_ok, e2, R_bind_ok, e3]
  · intro u v u0 u1 v0 v1 dv hd junk junk' du
    obtain ⟨t1, f1, -, -, -, -, -, hv1⟩ := C28_invertUV_swaps heps h.wf (h.big eps)
    obtain rfl : t1 = s1 := by rw [e1] at f1; exact (Except.ok.inj f1).symm
    obtain ⟨t3, f3, -, -, -, -, -, hv3⟩ := C28_invertUV_swaps heps l2.wf (l2.big eps)
    obtain rfl : t3 = s3 := by rw [e3] at f3; exact (Except.ok.inj f3).symm
    obtain ⟨p1, g1, g1'⟩ := hv1 u (s.v0 + s.v1 - v) (h.in u0 u1 (by linarith) (by linarith)) junk 0 du dv
    obtain ⟨p2, g2, g2'⟩ := hv2 v u (by rw [a5]; exact v0) (by rw [a6]; exact v1) (by rw [a7]; exact u0) (by rw [a8]; exact u1) dv
      (by rw [a5, a6, a3, a1]; exact hd) 0 0 du
    obtain ⟨p3, g3, g3'⟩ := hv3 v u (l2.in (by rw [b4, a5]; exact v0) (by rw [b5, a6]; exact v1) (by rw [b6, a7]; exact u0) (by rw [b7, a8]; exact u1))
      0 junk' dv du
    rw [a5, a6, g1'] at g2
    rw [g2'] at g3
    refine ⟨p1, g1, ?_⟩
    rw [g3', ← Except.ok.inj g3, ← Except.ok.inj g2]

/-! ## Trimming -/

theorem forN_congr {S : Type} {f g : ℕ → S → R S} : ∀ (n a : ℕ) (s : S), (∀ i s, a ≤ i → i < a + n → f i s = g i s) →
    forN f n a s = forN g n a s := by
  intro n
  induction n with
  | zero => intro a s _; rfl
  | succ n ih =>
    intro a s h
    unfold forN
    rw [h a s le_rfl (by omega)]
    cases g a s with
    | error e => rfl
    | ok t => exact ih (a+1) t (fun i s h1 h2 => h i s (by omega) (by omega))

theorem forLt_congr {S : Type} {f g : ℕ → S → R S} {a b : ℕ} {s : S} (h : ∀ i s, a ≤ i → i < b → f i s = g i s) :
    forLt a b f s = forLt a b g s :=
  forN_congr _ _ _ (fun i s h1 h2 => h i s h1 (by omega))

theorem Surface.trimU_eq {eps : K} {s : Surface K V} (h : s.Wf) {u1 u2 : K} {U' : List K} {Q : List (ℕ → V)}
    (e : trimKnots eps s.degU s.knotsU s.colsU u1 u2 = .ok (U', Q)) (hl : U'.length = Q.length + s.degU + 1) :
    ∃ S, s.trimU eps u1 u2 = .ok { s with knotsU := U', poles := S, u0 := u1, u1 := u2 } ∧ S.length = Q.length * s.nPV ∧
      ∀ i j, i < Q.length → j < s.nPV → pf S (i + Q.length * j) = pf Q i j := by
  obtain ⟨S, e2, h1, h2⟩ := rows_loop (K := K) (V := V) (b := U') (b0 := ([] : List K)) (Q := Q) (m := s.nPV)
    (f := fun j => trimKnots eps s.degU s.knotsU ((s.poles.drop (j * s.nPU)).take s.nPU) u1 u2) (by
      intro j hj
      rw [row_eq_map (K := K) h.len hj]
      have := trimKnots_map (projAt K j) eps s.degU s.knotsU s.colsU u1 u2
      unfold Surface.colsU Surface.P at this e
      rw [this, e]
      rfl) h.posV
  refine ⟨S, ?_, h1, h2⟩
  unfold Surface.trimU
  rw [h.nU_eq, R_bind_ok, h.nV_eq, R_bind_ok]
  have hloop : forLt 0 s.nPV (fun j (st : List K × List V) =>
      if (j + 1) * s.nPU ≤ s.poles.length then do
        let (U, Q) ← trimKnots eps s.degU s.knotsU ((s.poles.drop (j * s.nPU)).take s.nPU) u1 u2
        pure (U, st.2 ++ Q)
      else .error .oob) ([], []) =
    forLt 0 s.nPV (fun j (st : List K × List V) => do
        let t ← trimKnots eps s.degU s.knotsU ((s.poles.drop (j * s.nPU)).take s.nPU) u1 u2
        pure (t.1, st.2 ++ t.2)) ([], []) := by
    apply forLt_congr
    intro j st _ hj
    rw [if_pos (by rw [h.len, Nat.mul_comm]; exact Nat.mul_le_mul_left _ hj)]
  rw [hloop, e2]
  rfl

/-- C56: trimming along U to an increasing interval. -/
theorem C56_trimU_partial {eps : K} (heps : 0 < eps) {s : Surface K V} (h : s.Cl) (hdeg : 1 ≤ s.degU) {u1 u2 : K}
    (h1 : s.u0 ≤ u1) (h12 : u1 < u2) (h2 : u2 ≤ s.u1) (hm1 : s.u0 + eps ≤ u1 → s.knotsU.count u1 ≤ s.degU) :
    ∃ s', s.trimU eps u1 u2 = .ok s' ∧ s'.Wf ∧ s'.degU = s.degU ∧ s'.degV = s.degV ∧ s'.knotsV = s.knotsV ∧
      s'.u0 = u1 ∧ s'.u1 = u2 ∧ s'.v0 = s.v0 ∧ s'.v1 = s.v1 ∧ kf s'.knotsU s'.degU ≤ u1 ∧ u2 ≤ kf s'.knotsU s'.nPU ∧
      (s.u0 + eps ≤ u1 → kf s'.knotsU 0 = u1) ∧ (u2 + eps ≤ s.u1 → kLast s'.knotsU = u2) ∧
      ∀ u v, u1 ≤ u → u ≤ u2 → s.v0 ≤ v → v ≤ s.v1 →
        ∀ du, (u < u2 ∨ du + s.knotsU.count u2 ≤ s.degU ∨ s.u1 < u2 + eps) → ∀ (junk junk' : K) (dv : ℕ),
        ∃ pt, s.value eps junk u v du dv = .ok pt ∧ s'.value eps junk' u v du dv = .ok pt := by
  obtain ⟨c', e, c1, c2, c3, w, l1, l2, k1, k2, hv⟩ := C20_trim_partial heps h.goodU h.clU hdeg (Or.inl h.du) h1 h12 h2 hm1
  have ek : trimKnots eps s.degU s.knotsU s.colsU u1 u2 = .ok (c'.knots, c'.poles) := by
    unfold Curve.trim at e
    simp only [if_true] at e
    change (trimKnots eps s.degU s.knotsU s.colsU u1 u2 >>= _) = _ at e
    cases hc : trimKnots eps s.degU s.knotsU s.colsU u1 u2 with
    | error x => rw [hc, R_bind_error] at e; cases e
    | ok t =>
      rw [hc, R_bind_ok] at e
      obtain ⟨a, b⟩ := t
      rw [← Except.ok.inj e]
  have c1' : c'.deg = s.degU := c1
  have hl : c'.knots.length = c'.poles.length + s.degU + 1 := by rw [w.len, c1']
  obtain ⟨S, eS, hS, hS2⟩ := Surface.trimU_eq h.wf ek hl
  set s' : Surface K V := { s with knotsU := c'.knots, poles := S, u0 := u1, u1 := u2 } with hs'
  have hn : s'.nPU = c'.poles.length := by unfold Surface.nPU; simp only [hs']; omega
  have w' : s'.Wf := by
    refine ⟨?_, h.wf.v, ?_⟩
    · have := w.kwf
      rw [c1'] at this
      rw [hn]; exact this
    · rw [hn]; exact hS
  rw [c1'] at l1
  refine ⟨s', eS, w', rfl, rfl, rfl, rfl, rfl, rfl, rfl, l1, by rw [hn]; exact l2, k1, k2, ?_⟩
  intro u v hu1 hu2 hv0 hv1 du hd junk junk' dv
  have hin : s.In u v := h.in (h1.trans hu1) (hu2.trans h2) hv0 hv1
  have hin' : s'.In u v := ⟨hu1, hu2, hv0, hv1, l1.trans hu1, by rw [hn]; exact hu2.trans l2, hin.kv0, hin.kv1⟩
  obtain ⟨pt, a, b⟩ := Surface.transferU heps h.wf w' h.du h.dv rfl rfl rfl (c' := c') c1 rfl hn.symm c2 c3
    (by
      intro i j hi hj
      rw [hn] at hi
      unfold Surface.P
      rw [hn]
      exact hS2 i j hi hj) hin hin' (g := (1 : K)) (du := du) (by
      obtain ⟨pt, a, b⟩ := hv u hu1 hu2 du hd 0 0
      exact ⟨pt, a, by rw [one_smul]; exact b⟩) junk junk' dv
  exact ⟨pt, a, by rw [one_smul] at b; exact b⟩

/-- C56: trimming along V to an increasing interval. The V bounds become those of the trimmed knots: `v1` and `v2` unless
they are within the tolerance of an end, where that end remains. -/
theorem C56_trimV_partial {eps : K} (heps : 0 < eps) {s : Surface K V} (h : s.Cl) (hdeg : 1 ≤ s.degV) {v1 v2 : K}
    (h1 : s.v0 ≤ v1) (h12 : v1 < v2) (h2 : v2 ≤ s.v1) (hm1 : s.v0 + eps ≤ v1 → s.knotsV.count v1 ≤ s.degV) :
    ∃ s', s.trimV eps v1 v2 = .ok s' ∧ s'.Wf ∧ s'.degU = s.degU ∧ s'.degV = s.degV ∧ s'.knotsU = s.knotsU ∧
      s'.u0 = s.u0 ∧ s'.u1 = s.u1 ∧ (s.v0 + eps ≤ v1 → s'.v0 = v1) ∧ (v2 + eps ≤ s.v1 → s'.v1 = v2) ∧
      ∀ u v, s.u0 ≤ u → u ≤ s.u1 → v1 ≤ v → v ≤ v2 →
        ∀ dv, (v < v2 ∨ dv + s.knotsV.count v2 ≤ s.degV ∨ s.v1 < v2 + eps) → ∀ (junk junk' : K) (du : ℕ),
        ∃ pt, s.value eps junk u v du dv = .ok pt ∧ s'.value eps junk' u v du dv = .ok pt := by
  obtain ⟨s1, e1, l1, a1, a2, a3, a4, a5, a6, a7, a8⟩ := Surface.invert_cl h.wf h.du h.dv (by rw [h.u00, h.u01]) (by rw [h.u10, h.u11])
    (by rw [h.v00, h.v01]) (by rw [h.v10, h.v11])
  rw [h.v00] at a5; rw [h.v11] at a6; rw [h.u00] at a7; rw [h.u11] at a8
  obtain ⟨s2, e2, w2, b1, b2, b3, b4, b5, b6, b7, b8, b9, b10, b11, hv2⟩ := C56_trimU_partial heps l1 (by rw [a1]; exact hdeg)
    (by rw [a5]; exact h1) h12 (by rw [a6]; exact h2) (by rw [a5, a1, a3]; exact hm1)
  obtain ⟨s3, e3, w3, d1, d2, k1, k2, c1, c2, c3, c4, n1, n2, hp⟩ := Surface.invertUV_eq w2
  refine ⟨s3, ?_, w3, by rw [d1, b2, a2], by rw [d2, b1, a1], by rw [k1, b3, a4], by rw [c1, b3, a4, h.u00], by rw [c2, b3, a4, h.u11],
    fun h' => by rw [c3, b10 (by rw [a5]; exact h')], fun h' => by rw [c4, b11 (by rw [a6]; exact h')], ?_⟩
  · unfold Surface.trimV; rw [e1, R_bind_ok, e2, R_bind_ok, e3]
  · intro u v u0 u1 v0 v1 dv hd junk junk' du
    obtain ⟨t1, f1, -, -, -, -, -, hv1⟩ := C28_invertUV_swaps heps h.wf (h.big eps)
    obtain rfl : t1 = s1 := by rw [e1] at f1; exact (Except.ok.inj f1).symm
    obtain ⟨t3, f3, -, -, -, -, -, hv3⟩ := C28_invertUV_swaps (eps := eps) heps w2 (Or.inl ⟨by rw [b1]; exact l1.du, by rw [b2]; exact l1.dv⟩)
    obtain rfl : t3 = s3 := by rw [e3] at f3; exact (Except.ok.inj f3).symm
    obtain ⟨p1, g1, g1'⟩ := hv1 u v (h.in u0 u1 (h1.trans v0) (v1.trans h2)) junk 0 du dv
    have hu0' : t1.v0 ≤ u := by rw [a7]; exact u0
    have hu1' : u ≤ t1.v1 := by rw [a8]; exact u1
    obtain ⟨p2, g2, g2'⟩ := hv2 v u v0 v1 hu0' hu1' dv (by rw [a3, a1, a6]; exact hd) 0 0 du
    have hin : s2.In v u := by
      have hin1 := l1.in (u := v) (v := u) (by rw [a5]; exact h1.trans v0) (by rw [a6]; exact v1.trans h2) hu0' hu1'
      have hnv : s2.nPV = t1.nPV := by unfold Surface.nPV; rw [b3, b2]
      exact ⟨by rw [b4]; exact v0, by rw [b5]; exact v1, by rw [b6]; exact hu0', by rw [b7]; exact hu1', b8.trans v0, v1.trans b9,
        by rw [b3, b2]; exact hin1.kv0, by rw [b3, hnv]; exact hin1.kv1⟩
    obtain ⟨p3, g3, g3'⟩ := hv3 v u hin 0 junk' dv du
    rw [g1'] at g2
    rw [g2'] at g3
    refine ⟨p1, g1, ?_⟩
    rw [g3', ← Except.ok.inj g3, ← Except.ok.inj g2]

/-- C56 is false for decreasing trimming parameters: the bounds are stored in that order and no parameter can be evaluated. -/
theorem C56_trimU_decreasing_witness : ∃ s', Sample.s.trimU (1/1000) 2 1 = .ok s' ∧ s'.knotsU = [1,1,1,2,2,2] ∧
    ∀ u v junk, s'.value (1/1000) junk u v = .error (.thrown .outOfBoundsEval) := by
  refine ⟨⟨2, 1, [2,3,2,5/2,1,1,7/2,7,3], [1,1,1,2,2,2], [0,0,1,3,3], 2, 1, 0, 3⟩, by decide +kernel, rfl, ?_⟩
  intro u v junk
  unfold Surface.value
  rw [if_pos]
  unfold Surface.outside
  by_cases h : u < 2 - 1/1000
  · exact Or.inl (Or.inl h)
  · exact Or.inl (Or.inr (show 1 + 1/1000 < u by linarith))

theorem Sample.s_cl : Sample.s.Cl :=
  ⟨Sample.s_wf, by decide, by decide, by decide +kernel, by decide +kernel, by decide +kernel, by decide +kernel, by decide +kernel,
    by decide +kernel, by decide +kernel, by decide +kernel⟩

example : ∃ s', Sample.s.changeUBounds 5 6 = .ok s' ∧ s'.Cl := by
  obtain ⟨s', e, h, -⟩ := C56_changeUBounds (eps := (1/1000 : ℚ)) (by norm_num) Sample.s_cl (a := 5) (b := 6) (by norm_num)
  exact ⟨s', e, h⟩

example : ∃ s', Sample.s.changeVBounds (-1) 6 = .ok s' ∧ s'.Cl := by
  obtain ⟨s', e, h, -⟩ := C56_changeVBounds (eps := (1/1000 : ℚ)) (by norm_num) Sample.s_cl (a := -1) (b := 6) (by norm_num)
  exact ⟨s', e, h⟩

/-- At a parameter whose mirror image is an interior simple knot, first derivative of a degree 2. -/
example : ∃ s', Sample.s.reverseU = .ok s' ∧ ∃ pt, Sample.s.value (1/1000) 0 1 2 1 0 = .ok pt ∧ s'.value (1/1000) 0 1 2 1 0 = .ok (-pt) := by
  obtain ⟨s', e, -, -, -, -, -, -, -, -, h⟩ := C56_reverseU (eps := (1/1000 : ℚ)) (by norm_num) Sample.s_cl
  obtain ⟨pt, a, b⟩ := h 1 2 (by decide +kernel) (by decide +kernel) (by decide +kernel) (by decide +kernel) 1
    (Or.inr (Or.inr (Or.inr (by decide +kernel)))) 0 0 0
  refine ⟨s', e, pt, ?_, ?_⟩
  · rw [← a]; congr 1; decide +kernel
  · rw [b]; simp

example : ∃ s', Sample.s.reverseV = .ok s' ∧ ∃ pt, Sample.s.value (1/1000) 0 1 1 0 0 = .ok pt ∧ s'.value (1/1000) 0 1 2 0 0 = .ok pt := by
  obtain ⟨s', e, -, -, -, -, -, -, -, -, h⟩ := C56_reverseV (eps := (1/1000 : ℚ)) (by norm_num) Sample.s_cl
  obtain ⟨pt, a, b⟩ := h 1 2 (by decide +kernel) (by decide +kernel) (by decide +kernel) (by decide +kernel) 0
    (Or.inr (Or.inr (Or.inr (by decide +kernel)))) 0 0 0
  refine ⟨s', e, pt, ?_, ?_⟩
  · rw [← a]; congr 1; decide +kernel
  · rw [b]; simp

example : ∃ s', Sample.s.trimU (1/1000) (1/2) 1 = .ok s' ∧ s'.u0 = 1/2 ∧ s'.u1 = 1 := by
  obtain ⟨s', e, -, -, -, -, h1, h2, -⟩ := C56_trimU_partial (eps := (1/1000 : ℚ)) (by norm_num) Sample.s_cl (by decide)
    (u1 := 1/2) (u2 := 1) (by decide +kernel) (by norm_num) (by decide +kernel) (fun _ => by decide +kernel)
  exact ⟨s', e, h1, h2⟩

example : ∃ s', Sample.s.trimV (1/1000) (1/2) 2 = .ok s' ∧ s'.v0 = 1/2 ∧ s'.v1 = 2 := by
  obtain ⟨s', e, -, -, -, -, -, -, h1, h2, -⟩ := C56_trimV_partial (eps := (1/1000 : ℚ)) (by norm_num) Sample.s_cl (by decide)
    (v1 := 1/2) (v2 := 2) (by decide +kernel) (by norm_num) (by decide +kernel) (fun _ => by decide +kernel)
  exact ⟨s', e, h1 (by decide +kernel), h2 (by decide +kernel)⟩

end Gbs
