import Verif.Model.ExtendSurf
import Verif.Props.Extend
import Verif.Props.SurfJoin
import Verif.Props.SurfInterp

/-!
# Lemmas for the extension of surfaces: the rows of poles as curves
-/

namespace Gbs

set_option linter.unusedSectionVars false

variable {K : Type} [Field K] [LinearOrder K] [IsStrictOrderedRing K]
variable {V : Type} [AddCommGroup V] [Module K V]

/-- Row `j` of the poles, as the description of a curve in `u`. -/
def Surface.rowCurve (s : Surface K V) (j : ℕ) : CurveInfo K V := ⟨(s.poles.drop (j * s.nPU)).take s.nPU, s.knotsU, s.degU⟩

theorem Surface.Wf.rowLen {s : Surface K V} (h : s.Wf) {j : ℕ} (hj : j < s.nPV) : (s.rowCurve j).poles.length = s.nPU := by
  have h1 := idx_lt' (n := s.nPU) hj
  have h2 := h.len
  simp only [Surface.rowCurve, List.length_take, List.length_drop]
  omega

theorem Surface.rowPole (s : Surface K V) {i : ℕ} (j : ℕ) (hi : i < s.nPU) : pf (s.rowCurve j).poles i = s.P i j := by
  simp only [Surface.rowCurve]
  rw [pf_take _ hi, pf_drop, Surface.P, Nat.mul_comm]

theorem Surface.Cl.rowGood {s : Surface K V} (h : s.Cl) {j : ℕ} (hj : j < s.nPV) : (s.rowCurve j).toCurve.Good := by
  have hl := h.wf.rowLen hj
  refine ⟨h.wf.u.wf hl, ?_, ?_⟩
  · show kf s.knotsU 0 = kf s.knotsU s.degU
    rw [h.u00, h.u01]
  · show kLast s.knotsU = kf s.knotsU (s.rowCurve j).poles.length
    rw [hl, h.u11, h.u10]

/-- The surface at a parameter `u` is the curve in `v` whose poles are the values of the rows. -/
theorem Surface.Cl.value_rows {eps : K} (heps : 0 < eps) {s : Surface K V} (h : s.Cl) {u : K} (hu0 : s.u0 ≤ u) (hu1 : u ≤ s.u1) {du : ℕ} {x : ℕ → V}
    {junk : K} (hx : ∀ j, j < s.nPV → (s.rowCurve j).toCurve.value eps junk u du = .ok (x j)) {v : K} (hv0 : s.v0 ≤ v) (hv1 : v ≤ s.v1) (junk' junk'' : K)
    (dv : ℕ) : s.value eps junk' u v du dv = (⟨(List.range s.nPV).map x, s.knotsV, s.degV⟩ : CurveInfo K V).toCurve.value eps junk'' v dv := by
  obtain ⟨a, b, ea, eb, -, -, -, -, -, -, e⟩ := Surface.value_spec heps h.wf (h.big eps) (h.in hu0 hu1 hv0 hv1)
  have hl : ((List.range s.nPV).map x).length = s.nPV := by simp
  have hg : (⟨(List.range s.nPV).map x, s.knotsV, s.degV⟩ : CurveInfo K V).toCurve.Good := by
    refine ⟨h.wf.v.wf hl, ?_, ?_⟩
    · show kf s.knotsV 0 = kf s.knotsV s.degV
      rw [h.v00, h.v01]
    · show kLast s.knotsV = kf s.knotsV ((List.range s.nPV).map x).length
      rw [hl, h.v11, h.v10]
  obtain ⟨b', eb', -, -, -, e'⟩ := Curve.value_span heps hg (Or.inl h.dv) (u := v) (by show kf s.knotsV 0 ≤ v; rw [h.v00]; exact hv0)
    (by show v ≤ kLast s.knotsV; rw [h.v11]; exact hv1)
  have hb : b' = b := by
    have := eb'
    change findSpan ((List.range s.nPV).map x).length s.degV v s.knotsV = _ at this
    rw [hl, eb] at this
    exact (Except.ok.inj this).symm
  subst hb
  rw [e junk' du dv, e' junk'' dv]
  change _ = Except.ok (spanDer (kf s.knotsV) ((List.range s.nPV).map x).length s.degV b' (pf ((List.range s.nPV).map x)) dv v)
  rw [hl]
  congr 1
  unfold surfDer
  apply spanDer_congr
  intro j hj
  rw [pf_map_range _ hj]
  have hrl := h.wf.rowLen hj
  obtain ⟨a', ea', -, -, -, e''⟩ := Curve.value_span heps (h.rowGood hj) (Or.inl h.du) (u := u) (by show kf s.knotsU 0 ≤ u; rw [h.u00]; exact hu0)
    (by show u ≤ kLast s.knotsU; rw [h.u11]; exact hu1)
  have ha : a' = a := by
    have := ea'
    change findSpan (s.rowCurve j).poles.length s.degU u s.knotsU = _ at this
    rw [hrl, ea] at this
    exact (Except.ok.inj this).symm
  subst ha
  have := hx j hj
  rw [e'' junk du] at this
  rw [← Except.ok.inj this]
  change _ = spanDer (kf s.knotsU) (s.rowCurve j).poles.length s.degU a' (pf (s.rowCurve j).poles) du u
  rw [hrl]
  apply spanDer_congr
  intro i hi
  rw [s.rowPole j hi]
  rfl

/-- A curve is the one of its poles, knots and degree, on its domain. -/
theorem Curve.value_info {eps : K} (heps : 0 < eps) {c : Curve K V} (h : c.Good) (h0 : kf c.knots 0 = c.b0) (h1 : kLast c.knots = c.b1) :
    (⟨c.poles, c.knots, c.deg⟩ : CurveInfo K V).toCurve = c := by
  cases c
  simp only [CurveInfo.toCurve, Curve.mk.injEq, true_and]
  exact ⟨h0, h1⟩

/-- The loop over the rows. -/
theorem extRows_spec {eps : K} {s : Surface K V} (h : s.Cl) {ext : ℕ → Curve K V → R (Curve K V)} {e : ℕ → Curve K V} {n' p' : ℕ} {k' : List K}
    (he : ∀ j, j < s.nPV → ext j (s.rowCurve j).toCurve = .ok (e j)) (hl : ∀ j, j < s.nPV → (e j).poles.length = n')
    (hd : ∀ j, j < s.nPV → (e j).deg = p') (hk : ∀ j, j < s.nPV → (e j).knots = k') :
    ∃ X, extRows eps s ext = .ok (X, p', k') ∧ X.length = n' * s.nPV ∧ ∀ i j, i < n' → j < s.nPV → pf X (i + n' * j) = pf (e j).poles i := by
  obtain ⟨r, er, r1, r2, r3⟩ := forLt_inv (a := 0) (b := s.nPV) (s := (([], none) : List V × Option (ℕ × List K)))
    (body := fun i r => do
      if s.poles.length < i * s.nPU + s.nPU then .error .oob
      else do
        let iso ← Curve.mk? eps ((s.poles.drop (i * s.nPU)).take s.nPU) s.knotsU s.degU
        let e ← ext i iso
        pure (r.1 ++ e.poles, if i = 0 then some (e.deg, e.knots) else r.2))
    (fun k r => r.1.length = n' * k ∧ (0 < k → r.2 = some (p', k')) ∧ ∀ i j, i < n' → j < k → pf r.1 (i + n' * j) = pf (e j).poles i) (Nat.zero_le _)
    ⟨by simp, fun h => absurd h (by omega), fun i j _ hj => absurd hj (by omega)⟩
    (by
      rintro j r - hj ⟨g1, g2, g3⟩
      have hi := idx_lt' (n := s.nPU) hj
      have hlen := h.wf.len
      have hrl := h.wf.rowLen hj
      have hmk := mk?_sorted eps (s.rowCurve j).poles h.wf.u.sorted s.degU (by rw [hrl]; exact h.wf.u.len) (by rw [hrl]; exact h.wf.u.min)
      refine ⟨(r.1 ++ (e j).poles, if j = 0 then some ((e j).deg, (e j).knots) else r.2), ?_, ?_, ?_, ?_⟩
      · beta_reduce
        rw [if_neg (by omega)]
        change (do
          let iso ← Curve.mk? eps (s.rowCurve j).poles s.knotsU s.degU
          let e ← ext j iso
          pure (r.1 ++ e.poles, if j = 0 then some (e.deg, e.knots) else r.2) : R _) = _
        rw [hmk, R_bind_ok]
        change (do
          let e ← ext j (s.rowCurve j).toCurve
          pure (r.1 ++ e.poles, if j = 0 then some (e.deg, e.knots) else r.2) : R _) = _
        rw [he j hj, R_bind_ok]
        rfl
      · show (r.1 ++ (e j).poles).length = _
        rw [List.length_append, g1, hl j hj, Nat.mul_succ]
      · intro _
        show (if j = 0 then some ((e j).deg, (e j).knots) else r.2) = _
        split
        · rw [hd j hj, hk j hj]
        · exact g2 (by omega)
      · intro i j' hi' hj'
        show pf (r.1 ++ (e j).poles) _ = _
        rcases Nat.lt_or_ge j' j with h3 | h3
        · have := idx_lt (n := n') (i := i) hi' h3
          rw [pf_append_left (by omega), g3 i j' hi' h3]
        · obtain rfl : j' = j := by omega
          rw [pf_append_right (by omega), g1]
          congr 1
          omega)
  refine ⟨r.1, ?_, r1, r3⟩
  unfold extRows
  rw [h.wf.nU_eq, R_bind_ok, h.wf.nV_eq, R_bind_ok, er, R_bind_ok, r2 h.wf.posV]
  rfl

/-- The loop over the rows stops at the first row which cannot be extended. -/
theorem extRows_error {eps : K} {s : Surface K V} (h : s.Cl) {ext : ℕ → Curve K V → R (Curve K V)} {x : Err} {n : ℕ} (hn : n < s.nPV)
    (he : ∀ j, j < n → ∃ e, ext j (s.rowCurve j).toCurve = .ok e) (hx : ∀ c, ext n c = .error x) : extRows eps s ext = .error x := by
  have hmk : ∀ j, j < s.nPV → ¬ s.poles.length < j * s.nPU + s.nPU ∧
      Curve.mk? eps ((s.poles.drop (j * s.nPU)).take s.nPU) s.knotsU s.degU = .ok (s.rowCurve j).toCurve := by
    intro j hj
    have hi := idx_lt' (n := s.nPU) hj
    have hlen := h.wf.len
    have hrl := h.wf.rowLen hj
    exact ⟨by omega, mk?_sorted eps (s.rowCurve j).poles h.wf.u.sorted s.degU (by rw [hrl]; exact h.wf.u.len) (by rw [hrl]; exact h.wf.u.min)⟩
  have hsplit : ∀ (m a : ℕ) (r : List V × Option (ℕ × List K)), a ≤ n → a + m = s.nPV →
      forN (fun i (r : List V × Option (ℕ × List K)) => do
        if s.poles.length < i * s.nPU + s.nPU then .error .oob
        else do
          let iso ← Curve.mk? eps ((s.poles.drop (i * s.nPU)).take s.nPU) s.knotsU s.degU
          let e ← ext i iso
          pure (r.1 ++ e.poles, if i = 0 then some (e.deg, e.knots) else r.2)) m a r = .error x := by
    intro m
    induction m with
    | zero => intro a r h1 h2; omega
    | succ m ih =>
      intro a r h1 h2
      obtain ⟨g1, g2⟩ := hmk a (by omega)
      rw [forN, if_neg g1, g2, R_bind_ok]
      rcases Nat.lt_or_ge a n with h3 | h3
      · obtain ⟨e, e1⟩ := he a h3
        rw [e1, R_bind_ok]
        exact ih (a + 1) _ (by omega) (by omega)
      · obtain rfl : a = n := by omega
        rw [hx, R_bind_error, R_bind_error]
  unfold extRows
  rw [h.wf.nU_eq, R_bind_ok, h.wf.nV_eq, R_bind_ok]
  unfold forLt
  rw [hsplit _ 0 _ (Nat.zero_le _) (by omega), R_bind_error]

/-- The surface whose rows are given curves on the same knots. -/
theorem rows_surface {eps : K} (heps : 0 < eps) {p' q n' m : ℕ} {k' kv : List K} {X : List V} (hU : KWf p' k' n') (hV : KWf q kv m) (hX : X.length = n' * m)
    (hp : p' ≤ stackMaxDegree) (hq : q ≤ stackMaxDegree) (hmem : (n' + p' + 1) * (m + q + 1) < 2 ^ 64) (hu0 : kf k' 0 = kf k' p')
    (hu1 : kLast k' = kf k' n') (hv0 : kf kv 0 = kf kv q) (hv1 : kLast kv = kf kv m) {e : ℕ → Curve K V} (hl : ∀ j, j < m → (e j).poles.length = n')
    (hd : ∀ j, j < m → (e j).deg = p') (hk : ∀ j, j < m → (e j).knots = k') (hb0 : ∀ j, j < m → (e j).b0 = kf k' 0) (hb1 : ∀ j, j < m → (e j).b1 = kLast k')
    (hPX : ∀ i j, i < n' → j < m → pf X (i + n' * j) = pf (e j).poles i) :
    ∃ s, Surface.mk? eps X k' kv p' q = .ok s ∧ s.Cl ∧ s.degU = p' ∧ s.degV = q ∧ s.knotsU = k' ∧ s.knotsV = kv ∧ s.nPU = n' ∧ s.nPV = m ∧
      s.u0 = kf k' 0 ∧ s.u1 = kLast k' ∧ s.v0 = kf kv 0 ∧ s.v1 = kLast kv ∧ ∀ j, j < m → (s.rowCurve j).toCurve = e j := by
  obtain ⟨s, es, hs, hwf, -⟩ := surf_clamped heps hU hV hX hp hq hmem hu0 hu1 hv0 hv1
  have eU : s.nPU = n' := by
    have := hU.len
    rw [hs]; unfold Surface.nPU; simp only; omega
  have eV : s.nPV = m := by
    have := hV.len
    rw [hs]; unfold Surface.nPV; simp only; omega
  refine ⟨s, es, ⟨hwf, ?_, ?_, ?_, ?_, ?_, ?_, ?_, ?_, ?_, ?_⟩, ?_, ?_, ?_, ?_, eU, eV, ?_, ?_, ?_, ?_, ?_⟩
  · rw [hs]; exact hp
  · rw [hs]; exact hq
  · rw [hs]; exact hu0
  · rw [hs]
  · rw [eU, hs]
  · rw [hs]; exact hu1
  · rw [hs]; exact hv0
  · rw [hs]
  · rw [eV, hs]
  · rw [hs]; exact hv1
  · rw [hs]
  · rw [hs]
  · rw [hs]
  · rw [hs]
  · rw [hs, hu0]
  · rw [hs, hu1]
  · rw [hs, hv0]
  · rw [hs, hv1]
  · intro j hj
    have hj' : j < s.nPV := by rw [eV]; exact hj
    have hpoles : (s.rowCurve j).poles = (e j).poles := by
      apply pf_ext
      · rw [hwf.rowLen hj', eU, hl j hj]
      · intro i hi
        rw [hwf.rowLen hj'] at hi
        rw [s.rowPole j hi, Surface.P, eU, ← hPX i j (by omega) hj]
        rw [hs]
    have h1 := hd j hj
    have h2 := hk j hj
    have h3 := hb0 j hj
    have h4 := hb1 j hj
    have e1 : (s.rowCurve j).knots = k' := by simp only [Surface.rowCurve]; rw [hs]
    have e2 : (s.rowCurve j).deg = p' := by simp only [Surface.rowCurve]; rw [hs]
    unfold CurveInfo.toCurve
    rw [hpoles, e1, e2]
    cases hej : e j
    rw [hej] at h1 h2 h3 h4
    simp only at h1 h2 h3 h4
    subst h1 h2 h3 h4
    rfl

end Gbs
