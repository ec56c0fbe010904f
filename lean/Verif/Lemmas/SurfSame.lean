import Verif.Model.SurfTools
import Verif.Props.SurfaceDegree
import Verif.Props.Unify
import Verif.Props.SurfInterp
import Verif.Lemmas.UnifyAgain
import Verif.Props.Join

/-! # Surfaces with the same points; degree elevation repeated -/

namespace Gbs

set_option linter.unusedSectionVars false

variable {K : Type} [Field K] [LinearOrder K] [IsStrictOrderedRing K]
variable {V : Type} [AddCommGroup V] [Module K V]

/-- The same bounds, the same points, the same partial derivatives. -/
structure Spec.SameSurf (eps : K) (s s' : Surface K V) : Prop where
  u0 : s'.u0 = s.u0
  u1 : s'.u1 = s.u1
  v0 : s'.v0 = s.v0
  v1 : s'.v1 = s.v1
  value : ∀ u v, s.u0 ≤ u → u ≤ s.u1 → s.v0 ≤ v → v ≤ s.v1 → ∀ (junk junk' : K) (du dv : ℕ),
    ∃ pt, s.value eps junk u v du dv = .ok pt ∧ s'.value eps junk' u v du dv = .ok pt

theorem Spec.SameSurf.trans {eps : K} {s s' s'' : Surface K V} (h : Spec.SameSurf eps s s') (h' : Spec.SameSurf eps s' s'') :
    Spec.SameSurf eps s s'' := by
  refine ⟨h'.u0.trans h.u0, h'.u1.trans h.u1, h'.v0.trans h.v0, h'.v1.trans h.v1, ?_⟩
  intro u v a b c d junk junk' du dv
  obtain ⟨p, e1, e2⟩ := h.value u v a b c d junk junk du dv
  obtain ⟨p', e3, e4⟩ := h'.value u v (by rw [h.u0]; exact a) (by rw [h.u1]; exact b) (by rw [h.v0]; exact c) (by rw [h.v1]; exact d) junk junk' du dv
  rw [e2] at e3
  obtain rfl := Except.ok.inj e3
  exact ⟨p, e1, e4⟩

theorem Surface.Cl.same {eps : K} (heps : 0 < eps) {s : Surface K V} (h : s.Cl) : Spec.SameSurf eps s s := by
  refine ⟨rfl, rfl, rfl, rfl, ?_⟩
  intro u v a b c d junk junk' du dv
  obtain ⟨_, _, -, -, -, -, -, -, -, -, e⟩ := Surface.value_spec heps h.wf (h.big eps) (h.in a b c d)
  exact ⟨_, e junk du dv, e junk' du dv⟩

/-- A clamped surface: distinct knots farther apart than the tolerance in both directions. -/
structure Surface.ClampedBy (eps : K) (s : Surface K V) (ku : List K) (mu : List ℕ) (kv : List K) (mv : List ℕ) : Prop where
  cl : s.Cl
  kU : KnotsBy eps s.degU s.knotsU ku mu
  kV : KnotsBy eps s.degV s.knotsV kv mv

/-- The ends of clamped knots. -/
theorem KnotsBy.ends {eps : K} (heps : 0 ≤ eps) {p n : ℕ} {U ks : List K} {ms : List ℕ} (h : KnotsBy eps p U ks ms) (hw : KWf p U n) :
    kf U 0 = kf U p ∧ kf U n = kLast U := by
  have hlen := hw.len
  have hmin := hw.min
  obtain ⟨m, hm, hlm, hU, hC⟩ := h.clampF heps (by omega)
  constructor
  · rw [hU, hC.d0]
    exact kf_flatF _ _ (by omega) (by rw [flatF_length_zero]) (by rw [flatF_length_zero, hC.first]; omega)
  · unfold kLast
    have hl : (flatF (kf ks) (fun i => ms.getD i 0) (m + 1)).length = n + p + 1 := by rw [← hU]; exact hlen
    have hl' := flatF_length_succ (kf ks) (fun i => ms.getD i 0) m
    have hla := hC.last
    rw [hU, hC.d1 hl]
    exact (kf_flatF _ _ (by omega) (by omega) (by omega)).symm

theorem KnotsBy.length {eps : K} {p : ℕ} {U ks : List K} {ms : List ℕ} (h : KnotsBy eps p U ks ms) : U.length = ms.sum := by
  have h0 := h.flat
  unfold flatKnots at h0
  split at h0
  · cases h0
  · rename_i hl
    rw [← Except.ok.inj h0]
    exact flatKnots_length ks ms (not_not.mp hl)

/-- Each different knot is at least one knot. -/
theorem KnotsBy.le_length {eps : K} {p : ℕ} {U ks : List K} {ms : List ℕ} (h : KnotsBy eps p U ks ms) : ms.length ≤ U.length := by
  rw [h.length]
  apply List.length_le_sum_of_one_le
  intro x hx
  obtain ⟨i, hi, rfl⟩ := List.getElem_of_mem hx
  have hf := h.first
  have hl := h.last
  rcases Nat.eq_zero_or_pos i with rfl | h0
  · rw [List.head?_eq_getElem?, List.getElem?_eq_getElem hi] at hf
    have := Option.some.inj hf
    omega
  · rcases Nat.lt_or_ge (i + 1) ms.length with h1 | h1
    · exact (h.mid i _ h0 h1 (List.getElem?_eq_getElem hi)).1
    · rw [List.getLast?_eq_getElem?, show ms.length - 1 = i by omega, List.getElem?_eq_getElem hi] at hl
      have := Option.some.inj hl
      omega

theorem sum_map_add (ms : List ℕ) (t : ℕ) : (ms.map (· + t)).sum = ms.sum + t * ms.length := by
  induction ms with
  | nil => simp
  | cons x xs ih => simp [ih]; ring

/-- One elevation along U. -/
theorem Surface.ClampedBy.stepU {eps : K} (heps : 0 < eps) {s : Surface K V} {ku kv : List K} {mu mv : List ℕ} (h : s.ClampedBy eps ku mu kv mv)
    (hd : s.degU + 1 ≤ 12) :
    ∃ s', s.increaseDegreeU eps = .ok s' ∧ s'.ClampedBy eps ku (mu.map (· + 1)) kv mv ∧ s'.degU = s.degU + 1 ∧ s'.degV = s.degV ∧
      s'.knotsV = s.knotsV ∧ Spec.SameSurf eps s s' := by
  have hs24 : stackMaxDegree = 24 := rfl
  obtain ⟨s', e, w, d1, d2, k, hk, u0, u1, v0, v1, f0, f1, hv⟩ := C59_increaseDegreeU heps h.cl.wf h.cl.dv hd h.kU
  obtain ⟨z0, z1⟩ := hk.ends heps.le w.u
  have hnv : s'.nPV = s.nPV := by unfold Surface.nPV; rw [k, d2]
  refine ⟨s', e, ⟨⟨w, by omega, by rw [d2]; exact h.cl.dv, ?_, ?_, ?_, ?_, ?_, ?_, ?_, ?_⟩, hk, by rw [d2, k]; exact h.kV⟩, d1, d2, k,
    ⟨u0, u1, v0, v1, fun u v a b c d => hv u v (h.cl.in a b c d)⟩⟩
  · rw [z0, f0, u0, h.cl.u01]
  · rw [f0, u0, h.cl.u01]
  · rw [f1, u1, h.cl.u10]
  · rw [← z1, f1, u1, h.cl.u10]
  · rw [k, v0, h.cl.v00]
  · rw [k, d2, v0, h.cl.v01]
  · rw [k, hnv, v1, h.cl.v10]
  · rw [k, v1, h.cl.v11]

/-- One elevation along V. -/
theorem Surface.ClampedBy.stepV {eps : K} (heps : 0 < eps) {s : Surface K V} {ku kv : List K} {mu mv : List ℕ} (h : s.ClampedBy eps ku mu kv mv)
    (hd : s.degV + 1 ≤ 12) :
    ∃ s', s.increaseDegreeV eps = .ok s' ∧ s'.ClampedBy eps ku mu kv (mv.map (· + 1)) ∧ s'.degU = s.degU ∧ s'.degV = s.degV + 1 ∧
      s'.knotsU = s.knotsU ∧ Spec.SameSurf eps s s' := by
  have hs24 : stackMaxDegree = 24 := rfl
  obtain ⟨s', e, w, d1, d2, k, hk, u0, u1, v0, v1, hv⟩ := C59_increaseDegreeV heps h.cl hd h.kV
  obtain ⟨z0, z1⟩ := hk.ends heps.le w.v
  have hnu : s'.nPU = s.nPU := by unfold Surface.nPU; rw [k, d1]
  obtain ⟨m, hm, hlm, hU, hC⟩ := h.kV.clampF heps.le (by have := h.cl.wf.v.len; have := h.cl.wf.v.min; omega)
  obtain ⟨m', hm', hlm', hU', hC'⟩ := hk.clampF heps.le (by have := w.v.len; have := w.v.min; omega)
  obtain rfl : m' = m := by omega
  have hl : (flatF (kf kv) (fun i => mv.getD i 0) (m' + 1)).length = s.nPV + s.degV + 1 := by rw [← hU]; exact h.cl.wf.v.len
  have hl' : (flatF (kf kv) (fun i => (mv.map (· + 1)).getD i 0) (m' + 1)).length = s'.nPV + s'.degV + 1 := by rw [← hU']; exact w.v.len
  have f0 : kf s'.knotsV s'.degV = kf s.knotsV s.degV := by rw [hU', hC'.d0, hU, hC.d0]
  have f1 : kf s'.knotsV s'.nPV = kf s.knotsV s.nPV := by rw [hU', hC'.d1 hl', hU, hC.d1 hl]
  refine ⟨s', e, ⟨⟨w, by rw [d1]; exact h.cl.du, by omega, ?_, ?_, ?_, ?_, ?_, ?_, ?_, ?_⟩, by rw [d1, k]; exact h.kU, hk⟩, d1, d2, k,
    ⟨u0, u1, v0, v1, hv⟩⟩
  · rw [k, u0, h.cl.u00]
  · rw [k, d1, u0, h.cl.u01]
  · rw [k, hnu, u1, h.cl.u10]
  · rw [k, u1, h.cl.u11]
  · rw [z0, f0, v0, h.cl.v01]
  · rw [f0, v0, h.cl.v01]
  · rw [f1, v1, h.cl.v10]
  · rw [← z1, f1, v1, h.cl.v10]

theorem map_add_add (ms : List ℕ) (a b : ℕ) : (ms.map (· + a)).map (· + b) = ms.map (· + (a + b)) := by
  rw [List.map_map]
  apply List.map_congr_left
  intro x _
  simp only [Function.comp]
  omega

/-- Elevation along U to a degree. -/
theorem Surface.ClampedBy.raiseU {eps : K} (heps : 0 < eps) {s : Surface K V} {ku kv : List K} {mu mv : List ℕ} (h : s.ClampedBy eps ku mu kv mv)
    {q : ℕ} (hq : q ≤ 12) :
    ∃ s', s.raiseDegreeU eps q = .ok s' ∧ s'.ClampedBy eps ku (mu.map (· + (q - s.degU))) kv mv ∧ s'.degU = max s.degU q ∧ s'.degV = s.degV ∧
      s'.knotsV = s.knotsV ∧ Spec.SameSurf eps s s' := by
  unfold Surface.raiseDegreeU
  rcases Nat.lt_or_ge q s.degU with hlt | hge
  · rw [show forLt s.degU q (fun _ s => s.increaseDegreeU eps) s = .ok s by
      unfold forLt; rw [show q - s.degU = 0 by omega]; rfl]
    exact ⟨s, rfl, by rw [show q - s.degU = 0 by omega]; simpa using h, by omega, rfl, rfl, h.cl.same heps⟩
  · obtain ⟨s', e, h1, h2, h3, h4, h5⟩ := forLt_inv (a := s.degU) (b := q) (s := s) (body := fun _ s => s.increaseDegreeU eps)
      (fun k s' => s'.ClampedBy eps ku (mu.map (· + (k - s.degU))) kv mv ∧ s'.degU = k ∧ s'.degV = s.degV ∧ s'.knotsV = s.knotsV ∧
        Spec.SameSurf eps s s') hge
      ⟨by rw [Nat.sub_self]; simpa using h, rfl, rfl, rfl, h.cl.same heps⟩
      (by
        rintro k t hk1 hk2 ⟨a1, a2, a3, a4, a5⟩
        obtain ⟨t', e, b1, b2, b3, b4, b5⟩ := a1.stepU heps (by omega)
        refine ⟨t', e, ?_, by omega, b3.trans a3, b4.trans a4, a5.trans b5⟩
        rw [map_add_add] at b1
        rw [show k + 1 - s.degU = k - s.degU + 1 by omega]
        exact b1)
    exact ⟨s', e, h1, by omega, h3, h4, h5⟩

/-- The constructor copies a clamped surface. -/
theorem Surface.Cl.copied {eps : K} (heps : 0 < eps) {s : Surface K V} (h : s.Cl) (hmem : s.knotsU.length * s.knotsV.length < 2 ^ 64) :
    Surface.mk? eps s.poles s.knotsU s.knotsV s.degU s.degV = .ok s := by
  obtain ⟨t, e, ht, -, -⟩ := surf_clamped heps h.wf.u h.wf.v h.wf.len h.du h.dv (by rw [← h.wf.u.len, ← h.wf.v.len]; exact hmem)
    (by rw [h.u00, h.u01]) (by rw [h.u10, h.u11]) (by rw [h.v00, h.v01]) (by rw [h.v10, h.v11])
  rw [e, ht, h.u01, h.u10, h.v01, h.v10]

theorem checkSameKnots_ok {eps : K} (heps : 0 ≤ eps) (k : List K) : checkSameKnots eps k k = .ok () := by
  unfold checkSameKnots
  rw [if_neg (by simp)]
  obtain ⟨x, e, -⟩ := forLt_inv (a := 0) (b := k.length) (s := ())
    (body := fun i _ => do
      let a ← rd k i
      let b ← rd k i
      if eps < |a - b| then .error (.thrown .runtime) else pure ()) (fun _ _ => True) (by omega) trivial (by
      intro i _ _ hi _
      refine ⟨(), ?_, trivial⟩
      rw [rd_kf hi, R_bind_ok, R_bind_ok, sub_self, abs_zero, if_neg (by simpa using heps)]
      rfl)
  rw [e]

/-- The rows of the joined surface. -/
theorem joinRows_spec {P1 P2 : List V} {n1 n2 m : ℕ} (h1 : P1.length = n1 * m) (h2 : P2.length = n2 * m) (hn1 : 0 < n1) (hn2 : 0 < n2) :
    ∃ S, joinRows P1 P2 n1 n2 m = .ok S ∧ S.length = (n1 + n2 - 1) * m ∧
      (∀ i j, i < n1 → j < m → pf S (i + (n1 + n2 - 1) * j) = pf P1 (i + n1 * j)) ∧
      (∀ i j, 0 < i → i < n2 → j < m → pf S (i + (n1 - 1) + (n1 + n2 - 1) * j) = pf P2 (i + n2 * j)) := by
  set n := n1 + n2 - 1 with hn
  have t1 : ∀ j, j < m → ((P1.drop (j * n1)).take n1).length = n1 := by
    intro j hj
    have := idx_lt' (n := n1) hj
    rw [List.length_take, List.length_drop]; omega
  have t2 : ∀ j, j < m → ((P2.drop (j * n2 + 1)).take (n2 - 1)).length = n2 - 1 := by
    intro j hj
    have := idx_lt' (n := n2) hj
    rw [List.length_take, List.length_drop]; omega
  have pt : ∀ (L : List V) (k i : ℕ), i < k → pf (L.take k) i = pf L i := by
    intro L k i hi
    unfold pf
    rw [List.getD_eq_getElem?_getD, List.getD_eq_getElem?_getD, List.getElem?_take_of_lt hi]
  obtain ⟨S, e, g1, g2, g3⟩ := forLt_inv (a := 0) (b := m) (s := ([] : List V))
    (body := fun i P =>
      if P1.length < i * n1 + n1 then .error .oob
      else if P2.length < i * n2 + n2 ∨ n2 = 0 then .error .oob
      else pure (P ++ (P1.drop (i * n1)).take n1 ++ (P2.drop (i * n2 + 1)).take (n2 - 1)))
    (fun k S => S.length = n * k ∧ (∀ i j, i < n1 → j < k → pf S (i + n * j) = pf P1 (i + n1 * j)) ∧
      (∀ i j, 0 < i → i < n2 → j < k → pf S (i + (n1 - 1) + n * j) = pf P2 (i + n2 * j))) (by omega)
    ⟨by simp, by intro i j _ h; omega, by intro i j _ _ h; omega⟩
    (by
      rintro j S _ hj ⟨g1, g2, g3⟩
      have b1 := idx_lt' (n := n1) hj
      have b2 := idx_lt' (n := n2) hj
      refine ⟨S ++ (P1.drop (j * n1)).take n1 ++ (P2.drop (j * n2 + 1)).take (n2 - 1), ?_, ?_, ?_, ?_⟩
      · rw [if_neg (by omega), if_neg (by omega)]; rfl
      · rw [List.length_append, List.length_append, g1, t1 j hj, t2 j hj, hn, Nat.mul_succ]
        omega
      · intro i j' hi hj'
        rcases Nat.lt_or_ge j' j with h3 | h3
        · have := idx_lt (n := n) (i := i) (by omega) h3
          rw [List.append_assoc, pf_append_left (by omega), g2 i j' hi h3]
        · obtain rfl : j' = j := by omega
          rw [List.append_assoc, pf_append_right (by omega), pf_append_left (by rw [t1 j' hj]; omega), pt _ _ _ (by omega), pf_drop, g1]
          congr 1
          rw [Nat.mul_comm j' n1]; omega
      · intro i j' hi0 hi hj'
        rcases Nat.lt_or_ge j' j with h3 | h3
        · have := idx_lt (n := n) (i := i + (n1 - 1)) (by omega) h3
          rw [List.append_assoc, pf_append_left (by omega), g3 i j' hi0 hi h3]
        · obtain rfl : j' = j := by omega
          rw [pf_append_right (by rw [List.length_append, t1 j' hj]; omega), pt _ _ _ (by rw [List.length_append, t1 j' hj]; omega), pf_drop,
            List.length_append, t1 j' hj, g1]
          congr 1
          rw [Nat.mul_comm j' n2]; omega)
  exact ⟨S, e, g1, g2, g3⟩

/-- The column `i` of the poles, as the description of a curve in `v`. -/
def Surface.colCurve (s : Surface K V) (i : ℕ) : CurveInfo K V := ⟨(List.range s.nPV).map (fun j => s.P i j), s.knotsV, s.degV⟩

theorem Surface.Cl.colGood {s : Surface K V} (h : s.Cl) (i : ℕ) : (s.colCurve i).toCurve.Good := by
  have hl : (s.colCurve i).poles.length = s.nPV := by simp [Surface.colCurve]
  refine ⟨h.wf.v.wf hl, ?_, ?_⟩
  · show kf s.knotsV 0 = kf s.knotsV s.degV
    rw [h.v00, h.v01]
  · show kLast s.knotsV = kf s.knotsV (s.colCurve i).poles.length
    rw [hl, h.v11, h.v10]

/-- On the borders along V the surface is the curve of the first, or the last, poles. -/
theorem Surface.Cl.border {eps : K} (heps : 0 < eps) {s : Surface K V} (h : s.Cl) {v : K} (hv0 : s.v0 ≤ v) (hv1 : v ≤ s.v1) (junk junk' : K) (dv : ℕ) :
    s.value eps junk s.u0 v 0 dv = (s.colCurve 0).toCurve.value eps junk' v dv ∧
    s.value eps junk s.u1 v 0 dv = (s.colCurve (s.nPU - 1)).toCurve.value eps junk' v dv := by
  have hlt := h.goodU.lt
  have hlt' : s.u0 < s.u1 := hlt
  have hn := h.wf.posU
  have main : ∀ u i, s.u0 ≤ u → u ≤ s.u1 → i < s.nPU → s.curveU.value eps 0 u 0 = .ok (pf s.colsU i) →
      s.value eps junk u v 0 dv = (s.colCurve i).toCurve.value eps junk' v dv := by
    intro u i hu0 hu1 hi hpt
    obtain ⟨a, b, ea, eb, -, -, -, -, -, -, e⟩ := Surface.value_spec heps h.wf (h.big eps) (h.in hu0 hu1 hv0 hv1)
    have hl : (s.colCurve i).poles.length = s.nPV := by simp [Surface.colCurve]
    obtain ⟨b', eb', -, -, -, e'⟩ := Curve.value_span heps (h.colGood i) (Or.inl h.dv) (u := v) (by show kf s.knotsV 0 ≤ v; rw [h.v00]; exact hv0)
      (by show v ≤ kLast s.knotsV; rw [h.v11]; exact hv1)
    obtain ⟨a', ea', -, -, -, e''⟩ := Curve.value_span heps h.goodU (Or.inl h.du) (u := u) hu0 hu1
    have ha : a' = a := by
      have := ea'
      rw [show s.curveU.poles.length = s.nPU from cols_length _ _ _] at this
      rw [show s.curveU.deg = s.degU from rfl, show s.curveU.knots = s.knotsU from rfl, ea] at this
      exact (Except.ok.inj this).symm
    have hb : b' = b := by
      have := eb'
      rw [show (s.colCurve i).toCurve.poles.length = s.nPV from hl, show (s.colCurve i).toCurve.deg = s.degV from rfl,
        show (s.colCurve i).toCurve.knots = s.knotsV from rfl, eb] at this
      exact (Except.ok.inj this).symm
    subst ha hb
    rw [e junk 0 dv, e' junk' dv, Surface.der_colsU]
    rw [e'' 0 0] at hpt
    have hpt' := Except.ok.inj hpt
    rw [show s.curveU.poles.length = s.nPU from cols_length _ _ _] at hpt'
    rw [show spanDer (kf s.knotsU) s.nPU s.degU a' (pf s.colsU) 0 u = pf s.colsU i from hpt',
      show (s.colCurve i).toCurve.poles.length = s.nPV from hl]
    congr 1
    apply spanDer_congr
    intro j hj
    show pf s.colsU i j = pf ((List.range s.nPV).map (fun j => s.P i j)) j
    rw [pf_map_range _ hj]
    unfold Surface.colsU
    rw [pf_cols hi hj]
  obtain ⟨c0, c1⟩ := Curve.clamped_ends heps h.goodU h.clU h.du 0
  refine ⟨main s.u0 0 le_rfl hlt'.le hn c0, main s.u1 _ hlt'.le le_rfl (by omega) ?_⟩
  rw [show s.curveU.poles.length = s.nPU from cols_length _ _ _] at c1
  exact c1

end Gbs
