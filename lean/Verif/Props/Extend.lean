import Verif.Lemmas.Extend
import Verif.Props.Reparam
import Verif.Lemmas.Transform

/-! # C82: the extension of a curve -/

namespace Gbs

set_option linter.unusedSectionVars false

variable {K : Type} [Field K] [LinearOrder K] [IsStrictOrderedRing K]
variable {V : Type} [AddCommGroup V] [Module K V]

theorem Curve.mk?_fields {eps : K} {P : List V} {U : List K} {p : ℕ} {c : Curve K V} (h : Curve.mk? eps P U p = .ok c) :
    c.deg = p ∧ c.poles = P ∧ c.knots = U := by
  unfold Curve.mk? at h
  split at h
  · obtain ⟨b, -, h⟩ := R_bind_eq_ok.mp h
    split at h
    · rw [← Except.ok.inj h]; exact ⟨rfl, rfl, rfl⟩
    · cases h
  · cases h

/-- An extension meets its conditions, for any evaluation of the curve it continues. -/
theorem extentionWith_spec {eps : K} (heps : 0 < eps) (junk : K) {p : ℕ} (hp : 1 ≤ p) (hps : p ≤ stackMaxDegree) {ev : ℕ → R V} {x : ℕ → V} {u unew : K}
    (natural : Bool) (mc : Option ℕ) (hx : ∀ i, i ≤ min (p - 1) (mc.getD p) → ev i = .ok (x i)) (hgap : eps * p < unew - u) (pt : V)
    {dense : ℕ → (ℕ → ℕ → K) → List V → R (List V)} (hS : Spec.SolvesDense dense) :
    ∃ e, extentionWith eps junk dense ev p pt u unew natural mc = .ok e ∧ (∃ ks ms, e.ClampedBy eps ks ms) ∧ e.deg ≤ p ∧ e.b0 = u ∧ e.b1 = unew ∧
      (∀ junk', (∀ i, i ≤ min (p - 1) (mc.getD p) → e.value eps junk' u i = .ok (x i)) ∧ e.value eps junk' unew 0 = .ok pt ∧
        (2 < p → natural = true → e.value eps junk' unew 2 = .ok 0)) ∧
      (¬(2 < p ∧ natural = true) → e.deg = min (p - 1) (mc.getD p) + 1 ∧
        e.knots = List.replicate (min (p - 1) (mc.getD p) + 2) u ++ List.replicate (min (p - 1) (mc.getD p) + 2) unew) ∧
      ∀ e' : Curve K V, e'.Good → e'.deg = e.deg → e'.knots = e.knots → (∀ i, i ≤ min (p - 1) (mc.getD p) → e'.value eps junk u i = .ok (x i)) →
        e'.value eps junk unew 0 = .ok pt → (2 < p → natural = true → e'.value eps junk unew 2 = .ok 0) → e' = e := by
  have hpK : (1 : K) ≤ p := by exact_mod_cast hp
  have hlt : u < unew := by nlinarith
  set m := min (p - 1) (mc.getD p) with hm
  set cs := ((List.range m).map fun i => (⟨u, i + 1, x (i + 1)⟩ : Constr K V)) ++ (if 2 < p ∧ natural = true then [⟨unew, 2, 0⟩] else []) with hcs
  have ecs := extConstraints_ok (u := u) (unew := unew) hp natural mc hx
  rw [← hm, ← hcs] at ecs
  obtain ⟨s, hs, hs1, hmap, hl⟩ : ∃ s, (s = 0 ∨ s = 1 ∧ 2 < p) ∧ (s = 1 → natural = true ∧ 2 < p) ∧
      cs.map Constr.u = List.replicate m u ++ List.replicate s unew ∧ cs.length = m + s := by
    by_cases h : 2 < p ∧ natural = true
    · refine ⟨1, Or.inr ⟨rfl, h.1⟩, fun _ => ⟨h.2, h.1⟩, ?_, ?_⟩
      · rw [hcs, if_pos h, List.map_append, List.map_map]
        congr 1
        apply List.ext_getElem (by simp)
        intro i h1 h2
        simp
      · rw [hcs, if_pos h]; simp
    · refine ⟨0, Or.inl rfl, fun h => absurd h (by omega), ?_, ?_⟩
      · rw [hcs, if_neg h, List.append_nil, List.map_map]
        simp only [List.replicate_zero, List.append_nil]
        apply List.ext_getElem (by simp)
        intro i h1 h2
        simp
      · rw [hcs, if_neg h]; simp
  set q := min p (cs.length + 1) with hq
  have hq' : q = min p (m + s + 1) := by rw [hq, hl]
  have hLr := ext_params hlt m s (L := cs.map Constr.u) (by rw [hmap])
  obtain ⟨k, ek, hU, hk0, hk1, ⟨ks, ms, hkb⟩, hbez⟩ := ext_knots heps (u := u) (unew := unew) (m := m) (s := s) (q := q) hp (by omega) hs hq' hgap
  have hcsA : ∀ i, i < m → (⟨u, i + 1, x (i + 1)⟩ : Constr K V) ∈ cs := by
    intro i hi
    rw [hcs]
    exact List.mem_append_left _ (List.mem_map.mpr ⟨i, List.mem_range.mpr hi, rfl⟩)
  have hcsB : 2 < p → natural = true → (⟨unew, 2, 0⟩ : Constr K V) ∈ cs := by
    intro h1 h2
    rw [hcs, if_pos ⟨h1, h2⟩]
    exact List.mem_append_right _ (by simp)
  have hin : ∀ y ∈ cs, u ≤ y.u ∧ y.u ≤ unew := by
    intro y hy
    have : y.u ∈ cs.map Constr.u := List.mem_map_of_mem hy
    rw [hmap, List.mem_append] at this
    rcases this with h | h
    · rw [List.eq_of_mem_replicate h]; exact ⟨le_rfl, hlt.le⟩
    · rw [List.eq_of_mem_replicate h]; exact ⟨hlt.le, le_rfl⟩
  obtain ⟨e, ee, hg, dg, hpl, e0, e1, hv⟩ := C36_bounds_unisolvent heps junk (p := q) (by omega) (by omega) (b := (u, x 0)) (e := (unew, pt)) (cs := cs)
    (by omega) hin hlt
    (by rw [hmap, List.count_append, List.count_replicate_self, List.count_replicate]; simp [hlt.ne']; omega)
    (by rw [hmap, List.count_append, List.count_replicate_self, List.count_replicate]; simp [hlt.ne]; omega)
    (by
      intro k' ek' _ _ _
      simp only at ek'
      rw [hLr, ek] at ek'
      obtain rfl := Except.ok.inj ek'
      rw [show cs.length + 2 = m + s + 2 by omega]
      apply ext_unisolvent heps hlt (by omega) hU hk0 hk1 (by omega) (by omega)
      · intro d hd
        rcases Nat.eq_zero_or_pos d with rfl | h
        · exact ⟨x 0, by simp⟩
        · obtain ⟨d, rfl⟩ : ∃ j, d = j + 1 := ⟨d - 1, by omega⟩
          exact ⟨x (d + 1), List.mem_cons_of_mem _ (List.mem_append_left _ (hcsA d (by omega)))⟩
      · exact ⟨pt, by simp⟩
      · intro h
        obtain ⟨h1, h2⟩ := hs1 h
        exact ⟨0, List.mem_cons_of_mem _ (List.mem_append_left _ (hcsB h2 h1))⟩) hS
  have hkn : e.knots = k := by
    have h := ee
    unfold interpolateBounds at h
    simp only at h
    rw [if_neg (by omega), hLr, ek, R_bind_ok] at h
    obtain ⟨N, -, h⟩ := R_bind_eq_ok.mp h
    obtain ⟨P, -, h⟩ := R_bind_eq_ok.mp h
    exact (Curve.mk?_fields h).2.2
  refine ⟨e, ?_, ⟨ks, ms, ⟨by rw [dg, hkn]; exact hkb, hg⟩⟩, by omega, e0, e1, ?_, ?_, ?_⟩
  · unfold extentionWith
    rw [hx 0 (by omega), R_bind_ok, ecs, R_bind_ok, ← hq, ee]
  · intro junk'
    obtain ⟨v0, v1, v2⟩ := hv junk'
    refine ⟨?_, v1, fun h1 h2 => v2 _ (hcsB h1 h2)⟩
    intro i hi
    rcases Nat.eq_zero_or_pos i with rfl | h
    · exact v0
    · obtain ⟨i, rfl⟩ : ∃ j, i = j + 1 := ⟨i - 1, by omega⟩
      exact v2 _ (hcsA i (by omega))
  · intro hnn
    obtain rfl : s = 0 := by
      rcases hs with h | h
      · exact h
      · exact absurd ⟨h.2, (hs1 h.1).1⟩ hnn
    have hqm : q = m + 1 := by omega
    refine ⟨by rw [dg, hqm], ?_⟩
    rw [hkn, hbez rfl, hqm]
  · intro e' hg' hd' hk' f0 f1 f2
    have hlen : e'.poles.length = m + s + 2 := by
      have a1 := hg'.wf.len
      have a2 := hg.wf.len
      rw [hk', hd'] at a1
      omega
    have b0' : e'.b0 = u := by rw [hg'.lo, hk', hd', hkn, dg, hk0 q le_rfl]
    have b1' : e'.b1 = unew := by rw [hg'.hi, hk', hlen, hkn, hk1 _ le_rfl]
    have sp := fun d => ext_spans heps hlt (by omega) hU hk0 hk1 (P := e.poles) (by rw [hpl, hl]) junk d
    have sp' := fun d => ext_spans heps hlt (by omega) hU hk0 hk1 (P := e'.poles) hlen junk d
    have g0 : ∀ d, e.value eps junk u d = .ok (spanDer (kf k) (m + s + 2) q q (pf e.poles) d u) := fun d => by
      rw [Curve.value_inBounds heps e0.le (by rw [e1]; exact hlt.le), hkn, dg]; exact (sp d).1
    have g1 : ∀ d, e.value eps junk unew d = .ok (spanDer (kf k) (m + s + 2) q (m + s + 2 - 1) (pf e.poles) d unew) := fun d => by
      rw [Curve.value_inBounds heps (by rw [e0]; exact hlt.le) e1.ge, hkn, dg]; exact (sp d).2
    have g0' : ∀ d, e'.value eps junk u d = .ok (spanDer (kf k) (m + s + 2) q q (pf e'.poles) d u) := fun d => by
      rw [Curve.value_inBounds heps b0'.le (by rw [b1']; exact hlt.le), hk', hd', hkn, dg]; exact (sp' d).1
    have g1' : ∀ d, e'.value eps junk unew d = .ok (spanDer (kf k) (m + s + 2) q (m + s + 2 - 1) (pf e'.poles) d unew) := fun d => by
      rw [Curve.value_inBounds heps (by rw [b0']; exact hlt.le) b1'.ge, hk', hd', hkn, dg]; exact (sp' d).2
    obtain ⟨v0, v1, v2⟩ := hv junk
    have key : ∀ (i d : ℕ) (v : K), spanDer (kf k) (m + s + 2) q i (pf e'.poles) d v = spanDer (kf k) (m + s + 2) q i (pf e.poles) d v →
        spanDer (kf k) (m + s + 2) q i (fun j => pf e'.poles j - pf e.poles j) d v = 0 := by
      intro i d v h
      have : (fun j => pf e'.poles j - pf e.poles j) = fun j => pf e'.poles j + (-1 : K) • pf e.poles j := by
        funext j; rw [neg_one_smul, sub_eq_add_neg]
      rw [this, spanDer_add, spanDer_smul, h, neg_one_smul, add_neg_cancel]
    have hz := ext_poles_zero hU hk0 hk1 (by omega) (by omega) (P := fun j => pf e'.poles j - pf e.poles j)
      (fun d hd => by
        apply key
        have h1 := f0 d hd
        have h2 : e.value eps junk u d = .ok (x d) := by
          rcases Nat.eq_zero_or_pos d with rfl | h
          · exact v0
          · obtain ⟨d, rfl⟩ : ∃ j, d = j + 1 := ⟨d - 1, by omega⟩
            exact v2 _ (hcsA d (by omega))
        rw [g0'] at h1
        rw [g0] at h2
        exact (Except.ok.inj h1).trans (Except.ok.inj h2).symm)
      (by
        apply key
        rw [g1'] at f1
        have v1 : e.value eps junk unew 0 = .ok pt := v1
        rw [g1] at v1
        exact (Except.ok.inj f1).trans (Except.ok.inj v1).symm)
      (fun h => by
        apply key
        obtain ⟨n1, n2⟩ := hs1 h
        have f2 := f2 n2 n1
        have h2 : e.value eps junk unew 2 = .ok 0 := v2 _ (hcsB n2 n1)
        rw [g1'] at f2
        rw [g1] at h2
        exact (Except.ok.inj f2).trans (Except.ok.inj h2).symm)
    have hpoles : e'.poles = e.poles := pf_ext (by omega) fun i hi => sub_eq_zero.mp (hz i (by omega))
    cases e
    cases e'
    simp_all

/-- C82: for a solver of regular systems the extension of a curve to a point at a parameter ahead exists, starts at the given parameter of the curve
with the same derivatives up to the asked continuity, below the degree, and ends at the point; with a natural end its second derivative is null
there. -/
theorem C82_extention {eps : K} (heps : 0 < eps) (junk : K) {c : Curve K V} (hc : c.Good) (hp : 1 ≤ c.deg) (hps : c.deg ≤ stackMaxDegree) {u unew : K}
    (h0 : c.b0 ≤ u) (h1 : u ≤ c.b1) (natural : Bool) (mc : Option ℕ) (hgap : eps * c.deg < unew - u) (pt : V)
    {dense : ℕ → (ℕ → ℕ → K) → List V → R (List V)} (hS : Spec.SolvesDense dense) :
    ∃ e, c.extentionTo eps junk dense pt u unew natural mc = .ok e ∧ (∃ ks ms, e.ClampedBy eps ks ms) ∧ e.deg ≤ c.deg ∧ e.b0 = u ∧ e.b1 = unew ∧
      ∀ junk', (∀ i, i < c.deg → i ≤ mc.getD c.deg → ∃ y, c.value eps junk' u i = .ok y ∧ e.value eps junk' u i = .ok y) ∧
        e.value eps junk' unew 0 = .ok pt ∧ (2 < c.deg → natural = true → e.value eps junk' unew 2 = .ok 0) := by
  obtain ⟨s, -, -, -, -, hv⟩ := Curve.value_span heps hc (Or.inl hps) h0 h1
  obtain ⟨e, ee, h2, h3, h4, h5, h6, -⟩ := extentionWith_spec heps junk hp hps (ev := fun i => c.value eps junk u i) natural mc
    (fun i _ => hv junk i) hgap pt hS
  refine ⟨e, ee, h2, h3, h4, h5, ?_⟩
  intro junk'
  obtain ⟨h7, h8, h9⟩ := h6 junk'
  exact ⟨fun i hi hi' => ⟨_, hv junk' i, h7 i (by omega)⟩, h8, h9⟩

/-- C82 at the end of a polynomial curve: the extended curve is the curve up to its end, with all its derivatives, and goes on with an extension that
meets the derivatives of the curve up to the asked continuity, below the degree, and ends at the point. -/
theorem C82_extended_at_end {eps : K} (heps : 0 < eps) (junk : K) {c : Curve K V} {ks : List K} {ms : List ℕ} (hc : c.ClampedBy eps ks ms)
    (hd : c.deg ≤ 12) (natural : Bool) (mc : Option ℕ) (pt : V) {nrm : V → K} {dense : ℕ → (ℕ → ℕ → K) → List V → R (List V)} (hS : Spec.SolvesDense dense)
    {t e : V} (ht : c.value eps junk c.b1 1 = .ok t) (he : c.value eps junk c.b1 0 = .ok e) (hn : nrm t ≠ 0)
    (hgap : eps * c.deg < nrm (e - pt) * (nrm (e - pt) / nrm t)) :
    ∃ r, ∃ x : Curve K V, c.extendedAtEnd eps junk dense nrm pt natural mc = .ok r ∧ r.deg = c.deg ∧ r.Good ∧ r.Clamped ∧ r.b0 = c.b0 ∧
      r.b1 = c.b1 + nrm (e - pt) * (nrm (e - pt) / nrm t) ∧ x.Good ∧ x.Clamped ∧ x.deg ≤ c.deg ∧ x.b0 = c.b1 ∧ x.b1 = r.b1 ∧
      (∀ u d, c.b0 ≤ u → u < c.b1 ∨ u = c.b1 ∧ d = 0 → ∀ junk junk', ∃ y, c.value eps junk u d = .ok y ∧ r.value eps junk' u d = .ok y) ∧
      (∀ u d, c.b1 ≤ u → u ≤ r.b1 → ∀ junk junk', ∃ y, x.value eps junk u d = .ok y ∧ r.value eps junk' u d = .ok y) ∧
      ∀ junk', (∀ i, i < c.deg → i ≤ mc.getD c.deg → ∃ y, c.value eps junk' c.b1 i = .ok y ∧ x.value eps junk' c.b1 i = .ok y) ∧
        r.value eps junk' r.b1 0 = .ok pt ∧ (2 < c.deg → natural = true → r.value eps junk' r.b1 2 = .ok 0) := by
  have h12 : (12 : ℕ) ≤ stackMaxDegree := by decide
  have hlt := hc.good.lt
  set l := nrm (e - pt) * (nrm (e - pt) / nrm t) with hl
  have hpK : (1 : K) ≤ c.deg := by exact_mod_cast hc.deg
  have hl0 : 0 < l := by nlinarith
  obtain ⟨x, ex, ⟨ks2, ms2, hx⟩, dx, x0, x1, hv⟩ := C82_extention heps junk hc.good hc.deg (by omega) hlt.le le_rfl natural mc (unew := c.b1 + l)
    (by linarith) pt hS
  have hxy : x.value eps junk x.b0 0 = .ok e := by
    obtain ⟨y, y1, y2⟩ := (hv junk).1 0 hc.deg (Nat.zero_le _)
    rw [he] at y1
    rw [x0, y2, Except.ok.inj y1]
  obtain ⟨r, er, dr, gr, cr, r0, r1, hA, hB⟩ := C81_join_preserves heps hc hx hd (by omega) he hxy
  have r1' : r.b1 = c.b1 + l := by rw [r1, x1, x0]; ring
  have hB' : ∀ u d, c.b1 ≤ u → u ≤ r.b1 → ∀ junk junk', ∃ y, x.value eps junk u d = .ok y ∧ r.value eps junk' u d = .ok y := by
    intro u d h1 h2 j j'
    obtain ⟨y, y1, y2⟩ := hB u d (by rw [x0]; exact h1) (by rw [x1, ← r1']; exact h2) j j'
    rw [x0, add_sub_cancel] at y2
    exact ⟨y, y1, y2⟩
  refine ⟨r, x, ?_, by rw [dr]; omega, gr, cr, r0, r1', hx.good, hx.clamped heps.le, dx, x0, by rw [x1, r1'], hA, hB', ?_⟩
  · unfold Curve.extendedAtEnd extParam
    simp only
    rw [ht, R_bind_ok, he, R_bind_ok, fdiv_ok hn]
    simp only [R_bind_ok]
    exact (congrArg (fun z => z >>= fun ext => joinCurves eps c ext) ex).trans er
  · intro junk'
    obtain ⟨v0, v1, v2⟩ := hv junk'
    refine ⟨v0, ?_, ?_⟩
    · obtain ⟨y, y1, y2⟩ := hB' r.b1 0 (by rw [r1']; linarith) le_rfl junk' junk'
      rw [y2, ← v1, ← y1, r1']
    · intro h1 h2
      obtain ⟨y, y1, y2⟩ := hB' r.b1 2 (by rw [r1']; linarith) le_rfl junk' junk'
      rw [y2, ← v2 h1 h2, ← y1, r1']

/-- C82 at the end of a rational curve whose last weight is not null. The homogeneous curve is scaled, and so is its extension with unit weights. -/
theorem C82_extended_at_end_rational_scaled {eps : K} (heps : 0 < eps) (junk : K) {c : Curve K (V × K)} {ks : List K} {ms : List ℕ} (hc : c.ClampedBy eps ks ms)
    (hd : c.deg ≤ 12) (hw : (pf c.poles (c.poles.length - 1)).2 ≠ 0) (natural : Bool) (mc : Option ℕ) (pt : V) {nrm : V → K}
    {dense : ℕ → (ℕ → ℕ → K) → List V → R (List V)} (hS : Spec.SolvesDense dense)
    {t e : V} (ht : c.ratValue eps junk c.b1 1 = .ok t) (he : c.ratValue eps junk c.b1 0 = .ok e) (hn : nrm t ≠ 0)
    (hgap : eps * c.deg < nrm (e - pt) * (nrm (e - pt) / nrm t)) :
    ∃ r, ∃ x : Curve K V, (c.extendedAtEndRat eps junk dense nrm pt natural mc = .ok r ∧ r.deg = c.deg ∧ r.Good ∧ r.Clamped ∧ r.b0 = c.b0 ∧
      r.b1 = c.b1 + nrm (e - pt) * (nrm (e - pt) / nrm t) ∧ x.Good ∧ x.Clamped ∧ x.deg ≤ c.deg ∧ x.b0 = c.b1 ∧ x.b1 = r.b1 ∧
      (∀ u d, c.b0 ≤ u → u < c.b1 → ∀ junk junk', r.ratValue eps junk' u d = c.ratValue eps junk u d) ∧
      (∀ u d, c.b1 ≤ u → u ≤ r.b1 → d ≤ 60 → ∀ junk junk', ∃ y, x.value eps junk u d = .ok y ∧ r.ratValue eps junk' u d = .ok y) ∧
      ∀ junk', (∀ i, i < c.deg → i ≤ mc.getD c.deg → ∃ y, c.ratValue eps junk c.b1 i = .ok y ∧ x.value eps junk' c.b1 i = .ok y) ∧
        r.ratValue eps junk' r.b1 0 = .ok pt ∧ (2 < c.deg → natural = true → r.ratValue eps junk' r.b1 2 = .ok 0)) ∧
      ∃ (x' : Curve K (V × K)) (s1 s2 : K), x.toRational eps = .ok x' ∧ s1 ≠ 0 ∧ s2 ≠ 0 ∧
        (∀ u d, c.b0 ≤ u → u < c.b1 → ∀ junk junk', ∃ y, c.value eps junk u d = .ok y ∧ r.value eps junk' u d = .ok (s1 • y)) ∧
        (∀ u d, c.b1 ≤ u → u ≤ r.b1 → ∀ junk junk', ∃ y, x'.value eps junk u d = .ok y ∧ r.value eps junk' u d = .ok (s2 • y)) := by
  have h12 : (12 : ℕ) ≤ stackMaxDegree := by decide
  have hlt := hc.good.lt
  set l := nrm (e - pt) * (nrm (e - pt) / nrm t) with hl
  have hpK : (1 : K) ≤ c.deg := by exact_mod_cast hc.deg
  have hl0 : 0 < l := by nlinarith
  obtain ⟨X, hX⟩ : ∃ X : ℕ → V, ∀ i, i ≤ 60 → c.ratValue eps junk c.b1 i = .ok (X i) := by
    obtain ⟨i, -, -, -, -, h0, h⟩ := Curve.rat_spec heps hc.good (Or.inl (by omega)) hlt.le le_rfl
    have := h0 junk 0
    rw [(Curve.clamped_ends heps hc.good (hc.clamped heps.le) (by omega) junk).2] at this
    obtain ⟨h1, -⟩ := h (by rw [← Except.ok.inj this]; exact hw)
    exact ⟨_, fun d hd => h1 junk d hd⟩
  have hX0 : X 0 = e := by
    have := hX 0 (by omega)
    rw [he] at this
    exact (Except.ok.inj this).symm
  obtain ⟨x, ex, ⟨ks2, ms2, hx⟩, dx, x0, x1, hv, -⟩ := extentionWith_spec heps junk hc.deg (by omega) (ev := fun i => c.ratValue eps junk c.b1 i) (x := X)
    (u := c.b1) natural mc (fun i hi => hX i (by omega)) (unew := c.b1 + l) (by linarith) pt hS
  obtain ⟨x', ex', dx', x0', x1', hx', w0, w1, hv'⟩ := Curve.toRational_spec heps hx (by omega)
  have hxlt := hx.good.lt
  have hxy : x'.ratValue eps junk x'.b0 0 = .ok e := by
    obtain ⟨y, y1, y2⟩ := hv' x.b0 le_rfl hxlt.le 0 (by omega) junk junk
    rw [x0, (hv junk).1 0 (by omega)] at y1
    rw [x0', y2, ← Except.ok.inj y1, hX0]
  obtain ⟨r, er, dr, gr, cr, r0, r1, -, hAB⟩ := C81_join_rational_scaled heps hc hx' hd (by omega) hw (by rw [w0]; exact one_ne_zero) he hxy
  obtain ⟨⟨hA, hB⟩, s1, s2, hs1, hs2, hA2, hB2⟩ := hAB rfl
  have r1' : r.b1 = c.b1 + l := by rw [r1, x1', x0', x1, x0]; ring
  have hB' : ∀ u d, c.b1 ≤ u → u ≤ r.b1 → d ≤ 60 → ∀ junk junk', ∃ y, x.value eps junk u d = .ok y ∧ r.ratValue eps junk' u d = .ok y := by
    intro u d h1 h2 hd j j'
    have h := hB u d (by rw [x0', x0]; exact h1) (by rw [x1', x1, ← r1']; exact h2) j j'
    obtain ⟨y, y1, y2⟩ := hv' u (by rw [x0]; exact h1) (by rw [x1, ← r1']; exact h2) d hd j j
    rw [x0', x0, add_sub_cancel] at h
    exact ⟨y, y1, by rw [h, y2]⟩
  refine ⟨r, x, ⟨?_, by rw [dr]; omega, gr, cr, r0, r1', hx.good, hx.clamped heps.le, dx, x0, by rw [x1, r1'], hA, hB', ?_⟩, x', s1, s2, ex', hs1, hs2, hA2, ?_⟩
  · unfold Curve.extendedAtEndRat extParam Curve.extentionToRat
    simp only
    rw [ht, R_bind_ok, he, R_bind_ok, fdiv_ok hn]
    simp only [R_bind_ok]
    show (extentionWith eps junk dense (fun i => c.ratValue eps junk c.b1 i) c.deg pt c.b1 (c.b1 + l) natural mc >>= fun e => e.toRational eps) >>=
      (fun ext => joinCurvesRat eps c ext) = _
    rw [ex, R_bind_ok, ex', R_bind_ok, er]
  · intro junk'
    obtain ⟨v0, v1, v2⟩ := hv junk'
    refine ⟨fun i hi hi' => ⟨X i, hX i (by omega), v0 i (by omega)⟩, ?_, ?_⟩
    · obtain ⟨y, y1, y2⟩ := hB' r.b1 0 (by rw [r1']; linarith) le_rfl (by omega) junk' junk'
      rw [y2, ← v1, ← y1, r1']
    · intro h1 h2
      obtain ⟨y, y1, y2⟩ := hB' r.b1 2 (by rw [r1']; linarith) le_rfl (by omega) junk' junk'
      rw [y2, ← v2 h1 h2, ← y1, r1']
  · intro u d h1 h2 j j'
    obtain ⟨y, y1, y2⟩ := hB2 u d (by rw [x0', x0]; exact h1) (by rw [x1', x1, ← r1']; exact h2) j j'
    rw [x0', x0, add_sub_cancel] at y2
    exact ⟨y, y1, y2⟩

/-- C82 at the end of a rational curve whose last weight is not null. -/
theorem C82_extended_at_end_rational {eps : K} (heps : 0 < eps) (junk : K) {c : Curve K (V × K)} {ks : List K} {ms : List ℕ} (hc : c.ClampedBy eps ks ms)
    (hd : c.deg ≤ 12) (hw : (pf c.poles (c.poles.length - 1)).2 ≠ 0) (natural : Bool) (mc : Option ℕ) (pt : V) {nrm : V → K}
    {dense : ℕ → (ℕ → ℕ → K) → List V → R (List V)} (hS : Spec.SolvesDense dense)
    {t e : V} (ht : c.ratValue eps junk c.b1 1 = .ok t) (he : c.ratValue eps junk c.b1 0 = .ok e) (hn : nrm t ≠ 0)
    (hgap : eps * c.deg < nrm (e - pt) * (nrm (e - pt) / nrm t)) :
    ∃ r, ∃ x : Curve K V, c.extendedAtEndRat eps junk dense nrm pt natural mc = .ok r ∧ r.deg = c.deg ∧ r.Good ∧ r.Clamped ∧ r.b0 = c.b0 ∧
      r.b1 = c.b1 + nrm (e - pt) * (nrm (e - pt) / nrm t) ∧ x.Good ∧ x.Clamped ∧ x.deg ≤ c.deg ∧ x.b0 = c.b1 ∧ x.b1 = r.b1 ∧
      (∀ u d, c.b0 ≤ u → u < c.b1 → ∀ junk junk', r.ratValue eps junk' u d = c.ratValue eps junk u d) ∧
      (∀ u d, c.b1 ≤ u → u ≤ r.b1 → d ≤ 60 → ∀ junk junk', ∃ y, x.value eps junk u d = .ok y ∧ r.ratValue eps junk' u d = .ok y) ∧
      ∀ junk', (∀ i, i < c.deg → i ≤ mc.getD c.deg → ∃ y, c.ratValue eps junk c.b1 i = .ok y ∧ x.value eps junk' c.b1 i = .ok y) ∧
        r.ratValue eps junk' r.b1 0 = .ok pt ∧ (2 < c.deg → natural = true → r.ratValue eps junk' r.b1 2 = .ok 0) := by
  obtain ⟨r, x, h, -⟩ := C82_extended_at_end_rational_scaled heps junk hc hd hw natural mc pt hS ht he hn hgap
  exact ⟨r, x, h⟩

/-- Curves that have the same values on the right of a parameter, but for some isolated points, have the same derivatives there. -/
theorem Curve.right_germ {eps : K} (heps : 0 < eps) {f g : Curve K V} (hf : f.Good) (hg : g.Good) (bf : f.BigOk eps) (bg : g.BigOk eps) {v b : K}
    (f0 : f.b0 ≤ v) (f1 : v < f.b1) (g0 : g.b0 ≤ v) (g1 : v < g.b1) (hb : v < b) (L : List K) {j j' : K}
    (h : ∀ w, v < w → w < f.b1 → w < g.b1 → w < b → w ∉ L → ∃ y, f.value eps j w 0 = .ok y ∧ g.value eps j' w 0 = .ok y) (d : ℕ) (junk junk' : K) :
    ∃ y, f.value eps junk v d = .ok y ∧ g.value eps junk' v d = .ok y := by
  obtain ⟨i, e1, hin, a1, a2, hv⟩ := Curve.value_span heps hf bf f0 f1.le
  obtain ⟨i', e1', hin', a1', a2', hv'⟩ := Curve.value_span heps hg bg g0 g1.le
  refine ⟨_, hv junk d, ?_⟩
  rw [hv' junk' d]
  congr 1
  have hs : ∀ {q : Curve K V} {i : ℕ} (_ : q.Good) (_ : v < q.b1), Spec.InSpan (kf q.knots) (kf q.knots q.poles.length) i v →
      v < kf q.knots (i + 1) ∧ ∀ w, v < w → w < kf q.knots (i + 1) → w < q.b1 → Spec.InSpan (kf q.knots) (kf q.knots q.poles.length) i w := by
    intro q i hq hv h
    unfold Spec.InSpan at h ⊢
    rw [← hq.hi, if_neg hv.ne] at h
    refine ⟨h.2, fun w h1 h2 h3 => ?_⟩
    rw [← hq.hi, if_neg h3.ne]
    exact ⟨h.1.trans h1.le, h2⟩
  obtain ⟨s1, s2⟩ := hs hf f1 hin
  obtain ⟨s1', s2'⟩ := hs hg g1 hin'
  set B := min (min (kf f.knots (i + 1)) (kf g.knots (i' + 1))) (min (min f.b1 g.b1) b) with hB
  have hvB : v < B := lt_min (lt_min s1 s1') (lt_min (lt_min f1 g1) hb)
  unfold spanDer
  symm
  apply sum_derivative_congr_inf ((Set.Ioo_infinite hvB).sdiff L.finite_toSet)
  rintro w ⟨⟨w1, w2⟩, w3⟩
  simp only [hB, lt_min_iff] at w2
  obtain ⟨⟨w4, w5⟩, ⟨w6, w7⟩, w8⟩ := w2
  obtain ⟨y, y1, y2⟩ := h w w1 w6 w7 w8 w3
  obtain ⟨k, -, kin, -, -, kv⟩ := Curve.value_span heps hf bf (f0.trans w1.le) w6.le
  obtain ⟨k', -, kin', -, -, kv'⟩ := Curve.value_span heps hg bg (g0.trans w1.le) w7.le
  obtain rfl := InSpan_unique (kf_mono hf.wf.sorted) kin (s2 w w1 w4 w6)
  obtain rfl := InSpan_unique (kf_mono hg.wf.sorted) kin' (s2' w w1 w5 w7)
  rw [kv j 0] at y1
  rw [kv' j' 0] at y2
  have := (Except.ok.inj y1).trans (Except.ok.inj y2).symm
  unfold spanDer at this
  simpa using this

/-- The mirrored curve of a curve with separated knots. -/
theorem Curve.ClampedBy.mirror {eps : K} (heps : 0 < eps) {c : Curve K V} {ks : List K} {ms : List ℕ} (h : c.ClampedBy eps ks ms)
    (hd : c.deg ≤ stackMaxDegree) {c' : Curve K V} (hr : c.reverse = .ok c') :
    c'.ClampedBy eps (ks.reverse.map fun k => c.b0 + c.b1 - k) ms.reverse := by
  obtain ⟨c2, e2, d2, p2, b02, b12, g2, -⟩ := C21_reverse heps h.good (h.clamped heps.le) (Or.inl hd)
  obtain rfl : c2 = c' := by rw [hr] at e2; exact (Except.ok.inj e2).symm
  have hkn : c2.knots = c.knots.reverse.map (fun k => c.b0 + c.b1 - k) := by
    rw [Curve.reverse_ok h.good (h.clamped heps.le)] at hr
    rw [← Except.ok.inj hr]
  obtain ⟨hd1, hfl, hgp, hf, hl, hm⟩ := h.toKnotsBy
  refine ⟨⟨by rw [d2]; exact hd1, ?_, ?_, ?_, ?_, ?_⟩, g2⟩
  · unfold flatKnots at hfl ⊢
    split at hfl
    · cases hfl
    · rename_i hne
      have hlen : ks.length = ms.length := by simpa using hne
      rw [if_neg (by simpa using hlen), hkn, ← Except.ok.inj hfl]
      congr 1
      have hz : ((ks.map fun k => c.b0 + c.b1 - k).reverse).zip ms.reverse = ((ks.map fun k => c.b0 + c.b1 - k).zip ms).reverse := by
        exact (List.reverse_zipWith (f := Prod.mk) (by simpa using hlen)).symm
      rw [List.map_reverse, hz, List.flatMap_reverse, List.map_reverse]
      congr 1
      rw [List.zip_map_left, List.flatMap_map, List.map_flatMap]
      apply List.flatMap_congr
      intro x _
      simp
  · rw [List.pairwise_map, List.pairwise_reverse]
    exact hgp.imp fun hab => by linarith
  · rw [List.head?_reverse, d2]; exact hl
  · rw [List.getLast?_reverse, d2]; exact hf
  · intro i x h1 h2 hx
    rw [List.length_reverse] at h2
    rw [List.getElem?_reverse (by omega)] at hx
    rw [d2]
    exact hm (ms.length - 1 - i) x (by omega) (by omega) hx

/-- A curve whose knots are shifted. -/
theorem Curve.shift_spec {eps : K} (heps : 0 < eps) {c : Curve K V} (h : c.Good) (hcl : c.Clamped) (hd : c.deg ≤ stackMaxDegree) (s : K) :
    ∃ c', Curve.mk? eps c.poles (c.knots.map fun k => k - s) c.deg = .ok c' ∧ c'.deg = c.deg ∧ c'.Good ∧ c'.Clamped ∧ c'.b0 = c.b0 - s ∧ c'.b1 = c.b1 - s ∧
      ∀ v d, c.b0 ≤ v → v ≤ c.b1 → ∀ junk junk', ∃ y, c.value eps junk v d = .ok y ∧ c'.value eps junk' (v - s) d = .ok y := by
  have hf : StrictMono (fun k : K => k - s) := fun a b hab => by simpa using hab
  have hw := h.wf.map hf
  have hlen := h.wf.len
  have hmin := h.wf.min
  have hk : ∀ j, kf (c.knots.map fun k => k - s) j = kf c.knots j - s := fun j => kf_map h.wf.ne _ j
  have hlast : kLast (c.knots.map fun k => k - s) = kLast c.knots - s := by
    unfold kLast; rw [List.length_map, hk]
  set c' : Curve K V := ⟨c.deg, c.poles, c.knots.map (fun k => k - s), kf (c.knots.map fun k => k - s) 0, kLast (c.knots.map fun k => k - s)⟩ with hc'
  have b0 : c'.b0 = c.b0 - s := by show kf (c.knots.map fun k => k - s) 0 = _; rw [hk, hcl.lo]
  have b1 : c'.b1 = c.b1 - s := by show kLast (c.knots.map fun k => k - s) = _; rw [hlast, hcl.hi]
  have hg : c'.Good := by
    refine ⟨hw, ?_, ?_⟩
    · rw [b0, h.lo]; exact (hk _).symm
    · rw [b1, h.hi]; exact (hk _).symm
  refine ⟨c', mk?_sorted eps _ hw.sorted _ hw.len hmin, rfl, hg, ⟨rfl, rfl⟩, b0, b1, ?_⟩
  intro v d h1 h2 junk junk'
  obtain ⟨i, e, hin, a1, a2, hv⟩ := Curve.value_span heps h (Or.inl hd) h1 h2
  obtain ⟨i', e', hin', a1', a2', hv'⟩ := Curve.value_span heps hg (Or.inl hd) (u := v - s) (by rw [b0]; linarith) (by rw [b1]; linarith)
  have := findSpan_map h.wf hf (v := v) (by rw [← h.lo]; exact h1) (by rw [← h.hi]; exact h2) e
  obtain rfl : i' = i := by
    have e' : findSpan c.poles.length c.deg (v - s) (c.knots.map fun k => k - s) = .ok i' := e'
    rw [this] at e'; exact (Except.ok.inj e').symm
  refine ⟨_, hv junk d, ?_⟩
  rw [hv' junk' d]
  congr 1
  have := spanDer_affine_knots (t := kf c.knots) (t' := kf (c.knots.map fun k => k - s)) (g := 1) (e := -s) one_ne_zero
    (fun j => by rw [hk]; ring) a1 a2 (pf c.poles) d v
  rw [inv_one, one_pow, one_smul, one_mul, ← sub_eq_add_neg] at this
  exact this

theorem neg_pow_smul_self (d : ℕ) (y : V) : (-1 : K) ^ d • (-1 : K) ^ d • y = y := by
  rw [smul_smul, ← mul_pow]; simp

/-- C82 at the start of a polynomial curve: the curve is kept with its parameters, bounds and derivatives, and is preceded by an extension that meets
its derivatives up to the asked continuity, below the degree, and starts at the point. -/
theorem C82_extended_at_start {eps : K} (heps : 0 < eps) (junk : K) {c : Curve K V} {ks : List K} {ms : List ℕ} (hc : c.ClampedBy eps ks ms)
    (hd : c.deg ≤ 12) (natural : Bool) (mc : Option ℕ) (pt : V) {nrm : V → K} (hnn : ∀ v, nrm (-v) = nrm v)
    {dense : ℕ → (ℕ → ℕ → K) → List V → R (List V)} (hS : Spec.SolvesDense dense)
    {t e : V} (ht : c.value eps junk c.b0 1 = .ok t) (he : c.value eps junk c.b0 0 = .ok e) (hn : nrm t ≠ 0)
    (hgap : eps * c.deg < nrm (e - pt) * (nrm (e - pt) / nrm t)) :
    ∃ r, ∃ x : Curve K V, c.extendedToPoint eps junk dense nrm pt false natural mc = .ok r ∧ r.deg = c.deg ∧ r.Good ∧ r.Clamped ∧ r.b1 = c.b1 ∧
      r.b0 = c.b0 - nrm (e - pt) * (nrm (e - pt) / nrm t) ∧ x.Good ∧ x.Clamped ∧ x.deg ≤ c.deg ∧ x.b0 = r.b0 ∧ x.b1 = c.b0 ∧
      (∀ u d, c.b0 ≤ u → u ≤ c.b1 → ∀ junk junk', ∃ y, c.value eps junk u d = .ok y ∧ r.value eps junk' u d = .ok y) ∧
      (∀ u d, r.b0 ≤ u → u < c.b0 → ∀ junk junk', ∃ y, x.value eps junk u d = .ok y ∧ r.value eps junk' u d = .ok y) ∧
      ∀ junk', (∀ i, i < c.deg → i ≤ mc.getD c.deg → ∃ y, c.value eps junk' c.b0 i = .ok y ∧ x.value eps junk' c.b0 i = .ok y) ∧
        r.value eps junk' r.b0 0 = .ok pt ∧ (2 < c.deg → natural = true → r.value eps junk' r.b0 2 = .ok 0) := by
  have h12 : (12 : ℕ) ≤ stackMaxDegree := by decide
  have hlt := hc.good.lt
  set l := nrm (e - pt) * (nrm (e - pt) / nrm t) with hl
  have hpK : (1 : K) ≤ c.deg := by exact_mod_cast hc.deg
  have hl0 : 0 < l := by nlinarith
  -- the reversed curve
  obtain ⟨q, eq, dq, -, q0, q1, gq, cq, vq, -⟩ := C21_reverse heps hc.good (hc.clamped heps.le) (Or.inl (by omega))
  have hq := hc.mirror heps (by omega) eq
  have hqe : q.value eps junk q.b1 0 = .ok e := by
    obtain ⟨y, y1, y2⟩ := vq c.b1 0 hlt.le le_rfl (Or.inr (Or.inl rfl)) junk junk
    rw [add_sub_cancel_right, he] at y1
    rw [q1, y2, ← Except.ok.inj y1, pow_zero, one_smul]
  have hqt : q.value eps junk q.b1 1 = .ok (-t) := by
    obtain ⟨y, y1, y2⟩ := vq c.b1 1 hlt.le le_rfl (Or.inr (Or.inl rfl)) junk junk
    rw [add_sub_cancel_right, ht] at y1
    rw [q1, y2, ← Except.ok.inj y1, pow_one, neg_one_smul]
  obtain ⟨s, z, es, ds, gs, cs, s0, s1, gz, cz, dz, z0, z1, hA, hB, hE⟩ := C82_extended_at_end heps junk hq (by omega) natural mc pt (nrm := nrm) hS hqt hqe
    (by rw [hnn]; exact hn) (by rw [hnn, dq]; exact hgap)
  rw [hnn, ← hl, q1] at s1
  rw [q0] at s0
  rw [q1] at z0 hB hA
  rw [q0] at hA
  rw [s1] at z1 hB
  have hsd : s.deg ≤ stackMaxDegree := by omega
  -- reversed again
  obtain ⟨w, ew, dw, -, w0, w1, gw, cw, vw, -⟩ := C21_reverse heps gs cs (Or.inl hsd)
  obtain ⟨r, er, dr, gr, cr, r0, r1, vr⟩ := Curve.shift_spec heps gw cw (by omega) l
  rw [w0, s0] at r0
  rw [w1, s1] at r1
  -- the extension alone
  obtain ⟨x', ex', dx', -, x0', x1', gx', cx', vx', -⟩ := C21_reverse heps gz cz (Or.inl (by omega))
  obtain ⟨x, ex, dx, gx, cx, x0, x1, vx⟩ := Curve.shift_spec heps gx' cx' (by omega) (c.b1 - c.b0 + l)
  have r1' : r.b1 = c.b1 := by rw [r1]; ring
  have x0 : x.b0 = c.b0 - l := by rw [x0, x0', z0]; ring
  have x1 : x.b1 = c.b0 := by rw [x1, x1', z1]; ring
  have vr' : ∀ v d, c.b0 - l ≤ v → v ≤ c.b1 → v = c.b0 - l ∨ v = c.b1 ∨ s.knots.count (c.b0 + c.b1 - v) = 0 → ∀ junk junk',
      ∃ y, s.value eps junk (c.b0 + c.b1 - v) d = .ok y ∧ r.value eps junk' v d = .ok ((-1 : K) ^ d • y) := by
    intro v d h1 h2 h3 j j'
    have e1 : s.b0 + s.b1 - (v + l) = c.b0 + c.b1 - v := by rw [s0, s1]; ring
    obtain ⟨y, y1, y2⟩ := vw (v + l) d (by rw [s0]; linarith) (by rw [s1]; linarith) (by
      rw [e1, s0, s1]
      rcases h3 with h | h | h
      · left; rw [h]; ring
      · right; left; rw [h]
      · right; right; left; exact h) j j'
    obtain ⟨y', y1', y2'⟩ := vr (v + l) d (by rw [w0, s0]; linarith) (by rw [w1, s1]; linarith) j' j'
    rw [e1] at y1
    rw [y2] at y1'
    rw [add_sub_cancel_right, ← Except.ok.inj y1'] at y2'
    exact ⟨y, y1, y2'⟩
  have vx2 : ∀ v d, c.b0 - l ≤ v → v ≤ c.b0 → v = c.b0 - l ∨ v = c.b0 ∨ z.knots.count (c.b0 + c.b1 - v) = 0 → ∀ junk junk',
      ∃ y, z.value eps junk (c.b0 + c.b1 - v) d = .ok y ∧ x.value eps junk' v d = .ok ((-1 : K) ^ d • y) := by
    intro v d h1 h2 h3 j j'
    have e1 : z.b0 + z.b1 - (v + (c.b1 - c.b0 + l)) = c.b0 + c.b1 - v := by rw [z0, z1]; ring
    obtain ⟨y, y1, y2⟩ := vx' (v + (c.b1 - c.b0 + l)) d (by rw [z0]; linarith) (by rw [z1]; linarith) (by
      rw [e1, z0, z1]
      rcases h3 with h | h | h
      · left; rw [h]; ring
      · right; left; rw [h]; ring
      · right; right; left; exact h) j j'
    obtain ⟨y', y1', y2'⟩ := vx (v + (c.b1 - c.b0 + l)) d (by rw [x0', z0]; linarith) (by rw [x1', z1]; linarith) j' j'
    rw [e1] at y1
    rw [y2] at y1'
    rw [add_sub_cancel_right, ← Except.ok.inj y1'] at y2'
    exact ⟨y, y1, y2'⟩
  have hcnt : ∀ (L : List K) (v : K), v ∉ L.map (fun k => c.b0 + c.b1 - k) → L.count (c.b0 + c.b1 - v) = 0 := by
    intro L v hv
    rw [List.count_eq_zero]
    intro h
    exact hv (List.mem_map.mpr ⟨_, h, by ring⟩)
  refine ⟨r, x, ?_, by omega, gr, cr, r1', r0, gx, cx, by omega, by rw [x0, r0], x1, ?_, ?_, ?_⟩
  · unfold Curve.extendedToPoint
    rw [if_neg (by simp)]
    simp only
    rw [hc.copied heps.le, R_bind_ok, eq, R_bind_ok, es, R_bind_ok, ew, R_bind_ok]
    rw [← er]
    congr 1
    · rw [w1, s1]
      congr 1
      funext k
      ring
    · omega
  · intro u d h1 h2 j j'
    rcases h2.lt_or_eq with h2 | rfl
    · apply Curve.right_germ heps hc.good gr (Or.inl (by omega)) (Or.inl (by omega)) h1 h2 (by rw [r0]; linarith) (by rw [r1']; exact h2) (b := c.b1) h2
        (s.knots.map (fun k => c.b0 + c.b1 - k) ++ c.knots) (j := junk) (j' := junk)
      intro v v1 v2 _ _ v3
      rw [List.mem_append, not_or] at v3
      obtain ⟨y, y1, y2⟩ := vr' v 0 (by linarith) v2.le (Or.inr (Or.inr (hcnt _ _ v3.1))) junk junk
      obtain ⟨a, a1, a2⟩ := hA (c.b0 + c.b1 - v) 0 (by linarith) (Or.inl (by linarith)) junk junk
      obtain ⟨b, b1, b2⟩ := vq (c.b0 + c.b1 - v) 0 (by linarith) (by linarith) (Or.inr (Or.inr (Or.inl (by
        rw [sub_sub_cancel]; exact List.count_eq_zero.mpr v3.2)))) junk junk
      rw [sub_sub_cancel] at b1
      refine ⟨b, b1, ?_⟩
      rw [y2, pow_zero, one_smul]
      rw [y1] at a2
      rw [b2, pow_zero, one_smul] at a1
      rw [Except.ok.inj a2, ← Except.ok.inj a1]
    · obtain ⟨y, y1, y2⟩ := vr' c.b1 d (by linarith) le_rfl (Or.inr (Or.inl rfl)) j j'
      obtain ⟨a, a1, a2⟩ := hA (c.b0 + c.b1 - c.b1) d (by linarith) (Or.inl (by linarith)) j j
      obtain ⟨b, b1, b2⟩ := vq c.b0 d le_rfl hlt.le (Or.inl rfl) j j
      rw [add_sub_cancel_right] at a1 a2 y1
      rw [add_sub_cancel_left] at b1
      refine ⟨b, b1, ?_⟩
      rw [y1] at a2
      rw [b2] at a1
      rw [y2, Except.ok.inj a2, ← Except.ok.inj a1, neg_pow_smul_self]
  · intro u d h1 h2 j j'
    rw [r0] at h1
    apply Curve.right_germ heps gx gr (Or.inl (by omega)) (Or.inl (by omega)) (by rw [x0]; exact h1) (by rw [x1]; exact h2) (by rw [r0]; exact h1)
      (by rw [r1']; linarith) (b := c.b0) h2 (s.knots.map (fun k => c.b0 + c.b1 - k) ++ z.knots.map (fun k => c.b0 + c.b1 - k)) (j := junk) (j' := junk)
    intro v v1 _ _ v2 v3
    rw [List.mem_append, not_or] at v3
    obtain ⟨y, y1, y2⟩ := vr' v 0 (by linarith) (by linarith) (Or.inr (Or.inr (hcnt _ _ v3.1))) junk junk
    obtain ⟨a, a1, a2⟩ := vx2 v 0 (by linarith) v2.le (Or.inr (Or.inr (hcnt _ _ v3.2))) junk junk
    obtain ⟨b, b1, b2⟩ := hB (c.b0 + c.b1 - v) 0 (by linarith) (by linarith) junk junk
    refine ⟨_, a2, ?_⟩
    rw [y1] at b2
    rw [a1] at b1
    rw [y2, Except.ok.inj b2, ← Except.ok.inj b1]
  · intro j
    obtain ⟨k1, k2, k3⟩ := hE j
    refine ⟨?_, ?_, ?_⟩
    · intro i hi hi'
      obtain ⟨y, y1, y2⟩ := k1 i (by omega) (by rw [dq]; exact hi')
      obtain ⟨a, a1, a2⟩ := vx2 c.b0 i (by linarith) le_rfl (Or.inr (Or.inl rfl)) j j
      obtain ⟨b, b1, b2⟩ := vq c.b1 i hlt.le le_rfl (Or.inr (Or.inl rfl)) j j
      rw [add_sub_cancel_left] at a1
      rw [add_sub_cancel_right] at b1
      rw [q1] at y1 y2
      refine ⟨b, b1, ?_⟩
      rw [a1] at y2
      rw [b2] at y1
      rw [a2, Except.ok.inj y2, ← Except.ok.inj y1, neg_pow_smul_self]
    · obtain ⟨y, y1, y2⟩ := vr' (c.b0 - l) 0 le_rfl (by linarith) (Or.inl rfl) j j
      rw [s1, show c.b1 + l = c.b0 + c.b1 - (c.b0 - l) by ring, y1] at k2
      rw [r0, y2, pow_zero, one_smul, Except.ok.inj k2]
    · intro h1 h2
      have k3 := k3 (by omega) h2
      obtain ⟨y, y1, y2⟩ := vr' (c.b0 - l) 2 le_rfl (by linarith) (Or.inl rfl) j j
      rw [s1, show c.b1 + l = c.b0 + c.b1 - (c.b0 - l) by ring, y1] at k3
      rw [r0, y2, Except.ok.inj k3, smul_zero]

/-- C82: a curve extended by a length at its end goes on to the point at this length on its end tangent. Partial: that it goes on at the speed of the
curve is missing, and false. -/
theorem C82_extended_end_partial {eps : K} (heps : 0 < eps) (junk : K) {c : Curve K V} {ks : List K} {ms : List ℕ} (hc : c.ClampedBy eps ks ms)
    (hd : c.deg ≤ 12) (natural relative : Bool) (mc : Option ℕ) {nrm : V → K} (hh : ∀ (a : K) v, nrm (a • v) = |a| * nrm v)
    {dense : ℕ → (ℕ → ℕ → K) → List V → R (List V)} (hS : Spec.SolvesDense dense) (len l : K)
    {t e : V} (ht : c.value eps junk c.b1 1 = .ok t) (he : c.value eps junk c.b1 0 = .ok e) (hn : 0 < nrm t) {l' : K}
    (hl : l' = if relative = true then l * len else l) (hgap : eps * c.deg < l' * (l' / nrm t)) :
    ∃ r, c.extended eps junk dense nrm len l true relative natural mc = .ok r ∧ r.deg = c.deg ∧ r.Good ∧ r.b0 = c.b0 ∧ r.b1 = c.b1 + l' * (l' / nrm t) ∧
      (∀ u d, c.b0 ≤ u → u < c.b1 ∨ u = c.b1 ∧ d = 0 → ∀ junk junk', ∃ y, c.value eps junk u d = .ok y ∧ r.value eps junk' u d = .ok y) ∧
      ∀ junk', r.value eps junk' r.b1 0 = .ok (e + (l' / nrm t) • t) := by
  have hdist : nrm (e - (e + (l' / nrm t) • t)) = |l'| := by
    rw [show e - (e + (l' / nrm t) • t) = (-(l' / nrm t)) • t by rw [neg_smul]; abel, hh, abs_neg, abs_div, abs_of_pos hn, div_mul_cancel₀ _ hn.ne']
  have hsq : |l'| * (|l'| / nrm t) = l' * (l' / nrm t) := by
    rw [← mul_div_assoc, ← mul_div_assoc, abs_mul_abs_self]
  obtain ⟨r, x, er, dr, gr, -, r0, r1, -, -, -, -, -, hA, -, hE⟩ := C82_extended_at_end heps junk hc hd natural mc (e + (l' / nrm t) • t) (nrm := nrm) hS ht he hn.ne'
    (by rw [hdist, hsq]; exact hgap)
  refine ⟨r, ?_, dr, gr, r0, by rw [r1, hdist, hsq], hA, fun j => (hE j).2.1⟩
  unfold Curve.extended
  simp only [if_true]
  rw [ht, R_bind_ok]
  unfold vdiv
  rw [if_neg hn.ne', R_bind_ok, he, R_bind_ok, ← hl, smul_smul, ← div_eq_mul_inv]
  unfold Curve.extendedToPoint
  rw [if_pos rfl, er]

/-- C82: the same at the start of the curve. -/
theorem C82_extended_start_partial {eps : K} (heps : 0 < eps) (junk : K) {c : Curve K V} {ks : List K} {ms : List ℕ} (hc : c.ClampedBy eps ks ms)
    (hd : c.deg ≤ 12) (natural relative : Bool) (mc : Option ℕ) {nrm : V → K} (hh : ∀ (a : K) v, nrm (a • v) = |a| * nrm v)
    {dense : ℕ → (ℕ → ℕ → K) → List V → R (List V)} (hS : Spec.SolvesDense dense) (len l : K)
    {t e : V} (ht : c.value eps junk c.b0 1 = .ok t) (he : c.value eps junk c.b0 0 = .ok e) (hn : 0 < nrm t) {l' : K}
    (hl : l' = if relative = true then l * len else l) (hgap : eps * c.deg < l' * (l' / nrm t)) :
    ∃ r, c.extended eps junk dense nrm len l false relative natural mc = .ok r ∧ r.deg = c.deg ∧ r.Good ∧ r.b1 = c.b1 ∧ r.b0 = c.b0 - l' * (l' / nrm t) ∧
      (∀ u d, c.b0 ≤ u → u ≤ c.b1 → ∀ junk junk', ∃ y, c.value eps junk u d = .ok y ∧ r.value eps junk' u d = .ok y) ∧
      ∀ junk', r.value eps junk' r.b0 0 = .ok (e - (l' / nrm t) • t) := by
  have hneg : ∀ v, nrm (-v) = nrm v := fun v => by rw [← neg_one_smul K v, hh]; simp
  have hdist : nrm (e - (e - (l' / nrm t) • t)) = |l'| := by
    rw [show e - (e - (l' / nrm t) • t) = (l' / nrm t) • t by abel, hh, abs_div, abs_of_pos hn, div_mul_cancel₀ _ hn.ne']
  have hsq : |l'| * (|l'| / nrm t) = l' * (l' / nrm t) := by
    rw [← mul_div_assoc, ← mul_div_assoc, abs_mul_abs_self]
  obtain ⟨r, x, er, dr, gr, -, r1, r0, -, -, -, -, -, hA, -, hE⟩ := C82_extended_at_start heps junk hc hd natural mc (e - (l' / nrm t) • t) (nrm := nrm) hneg hS ht he
    hn.ne' (by rw [hdist, hsq]; exact hgap)
  refine ⟨r, ?_, dr, gr, r1, by rw [r0, hdist, hsq], hA, fun j => (hE j).2.1⟩
  unfold Curve.extended
  simp only [Bool.false_eq_true, if_false]
  rw [ht, R_bind_ok]
  unfold vdiv
  rw [hneg, if_neg hn.ne', R_bind_ok, he, R_bind_ok, ← hl, smul_neg, smul_neg, smul_smul, ← div_eq_mul_inv, ← sub_eq_add_neg, er]

/-- C82: below degree 3 the request for a natural end is ignored. -/
theorem C82_natural_ignored (eps junk : K) (dense : ℕ → (ℕ → ℕ → K) → List V → R (List V)) {c : Curve K V} (hd : c.deg ≤ 2) (pt : V) (u unew : K)
    (mc : Option ℕ) : c.extentionTo eps junk dense pt u unew true mc = c.extentionTo eps junk dense pt u unew false mc := by
  unfold Curve.extentionTo extentionWith extConstraints
  have h : ¬ 2 < c.deg := by omega
  simp [h]

/-- C82: the parameter of the new point is the old one plus the square of the distance divided by the speed, so that an extension by a length other
than one does not go on at the speed of the curve. A straight line from 0 to 1 at unit speed, extended by a length of 10, goes to 11 after a
parameter interval of 100 and runs beyond it in between: it is at 159/4 at the parameter 51, and comes back. -/
theorem C82_overshoot_witness {dense : ℕ → (ℕ → ℕ → ℚ) → List ℚ → R (List ℚ)} (hS : Spec.SolvesDense dense) :
    let c : Curve ℚ ℚ := ⟨3, [0, 1/3, 2/3, 1], [0, 0, 0, 0, 1, 1, 1, 1], 0, 1⟩
    ∃ r, c.extended (1/1000) 7 dense (fun v => |v|) 1 10 true false false none = .ok r ∧ r.b1 = 101 ∧ r.value (1/1000) 7 101 0 = .ok 11 ∧
      r.value (1/1000) 7 51 0 = .ok (159/4) := by
  intro c
  obtain ⟨e, ee, -, -, -, -, -, hb, hu⟩ := extentionWith_spec (eps := (1/1000 : ℚ)) (by norm_num) 7 (p := 3) (by decide) (by decide)
    (ev := fun i => c.value (1/1000) 7 1 i) (x := fun i => if i = 0 then 1 else if i = 1 then 1 else 0) (u := 1) (unew := 101) false none (by
      intro i hi
      have : i ≤ 2 := by simpa using hi
      interval_cases i <;> decide +kernel) (by norm_num) (11 : ℚ) hS
  obtain ⟨hb1, hb2⟩ := hb (by simp)
  have he : (⟨3, [1, 103/3, 203/3, 11], [1, 1, 1, 1, 101, 101, 101, 101], 1, 101⟩ : Curve ℚ ℚ) = e := by
    apply hu
    · refine ⟨⟨?_, ?_, ?_, ?_, ?_⟩, ?_, ?_⟩ <;> decide +kernel
    · rw [hb1]; rfl
    · rw [hb2]; rfl
    · intro i hi
      have : i ≤ 2 := by simpa using hi
      interval_cases i <;> decide +kernel
    · decide +kernel
    · simp
  subst he
  refine ⟨⟨3, [0, 1/3, 2/3, 1, 103/3, 203/3, 11], [0, 0, 0, 0, 1, 1, 1, 101, 101, 101, 101], 0, 101⟩, ?_, rfl, ?_, ?_⟩
  · unfold Curve.extended
    have e1 : c.value (1/1000) 7 c.b1 1 = .ok 1 := by decide +kernel
    have e0 : c.value (1/1000) 7 c.b1 0 = .ok 1 := by decide +kernel
    have e2 : vdiv (1 : ℚ) |(1 : ℚ)| = .ok 1 := by decide +kernel
    simp only [if_true]
    rw [e1, R_bind_ok, e2, R_bind_ok, e0, R_bind_ok]
    unfold Curve.extendedToPoint Curve.extendedAtEnd
    simp only [if_true]
    rw [e1, R_bind_ok, e0, R_bind_ok]
    have e3 : extParam (K := ℚ) (fun v : ℚ => |v|) 1 1 (1 + (if false = true then (10 : ℚ) * 1 else 10) • 1) c.b1 = .ok 101 := by decide +kernel
    rw [e3, R_bind_ok]
    unfold Curve.extentionTo
    have e4 : (1 + (if false = true then (10 : ℚ) * 1 else 10) • (1 : ℚ)) = 11 := by decide +kernel
    rw [e4]
    have : extentionWith (1/1000 : ℚ) 7 dense (fun i => c.value (1/1000) 7 c.b1 i) c.deg 11 c.b1 101 false none =
      .ok ⟨3, [1, 103/3, 203/3, 11], [1, 1, 1, 1, 101, 101, 101, 101], 1, 101⟩ := ee
    rw [this, R_bind_ok]
    decide +kernel
  · decide +kernel
  · decide +kernel

namespace Sample

/-- The sum of the absolute coordinates, a norm with rational values. -/
def n1 (v : ℚ × ℚ) : ℚ := |v.1| + |v.2|

theorem n1_smul (a : ℚ) (v : ℚ × ℚ) : n1 (a • v) = |a| * n1 v := by
  simp only [n1, Prod.smul_fst, Prod.smul_snd, smul_eq_mul, abs_mul]; ring

/-- The hypotheses of the theorems on extensions are met by a quadratic curve of the plane and a solver of regular systems. -/
example : ∃ dense : ℕ → (ℕ → ℕ → ℚ) → List (ℚ × ℚ) → R (List (ℚ × ℚ)), ∃ e r s a b, Sample.c.extentionTo (1/10) 7 dense (9, -4) 2 4 true none = .ok e ∧
    Sample.c.extendedAtEnd (1/10) 7 dense n1 (9, -4) true (some 1) = .ok r ∧ r.value (1/10) 7 r.b1 0 = .ok (9, -4) ∧ r.b0 = 0 ∧
    Sample.c.extendedToPoint (1/10) 7 dense n1 (9, -4) false true none = .ok s ∧ s.value (1/10) 7 s.b0 0 = .ok (9, -4) ∧ s.b1 = 3 ∧
    Sample.c.extended (1/10) 7 dense n1 5 3 true false true none = .ok a ∧ a.value (1/10) 7 a.b1 0 = .ok (8, 1) ∧
    Sample.c.extended (1/10) 7 dense n1 5 (3/5) false true true none = .ok b ∧ b.value (1/10) 7 b.b0 0 = .ok (-1, -2) := by
  obtain ⟨dense, hS⟩ := exists_solvesDense (K := ℚ) (V := ℚ × ℚ)
  have h0 : Sample.c.value (1/10) 7 Sample.c.b0 0 = .ok (0, 0) := by decide +kernel
  have h1 : Sample.c.value (1/10) 7 Sample.c.b0 1 = .ok (2, 4) := by decide +kernel
  have h2 : Sample.c.value (1/10) 7 Sample.c.b1 0 = .ok (6, 0) := by decide +kernel
  have h3 : Sample.c.value (1/10) 7 Sample.c.b1 1 = .ok (4, 2) := by decide +kernel
  obtain ⟨e, ee, -⟩ := C82_extention (eps := (1/10 : ℚ)) (by norm_num) 7 Sample.c_clampedBy.good (by decide) (by decide) (u := 2) (unew := 4)
    (by decide +kernel) (by decide +kernel) true none (by decide +kernel) (9, -4) hS
  obtain ⟨r, x, er, -, -, -, r0, -, -, -, -, -, -, -, -, hr⟩ := C82_extended_at_end (eps := (1/10 : ℚ)) (by norm_num) 7 Sample.c_clampedBy (by decide)
    true (some 1) (9, -4) (nrm := n1) hS h3 h2 (by decide +kernel) (by decide +kernel)
  obtain ⟨s, y, es, -, -, -, s1, -, -, -, -, -, -, -, -, hs⟩ := C82_extended_at_start (eps := (1/10 : ℚ)) (by norm_num) 7 Sample.c_clampedBy (by decide)
    true none (9, -4) (nrm := n1) (fun v => by simp [n1]) hS h1 h0 (by decide +kernel) (by decide +kernel)
  obtain ⟨a, ea, -, -, -, -, -, ha⟩ := C82_extended_end_partial (eps := (1/10 : ℚ)) (by norm_num) 7 Sample.c_clampedBy (by decide)
    true false none (nrm := n1) n1_smul hS 5 3 h3 h2 (by decide +kernel) (l' := 3) (by simp) (by decide +kernel)
  obtain ⟨b, eb, -, -, -, -, -, hb⟩ := C82_extended_start_partial (eps := (1/10 : ℚ)) (by norm_num) 7 Sample.c_clampedBy (by decide)
    true true none (nrm := n1) n1_smul hS 5 (3/5) h1 h0 (by decide +kernel) (l' := 3) (by decide +kernel) (by decide +kernel)
  refine ⟨dense, e, r, s, a, b, ee, er, (hr 7).2.1, r0.trans (by decide +kernel), es, (hs 7).2.1, s1.trans (by decide +kernel), ea, (ha 7).trans (by decide +kernel), eb,
    (hb 7).trans (by decide +kernel)⟩

/-- The hypotheses of `C82_extended_at_end_rational` are met by a rational line. -/
example : ∃ dense : ℕ → (ℕ → ℕ → ℚ) → List (ℚ × ℚ) → R (List (ℚ × ℚ)), ∃ r, jr.extendedAtEndRat (1/10) 7 dense n1 (12, 0) false none = .ok r ∧
    r.ratValue (1/10) 7 r.b1 0 = .ok (12, 0) := by
  obtain ⟨dense, hS⟩ := exists_solvesDense (K := ℚ) (V := ℚ × ℚ)
  obtain ⟨r, x, er, -, -, -, -, -, -, -, -, -, -, -, -, hr⟩ := C82_extended_at_end_rational (eps := (1/10 : ℚ)) (by norm_num) 7 jr_clampedBy (by decide)
    (by decide +kernel) false none (12, 0) (nrm := n1) hS (t := (1, -4/3)) (e := (9, -4)) (by decide +kernel) (by decide +kernel) (by decide +kernel)
    (by decide +kernel)
  exact ⟨dense, r, er, (hr 7).2.1⟩

end Sample

end Gbs
