import Verif.Props.Extend

/-! # C82: the extension of a rational curve at its start, and by a length -/

namespace Gbs

set_option linter.unusedSectionVars false

variable {K : Type} [Field K] [LinearOrder K] [IsStrictOrderedRing K]
variable {V : Type} [AddCommGroup V] [Module K V]

/-- The quotient rule on functions of the opposite variable. -/
theorem quotB_mirror (b : ℕ → ℕ → K) (A : ℕ → V) (w : ℕ → K) (d : ℕ) :
    quotB b (fun d => (-1 : K) ^ d • A d) (fun d => (-1 : K) ^ d * w d) d = (-1 : K) ^ d • quotB b A w d := by
  induction d using Nat.strong_induction_on with
  | _ d ih =>
    rw [quotB_eq, quotB_eq b A w d, pow_zero, one_mul, smul_comm ((-1 : K) ^ d), smul_sub ((-1 : K) ^ d), Finset.smul_sum]
    congr 2
    apply Finset.sum_congr rfl
    intro i hi
    have hi := Finset.mem_range.mp hi
    rw [ih (d - (i + 1)) (by omega), smul_smul, smul_smul]
    congr 1
    have : (-1 : K) ^ d = (-1 : K) ^ (i + 1) * (-1 : K) ^ (d - (i + 1)) := by rw [← pow_add]; congr 1; omega
    rw [this]
    ring

/-- Rational curves whose homogeneous derivatives are those of opposite variables. -/
theorem Curve.ratValue_mirror {eps : K} (heps : 0 < eps) {f g : Curve K (V × K)} (hf : f.Good) (hg : g.Good) (bf : f.BigOk eps) (bg : g.BigOk eps)
    {u v j j' : K} (f0 : f.b0 ≤ u) (f1 : u ≤ f.b1) (g0 : g.b0 ≤ v) (g1 : v ≤ g.b1) {y0 : V × K} (h0 : f.value eps j u 0 = .ok y0) (hw : y0.2 ≠ 0)
    (h : ∀ d, ∃ y, f.value eps j u d = .ok y ∧ g.value eps j' v d = .ok ((-1 : K) ^ d • y)) {d : ℕ} (hd : d ≤ 60) (junk junk' : K) :
    ∃ y, f.ratValue eps junk u d = .ok y ∧ g.ratValue eps junk' v d = .ok ((-1 : K) ^ d • y) := by
  obtain ⟨i, -, -, -, -, fv, fr⟩ := Curve.rat_spec heps hf bf f0 f1
  obtain ⟨i', -, -, -, -, gv, gr⟩ := Curve.rat_spec heps hg bg g0 g1
  have hfg : ∀ d, spanDer (kf g.knots) g.poles.length g.deg i' (pf g.poles) d v =
      (-1 : K) ^ d • spanDer (kf f.knots) f.poles.length f.deg i (pf f.poles) d u := by
    intro d
    obtain ⟨y, y1, y2⟩ := h d
    rw [fv j d] at y1
    rw [gv j' d] at y2
    rw [Except.ok.inj y2, Except.ok.inj y1]
  have e0 : spanDer (kf f.knots) f.poles.length f.deg i (pf f.poles) 0 u = y0 := by
    rw [fv j 0] at h0
    exact Except.ok.inj h0
  refine ⟨_, (fr (by rw [e0]; exact hw)).1 junk d hd, ?_⟩
  rw [(gr (by rw [hfg, e0, pow_zero, one_smul]; exact hw)).1 junk' d hd, ← quotB_mirror]
  congr 1
  apply quotB_congr 60 (fun _ _ _ _ => rfl) _ _ d hd
  · intro d _
    rw [hfg]; rfl
  · intro d _
    rw [hfg]; rfl

/-- The curve with unit weights. -/
theorem Curve.unit_weights {eps : K} (heps : 0 < eps) {c : Curve K V} (h : c.Good) (hb : c.deg ≤ stackMaxDegree) {c' : Curve K (V × K)}
    (hc : c' = ⟨c.deg, addUnitWeights c.poles, c.knots, c.b0, c.b1⟩) :
    c'.Good ∧ (∀ u, c.b0 ≤ u → u ≤ c.b1 → ∀ d, d ≤ 60 → ∀ junk junk', ∃ pt, c.value eps junk' u d = .ok pt ∧ c'.ratValue eps junk u d = .ok pt) ∧
      ∀ u, c.b0 ≤ u → u ≤ c.b1 → ∀ junk junk', ∃ pt, c.value eps junk u 0 = .ok pt ∧ c'.value eps junk' u 0 = .ok (pt, 1) := by
  have hl : (addUnitWeights (K := K) c.poles).length = c.poles.length := by simp [addUnitWeights]
  have hw : Wf c.deg c.knots (addUnitWeights (K := K) c.poles) := h.wf.kwf.wf hl
  have hg : c'.Good := by
    subst hc
    refine ⟨hw, h.lo, ?_⟩
    show c.b1 = kf c.knots (addUnitWeights (K := K) c.poles).length
    rw [hl]; exact h.hi
  refine ⟨hg, ?_, ?_⟩
  · intro u hu1 hu2 d hd junk junk'
    exact C12_equal_weights heps h (Or.inl hb) one_ne_zero hu1 hu2 junk junk' hd c' hc
  · intro u h1 h2 junk junk'
    obtain ⟨i, e, hin, a1, a2, hv⟩ := Curve.value_span heps h (Or.inl hb) h1 h2
    obtain ⟨i', e', hin', a1', a2', hv'⟩ := Curve.value_span heps hg (Or.inl (by rw [hc]; exact hb)) (u := u) (by rw [hc]; exact h1) (by rw [hc]; exact h2)
    have hm := kf_mono h.wf.sorted
    subst hc
    obtain rfl : i' = i := by
      have e' : findSpan (addUnitWeights (K := K) c.poles).length c.deg u c.knots = .ok i' := e'
      rw [hl, e] at e'; exact (Except.ok.inj e').symm
    refine ⟨_, hv junk 0, ?_⟩
    rw [hv' junk' 0]
    congr 1
    have hp : ∀ j, j < c.poles.length → pf (addUnitWeights (K := K) c.poles) j = (pf c.poles j, 1) := by
      intro j hj
      unfold addUnitWeights
      rw [pf_map _ hj]
      simp [addWeight]
    show spanDer (kf c.knots) (addUnitWeights (K := K) c.poles).length c.deg i' (pf (addUnitWeights (K := K) c.poles)) 0 u = _
    rw [hl, spanDer_congr_poles (P' := fun j => (pf c.poles j, (1 : K))) hp]
    ext1
    · rw [spanDer_fst]
    · rw [spanDer_snd]
      have := spanDer_const hm (InSpan_bounds hin).2.2 a1 a2 (1 : K) 0 u
      rw [if_pos rfl] at this
      exact this

/-- C82 at the start of a rational curve whose first weight is not null: the projected curve is kept with its parameters, bounds and derivatives, and is
preceded by an extension that meets its derivatives up to the asked continuity, below the degree, and starts at the point. -/
theorem C82_extended_at_start_rational {eps : K} (heps : 0 < eps) (junk : K) {c : Curve K (V × K)} {ks : List K} {ms : List ℕ}
    (hc : c.ClampedBy eps ks ms) (hd : c.deg ≤ 12) (hw : (pf c.poles 0).2 ≠ 0) (natural : Bool) (mc : Option ℕ) (pt : V) {nrm : V → K}
    (hnn : ∀ v, nrm (-v) = nrm v) {dense : ℕ → (ℕ → ℕ → K) → List V → R (List V)} (hS : Spec.SolvesDense dense)
    {t e : V} (ht : c.ratValue eps junk c.b0 1 = .ok t) (he : c.ratValue eps junk c.b0 0 = .ok e) (hn : nrm t ≠ 0)
    (hgap : eps * c.deg < nrm (e - pt) * (nrm (e - pt) / nrm t)) :
    ∃ r, ∃ x : Curve K V, c.extendedToPointRat eps junk dense nrm pt false natural mc = .ok r ∧ r.deg = c.deg ∧ r.Good ∧ r.Clamped ∧ r.b1 = c.b1 ∧
      r.b0 = c.b0 - nrm (e - pt) * (nrm (e - pt) / nrm t) ∧ x.Good ∧ x.Clamped ∧ x.deg ≤ c.deg ∧ x.b0 = r.b0 ∧ x.b1 = c.b0 ∧
      (∀ u d, c.b0 ≤ u → u ≤ c.b1 → ∀ junk junk', r.ratValue eps junk' u d = c.ratValue eps junk u d) ∧
      (∀ u d, r.b0 ≤ u → u < c.b0 → d ≤ 60 → ∀ junk junk', ∃ y, x.value eps junk u d = .ok y ∧ r.ratValue eps junk' u d = .ok y) ∧
      ∀ junk', (∀ i, i < c.deg → i ≤ mc.getD c.deg → ∃ y, c.ratValue eps junk' c.b0 i = .ok y ∧ x.value eps junk' c.b0 i = .ok y) ∧
        r.ratValue eps junk' r.b0 0 = .ok pt ∧ (2 < c.deg → natural = true → r.ratValue eps junk' r.b0 2 = .ok 0) := by
  have h12 : (12 : ℕ) ≤ stackMaxDegree := by decide
  have hlt := hc.good.lt
  set l := nrm (e - pt) * (nrm (e - pt) / nrm t) with hl
  have hpK : (1 : K) ≤ c.deg := by exact_mod_cast hc.deg
  have hl0 : 0 < l := by nlinarith
  -- the reversed curve
  obtain ⟨q, eq, dq, pq, q0, q1, gq, cq, vq, -⟩ := C21_reverse heps hc.good (hc.clamped heps.le) (Or.inl (by omega))
  have hq := hc.mirror heps (by omega) eq
  have hmin := hc.good.wf.min
  have hqw : (pf q.poles (q.poles.length - 1)).2 ≠ 0 := by
    rw [pq, List.length_reverse]
    rw [pf_reverse (by omega), Nat.sub_self]; exact hw
  have hrat : ∀ i, i ≤ 60 → ∀ j j', ∃ y, c.ratValue eps j c.b0 i = .ok y ∧ q.ratValue eps j' q.b1 i = .ok ((-1 : K) ^ i • y) := by
    intro i hi j j'
    apply Curve.ratValue_mirror heps hc.good gq (Or.inl (by omega)) (Or.inl (by omega)) le_rfl hlt.le (by rw [q0, q1]; exact hlt.le) le_rfl (j := junk)
      (j' := junk) (Curve.clamped_ends heps hc.good (hc.clamped heps.le) (by omega) junk).1 hw _ hi
    intro d
    obtain ⟨y, y1, y2⟩ := vq c.b1 d hlt.le le_rfl (Or.inr (Or.inl rfl)) junk junk
    rw [add_sub_cancel_right] at y1
    exact ⟨y, y1, by rw [q1]; exact y2⟩
  have hqe : q.ratValue eps junk q.b1 0 = .ok e := by
    obtain ⟨y, y1, y2⟩ := hrat 0 (by omega) junk junk
    rw [he] at y1
    rw [y2, ← Except.ok.inj y1, pow_zero, one_smul]
  have hqt : q.ratValue eps junk q.b1 1 = .ok (-t) := by
    obtain ⟨y, y1, y2⟩ := hrat 1 (by omega) junk junk
    rw [ht] at y1
    rw [y2, ← Except.ok.inj y1, pow_one, neg_one_smul]
  obtain ⟨s, z, ⟨es, ds, gs, cs, s0, s1, gz, cz, dz, z0, z1, -, hB, hE⟩, z', α, β, ez', hα, hβ, hA2, hB2⟩ :=
    C82_extended_at_end_rational_scaled heps junk hq (by omega) hqw natural mc pt (nrm := nrm) hS hqt hqe (by rw [hnn]; exact hn) (by rw [hnn, dq]; exact hgap)
  rw [hnn, ← hl, q1] at s1
  rw [q0] at s0
  rw [q1] at z0 hB hA2 hB2
  rw [q0] at hA2
  rw [s1] at z1 hB hB2
  have hsd : s.deg ≤ stackMaxDegree := by omega
  -- reversed again
  obtain ⟨w, ew, dw, -, w0, w1, gw, cw, vw, -⟩ := C21_reverse heps gs cs (Or.inl hsd)
  obtain ⟨r, er, dr, gr, cr, r0, r1, vr⟩ := Curve.shift_spec heps gw cw (by omega) l
  rw [w0, s0] at r0
  rw [w1, s1] at r1
  -- the extension alone
  obtain ⟨x', ex', dx', -, x0', x1', gx', cx', vx', -⟩ := C21_reverse heps gz cz (Or.inl (by omega))
  obtain ⟨x, ex, dx, gx, cx, x0, x1, vx⟩ := Curve.shift_spec heps gx' cx' (by omega) (c.b1 - c.b0 + l)
  have r1' : r.b1 = c.b1 := by rw [r1]; ring
  have x0 : x.b0 = c.b0 - l := by rw [x0, x0', z0]; ring
  have x1 : x.b1 = c.b0 := by rw [x1, x1', z1]; ring
  have vr' : ∀ v d, c.b0 - l ≤ v → v ≤ c.b1 → v = c.b0 - l ∨ v = c.b1 ∨ s.knots.count (c.b0 + c.b1 - v) = 0 → ∀ junk junk',
      ∃ y, s.value eps junk (c.b0 + c.b1 - v) d = .ok y ∧ r.value eps junk' v d = .ok ((-1 : K) ^ d • y) := by
    intro v d h1 h2 h3 j j'
    have e1 : s.b0 + s.b1 - (v + l) = c.b0 + c.b1 - v := by rw [s0, s1]; ring
    obtain ⟨y, y1, y2⟩ := vw (v + l) d (by rw [s0]; linarith) (by rw [s1]; linarith) (by
      rw [e1, s0, s1]
      rcases h3 with h | h | h
      · left; rw [h]; ring
      · right; left; rw [h]
      · right; right; left; exact h) j j'
    obtain ⟨y', y1', y2'⟩ := vr (v + l) d (by rw [w0, s0]; linarith) (by rw [w1, s1]; linarith) j' j'
    rw [e1] at y1
    rw [y2] at y1'
    rw [add_sub_cancel_right, ← Except.ok.inj y1'] at y2'
    exact ⟨y, y1, y2'⟩
  have vx2 : ∀ v d, c.b0 - l ≤ v → v ≤ c.b0 → v = c.b0 - l ∨ v = c.b0 ∨ z.knots.count (c.b0 + c.b1 - v) = 0 → ∀ junk junk',
      ∃ y, z.value eps junk (c.b0 + c.b1 - v) d = .ok y ∧ x.value eps junk' v d = .ok ((-1 : K) ^ d • y) := by
    intro v d h1 h2 h3 j j'
    have e1 : z.b0 + z.b1 - (v + (c.b1 - c.b0 + l)) = c.b0 + c.b1 - v := by rw [z0, z1]; ring
    obtain ⟨y, y1, y2⟩ := vx' (v + (c.b1 - c.b0 + l)) d (by rw [z0]; linarith) (by rw [z1]; linarith) (by
      rw [e1, z0, z1]
      rcases h3 with h | h | h
      · left; rw [h]; ring
      · right; left; rw [h]; ring
      · right; right; left; exact h) j j'
    obtain ⟨y', y1', y2'⟩ := vx (v + (c.b1 - c.b0 + l)) d (by rw [x0', z0]; linarith) (by rw [x1', z1]; linarith) j' j'
    rw [e1] at y1
    rw [y2] at y1'
    rw [add_sub_cancel_right, ← Except.ok.inj y1'] at y2'
    exact ⟨y, y1, y2'⟩
  have hcnt : ∀ (L : List K) (v : K), v ∉ L.map (fun k => c.b0 + c.b1 - k) → L.count (c.b0 + c.b1 - v) = 0 := by
    intro L v hv
    rw [List.count_eq_zero]
    intro h
    exact hv (List.mem_map.mpr ⟨_, h, by ring⟩)
  -- the homogeneous curve, scaled
  obtain ⟨gC, vC⟩ := Curve.scaled_value heps hc.good (by omega) α
  have hcs : ∀ u d, c.b0 ≤ u → u ≤ c.b1 → ∀ junk junk', ∃ y, ({ c with poles := scalePoles c.poles α } : Curve K (V × K)).value eps junk u d = .ok y ∧
      r.value eps junk' u d = .ok y := by
    intro u d h1 h2 j j'
    rcases h2.lt_or_eq with h2 | rfl
    · apply Curve.right_germ heps gC gr (Or.inl (by show c.deg ≤ _; omega)) (Or.inl (by omega)) h1 h2 (by rw [r0]; linarith) (by rw [r1']; exact h2)
        (b := c.b1) h2 (s.knots.map (fun k => c.b0 + c.b1 - k) ++ c.knots) (j := junk) (j' := junk)
      intro v v1 v2 _ _ v3
      have v2 : v < c.b1 := v2
      rw [List.mem_append, not_or] at v3
      obtain ⟨y, y1, y2⟩ := vr' v 0 (by linarith) v2.le (Or.inr (Or.inr (hcnt _ _ v3.1))) junk junk
      obtain ⟨a, a1, a2⟩ := hA2 (c.b0 + c.b1 - v) 0 (by linarith) (by linarith) junk junk
      obtain ⟨b, b1, b2⟩ := vq (c.b0 + c.b1 - v) 0 (by linarith) (by linarith) (Or.inr (Or.inr (Or.inl (by
        rw [sub_sub_cancel]; exact List.count_eq_zero.mpr v3.2)))) junk junk
      rw [sub_sub_cancel] at b1
      obtain ⟨k, k1, k2⟩ := vC v 0 (by linarith) v2.le junk junk
      refine ⟨_, k2, ?_⟩
      rw [y2, pow_zero, one_smul]
      rw [y1] at a2
      rw [b2, pow_zero, one_smul] at a1
      rw [Except.ok.inj a2, ← Except.ok.inj a1, Except.ok.inj (b1.symm.trans k1)]
    · obtain ⟨y, y1, y2⟩ := vr' c.b1 d (by linarith) le_rfl (Or.inr (Or.inl rfl)) j j'
      obtain ⟨a, a1, a2⟩ := hA2 (c.b0 + c.b1 - c.b1) d (by linarith) (by linarith) j j
      obtain ⟨b, b1, b2⟩ := vq c.b0 d le_rfl hlt.le (Or.inl rfl) j j
      rw [add_sub_cancel_right] at a1 a2 y1
      rw [add_sub_cancel_left] at b1
      obtain ⟨k, k1, k2⟩ := vC c.b1 d hlt.le le_rfl j j
      refine ⟨_, k2, ?_⟩
      rw [y1] at a2
      rw [b2] at a1
      rw [y2, Except.ok.inj a2, ← Except.ok.inj a1, smul_comm α, neg_pow_smul_self, Except.ok.inj (b1.symm.trans k1)]
  -- the extension with unit weights, scaled
  have hez' : z' = ⟨z.deg, addUnitWeights z.poles, z.knots, z.b0, z.b1⟩ := by
    have hlz : (addUnitWeights (K := K) z.poles).length = z.poles.length := by simp [addUnitWeights]
    have hwz : Wf z.deg z.knots (addUnitWeights (K := K) z.poles) := gz.wf.kwf.wf hlz
    unfold Curve.toRational at ez'
    rw [mk?_sorted eps _ hwz.sorted z.deg hwz.len hwz.min] at ez'
    rw [← Except.ok.inj ez', cz.lo, cz.hi]
  obtain ⟨-, -, vz'⟩ := Curve.unit_weights heps gz (by omega) hez'
  obtain ⟨gX, ratX, valX⟩ := Curve.unit_weights heps gx (by omega) (c' := ⟨x.deg, addUnitWeights x.poles, x.knots, x.b0, x.b1⟩) rfl
  set X : Curve K (V × K) := ⟨x.deg, addUnitWeights x.poles, x.knots, x.b0, x.b1⟩ with hX
  have X0 : X.b0 = c.b0 - l := x0
  have X1 : X.b1 = c.b0 := x1
  have Xd : X.deg ≤ stackMaxDegree := by show x.deg ≤ _; omega
  obtain ⟨gS, vS⟩ := Curve.scaled_value heps gX Xd β
  have hxs : ∀ u d, c.b0 - l ≤ u → u < c.b0 → ∀ junk junk', ∃ y, ({ X with poles := scalePoles X.poles β } : Curve K (V × K)).value eps junk u d = .ok y ∧
      r.value eps junk' u d = .ok y := by
    intro u d h1 h2 j j'
    apply Curve.right_germ heps gS gr (Or.inl Xd) (Or.inl (by omega)) (by show X.b0 ≤ u; rw [X0]; exact h1) (by show u < X.b1; rw [X1]; exact h2)
      (by rw [r0]; exact h1) (by rw [r1']; linarith) (b := c.b0) h2
      (s.knots.map (fun k => c.b0 + c.b1 - k) ++ z.knots.map (fun k => c.b0 + c.b1 - k)) (j := junk) (j' := junk)
    intro v v1 _ _ v2 v3
    rw [List.mem_append, not_or] at v3
    obtain ⟨y, y1, y2⟩ := vr' v 0 (by linarith) (by linarith) (Or.inr (Or.inr (hcnt _ _ v3.1))) junk junk
    obtain ⟨a, a1, a2⟩ := vx2 v 0 (by linarith) v2.le (Or.inr (Or.inr (hcnt _ _ v3.2))) junk junk
    obtain ⟨b, b1, b2⟩ := hB2 (c.b0 + c.b1 - v) 0 (by linarith) (by linarith) junk junk
    obtain ⟨k, k1, k2⟩ := vz' (c.b0 + c.b1 - v) (by rw [z0]; linarith) (by rw [z1]; linarith) junk junk
    obtain ⟨m, m1, m2⟩ := valX v (by rw [x0]; linarith) (by rw [x1]; exact v2.le) junk junk
    obtain ⟨o, o1, o2⟩ := vS v 0 (by rw [X0]; linarith) (by rw [X1]; exact v2.le) junk junk
    refine ⟨_, o2, ?_⟩
    rw [y1] at b2
    rw [k2] at b1
    rw [m2] at o1
    rw [a1] at k1
    rw [a2, pow_zero, one_smul] at m1
    rw [y2, pow_zero, one_smul, Except.ok.inj b2, ← Except.ok.inj b1, ← Except.ok.inj o1, ← Except.ok.inj k1, ← Except.ok.inj m1]
  have hxr : ∀ u d, r.b0 ≤ u → u < c.b0 → d ≤ 60 → ∀ junk junk', ∃ y, x.value eps junk u d = .ok y ∧ r.ratValue eps junk' u d = .ok y := by
    intro u d h1 h2 hd j j'
    rw [r0] at h1
    obtain ⟨y, y1, y2⟩ := ratX u (by rw [x0]; exact h1) (by rw [x1]; exact h2.le) d hd j j
    refine ⟨y, y1, ?_⟩
    rw [← Curve.ratValue_congr heps (c := { X with poles := scalePoles X.poles β }) (junk := j) (u := u) (by show X.b0 ≤ u; rw [X0]; exact h1)
      (by show u ≤ X.b1; rw [X1]; exact h2.le) (by rw [r0]; exact h1) (by rw [r1']; linarith) (fun d => hxs u d h1 h2 j j') d,
      (C13_scale_poles hβ eps j u X).1 d, y2]
  have hzx : ∀ d j j', ∃ y, z.value eps j (c.b1 + l) d = .ok y ∧ x.value eps j' (c.b0 - l) d = .ok ((-1 : K) ^ d • y) := by
    intro d j j'
    obtain ⟨y, y1, y2⟩ := vx2 (c.b0 - l) d le_rfl (by linarith) (Or.inl rfl) j j'
    rw [show c.b0 + c.b1 - (c.b0 - l) = c.b1 + l by ring] at y1
    exact ⟨y, y1, y2⟩
  refine ⟨r, x, ?_, by omega, gr, cr, r1', r0, gx, cx, by omega, by rw [x0, r0], x1, ?_, hxr, ?_⟩
  · unfold Curve.extendedToPointRat
    rw [if_neg (by simp)]
    simp only
    rw [hc.copied heps.le, R_bind_ok, eq, R_bind_ok, es, R_bind_ok, ew, R_bind_ok]
    rw [← er]
    congr 1
    · rw [w1, s1]
      congr 1
      funext k
      ring
    · omega
  · intro u d h1 h2 j j'
    rw [← Curve.ratValue_congr heps (c := { c with poles := scalePoles c.poles α }) (junk := j) (u := u) h1 h2 (by rw [r0]; linarith)
      (by rw [r1']; exact h2) (fun d => hcs u d h1 h2 j j') d, (C13_scale_poles hα eps j u c).1 d]
  · intro j
    obtain ⟨k1, k2, k3⟩ := hE j
    refine ⟨?_, ?_, ?_⟩
    · intro i hi hi'
      obtain ⟨y, y1, y2⟩ := k1 i (by omega) (by rw [dq]; exact hi')
      obtain ⟨a, a1, a2⟩ := vx2 c.b0 i (by linarith) le_rfl (Or.inr (Or.inl rfl)) j j
      obtain ⟨b, b1, b2⟩ := hrat i (by omega) j junk
      rw [add_sub_cancel_left] at a1
      rw [q1] at y2
      refine ⟨b, b1, ?_⟩
      rw [a1] at y2
      rw [b2] at y1
      rw [a2, Except.ok.inj y2, ← Except.ok.inj y1, neg_pow_smul_self]
    · obtain ⟨y, y1, y2⟩ := hB (c.b1 + l) 0 (by linarith) le_rfl (by omega) j j
      obtain ⟨a, a1, a2⟩ := hzx 0 j j
      obtain ⟨b, b1, b2⟩ := hxr r.b0 0 le_rfl (by rw [r0]; linarith) (by omega) j j
      rw [s1, y2] at k2
      rw [a1] at y1
      rw [r0, a2, pow_zero, one_smul] at b1
      rw [b2, ← Except.ok.inj b1, Except.ok.inj y1, Except.ok.inj k2]
    · intro h1 h2
      have k3 := k3 (by omega) h2
      obtain ⟨y, y1, y2⟩ := hB (c.b1 + l) 2 (by linarith) le_rfl (by omega) j j
      obtain ⟨a, a1, a2⟩ := hzx 2 j j
      obtain ⟨b, b1, b2⟩ := hxr r.b0 2 le_rfl (by rw [r0]; linarith) (by omega) j j
      rw [s1, y2] at k3
      rw [a1] at y1
      rw [r0, a2] at b1
      rw [b2, ← Except.ok.inj b1, Except.ok.inj y1, Except.ok.inj k3, smul_zero]

/-- C82: a rational curve extended by a length at its end goes on to the point at this length on its end tangent. Partial: that it goes on at the
speed of the curve is missing, and false. -/
theorem C82_extended_end_rational_partial {eps : K} (heps : 0 < eps) (junk : K) {c : Curve K (V × K)} {ks : List K} {ms : List ℕ}
    (hc : c.ClampedBy eps ks ms) (hd : c.deg ≤ 12) (hw : (pf c.poles (c.poles.length - 1)).2 ≠ 0) (natural relative : Bool) (mc : Option ℕ) {nrm : V → K}
    (hh : ∀ (a : K) v, nrm (a • v) = |a| * nrm v) {dense : ℕ → (ℕ → ℕ → K) → List V → R (List V)} (hS : Spec.SolvesDense dense) (len l : K)
    {t e : V} (ht : c.ratValue eps junk c.b1 1 = .ok t) (he : c.ratValue eps junk c.b1 0 = .ok e) (hn : 0 < nrm t) {l' : K}
    (hl : l' = if relative = true then l * len else l) (hgap : eps * c.deg < l' * (l' / nrm t)) :
    ∃ r, c.extendedRat eps junk dense nrm len l true relative natural mc = .ok r ∧ r.deg = c.deg ∧ r.Good ∧ r.b0 = c.b0 ∧
      r.b1 = c.b1 + l' * (l' / nrm t) ∧ (∀ u d, c.b0 ≤ u → u < c.b1 → ∀ junk junk', r.ratValue eps junk' u d = c.ratValue eps junk u d) ∧
      ∀ junk', r.ratValue eps junk' r.b1 0 = .ok (e + (l' / nrm t) • t) := by
  have hdist : nrm (e - (e + (l' / nrm t) • t)) = |l'| := by
    rw [show e - (e + (l' / nrm t) • t) = (-(l' / nrm t)) • t by rw [neg_smul]; abel, hh, abs_neg, abs_div, abs_of_pos hn, div_mul_cancel₀ _ hn.ne']
  have hsq : |l'| * (|l'| / nrm t) = l' * (l' / nrm t) := by
    rw [← mul_div_assoc, ← mul_div_assoc, abs_mul_abs_self]
  obtain ⟨r, x, er, dr, gr, -, r0, r1, -, -, -, -, -, hA, -, hE⟩ := C82_extended_at_end_rational heps junk hc hd hw natural mc (e + (l' / nrm t) • t)
    (nrm := nrm) hS ht he hn.ne' (by rw [hdist, hsq]; exact hgap)
  refine ⟨r, ?_, dr, gr, r0, by rw [r1, hdist, hsq], hA, fun j => (hE j).2.1⟩
  unfold Curve.extendedRat
  simp only [if_true]
  rw [ht, R_bind_ok]
  unfold vdiv
  rw [if_neg hn.ne', R_bind_ok, he, R_bind_ok, ← hl, smul_smul, ← div_eq_mul_inv]
  unfold Curve.extendedToPointRat
  rw [if_pos rfl, er]

/-- C82: the same at the start of the rational curve. -/
theorem C82_extended_start_rational_partial {eps : K} (heps : 0 < eps) (junk : K) {c : Curve K (V × K)} {ks : List K} {ms : List ℕ}
    (hc : c.ClampedBy eps ks ms) (hd : c.deg ≤ 12) (hw : (pf c.poles 0).2 ≠ 0) (natural relative : Bool) (mc : Option ℕ) {nrm : V → K}
    (hh : ∀ (a : K) v, nrm (a • v) = |a| * nrm v) {dense : ℕ → (ℕ → ℕ → K) → List V → R (List V)} (hS : Spec.SolvesDense dense) (len l : K)
    {t e : V} (ht : c.ratValue eps junk c.b0 1 = .ok t) (he : c.ratValue eps junk c.b0 0 = .ok e) (hn : 0 < nrm t) {l' : K}
    (hl : l' = if relative = true then l * len else l) (hgap : eps * c.deg < l' * (l' / nrm t)) :
    ∃ r, c.extendedRat eps junk dense nrm len l false relative natural mc = .ok r ∧ r.deg = c.deg ∧ r.Good ∧ r.b1 = c.b1 ∧
      r.b0 = c.b0 - l' * (l' / nrm t) ∧ (∀ u d, c.b0 ≤ u → u ≤ c.b1 → ∀ junk junk', r.ratValue eps junk' u d = c.ratValue eps junk u d) ∧
      ∀ junk', r.ratValue eps junk' r.b0 0 = .ok (e - (l' / nrm t) • t) := by
  have hneg : ∀ v, nrm (-v) = nrm v := fun v => by rw [← neg_one_smul K v, hh]; simp
  have hdist : nrm (e - (e - (l' / nrm t) • t)) = |l'| := by
    rw [show e - (e - (l' / nrm t) • t) = (l' / nrm t) • t by abel, hh, abs_div, abs_of_pos hn, div_mul_cancel₀ _ hn.ne']
  have hsq : |l'| * (|l'| / nrm t) = l' * (l' / nrm t) := by
    rw [← mul_div_assoc, ← mul_div_assoc, abs_mul_abs_self]
  obtain ⟨r, x, er, dr, gr, -, r1, r0, -, -, -, -, -, hA, -, hE⟩ := C82_extended_at_start_rational heps junk hc hd hw natural mc (e - (l' / nrm t) • t)
    (nrm := nrm) hneg hS ht he hn.ne' (by rw [hdist, hsq]; exact hgap)
  refine ⟨r, ?_, dr, gr, r1, by rw [r0, hdist, hsq], hA, fun j => (hE j).2.1⟩
  unfold Curve.extendedRat
  simp only [Bool.false_eq_true, if_false]
  rw [ht, R_bind_ok]
  unfold vdiv
  rw [hneg, if_neg hn.ne', R_bind_ok, he, R_bind_ok, ← hl, smul_neg, smul_neg, smul_smul, ← div_eq_mul_inv, ← sub_eq_add_neg, er]

namespace Sample

/-- The hypotheses of `C82_extended_at_start_rational` and of the two extensions by a length are met by a rational line with weights 2 and 3. -/
example : ∃ dense : ℕ → (ℕ → ℕ → ℚ) → List (ℚ × ℚ) → R (List (ℚ × ℚ)), ∃ r a b, jr.extendedToPointRat (1/10) 7 dense n1 (12, 0) false false none = .ok r ∧
    r.ratValue (1/10) 7 r.b0 0 = .ok (12, 0) ∧ r.b1 = 3 ∧ jr.extendedRat (1/10) 7 dense n1 5 3 true false false none = .ok a ∧
    jr.extendedRat (1/10) 7 dense n1 5 (3/5) false true false none = .ok b ∧ b.b1 = 3 := by
  obtain ⟨dense, hS⟩ := exists_solvesDense (K := ℚ) (V := ℚ × ℚ)
  have h0 : jr.ratValue (1/10) 7 jr.b0 0 = .ok (6, 0) := by decide +kernel
  have h1 : jr.ratValue (1/10) 7 jr.b0 1 = .ok (9/4, -3) := by decide +kernel
  obtain ⟨r, x, er, -, -, -, r1, -, -, -, -, -, -, -, -, hr⟩ := C82_extended_at_start_rational (eps := (1/10 : ℚ)) (by norm_num) 7 jr_clampedBy (by decide)
    (by decide +kernel) false none (12, 0) (nrm := n1) (fun v => by simp [n1]) hS h1 h0 (by decide +kernel) (by decide +kernel)
  obtain ⟨a, ea, -⟩ := C82_extended_end_rational_partial (eps := (1/10 : ℚ)) (by norm_num) 7 jr_clampedBy (by decide)
    (by decide +kernel) false false none (nrm := n1) n1_smul hS 5 3 (t := (1, -4/3)) (e := (9, -4)) (by decide +kernel) (by decide +kernel)
    (by decide +kernel) (l' := 3) (by simp) (by decide +kernel)
  obtain ⟨b, eb, -, -, b1, -⟩ := C82_extended_start_rational_partial (eps := (1/10 : ℚ)) (by norm_num) 7 jr_clampedBy (by decide)
    (by decide +kernel) false true none (nrm := n1) n1_smul hS 5 (3/5) h1 h0 (by decide +kernel) (l' := 3) (by decide +kernel) (by decide +kernel)
  exact ⟨dense, r, a, b, er, (hr 7).2.1, r1.trans (by decide +kernel), ea, eb, b1.trans (by decide +kernel)⟩

end Sample

end Gbs
