import Verif.Lemmas.Join
import Verif.Props.Unify
import Verif.Props.Trim
import Verif.Props.DerivCurve
import Verif.Lemmas.SurfaceOps

/-! # C81: the junction of two curves -/

namespace Gbs

set_option linter.unusedSectionVars false

variable {K : Type} [Field K] [LinearOrder K] [IsStrictOrderedRing K]
variable {V : Type} [AddCommGroup V] [Module K V]

theorem Curve.ClampedBy.clamped {eps : K} (heps : 0 ≤ eps) {c : Curve K V} {ks : List K} {ms : List ℕ} (h : c.ClampedBy eps ks ms) : c.Clamped := by
  obtain ⟨h0, h1, h2, h3, -⟩ := h.ends heps
  exact ⟨by rw [h0, h2], by rw [h1, h3]⟩

theorem Curve.ClampedBy.copied {eps : K} (heps : 0 ≤ eps) {c : Curve K V} {ks : List K} {ms : List ℕ} (h : c.ClampedBy eps ks ms) :
    c.copied eps = .ok c := by
  unfold Curve.copied
  rw [mk?_sorted eps c.poles h.good.wf.sorted c.deg h.good.wf.len h.good.wf.min, (h.clamped heps).lo, (h.clamped heps).hi]

/-- The ends of a clamped curve are its end poles. -/
theorem Curve.clamped_ends {eps : K} (heps : 0 < eps) {c : Curve K V} (h : c.Good) (hcl : c.Clamped) (hb : c.deg ≤ stackMaxDegree) (junk : K) :
    c.value eps junk c.b0 0 = .ok (pf c.poles 0) ∧ c.value eps junk c.b1 0 = .ok (pf c.poles (c.poles.length - 1)) := by
  have hm := kf_mono h.wf.sorted
  obtain ⟨h0, h1⟩ := C06_clamped_ends heps h (Or.inl hb) junk
  refine ⟨h0 ?_, h1 ?_⟩
  · intro j _ hj
    exact le_antisymm (by rw [h.lo]; exact hm hj) (by rw [← hcl.lo]; exact hm (Nat.zero_le j))
  · intro j hj hj'
    have hl := h.wf.len
    exact le_antisymm (by rw [← hcl.hi]; exact hm (by omega)) (by rw [h.hi]; exact hm hj)

/-- Both curves brought to the greatest degree. -/
theorem unifyTwo_spec {eps : K} (heps : 0 < eps) {c1 c2 : Curve K V} {ks1 ks2 : List K} {ms1 ms2 : List ℕ} (h1 : c1.ClampedBy eps ks1 ms1)
    (h2 : c2.ClampedBy eps ks2 ms2) (hd1 : c1.deg ≤ 12) (hd2 : c2.deg ≤ 12) :
    ∃ a b, unifyTwo eps c1 c2 = .ok (a, b) ∧ a.deg = max c1.deg c2.deg ∧ b.deg = max c1.deg c2.deg ∧
      a.b0 = c1.b0 ∧ a.b1 = c1.b1 ∧ b.b0 = c2.b0 ∧ b.b1 = c2.b1 ∧
      (∃ ms, a.ClampedBy eps ks1 ms) ∧ (∃ ms, b.ClampedBy eps ks2 ms) ∧
      (∀ v, c1.b0 ≤ v → v ≤ c1.b1 → ∀ junk junk' d, ∃ pt, c1.value eps junk v d = .ok pt ∧ a.value eps junk' v d = .ok pt) ∧
      (∀ v, c2.b0 ≤ v → v ≤ c2.b1 → ∀ junk junk' d, ∃ pt, c2.value eps junk v d = .ok pt ∧ b.value eps junk' v d = .ok pt) := by
  obtain ⟨a, ea, a1, a2, a3, a4, a5⟩ := C58_increaseDegree heps h1 (step := max c1.deg c2.deg - c1.deg) (by omega)
  obtain ⟨b, eb, b1, b2, b3, b4, b5⟩ := C58_increaseDegree heps h2 (step := max c1.deg c2.deg - c2.deg) (by omega)
  refine ⟨a, b, ?_, by omega, by omega, a2, a3, b2, b3, ⟨_, a4⟩, ⟨_, b4⟩, a5, b5⟩
  unfold unifyTwo
  simp only
  rw [ea, R_bind_ok, eb, R_bind_ok]
  rfl

/-- Two curves of the same degree with the joined knots, and poles which are those of `Q1` and then those of `Q2`. -/
theorem join_same {eps : K} (heps : 0 < eps) {a b : Curve K V} (ha : a.Good) (hb : b.Good) (hca : a.Clamped) (hcb : b.Clamped) (hab : a.deg = b.deg)
    (hp : 1 ≤ a.deg) (hs : a.deg ≤ stackMaxDegree) {P Q1 Q2 : List V} (hQ1 : Q1.length = a.poles.length) (hQ2 : Q2.length = b.poles.length)
    (hl : P.length + 1 = Q1.length + Q2.length)
    (hP1 : ∀ i, i < Q1.length → pf P i = pf Q1 i) (hP2 : ∀ i, i < Q2.length → pf P (i + (Q1.length - 1)) = pf Q2 i) :
    ∃ U c, joinKnots a.knots b.knots b.deg = .ok U ∧ Curve.mk? eps P U a.deg = .ok c ∧ c.deg = a.deg ∧ c.poles = P ∧ c.Good ∧ c.Clamped ∧
      c.b0 = a.b0 ∧ c.b1 = a.b1 + (b.b1 - b.b0) ∧
      (∀ u, a.b0 ≤ u → u < a.b1 → ∀ junk junk' d, ∃ pt, ({ a with poles := Q1 } : Curve K V).value eps junk u d = .ok pt ∧
        c.value eps junk' u d = .ok pt) ∧
      (∀ v, b.b0 ≤ v → v ≤ b.b1 → ∀ junk junk' d, ∃ pt, ({ b with poles := Q2 } : Curve K V).value eps junk v d = .ok pt ∧
        c.value eps junk' (a.b1 + (v - b.b0)) d = .ok pt) := by
  have h1 : Wf a.deg a.knots Q1 := ha.wf.kwf.wf hQ1
  have h2 : Wf a.deg b.knots Q2 := by rw [hab]; exact hb.wf.kwf.wf hQ2
  have hga : ({ a with poles := Q1 } : Curve K V).Good := ⟨h1, ha.lo, by show a.b1 = kf a.knots Q1.length; rw [hQ1]; exact ha.hi⟩
  have hgb : ({ b with poles := Q2 } : Curve K V).Good := ⟨by rw [hab] at h2; exact h2, hb.lo, by show b.b1 = kf b.knots Q2.length; rw [hQ2]; exact hb.hi⟩
  have hlt1 := ha.lt
  have hlt2 := hb.lt
  obtain ⟨hw, f0, fp, fn, fl, hA, hB⟩ := join_core (P := P) h1 h2 hp (by rw [hQ1, ← ha.hi, hca.hi]) (by rw [hcb.lo, hab, hb.lo]) hl hP1 hP2
  have hsft : kLast a.knots - kf b.knots 0 = a.b1 - b.b0 := by rw [hca.hi, hcb.lo]
  have hU := mk?_sorted eps P hw.sorted a.deg hw.len hw.min
  have e0 : kf (joinedKnots a.knots b.knots a.deg) 0 = a.b0 := by rw [f0, hca.lo]
  have e1 : kLast (joinedKnots a.knots b.knots a.deg) = a.b1 + (b.b1 - b.b0) := by rw [fl, hsft, hcb.hi]; ring
  rw [e0, e1] at hU
  have hg : (⟨a.deg, P, joinedKnots a.knots b.knots a.deg, a.b0, a.b1 + (b.b1 - b.b0)⟩ : Curve K V).Good := by
    refine ⟨hw, ?_, ?_⟩
    · show a.b0 = kf (joinedKnots a.knots b.knots a.deg) a.deg
      rw [fp, ha.lo]
    · show a.b1 + (b.b1 - b.b0) = kf (joinedKnots a.knots b.knots a.deg) P.length
      rw [fn, hsft, hQ2, ← hb.hi]; ring
  refine ⟨_, _, by rw [← hab]; exact joinKnots_ok ha.wf.ne (by have := h2.len; omega), hU, rfl, rfl, hg, ⟨e0, e1⟩, rfl, rfl, ?_, ?_⟩
  · intro u hu1 hu2 junk junk' d
    obtain ⟨i, i', g1, g2, g3⟩ := hA u (by rw [← ha.lo]; exact hu1) (by rw [hQ1, ← ha.hi]; exact hu2)
    obtain ⟨j, j1, -, -, -, j2⟩ := Curve.value_span heps hga (Or.inl hs) (u := u) hu1 hu2.le
    obtain ⟨k, k1, -, -, -, k2⟩ := Curve.value_span heps hg (Or.inl hs) (u := u) hu1 (by show u ≤ a.b1 + (b.b1 - b.b0); linarith)
    obtain rfl : j = i' := by rw [show findSpan Q1.length a.deg u a.knots = .ok j from j1] at g2; exact Except.ok.inj g2
    obtain rfl : k = i := by
      rw [show findSpan P.length a.deg u (joinedKnots a.knots b.knots a.deg) = .ok k from k1] at g1; exact Except.ok.inj g1
    exact ⟨_, j2 junk d, by rw [k2 junk' d]; exact congrArg Except.ok (g3 d)⟩
  · intro v hv1 hv2 junk junk' d
    obtain ⟨i, i', g1, g2, g3⟩ := hB v (by rw [hab, ← hb.lo]; exact hv1) (by rw [hQ2, ← hb.hi]; exact hv2)
    rw [hsft, show v + (a.b1 - b.b0) = a.b1 + (v - b.b0) by ring] at g1 g3
    obtain ⟨j, j1, -, -, -, j2⟩ := Curve.value_span heps hgb (Or.inl (by rw [hab] at hs; exact hs)) (u := v) hv1 hv2
    obtain ⟨k, k1, -, -, -, k2⟩ := Curve.value_span heps hg (Or.inl hs) (u := a.b1 + (v - b.b0)) (by show a.b0 ≤ _; linarith)
      (by show _ ≤ a.b1 + (b.b1 - b.b0); linarith)
    obtain rfl : j = i' := by
      rw [hab, show findSpan Q2.length b.deg v b.knots = .ok j from j1] at g2; exact Except.ok.inj g2
    obtain rfl : k = i := by
      rw [show findSpan P.length a.deg _ (joinedKnots a.knots b.knots a.deg) = .ok k from k1] at g1; exact Except.ok.inj g1
    refine ⟨_, j2 junk d, ?_⟩
    rw [k2 junk' d]
    have := g3 d
    rw [hab] at this ⊢
    exact congrArg Except.ok this

theorem pf_set (P : List V) {l : ℕ} (h : l < P.length) (x : V) (i : ℕ) : pf (P.set l x) i = if i = l then x else pf P i := by
  unfold pf
  rw [List.getD_eq_getElem?_getD, List.getD_eq_getElem?_getD, List.getElem?_set]
  by_cases hi : i = l
  · subst hi; simp [h]
  · rw [if_neg (fun e => hi e.symm), if_neg hi]

/-- Poles of which the last of the first list and the first of the second list are replaced by one pole `m`. -/
theorem joined_poles {P1 P2 : List V} (h1 : P1 ≠ []) (h2 : P2 ≠ []) (m : V) :
    (P1.set (P1.length - 1) m ++ P2.drop 1).length + 1 = (P1.set (P1.length - 1) m).length + (P2.set 0 m).length ∧
    (∀ i, i < (P1.set (P1.length - 1) m).length → pf (P1.set (P1.length - 1) m ++ P2.drop 1) i = pf (P1.set (P1.length - 1) m) i) ∧
    (∀ i, i < (P2.set 0 m).length → pf (P1.set (P1.length - 1) m ++ P2.drop 1) (i + ((P1.set (P1.length - 1) m).length - 1)) = pf (P2.set 0 m) i) := by
  have l1 := List.length_pos_iff.mpr h1
  have l2 := List.length_pos_iff.mpr h2
  refine ⟨by simp; omega, fun i hi => pf_append_left hi, ?_⟩
  intro i hi
  rw [List.length_set] at hi ⊢
  rcases Nat.eq_zero_or_pos i with rfl | hi0
  · rw [pf_append_left (by simp; omega), pf_set _ (by omega), if_pos (by omega), pf_set _ l2, if_pos rfl]
  · rw [pf_append_right (by simp; omega), pf_drop, pf_set _ l2, if_neg (by omega), List.length_set]
    congr 1
    omega

/-- A curve whose last pole is replaced is unchanged before the last interior knot. -/
theorem Curve.set_last {eps : K} (heps : 0 < eps) {c : Curve K V} (h : c.Good) (hcl : c.Clamped) (hs : c.deg ≤ stackMaxDegree) (m : V) {u k : K}
    (h1 : c.b0 ≤ u) (hk : k ∈ c.knots) (h2 : u < k) (h3 : k < c.b1) (junk junk' : K) (d : ℕ) :
    ({ c with poles := c.poles.set (c.poles.length - 1) m } : Curve K V).value eps junk' u d = c.value eps junk u d := by
  have hm := kf_mono h.wf.sorted
  have hmin := h.wf.min
  have hg : ({ c with poles := c.poles.set (c.poles.length - 1) m } : Curve K V).Good :=
    ⟨h.wf.kwf.wf (by simp), h.lo, by show c.b1 = kf c.knots (c.poles.set _ m).length; rw [List.length_set]; exact h.hi⟩
  obtain ⟨i, e, hin, a1, a2, hv⟩ := Curve.value_span heps h (Or.inl hs) h1 (show u ≤ c.b1 by linarith)
  obtain ⟨i', e', -, -, -, hv'⟩ := Curve.value_span heps hg (Or.inl hs) (u := u) h1 (show u ≤ c.b1 by linarith)
  simp only [List.length_set] at e' hv'
  obtain rfl : i' = i := by rw [e] at e'; exact (Except.ok.inj e').symm
  rw [hv junk d, hv' junk' d]
  congr 1
  obtain ⟨q, hq, rfl⟩ := List.getElem_of_mem hk
  rw [← kf_of_lt hq] at h2 h3
  have hq' : q ≤ c.poles.length - 1 := by
    by_contra hc
    have := hm (show c.poles.length ≤ q by omega)
    rw [← h.hi] at this
    linarith
  have hi : i' < c.poles.length - 1 := by
    by_contra hc
    obtain rfl : i' = c.poles.length - 1 := by omega
    have h4 := (InSpan_bounds hin).1
    have := hm hq'
    linarith
  rw [spanDer_window _ a1 a2, spanDer_window _ a1 a2]
  apply Finset.sum_congr rfl
  intro j hj
  rw [pf_set _ (by omega), if_neg]
  simp only [Finset.mem_range] at hj
  omega

/-- A curve whose first pole is replaced is unchanged from its first interior knot on. -/
theorem Curve.set_first {eps : K} (heps : 0 < eps) {c : Curve K V} (h : c.Good) (hcl : c.Clamped) (hs : c.deg ≤ stackMaxDegree) (m : V) {u k : K}
    (h1 : u ≤ c.b1) (hk : k ∈ c.knots) (h2 : k ≤ u) (h3 : c.b0 < k) (h4 : k < c.b1) (junk junk' : K) (d : ℕ) :
    ({ c with poles := c.poles.set 0 m } : Curve K V).value eps junk' u d = c.value eps junk u d := by
  have hm := kf_mono h.wf.sorted
  have hmin := h.wf.min
  have hg : ({ c with poles := c.poles.set 0 m } : Curve K V).Good :=
    ⟨h.wf.kwf.wf (by simp), h.lo, by show c.b1 = kf c.knots (c.poles.set _ m).length; rw [List.length_set]; exact h.hi⟩
  obtain ⟨i, e, hin, a1, a2, hv⟩ := Curve.value_span heps h (Or.inl hs) (show c.b0 ≤ u by linarith) h1
  obtain ⟨i', e', -, -, -, hv'⟩ := Curve.value_span heps hg (Or.inl hs) (u := u) (show c.b0 ≤ u by linarith) h1
  simp only [List.length_set] at e' hv'
  obtain rfl : i' = i := by rw [e] at e'; exact (Except.ok.inj e').symm
  rw [hv junk d, hv' junk' d]
  congr 1
  obtain ⟨q, hq, rfl⟩ := List.getElem_of_mem hk
  rw [← kf_of_lt hq] at h2 h3 h4
  have hq' : c.deg + 1 ≤ q := by
    by_contra hc
    have := hm (show q ≤ c.deg by omega)
    rw [← h.lo] at this
    linarith
  have hi : c.deg < i' := by
    by_contra hc
    obtain rfl : i' = c.deg := by omega
    have h5 := hm hq'
    unfold Spec.InSpan at hin
    split at hin
    · rename_i hu
      have h6 := hin.2
      rw [← h.hi] at h6
      linarith
    · linarith [hin.2]
  rw [spanDer_window _ a1 a2, spanDer_window _ a1 a2]
  apply Finset.sum_congr rfl
  intro j hj
  rw [pf_set _ (by omega), if_neg (by omega)]

/-- What `join` gives for two clamped curves whose ends are `x` and `y`. -/
theorem joinCurves_spec {eps : K} (heps : 0 < eps) {c1 c2 : Curve K V} {ks1 ks2 : List K} {ms1 ms2 : List ℕ} (h1 : c1.ClampedBy eps ks1 ms1)
    (h2 : c2.ClampedBy eps ks2 ms2) (hd1 : c1.deg ≤ 12) (hd2 : c2.deg ≤ 12) :
    ∃ a b c, unifyTwo eps c1 c2 = .ok (a, b) ∧ joinCurves eps c1 c2 = .ok c ∧ c.deg = max c1.deg c2.deg ∧ c.Good ∧ c.Clamped ∧ c.b0 = c1.b0 ∧
      c.b1 = c1.b1 + (c2.b1 - c2.b0) ∧
      (∀ u, c1.b0 ≤ u → u < c1.b1 → ∀ junk junk' d, ∃ pt,
        ({ a with poles := a.poles.set (a.poles.length - 1) ((2 : K)⁻¹ • (pf a.poles (a.poles.length - 1) + pf b.poles 0)) } : Curve K V).value
          eps junk u d = .ok pt ∧ c.value eps junk' u d = .ok pt) ∧
      (∀ v, c2.b0 ≤ v → v ≤ c2.b1 → ∀ junk junk' d, ∃ pt,
        ({ b with poles := b.poles.set 0 ((2 : K)⁻¹ • (pf a.poles (a.poles.length - 1) + pf b.poles 0)) } : Curve K V).value eps junk v d = .ok pt ∧
        c.value eps junk' (c1.b1 + (v - c2.b0)) d = .ok pt) := by
  obtain ⟨a, b, e, da, db, a0, a1, b0, b1, ⟨msa, ca⟩, ⟨msb, cb⟩, -, -⟩ := unifyTwo_spec heps h1 h2 hd1 hd2
  have hpa := h1.deg
  have hna : a.poles ≠ [] := by intro h0; have := ca.good.wf.min; rw [h0] at this; simp at this
  have hnb : b.poles ≠ [] := by intro h0; have := cb.good.wf.min; rw [h0] at this; simp at this
  have la := List.length_pos_iff.mpr hna
  have lb := List.length_pos_iff.mpr hnb
  set m := (2 : K)⁻¹ • (pf a.poles (a.poles.length - 1) + pf b.poles 0) with hm
  obtain ⟨l1, l2, l3⟩ := joined_poles hna hnb m
  obtain ⟨U, c, eU, ec, f1, -, f3, f4, f5, f6, f7, f8⟩ := join_same heps ca.good cb.good (ca.clamped heps.le) (cb.clamped heps.le) (da.trans db.symm)
    ca.deg (by rw [da]; have : (12 : ℕ) ≤ stackMaxDegree := by decide
               omega) (by simp) (by simp) l1 l2 l3
  refine ⟨a, b, c, e, ?_, f1.trans da, f3, f4, f5.trans a0, by rw [f6, a1, b0, b1], ?_, ?_⟩
  rotate_left
  · intro u hu1 hu2
    exact f7 u (by rw [a0]; exact hu1) (by rw [a1]; exact hu2)
  · intro v hv1 hv2
    have := f8 v (by rw [b0]; exact hv1) (by rw [b1]; exact hv2)
    rw [a1] at this
    rw [← b0]
    exact this
  unfold joinCurves
  rw [h1.copied heps.le, R_bind_ok, h2.copied heps.le, R_bind_ok, e, R_bind_ok]
  have hj : joinPoles (K := K) a.poles b.poles = .ok (a.poles.set (a.poles.length - 1) m ++ b.poles.drop 1) := by
    unfold joinPoles
    rw [usub_ok (by omega), R_bind_ok, rd_pf (by omega), R_bind_ok, rd_pf (by omega), R_bind_ok, wr_ok (by omega), R_bind_ok]
    rfl
  simp only
  rw [hj, R_bind_ok, eU, R_bind_ok, ec]

theorem half_add_self (x : V) : (2 : K)⁻¹ • (x + x) = x := by
  rw [← two_smul K x, smul_smul, inv_mul_cancel₀ two_ne_zero, one_smul]

/-- C81: the junction of two clamped curves of which the second starts where the first ends is one curve which is the first one up to its end, and
then the second one with its parameter shifted, derivatives included. -/
theorem C81_join_preserves {eps : K} (heps : 0 < eps) {c1 c2 : Curve K V} {ks1 ks2 : List K} {ms1 ms2 : List ℕ} (h1 : c1.ClampedBy eps ks1 ms1)
    (h2 : c2.ClampedBy eps ks2 ms2) (hd1 : c1.deg ≤ 12) (hd2 : c2.deg ≤ 12) {x : V} {j0 : K} (hx : c1.value eps j0 c1.b1 0 = .ok x)
    (hy : c2.value eps j0 c2.b0 0 = .ok x) :
    ∃ c, joinCurves eps c1 c2 = .ok c ∧ c.deg = max c1.deg c2.deg ∧ c.Good ∧ c.Clamped ∧ c.b0 = c1.b0 ∧ c.b1 = c1.b1 + (c2.b1 - c2.b0) ∧
      (∀ u d, c1.b0 ≤ u → u < c1.b1 ∨ u = c1.b1 ∧ d = 0 → ∀ junk junk', ∃ pt, c1.value eps junk u d = .ok pt ∧ c.value eps junk' u d = .ok pt) ∧
      (∀ v d, c2.b0 ≤ v → v ≤ c2.b1 → ∀ junk junk', ∃ pt, c2.value eps junk v d = .ok pt ∧ c.value eps junk' (c1.b1 + (v - c2.b0)) d = .ok pt) := by
  obtain ⟨a, b, c, e, ec, dc, gc, cc, c0, c1', hA, hB⟩ := joinCurves_spec heps h1 h2 hd1 hd2
  obtain ⟨a', b', e', da, db, a0, a1, b0, b1, ⟨msa, ca⟩, ⟨msb, cb⟩, va, vb⟩ := unifyTwo_spec heps h1 h2 hd1 hd2
  obtain ⟨rfl, rfl⟩ : a' = a ∧ b' = b := by rw [e] at e'; exact ⟨(Prod.mk.inj (Except.ok.inj e')).1.symm, (Prod.mk.inj (Except.ok.inj e')).2.symm⟩
  have h12 : (12 : ℕ) ≤ stackMaxDegree := by decide
  have hlt1 := h1.good.lt
  have hlt2 := h2.good.lt
  have na := ca.good.wf.min
  have nb := cb.good.wf.min
  have hx' : pf a'.poles (a'.poles.length - 1) = x := by
    obtain ⟨pt, q1, q2⟩ := va c1.b1 hlt1.le le_rfl j0 j0 0
    rw [hx] at q1
    rw [← a1, (Curve.clamped_ends heps ca.good (ca.clamped heps.le) (by omega) j0).2] at q2
    rw [Except.ok.inj q2, Except.ok.inj q1]
  have hy' : pf b'.poles 0 = x := by
    obtain ⟨pt, q1, q2⟩ := vb c2.b0 le_rfl hlt2.le j0 j0 0
    rw [hy] at q1
    rw [← b0, (Curve.clamped_ends heps cb.good (cb.clamped heps.le) (by omega) j0).1] at q2
    rw [Except.ok.inj q2, Except.ok.inj q1]
  rw [hx', hy', half_add_self] at hA hB
  have sa : a'.poles.set (a'.poles.length - 1) x = a'.poles := by
    apply pf_ext (by simp)
    intro i hi
    rw [pf_set _ (by omega)]
    split
    · rename_i h; rw [h, hx']
    · rfl
  have sb : b'.poles.set 0 x = b'.poles := by
    apply pf_ext (by simp)
    intro i hi
    rw [pf_set _ (by omega)]
    split
    · rename_i h; rw [h, hy']
    · rfl
  rw [sa] at hA
  rw [sb] at hB
  refine ⟨c, ec, dc, gc, cc, c0, c1', ?_, ?_⟩
  · rintro u d hu1 (hu2 | ⟨rfl, rfl⟩) junk junk'
    · obtain ⟨pt, q1, q2⟩ := va u hu1 hu2.le junk junk d
      obtain ⟨pt', q3, q4⟩ := hA u hu1 hu2 junk junk' d
      refine ⟨pt, q1, ?_⟩
      rw [q4, ← q3]
      exact q2
    · obtain ⟨pt, q1, q2⟩ := va c1.b1 hlt1.le le_rfl j0 junk 0
      obtain ⟨pt1, q5, q6⟩ := va c1.b1 hlt1.le le_rfl junk junk 0
      obtain ⟨pt', q3, q4⟩ := hB c2.b0 le_rfl hlt2.le j0 junk' 0
      obtain ⟨pt'', q7, q8⟩ := vb c2.b0 le_rfl hlt2.le j0 j0 0
      rw [sub_self, add_zero] at q4
      refine ⟨x, ?_, ?_⟩
      · rw [q5, ← q6, q2, ← q1, hx]
      · rw [q4, ← q3, ← hy, q7, ← q8]
  · intro v d hv1 hv2 junk junk'
    obtain ⟨pt, q1, q2⟩ := vb v hv1 hv2 junk junk d
    obtain ⟨pt', q3, q4⟩ := hB v hv1 hv2 junk junk' d
    refine ⟨pt, q1, ?_⟩
    rw [q4, ← q3]
    exact q2

/-- C81 when the second curve starts elsewhere: the junction goes through the middle of both ends; the curves are kept before the last interior
knot of the first one and from the first interior knot of the second one on. -/
theorem C81_join_gap {eps : K} (heps : 0 < eps) {c1 c2 : Curve K V} {ks1 ks2 : List K} {ms1 ms2 : List ℕ} (h1 : c1.ClampedBy eps ks1 ms1)
    (h2 : c2.ClampedBy eps ks2 ms2) (hd1 : c1.deg ≤ 12) (hd2 : c2.deg ≤ 12) {x y : V} {j0 : K} (hx : c1.value eps j0 c1.b1 0 = .ok x)
    (hy : c2.value eps j0 c2.b0 0 = .ok y) :
    ∃ c, joinCurves eps c1 c2 = .ok c ∧ c.deg = max c1.deg c2.deg ∧ c.Good ∧ c.Clamped ∧ c.b0 = c1.b0 ∧ c.b1 = c1.b1 + (c2.b1 - c2.b0) ∧
      (∀ junk, c.value eps junk c1.b1 0 = .ok ((2 : K)⁻¹ • (x + y))) ∧
      (∀ u k d, c1.b0 ≤ u → u < k → k ∈ c1.knots → k < c1.b1 → ∀ junk junk', ∃ pt, c1.value eps junk u d = .ok pt ∧ c.value eps junk' u d = .ok pt) ∧
      (∀ v k d, k ≤ v → v ≤ c2.b1 → k ∈ c2.knots → c2.b0 < k → k < c2.b1 → ∀ junk junk', ∃ pt, c2.value eps junk v d = .ok pt ∧
        c.value eps junk' (c1.b1 + (v - c2.b0)) d = .ok pt) ∧
      (x ≠ y → ∀ junk pt, c.value eps junk c1.b1 0 = .ok pt → pt ≠ x ∧ pt ≠ y) := by
  obtain ⟨a, b, c, e, ec, dc, gc, cc, c0, c1', hA, hB⟩ := joinCurves_spec heps h1 h2 hd1 hd2
  obtain ⟨a', b', e', da, db, a0, a1, b0, b1, ⟨msa, ca⟩, ⟨msb, cb⟩, va, vb⟩ := unifyTwo_spec heps h1 h2 hd1 hd2
  obtain ⟨rfl, rfl⟩ : a' = a ∧ b' = b := by rw [e] at e'; exact ⟨(Prod.mk.inj (Except.ok.inj e')).1.symm, (Prod.mk.inj (Except.ok.inj e')).2.symm⟩
  have h12 : (12 : ℕ) ≤ stackMaxDegree := by decide
  have hlt1 := h1.good.lt
  have hlt2 := h2.good.lt
  have na := ca.good.wf.min
  have nb := cb.good.wf.min
  have hx' : pf a'.poles (a'.poles.length - 1) = x := by
    obtain ⟨pt, q1, q2⟩ := va c1.b1 hlt1.le le_rfl j0 j0 0
    rw [hx] at q1
    rw [← a1, (Curve.clamped_ends heps ca.good (ca.clamped heps.le) (by omega) j0).2] at q2
    rw [Except.ok.inj q2, Except.ok.inj q1]
  have hy' : pf b'.poles 0 = y := by
    obtain ⟨pt, q1, q2⟩ := vb c2.b0 le_rfl hlt2.le j0 j0 0
    rw [hy] at q1
    rw [← b0, (Curve.clamped_ends heps cb.good (cb.clamped heps.le) (by omega) j0).1] at q2
    rw [Except.ok.inj q2, Except.ok.inj q1]
  rw [hx', hy'] at hA hB
  have hk1 : ∀ k, k ∈ a'.knots ↔ k ∈ c1.knots := fun k => by rw [(ca.ends heps.le).2.2.2.2, (h1.ends heps.le).2.2.2.2]
  have hk2 : ∀ k, k ∈ b'.knots ↔ k ∈ c2.knots := fun k => by rw [(cb.ends heps.le).2.2.2.2, (h2.ends heps.le).2.2.2.2]
  have hmid : ∀ junk, c.value eps junk c1.b1 0 = .ok ((2 : K)⁻¹ • (x + y)) := by
    intro junk
    obtain ⟨pt', q3, q4⟩ := hB c2.b0 le_rfl hlt2.le j0 junk 0
    rw [sub_self, add_zero] at q4
    have hg : ({ b' with poles := b'.poles.set 0 ((2 : K)⁻¹ • (x + y)) } : Curve K V).Good :=
      ⟨cb.good.wf.kwf.wf (by simp), cb.good.lo, by
        show b'.b1 = kf b'.knots (b'.poles.set _ _).length; rw [List.length_set]; exact cb.good.hi⟩
    have hcl : ({ b' with poles := b'.poles.set 0 ((2 : K)⁻¹ • (x + y)) } : Curve K V).Clamped :=
      ⟨(cb.clamped heps.le).lo, (cb.clamped heps.le).hi⟩
    have := (Curve.clamped_ends heps hg hcl (by show b'.deg ≤ _; omega) j0).1
    rw [← b0] at q3
    rw [q4, Except.ok.inj (q3.symm.trans this), pf_set _ (by omega), if_pos rfl]
  refine ⟨c, ec, dc, gc, cc, c0, c1', hmid, ?_, ?_, ?_⟩
  · intro u k d hu1 hu2 hk hk1' junk junk'
    obtain ⟨pt, q1, q2⟩ := va u hu1 (by linarith) junk junk d
    obtain ⟨pt', q3, q4⟩ := hA u hu1 (by linarith) junk junk' d
    rw [Curve.set_last heps ca.good (ca.clamped heps.le) (by omega) _ (by rw [a0]; exact hu1) ((hk1 k).mpr hk) hu2 (by rw [a1]; exact hk1') junk] at q3
    exact ⟨pt, q1, by rw [q4, ← q3, q2]⟩
  · intro v k d hv1 hv2 hk hk0 hk1' junk junk'
    obtain ⟨pt, q1, q2⟩ := vb v (by linarith) hv2 junk junk d
    obtain ⟨pt', q3, q4⟩ := hB v (by linarith) hv2 junk junk' d
    rw [Curve.set_first heps cb.good (cb.clamped heps.le) (by omega) _ (by rw [b1]; exact hv2) ((hk2 k).mpr hk) hv1 (by rw [b0]; exact hk0)
      (by rw [b1]; exact hk1') junk] at q3
    exact ⟨pt, q1, by rw [q4, ← q3, q2]⟩
  · intro hxy junk pt hpt
    rw [hmid junk] at hpt
    rw [← Except.ok.inj hpt]
    constructor
    · intro h
      apply hxy
      have h3 : (2 : K) • ((2 : K)⁻¹ • (x + y)) = (2 : K) • x := by rw [h]
      rw [smul_smul, mul_inv_cancel₀ two_ne_zero, one_smul, two_smul] at h3
      exact (add_left_cancel h3).symm
    · intro h
      apply hxy
      have h3 : (2 : K) • ((2 : K)⁻¹ • (x + y)) = (2 : K) • y := by rw [h]
      rw [smul_smul, mul_inv_cancel₀ two_ne_zero, one_smul, two_smul] at h3
      exact add_right_cancel h3

theorem evalRationalF_congr2 {eps junk junk' u u' : K} {k k' : List K} {P P' : List (V × K)} {p p' : ℕ}
    (h : ∀ d, evalValue eps junk u k P p d = evalValue eps junk' u' k' P' p' d) :
    ∀ f d, evalRationalF eps junk u k P p f d = evalRationalF eps junk' u' k' P' p' f d := by
  intro f
  induction f with
  | zero => intro d; rfl
  | succ f ih =>
    intro d
    unfold evalRationalF
    simp only [h, ih]

/-- Rational curves with the same homogeneous values have the same projected values. -/
theorem Curve.ratValue_congr {eps : K} (heps : 0 < eps) {c c' : Curve K (V × K)} {u u' junk junk' : K} (h1 : c.b0 ≤ u) (h2 : u ≤ c.b1)
    (h1' : c'.b0 ≤ u') (h2' : u' ≤ c'.b1) (h : ∀ d, ∃ pt, c.value eps junk u d = .ok pt ∧ c'.value eps junk' u' d = .ok pt) (d : ℕ) :
    c.ratValue eps junk u d = c'.ratValue eps junk' u' d := by
  rw [Curve.ratValue_inBounds heps h1 h2, Curve.ratValue_inBounds heps h1' h2']
  unfold evalRational
  apply evalRationalF_congr2
  intro i
  obtain ⟨pt, a1, a2⟩ := h i
  rw [Curve.value_inBounds heps h1 h2] at a1
  rw [Curve.value_inBounds heps h1' h2'] at a2
  rw [a1, a2]

/-- The projected ends of a clamped rational curve. -/
theorem Curve.rat_ends {eps : K} (heps : 0 < eps) {c : Curve K (V × K)} (h : c.Good) (hcl : c.Clamped) (hb : c.deg ≤ stackMaxDegree) (junk : K) :
    c.ratValue eps junk c.b0 0 = .ok (weightProjection (pf c.poles 0)) ∧
    c.ratValue eps junk c.b1 0 = .ok (weightProjection (pf c.poles (c.poles.length - 1))) := by
  obtain ⟨h0, h1⟩ := Curve.clamped_ends heps h hcl hb junk
  have hlt := h.lt
  constructor
  · rw [Curve.ratValue_inBounds heps le_rfl hlt.le]
    rw [Curve.value_inBounds heps le_rfl hlt.le] at h0
    unfold evalRational evalRationalF
    simp only [if_true, h0, R_bind_ok]
    rfl
  · rw [Curve.ratValue_inBounds heps hlt.le le_rfl]
    rw [Curve.value_inBounds heps hlt.le le_rfl] at h1
    unfold evalRational evalRationalF
    simp only [if_true, h1, R_bind_ok]
    rfl

theorem pf_scalePoles {M : Type} [AddCommGroup M] [Module K M] (P : List M) (s : K) {i : ℕ} (h : i < P.length) :
    pf (scalePoles P s) i = s • pf P i := by
  unfold scalePoles
  rw [pf_map _ h]

theorem scalePoles_length {M : Type} [AddCommGroup M] [Module K M] (P : List M) (s : K) : (scalePoles P s).length = P.length := by
  unfold scalePoles; simp

/-- The poles of the joined rational curve. -/
theorem joinPolesRat_ok {P1 P2 : List (V × K)} (h1 : P1 ≠ []) (h2 : P2 ≠ []) (w1 : (pf P1 (P1.length - 1)).2 ≠ 0) (w2 : (pf P2 0).2 ≠ 0) :
    joinPolesRat P1 P2 = .ok ((scalePoles P1 (1 / (pf P1 (P1.length - 1)).2)).set ((scalePoles P1 (1 / (pf P1 (P1.length - 1)).2)).length - 1)
      ((2 : K)⁻¹ • (weightProjection (pf P1 (P1.length - 1)) + weightProjection (pf P2 0)), 1) ++
      (scalePoles P2 (1 / (pf P2 0).2)).drop 1) := by
  have l1 := List.length_pos_iff.mpr h1
  have l2 := List.length_pos_iff.mpr h2
  unfold joinPolesRat
  rw [usub_ok (by omega), R_bind_ok, rd_pf (by omega), R_bind_ok, fdiv_ok w1, R_bind_ok]
  rw [rd_pf (by omega), R_bind_ok, fdiv_ok w2, R_bind_ok]
  rw [rd_pf (by rw [scalePoles_length]; omega), R_bind_ok, rd_pf (by rw [scalePoles_length]; omega), R_bind_ok]
  simp only
  rw [wr_ok (by rw [scalePoles_length]; omega), R_bind_ok, pf_scalePoles _ _ (by omega), pf_scalePoles _ _ (by omega), scalePoles_length]
  have e1 : ∀ x : V × K, x.2 ≠ 0 → weightProjection ((1 / x.2) • x) = weightProjection x := by
    intro x hx
    simp [weightProjection, hx]
  rw [e1 _ w1, e1 _ w2]
  have e2 : ((1 / (pf P1 (P1.length - 1)).2) • pf P1 (P1.length - 1)).2 = 1 := by simp [w1]
  rw [e2]
  simp [addWeight]

/-- The values of a curve whose poles are scaled. -/
theorem Curve.scaled_value {eps : K} (heps : 0 < eps) {c : Curve K (V × K)} (h : c.Good) (hb : c.deg ≤ stackMaxDegree) (s : K) :
    ({ c with poles := scalePoles c.poles s } : Curve K (V × K)).Good ∧
      ∀ u d, c.b0 ≤ u → u ≤ c.b1 → ∀ junk junk', ∃ pt, c.value eps junk u d = .ok pt ∧
        ({ c with poles := scalePoles c.poles s } : Curve K (V × K)).value eps junk' u d = .ok (s • pt) := by
  have hl := scalePoles_length c.poles s
  have hg : ({ c with poles := scalePoles c.poles s } : Curve K (V × K)).Good :=
    ⟨h.wf.kwf.wf hl, h.lo, by show c.b1 = kf c.knots (scalePoles c.poles s).length; rw [hl]; exact h.hi⟩
  refine ⟨hg, ?_⟩
  intro u d h1 h2 junk junk'
  obtain ⟨i, e, -, a1, a2, hv⟩ := Curve.value_span heps h (Or.inl hb) h1 h2
  obtain ⟨i', e', -, a1', a2', hv'⟩ := Curve.value_span heps hg (Or.inl hb) (u := u) h1 h2
  obtain rfl : i' = i := by
    have e' : findSpan (scalePoles c.poles s).length c.deg u c.knots = .ok i' := e'
    rw [hl, e] at e'; exact (Except.ok.inj e').symm
  refine ⟨_, hv junk d, ?_⟩
  rw [hv' junk' d]
  congr 1
  show spanDer (kf c.knots) (scalePoles c.poles s).length c.deg i' (pf (scalePoles c.poles s)) d u = _
  rw [hl]
  unfold spanDer
  rw [Finset.smul_sum]
  apply Finset.sum_congr rfl
  intro j hj
  rw [pf_scalePoles _ _ (Finset.mem_range.mp hj), smul_comm]

/-- C81 for rational curves with non-zero weights at the ends that are joined: the projected curve goes through the middle of both ends and, when
they coincide, is the first curve and then the second one, derivatives included. The homogeneous curves are scaled by the inverses of the weights. -/
theorem C81_join_rational_scaled {eps : K} (heps : 0 < eps) {c1 c2 : Curve K (V × K)} {ks1 ks2 : List K} {ms1 ms2 : List ℕ} (h1 : c1.ClampedBy eps ks1 ms1)
    (h2 : c2.ClampedBy eps ks2 ms2) (hd1 : c1.deg ≤ 12) (hd2 : c2.deg ≤ 12) (w1 : (pf c1.poles (c1.poles.length - 1)).2 ≠ 0)
    (w2 : (pf c2.poles 0).2 ≠ 0) {x y : V} {j0 : K} (hx : c1.ratValue eps j0 c1.b1 0 = .ok x) (hy : c2.ratValue eps j0 c2.b0 0 = .ok y) :
    ∃ c, joinCurvesRat eps c1 c2 = .ok c ∧ c.deg = max c1.deg c2.deg ∧ c.Good ∧ c.Clamped ∧ c.b0 = c1.b0 ∧ c.b1 = c1.b1 + (c2.b1 - c2.b0) ∧
      (∀ junk, c.ratValue eps junk c1.b1 0 = .ok ((2 : K)⁻¹ • (x + y))) ∧
      (x = y →
        ((∀ u d, c1.b0 ≤ u → u < c1.b1 → ∀ junk junk', c.ratValue eps junk' u d = c1.ratValue eps junk u d) ∧
        (∀ v d, c2.b0 ≤ v → v ≤ c2.b1 → ∀ junk junk', c.ratValue eps junk' (c1.b1 + (v - c2.b0)) d = c2.ratValue eps junk v d)) ∧
        ∃ s1 s2 : K, s1 ≠ 0 ∧ s2 ≠ 0 ∧
          (∀ u d, c1.b0 ≤ u → u < c1.b1 → ∀ junk junk', ∃ pt, c1.value eps junk u d = .ok pt ∧ c.value eps junk' u d = .ok (s1 • pt)) ∧
          (∀ v d, c2.b0 ≤ v → v ≤ c2.b1 → ∀ junk junk', ∃ pt, c2.value eps junk v d = .ok pt ∧
            c.value eps junk' (c1.b1 + (v - c2.b0)) d = .ok (s2 • pt))) := by
  obtain ⟨a, b, e, da, db, a0, a1, b0, b1, ⟨msa, ca⟩, ⟨msb, cb⟩, va, vb⟩ := unifyTwo_spec heps h1 h2 hd1 hd2
  have h12 : (12 : ℕ) ≤ stackMaxDegree := by decide
  have hlt1 := h1.good.lt
  have hlt2 := h2.good.lt
  have na := ca.good.wf.min
  have nb := cb.good.wf.min
  have hx' : pf a.poles (a.poles.length - 1) = pf c1.poles (c1.poles.length - 1) := by
    obtain ⟨pt, q1, q2⟩ := va c1.b1 hlt1.le le_rfl j0 j0 0
    rw [(Curve.clamped_ends heps h1.good (h1.clamped heps.le) (by omega) j0).2] at q1
    rw [← a1, (Curve.clamped_ends heps ca.good (ca.clamped heps.le) (by omega) j0).2] at q2
    rw [Except.ok.inj q2, Except.ok.inj q1]
  have hy' : pf b.poles 0 = pf c2.poles 0 := by
    obtain ⟨pt, q1, q2⟩ := vb c2.b0 le_rfl hlt2.le j0 j0 0
    rw [(Curve.clamped_ends heps h2.good (h2.clamped heps.le) (by omega) j0).1] at q1
    rw [← b0, (Curve.clamped_ends heps cb.good (cb.clamped heps.le) (by omega) j0).1] at q2
    rw [Except.ok.inj q2, Except.ok.inj q1]
  have ex : weightProjection (pf a.poles (a.poles.length - 1)) = x := by
    rw [(Curve.rat_ends heps h1.good (h1.clamped heps.le) (by omega) j0).2] at hx
    rw [hx']; exact Except.ok.inj hx
  have ey : weightProjection (pf b.poles 0) = y := by
    rw [(Curve.rat_ends heps h2.good (h2.clamped heps.le) (by omega) j0).1] at hy
    rw [hy']; exact Except.ok.inj hy
  rw [← hx'] at w1
  rw [← hy'] at w2
  have hna : a.poles ≠ [] := by intro h0; rw [h0] at na; simp at na
  have hnb : b.poles ≠ [] := by intro h0; rw [h0] at nb; simp at nb
  have hj := joinPolesRat_ok hna hnb w1 w2
  rw [ex, ey] at hj
  set s1 := 1 / (pf a.poles (a.poles.length - 1)).2 with hs1
  set s2 := 1 / (pf b.poles 0).2 with hs2
  have hs1' : s1 ≠ 0 := by rw [hs1]; exact one_div_ne_zero w1
  have hs2' : s2 ≠ 0 := by rw [hs2]; exact one_div_ne_zero w2
  set m : V × K := ((2 : K)⁻¹ • (x + y), 1) with hm
  have hn1 : scalePoles a.poles s1 ≠ [] := by intro h0; have := scalePoles_length a.poles s1; rw [h0] at this; simp at this; omega
  have hn2 : scalePoles b.poles s2 ≠ [] := by intro h0; have := scalePoles_length b.poles s2; rw [h0] at this; simp at this; omega
  obtain ⟨l1, l2, l3⟩ := joined_poles hn1 hn2 m
  obtain ⟨U, c, eU, ec, f1, -, f3, f4, f5, f6, f7, f8⟩ := join_same heps ca.good cb.good (ca.clamped heps.le) (cb.clamped heps.le) (da.trans db.symm)
    ca.deg (by omega) (by rw [List.length_set, scalePoles_length]) (by rw [List.length_set, scalePoles_length]) l1 l2 l3
  rw [a0] at f5
  rw [a1, b0, b1] at f6
  have ejoin : joinCurvesRat eps c1 c2 = .ok c := by
    unfold joinCurvesRat
    rw [h1.copied heps.le, R_bind_ok, h2.copied heps.le, R_bind_ok, e, R_bind_ok]
    simp only
    rw [hj, R_bind_ok, eU, R_bind_ok, ec]
  refine ⟨c, ejoin, f1.trans da, f3, f4, f5, f6, ?_, ?_⟩
  · intro junk
    obtain ⟨pt, q1, q2⟩ := f8 b.b0 le_rfl cb.good.lt.le junk junk 0
    have hg : ({ b with poles := (scalePoles b.poles s2).set 0 m } : Curve K (V × K)).Good :=
      ⟨cb.good.wf.kwf.wf (by simp [scalePoles_length]), cb.good.lo, by
        show b.b1 = kf b.knots ((scalePoles b.poles s2).set _ _).length; rw [List.length_set, scalePoles_length]; exact cb.good.hi⟩
    have hcl : ({ b with poles := (scalePoles b.poles s2).set 0 m } : Curve K (V × K)).Clamped :=
      ⟨(cb.clamped heps.le).lo, (cb.clamped heps.le).hi⟩
    have := (Curve.clamped_ends heps hg hcl (by show b.deg ≤ _; omega) junk).1
    have hpt := Except.ok.inj (q1.symm.trans this)
    simp only at hpt
    rw [pf_set _ (by rw [scalePoles_length]; omega), if_pos rfl] at hpt
    rw [sub_self, add_zero, a1, Curve.value_inBounds heps (by rw [f5]; exact hlt1.le) (by rw [f6]; linarith), hpt] at q2
    rw [Curve.ratValue_inBounds heps (by rw [f5]; exact hlt1.le) (by rw [f6]; linarith)]
    unfold evalRational evalRationalF
    simp only [if_true, q2, R_bind_ok, hm, weightProjection, ne_eq, one_ne_zero, not_false_eq_true, inv_one, one_smul]
    rfl
  · rintro rfl
    rw [half_add_self] at hm
    have e1 : ∀ z : V × K, z.2 ≠ 0 → (1 / z.2) • z = (weightProjection z, (1 : K)) := by
      intro z hz
      ext <;> simp [weightProjection, hz]
    have sa : (scalePoles a.poles s1).set ((scalePoles a.poles s1).length - 1) m = scalePoles a.poles s1 := by
      apply pf_ext (by simp)
      intro i hi
      rw [pf_set _ (by rw [scalePoles_length]; omega)]
      split
      · rename_i h; rw [h, scalePoles_length, pf_scalePoles _ _ (by omega), hs1, e1 _ w1, ex, hm]
      · rfl
    have sb : (scalePoles b.poles s2).set 0 m = scalePoles b.poles s2 := by
      apply pf_ext (by simp)
      intro i hi
      rw [pf_set _ (by rw [scalePoles_length]; omega)]
      split
      · rename_i h; rw [h, pf_scalePoles _ _ (by omega), hs2, e1 _ w2, ey, hm]
      · rfl
    rw [sa] at f7
    rw [sb] at f8
    refine ⟨⟨?_, ?_⟩, s1, s2, hs1', hs2', ?_, ?_⟩
    rotate_left 2
    · intro u d hu1 hu2 junk junk'
      obtain ⟨p1, p2, p3⟩ := va u hu1 hu2.le junk junk d
      obtain ⟨p4, p5, p6⟩ := (Curve.scaled_value heps ca.good (by omega) s1).2 u d (by rw [a0]; exact hu1) (by rw [a1]; exact hu2.le) junk junk
      obtain ⟨p7, p8, p9⟩ := f7 u (by rw [a0]; exact hu1) (by rw [a1]; exact hu2) junk junk' d
      refine ⟨p1, p2, ?_⟩
      rw [p9, Except.ok.inj (p8.symm.trans p6), Except.ok.inj (p5.symm.trans p3)]
    · intro v d hv1 hv2 junk junk'
      obtain ⟨p1, p2, p3⟩ := vb v hv1 hv2 junk junk d
      obtain ⟨p4, p5, p6⟩ := (Curve.scaled_value heps cb.good (by omega) s2).2 v d (by rw [b0]; exact hv1) (by rw [b1]; exact hv2) junk junk
      obtain ⟨p7, p8, p9⟩ := f8 v (by rw [b0]; exact hv1) (by rw [b1]; exact hv2) junk junk' d
      refine ⟨p1, p2, ?_⟩
      rw [← a1, ← b0, p9, Except.ok.inj (p8.symm.trans p6), Except.ok.inj (p5.symm.trans p3)]
    · intro u d hu1 hu2 junk junk'
      rw [← Curve.ratValue_congr heps (c := { a with poles := scalePoles a.poles s1 }) (junk := junk) (u := u) (by show a.b0 ≤ u; rw [a0]; exact hu1)
          (by show u ≤ a.b1; rw [a1]; exact hu2.le) (by rw [f5]; exact hu1) (by rw [f6]; linarith)
          (fun d => f7 u (by rw [a0]; exact hu1) (by rw [a1]; exact hu2) junk junk' d) d,
        (C13_scale_poles hs1' eps junk u a).1 d]
      exact (Curve.ratValue_congr heps hu1 hu2.le (by rw [a0]; exact hu1) (by rw [a1]; exact hu2.le) (fun d => va u hu1 hu2.le junk junk d) d).symm
    · intro v d hv1 hv2 junk junk'
      rw [← a1, ← b0, ← Curve.ratValue_congr heps (c := { b with poles := scalePoles b.poles s2 }) (junk := junk) (u := v)
          (by show b.b0 ≤ v; rw [b0]; exact hv1) (by show v ≤ b.b1; rw [b1]; exact hv2) (by rw [f5, a1, b0]; linarith) (by rw [f6, a1, b0]; linarith)
          (fun d => f8 v (by rw [b0]; exact hv1) (by rw [b1]; exact hv2) junk junk' d) d,
        (C13_scale_poles hs2' eps junk v b).1 d]
      exact (Curve.ratValue_congr heps hv1 hv2 (by rw [b0]; exact hv1) (by rw [b1]; exact hv2) (fun d => vb v hv1 hv2 junk junk d) d).symm

/-- C81 for rational curves with non-zero weights at the ends that are joined: the projected curve goes through the middle of both ends and, when
they coincide, is the first curve and then the second one, derivatives included. -/
theorem C81_join_rational {eps : K} (heps : 0 < eps) {c1 c2 : Curve K (V × K)} {ks1 ks2 : List K} {ms1 ms2 : List ℕ} (h1 : c1.ClampedBy eps ks1 ms1)
    (h2 : c2.ClampedBy eps ks2 ms2) (hd1 : c1.deg ≤ 12) (hd2 : c2.deg ≤ 12) (w1 : (pf c1.poles (c1.poles.length - 1)).2 ≠ 0)
    (w2 : (pf c2.poles 0).2 ≠ 0) {x y : V} {j0 : K} (hx : c1.ratValue eps j0 c1.b1 0 = .ok x) (hy : c2.ratValue eps j0 c2.b0 0 = .ok y) :
    ∃ c, joinCurvesRat eps c1 c2 = .ok c ∧ c.deg = max c1.deg c2.deg ∧ c.Good ∧ c.Clamped ∧ c.b0 = c1.b0 ∧ c.b1 = c1.b1 + (c2.b1 - c2.b0) ∧
      (∀ junk, c.ratValue eps junk c1.b1 0 = .ok ((2 : K)⁻¹ • (x + y))) ∧
      (x = y →
        (∀ u d, c1.b0 ≤ u → u < c1.b1 → ∀ junk junk', c.ratValue eps junk' u d = c1.ratValue eps junk u d) ∧
        (∀ v d, c2.b0 ≤ v → v ≤ c2.b1 → ∀ junk junk', c.ratValue eps junk' (c1.b1 + (v - c2.b0)) d = c2.ratValue eps junk v d)) := by
  obtain ⟨c, q1, q2, q3, q4, q5, q6, q7, q8⟩ := C81_join_rational_scaled heps h1 h2 hd1 hd2 w1 w2 hx hy
  exact ⟨c, q1, q2, q3, q4, q5, q6, q7, fun h => (q8 h).1⟩

/-- The rational version of a clamped curve. -/
theorem Curve.toRational_spec {eps : K} (heps : 0 < eps) {c : Curve K V} {ks : List K} {ms : List ℕ} (h : c.ClampedBy eps ks ms)
    (hb : c.deg ≤ stackMaxDegree) :
    ∃ c', c.toRational eps = .ok c' ∧ c'.deg = c.deg ∧ c'.b0 = c.b0 ∧ c'.b1 = c.b1 ∧ c'.ClampedBy eps ks ms ∧
      (pf c'.poles 0).2 = 1 ∧ (pf c'.poles (c'.poles.length - 1)).2 = 1 ∧
      ∀ u, c.b0 ≤ u → u ≤ c.b1 → ∀ d, d ≤ 60 → ∀ junk junk', ∃ pt, c.value eps junk' u d = .ok pt ∧ c'.ratValue eps junk u d = .ok pt := by
  have hl : (addUnitWeights (K := K) c.poles).length = c.poles.length := by simp [addUnitWeights]
  have hmin := h.good.wf.min
  have hw : Wf c.deg c.knots (addUnitWeights (K := K) c.poles) := h.good.wf.kwf.wf hl
  have hp : ∀ i, i < c.poles.length → (pf (addUnitWeights (K := K) c.poles) i).2 = 1 := by
    intro i hi
    unfold addUnitWeights
    rw [pf_map _ hi]
    rfl
  refine ⟨⟨c.deg, addUnitWeights c.poles, c.knots, c.b0, c.b1⟩, ?_, rfl, rfl, rfl, ⟨h.toKnotsBy, hw, h.good.lo, ?_⟩, ?_, ?_, ?_⟩
  · unfold Curve.toRational
    rw [mk?_sorted eps _ hw.sorted c.deg hw.len hw.min, (h.clamped heps.le).lo, (h.clamped heps.le).hi]
  · show c.b1 = kf c.knots (addUnitWeights (K := K) c.poles).length
    rw [hl]; exact h.good.hi
  · exact hp 0 (by omega)
  · show (pf (addUnitWeights (K := K) c.poles) ((addUnitWeights (K := K) c.poles).length - 1)).2 = 1
    rw [hl]; exact hp _ (by omega)
  · intro u hu1 hu2 d hd junk junk'
    exact C12_equal_weights heps h.good (Or.inl hb) one_ne_zero hu1 hu2 junk junk' hd _ rfl

/-- C81 for a polynomial curve and a rational one, in both orders. -/
theorem C81_join_mixed {eps : K} (heps : 0 < eps) {c1 : Curve K V} {c2 : Curve K (V × K)} {ks1 ks2 : List K} {ms1 ms2 : List ℕ}
    (h1 : c1.ClampedBy eps ks1 ms1) (h2 : c2.ClampedBy eps ks2 ms2) (hd1 : c1.deg ≤ 12) (hd2 : c2.deg ≤ 12) :
    (∀ x j0, (pf c2.poles 0).2 ≠ 0 → c1.value eps j0 c1.b1 0 = .ok x → c2.ratValue eps j0 c2.b0 0 = .ok x →
      ∃ c, joinCurvesPR eps c1 c2 = .ok c ∧ c.b0 = c1.b0 ∧ c.b1 = c1.b1 + (c2.b1 - c2.b0) ∧
        (∀ u d, c1.b0 ≤ u → u < c1.b1 → d ≤ 60 → ∀ junk junk', ∃ pt, c1.value eps junk u d = .ok pt ∧ c.ratValue eps junk' u d = .ok pt) ∧
        (∀ v d, c2.b0 ≤ v → v ≤ c2.b1 → ∀ junk junk', c.ratValue eps junk' (c1.b1 + (v - c2.b0)) d = c2.ratValue eps junk v d)) ∧
    (∀ x j0, (pf c2.poles (c2.poles.length - 1)).2 ≠ 0 → c2.ratValue eps j0 c2.b1 0 = .ok x → c1.value eps j0 c1.b0 0 = .ok x →
      ∃ c, joinCurvesRP eps c2 c1 = .ok c ∧ c.b0 = c2.b0 ∧ c.b1 = c2.b1 + (c1.b1 - c1.b0) ∧
        (∀ u d, c2.b0 ≤ u → u < c2.b1 → ∀ junk junk', c.ratValue eps junk' u d = c2.ratValue eps junk u d) ∧
        (∀ v d, c1.b0 ≤ v → v ≤ c1.b1 → d ≤ 60 → ∀ junk junk', ∃ pt, c1.value eps junk v d = .ok pt ∧
          c.ratValue eps junk' (c2.b1 + (v - c1.b0)) d = .ok pt)) := by
  have h12 : (12 : ℕ) ≤ stackMaxDegree := by decide
  obtain ⟨r, er, dr, r0, r1, hr, w0, w1, hv⟩ := Curve.toRational_spec heps h1 (by omega)
  have hlt1 := h1.good.lt
  constructor
  · intro x j0 hw hx hy
    obtain ⟨pt, q1, q2⟩ := hv c1.b1 hlt1.le le_rfl 0 (by omega) j0 j0
    rw [hx] at q1
    rw [← r1, ← Except.ok.inj q1] at q2
    obtain ⟨c, e, -, -, -, e0, e1, -, hc⟩ := C81_join_rational heps hr h2 (by omega) hd2 (by rw [w1]; exact one_ne_zero) hw q2 hy
    obtain ⟨hA, hB⟩ := hc rfl
    rw [r0] at e0
    rw [r1] at e1
    refine ⟨c, ?_, e0, e1, ?_, ?_⟩
    · unfold joinCurvesPR; rw [er, R_bind_ok, e]
    · intro u d hu1 hu2 hd junk junk'
      obtain ⟨pt, q3, q4⟩ := hv u hu1 hu2.le d hd junk' junk
      exact ⟨pt, q3, by rw [hA u d (by rw [r0]; exact hu1) (by rw [r1]; exact hu2) junk' junk', q4]⟩
    · intro v d hv1 hv2 junk junk'
      have := hB v d hv1 hv2 junk junk'
      rwa [r1] at this
  · intro x j0 hw hx hy
    obtain ⟨pt, q1, q2⟩ := hv c1.b0 le_rfl hlt1.le 0 (by omega) j0 j0
    rw [hy] at q1
    rw [← r0, ← Except.ok.inj q1] at q2
    obtain ⟨c, e, -, -, -, e0, e1, -, hc⟩ := C81_join_rational heps h2 hr hd2 (by omega) hw (by rw [w0]; exact one_ne_zero) hx q2
    obtain ⟨hA, hB⟩ := hc rfl
    rw [r0, r1] at e1
    refine ⟨c, ?_, e0, e1, hA, ?_⟩
    · unfold joinCurvesRP; rw [er, R_bind_ok, e]
    · intro v d hv1 hv2 hd junk junk'
      obtain ⟨pt, q3, q4⟩ := hv v hv1 hv2 d hd junk' junk
      have := hB v d (by rw [r0]; exact hv1) (by rw [r1]; exact hv2) junk' junk'
      rw [r0] at this
      exact ⟨pt, q3, by rw [this, q4]⟩

/-- C81: the curves are joined over the intervals of their knots. A curve of which the bounds were reduced without inserting knots (`trim` with its
last argument false) is joined at the end of its knots: here the first curve ends at the point 1, where the second one starts, but the joined
curve goes on to the middle of the points 2 and 1. -/
theorem C81_soft_trim_witness :
    let c1 : Curve ℚ ℚ := ⟨1, [0, 1, 2], [0, 0, 1, 2, 2], 0, 2⟩
    let c2 : Curve ℚ ℚ := ⟨1, [1, 5], [0, 0, 1, 1], 0, 1⟩
    ∃ c1' c, c1.trim (1/1000) 0 1 false = .ok c1' ∧ c1'.b1 = 1 ∧ c1'.value (1/1000) 7 c1'.b1 0 = .ok 1 ∧ c2.value (1/1000) 7 c2.b0 0 = .ok 1 ∧
      joinCurves (1/1000) c1' c2 = .ok c ∧ c.b1 = 3 ∧ c.value (1/1000) 7 2 0 = .ok (3/2) := by
  refine ⟨⟨1, [0, 1, 2], [0, 0, 1, 2, 2], 0, 1⟩, ⟨1, [0, 1, 3/2, 5], [0, 0, 1, 2, 3, 3], 0, 3⟩, ?_, ?_, ?_, ?_, ?_, ?_, ?_⟩ <;> decide +kernel

namespace Sample

/-- A straight line from the end of `Sample.c`. -/
def jl : Curve ℚ (ℚ × ℚ) := ⟨1, [pf Sample.c.poles (Sample.c.poles.length - 1), (9, -4)], [1, 1, 3, 3], 1, 3⟩

theorem jl_clampedBy : jl.ClampedBy (1/10) [1, 3] [2, 2] := by
  refine ⟨⟨by decide, ?_, ?_, by decide, by decide, ?_⟩, ⟨⟨?_, ?_, ?_, ?_, ?_⟩, ?_, ?_⟩⟩
  · decide +kernel
  · decide +kernel
  · intro i x h1 h2 hx
    simp at h2
    omega
  all_goals decide +kernel

/-- The hypotheses of `C81_join_preserves` are met by a quadratic curve and a line: the joined curve is quadratic, on `[0, 5]`. -/
example : ∃ c, joinCurves (1/10) Sample.c jl = .ok c ∧ c.deg = 2 ∧ c.b1 = 5 ∧ c.value (1/10) 7 5 0 = .ok (9, -4) := by
  obtain ⟨c, e, d, -, -, -, b, -, h⟩ := C81_join_preserves (by norm_num) Sample.c_clampedBy jl_clampedBy (by decide) (by decide)
    (x := pf Sample.c.poles (Sample.c.poles.length - 1)) (j0 := 7) (by decide +kernel) (by decide +kernel)
  refine ⟨c, e, d, by rw [b]; decide +kernel, ?_⟩
  obtain ⟨pt, q1, q2⟩ := h 3 0 (by decide +kernel) (by decide +kernel) 7 7
  rw [show (Sample.c.b1 + (3 - jl.b0) : ℚ) = 5 by decide +kernel] at q2
  rw [q2, ← q1]
  decide +kernel

/-- The hypotheses of `C81_join_gap` are met by the line followed by the quadratic curve, which starts elsewhere. -/
example : ∃ c, joinCurves (1/10) jl Sample.c = .ok c ∧ ∃ pt, c.value (1/10) 7 3 0 = .ok pt ∧ pt ≠ (9, -4) := by
  obtain ⟨c, e, -, -, -, -, -, h, -, -, hn⟩ := C81_join_gap (by norm_num) jl_clampedBy Sample.c_clampedBy (by decide) (by decide)
    (x := (9, -4)) (y := pf Sample.c.poles 0) (j0 := 7) (by decide +kernel) (by decide +kernel)
  exact ⟨c, e, _, h 7, (hn (by decide +kernel) 7 _ (h 7)).1⟩

/-- The line with the weights 2 and 3. -/
def jr : Curve ℚ ((ℚ × ℚ) × ℚ) := ⟨1, [addWeight (pf Sample.c.poles (Sample.c.poles.length - 1)) 2, addWeight (9, -4) 3], [1, 1, 3, 3], 1, 3⟩

theorem jr_clampedBy : jr.ClampedBy (1/10) [1, 3] [2, 2] := by
  refine ⟨⟨by decide, ?_, ?_, by decide, by decide, ?_⟩, ⟨⟨?_, ?_, ?_, ?_, ?_⟩, ?_, ?_⟩⟩
  · decide +kernel
  · decide +kernel
  · intro i x h1 h2 hx
    simp at h2
    omega
  all_goals decide +kernel

/-- The hypotheses of `C81_join_mixed` are met by the quadratic curve and the rational line; those of `C81_join_rational` by the line and itself. -/
example : ∃ c, joinCurvesPR (1/10) Sample.c jr = .ok c ∧ c.b1 = 5 ∧ c.ratValue (1/10) 7 5 0 = .ok (9, -4) := by
  obtain ⟨c, e, -, b, -, h⟩ := (C81_join_mixed (by norm_num) Sample.c_clampedBy jr_clampedBy (by decide) (by decide)).1
    (pf Sample.c.poles (Sample.c.poles.length - 1)) 7 (by decide +kernel) (by decide +kernel) (by decide +kernel)
  refine ⟨c, e, by rw [b]; decide +kernel, ?_⟩
  have := h 3 0 (by decide +kernel) (by decide +kernel) 7 7
  rw [show (Sample.c.b1 + (3 - jr.b0) : ℚ) = 5 by decide +kernel] at this
  rw [this]
  decide +kernel

example : ∃ c, joinCurvesRat (1/10) jr jr = .ok c ∧ c.deg = 1 ∧ c.b1 = 5 := by
  obtain ⟨c, e, d, -, -, -, b, -⟩ := C81_join_rational (by norm_num) jr_clampedBy jr_clampedBy (by decide) (by decide) (by decide +kernel)
    (by decide +kernel) (x := (9, -4)) (y := pf Sample.c.poles (Sample.c.poles.length - 1)) (j0 := 7) (by decide +kernel) (by decide +kernel)
  exact ⟨c, e, d, by rw [b]; decide +kernel⟩

end Sample

end Gbs
