import Verif.Lemmas.IncreaseDegree2
import Verif.Props.Insertion
import Verif.Props.Rational

/-! # C58: degree elevation of a B-spline curve keeps the curve -/

namespace Gbs

set_option linter.unusedSectionVars false

variable {K : Type} [Field K] [LinearOrder K] [IsStrictOrderedRing K]
variable {V : Type} [AddCommGroup V] [Module K V]

/-- Knots of a clamped spline of degree `p ≥ 1`: distinct values `ks` separated by more than `eps` with multiplicities `ms`, the interior ones
being at most the degree. -/
structure KnotsBy (eps : K) (p : ℕ) (U : List K) (ks : List K) (ms : List ℕ) : Prop where
  deg : 1 ≤ p
  flat : flatKnots ks ms = .ok U
  gaps : ks.Pairwise (fun a b => a + eps < b)
  first : ms.head? = some (p + 1)
  last : ms.getLast? = some (p + 1)
  mid : ∀ i x, 0 < i → i + 1 < ms.length → ms[i]? = some x → 1 ≤ x ∧ x ≤ p

/-- A well-formed curve with such knots. -/
structure Curve.ClampedBy (eps : K) (c : Curve K V) (ks : List K) (ms : List ℕ) : Prop extends KnotsBy eps c.deg c.knots ks ms where
  good : c.Good

theorem flatKnots_eq_flatF {ks : List K} {ms : List ℕ} {U : List K} (h : flatKnots ks ms = .ok U) :
    ks.length = ms.length ∧ U = flatF (kf ks) (fun i => ms.getD i 0) ks.length := by
  unfold flatKnots at h
  split at h
  · cases h
  · rename_i hl
    have hl' : ks.length = ms.length := by simpa using hl
    refine ⟨hl', ?_⟩
    rw [← Except.ok.inj h]
    have h1 : ks = (List.range ks.length).map (kf ks) := by
      apply List.ext_getElem
      · simp
      · intro i a b; simp [kf, a]
    have h2 : ms = (List.range ks.length).map (fun i => ms.getD i 0) := by
      apply List.ext_getElem
      · simp [hl']
      · intro i a b; simp [a]
    conv_lhs => rw [h1, h2]
    rw [List.zip_map', List.flatMap_map]
    rfl

theorem flatF_eq_flatKnots (ks : List K) (ms : List ℕ) (hl : ks.length = ms.length) :
    flatKnots ks ms = .ok (flatF (kf ks) (fun i => ms.getD i 0) ks.length) := by
  have : flatKnots ks ms = .ok ((ks.zip ms).flatMap (fun km => List.replicate km.2 km.1)) := by
    unfold flatKnots; rw [if_neg (by simpa using hl)]
  rw [this, (flatKnots_eq_flatF this).2]

theorem KnotsBy.clampF {eps : K} (heps : 0 ≤ eps) {p : ℕ} {U ks : List K} {ms : List ℕ} (h : KnotsBy eps p U ks ms) (hlen : 2 * (p + 1) ≤ U.length) :
    ∃ m, ks.length = m + 1 ∧ ks.length = ms.length ∧ U = flatF (kf ks) (fun i => ms.getD i 0) (m + 1) ∧
      ClampF eps (kf ks) (fun i => ms.getD i 0) m p := by
  obtain ⟨hl, hU⟩ := flatKnots_eq_flatF h.flat
  have hf := h.first
  have hlast := h.last
  rw [List.head?_eq_getElem?] at hf
  rw [List.getLast?_eq_getElem?] at hlast
  have hpos : 0 < ms.length := by
    rcases Nat.eq_zero_or_pos ms.length with h0 | h0
    · rw [List.getElem?_eq_none (by omega)] at hf; cases hf
    · exact h0
  have g0 : ms.getD 0 0 = p + 1 := by rw [List.getD_eq_getElem?_getD, hf]; rfl
  have g1 : ms.getD (ms.length - 1) 0 = p + 1 := by rw [List.getD_eq_getElem?_getD, hlast]; rfl
  have hm : 2 ≤ ms.length := by
    by_contra hc
    have h1 : ms.length = 1 := by omega
    rw [hU, hl, h1] at hlen
    have : (flatF (kf ks) (fun i => ms.getD i 0) (0 + 1)).length = _ := flatF_length_succ _ _ 0
    rw [flatF_length_zero, g0] at this
    rw [Nat.zero_add] at this
    omega
  refine ⟨ks.length - 1, by omega, hl, by rw [hU]; congr 1; omega, heps, ?_, by omega, g0, by rw [hl]; exact g1, ?_⟩
  · intro i hi
    have := List.pairwise_iff_getElem.mp h.gaps i (i + 1) (by omega) (by omega) (by omega)
    rw [kf_of_lt (by omega), kf_of_lt (by omega)]
    exact this
  · intro i h1 h2
    have hi : i < ms.length := by omega
    have := h.mid i (ms[i]) h1 (by omega) (by simp [hi])
    simpa [hi] using this

theorem Curve.ClampedBy.clampF {eps : K} (heps : 0 ≤ eps) {c : Curve K V} {ks : List K} {ms : List ℕ} (h : c.ClampedBy eps ks ms) :
    ∃ m, ks.length = m + 1 ∧ ks.length = ms.length ∧ c.knots = flatF (kf ks) (fun i => ms.getD i 0) (m + 1) ∧
      ClampF eps (kf ks) (fun i => ms.getD i 0) m c.deg :=
  h.toKnotsBy.clampF heps (by have := h.good.wf.len; have := h.good.wf.min; omega)

/-- The elevated multiplicities. -/
theorem KnotsBy.raise {eps : K} {p : ℕ} {U ks : List K} {ms : List ℕ} (h : KnotsBy eps p U ks ms) (step : ℕ) {m : ℕ} (hm : ks.length = m + 1)
    (hlm : ks.length = ms.length) : KnotsBy eps (p + step) (flatF (kf ks) (fun i => ms.getD i 0 + step) (m + 1)) ks (ms.map (· + step)) := by
  have hfl := flatF_eq_flatKnots ks (ms.map (· + step)) (by simpa using hlm)
  have hcg : flatF (kf ks) (fun i => ms.getD i 0 + step) (m + 1) = flatF (kf ks) (fun i => (ms.map (· + step)).getD i 0) ks.length := by
    rw [hm]
    apply flatF_congr
    intro i hi
    have : i < ms.length := by omega
    simp [this]
  have hd := h.deg
  have hfi := h.first
  have hla := h.last
  refine ⟨by omega, by rw [hfl, hcg], h.gaps, ?_, ?_, ?_⟩
  · simp only [List.head?_map, hfi, Option.map_some]; congr 1; omega
  · simp only [List.getLast?_map, hla, Option.map_some]; congr 1; omega
  · intro i x h1 h2 hx
    simp only [List.length_map] at h2
    rw [List.getElem?_map, Option.map_eq_some_iff] at hx
    obtain ⟨a, ha, rfl⟩ := hx
    have := h.mid i a h1 h2 ha
    omega

theorem ClampF.raise {eps : K} {w : ℕ → K} {f : ℕ → ℕ} {m p : ℕ} (hC : ClampF eps w f m p) (step : ℕ) : ClampF eps w (fun i => f i + step) m (p + step) := by
  refine ⟨hC.heps, hC.gaps, hC.hm, ?_, ?_, ?_⟩
  · have := hC.first; omega
  · have := hC.last; omega
  · intro i h1 h2; have := hC.int i h1 h2; omega

/-- C58: `increaseDegree` succeeds, raises every multiplicity by `step`, keeps the bounds, and the new curve has the same point and the same
derivatives as the old one at every parameter. -/
theorem C58_increaseDegree {eps : K} (heps : 0 < eps) {c : Curve K V} {ks : List K} {ms : List ℕ} (h : c.ClampedBy eps ks ms)
    {step : ℕ} (hq : c.deg + step ≤ 12) :
    ∃ c', c.increaseDegree eps step = .ok c' ∧ c'.deg = c.deg + step ∧ c'.b0 = c.b0 ∧ c'.b1 = c.b1 ∧
      c'.ClampedBy eps ks (ms.map (· + step)) ∧
      ∀ v, c.b0 ≤ v → v ≤ c.b1 → ∀ junk junk' d, ∃ pt, c.value eps junk v d = .ok pt ∧ c'.value eps junk' v d = .ok pt := by
  obtain ⟨m, hm, hlm, hU, hC⟩ := h.clampF heps.le
  have hl : (flatF (kf ks) (fun i => ms.getD i 0) (m + 1)).length = c.poles.length + c.deg + 1 := by rw [← hU]; exact h.good.wf.len
  obtain ⟨Q, e, hlQ, hS⟩ := increaseDegree_spec hC h.deg hq hl
  have hC' := hC.raise step
  have hgood : ({ c with knots := flatF (kf ks) (fun i => ms.getD i 0 + step) (m + 1), poles := Q, deg := c.deg + step } : Curve K V).Good := by
    refine ⟨hC'.wf hlQ, ?_, ?_⟩
    · simp only; rw [hC'.d0, h.good.lo, hU, hC.d0]
    · simp only; rw [hC'.d1 hlQ, h.good.hi, hU, hC.d1 hl]
  refine ⟨{ c with knots := flatF (kf ks) (fun i => ms.getD i 0 + step) (m + 1), poles := Q, deg := c.deg + step }, ?_, rfl, rfl, rfl, ?_, ?_⟩
  · unfold Curve.increaseDegree
    rw [hU, e, R_bind_ok]
    rfl
  · exact ⟨h.toKnotsBy.raise step hm hlm, hgood⟩
  · intro v h1 h2 junk junk' d
    have hs : stackMaxDegree = 24 := rfl
    refine SameMap.value_eq heps h.good hgood (Or.inl (by omega)) (Or.inl (by simp only; omega)) ?_ le_rfl le_rfl h1 h2 junk junk' d
    simp only
    rw [hU]
    exact hS

/-- The rational value only depends on the homogeneous values. -/
theorem evalRationalF_congr {eps junk junk' u : K} {k k' : List K} {P P' : List (V × K)} {p p' : ℕ}
    (h : ∀ d, evalValue eps junk u k P p d = evalValue eps junk' u k' P' p' d) :
    ∀ f d, evalRationalF eps junk u k P p f d = evalRationalF eps junk' u k' P' p' f d := by
  intro f
  induction f with
  | zero => intro d; rfl
  | succ f ih =>
    intro d
    unfold evalRationalF
    simp only [h, ih]

/-- C58 for rational curves (`BSCurveRational`): the projected points and derivatives are kept, including the cases where a weight vanishes. -/
theorem C58_increaseDegree_rational {eps : K} (heps : 0 < eps) {c : Curve K (V × K)} {ks : List K} {ms : List ℕ} (h : c.ClampedBy eps ks ms)
    {step : ℕ} (hq : c.deg + step ≤ 12) :
    ∃ c', c.increaseDegree eps step = .ok c' ∧ c'.deg = c.deg + step ∧
      ∀ v, c.b0 ≤ v → v ≤ c.b1 → ∀ junk junk' d, c'.ratValue eps junk' v d = c.ratValue eps junk v d := by
  obtain ⟨c', e, hd, hb0, hb1, -, hv⟩ := C58_increaseDegree heps h hq
  refine ⟨c', e, hd, ?_⟩
  intro v h1 h2 junk junk' d
  rw [Curve.ratValue_inBounds heps h1 h2, Curve.ratValue_inBounds heps (by rw [hb0]; exact h1) (by rw [hb1]; exact h2)]
  unfold evalRational
  apply evalRationalF_congr
  intro i
  obtain ⟨pt, a1, a2⟩ := hv v h1 h2 junk junk' i
  rw [Curve.value_inBounds heps h1 h2] at a1
  rw [Curve.value_inBounds heps (by rw [hb0]; exact h1) (by rw [hb1]; exact h2)] at a2
  rw [a1, a2]

/-- C58: from degree 13 on, `increaseDegree` reaches the signed overflow of the factorial for every such curve. -/
theorem C58_increaseDegree_overflow {eps : K} (heps : 0 < eps) {c : Curve K V} {ks : List K} {ms : List ℕ} (h : c.ClampedBy eps ks ms)
    {step : ℕ} (hq : 13 ≤ c.deg + step) : c.increaseDegree eps step = .error .overflow := by
  obtain ⟨m, hm, hlm, hU, hC⟩ := h.clampF heps.le
  have hl : (flatF (kf ks) (fun i => ms.getD i 0) (m + 1)).length = c.poles.length + c.deg + 1 := by rw [← hU]; exact h.good.wf.len
  obtain ⟨P1, eB, hl1, hS1⟩ := bezierInsert_spec hC h.deg hl
  have hB := clampF_fB hC h.deg
  have hn1 := fB_total (kf ks) hC.hm hl1
  have hmp : m ≤ m * c.deg := Nat.le_mul_of_pos_right m h.deg
  have hm1 := hC.hm
  have hseg : ∃ sg l, bezierSegments eps c.knots c.poles c.deg = .ok (sg :: l) := by
    unfold bezierSegments
    rw [hU, hC.unflat, R_bind_ok, eB, R_bind_ok]
    simp only
    rw [hB.unflat, R_bind_ok, if_neg (by omega)]
    have := bezierLoop_spec (U := ((List.range (m + 1)).map fun i => (kf ks i, fB c.deg m i)).map Prod.fst) (P := P1) h.deg m 0 (P1.length + 1) hm1
      (by omega) (by rw [hn1, Nat.zero_add]) (by simp)
    rw [Nat.zero_mul] at this
    rw [this, show m = m - 1 + 1 by omega, List.range'_succ]
    exact ⟨_, _, rfl⟩
  obtain ⟨sg, l, hseg⟩ := hseg
  unfold Curve.increaseDegree increaseDegree
  have hun : unflatKnots eps c.knots = _ := hU ▸ hC.unflat
  rw [hun, R_bind_ok, hseg, R_bind_ok, elevateSegs, increaseBezier_overflow hq]
  rfl

/-- The sample curve meets the hypotheses, up to degree 12. -/
theorem Sample.c_clampedBy : Sample.c.ClampedBy (1/10) [0, 1, 2, 3] [3, 1, 1, 3] := by
  refine ⟨⟨by decide, ?_, ?_, by decide, by decide, ?_⟩, Sample.c_good⟩
  · decide +kernel
  · decide +kernel
  · intro i x h1 h2 hx
    have : i = 1 ∨ i = 2 := by simp at h2; omega
    have hd : Sample.c.deg = 2 := rfl
    rw [hd]
    rcases this with rfl | rfl <;> simp at hx <;> omega

example : ∃ c', Sample.c.increaseDegree (1/10) 3 = .ok c' ∧ c'.deg = 5 ∧ flatKnots [0, 1, 2, 3] [6, 4, 4, 6] = .ok c'.knots := by
  obtain ⟨c', e, hd, -, -, hc, -⟩ := C58_increaseDegree (by norm_num) Sample.c_clampedBy (step := 3) (by decide)
  exact ⟨c', e, hd, hc.flat⟩

end Gbs
