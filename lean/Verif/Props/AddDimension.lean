import Verif.Model.AddDimension
import Verif.Props.Json
import Verif.Props.SurfaceMisc
import Verif.Lemmas.Transform

/-!
# C120: curves and surfaces with one more dimension
-/

set_option linter.unusedSectionVars false

namespace Gbs

variable {K : Type} [Field K] [LinearOrder K] [IsStrictOrderedRing K]
variable {V W : Type} [AddCommGroup V] [Module K V] [AddCommGroup W] [Module K W]

/-- The constructor looks only at the number of poles. -/
theorem mk_poles {eps : K} {P : List V} {U : List K} {p : ℕ} {c : Curve K V} (h : Curve.mk? eps P U p = .ok c) {Q : List W}
    (hQ : Q.length = P.length) : Curve.mk? eps Q U p = .ok ⟨c.deg, Q, c.knots, c.b0, c.b1⟩ := by
  obtain ⟨-, h1, rfl, -, rfl, h2, h3⟩ := mk_ok h
  unfold Curve.mk?
  rw [h2, h3, hQ]
  dsimp only
  rw [h1, R_bind_ok]
  rfl

theorem surfMk_poles {eps : K} {P : List V} {U U' : List K} {p q : ℕ} {s : Surface K V} (h : Surface.mk? eps P U U' p q = .ok s) {Q : List W}
    (hQ : Q.length = P.length) :
    s.degU = p ∧ s.degV = q ∧ s.poles = P ∧ s.knotsU = U ∧ s.knotsV = U' ∧
    Surface.mk? eps Q U U' p q = .ok ⟨s.degU, s.degV, Q, s.knotsU, s.knotsV, s.u0, s.u1, s.v0, s.v1⟩ := by
  unfold Surface.mk? at h ⊢
  rw [hQ]
  rcases e1 : U.head? with _ | a <;> rw [e1] at h
  · simp at h
  rcases e2 : U.getLast? with _ | b <;> rw [e2] at h
  · simp at h
  rcases e3 : U'.head? with _ | c <;> rw [e3] at h
  · simp at h
  rcases e4 : U'.getLast? with _ | d <;> rw [e4] at h
  · simp at h
  dsimp only at h ⊢
  split at h
  · cases h
  rename_i hn
  rw [if_neg hn]
  rw [R_bind_eq_ok] at h
  obtain ⟨b1, hb1, h⟩ := h
  rw [hb1, R_bind_ok]
  split at h
  · cases h
  rename_i hb1'
  rw [if_neg hb1']
  rw [R_bind_eq_ok] at h
  obtain ⟨b2, hb2, h⟩ := h
  rw [hb2, R_bind_ok]
  split at h
  · cases h
  rename_i hb2'
  rw [if_neg hb2']
  cases h
  exact ⟨rfl, rfl, rfl, rfl, rfl, rfl⟩

theorem spanDer_addDim {t : ℕ → K} (ht : Monotone t) {k n p : ℕ} (hk : t k < t (k+1)) (hp : p ≤ k) (hn : k < n) (P : ℕ → V) (val : K) (d : ℕ)
    (u : K) : spanDer t n p k (fun j => ((P j, val) : V × K)) d u = (spanDer t n p k P d u, if d = 0 then val else 0) := by
  refine Prod.ext ?_ ?_
  · rw [spanDer_fst]
  · rw [spanDer_snd]
    exact spanDer_const ht hk hp hn val d u

theorem addDim_curve {eps : K} (heps : 0 < eps) {c c0 : Curve K V} (hmk : Curve.mk? eps c.poles c.knots c.deg = .ok c0) (h : c0.Good)
    (hb : c0.BigOk eps) (val : K) : ∃ c', c.addDimension eps val = .ok c' ∧ c'.Good ∧ c'.BigOk eps ∧ c'.b0 = c0.b0 ∧ c'.b1 = c0.b1 ∧
      ∀ u junk d, c0.b0 ≤ u → u ≤ c0.b1 → ∃ x, c0.value eps junk u d = .ok x ∧ c'.value eps junk u d = .ok (x, if d = 0 then val else 0) := by
  have hl : (c.poles.map fun p => addDimension p val).length = c.poles.length := by simp
  have hp : c0.poles = c.poles := (mk_ok hmk).2.2.2.1
  have hG := h.withPoles (P := c.poles.map fun p => addDimension p val) (by rw [hp]; simp)
  have hB : (⟨c0.deg, c.poles.map fun p => addDimension p val, c0.knots, c0.b0, c0.b1⟩ : Curve K (V × K)).BigOk eps := hb
  refine ⟨_, mk_poles hmk hl, hG, hB, rfl, rfl, fun u junk d h1 h2 => ?_⟩
  obtain ⟨i, -, hi, a1, a2, e⟩ := Curve.value_span heps h hb h1 h2
  obtain ⟨i', -, hi', -, -, e'⟩ := Curve.value_span heps hG hB h1 h2
  have hii : i' = i := by
    apply InSpan_unique (kf_mono h.wf.sorted) _ hi
    simpa [hp] using hi'
  subst hii
  refine ⟨_, e junk d, ?_⟩
  rw [e', ← spanDer_addDim (kf_mono h.wf.sorted) (InSpan_bounds hi).2.2 a1 a2]
  dsimp only
  rw [hl, ← hp]
  congr 1
  exact spanDer_congr fun j hj => pf_map (fun p => addDimension p val) hj

/-- C120: the curve with one more dimension has the same first coordinates, and the last one is the value; the derivatives of the last one are null. If the
bounds of the curve were not those of its knots, the result has those of the knots: it is made from the whole curve `c0`. -/
theorem C120_curve {eps : K} (heps : 0 < eps) {c c0 : Curve K V} (hmk : Curve.mk? eps c.poles c.knots c.deg = .ok c0) (h : c0.Good)
    (hb : c0.BigOk eps) (val : K) : ∃ c', c.addDimension eps val = .ok c' ∧ c'.b0 = c0.b0 ∧ c'.b1 = c0.b1 ∧
      ∀ u junk d, c0.b0 ≤ u → u ≤ c0.b1 → ∃ x, c0.value eps junk u d = .ok x ∧ c'.value eps junk u d = .ok (x, if d = 0 then val else 0) := by
  obtain ⟨c', h1, -, -, h2, h3, h4⟩ := addDim_curve heps hmk h hb val
  exact ⟨c', h1, h2, h3, h4⟩

theorem surfDer_addDim {tu tv : ℕ → K} (htu : Monotone tu) (htv : Monotone tv) {i j nU nV p q : ℕ} (hi : tu i < tu (i+1)) (hj : tv j < tv (j+1))
    (hpi : p ≤ i) (hiU : i < nU) (hqj : q ≤ j) (hjV : j < nV) (P : ℕ → V) (val : K) (du dv : ℕ) (u v : K) :
    surfDer tu nU p i tv nV q j (fun k => ((P k, val) : V × K)) du dv u v =
      (surfDer tu nU p i tv nV q j P du dv u v, if du = 0 ∧ dv = 0 then val else 0) := by
  unfold surfDer
  simp only [spanDer_addDim htu hi hpi hiU]
  rw [spanDer_addDim htv hj hqj hjV]
  congr 1
  split_ifs <;> simp_all

theorem addDim_surface {eps : K} (heps : 0 < eps) {s s0 : Surface K V} (hmk : Surface.mk? eps s.poles s.knotsU s.knotsV s.degU s.degV = .ok s0)
    (h : s0.Wf) (hb : s0.BigOk eps) (val : K) : ∃ s', s.addDimension eps val = .ok s' ∧ s'.Wf ∧ s'.BigOk eps ∧ s'.u0 = s0.u0 ∧ s'.u1 = s0.u1 ∧
      s'.v0 = s0.v0 ∧ s'.v1 = s0.v1 ∧ ∀ u v junk du dv, s0.In u v → s'.In u v ∧ ∃ x, s0.value eps junk u v du dv = .ok x ∧
        s'.value eps junk u v du dv = .ok (x, if du = 0 ∧ dv = 0 then val else 0) := by
  have hl : (s.poles.map fun p => addDimension p val).length = s.poles.length := by simp
  obtain ⟨-, -, hp, -, -, e1⟩ := surfMk_poles hmk hl
  have hG : (⟨s0.degU, s0.degV, s.poles.map fun p => addDimension p val, s0.knotsU, s0.knotsV, s0.u0, s0.u1, s0.v0, s0.v1⟩ : Surface K (V × K)).Wf :=
    ⟨h.u, h.v, by show (s.poles.map fun p => addDimension p val).length = s0.nPU * s0.nPV; rw [hl, ← hp]; exact h.len⟩
  refine ⟨_, e1, hG, hb, rfl, rfl, rfl, rfl, fun u v junk du dv hi => ?_⟩
  have hI : (⟨s0.degU, s0.degV, s.poles.map fun p => addDimension p val, s0.knotsU, s0.knotsV, s0.u0, s0.u1, s0.v0, s0.v1⟩ :
      Surface K (V × K)).In u v := ⟨hi.u0, hi.u1, hi.v0, hi.v1, hi.ku0, hi.ku1, hi.kv0, hi.kv1⟩
  obtain ⟨i, j, -, -, hu, hv, a1, a2, b1, b2, e⟩ := Surface.value_spec heps h hb hi
  obtain ⟨i', j', -, -, hu', hv', -, -, -, -, e'⟩ := Surface.value_spec heps hG hb hI
  obtain rfl : i' = i := InSpan_unique (kf_mono h.u.sorted) hu' hu
  obtain rfl : j' = j := InSpan_unique (kf_mono h.v.sorted) hv' hv
  refine ⟨hI, _, e junk du dv, ?_⟩
  rw [e', ← surfDer_addDim (kf_mono h.u.sorted) (kf_mono h.v.sorted) (InSpan_bounds hu).2.2 (InSpan_bounds hv).2.2 a1 a2 b1 b2]
  congr 1
  unfold surfDer
  refine spanDer_congr fun jj hjj => spanDer_congr fun ii hii => ?_
  dsimp only
  rw [← hp]
  refine pf_map (fun p => addDimension p val) ?_
  rw [h.len]
  have h3 : ii < s0.nPU := hii
  have h4 : jj < s0.nPV := hjj
  calc ii + s0.nPU * jj < s0.nPU + s0.nPU * jj := by omega
    _ = s0.nPU * (jj + 1) := by ring
    _ ≤ s0.nPU * s0.nPV := Nat.mul_le_mul_left _ h4

/-- C120: the same of surfaces, and of all their partial derivatives. -/
theorem C120_surface {eps : K} (heps : 0 < eps) {s s0 : Surface K V} (hmk : Surface.mk? eps s.poles s.knotsU s.knotsV s.degU s.degV = .ok s0)
    (h : s0.Wf) (hb : s0.BigOk eps) (val : K) : ∃ s', s.addDimension eps val = .ok s' ∧ s'.u0 = s0.u0 ∧ s'.u1 = s0.u1 ∧
      s'.v0 = s0.v0 ∧ s'.v1 = s0.v1 ∧ ∀ u v junk du dv, s0.In u v → ∃ x, s0.value eps junk u v du dv = .ok x ∧
        s'.value eps junk u v du dv = .ok (x, if du = 0 ∧ dv = 0 then val else 0) := by
  obtain ⟨s', h1, -, -, h2, h3, h4, h5, h6⟩ := addDim_surface heps hmk h hb val
  exact ⟨s', h1, h2, h3, h4, h5, fun u v junk du dv hi => (h6 u v junk du dv hi).2⟩

theorem ratValue_zero {eps : K} (heps : 0 < eps) {c : Curve K (V × K)} {u junk : K} (h1 : c.b0 ≤ u) (h2 : u ≤ c.b1) {x : V × K}
    (hx : c.value eps junk u = .ok x) : c.ratValue eps junk u = .ok (weightProjection x) := by
  rw [Curve.ratValue_inBounds heps h1 h2, evalRational, evalRationalF, if_pos rfl]
  rw [Curve.value_inBounds heps h1 h2] at hx
  rw [hx, R_bind_ok]
  rfl

theorem evalRational_nul {eps junk u : K} {U : List K} {P : List (V × K)} {p : ℕ} {A : ℕ → V × K} (hA : ∀ d, evalValue eps junk u U P p d = .ok (A d))
    (h0 : (A 0).2 = 0) : ∀ (f d : ℕ), 0 < d → d ≤ f → evalRationalF eps junk u U P p (f + 1) d = .error .divZero := by
  intro f
  induction f with
  | zero => intro d h1 h2; omega
  | succ f ih =>
    intro d h1 h2
    rw [evalRationalF, if_neg (by omega), hA, R_bind_ok, hA, R_bind_ok]
    have hv : ∀ x : V, vdiv x (A 0).2 = (.error .divZero : R V) := fun x => by unfold vdiv; rw [if_pos h0]
    dsimp only
    rcases Nat.lt_or_ge 1 d with hd | hd
    · rw [forLe, show d + 1 - 1 = (d - 1) + 1 by omega, forN, hA, R_bind_ok, ih (d - 1) (by omega) (by omega)]
      rfl
    · obtain rfl : d = 1 := by omega
      rw [forLe, show 1 + 1 - 1 = 0 + 1 by omega, forN, hA, R_bind_ok, evalRationalF, if_pos (by omega), hA, R_bind_ok]
      rw [binomialU_ok (by omega) le_rfl]
      simp only [R_bind_ok, R_pure, forN, hv]

/-- C120: of a rational curve, the value is put in the place of the weight, and the weight becomes a coordinate: if `C` is the point of the curve and `w` its
weight, the result has the point `(w / val) • C` with last coordinate `w / val`. It is `C` with last coordinate `val` only if the weight is the square of the
value and the value times `C` is `C`. -/
theorem C120_rational {eps : K} (heps : 0 < eps) {c c0 : Curve K (V × K)} (hmk : Curve.mk? eps c.poles c.knots c.deg = .ok c0) (h : c0.Good)
    (hb : c0.BigOk eps) {val : K} (hval : val ≠ 0) : ∃ c', c.addDimension eps val = .ok c' ∧
      ∀ u junk x w, c0.b0 ≤ u → u ≤ c0.b1 → c0.value eps junk u = .ok (x, w) → w ≠ 0 →
        ∃ C, c0.ratValue eps junk u = .ok C ∧ c'.ratValue eps junk u = .ok ((w / val) • C, w / val) ∧
          (c'.ratValue eps junk u = .ok (C, val) ↔ w = val ^ 2 ∧ val • C = C) := by
  obtain ⟨c', e, -, -, b0, b1, hv⟩ := addDim_curve heps hmk h hb val
  refine ⟨c', e, fun u junk x w h1 h2 hx hw => ?_⟩
  obtain ⟨y, hy, hy'⟩ := hv u junk 0 h1 h2
  rw [hx] at hy
  obtain rfl := Except.ok.inj hy
  rw [if_pos rfl] at hy'
  have r1 : c'.ratValue eps junk u = .ok ((w / val) • w⁻¹ • x, w / val) := by
    rw [ratValue_zero heps (by rw [b0]; exact h1) (by rw [b1]; exact h2) hy']
    unfold weightProjection
    rw [if_pos hval, Prod.smul_mk, smul_smul, smul_eq_mul, div_mul_eq_mul_div, mul_inv_cancel₀ hw, one_div, mul_comm, ← div_eq_mul_inv]
  refine ⟨w⁻¹ • x, ?_, r1, ?_⟩
  · rw [ratValue_zero heps h1 h2 hx]
    unfold weightProjection
    rw [if_pos hw]
  · rw [r1]
    simp only [Except.ok.injEq, Prod.mk.injEq]
    constructor
    · rintro ⟨g1, g2⟩
      rw [g2] at g1
      exact ⟨by rw [sq]; exact (div_eq_iff hval).mp g2, g1⟩
    · rintro ⟨g1, g2⟩
      have : w / val = val := by rw [g1, sq, mul_div_assoc, div_self hval, mul_one]
      rw [this]
      exact ⟨g2, rfl⟩

/-- C120: with the default value 0 all the weights of the result of a rational curve are null: its points are all the origin, and its derivatives divide by
zero. -/
theorem C120_rational_default {eps : K} (heps : 0 < eps) {c c0 : Curve K (V × K)} (hmk : Curve.mk? eps c.poles c.knots c.deg = .ok c0) (h : c0.Good)
    (hb : c0.BigOk eps) : ∃ c', c.addDimension eps 0 = .ok c' ∧ ∀ u junk, c0.b0 ≤ u → u ≤ c0.b1 →
      c'.ratValue eps junk u = .ok 0 ∧ ∀ d, 0 < d → c'.ratValue eps junk u d = .error .divZero := by
  obtain ⟨c', e, -, -, b0, b1, hv⟩ := addDim_curve heps hmk h hb 0
  refine ⟨c', e, fun u junk h1 h2 => ⟨?_, fun d hd => ?_⟩⟩
  · obtain ⟨y, hy, hy'⟩ := hv u junk 0 h1 h2
    rw [ratValue_zero heps (by rw [b0]; exact h1) (by rw [b1]; exact h2) hy']
    simp [weightProjection]
  · rw [← b0] at h1
    rw [← b1] at h2
    have : ∀ d, ∃ x, evalValue eps junk u c'.knots c'.poles c'.deg d = .ok (x, (0 : K)) := by
      intro d
      obtain ⟨y, hy, hy'⟩ := hv u junk d (by rw [← b0]; exact h1) (by rw [← b1]; exact h2)
      rw [Curve.value_inBounds heps h1 h2] at hy'
      exact ⟨y, by simpa using hy'⟩
    choose A hA using this
    rw [Curve.ratValue_inBounds heps h1 h2]
    exact evalRational_nul (A := fun d => (A d, 0)) hA rfl d d hd le_rfl

/-- C120: the same of rational surfaces. -/
theorem C120_rational_surface {eps : K} (heps : 0 < eps) {s s0 : Surface K (V × K)}
    (hmk : Surface.mk? eps s.poles s.knotsU s.knotsV s.degU s.degV = .ok s0) (h : s0.Wf) (hb : s0.BigOk eps) (val : K) :
    ∃ s', s.addDimension eps val = .ok s' ∧ ∀ u v junk x w, s0.In u v → s0.value eps junk u v = .ok (x, w) → w ≠ 0 →
      ∃ C, s0.ratValue eps junk u v = .ok C ∧ s'.ratValue eps junk u v = .ok (if val = 0 then 0 else ((w / val) • C, w / val)) ∧
        (s'.ratValue eps junk u v = .ok (C, val) ↔ (val = 0 ∧ C = 0) ∨ (val ≠ 0 ∧ w = val ^ 2 ∧ val • C = C)) := by
  obtain ⟨s', e, hG, hB, -, -, -, -, hv⟩ := addDim_surface heps hmk h hb val
  refine ⟨s', e, fun u v junk x w hi hx hw => ?_⟩
  obtain ⟨hI, y, hy, hy'⟩ := hv u v junk 0 0 hi
  rw [hx] at hy
  obtain rfl := Except.ok.inj hy
  rw [if_pos ⟨rfl, rfl⟩] at hy'
  have key : ∀ {W : Type} [AddCommGroup W] [Module K W] {S : Surface K (W × K)} {z : W × K}, S.In u v → S.value eps junk u v = .ok z →
      S.ratValue eps junk u v = .ok (weightProjection z) := by
    intro W _ _ S z hS hz
    unfold Surface.value at hz
    rw [if_neg (Surface.not_outside heps hS)] at hz
    unfold Surface.ratValue
    rw [if_neg (Surface.not_outside heps hS), if_pos ⟨rfl, rfl⟩, hz]
    rfl
  have r1 : s'.ratValue eps junk u v = .ok (if val = 0 then 0 else ((w / val) • w⁻¹ • x, w / val)) := by
    rw [key hI hy']
    unfold weightProjection
    by_cases hval : val = 0
    · simp [hval]
    · rw [if_pos hval, if_neg hval, Prod.smul_mk, smul_smul, smul_eq_mul, div_mul_eq_mul_div, mul_inv_cancel₀ hw, one_div, mul_comm, ← div_eq_mul_inv]
  refine ⟨w⁻¹ • x, ?_, r1, ?_⟩
  · rw [key hi hx]
    unfold weightProjection
    rw [if_pos hw]
  · rw [r1]
    by_cases hval : val = 0
    · subst hval
      simp only [if_true, Except.ok.injEq, ne_eq, not_true_eq_false, false_and, or_false, true_and, Prod.ext_iff, Prod.fst_zero, Prod.snd_zero, and_true]
      exact eq_comm
    · rw [if_neg hval]
      simp only [Except.ok.injEq, Prod.mk.injEq, hval, false_and, false_or, ne_eq, not_false_eq_true, true_and]
      constructor
      · rintro ⟨g1, g2⟩
        rw [g2] at g1
        exact ⟨by rw [sq]; exact (div_eq_iff hval).mp g2, g1⟩
      · rintro ⟨g1, g2⟩
        have : w / val = val := by rw [g1, sq, mul_div_assoc, div_self hval, mul_one]
        rw [this]
        exact ⟨g2, rfl⟩

namespace Sample

/-- A segment of the plane between the points of abscissas 2 and 4, as a curve of the line. -/
def c120 : Curve ℚ ℚ := ⟨1, [2, 4], [0, 0, 1, 1], 0, 1⟩

/-- The same segment with the weights 1 and 3. -/
def c120r : Curve ℚ (ℚ × ℚ) := ⟨1, [(2, 1), (12, 3)], [0, 0, 1, 1], 0, 1⟩

theorem c120_kwf : KWf 1 ([0, 0, 1, 1] : List ℚ) 2 := by constructor <;> decide +kernel

theorem c120_good {V : Type} [AddCommGroup V] [Module ℚ V] (a b : V) : (⟨1, [a, b], [0, 0, 1, 1], 0, 1⟩ : Curve ℚ V).Good :=
  ⟨c120_kwf.wf rfl, rfl, rfl⟩

example : Curve.mk? (1 / 1000000) c120.poles c120.knots c120.deg = .ok c120 ∧ c120.Good ∧ c120.BigOk (1 / 1000000) :=
  ⟨by decide +kernel, c120_good _ _, Or.inl (by decide)⟩

example : Curve.mk? (1 / 1000000) c120r.poles c120r.knots c120r.deg = .ok c120r ∧ c120r.Good ∧ c120r.BigOk (1 / 1000000) ∧ (5 : ℚ) ≠ 0 ∧
    c120r.value (1 / 1000000) 0 1 = .ok (12, 3) :=
  ⟨by decide +kernel, c120_good _ _, Or.inl (by decide), by decide, by decide +kernel⟩

/-- C120: the segment put at the height 5 is as expected. With weights, its end `(4, 5)` becomes `(12 / 5, 3 / 5)`; at the height 0 it is the origin. Restricted
to the first half, it is whole again once put at a height. -/
theorem _root_.Gbs.C120_witness :
    (c120.addDimension (1 / 1000000) 5 >>= fun c => c.value (1 / 1000000) 0 1) = .ok (4, 5) ∧
    (c120r.ratValue (1 / 1000000) 0 1 = .ok 4) ∧
    (c120r.addDimension (1 / 1000000) 5 >>= fun c => c.ratValue (1 / 1000000) 0 1) = .ok (12 / 5, 3 / 5) ∧
    (c120r.addDimension (1 / 1000000) 0 >>= fun c => c.ratValue (1 / 1000000) 0 1) = .ok (0, 0) ∧
    (c120r.addDimension (1 / 1000000) 0 >>= fun c => c.ratValue (1 / 1000000) 0 1 1) = .error .divZero ∧
    (({ c120 with b1 := 1 / 2 } : Curve ℚ ℚ).value (1 / 1000000) 0 1 = .error (.thrown .outOfBoundsEval)) ∧
    (({ c120 with b1 := 1 / 2 } : Curve ℚ ℚ).addDimension (1 / 1000000) 5 >>= fun c => c.value (1 / 1000000) 0 1) = .ok (4, 5) := by
  refine ⟨?_, ?_, ?_, ?_, ?_, ?_, ?_⟩ <;> decide +kernel

/-- A square of the plane with weights 1 and 2. -/
def s120 : Surface ℚ (ℚ × ℚ) := ⟨1, 1, [(0, 1), (2, 2), (0, 1), (2, 2)], [0, 0, 1, 1], [0, 0, 1, 1], 0, 1, 0, 1⟩

example : Surface.mk? (1 / 1000000) s120.poles s120.knotsU s120.knotsV s120.degU s120.degV = .ok s120 ∧ s120.Wf ∧ s120.BigOk (1 / 1000000) ∧
    s120.In 1 1 ∧
    s120.value (1 / 1000000) 0 1 1 = .ok (2, 2) ∧
    (s120.addDimension (1 / 1000000) 5 >>= fun s => s.ratValue (1 / 1000000) 0 1 1) = .ok (2 / 5, 2 / 5) :=
  ⟨by decide +kernel, ⟨c120_kwf, c120_kwf, by decide⟩, Or.inl (by decide), by constructor <;> decide +kernel, by decide +kernel, by decide +kernel⟩

end Sample

end Gbs
