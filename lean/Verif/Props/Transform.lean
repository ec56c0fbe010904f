import Verif.Lemmas.Transform
import Verif.Samples

/-!
# C26 (ellipses), C46 (frames), C47 (affine maps), C60 (segments)
-/

namespace Gbs

set_option linter.unusedSectionVars false

open Polynomial

variable {K : Type} [Field K] [LinearOrder K] [IsStrictOrderedRing K]
variable {V : Type} [AddCommGroup V] [Module K V]

/-! ## C47: the poles are transformed, the points follow -/

/-- C47 for non rational curves: when the poles are transformed by an affine map, every point of the curve is transformed by the same
map and every derivative of order `≥ 1` by its linear part; degree, knots and bounds are kept. -/
theorem C47_curve {eps : K} (heps : 0 < eps) {c : Curve K V} (h : c.Good) (hb : c.BigOk eps) {trf : V → R V} {L : V →ₗ[K] V} {b : V}
    (ht : IsAffine trf L b) :
    ∃ c', c.transform trf = .ok c' ∧ c'.Good ∧ c'.deg = c.deg ∧ c'.knots = c.knots ∧ c'.b0 = c.b0 ∧ c'.b1 = c.b1 ∧
      ∀ u, c.b0 ≤ u → u ≤ c.b1 → ∀ junk junk',
        (∃ x, c.value eps junk u = .ok x ∧ c'.value eps junk' u = trf x) ∧
        ∀ d, ∃ x, c.value eps junk u (d + 1) = .ok x ∧ c'.value eps junk' u (d + 1) = .ok (L x) := by
  have hg := h.withPoles (P := c.poles.map (fun x => L x + b)) (by simp)
  refine ⟨_, Curve.transform_eq ht c, hg, rfl, rfl, rfl, rfl, ?_⟩
  intro u h1 h2 junk junk'
  obtain ⟨i, -, hin, a1, a2, hv⟩ := Curve.value_span heps h hb h1 h2
  obtain ⟨i', -, hin', a1', a2', hv'⟩ := Curve.value_span heps hg (show Curve.BigOk eps _ from hb) (u := u) h1 h2
  have hm := kf_mono h.wf.sorted
  have hi : i' = i := InSpan_unique hm (by simpa using hin') hin
  subst hi
  have key : ∀ d, Curve.value eps junk' { c with poles := c.poles.map (fun x => L x + b) } u d =
      .ok (L (spanDer (kf c.knots) c.poles.length c.deg i' (pf c.poles) d u) + if d = 0 then b else 0) := by
    intro d
    rw [hv' junk' d]
    simp only [List.length_map]
    rw [spanDer_congr_poles (P' := fun j => L (pf c.poles j) + b) (fun j hj => by rw [pf_map _ hj]), spanDer_add, spanDer_lmap,
      spanDer_const hm (InSpan_bounds hin).2.2 a1 a2]
  refine ⟨⟨_, hv junk 0, ?_⟩, fun d => ⟨_, hv junk (d + 1), ?_⟩⟩
  · rw [key, ht, if_pos rfl]
  · rw [key, if_neg (by omega), add_zero]

/-- C47 for rational curves without null weight: at a parameter where the weight does not vanish, the point is transformed by the affine map
and the derivatives (orders up to 60) by its linear part. The weights are kept. -/
theorem C47_rational {eps : K} (heps : 0 < eps) {c : Curve K (V × K)} (h : c.Good) (hb : c.BigOk eps) {trf : V → R V} {L : V →ₗ[K] V} {b : V}
    (ht : IsAffine trf L b) (hw : ∀ x ∈ c.poles, x.2 ≠ 0) :
    ∃ c', c.transformRat trf = .ok c' ∧ c'.Good ∧ c'.deg = c.deg ∧ c'.knots = c.knots ∧ c'.b0 = c.b0 ∧ c'.b1 = c.b1 ∧
      c'.poles.map Prod.snd = c.poles.map Prod.snd ∧
      ∀ u, c.b0 ≤ u → u ≤ c.b1 → ∀ junk junk' q, c.value eps junk u = .ok q → q.2 ≠ 0 →
        (∃ x, c.ratValue eps junk u = .ok x ∧ c'.ratValue eps junk' u = trf x) ∧
        ∀ d, d < 60 → ∃ x, c.ratValue eps junk u (d + 1) = .ok x ∧ c'.ratValue eps junk' u (d + 1) = .ok (L x) := by
  have hg := h.withPoles (P := c.poles.map (liftH L b)) (by simp)
  refine ⟨_, Curve.transformRat_eq ht c hw, hg, rfl, rfl, rfl, rfl, ?_, ?_⟩
  · simp only [List.map_map]
    rfl
  intro u h1 h2 junk junk' q hq hq2
  obtain ⟨i, hin, a1, a2, -, hv, hr⟩ := Curve.rat_spec heps h hb h1 h2
  obtain ⟨i', hin', a1', a2', -, hv', hr'⟩ := Curve.rat_spec heps hg (show Curve.BigOk eps _ from hb) (u := u) h1 h2
  have hm := kf_mono h.wf.sorted
  have hi : i' = i := InSpan_unique hm (by simpa using hin') hin
  subst hi
  have key : ∀ d, spanDer (kf c.knots) (c.poles.map (liftH L b)).length c.deg i' (pf (c.poles.map (liftH L b))) d u =
      liftH L b (spanDer (kf c.knots) c.poles.length c.deg i' (pf c.poles) d u) := by
    intro d
    simp only [List.length_map]
    rw [spanDer_congr_poles (P' := fun j => liftH L b (pf c.poles j)) (fun j hj => by rw [pf_map _ hj]), spanDer_lmap]
  rw [hv junk 0] at hq
  have hq0 : (spanDer (kf c.knots) c.poles.length c.deg i' (pf c.poles) 0 u).2 ≠ 0 := by rw [Except.ok.inj hq]; exact hq2
  have r1 := (hr hq0).1
  have r2 := (hr' (by
    show (spanDer (kf c.knots) (c.poles.map (liftH L b)).length c.deg i' (pf (c.poles.map (liftH L b))) 0 u).2 ≠ 0
    rw [key]; exact hq0)).1
  have r2' : ∀ d, d ≤ 60 → Curve.ratValue eps junk' { c with poles := c.poles.map (liftH L b) } u d =
      .ok (L (quotB (bU K) (fun d => (spanDer (kf c.knots) c.poles.length c.deg i' (pf c.poles) d u).1)
        (fun d => (spanDer (kf c.knots) c.poles.length c.deg i' (pf c.poles) d u).2) d) + if d = 0 then b else 0) := by
    intro d hd
    rw [r2 junk' d hd]
    simp only [key, liftH_fst, liftH_snd]
    rw [quotB_affine L b hq0]
  refine ⟨⟨_, r1 junk 0 (by omega), ?_⟩, fun d hd => ⟨_, r1 junk (d + 1) (by omega), ?_⟩⟩
  · rw [r2' 0 (by omega), ht, if_pos rfl]
  · rw [r2' (d + 1) (by omega), if_neg (by omega), add_zero]

theorem Surface.Wf.withPoles {W : Type} [AddCommGroup W] [Module K W] {s : Surface K V} (h : s.Wf) {P : List W} (hP : P.length = s.poles.length) :
    (⟨s.degU, s.degV, P, s.knotsU, s.knotsV, s.u0, s.u1, s.v0, s.v1⟩ : Surface K W).Wf :=
  ⟨h.u, h.v, by rw [show (⟨s.degU, s.degV, P, s.knotsU, s.knotsV, s.u0, s.u1, s.v0, s.v1⟩ : Surface K W).poles.length = P.length from rfl, hP]; exact h.len⟩

theorem surfDer_lmap {W : Type} [AddCommGroup W] [Module K W] (f : V →ₗ[K] W) (tu : ℕ → K) (nU p i : ℕ) (tv : ℕ → K) (nV q j : ℕ)
    (P : ℕ → V) (du dv : ℕ) (u v : K) :
    surfDer tu nU p i tv nV q j (fun k => f (P k)) du dv u v = f (surfDer tu nU p i tv nV q j P du dv u v) := by
  unfold surfDer
  rw [← spanDer_lmap]
  congr 1
  funext jj
  exact spanDer_lmap f tu nU p i (fun ii => P (ii + nU * jj)) du u

theorem surfDer_congr_poles {tu : ℕ → K} {nU p i : ℕ} {tv : ℕ → K} {nV q j : ℕ} {P P' : ℕ → V} (h : ∀ k, k < nU * nV → P k = P' k)
    (du dv : ℕ) (u v : K) : surfDer tu nU p i tv nV q j P du dv u v = surfDer tu nU p i tv nV q j P' du dv u v := by
  unfold surfDer
  apply spanDer_congr_poles
  intro jj hj
  apply spanDer_congr_poles
  intro ii hi
  exact h _ (idx_lt hi hj)

theorem surfDer_const {tu : ℕ → K} (htu : Monotone tu) {nU p i : ℕ} {tv : ℕ → K} (htv : Monotone tv) {nV q j : ℕ}
    (hi : tu i < tu (i+1)) (hpi : p ≤ i) (hin : i < nU) (hj : tv j < tv (j+1)) (hqj : q ≤ j) (hjn : j < nV) (s : V) (du dv : ℕ) (u v : K) :
    surfDer tu nU p i tv nV q j (fun _ => s) du dv u v = if du = 0 ∧ dv = 0 then s else 0 := by
  unfold surfDer
  rw [show (fun jj : ℕ => spanDer tu nU p i (fun ii => (fun _ => s) (ii + nU * jj)) du u) = fun _ => if du = 0 then s else 0 from
    funext fun _ => spanDer_const htu hi hpi hin s du u, spanDer_const htv hj hqj hjn]
  by_cases h1 : du = 0 <;> by_cases h2 : dv = 0 <;> simp [h1, h2]

/-- C47 for non rational surfaces. -/
theorem C47_surface {eps : K} (heps : 0 < eps) {s : Surface K V} (h : s.Wf) (hb : s.BigOk eps) {trf : V → R V} {L : V →ₗ[K] V} {b : V}
    (ht : IsAffine trf L b) :
    ∃ s', s.transform trf = .ok s' ∧ s'.Wf ∧ s'.degU = s.degU ∧ s'.degV = s.degV ∧ s'.knotsU = s.knotsU ∧ s'.knotsV = s.knotsV ∧
      (∀ u v, s.In u v → s'.In u v) ∧
      ∀ u v, s.In u v → ∀ junk junk',
        (∃ x, s.value eps junk u v = .ok x ∧ s'.value eps junk' u v = trf x) ∧
        ∀ du dv, ¬ (du = 0 ∧ dv = 0) → ∃ x, s.value eps junk u v du dv = .ok x ∧ s'.value eps junk' u v du dv = .ok (L x) := by
  have hg := h.withPoles (P := s.poles.map (fun x => L x + b)) (by simp)
  have hIn : ∀ u v, s.In u v → Surface.In { s with poles := s.poles.map (fun x => L x + b) } u v :=
    fun u v hi => ⟨hi.u0, hi.u1, hi.v0, hi.v1, hi.ku0, hi.ku1, hi.kv0, hi.kv1⟩
  refine ⟨_, Surface.transform_eq ht s, hg, rfl, rfl, rfl, rfl, hIn, ?_⟩
  intro u v hi junk junk'
  obtain ⟨i, j, ei, ej, hiu, hiv, a1, a2, a3, a4, hv⟩ := Surface.value_spec heps h hb hi
  obtain ⟨i', j', ei', ej', -, -, -, -, -, -, hv'⟩ := Surface.value_spec heps hg (show Surface.BigOk eps _ from hb) (hIn u v hi)
  obtain rfl : i = i' := Except.ok.inj (ei.symm.trans ei')
  obtain rfl : j = j' := Except.ok.inj (ej.symm.trans ej')
  have key : ∀ du dv, Surface.value eps junk' { s with poles := s.poles.map (fun x => L x + b) } u v du dv =
      .ok (L (surfDer (kf s.knotsU) s.nPU s.degU i (kf s.knotsV) s.nPV s.degV j (pf s.poles) du dv u v) +
        if du = 0 ∧ dv = 0 then b else 0) := by
    intro du dv
    rw [hv' junk' du dv]
    congr 1
    show surfDer (kf s.knotsU) s.nPU s.degU i (kf s.knotsV) s.nPV s.degV j (pf (s.poles.map (fun x => L x + b))) du dv u v = _
    rw [surfDer_congr_poles (P' := fun k => L (pf s.poles k) + b) (fun k hk => by rw [pf_map _ (by rw [h.len]; exact hk)])]
    rw [← surfDer_const (kf_mono h.u.sorted) (kf_mono h.v.sorted) (InSpan_bounds hiu).2.2 a1 a2 (InSpan_bounds hiv).2.2 a3 a4 b du dv u v,
      ← surfDer_lmap]
    unfold surfDer
    simp only [spanDer_add]
  refine ⟨⟨_, hv junk 0 0, ?_⟩, fun du dv hd => ⟨_, hv junk du dv, ?_⟩⟩
  · rw [key, ht, if_pos ⟨rfl, rfl⟩]
  · rw [key, if_neg hd, add_zero]

/-- C47 for rational surfaces without null weight, where the weight does not vanish (orders up to 60). -/
theorem C47_rational_surface {eps : K} (heps : 0 < eps) {s : Surface K (V × K)} (h : s.Wf) (hb : s.BigOk eps) {trf : V → R V} {L : V →ₗ[K] V} {b : V}
    (ht : IsAffine trf L b) (hw : ∀ x ∈ s.poles, x.2 ≠ 0) :
    ∃ s', s.transformRat trf = .ok s' ∧ s'.Wf ∧ s'.degU = s.degU ∧ s'.degV = s.degV ∧ s'.knotsU = s.knotsU ∧ s'.knotsV = s.knotsV ∧
      s'.poles.map Prod.snd = s.poles.map Prod.snd ∧
      (∀ u v, s.In u v → s'.In u v) ∧
      ∀ u v, s.In u v → ∀ junk junk' q, s.value eps junk u v = .ok q → q.2 ≠ 0 →
        (∃ x, s.ratValue eps junk u v = .ok x ∧ s'.ratValue eps junk' u v = trf x) ∧
        ∀ du dv, du ≤ 60 → dv ≤ 60 → ¬ (du = 0 ∧ dv = 0) →
          ∃ x, s.ratValue eps junk u v du dv = .ok x ∧ s'.ratValue eps junk' u v du dv = .ok (L x) := by
  have hg := h.withPoles (P := s.poles.map (liftH L b)) (by simp)
  have hIn : ∀ u v, s.In u v → Surface.In { s with poles := s.poles.map (liftH L b) } u v :=
    fun u v hi => ⟨hi.u0, hi.u1, hi.v0, hi.v1, hi.ku0, hi.ku1, hi.kv0, hi.kv1⟩
  have hb' : Surface.BigOk eps { s with poles := s.poles.map (liftH L b) } := hb
  refine ⟨_, Surface.transformRat_eq ht s hw, hg, rfl, rfl, rfl, rfl, by simp only [List.map_map]; rfl, hIn, ?_⟩
  intro u v hi junk junk' q hq hq2
  obtain ⟨i, j, ei, ej, hiu, hiv, a1, a2, a3, a4, hv⟩ := Surface.value_spec heps h hb hi
  obtain ⟨i', j', ei', ej', -, -, -, -, -, -, hv'⟩ := Surface.value_spec heps hg hb' (hIn u v hi)
  obtain rfl : i = i' := Except.ok.inj (ei.symm.trans ei')
  obtain rfl : j = j' := Except.ok.inj (ej.symm.trans ej')
  set A : ℕ → ℕ → V × K := fun du dv => surfDer (kf s.knotsU) s.nPU s.degU i (kf s.knotsV) s.nPV s.degV j (pf s.poles) du dv u v with hA
  have hA0 : (A 0 0).2 ≠ 0 := by
    rw [hv junk 0 0] at hq
    rw [show A 0 0 = q from Except.ok.inj hq]
    exact hq2
  have key : ∀ junk du dv, Surface.value eps junk { s with poles := s.poles.map (liftH L b) } u v du dv = .ok (liftH L b (A du dv)) := by
    intro junk du dv
    rw [hv' junk du dv]
    congr 1
    show surfDer (kf s.knotsU) s.nPU s.degU i (kf s.knotsV) s.nPV s.degV j (pf (s.poles.map (liftH L b))) du dv u v = _
    rw [surfDer_congr_poles (P' := fun k => liftH L b (pf s.poles k)) (fun k hk => by rw [pf_map _ (by rw [h.len]; exact hk)]), surfDer_lmap]
  have main : ∀ (S : Surface K (V × K)), S.Wf → S.BigOk eps → S.In u v → ∀ A : ℕ → ℕ → V × K, (∀ junk a b, S.value eps junk u v a b = .ok (A a b)) →
      (A 0 0).2 ≠ 0 → ∀ junk du dv, du ≤ 60 → dv ≤ 60 → ¬ (du = 0 ∧ dv = 0) →
      S.ratValue eps junk u v du dv = .ok (quotB2 (bU K) (fun a b => (A a b).1) (fun a b => (A a b).2) du dv) := by
    intro S hS hSb hSi A hA h0 junk du dv hdu hdv hd
    obtain ⟨T', e2, -, h3⟩ := Surface.ratDers_spec heps hS hSb hSi (fun a b => ⟨junk, hA junk a b⟩) h0 junk (nu := du) (nv := dv) hdu hdv
      (List.replicate ((du+1)*(dv+1)) 0) (by simp)
    unfold Surface.ratValue
    rw [if_neg (Surface.not_outside heps hSi), if_neg hd, e2, R_bind_ok, rd_eq_ok.mpr (h3 du dv le_rfl le_rfl)]
  constructor
  · refine ⟨_, C55_value heps h hb hi junk junk (x := (A 0 0).1) (w := (A 0 0).2) (hv junk 0 0) hA0, ?_⟩
    rw [C55_value heps hg hb' (hIn u v hi) junk junk' (x := L (A 0 0).1 + (A 0 0).2 • b) (w := (A 0 0).2) (key junk 0 0) hA0, ht, smul_add, smul_smul,
      inv_mul_cancel₀ hA0, one_smul, map_smul]
  · intro du dv hdu hdv hd
    refine ⟨_, main s h hb hi A (fun junk a b => hv junk a b) hA0 junk du dv hdu hdv hd, ?_⟩
    rw [main _ hg hb' (hIn u v hi) (fun a b' => liftH L b (A a b')) key hA0 junk' du dv hdu hdv hd]
    simp only [liftH_fst, liftH_snd]
    rw [quotB2_affine L b (A := fun a b => (A a b).1) (w := fun a b => (A a b).2) hA0 du dv hdu hdv du dv le_rfl le_rfl, if_neg hd, add_zero]


/-- C47: a null weight loses its pole, so a pole "at infinity" is not transformed: the half circle with the poles `(1,0;1) (0,1;0) (-1,0;1)` is
flattened by a null translation. -/
theorem C47_null_weight_witness : ∃ c c' : Curve ℚ ((ℚ × ℚ) × ℚ), Curve.transformRat (fun x => .ok (translated 0 x)) c = .ok c' ∧
    c.ratValue (1/1000000) 0 (1/2) = .ok (0, 1) ∧ c'.ratValue (1/1000000) 0 (1/2) = .ok (0, 0) := by
  refine ⟨⟨2, [((1,0),1), ((0,1),0), ((-1,0),1)], [0,0,0,1,1,1], 0, 1⟩, ⟨2, [((1,0),1), ((0,0),0), ((-1,0),1)], [0,0,0,1,1,1], 0, 1⟩, ?_, ?_, ?_⟩
  · decide +kernel
  all_goals
    unfold Curve.ratValue
    rw [if_neg (by decide +kernel)]
    unfold evalRational evalRationalF evalValue
    dsimp only [List.length_cons, List.length_nil]
    rw [findSpan_of (U := ([0,0,0,1,1,1] : List ℚ)) (n := 0 + 1 + 1 + 1) (p := 2) (i := 2)
      ⟨by decide +kernel, rfl, by decide, by decide +kernel, by decide +kernel⟩ le_rfl (by decide) (by decide +kernel) (by decide +kernel)]
    decide +kernel

/-! ### The named transformations are affine, and are the maps their names say -/

/-- What is used of `std::sqrt`. -/
def IsSqrt (sqrt : K → K) : Prop := ∀ x, 0 ≤ x → 0 ≤ sqrt x ∧ sqrt x * sqrt x = x

/-- Scalar product of vectors. -/
def dot {n : ℕ} (x y : Fin n → K) : K := ∑ i, x i * y i

theorem sqNorm_nonneg {n : ℕ} (x : Fin n → K) : 0 ≤ sqNorm x := Finset.sum_nonneg (fun i _ => mul_self_nonneg _)

theorem sqNorm_eq_zero {n : ℕ} {x : Fin n → K} : sqNorm x = 0 ↔ x = 0 := by
  unfold sqNorm
  rw [Finset.sum_eq_zero_iff_of_nonneg (fun i _ => mul_self_nonneg _)]
  constructor
  · intro h
    funext i
    exact mul_self_eq_zero.mp (h i (Finset.mem_univ i))
  · rintro rfl i _
    simp

theorem vnorm_mul_self {sqrt : K → K} (hs : IsSqrt sqrt) {n : ℕ} (x : Fin n → K) : vnorm sqrt x * vnorm sqrt x = sqNorm x := (hs _ (sqNorm_nonneg x)).2

theorem vnorm_ne_zero {sqrt : K → K} (hs : IsSqrt sqrt) {n : ℕ} {x : Fin n → K} (hx : x ≠ 0) : vnorm sqrt x ≠ 0 := by
  intro h
  have := vnorm_mul_self hs x
  rw [h, mul_zero] at this
  exact hx (sqNorm_eq_zero.mp this.symm)

theorem vnorm_zero {sqrt : K → K} (hs : IsSqrt sqrt) {n : ℕ} : vnorm sqrt (0 : Fin n → K) = 0 := by
  have := vnorm_mul_self hs (0 : Fin n → K)
  rw [sqNorm_eq_zero.mpr rfl] at this
  exact mul_self_eq_zero.mp this

/-- C47, translation: the identity plus the given vector. -/
theorem C47_translate (v : V) : IsAffine (K := K) (fun x => .ok (translated v x)) LinearMap.id v := fun _ => rfl

/-- C47, translation of a homogeneous pole: the translation of the projected pole, the weight being kept. -/
theorem C47_translate_homogeneous (v x : V) {w : K} (hw : w ≠ 0) :
    weightProjection (translatedH v (addWeight x w)) = translated v x ∧ (translatedH v (addWeight x w)).2 = w := by
  refine ⟨?_, rfl⟩
  unfold translatedH addWeight weightProjection translated
  simp only [ne_eq, hw, not_false_eq_true, if_true, smul_add, smul_smul, inv_mul_cancel₀ hw, one_smul]

/-- C47, scaling: the centre is kept, the vectors from the centre are multiplied by the factor. -/
theorem C47_scale (s : K) (center : V) :
    IsAffine (K := K) (fun x => .ok (scaled s center x)) (s • LinearMap.id) (center - s • center) ∧
    ∀ x, scaled s center x - center = s • (x - center) := by
  refine ⟨fun x => ?_, fun x => by unfold scaled; abel⟩
  show Except.ok _ = _
  congr 1
  unfold scaled
  simp only [LinearMap.smul_apply, LinearMap.id_apply, smul_sub]
  abel

/-- C47, scaling of one coordinate: an affine map that scales that coordinate from the centre and keeps the others; the coordinate has to exist. -/
theorem C47_scale_coord {n : ℕ} (s : K) (coord : ℕ) (center : Fin n → K) :
    (∀ h : coord < n, ∃ L b, IsAffine (K := K) (scaledCoord s coord center) L b ∧
      ∀ x, ∃ y, scaledCoord s coord center x = .ok y ∧ y ⟨coord, h⟩ - center ⟨coord, h⟩ = s * (x ⟨coord, h⟩ - center ⟨coord, h⟩) ∧
        ∀ i, i ≠ ⟨coord, h⟩ → y i = x i) ∧
    (n ≤ coord → ∀ x, scaledCoord s coord center x = .error .oob) := by
  constructor
  · intro h
    refine ⟨{ toFun := fun x => Function.update x ⟨coord, h⟩ (s * x ⟨coord, h⟩), map_add' := ?_, map_smul' := ?_ },
      Function.update 0 ⟨coord, h⟩ (center ⟨coord, h⟩ - s * center ⟨coord, h⟩), ?_, ?_⟩
    · intro x y
      funext i
      by_cases hi : i = ⟨coord, h⟩
      · subst hi; simp [mul_add]
      · simp [hi]
    · intro a x
      funext i
      by_cases hi : i = ⟨coord, h⟩
      · subst hi; simp; ring
      · simp [hi]
    · intro x
      unfold scaledCoord
      rw [dif_pos h]
      congr 1
      funext i
      by_cases hi : i = ⟨coord, h⟩
      · subst hi; simp; ring
      · simp [hi]
    · intro x
      refine ⟨_, dif_pos h, ?_, ?_⟩
      · simp; ring
      · intro i hi
        simp [hi]
  · intro h x
    unfold scaledCoord
    rw [dif_neg (by omega)]

/-- C47, rotation of the plane about a point: affine, keeps the centre and the distances, and maps the axes to `(cos a, sin a)` and
`(- sin a, cos a)`. -/
theorem C47_rotate2 (cos sin : K → K) (a : K) (O : Fin 2 → K) (hcs : cos a * cos a + sin a * sin a = 1) :
    ∃ L : (Fin 2 → K) →ₗ[K] (Fin 2 → K), IsAffine (fun x => .ok (rotated2 cos sin a x)) L 0 ∧
      IsAffine (fun x => .ok (rotatedAbout cos sin a O x)) L (O - L O) ∧
      rotatedAbout cos sin a O O = O ∧
      (∀ x, sqNorm (L x) = sqNorm x) ∧ L ![1, 0] = ![cos a, sin a] ∧ L ![0, 1] = ![- sin a, cos a] := by
  let L : (Fin 2 → K) →ₗ[K] (Fin 2 → K) :=
    { toFun := rotated2 cos sin a
      map_add' := by
        intro x y
        funext i
        fin_cases i <;> simp [rotated2] <;> ring
      map_smul' := by
        intro r x
        funext i
        fin_cases i <;> simp [rotated2] <;> ring }
  refine ⟨L, fun x => by rw [add_zero]; rfl, ?_, ?_, ?_, ?_, ?_⟩
  · intro x
    show Except.ok (L (x - O) + O) = _
    rw [map_sub]
    congr 1
    abel
  · show L (O - O) + O = O
    rw [sub_self, map_zero, zero_add]
  · intro x
    show sqNorm (rotated2 cos sin a x) = _
    unfold sqNorm rotated2
    simp only [Fin.sum_univ_two, Matrix.cons_val_zero, Matrix.cons_val_one]
    linear_combination (x 0 * x 0 + x 1 * x 1) * hcs
  · funext i
    show rotated2 cos sin a _ i = _
    fin_cases i <;> simp [rotated2]
  · funext i
    show rotated2 cos sin a _ i = _
    fin_cases i <;> simp [rotated2]

/-- C47, rotation of the space about an axis through the origin: a linear isometry that keeps the axis and turns the plane orthogonal to the
axis, `y ↦ cos a y + sin a (n × y)` with `n` the normalized axis. A null axis is a division by zero. -/
theorem C47_rotate3 {sqrt : K → K} (hs : IsSqrt sqrt) (cos sin : K → K) (a : K) (ax : Fin 3 → K)
    (hcs : cos a * cos a + sin a * sin a = 1) :
    (ax ≠ 0 → ∃ L : (Fin 3 → K) →ₗ[K] (Fin 3 → K), IsAffine (rotated3 sqrt cos sin a ax) L 0 ∧
      (∀ x, sqNorm (L x) = sqNorm x) ∧ L ax = ax ∧
      ∀ y, dot ax y = 0 → L y = cos a • y + sin a • ((vnorm sqrt ax)⁻¹ • cross3 ax y)) ∧
    (ax = 0 → ∀ x, rotated3 sqrt cos sin a ax x = .error .divZero) := by
  constructor
  · intro hax
    have hn := vnorm_ne_zero hs hax
    set q := (vnorm sqrt ax)⁻¹ with hq
    have hqq : q * q * sqNorm ax = 1 := by
      rw [← vnorm_mul_self hs ax, hq]; field_simp
    unfold sqNorm at hqq
    rw [Fin.sum_univ_three] at hqq
    have hv : adimV sqrt ax = .ok (q • ax) := by
      unfold adimV vdiv
      rw [if_neg hn]
    obtain ⟨n, hn'⟩ : ∃ n, n = q • ax := ⟨_, rfl⟩
    have hn1 : n 0 * n 0 + n 1 * n 1 + n 2 * n 2 = 1 := by
      rw [hn']; simp only [Pi.smul_apply, smul_eq_mul]; linear_combination hqq
    set c := cos a
    set s := sin a
    let f : (Fin 3 → K) → (Fin 3 → K) := fun x => ![x 0 * (n 0 * n 0 * (1 - c) + c) + x 1 * (n 0 * n 1 * (1 - c) - n 2 * s) + x 2 * (n 0 * n 2 * (1 - c) + n 1 * s),
      x 0 * (n 0 * n 1 * (1 - c) + n 2 * s) + x 1 * (n 1 * n 1 * (1 - c) + c) + x 2 * (n 1 * n 2 * (1 - c) - n 0 * s),
      x 0 * (n 0 * n 2 * (1 - c) - n 1 * s) + x 1 * (n 1 * n 2 * (1 - c) + n 0 * s) + x 2 * (n 2 * n 2 * (1 - c) + c)]
    have hf : ∀ x, f x = c • x + s • cross3 n x + ((1 - c) * dot n x) • n := by
      intro x
      have hd : dot n x = n 0 * x 0 + n 1 * x 1 + n 2 * x 2 := Fin.sum_univ_three _
      rw [hd]
      funext i
      fin_cases i
      · show x 0 * (n 0 * n 0 * (1 - c) + c) + x 1 * (n 0 * n 1 * (1 - c) - n 2 * s) + x 2 * (n 0 * n 2 * (1 - c) + n 1 * s) =
          c * x 0 + s * (n 1 * x 2 - n 2 * x 1) + (1 - c) * (n 0 * x 0 + n 1 * x 1 + n 2 * x 2) * n 0
        ring
      · show x 0 * (n 0 * n 1 * (1 - c) + n 2 * s) + x 1 * (n 1 * n 1 * (1 - c) + c) + x 2 * (n 1 * n 2 * (1 - c) - n 0 * s) =
          c * x 1 + s * (n 2 * x 0 - n 0 * x 2) + (1 - c) * (n 0 * x 0 + n 1 * x 1 + n 2 * x 2) * n 1
        ring
      · show x 0 * (n 0 * n 2 * (1 - c) - n 1 * s) + x 1 * (n 1 * n 2 * (1 - c) + n 0 * s) + x 2 * (n 2 * n 2 * (1 - c) + c) =
          c * x 2 + s * (n 0 * x 1 - n 1 * x 0) + (1 - c) * (n 0 * x 0 + n 1 * x 1 + n 2 * x 2) * n 2
        ring
    let L : (Fin 3 → K) →ₗ[K] (Fin 3 → K) :=
      { toFun := f
        map_add' := by
          intro x y
          funext i
          fin_cases i <;> simp [f] <;> ring
        map_smul' := by
          intro r x
          funext i
          fin_cases i <;> simp [f] <;> ring }
    refine ⟨L, ?_, ?_, ?_, ?_⟩
    · intro x
      unfold rotated3
      rw [hv, R_bind_ok, ← hn', add_zero]
      rfl
    · intro x
      show sqNorm (f x) = sqNorm x
      rw [hf]
      unfold sqNorm dot cross3
      simp only [Fin.sum_univ_three, Pi.add_apply, Pi.smul_apply, smul_eq_mul, Matrix.cons_val_zero, Matrix.cons_val_one, Matrix.cons_val_two,
        Matrix.head_cons, Matrix.tail_cons, Matrix.cons_val]
      generalize x 0 = x0, x 1 = x1, x 2 = x2, n 0 = n0, n 1 = n1, n 2 = n2 at *
      linear_combination (x0 * x0 + x1 * x1 + x2 * x2) * hcs + (s * s * (x0 * x0 + x1 * x1 + x2 * x2) + (1 - c) ^ 2 * (n0 * x0 + n1 * x1 + n2 * x2) ^ 2) * hn1
        - (n0 * x0 + n1 * x1 + n2 * x2) ^ 2 * hcs
    · show f ax = ax
      have e : n = q • ax := hn'
      have e1 : cross3 n ax = 0 := by
        rw [e]; funext i; fin_cases i
        · show q * ax 1 * ax 2 - q * ax 2 * ax 1 = 0; ring
        · show q * ax 2 * ax 0 - q * ax 0 * ax 2 = 0; ring
        · show q * ax 0 * ax 1 - q * ax 1 * ax 0 = 0; ring
      have e2 : (dot n ax) • n = ax := by
        rw [e, smul_smul]
        have : dot (q • ax) ax * q = 1 := by
          unfold dot; simp only [Fin.sum_univ_three, Pi.smul_apply, smul_eq_mul]; linear_combination hqq
        rw [this, one_smul]
      rw [hf, e1, smul_zero, add_zero, mul_smul, e2, ← add_smul, add_sub_cancel, one_smul]
    · intro y hy
      show f y = _
      have e1 : dot n y = 0 := by
        rw [hn']; unfold dot at hy ⊢; simp only [Pi.smul_apply, smul_eq_mul, mul_assoc]; rw [← Finset.mul_sum, hy, mul_zero]
      have e2 : cross3 n y = q • cross3 ax y := by
        rw [hn']; funext i; fin_cases i <;> simp [cross3] <;> ring
      rw [hf, e1, mul_zero, zero_smul, add_zero, e2]
  · rintro rfl x
    unfold rotated3 adimV vdiv
    rw [vnorm_zero hs, if_pos rfl]
    rfl

/-- C47, matrices: `transformed(pt,Loc,M)` is affine, and the homogeneous 4×4 matrix does the same. -/
theorem C47_matrix (Loc : Fin 3 → K) (M : Matrix (Fin 3) (Fin 3) K) :
    IsAffine (fun x => .ok (transformed Loc M x)) M.mulVecLin Loc ∧
    ∀ x, transformed4 (trfMatrix Loc M) x = transformed Loc M x := by
  refine ⟨fun _ => rfl, fun x => ?_⟩
  funext i
  fin_cases i <;> simp [transformed4, trfMatrix, transformed, Matrix.mulVec, dotProduct, Fin.sum_univ_succ] <;> ring

/-- Affine maps of the samples: a translation of the plane, and a rotation by the angle of cosine 3/5. -/
example : Sample.c.Good ∧ Sample.c.BigOk (1/1000000) ∧ IsAffine (K := ℚ) (fun x => .ok (translated (2, 3) x)) LinearMap.id ((2, 3) : ℚ × ℚ) ∧
    (3/5 * (3/5) + 4/5 * (4/5) = (1 : ℚ)) ∧ rotated2 (fun _ => 3/5) (fun _ => 4/5) (1 : ℚ) ![5, 0] = ![3, 4] :=
  ⟨Sample.c_good, Or.inl (by decide), C47_translate _, by norm_num, by funext i; fin_cases i <;> simp [rotated2] <;> norm_num⟩

/-- A rational curve without null weight, and its weight at a parameter. -/
example : Sample.rc.Good ∧ Sample.rc.BigOk (1/1000000) ∧ (∀ x ∈ Sample.rc.poles, x.2 ≠ 0) ∧
    Sample.rc.value (1/1000000) 0 3 = .ok ((6, 0), 1) ∧ ((6, 0), (1 : ℚ)).2 ≠ 0 :=
  ⟨Sample.rc_good, Or.inl (by decide), by decide +kernel, by decide +kernel, by norm_num⟩

end Gbs
