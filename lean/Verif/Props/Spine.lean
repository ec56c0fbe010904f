import Verif.Lemmas.Spine

/-!
# C87: loft on a spine (`gbs/bssbuild.h`)
-/

namespace Gbs

set_option linter.unusedSectionVars false

open Polynomial
open scoped BigOperators

variable {K : Type} [Field K] [LinearOrder K] [IsStrictOrderedRing K]
variable {V : Type} [AddCommGroup V] [Module K V]
variable {P : Type} [AddCommGroup P] [Module K P]

/-- Points and tangents at the parameters `v` determine a curve of degree `q` on the knots `kv`: only null poles give null points and tangents. -/
def Spec.HermiteDetermines (eps : K) (kv : List K) (q : ℕ) (v : List K) : Prop :=
  ∀ Q : List K, Q.length = 2 * v.length → (∀ t ∈ v, ∀ d, d < 2 → ∀ junk, evalValue eps junk t kv Q q d = .ok 0) → ∀ y ∈ Q, y = 0

theorem hermite_regular {eps : K} (heps : 0 < eps) {q : ℕ} (hq : q ≤ stackMaxDegree) {kv v : List K} (hV : KWf q kv (2 * v.length))
    (hin : ∀ b ∈ v, kf kv q ≤ b ∧ b ≤ kf kv (2 * v.length)) {sp : ℕ → ℕ} (hsp : Spans kv v q (2 * v.length) sp)
    (hdet : Spec.HermiteDetermines eps kv q v) : Spec.Regular (2 * v.length) (coll kv v q 2 sp) := by
  intro y hy j hj
  have := hdet ((List.range (2 * v.length)).map y) (by simp)
    (by
      intro t ht d hd junk
      obtain ⟨i, hi⟩ := List.getElem?_of_mem ht
      obtain ⟨hil, hit⟩ := kf_of_some hi
      set Q := (List.range (2 * v.length)).map y with hQ
      have hlQ : Q.length = 2 * v.length := by simp [hQ]
      have hw : Wf q kv Q := hV.wf hlQ
      have hg : (⟨q, Q, kv, kf kv q, kf kv Q.length⟩ : Curve K K).Good := ⟨hw, rfl, rfl⟩
      obtain ⟨h1, h2⟩ := hin t ht
      rw [evalValue_all hw (Curve.evalOk heps hg (Or.inl hq) h1 (by show t < kf kv Q.length + eps; rw [hlQ]; linarith)) d
        (by rw [hlQ, ← hit]; exact hsp.find i hil), hlQ, ← hy (2 * i + d) (by omega)]
      congr 1
      unfold spanDer
      apply Finset.sum_congr rfl
      intro c hc
      rw [coll_row hd, smul_eq_mul, hQ, pf_map_range y (Finset.mem_range.mp hc), hit])
  exact this (y j) (List.mem_map.mpr ⟨j, List.mem_range.mpr hj, rfl⟩)

/-- The poles of the derivative across section `j`: the tangent `D j` of the spine, lifted at each pole of the section. -/
def Spec.crossPoles (nrm : V → K) (proj : P → V) (lift : K → V → P → P) (x : ℕ → ℕ → P) (y D : ℕ → V) (nu n j : ℕ) : List P :=
  (List.range nu).map fun i => lift (Spec.spineFactor nrm (fun k => proj (x i k)) y n j) (D j) (x i j)

/-- The data found on the spine: the parameter `ts[j]` of the point of the spine nearest to section `j`, the point `y j` and the tangent `D j` there;
consecutive points are different. -/
structure Spec.OnSpine (eps junk : K) (nrm : V → K) (ext : CurveInfo K P → R (K × K × K)) (spine : Curve K V) (out : List (CurveInfo K P)) (ts : List K)
    (y D : ℕ → V) : Prop where
  len : ts.length = out.length
  found : ∀ (j : ℕ) c t, out[j]? = some c → ts[j]? = some t → ∃ w e, ext c = .ok (t, w, e)
  value : ∀ (j : ℕ) t, ts[j]? = some t → spine.value eps junk t 0 = .ok (y j) ∧ spine.value eps junk t 1 = .ok (D j)
  apart : ∀ k, k + 1 < out.length → nrm (y (k + 1) - y k) ≠ 0

/-- Polynomial or rational sections. -/
theorem spine_loft {eps : K} (heps : 0 < eps) (junk : K) {dense : ℕ → (ℕ → ℕ → K) → List P → R (List P)} (hS : Spec.SolvesDense dense)
    {dist : P → P → K} (hdist : ∀ a b, 0 ≤ dist a b) {nrm : V → K} (hnrm : ∀ x, 0 ≤ nrm x) (proj : P → V) (lift : K → V → P → P)
    {c0 : CurveInfo K P} {cs : List (CurveInfo K P)} (hcs : cs ≠ []) (hdeg : ∀ c ∈ c0 :: cs, c.deg ≤ 12)
    (hcl : ∀ c ∈ c0 :: cs, ∃ ks ms, c.toCurve.ClampedBy eps ks ms)
    (hsep : SepL eps ((c0 :: cs).flatMap fun c => c.knots.map (rescale (kf c0.knots 0) (kLast c0.knots) c.knots)))
    {qMax q n : ℕ} (hn : n = cs.length + 1) (hqd : q = max (min qMax (n - 1)) 1) (hq : q ≤ stackMaxDegree)
    (hmem : (13 * Spec.totalKnots (c0 :: cs)) * (2 * n + q + 1) < 2 ^ 64) :
    ∃ out p W, (unifyDegree eps (c0 :: cs) >>= unifyKnots eps) = .ok out ∧ List.Forall₂ (Unified eps c0.toCurve.b0 c0.toCurve.b1 p W) (c0 :: cs) out ∧ (∀ c ∈ c0 :: cs, c.deg ≤ p) ∧
      (∃ c ∈ c0 :: cs, c.deg = p) ∧
      (∀ c ∈ out, c.deg = p ∧ c.knots = W ∧ c.Clamped) ∧ p ≤ 12 ∧
      ∀ (ext : CurveInfo K P → R (K × K × K)) (spine : Curve K V) (ts : List K) (y D : ℕ → V), Spec.OnSpine eps junk nrm ext spine out ts y D →
        ∀ (nu : ℕ) (v : List K), nu + p + 1 = W.length → v = (List.range n).map (Spec.spineParam eps dist (poleOf out) nu n) →
          0 < Spec.spineParam eps dist (poleOf out) nu n (n - 1) →
          (∀ kv, buildSimpleMultFlatKnots 0 (Spec.spineParam eps dist (poleOf out) nu n (n - 1)) (2 * n) q = .ok kv → Spec.HermiteDetermines eps kv q v) →
          ∃ s, spineLoft eps junk dist nrm proj lift dense ext (c0 :: cs) spine qMax = .ok s ∧ s.Cl ∧ s.degU = p ∧ s.degV = q ∧
            s.u0 = c0.toCurve.b0 ∧ s.u1 = c0.toCurve.b1 ∧ s.v0 = 0 ∧ s.v1 = Spec.spineParam eps dist (poleOf out) nu n (n - 1) ∧
            ∀ (j : ℕ) c b, (c0 :: cs)[j]? = some c → v[j]? = some b → Spec.IsoIs eps s c0.toCurve.b0 c0.toCurve.b1 c b ∧
              ∀ u i, c0.toCurve.b0 ≤ u → u ≤ c0.toCurve.b1 → findSpan nu p u W = .ok i → ∀ junk' du,
                s.value eps junk' u b du 1 =
                  .ok (spanDer (kf W) nu p i (pf (Spec.crossPoles nrm proj lift (poleOf out) y D nu n j)) du u) := by
  obtain ⟨mid, out, p, W, e1, e2, hp12, h1, h2, hone, hU, hall, hsepW, hb0, hb1, hWl⟩ := loft_unify heps hdeg hcl hsep
  have hlo : out.length = n := by rw [← hU.length_eq, hn]; rfl
  refine ⟨out, p, W, by rw [e1]; exact e2, hU, h1, h2, hall, hp12, ?_⟩
  rintro ext spine ts y D ⟨hts, hext, hyD, hpos⟩ nu v hnu hv hlast hdet
  have hn2 : 2 ≤ n := by
    have := List.length_pos_iff.mpr hcs
    omega
  have hs24 : stackMaxDegree = 24 := rfl
  have h0o : 0 < out.length := by omega
  obtain ⟨a1, a2, a3⟩ := hall _ (List.getElem_mem h0o)
  have hkc := a3.kc
  have hnuc : ∀ c ∈ out, c.poles.length = nu := by
    intro c hc
    obtain ⟨b1, b2, b3⟩ := hall c hc
    have := b3.len
    rw [b1, b2] at this
    omega
  have hnu0 : (out[0]).poles.length = nu := hnuc _ (List.getElem_mem h0o)
  have hKU : KWf p W nu := by have := hkc.wf.kwf; rwa [a2, a1, hnu0] at this
  have w0 : kf W 0 = kf W p := by have := hkc.kf_zero.trans hkc.d0.symm; rwa [a2, a1] at this
  have w1 : kLast W = kf W nu := by have := hkc.kLast.trans hkc.d1.symm; rwa [a2, hnu0] at this
  set vl := Spec.spineParam eps dist (poleOf out) nu n (n - 1) with hvl
  have hvlen : v.length = n := by rw [hv]; simp
  have hvj : ∀ j, j < n → v[j]? = some (Spec.spineParam eps dist (poleOf out) nu n j) := by
    intro j hj
    rw [hv, List.getElem?_map, List.getElem?_range hj]
    rfl
  have hqn : q + 1 ≤ 2 * n := by omega
  obtain ⟨kv, ekv, hlk, k0, k1, -, hwfk⟩ := C54_uniform_knots (V := K) (n := 2 * n) (p := q) hqn hlast
  have hV : KWf q kv (2 * n) := by
    have h := hwfk (List.replicate (2 * n) 0) (by simp)
    have := h.kwf
    rwa [List.length_replicate] at this
  have g0 : kf kv 0 = 0 := (kf_of_some (k0 0 (by omega))).2
  have gq : kf kv q = 0 := (kf_of_some (k0 q le_rfl)).2
  have gn : kf kv (2 * n) = vl := (kf_of_some (k1 (2 * n) le_rfl (by omega))).2
  have gl : kLast kv = vl := by
    have := (kf_of_some (k1 (2 * n + q) (by omega) le_rfl)).2
    rw [← this]
    unfold kLast
    rw [hlk, show 2 * n + q + 1 - 1 = 2 * n + q by omega]
  have hin : ∀ b ∈ v, kf kv q ≤ b ∧ b ≤ kf kv (2 * n) := by
    intro b hb
    rw [gq, gn]
    rw [hv] at hb
    obtain ⟨j, hj, rfl⟩ := List.mem_map.mp hb
    have hj := List.mem_range.mp hj
    refine ⟨?_, spineParam_mono heps hdist _ _ _ (by omega)⟩
    rw [← spineParam_zero eps dist (poleOf out) nu n]
    exact spineParam_mono heps hdist _ _ _ (by omega)
  have hreg : ∀ sp, Spans kv v q (2 * n) sp → Spec.Regular (2 * n) (coll kv v q 2 sp) := by
    intro sp hsp
    have := hermite_regular heps hq (kv := kv) (v := v) (by rw [hvlen]; exact hV) (by rw [hvlen]; exact hin) (sp := sp) (by rw [hvlen]; exact hsp)
      (hdet kv ekv)
    rwa [hvlen] at this
  have hWm : (nu + p + 1) * (2 * n + q + 1) < 2 ^ 64 := by
    rw [hnu]
    exact lt_of_le_of_lt (Nat.mul_le_mul_right _ hWl) hmem
  obtain ⟨X, s, eX, es, hwf, d1, d2, d3, d4, d5, d6, hval⟩ := hermite_surface heps junk hS (by omega) hq hvlen hKU w0 w1 hV (by rw [g0, gq])
    (by rw [gl, gn]) hin hreg hWm (poleOf out)
    (fun i j => lift (Spec.spineFactor nrm (fun k => proj (poleOf out i k)) y n j) (D j) (poleOf out i j))
  refine ⟨s, ?_, hwf, d1, d2, by rw [d3, hb0], by rw [d4, hb1], by rw [d5, gq], by rw [d6, gn], ?_⟩
  · unfold spineLoft
    rw [if_neg (by rw [List.length_cons]; omega), e1, R_bind_ok, e2, R_bind_ok, rd_ok h0o, R_bind_ok, hnu0, alignedPoles_spec hnuc, R_bind_ok,
      alignedParams_spec heps hdist (by have := hKU.min; omega) (by omega), R_bind_ok, hlo, ← hv,
      spineTangents_spec hnrm proj lift (by omega) (by omega) hext (fun j t h => (hyD j t h).1) (fun j t h => (hyD j t h).2)
        (fun k hk => hpos k (by omega)), R_bind_ok]
    simp only
    rw [← hqd, rd_eq_ok.mpr (hvj 0 (by omega)), R_bind_ok, rd_eq_ok.mpr (hvj (n - 1) (by omega)), R_bind_ok, spineParam_zero, Nat.mul_comm n 2, ← hvl, ekv,
      R_bind_ok, poleRows_eq, hlo, hermiteColumns_spec, R_bind_ok, eX, R_bind_ok, a2, a1, es]
  · intro j c b hc hb
    have hjl : j < (c0 :: cs).length := (List.getElem?_eq_some_iff.mp hc).1
    have hjo : j < out.length := by rw [← hU.length_eq]; exact hjl
    have hcj : (c0 :: cs)[j] = c := (List.getElem?_eq_some_iff.mp hc).2
    have hu := hU.get hjl hjo
    simp only [List.get_eq_getElem] at hu
    rw [hcj] at hu
    have hlt : c0.toCurve.b0 < c0.toCurve.b1 := by
      rw [← hb0, ← hb1, w0, w1]
      exact lt_of_lt_of_le hKU.first (kf_mono hKU.sorted hKU.min)
    have hcm : out[j] ∈ out := List.getElem_mem hjo
    obtain ⟨b1, b2, b3⟩ := hall _ hcm
    refine ⟨isoIs_of_unified hlt hu ?_, ?_⟩
    · intro u du jk jk' h3 h4
      obtain ⟨i, ei, -, -, -, ev⟩ := Curve.value_span heps b3.kc.good (Or.inl (by show (out[j]).deg ≤ _; rw [b1]; omega)) (u := u)
        (by show kf (out[j]).knots 0 ≤ u; rw [b2, hb0]; exact h3) (by show u ≤ kLast (out[j]).knots; rw [b2, hb1]; exact h4)
      have ei' : findSpan nu p u W = .ok i := by rw [← hnuc _ hcm, ← b1, ← b2]; exact ei
      rw [ev, (hval j b hb u i (by rw [hb0]; exact h3) (by rw [hb1]; exact h4) ei' jk du).1,
        show (out[j]).toCurve.poles = (out[j]).poles from rfl, show (out[j]).toCurve.knots = W from b2, show (out[j]).toCurve.deg = p from b1, hnuc _ hcm]
      congr 2
      funext a
      exact poleOf_eq (List.getElem?_eq_getElem hjo)
    · intro u i h3 h4 hi jk du
      rw [(hval j b hb u i (by rw [hb0]; exact h3) (by rw [hb1]; exact h4) hi jk du).2]
      congr 1
      unfold spanDer Spec.crossPoles
      apply Finset.sum_congr rfl
      intro a ha
      rw [pf_map_range _ (Finset.mem_range.mp ha)]

/-- The value of a curve on clamped knots, in terms of its poles. -/
theorem info_value_span {eps : K} (heps : 0 < eps) {p nu : ℕ} {W : List K} (hp : p ≤ stackMaxDegree) (hU : KWf p W nu) (w0 : kf W 0 = kf W p)
    (w1 : kLast W = kf W nu) {u : K} (h0 : kf W 0 ≤ u) (h1 : u ≤ kLast W) :
    ∃ i, findSpan nu p u W = .ok i ∧ kf W i ≤ u ∧ u ≤ kf W (i + 1) ∧ ∀ T : List P, T.length = nu → ∀ junk du,
      (⟨T, W, p⟩ : CurveInfo K P).toCurve.value eps junk u du = .ok (spanDer (kf W) nu p i (pf T) du u) := by
  obtain ⟨i, e, a1, a2, -, hs, -⟩ := findSpan_kwf hU u
  have hin := hs (by rw [← w0]; exact h0) (by rw [← w1]; exact h1)
  have hb : kf W i ≤ u ∧ u ≤ kf W (i + 1) := by
    unfold Spec.InSpan at hin
    split at hin
    · next h => rw [h]; exact ⟨hin.1.le, hin.2.ge⟩
    · exact ⟨hin.1, hin.2.le⟩
  refine ⟨i, e, hb.1, hb.2, ?_⟩
  intro T hT junk du
  have hg : (⟨T, W, p⟩ : CurveInfo K P).toCurve.Good := ⟨hU.wf hT, w0, by show kLast W = kf W T.length; rw [hT]; exact w1⟩
  obtain ⟨i', e', -, -, -, ev⟩ := Curve.value_span heps hg (Or.inl hp) (u := u) h0 h1
  have : i' = i := by
    have e'' : findSpan nu p u W = .ok i' := by rw [← hT]; exact e'
    rw [e] at e''
    exact (Except.ok.inj e'').symm
  rw [ev, this]
  show Except.ok (spanDer (kf W) T.length p i (pf T) du u) = _
  rw [hT]

theorem spanDer_lift {p nu i : ℕ} {W : List K} (hU : KWf p W nu) {u : K} (h0 : kf W i ≤ u) (h1 : u ≤ kf W (i + 1)) {f : ℕ → K} (hf : ∀ a, a < nu → 0 ≤ f a)
    (d : V) : ∃ lam : K, 0 ≤ lam ∧ spanDer (kf W) nu p i (fun a => f a • d) 0 u = lam • d := by
  refine ⟨∑ a ∈ Finset.range nu, B (kf W) i p a u * f a, ?_, ?_⟩
  · exact Finset.sum_nonneg fun a ha => mul_nonneg (B_nonneg (kf_mono hU.sorted) p h0 h1 a) (hf a (Finset.mem_range.mp ha))
  · unfold spanDer
    rw [Finset.sum_smul]
    apply Finset.sum_congr rfl
    intro a _
    rw [Function.iterate_zero, id, Bp_eval, smul_smul]

/-- C87, loft of polynomial sections on a spine: at least two clamped sections of degrees at most 12. Let `out` be the sections made compatible, each the
same as the given one; `v` their parameters (averages of the chord lengths of the rows of poles) and `D j` the tangent of the spine at its point
nearest to section `j`. If points and tangents at `v` determine the curves of the degree and knots across, the loft returns a surface, on the interval
of the first section, whose iso-curve at `v[j]` is section `j`, and whose derivative across it is a multiple of the tangent of the spine, with a factor
that is not negative; more precisely the curve with poles the tangent scaled by the distances to the neighbouring poles. Of the dense solver
only the solution of regular systems is asked. -/
theorem C87_spine_loft_partial {eps : K} (heps : 0 < eps) (junk : K) {dense : ℕ → (ℕ → ℕ → K) → List V → R (List V)} (hS : Spec.SolvesDense dense)
    {dist : V → V → K} (hdist : ∀ a b, 0 ≤ dist a b) {nrm : V → K} (hnrm : ∀ x, 0 ≤ nrm x)
    {c0 : CurveInfo K V} {cs : List (CurveInfo K V)} (hcs : cs ≠ []) (hdeg : ∀ c ∈ c0 :: cs, c.deg ≤ 12)
    (hcl : ∀ c ∈ c0 :: cs, ∃ ks ms, c.toCurve.ClampedBy eps ks ms)
    (hsep : SepL eps ((c0 :: cs).flatMap fun c => c.knots.map (rescale (kf c0.knots 0) (kLast c0.knots) c.knots)))
    {qMax q n : ℕ} (hn : n = cs.length + 1) (hqd : q = max (min qMax (n - 1)) 1) (hq : q ≤ stackMaxDegree)
    (hmem : (13 * Spec.totalKnots (c0 :: cs)) * (2 * n + q + 1) < 2 ^ 64) :
    ∃ out p W, (unifyDegree eps (c0 :: cs) >>= unifyKnots eps) = .ok out ∧ List.Forall₂ (Unified eps c0.toCurve.b0 c0.toCurve.b1 p W) (c0 :: cs) out ∧ (∀ c ∈ c0 :: cs, c.deg ≤ p) ∧
      (∃ c ∈ c0 :: cs, c.deg = p) ∧
      ∀ (ext : CurveInfo K V → R (K × K × K)) (spine : Curve K V) (ts : List K) (y D : ℕ → V), Spec.OnSpine eps junk nrm ext spine out ts y D →
        ∀ (nu : ℕ) (v : List K), nu + p + 1 = W.length → v = (List.range n).map (Spec.spineParam eps dist (poleOf out) nu n) →
          0 < Spec.spineParam eps dist (poleOf out) nu n (n - 1) →
          (∀ kv, buildSimpleMultFlatKnots 0 (Spec.spineParam eps dist (poleOf out) nu n (n - 1)) (2 * n) q = .ok kv → Spec.HermiteDetermines eps kv q v) →
          ∃ s, spineLoft eps junk dist nrm id tangentPole dense ext (c0 :: cs) spine qMax = .ok s ∧ s.Wf ∧ s.degU = p ∧ s.degV = q ∧
            s.u0 = c0.toCurve.b0 ∧ s.u1 = c0.toCurve.b1 ∧ s.v0 = 0 ∧ s.v1 = Spec.spineParam eps dist (poleOf out) nu n (n - 1) ∧
            ∀ (j : ℕ) c b, (c0 :: cs)[j]? = some c → v[j]? = some b → Spec.IsoIs eps s c0.toCurve.b0 c0.toCurve.b1 c b ∧
              ∀ u, c0.toCurve.b0 ≤ u → u ≤ c0.toCurve.b1 → ∀ junk' junk'' : K,
                (∀ du, s.value eps junk' u b du 1 =
                  (⟨Spec.crossPoles nrm id tangentPole (poleOf out) y D nu n j, W, p⟩ : CurveInfo K V).toCurve.value eps junk'' u du) ∧
                ∃ lam : K, 0 ≤ lam ∧ s.value eps junk' u b 0 1 = .ok (lam • D j) := by
  obtain ⟨out, p, W, eo, hU, h1, h2, hall, hp12, H⟩ := spine_loft heps junk hS hdist hnrm id tangentPole hcs hdeg hcl hsep hn hqd hq hmem
  refine ⟨out, p, W, eo, hU, h1, h2, ?_⟩
  intro ext spine ts y D hon nu v hnu hv hlast hdet
  obtain ⟨s, es, hs, d1, d2, d3, d4, d5, d6, hval⟩ := H ext spine ts y D hon nu v hnu hv hlast hdet
  refine ⟨s, es, hs.wf, d1, d2, d3, d4, d5, d6, ?_⟩
  have hs24 : stackMaxDegree = 24 := rfl
  intro j c b hc hb
  obtain ⟨i1, i2⟩ := hval j c b hc hb
  refine ⟨i1, ?_⟩
  intro u u0 u1 jk jk'
  obtain ⟨c0', cs', h0, -, rfl⟩ := List.forall₂_cons_left_iff.mp hU
  obtain ⟨a1, a2, a3⟩ := hall c0' List.mem_cons_self
  have hkc := a3.kc
  have hnu0 : c0'.poles.length = nu := by have := a3.len; rw [a1, a2] at this; omega
  have hKU : KWf p W nu := by have := hkc.wf.kwf; rwa [a2, a1, hnu0] at this
  have w0 : kf W 0 = kf W p := by have := hkc.kf_zero.trans hkc.d0.symm; rwa [a2, a1] at this
  have w1 : kLast W = kf W nu := by have := hkc.kLast.trans hkc.d1.symm; rwa [a2, hnu0] at this
  have g0 : kf W 0 = c0.toCurve.b0 := by rw [← h0.b0, ← a2]; rfl
  have g1 : kLast W = c0.toCurve.b1 := by rw [← h0.b1, ← a2]; rfl
  obtain ⟨i, ei, z0, z1, hT⟩ := info_value_span (P := V) heps (by omega) hKU w0 w1 (u := u) (by rw [g0]; exact u0) (by rw [g1]; exact u1)
  constructor
  · intro du
    rw [i2 u i u0 u1 ei, hT _ (by simp [Spec.crossPoles])]
  · obtain ⟨lam, hl, e⟩ := spanDer_lift (p := p) hKU z0 z1 (f := fun a => Spec.spineFactor nrm (fun k => id (poleOf (c0' :: cs') a k)) y n j)
      (fun a _ => spineFactor_nonneg hnrm _ _ _ _) (D j)
    refine ⟨lam, hl, ?_⟩
    rw [i2 u i u0 u1 ei, ← e]
    congr 1
    unfold spanDer Spec.crossPoles
    apply Finset.sum_congr rfl
    intro a ha
    rw [pf_map_range _ (Finset.mem_range.mp ha)]
    rfl

/-- C87, loft of rational sections on a spine, the compatible sections having positive weights: besides the sections in homogeneous
coordinates, the derivative across each section, projected, is a multiple of the tangent of the spine. -/
theorem C87_spine_loft_rational_partial {eps : K} (heps : 0 < eps) (junk : K) {dense : ℕ → (ℕ → ℕ → K) → List (V × K) → R (List (V × K))}
    (hS : Spec.SolvesDense dense) {dist : V × K → V × K → K} (hdist : ∀ a b, 0 ≤ dist a b) {nrm : V → K} (hnrm : ∀ x, 0 ≤ nrm x)
    {c0 : CurveInfo K (V × K)} {cs : List (CurveInfo K (V × K))} (hcs : cs ≠ []) (hdeg : ∀ c ∈ c0 :: cs, c.deg ≤ 12)
    (hcl : ∀ c ∈ c0 :: cs, ∃ ks ms, c.toCurve.ClampedBy eps ks ms)
    (hsep : SepL eps ((c0 :: cs).flatMap fun c => c.knots.map (rescale (kf c0.knots 0) (kLast c0.knots) c.knots)))
    {qMax q n : ℕ} (hn : n = cs.length + 1) (hqd : q = max (min qMax (n - 1)) 1) (hq : q ≤ stackMaxDegree)
    (hmem : (13 * Spec.totalKnots (c0 :: cs)) * (2 * n + q + 1) < 2 ^ 64) :
    ∃ out p W, (unifyDegree eps (c0 :: cs) >>= unifyKnots eps) = .ok out ∧ List.Forall₂ (Unified eps c0.toCurve.b0 c0.toCurve.b1 p W) (c0 :: cs) out ∧ (∀ c ∈ c0 :: cs, c.deg ≤ p) ∧
      (∃ c ∈ c0 :: cs, c.deg = p) ∧
      ∀ (ext : CurveInfo K (V × K) → R (K × K × K)) (spine : Curve K V) (ts : List K) (y D : ℕ → V), Spec.OnSpine eps junk nrm ext spine out ts y D →
        (∀ c ∈ out, ∀ x ∈ c.poles, 0 < x.2) →
        ∀ (nu : ℕ) (v : List K), nu + p + 1 = W.length → v = (List.range n).map (Spec.spineParam eps dist (poleOf out) nu n) →
          0 < Spec.spineParam eps dist (poleOf out) nu n (n - 1) →
          (∀ kv, buildSimpleMultFlatKnots 0 (Spec.spineParam eps dist (poleOf out) nu n (n - 1)) (2 * n) q = .ok kv → Spec.HermiteDetermines eps kv q v) →
          ∃ s, spineLoft eps junk dist nrm weightProjection tangentPoleRat dense ext (c0 :: cs) spine qMax = .ok s ∧ s.Wf ∧ s.degU = p ∧ s.degV = q ∧
            s.u0 = c0.toCurve.b0 ∧ s.u1 = c0.toCurve.b1 ∧ s.v0 = 0 ∧ s.v1 = Spec.spineParam eps dist (poleOf out) nu n (n - 1) ∧
            ∀ (j : ℕ) c b, (c0 :: cs)[j]? = some c → v[j]? = some b → Spec.IsoIs eps s c0.toCurve.b0 c0.toCurve.b1 c b ∧
              ∀ u, c0.toCurve.b0 ≤ u → u ≤ c0.toCurve.b1 → ∀ junk' junk'' : K,
                (∀ du, s.value eps junk' u b du 1 =
                  (⟨Spec.crossPoles nrm weightProjection tangentPoleRat (poleOf out) y D nu n j, W, p⟩ : CurveInfo K (V × K)).toCurve.value eps junk'' u du) ∧
                ∃ lam : K, 0 ≤ lam ∧ s.ratValue eps junk' u b 0 1 = .ok (lam • D j) := by
  obtain ⟨out, p, W, eo, hU, h1, h2, hall, hp12, H⟩ := spine_loft heps junk hS hdist hnrm weightProjection tangentPoleRat hcs hdeg hcl hsep hn hqd hq hmem
  refine ⟨out, p, W, eo, hU, h1, h2, ?_⟩
  intro ext spine ts y D hon hw nu v hnu hv hlast hdet
  obtain ⟨s, es, hs, d1, d2, d3, d4, d5, d6, hval⟩ := H ext spine ts y D hon nu v hnu hv hlast hdet
  refine ⟨s, es, hs.wf, d1, d2, d3, d4, d5, d6, ?_⟩
  have hs24 : stackMaxDegree = 24 := rfl
  intro j c b hc hb
  obtain ⟨i1, i2⟩ := hval j c b hc hb
  refine ⟨i1, ?_⟩
  intro u u0 u1 jk jk'
  have hjl : j < (c0 :: cs).length := (List.getElem?_eq_some_iff.mp hc).1
  have hjo : j < out.length := by rw [← hU.length_eq]; exact hjl
  have hcm : out[j] ∈ out := List.getElem_mem hjo
  have hu := hU.get hjl hjo
  simp only [List.get_eq_getElem] at hu
  rw [(List.getElem?_eq_some_iff.mp hc).2] at hu
  obtain ⟨a1, a2, a3⟩ := hall _ hcm
  have hkc := a3.kc
  have hnu0 : (out[j]).poles.length = nu := by have := a3.len; rw [a1, a2] at this; omega
  have hKU : KWf p W nu := by have := hkc.wf.kwf; rwa [a2, a1, hnu0] at this
  have w0 : kf W 0 = kf W p := by have := hkc.kf_zero.trans hkc.d0.symm; rwa [a2, a1] at this
  have w1 : kLast W = kf W nu := by have := hkc.kLast.trans hkc.d1.symm; rwa [a2, hnu0] at this
  have g0 : kf W 0 = c0.toCurve.b0 := by rw [← hu.b0, ← hu.knots]; rfl
  have g1 : kLast W = c0.toCurve.b1 := by rw [← hu.b1, ← hu.knots]; rfl
  obtain ⟨i, ei, z0, z1, hT⟩ := info_value_span (P := V × K) heps (by omega) hKU w0 w1 (u := u) (by rw [g0]; exact u0) (by rw [g1]; exact u1)
  refine ⟨fun du => by rw [i2 u i u0 u1 ei, hT _ (by simp [Spec.crossPoles])], ?_⟩
  have hpw : ∀ a, a < nu → 0 < (poleOf out a j).2 := by
    intro a ha
    rw [poleOf_eq (List.getElem?_eq_getElem hjo)]
    exact hw _ hcm _ (List.mem_of_getElem? (pf_getElem? (by omega)))
  obtain ⟨lam, hl, e⟩ := spanDer_lift (p := p) hKU z0 z1
    (f := fun a => Spec.spineFactor nrm (fun k => weightProjection (poleOf out a k)) y n j * (poleOf out a j).2)
    (fun a ha => mul_nonneg (spineFactor_nonneg hnrm _ _ _ _) (hpw a ha).le) (D j)
  have e1 : ∀ jk, s.value eps jk u b 0 1 = .ok (lam • D j, 0) := by
    intro jk
    rw [i2 u i u0 u1 ei]
    congr 1
    refine Prod.ext ?_ ?_
    · rw [spanDer_fst, ← e]
      unfold spanDer Spec.crossPoles
      apply Finset.sum_congr rfl
      intro a ha
      beta_reduce
      rw [pf_map_range _ (Finset.mem_range.mp ha)]
      rfl
    · rw [spanDer_snd]
      unfold spanDer Spec.crossPoles
      apply Finset.sum_eq_zero
      intro a ha
      beta_reduce
      rw [pf_map_range _ (Finset.mem_range.mp ha)]
      exact smul_zero _
  have hlt : c0.toCurve.b0 < c0.toCurve.b1 := by
    rw [← g0, ← g1, w0, w1]
    exact lt_of_lt_of_le hKU.first (kf_mono hKU.sorted hKU.min)
  obtain ⟨x, hx, hxpos⟩ := C53_weight_pos heps hkc.good (Or.inl (by show (out[j]).deg ≤ _; rw [a1]; omega)) (hw _ hcm) (u := u)
    (by show kf (out[j]).knots 0 ≤ u; rw [a2, g0]; exact u0) (by show u ≤ kLast (out[j]).knots; rw [a2, g1]; exact u1) jk
  have e0 : s.value eps jk u b 0 0 = .ok x := by
    set r := (u - c0.toCurve.b0) / (c0.toCurve.b1 - c0.toCurve.b0) with hr
    have hd : c0.toCurve.b1 - c0.toCurve.b0 ≠ 0 := (sub_pos.mpr hlt).ne'
    have hr0 : 0 ≤ r := div_nonneg (by linarith) (by linarith)
    have hr1 : r ≤ 1 := by rw [hr, div_le_one (by linarith)]; linarith
    have hru : c0.toCurve.b0 + (c0.toCurve.b1 - c0.toCurve.b0) * r = u := by rw [hr, mul_div_cancel₀ _ hd]; ring
    obtain ⟨pt, v1, v2⟩ := i1 r 0 hr0 hr1 jk jk
    obtain ⟨pt', v1', v2'⟩ := hu.value r 0 hr0 hr1 jk jk
    rw [v1] at v1'
    obtain rfl := Except.ok.inj v1'
    have hval' : (out[j]).toCurve.value eps jk u 0 = .ok x := hx
    change (out[j]).toCurve.value eps jk (c0.toCurve.b0 + (c0.toCurve.b1 - c0.toCurve.b0) * r) 0 = _ at v2'
    rw [hru, pow_zero, one_smul] at v2'
    rw [hru, pow_zero, one_smul] at v2
    rw [hval'] at v2'
    rw [v2, v2']
  obtain ⟨hjv, rfl⟩ := kf_of_some hb
  have hvm : v[j]? = some (Spec.spineParam eps dist (poleOf out) nu n j) := by
    have : j < n := by rw [hv] at hjv; simpa using hjv
    rw [hv, List.getElem?_map, List.getElem?_range this]
    rfl
  have hjn : j < n := by rw [hv] at hjv; simpa using hjv
  rw [hb] at hvm
  have hvm := Option.some.inj hvm
  have hIn : s.In u (kf v j) := hs.in (by rw [d3]; exact u0) (by rw [d4]; exact u1)
    (by rw [d5, hvm, ← spineParam_zero eps dist (poleOf out) nu n]; exact spineParam_mono heps hdist _ _ _ (by omega))
    (by rw [d6, hvm]; exact spineParam_mono heps hdist _ _ _ (by omega))
  obtain ⟨i', j', -, -, -, -, -, -, -, -, hv'⟩ := Surface.value_spec heps hs.wf (hs.big eps) hIn
  refine ⟨x.2⁻¹ * lam, mul_nonneg (inv_nonneg.mpr hxpos.le) hl, ?_⟩
  have A00 : surfDer (kf s.knotsU) s.nPU s.degU i' (kf s.knotsV) s.nPV s.degV j' (pf s.poles) 0 0 u (kf v j) = x := by
    have := hv' jk 0 0
    rw [e0] at this
    exact (Except.ok.inj this).symm
  have A01 : surfDer (kf s.knotsU) s.nPU s.degU i' (kf s.knotsV) s.nPV s.degV j' (pf s.poles) 0 1 u (kf v j) = (lam • D j, 0) := by
    have := hv' jk 0 1
    rw [e1] at this
    exact (Except.ok.inj this).symm
  rw [Surface.ratValue_spec heps hs.wf (hs.big eps) hIn (A := fun a b =>
      surfDer (kf s.knotsU) s.nPU s.degU i' (kf s.knotsV) s.nPV s.degV j' (pf s.poles) a b u (kf v j)) (fun a b => ⟨jk, hv' jk a b⟩)
    (by simp only [A00]; exact hxpos.ne') jk (by omega) (by omega), quotB2_eq]
  simp only [A00, A01, Finset.sum_range_succ, Finset.sum_range_zero, zero_add, mul_zero, zero_smul, sub_zero, smul_smul]

/-! ## When points and tangents determine the poles -/

theorem evalValue_span {eps : K} (heps : 0 < eps) {q m i : ℕ} (hq : q ≤ stackMaxDegree) {kv : List K} (hV : KWf q kv m) {Q : List V} (hQ : Q.length = m) {t : K}
    (h1 : kf kv q ≤ t) (h2 : t ≤ kf kv m) (hi : findSpan m q t kv = .ok i) (junk : K) (d : ℕ) :
    evalValue eps junk t kv Q q d = .ok (spanDer (kf kv) m q i (pf Q) d t) := by
  subst hQ
  have hw : Wf q kv Q := hV.wf rfl
  have hg : (⟨q, Q, kv, kf kv q, kf kv Q.length⟩ : Curve K V).Good := ⟨hw, rfl, rfl⟩
  exact evalValue_all hw (Curve.evalOk heps hg (Or.inl hq) h1 (by show t < kf kv Q.length + eps; linarith)) d hi

/-- Two sections: points and tangents always determine the poles. -/
theorem C87_two_sections {eps L : K} (heps : 0 < eps) (hL : 0 < L) {kv : List K} (hkv : buildSimpleMultFlatKnots 0 L 4 1 = .ok kv) :
    Spec.HermiteDetermines eps kv 1 [0, L] := by
  obtain ⟨k, ek, lk, k0, k1, km, hw⟩ := C54_uniform_knots (V := K) (n := 4) (p := 1) (by omega) hL
  rw [hkv] at ek
  obtain rfl := Except.ok.inj ek
  have hV : KWf 1 kv 4 := (hw (List.replicate 4 0) (by simp)).kwf
  have e0 : kf kv 0 = 0 := (kf_of_some (k0 0 (by omega))).2
  have e1 : kf kv 1 = 0 := (kf_of_some (k0 1 (by omega))).2
  have e2 : kf kv 2 = L / 4 := by
    rw [(kf_of_some (km 1 (by omega) (by omega))).2]; push_cast; ring
  have e3 : kf kv 3 = L / 2 := by
    rw [(kf_of_some (km 2 (by omega) (by omega))).2]; push_cast; ring
  have e4 : kf kv 4 = L := (kf_of_some (k1 4 (by omega) (by omega))).2
  have e5 : kf kv 5 = L := (kf_of_some (k1 5 (by omega) (by omega))).2
  have hm := kf_mono hV.sorted
  intro Q hQ hval
  have hQ4 : Q.length = 4 := hQ
  have f0 : findSpan 4 1 (0 : K) kv = .ok 1 := findSpan_of hV (by omega) (by omega) (by rw [e1]) (by rw [e2]; linarith)
  have f1 : findSpan 4 1 L kv = .ok 3 := by
    obtain ⟨i, e, -, -, -, -, h, -⟩ := findSpan_kwf hV L
    rw [e, h (by rw [e4])]
  have hs : (1 : ℕ) ≤ stackMaxDegree := by decide
  have a00 := hval 0 (by simp) 0 (by omega) 0
  have a01 := hval 0 (by simp) 1 (by omega) 0
  have a10 := hval L (by simp) 0 (by omega) 0
  have a11 := hval L (by simp) 1 (by omega) 0
  rw [evalValue_span heps hs hV hQ4 (by rw [e1]) (by rw [e4]; exact hL.le) f0] at a00 a01
  rw [evalValue_span heps hs hV hQ4 (by rw [e1]; exact hL.le) (by rw [e4]) f1] at a10 a11
  have a00 := Except.ok.inj a00
  have a01 := Except.ok.inj a01
  have a10 := Except.ok.inj a10
  have a11 := Except.ok.inj a11
  rw [spanDer_zero _ (by omega) (by omega)] at a00 a10
  rw [spanDer_succ hm (by omega) (by omega), spanDer_zero _ (by omega) (by omega)] at a01 a11
  simp only [List.replicate, bl, dbStep, derP, List.length_nil, Nat.reduceAdd, Nat.reduceSub, e1, e2, e3, e4, smul_eq_mul] at a00 a01 a10 a11
  have hL0 := hL.ne'
  have q0 : pf Q 0 = 0 := by
    rw [sub_self, zero_div, zero_mul, add_zero, sub_zero, div_self (by positivity), one_mul] at a00
    exact a00
  have q3 : pf Q 3 = 0 := by
    rw [sub_self, zero_div, zero_mul, zero_add, div_self (by intro h; apply hL0; linarith), one_mul] at a10
    exact a10
  have q1 : pf Q 1 = 0 := by
    rcases mul_eq_zero.mp a01 with h | h
    · exact absurd h (by rw [sub_zero]; push_cast; positivity)
    · rw [q0] at h; simpa using h
  have q2 : pf Q 2 = 0 := by
    rcases mul_eq_zero.mp a11 with h | h
    · exact absurd h (by rw [show L - L / 2 = L / 2 by ring]; push_cast; positivity)
    · rw [q3] at h; simpa using h
  intro y hy
  obtain ⟨i, hi⟩ := List.getElem?_of_mem hy
  have hil : i < Q.length := (List.getElem?_eq_some_iff.mp hi).1
  have : i = 0 ∨ i = 1 ∨ i = 2 ∨ i = 3 := by rw [hQ4] at hil; omega
  have hi := pf_of_some hi
  subst hi
  rcases this with rfl | rfl | rfl | rfl <;> assumption

/-- A quadratic polynomial between two points: the chord has the mean of the two tangents. -/
theorem quad_chord {f : Polynomial K} (hf : f.natDegree ≤ 2) (a b : K) :
    2 * (f.eval b - f.eval a) = (b - a) * (f.derivative.eval a + f.derivative.eval b) := by
  rw [f.as_sum_range_C_mul_X_pow' (show f.natDegree < 3 by omega)]
  simp [Finset.sum_range_succ]
  ring

/-- The uniform knots of three sections. -/
theorem three_knots {L : K} (hL : 0 < L) {kv : List K} (hkv : buildSimpleMultFlatKnots 0 L 6 2 = .ok kv) :
    KWf 2 kv 6 ∧ kf kv 2 = 0 ∧ kf kv 3 = L / 5 ∧ kf kv 4 = 2 * L / 5 ∧ kf kv 5 = 3 * L / 5 ∧ kf kv 6 = L ∧ kf kv 1 = 0 ∧ kf kv 7 = L := by
  obtain ⟨k, ek, lk, k0, k1, km, hw⟩ := C54_uniform_knots (V := K) (n := 6) (p := 2) (by omega) hL
  rw [hkv] at ek
  obtain rfl := Except.ok.inj ek
  refine ⟨(hw (List.replicate 6 0) (by simp)).kwf, (kf_of_some (k0 2 (by omega))).2, ?_, ?_, ?_, (kf_of_some (k1 6 (by omega) (by omega))).2,
    (kf_of_some (k0 1 (by omega))).2, (kf_of_some (k1 7 (by omega) (by omega))).2⟩
  · rw [(kf_of_some (km 1 (by omega) (by omega))).2]; push_cast; ring
  · rw [(kf_of_some (km 2 (by omega) (by omega))).2]; push_cast; ring
  · rw [(kf_of_some (km 3 (by omega) (by omega))).2]; push_cast; ring

theorem three_last {L t : K} (hL : 0 < L) {kv : List K} (hkv : buildSimpleMultFlatKnots 0 L 6 2 = .ok kv) (h1 : 3 * L / 5 ≤ t) (h2 : t ≤ L) :
    findSpan 6 2 t kv = .ok 5 := by
  obtain ⟨hV, -, -, -, e5, e6, -⟩ := three_knots hL hkv
  rcases lt_or_eq_of_le h2 with h | rfl
  · exact findSpan_of hV (by omega) (by omega) (by rw [e5]; exact h1) (by rw [e6]; exact h)
  · obtain ⟨i, e, -, -, -, -, h, -⟩ := findSpan_kwf hV t
    rw [e, h (by rw [e6])]

theorem three_ends {L : K} (hL : 0 < L) {kv : List K} (hkv : buildSimpleMultFlatKnots 0 L 6 2 = .ok kv) (Q : ℕ → V) {d : ℕ} (hd : d < 2) :
    (Q 0 = 0 → Q 1 = 0 → spanDer (kf kv) 6 2 2 Q d 0 = 0) ∧ (Q 1 = 0 → Q 2 = 0 → spanDer (kf kv) 6 2 3 Q d (L / 5) = 0) ∧
      (Q 4 = 0 → Q 5 = 0 → spanDer (kf kv) 6 2 5 Q d L = 0) := by
  obtain ⟨hV, e2, e3, e4, e5, e6, e1, e7⟩ := three_knots hL hkv
  have hm := kf_mono hV.sorted
  have hd' : d = 0 ∨ d = 1 := by omega
  rcases hd' with rfl | rfl
  · refine ⟨?_, ?_, ?_⟩ <;> intro h0 h1 <;> rw [spanDer_zero _ (by omega) (by omega)] <;>
      simp [List.replicate, bl, dbStep, e1, e2, e3, e6, e7, h0, h1]
  · refine ⟨?_, ?_, ?_⟩ <;> intro h0 h1 <;> rw [spanDer_succ hm (by omega) (by omega), spanDer_zero _ (by omega) (by omega)] <;>
      simp [List.replicate, bl, dbStep, derP, e2, e3, e6, h0, h1]

/-- Three sections, the second one strictly between `1/5` and `3/5` of the interval: points and tangents determine the poles. -/
theorem C87_three_sections {eps L t : K} (heps : 0 < eps) (hL : 0 < L) (h1 : L / 5 < t) (h2 : t < 3 * L / 5) {kv : List K}
    (hkv : buildSimpleMultFlatKnots 0 L 6 2 = .ok kv) : Spec.HermiteDetermines eps kv 2 [0, t, L] := by
  obtain ⟨hV, e2, e3, e4, e5, e6, e1, e7⟩ := three_knots hL hkv
  have hm := kf_mono hV.sorted
  have hs : (2 : ℕ) ≤ stackMaxDegree := by decide
  have hL5 : 0 < L / 5 := by positivity
  intro Q hQ hval
  have hQ6 : Q.length = 6 := hQ
  have f0 : findSpan 6 2 (0 : K) kv = .ok 2 := findSpan_of hV (by omega) (by omega) (by rw [e2]) (by rw [e3]; exact hL5)
  have f1 : findSpan 6 2 L kv = .ok 5 := three_last hL hkv (by linarith) (le_refl _)
  have a00 := hval 0 (by simp) 0 (by omega) 0
  have a01 := hval 0 (by simp) 1 (by omega) 0
  have b0 := hval t (by simp) 0 (by omega) 0
  have b1 := hval t (by simp) 1 (by omega) 0
  have a10 := hval L (by simp) 0 (by omega) 0
  have a11 := hval L (by simp) 1 (by omega) 0
  rw [evalValue_span heps hs hV hQ6 (by rw [e2]) (by rw [e6]; exact hL.le) f0] at a00 a01
  rw [evalValue_span heps hs hV hQ6 (by rw [e2]; exact hL.le) (by rw [e6]) f1] at a10 a11
  have a00 := Except.ok.inj a00
  have a01 := Except.ok.inj a01
  have a10 := Except.ok.inj a10
  have a11 := Except.ok.inj a11
  rw [spanDer_zero _ (by omega) (by omega)] at a00 a10
  rw [spanDer_succ hm (by omega) (by omega), spanDer_zero _ (by omega) (by omega)] at a01 a11
  have hL0 := hL.ne'
  have hL2 : L - 3 * L / 5 ≠ 0 := by intro h; apply hL0; linarith
  simp [List.replicate, bl, dbStep, derP, e1, e2, e3, e4, e5, e6, e7, hL0, hL2] at a00 a01 a10 a11
  rw [a00] at a01
  rw [a10] at a11
  simp at a01 a11
  obtain ⟨z, hz⟩ : ∃ z, t = L / 5 * z := ⟨t / (L / 5), by field_simp⟩
  have hz1 : 1 < z := by
    by_contra h
    have := mul_le_mul_of_nonneg_left (not_lt.mp h) hL5.le
    linarith
  have hz3 : z < 3 := by
    by_contra h
    have := mul_le_mul_of_nonneg_left (not_lt.mp h) hL5.le
    linarith
  have q23 : pf Q 2 = 0 ∧ pf Q 3 = 0 := by
    rcases lt_or_ge t (2 * L / 5) with hlt | hge
    · have ft : findSpan 6 2 t kv = .ok 3 := findSpan_of hV (by omega) (by omega) (by rw [e3]; exact h1.le) (by rw [e4]; exact hlt)
      rw [evalValue_span heps hs hV hQ6 (by rw [e2]; linarith) (by rw [e6]; linarith) ft] at b0 b1
      have b0 := Except.ok.inj b0
      have b1 := Except.ok.inj b1
      rw [spanDer_zero _ (by omega) (by omega)] at b0
      rw [spanDer_succ hm (by omega) (by omega), spanDer_zero _ (by omega) (by omega)] at b1
      simp only [List.replicate, bl, dbStep, derP, List.length_nil, List.length_cons, Nat.reduceAdd, Nat.reduceSub, e2, e3, e4, e5, smul_eq_mul, a01, hz] at b0 b1
      have b0' : (-2 * z ^ 2 + 6 * z - 3) * pf Q 2 + (z - 1) ^ 2 * pf Q 3 = 0 := by
        linear_combination (norm := (ring_nf; field_simp; ring)) 2 * b0
      have b1' : (3 - 2 * z) * pf Q 2 + (z - 1) * pf Q 3 = 0 := by
        linear_combination (norm := (ring_nf; field_simp; ring)) L / 5 * b1
      have h2' : pf Q 2 = 0 := by
        have : z * pf Q 2 = 0 := by linear_combination b0' - (z - 1) * b1'
        exact (mul_eq_zero.mp this).resolve_left (by linarith)
      refine ⟨h2', ?_⟩
      rw [h2', mul_zero, zero_add] at b1'
      exact (mul_eq_zero.mp b1').resolve_left (by linarith)
    · have ft : findSpan 6 2 t kv = .ok 4 := findSpan_of hV (by omega) (by omega) (by rw [e4]; exact hge) (by rw [e5]; exact h2)
      rw [evalValue_span heps hs hV hQ6 (by rw [e2]; linarith) (by rw [e6]; linarith) ft] at b0 b1
      have b0 := Except.ok.inj b0
      have b1 := Except.ok.inj b1
      rw [spanDer_zero _ (by omega) (by omega)] at b0
      rw [spanDer_succ hm (by omega) (by omega), spanDer_zero _ (by omega) (by omega)] at b1
      simp only [List.replicate, bl, dbStep, derP, List.length_nil, List.length_cons, Nat.reduceAdd, Nat.reduceSub, e3, e4, e5, e6, smul_eq_mul, a11, hz] at b0 b1
      have b0' : 3 * (3 - z) ^ 2 * pf Q 2 + (3 * (3 - z) * (z - 1) + 2 * (z - 2) * (5 - z)) * pf Q 3 = 0 := by
        linear_combination (norm := (ring_nf; field_simp; ring)) 6 * b0
      have b1' : -3 * (3 - z) * pf Q 2 + (13 - 5 * z) * pf Q 3 = 0 := by
        linear_combination (norm := (ring_nf; field_simp; ring)) 3 * L / 5 * b1
      have h3' : pf Q 3 = 0 := by
        have : 2 * (5 - z) * pf Q 3 = 0 := by linear_combination b0' + (3 - z) * b1'
        exact (mul_eq_zero.mp this).resolve_left (by linarith)
      refine ⟨?_, h3'⟩
      rw [h3', mul_zero, add_zero] at b1'
      exact (mul_eq_zero.mp b1').resolve_left (by linarith)
  intro y hy
  obtain ⟨i, hi⟩ := List.getElem?_of_mem hy
  have hil : i < Q.length := (List.getElem?_eq_some_iff.mp hi).1
  have : i = 0 ∨ i = 1 ∨ i = 2 ∨ i = 3 ∨ i = 4 ∨ i = 5 := by rw [hQ6] at hil; omega
  have hi := pf_of_some hi
  subst hi
  rcases this with rfl | rfl | rfl | rfl | rfl | rfl
  · exact a00
  · exact a01
  · exact q23.1
  · exact q23.2
  · exact a11
  · exact a10

/-- C87, limit: three sections (hence degree two across), the second one at `t` at or after `3/5` of the interval, or at or before `1/5` of it: the knots
across are placed without regard to the sections, and points and tangents do not determine the poles: the matrix of the system is singular. -/
theorem C87_uneven_sections {eps L t : K} (heps : 0 < eps) (hL : 0 < L) (ht0 : 0 < t) (htL : t < L) (hu : 3 * L / 5 ≤ t ∨ t ≤ L / 5) :
    ∃ kv, buildSimpleMultFlatKnots 0 L (2 * 3) (max (min 3 (3 - 1)) 1) = .ok kv ∧ ¬ Spec.HermiteDetermines eps kv (max (min 3 (3 - 1)) 1) [0, t, L] := by
  obtain ⟨kv, hkv, -⟩ := C54_uniform_knots (V := K) (n := 6) (p := 2) (by omega) hL
  refine ⟨kv, hkv, ?_⟩
  obtain ⟨hV, e2, e3, e4, e5, e6, e1, e7⟩ := three_knots hL hkv
  have hs : (2 : ℕ) ≤ stackMaxDegree := by decide
  have f0 : ∀ x, 0 ≤ x → x < L / 5 → findSpan 6 2 x kv = .ok 2 := fun x h1 h2 =>
    findSpan_of hV (by omega) (by omega) (by rw [e2]; exact h1) (by rw [e3]; exact h2)
  have hL5 : 0 < L / 5 := by positivity
  have hout : ∀ (c : ℕ) (x : K) (i d : ℕ), 0 ≤ x → x ≤ L → c < 6 → findSpan 6 2 x kv = .ok i →
      spanDer (kf kv) 6 2 i (fun k => if k = c then (1 : K) else 0) d x = 0 → ∀ junk,
      evalValue eps junk x kv ((List.range 6).map fun k => if k = c then (1 : K) else 0) 2 d = .ok 0 := by
    intro c x i d h0 h1 hc hi hci junk
    rw [evalValue_span heps hs hV (by simp) (by rw [e2]; exact h0) (by rw [e6]; exact h1) hi]
    congr 1
  have hfar : ∀ (c i d : ℕ) (x : K), (i < c ∨ c + 2 < i) → spanDer (kf kv) 6 2 i (fun k => if k = c then (1 : K) else 0) d x = 0 := by
    intro c i d x hci
    unfold spanDer
    apply Finset.sum_eq_zero
    intro a ha
    by_cases hac : a = c
    · rw [hac, bp_der_out hci, zero_smul]
    · beta_reduce
      rw [if_neg hac, smul_zero]
  intro hdet
  have key : ∀ c, c < 6 → (∀ x ∈ [0, t, L], ∀ d, d < 2 → ∃ i, findSpan 6 2 x kv = .ok i ∧
      spanDer (kf kv) 6 2 i (fun k => if k = c then (1 : K) else 0) d x = 0) → False := by
    intro c hc h
    have := hdet ((List.range 6).map fun k => if k = c then (1 : K) else 0) (by simp) (by
      intro x hx d hd junk
      obtain ⟨i, e, hi⟩ := h x hx d hd
      have hx' : 0 ≤ x ∧ x ≤ L := by
        simp only [List.mem_cons, List.not_mem_nil, or_false] at hx
        rcases hx with rfl | rfl | rfl
        · exact ⟨le_refl _, hL.le⟩
        · exact ⟨ht0.le, htL.le⟩
        · exact ⟨hL.le, le_refl _⟩
      exact hout c x i d hx'.1 hx'.2 hc e hi junk) 1 (List.mem_map.mpr ⟨c, List.mem_range.mpr hc, by simp⟩)
    exact one_ne_zero this
  have hf0 := f0 0 (le_refl _) hL5
  have hfL : findSpan 6 2 L kv = .ok 5 := three_last hL hkv (by linarith) (le_refl _)
  rcases hu with hu | hu
  · refine key 2 (by omega) ?_
    intro x hx d hd
    simp only [List.mem_cons, List.not_mem_nil, or_false] at hx
    rcases hx with rfl | rfl | rfl
    · exact ⟨2, hf0, (three_ends hL hkv _ hd).1 (by simp) (by simp)⟩
    · exact ⟨5, three_last hL hkv hu htL.le, hfar _ _ _ _ (by omega)⟩
    · exact ⟨5, hfL, hfar _ _ _ _ (by omega)⟩
  · refine key 3 (by omega) ?_
    intro x hx d hd
    simp only [List.mem_cons, List.not_mem_nil, or_false] at hx
    rcases hx with rfl | rfl | rfl
    · exact ⟨2, hf0, hfar _ _ _ _ (by omega)⟩
    · rcases lt_or_eq_of_le hu with h | h
      · exact ⟨2, f0 _ ht0.le h, hfar _ _ _ _ (by omega)⟩
      · rw [h]
        exact ⟨3, findSpan_of hV (by omega) (by omega) (by rw [e3]) (by rw [e4]; linarith), (three_ends hL hkv _ hd).2.1 (by simp) (by simp)⟩
    · exact ⟨5, hfL, (three_ends hL hkv _ hd).2.2 (by simp) (by simp)⟩

/-- C87, limit, continued: with the second section at or after `3/5` of the interval, whatever the poles, the points `a`, `b` of the curve across at
the second and last section and its tangents `da`, `db` there satisfy `2 (b - a) = (L - t) (da + db)`: sections and tangents that do not are on no
surface of those degree and knots. -/
theorem C87_uneven_chord {eps L t : K} (heps : 0 < eps) (hL : 0 < L) (hu : 3 * L / 5 ≤ t) (htL : t < L) {kv : List K}
    (hkv : buildSimpleMultFlatKnots 0 L 6 2 = .ok kv) {Q : List V} (hQ : Q.length = 6) {junk : K} {a b da db : V}
    (ha : evalValue eps junk t kv Q 2 0 = .ok a) (hda : evalValue eps junk t kv Q 2 1 = .ok da)
    (hb : evalValue eps junk L kv Q 2 0 = .ok b) (hdb : evalValue eps junk L kv Q 2 1 = .ok db) :
    (2 : K) • (b - a) = (L - t) • (da + db) := by
  obtain ⟨hV, e2, e3, e4, e5, e6, e1, e7⟩ := three_knots hL hkv
  have hs : (2 : ℕ) ≤ stackMaxDegree := by decide
  have ht := three_last hL hkv hu htL.le
  have hl := three_last hL hkv (t := L) (by linarith) (le_refl _)
  have h0t : 0 ≤ t := le_trans (by positivity) hu
  rw [evalValue_span heps hs hV hQ (by rw [e2]; exact h0t) (by rw [e6]; exact htL.le) ht] at ha hda
  rw [evalValue_span heps hs hV hQ (by rw [e2]; exact hL.le) (by rw [e6]) hl] at hb hdb
  rw [← Except.ok.inj ha, ← Except.ok.inj hda, ← Except.ok.inj hb, ← Except.ok.inj hdb]
  unfold spanDer
  rw [← Finset.sum_sub_distrib, ← Finset.sum_add_distrib, Finset.smul_sum, Finset.smul_sum]
  apply Finset.sum_congr rfl
  intro c _
  rw [← sub_smul, ← add_smul, smul_smul, smul_smul]
  congr 1
  exact quad_chord (Bp_natDegree _ _ _ _) t L

/-- C87: less than two sections is refused. -/
theorem C87_too_few {eps junk : K} {dist : P → P → K} {nrm : V → K} {proj : P → V} {lift : K → V → P → P} {dense : ℕ → (ℕ → ℕ → K) → List P → R (List P)}
    {ext : CurveInfo K P → R (K × K × K)} {cs : List (CurveInfo K P)} {spine : Curve K V} {qMax : ℕ} (h : cs.length < 2) :
    spineLoft eps junk dist nrm proj lift dense ext cs spine qMax = .error (.thrown .length) := by
  unfold spineLoft
  rw [if_pos h]

/-! ## Examples -/

namespace Sample

/-- Two segments, at heights 0 and 2, of different lengths. -/
def rung (h : ℚ) : CurveInfo ℚ (ℚ × ℚ) := ⟨[(0, h), (1 + h, h)], [0, 0, 1, 1], 1⟩

/-- A straight spine, parametrized by the height. -/
def mast : Curve ℚ (ℚ × ℚ) := (⟨[(0, 0), (0, 2)], [0, 0, 2, 2], 1⟩ : CurveInfo ℚ (ℚ × ℚ)).toCurve

def taxi2 (x y : ℚ × ℚ) : ℚ := |x.1 - y.1| + |x.2 - y.2|

/-- The hypotheses of `C87_spine_loft_partial` hold for two segments and a straight spine, whatever the solver. -/
example {dense : ℕ → (ℕ → ℕ → ℚ) → List (ℚ × ℚ) → R (List (ℚ × ℚ))} (hS : Spec.SolvesDense dense) :
    ∃ s, spineLoft (1/10) 0 taxi2 (taxi2 0) id tangentPole dense (fun c => .ok ((pf c.poles 0).2, 0, 0)) [rung 0, rung 2] mast 3 = .ok s ∧
      s.degV = 1 ∧ Spec.IsoIs (1/10) s 0 1 (rung 2) 1 ∧ ∃ lam : ℚ, 0 ≤ lam ∧ s.value (1/10) 0 (1/3) 1 0 1 = .ok (lam • ((0, 1) : ℚ × ℚ)) := by
  obtain ⟨out, p, W, eo, hU, h1, ⟨c, hc, hcp⟩, H⟩ := C87_spine_loft_partial (eps := 1/10) (by norm_num) 0 hS (dist := taxi2)
    (fun a b => by unfold taxi2; positivity) (nrm := taxi2 0) (fun a => by unfold taxi2; positivity) (c0 := rung 0) (cs := [rung 2]) (by simp)
    (by decide) (by
      intro c hc
      simp only [List.mem_cons, List.not_mem_nil, or_false] at hc
      rcases hc with rfl | rfl <;> exact ⟨_, _, seg_clampedBy (by norm_num) _ _⟩) (by unfold SepL; decide +kernel) (qMax := 3) (q := 1) (n := 2) rfl rfl
    (by decide) (by decide +kernel)
  have e : (unifyDegree (1/10) [rung 0, rung 2] >>= unifyKnots (1/10)) = .ok [rung 0, rung 2] := by decide +kernel
  rw [e] at eo
  obtain rfl := Except.ok.inj eo
  have hp : p = 1 := by
    simp only [List.mem_cons, List.not_mem_nil, or_false] at hc
    rcases hc with rfl | rfl <;> exact hcp.symm
  subst hp
  have hW : W = [0, 0, 1, 1] := by
    cases hU with
    | cons h _ => exact h.knots.symm
  subst hW
  have hpar : ∀ k, k < 2 → Spec.spineParam (1/10) taxi2 (poleOf [rung 0, rung 2]) 2 2 k = k := by
    intro k hk
    have : k = 0 ∨ k = 1 := by omega
    rcases this with rfl | rfl <;>
      norm_num [Spec.spineParam, Spec.chordParam, Spec.chordLen, Finset.sum_range_succ, poleOf, taxi2, rung, pf]
  obtain ⟨s, es, -, -, d2, -, -, -, -, hs⟩ := H (fun c => .ok ((pf c.poles 0).2, 0, 0)) mast [0, 2] (fun j => (0, 2 * j)) (fun _ => (0, 1))
    ⟨rfl, by
      intro j c t hc ht
      match j with
      | 0 => simp at hc ht; subst hc ht; exact ⟨0, 0, rfl⟩
      | 1 => simp at hc ht; subst hc ht; exact ⟨0, 0, rfl⟩
      | j + 2 => simp at hc, by
      intro j t ht
      match j with
      | 0 => simp at ht; subst ht; decide +kernel
      | 1 => simp at ht; subst ht; decide +kernel
      | j + 2 => simp at ht, by
      intro k hk
      have : k = 0 := by simp at hk; omega
      subst this
      decide +kernel⟩ 2 [0, 1] rfl (by
      rw [show List.range 2 = [0, 1] from rfl, List.map_cons, List.map_cons, hpar 0 (by omega), hpar 1 (by omega)]
      rfl) (by rw [hpar _ (by omega)]; norm_num) (by
      intro kv hkv
      rw [hpar 1 (by omega)] at hkv
      exact C87_two_sections (by norm_num) (by norm_num) hkv)
  obtain ⟨h1, h2⟩ := hs 1 (rung 2) 1 rfl rfl
  exact ⟨s, es, d2, h1, (h2 (1/3) (by show (0 : ℚ) ≤ 1/3; norm_num) (by show (1/3 : ℚ) ≤ 1; norm_num) 0 0).2⟩

/-- Two rational segments, of weights 1 and 2, in homogeneous coordinates. -/
def rungW (h : ℚ) : CurveInfo ℚ (ℚ × ℚ) := ⟨[(h, 1), (2 * h + 2, 2)], [0, 0, 1, 1], 1⟩

def mastW : Curve ℚ ℚ := (⟨[0, 2], [0, 0, 2, 2], 1⟩ : CurveInfo ℚ ℚ).toCurve

/-- The hypotheses of `C87_spine_loft_rational_partial` hold for two rational segments. -/
example {dense : ℕ → (ℕ → ℕ → ℚ) → List (ℚ × ℚ) → R (List (ℚ × ℚ))} (hS : Spec.SolvesDense dense) :
    ∃ s, spineLoft (1/10) 0 taxi2 (fun x : ℚ => |x|) weightProjection tangentPoleRat dense (fun c => .ok ((pf c.poles 0).1, 0, 0)) [rungW 0, rungW 2] mastW 3 = .ok s ∧
      Spec.IsoIs (1/10) s 0 1 (rungW 2) 1 ∧ ∃ lam : ℚ, 0 ≤ lam ∧ s.ratValue (1/10) 0 (1/3) 1 0 1 = .ok (lam • (1 : ℚ)) := by
  obtain ⟨out, p, W, eo, hU, h1, ⟨c, hc, hcp⟩, H⟩ := C87_spine_loft_rational_partial (eps := 1/10) (by norm_num) 0 hS (dist := taxi2)
    (fun a b => by unfold taxi2; positivity) (nrm := fun x : ℚ => |x|) (fun a => by positivity) (c0 := rungW 0) (cs := [rungW 2]) (by simp)
    (by decide) (by
      intro c hc
      simp only [List.mem_cons, List.not_mem_nil, or_false] at hc
      rcases hc with rfl | rfl <;> exact ⟨_, _, seg_clampedBy (by norm_num) _ _⟩) (by unfold SepL; decide +kernel) (qMax := 3) (q := 1) (n := 2) rfl rfl
    (by decide) (by decide +kernel)
  have e : (unifyDegree (1/10) [rungW 0, rungW 2] >>= unifyKnots (1/10)) = .ok [rungW 0, rungW 2] := by decide +kernel
  rw [e] at eo
  obtain rfl := Except.ok.inj eo
  have hp : p = 1 := by
    simp only [List.mem_cons, List.not_mem_nil, or_false] at hc
    rcases hc with rfl | rfl <;> exact hcp.symm
  subst hp
  have hW : W = [0, 0, 1, 1] := by
    cases hU with
    | cons h _ => exact h.knots.symm
  subst hW
  have hpar : ∀ k, k < 2 → Spec.spineParam (1/10) taxi2 (poleOf [rungW 0, rungW 2]) 2 2 k = k := by
    intro k hk
    have : k = 0 ∨ k = 1 := by omega
    rcases this with rfl | rfl <;>
      norm_num [Spec.spineParam, Spec.chordParam, Spec.chordLen, Finset.sum_range_succ, poleOf, taxi2, rungW, pf]
  obtain ⟨s, es, -, -, -, -, -, -, -, hs⟩ := H (fun c => .ok ((pf c.poles 0).1, 0, 0)) mastW [0, 2] (fun j => 2 * j) (fun _ => 1)
    ⟨rfl, by
      intro j c t hc ht
      match j with
      | 0 => simp at hc ht; subst hc ht; exact ⟨0, 0, rfl⟩
      | 1 => simp at hc ht; subst hc ht; exact ⟨0, 0, rfl⟩
      | j + 2 => simp at hc, by
      intro j t ht
      match j with
      | 0 => simp at ht; subst ht; decide +kernel
      | 1 => simp at ht; subst ht; decide +kernel
      | j + 2 => simp at ht, by
      intro k hk
      have : k = 0 := by simp at hk; omega
      subst this
      decide +kernel⟩ (by decide +kernel) 2 [0, 1] rfl (by
      rw [show List.range 2 = [0, 1] from rfl, List.map_cons, List.map_cons, hpar 0 (by omega), hpar 1 (by omega)]
      rfl) (by rw [hpar _ (by omega)]; norm_num) (by
      intro kv hkv
      rw [hpar 1 (by omega)] at hkv
      exact C87_two_sections (by norm_num) (by norm_num) hkv)
  obtain ⟨h1, h2⟩ := hs 1 (rungW 2) 1 rfl rfl
  exact ⟨s, es, h1, (h2 (1/3) (by show (0 : ℚ) ≤ 1/3; norm_num) (by show (1/3 : ℚ) ≤ 1; norm_num) 0 0).2⟩

/-- The hypotheses of `C87_uneven_sections` and `C87_uneven_chord`: sections at 0, 7 and 10. -/
example : ∃ kv, buildSimpleMultFlatKnots 0 (10 : ℚ) (2 * 3) (max (min 3 (3 - 1)) 1) = .ok kv ∧
    ¬ Spec.HermiteDetermines (1/10) kv (max (min 3 (3 - 1)) 1) [0, 7, 10] :=
  C87_uneven_sections (by norm_num) (by norm_num) (by norm_num) (by norm_num) (Or.inl (by norm_num))

/-- The hypotheses of `C87_uneven_chord`. -/
example {a b da db : ℚ} (ha : evalValue (K := ℚ) (1/10) 0 7 [0, 0, 0, 2, 4, 6, 10, 10, 10] ([0, 1, 5, 2, 8, 3] : List ℚ) 2 0 = .ok a)
    (hda : evalValue (K := ℚ) (1/10) 0 7 [0, 0, 0, 2, 4, 6, 10, 10, 10] ([0, 1, 5, 2, 8, 3] : List ℚ) 2 1 = .ok da)
    (hb : evalValue (K := ℚ) (1/10) 0 10 [0, 0, 0, 2, 4, 6, 10, 10, 10] ([0, 1, 5, 2, 8, 3] : List ℚ) 2 0 = .ok b)
    (hdb : evalValue (K := ℚ) (1/10) 0 10 [0, 0, 0, 2, 4, 6, 10, 10, 10] ([0, 1, 5, 2, 8, 3] : List ℚ) 2 1 = .ok db) :
    (2 : ℚ) • (b - a) = ((10 : ℚ) - 7) • (da + db) :=
  C87_uneven_chord (K := ℚ) (eps := 1/10) (L := 10) (t := 7) (by norm_num) (by norm_num) (by norm_num) (by norm_num)
    (kv := [0, 0, 0, 2, 4, 6, 10, 10, 10]) (by decide +kernel) rfl ha hda hb hdb

/-- The hypotheses of `C87_three_sections`: sections at 0, 5 and 10. -/
example : Spec.HermiteDetermines (1/10) [0, 0, 0, 2, 4, 6, 10, 10, 10] 2 [0, 5, (10 : ℚ)] :=
  C87_three_sections (by norm_num) (by norm_num) (by norm_num) (by norm_num) (by decide +kernel)

end Sample

end Gbs
