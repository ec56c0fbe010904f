import Verif.Lemmas.Loft
import Verif.Lemmas.UnifyAgain
import Verif.Props.Collocation

/-! # C83: lofts without spine pass through their sections -/

namespace Gbs

set_option linter.unusedSectionVars false

open Polynomial
open scoped BigOperators

variable {K : Type} [Field K] [LinearOrder K] [IsStrictOrderedRing K]
variable {V : Type} [AddCommGroup V] [Module K V]

/-! ## Sections already compatible -/

/-- C83, "the inner loft's unify is a no-op" (`gbs/loft/loftBase.h:226`): curves of the same degree on the same clamped knots are left exactly
as they are, poles included, by the two unifications. -/
theorem C83_unify_again {eps : K} (heps : 0 < eps) {l : List (CurveInfo K V)} (hne : l ≠ []) {q : ℕ} (hq : q ≤ 12) {W : List K} (hsep : SepL eps W)
    (hl : ∀ c ∈ l, c.deg = q ∧ c.knots = W ∧ c.Clamped) : unifyDegree eps l = .ok l ∧ unifyKnots eps l = .ok l :=
  unify_again heps hne hq hsep hl

/-- The surface built on compatible sections. -/
theorem loft_compatible {eps : K} (heps : 0 < eps) (junk : K) {dense : ℕ → (ℕ → ℕ → K) → List V → R (List V)} (hS : Spec.SolvesDense dense)
    {out : List (CurveInfo K V)} (hne : out ≠ []) {p q : ℕ} {W flatV v : List K} (hp : p ≤ stackMaxDegree) (hq : q ≤ stackMaxDegree)
    (hout : ∀ c ∈ out, c.deg = p ∧ c.knots = W ∧ c.Clamped) (hlen : out.length = v.length)
    (hV : KWf q flatV v.length) (hv0 : kf flatV 0 = kf flatV q) (hv1 : kLast flatV = kf flatV v.length)
    (hin : ∀ b ∈ v, kf flatV q ≤ b ∧ b ≤ kf flatV v.length)
    (hreg : ∀ sp, Spans flatV v q v.length sp → Spec.Regular v.length (coll flatV v q 1 sp))
    (hmem : W.length * (v.length + q + 1) < 2 ^ 64) :
    ∃ P s, buildLoftSurfacePoles eps junk dense (out.map CurveInfo.poles) flatV v q = .ok P ∧ Surface.mk? eps P W flatV p q = .ok s ∧
      s.Wf ∧ s.degU = p ∧ s.degV = q ∧ s.u0 = kf W 0 ∧ s.u1 = kLast W ∧ s.v0 = kf flatV q ∧ s.v1 = kf flatV v.length ∧
      ∀ (j : ℕ) c b, out[j]? = some c → v[j]? = some b → ∀ u du junk junk', kf W 0 ≤ u → u ≤ kLast W →
        s.value eps junk u b du 0 = c.toCurve.value eps junk' u du := by
  have hpos : 0 < out.length := List.length_pos_iff.mpr hne
  obtain ⟨hc0d, hc0k, hc0c⟩ := hout _ (List.getElem_mem hpos)
  set c0 := out[0] with hc0
  have hkc := hc0c.kc
  have hlw : W.length = c0.poles.length + p + 1 := by have := hc0c.len; rwa [hc0k, hc0d] at this
  have hnu : ∀ P ∈ out.map CurveInfo.poles, P.length = c0.poles.length := by
    intro P hP
    obtain ⟨c, hc, rfl⟩ := List.mem_map.mp hP
    obtain ⟨a1, a2, a3⟩ := hout c hc
    have := a3.len
    rw [a1, a2] at this
    omega
  obtain ⟨sp, hsp⟩ := exists_spans hV v
  obtain ⟨N, eN, hN⟩ := buildPolesMatrix_spec hV hq hsp (nc := 1) le_rfl eps junk
  obtain ⟨P, eP, hlP, hP⟩ := buildLoftSurfacePoles_spec (pc := out.map CurveInfo.poles) (by simpa using hne) hnu (by simpa using hlen) eN
    (fun c hc => hS _ N c hc (Regular.congr (hreg sp hsp) fun i j hi hj => (hN i j (by omega) hj).symm))
  have hU : KWf p W c0.poles.length := by have := hkc.wf.kwf; rwa [hc0k, hc0d] at this
  have w0 : kf W 0 = kf W p := by have := hkc.kf_zero.trans hkc.d0.symm; rwa [hc0k, hc0d] at this
  have w1 : kLast W = kf W c0.poles.length := by have := hkc.kLast.trans hkc.d1.symm; rwa [hc0k] at this
  obtain ⟨s, es, hs, hwf, hval⟩ := surf_clamped heps hU hV hlP hp hq (by rw [← hlw]; exact hmem) w0 w1 hv0 hv1
  refine ⟨P, s, eP, es, hwf, by rw [hs], by rw [hs], by rw [hs, w0], by rw [hs, w1], by rw [hs], by rw [hs], ?_⟩
  intro j c b hc hb u du junk1 junk2 h1 h2
  obtain ⟨hj, rfl⟩ := kf_of_some hb
  have hcm : c ∈ out := List.mem_of_getElem? hc
  obtain ⟨a1, a2, a3⟩ := hout c hcm
  have hG := a3.kc.good
  obtain ⟨i, ei, -, -, -, ev⟩ := Curve.value_span heps hG (Or.inl (by show c.deg ≤ _; rw [a1]; exact hp)) (u := u)
    (by show kf c.knots 0 ≤ u; rw [a2]; exact h1) (by show u ≤ kLast c.knots; rw [a2]; exact h2)
  have hpl : c.poles.length = c0.poles.length := hnu _ (List.mem_map_of_mem hcm)
  have ei' : findSpan c0.poles.length p u W = .ok i := by
    rw [← hpl, ← a1, ← a2]; exact ei
  obtain ⟨z1, z2⟩ := hin (kf v j) (kf_mem (by rintro rfl; simp at hj) j)
  rw [ev, hval u (kf v j) i (sp j) (by rw [← w0]; exact h1) (by rw [← w1]; exact h2) z1 z2 ei' (hsp.find j hj)]
  congr 1
  unfold surfDer spanDer
  have hrow : ∀ b, b < v.length → (derivative^[0] (Bp (kf flatV) (sp j) q b)).eval (kf v j) = N j b := by
    intro b hb
    rw [hN j b (by omega) hb]
    have := coll_row (U := flatV) (u := v) (p := q) (nc := 1) (sp := sp) (i := j) (d := 0) (by omega) b
    rw [one_mul, Nat.add_zero] at this
    exact this.symm
  calc _ = ∑ b ∈ Finset.range v.length, ∑ a ∈ Finset.range c0.poles.length,
        (derivative^[du] (Bp (kf W) i p a)).eval u • N j b • pf P (a + c0.poles.length * b) := by
        apply Finset.sum_congr rfl
        intro b hb
        rw [hrow b (Finset.mem_range.mp hb), Finset.smul_sum]
        exact Finset.sum_congr rfl fun a _ => smul_comm _ _ _
    _ = ∑ a ∈ Finset.range c0.poles.length, (derivative^[du] (Bp (kf W) i p a)).eval u • ∑ b ∈ Finset.range v.length,
        N j b • pf P (a + c0.poles.length * b) := by
        rw [Finset.sum_comm]
        exact Finset.sum_congr rfl fun a _ => by rw [Finset.smul_sum]
    _ = _ := by
        rw [show c.toCurve.poles = c.poles from rfl, show c.toCurve.knots = W from a2, show c.toCurve.deg = p from a1, hpl]
        apply Finset.sum_congr rfl
        intro a ha
        rw [hP a j c.poles (Finset.mem_range.mp ha) (by rw [List.getElem?_map, hc]; rfl)]

/-! ## Sections of any degrees and knots -/

/-- The iso-curve of the surface at `b` is the section `c`: same point at each fraction `t` of the parameter intervals (that of `c`, and
`[a0, a1]` for the surface), derivatives along U being scaled by the ratio of the lengths of the intervals. -/
def Spec.IsoIs (eps : K) (s : Surface K V) (a0 a1 : K) (c : CurveInfo K V) (b : K) : Prop :=
  ∀ t du, 0 ≤ t → t ≤ 1 → ∀ junk junk' : K, ∃ pt,
    c.toCurve.value eps junk (c.toCurve.b0 + (c.toCurve.b1 - c.toCurve.b0) * t) du = .ok pt ∧
      s.value eps junk' (a0 + (a1 - a0) * t) b du 0 = .ok (((c.toCurve.b1 - c.toCurve.b0) / (a1 - a0)) ^ du • pt)

/-- The sizes: the number of knots of all the sections. -/
def Spec.totalKnots (l : List (CurveInfo K V)) : ℕ := (l.map fun c => c.knots.length).sum

theorem length_le_card_mul {W L : List K} {m : ℕ} (hmem : ∀ x ∈ W, x ∈ L) (hm : ∀ x, W.count x ≤ m) : W.length ≤ L.length * m := by
  classical
  rw [← Multiset.coe_card, ← Multiset.toFinset_sum_count_eq]
  calc _ ≤ ∑ x ∈ (W : Multiset K).toFinset, m := Finset.sum_le_sum fun x _ => by rw [Multiset.coe_count]; exact hm x
    _ = (W : Multiset K).toFinset.card * m := by rw [Finset.sum_const, smul_eq_mul]
    _ ≤ _ := by
      apply Nat.mul_le_mul_right
      refine le_trans (Finset.card_le_card (t := L.toFinset) ?_) (List.toFinset_card_le L)
      intro x hx
      rw [List.mem_toFinset]
      exact hmem x (by simpa using hx)

theorem CurveInfo.Clamped.count_le {c : CurveInfo K V} (h : c.Clamped) (x : K) : c.knots.count x ≤ c.deg + 1 := by
  by_cases hx : x ∈ c.knots
  · obtain ⟨h1, h2⟩ := h.kc.mem x hx
    rcases h1.lt_or_eq with h1 | rfl
    · rcases h2.lt_or_eq with h2 | rfl
      · have := h.mid x h1 h2; omega
      · exact h.last.le
    · exact h.first.le
  · rw [List.count_eq_zero_of_not_mem hx]; omega

/-- The unification, with what the lofts need of it. -/
theorem loft_unify {eps : K} (heps : 0 < eps) {c0 : CurveInfo K V} {cs : List (CurveInfo K V)} (hdeg : ∀ c ∈ c0 :: cs, c.deg ≤ 12)
    (hcl : ∀ c ∈ c0 :: cs, ∃ ks ms, c.toCurve.ClampedBy eps ks ms)
    (hsep : SepL eps ((c0 :: cs).flatMap fun c => c.knots.map (rescale (kf c0.knots 0) (kLast c0.knots) c.knots))) :
    ∃ mid out q W, unifyDegree eps (c0 :: cs) = .ok mid ∧ unifyKnots eps mid = .ok out ∧ q ≤ 12 ∧
      (∀ c ∈ c0 :: cs, c.deg ≤ q) ∧ (∃ c ∈ c0 :: cs, c.deg = q) ∧ out ≠ [] ∧
      List.Forall₂ (Unified eps (kf c0.knots 0) (kLast c0.knots) q W) (c0 :: cs) out ∧
      (∀ c ∈ out, c.deg = q ∧ c.knots = W ∧ c.Clamped) ∧ SepL eps W ∧ kf W 0 = c0.toCurve.b0 ∧ kLast W = c0.toCurve.b1 ∧
      W.length ≤ 13 * Spec.totalKnots (c0 :: cs) := by
  obtain ⟨mid, out, q, W, e1, e2, h1, h2, hU, hW⟩ := C50_unify heps hdeg hcl hsep
  have hq12 : q ≤ 12 := by obtain ⟨c, hc, e⟩ := h2; rw [← e]; exact hdeg c hc
  have hall : ∀ c ∈ out, c.deg = q ∧ c.knots = W ∧ c.Clamped := by
    intro c hc
    obtain ⟨i, hi, rfl⟩ := List.getElem_of_mem hc
    have hu := hU.get (show i < (c0 :: cs).length by rw [hU.length_eq]; exact hi) hi
    exact ⟨hu.deg, hu.knots, hu.clamped⟩
  obtain ⟨c0', cs', h0, -, rfl⟩ := List.forall₂_cons_left_iff.mp hU
  have hWL : ∀ x ∈ W, x ∈ (c0 :: cs).flatMap fun c => c.knots.map (rescale (kf c0.knots 0) (kLast c0.knots) c.knots) := by
    intro x hx
    obtain ⟨c, hc, h⟩ := (hW x).mp hx
    exact List.mem_flatMap.mpr ⟨c, hc, h⟩
  refine ⟨mid, _, q, W, e1, e2, hq12, h1, h2, List.cons_ne_nil _ _, hU, hall, fun x hx y hy => hsep x (hWL x hx) y (hWL y hy), ?_, ?_, ?_⟩
  · have := h0.b0; rw [← h0.knots]; exact this
  · have := h0.b1; rw [← h0.knots]; exact this
  · obtain ⟨a1, a2, a3⟩ := hall c0' List.mem_cons_self
    have hb := length_le_card_mul hWL (m := 13) (fun x => by
      have := a3.count_le x
      rw [a1, a2] at this
      omega)
    refine hb.trans (le_of_eq ?_)
    rw [Nat.mul_comm, List.length_flatMap]
    unfold Spec.totalKnots
    congr 2
    exact List.map_congr_left fun c _ => by rw [List.length_map]

/-- From the unified sections to the given ones. -/
theorem isoIs_of_unified {eps : K} {c0 : CurveInfo K V} {q : ℕ} {W : List K} {c c' : CurveInfo K V} {s : Surface K V} {b : K}
    (hlt : c0.toCurve.b0 < c0.toCurve.b1)
    (hu : Unified eps (kf c0.knots 0) (kLast c0.knots) q W c c')
    (hs : ∀ u du junk junk', c0.toCurve.b0 ≤ u → u ≤ c0.toCurve.b1 → s.value eps junk u b du 0 = c'.toCurve.value eps junk' u du) :
    Spec.IsoIs eps s c0.toCurve.b0 c0.toCurve.b1 c b := by
  intro t du t0 t1 junk junk'
  obtain ⟨pt, v1, v2⟩ := hu.value t du t0 t1 junk junk'
  refine ⟨pt, v1, ?_⟩
  rw [hs _ du junk' junk' (by nlinarith) (by nlinarith)]
  exact v2

/-- C83, `loft(sections, v, flat_v, q)`: `n` clamped sections of degrees at most 12, `n` strictly increasing parameters and clamped knots of degree
`min(q, n-1)` (at least 1, at most 24) that satisfy the conditions of Schoenberg and Whitney. The loft returns a surface whose degree along U is
the greatest degree of the sections, on the parameter interval of the first section along U and of the given knots along V, and whose iso-curve
at the `j`-th parameter is the `j`-th section. Of the dense solver only the solution of regular systems is asked. -/
theorem C83_loft_flat {eps : K} (heps : 0 < eps) (junk : K) {dense : ℕ → (ℕ → ℕ → K) → List V → R (List V)} (hS : Spec.SolvesDense dense)
    {c0 : CurveInfo K V} {cs : List (CurveInfo K V)} (hdeg : ∀ c ∈ c0 :: cs, c.deg ≤ 12)
    (hcl : ∀ c ∈ c0 :: cs, ∃ ks ms, c.toCurve.ClampedBy eps ks ms)
    (hsep : SepL eps ((c0 :: cs).flatMap fun c => c.knots.map (rescale (kf c0.knots 0) (kLast c0.knots) c.knots)))
    {v flatV : List K} {q r : ℕ} (hr : r = min q cs.length) (hr1 : 1 ≤ r) (hr24 : r ≤ stackMaxDegree) (hlen : v.length = cs.length + 1)
    (hv : v.Pairwise (· < ·)) (hV : KWf r flatV v.length) (h0 : ∀ j, j ≤ r → kf flatV j = kf v 0)
    (h1 : ∀ j, v.length ≤ j → j ≤ v.length + r → kf flatV j = kf v (v.length - 1))
    (hsw : ∀ j, 1 ≤ j → j + 1 < v.length → kf flatV j < kf v j ∧ kf v j < kf flatV (j + r + 1))
    (hmem : 13 * Spec.totalKnots (c0 :: cs) * (v.length + r + 1) < 2 ^ 64) :
    ∃ s, loftGenericFlat eps junk dense (c0 :: cs) v flatV q = .ok s ∧ s.Wf ∧ s.degV = r ∧ (∀ c ∈ c0 :: cs, c.deg ≤ s.degU) ∧
      (∃ c ∈ c0 :: cs, c.deg = s.degU) ∧ s.u0 = c0.toCurve.b0 ∧ s.u1 = c0.toCurve.b1 ∧ s.v0 = kf v 0 ∧ s.v1 = kf v (v.length - 1) ∧
      ∀ (j : ℕ) (c : CurveInfo K V) (b : K), (c0 :: cs)[j]? = some c → v[j]? = some b → Spec.IsoIs eps s c0.toCurve.b0 c0.toCurve.b1 c b := by
  obtain ⟨mid, out, p, W, e1, e2, hp12, hp, hp', hne, hU, hall, -, hW0, hW1, hWl⟩ := loft_unify heps hdeg hcl hsep
  have hlo : out.length = v.length := by rw [← hU.length_eq, hlen]; rfl
  have hvr : kf flatV r = kf v 0 := h0 r le_rfl
  have hvn : kf flatV v.length = kf v (v.length - 1) := h1 _ le_rfl (by omega)
  have hvl := hV.len
  obtain ⟨P, s, eP, es, hwf, d1, d2, b1, b2, b3, b4, hval⟩ := loft_compatible heps junk hS hne (p := p) (q := r) (W := W) (flatV := flatV) (v := v)
    (by have : stackMaxDegree = 24 := rfl; omega) hr24 hall hlo hV (by rw [h0 0 (by omega), hvr])
    (by unfold kLast; rw [hvn]; exact h1 _ (by omega) (by omega))
    (by
      intro b hb
      obtain ⟨i, hi, rfl⟩ := List.getElem_of_mem hb
      rw [hvr, hvn, ← kf_of_lt hi]
      have hm := kf_mono (hv.imp le_of_lt)
      exact ⟨hm (by omega), hm (by omega)⟩)
    (fun sp hsp => coll_regular hr1 hV rfl hv (fun j _ hj => h0 j hj) (fun j hj hj' => h1 j hj (by omega)) hsw hsp)
    (lt_of_le_of_lt (Nat.mul_le_mul_right _ hWl) hmem)
  have hpos : 0 < out.length := by omega
  have hc := hall _ (List.getElem_mem hpos)
  refine ⟨s, ?_, hwf, d2, by rw [d1]; exact hp, by rw [d1]; exact hp', by rw [b1, hW0], by rw [b2, hW1], by rw [b3, hvr], by rw [b4, hvn], ?_⟩
  · unfold loftGenericFlat loftFlat
    have hq : clampSections q (c0 :: cs).length = r := by unfold clampSections; rw [if_pos (by simp)]; simp [hr]
    simp only [hq]
    rw [e1, R_bind_ok, e2, R_bind_ok, rd_ok hpos, R_bind_ok, eP, R_bind_ok]
    show Surface.mk? eps P (out[0]).knots flatV (out[0]).deg r = _
    rw [hc.2.1, hc.1]; exact es
  · intro j c b hj hb
    obtain ⟨hjl, rfl⟩ := List.getElem?_eq_some_iff.mp hj
    have hjo : j < out.length := by rw [← hU.length_eq]; exact hjl
    have hu := hU.get hjl hjo
    obtain ⟨ks, ms, hk⟩ := hcl c0 List.mem_cons_self
    refine isoIs_of_unified hk.good.lt hu ?_
    intro u du junk junk' g1 g2
    exact hval j _ b (List.getElem?_eq_getElem hjo) hb u du junk junk' (by rw [hW0]; exact g1) (by rw [hW1]; exact g2)

/-- C83, `loft(sections, v, q)`: the same with the averaged knots built from the parameters; any degree `q ≥ 1` is accepted, it is lowered to
the number of sections minus one. -/
theorem C83_loft_params {eps : K} (heps : 0 < eps) (junk : K) {dense : ℕ → (ℕ → ℕ → K) → List V → R (List V)} (hS : Spec.SolvesDense dense)
    {c0 : CurveInfo K V} {cs : List (CurveInfo K V)} (hdeg : ∀ c ∈ c0 :: cs, c.deg ≤ 12)
    (hcl : ∀ c ∈ c0 :: cs, ∃ ks ms, c.toCurve.ClampedBy eps ks ms)
    (hsep : SepL eps ((c0 :: cs).flatMap fun c => c.knots.map (rescale (kf c0.knots 0) (kLast c0.knots) c.knots)))
    {v : List K} {q : ℕ} (hq : 1 ≤ q) (hcs : cs ≠ []) (hq24 : min q cs.length ≤ stackMaxDegree) (hlen : v.length = cs.length + 1)
    (hv : v.Pairwise (· < ·)) (hmem : 13 * Spec.totalKnots (c0 :: cs) * (v.length + min q cs.length + 1) < 2 ^ 64) :
    ∃ s, loftGenericV eps junk dense (c0 :: cs) v q = .ok s ∧ s.Wf ∧ s.degV = min q cs.length ∧ (∀ c ∈ c0 :: cs, c.deg ≤ s.degU) ∧
      (∃ c ∈ c0 :: cs, c.deg = s.degU) ∧ s.u0 = c0.toCurve.b0 ∧ s.u1 = c0.toCurve.b1 ∧ s.v0 = kf v 0 ∧ s.v1 = kf v (v.length - 1) ∧
      ∀ (j : ℕ) (c : CurveInfo K V) (b : K), (c0 :: cs)[j]? = some c → v[j]? = some b → Spec.IsoIs eps s c0.toCurve.b0 c0.toCurve.b1 c b := by
  have hcl0 : 0 < cs.length := List.length_pos_iff.mpr hcs
  have hr1 : 1 ≤ min q cs.length := by omega
  obtain ⟨k, ek, -, -, -, -, -⟩ := C54_averaged_knots (V := K) hr1 (u := v) (by omega) hv
  obtain ⟨hV, hk0, hk1, hR⟩ := averaged_coll hr1 (by omega) hv ek
  obtain ⟨mid, out, p, W, e1, e2, hp12, hp, hp', hne, hU, hall, -, hW0, hW1, hWl⟩ := loft_unify heps hdeg hcl hsep
  have hlo : out.length = v.length := by rw [← hU.length_eq, hlen]; rfl
  obtain ⟨z0, z1⟩ := averaged_clamped hr1 (by omega) hv ek
  obtain ⟨P, s, eP, es, hwf, d1, d2, b1, b2, b3, b4, hval⟩ := loft_compatible heps junk hS hne (p := p) (q := min q cs.length) (W := W)
    (flatV := k) (v := v) (by have : stackMaxDegree = 24 := rfl; omega) hq24 hall hlo hV z0 z1
    (by
      intro b hb
      obtain ⟨i, hi, rfl⟩ := List.getElem_of_mem hb
      rw [hk0, hk1, ← kf_of_lt hi]
      have hm := kf_mono (hv.imp le_of_lt)
      exact ⟨hm (by omega), hm (by omega)⟩) hR
    (lt_of_le_of_lt (Nat.mul_le_mul_right _ hWl) hmem)
  have hpos : 0 < out.length := by omega
  have hc := hall _ (List.getElem_mem hpos)
  refine ⟨s, ?_, hwf, d2, by rw [d1]; exact hp, by rw [d1]; exact hp', by rw [b1, hW0], by rw [b2, hW1], by rw [b3, hk0], by rw [b4, hk1], ?_⟩
  · unfold loftGenericV loftFlat
    have hq : clampSections q (c0 :: cs).length = min q cs.length := by unfold clampSections; rw [if_pos (by simp)]; simp
    simp only [hq]
    rw [ek, R_bind_ok, e1, R_bind_ok, e2, R_bind_ok, rd_ok hpos, R_bind_ok, eP, R_bind_ok]
    show Surface.mk? eps P (out[0]).knots k (out[0]).deg (min q cs.length) = _
    rw [hc.2.1, hc.1]; exact es
  · intro j c b hj hb
    obtain ⟨hjl, rfl⟩ := List.getElem?_eq_some_iff.mp hj
    have hjo : j < out.length := by rw [← hU.length_eq]; exact hjl
    have hu := hU.get hjl hjo
    obtain ⟨ks, ms, hk⟩ := hcl c0 List.mem_cons_self
    refine isoIs_of_unified hk.good.lt hu ?_
    intro u du junk junk' g1 g2
    exact hval j _ b (List.getElem?_eq_getElem hjo) hb u du junk junk' (by rw [hW0]; exact g1) (by rw [hW1]; exact g2)

/-- C83, rational sections: the poles are homogeneous, and the projected surface takes the points of the projected sections. -/
theorem C83_loft_rational {eps : K} (heps : 0 < eps) {s : Surface K (V × K)} {c0 c : CurveInfo K (V × K)} {b : K}
    (hltc : c.toCurve.b0 < c.toCurve.b1)
    (h : Spec.IsoIs eps s c0.toCurve.b0 c0.toCurve.b1 c b) {t : K} (h0 : 0 ≤ t) (h1 : t ≤ 1) (junk junk' : K) :
    ∃ x, c.toCurve.ratValue eps junk (c.toCurve.b0 + (c.toCurve.b1 - c.toCurve.b0) * t) 0 = .ok x ∧
      s.ratValue eps junk' (c0.toCurve.b0 + (c0.toCurve.b1 - c0.toCurve.b0) * t) b 0 0 = .ok x := by
  obtain ⟨pt, e1, e2⟩ := h t 0 h0 h1 junk junk'
  rw [pow_zero, one_smul] at e2
  refine ⟨weightProjection pt, ?_, ?_⟩
  · have hu1 : c.toCurve.b0 ≤ c.toCurve.b0 + (c.toCurve.b1 - c.toCurve.b0) * t := by nlinarith
    have hu2 : c.toCurve.b0 + (c.toCurve.b1 - c.toCurve.b0) * t ≤ c.toCurve.b1 := by nlinarith
    rw [Curve.value_inBounds heps hu1 hu2] at e1
    unfold Curve.ratValue evalRational evalRationalF
    rw [if_neg (by push Not; constructor <;> linarith), if_pos rfl, e1]
    rfl
  · unfold Surface.value at e2
    unfold Surface.ratValue
    split at e2
    · cases e2
    · rename_i hout
      rw [if_neg hout, if_pos ⟨rfl, rfl⟩, e2]
      rfl

/-- C83, limits: no surface is returned when the numbers of sections and of parameters differ (the right-hand side does not have the size of the
matrix), and the list of sections must not be empty (its first element is read). -/
theorem C83_loft_sizes {eps : K} (heps : 0 < eps) (junk : K) (dense : ℕ → (ℕ → ℕ → K) → List V → R (List V))
    {c0 : CurveInfo K V} {cs : List (CurveInfo K V)} (hdeg : ∀ c ∈ c0 :: cs, c.deg ≤ 12)
    (hcl : ∀ c ∈ c0 :: cs, ∃ ks ms, c.toCurve.ClampedBy eps ks ms)
    (hsep : SepL eps ((c0 :: cs).flatMap fun c => c.knots.map (rescale (kf c0.knots 0) (kLast c0.knots) c.knots)))
    {v : List K} (hlen : v.length ≠ cs.length + 1) (flatV : List K) (q : ℕ) :
    (∀ s, loftGenericFlat eps junk dense (c0 :: cs) v flatV q ≠ .ok s) ∧ (∀ s, loftGenericV eps junk dense (c0 :: cs) v q ≠ .ok s) ∧
      loftGenericFlat eps junk dense [] v flatV q = .error .oob := by
  obtain ⟨mid, out, p, W, e1, e2, hp12, hp, hp', hne, hU, hall, -, hW0, hW1, hWl⟩ := loft_unify heps hdeg hcl hsep
  have hlo : out.length = cs.length + 1 := by rw [← hU.length_eq]; rfl
  have hpos : 0 < out.length := by omega
  have hkey : ∀ flatV q r, loftFlat eps junk dense (c0 :: cs) v flatV q ≠ .ok r := by
    intro flatV q r h
    unfold loftFlat at h
    rw [e1, R_bind_ok, e2, R_bind_ok, rd_ok hpos, R_bind_ok] at h
    obtain ⟨P, hP, -⟩ := R_bind_eq_ok.mp h
    unfold buildLoftSurfacePoles at hP
    obtain ⟨p0, hp0, hP⟩ := R_bind_eq_ok.mp hP
    obtain ⟨B, hB, hP⟩ := R_bind_eq_ok.mp hP
    have hp0' : p0 = (out[0]).poles := by
      rw [rd_eq_ok, List.getElem?_map, List.getElem?_eq_getElem hpos] at hp0
      exact (Option.some.inj hp0).symm
    have hnu : ∀ c ∈ out, c.poles.length = p0.length := by
      intro c hc
      obtain ⟨a1, a2, a3⟩ := hall c hc
      obtain ⟨b1, b2, b3⟩ := hall _ (List.getElem_mem hpos)
      have x1 := a3.len
      have x2 := b3.len
      rw [a1, a2] at x1
      rw [b1, b2] at x2
      rw [hp0']
      omega
    have hmin : 1 ≤ p0.length := by
      have := (hall _ (List.getElem_mem hpos)).2.2.kc.wf.min
      rw [hp0']; omega
    obtain ⟨B', eB, hlB, hB'⟩ := forLt_collect (n := p0.length) (body := fun i B => do
        let c ← forLt 0 (out.map CurveInfo.poles).length (fun j c => do
          let pj ← rd (out.map CurveInfo.poles) j
          let x ← rd pj i
          pure (c ++ [x])) []
        pure (B ++ [c]))
      (fun i c => c.length = out.length)
      (by
        intro i acc hi
        obtain ⟨c, ec, hlc, -⟩ := forLt_collect (n := (out.map CurveInfo.poles).length) (body := fun j c => do
            let pj ← rd (out.map CurveInfo.poles) j
            let x ← rd pj i
            pure (c ++ [x])) (fun _ _ => True)
          (by
            intro j acc hj
            have hj' : j < out.length := by simpa using hj
            have hl := hnu _ (List.getElem_mem hj')
            rw [rd_ok hj, R_bind_ok, List.getElem_map]
            exact ⟨(out[j]).poles[i]'(by omega), by rw [rd_ok (by omega), R_bind_ok]; rfl, trivial⟩)
        exact ⟨c, by rw [ec, R_bind_ok]; rfl, by rw [hlc, List.length_map]⟩)
    rw [eB] at hB
    obtain rfl := Except.ok.inj hB
    unfold loftCore at hP
    obtain ⟨N, -, hP⟩ := R_bind_eq_ok.mp hP
    obtain ⟨X, hX, -⟩ := R_bind_eq_ok.mp hP
    cases hBc : B' with
    | nil => rw [hBc] at hlB; simp at hlB; omega
    | cons c B'' =>
      obtain ⟨x, hx, hxl⟩ := hB' 0 (by omega)
      rw [hBc] at hx
      obtain rfl : c = x := by simpa using hx
      rw [hBc, List.mapM_cons, if_neg (by omega)] at hX
      cases hX
  refine ⟨?_, ?_, ?_⟩
  · intro s h
    unfold loftGenericFlat at h
    obtain ⟨r, hr, -⟩ := R_bind_eq_ok.mp h
    exact hkey _ _ r hr
  · intro s h
    unfold loftGenericV at h
    obtain ⟨f, -, h⟩ := R_bind_eq_ok.mp h
    obtain ⟨r, hr, -⟩ := R_bind_eq_ok.mp h
    exact hkey _ _ r hr
  · rfl

/-! ## Examples -/

/-- A segment, as a curve of degree 1 on `[0, 1]`. -/
theorem seg_clampedBy {eps : K} (h : eps < 1) (a b : V) : (⟨[a, b], [0, 0, 1, 1], 1⟩ : CurveInfo K V).toCurve.ClampedBy eps [0, 1] [2, 2] := by
  refine ⟨⟨le_rfl, rfl, ?_, rfl, rfl, ?_⟩, ⟨⟨?_, rfl, ?_, ?_, ?_⟩, ?_, ?_⟩⟩
  · simpa using h
  · intro i x h1 h2 _
    simp at h2
    omega
  · simp [CurveInfo.toCurve]
  · simp [CurveInfo.toCurve]
  · simp [CurveInfo.toCurve, kf]
  · simp [CurveInfo.toCurve, kf]
  · simp [CurveInfo.toCurve, kf]
  · simp [CurveInfo.toCurve, kf, kLast]

namespace Sample

theorem l12_clampedBy : ∀ c ∈ [l1, l2, l1], ∃ ks ms, c.toCurve.ClampedBy (1/10) ks ms := by
  intro c hc
  simp only [List.mem_cons, List.not_mem_nil, or_false] at hc
  rcases hc with rfl | rfl | rfl
  · exact ⟨_, _, l1_clampedBy⟩
  · exact ⟨_, _, l2_clampedBy⟩
  · exact ⟨_, _, l1_clampedBy⟩

/-- The hypotheses of `C83_loft_params` hold for three sections of degrees 1, 2, 1 with different knots, on `[0,2]`, `[0,3]`, `[0,2]`. -/
example {dense : ℕ → (ℕ → ℕ → ℚ) → List (ℚ × ℚ) → R (List (ℚ × ℚ))} (hS : Spec.SolvesDense dense) :
    ∃ s, loftGenericV (1/10) 0 dense [l1, l2, l1] [0, 1/3, 1] 5 = .ok s ∧ s.degU = 2 ∧ s.degV = 2 ∧
      Spec.IsoIs (1/10) s 0 2 l2 (1/3) := by
  obtain ⟨s, e, -, h2, h3, h4, -, -, -, -, h⟩ := C83_loft_params (eps := 1/10) (by norm_num) 0 hS (c0 := l1) (cs := [l2, l1]) (by decide)
    l12_clampedBy (by unfold SepL; decide +kernel) (v := [0, 1/3, 1]) (q := 5) (by norm_num) (by simp) (by decide) rfl (by decide +kernel)
    (by decide +kernel)
  refine ⟨s, e, ?_, h2, h 1 l2 (1/3) rfl rfl⟩
  obtain ⟨c, hc, hd⟩ := h4
  have := h3 l2 (by simp)
  simp only [List.mem_cons, List.not_mem_nil, or_false] at hc
  have e1 : l1.deg = 1 := rfl
  have e2 : l2.deg = 2 := rfl
  rcases hc with rfl | rfl | rfl <;> omega

/-- The hypotheses of `C83_loft_flat`, with knots that are not the averaged ones. -/
example {dense : ℕ → (ℕ → ℕ → ℚ) → List (ℚ × ℚ) → R (List (ℚ × ℚ))} (hS : Spec.SolvesDense dense) :
    ∃ s, loftGenericFlat (1/10) 0 dense [l1, l2, l1] [0, 1/3, 1] [0, 0, 1/3, 1, 1] 1 = .ok s ∧ Spec.IsoIs (1/10) s 0 2 l2 (1/3) := by
  obtain ⟨s, e, -, -, -, -, -, -, -, -, h⟩ := C83_loft_flat (eps := 1/10) (by norm_num) 0 hS (c0 := l1) (cs := [l2, l1]) (by decide)
    l12_clampedBy (by unfold SepL; decide +kernel) (v := [0, 1/3, 1]) (flatV := [0, 0, 1/3, 1, 1]) (q := 1) (r := 1) rfl le_rfl (by decide) rfl
    (by decide +kernel) ⟨by decide +kernel, by decide, by decide, by decide +kernel, by decide +kernel⟩
    (by
      intro j hj
      have : j = 0 ∨ j = 1 := by omega
      rcases this with rfl | rfl <;> decide +kernel)
    (by
      intro j hj hj'
      have : j = 3 ∨ j = 4 := by simp at hj hj'; omega
      rcases this with rfl | rfl <;> decide +kernel)
    (by
      intro j hj hj'
      have : j = 1 := by simp at hj'; omega
      subst this
      decide +kernel) (by decide +kernel)
  exact ⟨s, e, h 1 l2 (1/3) rfl rfl⟩

/-- The hypotheses of `C83_loft_sizes`. -/
example (dense : ℕ → (ℕ → ℕ → ℚ) → List (ℚ × ℚ) → R (List (ℚ × ℚ))) (s : Surface ℚ (ℚ × ℚ)) :
    loftGenericV (1/10) 0 dense [l1, l2, l1] [0, 1] 1 ≠ .ok s :=
  (C83_loft_sizes (eps := 1/10) (by norm_num) 0 dense (c0 := l1) (cs := [l2, l1]) (by decide) l12_clampedBy
    (by unfold SepL; decide +kernel) (v := [0, 1]) (by decide) [] 1).2.1 s

end Sample

end Gbs
