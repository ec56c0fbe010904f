import Verif.Props.Loft
import Verif.Props.UnifySurf
import Verif.Props.SurfInterp
import Verif.Lemmas.SurfSame
import Verif.Model.Gordon

/-! # Lemmas on Gordon surfaces -/

namespace Gbs

set_option linter.unusedSectionVars false

open Polynomial
open scoped BigOperators

variable {K : Type} [Field K] [LinearOrder K] [IsStrictOrderedRing K]
variable {V : Type} [AddCommGroup V] [Module K V]

/-! ## Knots -/

/-- The averaged knots are clamped, with simple inner knots. -/
theorem averaged_info {p : ℕ} {u : List K} (hp : 1 ≤ p) (hn : p + 1 ≤ u.length) (hu : u.Pairwise (· < ·)) {k : List K}
    (ek : averagedFlatKnots u p = .ok k) {P : List V} (hP : P.length = u.length) : (⟨P, k, p⟩ : CurveInfo K V).Clamped := by
  obtain ⟨k', ek', hlk, hk0, hk1, hk2, hwf⟩ := C54_averaged_knots (V := K) hp hn hu
  rw [ek] at ek'
  obtain rfl := Except.ok.inj ek'
  have hs : k.Pairwise (· ≤ ·) := (hwf (List.replicate u.length 0) (by simp)).sorted
  have hlt : ∀ i j, i < j → j < u.length → kf u i < kf u j := by
    intro i j hij hj
    rw [kf_of_lt (by omega), kf_of_lt (by omega)]
    exact List.pairwise_iff_getElem.mp hu i j _ _ hij
  have hle : ∀ i j, i ≤ j → j < u.length → kf u i ≤ kf u j := fun i j h1 h2 => kf_mono (hu.imp le_of_lt) h1
  have hpK : (0 : K) < p := by exact_mod_cast hp
  have hne : (Finset.range p).Nonempty := ⟨0, Finset.mem_range.mpr (by omega)⟩
  set f : ℕ → K := fun j => (∑ i ∈ Finset.range p, kf u (j + 1 + i)) / p with hf
  have hmono : ∀ i j, i < j → j + 1 < u.length - p → f i < f j := by
    intro i j hij hj
    rw [hf]
    apply div_lt_div_of_pos_right _ hpK
    apply Finset.sum_lt_sum_of_nonempty hne
    intro t ht
    have := Finset.mem_range.mp ht
    exact hlt _ _ (by omega) (by omega)
  have hlow : ∀ j, j + 1 < u.length - p → kf u 0 < f j := by
    intro j hj
    rw [hf, lt_div_iff₀ hpK]
    calc kf u 0 * p = ∑ i ∈ Finset.range p, kf u 0 := by rw [Finset.sum_const, Finset.card_range, nsmul_eq_mul, mul_comm]
      _ < _ := by
        apply Finset.sum_lt_sum_of_nonempty hne
        intro t ht
        have := Finset.mem_range.mp ht
        exact hlt _ _ (by omega) (by omega)
  have hup : ∀ j, j + 1 < u.length - p → f j < kf u (u.length - 1) := by
    intro j hj
    rw [hf, div_lt_iff₀ hpK]
    calc _ < ∑ i ∈ Finset.range p, kf u (u.length - 1) := by
          apply Finset.sum_lt_sum_of_nonempty hne
          intro t ht
          have := Finset.mem_range.mp ht
          exact hlt _ _ (by omega) (by omega)
      _ = _ := by rw [Finset.sum_const, Finset.card_range, nsmul_eq_mul, mul_comm]
  have hk : k = List.replicate (p + 1) (kf u 0) ++ ((List.range (u.length - p - 1)).map f ++ List.replicate (p + 1) (kf u (u.length - 1))) := by
    apply List.ext_getElem?
    intro i
    rcases Nat.lt_or_ge i (p + 1) with h1 | h1
    · rw [hk0 i (by omega), List.getElem?_append_left (by simpa using h1), kf_getElem? (by omega), List.getElem?_replicate, if_pos h1]
    · rw [List.getElem?_append_right (by simpa using h1), List.length_replicate]
      rcases Nat.lt_or_ge i u.length with h2 | h2
      · rw [List.getElem?_append_left (by simp; omega), List.getElem?_map, List.getElem?_range (by omega)]
        have := hk2 (i - p) (by omega) (by omega)
        rw [show p + (i - p) = i by omega] at this
        rw [this, Option.map_some, hf]
        simp only [show i - (p + 1) + 1 = i - p by omega]
      · rw [List.getElem?_append_right (by simp; omega), List.length_map, List.length_range]
        rcases Nat.lt_or_ge i (u.length + p + 1) with h3 | h3
        · rw [hk1 i h2 (by omega), kf_getElem? (by omega), List.getElem?_replicate, if_pos (by omega)]
        · rw [List.getElem?_eq_none (by omega), List.getElem?_eq_none (by simp; omega)]
  have e0 : kf k 0 = kf u 0 := by
    have := hk0 0 (by omega)
    rw [kf_getElem? (by omega), kf_getElem? (by omega)] at this
    exact Option.some.inj this
  have e1 : kLast k = kf u (u.length - 1) := by
    unfold kLast
    have := hk1 (k.length - 1) (by omega) (by omega)
    rw [kf_getElem? (by omega), kf_getElem? (by omega)] at this
    exact Option.some.inj this
  have h01 : kf u 0 < kf u (u.length - 1) := hlt _ _ (by omega) (by omega)
  have hcount : ∀ x, k.count x = (if kf u 0 = x then p + 1 else 0) + (((List.range (u.length - p - 1)).map f).count x +
      if kf u (u.length - 1) = x then p + 1 else 0) := by
    intro x
    conv_lhs => rw [hk]
    rw [List.count_append, List.count_append, List.count_replicate, List.count_replicate]
    simp
  have hnot : ∀ x, (x ≤ kf u 0 ∨ kf u (u.length - 1) ≤ x) → ((List.range (u.length - p - 1)).map f).count x = 0 := by
    intro x hx
    apply List.count_eq_zero_of_not_mem
    intro hm
    obtain ⟨j, hj, rfl⟩ := List.mem_map.mp hm
    have hj := List.mem_range.mp hj
    have a1 := hlow j (by omega)
    have a2 := hup j (by omega)
    rcases hx with hx | hx
    · exact absurd hx (not_le.mpr a1)
    · exact absurd hx (not_le.mpr a2)
  refine ⟨hp, by show k.length = P.length + p + 1; omega, hs, by show kf k 0 < kLast k; rw [e0, e1]; exact h01, ?_, ?_, ?_⟩
  · show k.count (kf k 0) = p + 1
    rw [e0, hcount, hnot _ (Or.inl le_rfl), if_pos rfl, if_neg h01.ne']
  · show k.count (kLast k) = p + 1
    rw [e1, hcount, hnot _ (Or.inr le_rfl), if_neg h01.ne, if_pos rfl]; omega
  · show ∀ x, kf k 0 < x → x < kLast k → k.count x ≤ p
    intro x h1 h2
    rw [e0] at h1
    rw [e1] at h2
    rw [hcount, if_neg h1.ne, if_neg h2.ne']
    have hnd : ((List.range (u.length - p - 1)).map f).Nodup := by
      rw [List.nodup_iff_pairwise_ne, List.pairwise_map]
      have hr := List.pairwise_lt_range (n := u.length - p - 1)
      have hm : ∀ j ∈ List.range (u.length - p - 1), j + 1 < u.length - p := fun j hj => by have := List.mem_range.mp hj; omega
      exact List.Pairwise.imp_of_mem (fun {a b} _ hb hab => (hmono a b hab (hm b hb)).ne) hr
    have := List.nodup_iff_count_le_one.mp hnd x
    omega

/-- The distinct knots of the averaged knots. -/
theorem averaged_by {eps : K} (heps : 0 < eps) {p : ℕ} {u : List K} (hp : 1 ≤ p) (hn : p + 1 ≤ u.length) (hu : u.Pairwise (· < ·)) {k : List K}
    (ek : averagedFlatKnots u p = .ok k) (hsep : SepL eps k) : ∃ ks ms, KnotsBy eps p k ks ms := by
  obtain ⟨ks, ms, h⟩ := (averaged_info (V := K) hp hn hu ek (P := List.replicate u.length 0) (by simp)).by heps hsep
  exact ⟨ks, ms, h.toKnotsBy⟩

/-- Elevation along V to a degree. -/
theorem Surface.ClampedBy.raiseV {eps : K} (heps : 0 < eps) {s : Surface K V} {ku kv : List K} {mu mv : List ℕ} (h : s.ClampedBy eps ku mu kv mv)
    {q : ℕ} (hq : q ≤ 12) :
    ∃ s', s.raiseDegreeV eps q = .ok s' ∧ s'.ClampedBy eps ku mu kv (mv.map (· + (q - s.degV))) ∧ s'.degU = s.degU ∧ s'.degV = max s.degV q ∧
      s'.knotsU = s.knotsU ∧ Spec.SameSurf eps s s' := by
  unfold Surface.raiseDegreeV
  rcases Nat.lt_or_ge q s.degV with hlt | hge
  · rw [show forLt s.degV q (fun _ s => s.increaseDegreeV eps) s = .ok s by
      unfold forLt; rw [show q - s.degV = 0 by omega]; rfl]
    exact ⟨s, rfl, by rw [show q - s.degV = 0 by omega]; simpa using h, rfl, by omega, rfl, h.cl.same heps⟩
  · obtain ⟨s', e, h1, h2, h3, h4, h5⟩ := forLt_inv (a := s.degV) (b := q) (s := s) (body := fun _ s => s.increaseDegreeV eps)
      (fun k s' => s'.ClampedBy eps ku mu kv (mv.map (· + (k - s.degV))) ∧ s'.degV = k ∧ s'.degU = s.degU ∧ s'.knotsU = s.knotsU ∧
        Spec.SameSurf eps s s') hge
      ⟨by rw [Nat.sub_self]; simpa using h, rfl, rfl, rfl, h.cl.same heps⟩
      (by
        rintro k t hk1 hk2 ⟨a1, a2, a3, a4, a5⟩
        obtain ⟨t', e, b1, b2, b3, b4, b5⟩ := a1.stepV heps (by omega)
        refine ⟨t', e, ?_, by omega, b2.trans a3, b4.trans a4, a5.trans b5⟩
        rw [map_add_add] at b1
        rw [show k + 1 - s.degV = k - s.degV + 1 by omega]
        exact b1)
    exact ⟨s', e, h1, h3, by omega, h4, h5⟩

/-- Exchange of the directions. -/
theorem Surface.ClampedBy.invert {eps : K} (heps : 0 < eps) {s : Surface K V} {ku kv : List K} {mu mv : List ℕ} (h : s.ClampedBy eps ku mu kv mv) :
    ∃ s', s.invertUV = .ok s' ∧ s'.ClampedBy eps kv mv ku mu ∧ s'.degU = s.degV ∧ s'.degV = s.degU ∧ s'.knotsU = s.knotsV ∧ s'.knotsV = s.knotsU ∧
      s'.u0 = s.v0 ∧ s'.u1 = s.v1 ∧ s'.v0 = s.u0 ∧ s'.v1 = s.u1 ∧
      ∀ u v, s.u0 ≤ u → u ≤ s.u1 → s.v0 ≤ v → v ≤ s.v1 → ∀ (junk junk' : K) (du dv : ℕ),
        ∃ pt, s.value eps junk u v du dv = .ok pt ∧ s'.value eps junk' v u dv du = .ok pt := by
  have hc := h.cl
  obtain ⟨s', e, hcl, d1, d2, k1, k2, b1, b2, b3, b4⟩ := Surface.invert_cl hc.wf hc.du hc.dv (by rw [hc.u00, hc.u01]) (by rw [hc.u10, hc.u11])
    (by rw [hc.v00, hc.v01]) (by rw [hc.v10, hc.v11])
  obtain ⟨s2, e2, -, -, -, -, -, hv⟩ := C28_invertUV_swaps heps hc.wf (hc.big eps)
  rw [e] at e2
  obtain rfl := Except.ok.inj e2
  exact ⟨s', e, ⟨hcl, by rw [d1, k1]; exact h.kV, by rw [d2, k2]; exact h.kU⟩, d1, d2, k1, k2, by rw [b1, hc.v00], by rw [b2, hc.v11],
    by rw [b3, hc.u00], by rw [b4, hc.u11], fun u v g1 g2 g3 g4 => hv u v (hc.in g1 g2 g3 g4)⟩

/-! ## Lofts -/

theorem Surface.mk?_fields {eps : K} {P : List V} {ku kv : List K} {p q : ℕ} {s : Surface K V} (h : Surface.mk? eps P ku kv p q = .ok s) :
    s.knotsU = ku ∧ s.knotsV = kv ∧ s.poles = P ∧ s.u0 = kf ku 0 ∧ s.u1 = kLast ku ∧ s.v0 = kf kv 0 ∧ s.v1 = kLast kv := by
  unfold Surface.mk? at h
  split at h
  · rename_i a b c d ha hb hc hd
    rw [List.head?_eq_getElem?] at ha hc
    rw [List.getLast?_eq_getElem?] at hb hd
    dsimp only at h
    split at h
    · cases h
    · obtain ⟨o1, -, h⟩ := R_bind_eq_ok.mp h
      split at h
      · cases h
      · obtain ⟨o2, -, h⟩ := R_bind_eq_ok.mp h
        split at h
        · cases h
        · obtain rfl := Except.ok.inj h
          exact ⟨rfl, rfl, rfl, (kf_of_some ha).2.symm, (kf_of_some hb).2.symm, (kf_of_some hc).2.symm, (kf_of_some hd).2.symm⟩
  · cases h

/-- The loft of C83 with its knots. -/
theorem loft_full {eps : K} (heps : 0 < eps) (junk : K) {dense : ℕ → (ℕ → ℕ → K) → List V → R (List V)} (hS : Spec.SolvesDense dense)
    {c0 : CurveInfo K V} {cs : List (CurveInfo K V)} (hdeg : ∀ c ∈ c0 :: cs, c.deg ≤ 12)
    (hcl : ∀ c ∈ c0 :: cs, ∃ ks ms, c.toCurve.ClampedBy eps ks ms)
    (hsep : SepL eps ((c0 :: cs).flatMap fun c => c.knots.map (rescale (kf c0.knots 0) (kLast c0.knots) c.knots)))
    {v k : List K} {q : ℕ} (hq : 1 ≤ q) (hcs : cs ≠ []) (hq24 : min q cs.length ≤ stackMaxDegree) (hlen : v.length = cs.length + 1)
    (hv : v.Pairwise (· < ·)) (hmem : 13 * Spec.totalKnots (c0 :: cs) * (v.length + min q cs.length + 1) < 2 ^ 64)
    (ek : averagedFlatKnots v (min q cs.length) = .ok k) (hsk : SepL eps k) :
    ∃ s ku mu kv mv, loftGenericV eps junk dense (c0 :: cs) v q = .ok s ∧ s.ClampedBy eps ku mu kv mv ∧ s.degV = min q cs.length ∧
      s.knotsV = k ∧ (∀ x ∈ s.knotsU, x ∈ (c0 :: cs).flatMap fun c => c.knots.map (rescale (kf c0.knots 0) (kLast c0.knots) c.knots)) ∧
      (∀ c ∈ c0 :: cs, c.deg ≤ s.degU) ∧
      (∃ c ∈ c0 :: cs, c.deg = s.degU) ∧ s.u0 = c0.toCurve.b0 ∧ s.u1 = c0.toCurve.b1 ∧ s.v0 = kf v 0 ∧ s.v1 = kf v (v.length - 1) ∧
      ∀ (j : ℕ) (c : CurveInfo K V) (b : K), (c0 :: cs)[j]? = some c → v[j]? = some b → Spec.IsoIs eps s c0.toCurve.b0 c0.toCurve.b1 c b := by
  obtain ⟨s, es, hwf, d2, d1, d1', b1, b2, b3, b4, hiso⟩ := C83_loft_params heps junk hS hdeg hcl hsep hq hcs hq24 hlen hv hmem
  obtain ⟨mid, out, p, W, e1, e2, hp12, hp, hp', hne, hU, hall, hsW, hW0, hW1, hWl⟩ := loft_unify heps hdeg hcl hsep
  obtain ⟨mid2, out2, p2, W2, e1', e2', -, -, hU2, hWm⟩ := C50_unify heps hdeg hcl hsep
  rw [e1] at e1'
  obtain rfl := Except.ok.inj e1'
  rw [e2] at e2'
  obtain rfl := Except.ok.inj e2'
  have hpos : 0 < out.length := List.length_pos_iff.mpr hne
  obtain ⟨c1, c2, c3⟩ := hall _ (List.getElem_mem hpos)
  obtain rfl : W2 = W := by
    have hi : 0 < (c0 :: cs).length := by simp
    have := (hU2.get hi hpos).knots
    exact this.symm.trans c2
  have hmin1 : 1 ≤ min q cs.length := by have := List.length_pos_iff.mpr hcs; omega
  have hes := es
  unfold loftGenericV loftFlat at hes
  have hqc : clampSections q (c0 :: cs).length = min q cs.length := by unfold clampSections; rw [if_pos (by simp)]; simp
  simp only [hqc] at hes
  rw [ek, R_bind_ok, e1, R_bind_ok, e2, R_bind_ok, rd_ok hpos, R_bind_ok] at hes
  obtain ⟨r, hr, hes⟩ := R_bind_eq_ok.mp hes
  obtain ⟨P, hP, hr⟩ := R_bind_eq_ok.mp hr
  obtain rfl := Except.ok.inj hr
  obtain ⟨f1, f2, f3, f4, f5, f6, f7⟩ := Surface.mk?_fields hes
  simp only at f1 f4 f5
  rw [c2] at f1 f4 f5
  obtain ⟨ku, mu, hku⟩ := c3.by heps (by rw [c2]; exact hsW)
  have hdU : s.degU = p := by
    obtain ⟨x, hx, ex⟩ := d1'
    obtain ⟨y, hy, ey⟩ := hp'
    apply le_antisymm
    · rw [← ex]; exact hp x hx
    · rw [← ey]; exact d1 y hy
  have hkU : KnotsBy eps s.degU s.knotsU ku mu := by
    have := hku.toKnotsBy
    rw [show (out[0]).toCurve.deg = s.degU from c1.trans hdU.symm, show (out[0]).toCurve.knots = s.knotsU from c2.trans f1.symm] at this
    exact this
  obtain ⟨kv, mv, hkV⟩ := averaged_by heps hmin1 (by omega : min q cs.length + 1 ≤ v.length) hv ek hsk
  have hkV' : KnotsBy eps s.degV s.knotsV kv mv := by rw [d2, f2]; exact hkV
  obtain ⟨z0, z1⟩ := hkU.ends heps.le hwf.u
  obtain ⟨y0, y1⟩ := hkV'.ends heps.le hwf.v
  refine ⟨s, ku, mu, kv, mv, es, ⟨⟨hwf, ?_, by rw [d2]; exact hq24, ?_, ?_, ?_, ?_, ?_, ?_, ?_, ?_⟩, hkU, hkV'⟩, d2, f2, ?_, d1, d1', b1, b2, b3, b4, hiso⟩
  · have : stackMaxDegree = 24 := rfl
    omega
  · rw [f1, f4]
  · rw [← z0, f1, f4]
  · rw [z1, f1, f5]
  · rw [f1, f5]
  · rw [f2, f6]
  · rw [← y0, f2, f6]
  · rw [y1, f2, f7]
  · rw [f2, f7]
  · intro x hx
    rw [f1] at hx
    obtain ⟨c, hc, h⟩ := (hWm x).mp hx
    exact List.mem_flatMap.mpr ⟨c, hc, h⟩

/-! ## Iso-curves on averaged knots -/

/-- Two curves on the averaged knots with the same points at the parameters are the same. -/
theorem averaged_same {eps : K} (heps : 0 < eps) {p : ℕ} {u : List K} (hp : 1 ≤ p) (hn : p + 1 ≤ u.length) (hu : u.Pairwise (· < ·)) {k : List K}
    (ek : averagedFlatKnots u p = .ok k) (hp24 : p ≤ stackMaxDegree) {c c' : Curve K V} (d : c.deg = p) (d' : c'.deg = p) (hk : c.knots = k)
    (hk' : c'.knots = k) (l : c.poles.length = u.length) (l' : c'.poles.length = u.length) (b0 : c.b0 = c'.b0) (b1 : c.b1 = c'.b1)
    (c0 : c.b0 = kf k p) (c1 : c.b1 = kf k u.length)
    (h : ∀ i, i < u.length → ∃ pt, c.value eps 0 (kf u i) 0 = .ok pt ∧ c'.value eps 0 (kf u i) 0 = .ok pt) : c = c' := by
  obtain ⟨hU, e0, e1, -⟩ := averaged_coll hp hn hu ek
  have hm := kf_mono (hu.imp le_of_lt)
  have hin : ∀ i, i < u.length → kf k p ≤ kf u i ∧ kf u i ≤ kf k u.length := fun i hi => by
    rw [e0, e1]; exact ⟨hm (by omega), hm (by omega)⟩
  have key : ∀ {c : Curve K V}, c.deg = p → c.knots = k → c.poles.length = u.length → c.b0 = kf k p → c.b1 = kf k u.length → ∀ i, i < u.length →
      ∀ pt, c.value eps 0 (kf u i) 0 = .ok pt → Spec.curve (kf k) u.length p (pf c.poles) (kf u i) = pt := by
    intro c d hk l c0 c1 i hi pt e
    obtain ⟨h1, h2⟩ := hin i hi
    rw [Curve.value_inBounds heps (by rw [c0]; exact h1) (by rw [c1]; exact h2), d, hk] at e
    have hw : Wf p k c.poles := hU.wf l
    rw [evalValue_eq_curve hw hp24 _ _ _ h1 (by rw [l]; exact h2), l] at e
    exact Except.ok.inj e
  have hQ : ((List.range u.length).map (fun i => Spec.curve (kf k) u.length p (pf c.poles) (kf u i))).length = u.length := by simp
  obtain ⟨k', ek', P, -, huniq⟩ := C76_unique_averaged hp hn hu _ hQ
  rw [ek] at ek'
  obtain rfl := Except.ok.inj ek'
  have hg : ∀ (i : ℕ) (t : K) (q : V), u[i]? = some t →
      ((List.range u.length).map (fun i => Spec.curve (kf k) u.length p (pf c.poles) (kf u i)))[i]? = some q →
      i < u.length ∧ t = kf u i ∧ q = Spec.curve (kf k) u.length p (pf c.poles) (kf u i) := by
    intro i t q h1 h2
    obtain ⟨hi, rfl⟩ := kf_of_some h1
    rw [List.getElem?_map, List.getElem?_range hi] at h2
    exact ⟨hi, rfl, (Option.some.inj h2).symm⟩
  have p1 : c.poles = P := huniq _ ⟨l, fun i t q h1 h2 => by obtain ⟨hi, rfl, rfl⟩ := hg i t q h1 h2; rfl⟩
  have p2 : c'.poles = P := huniq _ ⟨l', fun i t q h1 h2 => by
    obtain ⟨hi, rfl, rfl⟩ := hg i t q h1 h2
    obtain ⟨pt, x1, x2⟩ := h i hi
    rw [key d hk l c0 c1 i hi pt x1, key d' hk' l' (b0 ▸ c0) (b1 ▸ c1) i hi pt x2]⟩
  cases c; cases c'
  simp only at *
  subst d d' hk hk' b0 b1
  simp [p1, p2]

/-- The border condition of C30. -/
theorem Surface.Cl.isoU {eps : K} (heps : 0 < eps) {s : Surface K V} (h : s.Cl) {u : K} (h0 : s.u0 ≤ u) (h1 : u ≤ s.u1) :
    ∃ c : Curve K V, c.deg = s.degV ∧ c.knots = s.knotsV ∧ c.b0 = s.v0 ∧ c.b1 = s.v1 ∧ c.poles.length = s.nPV ∧
      ∀ v, s.v0 ≤ v → v ≤ s.v1 → ∀ (junk junk' : K) (d : ℕ), ∃ pt, s.value eps junk u v 0 d = .ok pt ∧ c.value eps junk' v d = .ok pt := by
  obtain ⟨c, -, a1, a2, a3, a4, -, a6, a7⟩ := C30_isoU heps h.wf (h.big eps) h0 h1 (by rw [h.u01]; exact h0) (by
    rw [h.u10, h.u11]
    rcases h1.lt_or_eq with h' | h'
    · exact Or.inl h'
    · exact Or.inr ⟨h', rfl⟩)
  exact ⟨c, a1, a2, by rw [a3, h.v00], by rw [a4, h.v11], a6, fun v g0 g1 => a7 v (h.in h0 h1 g0 g1)⟩

theorem Surface.Cl.isoV {eps : K} (heps : 0 < eps) {s : Surface K V} (h : s.Cl) {v : K} (h0 : s.v0 ≤ v) (h1 : v ≤ s.v1) :
    ∃ c : Curve K V, c.deg = s.degU ∧ c.knots = s.knotsU ∧ c.b0 = s.u0 ∧ c.b1 = s.u1 ∧ c.poles.length = s.nPU ∧
      ∀ u, s.u0 ≤ u → u ≤ s.u1 → ∀ (junk junk' : K) (d : ℕ), ∃ pt, s.value eps junk u v d 0 = .ok pt ∧ c.value eps junk' u d = .ok pt := by
  obtain ⟨c, -, a1, a2, a3, a4, -, a6, a7⟩ := C30_isoV heps h.wf (h.big eps) h0 h1 (by rw [h.v01]; exact h0) (by
    rw [h.v10, h.v11]
    rcases h1.lt_or_eq with h' | h'
    · exact Or.inl h'
    · exact Or.inr ⟨h', rfl⟩)
  exact ⟨c, a1, a2, by rw [a3, h.u00], by rw [a4, h.u11], a6, fun u g0 g1 => a7 u (h.in g0 g1 h0 h1)⟩

/-- Two functions that are curves on the averaged knots and agree at the parameters. -/
theorem iso_same {eps : K} (heps : 0 < eps) {p : ℕ} {u : List K} (hp : 1 ≤ p) (hn : p + 1 ≤ u.length) (hu : u.Pairwise (· < ·)) {k : List K}
    (ek : averagedFlatKnots u p = .ok k) (hp24 : p ≤ stackMaxDegree) {f g : K → K → ℕ → R V} {c c' : Curve K V}
    (d : c.deg = p) (d' : c'.deg = p) (hk : c.knots = k) (hk' : c'.knots = k) (l : c.poles.length = u.length) (l' : c'.poles.length = u.length)
    (b0 : c.b0 = kf u 0) (b1 : c.b1 = kf u (u.length - 1)) (b0' : c'.b0 = kf u 0) (b1' : c'.b1 = kf u (u.length - 1))
    (hf : ∀ x, kf u 0 ≤ x → x ≤ kf u (u.length - 1) → ∀ junk junk' d, ∃ pt, f junk x d = .ok pt ∧ c.value eps junk' x d = .ok pt)
    (hg : ∀ x, kf u 0 ≤ x → x ≤ kf u (u.length - 1) → ∀ junk junk' d, ∃ pt, g junk x d = .ok pt ∧ c'.value eps junk' x d = .ok pt)
    (h : ∀ i, i < u.length → ∀ junk junk', ∃ pt, f junk (kf u i) 0 = .ok pt ∧ g junk' (kf u i) 0 = .ok pt) :
    ∀ x, kf u 0 ≤ x → x ≤ kf u (u.length - 1) → ∀ junk junk' d, ∃ pt, f junk x d = .ok pt ∧ g junk' x d = .ok pt := by
  obtain ⟨-, e0, e1, -⟩ := averaged_coll hp hn hu ek
  have hm := kf_mono (hu.imp le_of_lt)
  have e : c = c' := averaged_same heps hp hn hu ek hp24 d d' hk hk' l l' (b0.trans b0'.symm) (b1.trans b1'.symm) (by rw [e0, b0]) (by rw [e1, b1]) (by
    intro i hi
    have g0 : kf u 0 ≤ kf u i := hm (by omega)
    have g1 : kf u i ≤ kf u (u.length - 1) := hm (by omega)
    obtain ⟨p1, a1, a2⟩ := hf _ g0 g1 0 0 0
    obtain ⟨p2, c1, c2⟩ := hg _ g0 g1 0 0 0
    obtain ⟨p3, f1, f2⟩ := h i hi 0 0
    rw [a1] at f1
    rw [c1] at f2
    obtain rfl := Except.ok.inj f1
    obtain rfl := Except.ok.inj f2
    exact ⟨_, a2, c2⟩)
  intro x g0 g1 junk junk' d
  obtain ⟨p1, a1, a2⟩ := hf x g0 g1 junk 0 d
  obtain ⟨p2, c1, c2⟩ := hg x g0 g1 junk' 0 d
  rw [e, c2] at a2
  obtain rfl := Except.ok.inj a2
  exact ⟨_, a1, c1⟩

/-! ## Sums of surfaces -/

theorem surfDer_sum (tu : ℕ → K) (nU p i : ℕ) (tv : ℕ → K) (nV q j : ℕ) (A B C : ℕ → V) (du dv : ℕ) (u v : K) :
    surfDer tu nU p i tv nV q j (fun n => A n + B n - C n) du dv u v = surfDer tu nU p i tv nV q j A du dv u v +
      surfDer tu nU p i tv nV q j B du dv u v - surfDer tu nU p i tv nV q j C du dv u v := by
  unfold surfDer spanDer
  simp only [smul_add, smul_sub, Finset.sum_add_distrib, Finset.sum_sub_distrib]

theorem combine_eq {α : Type} (f : α → α → α) {a b : List α} (h : a.length = b.length) : combine f a b = List.zipWith f a b := by
  unfold combine
  rw [List.drop_eq_nil_of_le h.le, List.append_nil]

theorem combine_length {α : Type} (f : α → α → α) {a b : List α} (h : a.length = b.length) : (combine f a b).length = a.length := by
  rw [combine_eq f h, List.length_zipWith]; omega

theorem pf_combine {f : V → V → V} (hf : f 0 0 = 0) {a b : List V} (h : a.length = b.length) (n : ℕ) :
    pf (combine f a b) n = f (pf a n) (pf b n) := by
  rw [combine_eq f h]
  rcases Nat.lt_or_ge n a.length with h1 | h1
  · rw [pf_of_some (show (List.zipWith f a b)[n]? = some (f (pf a n) (pf b n)) by
      rw [List.getElem?_zipWith, pf_getElem? h1, pf_getElem? (by omega)])]
  · have hz : ∀ l : List V, l.length ≤ n → pf l n = 0 := by
      intro l hl
      unfold pf
      rw [List.getD_eq_getElem?_getD, List.getElem?_eq_none hl]
      rfl
    rw [hz a h1, hz b (by omega), hz _ (by rw [List.length_zipWith]; omega), hf]

/-- `Lu + Lv - T`. -/
theorem gordonSum_spec {eps : K} (heps : 0 < eps) {A B C : Surface K V} {p q : ℕ} {a b c d : K} {BU BV : List K}
    (hA : ∃ ku mu kv mv, A.ClampedBy eps ku mu kv mv) (hB : ∃ ku mu kv mv, B.ClampedBy eps ku mu kv mv)
    (hC : ∃ ku mu kv mv, C.ClampedBy eps ku mu kv mv)
    (hdeg : ∀ s ∈ [A, B, C], s.degU = p ∧ s.degV = q ∧ s.u0 = a ∧ s.u1 = b ∧ s.v0 = c ∧ s.v1 = d ∧ (∀ x ∈ s.knotsU, x ∈ BU) ∧ ∀ x ∈ s.knotsV, x ∈ BV)
    (hp : p ≤ 12) (hq : q ≤ 12) (hsU : SepL eps BU) (hsV : SepL eps BV) (hmem : (13 * BU.length) * (13 * BV.length) < 2 ^ 64) :
    ∃ s, gordonSum eps A B C p q = .ok s ∧ s.Wf ∧ s.degU = p ∧ s.degV = q ∧ s.u0 = a ∧ s.u1 = b ∧ s.v0 = c ∧ s.v1 = d ∧
      ∀ x y, a ≤ x → x ≤ b → c ≤ y → y ≤ d → ∀ (junk1 junk2 junk3 junk : K) (du dv : ℕ), ∃ PA PB PC, A.value eps junk1 x y du dv = .ok PA ∧
        B.value eps junk2 x y du dv = .ok PB ∧ C.value eps junk3 x y du dv = .ok PC ∧ s.value eps junk x y du dv = .ok (PA + PB - PC) := by
  obtain ⟨_, _, _, _, hA⟩ := hA
  obtain ⟨_, _, _, _, hB⟩ := hB
  obtain ⟨_, _, _, _, hC⟩ := hC
  obtain ⟨iA, eA, tA, cA, -⟩ := C85_info heps hA
  obtain ⟨iB, eB, tB, cB, -⟩ := C85_info heps hB
  obtain ⟨iC, eC, tC, cC, -⟩ := C85_info heps hC
  have hk : ∀ i ∈ [iA, iB, iC], i.degU = p ∧ i.degV = q ∧ i.Clamped ∧ kf i.knotsU 0 = a ∧ kLast i.knotsU = b ∧ kf i.knotsV 0 = c ∧ kLast i.knotsV = d ∧
      (∀ x ∈ i.knotsU, x ∈ BU) ∧ (∀ x ∈ i.knotsV, x ∈ BV) ∧ i.toSurface ∈ [A, B, C] := by
    intro i hi
    have key : ∀ (i : SurfInfo K V) (S : Surface K V), i.toSurface = S → S ∈ [A, B, C] → i.Clamped →
        i.degU = p ∧ i.degV = q ∧ i.Clamped ∧ kf i.knotsU 0 = a ∧ kLast i.knotsU = b ∧ kf i.knotsV 0 = c ∧ kLast i.knotsV = d ∧
          (∀ x ∈ i.knotsU, x ∈ BU) ∧ (∀ x ∈ i.knotsV, x ∈ BV) ∧ i.toSurface ∈ [A, B, C] := by
      rintro i S rfl hm hc
      obtain ⟨h1, h2, h3, h4, h5, h6, h7, h8⟩ := hdeg _ hm
      exact ⟨h1, h2, hc, h3, h4, h5, h6, h7, h8, hm⟩
    simp only [List.mem_cons, List.not_mem_nil, or_false] at hi
    rcases hi with rfl | rfl | rfl
    · exact key _ _ tA (by simp) cA
    · exact key _ _ tB (by simp) cB
    · exact key _ _ tC (by simp) cC
  obtain ⟨-, -, hcA, a1, a2, a3, a4, -, -, -⟩ := hk iA (by simp)
  have hltU : a < b := by rw [← a1, ← a2]; exact hcA.skc.ltU.1
  have hltV : c < d := by rw [← a3, ← a4]; exact hcA.skc.ltV.1
  have hrU : ∀ i ∈ [iA, iB, iC], i.knotsU.map (rescale (kf iA.knotsU 0) (kLast iA.knotsU) i.knotsU) = i.knotsU := by
    intro i hi
    obtain ⟨-, -, hc, b1, b2, -⟩ := hk i hi
    rw [a1, a2, ← b1, ← b2]
    exact rescale_self (by rw [b1, b2]; exact hltU)
  have hrV : ∀ i ∈ [iA, iB, iC], i.knotsV.map (rescale (kf iA.knotsV 0) (kLast iA.knotsV) i.knotsV) = i.knotsV := by
    intro i hi
    obtain ⟨-, -, hc, -, -, b1, b2, -⟩ := hk i hi
    rw [a3, a4, ← b1, ← b2]
    exact rescale_self (by rw [b1, b2]; exact hltV)
  obtain ⟨out, WU, WV, eout, hout, hcU, hcV⟩ := C85_unify_surfaces (p := p) (q := q) heps (s0 := iA) (ss := [iB, iC])
    (fun i hi => ⟨(hk i hi).1, (hk i hi).2.1, (hk i hi).2.2.1⟩)
    (by
      intro x hx y hy
      obtain ⟨i, hi, hx⟩ := List.mem_flatMap.mp hx
      obtain ⟨j, hj, hy⟩ := List.mem_flatMap.mp hy
      rw [hrU i hi] at hx
      rw [hrU j hj] at hy
      exact hsU x ((hk i hi).2.2.2.2.2.2.2.1 x hx) y ((hk j hj).2.2.2.2.2.2.2.1 y hy))
    (by
      intro x hx y hy
      obtain ⟨i, hi, hx⟩ := List.mem_flatMap.mp hx
      obtain ⟨j, hj, hy⟩ := List.mem_flatMap.mp hy
      rw [hrV i hi] at hx
      rw [hrV j hj] at hy
      exact hsV x ((hk i hi).2.2.2.2.2.2.2.2.1 x hx) y ((hk j hj).2.2.2.2.2.2.2.2.1 y hy))
  rw [a1, a2, a3, a4] at hout
  obtain ⟨oA, l1, uA, h1, rfl⟩ := List.forall₂_cons_left_iff.mp hout
  obtain ⟨oB, l2, uB, h2, rfl⟩ := List.forall₂_cons_left_iff.mp h1
  obtain ⟨oC, l3, uC, h3, rfl⟩ := List.forall₂_cons_left_iff.mp h2
  obtain rfl := List.forall₂_nil_left_iff.mp h3
  obtain ⟨dA1, dA2, -⟩ := hk iA (by simp)
  obtain ⟨dB1, dB2, -⟩ := hk iB (by simp)
  obtain ⟨dC1, dC2, -⟩ := hk iC (by simp)
  -- sizes
  have hlU : WU.length ≤ 13 * BU.length := by
    rw [Nat.mul_comm]
    apply length_le_card_mul
    · intro x hx
      obtain ⟨i, hi, e⟩ := (hcU x).2
      rw [hrU i hi] at e
      exact (hk i hi).2.2.2.2.2.2.2.1 x (List.count_pos_iff.mp (by rw [e]; exact List.count_pos_iff.mpr hx))
    · intro x
      obtain ⟨i, hi, e⟩ := (hcU x).2
      rw [hrU i hi] at e
      rw [← e]
      obtain ⟨k1, -, k3, -⟩ := hk i hi
      obtain ⟨r, hr⟩ := List.exists_mem_of_ne_nil _ (k3.skc.ne)
      have := (k3.u r hr).count_le x
      simp only at this
      omega
  have hlV : WV.length ≤ 13 * BV.length := by
    rw [Nat.mul_comm]
    apply length_le_card_mul
    · intro x hx
      obtain ⟨i, hi, e⟩ := (hcV x).2
      rw [hrV i hi] at e
      exact (hk i hi).2.2.2.2.2.2.2.2.1 x (List.count_pos_iff.mp (by rw [e]; exact List.count_pos_iff.mpr hx))
    · intro x
      obtain ⟨i, hi, e⟩ := (hcV x).2
      rw [hrV i hi] at e
      rw [← e]
      obtain ⟨-, k1, k3, -⟩ := hk i hi
      have := k3.v.count_le x
      simp only at this
      omega
  -- the three grids
  have hpole : ∀ {i o : SurfInfo K V}, i.degU = p → i.degV = q → Spec.UnifiedSurf eps a b c d WU WV i o →
      o.polesUV.flatten.length = (WU.length - p - 1) * (WV.length - q - 1) := by
    intro i o e1 e2 h
    have := flatten_length (by intro r hr; exact h.row r hr) (M := o.polesUV) (n := WU.length - i.degU - 1)
    rw [this, h.rows, e1, e2]
  have lA := hpole dA1 dA2 uA
  have lB := hpole dB1 dB2 uB
  have lC := hpole dC1 dC2 uC
  set P1 := combine (fun x y => x + y) oA.polesUV.flatten oB.polesUV.flatten with hP1
  have l1 : P1.length = oA.polesUV.flatten.length := combine_length _ (by rw [lA, lB])
  set P := combine (fun x y => x - y) P1 oC.polesUV.flatten with hPdef
  have l2 : P.length = oA.polesUV.flatten.length := (combine_length _ (by rw [l1, lA, lC])).trans l1
  have hpf : pf P = fun n => pf oA.polesUV.flatten n + pf oB.polesUV.flatten n - pf oC.polesUV.flatten n := by
    funext n
    rw [hPdef, pf_combine (by simp) (by rw [l1, lA, lC]), hP1, pf_combine (by simp) (by rw [lA, lB])]
  have hcl := uA.cl
  have n1 : oA.toSurface.nPU = WU.length - p - 1 := by
    show oA.knotsU.length - (oA.degU + 1) = _
    rw [uA.knotsU, uA.degU, dA1]; omega
  have n2 : oA.toSurface.nPV = WV.length - q - 1 := by
    show oA.knotsV.length - (oA.degV + 1) = _
    rw [uA.knotsV, uA.degV, dA2]; omega
  have kU : KWf p WU (WU.length - p - 1) := by
    have := hcl.wf.u
    rw [n1, show oA.toSurface.degU = p from uA.degU.trans dA1, show oA.toSurface.knotsU = WU from uA.knotsU] at this
    exact this
  have kV : KWf q WV (WV.length - q - 1) := by
    have := hcl.wf.v
    rw [n2, show oA.toSurface.degV = q from uA.degV.trans dA2, show oA.toSurface.knotsV = WV from uA.knotsV] at this
    exact this
  have hs24 : stackMaxDegree = 24 := rfl
  have c1 : kf WU 0 = a := by have := hcl.u00; rw [uA.u0] at this; rw [← uA.knotsU]; exact this
  have c2 : kf WU p = a := by
    have := hcl.u01
    rw [uA.u0, show oA.toSurface.degU = p from uA.degU.trans dA1, show oA.toSurface.knotsU = WU from uA.knotsU] at this
    exact this
  have c3 : kf WU (WU.length - p - 1) = b := by
    have := hcl.u10
    rw [uA.u1, n1, show oA.toSurface.knotsU = WU from uA.knotsU] at this
    exact this
  have c4 : kLast WU = b := by have := hcl.u11; rw [uA.u1] at this; rw [← uA.knotsU]; exact this
  have d1 : kf WV 0 = c := by have := hcl.v00; rw [uA.v0] at this; rw [← uA.knotsV]; exact this
  have d2 : kf WV q = c := by
    have := hcl.v01
    rw [uA.v0, show oA.toSurface.degV = q from uA.degV.trans dA2, show oA.toSurface.knotsV = WV from uA.knotsV] at this
    exact this
  have d3 : kf WV (WV.length - q - 1) = d := by
    have := hcl.v10
    rw [uA.v1, n2, show oA.toSurface.knotsV = WV from uA.knotsV] at this
    exact this
  have d4 : kLast WV = d := by have := hcl.v11; rw [uA.v1] at this; rw [← uA.knotsV]; exact this
  obtain ⟨s, es, hs, hwf, hval⟩ := surf_clamped heps kU kV (P := P) (by rw [l2, lA]) (by omega) (by omega)
    (by rw [← kU.len, ← kV.len]; exact lt_of_le_of_lt (Nat.mul_le_mul hlU hlV) hmem) (by rw [c1, c2]) (by rw [c3, c4]) (by rw [d1, d2]) (by rw [d3, d4])
  refine ⟨s, ?_, hwf, by rw [hs], by rw [hs], by rw [hs, c2], by rw [hs, c3], by rw [hs, d2], by rw [hs, d3], ?_⟩
  · unfold gordonSum
    rw [eA, R_bind_ok, eB, R_bind_ok, eC, R_bind_ok, eout, R_bind_ok]
    show Surface.mk? eps P oA.knotsU oA.knotsV p q = .ok s
    rw [uA.knotsU, uA.knotsV]; exact es
  · intro x y x0 x1 y0 y1 junk1 junk2 junk3 junk du dv
    have hne : b - a ≠ 0 := by linarith
    have hne' : d - c ≠ 0 := by linarith
    have hxt : a + (b - a) * ((x - a) / (b - a)) = x := by rw [mul_div_cancel₀ _ hne]; ring
    have hyt : c + (d - c) * ((y - c) / (d - c)) = y := by rw [mul_div_cancel₀ _ hne']; ring
    have t0 : 0 ≤ (x - a) / (b - a) := div_nonneg (by linarith) (by linarith)
    have t1 : (x - a) / (b - a) ≤ 1 := (div_le_one (by linarith)).mpr (by linarith)
    have w0 : 0 ≤ (y - c) / (d - c) := div_nonneg (by linarith) (by linarith)
    have w1 : (y - c) / (d - c) ≤ 1 := (div_le_one (by linarith)).mpr (by linarith)
    have one : ∀ {i o : SurfInfo K V}, i ∈ [iA, iB, iC] → Spec.UnifiedSurf eps a b c d WU WV i o → ∀ junk junk', ∃ pt,
        i.toSurface.value eps junk x y du dv = .ok pt ∧ o.toSurface.value eps junk' x y du dv = .ok pt := by
      intro i o hi hu junk junk'
      obtain ⟨-, -, -, g1, g2, g3, g4, -⟩ := hk i hi
      obtain ⟨pt, v1, v2⟩ := hu.value _ _ t0 t1 w0 w1 junk junk' du dv
      rw [show i.toSurface.u0 = a from g1, show i.toSurface.u1 = b from g2, show i.toSurface.v0 = c from g3, show i.toSurface.v1 = d from g4,
        hxt, hyt] at v1
      rw [show i.toSurface.u0 = a from g1, show i.toSurface.u1 = b from g2, show i.toSurface.v0 = c from g3, show i.toSurface.v1 = d from g4,
        hxt, hyt, div_self hne, div_self hne', one_pow, one_pow, one_smul, one_smul] at v2
      exact ⟨pt, v1, v2⟩
    have two : ∀ {i o : SurfInfo K V}, i ∈ [iA, iB, iC] → Spec.UnifiedSurf eps a b c d WU WV i o → ∃ i j,
        findSpan (WU.length - p - 1) p x WU = .ok i ∧ findSpan (WV.length - q - 1) q y WV = .ok j ∧ ∀ junk, o.toSurface.value eps junk x y du dv =
          .ok (surfDer (kf WU) (WU.length - p - 1) p i (kf WV) (WV.length - q - 1) q j (pf o.polesUV.flatten) du dv x y) := by
      intro i o hi hu
      obtain ⟨e1, e2, -⟩ := hk i hi
      obtain ⟨m, n, f1, f2, -, -, -, -, -, -, f3⟩ := Surface.value_spec heps hu.cl.wf (hu.cl.big eps) (hu.cl.in (u := x) (v := y) (by rw [hu.u0]; exact x0) (by rw [hu.u1]; exact x1)
        (by rw [hu.v0]; exact y0) (by rw [hu.v1]; exact y1))
      have m1 : o.toSurface.nPU = WU.length - p - 1 := by
        show o.knotsU.length - (o.degU + 1) = _
        rw [hu.knotsU, hu.degU, e1]; omega
      have m2 : o.toSurface.nPV = WV.length - q - 1 := by
        show o.knotsV.length - (o.degV + 1) = _
        rw [hu.knotsV, hu.degV, e2]; omega
      rw [m1, show o.toSurface.degU = p from hu.degU.trans e1, show o.toSurface.knotsU = WU from hu.knotsU] at f1 f3
      rw [m2, show o.toSurface.degV = q from hu.degV.trans e2, show o.toSurface.knotsV = WV from hu.knotsV] at f2 f3
      exact ⟨m, n, f1, f2, fun junk => f3 junk du dv⟩
    obtain ⟨PA, vA, vA'⟩ := one (by simp) uA junk1 0
    obtain ⟨PB, vB, vB'⟩ := one (by simp) uB junk2 0
    obtain ⟨PC, vC, vC'⟩ := one (by simp) uC junk3 0
    obtain ⟨m, n, f1, f2, f3⟩ := two (by simp) uA
    obtain ⟨m', n', g1, g2, g3⟩ := two (by simp) uB
    obtain ⟨m'', n'', h1, h2, h3⟩ := two (by simp) uC
    rw [f1] at g1 h1
    rw [f2] at g2 h2
    obtain rfl := Except.ok.inj g1
    obtain rfl := Except.ok.inj h1
    obtain rfl := Except.ok.inj g2
    obtain rfl := Except.ok.inj h2
    rw [f3] at vA'
    rw [g3] at vB'
    rw [h3] at vC'
    rw [tA] at vA
    rw [tB] at vB
    rw [tC] at vC
    refine ⟨PA, PB, PC, vA, vB, vC, ?_⟩
    rw [hval x y m n (by rw [c2]; exact x0) (by rw [c3]; exact x1) (by rw [d2]; exact y0) (by rw [d3]; exact y1) f1 f2, hpf, surfDer_sum,
      Except.ok.inj vA', Except.ok.inj vB', Except.ok.inj vC']

end Gbs
