import Verif.Props.Loft
import Verif.Props.Ranges

/-! # C83: averaged chord-length parameters of the lofts -/

namespace Gbs

set_option linter.unusedSectionVars false

open scoped BigOperators

variable {dim : ℕ}

/-- The unscaled parametrization of a list of points. -/
theorem param_raw (eps : ℝ) {L : List (Fin dim → ℝ)} (hne : 1 ≤ L.length) (mode : KnotsCalcMode) :
    ∃ k, curveParametrization eps eDist Real.sqrt L mode false = .ok k ∧ k.length = L.length ∧
      ∀ i, i < L.length → kf k i = Spec.arc mode (pf L) L.length i := by
  have hne' : L ≠ [] := by rintro rfl; simp at hne
  obtain ⟨k0, e, hl, h0, hs, -, hst⟩ := C34_parametrization eps L hne' mode
  refine ⟨k0, e, hl, ?_⟩
  intro i
  induction i with
  | zero =>
    intro _
    rw [List.head?_eq_getElem?, kf_getElem? (by omega)] at h0
    rw [Option.some.inj h0, arc_zero]
  | succ i ih =>
    intro hi
    obtain ⟨s, t, e1, e2, e3⟩ := hst i (pf L i) (pf L (i + 1)) (pf_getElem? (by omega)) (pf_getElem? hi)
    have := ih (by omega)
    rw [← (kf_of_some e1).2, ← (kf_of_some e2).2] at e3
    unfold Spec.arc at this ⊢
    rw [Finset.sum_range_succ, ← this, ← e3]
    ring

/-- Rows of poles of positive length: `pts i j` is pole `i` of section `j`. -/
noncomputable def Spec.goodRows (mode : KnotsCalcMode) (pts : ℕ → ℕ → Fin dim → ℝ) (nu n : ℕ) : Finset ℕ :=
  open Classical in (Finset.range nu).filter fun i => 0 < Spec.arc mode (pts i) n (n - 1)

/-- The parameter of section `j` (The NURBS Book, 10.8): the mean over the rows of poles of positive length of the fraction of the length of
the row reached at section `j`; equally spaced when no row has a positive length. -/
noncomputable def Spec.loftParam (mode : KnotsCalcMode) (pts : ℕ → ℕ → Fin dim → ℝ) (nu n j : ℕ) : ℝ :=
  open Classical in if Spec.goodRows mode pts nu n = ∅ then (j : ℝ) / ((n : ℝ) - 1)
  else (∑ i ∈ Spec.goodRows mode pts nu n, Spec.arc mode (pts i) n j / Spec.arc mode (pts i) n (n - 1)) / (Spec.goodRows mode pts nu n).card

theorem goodRows_succ (mode : KnotsCalcMode) (pts : ℕ → ℕ → Fin dim → ℝ) (k n : ℕ) : k ∉ Spec.goodRows mode pts k n ∧
    Spec.goodRows mode pts (k + 1) n =
      (open Classical in if 0 < Spec.arc mode (pts k) n (n - 1) then insert k (Spec.goodRows mode pts k n) else Spec.goodRows mode pts k n) := by
  classical
  unfold Spec.goodRows
  refine ⟨by simp, ?_⟩
  rw [Finset.range_add_one, Finset.filter_insert]

/-- C83, `loft_averaged_params`: for at least two sections with the same number of poles. -/
theorem C83_averaged_params (eps : ℝ) (mode : KnotsCalcMode) {infos : List (CurveInfo ℝ (Fin dim → ℝ))} {nu : ℕ} (hn : 2 ≤ infos.length)
    (hnu : ∀ c ∈ infos, c.poles.length = nu) (pts : ℕ → ℕ → Fin dim → ℝ)
    (hpts : ∀ i j c, infos[j]? = some c → pts i j = pf c.poles i) :
    ∃ v, loftAveragedParams eps eDist Real.sqrt mode infos = .ok v ∧ v.length = infos.length ∧
      ∀ j, j < infos.length → kf v j = Spec.loftParam mode pts nu infos.length j := by
  set n := infos.length with hndef
  have h0 : 0 < infos.length := by omega
  unfold loftAveragedParams
  rw [rd_ok h0, R_bind_ok, hnu _ (List.getElem_mem h0)]
  obtain ⟨⟨w, k⟩, e, hlw, hk, hw⟩ := forLt_inv (a := 0) (b := nu) (s := (List.replicate infos.length (0 : ℝ), 0))
    (body := loftParamRow eps eDist Real.sqrt mode infos)
    (fun i s => s.1.length = n ∧ s.2 = (Spec.goodRows mode pts i n).card ∧
      ∀ j, j < n → kf s.1 j = ∑ a ∈ Spec.goodRows mode pts i n, Spec.arc mode (pts a) n j / Spec.arc mode (pts a) n (n - 1))
    (by omega)
    ⟨by simp [hndef], by simp [Spec.goodRows], by
      intro j hj
      rw [kf_of_lt (by simpa [hndef] using hj), List.getElem_replicate]
      simp [Spec.goodRows]⟩
    (by
      rintro i ⟨w, k⟩ - hi ⟨hlw, hk, hw⟩
      simp only at hlw hk hw
      unfold loftParamRow
      obtain ⟨row, er, hlr, hr⟩ := forLt_collect (n := infos.length) (body := fun j row => do
          let c ← rd infos j
          let x ← rd c.poles i
          pure (row ++ [x])) (fun j x => pts i j = x)
        (by
          intro j acc hj
          have hl : (infos[j]).poles.length = nu := hnu _ (List.getElem_mem hj)
          rw [rd_ok hj, R_bind_ok]
          refine ⟨(infos[j]).poles[i]'(by omega), by rw [rd_ok (by omega), R_bind_ok]; rfl, ?_⟩
          rw [hpts i j _ (List.getElem?_eq_getElem hj)]
          exact pf_of_some (List.getElem?_eq_getElem _))
      rw [er, R_bind_ok]
      obtain ⟨c, ec, hlc, hc⟩ := param_raw eps (L := row) (by omega) mode
      rw [ec, R_bind_ok, usub_ok (by omega), R_bind_ok, rd_kf (by omega), R_bind_ok]
      have hca : ∀ j, j < n → kf c j = Spec.arc mode (pts i) n j := by
        intro j hj
        rw [hc j (by omega), hlr]
        unfold Spec.arc
        apply Finset.sum_congr rfl
        intro t ht
        have ht := Finset.mem_range.mp ht
        obtain ⟨x, hx, ex⟩ := hr t (by omega)
        obtain ⟨y, hy, ey⟩ := hr (t + 1) (by omega)
        rw [pf_of_some hx, pf_of_some hy, ex, ey]
      rw [hca _ (by omega), show c.length - 1 = n - 1 by omega]
      obtain ⟨g1, g2⟩ := goodRows_succ mode pts i n
      rcases le_or_gt (Spec.arc mode (pts i) n (n - 1)) 0 with hz | hz
      · rw [if_pos hz]
        refine ⟨_, rfl, hlw, ?_, ?_⟩
        · rw [g2, if_neg (by linarith)]; exact hk
        · rw [g2, if_neg (by linarith)]; exact hw
      · rw [if_neg (by linarith)]
        simp only
        obtain ⟨w', e', hl', h1, h2⟩ := forLt_inv (a := 0) (b := infos.length) (s := w)
          (body := fun j w => do
            let a ← rd w j
            let x ← rd c j
            let y ← fdiv x (Spec.arc mode (pts i) n (n - 1))
            wr w j (a + y))
          (fun m w' => w'.length = n ∧ (∀ t, t < m → kf w' t = kf w t + kf c t / Spec.arc mode (pts i) n (n - 1)) ∧
            ∀ t, m ≤ t → t < n → kf w' t = kf w t)
          (by omega) ⟨hlw, by intro t ht; omega, fun _ _ _ => rfl⟩
          (by
            rintro m w' - hm ⟨hl', h1, h2⟩
            rw [rd_ok (by omega), R_bind_ok, rd_ok (by omega), R_bind_ok, fdiv_ok hz.ne', R_bind_ok, wr_ok (by omega)]
            have hset : ∀ t x, t < n → kf (w'.set m x) t = if t = m then x else kf w' t := by
              intro t x ht
              rw [kf_of_lt (by simpa [hl'] using ht), List.getElem_set]
              split
              · rename_i h; rw [if_pos h.symm]
              · rename_i h; rw [if_neg (fun h' => h h'.symm), kf_of_lt (by omega)]
            refine ⟨_, rfl, by simpa using hl', ?_, ?_⟩
            · intro t ht
              rw [hset _ _ (by omega)]
              split
              · rename_i h
                subst h
                rw [← kf_of_lt, ← kf_of_lt, h2 t le_rfl hm]
              · exact h1 t (by omega)
            · intro t ht ht'
              rw [hset _ _ ht', if_neg (by omega)]
              exact h2 t (by omega) ht')
        rw [e', R_bind_ok]
        refine ⟨_, rfl, hl', ?_, ?_⟩
        · rw [g2, if_pos hz, Finset.card_insert_of_notMem g1, ← hk]
        · intro j hj
          rw [g2, if_pos hz, Finset.sum_insert g1, ← hw j hj, h1 j (by omega), hca j hj]
          ring)
  simp only at hlw hk hw
  rw [e, R_bind_ok]
  simp only
  by_cases hE : Spec.goodRows mode pts nu n = ∅
  · rw [if_pos (by rw [hk, hE]; rfl)]
    obtain ⟨v, ev, hlv, -, -, hv⟩ := (C33_make_range (0 : ℝ) 1 infos.length).2 hn
    refine ⟨v, ev, hlv, ?_⟩
    intro j hj
    rw [(kf_of_some (hv j (by omega))).2]
    unfold Spec.loftParam
    rw [if_pos hE, ← hndef]
    ring
  · have hk0 : k ≠ 0 := by rw [hk]; exact fun h => hE (Finset.card_eq_zero.mp h)
    rw [if_neg hk0, mapM_ok (g := fun x => x / (k : ℝ)) _ (fun x _ => fdiv_ok (by exact_mod_cast hk0))]
    refine ⟨_, rfl, by simpa using hlw, ?_⟩
    intro j hj
    rw [kf_of_lt (by simpa [hlw] using hj), List.getElem_map, ← kf_of_lt, hw j hj]
    unfold Spec.loftParam
    rw [if_neg hE, hk]

/-- The parameters go from 0 to 1, and increase strictly from a section to the next when a pole differs. -/
theorem loftParam_inc {mode : KnotsCalcMode} {pts : ℕ → ℕ → Fin dim → ℝ} {nu n : ℕ} (hn : 2 ≤ n) :
    Spec.loftParam mode pts nu n 0 = 0 ∧ Spec.loftParam mode pts nu n (n - 1) = 1 ∧ Monotone (Spec.loftParam mode pts nu n) ∧
      ∀ j, j + 1 < n → (Spec.goodRows mode pts nu n = ∅ ∨ ∃ i, i < nu ∧ pts i j ≠ pts i (j + 1)) →
        Spec.loftParam mode pts nu n j < Spec.loftParam mode pts nu n (j + 1) := by
  classical
  have hnR : (2 : ℝ) ≤ n := by exact_mod_cast hn
  unfold Spec.loftParam
  by_cases hE : Spec.goodRows mode pts nu n = ∅
  · simp only [if_pos hE]
    refine ⟨by simp, ?_, ?_, ?_⟩
    · rw [Nat.cast_sub (by omega), Nat.cast_one, div_self (by linarith)]
    · intro a b hab
      exact div_le_div_of_nonneg_right (by exact_mod_cast hab) (by linarith)
    · intro j hj _
      exact div_lt_div_of_pos_right (by push_cast; linarith) (by linarith)
  · simp only [if_neg hE]
    have hc : (0 : ℝ) < (Spec.goodRows mode pts nu n).card := by
      exact_mod_cast Finset.card_pos.mpr (Finset.nonempty_iff_ne_empty.mpr hE)
    have hpos : ∀ i ∈ Spec.goodRows mode pts nu n, 0 < Spec.arc mode (pts i) n (n - 1) := fun i hi => (Finset.mem_filter.mp hi).2
    have hmono : ∀ i, Monotone (Spec.arc mode (pts i) n) := fun i => arc_mono (by omega) mode _
    refine ⟨?_, ?_, ?_, ?_⟩
    · rw [Finset.sum_eq_zero fun i _ => by rw [arc_zero, zero_div], zero_div]
    · rw [Finset.sum_congr rfl fun i hi => div_self (hpos i hi).ne', Finset.sum_const, nsmul_eq_mul, mul_one, div_self hc.ne']
    · intro a b hab
      apply div_le_div_of_nonneg_right _ hc.le
      exact Finset.sum_le_sum fun i hi => div_le_div_of_nonneg_right (hmono i hab) (hpos i hi).le
    · intro j hj h
      obtain ⟨i, hi, hne⟩ := h.resolve_left hE
      have hlt : Spec.arc mode (pts i) n j < Spec.arc mode (pts i) n (j + 1) := by
        unfold Spec.arc
        rw [Finset.sum_range_succ]
        linarith [segLen_pos (n := n) (mode := mode) hn (Or.inr hne)]
      have hig : i ∈ Spec.goodRows mode pts nu n := by
        refine Finset.mem_filter.mpr ⟨Finset.mem_range.mpr hi, ?_⟩
        have a1 := hmono i (show 0 ≤ j by omega)
        rw [arc_zero] at a1
        have a2 := hmono i (show j + 1 ≤ n - 1 by omega)
        linarith
      apply div_lt_div_of_pos_right _ hc
      exact Finset.sum_lt_sum (fun i hi => div_le_div_of_nonneg_right (hmono i (by omega)) (hpos i hi).le)
        ⟨i, hig, div_lt_div_of_pos_right hlt (hpos i hig)⟩

/-- Two sections are the same map up to the affine change of parameter. -/
def Spec.SameSection (eps : ℝ) (c d : CurveInfo ℝ (Fin dim → ℝ)) : Prop :=
  ∀ t, 0 ≤ t → t ≤ 1 → c.toCurve.value eps 0 (c.toCurve.b0 + (c.toCurve.b1 - c.toCurve.b0) * t) 0 =
    d.toCurve.value eps 0 (d.toCurve.b0 + (d.toCurve.b1 - d.toCurve.b0) * t) 0

theorem sameSection_of_unified {eps a b : ℝ} {q : ℕ} {W : List ℝ} {c d c' d' : CurveInfo ℝ (Fin dim → ℝ)}
    (hc : Unified eps a b q W c c') (hd : Unified eps a b q W d d') (h : c' = d') : Spec.SameSection eps c d := by
  intro t h0 h1
  obtain ⟨p1, a1, a2⟩ := hc.value t 0 h0 h1 0 0
  obtain ⟨p2, b1, b2⟩ := hd.value t 0 h0 h1 0 0
  rw [h, b2, pow_zero, one_smul, pow_zero, one_smul] at a2
  rw [a1, b1, Except.ok.inj a2]

/-- The unified version of a curve is unique. -/
theorem unified_unique {K : Type} [Field K] [LinearOrder K] [IsStrictOrderedRing K] {V : Type} [AddCommGroup V] [Module K V] {eps a b : K}
    (heps : 0 < eps) {q : ℕ} (hq : q ≤ stackMaxDegree) {W : List K} {c c1 c2 : CurveInfo K V}
    (h1 : Unified eps a b q W c c1) (h2 : Unified eps a b q W c c2) : c1 = c2 := by
  refine CurveInfo.eq_of_values heps h2.clamped (by rw [h2.deg]; exact hq) (by rw [h1.deg, h2.deg]) (by rw [h1.knots, h2.knots]) h1.good ?_
  intro v d g1 g2 junk junk'
  rw [h2.b0] at g1
  rw [h2.b1] at g2
  have hab : a < b := by have := h2.good.lt; rwa [h2.b0, h2.b1] at this
  have hpos : 0 < b - a := by linarith
  obtain ⟨p1, x1, x2⟩ := h1.value ((v - a) / (b - a)) d (div_nonneg (by linarith) hpos.le) ((div_le_one hpos).mpr (by linarith)) junk junk
  obtain ⟨p2, y1, y2⟩ := h2.value ((v - a) / (b - a)) d (div_nonneg (by linarith) hpos.le) ((div_le_one hpos).mpr (by linarith)) junk junk'
  rw [mul_div_cancel₀ _ hpos.ne', add_sub_cancel] at x2 y2
  rw [x1] at y1
  rw [x2, y2, Except.ok.inj y1]

theorem goodRows_empty {pts : ℕ → ℕ → Fin dim → ℝ} {nu n : ℕ} (h : ∀ i j, i < nu → j + 1 < n → pts i j = pts i (j + 1)) :
    Spec.goodRows .chordLength pts nu n = ∅ := by
  classical
  unfold Spec.goodRows
  rw [Finset.filter_eq_empty_iff]
  intro i hi
  rw [not_lt]
  unfold Spec.arc
  apply le_of_eq
  apply Finset.sum_eq_zero
  intro t ht
  rw [← h i t (Finset.mem_range.mp hi) (by have := Finset.mem_range.mp ht; omega)]
  simp [Spec.segLen, eDist]

/-- C83, `loft(sections, q_max)`: at least two clamped sections of degrees at most 12, any `q_max ≥ 1`. When each two consecutive sections
differ somewhere, or when all the sections are the same one, the loft returns a surface that passes through each section at
its parameter. The parameters go from 0 to 1 and are the averaged chord-length parameters of the rows of poles of the compatible sections. -/
theorem C83_loft_auto {eps : ℝ} (heps : 0 < eps) (junk : ℝ)
    {dense : ℕ → (ℕ → ℕ → ℝ) → List (Fin dim → ℝ) → R (List (Fin dim → ℝ))} (hS : Spec.SolvesDense dense)
    {c0 : CurveInfo ℝ (Fin dim → ℝ)} {cs : List (CurveInfo ℝ (Fin dim → ℝ))} (hdeg : ∀ c ∈ c0 :: cs, c.deg ≤ 12)
    (hcl : ∀ c ∈ c0 :: cs, ∃ ks ms, c.toCurve.ClampedBy eps ks ms)
    (hsep : SepL eps ((c0 :: cs).flatMap fun c => c.knots.map (rescale (kf c0.knots 0) (kLast c0.knots) c.knots)))
    {q : ℕ} (hq : 1 ≤ q) (hcs : cs ≠ []) (hq24 : min q cs.length ≤ stackMaxDegree)
    (hmem : 13 * Spec.totalKnots (c0 :: cs) * (cs.length + min q cs.length + 2) < 2 ^ 64)
    (hdiff : (∀ (j : ℕ) c d, (c0 :: cs)[j]? = some c → (c0 :: cs)[j + 1]? = some d → ¬ Spec.SameSection eps c d) ∨ ∀ c ∈ cs, c = c0) :
    ∃ mid out nu v s, unifyDegree eps (c0 :: cs) = .ok mid ∧ unifyKnots eps mid = .ok out ∧ out.length = cs.length + 1 ∧
      (∀ c ∈ out, c.poles.length = nu) ∧ loftGenericAuto eps junk eDist Real.sqrt dense (c0 :: cs) q = .ok s ∧
      v.length = cs.length + 1 ∧ v.Pairwise (· < ·) ∧
      (∀ j, j < cs.length + 1 → kf v j = Spec.loftParam .chordLength
        (fun i j => pf (out.map CurveInfo.poles |>.getD j []) i) nu (cs.length + 1) j) ∧
      s.Wf ∧ s.degV = min q cs.length ∧ (∀ c ∈ c0 :: cs, c.deg ≤ s.degU) ∧
      (∃ c ∈ c0 :: cs, c.deg = s.degU) ∧ s.u0 = c0.toCurve.b0 ∧ s.u1 = c0.toCurve.b1 ∧ s.v0 = 0 ∧ s.v1 = 1 ∧
      ∀ (j : ℕ) (c : CurveInfo ℝ (Fin dim → ℝ)) (b : ℝ), (c0 :: cs)[j]? = some c → v[j]? = some b →
        Spec.IsoIs eps s c0.toCurve.b0 c0.toCurve.b1 c b := by
  have hcl0 : 0 < cs.length := List.length_pos_iff.mpr hcs
  have hr1 : 1 ≤ min q cs.length := by omega
  obtain ⟨mid, out, p, W, e1, e2, hp12, hp, hp', hne, hU, hall, hsepW, hW0, hW1, hWl⟩ := loft_unify heps hdeg hcl hsep
  have hlo : out.length = cs.length + 1 := by rw [← hU.length_eq]; rfl
  have hpos : 0 < out.length := by omega
  obtain ⟨hd0, hk0, hcl0'⟩ := hall _ (List.getElem_mem hpos)
  have hnu : ∀ c ∈ out, c.poles.length = (out[0]).poles.length := by
    intro c hc
    obtain ⟨a1, a2, a3⟩ := hall c hc
    have := a3.len
    have h' := hcl0'.len
    rw [a1, a2] at this
    rw [hd0, hk0] at h'
    omega
  set nu := (out[0]).poles.length with hnudef
  set pts : ℕ → ℕ → Fin dim → ℝ := fun i j => pf (out.map CurveInfo.poles |>.getD j []) i with hptsdef
  have hpts : ∀ i j c, out[j]? = some c → pts i j = pf c.poles i := by
    intro i j c hc
    simp only [hptsdef]
    rw [List.getD_eq_getElem?_getD, List.getElem?_map, hc]
    rfl
  obtain ⟨v, ev, hlv, hv⟩ := C83_averaged_params eps .chordLength (infos := out) (by omega) hnu pts hpts
  obtain ⟨i0, i1, -, inc⟩ := loftParam_inc (mode := .chordLength) (pts := pts) (nu := nu) (n := out.length) (by omega)
  have hrow : ∀ j, j + 1 < out.length → Spec.goodRows .chordLength pts nu out.length = ∅ ∨ ∃ i, i < nu ∧ pts i j ≠ pts i (j + 1) := by
    intro j hj
    rcases hdiff with hdiff | hsame
    swap
    · left
      apply goodRows_empty
      intro i j hi hj
      have hj1 : j < (c0 :: cs).length := by rw [hU.length_eq]; omega
      have hj2 : j + 1 < (c0 :: cs).length := by rw [hU.length_eq]; omega
      have hall0 : ∀ c ∈ c0 :: cs, c = c0 := by
        intro c hc
        rcases List.mem_cons.mp hc with h | h
        · exact h
        · exact hsame c h
      have x1 := hU.get hj1 (show j < out.length by omega)
      have x2 := hU.get hj2 hj
      rw [List.get_eq_getElem, hall0 _ (List.getElem_mem hj1)] at x1
      rw [List.get_eq_getElem, hall0 _ (List.getElem_mem hj2)] at x2
      have he := unified_unique heps (by have : stackMaxDegree = 24 := rfl; omega) x1 x2
      rw [List.get_eq_getElem, List.get_eq_getElem] at he
      rw [hpts i j _ (List.getElem?_eq_getElem (by omega)), hpts i (j + 1) _ (List.getElem?_eq_getElem hj), he]
    right
    by_contra hc
    push Not at hc
    have hj1 : j < (c0 :: cs).length := by rw [hU.length_eq]; omega
    have hj2 : j + 1 < (c0 :: cs).length := by rw [hU.length_eq]; omega
    refine hdiff j _ _ (List.getElem?_eq_getElem hj1) (List.getElem?_eq_getElem hj2)
      (sameSection_of_unified (hU.get hj1 (by omega)) (hU.get hj2 hj) ?_)
    obtain ⟨a1, a2, -⟩ := hall _ (List.getElem_mem (show j < out.length by omega))
    obtain ⟨b1, b2, -⟩ := hall _ (List.getElem_mem hj)
    have hl1 := hnu _ (List.getElem_mem (show j < out.length by omega))
    have hl2 := hnu _ (List.getElem_mem hj)
    have hP : (out[j]).poles = (out[j + 1]).poles := by
      apply List.ext_getElem?
      intro i
      rcases Nat.lt_or_ge i nu with hi | hi
      · have := hc i hi
        rw [hpts i j _ (List.getElem?_eq_getElem (by omega)), hpts i (j + 1) _ (List.getElem?_eq_getElem hj)] at this
        rw [pf_getElem? (by omega), pf_getElem? (by omega), this]
      · rw [List.getElem?_eq_none (by omega), List.getElem?_eq_none (by omega)]
    simp only [List.get_eq_getElem]
    generalize out[j] = x at *
    generalize out[j + 1] = y at *
    cases x; cases y
    simp only at a1 a2 b1 b2 hP
    rw [a1, a2, b1, b2, hP]
  have hvlt : ∀ j, j + 1 < out.length → kf v j < kf v (j + 1) := by
    intro j hj
    rw [hv j (by omega), hv (j + 1) hj]
    exact inc j hj (hrow j hj)
  have hvs : v.Pairwise (· < ·) := by
    have hm : ∀ d t, t + (d + 1) < out.length → kf v t < kf v (t + (d + 1)) := by
      intro d
      induction d with
      | zero => intro t ht; exact hvlt t ht
      | succ d ih => intro t ht; exact (ih t (by omega)).trans (hvlt (t + (d + 1)) (by omega))
    rw [List.pairwise_iff_getElem]
    intro i j hi hj hij
    rw [← kf_of_lt, ← kf_of_lt]
    have := hm (j - i - 1) i (by omega)
    rwa [show i + (j - i - 1 + 1) = j by omega] at this
  have hlen : v.length = cs.length + 1 := by omega
  obtain ⟨k, ek, -, -, -, -, -⟩ := C54_averaged_knots (V := ℝ) hr1 (u := v) (by omega) hvs
  obtain ⟨hV, hkk0, hkk1, hR⟩ := averaged_coll hr1 (by omega) hvs ek
  obtain ⟨z0, z1⟩ := averaged_clamped hr1 (by omega) hvs ek
  obtain ⟨P, s, eP, es, hwf, d1, d2, b1, b2, b3, b4, hval⟩ := loft_compatible heps junk hS hne (p := p) (q := min q cs.length) (W := W)
    (flatV := k) (v := v) (by have : stackMaxDegree = 24 := rfl; omega) hq24 hall (by omega) hV z0 z1
    (by
      intro b hb
      obtain ⟨i, hi, rfl⟩ := List.getElem_of_mem hb
      rw [hkk0, hkk1, ← kf_of_lt hi]
      have hm := kf_mono (hvs.imp le_of_lt)
      exact ⟨hm (by omega), hm (by omega)⟩) hR
    (lt_of_le_of_lt (Nat.mul_le_mul_right _ hWl) (by rw [hlen, show cs.length + 1 + min q cs.length + 1 = cs.length + min q cs.length + 2 by omega]; exact hmem))
  obtain ⟨f1, f2⟩ := C83_unify_again heps hne hp12 hsepW hall
  refine ⟨mid, out, nu, v, s, e1, e2, hlo, hnu, ?_, hlen, hvs, ?_, hwf, d2, by rw [d1]; exact hp, by rw [d1]; exact hp',
    by rw [b1, hW0], by rw [b2, hW1], ?_, ?_, ?_⟩
  · unfold loftGenericAuto loftAuto loftFlat
    rw [e1, R_bind_ok, e2, R_bind_ok, ev, R_bind_ok, usub_ok (by omega), R_bind_ok]
    simp only
    rw [show out.length - 1 = cs.length by omega, ek, R_bind_ok, f1, R_bind_ok, f2, R_bind_ok, rd_ok hpos, R_bind_ok, eP, R_bind_ok]
    show Surface.mk? eps P (out[0]).knots k (out[0]).deg (min q cs.length) = _
    rw [hk0, hd0]; exact es
  · intro j hj
    rw [hv j (by omega), hlo]
  · rw [b3, hkk0, hv 0 (by omega), i0]
  · rw [b4, hkk1, hlv, hv _ (by omega), i1]
  · intro j c b hj hb
    obtain ⟨hjl, rfl⟩ := List.getElem?_eq_some_iff.mp hj
    have hjo : j < out.length := by rw [← hU.length_eq]; exact hjl
    have hu := hU.get hjl hjo
    obtain ⟨ks, ms, hk⟩ := hcl c0 List.mem_cons_self
    refine isoIs_of_unified hk.good.lt hu ?_
    intro u du junk junk' g1 g2
    exact hval j _ b (List.getElem?_eq_getElem hjo) hb u du junk junk' (by rw [hW0]; exact g1) (by rw [hW1]; exact g2)

/-- A matrix with two equal rows is not regular. -/
theorem not_regular_of_rows {K : Type} [Field K] {n i j : ℕ} {A : ℕ → ℕ → K} (hi : i < n) (hj : j < n) (hij : i ≠ j) (h : ∀ c, c < n → A i c = A j c) :
    ¬ Spec.Regular n A := by
  classical
  intro hR
  let M : Matrix (Fin n) (Fin n) K := fun i j => A i j
  have hdet : M.det = 0 := by
    refine Matrix.det_zero_of_row_eq (i := ⟨i, hi⟩) (j := ⟨j, hj⟩) (by simpa using hij) ?_
    funext c
    exact h c c.2
  obtain ⟨w, hw, hw0⟩ := Matrix.exists_mulVec_eq_zero_iff.mpr hdet
  apply hw
  funext c
  have := hR (fun k => if hk : k < n then w ⟨k, hk⟩ else 0) (by
    intro r hr
    have := congrFun hw0 ⟨r, hr⟩
    rw [Matrix.mulVec, dotProduct] at this
    rw [Finset.sum_range]
    simpa using this) c c.2
  simpa using this

/-- C83, limit: when a section is repeated (and a row of poles has a positive length), the two sections get the same parameter, and the matrix
of the system is singular whatever the (well-formed) knots: no interpolation is possible, and the result of the factorization of Eigen is
not defined. -/
theorem C83_loft_repeated {eps : ℝ} {infos : List (CurveInfo ℝ (Fin dim → ℝ))} {nu : ℕ} (hnu : ∀ c ∈ infos, c.poles.length = nu) {j : ℕ}
    {c : CurveInfo ℝ (Fin dim → ℝ)} (h1 : infos[j]? = some c) (h2 : infos[j + 1]? = some c)
    (hne : ∃ c' ∈ infos, ∃ c'' ∈ infos, c'.poles ≠ c''.poles) :
    ∃ v, loftAveragedParams eps eDist Real.sqrt .chordLength infos = .ok v ∧ v.length = infos.length ∧ kf v j = kf v (j + 1) ∧
      ∀ r flatV junk, r ≤ stackMaxDegree → KWf r flatV infos.length → ∃ N, buildPolesMatrix eps junk 1 flatV v r infos.length = .ok N ∧
        ¬ Spec.Regular infos.length N := by
  classical
  have hj1 : j + 1 < infos.length := (List.getElem?_eq_some_iff.mp h2).1
  set pts : ℕ → ℕ → Fin dim → ℝ := fun i j => pf (infos.map CurveInfo.poles |>.getD j []) i with hptsdef
  have hpts : ∀ i j c, infos[j]? = some c → pts i j = pf c.poles i := by
    intro i j c hc
    simp only [hptsdef]
    rw [List.getD_eq_getElem?_getD, List.getElem?_map, hc]
    rfl
  obtain ⟨v, ev, hlv, hv⟩ := C83_averaged_params eps .chordLength (infos := infos) (by omega) hnu pts hpts
  have hgood : Spec.goodRows .chordLength pts nu infos.length ≠ ∅ := by
    intro hE
    -- all the rows are constant
    have hall : ∀ i t, i < nu → t + 1 < infos.length → pts i t = pts i (t + 1) := by
      intro i t hi ht
      by_contra hc
      have hlt : Spec.arc .chordLength (pts i) infos.length t < Spec.arc .chordLength (pts i) infos.length (t + 1) := by
        unfold Spec.arc
        rw [Finset.sum_range_succ]
        linarith [segLen_pos (n := infos.length) (mode := .chordLength) (by omega) (Or.inr hc)]
      have hmono := arc_mono (n := infos.length) (by omega) .chordLength (pts i)
      have a1 := hmono (show 0 ≤ t by omega)
      rw [arc_zero] at a1
      have a2 := hmono (show t + 1 ≤ infos.length - 1 by omega)
      have : i ∈ Spec.goodRows .chordLength pts nu infos.length := Finset.mem_filter.mpr ⟨Finset.mem_range.mpr hi, by linarith⟩
      rw [hE] at this
      exact absurd this (Finset.notMem_empty i)
    have hcon : ∀ t, t < infos.length → ∀ i, i < nu → pts i t = pts i 0 := by
      intro t
      induction t with
      | zero => intro _ i _; rfl
      | succ t ih => intro ht i hi; rw [← hall i t hi ht]; exact ih (by omega) i hi
    obtain ⟨c', hc', c'', hc'', hne⟩ := hne
    obtain ⟨a, ha, rfl⟩ := List.getElem_of_mem hc'
    obtain ⟨b, hb, rfl⟩ := List.getElem_of_mem hc''
    apply hne
    have hl1 := hnu _ (List.getElem_mem ha)
    have hl2 := hnu _ (List.getElem_mem hb)
    apply List.ext_getElem?
    intro i
    rcases Nat.lt_or_ge i nu with hi | hi
    · rw [pf_getElem? (by omega), pf_getElem? (by omega), ← hpts i a _ (List.getElem?_eq_getElem ha), ← hpts i b _ (List.getElem?_eq_getElem hb),
        hcon a ha i hi, hcon b hb i hi]
    · rw [List.getElem?_eq_none (by omega), List.getElem?_eq_none (by omega)]
  have heq : kf v j = kf v (j + 1) := by
    rw [hv j (by omega), hv (j + 1) hj1]
    unfold Spec.loftParam
    rw [if_neg hgood, if_neg hgood]
    congr 1
    apply Finset.sum_congr rfl
    intro i _
    congr 1
    unfold Spec.arc
    rw [Finset.sum_range_succ, hpts i j c h1, hpts i (j + 1) c h2]
    simp [Spec.segLen, eDist]
  refine ⟨v, ev, hlv, heq, ?_⟩
  intro r flatV junk hr hK
  rw [← hlv] at hK ⊢
  obtain ⟨sp, hsp⟩ := exists_spans hK v
  obtain ⟨N, eN, hN⟩ := buildPolesMatrix_spec hK hr hsp (nc := 1) le_rfl eps junk
  refine ⟨N, eN, not_regular_of_rows (i := j) (j := j + 1) (by omega) (by omega) (by omega) ?_⟩
  intro c hc
  rw [hN j c (by omega) hc, hN (j + 1) c (by omega) hc]
  have x1 := coll_row (U := flatV) (u := v) (p := r) (nc := 1) (sp := sp) (i := j) (d := 0) (by omega) c
  have x2 := coll_row (U := flatV) (u := v) (p := r) (nc := 1) (sp := sp) (i := j + 1) (d := 0) (by omega) c
  rw [one_mul, Nat.add_zero] at x1 x2
  have hs : sp j = sp (j + 1) := by
    have a := hsp.find j (by omega)
    have b := hsp.find (j + 1) (by omega)
    rw [heq, b] at a
    exact (Except.ok.inj a).symm
  rw [x1, x2, hs, heq]

/-- C83, a single section: `loft(sections, q_max)` throws `length_error` (it comes from `make_range`). -/
theorem C83_loft_single {eps : ℝ} (heps : 0 < eps) (junk : ℝ) (dense : ℕ → (ℕ → ℕ → ℝ) → List (Fin dim → ℝ) → R (List (Fin dim → ℝ)))
    {c0 : CurveInfo ℝ (Fin dim → ℝ)} (hdeg : c0.deg ≤ 12) {ks : List ℝ} {ms : List ℕ} (hcl : c0.toCurve.ClampedBy eps ks ms)
    (hsep : SepL eps c0.knots) (q : ℕ) : loftGenericAuto eps junk eDist Real.sqrt dense [c0] q = .error (.thrown .length) := by
  obtain ⟨f1, f2⟩ := C83_unify_again heps (l := [c0]) (by simp) hdeg hsep
    (fun c hc => by rw [List.mem_singleton.mp hc]; exact ⟨rfl, rfl, CurveInfo.clamped_of heps hcl⟩)
  unfold loftGenericAuto loftAuto
  rw [f1, R_bind_ok, f2, R_bind_ok]
  have : loftAveragedParams eps eDist Real.sqrt .chordLength [c0] = .error (.thrown .length) := by
    unfold loftAveragedParams
    rw [rd_ok (by simp), R_bind_ok, List.getElem_cons_zero]
    obtain ⟨s, e, h⟩ := forLt_inv (a := 0) (b := c0.poles.length) (s := (List.replicate [c0].length (0 : ℝ), 0))
      (body := loftParamRow eps eDist Real.sqrt .chordLength [c0]) (fun _ s => s.2 = 0) (by omega) rfl
      (by
        rintro i s - hi hs
        refine ⟨s, ?_, hs⟩
        unfold loftParamRow
        have er : forLt 0 [c0].length (fun j row => do
            let c ← rd [c0] j
            let x ← rd c.poles i
            pure (row ++ [x])) [] = .ok [c0.poles[i]] := by
          obtain ⟨L, eL, hl, hL⟩ := forLt_collect (n := [c0].length) (body := fun j row => do
              let c ← rd [c0] j
              let x ← rd c.poles i
              pure (row ++ [x])) (fun _ x => x = c0.poles[i])
            (by
              intro j acc hj
              obtain rfl : j = 0 := by simpa using hj
              refine ⟨c0.poles[i], ?_, rfl⟩
              rw [rd_ok (by simp), R_bind_ok, List.getElem_cons_zero, rd_ok hi]
              rfl)
          obtain ⟨x, hx, rfl⟩ := hL 0 (by simp)
          rw [eL]
          obtain ⟨y, rfl⟩ := List.length_eq_one_iff.mp (by simpa using hl)
          simpa using hx
        rw [er, R_bind_ok]
        obtain ⟨c, ec, hlc, hc⟩ := param_raw eps (L := [c0.poles[i]]) (by simp) .chordLength
        rw [List.length_singleton] at hlc hc
        rw [ec, R_bind_ok, usub_ok (by omega), R_bind_ok, rd_kf (by omega), R_bind_ok, hlc, hc 0 (by omega), arc_zero, if_pos le_rfl]
        rfl)
    rw [e, R_bind_ok, if_pos h]
    exact (C33_make_range (0 : ℝ) 1 1).1 (by omega)
  rw [this]
  rfl

/-! ## Examples -/

namespace Sample

/-- A segment of the plane at height `h`. -/
noncomputable def segR (h : ℝ) : CurveInfo ℝ (Fin 2 → ℝ) := ⟨[![0, h], ![1, h]], [0, 0, 1, 1], 1⟩

theorem segR_clampedBy (h : ℝ) : (segR h).toCurve.ClampedBy (1/10) [0, 1] [2, 2] := seg_clampedBy (by norm_num) _ _

theorem segR_start (h : ℝ) : (segR h).toCurve.value (1/10) 0 0 0 = .ok ![0, h] := by
  have hk := segR_clampedBy h
  have := (C06_clamped_ends (eps := 1/10) (by norm_num) hk.good (Or.inl (show 1 ≤ stackMaxDegree by decide)) 0).1 (by
    intro j h1 h2
    have : j = 1 := by have : (segR h).toCurve.deg = 1 := rfl; omega
    subst this
    rfl)
  exact this

theorem segR_diff {a b : ℝ} (h : a ≠ b) : ¬ Spec.SameSection (1/10) (segR a) (segR b) := by
  intro hs
  have := hs 0 le_rfl zero_le_one
  rw [mul_zero, add_zero, mul_zero, add_zero] at this
  rw [show (segR a).toCurve.b0 = 0 from rfl, show (segR b).toCurve.b0 = 0 from rfl, segR_start, segR_start] at this
  exact h (congrFun (Except.ok.inj this) 1)

theorem segR_sep (l : List (CurveInfo ℝ (Fin 2 → ℝ))) (hl : ∀ c ∈ l, c.knots = [0, 0, 1, 1]) :
    SepL (1/10) (l.flatMap fun c => c.knots.map (rescale (kf (segR 0).knots 0) (kLast (segR 0).knots) c.knots)) := by
  have hm : ∀ x ∈ l.flatMap fun c => c.knots.map (rescale (kf (segR 0).knots 0) (kLast (segR 0).knots) c.knots), x = 0 ∨ x = 1 := by
    intro x hx
    obtain ⟨c, hc, hx⟩ := List.mem_flatMap.mp hx
    rw [hl c hc] at hx
    simp [rescale, segR, kf, kLast] at hx
    exact hx
  intro x hx y hy hxy
  rcases hm x hx with rfl | rfl <;> rcases hm y hy with rfl | rfl
  · exact absurd hxy (lt_irrefl _)
  · norm_num
  · norm_num at hxy
  · exact absurd hxy (lt_irrefl _)

/-- The hypotheses of `C83_loft_auto` hold for three segments at heights 0, 1, 3, and the parameter of the second is 1/3. -/
example {dense : ℕ → (ℕ → ℕ → ℝ) → List (Fin 2 → ℝ) → R (List (Fin 2 → ℝ))} (hS : Spec.SolvesDense dense) :
    ∃ (v : List ℝ) (s : Surface ℝ (Fin 2 → ℝ)), loftGenericAuto (1/10) 0 eDist Real.sqrt dense [segR 0, segR 1, segR 3] 7 = .ok s ∧ v.length = 3 ∧ v.Pairwise (· < ·) ∧ s.degV = 2 ∧
      ∀ b, v[1]? = some b → Spec.IsoIs (1/10) s 0 1 (segR 1) b := by
  obtain ⟨mid, out, nu, v, s, -, -, -, -, e, hl, hp, -, -, hd, -, -, -, -, -, -, h⟩ := C83_loft_auto (eps := 1/10) (by norm_num) 0 hS (c0 := segR 0)
    (cs := [segR 1, segR 3])
    (by
      intro c hc
      simp only [List.mem_cons, List.not_mem_nil, or_false] at hc
      rcases hc with rfl | rfl | rfl <;> exact (by decide : (1 : ℕ) ≤ 12))
    (by
      intro c hc
      simp only [List.mem_cons, List.not_mem_nil, or_false] at hc
      rcases hc with rfl | rfl | rfl <;> exact ⟨_, _, segR_clampedBy _⟩)
    (segR_sep _ (by
      intro c hc
      simp only [List.mem_cons, List.not_mem_nil, or_false] at hc
      rcases hc with rfl | rfl | rfl <;> rfl))
    (q := 7) (by norm_num) (by simp) (by decide) (by simp [Spec.totalKnots, segR])
    (Or.inl (by
      intro j c d hc hd
      match j with
      | 0 => simp at hc hd; subst hc hd; exact segR_diff (by norm_num)
      | 1 => simp at hc hd; subst hc hd; exact segR_diff (by norm_num)
      | j + 2 => simp at hd))
  exact ⟨v, s, e, hl, hp, hd, fun b hb => h 1 (segR 1) b rfl hb⟩

/-- The hypotheses of `C83_loft_repeated`. -/
example : ∃ v, loftAveragedParams (1/10) eDist Real.sqrt .chordLength [segR 0, segR 0, segR 1] = .ok v ∧ kf v 0 = kf v 1 := by
  obtain ⟨v, e, -, h, -⟩ := C83_loft_repeated (eps := 1/10) (infos := [segR 0, segR 0, segR 1]) (nu := 2) (j := 0) (c := segR 0)
    (by
      intro c hc
      simp only [List.mem_cons, List.not_mem_nil, or_false] at hc
      rcases hc with rfl | rfl | rfl <;> rfl) rfl rfl
    ⟨segR 0, by simp, segR 1, by simp, by simp [segR]⟩
  exact ⟨v, e, h⟩

/-- The hypotheses of `C83_loft_single`. -/
example (dense : ℕ → (ℕ → ℕ → ℝ) → List (Fin 2 → ℝ) → R (List (Fin 2 → ℝ))) :
    loftGenericAuto (1/10) 0 eDist Real.sqrt dense [segR 0] 3 = .error (.thrown .length) :=
  C83_loft_single (by norm_num) 0 dense (by exact (by decide : (1 : ℕ) ≤ 12)) (segR_clampedBy 0) (by
    intro x hx y hy hxy
    simp [segR] at hx hy
    rcases hx with rfl | rfl <;> rcases hy with rfl | rfl <;> first | (norm_num; done) | exact absurd hxy (by norm_num)) 3

end Sample

end Gbs
