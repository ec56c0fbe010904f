import Verif.Model.LoftCurves
import Verif.Props.LoftAuto
import Verif.Props.CurveApprox
import Verif.Props.UnifyCurves
import Verif.Props.Conics
import Verif.Props.Json

/-!
# C123: lofts of curves of any kind pass through the conversions of their sections
-/

namespace Gbs

variable {dim : ℕ}

/-- What is asked of a section: nothing of a `BSCurve`; another curve has values between its bounds, and its samples are not all at its start. -/
def Spec.SectionOk (o : FitArgs ℝ (Fin dim → ℝ)) (np : ℕ) : AnyCurve ℝ (Fin dim → ℝ) → Prop
  | .bs _ => True
  | .other _ c => Spec.FitOk o c ∧ Spec.Valued c ∧ Spec.Spread c np

/-- The start and the end of a section. -/
noncomputable def Spec.startOf (eps : ℝ) : AnyCurve ℝ (Fin dim → ℝ) → R (Fin dim → ℝ)
  | .bs c => c.value eps 0 c.b0 0
  | .other _ c => c.value c.b0 0

noncomputable def Spec.endOf (eps : ℝ) : AnyCurve ℝ (Fin dim → ℝ) → R (Fin dim → ℝ)
  | .bs c => c.value eps 0 c.b1 0
  | .other _ c => c.value c.b1 0

/-- The converted section: the `BSCurve` itself, or an approximation of degree `p` with the ends of the curve. -/
def Spec.Converts (o : FitArgs ℝ (Fin dim → ℝ)) (np p : ℕ) : AnyCurve ℝ (Fin dim → ℝ) → Curve ℝ (Fin dim → ℝ) → Prop
  | .bs c, b => b = c
  | .other _ c, b => ∃ Q u, Spec.Samples c np Q u ∧ Spec.ModeFit o.eps c p .chordLength Q b

variable {o : FitArgs ℝ (Fin dim → ℝ)} {np p : ℕ}

theorem converts_one (hq : ∀ a b, o.nrm (a - b) = eDist a b) (hr : o.sqrt = Real.sqrt) (dev : ℝ) (hp1 : 1 ≤ p) (hp : p ≤ stackMaxDegree) (hn : 2 * p < np)
    (h5 : 5 ≤ np) (c : AnyCurve ℝ (Fin dim → ℝ)) (h : Spec.SectionOk o np c) :
    ∃ b, toBsCurve o c dev np p .chordLength = .ok b ∧ Spec.Converts o np p c b := by
  have := C106_to_bs_curve (o := o) hq hr dev hp1 hp hn h5 .chordLength
  cases c with
  | bs c => exact ⟨c, this.1 c, rfl⟩
  | other knots c =>
    obtain ⟨Q, u, b, h1, h2, h3, -⟩ := this.2 c knots h.1 h.2.1 h.2.2
    exact ⟨b, h2, Q, u, h1, h3⟩

/-- C123: every section is converted, in order: a `BSCurve` is kept as it is, another curve is replaced by an approximation with the same ends. -/
theorem C123_convert (hq : ∀ a b, o.nrm (a - b) = eDist a b) (hr : o.sqrt = Real.sqrt) (dev : ℝ) (hp1 : 1 ≤ p) (hp : p ≤ stackMaxDegree) (hn : 2 * p < np)
    (h5 : 5 ≤ np) {l : List (AnyCurve ℝ (Fin dim → ℝ))} (hl : ∀ c ∈ l, Spec.SectionOk o np c) :
    ∃ bs, convertSections o l dev np p = .ok bs ∧ List.Forall₂ (Spec.Converts o np p) l bs := by
  induction l with
  | nil => exact ⟨[], rfl, .nil⟩
  | cons c l ih =>
    obtain ⟨b, e, h⟩ := converts_one hq hr dev hp1 hp hn h5 c (hl c List.mem_cons_self)
    obtain ⟨bs, e', h'⟩ := ih fun c hc => hl c (List.mem_cons_of_mem _ hc)
    refine ⟨b :: bs, ?_, .cons h h'⟩
    unfold convertSections at e' ⊢
    rw [List.mapM_cons, e, R_bind_ok, e']
    rfl

/-- The line of a surface is the section: with its points at the affine parameter when it is a `BSCurve`, with its ends in all cases. -/
structure Spec.Through (eps : ℝ) (s : Surface ℝ (Fin dim → ℝ)) (v : ℝ) (sec : AnyCurve ℝ (Fin dim → ℝ)) (b : Curve ℝ (Fin dim → ℝ)) : Prop where
  line : ∀ t, 0 ≤ t → t ≤ 1 → ∀ junk junk', s.value eps junk (s.u0 + (s.u1 - s.u0) * t) v 0 0 = b.value eps junk' (b.b0 + (b.b1 - b.b0) * t) 0
  first : ∀ junk, s.value eps junk s.u0 v 0 0 = Spec.startOf eps sec
  last : ∀ junk, s.value eps junk s.u1 v 0 0 = Spec.endOf eps sec

theorem through_of_iso {eps : ℝ} {s : Surface ℝ (Fin dim → ℝ)} {v : ℝ} {sec : AnyCurve ℝ (Fin dim → ℝ)} {b : Curve ℝ (Fin dim → ℝ)} (he : eps = o.eps)
    (hw : b.Whole) (hc : Spec.Converts o np p sec b) (h : Spec.IsoIs eps s s.u0 s.u1 b.info v) : Spec.Through eps s v sec b := by
  have hline : ∀ t, 0 ≤ t → t ≤ 1 → ∀ junk junk', s.value eps junk (s.u0 + (s.u1 - s.u0) * t) v 0 0 = b.value eps junk' (b.b0 + (b.b1 - b.b0) * t) 0 := by
    intro t h0 h1 junk junk'
    obtain ⟨pt, e1, e2⟩ := h t 0 h0 h1 junk' junk
    rw [hw.toCurve] at e1
    rw [e1, e2, pow_zero, one_smul]
  refine ⟨hline, ?_, ?_⟩
  · intro junk
    have := hline 0 le_rfl zero_le_one junk 0
    rw [mul_zero, add_zero, mul_zero, add_zero] at this
    rw [this]
    cases sec with
    | bs c => rw [show b = c from hc]; rfl
    | other knots c =>
      obtain ⟨Q, u, -, hf⟩ := hc
      rw [he]
      exact hf.first 0
  · intro junk
    have := hline 1 zero_le_one le_rfl junk 0
    rw [mul_one, add_sub_cancel, mul_one, add_sub_cancel] at this
    rw [this]
    cases sec with
    | bs c => rw [show b = c from hc]; rfl
    | other knots c =>
      obtain ⟨Q, u, -, hf⟩ := hc
      rw [he]
      exact hf.last 0

theorem bsCurvesInfo_eq {K V : Type} (l : List (Curve K V)) : bsCurvesInfo l = l.map Curve.info := rfl

variable {b0 : Curve ℝ (Fin dim → ℝ)} {bs : List (Curve ℝ (Fin dim → ℝ))}

theorem info_hyps {eps : ℝ} (hdeg : ∀ c ∈ b0 :: bs, c.deg ≤ 12) (hcl : ∀ c ∈ b0 :: bs, c.Whole ∧ ∃ ks ms, c.ClampedBy eps ks ms) :
    (∀ c ∈ b0.info :: bs.map Curve.info, c.deg ≤ 12) ∧ ∀ c ∈ b0.info :: bs.map Curve.info, ∃ ks ms, c.toCurve.ClampedBy eps ks ms := by
  rw [← List.map_cons]
  constructor
  · intro c hc
    obtain ⟨d, hd, rfl⟩ := List.mem_map.mp hc
    exact hdeg d hd
  · intro c hc
    obtain ⟨d, hd, rfl⟩ := List.mem_map.mp hc
    rw [(hcl d hd).1.toCurve]
    exact (hcl d hd).2

theorem through_all {s : Surface ℝ (Fin dim → ℝ)} {l : List (AnyCurve ℝ (Fin dim → ℝ))} {v : List ℝ}
    (hcv : List.Forall₂ (Spec.Converts o np p) l (b0 :: bs)) (hcl : ∀ c ∈ b0 :: bs, c.Whole ∧ ∃ ks ms, c.ClampedBy o.eps ks ms)
    (h0 : s.u0 = b0.b0) (h1 : s.u1 = b0.b1)
    (h : ∀ (j : ℕ) (c : CurveInfo ℝ (Fin dim → ℝ)) (t : ℝ), (b0.info :: bs.map Curve.info)[j]? = some c → v[j]? = some t →
      Spec.IsoIs o.eps s b0.b0 b0.b1 c t) (j : ℕ) (sec : AnyCurve ℝ (Fin dim → ℝ)) (t : ℝ) (hj : l[j]? = some sec) (ht : v[j]? = some t) :
    ∃ b, (b0 :: bs)[j]? = some b ∧ Spec.Converts o np p sec b ∧ Spec.Through o.eps s t sec b := by
  obtain ⟨hjl, rfl⟩ := List.getElem?_eq_some_iff.mp hj
  have hjb : j < (b0 :: bs).length := by rw [← hcv.length_eq]; exact hjl
  have hc := hcv.get hjl hjb
  rw [List.get_eq_getElem, List.get_eq_getElem] at hc
  refine ⟨_, List.getElem?_eq_getElem hjb, hc, through_of_iso rfl (hcl _ (List.getElem_mem hjb)).1 hc ?_⟩
  rw [h0, h1]
  refine h j _ t ?_ ht
  rw [← List.map_cons, List.getElem?_map, List.getElem?_eq_getElem hjb]
  rfl

/-- C123: the loft of curves of any kind at given parameters. When the conversions are clamped curves of degree at most 12, it returns a surface whose line at the
parameter of a section is its conversion, hence the section itself if it is a `BSCurve`, and goes from the start to the end of the section in all cases. The
bounds along U are those of the first conversion. -/
theorem C123_loft_params (ho : 0 < o.eps) (hS : Spec.SolvesDense o.dense) (hd : ∀ a b, o.nrm (a - b) = eDist a b) (hr : o.sqrt = Real.sqrt) {dev : ℝ}
    (hp1 : 1 ≤ p) (hp : p ≤ stackMaxDegree) (hn : 2 * p < np) (h5 : 5 ≤ np) {l : List (AnyCurve ℝ (Fin dim → ℝ))} (hl : ∀ c ∈ l, Spec.SectionOk o np c)
    (hconv : convertSections o l dev np p = .ok (b0 :: bs))
    (hdeg : ∀ c ∈ b0 :: bs, c.deg ≤ 12) (hcl : ∀ c ∈ b0 :: bs, c.Whole ∧ ∃ ks ms, c.ClampedBy o.eps ks ms)
    (hsep : SepL o.eps ((b0 :: bs).flatMap fun c => c.knots.map (rescale (kf b0.knots 0) (kLast b0.knots) c.knots)))
    {v : List ℝ} {q : ℕ} (hq : 1 ≤ q) (hbs : bs ≠ []) (hq24 : min q bs.length ≤ stackMaxDegree) (hlen : v.length = l.length)
    (hv : v.Pairwise (· < ·)) (hmem : 13 * ((b0 :: bs).map fun c => c.knots.length).sum * (v.length + min q bs.length + 1) < 2 ^ 64) :
    ∃ s, loftCurvesV o l v q dev np p = .ok s ∧ s.Wf ∧ s.degV = min q (l.length - 1) ∧ s.u0 = b0.b0 ∧ s.u1 = b0.b1 ∧ s.v0 = kf v 0 ∧
      s.v1 = kf v (v.length - 1) ∧
      ∀ (j : ℕ) (sec : AnyCurve ℝ (Fin dim → ℝ)) (t : ℝ), l[j]? = some sec → v[j]? = some t →
        ∃ b, (b0 :: bs)[j]? = some b ∧ Spec.Converts o np p sec b ∧ Spec.Through o.eps s t sec b := by
  have hcv : List.Forall₂ (Spec.Converts o np p) l (b0 :: bs) := by
    obtain ⟨bs', e, h⟩ := C123_convert hd hr dev hp1 hp hn h5 hl
    rw [hconv] at e
    rw [Except.ok.inj e]
    exact h
  have hll : l.length = bs.length + 1 := by rw [hcv.length_eq]; rfl
  obtain ⟨hdeg', hcl'⟩ := info_hyps hdeg hcl
  have hb0 : b0.info.toCurve = b0 := (hcl b0 List.mem_cons_self).1.toCurve
  obtain ⟨s, e, hwf, d, -, -, h0, h1, h2, h3, h⟩ := C83_loft_params ho o.junk hS (c0 := b0.info) (cs := bs.map Curve.info) hdeg' hcl'
    (by rw [← List.map_cons, List.flatMap_map]; exact hsep) (v := v) (q := q) hq (by simpa using hbs) (by simpa using hq24)
    (by rw [List.length_map, hlen, hll]) hv
    (by rw [← List.map_cons]; unfold Spec.totalKnots; rw [List.map_map, List.length_map]; exact hmem)
  rw [hb0] at h0 h1 h
  rw [List.length_map] at d
  refine ⟨s, ?_, hwf, by rw [d, hll]; rfl, h0, h1, h2, h3, through_all hcv hcl h0 h1 h⟩
  unfold loftCurvesV
  rw [hconv, R_bind_ok]
  exact e

/-- C123: the loft of curves of any kind at parameters of its own, which go from 0 to 1, when two consecutive conversions are not the same map up to the change
of parameter. -/
theorem C123_loft (ho : 0 < o.eps) (hS : Spec.SolvesDense o.dense) (hd : ∀ a b, o.nrm (a - b) = eDist a b) (hr : o.sqrt = Real.sqrt) {dev : ℝ}
    (hp1 : 1 ≤ p) (hp : p ≤ stackMaxDegree) (hn : 2 * p < np) (h5 : 5 ≤ np) {l : List (AnyCurve ℝ (Fin dim → ℝ))} (hl : ∀ c ∈ l, Spec.SectionOk o np c)
    (hconv : convertSections o l dev np p = .ok (b0 :: bs))
    (hdeg : ∀ c ∈ b0 :: bs, c.deg ≤ 12) (hcl : ∀ c ∈ b0 :: bs, c.Whole ∧ ∃ ks ms, c.ClampedBy o.eps ks ms)
    (hsep : SepL o.eps ((b0 :: bs).flatMap fun c => c.knots.map (rescale (kf b0.knots 0) (kLast b0.knots) c.knots)))
    {q : ℕ} (hq : 1 ≤ q) (hbs : bs ≠ []) (hq24 : min q bs.length ≤ stackMaxDegree)
    (hmem : 13 * ((b0 :: bs).map fun c => c.knots.length).sum * (bs.length + min q bs.length + 2) < 2 ^ 64)
    (hdiff : ∀ (j : ℕ) c d, (b0 :: bs)[j]? = some c → (b0 :: bs)[j + 1]? = some d → ¬ Spec.SameSection o.eps c.info d.info) :
    ∃ s v, loftCurves o l q dev np p = .ok s ∧ v.length = l.length ∧ v.Pairwise (· < ·) ∧ kf v 0 = 0 ∧ kf v (v.length - 1) = 1 ∧ s.Wf ∧
      s.degV = min q (l.length - 1) ∧ s.u0 = b0.b0 ∧ s.u1 = b0.b1 ∧ s.v0 = 0 ∧ s.v1 = 1 ∧
      ∀ (j : ℕ) (sec : AnyCurve ℝ (Fin dim → ℝ)) (t : ℝ), l[j]? = some sec → v[j]? = some t →
        ∃ b, (b0 :: bs)[j]? = some b ∧ Spec.Converts o np p sec b ∧ Spec.Through o.eps s t sec b := by
  have hcv : List.Forall₂ (Spec.Converts o np p) l (b0 :: bs) := by
    obtain ⟨bs', e, h⟩ := C123_convert hd hr dev hp1 hp hn h5 hl
    rw [hconv] at e
    rw [Except.ok.inj e]
    exact h
  have hll : l.length = bs.length + 1 := by rw [hcv.length_eq]; rfl
  have hb1 : 0 < bs.length := List.length_pos_iff.mpr hbs
  obtain ⟨hdeg', hcl'⟩ := info_hyps hdeg hcl
  have hb0 : b0.info.toCurve = b0 := (hcl b0 List.mem_cons_self).1.toCurve
  obtain ⟨mid, out, nu, v, s, -, -, -, -, e, hlv, hpv, hv, hwf, d, -, -, h0, h1, h2, h3, h⟩ := C83_loft_auto ho o.junk hS (c0 := b0.info)
    (cs := bs.map Curve.info) hdeg' hcl'
    (by rw [← List.map_cons, List.flatMap_map]; exact hsep) (q := q) hq (by simpa using hbs) (by simpa using hq24)
    (by rw [← List.map_cons]; unfold Spec.totalKnots; rw [List.map_map, List.length_map]; exact hmem)
    (Or.inl (by
      intro j c d hc hd
      rw [← List.map_cons, List.getElem?_map] at hc hd
      obtain ⟨c', hc', rfl⟩ := Option.map_eq_some_iff.mp hc
      obtain ⟨d', hd', rfl⟩ := Option.map_eq_some_iff.mp hd
      exact hdiff j c' d' hc' hd'))
  rw [hb0] at h0 h1 h
  rw [List.length_map] at d hlv hv
  obtain ⟨i0, i1, -, -⟩ := loftParam_inc (mode := .chordLength) (pts := fun i j => pf (out.map CurveInfo.poles |>.getD j []) i) (nu := nu)
    (n := bs.length + 1) (by omega)
  refine ⟨s, v, ?_, by rw [hlv, hll], hpv, by rw [hv 0 (by omega)]; exact i0, by rw [hlv, hv _ (by omega)]; exact i1, hwf, by rw [d, hll]; rfl, h0, h1, h2, h3,
    through_all hcv hcl h0 h1 h⟩
  unfold loftCurves
  rw [hconv, R_bind_ok, show (fun a b => o.nrm (a - b)) = eDist from funext fun a => funext fun b => hd a b, hr]
  exact e

/-- Sections with the same data: the same object, or `BSCurve`s that may differ in their bounds. -/
def Spec.SameData : AnyCurve ℝ (Fin dim → ℝ) → AnyCurve ℝ (Fin dim → ℝ) → Prop
  | .bs c, .bs c' => c.poles = c'.poles ∧ c.knots = c'.knots ∧ c.deg = c'.deg
  | a, b => a = b

theorem sameData_one (dev : ℝ) {a b : AnyCurve ℝ (Fin dim → ℝ)} (h : Spec.SameData a b) :
    (∃ x, toBsCurve o a dev np p .chordLength = .error x ∧ toBsCurve o b dev np p .chordLength = .error x) ∨
      ∃ c c', toBsCurve o a dev np p .chordLength = .ok c ∧ toBsCurve o b dev np p .chordLength = .ok c' ∧ c.info = c'.info := by
  by_cases hab : a = b
  · subst hab
    cases hc : toBsCurve o a dev np p .chordLength with
    | error x => exact Or.inl ⟨x, rfl, rfl⟩
    | ok c => exact Or.inr ⟨c, c, rfl, rfl, rfl⟩
  · cases a with
    | other k c => cases b <;> exact absurd h hab
    | bs c =>
      cases b with
      | other k c' => exact absurd h hab
      | bs c' =>
        obtain ⟨h1, h2, h3⟩ := h
        refine Or.inr ⟨c, c', rfl, rfl, ?_⟩
        unfold Curve.info
        rw [h1, h2, h3]

/-- C123, false of the code: a section that was trimmed without cutting its knots is lofted whole: the surface does not depend on the bounds of the sections that
are `BSCurve`s. -/
theorem C123_bounds_lost {l l' : List (AnyCurve ℝ (Fin dim → ℝ))} (h : List.Forall₂ Spec.SameData l l') (dev : ℝ) (v : List ℝ) (q : ℕ) :
    loftCurves o l q dev np p = loftCurves o l' q dev np p ∧ loftCurvesV o l v q dev np p = loftCurvesV o l' v q dev np p := by
  have key : (∃ x, convertSections o l dev np p = .error x ∧ convertSections o l' dev np p = .error x) ∨
      ∃ bs bs', convertSections o l dev np p = .ok bs ∧ convertSections o l' dev np p = .ok bs' ∧ bsCurvesInfo bs = bsCurvesInfo bs' := by
    induction h with
    | nil => exact Or.inr ⟨[], [], rfl, rfl, rfl⟩
    | @cons a b l l' hab _ ih =>
      have hone := sameData_one (o := o) (np := np) (p := p) dev hab
      unfold convertSections at ih ⊢
      rw [List.mapM_cons, List.mapM_cons]
      rcases hone with ⟨x, e1, e2⟩ | ⟨c, c', e1, e2, e3⟩
      · exact Or.inl ⟨x, by rw [e1]; rfl, by rw [e2]; rfl⟩
      · rw [e1, e2, R_bind_ok, R_bind_ok]
        rcases ih with ⟨x, f1, f2⟩ | ⟨bs, bs', f1, f2, f3⟩
        · exact Or.inl ⟨x, by rw [f1]; rfl, by rw [f2]; rfl⟩
        · refine Or.inr ⟨c :: bs, c' :: bs', by rw [f1]; rfl, by rw [f2]; rfl, ?_⟩
          rw [bsCurvesInfo_eq] at f3 ⊢
          rw [bsCurvesInfo_eq] at f3 ⊢
          rw [List.map_cons, List.map_cons, f3, e3]
  unfold loftCurves loftCurvesV
  rcases key with ⟨x, e1, e2⟩ | ⟨bs, bs', e1, e2, e3⟩
  · rw [e1, e2]; exact ⟨rfl, rfl⟩
  · rw [e1, e2, R_bind_ok, R_bind_ok, R_bind_ok, R_bind_ok, e3]
    exact ⟨rfl, rfl⟩

namespace Sample

/-- A segment of the line, from `a` to `b`. -/
noncomputable def seg1 (a b : ℝ) : Curve ℝ (Fin 1 → ℝ) := ⟨1, [![a], ![b]], [0, 0, 1, 1], 0, 1⟩

theorem seg1_clamped (a b : ℝ) : (seg1 a b).Whole ∧ ∃ ks ms, (seg1 a b).ClampedBy fitArgs.eps ks ms :=
  ⟨⟨rfl, rfl⟩, [0, 1], [2, 2], seg_clampedBy (by norm_num [fitArgs]) _ _⟩

theorem seg1_start (a b : ℝ) (junk : ℝ) : (seg1 a b).value fitArgs.eps junk 0 0 = .ok ![a] := by
  obtain ⟨-, ks, ms, hk⟩ := seg1_clamped a b
  exact (C06_clamped_ends (eps := fitArgs.eps) (by norm_num [fitArgs]) hk.good (Or.inl (show 1 ≤ stackMaxDegree by decide)) junk).1 (by
    intro j h1 h2
    have : j = 1 := by have : (seg1 a b).deg = 1 := rfl; omega
    subst this
    rfl)

theorem seg1_end (a b : ℝ) (junk : ℝ) : (seg1 a b).value fitArgs.eps junk 1 0 = .ok ![b] := by
  obtain ⟨-, ks, ms, hk⟩ := seg1_clamped a b
  exact (C06_clamped_ends (eps := fitArgs.eps) (by norm_num [fitArgs]) hk.good (Or.inl (show 1 ≤ stackMaxDegree by decide)) junk).2 (by
    intro j h1 h2
    have h3 : (seg1 a b).deg = 1 := rfl
    have h4 : (seg1 a b).poles.length = 2 := rfl
    have : j = 2 ∨ j = 3 := by omega
    rcases this with rfl | rfl <;> rfl)

/-- The segment from 0 to 1, trimmed to its first half. -/
noncomputable def half1 : Curve ℝ (Fin 1 → ℝ) := { seg1 0 1 with b1 := 1 / 2 }

theorem half1_end (junk : ℝ) : half1.value fitArgs.eps junk half1.b1 0 = .ok ![1 / 2] := by
  have he : 0 < fitArgs.eps := by norm_num [fitArgs]
  obtain ⟨c, l, e, -, -, -, -, hl, -, hv⟩ := C60_segment he isSqrt_real (![0] : Fin 1 → ℝ) ![1] true (Or.inl rfl)
  obtain rfl := hl rfl
  have hc : c = seg1 0 1 := by
    unfold buildSegment at e
    simp only [if_true] at e
    obtain ⟨-, -, x1, x2, x3, x4, x5⟩ := mk_ok e
    cases c
    simp only at x1 x2 x3
    subst x1 x2 x3
    have x4 := Option.some.inj x4
    have x5 := Option.some.inj x5
    simp only at x4 x5
    rw [← x4, ← x5]
    rfl
  have := (hv (1 / 2) (by norm_num) (by norm_num) junk).1
  rw [hc, Curve.value_inBounds he (by norm_num [seg1]) (by norm_num [seg1])] at this
  rw [Curve.value_inBounds he (by norm_num [seg1, half1]) le_rfl]
  refine Eq.trans this ?_
  congr 1
  ext i
  simp

theorem seg1_convert (s : Curve ℝ (Fin 1 → ℝ)) (a b : ℝ) : convertSections fitArgs [.bs s, .bs (seg1 a b)] (1 / 100) 30 2 = .ok [s, seg1 a b] := rfl

theorem seg1_loft : ∃ s, loftCurvesV fitArgs [.bs (seg1 0 1), .bs (seg1 1 3)] [0, 1] 3 (1 / 100) 30 2 = .ok s ∧ s.degV = 1 ∧ s.u1 = 1 ∧
    ∀ junk, s.value fitArgs.eps junk s.u1 0 0 0 = .ok ![1] ∧ s.value fitArgs.eps junk s.u1 1 0 0 = .ok ![3] := by
  have hok : Spec.FitOk fitArgs fastLine := fitArgs_ok rfl rfl
  obtain ⟨s, e, -, d, -, h1, -, -, h⟩ := C123_loft_params (o := fitArgs) (p := 2) (np := 30) (b0 := seg1 0 1) (bs := [seg1 1 3]) hok.eps hok.solves fitArgs_dist rfl
    (dev := 1 / 100) (by norm_num) (by decide) (by norm_num) (by norm_num) (l := [.bs (seg1 0 1), .bs (seg1 1 3)])
    (by
      intro c hc
      simp only [List.mem_cons, List.not_mem_nil, or_false] at hc
      rcases hc with rfl | rfl <;> trivial)
    (seg1_convert _ _ _)
    (by
      intro c hc
      simp only [List.mem_cons, List.not_mem_nil, or_false] at hc
      rcases hc with rfl | rfl <;> exact (by decide : (1 : ℕ) ≤ 12))
    (by
      intro c hc
      simp only [List.mem_cons, List.not_mem_nil, or_false] at hc
      rcases hc with rfl | rfl <;> exact seg1_clamped _ _)
    (by
      intro x hx y hy hxy
      simp [rescale, seg1, kf, kLast] at hx hy
      rcases hx with rfl | rfl | rfl | rfl <;> rcases hy with rfl | rfl | rfl | rfl <;> first | exact absurd hxy (lt_irrefl _) | (norm_num [fitArgs]; done) | exact absurd hxy (by norm_num))
    (v := [0, 1]) (q := 3) (by norm_num) (by simp) (by decide) rfl (by simp) (by norm_num [seg1])
  refine ⟨s, e, d, h1, ?_⟩
  intro junk
  obtain ⟨_, -, -, t1⟩ := h 0 _ 0 rfl rfl
  obtain ⟨_, -, -, t2⟩ := h 1 _ 1 rfl rfl
  exact ⟨by rw [t1.last]; exact seg1_end 0 1 0, by rw [t2.last]; exact seg1_end 1 3 0⟩

/-- C123, negation: the loft of the first half of a segment goes through the whole segment. -/
theorem _root_.Gbs.C123_bounds_witness : half1.value fitArgs.eps 0 half1.b1 0 = .ok ![1 / 2] ∧
    ∃ s, loftCurvesV fitArgs [.bs half1, .bs (seg1 1 3)] [0, 1] 3 (1 / 100) 30 2 = .ok s ∧ s.value fitArgs.eps 0 s.u1 0 0 0 = .ok ![1] := by
  refine ⟨half1_end 0, ?_⟩
  obtain ⟨s, e, -, -, h⟩ := seg1_loft
  rw [← (C123_bounds_lost (o := fitArgs) (np := 30) (p := 2) (l := [.bs half1, .bs (seg1 1 3)]) (l' := [.bs (seg1 0 1), .bs (seg1 1 3)]) (.cons ⟨rfl, rfl, rfl⟩ (.cons ⟨rfl, rfl, rfl⟩ .nil)) (1 / 100) [0, 1] 3).2] at e
  exact ⟨s, e, (h 0).1⟩

/-- Two sections of different kinds are converted, with their ends. -/
example : ∃ bs, convertSections fitArgs [.bs (seg1 0 1), .other [] hat1] (1 / 100) 30 2 = .ok bs ∧
    List.Forall₂ (Spec.Converts fitArgs 30 2) [.bs (seg1 0 1), .other [] hat1] bs :=
  C123_convert fitArgs_dist rfl _ (by norm_num) (by decide) (by norm_num) (by norm_num) (by
    intro c hc
    simp only [List.mem_cons, List.not_mem_nil, or_false] at hc
    rcases hc with rfl | rfl
    · trivial
    · exact ⟨fitArgs_ok rfl rfl, hat1_valued, hat1_spread⟩)

theorem seg1_diff : ¬ Spec.SameSection fitArgs.eps (seg1 0 1).info (seg1 1 3).info := by
  intro hs
  have := hs 0 le_rfl zero_le_one
  rw [mul_zero, add_zero, mul_zero, add_zero, (seg1_clamped 0 1).1.toCurve, (seg1_clamped 1 3).1.toCurve] at this
  rw [show (seg1 0 1).b0 = 0 from rfl, show (seg1 1 3).b0 = 0 from rfl, seg1_start, seg1_start] at this
  have := congrFun (Except.ok.inj this) 0
  norm_num at this

example : ∃ (s : Surface ℝ (Fin 1 → ℝ)) (v : List ℝ), loftCurves fitArgs [.bs (seg1 0 1), .bs (seg1 1 3)] 3 (1 / 100) 30 2 = .ok s ∧ v.Pairwise (· < ·) ∧ s.v1 = 1 := by
  have hok : Spec.FitOk fitArgs fastLine := fitArgs_ok rfl rfl
  obtain ⟨s, v, e, -, hv, -, -, -, -, -, -, -, h1, -⟩ := C123_loft (o := fitArgs) (p := 2) (np := 30) (b0 := seg1 0 1) (bs := [seg1 1 3]) hok.eps hok.solves fitArgs_dist rfl
    (dev := 1 / 100) (by norm_num) (by decide) (by norm_num) (by norm_num) (l := [.bs (seg1 0 1), .bs (seg1 1 3)])
    (by
      intro c hc
      simp only [List.mem_cons, List.not_mem_nil, or_false] at hc
      rcases hc with rfl | rfl <;> trivial)
    (seg1_convert _ _ _)
    (by
      intro c hc
      simp only [List.mem_cons, List.not_mem_nil, or_false] at hc
      rcases hc with rfl | rfl <;> exact (by decide : (1 : ℕ) ≤ 12))
    (by
      intro c hc
      simp only [List.mem_cons, List.not_mem_nil, or_false] at hc
      rcases hc with rfl | rfl <;> exact seg1_clamped _ _)
    (by
      intro x hx y hy hxy
      simp [rescale, seg1, kf, kLast] at hx hy
      rcases hx with rfl | rfl | rfl | rfl <;> rcases hy with rfl | rfl | rfl | rfl <;> first | exact absurd hxy (lt_irrefl _) | (norm_num [fitArgs]; done) | exact absurd hxy (by norm_num))
    (q := 3) (by norm_num) (by simp) (by decide) (by norm_num [seg1])
    (by
      intro j c d hc hd
      match j with
      | 0 => simp at hc hd; subst hc hd; exact seg1_diff
      | j + 1 => simp at hd)
  exact ⟨s, v, e, hv, h1⟩

end Sample

end Gbs
