import Verif.Lemmas.Unify
import Verif.Props.IncreaseDegree
import Verif.Props.Reparam

/-! # C50: unification of degrees and knots keeps the curves and ends with a common knot vector -/

namespace Gbs

set_option linter.unusedSectionVars false

variable {K : Type} [Field K] [LinearOrder K] [IsStrictOrderedRing K]
variable {V : Type} [AddCommGroup V] [Module K V]

/-- The curve of a tuple (poles, knots, degree); its bounds are the end knots. -/
def CurveInfo.toCurve (c : CurveInfo K V) : Curve K V :=
  { deg := c.deg, poles := c.poles, knots := c.knots, b0 := kf c.knots 0, b1 := kLast c.knots }

/-- A clamped spline of degree at least 1: sorted knots, the right number of poles, end knots of multiplicity `deg + 1`, inner knots of
multiplicity at most `deg`. -/
structure CurveInfo.Clamped (c : CurveInfo K V) : Prop where
  deg : 1 ≤ c.deg
  len : c.knots.length = c.poles.length + c.deg + 1
  sorted : c.knots.Pairwise (· ≤ ·)
  lt : kf c.knots 0 < kLast c.knots
  first : c.knots.count (kf c.knots 0) = c.deg + 1
  last : c.knots.count (kLast c.knots) = c.deg + 1
  mid : ∀ x, kf c.knots 0 < x → x < kLast c.knots → c.knots.count x ≤ c.deg

theorem CurveInfo.Clamped.kc {c : CurveInfo K V} (h : c.Clamped) : KC c.deg (kf c.knots 0) (kLast c.knots) c.knots c.poles := by
  have hs := h.sorted
  have hm := kf_mono hs
  have hlen := h.len
  have hne : c.knots ≠ [] := by intro he; rw [he] at hlen; simp at hlen
  have hlt := h.lt
  have hmem : ∀ x ∈ c.knots, kf c.knots 0 ≤ x ∧ x ≤ kLast c.knots := by
    intro x hx
    obtain ⟨i, hi, rfl⟩ := List.getElem_of_mem hx
    rw [← kf_of_lt hi]
    exact ⟨hm (by omega), hm (by omega)⟩
  have ha := count_eq_multOf hs (kf c.knots 0)
  have hb := count_eq_multOf hs (kLast c.knots)
  have hfirst := h.first
  have hlast := h.last
  unfold multOf at ha hb
  have l0 : lowerBound c.knots (kf c.knots 0) = 0 := by
    by_contra h0
    exact lt_irrefl _ (kf_lt_of_lt_lowerBound (U := c.knots) (u := kf c.knots 0) (j := 0) (by omega))
  have u1 : upperBound c.knots (kLast c.knots) = c.knots.length := by
    by_contra h0
    have hle := upperBound_le c.knots (kLast c.knots)
    have h3 := lt_kf_upperBound (U := c.knots) (u := kLast c.knots) (by omega)
    have h4 : kf c.knots (upperBound c.knots (kLast c.knots)) ≤ kLast c.knots := hm (by omega)
    linarith
  have d0 : kf c.knots c.deg = kf c.knots 0 := kf_of_mult hs (by omega) (by omega)
  have d1 : kf c.knots c.poles.length = kLast c.knots := kf_of_mult hs (by omega) (by omega)
  have hmin : c.deg + 1 ≤ c.poles.length := by
    by_contra hc
    have h1 : kf c.knots c.poles.length ≤ kf c.knots c.deg := hm (by omega)
    linarith
  refine ⟨⟨hs, hlen, hmin, ?_, ?_⟩, d0, d1, hmem, hfirst, hlast, h.mid⟩
  · rw [d0]
    have := lt_kf_upperBound (U := c.knots) (u := kf c.knots 0) (by omega)
    rwa [show upperBound c.knots (kf c.knots 0) = c.deg + 1 by omega] at this
  · rw [d1]
    exact kf_lt_of_lt_lowerBound (by omega)

theorem KC.good {c : CurveInfo K V} {a b : K} (h : KC c.deg a b c.knots c.poles) : c.toCurve.Good :=
  ⟨h.wf, by show kf c.knots 0 = kf c.knots c.deg; rw [h.kf_zero, h.d0],
    by show Gbs.kLast c.knots = kf c.knots c.poles.length; rw [h.kLast, h.d1]⟩

/-- The relation between a curve and its unified version, on `[a, b]`, with degree `q` and knots `W`: the point at a given fraction of the
parameter interval is the same, derivatives being scaled by the ratio of the lengths of the intervals. -/
structure Unified (eps a b : K) (q : ℕ) (W : List K) (c c' : CurveInfo K V) : Prop where
  deg : c'.deg = q
  knots : c'.knots = W
  good : c'.toCurve.Good
  clamped : c'.Clamped
  b0 : c'.toCurve.b0 = a
  b1 : c'.toCurve.b1 = b
  value : ∀ s d, 0 ≤ s → s ≤ 1 → ∀ junk junk' : K, ∃ pt,
    c.toCurve.value eps junk (c.toCurve.b0 + (c.toCurve.b1 - c.toCurve.b0) * s) d = .ok pt ∧
      c'.toCurve.value eps junk' (a + (b - a) * s) d = .ok (((c.toCurve.b1 - c.toCurve.b0) / (b - a)) ^ d • pt)

/-- C50, knots: the unification of clamped curves of the same degree (at most 24) succeeds. All the results have the same knots `W`, on the
interval of the first curve, and every curve is the same up to the affine change of parameter. The multiplicity of a knot in `W` is the
greatest multiplicity it has in one of the (rescaled) curves: nothing else is inserted. The knots of the rescaled curves that differ must
differ by more than the tolerance. -/
theorem C50_unify_knots {eps : K} (heps : 0 < eps) {c0 : CurveInfo K V} {cs : List (CurveInfo K V)} {p : ℕ} (hp : p ≤ stackMaxDegree)
    (hcl : ∀ c ∈ c0 :: cs, c.deg = p ∧ c.Clamped)
    (hsep : SepL eps ((c0 :: cs).flatMap fun c => c.knots.map (rescale (kf c0.knots 0) (kLast c0.knots) c.knots))) :
    ∃ out W, unifyKnots eps (c0 :: cs) = .ok out ∧
      List.Forall₂ (Unified eps (kf c0.knots 0) (kLast c0.knots) p W) (c0 :: cs) out ∧
      (∀ x, (∀ c ∈ c0 :: cs, (c.knots.map (rescale (kf c0.knots 0) (kLast c0.knots) c.knots)).count x ≤ W.count x) ∧
        ∃ c ∈ c0 :: cs, (c.knots.map (rescale (kf c0.knots 0) (kLast c0.knots) c.knots)).count x = W.count x) := by
  obtain ⟨hp0, hc0⟩ := hcl c0 List.mem_cons_self
  have hk0 := hc0.kc
  have hlt0 := hc0.lt
  set a := kf c0.knots 0 with ha
  set b := kLast c0.knots with hb
  set L := (c0 :: cs).flatMap fun c => c.knots.map (rescale a b c.knots) with hLdef
  have hLm : ∀ c ∈ c0 :: cs, ∀ x ∈ c.knots, rescale a b c.knots x ∈ L := by
    intro c hc x hx
    rw [hLdef, List.mem_flatMap]
    exact ⟨c, hc, List.mem_map_of_mem hx⟩
  have hid : c0.knots.map (rescale a b c0.knots) = c0.knots := by
    conv_rhs => rw [← List.map_id c0.knots]
    apply List.map_congr_left
    intro x _
    unfold rescale
    rw [← ha, ← hb, mul_comm, mul_div_assoc, div_self (by linarith)]
    simp
  have hU0 : ∀ x ∈ c0.knots, x ∈ L := by
    intro x hx
    rw [← hid] at hx
    obtain ⟨y, hy, rfl⟩ := List.mem_map.mp hx
    exact hLm c0 List.mem_cons_self y hy
  obtain ⟨km0, ekm, hD0⟩ := unflatPairs_desc heps hk0.wf.ne hk0.wf.sorted (fun x hx y hy hxy => hsep x (hU0 x hx) y (hU0 y hy) hxy)
  rw [hp0] at hk0
  obtain ⟨km, W, Q, e, hK, hD, hWL, hS, hu, hm, hx⟩ := unifyAbsorb_spec heps hsep cs km0 c0.knots c0.poles hk0 hD0 hU0 (by
    intro c hc
    obtain ⟨e1, e2⟩ := hcl c (List.mem_cons_of_mem _ hc)
    refine ⟨⟨_, _, e1 ▸ e2.kc⟩, hLm c (List.mem_cons_of_mem _ hc)⟩)
  -- the second pass
  have happ : ∀ c ∈ cs, ∃ P', unifyApply eps km { c with knots := c.knots.map (rescale a b c.knots) } =
      .ok { c with knots := W, poles := P' } ∧ KC c.deg a b W P' ∧ SameMap c.deg (c.knots.map (rescale a b c.knots)) c.poles c.deg W P' := by
    intro c hc
    obtain ⟨e1, e2⟩ := hcl c (List.mem_cons_of_mem _ hc)
    have hkc := e2.kc.rescale hlt0
    exact unifyApply_spec heps hsep (c := { c with knots := c.knots.map (rescale a b c.knots) }) (by show KC c.deg _ _ _ _; rw [e1]; exact hK) hD hWL
      hkc (by
        intro x hx
        obtain ⟨y, hy, rfl⟩ := List.mem_map.mp hx
        exact hLm c (List.mem_cons_of_mem _ hc) y hy) (hm c hc)
  -- from a common map to the values
  have huni : ∀ c : CurveInfo K V, c.deg = p → c.Clamped → ∀ P', KC c.deg a b W P' →
      SameMap c.deg (c.knots.map (rescale a b c.knots)) c.poles c.deg W P' → Unified eps a b p W c { c with knots := W, poles := P' } := by
    intro c e1 e2 P' hk' hS'
    have hgc := e2.kc.good
    have hg' : ({ c with knots := W, poles := P' } : CurveInfo K V).toCurve.Good := KC.good (c := { c with knots := W, poles := P' }) hk'
    have hcl' : ({ c with knots := W, poles := P' } : CurveInfo K V).Clamped := by
      have z0 := hk'.kf_zero
      have z1 := hk'.kLast
      refine ⟨e2.deg, hk'.wf.len, hk'.wf.sorted, ?_, ?_, ?_, ?_⟩
      · show kf W 0 < kLast W; rw [z0, z1]; exact hk'.lt
      · show W.count (kf W 0) = _; rw [z0]; exact hk'.ca
      · show W.count (kLast W) = _; rw [z1]; exact hk'.cb
      · intro x h1 h2
        exact hk'.ci x (by rw [← z0]; exact h1) (by rw [← z1]; exact h2)
    refine ⟨e1, rfl, hg', hcl', hk'.kf_zero, hk'.kLast, ?_⟩
    intro s d h0 h1 junk junk'
    obtain ⟨c1, ec, ed, ep, eb0, eb1, hG1, -, -, hval, -⟩ := C22_change_bounds heps (c := c.toCurve) hgc ⟨rfl, rfl⟩ hlt0
      (Or.inl (by show c.deg ≤ _; omega))
    obtain ⟨pt, v1, v2⟩ := hval s d h0 h1 junk junk
    refine ⟨pt, v1, ?_⟩
    have ek : c1.knots = c.knots.map (rescale a b c.knots) := by
      unfold Curve.changeBounds at ec
      rw [show c.toCurve.knots = c.knots from rfl, changeBoundsK_eq e2.lt e2.kc.wf.ne, R_bind_ok] at ec
      rw [← Except.ok.inj ec]
    have hq0 : a ≤ a + (b - a) * s := by nlinarith
    have hq1 : a + (b - a) * s ≤ b := by nlinarith
    obtain ⟨pt', w1, w2⟩ := SameMap.value_eq heps hG1 hg' (Or.inl (by rw [ed]; show c.deg ≤ _; omega)) (Or.inl (by show c.deg ≤ _; omega))
      (by rw [ed, ep, ek]; exact hS')
      (by rw [eb0]; exact hk'.kf_zero.le) (by rw [eb1]; exact hk'.kLast.ge) (v := a + (b - a) * s) (by rw [eb0]; exact hq0) (by rw [eb1]; exact hq1)
      junk junk' d
    rw [v2] at w1
    rw [w2, ← Except.ok.inj w1]
  choose! P' hP1 hP2 hP3 using happ
  refine ⟨{ c0 with knots := W, poles := Q } :: cs.map (fun c => { c with knots := W, poles := P' c }), W, ?_, ?_, ?_⟩
  · have hl := hk0.wf.len
    have hmap : (cs.map (fun c => { c with knots := c.knots.map (rescale a b c.knots) })).mapM (unifyApply eps km) =
        .ok (cs.map (fun c => { c with knots := W, poles := P' c })) := by
      rw [List.mapM_map]
      exact mapM_ok _ hP1
    unfold unifyKnots
    simp only
    rw [usub_ok (by omega), R_bind_ok, rd_kf (by omega), R_bind_ok, rd_kf (by omega), R_bind_ok, ekm, R_bind_ok]
    rw [show kf c0.knots (c0.knots.length - 1) = b from rfl, ← ha, hp0, e, R_bind_ok, hmap, R_bind_ok]
    rw [← hp0]
    rfl
  · refine List.Forall₂.cons ?_ ?_
    · apply huni c0 hp0 hc0
      · rw [hp0]; exact hK
      · rw [hp0, hid]; exact hS
    · rw [List.forall₂_map_right_iff, List.forall₂_same]
      intro c hc
      obtain ⟨e1, e2⟩ := hcl c (List.mem_cons_of_mem _ hc)
      exact huni c e1 e2 _ (hP2 c hc) (hP3 c hc)
  · intro x
    refine ⟨?_, ?_⟩
    · intro c hc
      rcases List.mem_cons.mp hc with rfl | hc
      · rw [hid]; exact hu x
      · exact hm c hc x
    · rcases hx x with h | ⟨c, hc, h⟩
      · exact ⟨c0, List.mem_cons_self, by rw [hid, h]⟩
      · exact ⟨c, List.mem_cons_of_mem _ hc, h.symm⟩

theorem mem_flatF_iff {w : ℕ → K} {f : ℕ → ℕ} {m : ℕ} {x : K} : x ∈ flatF w f m ↔ ∃ i, i < m ∧ w i = x ∧ 1 ≤ f i := by
  induction m with
  | zero => simp [flatF]
  | succ m ih =>
    rw [flatF_succ, List.mem_append, ih, List.mem_replicate]
    constructor
    · rintro (⟨i, h1, h2, h3⟩ | ⟨h1, h2⟩)
      · exact ⟨i, by omega, h2, h3⟩
      · exact ⟨m, by omega, h2.symm, by omega⟩
    · rintro ⟨i, h1, h2, h3⟩
      rcases Nat.lt_or_ge i m with hi | hi
      · exact Or.inl ⟨i, hi, h2, h3⟩
      · obtain rfl : i = m := by omega
        exact Or.inr ⟨by omega, h2.symm⟩

/-- The first and last knots, and the set of knots, of a curve with given values of knots. -/
theorem Curve.ClampedBy.ends {eps : K} (heps : 0 ≤ eps) {c : Curve K V} {ks : List K} {ms : List ℕ} (h : c.ClampedBy eps ks ms) :
    kf c.knots 0 = kf ks 0 ∧ kLast c.knots = kLast ks ∧ c.b0 = kf ks 0 ∧ c.b1 = kLast ks ∧ ∀ x, x ∈ c.knots ↔ x ∈ ks := by
  obtain ⟨m, hm, hlm, hU, hC⟩ := h.clampF heps
  have hl : (flatF (kf ks) (fun i => ms.getD i 0) (m + 1)).length = c.poles.length + c.deg + 1 := by rw [← hU]; exact h.good.wf.len
  have hd0 := hC.d0
  have hd1 := hC.d1 hl
  have hmin := h.good.wf.min
  have hsort := h.good.wf.sorted
  have hgap : ∀ i j, i ≤ j → j ≤ m → kf ks i ≤ kf ks j := by
    intro i j hij hj
    induction j, hij using Nat.le_induction with
    | base => exact le_rfl
    | succ j hij ih => have := hC.gaps j (by omega); have := ih (by omega); linarith
  have hmem : ∀ x, x ∈ c.knots ↔ x ∈ ks := by
    intro x
    rw [hU, mem_flatF_iff]
    constructor
    · rintro ⟨i, hi, rfl, -⟩
      exact kf_mem (by intro he; rw [he] at hm; simp at hm) i
    · intro hx
      obtain ⟨i, hi, rfl⟩ := List.getElem_of_mem hx
      exact ⟨i, by omega, kf_of_lt hi, hC.pos i (by omega)⟩
  have hkl : kLast ks = kf ks m := by unfold kLast; rw [hm]; rfl
  have hle : ∀ x ∈ c.knots, kf ks 0 ≤ x ∧ x ≤ kf ks m := by
    intro x hx
    obtain ⟨i, hi, rfl⟩ := List.getElem_of_mem ((hmem x).mp hx)
    rw [← kf_of_lt hi]
    exact ⟨hgap 0 i (by omega) (by omega), hgap i m (by omega) le_rfl⟩
  have hne := h.good.wf.ne
  refine ⟨?_, ?_, ?_, ?_, hmem⟩
  · apply le_antisymm
    · rw [← hd0, ← hU]; exact kf_mono hsort (by omega)
    · exact (hle _ (kf_mem hne 0)).1
  · rw [hkl]
    apply le_antisymm
    · exact (hle _ (kf_mem hne _)).2
    · rw [← hd1, ← hU]; exact kf_mono hsort (by have := h.good.wf.len; omega)
  · rw [h.good.lo, hU, hd0]
  · rw [h.good.hi, hU, hd1, hkl]

theorem CurveInfo.clamped_of {eps : K} (heps : 0 < eps) {c : CurveInfo K V} {ks : List K} {ms : List ℕ} (h : c.toCurve.ClampedBy eps ks ms) : c.Clamped := by
  obtain ⟨m, hm, hlm, hU, hC⟩ := h.clampF heps.le
  obtain ⟨e0, e1, -, -, -⟩ := h.ends heps.le
  have hkl : kLast ks = kf ks m := by unfold kLast; rw [hm]; rfl
  have hU' : c.knots = flatF (kf ks) (fun i => ms.getD i 0) (m + 1) := hU
  have e0' : kf c.knots 0 = kf ks 0 := e0
  have e1' : kLast c.knots = kf ks m := by rw [← hkl]; exact e1
  refine ⟨h.deg, h.good.wf.len, h.good.wf.sorted, ?_, ?_, ?_, ?_⟩
  · have := h.good.lt; exact this
  · rw [e0', hU', count_flatF_self heps.le hC.gaps (by omega)]; exact hC.first
  · rw [e1', hU', count_flatF_self heps.le hC.gaps le_rfl]; exact hC.last
  · intro x h1 h2
    rw [e0'] at h1
    rw [e1'] at h2
    by_cases hx : x ∈ c.knots
    · rw [hU', mem_flatF_iff] at hx
      obtain ⟨i, hi, rfl, -⟩ := hx
      rw [hU', count_flatF_self heps.le hC.gaps (by omega)]
      apply (hC.int i _ _).2
      · rcases Nat.eq_zero_or_pos i with h0 | h0
        · rw [h0] at h1; exact absurd h1 (lt_irrefl _)
        · exact h0
      · rcases Nat.lt_or_ge i m with h0 | h0
        · exact h0
        · obtain rfl : i = m := by omega
          exact absurd h2 (lt_irrefl _)
    · rw [List.count_eq_zero_of_not_mem hx]; omega

/-- The relation between a curve and its version of degree `q`. -/
structure Raised (eps : K) (q : ℕ) (c c' : CurveInfo K V) : Prop where
  deg : c'.deg = q
  b0 : c'.toCurve.b0 = c.toCurve.b0
  b1 : c'.toCurve.b1 = c.toCurve.b1
  value : ∀ v, c.toCurve.b0 ≤ v → v ≤ c.toCurve.b1 → ∀ junk junk' d, ∃ pt, c.toCurve.value eps junk v d = .ok pt ∧
    c'.toCurve.value eps junk' v d = .ok pt
  knots : ∀ ks ms, c.toCurve.ClampedBy eps ks ms → c'.toCurve.ClampedBy eps ks (ms.map (· + (q - c.deg)))

theorem foldl_max_spec {α : Type} (f : α → ℕ) : ∀ (l : List α) (q : ℕ), q ≤ l.foldl (fun q c => max q (f c)) q ∧
    (∀ c ∈ l, f c ≤ l.foldl (fun q c => max q (f c)) q) ∧
    (l.foldl (fun q c => max q (f c)) q = q ∨ ∃ c ∈ l, l.foldl (fun q c => max q (f c)) q = f c) := by
  intro l
  induction l with
  | nil => intro q; simp
  | cons c l ih =>
    intro q
    obtain ⟨h1, h2, h3⟩ := ih (max q (f c))
    rw [List.foldl_cons]
    refine ⟨by omega, ?_, ?_⟩
    · intro d hd
      rcases List.mem_cons.mp hd with rfl | hd
      · omega
      · exact h2 d hd
    · rcases h3 with h3 | ⟨d, hd, h3⟩
      · rcases Nat.le_total (f c) q with h | h
        · left; rw [h3]; omega
        · right; exact ⟨c, List.mem_cons_self, by rw [h3]; omega⟩
      · right; exact ⟨d, List.mem_cons_of_mem _ hd, h3⟩

/-- C50, degrees: the unification of the degrees of clamped curves brings them all to the greatest degree and keeps them. -/
theorem C50_unify_degree {eps : K} (heps : 0 < eps) {l : List (CurveInfo K V)} (hne : l ≠ []) (hdeg : ∀ c ∈ l, c.deg ≤ 12)
    (hcl : ∀ c ∈ l, ∃ ks ms, c.toCurve.ClampedBy eps ks ms) :
    ∃ out q, unifyDegree eps l = .ok out ∧ (∀ c ∈ l, c.deg ≤ q) ∧ (∃ c ∈ l, c.deg = q) ∧ List.Forall₂ (Raised eps q) l out := by
  cases l with
  | nil => exact absurd rfl hne
  | cons c0 cs =>
    obtain ⟨q1, q2, q3⟩ := foldl_max_spec CurveInfo.deg cs c0.deg
    have hq : ∀ c ∈ c0 :: cs, c.deg ≤ cs.foldl (fun q c => max q c.deg) c0.deg := by
      intro c hc
      rcases List.mem_cons.mp hc with rfl | hc
      · exact q1
      · exact q2 c hc
    have hq' : ∃ c ∈ c0 :: cs, c.deg = cs.foldl (fun q c => max q c.deg) c0.deg := by
      rcases q3 with h | ⟨c, hc, h⟩
      · exact ⟨c0, List.mem_cons_self, h.symm⟩
      · exact ⟨c, List.mem_cons_of_mem _ hc, h.symm⟩
    generalize hqq : cs.foldl (fun q c => max q c.deg) c0.deg = q at *
    have hq12 : q ≤ 12 := by obtain ⟨c, hc, e⟩ := hq'; rw [← e]; exact hdeg c hc
    have hstep : ∀ c ∈ c0 :: cs, ∃ s : List K × List V, increaseDegree eps c.knots c.poles c.deg (q - c.deg) = .ok s ∧
        Raised eps q c { poles := s.2, knots := s.1, deg := q } := by
      intro c hc
      have hcq := hq c hc
      obtain ⟨ks, ms, hk⟩ := hcl c hc
      obtain ⟨c', e, ed, eb0, eb1, hk', hv⟩ := C58_increaseDegree heps hk (step := q - c.deg) (by show c.deg + _ ≤ _; omega)
      have ed' : c'.deg = q := by rw [ed]; show c.deg + _ = _; omega
      unfold Curve.increaseDegree at e
      rw [R_bind_eq_ok] at e
      obtain ⟨s, es, e⟩ := e
      have hc' : ({ poles := s.2, knots := s.1, deg := q } : CurveInfo K V).toCurve = c' := by
        have h1 := Except.ok.inj e
        have hkn : c'.knots = s.1 := by rw [← h1]
        have hpo : c'.poles = s.2 := by rw [← h1]
        obtain ⟨f0, f1, f2, f3, -⟩ := hk'.ends heps.le
        unfold CurveInfo.toCurve
        simp only
        rw [← hkn, ← hpo, f0, f1, ← f2, ← f3, ← ed']
      refine ⟨s, es, rfl, ?_, ?_, ?_, ?_⟩
      · rw [hc', eb0]
      · rw [hc', eb1]
      · rw [hc']; exact hv
      · intro ks' ms' hk2
        obtain ⟨c2, e2, -, -, -, hk2', -⟩ := C58_increaseDegree heps hk2 (step := q - c.deg) (by show c.deg + _ ≤ _; omega)
        have : c2 = c' := by
          unfold Curve.increaseDegree at e2
          rw [es] at e2
          rw [R_bind_ok] at e2
          exact Except.ok.inj (e2.symm.trans e)
        rw [hc', ← this]
        exact hk2'
    choose! s hs1 hs2 using hstep
    refine ⟨(c0 :: cs).map (fun c => { poles := (s c).2, knots := (s c).1, deg := q }), q, ?_, hq, hq', ?_⟩
    · unfold unifyDegree
      simp only
      rw [hqq]
      apply mapM_ok
      intro c hc
      rw [hs1 c hc, R_bind_ok]
      rfl
    · rw [List.forall₂_map_right_iff, List.forall₂_same]
      exact hs2

/-- C50: unifying the degrees and then the knots of clamped curves gives curves of the greatest degree with one common knot vector, on the
interval of the first curve, each of them being the given curve up to the affine change of parameter. -/
theorem C50_unify {eps : K} (heps : 0 < eps) {c0 : CurveInfo K V} {cs : List (CurveInfo K V)} (hdeg : ∀ c ∈ c0 :: cs, c.deg ≤ 12)
    (hcl : ∀ c ∈ c0 :: cs, ∃ ks ms, c.toCurve.ClampedBy eps ks ms)
    (hsep : SepL eps ((c0 :: cs).flatMap fun c => c.knots.map (rescale (kf c0.knots 0) (kLast c0.knots) c.knots))) :
    ∃ mid out q W, unifyDegree eps (c0 :: cs) = .ok mid ∧ unifyKnots eps mid = .ok out ∧
      (∀ c ∈ c0 :: cs, c.deg ≤ q) ∧ (∃ c ∈ c0 :: cs, c.deg = q) ∧
      List.Forall₂ (Unified eps (kf c0.knots 0) (kLast c0.knots) q W) (c0 :: cs) out ∧
      ∀ x, x ∈ W ↔ ∃ c ∈ c0 :: cs, x ∈ c.knots.map (rescale (kf c0.knots 0) (kLast c0.knots) c.knots) := by
  obtain ⟨mid, q, e, hq, hq', hR⟩ := C50_unify_degree heps (List.cons_ne_nil c0 cs) hdeg hcl
  have hq12 : q ≤ 12 := by obtain ⟨c, hc, e⟩ := hq'; rw [← e]; exact hdeg c hc
  -- the raised curves have the same knots
  have hsame : ∀ c c', c ∈ c0 :: cs → Raised eps q c c' → c'.Clamped ∧ kf c'.knots 0 = kf c.knots 0 ∧ kLast c'.knots = kLast c.knots ∧
      ∀ x, x ∈ c'.knots ↔ x ∈ c.knots := by
    intro c c' hc hr
    obtain ⟨ks, ms, hk⟩ := hcl c hc
    have hk' := hr.knots ks ms hk
    obtain ⟨a1, a2, -, -, a3⟩ := hk.ends heps.le
    obtain ⟨b1, b2, -, -, b3⟩ := hk'.ends heps.le
    exact ⟨CurveInfo.clamped_of heps hk', b1.trans a1.symm, b2.trans a2.symm, fun x => (b3 x).trans (a3 x).symm⟩
  obtain ⟨c0', cs', h0, hcs, rfl⟩ := List.forall₂_cons_left_iff.mp hR
  obtain ⟨hcl0, hA, hB, -⟩ := hsame c0 c0' List.mem_cons_self h0
  have hback : ∀ c' ∈ c0' :: cs', ∃ c ∈ c0 :: cs, Raised eps q c c' := by
    intro c' hc'
    obtain ⟨i, hi, rfl⟩ := List.getElem_of_mem hc'
    have hi' : i < (c0 :: cs).length := by rw [hR.length_eq]; exact hi
    exact ⟨_, List.getElem_mem hi', hR.get hi' hi⟩
  have hforw : ∀ c ∈ c0 :: cs, ∃ c' ∈ c0' :: cs', Raised eps q c c' := by
    intro c hc
    obtain ⟨i, hi, rfl⟩ := List.getElem_of_mem hc
    have hi' : i < (c0' :: cs').length := by rw [← hR.length_eq]; exact hi
    exact ⟨_, List.getElem_mem hi', hR.get hi hi'⟩
  have hresc : ∀ c c', c ∈ c0 :: cs → Raised eps q c c' → ∀ x, x ∈ c'.knots.map (rescale (kf c0'.knots 0) (kLast c0'.knots) c'.knots) ↔
      x ∈ c.knots.map (rescale (kf c0.knots 0) (kLast c0.knots) c.knots) := by
    intro c c' hc hr x
    obtain ⟨-, r1, r2, r3⟩ := hsame c c' hc hr
    have : rescale (kf c0'.knots 0) (kLast c0'.knots) c'.knots = rescale (kf c0.knots 0) (kLast c0.knots) c.knots := by
      funext y; unfold rescale; rw [r1, r2, hA, hB]
    rw [this, List.mem_map, List.mem_map]
    simp only [r3]
  obtain ⟨out, W, e2, hU, hW⟩ := C50_unify_knots heps (c0 := c0') (cs := cs') (p := q) (by have : stackMaxDegree = 24 := rfl; omega)
    (by
      intro c' hc'
      obtain ⟨c, hc, hr⟩ := hback c' hc'
      exact ⟨hr.deg, (hsame c c' hc hr).1⟩)
    (by
      have hsub : ∀ x ∈ (c0' :: cs').flatMap fun c => c.knots.map (rescale (kf c0'.knots 0) (kLast c0'.knots) c.knots),
          x ∈ (c0 :: cs).flatMap fun c => c.knots.map (rescale (kf c0.knots 0) (kLast c0.knots) c.knots) := by
        intro x hx
        obtain ⟨c', hc', hx⟩ := List.mem_flatMap.mp hx
        obtain ⟨c, hc, hr⟩ := hback c' hc'
        exact List.mem_flatMap.mpr ⟨c, hc, (hresc c c' hc hr x).mp hx⟩
      exact fun x hx y hy hxy => hsep x (hsub x hx) y (hsub y hy) hxy)
  refine ⟨c0' :: cs', out, q, W, e, e2, hq, hq', ?_, ?_⟩
  · -- composition of the two relations
    have hl1 := hR.length_eq
    have hl2 := hU.length_eq
    rw [List.forall₂_iff_get]
    refine ⟨hl1.trans hl2, ?_⟩
    intro i hi hi2
    have hr := hR.get hi (by omega)
    have hu := hU.get (show i < (c0' :: cs').length by omega) hi2
    rw [hA, hB] at hu
    refine ⟨hu.deg, hu.knots, hu.good, hu.clamped, hu.b0, hu.b1, ?_⟩
    intro s d h0 h1 junk junk'
    obtain ⟨pt, v1, v2⟩ := hu.value s d h0 h1 junk junk'
    simp only [List.get_eq_getElem] at hr v1 v2 ⊢
    have hlt : ((c0 :: cs)[i]).toCurve.b0 < ((c0 :: cs)[i]).toCurve.b1 := by
      obtain ⟨ks, ms, hk⟩ := hcl _ (List.getElem_mem hi)
      exact hk.good.lt
    rw [hr.b0, hr.b1] at v1 v2
    obtain ⟨pt', w1, w2⟩ := hr.value (((c0 :: cs)[i]).toCurve.b0 + (((c0 :: cs)[i]).toCurve.b1 - ((c0 :: cs)[i]).toCurve.b0) * s)
      (by nlinarith) (by nlinarith) junk junk d
    rw [v1] at w2
    rw [← Except.ok.inj w2] at w1
    exact ⟨pt, w1, v2⟩
  · intro x
    obtain ⟨h1, c', hc', h2⟩ := hW x
    constructor
    · intro hx
      have hpos := List.count_pos_iff.mpr hx
      rw [← h2] at hpos
      obtain ⟨c, hc, hr⟩ := hback c' hc'
      exact ⟨c, hc, (hresc c c' hc hr x).mp (List.count_pos_iff.mp hpos)⟩
    · rintro ⟨c, hc, hx⟩
      obtain ⟨d, hd, hr⟩ := hforw c hc
      have := h1 d hd
      have hpos := List.count_pos_iff.mpr ((hresc c d hc hr x).mpr hx)
      exact List.count_pos_iff.mp (by omega)

/-- From degree 13 on, `unify_degree` runs into the signed overflow of the degree elevation, even when all the curves already have the same
degree and nothing has to be done. -/
theorem C50_unify_degree_overflow {eps : K} (heps : 0 < eps) {c0 : CurveInfo K V} {cs : List (CurveInfo K V)} {ks : List K} {ms : List ℕ}
    (hcl : c0.toCurve.ClampedBy eps ks ms) (hdeg : ∃ c ∈ c0 :: cs, 13 ≤ c.deg) : unifyDegree eps (c0 :: cs) = .error .overflow := by
  obtain ⟨q1, q2, -⟩ := foldl_max_spec CurveInfo.deg cs c0.deg
  unfold unifyDegree
  simp only
  generalize cs.foldl (fun q c => max q c.deg) c0.deg = q at *
  have hq : 13 ≤ q := by
    obtain ⟨c, hc, h⟩ := hdeg
    rcases List.mem_cons.mp hc with rfl | hc
    · omega
    · have := q2 c hc; omega
  have h := C58_increaseDegree_overflow heps hcl (step := q - c0.deg) (by show 13 ≤ c0.deg + _; omega)
  unfold Curve.increaseDegree at h
  rw [List.mapM_cons]
  cases e : increaseDegree eps c0.knots c0.poles c0.deg (q - c0.deg) with
  | error er =>
    rw [show increaseDegree eps c0.toCurve.knots c0.toCurve.poles c0.toCurve.deg (q - c0.deg) = .error er from e, R_bind_error] at h
    rw [R_bind_error, R_bind_error]
    rw [Except.error.inj h]
  | ok s =>
    rw [show increaseDegree eps c0.toCurve.knots c0.toCurve.poles c0.toCurve.deg (q - c0.deg) = .ok s from e, R_bind_ok] at h
    cases h

/-- Without the separation: two knots of different curves closer than the tolerance are taken as the same one, no knot is inserted, and the
knot vectors remain different. -/
theorem C50_close_knots_witness :
    (unifyKnots (1/10 : ℚ) [(⟨[0, 1, 0], [0, 0, 1/2, 1, 1], 1⟩ : CurveInfo ℚ ℚ), ⟨[0, 1, 0], [0, 0, 13/25, 1, 1], 1⟩]).map
      (·.map (·.knots)) = .ok [[0, 0, 1/2, 1, 1], [0, 0, 13/25, 1, 1]] := by decide +kernel

namespace Sample

/-- A polyline on `[0, 2]`. -/
def l1 : CurveInfo ℚ (ℚ × ℚ) := ⟨[(0, 0), (1, 2), (0, 1), (4, 4)], [0, 0, 1/2, 3/2, 2, 2], 1⟩
/-- The sample quadratic, on `[0, 3]`. -/
def l2 : CurveInfo ℚ (ℚ × ℚ) := ⟨Sample.c.poles, [0, 0, 0, 1, 2, 3, 3, 3], 2⟩

theorem l1_clampedBy : l1.toCurve.ClampedBy (1/10) [0, 1/2, 3/2, 2] [2, 1, 1, 2] := by
  refine ⟨⟨by decide, ?_, ?_, by decide, by decide, ?_⟩, ⟨⟨?_, ?_, ?_, ?_, ?_⟩, ?_, ?_⟩⟩
  · decide +kernel
  · decide +kernel
  · intro i x h1 h2 hx
    have : i = 1 ∨ i = 2 := by simp at h2; omega
    have hd : l1.toCurve.deg = 1 := rfl
    rw [hd]
    rcases this with rfl | rfl <;> simp at hx <;> omega
  all_goals decide +kernel

theorem l2_clampedBy : l2.toCurve.ClampedBy (1/10) [0, 1, 2, 3] [3, 1, 1, 3] := Sample.c_clampedBy

/-- The hypotheses of `C50_unify` hold for these two curves. -/
example : ∃ mid out q W, unifyDegree (1/10) [l1, l2] = .ok mid ∧ unifyKnots (1/10) mid = .ok out ∧
    (∀ c ∈ [l1, l2], c.deg ≤ q) ∧ (∃ c ∈ [l1, l2], c.deg = q) ∧
    List.Forall₂ (Unified (1/10) (kf l1.knots 0) (kLast l1.knots) q W) [l1, l2] out ∧
    ∀ x, x ∈ W ↔ ∃ c ∈ [l1, l2], x ∈ c.knots.map (rescale (kf l1.knots 0) (kLast l1.knots) c.knots) :=
  C50_unify (by norm_num) (by decide) (by
    intro c hc
    rcases List.mem_cons.mp hc with rfl | hc
    · exact ⟨_, _, l1_clampedBy⟩
    · rw [List.mem_singleton.mp hc]; exact ⟨_, _, l2_clampedBy⟩) (by unfold SepL; decide +kernel)

end Sample

/-- The hypotheses of `C50_unify_knots` for curves on different intervals. -/
example : (unifyKnots (1/10 : ℚ) [(⟨[0, 1, 0], [0, 0, 1/2, 1, 1], 1⟩ : CurveInfo ℚ ℚ), ⟨[0, 1, 0, 4], [0, 0, 1/2, 1, 2, 2], 1⟩]).map
    (·.map (·.knots)) = .ok [[0, 0, 1/4, 1/2, 1, 1], [0, 0, 1/4, 1/2, 1, 1]] := by decide +kernel

end Gbs
