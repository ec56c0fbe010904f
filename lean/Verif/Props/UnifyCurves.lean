import Verif.Model.UnifyCurves
import Verif.Props.Unify

/-!
# C122: the deprecated unification of curves is the one of tuples, for curves that are not trimmed
-/

namespace Gbs

set_option linter.unusedSectionVars false

variable {K : Type} [Field K] [LinearOrder K] [IsStrictOrderedRing K]
variable {V : Type} [AddCommGroup V] [Module K V]

theorem multEps_eq {eps : K} (heps : 0 < eps) {L U : List K} (hL : SepL eps L) (hU : ∀ x ∈ U, x ∈ L) {u : K} (hu : u ∈ L) :
    multEps eps U u = U.count u := by
  unfold multEps List.count
  refine List.countP_congr fun k hk => ?_
  simp only [decide_eq_true_eq, beq_iff_eq]
  constructor
  · intro h
    by_contra hne
    rcases lt_or_gt_of_ne hne with hlt | hlt
    · have := hL k (hU k hk) u hu hlt
      rw [abs_of_neg (by linarith)] at h
      linarith
    · have := hL u hu k (hU k hk) hlt
      rw [abs_of_pos (by linarith)] at h
      linarith
  · rintro rfl
    simpa using heps

theorem insertAll_cons (eps : K) (q : K × ℕ) (rest : List (K × ℕ)) (c : Curve K V) :
    Curve.insertAll eps (q :: rest) c = Curve.insertAll eps [q] c >>= Curve.insertAll eps rest := by
  obtain ⟨u, m⟩ := q
  simp only [Curve.insertAll]
  split_ifs
  · rcases c.insertKnot u (m - multEps eps c.knots u) with e | r <;> rfl
  · rfl

theorem unifyInto_cons (eps : K) (p : ℕ) (q : K × ℕ) (rest km : List (K × ℕ)) (U : List K) (P : List V) :
    unifyInto eps p (q :: rest) km U P = unifyInto eps p [q] km U P >>= fun s => unifyInto eps p rest s.1 s.2.1 s.2.2 := by
  obtain ⟨u, m⟩ := q
  simp only [unifyInto]
  split
  · split_ifs
    · rename_i q _ _
      rcases insertKnots u p (m - q.2) U P with e | r <;> rfl
    · rfl
  · rcases insertKnots u p m U P with e | r <;> rfl

theorem insertAll_one {eps : K} (heps : 0 < eps) {p : ℕ} {L : List K} (hL : SepL eps L) {u : K} {m : ℕ} {km : List (K × ℕ)} {c : Curve K V}
    (hp : c.deg = p) (hD : Desc km c.knots) (hUL : ∀ x ∈ c.knots, x ∈ L) (hu : u ∈ L) (hm : 1 ≤ m) {s : List (K × ℕ) × List K × List V}
    (h : unifyInto eps p [(u, m)] km c.knots c.poles = .ok s) : Curve.insertAll eps [(u, m)] c = .ok { c with knots := s.2.1, poles := s.2.2 } := by
  have hc := multEps_eq heps hL hUL hu
  simp only [Curve.insertAll, hc]
  simp only [unifyInto] at h
  have ins : ∀ r, (insertKnots u p r c.knots c.poles >>= fun t => (pure (s.1, t.2.1, t.2.2) : R (List (K × ℕ) × List K × List V))) = .ok s →
      (c.insertKnot u r >>= fun t => (pure t.2 : R (Curve K V))) = .ok { c with knots := s.2.1, poles := s.2.2 } := by
    intro r hr
    obtain ⟨t, ht, hs⟩ := R_bind_eq_ok.mp hr
    have := Except.ok.inj hs
    unfold Curve.insertKnot
    rw [hp, ht, R_bind_ok, R_pure, R_bind_ok, ← this]
    rfl
  rcases Nat.lt_or_ge (km.findIdx fun q => decide (|q.1 - u| < eps)) km.length with hi | hi
  · have hfound := List.findIdx_getElem (w := hi)
    generalize hii : (km.findIdx fun q => decide (|q.1 - u| < eps)) = i at *
    rw [List.getElem?_eq_getElem hi] at h
    simp only [decide_eq_true_eq] at hfound h
    have hmem : km[i] ∈ km := List.getElem_mem hi
    have hq1 : km[i].1 = u := by
      by_contra hne
      have hq := hUL _ (hD.mem hmem)
      rcases lt_or_gt_of_ne hne with hlt | hlt
      · have := hL _ hq u hu hlt
        rw [abs_of_neg (by linarith)] at hfound
        linarith
      · have := hL u hu _ hq hlt
        rw [abs_of_pos (by linarith)] at hfound
        linarith
    have hq2 : c.knots.count u = km[i].2 := by rw [← hq1]; exact (hD.cnt _ hmem).1
    rw [hq2]
    split_ifs at h ⊢ with hlt
    · obtain ⟨t, ht, hs⟩ := R_bind_eq_ok.mp h
      refine ins _ ?_
      rw [ht, R_bind_ok, ← Except.ok.inj hs]
      rfl
    · rw [← Except.ok.inj h]
      rfl
  · rw [List.getElem?_eq_none hi] at h
    have h0 : c.knots.count u = 0 := by
      refine List.count_eq_zero_of_not_mem fun hmem => ?_
      obtain ⟨m', hm'⟩ := hD.all u hmem
      have := List.findIdx_lt_length_of_exists (p := fun q : K × ℕ => decide (|q.1 - u| < eps)) ⟨_, hm', by simpa using heps⟩
      omega
    rw [h0, if_pos (show 0 < m by omega)]
    simp only at h
    obtain ⟨t, ht, hs⟩ := R_bind_eq_ok.mp h
    refine ins _ ?_
    rw [Nat.sub_zero, ht, R_bind_ok, ← Except.ok.inj hs]
    rfl

theorem insertAll_eq {eps : K} (heps : 0 < eps) {p : ℕ} {a b : K} {L : List K} (hL : SepL eps L) : ∀ (kmIn km : List (K × ℕ)) (c : Curve K V),
    c.deg = p → KC p a b c.knots c.poles → Desc km c.knots → (∀ x ∈ c.knots, x ∈ L) →
    (∀ q ∈ kmIn, q.1 ∈ L ∧ 1 ≤ q.2 ∧ a ≤ q.1 ∧ q.1 ≤ b ∧ q.2 ≤ p + 1 ∧ (a < q.1 → q.1 < b → q.2 ≤ p)) →
    ∀ s, unifyInto eps p kmIn km c.knots c.poles = .ok s → Curve.insertAll eps kmIn c = .ok { c with knots := s.2.1, poles := s.2.2 } := by
  intro kmIn
  induction kmIn with
  | nil =>
    intro km c _ _ _ _ _ s h
    rw [← Except.ok.inj h]
    rfl
  | cons q rest ih =>
    intro km c hp hk hD hUL hin s h
    obtain ⟨km1, U1, P1, e1, k1, d1, l1, -⟩ := unifyInto_spec heps hL [q] km c.knots c.poles hk hD hUL fun r hr => by
      rw [List.mem_singleton.mp hr]; exact hin q List.mem_cons_self
    have hq := hin q List.mem_cons_self
    rw [unifyInto_cons, e1, R_bind_ok] at h
    rw [insertAll_cons, insertAll_one heps hL hp hD hUL hq.1 hq.2.1 e1, R_bind_ok]
    exact ih km1 { c with knots := U1, poles := P1 } hp k1 d1 l1 (fun r hr => hin r (List.mem_cons_of_mem _ hr)) s h

theorem Desc.asked {p : ℕ} {a b : K} {L W : List K} {Q : List V} {kmIn : List (K × ℕ)} (hW : KC p a b W Q) (hDW : Desc kmIn W) (hWL : ∀ x ∈ W, x ∈ L) :
    ∀ q ∈ kmIn, q.1 ∈ L ∧ 1 ≤ q.2 ∧ a ≤ q.1 ∧ q.1 ≤ b ∧ q.2 ≤ p + 1 ∧ (a < q.1 → q.1 < b → q.2 ≤ p) := by
  intro q hq
  have hmem := hDW.mem hq
  have hc := hDW.cnt q hq
  have hab := hW.mem _ hmem
  refine ⟨hWL _ hmem, hc.2, hab.1, hab.2, ?_, ?_⟩
  · rcases eq_or_lt_of_le hab.1 with he | he
    · rw [← hc.1, ← he, hW.ca]
    · rcases eq_or_lt_of_le hab.2 with he' | he'
      · rw [← hc.1, he', hW.cb]
      · have := hW.ci _ he he'; omega
  · intro a1 a2; have := hW.ci _ a1 a2; omega

theorem Desc.unique {km km' : List (K × ℕ)} {W : List K} (h : Desc km W) (h' : Desc km' W) : km = km' := by
  have sub : ∀ {k k' : List (K × ℕ)}, Desc k W → Desc k' W → ∀ q ∈ k, q ∈ k' := by
    intro k k' hk hk' q hq
    obtain ⟨m, hm⟩ := hk'.all q.1 (hk.mem hq)
    have h1 := (hk.cnt q hq).1
    have h2 := (hk'.cnt _ hm).1
    simp only at h2
    rwa [show q = (q.1, m) from Prod.ext rfl (by omega)]
  have pw : ∀ {k : List (K × ℕ)}, Desc k W → k.Pairwise fun x y => x.1 < y.1 := fun hk => List.pairwise_map.mp hk.sorted
  have nd : ∀ {k : List (K × ℕ)}, Desc k W → k.Nodup := fun hk => (pw hk).imp fun h e => by rw [e] at h; exact lt_irrefl _ h
  have hp : km.Perm km' := (List.perm_ext_iff_of_nodup (nd h) (nd h')).mpr fun q => ⟨sub h h' q, sub h' h q⟩
  exact hp.eq_of_pairwise (fun a b _ _ h1 h2 => absurd h1 (not_lt.mpr h2.le)) (pw h) (pw h')

/-- The tuple of a curve. -/
def Curve.info (c : Curve K V) : CurveInfo K V := { poles := c.poles, knots := c.knots, deg := c.deg }

/-- The bounds are the ends of the knots. -/
def Curve.Whole (c : Curve K V) : Prop := c.b0 = kf c.knots 0 ∧ c.b1 = kLast c.knots

theorem Curve.Whole.toCurve {c : Curve K V} (h : c.Whole) : c.info.toCurve = c := by
  unfold CurveInfo.toCurve Curve.info
  simp only
  rw [← h.1, ← h.2]

theorem absorbAll_eq {eps : K} (heps : 0 < eps) {p : ℕ} {a b : K} {L : List K} (hL : SepL eps L) : ∀ (cs : List (Curve K V)) (c : Curve K V)
    (km : List (K × ℕ)), c.deg = p → c.b0 = a → c.b1 = b → KC p a b c.knots c.poles → Desc km c.knots → (∀ x ∈ c.knots, x ∈ L) →
    (∀ d ∈ cs, (∃ a' b', KC p a' b' d.knots d.poles) ∧ ∀ x ∈ d.knots, rescale a b d.knots x ∈ L) →
    ∀ r, unifyAbsorb eps a b p (cs.map Curve.info) km c.knots c.poles = .ok r →
      Curve.absorbAll eps c cs = .ok ({ c with knots := r.2.2.1, poles := r.2.2.2 },
        cs.map fun d => { d with knots := d.knots.map (rescale a b d.knots), b0 := a, b1 := b }) := by
  intro cs
  induction cs with
  | nil =>
    intro c km _ _ _ _ _ _ _ r h
    rw [← Except.ok.inj h]
    rfl
  | cons d ds ih =>
    intro c km hp h0 h1 hk hD hUL hcs r h
    obtain ⟨⟨a', b', hd⟩, hdL⟩ := hcs d List.mem_cons_self
    have hlt : kf d.knots 0 < kLast d.knots := by rw [hd.kf_zero, hd.kLast]; exact hd.lt
    have hd' := hd.rescale hk.lt
    have hdL' : ∀ x ∈ d.knots.map (rescale a b d.knots), x ∈ L := by
      intro x hx
      obtain ⟨y, hy, rfl⟩ := List.mem_map.mp hx
      exact hdL y hy
    obtain ⟨kmd, ekm, hDd⟩ := unflatPairs_desc heps hd'.wf.ne hd'.wf.sorted (fun x hx y hy hxy => hL x (hdL' x hx) y (hdL' y hy) hxy)
    obtain ⟨km1, U1, P1, e1, hK1, hD1, hL1, -, -⟩ := unifyInto_desc heps hL hk hD hUL hd' hDd hdL'
    rw [List.map_cons] at h
    unfold unifyAbsorb at h
    rw [show d.info.knots = d.knots from rfl, changeBoundsK_eq hlt hd.wf.ne, R_bind_ok, ekm, R_bind_ok, e1, R_bind_ok] at h
    obtain ⟨r1, hr1, hr⟩ := R_bind_eq_ok.mp h
    have hr := Except.ok.inj hr
    have hi := insertAll_eq heps hL kmd km c hp hk hD hUL (hDd.asked hd' hdL') _ e1
    have := ih { c with knots := U1, poles := P1 } km1 hp h0 h1 hK1 hD1 hL1 (fun e he => hcs e (List.mem_cons_of_mem _ he)) r1 hr1
    unfold Curve.absorbAll Curve.changeBounds
    rw [h0, h1, changeBoundsK_eq hlt hd.wf.ne, R_bind_ok, R_pure, R_bind_ok]
    simp only
    rw [ekm, R_bind_ok, hi, R_bind_ok, this, R_bind_ok, ← hr]
    simp only [h0, h1, List.map_cons]
    rfl

/-- C122: for clamped curves of the same degree, the first one not trimmed, the deprecated `unify_curves_knots` gives the curves of the tuples that
`unify_knots` gives. -/
theorem C122_same {eps : K} (heps : 0 < eps) {c0 : Curve K V} {cs : List (Curve K V)} {p : ℕ} (hp : p ≤ stackMaxDegree) (h0 : c0.Whole)
    (hcl : ∀ c ∈ c0 :: cs, c.deg = p ∧ c.info.Clamped)
    (hsep : SepL eps ((c0 :: cs).flatMap fun c => c.knots.map (rescale (kf c0.knots 0) (kLast c0.knots) c.knots))) :
    ∃ out, unifyKnots eps ((c0 :: cs).map Curve.info) = .ok out ∧ unifyCurvesKnots eps (c0 :: cs) = .ok (out.map CurveInfo.toCurve) := by
  obtain ⟨out, W, e, hU, -⟩ := C50_unify_knots heps (c0 := c0.info) (cs := cs.map Curve.info) (p := p) hp (by
    intro c hc
    rw [← List.map_cons, List.mem_map] at hc
    obtain ⟨d, hd, rfl⟩ := hc
    exact hcl d hd) (by
    rw [← List.map_cons, List.flatMap_map]
    exact hsep)
  refine ⟨out, e, ?_⟩
  obtain ⟨hp0, hc0⟩ := hcl c0 List.mem_cons_self
  have hk0 := hc0.kc
  have hlt0 := hc0.lt
  change KC c0.deg (kf c0.knots 0) (kLast c0.knots) c0.knots c0.poles at hk0
  change kf c0.knots 0 < kLast c0.knots at hlt0
  change List.Forall₂ (Unified eps (kf c0.knots 0) (kLast c0.knots) p W) _ _ at hU
  set a := kf c0.knots 0 with ha
  set b := kLast c0.knots with hb
  set L := (c0 :: cs).flatMap fun c => c.knots.map (rescale a b c.knots) with hLdef
  have hLm : ∀ c ∈ c0 :: cs, ∀ x ∈ c.knots, rescale a b c.knots x ∈ L := by
    intro c hc x hx
    rw [hLdef, List.mem_flatMap]
    exact ⟨c, hc, List.mem_map_of_mem hx⟩
  have hid : c0.knots.map (rescale a b c0.knots) = c0.knots := by
    conv_rhs => rw [← List.map_id c0.knots]
    apply List.map_congr_left
    intro x _
    unfold rescale
    rw [← ha, ← hb, mul_comm, mul_div_assoc, div_self (by linarith)]
    simp
  have hU0 : ∀ x ∈ c0.knots, x ∈ L := by
    intro x hx
    rw [← hid] at hx
    obtain ⟨y, hy, rfl⟩ := List.mem_map.mp hx
    exact hLm c0 List.mem_cons_self y hy
  obtain ⟨km0, ekm, hD0⟩ := unflatPairs_desc heps hk0.wf.ne hk0.wf.sorted (fun x hx y hy hxy => hsep x (hU0 x hx) y (hU0 y hy) hxy)
  rw [hp0] at hk0
  have hcs : ∀ c ∈ cs, (∃ a' b', KC p a' b' c.knots c.poles) ∧ ∀ x ∈ c.knots, rescale a b c.knots x ∈ L := by
    intro c hc
    obtain ⟨e1, e2⟩ := hcl c (List.mem_cons_of_mem _ hc)
    exact ⟨⟨_, _, e1 ▸ (show KC c.deg _ _ _ _ from e2.kc)⟩, hLm c (List.mem_cons_of_mem _ hc)⟩
  obtain ⟨km, W', Q, eA, hK, hD, hWL, -, -, hm, -⟩ := unifyAbsorb_spec heps hsep (cs.map Curve.info) km0 c0.knots c0.poles hk0 hD0 hU0 (by
    intro c hc
    obtain ⟨d, hd, rfl⟩ := List.mem_map.mp hc
    exact hcs d hd)
  have eB := absorbAll_eq (a := a) (b := b) heps hsep cs c0 km0 hp0 h0.1 h0.2 hk0 hD0 hU0 hcs _ eA
  -- the tuples
  unfold unifyKnots at e
  have hl := hk0.wf.len
  simp only at e
  rw [show c0.info.knots = c0.knots from rfl, usub_ok (by omega), R_bind_ok, rd_kf (by omega), R_bind_ok, rd_kf (by omega), R_bind_ok, ekm, R_bind_ok,
    show kf c0.knots (c0.knots.length - 1) = b from rfl, ← ha, show c0.info.deg = p from hp0, show c0.info.poles = c0.poles from rfl, eA, R_bind_ok] at e
  obtain ⟨outs, eM, eO⟩ := R_bind_eq_ok.mp e
  have eOut : ({ poles := Q, knots := W', deg := p } : CurveInfo K V) :: outs = out := Except.ok.inj eO
  simp only at eM
  -- the objects
  obtain ⟨km', ekm', hD'⟩ := unflatPairs_desc heps hK.wf.ne hK.wf.sorted (fun x hx y hy hxy => hsep x (hWL x hx) y (hWL y hy) hxy)
  have hkm : km' = km := hD'.unique hD
  subst hkm
  unfold unifyCurvesKnots
  dsimp only
  rw [if_neg (by
    simp only [List.any_eq_true, decide_eq_true_eq, not_exists, not_and, not_not]
    intro c hc
    rw [(hcl c hc).1, hp0]), ekm, R_bind_ok, eB, R_bind_ok]
  simp only
  rw [ekm', R_bind_ok]
  have hrest : ∀ d ∈ cs, ∃ P', unifyApply eps km' { d.info with knots := d.knots.map (rescale a b d.knots) } = .ok { d.info with knots := W', poles := P' } ∧
      Curve.insertAll eps km' { d with knots := d.knots.map (rescale a b d.knots), b0 := a, b1 := b } =
        .ok (CurveInfo.toCurve { d.info with knots := W', poles := P' }) := by
    intro d hd
    obtain ⟨e1, e2⟩ := hcl d (List.mem_cons_of_mem _ hd)
    have hkd := e2.kc.rescale hlt0
    have hdL : ∀ x ∈ d.knots.map (rescale a b d.knots), x ∈ L := by
      intro x hx
      obtain ⟨y, hy, rfl⟩ := List.mem_map.mp hx
      exact hLm d (List.mem_cons_of_mem _ hd) y hy
    have hKd : KC d.info.deg a b W' Q := by show KC d.deg _ _ _ _; rw [e1]; exact hK
    obtain ⟨P', h1, h2, -⟩ := unifyApply_spec heps hsep (c := { d.info with knots := d.knots.map (rescale a b d.knots) }) hKd hD hWL hkd hdL
      (hm _ (List.mem_map_of_mem hd))
    refine ⟨P', h1, ?_⟩
    obtain ⟨kmd, ekd, hDd⟩ := unflatPairs_desc heps hkd.wf.ne hkd.wf.sorted (fun x hx y hy hxy => hsep x (hdL x hx) y (hdL y hy) hxy)
    unfold unifyApply at h1
    simp only at h1
    rw [show d.info.knots = d.knots from rfl] at ekd
    rw [ekd, R_bind_ok] at h1
    obtain ⟨s, hs, hse⟩ := R_bind_eq_ok.mp h1
    have hse := Except.ok.inj hse
    have g1 : s.2.1 = W' := congrArg CurveInfo.knots hse
    have g2 : s.2.2 = P' := congrArg CurveInfo.poles hse
    have := insertAll_eq heps hsep km' kmd { d with knots := d.knots.map (rescale a b d.knots), b0 := a, b1 := b } rfl hkd hDd hdL
      (hD.asked hKd hWL) s hs
    rw [this, g1, g2]
    unfold CurveInfo.toCurve Curve.info
    simp only
    rw [h2.kf_zero, h2.kLast]
  choose! P' hP1 hP2 using hrest
  have hout : outs = cs.map fun d => { d.info with knots := W', poles := P' d } := by
    have : ((cs.map Curve.info).map fun c => { c with knots := c.knots.map (rescale a b c.knots) }).mapM (unifyApply eps km') =
        .ok (cs.map fun d => { d.info with knots := W', poles := P' d }) := by
      rw [List.map_map, List.mapM_map]
      exact mapM_ok _ hP1
    rw [this] at eM
    exact (Except.ok.inj eM).symm
  have hM : (cs.map fun d => ({ d with knots := d.knots.map (rescale a b d.knots), b0 := a, b1 := b } : Curve K V)).mapM (Curve.insertAll eps km') =
      .ok (cs.map fun d => CurveInfo.toCurve { d.info with knots := W', poles := P' d }) := by
    rw [List.mapM_map]
    exact mapM_ok _ hP2
  rw [hM, R_bind_ok, ← eOut, hout, List.map_cons, List.map_map]
  have : ({ c0 with knots := W', poles := Q } : Curve K V) = CurveInfo.toCurve { poles := Q, knots := W', deg := p } := by
    unfold CurveInfo.toCurve
    simp only
    rw [hK.kf_zero, hK.kLast, h0.1, h0.2, hp0]
  rw [this]
  rfl

/-- C122: the curves that `unify_curves_knots` gives for clamped curves of the same degree that are not trimmed have the same knots `W` and the bounds of the
first one; each is the given curve up to the affine change of parameter. The multiplicity of a knot in `W` is the greatest it has in one of the (rescaled)
curves. -/
theorem C122_unify {eps : K} (heps : 0 < eps) {c0 : Curve K V} {cs : List (Curve K V)} {p : ℕ} (hp : p ≤ stackMaxDegree)
    (hcl : ∀ c ∈ c0 :: cs, c.deg = p ∧ c.info.Clamped ∧ c.Whole)
    (hsep : SepL eps ((c0 :: cs).flatMap fun c => c.knots.map (rescale (kf c0.knots 0) (kLast c0.knots) c.knots))) :
    ∃ out W, unifyCurvesKnots eps (c0 :: cs) = .ok out ∧
      List.Forall₂ (fun c c' : Curve K V => c'.Good ∧ c'.deg = p ∧ c'.knots = W ∧ c'.b0 = c0.b0 ∧ c'.b1 = c0.b1 ∧
        ∀ s d, 0 ≤ s → s ≤ 1 → ∀ junk junk' : K, ∃ pt, c.value eps junk (c.b0 + (c.b1 - c.b0) * s) d = .ok pt ∧
          c'.value eps junk' (c0.b0 + (c0.b1 - c0.b0) * s) d = .ok (((c.b1 - c.b0) / (c0.b1 - c0.b0)) ^ d • pt)) (c0 :: cs) out ∧
      ∀ x, (∀ c ∈ c0 :: cs, (c.knots.map (rescale (kf c0.knots 0) (kLast c0.knots) c.knots)).count x ≤ W.count x) ∧
        ∃ c ∈ c0 :: cs, (c.knots.map (rescale (kf c0.knots 0) (kLast c0.knots) c.knots)).count x = W.count x := by
  obtain ⟨out, W, e, hU, hW⟩ := C50_unify_knots heps (c0 := c0.info) (cs := cs.map Curve.info) (p := p) hp (by
    intro c hc
    rw [← List.map_cons, List.mem_map] at hc
    obtain ⟨d, hd, rfl⟩ := hc
    exact ⟨(hcl d hd).1, (hcl d hd).2.1⟩) (by
    rw [← List.map_cons, List.flatMap_map]
    exact hsep)
  have hw0 := (hcl c0 List.mem_cons_self).2.2
  obtain ⟨out', e', h'⟩ := C122_same heps hp hw0 (fun c hc => ⟨(hcl c hc).1, (hcl c hc).2.1⟩) hsep
  rw [List.map_cons, e] at e'
  cases e'
  refine ⟨_, W, h', ?_, ?_⟩
  · rw [← List.map_cons, List.forall₂_map_left_iff] at hU
    rw [List.forall₂_map_right_iff]
    rw [List.forall₂_iff_get] at hU ⊢
    refine ⟨hU.1, fun i hi hi' => ?_⟩
    have hu := hU.2 i hi hi'
    have hwc := ((hcl _ (List.get_mem (c0 :: cs) ⟨i, hi⟩)).2.2).toCurve
    have hv := hu.value
    have e0 : kf c0.info.knots 0 = c0.b0 := hw0.1.symm
    have e1 : kLast c0.info.knots = c0.b1 := hw0.2.symm
    rw [hwc, e0, e1] at hv
    exact ⟨hu.good, hu.deg, hu.knots, hu.b0.trans hw0.1.symm, hu.b1.trans hw0.2.symm, hv⟩
  · intro x
    obtain ⟨h1, c, hc, h2⟩ := hW x
    refine ⟨fun d hd => h1 d.info (by rw [← List.map_cons]; exact List.mem_map_of_mem hd), ?_⟩
    rw [← List.map_cons, List.mem_map] at hc
    obtain ⟨d, hd, rfl⟩ := hc
    exact ⟨d, hd, h2⟩

/-- C122: curves of different degrees are refused. -/
theorem C122_degrees {eps : K} {c0 : Curve K V} {cs : List (Curve K V)} (h : ∃ c ∈ cs, c.deg ≠ c0.deg) :
    unifyCurvesKnots eps (c0 :: cs) = .error (.thrown .invalid) := by
  obtain ⟨c, hc, hd⟩ := h
  unfold unifyCurvesKnots
  dsimp only
  rw [if_pos]
  rw [List.any_eq_true]
  exact ⟨c, List.mem_cons_of_mem _ hc, by simpa using hd⟩

theorem absorbAll_info (eps : K) : ∀ (cs ds : List (Curve K V)) (c : Curve K V), cs.map Curve.info = ds.map Curve.info →
    Curve.absorbAll eps c cs = Curve.absorbAll eps c ds := by
  intro cs
  induction cs with
  | nil =>
    intro ds c h
    cases ds with
    | nil => rfl
    | cons => simp at h
  | cons x cs ih =>
    intro ds c h
    cases ds with
    | nil => simp at h
    | cons y ds =>
      rw [List.map_cons, List.map_cons, List.cons.injEq] at h
      have hx : ∀ a b, x.changeBounds a b = y.changeBounds a b := by
        intro a b
        have h1 : x.knots = y.knots := congrArg CurveInfo.knots h.1
        have h2 : x.poles = y.poles := congrArg CurveInfo.poles h.1
        have h3 : x.deg = y.deg := congrArg CurveInfo.deg h.1
        unfold Curve.changeBounds
        rw [h1]
        rcases changeBoundsK a b y.knots with e | U
        · rfl
        · simp only [R_bind_ok, h2, h3]
      unfold Curve.absorbAll
      rw [hx]
      congr 1
      funext d'
      congr 1
      funext km
      congr 1
      funext c'
      rw [ih ds c' h.2]

/-- C122: the bounds of the curves other than the first have no effect: a trimmed curve comes back whole. -/
theorem C122_bounds_lost (eps : K) (c0 : Curve K V) {cs ds : List (Curve K V)} (h : cs.map Curve.info = ds.map Curve.info) :
    unifyCurvesKnots eps (c0 :: cs) = unifyCurvesKnots eps (c0 :: ds) := by
  have hd : cs.map Curve.deg = ds.map Curve.deg := by
    have := congrArg (List.map CurveInfo.deg) h
    rwa [List.map_map, List.map_map] at this
  have hany : ((c0 :: cs).any fun c => decide (c.deg ≠ c0.deg)) = (c0 :: ds).any fun c => decide (c.deg ≠ c0.deg) := by
    have : ∀ l : List (Curve K V), (l.any fun c => decide (c.deg ≠ c0.deg)) = (l.map Curve.deg).any fun n => decide (n ≠ c0.deg) := by
      intro l; rw [List.any_map]; rfl
    rw [this, this, List.map_cons, List.map_cons, hd]
  unfold unifyCurvesKnots
  dsimp only
  rw [hany, absorbAll_info eps cs ds c0 h]

theorem mapM_transfer {α β γ δ : Type} {f : β → R γ} {g : α → R δ} {i : α → β} {t : γ → δ} {Q : β → γ → Prop} : ∀ (l : List α) (out : List γ),
    (l.map i).mapM f = .ok out → List.Forall₂ Q (l.map i) out → (∀ x ∈ l, ∀ y, f (i x) = .ok y → Q (i x) y → g x = .ok (t y)) →
    l.mapM g = .ok (out.map t) := by
  intro l
  induction l with
  | nil =>
    intro out h _ _
    rw [← Except.ok.inj h]
    rfl
  | cons x l ih =>
    intro out h hQ hg
    rw [List.map_cons, List.mapM_cons] at h
    obtain ⟨y, hy, h⟩ := R_bind_eq_ok.mp h
    obtain ⟨ys, hys, h⟩ := R_bind_eq_ok.mp h
    have h := Except.ok.inj h
    subst h
    rw [List.map_cons] at hQ
    obtain ⟨h1, h2⟩ := List.forall₂_cons.mp hQ
    rw [List.mapM_cons, hg x List.mem_cons_self y hy h1, R_bind_ok, ih ys hys h2 fun z hz => hg z (List.mem_cons_of_mem _ hz), R_bind_ok]
    rfl

/-- C122: `unified_curves` of clamped curves that are not trimmed, of degrees at most 12, gives curves of the greatest degree with the same knots, each of them
the given one up to the affine change of parameter. -/
theorem C122_unified {eps : K} (heps : 0 < eps) {c0 : Curve K V} {cs : List (Curve K V)} (hdeg : ∀ c ∈ c0 :: cs, c.deg ≤ 12)
    (hcl : ∀ c ∈ c0 :: cs, c.Whole ∧ ∃ ks ms, c.ClampedBy eps ks ms)
    (hsep : SepL eps ((c0 :: cs).flatMap fun c => c.knots.map (rescale (kf c0.knots 0) (kLast c0.knots) c.knots))) :
    ∃ out q W, unifiedCurves eps (c0 :: cs) = .ok out ∧ (∀ c ∈ c0 :: cs, c.deg ≤ q) ∧ (∃ c ∈ c0 :: cs, c.deg = q) ∧
      List.Forall₂ (fun c c' : Curve K V => c'.Good ∧ c'.deg = q ∧ c'.knots = W ∧ c'.b0 = c0.b0 ∧ c'.b1 = c0.b1 ∧
        ∀ s d, 0 ≤ s → s ≤ 1 → ∀ junk junk' : K, ∃ pt, c.value eps junk (c.b0 + (c.b1 - c.b0) * s) d = .ok pt ∧
          c'.value eps junk' (c0.b0 + (c0.b1 - c0.b0) * s) d = .ok (((c.b1 - c.b0) / (c0.b1 - c0.b0)) ^ d • pt)) (c0 :: cs) out := by
  have hmem : ∀ c ∈ c0.info :: cs.map Curve.info, ∃ d ∈ c0 :: cs, d.info = c := by
    intro c hc
    rw [← List.map_cons, List.mem_map] at hc
    exact hc
  have hcl' : ∀ c ∈ c0.info :: cs.map Curve.info, ∃ ks ms, c.toCurve.ClampedBy eps ks ms := by
    intro c hc
    obtain ⟨d, hd, rfl⟩ := hmem c hc
    rw [(hcl d hd).1.toCurve]
    exact (hcl d hd).2
  have hdeg' : ∀ c ∈ c0.info :: cs.map Curve.info, c.deg ≤ 12 := by
    intro c hc
    obtain ⟨d, hd, rfl⟩ := hmem c hc
    exact hdeg d hd
  obtain ⟨mid, q, e, hq, hq', hR⟩ := C50_unify_degree heps (List.cons_ne_nil c0.info (cs.map Curve.info)) hdeg' hcl'
  have hq12 : q ≤ 12 := by obtain ⟨c, hc, e⟩ := hq'; rw [← e]; exact hdeg' c hc
  have hqd : ∀ c ∈ c0 :: cs, c.deg ≤ q := fun c hc => hq c.info (by rw [← List.map_cons]; exact List.mem_map_of_mem hc)
  rw [← List.map_cons] at hR
  -- the degrees
  have hfold : (cs.map Curve.info).foldl (fun q c => max q c.deg) c0.info.deg = cs.foldl (fun q c => max q c.deg) c0.deg := by
    rw [List.foldl_map]; rfl
  have hdegs : unifyCurvesDegree eps (c0 :: cs) = .ok (mid.map CurveInfo.toCurve) := by
    unfold unifyDegree at e
    unfold unifyCurvesDegree
    dsimp only at e ⊢
    rw [hfold, ← List.map_cons] at e
    refine mapM_transfer _ _ e hR fun x hx y hy hr => ?_
    obtain ⟨⟨U, P⟩, hs, hy⟩ := R_bind_eq_ok.mp hy
    have hy := Except.ok.inj hy
    have hyq : cs.foldl (fun q c => max q c.deg) c0.deg = q := by
      have := hr.deg
      rw [← hy] at this
      exact this
    have hb0 := hr.b0
    have hb1 := hr.b1
    rw [(hcl x hx).1.toCurve] at hb0 hb1
    have hd := hqd x hx
    rw [hyq] at hs hy ⊢
    unfold Curve.increaseDegree
    rw [show increaseDegree eps x.knots x.poles x.deg (q - x.deg) = .ok (U, P) from hs, R_bind_ok]
    dsimp only
    rw [R_pure]
    congr 1
    rw [← hy] at hb0 hb1 ⊢
    unfold CurveInfo.toCurve at hb0 hb1 ⊢
    simp only at hb0 hb1 ⊢
    rw [hb0, hb1, Nat.add_sub_cancel' hd]
  -- the raised curves have the same knots
  have hsame : ∀ c c', c ∈ c0 :: cs → Raised eps q c.info c' → c'.Clamped ∧ kf c'.knots 0 = kf c.knots 0 ∧ kLast c'.knots = kLast c.knots ∧
      ∀ x, x ∈ c'.knots ↔ x ∈ c.knots := by
    intro c c' hc hr
    obtain ⟨ks, ms, hk⟩ := (hcl c hc).2
    have hk' := hr.knots ks ms (by rw [(hcl c hc).1.toCurve]; exact hk)
    obtain ⟨a1, a2, -, -, a3⟩ := hk.ends heps.le
    obtain ⟨b1, b2, -, -, b3⟩ := hk'.ends heps.le
    exact ⟨CurveInfo.clamped_of heps hk', b1.trans a1.symm, b2.trans a2.symm, fun x => (b3 x).trans (a3 x).symm⟩
  rw [List.forall₂_map_left_iff] at hR
  obtain ⟨c0', cs', h0, hcs, rfl⟩ := List.forall₂_cons_left_iff.mp hR
  obtain ⟨hcl0, hA, hB, -⟩ := hsame c0 c0' List.mem_cons_self h0
  have hback : ∀ c' ∈ c0' :: cs', ∃ c ∈ c0 :: cs, Raised eps q c.info c' := by
    intro c' hc'
    obtain ⟨i, hi, rfl⟩ := List.getElem_of_mem hc'
    have hi' : i < (c0 :: cs).length := by rw [hR.length_eq]; exact hi
    exact ⟨_, List.getElem_mem hi', hR.get hi' hi⟩
  obtain ⟨out, W, e2, hU, -⟩ := C122_unify heps (c0 := c0'.toCurve) (cs := cs'.map CurveInfo.toCurve) (p := q) (by
      have : stackMaxDegree = 24 := rfl
      omega)
    (by
      intro d hd
      rw [← List.map_cons, List.mem_map] at hd
      obtain ⟨c', hc', rfl⟩ := hd
      obtain ⟨c, hc, hr⟩ := hback c' hc'
      exact ⟨hr.deg, (hsame c c' hc hr).1, rfl, rfl⟩)
    (by
      have hsub : ∀ x ∈ (c0'.toCurve :: cs'.map CurveInfo.toCurve).flatMap fun c => c.knots.map (rescale (kf c0'.toCurve.knots 0) (kLast c0'.toCurve.knots) c.knots),
          x ∈ (c0 :: cs).flatMap fun c => c.knots.map (rescale (kf c0.knots 0) (kLast c0.knots) c.knots) := by
        intro x hx
        obtain ⟨d, hd, hx⟩ := List.mem_flatMap.mp hx
        rw [← List.map_cons, List.mem_map] at hd
        obtain ⟨c', hc', rfl⟩ := hd
        obtain ⟨c, hc, hr⟩ := hback c' hc'
        refine List.mem_flatMap.mpr ⟨c, hc, ?_⟩
        obtain ⟨-, r1, r2, r3⟩ := hsame c c' hc hr
        have : rescale (kf c0'.toCurve.knots 0) (kLast c0'.toCurve.knots) c'.toCurve.knots = rescale (kf c0.knots 0) (kLast c0.knots) c.knots := by
          funext y
          show rescale (kf c0'.knots 0) (kLast c0'.knots) c'.knots y = _
          unfold rescale
          rw [r1, r2, hA, hB]
        rw [this] at hx
        obtain ⟨y, hy, rfl⟩ := List.mem_map.mp hx
        exact List.mem_map_of_mem ((r3 y).mp hy)
      exact fun x hx y hy hxy => hsep x (hsub x hx) y (hsub y hy) hxy)
  have hw0 := (hcl c0 List.mem_cons_self).1
  have z0 : c0'.toCurve.b0 = c0.b0 := hA.trans hw0.1.symm
  have z1 : c0'.toCurve.b1 = c0.b1 := hB.trans hw0.2.symm
  refine ⟨out, q, W, by unfold unifiedCurves; rw [hdegs, R_bind_ok]; exact e2, hqd, ?_, ?_⟩
  · obtain ⟨c, hc, h⟩ := hq'
    obtain ⟨d, hd, rfl⟩ := hmem c hc
    exact ⟨d, hd, h⟩
  · rw [← List.map_cons, List.forall₂_map_left_iff] at hU
    have hl1 := hR.length_eq
    have hl2 := hU.length_eq
    rw [List.forall₂_iff_get]
    refine ⟨hl1.trans hl2, ?_⟩
    intro i hi hi2
    have hr := hR.get hi (by omega)
    obtain ⟨u1, u2, u3, u4, u5, u6⟩ := hU.get (show i < (c0' :: cs').length by omega) hi2
    simp only [List.get_eq_getElem] at *
    have hci := hcl _ (List.getElem_mem hi)
    refine ⟨u1, u2, u3, u4.trans z0, u5.trans z1, fun s d h0 h1 junk junk' => ?_⟩
    obtain ⟨pt, v1, v2⟩ := u6 s d h0 h1 junk junk'
    have hlt : ((c0 :: cs)[i]).b0 < ((c0 :: cs)[i]).b1 := by
      obtain ⟨ks, ms, hk⟩ := hci.2
      exact hk.good.lt
    have hb0 := hr.b0
    have hb1 := hr.b1
    have hv := hr.value
    rw [hci.1.toCurve] at hb0 hb1 hv
    rw [hb0, hb1] at v1 v2
    rw [z0, z1] at v2
    obtain ⟨pt', w1, w2⟩ := hv (((c0 :: cs)[i]).b0 + (((c0 :: cs)[i]).b1 - ((c0 :: cs)[i]).b0) * s) (by nlinarith) (by nlinarith) junk junk d
    rw [v1] at w2
    rw [← Except.ok.inj w2] at w1
    exact ⟨pt, w1, v2⟩

namespace Sample

/-- The hypotheses of `C122_unified` hold for a polyline and a quadratic. -/
example : ∃ out q W, unifiedCurves (1/10) [l1.toCurve, l2.toCurve] = .ok out ∧ (∀ c ∈ [l1.toCurve, l2.toCurve], c.deg ≤ q) ∧
    (∃ c ∈ [l1.toCurve, l2.toCurve], c.deg = q) ∧
    List.Forall₂ (fun c c' : Curve ℚ (ℚ × ℚ) => c'.Good ∧ c'.deg = q ∧ c'.knots = W ∧ c'.b0 = l1.toCurve.b0 ∧ c'.b1 = l1.toCurve.b1 ∧
      ∀ s d, 0 ≤ s → s ≤ 1 → ∀ junk junk' : ℚ, ∃ pt, c.value (1/10) junk (c.b0 + (c.b1 - c.b0) * s) d = .ok pt ∧
        c'.value (1/10) junk' (l1.toCurve.b0 + (l1.toCurve.b1 - l1.toCurve.b0) * s) d =
          .ok (((c.b1 - c.b0) / (l1.toCurve.b1 - l1.toCurve.b0)) ^ d • pt)) [l1.toCurve, l2.toCurve] out :=
  C122_unified (by norm_num) (by decide) (by
    intro c hc
    rcases List.mem_cons.mp hc with rfl | hc
    · exact ⟨⟨rfl, rfl⟩, _, _, l1_clampedBy⟩
    · rw [List.mem_singleton.mp hc]; exact ⟨⟨rfl, rfl⟩, _, _, l2_clampedBy⟩) (by unfold SepL; decide +kernel)

/-- Curves of degrees 1 and 2. -/
example : unifyCurvesKnots (1/10) [l1.toCurve, l2.toCurve] = .error (.thrown .invalid) := C122_degrees ⟨l2.toCurve, by simp, by decide⟩

/-- Two lines, the second one trimmed to its first half. -/
def lineA : Curve ℚ ℚ := { deg := 1, poles := [0, 1], knots := [0, 0, 1, 1], b0 := 0, b1 := 1 }
@[inherit_doc lineA]
def lineB : Curve ℚ ℚ := { deg := 1, poles := [0, 4, 8], knots := [0, 0, 1, 2, 2], b0 := 0, b1 := 1 }

theorem lineA_clamped : lineA.info.Clamped := by
  refine ⟨by decide, by decide, by decide +kernel, by decide +kernel, by decide +kernel, by decide +kernel, ?_⟩
  intro x h0 h1
  have hx : x ∉ lineA.info.knots := by
    have h0 : (0 : ℚ) < x := h0
    have h1 : x < 1 := h1
    simp only [Curve.info, lineA, List.mem_cons, List.not_mem_nil, or_false, not_or]
    exact ⟨h0.ne', h0.ne', h1.ne, h1.ne⟩
  rw [List.count_eq_zero_of_not_mem hx]
  exact Nat.zero_le _

/-- C122: the curve that ended at 4 ends at 8 after the unification, as if it had not been trimmed. -/
theorem _root_.Gbs.C122_witness : lineA.Whole ∧ lineA.info.Clamped ∧ lineB.value (1/10) 0 lineB.b1 0 = .ok 4 ∧
    ((unifyCurvesKnots (1/10) [lineA, lineB]).map fun l => l.map fun c => (c.knots, c.b0, c.b1, (c.value (1/10) 0 c.b1 0).toOption)) =
      .ok [([0, 0, 1/2, 1, 1], 0, 1, some 1), ([0, 0, 1/2, 1, 1], 0, 1, some 8)] := by
  refine ⟨⟨by decide +kernel, by decide +kernel⟩, lineA_clamped, by decide +kernel, by decide +kernel⟩

end Sample

end Gbs
