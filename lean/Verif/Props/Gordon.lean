import Verif.Lemmas.Gordon
import Verif.Props.SurfJoin

/-! # C86: Gordon surfaces contain the curves of the network -/

namespace Gbs

set_option linter.unusedSectionVars false

open scoped BigOperators

variable {K : Type} [Field K] [LinearOrder K] [IsStrictOrderedRing K]
variable {V : Type} [AddCommGroup V] [Module K V]

/-- A network: two families of at least two clamped curves of degrees at most 12, the first ones on `[a, b]`, the others on `[c, d]`, so that
the `i`-th curve of the first family at `u j` is the `j`-th curve of the second family at `v i`; the parameters increase from one bound to
the other. -/
structure Spec.Network (eps : K) (us vs : List (CurveInfo K V)) (u v : List K) (a b c d : K) : Prop where
  nu : 2 ≤ us.length
  nv : 2 ≤ vs.length
  degU : ∀ x ∈ us, x.deg ≤ 12
  degV : ∀ x ∈ vs, x.deg ≤ 12
  clU : ∀ x ∈ us, ∃ ks ms, x.toCurve.ClampedBy eps ks ms
  clV : ∀ x ∈ vs, ∃ ks ms, x.toCurve.ClampedBy eps ks ms
  bU : ∀ x ∈ us, x.toCurve.b0 = a ∧ x.toCurve.b1 = b
  bV : ∀ x ∈ vs, x.toCurve.b0 = c ∧ x.toCurve.b1 = d
  lu : u.length = vs.length
  lv : v.length = us.length
  su : u.Pairwise (· < ·)
  sv : v.Pairwise (· < ·)
  u0 : u.head? = some a
  u1 : u.getLast? = some b
  v0 : v.head? = some c
  v1 : v.getLast? = some d
  cross : ∀ (i j : ℕ) (x y : CurveInfo K V) (s t : K), us[i]? = some x → vs[j]? = some y → u[j]? = some s → v[i]? = some t →
    ∀ junk junk' : K, ∃ pt, x.toCurve.value eps junk s 0 = .ok pt ∧ y.toCurve.value eps junk' t 0 = .ok pt

/-- The other family first. -/
theorem Spec.Network.swap {eps : K} {us vs : List (CurveInfo K V)} {u v : List K} {a b c d : K} (h : Spec.Network eps us vs u v a b c d) :
    Spec.Network eps vs us v u c d a b :=
  ⟨h.nv, h.nu, h.degV, h.degU, h.clV, h.clU, h.bV, h.bU, h.lv, h.lu, h.sv, h.su, h.v0, h.v1, h.u0, h.u1, fun i j x y s t h1 h2 h3 h4 junk junk' => by
    obtain ⟨pt, e1, e2⟩ := h.cross j i y x t s h2 h1 h4 h3 junk' junk
    exact ⟨pt, e2, e1⟩⟩

/-! ## The parts of the algorithm -/

theorem maxDegree_spec : ∀ (cs : List (CurveInfo K V)), cs ≠ [] → ∃ p, maxDegree cs = .ok p ∧ (∀ c ∈ cs, c.deg ≤ p) ∧ ∃ c ∈ cs, c.deg = p := by
  intro cs hne
  cases cs with
  | nil => exact absurd rfl hne
  | cons c cs =>
    have key : ∀ (l : List (CurveInfo K V)) (m : ℕ), m ≤ l.foldl (fun m x => max m x.deg) m ∧ (∀ x ∈ l, x.deg ≤ l.foldl (fun m x => max m x.deg) m) ∧
        (l.foldl (fun m x => max m x.deg) m = m ∨ ∃ x ∈ l, x.deg = l.foldl (fun m x => max m x.deg) m) := by
      intro l
      induction l with
      | nil => intro m; exact ⟨le_rfl, by simp, Or.inl rfl⟩
      | cons x l ih =>
        intro m
        obtain ⟨h1, h2, h3⟩ := ih (max m x.deg)
        simp only [List.foldl_cons]
        refine ⟨by omega, ?_, ?_⟩
        · intro y hy
          rcases List.mem_cons.mp hy with rfl | hy
          · omega
          · exact h2 y hy
        · rcases h3 with h3 | ⟨y, hy, e⟩
          · rcases Nat.le_total m x.deg with h | h
            · exact Or.inr ⟨x, List.mem_cons_self, by rw [h3]; omega⟩
            · exact Or.inl (by rw [h3]; omega)
          · exact Or.inr ⟨y, List.mem_cons_of_mem _ hy, e⟩
    obtain ⟨h1, h2, h3⟩ := key cs c.deg
    refine ⟨_, rfl, ?_, ?_⟩
    · intro x hx
      rcases List.mem_cons.mp hx with rfl | hx
      · exact h1
      · exact h2 x hx
    · rcases h3 with h3 | ⟨x, hx, e⟩
      · exact ⟨c, List.mem_cons_self, h3.symm⟩
      · exact ⟨x, List.mem_cons_of_mem _ hx, e⟩

/-- The parameters found by the minimisation. -/
theorem touchParams_spec {par : Bool} {ext : CurveInfo K V → CurveInfo K V → R (K × K × K)} {tol : K} {crv : CurveInfo K V} :
    ∀ {cs : List (CurveInfo K V)} {t : List K}, t.length = cs.length →
      (∀ (i : ℕ) (c : CurveInfo K V) (x : K), cs[i]? = some c → t[i]? = some x → ∃ w e, ext crv c = .ok (x, w, e) ∧ e ≤ tol) →
      touchParams par ext tol crv cs = .ok t := by
  intro cs t hl h
  have hm : cs.mapM (touchParam ext tol crv) = .ok t := by
    induction cs generalizing t with
    | nil =>
      obtain rfl := List.length_eq_zero_iff.mp hl
      rfl
    | cons c cs ih =>
      cases t with
      | nil => simp at hl
      | cons x t =>
        obtain ⟨w, e, h1, h2⟩ := h 0 c x rfl rfl
        have hr := ih (t := t) (by simpa using hl) (fun i c' x' g1 g2 => h (i + 1) c' x' g1 g2)
        rw [List.mapM_cons]
        have ht : touchParam ext tol crv c = .ok x := by
          unfold touchParam
          rw [h1, R_bind_ok, if_neg (not_lt.mpr h2)]
          rfl
        rw [ht, R_bind_ok, hr, R_bind_ok]
        rfl
  unfold touchParams
  rw [hm]

theorem infoValue_eq {eps : K} {c : CurveInfo K V} (h : c.knots ≠ []) (junk u : K) : infoValue eps junk c u = c.toCurve.value eps junk u 0 := by
  unfold infoValue
  rw [frontBack_eq h, R_bind_ok]
  rfl

/-- The points of the network. -/
theorem networkPoints_spec {eps : K} (heps : 0 < eps) (junk : K) {us vs : List (CurveInfo K V)} {u v : List K} {a b c d : K}
    (h : Spec.Network eps us vs u v a b c d) {dist : V → V → K} {tol : K} (hd : ∀ x, dist x x ≤ tol) :
    ∃ Q, networkPoints eps junk dist tol us vs u v = .ok Q ∧ Q.length = us.length * vs.length ∧
      ∀ (i j : ℕ) (x y : CurveInfo K V) (s t : K), us[i]? = some x → vs[j]? = some y → u[j]? = some s → v[i]? = some t →
        ∃ pt, Q[j + vs.length * i]? = some pt ∧ ∀ junk', x.toCurve.value eps junk' s 0 = .ok pt ∧ y.toCurve.value eps junk' t 0 = .ok pt := by
  have hlu := h.lu
  have hlv := h.lv
  have hne : ∀ x ∈ us, x.knots ≠ [] := by
    intro x hx
    obtain ⟨ks, ms, hk⟩ := h.clU x hx
    exact (CurveInfo.clamped_of heps hk).kc.wf.ne
  have hne' : ∀ x ∈ vs, x.knots ≠ [] := by
    intro x hx
    obtain ⟨ks, ms, hk⟩ := h.clV x hx
    exact (CurveInfo.clamped_of heps hk).kc.wf.ne
  have hpt : ∀ i j, ∃ pt, i < us.length → j < vs.length → ∀ (x y : CurveInfo K V), us[i]? = some x → vs[j]? = some y →
      ∀ junk', x.toCurve.value eps junk' (kf u j) 0 = .ok pt ∧ y.toCurve.value eps junk' (kf v i) 0 = .ok pt := by
    intro i j
    by_cases hi : i < us.length
    · by_cases hj : j < vs.length
      · obtain ⟨pt, e1, e2⟩ := h.cross i j _ _ _ _ (List.getElem?_eq_getElem hi) (List.getElem?_eq_getElem hj) (kf_getElem? (by omega)) (kf_getElem? (by omega)) 0 0
        refine ⟨pt, fun _ _ x y hx hy junk' => ?_⟩
        obtain ⟨p1, f1, f2⟩ := h.cross i j x y _ _ hx hy (kf_getElem? (by omega)) (kf_getElem? (by omega)) junk' 0
        obtain ⟨p2, g1, g2⟩ := h.cross i j x y _ _ hx hy (kf_getElem? (by omega)) (kf_getElem? (by omega)) 0 junk'
        rw [List.getElem?_eq_getElem hi] at hx
        rw [List.getElem?_eq_getElem hj] at hy
        obtain rfl := Option.some.inj hx
        obtain rfl := Option.some.inj hy
        rw [e1] at g1
        rw [e2] at f2
        obtain rfl := Except.ok.inj g1
        obtain rfl := Except.ok.inj f2
        exact ⟨f1, g2⟩
      · exact ⟨0, fun _ hj' => absurd hj' hj⟩
    · exact ⟨0, fun hi' => absurd hi' hi⟩
  choose g hg using hpt
  obtain ⟨Q, e, hl, hQ⟩ := forLt_grid (n := us.length) (m := vs.length) (s := List.replicate (us.length * vs.length) (0 : V)) (g := g)
    (body := fun i Q => do
      let cu ← rd us i
      forLt 0 vs.length (fun j Q => do
        let cv ← rd vs j
        let a ← rd u j
        let x ← infoValue eps junk cu a
        let b ← rd v i
        let y ← infoValue eps junk cv b
        if tol < dist x y then .error (.thrown .invalid)
        else wr Q (i * vs.length + j) ((1 / 2 : K) • (x + y))) Q) (by rw [List.length_replicate])
    (by
      intro i s hi hs
      have hle : vs.length * i + vs.length ≤ us.length * vs.length := by
        have := Nat.mul_le_mul_left vs.length (show i + 1 ≤ us.length by omega)
        rw [Nat.mul_comm us.length]; rw [Nat.mul_add] at this; omega
      obtain ⟨s', e, f1, f2, f3⟩ := forLt_row (m := vs.length) (off := vs.length * i) (s := s) (f := g i)
        (body := fun j Q => do
          let cv ← rd vs j
          let a ← rd u j
          let x ← infoValue eps junk us[i] a
          let b ← rd v i
          let y ← infoValue eps junk cv b
          if tol < dist x y then .error (.thrown .invalid)
          else wr Q (i * vs.length + j) ((1 / 2 : K) • (x + y))) (by omega)
        (by
          intro j s' hj hs'
          obtain ⟨e1, e2⟩ := hg i j hi hj _ _ (List.getElem?_eq_getElem hi) (List.getElem?_eq_getElem hj) junk
          have hi2 : i * vs.length + j = j + vs.length * i := by rw [Nat.mul_comm]; omega
          have hhalf : (1 / 2 : K) • (g i j + g i j) = g i j := by
            rw [← two_smul K (g i j), smul_smul, one_div, inv_mul_cancel₀ (two_ne_zero), one_smul]
          rw [rd_ok hj, R_bind_ok, rd_kf (by omega), R_bind_ok, infoValue_eq (hne _ (List.getElem_mem hi)), e1, R_bind_ok, rd_kf (by omega), R_bind_ok,
            infoValue_eq (hne' _ (List.getElem_mem hj)), e2, R_bind_ok, if_neg (not_lt.mpr (hd _)), hhalf, hi2, wr_ok (by omega)])
      refine ⟨s', ?_, by omega, f2, fun x hx => f3 x (Or.inl hx)⟩
      rw [rd_ok hi, R_bind_ok]
      exact e)
  refine ⟨Q, e, hl, ?_⟩
  intro i j x y s t hx hy hs ht
  obtain ⟨hi, rfl⟩ := List.getElem?_eq_some_iff.mp hx
  obtain ⟨hj, rfl⟩ := List.getElem?_eq_some_iff.mp hy
  obtain ⟨-, rfl⟩ := kf_of_some hs
  obtain ⟨-, rfl⟩ := kf_of_some ht
  exact ⟨_, hQ i j hi hj, hg i j hi hj _ _ hx hy⟩

/-- The surface through the points. -/
theorem grid_surface {eps : K} (heps : 0 < eps) (junk : K) {dense : ℕ → (ℕ → ℕ → K) → List V → R (List V)} (hS : Spec.SolvesDense dense)
    {p q : ℕ} (hp1 : 1 ≤ p) (hq1 : 1 ≤ q) (hp : p ≤ stackMaxDegree) (hq : q ≤ stackMaxDegree) {u v ku kv : List K} {Q : List V}
    (hnu : p + 1 ≤ u.length) (hnv : q + 1 ≤ v.length) (hu : u.Pairwise (· < ·)) (hv : v.Pairwise (· < ·))
    (eku : averagedFlatKnots u p = .ok ku) (ekv : averagedFlatKnots v q = .ok kv) (hsu : SepL eps ku) (hsv : SepL eps kv)
    (hQ : Q.length = u.length * v.length) (hmem : ku.length * kv.length < 2 ^ 64) :
    ∃ P s xu mu xv mv, buildPolesGrid eps junk dense Q ku kv u v p q = .ok P ∧ Surface.mk? eps P ku kv p q = .ok s ∧ s.ClampedBy eps xu mu xv mv ∧
      s.degU = p ∧ s.degV = q ∧ s.knotsU = ku ∧ s.knotsV = kv ∧ s.u0 = kf u 0 ∧ s.u1 = kf u (u.length - 1) ∧ s.v0 = kf v 0 ∧ s.v1 = kf v (v.length - 1) ∧
      ∀ (i j : ℕ) (x : V), i < u.length → j < v.length → Q[i + u.length * j]? = some x → ∀ junk', s.value eps junk' (kf u i) (kf v j) 0 0 = .ok x := by
  obtain ⟨hU, a0, a1, hRu⟩ := averaged_coll hp1 hnu hu eku
  obtain ⟨hV, b0, b1, hRv⟩ := averaged_coll hq1 hnv hv ekv
  obtain ⟨c0, c1⟩ := averaged_clamped hp1 hnu hu eku
  obtain ⟨d0, d1⟩ := averaged_clamped hq1 hnv hv ekv
  obtain ⟨P, eP, hlP, hP⟩ := C77_build_poles_grid heps junk hp hq hQ hU hV (Regular_grid hU hp hRu hS) (Regular_grid hV hq hRv hS)
  obtain ⟨s, es, hs, hwf, hval⟩ := surf_clamped heps hU hV hlP hp hq (by rw [← hU.len, ← hV.len]; exact hmem) c0 c1 d0 d1
  obtain ⟨xu, mu, hxu⟩ := averaged_by heps hp1 hnu hu eku hsu
  obtain ⟨xv, mv, hxv⟩ := averaged_by heps hq1 hnv hv ekv hsv
  have n1 : s.nPU = u.length := by rw [hs]; show ku.length - (p + 1) = _; have := hU.len; omega
  have n2 : s.nPV = v.length := by rw [hs]; show kv.length - (q + 1) = _; have := hV.len; omega
  refine ⟨P, s, xu, mu, xv, mv, eP, es, ⟨⟨hwf, ?_, ?_, ?_, ?_, ?_, ?_, ?_, ?_, ?_, ?_⟩, ?_, ?_⟩, by rw [hs], by rw [hs], by rw [hs], by rw [hs], by rw [hs, ← a0],
    by rw [hs, ← a1], by rw [hs, ← b0], by rw [hs, ← b1], ?_⟩
  · rw [hs]; exact hp
  · rw [hs]; exact hq
  · rw [hs]; exact c0
  · rw [hs]
  · rw [n1, hs]
  · rw [hs]; exact c1
  · rw [hs]; exact d0
  · rw [hs]
  · rw [n2, hs]
  · rw [hs]; exact d1
  · rw [hs]; exact hxu
  · rw [hs]; exact hxv
  · intro i j x hi hj hx junk'
    have hle : u.Pairwise (· ≤ ·) := hu.imp le_of_lt
    have hle' : v.Pairwise (· ≤ ·) := hv.imp le_of_lt
    have hev := hP i j _ _ x (kf_getElem? hi) (kf_getElem? hj) hx junk'
    obtain ⟨su, hsu'⟩ := exists_spans hU u
    obtain ⟨sv, hsv'⟩ := exists_spans hV v
    rw [evalSurf_spec (eps := eps) hU hV hlP (Or.inl ⟨hp, hq⟩) 0 0 (hsu'.find i hi) (hsv'.find j hj)] at hev
    rw [hval _ _ _ _ (by rw [a0]; exact kf_mono hle (by omega)) (by rw [a1]; exact kf_mono hle (by omega))
      (by rw [b0]; exact kf_mono hle' (by omega)) (by rw [b1]; exact kf_mono hle' (by omega)) (hsu'.find i hi) (hsv'.find j hj)]
    exact hev

theorem isoIs_value {eps : K} {s : Surface K V} {a b t : K} {c : CurveInfo K V} (hab : a < b) (h : Spec.IsoIs eps s a b c t) (h0 : c.toCurve.b0 = a)
    (h1 : c.toCurve.b1 = b) : ∀ x, a ≤ x → x ≤ b → ∀ (junk junk' : K) (du : ℕ), ∃ pt, c.toCurve.value eps junk x du = .ok pt ∧
      s.value eps junk' x t du 0 = .ok pt := by
  intro x x0 x1 junk junk' du
  have hne : b - a ≠ 0 := by linarith
  obtain ⟨pt, e1, e2⟩ := h ((x - a) / (b - a)) du (div_nonneg (by linarith) (by linarith)) ((div_le_one (by linarith)).mpr (by linarith)) junk junk'
  have hx : a + (b - a) * ((x - a) / (b - a)) = x := by rw [mul_div_cancel₀ _ hne]; ring
  rw [h0, h1, hx] at e1
  rw [h0, h1, hx, div_self hne, one_pow, one_smul] at e2
  exact ⟨pt, e1, e2⟩

/-- The loft of one family, elevated. -/
theorem gordon_loft {eps : K} (heps : 0 < eps) (junk : K) {dense : ℕ → (ℕ → ℕ → K) → List V → R (List V)} (hS : Spec.SolvesDense dense)
    {us vs : List (CurveInfo K V)} {u v : List K} {a b c d : K} (h : Spec.Network eps us vs u v a b c d) {p q : ℕ}
    (hp : (∀ x ∈ us, x.deg ≤ p) ∧ ∃ x ∈ us, x.deg = p) (hq : 1 ≤ q) (hq12 : q ≤ 12) {kv : List K}
    (ekv : averagedFlatKnots v (min q (v.length - 1)) = .ok kv) (hsep : SepL eps (us.flatMap CurveInfo.knots)) (hsk : SepL eps kv)
    (hmem : 13 * (us.flatMap CurveInfo.knots).length * kv.length < 2 ^ 64) :
    ∃ s s' ku mu kx mv mv', loftGenericV eps junk dense us v (min q (v.length - 1)) = .ok s ∧ s.ClampedBy eps ku mu kx mv ∧
      s.degV = min q (v.length - 1) ∧ s.knotsV = kv ∧ s.raiseDegreeV eps q = .ok s' ∧ s'.ClampedBy eps ku mu kx mv' ∧ s'.degU = p ∧ s'.degV = q ∧
      Spec.SameSurf eps s s' ∧ s.u0 = a ∧ s.u1 = b ∧ s.v0 = c ∧ s.v1 = d ∧ (∀ x ∈ s'.knotsU, x ∈ us.flatMap CurveInfo.knots) ∧
      (∀ x ∈ s'.knotsV, x ∈ kv) ∧
      ∀ (j : ℕ) (x : CurveInfo K V) (t : K), us[j]? = some x → v[j]? = some t → ∀ y, a ≤ y → y ≤ b → ∀ (junk junk' : K) (du : ℕ), ∃ pt,
        x.toCurve.value eps junk y du = .ok pt ∧ s.value eps junk' y t du 0 = .ok pt := by
  have hnu := h.nu
  have hlv := h.lv
  cases us with
  | nil => simp at hnu
  | cons c0 cs =>
    have hcs : cs ≠ [] := by rintro rfl; simp at hnu
    have hcsl : 0 < cs.length := List.length_pos_iff.mpr hcs
    have hl : v.length = cs.length + 1 := by rw [hlv]; rfl
    have hv1 : v.length - 1 = cs.length := by omega
    have hmin : min (min q (v.length - 1)) cs.length = min q (v.length - 1) := by rw [hv1]; omega
    obtain ⟨b0, b1⟩ := h.bU c0 List.mem_cons_self
    obtain ⟨ks0, ms0, hk0⟩ := h.clU c0 List.mem_cons_self
    have hab : a < b := by rw [← b0, ← b1]; exact hk0.good.lt
    have hresc : ((c0 :: cs).flatMap fun c => c.knots.map (rescale (kf c0.knots 0) (kLast c0.knots) c.knots)) = (c0 :: cs).flatMap CurveInfo.knots := by
      apply List.flatMap_congr
      intro x hx
      obtain ⟨g0, g1⟩ := h.bU x hx
      rw [show kf c0.knots 0 = kf x.knots 0 from b0.trans g0.symm, show kLast c0.knots = kLast x.knots from b1.trans g1.symm]
      exact rescale_self (by rw [show kf x.knots 0 = a from g0, show kLast x.knots = b from g1]; exact hab)
    have htot : Spec.totalKnots (c0 :: cs) = ((c0 :: cs).flatMap CurveInfo.knots).length := by
      unfold Spec.totalKnots
      rw [List.length_flatMap]
    have hkvl : kv.length = v.length + min q (v.length - 1) + 1 := by
      obtain ⟨k', ek', hlk, -⟩ := C54_averaged_knots (V := K) (p := min q (v.length - 1)) (u := v) (by omega) (by omega) h.sv
      rw [ekv] at ek'
      rw [Except.ok.inj ek']; exact hlk
    have hs24 : stackMaxDegree = 24 := rfl
    obtain ⟨s, ku, mu, kx, mv, e, hc, d2, k2, hUm, hd, hd', u0, u1, v0, v1, hiso⟩ := loft_full heps junk hS h.degU h.clU (by rw [hresc]; exact hsep)
      (v := v) (k := kv) (q := min q (v.length - 1)) (by omega) hcs (by omega) hl h.sv
      (by rw [hmin, htot, ← hkvl]; exact hmem) (by rw [hmin]; exact ekv) hsk
    rw [hmin] at d2
    rw [hresc] at hUm
    have hdU : s.degU = p := by
      obtain ⟨x, hx, ex⟩ := hd'
      obtain ⟨y, hy, ey⟩ := hp.2
      apply le_antisymm
      · rw [← ex]; exact hp.1 x hx
      · rw [← ey]; exact hd y hy
    obtain ⟨s', e', hc', g1, g2, g3, g4⟩ := hc.raiseV heps hq12
    refine ⟨s, s', ku, mu, kx, mv, _, e, hc, d2, k2, e', hc', g1.trans hdU, by rw [g2, d2]; omega, g4, u0.trans b0, u1.trans b1, ?_, ?_, ?_, ?_, ?_⟩
    · rw [v0]
      have := h.v0
      rw [List.head?_eq_getElem?] at this
      exact (kf_of_some this).2
    · rw [v1]
      have := h.v1
      rw [List.getLast?_eq_getElem?] at this
      exact (kf_of_some this).2
    · intro x hx
      rw [g3] at hx
      exact hUm x hx
    · intro x hx
      rw [← k2, hc.kV.mem_iff, ← hc'.kV.mem_iff]
      exact hx
    · intro j x t hx ht
      have := hiso j x t hx ht
      rw [b0, b1] at this
      obtain ⟨g0, g1⟩ := h.bU x (List.mem_of_getElem? hx)
      exact isoIs_value hab this g0 g1

/-! ## The property -/

/-- C86, `gordon`: for a network whose curves meet exactly, and whose parameters are found by the minimisation within the tolerance, the result is a
surface with the greatest degrees of the families, on the bounds of the curves, which contains every curve of both families at the
parameter where it meets the first curve of the other, with all its derivatives. The different knots of the curves and of the averaged knots are
farther apart than the tolerance, and the poles can be counted in 64 bits. Of the dense solver only the solution of regular systems is asked. -/
theorem C86_gordon_partial {eps : K} (heps : 0 < eps) (junk : K) (par : Bool) {dense : ℕ → (ℕ → ℕ → K) → List V → R (List V)} (hS : Spec.SolvesDense dense)
    {us vs : List (CurveInfo K V)} {u v : List K} {a b c d : K} (h : Spec.Network eps us vs u v a b c d)
    {ext : CurveInfo K V → CurveInfo K V → R (K × K × K)} {dist : V → V → K} {tol : K} (hd : ∀ x, dist x x ≤ tol)
    (hev : ∀ (i : ℕ) (y x : CurveInfo K V) (t : K), vs[0]? = some y → us[i]? = some x → v[i]? = some t → ∃ w e, ext y x = .ok (t, w, e) ∧ e ≤ tol)
    (heu : ∀ (i : ℕ) (y x : CurveInfo K V) (t : K), us[0]? = some y → vs[i]? = some x → u[i]? = some t → ∃ w e, ext y x = .ok (t, w, e) ∧ e ≤ tol)
    {p q : ℕ} (hp : (∀ x ∈ us, x.deg ≤ p) ∧ ∃ x ∈ us, x.deg = p) (hq : (∀ x ∈ vs, x.deg ≤ q) ∧ ∃ x ∈ vs, x.deg = q)
    {ku kv : List K} (eku : averagedFlatKnots u (min p (u.length - 1)) = .ok ku) (ekv : averagedFlatKnots v (min q (v.length - 1)) = .ok kv)
    (hsepU : SepL eps (us.flatMap CurveInfo.knots ++ ku)) (hsepV : SepL eps (vs.flatMap CurveInfo.knots ++ kv))
    (hmem : (13 * (us.flatMap CurveInfo.knots ++ ku).length) * (13 * (vs.flatMap CurveInfo.knots ++ kv).length) < 2 ^ 64) :
    ∃ s, gordon eps junk par ext dist dense tol us vs = .ok s ∧ s.Wf ∧ s.degU = p ∧ s.degV = q ∧ s.u0 = a ∧ s.u1 = b ∧ s.v0 = c ∧ s.v1 = d ∧
      (∀ (i : ℕ) (x : CurveInfo K V) (t : K), us[i]? = some x → v[i]? = some t → ∀ y, a ≤ y → y ≤ b → ∀ (junk junk' : K) (du : ℕ), ∃ pt,
        x.toCurve.value eps junk y du = .ok pt ∧ s.value eps junk' y t du 0 = .ok pt) ∧
      ∀ (j : ℕ) (x : CurveInfo K V) (t : K), vs[j]? = some x → u[j]? = some t → ∀ y, c ≤ y → y ≤ d → ∀ (junk junk' : K) (dv : ℕ), ∃ pt,
        x.toCurve.value eps junk y dv = .ok pt ∧ s.value eps junk' t y 0 dv = .ok pt := by
  have hs24 : stackMaxDegree = 24 := rfl
  have hnu := h.nu
  have hnv := h.nv
  have hlu := h.lu
  have hlv := h.lv
  set BU := us.flatMap CurveInfo.knots ++ ku with hBU
  set BV := vs.flatMap CurveInfo.knots ++ kv with hBV
  have hp12 : p ≤ 12 := by obtain ⟨x, hx, e⟩ := hp.2; rw [← e]; exact h.degU x hx
  have hq12 : q ≤ 12 := by obtain ⟨x, hx, e⟩ := hq.2; rw [← e]; exact h.degV x hx
  have hp1 : 1 ≤ p := by
    obtain ⟨x, hx, e⟩ := hp.2
    obtain ⟨ks, ms, hk⟩ := h.clU x hx
    have := hk.deg
    rw [← e]; exact this
  have hq1 : 1 ≤ q := by
    obtain ⟨x, hx, e⟩ := hq.2
    obtain ⟨ks, ms, hk⟩ := h.clV x hx
    have := hk.deg
    rw [← e]; exact this
  have kf0 : kf u 0 = a := by have := h.u0; rw [List.head?_eq_getElem?] at this; exact (kf_of_some this).2
  have kf1 : kf u (u.length - 1) = b := by have := h.u1; rw [List.getLast?_eq_getElem?] at this; exact (kf_of_some this).2
  have kg0 : kf v 0 = c := by have := h.v0; rw [List.head?_eq_getElem?] at this; exact (kf_of_some this).2
  have kg1 : kf v (v.length - 1) = d := by have := h.v1; rw [List.getLast?_eq_getElem?] at this; exact (kf_of_some this).2
  have subU : SepL eps (us.flatMap CurveInfo.knots) := fun x hx y hy =>
    hsepU x (List.mem_append_left _ hx) y (List.mem_append_left _ hy)
  have subV : SepL eps (vs.flatMap CurveInfo.knots) := fun x hx y hy =>
    hsepV x (List.mem_append_left _ hx) y (List.mem_append_left _ hy)
  have subku : SepL eps ku := fun x hx y hy => hsepU x (List.mem_append_right _ hx) y (List.mem_append_right _ hy)
  have subkv : SepL eps kv := fun x hx y hy => hsepV x (List.mem_append_right _ hx) y (List.mem_append_right _ hy)
  have lenU1 : (us.flatMap CurveInfo.knots).length ≤ BU.length := by rw [hBU, List.length_append]; omega
  have lenU2 : ku.length ≤ BU.length := by rw [hBU, List.length_append]; omega
  have lenV1 : (vs.flatMap CurveInfo.knots).length ≤ BV.length := by rw [hBV, List.length_append]; omega
  have lenV2 : kv.length ≤ BV.length := by rw [hBV, List.length_append]; omega
  -- the parts
  obtain ⟨Lu, Lu', xu, mu, yu, nu', nu'', eLu, cLu, dLu, kLu, eLu', cLu', dLu1, dLu2, sLu, bu0, bu1, bv0, bv1, mLu1, mLu2, vLu⟩ :=
    gordon_loft heps junk hS h hp hq1 hq12 ekv subU subkv
      (lt_of_le_of_lt (Nat.mul_le_mul (Nat.mul_le_mul_left 13 lenU1) (lenV2.trans (Nat.le_mul_of_pos_left _ (by omega)))) hmem)
  obtain ⟨Lv, Lv', xv, mv, yv, nv', nv'', eLv, cLv, dLv, kLv, eLv', cLv', dLv1, dLv2, sLv, wu0, wu1, wv0, wv1, mLv1, mLv2, vLv⟩ :=
    gordon_loft heps junk hS h.swap hq hp1 hp12 eku subV subku
      (lt_of_le_of_lt (by
        rw [Nat.mul_comm]
        exact Nat.mul_le_mul (lenU2.trans (Nat.le_mul_of_pos_left _ (by omega))) (Nat.mul_le_mul_left 13 lenV1)) hmem)
  obtain ⟨Lw, eLw, cLw, dLw1, dLw2, kLw1, kLw2, zu0, zu1, zv0, zv1, vLw⟩ := cLv'.invert heps
  obtain ⟨Q, eQ, lQ, hQ⟩ := networkPoints_spec heps junk h hd
  obtain ⟨P, T, xt, mt, yt, nt, eP, eT, cT, dT1, dT2, kT1, kT2, tu0, tu1, tv0, tv1, vT⟩ := grid_surface heps junk hS (p := min p (u.length - 1))
    (q := min q (v.length - 1)) (by omega) (by omega) (by omega) (by omega) (by omega) (by omega) h.su h.sv eku ekv subku subkv
    (by rw [lQ, hlu, hlv, Nat.mul_comm])
    (lt_of_le_of_lt (Nat.mul_le_mul (lenU2.trans (Nat.le_mul_of_pos_left _ (by omega))) (lenV2.trans (Nat.le_mul_of_pos_left _ (by omega)))) hmem)
  obtain ⟨T1, eT1, cT1, dT11, dT12, kT1', sT1⟩ := cT.raiseU heps hp12
  obtain ⟨T2, eT2, cT2, dT21, dT22, kT2', sT2⟩ := cT1.raiseV heps hq12
  have sT := sT1.trans sT2
  rw [kf0] at tu0
  rw [kf1] at tu1
  rw [kg0] at tv0
  rw [kg1] at tv1
  obtain ⟨s, es, hwf, d1, d2, b1, b2, b3, b4, hval⟩ := gordonSum_spec heps (A := Lu') (B := Lw) (C := T2) (p := p) (q := q) (a := a) (b := b) (c := c)
    (d := d) (BU := BU) (BV := BV) ⟨_, _, _, _, cLu'⟩ ⟨_, _, _, _, cLw⟩ ⟨_, _, _, _, cT2⟩ (by
      intro S hS'
      simp only [List.mem_cons, List.not_mem_nil, or_false] at hS'
      rcases hS' with rfl | rfl | rfl
      · exact ⟨dLu1, dLu2, by rw [sLu.u0, bu0], by rw [sLu.u1, bu1], by rw [sLu.v0, bv0], by rw [sLu.v1, bv1],
          fun x hx => List.mem_append_left _ (mLu1 x hx), fun x hx => List.mem_append_right _ (mLu2 x hx)⟩
      · exact ⟨dLw1.trans dLv2, dLw2.trans dLv1, by rw [zu0, sLv.v0, wv0], by rw [zu1, sLv.v1, wv1], by rw [zv0, sLv.u0, wu0],
          by rw [zv1, sLv.u1, wu1], fun x hx => List.mem_append_right _ (mLv2 x (by rw [← kLw1]; exact hx)),
          fun x hx => List.mem_append_left _ (mLv1 x (by rw [← kLw2]; exact hx))⟩
      · refine ⟨by rw [dT21, dT11, dT1]; omega, by rw [dT22, dT12, dT2]; omega, by rw [sT.u0, tu0], by rw [sT.u1, tu1], by rw [sT.v0, tv0],
          by rw [sT.v1, tv1], ?_, ?_⟩
        · intro x hx
          apply List.mem_append_right
          rw [kT2', cT1.kU.mem_iff, ← cT.kU.mem_iff, kT1] at hx
          exact hx
        · intro x hx
          apply List.mem_append_right
          rw [cT2.kV.mem_iff, ← cT1.kV.mem_iff, kT1', kT2] at hx
          exact hx) hp12 hq12 hsepU hsepV hmem
  have hle : u.Pairwise (· ≤ ·) := h.su.imp le_of_lt
  have hle' : v.Pairwise (· ≤ ·) := h.sv.imp le_of_lt
  have inU : ∀ j, j < u.length → a ≤ kf u j ∧ kf u j ≤ b := fun j hj => by
    rw [← kf0, ← kf1]; exact ⟨kf_mono hle (by omega), kf_mono hle (by omega)⟩
  have inV : ∀ j, j < v.length → c ≤ kf v j ∧ kf v j ≤ d := fun j hj => by
    rw [← kg0, ← kg1]; exact ⟨kf_mono hle' (by omega), kf_mono hle' (by omega)⟩
  have nT1 : T.nPU = u.length := by
    have := (averaged_coll (p := min p (u.length - 1)) (by omega) (by omega) h.su eku).1.len
    show T.knotsU.length - (T.degU + 1) = _
    rw [kT1, dT1]; omega
  have nT2 : T.nPV = v.length := by
    have := (averaged_coll (p := min q (v.length - 1)) (by omega) (by omega) h.sv ekv).1.len
    show T.knotsV.length - (T.degV + 1) = _
    rw [kT2, dT2]; omega
  refine ⟨s, ?_, hwf, d1, d2, b1, b2, b3, b4, ?_, ?_⟩
  · -- the run
    obtain ⟨p', ep, hp1', hp2'⟩ := maxDegree_spec us (by rintro rfl; simp at hnu)
    obtain ⟨q', eq, hq1', hq2'⟩ := maxDegree_spec vs (by rintro rfl; simp at hnv)
    obtain rfl : p' = p := by
      obtain ⟨x, hx, ex⟩ := hp.2
      obtain ⟨y, hy, ey⟩ := hp2'
      apply le_antisymm
      · rw [← ey]; exact hp.1 y hy
      · rw [← ex]; exact hp1' x hx
    obtain rfl : q' = q := by
      obtain ⟨x, hx, ex⟩ := hq.2
      obtain ⟨y, hy, ey⟩ := hq2'
      apply le_antisymm
      · rw [← ey]; exact hq.1 y hy
      · rw [← ex]; exact hq1' x hx
    have hus : 0 < us.length := by omega
    have hvs : 0 < vs.length := by omega
    have eI : buildIntersections eps junk par ext dist tol us vs = .ok (u, v, Q) := by
      unfold buildIntersections
      rw [rd_ok hvs, R_bind_ok, touchParams_spec hlv (fun i x t h1 h2 => hev i _ x t (List.getElem?_eq_getElem hvs) h1 h2), R_bind_ok, rd_ok hus, R_bind_ok,
        touchParams_spec hlu (fun i x t h1 h2 => heu i _ x t (List.getElem?_eq_getElem hus) h1 h2), R_bind_ok, eQ, R_bind_ok]
      rfl
    unfold gordon
    rw [ep, R_bind_ok, eq, R_bind_ok, eI, R_bind_ok]
    dsimp only
    rw [usub_ok (by omega), R_bind_ok, usub_ok (by omega), R_bind_ok, eLu, R_bind_ok, eLu', R_bind_ok, eLv, R_bind_ok, eLv', R_bind_ok, eLw, R_bind_ok,
      eku, R_bind_ok, ekv, R_bind_ok, eP, R_bind_ok, eT, R_bind_ok, eT1, R_bind_ok, eT2, R_bind_ok]
    exact es
  · intro i x t hx ht y y0 y1 junk1 junk2 du
    have hi := (List.getElem?_eq_some_iff.mp hx).1
    obtain ⟨hiv, rfl⟩ := kf_of_some ht
    obtain ⟨iv0, iv1⟩ := inV i hiv
    -- `Lv` and `T` have the same iso-curve
    obtain ⟨c1, e1, e2, e3, e4, e5, e6⟩ := cLv.cl.isoU heps (u := kf v i) (by rw [wu0]; exact iv0) (by rw [wu1]; exact iv1)
    obtain ⟨c2, f1, f2, f3, f4, f5, f6⟩ := cT.cl.isoV heps (v := kf v i) (by rw [tv0]; exact iv0) (by rw [tv1]; exact iv1)
    have nLv : Lv.nPV = u.length := by
      have := (averaged_coll (p := min p (u.length - 1)) (by omega) (by omega) h.su eku).1.len
      show Lv.knotsV.length - (Lv.degV + 1) = _
      rw [kLv, dLv]; omega
    have hsame := iso_same heps (p := min p (u.length - 1)) (by omega) (by omega) h.su eku (by omega)
      (f := fun junk x d => Lv.value eps junk (kf v i) x 0 d) (g := fun junk x d => T.value eps junk x (kf v i) d 0) (c := c1) (c' := c2)
      (e1.trans dLv) (f1.trans dT1) (e2.trans kLv) (f2.trans kT1) (e5.trans nLv) (f5.trans nT1) (by rw [e3, wv0, kf0]) (by rw [e4, wv1, kf1])
      (by rw [f3, tu0, kf0]) (by rw [f4, tu1, kf1])
      (fun x g0 g1 junk junk' d => e6 x (by rw [wv0, ← kf0]; exact g0) (by rw [wv1, ← kf1]; exact g1) junk junk' d)
      (fun x g0 g1 junk junk' d => f6 x (by rw [tu0, ← kf0]; exact g0) (by rw [tu1, ← kf1]; exact g1) junk junk' d)
      (by
        intro j hj junk junk'
        have hjv : j < vs.length := by omega
        obtain ⟨pt, g1, g2⟩ := hQ i j x _ _ _ hx (List.getElem?_eq_getElem hjv) (kf_getElem? hj) (kf_getElem? hiv)
        obtain ⟨pt', g3, g4⟩ := vLv j _ _ (List.getElem?_eq_getElem hjv) (kf_getElem? hj) (kf v i) iv0 iv1 0 junk 0
        rw [(g2 0).2] at g3
        obtain rfl := Except.ok.inj g3
        exact ⟨pt, g4, vT j i pt hj hiv (by rw [hlu]; exact g1) junk'⟩)
    obtain ⟨pt, g1, g2⟩ := vLu i x _ hx ht y y0 y1 junk1 0 du
    refine ⟨pt, g1, ?_⟩
    obtain ⟨PA, PB, PC, w1, w2, w3, w4⟩ := hval y (kf v i) y0 y1 iv0 iv1 0 0 0 junk2 du 0
    obtain ⟨q1, r1, r2⟩ := sLu.value y (kf v i) (by rw [bu0]; exact y0) (by rw [bu1]; exact y1) (by rw [bv0]; exact iv0) (by rw [bv1]; exact iv1) 0 0 du 0
    obtain ⟨q2, r3, r4⟩ := sLv.value (kf v i) y (by rw [wu0]; exact iv0) (by rw [wu1]; exact iv1) (by rw [wv0]; exact y0) (by rw [wv1]; exact y1) 0 0 0 du
    obtain ⟨q3, r5, r6⟩ := vLw (kf v i) y (by rw [sLv.u0, wu0]; exact iv0) (by rw [sLv.u1, wu1]; exact iv1) (by rw [sLv.v0, wv0]; exact y0)
      (by rw [sLv.v1, wv1]; exact y1) 0 0 0 du
    obtain ⟨q4, r7, r8⟩ := sT.value y (kf v i) (by rw [tu0]; exact y0) (by rw [tu1]; exact y1) (by rw [tv0]; exact iv0) (by rw [tv1]; exact iv1) 0 0 du 0
    obtain ⟨q5, r9, r10⟩ := hsame y (by rw [kf0]; exact y0) (by rw [kf1]; exact y1) 0 0 du
    rw [g2] at r1; rw [r2] at w1
    rw [r9] at r3; rw [r4] at r5; rw [r6] at w2
    rw [r10] at r7; rw [r8] at w3
    rw [w4, ← Except.ok.inj w1, ← Except.ok.inj w2, ← Except.ok.inj w3, ← Except.ok.inj r1, ← Except.ok.inj r5, ← Except.ok.inj r3, ← Except.ok.inj r7,
      add_sub_cancel_right]
  · intro j x t hx ht y y0 y1 junk1 junk2 dv
    have hj := (List.getElem?_eq_some_iff.mp hx).1
    obtain ⟨hju, rfl⟩ := kf_of_some ht
    obtain ⟨iu0, iu1⟩ := inU j hju
    -- `Lu` and `T` have the same iso-curve
    obtain ⟨c1, e1, e2, e3, e4, e5, e6⟩ := cLu.cl.isoU heps (u := kf u j) (by rw [bu0]; exact iu0) (by rw [bu1]; exact iu1)
    obtain ⟨c2, f1, f2, f3, f4, f5, f6⟩ := cT.cl.isoU heps (u := kf u j) (by rw [tu0]; exact iu0) (by rw [tu1]; exact iu1)
    have nLu : Lu.nPV = v.length := by
      have := (averaged_coll (p := min q (v.length - 1)) (by omega) (by omega) h.sv ekv).1.len
      show Lu.knotsV.length - (Lu.degV + 1) = _
      rw [kLu, dLu]; omega
    have hsame := iso_same heps (p := min q (v.length - 1)) (by omega) (by omega) h.sv ekv (by omega)
      (f := fun junk x d => Lu.value eps junk (kf u j) x 0 d) (g := fun junk x d => T.value eps junk (kf u j) x 0 d) (c := c1) (c' := c2)
      (e1.trans dLu) (f1.trans dT2) (e2.trans kLu) (f2.trans kT2) (e5.trans nLu) (f5.trans nT2) (by rw [e3, bv0, kg0]) (by rw [e4, bv1, kg1])
      (by rw [f3, tv0, kg0]) (by rw [f4, tv1, kg1])
      (fun x g0 g1 junk junk' d => e6 x (by rw [bv0, ← kg0]; exact g0) (by rw [bv1, ← kg1]; exact g1) junk junk' d)
      (fun x g0 g1 junk junk' d => f6 x (by rw [tv0, ← kg0]; exact g0) (by rw [tv1, ← kg1]; exact g1) junk junk' d)
      (by
        intro i hi junk junk'
        have hiu : i < us.length := by omega
        obtain ⟨pt, g1, g2⟩ := hQ i j _ x _ _ (List.getElem?_eq_getElem hiu) hx (kf_getElem? hju) (kf_getElem? hi)
        obtain ⟨pt', g3, g4⟩ := vLu i _ _ (List.getElem?_eq_getElem hiu) (kf_getElem? hi) (kf u j) iu0 iu1 0 junk 0
        rw [(g2 0).1] at g3
        obtain rfl := Except.ok.inj g3
        exact ⟨pt, g4, vT j i pt hju hi (by rw [hlu]; exact g1) junk'⟩)
    obtain ⟨pt, g1, g2⟩ := vLv j x _ hx ht y y0 y1 junk1 0 dv
    refine ⟨pt, g1, ?_⟩
    obtain ⟨PA, PB, PC, w1, w2, w3, w4⟩ := hval (kf u j) y iu0 iu1 y0 y1 0 0 0 junk2 0 dv
    obtain ⟨q1, r1, r2⟩ := sLu.value (kf u j) y (by rw [bu0]; exact iu0) (by rw [bu1]; exact iu1) (by rw [bv0]; exact y0) (by rw [bv1]; exact y1) 0 0 0 dv
    obtain ⟨q2, r3, r4⟩ := sLv.value y (kf u j) (by rw [wu0]; exact y0) (by rw [wu1]; exact y1) (by rw [wv0]; exact iu0) (by rw [wv1]; exact iu1) 0 0 dv 0
    obtain ⟨q3, r5, r6⟩ := vLw y (kf u j) (by rw [sLv.u0, wu0]; exact y0) (by rw [sLv.u1, wu1]; exact y1) (by rw [sLv.v0, wv0]; exact iu0)
      (by rw [sLv.v1, wv1]; exact iu1) 0 0 dv 0
    obtain ⟨q4, r7, r8⟩ := sT.value (kf u j) y (by rw [tu0]; exact iu0) (by rw [tu1]; exact iu1) (by rw [tv0]; exact y0) (by rw [tv1]; exact y1) 0 0 0 dv
    obtain ⟨q5, r9, r10⟩ := hsame y (by rw [kg0]; exact y0) (by rw [kg1]; exact y1) 0 0 dv
    rw [r9] at r1; rw [r2] at w1
    rw [g2] at r3; rw [r4] at r5; rw [r6] at w2
    rw [r10] at r7; rw [r8] at w3
    rw [w4, ← Except.ok.inj w1, ← Except.ok.inj w2, ← Except.ok.inj w3, ← Except.ok.inj r1, ← Except.ok.inj r5, ← Except.ok.inj r3, ← Except.ok.inj r7]
    congr 1
    abel

/-! ## What is refused -/

theorem forN_each {S : Type} {body : ℕ → S → R S} : ∀ (n a : ℕ) {s s' : S}, forN body n a s = .ok s' → ∀ i, a ≤ i → i < a + n → ∃ t t', body i t = .ok t'
  | 0, a, s, s', _, i, h1, h2 => by omega
  | n + 1, a, s, s', h, i, h1, h2 => by
    obtain ⟨t, e, h⟩ := R_bind_eq_ok.mp h
    rcases Nat.lt_or_ge a i with h' | h'
    · exact forN_each n (a + 1) h i h' (by omega)
    · obtain rfl : i = a := by omega
      exact ⟨s, t, e⟩

theorem touchParams_inv {par : Bool} {ext : CurveInfo K V → CurveInfo K V → R (K × K × K)} {tol : K} {crv : CurveInfo K V}
    {cs : List (CurveInfo K V)} {t : List K} (h : touchParams par ext tol crv cs = .ok t) :
    t.length = cs.length ∧ ∀ (i : ℕ) (c : CurveInfo K V), cs[i]? = some c → ∃ x w e, t[i]? = some x ∧ ext crv c = .ok (x, w, e) ∧ e ≤ tol := by
  have hm : cs.mapM (touchParam ext tol crv) = .ok t := by
    unfold touchParams at h
    split at h
    · rename_i u e; rw [e]; exact h
    · split at h <;> cases h
    · cases h
  clear h
  induction cs generalizing t with
  | nil =>
    obtain rfl := Except.ok.inj hm
    exact ⟨rfl, fun i c h => by simp at h⟩
  | cons c cs ih =>
    rw [List.mapM_cons] at hm
    obtain ⟨x, h1, hm⟩ := R_bind_eq_ok.mp hm
    obtain ⟨t', h2, hm⟩ := R_bind_eq_ok.mp hm
    obtain rfl := Except.ok.inj hm
    obtain ⟨hl, hi⟩ := ih h2
    refine ⟨by simp [hl], ?_⟩
    intro i c' hc
    cases i with
    | zero =>
      obtain rfl := Option.some.inj hc
      unfold touchParam at h1
      obtain ⟨r, e, h1⟩ := R_bind_eq_ok.mp h1
      split at h1
      · cases h1
      · rename_i hlt
        obtain rfl := Except.ok.inj h1
        exact ⟨_, _, _, rfl, e, not_lt.mp hlt⟩
    | succ i => exact hi i c' hc

/-- C86, soundness of the checks, without any assumption on the curves or on the minimisation: when a surface is returned, each curve was found to touch
the first curve of the other family within the tolerance, and the point of each curve at the parameter of each curve of the other family is
within the tolerance of the corresponding point of that curve. -/
theorem C86_gordon_checked {eps junk : K} {par : Bool} {dense : ℕ → (ℕ → ℕ → K) → List V → R (List V)}
    {us vs : List (CurveInfo K V)} {ext : CurveInfo K V → CurveInfo K V → R (K × K × K)} {dist : V → V → K} {tol : K} {s : Surface K V}
    (h : gordon eps junk par ext dist dense tol us vs = .ok s) :
    ∃ (x0 y0 : CurveInfo K V) (u v : List K), us[0]? = some x0 ∧ vs[0]? = some y0 ∧ u.length = vs.length ∧ v.length = us.length ∧
      (∀ (i : ℕ) (x : CurveInfo K V), us[i]? = some x → ∃ t w e, v[i]? = some t ∧ ext y0 x = .ok (t, w, e) ∧ e ≤ tol) ∧
      (∀ (j : ℕ) (y : CurveInfo K V), vs[j]? = some y → ∃ t w e, u[j]? = some t ∧ ext x0 y = .ok (t, w, e) ∧ e ≤ tol) ∧
      ∀ (i j : ℕ) (x y : CurveInfo K V) (r t : K), us[i]? = some x → vs[j]? = some y → u[j]? = some r → v[i]? = some t →
        ∃ m n, x.toCurve.value eps junk r 0 = .ok m ∧ y.toCurve.value eps junk t 0 = .ok n ∧ dist m n ≤ tol := by
  unfold gordon at h
  obtain ⟨p, -, h⟩ := R_bind_eq_ok.mp h
  obtain ⟨q, -, h⟩ := R_bind_eq_ok.mp h
  obtain ⟨⟨u, v, Q⟩, hI, -⟩ := R_bind_eq_ok.mp h
  unfold buildIntersections at hI
  obtain ⟨y0, hy0, hI⟩ := R_bind_eq_ok.mp hI
  obtain ⟨v', hv, hI⟩ := R_bind_eq_ok.mp hI
  obtain ⟨x0, hx0, hI⟩ := R_bind_eq_ok.mp hI
  obtain ⟨u', hu, hI⟩ := R_bind_eq_ok.mp hI
  obtain ⟨Q', hQ, hI⟩ := R_bind_eq_ok.mp hI
  obtain ⟨rfl, rfl, rfl⟩ : u' = u ∧ v' = v ∧ Q' = Q := by
    have := Except.ok.inj hI
    simpa using this
  obtain ⟨lv, hv⟩ := touchParams_inv hv
  obtain ⟨lu, hu⟩ := touchParams_inv hu
  refine ⟨x0, y0, u', v', rd_eq_ok.mp hx0, rd_eq_ok.mp hy0, lu, lv, hv, hu, ?_⟩
  intro i j x y r t hx hy hr ht
  have hi := (List.getElem?_eq_some_iff.mp hx).1
  have hj := (List.getElem?_eq_some_iff.mp hy).1
  unfold networkPoints forLt at hQ
  obtain ⟨t1, t2, hb⟩ := forN_each _ _ hQ i (by omega) (by omega)
  obtain ⟨cu, hcu, hb⟩ := R_bind_eq_ok.mp hb
  rw [rd_eq_ok, hx] at hcu
  obtain rfl := Option.some.inj hcu
  obtain ⟨t3, t4, hb⟩ := forN_each _ _ hb j (by omega) (by omega)
  obtain ⟨cv, hcv, hb⟩ := R_bind_eq_ok.mp hb
  rw [rd_eq_ok, hy] at hcv
  obtain rfl := Option.some.inj hcv
  obtain ⟨a, ha, hb⟩ := R_bind_eq_ok.mp hb
  rw [rd_eq_ok, hr] at ha
  obtain rfl := Option.some.inj ha
  obtain ⟨m, hm, hb⟩ := R_bind_eq_ok.mp hb
  obtain ⟨b, hb', hb⟩ := R_bind_eq_ok.mp hb
  rw [rd_eq_ok, ht] at hb'
  obtain rfl := Option.some.inj hb'
  obtain ⟨n, hn, hb⟩ := R_bind_eq_ok.mp hb
  split at hb
  · cases hb
  · rename_i hd
    have key : ∀ {c : CurveInfo K V} {z : K} {w : V}, infoValue eps junk c z = .ok w → c.toCurve.value eps junk z 0 = .ok w := by
      intro c z w hw
      have hne : c.knots ≠ [] := by
        intro h0
        unfold infoValue frontBack at hw
        rw [h0] at hw
        cases hw
      rw [← infoValue_eq hne]; exact hw
    exact ⟨m, n, key hm, key hn, not_lt.mp hd⟩

/-- C86, `build_intersections` when the minimisation answers for each curve and one of them does not touch: the documented exception when the
algorithms of the standard library are sequential. When they are parallel the exception leaves the algorithm and ends the program. -/
theorem C86_not_touching {ext : CurveInfo K V → CurveInfo K V → R (K × K × K)} {tol : K} {crv : CurveInfo K V} {cs : List (CurveInfo K V)}
    (hext : ∀ c ∈ cs, ∃ r, ext crv c = .ok r) (hbad : ∃ c ∈ cs, ∃ x w e, ext crv c = .ok (x, w, e) ∧ tol < e) :
    touchParams false ext tol crv cs = .error (.thrown .invalid) ∧ touchParams true ext tol crv cs = .error .terminated := by
  have hm : cs.mapM (touchParam ext tol crv) = .error (.thrown .invalid) := by
    induction cs with
    | nil => obtain ⟨c, hc, -⟩ := hbad; simp at hc
    | cons c cs ih =>
      obtain ⟨r, hr⟩ := hext c List.mem_cons_self
      rw [List.mapM_cons]
      by_cases hlt : tol < r.2.2
      · have : touchParam ext tol crv c = .error (.thrown .invalid) := by
          unfold touchParam
          rw [hr, R_bind_ok, if_pos hlt]
        rw [this]
        rfl
      · have : touchParam ext tol crv c = .ok r.1 := by
          unfold touchParam
          rw [hr, R_bind_ok, if_neg hlt]
          rfl
        rw [this, R_bind_ok, ih (fun c hc => hext c (List.mem_cons_of_mem _ hc)) (by
          obtain ⟨c', hc', x, w, e, h1, h2⟩ := hbad
          rcases List.mem_cons.mp hc' with rfl | hc'
          · rw [hr] at h1
            obtain rfl := Except.ok.inj h1
            exact absurd h2 hlt
          · exact ⟨c', hc', x, w, e, h1, h2⟩)]
        rfl
  unfold touchParams
  rw [hm]
  exact ⟨rfl, rfl⟩

/-! ## Curves that go beyond the network -/

namespace Sample

/-- A solver of regular systems of two equations (Cramer). -/
def cramer2 (n : ℕ) (M : ℕ → ℕ → ℚ) (B : List (ℚ × ℚ × ℚ)) : R (List (ℚ × ℚ × ℚ)) :=
  match n, B with
  | 2, [x, y] =>
    let D := M 0 0 * M 1 1 - M 0 1 * M 1 0
    .ok [(1 / D) • (M 1 1 • x - M 0 1 • y), (1 / D) • (M 0 0 • y - M 1 0 • x)]
  | _, _ => .error .oob

/-- Lines `y = 0` and `y = 1` for `x` from 0 to 3. -/
def overU : List (CurveInfo ℚ (ℚ × ℚ × ℚ)) := [⟨[(0, 0, 0), (3, 0, 0)], [0, 0, 3, 3], 1⟩, ⟨[(0, 1, 0), (3, 1, 0)], [0, 0, 3, 3], 1⟩]

/-- A parabola in the plane `x = 1`, a segment in the plane `x = 2`. -/
def overV : List (CurveInfo ℚ (ℚ × ℚ × ℚ)) :=
  [⟨[(1, 0, 0), (1, 1/2, 1), (1, 1, 0)], [0, 0, 0, 1, 1, 1], 2⟩, ⟨[(2, 0, 0), (2, 1, 0)], [0, 0, 1, 1], 1⟩]

/-- The places where they meet. -/
def overExt (c x : CurveInfo ℚ (ℚ × ℚ × ℚ)) : R (ℚ × ℚ × ℚ) :=
  if overV[0]? = some c then (if overU[0]? = some x then .ok (0, 1, 0) else .ok (1, 1, 0))
  else (if overV[0]? = some x then .ok (1, 0, 0) else .ok (2, 0, 0))

def taxi (x y : ℚ × ℚ × ℚ) : ℚ := |x.1 - y.1| + |x.2.1 - y.2.1| + |x.2.2 - y.2.2|

end Sample

/-- C86, disagreement: two lines and two curves that meet exactly, but inside the lines. The surface is returned without any exception; the lofts and the
interpolation have been stretched to the whole lines, and the first curve of the second family is not on the surface where it crosses the
lines: at `(1, 1/2)` the height is `1/3`, not `1/2`. -/
theorem C86_gordon_overhang_witness :
    ∃ s, gordon (1/1000) 0 false Sample.overExt Sample.taxi Sample.cramer2 (1/1000) Sample.overU Sample.overV = .ok s ∧
      s.value (1/1000) 0 1 (1/2) 0 0 = .ok (1, 1/2, 1/3) ∧
      Sample.overV[0]?.map (fun c => c.toCurve.value (1/1000) 0 (1/2) 0) = some (.ok (1, 1/2, 1/2)) := by
  have h : (match gordon (1/1000) 0 false Sample.overExt Sample.taxi Sample.cramer2 (1/1000) Sample.overU Sample.overV with
    | .ok s => decide (s.value (1/1000) 0 1 (1/2) 0 0 = .ok (1, 1/2, 1/3))
    | .error _ => false) = true := by decide +kernel
  split at h
  · rename_i s e
    exact ⟨s, e, of_decide_eq_true h, by decide +kernel⟩
  · cases h

/-! ## Instances of the hypotheses -/

theorem CurveInfo.value_junk {eps : K} (heps : 0 < eps) {c : CurveInfo K V} {ks : List K} {ms : List ℕ} (h : c.toCurve.ClampedBy eps ks ms)
    (hd : c.deg ≤ stackMaxDegree) {u : K} (h0 : kf c.knots 0 ≤ u) (h1 : u ≤ kLast c.knots) (d : ℕ) (junk junk' : K) :
    c.toCurve.value eps junk u d = c.toCurve.value eps junk' u d := by
  obtain ⟨i, -, -, -, -, ev⟩ := Curve.value_span heps h.good (Or.inl hd) (u := u) h0 h1
  rw [ev, ev]

namespace Sample

/-- Three lines, the middle one higher at one end. -/
def netU : List (CurveInfo ℚ (ℚ × ℚ × ℚ)) :=
  [⟨[(0, 0, 0), (1, 0, 0)], [0, 0, 1, 1], 1⟩, ⟨[(0, 1/2, 1/2), (1, 1/2, 0)], [0, 0, 1, 1], 1⟩, ⟨[(0, 1, 0), (1, 1, 0)], [0, 0, 1, 1], 1⟩]

/-- A parabola and a broken line that meet the three lines. -/
def netV : List (CurveInfo ℚ (ℚ × ℚ × ℚ)) :=
  [⟨[(0, 0, 0), (0, 1/2, 1), (0, 1, 0)], [0, 0, 0, 1, 1, 1], 2⟩,
    ⟨[(1, 0, 0), (1, 1/4, 3), (1, 1/2, 0), (1, 1, 0)], [0, 0, 1/4, 1/2, 1, 1], 1⟩]

theorem netU_by : ∀ x ∈ netU, ∃ ks ms, x.toCurve.ClampedBy (1/10) ks ms := by
  intro x hx
  simp only [netU, List.mem_cons, List.not_mem_nil, or_false] at hx
  rcases hx with rfl | rfl | rfl <;>
  exact ⟨[0, 1], [2, 2], ⟨by decide, by decide +kernel, by decide +kernel, by decide, by decide,
    by intro i x h1 h2; simp at h2; omega⟩,
    ⟨⟨by decide +kernel, by decide, by decide, by decide +kernel, by decide +kernel⟩, by decide +kernel, by decide +kernel⟩⟩

theorem netV_by : ∀ x ∈ netV, ∃ ks ms, x.toCurve.ClampedBy (1/10) ks ms := by
  intro x hx
  simp only [netV, List.mem_cons, List.not_mem_nil, or_false] at hx
  rcases hx with rfl | rfl
  · exact ⟨[0, 1], [3, 3], ⟨by decide, by decide +kernel, by decide +kernel, by decide, by decide,
      by intro i x h1 h2; simp at h2; omega⟩,
      ⟨⟨by decide +kernel, by decide, by decide, by decide +kernel, by decide +kernel⟩, by decide +kernel, by decide +kernel⟩⟩
  · refine ⟨[0, 1/4, 1/2, 1], [2, 1, 1, 2], ⟨by decide, by decide +kernel, by decide +kernel, by decide, by decide, ?_⟩,
      ⟨⟨by decide +kernel, by decide, by decide, by decide +kernel, by decide +kernel⟩, by decide +kernel, by decide +kernel⟩⟩
    intro i x h1 h2 hx
    have : i = 1 ∨ i = 2 := by simp at h2; omega
    rcases this with rfl | rfl <;> simp at hx <;> subst hx <;> decide

theorem netUV : Spec.Network (1/10) netU netV [0, 1] [0, 1/2, 1] 0 1 0 1 := by
  refine ⟨by decide, by decide, by decide, by decide, netU_by, netV_by, by decide +kernel, by decide +kernel, rfl, rfl, by decide +kernel, by decide +kernel,
    rfl, rfl, rfl, rfl, ?_⟩
  intro i j x y s t h1 h2 h3 h4 junk junk'
  have hx := List.mem_of_getElem? h1
  have hy := List.mem_of_getElem? h2
  have hs := List.mem_of_getElem? h3
  have ht := List.mem_of_getElem? h4
  obtain ⟨ks, ms, bx⟩ := netU_by x hx
  obtain ⟨ks', ms', by'⟩ := netV_by y hy
  have dx : ∀ x ∈ netU, x.deg ≤ stackMaxDegree := by decide
  have dy : ∀ x ∈ netV, x.deg ≤ stackMaxDegree := by decide
  have rx : ∀ x ∈ netU, ∀ s ∈ ([0, 1] : List ℚ), kf x.knots 0 ≤ s ∧ s ≤ kLast x.knots := by decide +kernel
  have ry : ∀ x ∈ netV, ∀ s ∈ ([0, 1/2, 1] : List ℚ), kf x.knots 0 ≤ s ∧ s ≤ kLast x.knots := by decide +kernel
  rw [CurveInfo.value_junk (by norm_num) bx (dx x hx) (rx x hx s hs).1 (rx x hx s hs).2 0 junk 0,
    CurveInfo.value_junk (by norm_num) by' (dy y hy) (ry y hy t ht).1 (ry y hy t ht).2 0 junk' 0]
  have hi : i < 3 := (List.getElem?_eq_some_iff.mp h1).1
  have hj : j < 2 := (List.getElem?_eq_some_iff.mp h2).1
  have hall : ∀ i, i < 3 → ∀ j, j < 2 → ∃ pt ∈ [((0, 0, 0) : ℚ × ℚ × ℚ), (1, 0, 0), (0, 1/2, 1/2), (1, 1/2, 0), (0, 1, 0), (1, 1, 0)],
      ((netU[i]?.bind fun x => ([0, 1] : List ℚ)[j]?.map fun s => decide (x.toCurve.value (1/10) 0 s 0 = .ok pt)) = some true) ∧
      ((netV[j]?.bind fun y => ([0, 1/2, 1] : List ℚ)[i]?.map fun t => decide (y.toCurve.value (1/10) 0 t 0 = .ok pt)) = some true) := by decide +kernel
  obtain ⟨pt, -, e1, e2⟩ := hall i hi j hj
  rw [h1, h3] at e1
  rw [h2, h4] at e2
  exact ⟨pt, of_decide_eq_true (Option.some.inj e1), of_decide_eq_true (Option.some.inj e2)⟩

/-- Where the curves meet. -/
def netExt (c x : CurveInfo ℚ (ℚ × ℚ × ℚ)) : R (ℚ × ℚ × ℚ) :=
  if netV[0]? = some c then
    (if netU[0]? = some x then .ok (0, 0, 0) else if netU[1]? = some x then .ok (1/2, 0, 0) else .ok (1, 0, 0))
  else (if netV[0]? = some x then .ok (0, 0, 0) else .ok (1, 0, 0))

/-- The hypotheses of `C86_gordon_partial` hold for three lines, a parabola and a broken line. -/
example {dense : ℕ → (ℕ → ℕ → ℚ) → List (ℚ × ℚ × ℚ) → R (List (ℚ × ℚ × ℚ))} (hS : Spec.SolvesDense dense) :
    ∃ s, gordon (1/10) 0 true netExt taxi dense (1/10) netU netV = .ok s ∧ s.degU = 1 ∧ s.degV = 2 := by
  obtain ⟨s, e, -, h1, h2, -⟩ := C86_gordon_partial (eps := 1/10) (by norm_num) 0 true hS netUV (ext := netExt) (dist := taxi) (tol := 1/10)
    (by intro x; simp [taxi])
    (by
      intro i y x t h0 h1 h2
      have hi : i < 3 := (List.getElem?_eq_some_iff.mp h1).1
      have hall : ∀ i, i < 3 → (netV[0]?.bind fun y => netU[i]?.bind fun x => ([0, 1/2, 1] : List ℚ)[i]?.map fun t =>
        decide (netExt y x = .ok (t, 0, 0))) = some true := by decide +kernel
      have := hall i hi
      rw [h0, h1, h2] at this
      exact ⟨0, 0, of_decide_eq_true (Option.some.inj this), by norm_num⟩)
    (by
      intro i y x t h0 h1 h2
      have hi : i < 2 := (List.getElem?_eq_some_iff.mp h1).1
      have hall : ∀ i, i < 2 → (netU[0]?.bind fun y => netV[i]?.bind fun x => ([0, 1] : List ℚ)[i]?.map fun t =>
        decide (netExt y x = .ok (t, 0, 0))) = some true := by decide +kernel
      have := hall i hi
      rw [h0, h1, h2] at this
      exact ⟨0, 0, of_decide_eq_true (Option.some.inj this), by norm_num⟩)
    (p := 1) (q := 2) (by decide) (by decide) (ku := [0, 0, 1, 1]) (kv := [0, 0, 0, 1, 1, 1]) (by decide +kernel) (by decide +kernel)
    (by unfold SepL; decide +kernel) (by unfold SepL; decide +kernel) (by decide +kernel)
  exact ⟨s, e, h1, h2⟩

/-- The hypotheses of `C86_not_touching`. -/
example : touchParams true (fun _ c => .ok (0, 0, (c.deg : ℚ))) 1 (⟨[], [], 0⟩ : CurveInfo ℚ ℚ) [⟨[], [], 1⟩, ⟨[], [], 2⟩] = .error .terminated :=
  (C86_not_touching (fun _ _ => ⟨_, rfl⟩) ⟨⟨[], [], 2⟩, by simp, 0, 0, 2, by simp, by norm_num⟩).2

/-- The hypothesis of `C86_gordon_checked` holds for the curves of the witness. -/
example : ∃ s, gordon (1/1000) 0 false overExt taxi cramer2 (1/1000) overU overV = .ok s := by
  obtain ⟨s, e, -⟩ := C86_gordon_overhang_witness
  exact ⟨s, e⟩

end Sample

end Gbs
