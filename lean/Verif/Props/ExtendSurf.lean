import Verif.Lemmas.ExtendSurf
import Verif.Props.SurfJoin
import Verif.Props.Loft

/-!
# C88: extension of a surface to a curve (`gbs/bsstools.h`)
-/

namespace Gbs

set_option linter.unusedSectionVars false

open scoped BigOperators

variable {K : Type} [Field K] [LinearOrder K] [IsStrictOrderedRing K]
variable {V : Type} [AddCommGroup V] [Module K V]

/-- The degree and the knots of an extension depend neither on the curve nor on the point. -/
theorem extentionWith_shape {eps : K} (heps : 0 < eps) {p : ℕ} (hp : 1 ≤ p) {u unew : K} (natural : Bool) (mc : Option ℕ) (hgap : eps * p < unew - u) :
    ∃ q k n, 1 ≤ q ∧ q ≤ p ∧ n ≤ p + 2 ∧ KWf q k n ∧ (∀ j, j ≤ q → kf k j = u) ∧ (∀ j, n ≤ j → kf k j = unew) ∧ (∃ ks ms, KnotsBy eps q k ks ms) ∧
      ∀ (junk : K) (ev : ℕ → R V) (x : ℕ → V) (pt : V) (dense : ℕ → (ℕ → ℕ → K) → List V → R (List V)) (e : Curve K V),
        (∀ i, i ≤ min (p - 1) (mc.getD p) → ev i = .ok (x i)) → extentionWith eps junk dense ev p pt u unew natural mc = .ok e → e.deg = q ∧ e.knots = k := by
  have hpK : (1 : K) ≤ p := by exact_mod_cast hp
  have hlt : u < unew := by nlinarith
  set m := min (p - 1) (mc.getD p) with hm
  set s := if 2 < p ∧ natural = true then 1 else 0 with hs
  have hs' : s = 0 ∨ s = 1 ∧ 2 < p := by
    rw [hs]; split
    · exact Or.inr ⟨rfl, by tauto⟩
    · exact Or.inl rfl
  set q := min p (m + s + 1) with hq
  obtain ⟨k, ek, hU, hk0, hk1, hkb, -⟩ := ext_knots heps (u := u) (unew := unew) (m := m) (s := s) (q := q) hp (by omega) hs' hq hgap
  refine ⟨q, k, m + s + 2, by omega, by omega, by omega, hU, hk0, hk1, hkb, ?_⟩
  intro junk ev x pt dense e hx he
  unfold extentionWith at he
  obtain ⟨x0, -, he⟩ := R_bind_eq_ok.mp he
  rw [extConstraints_ok (u := u) (unew := unew) hp natural mc hx, R_bind_ok, ← hm] at he
  set cs := ((List.range m).map fun i => (⟨u, i + 1, x (i + 1)⟩ : Constr K V)) ++ (if 2 < p ∧ natural = true then [⟨unew, 2, 0⟩] else []) with hcs
  have hmap : cs.map Constr.u = List.replicate m u ++ List.replicate s unew := by
    rw [hcs, List.map_append, List.map_map, hs]
    congr 1
    · apply List.ext_getElem (by simp)
      intro i h1 h2
      simp
    · split <;> rfl
  have hl : cs.length = m + s := by
    have := congrArg List.length hmap
    simpa using this
  rw [hl, ← hq] at he
  unfold interpolateBounds at he
  split at he
  · cases he
  · simp only at he
    rw [ext_params hlt m s (L := cs.map Constr.u) (by rw [hmap]), ek, R_bind_ok] at he
    obtain ⟨N, -, he⟩ := R_bind_eq_ok.mp he
    obtain ⟨Q, -, he⟩ := R_bind_eq_ok.mp he
    obtain ⟨f1, -, f2⟩ := Curve.mk?_fields he
    exact ⟨f1, f2⟩

/-- The parameters along V at which the distance to the curve is measured. -/
def Spec.extSample (v0 v1 : K) (i : ℕ) : K := v0 + (v1 - v0) * i / 99

/-- The mean of the distances divided by the speeds. -/
def Spec.extStep (nrm : V → K) (T A B : K → V) (v0 v1 : K) : K :=
  ∑ i ∈ Finset.range 100, nrm (A (Spec.extSample v0 v1 i) - B (Spec.extSample v0 v1 i)) / nrm (T (Spec.extSample v0 v1 i)) / 100

theorem extSample_in {v0 v1 : K} (h : v0 ≤ v1) {i : ℕ} (hi : i < 100) : v0 ≤ Spec.extSample v0 v1 i ∧ Spec.extSample v0 v1 i ≤ v1 := by
  have h0 : (0 : K) ≤ i := Nat.cast_nonneg i
  have h1 : (i : K) ≤ 99 := by exact_mod_cast (by omega : i ≤ 99)
  unfold Spec.extSample
  constructor
  · have : 0 ≤ (v1 - v0) * i / 99 := by
      have := sub_nonneg.mpr h
      positivity
    linarith
  · have : (v1 - v0) * i / 99 ≤ v1 - v0 := by
      rw [div_le_iff₀ (by norm_num)]
      exact mul_le_mul_of_nonneg_left h1 (sub_nonneg.mpr h)
    linarith

theorem extMeanStep_spec {nrm : V → K} {sv : ℕ → K → R V} {cv : K → R V} {v0 v1 : K} (hv : v0 ≤ v1) {T A B : K → V}
    (hT : ∀ v, v0 ≤ v → v ≤ v1 → sv 1 v = .ok (T v) ∧ nrm (T v) ≠ 0) (hA : ∀ v, v0 ≤ v → v ≤ v1 → sv 0 v = .ok (A v))
    (hB : ∀ v, v0 ≤ v → v ≤ v1 → cv v = .ok (B v)) : extMeanStep nrm sv cv v0 v1 = .ok (Spec.extStep nrm T A B v0 v1) := by
  obtain ⟨d, e, h⟩ := forLt_inv (a := 0) (b := 100) (s := (0 : K))
    (body := fun i du => do
      let v := v0 + (v1 - v0) * i / (100 - 1)
      let t ← sv 1 v
      let a ← sv 0 v
      let b ← cv v
      let q ← fdiv (nrm (a - b)) (nrm t)
      pure (du + q / 100))
    (fun k d => d = ∑ i ∈ Finset.range k, nrm (A (Spec.extSample v0 v1 i) - B (Spec.extSample v0 v1 i)) / nrm (T (Spec.extSample v0 v1 i)) / 100)
    (by omega) (by simp)
    (by
      rintro i d - hi rfl
      obtain ⟨h1, h2⟩ := extSample_in hv hi
      have e9 : v0 + (v1 - v0) * (i : K) / (100 - 1) = Spec.extSample v0 v1 i := by unfold Spec.extSample; norm_num
      refine ⟨_, ?_, (Finset.sum_range_succ _ _).symm⟩
      simp only [e9]
      rw [(hT _ h1 h2).1, R_bind_ok, hA _ h1 h2, R_bind_ok, hB _ h1 h2, R_bind_ok, fdiv_ok (hT _ h1 h2).2, R_bind_ok]
      rfl)
  unfold extMeanStep
  rw [e, h]
  rfl

/-- C88: the extension of a clamped surface to a curve with the knots and the degree of the surface along V. `T` is the derivative along U on the end
border, `A` the border, `B` the curve. The extension starts on the border of the surface, with the same derivatives along U up to the asked
continuity, below the degree, and all those along V; it ends on the curve; with a natural end its second derivative is null there. -/
theorem C88_extention_partial {eps : K} (heps : 0 < eps) (junk : K) {s : Surface K V} (hs : s.Cl) (hp : 1 ≤ s.degU) {c : Curve K V} (hc : c.Good)
    (hcd : c.deg = s.degV) (hck : c.knots = s.knotsV) (hc0 : kf c.knots 0 = c.b0) (hc1 : kLast c.knots = c.b1) (natural : Bool) (mc : Option ℕ)
    {nrm : V → K} {dense : ℕ → (ℕ → ℕ → K) → List V → R (List V)} (hS : Spec.SolvesDense dense) {T A B : K → V}
    (hT : ∀ v, s.v0 ≤ v → v ≤ s.v1 → s.value eps junk s.u1 v 1 0 = .ok (T v) ∧ nrm (T v) ≠ 0)
    (hA : ∀ v, s.v0 ≤ v → v ≤ s.v1 → s.value eps junk s.u1 v 0 0 = .ok (A v)) (hB : ∀ v, s.v0 ≤ v → v ≤ s.v1 → c.value eps junk v 0 = .ok (B v))
    (hgap : eps * s.degU < Spec.extStep nrm T A B s.v0 s.v1) (hmem : (2 * s.degU + 3) * s.knotsV.length < 2 ^ 64) :
    ∃ e, s.extentionToCurve eps junk dense nrm c natural mc = .ok e ∧ e.Cl ∧ (∃ ks ms, KnotsBy eps e.degU e.knotsU ks ms) ∧ e.degU ≤ s.degU ∧ e.degV = s.degV ∧
      e.knotsV = s.knotsV ∧ e.knotsU.length ≤ 2 * s.degU + 3 ∧ e.u0 = s.u1 ∧ e.u1 = s.u1 + Spec.extStep nrm T A B s.v0 s.v1 ∧ e.v0 = s.v0 ∧ e.v1 = s.v1 ∧
      ∀ v, s.v0 ≤ v → v ≤ s.v1 → ∀ (junk' : K) (dv : ℕ),
        (∀ i, i < s.degU → i ≤ mc.getD s.degU → ∃ y, s.value eps junk' s.u1 v i dv = .ok y ∧ e.value eps junk' s.u1 v i dv = .ok y) ∧
        (∃ y, c.value eps junk' v dv = .ok y ∧ e.value eps junk' e.u1 v 0 dv = .ok y) ∧
        (2 < s.degU → natural = true → e.value eps junk' e.u1 v 2 dv = .ok 0) := by
  have hvlt : s.v0 < s.v1 := by
    rw [← hs.v01, ← hs.v10]
    exact lt_of_lt_of_le hs.wf.v.first (kf_mono hs.wf.v.sorted hs.wf.v.min)
  have hult : s.u0 < s.u1 := hs.goodU.lt
  set du := Spec.extStep nrm T A B s.v0 s.v1 with hdu
  have hpK : (1 : K) ≤ s.degU := by exact_mod_cast hp
  have hdu0 : 0 < du := by nlinarith
  have hcl : c.poles.length = s.nPV := by
    have h1 := hc.wf.len
    have h2 := hs.wf.v.len
    rw [hck, hcd] at h1
    omega
  obtain ⟨q, k, n, hq1, hq, hn, hU, hk0, hk1, hkb, hshape⟩ := extentionWith_shape (V := V) heps hp (u := s.u1) (unew := s.u1 + du) natural mc (by linarith)
  have hrow : ∀ j, ∃ ej : Curve K V, j < s.nPV → (s.rowCurve j).toCurve.extentionTo eps junk dense (pf c.poles j) s.u1 (s.u1 + du) natural mc = .ok ej ∧
      (∃ ks ms, ej.ClampedBy eps ks ms) ∧ ej.b0 = s.u1 ∧ ej.b1 = s.u1 + du ∧ ej.deg = q ∧ ej.knots = k ∧
      ∀ junk', (∀ i, i < s.degU → i ≤ mc.getD s.degU → ∃ y, (s.rowCurve j).toCurve.value eps junk' s.u1 i = .ok y ∧ ej.value eps junk' s.u1 i = .ok y) ∧
        ej.value eps junk' (s.u1 + du) 0 = .ok (pf c.poles j) ∧ (2 < s.degU → natural = true → ej.value eps junk' (s.u1 + du) 2 = .ok 0) := by
    intro j
    by_cases hj : j < s.nPV
    · have g0 : (s.rowCurve j).toCurve.b0 ≤ s.u1 := by show kf s.knotsU 0 ≤ s.u1; rw [hs.u00]; exact hult.le
      have g1 : s.u1 ≤ (s.rowCurve j).toCurve.b1 := by show s.u1 ≤ kLast s.knotsU; rw [hs.u11]
      obtain ⟨ej, e1, e2, e3, e4, e5, e6⟩ := C82_extention heps junk (hs.rowGood hj) hp hs.du g0 g1 natural mc (unew := s.u1 + du)
        (by show eps * s.degU < _; linarith) (pf c.poles j) hS
      obtain ⟨_, -, -, -, -, hv⟩ := Curve.value_span heps (hs.rowGood hj) (Or.inl hs.du) g0 g1
      obtain ⟨f1, f2⟩ := hshape junk _ _ _ dense ej (fun i _ => hv junk i) e1
      exact ⟨ej, fun _ => ⟨e1, e2, e4, e5, f1, f2, e6⟩⟩
    · exact ⟨c, fun h => absurd h hj⟩
  choose e he using hrow
  have hlen : ∀ j, j < s.nPV → (e j).poles.length = n := by
    intro j hj
    obtain ⟨-, ⟨ks, ms, hcb⟩, -, -, h1, h2, -⟩ := he j hj
    have a1 := hcb.good.wf.len
    have a2 := hU.len
    rw [h1, h2] at a1
    omega
  obtain ⟨X, eX, lX, hX⟩ := extRows_spec (eps := eps) hs (ext := fun i iso => do
      let pt ← rd c.poles i
      iso.extentionTo eps junk dense pt s.u1 (s.u1 + du) natural mc) (e := e) (n' := n) (p' := q) (k' := k)
    (by
      intro j hj
      beta_reduce
      rw [rd_pf (by omega), R_bind_ok]
      exact (he j hj).1) hlen (fun j hj => (he j hj).2.2.2.2.1) (fun j hj => (he j hj).2.2.2.2.2.1)
  have k0 : kf k 0 = s.u1 := hk0 0 (Nat.zero_le _)
  have kl : kLast k = s.u1 + du := by
    have := hU.len
    unfold kLast
    exact hk1 _ (by omega)
  obtain ⟨es, ees, hcl', d1, d2, kk1, kk2, n1, n2, b1, b2, b3, b4, hr⟩ := rows_surface heps (X := X) hU hs.wf.v lX (by have := hs.du; omega) hs.dv
    (by
      have h1 := hs.wf.v.len
      rw [← h1]
      refine lt_of_le_of_lt (Nat.mul_le_mul_right _ ?_) hmem
      omega) (by rw [k0, hk0 q le_rfl]) (by rw [kl, hk1 n le_rfl]) (by rw [hs.v00, hs.v01]) (by rw [hs.v11, hs.v10]) (e := e) hlen
    (fun j hj => (he j hj).2.2.2.2.1) (fun j hj => (he j hj).2.2.2.2.2.1) (fun j hj => by rw [(he j hj).2.2.1, k0])
    (fun j hj => by rw [(he j hj).2.2.2.1, kl]) hX
  refine ⟨es, ?_, hcl', by rw [d1, kk1]; exact hkb, by omega, d2, kk2, by rw [kk1]; have := hU.len; omega, by rw [b1, k0], by rw [b2, kl], by rw [b3, hs.v00],
    by rw [b4, hs.v11], ?_⟩
  · unfold Surface.extentionToCurve
    rw [frontBack_eq hs.wf.v.ne, R_bind_ok, frontBack_eq hs.wf.u.ne]
    simp only [R_bind_ok, hs.v00, hs.v11, hs.u11]
    rw [extMeanStep_spec hvlt.le hT hA hB, R_bind_ok, ← hdu, eX, R_bind_ok, ees]
  · intro v hv0 hv1 junk' dv
    have ev0 : es.v0 ≤ v := by rw [b3, hs.v00]; exact hv0
    have ev1 : v ≤ es.v1 := by rw [b4, hs.v11]; exact hv1
    refine ⟨?_, ?_, ?_⟩
    · intro i hi hi'
      have hx : ∀ j, ∃ x : V, j < s.nPV → (s.rowCurve j).toCurve.value eps junk' s.u1 i = .ok x ∧ (e j).value eps junk' s.u1 i = .ok x := by
        intro j
        by_cases hj : j < s.nPV
        · obtain ⟨y, y1, y2⟩ := ((he j hj).2.2.2.2.2.2 junk').1 i hi hi'
          exact ⟨y, fun _ => ⟨y1, y2⟩⟩
        · exact ⟨0, fun h => absurd h hj⟩
      choose x hx using hx
      obtain ⟨_, _, -, -, -, -, -, -, -, -, hval⟩ := Surface.value_spec heps hs.wf (hs.big eps) (hs.in hult.le le_rfl hv0 hv1)
      refine ⟨_, hval junk' i dv, ?_⟩
      rw [← hval junk' i dv, hs.value_rows heps hult.le le_rfl (fun j hj => (hx j hj).1) hv0 hv1 junk' junk' dv,
        hcl'.value_rows heps (u := s.u1) (du := i) (x := x) (junk := junk') (by rw [b1, k0]) (by rw [b2, kl]; linarith)
          (fun j hj => by rw [hr j (by rw [← n2]; exact hj)]; exact (hx j (by rw [← n2]; exact hj)).2) ev0 ev1 junk' junk' dv, n2, kk2, d2]
    · have hci : (⟨c.poles, c.knots, c.deg⟩ : CurveInfo K V).toCurve = c := Curve.value_info heps hc hc0 hc1
      obtain ⟨_, -, -, -, -, hval⟩ := Curve.value_span heps hc (Or.inl (by rw [hcd]; exact hs.dv)) (u := v) (by rw [← hc0, hck, hs.v00]; exact hv0)
        (by rw [← hc1, hck, hs.v11]; exact hv1)
      refine ⟨_, hval junk' dv, ?_⟩
      rw [← hval junk' dv, hcl'.value_rows heps (u := es.u1) (du := 0) (x := pf c.poles) (junk := junk') (by rw [b1, b2, k0, kl]; linarith) le_rfl
        (fun j hj => by rw [hr j (by rw [← n2]; exact hj), b2, kl]; exact ((he j (by rw [← n2]; exact hj)).2.2.2.2.2.2 junk').2.1) ev0 ev1 junk' junk' dv]
      congr 1
      conv_rhs => rw [← hci]
      have : (List.range es.nPV).map (pf c.poles) = c.poles := by
        apply pf_ext
        · simp [hcl, n2]
        · intro i hi
          rw [pf_map_range _ (by simpa using hi)]
      rw [this, kk2, d2, hck, hcd]
    · intro h2 hnat
      rw [hcl'.value_rows heps (u := es.u1) (du := 2) (x := fun _ => 0) (junk := junk') (by rw [b1, b2, k0, kl]; linarith) le_rfl
        (fun j hj => by rw [hr j (by rw [← n2]; exact hj), b2, kl]; exact ((he j (by rw [← n2]; exact hj)).2.2.2.2.2.2 junk').2.2 h2 hnat) ev0 ev1 junk' junk' dv]
      have hg0 := hcl'.colGood 0
      have hl0 : ((List.range es.nPV).map fun _ => (0 : V)).length = es.nPV := by simp
      have hg : (⟨(List.range es.nPV).map fun _ => (0 : V), es.knotsV, es.degV⟩ : CurveInfo K V).toCurve.Good := by
        refine ⟨hcl'.wf.v.wf hl0, ?_, ?_⟩
        · show kf es.knotsV 0 = kf es.knotsV es.degV
          rw [hcl'.v00, hcl'.v01]
        · show kLast es.knotsV = kf es.knotsV ((List.range es.nPV).map fun _ => (0 : V)).length
          rw [hl0, hcl'.v11, hcl'.v10]
      obtain ⟨_, -, -, -, -, hval⟩ := Curve.value_span heps hg (Or.inl hcl'.dv) (u := v) (by show kf es.knotsV 0 ≤ v; rw [hcl'.v00]; exact ev0)
        (by show v ≤ kLast es.knotsV; rw [hcl'.v11]; exact ev1)
      rw [hval junk' dv]
      congr 1
      unfold spanDer
      apply Finset.sum_eq_zero
      intro a ha
      show _ • pf ((List.range es.nPV).map fun _ => (0 : V)) a = 0
      rw [pf_map_range _ (by simpa [CurveInfo.toCurve] using ha), smul_zero]

/-- C88: the extended surface is the surface on its domain, with its derivatives along U up to the asked continuity at the junction, the extension after
it, and its end border is the curve. -/
theorem C88_extended_partial {eps : K} (heps : 0 < eps) (junk : K) {s : Surface K V} {ku kv : List K} {mu mv : List ℕ} (hs : s.ClampedBy eps ku mu kv mv) (hp : 1 ≤ s.degU)
    (hp12 : s.degU ≤ 12) {c : Curve K V} (hc : c.Good)
    (hcd : c.deg = s.degV) (hck : c.knots = s.knotsV) (hc0 : kf c.knots 0 = c.b0) (hc1 : kLast c.knots = c.b1) (natural : Bool) (mc : Option ℕ)
    {nrm : V → K} {dense : ℕ → (ℕ → ℕ → K) → List V → R (List V)} (hS : Spec.SolvesDense dense) {T A B : K → V}
    (hT : ∀ v, s.v0 ≤ v → v ≤ s.v1 → s.value eps junk s.u1 v 1 0 = .ok (T v) ∧ nrm (T v) ≠ 0)
    (hA : ∀ v, s.v0 ≤ v → v ≤ s.v1 → s.value eps junk s.u1 v 0 0 = .ok (A v)) (hB : ∀ v, s.v0 ≤ v → v ≤ s.v1 → c.value eps junk v 0 = .ok (B v))
    (hgap : eps * s.degU < Spec.extStep nrm T A B s.v0 s.v1) (hmem : 13 * (s.knotsU.length + (2 * s.degU + 3)) * s.knotsV.length < 2 ^ 64) :
    ∃ J, s.extendedToCurve eps junk dense nrm c natural mc = .ok J ∧ J.Cl ∧ J.degU = s.degU ∧ J.degV = s.degV ∧ J.knotsV = s.knotsV ∧ J.u0 = s.u0 ∧
      J.u1 = s.u1 + Spec.extStep nrm T A B s.v0 s.v1 ∧ J.v0 = s.v0 ∧ J.v1 = s.v1 ∧
      (∃ e, s.extentionToCurve eps junk dense nrm c natural mc = .ok e ∧ ∀ u v, s.u1 ≤ u → u ≤ J.u1 → s.v0 ≤ v → v ≤ s.v1 → ∀ (junk' : K) (i dv : ℕ),
        J.value eps junk' u v i dv = e.value eps junk' u v i dv) ∧
      ∀ v, s.v0 ≤ v → v ≤ s.v1 → ∀ (junk' : K) (dv : ℕ),
        (∀ u i, s.u0 ≤ u → u < s.u1 ∨ u = s.u1 ∧ i < s.degU ∧ i ≤ mc.getD s.degU →
          ∃ y, s.value eps junk' u v i dv = .ok y ∧ J.value eps junk' u v i dv = .ok y) ∧
        (∃ y, c.value eps junk' v dv = .ok y ∧ J.value eps junk' J.u1 v 0 dv = .ok y) ∧
        (2 < s.degU → natural = true → J.value eps junk' J.u1 v 2 dv = .ok 0) := by
  obtain ⟨e, ee, hcl, ⟨kse, mse, hkb⟩, d1, d2, k2, lk, b1, b2, b3, b4, hval⟩ := C88_extention_partial heps junk hs.cl hp hc hcd hck hc0 hc1 natural mc hS hT hA hB hgap
    (lt_of_le_of_lt (Nat.mul_le_mul_right _ (by omega)) hmem)
  have he : e.ClampedBy eps kse mse kv mv := ⟨hcl, hkb, by rw [d2, k2]; exact hs.kV⟩
  obtain ⟨J, eJ, cJ, j1, j2, j3, j4, j5, j6, j7, hA', hB'⟩ := C84_join heps hs he hp12 (by omega) d2 k2
    (lt_of_le_of_lt (Nat.mul_le_mul_right _ (by omega)) hmem) (by
      intro v hv0 hv1
      obtain ⟨y, y1, y2⟩ := (hval v hv0 hv1 0 0).1 0 (by omega) (Nat.zero_le _)
      exact ⟨y, y1, by rw [b1]; exact y2⟩)
  have hdu0 : e.u0 ≤ e.u1 := hcl.goodU.lt.le
  have hsh : ∀ u, e.u0 ≤ u → u ≤ e.u1 → ∀ v, s.v0 ≤ v → v ≤ s.v1 → ∀ (junk' : K) (i dv : ℕ), J.value eps junk' u v i dv = e.value eps junk' u v i dv := by
    intro u hu0 hu1 v hv0 hv1 junk' i dv
    obtain ⟨y, y1, y2⟩ := hB' u v hu0 hu1 hv0 hv1 junk' junk' i dv
    rw [b1, show s.u1 + (u - s.u1) = u by ring] at y2
    rw [y1, y2]
  have hJ1 : J.u1 = e.u1 := by rw [j5, b1]; ring
  refine ⟨J, ?_, cJ, by rw [j1]; exact max_eq_left d1, j2, j3, j4, by rw [hJ1, b2], j6, j7, ⟨e, ee, ?_⟩, ?_⟩
  rotate_left
  · intro u v hu0 hu1 hv0 hv1 junk' i dv
    exact hsh u (by rw [b1]; exact hu0) (by rw [← hJ1]; exact hu1) v hv0 hv1 junk' i dv
  rotate_right
  · unfold Surface.extendedToCurve
    rw [ee, R_bind_ok, eJ]
  · intro v hv0 hv1 junk' dv
    obtain ⟨g1, g2, g3⟩ := hval v hv0 hv1 junk' dv
    refine ⟨?_, ?_, ?_⟩
    · rintro u i hu0 (hu | ⟨rfl, hi, hi'⟩)
      · exact hA' u v i hu0 (Or.inl hu) hv0 hv1 junk' junk' dv
      · obtain ⟨y, y1, y2⟩ := g1 i hi hi'
        exact ⟨y, y1, by rw [hsh _ b1.le (by rw [← b1]; exact hdu0) v hv0 hv1]; exact y2⟩
    · rw [hJ1, hsh _ hdu0 le_rfl v hv0 hv1]; exact g2
    · intro h h'
      rw [hJ1, hsh _ hdu0 le_rfl v hv0 hv1]; exact g3 h h'

/-- C88: a curve with fewer poles than the surface has along V is read out of bounds, whatever its poles: nothing is checked. -/
theorem C88_short_curve {eps : K} (heps : 0 < eps) (junk : K) {s : Surface K V} (hs : s.Cl) (hp : 1 ≤ s.degU) {c : Curve K V} (hcl : c.poles.length < s.nPV)
    (natural : Bool) (mc : Option ℕ) {nrm : V → K} {dense : ℕ → (ℕ → ℕ → K) → List V → R (List V)} (hS : Spec.SolvesDense dense) {T A B : K → V}
    (hT : ∀ v, s.v0 ≤ v → v ≤ s.v1 → s.value eps junk s.u1 v 1 0 = .ok (T v) ∧ nrm (T v) ≠ 0)
    (hA : ∀ v, s.v0 ≤ v → v ≤ s.v1 → s.value eps junk s.u1 v 0 0 = .ok (A v)) (hB : ∀ v, s.v0 ≤ v → v ≤ s.v1 → c.value eps junk v 0 = .ok (B v))
    (hgap : eps * s.degU < Spec.extStep nrm T A B s.v0 s.v1) :
    s.extentionToCurve eps junk dense nrm c natural mc = .error .oob := by
  have hvlt : s.v0 < s.v1 := by
    rw [← hs.v01, ← hs.v10]
    exact lt_of_lt_of_le hs.wf.v.first (kf_mono hs.wf.v.sorted hs.wf.v.min)
  have hult : s.u0 < s.u1 := hs.goodU.lt
  unfold Surface.extentionToCurve
  rw [frontBack_eq hs.wf.v.ne, R_bind_ok, frontBack_eq hs.wf.u.ne]
  simp only [R_bind_ok, hs.v00, hs.v11, hs.u11]
  rw [extMeanStep_spec hvlt.le hT hA hB, R_bind_ok, extRows_error hs hcl (x := .oob), R_bind_error]
  · intro j hj
    obtain ⟨ej, e1, -⟩ := C82_extention heps junk (hs.rowGood (by omega : j < s.nPV)) hp hs.du (u := s.u1) (by show kf s.knotsU 0 ≤ s.u1; rw [hs.u00]; exact hult.le)
      (by show s.u1 ≤ kLast s.knotsU; rw [hs.u11]) natural mc (unew := s.u1 + Spec.extStep nrm T A B s.v0 s.v1)
      (by show eps * s.degU < _; linarith) (pf c.poles j) hS
    exact ⟨ej, by rw [rd_pf hj, R_bind_ok]; exact e1⟩
  · intro iso
    have : rd c.poles c.poles.length = .error .oob := by simp [rd]
    rw [this, R_bind_error]

namespace Sample

/-- A solver of systems of two equations. -/
def cramer22 {V : Type} [AddCommGroup V] [Module ℚ V] (n : ℕ) (M : ℕ → ℕ → ℚ) (B : List V) : R (List V) :=
  match n, B with
  | 2, [x, y] =>
    let D := M 0 0 * M 1 1 - M 0 1 * M 1 0
    .ok [(1 / D) • (M 1 1 • x - M 0 1 • y), (1 / D) • (M 0 0 • y - M 1 0 • x)]
  | _, _ => .error .oob

end Sample

/-- C88, disagreement: nothing compares the knots of the curve with those of the surface. With other knots but as many poles, the extension does not
end on the curve. -/
theorem C88_other_knots_witness :
    ∃ (s e : Surface ℚ ℚ) (c : Curve ℚ ℚ), s.extentionToCurve (1/1000) 0 Sample.cramer22 (fun x => |x|) c false none = .ok e ∧
      c.deg = s.degV ∧ c.poles.length = s.nPV ∧ c.b0 = s.v0 ∧ c.b1 = s.v1 ∧
      c.value (1/1000) 0 (1/4) 0 = .ok 3 ∧ e.value (1/1000) 0 e.u1 (1/4) = .ok (5/2) := by
  refine ⟨⟨1, 1, [0, 1, 0, 1, 0, 1], [0, 0, 1, 1], [0, 0, 1/2, 1, 1], 0, 1, 0, 1⟩,
    ⟨1, 1, [1, 2, 1, 3, 1, 2], [1, 1, 247/99, 247/99], [0, 0, 1/2, 1, 1], 1, 247/99, 0, 1⟩, ⟨1, [2, 3, 2], [0, 0, 1/4, 1, 1], 0, 1⟩, ?_, rfl, rfl, rfl, rfl, by decide +kernel, ?_⟩
  · decide +kernel
  · decide +kernel

/-- C88, disagreement: the extension of a rational surface is built from the projections of its homogeneous poles and gets weights one. It neither starts
on the border of the surface nor ends on the curve as soon as the weights vary along the border. -/
theorem C88_rational_witness :
    ∃ (s e : Surface ℚ (ℚ × ℚ)) (c : Curve ℚ (ℚ × ℚ)), s.extentionToCurveRat (1/1000) 0 Sample.cramer22 (fun x => |x|) c false none = .ok e ∧
      c.deg = s.degV ∧ c.knots = s.knotsV ∧ (∀ p ∈ s.poles, 0 < p.2) ∧ (∀ p ∈ c.poles, 0 < p.2) ∧
      s.ratValue (1/1000) 0 s.u1 (1/2) = .ok (5/2) ∧ e.ratValue (1/1000) 0 s.u1 (1/2) = .ok 2 ∧
      c.ratValue (1/1000) 0 (1/2) 0 = .ok 5 ∧ e.ratValue (1/1000) 0 e.u1 (1/2) = .ok 4 := by
  refine ⟨⟨1, 1, [(0, 1), (1, 1), (0, 3), (9, 3)], [0, 0, 1, 1], [0, 0, 1, 1], 0, 1, 0, 1⟩,
    ⟨1, 1, [(1, 1), (2, 1), (3, 1), (6, 1)], [1, 1, 2, 2], [0, 0, 1, 1], 1, 2, 0, 1⟩, ⟨1, [(2, 1), (18, 3)], [0, 0, 1, 1], 0, 1⟩, ?_, rfl, rfl, by decide +kernel, by decide +kernel, by decide +kernel, ?_,
    by decide +kernel, ?_⟩
  · decide +kernel
  · decide +kernel
  · decide +kernel

/-! ## Instances of the hypotheses -/

/-- The value of a segment. -/
theorem seg_value {eps : K} (heps : 0 < eps) (he : eps < 1) (a b : V) {v : K} (h0 : 0 ≤ v) (h1 : v ≤ 1) (junk : K) :
    (⟨[a, b], [0, 0, 1, 1], 1⟩ : CurveInfo K V).toCurve.value eps junk v 0 = .ok (a + v • (b - a)) := by
  have hg := (seg_clampedBy (eps := eps) he a b).good
  obtain ⟨i, ei, -, i1, i2, e⟩ := Curve.value_span heps hg (Or.inl (show 1 ≤ stackMaxDegree by decide)) (u := v) (by simpa [CurveInfo.toCurve, kf] using h0)
    (by simpa [CurveInfo.toCurve, kLast, kf] using h1)
  have hi : i = 1 := by
    have h1 : 1 ≤ i := i1
    have h2 : i < 2 := i2
    omega
  subst hi
  rw [e junk 0, spanDer_zero _ i1 i2]
  congr 1
  simp [CurveInfo.toCurve, bl, dbStep, kf, pf]
  module

namespace Sample

/-- The plane, on `[0, 2] × [0, 1]`, of degree two along U. -/
def planeS : Surface ℚ (ℚ × ℚ) := ⟨2, 1, [(0, 0), (0, 1), (0, 2), (1, 0), (1, 1), (1, 2)], [0, 0, 0, 2, 2, 2], [0, 0, 1, 1], 0, 2, 0, 1⟩

theorem planeS_clampedBy : planeS.ClampedBy (1/10) [0, 2] [3, 3] [0, 1] [2, 2] := by
  refine ⟨⟨⟨⟨by decide +kernel, by decide, by decide, by decide +kernel, by decide +kernel⟩,
      ⟨by decide +kernel, by decide, by decide, by decide +kernel, by decide +kernel⟩, by decide⟩, by decide, by decide, ?_, ?_, ?_, ?_, ?_, ?_, ?_, ?_⟩,
      ⟨by decide, by decide +kernel, by decide +kernel, by decide, by decide, ?_⟩, ⟨by decide, by decide +kernel, by decide +kernel, by decide, by decide, ?_⟩⟩ <;>
      (try decide +kernel) <;>
  · intro i x h1 h2 hx
    simp at h2
    omega

theorem planeS_value {v : ℚ} (h0 : 0 ≤ v) (h1 : v ≤ 1) : planeS.value (1/10) 7 2 v 0 0 = .ok (v, 2) ∧ planeS.value (1/10) 7 2 v 1 0 = .ok (0, 1) := by
  have g0 : planeS.v0 ≤ v := h0
  have g1 : v ≤ planeS.v1 := h1
  refine ⟨?_, ?_⟩
  · rw [planeS_clampedBy.cl.value_rows (by norm_num) (u := 2) (du := 0) (x := fun j => (j, 2)) (junk := 7) (by decide +kernel) (by decide +kernel)
      (by intro j hj; have : j = 0 ∨ j = 1 := by have : j < 2 := hj; omega
          rcases this with rfl | rfl <;> decide +kernel) g0 g1 7 7]
    have := seg_value (eps := 1/10) (by norm_num) (by norm_num) ((0, 2) : ℚ × ℚ) (1, 2) h0 h1 7
    refine Eq.trans ?_ (this.trans ?_)
    · congr 2
    · simp
  · rw [planeS_clampedBy.cl.value_rows (by norm_num) (u := 2) (du := 1) (x := fun j => (0, 1)) (junk := 7) (by decide +kernel) (by decide +kernel)
      (by intro j hj; have : j = 0 ∨ j = 1 := by have : j < 2 := hj; omega
          rcases this with rfl | rfl <;> decide +kernel) g0 g1 7 7]
    have := seg_value (eps := 1/10) (by norm_num) (by norm_num) ((0, 1) : ℚ × ℚ) (0, 1) h0 h1 7
    refine Eq.trans ?_ (this.trans ?_)
    · congr 2
    · simp

theorem plane_step : Spec.extStep (fun x : ℚ × ℚ => |x.1| + |x.2|) (fun _ => (0, 1)) (fun v => (v, 2)) (fun v => (0, 5) + v • ((2, 5) - (0, 5))) 0 1 =
    3 + 1 / 2 := by
  have : ∀ i ∈ Finset.range 100, (fun x : ℚ × ℚ => |x.1| + |x.2|) ((Spec.extSample (0 : ℚ) 1 i, 2) - ((0, 5) + Spec.extSample (0 : ℚ) 1 i • ((2, 5) - (0, 5)))) /
      (fun x : ℚ × ℚ => |x.1| + |x.2|) (0, 1) / 100 = (i / 99 + 3) / 100 := by
    intro i hi
    have h : (0 : ℚ) ≤ i / 99 := by positivity
    simp [Spec.extSample]
    rw [show (i : ℚ) / 99 - i / 99 * 2 = -(i / 99) by ring, abs_neg, abs_of_nonneg h]
    norm_num
  unfold Spec.extStep
  rw [Finset.sum_congr rfl this, ← Finset.sum_div, Finset.sum_add_distrib, ← Finset.sum_div, ← Nat.cast_sum, Finset.sum_range_id]
  norm_num

end Sample

/-- The plane extended to a longer segment, with continuity of the tangents. -/
example : ∃ dense : ℕ → (ℕ → ℕ → ℚ) → List (ℚ × ℚ) → R (List (ℚ × ℚ)), ∃ J,
    Sample.planeS.extendedToCurve (1/10) 7 dense (fun x => |x.1| + |x.2|) (⟨[(0, 5), (2, 5)], [0, 0, 1, 1], 1⟩ : CurveInfo ℚ (ℚ × ℚ)).toCurve false none = .ok J ∧
      J.u1 = 11/2 ∧ J.value (1/10) 7 J.u1 (1/2) 0 0 = .ok (1, 5) ∧ J.value (1/10) 7 2 (1/3) 1 0 = .ok (0, 1) := by
  obtain ⟨dense, hS⟩ := exists_solvesDense (K := ℚ) (V := ℚ × ℚ)
  obtain ⟨J, e, -, -, -, -, -, b, -, -, -, h⟩ := C88_extended_partial (eps := 1/10) (by norm_num) 7 Sample.planeS_clampedBy (by decide) (by decide)
    (c := (⟨[(0, 5), (2, 5)], [0, 0, 1, 1], 1⟩ : CurveInfo ℚ (ℚ × ℚ)).toCurve) (seg_clampedBy (eps := 1/10) (by norm_num) _ _).good rfl rfl rfl rfl false none
    (nrm := fun x => |x.1| + |x.2|) hS (fun v h0 h1 => ⟨(Sample.planeS_value h0 h1).2, by decide +kernel⟩) (fun v h0 h1 => (Sample.planeS_value h0 h1).1)
    (fun v h0 h1 => seg_value (by norm_num) (by norm_num) _ _ h0 h1 7)
    (by
      show (1/10 : ℚ) * ((2 : ℕ) : ℚ) < Spec.extStep _ _ _ _ 0 1
      rw [Sample.plane_step]; norm_num) (by decide)
  refine ⟨dense, J, e, ?_, ?_, ?_⟩
  · rw [b]
    show (2 : ℚ) + Spec.extStep _ _ _ _ 0 1 = _
    rw [Sample.plane_step]; norm_num
  · obtain ⟨y, y1, y2⟩ := (h (1/2) (by decide +kernel) (by decide +kernel) 7 0).2.1
    rw [y2, ← y1]
    decide +kernel
  · obtain ⟨y, y1, y2⟩ := (h (1/3) (by decide +kernel) (by decide +kernel) 7 0).1 2 1 (by decide +kernel) (Or.inr ⟨rfl, by decide, by decide⟩)
    rw [y2, ← y1]
    decide +kernel

/-- A curve of one pole, of degree 0. -/
example : ∃ dense : ℕ → (ℕ → ℕ → ℚ) → List (ℚ × ℚ) → R (List (ℚ × ℚ)),
    Sample.planeS.extentionToCurve (1/10) 7 dense (fun x => |x.1| + |x.2|) (⟨0, [(0, 5)], [0, 1], 0, 1⟩ : Curve ℚ (ℚ × ℚ)) false none = .error .oob := by
  obtain ⟨dense, hS⟩ := exists_solvesDense (K := ℚ) (V := ℚ × ℚ)
  have hg : (⟨0, [(0, 5)], [0, 1], 0, 1⟩ : Curve ℚ (ℚ × ℚ)).Good := by
    refine ⟨⟨by decide +kernel, by decide, by decide, by decide +kernel, by decide +kernel⟩, by decide +kernel, by decide +kernel⟩
  have hB : ∀ v : ℚ, 0 ≤ v → v ≤ 1 → (⟨0, [(0, 5)], [0, 1], 0, 1⟩ : Curve ℚ (ℚ × ℚ)).value (1/10) 7 v 0 = .ok (0, 5) := by
    intro v h0 h1
    obtain ⟨i, ei, -, i1, i2, e⟩ := Curve.value_span (by norm_num : (0 : ℚ) < 1/10) hg (Or.inl (by decide)) (u := v) h0 h1
    rw [e 7 0, spanDer_zero _ i1 i2]
    have : i = 0 := by have : i < 1 := i2; omega
    subst this
    rfl
  have hst : Spec.extStep (fun x : ℚ × ℚ => |x.1| + |x.2|) (fun _ => (0, 1)) (fun v => (v, 2)) (fun _ => (0, 5)) 0 1 = 3 + 1 / 2 := by
    rw [← Sample.plane_step]
    unfold Spec.extStep
    refine Finset.sum_congr rfl fun i _ => ?_
    simp [Spec.extSample]
    rw [show (i : ℚ) / 99 - i / 99 * 2 = -(i / 99) by ring, abs_neg]
  refine ⟨dense, C88_short_curve (eps := 1/10) (by norm_num) 7 Sample.planeS_clampedBy.cl (by decide) (by decide) false none hS
    (fun v h0 h1 => ⟨(Sample.planeS_value h0 h1).2, by decide +kernel⟩) (fun v h0 h1 => (Sample.planeS_value h0 h1).1) hB ?_⟩
  show (1/10 : ℚ) * ((2 : ℕ) : ℚ) < Spec.extStep _ _ _ _ 0 1
  rw [hst]; norm_num

end Gbs
