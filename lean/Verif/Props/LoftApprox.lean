import Verif.Model.LoftApprox
import Verif.Lemmas.SpanSamples
import Verif.Props.Loft
import Verif.Props.SurfApprox
import Verif.Props.Offset
import Verif.Props.Spine

/-!
# C115: the least-squares loft on a spine
-/

namespace Gbs

set_option linter.unusedSectionVars false

open Polynomial
open scoped BigOperators

variable {K : Type} [Field K] [LinearOrder K] [IsStrictOrderedRing K]
variable {V : Type} [AddCommGroup V] [Module K V]

/-- `t` are the parameters on the spine of the sections: they go from one end to the other, in one direction, over more than the tolerance. -/
structure Spec.Feet (eps : K) (ext : CurveInfo K V → R (K × K × K)) (out : List (CurveInfo K V)) (t : List K) : Prop where
  len : t.length = out.length
  foot : ∀ (j : ℕ) c x, out[j]? = some c → t[j]? = some x → ∃ a b, ext c = .ok (x, a, b)
  far : eps < |kf t (t.length - 1) - kf t 0|
  order : t.Pairwise (· < ·) ∨ t.Pairwise (· > ·)

/-- The stations of the sections: the parameters on the spine divided by their extent. -/
def Spec.stations (t : List K) : List K := t.map fun x => x / (kf t (t.length - 1) - kf t 0)

/-- The `N` evenly spaced parameters along the sections. -/
def Spec.evenU (a b : K) (N : ℕ) : List K := (List.range N).map (Spec.sample a b N)

theorem stations_kf {t : List K} {j : ℕ} (hj : j < t.length) : kf (Spec.stations t) j = kf t j / (kf t (t.length - 1) - kf t 0) := by
  unfold Spec.stations
  rw [kf_of_lt (by simpa using hj), List.getElem_map, kf_of_lt hj]

theorem stations_length (t : List K) : (Spec.stations t).length = t.length := by simp [Spec.stations]

/-- The stations increase, over a unit interval. -/
theorem Feet.stations_lt {eps : K} (heps : 0 < eps) {ext : CurveInfo K V → R (K × K × K)} {out : List (CurveInfo K V)} {t : List K}
    (h : Spec.Feet eps ext out t) : (Spec.stations t).Pairwise (· < ·) := by
  have hne : 0 < t.length := by
    rcases Nat.eq_zero_or_pos t.length with h0 | h0
    · have := h.far
      rw [h0, sub_self, abs_zero] at this
      linarith
    · exact h0
  have hd : kf t (t.length - 1) - kf t 0 ≠ 0 := by
    intro h0
    have := h.far
    rw [h0, abs_zero] at this
    linarith
  unfold Spec.stations
  rw [List.pairwise_map]
  rcases h.order with ho | ho
  · have hpos : 0 < kf t (t.length - 1) - kf t 0 := lt_of_le_of_ne (sub_nonneg.mpr (kf_mono (ho.imp le_of_lt) (Nat.zero_le _))) hd.symm
    exact ho.imp fun hab => div_lt_div_of_pos_right hab hpos
  · have hneg : kf t (t.length - 1) - kf t 0 < 0 := by
      refine lt_of_le_of_ne ?_ hd
      rw [kf_of_lt (by omega), kf_of_lt hne]
      rcases Nat.eq_zero_or_pos (t.length - 1) with h0 | h0
      · simp [h0]
      · have := List.pairwise_iff_getElem.mp ho 0 (t.length - 1) hne (by omega) h0
        linarith
    exact ho.imp fun hab => div_lt_div_of_neg_of_lt hneg hab

theorem Feet.unit {eps : K} (heps : 0 < eps) {ext : CurveInfo K V → R (K × K × K)} {out : List (CurveInfo K V)} {t : List K}
    (h : Spec.Feet eps ext out t) : 2 ≤ t.length ∧ kf (Spec.stations t) (t.length - 1) - kf (Spec.stations t) 0 = 1 := by
  have hd : kf t (t.length - 1) - kf t 0 ≠ 0 := by
    intro h0
    have := h.far
    rw [h0, abs_zero] at this
    linarith
  have h2 : 2 ≤ t.length := by
    by_contra hc
    apply hd
    rw [show t.length - 1 = 0 by omega, sub_self]
  refine ⟨h2, ?_⟩
  rw [stations_kf (by omega), stations_kf (by omega), ← sub_div, div_self hd]

theorem spineStations_eq {eps : K} (heps : 0 < eps) {ext : CurveInfo K V → R (K × K × K)} {out : List (CurveInfo K V)} {t : List K}
    (h : Spec.Feet eps ext out t) : spineStations eps ext out = .ok (Spec.stations t) := by
  have hd : kf t (t.length - 1) - kf t 0 ≠ 0 := by
    intro h0
    have := h.far
    rw [h0, abs_zero] at this
    linarith
  obtain ⟨h2, -⟩ := Feet.unit heps h
  have e : (out.mapM fun c => do
      let r ← ext c
      pure r.1) = (.ok t : R (List K)) := by
    obtain ⟨r, hr⟩ := mapM_exists (f := fun c => do
      let r ← ext c
      pure r.1) out (fun c hc => by
        obtain ⟨j, hj, rfl⟩ := List.getElem_of_mem hc
        obtain ⟨a, b, e⟩ := h.foot j _ _ (List.getElem?_eq_getElem hj) (List.getElem?_eq_getElem (by rw [h.len]; exact hj))
        exact ⟨_, by rw [e, R_bind_ok]; rfl⟩)
    rw [hr]
    obtain ⟨l, g⟩ := mapM_inv hr
    congr 1
    refine List.ext_getElem (by rw [l, h.len]) ?_
    intro i h1 h2
    obtain ⟨y, ey, gy⟩ := g i _ (List.getElem?_eq_getElem (by omega))
    obtain ⟨a, b, e⟩ := h.foot i _ _ (List.getElem?_eq_getElem (by omega)) (List.getElem?_eq_getElem h2)
    rw [e, R_bind_ok] at ey
    have ey := Except.ok.inj ey
    rw [List.getElem?_eq_getElem h1] at gy
    rw [Option.some.inj gy, ← ey]
  unfold spineStations
  rw [e, R_bind_ok]
  unfold adimension
  rw [List.head?_eq_getElem?, List.getLast?_eq_getElem?, kf_getElem? (by omega), kf_getElem? (by omega)]
  simp only
  rw [if_pos h.far]
  exact mapM_ok t fun x _ => fdiv_ok hd

/-- The constructor accepts the unified sections. -/
theorem Clamped.mk? (eps : K) {c : CurveInfo K V} (h : c.Clamped) : Curve.mk? eps c.poles c.knots c.deg = .ok c.toCurve := by
  have hw := h.kc.wf
  have hne : c.knots ≠ [] := by
    intro h0
    have := h.len
    rw [h0] at this
    simp at this
  rw [(C11_constructor eps c.poles h.sorted hne c.deg).1 ⟨h.len, hw.min⟩]
  have hlen := h.len
  congr 1
  unfold CurveInfo.toCurve kLast
  rw [kf_of_lt (by omega), kf_of_lt (by omega), List.head_eq_getElem, List.getLast_eq_getElem]

theorem mapM_mk? (eps : K) {out : List (CurveInfo K V)} (h : ∀ c ∈ out, c.Clamped) :
    (out.mapM fun c => Curve.mk? eps c.poles c.knots c.deg) = .ok (out.map CurveInfo.toCurve) :=
  mapM_ok out fun c hc => Clamped.mk? eps (h c hc)

/-- The points read on the sections. -/
theorem sectionGrid_spec {eps : K} (heps : 0 < eps) (junk : K) {out : List (CurveInfo K V)} {p : ℕ} {W : List K} (hp : p ≤ stackMaxDegree)
    (hout : ∀ c ∈ out, c.deg = p ∧ c.knots = W ∧ c.Clamped) {u : List K} (hu : ∀ x ∈ u, kf W 0 ≤ x ∧ x ≤ kLast W) :
    ∃ Q, sectionGrid eps junk out u = .ok Q ∧ Q.length = u.length * out.length ∧
      ∀ (i j : ℕ) (c : CurveInfo K V) (x : K), out[j]? = some c → u[i]? = some x → c.toCurve.value eps junk x 0 = .ok (pf Q (i + u.length * j)) := by
  have hval : ∀ c ∈ out, ∀ x ∈ u, ∃ y, c.toCurve.value eps junk x 0 = .ok y := by
    intro c hc x hx
    obtain ⟨a1, a2, a3⟩ := hout c hc
    obtain ⟨h1, h2⟩ := hu x hx
    obtain ⟨i, -, -, -, -, ev⟩ := Curve.value_span heps a3.kc.good (Or.inl (by show c.deg ≤ _; rw [a1]; exact hp)) (u := x)
      (by show kf c.knots 0 ≤ x; rw [a2]; exact h1) (by show x ≤ kLast c.knots; rw [a2]; exact h2)
    exact ⟨_, ev junk 0⟩
  have hg : ∀ j i : ℕ, ∃ y, ∀ (c : CurveInfo K V) (x : K), out[j]? = some c → u[i]? = some x → c.toCurve.value eps junk x 0 = .ok y := by
    intro j i
    by_cases hj : j < out.length
    · by_cases hi : i < u.length
      · obtain ⟨y, hy⟩ := hval _ (List.getElem_mem hj) _ (List.getElem_mem hi)
        refine ⟨y, fun c x hc hx => ?_⟩
        rw [List.getElem?_eq_getElem hj] at hc
        rw [List.getElem?_eq_getElem hi] at hx
        rw [← Option.some.inj hc, ← Option.some.inj hx, hy]
      · exact ⟨0, fun c x hc hx => by rw [List.getElem?_eq_none (by omega)] at hx; cases hx⟩
    · exact ⟨0, fun c x hc hx => by rw [List.getElem?_eq_none (by omega)] at hc; cases hc⟩
  choose g hg using hg
  unfold sectionGrid
  rw [mapM_mk? eps (fun c hc => (hout c hc).2.2), R_bind_ok]
  obtain ⟨Q, e, hl, hQ⟩ := forLt_grid (n := out.length) (m := u.length) (g := g) (s := List.replicate (u.length * out.length) (0 : V))
    (body := fun iv Q => forLt 0 u.length (fun iu Q => do
      let c ← rd (out.map CurveInfo.toCurve) iv
      let x ← rd u iu
      let y ← c.value eps junk x 0
      wr Q (iu + u.length * iv) y) Q) (by simp [Nat.mul_comm]) (by
      intro i s hi hs
      have hend : u.length * i + u.length ≤ s.length := by
        rw [hs, Nat.mul_comm out.length, ← Nat.mul_succ]
        exact Nat.mul_le_mul_left _ hi
      obtain ⟨s', e, l, h1, h2⟩ := forLt_row (m := u.length) (off := u.length * i) (f := g i) (s := s) (body := fun iu Q => do
        let c ← rd (out.map CurveInfo.toCurve) i
        let x ← rd u iu
        let y ← c.value eps junk x 0
        wr Q (iu + u.length * i) y) hend (by
          intro j s' hj hs'
          rw [rd_ok (by simpa using hi), R_bind_ok, rd_ok hj, R_bind_ok, List.getElem_map,
            hg i j _ _ (List.getElem?_eq_getElem hi) (List.getElem?_eq_getElem hj), R_bind_ok, wr_ok (by omega)])
      exact ⟨s', e, by rw [l, hs], h1, fun x hx => by apply h2; left; exact hx⟩)
  refine ⟨Q, e, by rw [hl, Nat.mul_comm], ?_⟩
  intro i j c x hc hx
  obtain ⟨hj, -⟩ := List.getElem?_eq_some_iff.mp hc
  obtain ⟨hi, -⟩ := List.getElem?_eq_some_iff.mp hx
  rw [hg j i c x hc hx, pf_of_some (hQ j i hj hi)]

/-- The run of the primary overload down to the fit. -/
theorem loftApproxOn_run {eps : K} (heps : 0 < eps) (junk : K) (dense : ℕ → (ℕ → ℕ → K) → List V → R (List V)) {infos mid out : List (CurveInfo K V)}
    (e1 : unifyDegree eps infos = .ok mid) (e2 : unifyKnots eps mid = .ok out) (hlen : infos.length = out.length) {p' : ℕ} {W : List K}
    (hp' : p' ≤ stackMaxDegree) (hout : ∀ c ∈ out, c.deg = p' ∧ c.knots = W ∧ c.Clamped) {ext : CurveInfo K V → R (K × K × K)} {t : List K}
    (ht : Spec.Feet eps ext out t) {ku : List K} (hku : ku ≠ []) (h0 : kf ku 0 = kf W 0) (h1 : kLast ku = kLast W) (hW : kf W 0 ≤ kLast W) {nU : ℕ}
    (hnU : 2 ≤ nU) : ∃ Q, Q.length = nU * out.length ∧
      (∀ (i j : ℕ) (c : CurveInfo K V) (x : K), out[j]? = some c → (Spec.evenU (kf W 0) (kLast W) nU)[i]? = some x → c.toCurve.value eps junk x 0 = .ok (pf Q (i + nU * j))) ∧
      ∀ p q m kv, buildSimpleMultFlatKnots (kf (Spec.stations t) 0) (kf (Spec.stations t) (out.length - 1)) m q = .ok kv →
        loftApproxOn eps junk dense ext infos ku p q m nU =
          (approxGrid eps junk dense Q ku kv (Spec.evenU (kf W 0) (kLast W) nU) (Spec.stations t) p q >>= fun X => Surface.mk? eps X ku kv p q) := by
  have hul : (Spec.evenU (kf W 0) (kLast W) nU).length = nU := by simp [Spec.evenU]
  obtain ⟨Q, eQ, lQ, hQ⟩ := sectionGrid_spec heps junk hp' hout (u := Spec.evenU (kf W 0) (kLast W) nU) (by
    intro x hx
    obtain ⟨i, hi, rfl⟩ := List.mem_map.mp hx
    exact sample_mem hW hnU (List.mem_range.mp hi))
  rw [hul] at lQ hQ
  refine ⟨Q, lQ, hQ, ?_⟩
  intro p q m kv hkv
  obtain ⟨h2, -⟩ := Feet.unit heps ht
  have hk : 0 < ku.length := List.length_pos_iff.mpr hku
  have hsl := stations_length t
  have htl := ht.len
  unfold loftApproxOn
  rw [if_neg (by omega), e1, R_bind_ok, e2, R_bind_ok, spineStations_eq heps ht, R_bind_ok, rd_kf hk, R_bind_ok, usub_ok (by omega), R_bind_ok,
    rd_kf (by omega), R_bind_ok, show kf ku (ku.length - 1) = kLast ku from rfl, h0, h1, range_list hnU, R_bind_ok]
  rw [show (List.range nU).map (Spec.sample (kf W 0) (kLast W) nU) = Spec.evenU (kf W 0) (kLast W) nU from rfl, eQ, R_bind_ok, rd_kf (by omega), R_bind_ok,
    usub_ok (by omega), R_bind_ok, rd_kf (by omega), R_bind_ok, hsl, htl, hkv, R_bind_ok]

/-! ## Points of a surface give back its poles -/

/-- The fit of the points of a surface on the same knots gives back its poles. -/
theorem approxGrid_exact {eps : K} (heps : 0 < eps) (junk : K) {p q n m : ℕ} (hp : p ≤ stackMaxDegree) (hq : q ≤ stackMaxDegree)
    {dense : ℕ → (ℕ → ℕ → K) → List V → R (List V)} (hS : Spec.SolvesDense dense) {ku kv : List K}
    (hU : KWf p ku n) (hV : KWf q kv m) {u v : List K} {Q : List V} (hQ : Q.length = u.length * v.length) (hn : n * m ≤ Q.length)
    (hu : ∀ x ∈ u, kf ku p ≤ x ∧ x ≤ kf ku n) (hv : ∀ x ∈ v, kf kv q ≤ x ∧ x ≤ kf kv m)
    (hdu : Spec.Determines eps ku p n u) (hdv : Spec.Determines eps kv q m v) {su sv : ℕ → ℕ} (hsu : Spans ku u p n su) (hsv : Spans kv v q m sv)
    {P : List V} (hP : P.length = n * m)
    (hval : ∀ r s, r < u.length → s < v.length → pf Q (r + u.length * s) =
      ∑ b ∈ Finset.range m, coll kv v q 1 sv s b • ∑ a ∈ Finset.range n, coll ku u p 1 su r a • pf P (a + n * b)) :
    approxGrid eps junk dense Q ku kv u v p q = .ok P := by
  obtain ⟨Mu, eu, hMu⟩ := fillMatrix_params hU hp hsu eps junk
  obtain ⟨Mv, ev, hMv⟩ := fillMatrix_params hV hq hsv eps junk
  have hlu := hU.len
  have hlv := hV.len
  have hmu := hU.min
  have hmv := hV.min
  have ru := (Determines.iff_rows heps hU hp hsu hu).mp hdu
  have rv := (Determines.iff_rows heps hV hq hsv hv).mp hdv
  have hRu : Spec.Regular n (normalMatrix u.length Mu) := regular_normal fun x hx => ru x fun r hr => by
    rw [← hx r hr]
    exact Finset.sum_congr rfl fun j hj => by rw [hMu r j hr (Finset.mem_range.mp hj)]
  have hRv : Spec.Regular m (normalMatrix v.length Mv) := regular_normal fun x hx => rv x fun r hr => by
    rw [← hx r hr]
    exact Finset.sum_congr rfl fun j hj => by rw [hMv r j hr (Finset.mem_range.mp hj)]
  have htake : Q.take (u.length * v.length) = Q := List.take_of_length_le (by omega)
  obtain ⟨X, eX, hlX, hX⟩ := tensorSolve_spec (nu := n) (nv := m) (Q := normalGridRhs u.length v.length n m Mu Mv Q)
    (by simp [normalGridRhs]) (fun B hB => hS n _ B hB hRu) (fun B hB => hS m _ B hB hRv)
  have hrhs : ∀ i j, i < n → j < m → ∑ b ∈ Finset.range m, normalMatrix v.length Mv j b • ∑ a ∈ Finset.range n, normalMatrix u.length Mu i a • pf P (a + n * b) =
      pf (normalGridRhs u.length v.length n m Mu Mv Q) (i + n * j) := by
    intro i j hi hj
    rw [normalGridRhs, pf_map_range _ (grid_lt hi hj), ((grid_col (c := i + n * j) hi).mp rfl).1, ((grid_col (c := i + n * j) hi).mp rfl).2,
      normal_apply_smul]
    refine Finset.sum_congr rfl fun s hs => ?_
    have hs := Finset.mem_range.mp hs
    congr 1
    calc _ = ∑ b ∈ Finset.range m, ∑ r ∈ Finset.range u.length, Mu r i • Mv s b • ∑ a ∈ Finset.range n, Mu r a • pf P (a + n * b) := by
          refine Finset.sum_congr rfl fun b _ => ?_
          rw [normal_apply_smul, Finset.smul_sum]
          exact Finset.sum_congr rfl fun r _ => smul_comm _ _ _
      _ = _ := by
          rw [Finset.sum_comm]
          refine Finset.sum_congr rfl fun r hr => ?_
          have hr := Finset.mem_range.mp hr
          rw [← Finset.smul_sum]
          congr 1
          rw [show Q.getD (r + u.length * s) 0 = pf Q (r + u.length * s) from rfl, hval r s hr hs]
          refine Finset.sum_congr rfl fun b hb => ?_
          rw [hMv s b hs (Finset.mem_range.mp hb)]
          congr 1
          exact Finset.sum_congr rfl fun a ha => by rw [hMu r a hr (Finset.mem_range.mp ha)]
  have heq : ∀ a b, a < n → b < m → pf X (a + n * b) = pf P (a + n * b) := by
    intro a b ha hb
    refine Regular.unique hRu (x := fun a => pf X (a + n * b)) (y := fun a => pf P (a + n * b)) ?_ a ha
    intro i hi
    refine Regular.unique hRv (x := fun b => ∑ a ∈ Finset.range n, normalMatrix u.length Mu i a • pf X (a + n * b))
      (y := fun b => ∑ a ∈ Finset.range n, normalMatrix u.length Mu i a • pf P (a + n * b)) ?_ b hb
    intro j hj
    rw [hX i j hi hj, hrhs i j hi hj]
  have hXP : X = P := by
    refine List.ext_getElem (by rw [hlX, hP]) ?_
    intro c h1 h2
    have hc : c < n * m := by omega
    have hn0 : 0 < n := by omega
    have := heq (c % n) (c / n) (Nat.mod_lt _ hn0) (Nat.div_lt_of_lt_mul hc)
    rw [Nat.mod_add_div] at this
    unfold pf at this
    rwa [List.getD_eq_getElem?_getD, List.getD_eq_getElem?_getD, List.getElem?_eq_getElem h1, List.getElem?_eq_getElem h2] at this
  rw [hXP] at eX
  unfold approxGrid checkApproxSizesSurf
  rw [usub_ok (by omega), R_bind_ok, usub_ok (by omega), R_bind_ok, show ku.length - (p + 1) = n by omega,
    show kv.length - (q + 1) = m by omega, if_neg (by omega), if_neg (by omega), R_pure, R_bind_ok, eu, R_bind_ok, ev, R_bind_ok,
    read_grid (by omega), R_bind_ok, htake, eX]

theorem coll_eval {U u : List K} {p : ℕ} {sp : ℕ → ℕ} (i b : ℕ) : coll U u p 1 sp i b = (Bp (kf U) (sp i) p b).eval (kf u i) := by
  have := coll_row (U := U) (u := u) (p := p) (nc := 1) (sp := sp) (i := i) (d := 0) (by omega) b
  rw [one_mul, Nat.add_zero] at this
  exact this

/-- The fit of the points of compatible sections gives the poles of the interpolating loft. -/
theorem fit_sections {eps : K} (heps : 0 < eps) (junk : K) {dense : ℕ → (ℕ → ℕ → K) → List V → R (List V)} (hS : Spec.SolvesDense dense)
    {out : List (CurveInfo K V)} {p q n : ℕ} {W kv u v : List K} (hp : p ≤ stackMaxDegree) (hq : q ≤ stackMaxDegree)
    (hout : ∀ c ∈ out, c.deg = p ∧ c.knots = W ∧ c.Clamped) (hne : out ≠ []) (hlen : out.length = v.length) (hn : W.length = n + p + 1)
    (hV : KWf q kv v.length) (hin : ∀ b ∈ v, kf kv q ≤ b ∧ b ≤ kf kv v.length)
    (hreg : ∀ sp, Spans kv v q v.length sp → Spec.Regular v.length (coll kv v q 1 sp))
    (hu : ∀ x ∈ u, kf W 0 ≤ x ∧ x ≤ kLast W) (hdu : Spec.Determines eps W p n u) {Q P : List V} (hQ : Q.length = u.length * v.length)
    (hval : ∀ (i j : ℕ) (c : CurveInfo K V) (x : K), out[j]? = some c → u[i]? = some x → c.toCurve.value eps junk x 0 = .ok (pf Q (i + u.length * j)))
    (eP : buildLoftSurfacePoles eps junk dense (out.map CurveInfo.poles) kv v q = .ok P) :
    approxGrid eps junk dense Q W kv u v p q = .ok P := by
  have hpos : 0 < out.length := List.length_pos_iff.mpr hne
  obtain ⟨hc0d, hc0k, hc0c⟩ := hout _ (List.getElem_mem hpos)
  have hpl : ∀ c ∈ out, c.poles.length = n := by
    intro c hc
    obtain ⟨a1, a2, a3⟩ := hout c hc
    have := a3.len
    rw [a1, a2] at this
    omega
  have hkc := hc0c.kc
  have hn0 := hpl _ (List.getElem_mem hpos)
  have hU : KWf p W n := by have := hkc.wf.kwf; rwa [hc0k, hc0d, hn0] at this
  have w0 : kf W 0 = kf W p := by have := hkc.kf_zero.trans hkc.d0.symm; rwa [hc0k, hc0d] at this
  have w1 : kLast W = kf W n := by have := hkc.kLast.trans hkc.d1.symm; rwa [hc0k, hn0] at this
  have hu' : ∀ x ∈ u, kf W p ≤ x ∧ x ≤ kf W n := by rw [← w0, ← w1]; exact hu
  obtain ⟨sv, hsv⟩ := exists_spans hV v
  obtain ⟨su, hsu⟩ := exists_spans hU u
  obtain ⟨N, eN, hN⟩ := buildPolesMatrix_spec hV hq hsv (nc := 1) le_rfl eps junk
  obtain ⟨P', eP', hlP, hP⟩ := buildLoftSurfacePoles_spec (pc := out.map CurveInfo.poles) (nu := n) (by simpa using hne)
    (by intro P hP; obtain ⟨c, hc, rfl⟩ := List.mem_map.mp hP; exact hpl c hc) (by simpa using hlen) eN
    (fun c hc => hS _ N c hc (Regular.congr (hreg sv hsv) fun i j hi hj => (hN i j (by omega) hj).symm))
  rw [eP] at eP'
  obtain rfl := Except.ok.inj eP'
  have hdv : Spec.Determines eps kv q v.length v := (Determines.iff_rows heps hV hq hsv hin).mpr (hreg sv hsv)
  have hnu := Determines.le_length heps hp hU hu' hdu
  refine approxGrid_exact heps junk hp hq hS hU hV hQ (by rw [hQ]; exact Nat.mul_le_mul_right _ hnu) hu' hin hdu hdv hsu hsv hlP ?_
  intro r s hr hs
  have hso : s < out.length := by omega
  have hcm : out[s] ∈ out := List.getElem_mem hso
  obtain ⟨a1, a2, a3⟩ := hout _ hcm
  have hxu : kf u r ∈ u := kf_mem (by rintro rfl; simp at hr) r
  obtain ⟨x0, x1⟩ := hu _ hxu
  obtain ⟨i, ei, -, -, -, ev⟩ := Curve.value_span heps a3.kc.good (Or.inl (by show (out[s]).deg ≤ _; rw [a1]; exact hp)) (u := kf u r)
    (by show kf (out[s]).knots 0 ≤ _; rw [a2]; exact x0) (by show _ ≤ kLast (out[s]).knots; rw [a2]; exact x1)
  have hv1 := hval r s _ (kf u r) (List.getElem?_eq_getElem hso) (kf_getElem? hr)
  rw [ev junk 0] at hv1
  rw [← Except.ok.inj hv1]
  have ei' : findSpan n p (kf u r) W = .ok i := by
    rw [← hpl _ hcm, ← a1, ← a2]; exact ei
  have his : i = su r := by
    have := hsu.find r hr
    rw [ei'] at this
    exact Except.ok.inj this
  rw [show (out[s]).toCurve.poles = (out[s]).poles from rfl, show (out[s]).toCurve.knots = W from a2, show (out[s]).toCurve.deg = p from a1, hpl _ hcm]
  unfold spanDer
  calc _ = ∑ a ∈ Finset.range n, coll W u p 1 su r a • ∑ b ∈ Finset.range v.length, coll kv v q 1 sv s b • pf P (a + n * b) := by
        refine Finset.sum_congr rfl fun a ha => ?_
        rw [coll_eval, his, ← hP a s _ (Finset.mem_range.mp ha) (by rw [List.getElem?_map, List.getElem?_eq_getElem hso]; rfl)]
        rw [show (derivative^[0] (Bp (kf W) (su r) p a)) = Bp (kf W) (su r) p a from rfl]
        congr 1
        exact Finset.sum_congr rfl fun b hb => by rw [hN s b (by omega) (Finset.mem_range.mp hb)]
    _ = _ := by
        simp only [Finset.smul_sum]
        rw [Finset.sum_comm]
        exact Finset.sum_congr rfl fun b _ => Finset.sum_congr rfl fun a _ => smul_comm _ _ _

/-! ## The sections are kept -/

/-- C115, `loft_approx(sections, spine, v_degree_max)`: at least two clamped sections of degrees at most 12, whose feet on the spine are in order. When
the stations satisfy the conditions of Schoenberg and Whitney on the uniform knots and the samples taken along the (unified) sections determine their
poles, the fit keeps the sections: the iso-curve at each station is the section. The surface has the parameter interval of the first
section along U, and an interval of length 1 along V. Of the dense solver only the solution of regular systems is asked. -/
theorem C115_sections {eps : K} (heps : 0 < eps) (junk : K) {dense : ℕ → (ℕ → ℕ → K) → List V → R (List V)} (hS : Spec.SolvesDense dense)
    {c0 : CurveInfo K V} {cs : List (CurveInfo K V)} (hdeg : ∀ c ∈ c0 :: cs, c.deg ≤ 12)
    (hcl : ∀ c ∈ c0 :: cs, ∃ ks ms, c.toCurve.ClampedBy eps ks ms)
    (hsep : SepL eps ((c0 :: cs).flatMap fun c => c.knots.map (rescale (kf c0.knots 0) (kLast c0.knots) c.knots)))
    {qMax q n : ℕ} (hn : n = cs.length + 1) (hqd : q = max (min qMax (n - 1)) 1) (hq : q ≤ stackMaxDegree)
    (hmem : (13 * Spec.totalKnots (c0 :: cs)) * (n + q + 1) < 2 ^ 64) :
    ∃ out p W, (unifyDegree eps (c0 :: cs) >>= unifyKnots eps) = .ok out ∧ List.Forall₂ (Unified eps c0.toCurve.b0 c0.toCurve.b1 p W) (c0 :: cs) out ∧
      (∀ c ∈ c0 :: cs, c.deg ≤ p) ∧ (∃ c ∈ c0 :: cs, c.deg = p) ∧
      ∀ (ext : CurveInfo K V → R (K × K × K)) (t : List K), Spec.Feet eps ext out t →
        (∀ kv, buildSimpleMultFlatKnots (kf (Spec.stations t) 0) (kf (Spec.stations t) (n - 1)) n q = .ok kv →
          ∀ j, 1 ≤ j → j + 1 < n → kf kv j < kf (Spec.stations t) j ∧ kf (Spec.stations t) j < kf kv (j + q + 1)) →
        (∀ m, W.length = m + p + 1 → Spec.Determines eps W p m (Spec.evenU c0.toCurve.b0 c0.toCurve.b1 (max (4 * m) 30))) →
        ∃ s, loftApprox eps junk dense ext (c0 :: cs) qMax = .ok s ∧ s.Wf ∧ s.degU = p ∧ s.degV = q ∧ s.knotsU = W ∧
          s.u0 = c0.toCurve.b0 ∧ s.u1 = c0.toCurve.b1 ∧ s.v0 = kf (Spec.stations t) 0 ∧ s.v1 = s.v0 + 1 ∧
          ∀ (j : ℕ) (c : CurveInfo K V) (b : K), (c0 :: cs)[j]? = some c → (Spec.stations t)[j]? = some b →
            Spec.IsoIs eps s c0.toCurve.b0 c0.toCurve.b1 c b := by
  obtain ⟨mid, out, p, W, e1, e2, hp12, hp, hp', hne, hU, hall, -, hW0, hW1, hWl⟩ := loft_unify heps hdeg hcl hsep
  refine ⟨out, p, W, by rw [e1, R_bind_ok, e2], hU, hp, hp', ?_⟩
  intro ext t ht hsw hdet
  have hs24 : stackMaxDegree = 24 := rfl
  have hlo : out.length = n := by rw [← hU.length_eq, hn]; rfl
  obtain ⟨h2, hunit⟩ := Feet.unit heps ht
  have htl := ht.len
  have hsl := stations_length t
  have hpos : 0 < out.length := by omega
  obtain ⟨hcd, hck, hcc⟩ := hall _ (List.getElem_mem hpos)
  have hcl' := hcc.len
  rw [hck, hcd] at hcl'
  set m := (out[0]).poles.length with hm
  set v := Spec.stations t with hv
  have hvn : v.length = n := by omega
  have hst := Feet.stations_lt heps ht
  have hlt : kf v 0 < kf v (n - 1) := by rw [show n - 1 = t.length - 1 by omega]; linarith
  have hq1 : 1 ≤ q := by omega
  have hqn : q + 1 ≤ n := by omega
  obtain ⟨kv, ek, lk, k0, k1, km, hw⟩ := C54_uniform_knots (V := K) hqn hlt
  have b0 : ∀ j, j ≤ q → kf kv j = kf v 0 := fun j hj => (kf_of_some (k0 j hj)).2
  have b1 : ∀ j, n ≤ j → j ≤ n + q → kf kv j = kf v (n - 1) := fun j h1 h2 => (kf_of_some (k1 j h1 h2)).2
  have hV : KWf q kv n := by simpa using (hw (List.replicate n 0) (by simp)).kwf
  have hvin : ∀ b ∈ v, kf kv q ≤ b ∧ b ≤ kf kv v.length := by
    intro b hb
    obtain ⟨i, hi, rfl⟩ := List.getElem_of_mem hb
    rw [b0 q le_rfl, hvn, b1 n le_rfl (by omega), ← kf_of_lt hi]
    have hmo := kf_mono (hst.imp le_of_lt)
    exact ⟨hmo (by omega), hmo (by omega)⟩
  have hreg : ∀ sp, Spans kv v q v.length sp → Spec.Regular v.length (coll kv v q 1 sp) := by
    intro sp hsp
    rw [hvn] at hsp ⊢
    exact coll_regular hq1 hV hvn hst (fun j _ hj => b0 j hj) (fun j hj hj' => b1 j hj (by omega)) (hsw kv ek) hsp
  obtain ⟨P, s, eP, es, hwf, d1, d2, d3, d4, d5, d6, hval⟩ := loft_compatible heps junk hS hne (p := p) (q := q) (W := W) (flatV := kv) (v := v)
    (by omega) hq hall (by omega) (by rw [hvn]; exact hV) (by rw [b0 0 (by omega), b0 q le_rfl])
    (by unfold kLast; rw [hvn, b1 n le_rfl (by omega)]; exact b1 _ (by omega) (by omega)) hvin hreg
    (lt_of_le_of_lt (Nat.mul_le_mul_right _ hWl) (by rw [hvn]; exact hmem))
  obtain ⟨ks, ms, hk⟩ := hcl c0 List.mem_cons_self
  have hWlt : kf W 0 ≤ kLast W := by rw [hW0, hW1]; exact hk.good.lt.le
  have hN2 : 2 ≤ max (4 * m) 30 := by omega
  obtain ⟨Q, lQ, hQ, hrun⟩ := loftApproxOn_run heps junk dense e1 e2 (hU.length_eq) (by omega) hall ht (ku := W) (nU := max (4 * m) 30)
    (by rintro rfl; simp at hcl') rfl rfl hWlt hN2
  have hul : (Spec.evenU (kf W 0) (kLast W) (max (4 * m) 30)).length = max (4 * m) 30 := by simp [Spec.evenU]
  have hfit := fit_sections heps junk hS (u := Spec.evenU (kf W 0) (kLast W) (max (4 * m) 30)) (v := v) (Q := Q) (n := m) (by omega) hq hall hne (by omega)
    hcl' (by rw [hvn]; exact hV) hvin hreg (by
      intro x hx
      obtain ⟨i, hi, rfl⟩ := List.mem_map.mp hx
      exact sample_mem hWlt hN2 (List.mem_range.mp hi)) (by rw [hW0, hW1]; exact hdet m hcl') (by rw [hul, lQ, hlo, hvn]) (by rw [hul]; exact hQ) eP
  have hrun' : loftApprox eps junk dense ext (c0 :: cs) qMax = .ok s := by
    unfold loftApprox
    have hlen0 := hU.length_eq
    rw [if_neg (by omega), e1, R_bind_ok, e2, R_bind_ok, rd_ok hpos, R_bind_ok]
    show loftApproxOn eps junk dense ext (c0 :: cs) (out[0]).knots (out[0]).deg (max (min qMax (out.length - 1)) 1) out.length (max (4 * m) 30) = _
    rw [hck, hcd, hlo, ← hqd, hrun p q n kv (by rw [hlo]; exact ek), hfit, R_bind_ok, es]
  refine ⟨s, hrun', hwf, d1, d2, (Surface.mk?_fields es).1, by rw [d3, hW0], by rw [d4, hW1], by rw [d5, b0 q le_rfl], ?_, ?_⟩
  · rw [d5, d6, b0 q le_rfl, hvn, b1 n le_rfl (by omega)]
    rw [show n - 1 = t.length - 1 by omega]
    linarith
  · intro j c b hj hb
    obtain ⟨hjl, rfl⟩ := List.getElem?_eq_some_iff.mp hj
    have hjo : j < out.length := by rw [← hU.length_eq]; exact hjl
    refine isoIs_of_unified hk.good.lt (hU.get hjl hjo) ?_
    intro u du junk junk' g1 g2
    exact hval j _ b (List.getElem?_eq_getElem hjo) hb u du junk junk' (by rw [hW0]; exact g1) (by rw [hW1]; exact g2)

/-- Knots of multiplicity at most `p + 1`. -/
theorem Clamped.mult {c : CurveInfo K V} (h : c.Clamped) {j : ℕ} (hj : j < c.poles.length) : kf c.knots j < kf c.knots (j + c.deg + 1) := by
  have hmono := kf_mono h.sorted
  have hlen := h.len
  refine lt_of_le_of_ne (hmono (by omega)) fun he => ?_
  have hcount := h.count_le (kf c.knots j)
  rcases Nat.eq_zero_or_pos j with h0 | h0
  · subst h0
    have h1 : kf c.knots (c.deg + 1) = kf c.knots 0 := by rw [he]; congr 1; omega
    have h2 := h.kc.wf.first
    have h3 := hmono (show 0 ≤ c.deg by omega)
    rw [h1] at h2
    exact absurd h2 (not_lt.mpr h3)
  · have := count_ge h.sorted (v := kf c.knots j) (k := j - 1) (i := j + c.deg + 1) (by omega) (by omega) (by
      intro i h1 h2
      exact le_antisymm (by rw [he]; exact hmono h2) (hmono (by omega)))
    omega

/-- C115: no more sections than the greatest degree allows plus one (four, by default), and samples close enough for the knots of the sections: nothing
else is asked of the stations, the sections are kept. -/
theorem C115_few_sections {eps : K} (heps : 0 < eps) (junk : K) {dense : ℕ → (ℕ → ℕ → K) → List V → R (List V)} (hS : Spec.SolvesDense dense)
    {c0 : CurveInfo K V} {cs : List (CurveInfo K V)} (hcs : cs ≠ []) (hdeg : ∀ c ∈ c0 :: cs, c.deg ≤ 12)
    (hcl : ∀ c ∈ c0 :: cs, ∃ ks ms, c.toCurve.ClampedBy eps ks ms)
    (hsep : SepL eps ((c0 :: cs).flatMap fun c => c.knots.map (rescale (kf c0.knots 0) (kLast c0.knots) c.knots)))
    {qMax : ℕ} (hfew : cs.length ≤ qMax) (hq : cs.length ≤ stackMaxDegree) (hmem : (13 * Spec.totalKnots (c0 :: cs)) * (2 * cs.length + 2) < 2 ^ 64) :
    ∃ out p W, (unifyDegree eps (c0 :: cs) >>= unifyKnots eps) = .ok out ∧ List.Forall₂ (Unified eps c0.toCurve.b0 c0.toCurve.b1 p W) (c0 :: cs) out ∧
      ∀ (ext : CurveInfo K V → R (K × K × K)) (t : List K), Spec.Feet eps ext out t →
        (∀ m, W.length = m + p + 1 → Spec.FineFor W p m (max (4 * m) 30)) →
        ∃ s, loftApprox eps junk dense ext (c0 :: cs) qMax = .ok s ∧ s.Wf ∧ s.degU = p ∧ s.degV = cs.length ∧
          s.u0 = c0.toCurve.b0 ∧ s.u1 = c0.toCurve.b1 ∧ s.v0 = kf (Spec.stations t) 0 ∧ s.v1 = s.v0 + 1 ∧
          ∀ (j : ℕ) (c : CurveInfo K V) (b : K), (c0 :: cs)[j]? = some c → (Spec.stations t)[j]? = some b →
            Spec.IsoIs eps s c0.toCurve.b0 c0.toCurve.b1 c b := by
  have hcp := List.length_pos_iff.mpr hcs
  have hs24 : stackMaxDegree = 24 := rfl
  obtain ⟨out, p, W, eo, hU, hp, hp', H⟩ := C115_sections heps junk hS hdeg hcl hsep (qMax := qMax) (q := cs.length) (n := cs.length + 1) rfl (by omega)
    hq (by convert hmem using 2; omega)
  refine ⟨out, p, W, eo, hU, ?_⟩
  intro ext t ht hfine
  have hp12 : p ≤ 12 := by obtain ⟨c, hc, rfl⟩ := hp'; exact hdeg c hc
  obtain ⟨s, es, a1, a2, a3, -, a4, a5, a6, a7, a8⟩ := H ext t ht (by
    intro kv ekv j hj1 hj2
    have hlo : out.length = cs.length + 1 := by rw [← hU.length_eq]; rfl
    have htl := ht.len
    have hsl := stations_length t
    have hst := Feet.stations_lt heps ht
    have hlt : ∀ i k, i < k → k < cs.length + 1 → kf (Spec.stations t) i < kf (Spec.stations t) k := by
      intro i k hik hk
      rw [kf_of_lt (by omega), kf_of_lt (by omega)]
      exact List.pairwise_iff_getElem.mp hst i k _ _ hik
    obtain ⟨k, ek, lk, k0, k1, km, hw⟩ := C54_uniform_knots (V := K) (n := cs.length + 1) (p := cs.length) le_rfl (hlt 0 (cs.length + 1 - 1) (by omega) (by omega))
    rw [ekv] at ek
    obtain rfl := Except.ok.inj ek
    rw [(kf_of_some (k0 j (by omega))).2, (kf_of_some (k1 (j + cs.length + 1) (by omega) (by omega))).2]
    exact ⟨hlt 0 j (by omega) (by omega), hlt j _ (by omega) (by omega)⟩) (by
    intro m hm
    obtain ⟨c0', cs', h0, -, rfl⟩ := List.forall₂_cons_left_iff.mp hU
    have hkc := h0.clamped.kc
    have hpl : c0'.poles.length = m := by
      have := h0.clamped.len
      rw [h0.knots, h0.deg] at this
      omega
    have hK : KWf p W m := by have := hkc.wf.kwf; rwa [h0.knots, h0.deg, hpl] at this
    have w0 : kf W 0 = kf W p := by have := hkc.kf_zero.trans hkc.d0.symm; rwa [h0.knots, h0.deg] at this
    have w1 : kLast W = kf W m := by have := hkc.kLast.trans hkc.d1.symm; rwa [h0.knots, hpl] at this
    have g0 : c0.toCurve.b0 = kf W p := by rw [← w0, ← h0.knots]; exact h0.b0.symm
    have g1 : c0.toCurve.b1 = kf W m := by rw [← w1, ← h0.knots]; exact h0.b1.symm
    obtain ⟨f1, f2⟩ := hfine m hm
    rw [g0, g1]
    exact determines_of_step heps (by omega) hK w0 w1 (by
      intro j hj
      have := Clamped.mult h0.clamped (j := j) (by omega)
      rwa [h0.knots, h0.deg] at this) f1 f2)
  exact ⟨s, es, a1, a2, a3, a4, a5, a6, a7, a8⟩

/-! ## The least-squares fit -/

/-- Poles that are not determined by a grid of values: others give the same values. -/
theorem grid_undetermined [Nontrivial V] {eps : K} (heps : 0 < eps) {p q n m : ℕ} (hp : p ≤ stackMaxDegree) (hq : q ≤ stackMaxDegree) {ku kv : List K}
    (hU : KWf p ku n) (hV : KWf q kv m) {u v : List K} (hu : ∀ x ∈ u, kf ku p ≤ x ∧ x ≤ kf ku n) (hv : ∀ x ∈ v, kf kv q ≤ x ∧ x ≤ kf kv m)
    (h : ¬ Spec.Determines eps ku p n u ∨ ¬ Spec.Determines eps kv q m v) {P : List V} (hP : P.length = n * m) :
    ∃ P' : List V, P'.length = n * m ∧ P' ≠ P ∧ ∀ x ∈ u, ∀ y ∈ v, ∀ i j, findSpan n p x ku = .ok i → findSpan m q y kv = .ok j →
      surfDer (kf ku) n p i (kf kv) m q j (pf P') 0 0 x y = surfDer (kf ku) n p i (kf kv) m q j (pf P) 0 0 x y := by
  obtain ⟨su, hsu⟩ := exists_spans hU u
  obtain ⟨sv, hsv⟩ := exists_spans hV v
  have hmu := hU.min
  have hmv := hV.min
  rw [Determines.iff_rows heps hU hp hsu hu, Determines.iff_rows heps hV hq hsv hv] at h
  obtain ⟨w, hw⟩ := exists_ne (0 : V)
  obtain ⟨D, ⟨a, b, ha, hb, hab⟩, hD⟩ : ∃ D : ℕ → ℕ → K, (∃ a b, a < n ∧ b < m ∧ D a b ≠ 0) ∧ ∀ r s, r < u.length → s < v.length →
      ∑ b ∈ Finset.range m, coll kv v q 1 sv s b * ∑ a ∈ Finset.range n, coll ku u p 1 su r a * D a b = 0 := by
    rcases h with h | h <;> push Not at h <;> obtain ⟨x, hx, j, hj, hne⟩ := h
    · refine ⟨fun a _ => x a, ⟨j, 0, hj, by omega, hne⟩, ?_⟩
      intro r s hr _
      exact Finset.sum_eq_zero fun b _ => by rw [hx r hr, mul_zero]
    · refine ⟨fun _ b => x b, ⟨0, j, by omega, hj, hne⟩, ?_⟩
      intro r s _ hs
      have : ∑ b ∈ Finset.range m, coll kv v q 1 sv s b * ∑ a ∈ Finset.range n, coll ku u p 1 su r a * x b =
          (∑ a ∈ Finset.range n, coll ku u p 1 su r a) * ∑ b ∈ Finset.range m, coll kv v q 1 sv s b * x b := by
        rw [Finset.mul_sum]
        refine Finset.sum_congr rfl fun b _ => ?_
        rw [← Finset.sum_mul]
        ring
      rw [this, hx s hs, mul_zero]
  have hget : ∀ c, c < n * m → pf ((List.range (n * m)).map fun c => pf P c + D (c % n) (c / n) • w) c = pf P c + D (c % n) (c / n) • w :=
    fun c hc => pf_map_range (fun c => pf P c + D (c % n) (c / n) • w) hc
  have hmod : ∀ a b, a < n → (a + n * b) % n = a ∧ (a + n * b) / n = b := fun a b ha => by
    rw [Nat.add_mul_mod_self_left, Nat.mod_eq_of_lt ha, Nat.add_mul_div_left _ _ (by omega), Nat.div_eq_of_lt ha, zero_add]
    exact ⟨rfl, rfl⟩
  refine ⟨(List.range (n * m)).map fun c => pf P c + D (c % n) (c / n) • w, by simp, ?_, ?_⟩
  · intro he
    have h1 := hget (a + n * b) (grid_lt ha hb)
    rw [he, (hmod a b ha).1, (hmod a b ha).2, left_eq_add] at h1
    rcases smul_eq_zero.mp h1 with h1 | h1
    · exact hab h1
    · exact hw h1
  · intro x hx y hy i j hi hj
    obtain ⟨r, hr, rfl⟩ := List.getElem_of_mem hx
    obtain ⟨s, hs, rfl⟩ := List.getElem_of_mem hy
    rw [← kf_of_lt hr] at hi ⊢
    rw [← kf_of_lt hs] at hj ⊢
    rw [hsu.find r hr] at hi
    rw [hsv.find s hs] at hj
    obtain rfl := Except.ok.inj hi
    obtain rfl := Except.ok.inj hj
    rw [surfDer_congr_poles (P' := fun c => pf P c + D (c % n) (c / n) • w - 0) (by intro k hk; rw [hget k hk, sub_zero]), surfDer_sum]
    have z : ∀ (C : ℕ → V), (∀ c, C c = 0) → surfDer (kf ku) n p (su r) (kf kv) m q (sv s) C 0 0 (kf u r) (kf v s) = 0 := by
      intro C hC
      unfold surfDer spanDer
      simp [hC]
    rw [z _ fun _ => rfl, sub_zero]
    have e : surfDer (kf ku) n p (su r) (kf kv) m q (sv s) (fun c => D (c % n) (c / n) • w) 0 0 (kf u r) (kf v s) = 0 := by
      rw [← zero_smul K w, ← hD r s hr hs, Finset.sum_smul]
      unfold surfDer spanDer
      refine Finset.sum_congr rfl fun b _ => ?_
      rw [mul_smul, coll_eval, Finset.sum_smul]
      refine congrArg _ (Finset.sum_congr rfl fun a ha => ?_)
      show _ • (D ((a + n * b) % n) ((a + n * b) / n) • w) = _
      rw [(hmod a b (Finset.mem_range.mp ha)).1, (hmod a b (Finset.mem_range.mp ha)).2, coll_eval, mul_smul]
      rfl
    rw [e, add_zero]

/-- `Q` are the points of the sections at evenly spaced fractions of their intervals: point `i` of section `j` is at `i + N * j`. -/
def Spec.SectionPoints (eps : K) (cs : List (CurveInfo K V)) (N : ℕ) (Q : List V) : Prop :=
  Q.length = N * cs.length ∧ ∀ (i j : ℕ) (c : CurveInfo K V), cs[j]? = some c → i < N → ∀ junk,
    c.toCurve.value eps junk (c.toCurve.b0 + (c.toCurve.b1 - c.toCurve.b0) * (i / ((N : K) - 1))) 0 = .ok (pf Q (i + N * j))

theorem sectionPoints_of {eps junk : K} {a b : K} {q : ℕ} {W : List K} {cs out : List (CurveInfo K V)} (hU : List.Forall₂ (Unified eps a b q W) cs out)
    (ha : kf W 0 = a) (hb : kLast W = b) {N : ℕ} (hN : 2 ≤ N) {Q : List V} (hQ : Q.length = N * out.length)
    (h : ∀ (i j : ℕ) (c : CurveInfo K V) (x : K), out[j]? = some c → (Spec.evenU (kf W 0) (kLast W) N)[i]? = some x →
      c.toCurve.value eps junk x 0 = .ok (pf Q (i + N * j))) : Spec.SectionPoints eps cs N Q := by
  refine ⟨by rw [hQ, hU.length_eq], ?_⟩
  intro i j c hc hi junk'
  obtain ⟨hj, rfl⟩ := List.getElem?_eq_some_iff.mp hc
  have hjo : j < out.length := by rw [← hU.length_eq]; exact hj
  have hd : (0 : K) < (N : K) - 1 := by
    have : (2 : K) ≤ N := by exact_mod_cast hN
    linarith
  have hiN : (i : K) + 1 ≤ N := by exact_mod_cast hi
  obtain ⟨pt, v1, v2⟩ := (hU.get hj hjo).value (i / ((N : K) - 1)) 0 (by positivity) (by rw [div_le_one hd]; linarith) junk' junk
  simp only [List.get_eq_getElem] at v1 v2
  have hx := h i j _ _ (List.getElem?_eq_getElem hjo) (show (Spec.evenU (kf W 0) (kLast W) N)[i]? = some (Spec.sample (kf W 0) (kLast W) N i) by
    unfold Spec.evenU
    rw [List.getElem?_map, List.getElem?_range hi]
    rfl)
  rw [ha, hb, show Spec.sample a b N i = a + (b - a) * (i / ((N : K) - 1)) by unfold Spec.sample; ring, v2, pow_zero, one_smul] at hx
  rw [v1, Except.ok.inj hx]

/-- The stations, the uniform knots and the points of the fit. -/
theorem loftApproxOn_fit {eps : K} (heps : 0 < eps) (junk : K) (dense : ℕ → (ℕ → ℕ → K) → List V → R (List V))
    {c0 : CurveInfo K V} {cs : List (CurveInfo K V)} (hdeg : ∀ c ∈ c0 :: cs, c.deg ≤ 12)
    (hcl : ∀ c ∈ c0 :: cs, ∃ ks ms, c.toCurve.ClampedBy eps ks ms)
    (hsep : SepL eps ((c0 :: cs).flatMap fun c => c.knots.map (rescale (kf c0.knots 0) (kLast c0.knots) c.knots)))
    {p q nu nv nU : ℕ} {ku : List K} (hU : KWf p ku nu)
    (hb0 : kf ku 0 = c0.toCurve.b0) (hb1 : kLast ku = c0.toCurve.b1) (hqn : q + 1 ≤ nv) (hnU : 2 ≤ nU) :
    ∃ out, (unifyDegree eps (c0 :: cs) >>= unifyKnots eps) = .ok out ∧ ∀ (ext : CurveInfo K V → R (K × K × K)) (t : List K), Spec.Feet eps ext out t →
      ∃ kv Q, buildSimpleMultFlatKnots (kf (Spec.stations t) 0) (kf (Spec.stations t) cs.length) nv q = .ok kv ∧ KWf q kv nv ∧
        kf kv 0 = kf kv q ∧ kLast kv = kf kv nv ∧ (Spec.stations t).length = cs.length + 1 ∧
        (∀ x ∈ Spec.stations t, kf kv q ≤ x ∧ x ≤ kf kv nv) ∧ Spec.SectionPoints eps (c0 :: cs) nU Q ∧
        (∀ x ∈ Spec.evenU c0.toCurve.b0 c0.toCurve.b1 nU, c0.toCurve.b0 ≤ x ∧ x ≤ c0.toCurve.b1) ∧
        loftApproxOn eps junk dense ext (c0 :: cs) ku p q nv nU =
          (approxGrid eps junk dense Q ku kv (Spec.evenU c0.toCurve.b0 c0.toCurve.b1 nU) (Spec.stations t) p q >>= fun X => Surface.mk? eps X ku kv p q) := by
  obtain ⟨mid, out, p', W, e1, e2, hp12, -, -, hne, hUn, hall, -, hW0, hW1, hWl⟩ := loft_unify heps hdeg hcl hsep
  refine ⟨out, by rw [e1, R_bind_ok, e2], ?_⟩
  intro ext t ht
  have hs24 : stackMaxDegree = 24 := rfl
  have hlo : out.length = cs.length + 1 := by rw [← hUn.length_eq]; rfl
  obtain ⟨h2, hunit⟩ := Feet.unit heps ht
  have htl := ht.len
  have hsl := stations_length t
  have hst := Feet.stations_lt heps ht
  obtain ⟨kv, ek, lk, k0, k1, km, hw⟩ := C54_uniform_knots (V := K) hqn (show kf (Spec.stations t) 0 < kf (Spec.stations t) cs.length by
    rw [show cs.length = t.length - 1 by omega]; linarith)
  have b0 : ∀ j, j ≤ q → kf kv j = kf (Spec.stations t) 0 := fun j hj => (kf_of_some (k0 j hj)).2
  have b1 : ∀ j, nv ≤ j → j ≤ nv + q → kf kv j = kf (Spec.stations t) cs.length := fun j h1 h2 => (kf_of_some (k1 j h1 h2)).2
  have hV : KWf q kv nv := by simpa using (hw (List.replicate nv 0) (by simp)).kwf
  obtain ⟨ks, ms, hk⟩ := hcl c0 List.mem_cons_self
  have hWlt : kf W 0 ≤ kLast W := by rw [hW0, hW1]; exact hk.good.lt.le
  have hlu := hU.len
  obtain ⟨Q, lQ, hQ, hrun⟩ := loftApproxOn_run heps junk dense e1 e2 (hUn.length_eq) (by omega) hall ht (ku := ku) (nU := nU)
    (by rintro rfl; simp at hlu) (by rw [hb0, hW0]) (by rw [hb1, hW1]) hWlt hnU
  refine ⟨kv, Q, ek, hV, by rw [b0 0 (by omega), b0 q le_rfl], by unfold kLast; rw [b1 nv le_rfl (by omega)]; exact b1 _ (by omega) (by omega), by omega, ?_,
    sectionPoints_of hUn hW0 hW1 hnU lQ hQ, ?_, ?_⟩
  · intro b hb
    obtain ⟨i, hi, rfl⟩ := List.getElem_of_mem hb
    rw [b0 q le_rfl, b1 nv le_rfl (by omega), ← kf_of_lt hi]
    have hmo := kf_mono (hst.imp le_of_lt)
    exact ⟨hmo (by omega), hmo (by omega)⟩
  · intro x hx
    obtain ⟨i, hi, rfl⟩ := List.mem_map.mp hx
    exact sample_mem hk.good.lt.le hnU (List.mem_range.mp hi)
  · have := hrun p q nv kv (by rw [hlo]; exact ek)
    rw [hW0, hW1] at this
    exact this

variable {dim : ℕ}

/-- C115, the overload for given knots: on clamped knots on the interval of the first section, when the samples and the stations determine the poles, the
result is the surface on these knots and on the uniform knots of the stations whose poles are the only ones with the least sum of squares of
distances to the points of the sections (in homogeneous coordinates for rational sections). -/
theorem C115_least_squares {eps : K} (heps : 0 < eps) (junk : K) {dense : ℕ → (ℕ → ℕ → K) → List (Fin dim → K) → R (List (Fin dim → K))}
    (hS : Spec.SolvesDense dense) {c0 : CurveInfo K (Fin dim → K)} {cs : List (CurveInfo K (Fin dim → K))} (hdeg : ∀ c ∈ c0 :: cs, c.deg ≤ 12)
    (hcl : ∀ c ∈ c0 :: cs, ∃ ks ms, c.toCurve.ClampedBy eps ks ms)
    (hsep : SepL eps ((c0 :: cs).flatMap fun c => c.knots.map (rescale (kf c0.knots 0) (kLast c0.knots) c.knots)))
    {p q nu nv nU : ℕ} (hp : p ≤ stackMaxDegree) (hq : q ≤ stackMaxDegree) {ku : List K} (hU : KWf p ku nu)
    (h0 : kf ku 0 = kf ku p) (h1 : kLast ku = kf ku nu) (hb0 : kf ku 0 = c0.toCurve.b0) (hb1 : kLast ku = c0.toCurve.b1) (hqn : q + 1 ≤ nv) (hnU : 2 ≤ nU)
    (hmem : (nu + p + 1) * (nv + q + 1) < 2 ^ 64) :
    ∃ out, (unifyDegree eps (c0 :: cs) >>= unifyKnots eps) = .ok out ∧
      ∀ (ext : CurveInfo K (Fin dim → K) → R (K × K × K)) (t : List K), Spec.Feet eps ext out t →
      ∃ kv, buildSimpleMultFlatKnots (kf (Spec.stations t) 0) (kf (Spec.stations t) cs.length) nv q = .ok kv ∧
        (Spec.Determines eps ku p nu (Spec.evenU c0.toCurve.b0 c0.toCurve.b1 nU) → Spec.Determines eps kv q nv (Spec.stations t) →
          ∃ s Q, loftApproxOn eps junk dense ext (c0 :: cs) ku p q nv nU = .ok s ∧ s.Wf ∧ s.degU = p ∧ s.degV = q ∧ s.knotsU = ku ∧ s.knotsV = kv ∧
            Spec.SectionPoints eps (c0 :: cs) nU Q ∧
            Spec.SurfLeastSquares eps ku kv p q (nu * nv) (Spec.gridOf (Spec.evenU c0.toCurve.b0 c0.toCurve.b1 nU) (Spec.stations t) Q) s.poles) := by
  obtain ⟨out, eo, H⟩ := loftApproxOn_fit heps junk dense hdeg hcl hsep (nU := nU) hU hb0 hb1 hqn hnU
  refine ⟨out, eo, ?_⟩
  intro ext t ht
  obtain ⟨kv, Q, ek, hV, z0, z1, hsl, hvin, hQ, huin, hrun⟩ := H ext t ht
  refine ⟨kv, ek, ?_⟩
  intro hdu hdv
  have hul : (Spec.evenU c0.toCurve.b0 c0.toCurve.b1 nU).length = nU := by simp [Spec.evenU]
  have huin' : ∀ x ∈ Spec.evenU c0.toCurve.b0 c0.toCurve.b1 nU, kf ku p ≤ x ∧ x ≤ kf ku nu := by rw [← h0, ← h1, hb0, hb1]; exact huin
  have hnu := Determines.le_length heps hp hU huin' hdu
  have hnv := Determines.le_length heps hq hV hvin hdv
  have hQl : Q.length = (Spec.evenU c0.toCurve.b0 c0.toCurve.b1 nU).length * (Spec.stations t).length := by rw [hul, hsl, hQ.1]; rfl
  obtain ⟨P, eP, hP⟩ := C80_approx_grid heps junk hp hq hS hU hV hQl (by rw [hQl]; exact Nat.mul_le_mul hnu hnv) huin' hvin hdu hdv
  obtain ⟨s, es, hs, hwf, -⟩ := surf_clamped heps hU hV hP.1 hp hq hmem h0 h1 z0 z1
  refine ⟨s, Q, by rw [hrun, eP, R_bind_ok, es], hwf, by rw [hs], by rw [hs], by rw [hs], by rw [hs], hQ, ?_⟩
  rw [hs]
  exact hP

/-- C115: when the samples or the stations do not determine the poles, the result, if any, is not the only surface on its knots with its distances to
the points of the sections, whatever the solver: another one has the same values at all the samples. -/
theorem C115_undetermined [Nontrivial V] {eps : K} (heps : 0 < eps) (junk : K) (dense : ℕ → (ℕ → ℕ → K) → List V → R (List V))
    {c0 : CurveInfo K V} {cs : List (CurveInfo K V)} (hdeg : ∀ c ∈ c0 :: cs, c.deg ≤ 12)
    (hcl : ∀ c ∈ c0 :: cs, ∃ ks ms, c.toCurve.ClampedBy eps ks ms)
    (hsep : SepL eps ((c0 :: cs).flatMap fun c => c.knots.map (rescale (kf c0.knots 0) (kLast c0.knots) c.knots)))
    {p q nu nv nU : ℕ} (hp : p ≤ stackMaxDegree) (hq : q ≤ stackMaxDegree) {ku : List K} (hU : KWf p ku nu)
    (h0 : kf ku 0 = kf ku p) (h1 : kLast ku = kf ku nu) (hb0 : kf ku 0 = c0.toCurve.b0) (hb1 : kLast ku = c0.toCurve.b1) (hqn : q + 1 ≤ nv) (hnU : 2 ≤ nU)
    (hmem : (nu + p + 1) * (nv + q + 1) < 2 ^ 64) :
    ∃ out, (unifyDegree eps (c0 :: cs) >>= unifyKnots eps) = .ok out ∧
      ∀ (ext : CurveInfo K V → R (K × K × K)) (t : List K), Spec.Feet eps ext out t →
      ∃ kv, buildSimpleMultFlatKnots (kf (Spec.stations t) 0) (kf (Spec.stations t) cs.length) nv q = .ok kv ∧
        (¬ Spec.Determines eps ku p nu (Spec.evenU c0.toCurve.b0 c0.toCurve.b1 nU) ∨ ¬ Spec.Determines eps kv q nv (Spec.stations t) →
          ∀ s, loftApproxOn eps junk dense ext (c0 :: cs) ku p q nv nU = .ok s → s.knotsU = ku ∧ s.knotsV = kv ∧
            ∃ s' : Surface K V, s'.Wf ∧ s'.degU = s.degU ∧ s'.degV = s.degV ∧ s'.knotsU = ku ∧ s'.knotsV = kv ∧ s'.poles ≠ s.poles ∧
              ∀ x ∈ Spec.evenU c0.toCurve.b0 c0.toCurve.b1 nU, ∀ y ∈ Spec.stations t, ∃ X, ∀ junk',
                s.value eps junk' x y 0 0 = .ok X ∧ s'.value eps junk' x y 0 0 = .ok X) := by
  obtain ⟨out, eo, H⟩ := loftApproxOn_fit heps junk dense hdeg hcl hsep (nU := nU) hU hb0 hb1 hqn hnU
  refine ⟨out, eo, ?_⟩
  intro ext t ht
  obtain ⟨kv, Q, ek, hV, z0, z1, hsl, hvin, hQ, huin, hrun⟩ := H ext t ht
  refine ⟨kv, ek, ?_⟩
  intro hsing s hs
  rw [hrun] at hs
  obtain ⟨X, -, hX⟩ := R_bind_eq_ok.mp hs
  have hlu := hU.len
  have hlv := hV.len
  have hXl : X.length = nu * nv := by
    obtain ⟨g, -⟩ := C27_constructor (eps := eps) X (ku := ku) (kv := kv) (p := p) (q := q) (by omega) (by omega) hU.sorted hV.sorted (by rw [hlu, hlv]; exact hmem)
    rw [(g.mp ⟨s, hX⟩).1]
    congr 1 <;> omega
  have huin' : ∀ x ∈ Spec.evenU c0.toCurve.b0 c0.toCurve.b1 nU, kf ku p ≤ x ∧ x ≤ kf ku nu := by rw [← h0, ← h1, hb0, hb1]; exact huin
  obtain ⟨s₁, es₁, hs₁, -, hval⟩ := surf_clamped heps hU hV hXl hp hq hmem h0 h1 z0 z1
  rw [hX] at es₁
  obtain rfl := Except.ok.inj es₁
  obtain ⟨P', lP', hne, hsame⟩ := grid_undetermined heps hp hq hU hV huin' hvin hsing hXl
  obtain ⟨s', es', hs', hwf, hval'⟩ := surf_clamped heps hU hV lP' hp hq hmem h0 h1 z0 z1
  refine ⟨by rw [hs₁], by rw [hs₁], s', hwf, by rw [hs', hs₁], by rw [hs', hs₁], by rw [hs'], by rw [hs'], by rw [hs', hs₁]; exact hne, ?_⟩
  intro x hx y hy
  obtain ⟨i, ei, -⟩ := findSpan_kwf hU x
  obtain ⟨j, ej, -⟩ := findSpan_kwf hV y
  obtain ⟨x0, x1⟩ := huin' x hx
  obtain ⟨y0, y1⟩ := hvin y hy
  exact ⟨_, fun junk' => ⟨hval x y i j x0 x1 y0 y1 ei ej junk' 0 0, by rw [hval' x y i j x0 x1 y0 y1 ei ej junk' 0 0, hsame x hx y hy i j ei ej]⟩⟩

/-- C115, the overload for a number of poles: that for given knots, on the uniform knots with these poles on the interval of the first section. -/
theorem C115_target_poles (eps junk : K) (dense : ℕ → (ℕ → ℕ → K) → List V → R (List V)) (ext : CurveInfo K V → R (K × K × K))
    {c0 : CurveInfo K V} {cs : List (CurveInfo K V)} (hcs : cs ≠ []) (hc : c0.knots ≠ []) (hlt : c0.toCurve.b0 < c0.toCurve.b1) {p nu : ℕ} (hnu : p + 1 ≤ nu)
    (q nv nU : ℕ) :
    ∃ ku, KWf p ku nu ∧ kf ku 0 = kf ku p ∧ kLast ku = kf ku nu ∧ kf ku 0 = c0.toCurve.b0 ∧ kLast ku = c0.toCurve.b1 ∧
      (∀ j, 1 ≤ j → j < nu - p → kf ku (p + j) = c0.toCurve.b0 + (c0.toCurve.b1 - c0.toCurve.b0) * j / ((nu - p : ℕ) + 1)) ∧
      loftApproxPoles eps junk dense ext (c0 :: cs) p q nu nv nU = loftApproxOn eps junk dense ext (c0 :: cs) ku p q nv nU := by
  obtain ⟨ku, ek, lk, k0, k1, km, hw⟩ := C54_uniform_knots (V := K) hnu hlt
  have b0 : ∀ j, j ≤ p → kf ku j = c0.toCurve.b0 := fun j hj => (kf_of_some (k0 j hj)).2
  have b1 : ∀ j, nu ≤ j → j ≤ nu + p → kf ku j = c0.toCurve.b1 := fun j h1 h2 => (kf_of_some (k1 j h1 h2)).2
  have hl : kLast ku = c0.toCurve.b1 := by unfold kLast; exact b1 _ (by omega) (by omega)
  refine ⟨ku, by simpa using (hw (List.replicate nu 0) (by simp)).kwf, by rw [b0 0 (by omega), b0 p le_rfl], by rw [hl, b1 nu le_rfl (by omega)], b0 0 (by omega), hl,
    fun j h1 h2 => (kf_of_some (km j h1 h2)).2, ?_⟩
  have hcp := List.length_pos_iff.mpr hcs
  have hkp := List.length_pos_iff.mpr hc
  unfold loftApproxPoles
  rw [if_neg (by simp; omega), rd_ok (by simp), R_bind_ok]
  show (rd c0.knots 0 >>= fun k0 => usub c0.knots.length 1 >>= fun l => rd c0.knots l >>= fun k1 =>
    buildSimpleMultFlatKnots k0 k1 nu p >>= fun ku => loftApproxOn eps junk dense ext (c0 :: cs) ku p q nv nU) = _
  rw [rd_kf hkp, R_bind_ok, usub_ok (by omega), R_bind_ok, rd_kf (by omega), R_bind_ok]
  show (buildSimpleMultFlatKnots c0.toCurve.b0 c0.toCurve.b1 nu p >>= _) = _
  rw [ek, R_bind_ok]

/-- C115: fewer than two sections are refused by the three overloads. -/
theorem C115_too_few {eps junk : K} {dense : ℕ → (ℕ → ℕ → K) → List V → R (List V)} {ext : CurveInfo K V → R (K × K × K)} {cs : List (CurveInfo K V)}
    (h : cs.length < 2) (ku : List K) (p q nu nv nU qMax : ℕ) :
    loftApproxOn eps junk dense ext cs ku p q nv nU = .error (.thrown .length) ∧
    loftApproxPoles eps junk dense ext cs p q nu nv nU = .error (.thrown .length) ∧
    loftApprox eps junk dense ext cs qMax = .error (.thrown .length) := by
  refine ⟨?_, ?_, ?_⟩
  · unfold loftApproxOn; rw [if_pos h]
  · unfold loftApproxPoles; rw [if_pos h]
  · unfold loftApprox; rw [if_pos h]

/-! ## Examples -/

namespace Sample

/-- The foot of a rung on a vertical spine parametrized by the height. -/
def footOf (c : CurveInfo ℚ (ℚ × ℚ)) : R (ℚ × ℚ × ℚ) := .ok ((pf c.poles 0).2, 0, 0)

theorem rung_fine : Spec.FineFor ([0, 0, 1, 1] : List ℚ) 1 2 30 := by
  refine ⟨by decide, ?_⟩
  intro i h1 h2 _
  obtain rfl : i = 1 := by omega
  simp [kf]
  norm_num

theorem rung_clamped {hs : List ℚ} : ∀ c ∈ hs.map rung, ∃ ks ms, c.toCurve.ClampedBy (1/10 : ℚ) ks ms := by
  intro c hc
  obtain ⟨h, -, rfl⟩ := List.mem_map.mp hc
  exact ⟨_, _, seg_clampedBy (by norm_num) _ _⟩

theorem rung_feet (hs : List ℚ) (h : 1/10 < |kf hs (hs.length - 1) - kf hs 0|) (ho : hs.Pairwise (· < ·) ∨ hs.Pairwise (· > ·)) :
    Spec.Feet (1/10) footOf (hs.map rung) hs := by
  refine ⟨by simp, ?_, h, ho⟩
  intro j c x hc hx
  rw [List.getElem?_map, hx] at hc
  obtain rfl := Option.some.inj hc
  exact ⟨0, 0, rfl⟩

/-- Two rungs: the surface, its domain and its sections, whatever the solver. -/
theorem rung_loft {dense : ℕ → (ℕ → ℕ → ℚ) → List (ℚ × ℚ) → R (List (ℚ × ℚ))} (hS : Spec.SolvesDense dense) {a b : ℚ} (hab : 1/10 < |b - a|)
    (eo : unifyDegree (1/10) [rung a, rung b] >>= unifyKnots (1/10) = .ok [rung a, rung b])
    (hsep : SepL (1/10) ([rung a, rung b].flatMap fun c => c.knots.map (rescale (kf (rung a).knots 0) (kLast (rung a).knots) c.knots)))
    (hmem : (13 * Spec.totalKnots [rung a, rung b]) * (2 * 1 + 2) < 2 ^ 64) :
    ∃ s, loftApprox (1/10) 0 dense footOf [rung a, rung b] 3 = .ok s ∧ s.degV = 1 ∧ s.v0 = a / (b - a) ∧ s.v1 = s.v0 + 1 ∧
      Spec.IsoIs (1/10) s 0 1 (rung a) (a / (b - a)) ∧ Spec.IsoIs (1/10) s 0 1 (rung b) (b / (b - a)) := by
  have hne : a ≠ b := by rintro rfl; norm_num at hab
  obtain ⟨out, p, W, eo', hU, H⟩ := C115_few_sections (eps := 1/10) (by norm_num) 0 hS (c0 := rung a) (cs := [rung b]) (by simp)
    (by intro c hc; simp at hc; rcases hc with rfl | rfl <;> exact (by decide : 1 ≤ 12)) (rung_clamped (hs := [a, b])) hsep (qMax := 3) (by simp) (by simp [stackMaxDegree]) hmem
  rw [eo] at eo'
  obtain rfl := Except.ok.inj eo'
  obtain ⟨hp, hW⟩ : p = 1 ∧ W = [0, 0, 1, 1] := by
    cases hU with
    | cons h _ => exact ⟨h.deg.symm, h.knots.symm⟩
  subst hp hW
  obtain ⟨s, e, -, -, d, -, -, v0, v1, hs⟩ := H footOf [a, b] (rung_feet [a, b] (by simpa [kf] using hab) (by
      rcases lt_or_gt_of_ne hne with h | h
      · exact Or.inl (by simpa using h)
      · exact Or.inr (by simpa using h))) (by
      intro m hm
      obtain rfl : m = 2 := by simp at hm; omega
      exact rung_fine)
  exact ⟨s, e, d, v0, v1, hs 0 _ _ rfl rfl, hs 1 _ _ rfl rfl⟩

/-- The hypotheses of `C115_sections` and of `C115_few_sections` hold for two segments and a straight spine. -/
example {dense : ℕ → (ℕ → ℕ → ℚ) → List (ℚ × ℚ) → R (List (ℚ × ℚ))} (hS : Spec.SolvesDense dense) :
    ∃ s, loftApprox (1/10) 0 dense footOf [rung 0, rung 2] 3 = .ok s ∧ s.v0 = 0 ∧ s.v1 = 1 ∧ Spec.IsoIs (1/10) s 0 1 (rung 2) 1 := by
  obtain ⟨s, e, -, v0, v1, -, h⟩ := rung_loft hS (a := 0) (b := 2) (by norm_num) (by decide +kernel) (by unfold SepL; decide +kernel) (by decide +kernel)
  norm_num at v0 h
  exact ⟨s, e, v0, by rw [v1, v0]; norm_num, h⟩

/-- C115: the parameters along the spine are not brought to `[0, 1]`, which the comment of the program says: feet at 1 and 3 give the domain
`[1/2, 3/2]`, and the same sections in the other order give `[-3/2, -1/2]`. -/
theorem _root_.Gbs.C115_domain_witness {dense : ℕ → (ℕ → ℕ → ℚ) → List (ℚ × ℚ) → R (List (ℚ × ℚ))} (hS : Spec.SolvesDense dense) :
    (∃ s, loftApprox (1/10) 0 dense footOf [rung 1, rung 3] 3 = .ok s ∧ s.v0 = 1/2 ∧ s.v1 = 3/2) ∧
    ∃ s, loftApprox (1/10) 0 dense footOf [rung 3, rung 1] 3 = .ok s ∧ s.v0 = -3/2 ∧ s.v1 = -1/2 := by
  refine ⟨?_, ?_⟩
  · obtain ⟨s, e, -, v0, v1, -⟩ := rung_loft hS (a := 1) (b := 3) (by norm_num) (by decide +kernel) (by unfold SepL; decide +kernel) (by decide +kernel)
    norm_num at v0
    exact ⟨s, e, v0, by rw [v1, v0]; norm_num⟩
  · obtain ⟨s, e, -, v0, v1, -⟩ := rung_loft hS (a := 3) (b := 1) (by norm_num) (by decide +kernel) (by unfold SepL; decide +kernel) (by decide +kernel)
    norm_num at v0
    exact ⟨s, e, by rw [v0]; norm_num, by rw [v1, v0]; norm_num⟩

/-- Six rungs, five of them at one end of the spine. -/
def cluster : List ℚ := [0, 1, 2, 3, 4, 40]

def clusterV : List ℚ := [0, 0, 0, 0, 1/4, 1/2, 1, 1, 1, 1]

theorem cluster_stations : Spec.stations cluster = [0, 1/40, 1/20, 3/40, 1/10, 1] := by
  simp [Spec.stations, cluster, kf]
  norm_num

theorem clusterV_wf : KWf 3 clusterV 6 := by
  constructor <;> simp [clusterV, kf] <;> norm_num

/-- A basis function vanishes at all the stations. -/
theorem cluster_undetermined : ¬ Spec.Determines (1/10) clusterV 3 6 (Spec.stations cluster) := by
  intro h
  have := h [0, 0, 0, 0, 1, 0] rfl (by
    rw [cluster_stations]
    intro x hx junk
    have hj : evalValue (1/10) junk x clusterV ([0, 0, 0, 0, 1, 0] : List ℚ) 3 0 = evalValue (1/10) 0 x clusterV [0, 0, 0, 0, 1, 0] 3 0 := by
      have hw : Wf 3 clusterV ([0, 0, 0, 0, 1, 0] : List ℚ) := clusterV_wf.wf rfl
      obtain ⟨i, ei, -⟩ := findSpan_wf hw x
      rw [evalValue_spec hw (by decide) _ _ _ _ ei, evalValue_spec hw (by decide) _ _ _ _ ei]
    rw [hj]
    simp only [List.mem_cons, List.not_mem_nil, or_false] at hx
    rcases hx with rfl | rfl | rfl | rfl | rfl | rfl <;> decide +kernel) 1 (by simp)
  exact one_ne_zero this

/-- C115: the guide does not make the fit well-posed, which the comment of the program says. With the default arguments, six sections of which five are
close to each other leave a pole without effect on the distances: whatever the solver returns, another surface passes through the same points of
the sections. -/
theorem _root_.Gbs.C115_clustered_witness (dense : ℕ → (ℕ → ℕ → ℚ) → List (ℚ × ℚ) → R (List (ℚ × ℚ))) {s : Surface ℚ (ℚ × ℚ)}
    (h : loftApprox (1/10) 0 dense footOf (cluster.map rung) 3 = .ok s) :
    ∃ s' : Surface ℚ (ℚ × ℚ), s'.Wf ∧ s'.degU = s.degU ∧ s'.degV = s.degV ∧ s'.knotsU = s.knotsU ∧ s'.knotsV = s.knotsV ∧ s'.poles ≠ s.poles ∧
      ∀ x ∈ Spec.evenU (0 : ℚ) 1 30, ∀ y ∈ ([0, 1/40, 1/20, 3/40, 1/10, 1] : List ℚ), ∃ X, ∀ junk',
        s.value (1/10) junk' x y 0 0 = .ok X ∧ s'.value (1/10) junk' x y 0 0 = .ok X := by
  have eo : unifyDegree (1/10) (cluster.map rung) >>= unifyKnots (1/10) = .ok (cluster.map rung) := by decide +kernel
  obtain ⟨out, eo', H⟩ := C115_undetermined (eps := 1/10) (by norm_num) 0 dense (c0 := rung 0) (cs := [1, 2, 3, 4, 40].map rung)
    (by
      intro c hc
      obtain ⟨h, -, rfl⟩ := List.mem_map.mp (show c ∈ cluster.map rung from hc)
      exact (by decide : 1 ≤ 12)) (rung_clamped (hs := cluster)) (by unfold SepL; decide +kernel) (p := 1) (q := 3) (nu := 2) (nv := 6) (nU := 30)
    (by decide) (by decide) (ku := [0, 0, 1, 1]) (by constructor <;> simp [kf]) (by simp [kf]) (by simp [kLast, kf]) rfl rfl (by decide) (by decide) (by decide)
  change (unifyDegree (1/10) (cluster.map rung) >>= unifyKnots (1/10)) = _ at eo'
  rw [eo] at eo'
  obtain rfl := Except.ok.inj eo'
  obtain ⟨kv, ek, H⟩ := H footOf cluster (rung_feet cluster (by norm_num [cluster, kf]) (Or.inl (by decide +kernel)))
  have ek' : buildSimpleMultFlatKnots (kf (Spec.stations cluster) 0) (kf (Spec.stations cluster) 5) 6 3 = .ok clusterV := by
    rw [cluster_stations]
    decide +kernel
  obtain rfl := Except.ok.inj (ek.symm.trans ek')
  have hrun : loftApprox (1/10) 0 dense footOf (cluster.map rung) 3 = loftApproxOn (1/10) 0 dense footOf (cluster.map rung) [0, 0, 1, 1] 1 3 6 30 := by
    obtain ⟨mid, e1, e2⟩ := R_bind_eq_ok.mp eo
    unfold loftApprox
    rw [if_neg (by decide), e1, R_bind_ok, e2, R_bind_ok]
    rfl
  rw [hrun] at h
  obtain ⟨k1, k2, s', w, d1, d2, k3, k4, ne, hv⟩ := H (Or.inr cluster_undetermined) s h
  refine ⟨s', w, d1, d2, by rw [k3, k1], by rw [k4, k2], ne, ?_⟩
  rw [cluster_stations] at hv
  exact hv

/-- Fewer than two sections. -/
example : loftApprox (1/10) 0 (fun _ _ B => .ok B) footOf [rung 1] 3 = .error (.thrown .length) :=
  (C115_too_few (by decide) [0, 0, 1, 1] 1 1 2 2 30 3).2.2

/-- The hypotheses of `C115_target_poles` for degree 2 and four poles on two segments. -/
example (dense : ℕ → (ℕ → ℕ → ℚ) → List (ℚ × ℚ) → R (List (ℚ × ℚ))) : ∃ ku, KWf 2 ku 4 ∧ kf ku 3 = 1/3 ∧
    loftApproxPoles (1/10) 0 dense footOf [rung 0, rung 2] 2 1 4 2 30 = loftApproxOn (1/10) 0 dense footOf [rung 0, rung 2] ku 2 1 2 30 := by
  obtain ⟨ku, hk, -, -, -, -, hm, e⟩ := C115_target_poles (1/10) 0 dense footOf (c0 := rung 0) (cs := [rung 2]) (by simp) (by simp [rung])
    (by show (0 : ℚ) < 1; norm_num) (p := 2) (nu := 4) (by decide) 1 2 30
  refine ⟨ku, hk, ?_, e⟩
  have := hm 1 le_rfl (by decide)
  rw [show 2 + 1 = 3 from rfl] at this
  rw [this]
  norm_num [rung, CurveInfo.toCurve, kf, kLast]

/-- A segment in the plane, as the lists of coordinates of its ends. -/
def bar (h : ℚ) : CurveInfo ℚ (Fin 2 → ℚ) := ⟨[![0, h], ![1 + h, h]], [0, 0, 1, 1], 1⟩

/-- The hypotheses of `C115_least_squares` hold for two segments fitted on their own knots. -/
example {dense : ℕ → (ℕ → ℕ → ℚ) → List (Fin 2 → ℚ) → R (List (Fin 2 → ℚ))} (hS : Spec.SolvesDense dense) :
    ∃ s Q, loftApproxOn (1/10) 0 dense (fun c => .ok ((pf c.poles 0) 1, 0, 0)) [bar 0, bar 2] [0, 0, 1, 1] 1 1 2 5 = .ok s ∧
      Spec.SectionPoints (1/10) [bar 0, bar 2] 5 Q ∧
      Spec.SurfLeastSquares (1/10) [0, 0, 1, 1] [0, 0, 1, 1] 1 1 4 (Spec.gridOf (Spec.evenU 0 1 5) [0, 1] Q) s.poles := by
  have hU : KWf 1 ([0, 0, 1, 1] : List ℚ) 2 := by constructor <;> simp [kf]
  have hget : ((unifyDegree (1/10) [bar 0, bar 2] >>= unifyKnots (1/10)).toOption.getD []).map (fun c => (pf c.poles 0) 1) = [0, 2] := by decide +kernel
  obtain ⟨out, eo', H⟩ := C115_least_squares (eps := 1/10) (by norm_num) 0 hS (c0 := bar 0) (cs := [bar 2])
    (by intro c hc; simp at hc; rcases hc with rfl | rfl <;> decide)
    (by
      intro c hc
      simp only [List.mem_cons, List.not_mem_nil, or_false] at hc
      rcases hc with rfl | rfl <;> exact ⟨_, _, seg_clampedBy (by norm_num) _ _⟩) (by unfold SepL; decide +kernel) (p := 1) (q := 1) (nu := 2) (nv := 2) (nU := 5)
    (by decide) (by decide) hU (by simp [kf]) (by simp [kLast, kf]) rfl rfl (by decide) (by decide) (by decide)
  have ho : out.map (fun c => (pf c.poles 0) 1) = [0, 2] := by
    simp only [eo', Except.toOption, Option.getD_some] at hget
    exact hget
  obtain ⟨kv, ek, H⟩ := H (fun c => .ok ((pf c.poles 0) 1, 0, 0)) [0, 2] ⟨by rw [← ho]; simp, by
      intro j c t hc ht
      rw [← ho, List.getElem?_map, hc] at ht
      obtain rfl := Option.some.inj ht
      exact ⟨0, 0, rfl⟩, by norm_num [kf], Or.inl (by simp)⟩
  have hst : Spec.stations ([0, 2] : List ℚ) = [0, 1] := by simp [Spec.stations, kf]
  rw [hst] at ek H
  have ek' : buildSimpleMultFlatKnots (kf ([0, 1] : List ℚ) 0) (kf [0, 1] 1) 2 1 = .ok [0, 0, 1, 1] := by decide +kernel
  obtain rfl := Except.ok.inj (ek.symm.trans ek')
  have hdet : ∀ u : List ℚ, (0 : ℚ) ∈ u → (1 : ℚ) ∈ u → Spec.Determines (1/10) [0, 0, 1, 1] 1 2 u := by
    intro u h0 h1 P hP hv y hy
    match P, hP with
    | [a, b], _ =>
      have e0 := hv 0 h0 0
      have e1 := hv 1 h1 0
      have hw : Wf 1 ([0, 0, 1, 1] : List ℚ) [a, b] := hU.wf rfl
      rw [evalValue_spec hw (by decide) _ _ _ _ (show findSpan 2 1 (0 : ℚ) [0, 0, 1, 1] = .ok 1 by decide +kernel)] at e0
      rw [evalValue_spec hw (by decide) _ _ _ _ (show findSpan 2 1 (1 : ℚ) [0, 0, 1, 1] = .ok 1 by decide +kernel)] at e1
      have e0 := Except.ok.inj e0
      have e1 := Except.ok.inj e1
      simp [spanDer, Finset.sum_range_succ, Bp, kf, pf] at e0 e1
      simp at hy
      rcases hy with rfl | rfl <;> assumption
  obtain ⟨s, Q, e, -, -, -, -, -, hQ, hL⟩ := H (hdet _ (by decide +kernel) (by decide +kernel)) (hdet _ (by simp) (by simp))
  exact ⟨s, Q, e, hQ, hL⟩

end Sample

end Gbs
