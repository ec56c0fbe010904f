import Verif.Model.Iges
import Verif.Props.Evaluation
import Verif.Props.Surface
import Verif.Props.Revolution
import Verif.Lemmas.Tfi
import Mathlib.Data.List.GetD

/-!
# C119: export to IGES
-/

set_option linter.unusedSectionVars false

namespace Gbs

variable {K : Type} [Field K] [LinearOrder K]

/-- The first `n` blocks of `s` numbers of an array. -/
def Spec.blocks (s n : ℕ) (l : List K) : R (List (List K)) :=
  (List.range n).mapM fun i => (List.range s).mapM fun c => rd l (s * i + c)

/-- What the entity 126 reads: three coordinates for each pole, and the weight of rational curves. -/
def Spec.igesPoles (e : IgesCurve K) : R (List (List K)) := Spec.blocks (if e.rational then 4 else 3) e.n e.coeffs

/-- What the entity 128 reads. -/
def Spec.igesNet (e : IgesSurface K) : R (List (List K)) := Spec.blocks (if e.rational then 4 else 3) (e.nU * e.nV) e.coeffs

/-- The coordinate `k` of the curve of an entity 126, in homogeneous coordinates for rational curves. -/
noncomputable def Spec.igesCoord (e : IgesCurve K) (B : List (List K)) (u : K) (k : ℕ) : K :=
  Spec.curve (kf e.knots) e.n (e.order - 1) (fun i => (B.getD i []).getD k 0) u

/-- The coordinate `k` of the surface of an entity 128, whose poles are stored with the first index running first. -/
noncomputable def Spec.igesSurfCoord (e : IgesSurface K) (B : List (List K)) (u v : K) (k : ℕ) : K :=
  ∑ j ∈ Finset.range e.nV, ∑ i ∈ Finset.range e.nU, (Spec.N (kf e.knotsU) (kf e.knotsU e.nU) (e.orderU - 1) i u *
    Spec.N (kf e.knotsV) (kf e.knotsV e.nV) (e.orderV - 1) j v) * (B.getD (i + e.nU * j) []).getD k 0

theorem flatMap_getElem? {α : Type} {s : ℕ} {f : α → List K} (hf : ∀ x, (f x).length = s) : ∀ (P : List α) (i c : ℕ), c < s →
    (P.flatMap f)[s * i + c]? = (P[i]?).bind fun x => (f x)[c]? := by
  intro P
  induction P with
  | nil => intro i c _; simp
  | cons a P ih =>
    intro i c hc
    rw [List.flatMap_cons]
    cases i with
    | zero => rw [List.getElem?_append_left (by rw [hf]; omega)]; simp
    | succ i =>
      rw [List.getElem?_append_right (by rw [hf, Nat.mul_succ]; omega), hf, show s * (i + 1) + c - s = s * i + c by rw [Nat.mul_succ]; omega, ih i c hc]
      simp

theorem blocks_flat {α : Type} {s : ℕ} {f : α → List K} (hf : ∀ x, (f x).length = s) (P : List α) :
    Spec.blocks s P.length (P.flatMap f) = .ok (P.map f) := by
  unfold Spec.blocks
  have h1 : ∀ i ∈ List.range P.length, ((List.range s).mapM fun c => rd (P.flatMap f) (s * i + c)) = .ok ((P[i]?).elim [] f) := by
    intro i hi
    rw [List.mem_range] at hi
    rw [mapM_ok (g := fun c => (f P[i]).getD c 0)]
    · congr 1
      rw [List.getElem?_eq_getElem hi]
      apply List.ext_getElem
      · simp [hf]
      · intro c h1 h2
        simp only [List.getElem_map, List.getElem_range, Option.elim_some] at h2 ⊢
        rw [List.getD_eq_getElem _ _ h2]
    · intro c hc
      rw [List.mem_range] at hc
      rw [rd_eq_ok, flatMap_getElem? hf P i c hc, List.getElem?_eq_getElem hi, Option.bind_some,
        List.getElem?_eq_getElem (by rw [hf]; exact hc), List.getD_eq_getElem _ _ (by rw [hf]; exact hc)]
  rw [mapM_ok (g := fun i => (P[i]?).elim [] f) _ h1]
  congr 1
  apply List.ext_getElem
  · simp
  · intro i h1 h2
    rw [List.length_map] at h2
    simp [List.getElem?_eq_getElem h2]

theorem flatPoles_length {d : ℕ} (P : List (Fin d → K)) : (flatPoles P).length = d * P.length := by
  unfold flatPoles
  rw [List.length_flatMap]
  simp [Nat.mul_comm]

theorem flatPolesRat_length {d : ℕ} (P : List ((Fin d → K) × K)) : (flatPolesRat P).length = (d + 1) * P.length := by
  unfold flatPolesRat
  rw [List.length_flatMap]
  simp [Nat.mul_comm]

variable [IsStrictOrderedRing K]

/-- C119: a curve of the space is given to the entity 126 with its poles and knots; the library reads each array to its end, and the curve it makes is
the curve. -/
theorem C119_curve {eps : K} (heps : 0 < eps) {c : Curve K (Fin 3 → K)} (h : c.Good) (hb : c.BigOk eps) :
    (igesCurve c).u1 = c.b0 ∧ (igesCurve c).u2 = c.b1 ∧ (igesCurve c).knots.length = (igesCurve c).n + (igesCurve c).order ∧
    (igesCurve c).coeffs.length = 3 * (igesCurve c).n ∧ ∃ B, Spec.igesPoles (igesCurve c) = .ok B ∧
      ∀ u junk, c.b0 ≤ u → u ≤ c.b1 → c.value eps junk u = .ok fun k => Spec.igesCoord (igesCurve c) B u k := by
  refine ⟨rfl, rfl, ?_, flatPoles_length _, c.poles.map List.ofFn, blocks_flat (s := 3) (fun x => by simp) c.poles, fun u junk h1 h2 => ?_⟩
  · have := h.wf.len
    show c.knots.length = c.poles.length + (c.deg + 1)
    omega
  · rw [C04_value_eq_sum heps h hb h1 h2]
    congr 1
    funext k
    unfold Spec.igesCoord Spec.curve
    rw [Finset.sum_apply]
    refine Finset.sum_congr rfl fun i hi => ?_
    have hi' : i < c.poles.length := Finset.mem_range.mp hi
    fin_cases k <;> simp [igesCurve, pf, List.getD_eq_getElem?_getD, hi']

/-- C119: a rational curve of the space is given to the entity 126 with its poles in homogeneous coordinates, multiplied by their weights: taken so, the
curve is the quotient of the first three coordinates by the fourth. -/
theorem C119_rational {eps : K} (heps : 0 < eps) {c : Curve K ((Fin 3 → K) × K)} (h : c.Good) (hb : c.BigOk eps) :
    (igesCurveRat c).u1 = c.b0 ∧ (igesCurveRat c).u2 = c.b1 ∧ (igesCurveRat c).knots.length = (igesCurveRat c).n + (igesCurveRat c).order ∧
    (igesCurveRat c).coeffs.length = 4 * (igesCurveRat c).n ∧ ∃ B, Spec.igesPoles (igesCurveRat c) = .ok B ∧
      ∀ u junk, c.b0 ≤ u → u ≤ c.b1 → Spec.igesCoord (igesCurveRat c) B u 3 ≠ 0 →
        c.ratValue eps junk u = .ok fun k => Spec.igesCoord (igesCurveRat c) B u k / Spec.igesCoord (igesCurveRat c) B u 3 := by
  refine ⟨rfl, rfl, ?_, flatPolesRat_length _, c.poles.map fun q : (Fin 3 → K) × K => List.ofFn q.1 ++ [q.2],
    blocks_flat (s := 4) (fun x : (Fin 3 → K) × K => by simp) c.poles,
    fun u junk h1 h2 hw => ?_⟩
  · have := h.wf.len
    show c.knots.length = c.poles.length + (c.deg + 1)
    omega
  · obtain ⟨H, e1, e2⟩ := C15_quotient_rule heps h hb h1 h2 junk
    have e3 := e1 0
    rw [C04_value_eq_sum heps h hb h1 h2] at e3
    have e4 := Except.ok.inj e3
    have hB : ∀ i < c.poles.length, (c.poles.map fun q => List.ofFn q.1 ++ [q.2]).getD i [] = List.ofFn (pf c.poles i).1 ++ [(pf c.poles i).2] := by
      intro i hi
      simp [pf, List.getD_eq_getElem?_getD, hi]
    have c3 : Spec.igesCoord (igesCurveRat c) (c.poles.map fun q => List.ofFn q.1 ++ [q.2]) u 3 = (H 0).2 := by
      rw [← e4, Prod.snd_sum]
      unfold Spec.igesCoord Spec.curve
      refine Finset.sum_congr rfl fun i hi => ?_
      beta_reduce
      rw [hB i (Finset.mem_range.mp hi)]
      simp [igesCurveRat]
    have ck : ∀ k : Fin 3, Spec.igesCoord (igesCurveRat c) (c.poles.map fun q => List.ofFn q.1 ++ [q.2]) u k = (H 0).1 k := by
      intro k
      rw [← e4, Prod.fst_sum, Finset.sum_apply]
      unfold Spec.igesCoord Spec.curve
      refine Finset.sum_congr rfl fun i hi => ?_
      beta_reduce
      rw [hB i (Finset.mem_range.mp hi)]
      fin_cases k <;> simp [igesCurveRat]
    rw [c3] at hw
    obtain ⟨C, f1, f2⟩ := e2 hw
    rw [f1 0 (by omega)]
    congr 1
    have := f2 0 (by omega)
    simp only [Finset.sum_range_succ, Finset.sum_range_zero, zero_add, Nat.choose_self, Nat.cast_one, one_mul, Nat.sub_self] at this
    funext k
    rw [c3, ck, ← this, Pi.smul_apply, smul_eq_mul, mul_div_cancel_left₀ _ hw]

theorem mapM_only {α β : Type} {f : α → R β} {er : Err} (h : ∀ x e, f x = .error e → e = er) {l : List α} {e : Err} (hl : l.mapM f = .error e) :
    e = er := by
  induction l with
  | nil => cases hl
  | cons a l ih =>
    rw [List.mapM_cons] at hl
    rcases ha : f a with e' | y
    · rw [ha] at hl
      cases hl
      exact h a _ ha
    · rw [ha, R_bind_ok] at hl
      rcases hr : l.mapM f with e' | r
      · rw [hr] at hl
        cases hl
        exact ih hr
      · rw [hr] at hl
        cases hl

/-- C119: the poles of a curve of the plane have two numbers (three with the weight): the library reads after the end of the array. -/
theorem C119_plane {c : Curve K (Fin 2 → K)} {c' : Curve K ((Fin 2 → K) × K)} (h : c.poles ≠ []) (h' : c'.poles ≠ []) :
    Spec.igesPoles (igesCurve c) = .error .oob ∧ Spec.igesPoles (igesCurveRat c') = .error .oob := by
  have key : ∀ (s n : ℕ) (l : List K), l.length < s * n → Spec.blocks s n l = .error .oob := by
    intro s n l hl
    have hn : 0 < n := Nat.pos_of_ne_zero (by rintro rfl; simp at hl)
    have hs : 0 < s := Nat.pos_of_ne_zero (by rintro rfl; simp at hl)
    rcases hb : Spec.blocks s n l with er | r
    · congr 1
      unfold Spec.blocks at hb
      exact mapM_only (fun i er' h => mapM_only (fun c er'' h => by
        unfold rd at h; split at h <;> simp_all) h) hb
    · exfalso
      obtain ⟨-, h2⟩ := mapM_range_inv hb
      obtain ⟨y, h3, -⟩ := h2 (n - 1) (by omega)
      obtain ⟨-, h4⟩ := mapM_range_inv h3
      obtain ⟨z, h5, -⟩ := h4 (s - 1) (by omega)
      have h6 := (List.getElem?_eq_some_iff.mp (rd_eq_ok.mp h5)).1
      obtain ⟨m, rfl⟩ : ∃ m, n = m + 1 := ⟨n - 1, by omega⟩
      rw [Nat.mul_succ] at hl
      rw [Nat.add_sub_cancel] at h6
      omega
  have hc := List.length_pos_iff.mpr h
  have hc' := List.length_pos_iff.mpr h'
  exact ⟨key _ _ _ (by show (flatPoles c.poles).length < 3 * c.poles.length; rw [flatPoles_length]; omega),
    key _ _ _ (by show (flatPolesRat c'.poles).length < 4 * c'.poles.length; rw [flatPolesRat_length]; omega)⟩

/-- C119: a surface of the space is given to the entity 128 with its poles and knots, and the surface it makes is the surface. -/
theorem C119_surface {eps : K} (heps : 0 < eps) {s : Surface K (Fin 3 → K)} (h : s.Wf) (hb : s.BigOk eps) :
    ∃ e B, igesSurface s = .ok e ∧ e.u1 = s.u0 ∧ e.u2 = s.u1 ∧ e.v1 = s.v0 ∧ e.v2 = s.v1 ∧ e.knotsU.length = e.nU + e.orderU ∧
      e.knotsV.length = e.nV + e.orderV ∧ e.coeffs.length = 3 * (e.nU * e.nV) ∧ Spec.igesNet e = .ok B ∧
      ∀ u v junk, s.In u v → s.value eps junk u v = .ok fun k => Spec.igesSurfCoord e B u v k := by
  have hu : s.degU + 1 ≤ s.knotsU.length := by have := h.u.len; omega
  have hv : s.degV + 1 ≤ s.knotsV.length := by have := h.v.len; omega
  have hl : s.poles.length = (s.knotsU.length - (s.degU + 1)) * (s.knotsV.length - (s.degV + 1)) := h.len
  refine ⟨⟨s.knotsU.length - (s.degU + 1), s.knotsV.length - (s.degV + 1), s.degU + 1, s.degV + 1, s.knotsU, s.knotsV, flatPoles s.poles, false, s.u0,
    s.u1, s.v0, s.v1⟩, s.poles.map List.ofFn, ?_, rfl, rfl, rfl, rfl, by simp only; omega, by simp only; omega, by rw [flatPoles_length, hl], ?_, ?_⟩
  · unfold igesSurface Surface.nU Surface.nV
    rw [usub_ok hu, R_bind_ok, usub_ok hv, R_bind_ok]
    rfl
  · have := blocks_flat (s := 3) (f := List.ofFn) (fun x : Fin 3 → K => by simp) s.poles
    rw [hl] at this
    exact this
  · intro u v junk hi
    rw [C27_value_eq_sum heps h hb hi junk rfl rfl]
    congr 1
    funext k
    unfold Spec.igesSurfCoord
    rw [Finset.sum_apply]
    refine Finset.sum_congr rfl fun j hj => ?_
    rw [Finset.sum_apply]
    refine Finset.sum_congr rfl fun i hi => ?_
    have hij : i + (s.knotsU.length - (s.degU + 1)) * j < s.poles.length := by
      rw [hl]
      have h1 := Finset.mem_range.mp hi
      have h2 := Finset.mem_range.mp hj
      simp only at h1 h2
      calc i + (s.knotsU.length - (s.degU + 1)) * j < (s.knotsU.length - (s.degU + 1)) * (j + 1) := by rw [Nat.mul_succ]; omega
        _ ≤ _ := Nat.mul_le_mul_left _ h2
    fin_cases k <;> simp [pf, List.getD_eq_getElem?_getD, hij]

/-! ## Surfaces of revolution -/

theorem curve_const {c : Curve K (Fin 2 → K)} (h : c.Good) {u : K} (h1 : c.b0 ≤ u) (h2 : u ≤ c.b1) {V : Type} [AddCommGroup V] [Module K V] (s : V) :
    ∑ i ∈ Finset.range c.poles.length, Spec.N (kf c.knots) (kf c.knots c.poles.length) c.deg i u • s = s := by
  obtain ⟨i, -, a1, a2, -, hs, -⟩ := findSpan_wf h.wf u
  have hin := hs (by rw [← h.lo]; exact h1) (by rw [← h.hi]; exact h2)
  have := spanDer_eq_curve (kf_mono h.wf.sorted) (p := c.deg) (P := fun _ => s) hin
  unfold Spec.curve at this
  rw [← this, spanDer_const (kf_mono h.wf.sorted) (InSpan_bounds hin).2.2 a1 a2, if_pos rfl]

/-- Rotation by the angle `v` about the line through `O` in the direction of the unit vector `d`. -/
noncomputable def Spec.turn (O d : Fin 3 → ℝ) (v : ℝ) (p : Fin 3 → ℝ) : Fin 3 → ℝ :=
  O + (Real.cos v • (p - O) + Real.sin v • cross3 d (p - O) + ((1 - Real.cos v) * dot d (p - O)) • d)

/-- The point of an entity 120: the point of the generatrix turned about the line. -/
noncomputable def Spec.igesTurned (e : IgesRevolution ℝ) (B : List (List ℝ)) (u v : ℝ) : Fin 3 → ℝ :=
  Spec.turn e.start (e.stop - e.start) v fun k => Spec.igesCoord e.generatrix B u k

section
variable {eps : ℝ} {c : Curve ℝ (Fin 2 → ℝ)} {P : List (Fin 2 → ℝ)} {U : List ℝ} {p : ℕ} {F : Ax2 ℝ} {x y z : Fin 3 → ℝ}

/-- C119: a surface of revolution with a B-Spline profile is given to the entity 120 with its axis and its profile in the space, for every frame: the
surface that the library makes is the rotation of the profile about the axis of the frame, the abscissa running along the axis from the origin of the
frame and the ordinate being the distance to it. -/
theorem C119_revolution (heps : 0 < eps) (hmk : Curve.mk? eps P U p = .ok c) (h : c.Good) (hb : c.BigOk eps) (hF : F.Ortho) (hv : FrameVec F x y z)
    (a1 a2 : ℝ) :
    ∃ e B, igesRevolution Real.sqrt eps c F a1 a2 = .ok e ∧ Spec.igesPoles e.generatrix = .ok B ∧ e.generatrix.coeffs.length = 3 * e.generatrix.n ∧
      e.generatrix.u1 = c.b0 ∧ e.generatrix.u2 = c.b1 ∧ e.a1 = a1 ∧ e.a2 = a2 ∧
      ∀ u v junk X Y, c.b0 ≤ u → u ≤ c.b1 → c.value eps junk u = .ok ![X, Y] →
        Spec.igesTurned e B u v = F.O + X • z + (Real.cos v • (Y • x) + Real.sin v • (Y • y)) := by
  obtain ⟨M, hM, hp⟩ := revolution_matrix hv hF
  have hz : vdiv F.z (vnorm Real.sqrt F.z) = .ok z := by rw [vdiv_real (vnorm_ne_zero isSqrt_real hF.z_ne), hv.hz]
  obtain ⟨-, q1, q2, q3, -, -, -⟩ := hv.props hF
  obtain ⟨g1, g2, g3, -⟩ := C11_accepted heps.le hmk
  have hmk3 : Curve.mk? eps (c.poles.map fun p => transformed4 M ![p 0, p 1, 0]) c.knots c.deg =
      .ok ⟨c.deg, c.poles.map fun p => transformed4 M ![p 0, p 1, 0], c.knots, c.b0, c.b1⟩ := by
    rw [← g1, ← g2, ← g3] at hmk
    unfold Curve.mk? at hmk ⊢
    rw [List.length_map]
    generalize c.knots.head? = o1 at hmk ⊢
    generalize c.knots.getLast? = o2 at hmk ⊢
    rcases o1 with _ | o1 <;> rcases o2 with _ | o2 <;> try (simp at hmk; done)
    simp only at hmk ⊢
    obtain ⟨ok, k1, k2⟩ := R_bind_eq_ok.mp hmk
    rw [k1, R_bind_ok]
    split at k2
    · rw [if_pos ‹_›]
      have := Except.ok.inj k2
      have b0 := congrArg Curve.b0 this
      have b1 := congrArg Curve.b1 this
      simp only at b0 b1
      rw [← b0, ← b1]
      rfl
    · cases k2
  set c3 : Curve ℝ (Fin 3 → ℝ) := ⟨c.deg, c.poles.map fun p => transformed4 M ![p 0, p 1, 0], c.knots, c.b0, c.b1⟩ with hc3
  have hG : c3.Good := h.withPoles (by simp)
  obtain ⟨w1, w2, w3, w4, B, w5, w6⟩ := C119_curve heps hG (show c3.BigOk eps from hb)
  refine ⟨⟨F.O, F.O + z, igesCurve c3, a1, a2⟩, B, ?_, w5, w4, rfl, rfl, rfl, rfl, fun u v junk X Y h1 h2 hval => ?_⟩
  · unfold igesRevolution
    rw [hz, R_bind_ok, hM, R_bind_ok, hmk3, R_bind_ok]
    rfl
  have hpt : (fun k : Fin 3 => Spec.igesCoord (igesCurve c3) B u k) = X • z + Y • x + F.O := by
    have k1 := w6 u junk h1 h2
    rw [C04_value_eq_sum heps hG hb h1 h2] at k1
    rw [← Except.ok.inj k1]
    rw [C04_value_eq_sum heps h hb h1 h2] at hval
    have k2 := Except.ok.inj hval
    have kX := congrFun k2 0
    have kY := congrFun k2 1
    simp only [Finset.sum_apply, Pi.smul_apply, smul_eq_mul, Matrix.cons_val_zero, Matrix.cons_val_one] at kX kY
    rw [← kX, ← kY, Finset.sum_smul, Finset.sum_smul]
    conv_rhs => rw [← curve_const h h1 h2 F.O]
    rw [← Finset.sum_add_distrib, ← Finset.sum_add_distrib]
    simp only [hc3, List.length_map]
    refine Finset.sum_congr rfl fun i hi => ?_
    have hi' := Finset.mem_range.mp hi
    have : pf (c.poles.map fun p => transformed4 M ![p 0, p 1, 0]) i = (pf c.poles i 0) • z + (pf c.poles i 1) • x + F.O := by
      rw [← hp]
      simp [pf, List.getD_eq_getElem?_getD, hi']
    rw [this]
    module
  unfold Spec.igesTurned Spec.turn
  simp only [hpt, add_sub_cancel_right, add_sub_cancel_left]
  have hcr : cross3 z (X • z + Y • x) = Y • y := by
    rw [cross3_comb, cross3_self, ← hv.hy]
    module
  have hd : dot z (X • z + Y • x) = X := by
    rw [dot_three] at q2 ⊢
    rw [sqNorm_three] at q1
    simp only [Pi.add_apply, Pi.smul_apply, smul_eq_mul]
    linear_combination X * q1 + Y * q2
  rw [hcr, hd]
  module

/-- C119: the point of the exported surface is not the one that the surface of revolution evaluates: they differ by the displacement of the origin of the
frame in the rotation about the parallel to the axis through the origin of the coordinates. -/
theorem C119_origin (heps : 0 < eps) (hmk : Curve.mk? eps P U p = .ok c) (h : c.Good) (hb : c.BigOk eps) (hF : F.Ortho) (hv : FrameVec F x y z)
    (a1 a2 : ℝ) {fmod : ℝ → ℝ → ℝ} (hf : IsFmod fmod) :
    ∃ e B, igesRevolution Real.sqrt eps c F a1 a2 = .ok e ∧ Spec.igesPoles e.generatrix = .ok B ∧ ∀ junk,
      ∃ s, revolution Real.sqrt Real.cos Real.sin fmod Real.pi (c.toA eps junk) F a1 a2 = .ok s ∧ ∀ u v, c.b0 ≤ u → u ≤ c.b1 →
        s.value u v 0 0 = .ok (Spec.igesTurned e B u v + (Spec.turn 0 z v F.O - F.O)) := by
  obtain ⟨e, B, e1, e2, -, -, -, -, -, e3⟩ := C119_revolution heps hmk h hb hF hv a1 a2
  obtain ⟨M, hM, hp⟩ := revolution_matrix hv hF
  have hz : vdiv F.z (vnorm Real.sqrt F.z) = .ok z := by rw [vdiv_real (vnorm_ne_zero isSqrt_real hF.z_ne), hv.hz]
  obtain ⟨-, q1, q2, q3, q4, q5, q6⟩ := hv.props hF
  refine ⟨e, B, e1, e2, fun junk => ?_⟩
  simp only [revolution, hz, hM, R_bind_ok, R_pure]
  refine ⟨_, rfl, fun u v h1 h2 => ?_⟩
  obtain ⟨pt, hpt⟩ : ∃ pt, c.value eps junk u = .ok pt := ⟨_, C04_value_eq_sum heps h hb h1 h2 junk⟩
  have hpt' : pt = ![pt 0, pt 1] := by funext i; fin_cases i <;> rfl
  obtain ⟨ec, es⟩ := cos_fmod hf v
  obtain ⟨L, l1, -, l3, l4⟩ := (C47_rotate3 isSqrt_real Real.cos Real.sin (fmod v (2 * Real.pi)) z (cs_one _)).1 q5
  rw [e3 u v junk (pt 0) (pt 1) h1 h2 (by rw [hpt]; exact congrArg _ hpt')]
  have hval : (c.toA eps junk).value u 0 = .ok pt := hpt
  simp only [hval, R_bind_ok, hp, if_true]
  rw [l1]
  congr 1
  have hO : dot z (F.O - dot z F.O • z) = 0 := by
    rw [sqNorm_three] at q1
    rw [dot_three, dot_three]
    simp only [Pi.sub_apply, Pi.smul_apply, smul_eq_mul]
    linear_combination (-(z 0 * F.O 0 + z 1 * F.O 1 + z 2 * F.O 2)) * q1
  have hLO : L F.O = dot z F.O • z + (Real.cos v • (F.O - dot z F.O • z) + Real.sin v • cross3 z F.O) := by
    have : F.O = dot z F.O • z + (F.O - dot z F.O • z) := by module
    conv_lhs => rw [this]
    rw [map_add, map_smul, l3, l4 _ hO, q6, ec, es, inv_one, one_smul]
    congr 3
    have : F.O - dot z F.O • z = (-dot z F.O) • z + (1 : ℝ) • F.O := by module
    rw [this, cross3_comb, cross3_self]
    module
  rw [map_add, map_add, map_smul, map_smul, l3, l4 x q2, hLO, q6, ec, es, ← hv.hy]
  unfold Spec.turn
  simp only [sub_zero, zero_add, add_zero]
  module

end

namespace Sample

/-- A segment parallel to the axis of the abscissas. -/
noncomputable def c119 : Curve ℝ (Fin 2 → ℝ) := ⟨1, [![0, 1], ![2, 1]], [0, 0, 1, 1], 0, 1⟩

theorem c119_good : c119.Good :=
  ⟨⟨by simp [c119], by simp [c119], by simp [c119], by simp [c119, kf], by simp [c119, kf]⟩, by simp [c119, kf], by simp [c119, kf]⟩

theorem c119_big : c119.BigOk (1 / 1000000) := Or.inl (by simp [c119, stackMaxDegree])

theorem c119_mk : Curve.mk? (1 / 1000000) [![0, 1], ![2, 1]] [0, 0, 1, 1] 1 = .ok c119 :=
  (C11_constructor (1 / 1000000) [![(0 : ℝ), 1], ![2, 1]] (U := [0, 0, 1, 1]) (by simp) (by simp) 1).1 (by simp)

/-- A segment of the space. -/
noncomputable def s119 : Curve ℝ (Fin 3 → ℝ) := ⟨1, [![0, 1, 5], ![2, 1, 7]], [0, 0, 1, 1], 0, 1⟩

theorem s119_good : s119.Good := c119_good.withPoles (by simp [c119])

example : s119.Good ∧ s119.BigOk (1 / 1000000) := ⟨s119_good, Or.inl (by simp [s119, stackMaxDegree])⟩

/-- A rational segment of the space. -/
noncomputable def w119 : Curve ℝ ((Fin 3 → ℝ) × ℝ) := ⟨1, [(![0, 1, 5], 1), (![2, 1, 7], 2)], [0, 0, 1, 1], 0, 1⟩

example : w119.Good ∧ w119.BigOk (1 / 1000000) := ⟨c119_good.withPoles (by simp [c119]), Or.inl (by simp [w119, stackMaxDegree])⟩

example : c119.poles ≠ [] ∧ (⟨1, [(![0, 1], 1), (![2, 1], 2)], [0, 0, 1, 1], 0, 1⟩ : Curve ℝ ((Fin 2 → ℝ) × ℝ)).poles ≠ [] := by simp [c119]

/-- A bilinear surface. -/
noncomputable def t119 : Surface ℝ (Fin 3 → ℝ) := ⟨1, 1, [![0, 0, 0], ![1, 0, 0], ![0, 1, 0], ![1, 1, 1]], [0, 0, 1, 1], [0, 0, 1, 1], 0, 1, 0, 1⟩

example : t119.Wf ∧ t119.BigOk (1 / 1000000) ∧ t119.In (1 / 2) (1 / 3) := by
  have hk : KWf 1 ([0, 0, 1, 1] : List ℝ) 2 := c119_good.wf.kwf
  exact ⟨⟨hk, hk, rfl⟩, Or.inl (by simp [t119, stackMaxDegree]), by
    constructor <;> simp [t119, Surface.nPU, Surface.nPV, kf] <;> norm_num⟩

/-- C119: the segment turned about an axis through `(1,0,0)`: after half a turn the exported surface has its first point at the abscissa 0, the surface
of revolution at -2. -/
theorem _root_.Gbs.C119_witness {fmod : ℝ → ℝ → ℝ} (hf : IsFmod fmod) : ∃ e B s, ∃ q : Fin 3 → ℝ,
    igesRevolution Real.sqrt (1 / 1000000) c119 (Sample.frame ![1, 0, 0]) 0 (2 * Real.pi) = .ok e ∧ Spec.igesPoles e.generatrix = .ok B ∧
    revolution Real.sqrt Real.cos Real.sin fmod Real.pi (c119.toA (1 / 1000000) 0) (Sample.frame ![1, 0, 0]) 0 (2 * Real.pi) = .ok s ∧
    s.value 0 Real.pi 0 0 = .ok q ∧ Spec.igesTurned e B 0 Real.pi 0 = 0 ∧ q 0 = -2 := by
  have hF := Sample.frame_ortho ![1, 0, 0]
  have hv := Sample.frame_vec ![1, 0, 0]
  obtain ⟨e, B, e1, e2, e3⟩ := C119_origin (by norm_num) c119_mk c119_good c119_big hF hv 0 (2 * Real.pi) hf
  obtain ⟨e', B', d1, d2, -, -, -, -, -, d3⟩ := C119_revolution (by norm_num) c119_mk c119_good c119_big hF hv 0 (2 * Real.pi)
  obtain rfl := Except.ok.inj (e1.symm.trans d1)
  obtain rfl := Except.ok.inj (e2.symm.trans d2)
  obtain ⟨s, s1, s2⟩ := e3 0
  have hval : c119.value (1 / 1000000) 0 0 = .ok ![0, 1] := by
    rw [C04_value_eq_sum (by norm_num) c119_good c119_big (by simp [c119]) (by simp [c119])]
    congr 1
    funext k
    fin_cases k <;> simp [c119, Finset.sum_range_succ, Spec.N, Spec.InSpan, kf, pf]
  have hp := d3 0 Real.pi 0 0 1 (by simp [c119]) (by simp [c119]) hval
  have h0 : Spec.igesTurned e B 0 Real.pi 0 = 0 := by
    rw [hp]
    simp [Sample.frame]
  refine ⟨e, B, s, _, e1, e2, s1, s2 0 Real.pi (by simp [c119]) (by simp [c119]), h0, ?_⟩
  rw [Pi.add_apply, h0]
  simp [Spec.turn, Sample.frame, cross3, dot_three]
  norm_num

end Sample

end Gbs
