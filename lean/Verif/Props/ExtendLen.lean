import Verif.Lemmas.ExtendLen
import Verif.Props.ExtendSurf

/-!
# C89: extension of a surface by a length, at its four borders (`gbs/bsstools.h`)
-/

namespace Gbs

set_option linter.unusedSectionVars false

open scoped BigOperators

variable {K : Type} [Field K] [LinearOrder K] [IsStrictOrderedRing K]
variable {V : Type} [AddCommGroup V] [Module K V]
variable {dim : ℕ}

/-- The point at the distance `l` of `A v`, in the direction of `T v`. -/
def Spec.displaced (nrm : V → K) (l : K) (A T : K → V) (v : K) : V := A v + (l / nrm (T v)) • T v

/-- The `n` evenly spaced parameters from `v0` to `v1`. -/
def Spec.evenPars (v0 v1 : K) (n : ℕ) : List K := (List.range n).map (Spec.evenPar v0 v1 n)

/-- `c` is the curve on the knots `k`, from `E v0` to `E v1`, closest to the points of `E` at `n` evenly spaced parameters. -/
def Spec.Fits (eps : K) (k : List K) (p n : ℕ) (v0 v1 : K) (E : K → Fin dim → K) (c : Curve K (Fin dim → K)) : Prop :=
  Spec.LeastSquares eps (Spec.evenPars v0 v1 n) ((Spec.evenPars v0 v1 n).map E) (Spec.Joins eps k p (E v0) (E v1)) c

/-- The fitted curve is evaluated everywhere. -/
theorem Fits.value {eps : K} (heps : 0 < eps) {k : List K} {p n m : ℕ} (hU : KWf p k m) (hp : p ≤ stackMaxDegree) (h0 : kf k 0 = kf k p) (h1 : kLast k = kf k m)
    {v0 v1 : K} {E : K → Fin dim → K} {c : Curve K (Fin dim → K)} (h : Spec.Fits eps k p n v0 v1 E c) :
    ∃ B : K → Fin dim → K, ∀ v, kf k 0 ≤ v → v ≤ kLast k → ∀ junk, c.value eps junk v 0 = .ok (B v) := by
  have hg := h.1.1.good
  have hl := OnKnots.poles hU h.1.1
  have : ∀ v, ∃ b, kf k 0 ≤ v → v ≤ kLast k → ∀ junk, c.value eps junk v 0 = .ok b := by
    intro v
    by_cases hv : kf k 0 ≤ v ∧ v ≤ kLast k
    · obtain ⟨_, -, -, -, -, e⟩ := Curve.value_span heps hg (Or.inl (by rw [h.1.1.deg]; exact hp)) (u := v)
        (by rw [hg.lo, h.1.1.knots, h.1.1.deg, ← h0]; exact hv.1) (by rw [hg.hi, h.1.1.knots, hl, ← h1]; exact hv.2)
      exact ⟨_, fun _ _ junk => e junk 0⟩
    · exact ⟨0, fun a b => absurd ⟨a, b⟩ hv⟩
  choose B hB using this
  exact ⟨B, hB⟩

theorem pf_map_even {v0 v1 : K} {n i : ℕ} (hi : i < n) (E : K → V) : pf ((Spec.evenPars v0 v1 n).map E) i = E (kf (Spec.evenPars v0 v1 n) i) := by
  have hl : i < (Spec.evenPars v0 v1 n).length := by simpa [Spec.evenPars] using hi
  rw [pf, kf, List.getD_eq_getElem?_getD, List.getElem?_map, List.getElem?_eq_getElem hl]
  rfl

/-- C89: the curve at the distance `l` of the end border: the best curve on the knots of the surface along V for ten points by pole at that distance. -/
theorem C89_length_curve {eps : K} (heps : 0 < eps) (junk : K) {s : Surface K (Fin dim → K)} (hs : s.Cl) (hq : 1 ≤ s.degV) (l : K)
    {nrm : (Fin dim → K) → K} {dense : ℕ → (ℕ → ℕ → K) → List (Fin dim → K) → R (List (Fin dim → K))} (hS : Spec.SolvesDense dense) {T A : K → Fin dim → K}
    (hT : ∀ v, s.v0 ≤ v → v ≤ s.v1 → s.value eps junk s.u1 v 1 0 = .ok (T v) ∧ nrm (T v) ≠ 0)
    (hA : ∀ v, s.v0 ≤ v → v ≤ s.v1 → s.value eps junk s.u1 v 0 0 = .ok (A v))
    (hdet : Spec.Determines eps s.knotsV s.degV s.nPV (Spec.evenPars s.v0 s.v1 (s.nPV * 10))) :
    ∃ c, s.lengthCurve eps junk dense nrm l = .ok c ∧ Spec.Fits eps s.knotsV s.degV (s.nPV * 10) s.v0 s.v1 (Spec.displaced nrm l A T) c := by
  have hvlt : s.v0 < s.v1 := by
    rw [← hs.v01, ← hs.v10]
    exact lt_of_lt_of_le hs.wf.v.first (kf_mono hs.wf.v.sorted hs.wf.v.min)
  have hmin := hs.wf.v.min
  set n := s.nPV * 10 with hn
  have hn2 : 2 ≤ n := by omega
  have hnK : ((n : K) - 1) ≠ 0 := by
    have : (2 : K) ≤ n := by exact_mod_cast hn2
    linarith
  set E := Spec.displaced nrm l A T with hE
  obtain ⟨r, er, hr⟩ := forLt_inv (a := 0) (b := n) (s := (([] : List (Fin dim → K)), ([] : List K)))
    (body := fun i (r : List (Fin dim → K) × List K) => do
      let q ← fdiv ((s.v1 - s.v0) * i) (n - 1)
      let v := s.v0 + q
      let pt ← s.value eps junk s.u1 v 0 0
      let tg ← s.value eps junk s.u1 v 1 0
      let tg ← vdiv tg (nrm tg)
      pure (r.1 ++ [pt + l • tg], r.2 ++ [v]))
    (fun k r => r = (((List.range k).map (Spec.evenPar s.v0 s.v1 n)).map E, (List.range k).map (Spec.evenPar s.v0 s.v1 n))) (Nat.zero_le _) (by simp) (by
      rintro i _ - hi rfl
      obtain ⟨b0, b1⟩ := evenPar_in hvlt hn2 hi
      refine ⟨_, ?_, rfl⟩
      rw [fdiv_ok hnK, R_bind_ok]
      have e : s.v0 + (s.v1 - s.v0) * (i : K) / ((n : K) - 1) = Spec.evenPar s.v0 s.v1 n i := rfl
      dsimp only
      rw [e, hA _ b0 b1, R_bind_ok, (hT _ b0 b1).1, R_bind_ok]
      unfold vdiv
      rw [if_neg (hT _ b0 b1).2, R_bind_ok, List.range_succ]
      simp only [List.map_append, List.map_cons, List.map_nil]
      rw [hE]
      unfold Spec.displaced
      rw [smul_smul, ← div_eq_mul_inv]
      rfl)
  have hus : Spec.evenPars s.v0 s.v1 n = (List.range n).map (Spec.evenPar s.v0 s.v1 n) := rfl
  have h0 : kf (Spec.evenPars s.v0 s.v1 n) 0 = s.v0 := by
    rw [hus, kf, List.getElem?_map, List.getElem?_range (by omega)]
    exact evenPar_first _ _ _
  have hl : (Spec.evenPars s.v0 s.v1 n).length = n := by simp [hus]
  have h1 : kf (Spec.evenPars s.v0 s.v1 n) (n - 1) = s.v1 := by
    rw [hus, kf, List.getElem?_map, List.getElem?_range (by omega)]
    exact evenPar_last hn2
  obtain ⟨c, ec, hc⟩ := C78_approx_bound_fixed heps junk hq hs.dv hs.wf.v (by rw [hs.v00, hs.v01]) (by rw [hs.v11, hs.v10]) (u := Spec.evenPars s.v0 s.v1 n)
    (Q := (Spec.evenPars s.v0 s.v1 n).map E) (by simp) (by rw [List.length_map, hl]; omega) (by
      intro x hx
      rw [hus, List.mem_map] at hx
      obtain ⟨i, hi, rfl⟩ := hx
      rw [hs.v01, hs.v10]
      exact evenPar_in hvlt hn2 (List.mem_range.mp hi)) (by rw [h0, hs.v01]) (by rw [hl, h1, hs.v10]) hdet hS
  refine ⟨c, ?_, ?_⟩
  · unfold Surface.lengthCurve
    rw [hs.wf.nV_eq, R_bind_ok]
    simp only
    rw [← hn, er, R_bind_ok, hr]
    exact ec
  · unfold Spec.Fits
    convert hc using 2
    · rw [pf_map_even (by omega), h0]
    · rw [List.length_map, hl, pf_map_even (by omega), h1]

/-- C89: the parameters determine the curve when the spans along V are as wide as the degree plus one steps between parameters. -/
theorem C89_determines {eps : K} (heps : 0 < eps) {s : Surface K V} {ku kv : List K} {mu mv : List ℕ} (hs : s.ClampedBy eps ku mu kv mv)
    (hw : ∀ i, s.degV ≤ i → i < s.nPV → kf s.knotsV i < kf s.knotsV (i + 1) →
      (s.degV + 1) * (s.v1 - s.v0) ≤ (kf s.knotsV (i + 1) - kf s.knotsV i) * ((s.nPV * 10 : ℕ) - 1)) :
    Spec.Determines eps s.knotsV s.degV s.nPV (Spec.evenPars s.v0 s.v1 (s.nPV * 10)) := by
  have hv := hs.cl.wf.v
  have hmin := hv.min
  have hlen := hv.len
  have hvlt : s.v0 < s.v1 := by
    rw [← hs.cl.v01, ← hs.cl.v10]
    exact lt_of_lt_of_le hv.first (kf_mono hv.sorted hv.min)
  refine determines_of_spans heps hv hs.cl.dv hs.kV ?_
  intro i h1 h2 h3
  refine evenPar_count hvlt (by omega) ?_ ?_ h3 (by simpa using hw i h1 h2 h3)
  · rw [← hs.cl.v01]; exact kf_mono hv.sorted h1
  · rw [← hs.cl.v10]; exact kf_mono hv.sorted h2

/-- C89: when the points at the distance `l` are on a curve on the knots of the surface, that curve is the one fitted. -/
theorem C89_exact {eps : K} {k : List K} {p n : ℕ} (hn : 2 ≤ n) {v0 v1 : K} (hv : v0 < v1) {E : K → Fin dim → K} {c c' : Curve K (Fin dim → K)}
    (h : Spec.Fits eps k p n v0 v1 E c) (hc : Spec.OnKnots k p c') (hb0 : c'.b0 = v0) (hb1 : c'.b1 = v1)
    (hE : ∀ v, v0 ≤ v → v ≤ v1 → ∀ junk, c'.value eps junk v 0 = .ok (E v)) : c = c' := by
  obtain ⟨h1, s, ⟨X, hX, hs⟩, h2⟩ := h
  obtain ⟨s', ⟨X', hX', hs'⟩, hle, heq⟩ := h2 c' ⟨hc, fun junk => by rw [hb0, hb1]; exact ⟨hE _ le_rfl hv.le junk, hE _ hv.le le_rfl junk⟩⟩
  have hl : (Spec.evenPars v0 v1 n).length = n := by simp [Spec.evenPars]
  have h0 : s' = 0 := by
    rw [hs']
    apply Finset.sum_eq_zero
    intro i hi
    rw [hl] at hi
    have hi := Finset.mem_range.mp hi
    have e := hX' i (by rw [hl]; exact hi) 0
    have hk : kf (Spec.evenPars v0 v1 n) i = Spec.evenPar v0 v1 n i := by
      rw [Spec.evenPars, kf, List.getElem?_map, List.getElem?_range hi]
      rfl
    obtain ⟨b0, b1⟩ := evenPar_in hv hn hi
    rw [hk, hE _ b0 b1] at e
    rw [← Except.ok.inj e, pf_map_even hi, hk]
    simp [Spec.sqDist]
  have hpos : 0 ≤ s := by
    rw [hs]
    exact Finset.sum_nonneg fun i _ => Finset.sum_nonneg fun j _ => by positivity
  exact (heq (by linarith)).symm

/-- The displaced points are at the distance `l` of the border. -/
theorem displaced_dist {nrm : V → K} (hn : ∀ (t : K) x, nrm (t • x) = |t| * nrm x) {l : K} {A T : K → V} {v : K} (hT : 0 < nrm (T v)) :
    nrm (Spec.displaced nrm l A T v - A v) = |l| := by
  unfold Spec.displaced
  rw [add_sub_cancel_left, hn, abs_div, abs_of_pos hT, div_mul_cancel₀ _ hT.ne']

/-- C89: the fitted curve begins and ends at the distance `l` of the ends of the border. -/
theorem C89_corners {eps : K} {k : List K} {p n : ℕ} {v0 v1 : K} {nrm : (Fin dim → K) → K} (hn : ∀ (t : K) x, nrm (t • x) = |t| * nrm x) {l : K}
    {A T : K → Fin dim → K} {c : Curve K (Fin dim → K)} (h : Spec.Fits eps k p n v0 v1 (Spec.displaced nrm l A T) c) (hT0 : 0 < nrm (T v0)) (hT1 : 0 < nrm (T v1))
    (junk : K) : ∃ a b, c.value eps junk c.b0 0 = .ok a ∧ c.value eps junk c.b1 0 = .ok b ∧ nrm (a - A v0) = |l| ∧ nrm (b - A v1) = |l| :=
  ⟨_, _, (h.1.2 junk).1, (h.1.2 junk).2, displaced_dist hn hT0, displaced_dist hn hT1⟩

/-- Along the extended parameter, from `a0` to `a1`, `g` is `f`, with its derivatives at `a1` up to the order `mc` below the degree `p`; at `a1 + δ` it is
`h`, with a null second derivative for a natural end. -/
structure Spec.EndExtension (p : ℕ) (mc : Option ℕ) (natural : Bool) (a0 a1 b0 b1 δ : K) (f g : K → K → ℕ → ℕ → R V) (h : K → ℕ → R V) : Prop where
  on : ∀ u v i j, a0 ≤ u → u < a1 ∨ u = a1 ∧ i < p ∧ i ≤ mc.getD p → b0 ≤ v → v ≤ b1 → ∃ y, f u v i j = .ok y ∧ g u v i j = .ok y
  border : ∀ v j, b0 ≤ v → v ≤ b1 → ∃ y, h v j = .ok y ∧ g (a1 + δ) v 0 j = .ok y
  nat : ∀ v j, b0 ≤ v → v ≤ b1 → 2 < p → natural = true → g (a1 + δ) v 2 j = .ok 0

/-- Along the extended parameter, from `a0 + δ` to `a1 + δ`, `g` is `f` from `a0` to `a1`; before it is `x`, which has at its end `a1 + δ` the derivatives of `f` at `a0`
up to the order `mc` below the degree `p`; at `a0` it is `h`, with a null second derivative for a natural end. -/
structure Spec.StartExtension (p : ℕ) (mc : Option ℕ) (natural : Bool) (a0 a1 b0 b1 δ : K) (f g x : K → K → ℕ → ℕ → R V) (h : K → ℕ → R V) : Prop where
  on : ∀ u v i j, a0 ≤ u → u ≤ a1 → b0 ≤ v → v ≤ b1 → ∃ y, f u v i j = .ok y ∧ g (u + δ) v i j = .ok y
  piece : ∀ u v i j, a0 ≤ u → u < a0 + δ → b0 ≤ v → v ≤ b1 → ∃ y, g u v i j = .ok y ∧ x (u + (a1 - a0)) v i j = .ok y
  meet : ∀ v i j, i < p → i ≤ mc.getD p → b0 ≤ v → v ≤ b1 → ∃ y, f a0 v i j = .ok y ∧ x (a1 + δ) v i j = .ok y
  border : ∀ v j, b0 ≤ v → v ≤ b1 → ∃ y, h v j = .ok y ∧ g a0 v 0 j = .ok y
  nat : ∀ v j, b0 ≤ v → v ≤ b1 → 2 < p → natural = true → g a0 v 2 j = .ok 0

/-- C89: the surface extended by a length at the end along U. `c` is the curve fitted to the points at the distance `l`, `B` its points; when it is far enough from
the border the extended surface ends on it. -/
theorem C89_extended_partial {eps : K} (heps : 0 < eps) (junk : K) {s : Surface K (Fin dim → K)} {ku kv : List K} {mu mv : List ℕ} (hs : s.ClampedBy eps ku mu kv mv)
    (hp : 1 ≤ s.degU) (hp12 : s.degU ≤ 12) (hq : 1 ≤ s.degV) (l : K) (natural : Bool) (mc : Option ℕ)
    {nrm : (Fin dim → K) → K} {dense : ℕ → (ℕ → ℕ → K) → List (Fin dim → K) → R (List (Fin dim → K))} (hS : Spec.SolvesDense dense) {T A : K → Fin dim → K}
    (hT : ∀ v, s.v0 ≤ v → v ≤ s.v1 → s.value eps junk s.u1 v 1 0 = .ok (T v) ∧ nrm (T v) ≠ 0)
    (hA : ∀ v, s.v0 ≤ v → v ≤ s.v1 → s.value eps junk s.u1 v 0 0 = .ok (A v))
    (hdet : Spec.Determines eps s.knotsV s.degV s.nPV (Spec.evenPars s.v0 s.v1 (s.nPV * 10)))
    (hmem : 13 * (s.knotsU.length + (2 * s.degU + 3)) * s.knotsV.length < 2 ^ 64) :
    ∃ c B, Spec.Fits eps s.knotsV s.degV (s.nPV * 10) s.v0 s.v1 (Spec.displaced nrm l A T) c ∧
      (∀ v, s.v0 ≤ v → v ≤ s.v1 → ∀ junk', c.value eps junk' v 0 = .ok (B v)) ∧
      (eps * s.degU < Spec.extStep nrm T A B s.v0 s.v1 → ∃ e J, (s.extention eps junk dense nrm l natural mc = .ok e ∧ s.extentionAt eps junk dense nrm l .uEnd natural mc = .ok e) ∧ e.Cl ∧
        (s.extended eps junk dense nrm l natural mc = .ok J ∧ s.extendedAt eps junk dense nrm l .uEnd natural mc = .ok J) ∧ J.Cl ∧ J.degU = s.degU ∧ J.degV = s.degV ∧ J.knotsV = s.knotsV ∧ J.u0 = s.u0 ∧
        J.u1 = s.u1 + Spec.extStep nrm T A B s.v0 s.v1 ∧ J.v0 = s.v0 ∧ J.v1 = s.v1 ∧
        e.u0 = s.u1 ∧ e.u1 = s.u1 + Spec.extStep nrm T A B s.v0 s.v1 ∧ e.v0 = s.v0 ∧ e.v1 = s.v1 ∧
        (∀ u v, s.u1 ≤ u → u ≤ J.u1 → s.v0 ≤ v → v ≤ s.v1 → ∀ (junk' : K) (i j : ℕ), J.value eps junk' u v i j = e.value eps junk' u v i j) ∧
        (∀ v, s.v0 ≤ v → v ≤ s.v1 → ∀ (junk' : K) (i j : ℕ), i < s.degU → i ≤ mc.getD s.degU →
          ∃ y, s.value eps junk' s.u1 v i j = .ok y ∧ e.value eps junk' s.u1 v i j = .ok y) ∧
        ∀ junk', Spec.EndExtension s.degU mc natural s.u0 s.u1 s.v0 s.v1 (Spec.extStep nrm T A B s.v0 s.v1)
          (fun u v i j => s.value eps junk' u v i j) (fun u v i j => J.value eps junk' u v i j) (fun v j => c.value eps junk' v j)) := by
  obtain ⟨c, ec, hc⟩ := C89_length_curve heps junk hs.cl hq l hS hT hA hdet
  obtain ⟨B, hB⟩ := Fits.value heps hs.cl.wf.v hs.cl.dv (by rw [hs.cl.v00, hs.cl.v01]) (by rw [hs.cl.v11, hs.cl.v10]) hc
  rw [hs.cl.v00, hs.cl.v11] at hB
  refine ⟨c, B, hc, hB, fun hgap => ?_⟩
  have hg := hc.1.1.good
  have hl := OnKnots.poles hs.cl.wf.v hc.1.1
  have hc0 : kf c.knots 0 = c.b0 := by rw [hg.lo, hc.1.1.knots, hc.1.1.deg, hs.cl.v00, hs.cl.v01]
  have hc1 : kLast c.knots = c.b1 := by rw [hg.hi, hc.1.1.knots, hl, hs.cl.v11, hs.cl.v10]
  obtain ⟨e, ee, hcl, -, d1, d2, k2, lk, b1, b2, b3, b4, hval⟩ := C88_extention_partial heps junk hs.cl hp hg hc.1.1.deg hc.1.1.knots hc0 hc1 natural mc hS hT hA
    (fun v h0 h1 => hB v h0 h1 junk) hgap (lt_of_le_of_lt (Nat.mul_le_mul_right _ (by omega)) hmem)
  obtain ⟨J, eJ, cJ, j1, j2, j3, j4, j5, j6, j7, ⟨e', ee', hJe⟩, hv⟩ := C88_extended_partial heps junk hs hp hp12 hg hc.1.1.deg hc.1.1.knots hc0 hc1 natural mc hS hT hA
    (fun v h0 h1 => hB v h0 h1 junk) hgap hmem
  obtain rfl : e = e' := by rw [ee] at ee'; exact Except.ok.inj ee'
  have hx : s.extention eps junk dense nrm l natural mc = .ok e := by
    unfold Surface.extention
    rw [ec, R_bind_ok, ee]
  have hxJ : s.extended eps junk dense nrm l natural mc = .ok J := by
    unfold Surface.extended
    unfold Surface.extendedToCurve at eJ
    rw [ee, R_bind_ok] at eJ
    rw [hx, R_bind_ok, eJ]
  refine ⟨e, J, ⟨hx, hx⟩, hcl, ⟨hxJ, hxJ⟩, cJ, j1, j2, j3, j4, j5, j6, j7, b1, b2, b3, b4, hJe, ?_, ?_⟩
  · intro v h0 h1 junk' i j hi hi'
    exact (hval v h0 h1 junk' j).1 i hi hi'
  · intro junk'
    refine ⟨?_, ?_, ?_⟩
    · intro u v i j hu0 hu h0 h1
      exact (hv v h0 h1 junk' j).1 u i hu0 hu
    · intro v j h0 h1
      rw [← j5]
      exact (hv v h0 h1 junk' j).2.1
    · intro v j h0 h1
      rw [← j5]
      exact (hv v h0 h1 junk' j).2.2

theorem displaced_neg {nrm : V → K} (hn : ∀ x, nrm (-x) = nrm x) (l : K) (A T : K → V) :
    Spec.displaced nrm l A (fun v => -T v) = Spec.displaced nrm (-l) A T := by
  funext v
  unfold Spec.displaced
  rw [hn, smul_neg, neg_div, neg_smul]

theorem extStep_neg {nrm : V → K} (hn : ∀ x, nrm (-x) = nrm x) (A B T : K → V) (v0 v1 : K) :
    Spec.extStep nrm (fun v => -T v) A B v0 v1 = Spec.extStep nrm T A B v0 v1 := by
  unfold Spec.extStep
  simp only [hn]

/-- C89: the surface extended at the start along U: the points are at the distance `l` against the derivative. The parameters of the surface are shifted. -/
theorem C89_at_u_start_partial {eps : K} (heps : 0 < eps) (junk : K) {s : Surface K (Fin dim → K)} {ku kv : List K} {mu mv : List ℕ} (hs : s.ClampedBy eps ku mu kv mv)
    (hp : 1 ≤ s.degU) (hp12 : s.degU ≤ 12) (hq : 1 ≤ s.degV) (l : K) (natural : Bool) (mc : Option ℕ)
    {nrm : (Fin dim → K) → K} (hn : ∀ x, nrm (-x) = nrm x) {dense : ℕ → (ℕ → ℕ → K) → List (Fin dim → K) → R (List (Fin dim → K))} (hS : Spec.SolvesDense dense)
    {T A : K → Fin dim → K} (hT : ∀ v, s.v0 ≤ v → v ≤ s.v1 → s.value eps junk s.u0 v 1 0 = .ok (T v) ∧ nrm (T v) ≠ 0)
    (hA : ∀ v, s.v0 ≤ v → v ≤ s.v1 → s.value eps junk s.u0 v 0 0 = .ok (A v))
    (hdet : Spec.Determines eps s.knotsV s.degV s.nPV (Spec.evenPars s.v0 s.v1 (s.nPV * 10)))
    (hmem : 13 * (s.knotsU.length + (2 * s.degU + 3)) * s.knotsV.length < 2 ^ 64) :
    ∃ c B, Spec.Fits eps s.knotsV s.degV (s.nPV * 10) s.v0 s.v1 (Spec.displaced nrm (-l) A T) c ∧
      (∀ v, s.v0 ≤ v → v ≤ s.v1 → ∀ junk', c.value eps junk' v 0 = .ok (B v)) ∧
      (eps * s.degU < Spec.extStep nrm T A B s.v0 s.v1 → ∃ x J : Surface K (Fin dim → K), x.Cl ∧ x.u0 = s.u1 ∧ x.u1 = s.u1 + Spec.extStep nrm T A B s.v0 s.v1 ∧ x.v0 = s.v0 ∧ x.v1 = s.v1 ∧
        (∃ e, s.extentionAt eps junk dense nrm l .uStart natural mc = .ok e ∧ e.reverseU = .ok x) ∧
        s.extendedAt eps junk dense nrm l .uStart natural mc = .ok J ∧ J.Cl ∧ J.degU = s.degU ∧ J.degV = s.degV ∧ J.knotsV = s.knotsV ∧ J.u0 = s.u0 ∧
        J.u1 = s.u1 + Spec.extStep nrm T A B s.v0 s.v1 ∧ J.v0 = s.v0 ∧ J.v1 = s.v1 ∧
        ∀ junk', Spec.StartExtension s.degU mc natural s.u0 s.u1 s.v0 s.v1 (Spec.extStep nrm T A B s.v0 s.v1)
          (fun u v i j => s.value eps junk' u v i j) (fun u v i j => J.value eps junk' u v i j) (fun u v i j => x.value eps junk' u v i j) (fun v j => c.value eps junk' v j)) := by
  have hult : s.u0 < s.u1 := hs.cl.goodU.lt
  obtain ⟨r, er, hr, r1, r2, r3, r4, r5, r6, r7, hrv⟩ := C56_reverseU heps hs.cl
  have hrb := hs.reverseU heps er
  have hnp : r.nPV = s.nPV := by unfold Surface.nPV; rw [r3, r2]
  have hlen : r.knotsU.length = s.knotsU.length := by
    obtain ⟨S, eS, -⟩ := Surface.reverseU_eq hs.cl.wf
    rw [er] at eS
    rw [Except.ok.inj eS]
    simp
  have hrend : ∀ v, s.v0 ≤ v → v ≤ s.v1 → ∀ (junk' : K) (i j : ℕ), ∃ y, s.value eps junk' s.u0 v i j = .ok y ∧ r.value eps junk' s.u1 v i j = .ok ((-1 : K) ^ i • y) := by
    intro v h0 h1 junk' i j
    have := hrv s.u1 v hult.le le_rfl h0 h1 i (Or.inr (Or.inl rfl)) junk' junk' j
    rwa [add_sub_cancel_right] at this
  obtain ⟨c, B, hc, hB, hgo⟩ := C89_extended_partial (s := r) (nrm := nrm) (T := fun v => -T v) (A := A) heps junk hrb (by rw [r1]; exact hp) (by rw [r1]; exact hp12) (by rw [r2]; exact hq) l natural mc hS
    (by
      rw [r5, r6, r7]
      intro v h0 h1
      obtain ⟨y, y1, y2⟩ := hrend v h0 h1 junk 1 0
      rw [(hT v h0 h1).1] at y1
      obtain rfl := Except.ok.inj y1
      rw [y2, pow_one, neg_one_smul, hn]
      exact ⟨rfl, (hT v h0 h1).2⟩)
    (by
      rw [r5, r6, r7]
      intro v h0 h1
      obtain ⟨y, y1, y2⟩ := hrend v h0 h1 junk 0 0
      rw [hA v h0 h1] at y1
      obtain rfl := Except.ok.inj y1
      rw [y2, pow_zero, one_smul])
    (by rw [r2, r3, r6, r7, hnp]; exact hdet) (by rw [r1, r3, hlen]; exact hmem)
  rw [r2, r3, r6, r7, hnp, displaced_neg hn] at hc
  rw [r6, r7] at hB
  rw [r1, r2, r3, r4, r5, r6, r7, extStep_neg hn] at hgo
  refine ⟨c, B, hc, hB, fun hgap => ?_⟩
  obtain ⟨e, J, ⟨ee, -⟩, hcle, ⟨eJ, -⟩, cJ, j1, j2, j3, j4, j5, j6, j7, b1, b2, b3, b4, hJe, hmeet, hext⟩ := hgo hgap
  set d := Spec.extStep nrm T A B s.v0 s.v1 with hd
  have hpK : (1 : K) ≤ s.degU := by exact_mod_cast hp
  have hd0 : 0 < d := by nlinarith
  obtain ⟨J', eJ', cJ', t1, t2, t3, t4, t5, t6, t7, hback⟩ := reversed_back heps hs.cl er cJ hd0 j4 j5 j6 j7 j1 (by
    intro u v hu0 hu1 h0 h1 junk' i j
    obtain ⟨y, y1, y2⟩ := (hext junk').on u v i j hu0 (Or.inl hu1) h0 h1
    rw [y1, y2])
  obtain ⟨x, ex, cx, -, -, -, x4, x5, x6, x7, hxv⟩ := C56_reverseU heps hcle
  refine ⟨x, J', cx, by rw [x4, b1], by rw [x5, b2], by rw [x6, b3], by rw [x7, b4], ⟨e, ?_, ex⟩, ?_, cJ', t1, by rw [t2, j2], by rw [t3, j3], t4, t5, t6, t7, ?_⟩
  · unfold Surface.extentionAt
    simp only
    rw [hs.cl.copied heps (by
      refine lt_of_le_of_lt ?_ hmem
      exact Nat.mul_le_mul_right _ (by omega)), R_bind_ok, er, R_bind_ok, ee]
  · unfold Surface.extendedAt
    simp only
    rw [hs.cl.copied heps (by
      refine lt_of_le_of_lt ?_ hmem
      exact Nat.mul_le_mul_right _ (by omega)), R_bind_ok, er, R_bind_ok, eJ, R_bind_ok, eJ']
  · intro junk'
    refine ⟨?_, ?_, ?_, ?_, ?_⟩
    · intro u v i j hu0 hu1 h0 h1
      exact (hback v h0 h1 junk' i j).1 u hu0 hu1
    · intro u v i j hu0 hu1 h0 h1
      obtain ⟨y, y1, y2⟩ := reversed_agree heps cJ hcle eJ' ex (a := s.u1) (b := s.u1 + d) (by rw [j4]; exact hult.le) (by rw [j5]) (by rw [b1]) (by rw [b2])
        (v := v) (by rw [j6]; exact h0) (by rw [j7]; exact h1) (by rw [b3]; exact h0) (by rw [b4]; exact h1) junk' j
        (fun w w0 w1 => hJe w v w0.le (by rw [j5]; exact w1.le) h0 h1 junk' 0 j) (w := u) (by rw [j4, j5]; linarith) (by rw [j4, j5]; linarith) i
      refine ⟨y, y1, ?_⟩
      rw [b1, b2, j4, j5] at y2
      rw [← y2]
      congr 1
      ring
    · intro v i j hi hi' h0 h1
      obtain ⟨y, y1, y2⟩ := hrend v h0 h1 junk' i j
      obtain ⟨z, z1, z2⟩ := hmeet v h0 h1 junk' i j hi hi'
      obtain ⟨w, w1, w2⟩ := hxv e.u1 v (by rw [b1, b2]; linarith) le_rfl (by rw [b3]; exact h0) (by rw [b4]; exact h1) i (Or.inr (Or.inl rfl)) junk' junk' j
      rw [add_sub_cancel_right, b1, z2] at w1
      obtain rfl := Except.ok.inj w1
      rw [z1] at y2
      rw [Except.ok.inj y2, neg_pow_smul_self, b2] at w2
      exact ⟨y, y1, w2⟩
    · intro v j h0 h1
      obtain ⟨y, y1, y2⟩ := (hext junk').border v j h0 h1
      obtain ⟨z, z1, z2⟩ := (hback v h0 h1 junk' 0 j).2
      rw [j5, y2] at z1
      rw [← Except.ok.inj z1, t4, pow_zero, one_smul] at z2
      exact ⟨y, y1, z2⟩
    · intro v j h0 h1 hp2 hnat
      have y2 := (hext junk').nat v j h0 h1 hp2 hnat
      obtain ⟨z, z1, z2⟩ := (hback v h0 h1 junk' 2 j).2
      rw [j5, y2] at z1
      rw [← Except.ok.inj z1, t4, smul_zero] at z2
      exact z2

theorem EndExtension.congr {p : ℕ} {mc : Option ℕ} {natural : Bool} {a0 a1 b0 b1 δ : K} (ha : a0 ≤ a1) (hd : 0 ≤ δ) {f g f' g' : K → K → ℕ → ℕ → R V} {h : K → ℕ → R V}
    (H : Spec.EndExtension p mc natural a0 a1 b0 b1 δ f g h) (hf : ∀ u v i j, a0 ≤ u → u ≤ a1 → b0 ≤ v → v ≤ b1 → f' u v i j = f u v i j)
    (hg : ∀ u v i j, a0 ≤ u → u ≤ a1 + δ → b0 ≤ v → v ≤ b1 → g' u v i j = g u v i j) : Spec.EndExtension p mc natural a0 a1 b0 b1 δ f' g' h := by
  refine ⟨?_, ?_, ?_⟩
  · intro u v i j hu0 hu h0 h1
    have hu1 : u ≤ a1 := by rcases hu with hu | hu; exacts [hu.le, hu.1.le]
    rw [hf u v i j hu0 hu1 h0 h1, hg u v i j hu0 (by linarith) h0 h1]
    exact H.on u v i j hu0 hu h0 h1
  · intro v j h0 h1
    rw [hg _ v 0 j (by linarith) le_rfl h0 h1]
    exact H.border v j h0 h1
  · intro v j h0 h1
    rw [hg _ v 2 j (by linarith) le_rfl h0 h1]
    exact H.nat v j h0 h1

theorem StartExtension.congr {p : ℕ} {mc : Option ℕ} {natural : Bool} {a0 a1 b0 b1 δ : K} (ha : a0 ≤ a1) (hd : 0 ≤ δ) {f g x f' g' : K → K → ℕ → ℕ → R V} {h : K → ℕ → R V}
    (H : Spec.StartExtension p mc natural a0 a1 b0 b1 δ f g x h) (hf : ∀ u v i j, a0 ≤ u → u ≤ a1 → b0 ≤ v → v ≤ b1 → f' u v i j = f u v i j)
    (hg : ∀ u v i j, a0 ≤ u → u ≤ a1 + δ → b0 ≤ v → v ≤ b1 → g' u v i j = g u v i j) : Spec.StartExtension p mc natural a0 a1 b0 b1 δ f' g' x h := by
  refine ⟨?_, ?_, ?_, ?_, ?_⟩
  · intro u v i j hu0 hu1 h0 h1
    rw [hf u v i j hu0 hu1 h0 h1, hg _ v i j (by linarith) (by linarith) h0 h1]
    exact H.on u v i j hu0 hu1 h0 h1
  · intro u v i j hu0 hu1 h0 h1
    rw [hg u v i j hu0 (by linarith) h0 h1]
    exact H.piece u v i j hu0 hu1 h0 h1
  · intro v i j hi hi' h0 h1
    rw [hf a0 v i j le_rfl ha h0 h1]
    exact H.meet v i j hi hi' h0 h1
  · intro v j h0 h1
    rw [hg _ v 0 j le_rfl (by linarith) h0 h1]
    exact H.border v j h0 h1
  · intro v j h0 h1
    rw [hg _ v 2 j le_rfl (by linarith) h0 h1]
    exact H.nat v j h0 h1

/-- C89: the surface extended at the end along V. -/
theorem C89_at_v_end_partial {eps : K} (heps : 0 < eps) (junk : K) {s : Surface K (Fin dim → K)} {ku kv : List K} {mu mv : List ℕ} (hs : s.ClampedBy eps ku mu kv mv)
    (hp : 1 ≤ s.degV) (hp12 : s.degV ≤ 12) (hq : 1 ≤ s.degU) (l : K) (natural : Bool) (mc : Option ℕ)
    {nrm : (Fin dim → K) → K} {dense : ℕ → (ℕ → ℕ → K) → List (Fin dim → K) → R (List (Fin dim → K))} (hS : Spec.SolvesDense dense) {T A : K → Fin dim → K}
    (hT : ∀ u, s.u0 ≤ u → u ≤ s.u1 → s.value eps junk u s.v1 0 1 = .ok (T u) ∧ nrm (T u) ≠ 0)
    (hA : ∀ u, s.u0 ≤ u → u ≤ s.u1 → s.value eps junk u s.v1 0 0 = .ok (A u))
    (hdet : Spec.Determines eps s.knotsU s.degU s.nPU (Spec.evenPars s.u0 s.u1 (s.nPU * 10)))
    (hmem : 13 * (s.knotsV.length + (2 * s.degV + 3)) * s.knotsU.length < 2 ^ 64) :
    ∃ c B, Spec.Fits eps s.knotsU s.degU (s.nPU * 10) s.u0 s.u1 (Spec.displaced nrm l A T) c ∧
      (∀ u, s.u0 ≤ u → u ≤ s.u1 → ∀ junk', c.value eps junk' u 0 = .ok (B u)) ∧
      (eps * s.degV < Spec.extStep nrm T A B s.u0 s.u1 → ∃ e J : Surface K (Fin dim → K), s.extentionAt eps junk dense nrm l .vEnd natural mc = .ok e ∧
        (∀ u v, s.u0 ≤ u → u ≤ s.u1 → s.v1 ≤ v → v ≤ J.v1 → ∀ (junk' : K) (i j : ℕ), J.value eps junk' u v i j = e.value eps junk' v u j i) ∧
        s.extendedAt eps junk dense nrm l .vEnd natural mc = .ok J ∧ J.Cl ∧ J.degU = s.degU ∧ J.degV = s.degV ∧ J.knotsU = s.knotsU ∧ J.u0 = s.u0 ∧
        J.u1 = s.u1 ∧ J.v0 = s.v0 ∧ J.v1 = s.v1 + Spec.extStep nrm T A B s.u0 s.u1 ∧
        ∀ junk', Spec.EndExtension s.degV mc natural s.v0 s.v1 s.u0 s.u1 (Spec.extStep nrm T A B s.u0 s.u1)
          (fun v u j i => s.value eps junk' u v i j) (fun v u j i => J.value eps junk' u v i j) (fun u i => c.value eps junk' u i)) := by
  have hvlt : s.v0 < s.v1 := by
    rw [← hs.cl.v01, ← hs.cl.v10]
    exact lt_of_lt_of_le hs.cl.wf.v.first (kf_mono hs.cl.wf.v.sorted hs.cl.wf.v.min)
  obtain ⟨r, er, hr, r1, r2, r3, r4, r5, r6, r7, r8, hrv⟩ := hs.cl.invertUV heps
  have hrb : r.ClampedBy eps kv mv ku mu := ⟨hr, by rw [r1, r3]; exact hs.kV, by rw [r2, r4]; exact hs.kU⟩
  have hnp : r.nPV = s.nPU := by unfold Surface.nPV Surface.nPU; rw [r4, r2]
  obtain ⟨c, B, hc, hB, hgo⟩ := C89_extended_partial (s := r) (nrm := nrm) (T := T) (A := A) heps junk hrb (by rw [r1]; exact hp) (by rw [r1]; exact hp12) (by rw [r2]; exact hq)
    l natural mc hS
    (by
      rw [r6, r7, r8]
      intro u h0 h1
      rw [hrv u s.v1 h0 h1 hvlt.le le_rfl junk junk 0 1]
      exact hT u h0 h1)
    (by
      rw [r6, r7, r8]
      intro u h0 h1
      rw [hrv u s.v1 h0 h1 hvlt.le le_rfl junk junk 0 0]
      exact hA u h0 h1)
    (by rw [r2, r4, r7, r8, hnp]; exact hdet) (by rw [r1, r3, r4]; exact hmem)
  rw [r2, r4, r7, r8, hnp] at hc
  rw [r7, r8] at hB
  rw [r1, r2, r4, r5, r6, r7, r8] at hgo
  refine ⟨c, B, hc, hB, fun hgap => ?_⟩
  obtain ⟨e, J, ⟨ee, -⟩, hcle, ⟨eJ, -⟩, cJ, j1, j2, j3, j4, j5, j6, j7, -, -, -, -, hJe, -, hext⟩ := hgo hgap
  set d := Spec.extStep nrm T A B s.u0 s.u1 with hd
  have hpK : (1 : K) ≤ s.degV := by exact_mod_cast hp
  have hd0 : 0 < d := by nlinarith
  obtain ⟨J', eJ', cJ', t1, t2, t3, t4, t5, t6, t7, t8, hJv⟩ := cJ.invertUV heps
  refine ⟨e, J', ?_, ?_, ?_, cJ', by rw [t1, j2], by rw [t2, j1], by rw [t3, j3], by rw [t5, j6], by rw [t6, j7], by rw [t7, j4], by rw [t8, j5], ?_⟩
  · unfold Surface.extentionAt
    simp only
    rw [hs.cl.copied heps (by
      refine lt_of_le_of_lt ?_ hmem
      rw [Nat.mul_comm]
      exact Nat.mul_le_mul_right _ (by omega)), R_bind_ok, er, R_bind_ok, ee]
  · intro u v h0 h1 hv0 hv1 junk' i j
    rw [t8] at hv1
    rw [hJv v u (by rw [j4]; linarith) hv1 (by rw [j6]; exact h0) (by rw [j7]; exact h1) junk' junk' j i, hJe v u hv0 hv1 h0 h1]
  · unfold Surface.extendedAt
    simp only
    rw [hs.cl.copied heps (by
      refine lt_of_le_of_lt ?_ hmem
      rw [Nat.mul_comm]
      exact Nat.mul_le_mul_right _ (by omega)), R_bind_ok, er, R_bind_ok, eJ, R_bind_ok, eJ']
  · intro junk'
    refine EndExtension.congr hvlt.le hd0.le (hext junk') ?_ ?_
    · intro v u j i hv0 hv1 h0 h1
      exact (hrv u v h0 h1 hv0 hv1 junk' junk' i j).symm
    · intro v u j i hv0 hv1 h0 h1
      exact hJv v u (by rw [j4]; exact hv0) (by rw [j5]; exact hv1) (by rw [j6]; exact h0) (by rw [j7]; exact h1) junk' junk' j i

/-- C89: the surface extended at the start along V; `x`, along U, is the extension. -/
theorem C89_at_v_start_partial {eps : K} (heps : 0 < eps) (junk : K) {s : Surface K (Fin dim → K)} {ku kv : List K} {mu mv : List ℕ} (hs : s.ClampedBy eps ku mu kv mv)
    (hp : 1 ≤ s.degV) (hp12 : s.degV ≤ 12) (hq : 1 ≤ s.degU) (l : K) (natural : Bool) (mc : Option ℕ)
    {nrm : (Fin dim → K) → K} (hn : ∀ x, nrm (-x) = nrm x) {dense : ℕ → (ℕ → ℕ → K) → List (Fin dim → K) → R (List (Fin dim → K))} (hS : Spec.SolvesDense dense)
    {T A : K → Fin dim → K} (hT : ∀ u, s.u0 ≤ u → u ≤ s.u1 → s.value eps junk u s.v0 0 1 = .ok (T u) ∧ nrm (T u) ≠ 0)
    (hA : ∀ u, s.u0 ≤ u → u ≤ s.u1 → s.value eps junk u s.v0 0 0 = .ok (A u))
    (hdet : Spec.Determines eps s.knotsU s.degU s.nPU (Spec.evenPars s.u0 s.u1 (s.nPU * 10)))
    (hmem : 13 * (s.knotsV.length + (2 * s.degV + 3)) * s.knotsU.length < 2 ^ 64) :
    ∃ c B, Spec.Fits eps s.knotsU s.degU (s.nPU * 10) s.u0 s.u1 (Spec.displaced nrm (-l) A T) c ∧
      (∀ u, s.u0 ≤ u → u ≤ s.u1 → ∀ junk', c.value eps junk' u 0 = .ok (B u)) ∧
      (eps * s.degV < Spec.extStep nrm T A B s.u0 s.u1 → ∃ x J : Surface K (Fin dim → K),
        x.Cl ∧ x.u0 = s.v1 ∧ x.u1 = s.v1 + Spec.extStep nrm T A B s.u0 s.u1 ∧ x.v0 = s.u0 ∧ x.v1 = s.u1 ∧
        (∃ e, s.extentionAt eps junk dense nrm l .vStart natural mc = .ok e ∧ e.reverseU = .ok x) ∧
        s.extendedAt eps junk dense nrm l .vStart natural mc = .ok J ∧ J.Cl ∧ J.degU = s.degU ∧ J.degV = s.degV ∧ J.knotsU = s.knotsU ∧ J.u0 = s.u0 ∧
        J.u1 = s.u1 ∧ J.v0 = s.v0 ∧ J.v1 = s.v1 + Spec.extStep nrm T A B s.u0 s.u1 ∧
        ∀ junk', Spec.StartExtension s.degV mc natural s.v0 s.v1 s.u0 s.u1 (Spec.extStep nrm T A B s.u0 s.u1)
          (fun v u j i => s.value eps junk' u v i j) (fun v u j i => J.value eps junk' u v i j) (fun v u j i => x.value eps junk' v u j i)
          (fun u i => c.value eps junk' u i)) := by
  have hvlt : s.v0 < s.v1 := by
    rw [← hs.cl.v01, ← hs.cl.v10]
    exact lt_of_lt_of_le hs.cl.wf.v.first (kf_mono hs.cl.wf.v.sorted hs.cl.wf.v.min)
  obtain ⟨r, er, hr, r1, r2, r3, r4, r5, r6, r7, r8, hrv⟩ := hs.cl.invertUV heps
  have hrb : r.ClampedBy eps kv mv ku mu := ⟨hr, by rw [r1, r3]; exact hs.kV, by rw [r2, r4]; exact hs.kU⟩
  have hnp : r.nPV = s.nPU := by unfold Surface.nPV Surface.nPU; rw [r4, r2]
  have hmr : 13 * (r.knotsU.length + (2 * r.degU + 3)) * r.knotsV.length < 2 ^ 64 := by rw [r1, r3, r4]; exact hmem
  obtain ⟨c, B, hc, hB, hgo⟩ := C89_at_u_start_partial (s := r) (nrm := nrm) (T := T) (A := A) heps junk hrb (by rw [r1]; exact hp) (by rw [r1]; exact hp12) (by rw [r2]; exact hq)
    l natural mc hn hS
    (by
      rw [r5, r7, r8]
      intro u h0 h1
      rw [hrv u s.v0 h0 h1 le_rfl hvlt.le junk junk 0 1]
      exact hT u h0 h1)
    (by
      rw [r5, r7, r8]
      intro u h0 h1
      rw [hrv u s.v0 h0 h1 le_rfl hvlt.le junk junk 0 0]
      exact hA u h0 h1)
    (by rw [r2, r4, r7, r8, hnp]; exact hdet) hmr
  rw [r2, r4, r7, r8, hnp] at hc
  rw [r7, r8] at hB
  rw [r1, r2, r4, r5, r6, r7, r8] at hgo
  refine ⟨c, B, hc, hB, fun hgap => ?_⟩
  obtain ⟨x, J, cx, x1, x2, x3, x4, ⟨e, ee, ex⟩, eJ, cJ, j1, j2, j3, j4, j5, j6, j7, hext⟩ := hgo hgap
  set d := Spec.extStep nrm T A B s.u0 s.u1 with hd
  have hpK : (1 : K) ≤ s.degV := by exact_mod_cast hp
  have hd0 : 0 < d := by nlinarith
  obtain ⟨J', eJ', cJ', t1, t2, t3, t4, t5, t6, t7, t8, hJv⟩ := cJ.invertUV heps
  refine ⟨x, J', cx, x1, x2, x3, x4, ⟨e, ?_, ex⟩, ?_, cJ', by rw [t1, j2], by rw [t2, j1], by rw [t3, j3], by rw [t5, j6], by rw [t6, j7], by rw [t7, j4], by rw [t8, j5], ?_⟩
  · unfold Surface.extentionAt at ee ⊢
    simp only at ee ⊢
    rw [hr.copied heps (by
      refine lt_of_le_of_lt ?_ hmr
      exact Nat.mul_le_mul_right _ (by omega)), R_bind_ok] at ee
    rw [hs.cl.copied heps (by
      refine lt_of_le_of_lt ?_ hmem
      rw [Nat.mul_comm]
      exact Nat.mul_le_mul_right _ (by omega)), R_bind_ok, er, R_bind_ok, ee]
  · unfold Surface.extendedAt at eJ ⊢
    simp only at eJ ⊢
    rw [hr.copied heps (by
      refine lt_of_le_of_lt ?_ hmr
      exact Nat.mul_le_mul_right _ (by omega)), R_bind_ok] at eJ
    obtain ⟨a, ea, eJ⟩ := R_bind_eq_ok.mp eJ
    obtain ⟨b, eb, eJ⟩ := R_bind_eq_ok.mp eJ
    rw [hs.cl.copied heps (by
      refine lt_of_le_of_lt ?_ hmem
      rw [Nat.mul_comm]
      exact Nat.mul_le_mul_right _ (by omega)), R_bind_ok, er, R_bind_ok, ea, R_bind_ok, eb, R_bind_ok, eJ, R_bind_ok, eJ']
  · intro junk'
    refine StartExtension.congr hvlt.le hd0.le (hext junk') ?_ ?_
    · intro v u j i hv0 hv1 h0 h1
      exact (hrv u v h0 h1 hv0 hv1 junk' junk' i j).symm
    · intro v u j i hv0 hv1 h0 h1
      exact hJv v u (by rw [j4]; exact hv0) (by rw [j5]; exact hv1) (by rw [j6]; exact h0) (by rw [j7]; exact h1) junk' junk' j i

namespace Sample

/-- A solver of systems of at most two equations. -/
def cramer02 {V : Type} [AddCommGroup V] [Module ℚ V] (n : ℕ) (M : ℕ → ℕ → ℚ) (B : List V) : R (List V) :=
  match n with
  | 0 => .ok []
  | _ => cramer22 n M B

/-- A solver that reports the systems of two equations with a null row. -/
def nullRow (n : ℕ) (M : ℕ → ℕ → ℚ) (B : List ℚ) : R (List ℚ) :=
  if n = 2 ∧ M 0 0 = 0 ∧ M 0 1 = 0 then .error .null else .ok B

end Sample

/-- C89, disagreement: the end of the extended surface is at the length asked only at the corners, and at the points that a curve on the knots can reach. -/
theorem C89_length_witness :
    ∃ s J : Surface ℚ (ℚ × ℚ), s.extended (1/1000) 0 Sample.cramer02 (fun x => max |x.1| |x.2|) 1 false none = .ok J ∧
      s.value (1/1000) 0 s.u1 0 = .ok (0, 0) ∧ J.value (1/1000) 0 J.u1 0 = .ok (1, 0) ∧
      s.value (1/1000) 0 s.u1 (1/2) = .ok (0, 0) ∧ J.value (1/1000) 0 J.u1 (1/2) = .ok (1/2, 1/2) := by
  refine ⟨⟨1, 1, [(-1, 0), (0, 0), (0, -1), (0, 0)], [0, 0, 1, 1], [0, 0, 1, 1], 0, 1, 0, 1⟩,
    ⟨1, 1, [(-1, 0), (0, 0), (1, 0), (0, -1), (0, 0), (0, 1)], [0, 0, 1, 2, 2], [0, 0, 1, 1], 0, 2, 0, 1⟩, ?_, ?_, ?_, ?_, ?_⟩
  all_goals decide +kernel

/-- C89, disagreement: ten evenly spaced points by pole leave some poles without any when the knots along V are uneven: the system of the poles of the curve
has a null row, although the surface is valid. -/
theorem C89_uneven_witness :
    ∃ s : Surface ℚ ℚ, s.Cl ∧ s.value (1/1000) 0 s.u1 (1/2) 1 0 = .ok 1 ∧ s.lengthCurve (1/1000) 0 Sample.nullRow (fun x => |x|) 1 = .error .null := by
  refine ⟨⟨1, 1, [0, 1, 0, 1, 0, 1, 0, 1], [0, 0, 1, 1], [0, 0, 1/100, 2/100, 1, 1], 0, 1, 0, 1⟩, ?_, by decide +kernel, by decide +kernel⟩
  refine ⟨⟨⟨by decide +kernel, by decide, by decide, by decide +kernel, by decide +kernel⟩,
      ⟨by decide +kernel, by decide, by decide, by decide +kernel, by decide +kernel⟩, by decide⟩, by decide, by decide, ?_, ?_, ?_, ?_, ?_, ?_, ?_, ?_⟩ <;>
    decide +kernel

/-! ## Instances of the hypotheses -/

namespace Sample

/-- The plane, on `[0, 2] × [0, 1]`, of degree two along U. -/
def planeF : Surface ℚ (Fin 2 → ℚ) := ⟨2, 1, [![0, 0], ![0, 1], ![0, 2], ![1, 0], ![1, 1], ![1, 2]], [0, 0, 0, 2, 2, 2], [0, 0, 1, 1], 0, 2, 0, 1⟩

theorem planeF_clampedBy : planeF.ClampedBy (1/10) [0, 2] [3, 3] [0, 1] [2, 2] := by
  refine ⟨⟨⟨⟨by decide +kernel, by decide, by decide, by decide +kernel, by decide +kernel⟩,
      ⟨by decide +kernel, by decide, by decide, by decide +kernel, by decide +kernel⟩, by decide⟩, by decide, by decide, ?_, ?_, ?_, ?_, ?_, ?_, ?_, ?_⟩,
      ⟨by decide, by decide +kernel, by decide +kernel, by decide, by decide, ?_⟩, ⟨by decide, by decide +kernel, by decide +kernel, by decide, by decide, ?_⟩⟩ <;>
      (try decide +kernel) <;>
  · intro i x h1 h2 hx
    simp at h2
    omega

theorem ok_fin2 {r : R (Fin 2 → ℚ)} {a b : ℚ} (h : (r.map fun y => (y 0, y 1)) = .ok (a, b)) : r = .ok ![a, b] := by
  cases r with
  | error e => cases h
  | ok y =>
    have := Except.ok.inj h
    congr 1
    ext i
    fin_cases i
    · exact congrArg Prod.fst this
    · exact congrArg Prod.snd this

/-- The sum of the absolute values of the coordinates. -/
def nrmF (x : Fin 2 → ℚ) : ℚ := |x 0| + |x 1|

/-- The values of the plane along V, at the start and at the end along U. -/
theorem planeF_value {v : ℚ} (h0 : 0 ≤ v) (h1 : v ≤ 1) : planeF.value (1/10) 7 0 v 0 0 = .ok ![v, 0] ∧ planeF.value (1/10) 7 0 v 1 0 = .ok ![0, 1] ∧
    planeF.value (1/10) 7 2 v 0 0 = .ok ![v, 2] ∧ planeF.value (1/10) 7 2 v 1 0 = .ok ![0, 1] := by
  have g0 : planeF.v0 ≤ v := h0
  have g1 : v ≤ planeF.v1 := h1
  have h3 : ![(0 : ℚ), 1] + v • (![0, 1] - ![0, 1]) = ![0, 1] := by simp
  have key : ∀ (u : ℚ) (du : ℕ) (x : ℕ → Fin 2 → ℚ), planeF.u0 ≤ u → u ≤ planeF.u1 → (planeF.rowCurve 0).toCurve.value (1/10) 7 u du = .ok (x 0) →
      (planeF.rowCurve 1).toCurve.value (1/10) 7 u du = .ok (x 1) → planeF.value (1/10) 7 u v du 0 = .ok (x 0 + v • (x 1 - x 0)) := by
    intro u du x u0 u1 e0 e1
    rw [planeF_clampedBy.cl.value_rows (by norm_num) (u := u) (du := du) (x := x) (junk := 7) u0 u1
      (by intro j hj; have : j = 0 ∨ j = 1 := by have : j < 2 := hj; omega
          rcases this with rfl | rfl; exacts [e0, e1]) g0 g1 7 7]
    exact seg_value (eps := 1/10) (by norm_num) (by norm_num) (x 0) (x 1) h0 h1 7
  refine ⟨?_, ?_, ?_, ?_⟩
  · rw [key 0 0 (fun j => ![j, 0]) (by decide +kernel) (by decide +kernel) (ok_fin2 (by decide +kernel)) (ok_fin2 (by decide +kernel))]
    congr 1; ext i; fin_cases i <;> simp
  · rw [key 0 1 (fun j => ![0, 1]) (by decide +kernel) (by decide +kernel) (ok_fin2 (by decide +kernel)) (ok_fin2 (by decide +kernel)), h3]
  · rw [key 2 0 (fun j => ![j, 2]) (by decide +kernel) (by decide +kernel) (ok_fin2 (by decide +kernel)) (ok_fin2 (by decide +kernel))]
    congr 1; ext i; fin_cases i <;> simp
  · rw [key 2 1 (fun j => ![0, 1]) (by decide +kernel) (by decide +kernel) (ok_fin2 (by decide +kernel)) (ok_fin2 (by decide +kernel)), h3]

theorem planeF_determines : Spec.Determines (1/10) planeF.knotsV planeF.degV planeF.nPV (Spec.evenPars planeF.v0 planeF.v1 (planeF.nPV * 10)) := by
  refine C89_determines (by norm_num) planeF_clampedBy ?_
  intro i h1 h2 _
  obtain rfl : i = 1 := by
    have : 1 ≤ i := h1
    have : i < 2 := h2
    omega
  decide +kernel

theorem plane_stepF {A B T : ℚ → Fin 2 → ℚ} {v0 v1 d : ℚ} (h : v0 ≤ v1) (hA : ∀ v, v0 ≤ v → v ≤ v1 → nrmF (A v - B v) = d) (hT : ∀ v, v0 ≤ v → v ≤ v1 → nrmF (T v) = 1) :
    Spec.extStep nrmF T A B v0 v1 = d := by
  unfold Spec.extStep
  rw [Finset.sum_congr rfl (fun i hi => by
    obtain ⟨b0, b1⟩ := extSample_in h (Finset.mem_range.mp hi)
    rw [hA _ b0 b1, hT _ b0 b1])]
  rw [Finset.sum_const, Finset.card_range, div_one, nsmul_eq_mul]
  push_cast
  ring

/-- The segment at the distance `|l|` of the border, and its points. -/
theorem planeF_fits {l b : ℚ} {c : Curve ℚ (Fin 2 → ℚ)} {B : ℚ → Fin 2 → ℚ}
    (hc : Spec.Fits (1/10) planeF.knotsV planeF.degV (planeF.nPV * 10) planeF.v0 planeF.v1 (Spec.displaced nrmF l (fun v => ![v, b]) (fun _ => ![0, 1])) c)
    (hB : ∀ v, planeF.v0 ≤ v → v ≤ planeF.v1 → ∀ junk', c.value (1/10) junk' v 0 = .ok (B v)) {v : ℚ} (h0 : 0 ≤ v) (h1 : v ≤ 1) : B v = ![v, b + l] := by
  have hE : ∀ v, Spec.displaced nrmF l (fun v => ![v, b]) (fun _ => ![(0 : ℚ), 1]) v = ![v, b + l] := by
    intro v
    unfold Spec.displaced nrmF
    ext i; fin_cases i <;> simp
  have hs := fun v (h0 : (0 : ℚ) ≤ v) (h1 : v ≤ 1) => seg_value (eps := 1/10) (by norm_num) (by norm_num) ![(0 : ℚ), b + l] ![1, b + l] h0 h1
  have hseg : ∀ v : ℚ, ![(0 : ℚ), b + l] + v • (![1, b + l] - ![0, b + l]) = ![v, b + l] := by
    intro v
    ext i; fin_cases i <;> simp
  have := C89_exact (by decide) (by decide +kernel) hc (c' := (⟨[![0, b + l], ![1, b + l]], [0, 0, 1, 1], 1⟩ : CurveInfo ℚ (Fin 2 → ℚ)).toCurve)
    ⟨(seg_clampedBy (eps := 1/10) (by norm_num) _ _).good, rfl, rfl⟩ rfl rfl (fun v h0 h1 junk => by rw [hs v h0 h1 junk, hseg, hE])
  have hv := hB v h0 h1 7
  rw [this, hs v h0 h1 7, hseg] at hv
  exact (Except.ok.inj hv).symm

end Sample

/-- The plane extended by three at the end along U: its values at the end, and its tangent at the junction. -/
example : ∃ dense : ℕ → (ℕ → ℕ → ℚ) → List (Fin 2 → ℚ) → R (List (Fin 2 → ℚ)), ∃ J,
    Sample.planeF.extendedAt (1/10) 7 dense Sample.nrmF 3 .uEnd false none = .ok J ∧ J.u1 = 5 ∧ J.value (1/10) 7 5 (1/2) 0 0 = .ok ![1/2, 5] ∧
      J.value (1/10) 7 2 (1/3) 1 0 = .ok ![0, 1] := by
  obtain ⟨dense, hS⟩ := exists_solvesDense (K := ℚ) (V := Fin 2 → ℚ)
  obtain ⟨c, B, hc, hB, h⟩ := C89_extended_partial (eps := 1/10) (by norm_num) 7 Sample.planeF_clampedBy (by decide) (by decide) (by decide) 3 false none
    (nrm := Sample.nrmF) hS (T := fun _ => ![0, 1]) (A := fun v => ![v, 2]) (fun v h0 h1 => ⟨(Sample.planeF_value h0 h1).2.2.2, by decide +kernel⟩)
    (fun v h0 h1 => (Sample.planeF_value h0 h1).2.2.1) Sample.planeF_determines (by decide)
  have hBv := fun v (h0 : (0 : ℚ) ≤ v) (h1 : v ≤ 1) => Sample.planeF_fits hc hB h0 h1
  have hst : Spec.extStep Sample.nrmF (fun _ => ![0, 1]) (fun v => ![v, 2]) B Sample.planeF.v0 Sample.planeF.v1 = 3 :=
    Sample.plane_stepF (by decide +kernel) (fun v h0 h1 => by
      rw [hBv v h0 h1]; unfold Sample.nrmF; simp) (fun v _ _ => by decide +kernel)
  obtain ⟨e, J, -, -, ⟨-, eJ⟩, -, -, -, -, -, j5, -, -, -, -, -, -, -, -, hext⟩ := h (by rw [hst]; decide +kernel)
  rw [hst] at j5 hext
  have j5' : J.u1 = 5 := by rw [j5]; decide +kernel
  refine ⟨dense, J, eJ, j5', ?_, ?_⟩
  · obtain ⟨y, y1, y2⟩ := (hext 7).border (1/2) 0 (by decide +kernel) (by decide +kernel)
    rw [hB (1/2) (by decide +kernel) (by decide +kernel) 7, hBv (1/2) (by norm_num) (by norm_num)] at y1
    rw [← Except.ok.inj y1, show Sample.planeF.u1 + 3 = 5 by decide +kernel] at y2
    rw [y2]
    norm_num
  · obtain ⟨y, y1, y2⟩ := (hext 7).on 2 (1/3) 1 0 (by decide +kernel) (Or.inr ⟨rfl, by decide, by decide⟩) (by decide +kernel) (by decide +kernel)
    rw [(Sample.planeF_value (by norm_num) (by norm_num)).2.2.2] at y1
    rw [y2, ← Except.ok.inj y1]

/-- The plane extended by three at the start along U: the surface keeps its points at shifted parameters. -/
example : ∃ dense : ℕ → (ℕ → ℕ → ℚ) → List (Fin 2 → ℚ) → R (List (Fin 2 → ℚ)), ∃ J,
    Sample.planeF.extendedAt (1/10) 7 dense Sample.nrmF 3 .uStart false none = .ok J ∧ J.u1 = 5 ∧ J.value (1/10) 7 0 (1/2) 0 0 = .ok ![1/2, -3] ∧
      J.value (1/10) 7 5 (1/3) 0 0 = .ok ![1/3, 2] := by
  obtain ⟨dense, hS⟩ := exists_solvesDense (K := ℚ) (V := Fin 2 → ℚ)
  obtain ⟨c, B, hc, hB, h⟩ := C89_at_u_start_partial (eps := 1/10) (by norm_num) 7 Sample.planeF_clampedBy (by decide) (by decide) (by decide) 3 false none
    (nrm := Sample.nrmF) (fun x => by simp [Sample.nrmF]) hS (T := fun _ => ![0, 1]) (A := fun v => ![v, 0])
    (fun v h0 h1 => ⟨(Sample.planeF_value h0 h1).2.1, by decide +kernel⟩)
    (fun v h0 h1 => (Sample.planeF_value h0 h1).1) Sample.planeF_determines (by decide)
  have hBv := fun v (h0 : (0 : ℚ) ≤ v) (h1 : v ≤ 1) => Sample.planeF_fits hc hB h0 h1
  have hst : Spec.extStep Sample.nrmF (fun _ => ![0, 1]) (fun v => ![v, 0]) B Sample.planeF.v0 Sample.planeF.v1 = 3 :=
    Sample.plane_stepF (by decide +kernel) (fun v h0 h1 => by
      rw [hBv v h0 h1]; unfold Sample.nrmF; simp) (fun v _ _ => by decide +kernel)
  obtain ⟨x, J, -, -, -, -, -, -, eJ, -, -, -, -, -, j5, -, -, hext⟩ := h (by rw [hst]; decide +kernel)
  rw [hst] at j5 hext
  refine ⟨dense, J, eJ, by rw [j5]; decide +kernel, ?_, ?_⟩
  · obtain ⟨y, y1, y2⟩ := (hext 7).border (1/2) 0 (by decide +kernel) (by decide +kernel)
    rw [hB (1/2) (by decide +kernel) (by decide +kernel) 7, hBv (1/2) (by norm_num) (by norm_num), zero_add] at y1
    rw [← Except.ok.inj y1] at y2
    exact y2
  · obtain ⟨y, y1, y2⟩ := (hext 7).on 2 (1/3) 0 0 (by decide +kernel) (by decide +kernel) (by decide +kernel) (by decide +kernel)
    rw [(Sample.planeF_value (by norm_num) (by norm_num)).2.2.1] at y1
    rw [← Except.ok.inj y1, show (2 : ℚ) + 3 = 5 by norm_num] at y2
    exact y2

end Gbs
