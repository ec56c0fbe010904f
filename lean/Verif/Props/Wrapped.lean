import Verif.Model.Wrapped
import Verif.Props.EvaluationReal
import Verif.Props.RemoveKnot
import Mathlib.Analysis.Calculus.IteratedDeriv.FaaDiBruno

/-!
# C48: reversed, trimmed, extended, composite and reparametrized curves

The algebraic parts hold over every ordered field. The chain rules are stated with the derivatives of real analysis: if the wrapped curve
returns the derivatives of `f` at the mapped parameter then the wrapping curve returns the derivatives of the composed map.
-/

set_option linter.unusedSectionVars false

namespace Gbs

section Field

variable {K : Type} [Field K] [LinearOrder K] [IsStrictOrderedRing K]
variable {V : Type} [AddCommGroup V] [Module K V]

/-- C48: the reversed curve runs through the same points on the same interval in the opposite direction. -/
theorem C48_reversed (c : ACurve K V) (u : K) (d : ℕ) :
    c.reversed.b0 = c.b0 ∧ c.reversed.b1 = c.b1 ∧
    c.reversed.value u 0 = c.value (c.b0 + c.b1 - u) 0 ∧
    (∀ x, c.value (c.b0 + c.b1 - u) d = .ok x → c.reversed.value u d = .ok ((-1 : K) ^ d • x)) ∧
    (∀ e, c.value (c.b0 + c.b1 - u) d = .error e → c.reversed.value u d = .error e) ∧
    c.reversed.reversed.value u d = c.value u d := by
  have hu : c.b1 - (u - c.b0) = c.b0 + c.b1 - u := by ring
  refine ⟨rfl, rfl, ?_, ?_, ?_, ?_⟩
  · simp only [ACurve.reversed, hu]
    cases c.value (c.b0 + c.b1 - u) 0 <;> simp
  · intro x hx
    simp only [ACurve.reversed, hu, hx, R_bind_ok, R_pure]
    by_cases hd : d % 2 = 0
    · rw [if_pos hd, Even.neg_one_pow (Nat.even_iff.mpr hd)]
    · rw [if_neg hd, Odd.neg_one_pow (Nat.odd_iff.mpr (by omega))]
  · intro e he
    simp only [ACurve.reversed, hu, he, R_bind_error]
  · have h2 : c.b1 - (c.b1 - (u - c.b0) - c.b0) = u := by ring
    simp only [ACurve.reversed, h2]
    cases c.value u d with
    | error e => rfl
    | ok x =>
      simp only [R_bind_ok, R_pure, smul_smul]
      by_cases hd : d % 2 = 0
      · simp [hd]
      · simp [hd]

/-- C48: the trimmed curve is the wrapped curve on its interval (within the tolerance) and refuses the other parameters. -/
theorem C48_trimmed (eps : K) (c : ACurve K V) (u1 u2 u : K) (d : ℕ) :
    (c.trimmed eps u1 u2).b0 = u1 ∧ (c.trimmed eps u1 u2).b1 = u2 ∧
    (u1 - eps ≤ u → u ≤ u2 + eps → (c.trimmed eps u1 u2).value u d = c.value u d) ∧
    ((u < u1 - eps ∨ u2 + eps < u) → (c.trimmed eps u1 u2).value u d = .error (.thrown .outOfBoundsEval)) := by
  refine ⟨rfl, rfl, fun h1 h2 => ?_, fun h => ?_⟩
  · simp only [ACurve.trimmed]
    rw [if_neg (by push Not; exact ⟨h1, h2⟩)]
  · simp only [ACurve.trimmed]
    rw [if_pos h]

/-- C48: inside the bounds the extended curve is the wrapped one; the clamped extension stays at the end points. -/
theorem C48_extended (lo hi : K) (clamped : Bool) (c : ACurve K V) (u : K) (d : ℕ) :
    (c.b0 ≤ u → u ≤ c.b1 → (c.extended lo hi clamped).value u d = c.value u d) ∧
    (u < c.b0 → (c.extended lo hi true).value u 0 = c.value c.b0 0) ∧
    (c.b0 ≤ c.b1 → c.b1 < u → (c.extended lo hi true).value u 0 = c.value c.b1 0) := by
  refine ⟨fun h1 h2 => ?_, fun h => ?_, fun h1 h2 => ?_⟩
  · simp only [ACurve.extended]
    rw [if_neg (not_lt.mpr h1), if_neg (not_lt.mpr h2)]
  · simp only [ACurve.extended, if_true]
    rw [if_pos h]
  · simp only [ACurve.extended, if_true]
    rw [if_neg (not_lt.mpr (h1.trans h2.le)), if_pos h2]

/-! ## Composite curves -/

/-- Parameter of the beginning of curve `i`: the beginning of the first curve plus the lengths of the curves before `i`. -/
def Spec.compositeStart (c0 : ACurve K V) (cs : List (ACurve K V)) (i : ℕ) : K :=
  c0.b0 + ((cs.take i).map fun c => c.b1 - c.b0).sum

theorem compositeStart_succ {c0 : ACurve K V} {cs : List (ACurve K V)} {i : ℕ} (c : ACurve K V) (h : cs[i]? = some c) :
    Spec.compositeStart c0 cs (i + 1) = Spec.compositeStart c0 cs i + (c.b1 - c.b0) := by
  simp only [Spec.compositeStart, List.take_add_one, h]
  simp [add_assoc]

theorem Composite.mk?_spec {cs : List (ACurve K V)} {c0 : ACurve K V} (h0 : cs[0]? = some c0) :
    ∃ u : List K, Composite.mk? cs = .ok ⟨cs, u⟩ ∧ u.length = cs.length + 1 ∧
      ∀ i, i ≤ cs.length → u[i]? = some (Spec.compositeStart c0 cs i) := by
  obtain ⟨u, h1, h2, h3⟩ := forLt_inv (a := 0) (b := cs.length) (s := List.replicate (cs.length + 1) c0.b0)
    (body := fun i u => do
      let c ← rd cs i
      let ui ← rd u i
      wr u (i + 1) (ui + (c.b1 - c.b0)))
    (fun i u => u.length = cs.length + 1 ∧ ∀ j, j ≤ i → u[j]? = some (Spec.compositeStart c0 cs j)) (Nat.zero_le _)
    ⟨List.length_replicate, fun j hj => by
      obtain rfl : j = 0 := by omega
      simp [Spec.compositeStart]⟩
    (fun i u _ hi hI => by
      have hc : cs[i]? = some cs[i] := List.getElem?_eq_getElem hi
      refine ⟨u.set (i + 1) (Spec.compositeStart c0 cs i + (cs[i].b1 - cs[i].b0)), ?_, ?_, ?_⟩
      · simp only [rd_eq_ok.mpr hc, rd_eq_ok.mpr (hI.2 i le_rfl), R_bind_ok]
        exact wr_ok (by omega)
      · simp [hI.1]
      · intro j hj
        rw [getElem?_set_of_lt (by omega)]
        by_cases hj' : j = i + 1
        · rw [if_pos hj', hj', compositeStart_succ _ hc]
        · rw [if_neg hj']; exact hI.2 j (by omega))
  refine ⟨u, ?_, h2, h3⟩
  simp only [Composite.mk?, rd_eq_ok.mpr h0, R_bind_ok, h1, R_pure]

/-- C48: the composite of curves with non-decreasing bounds covers `[start 0, start n]`; a parameter of curve `i` (of the last curve from its
beginning on) is evaluated on that curve at the parameter measured from its own beginning. -/
theorem C48_composite {cs : List (ACurve K V)} {c0 : ACurve K V} (h0 : cs[0]? = some c0) (hb : ∀ c ∈ cs, c.b0 ≤ c.b1) :
    ∃ s a, Composite.mk? cs = .ok s ∧ s.toA = .ok a ∧ a.b0 = c0.b0 ∧ a.b1 = Spec.compositeStart c0 cs cs.length ∧
      (∀ u d, a.value u d = s.value u d) ∧
      ∀ (i : ℕ) (c : ACurve K V) (u : K) (d : ℕ), cs[i]? = some c → Spec.compositeStart c0 cs i ≤ u →
        (u < Spec.compositeStart c0 cs (i + 1) ∨ i + 1 = cs.length) →
        a.value u d = c.value (c.b0 + (u - Spec.compositeStart c0 cs i)) d := by
  obtain ⟨U, h1, h2, h3⟩ := Composite.mk?_spec h0
  have hk : ∀ i, i ≤ cs.length → kf U i = Spec.compositeStart c0 cs i := fun i hi => by
    obtain ⟨hlt, he⟩ := List.getElem?_eq_some_iff.mp (h3 i hi)
    rw [kf_of_lt hlt, he]
  have hstep : ∀ i, i + 1 < U.length → kf U i ≤ kf U (i + 1) := by
    intro i hi
    have hc : cs[i]? = some cs[i] := List.getElem?_eq_getElem (by omega)
    rw [hk i (by omega), hk (i + 1) (by omega), compositeStart_succ _ hc]
    have := hb cs[i] (List.getElem_mem _)
    linarith
  have hU : U.Pairwise (· ≤ ·) := by
    rw [← List.isChain_iff_pairwise, List.isChain_iff_getElem]
    intro i hi
    have := hstep i hi
    rwa [kf_of_lt (by omega), kf_of_lt hi] at this
  have hm := kf_mono hU
  have hlen : 0 < cs.length := by
    by_contra hc
    rw [List.getElem?_eq_none (by omega)] at h0
    exact absurd h0 (by simp)
  refine ⟨⟨cs, U⟩, ⟨Spec.compositeStart c0 cs 0, Spec.compositeStart c0 cs cs.length, Composite.value ⟨cs, U⟩⟩, h1, ?_, ?_, rfl,
    fun _ _ => rfl, ?_⟩
  · simp only [Composite.toA, rd_eq_ok.mpr (h3 0 (Nat.zero_le _)), usub_ok (show 1 ≤ U.length by omega), R_bind_ok,
      show U.length - 1 = cs.length by omega, rd_eq_ok.mpr (h3 _ le_rfl), R_pure]
  · simp [Spec.compositeStart]
  · intro i c u d hc hu hi
    have hil : i < cs.length := by
      by_contra hcon
      rw [List.getElem?_eq_none (by omega)] at hc
      exact absurd hc (by simp)
    have hidx : compositeIdx U u = .ok i := by
      simp only [compositeIdx]
      by_cases hlt : u < Spec.compositeStart c0 cs (i + 1)
      · have := upperBound_eq hU (u := u) (r := i) (by rw [hk i hil.le]; exact hu) (by rw [hk (i + 1) hil]; exact hlt) (by omega)
        rw [this]
        rw [if_neg ?_, usub_ok (by omega)]
        · simp
        · intro hcon
          have : i + 1 = cs.length + 1 := by omega
          omega
      · have hi' : i + 1 = cs.length := by tauto
        have hub : upperBound U u = U.length := by
          by_contra hcon
          have hlt' : upperBound U u < U.length := lt_of_le_of_ne (upperBound_le U u) hcon
          have a := lt_kf_upperBound hlt'
          have b := hm (show upperBound U u ≤ cs.length by omega)
          rw [hk cs.length le_rfl, ← hi'] at b
          exact hlt (lt_of_lt_of_le a b)
        rw [if_pos hub, hub, usub_ok (by omega)]
        exact congrArg Except.ok (by omega)
    simp only [Composite.value]
    rw [hidx]
    simp only [R_bind_ok, rd_eq_ok.mpr hc, rd_eq_ok.mpr (h3 i hil.le)]
    congr 1
    ring

/-- C48: below the bounds the composite curve dereferences an iterator before the beginning. -/
theorem C48_composite_below {cs : List (ACurve K V)} {c0 : ACurve K V} (h0 : cs[0]? = some c0) (hb : ∀ c ∈ cs, c.b0 ≤ c.b1) {u : K}
    (hu : u < c0.b0) (d : ℕ) : ∃ s, Composite.mk? cs = .ok s ∧ s.value u d = .error .oob := by
  obtain ⟨U, h1, h2, h3⟩ := Composite.mk?_spec h0
  refine ⟨⟨cs, U⟩, h1, ?_⟩
  have hub : upperBound U u = 0 := by
    have h4 : U[0]? = some c0.b0 := by rw [h3 0 (Nat.zero_le _)]; simp [Spec.compositeStart]
    cases U with
    | nil => simp at h4
    | cons x U => 
      obtain rfl : x = c0.b0 := by simpa using h4
      simp [upperBound, List.findIdx_cons, hu]
  simp only [Composite.value, compositeIdx]
  rw [hub, if_neg (by omega)]
  simp [usub]

end Field

/-! ## Chain rules over the real numbers -/

variable {V : Type} [NormedAddCommGroup V] [NormedSpace ℝ V]

/-- C48: the derivatives of a reversed curve are those of the map run backwards. -/
theorem C48_reversed_deriv (c : ACurve ℝ V) (f : ℝ → V) (u : ℝ) (d : ℕ)
    (h : c.value (c.b0 + c.b1 - u) d = .ok (iteratedDeriv d f (c.b0 + c.b1 - u))) :
    c.reversed.value u d = .ok (iteratedDeriv d (fun t => f (c.b0 + c.b1 - t)) u) := by
  rw [(C48_reversed c u d).2.2.2.1 _ h]
  congr 1
  have e1 := iteratedDeriv_comp_neg d (fun t => f (c.b0 + c.b1 + t)) u
  have e2 := congrFun (iteratedDeriv_comp_const_add d f (c.b0 + c.b1)) (-u)
  simp only [← sub_eq_add_neg] at e1 e2
  rw [e1, e2]

/-- C48: the derivatives of a composite curve are those of the curve on which the parameter falls. -/
theorem C48_composite_deriv {cs : List (ACurve ℝ V)} {c0 : ACurve ℝ V} (h0 : cs[0]? = some c0) (hb : ∀ c ∈ cs, c.b0 ≤ c.b1) :
    ∃ s, Composite.mk? cs = .ok s ∧ ∀ (i : ℕ) (c : ACurve ℝ V) (f : ℝ → V) (u : ℝ) (d : ℕ), cs[i]? = some c →
      Spec.compositeStart c0 cs i ≤ u → (u < Spec.compositeStart c0 cs (i + 1) ∨ i + 1 = cs.length) →
      c.value (c.b0 + (u - Spec.compositeStart c0 cs i)) d = .ok (iteratedDeriv d f (c.b0 + (u - Spec.compositeStart c0 cs i))) →
      s.value u d = .ok (iteratedDeriv d (fun t => f (c.b0 + (t - Spec.compositeStart c0 cs i))) u) := by
  obtain ⟨s, a, h1, _, _, _, h2, h3⟩ := C48_composite h0 hb
  refine ⟨s, h1, fun i c f u d hc hu hi hv => ?_⟩
  rw [← h2, h3 i c u d hc hu hi, hv]
  congr 1
  set A := Spec.compositeStart c0 cs i
  have e := congrFun (iteratedDeriv_comp_const_add d f (c.b0 - A)) u
  have h4 : ∀ t, c.b0 - A + t = c.b0 + (t - A) := fun t => by ring
  simp only [h4] at e
  exact e.symm

/-- The tangent line at `ub`. -/
theorem iteratedDeriv_line (x x' : V) (ub u : ℝ) (d : ℕ) :
    iteratedDeriv d (fun t => x + (t - ub) • x') u = if d = 0 then x + (u - ub) • x' else if d = 1 then x' else 0 := by
  have h1 : deriv (fun t : ℝ => x + (t - ub) • x') = fun _ => x' := by
    funext t
    have := ((((hasDerivAt_id t).sub_const ub).smul_const x').const_add x).deriv
    simpa using this
  obtain _ | _ | d := d
  · simp
  · simp [iteratedDeriv_one, h1]
  · rw [iteratedDeriv_succ', h1, iteratedDeriv_succ']
    simp [iteratedDeriv_const]

/-- C48: beyond its bounds the extension that is not clamped is the tangent line, with its derivatives of all orders. -/
theorem C48_extended_tangent (lo hi : ℝ) (c : ACurve ℝ V) (hb : c.b0 ≤ c.b1) (f : ℝ → V) {ub u : ℝ}
    (hu : (ub = c.b0 ∧ u < c.b0) ∨ (ub = c.b1 ∧ c.b1 < u)) (h0 : c.value ub 0 = .ok (f ub)) (h1 : c.value ub 1 = .ok (deriv f ub)) (d : ℕ) :
    (c.extended lo hi false).value u d = .ok (iteratedDeriv d (fun t => f ub + (t - ub) • deriv f ub) u) := by
  have key : c.tangentExt ub u d = .ok (iteratedDeriv d (fun t => f ub + (t - ub) • deriv f ub) u) := by
    rw [iteratedDeriv_line]
    obtain _ | _ | d := d <;> simp [ACurve.tangentExt, h0, h1]
  rcases hu with ⟨rfl, hu⟩ | ⟨rfl, hu⟩
  · simp only [ACurve.extended, Bool.false_eq_true, if_false]
    rw [if_pos hu, key]
  · simp only [ACurve.extended, Bool.false_eq_true, if_false]
    rw [if_neg (not_lt.mpr (hb.trans hu.le)), if_pos hu, key]

/-- C48 fails for the derivatives of a clamped extension: it is constant beyond the bounds, but the derivative returned there is that of the
end point. -/
theorem C48_extended_clamped_witness : ∃ (c : ACurve ℝ ℝ) (f : ℝ → ℝ), (∀ u d, c.value u d = .ok (iteratedDeriv d f u)) ∧
    (∀ u, u < c.b0 → (c.extended (-100) 100 true).value u 0 = .ok (f c.b0)) ∧
    (c.extended (-100) 100 true).value (c.b0 - 1) 1 = .ok 1 ∧ deriv (fun _ : ℝ => f c.b0) (c.b0 - 1) ≠ 1 := by
  refine ⟨⟨0, 1, fun u d => .ok (iteratedDeriv d (fun t => t) u)⟩, fun t => t, fun _ _ => rfl, ?_, ?_, ?_⟩
  · intro u hu
    simp only [ACurve.extended, if_true]
    rw [if_pos hu]
    simp
  · simp only [ACurve.extended, if_true]
    rw [if_pos (by norm_num)]
    simp [iteratedDeriv_one]
  · simp

/-- C48: chain rule of a reparametrized curve, up to the order 2; higher orders throw. -/
theorem C48_reparametrized (c : ACurve ℝ V) (f : ACurve ℝ ℝ) (F : ℝ → V) (g : ℝ → ℝ) {m : ℝ}
    (hc : ∀ d, d ≤ 2 → c.value (g m) d = .ok (iteratedDeriv d F (g m))) (hf : ∀ d, d ≤ 2 → f.value m d = .ok (iteratedDeriv d g m))
    (hF : ContDiffAt ℝ 2 F (g m)) (hg : ContDiffAt ℝ 2 g m) :
    (∀ d, d ≤ 2 → (c.reparametrized f).value m d = .ok (iteratedDeriv d (F ∘ g) m)) ∧
    (∀ d, 2 < d → (c.reparametrized f).value m d = .error (.thrown .runtime)) ∧
    (c.reparametrized f).b0 = f.b0 ∧ (c.reparametrized f).b1 = f.b1 := by
  have f0 := hf 0 (by omega)
  have f1 := hf 1 (by omega)
  have f2 := hf 2 (by omega)
  have c0 := hc 0 (by omega)
  have c1 := hc 1 (by omega)
  have c2 := hc 2 (by omega)
  simp only [iteratedDeriv_zero, iteratedDeriv_one] at f0 f1 c0 c1
  refine ⟨fun d hd => ?_, fun d hd => ?_, rfl, rfl⟩
  · obtain _ | _ | _ | d := d
    · simp [ACurve.reparametrized, f0, c0]
    · simp only [ACurve.reparametrized, f0, f1, c1, R_bind_ok, R_pure, zero_add, iteratedDeriv_one, if_true, one_ne_zero, if_false]
      congr 1
      exact (HasDerivAt.scomp m (hF.differentiableAt (by norm_num)).hasDerivAt (hg.differentiableAt (by norm_num)).hasDerivAt).deriv.symm
    · simp only [ACurve.reparametrized, f0, f1, f2, c1, c2, R_bind_ok, R_pure]
      norm_num
      rw [iteratedDeriv_scomp_two hF hg, smul_smul, sq, add_comm]
    · omega
  · obtain _ | _ | _ | d := d
    · omega
    · omega
    · omega
    · simp [ACurve.reparametrized]

/-- C48 on a B-spline curve: the reversed curve returns, inside a knot span, the derivatives of the reversed map. -/
theorem C48_reversed_bspline {eps : ℝ} (heps : 0 < eps) {c : Curve ℝ V} (h : c.Good) (hb : c.BigOk eps) (f : ℝ → V)
    (hf : ∀ v, c.b0 ≤ v → v ≤ c.b1 → ∃ junk, c.value eps junk v = .ok (f v)) {u : ℝ} {k : ℕ} (hk : c.deg ≤ k) (hkn : k < c.poles.length)
    (h1 : kf c.knots k < c.b0 + c.b1 - u) (h2 : c.b0 + c.b1 - u < kf c.knots (k + 1)) (junk : ℝ) (d : ℕ) :
    (c.toA eps junk).reversed.value u d = .ok (iteratedDeriv d (fun t => f (c.b0 + c.b1 - t)) u) :=
  C48_reversed_deriv (c.toA eps junk) f u d (C08_iteratedDeriv heps h hb f hf hk hkn h1 h2 junk d)

/-! ## The hypotheses are met -/

/-- The curve `t ↦ t²` on `[0,2]` with its derivatives. -/
noncomputable def Sample.sq : ACurve ℝ ℝ := ⟨0, 2, fun u d => .ok (iteratedDeriv d (fun t => t ^ 2) u)⟩

example : (∀ d, d ≤ 2 → Sample.sq.value (5 : ℝ) d = .ok (iteratedDeriv d (fun t => t ^ 2) 5)) ∧
    ContDiffAt ℝ 2 (fun t : ℝ => t ^ 2) 5 := ⟨fun _ _ => rfl, by fun_prop⟩

example : [Sample.sq, Sample.sq][0]? = some Sample.sq ∧ (∀ c ∈ [Sample.sq, Sample.sq], c.b0 ≤ c.b1) ∧
    Spec.compositeStart Sample.sq [Sample.sq, Sample.sq] 1 ≤ 3 ∧ (1 + 1 = [Sample.sq, Sample.sq].length) := by
  refine ⟨rfl, ?_, ?_, rfl⟩
  · intro c hc
    simp only [List.mem_cons, List.not_mem_nil, or_false, or_self] at hc
    subst hc
    simp [Sample.sq]
  · simp [Spec.compositeStart, Sample.sq]
    norm_num

example : (Sample.sq.b0 = Sample.sq.b0 ∧ (-1 : ℝ) < Sample.sq.b0) ∧ Sample.sq.value Sample.sq.b0 0 = .ok ((fun t : ℝ => t ^ 2) Sample.sq.b0) ∧
    Sample.sq.value Sample.sq.b0 1 = .ok (deriv (fun t : ℝ => t ^ 2) Sample.sq.b0) :=
  ⟨⟨rfl, by simp [Sample.sq]⟩, by simp [Sample.sq], by simp [Sample.sq]⟩

end Gbs
