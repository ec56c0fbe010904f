import Verif.Props.Rational
import Verif.Props.EvaluationReal
import Mathlib.Analysis.Calculus.ContDiff.Polynomial
import Mathlib.Analysis.Calculus.ContDiff.Operations

/-! # C15 over the real numbers: rational derivatives are the analytic ones -/

namespace Gbs

open Polynomial

variable {V : Type} [NormedAddCommGroup V] [NormedSpace ℝ V]

theorem contDiff_polySum (n : ℕ) (P : ℕ → V) (q : ℕ → ℝ[X]) (m : WithTop ℕ∞) :
    ContDiff ℝ m (fun v => ∑ i ∈ Finset.range n, ((q i).eval v) • P i) := by
  apply ContDiff.sum
  intro i _
  have := Polynomial.contDiff_aeval (𝕜 := ℝ) (q i) m
  simp only [Polynomial.coe_aeval_eq_eval] at this
  exact this.smul contDiff_const

/-- C15 over `ℝ`: at a parameter in the interior of a knot span where the weight does not vanish, the rational
`value(u,d)` is, for every order up to 20, the `d`-th derivative (in the sense of real analysis) of the map
`v ↦ value(v)`. `f` is any function that returns the values of the rational curve. -/
theorem C15_iteratedDeriv {eps : ℝ} (heps : 0 < eps) {c : Curve ℝ (V × ℝ)} (h : c.Good)
    (hb : c.BigOk eps) (f : ℝ → V)
    (hf : ∀ v, c.b0 ≤ v → v ≤ c.b1 → ∃ junk, c.ratValue eps junk v = .ok (f v))
    {u : ℝ} {k : ℕ} (hk : c.deg ≤ k) (hkn : k < c.poles.length)
    (h1 : kf c.knots k < u) (h2 : u < kf c.knots (k+1)) (junk : ℝ) {x : V × ℝ}
    (hx : c.value eps junk u = .ok x) (hw : x.2 ≠ 0) {d : ℕ} (hd : d ≤ 20) :
    c.ratValue eps junk u d = .ok (iteratedDeriv d f u) := by
  have hm := kf_mono h.wf.sorted
  have hb0 : c.b0 ≤ kf c.knots k := by rw [h.lo]; exact hm hk
  have hb1 : kf c.knots (k+1) ≤ c.b1 := by rw [h.hi]; exact hm hkn
  have hin : ∀ v, kf c.knots k < v → v < kf c.knots (k+1) →
      Spec.InSpan (kf c.knots) (kf c.knots c.poles.length) k v := by
    intro v g1 g2
    unfold Spec.InSpan
    rw [← h.hi, if_neg (by linarith)]
    exact ⟨g1.le, g2⟩
  obtain ⟨i, hi, -, -, -, hv, hr⟩ := Curve.rat_spec heps h hb (u := u) (by linarith) (by linarith)
  obtain rfl := InSpan_unique hm hi (hin u h1 h2)
  rw [hv junk 0] at hx
  have hx := Except.ok.inj hx
  have hw0 : (spanDer (kf c.knots) c.poles.length c.deg i (pf c.poles) 0 u).2 ≠ 0 := by rw [hx]; exact hw
  obtain ⟨r1, -⟩ := hr hw0
  rw [r1 junk d (by omega)]
  -- the numerator and the weight are polynomial near `u`
  set An : ℝ → V := fun v => ∑ j ∈ Finset.range c.poles.length,
    ((Bp (kf c.knots) i c.deg j).eval v) • (pf c.poles j).1 with hAn
  set Wn : ℝ → ℝ := fun v => ∑ j ∈ Finset.range c.poles.length,
    ((Bp (kf c.knots) i c.deg j).eval v) • (pf c.poles j).2 with hWn
  have hAd : ∀ d, (spanDer (kf c.knots) c.poles.length c.deg i (pf c.poles) d u).1 = iteratedDeriv d An u := by
    intro d
    rw [spanDer_fst, hAn, iteratedDeriv_polySum]
    rfl
  have hWd : ∀ d, (spanDer (kf c.knots) c.poles.length c.deg i (pf c.poles) d u).2 = iteratedDeriv d Wn u := by
    intro d
    rw [spanDer_snd, hWn, iteratedDeriv_polySum]
    rfl
  have hAsm : ∀ m, ContDiff ℝ m An := fun m => contDiff_polySum _ _ _ m
  have hWsm : ∀ m, ContDiff ℝ m Wn := fun m => contDiff_polySum _ _ _ m
  have hWu : Wn u ≠ 0 := by
    have := hWd 0
    rw [iteratedDeriv_zero] at this
    rw [← this]; exact hw0
  have hne : ∀ᶠ v in nhds u, Wn v ≠ 0 := ((hWsm 0).continuous.continuousAt).eventually_ne hWu
  -- the values near `u`
  have hfe : f =ᶠ[nhds u] fun v => (Wn v)⁻¹ • An v := by
    filter_upwards [Ioo_mem_nhds h1 h2, hne] with v hvI hvW
    obtain ⟨jk, hj⟩ := hf v (by linarith [hvI.1]) (by linarith [hvI.2])
    obtain ⟨i', hi', -, -, -, hv', hr'⟩ := Curve.rat_spec heps h hb (u := v) (by linarith [hvI.1]) (by linarith [hvI.2])
    obtain rfl := InSpan_unique hm hi' (hin v hvI.1 hvI.2)
    have e1 : (spanDer (kf c.knots) c.poles.length c.deg i' (pf c.poles) 0 v).1 = An v := by
      rw [spanDer_fst]; rfl
    have e2 : (spanDer (kf c.knots) c.poles.length c.deg i' (pf c.poles) 0 v).2 = Wn v := by
      rw [spanDer_snd]; rfl
    rw [(hr' (by rw [e2]; exact hvW)).1 jk 0 (by omega), quotB_eq, e1, e2] at hj
    rw [← Except.ok.inj hj]
    simp
  have hfsm : ∀ m : ℕ, ContDiffAt ℝ m f u := by
    intro m
    apply ContDiffAt.congr_of_eventuallyEq _ hfe
    exact ((hWsm m).contDiffAt.inv hWu).smul (hAsm m).contDiffAt
  have hprod : An =ᶠ[nhds u] Wn • f := by
    filter_upwards [hfe, hne] with v e1 e2
    rw [Pi.smul_apply', e1, smul_smul, mul_inv_cancel₀ e2, one_smul]
  congr 1
  symm
  refine quotB_unique (C := fun d => iteratedDeriv d f u) hw0 20
    (fun d hd => by rw [bU_choose hd (by omega)]; simp) ?_ d hd
  intro m hm'
  rw [hAd, hprod.iteratedDeriv_eq, ← iteratedDerivWithin_univ,
    iteratedDerivWithin_smul (Set.mem_univ u) uniqueDiffOn_univ (hWsm m).contDiffAt.contDiffWithinAt
      (hfsm m).contDiffWithinAt]
  apply Finset.sum_congr rfl
  intro j hj
  rw [Finset.mem_range] at hj
  rw [bU_choose hm' (by omega), hWd, iteratedDerivWithin_univ, iteratedDerivWithin_univ, mul_smul,
    ← Nat.cast_smul_eq_nsmul ℝ]

/-- A real rational curve of degree 1 with an interior knot and distinct weights. -/
noncomputable def Sample.rr : Curve ℝ (ℝ × ℝ) where
  deg := 1
  poles := [(0, 1), (2, 2), (1, 1)]
  knots := [0, 0, 1, 2, 2]
  b0 := 0
  b1 := 2

theorem Sample.rr_good : Sample.rr.Good where
  wf := { sorted := by simp [Sample.rr], len := rfl, min := by decide
          first := by simp [Sample.rr, kf], last := by simp [Sample.rr, kf] }
  lo := by simp [Sample.rr, kf]
  hi := by simp [Sample.rr, kf]

theorem Sample.rr_pos : ∀ x ∈ Sample.rr.poles, 0 < x.2 := by
  intro x hx
  simp only [Sample.rr, List.mem_cons, List.not_mem_nil, or_false] at hx
  rcases hx with rfl | rfl | rfl <;> norm_num

example : Sample.rr.Good ∧ Sample.rr.BigOk 1 ∧ Sample.rr.deg ≤ 1 ∧ 1 < Sample.rr.poles.length ∧
    kf Sample.rr.knots 1 < (1/2 : ℝ) ∧ (1/2 : ℝ) < kf Sample.rr.knots 2 ∧
    (∃ x : ℝ × ℝ, Sample.rr.value 1 0 (1/2) = .ok x ∧ x.2 ≠ 0) ∧
    ∃ f : ℝ → ℝ, ∀ v, Sample.rr.b0 ≤ v → v ≤ Sample.rr.b1 → ∃ junk, Sample.rr.ratValue 1 junk v = .ok (f v) := by
  have hb : Sample.rr.BigOk 1 := Or.inl (by decide)
  refine ⟨Sample.rr_good, hb, by decide, by decide, by simp [Sample.rr, kf], by
    simp [Sample.rr, kf]; norm_num, ?_, ?_⟩
  · obtain ⟨x, e, hx⟩ := C53_weight_pos one_pos Sample.rr_good hb Sample.rr_pos (u := 1/2)
      (by simp [Sample.rr]) (by simp [Sample.rr]; norm_num) 0
    exact ⟨x, e, hx.ne'⟩
  · have : ∀ v, ∃ y, Sample.rr.b0 ≤ v → v ≤ Sample.rr.b1 → Sample.rr.ratValue 1 0 v = .ok y := by
      intro v
      by_cases hv : Sample.rr.b0 ≤ v ∧ v ≤ Sample.rr.b1
      · obtain ⟨i, a, -, -, -, -, -, e⟩ := C53_rational_convex_combination one_pos Sample.rr_good hb
          Sample.rr_pos hv.1 hv.2 0
        exact ⟨_, fun _ _ => e⟩
      · exact ⟨0, fun a b => absurd ⟨a, b⟩ hv⟩
    choose f hf using this
    exact ⟨f, fun v a b => ⟨0, hf v a b⟩⟩

end Gbs
