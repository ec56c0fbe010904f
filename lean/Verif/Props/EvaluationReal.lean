import Verif.Props.Evaluation
import Mathlib.Analysis.Calculus.IteratedDeriv.Lemmas
import Mathlib.Analysis.Calculus.Deriv.Polynomial
import Mathlib.Analysis.Calculus.Deriv.Mul
import Mathlib.Analysis.Calculus.Deriv.Add

/-! # C08 over the real numbers: `value(u,d)` is the analytic `d`-th derivative -/

namespace Gbs

open Polynomial

variable {V : Type} [NormedAddCommGroup V] [NormedSpace ℝ V]

theorem iteratedDeriv_polySum (n : ℕ) (P : ℕ → V) (d : ℕ) : ∀ (q : ℕ → ℝ[X]),
    iteratedDeriv d (fun v => ∑ i ∈ Finset.range n, ((q i).eval v) • P i) =
      fun v => ∑ i ∈ Finset.range n, ((derivative^[d] (q i)).eval v) • P i := by
  induction d with
  | zero => intro q; simp
  | succ d ih =>
    intro q
    rw [iteratedDeriv_succ']
    have : deriv (fun v => ∑ i ∈ Finset.range n, ((q i).eval v) • P i) =
        fun v => ∑ i ∈ Finset.range n, ((derivative (q i)).eval v) • P i := by
      funext v
      exact (HasDerivAt.fun_sum fun i _ => ((q i).hasDerivAt v).smul_const (P i)).deriv
    rw [this, ih (fun i => derivative (q i))]
    rfl

/-- C08 over `ℝ`: at a parameter in the interior of a knot span, `value(u,d)` is the `d`-th derivative
(in the sense of real analysis) of the map `v ↦ value(v)`. `f` is any function that returns the values
of the curve. -/
theorem C08_iteratedDeriv {eps : ℝ} (heps : 0 < eps) {c : Curve ℝ V} (h : c.Good)
    (hb : c.BigOk eps) (f : ℝ → V)
    (hf : ∀ v, c.b0 ≤ v → v ≤ c.b1 → ∃ junk, c.value eps junk v = .ok (f v))
    {u : ℝ} {k : ℕ} (hk : c.deg ≤ k) (hkn : k < c.poles.length)
    (h1 : kf c.knots k < u) (h2 : u < kf c.knots (k+1)) (junk : ℝ) (d : ℕ) :
    c.value eps junk u d = .ok (iteratedDeriv d f u) := by
  have hm := kf_mono h.wf.sorted
  have hb0 : c.b0 ≤ kf c.knots k := by rw [h.lo]; exact hm hk
  have hb1 : kf c.knots (k+1) ≤ c.b1 := by rw [h.hi]; exact hm hkn
  obtain ⟨k', q, hk', hq, hv⟩ := C08_derivative heps h hb (u := u) (by linarith) (by linarith) junk
  have hin : ∀ v, kf c.knots k < v → v < kf c.knots (k+1) →
      Spec.InSpan (kf c.knots) (kf c.knots c.poles.length) k v := by
    intro v g1 g2
    unfold Spec.InSpan
    rw [← h.hi, if_neg (by linarith)]
    exact ⟨g1.le, g2⟩
  obtain rfl : k = k' := InSpan_unique hm (hin u h1 h2) hk'
  rw [hv d]
  congr 1
  have heq : f =ᶠ[nhds u] fun v => ∑ i ∈ Finset.range c.poles.length, ((q i).eval v) • pf c.poles i := by
    filter_upwards [Ioo_mem_nhds h1 h2] with v hv
    obtain ⟨j, hj⟩ := hf v (by linarith [hv.1]) (by linarith [hv.2])
    rw [C04_value_eq_sum heps h hb (by linarith [hv.1]) (by linarith [hv.2])] at hj
    rw [← Except.ok.inj hj]
    exact Finset.sum_congr rfl fun i _ => by rw [hq v (hin v hv.1 hv.2)]
  rw [heq.iteratedDeriv_eq, iteratedDeriv_polySum]

/-- A real curve of degree 1 with an interior knot. -/
def Sample.r : Curve ℝ ℝ where
  deg := 1
  poles := [0, 2, 1]
  knots := [0, 0, 1, 2, 2]
  b0 := 0
  b1 := 2

theorem Sample.r_good : Sample.r.Good where
  wf := { sorted := by simp [Sample.r], len := rfl, min := by decide
          first := by simp [Sample.r, kf], last := by simp [Sample.r, kf] }
  lo := by simp [Sample.r, kf]
  hi := by simp [Sample.r, kf]

example : Sample.r.Good ∧ Sample.r.BigOk 1 ∧ Sample.r.deg ≤ 1 ∧ 1 < Sample.r.poles.length ∧
    kf Sample.r.knots 1 < (1/2 : ℝ) ∧ (1/2 : ℝ) < kf Sample.r.knots 2 :=
  ⟨Sample.r_good, Or.inl (by decide), by decide, by decide, by simp [Sample.r, kf], by
    simp [Sample.r, kf]; norm_num⟩

end Gbs
