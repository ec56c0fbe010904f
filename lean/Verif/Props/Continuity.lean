import Verif.Props.EvaluationReal
import Verif.Props.Reparam
import Mathlib.Topology.Algebra.Polynomial

/-! # C52: continuity of the values and derivatives over the real numbers -/

namespace Gbs

open Polynomial Topology

variable {V : Type} [NormedAddCommGroup V] [NormedSpace ℝ V]

theorem continuous_spanDer (t : ℕ → ℝ) (n p k : ℕ) (P : ℕ → V) (d : ℕ) : Continuous (spanDer t n p k P d) := by
  unfold spanDer
  exact continuous_finset_sum _ fun j _ => (Polynomial.continuous _).smul continuous_const

/-- C52: where a knot has multiplicity `m` (0 if `u` is not a knot) the map `v ↦ value(v,d)` is continuous for every
order `d ≤ p - m`; it is so for every order at the parameters that are not knots and at the ends of the bounds.
`f` is any function that returns the `d`-th derivatives of the curve. -/
theorem C52_continuity {eps : ℝ} (heps : 0 < eps) {c : Curve ℝ V} (h : c.Good) (hb : c.BigOk eps) {d : ℕ} (f : ℝ → V)
    (hf : ∀ v, c.b0 ≤ v → v ≤ c.b1 → ∃ junk, c.value eps junk v d = .ok (f v)) {u : ℝ} (h1 : c.b0 ≤ u) (h2 : u ≤ c.b1)
    (hm : c.b0 < u → u < c.b1 → c.knots.count u = 0 ∨ d + c.knots.count u ≤ c.deg) :
    ContinuousWithinAt f (Set.Icc c.b0 c.b1) u := by
  have hmono := kf_mono h.wf.sorted
  have hlen := h.wf.len
  have hval : ∀ k, c.deg ≤ k → k < c.poles.length → ∀ v, c.b0 ≤ v → v ≤ c.b1 →
      Spec.InSpan (kf c.knots) (kf c.knots c.poles.length) k v →
      f v = spanDer (kf c.knots) c.poles.length c.deg k (pf c.poles) d v := by
    intro k _ _ v g1 g2 g3
    obtain ⟨i, -, hin, -, -, hv⟩ := Curve.value_span heps h hb g1 g2
    obtain rfl := InSpan_unique hmono hin g3
    obtain ⟨junk, hj⟩ := hf v g1 g2
    rw [hv junk d] at hj
    exact (Except.ok.inj hj).symm
  obtain ⟨i, -, hin, a1, a2, -⟩ := Curve.value_span heps h hb h1 h2
  have hfu := hval i a1 a2 u h1 h2 hin
  obtain ⟨p1, p2, p3⟩ := InSpan_bounds hin
  have hsplit : Set.Icc c.b0 c.b1 ⊆ (Set.Icc c.b0 c.b1 ∩ Set.Iio u) ∪ (Set.Icc c.b0 c.b1 ∩ Set.Ici u) := by
    intro v hv
    rcases lt_or_ge v u with h' | h'
    · exact Or.inl ⟨hv, h'⟩
    · exact Or.inr ⟨hv, h'⟩
  refine ContinuousWithinAt.mono ?_ hsplit
  apply ContinuousWithinAt.union
  · -- from the left
    rcases eq_or_lt_of_le h1 with hu0 | hu0
    · have : Set.Icc c.b0 c.b1 ∩ Set.Iio u = ∅ := by
        ext v
        simp only [Set.mem_inter_iff, Set.mem_Icc, Set.mem_Iio, Set.mem_empty_iff_false, iff_false]
        rintro ⟨⟨q1, -⟩, q2⟩
        linarith
      rw [this]
      simp [ContinuousWithinAt]
    · -- the span on the left
      have hl1 := lowerBound_le c.knots u
      have hul := upperBound_le c.knots u
      have hpl : c.deg < lowerBound c.knots u := by
        by_contra hc
        have h3 := le_kf_lowerBound (U := c.knots) (u := u) (by omega)
        have := hmono (show lowerBound c.knots u ≤ c.deg by omega)
        rw [h.lo] at hu0
        linarith
      have hln : lowerBound c.knots u ≤ c.poles.length := by
        by_contra hc
        have := kf_lt_of_lt_lowerBound (U := c.knots) (u := u) (j := c.poles.length) (by omega)
        rw [← h.hi] at this
        linarith
      obtain ⟨k, hk⟩ : ∃ k, k = lowerBound c.knots u - 1 := ⟨_, rfl⟩
      have k1 : kf c.knots k < u := kf_lt_of_lt_lowerBound (by omega)
      have k2 : u ≤ kf c.knots (k+1) := by
        rw [show k + 1 = lowerBound c.knots u by omega]
        exact le_kf_lowerBound (by omega)
      have hki : k ≤ i := by
        by_contra hc
        have := hmono (show i + 1 ≤ k by omega)
        linarith
      have heq : spanDer (kf c.knots) c.poles.length c.deg k (pf c.poles) d u = f u := by
        rw [hfu]
        rcases Nat.eq_or_lt_of_le hki with hki' | hki'
        · rw [hki']
        · have hall : ∀ j, k < j → j ≤ i → kf c.knots j = u := by
            intro j hj1 hj2
            apply le_antisymm
            · exact le_trans (hmono hj2) p1
            · exact le_trans k2 (hmono (show k + 1 ≤ j by omega))
          have hcount := count_ge h.wf.sorted hki' (by omega) hall
          have hu1 : u < c.b1 := by
            refine lt_of_le_of_ne h2 ?_
            intro hu1
            unfold Spec.InSpan at hin
            rw [← h.hi, if_pos hu1] at hin
            have := hall i hki' le_rfl
            linarith [hin.1]
          rcases hm hu0 hu1 with hd' | hd'
          · omega
          · exact spanDer_adjacent d hmono (lt_of_lt_of_le k1 k2) p3 hki hall (by omega) (by omega) a2 _
      have hc := (continuous_spanDer (kf c.knots) c.poles.length c.deg k (pf c.poles) d).continuousWithinAt
        (s := Set.Icc c.b0 c.b1 ∩ Set.Iio u) (x := u)
      refine hc.congr_of_eventuallyEq ?_ heq.symm
      have hnear : ∀ᶠ v in 𝓝[Set.Icc c.b0 c.b1 ∩ Set.Iio u] u, kf c.knots k < v :=
        nhdsWithin_le_nhds (Ioi_mem_nhds k1)
      filter_upwards [hnear, self_mem_nhdsWithin] with v hv1 hv2
      apply hval k (by omega) (by omega) v hv2.1.1 hv2.1.2
      unfold Spec.InSpan
      have : v < u := hv2.2
      rw [if_neg (by rw [← h.hi]; linarith)]
      exact ⟨hv1.le, by linarith⟩
  · -- from the right
    have hc := (continuous_spanDer (kf c.knots) c.poles.length c.deg i (pf c.poles) d).continuousWithinAt
        (s := Set.Icc c.b0 c.b1 ∩ Set.Ici u) (x := u)
    refine hc.congr_of_eventuallyEq ?_ hfu
    rcases eq_or_lt_of_le h2 with hu1 | hu1
    · filter_upwards [self_mem_nhdsWithin] with v hv
      have : v = u := le_antisymm (by rw [hu1]; exact hv.1.2) hv.2
      rw [this]
      exact hfu
    · have hin' : kf c.knots i ≤ u ∧ u < kf c.knots (i+1) := by
        unfold Spec.InSpan at hin
        rwa [← h.hi, if_neg hu1.ne] at hin
      have hnear : ∀ᶠ v in 𝓝[Set.Icc c.b0 c.b1 ∩ Set.Ici u] u, v < kf c.knots (i+1) :=
        nhdsWithin_le_nhds (Iio_mem_nhds hin'.2)
      have hnear' : ∀ᶠ v in 𝓝[Set.Icc c.b0 c.b1 ∩ Set.Ici u] u, v < c.b1 :=
        nhdsWithin_le_nhds (Iio_mem_nhds hu1)
      filter_upwards [hnear, hnear', self_mem_nhdsWithin] with v hv1 hv1' hv2
      apply hval i a1 a2 v hv2.1.1 hv2.1.2
      unfold Spec.InSpan
      have : u ≤ v := hv2.2
      rw [if_neg (by rw [← h.hi]; linarith)]
      exact ⟨by linarith, hv1⟩

example : Sample.r.Good ∧ Sample.r.BigOk 1 ∧ Sample.r.b0 ≤ (1 : ℝ) ∧ (1 : ℝ) ≤ Sample.r.b1 ∧
    0 + Sample.r.knots.count (1 : ℝ) ≤ Sample.r.deg :=
  ⟨Sample.r_good, Or.inl (by decide), by simp [Sample.r], by simp [Sample.r], by simp [Sample.r, List.count_cons]⟩

end Gbs
