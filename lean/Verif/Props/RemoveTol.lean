import Verif.Lemmas.RemoveTol
import Verif.Props.RemoveKnot
import Verif.Lemmas.DerivCurve

/-! # C57: error of a knot removal with a tolerance -/

namespace Gbs

set_option linter.unusedSectionVars false

variable {K : Type} [Field K] [LinearOrder K] [IsStrictOrderedRing K]
variable {V : Type} [AddCommGroup V] [Module K V]

/-- Close curves have close values. -/
theorem NearBl.value {N : V → K} {tol eps : K} (heps : 0 < eps) {c c' : Curve K V} (h : c.Good) (h' : c'.Good) (hb : c.BigOk eps)
    (hb' : c'.BigOk eps) (hp : c'.deg = c.deg) (hd : c'.b0 = c.b0) (hd' : c'.b1 = c.b1)
    (hn : NearBl N tol c.deg (kf c.knots) c.poles.length (pf c.poles) (kf c'.knots) c'.poles.length (pf c'.poles))
    {v : K} (h1 : c.b0 ≤ v) (h2 : v ≤ c.b1) (junk junk' : K) :
    ∃ x y, c.value eps junk v = .ok x ∧ c'.value eps junk' v = .ok y ∧ N (x - y) ≤ tol := by
  obtain ⟨i, e, a1, a2, a3, a4, -⟩ := findSpan_wf h.wf v
  obtain ⟨i', e', b1, b2, b3, b4, -⟩ := findSpan_wf h'.wf v
  have hs := a4 (by rw [← h.lo]; exact h1) (by rw [← h.hi]; exact h2)
  have hs' := b4 (by rw [← h'.lo, hd]; exact h1) (by rw [← h'.hi, hd']; exact h2)
  obtain ⟨m, m1, m2, m3, m4, m5, -, m7⟩ := hn i a3 a1 a2
  have hsm : Spec.InSpan (kf c'.knots) (kf c'.knots c'.poles.length) m v := by
    unfold Spec.InSpan at hs ⊢
    rw [← h'.hi, hd']
    rw [← h.hi] at hs
    split at hs
    · rename_i hvT
      rw [if_pos hvT]
      refine ⟨lt_of_le_of_lt m4 hs.1, le_antisymm ?_ (by rw [← hs.2]; exact m5)⟩
      rw [← hd', h'.hi]
      exact (kf_mono h'.wf.sorted) (by omega)
    · rename_i hvT
      rw [if_neg hvT]
      exact ⟨le_trans m4 hs.1, lt_of_lt_of_le hs.2 m5⟩
  obtain rfl : i' = m := InSpan_unique (kf_mono h'.wf.sorted) hs' hsm
  have hv : kf c.knots i ≤ v ∧ v ≤ kf c.knots (i + 1) := by
    unfold Spec.InSpan at hs
    split at hs
    · rename_i hvT
      exact ⟨by rw [hvT]; rw [← hs.2]; exact (kf_mono h.wf.sorted) (by omega), by rw [hvT]; exact hs.2.ge⟩
    · exact ⟨hs.1, hs.2.le⟩
  refine ⟨_, _, by rw [Curve.value_inBounds heps h1 h2]; exact evalValue_all h.wf (Curve.evalOk heps h hb h1 (by linarith)) 0 e,
    by rw [Curve.value_inBounds heps (by rw [hd]; exact h1) (by rw [hd']; exact h2)]
       exact evalValue_all h'.wf (Curve.evalOk heps h' hb' (by rw [hd]; exact h1) (by rw [hd']; linarith)) 0 e', ?_⟩
  rw [spanDer_zero _ a1 a2, spanDer_zero _ b1 b2, hp]
  exact m7 v hv.1 hv.2

theorem wf_remKnots {U : List K} {P : List V} {p T : ℕ} {u : K} (hw : Wf p U P) (h1 : kf U p < u) (h2 : u < kf U P.length)
    (hs : 1 ≤ multOf U u) (hsp : multOf U u ≤ p) (hT : T ≤ multOf U u) {Q : List V} (hQ : Q.length = P.length - T) :
    Wf p (remKnots U u T) Q ∧ kf (remKnots U u T) p = kf U p ∧ kf (remKnots U u T) Q.length = kf U P.length ∧
      kLast (remKnots U u T) = kLast U := by
  obtain ⟨h, hub⟩ := remOk_of hw.sorted hw.len h1 h2 hs hsp
  obtain ⟨r, hr⟩ : ∃ r, r = upperBound U u - 1 := ⟨_, rfl⟩
  obtain ⟨s, hs'⟩ : ∃ s, s = multOf U u := ⟨_, rfl⟩
  rw [← hr, ← hs'] at h
  have hps := h.ps; have hrn := h.rn; have hsp' := h.sp
  have hub' : upperBound U u = r + 1 := by omega
  have hlen := hw.len; have hmin := hw.min
  have hkf : kf (remKnots U u T) = tRem (kf U) r T := by
    unfold remKnots
    rw [hub']
    exact kf_remKnots (by omega) (by omega)
  have hl : (remKnots U u T).length = U.length - T := by unfold remKnots; simp; omega
  have d0 : kf (remKnots U u T) p = kf U p := by
    rw [hkf]; unfold tRem; rw [if_pos (by omega)]
  have d1 : kf (remKnots U u T) Q.length = kf U P.length := by
    rw [hkf, hQ]; unfold tRem; rw [if_neg (by omega), show P.length - T + T = P.length by omega]
  refine ⟨⟨?_, by omega, by omega, ?_, ?_⟩, d0, d1, ?_⟩
  · unfold remKnots
    refine hw.sorted.sublist ?_
    conv_rhs => rw [← List.take_append_drop (upperBound U u) U]
    exact (List.take_sublist_take_left (by omega)).append (List.Sublist.refl _)
  · rw [d0, hkf]
    unfold tRem
    split
    · exact hw.first
    · exact lt_trans h1 (h.high (by omega))
  · rw [d1, hkf]
    unfold tRem
    split
    · exact lt_of_le_of_lt (le_trans (h.mono (show Q.length - 1 ≤ r by omega)) (h.mult r (by omega) le_rfl).le) h2
    · rw [show Q.length - 1 + T = P.length - 1 by omega]
      exact hw.last
  · unfold kLast
    rw [hkf, hl]
    unfold tRem
    rw [if_neg (by omega)]
    congr 1
    omega

/-- C57: `removeKnot` with a tolerance. When the knot `u` is inside the domain with a multiplicity at most the degree, and at most as many
removals as its multiplicity are asked for, the function succeeds; it reports `T` removals, removes `T` copies of `u` and `T` poles, and
the new curve is everywhere at a distance at most `T * tol` from the old one. -/
theorem C57_removal_error {eps : K} (heps : 0 < eps) {N : V → K} (hN : IsSeminorm N) {tol : K} {near : V → V → Bool}
    (hnear : ∀ x y, near x y = true → N (x - y) ≤ tol) {c : Curve K V} (h : c.Good) (hb : c.BigOk eps) {u : K} {num : ℕ}
    (h1 : c.b0 < u) (h2 : u < c.b1) (hs : 1 ≤ c.knots.count u) (hsp : c.knots.count u ≤ c.deg) (hnum : num ≤ c.knots.count u) :
    ∃ T c', removeKnotTol eps near u c.deg num c.knots c.poles = .ok (T, c'.knots, c'.poles) ∧ c.removeKnot eps near u num = .ok c' ∧
      T ≤ num ∧ c'.poles.length + T = c.poles.length ∧ c'.knots.count u + T = c.knots.count u ∧ c'.Good ∧ c'.deg = c.deg ∧
      c'.b0 = c.b0 ∧ c'.b1 = c.b1 ∧
      ∀ v, c.b0 ≤ v → v ≤ c.b1 → ∀ junk junk', ∃ x y, c.value eps junk v = .ok x ∧ c'.value eps junk' v = .ok y ∧
        N (x - y) ≤ T * tol := by
  have hw := h.wf
  rw [count_eq_multOf hw.sorted] at hs hsp hnum
  have g1 : kf c.knots c.deg < u := by rw [← h.lo]; exact h1
  have g2 : u < kf c.knots c.poles.length := by rw [← h.hi]; exact h2
  obtain ⟨T, Q, e, hT, hQ, hkf, hnr⟩ := removeKnotTol_near (eps := eps) hN hnear hw.sorted hw.len g1 g2 hs hsp hnum
  obtain ⟨hw', d0, d1, dl⟩ := wf_remKnots hw g1 g2 hs hsp (show T ≤ multOf c.knots u by omega) hQ
  have hg : ({ c with knots := remKnots c.knots u T, poles := Q } : Curve K V).Good :=
    ⟨hw', by simp only; rw [d0]; exact h.lo, by simp only; rw [d1]; exact h.hi⟩
  have hmn := hw.min
  obtain ⟨hR, hub⟩ := remOk_of hw.sorted hw.len g1 g2 hs hsp
  have hps := hR.ps; have hrn := hR.rn
  refine ⟨T, { c with knots := remKnots c.knots u T, poles := Q }, e, ?_, hT, by simp only; omega, ?_, hg, rfl, rfl, rfl, ?_⟩
  · unfold Curve.removeKnot
    rw [e, R_bind_ok]
    rfl
  · simp only
    have hlub := lowerBound_le_upperBound c.knots u
    have hmu : multOf c.knots u = upperBound c.knots u - lowerBound c.knots u := rfl
    rw [count_eq_multOf hw'.sorted, count_eq_multOf hw.sorted]
    have hlen := hw.len; have hlen' := hw'.len
    have hlb : lowerBound (remKnots c.knots u T) u = upperBound c.knots u - multOf c.knots u := by
      have := lowerBound_eq hw'.sorted (u := u) (r := upperBound c.knots u - multOf c.knots u - 1)
        (by rw [hkf]; unfold tRem; rw [if_pos (by omega)]; exact hR.low (by omega))
        (by
          rw [hkf]; unfold tRem
          split
          · exact (hR.mult _ (by omega) (by omega)).ge
          · exact (hR.high (by omega)).le)
        (by omega)
      omega
    have hub' : upperBound (remKnots c.knots u T) u = upperBound c.knots u - T := by
      have := upperBound_eq hw'.sorted (u := u) (r := upperBound c.knots u - T - 1)
        (by
          rw [hkf]; unfold tRem
          rw [if_pos (by omega)]
          exact le_trans (hR.mono (show upperBound c.knots u - T - 1 ≤ upperBound c.knots u - 1 by omega)) (hR.mult _ (by omega) le_rfl).le)
        (by
          rw [hkf]; unfold tRem
          rw [if_neg (by omega)]
          exact hR.high (by omega))
        (by omega)
      omega
    unfold multOf at hlb ⊢
    omega
  · have hb' : ({ c with knots := remKnots c.knots u T, poles := Q } : Curve K V).BigOk eps := by
      rcases hb with hb | ⟨hb1, hb2⟩
      · exact Or.inl hb
      · refine Or.inr ⟨?_, by simp only; rw [dl]; exact hb2⟩
        intro i j hij
        simp only at hij ⊢
        rw [hkf] at hij ⊢
        obtain ⟨i', hi⟩ : ∃ i', tRem (kf c.knots) (upperBound c.knots u - 1) T i = kf c.knots i' := by
          unfold tRem; split <;> exact ⟨_, rfl⟩
        obtain ⟨j', hj⟩ : ∃ j', tRem (kf c.knots) (upperBound c.knots u - 1) T j = kf c.knots j' := by
          unfold tRem; split <;> exact ⟨_, rfl⟩
        rw [hi, hj] at hij ⊢
        exact hb1 _ _ hij
    intro v v1 v2 junk junk'
    exact NearBl.value heps h hg hb hb' rfl rfl rfl hnr v1 v2 junk junk'

/-- The hypotheses are met: a parabola with a knot in the middle, slightly bent, with the tolerance 1/10 and the norm `|·|`. -/
example : removeKnotTol (1 / 1000000 : ℚ) (fun a b : ℚ => decide (|a - b| ≤ 1 / 10)) 2 2 1 [0, 0, 0, 1, 2, 3, 4, 4, 4]
    [0, 1 / 2, 3 / 2, 51 / 20, 7 / 2, 4] = .ok (1, [0, 0, 0, 1, 3, 4, 4, 4], [0, 1 / 2, 83 / 40, 7 / 2, 4]) := by decide +kernel

example : IsSeminorm (fun x : ℚ => |x|) := ⟨abs_add_le, fun a x => by simp [abs_mul]⟩

end Gbs
