import Verif.Lemmas.Trim
import Verif.Props.Insertion

/-! # Trimming: C20 -/

namespace Gbs

set_option linter.unusedSectionVars false

variable {K : Type} [Field K] [LinearOrder K] [IsStrictOrderedRing K]
variable {V : Type} [AddCommGroup V] [Module K V]

/-- The first and last knots are the bounds (always the case after the constructor). -/
structure Curve.Clamped (c : Curve K V) : Prop where
  lo : kf c.knots 0 = c.b0
  hi : kLast c.knots = c.b1

theorem evalOk_of {eps : K} (heps : 0 < eps) {p : ℕ} {U : List K} {P : List V} (h : Wf p U P) {L : List K}
    (hb : p ≤ stackMaxDegree ∨ SepL eps L) (hs : ∀ x ∈ U, x ∈ L) (hcl : kLast U = kf U P.length) {v : K}
    (h1 : kf U p ≤ v) (h2 : v ≤ kf U P.length) : EvalOk eps p U P v := by
  rcases hb with hb | hb
  · exact Or.inl hb
  · exact Or.inr ⟨heps, hb.sep h.ne hs, hcl.symm, h1, by linarith⟩

/-- C20: trimming between two increasing parameters of a clamped curve succeeds; the new curve is bounded by them
and has the same value at each parameter in between, and the same derivatives (at an interior `u2`, where
the new curve ends, those up to the order `p - m`, `m` being the multiplicity of the knot `u2`: the further ones have
different values on both sides). -/
theorem C20_trim_partial {eps : K} (heps : 0 < eps) {c : Curve K V} (h : c.Good) (hcl : c.Clamped) (hdeg : 1 ≤ c.deg)
    {u1 u2 : K} (hb : c.deg ≤ stackMaxDegree ∨ SepL eps (u1 :: u2 :: c.knots))
    (h1 : c.b0 ≤ u1) (h12 : u1 < u2) (h2 : u2 ≤ c.b1)
    (hm1 : c.b0 + eps ≤ u1 → c.knots.count u1 ≤ c.deg) :
    ∃ c', c.trim eps u1 u2 = .ok c' ∧ c'.deg = c.deg ∧ c'.b0 = u1 ∧ c'.b1 = u2 ∧
      Wf c'.deg c'.knots c'.poles ∧ kf c'.knots c'.deg ≤ u1 ∧ u2 ≤ kf c'.knots c'.poles.length ∧
      (c.b0 + eps ≤ u1 → kf c'.knots 0 = u1) ∧ (u2 + eps ≤ c.b1 → kLast c'.knots = u2) ∧
      ∀ v, u1 ≤ v → v ≤ u2 → ∀ d, (v < u2 ∨ d + c.knots.count u2 ≤ c.deg ∨ c.b1 < u2 + eps) → ∀ junk junk' : K,
        ∃ pt, c.value eps junk v d = .ok pt ∧ c'.value eps junk' v d = .ok pt := by
  have hlen := h.wf.len
  have hl0 := hcl.lo
  have hl1 := hcl.hi
  -- head
  obtain ⟨U1, P1, e1, w1, f1, f2, f3, f4, f5, f6, f7⟩ : ∃ U1 P1,
      trimBegin eps c.deg c.knots c.poles u1 = .ok (U1, P1) ∧ Wf c.deg U1 P1 ∧
      (c.b0 + eps ≤ u1 → kf U1 0 = u1) ∧ kf U1 c.deg ≤ u1 ∧ kf U1 P1.length = c.b1 ∧
      SameMap c.deg U1 P1 c.deg c.knots c.poles ∧ (∀ x ∈ U1, x ∈ u1 :: c.knots) ∧ kLast U1 = c.b1 ∧
      multOf U1 u2 = multOf c.knots u2 := by
    by_cases hc : c.b0 + eps ≤ u1
    · obtain ⟨U1, P1, e, w, g1, g2, g3, g4, g5, g6, g7⟩ := trimBegin_spec (u := u1) heps h.wf hdeg (by rw [hl0, h.lo])
        (by rw [← h.lo]; exact hc) (by rw [← h.hi]; linarith) (by rw [← count_eq_multOf h.wf.sorted]; exact hm1 hc)
      refine ⟨U1, P1, e, w, fun _ => g1, g2.le, by rw [g3, h.hi], g4, g5, by rw [g6, hl1], g7 u2 h12⟩
    · refine ⟨c.knots, c.poles, ?_, h.wf, fun h' => absurd h' hc, by rw [← h.lo]; exact h1, h.hi.symm,
        SameMap.refl h.wf, fun x hx => List.mem_cons_of_mem _ hx, hl1, rfl⟩
      · unfold trimBegin
        rw [rd_kf (by omega), R_bind_ok, if_pos (by rw [hl0]; linarith)]
        rfl
  have f2' : kf U1 c.deg < u2 := by linarith
  -- tail
  obtain ⟨U2, P2, e2, w2, g1, g2, g3, g4, g5, g6, g7, g8⟩ : ∃ U2 P2, trimEnd eps c.deg U1 P1 u2 = .ok (U2, P2) ∧ Wf c.deg U2 P2 ∧
      kf U2 0 = kf U1 0 ∧ kf U2 c.deg = kf U1 c.deg ∧ (u2 + eps ≤ c.b1 → kLast U2 = u2) ∧
      kLast U2 = kf U2 P2.length ∧ u2 ≤ kf U2 P2.length ∧ (∀ x ∈ U2, x ∈ u2 :: U1) ∧
      (∀ v, u1 ≤ v → v ≤ u2 → (v < u2 ∨ c.b1 < u2 + eps) → SameAt c.deg U2 P2 c.deg U1 P1 v) ∧
      (∃ i i', findSpan P2.length c.deg u2 U2 = .ok i ∧ findSpan P1.length c.deg u2 U1 = .ok i' ∧
        ∀ d, d + multOf c.knots u2 ≤ c.deg →
        spanDer (kf U2) P2.length c.deg i (pf P2) d u2 = spanDer (kf U1) P1.length c.deg i' (pf P1) d u2) := by
    by_cases hc : u2 + eps ≤ c.b1
    · obtain ⟨U2, P2, e, w, q1, q2, q3, q4, q5, q6, q7⟩ := trimEnd_spec heps w1 hdeg (by rw [f6, f3]) f2' (by rw [f3]; exact hc)
      refine ⟨U2, P2, e, w, q1, q2, fun _ => q4, by rw [q4, q3], q3.ge, q7, ?_, by rw [← f7]; exact q6⟩
      intro v hv1 hv2 hv3
      exact q5 v (by linarith) (by rcases hv3 with hv3 | hv3 <;> [exact hv3; linarith])
    · refine ⟨U1, P1, ?_, w1, rfl, rfl, fun h' => absurd h' hc, by rw [f6, f3], by rw [f3]; exact h2,
        fun x hx => List.mem_cons_of_mem _ hx, fun v _ _ _ => SameAt.refl w1 v, ?_⟩
      · unfold trimEnd
        have hl1 := w1.len
        rw [usub_ok (by omega), R_bind_ok, rd_kf (by omega), R_bind_ok, if_pos]
        · rfl
        · unfold kLast at f6
          rw [f6]; linarith
      · obtain ⟨i, e, -⟩ := findSpan_wf w1 u2
        exact ⟨i, i, e, e, fun _ _ => rfl⟩
  refine ⟨{ c with knots := U2, poles := P2, b0 := u1, b1 := u2 }, ?_, rfl, rfl, rfl, w2, g2.trans_le f2, g5, ?_, g3, ?_⟩
  · unfold Curve.trim trimKnots
    simp only [if_true]
    rw [min_eq_left h12.le, max_eq_right h12.le, e1, R_bind_ok]
    simp only
    rw [e2, R_bind_ok]
    rfl
  · intro hc
    show kf U2 0 = u1
    rw [g1, f1 hc]
  · intro v hv1 hv2 d hd junk junk'
    have hok : EvalOk eps c.deg c.knots c.poles v :=
      evalOk_of heps h.wf hb (fun x hx => List.mem_cons_of_mem _ (List.mem_cons_of_mem _ hx)) (by rw [hl1, h.hi])
        (by rw [← h.lo]; linarith) (by rw [← h.hi]; linarith)
    have hok2 : EvalOk eps c.deg U2 P2 v := by
      refine evalOk_of heps w2 hb ?_ g4 (by rw [g2]; linarith) (by linarith)
      intro x hx
      rcases List.mem_cons.mp (g6 x hx) with rfl | hx
      · simp
      · rcases List.mem_cons.mp (f5 x hx) with rfl | hx
        · simp
        · simp [hx]
    have hval : c.value eps junk v d = evalValue eps junk v c.knots c.poles c.deg d :=
      Curve.value_inBounds heps (by linarith) (by linarith) junk d
    have hval' : Curve.value eps junk' { c with knots := U2, poles := P2, b0 := u1, b1 := u2 } v d =
        evalValue eps junk' v U2 P2 c.deg d := Curve.value_inBounds heps hv1 hv2 junk' d
    rw [hval, hval']
    obtain ⟨j, j', k1, k2, k3⟩ := f4.at (show kf U1 c.deg ≤ v by linarith) (show v ≤ kf U1 P1.length by rw [f3]; linarith)
    by_cases hcase : v < u2 ∨ c.b1 < u2 + eps
    · obtain ⟨i, i', a1, a2, a3⟩ := (g7 v hv1 hv2 hcase)
      obtain rfl : i' = j := by rw [a2] at k1; exact Except.ok.inj k1
      refine ⟨spanDer (kf c.knots) c.poles.length c.deg j' (pf c.poles) d v, evalValue_all h.wf hok d k2, ?_⟩
      rw [evalValue_all w2 hok2 d a1, a3 d, k3 d]
    · push Not at hcase
      obtain rfl : v = u2 := le_antisymm hv2 hcase.1
      have hd0 : d + c.knots.count v ≤ c.deg := by
        rcases hd with hd | hd | hd
        · exact absurd hd (lt_irrefl _)
        · exact hd
        · exact absurd hd (not_lt.mpr hcase.2)
      rw [count_eq_multOf h.wf.sorted] at hd0
      obtain ⟨i, i', a1, a2, a3⟩ := g8
      obtain rfl : i' = j := by rw [a2] at k1; exact Except.ok.inj k1
      refine ⟨spanDer (kf c.knots) c.poles.length c.deg j' (pf c.poles) d v, evalValue_all h.wf hok d k2, ?_⟩
      rw [evalValue_all w2 hok2 d a1, a3 d hd0, k3 d]

example : Sample.c.Clamped ∧ Sample.c.b0 ≤ (1:ℚ) ∧ (5/2 : ℚ) ≤ Sample.c.b1 ∧ Sample.c.knots.count 1 ≤ Sample.c.deg ∧
    Sample.c.knots.count (5/2) ≤ Sample.c.deg :=
  ⟨⟨by decide +kernel, by decide +kernel⟩, by decide +kernel, by decide +kernel, by decide +kernel, by decide +kernel⟩

/-- C20 is false for decreasing parameters: the same poles and knots are kept, but the bounds are stored in the given
order, and no parameter can be evaluated any more. -/
theorem C20_decreasing_order {eps : K} {c c' : Curve K V} {u1 u2 : K} (h : u1 + 2 * eps < u2)
    (hc : c.trim eps u1 u2 = .ok c') :
    ∃ c'', c.trim eps u2 u1 = .ok c'' ∧ c''.knots = c'.knots ∧ c''.poles = c'.poles ∧
      ∀ v d junk, c''.value eps junk v d = .error (.thrown .outOfBoundsEval) := by
  have hk : ∃ x, trimKnots eps c.deg c.knots c.poles u1 u2 = .ok x ∧ c' = { c with knots := x.1, poles := x.2, b0 := u1, b1 := u2 } := by
    unfold Curve.trim at hc
    simp only [if_true] at hc
    cases hx : trimKnots eps c.deg c.knots c.poles u1 u2 with
    | error e => rw [hx] at hc; simp at hc
    | ok x => rw [hx] at hc; exact ⟨x, rfl, (Except.ok.inj hc).symm⟩
  obtain ⟨x, hx, rfl⟩ := hk
  refine ⟨{ c with knots := x.1, poles := x.2, b0 := u2, b1 := u1 }, ?_, rfl, rfl, ?_⟩
  · have : trimKnots eps c.deg c.knots c.poles u2 u1 = trimKnots eps c.deg c.knots c.poles u1 u2 := by
      unfold trimKnots
      rw [min_comm, max_comm]
    unfold Curve.trim
    simp only [if_true]
    rw [this, hx]
    rfl
  · intro v d junk
    rw [C10_out_of_bounds]
    simp only
    by_contra hcon
    push Not at hcon
    linarith [hcon.1, hcon.2]

/-- The code on the sample curve: the order of the parameters decides whether the result can be evaluated. -/
theorem C20_decreasing_order_witness :
    ∃ c', Sample.c.trim (1/1000000) 2 1 = .ok c' ∧ c'.knots = [1,1,1,2,2,2] ∧ c'.poles = [(2,3/2),(3,1),(7/2,0)] ∧
      ∀ v d junk, c'.value (1/1000000) junk v d = .error (.thrown .outOfBoundsEval) := by
  have h : Sample.c.trim (1/1000000) 1 2 = .ok ⟨2, [(2,3/2),(3,1),(7/2,0)], [1,1,1,2,2,2], 1, 2⟩ := by decide +kernel
  obtain ⟨c'', a, b, d, e⟩ := C20_decreasing_order (by norm_num) h
  exact ⟨c'', a, b, d, e⟩

end Gbs
