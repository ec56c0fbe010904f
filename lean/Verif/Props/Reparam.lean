import Verif.Lemmas.Reparam
import Verif.Props.Trim

/-! # Change of bounds (C22), reversal (C21), continuity at the knots (C52) -/

namespace Gbs

set_option linter.unusedSectionVars false

variable {K : Type} [Field K] [LinearOrder K] [IsStrictOrderedRing K]
variable {V : Type} [AddCommGroup V] [Module K V]

theorem Curve.value_span {eps : K} (heps : 0 < eps) {c : Curve K V} (h : c.Good) (hb : c.BigOk eps) {u : K}
    (h1 : c.b0 ≤ u) (h2 : u ≤ c.b1) :
    ∃ i, findSpan c.poles.length c.deg u c.knots = .ok i ∧
      Spec.InSpan (kf c.knots) (kf c.knots c.poles.length) i u ∧ c.deg ≤ i ∧ i < c.poles.length ∧
      ∀ junk d, c.value eps junk u d = .ok (spanDer (kf c.knots) c.poles.length c.deg i (pf c.poles) d u) := by
  obtain ⟨i, e, a1, a2, -, hs, -⟩ := findSpan_wf h.wf u
  refine ⟨i, e, hs (by rw [← h.lo]; exact h1) (by rw [← h.hi]; exact h2), a1, a2, ?_⟩
  intro junk d
  rw [Curve.value_inBounds heps h1 h2]
  exact evalValue_all h.wf (Curve.evalOk heps h hb h1 (by linarith)) d e

theorem Curve.Good.lt {c : Curve K V} (h : c.Good) : c.b0 < c.b1 := by
  rw [h.lo, h.hi]
  exact lt_of_lt_of_le h.wf.first (kf_mono h.wf.sorted h.wf.min)

theorem SepL.bigOk {eps : K} {c : Curve K V} (h : c.Good) (hcl : c.Clamped)
    (hb : c.deg ≤ stackMaxDegree ∨ SepL eps c.knots) : c.BigOk eps := by
  rcases hb with hb | hb
  · exact Or.inl hb
  · exact Or.inr ⟨hb.sep h.wf.ne (fun _ hx => hx), hcl.hi.symm⟩

/-! ## C22 -/

/-- C22: changing the bounds of a clamped curve to `a < b` succeeds, keeps degree and poles, gives sorted knots from
`a` to `b`, and is the affine reparametrization: the point at the fraction `s` of the new bounds is the point at the
same fraction of the old ones, derivatives being scaled by the ratio of the lengths. Changing back restores the curve.
Above degree 24 old and new knots must be separated by more than the tolerance. -/
theorem C22_change_bounds {eps : K} (heps : 0 < eps) {c : Curve K V} (h : c.Good) (hcl : c.Clamped) {a b : K}
    (hab : a < b)
    (hb : c.deg ≤ stackMaxDegree ∨ ∀ x ∈ c.knots, ∀ y ∈ c.knots, x < y →
      eps < y - x ∧ eps * (c.b1 - c.b0) < (b - a) * (y - x)) :
    ∃ c', c.changeBounds a b = .ok c' ∧ c'.deg = c.deg ∧ c'.poles = c.poles ∧ c'.b0 = a ∧ c'.b1 = b ∧
      c'.Good ∧ c'.Clamped ∧ c'.knots.length = c.knots.length ∧
      (∀ s d, 0 ≤ s → s ≤ 1 → ∀ junk junk' : K, ∃ pt, c.value eps junk (c.b0 + (c.b1 - c.b0) * s) d = .ok pt ∧
        c'.value eps junk' (a + (b - a) * s) d = .ok (((c.b1 - c.b0) / (b - a))^d • pt)) ∧
      c'.changeBounds c.b0 c.b1 = .ok c := by
  have hlt := h.lt
  have hlen := h.wf.len
  have hne := h.wf.ne
  set g := (b - a) / (c.b1 - c.b0) with hg
  have hd : 0 < c.b1 - c.b0 := by linarith
  have hd' : 0 < b - a := by linarith
  have hg0 : 0 < g := div_pos hd' hd
  set e := a - g * c.b0 with he
  have hf : StrictMono (fun x => g * x + e) := fun x y hxy => by
    have := mul_lt_mul_of_pos_left hxy hg0
    show g * x + e < g * y + e
    linarith
  have hfa : g * c.b0 + e = a := by rw [he]; ring
  have hfb : g * c.b1 + e = b := by
    rw [he, hg]; field_simp; ring
  set U' := c.knots.map (fun x => g * x + e) with hU'
  have hk' : ∀ j, kf U' j = g * kf c.knots j + e := kf_map hne _
  set c' : Curve K V := { c with knots := U', b0 := a, b1 := b } with hc'
  have hw' : Wf c.deg U' c.poles := h.wf.map hf
  have hG : c'.Good := ⟨hw', by show a = kf U' c.deg; rw [hk', ← h.lo, hfa],
    by show b = kf U' c.poles.length; rw [hk', ← h.hi, hfb]⟩
  have hC : c'.Clamped := ⟨by show kf U' 0 = a; rw [hk', hcl.lo, hfa], by
    show kf U' (U'.length - 1) = b
    rw [hk']
    have := hcl.hi
    unfold kLast at this
    rw [hU', List.length_map, this, hfb]⟩
  have hB : c.BigOk eps := by
    apply SepL.bigOk h hcl
    rcases hb with hb | hb
    · exact Or.inl hb
    · exact Or.inr fun x hx y hy hxy => (hb x hx y hy hxy).1
  have hB' : c'.BigOk eps := by
    apply SepL.bigOk hG hC
    rcases hb with hb | hb
    · exact Or.inl hb
    · refine Or.inr ?_
      intro x hx y hy hxy
      obtain ⟨x', hx', rfl⟩ := List.mem_map.mp hx
      obtain ⟨y', hy', rfl⟩ := List.mem_map.mp hy
      have := (hb x' hx' y' hy' (hf.lt_iff_lt.mp hxy)).2
      show eps < g * y' + e - (g * x' + e)
      have h3 : g * y' + e - (g * x' + e) = (b - a) * (y' - x') / (c.b1 - c.b0) := by rw [hg]; ring
      rw [h3, lt_div_iff₀ hd]
      exact this
  have hrd0 : rd c.knots 0 = .ok c.b0 := by rw [rd_kf (by omega), hcl.lo]
  have hrdl : rd c.knots (c.knots.length - 1) = .ok c.b1 := by
    rw [rd_kf (by omega)]; exact congrArg _ hcl.hi
  refine ⟨c', ?_, rfl, rfl, rfl, rfl, hG, hC, by simp [hc', hU'], ?_, ?_⟩
  · unfold Curve.changeBounds changeBoundsK
    rw [usub_ok (by omega), R_bind_ok, hrd0, R_bind_ok, hrdl, R_bind_ok,
      mapM_ok (g := fun x => g * x + e)]
    · rfl
    · intro x _
      rw [fdiv_ok hd.ne']
      show Except.ok _ = _
      congr 1
      rw [he, hg]
      field_simp
      ring
  · intro s d hs0 hs1 junk junk'
    have q1 : c.b0 ≤ c.b0 + (c.b1 - c.b0) * s := by nlinarith
    have q2 : c.b0 + (c.b1 - c.b0) * s ≤ c.b1 := by nlinarith
    obtain ⟨i, e1, hin, a1, a2, hv⟩ := Curve.value_span heps h hB q1 q2
    have hu : a + (b - a) * s = g * (c.b0 + (c.b1 - c.b0) * s) + e := by
      rw [he, hg]; field_simp; ring
    have q1' : c'.b0 ≤ a + (b - a) * s := by show a ≤ _; nlinarith
    have q2' : a + (b - a) * s ≤ c'.b1 := by show _ ≤ b; nlinarith
    obtain ⟨i', e1', hin', a1', a2', hv'⟩ := Curve.value_span heps hG hB' q1' q2'
    have hsp := findSpan_map h.wf hf (by rw [← h.lo]; exact q1) (by rw [← h.hi]; exact q2) e1
    obtain rfl : i = i' := by
      have : findSpan c.poles.length c.deg (g * (c.b0 + (c.b1 - c.b0) * s) + e) U' = .ok i' := by
        rw [← hu]; exact e1'
      rw [hsp] at this
      exact Except.ok.inj this
    refine ⟨_, hv junk d, ?_⟩
    rw [hv' junk' d]
    congr 1
    show spanDer (kf U') c.poles.length c.deg i (pf c.poles) d _ = _
    rw [hu, spanDer_affine_knots hg0.ne' hk' a1 a2]
    congr 2
    rw [hg, inv_div]
  · unfold Curve.changeBounds changeBoundsK
    have hl' : U'.length = c.knots.length := by simp [hU']
    have r0 : rd U' 0 = .ok a := by rw [rd_kf (by omega)]; exact congrArg _ hC.lo
    have r1 : rd U' (U'.length - 1) = .ok b := by rw [rd_kf (by omega)]; exact congrArg _ hC.hi
    show (usub U'.length 1 >>= fun _ => _) >>= _ = _
    rw [usub_ok (by omega), R_bind_ok, r0, R_bind_ok, r1, R_bind_ok,
      mapM_ok (g := fun x => c.b0 + (c.b1 - c.b0) * (x - a) / (b - a))]
    · rw [R_bind_ok, show c'.knots = U' from rfl, hU', List.map_map]
      have : c.knots.map ((fun x => c.b0 + (c.b1 - c.b0) * (x - a) / (b - a)) ∘ fun x => g * x + e) = c.knots := by
        conv_rhs => rw [← List.map_id c.knots]
        apply List.map_congr_left
        intro x _
        simp only [Function.comp, id]
        rw [he, hg]
        field_simp
        ring
      rw [this]
      rfl
    · intro x _
      rw [fdiv_ok hd'.ne']
      rfl

theorem Sample.c_clamped : Sample.c.Clamped := ⟨by decide +kernel, by decide +kernel⟩

example : Sample.c.Good ∧ Sample.c.Clamped ∧ (-1 : ℚ) < 5 ∧ Sample.c.deg ≤ stackMaxDegree :=
  ⟨Sample.c_good, Sample.c_clamped, by norm_num, by decide⟩

/-! ## C21 -/

theorem count_ge {U : List K} (hU : U.Pairwise (· ≤ ·)) {v : K} {k i : ℕ} (hik : k < i) (hi : i < U.length)
    (h : ∀ j, k < j → j ≤ i → kf U j = v) : i - k ≤ U.count v := by
  rw [count_eq_multOf hU]
  unfold multOf
  have h1 : lowerBound U v ≤ k + 1 := by
    by_contra hc
    have := kf_lt_of_lt_lowerBound (U := U) (u := v) (j := k+1) (by omega)
    rw [h (k+1) (by omega) (by omega)] at this
    exact lt_irrefl _ this
  have h2 : i < upperBound U v := by
    by_contra hc
    have h3 := lt_kf_upperBound (U := U) (u := v) (by omega)
    have h4 := kf_mono hU (show upperBound U v ≤ i by omega)
    rw [h i (by omega) le_rfl] at h4
    exact absurd h3 (not_lt.mpr h4)
  omega

/-- The mirrored curve. -/
theorem Curve.reverse_ok {c : Curve K V} (h : c.Good) (hcl : c.Clamped) :
    c.reverse = .ok { c with poles := c.poles.reverse, knots := c.knots.reverse.map (fun k => c.b0 + c.b1 - k) } := by
  have hlen := h.wf.len
  unfold Curve.reverse
  have hrd0 : rd c.knots 0 = .ok c.b0 := by rw [rd_kf (by omega), hcl.lo]
  have hrdl : rd c.knots (c.knots.length - 1) = .ok c.b1 := by
    rw [rd_kf (by omega)]; exact congrArg _ hcl.hi
  rw [usub_ok (by omega), R_bind_ok, hrd0, R_bind_ok, hrdl, R_bind_ok]
  rfl

/-- C21: reversing a clamped curve keeps its degree and bounds, and the point at `u` of the new curve is the point at
`b0+b1-u` of the old one; so are the derivatives up to sign, as long as the old curve has them on both sides: at a knot
of multiplicity `m`, up to the order `p - m`. Reversing twice restores the curve. -/
theorem C21_reverse {eps : K} (heps : 0 < eps) {c : Curve K V} (h : c.Good) (hcl : c.Clamped)
    (hb : c.deg ≤ stackMaxDegree ∨ SepL eps c.knots) :
    ∃ c', c.reverse = .ok c' ∧ c'.deg = c.deg ∧ c'.poles = c.poles.reverse ∧ c'.b0 = c.b0 ∧ c'.b1 = c.b1 ∧
      c'.Good ∧ c'.Clamped ∧
      (∀ u d, c.b0 ≤ u → u ≤ c.b1 → (u = c.b0 ∨ u = c.b1 ∨ c.knots.count (c.b0 + c.b1 - u) = 0 ∨
          d + c.knots.count (c.b0 + c.b1 - u) ≤ c.deg) → ∀ junk junk' : K,
        ∃ pt, c.value eps junk (c.b0 + c.b1 - u) d = .ok pt ∧ c'.value eps junk' u d = .ok ((-1 : K)^d • pt)) ∧
      c'.reverse = .ok c := by
  have hlen := h.wf.len
  have hmin := h.wf.min
  have hm := kf_mono h.wf.sorted
  have hlt := h.lt
  set s := c.b0 + c.b1 with hs
  set U' := c.knots.reverse.map (fun k => s - k) with hU'
  have hk' : ∀ j, j ≤ c.poles.length + c.deg → kf U' j = s - kf c.knots (c.poles.length + c.deg - j) := by
    intro j hj
    rw [hU', kf_mirror (by omega)]
    congr 2
    omega
  have hl' : U'.length = c.knots.length := by simp [hU']
  have hlast : kf c.knots (c.poles.length + c.deg) = c.b1 := by
    have := hcl.hi
    unfold kLast at this
    rwa [show c.knots.length - 1 = c.poles.length + c.deg by omega] at this
  have hw' : Wf c.deg U' c.poles.reverse := by
    constructor
    · rw [hU', List.pairwise_map, List.pairwise_reverse]
      exact h.wf.sorted.imp fun hab => by linarith
    · rw [hl', List.length_reverse]; exact hlen
    · rw [List.length_reverse]; exact hmin
    · rw [hk' _ (by omega), hk' _ (by omega), show c.poles.length + c.deg - c.deg = c.poles.length by omega,
        show c.poles.length + c.deg - (c.deg + 1) = c.poles.length - 1 by omega]
      linarith [h.wf.last]
    · rw [List.length_reverse, hk' _ (by omega), hk' _ (by omega),
        show c.poles.length + c.deg - (c.poles.length - 1) = c.deg + 1 by omega,
        show c.poles.length + c.deg - c.poles.length = c.deg by omega]
      linarith [h.wf.first]
  set c' : Curve K V := { c with poles := c.poles.reverse, knots := U' } with hc'
  have hG : c'.Good := by
    refine ⟨hw', ?_, ?_⟩
    · show c.b0 = kf U' c.deg
      rw [hk' _ (by omega), show c.poles.length + c.deg - c.deg = c.poles.length by omega, ← h.hi, hs]
      ring
    · show c.b1 = kf U' c.poles.reverse.length
      rw [List.length_reverse, hk' _ (by omega), show c.poles.length + c.deg - c.poles.length = c.deg by omega, ← h.lo, hs]
      ring
  have hC : c'.Clamped := by
    constructor
    · show kf U' 0 = c.b0
      rw [hk' _ (by omega), Nat.sub_zero, hlast, hs]
      ring
    · show kf U' (U'.length - 1) = c.b1
      rw [hl', show c.knots.length - 1 = c.poles.length + c.deg by omega, hk' _ le_rfl, Nat.sub_self, hcl.lo, hs]
      ring
  have hB : c.BigOk eps := SepL.bigOk h hcl hb
  have hB' : c'.BigOk eps := by
    apply SepL.bigOk hG hC
    rcases hb with hb | hb
    · exact Or.inl hb
    · refine Or.inr ?_
      intro x hx y hy hxy
      obtain ⟨x', hx', rfl⟩ := List.mem_map.mp hx
      obtain ⟨y', hy', rfl⟩ := List.mem_map.mp hy
      have := hb y' (by simpa using hy') x' (by simpa using hx') (by linarith)
      show eps < s - y' - (s - x')
      linarith
  refine ⟨c', Curve.reverse_ok h hcl, rfl, rfl, rfl, rfl, hG, hC, ?_, ?_⟩
  · intro u d h1 h2 hd junk junk'
    have q1 : c.b0 ≤ s - u := by rw [hs]; linarith
    have q2 : s - u ≤ c.b1 := by rw [hs]; linarith
    obtain ⟨i, e1, hin, a1, a2, hv⟩ := Curve.value_span heps h hB q1 q2
    obtain ⟨i', e1', hin', a1', a2', hv'⟩ := Curve.value_span heps hG hB' (u := u) h1 h2
    refine ⟨_, hv junk d, ?_⟩
    rw [hv' junk' d]
    congr 1
    have a1 : c.deg ≤ i := a1
    have a1' : c.deg ≤ i' := a1'
    have a2' : i' < c.poles.length := by have := a2'; simpa [hc'] using this
    obtain ⟨b1, b2, b3⟩ := InSpan_bounds hin'
    have b3 : kf U' i' < kf U' (i'+1) := b3
    rw [hk' _ (by omega), hk' _ (by omega)] at b3
    set k := c.poles.length + c.deg - 1 - i' with hkdef
    have hkk : c.poles.length + c.deg - i' = k + 1 := by omega
    have hkk' : c.poles.length + c.deg - (i' + 1) = k := by omega
    rw [hkk, hkk'] at b3
    have b3' : kf c.knots k < kf c.knots (k+1) := by linarith
    -- the mirrored span
    have hmir : spanDer (kf U') c.poles.reverse.length c.deg i' (pf c.poles.reverse) d u =
        (-1 : K)^d • spanDer (kf c.knots) c.poles.length c.deg k (pf c.poles) d (s - u) := by
      have hi' : i' = c.poles.length + c.deg - 1 - k := by omega
      have := spanDer_affine (t := kf c.knots) (t' := kf U') (c := pf c.poles) (c' := pf c.poles.reverse)
        (n := c.poles.length) (n' := c.poles.reverse.length) (k := k) (k' := i') (p := c.deg) (a := -1) (b := s)
        (by omega) (by omega) a1' (by simpa using a2') (by
          intro v
          rw [hi', bl_mirror hm (kf_mono hw'.sorted) (n := c.poles.length) hk'
            (fun i hi => pf_reverse hi) (by omega) (by omega) b3' _ (by simp), List.map_replicate]
          congr 2
          ring) d u
      rw [this]
      congr 2
      ring
    show spanDer (kf U') c.poles.reverse.length c.deg i' (pf c.poles.reverse) d u = _
    rw [hmir]
    congr 1
    -- both spans of `s - u`
    obtain ⟨p1, p2, p3⟩ := InSpan_bounds hin
    by_cases hu1 : u = c.b1
    · have : s - u = c.b0 := by rw [hu1, hs]; ring
      have hi : i = c.deg := by
        apply InSpan_unique hm hin
        unfold Spec.InSpan
        rw [← h.hi, this, if_neg hlt.ne, ← h.lo]
        exact ⟨le_rfl, by rw [h.lo]; exact h.wf.first⟩
      have hi' : i' = c.poles.length - 1 := by
        have := InSpan_unique (kf_mono hw'.sorted) hin' (j := c.poles.length - 1) (by
          unfold Spec.InSpan
          have ee : kf c'.knots c'.poles.length = c.b1 := hG.hi.symm
          rw [ee, if_pos hu1]
          have ef : kf U' c.poles.length = c.b1 := by
            have := ee; simp only [hc', List.length_reverse] at this; exact this
          have := hw'.last
          rw [List.length_reverse, ef] at this
          refine ⟨this, ?_⟩
          rw [show c.poles.length - 1 + 1 = c.poles.length by omega]
          exact ef)
        exact this
      rw [show k = i by omega]
    by_cases hu0 : u = c.b0
    · have hv1 : s - u = c.b1 := by rw [hu0, hs]; ring
      have hi : i = c.poles.length - 1 := by
        apply InSpan_unique hm hin
        unfold Spec.InSpan
        rw [← h.hi, hv1, if_pos rfl, show c.poles.length - 1 + 1 = c.poles.length by omega, ← h.hi]
        refine ⟨?_, rfl⟩
        rw [h.hi]; exact h.wf.last
      have hi' : i' = c.deg := by
        apply InSpan_unique (kf_mono hw'.sorted) hin'
        unfold Spec.InSpan
        have ee : kf c'.knots c'.poles.length = c.b1 := hG.hi.symm
        have ef : c.b0 = kf U' c.deg := hG.lo
        rw [ee, if_neg hu1, hu0, ef]
        exact ⟨le_rfl, hw'.first⟩
      rw [show k = i by omega]
    have hd' := (hd.resolve_left hu0).resolve_left hu1
    -- strictly inside
    have hvne : s - u ≠ kf c.knots c.poles.length := by
      rw [← h.hi, hs]
      intro hh
      apply hu0
      linarith
    unfold Spec.InSpan at hin hin'
    rw [if_neg hvne] at hin
    have hune : u ≠ kf c'.knots c'.poles.length := by
      rw [show kf c'.knots c'.poles.length = c.b1 from hG.hi.symm]; exact hu1
    rw [if_neg hune] at hin'
    have hin' : kf U' i' ≤ u ∧ u < kf U' (i'+1) := hin'
    rw [hk' _ (by omega), hk' _ (by omega), hkk, hkk'] at hin'
    have hki : k ≤ i := by
      by_contra hc
      have := hm (show i + 1 ≤ k by omega)
      linarith [hin.2, hin'.2]
    rcases Nat.eq_or_lt_of_le hki with hki' | hki'
    · rw [hki']
    · have hall : ∀ j, k < j → j ≤ i → kf c.knots j = s - u := by
        intro j hj1 hj2
        apply le_antisymm
        · exact le_trans (hm hj2) hin.1
        · exact le_trans (by linarith [hin'.1]) (hm (show k + 1 ≤ j by omega))
      have hcount := count_ge h.wf.sorted hki' (by omega) hall
      rcases hd' with hd' | hd'
      · omega
      · exact (spanDer_adjacent d hm b3' p3 hki hall (by omega) (by omega) a2 _)
  · rw [Curve.reverse_ok hG hC]
    show Except.ok ({ c with poles := c.poles.reverse.reverse, knots := U'.reverse.map (fun k => s - k) } : Curve K V) = .ok c
    rw [List.reverse_reverse, hU', ← List.map_reverse, List.reverse_reverse, List.map_map]
    have : c.knots.map ((fun k => s - k) ∘ fun k => s - k) = c.knots := by
      conv_rhs => rw [← List.map_id c.knots]
      apply List.map_congr_left
      intro x _
      simp
    rw [this]

example : Sample.c.Good ∧ Sample.c.Clamped ∧ Sample.c.deg ≤ stackMaxDegree ∧
    1 + Sample.c.knots.count (Sample.c.b0 + Sample.c.b1 - 2) ≤ Sample.c.deg :=
  ⟨Sample.c_good, Sample.c_clamped, by decide, by decide +kernel⟩

/-- The mirror is the one of the knots, not the one of the bounds: after a trim that is not permanent (bounds `x`, `y`
inside of the knots) the reversed curve evaluates at `u` to the point at `k1+k2-u` of the whole curve, where `k1`, `k2`
are the end knots, so that the property fails as soon as `x+y ≠ k1+k2`. -/
theorem C21_after_soft_trim {eps : K} (heps : 0 < eps) {c : Curve K V} (h : c.Good) (hcl : c.Clamped)
    (hb : c.deg ≤ stackMaxDegree ∨ SepL eps c.knots) {x y : K} (hx : c.b0 ≤ x) (hy : y ≤ c.b1) :
    ∃ c1 c', c.trim eps x y false = .ok c1 ∧ c1.reverse = .ok c' ∧ c'.b0 = x ∧ c'.b1 = y ∧
      ∀ u, x ≤ u → u ≤ y → (c.knots.count (c.b0 + c.b1 - u) ≤ c.deg ∨ u = c.b0 ∨ u = c.b1) → ∀ junk junk' : K,
        c'.value eps junk' u = c.value eps junk (c.b0 + c.b1 - u) := by
  obtain ⟨c', e, h1, h2, h3, h4, -, -, hv, -⟩ := C21_reverse heps h hcl hb
  have e' := Curve.reverse_ok h hcl
  rw [e] at e'
  refine ⟨{ c with b0 := x, b1 := y }, { c' with b0 := x, b1 := y }, rfl, ?_, rfl, rfl, ?_⟩
  · unfold Curve.reverse at e ⊢
    simp only at e ⊢
    have hlen := h.wf.len
    rw [usub_ok (by omega), R_bind_ok, rd_kf (by omega), R_bind_ok, rd_kf (by omega), R_bind_ok] at e ⊢
    have := Except.ok.inj e
    rw [← this]
    rfl
  · intro u q1 q2 hc junk junk'
    obtain ⟨pt, v1, v2⟩ := hv u 0 (by linarith) (by linarith) (by
      rcases hc with hc | hc | hc
      · exact Or.inr (Or.inr (Or.inr (by omega)))
      · exact Or.inl hc
      · exact Or.inr (Or.inl hc)) junk junk'
    rw [v1]
    rw [Curve.value_inBounds heps (by linarith) (by linarith)] at v2
    rw [Curve.value_inBounds heps q1 q2]
    simpa using v2

/-- A straight segment, bounds `[0,1]` inside of the knots `[0,3]`: the end of the reversed curve is not the start of
the curve. -/
theorem C21_soft_trim_witness :
    ∃ c1 c' : Curve ℚ ℚ, (⟨1, [0, 3], [0,0,3,3], 0, 3⟩ : Curve ℚ ℚ).trim (1/1000000) 1 3 false = .ok c1 ∧
      c1.reverse = .ok c' ∧ c'.value (1/1000000) 0 c'.b1 = .ok 0 ∧
      c1.value (1/1000000) 0 0 = .error (.thrown .outOfBoundsEval) :=
  ⟨⟨1, [0, 3], [0,0,3,3], 1, 3⟩, ⟨1, [3, 0], [0,0,3,3], 1, 3⟩, by decide +kernel, by decide +kernel, by decide +kernel,
    by decide +kernel⟩

end Gbs
