import Verif.Props.Reparam
import Verif.Props.Constructor

/-! # Derivative and integral curves: C25 -/

namespace Gbs

set_option linter.unusedSectionVars false

variable {K : Type} [Field K] [LinearOrder K] [IsStrictOrderedRing K]
variable {V : Type} [AddCommGroup V] [Module K V]

theorem mk?_sorted (eps : K) (P : List V) {U : List K} (hU : U.Pairwise (· ≤ ·)) (p : ℕ)
    (hlen : U.length = P.length + p + 1) (hmin : p + 1 ≤ P.length) :
    Curve.mk? eps P U p = .ok ⟨p, P, U, kf U 0, kLast U⟩ := by
  have hne : U ≠ [] := by intro h0; rw [h0] at hlen; simp at hlen
  rw [(C11_constructor eps P hU hne p).1 ⟨hlen, hmin⟩]
  congr 2
  · rw [kf_of_lt (by omega), List.head_eq_getElem]
  · unfold kLast
    rw [kf_of_lt (by omega), List.getLast_eq_getElem]

theorem kf_inner {U : List K} {i : ℕ} (h : i + 2 < U.length) : kf (U.dropLast.drop 1) i = kf U (i+1) := by
  rw [kf_of_lt (by simp; omega), kf_of_lt (by omega), List.getElem_drop, List.getElem_dropLast]
  congr 1
  omega

theorem inner_sorted {U : List K} (h : U.Pairwise (· ≤ ·)) : (U.dropLast.drop 1).Pairwise (· ≤ ·) :=
  h.sublist ((List.drop_sublist _ _).trans (List.dropLast_sublist _))

/-- Clamped knots with interior multiplicities at most `p` never make `build_derivate` divide by zero. -/
theorem Curve.der_den {c : Curve K V} (h : c.Good)
    (hm : ∀ x, c.b0 < x → x < c.b1 → c.knots.count x ≤ c.deg) {i : ℕ} (hi : i + 1 < c.poles.length) :
    kf c.knots (i+1) < kf c.knots (i+c.deg+1) := by
  have hmono := kf_mono h.wf.sorted
  have hlen := h.wf.len
  rcases Nat.lt_or_ge c.deg (i+1) with h1 | h1
  · rcases Nat.lt_or_ge (i+c.deg+1) c.poles.length with h2 | h2
    · refine lt_of_le_of_ne (hmono (by omega)) ?_
      intro heq
      have hx1 : c.b0 < kf c.knots (i+1) := by
        rw [h.lo]; exact lt_of_lt_of_le h.wf.first (hmono (by omega))
      have hx2 : kf c.knots (i+1) < c.b1 := by
        rw [h.hi]; exact lt_of_le_of_lt (hmono (by omega)) h.wf.last
      have := hm _ hx1 hx2
      have h3 := count_ge h.wf.sorted (v := kf c.knots (i+1)) (k := i) (i := i + c.deg + 1) (by omega) (by omega) (by
        intro j hj1 hj2
        apply le_antisymm
        · rw [heq]; exact hmono hj2
        · exact hmono (by omega))
      omega
    · exact lt_of_le_of_lt (hmono (by omega)) (lt_of_lt_of_le h.wf.last (hmono h2))
  · exact lt_of_le_of_lt (hmono h1) (lt_of_lt_of_le h.wf.first (hmono (by omega)))

/-- Result of `build_derivate`. -/
theorem buildDerivate_ok {eps : K} {c : Curve K V} (h : c.Good) (hdeg : 1 ≤ c.deg)
    (hm : ∀ i, i + 1 < c.poles.length → kf c.knots (i+1) < kf c.knots (i+c.deg+1)) :
    ∃ Q : List V, buildDerivate eps c = .ok ⟨c.deg - 1, Q, c.knots.dropLast.drop 1, kf c.knots 1,
        kf c.knots (c.poles.length + c.deg - 1)⟩ ∧
      Q.length = c.poles.length - 1 ∧ (∀ i, i < c.poles.length - 1 → pf Q i = derP (kf c.knots) c.deg (pf c.poles) i) := by
  have hlen := h.wf.len
  have hmin := h.wf.min
  unfold buildDerivate
  rw [usub_ok (by omega), R_bind_ok]
  simp only
  obtain ⟨Q, eQ, hl, hQ⟩ := forLt_inv (a := 0) (b := c.poles.length - 1)
    (s := List.replicate (c.poles.length - 1) (0 : V))
    (body := fun i Q => do
      let P1 ← rd c.poles (i+1)
      let P0 ← rd c.poles i
      let kb ← rd c.knots (i+c.deg+1)
      let ka ← rd c.knots (i+1)
      let s ← fdiv 1 (kb - ka)
      wr Q i (s • ((c.deg : K) • (P1 - P0))))
    (fun i Q => Q.length = c.poles.length - 1 ∧ ∀ j, j < i → pf Q j = derP (kf c.knots) c.deg (pf c.poles) j)
    (by omega) ⟨by simp, fun j hj => by omega⟩ (by
      intro i Q _ hi ⟨hl, hQ⟩
      refine ⟨Q.set i (derP (kf c.knots) c.deg (pf c.poles) i), ?_, by simpa using hl, ?_⟩
      · have hden := hm i (by omega)
        rw [rd_pf (by omega), R_bind_ok, rd_pf (by omega), R_bind_ok, rd_kf (by omega), R_bind_ok,
          rd_kf (by omega), R_bind_ok, fdiv_ok (by linarith [sub_pos.mpr hden] : kf c.knots (i + c.deg + 1) - kf c.knots (i+1) ≠ 0) , R_bind_ok,
          wr_ok (by omega)]
        congr 2
        unfold derP
        rw [smul_smul]
        congr 1
        ring
      · intro j hj
        unfold pf at hQ ⊢
        rw [List.getD_eq_getElem?_getD, getElem?_set_of_lt (by omega)]
        split
        · next hh => subst hh; rfl
        · rw [← List.getD_eq_getElem?_getD]; exact hQ j (by omega))
  rw [eQ, R_bind_ok, usub_ok hdeg, R_bind_ok, mk?_sorted]
  · refine ⟨Q, ?_, hl, hQ⟩
    congr 2
    · rw [kf_inner (by omega)]
    · unfold kLast
      rw [kf_inner (by simp; omega)]
      congr 1
      simp
      omega
  · exact inner_sorted h.wf.sorted
  · simp; omega
  · omega

/-- C25: the derivative curve of a clamped curve of degree at least 1, whose interior knots have multiplicity at most
`p`, is built without failure; it has the degree `p-1` and the same bounds, and its value (its `d`-th derivative) at
any parameter is the first (the `d+1`-th) derivative of the curve. -/
theorem C25_build_derivate {eps : K} (heps : 0 < eps) {c : Curve K V} (h : c.Good) (hcl : c.Clamped) (hdeg : 1 ≤ c.deg)
    (hb : c.deg ≤ stackMaxDegree ∨ SepL eps c.knots)
    (hm : ∀ x, c.b0 < x → x < c.b1 → c.knots.count x ≤ c.deg) :
    ∃ c', buildDerivate eps c = .ok c' ∧ c'.deg + 1 = c.deg ∧ c'.b0 = c.b0 ∧ c'.b1 = c.b1 ∧
      c'.poles.length + 1 = c.poles.length ∧
      ∀ u d, c.b0 ≤ u → u ≤ c.b1 → ∀ junk junk' : K,
        ∃ pt, c.value eps junk u (d+1) = .ok pt ∧ c'.value eps junk' u d = .ok pt := by
  have hlen := h.wf.len
  have hmin := h.wf.min
  have hmono := kf_mono h.wf.sorted
  obtain ⟨Q, e, hl, hQ⟩ := buildDerivate_ok (eps := eps) h hdeg (fun i hi => Curve.der_den h hm hi)
  have hb0 : kf c.knots 1 = c.b0 := le_antisymm (by rw [h.lo]; exact hmono hdeg) (by rw [← hcl.lo]; exact hmono (by omega))
  have hb1 : kf c.knots (c.poles.length + c.deg - 1) = c.b1 := by
    apply le_antisymm
    · rw [← hcl.hi]; exact hmono (by omega)
    · rw [h.hi]; exact hmono (by omega)
  rw [hb0, hb1] at e
  set U' := c.knots.dropLast.drop 1 with hU'
  set c' : Curve K V := ⟨c.deg - 1, Q, U', c.b0, c.b1⟩ with hc'
  have hU'l : U'.length = c.knots.length - 2 := by simp [hU']; omega
  have hk' : ∀ i, i + 2 < c.knots.length → kf U' i = kf c.knots (i+1) := fun i hi => kf_inner hi
  have hw : Wf (c.deg - 1) U' Q := by
    refine ⟨inner_sorted h.wf.sorted, by omega, by omega, ?_, ?_⟩
    · rw [hk' _ (by omega), hk' _ (by omega), show c.deg - 1 + 1 = c.deg by omega]; exact h.wf.first
    · rw [hk' _ (by omega), hk' _ (by omega), hl, show c.poles.length - 1 - 1 + 1 = c.poles.length - 1 by omega,
        show c.poles.length - 1 + 1 = c.poles.length by omega]
      exact h.wf.last
  have hG : c'.Good := by
    refine ⟨hw, ?_, ?_⟩
    · show c.b0 = kf U' (c.deg - 1)
      rw [hk' _ (by omega), show c.deg - 1 + 1 = c.deg by omega, h.lo]
    · show c.b1 = kf U' Q.length
      rw [hk' _ (by omega), hl, show c.poles.length - 1 + 1 = c.poles.length by omega, h.hi]
  have hC : c'.Clamped := by
    constructor
    · show kf U' 0 = c.b0
      rw [hk' _ (by omega), hb0]
    · show kf U' (U'.length - 1) = c.b1
      rw [hk' _ (by omega), ← hb1]
      congr 1
      omega
  have hB : c.BigOk eps := SepL.bigOk h hcl hb
  have hB' : c'.BigOk eps := by
    apply SepL.bigOk hG hC
    rcases hb with hb | hb
    · left; show c.deg - 1 ≤ _; omega
    · right
      intro x hx y hy
      have hsub : ∀ z ∈ U', z ∈ c.knots := fun z hz => List.dropLast_subset _ (List.drop_subset _ _ hz)
      exact hb x (hsub x hx) y (hsub y hy)
  refine ⟨c', e, by show c.deg - 1 + 1 = c.deg; omega, rfl, rfl, by show Q.length + 1 = _; omega, ?_⟩
  intro u d h1 h2 junk junk'
  obtain ⟨i, e1, hin, a1, a2, hv⟩ := Curve.value_span heps h hB h1 h2
  obtain ⟨i', e1', hin', a1', a2', hv'⟩ := Curve.value_span heps hG hB' (u := u) h1 h2
  refine ⟨_, hv junk (d+1), ?_⟩
  rw [hv' junk' d]
  congr 1
  have a2' : i' < Q.length := a2'
  have hin' : Spec.InSpan (kf U') (kf U' Q.length) i' u := hin'
  have hi' : i' = i - 1 := by
    apply InSpan_unique (kf_mono hw.sorted) hin'
    unfold Spec.InSpan at hin ⊢
    rw [hk' _ (by omega), hk' _ (by omega), hk' _ (by omega), hl, show c.poles.length - 1 + 1 = c.poles.length by omega,
      show i - 1 + 1 = i by omega]
    exact hin
  subst hi'
  obtain ⟨p, hp⟩ : ∃ p, c.deg = p + 1 := ⟨c.deg - 1, by omega⟩
  show spanDer (kf U') Q.length (c.deg - 1) (i-1) (pf Q) d u = _
  rw [hp] at a1
  rw [hl, hp, Nat.add_sub_cancel, spanDer_succ hmono a1 a2]
  -- same polynomials and poles on the active window
  have hpi : p ≤ i - 1 := by omega
  have hin1 : i - 1 < c.poles.length - 1 := by omega
  rw [spanDer_congr_bl (t := kf U') (t' := fun j => kf c.knots (j+1)) (c := pf Q) (c' := derP (kf c.knots) (p+1) (pf c.poles))
    hpi hin1 hpi hin1]
  intro v
  have hkk : kf c.knots i < kf c.knots (i+1) := (InSpan_bounds hin).2.2
  have := bl_window (t := fun j => kf c.knots (j+1)) (t' := kf U') (fun a b hab => hmono (by omega)) (kf_mono hw.sorted) (p := p) (a := 0)
    (n' := c.poles.length - 1) (k' := i - 1) (c := derP (kf c.knots) (p+1) (pf c.poles)) (c' := pf Q)
    (by intro j _ hj; exact hk' j (by omega))
    (by intro j hj; rw [hQ j hj, hp]; rfl) hpi hin1
    (by simpa [show i - 1 + 1 = i by omega] using hkk)
    (by rw [hk' _ (by omega), hk' _ (by omega), show i - 1 + 1 = i by omega]; exact hkk)
    (List.replicate p v) (by simp)
  simpa using this

theorem Sample.c_mult : ∀ x, Sample.c.b0 < x → x < Sample.c.b1 → Sample.c.knots.count x ≤ Sample.c.deg := by
  intro x h0 h1
  by_cases hx : x ∈ Sample.c.knots
  · have : ∀ y ∈ Sample.c.knots, Sample.c.b0 < y → y < Sample.c.b1 → Sample.c.knots.count y ≤ Sample.c.deg := by
      decide +kernel
    exact this x hx h0 h1
  · rw [List.count_eq_zero_of_not_mem hx]; exact Nat.zero_le _

example : Sample.c.Good ∧ Sample.c.Clamped ∧ 1 ≤ Sample.c.deg ∧ Sample.c.deg ≤ stackMaxDegree ∧
    ∀ x, Sample.c.b0 < x → x < Sample.c.b1 → Sample.c.knots.count x ≤ Sample.c.deg :=
  ⟨Sample.c_good, Sample.c_clamped, by decide, by decide, Sample.c_mult⟩

/-- With an interior knot of multiplicity above `p` (a discontinuous curve) the code divides by zero. -/
theorem C25_derivate_div_zero {eps : K} {c : Curve K V} (h : c.Good) {i : ℕ} (hi : i + 1 < c.poles.length)
    (he : kf c.knots (i+1) = kf c.knots (i+c.deg+1)) (hb : ∀ j, j < i → kf c.knots (j+1) ≠ kf c.knots (j+c.deg+1)) :
    buildDerivate eps c = .error .divZero := by
  have hlen := h.wf.len
  unfold buildDerivate
  rw [usub_ok (by omega), R_bind_ok]
  simp only
  have key : ∀ (n a : ℕ) (Q : List V), a ≤ i → i < a + n → a + n = c.poles.length - 1 → Q.length = c.poles.length - 1 →
      forN (fun i Q => do
        let P1 ← rd c.poles (i+1)
        let P0 ← rd c.poles i
        let kb ← rd c.knots (i+c.deg+1)
        let ka ← rd c.knots (i+1)
        let s ← fdiv 1 (kb - ka)
        wr Q i (s • ((c.deg : K) • (P1 - P0)))) n a Q = .error .divZero := by
    intro n
    induction n with
    | zero => intro a Q h1 h2; omega
    | succ n ih =>
      intro a Q h1 h2 h3 hl
      simp only [forN]
      rw [rd_pf (by omega), R_bind_ok, rd_pf (by omega), R_bind_ok, rd_kf (by omega), R_bind_ok,
          rd_kf (by omega), R_bind_ok]
      rcases Nat.eq_or_lt_of_le h1 with h1 | h1
      · subst h1
        rw [he]
        simp [fdiv]
      · rw [fdiv_ok (sub_ne_zero.mpr (Ne.symm (hb a h1))), R_bind_ok, wr_ok (by omega), R_bind_ok]
        exact ih (a+1) _ (by omega) (by omega) (by omega) (by simpa using hl)
  unfold forLt
  rw [key _ 0 _ (by omega) (by omega) (by omega) (by simp)]
  rfl

example : (⟨1, [0, 1, 5, 6], [0,0,1,1,2,2], 0, 2⟩ : Curve ℚ ℚ).Good :=
  ⟨⟨by decide +kernel, rfl, by decide, by decide +kernel, by decide +kernel⟩, by decide +kernel, by decide +kernel⟩

/-! ## Integral curve -/

theorem kf_ext {U : List K} (f b : K) {j : ℕ} (h : j < U.length) : kf (f :: U ++ [b]) (j+1) = kf U j := by
  rw [kf_of_lt (by simp; omega), kf_of_lt h]
  simp [List.getElem_append, h]

theorem kf_ext_last {U : List K} (f : K) (hne : U ≠ []) (j : ℕ) :
    kf (f :: U ++ [kLast U]) (j+1) = kf U j := by
  rcases Nat.lt_or_ge j U.length with h | h
  · exact kf_ext f _ h
  · have hl : kLast U = U.getLastD 0 := by
      unfold kLast
      have : 0 < U.length := List.length_pos_iff.mpr hne
      rw [kf_of_lt (by omega), List.getLastD_eq_getLast?, List.getLast?_eq_some_getLast hne, List.getLast_eq_getElem]
      rfl
    rw [kf_of_ge h, ← hl]
    rcases Nat.eq_or_lt_of_le h with h | h
    · rw [kf_of_lt (by simp; omega)]
      simp [List.getElem_append, h]
    · rw [kf_of_ge (by simp; omega), List.getLastD_eq_getLast?, List.getLast?_concat]
      rfl

/-- Result of `build_integrate`. -/
theorem buildIntegrate_ok {eps : K} {c : Curve K V} (h : c.Good) (P0 : V) :
    ∃ Q : List V, buildIntegrate eps c P0 = .ok ⟨c.deg + 1, Q, kf c.knots 0 :: c.knots ++ [kLast c.knots],
        kf c.knots 0, kLast c.knots⟩ ∧
      Q.length = c.poles.length + 1 ∧ pf Q 0 = P0 ∧
      (∀ i, i < c.poles.length → pf Q (i+1) =
        ((c.deg + 1 : K)⁻¹ * (kf c.knots (i + c.deg + 1) - kf c.knots i)) • pf c.poles i + pf Q i) := by
  have hlen := h.wf.len
  have hmin := h.wf.min
  have hmono := kf_mono h.wf.sorted
  have hne := h.wf.ne
  unfold buildIntegrate
  rw [usub_ok (by omega), R_bind_ok, rd_kf (by omega), R_bind_ok, rd_kf (by omega), R_bind_ok]
  rw [show kf c.knots (c.knots.length - 1) = kLast c.knots from rfl]
  simp only
  set U := kf c.knots 0 :: c.knots ++ [kLast c.knots] with hU
  have hUl : U.length = c.knots.length + 2 := by simp [hU]
  have hk : ∀ j, kf U (j+1) = kf c.knots j := kf_ext_last _ hne
  rw [wr_ok (by simp), R_bind_ok]
  have hp0 : ((c.deg + 1 : ℕ) : K) ≠ 0 := Nat.cast_ne_zero.mpr (by omega)
  obtain ⟨Q, eQ, hl, hQ0, hQ⟩ := forLt_inv (a := 1) (b := c.poles.length + 1)
    (s := (List.replicate (c.poles.length + 1) (0 : V)).set 0 P0)
    (body := fun i Q => do
      let P ← rd c.poles (i-1)
      let kb ← rd U (c.deg + 1 + i)
      let ka ← rd U i
      let s ← fdiv 1 (((c.deg + 1 : ℕ)) : K)
      let q ← rd Q (i-1)
      wr Q i (s • ((kb - ka) • P) + q))
    (fun i Q => Q.length = c.poles.length + 1 ∧ pf Q 0 = P0 ∧ ∀ j, j + 1 < i → pf Q (j+1) =
        ((c.deg + 1 : K)⁻¹ * (kf c.knots (j + c.deg + 1) - kf c.knots j)) • pf c.poles j + pf Q j)
    (by omega) ⟨by simp, by simp [pf], fun j hj => by omega⟩ (by
      intro i Q hi1 hi2 ⟨hl, hQ0, hQ⟩
      obtain ⟨i, rfl⟩ : ∃ j, i = j + 1 := ⟨i - 1, by omega⟩
      refine ⟨Q.set (i+1) (((c.deg + 1 : K)⁻¹ * (kf c.knots (i + c.deg + 1) - kf c.knots i)) • pf c.poles i + pf Q i),
        ?_, by simpa using hl, ?_, ?_⟩
      · rw [Nat.add_sub_cancel, rd_pf (by omega), R_bind_ok, rd_kf (by omega), R_bind_ok, rd_kf (by omega), R_bind_ok,
          fdiv_ok hp0, R_bind_ok, rd_pf (by omega), R_bind_ok, wr_ok (by omega), hk,
          show c.deg + 1 + (i+1) = i + c.deg + 1 + 1 by omega, hk, smul_smul]
        congr 4
        push_cast
        rw [one_div]
      · unfold pf at hQ0 ⊢
        rw [List.getD_eq_getElem?_getD, getElem?_set_of_lt (by omega), if_neg (by omega), ← List.getD_eq_getElem?_getD]
        exact hQ0
      · intro j hj
        have hset : ∀ x (w : V), pf (Q.set (i+1) w) x = if x = i + 1 then w else pf Q x := by
          intro x w
          unfold pf
          rw [List.getD_eq_getElem?_getD, getElem?_set_of_lt (by omega)]
          split <;> simp
        rw [hset, hset, if_neg (show ¬ j = i + 1 by omega)]
        split
        · next hh => rw [show j = i by omega]
        · exact hQ j (by omega))
  rw [eQ, R_bind_ok, mk?_sorted]
  · refine ⟨Q, ?_, hl, hQ0, fun i hi => hQ i (by omega)⟩
    have hlast : kLast U = kLast c.knots := by
      unfold kLast
      rw [hUl, show c.knots.length + 2 - 1 = c.knots.length + 1 by omega, hk]
      apply le_antisymm
      · rw [kf_of_ge le_rfl, ← kf_of_ge (U := c.knots) (i := c.knots.length) le_rfl]
        have hm := kf_mem hne c.knots.length
        obtain ⟨j, hj, e⟩ := List.getElem_of_mem hm
        rw [← e, ← kf_of_lt hj]
        exact hmono (by omega)
      · exact hmono (by omega)
    rw [hlast]
    rfl
  · rw [hU, List.pairwise_append, List.pairwise_cons]
    have hx0 : ∀ x ∈ c.knots, kf c.knots 0 ≤ x := by
      intro x hx
      obtain ⟨j, hj, rfl⟩ := List.getElem_of_mem hx
      rw [← kf_of_lt hj]; exact hmono (by omega)
    have hx1 : ∀ x ∈ c.knots, x ≤ kLast c.knots := by
      intro x hx
      obtain ⟨j, hj, rfl⟩ := List.getElem_of_mem hx
      rw [← kf_of_lt hj]; exact hmono (by omega)
    refine ⟨⟨hx0, h.wf.sorted⟩, by simp, ?_⟩
    intro x hx y hy
    rw [List.mem_singleton] at hy
    subst hy
    rcases List.mem_cons.mp hx with rfl | hx
    · exact hmono (by omega)
    · exact hx1 x hx
  · omega
  · omega

/-- C25: the integral curve of a clamped curve is built without failure, has the degree `p+1` and the same bounds,
starts at `P0`, and its first (its `d+1`-th) derivative at any parameter is the value (the `d`-th derivative) of the
curve; `build_derivate` gives the curve back when its interior knots have multiplicity at most `p+1`. -/
theorem C25_build_integrate {eps : K} (heps : 0 < eps) {c : Curve K V} (h : c.Good) (hcl : c.Clamped)
    (hb : c.deg + 1 ≤ stackMaxDegree ∨ SepL eps c.knots) (P0 : V) :
    ∃ c', buildIntegrate eps c P0 = .ok c' ∧ c'.deg = c.deg + 1 ∧ c'.b0 = c.b0 ∧ c'.b1 = c.b1 ∧ c'.Good ∧ c'.Clamped ∧
      (∀ junk, c'.value eps junk c.b0 = .ok P0) ∧
      (∀ u d, c.b0 ≤ u → u ≤ c.b1 → ∀ junk junk' : K,
        ∃ pt, c.value eps junk u d = .ok pt ∧ c'.value eps junk' u (d+1) = .ok pt) ∧
      ((∀ x, c.b0 < x → x < c.b1 → c.knots.count x ≤ c.deg + 1) → buildDerivate eps c' = .ok c) := by
  have hlen := h.wf.len
  have hmin := h.wf.min
  have hmono := kf_mono h.wf.sorted
  obtain ⟨Q, e, hl, hQ0, hQ⟩ := buildIntegrate_ok (eps := eps) h P0
  set U := kf c.knots 0 :: c.knots ++ [kLast c.knots] with hU
  have hUl : U.length = c.knots.length + 2 := by simp [hU]
  have hk : ∀ j, kf U (j+1) = kf c.knots j := kf_ext_last _ h.wf.ne
  have hk0 : kf U 0 = c.b0 := by rw [← hcl.lo]; simp [hU, kf]
  rw [hcl.lo, hcl.hi] at e
  set c' : Curve K V := ⟨c.deg + 1, Q, U, c.b0, c.b1⟩ with hc'
  have hsorted : U.Pairwise (· ≤ ·) := by
    rw [List.pairwise_iff_getElem]
    intro i j hi hj hij
    rw [← kf_of_lt hi, ← kf_of_lt hj]
    obtain ⟨j, rfl⟩ : ∃ x, j = x + 1 := ⟨j - 1, by omega⟩
    rw [hk]
    rcases i with _ | i
    · rw [hk0, ← hcl.lo]; exact hmono (by omega)
    · rw [hk]; exact hmono (by omega)
  have hw : Wf (c.deg + 1) U Q := by
    refine ⟨hsorted, by omega, by omega, ?_, ?_⟩
    · rw [hk, hk]; exact h.wf.first
    · rw [hl, Nat.add_sub_cancel, hk, show c.poles.length = c.poles.length - 1 + 1 by omega, hk]
      rw [show c.poles.length - 1 + 1 = c.poles.length by omega]
      exact h.wf.last
  have hG : c'.Good := by
    refine ⟨hw, ?_, ?_⟩
    · show c.b0 = kf U (c.deg + 1)
      rw [hk, h.lo]
    · show c.b1 = kf U Q.length
      rw [hl, hk, h.hi]
  have hC : c'.Clamped := by
    refine ⟨hk0, ?_⟩
    show kf U (U.length - 1) = c.b1
    rw [hUl, show c.knots.length + 2 - 1 = c.knots.length - 1 + 1 + 1 by omega, hk]
    apply le_antisymm
    · rw [← hcl.hi]
      have hm := kf_mem h.wf.ne (c.knots.length - 1 + 1)
      obtain ⟨j, hj, e⟩ := List.getElem_of_mem hm
      rw [← e, ← kf_of_lt hj]
      exact hmono (by omega)
    · rw [← hcl.hi]; exact hmono (by omega)
  have hB : c.BigOk eps := SepL.bigOk h hcl (hb.imp (by omega) id)
  have hB' : c'.BigOk eps := by
    apply SepL.bigOk hG hC
    rcases hb with hb | hb
    · exact Or.inl hb
    · right
      have hsub : ∀ z ∈ U, z ∈ c.knots := by
        intro z hz
        rw [hU, List.mem_append, List.mem_cons, List.mem_singleton] at hz
        rcases hz with (rfl | hz) | rfl
        · exact kf_mem h.wf.ne 0
        · exact hz
        · exact kf_mem h.wf.ne _
      intro x hx y hy
      exact hb x (hsub x hx) y (hsub y hy)
  have hp0 : ((c.deg : K) + 1) ≠ 0 := by
    have : ((c.deg + 1 : ℕ) : K) ≠ 0 := Nat.cast_ne_zero.mpr (by omega)
    simpa using this
  have hder : ∀ i, i < c.poles.length → kf c.knots i < kf c.knots (i + c.deg + 1) →
      derP (kf U) (c.deg + 1) (pf Q) i = pf c.poles i := by
    intro i hi hlt
    unfold derP
    rw [hQ i hi, add_sub_cancel_right, smul_smul, show i + (c.deg + 1) + 1 = i + c.deg + 1 + 1 by omega, hk, hk]
    have : kf c.knots (i + c.deg + 1) - kf c.knots i ≠ 0 := (sub_pos.mpr hlt).ne'
    push_cast
    rw [show ((c.deg : K) + 1) * (kf c.knots (i + c.deg + 1) - kf c.knots i)⁻¹ *
      (((c.deg : K) + 1)⁻¹ * (kf c.knots (i + c.deg + 1) - kf c.knots i)) = 1 by field_simp, one_smul]
  refine ⟨c', e, rfl, rfl, rfl, hG, hC, ?_, ?_, ?_⟩
  · intro junk
    have := (C06_clamped_ends heps hG hB' junk).1 (by
      intro j hj1 hj2
      show kf U j = c.b0
      have hj2 : j ≤ c.deg + 1 := hj2
      obtain ⟨j, rfl⟩ : ∃ x, j = x + 1 := ⟨j - 1, by omega⟩
      rw [hk]
      apply le_antisymm
      · rw [h.lo]; exact hmono (by omega)
      · rw [← hcl.lo]; exact hmono (by omega))
    rw [show c.b0 = c'.b0 from rfl, this]
    exact congrArg _ hQ0
  · intro u d h1 h2 junk junk'
    obtain ⟨i, e1, hin, a1, a2, hv⟩ := Curve.value_span heps h hB h1 h2
    obtain ⟨i', e1', hin', a1', a2', hv'⟩ := Curve.value_span heps hG hB' (u := u) h1 h2
    refine ⟨_, hv junk d, ?_⟩
    rw [hv' junk' (d+1)]
    congr 1
    have hin' : Spec.InSpan (kf U) (kf U Q.length) i' u := hin'
    have hi' : i' = i + 1 := by
      apply InSpan_unique (kf_mono hsorted) hin'
      unfold Spec.InSpan at hin ⊢
      rw [hl, hk, hk, hk]
      exact hin
    subst hi'
    have hkk : kf c.knots i < kf c.knots (i+1) := (InSpan_bounds hin).2.2
    show spanDer (kf U) Q.length (c.deg + 1) (i+1) (pf Q) (d+1) u = _
    rw [spanDer_succ (kf_mono hsorted) (by omega) (by omega), hl, Nat.add_sub_cancel, Nat.add_sub_cancel]
    apply spanDer_congr_bl a1 a2 a1 a2
    intro v
    rw [show (fun j => kf U (j+1)) = kf c.knots from funext hk]
    apply bl_congr
    · simpa using a1
    · intro j hj1 hj2
      simp only [List.length_replicate] at hj1
      apply hder j (by omega)
      exact lt_of_le_of_lt (hmono hj2) (lt_of_lt_of_le hkk (hmono (by omega)))
  · intro hcnt
    have hlt : ∀ i, i < c.poles.length → kf c.knots i < kf c.knots (i + c.deg + 1) := by
      intro i hi
      rcases Nat.lt_or_ge c.deg i with g1 | g1
      · rcases Nat.lt_or_ge (i + c.deg + 1) c.poles.length with g2 | g2
        · refine lt_of_le_of_ne (hmono (by omega)) ?_
          intro heq
          have := hcnt (kf c.knots i) (by rw [h.lo]; exact lt_of_lt_of_le h.wf.first (hmono g1))
            (by rw [h.hi]; exact lt_of_le_of_lt (hmono (by omega)) h.wf.last)
          have h3 := count_ge h.wf.sorted (v := kf c.knots i) (k := i - 1) (i := i + c.deg + 1) (by omega) (by omega) (by
            intro j hj1 hj2
            apply le_antisymm
            · rw [heq]; exact hmono hj2
            · exact hmono (by omega))
          omega
        · exact lt_of_le_of_lt (hmono (show i ≤ c.poles.length - 1 by omega)) (lt_of_lt_of_le h.wf.last (hmono g2))
      · exact lt_of_le_of_lt (hmono g1) (lt_of_lt_of_le h.wf.first (hmono (by omega)))
    obtain ⟨Q', e', hl', hQ'⟩ := buildDerivate_ok (eps := eps) hG (by show 1 ≤ c.deg + 1; omega) (by
      intro i hi
      have hi : i + 1 < Q.length := hi
      show kf U (i+1) < kf U (i + (c.deg + 1) + 1)
      rw [hk, hk]
      exact hlt i (by omega))
    rw [e']
    have hin1 : U.dropLast.drop 1 = c.knots := by
      rw [hU, List.dropLast_concat]; rfl
    have hQP : Q' = c.poles := by
      apply List.ext_getElem?
      intro i
      have hl'' : Q'.length = Q.length - 1 := hl'
      rcases Nat.lt_or_ge i c.poles.length with hi | hi
      · rw [pf_getElem? (by omega), pf_getElem? hi, hQ' i (by show i < Q.length - 1; omega)]
        congr 1
        exact hder i hi (hlt i hi)
      · rw [List.getElem?_eq_none (by omega), List.getElem?_eq_none hi]
    have hb1 : kf U 1 = c.b0 := by rw [hk, hcl.lo]
    have hb2 : kf U (Q.length + (c.deg + 1) - 1) = c.b1 := by
      rw [hl, show c.poles.length + 1 + (c.deg + 1) - 1 = c.knots.length - 1 + 1 by omega, hk]
      exact hcl.hi
    show Except.ok (⟨c.deg, Q', U.dropLast.drop 1, kf U 1, kf U (Q.length + (c.deg + 1) - 1)⟩ : Curve K V) = .ok c
    rw [hb1, hb2, hQP, hin1]

example : Sample.c.Good ∧ Sample.c.Clamped ∧ Sample.c.deg + 1 ≤ stackMaxDegree :=
  ⟨Sample.c_good, Sample.c_clamped, by decide⟩

end Gbs
