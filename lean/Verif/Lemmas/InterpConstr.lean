import Verif.Lemmas.Interp

/-! # Collocation with general constraints -/

namespace Gbs

open Polynomial

set_option linter.unusedSectionVars false

variable {K : Type} [Field K] [LinearOrder K] [IsStrictOrderedRing K]
variable {V : Type} [AddCommGroup V] [Module K V]

/-- Row `r`: the derivatives of the basis functions of the order and at the parameter of the constraint `r`. -/
noncomputable def collC (U : List K) (p : ℕ) (cs : List (Constr K V)) (sp : ℕ → ℕ) (r c : ℕ) : K :=
  match cs[r]? with
  | none => 0
  | some x => (derivative^[x.d] (Bp (kf U) (sp r) p c)).eval x.u

/-- The spans of the constraints. -/
structure SpansC (U : List K) (p n : ℕ) (cs : List (Constr K V)) (sp : ℕ → ℕ) : Prop where
  find : ∀ i x, cs[i]? = some x → findSpan n p x.u U = .ok (sp i)
  lo : ∀ i, i < cs.length → p ≤ sp i
  hi : ∀ i, i < cs.length → sp i < n
  pos : ∀ i, i < cs.length → kf U (sp i) < kf U (sp i + 1)

theorem exists_spansC {U : List K} {p n : ℕ} (h : KWf p U n) (cs : List (Constr K V)) : ∃ sp, SpansC U p n cs sp := by
  have : ∀ i, ∃ s, (∀ x, cs[i]? = some x → findSpan n p x.u U = .ok s) ∧ (i < cs.length → p ≤ s ∧ s < n ∧ kf U s < kf U (s + 1)) := by
    intro i
    have hw : Wf p U (List.replicate n (0 : K)) := h.wf (by simp)
    rcases Nat.lt_or_ge i cs.length with hi | hi
    · obtain ⟨s, e, a1, a2, a3, -⟩ := findSpan_wf hw (cs[i]).u
      rw [List.length_replicate] at e a2
      refine ⟨s, ?_, fun _ => ⟨a1, a2, a3⟩⟩
      intro x hx
      rw [List.getElem?_eq_getElem hi] at hx
      rw [← Option.some.inj hx, e]
    · refine ⟨0, ?_, by omega⟩
      intro x hx
      rw [List.getElem?_eq_none hi] at hx
      cases hx
  choose sp h1 h2 using this
  exact ⟨sp, fun i => h1 i, fun i hi => (h2 i hi).1, fun i hi => (h2 i hi).2.1, fun i hi => (h2 i hi).2.2⟩

section
variable {U : List K} {p n : ℕ} {cs : List (Constr K V)} {sp : ℕ → ℕ}

theorem collC_row {i : ℕ} {x : Constr K V} (hx : cs[i]? = some x) (c : ℕ) :
    collC U p cs sp i c = (derivative^[x.d] (Bp (kf U) (sp i) p c)).eval x.u := by
  unfold collC; rw [hx]

theorem collC_out {i c : ℕ} (hc : sp i < c ∨ c + p < sp i) : collC U p cs sp i c = 0 := by
  unfold collC
  split
  · rfl
  · rw [Bp_eq_zero _ _ _ _ hc, iterate_derivative_zero]
    simp

theorem collC_high {i : ℕ} {x : Constr K V} (hx : cs[i]? = some x) (hp : p < x.d) (c : ℕ) : collC U p cs sp i c = 0 := by
  rw [collC_row hx, iterate_derivative_eq_zero (lt_of_le_of_lt (Bp_natDegree _ _ _ _) hp)]
  simp

theorem sum_collC {i : ℕ} {x : Constr K V} (hx : cs[i]? = some x) (P : ℕ → V) :
    ∑ c ∈ Finset.range n, collC U p cs sp i c • P c = spanDer (kf U) n p (sp i) P x.d x.u := by
  unfold spanDer
  apply Finset.sum_congr rfl
  intro c _
  rw [collC_row hx]

theorem basisBandExtent_eqC (hsp : SpansC U p n cs sp) {i : ℕ} {x : Constr K V} (hx : cs[i]? = some x) :
    basisBandExtent n p x.u U = .ok (sp i, sp i - p, p) := by
  have hi : i < cs.length := by
    by_contra hc
    rw [List.getElem?_eq_none (by omega)] at hx
    cases hx
  have h1 := hsp.lo i hi
  have h2 := hsp.hi i hi
  unfold basisBandExtent
  rw [hsp.find i x hx, R_bind_ok]
  simp only
  rw [if_pos h1, if_pos (by omega)]
  rfl

theorem constrPass1_spec (hsp : SpansC U p n cs sp) :
    ∃ o, constrPass1 U p n cs = .ok o ∧ ∀ e, o = some e → (∀ i, i < cs.length → e.1[i]? = some (sp i, sp i - p, p)) ∧
      (∀ (i : ℕ) (x : Constr K V), cs[i]? = some x → x.d ≤ p) ∧
      ∀ i, i < cs.length → i ≤ sp i - p + e.2.1 ∧ sp i ≤ i + e.2.2 := by
  obtain ⟨s, e, h⟩ := forLt_inv (a := 0) (b := cs.length) (s := (some ([], 0, 0) : Option (List (ℕ × ℕ × ℕ) × ℕ × ℕ)))
    (body := fun i s =>
      match s with
      | none => pure none
      | some s => do
        let c ← rd cs i
        if p < c.d then pure none
        else do
          let e ← basisBandExtent n p c.u U
          pure (some (s.1 ++ [e], max s.2.1 (i - e.2.1), max s.2.2 (e.2.1 + e.2.2 - i))))
    (fun t o => ∀ s, o = some s → s.1.length = t ∧ (∀ i, i < t → s.1[i]? = some (sp i, sp i - p, p)) ∧
      (∀ (i : ℕ) (x : Constr K V), i < t → cs[i]? = some x → x.d ≤ p) ∧ ∀ i, i < t → i ≤ sp i - p + s.2.1 ∧ sp i ≤ i + s.2.2)
    (by omega) (by rintro s ⟨⟩; exact ⟨rfl, by omega, by omega, by omega⟩)
    (by
      rintro i o - hi h
      cases o with
      | none => exact ⟨none, rfl, fun s hs => by cases hs⟩
      | some s =>
        obtain ⟨hl, h1, h2, h3⟩ := h s rfl
        have hx := List.getElem?_eq_getElem hi
        simp only
        rw [rd_ok hi, R_bind_ok]
        by_cases hd : p < cs[i].d
        · rw [if_pos hd]
          exact ⟨none, rfl, fun s hs => by cases hs⟩
        · rw [if_neg hd, basisBandExtent_eqC hsp hx, R_bind_ok]
          have := hsp.lo i hi
          refine ⟨_, rfl, ?_⟩
          rintro s' hs'
          obtain rfl := Option.some.inj hs'
          refine ⟨by simp [hl], ?_, ?_, ?_⟩
          · intro j hj
            rcases Nat.lt_or_ge j i with hji | hji
            · rw [List.getElem?_append_left (by omega)]
              exact h1 j hji
            · obtain rfl : j = i := by omega
              rw [List.getElem?_append_right (by omega), hl, Nat.sub_self]
              rfl
          · intro j x hj hxx
            rcases Nat.lt_or_ge j i with hji | hji
            · exact h2 j x hji hxx
            · obtain rfl : j = i := by omega
              rw [hx] at hxx
              rw [← Option.some.inj hxx]
              omega
          · intro j hj
            simp only
            rcases Nat.lt_or_ge j i with hji | hji
            · have := h3 j hji
              omega
            · obtain rfl : j = i := by omega
              omega)
  refine ⟨s, e, ?_⟩
  intro e' he'
  obtain ⟨-, h1, h2, h3⟩ := h e' he'
  refine ⟨h1, ?_, h3⟩
  intro i x hx
  have hi : i < cs.length := by
    by_contra hc
    rw [List.getElem?_eq_none (by omega)] at hx
    cases hx
  exact h2 i x hi hx

theorem basisDers_okC (hU : KWf p U n) (hp : p ≤ stackMaxDegree) (hsp : SpansC U p n cs sp) {i : ℕ} (hi : i < cs.length) {d : ℕ} (hd : d ≤ p)
    (u junk : K) :
    ∃ D, basisDers junk (sp i) p d u U (List.replicate (stackMaxDegree + 1) junk) = .ok D ∧
      ∀ r, r ≤ p → rd D r = .ok ((derivative^[d] (Bp (kf U) (sp i) p (sp i - p + r))).eval u) := by
  obtain ⟨D, eD, hD⟩ := basisDers_spec hU.sorted (hsp.lo i hi) (by have := hsp.hi i hi; rw [hU.len]; omega) (hsp.pos i hi) hd hp u junk
  exact ⟨D, eD, fun r hr => rd_eq_ok.mpr (hD r hr)⟩

theorem constrPass2_spec (hU : KWf p U n) (hp : p ≤ stackMaxDegree) (hsp : SpansC U p n cs sp) (hn : cs.length = n)
    {ext : List (ℕ × ℕ × ℕ)} {kl ku : ℕ} (he : ∀ i, i < cs.length → ext[i]? = some (sp i, sp i - p, p))
    (hd : ∀ (i : ℕ) (x : Constr K V), cs[i]? = some x → x.d ≤ p)
    (hk : ∀ i, i < cs.length → i ≤ sp i - p + kl ∧ sp i ≤ i + ku) (junk : K) :
    ∃ M sc, constrPass2 junk U p kl ku cs ext (List.replicate (n * (kl + ku + 1)) 0) = .ok (M, sc) ∧ M.length = n * (kl + ku + 1) ∧ 0 ≤ sc ∧
      ∀ r c, r < n → c < n → bandMat n kl ku M r c = collC U p cs sp r c := by
  obtain ⟨s, e, hl, hs, hF⟩ := forLt_inv (a := 0) (b := cs.length) (s := ((List.replicate (n * (kl + ku + 1)) (0 : K), (0 : K)) : List K × K))
    (body := fun i s => do
      let c ← rd cs i
      let e ← rd ext i
      let D ← basisDers junk e.1 p c.d c.u U (List.replicate (stackMaxDegree + 1) junk)
      forLe 0 e.2.2 (fun r s => do
        let v ← rd D r
        let M ← bandSet kl ku s.1 i (e.2.1 + r) v
        pure (M, max s.2 |v|)) s)
    (fun i s => s.1.length = n * (kl + ku + 1) ∧ 0 ≤ s.2 ∧ RowsFilled n (collC U p cs sp) (bandMat n kl ku s.1) i 0)
    (by omega)
    ⟨by simp, le_rfl, by
      intro r c hr hc
      rw [if_neg (by omega)]
      unfold bandMat
      split
      · rw [List.getD_eq_getElem?_getD, List.getElem?_replicate]
        split <;> rfl
      · rfl⟩
    (by
      rintro i s - hi ⟨hl, hs, hF⟩
      have hx := List.getElem?_eq_getElem hi
      rw [rd_ok hi, R_bind_ok, rd_eq_ok.mpr (he i hi), R_bind_ok]
      simp only
      obtain ⟨D, eD, hD⟩ := basisDers_okC hU hp hsp hi (hd i _ hx) (cs[i]).u junk
      rw [eD, R_bind_ok]
      have hlo := hsp.lo i hi
      have hhi := hsp.hi i hi
      have hki := hk i hi
      obtain ⟨s', e', hl', hs', hF'⟩ := forLe_inv (a := 0) (b := p) (s := s)
        (body := fun r s => do
          let v ← rd D r
          let M ← bandSet kl ku s.1 i (sp i - p + r) v
          pure (M, max s.2 |v|))
        (fun r s => s.1.length = n * (kl + ku + 1) ∧ 0 ≤ s.2 ∧
          RowsFilled n (collC U p cs sp) (bandMat n kl ku s.1) i (sp i - p + r))
        (by omega)
        ⟨hl, hs, hF.skip (by omega) (fun c _ hc => collC_out (by omega))⟩
        (by
          rintro r s - hr ⟨hl, hs, hF⟩
          rw [hD r hr, R_bind_ok]
          obtain ⟨M', eM, hlM, hM⟩ := bandSet_ok (n := n) hl (i := i) (j := sp i - p + r)
            ⟨by omega, by omega, by omega, by omega⟩ ((derivative^[cs[i].d] (Bp (kf U) (sp i) p (sp i - p + r))).eval cs[i].u)
          rw [eM, R_bind_ok]
          refine ⟨_, rfl, hlM, le_max_of_le_left hs, ?_⟩
          have := hF.step (m' := bandMat n kl ku M') (fun r' c' _ _ => by rw [hM, collC_row hx])
          rwa [Nat.add_assoc] at this)
      refine ⟨s', e', hl', hs', ?_⟩
      exact hF'.next (by omega) (fun c hc => collC_out (by omega)) (fun r c h1 h2 => by omega))
  refine ⟨s.1, s.2, e, hl, hs, ?_⟩
  intro r c hr hc
  rw [hF r c hr hc, if_pos (by omega)]

theorem fillMatrix_spec (hU : KWf p U n) (hp : p ≤ stackMaxDegree) (hsp : SpansC U p n cs sp) (eps junk : K) :
    ∃ N, fillMatrix eps junk U p n cs = .ok N ∧ ∀ r c, r < cs.length → c < n → N r c = collC U p cs sp r c := by
  obtain ⟨N, e, hF⟩ := forLt_inv (a := 0) (b := cs.length) (s := (fun _ _ => 0 : ℕ → ℕ → K))
    (body := fun i N => do
      let c ← rd cs i
      fillBasisRow eps junk cs.length n N i c.u U p c.d)
    (fun i N => RowsFilled (max cs.length n) (collC U p cs sp) N i 0)
    (by omega) (by intro r c _ _; rw [if_neg (by omega)])
    (by
      rintro i N - hi hF
      have hx := List.getElem?_eq_getElem hi
      rw [rd_ok hi, R_bind_ok]
      unfold fillBasisRow
      by_cases hd : p < cs[i].d
      · rw [if_pos hd]
        exact ⟨N, rfl, hF.next (by omega) (fun c _ => collC_high hx hd c) (fun r c h1 h2 => by omega)⟩
      rw [if_neg hd, usub_ok (by rw [hU.len]; omega), R_bind_ok]
      have hnb : U.length - (p + 1) = n := by rw [hU.len]; omega
      rw [hnb, basisBandExtent_eqC hsp hx, R_bind_ok, if_pos hp]
      simp only
      obtain ⟨D, eD, hD⟩ := basisDers_okC hU hp hsp hi (show cs[i].d ≤ p by omega) (cs[i]).u junk
      rw [eD, R_bind_ok]
      have hlo := hsp.lo i hi
      have hhi := hsp.hi i hi
      obtain ⟨s', e', hF'⟩ := forLe_inv (a := 0) (b := p) (s := N)
        (body := fun r N => do
          let v ← rd D r
          matSet cs.length n N i (sp i - p + r) v)
        (fun r N => RowsFilled (max cs.length n) (collC U p cs sp) N i (sp i - p + r))
        (by omega)
        (hF.skip (by omega) (fun c _ hc => collC_out (by omega)))
        (by
          rintro r N - hr hF
          rw [hD r hr, R_bind_ok]
          unfold matSet
          rw [if_pos (by omega)]
          refine ⟨_, rfl, ?_⟩
          have := hF.step (m' := fun i' j => if i' = i ∧ j = sp i - p + r then (derivative^[cs[i].d] (Bp (kf U) (sp i) p (sp i - p + r))).eval cs[i].u else N i' j)
            (fun r' c' _ _ => by rw [collC_row hx])
          rwa [Nat.add_assoc] at this)
      refine ⟨s', e', ?_⟩
      exact hF'.next (by omega) (fun c hc => collC_out (by omega)) (fun r c h1 h2 => by omega))
  refine ⟨N, e, ?_⟩
  intro r c hr hc
  rw [hF r c (by omega) (by omega), if_pos (by omega)]

theorem fillRows_spec (hU : KWf p U n) (hp : p ≤ stackMaxDegree) (hsp : SpansC U p n cs sp) (hn : cs.length = n) (eps junk : K) :
    ∃ N, fillRows eps junk U p cs = .ok N ∧ ∀ r c, r < n → c < n → N r c = collC U p cs sp r c := by
  subst hn
  exact fillMatrix_spec hU hp hsp eps junk

/-- An accepted `assemble_and_factorize_constraints` gives the factorization of the collocation matrix. -/
theorem assembleConstraints_spec {meps : K} (hm : 0 ≤ meps) (hU : KWf p U n) (hp : p ≤ stackMaxDegree) (hsp : SpansC U p n cs sp)
    (hn : cs.length = n) (growth junk : K) :
    ∃ f, assembleConstraints meps growth junk cs U p = .ok f ∧ ∀ kl ku M', f = some (kl, ku, M') → ∀ b x0 : List V, b.length = n → x0.length = n →
      ∃ x, bandSolve n kl ku M' b x0 = .ok x ∧ x.length = n ∧ ∀ i, i < n → ∑ j ∈ Finset.range n, collC U p cs sp i j • pf x j = pf b i := by
  obtain ⟨o, e1, h1⟩ := constrPass1_spec (n := n) hsp
  unfold assembleConstraints
  rw [if_neg (by omega), usub_ok (by rw [hU.len]; omega), R_bind_ok, show U.length - (p + 1) = n by rw [hU.len]; omega, e1, R_bind_ok]
  cases o with
  | none => exact ⟨none, rfl, fun _ _ _ h => by cases h⟩
  | some e =>
    obtain ⟨ext, kl, ku⟩ := e
    obtain ⟨hext, hd, hk⟩ := h1 _ rfl
    simp only at hext hk ⊢
    by_cases hw : cs.length < (kl + ku + 1) * 2
    · rw [if_pos hw]
      exact ⟨none, rfl, fun _ _ _ h => by cases h⟩
    rw [if_neg hw]
    obtain ⟨M, sc, e2, hlM, hsc, hMat⟩ := constrPass2_spec hU hp hsp hn hext hd hk junk
    rw [hn, e2, R_bind_ok]
    simp only
    obtain ⟨f, ef, -⟩ := factorize_spec (n := n) (tol := sc * meps * 16) (growth := growth) (by positivity) hlM
    rw [ef, R_bind_ok]
    refine ⟨f.map fun M => (kl, ku, M), rfl, ?_⟩
    intro kl' ku' M' hf b x0 hb hx0
    cases f with
    | none => cases hf
    | some Mf =>
      obtain ⟨rfl, rfl, rfl⟩ : kl = kl' ∧ ku = ku' ∧ Mf = M' := by simpa using hf
      obtain ⟨x, ex, hlx, hx⟩ := bandSolve_spec (b := b) (x0 := x0) (by positivity) hlM ef hb hx0
      refine ⟨x, ex, hlx, ?_⟩
      intro i hi
      rw [← hx i hi]
      apply Finset.sum_congr rfl
      intro c hc
      rw [hMat _ _ hi (Finset.mem_range.mp hc)]

end
end Gbs
