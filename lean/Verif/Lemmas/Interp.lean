import Verif.Lemmas.BandLU
import Verif.Lemmas.EvalAll
import Verif.Lemmas.Surface

/-! # Assembly of the collocation system -/

namespace Gbs

open Polynomial

set_option linter.unusedSectionVars false

variable {K : Type} [Field K] [LinearOrder K] [IsStrictOrderedRing K]
variable {V : Type} [AddCommGroup V] [Module K V]

/-- The collocation matrix: row `nc * i + d` is the `d`-th derivative of the basis functions at the parameter `i`, on the span `sp i`. -/
noncomputable def coll (U u : List K) (p nc : ℕ) (sp : ℕ → ℕ) (r c : ℕ) : K :=
  (derivative^[r % nc] (Bp (kf U) (sp (r / nc)) p c)).eval (kf u (r / nc))

/-- The spans of the parameters. -/
structure Spans (U u : List K) (p n : ℕ) (sp : ℕ → ℕ) : Prop where
  find : ∀ i, i < u.length → findSpan n p (kf u i) U = .ok (sp i)
  lo : ∀ i, i < u.length → p ≤ sp i
  hi : ∀ i, i < u.length → sp i < n
  pos : ∀ i, i < u.length → kf U (sp i) < kf U (sp i + 1)

theorem exists_spans {U : List K} {p n : ℕ} (h : KWf p U n) (u : List K) : ∃ sp, Spans U u p n sp := by
  have : ∀ i, ∃ s, findSpan n p (kf u i) U = .ok s ∧ p ≤ s ∧ s < n ∧ kf U s < kf U (s + 1) := by
    intro i
    have hw : Wf p U (List.replicate n (0 : K)) := h.wf (by simp)
    obtain ⟨s, e, a1, a2, a3, -⟩ := findSpan_wf hw (kf u i)
    rw [List.length_replicate] at e a2
    exact ⟨s, e, a1, a2, a3⟩
  choose sp h1 h2 h3 h4 using this
  exact ⟨sp, fun i _ => h1 i, fun i _ => h2 i, fun i _ => h3 i, fun i _ => h4 i⟩

section
variable {U u : List K} {p nc n : ℕ} {sp : ℕ → ℕ}

theorem row_div {i d : ℕ} (hd : d < nc) : (nc * i + d) / nc = i := by
  rw [Nat.mul_add_div (by omega), Nat.div_eq_of_lt hd, Nat.add_zero]

theorem row_mod {i d : ℕ} (hd : d < nc) : (nc * i + d) % nc = d := by
  rw [Nat.mul_add_mod, Nat.mod_eq_of_lt hd]

theorem coll_row {i d : ℕ} (hd : d < nc) (c : ℕ) :
    coll U u p nc sp (nc * i + d) c = (derivative^[d] (Bp (kf U) (sp i) p c)).eval (kf u i) := by
  unfold coll; rw [row_div hd, row_mod hd]

theorem coll_out {i d : ℕ} (hd : d < nc) {c : ℕ} (hc : sp i < c ∨ c + p < sp i) : coll U u p nc sp (nc * i + d) c = 0 := by
  rw [coll_row hd, Bp_eq_zero _ _ _ _ hc, iterate_derivative_zero]
  simp

theorem coll_high {i d : ℕ} (hd : d < nc) (hp : p < d) (c : ℕ) : coll U u p nc sp (nc * i + d) c = 0 := by
  rw [coll_row hd, iterate_derivative_eq_zero (lt_of_le_of_lt (Bp_natDegree _ _ _ _) hp)]
  simp

theorem sum_coll {i d : ℕ} (hd : d < nc) (P : ℕ → V) :
    ∑ c ∈ Finset.range n, coll U u p nc sp (nc * i + d) c • P c = spanDer (kf U) n p (sp i) P d (kf u i) := by
  unfold spanDer
  apply Finset.sum_congr rfl
  intro c _
  rw [coll_row hd]

theorem basisBandExtent_eq (hsp : Spans U u p n sp) {i : ℕ} (hi : i < u.length) :
    basisBandExtent n p (kf u i) U = .ok (sp i, sp i - p, p) := by
  have h1 := hsp.lo i hi
  have h2 := hsp.hi i hi
  unfold basisBandExtent
  rw [hsp.find i hi, R_bind_ok]
  simp only
  rw [if_pos h1, if_pos (by omega)]
  rfl

theorem bandPass1_spec (hsp : Spans U u p n sp) (dd : ℕ) :
    ∃ ext kl ku, bandPass1 U u p nc dd n = .ok (ext, kl, ku) ∧ (∀ i, i < u.length → ext[i]? = some (sp i, sp i - p, p)) ∧
      ∀ i, i < u.length → nc * i + dd ≤ sp i - p + kl ∧ sp i ≤ nc * i + ku := by
  obtain ⟨s, e, -, h1, h2⟩ := forLt_inv (a := 0) (b := u.length) (s := (([], 0, 0) : List (ℕ × ℕ × ℕ) × ℕ × ℕ))
    (body := fun i s => do
      let ui ← rd u i
      let e ← basisBandExtent n p ui U
      pure (s.1 ++ [e], max s.2.1 (nc * i + dd - e.2.1), max s.2.2 (e.2.1 + e.2.2 - nc * i)))
    (fun t s => s.1.length = t ∧ (∀ i, i < t → s.1[i]? = some (sp i, sp i - p, p)) ∧
      ∀ i, i < t → nc * i + dd ≤ sp i - p + s.2.1 ∧ sp i ≤ nc * i + s.2.2)
    (by omega) ⟨rfl, by omega, by omega⟩
    (by
      rintro i s - hi ⟨hl, h1, h2⟩
      rw [rd_kf hi, R_bind_ok, basisBandExtent_eq hsp hi, R_bind_ok]
      have := hsp.lo i hi
      refine ⟨_, rfl, by simp [hl], ?_, ?_⟩
      · intro j hj
        rcases Nat.lt_or_ge j i with hji | hji
        · rw [List.getElem?_append_left (by omega)]
          exact h1 j hji
        · obtain rfl : j = i := by omega
          rw [List.getElem?_append_right (by omega), hl, Nat.sub_self]
          rfl
      · intro j hj
        simp only
        rcases Nat.lt_or_ge j i with hji | hji
        · have := h2 j hji
          omega
        · obtain rfl : j = i := by omega
          omega)
  exact ⟨s.1, s.2.1, s.2.2, e, h1, h2⟩

/-- Entries written so far: the rows before `R`, and the columns before `C` of the row `R`. -/
def RowsFilled (n : ℕ) (A m : ℕ → ℕ → K) (R C : ℕ) : Prop :=
  ∀ r c, r < n → c < n → m r c = if r < R ∨ (r = R ∧ c < C) then A r c else 0

theorem RowsFilled.skip {A m : ℕ → ℕ → K} {R C C' : ℕ} (h : RowsFilled n A m R C) (hC : C ≤ C') (h0 : ∀ c, C ≤ c → c < C' → A R c = 0) : RowsFilled n A m R C' := by
  intro r c hr hc
  rw [h r c hr hc]
  by_cases h1 : r < R ∨ (r = R ∧ c < C)
  · rw [if_pos h1, if_pos (by omega)]
  · rw [if_neg h1]
    split
    · rename_i h2
      obtain ⟨rfl, h3⟩ : r = R ∧ C ≤ c := by omega
      rw [h0 c h3 (by omega)]
    · rfl

theorem RowsFilled.next {A m : ℕ → ℕ → K} {R C R' : ℕ} (h : RowsFilled n A m R C) (hR : R < R') (h0 : ∀ c, C ≤ c → A R c = 0)
    (h1 : ∀ r c, R < r → r < R' → A r c = 0) : RowsFilled n A m R' 0 := by
  intro r c hr hc
  rw [h r c hr hc]
  by_cases h2 : r < R ∨ (r = R ∧ c < C)
  · rw [if_pos h2, if_pos (by omega)]
  · rw [if_neg h2]
    split
    · rename_i h3
      rcases Nat.eq_or_lt_of_le (show R ≤ r by omega) with he | he
      · subst he; rw [h0 c (by omega)]
      · rw [h1 r c he (by omega)]
    · rfl

theorem RowsFilled.step {A m m' : ℕ → ℕ → K} {R C : ℕ} (h : RowsFilled n A m R C)
    (h' : ∀ r c, r < n → c < n → m' r c = if r = R ∧ c = C then A R C else m r c) : RowsFilled n A m' R (C + 1) := by
  intro r c hr hc
  rw [h' r c hr hc]
  by_cases he : r = R ∧ c = C
  · obtain ⟨rfl, rfl⟩ := he
    rw [if_pos ⟨rfl, rfl⟩, if_pos (by omega)]
  · rw [if_neg he, h r c hr hc]
    by_cases h2 : r < R ∨ (r = R ∧ c < C)
    · rw [if_pos h2, if_pos (by omega)]
    · rw [if_neg h2, if_neg (by omega)]

theorem dersBasis_ok (hU : KWf p U n) (hp : p ≤ stackMaxDegree) (hsp : Spans U u p n sp) {i dd : ℕ} (hi : i < u.length) (hdd : dd ≤ p) (junk : K) :
    ∃ D, dersBasisFuns (sp i) p dd (kf u i) U (fun _ _ => junk) (fun _ _ => junk) (List.replicate (stackMaxDegree + 1) junk)
      (List.replicate (stackMaxDegree + 1) junk) (List.replicate ((stackMaxDegree + 1) * (stackMaxDegree + 1)) junk) = .ok D ∧
      ∀ d r, d ≤ dd → r ≤ p → rd D (d * (p + 1) + r) = .ok ((derivative^[d] (Bp (kf U) (sp i) p (sp i - p + r))).eval (kf u i)) := by
  have hL : (dd + 1) * (p + 1) ≤ (stackMaxDegree + 1) * (stackMaxDegree + 1) := Nat.mul_le_mul (by omega) (by omega)
  obtain ⟨D, eD, -, hD⟩ := dersBasisFuns_spec hU.sorted (hsp.lo i hi) (by have := hsp.hi i hi; rw [hU.len]; omega) (hsp.pos i hi)
      (n := dd) hdd (kf u i) (fun _ _ => junk) (fun _ _ => junk)
      (List.replicate (stackMaxDegree + 1) junk) (List.replicate (stackMaxDegree + 1) junk)
      (List.replicate ((stackMaxDegree + 1) * (stackMaxDegree + 1)) junk) (by simp; omega) (by simp; omega) (by simpa using hL)
  exact ⟨D, eD, fun d r h1 h2 => rd_eq_ok.mpr (hD d r h1 h2)⟩

theorem bandPass2_spec (hU : KWf p U n) (hp : p ≤ stackMaxDegree) (hsp : Spans U u p n sp) (hnc : 1 ≤ nc) (hn : n = u.length * nc) {dd : ℕ}
    (hdd : dd = min (nc - 1) p) {ext : List (ℕ × ℕ × ℕ)} {kl ku : ℕ} (he : ∀ i, i < u.length → ext[i]? = some (sp i, sp i - p, p))
    (hk : ∀ i, i < u.length → nc * i + dd ≤ sp i - p + kl ∧ sp i ≤ nc * i + ku) (junk : K) :
    ∃ M sc, bandPass2 junk U u p nc dd kl ku ext (List.replicate (n * (kl + ku + 1)) 0) = .ok (M, sc) ∧ M.length = n * (kl + ku + 1) ∧ 0 ≤ sc ∧
      ∀ r c, r < n → c < n → bandMat n kl ku M r c = coll U u p nc sp r c := by
  obtain ⟨s, e, hl, hs, hF⟩ := forLt_inv (a := 0) (b := u.length) (s := ((List.replicate (n * (kl + ku + 1)) (0 : K), (0 : K)) : List K × K))
    (body := fun i s => do
      let ui ← rd u i
      let e ← rd ext i
      let D ← dersBasisFuns e.1 p dd ui U (fun _ _ => junk) (fun _ _ => junk) (List.replicate (stackMaxDegree + 1) junk)
        (List.replicate (stackMaxDegree + 1) junk) (List.replicate ((stackMaxDegree + 1) * (stackMaxDegree + 1)) junk)
      forLe 0 dd (fun d s => forLe 0 e.2.2 (fun r s => do
        let v ← rd D (d * (p + 1) + r)
        let M ← bandSet kl ku s.1 (nc * i + d) (e.2.1 + r) v
        pure (M, max s.2 |v|)) s) s)
    (fun i s => s.1.length = n * (kl + ku + 1) ∧ 0 ≤ s.2 ∧ RowsFilled n (coll U u p nc sp) (bandMat n kl ku s.1) (nc * i) 0)
    (by omega)
    ⟨by simp, le_rfl, by
      intro r c hr hc
      rw [if_neg (by omega)]
      unfold bandMat
      split
      · rw [List.getD_eq_getElem?_getD, List.getElem?_replicate]
        split <;> rfl
      · rfl⟩
    (by
      rintro i s - hi ⟨hl, hs, hF⟩
      rw [rd_kf hi, R_bind_ok, rd_eq_ok.mpr (he i hi), R_bind_ok]
      simp only
      obtain ⟨D, eD, hD⟩ := dersBasis_ok hU hp hsp hi (show dd ≤ p by omega) junk
      rw [eD, R_bind_ok]
      have hlo := hsp.lo i hi
      have hhi := hsp.hi i hi
      have hki := hk i hi
      have hrow : nc * i + nc ≤ n := by
        rw [hn, Nat.mul_comm u.length]
        have := Nat.mul_le_mul_left nc (show i + 1 ≤ u.length by omega)
        rwa [Nat.mul_succ] at this
      obtain ⟨s', e', hl', hs', hF'⟩ := forLe_inv (a := 0) (b := dd) (s := s)
        (body := fun d s => forLe 0 p (fun r s => do
          let v ← rd D (d * (p + 1) + r)
          let M ← bandSet kl ku s.1 (nc * i + d) (sp i - p + r) v
          pure (M, max s.2 |v|)) s)
        (fun d s => s.1.length = n * (kl + ku + 1) ∧ 0 ≤ s.2 ∧ RowsFilled n (coll U u p nc sp) (bandMat n kl ku s.1) (nc * i + d) 0)
        (by omega) ⟨hl, hs, hF⟩
        (by
          rintro d s - hd ⟨hl, hs, hF⟩
          have hdn : d < nc := by omega
          obtain ⟨s', e', hl', hs', hF'⟩ := forLe_inv (a := 0) (b := p) (s := s)
            (body := fun r s => do
              let v ← rd D (d * (p + 1) + r)
              let M ← bandSet kl ku s.1 (nc * i + d) (sp i - p + r) v
              pure (M, max s.2 |v|))
            (fun r s => s.1.length = n * (kl + ku + 1) ∧ 0 ≤ s.2 ∧
              RowsFilled n (coll U u p nc sp) (bandMat n kl ku s.1) (nc * i + d) (sp i - p + r))
            (by omega)
            ⟨hl, hs, hF.skip (by omega) (fun c _ hc => coll_out hdn (by omega))⟩
            (by
              rintro r s - hr ⟨hl, hs, hF⟩
              rw [hD d r hd hr, R_bind_ok]
              obtain ⟨M', eM, hlM, hM⟩ := bandSet_ok (n := n) hl (i := nc * i + d) (j := sp i - p + r)
                ⟨by omega, by omega, by omega, by omega⟩ ((derivative^[d] (Bp (kf U) (sp i) p (sp i - p + r))).eval (kf u i))
              rw [eM, R_bind_ok]
              refine ⟨_, rfl, hlM, le_max_of_le_left hs, ?_⟩
              have := hF.step (m' := bandMat n kl ku M') (fun r' c' _ _ => by rw [hM, coll_row hdn])
              rwa [Nat.add_assoc] at this)
          refine ⟨s', e', hl', hs', ?_⟩
          have := hF'.next (R' := nc * i + d + 1) (by omega) (fun c hc => coll_out hdn (by omega)) (fun r c h1 h2 => by omega)
          exact this)
      refine ⟨s', e', hl', hs', ?_⟩
      rcases Nat.lt_or_ge (dd + 1) nc with hlt | hge
      · -- rows of the orders above the degree
        have hz : ∀ d, dd + 1 ≤ d → d < nc → ∀ c, coll U u p nc sp (nc * i + d) c = 0 := fun d h1 h2 c => coll_high h2 (by omega) c
        have := hF'.next (R' := nc * (i + 1)) (by rw [Nat.mul_succ]; omega) (fun c _ => hz (dd + 1) le_rfl hlt c)
          (fun r c h1 h2 => by
            rw [Nat.mul_succ] at h2
            obtain ⟨d, rfl⟩ : ∃ d, r = nc * i + d := ⟨r - nc * i, by omega⟩
            exact hz d (by omega) (by omega) c)
        exact this
      · rw [Nat.mul_succ]
        have : dd + 1 = nc := by omega
        rwa [this] at hF')
  refine ⟨s.1, s.2, e, hl, hs, ?_⟩
  intro r c hr hc
  rw [hF r c hr hc, if_pos (by left; rw [Nat.mul_comm, ← hn]; exact hr)]

/-- The matrix given by triplets; repeated positions are added, as `setFromTriplets` does. -/
def tripMat (T : List (ℕ × ℕ × K)) (r c : ℕ) : K := (T.map fun t => if t.1 = r ∧ t.2.1 = c then t.2.2 else 0).sum

theorem tripMat_append (T : List (ℕ × ℕ × K)) (r0 c0 : ℕ) (v : K) (r c : ℕ) :
    tripMat (T ++ [(r0, c0, v)]) r c = tripMat T r c + if r = r0 ∧ c = c0 then v else 0 := by
  unfold tripMat
  rw [List.map_append, List.sum_append]
  congr 1
  simp only [List.map_cons, List.map_nil, List.sum_cons, List.sum_nil, add_zero]
  split
  · rename_i h; rw [if_pos ⟨h.1.symm, h.2.symm⟩]
  · rename_i h; rw [if_neg (fun h' => h ⟨h'.1.symm, h'.2.symm⟩)]

theorem assembleSparse_spec (hU : KWf p U n) (hp : p ≤ stackMaxDegree) (hsp : Spans U u p n sp) (hnc : 1 ≤ nc) (hn : n = u.length * nc)
    (eps junk : K) :
    ∃ T, assembleSparse eps junk U u p nc = .ok T ∧ ∀ r c, r < n → c < n → tripMat T r c = coll U u p nc sp r c := by
  unfold assembleSparse
  rw [usub_ok (by rw [hU.len]; omega), R_bind_ok, usub_ok hnc, R_bind_ok]
  simp only
  have hnb : U.length - (p + 1) = n := by rw [hU.len]; omega
  rw [hnb]
  generalize hdd : min (nc - 1) p = dd
  obtain ⟨T, e, hF⟩ := forLt_inv (a := 0) (b := u.length) (s := ([] : List (ℕ × ℕ × K)))
    (body := fun i T => do
      let ui ← rd u i
      let e ← basisBandExtent n p ui U
      if p ≤ stackMaxDegree then do
        let D ← dersBasisFuns e.1 p dd ui U (fun _ _ => junk) (fun _ _ => junk) (List.replicate (stackMaxDegree + 1) junk)
          (List.replicate (stackMaxDegree + 1) junk) (List.replicate ((stackMaxDegree + 1) * (stackMaxDegree + 1)) junk)
        forLe 0 dd (fun d T => forLe 0 e.2.2 (fun r T => do
          let v ← rd D (d * (p + 1) + r)
          pure (T ++ [(nc * i + d, e.2.1 + r, v)])) T) T
      else
        forLe 0 dd (fun d T => forLe 0 e.2.2 (fun r T => do
          let v ← basisFunctionD eps U ui p d (e.2.1 + r)
          pure (T ++ [(nc * i + d, e.2.1 + r, v)])) T) T)
    (fun i T => RowsFilled n (coll U u p nc sp) (tripMat T) (nc * i) 0)
    (by omega)
    (by intro r c _ _; rw [if_neg (by omega)]; rfl)
    (by
      rintro i T - hi hF
      rw [rd_kf hi, R_bind_ok, basisBandExtent_eq hsp hi, R_bind_ok, if_pos hp]
      simp only
      obtain ⟨D, eD, hD⟩ := dersBasis_ok hU hp hsp hi (show dd ≤ p by omega) junk
      rw [eD, R_bind_ok]
      have hlo := hsp.lo i hi
      have hhi := hsp.hi i hi
      obtain ⟨s', e', hF'⟩ := forLe_inv (a := 0) (b := dd) (s := T)
        (body := fun d T => forLe 0 p (fun r T => do
          let v ← rd D (d * (p + 1) + r)
          pure (T ++ [(nc * i + d, sp i - p + r, v)])) T)
        (fun d T => RowsFilled n (coll U u p nc sp) (tripMat T) (nc * i + d) 0)
        (by omega) hF
        (by
          rintro d T - hd hF
          have hdn : d < nc := by omega
          obtain ⟨s', e', hF'⟩ := forLe_inv (a := 0) (b := p) (s := T)
            (body := fun r T => do
              let v ← rd D (d * (p + 1) + r)
              pure (T ++ [(nc * i + d, sp i - p + r, v)]))
            (fun r T => RowsFilled n (coll U u p nc sp) (tripMat T) (nc * i + d) (sp i - p + r))
            (by omega)
            (hF.skip (by omega) (fun c _ hc => coll_out hdn (by omega)))
            (by
              rintro r T - hr hF
              rw [hD d r hd hr, R_bind_ok]
              refine ⟨_, rfl, ?_⟩
              have := hF.step (m' := tripMat (T ++ [(nc * i + d, sp i - p + r, (derivative^[d] (Bp (kf U) (sp i) p (sp i - p + r))).eval (kf u i))]))
                (fun r' c' h1 h2 => by
                  rw [tripMat_append, coll_row hdn]
                  by_cases h : r' = nc * i + d ∧ c' = sp i - p + r
                  · rw [if_pos h, if_pos h, hF r' c' h1 h2, if_neg (by omega), zero_add]
                  · rw [if_neg h, if_neg h, add_zero])
              rwa [Nat.add_assoc] at this)
          refine ⟨s', e', ?_⟩
          exact hF'.next (R' := nc * i + d + 1) (by omega) (fun c hc => coll_out hdn (by omega)) (fun r c h1 h2 => by omega))
      refine ⟨s', e', ?_⟩
      rcases Nat.lt_or_ge (dd + 1) nc with hlt | hge
      · have hz : ∀ d, dd + 1 ≤ d → d < nc → ∀ c, coll U u p nc sp (nc * i + d) c = 0 := fun d h1 h2 c => coll_high h2 (by omega) c
        exact hF'.next (R' := nc * (i + 1)) (by rw [Nat.mul_succ]; omega) (fun c _ => hz (dd + 1) le_rfl hlt c)
          (fun r c h1 h2 => by
            rw [Nat.mul_succ] at h2
            obtain ⟨d, rfl⟩ : ∃ d, r = nc * i + d := ⟨r - nc * i, by omega⟩
            exact hz d (by omega) (by omega) c)
      · rw [Nat.mul_succ]
        have : dd + 1 = nc := by omega
        rwa [this] at hF')
  refine ⟨T, e, ?_⟩
  intro r c hr hc
  rw [hF r c hr hc, if_pos (by left; rw [Nat.mul_comm, ← hn]; exact hr)]

/-- The right-hand side. -/
theorem interpRhs_spec {Q : List (List V)} (hQ : ∀ q ∈ Q, q.length = nc) :
    ∃ B, interpRhs nc Q = .ok B ∧ B.length = Q.length * nc ∧ ∀ i d q, Q[i]? = some q → d < nc → pf B (nc * i + d) = pf q d := by
  obtain ⟨B, e, hl, h⟩ := forLt_inv (a := 0) (b := Q.length) (s := List.replicate (Q.length * nc) (0 : V))
    (body := fun i B => forLt 0 nc (fun d B => do
      let q ← rd Q i
      let v ← rd q d
      wr B (nc * i + d) v) B)
    (fun t B => B.length = Q.length * nc ∧ ∀ i d q, i < t → Q[i]? = some q → d < nc → pf B (nc * i + d) = pf q d)
    (by omega) ⟨by simp, by omega⟩
    (by
      rintro i B - hi ⟨hl, h⟩
      have hq := List.getElem?_eq_getElem hi
      have hql := hQ _ (List.getElem_mem hi)
      have hrow : nc * i + nc ≤ Q.length * nc := by
        rw [Nat.mul_comm Q.length]
        have := Nat.mul_le_mul_left nc (show i + 1 ≤ Q.length by omega)
        rwa [Nat.mul_succ] at this
      obtain ⟨B', e', hl', h1, h2⟩ := forLt_inv (a := 0) (b := nc) (s := B)
        (body := fun d B => do
          let q ← rd Q i
          let v ← rd q d
          wr B (nc * i + d) v)
        (fun t B' => B'.length = Q.length * nc ∧ (∀ r, r < nc * i → pf B' r = pf B r) ∧ ∀ d, d < t → pf B' (nc * i + d) = pf Q[i] d)
        (by omega) ⟨hl, fun _ _ => rfl, by omega⟩
        (by
          rintro d B' - hd ⟨hl', h1, h2⟩
          rw [rd_ok hi, R_bind_ok, rd_pf (by omega), R_bind_ok, wr_ok (by omega)]
          have hset : ∀ m, pf (B'.set (nc * i + d) (pf Q[i] d)) m = if m = nc * i + d then pf Q[i] d else pf B' m := by
            intro m
            unfold pf
            rw [List.getD_eq_getElem?_getD, getElem?_set_of_lt (by omega)]
            split
            · rfl
            · rw [List.getD_eq_getElem?_getD]
          refine ⟨_, rfl, by simpa using hl', ?_, ?_⟩
          · intro r hr
            rw [hset, if_neg (by omega), h1 r hr]
          · intro d' hd'
            rw [hset]
            by_cases hdd : d' = d
            · subst hdd; rw [if_pos rfl]
            · rw [if_neg (by omega), h2 d' (by omega)])
      refine ⟨B', e', hl', ?_⟩
      intro i' d q hi' hq' hd
      rcases Nat.lt_or_ge i' i with hlt | hge
      · rw [h1 _ (by have := Nat.mul_le_mul_left nc (show i' + 1 ≤ i by omega); rw [Nat.mul_succ] at this; omega)]
        exact h i' d q hlt hq' hd
      · obtain rfl : i' = i := by omega
        rw [h2 d hd]
        rw [hq] at hq'
        rw [Option.some.inj hq'])
  refine ⟨B, e, hl, ?_⟩
  intro i d q hq hd
  have hi : i < Q.length := by
    by_contra hc
    rw [List.getElem?_eq_none (by omega)] at hq
    cases hq
  exact h i d q hi hq hd

/-- `build_poles`: no access leaves its array, and the poles satisfy every constraint, both with the band solver and with a sparse solver
that solves the system it is given. -/
theorem buildPoles_spec {meps : K} (hm : 0 ≤ meps) (hU : KWf p U n) (hp : p ≤ stackMaxDegree) (hsp : Spans U u p n sp) (hnc : 1 ≤ nc)
    (hn : n = u.length * nc) {Q : List (List V)} (hQl : Q.length = u.length) (hQ : ∀ q ∈ Q, q.length = nc) (eps growth junk : K) (x0 : V)
    (sparse : ℕ → List (ℕ × ℕ × K) → List V → R (List V))
    (hs : ∀ T B, assembleAndFactorize meps growth junk U u p nc n = .ok none → assembleSparse eps junk U u p nc = .ok T → interpRhs nc Q = .ok B →
      ∃ X, sparse n T B = .ok X ∧ X.length = n ∧ ∀ i, i < n → ∑ j ∈ Finset.range n, tripMat T i j • pf X j = pf B i) :
    ∃ P, buildPoles eps meps growth junk x0 sparse nc Q U u p = .ok P ∧ P.length = n ∧
      ∀ i d q, Q[i]? = some q → d < nc → spanDer (kf U) n p (sp i) (pf P) d (kf u i) = pf q d := by
  obtain ⟨B, eB, hlB, hB⟩ := interpRhs_spec (nc := nc) hQ
  have hQn : Q.length * nc = n := by rw [hn, hQl]
  have hrow : ∀ i d q, Q[i]? = some q → d < nc → nc * i + d < n := by
    intro i d q hq hd
    have hi : i < Q.length := by
      by_contra hc
      rw [List.getElem?_eq_none (by omega)] at hq
      cases hq
    have := Nat.mul_le_mul_left nc (show i + 1 ≤ Q.length by omega)
    rw [Nat.mul_succ, Nat.mul_comm nc Q.length, hQn] at this
    omega
  obtain ⟨ext, kl, ku, e1, hext, hk⟩ := bandPass1_spec (nc := nc) hsp (min (nc - 1) p)
  obtain ⟨M, sc, e2, hlM, hsc, hMat⟩ := bandPass2_spec hU hp hsp hnc hn rfl hext hk junk
  obtain ⟨f, ef, hf⟩ := factorize_spec (n := n) (tol := sc * meps * 16) (growth := growth) (by positivity) hlM
  have hass : assembleAndFactorize meps growth junk U u p nc n = .ok (f.map fun M => (kl, ku, M)) := by
    unfold assembleAndFactorize
    rw [if_neg (by omega), usub_ok (by rw [hU.len]; omega), R_bind_ok, usub_ok hnc, R_bind_ok]
    simp only
    rw [show U.length - (p + 1) = n by rw [hU.len]; omega, e1, R_bind_ok]
    simp only
    rw [e2, R_bind_ok]
    simp only
    rw [ef, R_bind_ok]
    rfl
  unfold buildPoles
  simp only
  rw [hQn, hass, R_bind_ok, eB, R_bind_ok]
  cases f with
  | some M' =>
    obtain ⟨x, ex, hlx, hx⟩ := bandSolve_spec (b := B) (x0 := List.replicate n x0) (by positivity) hlM ef (by rw [hlB, hQn]) (by simp)
    refine ⟨x, ex, hlx, ?_⟩
    intro i d q hq hd
    have hr := hrow i d q hq hd
    rw [← hB i d q hq hd, ← hx _ hr, ← sum_coll (n := n) (nc := nc) hd]
    apply Finset.sum_congr rfl
    intro c hc
    rw [hMat _ _ hr (Finset.mem_range.mp hc)]
  | none =>
    obtain ⟨T, eT, hT⟩ := assembleSparse_spec hU hp hsp hnc hn eps junk
    obtain ⟨X, eX, hlX, hX⟩ := hs T B hass eT eB
    refine ⟨X, ?_, hlX, ?_⟩
    · show (assembleSparse eps junk U u p nc >>= fun T => sparse n T B) = _
      rw [eT, R_bind_ok, eX]
    · intro i d q hq hd
      have hr := hrow i d q hq hd
      rw [← hB i d q hq hd, ← hX _ hr, ← sum_coll (n := n) (nc := nc) hd]
      apply Finset.sum_congr rfl
      intro c hc
      rw [hT _ _ hr (Finset.mem_range.mp hc)]

end
end Gbs
