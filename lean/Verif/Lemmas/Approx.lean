import Verif.Lemmas.LeastSquares

/-! # The matrices of the approximation by curves -/

namespace Gbs

set_option linter.unusedSectionVars false

open Polynomial
open scoped BigOperators

variable {K : Type} [Field K] [LinearOrder K] [IsStrictOrderedRing K]
variable {V : Type} [AddCommGroup V] [Module K V]

theorem buildPolesMatrix_spec {U u : List K} {p n nc : ℕ} {sp : ℕ → ℕ} (hU : KWf p U n) (hp : p ≤ stackMaxDegree) (hsp : Spans U u p n sp)
    (hnc : 1 ≤ nc) (eps junk : K) :
    ∃ N, buildPolesMatrix eps junk nc U u p n = .ok N ∧ ∀ r c, r < u.length * nc → c < n → N r c = coll U u p nc sp r c := by
  unfold buildPolesMatrix
  rw [usub_ok hnc, R_bind_ok]
  have hnb : U.length - (p + 1) = n := by rw [hU.len]; omega
  set dd := min (nc - 1) p with hdd
  set M := max (u.length * nc) n with hM
  have hrow : ∀ i d, i < u.length → d < nc → nc * i + d < u.length * nc := by
    intro i d hi hd
    have := Nat.mul_le_mul_left nc (show i + 1 ≤ u.length by omega)
    rw [Nat.mul_comm u.length]
    rw [Nat.mul_succ] at this
    omega
  obtain ⟨N, e, hF⟩ := forLt_inv (a := 0) (b := u.length) (s := (fun _ _ => 0 : ℕ → ℕ → K))
    (body := fun i N => do
      let ui ← rd u i
      fillBasisBand eps junk (u.length * nc) n N (nc * i) ui U p (nc - 1))
    (fun i N => RowsFilled M (coll U u p nc sp) N (nc * i) 0)
    (by omega)
    (by intro r c _ _; rw [if_neg (by omega)])
    (by
      rintro i N - hi hF
      rw [rd_kf hi, R_bind_ok]
      unfold fillBasisBand
      rw [usub_ok (by rw [hU.len]; omega), R_bind_ok, hnb, basisBandExtent_eq hsp hi, R_bind_ok]
      dsimp only
      rw [if_pos hp, ← hdd]
      obtain ⟨D, eD, hD⟩ := dersBasis_ok hU hp hsp hi (show dd ≤ p by omega) junk
      rw [eD, R_bind_ok]
      have hlo := hsp.lo i hi
      have hhi := hsp.hi i hi
      obtain ⟨s', e', hF'⟩ := forLe_inv (a := 0) (b := dd) (s := N)
        (body := fun d N => forLe 0 p (fun r N => do
          let v ← rd D (d * (p + 1) + r)
          matSet (u.length * nc) n N (nc * i + d) (sp i - p + r) v) N)
        (fun d N => RowsFilled M (coll U u p nc sp) N (nc * i + d) 0)
        (by omega) hF
        (by
          rintro d N - hd hF
          have hdn : d < nc := by omega
          obtain ⟨s', e', hF'⟩ := forLe_inv (a := 0) (b := p) (s := N)
            (body := fun r N => do
              let v ← rd D (d * (p + 1) + r)
              matSet (u.length * nc) n N (nc * i + d) (sp i - p + r) v)
            (fun r N => RowsFilled M (coll U u p nc sp) N (nc * i + d) (sp i - p + r))
            (by omega)
            (hF.skip (by omega) (fun c _ hc => coll_out hdn (by omega)))
            (by
              rintro r N - hr hF
              rw [hD d r hd hr, R_bind_ok]
              unfold matSet
              rw [if_pos ⟨hrow i d hi hdn, by omega⟩]
              refine ⟨_, rfl, ?_⟩
              have := hF.step (m' := fun i' j => if i' = nc * i + d ∧ j = sp i - p + r then
                  (derivative^[d] (Bp (kf U) (sp i) p (sp i - p + r))).eval (kf u i) else N i' j)
                (fun r' c' _ _ => by rw [coll_row hdn])
              rwa [Nat.add_assoc] at this)
          refine ⟨s', e', ?_⟩
          exact hF'.next (R' := nc * i + d + 1) (by omega) (fun c hc => coll_out hdn (by omega)) (fun r c h1 h2 => by omega))
      refine ⟨s', e', ?_⟩
      rcases Nat.lt_or_ge (dd + 1) nc with hlt | hge
      · have hz : ∀ d, dd + 1 ≤ d → d < nc → ∀ c, coll U u p nc sp (nc * i + d) c = 0 := fun d h1 h2 c => coll_high h2 (by omega) c
        exact hF'.next (R' := nc * (i + 1)) (by rw [Nat.mul_succ]; omega) (fun c _ => hz (dd + 1) le_rfl hlt c)
          (fun r c h1 h2 => by
            rw [Nat.mul_succ] at h2
            obtain ⟨d, rfl⟩ : ∃ d, r = nc * i + d := ⟨r - nc * i, by omega⟩
            exact hz d (by omega) (by omega) c)
      · rw [Nat.mul_succ]
        have : dd + 1 = nc := by omega
        rwa [this] at hF')
  refine ⟨N, e, ?_⟩
  intro r c hr hc
  rw [hF r c (by omega) (by omega), if_pos (by left; rw [Nat.mul_comm]; exact hr)]

theorem coll_one {U u : List K} {p : ℕ} {sp : ℕ → ℕ} (r c : ℕ) : coll U u p 1 sp r c = (Bp (kf U) (sp r) p c).eval (kf u r) := by
  have := coll_row (U := U) (u := u) (p := p) (nc := 1) (sp := sp) (i := r) (d := 0) (by omega) c
  simpa using this

/-- The value of a curve at a parameter, with the row of the matrix. -/
theorem value_coll {eps : K} (heps : 0 < eps) {c : Curve K V} (h : c.Good) (hp : c.deg ≤ stackMaxDegree) {u : List K} {sp : ℕ → ℕ}
    (hsp : Spans c.knots u c.deg c.poles.length sp) {i : ℕ} (hi : i < u.length) (h1 : c.b0 ≤ kf u i) (h2 : kf u i ≤ c.b1) (junk : K) :
    c.value eps junk (kf u i) 0 = .ok (∑ j ∈ Finset.range c.poles.length, coll c.knots u c.deg 1 sp i j • pf c.poles j) := by
  obtain ⟨s, e, -, -, -, hv⟩ := Curve.value_span heps h (Or.inl hp) h1 h2
  rw [hsp.find i hi] at e
  obtain rfl := Except.ok.inj e
  rw [hv junk 0]
  congr 1
  unfold spanDer
  exact Finset.sum_congr rfl fun j _ => by rw [coll_one]; rfl

/-- Copying the solution into the poles. -/
theorem copy_loop {X : List V} {n : ℕ} (hX : X.length = n) :
    forLt 0 n (fun i P => do
      let x ← rd X i
      wr P i x) (List.replicate n 0) = .ok X := by
  obtain ⟨P, e, hl, h⟩ := forLt_inv (a := 0) (b := n) (s := List.replicate n (0 : V))
    (body := fun i P => do
      let x ← rd X i
      wr P i x)
    (fun i P => P.length = n ∧ ∀ j, j < i → pf P j = pf X j) (by omega) ⟨by simp, by intro j hj; omega⟩
    (by
      rintro i P - hi ⟨hl, h⟩
      rw [rd_pf (by omega), R_bind_ok]
      refine ⟨_, wr_ok (by omega), by simp [hl], ?_⟩
      intro j hj
      unfold pf
      rw [List.getD_eq_getElem?_getD, List.getElem?_set]
      by_cases hij : i = j
      · subst hij; rw [if_pos rfl, if_pos (by omega)]; rfl
      · rw [if_neg hij, ← List.getD_eq_getElem?_getD]
        exact h j (by omega))
  rw [e, pf_ext (by omega) fun i hi => h i (by omega)]

theorem collect_loop (Q : List V) : forLt 0 Q.length (fun i B => do
    let x ← rd Q i
    pure (B ++ [x])) [] = .ok Q := by
  obtain ⟨L, e, hl, h⟩ := forLt_collect (n := Q.length) (body := fun i B => do
    let x ← rd Q i
    pure (B ++ [x])) (fun i x => x = pf Q i) (by
      intro i acc hi
      exact ⟨pf Q i, by rw [rd_pf hi, R_bind_ok]; rfl, rfl⟩)
  rw [e, pf_ext hl]
  intro i hi
  obtain ⟨x, hx, rfl⟩ := h i (by omega)
  exact pf_of_some hx

theorem pf_normalRhs {m n : ℕ} (N : ℕ → ℕ → K) (B : List V) {i : ℕ} (hi : i < n) :
    pf (normalRhs m n N B) i = ∑ r ∈ Finset.range m, N r i • pf B r := pf_map_range _ hi

end Gbs
