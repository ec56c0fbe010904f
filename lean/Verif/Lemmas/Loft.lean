import Verif.Model.Loft
import Verif.Props.Unify
import Verif.Props.SurfInterp
import Verif.Lemmas.Approx

/-! # Lofts -/

namespace Gbs

set_option linter.unusedSectionVars false

open Polynomial
open scoped BigOperators

variable {K : Type} [Field K] [LinearOrder K] [IsStrictOrderedRing K]
variable {V : Type} [AddCommGroup V] [Module K V]

/-- The core of the lofts: each column of poles solves its system. -/
theorem loftCore_spec {eps junk : K} {dense : ℕ → (ℕ → ℕ → K) → List V → R (List V)} {nc : ℕ} {B : List (List V)} {flatV v : List K} {q n : ℕ}
    (hn : n = nc * v.length) {N : ℕ → ℕ → K} (eN : buildPolesMatrix eps junk nc flatV v q n = .ok N)
    (hB : ∀ c ∈ B, c.length = n)
    (hs : ∀ c : List V, c.length = n → ∃ X, dense n N c = .ok X ∧ X.length = n ∧ ∀ i, i < n → ∑ j ∈ Finset.range n, N i j • pf X j = pf c i) :
    ∃ P, loftCore eps junk dense nc B flatV v q = .ok P ∧ P.length = B.length * n ∧
      ∀ i c j, B[i]? = some c → j < n → ∑ b ∈ Finset.range n, N j b • pf P (i + B.length * b) = pf c j := by
  unfold loftCore
  simp only
  rw [← hn, eN, R_bind_ok]
  choose! X hX1 hX2 hX3 using hs
  have hm : B.mapM (fun c => if c.length = n then dense n N c else .error .oob) = .ok (B.map X) := by
    apply mapM_ok
    intro c hc
    rw [if_pos (hB c hc), hX1 c (hB c hc)]
  rw [hm, R_bind_ok]
  have hget : ∀ i, i < B.length → ∃ c, B[i]? = some c ∧ (B.map X)[i]? = some (X c) ∧ c.length = n := by
    intro i hi
    exact ⟨B[i], List.getElem?_eq_getElem hi, by simp [hi], hB _ (List.getElem_mem hi)⟩
  obtain ⟨P, e, hl, h⟩ := forLt_grid (n := n) (m := B.length) (s := List.replicate (n * B.length) (0 : V))
    (g := fun j i => pf ((B.map X).getD i []) j)
    (body := fun j P => forLt 0 B.length (fun i P => do
      let x ← rd (B.map X) i
      let x ← rd x j
      wr P (j * B.length + i) x) P) (by rw [List.length_replicate])
    (by
      intro j s hj hs
      have hle : B.length * j + B.length ≤ n * B.length := by
        have := Nat.mul_le_mul_left B.length (show j + 1 ≤ n by omega)
        rw [Nat.mul_comm n]; rw [Nat.mul_add] at this; omega
      obtain ⟨s', e, f1, f2, f3⟩ := forLt_row (m := B.length) (off := B.length * j) (s := s) (f := fun i => pf ((B.map X).getD i []) j)
        (body := fun i P => do
          let x ← rd (B.map X) i
          let x ← rd x j
          wr P (j * B.length + i) x) (by omega)
        (by
          intro i s' hi hs'
          obtain ⟨c, hc, hz, hlc⟩ := hget i hi
          have hlz := hX2 c hlc
          have : (B.map X).getD i [] = X c := by rw [List.getD_eq_getElem?_getD, hz]; rfl
          have hi2 : j * B.length + i = i + B.length * j := by rw [Nat.mul_comm]; omega
          rw [rd_eq_ok.mpr hz, R_bind_ok, rd_ok (by omega), R_bind_ok, hi2, wr_ok (by omega), this,
            pf_of_some (List.getElem?_eq_getElem _)])
      exact ⟨s', e, by omega, f2, fun x hx => f3 x (Or.inl hx)⟩)
  refine ⟨P, e, by rw [hl, Nat.mul_comm], ?_⟩
  intro i c j hc hj
  have hi : i < B.length := (List.getElem?_eq_some_iff.mp hc).1
  obtain ⟨c', hc', hz, hlc⟩ := hget i hi
  obtain rfl : c = c' := by rw [hc] at hc'; exact Option.some.inj hc'
  rw [← hX3 c hlc j hj]
  apply Finset.sum_congr rfl
  intro b hb
  rw [pf_of_some (h b i (Finset.mem_range.mp hb) hi), List.getD_eq_getElem?_getD, hz]
  rfl

/-- `build_loft_surface_poles`: row `j` of the surface interpolates the poles of curve `j`. -/
theorem buildLoftSurfacePoles_spec {eps junk : K} {dense : ℕ → (ℕ → ℕ → K) → List V → R (List V)} {pc : List (List V)} {flatV v : List K}
    {q nu : ℕ} (hne : pc ≠ []) (hpc : ∀ P ∈ pc, P.length = nu) (hlen : pc.length = v.length) {N : ℕ → ℕ → K}
    (eN : buildPolesMatrix eps junk 1 flatV v q v.length = .ok N)
    (hs : ∀ c : List V, c.length = v.length → ∃ X, dense v.length N c = .ok X ∧ X.length = v.length ∧
      ∀ i, i < v.length → ∑ j ∈ Finset.range v.length, N i j • pf X j = pf c i) :
    ∃ P, buildLoftSurfacePoles eps junk dense pc flatV v q = .ok P ∧ P.length = nu * v.length ∧
      ∀ i j Pj, i < nu → pc[j]? = some Pj → ∑ b ∈ Finset.range v.length, N j b • pf P (i + nu * b) = pf Pj i := by
  have hpos : 0 < pc.length := List.length_pos_iff.mpr hne
  unfold buildLoftSurfacePoles
  rw [rd_ok hpos, R_bind_ok, hpc _ (List.getElem_mem hpos)]
  obtain ⟨B, eB, hlB, hB⟩ := forLt_collect (n := nu) (body := fun i B => do
      let c ← forLt 0 pc.length (fun j c => do
        let pj ← rd pc j
        let x ← rd pj i
        pure (c ++ [x])) []
      pure (B ++ [c]))
    (fun i c => c.length = pc.length ∧ ∀ j Pj, pc[j]? = some Pj → pf c j = pf Pj i)
    (by
      intro i acc hi
      obtain ⟨c, ec, hlc, hc⟩ := forLt_collect (n := pc.length) (body := fun j c => do
          let pj ← rd pc j
          let x ← rd pj i
          pure (c ++ [x])) (fun j x => ∀ Pj, pc[j]? = some Pj → pf Pj i = x)
        (by
          intro j acc hj
          have hl : (pc[j]).length = nu := hpc _ (List.getElem_mem hj)
          rw [rd_ok hj, R_bind_ok]
          refine ⟨(pc[j])[i]'(by omega), by rw [rd_ok (by omega), R_bind_ok]; rfl, ?_⟩
          intro Pj hPj
          rw [List.getElem?_eq_getElem hj] at hPj
          rw [← Option.some.inj hPj]
          exact pf_of_some (List.getElem?_eq_getElem _))
      refine ⟨c, by rw [ec, R_bind_ok]; rfl, hlc, ?_⟩
      intro j Pj hPj
      obtain ⟨x, hx, e⟩ := hc j (List.getElem?_eq_some_iff.mp hPj).1
      rw [pf_of_some hx, e Pj hPj])
  rw [eB, R_bind_ok]
  obtain ⟨P, e, hl, h⟩ := loftCore_spec (nc := 1) (B := B) (n := v.length) (by omega) eN
    (by
      intro c hc
      obtain ⟨i, hi, rfl⟩ := List.getElem_of_mem hc
      obtain ⟨x, hx, hlx, -⟩ := hB i (by omega)
      rw [List.getElem?_eq_getElem hi] at hx
      rw [Option.some.inj hx, hlx, hlen]) hs
  rw [hlB] at hl h
  refine ⟨P, e, hl, ?_⟩
  intro i j Pj hi hPj
  obtain ⟨c, hc, hlc, hcj⟩ := hB i hi
  rw [h i c j hc (by rw [← hlen]; exact (List.getElem?_eq_some_iff.mp hPj).1)]
  exact hcj j Pj hPj

end Gbs
