import Verif.Model.SurfApprox

/-!
# Model of the collocation matrix of a grid, `gbs/bssinterp.h`

`fill_poles_matrix` fills a matrix that is given by the caller, of `nr` rows and `nc` columns: an entry outside of it is `oob`. A number of
poles that would wrap around is an error. `build_poles` takes a factorization of this matrix, which is the parameter `lsq` with the matrix.
-/

namespace Gbs

variable {K : Type} [Field K] [LinearOrder K]
variable {V : Type} [AddCommGroup V] [Module K V]

/-- Entry of a dense matrix of `nr` rows and `nc` columns. -/
def matGet (nr nc : ℕ) (N : ℕ → ℕ → K) (r c : ℕ) : R K :=
  if r < nr ∧ c < nc then pure (N r c) else .error .oob

/-- The lambda `band`, `gbs/bssinterp.h:76-82`: the first column that is not zero and the number of columns. -/
def supportBand (x : K) (k : List K) (deg np : ℕ) : R (ℕ × ℕ) := do
  let span ← findSpan np deg x k
  let iMin := if deg ≤ span then span - deg else 0
  let cnt ← if iMin + deg < np then pure (deg + 1) else usub np iMin
  pure (iMin, cnt)

/-- The non-zero block of one row, `gbs/bssinterp.h:90-101`. -/
def fillBlock (nr nc nu nv n m : ℕ) (Mu Mv : ℕ → ℕ → K) (iu iv : ℕ) (bu bv : ℕ × ℕ) (N : ℕ → ℕ → K) : R (ℕ → ℕ → K) :=
  forLt 0 bv.2 (fun jb N => do
    let y ← matGet nv m Mv iv (bv.1 + jb)
    forLt 0 bu.2 (fun ib N => do
      let x ← matGet nu n Mu iu (bu.1 + ib)
      matSet nr nc N (iu + nu * iv) (bu.1 + ib + n * (bv.1 + jb)) (x * y)) N) N

/-- `fill_poles_matrix`, `gbs/bssinterp.h:50-103`. -/
def fillPolesMatrix (eps junk : K) (nr nc : ℕ) (ku kv u v : List K) (p q : ℕ) : R (ℕ → ℕ → K) := do
  let n ← usub ku.length (p + 1)
  let m ← usub kv.length (q + 1)
  let Mu ← fillMatrix eps junk ku p n (u.map fun x => (⟨x, 0, 0⟩ : Constr K K))
  let Mv ← fillMatrix eps junk kv q m (v.map fun x => (⟨x, 0, 0⟩ : Constr K K))
  forLt 0 v.length (fun iv N => do
    let y ← rd v iv
    let bv ← supportBand y kv q m
    forLt 0 u.length (fun iu N => do
      let x ← rd u iu
      let bu ← supportBand x ku p n
      fillBlock nr nc u.length v.length n m Mu Mv iu iv bu bv N) N) (fun _ _ => 0)

/-- `build_poles` with the factorization of a matrix `N` of `nr` rows and `nc` columns, `gbs/bssinterp.h:105-128`: the right-hand side has one
row for each point, and must have as many as the matrix. -/
def buildPolesWith (lsq : ℕ → ℕ → (ℕ → ℕ → K) → List V → R (List V)) (nr nc : ℕ) (N : ℕ → ℕ → K) (Q : List V) : R (List V) :=
  if Q.length ≠ nr then .error .oob
  else do
    let X ← lsq nr nc N Q
    forLt 0 nc (fun i P => do
      let x ← rd X i
      wr P i x) (List.replicate nc 0)

end Gbs
