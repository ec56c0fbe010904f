import Mathlib.Algebra.BigOperators.Group.Finset.Basic
import Verif.Model.Interp

/-!
# Model of the least-squares approximation by curves, `gbs/bscapprox.h`

The Cholesky factorizations of Eigen are a parameter: `dense n A B` is the solution of the system of matrix `A` and right-hand side `B`.
Products of matrices are sums. Coordinates are solved one by one in the code; here the right-hand sides are points of `V`. A product of
matrices whose sizes do not fit is the error `oob` (an assertion of Eigen). `norm` is the Euclidean norm.
-/

namespace Gbs

open scoped BigOperators

variable {K : Type} [Field K] [LinearOrder K]
variable {V : Type} [AddCommGroup V] [Module K V]

/-- `fill_basis_band`, `gbs/knotsfunctions.ixx:925-944`. -/
def fillBasisBand (eps junk : K) (nr nc : ℕ) (N : ℕ → ℕ → K) (row0 : ℕ) (u : K) (k : List K) (p dMax : ℕ) : R (ℕ → ℕ → K) := do
  let nb ← usub k.length (p + 1)
  let e ← basisBandExtent nb p u k
  let dd := min dMax p
  if p ≤ stackMaxDegree then do
    let D ← dersBasisFuns e.1 p dd u k (fun _ _ => junk) (fun _ _ => junk) (List.replicate (stackMaxDegree + 1) junk)
      (List.replicate (stackMaxDegree + 1) junk) (List.replicate ((stackMaxDegree + 1) * (stackMaxDegree + 1)) junk)
    forLe 0 dd (fun d N => forLe 0 e.2.2 (fun r N => do
      let v ← rd D (d * (p + 1) + r)
      matSet nr nc N (row0 + d) (e.2.1 + r) v) N) N
  else
    forLe 0 dd (fun d N => forLe 0 e.2.2 (fun r N => do
      let v ← basisFunctionD eps k u p d (e.2.1 + r)
      matSet nr nc N (row0 + d) (e.2.1 + r) v) N) N

/-- `build_poles_matrix`, `gbs/knotsfunctions.ixx:946-955`, on a matrix of `u.length * nc` rows and `nPoles` columns. -/
def buildPolesMatrix (eps junk : K) (nc : ℕ) (k u : List K) (deg nPoles : ℕ) : R (ℕ → ℕ → K) := do
  let d ← usub nc 1
  forLt 0 u.length (fun i N => do
    let ui ← rd u i
    fillBasisBand eps junk (u.length * nc) nPoles N (nc * i) ui k deg d) (fun _ _ => 0)

/-- `NᵀN` for a matrix of `m` rows. -/
def normalMatrix (m : ℕ) (N : ℕ → ℕ → K) : ℕ → ℕ → K := fun i j => ∑ r ∈ Finset.range m, N r i * N r j

/-- `NᵀB` for a matrix of `m` rows and `n` columns. -/
def normalRhs (m n : ℕ) (N : ℕ → ℕ → K) (B : List V) : List V := (List.range n).map fun i => ∑ r ∈ Finset.range m, N r i • B.getD r 0

/-- `solve_approx_banded`, `gbs/bscapprox.h:22-36`. The dense and the sparse factorization are the same parameter. -/
def solveApproxBanded (dense : ℕ → (ℕ → ℕ → K) → List V → R (List V)) (m n : ℕ) (N : ℕ → ℕ → K) (B : List V) : R (List V) :=
  if B.length ≠ m then .error .oob
  else dense n (normalMatrix m N) (normalRhs m n N B)

/-- `check_approx_sizes`, `gbs/bscapprox.h:46-60`. -/
def checkApproxSizes (nPoles p nPts : ℕ) : R Unit :=
  if nPoles < p + 1 then .error (.thrown .length)
  else if nPts < nPoles then .error (.thrown .length)
  else pure ()

/-- `default_n_poles`, `gbs/bscapprox.h:65`. -/
def defaultNPoles (p : ℕ) : ℕ := p * 2

/-- `approx_bound_fixed`, `gbs/bscapprox.h:78-120`. -/
def approxBoundFixed (eps junk : K) (dense : ℕ → (ℕ → ℕ → K) → List V → R (List V)) (Q : List V) (p nPoles : ℕ) (u k : List K) :
    R (Curve K V) := do
  checkApproxSizes nPoles p Q.length
  let nr ← usub u.length 2
  let N ← fillMatrix eps junk k p nPoles (((u.drop 1).take nr).map fun x => (⟨x, 0, 0⟩ : Constr K K))
  let nm ← usub nPoles 2
  let pb ← rd Q 0
  let pe ← rd Q (Q.length - 1)
  let nq ← usub Q.length 2
  if nq ≠ nr then .error .oob
  else do
    let B ← forLt 0 nq (fun i B => do
      let x ← rd Q (i + 1)
      pure (B ++ [x - N i 0 • pb - N i (nPoles - 1) • pe])) []
    let X ← solveApproxBanded dense nr nm (fun i j => N i (j + 1)) B
    let P ← forLt 1 (nPoles - 1) (fun i P => do
      let x ← rd X (i - 1)
      wr P i x) (List.replicate nPoles 0)
    let P ← wr P 0 pb
    let P ← wr P (nPoles - 1) pe
    Curve.mk? eps P k p

/-- `approx` for given knots, `gbs/bscapprox.h:133-158`. -/
def approxKnots (eps junk : K) (dense : ℕ → (ℕ → ℕ → K) → List V → R (List V)) (Q : List V) (p nPoles : ℕ) (u k : List K) :
    R (Curve K V) := do
  checkApproxSizes nPoles p Q.length
  let N ← buildPolesMatrix eps junk 1 k u p nPoles
  let B ← forLt 0 Q.length (fun i B => do
    let x ← rd Q i
    pure (B ++ [x])) []
  let X ← solveApproxBanded dense u.length nPoles N B
  let P ← forLt 0 nPoles (fun i P => do
    let x ← rd X i
    wr P i x) (List.replicate nPoles 0)
  Curve.mk? eps P k p

/-- The choice of lines 180-187 and 253-260. -/
def approxWith (eps junk : K) (dense : ℕ → (ℕ → ℕ → K) → List V → R (List V)) (Q : List V) (p nPoles : ℕ) (u k : List K) (fix : Bool) :
    R (Curve K V) :=
  if fix then approxBoundFixed eps junk dense Q p nPoles u k else approxKnots eps junk dense Q p nPoles u k

/-- `approx` for a number of poles, `gbs/bscapprox.h:171-188`. -/
def approxUniform (eps junk : K) (dense : ℕ → (ℕ → ℕ → K) → List V → R (List V)) (Q : List V) (p nPoles : ℕ) (u : List K) (fix : Bool) :
    R (Curve K V) := do
  checkApproxSizes nPoles p Q.length
  let u0 ← rd u 0
  let l ← usub u.length 1
  let u1 ← rd u l
  let k ← buildSimpleMultFlatKnots u0 u1 nPoles p
  approxWith eps junk dense Q p nPoles u k fix

/-- The statistics of one pass of `refine_approx`. -/
structure RefineScan (K : Type) where
  sum : K
  max : K
  ins : K
  uMax : K

/-- The loop over the points, `gbs/bscapprox.h:207-240`; `frac` is `approx_min_span_fraction`. -/
def refineScan (eps junk : K) (norm : V → K) (frac : K) (Q : List V) (u : List K) (c : Curve K V) : R (RefineScan K) :=
  forLt 0 Q.length (fun j s => do
    let ui ← rd u j
    let x ← c.value eps junk ui 0
    let q ← rd Q j
    let d := norm (x - q)
    let s := { s with sum := s.sum + d, max := if s.max < d then d else s.max }
    if s.ins < d then do
      let it := lowerBound c.knots ui
      if it = c.knots.length ∨ it = 0 then pure s
      else do
        let uh ← rd c.knots it
        let ul ← rd c.knots (it - 1)
        if uh ≤ ul then pure s
        else do
          let dul ← fdiv (ui - ul) (uh - ul)
          let duh ← fdiv (uh - ui) (uh - ul)
          if frac < dul ∧ frac < duh then pure { s with ins := d, uMax := ui } else pure s
    else pure s) ⟨0, 0, 0, -1⟩

/-- One turn of the loop of `refine_approx`, `gbs/bscapprox.h:204-265`: the curve and whether the loop is left. The number of poles is that
of the curve. `pts.size() - 5` is a `size_t`: for less than five points it is larger than any number of poles. The mean is computed after the test of
line 247, which does not use it. -/
def refineTurn (eps junk : K) (norm : V → K) (frac : K) (dense : ℕ → (ℕ → ℕ → K) → List V → R (List V)) (Q : List V) (u : List K)
    (fix : Bool) (dMax dAvg : K) (p nPoles : ℕ) (c : Curve K V) : R (Curve K V × ℕ × Bool) := do
  let s ← refineScan eps junk norm frac Q u c
  if s.uMax < 0 then pure (c, nPoles, true)
  else do
    let avg ← fdiv s.sum (Q.length : K)
    let k := c.knots.insertIdx (lowerBound c.knots s.uMax) s.uMax
    let c' ← approxWith eps junk dense Q p (nPoles + 1) u k fix
    pure (c', nPoles + 1, decide ((s.max < dMax ∧ avg < dAvg) ∨ (5 ≤ Q.length ∧ Q.length - 5 ≤ nPoles + 1)))

/-- `refine_approx`, `gbs/bscapprox.h:190-268`. -/
def refineApprox (eps junk : K) (norm : V → K) (frac : K) (dense : ℕ → (ℕ → ℕ → K) → List V → R (List V)) (Q : List V) (u : List K)
    (c : Curve K V) (fix : Bool) (dMax dAvg : K) (nMax : ℕ) : R (Curve K V) := do
  let s ← forLt 0 nMax (fun _ (s : Curve K V × ℕ × Bool) =>
    if s.2.2 then pure s else refineTurn eps junk norm frac dense Q u fix dMax dAvg c.deg s.2.1 s.1) (c, c.poles.length, false)
  pure s.1

/-- `approx` with refinement, `gbs/bscapprox.h:269-275`. -/
def approxRefined (eps junk : K) (norm : V → K) (frac : K) (dense : ℕ → (ℕ → ℕ → K) → List V → R (List V)) (Q : List V) (u : List K)
    (p : ℕ) (fix : Bool) (dMax dAvg : K) (nMax : ℕ) : R (Curve K V) := do
  let c ← approxUniform eps junk dense Q p (defaultNPoles p) u fix
  refineApprox eps junk norm frac dense Q u c fix dMax dAvg nMax

end Gbs
