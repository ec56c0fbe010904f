import Verif.Model.Interp
import Verif.Model.Surface

/-!
# Model of the interpolation of surfaces, `gbs/bssinterp.h`

The dense factorizations of Eigen are a parameter: `dense n M B` is the solution of the system of matrix `M` and right-hand side `B`.
Coordinates are solved one by one in the code; here the right-hand sides are points of `V`. An integer division by zero is `divZero`.
-/

namespace Gbs

variable {K : Type} [Field K] [LinearOrder K]
variable {V : Type} [AddCommGroup V] [Module K V]

/-- `extract_U`, `gbs/bssinterp.h:22-32`. -/
def extractU {α : Type} (iV : ℕ) (Q : List α) (nCol : ℕ) : R (List α) :=
  if nCol = 0 then .error .divZero
  else if Q.length % nCol ≠ 0 then .error (.thrown .length)
  else forLt 0 nCol (fun i row => do
    let x ← rd Q (iV * nCol + i)
    pure (row ++ [x])) []

/-- `extract_V`, `gbs/bssinterp.h:34-48`. -/
def extractV {α : Type} (iU : ℕ) (Q : List α) (nCol : ℕ) : R (List α) :=
  if nCol = 0 then .error .divZero
  else if Q.length % nCol ≠ 0 then .error (.thrown .length)
  else forLt 0 (Q.length / nCol) (fun j col => do
    let x ← rd Q (iU + nCol * j)
    pure (col ++ [x])) []

/-- One-dimensional collocation matrix of `build_poles`, `gbs/bssinterp.h:150-158`. -/
def gridMatrix (eps junk : K) (k u : List K) (p : ℕ) : R (ℕ → ℕ → K) :=
  fillRows eps junk k p (u.map fun x => (⟨x, 0, 0⟩ : Constr K K))

/-- The solution of `Mu P Mvᵀ = Q` by two sequences of solves, `gbs/bssinterp.h:160-179`; `gbs/bssapprox.h:76-82` does the same with the
normal matrices. Entry `(i, j)` of `Q` and of the result is at `i + nu * j`. -/
def tensorSolve (dense : ℕ → (ℕ → ℕ → K) → List V → R (List V)) (nu nv : ℕ) (Mu Mv : ℕ → ℕ → K) (Q : List V) : R (List V) := do
  -- the columns of `A = Mu⁻¹ Q`
  let A ← forLt 0 nv (fun iv A => do
    let c ← forLt 0 nu (fun iu c => do
      let x ← rd Q (iu + nu * iv)
      pure (c ++ [x])) []
    let a ← dense nu Mu c
    pure (A ++ [a])) []
  -- the columns of `Pt = Mv⁻¹ Aᵀ`
  let Pt ← forLt 0 nu (fun i Pt => do
    let r ← forLt 0 nv (fun iv r => do
      let a ← rd A iv
      let x ← rd a i
      pure (r ++ [x])) []
    let z ← dense nv Mv r
    pure (Pt ++ [z])) []
  forLt 0 nv (fun j P => forLt 0 nu (fun i P => do
    let z ← rd Pt i
    let x ← rd z j
    wr P (i + nu * j) x) P) (List.replicate Q.length 0)

/-- `build_poles` for a grid of points, `gbs/bssinterp.h:130-180`. -/
def buildPolesGrid (eps junk : K) (dense : ℕ → (ℕ → ℕ → K) → List V → R (List V)) (Q : List V) (ku kv u v : List K) (p q : ℕ) :
    R (List V) :=
  if Q.length ≠ u.length * v.length then .error (.thrown .length)
  else do
    let Mu ← gridMatrix eps junk ku u p
    let Mv ← gridMatrix eps junk kv v q
    tensorSolve dense u.length v.length Mu Mv Q

/-- The lambda `avg_p`, `gbs/bssinterp.h:193-211`: the mean of the parametrizations of `ni` lists of `nj` points. -/
def avgParams {P : Type} (eps : K) (dist : P → P → K) (sqrt : K → K) (mode : KnotsCalcMode) (extract : ℕ → R (List P)) (ni nj : ℕ) :
    R (List K) :=
  forLt 0 ni (fun i params => do
    let pts ← extract i
    let pi ← curveParametrization eps dist sqrt pts mode true
    forLt 0 pi.length (fun t params => do
      let a ← rd pi t
      let b ← rd params t
      let x ← fdiv a (ni : K)
      wr params t (b + x)) params) (List.replicate nj 0)

/-- `interpolate` for a grid of points, `gbs/bssinterp.h:182-230`. -/
def interpolateGrid (eps junk : K) (dist : V → V → K) (sqrt : K → K) (dense : ℕ → (ℕ → ℕ → K) → List V → R (List V)) (Q : List V)
    (nV p q : ℕ) (mode : KnotsCalcMode) : R (Surface K V) :=
  if nV = 0 then .error .divZero
  else if Q.length % nV ≠ 0 then .error (.thrown .length)
  else do
    let nU := Q.length / nV
    let u ← avgParams eps dist sqrt mode (fun i => extractU i Q nU) nV nU
    let u ← adimension eps u
    let ku ← averagedFlatKnots u p
    let v ← avgParams eps dist sqrt mode (fun i => extractV i Q nU) nU nV
    let v ← adimension eps v
    let kv ← averagedFlatKnots v q
    let P ← buildPolesGrid eps junk dense Q ku kv u v p q
    Surface.mk? eps P ku kv p q

/-! ## Constraints on values and derivatives -/

/-- `bss_constraint`, `gbs/bssinterp.h:8-10`. -/
structure SConstr (K V : Type) where
  u : K
  v : K
  x : V
  du : ℕ
  dv : ℕ

/-- One row of the matrix of `build_poles`, `gbs/bssinterp.h:259-289`; `n` is the number of poles along U, `m` along V; the matrix is `nr × nc`. -/
def surfConstrRow (eps junk : K) (ku kv : List K) (p q n m nr nc : ℕ) (row : ℕ) (c : SConstr K V) (N : ℕ → ℕ → K) : R (ℕ → ℕ → K) :=
  if p < c.du ∨ q < c.dv then pure N
  else do
    let eu ← basisBandExtent n p c.u ku
    let ev ← basisBandExtent m q c.v kv
    if p ≤ stackMaxDegree ∧ q ≤ stackMaxDegree then do
      let Nu ← basisDers junk eu.1 p c.du c.u ku (List.replicate (stackMaxDegree + 1) junk)
      let Nv ← basisDers junk ev.1 q c.dv c.v kv (List.replicate (stackMaxDegree + 1) junk)
      forLe 0 ev.2.2 (fun jj N => forLe 0 eu.2.2 (fun ii N => do
        let a ← rd Nu ii
        let b ← rd Nv jj
        matSet nr nc N row (eu.2.1 + ii + n * (ev.2.1 + jj)) (a * b)) N) N
    else
      forLe 0 ev.2.2 (fun jj N => forLe 0 eu.2.2 (fun ii N => do
        let a ← basisFunctionD eps ku c.u p c.du (eu.2.1 + ii)
        let b ← basisFunctionD eps kv c.v q c.dv (ev.2.1 + jj)
        matSet nr nc N row (eu.2.1 + ii + n * (ev.2.1 + jj)) (a * b)) N) N

/-- The matrix with one row for each constraint and `nc` columns, `gbs/bssinterp.h:253-290`. -/
def surfConstrMatrix (eps junk : K) (ku kv : List K) (p q n m nc : ℕ) (cs : List (SConstr K V)) : R (ℕ → ℕ → K) :=
  forLt 0 cs.length (fun k N => do
    let c ← rd cs k
    surfConstrRow eps junk ku kv p q n m cs.length nc k c N) (fun _ _ => 0)

/-- `build_poles` for constraints, `gbs/bssinterp.h:246-306`. The dense or sparse solver of `solve_collocation` is the parameter `dense`.
A pole count that would wrap around is an error. -/
def buildPolesSurf (eps junk : K) (dense : ℕ → (ℕ → ℕ → K) → List V → R (List V)) (cs : List (SConstr K V)) (ku kv : List K) (p q : ℕ) :
    R (List V) := do
  let n ← usub ku.length (p + 1)
  let m ← usub kv.length (q + 1)
  let N ← surfConstrMatrix eps junk ku kv p q n m cs.length cs
  dense cs.length N (cs.map SConstr.x)

/-- `*std::min_element`: the first least element; the end of an empty vector is dereferenced. -/
def minElem : List K → R K
  | [] => .error .oob
  | x :: l => pure (l.foldl (fun m y => if y < m then y else m) x)

/-- `*std::min_element` with `>`. -/
def maxElem : List K → R K
  | [] => .error .oob
  | x :: l => pure (l.foldl (fun m y => if m < y then y else m) x)

/-- `build_mult_flat_knots(u1,u2,n,p,mult)`, `gbs/knotsfunctions.ixx:269-278`. -/
def rangeMultFlatKnots (u1 u2 : K) (n p mult : ℕ) : R (List K) := do
  let k ← makeRange u1 u2 n
  buildMultFlatKnots k p mult

/-- `interpolate` for constraints, `gbs/bssinterp.h:323-352`, with `get_constraints_bounds`, `12-20`. -/
def interpolateSurfConstr (eps junk : K) (dense : ℕ → (ℕ → ℕ → K) → List V → R (List V)) (cs : List (SConstr K V)) (nV p q : ℕ)
    (u1 u2 v1 v2 : K) (mu mv : ℕ) : R (Surface K V) := do
  let uMin ← minElem (cs.map SConstr.u)
  let uMax ← maxElem (cs.map SConstr.u)
  let vMin ← minElem (cs.map SConstr.v)
  let vMax ← maxElem (cs.map SConstr.v)
  if uMin < u1 ∨ u2 < uMax ∨ vMin < v1 ∨ v2 < vMax then .error (.thrown .invalid)
  else if nV = 0 then .error .divZero
  else if cs.length % nV ≠ 0 then .error (.thrown .length)
  else do
    let nU := cs.length / nV
    let dU ← usub nU (p + 1)
    if mu = 0 then .error .divZero
    else do
      let ku ← rangeMultFlatKnots u1 u2 (2 + dU / mu) p mu
      let dV ← usub nV (q + 1)
      if mv = 0 then .error .divZero
      else do
        let kv ← rangeMultFlatKnots v1 v2 (2 + dV / mv) q mv
        let a ← usub ku.length (p + 1)
        if a ≠ nU then .error (.thrown .invalid)
        else do
          let b ← usub kv.length (q + 1)
          if b ≠ nV then .error (.thrown .invalid)
          else do
            let P ← buildPolesSurf eps junk dense cs ku kv p q
            Surface.mk? eps P ku kv p q

end Gbs
