import Verif.Model.Curve
import Verif.Model.Rational
import Verif.Model.Ranges

/-!
# Model of the interpolation of points and derivatives, `gbs/bscinterp.h`

The banded LU decomposition (`band_lu`) is modelled with its storage: a flat vector with checked accesses. The Eigen solvers used as a
fallback are a parameter of the model. Coordinates are solved one by one in the code; here the right-hand sides are points of `V`.
-/

namespace Gbs

variable {K : Type} [Field K] [LinearOrder K]
variable {V : Type} [AddCommGroup V] [Module K V]

/-! ## `band_lu`, `gbs/bscinterp.h:179-335` -/

/-- Offset of `at(i,j)`, `gbs/bscinterp.h:186-187`: `i*W + (j - i + kl)`. -/
def bandIdx (kl ku i j : ℕ) : R ℕ := usub (i * (kl + ku + 1) + j + kl) i

/-- `at(i,j)` for reading. -/
def bandGet (kl ku : ℕ) (M : List K) (i j : ℕ) : R K := do
  let q ← bandIdx kl ku i j
  rd M q

/-- `at(i,j) = v`. -/
def bandSet (kl ku : ℕ) (M : List K) (i j : ℕ) (v : K) : R (List K) := do
  let q ← bandIdx kl ku i j
  wr M q v

/-- Row `i` of the elimination of column `k`, `gbs/bscinterp.h:256-265`; `none` is `return false`. -/
def facRow (n kl ku : ℕ) (growth akk : K) (k i : ℕ) (s : Option (List K)) : R (Option (List K)) :=
  match s with
  | none => pure none
  | some M => do
    let a ← bandGet kl ku M i k
    let l ← fdiv a akk
    if growth < |l| then pure none
    else do
      let M ← bandSet kl ku M i k l
      let M ← forLe (k + 1) (min (k + ku) (n - 1)) (fun j M => do
        let x ← bandGet kl ku M i j
        let y ← bandGet kl ku M k j
        bandSet kl ku M i j (x - l * y)) M
      pure (some M)

/-- Step `k` of `factorize_inplace`, `gbs/bscinterp.h:250-266`. -/
def facStep (n kl ku : ℕ) (tol growth : K) (k : ℕ) (s : Option (List K)) : R (Option (List K)) :=
  match s with
  | none => pure none
  | some M => do
    let akk ← bandGet kl ku M k k
    if |akk| ≤ tol then pure none
    else forLe (k + 1) (min (k + kl) (n - 1)) (facRow n kl ku growth akk k) (some M)

/-- `factorize_inplace`, `gbs/bscinterp.h:247-268`; `tol` is `scale * epsilon * 16`, `growth` is `interp_band_max_growth`. -/
def factorize (n kl ku : ℕ) (tol growth : K) (M : List K) : R (Option (List K)) :=
  forLt 0 n (facStep n kl ku tol growth) (some M)

/-- Forward substitution, `gbs/bscinterp.h:318-325`. -/
def bandForward (n kl ku : ℕ) (M : List K) (b x : List V) : R (List V) :=
  forLt 0 n (fun i x => do
    let s ← rd b i
    let s ← forLt (i - kl) i (fun k s => do
      let a ← bandGet kl ku M i k
      let xk ← rd x k
      pure (s - a • xk)) s
    wr x i s) x

/-- Back substitution, `gbs/bscinterp.h:326-333`; `i` runs from `n - 1` down to 0. -/
def bandBackward (n kl ku : ℕ) (M : List K) (x : List V) : R (List V) :=
  forLt 0 n (fun t x => do
    let i := n - 1 - t
    let s ← rd x i
    let s ← forLe (i + 1) (min (i + ku) (n - 1)) (fun j s => do
      let a ← bandGet kl ku M i j
      let xj ← rd x j
      pure (s - a • xj)) s
    let a ← bandGet kl ku M i i
    let q ← vdiv s a
    wr x i q) x

/-- `band_lu::solve`, `gbs/bscinterp.h:316-334`; `x` is the content of the result buffer before the call. -/
def bandSolve (n kl ku : ℕ) (M : List K) (b x : List V) : R (List V) := do
  let y ← bandForward n kl ku M b x
  bandBackward n kl ku M y

/-! ## Assembly of the collocation matrix -/

/-- `basis_band_extent`, `gbs/knotsfunctions.ixx:885-891`: (span, i_min, r_max). -/
def basisBandExtent (n p : ℕ) (u : K) (k : List K) : R (ℕ × ℕ × ℕ) := do
  let span ← findSpan n p u k
  let iMin := if p ≤ span then span - p else 0
  let rMax ← if iMin + p < n then pure p else usub (n - 1) iMin
  pure (span, iMin, rMax)

/-- First pass of `assemble_and_factorize`, `gbs/bscinterp.h:207-217`: extents, `kl`, `ku`. The maxima start from zero. -/
def bandPass1 (k u : List K) (deg nc dd nb : ℕ) : R (List (ℕ × ℕ × ℕ) × ℕ × ℕ) :=
  forLt 0 u.length (fun i s => do
    let ui ← rd u i
    let e ← basisBandExtent nb deg ui k
    pure (s.1 ++ [e], max s.2.1 (nc * i + dd - e.2.1), max s.2.2 (e.2.1 + e.2.2 - nc * i))) ([], 0, 0)

/-- Second pass of `assemble_and_factorize`, `gbs/bscinterp.h:224-237`: the basis values written in the band, and their greatest magnitude. -/
def bandPass2 (junk : K) (k u : List K) (deg nc dd kl ku : ℕ) (ext : List (ℕ × ℕ × ℕ)) (M : List K) : R (List K × K) :=
  forLt 0 u.length (fun i s => do
    let ui ← rd u i
    let e ← rd ext i
    let D ← dersBasisFuns e.1 deg dd ui k (fun _ _ => junk) (fun _ _ => junk) (List.replicate (stackMaxDegree + 1) junk)
      (List.replicate (stackMaxDegree + 1) junk) (List.replicate ((stackMaxDegree + 1) * (stackMaxDegree + 1)) junk)
    forLe 0 dd (fun d s => forLe 0 e.2.2 (fun r s => do
      let v ← rd D (d * (deg + 1) + r)
      let M ← bandSet kl ku s.1 (nc * i + d) (e.2.1 + r) v
      pure (M, max s.2 |v|)) s) s) (M, 0)

/-- `assemble_and_factorize`, `gbs/bscinterp.h:195-240`: `kl`, `ku` and the factorized band, or `none` for `false`. `meps` is
`numeric_limits::epsilon`. -/
def assembleAndFactorize (meps growth junk : K) (k u : List K) (deg nc n : ℕ) : R (Option (ℕ × ℕ × List K)) :=
  if stackMaxDegree < deg then pure none
  else do
    let nb ← usub k.length (deg + 1)
    let nc1 ← usub nc 1
    let dd := min nc1 deg
    let e ← bandPass1 k u deg nc dd nb
    let kl := e.2.1
    let ku := e.2.2
    let s ← bandPass2 junk k u deg nc dd kl ku e.1 (List.replicate (n * (kl + ku + 1)) 0)
    let f ← factorize n kl ku (s.2 * meps * 16) growth s.1
    pure (f.map fun M => (kl, ku, M))

/-- `assemble_collocation_sparse`, `gbs/bscinterp.h:133-167`: the list of (row, column, value). -/
def assembleSparse (eps junk : K) (k u : List K) (deg nc : ℕ) : R (List (ℕ × ℕ × K)) := do
  let nb ← usub k.length (deg + 1)
  let nc1 ← usub nc 1
  let dd := min nc1 deg
  forLt 0 u.length (fun i T => do
    let ui ← rd u i
    let e ← basisBandExtent nb deg ui k
    if deg ≤ stackMaxDegree then do
      let D ← dersBasisFuns e.1 deg dd ui k (fun _ _ => junk) (fun _ _ => junk) (List.replicate (stackMaxDegree + 1) junk)
        (List.replicate (stackMaxDegree + 1) junk) (List.replicate ((stackMaxDegree + 1) * (stackMaxDegree + 1)) junk)
      forLe 0 dd (fun d T => forLe 0 e.2.2 (fun r T => do
        let v ← rd D (d * (deg + 1) + r)
        pure (T ++ [(nc * i + d, e.2.1 + r, v)])) T) T
    else
      forLe 0 dd (fun d T => forLe 0 e.2.2 (fun r T => do
        let v ← basisFunctionD eps k ui deg d (e.2.1 + r)
        pure (T ++ [(nc * i + d, e.2.1 + r, v)])) T) T) []

/-- The right-hand side of `build_poles`, `gbs/bscinterp.h:384-389`. -/
def interpRhs (nc : ℕ) (Q : List (List V)) : R (List V) :=
  forLt 0 Q.length (fun i B => forLt 0 nc (fun d B => do
    let q ← rd Q i
    let v ← rd q d
    wr B (nc * i + d) v) B) (List.replicate (Q.length * nc) 0)

/-- `build_poles` with `nc` constraints at each parameter, `gbs/bscinterp.h:372-400`, and `collocation_solver`, `339-370`. The sparse solver
of Eigen used when the band is refused is the parameter `sparse` (size, triplets, right-hand side). The result buffer of the band solver
is uninitialised: `x0`. -/
def buildPoles (eps meps growth junk : K) (x0 : V) (sparse : ℕ → List (ℕ × ℕ × K) → List V → R (List V)) (nc : ℕ) (Q : List (List V))
    (k u : List K) (deg : ℕ) : R (List V) := do
  let n := Q.length * nc
  let f ← assembleAndFactorize meps growth junk k u deg nc n
  let B ← interpRhs nc Q
  match f with
  | some (kl, ku, M) => bandSolve n kl ku M B (List.replicate n x0)
  | none => do
    let T ← assembleSparse eps junk k u deg nc
    sparse n T B

/-- `interpolate(Q,u)` without computed derivatives, `gbs/bscinterp.h:534-552`: degree `2 nc - 1`, `nc`-fold knots at the parameters. -/
def interpolateNc (eps meps growth junk : K) (x0 : V) (sparse : ℕ → List (ℕ × ℕ × K) → List V → R (List V)) (nc : ℕ) (Q : List (List V))
    (u : List K) : R (Curve K V) := do
  let p ← usub (2 * nc) 1
  if Q.length < 2 then .error .oob
  else do
    let k ← flatKnots u ((p + 1) :: (List.replicate (Q.length - 2) nc ++ [p + 1]))
    let P ← buildPoles eps meps growth junk x0 sparse nc Q k u p
    Curve.mk? eps P k p

/-- `interpolate(Q,u,p)`, `gbs/bscinterp.h:603-609`: averaged knots. -/
def interpolateCn (eps meps growth junk : K) (x0 : V) (sparse : ℕ → List (ℕ × ℕ × K) → List V → R (List V)) (Q : List V)
    (u : List K) (p : ℕ) : R (Curve K V) := do
  let k ← averagedFlatKnots u p
  let P ← buildPoles eps meps growth junk x0 sparse 1 (Q.map fun q => [q]) k u p
  Curve.mk? eps P k p

/-! ## General constraints -/

/-- A constraint: parameter, order of derivation, value (`constrPoint`, `gbs/bscinterp.h:25-31`; `bsc_constraint`, `656`). -/
structure Constr (K V : Type) where
  u : K
  d : ℕ
  v : V

/-- First pass of `assemble_and_factorize_constraints`, `gbs/bscinterp.h:285-294`; `none` for an order above the degree. -/
def constrPass1 (k : List K) (deg nb : ℕ) (cs : List (Constr K V)) : R (Option (List (ℕ × ℕ × ℕ) × ℕ × ℕ)) :=
  forLt 0 cs.length (fun i s =>
    match s with
    | none => pure none
    | some s => do
      let c ← rd cs i
      if deg < c.d then pure none
      else do
        let e ← basisBandExtent nb deg c.u k
        pure (some (s.1 ++ [e], max s.2.1 (i - e.2.1), max s.2.2 (e.2.1 + e.2.2 - i)))) (some ([], 0, 0))

/-- Second pass of `assemble_and_factorize_constraints`, `gbs/bscinterp.h:301-312`. -/
def constrPass2 (junk : K) (k : List K) (deg kl ku : ℕ) (cs : List (Constr K V)) (ext : List (ℕ × ℕ × ℕ)) (M : List K) : R (List K × K) :=
  forLt 0 cs.length (fun i s => do
    let c ← rd cs i
    let e ← rd ext i
    let D ← basisDers junk e.1 deg c.d c.u k (List.replicate (stackMaxDegree + 1) junk)
    forLe 0 e.2.2 (fun r s => do
      let v ← rd D r
      let M ← bandSet kl ku s.1 i (e.2.1 + r) v
      pure (M, max s.2 |v|)) s) (M, 0)

/-- `assemble_and_factorize_constraints`, `gbs/bscinterp.h:276-314`. -/
def assembleConstraints (meps growth junk : K) (cs : List (Constr K V)) (k : List K) (deg : ℕ) : R (Option (ℕ × ℕ × List K)) :=
  if stackMaxDegree < deg then pure none
  else do
    let nb ← usub k.length (deg + 1)
    let e ← constrPass1 k deg nb cs
    match e with
    | none => pure none
    | some (ext, kl, ku) =>
      if cs.length < (kl + ku + 1) * 2 then pure none
      else do
        let s ← constrPass2 junk k deg kl ku cs ext (List.replicate (cs.length * (kl + ku + 1)) 0)
        let f ← factorize cs.length kl ku (s.2 * meps * 16) growth s.1
        pure (f.map fun M => (kl, ku, M))

/-- `N(r,c) = v` on an `nr × nc` matrix. -/
def matSet (nr nc : ℕ) (N : ℕ → ℕ → K) (r c : ℕ) (v : K) : R (ℕ → ℕ → K) :=
  if r < nr ∧ c < nc then pure (fun i j => if i = r ∧ j = c then v else N i j) else .error .oob

/-- `fill_basis_row`, `gbs/knotsfunctions.ixx:901-919`. -/
def fillBasisRow (eps junk : K) (nr nc : ℕ) (N : ℕ → ℕ → K) (row : ℕ) (u : K) (k : List K) (p d : ℕ) : R (ℕ → ℕ → K) :=
  if p < d then pure N
  else do
    let nb ← usub k.length (p + 1)
    let e ← basisBandExtent nb p u k
    if p ≤ stackMaxDegree then do
      let D ← basisDers junk e.1 p d u k (List.replicate (stackMaxDegree + 1) junk)
      forLe 0 e.2.2 (fun r N => do
        let v ← rd D r
        matSet nr nc N row (e.2.1 + r) v) N
    else
      forLe 0 e.2.2 (fun r N => do
        let v ← basisFunctionD eps k u p d (e.2.1 + r)
        matSet nr nc N row (e.2.1 + r) v) N

/-- The rows of a dense collocation matrix with `nc` columns, `gbs/bscinterp.h:491-494`. -/
def fillMatrix (eps junk : K) (k : List K) (p nc : ℕ) (cs : List (Constr K V)) : R (ℕ → ℕ → K) :=
  forLt 0 cs.length (fun i N => do
    let c ← rd cs i
    fillBasisRow eps junk cs.length nc N i c.u k p c.d) (fun _ _ => 0)

/-- The square matrix of an interpolation. -/
def fillRows (eps junk : K) (k : List K) (p : ℕ) (cs : List (Constr K V)) : R (ℕ → ℕ → K) := fillMatrix eps junk k p cs.length cs

/-- The order `by_ud`, `gbs/bscinterp.h:466`. -/
def byUd (a b : Constr K V) : Bool := decide (a.u < b.u ∨ (a.u = b.u ∧ a.d < b.d))

/-- `std::is_sorted` with that order. -/
def isSortedUd : List (Constr K V) → Bool
  | [] => true
  | [_] => true
  | a :: b :: l => !byUd b a && isSortedUd (b :: l)

/-- `build_poles` for general constraints, `gbs/bscinterp.h:452-508`. The unstable `std::sort` is the parameter `srt`, the dense or sparse
solver of `solve_collocation` the parameter `dense`. -/
def buildPolesConstr (eps meps growth junk : K) (x0 : V) (srt : List (Constr K V) → List (Constr K V))
    (dense : ℕ → (ℕ → ℕ → K) → List V → R (List V)) (cs : List (Constr K V)) (k : List K) (deg : ℕ) : R (List V) := do
  let qs := if isSortedUd cs then cs else srt cs
  let f ← assembleConstraints meps growth junk qs k deg
  match f with
  | some (kl, ku, M) => bandSolve cs.length kl ku M (qs.map Constr.v) (List.replicate cs.length x0)
  | none => do
    let N ← fillRows eps junk k deg cs
    dense cs.length N (cs.map Constr.v)

/-- The most general `interpolate`, `gbs/bscinterp.h:672-719`: two end points and constraints; the dense factorization is the parameter
`dense`. -/
def interpolateBounds (eps junk : K) (dense : ℕ → (ℕ → ℕ → K) → List V → R (List V)) (b e : K × V) (cs : List (Constr K V)) (p : ℕ) :
    R (Curve K V) :=
  if cs.length + 2 < p + 1 then .error (.thrown .invalid)
  else do
    let u := (cs.map Constr.u).foldl insertOrdered [b.1, e.1]
    let k ← averagedFlatKnots u p
    let rows := (⟨b.1, 0, b.2⟩ : Constr K V) :: (cs ++ [⟨e.1, 0, e.2⟩])
    let N ← fillRows eps junk k p rows
    let P ← dense rows.length N (rows.map Constr.v)
    Curve.mk? eps P k p

end Gbs
