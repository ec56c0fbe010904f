import Verif.Model.Surface
import Verif.Model.Ranges
import Mathlib.Data.List.Sort

/-!
# Model of the discretizations by deviation, `gbs/bscanalysis.h` and `gbs/bssanalysis.h`

The curve is any object derived from `Curve`: its values are a parameter. `norm(v)` and `norm(cross(v,w))` are the parameters `nrm` and `ncross`.
A `std::list` is a list; two iterators of neighbours are the values they point to, and what is inserted between them is what is returned.
The recursions have a fuel, `noEnd` when it is exhausted. The quotient by zero of the deviation is kept: 0/0 is not greater than anything.
-/

namespace Gbs

variable {K : Type} [Field K] [LinearOrder K]
variable {V : Type} [AddCommGroup V]

/-- `norm(cross(v1,v2)) / (norm(v1) * norm(v2)) > dev_max`, `gbs/bscanalysis.h:406-408`, on floating-point numbers: the quotient by zero is infinite,
or not a number. -/
def devGt (nrm : V → K) (ncross : V → V → K) (devMax : K) (v1 v2 : V) : Bool :=
  if nrm v1 * nrm v2 = 0 then decide (0 < ncross v1 v2) else decide (devMax < ncross v1 v2 / (nrm v1 * nrm v2))

variable (nrm : V → K) (ncross : V → V → K) (devMax : K) (val : K → R V)

/-- `refine_params_recursive`, `gbs/bscanalysis.h:395-415`: the parameters inserted between `u1` and `u2`. -/
def refineParams (eps : K) : ℕ → K → K → R (List K)
  | 0, _, _ => .error .noEnd
  | f + 1, u1, u2 =>
    if eps < |u2 - u1| then do
      let um := (1 / 2) * (u1 + u2)
      let pm ← val um
      let p1 ← val u1
      let p2 ← val u2
      if devGt nrm ncross devMax (pm - p1) (p2 - p1) then do
        let l ← refineParams eps f u1 um
        let r ← refineParams eps f um u2
        pure (l ++ um :: r)
      else pure []
    else pure []

/-- `refine_params_u_recursive`, `refine_params_v_recursive`, `gbs/bssanalysis.h:44-58`, `110-124`, on the values of the iso-curve. -/
def refineIso : ℕ → K → K → R (List K)
  | 0, _, _ => .error .noEnd
  | f + 1, u1, u2 => do
    let um := (1 / 2) * (u1 + u2)
    let pm ← val um
    let p1 ← val u1
    let p2 ← val u2
    if devGt nrm ncross devMax (pm - p1) (p2 - p1) then do
      let l ← refineIso f u1 um
      let r ← refineIso f um u2
      pure (l ++ um :: r)
    else pure []

/-- The loop over the neighbours, `gbs/bscanalysis.h:463-471`, `gbs/bssanalysis.h:85-93`, `152-160`. `std::next` of the end of an empty list is
undefined behaviour. -/
def refineAll (refine : K → K → R (List K)) : List K → R (List K)
  | [] => .error .oob
  | [x] => pure [x]
  | x :: y :: l => do
    let m ← refine x y
    let r ← refineAll refine (y :: l)
    pure (x :: (m ++ r))

/-- The first parameters, `gbs/bscanalysis.h:434-436`, `gbs/bssanalysis.h:78-80`, `145-147`. -/
def startParams (u1 u2 : K) (n : ℕ) : R (List K) :=
  (List.range n).mapM fun (i : ℕ) => do
    let q ← fdiv ((u2 - u1) * (i : K)) ((n : K) - 1)
    pure (u1 + q)

/-- `deviation_based_params`, `gbs/bscanalysis.h:430-474`; `knots` is empty for a curve that is not a B-spline. -/
def deviationParams (eps : K) (fuel : ℕ) (knots : List K) (u1 u2 : K) (n nMax : ℕ) : R (List K) := do
  let us ← startParams u1 u2 n
  let us := (us ++ knots.filter fun u => decide (u1 < u) && decide (u < u2)).insertionSort (· ≤ ·)
  if us.length < nMax then refineAll (refineParams nrm ncross devMax val eps fuel) us else pure us

/-- `deviation_based_u_params`, `deviation_based_v_params`, `gbs/bssanalysis.h:74-95`, `141-162`. -/
def deviationIsoParams (fuel : ℕ) (u1 u2 : K) (n nMax : ℕ) : R (List K) := do
  let us ← startParams u1 u2 n
  if us.length < nMax then refineAll (refineIso nrm ncross devMax val fuel) us else pure us

/-- `discretize_with_params`, `gbs/bscanalysis.h:561-568`, with `make_points`, `gbs/bscanalysis.h:504-516`; `discretize` returns the points. -/
def discretizeWithParams (eps : K) (fuel : ℕ) (knots : List K) (u1 u2 : K) (n nMax : ℕ) : R (List V × List K) := do
  let us ← deviationParams nrm ncross devMax val eps fuel knots u1 u2 n nMax
  let pts ← us.mapM val
  pure (pts, us)

variable [Module K V]

/-- `discretize_with_params` of a B-spline curve, whose knots are added. -/
def Curve.discretize (eps junk : K) (fuel : ℕ) (c : Curve K V) (n nMax : ℕ) : R (List V × List K) := do
  let km ← unflatKnots eps c.knots
  discretizeWithParams nrm ncross devMax (fun u => c.value eps junk u) eps fuel (km.map Prod.fst) c.b0 c.b1 n nMax

/-- `discretize` of a surface, `gbs/bssanalysis.h:7-30`. -/
def discretizeGrid (srf : K → K → R V) (u1 u2 v1 v2 : K) (nu nv : ℕ) : R (List V) := do
  let u ← makeRange u1 u2 nu
  let v ← makeRange v1 v2 nv
  let uv ← forLt 0 nv (fun j uv => forLt 0 nu (fun i uv => do
    let a ← rd u i
    let b ← rd v j
    wr uv (j * nu + i) (a, b)) uv) (List.replicate (nu * nv) (0, 0))
  uv.mapM fun p => srf p.1 p.2

end Gbs
