import Verif.Model.Approx
import Verif.Model.Discretize
import Verif.Model.AbsCurv

/-!
# Model of the approximation of curves, `gbs/bscapprox.h`, and of `to_bs_curve`, `gbs/bsctools.h`

The curve is any object derived from `Curve`; `knots` are the knots it adds to its samples, none for a curve that is not a B-spline. The parallel
`std::transform` is a map.
-/

namespace Gbs

variable {K : Type} [Field K] [LinearOrder K]
variable {V : Type} [AddCommGroup V] [Module K V]

/-- What the approximations use of the library: the tolerance on knots, the memory that is not initialized, the Euclidean norm, the norm of a cross
product, the square root, `approx_min_span_fraction`, the factorization of Eigen, and the fuel of the refinement of samples. -/
structure FitArgs (K V : Type) where
  eps : K
  junk : K
  nrm : V → K
  ncross : V → V → K
  sqrt : K → K
  frac : K
  dense : ℕ → (ℕ → ℕ → K) → List V → R (List V)
  fuel : ℕ

/-- `approx_max_sample_points`, `gbs/gbsconstants.h:117`. -/
def approxMaxSamplePoints : ℕ := 5000

/-- `approx_max_iter`, `gbs/gbsconstants.h:109`. -/
def approxMaxIter : ℕ := 200

variable (o : FitArgs K V)

/-- `sample_by_deviation`, `gbs/bscapprox.h:330-338`, and `discretize`, `gbs/bscanalysis.h:542-547`, which returns the points. -/
def sampleByDeviation (knots : List K) (crv : ACurve K V) (np : ℕ) (dev : K) : R (List V × List K) :=
  discretizeWithParams o.nrm o.ncross dev (fun t => crv.value t 0) o.eps o.fuel knots crv.b0 crv.b1 np approxMaxSamplePoints

/-- `refine_from_points`, `gbs/bscapprox.h:342-348`. -/
def refineFromPoints (pts : List V) (u : List K) (p nPoles : ℕ) (tol : K) : R (Curve K V) := do
  let c ← approxUniform o.eps o.junk o.dense pts p nPoles u true
  refineApprox o.eps o.junk o.nrm o.frac o.dense pts u c true (10 * tol) tol approxMaxIter

/-- `approx(pts,p,mode,fix_bound)`, `gbs/bscapprox.h:288-293`, with the default tolerances `approx_dev_max`, `approx_dev_avg`, `gbs/gbsconstants.h:105-107`. -/
def approxPoints (pts : List V) (p : ℕ) (mode : KnotsCalcMode) (fix : Bool) : R (Curve K V) := do
  let u ← curveParametrization o.eps (fun a b => o.nrm (a - b)) o.sqrt pts mode false
  approxRefined o.eps o.junk o.nrm o.frac o.dense pts u p fix (1 / 1000) (1 / 10000) approxMaxIter

/-- `approx(pts,p,n_poles,mode)`, `gbs/bscapprox.h:307-312`. -/
def approxPointsPoles (pts : List V) (p nPoles : ℕ) (mode : KnotsCalcMode) : R (Curve K V) := do
  let u ← curveParametrization o.eps (fun a b => o.nrm (a - b)) o.sqrt pts mode false
  approxUniform o.eps o.junk o.dense pts p nPoles u true

/-- `approx(crv,deviation,p,mode,np)`, `gbs/bscapprox.h:362-367`. -/
def approxCurve (knots : List K) (crv : ACurve K V) (dev : K) (p : ℕ) (mode : KnotsCalcMode) (np : ℕ) : R (Curve K V) := do
  let s ← sampleByDeviation o knots crv np dev
  approxPoints o s.1 p mode true

/-- `approx(crv,deviation,n_poles,p,mode)`, `gbs/bscapprox.h:380-390`. -/
def approxCurvePoles (knots : List K) (crv : ACurve K V) (dev : K) (nPoles p : ℕ) (mode : KnotsCalcMode) : R (Curve K V) := do
  if nPoles < p + 1 then .error (.thrown .length)
  else do
    let s ← sampleByDeviation o knots crv (nPoles * 10) dev
    approxPointsPoles o s.1 p nPoles mode

/-- `approx(crv,p,n_poles,k_flat,deviation,np,n_max_pts)`, `gbs/bscapprox.h:407-414`. -/
def approxCurveKnots (knots : List K) (crv : ACurve K V) (p nPoles : ℕ) (k : List K) (dev : K) (np nMax : ℕ) : R (Curve K V) := do
  let s ← discretizeWithParams o.nrm o.ncross dev (fun t => crv.value t 0) o.eps o.fuel knots crv.b0 crv.b1 np nMax
  approxBoundFixed o.eps o.junk o.dense s.1 p nPoles s.2 k

/-- `approx(crv,deviation,tol,p,np)`, `gbs/bscapprox.h:427-432`. -/
def approxCurveTol (knots : List K) (crv : ACurve K V) (dev tol : K) (p np : ℕ) : R (Curve K V) := do
  let s ← sampleByDeviation o knots crv np dev
  refineFromPoints o s.1 s.2 p (max (np / 3) (p + 1)) tol

/-- `approx(crv,deviation,tol,p,n_poles,np)`, `gbs/bscapprox.h:445-450`. -/
def approxCurveTolPoles (knots : List K) (crv : ACurve K V) (dev tol : K) (p nPoles np : ℕ) : R (Curve K V) := do
  let s ← sampleByDeviation o knots crv np dev
  refineFromPoints o s.1 s.2 p nPoles tol

/-- `approx(crv,u1,u2,deviation,tol,p,np)`, `gbs/bscapprox.h:465-472`. -/
def approxCurveBetween (knots : List K) (crv : ACurve K V) (_u1 _u2 dev tol : K) (p np : ℕ) : R (Curve K V) := do
  let s ← sampleByDeviation o knots crv np dev
  refineFromPoints o s.1 s.2 p (defaultNPoles p) tol

/-- `approx(crv,trf_func,deviation,tol,p,np)`, `gbs/bscapprox.h:474-493`. -/
def approxCurveMapped (knots : List K) (crv : ACurve K V) (trf : V → V) (dev tol : K) (p np : ℕ) : R (Curve K V) := do
  let s ← sampleByDeviation o knots crv np dev
  refineFromPoints o (s.1.map trf) s.2 p (defaultNPoles p) tol

/-- `approx(crv,p,np)`, `gbs/bscapprox.h:504-512`, with `uniform_distrib_params(crv,n)`, `gbs/bscanalysis.h:379-383`. -/
def approxCurveUniform (a : InterpArgs K) (len : K → K → R K) (crv : ACurve K V) (p np : ℕ) : R (Curve K V) := do
  let u ← uniformParams a len crv crv.b0 crv.b1 np 30
  let pts ← u.mapM fun t => crv.value t 0
  approxUniform o.eps o.junk o.dense pts p (defaultNPoles p) u true

/-- An object derived from `Curve`: a `BSCurve`, or another one with the knots it adds to its samples (those of a `BSCurveRational`). -/
inductive AnyCurve (K V : Type) where
  | bs (c : Curve K V)
  | other (knots : List K) (c : ACurve K V)

/-- `to_bs_curve`, `gbs/bsctools.h:55-67`. -/
def toBsCurve (crv : AnyCurve K V) (dev : K) (np deg : ℕ) (mode : KnotsCalcMode) : R (Curve K V) :=
  match crv with
  | .bs c => pure c
  | .other knots c => approxCurve o knots c dev deg mode np

end Gbs
