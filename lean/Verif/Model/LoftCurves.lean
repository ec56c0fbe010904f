import Verif.Model.Loft
import Verif.Model.CurveApprox

/-!
# Model of the lofts of curves of any kind, `gbs/loft/loftCurves.h`

The sections are pointers to `Curve`; each is converted by `to_bs_curve`, with its default mode `CHORD_LENGTH`, and the results are lofted.
-/

namespace Gbs

variable {K : Type} [Field K] [LinearOrder K]
variable {V : Type} [AddCommGroup V] [Module K V]

/-- `get_bs_curves_info`, `gbs/bsctools.h:90-127`: the poles, the knots and the degrees; the bounds are not kept. -/
def bsCurvesInfo (l : List (Curve K V)) : List (CurveInfo K V) := l.map fun c => { poles := c.poles, knots := c.knots, deg := c.deg }

/-- The conversion of the sections, `gbs/loft/loftCurves.h:116-123`, `145-152`. -/
def convertSections (o : FitArgs K V) (l : List (AnyCurve K V)) (dev : K) (np deg : ℕ) : R (List (Curve K V)) :=
  l.mapM fun c => toBsCurve o c dev np deg .chordLength

/-- `loft(crv_lst,v_degree_max,dev,np,deg_approx)`, `gbs/loft/loftCurves.h:113-125`. -/
def loftCurves (o : FitArgs K V) (l : List (AnyCurve K V)) (qMax : ℕ) (dev : K) (np deg : ℕ) : R (Surface K V) := do
  let bs ← convertSections o l dev np deg
  loftGenericAuto o.eps o.junk (fun a b => o.nrm (a - b)) o.sqrt o.dense (bsCurvesInfo bs) qMax

/-- `loft(crv_lst,v,q,dev,np,deg_approx)`, `gbs/loft/loftCurves.h:142-154`. -/
def loftCurvesV (o : FitArgs K V) (l : List (AnyCurve K V)) (v : List K) (q : ℕ) (dev : K) (np deg : ℕ) : R (Surface K V) := do
  let bs ← convertSections o l dev np deg
  loftGenericV o.eps o.junk o.dense (bsCurvesInfo bs) v q

end Gbs
