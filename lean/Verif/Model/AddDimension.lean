import Verif.Model.Surface

/-!
# Curves and surfaces with one more dimension

`add_dimension`, `gbs/transformpoints.h:17-24`, `gbs/bsctools.h:746-761`, `gbs/bsstools.h:93-108`. A point of dimension `dim + 1` is the pair of its first
coordinates and its last one. The same functions are used for rational curves and surfaces, whose poles are in homogeneous coordinates.
-/

namespace Gbs

variable {K : Type} [Field K] [LinearOrder K]
variable {V : Type} [AddCommGroup V] [Module K V]

/-- `add_dimension` of a point, `gbs/transformpoints.h:17-24`: the value is the last number of the array. -/
def addDimension (p : V) (val : K) : V × K := (p, val)

/-- `add_dimension` of a curve, `gbs/bsctools.h:746-761`. -/
def Curve.addDimension (eps : K) (c : Curve K V) (val : K) : R (Curve K (V × K)) :=
  Curve.mk? eps (c.poles.map fun p => Gbs.addDimension p val) c.knots c.deg

/-- `add_dimension` of a surface, `gbs/bsstools.h:93-108`. -/
def Surface.addDimension (eps : K) (s : Surface K V) (val : K) : R (Surface K (V × K)) :=
  Surface.mk? eps (s.poles.map fun p => Gbs.addDimension p val) s.knotsU s.knotsV s.degU s.degV

end Gbs
