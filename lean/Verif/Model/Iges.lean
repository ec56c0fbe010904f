import Verif.Model.Wrapped

/-!
# Export to IGES

The overloads of `add_geom`, `gbs-io/iges.h:7-107`: what is given to the entities 126 (curve), 128 (surface) and 120 (surface of revolution) of libIGES.
The pointers given to the library are the lists of the numbers stored from there to the end of the vector. The labels and the writing of the file are not
modelled. A surface of revolution has a B-Spline profile: other profiles are approximated first, which is not modelled.
-/

namespace Gbs

variable {K : Type} [Field K] [LinearOrder K]

/-- The arguments of `DLL_IGES_ENTITY_126::SetNURBSData`. -/
structure IgesCurve (K : Type) where
  n : ℕ
  order : ℕ
  knots : List K
  coeffs : List K
  rational : Bool
  u1 : K
  u2 : K

/-- The arguments of `DLL_IGES_ENTITY_128::SetNURBSData`, without the two flags of periodicity. -/
structure IgesSurface (K : Type) where
  nU : ℕ
  nV : ℕ
  orderU : ℕ
  orderV : ℕ
  knotsU : List K
  knotsV : List K
  coeffs : List K
  rational : Bool
  u1 : K
  u2 : K
  v1 : K
  v2 : K

/-- An entity 120 with its line 110 and its curve 126. -/
structure IgesRevolution (K : Type) where
  start : Fin 3 → K
  stop : Fin 3 → K
  generatrix : IgesCurve K
  a1 : K
  a2 : K

/-- `&poles.data()[0][0]`: the coordinates of points of dimension `d`, one after the other. -/
def flatPoles {d : ℕ} (P : List (Fin d → K)) : List K := P.flatMap List.ofFn

/-- The same with the weight after the coordinates. -/
def flatPolesRat {d : ℕ} (P : List ((Fin d → K) × K)) : List K := P.flatMap fun q => List.ofFn q.1 ++ [q.2]

/-- `add_geom` of a curve, `gbs-io/iges.h:10-25`. -/
def igesCurve {d : ℕ} (c : Curve K (Fin d → K)) : IgesCurve K :=
  ⟨c.poles.length, c.deg + 1, c.knots, flatPoles c.poles, false, c.b0, c.b1⟩

/-- `add_geom` of a rational curve, `gbs-io/iges.h:10-25`. -/
def igesCurveRat {d : ℕ} (c : Curve K ((Fin d → K) × K)) : IgesCurve K :=
  ⟨c.poles.length, c.deg + 1, c.knots, flatPolesRat c.poles, true, c.b0, c.b1⟩

/-- `add_geom` of a surface, `gbs-io/iges.h:27-45`. -/
def igesSurface {d : ℕ} (s : Surface K (Fin d → K)) : R (IgesSurface K) := do
  let nU ← s.nU
  let nV ← s.nV
  pure ⟨nU, nV, s.degU + 1, s.degV + 1, s.knotsU, s.knotsV, flatPoles s.poles, false, s.u0, s.u1, s.v0, s.v1⟩

/-- `add_geom` of a surface of revolution, `gbs-io/iges.h:47-107`, with the axis and the matrix of `gbs/surfaceofrevolution.h:28-40`. -/
def igesRevolution (sqrt : K → K) (eps : K) (c : Curve K (Fin 2 → K)) (F : Ax2 K) (a1 a2 : K) : R (IgesRevolution K) := do
  let z ← vdiv F.z (vnorm sqrt F.z)
  let M ← trfMatrix2 sqrt ⟨0, ![0, 1, 0], ![0, 0, 1]⟩ F
  let c3 ← Curve.mk? eps (c.poles.map fun p => transformed4 M ![p 0, p 1, 0]) c.knots c.deg
  pure ⟨F.O, F.O + z, igesCurve c3, a1, a2⟩

end Gbs
