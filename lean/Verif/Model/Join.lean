import Verif.Model.Degree
import Verif.Model.Rational
import Verif.Model.Reparam

/-!
# Model of the junction of two curves, `gbs/bsctools.h:274-296`, `406-457`

The curves are given with the bounds they had; the copies made on entry go through the flat-knot constructor, which resets them to the end knots.
The template on the rationality of both arguments is one function for two polynomial curves, one for two rational ones, and the conversion
`Curve.toRational` for the mixed cases.
-/

namespace Gbs

variable {K : Type} [Field K] [LinearOrder K]
variable {V : Type} [AddCommGroup V] [Module K V]

/-- `BSCurve(const BSCurveGeneral &)`, `BSCurveRational(const BSCurveGeneral &)`, `gbs/bscurve.h:589`, `624`. -/
def Curve.copied (eps : K) (c : Curve K V) : R (Curve K V) := Curve.mk? eps c.poles c.knots c.deg

/-- `BSCurveRational(const BSCurve &)`, `gbs/bscurve.h:637-638`. -/
def Curve.toRational (eps : K) (c : Curve K V) : R (Curve K (V × K)) := Curve.mk? eps (addUnitWeights c.poles) c.knots c.deg

/-- `unify_curves_degree` on a list of two curves, `gbs/bsctools.h:274-291`. -/
def unifyTwo (eps : K) (c1 c2 : Curve K V) : R (Curve K V × Curve K V) := do
  let q := max c1.deg c2.deg
  let a ← c1.increaseDegree eps (q - c1.deg)
  let b ← c2.increaseDegree eps (q - c2.deg)
  pure (a, b)

/-- The poles of the joined curve, `gbs/bsctools.h:434-438`. `back()`/`front()` of an empty vector are out of range. -/
def joinPoles (P1 P2 : List V) : R (List V) := do
  let l ← usub P1.length 1
  let x ← rd P1 l
  let y ← rd P2 0
  let P1 ← wr P1 l ((2 : K)⁻¹ • (x + y))
  pure (P1 ++ P2.drop 1)

/-- The poles of the joined rational curve, `gbs/bsctools.h:426-431`, `438`. -/
def joinPolesRat (P1 P2 : List (V × K)) : R (List (V × K)) := do
  let l ← usub P1.length 1
  let x ← rd P1 l
  let s ← fdiv 1 x.2
  let P1 := scalePoles P1 s
  let y ← rd P2 0
  let s ← fdiv 1 y.2
  let P2 := scalePoles P2 s
  let x ← rd P1 l
  let y ← rd P2 0
  let pt := (2 : K)⁻¹ • (weightProjection x + weightProjection y)
  let P1 ← wr P1 l (addWeight pt x.2)
  pure (P1 ++ P2.drop 1)

/-- The knots of the joined curve, `gbs/bsctools.h:440-454`. -/
def joinKnots (U1 U2 : List K) (p2 : ℕ) : R (List K) := do
  let l ← usub U1.length 1
  let e ← rd U1 l
  let s ← rd U2 0
  let U2 := U2.map (fun k => k + e - s)
  if U2.length < p2 + 1 then .error .oob
  else pure (U1.dropLast ++ U2.drop (p2 + 1))

/-- `join` of two polynomial curves, `gbs/bsctools.h:406-457`. -/
def joinCurves (eps : K) (c1 c2 : Curve K V) : R (Curve K V) := do
  let a ← c1.copied eps
  let b ← c2.copied eps
  let r ← unifyTwo eps a b
  let P ← joinPoles (K := K) r.1.poles r.2.poles
  let U ← joinKnots r.1.knots r.2.knots r.2.deg
  Curve.mk? eps P U r.1.deg

/-- `join` of two rational curves, `gbs/bsctools.h:406-457`. -/
def joinCurvesRat (eps : K) (c1 c2 : Curve K (V × K)) : R (Curve K (V × K)) := do
  let a ← c1.copied eps
  let b ← c2.copied eps
  let r ← unifyTwo eps a b
  let P ← joinPolesRat r.1.poles r.2.poles
  let U ← joinKnots r.1.knots r.2.knots r.2.deg
  Curve.mk? eps P U r.1.deg

/-- `join` of a polynomial curve and a rational one, `gbs/bsctools.h:406-457`. -/
def joinCurvesPR (eps : K) (c1 : Curve K V) (c2 : Curve K (V × K)) : R (Curve K (V × K)) := do
  let a ← c1.toRational eps
  joinCurvesRat eps a c2

/-- `join` of a rational curve and a polynomial one, `gbs/bsctools.h:406-457`. -/
def joinCurvesRP (eps : K) (c1 : Curve K (V × K)) (c2 : Curve K V) : R (Curve K (V × K)) := do
  let b ← c2.toRational eps
  joinCurvesRat eps c1 b

end Gbs
