import Verif.Model.Curve

/-!
# Model of reversal, change of bounds (`gbs/bscurve.h`) and derivative/integral curves (`gbs/bscbuild.h`)
-/

namespace Gbs

variable {K : Type} [Field K] [LinearOrder K]
variable {V : Type} [AddCommGroup V] [Module K V]

/-- `change_bounds`, `gbs/knotsfunctions.ixx:784-793`. `front()`/`back()` of an empty vector are out of range. -/
def changeBoundsK (k1 k2 : K) (U : List K) : R (List K) := do
  let l ← usub U.length 1
  let a ← rd U 0
  let b ← rd U l
  U.mapM (fun k => do
    let q ← fdiv ((k2 - k1) * (k - a)) (b - a)
    pure (k1 + q))

/-- `BSCurveGeneral::changeBounds`, `gbs/bscurve.h:554-558`; the overload on an array (`564-568`) does the same in
the other order. -/
def Curve.changeBounds (c : Curve K V) (k1 k2 : K) : R (Curve K V) := do
  let U ← changeBoundsK k1 k2 c.knots
  pure { c with knots := U, b0 := k1, b1 := k2 }

/-- `BSCurveGeneral::reverse`, `gbs/bscurve.h:509-520`. The bounds are left as they are. -/
def Curve.reverse (c : Curve K V) : R (Curve K V) := do
  let l ← usub c.knots.length 1
  let k1 ← rd c.knots 0
  let k2 ← rd c.knots l
  pure { c with poles := c.poles.reverse, knots := c.knots.reverse.map (fun k => k1 + k2 - k) }

/-- `BSCurveGeneral::reversed`, `gbs/bscurve.h:526-532`: the copy constructors of `BSCurve`/`BSCurveRational` from
a general curve go through the flat-knot constructor (`gbs/bscurve.h:584`, `616`), which resets the bounds to the
end knots. -/
def Curve.reversed (eps : K) (c : Curve K V) : R (Curve K V) := do
  let c' ← Curve.mk? eps c.poles c.knots c.deg
  c'.reverse

/-- `build_derivate`, `gbs/bscbuild.h:116-140`. `v / s` on points is `v * (1/s)`. For a degree 0 the last argument of
the constructor is `size_t(0) - 1`. -/
def buildDerivate (eps : K) (c : Curve K V) : R (Curve K V) := do
  let n ← usub c.poles.length 1
  let p := c.deg
  let Q ← forLt 0 n (fun i Q => do
    let P1 ← rd c.poles (i+1)
    let P0 ← rd c.poles i
    let kb ← rd c.knots (i+p+1)
    let ka ← rd c.knots (i+1)
    let s ← fdiv 1 (kb - ka)
    wr Q i (s • ((p : K) • (P1 - P0)))) (List.replicate n 0)
  let p1 ← usub p 1
  Curve.mk? eps Q ((c.knots.dropLast).drop 1) p1

/-- `build_integrate`, `gbs/bscbuild.h:152-168`. -/
def buildIntegrate (eps : K) (c : Curve K V) (P0 : V) : R (Curve K V) := do
  let n := c.poles.length + 1
  let p := c.deg + 1
  let l ← usub c.knots.length 1
  let f ← rd c.knots 0
  let b ← rd c.knots l
  let U := (f :: c.knots) ++ [b]
  let Q0 ← wr (List.replicate n (0 : V)) 0 P0
  let Q ← forLt 1 n (fun i Q => do
    let P ← rd c.poles (i-1)
    let kb ← rd U (p+i)
    let ka ← rd U i
    let s ← fdiv 1 (p : K)
    let q ← rd Q (i-1)
    wr Q i (s • ((kb - ka) • P) + q)) Q0
  Curve.mk? eps Q U p

end Gbs
