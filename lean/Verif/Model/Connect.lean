import Verif.Model.Interp
import Verif.Model.Rational

/-!
# Connections of two curves

`cn_connect`, `c2_connect` and `c3_connect`, `gbs/bsctools.h:468-730`. A `Curve<T,dim>` is used through its bounds and its evaluation only
(`CrvFn`). `norm` is the norm of vectors, `distance(a,b)` is `norm (a - b)`. `std::numbers::pi` is the parameter `pi`. The solvers are
the parameters of the interpolations.
-/

namespace Gbs

variable {K : Type} [Field K] [LinearOrder K]
variable {V : Type} [AddCommGroup V] [Module K V]

/-- What is used of a `Curve<T,dim>`: `bounds()` and `value(u,d)`. -/
structure CrvFn (K V : Type) where
  b0 : K
  b1 : K
  val : K → ℕ → R V

/-- The numbers the interpolations take besides their data. -/
structure ConnNum (K V : Type) where
  eps : K
  meps : K
  growth : K
  junk : K
  x0 : V
  norm : V → K
  pi : K
  sparse : ℕ → List (ℕ × ℕ × K) → List V → R (List V)
  dense : ℕ → (ℕ → ℕ → K) → List V → R (List V)
  srt : List (Constr K V) → List (Constr K V)

variable (o : ConnNum K V)

/-- `interpolate(Q, CHORD_LENGTH)` for `nc` constraints at each point, `gbs/bscinterp.h:586-594`; `get_constrain(Q,0)` takes the points. -/
def interpolateChord (nc : ℕ) (Q : List (List V)) : R (Curve K V) := do
  let pts ← Q.mapM (fun q => rd q 0)
  let u ← curveParametrization o.eps (fun a b => o.norm (a - b)) id pts .chordLength false
  interpolateNc o.eps o.meps o.growth o.junk o.x0 o.sparse nc Q u

/-- `c2_connect(crv1,crv2)`, `gbs/bsctools.h:468-481`. -/
def c2Connect (f g : CrvFn K V) : R (Curve K V) := do
  let p1 ← f.val f.b1 0
  let t1 ← f.val f.b1 1
  let c1 ← f.val f.b1 2
  let p2 ← g.val g.b0 0
  let t2 ← g.val g.b0 1
  let c2 ← g.val g.b0 2
  interpolateChord o 3 [[p1, t1, c1], [p2, t2, c2]]

/-- `c2_connect(crv1,crv2,t1,t2)`, `gbs/bsctools.h:505-519`: the third derivatives are multiplied by `t1`, `t2`. -/
def c2ConnectScaled (f g : CrvFn K V) (s1 s2 : K) : R (Curve K V) := do
  let p1 ← f.val f.b1 0
  let t1 ← f.val f.b1 1
  let c1 ← f.val f.b1 2
  let d1 ← f.val f.b1 3
  let p2 ← g.val g.b0 0
  let t2 ← g.val g.b0 1
  let c2 ← g.val g.b0 2
  let d2 ← g.val g.b0 3
  interpolateChord o 4 [[p1, t1, c1, s1 • d1], [p2, t2, c2, s2 • d2]]

/-- `c3_connect(crv1,crv2)`, `gbs/bsctools.h:659-672`. -/
def c3Connect (f g : CrvFn K V) : R (Curve K V) := do
  let p1 ← f.val f.b1 0
  let t1 ← f.val f.b1 1
  let c1 ← f.val f.b1 2
  let d1 ← f.val f.b1 3
  let p2 ← g.val g.b0 0
  let t2 ← g.val g.b0 1
  let c2 ← g.val g.b0 2
  let d2 ← g.val g.b0 3
  interpolateChord o 4 [[p1, t1, c1, d1], [p2, t2, c2, d2]]

/-- The loop of `cn_connect` that fills the constraints, `gbs/bsctools.h:495-499`. -/
def cnConstraints (f g : CrvFn K V) (du : K) (n : ℕ) : R (List (Constr K V)) :=
  forLe 1 n (fun i cs => do
    let a ← f.val f.b1 i
    let b ← g.val g.b0 i
    pure (cs ++ [⟨0, i, a⟩] ++ [⟨du, i, b⟩])) []

/-- `cn_connect`, `gbs/bsctools.h:483-502`. -/
def cnConnect (f g : CrvFn K V) (du : K) (p n : ℕ) : R (Curve K V) := do
  let p1 ← f.val f.b1 0
  let p2 ← g.val g.b0 0
  let cs ← cnConstraints f g du n
  interpolateBounds o.eps o.junk o.dense (0, p1) (du, p2) cs (min p (2 * n + 1))

/-- The two constraints added at the middle parameter, `gbs/bsctools.h:557-563`, `712-718`: the tangent and the second derivative of the first
interpolation there, brought to the lengths `0.5 d` and `0.5 d e`. -/
def midConstraints (c : Curve K V) (um d e : K) : R (List (Constr K V)) := do
  let cr ← c.value o.eps o.junk um 2
  let cr ← vdiv cr (o.norm cr)
  let tg ← c.value o.eps o.junk um 1
  let tg ← vdiv tg (o.norm tg)
  pure [⟨um, 1, ((1/2) * d) • tg⟩, ⟨um, 2, ((1/2) * d * e) • cr⟩]

/-- `c2_connect` of points, tangents and second derivatives in the plane, `gbs/bsctools.h:522-577`. -/
def c2Ellipse (p1 p2 t1 t2 c1 c2 : V) (e : K) : R (Curve K V) := do
  let d := o.norm (p1 - p2)
  let u2 := o.pi * d * (1/2)
  let cs : List (Constr K V) := [⟨0, 1, t1⟩, ⟨0, 2, c1⟩, ⟨u2, 1, t2⟩, ⟨u2, 2, c2⟩]
  let c ← interpolateBounds o.eps o.junk o.dense (0, p1) (u2, p2) cs 3
  let ms ← midConstraints o c ((1/2) * (0 + u2)) d e
  interpolateBounds o.eps o.junk o.dense (0, p1) (u2, p2) (cs ++ ms) 4

/-- `c2_connect(crv1,crv2,e)` in the plane, `gbs/bsctools.h:588-603`; `end(d)` and `begin(d)` evaluate at the bounds. -/
def c2ConnectE (f g : CrvFn K V) (e : K) : R (Curve K V) := do
  let p1 ← f.val f.b1 0
  let p2 ← g.val g.b0 0
  let t1 ← f.val f.b1 1
  let t2 ← g.val g.b0 1
  let c1 ← f.val f.b1 2
  let c2 ← g.val g.b0 2
  c2Ellipse o p1 p2 t1 t2 c1 c2 e

/-- `c2_connect(crv1,crv2,u1,u2,side1,side2,e)`, `gbs/bsctools.h:605-624`. -/
def c2ConnectAt (f g : CrvFn K V) (u1 u2 : K) (side1 side2 : Bool) (e : K) : R (Curve K V) := do
  let s1 : K := if side1 then 1 else -1
  let s2 : K := if side2 then 1 else -1
  let p1 ← f.val u1 0
  let p2 ← g.val u2 0
  let t1 ← f.val u1 1
  let t2 ← g.val u2 1
  let c1 ← f.val u1 2
  let c2 ← g.val u2 2
  c2Ellipse o p1 p2 (s1 • t1) (s2 • t2) (s1 • c1) (s2 • c2) e

/-- The flat knots of the connection through a point, `gbs/bsctools.h:653`. -/
def throughKnots (d : K) : List K := [0, 0, 0, 0, (1/4) * d, (1/2) * d, (3/4) * d, d, d, d, d]

/-- `c2_connect(crv1,crv2,e)` out of the plane, `gbs/bsctools.h:626-657`: through a point at the distance `e d` of the middle of the gap. The
parametrization of line 641 is not used and left out. -/
def c2ConnectThrough (f g : CrvFn K V) (e : K) : R (Curve K V) := do
  let p1 ← f.val f.b1 0
  let p2 ← g.val g.b0 0
  let t1 ← f.val f.b1 1
  let t2 ← g.val g.b0 1
  let t ← vdiv (t1 - t2) (o.norm (t1 - t2))
  let d := o.norm (p1 - p2)
  let p := (1/2 : K) • (p1 + p2) + (e * d) • t
  let c1 ← f.val f.b1 2
  let c2 ← g.val g.b0 2
  let Q : List (Constr K V) := [⟨0, 0, p1⟩, ⟨0, 1, t1⟩, ⟨0, 2, c1⟩, ⟨(1/2) * d, 0, p⟩, ⟨d, 0, p2⟩, ⟨d, 1, t2⟩, ⟨d, 2, c2⟩]
  let P ← buildPolesConstr o.eps o.meps o.growth o.junk o.x0 o.srt o.dense Q (throughKnots d) 3
  Curve.mk? o.eps P (throughKnots d) 3

/-- `c3_connect(crv1,crv2,e)`, `gbs/bsctools.h:684-730`; instantiable in the plane only, its result being a `BSCurve<T,2>`. -/
def c3ConnectE (f g : CrvFn K V) (e : K) : R (Curve K V) := do
  let p1 ← f.val f.b1 0
  let p2 ← g.val g.b0 0
  let t1 ← f.val f.b1 1
  let t2 ← g.val g.b0 1
  let c1 ← f.val f.b1 2
  let c2 ← g.val g.b0 2
  let d1 ← f.val f.b1 3
  let d2 ← g.val g.b0 3
  let d := o.norm (p1 - p2)
  let u2 := o.pi * d * (1/2)
  let cs : List (Constr K V) := [⟨0, 1, t1⟩, ⟨0, 2, c1⟩, ⟨u2, 1, t2⟩, ⟨u2, 2, c2⟩, ⟨u2, 3, d2⟩, ⟨0, 3, d1⟩]
  let c ← interpolateBounds o.eps o.junk o.dense (0, p1) (u2, p2) cs 5
  let ms ← midConstraints o c ((1/2) * (0 + u2)) d e
  interpolateBounds o.eps o.junk o.dense (0, p1) (u2, p2) (cs ++ ms) 4

end Gbs
