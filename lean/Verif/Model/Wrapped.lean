import Verif.Model.Transform
import Verif.Model.KnotInsertion

/-!
# Model of the curves and surfaces built on another curve or surface

`gbs/curveReversed.h`, `gbs/curvetrimmed.h`, `gbs/curveextended.h`, `gbs/curvecomposite.h`, `gbs/curvereparametrized.h`,
`gbs/curveonsurface.h`, `gbs/curveline.h`, `gbs/curvecircle.h`, `gbs/curveoffset.h`, `gbs/surfaceofrevolution.h`, and the curvilinear
derivatives of `gbs/bscurve.h:122-148`.

The base classes `Curve<T,dim>` and `Surface<T,dim>` are reduced to their virtual functions `bounds` and `value`. The pointers to the wrapped
objects are never null in the model.
-/

namespace Gbs

variable {K : Type} [Field K] [LinearOrder K]
variable {V : Type} [AddCommGroup V] [Module K V]

/-- The abstract class `Curve`, `gbs/bscurve.h:25-187`. -/
structure ACurve (K V : Type) where
  /-- `bounds()[0]` -/
  b0 : K
  /-- `bounds()[1]` -/
  b1 : K
  /-- `value(u,d)` -/
  value : K → ℕ → R V

/-- The abstract class `Surface`, `gbs/bssurf.h`. -/
structure ASurface (K V : Type) where
  u0 : K
  u1 : K
  v0 : K
  v1 : K
  /-- `value(u,v,du,dv)` -/
  value : K → K → ℕ → ℕ → R V

/-- A `BSCurve` as a `Curve`. -/
def Curve.toA (eps junk : K) (c : Curve K V) : ACurve K V := ⟨c.b0, c.b1, fun u d => c.value eps junk u d⟩

/-- `CurveReversed`, `gbs/curveReversed.h:39-53`. -/
def ACurve.reversed (c : ACurve K V) : ACurve K V where
  b0 := c.b0
  b1 := c.b1
  value u d := do
    let x ← c.value (c.b1 - (u - c.b0)) d
    pure ((if d % 2 = 0 then (1 : K) else -1) • x)

/-- `CurveTrimmed`, `gbs/curvetrimmed.h:13-25`. -/
def ACurve.trimmed (eps : K) (c : ACurve K V) (u1 u2 : K) : ACurve K V where
  b0 := u1
  b1 := u2
  value u d := if u < u1 - eps ∨ u2 + eps < u then .error (.thrown .outOfBoundsEval) else c.value u d

/-- The value beyond the bound `ub` when the extension is not clamped, `gbs/curveextended.h:78-102` and `112-136`. -/
def ACurve.tangentExt (c : ACurve K V) (ub u : K) (d : ℕ) : R V :=
  if d = 0 then do
    let x ← c.value ub 0
    let x' ← c.value ub 1
    pure (x + (u - ub) • x')
  else if d = 1 then c.value ub 1
  else pure 0

/-- `CurveExtended`, `gbs/curveextended.h:66-158`; `lo` and `hi` are `numeric_limits::lowest()` and `max()`. -/
def ACurve.extended (lo hi : K) (clamped : Bool) (c : ACurve K V) : ACurve K V where
  b0 := lo
  b1 := hi
  value u d :=
    if u < c.b0 then
      if clamped then c.value c.b0 d else c.tangentExt c.b0 u d
    else if c.b1 < u then
      if clamped then c.value c.b1 d else c.tangentExt c.b1 u d
    else c.value u d

/-- `CurveComposite`: the curves and the parameters `u_`. -/
structure Composite (K V : Type) where
  crv : List (ACurve K V)
  u : List K

/-- Constructor of `CurveComposite`, `gbs/curvecomposite.h:14-24`. `front()` of an empty list is undefined behaviour (the assertion
disappears from a release build). -/
def Composite.mk? (cs : List (ACurve K V)) : R (Composite K V) := do
  let c0 ← rd cs 0
  let u ← forLt 0 cs.length (fun i u => do
    let c ← rd cs i
    let ui ← rd u i
    wr u (i + 1) (ui + (c.b1 - c.b0))) (List.replicate (cs.length + 1) c0.b0)
  pure ⟨cs, u⟩

/-- Index of the curve, `gbs/curvecomposite.h:31-40`; an iterator before the beginning is undefined behaviour. -/
def compositeIdx (us : List K) (u : K) : R ℕ :=
  let pos := upperBound us u
  if pos = us.length then usub pos 2 else usub pos 1

/-- `CurveComposite::value`, `gbs/curvecomposite.h:29-44`. -/
def Composite.value (s : Composite K V) (u : K) (d : ℕ) : R V := do
  let i ← compositeIdx s.u u
  let c ← rd s.crv i
  let ui ← rd s.u i
  c.value (u - ui + c.b0) d

/-- `CurveComposite` as a `Curve`; bounds: `gbs/curvecomposite.h:25-28`. -/
def Composite.toA (s : Composite K V) : R (ACurve K V) := do
  let a ← rd s.u 0
  let l ← usub s.u.length 1
  let b ← rd s.u l
  pure ⟨a, b, s.value⟩

/-- `CurveReparametrized::value`, `gbs/curvereparametrized.h:21-44`; `f` is the `BSCfunction` (value and derivatives). -/
def ACurve.reparametrized (c : ACurve K V) (f : ACurve K K) : ACurve K V where
  b0 := f.b0
  b1 := f.b1
  value m d :=
    if d = 0 then do
      let t ← f.value m 0
      c.value t 0
    else if d = 1 then do
      let t ← f.value m 0
      let x ← c.value t 1
      let t1 ← f.value m 1
      pure (t1 • x)
    else if d = 2 then do
      let t ← f.value m 0
      let t1 ← f.value m 1
      let t2 ← f.value m 2
      let x1 ← c.value t 1
      let x2 ← c.value t 2
      pure (t2 • x1 + t1 • (t1 • x2))
    else .error (.thrown .runtime)

/-- `CurveOnSurface::value`, `gbs/curveonsurface.h:31-64`. -/
def ACurve.onSurface (c : ACurve K (Fin 2 → K)) (s : ASurface K V) : ACurve K V where
  b0 := c.b0
  b1 := c.b1
  value u d := do
    let p ← c.value u 0
    if d = 0 then s.value (p 0) (p 1) 0 0
    else if d = 1 then do
      let p1 ← c.value u 1
      let D1U ← s.value (p 0) (p 1) 1 0
      let D1V ← s.value (p 0) (p 1) 0 1
      pure (p1 0 • D1U + p1 1 • D1V)
    else if d = 2 then do
      let p1 ← c.value u 1
      let p2 ← c.value u 2
      let D1U ← s.value (p 0) (p 1) 1 0
      let D1V ← s.value (p 0) (p 1) 0 1
      let D2U ← s.value (p 0) (p 1) 2 0
      let D2V ← s.value (p 0) (p 1) 0 2
      let D2UV ← s.value (p 0) (p 1) 1 1
      let V2 := p2 0 • D1U + p2 0 • D1V + (2 * p1 0 * p1 1) • D2UV
      pure ((p1 0 * p1 0) • D2U + (p1 1 * p1 1) • D2V + V2)
    else .error (.thrown .runtime)

/-- `Line(p1,p2)`, `gbs/curveline.h:17` and `27-47`; `lo` and `hi` are `numeric_limits::min()` and `max()`. -/
def line (sqrt : K → K) (lo hi : K) {n : ℕ} (p1 p2 : Fin n → K) : R (ACurve K (Fin n → K)) := do
  let t ← vdiv (p2 - p1) (vnorm sqrt (p2 - p1))
  pure ⟨lo, hi, fun u d => pure (if d = 0 then p1 + u • t else if d = 1 then t else 0)⟩

/-- `Circle2d(r,C)`, `gbs/curvecircle.h:17-24`, `62` and `64-76`: the vector `x` is `(r,0)`. -/
def circle2d (cos sin : K → K) (pi r : K) (C : Fin 2 → K) : ACurve K (Fin 2 → K) where
  b0 := 0
  b1 := 2 * pi
  value u d :=
    let x := rotated2 cos sin (u + (d : K) * (1 / 2) * pi) ![r, 0]
    pure (if d = 0 then x + C else x)

/-- Index of the first least coordinate, `std::min_element` in `gbs/curvecircle.h:19`. -/
def minCoord3 (z : Fin 3 → K) : Fin 3 := if z 1 < z 0 then (if z 2 < z 1 then 2 else 1) else (if z 2 < z 0 then 2 else 0)

/-- `Circle3d::value`, `gbs/curvecircle.h:86-98`, with centre `C`, axis `z` and starting vector `x`. -/
def circleValue (sqrt cos sin : K → K) (pi : K) (C z x : Fin 3 → K) (u : K) (d : ℕ) : R (Fin 3 → K) := do
  let y ← rotated3 sqrt cos sin (u + (d : K) * (1 / 2) * pi) z x
  pure (if d = 0 then y + C else y)

/-- `Circle3d(r,ax2)`, `gbs/curvecircle.h:16`. -/
def circle3d (sqrt cos sin : K → K) (pi r : K) (F : Ax2 K) : R (ACurve K (Fin 3 → K)) := do
  let k ← fdiv r (vnorm sqrt F.x)
  pure ⟨0, 2 * pi, circleValue sqrt cos sin pi F.O F.z (k • F.x)⟩

/-- `Circle3d(r,ax1)`, `gbs/curvecircle.h:17-23`: the starting vector is along the axis of the least coordinate of `z`. -/
def circle3dAx1 (sqrt cos sin : K → K) (pi r : K) (C z : Fin 3 → K) : ACurve K (Fin 3 → K) :=
  ⟨0, 2 * pi, circleValue sqrt cos sin pi C z (fun i => if i = minCoord3 z then r else 0)⟩

/-- Scalar product, `gbs/vecop.ixx:120-129`. -/
def dotV {n : ℕ} (a b : Fin n → K) : K := ∑ i, a i * b i

/-- `d_dm`, `gbs/bscurve.h:122-126`. -/
def ACurve.dDm (sqrt : K → K) {n : ℕ} (c : ACurve K (Fin n → K)) (u : K) : R (Fin n → K) := do
  let x ← c.value u 1
  vdiv x (vnorm sqrt x)

/-- `d_dm2`, `gbs/bscurve.h:133-142`. -/
def ACurve.dDm2 {n : ℕ} (c : ACurve K (Fin n → K)) (u : K) : R (Fin n → K) := do
  let _ ← c.value u 0
  let x1 ← c.value u 1
  let x2 ← c.value u 2
  let N := sqNorm x1
  vdiv (N • x2 - dotV x1 x2 • x1) (N * N)

/-- `normal_direction` in the plane, `gbs/bscanalysis.h:606-614`. -/
def normal2 (sqrt : K → K) (tg : Fin 2 → K) : R (Fin 2 → K) :=
  let n : Fin 2 → K := ![-tg 1, tg 0]
  vdiv n (vnorm sqrt n)

/-- `CurveOffset2D::value`, `gbs/curveoffset.h:82-143`; `off` is the offset function and its derivatives. -/
def ACurve.offset2d (sqrt : K → K) (c : ACurve K (Fin 2 → K)) (off : K → ℕ → R K) : ACurve K (Fin 2 → K) where
  b0 := c.b0
  b1 := c.b1
  value u d :=
    if d = 0 then do
      let p ← c.value u 0
      let t ← c.value u 1
      let n ← normal2 sqrt t
      let o ← off u 0
      pure (p + o • n)
    else if d = 1 then do
      let d1 ← c.value u 1
      let d2 ← c.value u 2
      let r := sqNorm d1
      let s := sqrt r
      let dr := dotV ((2 : K) • d1) d2
      let o0 ← off u 0
      let o1 ← off u 1
      let a ← fdiv (o0 * d2 1) s
      let b ← fdiv (d1 1 * (o1 * r - 1 / 2 * o0 * dr)) (r * s)
      let a' ← fdiv (o0 * d2 0) s
      let b' ← fdiv (d1 0 * (o1 * r - 1 / 2 * o0 * dr)) (r * s)
      pure ![d1 0 - a - b, d1 1 + a' + b']
    else if d = 2 then do
      let d1 ← c.value u 1
      let d2 ← c.value u 2
      let d3 ← c.value u 3
      let o0 ← off u 0
      let o1 ← off u 1
      let o2 ← off u 2
      let r := sqNorm d1
      let s := sqrt r
      let dr := dotV ((2 : K) • d1) d2
      let d2r := 2 * (dotV d2 d2 + dotV d1 d3)
      if s = 0 ∨ r = 0 then .error .divZero
      else
        let x2 := d2 0
        let x2 := x2 - (o2 * d1 1 + 2 * o1 * d2 1 + o0 * d3 1) / s
        let x2 := x2 + (o1 * d1 1 * dr + o0 * d2 1 * dr + o0 * d1 1 * d2r / 2) / s / r
        let x2 := x2 - 3 / 4 * o0 * d1 1 * dr * dr / s / r / r
        let y2 := d2 1
        let y2 := y2 + (o2 * d1 0 + 2 * o1 * d2 0 + o0 * d3 0) / s
        let y2 := y2 - (o1 * d1 0 * dr + o0 * d2 0 * dr + o0 * d1 0 * d2r / 2) / s / r
        let y2 := y2 + 3 / 4 * o0 * d1 0 * dr * dr / s / r / r
        pure ![x2, y2]
    else .error (.thrown .runtime)

/-- `CurveOffset3D::value`, `gbs/curveoffset.h:180-240`; `dir` is the normalized direction. -/
def ACurve.offset3d (sqrt : K → K) (c : ACurve K (Fin 3 → K)) (off : K → ℕ → R K) (dir : Fin 3 → K) (u : K) (d : ℕ) : R (Fin 3 → K) :=
  if d = 0 then do
    let p ← c.value u 0
    let d1 ← c.value u 1
    let t ← adimV sqrt d1
    let n ← adimV sqrt (cross3 dir t)
    let o ← off u 0
    pure (p + o • n)
  else if d = 1 then do
    let d1 ← c.value u 1
    let d2 ← c.value u 2
    let t ← adimV sqrt d1
    let _ ← adimV sqrt (cross3 dir t)
    let k ← vdiv (cross3 d1 d2) (vnorm sqrt d1 ^ 3)
    let o ← off u 0
    let nd ← adimV sqrt (o • k)
    let o1 ← off u 1
    pure (d1 + o1 • nd)
  else if d = 2 then do
    let d1 ← c.value u 1
    let d2 ← c.value u 2
    let _ ← c.value u 3
    let t ← adimV sqrt d1
    let _ ← adimV sqrt (cross3 dir t)
    let k ← vdiv (cross3 d1 d2) (vnorm sqrt d1 ^ 3)
    let o ← off u 0
    let nd ← adimV sqrt (o • k)
    let d2t ← vdiv (d2 - dotV d2 t • t) (vnorm sqrt d1)
    let d2n := cross3 d2t dir + cross3 t (cross3 d2 dir)
    let o1 ← off u 1
    let o2 ← off u 2
    pure (d2 + o1 • d2n + o2 • nd)
  else .error (.thrown .runtime)

/-- `SurfaceOfRevolution`, `gbs/surfaceofrevolution.h:27-98`. -/
def revolution (sqrt cos sin : K → K) (fmod : K → K → K) (pi : K) (c : ACurve K (Fin 2 → K)) (F : Ax2 K) (a1 a2 : K) :
    R (ASurface K (Fin 3 → K)) := do
  let z ← vdiv F.z (vnorm sqrt F.z)
  let M ← trfMatrix2 sqrt ⟨0, ![0, 1, 0], ![0, 0, 1]⟩ F
  pure ⟨c.b0, c.b1, a1, a2, fun u v du dv => do
    let v := fmod v (2 * pi)
    let p2 ← c.value u du
    let p := transformed4 M ![p2 0, p2 1, 0]
    let p ← if dv = 0 then pure p
      else rotated3 sqrt cos sin (((dv : K) - 1) * pi / 2) z (cross3 z (if du = 0 then p - F.O else p))
    rotated3 sqrt cos sin v z p⟩

end Gbs
