import Verif.Model.Rational
import Verif.Model.Surface
import Mathlib.LinearAlgebra.Matrix.Notation
import Mathlib.Data.Matrix.Mul

/-!
# Model of the point transformations and of the elementary curve builders

`gbs/transformpoints.h`, `gbs/transform.h`, `gbs/bscbuild.h`, and the vector operations of `gbs/vecop.ixx` they use.

A point `std::array<T,dim>` is a function `Fin dim → K`. The square root, the sine and the cosine of the C++ library are parameters.
The functions that modify a point in place (`rotate(x,…)`, `translate(x,…)`, `transform(pt,…)`) return the new value of the point.
A division of coordinates by a null norm is the outcome `divZero` (IEEE arithmetic would give infinities or NaNs).
The `Matrix4` overloads of `transform` on curves and surfaces (`gbs/transform.h:73-84`) return nothing from their lambda and cannot be
instantiated, `translated` on homogeneous points (`gbs/transformpoints.h:50-56`) neither: they are not modelled.
-/

namespace Gbs

variable {K : Type} [Field K] [LinearOrder K]
variable {V : Type} [AddCommGroup V] [Module K V]

/-- `sq_norm`, `gbs/vecop.ixx:170-177`. -/
def sqNorm {n : ℕ} (x : Fin n → K) : K := ∑ i, x i * x i

/-- `norm`, `gbs/vecop.ixx:180-183`. -/
def vnorm (sqrt : K → K) {n : ℕ} (x : Fin n → K) : K := sqrt (sqNorm x)

/-- `cross` of vectors of the space, `gbs/vecop.ixx:81-88`. -/
def cross3 (a b : Fin 3 → K) : Fin 3 → K :=
  ![a 1 * b 2 - a 2 * b 1, a 2 * b 0 - a 0 * b 2, a 0 * b 1 - a 1 * b 0]

/-- `translate`/`translated`, `gbs/transformpoints.h:26-30`, `44-48`. -/
def translated (v x : V) : V := x + v

/-- `translate` of a homogeneous pole, `gbs/transformpoints.h:33-42`. -/
def translatedH (v : V) (x : V × K) : V × K := (x.1 + x.2 • v, x.2)

/-- `rotate(x,a)` in the plane, `gbs/transformpoints.h:58-66`. -/
def rotated2 (cos sin : K → K) (a : K) (x : Fin 2 → K) : Fin 2 → K :=
  let c := cos a
  let s := sin a
  let tmp := x 0
  let x0 := x 0 * c - x 1 * s
  ![x0, tmp * s + x 1 * c]

/-- `rotate(x,a,O)`, `gbs/transformpoints.h:68-74`. -/
def rotatedAbout (cos sin : K → K) (a : K) (O x : Fin 2 → K) : Fin 2 → K :=
  rotated2 cos sin a (x - O) + O

/-- `adim`, `gbs/vecop.ixx:265-276`. -/
def adimV (sqrt : K → K) {n : ℕ} (x : Fin n → K) : R (Fin n → K) := vdiv x (vnorm sqrt x)

/-- `rotate(x,a,ax)` about an axis through the origin, `gbs/transformpoints.h:92-104`. -/
def rotated3 (sqrt cos sin : K → K) (a : K) (ax x : Fin 3 → K) : R (Fin 3 → K) := do
  let n ← adimV sqrt ax
  let c := cos a
  let s := sin a
  pure ![x 0 * (n 0 * n 0 * (1 - c) + c) + x 1 * (n 0 * n 1 * (1 - c) - n 2 * s) + x 2 * (n 0 * n 2 * (1 - c) + n 1 * s),
    x 0 * (n 0 * n 1 * (1 - c) + n 2 * s) + x 1 * (n 1 * n 1 * (1 - c) + c) + x 2 * (n 1 * n 2 * (1 - c) - n 0 * s),
    x 0 * (n 0 * n 2 * (1 - c) - n 1 * s) + x 1 * (n 1 * n 2 * (1 - c) + n 0 * s) + x 2 * (n 2 * n 2 * (1 - c) + c)]

/-- `scaled(x,scale_factor,center)`, `gbs/transformpoints.h:114-118`. -/
def scaled (s : K) (center x : V) : V := s • (x - center) + center

/-- `scaled(x,scale_factor,coord,center)`, `gbs/transformpoints.h:126-138`; `coord` is not checked. -/
def scaledCoord {n : ℕ} (s : K) (coord : ℕ) (center x : Fin n → K) : R (Fin n → K) :=
  if h : coord < n then
    .ok (Function.update x ⟨coord, h⟩ ((x ⟨coord, h⟩ - center ⟨coord, h⟩) * s + center ⟨coord, h⟩))
  else .error .oob

/-- `ax2<T,3>`, `gbs/gbslib.h:32`: an origin, a main direction `R[1]` and a second direction `R[2]`. -/
structure Ax2 (K : Type) where
  /-- `R[0]` -/
  O : Fin 3 → K
  /-- `R[1]` -/
  z : Fin 3 → K
  /-- `R[2]` -/
  x : Fin 3 → K

/-- `build_trf_loc_and_matrix(R)`, `gbs/transformpoints.h:152-166`: the columns are `R[2]`, `cross(R[1],R[2])`, `R[1]`, normalized. -/
def trfLocMat (sqrt : K → K) (F : Ax2 K) : R ((Fin 3 → K) × Matrix (Fin 3) (Fin 3) K) := do
  let P1 ← vdiv F.x (vnorm sqrt F.x)
  let P3 ← vdiv F.z (vnorm sqrt F.z)
  let P2 := cross3 P3 P1
  pure (F.O, Matrix.of (fun i j => ![P1 i, P2 i, P3 i] j))

/-- `build_trf_matrix(O,P)`, `gbs/transformpoints.h:168-184`. -/
def trfMatrix (O : Fin 3 → K) (P : Matrix (Fin 3) (Fin 3) K) : Matrix (Fin 4) (Fin 4) K :=
  Matrix.of ![![P 0 0, P 0 1, P 0 2, O 0], ![P 1 0, P 1 1, P 1 2, O 1], ![P 2 0, P 2 1, P 2 2, O 2], ![0, 0, 0, 1]]

/-- `build_trf_matrix(R)`, `gbs/transformpoints.h:186-191`. -/
def trfMatrixOf (sqrt : K → K) (F : Ax2 K) : R (Matrix (Fin 4) (Fin 4) K) := do
  let (O, P) ← trfLocMat sqrt F
  pure (trfMatrix O P)

/-- `build_trf_loc_and_matrix(R_from,R_to)`, `gbs/transformpoints.h:193-203`. -/
def trfLocMat2 (sqrt : K → K) (F T : Ax2 K) : R ((Fin 3 → K) × Matrix (Fin 3) (Fin 3) K) := do
  let (LT, PT) ← trfLocMat sqrt T
  let (LF, PF) ← trfLocMat sqrt F
  pure (LT - PT.mulVec LF, PT * PF)

/-- `build_trf_matrix(R_from,R_to)`, `gbs/transformpoints.h:205-210`. -/
def trfMatrix2 (sqrt : K → K) (F T : Ax2 K) : R (Matrix (Fin 4) (Fin 4) K) := do
  let (O, P) ← trfLocMat2 sqrt F T
  pure (trfMatrix O P)

/-- `transformed(pt,Loc,M)`, `gbs/transformpoints.h:212-232`. -/
def transformed (Loc : Fin 3 → K) (M : Matrix (Fin 3) (Fin 3) K) (x : Fin 3 → K) : Fin 3 → K := M.mulVec x + Loc

/-- `transformed(pt,M)`, `gbs/transformpoints.h:234-254`. -/
def transformed4 (M : Matrix (Fin 4) (Fin 4) K) (x : Fin 3 → K) : Fin 3 → K :=
  let P := M.mulVec ![x 0, x 1, x 2, 1]
  ![P 0, P 1, P 2]

/-- `movePoles`, `gbs/bscurve.h:454-461`. -/
def Curve.movePoles {M : Type} (c : Curve K M) (P : List M) : R (Curve K M) :=
  if P.length ≠ c.poles.length then .error (.thrown .length) else .ok { c with poles := P }

/-- `transform(BSCurve,trf)`, `gbs/transform.h:11-22`. The poles are transformed independently of one another. -/
def Curve.transform {M : Type} (trf : M → R M) (c : Curve K M) : R (Curve K M) := do
  let P ← c.poles.mapM trf
  c.movePoles P

/-- `transform(BSCurveRational,trf)`, `gbs/transform.h:24-40`. -/
def Curve.transformRat (trf : V → R V) (c : Curve K (V × K)) : R (Curve K (V × K)) := do
  let pw := separateWeights c.poles
  let P ← pw.1.mapM trf
  let Q ← addWeightsCoord P pw.2
  c.movePoles Q

/-- `movePoles` of a surface, `gbs/bssurf.h:797-804`. -/
def Surface.movePoles {M : Type} (s : Surface K M) (P : List M) : R (Surface K M) :=
  if P.length ≠ s.poles.length then .error (.thrown .length) else .ok { s with poles := P }

/-- `transform(BSSurface,trf)`, `gbs/transform.h:42-53`. -/
def Surface.transform {M : Type} (trf : M → R M) (s : Surface K M) : R (Surface K M) := do
  let P ← s.poles.mapM trf
  s.movePoles P

/-- `transform(BSSurfaceRational,trf)`, `gbs/transform.h:55-71`. -/
def Surface.transformRat (trf : V → R V) (s : Surface K (V × K)) : R (Surface K (V × K)) := do
  let pw := separateWeights s.poles
  let P ← pw.1.mapM trf
  let Q ← addWeightsCoord P pw.2
  s.movePoles Q

/-- `build_segment`, `gbs/bscbuild.h:22-31`. -/
def buildSegment (eps : K) (sqrt : K → K) {n : ℕ} (p1 p2 : Fin n → K) (normalized : Bool) : R (Curve K (Fin n → K)) :=
  let u2 := if normalized then 1 else vnorm sqrt (p2 - p1)
  Curve.mk? eps [p1, p2] [0, 0, u2, u2] 1

/-- The pole `{x, y, 0, …, 0, w}` of `gbs/bscbuild.h:48-78`. -/
def ellPole {n : ℕ} (x y w : K) : (Fin (n + 2) → K) × K := (fun i => if i = 0 then x else if i = 1 then y else 0, w)

/-- `build_ellipse` in dimension `n + 2`, `gbs/bscbuild.h:42-91`. -/
def buildEllipse (eps : K) (sqrt : K → K) {n : ℕ} (r1 r2 : K) (center : Fin (n + 2) → K) : R (Curve K ((Fin (n + 2) → K) × K)) :=
  let wi := sqrt 2 / 2
  let poles := [ellPole r1 0 1, ellPole (wi * r1) (wi * r2) wi, ellPole 0 r2 1, ellPole (-wi * r1) (wi * r2) wi, ellPole (-r1) 0 1,
    ellPole (-wi * r1) (-wi * r2) wi, ellPole 0 (-r2) 1, ellPole (wi * r1) (-wi * r2) wi, ellPole r1 0 1]
  Curve.mk? eps (poles.map (translatedH center)) [0, 0, 0, 1/4, 1/4, 1/2, 1/2, 3/4, 3/4, 1, 1, 1] 2

/-- `build_circle`, `gbs/bscbuild.h:101-105`. -/
def buildCircle (eps : K) (sqrt : K → K) {n : ℕ} (r : K) (center : Fin (n + 2) → K) : R (Curve K ((Fin (n + 2) → K) × K)) :=
  buildEllipse eps sqrt r r center

end Gbs
