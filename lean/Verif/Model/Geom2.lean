import Verif.Model.Basic
import Mathlib.Algebra.BigOperators.Fin
import Mathlib.Data.Fin.VecNotation
import Mathlib.Algebra.Order.Field.Basic

/-!
# Planar predicates

`inc/topology/baseGeom.h`, `inc/topology/baseIntersection.h` and the point in polygon test of `inc/topology/halfEdgeMeshGeomTests.h`. Points
are pairs, the arithmetic is exact; a division by zero, which gives an infinity or a NaN in C++, is the error `divZero`.
-/

open scoped BigOperators

namespace Gbs

variable {K : Type} [Field K] [LinearOrder K]

/-- `orient_2d`, `inc/topology/baseGeom.h:9-33`. The exact-sign `orient2d` of `inc/topology/robustPredicates.h`, modelled in
`Verif/Model/Predicates.lean`, has the sign of this value: `C74_orient2d_sign` and `C74_orient2d_double`. -/
def orient2d (a b c : K × K) : K := (a.1 - c.1) * (b.2 - c.2) - (a.2 - c.2) * (b.1 - c.1)

/-- `are_ccw`, `inc/topology/baseGeom.h:43-50`. -/
def areCcw (a b c : K × K) : Bool := decide (0 ≤ orient2d a b c)

/-- `tri_area` in the plane, `inc/topology/baseGeom.h:77-86`. -/
def triArea (a b c : K × K) : K := 1 / 2 * |(b.1 - a.1) * (c.2 - a.2) - (b.2 - a.2) * (c.1 - a.1)|

/-- `getCoordsMinMax` in the plane, `inc/topology/baseGeom.h:88-104`; `front()` of an empty list is undefined. -/
def coordsMinMax : List (K × K) → R ((K × K) × (K × K))
  | [] => .error .oob
  | x :: l => .ok ((x :: l).foldl (fun m p => ((min m.1.1 p.1, min m.1.2 p.2), (max m.2.1 p.1, max m.2.2 p.2))) (x, x))

/-- `circle_center`, `inc/topology/baseGeom.h:120-139`; `none` stands for the NaN point. -/
def circleCenter (eps : K) (a b c : K × K) : R (Option (K × K)) := do
  let A := b.1 - a.1
  let B := b.2 - a.2
  let C := c.1 - a.1
  let D := c.2 - a.2
  let E := A * (a.1 + b.1) + B * (a.2 + b.2)
  let F := C * (a.1 + c.1) + D * (a.2 + c.2)
  let G := 2 * (A * (c.2 - b.2) - B * (c.1 - b.1))
  if |G| < eps then pure none
  else
    let x ← fdiv (D * E - B * F) G
    let y ← fdiv (A * F - C * E) G
    pure (some (x, y))

/-- `computeUV`, `inc/topology/baseGeom.h:233-267`. -/
def computeUV (eps : K) {n : ℕ} (a b c p : Fin n → K) : R (K × K) := do
  let ab := fun i => a i - b i
  let ac := fun i => a i - c i
  let ap := fun i => a i - p i
  let abab := ∑ i, ab i * ab i
  let abac := ∑ i, ab i * ac i
  let acac := ∑ i, ac i * ac i
  let abap := ∑ i, ab i * ap i
  let acap := ∑ i, ac i * ap i
  let det := abab * acac - abac * abac
  if |det| < eps then .error (.thrown .runtime)
  else
    let u ← fdiv (acac * abap - abac * acap) det
    let v ← fdiv (abab * acap - abac * abap) det
    pure (u, v)

/-- `sphere_center`, `inc/topology/baseGeom.h:157-180`; `none` stands for the NaN point. -/
def sphereCenter (eps : K) (a b c : Fin 3 → K) : R (Option (Fin 3 → K)) := do
  let A := b 0 - a 0
  let B := b 1 - a 1
  let C := b 2 - a 2
  let D := c 0 - a 0
  let E := c 1 - a 1
  let F := c 2 - a 2
  let G := A * (E * F - B * F) + B * (D * F - C * F) + C * (B * D - E * D)
  let H := (A * A + B * B + C * C) * (E * F - D * F) + (D * D + E * E + F * F) * (B * F - C * E) + (A * A + C * C + B * B) * (D * E - B * C)
  if |G| < eps then pure none
  else
    let x ← fdiv H (2 * G)
    let y ← fdiv ((A * A + B * B + C * C) * (D * F - E * F) + (D * D + E * E + F * F) * (C * A - D * B) +
      (A * A + C * C + B * B) * (E * D - C * B)) (2 * G)
    let z ← fdiv ((A * A + B * B + C * C) * (B * E - C * D) + (D * D + E * E + F * F) * (A * C - B * B) +
      (A * A + C * C + B * B) * (B * D - A * E)) (2 * G)
    pure (some ![x, y, z])

/-- The lambda `sign` of `in_triangle`, `inc/topology/baseIntersection.h:29-31`. -/
def triSign (p1 p2 p3 : K × K) : K := (p1.1 - p3.1) * (p2.2 - p3.2) - (p2.1 - p3.1) * (p1.2 - p3.2)

/-- `in_triangle`, `inc/topology/baseIntersection.h:21-44`. -/
def inTriangle (a b c d : K × K) : Bool :=
  let d1 := triSign d a b
  let d2 := triSign d b c
  let d3 := triSign d c a
  let hasNeg := decide (d1 < 0) || decide (d2 < 0) || decide (d3 < 0)
  let hasPos := decide (0 < d1) || decide (0 < d2) || decide (0 < d3)
  !(hasNeg && hasPos)

/-- `triangle_barycentric_coordinates`, `inc/topology/baseIntersection.h:55-84`. -/
def triBary (a b c d : K × K) : R (K × K) := do
  let v0 : K × K := (c.1 - a.1, c.2 - a.2)
  let v1 : K × K := (b.1 - a.1, b.2 - a.2)
  let v2 : K × K := (d.1 - a.1, d.2 - a.2)
  let dot00 := v0.1 * v0.1 + v0.2 * v0.2
  let dot01 := v0.1 * v1.1 + v0.2 * v1.2
  let dot02 := v0.1 * v2.1 + v0.2 * v2.2
  let dot11 := v1.1 * v1.1 + v1.2 * v1.2
  let dot12 := v1.1 * v2.1 + v1.2 * v2.2
  let denom := dot00 * dot11 - dot01 * dot01
  let inv ← fdiv 1 denom
  pure ((dot11 * dot02 - dot01 * dot12) * inv, (dot00 * dot12 - dot01 * dot02) * inv)

/-- `in_triangle_barycentric`, `inc/topology/baseIntersection.h:94-110`. -/
def inTriangleBary (a b c d : K × K) : R Bool :=
  if d = a ∨ d = b ∨ d = c then pure true
  else do
    let (u, v) ← triBary a b c d
    pure (decide (0 ≤ u) && decide (0 ≤ v) && decide (u + v ≤ 1))

/-- `in_circle`, `inc/topology/baseIntersection.h:125-166`. -/
def inCircle (a b c d : K × K) : K :=
  let A := a.1 - d.1
  let B := a.2 - d.2
  let C := A * A + B * B
  let D := b.1 - d.1
  let E := b.2 - d.2
  let F := D * D + E * E
  let G := c.1 - d.1
  let H := c.2 - d.2
  let I := G * G + H * H
  A * E * I + D * H * C + B * F * G - (G * E * C + D * B * I + A * H * F)

/-- `seg_seg_strict_intersection`, `inc/topology/baseIntersection.h:178-206`. -/
def segSegStrict (tol : K) (a b c d : K × K) : R Bool :=
  let s1x := b.1 - a.1
  let s1y := b.2 - a.2
  let s2x := d.1 - c.1
  let s2y := d.2 - c.2
  let delta := -s2x * s1y + s1x * s2y
  if |delta| < tol ∨ (|s1x| < tol ∧ |s1y| < tol) ∨ (|s2x| < tol ∧ |s2y| < tol) then pure false
  else do
    let s ← fdiv (-s1y * (a.1 - c.1) + s1x * (a.2 - c.2)) delta
    let t ← fdiv (s2x * (a.2 - c.2) - s2y * (a.1 - c.1)) delta
    pure (decide (tol < s) && decide (s < 1 - tol) && decide (tol < t) && decide (t < 1 - tol))

/-- `on_segment`, `inc/topology/baseIntersection.h:208-237`. For `a = b` the quotient is a NaN or an infinity, which the comparisons of the
last line reject; here the quotient is not formed. -/
def onSegment (tol : K) (a b p : K × K) : Bool :=
  let cross := (b.1 - a.1) * (p.2 - a.2) - (p.1 - a.1) * (b.2 - a.2)
  if tol < |cross| then false
  else if a = b then false
  else
    let t := if |b.2 - a.2| ≤ |b.1 - a.1| then (p.1 - a.1) / (b.1 - a.1) else (p.2 - a.2) / (b.2 - a.2)
    decide (0 ≤ t) && decide (t ≤ 1)

/-- `seg_D_strict_end_intersection`, `inc/topology/baseIntersection.h:239-277`: the segment from `a` to `b` and the half-line from `c` along
`D`. -/
def segDStrict (tol : K) (a b c D : K × K) : R Bool :=
  let s1x := b.1 - a.1
  let s1y := b.2 - a.2
  let delta := -D.1 * s1y + s1x * D.2
  if |delta| < tol ∨ (|s1x| < tol ∧ |s1y| < tol) then pure false
  else do
    let s ← fdiv (-s1y * (a.1 - c.1) + s1x * (a.2 - c.2)) delta
    let t ← fdiv (D.1 * (a.2 - c.2) - D.2 * (a.1 - c.1)) delta
    pure (decide (0 < s) && decide (0 ≤ t) && decide (t < 1))

/-- One edge of the ray cast of `is_inside`, `inc/topology/halfEdgeMeshGeomTests.h:101-112`. -/
def rayCrosses (xy a b : K × K) : Bool :=
  let aAbove := decide (xy.2 < a.2)
  let bAbove := decide (xy.2 < b.2)
  if aAbove ≠ bAbove then decide (xy.1 < a.1 + (xy.2 - a.2) * (b.1 - a.1) / (b.2 - a.2)) else false

/-- `is_inside`, `inc/topology/halfEdgeMeshGeomTests.h:77-116`, on the list of the end points of the half-edges. -/
def isInside (tol : K) (xy : K × K) : Bool → List ((K × K) × (K × K)) → Bool
  | inside, [] => inside
  | inside, (a, b) :: l => if onSegment tol a b xy then true else isInside tol xy (if rayCrosses xy a b then !inside else inside) l

/-- `are_edges_2d_ccw`, `inc/topology/halfEdgeMeshGeomTests.h:176-214`, on the list of the end points of the half-edges; `std::reduce` with an
associative and commutative operation is the sum. -/
def edgesCcw (l : List ((K × K) × (K × K))) : Bool := decide ((l.map fun e => (e.2.1 - e.1.1) * (e.2.2 + e.1.2)).sum < 0)

end Gbs
