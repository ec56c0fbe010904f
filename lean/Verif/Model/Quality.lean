import Verif.Model.Geom2
import Verif.Model.SurfaceMesh
import Verif.Model.Transform

/-!
# Model of the area of meshes and of the criteria of refinement, `inc/topology/halfEdgeMeshQuality.h`

A face is given to a criterion by its view (`Mesh.faceView`). `DistanceMeshSurface` reads a `std::list` with `operator[]` and does not compile. A surface
is a function to points of any dimension; `low` is `std::numeric_limits<T>::lowest()`.
-/

namespace Gbs

variable {K : Type} [Field K] [LinearOrder K]

/-- A half-edge of a face: where it starts, where it ends, and if it has an opposite. -/
abbrev SideView (K : Type) := (K × K) × (K × K) × Bool

/-! ## Area -/

/-- What `std::reduce` combines: numbers and faces. -/
inductive AreaArg (K : Type) where
  | num (x : K)
  | face (f : ℕ)

/-- The orders in which `std::reduce` may combine: `none` is the initial value. -/
inductive ReduceTree where
  | leaf (x : Option ℕ)
  | node (l r : ReduceTree)

namespace Mesh

/-- `tri_area` of the three points of `getFaceCoords`, in `sum_area`, `inc/topology/halfEdgeMeshQuality.h:18-27`. -/
def triFaceArea (h : Mesh (K × K)) (f : ℕ) : R K := do
  let es ← h.getFaceEdges f
  let cs ← es.mapM h.endCo
  match cs with
  | [a, b, c] => pure (triArea a b c)
  | _ => .error .oob

/-- The overloads of `sum_area`, `inc/topology/halfEdgeMeshQuality.h:17-45`. -/
def sumArea (h : Mesh (K × K)) : AreaArg K → AreaArg K → R K
  | .num A, .face f => do
    let a ← h.triFaceArea f
    pure (A + a)
  | .face f, .num A => do
    let a ← h.triFaceArea f
    pure (A + a)
  | .num A, .num B => pure (A + B)
  | .face f, .face g => do
    let a ← h.triFaceArea f
    let b ← h.triFaceArea g
    pure ((0 + a) + (0 + b))

/-- `std::reduce` in `getTriangle2dMeshArea` and `getTriangle2dMeshAreaPar`, `inc/topology/halfEdgeMeshQuality.h:54-83`, along a tree. -/
def reduceArea (h : Mesh (K × K)) : ReduceTree → R (AreaArg K)
  | .leaf none => pure (.num 0)
  | .leaf (some f) => pure (.face f)
  | .node l r => do
    let a ← h.reduceArea l
    let b ← h.reduceArea r
    let s ← h.sumArea a b
    pure (.num s)

end Mesh

/-- The initial value and the faces that a tree combines. -/
def ReduceTree.leaves : ReduceTree → List (Option ℕ)
  | .leaf x => [x]
  | .node l r => l.leaves ++ r.leaves

/-! ## Criteria -/

/-- `std::max_element` by the first component: the first of the greatest; the end of an empty list is dereferenced. -/
def maxFirst {α : Type} : List (K × α) → R (K × α)
  | [] => .error .oob
  | x :: l => pure (l.foldl (fun best y => if best.1 < y.1 then y else best) x)

/-- `edge_midpoint`, `inc/topology/halfEdgeMeshGetters.h:653-658`. -/
def sideMid (e : SideView K) : K × K := (1 / 2 * (e.1.1 + e.2.1.1), 1 / 2 * (e.1.2 + e.2.1.2))

/-- `p1_uv + 0.5 * (p2_uv - p1_uv)`. -/
def sideMid' (e : SideView K) : K × K := (e.1.1 + 1 / 2 * (e.2.1.1 - e.1.1), e.1.2 + 1 / 2 * (e.2.1.2 - e.1.2))

/-- `edge_sq_length`, `inc/topology/halfEdgeMeshGetters.h:669-674`. -/
def sideSq (e : SideView K) : K := (e.2.1.1 - e.1.1) * (e.2.1.1 - e.1.1) + (e.2.1.2 - e.1.2) * (e.2.1.2 - e.1.2)

/-- `getTriangleCoords`, `inc/topology/halfEdgeMeshGetters.h:213-222`: the ends of the next edge, of the edge of the face, and of the previous one. -/
def triangleCoords : List (SideView K) → R ((K × K) × (K × K) × (K × K))
  | e0 :: e1 :: _ => pure (e1.2.1, e0.2.1, e0.1)
  | _ => .error .null

variable {n : ℕ}

/-- The function of `DistanceMeshSurface2`, `inc/topology/halfEdgeMeshQuality.h:236-254`. -/
def sideSag (sqrt : K → K) (srf : K → K → R (Fin n → K)) (e : SideView K) : R (K × (K × K)) :=
  if e.2.2 then do
    let m := sideMid' e
    let mid ← srf m.1 m.2
    let p1 ← srf e.1.1 e.1.2
    let p2 ← srf e.2.1.1 e.2.1.2
    let dev ← fdiv (vnorm sqrt (p1 - mid) + vnorm sqrt (p2 - mid) - vnorm sqrt (p2 - p1)) (vnorm sqrt (p2 - p1))
    pure (dev, m)
  else pure (0, (0, 0))

/-- `DistanceMeshSurface2`, `inc/topology/halfEdgeMeshQuality.h:209-263`: the list has one null entry for each side before the results. -/
def distanceMesh2 (sqrt : K → K) (srf : K → K → R (Fin n → K)) (v : List (SideView K)) : R (K × (K × K)) := do
  let ds ← v.mapM (sideSag sqrt srf)
  maxFirst (List.replicate v.length (0, (0, 0)) ++ ds)

/-- `DeviationMeshSurface`, `inc/topology/halfEdgeMeshQuality.h:289-309`. -/
def deviationMesh (sqrt : K → K) (srf : K → K → ℕ → ℕ → R (Fin 3 → K)) (v : List (SideView K)) : R (K × (K × K)) := do
  let (a, b, c) ← triangleCoords v
  let v1 ← srf a.1 a.2 0 0
  let v2 ← srf b.1 b.2 0 0
  let v3 ← srf c.1 c.2 0 0
  let g : K × K := ((a.1 + b.1 + c.1) / 3, (a.2 + b.2 + c.2) / 3)
  let tn ← adimV sqrt (cross3 (v2 - v1) (v3 - v1))
  let su ← srf g.1 g.2 1 0
  let sv ← srf g.1 g.2 0 1
  let sn ← adimV sqrt (cross3 su sv)
  pure (vnorm sqrt (tn - sn), g)

/-- `Surface::tangent`, `gbs/bssurf.h:231-234`. -/
def surfTangent (srf : K → K → ℕ → ℕ → R (Fin 3 → K)) (u v du dv : K) : R (Fin 3 → K) := do
  let su ← srf u v 1 0
  let sv ← srf u v 0 1
  pure (du • su + dv • sv)

/-- The function of `DeviationMeshSurface2`, `inc/topology/halfEdgeMeshQuality.h:329-343`. -/
def sideTurn (sqrt : K → K) (srf : K → K → ℕ → ℕ → R (Fin 3 → K)) (e : SideView K) : R (K × (K × K)) :=
  if e.2.2 then do
    let v1 ← surfTangent srf e.1.1 e.1.2 (e.2.1.1 - e.1.1) (e.2.1.2 - e.1.2)
    let v2 ← surfTangent srf e.2.1.1 e.2.1.2 (e.2.1.1 - e.1.1) (e.2.1.2 - e.1.2)
    let dev ← fdiv (vnorm sqrt (cross3 v1 v2)) (vnorm sqrt v1 * vnorm sqrt v2)
    pure (dev, sideMid' e)
  else pure (0, (0, 0))

/-- `DeviationMeshSurface2`, `inc/topology/halfEdgeMeshQuality.h:312-352`. -/
def deviationMesh2 (sqrt : K → K) (srf : K → K → ℕ → ℕ → R (Fin 3 → K)) (v : List (SideView K)) : R (K × (K × K)) := do
  let ds ← v.mapM (sideTurn sqrt srf)
  maxFirst ds

/-- `MaxEdgeSizeSurface`, `inc/topology/halfEdgeMeshQuality.h:354-380`. -/
def maxEdgeSizeSurface (srf : K → K → R (Fin n → K)) (v : List (SideView K)) : R (K × (K × K)) := do
  let ds ← v.mapM fun e =>
    if e.2.2 then do
      let p2 ← srf e.2.1.1 e.2.1.2
      let p1 ← srf e.1.1 e.1.2
      pure (sqNorm (p2 - p1), sideMid e)
    else pure (0, (0, 0))
  maxFirst ds

/-- The greatest and the smallest of a list, `std::minmax_element`. -/
def minMax : List K → R (K × K)
  | [] => .error .oob
  | x :: l => pure (l.foldl min x, l.foldl max x)

/-- The greatest half-edge of a face, `std::max_element` of its iterators, `inc/topology/halfEdgeMeshQuality.h:431-440`. The beginning and the end of a face
are equal for `operator==` and different for `operator!=` (`inc/topology/halfEdgeMeshData.h:328-337`): a library that tests with the first whether the range is
empty (`viaEq`) returns the beginning. -/
def longestSide (low : K) (viaEq : Bool) : List (SideView K) → R (SideView K)
  | [] => .error .oob
  | e :: l =>
    let key (e : SideView K) := if e.2.2 then sideSq e else low
    if viaEq then pure e else pure (l.foldl (fun best y => if key best < key y then y else best) e)

/-- `TriangleShapeEdgeSplit`, `inc/topology/halfEdgeMeshQuality.h:405-459`. -/
def edgeSplit (sqrt : K → K) (low : K) (viaEq : Bool) (minLen : K) (v : List (SideView K)) : R (K × (K × K)) := do
  let (mn, mx) ← minMax (v.map sideSq)
  let e ← longestSide low viaEq v
  if sqrt mx < minLen then pure (low, sideMid e)
  else do
    let q ← fdiv mx mn
    pure (sqrt q, sideMid e)

/-- `TriangleShape`, `inc/topology/halfEdgeMeshQuality.h:461-504`. -/
def triangleShape (sqrt : K → K) (low minLen : K) (v : List (SideView K)) : R (K × (K × K)) := do
  let (mn, mx) ← minMax (v.map sideSq)
  let (a, b, c) ← triangleCoords v
  let g : K × K := ((a.1 + b.1 + c.1) / 3, (a.2 + b.2 + c.2) / 3)
  if sqrt mx < minLen then pure (low, g)
  else do
    let q ← fdiv mx mn
    pure (sqrt q, g)

/-- `TriangleShape2`, `inc/topology/halfEdgeMeshQuality.h:506-538`; `*` of two points is their scalar product. -/
def triangleShape2 (sqrt : K → K) (v : List (SideView K)) : R (K × (K × K)) := do
  let (a, b, c) ← triangleCoords v
  let dot (x y : K × K) := x.1 * y.1 + x.2 * y.2
  let sin60 := sqrt 3 * (1 / 2)
  let a' := abs (sin60 - abs (dot (b - a) (c - a)))
  let b' := abs (sin60 - abs (dot (a - b) (c - b)))
  let c' := abs (sin60 - abs (dot (b - c) (a - c)))
  pure (max a' (max b' c'), ((a.1 + b.1 + c.1) / 3, (a.2 + b.2 + c.2) / 3))

/-- The function of `DistanceMeshSurface3`, `inc/topology/halfEdgeMeshQuality.h:613-626`. -/
def sideGap (sqrt : K → K) (srf : K → K → R (Fin n → K)) (e : SideView K) : R (K × (K × K)) :=
  if e.2.2 then do
    let m := sideMid' e
    let p1 ← srf e.1.1 e.1.2
    let p2 ← srf e.2.1.1 e.2.1.2
    let mid := p1 + (1 / 2 : K) • (p2 - p1)
    let s ← srf m.1 m.2
    pure (vnorm sqrt (mid - s), m)
  else pure (0, (0, 0))

/-- `DistanceMeshSurface3`, `inc/topology/halfEdgeMeshQuality.h:576-637`. -/
def distanceMesh3 (sqrt : K → K) (srf : K → K → R (Fin n → K)) (v : List (SideView K)) : R (K × (K × K)) := do
  let cs := v.map fun e => e.2.1
  let k ← fdiv 1 (cs.length : K)
  let s := cs.foldl (fun x y => x + y) (0 : K × K)
  let m : K × K := (k * s.1, k * s.2)
  let ps ← cs.mapM fun x => srf x.1 x.2
  let mid := k • ps.foldl (fun x y => x + y) 0
  let ds ← v.mapM (sideGap sqrt srf)
  let c ← srf m.1 m.2
  maxFirst (ds ++ [(vnorm sqrt (mid - c), m)])

end Gbs
