import Verif.Model.BoyerWatson

/-!
# Delaunay triangulation by trial of all the triangles

`base_delaunay2d_mesh`, `inc/topology/tessellations.h:671-745`, with `getFaceVertices` and `areFacesEdgesIntersect`. The coordinates are exact. The search
for a vertex in the circle has no effect other than its answer, so its order is not modelled.
-/

namespace Gbs

variable {K : Type} [Field K] [LinearOrder K]

namespace Mesh

/-- `getFaceVertices`, `inc/topology/halfEdgeMeshGetters.h:117-132`: the loop is that of `getFaceEdges`. -/
def getFaceVertices {P : Type} (h : Mesh P) (f : ℕ) : R (List (Option ℕ)) := do
  let es ← h.getFaceEdges f
  pure (es.map fun e => (h.he e).vertex)

/-- The loop of `areFacesEdgesIntersect`, `inc/topology/halfEdgeMeshGeomTests.h:226-240`. -/
def edgeCrosses (h : Mesh (K × K)) (tol : K) (e : ℕ) : List ℕ → R Bool
  | [] => pure false
  | x :: l => do
    let a ← h.startCo e
    let b ← h.endCo e
    let c ← h.startCo x
    let d ← h.endCo x
    let r ← segSegStrict tol a b c d
    if r then pure true else edgeCrosses h tol e l

/-- `areFacesEdgesIntersect`, `inc/topology/halfEdgeMeshGeomTests.h:220-243`. -/
def areFacesEdgesIntersect (h : Mesh (K × K)) (tol : K) (e f : ℕ) : R Bool := do
  let es ← h.getFaceEdges f
  h.edgeCrosses tol e es

/-- `std::is_permutation` on a list and the beginning of another one; a second list that is too short is read beyond its end. -/
def isPermutation (l m : List (Option ℕ)) : R Bool :=
  if m.length < l.length then .error .oob else pure (l.isPerm (m.take l.length))

/-- Lines 723-726: the edges, from the first to the last. -/
def anyCrosses (h : Mesh (K × K)) (tol : K) (f : ℕ) : List ℕ → R Bool
  | [] => pure false
  | e :: l => do
    let r ← h.areFacesEdgesIntersect tol e f
    if r then pure true else anyCrosses h tol f l

/-- The loop on the faces, `inc/topology/tessellations.h:711-731`: true when it is left by a `break`. -/
def clashes (h : Mesh (K × K)) (tol : K) (a b c : ℕ) (es : List ℕ) : List ℕ → R Bool
  | [] => pure false
  | f :: F => do
    let vs ← h.getFaceVertices f
    let p ← isPermutation [some a, some b, some c] vs
    if p then pure true
    else do
      let x ← h.anyCrosses tol f es
      if x then pure true else clashes h tol a b c es F

/-- The body of the loops for the vertices `a`, `b`, `c`, `inc/topology/tessellations.h:687-739`. -/
def tryTriangle (tol : K) (vs : List ℕ) (a b c : ℕ) (s : Mesh (K × K) × List ℕ) : R (Mesh (K × K) × List ℕ) :=
  if 0 < orient2d (s.1.co a) (s.1.co b) (s.1.co c) then
    if vs.any fun d => decide (0 < inCircle (s.1.co a) (s.1.co b) (s.1.co c) (s.1.co d)) then pure s
    else do
      let r1 := s.1.newEdge a
      let r2 := r1.1.newEdge b
      let r3 := r2.1.newEdge c
      let h := ((r3.1.setE r1.2 fun r => { r with prev := some r3.2 }).setE r2.2 fun r => { r with prev := some r1.2 }).setE r3.2
        fun r => { r with prev := some r2.2 }
      let x ← h.clashes tol a b c [r1.2, r2.2, r3.2] s.2
      if x then pure (h, s.2)
      else do
        let r ← h.makeFace [r1.2, r2.2, r3.2]
        let f ← deref r.2
        pure (r.1, s.2 ++ [f])
  else pure s

/-- `base_delaunay2d_mesh`, `inc/topology/tessellations.h:671-745`; `vs` are the vertices. -/
def baseDelaunay (tol : K) (h : Mesh (K × K)) (vs : List ℕ) : R (Mesh (K × K) × List ℕ) :=
  forLt 0 vs.length (fun i s => do
    let a ← rd vs i
    forLt 0 vs.length (fun j s => do
      let b ← rd vs j
      forLt (j + 1) vs.length (fun k s => do
        let c ← rd vs k
        tryTriangle tol vs a b c s) s) s) (h, [])

end Mesh

end Gbs
