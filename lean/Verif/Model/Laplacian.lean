import Verif.Model.SurfaceMesh

/-!
# Refinement with smoothing

`getNeighboringVertices` of `inc/topology/halfEdgeMeshGetters.h:418-450`, `inc/topology/halfEdgeMeshSmoothing.h`, `is_locally_delaunay` of
`inc/topology/halfEdgeMeshGeomTests.h:128-152` and `delaunay2DBoyerWatsonMeshRefine` of `inc/topology/tessellations.h:509-569`. The coordinates are exact.
-/

namespace Gbs

variable {K : Type} [Field K] [LinearOrder K]

namespace Mesh

/-- The first loop of `getNeighboringVertices`, lines 425-434: the vertices, and if an outer half-edge is met. -/
def neighboursBack {P : Type} (h : Mesh P) (start : ℕ) : ℕ → ℕ → List (Option ℕ) → R (List (Option ℕ) × Bool)
  | 0, _, _ => .error .noEnd
  | k + 1, e, l =>
    match (h.he e).opp with
    | none => pure (l, true)
    | some o => do
      let c ← deref (h.he o).prev
      let l := (h.he c).vertex :: l
      if c = start then pure (l, false) else neighboursBack h start k c l

/-- The second loop, lines 439-447. -/
def neighboursFwd {P : Type} (h : Mesh P) (start : ℕ) : ℕ → ℕ → List (Option ℕ) → R (List (Option ℕ))
  | 0, _, _ => .error .noEnd
  | k + 1, e, l => do
    let n ← deref (h.he e).next
    match (h.he n).opp with
    | none => pure l
    | some c =>
      let l := l ++ [(h.he c).vertex]
      if c = start then pure l else neighboursFwd h start k c l

/-- `getNeighboringVertices`, `inc/topology/halfEdgeMeshGetters.h:418-450`. -/
def getNeighboringVertices {P : Type} (h : Mesh P) (v : ℕ) : R (List (Option ℕ)) := do
  let start ← deref (h.ve v)
  let (l, isOpen) ← h.neighboursBack start (h.nE + 1) start []
  if isOpen then h.neighboursFwd start (h.nE + 1) start l else pure l

/-- The sum of the coordinates, `inc/topology/halfEdgeMeshSmoothing.h:13-16`. -/
def sumCo (h : Mesh (K × K)) : List (Option ℕ) → K × K → R (K × K)
  | [], c => pure c
  | v :: l, c => do
    let v ← deref v
    sumCo h l (c + h.co v)

/-- `laplacian_smoothing`, `inc/topology/halfEdgeMeshSmoothing.h:7-19`. -/
def laplacianSmoothing (h : Mesh (K × K)) (v : ℕ) : R (Mesh (K × K)) := do
  let l ← h.getNeighboringVertices v
  let c ← h.sumCo l (0, 0)
  let x ← fdiv c.1 (l.length : K)
  let y ← fdiv c.2 (l.length : K)
  pure { h with co := Function.update h.co v (x, y) }

/-- `is_locally_delaunay`, `inc/topology/halfEdgeMeshGeomTests.h:128-152`. -/
def isLocallyDelaunay (h : Mesh (K × K)) (e : ℕ) : R K :=
  match (h.he e).opp with
  | none => pure 0
  | some o => do
    let t1 ← deref (h.he e).face
    let t2 ← deref (h.he o).face
    let n1 ← deref (h.he e).next
    let p1 ← h.endCo n1
    let n2 ← deref (h.he o).next
    let p2 ← h.endCo n2
    let d1 ← h.inCircleFace p1 t2
    let d2 ← h.inCircleFace p2 t1
    pure (min d1 d2)

/-- The loop which should restore the Delaunay condition, `inc/topology/tessellations.h:559-565`. -/
def restoreDelaunay : Mesh (K × K) → List ℕ → R (Mesh (K × K))
  | h, [] => pure h
  | h, e :: es =>
    match (h.he e).opp with
    | none => restoreDelaunay h es
    | some o => do
      let d ← h.isLocallyDelaunay e
      if d = 0 then do
        let t1 ← deref (h.he e).face
        let t2 ← deref (h.he o).face
        let h ← h.flip t1 t2
        restoreDelaunay h es
      else restoreDelaunay h es

/-- `getEdgesMap`, `inc/topology/halfEdgeMeshGetters.h:578-597`: the half-edges of the faces in the order of their addresses, which `ord` gives. -/
def edgesMap {P : Type} (ord : List ℕ → List ℕ) (h : Mesh P) (F : List ℕ) : R (List ℕ) := do
  let l ← F.mapM h.getFaceEdges
  pure (ord l.flatten.dedup)

variable (crit : List ((K × K) × (K × K) × Bool) → K × (K × K)) (ord : List ℕ → List ℕ)

/-- The loop of `delaunay2DBoyerWatsonMeshRefine`, `inc/topology/tessellations.h:527-566`. When nothing is inserted `*vtx` dereferences a null pointer. -/
def smoothLoop (critMax : K) : ℕ → Option K → Mesh (K × K) × List ℕ → (ℕ → Option K) → R (Mesh (K × K) × List ℕ)
  | 0, _, s, _ => pure s
  | n + 1, c, s, q =>
    if (match c with | none => true | some c => decide (critMax ≤ c)) then do
      let f ← worstFace q s.2
      let v ← s.1.faceView f
      let d := crit v
      let r ← s.1.boyerWatson s.2 d.2
      match r.2 with
      | none => .error .null
      | some (v, deleted, new) => do
        let q := fun g => if g ∈ deleted then none else q g
        let q ← updateAll crit r.1.1 q new
        let h ← r.1.1.laplacianSmoothing v
        let es ← edgesMap ord h r.1.2
        let h ← restoreDelaunay h es
        smoothLoop critMax n (some d.1) (h, r.1.2) q
    else pure s

/-- `delaunay2DBoyerWatsonMeshRefine`, `inc/topology/tessellations.h:509-569`. The criterion is a function of the view of the face. -/
def meshRefine (critMax : K) (maxInner : ℕ) (s : Mesh (K × K) × List ℕ) : R (Mesh (K × K) × List ℕ) := do
  let q ← updateAll crit s.1 (fun _ => none) s.2
  smoothLoop crit ord critMax maxInner none s q

end Mesh

end Gbs
