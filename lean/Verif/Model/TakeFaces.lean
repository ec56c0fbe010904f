import Verif.Model.BoyerWatson
import Verif.Model.Geom2
import Verif.Model.Rational

/-!
# Model of the cutting of meshes by a boundary, `inc/topology/halfEdgeMeshEditors.h`, `inc/topology/tessellations.h`

The boundary is given by the end points of its half-edges: they are not shared with the mesh.
-/

namespace Gbs

variable {K : Type} [Field K] [LinearOrder K]

/-- The start and the end of the half-edges of `make_HalfEdges`, `inc/topology/halfEdgeMeshData.h:171-194`: half-edge `i` ends at the point `i`, and its
previous one at the point before. -/
def loopEdges {α : Type} (l : List α) : List (α × α) := (l.rotate (l.length - 1)).zip l

namespace Mesh

/-- `is_centroid_inside_boundary`, `inc/topology/halfEdgeMeshGeomTests.h:252-266`, with `getFaceCoords`, `inc/topology/halfEdgeMeshGetters.h:189-204`. -/
def centroidInside (tol : K) (B : List ((K × K) × (K × K))) (h : Mesh (K × K)) (f : ℕ) : R Bool := do
  let es ← h.getFaceEdges f
  let cs ← es.mapM h.endCo
  let g ← vdiv (cs.foldl (fun s x => s + x) 0) (cs.length : K)
  pure (isInside tol g false B)

/-- `std::ranges::find_if`: the faces before the first one that satisfies the condition, this one, and those after. -/
def findFace (cond : ℕ → R Bool) : List ℕ → R (Option (List ℕ × ℕ × List ℕ))
  | [] => pure none
  | f :: F => do
    let b ← cond f
    if b then pure (some ([], f, F))
    else do
      let r ← findFace cond F
      pure (r.map fun s => (f :: s.1, s.2.1, s.2.2))

/-- `eraseFace`, `inc/topology/halfEdgeMeshEditors.h:426-443`, the links. -/
def eraseLinks (h : Mesh (K × K)) (f : ℕ) : R (Mesh (K × K)) := do
  let es ← h.getFaceEdges f
  pure (es.foldl unlinkOpp h)

/-- The loop of `takeExternalFaces` and `takeInternalFaces`, `inc/topology/halfEdgeMeshEditors.h:459-474`, `492-507`: each search starts again from the first
face. The faces that stay, and those that are taken. Every turn takes a face, so that the fuel is not exhausted. -/
def takeWhere (cond : Mesh (K × K) → ℕ → R Bool) : ℕ → Mesh (K × K) → List ℕ → List ℕ → R (Mesh (K × K) × List ℕ × List ℕ)
  | 0, _, _, _ => .error .noEnd
  | k + 1, h, F, taken => do
    let r ← findFace (cond h) F
    match r with
    | none => pure (h, F, taken)
    | some (F1, f, F2) => do
      let h ← h.eraseLinks f
      takeWhere cond k h (F1 ++ F2) (taken ++ [f])

/-- `takeInternalFaces`, `inc/topology/halfEdgeMeshEditors.h:485-510`. -/
def takeInternalFaces (tol : K) (B : List ((K × K) × (K × K))) (s : Mesh (K × K) × List ℕ) : R (Mesh (K × K) × List ℕ × List ℕ) :=
  takeWhere (centroidInside tol B) (s.2.length + 1) s.1 s.2 []

/-- `takeExternalFaces`, `inc/topology/halfEdgeMeshEditors.h:452-476`. -/
def takeExternalFaces (tol : K) (B : List ((K × K) × (K × K))) (s : Mesh (K × K) × List ℕ) : R (Mesh (K × K) × List ℕ × List ℕ) :=
  takeWhere (fun h f => do
    let b ← centroidInside tol B h f
    pure !b) (s.2.length + 1) s.1 s.2 []

/-- `delaunay2DBoyerWatsonAddInnerBound`, `inc/topology/tessellations.h:640-649`: the faces that stay, and those that are returned. -/
def addInnerBound (tol : K) (s : Mesh (K × K) × List ℕ) (X : List (K × K)) : R (Mesh (K × K) × List ℕ × List ℕ) := do
  let s ← insertAll s X
  takeInternalFaces tol (loopEdges X) s

/-- `delaunay2DBoyerWatsonAddOuterBound`, `inc/topology/tessellations.h:660-669`. -/
def addOuterBound (tol : K) (s : Mesh (K × K) × List ℕ) (X : List (K × K)) : R (Mesh (K × K) × List ℕ × List ℕ) := do
  let s ← insertAll s X
  takeExternalFaces tol (loopEdges X) s

/-- `delaunay2DBoyerWatson` with an inner boundary, `inc/topology/tessellations.h:286-294`: the points of the inner boundary are not inserted. -/
def delaunay2DInner (pc tol : K) (corners : List ℕ) (outer inner : List (K × K)) : R (Mesh (K × K) × List ℕ) := do
  let s ← delaunay2D pc corners outer
  let r ← takeInternalFaces tol (loopEdges inner) s
  pure (r.1, r.2.1)

end Mesh

end Gbs
