import Verif.Model.HalfEdge

/-!
# Model of the circulation around a face and of the reversal of a boundary

`inc/topology/halfEdgeMeshData.h`, `inc/topology/halfEdgeMeshEditors.h`, `inc/topology/halfEdgeMeshGetters.h`, on the meshes of
`Verif/Model/HalfEdge.lean`. `CyclicHalfEdgeFaceEdgeRange`, lines 379-416, makes the same iterators from a half-edge.
-/

namespace Gbs

variable {P : Type}

/-- `HalfEdgeFaceEdgeIterator`, `inc/topology/halfEdgeMeshData.h:280-343`. -/
structure FaceIter where
  cur : Option ℕ
  init : Option ℕ
  isEnd : Bool

namespace FaceIter

/-- The constructor, `inc/topology/halfEdgeMeshData.h:297-298`. -/
def make (e : Option ℕ) (isEnd : Bool := false) : FaceIter := { cur := e, init := e, isEnd := isEnd }

/-- `operator++`, `inc/topology/halfEdgeMeshData.h:307-318`. -/
def inc (h : Mesh P) (it : FaceIter) : FaceIter :=
  match it.cur with
  | none => it
  | some e =>
    if it.isEnd then it
    else
      let c := (h.he e).next
      { it with cur := c, isEnd := if c = it.init then true else it.isEnd }

/-- `operator==`, `inc/topology/halfEdgeMeshData.h:328-331`. -/
def eq (a b : FaceIter) : Bool := (a.isEnd && b.isEnd) || decide (a.cur = b.cur)

/-- `operator!=`, `inc/topology/halfEdgeMeshData.h:334-337`. -/
def ne (a b : FaceIter) : Bool := decide (a.cur ≠ b.cur) || (a.isEnd != b.isEnd)

/-- `for (auto it = begin; it != end; ++it)`: the half-edges `*it` the body is given. -/
def walk (h : Mesh P) (e : FaceIter) : ℕ → FaceIter → R (List (Option ℕ))
  | 0, _ => .error .noEnd
  | k + 1, it =>
    if it.ne e then do
      let r ← walk h e k (it.inc h)
      pure (it.cur :: r)
    else pure []

end FaceIter

namespace Mesh

/-- `for (const auto &he : face)`, with the `begin` and `end` of `inc/topology/halfEdgeMeshData.h:353-370`. -/
def forFace (h : Mesh P) (k : ℕ) (f : ℕ) : R (List (Option ℕ)) := FaceIter.walk h (FaceIter.make (h.fe f) true) k (FaceIter.make (h.fe f))

/-- `getTriangleVertices`, `inc/topology/halfEdgeMeshGetters.h:156-165`. -/
def triangleVertices (h : Mesh P) (f : ℕ) : R (List (Option ℕ)) := do
  let e ← deref (h.fe f)
  let nx ← deref (h.he e).next
  let pv ← deref (h.he e).prev
  pure [(h.he nx).vertex, (h.he e).vertex, (h.he pv).vertex]

/-- The loop of `reverseBoundary`: `std::swap(he->previous, he->next)`. -/
def swapLinks (h : Mesh P) : List ℕ → Mesh P
  | [] => h
  | e :: l => swapLinks (h.setE e fun r => { r with next := r.prev, prev := r.next }) l

/-- `reverseBoundary`, `inc/topology/halfEdgeMeshEditors.h:516-531`. The mesh, and the list in place of the given one. -/
def reverseBoundary (h : Mesh P) (l : List ℕ) : Mesh P × List ℕ := (h.swapLinks l.reverse, l.reverse)

end Mesh

end Gbs
