import Verif.Model.HalfEdge

/-!
# Delaunay triangulation by insertion

`inc/topology/tessellations.h:67-277` and `getEncompassingMesh` of `inc/topology/halfEdgeMeshGetters.h:625-650`. The coordinates are exact. The sets of
pointers are the lists of their elements, a stack is a list whose head is its top.
-/

namespace Gbs

variable {K : Type} [Field K] [LinearOrder K]

namespace Mesh

/-- `triangle_coords_ccw`, `inc/topology/tessellations.h:69-74`, and the first lines of `in_circle` of a face,
`inc/topology/halfEdgeMeshGeomTests.h:22-27`. -/
def triCoords (h : Mesh (K × K)) (f : ℕ) : R ((K × K) × (K × K) × (K × K)) := do
  let e ← deref (h.fe f)
  let a ← h.endCo e
  let e1 ← deref (h.he e).next
  let b ← h.endCo e1
  let e2 ← deref (h.he e1).next
  let c ← h.endCo e2
  pure (a, b, c)

/-- `in_circle` of a face, `inc/topology/halfEdgeMeshGeomTests.h:15-31`. -/
def inCircleFace (h : Mesh (K × K)) (xy : K × K) (f : ℕ) : R K := do
  let (a, b, c) ← h.triCoords f
  pure (inCircle a b c xy)

/-- The half-edge of the face on which the point is, lines 158-161. -/
def onEdge (h : Mesh (K × K)) (f : ℕ) (o0 o1 : K) : R ℕ := do
  let e ← deref (h.fe f)
  if o0 = 0 then deref (h.he e).next
  else if o1 = 0 then do
    let e1 ← deref (h.he e).next
    deref (h.he e1).next
  else pure e

/-- The face across a half-edge, if any. -/
def faceAcross (h : Mesh (K × K)) (e : ℕ) : Option ℕ :=
  match (h.he e).opp with
  | none => none
  | some o => (h.he o).face

/-- The search for the triangles that contain the point, `inc/topology/tessellations.h:134-167`; `none` when the point is a vertex of a face. -/
def locate (h : Mesh (K × K)) (xy : K × K) : List ℕ → R (Option (List ℕ))
  | [] => pure (some [])
  | f :: F => do
    let (a, b, c) ← h.triCoords f
    if xy = a ∨ xy = b ∨ xy = c then pure none
    else
      let o0 := orient2d a b xy
      let o1 := orient2d b c xy
      let o2 := orient2d c a xy
      if o0 < 0 ∨ o1 < 0 ∨ o2 < 0 then locate h xy F
      else if o0 = 0 ∨ o1 = 0 ∨ o2 = 0 then do
        let on ← h.onEdge f o0 o1
        pure (some (f :: (h.faceAcross on).toList))
      else pure (some [f])

/-- The seeds without repetition, lines 176-181: the cavity and the stack. -/
def seedCavity (seed : List ℕ) : List ℕ × List ℕ :=
  seed.foldl (fun s f => if f ∈ s.1 then s else (s.1 ++ [f], f :: s.2)) ([], [])

/-- The body of the loop on the edges of a face, lines 186-199. -/
def growEdge (h : Mesh (K × K)) (xy : K × K) (s : List ℕ × List ℕ) (e : ℕ) : R (List ℕ × List ℕ) :=
  match h.faceAcross e with
  | none => pure s
  | some nf =>
    if nf ∈ s.1 then pure s
    else do
      let d ← h.inCircleFace xy nf
      pure (if 0 < d then (s.1 ++ [nf], nf :: s.2) else s)

/-- The growth of the cavity, `inc/topology/tessellations.h:182-201`. -/
def growCavity (h : Mesh (K × K)) (xy : K × K) : ℕ → List ℕ × List ℕ → R (List ℕ)
  | _, (cavity, []) => pure cavity
  | 0, (_, _ :: _) => .error .noEnd
  | k + 1, (cavity, f :: stack) => do
    let es ← h.getTriangleEdges f
    let s ← es.foldlM (h.growEdge xy) (cavity, stack)
    growCavity h xy k s

/-- `is_star_shaped`, `inc/topology/tessellations.h:86-100`, after the test of emptiness. -/
def isStarLoop (h : Mesh (K × K)) (xy : K × K) : List ℕ → R Bool
  | [] => pure true
  | e :: l => do
    let a ← h.startCo e
    let b ← h.endCo e
    if orient2d a b xy ≤ 0 then pure false else isStarLoop h xy l

/-- `loops.size() == 1 && is_star_shaped(loops.front(), xy)`. -/
def isSingleStar (h : Mesh (K × K)) (xy : K × K) (loops : List (List ℕ)) : R Bool :=
  match loops with
  | [l] => if l.isEmpty then pure false else h.isStarLoop xy l
  | _ => pure false

/-- Steps 4 and following, `inc/topology/tessellations.h:217-247`: the store, the faces, the new vertex, the faces deleted and the new faces. -/
def fillCavity (h : Mesh (K × K)) (F : List ℕ) (xy : K × K) (cavity : List ℕ) (loops : List (List ℕ)) :
    R ((Mesh (K × K) × List ℕ) × Option (ℕ × List ℕ × List ℕ)) := do
  let deleted := F.filter fun f => decide (f ∈ cavity)
  let kept := F.filter fun f => decide (f ∉ cavity)
  let l ← rd loops 0
  let (h, v) := h.newVertex xy
  let (h, new) ← h.addVertex l v
  pure ((h, kept ++ new), some (v, deleted, new))

/-- `boyerWatson`, `inc/topology/tessellations.h:126-248`. -/
def boyerWatson (h : Mesh (K × K)) (F : List ℕ) (xy : K × K) : R ((Mesh (K × K) × List ℕ) × Option (ℕ × List ℕ × List ℕ)) := do
  let s ← h.locate xy F
  match s with
  | none => pure ((h, F), none)
  | some [] => pure ((h, F), none)
  | some (f :: rest) =>
    let seed := f :: rest
    let cavity ← h.growCavity xy (h.nF + 1) (seedCavity seed)
    let loops ← h.getOrientedFacesBoundaries cavity
    let ok ← h.isSingleStar xy loops
    if ok then h.fillCavity F xy cavity loops
    else do
      let loops ← h.getOrientedFacesBoundaries seed
      let ok ← h.isSingleStar xy loops
      if ok then h.fillCavity F xy seed loops
      else pure ((h, F), none)

/-- An empty store. -/
def empty : Mesh (K × K) := ⟨fun _ => {}, fun _ => 0, fun _ => none, fun _ => none, 0, 0, 0⟩

/-- `getEncompassingMesh`, `inc/topology/halfEdgeMeshGetters.h:625-650`; the second offset is computed with the new maximum. -/
def getEncompassingMesh (pc : K) (X : List (K × K)) : R (Mesh (K × K) × List ℕ) := do
  let (lo, hi) ← coordsMinMax X
  let q := pc / 100
  let hi : K × K := (hi.1 + q * (hi.1 - lo.1), hi.2 + q * (hi.2 - lo.2))
  let lo : K × K := (lo.1 - q * (hi.1 - lo.1), lo.2 - q * (hi.2 - lo.2))
  let (h, e1) := empty.newEdgeAt (hi.1, lo.2)
  let (h, e2) := h.newEdgeAt (lo.1, hi.2)
  let (h, e3) := h.newEdgeAt lo
  let (h, f1) ← h.makeFace [e1, e2, e3]
  let f1 ← deref f1
  let (h, f2) ← h.addFace f1 (some e2) hi
  let f2 ← deref f2
  pure (h, [f1, f2])

/-- The insertions of `delaunay2DBoyerWatson`, lines 265-268. -/
def insertAll : Mesh (K × K) × List ℕ → List (K × K) → R (Mesh (K × K) × List ℕ)
  | s, [] => pure s
  | s, x :: X => do
    let r ← s.1.boyerWatson s.2 x
    insertAll r.1 X

/-- The removals of `delaunay2DBoyerWatson`, lines 271-274. -/
def removeAll : Mesh (K × K) × List ℕ → List ℕ → R (Mesh (K × K) × List ℕ)
  | s, [] => pure s
  | s, v :: vs => do
    let r ← removeFaces v s.1 s.2
    removeAll r vs

/-- `delaunay2DBoyerWatson`, `inc/topology/tessellations.h:259-277`. The four corners are the vertices 0 to 3; the order in which they are removed is that of
their addresses, `corners` stands for it. -/
def delaunay2D (pc : K) (corners : List ℕ) (X : List (K × K)) : R (Mesh (K × K) × List ℕ) := do
  let s ← getEncompassingMesh pc X
  let s ← insertAll s X
  removeAll s corners

end Mesh

end Gbs
