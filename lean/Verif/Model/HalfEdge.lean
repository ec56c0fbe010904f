import Verif.Model.Geom2
import Mathlib.Logic.Function.Basic
import Mathlib.Data.List.Nodup

/-!
# Half-edge meshes

`inc/topology/halfEdgeMeshData.h`, `inc/topology/halfEdgeMeshEditors.h`, `inc/topology/halfEdgeMeshGetters.h`. The objects managed by
`std::shared_ptr` are records of a store addressed by numbers; a null pointer is `none`, and following it is the error `null`. New objects get the
next unused number. Assertions are not modelled: the library is built with `NDEBUG`. Loops that follow pointers have a bound on the number of
steps that a loop that ends never reaches; when it is reached the model answers `noEnd`.
-/

namespace Gbs

/-- `HalfEdge`, `inc/topology/halfEdgeMeshData.h:50-62`. `vertex` is the vertex at the end of the half-edge. -/
structure HEdge where
  vertex : Option ℕ := none
  face : Option ℕ := none
  next : Option ℕ := none
  prev : Option ℕ := none
  opp : Option ℕ := none
  deriving DecidableEq

/-- The objects: half-edges, coordinates and edge of the vertices, edge of the faces, and how many of each have been made. -/
structure Mesh (P : Type) where
  he : ℕ → HEdge
  co : ℕ → P
  ve : ℕ → Option ℕ
  fe : ℕ → Option ℕ
  nE : ℕ
  nV : ℕ
  nF : ℕ

variable {P : Type}

/-- `p->`. -/
def deref (p : Option ℕ) : R ℕ :=
  match p with
  | some x => .ok x
  | none => .error .null

namespace Mesh

/-- Assignment of a field of a half-edge. -/
def setE (h : Mesh P) (e : ℕ) (g : HEdge → HEdge) : Mesh P := { h with he := Function.update h.he e (g (h.he e)) }

/-- `v->edge = e`. -/
def setVE (h : Mesh P) (v : ℕ) (e : Option ℕ) : Mesh P := { h with ve := Function.update h.ve v e }

/-- `f->edge = e`. -/
def setFE (h : Mesh P) (f : ℕ) (e : Option ℕ) : Mesh P := { h with fe := Function.update h.fe f e }

/-- `make_shared_h_edge` from a vertex, `inc/topology/halfEdgeMeshData.h:73-87`. -/
def newEdge (h : Mesh P) (v : ℕ) (f : Option ℕ := none) : Mesh P × ℕ :=
  let h1 : Mesh P := { h with he := Function.update h.he h.nE { vertex := some v, face := f }, nE := h.nE + 1 }
  (if (h.ve v).isNone then h1.setVE v (some h.nE) else h1, h.nE)

/-- `make_shared_h_vertex`, `inc/topology/halfEdgeMeshData.h:96-100`. -/
def newVertex (h : Mesh P) (x : P) : Mesh P × ℕ :=
  ({ h with co := Function.update h.co h.nV x, ve := Function.update h.ve h.nV none, nV := h.nV + 1 }, h.nV)

/-- `make_shared_h_edge` from coordinates, `inc/topology/halfEdgeMeshData.h:110-115`. -/
def newEdgeAt (h : Mesh P) (x : P) : Mesh P × ℕ :=
  let (h, v) := h.newVertex x
  h.newEdge v

/-- The element after `i`, or the first one: line 220 of `make_loop`. -/
def loopNext (l : List ℕ) (i : ℕ) : R ℕ := if i + 1 < l.length then rd l (i + 1) else rd l 0

/-- The element before `i`, or the last one: line 221 of `make_loop`. -/
def loopPrev (l : List ℕ) (i : ℕ) : R ℕ := if i ≠ 0 then rd l (i - 1) else rd l (l.length - 1)

/-- `make_loop`, `inc/topology/halfEdgeMeshData.h:208-223`. -/
def makeLoop (h : Mesh P) (l : List ℕ) (f : ℕ) : R (Mesh P) := do
  let b ← rd l 0
  forLt 0 l.length (fun i h => do
    let e ← rd l i
    let nx ← loopNext l i
    let pv ← loopPrev l i
    pure (h.setE e fun r => { r with face := some f, next := some nx, prev := some pv })) (h.setFE f (some b))

/-- `make_shared_h_face`, `inc/topology/halfEdgeMeshData.h:239-253`. -/
def makeFace (h : Mesh P) (l : List ℕ) : R (Mesh P × Option ℕ) :=
  if l.length < 2 then pure (h, none)
  else do
    let h1 : Mesh P := { h with fe := Function.update h.fe h.nF none, nF := h.nF + 1 }
    let h2 ← h1.makeLoop l h.nF
    pure (h2, some h.nF)

/-- The loop of `getFaceEdges`, `inc/topology/halfEdgeMeshGetters.h:82-91`. -/
def faceEdgesFrom (h : Mesh P) (start : Option ℕ) : ℕ → Option ℕ → R (List ℕ)
  | 0, _ => .error .noEnd
  | _ + 1, none => pure []
  | k + 1, some e =>
    if (h.he e).next = start then pure [e]
    else do
      let r ← faceEdgesFrom h start k (h.he e).next
      pure (e :: r)

/-- `getFaceEdges`, `inc/topology/halfEdgeMeshGetters.h:76-93`. A ring has at most as many edges as there are. -/
def getFaceEdges (h : Mesh P) (f : ℕ) : R (List ℕ) := h.faceEdgesFrom (h.fe f) (h.nE + 1) (h.fe f)

/-- `getTriangleEdges`, `inc/topology/halfEdgeMeshGetters.h:43-52`; the pointers are dereferenced by all the callers. -/
def getTriangleEdges (h : Mesh P) (f : ℕ) : R (List ℕ) := do
  let e ← deref (h.fe f)
  let nx ← deref (h.he e).next
  let pv ← deref (h.he e).prev
  pure [nx, e, pv]

/-- `he->previous->vertex`. -/
def startV (h : Mesh P) (e : ℕ) : R (Option ℕ) := do
  let p ← deref (h.he e).prev
  pure (h.he p).vertex

/-- `he->vertex->coords`. -/
def endCo (h : Mesh P) (e : ℕ) : R P := do
  let v ← deref (h.he e).vertex
  pure (h.co v)

/-- `he->previous->vertex->coords`. -/
def startCo (h : Mesh P) (e : ℕ) : R P := do
  let v ← h.startV e
  let v ← deref v
  pure (h.co v)

/-- `h_e->opposite && h_e->opposite->face == f`. -/
def oppFaceIs (h : Mesh P) (e f : ℕ) : Bool :=
  match (h.he e).opp with
  | none => false
  | some o => decide ((h.he o).face = some f)

/-- `getCommonEdge`, `inc/topology/halfEdgeMeshGetters.h:246-256`. -/
def getCommonEdge (h : Mesh P) (f1 f2 : ℕ) : R (Option ℕ) := do
  let l ← h.getFaceEdges f1
  pure (l.find? fun e => h.oppFaceIs e f2)

/-- `associate`, `inc/topology/halfEdgeMeshEditors.h:105-110`. -/
def associate (h : Mesh P) (v : Option ℕ) (e : ℕ) : R (Mesh P) := do
  let v ← deref v
  pure ((h.setE e fun r => { r with vertex := some v }).setVE v (some e))

/-- The repair of the vertices of `flip`, `inc/topology/halfEdgeMeshEditors.h:150-151`. -/
def repair (h : Mesh P) (v : Option ℕ) (old new : ℕ) : R (Mesh P) := do
  let v ← deref v
  pure (if h.ve v = some old then h.setVE v (some new) else h)

/-- `flip`, `inc/topology/halfEdgeMeshEditors.h:123-158`. -/
def flip (h : Mesh P) (f1 f2 : ℕ) : R (Mesh P) := do
  let c ← h.getCommonEdge f1 f2
  match c with
  | none => pure h
  | some e11 =>
    let e12 ← deref (h.he e11).opp
    let e21 ← deref (h.he e11).next
    let e31 ← deref (h.he e21).next
    let e22 ← deref (h.he e12).next
    let e32 ← deref (h.he e22).next
    let v1 := (h.he e11).vertex
    let v2 := (h.he e21).vertex
    let v3 := (h.he e31).vertex
    let v4 := (h.he e22).vertex
    let h ← h.associate v4 e11
    let h ← h.associate v2 e12
    let h ← h.repair v1 e11 e32
    let h ← h.repair v3 e12 e31
    let h ← h.makeLoop [e11, e32, e21] f1
    h.makeLoop [e12, e31, e22] f2

/-- `link_edges`, `inc/topology/halfEdgeMeshEditors.h:192-199`. -/
def linkEdges (h : Mesh P) (e1 e2 : ℕ) : Mesh P :=
  (h.setE e1 fun r => { r with opp := some e2 }).setE e2 fun r => { r with opp := some e1 }

/-- `chain_edges`, `inc/topology/halfEdgeMeshEditors.h:209-220`. -/
def chainEdges (h : Mesh P) (e1 e2 : ℕ) : Mesh P :=
  (h.setE e1 fun r => { r with next := some e2 }).setE e2 fun r => { r with prev := some e1 }

/-- `make_opposite`, `inc/topology/halfEdgeMeshEditors.h:172-179`. -/
def makeOpposite (h : Mesh P) (e : ℕ) : R (Mesh P × ℕ) := do
  let v ← h.startV e
  let v ← deref v
  let (h, o) := h.newEdge v
  pure ((h.setE o fun r => { r with opp := some e }).setE e fun r => { r with opp := some o }, o)

/-- The common part of the two `add_face`. -/
def addFaceBody (h : Mesh P) (e : ℕ) (x : P) : R (Mesh P × Option ℕ) := do
  let (h, o) ← h.makeOpposite e
  let v ← deref (h.he e).vertex
  let (h, a) := h.newEdge v
  let (h, c) := h.newEdgeAt x
  h.makeFace [a, o, c]

/-- `add_face` from a face and an edge, `inc/topology/halfEdgeMeshEditors.h:48-64`. -/
def addFace (h : Mesh P) (f : ℕ) (e : Option ℕ) (x : P) : R (Mesh P × Option ℕ) :=
  match e with
  | none => pure (h, none)
  | some e => if (h.he e).opp.isSome || decide ((h.he e).face ≠ some f) then pure (h, none) else h.addFaceBody e x

/-- `add_face` from an edge, `inc/topology/halfEdgeMeshEditors.h:78-93`. -/
def addFaceEdge (h : Mesh P) (e : Option ℕ) (x : P) : R (Mesh P × Option ℕ) :=
  match e with
  | none => pure (h, none)
  | some e => if (h.he e).opp.isSome then pure (h, none) else h.addFaceBody e x

/-- Lines 269-272 of `add_vertex`. -/
def linkPrev (h : Mesh P) (e2 : ℕ) (prev : Option ℕ) : Mesh P :=
  match prev with
  | none => h
  | some p => h.linkEdges e2 p

/-- The loop of `add_vertex`, `inc/topology/halfEdgeMeshEditors.h:264-280`. -/
def fanLoop (v : ℕ) : List ℕ → Mesh P → Option ℕ → R (Mesh P × List ℕ)
  | [], h, _ => pure (h, [])
  | e :: l, h, prev => do
    let (h, e1) := h.newEdge v
    let s ← h.startV e
    let s ← deref s
    let (h, e2) := h.newEdge s
    let (h, f) ← (h.linkPrev e2 prev).makeFace [e, e1, e2]
    let f ← deref f
    let (h, fs) ← fanLoop v l h (some e1)
    pure (h, f :: fs)

/-- `add_vertex` on a list of half-edges, `inc/topology/halfEdgeMeshEditors.h:235-285`. -/
def addVertex (h : Mesh P) (l : List ℕ) (v : ℕ) : R (Mesh P × List ℕ) := do
  let (h, fs) ← fanLoop v l (h.setVE v none) none
  let last ← rd fs (fs.length - 1)
  let first ← rd fs 0
  let el ← deref (h.fe last)
  let en ← deref (h.he el).next
  let ef ← deref (h.fe first)
  let ep ← deref (h.he ef).prev
  pure (h.linkEdges en ep, fs)

/-- `add_vertex` on a face, `inc/topology/halfEdgeMeshEditors.h:299-303`. -/
def addVertexFace (h : Mesh P) (f v : ℕ) : R (Mesh P × List ℕ) := do
  let l ← h.getFaceEdges f
  h.addVertex l v

/-- `repairVertexEdges`, `inc/topology/halfEdgeMeshEditors.h:324-337`; `seen` is the list of the vertices met. -/
def repairVertexEdges (h : Mesh P) (F : List ℕ) : R (Mesh P) := do
  let ls ← F.mapM h.getFaceEdges
  let (h, _) ← ls.flatten.foldlM (fun (s : Mesh P × List ℕ) e => do
    let v ← deref (s.1.he e).vertex
    pure (if v ∈ s.2 then s else (s.1.setVE v (some e), v :: s.2))) (h, [])
  pure h

/-- One step of the inner loop of `takeClosedLoops`: the first edge that ends at a vertex. -/
def takeEndingAt (h : Mesh P) (v : Option ℕ) (l : List ℕ) : Option (ℕ × List ℕ) :=
  match l.find? (fun e => decide ((h.he e).vertex = v)) with
  | none => none
  | some e => some (e, l.erase e)

/-- The inner loop of `takeClosedLoops`, `inc/topology/halfEdgeMeshEditors.h:397-410`: it takes one edge at each step. -/
def takeChain (h : Mesh P) : ℕ → ℕ → List ℕ → List ℕ → R (List ℕ × List ℕ)
  | 0, front, acc, l => if l.isEmpty then pure (front :: acc, l) else .error .noEnd
  | k + 1, front, acc, l =>
    if l.isEmpty then pure (front :: acc, l)
    else do
      let t ← h.startV front
      match h.takeEndingAt t l with
      | none => pure (front :: acc, l)
      | some (e, l') => takeChain h k e (front :: acc) l'

/-- The outer loop of `takeClosedLoops`. -/
def takeLoops (h : Mesh P) : ℕ → List ℕ → R (List (List ℕ))
  | _, [] => pure []
  | 0, _ :: _ => .error .noEnd
  | k + 1, e :: l => do
    let (c, l') ← h.takeChain l.length e [] l
    let r ← takeLoops h k l'
    pure (c :: r)

/-- `takeClosedLoops`, `inc/topology/halfEdgeMeshEditors.h:380-416`. Every step takes at least one edge, so that the bounds are not reached. -/
def takeClosedLoops (h : Mesh P) (l : List ℕ) : R (List (List ℕ)) := h.takeLoops l.length l

/-- The condition of `getFacesBoundary`, `inc/topology/halfEdgeMeshGetters.h:472-477`. -/
def onBoundaryOf (h : Mesh P) (F : List ℕ) (e : ℕ) : Bool :=
  match (h.he e).opp with
  | none => true
  | some o => F.all fun f => decide (some f ≠ (h.he o).face)

/-- `getFacesBoundary`, `inc/topology/halfEdgeMeshGetters.h:461-485`. -/
def getFacesBoundary (h : Mesh P) (F : List ℕ) : R (List ℕ) := do
  let ls ← F.mapM h.getFaceEdges
  pure (ls.flatten.filter (h.onBoundaryOf F))

/-- `getOrientedFacesBoundaries`, `inc/topology/halfEdgeMeshGetters.h:495-500`. -/
def getOrientedFacesBoundaries (h : Mesh P) (F : List ℕ) : R (List (List ℕ)) := do
  let b ← h.getFacesBoundary F
  h.takeClosedLoops b

/-- The body of `for (auto &h_e : h_e_lst) if (h_e->opposite) h_e->opposite->opposite = nullptr` of `remove_faces` and `eraseFace`. -/
def unlinkOpp (h : Mesh P) (e : ℕ) : Mesh P :=
  match (h.he e).opp with
  | none => h
  | some o => h.setE o fun r => { r with opp := none }

/-- `remove_faces`, `inc/topology/halfEdgeMeshEditors.h:339-370`. -/
def removeFaces (v : ℕ) : Mesh P → List ℕ → R (Mesh P × List ℕ)
  | h, [] => pure (h, [])
  | h, f :: F => do
    let l ← h.getFaceEdges f
    if l.any fun e => decide ((h.he e).vertex = some v) then removeFaces v (l.foldl unlinkOpp h) F
    else do
      let (h, F') ← removeFaces v h F
      pure (h, f :: F')

/-- The loop of `is_boundary`, `inc/topology/halfEdgeMeshGeomTests.h:273-280`. -/
def isBoundaryFrom (h : Mesh P) (start : ℕ) : ℕ → ℕ → R Bool
  | 0, _ => .error .noEnd
  | k + 1, e =>
    match (h.he e).opp with
    | none => pure false
    | some o =>
      if (h.he o).prev = some start then pure true
      else do
        let c ← deref (h.he o).prev
        isBoundaryFrom h start k c

/-- `is_boundary` of a vertex, `inc/topology/halfEdgeMeshGeomTests.h:268-283`. -/
def isBoundary (h : Mesh P) (v : ℕ) : R Bool := do
  let e ← deref (h.ve v)
  h.isBoundaryFrom e (h.nE + 1) e

/-- The first half of `splitHalfEdge`, `inc/topology/halfEdgeMeshEditors.h:561-576`: the face `hf` is reduced and the face returned is made. -/
def splitFace (h : Mesh P) (he prev next hf nv : ℕ) : R (Mesh P × ℕ) := do
  let h := h.setVE nv (some he)
  let (h, n1) := h.newEdge nv (some hf)
  let h := h.setFE hf (some n1)
  let h := h.chainEdges n1 he
  let h := h.chainEdges next n1
  let (h, n2) := h.newEdge nv
  let nvx ← deref (h.he next).vertex
  let (h, n3) := h.newEdge nvx
  let h := h.linkEdges n1 n3
  let (h, f1) ← h.makeFace [n2, n3, prev]
  let f1 ← deref f1
  pure (h, f1)

/-- The second half of `splitHalfEdge`, `inc/topology/halfEdgeMeshEditors.h:580-598`. -/
def splitOpp (h : Mesh P) (o prev nv : ℕ) : R (Mesh P × ℕ) := do
  let oprev ← deref (h.he o).prev
  let onext ← deref (h.he o).next
  let hfo ← deref (h.he o).face
  let ov ← deref (h.he o).vertex
  let h := h.setVE ov (some prev)
  let h := h.setE o fun r => { r with vertex := some nv }
  let onv ← deref (h.he onext).vertex
  let (h, n1) := h.newEdge onv (some hfo)
  let h := h.setFE hfo (some n1)
  let h := h.chainEdges o n1
  let h := h.chainEdges n1 oprev
  let (h, n2) := h.newEdge nv
  let pvx ← deref (h.he prev).vertex
  let (h, n3) := h.newEdge pvx
  let h := h.linkEdges n1 n2
  let (h, f2) ← h.makeFace [n2, n3, onext]
  let f2 ← deref f2
  pure (h, f2)

/-- `splitHalfEdge`, `inc/topology/halfEdgeMeshEditors.h:546-603`; `mid` is `edge_midpoint`. The result is the mesh, the new vertex and the faces
appended to the list. -/
def splitHalfEdge (mid : P → P → P) (h : Mesh P) (he : ℕ) : R (Mesh P × ℕ × List ℕ) := do
  let prev ← deref (h.he he).prev
  let next ← deref (h.he he).next
  let opp := (h.he he).opp
  let hf ← deref (h.he he).face
  let a ← h.startCo he
  let b ← h.endCo he
  let (h, nv) := h.newVertex (mid a b)
  let (h, f1) ← h.splitFace he prev next hf nv
  match opp with
  | none => pure (h, nv, [f1])
  | some o => do
    let (h, f2) ← h.splitOpp o prev nv
    pure (h, nv, [f1, f2])

end Mesh

end Gbs
