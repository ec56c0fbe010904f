import Verif.Model.BaseDelaunay

/-!
# Points and cells of a mesh

`getVerticesMapFromFaces` and `getVerticesVectorFromFaces` of `inc/topology/halfEdgeMeshGetters.h`, `generate_points_from_vertices_map`,
`generate_cells_from_faces`, `make_polydata_from_faces` and `make_polydata_from_edges_loop` of `inc/topology/halfEdgeMeshRender.h`. A `std::map` is the
list of its pairs in the order of insertion; it is visited in the order of the addresses of its keys, which `ord` gives. The arrays of VTK are lists, `none`
where nothing has been stored. `g` is the conversion of the coordinates into a point: the coordinates themselves, or the point of the surface, whose
evaluation may fail. The normals, the kinds of the cells and the actors are not modelled.
-/

namespace Gbs

variable {P Q : Type}

/-- `std::map< std::shared_ptr< HalfEdgeVertex<T,dim> >, size_t >`. -/
abbrev VertexMap := List (Option ℕ × ℕ)

namespace VertexMap

/-- `find`. -/
def lookup (m : VertexMap) (v : Option ℕ) : Option ℕ := (m.find? fun p => p.1 == v).map Prod.snd

/-- `at`. -/
def at! (m : VertexMap) (v : Option ℕ) : R ℕ :=
  match m.lookup v with
  | some i => pure i
  | none => .error (.thrown .outOfRange)

/-- `operator[]`, which inserts 0 for a key that is not in the map. -/
def index (m : VertexMap) (v : Option ℕ) : VertexMap × ℕ :=
  match m.lookup v with
  | some i => (m, i)
  | none => (m ++ [(v, 0)], 0)

/-- `inc/topology/halfEdgeMeshGetters.h:535-539`: the map and the next index. -/
def add (s : VertexMap × ℕ) (v : Option ℕ) : VertexMap × ℕ :=
  if (s.1.lookup v).isSome then s else (s.1 ++ [(v, s.2)], s.2 + 1)

end VertexMap

namespace Mesh

/-- `getVerticesMapFromFaces`, `inc/topology/halfEdgeMeshGetters.h:525-544`. -/
def verticesMap (h : Mesh P) (F : List ℕ) : R VertexMap := do
  let s ← F.foldlM (fun s f => do
    let vs ← h.getFaceVertices f
    pure (vs.foldl VertexMap.add s)) (([], 0) : VertexMap × ℕ)
  pure s.1

/-- `getVerticesVectorFromFaces`, `inc/topology/halfEdgeMeshGetters.h:554-568`. -/
def verticesVector (ord : VertexMap → VertexMap) (h : Mesh P) (F : List ℕ) : R (List (Option ℕ)) := do
  let m ← h.verticesMap F
  pure ((ord m).map Prod.fst)

/-- `generate_points_from_vertices_map`, `inc/topology/halfEdgeMeshRender.h:33-58`. -/
def generatePoints (ord : VertexMap → VertexMap) (g : P → R Q) (h : Mesh P) (m : VertexMap) : R (List (Option Q)) :=
  (ord m).foldlM (fun a p => do
    let v ← deref p.1
    let x ← g (h.co v)
    wr a p.2 (some x)) (List.replicate m.length none)

/-- `generate_cells_from_faces`, `inc/topology/halfEdgeMeshRender.h:96-126`. -/
def generateCells (h : Mesh P) (F : List ℕ) (m : VertexMap) : R (List (List ℕ)) :=
  F.mapM fun f => do
    let vs ← h.getFaceVertices f
    vs.mapM m.at!

/-- `make_polydata_from_faces`, `inc/topology/halfEdgeMeshRender.h:180-245`. -/
def polydata (ord : VertexMap → VertexMap) (g : P → R Q) (h : Mesh P) (F : List ℕ) : R (List (Option Q) × List (List ℕ)) := do
  let m ← h.verticesMap F
  let pts ← h.generatePoints ord g m
  let cells ← h.generateCells F m
  pure (pts, cells)

/-- Lines 276-279: the map, the identifiers, and the place of the next one. -/
def polylineStart (h : Mesh P) (e : ℕ) (m : VertexMap) (ids : List (Option ℕ)) : R (VertexMap × List (Option ℕ) × ℕ) :=
  match (h.he e).prev with
  | none => pure (m, ids, 0)
  | some p => do
    let ids ← wr ids 0 (some (m.index (h.he p).vertex).2)
    pure ((m.index (h.he p).vertex).1, ids, 1)

/-- `make_polydata_from_edges_loop`, `inc/topology/halfEdgeMeshRender.h:254-297`: the points and the identifiers of the polyline. -/
def polydataLoop (ord : VertexMap → VertexMap) (g : P → R Q) (h : Mesh P) (es : List ℕ) : R (List (Option Q) × List (Option ℕ)) := do
  let m := (es.foldl (fun s e => VertexMap.add s (h.he e).vertex) (([], 0) : VertexMap × ℕ)).1
  let pts ← h.generatePoints ord g m
  let e ← rd es 0
  let s ← h.polylineStart e m (List.replicate (es.length + 1) none)
  let s ← es.foldlM (fun (s : VertexMap × List (Option ℕ) × ℕ) e => do
    let ids ← wr s.2.1 s.2.2 (some (s.1.index (h.he e).vertex).2)
    pure ((s.1.index (h.he e).vertex).1, ids, s.2.2 + 1)) s
  pure (pts, s.2.1)

end Mesh

end Gbs
