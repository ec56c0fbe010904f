import Verif.Model.Discretize

/-!
# Model of the edges and wires, `inc/topology/{basetopo,vertex,edge,wire}.h`

Vertices and edges are held by `std::shared_ptr`: they are numbers, the places of the objects in a store, and two pointers are equal when the numbers are.
An edge that is in several wires, or several times in one, is one object. The curves are a type `C` with their bounds, the nearest point
`extrema_curve_point` (its parameter and its distance) and `build_segment` as parameters; `dist` is the distance of two points. A vertex is the point
of its `HalfEdgeVertex`; its tolerances are not used by the code. The precision tolerance of the edges and wires is not used by the code.
`Wire::close` is not modelled: `end()->vertex2()` does not compile when it is used, the iterator points to a `shared_ptr`.
-/

namespace Gbs

variable {C V K : Type} [Field K] [LinearOrder K]

/-- `Edge`, `inc/topology/edge.h:21-32`, with the tolerance of `BaseTopo`, `inc/topology/basetopo.h:9-40`. -/
structure TEdge (C K : Type) where
  crv : C
  v1 : ℕ
  v2 : ℕ
  u1 : K
  u2 : K
  tol : K
deriving DecidableEq

/-- The objects: the points of the vertices, and the edges. -/
structure Topo (C V K : Type) where
  pos : List V
  edges : List (TEdge C K)
deriving DecidableEq

/-- `Wire`, `inc/topology/wire.h:14-19`. -/
structure TWire (K : Type) where
  ids : List ℕ
  tol : K
deriving DecidableEq

/-- What is used of the curves. -/
structure CrvOps (C V K : Type) where
  /-- `bounds()` -/
  bnd : C → K × K
  /-- `extrema_curve_point` -/
  ext : C → V → K × K
  /-- `distance` -/
  dist : V → V → K
  /-- `build_segment` -/
  seg : V → V → C
  /-- `knot_eps` -/
  eps : K

variable (o : CrvOps C V K)

/-- `Edge(pt1, pt2)`, `inc/topology/edge.h:74-82`: two new vertices and a new edge, its number. -/
def edgeOfPoints (tol : K) (st : Topo C V K) (p q : V) : Topo C V K × ℕ :=
  let c := o.seg p q
  (⟨st.pos ++ [p, q], st.edges ++ [⟨c, st.pos.length, st.pos.length + 1, (o.bnd c).1, (o.bnd c).2, tol⟩]⟩, st.edges.length)

/-- `Edge(vtx1, vtx2)`, `inc/topology/edge.h:84-92`. -/
def edgeOfVertices (tol : K) (st : Topo C V K) (a b : ℕ) : R (Topo C V K × ℕ) := do
  let p ← rd st.pos a
  let q ← rd st.pos b
  let c := o.seg p q
  pure (⟨st.pos, st.edges ++ [⟨c, a, b, (o.bnd c).1, (o.bnd c).2, tol⟩]⟩, st.edges.length)

/-- `Edge(crv)`, `Edge(crv, tolRef)`, `inc/topology/edge.h:94-113`. -/
def edgeOfCurve (val : C → K → V) (tol : K) (st : Topo C V K) (c : C) : Topo C V K × ℕ :=
  (⟨st.pos ++ [val c (o.bnd c).1, val c (o.bnd c).2], st.edges ++ [⟨c, st.pos.length, st.pos.length + 1, (o.bnd c).1, (o.bnd c).2, tol⟩]⟩, st.edges.length)

/-- `Edge::setVertex1`, `inc/topology/edge.h:139-153`. -/
def setVertex1 (pos : List V) (e : TEdge C K) (v : ℕ) : R (Bool × TEdge C K) := do
  let p ← rd pos v
  let ud := o.ext e.crv p
  if e.tol < ud.2 then pure (false, e)
  else pure (true, { e with u1 := if |ud.1 - (o.bnd e.crv).2| < o.eps then (o.bnd e.crv).1 else ud.1, v1 := v })

/-- `Edge::setVertex2`, `inc/topology/edge.h:155-169`. -/
def setVertex2 (pos : List V) (e : TEdge C K) (v : ℕ) : R (Bool × TEdge C K) := do
  let p ← rd pos v
  let ud := o.ext e.crv p
  if e.tol < ud.2 then pure (false, e)
  else pure (true, { e with u2 := if |ud.1 - (o.bnd e.crv).1| < o.eps then (o.bnd e.crv).2 else ud.1, v2 := v })

/-- The edge of the front of the list of the wire. -/
def wireFront (st : Topo C V K) (w : TWire K) : R (TEdge C K) := do
  let i ← rd w.ids 0
  rd st.edges i

/-- The edge of the back of the list of the wire. -/
def wireBack (st : Topo C V K) (w : TWire K) : R (TEdge C K) := do
  let n ← usub w.ids.length 1
  let i ← rd w.ids n
  rd st.edges i

/-- `Wire::isClosed`, `inc/topology/wire.h:217-228`. -/
def wireClosed (st : Topo C V K) (w : TWire K) : R Bool :=
  if w.ids.length = 0 then pure false
  else do
    let f ← wireFront st w
    let b ← wireBack st w
    pure (decide (f.v1 = b.v2))

/-- `distance(a->point(), b->point()) < approximationTolerance()`. -/
def wireNear (st : Topo C V K) (w : TWire K) (a b : ℕ) : R Bool := do
  let p ← rd st.pos a
  let q ← rd st.pos b
  pure (decide (o.dist p q < w.tol))

/-- `Wire::fuseVertex2`, `inc/topology/wire.h:99-110`: the result of `setVertex2` is not used. -/
def fuseVertex2 (st : Topo C V K) (w : TWire K) (id : ℕ) : R (Bool × Topo C V K) := do
  let f ← wireFront st w
  let e ← rd st.edges id
  let near ← wireNear o st w f.v1 e.v2
  if near then do
    let r ← setVertex2 o st.pos e f.v1
    let edges ← wr st.edges id r.2
    pure (true, { st with edges := edges })
  else pure (false, st)

/-- `Wire(ed)` of a shared edge, `inc/topology/wire.h:118-122`; the tolerance is the default one of `BaseTopo`. -/
def wireOf (tol : K) (st : Topo C V K) (id : ℕ) : R (Topo C V K × TWire K) := do
  let w : TWire K := ⟨[id], tol⟩
  let r ← fuseVertex2 o st w id
  pure (r.2, w)

/-- The edge near the end of the wire, `inc/topology/wire.h:146-153`: the result of `setVertex1` is not used. -/
def addAtBack (st : Topo C V K) (w : TWire K) (id : ℕ) : R (Bool × Topo C V K × TWire K) := do
  let b ← wireBack st w
  let e ← rd st.edges id
  let near ← wireNear o st w b.v2 e.v1
  if near then do
    let r ← setVertex1 o st.pos e b.v2
    let edges ← wr st.edges id r.2
    pure (true, { st with edges := edges }, { w with ids := w.ids ++ [id] })
  else pure (false, st, w)

/-- The edge near the start of the wire, `inc/topology/wire.h:154-167`: the result of `setVertex2` is not used. -/
def addAtFront (st : Topo C V K) (w : TWire K) (id : ℕ) (added : Bool) : R (Bool × Topo C V K × TWire K) := do
  let f ← wireFront st w
  let e ← rd st.edges id
  let near ← wireNear o st w f.v1 e.v2
  if near then do
    let r ← setVertex2 o st.pos e f.v1
    let edges ← wr st.edges id r.2
    pure (true, { st with edges := edges }, if added then w else { w with ids := id :: w.ids })
  else pure (added, st, w)

/-- `Wire::addEdge` of a shared edge, `inc/topology/wire.h:124-172`: the result, the objects and the wire after. -/
def addEdge (st : Topo C V K) (w : TWire K) (id : ℕ) : R (Bool × Topo C V K × TWire K) :=
  if w.ids.length = 0 then pure (true, st, { w with ids := [id] })
  else do
    let closed ← wireClosed st w
    if closed then pure (false, st, w)
    else do
      let f ← wireFront st w
      let b ← wireBack st w
      let e ← rd st.edges id
      if f.v1 = e.v2 then pure (true, st, { w with ids := id :: w.ids })
      else if b.v2 = e.v1 then pure (true, st, { w with ids := w.ids ++ [id] })
      else do
        let r ← addAtBack o st w id
        addAtFront o r.2.1 r.2.2 id r.1

/-- `Wire::addEdge` of an edge by reference, `inc/topology/wire.h:174-179`: a copy is added. -/
def addEdgeCopy (st : Topo C V K) (w : TWire K) (e : TEdge C K) : R (Bool × Topo C V K × TWire K) :=
  addEdge o { st with edges := st.edges ++ [e] } w st.edges.length

/-- Segments added one after the other to a wire, `w.addEdge({p, q})` as in `tests/tests_topo.cpp:87-90`: the results in the order of the calls. -/
def addSegments (etol : K) : Topo C V K → TWire K → List (V × V) → R (List Bool × Topo C V K × TWire K)
  | st, w, [] => pure ([], st, w)
  | st, w, pq :: l => do
    let (st1, id) := edgeOfPoints o etol st pq.1 pq.2
    let (b, st2, w2) ← addEdge o st1 w id
    let (bs, st3, w3) ← addSegments etol st2 w2 l
    pure (b :: bs, st3, w3)

/-- `Edge::tessellate`, `inc/topology/edge.h:171-193`: the points of the vertices that are made; `pts` are the points of `discretize`. -/
def tessellate (st : Topo C V K) (disc : C → R (List V)) (id : ℕ) : R (List V) := do
  let e ← rd st.edges id
  let pts ← disc e.crv
  let p ← rd st.pos e.v1
  let pts ← wr pts 0 p
  let q ← rd st.pos e.v2
  let n ← usub pts.length 1
  wr pts n q

end Gbs
