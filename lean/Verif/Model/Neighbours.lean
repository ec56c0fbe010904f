import Verif.Model.HalfEdge

/-!
# Faces next to a face

`getCommonEdges`, `getPreviousFace`, `getNextFace` and `getNeighboringFaces`, `inc/topology/halfEdgeMeshGetters.h:267-316`, `401-416`.
-/

namespace Gbs

namespace Mesh

variable {P : Type}

/-- `h_e->opposite ? h_e->opposite->face : nullptr`. -/
def oppFace (h : Mesh P) (e : ℕ) : Option ℕ :=
  match (h.he e).opp with
  | some o => (h.he o).face
  | none => none

/-- `getCommonEdges`, `inc/topology/halfEdgeMeshGetters.h:267-275`. -/
def getCommonEdges (h : Mesh P) (f1 f2 : ℕ) : R (Option ℕ × Option ℕ) := do
  let e ← h.getCommonEdge f1 f2
  match e with
  | some e => pure (some e, (h.he e).opp)
  | none => pure (none, none)

/-- `getPreviousFace`, `inc/topology/halfEdgeMeshGetters.h:285-296`. -/
def getPreviousFace (h : Mesh P) (e : ℕ) : Option ℕ :=
  match (h.he e).next with
  | some n => h.oppFace n
  | none => none

/-- `getNextFace`, `inc/topology/halfEdgeMeshGetters.h:306-316`. -/
def getNextFace (h : Mesh P) (e : ℕ) : Option ℕ := h.oppFace e

/-- `getNeighboringFaces`, `inc/topology/halfEdgeMeshGetters.h:401-416`: the faces, then `remove(nullptr)`. -/
def getNeighboringFaces (h : Mesh P) (f : ℕ) : R (List ℕ) := do
  let l ← h.getFaceEdges f
  pure ((l.map h.oppFace).filterMap id)

end Mesh

end Gbs
