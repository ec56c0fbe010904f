import Verif.Model.HalfEdge
import Verif.Model.Geom2

/-!
# Faces around a vertex and recovery of edges

`inc/topology/halfEdgeMeshGetters.h:20-33` and `318-391`, `inc/topology/edgeRecovery.h`. Coordinates are exact, vertices given as arguments are not null.
-/

namespace Gbs

namespace Mesh

section
variable {P : Type}

/-- The loop of `getFaceEdge`, `inc/topology/halfEdgeMeshGetters.h:24-31`. -/
def faceEdgeFrom (h : Mesh P) (first : Option ℕ) (v : ℕ) : ℕ → ℕ → R (Option ℕ)
  | 0, _ => .error .noEnd
  | k + 1, e =>
    if (h.he e).vertex = some v then pure (some e)
    else if (h.he e).next = first then pure none
    else do
      let e' ← deref (h.he e).next
      faceEdgeFrom h first v k e'

/-- `getFaceEdge`, `inc/topology/halfEdgeMeshGetters.h:20-33`. -/
def getFaceEdge (h : Mesh P) (f v : ℕ) : R (Option ℕ) := do
  let e ← deref (h.fe f)
  h.faceEdgeFrom (h.fe f) v (h.nE + 1) e

/-- The first loop of `getFacesAttachedToVertex`, `inc/topology/halfEdgeMeshGetters.h:335-347`: the faces and the half-edge at which it stops. -/
def fanFirst (h : Mesh P) (start : ℕ) : ℕ → ℕ → List (Option ℕ) → R (List (Option ℕ) × Option ℕ)
  | 0, _, _ => .error .noEnd
  | k + 1, c, acc =>
    let acc := (h.he c).face :: acc
    match (h.he c).opp with
    | none => pure (acc, none)
    | some o =>
      match (h.he o).prev with
      | none => pure (acc, none)
      | some c' => if c' = start then pure (acc, some c') else fanFirst h start k c' acc

/-- The second loop, lines 352-356. -/
def fanSecond (h : Mesh P) (start : ℕ) : ℕ → ℕ → List (Option ℕ) → R (List (Option ℕ))
  | 0, _, _ => .error .noEnd
  | k + 1, c, acc => do
    let acc := acc ++ [(h.he c).face]
    let n ← deref (h.he c).next
    match (h.he n).opp with
    | none => pure acc
    | some c' => if c' = start then pure acc else fanSecond h start k c' acc

/-- `getFacesAttachedToVertex`, `inc/topology/halfEdgeMeshGetters.h:326-360`. -/
def getFacesAttachedToVertex (h : Mesh P) (v : ℕ) : R (List (Option ℕ)) := do
  let s ← deref (h.ve v)
  let (l, cur) ← h.fanFirst s (h.nE + 1) s []
  if cur ≠ some s then do
    let n ← deref (h.he s).next
    match (h.he n).opp with
    | none => pure l
    | some c => h.fanSecond s (h.nE + 1) c l
  else pure l

/-- The loop of `findHalfEdge`, `inc/topology/halfEdgeMeshGetters.h:383-389`. -/
def findIn (h : Mesh P) (v w : ℕ) : List (Option ℕ) → R (Option ℕ)
  | [] => pure none
  | f :: l => do
    let f ← deref f
    let inc ← h.getFaceEdge f v
    match inc with
    | none => findIn h v w l
    | some e =>
      match (h.he e).next with
      | none => findIn h v w l
      | some n => if (h.he n).vertex = some w then pure (some n) else findIn h v w l

/-- `findHalfEdge`, `inc/topology/halfEdgeMeshGetters.h:374-391`. -/
def findHalfEdge (h : Mesh P) (v w : ℕ) : R (Option ℕ) :=
  if h.ve v = none then pure none
  else do
    let l ← h.getFacesAttachedToVertex v
    h.findIn v w l

end

variable {K : Type} [Field K] [LinearOrder K]

/-- The loop on the edges of a face, `inc/topology/edgeRecovery.h:60-71`. -/
def crossEdge (h : Mesh (K × K)) (tol : K) (vp : ℕ) (p q : K × K) : List ℕ → R (Option ℕ)
  | [] => pure none
  | e :: l =>
    if (h.he e).vertex = some vp then crossEdge h tol vp p q l
    else do
      let s ← h.startV e
      if s = some vp then crossEdge h tol vp p q l
      else do
        let a ← h.startCo e
        let b ← h.endCo e
        let x ← segSegStrict tol p q a b
        if x then pure (some e) else crossEdge h tol vp p q l

/-- The first edge that the segment crosses, `inc/topology/edgeRecovery.h:57-74`. -/
def crossFace (h : Mesh (K × K)) (tol : K) (vp : ℕ) (p q : K × K) : List (Option ℕ) → R (Option ℕ)
  | [] => pure none
  | f :: l => do
    let f ← deref f
    let es ← h.getTriangleEdges f
    let x ← h.crossEdge tol vp p q es
    match x with
    | none => crossFace h tol vp p q l
    | some e => pure (some e)

/-- The edges that the segment crosses, last first, `inc/topology/edgeRecovery.h:82-110`; `none` for `return nullptr`. -/
def walkCross (h : Mesh (K × K)) (tol : K) (vq : ℕ) (p q : K × K) : ℕ → ℕ → List ℕ → R (Option (List ℕ))
  | 0, e, l => pure (some (e :: l))
  | k + 1, e, l =>
    match (h.he e).opp with
    | none => pure none
    | some i => do
      let n ← deref (h.he i).next
      if (h.he n).vertex = some vq then pure (some (e :: l))
      else do
        let r ← deref (h.he i).prev
        let la ← h.startCo n
        let lb ← h.endCo n
        let ra ← h.startCo r
        let rb ← h.endCo r
        let x ← segSegStrict tol p q la lb
        if x then walkCross h tol vq p q k n (e :: l)
        else do
          let y ← segSegStrict tol p q ra rb
          if y then walkCross h tol vq p q k r (e :: l) else pure none

/-- A pass, `inc/topology/edgeRecovery.h:126-175`: the mesh, the edges that remain, the edge recovered and whether an edge was flipped. -/
def recoverPass (tol : K) (vp vq : ℕ) (p q : K × K) : List ℕ → Mesh (K × K) → Option ℕ → R (Mesh (K × K) × List ℕ × Option ℕ × Bool)
  | [], h, fnd => pure (h, [], fnd, false)
  | e :: l, h, fnd =>
    match (h.he e).opp with
    | none => recoverPass tol vp vq p q l h fnd
    | some o => do
      let A ← h.startCo e
      let B ← h.endCo e
      let n ← deref (h.he e).next
      let C ← h.endCo n
      let on ← deref (h.he o).next
      let D ← h.endCo on
      if orient2d C B D ≤ tol ∨ orient2d D A C ≤ tol then do
        let (h, rem, fnd, any) ← recoverPass tol vp vq p q l h fnd
        pure (h, e :: rem, fnd, any)
      else do
        let f1 ← deref (h.he e).face
        let f2 ← deref (h.he o).face
        let h ← h.flip f1 f2
        let na ← h.startV e
        let nb := (h.he e).vertex
        if (na = some vp ∧ nb = some vq) ∨ (na = some vq ∧ nb = some vp) then do
          let fnd := if na = some vp then some e else (h.he e).opp
          let (h, rem, fnd, _) ← recoverPass tol vp vq p q l h fnd
          pure (h, rem, fnd, true)
        else do
          let a ← h.startCo e
          let b ← h.endCo e
          let x ← segSegStrict tol p q a b
          let (h, rem, fnd, _) ← recoverPass tol vp vq p q l h fnd
          pure (h, if x then e :: rem else rem, fnd, true)

/-- The passes, `inc/topology/edgeRecovery.h:123-178`; `none` for `return nullptr`. -/
def recoverPasses (tol : K) (vp vq : ℕ) (p q : K × K) : ℕ → Mesh (K × K) → List ℕ → Option ℕ → R (Mesh (K × K) × Option (Option ℕ))
  | 0, h, _, fnd => pure (h, some fnd)
  | k + 1, h, crossing, fnd =>
    if crossing.isEmpty then pure (h, some fnd)
    else do
      let (h, crossing, fnd, any) ← recoverPass tol vp vq p q crossing h fnd
      if any then recoverPasses tol vp vq p q k h crossing fnd else pure (h, none)

/-- `recoverEdge`, `inc/topology/edgeRecovery.h:32-183`. -/
def recoverEdge (h : Mesh (K × K)) (tol : K) (vp vq : ℕ) : R (Mesh (K × K) × Option ℕ) :=
  if vp = vq then pure (h, none)
  else do
    let e ← h.findHalfEdge vp vq
    match e with
    | some e => pure (h, some e)
    | none => do
      let e ← h.findHalfEdge vq vp
      match e with
      | some e => pure (h, (h.he e).opp)
      | none => do
        let p := h.co vp
        let q := h.co vq
        let faces ← h.getFacesAttachedToVertex vp
        let x ← h.crossFace tol vp p q faces
        match x with
        | none => pure (h, none)
        | some e => do
          let c ← h.walkCross tol vq p q 4096 e []
          match c with
          | none => pure (h, none)
          | some l => do
            let crossing := l.reverse
            let (h, r) ← recoverPasses tol vp vq p q (crossing.length * crossing.length + 8) h crossing none
            match r with
            | none => pure (h, none)
            | some (some e) => pure (h, some e)
            | some none => do
              let e ← h.findHalfEdge vp vq
              pure (h, e)

end Mesh

end Gbs
