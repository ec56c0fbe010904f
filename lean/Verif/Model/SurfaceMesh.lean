import Verif.Model.BoyerWatson
import Verif.Model.Discretize

/-!
# Model of the meshes of surfaces, `inc/topology/tessellations.h`

The surface is any object derived from `Surface`: its values are a parameter, and its bounds. The lists of shared pointers are lists of indices.
-/

namespace Gbs

variable {K : Type} [Field K] [LinearOrder K]
variable {V : Type} [AddCommGroup V]

section boundary

variable (nrm : V → K) (ncross : V → V → K) (devMax : K) (srf : K → K → R V)

/-- `++l.begin()` and what follows, undefined for an empty list. -/
def afterFirst {α : Type} : List α → R (List α)
  | [] => .error .oob
  | _ :: l => pure l

/-- `meshSurfaceBoundary`, `inc/topology/tessellations.h:39-64`, with the default maximum of parameters `nMax`. The vector of the coordinates is created with
the sum of the sizes of the lists; the elements that are not written are `{0,0}`. -/
def meshSurfaceBoundary (fuel : ℕ) (u1 u2 v1 v2 : K) (nu nv nMax : ℕ) : R (List (K × K)) := do
  let us1 ← deviationIsoParams nrm ncross devMax (fun u => srf u v1) fuel u1 u2 nu nMax
  let us2 ← deviationIsoParams nrm ncross devMax (fun u => srf u v2) fuel u1 u2 nu nMax
  let us2 := us2.reverse
  let vs1 ← deviationIsoParams nrm ncross devMax (fun v => srf u1 v) fuel v1 v2 nv nMax
  let vs1 := vs1.reverse
  let vs2 ← deviationIsoParams nrm ncross devMax (fun v => srf u2 v) fuel v1 v2 nv nMax
  let n := us1.length + us2.length + vs1.length + vs2.length
  let vs2' ← afterFirst vs2
  let vs1' ← afterFirst vs1
  let written := us1.map (fun u => (u, v1)) ++ vs2'.map (fun v => (u2, v)) ++ us2.map (fun u => (u, v2)) ++ vs1'.map (fun v => (u1, v))
  pure (written ++ List.replicate (n - written.length) (0, 0))

namespace Mesh

/-- `delaunay2DBoyerWatsonSurfaceBase`, `inc/topology/tessellations.h:589-608`: the same steps as `delaunay2DBoyerWatson` on the points of the border. -/
def surfaceBase (pc : K) (corners : List ℕ) (fuel : ℕ) (u1 u2 v1 v2 : K) (nu nv nMax : ℕ) : R (Mesh (K × K) × List ℕ) := do
  let X ← meshSurfaceBoundary nrm ncross devMax srf fuel u1 u2 v1 v2 nu nv nMax
  let s ← getEncompassingMesh pc X
  let s ← insertAll s X
  removeAll s corners

end Mesh

end boundary

namespace Mesh

/-- What a criterion of `inc/topology/halfEdgeMeshQuality.h` looks at in a face: for each half-edge where it starts, where it ends, and if it has an
opposite. -/
def faceView (h : Mesh (K × K)) (f : ℕ) : R (List ((K × K) × (K × K) × Bool)) := do
  let es ← h.getFaceEdges f
  es.mapM fun e => do
    let a ← h.startCo e
    let b ← h.endCo e
    pure (a, b, (h.he e).opp.isSome)

/-- `std::max_element` of the faces by their quality, lines 482-487: the first of the greatest. `operator[]` of a map gives 0 for what it has not. The
end of an empty list is dereferenced. -/
def worstFace (q : ℕ → Option K) : List ℕ → R ℕ
  | [] => .error .oob
  | f :: F => pure (F.foldl (fun best g => if (q best).getD 0 < (q g).getD 0 then g else best) f)

variable (crit : List ((K × K) × (K × K) × Bool) → K × (K × K))

/-- `update_face_quality`, lines 468-470. -/
def updateQuality (h : Mesh (K × K)) (q : ℕ → Option K) (f : ℕ) : R (ℕ → Option K) := do
  let v ← h.faceView f
  pure (Function.update q f (some (crit v).1))

/-- `update_face_quality` of the faces of a list, lines 473-476, 499-502. -/
def updateAll (h : Mesh (K × K)) : (ℕ → Option K) → List ℕ → R (ℕ → Option K)
  | q, [] => pure q
  | q, f :: F => do
    let q ← updateQuality crit h q f
    updateAll h q F

/-- The loop of `delaunay2DBoyerWatsonSurfaceMeshRefine`, lines 480-503. `crit` is `none` when it is the greatest number. -/
def refineLoop (critMax : K) : ℕ → Option K → Mesh (K × K) × List ℕ → (ℕ → Option K) → R (Mesh (K × K) × List ℕ)
  | 0, _, s, _ => pure s
  | n + 1, c, s, q =>
    if (match c with | none => true | some c => decide (critMax < c)) then do
      let f ← worstFace q s.2
      let v ← s.1.faceView f
      let d := crit v
      let r ← s.1.boyerWatson s.2 d.2
      match r.2 with
      | none => refineLoop critMax n (some d.1) r.1 q
      | some (_, deleted, new) => do
        let q := fun g => if g ∈ deleted then none else q g
        let q ← updateAll crit r.1.1 q new
        refineLoop critMax n (some d.1) r.1 q
    else pure s

/-- `delaunay2DBoyerWatsonSurfaceMeshRefine`, `inc/topology/tessellations.h:460-506`. The criterion is a function of the view of the face. -/
def surfaceMeshRefine (critMax : K) (maxInner : ℕ) (s : Mesh (K × K) × List ℕ) : R (Mesh (K × K) × List ℕ) := do
  let q ← updateAll crit s.1 (fun _ => none) s.2
  refineLoop crit critMax maxInner none s q

/-- `sq_distance` of points of the plane. -/
def sqDist2 (a b : K × K) : K := (a.1 - b.1) * (a.1 - b.1) + (a.2 - b.2) * (a.2 - b.2)

/-- The first of the greatest, `std::max_element`. -/
def firstMax : List (K × (K × K)) → K × (K × K)
  | [] => (0, (0, 0))
  | x :: l => l.foldl (fun best y => if best.1 < y.1 then y else best) x

/-- `MaxEdgeSize`, and `MaxEdgeSizeSurface` on the surface `(u,v) ↦ (u,v,0)`, `inc/topology/halfEdgeMeshQuality.h:354-404`. -/
def maxEdgeSize (l : List ((K × K) × (K × K) × Bool)) : K × (K × K) :=
  firstMax (l.map fun e => if e.2.2 then (sqDist2 e.2.1 e.1, ((1 / 2) * (e.2.1.1 + e.1.1), (1 / 2) * (e.2.1.2 + e.1.2))) else (0, (0, 0)))

/-- `delaunay2DBoyerWatsonSurfaceMesh`, `inc/topology/tessellations.h:625-630`. -/
def surfaceMesh (nrm : V → K) (ncross : V → V → K) (devMax : K) (srf : K → K → R V) (critMax : K) (maxInner : ℕ) (pc : K) (corners : List ℕ) (fuel : ℕ)
    (u1 u2 v1 v2 : K) (nu nv nMax : ℕ) : R (Mesh (K × K) × List ℕ) := do
  let s ← surfaceBase nrm ncross devMax srf pc corners fuel u1 u2 v1 v2 nu nv nMax
  surfaceMeshRefine crit critMax maxInner s

end Mesh

end Gbs
