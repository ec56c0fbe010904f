import Verif.Model.BoyerWatson
import Verif.Model.EdgeRecovery

/-!
# Constrained triangulation of a polygon with holes

`delaunay2DConstrained`, `inc/topology/tessellations.h:331-447`. The coordinates are exact. The sets of pointers are the lists of their elements, the queue is
the list of its elements in order. The function returns the list of faces; the store is returned with it.
-/

namespace Gbs

variable {K : Type} [Field K] [LinearOrder K]

namespace Mesh

/-- The insertions and the vertices they create, `none` for null, lines 362-371. -/
def insertTracked : Mesh (K × K) × List ℕ → List (K × K) → R ((Mesh (K × K) × List ℕ) × List (Option ℕ))
  | s, [] => pure (s, [])
  | s, x :: X => do
    let r ← s.1.boyerWatson s.2 x
    let (s, vs) ← insertTracked r.1 X
    pure (s, r.2.map (fun v => v.1) :: vs)

/-- The pairs `(vtx[i], vtx[(i + 1) % n])` of a ring. -/
def ringPairs {α : Type} (l : List α) : List (α × α) := l.zip (l.rotate 1)

/-- The vertices of each ring: the vertices are created ring after ring. -/
def splitRings {α : Type} : List ℕ → List α → List (List α)
  | [], _ => []
  | n :: ns, l => l.take n :: splitRings ns (l.drop n)

/-- The recovery of the edges of the rings, lines 383-399. -/
def recoverRings (tol : K) : List (Option ℕ × Option ℕ) → Mesh (K × K) → List ℕ → R (Mesh (K × K) × List ℕ)
  | [], h, cons => pure (h, cons)
  | (some p, some q) :: l, h, cons => do
    let (h, r) ← h.recoverEdge tol p q
    match r with
    | none => recoverRings tol l h cons
    | some e => recoverRings tol l h (cons ++ e :: (h.he e).opp.toList)
  | _ :: l, h, cons => recoverRings tol l h cons

/-- The faces on the left of the edges of the rings, lines 406-417: the set and the queue. -/
def seedRings (h : Mesh (K × K)) : List (Option ℕ × Option ℕ) → List ℕ → R (List ℕ)
  | [], s => pure s
  | (some p, some q) :: l, s => do
    let r ← h.findHalfEdge p q
    match r.bind fun e => (h.he e).face with
    | none => seedRings h l s
    | some f => seedRings h l (if f ∈ s then s else s ++ [f])
  | _ :: l, s => seedRings h l s

/-- The body of the loop on the edges of a face, lines 422-429. -/
def fillEdge (h : Mesh (K × K)) (cons : List ℕ) (s : List ℕ × List ℕ) (e : ℕ) : List ℕ × List ℕ :=
  if e ∈ cons then s
  else
    match h.faceAcross e with
    | none => s
    | some g => if g ∈ s.1 then s else (s.1 ++ [g], s.2 ++ [g])

/-- The flood fill, lines 418-430; every face enters the queue at most once. -/
def fillFaces (h : Mesh (K × K)) (cons : List ℕ) : ℕ → List ℕ × List ℕ → R (List ℕ)
  | _, (inside, []) => pure inside
  | 0, (_, _ :: _) => .error .noEnd
  | k + 1, (inside, f :: queue) => do
    let es ← h.getTriangleEdges f
    fillFaces h cons k (es.foldl (h.fillEdge cons) (inside, queue))

/-- Steps 2 to 4, lines 381-436. -/
def keepInterior (tol : K) (h : Mesh (K × K)) (F : List ℕ) (pairs : List (Option ℕ × Option ℕ)) : R (Mesh (K × K) × List ℕ) := do
  let (h, cons) ← recoverRings tol pairs h []
  let seeds ← h.seedRings pairs []
  let inside ← h.fillFaces cons (h.nF + 1) (seeds, seeds)
  pure (h, F.filter fun f => decide (f ∈ inside))

/-- `delaunay2DConstrained`, `inc/topology/tessellations.h:331-440`; `corners` stands for the order of removal of the four corners. -/
def delaunay2DConstrained (pc tol : K) (corners : List ℕ) (outer : List (K × K)) (holes : List (List (K × K))) : R (Mesh (K × K) × List ℕ) := do
  let rings := outer :: holes.map List.reverse
  let s ← getEncompassingMesh pc rings.flatten
  let (s, vs) ← insertTracked s rings.flatten
  let (h, F) ← removeAll s corners
  let h ← h.repairVertexEdges F
  keepInterior tol h F ((splitRings (rings.map List.length) vs).map ringPairs).flatten

end Mesh

end Gbs
