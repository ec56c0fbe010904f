import Verif.Model.Extrema

/-!
# Model of the lattices of curves of `gbs-mesh/tfi.h`: their crossings, their check, the projection of the nodes, and the lines of a surface

The searches of nearest points are those of `Model/Extrema.lean`, with NLopt as a parameter. `project_points_on_surface` runs in parallel and each
iteration writes its own point; the model runs it in order. A thrown exception of a parallel algorithm terminates the program; the model keeps the exception.
-/

namespace Gbs

variable {K : Type} [Field K] [LinearOrder K] {n : ℕ}

/-- One call of the loops, `gbs-mesh/tfi.h:742-746`, `755-759`: the number `d` is the one answered by `extrema_curve_curve`. -/
def meetingOf (sqrt : K → K) (big : K) (opt : Nlopt K) (tol : K) (eth ksi : ACurve K (Fin n → K)) : R (K × K) := do
  let (a, b, d) ← extremaCurveCurve sqrt big opt eth ksi tol 30 30
  if tol < d then .error (.thrown .invalid) else pure (a, b)

/-- `lattice_intersections`, `gbs-mesh/tfi.h:729-764`. -/
def latticeIntersections (sqrt : K → K) (big : K) (opt : Nlopt K) (isoKsi isoEth : List (ACurve K (Fin n → K))) (tol : K) :
    R (List (List K) × List (List K)) := do
  let ksi ← isoEth.mapM fun e => isoKsi.mapM fun k => do
    let x ← meetingOf sqrt big opt tol e k
    pure x.1
  let eth ← isoKsi.mapM fun k => isoEth.mapM fun e => do
    let x ← meetingOf sqrt big opt tol e k
    pure x.2
  pure (ksi, eth)

/-- A loop that returns `false` at the first element that does not pass. -/
def allPass {α : Type} (f : α → R Bool) : List α → R Bool
  | [] => pure true
  | a :: l => do
    let b ← f a
    if b then allPass f l else pure false

/-- `check_curve_lattice`, `gbs-mesh/tfi.h:460-480`. -/
def checkCurveLattice (sqrt : K → K) (isoKsi isoEth : List (ACurve K (Fin n → K))) (ksi eth : List K) (tol : K) : R Bool :=
  allPass (fun i => allPass (fun j => do
    let e ← rd isoEth j
    let a ← rd ksi i
    let P ← e.value a 0
    let k ← rd isoKsi i
    let b ← rd eth j
    let Q ← k.value b 0
    pure (!decide (tol < vnorm sqrt (P - Q)))) (List.range eth.length)) (List.range ksi.length)

/-- `project_points_on_surface`, `gbs-mesh/tfi.h:659-673`. -/
def projectPoints (sqrt : K → K) (opt : Nlopt K) (s : ASurface K (Fin n → K)) (pts : List (Fin n → K)) (tol : K) : R (List (Fin n → K)) :=
  pts.mapM fun p => do
    let (u, v, _) ← extremaSurfPnt sqrt opt s p tol 30 30
    s.value u v 0 0

/-- A line of a surface between two couples of parameters, `gbs-mesh/tfi.h:795-796`, `800-801`. -/
def isoSegment (eps junk : K) (sqrt : K → K) (s : ASurface K (Fin n → K)) (p q : Fin 2 → K) : R (ACurve K (Fin n → K)) := do
  let c ← buildSegment eps sqrt p q false
  pure ((c.toA eps junk).onSurface s)

/-- The lines `ksi = cst` and `eth = cst` of `tfi_mesh_2d` from a surface, `gbs-mesh/tfi.h:792-803`; `front` and `back` of an empty list are read only
when the other list has an element. -/
def isoLines (eps junk : K) (sqrt : K → K) (s : ASurface K (Fin n → K)) (ksi eth : List K) : R (List (ACurve K (Fin n → K)) × List (ACurve K (Fin n → K))) := do
  let isoEth ← eth.mapM fun b => do
    let f ← rd ksi 0
    let l ← rd ksi (ksi.length - 1)
    isoSegment eps junk sqrt s ![f, b] ![l, b]
  let isoKsi ← ksi.mapM fun a => do
    let f ← rd eth 0
    let l ← rd eth (eth.length - 1)
    isoSegment eps junk sqrt s ![a, f] ![a, l]
  pure (isoKsi, isoEth)

end Gbs
