import Verif.Model.Basic
import Mathlib.Algebra.Order.Field.Basic

/-!
# Model of the elliptic smoothing of structured meshes, `gbs-mesh/smoothing.h`

Points of the plane are pairs. The steps `d_ksi`, `d_eth` are computed where they are used: infinite steps that no node uses are not an error. A null
denominator is `divZero`. The `do … while` loop runs once, and then as many times as are left.
-/

namespace Gbs

variable {K : Type} [Field K] [LinearOrder K]

/-- The new place of the node `(i,j)`, `gbs-mesh/smoothing.h:12-27`, `40-50`. -/
def smoothNode (ni nj : ℕ) (pts : List (K × K)) (i j : ℕ) : R (K × K) := do
  let dk ← fdiv 1 ((ni : K) - 1)
  let de ← fdiv 1 ((nj : K) - 1)
  let im ← usub i 1
  let jm ← usub j 1
  let e ← rd pts (j + nj * (i + 1))
  let w ← rd pts (j + nj * im)
  let n ← rd pts (j + 1 + nj * i)
  let s ← rd pts (jm + nj * i)
  let ne ← rd pts (j + 1 + nj * (i + 1))
  let se ← rd pts (jm + nj * (i + 1))
  let sw ← rd pts (jm + nj * im)
  let nw ← rd pts (j + 1 + nj * im)
  let xk := (e.1 - w.1) / (2 * dk)
  let yk := (e.2 - w.2) / (2 * dk)
  let xe := (n.1 - s.1) / (2 * de)
  let ye := (n.2 - s.2) / (2 * de)
  let a := xe * xe + ye * ye
  let b := xk * xe + yk * ye
  let c := xk * xk + yk * yk
  let den := a / dk / dk + c / de / de
  let f (e w n s ne se sw nw : K) := (a / dk / dk * (e + w) + c / de / de * (n + s) - b / 2 / dk / de * (ne - se + sw - nw)) / 2
  let x ← fdiv (f e.1 w.1 n.1 s.1 ne.1 se.1 sw.1 nw.1) den
  let y ← fdiv (f e.2 w.2 n.2 s.2 ne.2 se.2 sw.2 nw.2) den
  pure (x, y)

/-- One iteration, `gbs-mesh/smoothing.h:33-60`: `pts` is read, `pts_` is written. -/
def smoothSweep (ni nj i1 i2 j1 j2 : ℕ) (pts pts_ : List (K × K)) : R (List (K × K) × K) :=
  forLt (i1 + 1) i2 (fun i s => forLt (j1 + 1) j2 (fun j s => do
    let x ← smoothNode ni nj pts i j
    let q ← wr s.1 (j + nj * i) x
    let p ← rd pts (j + nj * i)
    let err := |x.1 - p.1| + |x.2 - p.2|
    pure (q, if s.2 < err then err else s.2)) s) (pts_, 0)

/-- The iterations, `gbs-mesh/smoothing.h:31-64`; `k` is the number of those left after this one, `it` the number of those made. -/
def smoothLoop (ni nj i1 i2 j1 j2 : ℕ) (tol : K) : ℕ → ℕ → List (K × K) → List (K × K) → R (List (K × K) × ℕ × K)
  | k, it, pts, pts_ => do
    let (q, err) ← smoothSweep ni nj i1 i2 j1 j2 pts pts_
    match k with
    | 0 => pure (q, it + 1, err)
    | k + 1 => if tol < err then smoothLoop ni nj i1 i2 j1 j2 tol k (it + 1) q pts else pure (q, it + 1, err)

/-- `elliptic_structured_smoothing`, `gbs-mesh/smoothing.h:5-66`: the points, the number of iterations and the last displacement. -/
def smooth (pts : List (K × K)) (nj i1 i2 j1 j2 nIt : ℕ) (tol : K) : R (List (K × K) × ℕ × K) :=
  if nj = 0 then .error .divZero
  else smoothLoop (pts.length / nj) nj i1 i2 j1 j2 tol (nIt - 1) 0 pts pts

/-- The Python function `elliptic_structured_smoothing`, `python/gbsbindmesh.cpp:192-198`: the tolerance is passed in the place of the number of iterations
(converted by `trunc`), and the tolerance is the default one, `1e-4`. Simplification: only the points are returned by the code. -/
def smoothPython (trunc : K → ℕ) (pts : List (K × K)) (nj i1 i2 j1 j2 _nIt : ℕ) (tol : K) : R (List (K × K) × ℕ × K) :=
  smooth pts nj i1 i2 j1 j2 (trunc tol) (1 / 10000)

end Gbs
