import Verif.Model.Transform

/-! # Deviation of a triangle from a surface -/

namespace Gbs

variable {K : Type} [Field K] [LinearOrder K]

/-- `surface_triangle_deviation`, `inc/topology/baseGeom.h:200-218`, for a surface of the space. `S u v i j` is the derivative of order `(i, j)` of the surface.
The centroid of the three points, line 207, is not used. -/
def triDeviation (sqrt : K → K) (S : K → K → ℕ → ℕ → R (Fin 3 → K)) (p q r : K × K) : R K := do
  let v1 ← S p.1 p.2 0 0
  let v2 ← S q.1 q.2 0 0
  let v3 ← S r.1 r.2 0 0
  let u := (p.1 + q.1 + r.1) / 3
  let v := (p.2 + q.2 + r.2) / 3
  let n ← adimV sqrt (cross3 (v2 - v1) (v3 - v1))
  let du ← S u v 1 0
  let dv ← S u v 0 1
  let m ← adimV sqrt (cross3 du dv)
  pure (vnorm sqrt (n - m))

end Gbs
