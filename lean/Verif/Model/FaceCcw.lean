import Verif.Model.BaseDelaunay

/-! # Orientation of a face, crossing of a horizontal half-line -/

namespace Gbs

variable {K : Type} [Field K] [LinearOrder K]

/-- `is_ccw`, `inc/topology/halfEdgeMeshGeomTests.h:54-65`. The `assert` on the number of vertices is compiled out. The boolean of `are_ccw` is converted to a
number, `inc/topology/baseGeom.h:49`. -/
def Mesh.isCcw (h : Mesh (K × K)) (f : ℕ) : R K := do
  let vs ← h.getFaceVertices f
  let a ← rd vs 0
  let a ← deref a
  let b ← rd vs 1
  let b ← deref b
  let c ← rd vs 2
  let c ← deref c
  pure (if areCcw (h.co a) (h.co b) (h.co c) then 1 else 0)

/-- `seg_H_strict_end_intersection`, `inc/topology/baseIntersection.h:278-287`. -/
def segHStrict (tol : K) (a b c : K × K) : R Bool := segDStrict tol a b c (1, 0)

end Gbs
