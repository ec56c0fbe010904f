import Verif.Model.SurfaceDegree
import Verif.Model.Join

/-!
# Model of the junction and the splitting of surfaces (`gbs/bsstools.h`)

The poles of rational surfaces are homogeneous. With one rational and one polynomial surface `join` does not compile (the poles
do not have the same type), so that both have the same type here.
-/

namespace Gbs

variable {K : Type} [Field K] [LinearOrder K]
variable {V : Type} [AddCommGroup V] [Module K V]

/-- The `while` loops of `join`, `gbs/bsstools.h:182-183`. -/
def Surface.raiseDegreeU (eps : K) (s : Surface K V) (q : ℕ) : R (Surface K V) := forLt s.degU q (fun _ s => s.increaseDegreeU eps) s

/-- The comparison of the knots along V, `gbs/bsstools.h:185-192`. -/
def checkSameKnots (eps : K) (k1 k2 : List K) : R Unit :=
  if k2.length ≠ k1.length then .error (.thrown .runtime)
  else forLt 0 k2.length (fun i _ => do
    let a ← rd k2 i
    let b ← rd k1 i
    if eps < |a - b| then .error (.thrown .runtime) else pure ()) ()

/-- The poles of the joined surface, `gbs/bsstools.h:205-218`: row by row, the poles of the first surface and those of the second one without
the first of the row. -/
def joinRows (P1 P2 : List V) (n1 n2 m : ℕ) : R (List V) :=
  forLt 0 m (fun i P =>
    if P1.length < i * n1 + n1 then .error .oob
    else if P2.length < i * n2 + n2 ∨ n2 = 0 then .error .oob
    else pure (P ++ (P1.drop (i * n1)).take n1 ++ (P2.drop (i * n2 + 1)).take (n2 - 1))) []

/-- `join`, `gbs/bsstools.h:174-240`; the knots along U are joined as those of curves. -/
def joinSurfaces (eps : K) (s1 s2 : Surface K V) : R (Surface K V) := do
  let a ← Surface.mk? eps s1.poles s1.knotsU s1.knotsV s1.degU s1.degV
  let b ← Surface.mk? eps s2.poles s2.knotsU s2.knotsV s2.degU s2.degV
  let a ← a.raiseDegreeU eps b.degU
  let b ← b.raiseDegreeU eps a.degU
  checkSameKnots eps a.knotsV b.knotsV
  let nu ← a.nU
  let nv ← a.nV
  let nuExt ← b.nU
  let P ← joinRows a.poles b.poles nu nuExt nv
  let U ← joinKnots a.knotsU b.knotsU b.degU
  Surface.mk? eps P U a.knotsV a.degU a.degV

/-- `split_u`, `gbs/bsstools.h:249-266`; the assertion is compiled out. -/
def splitU (eps : K) (s : Surface K V) (u : K) : R (Surface K V × Surface K V) := do
  let a ← s.trimU eps s.u0 u
  let b ← s.trimU eps u s.u1
  pure (a, b)

/-- `split_v`, `gbs/bsstools.h:274-291`. -/
def splitV (eps : K) (s : Surface K V) (v : K) : R (Surface K V × Surface K V) := do
  let a ← s.trimV eps s.v0 v
  let b ← s.trimV eps v s.v1
  pure (a, b)

end Gbs
