import Verif.Model.Ranges
import Verif.Model.SurfApprox
import Verif.Model.Transform
import Verif.Model.Wrapped

/-!
# Model of the offsets of surfaces, `gbs/offsets.h`

Polynomial surfaces; for rational ones `offset_approx` gives points without weights to a constructor that takes weighted ones, which does not compile.
The transformation of the grid runs in parallel; each point is written to its own place.
-/

namespace Gbs

variable {K : Type} [Field K] [LinearOrder K]

/-- The kernel, `gbs/offsets.h:26-35`; a division by a null norm is undefined. -/
def offsetPoint (sqrt : K → K) (f : K → K → R K) (s : ASurface K (Fin 3 → K)) (u v : K) : R (Fin 3 → K) := do
  let pt ← s.value u v 0 0
  let tu ← s.value u v 1 0
  let tv ← s.value u v 0 1
  let n := cross3 tu tv
  let n ← vdiv n (vnorm sqrt n)
  let h ← f u v
  pure (pt + h • n)

/-- `offset_points`, `gbs/offsets.h:8-37`. -/
def offsetPoints (sqrt : K → K) (f : K → K → R K) (s : ASurface K (Fin 3 → K)) (u v : List K) : R (List (Fin 3 → K)) := do
  let nu := u.length
  let nv := v.length
  let uv ← forLt 0 nv (fun j uv => forLt 0 nu (fun i uv => do
    let a ← rd u i
    let b ← rd v j
    wr uv (j * nu + i) (a, b)) uv) (List.replicate (nu * nv) (0, 0))
  uv.mapM fun x => offsetPoint sqrt f s x.1 x.2

/-- A `BSSurface` as a `Surface`. -/
def Surface.asSurface {V : Type} [AddCommGroup V] [Module K V] (eps junk : K) (s : Surface K V) : ASurface K V :=
  ⟨s.u0, s.u1, s.v0, s.v1, fun u v du dv => s.value eps junk u v du dv⟩

/-- `offset_approx`, `gbs/offsets.h:39-63`. -/
def offsetApprox (eps junk : K) (sqrt : K → K) (dense : ℕ → (ℕ → ℕ → K) → List (Fin 3 → K) → R (List (Fin 3 → K))) (f : K → K → R K)
    (s : Surface K (Fin 3 → K)) (nu nv : ℕ) : R (Surface K (Fin 3 → K)) := do
  let u ← makeRange s.u0 s.u1 nu
  let v ← makeRange s.v0 s.v1 nv
  let pts ← offsetPoints sqrt f (s.asSurface eps junk) u v
  let poles ← approxGrid eps junk dense pts s.knotsU s.knotsV u v s.degU s.degV
  Surface.mk? eps poles s.knotsU s.knotsV s.degU s.degV

end Gbs
