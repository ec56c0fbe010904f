import Verif.Model.Wrapped
import Verif.Model.Transform

/-!
# Model of the derivatives along the lines of a surface (`gbs/bssurf.h`) and of the lines tangent and normal to a curve (`gbs/bscanalysis.h`)

The lists are read one after the other; the code does it in parallel when they are long.
-/

namespace Gbs

variable {K : Type} [Field K] [LinearOrder K] {n : ℕ}

/-- `Surface::derivatives`, `gbs/bssurf.h:245-250`: the orders `(a,b)` at the places `a (nv+1) + b`. -/
def ASurface.derivatives {V : Type} (s : ASurface K V) (u v : K) (nu nv : ℕ) : R (List V) := do
  let rows ← (List.range (nu + 1)).mapM fun a => (List.range (nv + 1)).mapM fun b => s.value u v a b
  pure rows.flatten

/-- `d_dmu`, `gbs/bssurf.h:257-261`. -/
def ASurface.dDmu (sqrt : K → K) (s : ASurface K (Fin n → K)) (u v : K) : R (Fin n → K) := do
  let x ← s.value u v 1 0
  vdiv x (vnorm sqrt x)

/-- `d_dmv`, `gbs/bssurf.h:268-272`. -/
def ASurface.dDmv (sqrt : K → K) (s : ASurface K (Fin n → K)) (u v : K) : R (Fin n → K) := do
  let x ← s.value u v 0 1
  vdiv x (vnorm sqrt x)

/-- `d_dmu2`, `gbs/bssurf.h:279-288`. -/
def ASurface.dDmu2 (s : ASurface K (Fin n → K)) (u v : K) : R (Fin n → K) := do
  let S ← s.derivatives u v 2 0
  let x1 ← rd S 1
  let x2 ← rd S 2
  let N := sqNorm x1
  vdiv (N • x2 - dotV x1 x2 • x1) (N * N)

/-- `d_dmv2`, `gbs/bssurf.h:294-303`. -/
def ASurface.dDmv2 (s : ASurface K (Fin n → K)) (u v : K) : R (Fin n → K) := do
  let S ← s.derivatives u v 0 2
  let x1 ← rd S 1
  let x2 ← rd S 2
  let N := sqNorm x1
  vdiv (N • x2 - dotV x1 x2 • x1) (N * N)

/-- `d_dmus`, `gbs/bssurf.h:313-323`. -/
def ASurface.dDmus (sqrt : K → K) (s : ASurface K (Fin n → K)) (uv : List (K × K)) : R (List (Fin n → K)) := uv.mapM fun p => s.dDmu sqrt p.1 p.2

/-- `d_dmvs`, `gbs/bssurf.h:333-343`. -/
def ASurface.dDmvs (sqrt : K → K) (s : ASurface K (Fin n → K)) (uv : List (K × K)) : R (List (Fin n → K)) := uv.mapM fun p => s.dDmv sqrt p.1 p.2

/-- `d_dmu2s`, `gbs/bssurf.h:353-363`. -/
def ASurface.dDmu2s (s : ASurface K (Fin n → K)) (uv : List (K × K)) : R (List (Fin n → K)) := uv.mapM fun p => s.dDmu2 p.1 p.2

/-- `d_dmv2s`, `gbs/bssurf.h:373-383`. -/
def ASurface.dDmv2s (s : ASurface K (Fin n → K)) (uv : List (K × K)) : R (List (Fin n → K)) := uv.mapM fun p => s.dDmv2 p.1 p.2

/-- `tangential_direction`, `gbs/bscanalysis.h:579-583`. -/
def tangentialDirection (sqrt : K → K) (c : ACurve K (Fin n → K)) (u : K) : R (Fin n → K) := do
  let tg ← c.value u 1
  vdiv tg (vnorm sqrt tg)

/-- `tangential_line`, `gbs/bscanalysis.h:594-597`. -/
def tangentialLine (sqrt : K → K) (c : ACurve K (Fin n → K)) (u : K) : R ((Fin n → K) × (Fin n → K)) := do
  let P ← c.value u 0
  let d ← tangentialDirection sqrt c u
  pure (P, d)

/-- `normal_direction` in space, `gbs/bscanalysis.h:624-631`. -/
def normalDirection3 (sqrt : K → K) (c : ACurve K (Fin 3 → K)) (u : K) : R (Fin 3 → K) := do
  let tg ← c.value u 1
  let cu ← c.value u 2
  let m := cross3 tg cu
  let m ← vdiv m (vnorm sqrt m)
  vdiv (cross3 tg m) (vnorm sqrt tg)

/-- `normal_line` in space, `gbs/bscanalysis.h:641-645`. -/
def normalLine3 (sqrt : K → K) (c : ACurve K (Fin 3 → K)) (u : K) : R ((Fin 3 → K) × (Fin 3 → K)) := do
  let P ← c.value u 0
  let d ← normalDirection3 sqrt c u
  pure (P, d)

end Gbs
