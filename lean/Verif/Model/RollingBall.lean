import Verif.Model.Extrema

/-!
# Model of the rolling ball between two curves of the plane (`gbs/bscanalysis.h`, `gbs/solvers.h`, `gbs/curveline.h`)

NLopt is a parameter, as in `Verif.Model.Extrema`. Where the two normals are parallel the code divides by zero; the numbers that come out of it (infinite, or not
numbers) are not followed: the model stops.
-/

namespace Gbs

variable {K : Type} [Field K] [LinearOrder K]

/-- `solve_N_nlop`, `gbs/solvers.h:22-54`: the objective is the function itself. The algorithm has no gradient. -/
def solveN (opt : Nlopt K) (f : List K → R K) (x lb hb : List K) (tol : K) : R (List K × K) :=
  if inBox x lb hb then opt f (fun _ => pure []) x lb hb tol else .error (.thrown .invalid)

/-- `normal_line`, `gbs/bscanalysis.h:642-645`, in the plane, made a `Line`: the direction is made a unit vector once more,
`gbs/curveline.h:17-23`. The point and the direction of the line. -/
def normalLine2 (sqrt : K → K) (c : ACurve K (Fin 2 → K)) (u : K) : R ((Fin 2 → K) × (Fin 2 → K)) := do
  let P ← c.value u 0
  let tg ← c.value u 1
  let N ← normal2 sqrt tg
  let d ← vdiv (P + N - P) (vnorm sqrt (P + N - P))
  pure (P, d)

/-- The point of a line, `gbs/curveline.h:27-33`. -/
def lineAt (L : (Fin 2 → K) × (Fin 2 → K)) (l : K) : Fin 2 → K := L.1 + l • L.2

/-- The objective, `gbs/bscanalysis.h:750-757`. -/
def ballResidual (sqrt : K → K) (c1 c2 : ACurve K (Fin 2 → K)) (u1 : K) (x : List K) : R K := do
  let u2 ← rd x 0
  let L1 ← normalLine2 sqrt c1 u1
  let L2 ← normalLine2 sqrt c2 u2
  let (l1, l2) ← extremaLines L1.1 L1.2 L2.1 L2.2
  pure |sqNorm (lineAt L1 l1 - lineAt L1 0) - sqNorm (lineAt L2 l2 - lineAt L2 0)|

/-- `compute_rolling_ball`, `gbs/bscanalysis.h:725-779`: the parameter on the second curve, the centre, and whether the curves are taken for parallel. -/
def rollingBall (sqrt : K → K) (opt : Nlopt K) (c1 c2 : ACurve K (Fin 2 → K)) (u1 : K) : R (K × (Fin 2 → K) × Bool) := do
  let tolX : K := 1 / 1000000
  let tolA : K := 1 / 1000
  let p ← c1.value u1 0
  let (u20, _) ← extremaCurvePointFrom sqrt opt c2 p u1 tolX
  let L1 ← normalLine2 sqrt c1 u1
  let L2 ← normalLine2 sqrt c2 u20
  if |(|dotV L1.2 L2.2|) - 1| < tolA then do
    let P ← c1.value u1 0
    let Q ← c2.value u20 0
    pure (u20, (1 / 2 : K) • (P + Q), true)
  else do
    let (x, _) ← solveN opt (ballResidual sqrt c1 c2 u1) [u20] [c2.b0] [c2.b1] tolX
    let u2 ← rd x 0
    let M1 ← normalLine2 sqrt c1 u1
    let M2 ← normalLine2 sqrt c2 u2
    let (l1, l2) ← extremaLines M1.1 M1.2 M2.1 M2.2
    pure (u2, (1 / 2 : K) • (lineAt M1 l1 + lineAt M2 l2), false)

end Gbs
