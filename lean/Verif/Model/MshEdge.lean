import Verif.Model.AbsCurv

/-!
# Model of the points on an edge of a mesh, `gbs-mesh/mshedge.h`

`n_` is a `size_t` set from `fmax`: numbers of points are below `2^53`. The parallel execution is commented out in the code.
-/

namespace Gbs

variable {K V : Type} [Field K] [LinearOrder K] [AddCommGroup V] [Module K V]

/-- `BSCfunction` as a function of `CurveReparametrized`, `gbs/bscurve.h:670-694`. -/
def Curve.toFun (eps junk : K) (f : Curve K K) : ACurve K K := ⟨f.b0, f.b1, fun u d => f.value eps junk u d⟩

/-- `msh_edge`, `gbs-mesh/mshedge.h:8-14`. -/
structure MshEdge (K V : Type) where
  crv : ACurve K V
  law : Curve K K
  pts : List V
  l : K
  n : ℕ

/-- The constructors, `gbs-mesh/mshedge.h:16-38`, with `abs_curv(crv,u1,u2)`, of 30 points and degree 3, `gbs/bscanalysis.h:140`, `320-324`. -/
def MshEdge.new (a : InterpArgs K) (len : K → K → R K) (c : ACurve K V) (u1 u2 : K) : R (MshEdge K V) := do
  let f ← absCurv a len u1 u2 30 3
  let law ← Curve.mk? a.eps [0, 1] [0, 0, 1, 1] 1
  pure ⟨c.reparametrized (f.toFun a.eps a.junk), law, [], f.b1, 2⟩

/-- `set_n_points`, `gbs-mesh/mshedge.h:40-44`. -/
def MshEdge.setN (e : MshEdge K V) (n : ℕ) : MshEdge K V := { e with n := max 2 n, pts := List.replicate (max 2 n) 0 }

/-- `update_law(h1,h2)`, `gbs-mesh/mshedge.h:46-51`. -/
def MshEdge.updateLaw (a : InterpArgs K) (e : MshEdge K V) (h1 h2 : K) : R (MshEdge K V) := do
  let q1 ← fdiv h1 e.l
  let q2 ← fdiv h2 e.l
  let d ← fdiv 1 ((e.n : K) - 1)
  let law ← a.interpolate [0, q1, 1 - q2, 1] [0, d, 1 - d, 1] 2
  pure { e with law := law }

/-- `update_law(h1,h2,a1,a2)`, `gbs-mesh/mshedge.h:53-70`. -/
def MshEdge.updateLaw6 (a : InterpArgs K) (e : MshEdge K V) (h1 h2 a1 a2 : K) : R (MshEdge K V) := do
  let q1 ← fdiv h1 e.l
  let r1 ← fdiv (a1 * h1) e.l
  let q2 ← fdiv h2 e.l
  let r2 ← fdiv (a2 * h2) e.l
  let d ← fdiv 1 ((e.n : K) - 1)
  let d2 ← fdiv 2 ((e.n : K) - 1)
  let law ← a.interpolate [0, q1, q1 + r1, 1 - q2 - r2, 1 - q2, 1] [0, d, d2, 1 - d2, 1 - d, 1] 2
  pure { e with law := law }

/-- `compute_pnts`, `gbs-mesh/mshedge.h:72-86`; `front()` of an empty vector is undefined. -/
def MshEdge.computePnts (a : InterpArgs K) (e : MshEdge K V) : R (MshEdge K V) := do
  let ksi ← makeRange 0 1 e.n
  let P0 ← e.crv.value e.crv.b0 0
  let pts ← wr e.pts 0 P0
  let P1 ← e.crv.value e.crv.b1 0
  let k ← usub pts.length 1
  let pts ← wr pts k P1
  let pts ← forLt 1 (ksi.length - 1) (fun i pts => do
    let x ← rd ksi i
    let m ← e.law.value a.eps a.junk x 0
    let P ← e.crv.value (m * e.l) 0
    wr pts i P) pts
  pure { e with pts := pts }

end Gbs
