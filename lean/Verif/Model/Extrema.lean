import Verif.Model.Gordon
import Verif.Model.Wrapped
import Verif.Model.Ranges

/-!
# Model of the searches of nearest points (`gbs/extrema.h`, `gbs/solvers.h`, and what uses them in `gbs/bscanalysis.h`)

NLopt is a parameter: a function of the objective, its gradient, the start, the bounds and the tolerance. What NLopt checks before it starts is
modelled. The numbers are not rounded to `double`. `closest_curve` and `closest_p_curve` call `midPoint()`, which no class has, and do not compile;
the searches of a coordinate are in `Verif.Model.Coordinate`.
-/

namespace Gbs

variable {K : Type} [Field K] [LinearOrder K]

/-- `nlopt::opt::optimize`, from the objective, its gradient, the start, the lower and upper bounds and the tolerance: the place and the value found. -/
abbrev Nlopt (K : Type) := (List K → R K) → (List K → R (List K)) → List K → List K → List K → K → R (List K × K)

/-- What `nlopt::opt::optimize` checks of the start and the bounds. -/
def inBox : List K → List K → List K → Bool
  | x :: xs, a :: as, b :: bs => decide (a ≤ b) && decide (a ≤ x) && decide (x ≤ b) && inBox xs as bs
  | [], [], [] => true
  | _, _, _ => false

/-- `solve_D_nlop`, `gbs/solvers.h:66-100`: the objective is the sum of the squares of the values of `f`. -/
def solveD (opt : Nlopt K) (f : List K → R (List K)) (g : List K → List K → R (List K)) (x lb hb : List K) (tol : K) : R (List K × K) :=
  if inBox x lb hb then
    opt (fun x => do
      let r ← f x
      pure (r.map (fun a => a * a)).sum)
      (fun x => do
        let r ← f x
        g x r) x lb hb tol
  else .error (.thrown .invalid)

/-- `std::min_element` on the values `d`, after its first element `a`. -/
def minElementFrom {α : Type} (d : α → R K) : α → List α → R α
  | a, [] => pure a
  | a, b :: l => do
    let x ← d b
    let y ← d a
    if x < y then minElementFrom d b l else minElementFrom d a l

/-- `std::min_element` on the values `d`; the result is dereferenced. -/
def minElement {α : Type} (d : α → R K) : List α → R α
  | [] => .error .oob
  | a :: l => minElementFrom d a l

variable {n : ℕ}

/-- The values of the objective, `gbs/extrema.h:34-38`. -/
def curvePointF (c : ACurve K (Fin n → K)) (p : Fin n → K) (x : List K) : R (List K) := do
  let u ← rd x 0
  let P ← c.value u 0
  pure [sqNorm (P - p)]

/-- Its gradient, `gbs/extrema.h:40-45`. -/
def curvePointG (c : ACurve K (Fin n → K)) (p : Fin n → K) (x r : List K) : R (List K) := do
  let u ← rd x 0
  let P1 ← c.value u 1
  let P ← c.value u 0
  let r0 ← rd r 0
  pure [2 * r0 * dotV ((2 : K) • P1) (P - p)]

/-- `extrema_curve_point` from a first value, `gbs/extrema.h:31-58`. -/
def extremaCurvePointFrom (sqrt : K → K) (opt : Nlopt K) (c : ACurve K (Fin n → K)) (p : Fin n → K) (u0 tol : K) : R (K × K) := do
  let (x, m) ← solveD opt (curvePointF c p) (curvePointG c p) [u0] [c.b0] [c.b1] (tol * tol)
  let u ← rd x 0
  pure (u, sqrt m)

/-- `extrema_curve_point`, `gbs/extrema.h:69-78`. -/
def extremaCurvePoint (sqrt : K → K) (opt : Nlopt K) (c : ACurve K (Fin n → K)) (p : Fin n → K) (tol : K) (nb : ℕ) : R (K × K) := do
  let us ← makeRange c.b0 c.b1 nb
  let u0 ← minElement (fun u => do
    let P ← c.value u 0
    pure (sqNorm (p - P))) us
  extremaCurvePointFrom sqrt opt c p u0 tol

/-- The values of the objective, `gbs/extrema.h:95-98`. -/
def surfPointF (s : ASurface K (Fin n → K)) (p : Fin n → K) (x : List K) : R (List K) := do
  let u ← rd x 0
  let v ← rd x 1
  let P ← s.value u v 0 0
  pure [sqNorm (P - p)]

/-- Its gradient, `gbs/extrema.h:100-107`. -/
def surfPointG (s : ASurface K (Fin n → K)) (p : Fin n → K) (x r : List K) : R (List K) := do
  let u ← rd x 0
  let v ← rd x 1
  let P ← s.value u v 0 0
  let Pu ← s.value u v 1 0
  let Pv ← s.value u v 0 1
  let r0 ← rd r 0
  pure [2 * r0 * dotV ((2 : K) • Pu) (P - p), 2 * r0 * dotV ((2 : K) • Pv) (P - p)]

/-- `extrema_surf_pnt` from first values, `gbs/extrema.h:92-120`. -/
def extremaSurfPntFrom (sqrt : K → K) (opt : Nlopt K) (s : ASurface K (Fin n → K)) (p : Fin n → K) (u0 v0 tol : K) : R (K × K × K) := do
  let (x, m) ← solveD opt (surfPointF s p) (surfPointG s p) [u0, v0] [s.u0, s.v0] [s.u1, s.v1] (tol * tol)
  let u ← rd x 0
  let v ← rd x 1
  pure (u, v, sqrt m)

/-- `extrema_surf_pnt`, `gbs/extrema.h:135-146`. -/
def extremaSurfPnt (sqrt : K → K) (opt : Nlopt K) (s : ASurface K (Fin n → K)) (p : Fin n → K) (tol : K) (nu nv : ℕ) : R (K × K × K) := do
  let uv ← makeRange2 s.u0 s.u1 s.v0 s.v1 nu nv
  let a ← minElement (fun a => do
    let P ← s.value a.1 a.2 0 0
    pure (sqNorm (p - P))) uv
  extremaSurfPntFrom sqrt opt s p a.1 a.2 tol

/-- The values of the objective, `gbs/extrema.h:151-154`. -/
def curveCurveF (c1 c2 : ACurve K (Fin n → K)) (x : List K) : R (List K) := do
  let u ← rd x 0
  let v ← rd x 1
  let P ← c1.value u 0
  let Q ← c2.value v 0
  pure [sqNorm (P - Q)]

/-- Its gradient, `gbs/extrema.h:156-162`. -/
def curveCurveG (c1 c2 : ACurve K (Fin n → K)) (x r : List K) : R (List K) := do
  let u ← rd x 0
  let v ← rd x 1
  let P ← c1.value u 0
  let Q ← c2.value v 0
  let P1 ← c1.value u 1
  let Q1 ← c2.value v 1
  let r0 ← rd r 0
  pure [2 * r0 * dotV ((2 : K) • P1) (P - Q), 2 * r0 * dotV ((2 : K) • Q1) (P - Q)]

/-- `extrema_curve_curve` from first values, `gbs/extrema.h:149-176`. -/
def extremaCurveCurveFrom (sqrt : K → K) (opt : Nlopt K) (c1 c2 : ACurve K (Fin n → K)) (u0 v0 tol : K) : R (K × K × K) := do
  let (x, m) ← solveD opt (curveCurveF c1 c2) (curveCurveG c1 c2) [u0, v0] [c1.b0, c2.b0] [c1.b1, c2.b1] (tol * tol)
  let u ← rd x 0
  let v ← rd x 1
  pure (u, v, sqrt m)

/-- The loops on the pairs of values, `gbs/extrema.h:187-195`: the least distance and its pair. -/
def bestPair (d : K → K → R K) (us vs : List K) (s : K × K × K) : R (K × K × K) :=
  us.foldlM (fun s u => vs.foldlM (fun s v => do
    let x ← d u v
    pure (if x < s.1 then (x, u, v) else s)) s) s

/-- `extrema_curve_curve`, `gbs/extrema.h:179-199`; `big` is `numeric_limits::max()`. -/
def extremaCurveCurve (sqrt : K → K) (big : K) (opt : Nlopt K) (c1 c2 : ACurve K (Fin n → K)) (tol : K) (nu nv : ℕ) : R (K × K × K) := do
  let us ← makeRange c1.b0 c1.b1 nu
  let vs ← makeRange c2.b0 c2.b1 nv
  let s ← bestPair (fun u v => do
    let P ← c1.value u 0
    let Q ← c2.value v 0
    pure (sqNorm (P - Q))) us vs (big, 0, 0)
  extremaCurveCurveFrom sqrt opt c1 c2 s.2.1 s.2.2 tol

/-- `extrema_curve_curve` of two lines, `gbs/extrema.h:209-219`, given by their points and directions. -/
def extremaLines (P1 N1 P2 N2 : Fin 2 → K) : R (K × K) := do
  let P21 := P2 - P1
  let det := fun a b c d : K => a * d - b * c
  let d := det (N1 0) (-N2 0) (N1 1) (-N2 1)
  let l1 ← fdiv (det (P21 0) (-N2 0) (P21 1) (-N2 1)) d
  let l2 ← fdiv (det (N1 0) (P21 0) (N1 1) (P21 1)) d
  pure (l1, l2)

/-- The values of the objective, `gbs/extrema.h:254-257`. -/
def surfCurveF (s : ASurface K (Fin n → K)) (c : ACurve K (Fin n → K)) (x : List K) : R (List K) := do
  let w ← rd x 0
  let u ← rd x 1
  let v ← rd x 2
  let P ← c.value w 0
  let Q ← s.value u v 0 0
  pure [sqNorm (P - Q)]

/-- Its gradient, `gbs/extrema.h:259-266`: `srf(x[1],1,0)` is the point of parameters `x[1]` and 1, and `srf(x[2],0,1)` the first derivative in `u`
at `x[2]` and 0. -/
def surfCurveG (s : ASurface K (Fin n → K)) (c : ACurve K (Fin n → K)) (x r : List K) : R (List K) := do
  let w ← rd x 0
  let u ← rd x 1
  let v ← rd x 2
  let P ← c.value w 0
  let Q ← s.value u v 0 0
  let P1 ← c.value w 1
  let Qu ← s.value u 1 0 0
  let Qv ← s.value v 0 1 0
  let r0 ← rd r 0
  pure [2 * r0 * dotV ((2 : K) • P1) (P - Q), 2 * r0 * dotV ((-2 : K) • Qu) (P - Q), 2 * r0 * dotV ((-2 : K) • Qv) (P - Q)]

/-- `extrema_surf_curve` from first values, `gbs/extrema.h:251-280`: the parameters on the surface, then on the curve. -/
def extremaSurfCurveFrom (sqrt : K → K) (opt : Nlopt K) (s : ASurface K (Fin n → K)) (c : ACurve K (Fin n → K)) (w0 u0 v0 tol : K) :
    R (K × K × K × K) := do
  let (x, m) ← solveD opt (surfCurveF s c) (surfCurveG s c) [w0, u0, v0] [c.b0, s.u0, s.v0] [c.b1, s.u1, s.v1] (tol * tol)
  let w ← rd x 0
  let u ← rd x 1
  let v ← rd x 2
  pure (u, v, w, sqrt m)

/-- `extrema_surf_curve`, `gbs/extrema.h:283-293`: the sample is passed in the order of the surface and then the curve. -/
def extremaSurfCurve (sqrt : K → K) (opt : Nlopt K) (s : ASurface K (Fin n → K)) (c : ACurve K (Fin n → K)) (tol : K) (nu nv nw : ℕ) :
    R (K × K × K × K) := do
  let uvw ← makeRange3 s.u0 s.u1 s.v0 s.v1 c.b0 c.b1 nu nv nw
  let a ← minElement (fun a => do
    let Q ← s.value a.1 a.2.1 0 0
    let P ← c.value a.2.2 0
    pure (sqNorm (Q - P))) uvw
  extremaSurfCurveFrom sqrt opt s c a.1 a.2.1 a.2.2 tol

/-- What `max_coordinate` minimises, `gbs/extrema.h:356-359`. -/
def maxCoordObjective (c : ACurve K (Fin n → K)) (i : Fin n) (u : K) : R K := do
  let P ← c.value u 0
  let y ← fdiv 1 (P i)
  fdiv y (P i)

/-- What `min_coordinate` minimises, `gbs/extrema.h:376-379`. -/
def minCoordObjective (c : ACurve K (Fin n → K)) (i : Fin n) (u : K) : R K := do
  let P ← c.value u 0
  pure (P i * P i)

/-- The loop of `dev_from_points`, `gbs/bscanalysis.h:44-55`: the last parameter found, the place of the largest distance, this one and the sum. -/
def devLoop (sqrt : K → K) (opt : Nlopt K) (c : ACurve K (Fin n → K)) (tol : K) (pts : List (Fin n → K)) (s : K × K × K × K) : R (K × K × K × K) :=
  pts.foldlM (fun s p => do
    let r ← extremaCurvePointFrom sqrt opt c p s.1 tol
    pure (r.1, if s.2.2.1 < r.2 then r.1 else s.2.1, if s.2.2.1 < r.2 then r.2 else s.2.2.1, s.2.2.2 + r.2)) s

/-- `dev_from_points`, `gbs/bscanalysis.h:39-58`; `u0` is the first knot. -/
def devFromPoints (sqrt : K → K) (opt : Nlopt K) (c : ACurve K (Fin n → K)) (u0 tol : K) (pts : List (Fin n → K)) : R (K × K × K) := do
  let s ← devLoop sqrt opt c tol pts (u0, 0, 0, 0)
  let a ← fdiv s.2.2.2 (pts.length : K)
  pure (s.2.1, s.2.2.1, a)

/-- The values of the objective of `max_curvature_pos`, `gbs/bscanalysis.h:693-696`. -/
def curvatureF (c : ACurve K (Fin n → K)) (x : List K) : R (List K) := do
  let u ← rd x 0
  let P2 ← c.value u 2
  let y ← fdiv 1 (sqNorm P2)
  pure [y]

/-- Its gradient, `gbs/bscanalysis.h:697-702`. -/
def curvatureG (c : ACurve K (Fin n → K)) (x _r : List K) : R (List K) := do
  let u ← rd x 0
  let P2 ← c.value u 2
  let P3 ← c.value u 3
  let y ← fdiv (-2 * dotV P2 P3) (dotV P2 P2 * dotV P2 P2)
  pure [y]

/-- `max_curvature_pos`, `gbs/bscanalysis.h:691-718`. -/
def maxCurvaturePos (sqrt : K → K) (opt : Nlopt K) (c : ACurve K (Fin n → K)) (u1 u2 tol : K) : R (K × K) := do
  let (x, m) ← solveD opt (curvatureF c) (curvatureG c) [(1 / 2) * (u1 + u2)] [u1] [u2] (tol * tol)
  let u ← rd x 0
  let y ← fdiv 1 (sqrt m)
  pure (u, y)

end Gbs
