import Verif.Model.Loft
import Verif.Model.SurfTools
import Verif.Model.UnifySurf

/-!
# Model of the Gordon surfaces, `gbs/bssbuild.h:87-99`, `483-642`

The minimisation `extrema_curve_curve` (NLopt) is a parameter: `ext crv c` is the pair of parameters, on `crv` and on `c`, and the
distance. `dist` is the distance of points. Curves are given by their poles, knots and degree: bounds set inside the knots are lost, as in the
lofts. `par` says that the standard library has parallel algorithms: an exception that leaves one of them ends the program.
-/

namespace Gbs

variable {K : Type} [Field K] [LinearOrder K]
variable {V : Type} [AddCommGroup V] [Module K V]

/-- `get_max_degree`, `gbs/bssbuild.h:87-99`; the end of an empty range is dereferenced. -/
def maxDegree : List (CurveInfo K V) → R ℕ
  | [] => .error .oob
  | c :: cs => pure (cs.foldl (fun m x => max m x.deg) c.deg)

/-- The lambda `f_intersection`, `gbs/bssbuild.h:489-495`. -/
def touchParam (ext : CurveInfo K V → CurveInfo K V → R (K × K × K)) (tol : K) (crv c : CurveInfo K V) : R K := do
  let r ← ext crv c
  if tol < r.2.2 then .error (.thrown .invalid) else pure r.1

/-- `build_intersections(first_curve,last_curve,crv,tol)`, `gbs/bssbuild.h:483-505`. -/
def touchParams (par : Bool) (ext : CurveInfo K V → CurveInfo K V → R (K × K × K)) (tol : K) (crv : CurveInfo K V) (cs : List (CurveInfo K V)) :
    R (List K) :=
  match cs.mapM (touchParam ext tol crv) with
  | .ok u => .ok u
  | .error (.thrown e) => if par then .error .terminated else .error (.thrown e)
  | .error e => .error e

/-- The value of a curve given by its poles, knots and degree. -/
def infoValue (eps junk : K) (c : CurveInfo K V) (u : K) : R V := do
  let (a, b) ← frontBack c.knots
  Curve.value eps junk ⟨c.deg, c.poles, c.knots, a, b⟩ u 0

/-- The points of the network, `gbs/bssbuild.h:535-554`. -/
def networkPoints (eps junk : K) (dist : V → V → K) (tol : K) (us vs : List (CurveInfo K V)) (u v : List K) : R (List V) :=
  forLt 0 us.length (fun i Q => do
    let cu ← rd us i
    forLt 0 vs.length (fun j Q => do
      let cv ← rd vs j
      let a ← rd u j
      let x ← infoValue eps junk cu a
      let b ← rd v i
      let y ← infoValue eps junk cv b
      if tol < dist x y then .error (.thrown .invalid)
      else wr Q (i * vs.length + j) ((1 / 2 : K) • (x + y))) Q) (List.replicate (us.length * vs.length) 0)

/-- `build_intersections(first_u,last_u,first_v,last_v,tol)`, `gbs/bssbuild.h:525-557`: the parameters along the first curves of each family and
the points. -/
def buildIntersections (eps junk : K) (par : Bool) (ext : CurveInfo K V → CurveInfo K V → R (K × K × K)) (dist : V → V → K) (tol : K)
    (us vs : List (CurveInfo K V)) : R (List K × List K × List V) := do
  let v0 ← rd vs 0
  let v ← touchParams par ext tol v0 us
  let u0 ← rd us 0
  let u ← touchParams par ext tol u0 vs
  let Q ← networkPoints eps junk dist tol us vs u v
  pure (u, v, Q)

/-- The loops of `increaseDegreeV`, `gbs/bssbuild.h:577-580`, `583-586`, `603-606`. -/
def Surface.raiseDegreeV (eps : K) (s : Surface K V) (q : ℕ) : R (Surface K V) := forLt s.degV q (fun _ s => s.increaseDegreeV eps) s

/-- `std::ranges::transform` of two ranges into the first one: it stops at the end of the shortest. -/
def combine {α : Type} (f : α → α → α) (a b : List α) : List α := List.zipWith f a b ++ a.drop b.length

/-- The last part of `gordon`, `gbs/bssbuild.h:608-641`: `Lu + Lv - Tuv` on common knots. -/
def gordonSum (eps : K) (Lu Lv T : Surface K V) (p q : ℕ) : R (Surface K V) := do
  let iu ← Lu.info
  let iv ← Lv.info
  let it ← T.info
  let out ← unifyKnotsS eps [iu, iv, it]
  let a ← rd out 0
  let b ← rd out 1
  let c ← rd out 2
  let P := combine (fun x y => x + y) a.polesUV.flatten b.polesUV.flatten
  let P := combine (fun x y => x - y) P c.polesUV.flatten
  Surface.mk? eps P a.knotsU a.knotsV p q

/-- `gordon`, `gbs/bssbuild.h:562-642`; the assertions are compiled out. -/
def gordon (eps junk : K) (par : Bool) (ext : CurveInfo K V → CurveInfo K V → R (K × K × K)) (dist : V → V → K)
    (dense : ℕ → (ℕ → ℕ → K) → List V → R (List V)) (tol : K) (us vs : List (CurveInfo K V)) : R (Surface K V) := do
  let p ← maxDegree us
  let q ← maxDegree vs
  let (u, v, Q) ← buildIntersections eps junk par ext dist tol us vs
  let nu ← usub u.length 1
  let p' := min p nu
  let nv ← usub v.length 1
  let q' := min q nv
  let Lu ← loftGenericV eps junk dense us v q'
  let Lu ← Lu.raiseDegreeV eps q
  let Lv ← loftGenericV eps junk dense vs u p'
  let Lv ← Lv.raiseDegreeV eps p
  let Lv ← Lv.invertUV
  let ku ← averagedFlatKnots u p'
  let kv ← averagedFlatKnots v q'
  let P ← buildPolesGrid eps junk dense Q ku kv u v p' q'
  let T ← Surface.mk? eps P ku kv p' q'
  let T ← T.raiseDegreeU eps p
  let T ← T.raiseDegreeV eps q
  gordonSum eps Lu Lv T p q

end Gbs
