import Verif.Model.Unify

/-!
# Unification of the degrees and knots of curves, as objects

The deprecated `unify_curves_degree`, `unify_curves_knots` and `unified_curves`, `gbs/bsctools.h:272-291`, `327-393`, that the lofts along a spine of
`gbs/bssbuild.h` still use. The curves have bounds, unlike the tuples of `unify_degree` and `unify_knots` (`Model/Unify.lean`).
-/

namespace Gbs

variable {K : Type} [Field K] [LinearOrder K]
variable {V : Type} [AddCommGroup V] [Module K V]

/-- `multiplicity(knots_flat, knot)`, `gbs/knotsfunctions.ixx:198-204`. -/
def multEps (eps : K) (U : List K) (u : K) : ℕ := U.countP fun k => decide (|k - u| < eps)

/-- `BSCurveGeneral::insertKnots`, `gbs/bscurve.h:405-412`. -/
def Curve.insertAll (eps : K) : List (K × ℕ) → Curve K V → R (Curve K V)
  | [], c => pure c
  | (u, m) :: rest, c =>
    if multEps eps c.knots u < m then do
      let r ← c.insertKnot u (m - multEps eps c.knots u)
      Curve.insertAll eps rest r.2
    else Curve.insertAll eps rest c

/-- First loop of `unify_curves_knots`, `gbs/bsctools.h:343-352`: the other curves are brought to the bounds of the first one, which gets their knots. -/
def Curve.absorbAll (eps : K) : Curve K V → List (Curve K V) → R (Curve K V × List (Curve K V))
  | c, [] => pure (c, [])
  | c, d :: ds => do
    let d' ← d.changeBounds c.b0 c.b1
    let km ← unflatPairs eps d'.knots
    let c' ← Curve.insertAll eps km c
    let r ← Curve.absorbAll eps c' ds
    pure (r.1, d' :: r.2)

/-- `unify_curves_knots`, `gbs/bsctools.h:327-361`, `370-374`; the first element of an empty list is dereferenced. -/
def unifyCurvesKnots (eps : K) : List (Curve K V) → R (List (Curve K V))
  | [] => .error .oob
  | c0 :: cs =>
    if (c0 :: cs).any fun c => decide (c.deg ≠ c0.deg) then .error (.thrown .invalid)
    else do
      let _ ← unflatPairs eps c0.knots
      let r ← Curve.absorbAll eps c0 cs
      let km ← unflatPairs eps r.1.knots
      let out ← r.2.mapM (Curve.insertAll eps km)
      pure (r.1 :: out)

/-- `unify_curves_degree`, `gbs/bsctools.h:272-291`; `max_element` of an empty range is dereferenced. -/
def unifyCurvesDegree (eps : K) : List (Curve K V) → R (List (Curve K V))
  | [] => .error .oob
  | c0 :: cs =>
    let q := cs.foldl (fun q c => max q c.deg) c0.deg
    (c0 :: cs).mapM fun c => c.increaseDegree eps (q - c.deg)

/-- `unified_curves`, `gbs/bsctools.h:376-393`. -/
def unifiedCurves (eps : K) (l : List (Curve K V)) : R (List (Curve K V)) := do
  let m ← unifyCurvesDegree eps l
  unifyCurvesKnots eps m

end Gbs
