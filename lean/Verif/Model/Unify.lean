import Verif.Model.Degree
import Verif.Model.Reparam
import Verif.Model.KnotInsertion

/-!
# Model of the unification of the degrees and knots of a set of curves, `gbs/bsctools.h:142-264`

This is what the lofts (`gbs/loft/loftBase.h:105`, `217`) run before they interpolate across the curves.
-/

namespace Gbs

variable {K : Type} [Field K] [LinearOrder K]
variable {V : Type} [AddCommGroup V] [Module K V]

/-- `BSCurveInfo`: the tuple (poles, flat knots, degree). -/
structure CurveInfo (K V : Type) where
  poles : List V
  knots : List K
  deg : ℕ
  deriving DecidableEq

/-- Loop of `unflat_knots(knots_flat)`, `gbs/knotsfunctions.ixx:184-195`; unlike the other overload the comparison is strict. -/
def unflatPairsLoop (eps : K) (cur : K) (m : ℕ) : List K → List (K × ℕ)
  | [] => [(cur, m)]
  | x :: xs =>
    if |x - cur| < eps then unflatPairsLoop eps cur (m + 1) xs
    else (cur, m) :: unflatPairsLoop eps x 1 xs

/-- `unflat_knots(knots_flat)`, `gbs/knotsfunctions.ixx:178-196`; `front()` of an empty vector is undefined behaviour. -/
def unflatPairs (eps : K) : List K → R (List (K × ℕ))
  | [] => .error .oob
  | x :: xs => .ok (unflatPairsLoop eps x 1 xs)

/-- `unify_knots(km_out, k_out, poles_out, degree, km_in)`, `gbs/bsctools.h:182-213`, as a recursion on the remaining `km_in`. -/
def unifyInto (eps : K) (p : ℕ) : List (K × ℕ) → List (K × ℕ) → List K → List V → R (List (K × ℕ) × List K × List V)
  | [], km, U, P => pure (km, U, P)
  | (u, m) :: rest, km, U, P =>
    let i := km.findIdx (fun q => decide (|q.1 - u| < eps))
    match km[i]? with
    | some q =>
      if q.2 < m then do
        let r ← insertKnots u p (m - q.2) U P
        unifyInto eps p rest (km.set i (q.1, m)) r.2.1 r.2.2
      else unifyInto eps p rest km U P
    | none => do
      let r ← insertKnots u p m U P
      let j := lowerBound (km.map Prod.fst) u
      unifyInto eps p rest (km.take j ++ (u, m) :: km.drop j) r.2.1 r.2.2

/-- First `for_each` of `unify_knots(curves_info)`, `gbs/bsctools.h:242-251`: every other curve is brought to the bounds `[a, b]`, its knots
are added to the first one. -/
def unifyAbsorb (eps a b : K) (p : ℕ) : List (CurveInfo K V) → List (K × ℕ) → List K → List V →
    R (List (CurveInfo K V) × List (K × ℕ) × List K × List V)
  | [], km, U, P => pure ([], km, U, P)
  | c :: cs, km, U, P => do
    let k ← changeBoundsK a b c.knots
    let kmc ← unflatPairs eps k
    let s ← unifyInto eps p kmc km U P
    let r ← unifyAbsorb eps a b p cs s.1 s.2.1 s.2.2
    pure ({ c with knots := k } :: r.1, r.2)

/-- Body of the second `for_each`, `gbs/bsctools.h:257-262`. -/
def unifyApply (eps : K) (km0 : List (K × ℕ)) (c : CurveInfo K V) : R (CurveInfo K V) := do
  let km ← unflatPairs eps c.knots
  let s ← unifyInto eps c.deg km0 km c.knots c.poles
  pure { c with knots := s.2.1, poles := s.2.2 }

/-- `unify_knots(curves_info)`, `gbs/bsctools.h:229-264`; `front()` of an empty vector is undefined behaviour. -/
def unifyKnots (eps : K) : List (CurveInfo K V) → R (List (CurveInfo K V))
  | [] => .error .oob
  | c0 :: cs => do
    let l ← usub c0.knots.length 1
    let a ← rd c0.knots 0
    let b ← rd c0.knots l
    let km0 ← unflatPairs eps c0.knots
    let r ← unifyAbsorb eps a b c0.deg cs km0 c0.knots c0.poles
    let out ← r.1.mapM (unifyApply eps r.2.1)
    pure ({ c0 with knots := r.2.2.1, poles := r.2.2.2 } :: out)

/-- `unify_degree(curves_info)`, `gbs/bsctools.h:142-165`; `max_element` of an empty range is dereferenced. -/
def unifyDegree (eps : K) : List (CurveInfo K V) → R (List (CurveInfo K V))
  | [] => .error .oob
  | c0 :: cs =>
    let q := cs.foldl (fun q c => max q c.deg) c0.deg
    (c0 :: cs).mapM (fun c => do
      let s ← increaseDegree eps c.knots c.poles c.deg (q - c.deg)
      pure { poles := s.2, knots := s.1, deg := q })

end Gbs
