import Verif.Model.KnotInsertion

/-!
# Model of trimming (`gbs/knotsfunctions.ixx`, `gbs/bscurve.h`)
-/

namespace Gbs

variable {K : Type} [Field K] [LinearOrder K]
variable {V : Type} [AddCommGroup V] [Module K V]

/-- `trim_begin`, `gbs/knotsfunctions.ixx:1012-1025`. `front()` of an empty vector and erasing up to the iterator
`begin() - 1` are out of range accesses. -/
def trimBegin (eps : K) (p : ℕ) (U : List K) (P : List V) (u : K) : R (List K × List V) := do
  let f ← rd U 0
  if u - f < eps then pure (U, P)
  else do
    let (_, U1, P1) ← insertKnots u p p U P
    let il := lowerBound U1 u
    let U2 := U1.drop il
    let g ← rd U2 0
    let a ← usub il 1
    if P1.length < a then .error .oob
    else pure (g :: U2, P1.drop a)

/-- `trim_end`, `gbs/knotsfunctions.ixx:1036-1049`. -/
def trimEnd (eps : K) (p : ℕ) (U : List K) (P : List V) (u : K) : R (List K × List V) := do
  let l ← usub U.length 1
  let b ← rd U l
  if b - u < eps then pure (U, P)
  else do
    let (_, U1, P1) ← insertKnots u p p U P
    let ih := lowerBound U1 u
    if U1.length < ih + p then .error .oob
    else do
      let U2 := U1.take (ih + p)
      let l2 ← usub U2.length 1
      let g ← rd U2 l2
      if P1.length < ih then .error .oob
      else pure (U2 ++ [g], P1.take ih)

/-- `trim`, `gbs/knotsfunctions.ixx:1061-1066`. -/
def trimKnots (eps : K) (p : ℕ) (U : List K) (P : List V) (u1 u2 : K) : R (List K × List V) := do
  let (U1, P1) ← trimBegin eps p U P (min u1 u2)
  trimEnd eps p U1 P1 (max u1 u2)

/-- `BSCurveGeneral::trim`, `gbs/bscurve.h:540-547`. -/
def Curve.trim (eps : K) (c : Curve K V) (u1 u2 : K) (permanently : Bool := true) : R (Curve K V) := do
  if permanently then do
    let (U, P) ← trimKnots eps c.deg c.knots c.poles u1 u2
    pure { c with knots := U, poles := P, b0 := u1, b1 := u2 }
  else pure { c with b0 := u1, b1 := u2 }

end Gbs
