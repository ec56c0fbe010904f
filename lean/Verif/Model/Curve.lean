import Verif.Model.Basis

/-!
# Model of curve evaluation (`gbs/basisfunctions.ixx`) and of `BSCurve` (`gbs/bscurve.h`)
-/

namespace Gbs

variable {K : Type} [Field K] [LinearOrder K]
variable {V : Type} [AddCommGroup V] [Module K V]

/-- `eval_value_decasteljau`, `gbs/basisfunctions.ixx:350-392`. `junk` is the
arbitrary content of the uninitialised stack arrays. The coordinate loop
`pt[c] += N * pole[c]` is the vector operation on `V`. -/
def evalValue (eps junk : K) (u : K) (k : List K) (poles : List V) (p d : ℕ) : R V :=
  if p < d then pure 0
  else do
    let i ← findSpan poles.length p u k
    let iMin := if p ≤ i then i - p else 0
    if p ≤ stackMaxDegree then do
      let Nd ← basisDers junk i p d u k (List.replicate (stackMaxDegree + 1) junk)
      forLe 0 p (fun r pt => do
        let N ← rd Nd r
        let pole ← rd poles (iMin + r)
        pure (pt + N • pole)) 0
    else
      forLe iMin i (fun ip pt => do
        let N ← basisFunctionD eps k u p d ip
        let pole ← rd poles ip
        pure (pt + N • pole)) 0

/-- Inner loops of `eval_ders_decasteljau`: one derivation order `kk`,
`gbs/basisfunctions.ixx:420-426` and `432-438`. -/
def evalDersOrder (eps : K) (u : K) (k : List K) (poles : List V) (p i iMin : ℕ) (ders : List K)
    (kk : ℕ) : R V :=
  if p ≤ stackMaxDegree then
    forLe 0 p (fun r pt => do
      let N ← rd ders (kk * (p + 1) + r)
      let pole ← rd poles (iMin + r)
      pure (pt + N • pole)) 0
  else
    forLe iMin i (fun ip pt => do
      let N ← basisFunctionD eps k u p kk ip
      let pole ← rd poles ip
      pure (pt + N • pole)) 0

/-- `eval_ders_decasteljau`, `gbs/basisfunctions.ixx:404-440`: the buffer `CK[0..n]`
is returned. -/
def evalDers (eps junk : K) (u : K) (k : List K) (poles : List V) (p n : ℕ) : R (List V) := do
  let du := min n p
  let i ← findSpan poles.length p u k
  let iMin := if p ≤ i then i - p else 0
  let w := List.replicate (stackMaxDegree + 1) junk
  let ders ← if p ≤ stackMaxDegree then
      dersBasisFuns i p du u k (fun _ _ => junk) (fun _ _ => junk) w w
        (List.replicate ((stackMaxDegree + 1) * (stackMaxDegree + 1)) junk)
    else pure []
  forLe 0 du (fun kk CK => do
    let v ← evalDersOrder eps u k poles p i iMin ders kk
    wr CK kk v) (List.replicate (n + 1) 0)

/-- `eval_value_deboor_cox`, `gbs/basisfunctions.ixx:740-767`. `poles[i-p]` with
`i` incremented at each step. -/
def evalDeBoorCox (u : K) (k : List K) (poles : List V) (p : ℕ) : R V := do
  let i ← findSpan poles.length p u k
  let N ← basisFuncs i p u k (List.replicate (p+1) 0) (List.replicate (p+1) 0)
    (List.replicate (p+1) 0)
  forLe 0 p (fun r pt => do
    let n ← rd N r
    let idx ← usub (i + r) p
    let pole ← rd poles idx
    pure (pt + n • pole)) 0

/-- `eval_value_par` with span reduction and `d = 0` (the terms are summed in the
order of the indices; the order is discussed with the parallel model),
`gbs/basisfunctions.ixx:669-712`. `make_range(i_min,i_max)` throws
`length_error` when there are less than two indices. -/
def evalPar (eps : K) (u : K) (k : List K) (poles : List V) (p d : ℕ) : R V := do
  let i ← findSpan poles.length p u k
  let iMin := if p < i then i - p else 0
  if i + 1 - iMin < 2 then .error (.thrown .length)
  else
    forLe iMin i (fun ip pt => do
      let N ← basisFunctionD eps k u p d ip
      let pole ← rd poles ip
      pure (pt + N • pole)) 0

/-- `BSCurveGeneral`, `gbs/bscurve.h:253-258`. -/
structure Curve (K V : Type) where
  /-- `m_deg` -/
  deg : ℕ
  /-- `m_poles` -/
  poles : List V
  /-- `m_knotsFlats` -/
  knots : List K
  /-- `m_bounds[0]` -/
  b0 : K
  /-- `m_bounds[1]` -/
  b1 : K
  deriving DecidableEq

/-- `BSCurve::value`, `gbs/bscurve.h:590-597`. -/
def Curve.value (eps junk : K) (c : Curve K V) (u : K) (d : ℕ := 0) : R V :=
  if u < c.b0 - eps ∨ c.b1 + eps < u then .error (.thrown .outOfBoundsEval)
  else evalValue eps junk u c.knots c.poles c.deg d

/-- `BSCurve::derivatives`, `gbs/bscurve.h:599-606`. -/
def Curve.derivatives (eps junk : K) (c : Curve K V) (u : K) (n : ℕ) : R (List V) :=
  if u < c.b0 - eps ∨ c.b1 + eps < u then .error (.thrown .outOfBoundsEval)
  else evalDers eps junk u c.knots c.poles c.deg n

/-- Loop of `unflat_knots(knots_flat,mult,knots)`, `gbs/knotsfunctions.ixx:116-128`,
on the remaining flat knots, `cur` being `knots.back()` and `m` `mult.back()`;
the result is the list of (knot, multiplicity). -/
def unflatLoop (eps : K) (cur : K) (m : ℕ) : List K → List (K × ℕ)
  | [] => [(cur, m)]
  | x :: xs =>
    if |x - cur| ≤ eps then unflatLoop eps cur (m + 1) xs
    else (cur, m) :: unflatLoop eps x 1 xs

/-- `unflat_knots`, `gbs/knotsfunctions.ixx:106-129`; `front()` of an empty vector
is undefined behaviour. -/
def unflatKnots (eps : K) : List K → R (List (K × ℕ))
  | [] => .error .oob
  | x :: xs => .ok (unflatLoop eps x 1 xs)

/-- `flat_knots`, `gbs/knotsfunctions.ixx:215-237`. -/
def flatKnots (k : List K) (m : List ℕ) : R (List K) :=
  if k.length ≠ m.length then .error (.thrown .length)
  else .ok ((k.zip m).flatMap (fun km => List.replicate km.2 km.1))

/-- `std::is_sorted`. -/
def isSorted : List K → Bool
  | [] => true
  | [_] => true
  | x :: y :: l => decide (¬ y < x) && isSorted (y :: l)

/-- `check_curve`, `gbs/bscurve.h:200-233`. -/
def checkCurve (eps : K) (np : ℕ) (knots : List K) (p : ℕ) : R Bool := do
  let km ← unflatKnots eps knots
  if ¬ isSorted (km.map Prod.fst) then pure false
  else if ¬ (p + 1 + np = knots.length) then pure false
  else pure (decide (p + 1 ≤ np))

/-- Flat-knot constructor, `gbs/bscurve.h:307-315`. -/
def Curve.mk? (eps : K) (poles : List V) (knots : List K) (p : ℕ) : R (Curve K V) :=
  match knots.head?, knots.getLast? with
  | some a, some b => do
    let ok ← checkCurve eps poles.length knots p
    if ok then pure { deg := p, poles := poles, knots := knots, b0 := a, b1 := b }
    else .error (.thrown .invalid)
  | _, _ => .error .oob

/-- Knots and multiplicities constructor, `gbs/bscurve.h:270-279`. -/
def Curve.mkMult? (eps : K) (poles : List V) (knots : List K) (mult : List ℕ) (p : ℕ) :
    R (Curve K V) := do
  let flat ← flatKnots knots mult
  match knots.head?, knots.getLast? with
  | some a, some b => do
    let ok ← checkCurve eps poles.length flat p
    if ok then pure { deg := p, poles := poles, knots := flat, b0 := a, b1 := b }
    else .error (.thrown .invalid)
  | _, _ => .error .oob

end Gbs
