import Verif.Model.KnotInsertion

/-!
# Model of ranges, parametrizations, knot generation and ordered insertion
(`gbs/math.ixx`, `gbs/knotsfunctions.ixx`)
-/

namespace Gbs

variable {K : Type} [Field K] [LinearOrder K]
variable {V : Type} [AddCommGroup V] [Module K V]

/-- `std::generate(first, last, [v_ = v]() mutable { return v_ += step; })` on `n` elements. -/
def genSteps (step : K) : K → ℕ → List K
  | _, 0 => []
  | v, n + 1 => (v + step) :: genSteps step (v + step) n

/-- `make_range(v1,v2,n)`, `gbs/math.ixx:73-97`. The generated part goes up to the end
(`std::next(v.end() - 1)` is `v.end()`), the last element is then overwritten. For `n = 2` the
value-initialised second element is overwritten too. -/
def makeRange (v1 v2 : K) (n : ℕ) : R (List K) :=
  if n < 2 then .error (.thrown .length)
  else do
    let step ← fdiv (v2 - v1) ((n : K) - 1)
    let v := v1 :: (if 2 < n then genSteps step v1 (n - 1) else List.replicate (n - 1) 0)
    wr v (n - 1) v2

/-- `make_range(u1,u2,v1,v2,nu,nv)`, `gbs/math.ixx:99-119`. -/
def makeRange2 (u1 u2 v1 v2 : K) (nu nv : ℕ) : R (List (K × K)) :=
  if nu < 2 ∨ nv < 2 then .error (.thrown .length)
  else
    let lu : K := ((nu - 1 : ℕ) : K)
    let lv : K := ((nv - 1 : ℕ) : K)
    forLt 0 nu (fun i v => forLt 0 nv (fun j v => do
      let a ← fdiv ((u2 - u1) * i) lu
      let b ← fdiv ((v2 - v1) * j) lv
      wr v (j + nv * i) (u1 + a, v1 + b)) v) (List.replicate (nu * nv) (0, 0))

/-- `make_range(u1,u2,v1,v2,w1,w2,nu,nv,nw)`, `gbs/math.ixx:121-145`. -/
def makeRange3 (u1 u2 v1 v2 w1 w2 : K) (nu nv nw : ℕ) : R (List (K × K × K)) :=
  if nu < 2 ∨ nv < 2 ∨ nw < 2 then .error (.thrown .length)
  else
    let lu : K := ((nu - 1 : ℕ) : K)
    let lv : K := ((nv - 1 : ℕ) : K)
    let lw : K := ((nw - 1 : ℕ) : K)
    forLt 0 nu (fun i v => forLt 0 nv (fun j v => forLt 0 nw (fun k v => do
      let a ← fdiv ((u2 - u1) * i) lu
      let b ← fdiv ((v2 - v1) * j) lv
      let c ← fdiv ((w2 - w1) * k) lw
      wr v (k + nw * (j + nv * i)) (u1 + a, v1 + b, w1 + c)) v) v)
      (List.replicate (nu * nv * nw) (0, 0, 0))

/-- `make_range(v1,v2)` on integers, `gbs/math.ixx:159-177`; `v2 < v1` gives less than two elements
for signed types. -/
def makeRangeInt (v1 v2 : ℤ) : R (List ℤ) :=
  if v2 - v1 + 1 < 2 then .error (.thrown .length)
  else .ok ((List.range (v2 - v1 + 1).toNat).map (fun i : ℕ => v1 + (i : ℤ)))

/-- `KnotsCalcMode`, `gbs/knotsfunctions.ixx:295`. -/
inductive KnotsCalcMode where
  | equallySpaced
  | chordLength
  | centripetal
  deriving DecidableEq, Repr

/-- The stateful `std::transform` over consecutive points, `gbs/knotsfunctions.ixx:314-326`: `k_ += len(pt1,pt2)`
with `pt1` the current point and `pt2` the previous one. -/
def cumulate {P : Type} (len : P → P → K) : K → P → List P → List K
  | _, _, [] => []
  | k, prev, x :: xs => (k + len x prev) :: cumulate len (k + len x prev) x xs

/-- `adimension`, `gbs/knotsfunctions.ixx:285-293`; `back()` of an empty vector is undefined behaviour. -/
def adimension (eps : K) (k : List K) : R (List K) :=
  match k.head?, k.getLast? with
  | some a, some b =>
    let d := b - a
    if eps < |d| then k.mapM (fun x => fdiv x d) else pure k
  | _, _ => .error .oob

/-- `curve_parametrization`, `gbs/knotsfunctions.ixx:306-341`. `dist` is the distance of points, `sqrt` the square
root. With a single point the step `1./0` of the equally spaced mode is computed but not used: it is the field's
`1/0` here. -/
def curveParametrization {P : Type} (eps : K) (dist : P → P → K) (sqrt : K → K) (pts : List P) (mode : KnotsCalcMode)
    (adim : Bool) : R (List K) :=
  match pts with
  | [] => .error .oob
  | x :: xs =>
    let k : List K := match mode with
      | .chordLength => 0 :: cumulate dist 0 x xs
      | .centripetal => 0 :: cumulate (fun a b => sqrt (dist a b)) 0 x xs
      | .equallySpaced => 0 :: genSteps (1 / (xs.length : K)) 0 xs.length
    if adim then adimension eps k else pure k

/-- `insert_unique_ordered`, `gbs/knotsfunctions.ixx:1078-1084`. -/
def insertUniqueOrdered (L : List K) (v tol : K) : List K :=
  let i := lowerBound L v
  match L[i]? with
  | none => L.insertIdx i v
  | some x => if tol < |v - x| then L.insertIdx i v else L

/-- `insert_ordered`, `gbs/knotsfunctions.ixx:1095-1099`. -/
def insertOrdered (L : List K) (v : K) : List K := L.insertIdx (lowerBound L v) v

/-- `build_simple_mult_flat_knots(u1,u2,n,p)`, `gbs/knotsfunctions.ixx:77-96`; `n - p` is a `size_t`. -/
def buildSimpleMultFlatKnots (u1 u2 : K) (n p : ℕ) : R (List K) := do
  let nk := n + p + 1
  let k ← forLt 0 (p + 1) (fun j k => wr k j u1) (List.replicate nk 0)
  let k ← forLt (nk - p - 1) nk (fun j k => wr k j u2) k
  let np ← usub n p
  forLt 1 np (fun j k => do
    let q ← fdiv ((u2 - u1) * j) ((n : K) - p + 1)
    wr k (j + p) (u1 + q)) k

/-- `build_simple_mult_flat_knots(u,p)`, `gbs/knotsfunctions.ixx:35-65` (averaging of the parameters, the
`assert` being compiled out). -/
def averagedFlatKnots (u : List K) (p : ℕ) : R (List K) := do
  let n := u.length
  let nk := n + p + 1
  let u1 ← rd u 0
  let l ← usub n 1
  let u2 ← rd u l
  let k ← forLt 0 (p + 1) (fun j k => wr k j u1) (List.replicate nk 0)
  let k ← forLt (nk - p - 1) nk (fun j k => wr k j u2) k
  if 2 < n then do
    let np ← usub n p
    forLt 1 np (fun j k => do
      let k ← wr k (j + p) 0
      forLe j (j + p - 1) (fun i k => do
        let ui ← rd u i
        let q ← fdiv ui (p : K)
        let x ← rd k (j + p)
        wr k (j + p) (x + q)) k) k
  else pure k

/-- `build_mult_flat_knots(k,p,mult)`, `gbs/knotsfunctions.ixx:260-268`; `front()` of an empty vector and
`--m.end() < ++m.begin()` for a single knot are undefined behaviour. -/
def buildMultFlatKnots (k : List K) (p mult : ℕ) : R (List K) :=
  if k.length < 2 then .error .oob
  else flatKnots k ((p + 1) :: (List.replicate (k.length - 2) mult ++ [p + 1]))

end Gbs
