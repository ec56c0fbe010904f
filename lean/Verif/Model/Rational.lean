import Verif.Model.Curve
import Mathlib.Algebra.Module.Prod

/-!
# Model of rational evaluation (`gbs/basisfunctions.ixx`, `gbs/bscurve.h`)

A homogeneous pole `std::array<T,dim+1>` is a pair `(x, w) : V × K` of its first `dim`
coordinates and its last one, the weight; a rational curve is a `Curve K (V × K)`.
-/

namespace Gbs

variable {K : Type} [Field K] [LinearOrder K]
variable {V : Type} [AddCommGroup V] [Module K V]

/-- `factorial` on `size_t` (64 bits, arithmetic modulo `2^64`), `gbs/math.ixx:47-58`. -/
def factU : ℕ → ℕ
  | 0 => 1
  | n + 1 => ((n + 1) * factU n) % 2 ^ 64

/-- `binomial_law<T>(size_t n, size_t k)`, `gbs/math.ixx:60-71`: the factorials and the product
in the denominator are `size_t`, the quotient is taken in `T`. The callers have `k ≤ n`. -/
def binomialU (n k : ℕ) : R K :=
  if k = n then pure 1
  else fdiv (factU n : K) (((factU k * factU (n - k)) % 2 ^ 64 : ℕ) : K)

/-- `weight_projection`, `gbs/basisfunctions.ixx:874-888`. -/
def weightProjection (x : V × K) : V := if x.2 ≠ 0 then x.2⁻¹ • x.1 else 0

/-- `v / s` on points is `v * (1/s)`, `gbs/vecop.ixx:149-153`; a coordinate-wise `v[c] / s` is the
same vector. -/
def vdiv (v : V) (s : K) : R V := if s = 0 then .error .divZero else .ok (s⁻¹ • v)

/-- `eval_rational_value_simple`, `gbs/basisfunctions.ixx:1087-1110`. The recursion on lower orders
is bounded by the fuel (first argument), which is `d+1` in `evalRational`; `use_span_reduction` is
ignored by the callee. -/
def evalRationalF (eps junk u : K) (k : List K) (poles : List (V × K)) (p : ℕ) : ℕ → ℕ → R V
  | 0, _ => .error .oob
  | f + 1, d =>
    if d = 0 then do
      let x ← evalValue eps junk u k poles p d
      pure (weightProjection x)
    else do
      let wu ← evalValue eps junk u k poles p 0
      let Ckw ← evalValue eps junk u k poles p d
      let Ak := weightProjection (Ckw.1, (1 : K))
      let sum ← forLe 1 d (fun i sum => do
        let wi ← evalValue eps junk u k poles p i
        let C ← evalRationalF eps junk u k poles p f (d - i)
        let b ← binomialU d i
        pure (sum - (b * wi.2) • C)) Ak
      vdiv sum wu.2

/-- `eval_rational_value_simple`, `gbs/basisfunctions.ixx:1087-1110`. -/
def evalRational (eps junk u : K) (k : List K) (poles : List (V × K)) (p d : ℕ) : R V :=
  evalRationalF eps junk u k poles p (d + 1) d

/-- `gbs/basisfunctions.ixx:474-487`: one order of the quotient rule, reading the lower orders
in the buffer `CK`. -/
def rationalOrder (Aders : List (V × K)) (w0 : K) (kk : ℕ) (CK : List V) : R (List V) := do
  let A ← rd Aders kk
  let v ← forLe 1 kk (fun i v => do
    let b ← binomialU kk i
    let Ai ← rd Aders i
    let C ← rd CK (kk - i)
    pure (v - (b * Ai.2) • C)) A.1
  let v ← vdiv v w0
  wr CK kk v

/-- `eval_rational_ders`, `gbs/basisfunctions.ixx:459-488`: returns the content of `CK[0..n]`
(`CK0` is the caller's buffer). -/
def evalRationalDers (eps junk u : K) (k : List K) (poles : List (V × K)) (p n : ℕ) (CK0 : List V) :
    R (List V) :=
  if stackMaxDegree < n then
    forLe 0 n (fun kk CK => do
      let v ← evalRational eps junk u k poles p kk
      wr CK kk v) CK0
  else do
    let Aders ← evalDers eps junk u k poles p n
    let A0 ← rd Aders 0
    forLe 0 n (rationalOrder Aders A0.2) CK0

/-- `BSCurveRational::value`, `gbs/bscurve.h:638-645`. -/
def Curve.ratValue (eps junk : K) (c : Curve K (V × K)) (u : K) (d : ℕ := 0) : R V :=
  if u < c.b0 - eps ∨ c.b1 + eps < u then .error (.thrown .outOfBoundsEval)
  else evalRational eps junk u c.knots c.poles c.deg d

/-- `BSCurveRational::derivatives`, `gbs/bscurve.h:646-653`. -/
def Curve.ratDerivatives (eps junk : K) (c : Curve K (V × K)) (u : K) (n : ℕ) (CK0 : List V) :
    R (List V) :=
  if u < c.b0 - eps ∨ c.b1 + eps < u then .error (.thrown .outOfBoundsEval)
  else evalRationalDers eps junk u c.knots c.poles c.deg n CK0

/-- `add_weight`, `gbs/basisfunctions.ixx:951-964`. -/
def addWeight (x : V) (w : K) : V × K := (w • x, w)

/-- `merge_weights`, `gbs/basisfunctions.ixx:849-864`: one weight is read for each pole, the sizes
are not compared. -/
def mergeWeights : List V → List K → R (List (V × K))
  | [], _ => pure []
  | _ :: _, [] => .error .oob
  | x :: xs, w :: ws => do
    let r ← mergeWeights xs ws
    pure (addWeight x w :: r)

/-- `separate_weights`, `gbs/basisfunctions.ixx:922-941`: the two output vectors. -/
def separateWeights (P : List (V × K)) : List V × List K :=
  (P.map weightProjection, P.map Prod.snd)

/-- `add_weights_coord(poles)`, `gbs/basisfunctions.ixx:972-987`. -/
def addUnitWeights (P : List V) : List (V × K) := P.map (fun x => addWeight x (1 : K))

/-- `add_weights_coord(poles,weights)`, `gbs/basisfunctions.ixx:999-1020`. -/
def addWeightsCoord (P : List V) (W : List K) : R (List (V × K)) :=
  if P.length ≠ W.length then .error (.thrown .length)
  else .ok (List.zipWith addWeight P W)

/-- `scale_poles`, `gbs/basisfunctions.ixx:1030-1039`. -/
def scalePoles {M : Type} [AddCommGroup M] [Module K M] (P : List M) (s : K) : List M :=
  P.map (fun x => s • x)

/-- `scale_weights`, `gbs/basisfunctions.ixx:1041-1058`. -/
def scaleWeights (P : List (V × K)) (mean : K := 1) : R (List (V × K)) := do
  let m ← fdiv (P.foldl (fun s x => s + x.2) 0) (P.length : K)
  let s ← fdiv mean m
  pure (scalePoles P s)

/-- `scaled_weights`, `gbs/basisfunctions.ixx:1068-1074`: the parameter `mean_value` is not passed on. -/
def scaledWeights (P : List (V × K)) (_mean : K := 1) : R (List (V × K)) := scaleWeights P

/-- `poles_projected`, `gbs/bscurve.h:609-617`, and `BSCurveRational::weights`, `655-662`. -/
def polesProjected (P : List (V × K)) : List V := P.map weightProjection

end Gbs
