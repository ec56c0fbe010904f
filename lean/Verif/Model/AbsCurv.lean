import Verif.Model.Interp
import Verif.Model.Tfi
import Verif.Model.Wrapped

/-!
# Model of the curvilinear abscissa, `gbs/bscanalysis.h:88-380`

The quadrature of Boost is a parameter: `quad` integrates a function between two numbers, and the functions that use `length` take it as a parameter
`len`. Points of dimension one are numbers. The transformations over the intervals run in parallel; each one writes its own number.
-/

namespace Gbs

variable {K : Type} [Field K] [LinearOrder K]

/-- `length` and its derivatives with respect to the end, `gbs/bscanalysis.h:87-113`. -/
def lengthD {n : ℕ} (sqrt : K → K) (quad : (K → R K) → K → K → R K) (c : ACurve K (Fin n → K)) (u1 u2 : K) : ℕ → R K
  | 0 => quad (fun u => do
      let P ← c.value u 1
      pure (vnorm sqrt P)) u1 u2
  | 1 => do
    let P ← c.value u2 1
    pure (vnorm sqrt P)
  | 2 => do
    let P1 ← c.value u2 1
    let P2 ← c.value u2 2
    fdiv (dotV P1 P2) (vnorm sqrt P1)
  | _ => .error (.thrown .runtime)

/-- The lengths of the intervals, `gbs/bscanalysis.h:146-152`, `210-216`. -/
def intervalLengths (len : K → K → R K) : List K → R (List K)
  | a :: b :: l => do
    let d ← len a b
    let ds ← intervalLengths len (b :: l)
    pure (d :: ds)
  | _ => pure []

/-- Their running sums, `gbs/bscanalysis.h:154-159`, `218-223`. -/
def runningSums : K → List K → List K
  | s, [] => [s]
  | s, d :: ds => s :: runningSums (s + d) ds

/-- The abscissae of the values of the parameter. -/
def abscissae (len : K → K → R K) (u : List K) : R (List K) := do
  let dm ← intervalLengths len u
  pure (runningSums 0 dm)

/-- What the interpolations need: tolerances, growth, junk, the buffer and the sparse solver. -/
structure InterpArgs (K : Type) where
  eps : K
  meps : K
  growth : K
  junk : K
  x0 : K
  sparse : ℕ → List (ℕ × ℕ × K) → List K → R (List K)

/-- `interpolate(Q,u,p)` on numbers, `gbs/bscinterp.h:638-653`. -/
def InterpArgs.interpolate (a : InterpArgs K) (Q u : List K) (p : ℕ) : R (Curve K K) := interpolateCn a.eps a.meps a.growth a.junk a.x0 a.sparse Q u p

/-- `abs_curv(crv,u1,u2,n,p)`, `gbs/bscanalysis.h:139-163`: the parameter from the abscissa. -/
def absCurv (a : InterpArgs K) (len : K → K → R K) (u1 u2 : K) (n p : ℕ) : R (Curve K K) := do
  let u ← makeRange u1 u2 n
  let m ← abscissae len u
  a.interpolate u m (min p (u.length - 1))

/-- `curv_diff > tolerance`, `gbs/bscanalysis.h:199-200`, on floating-point numbers: the quotient by zero is infinite, or not a number. -/
def needsPoint (tol l12 l23 l13 : K) : Bool :=
  if l13 = 0 then decide (l12 + l23 - l13 ≠ 0) else decide (tol < |l12 + l23 - l13| / l13)

/-- The loop on the intervals, `gbs/bscanalysis.h:188-208`. `u.insert(it_u3, mid_u)` invalidates `it_u3`, which is then copied, incremented and
read: undefined. -/
def adaptivePass (len : K → K → R K) (tol : K) : List K → R Unit
  | a :: b :: l => do
    let mid := (1 / 2) * (a + b)
    let l12 ← len a mid
    let l23 ← len mid b
    let l13 ← len a b
    if needsPoint tol l12 l23 l13 then .error .oob else adaptivePass len tol (b :: l)
  | [_] => pure ()
  | [] => .error .oob

/-- `abs_curv_adaptive_discretzation`, `gbs/bscanalysis.h:179-225`: a pass that ends has inserted nothing. -/
def adaptiveTable (len : K → K → R K) (u1 u2 : K) (n : ℕ) (tol : K) : R (List K × List K) := do
  let u ← makeRange u1 u2 n
  adaptivePass len tol u
  let m ← abscissae len u
  pure (u, m)

/-- `abs_curv_adaptive`, `gbs/bscanalysis.h:240-245`. -/
def absCurvAdaptive (a : InterpArgs K) (len : K → K → R K) (u1 u2 : K) (n p : ℕ) (tol : K) : R (Curve K K) := do
  let (u, m) ← adaptiveTable len u1 u2 n tol
  a.interpolate u m (min p (u.length - 1))

/-- `curve_length_function`, `gbs/bscanalysis.h:281-286`: the abscissa from the parameter. -/
def curveLengthFunction (a : InterpArgs K) (len : K → K → R K) (u1 u2 : K) (n p : ℕ) (tol : K) : R (Curve K K) := do
  let (u, m) ← adaptiveTable len u1 u2 n tol
  a.interpolate m u (min p (u.length - 1))

/-- What the lattices read from a curve, with the law of `abs_curv` of degree 3. -/
def latticeCurve {V : Type} (a : InterpArgs K) (len : K → K → R K) (nLaw : ℕ) (c : ACurve K V) : LatticeCurve K V where
  b0 := c.b0
  b1 := c.b1
  val := c.value
  len := len
  law u1 u2 := do
    let f ← absCurv a len u1 u2 nLaw 3
    pure (f.b1, fun m => f.value a.eps a.junk m 0)

/-- `uniform_distrib_params(crv,u1,u2,n,n_law)`, `gbs/bscanalysis.h:338-366`. -/
def uniformParams {V : Type} (a : InterpArgs K) (len : K → K → R K) (c : ACurve K V) (u1 u2 : K) (n nLaw : ℕ) : R (List K) :=
  uniformDistrib (latticeCurve a len nLaw c) u1 u2 n

/-- `discretize(crv,n)`, `gbs/bscanalysis.h:527-530`, with `uniform_distrib_params(crv,n)`, `379-383`. -/
def discretizeUniform {V : Type} (a : InterpArgs K) (len : K → K → R K) (c : ACurve K V) (n : ℕ) : R (List V) := do
  let u ← uniformParams a len c c.b0 c.b1 n 30
  u.mapM fun t => c.value t 0

end Gbs
