import Verif.Model.KnotInsertion
import Verif.Model.Rational

/-!
# Model of knot removal and degree elevation (`gbs/knotsfunctions.ixx`, `gbs/bscurve.h`)
-/

namespace Gbs

variable {K : Type} [Field K] [LinearOrder K]
variable {V : Type} [AddCommGroup V] [Module K V]

/-! ## Degree elevation of a Bézier curve -/

/-- `factorial` on `int` (32 bits), `gbs/math.ixx:47-58`: signed overflow is undefined behaviour. -/
def factI : ℕ → R ℕ
  | 0 => pure 1
  | n + 1 => do
    let f ← factI n
    if (n + 1) * f < 2 ^ 31 then pure ((n + 1) * f) else .error .overflow

/-- `binomial_law<T,int>`, `gbs/math.ixx:60-71`; the callers have `k ≤ n`. -/
def binomialI (n k : ℕ) : R K :=
  if k = n then pure 1
  else do
    let a ← factI n
    let b ← factI k
    let c ← factI (n - k)
    if b * c < 2 ^ 31 then fdiv (a : K) ((b * c : ℕ) : K) else .error .overflow

/-- The inner loop of `increase_bezier_degree`, `gbs/knotsfunctions.ixx:815-819`. -/
def bezierPole (P : List V) (p t i : ℕ) : R V :=
  forLe (i - t) (min p i) (fun j acc => do
    let b1 ← binomialI (K := K) p j
    let b2 ← binomialI (K := K) t (i - j)
    let b3 ← binomialI (K := K) (p + t) i
    let c ← fdiv (b1 * b2) b3
    let x ← rd P j
    pure (acc + c • x)) 0

/-- `increase_bezier_degree`, `gbs/knotsfunctions.ixx:806-822`. -/
def increaseBezier (K : Type) [Field K] [LinearOrder K] {V : Type} [AddCommGroup V] [Module K V] (P : List V) (p t : ℕ) : R (List V) :=
  forLe 0 (p + t) (fun i Pt => do
    let x ← bezierPole (K := K) P p t i
    wr Pt i x) (List.replicate (p + 1 + t) 0)

/-! ## Knot removal -/

/-- State of the loops of one removal pass: `temp`, `i`, `j`, `ii`, `jj`. -/
structure RemState (V : Type) where
  /-- `temp` -/
  temp : List V
  /-- `i` -/
  i : ℕ
  /-- `j` -/
  j : ℕ
  /-- `ii` -/
  ii : ℕ
  /-- `jj` -/
  jj : ℕ

/-- The loop computing the candidate poles of one pass, `gbs/knotsfunctions.ixx:493-503` and `619-629`: the counter `j`
decreases down to at most `i + t`. -/
def remCompute (u : K) (U : List K) (A : List V) (p t : ℕ) : ℕ → ℕ → ℕ → ℕ → List V → R (RemState V)
  | 0, i, ii, jj, temp => pure ⟨temp, i, 0, ii, jj⟩
  | j + 1, i, ii, jj, temp =>
    if i + t < j + 1 then do
      let ui ← rd U i
      let ui' ← rd U (i + (p + 1) + t)
      let alfi ← fdiv (u - ui) (ui' - ui)
      let d ← usub (j + 1) t
      let uj ← rd U d
      let uj' ← rd U (j + 1 + (p + 1))
      let alfj ← fdiv (u - uj) (uj' - uj)
      let Pi ← rd A i
      let i' ← usub ii 1
      let ti ← rd temp i'
      let x ← vdiv (Pi - (1 - alfi) • ti) alfi
      let temp ← wr temp ii x
      let Pj ← rd A (j + 1)
      let tj ← rd temp (jj + 1)
      let y ← vdiv (Pj - alfj • tj) (1 - alfj)
      let temp ← wr temp jj y
      let jj' ← usub jj 1
      remCompute u U A p t j (i + 1) (ii + 1) jj' temp
    else pure ⟨temp, i, j + 1, ii, jj⟩

/-- The loop storing the poles of one pass, `gbs/knotsfunctions.ixx:506-512` and `652-658`. -/
def remCommit (temp : List V) (t off : ℕ) : ℕ → ℕ → List V → R (List V)
  | 0, _, A => pure A
  | j + 1, i, A =>
    if i + t < j + 1 then do
      let k ← usub i off
      let x ← rd temp k
      let A ← wr A i x
      let k ← usub (j + 1) off
      let y ← rd temp k
      let A ← wr A (j + 1) y
      remCommit temp t off j (i + 1) A
    else pure A

/-- The first lines of a pass, `gbs/knotsfunctions.ixx:486-503` and `609-629`: returns `off`, `last` and the loop state. A negative
`first` or `off` is treated as an access out of range (`P[off]` is read first). -/
def remPass (u : K) (U : List K) (p r s t : ℕ) (A temp : List V) : R (ℕ × ℕ × ℕ × RemState V) := do
  let first ← usub r (p + t)
  let off ← usub first 1
  let last0 ← usub r s
  let last := last0 + t
  let x ← rd A off
  let temp ← wr temp 0 x
  let y ← rd A (last + 1)
  let k ← usub (last + 1) off
  let temp ← wr temp k y
  let k ← usub last off
  let st ← remCompute u U A p t last first 1 k temp
  pure (first, off, last, st)

/-- The end of the removals, after `t ≥ 1` of them: the knots and the poles are shifted, `gbs/knotsfunctions.ixx:522-537` and
`662-680`. -/
def remFinish (p r s t : ℕ) (U : List K) (A : List V) : R (List K × List V) := do
  let U' ← forLt (r + 1) U.length (fun k U => do
    let d ← usub k t
    let x ← rd U k
    wr U d x) U
  let c ← usub (2 * r) (s + p)
  let fout := c / 2
  let ji ← forLt 1 t (fun k (ji : ℕ × ℕ) => do
    if k % 2 = 1 then pure (ji.1, ji.2 + 1)
    else do
      let j ← usub ji.1 1
      pure (j, ji.2)) (fout, fout)
  let jA ← forLt (ji.2 + 1) A.length (fun k (jA : ℕ × List V) => do
    let x ← rd jA.2 k
    let A ← wr jA.2 jA.1 x
    pure (jA.1 + 1, A)) (ji.1, A)
  let nA ← usub A.length t
  let nU ← usub U.length t
  pure (U'.take nU, jA.2.take nA)

/-- `remove_knot(u, num, U, P, p)`, `gbs/knotsfunctions.ixx:456-539`. -/
def removeKnot (eps u : K) (num : ℕ) (U : List K) (P : List V) (p : ℕ) : R (List K × List V) := do
  let r ← usub (upperBound U u) 1
  let x ← rd U r
  if eps < |x - u| ∨ r = 0 ∨ r = U.length then pure (U, P)
  else
    let s := upperBound U u - lowerBound U u
    if num < 1 then pure (U, P)
    else do
      let At ← forLt 0 num (fun t (At : List V × List V) => do
        let (first, off, last, st) ← remPass u U p r s t At.1 At.2
        let A ← remCommit st.temp t off last first At.1
        pure (A, st.temp)) (P, List.replicate (2 * p + 1) 0)
      remFinish p r s num U At.1

/-- The loop of `remove_knot` with tolerance, `gbs/knotsfunctions.ixx:607-662`: `n` attempts left after `t` removals; `near a b` is
`distance(a, b) <= tol`. Returns the number of removals and the poles. -/
def remTolLoop (near : V → V → Bool) (u : K) (U : List K) (p r s : ℕ) : ℕ → ℕ → List V → List V → R (ℕ × List V)
  | 0, t, A, _ => pure (t, A)
  | n + 1, t, A, temp => do
    let (first, off, last, st) ← remPass u U p r s t A temp
    let ok ← if st.j < st.i + t then do
        let a ← usub st.ii 1
        let x ← rd st.temp a
        let y ← rd st.temp (st.jj + 1)
        pure (near x y)
      else do
        let ui ← rd U st.i
        let ui' ← rd U (st.i + (p + 1) + t)
        let alfi ← fdiv (u - ui) (ui' - ui)
        let Pi ← rd A st.i
        let x ← rd st.temp (st.ii + t + 1)
        let a ← usub st.ii 1
        let y ← rd st.temp a
        pure (near Pi (alfi • x + (1 - alfi) • y))
    if ok then do
      let A ← remCommit st.temp t off last first A
      remTolLoop near u U p r s n (t + 1) A st.temp
    else pure (t, A)

/-- `remove_knot(u, p, num, U, Pw, tol)`, `gbs/knotsfunctions.ixx:553-681`: returns the number of removals, the knots and the poles. -/
def removeKnotTol (eps : K) (near : V → V → Bool) (u : K) (p num : ℕ) (U : List K) (P : List V) : R (ℕ × List K × List V) := do
  let r ← usub (upperBound U u) 1
  let x ← rd U r
  if eps < |x - u| ∨ r = 0 ∨ r = U.length then pure (0, U, P)
  else if num < 1 then pure (0, U, P)
  else do
    let s := upperBound U u - lowerBound U u
    let tA ← remTolLoop near u U p r s num 0 P (List.replicate (2 * p + 1) 0)
    if tA.1 = 0 then pure (0, U, tA.2)
    else do
      let UP ← remFinish p r s tA.1 U tA.2
      pure (tA.1, UP.1, UP.2)

/-- `BSCurveGeneral::removeKnot`, `gbs/bscurve.h:421-424`; `near a b` is `distance(a, b) <= tol`. -/
def Curve.removeKnot (eps : K) (near : V → V → Bool) (c : Curve K V) (u : K) (m : ℕ := 1) : R (Curve K V) := do
  let (_, U, P) ← removeKnotTol eps near u c.deg m c.knots c.poles
  pure { c with knots := U, poles := P }

/-- The loop of the third overload, `gbs/knotsfunctions.ixx:722-733`: `Pi` is kept reversed (its back first). Returns `i`, `j` and the
two lists. -/
def rem1Loop (u : K) (U : List K) (A : List V) (p : ℕ) : ℕ → ℕ → List V → List V → R (ℕ × ℕ × List V × List V)
  | 0, i, Pi, Pj => pure (i, 0, Pi, Pj)
  | j + 1, i, Pi, Pj =>
    if i < j + 1 then do
      let ui ← rd U i
      let ui' ← rd U (i + p + 1)
      let ai ← fdiv (u - ui) (ui' - ui)
      let uj ← rd U (j + 1)
      let uj' ← rd U (j + 1 + p + 1)
      let aj ← fdiv (u - uj) (uj' - uj)
      let a ← rd A i
      let pb ← rd Pi 0
      let x ← vdiv (a - (1 - ai) • pb) ai
      let b ← rd A (j + 1)
      let pf ← rd Pj 0
      let y ← vdiv (b - aj • pf) (1 - aj)
      rem1Loop u U A p j (i + 1) (x :: Pi) (y :: Pj)
    else pure (i, j + 1, Pi, Pj)

/-- `remove_knot(u, p, U, Pw, tol)`, `gbs/knotsfunctions.ixx:693-777`; `near a b` is `distance(a, b) < tol`. `pop_front` on a list
that always has an element. -/
def removeKnot1 (eps : K) (near : V → V → Bool) (u : K) (p : ℕ) (U : List K) (P : List V) : R (Bool × List K × List V) := do
  let r ← usub (upperBound U u) 1
  let x ← rd U r
  if eps < |x - u| then pure (false, U, P)
  else do
    let s := upperBound U u - lowerBound U u
    let first ← usub r p
    let last ← usub r s
    let f1 ← usub first 1
    let a ← rd P f1
    let b ← rd P (last + 1)
    let (i, j, Pi, Pj) ← rem1Loop u U P p last first [a] [b]
    let res ← if j < i then do
        let x ← rd Pi 0
        let y ← rd Pj 0
        pure (if near x y then some (Pi, Pj.tail) else none)
      else do
        let ui ← rd U i
        let ui' ← rd U (i + p + 1)
        let ai ← fdiv (u - ui) (ui' - ui)
        let c ← rd P i
        let x ← rd Pi 0
        let y ← rd Pj 0
        pure (if near c (ai • x + (1 - ai) • y) then some (Pi.tail, Pj.tail) else none)
    match res with
    | none => pure (false, U, P)
    | some (Pi, Pj) => pure (true, U.eraseIdx r, P.take first ++ Pi.reverse ++ Pj ++ P.drop (last + 1))

/-! ## Degree elevation of a B-spline -/

/-- The loop extracting the segments, `gbs/knotsfunctions.ixx:853-872`, from the pole `itp` and the knot `itu`. It stops when
`itp_` reaches the end; with a step of 1 (degree 0) and several poles it does not end: `noEnd` when the fuel is exhausted. -/
def bezierLoop (P : List V) (U : List K) (p : ℕ) : ℕ → ℕ → ℕ → R (List (List V × K × K))
  | 0, _, _ => .error .noEnd
  | f + 1, itp, itu =>
    if itp + (p + 1) ≤ P.length then do
      let a ← rd U itu
      let b ← rd U (itu + 1)
      let sg := ((P.drop itp).take (p + 1), a, b)
      if itp + (p + 1) = P.length then pure [sg]
      else do
        let l ← bezierLoop P U p f (itp + p) (itu + 1)
        pure (sg :: l)
    else .error .oob

/-- The insertions of `bezier_segments`, `gbs/knotsfunctions.ixx:837-844`; `p - M[i]` is a `size_t`: when it wraps around, the insertion
is limited to the room left, as for any large value. -/
def bezierInsert (p : ℕ) (km : List (K × ℕ)) (U : List K) (P : List V) : R (List K × List V) := do
  let m ← usub km.length 1
  forLt 1 m (fun i (UP : List K × List V) => do
    let x ← rd km i
    let n := if x.2 ≤ p then p - x.2 else 2 ^ 64 + p - x.2
    let r ← insertKnots x.1 p n UP.1 UP.2
    pure (r.2.1, r.2.2)) (U, P)

/-- `bezier_segments`, `gbs/knotsfunctions.ixx:832-876` (the assertion is not compiled in release builds). An empty vector of poles is
not entered: the loop condition is false at once. -/
def bezierSegments (eps : K) (U : List K) (P : List V) (p : ℕ) : R (List (List V × K × K)) := do
  let km ← unflatKnots eps U
  let UP ← bezierInsert p km U P
  let km ← unflatKnots eps UP.1
  if UP.2.length = 0 then pure []
  else bezierLoop UP.2 (km.map Prod.fst) p (UP.2.length + 1) 0 0

/-- `std::transform` of the segments, `gbs/knotsfunctions.ixx:964-975`. -/
def elevateSegs (p t : ℕ) : List (List V × K × K) → R (List (List V × K × K))
  | [] => pure []
  | sg :: l => do
    let P ← increaseBezier K sg.1 p t
    let l ← elevateSegs p t l
    pure ((P, sg.2) :: l)

/-- The poles, multiplicities and knots of the joined segments after the first one, `gbs/knotsfunctions.ixx:981-990`. -/
def joinSegs (q : ℕ) : List (List V × K × K) → R (List V × List ℕ × List K)
  | [] => pure ([], [], [])
  | sg :: l => do
    let P ← forLe 1 q (fun i P => do
      let x ← rd sg.1 i
      pure (P ++ [x])) []
    let (Q, M, U) ← joinSegs q l
    pure (P ++ Q, q :: M, sg.2.2 :: U)

/-- `increase_degree`, `gbs/knotsfunctions.ixx:955-1000`. The number of removals `p_new-(M[i]+t)` is a `size_t`: when it wraps around,
the removal loop leaves its arrays; that case is reported as `oob`. -/
def increaseDegree (eps : K) (U : List K) (P : List V) (p t : ℕ) : R (List K × List V) := do
  let km ← unflatKnots eps U
  let segs ← bezierSegments eps U P p
  let segs ← elevateSegs p t segs
  match segs with
  | [] => .error .oob
  | s0 :: l => do
    let (Q, M, W) ← joinSegs (p + t) l
    let k ← flatKnots (s0.2.1 :: s0.2.2 :: W) ((p + t + 1) :: M ++ [p + t + 1])
    let m ← usub km.length 1
    forLt 1 m (fun i (UP : List K × List V) => do
      let x ← rd km i
      if x.2 ≤ p then removeKnot eps x.1 (p - x.2) UP.1 UP.2 (p + t)
      else .error .oob) (k, s0.1 ++ Q)

/-- `BSCurveGeneral::increaseDegree`, `gbs/bscurve.h:576-580`: the bounds are kept. -/
def Curve.increaseDegree (eps : K) (c : Curve K V) (step : ℕ := 1) : R (Curve K V) := do
  let (U, P) ← Gbs.increaseDegree eps c.knots c.poles c.deg step
  pure { c with knots := U, poles := P, deg := c.deg + step }

end Gbs
