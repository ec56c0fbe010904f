import Verif.Model.Basic

/-!
# Model of `gbs/basisfunctions.ixx`: span search and basis functions
-/

namespace Gbs

variable {K : Type} [Field K] [LinearOrder K]

/-- The `while` loop of `find_span`, `gbs/basisfunctions.ixx:296-306`. The C++
variable `mid` is always `(low+high)/2` at the loop head, so it is not kept in
the state. Returns the index instead of the iterator. -/
def findSpanLoop (k : List K) (u : K) (low high : ℕ) : R ℕ := do
  let mid := (low + high) / 2
  let a ← rd k mid
  if u < a then
    if _h : (low + mid) / 2 = mid then pure mid
    else findSpanLoop k u low mid
  else
    let b ← rd k (mid + 1)
    if b ≤ u then
      if _h : (mid + high) / 2 = mid then pure mid
      else findSpanLoop k u mid high
    else pure mid
termination_by (high - low) + (low - high)
decreasing_by all_goals omega

/-- `find_span`, `gbs/basisfunctions.ixx:274-307` (NURBS book A2.1). `n` is the
number of poles. -/
def findSpan (n p : ℕ) (u : K) (k : List K) : R ℕ := do
  let nBook := if 0 < n then n - 1 else 0
  let e ← rd k (nBook + 1)
  if e ≤ u then pure nBook
  else findSpanLoop k u p (nBook + 1)

/-- `find_span_range`, `gbs/basisfunctions.ixx:309-318`. -/
def findSpanRange (n p : ℕ) (u : K) (k : List K) : R (ℕ × ℕ) := do
  let i2 ← findSpan n p u k
  let i1 := if p < i2 then i2 - p else 0
  pure (i1, i2)

/-- `bspline_stack_max_degree`, `gbs/gbsconstants.h`. -/
def stackMaxDegree : ℕ := 24

/-- Recursive Cox–de Boor function, `gbs/basisfunctions.ixx:41-71`. The
iterators `it`, `last` are the index `i` into the knot vector `k` and its end.
`T(C1)`, when the width is not above the tolerance, stays the width itself, as in
the code. -/
def basisFunction (eps : K) (k : List K) (u : K) : ℕ → ℕ → R K
  | 0, i => do
      let l1 ← usub k.length 1
      let uLast ← rd k l1
      let ui ← rd k i
      let ui1 ← rd k (i + 1)
      pure (if (ui ≤ u ∧ u < ui1) ∨ (|ui1 - uLast| < eps ∧ |u - uLast| < eps) then 1 else 0)
  | p + 1, i => do
      let ui ← rd k i
      let ui1 ← rd k (i + 1)
      let uip ← rd k (i + (p + 1))
      let ui1p ← rd k (i + (p + 2))
      let C1 := uip - ui
      let C2 := ui1p - ui1
      let c1 ← if eps < C1 then do
          let q ← fdiv (u - ui) C1
          let b ← basisFunction eps k u p i
          pure (q * b)
        else pure C1
      let c2 ← if eps < C2 then do
          let q ← fdiv (ui1p - u) C2
          let b ← basisFunction eps k u p (i + 1)
          pure (q * b)
        else pure C2
      pure (c1 + c2)

/-- Recursive derivative of a basis function, `gbs/basisfunctions.ixx:86-114`. -/
def basisFunctionD (eps : K) (k : List K) (u : K) : ℕ → ℕ → ℕ → R K
  | p, 0, i => basisFunction eps k u p i
  | 0, _ + 1, _ => pure 0
  | p + 1, d + 1, i =>
      if p + 1 < d + 1 then pure 0
      else do
        let ui ← rd k i
        let ui1 ← rd k (i + 1)
        let uip ← rd k (i + (p + 1))
        let ui1p ← rd k (i + (p + 2))
        let C1 := uip - ui
        let C2 := ui1p - ui1
        let c1 ← if eps < C1 then do
            let b ← basisFunctionD eps k u p d i
            fdiv b C1
          else pure C1
        let c2 ← if eps < C2 then do
            let b ← basisFunctionD eps k u p d (i + 1)
            fdiv b C2
          else pure C2
        pure ((p + 1 : ℕ) * (c1 - c2))

/-- Working storage of `basis_funcs`. -/
structure BfState (K : Type) where
  /-- `N` -/
  N : List K
  /-- `left` -/
  left : List K
  /-- `right` -/
  right : List K
  /-- `saved` -/
  saved : K

/-- Body of the inner loop of `basis_funcs`, `gbs/basisfunctions.ixx:158-163`. -/
def bfInner (j r : ℕ) (s : BfState K) : R (BfState K) := do
  let x ← rd s.N r
  let rt ← rd s.right (r + 1)
  let jr ← usub j r
  let lf ← rd s.left jr
  let temp ← fdiv x (rt + lf)
  let N ← wr s.N r (s.saved + rt * temp)
  pure { s with N := N, saved := lf * temp }

/-- Body of the outer loop of `basis_funcs`, `gbs/basisfunctions.ixx:153-165`. -/
def bfOuter (i : ℕ) (u : K) (k : List K) (j : ℕ) (s : BfState K) : R (BfState K) := do
  let a ← usub (i + 1) j
  let ka ← rd k a
  let left ← wr s.left j (u - ka)
  let kb ← rd k (i + j)
  let right ← wr s.right j (kb - u)
  let s ← forLt 0 j (bfInner j) { N := s.N, left := left, right := right, saved := 0 }
  let N ← wr s.N j s.saved
  pure { s with N := N }

/-- `basis_funcs` (NURBS book A2.2), `gbs/basisfunctions.ixx:147-166`; `wl`, `wr`
are the (uninitialised) `left`/`right` work arrays and `N0` the caller's buffer,
with arbitrary content. The `std::vector` overload at lines 116-136 has the same
body with `left`, `right` of size `p+1`. -/
def basisFuncs (i p : ℕ) (u : K) (k wl wrk N0 : List K) : R (List K) := do
  let N ← wr N0 0 1
  let s ← forLe 1 p (bfOuter i u k) { N := N, left := wl, right := wrk, saved := 0 }
  pure s.N

end Gbs

namespace Gbs

variable {K : Type} [Field K] [LinearOrder K]

/-- `NDU(r,c)` / `A(r,c)` for reading: the flat work arrays `ndu[r*s+c]`,
`a[r*s+c]` of `ders_basis_funs` are modelled as tables whose two indices are
checked separately (`rows`, `cols`), which is stricter than the C++ where a
column overflow would alias the next row. -/
def tget (rows cols : ℕ) (T : ℕ → ℕ → K) (r c : ℕ) : R K :=
  if r < rows ∧ c < cols then .ok (T r c) else .error .oob

/-- `NDU(r,c) = v` / `A(r,c) = v`. -/
def tset (rows cols : ℕ) (T : ℕ → ℕ → K) (r c : ℕ) (v : K) : R (ℕ → ℕ → K) :=
  if r < rows ∧ c < cols then .ok (fun r' c' => if r' = r ∧ c' = c then v else T r' c')
  else .error .oob

/-- Working storage of the first phase of `ders_basis_funs`. -/
structure NduState (K : Type) where
  /-- `ndu` -/
  ndu : ℕ → ℕ → K
  /-- `left` -/
  left : List K
  /-- `right` -/
  right : List K
  /-- `saved` -/
  saved : K

/-- `gbs/basisfunctions.ixx:194-200`. -/
def nduInner (p j r : ℕ) (s : NduState K) : R (NduState K) := do
  let rt ← rd s.right (r + 1)
  let jr ← usub j r
  let lf ← rd s.left jr
  let ndu ← tset (p+1) (p+1) s.ndu j r (rt + lf)
  let j1 ← usub j 1
  let x ← tget (p+1) (p+1) ndu r j1
  let w ← tget (p+1) (p+1) ndu j r
  let temp ← fdiv x w
  let ndu ← tset (p+1) (p+1) ndu r j (s.saved + rt * temp)
  pure { s with ndu := ndu, saved := lf * temp }

/-- `gbs/basisfunctions.ixx:189-202`. -/
def nduOuter (i p : ℕ) (u : K) (k : List K) (j : ℕ) (s : NduState K) : R (NduState K) := do
  let a ← usub (i + 1) j
  let ka ← rd k a
  let left ← wr s.left j (u - ka)
  let kb ← rd k (i + j)
  let right ← wr s.right j (kb - u)
  let s ← forLt 0 j (nduInner p j) { ndu := s.ndu, left := left, right := right, saved := 0 }
  let ndu ← tset (p+1) (p+1) s.ndu j j s.saved
  pure { s with ndu := ndu }

/-- Working storage of the second phase of `ders_basis_funs`. -/
structure DerState (K : Type) where
  /-- `a` (two rows) -/
  a : ℕ → ℕ → K
  /-- `s1` -/
  s1 : ℕ
  /-- `s2` -/
  s2 : ℕ
  /-- `ders` -/
  ders : List K

/-- `gbs/basisfunctions.ixx:226-230`. The `int` arithmetic `rk + j`, `pk + 1`,
`pk` is the checked natural subtraction `r + j - kk`, `p + 1 - kk`, `p - kk`. -/
def dersInner (p r kk s1 s2 : ℕ) (ndu : ℕ → ℕ → K) (j : ℕ) (s : (ℕ → ℕ → K) × K) :
    R ((ℕ → ℕ → K) × K) := do
  let x ← tget 2 (p+1) s.1 s1 j
  let j1 ← usub j 1
  let y ← tget 2 (p+1) s.1 s1 j1
  let pk1 ← usub (p + 1) kk
  let rkj ← usub (r + j) kk
  let w ← tget (p+1) (p+1) ndu pk1 rkj
  let q ← fdiv (x - y) w
  let a ← tset 2 (p+1) s.1 s2 j q
  let v ← tget 2 (p+1) a s2 j
  let pk ← usub p kk
  let b ← tget (p+1) (p+1) ndu rkj pk
  pure (a, s.2 + v * b)

/-- `gbs/basisfunctions.ixx:219-223`: the coefficient `a[s2][0]`, when `r >= kk`. -/
def dersFirst (p r kk s1 s2 : ℕ) (ndu : ℕ → ℕ → K) (a : ℕ → ℕ → K) :
    R ((ℕ → ℕ → K) × K) :=
  if kk ≤ r then do
    let x ← tget 2 (p+1) a s1 0
    let pk1 ← usub (p + 1) kk
    let w ← tget (p+1) (p+1) ndu pk1 (r - kk)
    let q ← fdiv x w
    let a ← tset 2 (p+1) a s2 0 q
    let v ← tget 2 (p+1) a s2 0
    let pk ← usub p kk
    let b ← tget (p+1) (p+1) ndu (r - kk) pk
    pure (a, v * b)
  else pure (a, 0)

/-- `gbs/basisfunctions.ixx:231-235`: the coefficient `a[s2][kk]`, when `r <= pk`. -/
def dersLast (p r kk s1 s2 : ℕ) (ndu : ℕ → ℕ → K) (s : (ℕ → ℕ → K) × K) :
    R ((ℕ → ℕ → K) × K) :=
  if r + kk ≤ p then do
    let k1 ← usub kk 1
    let x ← tget 2 (p+1) s.1 s1 k1
    let w ← tget (p+1) (p+1) ndu (p + 1 - kk) r
    let q ← fdiv (-x) w
    let a ← tset 2 (p+1) s.1 s2 kk q
    let v ← tget 2 (p+1) a s2 kk
    let b ← tget (p+1) (p+1) ndu r (p - kk)
    pure (a, s.2 + v * b)
  else pure s

/-- `gbs/basisfunctions.ixx:214-238`: one derivation order for one basis function. -/
def dersKk (p r : ℕ) (ndu : ℕ → ℕ → K) (kk : ℕ) (s : DerState K) : R (DerState K) := do
  let f ← dersFirst p r kk s.s1 s.s2 ndu s.a
  let j1 := if kk ≤ r + 1 then 1 else kk - r
  let j2 := if r + kk ≤ p + 1 then kk - 1 else p - r
  let m ← forLe j1 j2 (dersInner p r kk s.s1 s.s2 ndu) f
  let l ← dersLast p r kk s.s1 s.s2 ndu m
  let ders ← wr s.ders (kk * (p + 1) + r) l.2
  pure { a := l.1, s1 := s.s2, s2 := s.s1, ders := ders }

/-- `gbs/basisfunctions.ixx:210-239`: all orders for the basis function `r`. The
array `a` keeps its content from one `r` to the next. -/
def dersR (p n : ℕ) (ndu : ℕ → ℕ → K) (r : ℕ) (s : (ℕ → ℕ → K) × List K) :
    R ((ℕ → ℕ → K) × List K) := do
  let a ← tset 2 (p+1) s.1 0 0 1
  let st ← forLe 1 n (dersKk p r ndu) { a := a, s1 := 0, s2 := 1, ders := s.2 }
  pure (st.a, st.ders)

/-- `gbs/basisfunctions.ixx:247-248`. -/
def dersScaleRow (p kk : ℕ) (fac : K) (j : ℕ) (ders : List K) : R (List K) := do
  let x ← rd ders (kk * (p + 1) + j)
  wr ders (kk * (p + 1) + j) (x * fac)

/-- `gbs/basisfunctions.ixx:245-250`; `T(p - kk)` is a `size_t` subtraction. -/
def dersScale (p : ℕ) (kk : ℕ) (s : List K × K) : R (List K × K) := do
  let ders ← forLe 0 p (dersScaleRow p kk s.2) s.1
  let m ← usub p kk
  pure (ders, s.2 * (m : K))

/-- `ders_basis_funs` (NURBS book A2.3), `gbs/basisfunctions.ixx:177-251`. The
stack arrays (`ndu0`, `a0`, `wl`, `wrk`) and the caller's buffer `ders0` have
arbitrary initial content. -/
def dersBasisFuns (i p n : ℕ) (u : K) (k : List K) (ndu0 a0 : ℕ → ℕ → K) (wl wrk ders0 : List K) :
    R (List K) := do
  let ndu ← tset (p+1) (p+1) ndu0 0 0 1
  let s ← forLe 1 p (nduOuter i p u k) { ndu := ndu, left := wl, right := wrk, saved := 0 }
  let ders ← forLe 0 p (fun j ders => do
      let x ← tget (p+1) (p+1) s.ndu j p
      wr ders j x) ders0
  let ad ← forLe 0 p (dersR p n s.ndu) (a0, ders)
  let sc ← forLe 1 n (dersScale p) (ad.2, (p : K))
  pure sc.1

/-- `basis_ders`, `gbs/basisfunctions.ixx:260-272`: returns the content of `Nd[0..p]`.
Stack arrays have `bspline_stack_max_degree + 1` (squared) cells; their arbitrary
initial content is given by `junk`. -/
def basisDers (junk : K) (i p d : ℕ) (u : K) (k : List K) (Nd0 : List K) : R (List K) :=
  let w := List.replicate (stackMaxDegree + 1) junk
  if d = 0 then basisFuncs i p u k w w Nd0
  else do
    let ders ← dersBasisFuns i p d u k (fun _ _ => junk) (fun _ _ => junk) w w
      (List.replicate ((stackMaxDegree + 1) * (stackMaxDegree + 1)) junk)
    forLe 0 p (fun j Nd => do
      let x ← rd ders (d * (p + 1) + j)
      wr Nd j x) Nd0

end Gbs
