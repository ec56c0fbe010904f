import Verif.Model.Curve

/-!
# Model of knot insertion (`gbs/knotsfunctions.ixx`, `gbs/bscurve.h`)
-/

namespace Gbs

variable {K : Type} [Field K] [LinearOrder K]
variable {V : Type} [AddCommGroup V] [Module K V]

/-- `std::upper_bound(U.begin(), U.end(), u) - U.begin()` on a sorted vector: index of the first
element greater than `u`, or the size (contract of the standard library). -/
def upperBound (U : List K) (u : K) : ℕ := U.findIdx (fun x => decide (u < x))

/-- `std::lower_bound(U.begin(), U.end(), u) - U.begin()` on a sorted vector: index of the first
element not less than `u`, or the size (contract of the standard library). -/
def lowerBound (U : List K) (u : K) : ℕ := U.findIdx (fun x => decide (u ≤ x))

/-- Loop body `D[i + off] = S[i]`. -/
def copyBody {α : Type} (S : List α) (off : ℕ) (i : ℕ) (D : List α) : R (List α) := do
  let x ← rd S i
  wr D (i + off) x

/-- `gbs/knotsfunctions.ixx:406-409`: one blending step of the temporary poles. -/
def insInner (u : K) (U : List K) (k L : ℕ) (i : ℕ) (Rt : List V) : R (List V) := do
  let a ← rd U (L + i)
  let b ← rd U (i + k + 1)
  let alpha ← fdiv (u - a) (b - a)
  let x1 ← rd Rt (i + 1)
  let x0 ← rd Rt i
  wr Rt i (alpha • x1 + (1 - alpha) • x0)

/-- Working storage of `insert_knots`: `R`, `Q`, `L`. -/
structure InsState (V : Type) where
  /-- `R` -/
  Rt : List V
  /-- `Q` -/
  Q : List V
  /-- `L` -/
  L : ℕ

/-- `gbs/knotsfunctions.ixx:401-413`: one insertion. -/
def insOuter (u : K) (U : List K) (p s r k : ℕ) (j : ℕ) (st : InsState V) : R (InsState V) := do
  let kp ← usub k p
  let L := kp + j
  let e ← usub p (j + s)
  let Rt ← forLe 0 e (insInner u U k L) st.Rt
  let x0 ← rd Rt 0
  let Q ← wr st.Q L x0
  let h ← usub (k + r) (j + s)
  let xe ← rd Rt e
  let Q ← wr Q h xe
  pure { Rt := Rt, Q := Q, L := L }

/-- `insert_knots` (NURBS book A5.1), `gbs/knotsfunctions.ixx:366-423`. Returns the index, the
knots and the poles. The index is an integer: a negative value stands for the wrapped `size_t`
the code returns. Copies are done element by element into value-initialised vectors, as in the
code. A negative `k` or `k - s` (`u` before the first knot) makes the code loop out of its arrays:
`oob`. -/
def insertKnots (u : K) (p r : ℕ) (U : List K) (P : List V) : R (ℤ × List K × List V) :=
  let ub := upperBound U u
  let s := ub - lowerBound U u
  if p ≤ s then
    pure ((ub : ℤ) - 1 - p - (if ub = U.length then 1 else 0), U, P)
  else do
    let np ← usub P.length 1
    let mp := np + p + 1
    let r := min r (p - s)
    let k ← usub ub 1
    let UQ ← forLe 0 k (copyBody U 0) (List.replicate (U.length + r) 0)
    let UQ ← forLe 1 r (fun i UQ => wr UQ (i + k) u) UQ
    let UQ ← forLe (k + 1) mp (copyBody U r) UQ
    let kp ← usub k p
    let Q ← forLe 0 kp (copyBody P 0) (List.replicate (P.length + r) 0)
    let ks ← usub k s
    let Q ← forLe ks np (copyBody P r) Q
    let Rt ← forLe 0 (p - s) (fun i Rt => do
      let x ← rd P (kp + i)
      wr Rt i x) (List.replicate (p + 1) 0)
    let st ← forLe 1 r (insOuter u U p s r k) { Rt := Rt, Q := Q, L := 0 }
    let Q ← forLt (st.L + 1) ks (fun i Q => do
      let d ← usub i st.L
      let x ← rd st.Rt d
      wr Q i x) st.Q
    pure ((k : ℤ) + 1 + r - (p + 1), UQ, Q)

/-- `BSCurveGeneral::insertKnot`, `gbs/bscurve.h:396-399`: the bounds are kept. -/
def Curve.insertKnot (c : Curve K V) (u : K) (m : ℕ := 1) : R (ℤ × Curve K V) := do
  let r ← insertKnots u c.deg m c.knots c.poles
  pure (r.1, { c with knots := r.2.1, poles := r.2.2 })

end Gbs
