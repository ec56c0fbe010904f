import Verif.Model.UnifyCurves

/-! # Insertion into one curve of the knots of another one -/

namespace Gbs

variable {K : Type} [Field K] [LinearOrder K]
variable {V : Type} [AddCommGroup V] [Module K V]

/-- Difference of two `size_t`, which are of 64 bits. -/
def wrapSub (m n : ℕ) : ℕ := if n ≤ m then m - n else 2 ^ 64 - (n - m)

/-- The `for_each` of `unify_knots(pk1,pk2,degree)`, `gbs/bsctools.h:304-312`. -/
def unifyPairInto (eps : K) (p : ℕ) : List (K × ℕ) → List K → List V → R (List K × List V)
  | [], U, P => pure (U, P)
  | (u, m) :: rest, U, P => do
    let r ← insertKnots u p (wrapSub m (multEps eps U u)) U P
    unifyPairInto eps p rest r.2.1 r.2.2

/-- The deprecated `unify_knots(pk1,pk2,degree)`, `gbs/bsctools.h:295-313`, that changes the knots `U` and poles `P` of its first argument; the poles of the
second one are not used, only its knots `U'`. -/
def unifyPair (eps : K) (p : ℕ) (U : List K) (P : List V) (U' : List K) : R (List K × List V) := do
  let km ← unflatPairs eps U'
  unifyPairInto eps p km U P

end Gbs
