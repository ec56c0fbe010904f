import Mathlib.Algebra.Order.Field.Basic
import Mathlib.Algebra.BigOperators.Group.Finset.Basic
import Mathlib.Algebra.Module.Defs

/-!
# Textbook specification of B-spline basis functions and curves

Independent of the code: the Cox–de Boor recursion on a knot sequence
`t : ℕ → K`, with the usual convention `x / 0 = 0` for empty spans, half-open
spans, and the last non-empty span closed at the end `T` of the domain.
-/

namespace Gbs.Spec

variable {K : Type*} [Field K] [LinearOrder K]

/-- `u` belongs to the span `i` of the knots `t`; the end `T` of the domain
belongs to the non-empty span that ends there. -/
def InSpan (t : ℕ → K) (T : K) (i : ℕ) (u : K) : Prop :=
  if u = T then t i < T ∧ t (i + 1) = T else t i ≤ u ∧ u < t (i + 1)

open Classical in
/-- Cox–de Boor basis function of degree `p` and index `i` on the knots `t`,
domain ending at `T`. -/
noncomputable def N (t : ℕ → K) (T : K) : ℕ → ℕ → K → K
  | 0, i, u => if InSpan t T i u then 1 else 0
  | p + 1, i, u =>
      (u - t i) / (t (i + p + 1) - t i) * N t T p i u +
      (t (i + p + 2) - u) / (t (i + p + 2) - t (i + 1)) * N t T p (i + 1) u

/-- The B-spline curve of degree `p` with poles `P 0 … P (n-1)` on the knots
`t 0 … t (n+p)`. -/
noncomputable def curve {V : Type*} [AddCommMonoid V] [Module K V]
    (t : ℕ → K) (n p : ℕ) (P : ℕ → V) (u : K) : V :=
  ∑ i ∈ Finset.range n, N t (t n) p i u • P i

end Gbs.Spec
