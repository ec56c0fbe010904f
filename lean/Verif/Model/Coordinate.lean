import Verif.Model.Wrapped
import Mathlib.Order.WithBot

/-!
# Model of the searches of a coordinate on a curve (`gbs/extrema.h`)

The iterations of Newton and the search of Brent, of Boost, are parameters. The numbers of digits and of iterations are not modelled. The quotient of
a number by zero is infinite, `⊤`.
-/

namespace Gbs

variable {K : Type} [Field K] [LinearOrder K] {n : ℕ}

/-- `crv(u,d)[iCoord]`. -/
def coordAt (c : ACurve K (Fin n → K)) (i : ℕ) (u : K) (d : ℕ) : R K := do
  let P ← c.value u d
  if h : i < n then pure (P ⟨i, h⟩) else .error .oob

/-- `newton_raphson_iterate`: from the function with its derivative, the start and the bounds. -/
abbrev Newton (K : Type) := (K → R (K × K)) → K → K → K → R K

/-- `brent_find_minima`: from the function and the bounds, the place and the value. -/
abbrev Brent (K : Type) := (K → R (WithTop K)) → K → K → R (K × WithTop K)

/-- `solve_coordinate`, `gbs/extrema.h:297-318`; the second derivative, that is also computed, is not used by the iterations. -/
def solveCoordinate (newton : Newton K) (c : ACurve K (Fin n → K)) (i : ℕ) (x : K) (u0 : Option K) : R K :=
  if n ≤ i then .error (.thrown .outOfRange)
  else
    newton (fun u => do
      let y ← coordAt c i u 0
      let y1 ← coordAt c i u 1
      let _ ← coordAt c i u 2
      pure (y - x, y1)) (u0.getD ((c.b0 + c.b1) / 2)) c.b0 c.b1

/-- The function of `max_coordinate`, `gbs/extrema.h:356-359`. -/
def invSquare (c : ACurve K (Fin n → K)) (i : ℕ) (u : K) : R (WithTop K) := do
  let x ← coordAt c i u 0
  pure (if x = 0 then ⊤ else ((1 / x / x : K) : WithTop K))

/-- `max_coordinate`, `gbs/extrema.h:346-363`; its argument `Xi` is not used. -/
def maxCoordinate (brent : Brent K) (c : ACurve K (Fin n → K)) (i : ℕ) : R (K × WithTop K) :=
  if n ≤ i then .error (.thrown .outOfRange) else brent (invSquare c i) c.b0 c.b1

/-- The function of `min_coordinate`, `gbs/extrema.h:376-379`. -/
def squareCoord (c : ACurve K (Fin n → K)) (i : ℕ) (u : K) : R (WithTop K) := do
  let x ← coordAt c i u 0
  pure ((x * x : K) : WithTop K)

/-- `min_coordinate`, `gbs/extrema.h:365-383`; its argument `Xi` is not used. -/
def minCoordinate (brent : Brent K) (c : ACurve K (Fin n → K)) (i : ℕ) : R (K × WithTop K) :=
  if n ≤ i then .error (.thrown .outOfRange) else brent (squareCoord c i) c.b0 c.b1

end Gbs
