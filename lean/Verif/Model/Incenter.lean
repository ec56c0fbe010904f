import Verif.Model.Geom2

/-!
# Model of the perimeter and of the incentre of a triangle (`inc/topology/baseGeom.h`)

The square root is a parameter; `std::hypot(x, y)` is the root of the sum of the squares. A division by zero is the error `divZero`.
-/

namespace Gbs

variable {K : Type} [Field K] [LinearOrder K]

/-- `std::hypot(a[0] - b[0], a[1] - b[1])`. -/
def sideLen (sqrt : K → K) (a b : K × K) : K := sqrt ((a.1 - b.1) * (a.1 - b.1) + (a.2 - b.2) * (a.2 - b.2))

/-- `perimeter`, `inc/topology/baseGeom.h:179-185`. -/
def perimeter (sqrt : K → K) (a b c : K × K) : K :=
  let la := sideLen sqrt b c
  let lb := sideLen sqrt a c
  let lc := sideLen sqrt a b
  la + lb + lc

/-- `incenter`, `inc/topology/baseGeom.h:187-198`. -/
def incenter (sqrt : K → K) (a b c : K × K) : R (K × K) := do
  let la := sideLen sqrt b c
  let lb := sideLen sqrt a c
  let lc := sideLen sqrt a b
  let p := la + lb + lc
  let x ← fdiv (la * a.1 + lb * b.1 + lc * c.1) p
  let y ← fdiv (la * a.2 + lb * b.2 + lc * c.2) p
  pure (x, y)

end Gbs
