import Verif.Model.Wrapped
import Mathlib.Analysis.SpecialFunctions.Complex.Arg

/-!
# Model of the angles of vectors and of the length of a polyline (`gbs/vecop.ixx`, `gbs/math.ixx`)

The numbers are the real ones. The sign of zero, which `std::atan2` looks at, is not modelled.
-/

namespace Gbs

/-- `std::atan2(y, x)`. -/
noncomputable def atan2 (y x : ℝ) : ℝ := Complex.arg ⟨x, y⟩

/-- `angle` of vectors of the space, `gbs/vecop.ixx:185-190`. -/
noncomputable def angleS (v1 v2 : Fin 3 → ℝ) : ℝ := atan2 (vnorm Real.sqrt (cross3 v1 v2)) (dotV v1 v2)

/-- `angle` of vectors of the plane, `gbs/vecop.ixx:192-197`; `cross` of vectors of the plane is that of lines 97-100. -/
noncomputable def angleP (v1 v2 : Fin 2 → ℝ) : ℝ := atan2 (v1 0 * v2 1 - v1 1 * v2 0) (dotV v1 v2)

/-- `distance`, `gbs/vecop.ixx:199-210`. -/
noncomputable def distV {n : ℕ} (a b : Fin n → ℝ) : ℝ := vnorm Real.sqrt (a - b)

/-- `length` of a list of points, `gbs/vecop.ixx:212-221`. `++pts.begin()` of an empty vector is past its end. -/
noncomputable def polyLength {n : ℕ} (pts : List (Fin n → ℝ)) : R ℝ :=
  if pts.length = 0 then .error .oob
  else .ok (List.zipWith (fun p q => distV p q) pts.tail pts).sum

/-- `radians`, `gbs/math.ixx:35-39`. -/
noncomputable def radians (a : ℝ) : ℝ := a * Real.pi / 180

/-- `degrees`, `gbs/math.ixx:41-45`. -/
noncomputable def degrees (a : ℝ) : ℝ := a / Real.pi * 180

end Gbs
