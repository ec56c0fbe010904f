import Verif.Model.Tfi

/-! # The blend functions of one order of a transfinite interpolation -/

namespace Gbs

variable {K : Type} [Field K] [LinearOrder K] [IsStrictOrderedRing K]

/-- `build_tfi_blend_function`, `gbs-mesh/tfi.h:69-99`: values and slopes of degree 3 with slope control, otherwise lines between two parameters and
degree 2 on averaged knots between more of them. -/
def tfiBlend (eps meps growth junk : K) (sparse : ℕ → List (ℕ × ℕ × K) → List K → R (List K)) (slope : Bool) (ksi : List K) : R (List (Curve K K)) :=
  (List.range ksi.length).mapM fun i =>
    if slope then do
      let d ← blendData ksi.length 2 i 0
      interpolateNc eps meps growth junk 0 sparse 2 d ksi
    else if ksi.length = 2 then do
      let d ← blendData ksi.length 1 i 0
      interpolateNc eps meps growth junk 0 sparse 1 d ksi
    else do
      let d ← wr (List.replicate ksi.length 0) i 1
      interpolateCn eps meps growth junk 0 sparse d ksi 2

end Gbs
