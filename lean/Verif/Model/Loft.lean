import Verif.Model.Unify
import Verif.Model.Approx
import Verif.Model.SurfInterp

/-!
# Model of the lofts without spine, `gbs/loft/loftBase.h`, `gbs/loft/loftGeneric.h`

The factorization of Eigen is a parameter: `dense n M B` is the solution of the system of matrix `M` and right-hand side `B`. Coordinates are
independent columns in the code; here the right-hand sides are points of `V`. For rational curves `V` is the space of the homogeneous
poles. A solve whose right-hand side does not have the size of the matrix is `oob` (an assertion of Eigen). The `assert` of the knots is
compiled out.
-/

namespace Gbs

variable {K : Type} [Field K] [LinearOrder K]
variable {V : Type} [AddCommGroup V] [Module K V]

/-- `build_loft_surface_poles_core`, `gbs/loft/loftBase.h:25-45`; `B` is the list of the columns (one for each pole along U). -/
def loftCore (eps junk : K) (dense : ℕ → (ℕ → ℕ → K) → List V → R (List V)) (nc : ℕ) (B : List (List V)) (flatV v : List K) (q : ℕ) :
    R (List V) := do
  let n := nc * v.length
  let nu := B.length
  let N ← buildPolesMatrix eps junk nc flatV v q n
  let X ← B.mapM (fun c => if c.length = n then dense n N c else .error .oob)
  forLt 0 n (fun j P => forLt 0 nu (fun i P => do
    let x ← rd X i
    let x ← rd x j
    wr P (j * nu + i) x) P) (List.replicate (n * nu) 0)

/-- `build_loft_surface_poles`, `gbs/loft/loftBase.h:60-78`. -/
def buildLoftSurfacePoles (eps junk : K) (dense : ℕ → (ℕ → ℕ → K) → List V → R (List V)) (pc : List (List V)) (flatV v : List K) (q : ℕ) :
    R (List V) := do
  let p0 ← rd pc 0
  let B ← forLt 0 p0.length (fun i B => do
    let c ← forLt 0 pc.length (fun j c => do
      let pj ← rd pc j
      let x ← rd pj i
      pure (c ++ [x])) []
    pure (B ++ [c])) []
  loftCore eps junk dense 1 B flatV v q

/-- `loft(curves_info,v,flat_v,q)`, `gbs/loft/loftBase.h:101-124`: the poles, the knots along U, the degree along U. -/
def loftFlat (eps junk : K) (dense : ℕ → (ℕ → ℕ → K) → List V → R (List V)) (infos : List (CurveInfo K V)) (v flatV : List K) (q : ℕ) :
    R (List V × List K × ℕ) := do
  let mid ← unifyDegree eps infos
  let out ← unifyKnots eps mid
  let c ← rd out 0
  let P ← buildLoftSurfacePoles eps junk dense (out.map CurveInfo.poles) flatV v q
  pure (P, c.knots, c.deg)

/-- One row of poles in `loft_averaged_params`, `gbs/loft/loftBase.h:193-202`. -/
def loftParamRow (eps : K) (dist : V → V → K) (sqrt : K → K) (mode : KnotsCalcMode) (infos : List (CurveInfo K V)) (i : ℕ) (s : List K × ℕ) :
    R (List K × ℕ) := do
  let row ← forLt 0 infos.length (fun j row => do
    let c ← rd infos j
    let x ← rd c.poles i
    pure (row ++ [x])) []
  let params ← curveParametrization eps dist sqrt row mode false
  let l ← usub params.length 1
  let total ← rd params l
  if total ≤ 0 then pure s
  else do
    let w ← forLt 0 infos.length (fun j w => do
      let a ← rd w j
      let x ← rd params j
      let y ← fdiv x total
      wr w j (a + y)) s.1
    pure (w, s.2 + 1)

/-- `loft_averaged_params`, `gbs/loft/loftBase.h:181-209`. -/
def loftAveragedParams (eps : K) (dist : V → V → K) (sqrt : K → K) (mode : KnotsCalcMode) (infos : List (CurveInfo K V)) : R (List K) := do
  let c0 ← rd infos 0
  let s ← forLt 0 c0.poles.length (loftParamRow eps dist sqrt mode infos) (List.replicate infos.length 0, 0)
  if s.2 = 0 then makeRange 0 1 infos.length
  else s.1.mapM (fun x => fdiv x (s.2 : K))

/-- `loft(curves_info,q_max)`, `gbs/loft/loftBase.h:211-229`: the poles, the knots along U and V, the degrees along U and V. The curves are
made compatible a second time by the inner loft. -/
def loftAuto (eps junk : K) (dist : V → V → K) (sqrt : K → K) (dense : ℕ → (ℕ → ℕ → K) → List V → R (List V)) (infos : List (CurveInfo K V))
    (qMax : ℕ) : R (List V × List K × List K × ℕ × ℕ) := do
  let mid ← unifyDegree eps infos
  let out ← unifyKnots eps mid
  let v ← loftAveragedParams eps dist sqrt .chordLength out
  let n1 ← usub out.length 1
  let q := min qMax n1
  let flatV ← averagedFlatKnots v q
  let r ← loftFlat eps junk dense out v flatV q
  pure (r.1, r.2.1, flatV, r.2.2, q)

/-- `q = min(q, n_sections - 1)`, `gbs/loft/loftGeneric.h:32-34`, `91-93`. -/
def clampSections (q n : ℕ) : ℕ := if 0 < n then min q (n - 1) else q

/-- `loft_generic(first,last,v,flat_v,q)`, `gbs/loft/loftGeneric.h:24-42`. -/
def loftGenericFlat (eps junk : K) (dense : ℕ → (ℕ → ℕ → K) → List V → R (List V)) (infos : List (CurveInfo K V)) (v flatV : List K) (q : ℕ) :
    R (Surface K V) := do
  let q := clampSections q infos.length
  let r ← loftFlat eps junk dense infos v flatV q
  Surface.mk? eps r.1 r.2.1 flatV r.2.2 q

/-- `loft_generic(first,last,v,q)`, `gbs/loft/loftGeneric.h:84-103`, and `loft(curves_info,v,q)`, `gbs/loft/loftBase.h:151-160`. -/
def loftGenericV (eps junk : K) (dense : ℕ → (ℕ → ℕ → K) → List V → R (List V)) (infos : List (CurveInfo K V)) (v : List K) (q : ℕ) :
    R (Surface K V) := do
  let q := clampSections q infos.length
  let flatV ← averagedFlatKnots v q
  let r ← loftFlat eps junk dense infos v flatV q
  Surface.mk? eps r.1 r.2.1 flatV r.2.2 q

/-- `loft_generic(first,last,q_max)`, `gbs/loft/loftGeneric.h:140-152`. -/
def loftGenericAuto (eps junk : K) (dist : V → V → K) (sqrt : K → K) (dense : ℕ → (ℕ → ℕ → K) → List V → R (List V))
    (infos : List (CurveInfo K V)) (qMax : ℕ) : R (Surface K V) := do
  let r ← loftAuto eps junk dist sqrt dense infos qMax
  Surface.mk? eps r.1 r.2.1 r.2.2.1 r.2.2.2.1 r.2.2.2.2

end Gbs
