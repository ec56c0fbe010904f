import Verif.Model.Extend
import Verif.Model.SurfTools
import Verif.Model.Rational
import Verif.Model.Approx

/-!
# Model of the extension of a surface to a curve and by a length, `gbs/bsstools.h:117-171,293-407`

The norm of points is the parameter `nrm` and the dense factorization of the interpolation is the parameter `dense`, as for the extension of curves.
-/

namespace Gbs

variable {K : Type} [Field K] [LinearOrder K]
variable {V : Type} [AddCommGroup V] [Module K V]
variable {P : Type} [AddCommGroup P] [Module K P]

/-- The mean, over a hundred parameters along V, of the distance from the border to the curve divided by the speed, `gbs/bsstools.h:138-145`. -/
def extMeanStep (nrm : V → K) (sv : ℕ → K → R V) (cv : K → R V) (v0 v1 : K) : R K :=
  forLt 0 100 (fun i du => do
    let v := v0 + (v1 - v0) * i / (100 - 1)
    let t ← sv 1 v
    let a ← sv 0 v
    let b ← cv v
    let q ← fdiv (nrm (a - b)) (nrm t)
    pure (du + q / 100)) 0

/-- The loop over the rows of poles, `gbs/bsstools.h:150-168`: `ext i iso` is the extension of row `i`. The degree and the knots
are those of the first row; without rows they are read without having been set. -/
def extRows (eps : K) (s : Surface K P) (ext : ℕ → Curve K P → R (Curve K P)) : R (List P × ℕ × List K) := do
  let nu ← s.nU
  let nv ← s.nV
  let r ← forLt 0 nv (fun i (r : List P × Option (ℕ × List K)) => do
    if s.poles.length < i * nu + nu then .error .oob
    else do
      let iso ← Curve.mk? eps ((s.poles.drop (i * nu)).take nu) s.knotsU s.degU
      let e ← ext i iso
      pure (r.1 ++ e.poles, if i = 0 then some (e.deg, e.knots) else r.2)) ([], none)
  match r.2 with
  | some (p, k) => pure (r.1, p, k)
  | none => .error .null

/-- `extention_to_curve`, `gbs/bsstools.h:117-171`, for a polynomial surface. -/
def Surface.extentionToCurve (eps junk : K) (dense : ℕ → (ℕ → ℕ → K) → List V → R (List V)) (nrm : V → K) (s : Surface K V) (c : Curve K V)
    (natural : Bool) (mc : Option ℕ) : R (Surface K V) := do
  let (v1, v2) ← frontBack s.knotsV
  let (_, u2) ← frontBack s.knotsU
  let du ← extMeanStep nrm (fun d v => s.value eps junk u2 v d 0) (fun v => c.value eps junk v 0) v1 v2
  let (X, p, k) ← extRows eps s (fun i iso => do
    let pt ← rd c.poles i
    iso.extentionTo eps junk dense pt u2 (u2 + du) natural mc)
  Surface.mk? eps X k s.knotsV p s.degV

/-- The same for a rational surface and a rational curve. -/
def Surface.extentionToCurveRat (eps junk : K) (dense : ℕ → (ℕ → ℕ → K) → List V → R (List V)) (nrm : V → K) (s : Surface K (V × K))
    (c : Curve K (V × K)) (natural : Bool) (mc : Option ℕ) : R (Surface K (V × K)) := do
  let (v1, v2) ← frontBack s.knotsV
  let (_, u2) ← frontBack s.knotsU
  let du ← extMeanStep nrm (fun d v => s.ratValue eps junk u2 v d 0) (fun v => c.ratValue eps junk v 0) v1 v2
  let (X, p, k) ← extRows eps s (fun i iso => do
    let pt ← rd c.poles i
    iso.extentionToRat eps junk dense (weightProjection pt) u2 (u2 + du) natural mc)
  Surface.mk? eps X k s.knotsV p s.degV

/-- `extended_to_curve`, `gbs/bsstools.h:293-298`. -/
def Surface.extendedToCurve (eps junk : K) (dense : ℕ → (ℕ → ℕ → K) → List V → R (List V)) (nrm : V → K) (s : Surface K V) (c : Curve K V)
    (natural : Bool) (mc : Option ℕ) : R (Surface K V) := do
  let e ← s.extentionToCurve eps junk dense nrm c natural mc
  joinSurfaces eps s e

/-- The curve at the distance `l` of the end border, `gbs/bsstools.h:303-321`. -/
def Surface.lengthCurve (eps junk : K) (dense : ℕ → (ℕ → ℕ → K) → List V → R (List V)) (nrm : V → K) (s : Surface K V) (l : K) : R (Curve K V) := do
  let nv ← s.nV
  let np := nv * 10
  let (Q, vs) ← forLt 0 np (fun i (r : List V × List K) => do
    let q ← fdiv ((s.v1 - s.v0) * i) (np - 1)
    let v := s.v0 + q
    let pt ← s.value eps junk s.u1 v 0 0
    let tg ← s.value eps junk s.u1 v 1 0
    let tg ← vdiv tg (nrm tg)
    pure (r.1 ++ [pt + l • tg], r.2 ++ [v])) ([], [])
  approxBoundFixed eps junk dense Q s.degV nv vs s.knotsV

/-- `extention(srf,l_ext,natural_end,max_cont)`, `gbs/bsstools.h:300-323`. -/
def Surface.extention (eps junk : K) (dense : ℕ → (ℕ → ℕ → K) → List V → R (List V)) (nrm : V → K) (s : Surface K V) (l : K) (natural : Bool)
    (mc : Option ℕ) : R (Surface K V) := do
  let c ← s.lengthCurve eps junk dense nrm l
  s.extentionToCurve eps junk dense nrm c natural mc

/-- `extended(srf,l_ext,natural_end,max_cont)`, `gbs/bsstools.h:325-330`. -/
def Surface.extended (eps junk : K) (dense : ℕ → (ℕ → ℕ → K) → List V → R (List V)) (nrm : V → K) (s : Surface K V) (l : K) (natural : Bool)
    (mc : Option ℕ) : R (Surface K V) := do
  let e ← s.extention eps junk dense nrm l natural mc
  joinSurfaces eps s e

/-- `SurfaceBound`, `gbs/bsstools.h:332`. -/
inductive SurfaceBound where
  | uStart | uEnd | vStart | vEnd

/-- `extention(srf,l_ext,location,natural_end,max_cont)`, `gbs/bsstools.h:334-366`. -/
def Surface.extentionAt (eps junk : K) (dense : ℕ → (ℕ → ℕ → K) → List V → R (List V)) (nrm : V → K) (s : Surface K V) (l : K) (loc : SurfaceBound)
    (natural : Bool) (mc : Option ℕ) : R (Surface K V) :=
  match loc with
  | .uStart => do
    let r ← Surface.mk? eps s.poles s.knotsU s.knotsV s.degU s.degV
    let r ← r.reverseU
    r.extention eps junk dense nrm l natural mc
  | .vStart => do
    let r ← Surface.mk? eps s.poles s.knotsU s.knotsV s.degU s.degV
    let r ← r.invertUV
    let r ← r.reverseU
    r.extention eps junk dense nrm l natural mc
  | .vEnd => do
    let r ← Surface.mk? eps s.poles s.knotsU s.knotsV s.degU s.degV
    let r ← r.invertUV
    r.extention eps junk dense nrm l natural mc
  | .uEnd => s.extention eps junk dense nrm l natural mc

/-- `extended(srf,l_ext,location,natural_end,max_cont)`, `gbs/bsstools.h:367-407`. -/
def Surface.extendedAt (eps junk : K) (dense : ℕ → (ℕ → ℕ → K) → List V → R (List V)) (nrm : V → K) (s : Surface K V) (l : K) (loc : SurfaceBound)
    (natural : Bool) (mc : Option ℕ) : R (Surface K V) :=
  match loc with
  | .uStart => do
    let r ← Surface.mk? eps s.poles s.knotsU s.knotsV s.degU s.degV
    let r ← r.reverseU
    let r ← r.extended eps junk dense nrm l natural mc
    r.reverseU
  | .vStart => do
    let r ← Surface.mk? eps s.poles s.knotsU s.knotsV s.degU s.degV
    let r ← r.invertUV
    let r ← r.reverseU
    let r ← r.extended eps junk dense nrm l natural mc
    let r ← r.reverseU
    r.invertUV
  | .vEnd => do
    let r ← Surface.mk? eps s.poles s.knotsU s.knotsV s.degU s.degV
    let r ← r.invertUV
    let r ← r.extended eps junk dense nrm l natural mc
    r.invertUV
  | .uEnd => s.extended eps junk dense nrm l natural mc

end Gbs
