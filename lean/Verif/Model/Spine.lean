import Verif.Model.Loft
import Verif.Model.Rational

/-!
# Model of the loft on a spine, `gbs/bssbuild.h:40-73`, `101-262`

`V` is the space of the points, `P` that of the poles: `V` itself for polynomial sections, `V × K` for rational ones. `ext c` stands for the
minimisation `extrema_curve_curve(spine, c)` (NLopt): the parameters on the spine and on the section, and the distance. Sections are given by their
poles, knots and degree. The transformations of independent elements, some of them parallel, are done in order; only an exception that leaves a parallel one
would make a difference.
-/

namespace Gbs

variable {K : Type} [Field K] [LinearOrder K]
variable {V : Type} [AddCommGroup V] [Module K V]
variable {P : Type} [AddCommGroup P] [Module K P]

/-- The poles of the sections, pole index by pole index, `gbs/bssbuild.h:43-60`. -/
def alignedPoles (nu : ℕ) (cs : List (CurveInfo K P)) : R (List (List P)) := (List.range nu).mapM fun i => cs.mapM fun c => rd c.poles i

/-- The averaged parameters, `gbs/bssbuild.h:58`, `62-71`. -/
def alignedParams (eps : K) (dist : P → P → K) (rows : List (List P)) (nv : ℕ) : R (List K) := do
  let ps ← rows.mapM fun r => curveParametrization eps dist id r .chordLength true
  (List.range nv).mapM fun j => do
    let s ← forLt 0 rows.length (fun i s => do
      let r ← rd ps i
      let x ← rd r j
      pure (s + x)) 0
    fdiv s (rows.length : K)

/-- `spine_tangent_to_pole` for polynomial sections, `gbs/bssbuild.h:137-141`. -/
def tangentPole (s : K) (t : V) (_ : V) : V := s • t

/-- `spine_tangent_to_pole` for rational sections, `gbs/bssbuild.h:130-136`. -/
def tangentPoleRat (s : K) (t : V) (x : V × K) : V × K := ((s * x.2) • t, 0)

/-- The factor of the tangent at section `k`, `gbs/bssbuild.h:198-206`, for at least two sections. -/
def spineScale (nrm : V → K) (pm : List V) (d : List K) (k : ℕ) : R K := do
  let l ← usub pm.length 1
  if k = 0 then do
    let a ← rd pm 0
    let b ← rd pm 1
    let x ← rd d 0
    fdiv (nrm (b - a)) x
  else if k = l then do
    let a ← rd pm (l - 1)
    let b ← rd pm l
    let x ← rd d (l - 1)
    fdiv (nrm (b - a)) x
  else do
    let a ← rd pm (k - 1)
    let b ← rd pm k
    let c ← rd pm (k + 1)
    let x ← rd d (k - 1)
    let y ← rd d k
    fdiv (nrm (c - b) + nrm (b - a)) (y + x)

/-- `get_tg_from_spine`, `gbs/bssbuild.h:145-210`. -/
def spineTangents (eps junk : K) (nrm : V → K) (proj : P → V) (lift : K → V → P → P) (ext : CurveInfo K P → R (K × K × K)) (spine : Curve K V)
    (rows : List (List P)) (cs : List (CurveInfo K P)) : R (List (List P)) := do
  let ts ← cs.mapM fun c => do
    let r ← ext c
    pure r.1
  let l ← usub ts.length 1
  let d ← (List.range l).mapM fun k => do
    let t2 ← rd ts (k + 1)
    let t1 ← rd ts k
    let b ← spine.value eps junk t2 0
    let a ← spine.value eps junk t1 0
    pure (nrm (b - a))
  let D ← ts.mapM fun t => spine.value eps junk t 1
  rows.mapM fun pts => (List.range pts.length).mapM fun k => do
    let s ← spineScale nrm (pts.map proj) d k
    let t ← rd D k
    let x ← rd pts k
    pure (lift s t x)

/-- The right-hand side: a column for each pole of a section, position and tangent of each section, `gbs/bssbuild.h:247-255`. -/
def hermiteColumns (rows tg : List (List P)) (nv : ℕ) : R (List (List P)) :=
  (List.range rows.length).mapM fun i => do
    let r ← rd rows i
    let t ← rd tg i
    let xs ← (List.range nv).mapM fun j => do
      let x ← rd r j
      let y ← rd t j
      pure [x, y]
    pure xs.flatten

/-- `loft(bs_lst,spine,v_degree_max)`, `gbs/bssbuild.h:212-260`. -/
def spineLoft (eps junk : K) (dist : P → P → K) (nrm : V → K) (proj : P → V) (lift : K → V → P → P)
    (dense : ℕ → (ℕ → ℕ → K) → List P → R (List P)) (ext : CurveInfo K P → R (K × K × K)) (cs : List (CurveInfo K P)) (spine : Curve K V)
    (qMax : ℕ) : R (Surface K P) :=
  if cs.length < 2 then .error (.thrown .length)
  else do
    let mid ← unifyDegree eps cs
    let out ← unifyKnots eps mid
    let c0 ← rd out 0
    let rows ← alignedPoles c0.poles.length out
    let v ← alignedParams eps dist rows out.length
    let tg ← spineTangents eps junk nrm proj lift ext spine rows out
    let q := max (min qMax (out.length - 1)) 1
    let v0 ← rd v 0
    let v1 ← rd v (out.length - 1)
    let kv ← buildSimpleMultFlatKnots v0 v1 (out.length * 2) q
    let B ← hermiteColumns rows tg out.length
    let X ← loftCore eps junk dense 2 B kv v q
    Surface.mk? eps X c0.knots kv c0.deg q

end Gbs
