import Verif.Model.Loft
import Verif.Model.Curve
import Verif.Model.SurfApprox

/-!
# Model of the least-squares loft on a spine, `gbs/bssbuild.h:279-462`

`P` is the space of the poles: that of the points for polynomial sections, that of the homogeneous points for rational ones. `ext c` stands for the
minimisation `extrema_curve_curve(spine, c)` (NLopt): the parameters on the spine and on the section, and the distance; the spine is used for
nothing else. Sections are given by their poles, knots and degree. A number of poles that would wrap around is an error. The overload for a list of
polynomial curves (`gbs/bssbuild.h:445-462`) only takes the addresses of its elements.
-/

namespace Gbs

variable {K : Type} [Field K] [LinearOrder K]
variable {P : Type} [AddCommGroup P] [Module K P]

/-- The stations: the parameters on the spine, divided by `adimension`, `gbs/bssbuild.h:340-353`. -/
def spineStations (eps : K) (ext : CurveInfo K P → R (K × K × K)) (cs : List (CurveInfo K P)) : R (List K) := do
  let ts ← cs.mapM fun c => do
    let r ← ext c
    pure r.1
  adimension eps ts

/-- The points of the sections, in homogeneous coordinates, `gbs/bssbuild.h:355-372`. -/
def sectionGrid (eps junk : K) (cs : List (CurveInfo K P)) (u : List K) : R (List P) := do
  let hs ← cs.mapM fun c => Curve.mk? eps c.poles c.knots c.deg
  forLt 0 cs.length (fun iv Q => forLt 0 u.length (fun iu Q => do
    let c ← rd hs iv
    let x ← rd u iu
    let y ← c.value eps junk x 0
    wr Q (iu + u.length * iv) y) Q) (List.replicate (u.length * cs.length) 0)

/-- `loft_approx(bs_lst,spine,ku,p,q,n_poles_v,n_u)`, `gbs/bssbuild.h:319-380`. -/
def loftApproxOn (eps junk : K) (dense : ℕ → (ℕ → ℕ → K) → List P → R (List P)) (ext : CurveInfo K P → R (K × K × K)) (cs : List (CurveInfo K P))
    (ku : List K) (p q nPolesV nU : ℕ) : R (Surface K P) :=
  if cs.length < 2 then .error (.thrown .length)
  else do
    let mid ← unifyDegree eps cs
    let out ← unifyKnots eps mid
    let v ← spineStations eps ext out
    let u0 ← rd ku 0
    let l ← usub ku.length 1
    let u1 ← rd ku l
    let u ← makeRange u0 u1 nU
    let Q ← sectionGrid eps junk out u
    let v0 ← rd v 0
    let m ← usub v.length 1
    let v1 ← rd v m
    let kv ← buildSimpleMultFlatKnots v0 v1 nPolesV q
    let X ← approxGrid eps junk dense Q ku kv u v p q
    Surface.mk? eps X ku kv p q

/-- `loft_approx(bs_lst,spine,p,q,n_poles_u,n_poles_v,n_u)`, `gbs/bssbuild.h:392-407`. -/
def loftApproxPoles (eps junk : K) (dense : ℕ → (ℕ → ℕ → K) → List P → R (List P)) (ext : CurveInfo K P → R (K × K × K)) (cs : List (CurveInfo K P))
    (p q nPolesU nPolesV nU : ℕ) : R (Surface K P) :=
  if cs.length < 2 then .error (.thrown .length)
  else do
    let c ← rd cs 0
    let k0 ← rd c.knots 0
    let l ← usub c.knots.length 1
    let k1 ← rd c.knots l
    let ku ← buildSimpleMultFlatKnots k0 k1 nPolesU p
    loftApproxOn eps junk dense ext cs ku p q nPolesV nU

/-- `loft_approx(bs_lst,spine,v_degree_max)`, `gbs/bssbuild.h:420-440`. -/
def loftApprox (eps junk : K) (dense : ℕ → (ℕ → ℕ → K) → List P → R (List P)) (ext : CurveInfo K P → R (K × K × K)) (cs : List (CurveInfo K P))
    (qMax : ℕ) : R (Surface K P) :=
  if cs.length < 2 then .error (.thrown .length)
  else do
    let mid ← unifyDegree eps cs
    let out ← unifyKnots eps mid
    let c0 ← rd out 0
    let q := max (min qMax (out.length - 1)) 1
    loftApproxOn eps junk dense ext cs c0.knots c0.deg q out.length (max (4 * c0.poles.length) 30)

end Gbs
