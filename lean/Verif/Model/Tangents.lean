import Verif.Model.Interp
import Verif.Model.Transform

/-!
# Tangents from three points, and interpolation with computed derivatives
-/

namespace Gbs

variable {K : Type} [Field K] [LinearOrder K] [IsStrictOrderedRing K]
variable {V : Type} [AddCommGroup V] [Module K V]

/-- `delta(v)`, `gbs/vecop.ixx:223-235`: the differences of consecutive elements. The size `v.size() - 1` of an empty vector is refused. -/
def deltaList {A : Type} [Sub A] (v : List A) : R (List A) := do
  let n ← usub v.length 1
  (List.range n).mapM fun i => do
    let a ← rd v i
    let b ← rd v (i + 1)
    pure (b - a)

/-- `a / b` for vectors of points and of numbers, `gbs/vecop.ixx:155-167`: all the elements of `a`, by the elements of `b`. -/
def quotList (a : List V) (b : List K) : R (List V) :=
  (List.range a.length).mapM fun i => do
    let x ← rd a i
    let y ← rd b i
    vdiv x y

/-- The weights of the method of Bessel, `gbs/bscinterp.h:67-73`, `100-106`. -/
def besselWeights (nu : ℕ) (du : List K) : R (List K) := do
  let n ← usub nu 2
  let m ← usub du.length 1
  (List.range m).mapM fun i => do
    let a ← rd du i
    let b ← rd du (i + 1)
    if i < n then fdiv a (b + a) else .error .oob

/-- `blend`, `gbs/vecop.ixx:304-333`, called on the whole of `v` but its last element, writing from the second element of `r`: the two
auxiliary vectors have one element more than is computed, null, that is also written. -/
def blendInto (v : List V) (b : List K) (r : List V) : R (List V) := do
  let m ← usub v.length 1
  let v1 ← (List.range m).mapM fun i => do
    let x ← rd v i
    let t ← rd b i
    pure ((1 - t) • x)
  let v2 ← (List.range m).mapM fun i => do
    let x ← rd v (i + 1)
    let t ← rd b i
    pure (t • x)
  let v1 := v1 ++ [0]
  let v2 := v2 ++ [0]
  forLt 0 (m + 1) (fun i r => do
    let x ← rd v1 i
    let y ← rd v2 i
    wr r (i + 1) (x + y)) r

/-- The two ends, `gbs/bscinterp.h:83-84`, `116-117`: `*std::next(D.end(),-1)` is the element that is written. -/
def tangentEnds (q D : List V) : R (List V) := do
  let q0 ← rd q 0
  let d1 ← rd D 1
  let D ← wr D 0 ((2 : K) • q0 - d1)
  let l ← usub D.length 1
  let lq ← usub q.length 1
  let q1 ← rd q lq
  let d2 ← rd D l
  wr D l ((2 : K) • q1 - d2)

/-- `build_3pt_tg_vec`, `gbs/bscinterp.h:59-87`. -/
def threePointVec (pts : List V) (u : List K) : R (List V) := do
  let du ← deltaList u
  let q ← deltaList pts
  let d ← quotList q du
  let al ← besselWeights u.length du
  let D ← blendInto d al (List.replicate u.length 0)
  tangentEnds (K := K) q D

/-- `adim` of a vector of vectors, `gbs/vecop.ixx:253-263`: the last element is left as it is. -/
def adimList {n : ℕ} (sqrt : K → K) (v : List (Fin n → K)) : R (List (Fin n → K)) := do
  let m ← usub v.length 1
  forLt 0 m (fun i v => do
    let x ← rd v i
    let y ← vdiv x (vnorm sqrt x)
    wr v i y) v

/-- `build_3pt_tg_dir`, `gbs/bscinterp.h:89-122`. -/
def threePointDir {n : ℕ} (sqrt : K → K) (pts : List (Fin n → K)) (u : List K) : R (List (Fin n → K)) :=
  if pts.length < 3 then .error (.thrown .invalid)
  else do
    let du ← deltaList u
    let q ← deltaList pts
    let al ← besselWeights u.length du
    let D ← blendInto q al (List.replicate u.length 0)
    let D ← tangentEnds (K := K) q D
    adimList sqrt D

/-- The constraints with one more derivative, `gbs/bscinterp.h:556-580`. -/
def computedConstraints (nc : ℕ) (Q : List (List V)) (u : List K) : R (List (List V)) := do
  let v ← Q.mapM fun q => do
    let l ← usub nc 1
    rd q l
  let w ← threePointVec v u
  let Q' ← (List.range Q.length).mapM fun j => do
    let q ← rd Q j
    let qs ← (List.range nc).mapM fun i => rd q i
    let x ← rd w j
    pure (qs ++ [x])
  let q0 ← rd Q' 0
  let q0 ← wr q0 nc 0
  let Q' ← wr Q' 0 q0
  let l ← usub Q.length 1
  let q1 ← rd Q' l
  let q1 ← wr q1 nc 0
  wr Q' l q1

/-- `interpolate(Q,u,add_computed)`, `gbs/bscinterp.h:534-586`. -/
def interpolateWith (eps meps growth junk : K) (x0 : V) (sparse : ℕ → List (ℕ × ℕ × K) → List V → R (List V)) (nc : ℕ) (Q : List (List V))
    (u : List K) (addComputed : Bool) : R (Curve K V) :=
  if addComputed then do
    let Q' ← computedConstraints nc Q u
    interpolateNc eps meps growth junk x0 sparse (nc + 1) Q' u
  else interpolateNc eps meps growth junk x0 sparse nc Q u

/-- `get_constrain`, `gbs/bscinterp.h:520-532`: the values of one order. -/
def getConstrain (Q : List (List V)) (order : ℕ) : R (List V) := Q.mapM fun q => rd q order

/-- `interpolate(Q,mode,add_computed)`, `gbs/bscinterp.h:588-596`. -/
def interpolateMode (eps meps growth junk : K) (x0 : V) (sparse : ℕ → List (ℕ × ℕ × K) → List V → R (List V)) (dist : V → V → K)
    (sqrt : K → K) (nc : ℕ) (Q : List (List V)) (mode : KnotsCalcMode) (addComputed : Bool) : R (Curve K V) := do
  let pts ← getConstrain Q 0
  let u ← curveParametrization eps dist sqrt pts mode false
  interpolateWith eps meps growth junk x0 sparse nc Q u addComputed

/-- `interpolate(Q,p,mode)`, `gbs/bscinterp.h:607-624`. -/
def interpolateDegree (eps meps growth junk : K) (x0 : V) (sparse : ℕ → List (ℕ × ℕ × K) → List V → R (List V)) (dist : V → V → K)
    (sqrt : K → K) (Q : List V) (p : ℕ) (mode : KnotsCalcMode) : R (Curve K V) :=
  if Q.length ≤ p then .error (.thrown .domain)
  else do
    let u ← curveParametrization eps dist sqrt Q mode true
    interpolateCn eps meps growth junk x0 sparse Q u p

end Gbs
