import Verif.Model.Join
import Verif.Model.Interp

/-!
# Model of the extension of a curve, `gbs/bsctools.h:762-903`

The templates on the rationality are written with the evaluation `ev i`, which is `crv(u,i)`. The norm of points is the parameter `nrm` and the
dense factorization of the interpolation is the parameter `dense`. The length of the curve, found by a quadrature, is the parameter `len` of
`Curve.extended`; it is not used when the extension is absolute.
-/

namespace Gbs

variable {K : Type} [Field K] [LinearOrder K]
variable {V : Type} [AddCommGroup V] [Module K V]

/-- The constraints of `extention_to_point`, `gbs/bsctools.h:783-795`. -/
def extConstraints (ev : ℕ → R V) (u unew : K) (p : ℕ) (natural : Bool) (maxCont : Option ℕ) : R (List (Constr K V)) := do
  let cs ← forLt 1 (min p (maxCont.getD p + 1)) (fun i cs => do
    let t ← ev i
    pure (cs ++ [⟨u, i, t⟩])) []
  pure (if 2 < p ∧ natural = true then cs ++ [⟨unew, 2, 0⟩] else cs)

/-- `extention_to_point(crv,pt,u,u_new,natural_end,max_cont)` before the conversion of the result, `gbs/bsctools.h:776-797`. -/
def extentionWith (eps junk : K) (dense : ℕ → (ℕ → ℕ → K) → List V → R (List V)) (ev : ℕ → R V) (p : ℕ) (pt : V) (u unew : K) (natural : Bool)
    (maxCont : Option ℕ) : R (Curve K V) := do
  let x ← ev 0
  let cs ← extConstraints ev u unew p natural maxCont
  interpolateBounds eps junk dense (u, x) (unew, pt) cs (min p (cs.length + 1))

/-- `extention_to_point(crv,pt,u,u_new,natural_end,max_cont)` for a polynomial curve, `gbs/bsctools.h:776-797`. -/
def Curve.extentionTo (eps junk : K) (dense : ℕ → (ℕ → ℕ → K) → List V → R (List V)) (c : Curve K V) (pt : V) (u unew : K) (natural : Bool)
    (maxCont : Option ℕ) : R (Curve K V) :=
  extentionWith eps junk dense (fun i => c.value eps junk u i) c.deg pt u unew natural maxCont

/-- `extention_to_point(crv,pt,u,u_new,natural_end,max_cont)` for a rational curve, `gbs/bsctools.h:776-797`. -/
def Curve.extentionToRat (eps junk : K) (dense : ℕ → (ℕ → ℕ → K) → List V → R (List V)) (c : Curve K (V × K)) (pt : V) (u unew : K) (natural : Bool)
    (maxCont : Option ℕ) : R (Curve K (V × K)) := do
  let e ← extentionWith eps junk dense (fun i => c.ratValue eps junk u i) c.deg pt u unew natural maxCont
  e.toRational eps

/-- The parameter of the new point, `gbs/bsctools.h:813-816`: `u + dl * du` with `du = dl / norm(t)`. -/
def extParam (nrm : V → K) (t e pt : V) (u : K) : R K := do
  let dl := nrm (e - pt)
  let du ← fdiv dl (nrm t)
  pure (u + dl * du)

/-- `extended_to_point(crv,pt,natural_end,max_cont)`, `gbs/bsctools.h:831-837`, with `extention_to_point(crv,pt,u,natural_end,max_cont)`,
`gbs/bsctools.h:810-818`. -/
def Curve.extendedAtEnd (eps junk : K) (dense : ℕ → (ℕ → ℕ → K) → List V → R (List V)) (nrm : V → K) (c : Curve K V) (pt : V) (natural : Bool)
    (maxCont : Option ℕ) : R (Curve K V) := do
  let u := c.b1
  let t ← c.value eps junk u 1
  let e ← c.value eps junk c.b1 0
  let unew ← extParam nrm t e pt u
  let ext ← c.extentionTo eps junk dense pt u unew natural maxCont
  joinCurves eps c ext

/-- The same for a rational curve. -/
def Curve.extendedAtEndRat (eps junk : K) (dense : ℕ → (ℕ → ℕ → K) → List V → R (List V)) (nrm : V → K) (c : Curve K (V × K)) (pt : V)
    (natural : Bool) (maxCont : Option ℕ) : R (Curve K (V × K)) := do
  let u := c.b1
  let t ← c.ratValue eps junk u 1
  let e ← c.ratValue eps junk c.b1 0
  let unew ← extParam nrm t e pt u
  let ext ← c.extentionToRat eps junk dense pt u unew natural maxCont
  joinCurvesRat eps c ext

/-- `extended_to_point(crv,pt,at_end,natural_end,max_cont)`, `gbs/bsctools.h:850-865`. -/
def Curve.extendedToPoint (eps junk : K) (dense : ℕ → (ℕ → ℕ → K) → List V → R (List V)) (nrm : V → K) (c : Curve K V) (pt : V)
    (atEnd natural : Bool) (maxCont : Option ℕ) : R (Curve K V) :=
  if atEnd = true then c.extendedAtEnd eps junk dense nrm pt natural maxCont
  else do
    let r ← c.copied eps
    let u2 := r.b1
    let r ← r.reverse
    let r ← r.extendedAtEnd eps junk dense nrm pt natural maxCont
    let r ← r.reverse
    let du := r.b1 - u2
    Curve.mk? eps r.poles (r.knots.map (fun k => k - du)) c.deg

/-- The same for a rational curve. -/
def Curve.extendedToPointRat (eps junk : K) (dense : ℕ → (ℕ → ℕ → K) → List V → R (List V)) (nrm : V → K) (c : Curve K (V × K)) (pt : V)
    (atEnd natural : Bool) (maxCont : Option ℕ) : R (Curve K (V × K)) :=
  if atEnd = true then c.extendedAtEndRat eps junk dense nrm pt natural maxCont
  else do
    let r ← c.copied eps
    let u2 := r.b1
    let r ← r.reverse
    let r ← r.extendedAtEndRat eps junk dense nrm pt natural maxCont
    let r ← r.reverse
    let du := r.b1 - u2
    Curve.mk? eps r.poles (r.knots.map (fun k => k - du)) c.deg

/-- `extended`, `gbs/bsctools.h:879-901`. `v / s` on points is `v * (1/s)`. -/
def Curve.extended (eps junk : K) (dense : ℕ → (ℕ → ℕ → K) → List V → R (List V)) (nrm : V → K) (len : K) (c : Curve K V) (l : K)
    (atEnd relative natural : Bool) (maxCont : Option ℕ) : R (Curve K V) := do
  let l := if relative = true then l * len else l
  if atEnd = true then do
    let t ← c.value eps junk c.b1 1
    let t ← vdiv t (nrm t)
    let p ← c.value eps junk c.b1 0
    c.extendedToPoint eps junk dense nrm (p + l • t) atEnd natural maxCont
  else do
    let t ← c.value eps junk c.b0 1
    let t := -t
    let t ← vdiv t (nrm t)
    let p ← c.value eps junk c.b0 0
    c.extendedToPoint eps junk dense nrm (p + l • t) atEnd natural maxCont

/-- The same for a rational curve. -/
def Curve.extendedRat (eps junk : K) (dense : ℕ → (ℕ → ℕ → K) → List V → R (List V)) (nrm : V → K) (len : K) (c : Curve K (V × K)) (l : K)
    (atEnd relative natural : Bool) (maxCont : Option ℕ) : R (Curve K (V × K)) := do
  let l := if relative = true then l * len else l
  if atEnd = true then do
    let t ← c.ratValue eps junk c.b1 1
    let t ← vdiv t (nrm t)
    let p ← c.ratValue eps junk c.b1 0
    c.extendedToPointRat eps junk dense nrm (p + l • t) atEnd natural maxCont
  else do
    let t ← c.ratValue eps junk c.b0 1
    let t := -t
    let t ← vdiv t (nrm t)
    let p ← c.ratValue eps junk c.b0 0
    c.extendedToPointRat eps junk dense nrm (p + l • t) atEnd natural maxCont

end Gbs
