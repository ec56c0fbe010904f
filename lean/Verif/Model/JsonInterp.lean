import Verif.Model.Json
import Verif.Model.Tangents

/-!
# Model of the curves described in a document by what they interpolate (`gbs-io/fromjson.h`)

As in `Verif.Model.Json`, a document is a tree, and the access to a missing member, to an element outside an array, or to the value of another
type than the one asked for is `.null`. The assertion on the name of the type in `bscurve_interp_cn` is not evaluated.
-/

namespace Gbs

variable {K : Type}

/-- `val.HasMember("name")`. -/
def Json.has (v : Json K) (s : String) : R Bool :=
  match v with
  | .obj l => .ok (l.any fun m => m.1 == s)
  | _ => .error .null

/-- `val.GetArray()`. -/
def Json.getArr : Json K → R (List (Json K))
  | .arr l => .ok l
  | _ => .error .null

/-- `val.GetArray()[i]`. -/
def Json.item (v : Json K) (i : ℕ) : R (Json K) := do
  let l ← v.getArr
  match l[i]? with
  | some x => .ok x
  | none => .error .null

/-- `val.IsString()` and then `val.GetString()`. -/
def Json.str? : Json K → Option String
  | .str s => some s
  | _ => none

/-- `magic_enum::enum_cast<KnotsCalcMode>(s).value()`, `gbs/knotsfunctions.ixx:295`: an unknown name is a `std::bad_optional_access`, here
as the other exceptions that are only a `std::exception`. -/
def enumMode (s : String) : R KnotsCalcMode :=
  if s = "EQUALLY_SPACED" then .ok .equallySpaced
  else if s = "CHORD_LENGTH" then .ok .chordLength
  else if s = "CENTRIPETAL" then .ok .centripetal
  else .error (.thrown .invalid)

/-- `make_constraints_vec<T,dim,nc>`, `gbs-io/fromjson.h:158-184`: the number of points is that of the first row. -/
def Json.constraintsVec [Zero K] (n nc : ℕ) (v : Json K) : R (List (List (Fin n → K))) :=
  match v with
  | .arr _ => do
    let r ← v.item 0
    let l ← r.getArr
    (List.range l.length).mapM fun j => (List.range nc).mapM fun i => do
      let r ← v.item i
      let x ← r.item j
      x.makeArray n
  | _ => .error (.thrown .invalid)

/-- The numerical parameters of the interpolations. -/
structure InterpNum (K V : Type) where
  eps : K
  meps : K
  growth : K
  junk : K
  x0 : V
  sparse : ℕ → List (ℕ × ℕ × K) → List V → R (List V)
  dist : V → V → K
  sqrt : K → K

variable [Field K] [LinearOrder K]

/-- `bscurve_interp_cn`, `gbs-io/fromjson.h:226-252`. -/
def Json.bscurveInterpCn (n : ℕ) (o : InterpNum K (Fin n → K)) (v : Json K) : R (Curve K (Fin n → K)) := do
  let h ← v.has "params"
  if h then do
    let a ← v.get "params"
    let u ← a.makeVec Json.getDouble
    let a ← v.get "deg"
    let p ← a.getSize
    let a ← v.get "points"
    let Q ← a.makePointVec n
    interpolateCn o.eps o.meps o.growth o.junk o.x0 o.sparse Q u p
  else do
    let h ← v.has "param_calc_mode"
    let a ← v.get "deg"
    let p ← a.getSize
    let a ← v.get "points"
    let Q ← a.makePointVec n
    if h then do
      let a ← v.get "param_calc_mode"
      let s ← a.getString
      let mode ← enumMode s
      interpolateDegree o.eps o.meps o.growth o.junk o.x0 o.sparse o.dist o.sqrt Q p mode
    else interpolateDegree o.eps o.meps o.growth o.junk o.x0 o.sparse o.dist o.sqrt Q p .chordLength

/-- The mode and the parameters read by `bscurve_interp`, `gbs-io/fromjson.h:257-269`. -/
def Json.modeAndParams (v : Json K) : R (KnotsCalcMode × List K) := do
  let h ← v.has "param_calc_mode"
  if h then do
    let a ← v.get "param_calc_mode"
    match a.str? with
    | none => pure (.chordLength, [])
    | some s =>
      if s = "SPECIFIED" then do
        let a ← v.get "params"
        let u ← a.makeVec Json.getDouble
        pure (.chordLength, u)
      else do
        let m ← enumMode s
        pure (m, [])
  else pure (.chordLength, [])

/-- The constraints of a document, `gbs-io/fromjson.h:270-281` and the two sizes that are handled, `282-298`; also `355-379`. -/
def Json.readConstraints (n : ℕ) (v : Json K) : R (ℕ × List (List (Fin n → K))) := do
  let h ← v.has "constraints"
  if h then do
    let a ← v.get "constraints"
    match a with
    | .arr l =>
      match l with
      | [] => .error (.thrown .invalid)
      | .arr _ :: _ =>
        if l.length = 1 then do
          let Q ← a.constraintsVec n 1
          pure (1, Q)
        else if l.length = 2 then do
          let Q ← a.constraintsVec n 2
          pure (2, Q)
        else .error (.thrown .invalid)
      | _ => .error (.thrown .invalid)
    | _ => .error (.thrown .invalid)
  else .error (.thrown .invalid)

/-- `bscurve_interp`, `gbs-io/fromjson.h:254-300`. -/
def Json.bscurveInterp (n : ℕ) (o : InterpNum K (Fin n → K)) (v : Json K) : R (Curve K (Fin n → K)) := do
  let m ← v.modeAndParams
  let c ← v.readConstraints n
  if m.2.length = 0 then interpolateMode o.eps o.meps o.growth o.junk o.x0 o.sparse o.dist o.sqrt c.1 c.2 m.1 false
  else interpolateWith o.eps o.meps o.growth o.junk o.x0 o.sparse c.1 c.2 m.2 false

/-- The two interpolations of `make_bscurve`, `gbs-io/fromjson.h:316-329`, with its other cases (`Json.makeBscurve`). -/
def Json.readBscurve (n : ℕ) (o : InterpNum K (Fin n → K)) (v : Json K) : R (Curve K (Fin n → K)) :=
  v.makeBscurve o.eps n fun v => do
    let a ← v.get "type"
    let s ← a.getString
    if s = "bscurve_interp_cn" then v.bscurveInterpCn n o else v.bscurveInterp n o

/-- `make_bscurve(a,u)`, `gbs-io/fromjson.h:380-393`, and `bscurve_interp(a,u)`, `352-379`: the parameters are given. -/
def Json.readBscurveAt (n : ℕ) (o : InterpNum K (Fin n → K)) (v : Json K) (u : List K) : R (Curve K (Fin n → K)) := do
  let a ← v.get "type"
  let s ← a.getString
  if s = "bscurve_interp" then do
    let c ← v.readConstraints n
    interpolateWith o.eps o.meps o.growth o.junk o.x0 o.sparse c.1 c.2 u false
  else .error (.thrown .invalid)

end Gbs
