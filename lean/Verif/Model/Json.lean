import Verif.Model.Wrapped
import Verif.Model.Surface

/-!
# Model of the JSON documents (`gbs-io/tojson.h`, `gbs-io/fromjson.h`)

A document is a tree. The text written by `rapidjson::Writer` and read back by `Document::Parse` is not modelled: the tree that is
read is the one that was written. Numbers are either floating point numbers (`IsDouble`) or unsigned integers (`IsUint64`); negative
integers never occur in what is written. The access to a missing member, or to the value of another type than the one asked for, is an
assertion of `rapidjson` and undefined behaviour without it: `.null`.
-/

namespace Gbs

variable {K : Type}

/-- `rapidjson::Value`. -/
inductive Json (K : Type) where
  | null
  /-- a number with a decimal part -/
  | dbl (x : K)
  /-- an unsigned number -/
  | int (n : ℕ)
  | str (s : String)
  | arr (l : List (Json K))
  /-- the members, in the order of the calls of `AddMember` -/
  | obj (l : List (String × Json K))

/-- `val["name"]`: the first member with that name. -/
def Json.get (v : Json K) (s : String) : R (Json K) :=
  match v with
  | .obj l => match l.find? (fun m => m.1 == s) with
    | some m => .ok m.2
    | none => .error .null
  | _ => .error .null

/-- `val.IsInt()` and then `val.GetInt()`. -/
def Json.int? : Json K → Option ℕ
  | .int n => if n < 2 ^ 31 then some n else none
  | _ => none

/-- `val.GetInt()`. -/
def Json.getInt (v : Json K) : R ℕ :=
  match v.int? with
  | some n => .ok n
  | none => .error .null

/-- `val.GetUint64()`. -/
def Json.getUint64 : Json K → R ℕ
  | .int n => .ok n
  | _ => .error .null

/-- `val.GetString()`. -/
def Json.getString : Json K → R String
  | .str s => .ok s
  | _ => .error .null

/-- `get_val<double>`, `gbs-io/fromjson.h:36-41`. -/
def Json.getDouble : Json K → R K
  | .dbl x => .ok x
  | _ => .error (.thrown .invalid)

/-- `get_val<size_t>`, `gbs-io/fromjson.h:60-65`. -/
def Json.getSize : Json K → R ℕ
  | .int n => .ok n
  | _ => .error (.thrown .invalid)

/-- `make_vec<T>`, `gbs-io/fromjson.h:76-97`; `g` is `get_val<T>`. -/
def Json.makeVec {α : Type} (g : Json K → R α) : Json K → R (List α)
  | .arr l => l.mapM g
  | _ => .error (.thrown .invalid)

/-- `make_array<T,dim>`, `gbs-io/fromjson.h:100-120`. -/
def Json.makeArray [Zero K] (n : ℕ) : Json K → R (Fin n → K)
  | .arr l => if l.length ≠ n then .error (.thrown .invalid) else do
      let x ← l.mapM Json.getDouble
      pure (fun i => x.getD i 0)
  | _ => .error (.thrown .invalid)

/-- `make_point_vec<T,dim>`, `gbs-io/fromjson.h:142-156`. -/
def Json.makePointVec [Zero K] (n : ℕ) : Json K → R (List (Fin n → K)) := Json.makeVec (Json.makeArray n)

/-- `make_ax2<T,3>`, `gbs-io/fromjson.h:123-139`. -/
def Json.makeAx2 [Zero K] : Json K → R (Ax2 K)
  | .arr l => if l.length ≠ 3 then .error (.thrown .invalid) else do
      let a ← rd l 0
      let O ← Json.makeArray 3 a
      let a ← rd l 1
      let z ← Json.makeArray 3 a
      let a ← rd l 2
      let x ← Json.makeArray 3 a
      pure ⟨O, z, x⟩
  | _ => .error (.thrown .invalid)

/-- `make_json(v_begin,v_end,allocator)`, `gbs-io/tojson.h:42-58`, on floating point numbers. -/
def Json.ofVec (l : List K) : Json K := .arr (l.map .dbl)

/-- `make_json(v_begin,v_end,allocator)`, `gbs-io/tojson.h:42-58`, on `size_t`. -/
def Json.ofSizes (l : List ℕ) : Json K := .arr (l.map .int)

/-- The array of coordinates. -/
def Json.ofPoint {n : ℕ} (x : Fin n → K) : Json K := Json.ofVec (List.ofFn x)

/-- `make_json(points,allocator)`, `gbs-io/tojson.h:67-77`. -/
def Json.ofPoints {n : ℕ} (l : List (Fin n → K)) : Json K := .arr (l.map Json.ofPoint)

/-- `make_json(ax2,allocator)`, `gbs-io/tojson.h:80-90`. -/
def Json.ofAx2 (F : Ax2 K) : Json K := .arr [Json.ofPoint F.O, Json.ofPoint F.z, Json.ofPoint F.x]

/-- `static_cast<unsigned>`. -/
def toUnsigned (n : ℕ) : ℕ := n % 2 ^ 32

mutual
/-- The curves in dimension `n` that `make_json` tells apart. -/
inductive JCurve (K : Type) : ℕ → Type
  /-- `BSCurve` -/
  | bs {n : ℕ} (c : Curve K (Fin n → K)) : JCurve K n
  /-- `BSCurveRational` -/
  | rat {n : ℕ} (c : Curve K ((Fin n → K) × K)) : JCurve K n
  /-- `CurveOnSurface` -/
  | onSurface {n : ℕ} (c : JCurve K 2) (s : JSurface K n) : JCurve K n
  /-- `CurveComposite` -/
  | composite {n : ℕ} (cs : JCurves K n) : JCurve K n
  /-- `CurveTrimmed` -/
  | trimmed {n : ℕ} (c : JCurve K n) (u1 u2 : K) : JCurve K n
  /-- `CurveOffset2D<T,BSCfunction<T>>`, with the curve of the function -/
  | offset2 (c : JCurve K 2) (f : Curve K (Fin 1 → K)) : JCurve K 2
  /-- any other class -/
  | other {n : ℕ} : JCurve K n
/-- A list of curves, `std::vector<std::shared_ptr<Curve<T,dim>>>`. -/
inductive JCurves (K : Type) : ℕ → Type
  | nil {n : ℕ} : JCurves K n
  | cons {n : ℕ} (c : JCurve K n) (cs : JCurves K n) : JCurves K n
/-- The surfaces in dimension `n` that `make_json` tells apart. -/
inductive JSurface (K : Type) : ℕ → Type
  /-- `BSSurface` -/
  | bs {n : ℕ} (s : Surface K (Fin n → K)) : JSurface K n
  /-- `BSSurfaceRational` -/
  | rat {n : ℕ} (s : Surface K ((Fin n → K) × K)) : JSurface K n
  /-- `SurfaceOfRevolution`, with `axis2()` and `bounds()[2]`, `bounds()[3]` -/
  | revolution (c : JCurve K 2) (F : Ax2 K) (a1 a2 : K) : JSurface K 3
  /-- any other class -/
  | other {n : ℕ} : JSurface K n
end

variable [Field K] [LinearOrder K]

/-- `knots_and_mults`, `gbs/knotsfunctions.ixx:163-169`. -/
def knotsAndMults (eps : K) (U : List K) : R (List K × List ℕ) := do
  let km ← unflatKnots eps U
  pure (km.map Prod.fst, km.map Prod.snd)

/-- `make_json(BSCurve,allocator)`, `gbs-io/tojson.h:113-133`. -/
def Json.ofBs {n : ℕ} (eps : K) (c : Curve K (Fin n → K)) : R (Json K) := do
  let (k, m) ← knotsAndMults eps c.knots
  pure (.obj [("type", .int 125), ("degree", .int (toUnsigned c.deg)), ("dim", .int (toUnsigned n)), ("knots", .ofVec k),
    ("mults", .ofSizes m), ("poles", .ofPoints c.poles)])

/-- `make_json(BSCurveRational,allocator)`, `gbs-io/tojson.h:136-159`. -/
def Json.ofRat {n : ℕ} (eps : K) (c : Curve K ((Fin n → K) × K)) : R (Json K) := do
  let (k, m) ← knotsAndMults eps c.knots
  pure (.obj [("type", .int 126), ("degree", .int (toUnsigned c.deg)), ("dim", .int (toUnsigned n)), ("knots", .ofVec k),
    ("mults", .ofSizes m), ("poles", .ofPoints (polesProjected c.poles)), ("weights", .ofVec (c.poles.map Prod.snd))])

/-- `make_json(BSCfunction,allocator)`, `gbs-io/tojson.h:162-173`. -/
def Json.ofFunction (eps : K) (f : Curve K (Fin 1 → K)) : R (Json K) := do
  let j ← Json.ofBs eps f
  pure (.obj [("type", .int 25), ("curve", j)])

/-- `make_json(BSSurface,allocator)`, `gbs-io/tojson.h:336-363`. -/
def Json.ofBsSurface {n : ℕ} (eps : K) (s : Surface K (Fin n → K)) : R (Json K) := do
  let (ku, mu) ← knotsAndMults eps s.knotsU
  let (kv, mv) ← knotsAndMults eps s.knotsV
  pure (.obj [("type", .int 127), ("degreeU", .int (toUnsigned s.degU)), ("degreeV", .int (toUnsigned s.degV)),
    ("dim", .int (toUnsigned n)), ("knotsU", .ofVec ku), ("multsU", .ofSizes mu), ("knotsV", .ofVec kv), ("multsV", .ofSizes mv),
    ("poles", .ofPoints s.poles)])

/-- `make_json(BSSurfaceRational,allocator)`, `gbs-io/tojson.h:366-396`. -/
def Json.ofRatSurface {n : ℕ} (eps : K) (s : Surface K ((Fin n → K) × K)) : R (Json K) := do
  let (ku, mu) ← knotsAndMults eps s.knotsU
  let (kv, mv) ← knotsAndMults eps s.knotsV
  pure (.obj [("type", .int 128), ("degreeU", .int (toUnsigned s.degU)), ("degreeV", .int (toUnsigned s.degV)),
    ("dim", .int (toUnsigned n)), ("knotsU", .ofVec ku), ("multsU", .ofSizes mu), ("knotsV", .ofVec kv), ("multsV", .ofSizes mv),
    ("poles", .ofPoints (polesProjected s.poles)), ("weights", .ofVec (s.poles.map Prod.snd))])

mutual
/-- `make_json(const Curve<T,dim>*,allocator)`, `gbs-io/tojson.h:276-300`, and `make_json(const Curve<T,2>*,allocator)`, `303-310`: the
second one is chosen when the template arguments are deduced (`ded`), as they are from a `shared_ptr`; the first one when they are
given, `make_json<T,2>(…)`. Composite curves: `214-234`; trimmed curves: `237-272`; offset curves: `176-191`; curves on surfaces:
`424-440`. -/
def JCurve.write (eps : K) (ded : Bool) : {n : ℕ} → JCurve K n → R (Json K)
  | _, .bs c => Json.ofBs eps c
  | _, .rat c => Json.ofRat eps c
  | n, .onSurface c s => do
    let jc ← c.write eps false
    let js ← s.write eps false
    pure (.obj [("type", .int 142), ("dim", .int (toUnsigned n)), ("curve2d", jc), ("surface", js)])
  | n, .composite cs => do
    let l ← cs.write eps
    pure (.obj [("type", .int 137), ("dim", .int (toUnsigned n)), ("curves", .arr l)])
  | n, .trimmed c u1 u2 => do
    let j ← c.write eps true
    pure (.obj [("type", .int 136), ("dim", .int (toUnsigned n)), ("curve", j), ("u1", .dbl u1), ("u2", .dbl u2)])
  | _, .offset2 c f => if ded then do
      let jc ← c.write eps false
      let jf ← Json.ofFunction eps f
      pure (.obj [("dim", .int 2), ("type", .int 138), ("curve", jc), ("function", jf)])
    else pure .null
  | _, .other => pure .null
/-- The loop on the curves, `gbs-io/tojson.h:223-231`. -/
def JCurves.write (eps : K) : {n : ℕ} → JCurves K n → R (List (Json K))
  | _, .nil => pure []
  | _, .cons c cs => do
    let j ← c.write eps true
    let l ← cs.write eps
    pure (j :: l)
/-- `make_json(const Surface<T,dim>*,allocator)`, `gbs-io/tojson.h:399-411`, and `make_json(const Surface<T,3>*,allocator)`, `414-421`
(`ded`); surfaces of revolution: `313-333`. -/
def JSurface.write (eps : K) (ded : Bool) : {n : ℕ} → JSurface K n → R (Json K)
  | _, .bs s => Json.ofBsSurface eps s
  | _, .rat s => Json.ofRatSurface eps s
  | _, .revolution c F a1 a2 => if ded then do
      let j ← c.write eps true
      pure (.obj [("type", .int 120), ("dim", .int 2), ("axis2", .ofAx2 F), ("theta1", .dbl a1), ("theta2", .dbl a2), ("curve", j)])
    else pure .null
  | _, .other => pure .null
end

/-- `flat_knots(make_vec<T>(val[k]),make_vec<size_t>(val[m]))`. -/
def Json.flat (v : Json K) (k m : String) : R (List K) := do
  let a ← v.get k
  let k ← a.makeVec Json.getDouble
  let a ← v.get m
  let m ← a.makeVec Json.getSize
  flatKnots k m

/-- The case `BSCurve` of `make_curve`, `gbs-io/fromjson.h:403-409`. -/
def Json.toBs (eps : K) (n : ℕ) (v : Json K) : R (Curve K (Fin n → K)) := do
  let a ← v.get "poles"
  let P ← a.makePointVec n
  let U ← v.flat "knots" "mults"
  let a ← v.get "degree"
  let p ← a.getUint64
  Curve.mk? eps P U p

/-- The case `BSCurveRational` of `make_curve`, `gbs-io/fromjson.h:412-419`. -/
def Json.toRat (eps : K) (n : ℕ) (v : Json K) : R (Curve K ((Fin n → K) × K)) := do
  let a ← v.get "poles"
  let P ← a.makePointVec n
  let U ← v.flat "knots" "mults"
  let a ← v.get "weights"
  let W ← a.makeVec Json.getDouble
  let a ← v.get "degree"
  let p ← a.getUint64
  let Pw ← addWeightsCoord P W
  Curve.mk? eps Pw U p

/-- `make_surface<T,dim>`, `gbs-io/fromjson.h:436-468`. -/
def Json.makeSurface (eps : K) (n : ℕ) (v : Json K) : R (JSurface K n) := do
  let a ← v.get "type"
  let t ← a.getInt
  if t = 127 then do
    let a ← v.get "poles"
    let P ← a.makePointVec n
    let U ← v.flat "knotsU" "multsU"
    let W ← v.flat "knotsV" "multsV"
    let a ← v.get "degreeU"
    let p ← a.getUint64
    let a ← v.get "degreeV"
    let q ← a.getUint64
    let s ← Surface.mk? eps P U W p q
    pure (.bs s)
  else if t = 128 then do
    let a ← v.get "poles"
    let P ← a.makePointVec n
    let a ← v.get "weights"
    let w ← a.makeVec Json.getDouble
    let Pw ← addWeightsCoord P w
    let U ← v.flat "knotsU" "multsU"
    let W ← v.flat "knotsV" "multsV"
    let a ← v.get "degreeU"
    let p ← a.getUint64
    let a ← v.get "degreeV"
    let q ← a.getUint64
    let s ← Surface.mk? eps Pw U W p q
    pure (.rat s)
  else .error (.thrown .invalid)

/-- `make_curve<T,dim>`, `gbs-io/fromjson.h:399-433`. The recursion follows the nesting of the document; here it is bounded by the first
argument. -/
def Json.makeCurve (eps : K) : ℕ → (n : ℕ) → Json K → R (JCurve K n)
  | 0, _, _ => .error .noEnd
  | fuel + 1, n, v => do
    let a ← v.get "type"
    let t ← a.getInt
    if t = 125 then do
      let c ← v.toBs eps n
      pure (.bs c)
    else if t = 126 then do
      let c ← v.toRat eps n
      pure (.rat c)
    else if t = 142 then do
      let a ← v.get "curve2d"
      let c ← Json.makeCurve eps fuel 2 a
      let a ← v.get "surface"
      let s ← a.makeSurface eps n
      pure (.onSurface c s)
    else .error (.thrown .invalid)

/-- `make_surface<T>`, `gbs-io/fromjson.h:471-489`. -/
def Json.makeSurface3 (eps : K) (fuel : ℕ) (v : Json K) : R (JSurface K 3) := do
  let a ← v.get "type"
  let t ← a.getInt
  if t = 120 then do
    let a ← v.get "curve"
    let c ← Json.makeCurve eps fuel 2 a
    let a ← v.get "axis2"
    let F ← a.makeAx2
    let a ← v.get "theta1"
    let a1 ← a.getDouble
    let a ← v.get "theta2"
    let a2 ← a.getDouble
    pure (.revolution c F a1 a2)
  else v.makeSurface eps 3

/-- `bscurve_direct`, `gbs-io/fromjson.h:186-205`; the assertion on the name of the type is not evaluated. -/
def Json.bscurveDirect (eps : K) (n : ℕ) (v : Json K) : R (Curve K (Fin n → K)) := do
  let a ← v.get "type"
  if a.int? = some 125 then do
    let a ← v.get "knots"
    let k ← a.makeVec Json.getDouble
    let a ← v.get "mults"
    let m ← a.makeVec Json.getSize
    let a ← v.get "degree"
    let p ← a.getSize
    let a ← v.get "poles"
    let P ← a.makePointVec n
    Curve.mkMult? eps P k m p
  else do
    let a ← v.get "knots"
    let k ← a.makeVec Json.getDouble
    let a ← v.get "deg"
    let p ← a.getSize
    let a ← v.get "poles"
    let P ← a.makePointVec n
    Curve.mk? eps P k p

/-- `make_bscurve`, `gbs-io/fromjson.h:302-334`; the interpolations of the old format are the parameter `interp` (`Json.readBscurve` in `Verif.Model.JsonInterp`). -/
def Json.makeBscurve (eps : K) (n : ℕ) (interp : Json K → R (Curve K (Fin n → K))) (v : Json K) : R (Curve K (Fin n → K)) := do
  let a ← v.get "type"
  match a.int? with
  | some t => if t = 125 then v.bscurveDirect eps n else .error (.thrown .invalid)
  | none => do
    let s ← a.getString
    if s = "bscurve" then v.bscurveDirect eps n
    else if s = "bscurve_interp_cn" ∨ s = "bscurve_interp" then interp v
    else .error (.thrown .invalid)

/-- `make_bssurface`, `gbs-io/fromjson.h:337-350`, and `bssurface_direct`, `208-224`. -/
def Json.makeBssurface (eps : K) (n : ℕ) (v : Json K) : R (Surface K (Fin n → K)) := do
  let a ← v.get "type"
  if a.int? = some 127 then do
    let a ← v.get "knotsU"
    let ku ← a.makeVec Json.getDouble
    let a ← v.get "multsU"
    let mu ← a.makeVec Json.getSize
    let a ← v.get "knotsV"
    let kv ← a.makeVec Json.getDouble
    let a ← v.get "multsV"
    let mv ← a.makeVec Json.getSize
    let a ← v.get "degreeU"
    let p ← a.getSize
    let a ← v.get "degreeV"
    let q ← a.getSize
    let a ← v.get "poles"
    let P ← a.makePointVec n
    let U ← flatKnots ku mu
    let W ← flatKnots kv mv
    Surface.mk? eps P U W p q
  else .error (.thrown .invalid)

end Gbs
