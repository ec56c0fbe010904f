import Verif.Model.Rational
import Verif.Model.Trim
import Verif.Model.Reparam

/-!
# Model of surfaces (`gbs/basisfunctions.ixx`, `gbs/bssurf.h`, `gbs/polestools.h`)

The pole of index `i` along U and `j` along V is stored at `i + nPolesU * j`.
-/

namespace Gbs

variable {K : Type} [Field K] [LinearOrder K]
variable {V : Type} [AddCommGroup V] [Module K V]

/-- `dst += w * poles[i]` with `w = Nu[ri] * Nv[rj]`: the loops over the active poles,
`gbs/basisfunctions.ixx:527-538` and `813-823`. `offU`, `offV` are the positions of the first basis value in the tables. -/
def surfSum (Nu Nv : List K) (offU offV : ℕ) (poles : List V) (p q nU iMin jMin : ℕ) (acc : V) : R V :=
  forLe 0 q (fun rj acc => do
    let nv ← rd Nv (offV + rj)
    let row := nU * (jMin + rj)
    forLe 0 p (fun ri acc => do
      let nu ← rd Nu (offU + ri)
      let w := nu * nv
      let pole ← rd poles (iMin + ri + row)
      pure (acc + w • pole)) acc) acc

/-- The fallback loops on recursive basis functions, `gbs/basisfunctions.ixx:545-557` and `826-836`. -/
def surfSumRec (eps u v : K) (ku kv : List K) (poles : List V) (p q du dv nU iMin i jMin j : ℕ) (acc : V) : R V :=
  forLe jMin j (fun jj acc => do
    let Nvv ← basisFunctionD eps kv v q dv jj
    forLe iMin i (fun ii acc => do
      let Nuu ← basisFunctionD eps ku u p du ii
      let pole ← rd poles (ii + nU * jj)
      pure (acc + (Nuu * Nvv) • pole)) acc) acc

/-- `eval_value_decasteljau` for surfaces, `gbs/basisfunctions.ixx:784-838`. The pole counts are `size_t`: a wrapped count is
used as an index right away (`find_span`). -/
def evalSurf (eps junk u v : K) (ku kv : List K) (poles : List V) (p q du dv : ℕ) : R V :=
  if p < du ∨ q < dv then pure 0
  else do
    let nU ← usub ku.length (p + 1)
    let nV ← usub kv.length (q + 1)
    let i ← findSpan nU p u ku
    let j ← findSpan nV q v kv
    let iMin := if p ≤ i then i - p else 0
    let jMin := if q ≤ j then j - q else 0
    if p ≤ stackMaxDegree ∧ q ≤ stackMaxDegree then do
      let Nu ← basisDers junk i p du u ku (List.replicate (stackMaxDegree + 1) junk)
      let Nv ← basisDers junk j q dv v kv (List.replicate (stackMaxDegree + 1) junk)
      surfSum Nu Nv 0 0 poles p q nU iMin jMin 0
    else surfSumRec eps u v ku kv poles p q du dv nU iMin i jMin j 0

/-- Table of derivatives in both directions, `gbs/basisfunctions.ixx:500-561`: returns the content of the caller's buffer
`SKL0`. The reference `dst` into the buffer is read, accumulated and written back. -/
def evalSurfDers (eps junk u v : K) (ku kv : List K) (poles : List V) (p q nu nv : ℕ) (SKL0 : List V) : R (List V) := do
  let SKL ← forLe 0 nu (fun a S => forLe 0 nv (fun b S => wr S (a * (nv + 1) + b) 0) S) SKL0
  let du := min nu p
  let dv := min nv q
  let nU ← usub ku.length (p + 1)
  let nV ← usub kv.length (q + 1)
  let i ← findSpan nU p u ku
  let j ← findSpan nV q v kv
  let iMin := if p ≤ i then i - p else 0
  let jMin := if q ≤ j then j - q else 0
  let w := List.replicate (stackMaxDegree + 1) junk
  let ww := List.replicate ((stackMaxDegree + 1) * (stackMaxDegree + 1)) junk
  if p ≤ stackMaxDegree ∧ q ≤ stackMaxDegree then do
    let dersU ← dersBasisFuns i p du u ku (fun _ _ => junk) (fun _ _ => junk) w w ww
    let dersV ← dersBasisFuns j q dv v kv (fun _ _ => junk) (fun _ _ => junk) w w ww
    forLe 0 du (fun a S => forLe 0 dv (fun b S => do
      let x ← rd S (a * (nv + 1) + b)
      let y ← surfSum dersU dersV (a * (p + 1)) (b * (q + 1)) poles p q nU iMin jMin x
      wr S (a * (nv + 1) + b) y) S) SKL
  else
    forLe 0 du (fun a S => forLe 0 dv (fun b S => do
      let x ← rd S (a * (nv + 1) + b)
      let y ← surfSumRec eps u v ku kv poles p q a b nU iMin i jMin j x
      wr S (a * (nv + 1) + b) y) S) SKL

/-- One entry of the quotient rule for surfaces, `gbs/basisfunctions.ixx:587-615`. -/
def ratSurfEntry (A : List (V × K)) (w00 : K) (stride k l : ℕ) (S : List V) : R (List V) := do
  let a ← rd A (k * stride + l)
  let val ← forLe 1 l (fun j val => do
    let b ← binomialU (K := K) l j
    let aj ← rd A j
    let s ← rd S (k * stride + (l - j))
    pure (val - (b * aj.2) • s)) a.1
  let val ← forLe 1 k (fun i val => do
    let bi ← binomialU (K := K) k i
    let ai ← rd A (i * stride)
    let s ← rd S ((k - i) * stride + l)
    let val := val - (bi * ai.2) • s
    let v2 ← forLe 1 l (fun j v2 => do
      let b ← binomialU (K := K) l j
      let aij ← rd A (i * stride + j)
      let s ← rd S ((k - i) * stride + (l - j))
      pure (v2 + (b * aij.2) • s)) (0 : V)
    pure (val - bi • v2)) val
  let r ← vdiv val w00
  wr S (k * stride + l) r

/-- `eval_rational_ders` for surfaces, `gbs/basisfunctions.ixx:576-634`. The homogeneous table is on the stack (625
cells of arbitrary content) up to the orders 24 and on the heap above. -/
def evalRatSurfDers (eps junk u v : K) (ku kv : List K) (poles : List (V × K)) (p q nu nv : ℕ) (S0 : List V) :
    R (List V) := do
  let A0 := if nu ≤ stackMaxDegree ∧ nv ≤ stackMaxDegree
    then List.replicate ((stackMaxDegree + 1) * (stackMaxDegree + 1)) ((0 : V), junk)
    else List.replicate ((nu + 1) * (nv + 1)) ((0 : V), (0 : K))
  let A ← evalSurfDers eps junk u v ku kv poles p q nu nv A0
  let a0 ← rd A 0
  forLe 0 nu (fun k S => forLe 0 nv (fun l S => ratSurfEntry A a0.2 (nv + 1) k l S) S) S0

/-- `BSSurfaceGeneral`, `gbs/bssurf.h:395-403`. -/
structure Surface (K V : Type) where
  /-- `m_degU` -/
  degU : ℕ
  /-- `m_degV` -/
  degV : ℕ
  /-- `m_poles` -/
  poles : List V
  /-- `m_knotsFlatsU` -/
  knotsU : List K
  /-- `m_knotsFlatsV` -/
  knotsV : List K
  /-- `m_bounds[0]` -/
  u0 : K
  /-- `m_bounds[1]` -/
  u1 : K
  /-- `m_bounds[2]` -/
  v0 : K
  /-- `m_bounds[3]` -/
  v1 : K
  deriving DecidableEq

/-- `a - b` on `size_t`, wrapping around. -/
def wsub (a b : ℕ) : ℕ := if b ≤ a then a - b else 2 ^ 64 + a - b

/-- `check_curve` with `size_t` arithmetic, for pole counts that may have wrapped around, `gbs/bscurve.h:200-233`. -/
def checkCurveW (eps : K) (np : ℕ) (knots : List K) (p : ℕ) : R Bool := do
  let km ← unflatKnots eps knots
  if ¬ isSorted (km.map Prod.fst) then pure false
  else if ¬ ((p + 1 + np) % 2 ^ 64 = knots.length) then pure false
  else pure (decide ((p + 1) % 2 ^ 64 ≤ np))

/-- Flat-knot constructor, `gbs/bssurf.h:414-440`. -/
def Surface.mk? (eps : K) (poles : List V) (ku kv : List K) (p q : ℕ) : R (Surface K V) :=
  match ku.head?, ku.getLast?, kv.head?, kv.getLast? with
  | some a, some b, some c, some d => do
    let nU := wsub ku.length (p + 1)
    let nV := wsub kv.length (q + 1)
    if (nU * nV) % 2 ^ 64 ≠ poles.length then .error (.thrown .invalid)
    else do
      let ok ← checkCurveW eps nU ku p
      if ¬ ok then .error (.thrown .invalid)
      else do
        let ok ← checkCurveW eps nV kv q
        if ¬ ok then .error (.thrown .invalid)
        else pure ⟨p, q, poles, ku, kv, a, b, c, d⟩
  | _, _, _, _ => .error .oob

/-- `nPolesU`, `gbs/bssurf.h:751-754`. -/
def Surface.nU (s : Surface K V) : R ℕ := usub s.knotsU.length (s.degU + 1)

/-- `nPolesV`, `gbs/bssurf.h:761-764`. -/
def Surface.nV (s : Surface K V) : R ℕ := usub s.knotsV.length (s.degV + 1)

/-- The bounds tests of the evaluations, `gbs/bssurf.h:818-821`, `1055-1058`. -/
def Surface.outside (eps : K) (s : Surface K V) (u v : K) : Prop :=
  (u < s.u0 - eps ∨ s.u1 + eps < u) ∨ (v < s.v0 - eps ∨ s.v1 + eps < v)

instance (eps : K) (s : Surface K V) (u v : K) : Decidable (s.outside eps u v) := by
  unfold Surface.outside; infer_instance

/-- `BSSurface::value`, `gbs/bssurf.h:1053-1061`. -/
def Surface.value (eps junk : K) (s : Surface K V) (u v : K) (du : ℕ := 0) (dv : ℕ := 0) : R V :=
  if s.outside eps u v then .error (.thrown .outOfBoundsEval)
  else evalSurf eps junk u v s.knotsU s.knotsV s.poles s.degU s.degV du dv

/-- `BSSurfaceGeneral::derivatives` of a non rational surface, `gbs/bssurf.h:816-828`. -/
def Surface.derivatives (eps junk : K) (s : Surface K V) (u v : K) (nu nv : ℕ) (SKL0 : List V) : R (List V) :=
  if s.outside eps u v then .error (.thrown .outOfBoundsEval)
  else evalSurfDers eps junk u v s.knotsU s.knotsV s.poles s.degU s.degV nu nv SKL0

/-- `BSSurfaceGeneral::derivatives` of a rational surface, `gbs/bssurf.h:816-828`. -/
def Surface.ratDerivatives (eps junk : K) (s : Surface K (V × K)) (u v : K) (nu nv : ℕ) (SKL0 : List V) : R (List V) :=
  if s.outside eps u v then .error (.thrown .outOfBoundsEval)
  else evalRatSurfDers eps junk u v s.knotsU s.knotsV s.poles s.degU s.degV nu nv SKL0

/-- `BSSurfaceRational::value`, `gbs/bssurf.h:1085-1103`. -/
def Surface.ratValue (eps junk : K) (s : Surface K (V × K)) (u v : K) (du : ℕ := 0) (dv : ℕ := 0) : R V :=
  if s.outside eps u v then .error (.thrown .outOfBoundsEval)
  else if du = 0 ∧ dv = 0 then do
    let x ← evalSurf eps junk u v s.knotsU s.knotsV s.poles s.degU s.degV du dv
    pure (weightProjection x)
  else do
    let S ← s.ratDerivatives eps junk u v du dv (List.replicate ((du + 1) * (dv + 1)) 0)
    rd S (du * (dv + 1) + dv)

/-- `pole(i,j)`, `gbs/bssurf.h:672-701`. -/
def Surface.pole (s : Surface K V) (i j : ℕ) : R V := do
  let n ← s.nU
  match s.poles[j + i * n]? with
  | some x => pure x
  | none => .error (.thrown .outOfRange)

/-- `polesU(j)`, `gbs/bssurf.h:711-722`; for `j = nPolesV` nothing is copied into the value-initialised result, beyond the
range given to `std::copy` is not one. -/
def Surface.polesU (s : Surface K V) (j : ℕ) : R (List V) := do
  let n ← s.nU
  let m ← s.nV
  if j < m then
    if (j + 1) * n ≤ s.poles.length then pure ((s.poles.drop (j * n)).take n) else .error .oob
  else if j * n ≤ s.poles.length ∧ s.poles.length ≤ j * n + n then
    pure (s.poles.drop (j * n) ++ List.replicate (n - (s.poles.length - j * n)) 0)
  else .error .oob

/-- `polesV(i)`, `gbs/bssurf.h:733-744`. -/
def Surface.polesV (s : Surface K V) (i : ℕ) : R (List V) := do
  let n ← s.nU
  let m ← s.nV
  forLt 0 m (fun j P => do
    let x ← rd s.poles (i + j * n)
    wr P j x) (List.replicate m 0)

/-- `inverted_uv_poles`, `gbs/bssurf.h:26-39`. Division by zero of the sizes is undefined behaviour. -/
def invertedUVPoles (P : List V) (nNew : ℕ) : R (List V) :=
  if nNew = 0 then .error .oob
  else
    let nV := P.length / nNew
    forLt 0 nNew (fun i Q => forLt 0 nV (fun j Q => do
      let x ← rd P (j + nV * i)
      wr Q (i + nNew * j) x) Q) (List.replicate P.length 0)

/-- `m_bounds = {front, back, front, back}`. -/
def frontBack (U : List K) : R (K × K) := do
  let a ← rd U 0
  let l ← usub U.length 1
  let b ← rd U l
  pure (a, b)

/-- `invertUV`, `gbs/bssurf.h:909-915`. -/
def Surface.invertUV (s : Surface K V) : R (Surface K V) := do
  let m ← s.nV
  let P ← invertedUVPoles s.poles m
  let (a, b) ← frontBack s.knotsV
  let (c, d) ← frontBack s.knotsU
  pure ⟨s.degV, s.degU, P, s.knotsV, s.knotsU, a, b, c, d⟩

/-- `insertKnotU`, `gbs/bssurf.h:596-617`. -/
def Surface.insertKnotU (s : Surface K V) (u : K) (mult : ℕ := 1) : R (ℤ × Surface K V) := do
  let m ← s.nV
  let r ← forLt 0 m (fun j (st : (ℤ × List K) × List V) => do
    let row ← s.polesU j
    let (ik, U, Q) ← insertKnots u s.degU mult s.knotsU row
    pure ((ik, U), st.2 ++ Q)) (((0 : ℤ), []), [])
  pure (r.1.1, { s with knotsU := r.1.2, poles := r.2 })

/-- `insertKnotV`, `gbs/bssurf.h:630-653`. -/
def Surface.insertKnotV (s : Surface K V) (v : K) (mult : ℕ := 1) : R (ℤ × Surface K V) := do
  let n ← s.nU
  let r ← forLt 0 n (fun i (st : (ℤ × List K) × List V) => do
    let col ← s.polesV i
    let (ik, U, Q) ← insertKnots v s.degV mult s.knotsV col
    pure ((ik, U), st.2 ++ Q)) (((0 : ℤ), []), [])
  let P ← invertedUVPoles r.2 n
  pure (r.1.1, { s with knotsV := r.1.2, poles := P })

/-- `isoU`, `gbs/bssurf.h:1012-1024`. A negative index is a wrapped `size_t`. -/
def Surface.isoU (eps : K) (s : Surface K V) (u : K) : R (Curve K V) :=
  if u < s.u0 - eps ∨ s.u1 + eps < u then .error (.thrown .outOfBoundsEval)
  else do
    let (j, s') ← s.insertKnotU u s.degU
    if j < 0 then .error .oob
    else do
      let P ← s'.polesV j.toNat
      Curve.mk? eps P s'.knotsV s'.degV

/-- `isoV`, `gbs/bssurf.h:1033-1045`. -/
def Surface.isoV (eps : K) (s : Surface K V) (v : K) : R (Curve K V) :=
  if v < s.v0 - eps ∨ s.v1 + eps < v then .error (.thrown .outOfBoundsEval)
  else do
    let (i, s') ← s.insertKnotV v s.degV
    if i < 0 then .error .oob
    else do
      let P ← s'.polesU i.toNat
      Curve.mk? eps P s'.knotsU s'.degU

/-- `changeUBounds`, `gbs/bssurf.h:838-843`. -/
def Surface.changeUBounds (s : Surface K V) (k1 k2 : K) : R (Surface K V) := do
  let U ← changeBoundsK k1 k2 s.knotsU
  pure { s with knotsU := U, u0 := k1, u1 := k2 }

/-- `changeVBounds`, `gbs/bssurf.h:851-856`. -/
def Surface.changeVBounds (s : Surface K V) (k1 k2 : K) : R (Surface K V) := do
  let U ← changeBoundsK k1 k2 s.knotsV
  pure { s with knotsV := U, v0 := k1, v1 := k2 }

/-- `reverseU`, `gbs/bssurf.h:922-938`: each row of `nPolesU` poles is reversed. -/
def Surface.reverseU (s : Surface K V) : R (Surface K V) := do
  let (k1, k2) ← frontBack s.knotsU
  let n ← s.nU
  let m ← s.nV
  let P ← forLt 0 m (fun j P =>
    if j * n + n ≤ P.length then
      pure (P.take (j * n) ++ ((P.drop (j * n)).take n).reverse ++ P.drop (j * n + n))
    else .error .oob) s.poles
  pure { s with knotsU := s.knotsU.reverse.map (fun k => k1 + k2 - k), poles := P }

/-- `reverseV`, `gbs/bssurf.h:944-949`. -/
def Surface.reverseV (s : Surface K V) : R (Surface K V) := do
  let s ← s.invertUV
  let s ← s.reverseU
  s.invertUV

/-- `trimU`, `gbs/bssurf.h:962-986`. -/
def Surface.trimU (eps : K) (s : Surface K V) (u1 u2 : K) : R (Surface K V) := do
  let n ← s.nU
  let m ← s.nV
  let r ← forLt 0 m (fun j (st : List K × List V) =>
    if (j + 1) * n ≤ s.poles.length then do
      let (U, Q) ← trimKnots eps s.degU s.knotsU ((s.poles.drop (j * n)).take n) u1 u2
      pure (U, st.2 ++ Q)
    else .error .oob) ([], [])
  pure { s with knotsU := r.1, poles := r.2, u0 := u1, u1 := u2 }

/-- `trimV`, `gbs/bssurf.h:997-1002`. -/
def Surface.trimV (eps : K) (s : Surface K V) (v1 v2 : K) : R (Surface K V) := do
  let s ← s.invertUV
  let s ← s.trimU eps v1 v2
  s.invertUV

/-- `transpose_poles`, `gbs/polestools.h:14-30`: rows shorter than the first one are read out of range. -/
def transposePoles {α : Type} [Inhabited α] (M : List (List α)) : R (List (List α)) :=
  match M with
  | [] => pure []
  | r0 :: _ =>
    let nu := M.length
    let nv := r0.length
    forLt 0 nu (fun i T => forLt 0 nv (fun j T => do
      let r ← rd M i
      let x ← rd r j
      let t ← rd T j
      let t ← wr t i x
      wr T j t) T) (List.replicate nv (List.replicate nu default))

/-- `transpose_block`, `gbs/polestools.h:41-54`. -/
def transposeBlock {α : Type} (M : List (List α)) (T : List (List α)) (i0 j0 b : ℕ) : R (List (List α)) := do
  let r0 ← rd M 0
  let eR := min (i0 + b) M.length
  let eC := min (j0 + b) r0.length
  forLt i0 eR (fun i T => forLt j0 eC (fun j T => do
    let r ← rd M i
    let x ← rd r j
    let t ← rd T j
    let t ← wr t i x
    wr T j t) T) T

/-- Blocked `transpose_poles`, `gbs/polestools.h:63-78`; the step is the block size (which must not be 0 for the loops
to end), the `k`-th block starting at `k * b`. -/
def transposePolesBlocked {α : Type} [Inhabited α] (M : List (List α)) (b : ℕ) : R (List (List α)) := do
  let r0 ← rd M 0
  let nu := M.length
  let nv := r0.length
  if b = 0 then .error .overflow
  else
    forLt 0 ((nu + b - 1) / b) (fun i T => forLt 0 ((nv + b - 1) / b) (fun j T =>
      transposeBlock M T (i * b) (j * b) b) T) (List.replicate nv (List.replicate nu default))

/-- `flatten_poles`, `gbs/polestools.h:86-101`. -/
def flattenPoles {α : Type} (M : List (List α)) : List α := M.flatten

end Gbs
