import Verif.Model.Approx
import Verif.Model.SurfInterp
import Verif.Model.Transform

/-!
# Model of `gbs/bscshaping.h` and `gbs/bssshaping.h`: moving the poles of a curve or of a surface to meet constraints

The factorizations of Eigen (`llt`, `partialPivLu`) followed by `solve` are the parameter `dense`, as in the models of the interpolation and
of the approximation; the coordinates, which the code treats one after the other, are solved together. `size_t` differences that would wrap
around and become the sizes of matrices are errors.
-/

namespace Gbs

variable {K : Type} [Field K] [LinearOrder K] {V : Type} [AddCommGroup V] [Module K V]

/-- The displacements of the `n` moved poles for `m` constraints, `gbs/bscshaping.h:47-71` and `gbs/bssshaping.h:64-88`: `Bᵀ(BBᵀ)⁻¹` for fewer
constraints than poles, `(BᵀB)⁻¹Bᵀ` for more, `B⁻¹` for as many. -/
def shapeSolve (dense : ℕ → (ℕ → ℕ → K) → List V → R (List V)) (m n : ℕ) (B : ℕ → ℕ → K) (DX : List V) : R (List V) :=
  if m < n then do
    let Y ← dense m (fun r s => ∑ j ∈ Finset.range n, B r j * B s j) DX
    pure ((List.range n).map fun j => ∑ r ∈ Finset.range m, B r j • Y.getD r 0)
  else if n < m then dense n (normalMatrix m B) (normalRhs m n B DX)
  else dense n B DX

/-- The matrix of `move_to_constraints_delta`, `gbs/bscshaping.h:23-35`. -/
def shapeMatrix (eps : K) (cs : List (Constr K V)) (k : List K) (p i1 i2 n : ℕ) : R (ℕ → ℕ → K) :=
  forLt 0 cs.length (fun i B => do
    let c ← rd cs i
    forLe i1 i2 (fun j B => do
      let b ← basisFunctionD eps k c.u p c.d j
      matSet cs.length n B i (j - i1) b) B) (fun _ _ => 0)

/-- `move_to_constraints_delta`, `gbs/bscshaping.h:20-80`. -/
def moveDelta (eps : K) (dense : ℕ → (ℕ → ℕ → K) → List V → R (List V)) (P : List V) (cs : List (Constr K V)) (k : List K) (p i1 i2 : ℕ) :
    R (List V) := do
  let n ← usub (i2 + 1) i1
  let B ← shapeMatrix eps cs k p i1 i2 n
  let DP ← shapeSolve dense cs.length n B (cs.map Constr.v)
  forLe i1 i2 (fun i P => do
    let x ← rd P i
    let d ← rd DP (i - i1)
    wr P i (x + d)) P

/-- `moved_to_constraints_delta`, `gbs/bscshaping.h:83-92`. -/
def Curve.movedDelta (eps : K) (dense : ℕ → (ℕ → ℕ → K) → List V → R (List V)) (c : Curve K V) (cs : List (Constr K V)) (i1 i2 : ℕ) :
    R (Curve K V) := do
  let P ← moveDelta eps dense c.poles cs c.knots c.deg i1 i2
  Curve.mk? eps P c.knots c.deg

/-- `find_span_range` for constraints, `gbs/bscshaping.h:94-110`; `n-1` wraps around for a curve without poles, which cannot be built. -/
def Curve.spanRange (c : Curve K V) (cs : List (Constr K V)) : R (ℕ × ℕ) :=
  cs.foldlM (fun r x => do
    let s ← findSpanRange c.poles.length c.deg x.u c.knots
    pure (min r.1 s.1, max r.2 s.2)) (c.poles.length - 1, 0)

/-- `convert_constraints_to_delta`, `gbs/bscshaping.h:112-123`. -/
def Curve.toDelta (eps junk : K) (c : Curve K V) (cs : List (Constr K V)) : R (List (Constr K V)) :=
  cs.mapM fun x => do
    let y ← c.value eps junk x.u x.d
    pure ⟨x.u, x.d, x.v - y⟩

/-- `fix_bounds`, `gbs/bscshaping.h:140-144`, `194-198`, and `gbs/bssshaping.h:180-186`; for one pole `n-2` wraps around to the largest `size_t` and the minimum is `i2`. -/
def fixRange (fix : Bool) (n : ℕ) (r : ℕ × ℕ) : ℕ × ℕ :=
  if fix then (max 1 r.1, if 2 ≤ n then min (n - 2) r.2 else r.2) else r

/-- `moved_to_constraints`, `gbs/bscshaping.h:134-147`. The differences `constraints_delta` are computed, and the constraints themselves are
passed on. -/
def Curve.movedToConstraints (eps junk : K) (dense : ℕ → (ℕ → ℕ → K) → List V → R (List V)) (c : Curve K V) (cs : List (Constr K V))
    (fix : Bool := false) : R (Curve K V) := do
  let _ ← c.toDelta eps junk cs
  let r ← c.spanRange cs
  let r := fixRange fix c.poles.length r
  c.movedDelta eps dense cs r.1 r.2

/-- `move_to_constraints`, `gbs/bscshaping.h:149-153`, with `copyPoles`, `gbs/bscurve.h:441-448`. -/
def Curve.moveToConstraints (eps junk : K) (dense : ℕ → (ℕ → ℕ → K) → List V → R (List V)) (c : Curve K V) (cs : List (Constr K V))
    (fix : Bool := false) : R (Curve K V) := do
  let c' ← c.movedToConstraints eps junk dense cs fix
  c.movePoles c'.poles

/-- `moved_to_point`, `gbs/bscshaping.h:185-205`, with `move_to_point_delta`, `168-172`. -/
def Curve.movedToPoint (eps junk : K) (dense : ℕ → (ℕ → ℕ → K) → List V → R (List V)) (c : Curve K V) (pt : V) (u : K) (fix : Bool := false) :
    R (Curve K V) := do
  let r ← findSpanRange c.poles.length c.deg u c.knots
  let r := fixRange fix c.poles.length r
  let y ← c.value eps junk u 0
  let P ← moveDelta eps dense c.poles [⟨u, 0, pt - y⟩] c.knots c.deg r.1 r.2
  Curve.mk? eps P c.knots c.deg

/-- `move_to_point`, `gbs/bscshaping.h:218-222`. -/
def Curve.moveToPoint (eps junk : K) (dense : ℕ → (ℕ → ℕ → K) → List V → R (List V)) (c : Curve K V) (pt : V) (u : K) (fix : Bool := false) :
    R (Curve K V) := do
  let c' ← c.movedToPoint eps junk dense pt u fix
  c.movePoles c'.poles

/-! ## Surfaces -/

/-- The matrix of `move_to_constraints_delta`, `gbs/bssshaping.h:34-52`. The orders of derivation of the constraints are read and not used: both
basis functions are evaluated with the order 0. -/
def surfShapeMatrix (eps : K) (cs : List (SConstr K V)) (ku kv : List K) (p q i1 i2 j1 j2 nu n : ℕ) : R (ℕ → ℕ → K) :=
  forLt 0 cs.length (fun r B => do
    let c ← rd cs r
    forLe j1 j2 (fun j B => do
      let b ← basisFunctionD eps kv c.v q 0 j
      forLe i1 i2 (fun i B => do
        let a ← basisFunctionD eps ku c.u p 0 i
        matSet cs.length n B r (i - i1 + nu * (j - j1)) (a * b)) B) B) (fun _ _ => 0)

/-- `move_to_constraints_delta`, `gbs/bssshaping.h:25-102`. -/
def surfMoveDelta (eps : K) (dense : ℕ → (ℕ → ℕ → K) → List V → R (List V)) (P : List V) (cs : List (SConstr K V)) (ku kv : List K)
    (p q i1 i2 j1 j2 : ℕ) : R (List V) := do
  let nu ← usub (i2 + 1) i1
  let nv ← usub (j2 + 1) j1
  let n := nu * nv
  let np ← usub ku.length (p + 1)
  let B ← surfShapeMatrix eps cs ku kv p q i1 i2 j1 j2 nu n
  let DP ← shapeSolve dense cs.length n B (cs.map SConstr.x)
  forLe j1 j2 (fun j P => forLe i1 i2 (fun i P => do
    let x ← rd P (i + np * j)
    let d ← rd DP (i - i1 + nu * (j - j1))
    wr P (i + np * j) (x + d)) P) P

/-- `moved_to_constraints_delta`, `gbs/bssshaping.h:104-119`. -/
def Surface.movedDelta (eps : K) (dense : ℕ → (ℕ → ℕ → K) → List V → R (List V)) (s : Surface K V) (cs : List (SConstr K V)) (i1 i2 j1 j2 : ℕ) :
    R (Surface K V) := do
  let P ← if 0 < cs.length then surfMoveDelta eps dense s.poles cs s.knotsU s.knotsV s.degU s.degV i1 i2 j1 j2 else pure s.poles
  Surface.mk? eps P s.knotsU s.knotsV s.degU s.degV

/-- `find_span_range` for constraints, `gbs/bssshaping.h:121-146`. -/
def Surface.spanRange (s : Surface K V) (cs : List (SConstr K V)) : R ((ℕ × ℕ) × ℕ × ℕ) := do
  let nu ← s.nU
  let nv ← s.nV
  cs.foldlM (fun r x => do
    let a ← findSpanRange nu s.degU x.u s.knotsU
    let b ← findSpanRange nv s.degV x.v s.knotsV
    pure ((min r.1.1 a.1, max r.1.2 a.2), (min r.2.1 b.1, max r.2.2 b.2))) ((nu - 1, 0), (nv - 1, 0))

/-- `convert_constraints_to_delta`, `gbs/bssshaping.h:148-161`. -/
def Surface.toDelta (eps junk : K) (s : Surface K V) (cs : List (SConstr K V)) : R (List (SConstr K V)) :=
  cs.mapM fun x => do
    let y ← s.value eps junk x.u x.v x.du x.dv
    pure ⟨x.u, x.v, x.x - y, x.du, x.dv⟩

/-- `moved_to_constraints`, `gbs/bssshaping.h:172-191`. -/
def Surface.movedToConstraints (eps junk : K) (dense : ℕ → (ℕ → ℕ → K) → List V → R (List V)) (s : Surface K V) (cs : List (SConstr K V))
    (fix : Bool := false) : R (Surface K V) := do
  let nu ← s.nU
  let nv ← s.nV
  let r ← s.spanRange cs
  let a := fixRange fix nu r.1
  let b := fixRange fix nv r.2
  let ds ← s.toDelta eps junk cs
  s.movedDelta eps dense ds a.1 a.2 b.1 b.2

/-- `moved_to_point`, `gbs/bssshaping.h:204-212`. -/
def Surface.movedToPoint (eps junk : K) (dense : ℕ → (ℕ → ℕ → K) → List V → R (List V)) (s : Surface K V) (pt : V) (u v : K)
    (fix : Bool := false) : R (Surface K V) :=
  s.movedToConstraints eps junk dense [⟨u, v, pt, 0, 0⟩] fix

/-- `move_to_point`, `gbs/bssshaping.h:214-224`, with `copyPoles`, `gbs/bssurf.h:784-791`. -/
def Surface.moveToPoint (eps junk : K) (dense : ℕ → (ℕ → ℕ → K) → List V → R (List V)) (s : Surface K V) (pt : V) (u v : K)
    (fix : Bool := false) : R (Surface K V) := do
  let s' ← s.movedToPoint eps junk dense pt u v fix
  s.movePoles s'.poles

end Gbs
