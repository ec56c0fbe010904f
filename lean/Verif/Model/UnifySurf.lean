import Verif.Model.Unify
import Verif.Model.Surface

/-! # Model of the unification of the knots of a set of surfaces, `gbs/bsstools.h:9-83` -/

namespace Gbs

variable {K : Type} [Field K] [LinearOrder K]
variable {V : Type} [AddCommGroup V] [Module K V]

/-- `BSSurfaceInfo`: the tuple (rows of poles along U, flat knots along U and V, degrees). -/
structure SurfInfo (K V : Type) where
  polesUV : List (List V)
  knotsU : List K
  knotsV : List K
  degU : ℕ
  degV : ℕ
  deriving DecidableEq

/-- `info()`, `gbs/bssurf.h:470-480`. -/
def Surface.info (s : Surface K V) : R (SurfInfo K V) := do
  let m ← s.nV
  let rows ← (List.range m).mapM s.polesU
  pure ⟨rows, s.knotsU, s.knotsV, s.degU, s.degV⟩

/-- `unify_knots(km_out_set, k_out_set, poles_out_set, degree, km_in)`, `gbs/bsstools.h:9-27`: each row of poles starts from the same knots, the
knots left by the last row are kept (none if there is no row). -/
def unifyRows (eps : K) (p : ℕ) (kmIn km : List (K × ℕ)) (U : List K) (rows : List (List V)) : R (List (K × ℕ) × List K × List (List V)) := do
  let rs ← rows.mapM (fun P => unifyInto eps p kmIn km U P)
  match rs.getLast? with
  | none => pure ([], [], [])
  | some r => pure (r.1, r.2.1, rs.map (fun r => r.2.2))

/-- The knots `kmInU`, `kmInV` are added to a surface, along U, then along V on the transposed poles: `gbs/bsstools.h:57-62` (the surface is the
first one) and `gbs/bsstools.h:77-80`. -/
def unifyUV (eps : K) (kmInU kmInV kmU kmV : List (K × ℕ)) (s : SurfInfo K V) : R (List (K × ℕ) × List (K × ℕ) × SurfInfo K V) :=
  letI : Inhabited V := ⟨0⟩
  do
  let ru ← unifyRows eps s.degU kmInU kmU s.knotsU s.polesUV
  let T ← transposePoles ru.2.2
  let rv ← unifyRows eps s.degV kmInV kmV s.knotsV T
  let M ← transposePoles rv.2.2
  pure (ru.1, rv.1, ⟨M, ru.2.1, rv.2.1, s.degU, s.degV⟩)

/-- First `for_each` of `unify_knots(surfaces_info)`, `gbs/bsstools.h:44-63`: the knots of every other surface are brought to the bounds
`[a, b]`, `[c, d]`, then added to the first one. -/
def unifyAbsorbS (eps a b c d : K) : List (SurfInfo K V) → List (K × ℕ) → List (K × ℕ) → SurfInfo K V →
    R (List (SurfInfo K V) × List (K × ℕ) × List (K × ℕ) × SurfInfo K V)
  | [], kmU, kmV, s0 => pure ([], kmU, kmV, s0)
  | s :: ss, kmU, kmV, s0 => do
    let kU ← changeBoundsK a b s.knotsU
    let kV ← changeBoundsK c d s.knotsV
    let kmsU ← unflatPairs eps kU
    let kmsV ← unflatPairs eps kV
    let t ← unifyUV eps kmsU kmsV kmU kmV s0
    let r ← unifyAbsorbS eps a b c d ss t.1 t.2.1 t.2.2
    pure ({ s with knotsU := kU, knotsV := kV } :: r.1, r.2)

/-- Body of the second `for_each`, `gbs/bsstools.h:69-81`. -/
def unifyApplyS (eps : K) (kmU0 kmV0 : List (K × ℕ)) (s : SurfInfo K V) : R (SurfInfo K V) := do
  let kmU ← unflatPairs eps s.knotsU
  let kmV ← unflatPairs eps s.knotsV
  let r ← unifyUV eps kmU0 kmV0 kmU kmV s
  pure r.2.2

/-- `unify_knots(surfaces_info)`, `gbs/bsstools.h:29-82`; `front()` of an empty vector is undefined behaviour. -/
def unifyKnotsS (eps : K) : List (SurfInfo K V) → R (List (SurfInfo K V))
  | [] => .error .oob
  | s0 :: ss => do
    let lu ← usub s0.knotsU.length 1
    let a ← rd s0.knotsU 0
    let b ← rd s0.knotsU lu
    let lv ← usub s0.knotsV.length 1
    let c ← rd s0.knotsV 0
    let d ← rd s0.knotsV lv
    let kmU0 ← unflatPairs eps s0.knotsU
    let kmV0 ← unflatPairs eps s0.knotsV
    let r ← unifyAbsorbS eps a b c d ss kmU0 kmV0 s0
    let out ← r.1.mapM (unifyApplyS eps r.2.1 r.2.2.1)
    pure (r.2.2.2 :: out)

end Gbs
