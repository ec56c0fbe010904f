import Verif.Model.Interp

/-!
# Model of the poles of several columns of constraints computed together, `gbs/bscinterp.h:402-447`

The factorization is that of `build_poles` for one column. The right-hand sides are points of `V` as in `Model/Interp.lean`; the sparse solver solves them
one by one.
-/

namespace Gbs

variable {K : Type} [Field K] [LinearOrder K]
variable {V : Type} [AddCommGroup V] [Module K V]

/-- One block of columns of the right-hand side, `gbs/bscinterp.h:431-436`; `m` is the number of points of the first column. -/
def batchRhs (nc m : ℕ) (Q : List (List V)) : R (List V) :=
  forLt 0 m (fun i B => forLt 0 nc (fun d B => do
    let q ← rd Q i
    let v ← rd q d
    wr B (nc * i + d) v) B) (List.replicate (m * nc) 0)

/-- `build_poles` for several columns, `gbs/bscinterp.h:411-447`. -/
def buildPolesBatch (eps meps growth junk : K) (x0 : V) (sparse : ℕ → List (ℕ × ℕ × K) → List V → R (List V)) (nc : ℕ) (Qs : List (List (List V)))
    (k u : List K) (deg : ℕ) : R (List V) :=
  match Qs with
  | [] => pure []
  | q0 :: _ => do
    let n := q0.length * nc
    let f ← assembleAndFactorize meps growth junk k u deg nc n
    let T ← match f with
      | some _ => pure []
      | none => assembleSparse eps junk k u deg nc
    let Bs ← Qs.mapM (batchRhs nc q0.length)
    let Xs ← match f with
      | some (kl, ku, M) => Bs.mapM fun B => bandSolve n kl ku M B (List.replicate n x0)
      | none => Bs.mapM fun B => sparse n T B
    pure Xs.flatten

end Gbs
