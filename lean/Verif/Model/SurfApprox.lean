import Verif.Model.Approx
import Verif.Model.SurfInterp

/-!
# Model of the least-squares approximation by surfaces, `gbs/bssapprox.h`

The factorizations of Eigen are parameters: `dense n A B` is the solution of a square system, `lsq m n N B` the least-squares solution of a
system of `m` equations for `n` unknowns. Coordinates are solved one by one in the code; here the right-hand sides are points of `V`.
A number of poles that would wrap around is an error. The product of the numbers of poles does not wrap around.
-/

namespace Gbs

open scoped BigOperators

variable {K : Type} [Field K] [LinearOrder K]
variable {V : Type} [AddCommGroup V] [Module K V]

/-- `check_approx_sizes_surf`, `gbs/bssapprox.h:17-34`. -/
def checkApproxSizesSurf (n p m q nc : ℕ) : R Unit :=
  if n < p + 1 ∨ m < q + 1 then .error (.thrown .length)
  else if nc < n * m then .error (.thrown .length)
  else pure ()

/-- `Muᵀ Q Mv` for a `nu × nv` matrix `Q`; entry `(i, j)` of the `n × m` result is at `i + n * j`. -/
def normalGridRhs (nu nv n m : ℕ) (Mu Mv : ℕ → ℕ → K) (Q : List V) : List V :=
  (List.range (n * m)).map fun c =>
    ∑ s ∈ Finset.range nv, Mv s (c / n) • ∑ r ∈ Finset.range nu, Mu r (c % n) • Q.getD (r + nu * s) 0

/-- `approx` for a grid of points, `gbs/bssapprox.h:35-86`. -/
def approxGrid (eps junk : K) (dense : ℕ → (ℕ → ℕ → K) → List V → R (List V)) (Q : List V) (ku kv u v : List K) (p q : ℕ) :
    R (List V) := do
  let n ← usub ku.length (p + 1)
  let m ← usub kv.length (q + 1)
  checkApproxSizesSurf n p m q Q.length
  let Mu ← fillMatrix eps junk ku p n (u.map fun x => (⟨x, 0, 0⟩ : Constr K K))
  let Mv ← fillMatrix eps junk kv q m (v.map fun x => (⟨x, 0, 0⟩ : Constr K K))
  let Qd ← forLt 0 v.length (fun iv Qd => forLt 0 u.length (fun iu Qd => do
    let x ← rd Q (iu + u.length * iv)
    pure (Qd ++ [x])) Qd) []
  tensorSolve dense n m (normalMatrix u.length Mu) (normalMatrix v.length Mv) (normalGridRhs u.length v.length n m Mu Mv Qd)

/-- `approx` for constraints, `gbs/bssapprox.h:88-157`. -/
def approxSurfConstr (eps junk : K) (lsq : ℕ → ℕ → (ℕ → ℕ → K) → List V → R (List V)) (cs : List (SConstr K V)) (ku kv : List K)
    (p q : ℕ) : R (Surface K V) := do
  let n ← usub ku.length (p + 1)
  let m ← usub kv.length (q + 1)
  checkApproxSizesSurf n p m q cs.length
  let N ← surfConstrMatrix eps junk ku kv p q n m (n * m) cs
  let X ← lsq cs.length (n * m) N (cs.map SConstr.x)
  let P ← forLt 0 (n * m) (fun i P => do
    let x ← rd X i
    wr P i x) (List.replicate (n * m) 0)
  Surface.mk? eps P ku kv p q

end Gbs
