import Verif.Model.Surface
import Verif.Model.Degree

/-!
# Model of the degree elevation of surfaces (`gbs/bssurf.h`)
-/

namespace Gbs

variable {K : Type} [Field K] [LinearOrder K]
variable {V : Type} [AddCommGroup V] [Module K V]

/-- `increaseDegreeU`, `gbs/bssurf.h:865-891`: each row is elevated with the knots the surface had on entry, the new knots are those of
the first row, the bounds are kept. -/
def Surface.increaseDegreeU (eps : K) (s : Surface K V) : R (Surface K V) := do
  let nv ← s.nV
  let nu ← s.nU
  let r ← forLt 0 nv (fun i (st : List K × List V) =>
    if s.poles.length < i * nu + nu then .error .oob
    else do
      let t ← increaseDegree eps s.knotsU ((s.poles.drop (i * nu)).take nu) s.degU 1
      pure (if i = 0 then t.1 else st.1, st.2 ++ t.2)) ([], [])
  pure { s with knotsU := r.1, poles := r.2, degU := s.degU + 1 }

/-- `increaseDegreeV`, `gbs/bssurf.h:898-903`. -/
def Surface.increaseDegreeV (eps : K) (s : Surface K V) : R (Surface K V) := do
  let s ← s.invertUV
  let s ← s.increaseDegreeU eps
  s.invertUV

end Gbs
