import Verif.Model.Parallel
import Verif.Model.Surface

/-! # Evaluations on lists of parameters -/

namespace Gbs

variable {α β γ : Type}

/-- Serial `std::transform` of two ranges: the second one is read as far as the first one goes. -/
def serialTransform2 (f : α → β → Except Exc γ) : List α → List β → R (List γ)
  | [], _ => .ok []
  | _ :: _, [] => .error .oob
  | a :: l, b :: m =>
    match f a b with
    | .error e => .error (.thrown e)
    | .ok c => do
      let r ← serialTransform2 f l m
      pure (c :: r)

/-- `transform_threshold` of two ranges into a buffer of the size of the first one, `gbs/execution.h:77-83`. In parallel all the elements are read,
in any order. `none`: the region has not ended. -/
def transformThreshold2 (minSize : ℕ) (dflt : γ) (f : α → β → Except Exc γ) (us : List α) (vs : List β) (sched : List ℕ) : Option (R (List γ)) :=
  if minSize ≤ us.length then
    if vs.length < us.length then some (.error .oob)
    else transformThreshold minSize dflt (fun x : α × β => f x.1 x.2) (us.zip vs) sched
  else some (serialTransform2 f us vs)

/-- The outcome of one element: a value or an exception. An undefined behaviour in one element is one of the whole program and is left out. -/
def outcome : R γ → Except Exc γ
  | .ok x => .ok x
  | .error (.thrown e) => .error e
  | .error _ => .error .runtime

variable {K : Type} [Field K] [LinearOrder K] [IsStrictOrderedRing K]
variable {V : Type} [AddCommGroup V] [Module K V]

/-- `Surface::values(uv_lst)`, `gbs/bssurf.h:135-145`, of a non rational surface. -/
def Surface.valuesAt (minSize : ℕ) (eps junk : K) (s : Surface K V) (uv : List (K × K)) (du dv : ℕ) (sched : List ℕ) : Option (R (List V)) :=
  transformThreshold minSize 0 (fun x => outcome (s.value eps junk x.1 x.2 du dv)) uv sched

/-- `Surface::values(u_lst,v_lst)`, `gbs/bssurf.h:165-177`, of a non rational surface; the `assert` on the sizes is compiled out. -/
def Surface.values (minSize : ℕ) (eps junk : K) (s : Surface K V) (us vs : List K) (du dv : ℕ) (sched : List ℕ) : Option (R (List V)) :=
  transformThreshold2 minSize 0 (fun u v => outcome (s.value eps junk u v du dv)) us vs sched

end Gbs
