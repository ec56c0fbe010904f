import Verif.Model.Curve
import Mathlib.Algebra.Module.LinearMap.Defs

/-! # Evaluation commutes with linear maps of the poles, for every input -/

namespace Gbs

set_option linter.unusedSectionVars false

variable {K : Type} [Field K] [LinearOrder K]
variable {V W : Type} [AddCommGroup V] [Module K V] [AddCommGroup W] [Module K W]

/-- Apply a function to the result of a piece of code. -/
def rmap {α β : Type} (f : α → β) : R α → R β
  | .ok a => .ok (f a)
  | .error e => .error e

@[simp] theorem rmap_ok {α β : Type} (f : α → β) (a : α) : rmap f (.ok a) = .ok (f a) := rfl
@[simp] theorem rmap_error {α β : Type} (f : α → β) (e : Err) : rmap f (.error e) = .error e := rfl

theorem rmap_bind {α β γ : Type} (f : β → γ) (x : R α) (g : α → R β) :
    rmap f (x >>= g) = x >>= fun a => rmap f (g a) := by cases x <;> rfl

theorem rd_map {α β : Type} (f : α → β) (l : List α) (i : ℕ) : rd (l.map f) i = rmap f (rd l i) := by
  unfold rd
  rw [List.getElem?_map]
  cases l[i]? <;> rfl

theorem wr_map {α β : Type} (f : α → β) (l : List α) (i : ℕ) (a : α) :
    wr (l.map f) i (f a) = rmap (List.map f) (wr l i a) := by
  unfold wr
  rw [List.length_map]
  split
  · rw [rmap_ok, List.map_set]
  · rfl

theorem forN_map {S S' : Type} (f : S → S') {body : ℕ → S → R S} {body' : ℕ → S' → R S'}
    (h : ∀ i s, body' i (f s) = rmap f (body i s)) :
    ∀ n a s, forN body' n a (f s) = rmap f (forN body n a s) := by
  intro n
  induction n with
  | zero => intro a s; rfl
  | succ n ih =>
    intro a s
    simp only [forN, h]
    cases body a s with
    | error e => rfl
    | ok s' => exact ih _ _

theorem forLe_map {S S' : Type} (f : S → S') {body : ℕ → S → R S} {body' : ℕ → S' → R S'}
    (h : ∀ i s, body' i (f s) = rmap f (body i s)) (a b : ℕ) (s : S) :
    forLe a b body' (f s) = rmap f (forLe a b body s) := forN_map f h _ _ _

theorem addTerm_map (f : V →ₗ[K] W) (P : List V) (x : R K) (j : ℕ) (pt : V) :
    (do let N ← x; let pole ← rd (P.map f) j; pure (f pt + N • pole) : R W) =
      rmap f (do let N ← x; let pole ← rd P j; pure (pt + N • pole)) := by
  cases x with
  | error e => rfl
  | ok N =>
    rw [R_bind_ok, R_bind_ok, rd_map]
    cases rd P j with
    | error e => rfl
    | ok v => simp

theorem evalValue_map (f : V →ₗ[K] W) (eps junk u : K) (k : List K) (P : List V) (p d : ℕ) :
    evalValue eps junk u k (P.map f) p d = rmap f (evalValue eps junk u k P p d) := by
  unfold evalValue
  rw [List.length_map]
  split
  · simp
  cases findSpan P.length p u k with
  | error e => rfl
  | ok i =>
    simp only [R_bind_ok]
    split
    · cases basisDers junk i p d u k (List.replicate (stackMaxDegree + 1) junk) with
      | error e => rfl
      | ok Nd =>
        simp only [R_bind_ok]
        rw [← forLe_map (f := f) (s := 0) (body' := fun r pt => do
          let N ← rd Nd r
          let pole ← rd (P.map f) ((if p ≤ i then i - p else 0) + r)
          pure (pt + N • pole)), map_zero]
        intro r s
        exact addTerm_map f P _ _ _
    · rw [← forLe_map (f := f) (s := 0) (body' := fun ip pt => do
        let N ← basisFunctionD eps k u p d ip
        let pole ← rd (P.map f) ip
        pure (pt + N • pole)), map_zero]
      intro r s
      exact addTerm_map f P _ _ _

theorem evalDersOrder_map (f : V →ₗ[K] W) (eps u : K) (k : List K) (P : List V) (p i iMin : ℕ)
    (ders : List K) (kk : ℕ) :
    evalDersOrder eps u k (P.map f) p i iMin ders kk = rmap f (evalDersOrder eps u k P p i iMin ders kk) := by
  unfold evalDersOrder
  split
  · rw [← forLe_map (f := f) (s := 0) (body' := fun r pt => do
      let N ← rd ders (kk * (p + 1) + r)
      let pole ← rd (P.map f) (iMin + r)
      pure (pt + N • pole)), map_zero]
    intro r s
    exact addTerm_map f P _ _ _
  · rw [← forLe_map (f := f) (s := 0) (body' := fun ip pt => do
        let N ← basisFunctionD eps k u p kk ip
        let pole ← rd (P.map f) ip
        pure (pt + N • pole)), map_zero]
    intro r s
    exact addTerm_map f P _ _ _

theorem evalDers_map (f : V →ₗ[K] W) (eps junk u : K) (k : List K) (P : List V) (p n : ℕ) :
    evalDers eps junk u k (P.map f) p n = rmap (List.map f) (evalDers eps junk u k P p n) := by
  have key : ∀ i iMin ders,
      forLe 0 (min n p) (fun kk CK => do
        let v ← evalDersOrder eps u k (P.map f) p i iMin ders kk
        wr CK kk v) (List.replicate (n + 1) (0 : W)) =
      rmap (List.map f) (forLe 0 (min n p) (fun kk CK => do
        let v ← evalDersOrder eps u k P p i iMin ders kk
        wr CK kk v) (List.replicate (n + 1) (0 : V))) := by
    intro i iMin ders
    rw [← forLe_map (f := List.map f) (body' := fun kk CK => do
      let v ← evalDersOrder eps u k (P.map f) p i iMin ders kk
      wr CK kk v), List.map_replicate, map_zero]
    intro kk CK
    rw [evalDersOrder_map]
    cases evalDersOrder eps u k P p i iMin ders kk with
    | error e => rfl
    | ok v => exact wr_map f CK kk v
  unfold evalDers
  rw [List.length_map]
  cases findSpan P.length p u k with
  | error e => rfl
  | ok i =>
    simp only [R_bind_ok]
    split
    · rw [rmap_bind]
      congr 1
      funext ders
      exact key _ _ _
    · simp only [R_pure, R_bind_ok]
      exact key _ _ _

end Gbs
