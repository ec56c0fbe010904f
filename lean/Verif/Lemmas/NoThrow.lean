import Verif.Model.Curve

/-! # Pieces of code that raise no C++ exception -/

namespace Gbs

set_option linter.unusedSectionVars false

variable {K : Type} [Field K] [LinearOrder K]
variable {V : Type} [AddCommGroup V] [Module K V]

/-- The outcome is not a C++ exception. -/
structure NoThrow {α : Type} (x : R α) : Prop where
  ne : ∀ e, x ≠ .error (.thrown e)

variable {α β S : Type}

theorem NoThrow.ok (a : α) : NoThrow (.ok a) := ⟨by intro e h; cases h⟩
theorem NoThrow.pure (a : α) : NoThrow (Pure.pure a : R α) := ⟨by intro e h; cases h⟩
theorem NoThrow.bind {x : R α} {f : α → R β} (h : NoThrow x) (h2 : ∀ a, NoThrow (f a)) :
    NoThrow (x >>= f) := by
  cases x with
  | error e => refine ⟨?_⟩; intro e' h'; exact h.ne e' (by rw [R_bind_error] at h'; injection h' with h'; rw [h'])
  | ok a => exact h2 a
theorem NoThrow.rd (l : List α) (i : ℕ) : NoThrow (rd l i) := by
  refine ⟨?_⟩; intro e h; unfold Gbs.rd at h; split at h <;> simp at h
theorem NoThrow.wr (l : List α) (i : ℕ) (a : α) : NoThrow (wr l i a) := by
  refine ⟨?_⟩; intro e h; unfold Gbs.wr at h; split at h <;> simp at h
theorem NoThrow.usub (a b : ℕ) : NoThrow (usub a b) := by
  refine ⟨?_⟩; intro e h; unfold Gbs.usub at h; split at h <;> simp at h
theorem NoThrow.fdiv (a b : K) : NoThrow (fdiv a b) := by
  refine ⟨?_⟩; intro e h; unfold Gbs.fdiv at h; split at h <;> simp at h
theorem NoThrow.tget (a b : ℕ) (T : ℕ → ℕ → K) (c d : ℕ) : NoThrow (tget a b T c d) := by
  refine ⟨?_⟩; intro e h; unfold Gbs.tget at h; split at h <;> simp at h
theorem NoThrow.tset (a b : ℕ) (T : ℕ → ℕ → K) (c d : ℕ) (v : K) : NoThrow (tset a b T c d v) := by
  refine ⟨?_⟩; intro e h; unfold Gbs.tset at h; split at h <;> simp at h
theorem NoThrow.forN {body : ℕ → S → R S} (h : ∀ i s, NoThrow (body i s)) :
    ∀ n a s, NoThrow (forN body n a s) := by
  intro n
  induction n with
  | zero => intro a s; exact NoThrow.ok s
  | succ n ih => intro a s; exact NoThrow.bind (h a s) (fun s' => ih _ s')
theorem NoThrow.forLt {body : ℕ → S → R S} (h : ∀ i s, NoThrow (body i s)) (a b : ℕ) (s : S) :
    NoThrow (forLt a b body s) := NoThrow.forN h _ _ _
theorem NoThrow.forLe {body : ℕ → S → R S} (h : ∀ i s, NoThrow (body i s)) (a b : ℕ) (s : S) :
    NoThrow (forLe a b body s) := NoThrow.forN h _ _ _

/-- Closes `NoThrow` goals made of the primitives above. -/
macro "nothrow" : tactic => `(tactic|
  repeat' first
    | assumption
    | exact NoThrow.ok _
    | exact NoThrow.pure _
    | exact NoThrow.rd _ _
    | exact NoThrow.wr _ _ _
    | exact NoThrow.usub _ _
    | exact NoThrow.fdiv _ _
    | exact NoThrow.tget _ _ _ _ _
    | exact NoThrow.tset _ _ _ _ _ _
    | refine NoThrow.forLt ?_ _ _ _
    | refine NoThrow.forLe ?_ _ _ _
    | refine NoThrow.bind ?_ ?_
    | intro _
    | split
    | (simp only []))

theorem findSpanLoop_noThrow (k : List K) (u : K) (low high : ℕ) :
    NoThrow (findSpanLoop k u low high) := by
  fun_induction findSpanLoop k u low high <;> nothrow <;> tauto

theorem findSpan_noThrow (n p : ℕ) (u : K) (k : List K) : NoThrow (findSpan n p u k) := by
  unfold findSpan
  refine NoThrow.bind (NoThrow.rd _ _) ?_
  intro e
  split
  · nothrow
  · exact findSpanLoop_noThrow _ _ _ _

theorem basisFunction_noThrow (eps : K) (k : List K) (u : K) (p : ℕ) :
    ∀ i, NoThrow (basisFunction eps k u p i) := by
  induction p with
  | zero => intro i; unfold basisFunction; nothrow
  | succ p ih =>
    intro i; unfold basisFunction
    have h1 := ih i
    have h2 := ih (i+1)
    nothrow

theorem basisFunctionD_noThrow (eps : K) (k : List K) (u : K) (d : ℕ) :
    ∀ p i, NoThrow (basisFunctionD eps k u p d i) := by
  induction d with
  | zero =>
    intro p i
    have : basisFunctionD eps k u p 0 i = basisFunction eps k u p i := by cases p <;> rfl
    rw [this]; exact basisFunction_noThrow _ _ _ _ _
  | succ d ih =>
    intro p i
    cases p with
    | zero => unfold basisFunctionD; nothrow
    | succ p =>
      unfold basisFunctionD
      have h1 := ih p i
      have h2 := ih p (i+1)
      nothrow

theorem basisFuncs_noThrow (i p : ℕ) (u : K) (k wl wrk N0 : List K) :
    NoThrow (basisFuncs i p u k wl wrk N0) := by
  have h1 : ∀ j r (s : BfState K), NoThrow (bfInner j r s) := by
    intro j r s; unfold bfInner; nothrow
  have h2 : ∀ j (s : BfState K), NoThrow (bfOuter i u k j s) := by
    intro j s; unfold bfOuter
    nothrow
  unfold basisFuncs
  nothrow

theorem dersBasisFuns_noThrow (i p n : ℕ) (u : K) (k : List K) (ndu0 a0 : ℕ → ℕ → K)
    (wl wrk ders0 : List K) : NoThrow (dersBasisFuns i p n u k ndu0 a0 wl wrk ders0) := by
  have h1 : ∀ j r (s : NduState K), NoThrow (nduInner p j r s) := by
    intro j r s; unfold nduInner; nothrow
  have h2 : ∀ j (s : NduState K), NoThrow (nduOuter i p u k j s) := by
    intro j s; unfold nduOuter
    nothrow
  have h3 : ∀ r kk s1 s2 (ndu : ℕ → ℕ → K) j s, NoThrow (dersInner p r kk s1 s2 ndu j s) := by
    intros; unfold dersInner; nothrow
  have h4 : ∀ r kk s1 s2 (ndu a : ℕ → ℕ → K), NoThrow (dersFirst p r kk s1 s2 ndu a) := by
    intros; unfold dersFirst; nothrow
  have h5 : ∀ r kk s1 s2 (ndu : ℕ → ℕ → K) s, NoThrow (dersLast p r kk s1 s2 ndu s) := by
    intros; unfold dersLast; nothrow
  have h6 : ∀ r (ndu : ℕ → ℕ → K) kk s, NoThrow (dersKk p r ndu kk s) := by
    intro r ndu kk s; unfold dersKk
    refine NoThrow.bind (h4 _ _ _ _ _ _) (fun f => NoThrow.bind (NoThrow.forLe (h3 _ _ _ _ _) _ _ _)
      (fun m => NoThrow.bind (h5 _ _ _ _ _ _) (fun l => ?_)))
    nothrow
  have h7 : ∀ (ndu : ℕ → ℕ → K) r s, NoThrow (dersR p n ndu r s) := by
    intro ndu r s; unfold dersR
    refine NoThrow.bind (NoThrow.tset _ _ _ _ _ _) (fun a => NoThrow.bind (NoThrow.forLe (h6 _ _) _ _ _) (fun _ => ?_))
    nothrow
  have h8 : ∀ kk (s : List K × K), NoThrow (dersScale p kk s) := by
    intro kk s; unfold dersScale dersScaleRow; nothrow
  unfold dersBasisFuns
  refine NoThrow.bind (NoThrow.tset _ _ _ _ _ _) (fun a => NoThrow.bind (NoThrow.forLe h2 _ _ _)
    (fun s => NoThrow.bind ?_ (fun d => NoThrow.bind (NoThrow.forLe (h7 _) _ _ _)
      (fun ad => NoThrow.bind (NoThrow.forLe h8 _ _ _) (fun _ => ?_))))) <;> nothrow

theorem basisDers_noThrow (junk : K) (i p d : ℕ) (u : K) (k Nd0 : List K) :
    NoThrow (basisDers junk i p d u k Nd0) := by
  unfold basisDers
  simp only
  split
  · exact basisFuncs_noThrow _ _ _ _ _ _ _
  · refine NoThrow.bind (dersBasisFuns_noThrow _ _ _ _ _ _ _ _ _ _) (fun _ => ?_)
    nothrow

theorem evalValue_noThrow (eps junk u : K) (k : List K) (poles : List V) (p d : ℕ) :
    NoThrow (evalValue eps junk u k poles p d) := by
  unfold evalValue
  split
  · nothrow
  · refine NoThrow.bind (findSpan_noThrow _ _ _ _) (fun i => ?_)
    simp only
    split
    · refine NoThrow.bind (basisDers_noThrow _ _ _ _ _ _ _) (fun _ => ?_)
      nothrow
    · refine NoThrow.forLe (fun i s => NoThrow.bind (basisFunctionD_noThrow _ _ _ _ _ _) ?_) _ _ _
      nothrow

theorem evalDers_noThrow (eps junk u : K) (k : List K) (poles : List V) (p n : ℕ) :
    NoThrow (evalDers eps junk u k poles p n) := by
  have h1 : ∀ i iMin ders kk, NoThrow (evalDersOrder eps u k poles p i iMin ders kk) := by
    intro i iMin ders kk
    unfold evalDersOrder
    split
    · nothrow
    · refine NoThrow.forLe (fun i s => NoThrow.bind (basisFunctionD_noThrow _ _ _ _ _ _) ?_) _ _ _
      nothrow
  unfold evalDers
  refine NoThrow.bind (findSpan_noThrow _ _ _ _) (fun i => ?_)
  have h2 := fun l => NoThrow.forLe (S := List V) (body := fun kk CK => do
    let v ← evalDersOrder eps u k poles p i (if p ≤ i then i - p else 0) l kk
    wr CK kk v) (fun i s => NoThrow.bind (h1 _ _ _ _) (fun _ => NoThrow.wr _ _ _)) 0 (min n p)
      (List.replicate (n + 1) 0)
  simp only
  split
  · exact NoThrow.bind (dersBasisFuns_noThrow _ _ _ _ _ _ _ _ _ _) h2
  · exact NoThrow.bind (NoThrow.pure _) h2

end Gbs
