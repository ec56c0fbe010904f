import Mathlib.Algebra.Order.Field.Basic
import Mathlib.Algebra.Module.Defs
import Mathlib.Tactic.Linarith
import Mathlib.Tactic.Ring
import Mathlib.Tactic.FieldSimp

/-!
# Outcomes of the modelled C++ code

`R α` is the outcome of a piece of modelled code: a value, or one of the
distinct failures below. Undefined behaviour (out of range access) is never
confused with a value.
-/

namespace Gbs

/-- C++ exceptions thrown by the modelled code. -/
inductive Exc where
  /-- `OutOfBoundsCurveEval`, `OutOfBoundsSurfaceUEval`… (`gbs/exceptions.h`) -/
  | outOfBoundsEval
  /-- `std::length_error` -/
  | length
  /-- `std::invalid_argument` / `std::exception` raised by the constructors -/
  | invalid
  /-- `std::domain_error` -/
  | domain
  /-- `std::out_of_range` -/
  | outOfRange
  /-- `std::runtime_error` -/
  | runtime
  deriving DecidableEq, Repr

/-- Failures of modelled code. -/
inductive Err where
  /-- access outside a container, or unsigned wrap-around used as an index:
  undefined behaviour in C++ -/
  | oob
  /-- floating point division by zero (infinite or NaN result in C++) -/
  | divZero
  /-- signed integer overflow: undefined behaviour in C++ -/
  | overflow
  /-- null pointer dereference: undefined behaviour in C++ -/
  | null
  /-- a C++ exception reaches the caller -/
  | thrown (e : Exc)
  /-- `std::terminate` -/
  | terminated
  /-- a loop that does not end -/
  | noEnd
  deriving DecidableEq, Repr

/-- Outcome of modelled code. -/
abbrev R (α : Type*) := Except Err α

variable {α : Type*}

/-- `v[i]` for reading. -/
def rd (l : List α) (i : ℕ) : R α :=
  match l[i]? with
  | some a => .ok a
  | none => .error .oob

/-- `v[i] = a`. -/
def wr (l : List α) (i : ℕ) (a : α) : R (List α) :=
  if i < l.length then .ok (l.set i a) else .error .oob

/-- `a - b` on `size_t` when the result is used as an index or a size. -/
def usub (a b : ℕ) : R ℕ :=
  if b ≤ a then .ok (a - b) else .error .oob

/-- Floating point division; a zero divisor is a distinct outcome. -/
def fdiv {K : Type*} [Field K] [DecidableEq K] (a b : K) : R K :=
  if b = 0 then .error .divZero else .ok (a / b)

theorem rd_ok {l : List α} {i : ℕ} (h : i < l.length) : rd l i = .ok l[i] := by
  simp [rd, h]

theorem rd_getD {l : List α} {i : ℕ} (d : α) (h : i < l.length) :
    rd l i = .ok (l.getD i d) := by
  simp [rd, h]

theorem rd_oob {l : List α} {i : ℕ} (h : l.length ≤ i) : rd l i = .error .oob := by
  simp [rd, h]

theorem wr_ok {l : List α} {i : ℕ} {a : α} (h : i < l.length) : wr l i a = .ok (l.set i a) := by
  simp [wr, h]

theorem usub_ok {a b : ℕ} (h : b ≤ a) : usub a b = .ok (a - b) := by simp [usub, h]

theorem fdiv_ok {K : Type*} [Field K] [DecidableEq K] {a b : K} (h : b ≠ 0) :
    fdiv a b = .ok (a / b) := by simp [fdiv, h]

@[simp] theorem R_bind_ok {α β : Type} (a : α) (f : α → R β) :
    ((Except.ok a : R α) >>= f) = f a := rfl

@[simp] theorem R_bind_error {α β : Type} (e : Err) (f : α → R β) :
    ((Except.error e : R α) >>= f) = .error e := rfl

@[simp] theorem R_pure {α : Type} (a : α) : (pure a : R α) = .ok a := rfl

end Gbs

namespace Gbs

/-- A counted `for` loop: `body a, body (a+1), …` (`n` iterations). -/
def forN {S : Type} (body : ℕ → S → R S) : ℕ → ℕ → S → R S
  | 0, _, s => .ok s
  | n + 1, a, s => do
      let s ← body a s
      forN body n (a + 1) s

/-- `for (i = a; i < b; ++i)`. -/
def forLt {S : Type} (a b : ℕ) (body : ℕ → S → R S) (s : S) : R S := forN body (b - a) a s

/-- `for (i = a; i <= b; ++i)`. -/
def forLe {S : Type} (a b : ℕ) (body : ℕ → S → R S) (s : S) : R S := forN body (b + 1 - a) a s

theorem rd_eq_ok {α : Type*} {l : List α} {i : ℕ} {v : α} : rd l i = .ok v ↔ l[i]? = some v := by
  unfold rd
  cases h : l[i]? <;> simp

theorem getElem?_set_of_lt {α : Type*} {l : List α} {i : ℕ} {v : α} (h : i < l.length) (x : ℕ) :
    (l.set i v)[x]? = if x = i then some v else l[x]? := by
  rw [List.getElem?_set]
  by_cases hx : i = x
  · subst hx; simp [h]
  · simp [hx, Ne.symm hx]

theorem forN_inv {S : Type} (I : ℕ → S → Prop) {body : ℕ → S → R S} :
    ∀ (n a : ℕ) (s : S), I a s →
      (∀ i s, a ≤ i → i < a + n → I i s → ∃ s', body i s = .ok s' ∧ I (i+1) s') →
      ∃ s', forN body n a s = .ok s' ∧ I (a + n) s' := by
  intro n
  induction n with
  | zero => intro a s h _; exact ⟨s, rfl, h⟩
  | succ n ih =>
    intro a s h hs
    obtain ⟨s1, e1, h1⟩ := hs a s le_rfl (by omega) h
    obtain ⟨s2, e2, h2⟩ := ih (a+1) s1 h1 (fun i s ha hb hi => hs i s (by omega) (by omega) hi)
    refine ⟨s2, ?_, by rwa [show a + (n+1) = a + 1 + n by omega]⟩
    simp only [forN, e1, R_bind_ok, e2]

theorem forLt_inv {S : Type} (I : ℕ → S → Prop) {body : ℕ → S → R S} {a b : ℕ} {s : S}
    (hab : a ≤ b) (h0 : I a s)
    (hs : ∀ i s, a ≤ i → i < b → I i s → ∃ s', body i s = .ok s' ∧ I (i+1) s') :
    ∃ s', forLt a b body s = .ok s' ∧ I b s' := by
  obtain ⟨s', h1, h2⟩ := forN_inv I (b - a) a s h0 (fun i s h1 h2 => hs i s h1 (by omega))
  exact ⟨s', h1, by rwa [show a + (b - a) = b by omega] at h2⟩

theorem forLe_inv {S : Type} (I : ℕ → S → Prop) {body : ℕ → S → R S} {a b : ℕ} {s : S}
    (hab : a ≤ b + 1) (h0 : I a s)
    (hs : ∀ i s, a ≤ i → i ≤ b → I i s → ∃ s', body i s = .ok s' ∧ I (i+1) s') :
    ∃ s', forLe a b body s = .ok s' ∧ I (b+1) s' := by
  obtain ⟨s', h1, h2⟩ := forN_inv I (b + 1 - a) a s h0 (fun i s h1 h2 => hs i s h1 (by omega))
  exact ⟨s', h1, by rwa [show a + (b + 1 - a) = b + 1 by omega] at h2⟩

end Gbs
