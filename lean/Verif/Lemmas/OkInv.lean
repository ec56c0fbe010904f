import Verif.Model.Rational

/-! # Inversion of successful computations -/

namespace Gbs

theorem R_bind_eq_ok {α β : Type} {x : R α} {f : α → R β} {b : β} : (x >>= f) = .ok b ↔ ∃ a, x = .ok a ∧ f a = .ok b := by
  cases x with
  | error e => simp [bind, Except.bind]
  | ok a => simp [bind, Except.bind]

theorem usub_eq_ok {a b c : ℕ} : usub a b = .ok c ↔ b ≤ a ∧ c = a - b := by
  unfold usub
  split <;> simp_all [eq_comm]

theorem wr_eq_ok {α : Type} {l l' : List α} {i : ℕ} {a : α} : wr l i a = .ok l' ↔ i < l.length ∧ l' = l.set i a := by
  unfold wr
  split <;> simp_all [eq_comm]

theorem R_pure_eq_ok {α : Type} {a b : α} : (pure a : R α) = .ok b ↔ a = b := by
  simp [pure, Except.pure]

/-- What the body of a loop preserves whenever it succeeds is preserved by the loop. -/
theorem forN_ok {S : Type} {body : ℕ → S → R S} (I : S → Prop) (hb : ∀ i s s', body i s = .ok s' → I s → I s') :
    ∀ n a s s', forN body n a s = .ok s' → I s → I s' := by
  intro n
  induction n with
  | zero => intro a s s' h hI; cases h; exact hI
  | succ n ih =>
    intro a s s' h hI
    rw [forN] at h
    obtain ⟨s1, h1, h2⟩ := R_bind_eq_ok.mp h
    exact ih _ _ _ h2 (hb _ _ _ h1 hI)

theorem forLt_ok {S : Type} {body : ℕ → S → R S} (I : S → Prop) (hb : ∀ i s s', body i s = .ok s' → I s → I s')
    {a b : ℕ} {s s' : S} (h : forLt a b body s = .ok s') (hI : I s) : I s' :=
  forN_ok I hb _ _ _ _ h hI

end Gbs
