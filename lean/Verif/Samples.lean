import Verif.Lemmas.EvalAll
import Mathlib.Data.Rat.Defs
import Mathlib.Algebra.Order.Field.Rat
import Mathlib.Algebra.Module.Prod

/-! # Concrete curves used to show that hypotheses are satisfiable -/

namespace Gbs.Sample

/-- A clamped quadratic plane curve with two interior knots. -/
def c : Curve ℚ (ℚ × ℚ) where
  deg := 2
  poles := [(0,0), (1,2), (3,1), (4,-1), (6,0)]
  knots := [0,0,0,1,2,3,3,3]
  b0 := 0
  b1 := 3

theorem c_wf : Wf c.deg c.knots c.poles where
  sorted := by decide +kernel
  len := rfl
  min := by decide
  first := by decide +kernel
  last := by decide +kernel

/-- Constant knots beyond the end: the values to check are finitely many. -/
theorem kf_cases {U : List ℚ} (n : ℕ) (hn : U.length = n + 1) (i : ℕ) :
    ∃ j, j ≤ n ∧ kf U i = kf U j := by
  rcases Nat.lt_or_ge i (n+1) with h | h
  · exact ⟨i, by omega, rfl⟩
  · refine ⟨n, le_rfl, ?_⟩
    rw [kf_of_ge (by omega), ← kf_of_ge (U := U) (i := U.length) le_rfl]
    apply le_antisymm
    · have : kf U U.length = kf U n := by
        rw [kf_of_ge le_rfl, kf_of_lt (by omega)]
        have hne : U ≠ [] := by intro h0; simp [h0] at hn
        rw [List.getLastD_eq_getLast?, List.getLast?_eq_some_getLast hne, Option.getD_some,
          List.getLast_eq_getElem]
        congr 1
        omega
      exact this.le
    · have : kf U U.length = kf U n := by
        rw [kf_of_ge le_rfl, kf_of_lt (by omega)]
        have hne : U ≠ [] := by intro h0; simp [h0] at hn
        rw [List.getLastD_eq_getLast?, List.getLast?_eq_some_getLast hne, Option.getD_some,
          List.getLast_eq_getElem]
        congr 1
        omega
      exact this.ge

theorem c_sep : Sep (1/1000000 : ℚ) c.knots := by
  intro i j h
  obtain ⟨a, ha, ea⟩ := kf_cases (U := c.knots) 7 rfl i
  obtain ⟨b, hb, eb⟩ := kf_cases (U := c.knots) 7 rfl j
  rw [ea, eb] at h ⊢
  have : ∀ a, a ≤ 7 → ∀ b, b ≤ 7 → kf c.knots a < kf c.knots b →
      (1/1000000 : ℚ) < kf c.knots b - kf c.knots a := by decide +kernel
  exact this a ha b hb h

end Gbs.Sample
