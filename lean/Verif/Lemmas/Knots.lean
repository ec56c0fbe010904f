import Verif.Model.Basic
import Verif.Lemmas.LocalBasis

/-! # Knot lists as knot sequences -/

namespace Gbs

set_option linter.unusedSectionVars false

variable {K : Type} [Field K] [LinearOrder K] [IsStrictOrderedRing K]

/-- The knot sequence of a flat knot vector, continued by its last value. -/
def kf (U : List K) (i : ℕ) : K := (U[i]?).getD (U.getLastD 0)

theorem kf_of_lt {U : List K} {i : ℕ} (h : i < U.length) : kf U i = U[i] := by
  simp [kf, h]

theorem kf_of_ge {U : List K} {i : ℕ} (h : U.length ≤ i) : kf U i = U.getLastD 0 := by
  simp [kf, h]

theorem kf_getElem? {U : List K} {i : ℕ} (h : i < U.length) : U[i]? = some (kf U i) := by
  simp [kf, h]

theorem rd_kf {U : List K} {i : ℕ} (h : i < U.length) : rd U i = .ok (kf U i) :=
  rd_eq_ok.mpr (kf_getElem? h)

theorem kf_mono {U : List K} (h : U.Pairwise (· ≤ ·)) : Monotone (kf U) := by
  intro i j hij
  rcases Nat.lt_or_ge j U.length with hj | hj
  · rw [kf_of_lt hj, kf_of_lt (by omega)]
    rcases Nat.lt_or_ge i j with h' | h'
    · exact List.pairwise_iff_getElem.mp h i j _ _ h'
    · have : i = j := by omega
      subst this; exact le_rfl
  · rw [kf_of_ge hj]
    rcases Nat.lt_or_ge i U.length with hi | hi
    · rw [kf_of_lt hi]
      have hne : U ≠ [] := by intro h0; simp [h0] at hi
      rw [List.getLastD_eq_getLast?, List.getLast?_eq_some_getLast hne, Option.getD_some,
        List.getLast_eq_getElem]
      rcases Nat.lt_or_ge i (U.length - 1) with h' | h'
      · exact List.pairwise_iff_getElem.mp h i _ _ _ h'
      · have : i = U.length - 1 := by omega
        subst this; exact le_rfl
    · rw [kf_of_ge hi]

end Gbs
