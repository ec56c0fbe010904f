import Verif.Model.Basis
import Verif.Lemmas.Knots

namespace Gbs

set_option linter.unusedSectionVars false

variable {K : Type} [Field K] [LinearOrder K] [IsStrictOrderedRing K]

theorem findSpanLoop_spec (U : List K) (u : K) : ∀ (m low high : ℕ), high - low = m → low < high →
    high < U.length → kf U low ≤ u → u < kf U high →
    ∃ i, findSpanLoop U u low high = .ok i ∧ low ≤ i ∧ i < high ∧ kf U i ≤ u ∧ u < kf U (i+1) := by
  intro m
  induction m using Nat.strong_induction_on with
  | _ m ih =>
    intro low high hm hlt hlen h1 h2
    rw [findSpanLoop]
    rw [rd_kf (by omega), R_bind_ok]
    split
    · rename_i hu
      by_cases hmid : (low + (low+high)/2)/2 = (low+high)/2
      · exfalso
        have : (low+high)/2 = low := by omega
        rw [this] at hu
        exact absurd hu (not_lt.mpr h1)
      · rw [dif_neg hmid]
        obtain ⟨i, e, a1, a2, a3⟩ := ih ((low+high)/2 - low) (by omega) low ((low+high)/2) rfl
          (by omega) (by omega) h1 hu
        exact ⟨i, e, a1, by omega, a3⟩
    · rename_i hu
      push Not at hu
      rw [rd_kf (by omega), R_bind_ok]
      split
      · rename_i hv
        by_cases hmid : ((low+high)/2 + high)/2 = (low+high)/2
        · exfalso
          have : (low+high)/2 + 1 = high := by omega
          rw [this] at hv
          exact absurd h2 (not_lt.mpr hv)
        · rw [dif_neg hmid]
          obtain ⟨i, e, a1, a2, a3⟩ := ih (high - (low+high)/2) (by omega) ((low+high)/2) high rfl
            (by omega) (by omega) hu h2
          exact ⟨i, e, by omega, a2, a3⟩
      · rename_i hv
        push Not at hv
        exact ⟨_, rfl, by omega, by omega, hu, hv⟩

theorem findSpanLoop_below (U : List K) (u : K) (hU : Monotone (kf U)) :
    ∀ (m low high : ℕ), high - low = m → low ≤ high →
    high < U.length → u < kf U low → findSpanLoop U u low high = .ok low := by
  intro m
  induction m using Nat.strong_induction_on with
  | _ m ih =>
    intro low high hm hlt hlen h1
    rw [findSpanLoop]
    rw [rd_kf (by omega), R_bind_ok]
    have hu : u < kf U ((low+high)/2) := lt_of_lt_of_le h1 (hU (by omega))
    rw [if_pos hu]
    by_cases hmid : (low + (low+high)/2)/2 = (low+high)/2
    · rw [dif_pos hmid]
      have : (low+high)/2 = low := by omega
      rw [this]; rfl
    · rw [dif_neg hmid]
      exact ih ((low+high)/2 - low) (by omega) low ((low+high)/2) rfl (by omega) (by omega) h1

/-- The index computed by `findSpan`, as a specification. -/
theorem findSpan_spec {U : List K} (hU : U.Pairwise (· ≤ ·)) {n p : ℕ} (hp : p < n)
    (hlen : n < U.length) (u : K) :
    ∃ i, findSpan n p u U = .ok i ∧ p ≤ i ∧ i < n ∧
      (kf U n ≤ u → i = n - 1) ∧
      (u < kf U n → kf U p ≤ u → kf U i ≤ u ∧ u < kf U (i+1)) ∧
      (u < kf U p → i = p) := by
  have hm := kf_mono hU
  have en : (if 0 < n then n - 1 else 0) = n - 1 := by split <;> omega
  have hn1 : n - 1 + 1 = n := by omega
  simp only [findSpan, en, hn1]
  rw [rd_kf hlen, R_bind_ok]
  by_cases h : kf U n ≤ u
  · rw [if_pos h]
    refine ⟨n-1, rfl, by omega, by omega, fun _ => rfl, fun h' => absurd h (not_le.mpr h'), ?_⟩
    intro h'
    exact absurd (lt_of_lt_of_le h' (hm hp.le)) (not_lt.mpr h)
  · rw [if_neg h]
    push Not at h
    by_cases h1 : kf U p ≤ u
    · obtain ⟨i, e, a1, a2, a3⟩ := findSpanLoop_spec U u _ p n rfl hp hlen h1 h
      exact ⟨i, e, a1, a2, fun h' => absurd h (not_lt.mpr h'), fun _ _ => a3,
        fun h' => absurd h1 (not_le.mpr h')⟩
    · push Not at h1
      refine ⟨p, findSpanLoop_below U u hm _ p n rfl hp.le hlen h1, le_rfl, hp,
        fun h' => absurd h (not_lt.mpr h'), fun _ h' => absurd h1 (not_lt.mpr h'), fun _ => rfl⟩

end Gbs
