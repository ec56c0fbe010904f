import Verif.Lemmas.Eval

/-! # The recursive basis functions of the code -/

namespace Gbs

set_option linter.unusedSectionVars false

open Polynomial

variable {K : Type} [Field K] [LinearOrder K] [IsStrictOrderedRing K]
variable {V : Type} [AddCommGroup V] [Module K V]

/-- Distinct knots differ by more than the tolerance. -/
def Sep (eps : K) (U : List K) : Prop := ∀ i j, kf U i < kf U j → eps < kf U j - kf U i

/-- The last knot. -/
def kLast (U : List K) : K := kf U (U.length - 1)

theorem kf_le_kLast {U : List K} (hU : U.Pairwise (· ≤ ·)) (i : ℕ) : kf U i ≤ kLast U := by
  unfold kLast
  rcases Nat.lt_or_ge i U.length with h | h
  · exact kf_mono hU (by omega)
  · rcases Nat.eq_zero_or_pos U.length with h0 | h0
    · have : U = [] := List.length_eq_zero_iff.mp h0
      subst this; simp [kf]
    · rw [kf_of_ge h, ← kf_of_ge (U := U) (i := U.length) le_rfl]
      rw [kf_of_ge le_rfl, kf_of_lt (by omega : U.length - 1 < U.length)]
      have hne : U ≠ [] := by intro h0'; simp [h0'] at h0
      rw [List.getLastD_eq_getLast?, List.getLast?_eq_some_getLast hne, Option.getD_some,
        List.getLast_eq_getElem]

/-- `u` is a parameter of the span `k` for the recursive functions: a regular half-open
membership, or within the tolerance of the last knot for the last span. -/
structure RecSpan (eps : K) (U : List K) (k : ℕ) (u : K) : Prop where
  ne : kf U k < kf U (k+1)
  mem : (kf U k ≤ u ∧ u < kf U (k+1)) ∨ (kf U (k+1) = kLast U ∧ |u - kLast U| < eps)

theorem basisFunction_zero {eps : K} {U : List K} (hU : U.Pairwise (· ≤ ·))
    (hs : Sep eps U) {u : K} {k : ℕ} (hk : RecSpan eps U k u) {i : ℕ} (hi : i + 1 < U.length)
    (hne : kf U i < kf U (i+1)) :
    basisFunction eps U u 0 i = .ok (B (kf U) k 0 i u) := by
  have hm := kf_mono hU
  simp only [basisFunction]
  rw [usub_ok (by omega), R_bind_ok, rd_kf (by omega), R_bind_ok, rd_kf (by omega), R_bind_ok,
    rd_kf (by omega), R_bind_ok]
  change Except.ok _ = _
  simp only [B]
  change Except.ok (if (kf U i ≤ u ∧ u < kf U (i+1)) ∨ (|kf U (i+1) - kLast U| < eps ∧ |u - kLast U| < eps) then (1:K) else 0) = _
  have hsep := hs i (i+1) hne
  have hksep := hs k (k+1) hk.ne
  have hlast : ∀ j, |kf U j - kLast U| < eps → kf U j = kLast U := by
    intro j hj
    rcases lt_or_eq_of_le (kf_le_kLast hU j) with h | h
    · have := hs j (U.length - 1) h
      rw [abs_sub_comm] at hj
      have := lt_of_le_of_lt (le_abs_self _) hj
      unfold kLast at this
      linarith
    · exact h
  congr 1
  by_cases hik : i = k
  · subst hik
    rw [if_pos rfl, if_pos]
    rcases hk.mem with h | ⟨h1, h2⟩
    · exact Or.inl h
    · refine Or.inr ⟨?_, h2⟩
      rw [h1, sub_self, abs_zero]
      exact lt_of_le_of_lt (abs_nonneg _) h2
  · rw [if_neg hik, if_neg]
    rintro (⟨h1, h2⟩ | ⟨h1, h2⟩)
    · rcases hk.mem with ⟨h3, h4⟩ | ⟨h3, h4⟩
      · rcases Nat.lt_or_gt_of_ne hik with h | h
        · have := hm (show i + 1 ≤ k by omega); linarith
        · have := hm (show k + 1 ≤ i by omega); linarith
      · rcases Nat.lt_or_gt_of_ne hik with h | h
        · have := hm (show i + 1 ≤ k by omega)
          rw [abs_lt] at h4
          rw [h3] at hksep
          linarith
        · have := hm (show k + 1 ≤ i by omega)
          have := kf_le_kLast hU (i+1)
          linarith
    · have e1 := hlast _ h1
      have hk1 : kf U (k+1) = kLast U := by
        rcases hk.mem with ⟨h3, h4⟩ | ⟨h3, _⟩
        · rcases lt_or_eq_of_le (kf_le_kLast hU (k+1)) with h | h
          · have := hs (k+1) (U.length - 1) h
            rw [abs_lt] at h2
            unfold kLast at h2
            linarith
          · exact h
        · exact h3
      rcases Nat.lt_or_gt_of_ne hik with h | h
      · have := hm (show i + 1 ≤ k by omega)
        have := kf_le_kLast hU k
        have := hk.ne
        linarith
      · have := hm (show k + 1 ≤ i by omega)
        have := kf_le_kLast hU (i+1)
        linarith

theorem basisFunction_spec {eps : K} (heps : 0 < eps) {U : List K} (hU : U.Pairwise (· ≤ ·))
    (hs : Sep eps U) {u : K} {k : ℕ} (hk : RecSpan eps U k u) (p : ℕ) :
    ∀ i, i + p + 1 < U.length → (1 ≤ p ∨ kf U i < kf U (i+p+1)) →
    basisFunction eps U u p i = .ok (B (kf U) k p i u) := by
  have hm := kf_mono hU
  induction p with
  | zero =>
    intro i hi hne
    exact basisFunction_zero hU hs hk hi (by simpa using hne)
  | succ p ih =>
    intro i hi _
    simp only [basisFunction]
    rw [rd_kf (by omega), R_bind_ok, rd_kf (by omega), R_bind_ok, rd_kf (by omega), R_bind_ok,
      rd_kf (by omega), R_bind_ok]
    have w : ∀ a b, a ≤ b → kf U b - kf U a = 0 ∨ (eps < kf U b - kf U a ∧ kf U a < kf U b) := by
      intro a b hab
      rcases lt_or_eq_of_le (hm hab) with h | h
      · exact Or.inr ⟨hs a b h, h⟩
      · left; rw [h]; ring
    have c1 : ∀ (rest : K → R K), ((if eps < kf U (i+(p+1)) - kf U i then (do
          let q ← fdiv (u - kf U i) (kf U (i+(p+1)) - kf U i)
          let b ← basisFunction eps U u p i
          let c ← pure (q * b)
          rest c) else (do
            let c ← pure (kf U (i+(p+1)) - kf U i)
            rest c) : R K)) =
        rest ((u - kf U i) / (kf U (i + p + 1) - kf U i) * B (kf U) k p i u) := by
      intro rest
      rcases w i (i+(p+1)) (by omega) with h | ⟨h, hlt⟩
      · rw [show i + p + 1 = i + (p+1) by omega, h, if_neg (by linarith)]; simp
      · rw [if_pos h, fdiv_ok (by linarith), R_bind_ok, ih i (by omega) (Or.inr hlt)]
        rfl
    have c2 : ∀ (rest : K → R K), ((if eps < kf U (i+(p+2)) - kf U (i+1) then (do
          let q ← fdiv (kf U (i+(p+2)) - u) (kf U (i+(p+2)) - kf U (i+1))
          let b ← basisFunction eps U u p (i+1)
          let c ← pure (q * b)
          rest c) else (do
            let c ← pure (kf U (i+(p+2)) - kf U (i+1))
            rest c) : R K)) =
        rest ((kf U (i + p + 2) - u) / (kf U (i + p + 2) - kf U (i+1)) * B (kf U) k p (i+1) u) := by
      intro rest
      rcases w (i+1) (i+(p+2)) (by omega) with h | ⟨h, hlt⟩
      · rw [show i + p + 2 = i + (p+2) by omega, h, if_neg (by linarith)]; simp
      · rw [if_pos h, fdiv_ok (by linarith), R_bind_ok,
          ih (i+1) (by omega) (Or.inr (by rw [show i + 1 + p + 1 = i + (p+2) by omega]; exact hlt))]
        rfl
    refine (c1 _).trans ((c2 _).trans ?_)
    rfl

theorem basisFunctionD_spec {eps : K} (heps : 0 < eps) {U : List K} (hU : U.Pairwise (· ≤ ·))
    (hs : Sep eps U) {u : K} {k : ℕ} (hk : RecSpan eps U k u) (d : ℕ) :
    ∀ p i, i + p + 1 < U.length → (1 ≤ p ∨ kf U i < kf U (i+p+1)) →
    basisFunctionD eps U u p d i = .ok ((derivative^[d] (Bp (kf U) k p i)).eval u) := by
  have hm := kf_mono hU
  induction d with
  | zero =>
    intro p i hi hne
    have : basisFunctionD eps U u p 0 i = basisFunction eps U u p i := by
      cases p <;> rfl
    rw [this, basisFunction_spec heps hU hs hk p i hi hne]
    simp [Bp_eval]
  | succ d ih =>
    intro p i hi hne
    by_cases hdp : p < d + 1
    · rw [iterate_derivative_eq_zero (lt_of_le_of_lt (Bp_natDegree (kf U) k p i) hdp)]
      cases p with
      | zero => simp [basisFunctionD]
      | succ p => simp [basisFunctionD, hdp]
    · obtain ⟨p, rfl⟩ : ∃ q, p = q + 1 := ⟨p - 1, by omega⟩
      simp only [basisFunctionD]
      rw [if_neg hdp, rd_kf (by omega), R_bind_ok, rd_kf (by omega), R_bind_ok, rd_kf (by omega), R_bind_ok,
        rd_kf (by omega), R_bind_ok]
      have w : ∀ a b, a ≤ b → kf U b - kf U a = 0 ∨ (eps < kf U b - kf U a ∧ kf U a < kf U b) := by
        intro a b hab
        rcases lt_or_eq_of_le (hm hab) with h | h
        · exact Or.inr ⟨hs a b h, h⟩
        · left; rw [h]; ring
      set D := fun j => (derivative^[d] (Bp (kf U) k p j)).eval u with hD
      have c1 : ∀ (rest : K → R K), ((if eps < kf U (i+(p+1)) - kf U i then (do
            let b ← basisFunctionD eps U u p d i
            let c ← fdiv b (kf U (i+(p+1)) - kf U i)
            rest c) else (do
              let c ← pure (kf U (i+(p+1)) - kf U i)
              rest c) : R K)) =
          rest ((kf U (i + p + 1) - kf U i)⁻¹ * D i) := by
        intro rest
        rcases w i (i+(p+1)) (by omega) with h | ⟨h, hlt⟩
        · rw [show i + p + 1 = i + (p+1) by omega, h, if_neg (by linarith)]; simp
        · rw [if_pos h, ih p i (by omega) (Or.inr hlt), R_bind_ok, fdiv_ok (by linarith), R_bind_ok]
          rw [div_eq_mul_inv, mul_comm]
          rfl
      have c2 : ∀ (rest : K → R K), ((if eps < kf U (i+(p+2)) - kf U (i+1) then (do
            let b ← basisFunctionD eps U u p d (i+1)
            let c ← fdiv b (kf U (i+(p+2)) - kf U (i+1))
            rest c) else (do
              let c ← pure (kf U (i+(p+2)) - kf U (i+1))
              rest c) : R K)) =
          rest ((kf U (i + p + 2) - kf U (i+1))⁻¹ * D (i+1)) := by
        intro rest
        rcases w (i+1) (i+(p+2)) (by omega) with h | ⟨h, hlt⟩
        · rw [show i + p + 2 = i + (p+2) by omega, h, if_neg (by linarith)]; simp
        · rw [if_pos h, ih p (i+1) (by omega) (Or.inr (by rw [show i + 1 + p + 1 = i + (p+2) by omega]; exact hlt)),
            R_bind_ok, fdiv_ok (by linarith), R_bind_ok]
          rw [div_eq_mul_inv, mul_comm]
          rfl
      refine (c1 _).trans ((c2 _).trans ?_)
      rw [Function.iterate_succ_apply, Bp_derivative hm]
      rw [iterate_derivative_C_mul, iterate_derivative_sub, iterate_derivative_C_mul,
        iterate_derivative_C_mul]
      simp only [eval_mul, eval_C, eval_sub]
      rfl

end Gbs
