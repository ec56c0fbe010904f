import Verif.Lemmas.BasisRec

/-! # Evaluation above the stack degree and by the summation algorithm -/

namespace Gbs

set_option linter.unusedSectionVars false

open Polynomial

variable {K : Type} [Field K] [LinearOrder K] [IsStrictOrderedRing K]
variable {V : Type} [AddCommGroup V] [Module K V]

/-- Conditions under which the recursive basis functions are used at `u` without
meeting the tolerance: knots separated by more than `eps`, clamped end, and `u`
not before the domain nor `eps` or more after it. -/
structure RecOk (eps : K) (p : ℕ) (U : List K) (P : List V) (u : K) : Prop where
  pos : 0 < eps
  sep : Sep eps U
  clamped : kf U P.length = kLast U
  lower : kf U p ≤ u
  upper : u < kf U P.length + eps

theorem RecOk.span {eps : K} {p : ℕ} {U : List K} {P : List V} {u : K} (h : Wf p U P)
    (hr : RecOk eps p U P u) {i : ℕ} (hi : findSpan P.length p u U = .ok i) :
    RecSpan eps U i u := by
  have hn := h.min
  obtain ⟨i', e, a1, a2, a3, a4, a5, -⟩ := findSpan_wf h u
  obtain rfl : i' = i := by rw [hi] at e; exact (Except.ok.inj e).symm
  refine ⟨a3, ?_⟩
  rcases lt_or_ge u (kf U P.length) with h1 | h1
  · have := a4 hr.lower h1.le
    unfold Spec.InSpan at this
    rw [if_neg h1.ne] at this
    exact Or.inl this
  · right
    have := a5 h1
    subst this
    rw [show P.length - 1 + 1 = P.length by omega, hr.clamped]
    refine ⟨rfl, ?_⟩
    rw [abs_lt]
    have := hr.upper
    have := hr.pos
    rw [hr.clamped] at *
    constructor <;> linarith

/-- The loop over the poles of the span with the recursive basis functions. -/
theorem recLoop_spec {p : ℕ} {U : List K} {P : List V} (h : Wf p U P) {eps u : K} (d : ℕ) {i : ℕ}
    (hp : 1 ≤ p) (hpi : p ≤ i) (hin : i < P.length)
    (hr : RecOk eps p U P u) (hi : findSpan P.length p u U = .ok i) :
    forLe (i - p) i (fun ip pt => do
        let N ← basisFunctionD eps U u p d ip
        let pole ← rd P ip
        pure (pt + N • pole)) 0 = .ok (spanDer (kf U) P.length p i (pf P) d u) := by
  have hs := hr.span h hi
  rw [forLe_sum (g := fun j => (derivative^[d] (Bp (kf U) i p j)).eval u • pf P j)]
  · rw [spanDer_window _ hpi hin, show i + 1 - (i - p) = p + 1 by omega]
  · intro j s h1 h2
    rw [basisFunctionD_spec hr.pos h.sorted hr.sep hs d p j (by rw [h.len]; omega) (Or.inl hp),
      R_bind_ok, rd_pf (by omega), R_bind_ok]
    rfl

/-- Conditions for evaluation: nothing more than well-formedness up to the stack
degree, `RecOk` above. -/
def EvalOk (eps : K) (p : ℕ) (U : List K) (P : List V) (u : K) : Prop :=
  p ≤ stackMaxDegree ∨ RecOk eps p U P u

theorem evalValue_all {p : ℕ} {U : List K} {P : List V} (h : Wf p U P) {eps junk u : K}
    (hr : EvalOk eps p U P u) (d : ℕ) {i : ℕ}
    (hi : findSpan P.length p u U = .ok i) :
    evalValue eps junk u U P p d = .ok (spanDer (kf U) P.length p i (pf P) d u) := by
  by_cases hp : p ≤ stackMaxDegree
  · exact evalValue_spec h hp eps junk u d hi
  · have hr := hr.resolve_left hp
    obtain ⟨i', e, a1, a2, a3, -⟩ := findSpan_wf h u
    obtain rfl : i' = i := by rw [hi] at e; exact (Except.ok.inj e).symm
    unfold evalValue
    split
    · rename_i hd
      rw [spanDer_zero_of_gt _ _ _ _ _ hd]; rfl
    · simp only [hi, R_bind_ok, if_pos a1, if_neg hp]
      exact recLoop_spec h d (by unfold stackMaxDegree at hp; omega) a1 a2 hr hi

theorem evalDers_all {p : ℕ} {U : List K} {P : List V} (h : Wf p U P) {eps junk u : K}
    (hr : EvalOk eps p U P u) (n : ℕ) {i : ℕ}
    (hi : findSpan P.length p u U = .ok i) :
    ∃ CK, evalDers eps junk u U P p n = .ok CK ∧ CK.length = n + 1 ∧
      ∀ d, d ≤ n → CK[d]? = some (spanDer (kf U) P.length p i (pf P) d u) := by
  by_cases hp : p ≤ stackMaxDegree
  · exact evalDers_spec h hp eps junk u n hi
  · have hr := hr.resolve_left hp
    obtain ⟨i', e, a1, a2, a3, -⟩ := findSpan_wf h u
    obtain rfl : i' = i := by rw [hi] at e; exact (Except.ok.inj e).symm
    unfold evalDers
    simp only [hi, R_bind_ok, if_pos a1, if_neg hp, R_pure]
    obtain ⟨CK, e1, hl, h1, h2⟩ := forLe_inv (a := 0) (b := min n p)
      (body := fun kk CK => do
        let v ← evalDersOrder eps u U P p i' (i' - p) [] kk
        wr CK kk v) (s := List.replicate (n + 1) (0 : V))
      (fun j CK => CK.length = n + 1 ∧
        (∀ d, d < j → CK[d]? = some (spanDer (kf U) P.length p i' (pf P) d u)) ∧
        (∀ d, j ≤ d → d ≤ n → CK[d]? = some 0)) (by omega)
      (by
        refine ⟨by simp, by omega, ?_⟩
        intro d _ h2
        rw [List.getElem?_replicate, if_pos (by omega)])
      (by
        intro j CK _ hj ⟨g1, g2, g3⟩
        have hd : evalDersOrder eps u U P p i' (i' - p) [] j =
            .ok (spanDer (kf U) P.length p i' (pf P) j u) := by
          unfold evalDersOrder
          rw [if_neg hp]
          exact recLoop_spec h j (by unfold stackMaxDegree at hp; omega) a1 a2 hr hi
        refine ⟨CK.set j (spanDer (kf U) P.length p i' (pf P) j u), ?_, by simp [g1], ?_, ?_⟩
        · rw [hd, R_bind_ok, wr_ok (by omega)]
        · intro d hd
          rcases Nat.lt_or_ge d j with h5 | h5
          · rw [List.getElem?_set_ne (by omega), g2 d h5]
          · obtain rfl : d = j := by omega
            rw [getElem?_set_of_lt (by omega)]
            simp
        · intro d h5 h6
          rw [List.getElem?_set_ne (by omega), g3 d (by omega) h6])
    refine ⟨CK, e1, hl, ?_⟩
    intro d hd
    rcases Nat.lt_or_ge d (min n p + 1) with h5 | h5
    · exact h1 d h5
    · rw [h2 d h5 hd, spanDer_zero_of_gt _ _ _ _ _ (by omega)]

theorem evalPar_spec {p : ℕ} {U : List K} {P : List V} (h : Wf p U P) {eps u : K} (hp : 1 ≤ p)
    (hr : RecOk eps p U P u) (d : ℕ) {i : ℕ} (hi : findSpan P.length p u U = .ok i) :
    evalPar eps u U P p d = .ok (spanDer (kf U) P.length p i (pf P) d u) := by
  obtain ⟨i', e, a1, a2, a3, -⟩ := findSpan_wf h u
  obtain rfl : i' = i := by rw [hi] at e; exact (Except.ok.inj e).symm
  unfold evalPar
  rw [hi, R_bind_ok]
  have : (if p < i' then i' - p else 0) = i' - p := by split <;> omega
  rw [this]
  rw [if_neg (by omega)]
  exact recLoop_spec h d hp a1 a2 hr hi

end Gbs
