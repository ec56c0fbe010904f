import Verif.Model.Curve
import Verif.Lemmas.FindSpan
import Verif.Lemmas.BasisFuncs
import Verif.Lemmas.DersBasis
import Mathlib.Algebra.Polynomial.Degree.Lemmas
import Mathlib.Algebra.Polynomial.Derivative

namespace Gbs

set_option linter.unusedSectionVars false

variable {K : Type} [Field K] [LinearOrder K] [IsStrictOrderedRing K]
variable {V : Type} [AddCommGroup V] [Module K V]

/-- The poles as a sequence. -/
def pf (P : List V) (i : ℕ) : V := P.getD i 0

theorem pf_getElem? {P : List V} {i : ℕ} (h : i < P.length) : P[i]? = some (pf P i) := by
  simp [pf, h]

theorem rd_pf {P : List V} {i : ℕ} (h : i < P.length) : rd P i = .ok (pf P i) :=
  rd_eq_ok.mpr (pf_getElem? h)

/-- Well-formed B-spline data: sorted knots, consistent sizes, at least `p+1`
poles, non-empty first and last spans (end multiplicities at most `p+1`). -/
structure Wf (p : ℕ) (U : List K) (P : List V) : Prop where
  sorted : U.Pairwise (· ≤ ·)
  len : U.length = P.length + p + 1
  min : p + 1 ≤ P.length
  first : kf U p < kf U (p + 1)
  last : kf U (P.length - 1) < kf U P.length

theorem forN_sum {body : ℕ → V → R V} {g : ℕ → V} : ∀ (n a : ℕ) (s : V),
    (∀ i s, a ≤ i → i < a + n → body i s = .ok (s + g i)) →
    forN body n a s = .ok (s + ∑ i ∈ Finset.range n, g (a + i)) := by
  intro n
  induction n with
  | zero => intro a s _; simp [forN]
  | succ n ih =>
    intro a s h
    simp only [forN]
    rw [h a s le_rfl (by omega), R_bind_ok, ih (a+1) _ (fun i s h1 h2 => h i s (by omega) (by omega))]
    rw [Finset.sum_range_succ', add_assoc]
    congr 2
    rw [add_comm (∑ i ∈ Finset.range n, _)]
    simp only [Nat.add_zero]
    congr 1
    exact Finset.sum_congr rfl fun i _ => by rw [show a + 1 + i = a + (i+1) by omega]

theorem forLe_sum {body : ℕ → V → R V} {g : ℕ → V} (a b : ℕ)
    (h : ∀ i s, a ≤ i → i ≤ b → body i s = .ok (s + g i)) :
    forLe a b body 0 = .ok (∑ i ∈ Finset.range (b + 1 - a), g (a + i)) := by
  unfold forLe
  rw [forN_sum (g := g) (b + 1 - a) a 0 (fun i s h1 h2 => h i s h1 (by omega)), zero_add]

/-- A sum over all poles whose terms vanish outside `[i-p,i]`. -/
theorem sum_window {n i p : ℕ} (hpi : p ≤ i) (hin : i < n) (g : ℕ → V)
    (h0 : ∀ j, j < n → (i < j ∨ j + p < i) → g j = 0) :
    ∑ j ∈ Finset.range n, g j = ∑ r ∈ Finset.range (p+1), g (i - p + r) := by
  have h1 : ∑ j ∈ Finset.range n, g j = ∑ j ∈ Finset.Ico (i-p) (i+1), g j := by
    symm
    apply Finset.sum_subset
    · intro j hj
      simp only [Finset.mem_Ico, Finset.mem_range] at *
      omega
    · intro j hj hj'
      simp only [Finset.mem_Ico, Finset.mem_range] at *
      exact h0 j hj (by omega)
  rw [h1, Finset.sum_Ico_eq_sum_range, show i + 1 - (i - p) = p + 1 by omega]

open Polynomial

theorem Bp_natDegree (t : ℕ → K) (k p : ℕ) : ∀ i, (Bp t k p i).natDegree ≤ p := by
  induction p with
  | zero => intro i; simp only [Bp]; split <;> simp
  | succ p ih =>
    intro i
    simp only [Bp]
    have hX : ∀ a : K, (X - C a : K[X]).natDegree ≤ 1 := fun a => by
      rw [natDegree_X_sub_C]
    have hX' : ∀ a : K, (C a - X : K[X]).natDegree ≤ 1 := fun a => by
      rw [← natDegree_neg, neg_sub, natDegree_X_sub_C]
    have gen : ∀ (a : K) (q r : K[X]), q.natDegree ≤ 1 → r.natDegree ≤ p →
        (C a * q * r).natDegree ≤ p + 1 := by
      intro a q r hq hr
      refine le_trans natDegree_mul_le ?_
      have := natDegree_C_mul_le a q
      omega
    exact natDegree_add_le_of_degree_le (gen _ _ _ (hX _) (ih i)) (gen _ _ _ (hX' _) (ih (i+1)))

/-- `d`-th derivative of the curve's polynomial on the span `i`. -/
noncomputable def spanDer (t : ℕ → K) (n p i : ℕ) (P : ℕ → V) (d : ℕ) (u : K) : V :=
  ∑ j ∈ Finset.range n, (derivative^[d] (Bp t i p j)).eval u • P j

theorem spanDer_window (t : ℕ → K) {n p i : ℕ} (hpi : p ≤ i) (hin : i < n) (P : ℕ → V) (d : ℕ) (u : K) :
    spanDer t n p i P d u =
      ∑ r ∈ Finset.range (p+1), (derivative^[d] (Bp t i p (i - p + r))).eval u • P (i - p + r) := by
  unfold spanDer
  apply sum_window hpi hin (fun j => (derivative^[d] (Bp t i p j)).eval u • P j)
  intro j _ hj
  rw [Bp_eq_zero t i p j hj, iterate_derivative_zero]
  simp

theorem spanDer_zero_of_gt (t : ℕ → K) (n p i : ℕ) (P : ℕ → V) {d : ℕ} (h : p < d) (u : K) :
    spanDer t n p i P d u = 0 := by
  unfold spanDer
  apply Finset.sum_eq_zero
  intro j _
  rw [iterate_derivative_eq_zero (lt_of_le_of_lt (Bp_natDegree t i p j) h)]
  simp

/-- The non-empty span chosen by `findSpan` for a well-formed curve. -/
theorem findSpan_wf {p : ℕ} {U : List K} {P : List V} (h : Wf p U P) (u : K) :
    ∃ i, findSpan P.length p u U = .ok i ∧ p ≤ i ∧ i < P.length ∧ kf U i < kf U (i+1) ∧
      (kf U p ≤ u → u ≤ kf U P.length → Spec.InSpan (kf U) (kf U P.length) i u) ∧
      (kf U P.length ≤ u → i = P.length - 1) ∧ (u < kf U p → i = p) := by
  have hn := h.min
  obtain ⟨i, e, a1, a2, a3, a4, a5⟩ := findSpan_spec h.sorted (n := P.length) (p := p) (by omega)
    (by rw [h.len]; omega) u
  have hl : P.length - 1 + 1 = P.length := by omega
  refine ⟨i, e, a1, a2, ?_, ?_, a3, a5⟩
  · rcases lt_or_ge u (kf U P.length) with h1 | h1
    · rcases lt_or_ge u (kf U p) with h2 | h2
      · rw [a5 h2]; exact h.first
      · have := a4 h1 h2; exact lt_of_le_of_lt this.1 this.2
    · rw [a3 h1, hl]; exact h.last
  · intro h1 h2
    unfold Spec.InSpan
    split
    · rename_i he
      have := a3 (le_of_eq he.symm)
      subst this
      rw [hl]; exact ⟨h.last, rfl⟩
    · rename_i he
      exact a4 (lt_of_le_of_ne h2 he) h1

/-- `basis_ders`, degree within the stack limit. -/
theorem basisDers_spec {U : List K} (hU : U.Pairwise (· ≤ ·)) {i p d : ℕ} (hpi : p ≤ i)
    (hlen : i + p < U.length) (hk : kf U i < kf U (i+1)) (hd : d ≤ p) (hp : p ≤ stackMaxDegree)
    (u junk : K) :
    ∃ N, basisDers junk i p d u U (List.replicate (stackMaxDegree + 1) junk) = .ok N ∧
      ∀ r, r ≤ p → N[r]? = some ((derivative^[d] (Bp (kf U) i p (i - p + r))).eval u) := by
  unfold basisDers
  simp only
  split
  · rename_i h0
    subst h0
    obtain ⟨N, e, -, h⟩ := basisFuncs_spec hU hpi hlen hk u
      (List.replicate (stackMaxDegree + 1) junk) (List.replicate (stackMaxDegree + 1) junk)
      (List.replicate (stackMaxDegree + 1) junk) (by simp; omega) (by simp; omega) (by simp; omega)
    exact ⟨N, e, fun r hr => by rw [h r hr]; simp [Bp_eval]⟩
  · have hL : (d+1)*(p+1) ≤ (stackMaxDegree + 1) * (stackMaxDegree + 1) :=
      Nat.mul_le_mul (by omega) (by omega)
    obtain ⟨D, e, -, h⟩ := dersBasisFuns_spec hU hpi hlen hk hd u (fun _ _ => junk) (fun _ _ => junk)
      (List.replicate (stackMaxDegree + 1) junk) (List.replicate (stackMaxDegree + 1) junk)
      (List.replicate ((stackMaxDegree + 1) * (stackMaxDegree + 1)) junk)
      (by simp; omega) (by simp; omega) (by simpa using hL)
    rw [e, R_bind_ok]
    obtain ⟨N, e2, g1, g2⟩ := forLe_inv (a := 0) (b := p)
      (body := fun j Nd => (do
        let x ← rd D (d * (p + 1) + j)
        wr Nd j x : R (List K))) (s := List.replicate (stackMaxDegree + 1) junk)
      (fun j E => E.length = stackMaxDegree + 1 ∧
        ∀ r, r < j → E[r]? = some ((derivative^[d] (Bp (kf U) i p (i - p + r))).eval u))
      (by omega) ⟨by simp, fun r hr => by omega⟩
      (by
        rintro j E - hj ⟨g1, g2⟩
        rw [rd_eq_ok.mpr (h d j le_rfl hj), R_bind_ok, wr_ok (by omega)]
        refine ⟨_, rfl, by simp [g1], ?_⟩
        intro r hr
        rw [getElem?_set_of_lt (by omega)]
        by_cases hrj : r = j
        · subst hrj; rw [if_pos rfl]
        · rw [if_neg hrj]; exact g2 r (by omega))
    exact ⟨N, e2, fun r hr => g2 r (by omega)⟩

theorem evalValue_spec {p : ℕ} {U : List K} {P : List V} (h : Wf p U P)
    (hp : p ≤ stackMaxDegree) (eps junk u : K) (d : ℕ) {i : ℕ}
    (hi : findSpan P.length p u U = .ok i) :
    evalValue eps junk u U P p d = .ok (spanDer (kf U) P.length p i (pf P) d u) := by
  obtain ⟨i', e, a1, a2, a3, -⟩ := findSpan_wf h u
  obtain rfl : i' = i := by rw [hi] at e; exact (Except.ok.inj e).symm
  unfold evalValue
  split
  · rename_i hd
    rw [spanDer_zero_of_gt _ _ _ _ _ hd]; rfl
  · rename_i hd
    rw [hi, R_bind_ok]
    simp only [if_pos a1]
    obtain ⟨N, e2, hN⟩ := basisDers_spec h.sorted a1 (by rw [h.len]; omega) a3 (by omega) hp u junk (d := d)
    rw [e2, R_bind_ok]
    rw [forLe_sum (g := fun r => (derivative^[d] (Bp (kf U) i' p (i' - p + r))).eval u • pf P (i' - p + r))]
    · rw [spanDer_window _ a1 a2]
      simp
    · intro r s _ hr
      rw [rd_eq_ok.mpr (hN r hr), R_bind_ok, rd_pf (by omega), R_bind_ok]
      rfl

/-- Value of a curve in its domain: the textbook sum. -/
theorem spanDer_eq_curve {U : List K} (hU : Monotone (kf U)) {n p i : ℕ} {P : ℕ → V} {u : K}
    (h : Spec.InSpan (kf U) (kf U n) i u) :
    spanDer (kf U) n p i P 0 u = Spec.curve (kf U) n p P u := by
  unfold spanDer Spec.curve
  apply Finset.sum_congr rfl
  intro j _
  rw [N_eq_B hU h]
  simp [Bp_eval]

theorem evalValue_eq_curve {p : ℕ} {U : List K} {P : List V} (h : Wf p U P)
    (hp : p ≤ stackMaxDegree) (eps junk u : K) (h1 : kf U p ≤ u) (h2 : u ≤ kf U P.length) :
    evalValue eps junk u U P p 0 = .ok (Spec.curve (kf U) P.length p (pf P) u) := by
  obtain ⟨i, e, -, -, -, hs, -⟩ := findSpan_wf h u
  rw [evalValue_spec h hp eps junk u 0 e, spanDer_eq_curve (kf_mono h.sorted) (hs h1 h2)]

theorem evalDers_spec {p : ℕ} {U : List K} {P : List V} (h : Wf p U P)
    (hp : p ≤ stackMaxDegree) (eps junk u : K) (n : ℕ) {i : ℕ}
    (hi : findSpan P.length p u U = .ok i) :
    ∃ CK, evalDers eps junk u U P p n = .ok CK ∧ CK.length = n + 1 ∧
      ∀ d, d ≤ n → CK[d]? = some (spanDer (kf U) P.length p i (pf P) d u) := by
  obtain ⟨i', e, a1, a2, a3, -⟩ := findSpan_wf h u
  obtain rfl : i' = i := by rw [hi] at e; exact (Except.ok.inj e).symm
  unfold evalDers
  simp only [hi, R_bind_ok, if_pos a1, if_pos hp]
  have hL : (min n p+1)*(p+1) ≤ (stackMaxDegree + 1) * (stackMaxDegree + 1) :=
    Nat.mul_le_mul (by omega) (by omega)
  obtain ⟨D, eD, -, hD⟩ := dersBasisFuns_spec h.sorted a1 (by rw [h.len]; omega) a3
      (n := min n p) (by omega) u (fun _ _ => junk) (fun _ _ => junk)
      (List.replicate (stackMaxDegree + 1) junk) (List.replicate (stackMaxDegree + 1) junk)
      (List.replicate ((stackMaxDegree + 1) * (stackMaxDegree + 1)) junk)
      (by simp; omega) (by simp; omega) (by simpa using hL)
  rw [eD, R_bind_ok]
  obtain ⟨CK, e2, g1, g2, g3⟩ := forLe_inv (a := 0) (b := min n p)
      (body := fun kk CK => (do
        let v ← evalDersOrder eps u U P p i' (i' - p) D kk
        wr CK kk v : R (List V))) (s := List.replicate (n + 1) (0 : V))
      (fun j E => E.length = n + 1 ∧
        (∀ d, d < j → E[d]? = some (spanDer (kf U) P.length p i' (pf P) d u)) ∧
        (∀ d, j ≤ d → d ≤ n → E[d]? = some 0))
      (by omega) ⟨by simp, fun r hr => by omega, fun d _ hd => by rw [List.getElem?_replicate, if_pos (by omega)]⟩
      (by
        rintro kk E - hkk ⟨g1, g2, g3⟩
        have ev : evalDersOrder eps u U P p i' (i' - p) D kk =
            .ok (spanDer (kf U) P.length p i' (pf P) kk u) := by
          unfold evalDersOrder
          rw [if_pos hp]
          rw [forLe_sum (g := fun r => (derivative^[kk] (Bp (kf U) i' p (i' - p + r))).eval u • pf P (i' - p + r))]
          · rw [spanDer_window _ a1 a2]
            simp
          · intro r s _ hr
            rw [rd_eq_ok.mpr (hD kk r hkk hr), R_bind_ok, rd_pf (by omega), R_bind_ok]
            rfl
        rw [ev, R_bind_ok, wr_ok (by omega)]
        refine ⟨_, rfl, by simp [g1], ?_, ?_⟩
        · intro d hd
          rw [getElem?_set_of_lt (by omega)]
          by_cases hdk : d = kk
          · subst hdk; rw [if_pos rfl]
          · rw [if_neg hdk]; exact g2 d (by omega)
        · intro d hd hd'
          rw [getElem?_set_of_lt (by omega), if_neg (by omega)]
          exact g3 d (by omega) hd')
  refine ⟨CK, e2, g1, ?_⟩
  intro d hd
  by_cases hdp : d ≤ p
  · exact g2 d (by omega)
  · rw [g3 d (by omega) hd, spanDer_zero_of_gt _ _ _ _ _ (by omega)]

theorem evalDeBoorCox_spec {p : ℕ} {U : List K} {P : List V} (h : Wf p U P) (u : K) {i : ℕ}
    (hi : findSpan P.length p u U = .ok i) :
    evalDeBoorCox u U P p = .ok (spanDer (kf U) P.length p i (pf P) 0 u) := by
  obtain ⟨i', e, a1, a2, a3, -⟩ := findSpan_wf h u
  obtain rfl : i' = i := by rw [hi] at e; exact (Except.ok.inj e).symm
  unfold evalDeBoorCox
  rw [hi, R_bind_ok]
  obtain ⟨N, e2, -, hN⟩ := basisFuncs_spec h.sorted a1 (by rw [h.len]; omega) a3 u
      (List.replicate (p + 1) 0) (List.replicate (p + 1) 0)
      (List.replicate (p + 1) 0) (by simp) (by simp) (by simp)
  rw [e2, R_bind_ok]
  rw [forLe_sum (g := fun r => (derivative^[0] (Bp (kf U) i' p (i' - p + r))).eval u • pf P (i' - p + r))]
  · rw [spanDer_window _ a1 a2]
    simp
  · intro r s _ hr
    rw [rd_eq_ok.mpr (hN r hr), R_bind_ok, usub_ok (by omega), R_bind_ok,
      show i' + r - p = i' - p + r by omega, rd_pf (by omega), R_bind_ok]
    simp [Bp_eval]

end Gbs
