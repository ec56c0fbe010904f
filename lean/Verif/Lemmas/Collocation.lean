import Verif.Lemmas.SchoenbergWhitney
import Verif.Lemmas.InterpConstr
import Verif.Lemmas.Unique
import Verif.Lemmas.DerivCurve
import Mathlib.LinearAlgebra.Matrix.ToLinearEquiv
import Mathlib.LinearAlgebra.Matrix.NonsingularInverse
import Mathlib.Algebra.Polynomial.FieldDivision
import Mathlib.Algebra.Polynomial.Roots

/-! # Collocation systems are regular -/

namespace Gbs

open Polynomial

set_option linter.unusedSectionVars false

variable {K : Type} [Field K] [LinearOrder K] [IsStrictOrderedRing K]
variable {V : Type} [AddCommGroup V] [Module K V]

/-- An `n × n` matrix with null kernel. -/
def Spec.Regular (n : ℕ) (A : ℕ → ℕ → K) : Prop :=
  ∀ c : ℕ → K, (∀ i, i < n → ∑ j ∈ Finset.range n, A i j * c j = 0) → ∀ j, j < n → c j = 0

theorem Regular.congr {n : ℕ} {A A' : ℕ → ℕ → K} (h : Spec.Regular n A) (e : ∀ i j, i < n → j < n → A i j = A' i j) : Spec.Regular n A' := by
  intro c hc
  apply h c
  intro i hi
  rw [← hc i hi]
  exact Finset.sum_congr rfl fun j hj => by rw [e i j hi (Finset.mem_range.mp hj)]

/-- A regular system has a solution, for unknowns in any vector space. -/
theorem Regular.solve {n : ℕ} {A : ℕ → ℕ → K} (h : Spec.Regular n A) (v : ℕ → V) :
    ∃ x : ℕ → V, ∀ i, i < n → ∑ j ∈ Finset.range n, A i j • x j = v i := by
  classical
  let M : Matrix (Fin n) (Fin n) K := fun i j => A i j
  have hdet : M.det ≠ 0 := by
    intro h0
    obtain ⟨w, hw, hw0⟩ := Matrix.exists_mulVec_eq_zero_iff.mpr h0
    apply hw
    funext i
    have := h (fun j => if hj : j < n then w ⟨j, hj⟩ else 0) (by
      intro i hi
      have := congrFun hw0 ⟨i, hi⟩
      simp only [Matrix.mulVec, dotProduct, Pi.zero_apply] at this
      rw [← this, Finset.sum_range]
      apply Finset.sum_congr rfl
      intro j _
      simp [M]) i i.2
    simpa using this
  have hinv : M * M⁻¹ = 1 := Matrix.mul_nonsing_inv M (isUnit_iff_ne_zero.mpr hdet)
  refine ⟨fun j => if hj : j < n then ∑ l : Fin n, M⁻¹ ⟨j, hj⟩ l • v l else 0, ?_⟩
  intro i hi
  rw [Finset.sum_range]
  have : ∀ j : Fin n, A i j • (if hj : (j : ℕ) < n then ∑ l : Fin n, M⁻¹ ⟨j, hj⟩ l • v l else 0) =
      ∑ l : Fin n, (M ⟨i, hi⟩ j * M⁻¹ j l) • v l := by
    intro j
    rw [dif_pos j.2, Finset.smul_sum]
    apply Finset.sum_congr rfl
    intro l _
    rw [mul_smul]
  rw [Finset.sum_congr rfl fun j _ => this j, Finset.sum_comm]
  have : ∀ l : Fin n, ∑ j : Fin n, (M ⟨i, hi⟩ j * M⁻¹ j l) • v l = ((1 : Matrix (Fin n) (Fin n) K) ⟨i, hi⟩ l) • v l := by
    intro l
    rw [← Finset.sum_smul, ← hinv]
    rfl
  rw [Finset.sum_congr rfl fun l _ => this l, Finset.sum_eq_single ⟨i, hi⟩]
  · simp
  · intro l _ hl
    rw [Matrix.one_apply_ne (fun h => hl h.symm), zero_smul]
  · intro h; exact absurd (Finset.mem_univ _) h

/-- The solution is unique. -/
theorem Regular.unique {n : ℕ} {A : ℕ → ℕ → K} (h : Spec.Regular n A) {x y : ℕ → V}
    (e : ∀ i, i < n → ∑ j ∈ Finset.range n, A i j • x j = ∑ j ∈ Finset.range n, A i j • y j) : ∀ j, j < n → x j = y j := by
  intro j hj
  rw [← sub_eq_zero, ← Module.forall_dual_apply_eq_zero_iff K]
  intro f
  apply h (fun j => f (x j - y j)) _ j hj
  intro i hi
  have := congrArg f (e i hi)
  simp only [map_sum, map_smul, smul_eq_mul] at this
  simp only [map_sub, mul_sub]
  rw [Finset.sum_sub_distrib, this, sub_self]

/-- A span in which the poles give a null polynomial has null poles. -/
theorem poles_zero_of_span {t : ℕ → K} (ht : Monotone t) {n p k : ℕ} (hk : t k < t (k + 1)) (hpk : p ≤ k) (hkn : k < n) {c : ℕ → K}
    (h : ∀ v, t k < v → v < t (k + 1) → spanDer t n p k c 0 v = 0) : ∀ i, k - p ≤ i → i ≤ k → c i = 0 := by
  intro i h1 h2
  rw [← bl_dual ht hk p c i hpk h1 h2]
  apply IsBlossom.eq_of_diag (bl_isBlossom ht hk hpk c) (G := fun _ => 0) ⟨fun _ _ => rfl, fun _ _ _ _ _ _ _ => by simp⟩ hk _ _ (by simp)
  intro v v1 v2
  rw [← spanDer_zero t hpk hkn, h v v1 v2]

/-- The collocation matrix of clamped knots is regular when each parameter is strictly inside the support of its basis function. -/
theorem coll_regular {p n : ℕ} (hp : 1 ≤ p) {U u : List K} (hU : KWf p U n) (hl : u.length = n) (hinc : u.Pairwise (· < ·))
    (h0 : ∀ j, 1 ≤ j → j ≤ p → kf U j = kf u 0) (h1 : ∀ j, n ≤ j → j < n + p → kf U j = kf u (n - 1))
    (hsw : ∀ j, 1 ≤ j → j + 1 < n → kf U j < kf u j ∧ kf u j < kf U (j + p + 1)) {sp : ℕ → ℕ} (hsp : Spans U u p n sp) :
    Spec.Regular n (coll U u p 1 sp) := by
  intro c hc
  have hn := hU.min
  have ht := kf_mono hU.sorted
  have hlt : ∀ i j, i < j → j < n → kf u i < kf u j := by
    intro i j hij hj
    rw [kf_of_lt (by omega), kf_of_lt (by omega)]
    exact List.pairwise_iff_getElem.mp hinc i j _ _ hij
  have htp : kf U p = kf u 0 := h0 p hp le_rfl
  have htn : kf U n = kf u (n - 1) := h1 n le_rfl (by omega)
  have hdom : ∀ i, i < n → kf U p ≤ kf u i ∧ kf u i ≤ kf U n := by
    intro i hi
    rw [htp, htn]
    constructor
    · rcases Nat.eq_zero_or_pos i with rfl | h
      · exact le_rfl
      · exact (hlt 0 i h hi).le
    · rcases Nat.eq_or_lt_of_le (show i ≤ n - 1 by omega) with rfl | h
      · exact le_rfl
      · exact (hlt i (n - 1) h (by omega)).le
  have hin : ∀ i, i < n → Spec.InSpan (kf U) (kf U n) (sp i) (kf u i) := by
    intro i hi
    obtain ⟨s, e, -, -, -, a4, -⟩ := findSpan_wf (hU.wf (P := List.replicate n (0 : K)) (by simp)) (kf u i)
    rw [List.length_replicate] at e a4
    rw [hsp.find i (by omega)] at e
    obtain rfl := Except.ok.inj e
    exact a4 (hdom i hi).1 (hdom i hi).2
  have hv : ∀ i, i < n → bl (kf U) (sp i) c (List.replicate p (kf u i)) = 0 := by
    intro i hi
    rw [← spanDer_zero (kf U) (hsp.lo i (by omega)) (hsp.hi i (by omega)), ← hc i hi]
    have := sum_coll (n := n) (U := U) (u := u) (p := p) (sp := sp) (i := i) (d := 0) (nc := 1) (by omega) c
    rw [one_mul, Nat.add_zero] at this
    rw [← this]
    simp only [smul_eq_mul]
  -- the end poles
  have hsp0 : sp 0 = p := by
    have h := hin 0 (by omega)
    unfold Spec.InSpan at h
    rw [if_neg (by rw [htn]; exact (hlt 0 (n - 1) (by omega) (by omega)).ne)] at h
    have h1' := hsp.lo 0 (by omega)
    by_contra hc'
    have := ht (show p + 1 ≤ sp 0 by omega)
    have := hU.first
    rw [htp] at this
    linarith [h.1]
  have hc0 : c 0 = 0 := by
    have := hv 0 (by omega)
    rw [hsp0, ← seg_const (t := kf U) (a := 0 + 1) (n := p) (u := kf u 0) (fun j hj => h0 _ (by omega) (by omega))] at this
    rw [← this]
    exact (bl_dual ht hU.first p c 0 le_rfl (by omega) (by omega)).symm
  have hspn : sp (n - 1) = n - 1 := by
    have h := hin (n - 1) (by omega)
    unfold Spec.InSpan at h
    rw [if_pos htn.symm] at h
    have h2 := hsp.hi (n - 1) (by omega)
    by_contra hc'
    have := ht (show sp (n - 1) + 1 ≤ n - 1 by omega)
    have := hU.last
    linarith [h.2]
  have hcn : c (n - 1) = 0 := by
    have := hv (n - 1) (by omega)
    rw [hspn, ← seg_const (t := kf U) (a := n - 1 + 1) (n := p) (u := kf u (n - 1)) (fun j hj => h1 _ (by omega) (by omega))] at this
    rw [← this]
    exact (bl_dual ht (by rw [show n - 1 + 1 = n by omega]; exact hU.last) p c (n - 1) (by omega) (by omega) le_rfl).symm
  -- the others
  have main := schoenberg_whitney hp ht (n := n) (kf u) n 1 (n - 1) (fun j => if j < n then c j else 0) (by omega) le_rfl (by omega)
    (by omega)
    (by
      intro j hj
      split
      · rcases hj with hj | hj
        · obtain rfl : j = 0 := by omega
          exact hc0
        · obtain rfl : j = n - 1 := by omega
          exact hcn
      · rfl)
    (fun j _ h2 => hlt j (j + 1) (by omega) (by omega)) (fun j h2 h3 => hsw j h2 (by omega))
    (fun j h2 h3 => by rw [htp, htn]; exact ⟨hlt 0 j (by omega) (by omega), hlt j (n - 1) (by omega) (by omega)⟩)
    (by
      intro j m g1 g2 g3 g4 g5 g6
      have hne : kf u j ≠ kf U n := by rw [htn]; exact (hlt j (n - 1) (by omega) (by omega)).ne
      have hm : sp j = m := by
        apply InSpan_unique ht (hin j (by omega))
        unfold Spec.InSpan
        rw [if_neg hne]
        exact ⟨g5, g6⟩
      have := hv j (by omega)
      rw [hm] at this
      rw [← this]
      apply bl_congr _ _ _ _ _ (by simpa using g3)
      intro i _ i2
      rw [if_pos (by omega)])
  intro j hj
  have := main j
  simpa [hj] using this

/-! ## Values and derivatives at each parameter -/

/-- A polynomial of degree below `2 nc` with null derivatives up to the order `nc - 1` at two points is null. -/
theorem hermite_zero {q : K[X]} {nc : ℕ} (hnc : 1 ≤ nc) (hd : q.natDegree < 2 * nc) {a b : K} (hab : a < b)
    (ha : ∀ d, d < nc → (derivative^[d] q).eval a = 0) (hb : ∀ d, d < nc → (derivative^[d] q).eval b = 0) : q = 0 := by
  by_contra h0
  have key : ∀ x, (∀ d, d < nc → (derivative^[d] q).eval x = 0) → (X - C x) ^ nc ∣ q := by
    intro x hx
    have : nc - 1 < q.rootMultiplicity x := by
      apply Polynomial.lt_rootMultiplicity_of_isRoot_iterate_derivative_of_mem_nonZeroDivisors h0
      · intro m hm
        exact hx m (by omega)
      · exact mem_nonZeroDivisors_of_ne_zero (by exact_mod_cast Nat.factorial_ne_zero _)
    exact (pow_dvd_pow _ (show nc ≤ q.rootMultiplicity x by omega)).trans (Polynomial.pow_rootMultiplicity_dvd q x)
  have hcop : IsCoprime ((X - C a) ^ nc) ((X - C b) ^ nc) := by
    apply IsCoprime.pow
    exact Polynomial.isCoprime_X_sub_C_of_isUnit_sub (isUnit_iff_ne_zero.mpr (sub_ne_zero.mpr hab.ne))
  have hdvd := hcop.mul_dvd (key a ha) (key b hb)
  have := Polynomial.natDegree_le_of_dvd hdvd h0
  rw [Polynomial.natDegree_mul (pow_ne_zero _ (X_sub_C_ne_zero a)) (pow_ne_zero _ (X_sub_C_ne_zero b)), natDegree_pow, natDegree_pow,
    natDegree_X_sub_C, natDegree_X_sub_C] at this
  omega

/-- The polynomial of a span vanishes when its derivatives up to the order `nc - 1` vanish at two points and its degree is below `2 nc`. -/
theorem span_hermite {t : ℕ → K} {n p k nc : ℕ} (hnc : 1 ≤ nc) (hp : p < 2 * nc) {c : ℕ → K} {a b : K} (hab : a < b)
    (ha : ∀ d, d < nc → spanDer t n p k c d a = 0) (hb : ∀ d, d < nc → spanDer t n p k c d b = 0) (v : K) : spanDer t n p k c 0 v = 0 := by
  set q : K[X] := ∑ j ∈ Finset.range n, C (c j) * Bp t k p j with hq
  have he : ∀ d x, (derivative^[d] q).eval x = spanDer t n p k c d x := by
    intro d x
    rw [hq, iterate_derivative_sum, eval_finset_sum]
    unfold spanDer
    apply Finset.sum_congr rfl
    intro j _
    rw [iterate_derivative_C_mul, eval_mul, eval_C, smul_eq_mul, mul_comm]
  have hdeg : q.natDegree < 2 * nc := by
    apply lt_of_le_of_lt _ hp
    apply natDegree_sum_le_of_forall_le
    intro j _
    exact (natDegree_C_mul_le _ _).trans (Bp_natDegree t k p j)
  have := hermite_zero hnc hdeg hab (fun d hd => by rw [he]; exact ha d hd) (fun d hd => by rw [he]; exact hb d hd)
  rw [← he 0 v, this]
  simp

/-- The collocation matrix of values and derivatives on knots repeated `nc` times is regular. -/
theorem coll_regular_hermite {nc m : ℕ} (hnc : 1 ≤ nc) (hm : 1 ≤ m) {U u : List K} (hU : KWf (2 * nc - 1) U ((m + 1) * nc))
    (hl : u.length = m + 1) (hinc : u.Pairwise (· < ·))
    (h1 : ∀ i, i < m → kf U ((i + 2) * nc - 1) = kf u i) (h2 : ∀ i, i < m → kf U ((i + 2) * nc) = kf u (i + 1))
    {sp : ℕ → ℕ} (hsp : Spans U u (2 * nc - 1) ((m + 1) * nc) sp) :
    Spec.Regular ((m + 1) * nc) (coll U u (2 * nc - 1) nc sp) := by
  intro c hc
  have ht := kf_mono hU.sorted
  set n := (m + 1) * nc with hn
  set p := 2 * nc - 1 with hpdef
  have hmin := hU.min
  have hlt : ∀ i, i < m → kf u i < kf u (i + 1) := by
    intro i hi
    rw [kf_of_lt (by omega), kf_of_lt (by omega)]
    exact List.pairwise_iff_getElem.mp hinc i (i + 1) _ _ (by omega)
  have hk : ∀ i, i < m → 2 * nc ≤ (i + 2) * nc ∧ (i + 2) * nc ≤ n := by
    intro i hi
    exact ⟨Nat.mul_le_mul_right _ (by omega), by rw [hn]; exact Nat.mul_le_mul_right _ (by omega)⟩
  have hkk : ∀ i, i < m → kf U ((i + 2) * nc - 1) < kf U ((i + 2) * nc - 1 + 1) := by
    intro i hi
    have := hk i hi
    rw [show (i + 2) * nc - 1 + 1 = (i + 2) * nc by omega, h1 i hi, h2 i hi]
    exact hlt i hi
  have hmono : ∀ i j, i ≤ j → j ≤ m → kf u i ≤ kf u j := by
    intro i j hij hj
    exact kf_mono (hinc.imp le_of_lt) hij
  have htn : kf U n = kf u m := by
    have := h2 (m - 1) (by omega)
    rwa [show m - 1 + 2 = m + 1 by omega, show m - 1 + 1 = m by omega, ← hn] at this
  have htp : kf U p = kf u 0 := by
    have := h1 0 (by omega)
    rwa [Nat.zero_add, ← hpdef] at this
  have hin : ∀ i, i ≤ m → Spec.InSpan (kf U) (kf U n) (sp i) (kf u i) := by
    intro i hi
    obtain ⟨s, e, -, -, -, a4, -⟩ := findSpan_wf (hU.wf (P := List.replicate n (0 : K)) (by simp)) (kf u i)
    rw [List.length_replicate] at e a4
    rw [hsp.find i (by omega)] at e
    obtain rfl := Except.ok.inj e
    exact a4 (by rw [htp]; exact hmono 0 i (by omega) hi) (by rw [htn]; exact hmono i m hi le_rfl)
  have hspi : ∀ i, i < m → sp i = (i + 2) * nc - 1 := by
    intro i hi
    apply InSpan_unique ht (hin i (by omega))
    unfold Spec.InSpan
    rw [if_neg (by rw [htn]; exact (lt_of_lt_of_le (hlt i hi) (hmono (i + 1) m (by omega) le_rfl)).ne)]
    have := hk i hi
    refine ⟨(h1 i hi).le, ?_⟩
    rw [show (i + 2) * nc - 1 + 1 = (i + 2) * nc by omega, h2 i hi]
    exact hlt i hi
  have hspm : sp m = n - 1 := by
    apply InSpan_unique ht (hin m le_rfl)
    unfold Spec.InSpan
    rw [if_pos htn.symm, show n - 1 + 1 = n by omega]
    exact ⟨hU.last, rfl⟩
  have hv : ∀ i d, i ≤ m → d < nc → spanDer (kf U) n p (sp i) c d (kf u i) = 0 := by
    intro i d hi hd
    have hr : nc * i + d < n := by
      have := Nat.mul_le_mul_left nc (show i + 1 ≤ m + 1 by omega)
      rw [Nat.mul_succ, Nat.mul_comm nc (m + 1), ← hn] at this
      omega
    rw [← hc _ hr, ← sum_coll (n := n) (nc := nc) hd]
    simp only [smul_eq_mul]
  -- each span
  have hspan : ∀ i, i < m → ∀ j, (i + 2) * nc - 1 - p ≤ j → j ≤ (i + 2) * nc - 1 → c j = 0 := by
    intro i hi
    have hki := hk i hi
    apply poles_zero_of_span ht (hkk i hi) (by omega) (show (i + 2) * nc - 1 < n by omega)
    intro v _ _
    apply span_hermite hnc (by omega) (hlt i hi)
    · intro d hd
      rw [← hspi i hi]
      exact hv i d (by omega) hd
    · intro d hd
      rcases Nat.eq_or_lt_of_le (show i + 1 ≤ m by omega) with he | hlt'
      · have := hv m d le_rfl hd
        rw [hspm] at this
        rw [he, show (i + 2) * nc - 1 = n - 1 by rw [hn, ← he]]
        exact this
      · have hk2 := hk (i + 1) hlt'
        have hadd : (i + 1 + 2) * nc = (i + 2) * nc + nc := by ring
        rw [spanDer_adjacent d ht (hkk i hi) (hkk (i + 1) hlt') (by omega) ?_ (by omega) (by omega) (by omega) c, ← hspi (i + 1) hlt']
        · exact hv (i + 1) d (by omega) hd
        · intro j j1 j2
          apply le_antisymm
          · rw [← h1 (i + 1) hlt']; exact ht j2
          · rw [← h2 i hi]; exact ht (by omega)
  intro j hj
  by_cases hjl : j < 2 * nc
  · exact hspan 0 (by omega) j (by omega) (by omega)
  · have hdiv : j / nc * nc ≤ j := Nat.div_mul_le_self j nc
    have hdiv2 : j < (j / nc + 1) * nc := by
      have := Nat.lt_div_mul_add (a := j) (show 0 < nc by omega)
      rw [Nat.add_mul, Nat.one_mul]; exact this
    have hq2 : 2 ≤ j / nc := (Nat.le_div_iff_mul_le (by omega)).mpr (by omega)
    have hqm : j / nc ≤ m := by
      have := (Nat.div_lt_iff_lt_mul (show 0 < nc by omega)).mpr (show j < (m + 1) * nc by omega)
      omega
    have hadd : (j / nc + 1) * nc = j / nc * nc + nc := by ring
    have := hspan (j / nc - 1) (by omega) j
    rw [show j / nc - 1 + 2 = j / nc + 1 by omega] at this
    exact this (by omega) (by omega)

end Gbs
