import Verif.Model.Shaping
import Verif.Lemmas.LeastSquares
import Verif.Lemmas.EvalAll
import Verif.Lemmas.SurfaceOps
import Verif.Props.Join

/-! # Moving poles -/

namespace Gbs

set_option linter.unusedSectionVars false

open Polynomial
open scoped BigOperators

variable {K : Type} [Field K] [LinearOrder K] [IsStrictOrderedRing K]
variable {V : Type} [AddCommGroup V] [Module K V]

/-! ## Strict positivity of the basis functions -/

/-- A basis function is positive at a parameter inside its support, and at the first knot of a support that starts there with full multiplicity. -/
theorem B_pos {t : ℕ → K} (ht : Monotone t) {k : ℕ} {u : K} (h1 : t k ≤ u) (h2 : u < t (k+1)) :
    ∀ p i, t i ≤ u → u < t (i + p + 1) → (t i < u ∨ t (i + p) ≤ u) → 0 < B t k p i u := by
  intro p
  induction p with
  | zero =>
    intro i a b _
    have : i = k := by
      rcases lt_trichotomy i k with h | h | h
      · exact absurd (lt_of_lt_of_le b ((ht (show i + 0 + 1 ≤ k by omega)).trans h1)) (lt_irrefl _)
      · exact h
      · exact absurd (lt_of_lt_of_le h2 ((ht (show k + 1 ≤ i by omega)).trans a)) (lt_irrefl _)
    subst this
    simp [B]
  | succ p ih =>
    intro i a b c
    simp only [B]
    have n1 := B_nonneg ht p h1 h2.le i
    have n2 := B_nonneg ht p h1 h2.le (i+1)
    rw [show i + (p + 1) + 1 = i + p + 2 by omega] at b
    have m1 : t i ≤ t (i + p + 1) := ht (by omega)
    have m2 : t (i + 1) ≤ t (i + p + 2) := ht (by omega)
    rcases lt_or_ge u (t (i + p + 1)) with h | h
    · have hi : t i < u := by
        rcases c with c | c
        · exact c
        · rw [show i + (p + 1) = i + p + 1 by omega] at c
          exact absurd (lt_of_lt_of_le h c) (lt_irrefl _)
      have := ih i a h (Or.inl hi)
      refine add_pos_of_pos_of_nonneg (mul_pos (div_pos (by linarith) (by linarith)) this) (mul_nonneg (div_nonneg (by linarith) (by linarith)) n2)
    · have hi : t (i + 1) ≤ u := (ht (show i + 1 ≤ i + p + 1 by omega)).trans h
      have := ih (i + 1) hi (by rw [show i + 1 + p + 1 = i + p + 2 by omega]; exact b)
        (Or.inr (by rw [show i + 1 + p = i + p + 1 by omega]; exact h))
      refine add_pos_of_nonneg_of_pos (mul_nonneg (div_nonneg (by linarith) (by linarith)) n1) (mul_pos (div_pos (by linarith) (by linarith)) this)

/-! ## The three systems -/

/-- Every second member is reached by the `m × n` matrix. -/
def Reaches (m n : ℕ) (B : ℕ → ℕ → K) : Prop := ∀ x : ℕ → K, ∃ y : ℕ → K, ∀ r, r < m → ∑ j ∈ Finset.range n, B r j * y j = x r

theorem Reaches.left_null {m n : ℕ} {B : ℕ → ℕ → K} (h : Reaches m n B) (y : ℕ → K)
    (hy : ∀ j, j < n → ∑ r ∈ Finset.range m, B r j * y r = 0) : ∀ r, r < m → y r = 0 := by
  intro r hr
  obtain ⟨z, hz⟩ := h (fun s => if s = r then 1 else 0)
  have e1 : ∑ s ∈ Finset.range m, (∑ j ∈ Finset.range n, B s j * z j) * y s = y r := by
    rw [Finset.sum_congr rfl fun s hs => by rw [hz s (Finset.mem_range.mp hs)]]
    simp only [ite_mul, one_mul, zero_mul]
    rw [Finset.sum_ite_eq' , if_pos (Finset.mem_range.mpr hr)]
  rw [← e1, ← pair_normal]
  exact Finset.sum_eq_zero fun j hj => by rw [hy j (Finset.mem_range.mp hj), mul_zero]

theorem Reaches.gram {m n : ℕ} {B : ℕ → ℕ → K} (h : Reaches m n B) : Spec.Regular m (fun r s => ∑ j ∈ Finset.range n, B r j * B s j) :=
  regular_normal (N := fun j r => B r j) (m := n) h.left_null

theorem Reaches.square {n : ℕ} {B : ℕ → ℕ → K} (h : Reaches n n B) : Spec.Regular n B := by
  have ht : Spec.Regular n (fun j r => B r j) := h.left_null
  intro x hx j hj
  obtain ⟨z, hz⟩ := Regular.solve (V := K) ht (fun i => if i = j then 1 else 0)
  simp only [smul_eq_mul] at hz
  have e1 : ∑ i ∈ Finset.range n, x i * ∑ r ∈ Finset.range n, B r i * z r = x j := by
    rw [Finset.sum_congr rfl fun s hs => by rw [hz s (Finset.mem_range.mp hs)]]
    simp only [mul_ite, mul_one, mul_zero]
    rw [Finset.sum_ite_eq', if_pos (Finset.mem_range.mpr hj)]
  rw [← e1, pair_normal]
  exact Finset.sum_eq_zero fun r hr => by rw [hx r (Finset.mem_range.mp hr), zero_mul]

/-- The least displacement: `Bᵀ y` is orthogonal to the kernel of `B`. -/
theorem gram_min {dim m n : ℕ} {B : ℕ → ℕ → K} {Y X Z : ℕ → Fin dim → K} (hX : ∀ j, j < n → X j = ∑ r ∈ Finset.range m, B r j • Y r)
    (hZ : ∀ r, r < m → ∑ j ∈ Finset.range n, B r j • Z j = ∑ j ∈ Finset.range n, B r j • X j) :
    ∑ j ∈ Finset.range n, Spec.sqDist (X j) 0 ≤ ∑ j ∈ Finset.range n, Spec.sqDist (Z j) 0 := by
  unfold Spec.sqDist
  rw [Finset.sum_comm, Finset.sum_comm (s := Finset.range n)]
  apply Finset.sum_le_sum
  intro t _
  simp only [Pi.zero_apply, sub_zero]
  have hx : ∀ j, j < n → X j t = ∑ r ∈ Finset.range m, B r j * Y r t := fun j hj => by rw [hX j hj, sum_smul_apply]
  have hz : ∀ r, r < m → ∑ j ∈ Finset.range n, B r j * (Z j t - X j t) = 0 := by
    intro r hr
    have := congrFun (hZ r hr) t
    rw [sum_smul_apply, sum_smul_apply] at this
    simp only [mul_sub, Finset.sum_sub_distrib, this, sub_self]
  have hc : ∑ j ∈ Finset.range n, (Z j t - X j t) * X j t = 0 := by
    rw [Finset.sum_congr rfl fun j hj => congrArg ((Z j t - X j t) * ·) (hx j (Finset.mem_range.mp hj))]
    rw [pair_normal m n B (fun r => Y r t) (fun j => Z j t - X j t)]
    exact Finset.sum_eq_zero fun r hr => by rw [hz r (Finset.mem_range.mp hr), zero_mul]
  have : ∑ j ∈ Finset.range n, Z j t ^ 2 = ∑ j ∈ Finset.range n, X j t ^ 2 + ∑ j ∈ Finset.range n, (Z j t - X j t) ^ 2 +
      2 * ∑ j ∈ Finset.range n, (Z j t - X j t) * X j t := by
    rw [Finset.mul_sum, ← Finset.sum_add_distrib, ← Finset.sum_add_distrib]
    exact Finset.sum_congr rfl fun j _ => by ring
  rw [this, hc, mul_zero, add_zero]
  exact le_add_of_nonneg_right (Finset.sum_nonneg fun r _ => sq_nonneg _)

/-- At most as many constraints as poles, which the poles can reach: the constraints are met. -/
theorem shapeSolve_reach {dense : ℕ → (ℕ → ℕ → K) → List V → R (List V)} (hd : Spec.SolvesDense dense) {m n : ℕ} {B : ℕ → ℕ → K}
    (hB : Reaches m n B) (hmn : m ≤ n) {DX : List V} (hl : DX.length = m) :
    ∃ DP, shapeSolve dense m n B DX = .ok DP ∧ DP.length = n ∧ (∀ r, r < m → ∑ j ∈ Finset.range n, B r j • pf DP j = pf DX r) ∧
      ((∃ Y : ℕ → V, ∀ j, j < n → pf DP j = ∑ r ∈ Finset.range m, B r j • Y r) ∨ Spec.Regular n B ∧ m = n) := by
  unfold shapeSolve
  rcases Nat.lt_or_ge m n with h | h
  · rw [if_pos h]
    obtain ⟨Y, e, -, hY⟩ := hd m _ DX hl hB.gram
    rw [e, R_bind_ok]
    have hX : ∀ j, j < n → pf ((List.range n).map fun j => ∑ r ∈ Finset.range m, B r j • Y.getD r 0) j =
        ∑ r ∈ Finset.range m, B r j • pf Y r := fun j hj => pf_map_range _ hj
    refine ⟨_, rfl, by simp, ?_, Or.inl ⟨pf Y, hX⟩⟩
    intro r hr
    rw [← hY r hr, Finset.sum_congr rfl fun j hj => by rw [hX j (Finset.mem_range.mp hj)]]
    simp only [Finset.smul_sum, Finset.sum_smul, smul_smul]
    rw [Finset.sum_comm]
  · obtain rfl : m = n := by omega
    rw [if_neg (lt_irrefl _), if_neg (lt_irrefl _)]
    obtain ⟨X, e, hXl, hX⟩ := hd m B DX hl hB.square
    exact ⟨X, e, hXl, hX, Or.inr ⟨hB.square, rfl⟩⟩

theorem shapeSolve_min {dim : ℕ} {dense : ℕ → (ℕ → ℕ → K) → List (Fin dim → K) → R (List (Fin dim → K))} (hd : Spec.SolvesDense dense) {m n : ℕ}
    {B : ℕ → ℕ → K} (hB : Reaches m n B) (hmn : m ≤ n) {DX : List (Fin dim → K)} (hl : DX.length = m) :
    ∃ DP, shapeSolve dense m n B DX = .ok DP ∧ DP.length = n ∧ (∀ r, r < m → ∑ j ∈ Finset.range n, B r j • pf DP j = pf DX r) ∧
      ∀ Z : ℕ → Fin dim → K, (∀ r, r < m → ∑ j ∈ Finset.range n, B r j • Z j = pf DX r) →
        ∑ j ∈ Finset.range n, Spec.sqDist (pf DP j) 0 ≤ ∑ j ∈ Finset.range n, Spec.sqDist (Z j) 0 := by
  obtain ⟨DP, e, l, h, c⟩ := shapeSolve_reach hd hB hmn hl
  refine ⟨DP, e, l, h, ?_⟩
  intro Z hZ
  rcases c with ⟨Y, hY⟩ | ⟨hr, rfl⟩
  · exact gram_min hY fun r hr => by rw [hZ r hr, h r hr]
  · have := Regular.unique hr (x := pf DP) (y := Z) fun i hi => by rw [h i hi, hZ i hi]
    exact le_of_eq (Finset.sum_congr rfl fun j hj => by rw [this j (Finset.mem_range.mp hj)])

/-- More constraints than poles, which they determine: least squares. -/
theorem shapeSolve_least {dim : ℕ} {dense : ℕ → (ℕ → ℕ → K) → List (Fin dim → K) → R (List (Fin dim → K))} (hd : Spec.SolvesDense dense) {m n : ℕ}
    {B : ℕ → ℕ → K} (hB : ∀ x : ℕ → K, (∀ r, r < m → ∑ j ∈ Finset.range n, B r j * x j = 0) → ∀ j, j < n → x j = 0) (hmn : n < m)
    (DX : List (Fin dim → K)) :
    ∃ DP, shapeSolve dense m n B DX = .ok DP ∧ DP.length = n ∧
      ∀ Z : ℕ → Fin dim → K, ∑ r ∈ Finset.range m, Spec.sqDist (∑ j ∈ Finset.range n, B r j • pf DP j) (pf DX r) ≤
        ∑ r ∈ Finset.range m, Spec.sqDist (∑ j ∈ Finset.range n, B r j • Z j) (pf DX r) := by
  unfold shapeSolve
  rw [if_neg (by omega), if_pos hmn]
  obtain ⟨X, e, l, hX⟩ := hd n _ (normalRhs m n B DX) (by simp [normalRhs]) (regular_normal hB)
  refine ⟨X, e, l, fun Z => lsq_min_vec ?_ Z⟩
  intro i hi
  rw [hX i hi]
  exact pf_map_range _ hi

/-! ## The matrix and the poles -/

theorem shapeMatrix_spec {eps : K} {cs : List (Constr K V)} {k : List K} {p i1 i2 : ℕ} (h12 : i1 ≤ i2 + 1) {b : ℕ → ℕ → K}
    (hb : ∀ r x, cs[r]? = some x → ∀ j, i1 ≤ j → j ≤ i2 → basisFunctionD eps k x.u p x.d j = .ok (b r j)) :
    ∃ B, shapeMatrix eps cs k p i1 i2 (i2 + 1 - i1) = .ok B ∧ ∀ r j, r < cs.length → j < i2 + 1 - i1 → B r j = b r (i1 + j) := by
  unfold shapeMatrix
  obtain ⟨B, e, h⟩ := forLt_inv (a := 0) (b := cs.length) (s := fun _ _ => (0 : K))
    (body := fun i B => do
      let c ← rd cs i
      forLe i1 i2 (fun j B => do
        let b ← basisFunctionD eps k c.u p c.d j
        matSet cs.length (i2 + 1 - i1) B i (j - i1) b) B)
    (fun i B => ∀ r j, r < i → j < i2 + 1 - i1 → B r j = b r (i1 + j)) (by omega) (fun r j hr => by omega) (by
      intro i B _ hi hB
      have hx : cs[i]? = some cs[i] := List.getElem?_eq_getElem hi
      rw [rd_eq_ok.mpr hx, R_bind_ok]
      obtain ⟨B', e, h1, h2⟩ := forLe_inv (a := i1) (b := i2) (s := B)
        (body := fun j B => do
          let b ← basisFunctionD eps k cs[i].u p cs[i].d j
          matSet cs.length (i2 + 1 - i1) B i (j - i1) b)
        (fun l B' => (∀ r j, r ≠ i → B' r j = B r j) ∧ ∀ j, i1 + j < l → B' i j = b i (i1 + j)) h12
        ⟨fun _ _ _ => rfl, fun j hj => by omega⟩ (by
          intro l B' l1 l2 ⟨g1, g2⟩
          rw [hb i _ hx l l1 l2, R_bind_ok]
          unfold matSet
          rw [if_pos ⟨hi, by omega⟩]
          refine ⟨_, rfl, ?_, ?_⟩
          · intro r j hr
            rw [if_neg (by tauto), g1 r j hr]
          · intro j hj
            by_cases hjl : j = l - i1
            · rw [if_pos ⟨rfl, hjl⟩, hjl, show i1 + (l - i1) = l by omega]
            · rw [if_neg (by tauto), g2 j (by omega)])
      refine ⟨B', e, ?_⟩
      intro r j hr hj
      by_cases hri : r = i
      · subst hri
        exact h2 j (by omega)
      · rw [h1 r j hri, hB r j (by omega) hj])
  exact ⟨B, e, fun r j hr hj => h r j hr hj⟩

/-- The poles `i1..i2` receive the displacements. -/
theorem addPoles_spec {P DP : List V} {i1 i2 : ℕ} (h12 : i1 ≤ i2 + 1) (hP : i2 + 1 ≤ P.length) (hD : DP.length = i2 + 1 - i1) :
    ∃ P', forLe i1 i2 (fun i P => do
      let x ← rd P i
      let d ← rd DP (i - i1)
      wr P i (x + d)) P = .ok P' ∧ P'.length = P.length ∧
      ∀ j, pf P' j = pf P j + if i1 ≤ j ∧ j ≤ i2 then pf DP (j - i1) else 0 := by
  obtain ⟨P', e, l, h⟩ := forLe_inv (a := i1) (b := i2) (s := P)
    (body := fun i P => do
      let x ← rd P i
      let d ← rd DP (i - i1)
      wr P i (x + d))
    (fun l P' => P'.length = P.length ∧ ∀ j, pf P' j = pf P j + if i1 ≤ j ∧ j < l then pf DP (j - i1) else 0) h12
    ⟨rfl, fun j => by rw [if_neg (by omega), add_zero]⟩ (by
      intro i P' a b ⟨l, h⟩
      rw [rd_pf (by omega), R_bind_ok, rd_pf (by omega), R_bind_ok, wr_ok (by omega)]
      refine ⟨_, rfl, by simpa using l, ?_⟩
      intro j
      rw [pf_set _ (by omega)]
      by_cases hj : j = i
      · subst hj
        rw [if_pos rfl, h j, if_neg (by omega), if_pos (by omega), add_zero]
      · rw [if_neg hj, h j]
        congr 1
        by_cases hc : i1 ≤ j ∧ j < i
        · rw [if_pos hc, if_pos (by omega)]
        · rw [if_neg hc, if_neg (by omega)])
  refine ⟨P', e, l, fun j => ?_⟩
  rw [h j]
  congr 1
  by_cases hc : i1 ≤ j ∧ j ≤ i2
  · rw [if_pos hc, if_pos (by omega)]
  · rw [if_neg hc, if_neg (by omega)]

theorem sum_range_window {M : Type} [AddCommMonoid M] {i1 i2 n : ℕ} (h12 : i1 ≤ i2 + 1) (hn : i2 + 1 ≤ n) (g : ℕ → M) :
    (∑ j ∈ Finset.range n, if i1 ≤ j ∧ j ≤ i2 then g j else 0) = ∑ l ∈ Finset.range (i2 + 1 - i1), g (i1 + l) := by
  rw [← Finset.sum_filter]
  symm
  apply Finset.sum_bij (fun l _ => i1 + l)
  · intro l hl
    have := Finset.mem_range.mp hl
    simp only [Finset.mem_filter, Finset.mem_range]; omega
  · intro a _ b _ h; omega
  · intro j hj
    simp only [Finset.mem_filter, Finset.mem_range] at hj
    exact ⟨j - i1, Finset.mem_range.mpr (by omega), by omega⟩
  · intros; rfl

theorem Reaches.congr {m n : ℕ} {B B' : ℕ → ℕ → K} (h : ∀ r j, r < m → j < n → B r j = B' r j)
    (hr : Reaches m n B') : Reaches m n B := by
  intro x
  obtain ⟨y, hy⟩ := hr x
  refine ⟨y, fun r hrm => ?_⟩
  rw [← hy r hrm]
  exact Finset.sum_congr rfl fun j hj => by rw [h r j hrm (Finset.mem_range.mp hj)]

end Gbs
