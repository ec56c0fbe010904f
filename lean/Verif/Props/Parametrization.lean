import Verif.Props.Ranges
import Verif.Lemmas.Unflat

/-! # Parametrizations, ordered insertion, generated knots: C34, C51, C54 -/

namespace Gbs

set_option linter.unusedSectionVars false

variable {K : Type} [Field K] [LinearOrder K] [IsStrictOrderedRing K]

/-! ## C34 -/

section cumulate
variable {P : Type}

theorem cumulate_length (len : P → P → K) : ∀ (xs : List P) (k : K) (x : P), (cumulate len k x xs).length = xs.length := by
  intro xs
  induction xs with
  | nil => intro k x; rfl
  | cons y xs ih => intro k x; simp [cumulate, ih]

theorem cumulate_ge {len : P → P → K} (h0 : ∀ a b, 0 ≤ len a b) : ∀ (xs : List P) (k : K) (x : P),
    ∀ y ∈ cumulate len k x xs, k ≤ y := by
  intro xs
  induction xs with
  | nil => intro k x y hy; simp [cumulate] at hy
  | cons z xs ih =>
    intro k x y hy
    have h := h0 z x
    rw [cumulate, List.mem_cons] at hy
    rcases hy with rfl | hy
    · linarith
    · have := ih _ _ y hy; linarith

theorem cumulate_sorted {len : P → P → K} (h0 : ∀ a b, 0 ≤ len a b) : ∀ (xs : List P) (k : K) (x : P),
    (k :: cumulate len k x xs).Pairwise (· ≤ ·) := by
  intro xs
  induction xs with
  | nil => intro k x; simp [cumulate]
  | cons z xs ih =>
    intro k x
    rw [List.pairwise_cons]
    exact ⟨cumulate_ge h0 _ _ _, ih _ _⟩

theorem cumulate_strict {len : P → P → K} (h0 : ∀ a b, 0 ≤ len a b) (h1 : ∀ a b, a ≠ b → 0 < len b a) :
    ∀ (xs : List P) (k : K) (x : P), (x :: xs).IsChain (· ≠ ·) → (k :: cumulate len k x xs).Pairwise (· < ·) := by
  intro xs
  induction xs with
  | nil => intro k x _; simp [cumulate]
  | cons z xs ih =>
    intro k x hc
    rw [List.isChain_cons_cons] at hc
    have hp := ih (k + len z x) z hc.2
    have h := h1 x z hc.1
    rw [cumulate, List.pairwise_cons]
    refine ⟨?_, hp⟩
    intro y hy
    rw [List.mem_cons] at hy
    rcases hy with rfl | hy
    · linarith
    · have := (List.pairwise_cons.mp hp).1 y hy
      linarith

theorem cumulate_step (len : P → P → K) : ∀ (xs : List P) (k : K) (x : P) (i : ℕ) (a b : P),
    (x :: xs)[i]? = some a → (x :: xs)[i+1]? = some b →
    ∃ s t, (k :: cumulate len k x xs)[i]? = some s ∧ (k :: cumulate len k x xs)[i+1]? = some t ∧ t - s = len b a := by
  intro xs
  induction xs with
  | nil => intro k x i a b _ hb; simp at hb
  | cons z xs ih =>
    intro k x i a b ha hb
    cases i with
    | zero =>
      simp only [List.getElem?_cons_zero, List.getElem?_cons_succ, Option.some.injEq] at ha hb
      subst ha hb
      exact ⟨k, k + len z x, by simp, by simp [cumulate], by ring⟩
    | succ i =>
      rw [List.getElem?_cons_succ] at ha hb
      obtain ⟨s, t, e1, e2, e3⟩ := ih (k + len z x) z i a b ha hb
      exact ⟨s, t, by rw [List.getElem?_cons_succ]; exact e1, by rw [List.getElem?_cons_succ]; exact e2, e3⟩

end cumulate

theorem genSteps_sorted {step : K} (hs : 0 < step) : ∀ (n : ℕ) (k : K), (k :: genSteps step k n).Pairwise (· < ·) := by
  intro n
  induction n with
  | zero => intro k; simp [genSteps]
  | succ n ih =>
    intro k
    have hp := ih (k + step)
    rw [genSteps, List.pairwise_cons]
    refine ⟨?_, hp⟩
    intro y hy
    rw [List.mem_cons] at hy
    rcases hy with rfl | hy
    · linarith
    · have := (List.pairwise_cons.mp hp).1 y hy
      linarith

/-- Euclidean distance of two points. -/
noncomputable def eDist {dim : ℕ} (a b : Fin dim → ℝ) : ℝ := Real.sqrt (∑ i, (a i - b i) ^ 2)

theorem eDist_nonneg {dim : ℕ} (a b : Fin dim → ℝ) : 0 ≤ eDist a b := Real.sqrt_nonneg _

theorem eDist_pos {dim : ℕ} {a b : Fin dim → ℝ} (h : a ≠ b) : 0 < eDist a b := by
  apply Real.sqrt_pos.mpr
  obtain ⟨i, hi⟩ := Function.ne_iff.mp h
  apply Finset.sum_pos' (fun j _ => sq_nonneg _)
  exact ⟨i, Finset.mem_univ i, by
    have : a i - b i ≠ 0 := sub_ne_zero.mpr hi
    positivity⟩

/-- The parameter increment a mode asks for between two consecutive points of a list of `n`. -/
noncomputable def Spec.segLen {dim : ℕ} (n : ℕ) : KnotsCalcMode → (Fin dim → ℝ) → (Fin dim → ℝ) → ℝ
  | .equallySpaced, _, _ => 1 / (n - 1)
  | .chordLength, a, b => eDist b a
  | .centripetal, a, b => Real.sqrt (eDist b a)

/-- C34: for every non-empty list of points and every mode, the raw parametrization has one parameter per point, starts at
0, increases from a point to the next by the length the mode asks for, is non-decreasing and, when consecutive points
differ (or in the equally spaced mode), strictly increasing. -/
theorem C34_parametrization {dim : ℕ} (eps : ℝ) (pts : List (Fin dim → ℝ)) (hne : pts ≠ []) (mode : KnotsCalcMode) :
    ∃ k, curveParametrization eps eDist Real.sqrt pts mode false = .ok k ∧ k.length = pts.length ∧
      k.head? = some 0 ∧ k.Pairwise (· ≤ ·) ∧
      ((mode = .equallySpaced ∨ pts.IsChain (· ≠ ·)) → k.Pairwise (· < ·)) ∧
      (∀ i a b, pts[i]? = some a → pts[i+1]? = some b →
        ∃ s t, k[i]? = some s ∧ k[i+1]? = some t ∧ t - s = Spec.segLen pts.length mode a b) := by
  cases pts with
  | nil => exact absurd rfl hne
  | cons x xs =>
    unfold curveParametrization
    cases mode with
    | chordLength =>
      refine ⟨0 :: cumulate eDist 0 x xs, rfl, by simp [cumulate_length], rfl,
        cumulate_sorted eDist_nonneg _ _ _, ?_, ?_⟩
      · rintro (h | h)
        · cases h
        · exact cumulate_strict eDist_nonneg (fun a b h => eDist_pos h.symm) _ _ _ h
      · intro i a b ha hb
        exact cumulate_step eDist xs 0 x i a b ha hb
    | centripetal =>
      refine ⟨0 :: cumulate (fun a b => Real.sqrt (eDist a b)) 0 x xs, rfl, by simp [cumulate_length], rfl,
        cumulate_sorted (fun _ _ => Real.sqrt_nonneg _) _ _ _, ?_, ?_⟩
      · rintro (h | h)
        · cases h
        · exact cumulate_strict (fun _ _ => Real.sqrt_nonneg _)
            (fun a b h => Real.sqrt_pos.mpr (eDist_pos h.symm)) _ _ _ h
      · intro i a b ha hb
        exact cumulate_step (fun a b => Real.sqrt (eDist a b)) xs 0 x i a b ha hb
    | equallySpaced =>
      have hst : (0 :: genSteps (1 / (xs.length : ℝ)) 0 xs.length).Pairwise (· < ·) := by
        rcases Nat.eq_zero_or_pos xs.length with h | h
        · rw [h]; simp [genSteps]
        · exact genSteps_sorted (by positivity) _ _
      refine ⟨0 :: genSteps (1 / (xs.length : ℝ)) 0 xs.length, rfl, by simp [genSteps_length], rfl,
        hst.imp le_of_lt, fun _ => hst, ?_⟩
      intro i a b _ hb
      have hi : i < xs.length := by
        have := (List.getElem?_eq_some_iff.mp hb).1
        simpa using this
      have e : ∀ j, j ≤ xs.length → (0 :: genSteps (1 / (xs.length : ℝ)) 0 xs.length)[j]? =
          some ((j : ℝ) * (1 / (xs.length : ℝ))) := by
        intro j hj
        cases j with
        | zero => simp
        | succ j =>
          rw [List.getElem?_cons_succ, genSteps_get _ _ _ _ (by omega)]
          push_cast
          congr 1
          ring
      refine ⟨_, _, e i (by omega), e (i+1) (by omega), ?_⟩
      unfold Spec.segLen
      push_cast [List.length_cons]
      ring

theorem adimension_spec {eps : K} (heps : 0 < eps) {k : List K} (h0 : k.head? = some 0) (hs : k.Pairwise (· ≤ ·)) :
    ∃ t, k.getLast? = some t ∧ 0 ≤ t ∧
      (eps < t → adimension eps k = .ok (k.map (fun x => x / t))) ∧ (t ≤ eps → adimension eps k = .ok k) := by
  have hne : k ≠ [] := by rintro rfl; simp at h0
  obtain ⟨t, ht⟩ : ∃ t, k.getLast? = some t := ⟨_, List.getLast?_eq_some_getLast hne⟩
  have h0t : 0 ≤ t := by
    cases k with
    | nil => exact absurd rfl hne
    | cons x xs =>
      simp only [List.head?_cons, Option.some.injEq] at h0
      subst h0
      have := List.mem_of_getLast? ht
      rw [List.mem_cons] at this
      rcases this with rfl | h
      · exact le_rfl
      · exact (List.pairwise_cons.mp hs).1 t h
  refine ⟨t, ht, h0t, ?_, ?_⟩
  · intro h
    unfold adimension
    rw [h0, ht]
    simp only [sub_zero]
    rw [if_pos (by rwa [abs_of_nonneg h0t])]
    exact mapM_ok _ (fun x _ => fdiv_ok (by linarith))
  · intro h
    unfold adimension
    rw [h0, ht]
    simp only [sub_zero]
    rw [if_neg (by rw [abs_of_nonneg h0t]; exact not_lt.mpr h)]
    rfl

/-- C34, normalized: when the raw parametrization is longer than the tolerance, the normalized one is the raw one divided
by its length; it starts at 0, ends at 1 and has the same ordering. -/
theorem C34_normalized {dim : ℕ} {eps : ℝ} (heps : 0 < eps) (pts : List (Fin dim → ℝ)) (hne : pts ≠ [])
    (mode : KnotsCalcMode) :
    ∃ k0 t, curveParametrization eps eDist Real.sqrt pts mode false = .ok k0 ∧ k0.getLast? = some t ∧
      (eps < t → ∃ k, curveParametrization eps eDist Real.sqrt pts mode true = .ok k ∧ k = k0.map (fun x => x / t) ∧
        k.head? = some 0 ∧ k.getLast? = some 1 ∧ k.Pairwise (· ≤ ·) ∧
        ((mode = .equallySpaced ∨ pts.IsChain (· ≠ ·)) → k.Pairwise (· < ·))) ∧
      (t ≤ eps → curveParametrization eps eDist Real.sqrt pts mode true = .ok k0) := by
  obtain ⟨k0, e, -, h0, hs, hst, -⟩ := C34_parametrization eps pts hne mode
  obtain ⟨t, ht, h0t, a1, a2⟩ := adimension_spec heps h0 hs
  have hte : curveParametrization eps eDist Real.sqrt pts mode true = adimension eps k0 := by
    cases pts with
    | nil => exact absurd rfl hne
    | cons x xs =>
      unfold curveParametrization at e ⊢
      simp only [Bool.false_eq_true, if_false, R_pure, Except.ok.injEq] at e
      rw [← e]
      rfl
  refine ⟨k0, t, e, ht, ?_, ?_⟩
  · intro h
    have htp : 0 < t := by linarith
    refine ⟨_, by rw [hte, a1 h], rfl, ?_, ?_, ?_, ?_⟩
    · rw [List.head?_map, h0]; simp
    · rw [List.getLast?_map, ht]; simp [htp.ne']
    · rw [List.pairwise_map]
      exact hs.imp (fun hab => div_le_div_of_nonneg_right hab htp.le)
    · intro hc
      rw [List.pairwise_map]
      exact (hst hc).imp (fun hab => div_lt_div_of_pos_right hab htp)
  · intro h
    rw [hte, a2 h]

example : ([fun _ => 0, fun _ => 3] : List (Fin 1 → ℝ)) ≠ [] ∧
    ([fun _ => 0, fun _ => 3] : List (Fin 1 → ℝ)).IsChain (· ≠ ·) := by
  constructor
  · simp
  · simp only [List.isChain_cons_cons, List.isChain_singleton, and_true]
    intro h
    have := congrFun h 0
    norm_num at this

/-- C34: `adimension` brings the length to 1 but not the values to [0,1] (it does not subtract the first one), and does
nothing to a list shorter than the tolerance. -/
theorem C34_adimension_witness :
    adimension (1/1000000 : ℚ) [1, 2, 3] = .ok [1/2, 1, 3/2] ∧
    adimension (1/1000000 : ℚ) [0, 1/2000000] = .ok [0, 1/2000000] := by
  constructor <;> decide +kernel

/-! ## C51 -/

theorem insertOrdered_eq (L : List K) (v : K) : insertOrdered L v = L.orderedInsert (· ≤ ·) v := by
  unfold insertOrdered lowerBound
  induction L with
  | nil => simp
  | cons x xs ih =>
    rw [List.orderedInsert_cons, List.findIdx_cons]
    by_cases h : v ≤ x
    · simp [h]
    · simp only [h, decide_false, cond_false, List.insertIdx_succ_cons, if_false]
      rw [ih]

theorem insertUniqueOrdered_eq (L : List K) (v tol : K) :
    insertUniqueOrdered L v tol =
      match L[lowerBound L v]? with
      | none => insertOrdered L v
      | some x => if tol < |v - x| then insertOrdered L v else L := rfl

/-- C51, ordered insertion: the result is the list with the value added, and is sorted. -/
theorem C51_insert_ordered {L : List K} (hL : L.Pairwise (· ≤ ·)) (v : K) :
    (insertOrdered L v).Pairwise (· ≤ ·) ∧ (insertOrdered L v).Perm (v :: L) := by
  rw [insertOrdered_eq]
  exact ⟨hL.orderedInsert v L, List.perm_orderedInsert _ _ _⟩

example : ([1, 2, 2, 5] : List ℚ).Pairwise (· ≤ ·) := by decide

/-- C51, tolerant insertion (partial: see `C51_duplicate_below_witness`): the result is sorted; the value is added exactly
when no element lies in `[v, v + tol]`, and otherwise the list is unchanged. Elements of `[v - tol, v)`, which are as close
to `v`, do not prevent the insertion. -/
theorem C51_insert_unique_partial {L : List K} (hL : L.Pairwise (· ≤ ·)) (v : K) {tol : K} (htol : 0 ≤ tol) :
    (insertUniqueOrdered L v tol).Pairwise (· ≤ ·) ∧
    ((∀ x ∈ L, ¬ (v ≤ x ∧ x ≤ v + tol)) → (insertUniqueOrdered L v tol).Perm (v :: L)) ∧
    ((∃ x ∈ L, v ≤ x ∧ x ≤ v + tol) → insertUniqueOrdered L v tol = L) := by
  obtain ⟨h1, h2⟩ := C51_insert_ordered hL v
  rw [insertUniqueOrdered_eq]
  have hm := kf_mono hL
  by_cases hi : lowerBound L v < L.length
  · have hv := le_kf_lowerBound hi
    rw [kf_getElem? hi]
    have hmem : kf L (lowerBound L v) ∈ L := by rw [kf_of_lt hi]; exact List.getElem_mem _
    have habs : |v - kf L (lowerBound L v)| = kf L (lowerBound L v) - v := by
      rw [abs_sub_comm, abs_of_nonneg (by linarith)]
    dsimp only
    rw [habs]
    by_cases ht : tol < kf L (lowerBound L v) - v
    · rw [if_pos ht]
      refine ⟨h1, fun _ => h2, ?_⟩
      rintro ⟨x, hx, hvx, hxt⟩
      exfalso
      obtain ⟨j, hj, rfl⟩ := List.getElem_of_mem hx
      rw [← kf_of_lt hj] at hvx hxt
      rcases Nat.lt_or_ge j (lowerBound L v) with h | h
      · have := kf_lt_of_lt_lowerBound h; linarith
      · have := hm h; linarith
    · rw [if_neg ht]
      refine ⟨hL, fun h => ?_, fun _ => rfl⟩
      exact absurd ⟨hv, by linarith [not_lt.mp ht]⟩ (h _ hmem)
  · have hn : L[lowerBound L v]? = none := List.getElem?_eq_none (by omega)
    rw [hn]
    refine ⟨h1, fun _ => h2, ?_⟩
    rintro ⟨x, hx, hvx, -⟩
    exfalso
    obtain ⟨j, hj, rfl⟩ := List.getElem_of_mem hx
    rw [← kf_of_lt hj] at hvx
    have := kf_lt_of_lt_lowerBound (u := v) (show j < lowerBound L v by omega)
    linarith

/-- C51 does not hold: a value already present just below, within the tolerance, is inserted again. -/
theorem C51_duplicate_below_witness :
    insertUniqueOrdered [(1 : ℚ)] (1 + 1/2000000) (1/1000000) = [1, 1 + 1/2000000] := by
  decide +kernel

/-! ## C54 -/

/-- A knot table with `p + 1` equal knots at each end and strictly increasing knots in between is admissible. -/
theorem table_wf {V : Type} {n p : ℕ} {k : List K} {u1 u2 : K} {g : ℕ → K} (hn : p + 1 ≤ n) (hlen : k.length = n + p + 1)
    (h12 : u1 < u2) (ha : ∀ j, j ≤ p → k[j]? = some u1) (hb : ∀ j, n ≤ j → j ≤ n + p → k[j]? = some u2)
    (hg : ∀ j, 1 ≤ j → j < n - p → k[p + j]? = some (g j))
    (hg1 : ∀ j, 1 ≤ j → j < n - p → u1 < g j ∧ g j < u2)
    (hg2 : ∀ i j, 1 ≤ i → i < j → j < n - p → g i ≤ g j) (P : List V) (hP : P.length = n) : Wf p k P := by
  have hka : ∀ j, j ≤ p → kf k j = u1 := fun j hj => by
    have := ha j hj
    rw [kf_getElem? (by omega)] at this
    exact Option.some.inj this
  have hkb : ∀ j, n ≤ j → j ≤ n + p → kf k j = u2 := fun j hj hj2 => by
    have := hb j hj hj2
    rw [kf_getElem? (by omega)] at this
    exact Option.some.inj this
  have hkg : ∀ j, p < j → j < n → kf k j = g (j - p) := fun j hj hj2 => by
    have := hg (j - p) (by omega) (by omega)
    rw [show p + (j - p) = j by omega, kf_getElem? (by omega)] at this
    exact Option.some.inj this
  refine ⟨?_, by omega, by omega, ?_, ?_⟩
  · rw [List.pairwise_iff_getElem]
    intro i j hi hj hij
    rw [← kf_of_lt hi, ← kf_of_lt hj]
    rcases Nat.lt_or_ge p i with hi1 | hi1
    · rcases Nat.lt_or_ge i n with hi2 | hi2
      · rw [hkg i hi1 hi2]
        rcases Nat.lt_or_ge j n with hj2 | hj2
        · rw [hkg j (by omega) hj2]
          exact hg2 _ _ (by omega) (by omega) (by omega)
        · rw [hkb j hj2 (by omega)]
          exact (hg1 _ (by omega) (by omega)).2.le
      · rw [hkb i hi2 (by omega), hkb j (by omega) (by omega)]
    · rw [hka i hi1]
      rcases Nat.lt_or_ge p j with hj1 | hj1
      · rcases Nat.lt_or_ge j n with hj2 | hj2
        · rw [hkg j hj1 hj2]
          exact (hg1 _ (by omega) (by omega)).1.le
        · rw [hkb j hj2 (by omega)]
          exact h12.le
      · rw [hka j hj1]
  · rw [hka p le_rfl]
    rcases Nat.lt_or_ge (p + 1) n with h | h
    · rw [hkg _ (by omega) h]
      exact (hg1 _ (by omega) (by omega)).1
    · rw [hkb _ h (by omega)]
      exact h12
  · rw [hP, hkb n le_rfl (by omega)]
    rcases Nat.lt_or_ge p (n - 1) with h | h
    · rw [hkg _ h (by omega)]
      exact (hg1 _ (by omega) (by omega)).2
    · rw [hka _ h]
      exact h12

theorem fillEnds {n p : ℕ} (u1 u2 : K) (hn : p + 1 ≤ n) :
    ∃ k', (forLt 0 (p + 1) (fun j k => wr k j u1) (List.replicate (n + p + 1) 0) >>= fun k =>
        forLt (n + p + 1 - p - 1) (n + p + 1) (fun j k => wr k j u2) k) = .ok k' ∧ k'.length = n + p + 1 ∧
      (∀ j, j ≤ p → k'[j]? = some u1) ∧ (∀ j, n ≤ j → j ≤ n + p → k'[j]? = some u2) := by
  obtain ⟨k1, e1, l1, g1⟩ := fillLt_spec (a := 0) (b := p + 1) (D := List.replicate (n + p + 1) (0 : K))
    (fun j k => wr k j u1) (fun _ => u1)
    (fun i s _ h2 hs => wr_ok (by rw [hs, List.length_replicate]; omega))
    (by rw [List.length_replicate]; omega)
  rw [List.length_replicate] at l1
  obtain ⟨k2, e2, l2, g2⟩ := fillLt_spec (a := n + p + 1 - p - 1) (b := n + p + 1) (D := k1)
    (fun j k => wr k j u2) (fun _ => u2) (fun i s _ h2 hs => wr_ok (by omega)) (by omega)
  refine ⟨k2, by rw [e1, R_bind_ok, e2], by omega, ?_, ?_⟩
  · intro j hj
    rw [g2, if_neg (by omega), g1, if_pos (by omega)]
  · intro j hj hj2
    rw [g2, if_pos (by omega)]

/-- C54, uniform knots: for `u1 < u2` and at least `p + 1` poles the generated vector has the size the constructors
require, `p + 1` knots at each bound, interior knots regularly spaced and simple; a curve built on it is admissible. -/
theorem C54_uniform_knots {V : Type} {n p : ℕ} {u1 u2 : K} (hn : p + 1 ≤ n) (h12 : u1 < u2) :
    ∃ k, buildSimpleMultFlatKnots u1 u2 n p = .ok k ∧ k.length = n + p + 1 ∧
      (∀ j, j ≤ p → k[j]? = some u1) ∧ (∀ j, n ≤ j → j ≤ n + p → k[j]? = some u2) ∧
      (∀ j, 1 ≤ j → j < n - p → k[p + j]? = some (u1 + (u2 - u1) * j / ((n - p : ℕ) + 1))) ∧
      ∀ P : List V, P.length = n → Wf p k P := by
  obtain ⟨k0, e0, l0, a0, b0⟩ := fillEnds u1 u2 hn
  have hd : (0 : K) < (n : K) - p + 1 := by
    have : (p : K) ≤ n := by exact_mod_cast (by omega : p ≤ n)
    linarith
  have hcast : ((n - p : ℕ) : K) = n - p := by
    rw [Nat.cast_sub (by omega)]
  obtain ⟨k, e, l, hh⟩ := forLt_inv (a := 1) (b := n - p) (s := k0)
    (body := fun j k => do
      let q ← fdiv ((u2 - u1) * j) ((n : K) - p + 1)
      wr k (j + p) (u1 + q))
    (fun i k => k.length = n + p + 1 ∧ ∀ j, k[j]? = if p + 1 ≤ j ∧ j < p + i then
      some (u1 + (u2 - u1) * ((j - p : ℕ) : K) / ((n - p : ℕ) + 1)) else k0[j]?) (by omega)
    ⟨l0, fun j => by rw [if_neg (by omega)]⟩
    (by
      intro i s h1 h2 ⟨g1, g2⟩
      refine ⟨_, by rw [fdiv_ok hd.ne', R_bind_ok]; exact wr_ok (by omega), by simp [g1], ?_⟩
      intro j
      rw [List.getElem?_set]
      by_cases hj : i + p = j
      · subst hj
        rw [if_pos rfl, if_pos (by omega), if_pos (by omega), show i + p - p = i by omega, hcast]
      · rw [if_neg hj, g2 j]
        congr 1
        apply propext
        omega)
  have hA : ∀ j, j ≤ p → k[j]? = some u1 := fun j hj => by rw [hh, if_neg (by omega)]; exact a0 j hj
  have hB : ∀ j, n ≤ j → j ≤ n + p → k[j]? = some u2 := fun j hj hj2 => by
    rw [hh, if_neg (by omega)]; exact b0 j hj hj2
  have hG : ∀ j, 1 ≤ j → j < n - p → k[p + j]? = some (u1 + (u2 - u1) * j / ((n - p : ℕ) + 1)) := fun j h1 h2 => by
    rw [hh, if_pos (by omega), show p + j - p = j by omega]
  refine ⟨k, ?_, l, hA, hB, hG, ?_⟩
  · unfold buildSimpleMultFlatKnots
    dsimp only
    rw [← bind_assoc, e0, R_bind_ok, usub_ok (by omega), R_bind_ok]
    exact e
  · intro P hP
    have hd' : (0 : K) < ((n - p : ℕ) : K) + 1 := by positivity
    refine table_wf hn l h12 hA hB hG ?_ ?_ P hP
    · intro j h1 h2
      have hj : (0 : K) < j := by exact_mod_cast h1
      have hj2 : (j : K) < ((n - p : ℕ) : K) + 1 := by
        have : (j : K) < ((n - p : ℕ) : K) := by exact_mod_cast h2
        linarith
      have hw : 0 < u2 - u1 := by linarith
      constructor
      · have : 0 < (u2 - u1) * j / (((n - p : ℕ) : K) + 1) := by positivity
        linarith
      · have : (u2 - u1) * j / (((n - p : ℕ) : K) + 1) < u2 - u1 := by
          rw [div_lt_iff₀ hd']
          exact mul_lt_mul_of_pos_left hj2 hw
        linarith
    · intro i j h1 h2 h3
      have hij : (i : K) < j := by exact_mod_cast h2
      have hw : 0 < u2 - u1 := by linarith
      have : (u2 - u1) * i / (((n - p : ℕ) : K) + 1) < (u2 - u1) * j / (((n - p : ℕ) : K) + 1) :=
        div_lt_div_of_pos_right (mul_lt_mul_of_pos_left hij hw) hd'
      linarith

/-- C54, averaged knots: for sorted parameters and `1 ≤ p`, with at least `p + 1` parameters, of which at most `p` are equal to the
first one and at most `p` to the last one, the generated vector has one knot more than parameters plus degree, `p + 1` knots at the first
and last parameters, and the averages of `p` consecutive parameters in between; a curve built on it is admissible. -/
theorem C54_averaged_knots_repeated {V : Type} {p : ℕ} {u : List K} (hp : 1 ≤ p) (hn : p + 1 ≤ u.length)
    (hu : u.Pairwise (· ≤ ·)) (hfirst : kf u 0 < kf u p) (hlast : kf u (u.length - 1 - p) < kf u (u.length - 1)) :
    ∃ k, averagedFlatKnots u p = .ok k ∧ k.length = u.length + p + 1 ∧
      (∀ j, j ≤ p → k[j]? = u[0]?) ∧ (∀ j, u.length ≤ j → j ≤ u.length + p → k[j]? = u[u.length - 1]?) ∧
      (∀ j, 1 ≤ j → j < u.length - p → k[p + j]? = some ((∑ i ∈ Finset.range p, kf u (j + i)) / p)) ∧
      ∀ P : List V, P.length = u.length → Wf p k P := by
  set n := u.length with hndef
  obtain ⟨k0, e0, l0, a0, b0⟩ := fillEnds (kf u 0) (kf u (n - 1)) hn
  have hpK : (0 : K) < p := by exact_mod_cast hp
  have hle : ∀ i j, i ≤ j → kf u i ≤ kf u j := fun i j hij => kf_mono hu hij
  have h12 : kf u 0 < kf u (n - 1) := lt_of_lt_of_le hfirst (hle _ _ (by omega))
  have hinner : ∀ j (s : List K), 1 ≤ j → j < n - p → s.length = n + p + 1 →
      (do
        let k ← wr s (j + p) 0
        forLe j (j + p - 1) (fun i k => do
          let ui ← rd u i
          let q ← fdiv ui (p : K)
          let x ← rd k (j + p)
          wr k (j + p) (x + q)) k) = .ok (s.set (j + p) ((∑ i ∈ Finset.range p, kf u (j + i)) / p)) := by
    intro j s h1 h2 hs
    rw [wr_ok (by omega), R_bind_ok]
    obtain ⟨s', e, h⟩ := forLe_inv (a := j) (b := j + p - 1) (s := s.set (j + p) 0)
      (body := fun i k => do
          let ui ← rd u i
          let q ← fdiv ui (p : K)
          let x ← rd k (j + p)
          wr k (j + p) (x + q))
      (fun i k => k = s.set (j + p) ((∑ i ∈ Finset.range (i - j), kf u (j + i)) / p)) (by omega)
      (by simp)
      (by
        rintro i k g1 g2 rfl
        refine ⟨_, ?_, rfl⟩
        rw [rd_kf (by omega), R_bind_ok, fdiv_ok hpK.ne', R_bind_ok, rd_eq_ok.mpr (by rw [getElem?_set_of_lt (by omega), if_pos rfl]), R_bind_ok,
          wr_ok (by simp; omega), List.set_set, show i + 1 - j = (i - j) + 1 by omega, Finset.sum_range_succ,
          show j + (i - j) = i by omega, add_div])
    rw [e, h, show j + p - 1 + 1 - j = p by omega]
  have hA' : ∀ j, j ≤ p → k0[j]? = u[0]? := fun j hj => by rw [a0 j hj, kf_getElem? (by omega)]
  have hB' : ∀ j, n ≤ j → j ≤ n + p → k0[j]? = u[n - 1]? := fun j hj hj2 => by
    rw [b0 j hj hj2, kf_getElem? (by omega)]
  have hmain : ∃ k, averagedFlatKnots u p = .ok k ∧ k.length = n + p + 1 ∧
      ∀ j, k[j]? = if p + 1 ≤ j ∧ j < n then some ((∑ i ∈ Finset.range p, kf u (j - p + i)) / p) else k0[j]? := by
    have hstart : averagedFlatKnots u p = if 2 < n then
        forLt 1 (n - p) (fun j k => do
          let k ← wr k (j + p) 0
          forLe j (j + p - 1) (fun i k => do
            let ui ← rd u i
            let q ← fdiv ui (p : K)
            let x ← rd k (j + p)
            wr k (j + p) (x + q)) k) k0 else pure k0 := by
      unfold averagedFlatKnots
      dsimp only
      rw [rd_kf (by omega), R_bind_ok, ← hndef, usub_ok (by omega), R_bind_ok, rd_kf (by omega), R_bind_ok, ← bind_assoc, e0,
        R_bind_ok, usub_ok (by omega)]
      rfl
    rw [hstart]
    by_cases h2n : 2 < n
    · rw [if_pos h2n]
      obtain ⟨k, e, l, hh⟩ := forLt_inv (a := 1) (b := n - p) (s := k0)
        (body := fun j k => do
          let k ← wr k (j + p) 0
          forLe j (j + p - 1) (fun i k => do
            let ui ← rd u i
            let q ← fdiv ui (p : K)
            let x ← rd k (j + p)
            wr k (j + p) (x + q)) k)
        (fun i k => k.length = n + p + 1 ∧ ∀ j, k[j]? = if p + 1 ≤ j ∧ j < p + i then
          some ((∑ i ∈ Finset.range p, kf u (j - p + i)) / p) else k0[j]?) (by omega)
        ⟨l0, fun j => by rw [if_neg (by omega)]⟩
        (by
          intro i s h1 h2 ⟨g1, g2⟩
          refine ⟨_, hinner i s h1 h2 g1, by simp [g1], ?_⟩
          intro j
          rw [List.getElem?_set]
          by_cases hj : i + p = j
          · subst hj
            rw [if_pos rfl, if_pos (by omega), if_pos (by omega), show i + p - p = i by omega]
          · rw [if_neg hj, g2 j]
            congr 1
            apply propext
            omega)
      refine ⟨k, e, l, fun j => ?_⟩
      rw [hh]
      congr 1
      apply propext
      omega
    · rw [if_neg h2n]
      exact ⟨k0, rfl, l0, fun j => by rw [if_neg (by omega)]⟩
  obtain ⟨k, e, l, hh⟩ := hmain
  have hA : ∀ j, j ≤ p → k[j]? = u[0]? := fun j hj => by rw [hh, if_neg (by omega)]; exact hA' j hj
  have hB : ∀ j, n ≤ j → j ≤ n + p → k[j]? = u[n - 1]? := fun j hj hj2 => by
    rw [hh, if_neg (by omega)]; exact hB' j hj hj2
  have hG : ∀ j, 1 ≤ j → j < n - p → k[p + j]? = some ((∑ i ∈ Finset.range p, kf u (j + i)) / p) := fun j h1 h2 => by
    rw [hh, if_pos (by omega), show p + j - p = j by omega]
  refine ⟨k, e, l, hA, hB, hG, ?_⟩
  intro P hP
  have hpne : (Finset.range p).Nonempty := ⟨0, Finset.mem_range.mpr (by omega)⟩
  have hconst : ∀ x : K, ∑ _i ∈ Finset.range p, x = x * p := fun x => by simp [mul_comm]
  refine table_wf hn l h12 (fun j hj => by rw [hA j hj, kf_getElem? (by omega)])
    (fun j hj hj2 => by rw [hB j hj hj2, kf_getElem? (by omega)]) hG ?_ ?_ P hP
  · intro j h1 h2
    rw [lt_div_iff₀ hpK, div_lt_iff₀ hpK, ← hconst, ← hconst]
    constructor
    · apply Finset.sum_lt_sum
      · intro i hi
        exact hle _ _ (by omega)
      · exact ⟨p - 1, Finset.mem_range.mpr (by omega), lt_of_lt_of_le hfirst (hle _ _ (by omega))⟩
    · apply Finset.sum_lt_sum
      · intro i hi
        rw [Finset.mem_range] at hi
        exact hle _ _ (by omega)
      · exact ⟨0, Finset.mem_range.mpr (by omega), lt_of_le_of_lt (hle _ _ (by omega)) hlast⟩
  · intro i j h1 h2 h3
    apply div_le_div_of_nonneg_right _ hpK.le
    apply Finset.sum_le_sum
    intro l hl
    exact hle _ _ (by omega)

/-- C54, averaged knots of strictly increasing parameters. -/
theorem C54_averaged_knots {V : Type} {p : ℕ} {u : List K} (hp : 1 ≤ p) (hn : p + 1 ≤ u.length)
    (hu : u.Pairwise (· < ·)) :
    ∃ k, averagedFlatKnots u p = .ok k ∧ k.length = u.length + p + 1 ∧
      (∀ j, j ≤ p → k[j]? = u[0]?) ∧ (∀ j, u.length ≤ j → j ≤ u.length + p → k[j]? = u[u.length - 1]?) ∧
      (∀ j, 1 ≤ j → j < u.length - p → k[p + j]? = some ((∑ i ∈ Finset.range p, kf u (j + i)) / p)) ∧
      ∀ P : List V, P.length = u.length → Wf p k P := by
  have hlt : ∀ i j, i < j → j < u.length → kf u i < kf u j := by
    intro i j hij hj
    rw [kf_of_lt (by omega), kf_of_lt (by omega)]
    exact List.pairwise_iff_getElem.mp hu i j _ _ hij
  exact C54_averaged_knots_repeated hp hn (hu.imp le_of_lt) (hlt _ _ (by omega) (by omega)) (hlt _ _ (by omega) (by omega))

/-- A position and a tangent at each end: parameters `0, 0, 1, 1` at degree 3. -/
example : ([0, 0, 1, 1] : List ℚ).Pairwise (· ≤ ·) ∧ kf [0, 0, 1, (1 : ℚ)] 0 < kf [0, 0, 1, (1 : ℚ)] 3 ∧
    kf [0, 0, 1, (1 : ℚ)] (4 - 1 - 3) < kf [0, 0, 1, (1 : ℚ)] (4 - 1) := by
  decide +kernel

/-- C54: the averaging at degree 0 writes null knots between the bounds; the vector is not sorted. -/
theorem C54_degree_zero_witness : averagedFlatKnots [(1 : ℚ), 2, 3] 0 = .ok [1, 0, 0, 3] := by
  decide +kernel

/-- C54: too few poles for the degree make the unsigned pole count wrap around. -/
theorem C54_too_few_poles {n p : ℕ} {u1 u2 : K} (hn : n < p) :
    buildSimpleMultFlatKnots u1 u2 n p = .error .oob := by
  obtain ⟨k1, e1, l1, -⟩ := fillLt_spec (a := 0) (b := p + 1) (D := List.replicate (n + p + 1) (0 : K))
    (fun j k => wr k j u1) (fun _ => u1)
    (fun i s _ h2 hs => wr_ok (by rw [hs, List.length_replicate]; omega))
    (by rw [List.length_replicate]; omega)
  rw [List.length_replicate] at l1
  obtain ⟨k2, e2, -, -⟩ := fillLt_spec (a := n + p + 1 - p - 1) (b := n + p + 1) (D := k1)
    (fun j k => wr k j u2) (fun _ => u2) (fun i s _ h2 hs => wr_ok (by omega)) (by omega)
  unfold buildSimpleMultFlatKnots
  dsimp only
  rw [e1, R_bind_ok, e2, R_bind_ok]
  simp [usub, hn.not_ge]

example : (2 : ℕ) + 1 ≤ 4 ∧ (0 : ℚ) < 1 ∧ ([0, 1, 3, 4] : List ℚ).Pairwise (· < ·) := by decide

/-- C54, repeated knots: from strictly increasing knots `x, ys…, z`, `build_mult_flat_knots` repeats the ends `p + 1` times
and each interior knot `mult` times; the vector has the size required for `p + 1 + mult * #ys` poles, and a curve built on it
is admissible. -/
theorem C54_mult_knots {V : Type} {p mult : ℕ} {x z : K} {ys : List K} (hk : (x :: (ys ++ [z])).Pairwise (· < ·)) :
    ∃ k, buildMultFlatKnots (x :: (ys ++ [z])) p mult = .ok k ∧
      k = List.replicate (p + 1) x ++ (ys.flatMap (fun y => List.replicate mult y) ++ List.replicate (p + 1) z) ∧
      ∀ P : List V, P.length = p + 1 + mult * ys.length → Wf p k P := by
  have hz : ∀ l : List K, ((l ++ [z]).zip (List.replicate l.length mult ++ [p + 1])).flatMap
      (fun km => List.replicate km.2 km.1) = l.flatMap (fun y => List.replicate mult y) ++ List.replicate (p + 1) z := by
    intro l
    induction l with
    | nil => simp
    | cons y l ih =>
      simp only [List.cons_append, List.length_cons, List.replicate_succ (n := l.length), List.zip_cons_cons,
        List.flatMap_cons, ih, List.append_assoc]
  have hl : ∀ l : List K, (l.flatMap (fun y => List.replicate mult y)).length = mult * l.length := by
    intro l
    induction l with
    | nil => simp
    | cons y l ih => simp [ih]; ring
  have hflat : buildMultFlatKnots (x :: (ys ++ [z])) p mult = .ok (List.replicate (p + 1) x ++
      (ys.flatMap (fun y => List.replicate mult y) ++ List.replicate (p + 1) z)) := by
    unfold buildMultFlatKnots flatKnots
    rw [if_neg (by simp), if_neg (by simp)]
    simp only [List.length_cons, List.length_append, List.length_nil, Nat.zero_add,
      List.zip_cons_cons, List.flatMap_cons, show ys.length + 1 + 1 - 2 = ys.length by omega, hz]
  refine ⟨_, hflat, rfl, ?_⟩
  intro P hP
  have hs : (List.replicate (p + 1) x ++ (ys.flatMap (fun y => List.replicate mult y) ++
      List.replicate (p + 1) z)).Pairwise (· ≤ ·) := by
    have h := flatKnots_sorted (x :: (ys ++ [z])) ((p + 1) :: (List.replicate ys.length mult ++ [p + 1]))
      (hk.imp le_of_lt)
    rwa [List.zip_cons_cons, List.flatMap_cons, hz] at h
  rw [List.pairwise_cons] at hk
  obtain ⟨hx, hyz⟩ := hk
  rw [List.pairwise_append] at hyz
  have hy : ∀ y ∈ ys, x < y ∧ y < z := fun y h =>
    ⟨hx y (List.mem_append_left _ h), hyz.2.2 y h z (List.mem_singleton.mpr rfl)⟩
  have hxz : x < z := hx z (by simp)
  set k := List.replicate (p + 1) x ++ (ys.flatMap (fun y => List.replicate mult y) ++ List.replicate (p + 1) z)
    with hkdef
  have hlen : k.length = P.length + p + 1 := by
    rw [hkdef]; simp only [List.length_append, List.length_replicate, hl]; omega
  have h1 : ∀ j, j ≤ p → kf k j = x := by
    intro j hj
    have h : k[j]? = some x := by
      rw [hkdef, List.getElem?_append_left (by simp; omega), List.getElem?_replicate, if_pos (by omega)]
    rw [kf_getElem? (by omega)] at h
    exact Option.some.inj h
  have h2 : ∀ j, P.length ≤ j → j < k.length → kf k j = z := by
    intro j hj hj2
    have h : k[j]? = some z := by
      rw [hkdef, List.getElem?_append_right (by simp; omega), List.getElem?_append_right (by simp [hl]; omega),
        List.getElem?_replicate, if_pos (by simp [hl]; omega)]
    rw [kf_getElem? hj2] at h
    exact Option.some.inj h
  have h3 : ∀ j, p < j → j < P.length → x < kf k j ∧ kf k j < z := by
    intro j hj hj2
    have hjl : j - (p + 1) < (ys.flatMap (fun y => List.replicate mult y)).length := by rw [hl]; omega
    have h : k[j]? = some (ys.flatMap (fun y => List.replicate mult y))[j - (p + 1)] := by
      rw [hkdef, List.getElem?_append_right (by simp; omega), List.length_replicate, List.getElem?_append_left hjl]
      exact List.getElem?_eq_getElem _
    rw [kf_getElem? (by omega)] at h
    rw [Option.some.inj h]
    have hm := List.getElem_mem hjl
    rw [List.mem_flatMap] at hm
    obtain ⟨y, hy1, hy2⟩ := hm
    rw [(List.mem_replicate.mp hy2).2]
    exact hy y hy1
  refine ⟨hs, hlen, by omega, ?_, ?_⟩
  · rw [h1 p le_rfl]
    rcases Nat.lt_or_ge (p + 1) P.length with h | h
    · exact (h3 _ (by omega) h).1
    · rw [h2 _ h (by omega)]; exact hxz
  · rw [h2 P.length le_rfl (by omega)]
    rcases Nat.lt_or_ge p (P.length - 1) with h | h
    · exact (h3 _ h (by omega)).2
    · rw [h1 _ h]; exact hxz

end Gbs
