import Verif.Lemmas.Unflat
import Verif.Samples

/-! # C11: curve constructors; C23: flat and unflat knots -/

namespace Gbs

set_option linter.unusedSectionVars false

variable {K : Type} [Field K] [LinearOrder K] [IsStrictOrderedRing K]
variable {V : Type} [AddCommGroup V] [Module K V]

theorem checkCurve_sorted {eps : K} {U : List K} (hU : U.Pairwise (· ≤ ·)) (hne : U ≠ []) (np p : ℕ) :
    checkCurve eps np U p = .ok (decide (U.length = np + p + 1 ∧ p + 1 ≤ np)) := by
  obtain ⟨x, l, rfl⟩ := List.exists_cons_of_ne_nil hne
  have hs : isSorted ((unflatLoop eps x 1 l).map Prod.fst) = true := by
    rw [isSorted_iff]
    exact hU.sublist (unflatLoop_sublist eps l x 1)
  unfold checkCurve unflatKnots
  simp only [R_bind_ok, hs]
  simp only [not_true_eq_false, if_false]
  by_cases h : p + 1 + np = (x :: l).length
  · rw [if_neg (by simpa using h)]
    simp only [R_pure]
    congr 1
    rw [decide_eq_decide]
    exact ⟨fun h1 => ⟨by omega, h1⟩, fun h1 => h1.2⟩
  · rw [if_pos h]
    simp only [R_pure]
    congr 1
    symm
    rw [decide_eq_false_iff_not]
    rintro ⟨h1, -⟩
    omega

/-- C11: for sorted knots the constructor succeeds exactly when there are `|knots| - p - 1` poles, at
least `p+1` of them; poles, knots and degree are stored unchanged, the bounds are the end knots. Otherwise
it throws. -/
theorem C11_constructor (eps : K) (P : List V) {U : List K} (hU : U.Pairwise (· ≤ ·)) (hne : U ≠ [])
    (p : ℕ) :
    (U.length = P.length + p + 1 ∧ p + 1 ≤ P.length →
      Curve.mk? eps P U p = .ok ⟨p, P, U, U.head hne, U.getLast hne⟩) ∧
    (¬ (U.length = P.length + p + 1 ∧ p + 1 ≤ P.length) →
      Curve.mk? eps P U p = .error (.thrown .invalid)) := by
  unfold Curve.mk?
  rw [List.head?_eq_some_head hne, List.getLast?_eq_some_getLast hne]
  simp only [checkCurve_sorted hU hne, R_bind_ok]
  constructor
  · intro h; simp [h]
  · intro h
    rw [if_neg (by simpa using h)]

example : ([0,0,0,1,2,3,3,3] : List ℚ).length = Sample.c.poles.length + 2 + 1 ∧ 2 + 1 ≤ Sample.c.poles.length := by
  decide

/-- C11, soundness for arbitrary knots: an accepted curve has consistent sizes, stores its data unchanged and its
knots are sorted up to twice the tolerance. -/
theorem C11_accepted {eps : K} (heps : 0 ≤ eps) {P : List V} {U : List K} {p : ℕ} {c : Curve K V}
    (h : Curve.mk? eps P U p = .ok c) :
    c.deg = p ∧ c.poles = P ∧ c.knots = U ∧ U.head? = some c.b0 ∧ U.getLast? = some c.b1 ∧
      U.length = P.length + p + 1 ∧ p + 1 ≤ P.length ∧
      U.Pairwise (fun a b => a ≤ b + 2 * eps) := by
  cases U with
  | nil => simp [Curve.mk?] at h
  | cons x l =>
    have hne : x :: l ≠ [] := by simp
    unfold Curve.mk? at h
    rw [List.head?_eq_some_head hne, List.getLast?_eq_some_getLast hne] at h
    simp only [checkCurve, unflatKnots, R_bind_ok] at h
    split at h
    · simp at h
    · rename_i hs
      split at h
      · simp at h
      · rename_i hl
        by_cases hm : p + 1 ≤ P.length
        · simp [hm] at h
          subst h
          simp only [not_not, isSorted_iff] at hs
          obtain ⟨o1, o2⟩ := unflatLoop_order heps l x 1 hs
          refine ⟨rfl, rfl, rfl, rfl, rfl, ?_, hm, ?_⟩
          · omega
          · rw [List.pairwise_cons]
            exact ⟨fun y hy => by have := o1 y hy; linarith, o2⟩
        · simp [hm] at h

/-- C11 for the constructor with multiplicities. -/
theorem C11_constructor_mult (eps : K) (P : List V) {k : List K} (hk : k.Pairwise (· ≤ ·)) (hne : k ≠ [])
    (m : List ℕ) (p : ℕ) (c : Curve K V) :
    Curve.mkMult? eps P k m p = .ok c ↔
      (k.length = m.length ∧ m.sum = P.length + p + 1 ∧ p + 1 ≤ P.length ∧
        c = ⟨p, P, (k.zip m).flatMap (fun km => List.replicate km.2 km.1), k.head hne, k.getLast hne⟩) := by
  unfold Curve.mkMult? flatKnots
  by_cases hl : k.length = m.length
  · rw [if_neg (by simpa using hl), R_bind_ok, List.head?_eq_some_head hne, List.getLast?_eq_some_getLast hne]
    simp only
    have hfl := flatKnots_length k m hl
    by_cases h0 : (k.zip m).flatMap (fun km => List.replicate km.2 km.1) = []
    · rw [h0]
      rw [h0] at hfl
      simp [checkCurve, unflatKnots]
      intro _ h
      simp at hfl
      omega
    · rw [checkCurve_sorted (flatKnots_sorted k m hk) h0, R_bind_ok, hfl]
      by_cases hc : m.sum = P.length + p + 1 ∧ p + 1 ≤ P.length
      · simp only [hc, and_self, decide_true, if_true, R_pure, Except.ok.injEq, hl, true_and]
        exact eq_comm
      · rw [if_neg (by simpa using hc)]
        constructor
        · intro h; simp at h
        · rintro ⟨-, h1, h2, -⟩; exact absurd ⟨h1, h2⟩ hc
  · rw [if_pos hl]
    constructor
    · intro h; simp at h
    · rintro ⟨h, -⟩; exact absurd h hl

/-- The converse ("accepted curves have sorted knots") does not hold exactly: a decreasing pair of knots
within the tolerance is accepted. -/
theorem C11_unsorted_accepted_witness :
    ∃ c, Curve.mk? (1/1000000 : ℚ) [(0:ℚ), 1, 2] [0,0,1,2,2-1/2000000] 1 = .ok c ∧
      ¬ c.knots.Pairwise (· ≤ ·) := by
  refine ⟨⟨1, [0,1,2], [0,0,1,2,2-1/2000000], 0, 2-1/2000000⟩, ?_, ?_⟩ <;> decide +kernel

/-! ## C23 -/

theorem unflatLoop_flat {eps : K} : ∀ (l : List K) (cur : K) (m : ℕ),
    (∀ x ∈ l, ∀ y ∈ cur :: l, |x - y| ≤ eps → x = y) →
    (unflatLoop eps cur m l).flatMap (fun km => List.replicate km.2 km.1) = List.replicate m cur ++ l := by
  intro l
  induction l with
  | nil => intro cur m _; simp [unflatLoop]
  | cons x xs ih =>
    intro cur m h
    simp only [unflatLoop]
    split
    · rename_i hx
      have : x = cur := h x (by simp) cur (by simp) hx
      subst this
      rw [ih x (m+1) (fun a ha b hb => h a (by simp [ha]) b (by simp only [List.mem_cons] at hb ⊢; tauto)),
        List.replicate_succ']
      simp
    · rw [List.flatMap_cons, ih x 1 (fun a ha b hb => h a (by simp [ha]) b (by simp only [List.mem_cons] at hb ⊢; tauto))]
      simp

theorem unflatLoop_replicate {eps : K} (heps : 0 ≤ eps) (cur : K) (rest : List K) : ∀ (n m : ℕ),
    unflatLoop eps cur m (List.replicate n cur ++ rest) = unflatLoop eps cur (m + n) rest := by
  intro n
  induction n with
  | zero => intro m; simp
  | succ n ih =>
    intro m
    rw [List.replicate_succ, List.cons_append]
    simp only [unflatLoop]
    rw [if_pos (by simpa using heps), ih]
    congr 1
    omega

theorem unflatLoop_ofFlat {eps : K} (heps : 0 ≤ eps) : ∀ (km : List (K × ℕ)) (cur : K) (m : ℕ),
    (∀ x ∈ km, 1 ≤ x.2) → (((cur, m) :: km).map Prod.fst).Pairwise (fun a b => eps < |b - a|) →
    unflatLoop eps cur m (km.flatMap (fun km => List.replicate km.2 km.1)) = (cur, m) :: km := by
  intro km
  induction km with
  | nil => intro cur m _ _; rfl
  | cons a km ih =>
    intro cur m h1 h2
    obtain ⟨x, n⟩ := a
    have hn : 1 ≤ n := h1 (x, n) (by simp)
    obtain ⟨n, rfl⟩ : ∃ q, n = q + 1 := ⟨n - 1, by omega⟩
    rw [List.flatMap_cons]
    simp only [List.replicate_succ, List.cons_append, unflatLoop]
    simp only [List.map_cons, List.pairwise_cons] at h2
    have := h2.1 x (by simp)
    rw [if_neg (not_le.mpr this), unflatLoop_replicate heps, Nat.add_comm 1 n,
      ih x (n+1) (fun y hy => h1 y (by simp [hy])) (by
        simp only [List.map_cons, List.pairwise_cons]; exact h2.2)]

/-- C23: flattening what `unflat_knots` returns gives the knots back, when knots that differ do so by more than the
tolerance. -/
theorem C23_flat_unflat {eps : K} {U : List K} (hne : U ≠ [])
    (hs : ∀ x ∈ U, ∀ y ∈ U, |x - y| ≤ eps → x = y) :
    ∃ km, unflatKnots eps U = .ok km ∧ flatKnots (km.map Prod.fst) (km.map Prod.snd) = .ok U := by
  obtain ⟨x, l, rfl⟩ := List.exists_cons_of_ne_nil hne
  refine ⟨_, rfl, ?_⟩
  unfold flatKnots
  rw [if_neg (by simp)]
  have : ∀ km : List (K × ℕ), (km.map Prod.fst).zip (km.map Prod.snd) = km := by
    intro km
    induction km with
    | nil => rfl
    | cons a km ih => simp [ih]
  rw [this, unflatLoop_flat l x 1 (fun a ha b hb => hs a (by simp [ha]) b hb)]
  rfl

/-- C23: conversely `unflat_knots` recovers knots and multiplicities from the flat knots, for positive multiplicities
and knots separated by more than the tolerance. -/
theorem C23_unflat_flat {eps : K} (heps : 0 ≤ eps) {k : List K} {m : List ℕ} (hne : k ≠ [])
    (hl : k.length = m.length) (hm : ∀ a ∈ m, 1 ≤ a) (hs : k.Pairwise (fun a b => eps < |b - a|)) :
    ∃ U, flatKnots k m = .ok U ∧ unflatKnots eps U = .ok (k.zip m) := by
  obtain ⟨x, k, rfl⟩ := List.exists_cons_of_ne_nil hne
  cases m with
  | nil => simp at hl
  | cons a m =>
    simp only [List.length_cons, Nat.add_right_cancel_iff] at hl
    refine ⟨_, by unfold flatKnots; rw [if_neg (by simpa using hl)], ?_⟩
    have ha : 1 ≤ a := hm a (by simp)
    obtain ⟨a, rfl⟩ : ∃ q, a = q + 1 := ⟨a - 1, by omega⟩
    simp only [List.zip_cons_cons, List.flatMap_cons, List.replicate_succ, List.cons_append, unflatKnots]
    rw [unflatLoop_replicate heps, Nat.add_comm 1 a, unflatLoop_ofFlat heps]
    · intro y hy
      obtain ⟨y1, y2⟩ := y
      exact hm _ (List.mem_cons_of_mem _ (List.of_mem_zip hy).2)
    · simp only [List.map_cons]
      rw [List.map_fst_zip (by omega)]
      exact hs

example : (∀ x ∈ Sample.c.knots, ∀ y ∈ Sample.c.knots, |x - y| ≤ (1/1000000 : ℚ) → x = y) ∧
    ([0,1,2,3] : List ℚ).Pairwise (fun a b => 1/1000000 < |b - a|) := by
  constructor <;> decide +kernel

end Gbs
