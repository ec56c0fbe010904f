import Verif.Model.Curve
import Verif.Lemmas.Knots

/-! # Lemmas on `unflat_knots`, `flat_knots` and `std::is_sorted` -/

namespace Gbs

set_option linter.unusedSectionVars false

variable {K : Type} [Field K] [LinearOrder K] [IsStrictOrderedRing K]

theorem isSorted_iff (l : List K) : isSorted l = true ↔ l.Pairwise (· ≤ ·) := by
  induction l with
  | nil => simp [isSorted]
  | cons x l ih =>
    cases l with
    | nil => simp [isSorted]
    | cons y l =>
      simp only [isSorted, Bool.and_eq_true, decide_eq_true_eq, not_lt]
      rw [ih, List.pairwise_cons (a := x) (l := y :: l)]
      constructor
      · rintro ⟨h1, h2⟩
        refine ⟨?_, h2⟩
        intro z hz
        rcases List.mem_cons.mp hz with rfl | hz
        · exact h1
        · exact le_trans h1 ((List.pairwise_cons.mp h2).1 z hz)
      · rintro ⟨h1, h2⟩
        exact ⟨h1 y (by simp), h2⟩

/-- The knots kept by `unflat_knots` are a sub-list of the flat knots. -/
theorem unflatLoop_sublist (eps : K) : ∀ (l : List K) (cur : K) (m : ℕ),
    ((unflatLoop eps cur m l).map Prod.fst).Sublist (cur :: l) := by
  intro l
  induction l with
  | nil => intro cur m; simp [unflatLoop]
  | cons x xs ih =>
    intro cur m
    simp only [unflatLoop]
    split
    · exact (ih cur (m+1)).trans (List.Sublist.cons_cons _ (List.sublist_cons_self _ _))
    · simp only [List.map_cons]
      exact (ih x 1).cons_cons _

theorem unflatLoop_head (eps : K) : ∀ (l : List K) (cur : K) (m : ℕ),
    ∃ m' r, unflatLoop eps cur m l = (cur, m') :: r := by
  intro l
  induction l with
  | nil => intro cur m; exact ⟨m, [], rfl⟩
  | cons x xs ih =>
    intro cur m
    simp only [unflatLoop]
    split
    · exact ih cur (m+1)
    · exact ⟨m, _, rfl⟩

/-- Every flat knot is within the tolerance of a kept one, and kept knots come in order. -/
theorem unflatLoop_order {eps : K} (heps : 0 ≤ eps) : ∀ (l : List K) (cur : K) (m : ℕ),
    ((unflatLoop eps cur m l).map Prod.fst).Pairwise (· ≤ ·) →
    (∀ x ∈ l, cur ≤ x + eps) ∧ l.Pairwise (fun a b => a ≤ b + 2 * eps) := by
  intro l
  induction l with
  | nil => intro cur m _; simp
  | cons x xs ih =>
    intro cur m h
    simp only [unflatLoop] at h
    split at h
    · rename_i hx
      obtain ⟨h1, h2⟩ := ih cur (m+1) h
      rw [abs_le] at hx
      refine ⟨?_, ?_⟩
      · intro y hy
        rcases List.mem_cons.mp hy with rfl | hy
        · linarith
        · exact h1 y hy
      · rw [List.pairwise_cons]
        refine ⟨?_, h2⟩
        intro y hy
        have := h1 y hy
        linarith
    · rw [List.map_cons, List.pairwise_cons] at h
      obtain ⟨h0, h⟩ := h
      obtain ⟨h1, h2⟩ := ih x 1 h
      obtain ⟨m', r, hr⟩ := unflatLoop_head eps xs x 1
      have hcx : cur ≤ x := h0 x (by rw [hr]; simp)
      refine ⟨?_, ?_⟩
      · intro y hy
        rcases List.mem_cons.mp hy with rfl | hy
        · linarith
        · have := h1 y hy; linarith
      · rw [List.pairwise_cons]
        exact ⟨fun y hy => by have := h1 y hy; linarith, h2⟩

theorem flatKnots_length (k : List K) : ∀ (m : List ℕ), k.length = m.length →
    ((k.zip m).flatMap (fun km => List.replicate km.2 km.1)).length = m.sum := by
  induction k with
  | nil => intro m h; have : m = [] := List.length_eq_zero_iff.mp (by simpa using h.symm); simp [this]
  | cons x k ih =>
    intro m h
    cases m with
    | nil => simp at h
    | cons a m => simp at h; simp [ih m h]

theorem mem_flat {k : List K} {m : List ℕ} {x : K}
    (h : x ∈ (k.zip m).flatMap (fun km => List.replicate km.2 km.1)) : x ∈ k := by
  rw [List.mem_flatMap] at h
  obtain ⟨⟨a, b⟩, h1, h2⟩ := h
  have := List.mem_replicate.mp h2
  rw [this.2]
  exact (List.of_mem_zip h1).1

theorem flatKnots_sorted (k : List K) : ∀ (m : List ℕ), k.Pairwise (· ≤ ·) →
    ((k.zip m).flatMap (fun km => List.replicate km.2 km.1)).Pairwise (· ≤ ·) := by
  induction k with
  | nil => intro m _; simp
  | cons x k ih =>
    intro m h
    cases m with
    | nil => simp
    | cons a m =>
      rw [List.pairwise_cons] at h
      simp only [List.zip_cons_cons, List.flatMap_cons]
      rw [List.pairwise_append]
      refine ⟨?_, ih m h.2, ?_⟩
      · rw [List.pairwise_replicate]; right; exact le_rfl
      · intro y hy z hz
        rw [List.mem_replicate] at hy
        rw [hy.2]
        exact h.1 z (mem_flat hz)

end Gbs
