import Verif.Lemmas.InsertCurve
import Verif.Lemmas.Mult
import Verif.Props.Constructor

/-! # Flat knots given by distinct values and multiplicities -/

namespace Gbs

set_option linter.unusedSectionVars false

variable {K : Type} [Field K] [LinearOrder K] [IsStrictOrderedRing K]
variable {V : Type} [AddCommGroup V] [Module K V]

/-- The knots `w 0, …, w (m-1)`, each with its multiplicity. -/
def flatF (w : ℕ → K) (f : ℕ → ℕ) (m : ℕ) : List K := (List.range m).flatMap fun i => List.replicate (f i) (w i)

/-- `m + 1` values with gaps larger than `eps`. -/
def Gaps (eps : K) (w : ℕ → K) (m : ℕ) : Prop := ∀ i, i < m → w i + eps < w (i + 1)

theorem Gaps.lt {eps : K} (heps : 0 ≤ eps) {w : ℕ → K} {m : ℕ} (h : Gaps eps w m) {i j : ℕ} (hij : i < j) (hj : j ≤ m) :
    w i + eps < w j := by
  induction j with
  | zero => omega
  | succ j ih =>
    rcases Nat.lt_or_ge i j with h1 | h1
    · have := ih h1 (by omega)
      have := h j (by omega)
      linarith
    · obtain rfl : i = j := by omega
      exact h i (by omega)

theorem Gaps.lt' {eps : K} (heps : 0 ≤ eps) {w : ℕ → K} {m : ℕ} (h : Gaps eps w m) {i j : ℕ} (hij : i < j) (hj : j ≤ m) : w i < w j := by
  have := h.lt heps hij hj; linarith

theorem Gaps.le {eps : K} (heps : 0 ≤ eps) {w : ℕ → K} {m : ℕ} (h : Gaps eps w m) {i j : ℕ} (hij : i ≤ j) (hj : j ≤ m) : w i ≤ w j := by
  rcases Nat.lt_or_ge i j with h1 | h1
  · exact (h.lt' heps h1 hj).le
  · obtain rfl : i = j := by omega
    exact le_rfl

theorem Gaps.inj {eps : K} (heps : 0 ≤ eps) {w : ℕ → K} {m : ℕ} (h : Gaps eps w m) {i j : ℕ} (hi : i ≤ m) (hj : j ≤ m) (he : w i = w j) : i = j := by
  rcases Nat.lt_trichotomy i j with h1 | h1 | h1
  · exact absurd he (h.lt' heps h1 hj).ne
  · exact h1
  · exact absurd he (h.lt' heps h1 hi).ne'

theorem flatF_succ (w : ℕ → K) (f : ℕ → ℕ) (m : ℕ) : flatF w f (m + 1) = flatF w f m ++ List.replicate (f m) (w m) := by
  unfold flatF
  rw [List.range_succ, List.flatMap_append]
  simp

theorem flatF_length_succ (w : ℕ → K) (f : ℕ → ℕ) (m : ℕ) : (flatF w f (m + 1)).length = (flatF w f m).length + f m := by
  rw [flatF_succ]; simp

theorem flatF_length_mono (w : ℕ → K) (f : ℕ → ℕ) {i j : ℕ} (h : i ≤ j) : (flatF w f i).length ≤ (flatF w f j).length := by
  induction j with
  | zero => obtain rfl : i = 0 := by omega
            exact le_rfl
  | succ j ih =>
    rcases Nat.lt_or_ge i (j + 1) with h1 | h1
    · rw [flatF_length_succ]; have := ih (by omega); omega
    · obtain rfl : i = j + 1 := by omega
      exact le_rfl

theorem flatF_prefix (w : ℕ → K) (f : ℕ → ℕ) {i j : ℕ} (h : i ≤ j) : flatF w f i <+: flatF w f j := by
  induction j with
  | zero => obtain rfl : i = 0 := by omega
            exact List.prefix_rfl
  | succ j ih =>
    rcases Nat.lt_or_ge i (j + 1) with h1 | h1
    · exact (ih (by omega)).trans ⟨_, (flatF_succ w f j).symm⟩
    · obtain rfl : i = j + 1 := by omega
      exact List.prefix_rfl

theorem kf_flatF (w : ℕ → K) (f : ℕ → ℕ) {i m x : ℕ} (hi : i < m) (h1 : (flatF w f i).length ≤ x) (h2 : x < (flatF w f i).length + f i) :
    kf (flatF w f m) x = w i := by
  obtain ⟨l, hl⟩ := flatF_prefix w f (show i + 1 ≤ m by omega)
  have hlen : x < (flatF w f (i + 1)).length := by rw [flatF_length_succ]; exact h2
  have e : (flatF w f m)[x]? = some (w i) := by
    rw [← hl, List.getElem?_append_left hlen, flatF_succ, List.getElem?_append_right h1, List.getElem?_replicate, if_pos (by omega)]
  unfold kf
  rw [e]
  rfl

theorem count_flatF (w : ℕ → K) (f : ℕ → ℕ) (m : ℕ) (x : K) : (flatF w f m).count x = ∑ i ∈ Finset.range m, if w i = x then f i else 0 := by
  induction m with
  | zero => simp [flatF]
  | succ m ih =>
    rw [flatF_succ, List.count_append, ih, Finset.sum_range_succ, List.count_replicate]
    simp

theorem count_flatF_self {eps : K} (heps : 0 ≤ eps) {w : ℕ → K} {f : ℕ → ℕ} {m i : ℕ} (h : Gaps eps w m) (hi : i ≤ m) :
    (flatF w f (m + 1)).count (w i) = f i := by
  rw [count_flatF, Finset.sum_eq_single i]
  · rw [if_pos rfl]
  · intro j hj hne
    rw [if_neg]
    intro he
    exact hne (h.inj heps (by have := Finset.mem_range.mp hj; omega) hi he)
  · intro hc; exact absurd (Finset.mem_range.mpr (by omega)) hc

theorem mem_flatF {w : ℕ → K} {f : ℕ → ℕ} {m : ℕ} {x : K} (h : x ∈ flatF w f m) : ∃ i, i < m ∧ x = w i := by
  unfold flatF at h
  rw [List.mem_flatMap] at h
  obtain ⟨i, h1, h2⟩ := h
  exact ⟨i, List.mem_range.mp h1, (List.mem_replicate.mp h2).2⟩

theorem flatF_sorted {w : ℕ → K} {f : ℕ → ℕ} {m : ℕ} (h : ∀ i j, i ≤ j → j < m → w i ≤ w j) : (flatF w f m).Pairwise (· ≤ ·) := by
  induction m with
  | zero => simp [flatF]
  | succ m ih =>
    rw [flatF_succ, List.pairwise_append]
    refine ⟨ih (fun i j h1 h2 => h i j h1 (by omega)), ?_, ?_⟩
    · rw [List.pairwise_replicate]; right; exact le_rfl
    · intro x hx y hy
      obtain ⟨i, hi, rfl⟩ := mem_flatF hx
      rw [(List.mem_replicate.mp hy).2]
      exact h i m (by omega) (by omega)

theorem Gaps.flatF_sorted {eps : K} (heps : 0 ≤ eps) {w : ℕ → K} {m : ℕ} (h : Gaps eps w m) (f : ℕ → ℕ) : (flatF w f (m + 1)).Pairwise (· ≤ ·) :=
  Gbs.flatF_sorted fun _ _ h1 h2 => h.le heps h1 (by omega)

/-- A sorted list with the right counts. -/
theorem eq_flatF {w : ℕ → K} {f : ℕ → ℕ} {m : ℕ} {L : List K} (h : ∀ i j, i ≤ j → j < m → w i ≤ w j) (hL : L.Pairwise (· ≤ ·))
    (hc : ∀ x, L.count x = (flatF w f m).count x) : L = flatF w f m := by
  have hp : L.Perm (flatF w f m) := List.perm_iff_count.mpr hc
  exact hp.eq_of_pairwise (fun a b _ _ h1 h2 => le_antisymm h1 h2) hL (flatF_sorted h)

theorem flatF_congr {w : ℕ → K} {f g : ℕ → ℕ} {m : ℕ} (h : ∀ i, i < m → f i = g i) : flatF w f m = flatF w g m := by
  induction m with
  | zero => rfl
  | succ m ih => rw [flatF_succ, flatF_succ, ih (fun i hi => h i (by omega)), h m (by omega)]

/-- Inserting copies of one of the values. -/
theorem insKnots_flatF {eps : K} (heps : 0 ≤ eps) {w : ℕ → K} {f g : ℕ → ℕ} {m i k r : ℕ} (h : Gaps eps w m) (hi : i ≤ m)
    (hg : ∀ j, j ≤ m → g j = if j = i then f i + r else f j)
    (hs : (insKnots (flatF w f (m + 1)) k r (w i)).Pairwise (· ≤ ·)) :
    insKnots (flatF w f (m + 1)) k r (w i) = flatF w g (m + 1) := by
  apply eq_flatF (fun _ _ h1 h2 => h.le heps h1 (by omega)) hs
  intro x
  rw [(insKnots_perm _ _ _ _).count_eq, List.count_append, List.count_replicate, count_flatF, count_flatF]
  have : ∑ j ∈ Finset.range (m + 1), (if w j = x then g j else 0) =
      ∑ j ∈ Finset.range (m + 1), ((if w j = x then f j else 0) + (if j = i then (if w j = x then r else 0) else 0)) := by
    apply Finset.sum_congr rfl
    intro j hj
    rw [hg j (by have := Finset.mem_range.mp hj; omega)]
    by_cases hji : j = i
    · subst hji; simp only [if_true]; split <;> omega
    · simp only [if_neg hji, Nat.add_zero]
  rw [this, Finset.sum_add_distrib, Finset.sum_ite_eq' _ i, if_pos (Finset.mem_range.mpr (by omega)), Nat.add_comm]
  simp

/-- `unflat_knots` on such knots. -/
theorem unflat_flatF {eps : K} (heps : 0 ≤ eps) {w : ℕ → K} {f : ℕ → ℕ} {m : ℕ} (h : Gaps eps w m) (hf : ∀ i, i ≤ m → 1 ≤ f i) :
    unflatKnots eps (flatF w f (m + 1)) = .ok ((List.range (m + 1)).map fun i => (w i, f i)) := by
  have hz : ((List.range (m + 1)).map w).zip ((List.range (m + 1)).map f) = (List.range (m + 1)).map fun i => (w i, f i) := by
    rw [List.zip_map']
  obtain ⟨U, e1, e2⟩ := C23_unflat_flat heps (k := (List.range (m + 1)).map w) (m := (List.range (m + 1)).map f) (by simp) (by simp)
    (by
      intro a ha
      rw [List.mem_map] at ha
      obtain ⟨i, h1, rfl⟩ := ha
      exact hf i (by have := List.mem_range.mp h1; omega))
    (by
      rw [List.pairwise_map]
      apply (List.pairwise_lt_range (n := m + 1)).imp_of_mem
      intro a b _ hb hab
      have := h.lt heps hab (by have := List.mem_range.mp hb; omega)
      rw [abs_of_pos (by linarith)]
      linarith)
  have : U = flatF w f (m + 1) := by
    unfold flatKnots at e1
    rw [if_neg (by simp), hz, List.flatMap_map] at e1
    exact (Except.ok.inj e1).symm
  rw [← this, e2, hz]

section
variable {eps : K} {w : ℕ → K} {f : ℕ → ℕ} {m p n : ℕ}

/-- The index of the span `[w i, w (i+1))`. -/
def spanF (w : ℕ → K) (f : ℕ → ℕ) (i : ℕ) : ℕ := (flatF w f (i + 1)).length - 1

theorem spanF_left (hi : i < m) (hf : ∀ i, i ≤ m → 1 ≤ f i) : kf (flatF w f (m + 1)) (spanF w f i) = w i := by
  have h1 := hf i (by omega)
  apply kf_flatF w f (by omega) <;> unfold spanF <;> rw [flatF_length_succ] <;> omega

theorem spanF_right (hi : i < m) (hf : ∀ i, i ≤ m → 1 ≤ f i) : kf (flatF w f (m + 1)) (spanF w f i + 1) = w (i + 1) := by
  have h1 := hf i (by omega)
  have h2 := hf (i + 1) (by omega)
  have h3 := flatF_length_succ w f i
  apply kf_flatF w f (by omega) <;> unfold spanF <;> omega

theorem spanF_step (hi : i + 1 ≤ m) (hf : ∀ i, i ≤ m → 1 ≤ f i) : spanF w f (i + 1) = spanF w f i + f (i + 1) := by
  have h1 := hf i (by omega)
  have h3 := flatF_length_succ w f i
  have h4 := flatF_length_succ w f (i + 1)
  unfold spanF
  omega

theorem flatF_length_zero (w : ℕ → K) (f : ℕ → ℕ) : (flatF w f 0).length = 0 := by simp [flatF]

theorem spanF_ge (h0 : p + 1 ≤ f 0) (i : ℕ) : p ≤ spanF w f i := by
  have h1 := flatF_length_mono w f (show 1 ≤ i + 1 by omega)
  have h2 : (flatF w f 1).length = _ := flatF_length_succ w f 0
  have h3 := flatF_length_zero w f
  unfold spanF
  omega

theorem spanF_lt (hlen : (flatF w f (m + 1)).length = n + p + 1) (hmp : f m = p + 1) (hf : ∀ i, i ≤ m → 1 ≤ f i) (hi : i < m) :
    spanF w f i < n := by
  have h1 := flatF_length_mono w f (show i + 1 ≤ m by omega)
  have h2 := flatF_length_succ w f m
  have h3 := flatF_length_succ w f i
  have h4 := hf i (by omega)
  unfold spanF
  omega

theorem kf_flatF_first (h0 : f 0 = p + 1) : kf (flatF w f (m + 1)) p = w 0 := by
  have h3 := flatF_length_zero w f
  exact kf_flatF w f (by omega) (by omega) (by omega)

theorem kf_flatF_last (hm : f m = p + 1) (hlen : (flatF w f (m + 1)).length = n + p + 1) : kf (flatF w f (m + 1)) n = w m := by
  have h2 := flatF_length_succ w f m
  exact kf_flatF w f (by omega) (by omega) (by omega)

theorem wf_flatF (heps : 0 ≤ eps) (h : Gaps eps w m) (hm : 1 ≤ m) (hf : ∀ i, i ≤ m → 1 ≤ f i) (h0 : f 0 = p + 1) (hl : f m = p + 1)
    {P : List V} (hlen : (flatF w f (m + 1)).length = P.length + p + 1) : Wf p (flatF w f (m + 1)) P := by
  have h1 := flatF_length_mono w f (show 1 ≤ m by omega)
  have h2 := flatF_length_succ w f m
  have h3 : (flatF w f 1).length = _ := flatF_length_succ w f 0
  have h4 := flatF_length_zero w f
  refine ⟨h.flatF_sorted heps f, hlen, by omega, ?_, ?_⟩
  · have e : spanF w f 0 = p := by unfold spanF; simp only [Nat.zero_add]; omega
    have a := spanF_left (w := w) (i := 0) (m := m) (by omega) hf
    have b := spanF_right (w := w) (i := 0) (m := m) (by omega) hf
    rw [e] at a b
    rw [a, b]
    exact h.lt' heps (by omega) (by omega)
  · have h5 := flatF_length_succ w f (m - 1)
    rw [show m - 1 + 1 = m by omega] at h5
    have e : spanF w f (m - 1) = P.length - 1 := by unfold spanF; rw [show m - 1 + 1 = m by omega]; omega
    have a := spanF_left (w := w) (i := m - 1) (m := m) (by omega) hf
    rw [e] at a
    rw [a, kf_flatF_last hl hlen]
    exact h.lt' heps (by omega) le_rfl

theorem upperBound_flatF (heps : 0 ≤ eps) (h : Gaps eps w m) (hf : ∀ i, i ≤ m → 1 ≤ f i) {i : ℕ} (hi : i < m) :
    upperBound (flatF w f (m + 1)) (w i) = spanF w f i + 1 := by
  have hU := h.flatF_sorted heps f
  have hm := kf_mono hU
  have a := spanF_left (w := w) hi hf
  have b := spanF_right (w := w) hi hf
  have hw := h.lt' heps (show i < i + 1 by omega) (by omega)
  have h1 := flatF_length_mono w f (show i + 1 + 1 ≤ m + 1 by omega)
  have h2 := flatF_length_succ w f (i + 1)
  have h3 := hf (i + 1) (by omega)
  have h4 := flatF_length_succ w f i
  have h5 := hf i (by omega)
  have hlt : spanF w f i + 1 < (flatF w f (m + 1)).length := by unfold spanF; omega
  rcases Nat.lt_trichotomy (upperBound (flatF w f (m + 1)) (w i)) (spanF w f i + 1) with hc | hc | hc
  · have x := lt_kf_upperBound (U := flatF w f (m + 1)) (u := w i) (by omega)
    have y := hm (show upperBound (flatF w f (m + 1)) (w i) ≤ spanF w f i by omega)
    rw [a] at y
    exact absurd (lt_of_lt_of_le x y) (lt_irrefl _)
  · exact hc
  · have x := kf_le_of_lt_upperBound hc
    rw [b] at x
    exact absurd hw (not_lt.mpr x)

theorem multOf_flatF (heps : 0 ≤ eps) (h : Gaps eps w m) {i : ℕ} (hi : i ≤ m) : multOf (flatF w f (m + 1)) (w i) = f i := by
  rw [← count_eq_multOf (h.flatF_sorted heps f), count_flatF_self heps h hi]

end
end Gbs
