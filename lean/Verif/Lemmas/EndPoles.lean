import Verif.Lemmas.DerivCurve

/-!
# The poles near the ends of a clamped curve and its derivatives there
-/

namespace Gbs

set_option linter.unusedSectionVars false

variable {K : Type} [Field K] [LinearOrder K] [IsStrictOrderedRing K]
variable {V : Type} [AddCommGroup V] [Module K V]

theorem seg_eq_replicate {t : ℕ → K} {a : K} {i p : ℕ} (h : ∀ j, i ≤ j → j < i + p → t j = a) : seg t i p = List.replicate p a := by
  apply List.ext_getElem (by simp [seg])
  intro j h1 h2
  simp only [seg, List.length_map, List.length_range'] at h1
  simp only [seg, List.getElem_map, List.getElem_range', List.getElem_replicate]
  exact h _ (by omega) (by omega)

theorem derP_eq_zero {t : ℕ → K} {p : ℕ} (hp : 1 ≤ p) {c : ℕ → V} {i : ℕ} (hlt : t (i + 1) < t (i + p + 1)) (h : derP t p c i = 0) : c (i + 1) = c i := by
  unfold derP at h
  have h1 : ((p : K) * (t (i + p + 1) - t (i + 1))⁻¹) ≠ 0 :=
    mul_ne_zero (by exact_mod_cast (by omega : p ≠ 0)) (inv_ne_zero (sub_pos.mpr hlt).ne')
  rcases smul_eq_zero.mp h with h | h
  · exact absurd h h1
  · exact sub_eq_zero.mp h

/-- A curve whose derivatives up to the order `m` vanish at its clamped start has its `m + 1` first poles null. -/
theorem start_poles_zero {a : K} : ∀ (m p n : ℕ) {t : ℕ → K} (_ : Monotone t) (c : ℕ → V), m ≤ p → p < n →
    (∀ j, 1 ≤ j → j ≤ p → t j = a) → t p < t (p + 1) → (∀ j, p + 1 ≤ j → a < t j) →
    (∀ d, d ≤ m → spanDer t n p p c d a = 0) → ∀ i, i ≤ m → c i = 0 := by
  have base : ∀ (p n : ℕ) {t : ℕ → K} (_ : Monotone t) (c : ℕ → V), p < n → (∀ j, 1 ≤ j → j ≤ p → t j = a) → t p < t (p + 1) →
      spanDer t n p p c 0 a = c 0 := by
    intro p n t ht c hn hj hlt
    rw [spanDer_zero t le_rfl hn, ← seg_eq_replicate (t := t) (i := 1) (p := p) (fun j h1 h2 => hj j h1 (by omega))]
    exact bl_dual ht hlt p c 0 le_rfl (by omega) (by omega)
  intro m
  induction m with
  | zero =>
    intro p n t ht c _ hn hj hlt _ hz i hi
    obtain rfl : i = 0 := by omega
    rw [← base p n ht c hn hj hlt]
    exact hz 0 le_rfl
  | succ m ih =>
    intro p n t ht c hm hn hj hlt hgt hz
    obtain ⟨p, rfl⟩ : ∃ q, p = q + 1 := ⟨p - 1, by omega⟩
    have ht' : Monotone (fun j => t (j + 1)) := fun x y h => ht (by omega)
    have h0 : c 0 = 0 := by
      rw [← base (p + 1) n ht c hn hj hlt]
      exact hz 0 (by omega)
    have hd := ih p (n - 1) ht' (derP t (p + 1) c) (by omega) (by omega) (fun j h1 h2 => hj (j + 1) (by omega) (by omega))
      hlt (fun j h => hgt (j + 1) (by omega)) (fun d hd => by
        have := hz (d + 1) (by omega)
        rw [spanDer_succ ht le_rfl hn] at this
        exact this)
    intro i
    induction i with
    | zero => intro _; exact h0
    | succ i ihi =>
      intro hi
      rw [derP_eq_zero (by omega) ?_ (hd i (by omega))]
      · exact ihi (by omega)
      · rw [hj (i + 1) (by omega) (by omega)]
        exact hgt _ (by omega)

/-- The value of a curve at its clamped end is its last pole. -/
theorem spanDer_end {b : K} {p n : ℕ} {t : ℕ → K} (ht : Monotone t) (c : ℕ → V) (hn : p + 1 ≤ n) (hj : ∀ j, n ≤ j → j < n + p → t j = b)
    (hlt : t (n - 1) < t n) : spanDer t n p (n - 1) c 0 b = c (n - 1) := by
  rw [spanDer_zero t (by omega) (by omega), ← seg_eq_replicate (t := t) (i := n) (p := p) hj]
  have hlt' : t (n - 1) < t (n - 1 + 1) := by rw [Nat.sub_add_cancel (by omega)]; exact hlt
  have := bl_dual ht hlt' p c (n - 1) (by omega) (by omega) (by omega)
  rwa [Nat.sub_add_cancel (by omega)] at this

/-- A curve whose last pole is null and whose second derivative vanishes at its clamped end has its last pole but one null if the one before it is. -/
theorem end_second_zero {b : K} {p n : ℕ} {t : ℕ → K} (ht : Monotone t) (c : ℕ → V) (hp : 2 ≤ p) (hn : p + 1 ≤ n)
    (hj : ∀ j, n ≤ j → j < n + p → t j = b) (hlt : t (n - 1) < t n) (h2 : spanDer t n p (n - 1) c 2 b = 0)
    (hl : c (n - 1) = 0) (hll : c (n - 3) = 0) : c (n - 2) = 0 := by
  obtain ⟨p, rfl⟩ : ∃ q, p = q + 2 := ⟨p - 2, by omega⟩
  obtain ⟨n, rfl⟩ : ∃ q, n = q + 3 := ⟨n - 3, by omega⟩
  have ht1 : Monotone (fun j => t (j + 1)) := fun x y h => ht (by omega)
  have ht2 : Monotone (fun j => t (j + 1 + 1)) := fun x y h => ht (by omega)
  simp only [show n + 3 - 1 = n + 2 by omega, show n + 3 - 2 = n + 1 by omega, show n + 3 - 3 = n by omega] at *
  rw [spanDer_succ ht (by omega) (by omega), spanDer_succ ht1 (by omega) (by omega)] at h2
  have h3 := spanDer_end (b := b) (p := p) (n := n + 1) ht2 (derP (fun j => t (j + 1)) (p + 1) (derP t (p + 2) c)) (by omega)
    (fun j h1 h2 => hj _ (by omega) (by omega)) (by simpa using hlt)
  rw [show n + 3 - 1 - 1 = n + 1 by omega, show n + 2 - 1 - 1 = n by omega] at h2
  rw [show n + 1 - 1 = n by omega] at h3
  rw [h3] at h2
  have e1 : t (n + 2) < b := by rw [← hj (n + 3) le_rfl (by omega)]; exact hlt
  have h4 := derP_eq_zero (t := fun j => t (j + 1)) (by omega) (by
    show t (n + 1 + 1) < t (n + (p + 1) + 1 + 1)
    rw [hj (n + (p + 1) + 1 + 1) (by omega) (by omega)]
    exact e1) h2
  unfold derP at h4
  rw [hl, hll, zero_sub, sub_zero, smul_neg, ← neg_smul] at h4
  have e2 : t (n + 1 + (p + 2) + 1) = b := hj _ (by omega) (by omega)
  have e3 : t (n + (p + 2) + 1) = b := hj _ (by omega) (by omega)
  rw [e2, e3] at h4
  have h5 : ((p + 2 : ℕ) : K) * (b - t (n + 1))⁻¹ + ((p + 2 : ℕ) : K) * (b - t (n + 1 + 1))⁻¹ > 0 := by
    have : t (n + 1) ≤ t (n + 2) := ht (by omega)
    have q1 : (0 : K) < ((p + 2 : ℕ) : K) := by exact_mod_cast (by omega : 0 < p + 2)
    exact add_pos (mul_pos q1 (inv_pos.mpr (by linarith))) (mul_pos q1 (inv_pos.mpr (by linarith)))
  have h6 : (((p + 2 : ℕ) : K) * (b - t (n + 1))⁻¹ + ((p + 2 : ℕ) : K) * (b - t (n + 1 + 1))⁻¹) • c (n + 1) = 0 := by
    rw [add_smul, ← h4, ← add_smul, neg_add_cancel, zero_smul]
  rcases smul_eq_zero.mp h6 with h | h
  · exact absurd h h5.ne'
  · exact h

end Gbs
