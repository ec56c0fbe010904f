import Verif.Lemmas.Elevate
import Verif.Lemmas.Insert

/-! # Knot removal: the mathematics

`t` is a knot sequence in which `u` has the multiplicity `s`, at the indices `r - s + 1, …, r`. The knot is removable `T` times when the
blossoms of the two spans around it agree as soon as `s - T` arguments are `u`. -/

namespace Gbs

set_option linter.unusedSectionVars false

variable {K : Type} [Field K] [LinearOrder K] [IsStrictOrderedRing K]
variable {V : Type} [AddCommGroup V] [Module K V]

/-- The knots without the last `T` copies of the knot ending at the index `r`. -/
def tRem (t : ℕ → K) (r T : ℕ) (j : ℕ) : K := if j + T ≤ r then t j else t (j + T)

/-- `u` is an interior knot of multiplicity `s` ending at the index `r`. -/
structure RemOk (t : ℕ → K) (n p r s : ℕ) (u : K) : Prop where
  mono : Monotone t
  mult : ∀ j, r < j + s → j ≤ r → t j = u
  below : t (r - s) < u
  above : u < t (r + 1)
  ps : p + s ≤ r
  rn : r < n
  sp : s ≤ p
  spos : 1 ≤ s

section
variable {t : ℕ → K} {n p r s : ℕ} {u : K}

theorem RemOk.tl (h : RemOk t n p r s u) : t (r - s) < t (r - s + 1) := by
  have := h.ps; have := h.spos
  rw [h.mult (r - s + 1) (by omega) (by omega)]; exact h.below

theorem RemOk.tr (h : RemOk t n p r s u) : t r < t (r + 1) := by
  have := h.ps; have := h.spos
  rw [h.mult r (by omega) (by omega)]; exact h.above

theorem RemOk.low (h : RemOk t n p r s u) {j : ℕ} (hj : j + s ≤ r) : t j < u :=
  lt_of_le_of_lt (h.mono (by omega)) h.below

theorem RemOk.high (h : RemOk t n p r s u) {j : ℕ} (hj : r < j) : u < t j :=
  lt_of_lt_of_le h.above (h.mono hj)

theorem RemOk.bF (h : RemOk t n p r s u) (c : ℕ → V) : IsBlossom p (bl t (r - s) c) :=
  bl_isBlossom h.mono h.tl (by have := h.ps; omega) c

theorem RemOk.bG (h : RemOk t n p r s u) (c : ℕ → V) : IsBlossom p (bl t r c) :=
  bl_isBlossom h.mono h.tr (by have := h.ps; omega) c

theorem RemOk.tRem_mono (h : RemOk t n p r s u) (T : ℕ) : Monotone (tRem t r T) := by
  intro a b hab
  unfold tRem
  split <;> split
  · exact h.mono hab
  · exact h.mono (by omega)
  · omega
  · exact h.mono (by omega)

theorem RemOk.tRem_u (h : RemOk t n p r s u) {T j : ℕ} (h1 : r < j + s) (h2 : j + T ≤ r) : tRem t r T j = u := by
  unfold tRem; rw [if_pos h2]; exact h.mult j h1 (by omega)

/-- The blossom of the left span at consecutive remaining knots: the poles after `T` removals. -/
def remQ (t : ℕ → K) (p r s : ℕ) (c : ℕ → V) (T m : ℕ) : V := bl t (r - s) c (seg (tRem t r T) (m + 1) p)

theorem remQ_low (h : RemOk t n p r s u) (c : ℕ → V) {T m : ℕ} (h1 : m + p + T ≤ r) (h2 : r ≤ m + s + p) :
    remQ t p r s c T m = c m := by
  have hps := h.ps; have hsp := h.sp
  unfold remQ
  rw [show seg (tRem t r T) (m + 1) p = seg t (m + 1) p by
    apply seg_congr; intro j hj; unfold tRem; rw [if_pos (by omega)]]
  exact bl_dual h.mono h.tl p c m (by omega) (by omega) (by omega)

/-- The window contains all the remaining copies of `u`. -/
theorem RemOk.seg_split (h : RemOk t n p r s u) {T m : ℕ} (hT : T ≤ s) (h1 : r ≤ m + p + T) (h2 : m + s ≤ r) :
    (seg (tRem t r T) (m + 1) p).Perm (List.replicate (s - T) u ++
      (seg (tRem t r T) (m + 1) (r - s - m) ++ seg (tRem t r T) (r - T + 1) (m + p + T - r))) := by
  have hps := h.ps
  have e := seg_perm_sub (tRem t r T) (a := m + 1) (n := p) (b := r - s + 1) (m := s - T) (by omega) (by omega)
  rw [seg_const (u := u) (a := r - s + 1) (n := s - T) (fun j hj => h.tRem_u (by omega) (by omega))] at e
  rw [show r - s + 1 - (m + 1) = r - s - m by omega, show r - s + 1 + (s - T) = r - T + 1 by omega,
    show m + 1 + p - (r - T + 1) = m + p + T - r by omega] at e
  exact e

theorem remF_eq_G (h : RemOk t n p r s u) {c : ℕ → V} {N T m : ℕ} (hA : AgreeAt p (bl t (r - s) c) (bl t r c) u (s - N))
    (hTN : T ≤ N) (hN : N ≤ s) (h1 : r ≤ m + p + T) (h2 : m + s ≤ r) :
    bl t (r - s) c (seg (tRem t r T) (m + 1) p) = bl t r c (seg (tRem t r T) (m + 1) p) := by
  have e := h.seg_split (T := T) (m := m) (by omega) h1 h2
  rw [(h.bF c).perm (by simp) e, (h.bG c).perm (by simp) e]
  exact (hA.mono (s' := s - T) (by omega)) _ (by simp; omega)

theorem remG_high (h : RemOk t n p r s u) (c : ℕ → V) {T m : ℕ} (hT : T ≤ s) (h1 : r ≤ m + s) (h2 : m + T ≤ r) :
    bl t r c (seg (tRem t r T) (m + 1) p) = c (m + T) := by
  have hps := h.ps; have hsp := h.sp
  rw [show seg (tRem t r T) (m + 1) p = seg t (m + T + 1) p by
    apply seg_congr
    intro j hj
    by_cases hc : m + 1 + j + T ≤ r
    · rw [h.tRem_u (by omega) hc, h.mult _ (by omega) (by omega)]
    · unfold tRem
      rw [if_neg hc]
      congr 1
      omega]
  exact bl_dual h.mono h.tr p c (m + T) (by omega) (by omega) (by omega)

theorem remQ_high (h : RemOk t n p r s u) {c : ℕ → V} {N T : ℕ} (hA : AgreeAt p (bl t (r - s) c) (bl t r c) u (s - N))
    (hTN : T ≤ N) (hN : N ≤ s) : remQ t p r s c T (r - s) = c (r - s + T) := by
  have hps := h.ps; have hsp := h.sp
  unfold remQ
  rw [remF_eq_G h hA hTN hN (by omega) (by omega), remG_high h c (by omega) (by omega) (by omega)]

/-- The relation solved by the code: the knot inserted back. -/
theorem remQ_rel (h : RemOk t n p r s u) (c : ℕ → V) {T m : ℕ} (hT : T < s) (h1 : r ≤ m + p + T) (h2 : m + s ≤ r) :
    remQ t p r s c T m =
      ((u - t m) / (t (m + (p + 1) + T) - t m)) • remQ t p r s c (T + 1) m +
      (1 - (u - t m) / (t (m + (p + 1) + T) - t m)) • remQ t p r s c (T + 1) (m - 1) := by
  have hps := h.ps; have hsp := h.sp
  have hlo := h.low h2
  have hhi := h.high (j := m + (p + 1) + T) (by omega)
  obtain ⟨q, hq⟩ : ∃ q, p = q + 1 := ⟨p - 1, by omega⟩
  have hB := h.bF c
  set τ := tRem t r (T + 1) with hτ
  have a1 : remQ t p r s c (T + 1) m = bl t (r - s) c (t (m + (p + 1) + T) :: seg τ (m + 1) q) := by
    unfold remQ
    rw [← hτ]
    apply hB.perm (by simp)
    rw [hq, seg_succ_last]
    have : τ (m + 1 + q) = t (m + (q + 1 + 1) + T) := by
      simp only [hτ]; unfold tRem; rw [if_neg (by omega)]; congr 1; omega
    rw [this]
    exact List.perm_append_singleton _ _
  have a2 : remQ t p r s c (T + 1) (m - 1) = bl t (r - s) c (t m :: seg τ (m + 1) q) := by
    unfold remQ
    rw [← hτ, hq, show m - 1 + 1 = m by omega, seg_succ]
    have : τ m = t m := by
      simp only [hτ]; unfold tRem; rw [if_pos (by omega)]
    rw [this]
  have a3 : remQ t p r s c T m = bl t (r - s) c (u :: seg τ (m + 1) q) := by
    unfold remQ
    apply hB.perm (by simp)
    have e1 : seg (tRem t r T) (m + 1) p = seg τ (m + 1) (r - T - 1 - m) ++ (u :: seg τ (r - T) (m + p + T - r)) := by
      conv_lhs => rw [show p = (r - T - 1 - m) + ((m + p + T - r) + 1) by omega]
      rw [seg_append, seg_succ]
      congr 1
      · apply seg_congr
        intro j hj
        simp only [hτ]
        unfold tRem
        rw [if_pos (by omega), if_pos (by omega)]
      · congr 1
        · exact h.tRem_u (by omega) (by omega)
        · apply seg_congr
          intro j hj
          simp only [hτ]
          unfold tRem
          rw [if_neg (by omega), if_neg (by omega)]
          congr 1
          omega
    have e2 : seg τ (m + 1) q = seg τ (m + 1) (r - T - 1 - m) ++ seg τ (r - T) (m + p + T - r) := by
      conv_lhs => rw [show q = (r - T - 1 - m) + (m + p + T - r) by omega]
      rw [seg_append]
      congr 2
      omega
    rw [e1, e2]
    exact List.perm_middle
  rw [a1, a2, a3]
  rw [hq] at hB ⊢
  rw [hq] at hhi
  have hne : t (m + (q + 1 + 1) + T) - t m ≠ 0 := (sub_pos.mpr (lt_trans hlo hhi)).ne'
  rw [hB.interp (by simp) u (t m) _ hne, add_comm]
  congr 2
  field_simp
  ring

theorem remQ_alpha (h : RemOk t n p r s u) {T m : ℕ} (h1 : r ≤ m + p + T) (h2 : m + s ≤ r) :
    t (m + (p + 1) + T) - t m ≠ 0 ∧ (u - t m) / (t (m + (p + 1) + T) - t m) ≠ 0 ∧
      1 - (u - t m) / (t (m + (p + 1) + T) - t m) ≠ 0 := by
  have hlo := h.low h2
  have hhi := h.high (j := m + (p + 1) + T) (by omega)
  have hp : 0 < t (m + (p + 1) + T) - t m := sub_pos.mpr (lt_trans hlo hhi)
  refine ⟨hp.ne', (div_pos (sub_pos.mpr hlo) hp).ne', ?_⟩
  have : (u - t m) / (t (m + (p + 1) + T) - t m) < 1 := by
    rw [div_lt_one hp]; linarith
  exact (sub_pos.mpr this).ne'

/-- The poles after `T` removals. -/
def remP (t : ℕ → K) (p r s : ℕ) (c : ℕ → V) (T m : ℕ) : V :=
  if m + p + T < r then c m else if m + s ≤ r then remQ t p r s c T m else c (m + T)

theorem remP_F (h : RemOk t n p r s u) (c : ℕ → V) {T m : ℕ} (h1 : r ≤ m + s + p) (h2 : m + s ≤ r) :
    remP t p r s c T m = bl t (r - s) c (seg (tRem t r T) (m + 1) p) := by
  unfold remP
  split
  · rw [← remQ_low h c (T := T) (by omega) (by omega)]; rfl
  · rfl

theorem remP_G (h : RemOk t n p r s u) {c : ℕ → V} {T m : ℕ} (hA : AgreeAt p (bl t (r - s) c) (bl t r c) u (s - T))
    (hT : T ≤ s) (h1 : r ≤ m + p + T) (h2 : m + T ≤ r) :
    remP t p r s c T m = bl t r c (seg (tRem t r T) (m + 1) p) := by
  unfold remP
  rw [if_neg (by omega)]
  split
  · exact remF_eq_G h hA le_rfl hT h1 (by assumption)
  · exact (remG_high h c hT (by omega) h2).symm

theorem remP_low (h : RemOk t n p r s u) (c : ℕ → V) {T m : ℕ} (hT : T ≤ s) (h1 : m + p + T ≤ r) : remP t p r s c T m = c m := by
  have := h.ps; have := h.sp
  unfold remP
  split
  · rfl
  · rw [if_pos (by omega), remQ_low h c h1 (by omega)]

theorem remP_high (h : RemOk t n p r s u) {c : ℕ → V} {T m : ℕ} (hA : AgreeAt p (bl t (r - s) c) (bl t r c) u (s - T))
    (hT : T ≤ s) (h1 : r ≤ m + s) : remP t p r s c T m = c (m + T) := by
  have := h.ps; have := h.sp
  unfold remP
  rw [if_neg (by omega)]
  split
  · obtain rfl : m = r - s := by omega
    exact remQ_high h hA le_rfl hT
  · rfl

theorem tIns_tRem (h : RemOk t n p r s u) {T : ℕ} (hT : T ≤ s) : tIns (tRem t r T) (r - T) T u = t := by
  have := h.ps
  funext j
  unfold tIns tRem
  by_cases h1 : j ≤ r - T
  · rw [if_pos h1, if_pos (by omega)]
  · rw [if_neg h1]
    by_cases h2 : j ≤ r - T + T
    · rw [if_pos h2, h.mult j (by omega) (by omega)]
    · rw [if_neg h2, if_neg (by omega)]
      congr 1
      omega

theorem RemOk.insOk (h : RemOk t n p r s u) {T : ℕ} (hT : 1 ≤ T) (hTs : T ≤ s) :
    InsOk (tRem t r T) (n - T) p (r - T) (s - T) T u := by
  have hps := h.ps; have hsp := h.sp; have hrn := h.rn
  refine ⟨h.tRem_mono T, ?_, ?_, by omega, by omega, hT, by omega, ?_, ?_⟩
  · unfold tRem
    rw [if_pos (by omega)]
    rcases Nat.lt_or_ge T s with h1 | h1
    · exact (h.mult _ (by omega) (by omega)).le
    · exact (h.low (by omega)).le
  · unfold tRem
    rw [if_neg (by omega)]
    exact h.high (by omega)
  · intro j h1 h2
    exact h.tRem_u (by omega) (by omega)
  · unfold tRem
    rw [if_pos (by omega)]
    exact h.low (by omega)

/-- The blossom of the span on the right of the knot is kept. -/
theorem remP_bl_right (h : RemOk t n p r s u) {c : ℕ → V} {T : ℕ} (hA : AgreeAt p (bl t (r - s) c) (bl t r c) u (s - T))
    (hT : 1 ≤ T) (hTs : T ≤ s) (xs : List K) (hx : xs.length = p) :
    bl (tRem t r T) (r - T) (remP t p r s c T) xs = bl t r c xs := by
  have hps := h.ps; have hsp := h.sp; have hrn := h.rn
  have hI := h.insOk hT hTs
  apply bl_unique (h.tRem_mono T) hI.tk xs _ _ (by omega) (by rw [hx]; exact h.bG c)
  intro i h1 h2
  rw [hx] at h1 ⊢
  exact remP_G h hA hTs (by omega) (by omega)

/-- Removal keeps the blossom of every span: the old spans in terms of the new ones. -/
theorem remove_bl (h : RemOk t n p r s u) {c : ℕ → V} {T : ℕ} (hA : AgreeAt p (bl t (r - s) c) (bl t r c) u (s - T))
    (hT : 1 ≤ T) (hTs : T ≤ s) {k' : ℕ} (hk' : t k' < t (k' + 1)) (hp : p ≤ k') (hn : k' < n) :
    ∃ m, p ≤ m ∧ m < n - T ∧ tRem t r T m < tRem t r T (m + 1) ∧ tRem t r T m ≤ t k' ∧ t (k' + 1) ≤ tRem t r T (m + 1) ∧
      (k' + 1 = n → m + 1 = n - T) ∧
      ∀ xs : List K, xs.length = p → bl t k' c xs = bl (tRem t r T) m (remP t p r s c T) xs := by
  have hps := h.ps; have hsp := h.sp; have hrn := h.rn
  have hI := h.insOk hT hTs
  have := insert_bl hI (c := remP t p r s c T) (Q := c) (by
      intro i hi
      exact (remP_low h c hTs (by omega)).symm) (by
      intro i h1 h2
      rw [remP_high h hA hTs (by omega), show i - T + T = i by omega]) (by
      intro i h1 h2
      rw [tIns_tRem h hTs, remP_bl_right h hA hT hTs _ (by simp)]
      rcases Nat.lt_or_ge i (r - p) with h3 | h3
      · have e := seg_perm_sub t (a := i + 1) (n := p) (b := r - s + 1) (m := s - T) (by omega) (by omega)
        rw [seg_const (u := u) (a := r - s + 1) (n := s - T) (fun j hj => h.mult _ (by omega) (by omega))] at e
        rw [(h.bG c).perm (by simp) e, ← hA _ (by simp; omega), ← (h.bF c).perm (by simp) e]
        exact (bl_dual h.mono h.tl p c i (by omega) (by omega) (by omega)).symm
      · exact (bl_dual h.mono h.tr p c i (by omega) (by omega) (by omega)).symm)
    (k' := k') (by rw [tIns_tRem h hTs]; exact hk') hp (by omega)
  rw [tIns_tRem h hTs] at this
  obtain ⟨m, m1, m2, m3, m4, m5, m6, m7⟩ := this
  exact ⟨m, m1, m2, m3, m4, m5, fun e => m6 (by omega), m7⟩

/-- The new spans in terms of the old ones. -/
theorem remove_bl' (h : RemOk t n p r s u) {c : ℕ → V} {T : ℕ} (hA : AgreeAt p (bl t (r - s) c) (bl t r c) u (s - T))
    (hT : 1 ≤ T) (hTs : T ≤ s) {m : ℕ} (hm : tRem t r T m < tRem t r T (m + 1)) (hp : p ≤ m) (hn : m < n - T) :
    ∃ k', p ≤ k' ∧ k' < n ∧ t k' < t (k' + 1) ∧ t k' = tRem t r T m ∧ t (k' + 1) ≤ tRem t r T (m + 1) ∧
      ∀ xs : List K, xs.length = p → bl (tRem t r T) m (remP t p r s c T) xs = bl t k' c xs := by
  have hps := h.ps; have hsp := h.sp; have hrn := h.rn
  have main : ∀ k', p ≤ k' → k' < n → t k' < t (k' + 1) → t k' = tRem t r T m → t (k' + 1) ≤ tRem t r T (m + 1) →
      ∃ k', p ≤ k' ∧ k' < n ∧ t k' < t (k' + 1) ∧ t k' = tRem t r T m ∧ t (k' + 1) ≤ tRem t r T (m + 1) ∧
      ∀ xs : List K, xs.length = p → bl (tRem t r T) m (remP t p r s c T) xs = bl t k' c xs := by
    intro k' a1 a2 a3 a4 a5
    refine ⟨k', a1, a2, a3, a4, a5, ?_⟩
    obtain ⟨m', b1, b2, b3, b4, b5, -, b6⟩ := remove_bl h hA hT hTs a3 a1 a2
    have : m' = m := by
      have hmono := h.tRem_mono (T := T)
      rcases Nat.lt_trichotomy m' m with hc | hc | hc
      · have := hmono (show m' + 1 ≤ m by omega)
        have := lt_of_lt_of_le a3 b5
        rw [a4] at this
        exact absurd this (not_lt.mpr (by assumption))
      · exact hc
      · have h1 := hmono (show m + 1 ≤ m' by omega)
        have h2 := lt_of_lt_of_le hm h1
        rw [← a4] at h2
        exact absurd b4 (not_le.mpr h2)
    subst this
    intro xs hx
    exact (b6 xs hx).symm
  by_cases hc : m + T ≤ r
  · have em : tRem t r T m = t m := by unfold tRem; rw [if_pos hc]
    rcases Nat.lt_or_ge (m + s) (r + 1) with h1 | h1
    · -- the left part
      have h2 : t m < t (m + 1) ∧ t (m + 1) ≤ tRem t r T (m + 1) := by
        rcases Nat.lt_or_ge (m + s) r with h3 | h3
        · have : tRem t r T (m + 1) = t (m + 1) := by unfold tRem; rw [if_pos (by omega)]
          rw [em, this] at hm
          exact ⟨hm, this.ge⟩
        · obtain rfl : m = r - s := by omega
          refine ⟨h.tl, ?_⟩
          unfold tRem
          split
          · exact le_rfl
          · exact h.mono (by omega)
      exact main m hp (by omega) h2.1 em.symm h2.2
    · -- inside the knot: only the last copy
      have eu : tRem t r T m = u := h.tRem_u (by omega) hc
      have hmr : m + T = r := by
        by_contra hcc
        have : tRem t r T (m + 1) = u := h.tRem_u (by omega) (by omega)
        rw [eu, this] at hm
        exact lt_irrefl _ hm
      refine main r (by omega) hrn h.tr ?_ ?_
      · rw [eu]; exact h.mult r (by have := h.spos; omega) le_rfl
      · unfold tRem
        rw [if_neg (by omega)]
        exact h.mono (by omega)
  · have em : tRem t r T m = t (m + T) := by unfold tRem; rw [if_neg hc]
    have em' : tRem t r T (m + 1) = t (m + T + 1) := by
      unfold tRem; rw [if_neg (by omega)]; congr 1; omega
    rw [em, em'] at hm
    exact main (m + T) (by omega) (by omega) hm em.symm em'.ge

end
end Gbs
