import Verif.Lemmas.PolyEq
import Verif.Lemmas.Blossom

/-! # Knot insertion: the mathematics -/

namespace Gbs

set_option linter.unusedSectionVars false

variable {K : Type} [Field K] [LinearOrder K] [IsStrictOrderedRing K]
variable {V : Type} [AddCommGroup V] [Module K V]

/-- The knots `t` after inserting `u` `r` times after the index `k`. -/
def tIns (t : ℕ → K) (k r : ℕ) (u : K) (j : ℕ) : K :=
  if j ≤ k then t j else if j ≤ k + r then u else t (j - r)

theorem tIns_mono {t : ℕ → K} (ht : Monotone t) {k r : ℕ} {u : K} (h1 : t k ≤ u) (h2 : u ≤ t (k+1)) :
    Monotone (tIns t k r u) := by
  intro a b hab
  unfold tIns
  split
  · rename_i ha
    split
    · exact ht hab
    · split
      · exact le_trans (ht ha) h1
      · exact ht (by omega)
  · rename_i ha
    rw [if_neg (show ¬ b ≤ k by omega)]
    split
    · split
      · exact le_rfl
      · exact le_trans h2 (ht (by omega))
    · rw [if_neg (show ¬ b ≤ k + r by omega)]
      exact ht (by omega)

/-- The hypotheses on the inserted knot. -/
structure InsOk (t : ℕ → K) (n p k s r : ℕ) (u : K) : Prop where
  mono : Monotone t
  lo : t k ≤ u
  hi : u < t (k+1)
  pk : p ≤ k
  kn : k < n
  rpos : 1 ≤ r
  sr : s + r ≤ p
  mult : ∀ j, k < j + s → j ≤ k → t j = u
  below : t (k - s) < u

theorem InsOk.tk {t : ℕ → K} {n p k s r : ℕ} {u : K} (h : InsOk t n p k s r u) : t k < t (k+1) :=
  lt_of_le_of_lt h.lo h.hi

theorem InsOk.seg_low {t : ℕ → K} {n p k s r : ℕ} {u : K} (_h : InsOk t n p k s r u) {i : ℕ}
    (hi : i + p ≤ k) : seg (tIns t k r u) (i+1) p = seg t (i+1) p := by
  apply seg_congr
  intro j hj
  unfold tIns
  rw [if_pos (by omega)]

theorem InsOk.seg_high {t : ℕ → K} {n p k s r : ℕ} {u : K} (h : InsOk t n p k s r u) {i : ℕ}
    (hi : k + r ≤ i + s) : seg (tIns t k r u) (i+1) p = seg t (i-r+1) p := by
  have := h.sr; have := h.pk
  apply seg_congr
  intro j hj
  unfold tIns
  split
  · rename_i h1
    rw [h.mult _ (by omega) h1, h.mult _ (by omega) (by omega)]
  · split
    · rw [h.mult _ (by omega) (by omega)]
    · congr 1; omega

/-- A list of consecutive values splits at a sub-segment. -/
theorem seg_perm_sub (t : ℕ → K) {a n b m : ℕ} (h1 : a ≤ b) (h2 : b + m ≤ a + n) :
    (seg t a n).Perm (seg t b m ++ (seg t a (b - a) ++ seg t (b + m) (a + n - (b + m)))) := by
  have e : seg t a n = seg t a (b-a) ++ (seg t b m ++ seg t (b+m) (a+n-(b+m))) := by
    conv_lhs => rw [show n = (b - a) + (m + (a + n - (b+m))) by omega]
    rw [seg_append, seg_append, show a + (b - a) = b by omega]
  rw [e]
  exact List.perm_append_comm_assoc _ _ _

/-- New poles given by the blossom of the old ones: every span of the refined knots has the
blossom of the old span that contains it. -/
theorem insert_bl {t : ℕ → K} {n p k s r : ℕ} {u : K} (h : InsOk t n p k s r u) {c Q : ℕ → V}
    (Q1 : ∀ i, i + p ≤ k → Q i = c i)
    (Q2 : ∀ i, k + r ≤ i + s → i < n + r → Q i = c (i - r))
    (Q3 : ∀ i, k < i + p → i + s < k + r → Q i = bl t k c (seg (tIns t k r u) (i+1) p))
    {k' : ℕ} (hk' : tIns t k r u k' < tIns t k r u (k'+1)) (hp : p ≤ k') (hn : k' < n + r) :
    ∃ m, p ≤ m ∧ m < n ∧ t m < t (m+1) ∧
      t m ≤ tIns t k r u k' ∧ tIns t k r u (k'+1) ≤ t (m+1) ∧
      (k' + 1 = n + r → m + 1 = n) ∧
      ∀ xs : List K, xs.length = p → bl (tIns t k r u) k' Q xs = bl t m c xs := by
  have hT := tIns_mono (r := r) h.mono h.lo h.hi.le
  have hsr := h.sr; have hpk := h.pk; have hkn := h.kn; have hr := h.rpos
  -- reduction to the values at consecutive knots
  have red : ∀ m, p ≤ m → t m < t (m+1) →
      (∀ i, k' - p ≤ i → i ≤ k' → Q i = bl t m c (seg (tIns t k r u) (i+1) p)) →
      ∀ xs : List K, xs.length = p → bl (tIns t k r u) k' Q xs = bl t m c xs := by
    intro m hm1 hm2 hq xs hx
    exact bl_unique hT hk' xs (bl t m c) Q (by omega) (by rw [hx]; exact bl_isBlossom h.mono hm2 hm1 c)
      (by rw [hx]; exact hq)
  rcases Nat.lt_or_ge k' k with hlt | hge
  · -- before the span of the insertion
    have e0 : tIns t k r u k' = t k' := by unfold tIns; rw [if_pos (by omega)]
    have e1 : tIns t k r u (k'+1) = t (k'+1) := by unfold tIns; rw [if_pos (by omega)]
    rw [e0, e1] at hk' ⊢
    have hks : k' + s ≤ k := by
      by_contra hc
      have a1 := h.mult k' (by omega) (by omega)
      have a2 := h.mult (k'+1) (by omega) (by omega)
      rw [a1, a2] at hk'
      exact lt_irrefl _ hk'
    refine ⟨k', hp, by omega, hk', le_rfl, le_rfl, by omega, ?_⟩
    apply red k' hp hk'
    intro i hi1 hi2
    rcases Nat.lt_or_ge k (i + p) with hi | hi
    · rw [Q3 i hi (by omega)]
      have hperm := seg_perm_sub (tIns t k r u) (a := i+1) (n := p) (b := k'+1) (m := k - k') (by omega) (by omega)
      have hseg : seg (tIns t k r u) (k'+1) (k-k') = seg t (k'+1) (k-k') := by
        apply seg_congr; intro j hj; unfold tIns; rw [if_pos (by omega)]
      rw [hseg] at hperm
      rw [bl_perm h.mono h.tk hperm c (by simp; omega), bl_perm h.mono hk' hperm c (by simp; omega)]
      exact (bl_adjacent h.mono hk' h.tk hlt.le c _ p (by simp; omega) hp).symm
    · rw [Q1 i hi, h.seg_low hi, bl_dual h.mono hk' _ _ _ hp (by omega) hi2]
  · rcases Nat.lt_or_ge (k + r) k' with hgt | hle
    · -- after
      obtain ⟨m, rfl⟩ : ∃ m, k' = m + r := ⟨k' - r, by omega⟩
      have e0 : tIns t k r u (m+r) = t m := by
        unfold tIns; rw [if_neg (by omega), if_neg (by omega)]; congr 1; omega
      have e1 : tIns t k r u (m+r+1) = t (m+1) := by
        unfold tIns; rw [if_neg (by omega), if_neg (by omega)]; congr 1; omega
      rw [e0, e1] at hk' ⊢
      refine ⟨m, by omega, by omega, hk', le_rfl, le_rfl, by omega, ?_⟩
      apply red m (by omega) hk'
      intro i hi1 hi2
      rcases Nat.lt_or_ge (i + s) (k + r) with hi | hi
      · rw [Q3 i (by omega) hi]
        have hperm := seg_perm_sub (tIns t k r u) (a := i+1) (n := p) (b := k+r+1) (m := m - k) (by omega) (by omega)
        have hseg : seg (tIns t k r u) (k+r+1) (m-k) = seg t (k+1) (m-k) := by
          apply seg_congr; intro j hj; unfold tIns
          rw [if_neg (by omega), if_neg (by omega)]; congr 1; omega
        rw [hseg] at hperm
        rw [bl_perm h.mono h.tk hperm c (by simp; omega), bl_perm h.mono hk' hperm c (by simp; omega)]
        exact bl_adjacent h.mono h.tk hk' (by omega) c _ p (by simp; omega) hpk
      · rw [Q2 i hi (by omega), h.seg_high hi, bl_dual h.mono hk' _ _ _ (by omega) (by omega) (by omega)]
    · -- inside
      have hcase : k' = k ∨ k' = k + r := by
        by_contra hc
        have e0 : tIns t k r u k' = u := by unfold tIns; rw [if_neg (by omega), if_pos (by omega)]
        have e1 : tIns t k r u (k'+1) = u := by unfold tIns; rw [if_neg (by omega), if_pos (by omega)]
        rw [e0, e1] at hk'
        exact lt_irrefl _ hk'
      have b0 : t k ≤ tIns t k r u k' := by
        rcases hcase with rfl | rfl
        · unfold tIns; rw [if_pos (by omega)]
        · unfold tIns; rw [if_neg (by omega), if_pos (by omega)]; exact h.lo
      have b1 : tIns t k r u (k'+1) ≤ t (k+1) := by
        rcases hcase with rfl | rfl
        · unfold tIns; rw [if_neg (by omega), if_pos (by omega)]; exact h.hi.le
        · unfold tIns; rw [if_neg (by omega), if_neg (by omega)]; exact h.mono (by omega)
      refine ⟨k, hpk, hkn, h.tk, b0, b1, by omega, ?_⟩
      apply red k hpk h.tk
      intro i hi1 hi2
      rcases Nat.lt_or_ge k (i + p) with hi | hi
      · rcases Nat.lt_or_ge (i + s) (k + r) with hi' | hi'
        · exact Q3 i hi hi'
        · rw [Q2 i hi' (by omega), h.seg_high hi', bl_dual h.mono h.tk _ _ _ hpk (by omega) (by omega)]
      · rw [Q1 i hi, h.seg_low hi, bl_dual h.mono h.tk _ _ _ hpk (by omega) (by omega)]

end Gbs
