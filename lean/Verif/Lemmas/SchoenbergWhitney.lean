import Verif.Lemmas.Insert

/-!
# The Schoenberg–Whitney theorem

A spline whose `j`-th coefficient is tied to a zero lying strictly inside the support of the `j`-th basis function vanishes. The proof
inserts each zero up to full multiplicity, so that the zeros become null poles, and counts the sign changes of the differences of the
poles: insertion does not create any.
-/

namespace Gbs

set_option linter.unusedSectionVars false

variable {K : Type} [Field K] [LinearOrder K] [IsStrictOrderedRing K]

/-! ## Alternations of sign -/

/-- `m + 1` increasing indices below `N` at which `d` alternates in sign. -/
def Alt (d : ℕ → K) (N m : ℕ) : Prop :=
  ∃ f : ℕ → ℕ, (∀ i, i < m → f i < f (i + 1)) ∧ f m < N ∧ ∀ i, i < m → d (f i) * d (f (i + 1)) < 0

theorem strict_le {f : ℕ → ℕ} {m : ℕ} (h : ∀ i, i < m → f i < f (i + 1)) : ∀ i, i ≤ m → f 0 + i ≤ f i := by
  intro i
  induction i with
  | zero => intro _; omega
  | succ i ih => intro hi; have := h i (by omega); have := ih (by omega); omega

theorem strict_last {f : ℕ → ℕ} {m : ℕ} (h : ∀ i, i < m → f i < f (i + 1)) : ∀ i, i ≤ m → f i ≤ f m := by
  intro i hi
  obtain ⟨j, rfl⟩ : ∃ j, m = i + j := ⟨m - i, by omega⟩
  have := strict_le (f := fun l => f (i + l)) (m := j) (fun l hl => h (i + l) (by omega)) j le_rfl
  simp only [Nat.add_zero] at this
  omega

/-- Non-negative combinations of neighbours create no alternation. -/
theorem Alt.of_neighbours {d d' : ℕ → K} {N N' m : ℕ} (hm : 1 ≤ m)
    (h : ∀ j, j < N' → (0 < d' j → ∃ i, (i = j ∨ i + 1 = j) ∧ i < N ∧ 0 < d i) ∧
      (d' j < 0 → ∃ i, (i = j ∨ i + 1 = j) ∧ i < N ∧ d i < 0)) (ha : Alt d' N' m) : Alt d N m := by
  obtain ⟨f, f1, f2, f3⟩ := ha
  have hne : ∀ i, i ≤ m → d' (f i) ≠ 0 := by
    intro i hi h0
    rcases Nat.lt_or_ge i m with hlt | hge
    · have := f3 i hlt
      rw [h0, zero_mul] at this
      exact lt_irrefl _ this
    · obtain rfl : i = m := by omega
      have := f3 (i - 1) (by omega)
      rw [show i - 1 + 1 = i by omega, h0, mul_zero] at this
      exact lt_irrefl _ this
  have : ∀ i, i ≤ m → ∃ j, (j = f i ∨ j + 1 = f i) ∧ j < N ∧ 0 < d j * d' (f i) := by
    intro i hi
    have hlt : f i < N' := lt_of_le_of_lt (strict_last f1 i hi) f2
    rcases lt_or_gt_of_ne (hne i hi) with hs | hs
    · obtain ⟨j, a, b, c⟩ := (h (f i) hlt).2 hs
      exact ⟨j, a, b, mul_pos_of_neg_of_neg c hs⟩
    · obtain ⟨j, a, b, c⟩ := (h (f i) hlt).1 hs
      exact ⟨j, a, b, mul_pos c hs⟩
  choose! g g1 g2 g3 using this
  have hprod : ∀ i, i < m → d (g i) * d (g (i + 1)) < 0 := by
    intro i hi
    have a1 := g3 i (by omega)
    have a2 := g3 (i + 1) (by omega)
    have a3 := f3 i hi
    have a4 := mul_pos a1 a2
    have : d (g i) * d' (f i) * (d (g (i + 1)) * d' (f (i + 1))) = (d (g i) * d (g (i + 1))) * (d' (f i) * d' (f (i + 1))) := by ring
    rw [this] at a4
    by_contra hc
    push Not at hc
    have := mul_nonpos_of_nonneg_of_nonpos hc a3.le
    linarith
  refine ⟨g, ?_, g2 m le_rfl, hprod⟩
  intro i hi
  have b1 := f1 i hi
  have b2 := g1 i (by omega)
  have b3 := g1 (i + 1) (by omega)
  have hle : g i ≤ g (i + 1) := by omega
  rcases Nat.eq_or_lt_of_le hle with he | hl
  · have := hprod i hi
    rw [← he] at this
    exact absurd this (not_lt.mpr (mul_self_nonneg _))
  · exact hl

theorem exists_rise {C : ℕ → K} {b : ℕ} : ∀ n a, a + n = b → C a < C b → ∃ j, a ≤ j ∧ j < b ∧ 0 < C (j + 1) - C j := by
  intro n
  induction n with
  | zero => intro a h hc; obtain rfl : a = b := by omega
            exact absurd hc (lt_irrefl _)
  | succ n ih =>
    intro a h hc
    by_cases h1 : C a < C (a + 1)
    · exact ⟨a, le_rfl, by omega, sub_pos.mpr h1⟩
    · push Not at h1
      obtain ⟨j, a1, a2, a3⟩ := ih (a + 1) (by omega) (lt_of_le_of_lt h1 hc)
      exact ⟨j, by omega, a2, a3⟩

theorem exists_fall {C : ℕ → K} {a b : ℕ} (hab : a ≤ b) (h : C b < C a) : ∃ j, a ≤ j ∧ j < b ∧ C (j + 1) - C j < 0 := by
  obtain ⟨j, a1, a2, a3⟩ := exists_rise (C := fun i => -C i) (b := b) (b - a) a (by omega) (by simpa using h)
  exact ⟨j, a1, a2, by linarith⟩

/-- The differences of a sequence with `Z + 2` zeros that does not vanish between two of them alternate `Z + 1` times. -/
theorem alt_of_zeros {C : ℕ → K} {z : ℕ → ℕ} {Z : ℕ} (hz : ∀ t, t ≤ Z → z t < z (t + 1)) (h0 : ∀ t, t ≤ Z + 1 → C (z t) = 0)
    (hne : ∀ t, t ≤ Z → ∃ i, z t ≤ i ∧ i ≤ z (t + 1) ∧ C i ≠ 0) : Alt (fun j => C (j + 1) - C j) (z (Z + 1)) (Z + 1) := by
  -- in each gap, a rise and a fall
  have gap : ∀ t, t ≤ Z → ∃ i j, z t ≤ i ∧ i < j ∧ j < z (t + 1) ∧ (C (i + 1) - C i) * (C (j + 1) - C j) < 0 := by
    intro t ht
    obtain ⟨i, a1, a2, a3⟩ := hne t ht
    have c1 := h0 t (by omega)
    have c2 := h0 (t + 1) (by omega)
    rcases lt_or_gt_of_ne a3 with hs | hs
    · obtain ⟨x, x1, x2, x3⟩ := exists_fall (C := C) a1 (by rw [c1]; exact hs)
      obtain ⟨y, y1, y2, y3⟩ := exists_rise (C := C) (b := z (t + 1)) (z (t + 1) - i) i (by omega) (by rw [c2]; exact hs)
      exact ⟨x, y, x1, by omega, y2, mul_neg_of_neg_of_pos x3 y3⟩
    · obtain ⟨x, x1, x2, x3⟩ := exists_rise (C := C) (b := i) (i - z t) (z t) (by omega) (by rw [c1]; exact hs)
      obtain ⟨y, y1, y2, y3⟩ := exists_fall (C := C) a2 (by rw [c2]; exact hs)
      exact ⟨x, y, x1, by omega, y2, mul_neg_of_pos_of_neg x3 y3⟩
  have main : ∀ t, t ≤ Z → Alt (fun j => C (j + 1) - C j) (z (t + 1)) (t + 1) := by
    intro t
    induction t with
    | zero =>
      intro _
      obtain ⟨i, j, a1, a2, a3, a4⟩ := gap 0 (by omega)
      refine ⟨fun l => if l = 0 then i else j, ?_, by simpa using a3, ?_⟩
      · intro l hl; obtain rfl : l = 0 := by omega
        simpa using a2
      · intro l hl; obtain rfl : l = 0 := by omega
        simpa using a4
    | succ t ih =>
      intro ht
      obtain ⟨f, f1, f2, f3⟩ := ih (by omega)
      obtain ⟨i, j, a1, a2, a3, a4⟩ := gap (t + 1) ht
      have hlast : C (f (t + 1) + 1) - C (f (t + 1)) ≠ 0 := by
        intro h
        have := f3 t (by omega)
        simp only [h, mul_zero, lt_irrefl] at this
      obtain ⟨x, x1, x2, x3⟩ : ∃ x, z (t + 1) ≤ x ∧ x < z (t + 1 + 1) ∧
          (C (f (t + 1) + 1) - C (f (t + 1))) * (C (x + 1) - C x) < 0 := by
        rcases mul_neg_iff.mp a4 with ⟨p1, p2⟩ | ⟨p1, p2⟩ <;> rcases lt_or_gt_of_ne hlast with hs | hs
        · exact ⟨i, a1, by omega, mul_neg_of_neg_of_pos hs p1⟩
        · exact ⟨j, by omega, a3, mul_neg_of_pos_of_neg hs p2⟩
        · exact ⟨j, by omega, a3, mul_neg_of_neg_of_pos hs p2⟩
        · exact ⟨i, a1, by omega, mul_neg_of_pos_of_neg hs p1⟩
      refine ⟨fun l => if l ≤ t + 1 then f l else x, ?_, ?_, ?_⟩
      · intro l hl
        dsimp only
        rw [if_pos (by omega)]
        split
        · exact f1 l (by omega)
        · obtain rfl : l = t + 1 := by omega
          omega
      · dsimp only
        rw [if_neg (by omega)]
        exact x2
      · intro l hl
        dsimp only
        rw [if_pos (by omega)]
        split
        · exact f3 l (by omega)
        · obtain rfl : l = t + 1 := by omega
          exact x3
  exact main Z le_rfl

/-- A sequence with few non-zero terms alternates few times. -/
theorem Alt.bound {d : ℕ → K} {N m a b : ℕ} (hm : 1 ≤ m) (h : ∀ j, (j < a ∨ b ≤ j) → d j = 0) (ha : Alt d N m) : a + m < b := by
  obtain ⟨f, f1, -, f3⟩ := ha
  have h0 : a ≤ f 0 := by
    by_contra hc
    have := f3 0 (by omega)
    rw [h (f 0) (Or.inl (by omega)), zero_mul] at this
    exact lt_irrefl _ this
  have h1 : f m < b := by
    by_contra hc
    have := f3 (m - 1) (by omega)
    rw [show m - 1 + 1 = m by omega, h (f m) (Or.inr (by omega)), mul_zero] at this
    exact lt_irrefl _ this
  have := strict_le f1 m le_rfl
  omega

/-! ## Refinements -/

/-- The knots `T` with poles `C` refine the knots `t` with poles `c`. -/
structure Refines (p : ℕ) (t : ℕ → K) (n : ℕ) (c : ℕ → K) (T : ℕ → K) (N : ℕ) (C : ℕ → K) : Prop where
  mono : Monotone T
  lo : T p = t p
  hi : T N = t n
  pN : p < N
  alt : ∀ m, 1 ≤ m → Alt (fun j => C (j + 1) - C j) (N - 1) m → Alt (fun j => c (j + 1) - c j) (n - 1) m
  first : C 0 = c 0
  last : C (N - 1) = c (n - 1)
  spans : ∀ k', T k' < T (k' + 1) → p ≤ k' → k' < N → ∃ m, p ≤ m ∧ m < n ∧ t m < t (m + 1) ∧ t m ≤ T k' ∧ T (k' + 1) ≤ t (m + 1) ∧
    ∀ xs : List K, xs.length = p → bl T k' C xs = bl t m c xs
  keep : ∀ x w i, (∀ j, j < w → t (i + 1 + j) = x) → ∃ i', ∀ j, j < w → T (i' + 1 + j) = x

theorem Refines.refl {p : ℕ} {t : ℕ → K} {n : ℕ} {c : ℕ → K} (ht : Monotone t) (hn : p < n) : Refines p t n c t n c :=
  ⟨ht, rfl, rfl, hn, fun _ _ h => h, rfl, rfl, fun k' h1 h2 h3 => ⟨k', h2, h3, h1, le_rfl, le_rfl, fun _ _ => rfl⟩, fun _ _ i h => ⟨i, h⟩⟩

theorem Refines.trans {p : ℕ} {t t' t'' : ℕ → K} {n n' n'' : ℕ} {c c' c'' : ℕ → K} (h : Refines p t n c t' n' c')
    (h' : Refines p t' n' c' t'' n'' c'') : Refines p t n c t'' n'' c'' where
  mono := h'.mono
  lo := h'.lo.trans h.lo
  hi := h'.hi.trans h.hi
  pN := h'.pN
  alt m hm ha := h.alt m hm (h'.alt m hm ha)
  first := h'.first.trans h.first
  last := h'.last.trans h.last
  spans k' h1 h2 h3 := by
    obtain ⟨m, a1, a2, a3, a4, a5, a6⟩ := h'.spans k' h1 h2 h3
    obtain ⟨l, b1, b2, b3, b4, b5, b6⟩ := h.spans m a3 a1 a2
    exact ⟨l, b1, b2, b3, b4.trans a4, a5.trans b5, fun xs hx => (a6 xs hx).trans (b6 xs hx)⟩
  keep x w i hx := by
    obtain ⟨i', hi'⟩ := h.keep x w i hx
    exact h'.keep x w i' hi'

/-- The poles after one insertion. -/
def insOne (t : ℕ → K) (p k s : ℕ) (u : K) (c : ℕ → K) (i : ℕ) : K :=
  if i + p ≤ k then c i else if k + 1 ≤ i + s then c (i - 1)
  else (u - t i) / (t (i + p) - t i) * c i + (1 - (u - t i) / (t (i + p) - t i)) * c (i - 1)

theorem insOne_mid {t : ℕ → K} {n p k s : ℕ} {u : K} (h : InsOk t n p k s 1 u) (c : ℕ → K) {x : ℕ} (h1 : k < x + p) (h2 : x ≤ k) :
    (u - t x) / (t (x + p) - t x) * c x + (1 - (u - t x) / (t (x + p) - t x)) * c (x - 1) =
      bl t k c (seg (tIns t k 1 u) (x + 1) p) := by
  have hpk := h.pk; have hsr := h.sr
  have hB := bl_isBlossom h.mono h.tk hpk c
  have hab : t x < t (x + p) := lt_of_le_of_lt (h.mono h2) (lt_of_lt_of_le h.tk (h.mono (by omega)))
  have hne : t (x + p) - t x ≠ 0 := (sub_pos.mpr hab).ne'
  obtain ⟨q, rfl⟩ : ∃ q, p = q + 1 := ⟨p - 1, by omega⟩
  have e1 : bl t k c (seg (tIns t k 1 u) (x + 1) (q + 1)) = bl t k c (u :: seg t (x + 1) q) := by
    apply hB.perm (by simp)
    have e1 : seg (tIns t k 1 u) (x + 1) (q + 1) = seg t (x + 1) (k - x) ++ (List.replicate 1 u ++ seg t (k + 1) (q - (k - x))) := by
      conv_lhs => rw [show q + 1 = (k - x) + (1 + (q - (k - x))) by omega]
      rw [seg_append, seg_append]
      congr 1
      · apply seg_congr
        intro i hi
        unfold tIns
        rw [if_pos (by omega)]
      · congr 1
        · apply seg_const
          intro i hi
          unfold tIns
          rw [if_neg (by omega), if_pos (by omega)]
        · apply seg_congr
          intro i hi
          unfold tIns
          rw [if_neg (by omega), if_neg (by omega)]
          congr 1
          omega
    have e2 : seg t (x + 1) q = seg t (x + 1) (k - x) ++ seg t (k + 1) (q - (k - x)) := by
      conv_lhs => rw [show q = (k - x) + (q - (k - x)) by omega]
      rw [seg_append]
      congr 2
      omega
    rw [e1, e2]
    exact List.perm_append_comm_assoc _ _ _
  rw [e1, hB.interp (by simp) u (t x) (t (x + (q + 1))) hne]
  have e2 : bl t k c (t x :: seg t (x + 1) q) = c (x - 1) := by
    have := bl_dual h.mono h.tk (q + 1) c (x - 1) hpk (by omega) (by omega)
    rwa [show x - 1 + 1 = x by omega, seg_succ] at this
  have e3 : bl t k c (t (x + (q + 1)) :: seg t (x + 1) q) = c x := by
    rw [← bl_dual h.mono h.tk (q + 1) c x hpk (by omega) (by omega), seg_succ_last]
    apply hB.perm (by simp)
    rw [show x + 1 + q = x + (q + 1) by omega]
    exact (List.perm_append_comm (l₁ := [t (x + (q + 1))]) (l₂ := seg t (x + 1) q))
  rw [e2, e3]
  simp only [smul_eq_mul]
  field_simp
  ring

theorem refines_insOne {t : ℕ → K} {n p k s : ℕ} {u : K} (h : InsOk t n p k s 1 u) (c : ℕ → K) :
    Refines p t n c (tIns t k 1 u) (n + 1) (insOne t p k s u c) := by
  have hpk := h.pk; have hkn := h.kn; have hsr := h.sr
  have al : ∀ x, k < x + p → x ≤ k → 0 ≤ (u - t x) / (t (x + p) - t x) ∧ 0 ≤ 1 - (u - t x) / (t (x + p) - t x) := by
    intro x h1 h2
    have a1 : t x ≤ u := (h.mono h2).trans h.lo
    have a2 : u < t (x + p) := lt_of_lt_of_le h.hi (h.mono (by omega))
    have a3 : 0 < t (x + p) - t x := by linarith
    refine ⟨div_nonneg (by linarith) a3.le, ?_⟩
    rw [sub_nonneg, div_le_one a3]
    linarith
  refine ⟨tIns_mono h.mono h.lo h.hi.le, ?_, ?_, by omega, ?_, ?_, ?_, ?_, ?_⟩
  · unfold tIns; rw [if_pos hpk]
  · unfold tIns; rw [if_neg (by omega), if_neg (by omega)]; rfl
  · intro m hm
    apply Alt.of_neighbours hm
    intro j hj
    rw [Nat.add_sub_cancel] at hj
    -- the difference is a non-negative combination of two neighbours
    have key : ∃ x y : K, 0 ≤ x ∧ 0 ≤ y ∧ (0 < x → j < n - 1) ∧ (0 < y → 1 ≤ j) ∧
        insOne t p k s u c (j + 1) - insOne t p k s u c j = x * (c (j + 1) - c j) + y * (c (j - 1 + 1) - c (j - 1)) := by
      unfold insOne
      rcases Nat.lt_or_ge k (j + 1 + p) with g1 | g1
      · rcases Nat.lt_or_ge k (j + p) with g2 | g2
        · rcases Nat.lt_or_ge (j + s) (k + 1) with g3 | g3
          · rcases Nat.lt_or_ge (j + 1 + s) (k + 1) with g4 | g4
            · obtain ⟨x1, x2⟩ := al j g2 (by omega)
              obtain ⟨y1, y2⟩ := al (j + 1) g1 (by omega)
              refine ⟨_, _, y1, x2, fun _ => by omega, fun _ => by omega, ?_⟩
              rw [if_neg (by omega), if_neg (by omega), if_neg (by omega), if_neg (by omega), show j - 1 + 1 = j by omega,
                show j + 1 - 1 = j by omega]
              ring
            · obtain ⟨x1, x2⟩ := al j g2 (by omega)
              refine ⟨0, _, le_rfl, x2, fun h => absurd h (lt_irrefl _), fun _ => by omega, ?_⟩
              rw [if_neg (by omega), if_pos (by omega), if_neg (by omega), if_neg (by omega), show j - 1 + 1 = j by omega,
                show j + 1 - 1 = j by omega]
              ring
          · refine ⟨0, 1, le_rfl, zero_le_one, fun h => absurd h (lt_irrefl _), fun _ => by omega, ?_⟩
            rw [if_neg (by omega), if_pos (by omega), if_neg (by omega), if_pos (by omega), show j - 1 + 1 = j by omega,
                show j + 1 - 1 = j by omega]
            ring
        · obtain ⟨y1, y2⟩ := al (j + 1) g1 (by omega)
          refine ⟨_, 0, y1, le_rfl, fun _ => by omega, fun h => absurd h (lt_irrefl _), ?_⟩
          rw [if_neg (by omega), if_neg (by omega), if_pos (by omega), show j + 1 - 1 = j by omega]
          ring
      · refine ⟨1, 0, zero_le_one, le_rfl, fun _ => by omega, fun h => absurd h (lt_irrefl _), ?_⟩
        rw [if_pos (by omega), if_pos (by omega)]
        ring
    obtain ⟨x, y, x0, y0, xj, yj, e⟩ := key
    simp only [e]
    constructor
    · intro hp
      by_cases hx : 0 < x * (c (j + 1) - c j)
      · have hx0 : 0 < x := lt_of_le_of_ne x0 (fun h0 => by rw [← h0, zero_mul] at hx; exact lt_irrefl _ hx)
        exact ⟨j, Or.inl rfl, xj hx0, pos_of_mul_pos_right hx x0⟩
      · have hy : 0 < y * (c (j - 1 + 1) - c (j - 1)) := by linarith
        have hy0 : 0 < y := lt_of_le_of_ne y0 (fun h0 => by rw [← h0, zero_mul] at hy; exact lt_irrefl _ hy)
        have := yj hy0
        exact ⟨j - 1, Or.inr (by omega), by omega, pos_of_mul_pos_right hy y0⟩
    · intro hp
      by_cases hx : x * (c (j + 1) - c j) < 0
      · have hx0 : 0 < x := lt_of_le_of_ne x0 (fun h0 => by rw [← h0, zero_mul] at hx; exact lt_irrefl _ hx)
        exact ⟨j, Or.inl rfl, xj hx0, by by_contra hc; push Not at hc; have := mul_nonneg x0 hc; linarith⟩
      · have hy : y * (c (j - 1 + 1) - c (j - 1)) < 0 := by linarith
        have hy0 : 0 < y := lt_of_le_of_ne y0 (fun h0 => by rw [← h0, zero_mul] at hy; exact lt_irrefl _ hy)
        have := yj hy0
        exact ⟨j - 1, Or.inr (by omega), by omega, by by_contra hc; push Not at hc; have := mul_nonneg y0 hc; linarith⟩
  · unfold insOne; rw [if_pos (by omega)]
  · unfold insOne; rw [if_neg (by omega), if_pos (by omega)]; rfl
  · intro k' g1 g2 g3
    obtain ⟨m, m1, m2, m3, m4, m5, -, m6⟩ := insert_bl h (Q := insOne t p k s u c) (c := c)
      (fun i hi => by unfold insOne; rw [if_pos hi])
      (fun i hi _ => by unfold insOne; rw [if_neg (by omega), if_pos hi])
      (fun i h1 h2 => by
        unfold insOne; rw [if_neg (by omega), if_neg (by omega)]
        exact insOne_mid h c h1 (by omega)) g1 g2 g3
    exact ⟨m, m1, m2, m3, m4, m5, m6⟩
  · intro x w i hx
    by_cases h1 : i + w ≤ k
    · refine ⟨i, fun j hj => ?_⟩
      unfold tIns; rw [if_pos (by omega)]; exact hx j hj
    · by_cases h2 : k ≤ i
      · refine ⟨i + 1, fun j hj => ?_⟩
        unfold tIns; rw [if_neg (by omega), if_neg (by omega), ← hx j hj]; congr 1; omega
      · -- the block contains the indices `k` and `k + 1`
        have a1 := hx (k - (i + 1)) (by omega)
        have a2 := hx (k + 1 - (i + 1)) (by omega)
        rw [show i + 1 + (k - (i + 1)) = k by omega] at a1
        rw [show i + 1 + (k + 1 - (i + 1)) = k + 1 by omega] at a2
        have := h.tk
        rw [a1, a2] at this
        exact absurd this (lt_irrefl _)

/-- The span and the multiplicity of an inner parameter. -/
theorem exists_insOk {t : ℕ → K} {n p : ℕ} {u : K} (ht : Monotone t) (h1 : t p < u) (h2 : u < t n) :
    ∃ k s, t k ≤ u ∧ u < t (k + 1) ∧ p ≤ k ∧ k < n ∧ (∀ j, k < j + s → j ≤ k → t j = u) ∧ t (k - s) < u ∧ s + p ≤ k := by
  have hex : ∃ j, u < t j := ⟨n, h2⟩
  classical
  obtain ⟨K1, hK1, hK2⟩ : ∃ j, u < t j ∧ ∀ i, i < j → t i ≤ u :=
    ⟨Nat.find hex, Nat.find_spec hex, fun i hi => not_lt.mp (Nat.find_min hex hi)⟩
  have hpK : p < K1 := by by_contra hc; have := ht (show K1 ≤ p by omega); linarith
  have hKn : K1 ≤ n := by by_contra hc; have := hK2 n (by omega); linarith
  have hex2 : ∃ j, u ≤ t j := ⟨n, h2.le⟩
  obtain ⟨L, hL1, hL2⟩ : ∃ j, u ≤ t j ∧ ∀ i, i < j → t i < u :=
    ⟨Nat.find hex2, Nat.find_spec hex2, fun i hi => not_le.mp (Nat.find_min hex2 hi)⟩
  have hpL : p < L := by by_contra hc; have := ht (show L ≤ p by omega); linarith
  have hLK : L ≤ K1 := by by_contra hc; have := hL2 K1 (by omega); linarith
  refine ⟨K1 - 1, K1 - L, hK2 _ (by omega), by rw [show K1 - 1 + 1 = K1 by omega]; exact hK1, by omega, by omega, ?_, hL2 _ (by omega), ?_⟩
  · intro j g1 g2
    exact le_antisymm (hK2 j (by omega)) (hL1.trans (ht (by omega)))
  · omega

/-- A parameter can be inserted up to the multiplicity `p`. -/
theorem refines_full {p : ℕ} {u : K} : ∀ (d : ℕ) {t : ℕ → K} {n k s : ℕ} (c : ℕ → K), Monotone t → t k ≤ u → u < t (k + 1) → p ≤ k →
    k < n → (∀ j, k < j + s → j ≤ k → t j = u) → t (k - s) < u → p ≤ s + d →
    ∃ T N C, Refines p t n c T N C ∧ ∃ i, ∀ j, j < p → T (i + 1 + j) = u := by
  intro d
  induction d with
  | zero =>
    intro t n k s c ht h1 h2 hpk hkn hm hb hd
    exact ⟨t, n, c, Refines.refl ht (by omega), k - p, fun j hj => hm _ (by omega) (by omega)⟩
  | succ d ih =>
    intro t n k s c ht h1 h2 hpk hkn hm hb hd
    rcases Nat.lt_or_ge s p with hs | hs
    · have hi : InsOk t n p k s 1 u := ⟨ht, h1, h2, hpk, hkn, le_rfl, hs, hm, hb⟩
      have hr := refines_insOne hi c
      obtain ⟨T, N, C, r1, r2⟩ := ih (t := tIns t k 1 u) (n := n + 1) (k := k + 1) (s := s + 1) (insOne t p k s u c) hr.mono
        (by unfold tIns; rw [if_neg (by omega), if_pos le_rfl])
        (by unfold tIns; rw [if_neg (by omega), if_neg (by omega)]; exact h2) (by omega) (by omega)
        (by
          intro j g1 g2
          unfold tIns
          split
          · exact hm j (by omega) (by omega)
          · rfl)
        (by unfold tIns; rw [if_pos (by omega), show k + 1 - (s + 1) = k - s by omega]; exact hb) (by omega)
      exact ⟨T, N, C, hr.trans r1, r2⟩
    · exact ⟨t, n, c, Refines.refl ht (by omega), k - p, fun j hj => hm _ (by omega) (by omega)⟩

theorem refines_all {p : ℕ} {t : ℕ → K} {n : ℕ} (ht : Monotone t) (hpn : p < n) (c : ℕ → K) {u : ℕ → K} {a : ℕ} : ∀ m,
    (∀ j, a ≤ j → j < m → t p < u j ∧ u j < t n) →
    ∃ T N C, Refines p t n c T N C ∧ ∀ j, a ≤ j → j < m → ∃ i, ∀ l, l < p → T (i + 1 + l) = u j := by
  intro m
  induction m with
  | zero => intro _; exact ⟨t, n, c, Refines.refl ht hpn, fun j _ h => by omega⟩
  | succ m ih =>
    intro h
    obtain ⟨T, N, C, r1, r2⟩ := ih (fun j h1 h2 => h j h1 (by omega))
    by_cases ham : a ≤ m
    · obtain ⟨g1, g2⟩ := h m ham (by omega)
      rw [← r1.lo] at g1
      rw [← r1.hi] at g2
      obtain ⟨k, s, b1, b2, b3, b4, b5, b6, b7⟩ := exists_insOk r1.mono g1 g2
      obtain ⟨T', N', C', q1, q2⟩ := refines_full p C r1.mono b1 b2 b3 b4 b5 b6 (by omega)
      refine ⟨T', N', C', r1.trans q1, ?_⟩
      intro j h1 h2
      rcases Nat.eq_or_lt_of_le (show j ≤ m by omega) with rfl | hlt
      · exact q2
      · obtain ⟨i, hi⟩ := r2 j h1 hlt
        exact q1.keep _ p i hi
    · exact ⟨T, N, C, r1, fun j h1 h2 => by omega⟩

/-- The blossom of a span vanishes with its poles. -/
theorem bl_zero (t : ℕ → K) (k : ℕ) (xs : List K) {c : ℕ → K} (hl : xs.length ≤ k) (h : ∀ i, k - xs.length ≤ i → i ≤ k → c i = 0) :
    bl t k c xs = 0 := by
  rw [bl_congr t k xs c (fun _ => 0) hl h]
  clear h hl
  induction xs with
  | nil => rfl
  | cons x xs ih =>
    rw [bl]
    have : dbStep t (xs.length + 1) x (fun _ => (0 : K)) = fun _ => 0 := by
      funext i; simp [dbStep]
    rw [this, ih]

/-- Schoenberg–Whitney: the spline with coefficients `c`, null outside `[a,b)`, that vanishes at a point strictly inside the support of
each basis function of `[a,b)`, is null. -/
theorem schoenberg_whitney {p : ℕ} (hp : 1 ≤ p) {t : ℕ → K} (ht : Monotone t) {n : ℕ} (u : ℕ → K) : ∀ (w a b : ℕ) (c : ℕ → K), b ≤ a + w →
    1 ≤ a → b + 1 ≤ n → p < n → (∀ j, (j < a ∨ b ≤ j) → c j = 0) → (∀ j, a ≤ j → j + 1 < b → u j < u (j + 1)) →
    (∀ j, a ≤ j → j < b → t j < u j ∧ u j < t (j + p + 1)) → (∀ j, a ≤ j → j < b → t p < u j ∧ u j < t n) →
    (∀ j m, a ≤ j → j < b → p ≤ m → m < n → t m ≤ u j → u j < t (m + 1) → bl t m c (List.replicate p (u j)) = 0) →
    ∀ j, c j = 0 := by
  intro w
  induction w with
  | zero => intro a b c hw ha hb hpn hc _ _ _ _ j; exact hc j (by omega)
  | succ w ih =>
    intro a b c hw ha hb hpn hc hu hsw hdom hz
    by_cases hab : b ≤ a
    · intro j; exact hc j (by omega)
    have humono : ∀ i j, a ≤ i → i < j → j < b → u i < u j := by
      intro i j h1 h2 h3
      obtain ⟨d, rfl⟩ : ∃ d, j = i + 1 + d := ⟨j - (i + 1), by omega⟩
      clear h2
      induction d with
      | zero => exact hu i h1 (by omega)
      | succ d ihd => exact lt_trans (ihd (by omega)) (hu (i + 1 + d) (by omega) (by omega))
    -- a span whose polynomial vanishes splits the problem
    have split : ∀ m j0, p ≤ m → m < n → (∀ i, m - p ≤ i → i ≤ m → c i = 0) → a ≤ j0 → j0 < b → m - p ≤ j0 → j0 ≤ m → ∀ j, c j = 0 := by
      intro m j0 hpm hmn hcz h1 h2 h3 h4
      have left := ih a (min b (m - p)) (fun i => if i < m - p then c i else 0) (by omega) ha (by omega) hpn
        (by intro j hj; split
            · exact hc j (by omega)
            · rfl)
        (fun j g1 g2 => hu j g1 (by omega)) (fun j g1 g2 => hsw j g1 (by omega)) (fun j g1 g2 => hdom j g1 (by omega))
        (by
          intro j l g1 g2 g3 g4 g5 g6
          refine Eq.trans ?_ (hz j l g1 (by omega) g3 g4 g5 g6)
          apply bl_congr t l _ _ _ (by simpa using g3)
          intro i i1 i2
          split
          · rfl
          · have : l ≤ m := by
              by_contra hcon
              have := (hsw j g1 (by omega)).2
              have := ht (show j + p + 1 ≤ l by omega)
              linarith
            exact (hcz i (by omega) (by omega)).symm)
      have right := ih (max a (m + 1)) b (fun i => if m < i then c i else 0) (by omega) (by omega) hb hpn
        (by intro j hj; split
            · exact hc j (by omega)
            · rfl)
        (fun j g1 g2 => hu j (by omega) g2) (fun j g1 g2 => hsw j (by omega) g2) (fun j g1 g2 => hdom j (by omega) g2)
        (by
          intro j l g1 g2 g3 g4 g5 g6
          refine Eq.trans ?_ (hz j l (by omega) g2 g3 g4 g5 g6)
          apply bl_congr t l _ _ _ (by simpa using g3)
          intro i i1 i2
          rw [List.length_replicate] at i1
          split
          · rfl
          · have : m < l := by
              by_contra hcon
              have := (hsw j (by omega) g2).1
              have := ht (show l + 1 ≤ j by omega)
              linarith
            exact (hcz i (by omega) (by omega)).symm)
      intro j
      rcases Nat.lt_or_ge j (m - p) with g | g
      · have := left j; simp only [if_pos g] at this; exact this
      · rcases Nat.lt_or_ge m j with g' | g'
        · have := right j; simp only [if_pos g'] at this; exact this
        · exact hcz j g g'
    by_contra hcon
    obtain ⟨T, N, C, hr, hpos⟩ := refines_all ht hpn c b (fun j h1 h2 => hdom j h1 h2)
    -- the span that starts at each zero, preceded by `p` copies of it
    have hk : ∀ j, a ≤ j → j < b → ∃ k, T k = u j ∧ u j < T (k + 1) ∧ p + p ≤ k ∧ k < N ∧ ∀ l, l < p → T (k - p + 1 + l) = u j := by
      intro j h1 h2
      obtain ⟨g1, g2⟩ := hdom j h1 h2
      rw [← hr.lo] at g1
      rw [← hr.hi] at g2
      obtain ⟨k, s, b1, b2, b3, b4, b5, b6, b7⟩ := exists_insOk hr.mono g1 g2
      obtain ⟨i, hi⟩ := hpos j h1 h2
      have hik : i + p ≤ k := by
        by_contra hc'
        have := hi (p - 1) (by omega)
        have := hr.mono (show k + 1 ≤ i + 1 + (p - 1) by omega)
        linarith
      have all : ∀ x, i + 1 ≤ x → x ≤ k → T x = u j := by
        intro x x1 x2
        have c1 := hr.mono x1
        have c2 := hr.mono x2
        have c3 := hi 0 (by omega)
        rw [Nat.add_zero] at c3
        exact le_antisymm (c2.trans b1) (by rw [← c3]; exact c1)
      refine ⟨k, all k (by omega) le_rfl, b2, ?_, b4, fun l hl => all _ (by omega) (by omega)⟩
      by_contra hc'
      have c1 := all (k - p + 1) (by omega) (by omega)
      have := hr.mono (show k - p + 1 ≤ p by omega)
      linarith
    choose! k k1 k2 k3 k4 k5 using hk
    have hspan : ∀ j, a ≤ j → j < b → T (k j) < T (k j + 1) := fun j h1 h2 => by rw [k1 j h1 h2]; exact k2 j h1 h2
    -- null poles
    have hCz : ∀ j, a ≤ j → j < b → C (k j - p) = 0 := by
      intro j h1 h2
      have := k3 j h1 h2
      obtain ⟨m, m1, m2, m3, m4, m5, m6⟩ := hr.spans (k j) (hspan j h1 h2) (by omega) (k4 j h1 h2)
      rw [← bl_dual hr.mono (hspan j h1 h2) p C (k j - p) (by omega) le_rfl (by omega), seg_const (k5 j h1 h2), m6 _ (by simp)]
      exact hz j m h1 h2 m1 m2 (by rw [← k1 j h1 h2]; exact m4) (lt_of_lt_of_le (k2 j h1 h2) m5)
    have hkk : ∀ i j, a ≤ i → i < j → j < b → k i ≤ k j - p := by
      intro i j h1 h2 h3
      by_contra hc'
      have c1 := k5 j (by omega) h3 0 (by omega)
      have c2 := hr.mono (show k j - p + 1 + 0 ≤ k i by omega)
      rw [c1, k1 i h1 (by omega)] at c2
      have := humono i j h1 h2 h3
      linarith
    -- a span of `T` with null poles gives a null span of `t`
    have hnull : ∀ k', T k' < T (k' + 1) → p ≤ k' → k' < N → (∀ i, k' - p ≤ i → i ≤ k' → C i = 0) →
        ∃ m, p ≤ m ∧ m < n ∧ t m ≤ T k' ∧ T (k' + 1) ≤ t (m + 1) ∧ ∀ i, m - p ≤ i → i ≤ m → c i = 0 := by
      intro k' h1 h2 h3 h4
      obtain ⟨m, m1, m2, m3, m4, m5, m6⟩ := hr.spans k' h1 h2 h3
      refine ⟨m, m1, m2, m4, m5, ?_⟩
      intro i i1 i2
      rw [← bl_dual ht m3 p c i m1 i1 i2, ← m6 _ (by simp)]
      exact bl_zero T k' _ (by simpa using h2) (by simpa using h4)
    -- the zeros of the refined poles
    have hgap1 : ∃ i, 0 ≤ i ∧ i ≤ k a - p ∧ C i ≠ 0 := by
      by_contra hall
      push Not at hall
      have ka3 := k3 a le_rfl (by omega)
      have ka4 := k4 a le_rfl (by omega)
      have hda := hdom a le_rfl (by omega)
      have hex : ∃ j, u a ≤ T j := ⟨k a, by rw [k1 a le_rfl (by omega)]⟩
      classical
      obtain ⟨L, hL1, hL2⟩ : ∃ j, u a ≤ T j ∧ ∀ i, i < j → T i < u a :=
        ⟨Nat.find hex, Nat.find_spec hex, fun i hi => not_le.mp (Nat.find_min hex hi)⟩
      have hpL : p < L := by
        by_contra hc'
        have := hr.mono (show L ≤ p by omega)
        rw [hr.lo] at this
        linarith [hda.1]
      have hLk : L ≤ k a - p + 1 := by
        by_contra hc'
        have := hL2 (k a - p + 1 + 0) (by omega)
        rw [k5 a le_rfl (by omega) 0 (by omega)] at this
        exact lt_irrefl _ this
      have hTL : T L = u a := le_antisymm (by
        have := hr.mono hLk
        have h5 := k5 a le_rfl (by omega) 0 (by omega)
        rw [Nat.add_zero] at h5
        rwa [h5] at this) hL1
      obtain ⟨m, m1, m2, m3, m4, m5⟩ := hnull (L - 1) (by rw [show L - 1 + 1 = L by omega, hTL]; exact hL2 _ (by omega)) (by omega)
        (by omega) (fun i _ i2 => hall i (by omega) (by omega))
      rw [show L - 1 + 1 = L by omega, hTL] at m4
      have hlt := hL2 (L - 1) (by omega)
      apply hcon
      apply split m a m1 m2 m5 le_rfl (by omega)
      · by_contra hc'
        have := (hsw a le_rfl (by omega)).2
        have := ht (show a + p + 1 ≤ m by omega)
        linarith
      · by_contra hc'
        have := (hsw a le_rfl (by omega)).1
        have := ht (show m + 1 ≤ a by omega)
        linarith
    have hgap2 : ∀ j e, a ≤ j → j < b → k j ≤ e → ∃ i, k j - p ≤ i ∧ i ≤ e ∧ C i ≠ 0 := by
      intro j e h1 h2 he
      by_contra hall
      push Not at hall
      have := k3 j h1 h2
      obtain ⟨m, m1, m2, m3, m4, m5⟩ := hnull (k j) (hspan j h1 h2) (by omega) (k4 j h1 h2) (fun i i1 i2 => hall i i1 (by omega))
      rw [k1 j h1 h2] at m3
      have hlt := k2 j h1 h2
      apply hcon
      apply split m j m1 m2 m5 h1 h2
      · by_contra hc'
        have := (hsw j h1 h2).2
        have := ht (show j + p + 1 ≤ m by omega)
        linarith
      · by_contra hc'
        have := (hsw j h1 h2).1
        have := ht (show m + 1 ≤ j by omega)
        linarith
    have hbK := k4 (b - 1) (by omega) (by omega)
    have hbK3 := k3 (b - 1) (by omega) (by omega)
    have hC0 : C 0 = 0 := by rw [hr.first]; exact hc 0 (by omega)
    have hCN : C (N - 1) = 0 := by rw [hr.last]; exact hc (n - 1) (by omega)
    obtain ⟨z, hzdef⟩ : ∃ z : ℕ → ℕ, z = fun l => if l = 0 then 0 else if l ≤ b - a then k (a + l - 1) - p else N - 1 := ⟨_, rfl⟩
    have z0 : z 0 = 0 := by rw [hzdef]; rfl
    have z1 : ∀ l, 1 ≤ l → l ≤ b - a → z l = k (a + l - 1) - p := by
      intro l l1 l2; rw [hzdef]; dsimp only; rw [if_neg (by omega), if_pos l2]
    have z2 : z (b - a + 1) = N - 1 := by rw [hzdef]; dsimp only; rw [if_neg (by omega), if_neg (by omega)]
    have halt : Alt (fun j => C (j + 1) - C j) (z (b - a + 1)) (b - a + 1) := by
      apply alt_of_zeros
      · intro l hl
        rcases Nat.eq_zero_or_pos l with rfl | hl0
        · rw [z0, z1 1 le_rfl (by omega)]
          have := k3 (a + 1 - 1) (by omega) (by omega)
          omega
        · rw [z1 l hl0 hl]
          have k3l := k3 (a + l - 1) (by omega) (by omega)
          rcases Nat.eq_or_lt_of_le hl with rfl | hlt
          · rw [z2]
            have := k4 (a + (b - a) - 1) (by omega) (by omega)
            omega
          · rw [z1 (l + 1) (by omega) (by omega)]
            have := hkk (a + l - 1) (a + (l + 1) - 1) (by omega) (by omega) (by omega)
            omega
      · intro l hl
        rcases Nat.eq_zero_or_pos l with rfl | hl0
        · rw [z0]; exact hC0
        · rcases Nat.lt_or_ge (b - a) l with h | h
          · obtain rfl : l = b - a + 1 := by omega
            rw [z2]; exact hCN
          · rw [z1 l hl0 h]; exact hCz _ (by omega) (by omega)
      · intro l hl
        rcases Nat.eq_zero_or_pos l with rfl | hl0
        · rw [z0, z1 1 le_rfl (by omega), show a + 1 - 1 = a by omega]
          exact hgap1
        · rw [z1 l hl0 hl]
          apply hgap2 _ _ (by omega) (by omega)
          rcases Nat.eq_or_lt_of_le hl with rfl | hlt
          · rw [z2]
            have := k4 (a + (b - a) - 1) (by omega) (by omega)
            omega
          · rw [z1 (l + 1) (by omega) (by omega)]
            exact hkk _ _ (by omega) (by omega) (by omega)
    rw [z2] at halt
    have := (hr.alt _ (by omega) halt).bound (a := a - 1) (b := b) (by omega) (by
      intro j hj
      rcases hj with hj | hj
      · rw [hc j (by omega), hc (j + 1) (by omega), sub_zero]
      · rw [hc j (by omega), hc (j + 1) (by omega), sub_zero])
    omega

end Gbs
