import Verif.Lemmas.RemoveKnot
import Mathlib.Tactic.Abel
import Mathlib.Tactic.Module

/-! # Knot removal with a tolerance: how far the new curve is from the old one -/

namespace Gbs

set_option linter.unusedSectionVars false

variable {K : Type} [Field K] [LinearOrder K] [IsStrictOrderedRing K]
variable {V : Type} [AddCommGroup V] [Module K V]

/-- A seminorm with values in `K`. -/
structure IsSeminorm (N : V → K) : Prop where
  add : ∀ x y, N (x + y) ≤ N x + N y
  smul : ∀ (a : K) x, N (a • x) = |a| * N x

theorem IsSeminorm.zero {N : V → K} (h : IsSeminorm N) : N 0 = 0 := by
  have := h.smul 0 0
  simpa using this

theorem IsSeminorm.neg {N : V → K} (h : IsSeminorm N) (x : V) : N (-x) = N x := by
  have := h.smul (-1) x
  simpa using this

theorem IsSeminorm.sub_comm {N : V → K} (h : IsSeminorm N) (x y : V) : N (x - y) = N (y - x) := by
  rw [← h.neg, neg_sub]

theorem IsSeminorm.nonneg {N : V → K} (h : IsSeminorm N) (x : V) : 0 ≤ N x := by
  have := h.add x (-x)
  rw [h.neg, add_neg_cancel, h.zero] at this
  linarith

theorem IsSeminorm.tri {N : V → K} (h : IsSeminorm N) {x y z : V} {a b : K} (h1 : N (x - y) ≤ a) (h2 : N (y - z) ≤ b) : N (x - z) ≤ a + b := by
  have := h.add (x - y) (y - z)
  rw [sub_add_sub_cancel] at this
  linarith

/-- On every span of `t`, the first curve is at a distance at most `tol` of the second one. -/
def NearBl (N : V → K) (tol : K) (p : ℕ) (t : ℕ → K) (n : ℕ) (c : ℕ → V) (t' : ℕ → K) (n' : ℕ) (c' : ℕ → V) : Prop :=
  ∀ k, t k < t (k + 1) → p ≤ k → k < n → ∃ m, p ≤ m ∧ m < n' ∧ t' m < t' (m + 1) ∧ t' m ≤ t k ∧ t (k + 1) ≤ t' (m + 1) ∧
    (k + 1 = n → m + 1 = n') ∧
    ∀ v, t k ≤ v → v ≤ t (k + 1) → N (bl t k c (List.replicate p v) - bl t' m c' (List.replicate p v)) ≤ tol

theorem NearBl.refl {N : V → K} (hN : IsSeminorm N) (p : ℕ) (t : ℕ → K) (n : ℕ) (c : ℕ → V) : NearBl N 0 p t n c t n c := by
  intro k h1 h2 h3
  exact ⟨k, h2, h3, h1, le_rfl, le_rfl, id, fun v _ _ => by rw [sub_self, hN.zero]⟩

theorem NearBl.trans {N : V → K} (hN : IsSeminorm N) {a b : K} {p : ℕ} {t t' t'' : ℕ → K} {n n' n'' : ℕ} {c c' c'' : ℕ → V}
    (h : NearBl N a p t n c t' n' c') (h' : NearBl N b p t' n' c' t'' n'' c'') : NearBl N (a + b) p t n c t'' n'' c'' := by
  intro k h1 h2 h3
  obtain ⟨m, a1, a2, a3, a4, a5, a6, a7⟩ := h k h1 h2 h3
  obtain ⟨m', b1, b2, b3, b4, b5, b6, b7⟩ := h' m a3 a1 a2
  exact ⟨m', b1, b2, b3, le_trans b4 a4, le_trans a5 b5, fun e => b6 (a6 e),
    fun v v1 v2 => hN.tri (a7 v v1 v2) (b7 v (le_trans a4 v1) (le_trans v2 a5))⟩

section
variable {t : ℕ → K} {n p r s : ℕ} {u : K}

/-- A blossom at the windows of the knots with and without one copy of `u`. -/
theorem rem_rel (h : RemOk t n p r s u) {f : List K → V} (hB : IsBlossom p f) {m : ℕ} (h1 : r ≤ m + p) (h2 : m + s ≤ r) :
    f (seg t (m + 1) p) = ((u - t m) / (t (m + (p + 1)) - t m)) • f (seg (tRem t r 1) (m + 1) p) +
      (1 - (u - t m) / (t (m + (p + 1)) - t m)) • f (seg (tRem t r 1) (m - 1 + 1) p) := by
  have hps := h.ps; have hsp := h.sp; have hspos := h.spos
  have hlo := h.low h2
  have hhi := h.high (j := m + (p + 1)) (by omega)
  obtain ⟨q, rfl⟩ : ∃ q, p = q + 1 := ⟨p - 1, by omega⟩
  set τ := tRem t r 1 with hτ
  have a1 : f (seg τ (m + 1) (q + 1)) = f (t (m + (q + 1 + 1)) :: seg τ (m + 1) q) := by
    apply hB.perm (by simp)
    rw [seg_succ_last]
    have : τ (m + 1 + q) = t (m + (q + 1 + 1)) := by
      simp only [hτ]; unfold tRem; rw [if_neg (by omega)]; congr 1; omega
    rw [this]
    exact List.perm_append_singleton _ _
  have a2 : f (seg τ (m - 1 + 1) (q + 1)) = f (t m :: seg τ (m + 1) q) := by
    rw [show m - 1 + 1 = m by omega, seg_succ]
    have : τ m = t m := by
      simp only [hτ]; unfold tRem; rw [if_pos (by omega)]
    rw [this]
  have a3 : f (seg t (m + 1) (q + 1)) = f (u :: seg τ (m + 1) q) := by
    apply hB.perm (by simp)
    have e1 : seg t (m + 1) (q + 1) = seg τ (m + 1) (r - 1 - m) ++ (u :: seg τ r (m + (q + 1) - r)) := by
      conv_lhs => rw [show q + 1 = (r - 1 - m) + ((m + (q + 1) - r) + 1) by omega]
      rw [seg_append, seg_succ]
      congr 1
      · apply seg_congr
        intro j hj
        simp only [hτ]
        unfold tRem
        rw [if_pos (by omega)]
      · congr 1
        · exact h.mult _ (by omega) (by omega)
        · apply seg_congr
          intro j hj
          simp only [hτ]
          unfold tRem
          rw [if_neg (by omega)]
          congr 1
          omega
    have e2 : seg τ (m + 1) q = seg τ (m + 1) (r - 1 - m) ++ seg τ r (m + (q + 1) - r) := by
      conv_lhs => rw [show q = (r - 1 - m) + (m + (q + 1) - r) by omega]
      rw [seg_append]
      congr 2
      omega
    rw [e1, e2]
    exact List.perm_middle
  have hne : t (m + (q + 1 + 1)) - t m ≠ 0 := (sub_pos.mpr (lt_trans hlo hhi)).ne'
  rw [a1, a2, a3, hB.interp (by simp) u (t m) _ hne, add_comm]
  congr 2
  field_simp
  ring

/-- The poles after one removal computed from the left, and from the right. -/
def remF (t : ℕ → K) (p r s : ℕ) (c : ℕ → V) (m : ℕ) : V := bl t (r - s) c (seg (tRem t r 1) (m + 1) p)
def remG (t : ℕ → K) (p r : ℕ) (c : ℕ → V) (m : ℕ) : V := bl t r c (seg (tRem t r 1) (m + 1) p)

/-- The coefficient of the relation. -/
def remA (t : ℕ → K) (p : ℕ) (u : K) (m : ℕ) : K := (u - t m) / (t (m + (p + 1)) - t m)

theorem remA_mem (h : RemOk t n p r s u) {m : ℕ} (h1 : r ≤ m + p) (h2 : m + s ≤ r) :
    t (m + (p + 1)) - t m ≠ 0 ∧ 0 < remA t p u m ∧ remA t p u m < 1 := by
  have hlo := h.low h2
  have hhi := h.high (j := m + (p + 1)) (by omega)
  have hp : 0 < t (m + (p + 1)) - t m := sub_pos.mpr (lt_trans hlo hhi)
  refine ⟨hp.ne', div_pos (sub_pos.mpr hlo) hp, ?_⟩
  unfold remA
  rw [div_lt_one hp]; linarith

theorem remF_rel (h : RemOk t n p r s u) (c : ℕ → V) {m : ℕ} (h1 : r ≤ m + p) (h2 : m + s ≤ r) :
    c m = remA t p u m • remF t p r s c m + (1 - remA t p u m) • remF t p r s c (m - 1) := by
  have hps := h.ps; have hsp := h.sp
  rw [← bl_dual h.mono h.tl p c m (by omega) (by omega) (by omega), rem_rel h (h.bF c) h1 h2]
  rfl

theorem remG_rel (h : RemOk t n p r s u) (c : ℕ → V) {m : ℕ} (h1 : r ≤ m + p) (h2 : m + s ≤ r) :
    c m = remA t p u m • remG t p r c m + (1 - remA t p u m) • remG t p r c (m - 1) := by
  have hps := h.ps; have hsp := h.sp
  rw [← bl_dual h.mono h.tr p c m (by omega) (by omega) (by omega), rem_rel h (h.bG c) h1 h2]
  rfl

theorem remF_low (h : RemOk t n p r s u) (c : ℕ → V) {m : ℕ} (h1 : m + p + 1 = r) : remF t p r s c m = c m :=
  remQ_low h c (T := 1) (by omega) (by have := h.spos; omega)

theorem remG_high1 (h : RemOk t n p r s u) (c : ℕ → V) {m : ℕ} (h1 : m + s = r) : remG t p r c m = c (m + 1) :=
  remG_high h c (T := 1) h.spos (by omega) (by have := h.spos; omega)

/-- The poles after one removal: from the left below `a`, from the right from `a` on. -/
def remH (t : ℕ → K) (p r s : ℕ) (c : ℕ → V) (a m : ℕ) : V :=
  if m + p < r then c m else if m < a then remF t p r s c m else if m + s < r then remG t p r c m else c (m + 1)

theorem remH_left (h : RemOk t n p r s u) (c : ℕ → V) {a m : ℕ} (h1 : r ≤ m + p + 1) (h2 : m < a) :
    remH t p r s c a m = remF t p r s c m := by
  unfold remH
  split
  · exact (remF_low h c (by omega)).symm
  · rfl

theorem remH_right (h : RemOk t n p r s u) (c : ℕ → V) {a m : ℕ} (h1 : r ≤ m + p) (h2 : a ≤ m) (h3 : m + s ≤ r) :
    remH t p r s c a m = remG t p r c m := by
  unfold remH
  rw [if_neg (by omega), if_neg (by omega)]
  split
  · rfl
  · exact (remG_high1 h c (by omega)).symm

/-- If the relation at the index `a` holds up to `tol`, so does the map. -/
theorem near_step (h : RemOk t n p r s u) {N : V → K} (hN : IsSeminorm N) {tol : K} {c : ℕ → V} {a : ℕ} (ha1 : r ≤ a + p) (ha2 : a + s ≤ r)
    (hd : N (c a - (remA t p u a • remG t p r c a + (1 - remA t p u a) • remF t p r s c (a - 1))) ≤ tol) :
    NearBl N tol p t n c (tRem t r 1) (n - 1) (remH t p r s c a) := by
  have hps := h.ps; have hsp := h.sp; have hrn := h.rn; have hspos := h.spos
  obtain ⟨c', hc'⟩ : ∃ c' : ℕ → V, c' = fun i => if i = a then
    remA t p u a • remG t p r c a + (1 - remA t p u a) • remF t p r s c (a - 1) else c i := ⟨_, rfl⟩
  set Q := remH t p r s c a with hQ
  have hI := h.insOk (T := 1) le_rfl h.spos
  have rel : ∀ i, r ≤ i + p → i + s ≤ r → c' i = remA t p u i • Q i + (1 - remA t p u i) • Q (i - 1) := by
    intro i h1 h2
    rw [hc']
    beta_reduce
    rcases Nat.lt_trichotomy i a with hc | hc | hc
    · rw [if_neg (by omega), hQ, remH_left h c (by omega) hc, remH_left h c (by omega) (by omega)]
      exact remF_rel h c h1 h2
    · subst hc
      rw [if_pos rfl, hQ, remH_right h c (by omega) le_rfl h2, remH_left h c (by omega) (by omega)]
    · rw [if_neg (by omega), hQ, remH_right h c (by omega) (by omega) h2, remH_right h c (by omega) (by omega) (by omega)]
      exact remG_rel h c h1 h2
  have hB : IsBlossom p (bl (tRem t r 1) (r - 1) Q) := bl_isBlossom hI.mono hI.tk (by omega) Q
  intro k k1 k2 k3
  have := insert_bl hI (c := Q) (Q := c') (by
      intro i hi
      rw [hc', hQ]
      unfold remH
      beta_reduce
      rw [if_neg (by omega), if_pos (by omega)]) (by
      intro i h1 h2
      rw [hc', hQ]
      unfold remH
      beta_reduce
      rw [if_neg (by omega), if_neg (by omega), if_neg (by omega), if_neg (by omega), show i - 1 + 1 = i by omega]) (by
      intro i h1 h2
      rw [tIns_tRem h h.spos, rem_rel h hB (by omega) (by omega), bl_dual hI.mono hI.tk p Q i (by omega) (by omega) (by omega),
        bl_dual hI.mono hI.tk p Q (i - 1) (by omega) (by omega) (by omega)]
      exact rel i (by omega) (by omega))
    (k' := k) (by rw [tIns_tRem h h.spos]; exact k1) k2 (by omega)
  rw [tIns_tRem h h.spos] at this
  obtain ⟨m, m1, m2, m3, m4, m5, m6, m7⟩ := this
  refine ⟨m, m1, m2, m3, m4, m5, fun e => m6 (by omega), ?_⟩
  intro v v1 v2
  rw [← m7 _ (by simp), ← sum_B_eq_bl t k n v k3 p c k2, ← sum_B_eq_bl t k n v k3 p c' k2, ← Finset.sum_sub_distrib]
  have e : ∑ x ∈ Finset.range n, (B t k p x v • c x - B t k p x v • c' x) =
      B t k p a v • (c a - (remA t p u a • remG t p r c a + (1 - remA t p u a) • remF t p r s c (a - 1))) := by
    rw [Finset.sum_eq_single a]
    · rw [← smul_sub, hc']
      beta_reduce
      rw [if_pos rfl]
    · intro b _ hb
      rw [← smul_sub, hc']
      beta_reduce
      rw [if_neg hb, sub_self, smul_zero]
    · intro hc
      simp at hc
      omega
  have b0 := B_nonneg h.mono p v1 v2
  have b1 : B t k p a v ≤ 1 := by
    rw [← sum_B_eq_one h.mono k1 k2 k3 v]
    exact Finset.single_le_sum (fun i _ => b0 i) (by simp; omega)
  rw [e, hN.smul, abs_of_nonneg (b0 a)]
  have := hN.nonneg (c a - (remA t p u a • remG t p r c a + (1 - remA t p u a) • remF t p r s c (a - 1)))
  exact le_trans (mul_le_of_le_one_left this b1) hd

/-- The two candidates for the same pole are close: either can be taken. -/
theorem near_step_left (h : RemOk t n p r s u) {N : V → K} (hN : IsSeminorm N) {tol : K} {c : ℕ → V} {a : ℕ} (ha1 : r ≤ a + p) (ha2 : a + s < r)
    (hd : N (remF t p r s c a - remG t p r c a) ≤ tol) :
    NearBl N tol p t n c (tRem t r 1) (n - 1) (remH t p r s c (a + 1)) := by
  apply near_step h hN (by omega) (by omega)
  obtain ⟨-, a1, a2⟩ := remA_mem h (m := a + 1) (by omega) (by omega)
  have e := remG_rel h c (m := a + 1) (by omega) (by omega)
  rw [show a + 1 - 1 = a by omega] at e ⊢
  rw [e, show ∀ x y z : V, ∀ b : K, b • x + (1 - b) • y - (b • x + (1 - b) • z) = (1 - b) • (y - z) by intros; module,
    hN.smul, hN.sub_comm, abs_of_nonneg (by linarith)]
  exact le_trans (mul_le_of_le_one_left (hN.nonneg _) (by linarith)) hd

theorem near_step_right (h : RemOk t n p r s u) {N : V → K} (hN : IsSeminorm N) {tol : K} {c : ℕ → V} {a : ℕ} (ha1 : r ≤ a + p) (ha2 : a + s ≤ r)
    (hd : N (remF t p r s c a - remG t p r c a) ≤ tol) :
    NearBl N tol p t n c (tRem t r 1) (n - 1) (remH t p r s c a) := by
  apply near_step h hN ha1 ha2
  obtain ⟨-, a1, a2⟩ := remA_mem h (m := a) ha1 ha2
  have e := remF_rel h c (m := a) ha1 ha2
  rw [show c a - (remA t p u a • remG t p r c a + (1 - remA t p u a) • remF t p r s c (a - 1)) =
    remA t p u a • (remF t p r s c a - remG t p r c a) by
      conv_lhs => rw [e]
      module, hN.smul, abs_of_nonneg a1.le]
  exact le_trans (mul_le_of_le_one_left (hN.nonneg _) (by linarith)) hd

theorem RemOk.tRem_tRem (h : RemOk t n p r s u) {T : ℕ} (_ : T < s) : tRem (tRem t r T) (r - T) 1 = tRem t r (T + 1) := by
  have hps := h.ps; have hsp := h.sp
  funext j
  unfold tRem
  by_cases h1 : j + (T + 1) ≤ r
  · rw [if_pos h1, if_pos (by omega), if_pos (by omega)]
  · rw [if_neg h1, if_neg (by omega), if_neg (by omega)]
    congr 1
    omega

theorem RemOk.tRem_ok (h : RemOk t n p r s u) {T : ℕ} (hT : T < s) : RemOk (tRem t r T) (n - T) p (r - T) (s - T) u := by
  have hps := h.ps; have hsp := h.sp; have hrn := h.rn
  refine ⟨h.tRem_mono T, ?_, ?_, ?_, by omega, by omega, by omega, by omega⟩
  · intro j h1 h2
    exact h.tRem_u (by omega) (by omega)
  · unfold tRem
    rw [if_pos (by omega)]
    exact h.low (by omega)
  · unfold tRem
    rw [if_neg (by omega)]
    exact h.high (by omega)

end

/-- The state of `temp` in a pass, with the poles computed from each side. -/
structure TolTemp (qL qR : ℕ → V) (p off last T ii : ℕ) (temp : List V) : Prop where
  len : temp.length = 2 * p + 1
  left : ∀ k, k < ii → temp[k]? = some (qL (off + k))
  right : ∀ x, last + 1 < x + ii → x ≤ last + 1 → temp[x - off]? = some (qR (x - T - 1))

section
variable {U : List K} {n p r s T : ℕ} {u : K}

theorem remA_code (t : ℕ → K) {i : ℕ} (h1 : i + T ≤ r) (h2 : r < i + (p + 1) + T) :
    (u - t i) / (t (i + (p + 1) + T) - t i) = remA (tRem t r T) p u i ∧ t (i + (p + 1) + T) - t i =
      tRem t r T (i + (p + 1)) - tRem t r T i := by
  unfold remA
  unfold tRem
  rw [if_pos h1, if_neg (by omega)]
  exact ⟨rfl, rfl⟩

theorem tolCompute_spec (h : RemOk (kf U) n p r s u) (hlen : U.length = n + p + 1) (hT : T < s) (qL qR : ℕ → V)
    {A : List V} {off last steps : ℕ} (hoff : off + p + T + 1 = r) (hlast : last + s = r + T)
    (hsteps : steps = (p - s + T + 1) / 2)
    (hl : ∀ i, off < i → i ≤ off + steps → A[i]? = some
      (remA (tRem (kf U) r T) p u i • qL i + (1 - remA (tRem (kf U) r T) p u i) • qL (i - 1)))
    (hr : ∀ j, last < j + steps → j ≤ last → A[j]? = some
      (remA (tRem (kf U) r T) p u (j - T) • qR (j - T) + (1 - remA (tRem (kf U) r T) p u (j - T)) • qR (j - T - 1))) :
    ∀ j ii jj temp, j + ii = last + 1 → j = off + jj → 1 ≤ ii → ii ≤ steps + 1 →
      TolTemp qL qR p off last T ii temp →
      ∃ temp', remCompute u U A p T j (off + ii) ii jj temp =
          .ok ⟨temp', off + steps + 1, last - steps, steps + 1, last - steps - off⟩ ∧
        TolTemp qL qR p off last T (steps + 1) temp' := by
  have hps := h.ps; have hsp := h.sp; have hrn := h.rn
  have hO := h.tRem_ok hT
  intro j
  induction j with
  | zero =>
    intro ii jj temp h1 h2 h3 h4 h5
    obtain rfl : ii = steps + 1 := by omega
    refine ⟨temp, ?_, h5⟩
    unfold remCompute
    rw [R_pure]
    congr 2 <;> omega
  | succ j ih =>
    intro ii jj temp h1 h2 h3 h4 h5
    unfold remCompute
    by_cases hc : off + ii + T < j + 1
    · rw [if_pos hc]
      have hii : ii ≤ steps := by omega
      obtain ⟨d1, d2, d3⟩ := remA_mem hO (m := off + ii) (by omega) (by omega)
      obtain ⟨f1, f2, f3⟩ := remA_mem hO (m := j + 1 - T) (by omega) (by omega)
      obtain ⟨r1, r1'⟩ := remA_code (r := r) (p := p) (u := u) (T := T) (kf U) (i := off + ii) (by omega) (by omega)
      obtain ⟨r2, r2'⟩ := remA_code (r := r) (p := p) (u := u) (T := T) (kf U) (i := j + 1 - T) (by omega) (by omega)
      rw [← r1'] at d1
      rw [← r2'] at f1
      rw [show j + 1 - T + (p + 1) + T = j + 1 + (p + 1) by omega] at f1 r2
      set a := remA (tRem (kf U) r T) p u (off + ii) with ha
      set b := remA (tRem (kf U) r T) p u (j + 1 - T) with hb
      have t1 : temp[ii - 1]? = some (qL (off + (ii - 1))) := h5.left _ (by omega)
      have t2 : temp[jj + 1]? = some (qR (j + 1 - T)) := by
        have := h5.right (j + 2) (by omega) (by omega)
        rwa [show j + 2 - off = jj + 1 by omega, show j + 2 - T - 1 = j + 1 - T by omega] at this
      have hx : a⁻¹ • (a • qL (off + ii) + (1 - a) • qL (off + ii - 1) - (1 - a) • qL (off + (ii - 1))) = qL (off + ii) := by
        rw [show off + ii - 1 = off + (ii - 1) by omega, add_sub_cancel_right, smul_smul, inv_mul_cancel₀ d2.ne', one_smul]
      have hy : (1 - b)⁻¹ • (b • qR (j + 1 - T) + (1 - b) • qR (j + 1 - T - 1) - b • qR (j + 1 - T)) = qR (j - T) := by
        rw [show j + 1 - T - 1 = j - T by omega, add_sub_cancel_left, smul_smul, inv_mul_cancel₀ (by linarith), one_smul]
      have hlen5 := h5.len
      rw [rd_kf (by omega), R_bind_ok, rd_kf (by omega), R_bind_ok, fdiv_ok d1, R_bind_ok, usub_ok (by omega), R_bind_ok,
        rd_kf (by omega), R_bind_ok, rd_kf (by omega), R_bind_ok, fdiv_ok f1, R_bind_ok, r1, r2,
        rd_eq_ok.mpr (hl (off + ii) (by omega) (by omega)), R_bind_ok, usub_ok h3, R_bind_ok, rd_eq_ok.mpr t1, R_bind_ok,
        vdiv_ok d2.ne', R_bind_ok, wr_ok (by omega), R_bind_ok,
        rd_eq_ok.mpr (hr (j + 1) (by omega) (by omega)), R_bind_ok,
        rd_eq_ok.mpr (show (temp.set ii _)[jj + 1]? = _ by rw [List.getElem?_set_ne (by omega)]; exact t2), R_bind_ok,
        vdiv_ok (by linarith), R_bind_ok, wr_ok (by simp; omega), R_bind_ok, usub_ok (by omega), R_bind_ok, hx, hy,
        show off + ii + 1 = off + (ii + 1) by omega]
      apply ih (ii + 1) (jj - 1) _ (by omega) (by omega) (by omega) (by omega)
      refine ⟨by simp [hlen5], ?_, ?_⟩
      · intro k hk
        rw [List.getElem?_set_ne (by omega), getElem?_set_of_lt (by omega)]
        split
        · rename_i e; rw [e]
        · exact h5.left k (by omega)
      · intro x hx1 hx2
        rw [getElem?_set_of_lt (by simp; omega)]
        split
        · congr 2; omega
        · rw [List.getElem?_set_ne (by omega)]
          exact h5.right x (by omega) hx2
    · rw [if_neg hc]
      obtain rfl : ii = steps + 1 := by omega
      refine ⟨temp, ?_, h5⟩
      rw [R_pure]
      congr 2 <;> omega

/-- The poles before the pass `T`: `QL` are the poles of the curve when the doubtful pole is taken from the left, `QR` from the right. -/
structure TolInv (QL QR : ℕ → V) (n p r s T : ℕ) (A : List V) : Prop where
  len : A.length = n
  left : ∀ i, i + p + T ≤ r + (p - s + T) / 2 → A[i]? = some (QL i)
  right : ∀ j, r + T ≤ j + s + (p - s + T) / 2 → j < n → A[j]? = some (QR (j - T))
  agree : ∀ i, ((p - s + T) % 2 = 0 → i + p + T ≠ r + (p - s + T) / 2) → QL i = QR i

theorem tolPass_spec (h : RemOk (kf U) n p r s u) (hlen : U.length = n + p + 1) (hT : T < s) {QL QR : ℕ → V}
    {A temp : List V} (hI : TolInv QL QR n p r s T A) (ht : temp.length = 2 * p + 1) {steps : ℕ}
    (hsteps : steps = (p - s + T + 1) / 2) :
    ∃ temp', remPass u U p r s T A temp = .ok (r - (p + T), r - (p + T) - 1, r - s + T,
        ⟨temp', r - (p + T) + steps, r - s + T - steps, steps + 1, r - s + T - steps - (r - (p + T) - 1)⟩) ∧
      TolTemp (remF (tRem (kf U) r T) p (r - T) (s - T) QL) (remG (tRem (kf U) r T) p (r - T) QL)
        p (r - (p + T) - 1) (r - s + T) T (steps + 1) temp' := by
  have hps := h.ps; have hsp := h.sp; have hrn := h.rn
  have hAl := hI.len
  have hO := h.tRem_ok hT
  obtain ⟨off, hoff⟩ : ∃ off, off + p + T + 1 = r := ⟨r - (p + T) - 1, by omega⟩
  obtain ⟨last, hlast⟩ : ∃ last, last + s = r + T := ⟨r - s + T, by omega⟩
  rw [show r - (p + T) - 1 = off by omega, show r - s + T = last by omega, show r - (p + T) = off + 1 by omega]
  unfold remPass
  set F := remF (tRem (kf U) r T) p (r - T) (s - T) QL with hF
  set G := remG (tRem (kf U) r T) p (r - T) QL with hG
  have x1 : A[off]? = some (F (off + 0)) := by
    rw [hF, remF_low hO QL (by omega)]
    exact hI.left off (by omega)
  have x2 : A[last + 1]? = some (G (last + 1 - T - 1)) := by
    rw [hG, remG_high1 hO QL (by omega), hI.right (last + 1) (by omega) (by omega), hI.agree (last + 1 - T - 1 + 1) (by omega)]
    congr 2
    omega
  obtain ⟨temp', e, hR⟩ := tolCompute_spec h hlen hT F G (A := A) hoff hlast hsteps
    (fun i h1 h2 => by
      rw [hI.left i (by omega), hF, ← remF_rel hO QL (by omega) (by omega)])
    (fun j h1 h2 => by
      rw [hI.right j (by omega) (by omega), hG, ← remG_rel hO QL (by omega) (by omega), hI.agree (j - T) (by omega)])
    last 1 (last - off)
    ((temp.set 0 (F (off + 0))).set (last + 1 - off) (G (last + 1 - T - 1)))
    rfl (by omega) le_rfl (by omega)
    ⟨by simp [ht], by
      intro k hk
      obtain rfl : k = 0 := by omega
      rw [List.getElem?_set_ne (by omega), getElem?_set_of_lt (by omega), if_pos rfl], by
      intro x h1 h2
      obtain rfl : x = last + 1 := by omega
      rw [getElem?_set_of_lt (by simp; omega), if_pos rfl]⟩
  refine ⟨temp', ?_, hR⟩
  rw [usub_ok (by omega), R_bind_ok, usub_ok (by omega), R_bind_ok, usub_ok (by omega), R_bind_ok]
  simp only
  rw [show r - (p + T) - 1 = off by omega, show r - s + T = last by omega, show r - (p + T) = off + 1 by omega]
  rw [rd_eq_ok.mpr x1, R_bind_ok, wr_ok (by omega), R_bind_ok, rd_eq_ok.mpr x2, R_bind_ok, usub_ok (by omega), R_bind_ok,
    wr_ok (by simp; omega), R_bind_ok, usub_ok (by omega), R_bind_ok, e, R_bind_ok, R_pure,
    show off + 1 + steps = off + steps + 1 by omega]

/-- The poles after the pass `T`. -/
theorem tolPass_inv (h : RemOk (kf U) n p r s u) (hT : T < s) {QL QR : ℕ → V}
    {A temp : List V} (hI : TolInv QL QR n p r s T A) {steps a : ℕ}
    (hsteps : steps = (p - s + T + 1) / 2) (ha : a + p + T = r + (p - s + T) / 2)
    (hR : TolTemp (remF (tRem (kf U) r T) p (r - T) (s - T) QL) (remG (tRem (kf U) r T) p (r - T) QL)
        p (r - (p + T) - 1) (r - s + T) T (steps + 1) temp) :
    ∃ A', remCommit temp T (r - (p + T) - 1) (r - s + T) (r - (p + T)) A = .ok A' ∧
      TolInv (remH (tRem (kf U) r T) p (r - T) (s - T) QL (if (p - s + T) % 2 = 0 then a else a + 1))
        (remH (tRem (kf U) r T) p (r - T) (s - T) QL a) n p r s (T + 1) A' := by
  have hps := h.ps; have hsp := h.sp; have hrn := h.rn
  have hAl := hI.len
  have hO := h.tRem_ok hT
  obtain ⟨off, hoff⟩ : ∃ off, off + p + T + 1 = r := ⟨r - (p + T) - 1, by omega⟩
  obtain ⟨last, hlast⟩ : ∃ last, last + s = r + T := ⟨r - s + T, by omega⟩
  rw [show r - (p + T) - 1 = off by omega, show r - s + T = last by omega] at hR ⊢
  rw [show r - (p + T) = off + 1 by omega]
  obtain ⟨A', e, hl, hx⟩ := remCommit_spec (n := n) hoff hlast (by omega) hsp (by omega) hsteps hR.len (by omega) last 1 A
    rfl le_rfl (by omega) hAl
  refine ⟨A', e, hl, ?_, ?_, ?_⟩
  · intro i hi
    rw [hx i]
    rcases Nat.lt_or_ge off i with h3 | h3
    · rw [if_pos (by omega), hR.left _ (by omega), show off + (i - off) = i by omega, remH_left hO QL (by omega) (by split <;> omega)]
    · rw [if_neg (by omega), hI.left i (by omega)]
      unfold remH
      rw [if_pos (by omega)]
  · intro j h1 h2
    rw [hx j]
    rcases Nat.lt_or_ge last j with h3 | h3
    · rw [if_neg (by omega), hI.right j (by omega) h2, ← hI.agree (j - T) (by omega)]
      unfold remH
      rw [if_neg (by omega), if_neg (by omega), if_neg (by omega)]
      congr 2
      omega
    · rw [if_pos (by omega), hR.right _ (by omega) (by omega), show j - T - 1 = j - (T + 1) by omega,
        remH_right hO QL (by omega) (by omega) (by omega)]
  · intro i hi
    split
    · rfl
    · have hne := hi (by omega)
      unfold remH
      by_cases c1 : i + p < r - T
      · rw [if_pos c1, if_pos c1]
      · rw [if_neg c1, if_neg c1]
        by_cases c2 : i < a
        · rw [if_pos c2, if_pos (by omega)]
        · rw [if_neg c2, if_neg (by omega)]

/-- The loop with tolerance: the curves whose poles are read on either side are at a distance at most `T * tol`. -/
theorem tolLoop_near {N : V → K} (hN : IsSeminorm N) {tol : K} {near : V → V → Bool} (hnear : ∀ x y, near x y = true → N (x - y) ≤ tol)
    (h : RemOk (kf U) n p r s u) (hlen : U.length = n + p + 1) {c : ℕ → V} :
    ∀ f T A temp QL QR, T + f ≤ s → temp.length = 2 * p + 1 → TolInv QL QR n p r s T A →
      NearBl N (T * tol) p (kf U) n c (tRem (kf U) r T) (n - T) QL →
      NearBl N (T * tol) p (kf U) n c (tRem (kf U) r T) (n - T) QR →
      ∃ T' A' QL' QR', remTolLoop near u U p r s f T A temp = .ok (T', A') ∧ T' ≤ T + f ∧ TolInv QL' QR' n p r s T' A' ∧
        NearBl N (T' * tol) p (kf U) n c (tRem (kf U) r T') (n - T') QL' ∧
        NearBl N (T' * tol) p (kf U) n c (tRem (kf U) r T') (n - T') QR' := by
  have hps := h.ps; have hrn := h.rn; have hsp := h.sp
  intro f
  induction f with
  | zero =>
    intro T A temp QL QR h1 _ hI hL hR
    exact ⟨T, A, QL, QR, rfl, le_rfl, hI, hL, hR⟩
  | succ f ih =>
    intro T A temp QL QR h1 ht hI hL hR
    have hO := h.tRem_ok (T := T) (by omega)
    have hTT := h.tRem_tRem (T := T) (by omega)
    obtain ⟨steps, hst⟩ : ∃ x, x = (p - s + T + 1) / 2 := ⟨_, rfl⟩
    obtain ⟨a, ha⟩ : ∃ a, a + p + T = r + (p - s + T) / 2 := ⟨r + (p - s + T) / 2 - p - T, by omega⟩
    obtain ⟨temp', e1, hR'⟩ := tolPass_spec h hlen (by omega) hI ht hst
    obtain ⟨A', e2, hI'⟩ := tolPass_inv h (by omega) hI hst ha hR'
    -- when the test is passed
    have next : NearBl N tol p (tRem (kf U) r T) (n - T) QL (tRem (kf U) r (T + 1)) (n - T - 1)
          (remH (tRem (kf U) r T) p (r - T) (s - T) QL (if (p - s + T) % 2 = 0 then a else a + 1)) →
        NearBl N tol p (tRem (kf U) r T) (n - T) QL (tRem (kf U) r (T + 1)) (n - T - 1)
          (remH (tRem (kf U) r T) p (r - T) (s - T) QL a) →
        ∃ T' A'' QL' QR', remTolLoop near u U p r s f (T + 1) A' temp' = .ok (T', A'') ∧ T' ≤ T + (f + 1) ∧ TolInv QL' QR' n p r s T' A'' ∧
        NearBl N (T' * tol) p (kf U) n c (tRem (kf U) r T') (n - T') QL' ∧
        NearBl N (T' * tol) p (kf U) n c (tRem (kf U) r T') (n - T') QR' := by
      intro n1 n2
      have n1' := hL.trans hN n1
      have n2' := hL.trans hN n2
      rw [show (T : K) * tol + tol = ((T + 1 : ℕ) : K) * tol by push_cast; ring, show n - T - 1 = n - (T + 1) by omega] at n1' n2'
      obtain ⟨T', A'', QL', QR', g1, g2, g3⟩ := ih (T + 1) A' temp' _ _ (by omega) hR'.len hI' n1' n2'
      exact ⟨T', A'', QL', QR', g1, by omega, g3⟩
    unfold remTolLoop
    rw [e1, R_bind_ok]
    simp only
    have t1 := hR'.left steps (by omega)
    split
    · rename_i hc
      have t2 := hR'.right (r - s + T - steps + 1) (by omega) (by omega)
      rw [show r - s + T - steps + 1 - (r - (p + T) - 1) = r - s + T - steps - (r - (p + T) - 1) + 1 by omega] at t2
      rw [usub_ok (by omega), R_bind_ok, Nat.add_sub_cancel, rd_eq_ok.mpr t1, R_bind_ok, rd_eq_ok.mpr t2, R_bind_ok,
        show r - s + T - steps + 1 - T - 1 = a by omega, show r - (p + T) - 1 + steps = a by omega, R_pure, R_bind_ok]
      split
      · rename_i hok
        have hd := hnear _ _ hok
        rw [e2, R_bind_ok]
        apply next
        · rw [if_neg (by omega), ← hTT]
          exact near_step_left hO hN (by omega) (by omega) hd
        · rw [← hTT]
          exact near_step_right hO hN (by omega) (by omega) hd
      · exact ⟨T, A, QL, QR, rfl, by omega, hI, hL, hR⟩
    · rename_i hc
      have t2 := hR'.right (r - s + T - steps + 1) (by omega) (by omega)
      rw [show r - s + T - steps + 1 - (r - (p + T) - 1) = steps + 1 + T + 1 by omega] at t2
      obtain ⟨d1, -, -⟩ := remA_mem hO (m := a) (by omega) (by omega)
      obtain ⟨r1, r1'⟩ := remA_code (r := r) (p := p) (u := u) (T := T) (kf U) (i := a) (by omega) (by omega)
      rw [← r1'] at d1
      rw [show r - (p + T) + steps = a by omega, rd_kf (by omega), R_bind_ok, rd_kf (by omega), R_bind_ok, fdiv_ok d1, R_bind_ok,
        rd_eq_ok.mpr (hI.left a (by omega)), R_bind_ok, rd_eq_ok.mpr t2, R_bind_ok, usub_ok (by omega),
        R_bind_ok, Nat.add_sub_cancel, rd_eq_ok.mpr t1, R_bind_ok, r1,
        show r - s + T - steps + 1 - T - 1 = a by omega,
        show r - (p + T) - 1 + steps = a - 1 by omega, R_pure, R_bind_ok]
      split
      · rename_i hok
        have hd := hnear _ _ hok
        rw [e2, R_bind_ok]
        have := near_step hO hN (by omega) (by omega) hd
        rw [hTT] at this
        apply next
        · rw [if_pos (by omega)]
          exact this
        · exact this
      · exact ⟨T, A, QL, QR, rfl, by omega, hI, hL, hR⟩

theorem tolInv_zero {P : List V} (hP : P.length = n) (h : RemOk (kf U) n p r s u) : TolInv (pf P) (pf P) n p r s 0 P := by
  have hps := h.ps; have hrn := h.rn; have hsp := h.sp
  exact ⟨hP, fun i hi => pf_getElem? (by omega), fun j _ hj => by rw [Nat.sub_zero]; exact pf_getElem? (by omega), fun _ _ => rfl⟩

end

theorem NearBl.congr {N : V → K} {tol : K} {p : ℕ} {t t' : ℕ → K} {n n' : ℕ} {c c' c'' : ℕ → V}
    (h : NearBl N tol p t n c t' n' c') (hc : ∀ i, i < n' → c'' i = c' i) : NearBl N tol p t n c t' n' c'' := by
  intro k h1 h2 h3
  obtain ⟨m, a1, a2, a3, a4, a5, a6, a7⟩ := h k h1 h2 h3
  refine ⟨m, a1, a2, a3, a4, a5, a6, fun v v1 v2 => ?_⟩
  rw [bl_congr t' m (List.replicate p v) c'' c' (by simpa using a1) (fun i i1 i2 => hc i (by omega))]
  exact a7 v v1 v2

/-- `remove_knot` with a tolerance: the result after `T` removals. -/
theorem removeKnotTol_near {eps : K} {N : V → K} (hN : IsSeminorm N) {tol : K} {near : V → V → Bool}
    (hnear : ∀ x y, near x y = true → N (x - y) ≤ tol) {U : List K} (hU : U.Pairwise (· ≤ ·)) {P : List V} {p num : ℕ} {u : K}
    (hlen : U.length = P.length + p + 1) (h1 : kf U p < u) (h2 : u < kf U P.length) (hs : 1 ≤ multOf U u) (hsp : multOf U u ≤ p)
    (hnum : num ≤ multOf U u) :
    ∃ T Q, removeKnotTol eps near u p num U P = .ok (T, remKnots U u T, Q) ∧ T ≤ num ∧ Q.length = P.length - T ∧
      kf (remKnots U u T) = tRem (kf U) (upperBound U u - 1) T ∧
      NearBl N (T * tol) p (kf U) P.length (pf P) (kf (remKnots U u T)) Q.length (pf Q) := by
  obtain ⟨h, hub⟩ := remOk_of hU hlen h1 h2 hs hsp
  obtain ⟨r, hr⟩ : ∃ r, r = upperBound U u - 1 := ⟨_, rfl⟩
  obtain ⟨s, hs'⟩ : ∃ s, s = multOf U u := ⟨_, rfl⟩
  rw [← hr, ← hs'] at h
  rw [← hr]
  have hps := h.ps; have hrn := h.rn; have hsp' := h.sp
  have hub' : upperBound U u = r + 1 := by omega
  have hk : ∀ T, T ≤ s → kf (remKnots U u T) = tRem (kf U) r T := by
    intro T hT
    unfold remKnots
    rw [hub']
    exact kf_remKnots (by omega) (by omega)
  have zero : NearBl N (((0 : ℕ) : K) * tol) p (kf U) P.length (pf P) (tRem (kf U) r 0) (P.length - 0) (pf P) := by
    rw [Nat.cast_zero, zero_mul, show tRem (kf U) r 0 = kf U by funext j; unfold tRem; split <;> rfl]
    exact NearBl.refl hN _ _ _ _
  have triv : ∃ T Q, (Except.ok (0, U, P) : R (ℕ × List K × List V)) = .ok (T, remKnots U u T, Q) ∧ T ≤ num ∧ Q.length = P.length - T ∧
      kf (remKnots U u T) = tRem (kf U) r T ∧
      NearBl N (T * tol) p (kf U) P.length (pf P) (kf (remKnots U u T)) Q.length (pf Q) :=
    ⟨0, P, by unfold remKnots; rw [Nat.sub_zero, List.take_append_drop], by omega, rfl, hk 0 (by omega), by rw [hk 0 (by omega)]; exact zero⟩
  unfold removeKnotTol
  rw [usub_ok hub, R_bind_ok, ← hr, rd_kf (by omega), R_bind_ok]
  split
  · exact triv
  · split
    · exact triv
    · simp only
      rw [show upperBound U u - lowerBound U u = s from hs'.symm]
      obtain ⟨T, A, QL, QR, e, hT, hI, hL, hR⟩ := tolLoop_near hN hnear h hlen (c := pf P) num 0 P (List.replicate (2 * p + 1) 0)
        _ _ (by omega) (by simp) (tolInv_zero rfl h) zero zero
      rw [e, R_bind_ok]
      simp only
      by_cases hT0 : T = 0
      · subst hT0
        rw [if_pos rfl]
        have hAl := hI.len
        refine ⟨0, A, by unfold remKnots; rw [Nat.sub_zero, List.take_append_drop]; rfl, by omega, hAl, hk 0 (by omega), ?_⟩
        rw [hk 0 (by omega), hAl]
        apply hL.congr
        intro i hi
        have key : A[i]? = some (QL i) := by
          by_cases c1 : i + p + 0 ≤ r + (p - s + 0) / 2
          · exact hI.left i c1
          · rw [hI.right i (by omega) (by omega), hI.agree i (by omega)]
            rfl
        unfold pf
        rw [List.getD_eq_getElem?_getD, key]
        rfl
      · rw [if_neg hT0]
        obtain ⟨Q, e3, hQl, hQ⟩ := remFinish_gen h hlen (T := T) (by omega) (by omega) hI.len
        rw [e3, R_bind_ok]
        simp only
        refine ⟨T, Q, ?_, by omega, hQl, hk T (by omega), ?_⟩
        · unfold remKnots
          rw [hub']
          rfl
        · rw [hk T (by omega), hQl]
          have main : ∀ Z : ℕ → V, NearBl N (T * tol) p (kf U) P.length (pf P) (tRem (kf U) r T) (P.length - T) Z →
              (∀ i, i < P.length - T → Q[i]? = some (Z i)) →
              NearBl N (T * tol) p (kf U) P.length (pf P) (tRem (kf U) r T) (P.length - T) (pf Q) := by
            intro Z hZ hZ'
            apply hZ.congr
            intro i hi
            unfold pf
            rw [List.getD_eq_getElem?_getD, hZ' i hi]
            rfl
          by_cases hpar : (p - s + T) % 2 = 0 ∧ T % 2 = 1
          · apply main QR hR
            intro i hi
            rw [hQ i hi]
            split
            · rw [hI.left i (by omega), hI.agree i (by omega)]
            · rw [hI.right (i + T) (by omega) (by omega), Nat.add_sub_cancel]
          · apply main QL hL
            intro i hi
            rw [hQ i hi]
            split
            · rw [hI.left i (by omega)]
            · rw [hI.right (i + T) (by omega) (by omega), Nat.add_sub_cancel, hI.agree i (by omega)]

end Gbs
