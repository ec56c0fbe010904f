import Verif.Lemmas.RemoveMath
import Verif.Lemmas.Rational
import Verif.Lemmas.InsertCurve
import Verif.Model.Degree

/-! # Knot removal: the code -/

namespace Gbs

set_option linter.unusedSectionVars false

variable {K : Type} [Field K] [LinearOrder K] [IsStrictOrderedRing K]
variable {V : Type} [AddCommGroup V] [Module K V]

/-- The state of `temp` in a pass when the counter `ii` has been reached. -/
structure RemTemp (q : ℕ → V) (p off last T ii : ℕ) (temp : List V) : Prop where
  len : temp.length = 2 * p + 1
  left : ∀ k, k < ii → temp[k]? = some (q (off + k))
  right : ∀ x, last + 1 < x + ii → x ≤ last + 1 → temp[x - off]? = some (q (x - T - 1))

section
variable {U : List K} {n p r s T : ℕ} {u : K}

theorem remCompute_spec (h : RemOk (kf U) n p r s u) (hlen : U.length = n + p + 1) (c : ℕ → V) (hT : T < s)
    {A : List V} (hA : A.length = n) {off last steps : ℕ} (hoff : off + p + T + 1 = r) (hlast : last + s = r + T)
    (hsteps : steps = (p - s + T + 1) / 2)
    (hl : ∀ i, off < i → i ≤ off + steps → A[i]? = some (remQ (kf U) p r s c T i))
    (hr : ∀ j, last < j + steps → j ≤ last → A[j]? = some (remQ (kf U) p r s c T (j - T))) :
    ∀ j ii jj temp, j + ii = last + 1 → j = off + jj → 1 ≤ ii → ii ≤ steps + 1 →
      RemTemp (remQ (kf U) p r s c (T + 1)) p off last T ii temp →
      ∃ temp', remCompute u U A p T j (off + ii) ii jj temp =
          .ok ⟨temp', off + steps + 1, last - steps, steps + 1, last - steps - off⟩ ∧
        RemTemp (remQ (kf U) p r s c (T + 1)) p off last T (steps + 1) temp' := by
  have hps := h.ps; have hsp := h.sp; have hrn := h.rn
  intro j
  induction j with
  | zero =>
    intro ii jj temp h1 h2 h3 h4 h5
    obtain rfl : ii = steps + 1 := by omega
    refine ⟨temp, ?_, h5⟩
    unfold remCompute
    rw [R_pure]
    congr 2 <;> omega
  | succ j ih =>
    intro ii jj temp h1 h2 h3 h4 h5
    unfold remCompute
    by_cases hc : off + ii + T < j + 1
    · rw [if_pos hc]
      have hii : ii ≤ steps := by omega
      obtain ⟨d1, d2, d3⟩ := remQ_alpha h (T := T) (m := off + ii) (by omega) (by omega)
      obtain ⟨f1, f2, f3⟩ := remQ_alpha h (T := T) (m := j + 1 - T) (by omega) (by omega)
      have r1 := remQ_rel h c (T := T) (m := off + ii) hT (by omega) (by omega)
      have r2 := remQ_rel h c (T := T) (m := j + 1 - T) hT (by omega) (by omega)
      rw [show j + 1 - T + (p + 1) + T = j + 1 + (p + 1) by omega] at f1 f2 f3 r2
      set a := (u - kf U (off + ii)) / (kf U (off + ii + (p + 1) + T) - kf U (off + ii)) with ha
      set b := (u - kf U (j + 1 - T)) / (kf U (j + 1 + (p + 1)) - kf U (j + 1 - T)) with hb
      set q := remQ (kf U) p r s c (T + 1) with hq
      have t1 : temp[ii - 1]? = some (q (off + (ii - 1))) := h5.left _ (by omega)
      have t2 : temp[jj + 1]? = some (q (j + 1 - T)) := by
        have := h5.right (j + 2) (by omega) (by omega)
        rwa [show j + 2 - off = jj + 1 by omega, show j + 2 - T - 1 = j + 1 - T by omega] at this
      have hx : a⁻¹ • (remQ (kf U) p r s c T (off + ii) - (1 - a) • q (off + (ii - 1))) = q (off + ii) := by
        rw [r1, show off + ii - 1 = off + (ii - 1) by omega, add_sub_cancel_right, smul_smul, inv_mul_cancel₀ d2, one_smul]
      have hy : (1 - b)⁻¹ • (remQ (kf U) p r s c T (j + 1 - T) - b • q (j + 1 - T)) = q (j - T) := by
        rw [r2, show j + 1 - T - 1 = j - T by omega, add_sub_cancel_left, smul_smul, inv_mul_cancel₀ f3, one_smul]
      have hlen5 := h5.len
      rw [rd_kf (by omega), R_bind_ok, rd_kf (by omega), R_bind_ok, fdiv_ok d1, R_bind_ok, usub_ok (by omega), R_bind_ok,
        rd_kf (by omega), R_bind_ok, rd_kf (by omega), R_bind_ok, fdiv_ok f1, R_bind_ok,
        rd_eq_ok.mpr (hl (off + ii) (by omega) (by omega)), R_bind_ok, usub_ok h3, R_bind_ok, rd_eq_ok.mpr t1, R_bind_ok,
        vdiv_ok d2, R_bind_ok, wr_ok (by omega), R_bind_ok,
        rd_eq_ok.mpr (hr (j + 1) (by omega) (by omega)), R_bind_ok,
        rd_eq_ok.mpr (show (temp.set ii _)[jj + 1]? = _ by rw [List.getElem?_set_ne (by omega)]; exact t2), R_bind_ok,
        vdiv_ok f3, R_bind_ok, wr_ok (by simp; omega), R_bind_ok, usub_ok (by omega), R_bind_ok, hx, hy,
        show off + ii + 1 = off + (ii + 1) by omega]
      apply ih (ii + 1) (jj - 1) _ (by omega) (by omega) (by omega) (by omega)
      refine ⟨by simp [hlen5], ?_, ?_⟩
      · intro k hk
        rw [List.getElem?_set_ne (by omega), getElem?_set_of_lt (by omega)]
        split
        · rename_i e; rw [e]
        · exact h5.left k (by omega)
      · intro x hx1 hx2
        rw [getElem?_set_of_lt (by simp; omega)]
        split
        · congr 2; omega
        · rw [List.getElem?_set_ne (by omega)]
          exact h5.right x (by omega) hx2
    · rw [if_neg hc]
      obtain rfl : ii = steps + 1 := by omega
      refine ⟨temp, ?_, h5⟩
      rw [R_pure]
      congr 2 <;> omega

theorem remCommit_spec {temp : List V} {off last steps : ℕ} (hoff : off + p + T + 1 = r) (hlast : last + s = r + T) (hsr : s ≤ r)
    (hsp : s ≤ p) (hT : T < s) (hsteps : steps = (p - s + T + 1) / 2) (ht : temp.length = 2 * p + 1) {n : ℕ} (hn : last < n) :
    ∀ j ii A, j + ii = last + 1 → 1 ≤ ii → ii ≤ steps + 1 → A.length = n →
      ∃ A', remCommit temp T off j (off + ii) A = .ok A' ∧ A'.length = n ∧
        ∀ x, A'[x]? = if (off + ii ≤ x ∧ x ≤ off + steps) ∨ (last < x + steps ∧ x ≤ j) then temp[x - off]? else A[x]? := by
  intro j
  induction j with
  | zero =>
    intro ii A h1 h2 h3 h4
    refine ⟨A, rfl, h4, ?_⟩
    intro x
    rw [if_neg (by omega)]
  | succ j ih =>
    intro ii A h1 h2 h3 h4
    unfold remCommit
    by_cases hc : off + ii + T < j + 1
    · rw [if_pos hc, usub_ok (by omega), R_bind_ok, rd_ok (by omega), R_bind_ok, wr_ok (by omega), R_bind_ok, usub_ok (by omega),
        R_bind_ok, rd_ok (by omega), R_bind_ok, wr_ok (by simp; omega), R_bind_ok, show off + ii + 1 = off + (ii + 1) by omega]
      obtain ⟨A', e, hl, hx⟩ := ih (ii + 1) _ (by omega) (by omega) (by omega)
        (show ((A.set (off + ii) (temp[off + ii - off]'(by omega))).set (j + 1) (temp[j + 1 - off]'(by omega))).length = n by simp [h4])
      refine ⟨A', e, hl, ?_⟩
      intro x
      rw [hx x]
      by_cases c1 : (off + (ii + 1) ≤ x ∧ x ≤ off + steps) ∨ (last < x + steps ∧ x ≤ j)
      · rw [if_pos c1, if_pos (by omega)]
      · rw [if_neg c1, getElem?_set_of_lt (by simp; omega)]
        by_cases c2 : x = j + 1
        · rw [if_pos c2, if_pos (by omega), c2, List.getElem?_eq_getElem]
        · rw [if_neg c2, getElem?_set_of_lt (by omega)]
          by_cases c3 : x = off + ii
          · rw [if_pos c3, if_pos (by omega), c3, List.getElem?_eq_getElem]
          · rw [if_neg c3, if_neg (by omega)]
    · rw [if_neg hc]
      refine ⟨A, rfl, h4, ?_⟩
      intro x
      rw [if_neg (by omega)]

/-- The poles before the pass `T`. -/
structure RemInv (c : ℕ → V) (q : ℕ → ℕ → V) (n p r s T : ℕ) (A : List V) : Prop where
  len : A.length = n
  low : ∀ i, i + p + T < r → A[i]? = some (c i)
  left : ∀ i, r ≤ i + p + T → i + p + T ≤ r + (p - s + T) / 2 → A[i]? = some (q T i)
  right : ∀ j, r + T ≤ j + s + (p - s + T) / 2 → j + s ≤ r + T → A[j]? = some (q T (j - T))
  high : ∀ j, r + T < j + s → j < n → A[j]? = some (c j)

/-- The outcome of the computations of a pass. -/
theorem remPass_spec (h : RemOk (kf U) n p r s u) (hlen : U.length = n + p + 1) {c : ℕ → V} {N : ℕ} (hN : N ≤ s) (hT : T < N)
    (hAg : AgreeAt p (bl (kf U) (r - s) c) (bl (kf U) r c) u (s - N))
    {A temp : List V} (hI : RemInv c (remQ (kf U) p r s c) n p r s T A) (ht : temp.length = 2 * p + 1) {steps : ℕ}
    (hsteps : steps = (p - s + T + 1) / 2) :
    ∃ temp', remPass u U p r s T A temp = .ok (r - (p + T), r - (p + T) - 1, r - s + T,
        ⟨temp', r - (p + T) + steps, r - s + T - steps, steps + 1, r - s + T - steps - (r - (p + T) - 1)⟩) ∧
      RemTemp (remQ (kf U) p r s c (T + 1)) p (r - (p + T) - 1) (r - s + T) T (steps + 1) temp' := by
  have hps := h.ps; have hsp := h.sp; have hrn := h.rn
  have hAl := hI.len
  obtain ⟨off, hoff⟩ : ∃ off, off + p + T + 1 = r := ⟨r - (p + T) - 1, by omega⟩
  obtain ⟨last, hlast⟩ : ∃ last, last + s = r + T := ⟨r - s + T, by omega⟩
  rw [show r - (p + T) - 1 = off by omega, show r - s + T = last by omega, show r - (p + T) = off + 1 by omega]
  unfold remPass
  have x1 : A[off]? = some (remQ (kf U) p r s c (T + 1) (off + 0)) := by
    rw [remQ_low h c (by omega) (by omega)]
    exact hI.low off (by omega)
  have x2 : A[last + 1]? = some (remQ (kf U) p r s c (T + 1) (last + 1 - T - 1)) := by
    have := remQ_high h hAg (T := T + 1) hT hN
    rw [show last + 1 - T - 1 = r - s by omega, this, show r - s + (T + 1) = last + 1 by omega]
    exact hI.high _ (by omega) (by omega)
  obtain ⟨temp', e, hR⟩ := remCompute_spec h hlen c (by omega) hAl hoff hlast hsteps
    (fun i h1 h2 => hI.left i (by omega) (by omega)) (fun j h1 h2 => hI.right j (by omega) (by omega))
    last 1 (last - off)
    ((temp.set 0 (remQ (kf U) p r s c (T + 1) (off + 0))).set (last + 1 - off) (remQ (kf U) p r s c (T + 1) (last + 1 - T - 1)))
    rfl (by omega) le_rfl (by omega)
    ⟨by simp [ht], by
      intro k hk
      obtain rfl : k = 0 := by omega
      rw [List.getElem?_set_ne (by omega), getElem?_set_of_lt (by omega), if_pos rfl], by
      intro x h1 h2
      obtain rfl : x = last + 1 := by omega
      rw [getElem?_set_of_lt (by simp; omega), if_pos rfl]⟩
  refine ⟨temp', ?_, hR⟩
  rw [usub_ok (by omega), R_bind_ok, usub_ok (by omega), R_bind_ok, usub_ok (by omega), R_bind_ok]
  simp only
  rw [show r - (p + T) - 1 = off by omega, show r - s + T = last by omega, show r - (p + T) = off + 1 by omega]
  rw [rd_eq_ok.mpr x1, R_bind_ok, wr_ok (by omega), R_bind_ok, rd_eq_ok.mpr x2, R_bind_ok, usub_ok (by omega), R_bind_ok,
    wr_ok (by simp; omega), R_bind_ok, usub_ok (by omega), R_bind_ok, e, R_bind_ok, R_pure,
    show off + 1 + steps = off + steps + 1 by omega]

theorem remPass_inv (h : RemOk (kf U) n p r s u) {c : ℕ → V} {N : ℕ} (hN : N ≤ s) (hT : T < N)
    (hAg : AgreeAt p (bl (kf U) (r - s) c) (bl (kf U) r c) u (s - N))
    {A temp : List V} (hI : RemInv c (remQ (kf U) p r s c) n p r s T A) {steps : ℕ}
    (hsteps : steps = (p - s + T + 1) / 2)
    (hR : RemTemp (remQ (kf U) p r s c (T + 1)) p (r - (p + T) - 1) (r - s + T) T (steps + 1) temp) :
    ∃ A', remCommit temp T (r - (p + T) - 1) (r - s + T) (r - (p + T)) A = .ok A' ∧
      RemInv c (remQ (kf U) p r s c) n p r s (T + 1) A' := by
  have hps := h.ps; have hsp := h.sp; have hrn := h.rn
  have hAl := hI.len
  obtain ⟨off, hoff⟩ : ∃ off, off + p + T + 1 = r := ⟨r - (p + T) - 1, by omega⟩
  obtain ⟨last, hlast⟩ : ∃ last, last + s = r + T := ⟨r - s + T, by omega⟩
  rw [show r - (p + T) - 1 = off by omega, show r - s + T = last by omega] at hR ⊢
  rw [show r - (p + T) = off + 1 by omega]
  obtain ⟨A', e, hl, hx⟩ := remCommit_spec (n := n) hoff hlast (by omega) hsp (by omega) hsteps hR.len (by omega) last 1 A
    rfl le_rfl (by omega) hAl
  refine ⟨A', e, hl, ?_, ?_, ?_, ?_⟩
  · intro i hi
    rw [hx i, if_neg (by omega)]
    exact hI.low i (by omega)
  · intro i h1 h2
    rw [hx i]
    rcases Nat.lt_or_ge off i with h3 | h3
    · rw [if_pos (by omega), hR.left _ (by omega), show off + (i - off) = i by omega]
    · obtain rfl : i = off := by omega
      rw [if_neg (by omega), remQ_low h c (by omega) (by omega)]
      exact hI.low _ (by omega)
  · intro j h1 h2
    rw [hx j]
    rcases Nat.lt_or_ge last j with h3 | h3
    · obtain rfl : j = last + 1 := by omega
      rw [if_neg (by omega)]
      have := remQ_high h hAg (T := T + 1) hT hN
      rw [show last + 1 - (T + 1) = r - s by omega, this, show r - s + (T + 1) = last + 1 by omega]
      exact hI.high _ (by omega) (by omega)
    · rw [if_pos (by omega), hR.right _ (by omega) (by omega), show j - T - 1 = j - (T + 1) by omega]
  · intro j h1 h2
    rw [hx j, if_neg (by omega)]
    exact hI.high j (by omega) h2

theorem remInv_zero (h : RemOk (kf U) n p r s u) {P : List V} (hP : P.length = n) :
    RemInv (pf P) (remQ (kf U) p r s (pf P)) n p r s 0 P := by
  have hps := h.ps; have hsp := h.sp; have hrn := h.rn
  have key : ∀ i, r ≤ i + p + s → i + s ≤ r → remQ (kf U) p r s (pf P) 0 i = pf P i := by
    intro i h1 h2
    unfold remQ
    rw [show tRem (kf U) r 0 = kf U by funext j; unfold tRem; split <;> rfl]
    exact bl_dual h.mono h.tl p _ i (by omega) (by omega) (by omega)
  refine ⟨hP, fun i hi => pf_getElem? (by omega), ?_, ?_, fun i _ hi => pf_getElem? (by omega)⟩
  · intro i h1 h2
    rw [key i (by omega) (by omega)]
    exact pf_getElem? (by omega)
  · intro j h1 h2
    rw [Nat.sub_zero, key j (by omega) (by omega)]
    exact pf_getElem? (by omega)

theorem remFinish_gen (h : RemOk (kf U) n p r s u) (hlen : U.length = n + p + 1) (hT : 1 ≤ T) (hTs : T ≤ s)
    {A : List V} (hAl : A.length = n) :
    ∃ Q, remFinish p r s T U A = .ok (U.take (r + 1 - T) ++ U.drop (r + 1), Q) ∧ Q.length = n - T ∧
      ∀ i, i < n - T → Q[i]? = if i < (2 * r - (s + p)) / 2 - (T - 1) / 2 then A[i]? else A[i + T]? := by
  have hps := h.ps; have hsp := h.sp; have hrn := h.rn
  unfold remFinish
  -- the knots
  obtain ⟨U', eU, hUl, hU⟩ := forLt_inv (a := r + 1) (b := U.length) (s := U)
    (body := fun k U => do
      let d ← usub k T
      let x ← rd U k
      wr U d x)
    (fun k U' => U'.length = U.length ∧ ∀ x, U'[x]? = if r + 1 ≤ x + T ∧ x + T < k then U[x + T]? else U[x]?) (by omega)
    ⟨rfl, fun x => by rw [if_neg (by omega)]⟩
    (by
      intro k U' h1 h2 ⟨g1, g2⟩
      have e1 : U'[k]? = U[k]? := by rw [g2 k, if_neg (by omega)]
      have e2 : U[k]? = some (kf U k) := kf_getElem? h2
      refine ⟨U'.set (k - T) (kf U k), ?_, by simp [g1], ?_⟩
      · beta_reduce
        rw [usub_ok (by omega), R_bind_ok, rd_eq_ok.mpr (e1.trans e2), R_bind_ok, wr_ok (by omega)]
      · intro x
        rw [getElem?_set_of_lt (by omega)]
        by_cases hx : x = k - T
        · rw [if_pos hx, if_pos (by omega), hx, show k - T + T = k by omega, e2]
        · rw [if_neg hx, g2 x]
          congr 1
          apply propext
          omega)
  rw [eU, R_bind_ok, usub_ok (by omega), R_bind_ok]
  simp only
  -- the counters
  set fout := (2 * r - (s + p)) / 2 with hf
  obtain ⟨ji, e2, hj1, hj2⟩ := forLt_inv (a := 1) (b := T) (s := (fout, fout))
    (body := fun k (ji : ℕ × ℕ) => do
      if k % 2 = 1 then pure (ji.1, ji.2 + 1)
      else do
        let j ← usub ji.1 1
        pure (j, ji.2))
    (fun k ji => ji.1 = fout - (k - 1) / 2 ∧ ji.2 = fout + k / 2) hT ⟨rfl, rfl⟩
    (by
      intro k ji h1 h2 ⟨g1, g2⟩
      beta_reduce
      split
      · exact ⟨_, rfl, by simp only; omega, by simp only; omega⟩
      · rw [usub_ok (by omega), R_bind_ok]
        exact ⟨_, rfl, by simp only; omega, by simp only; omega⟩)
  rw [e2, R_bind_ok]
  -- the poles
  obtain ⟨jA, e3, hk1, hk2, hk3⟩ := forLt_inv (a := ji.2 + 1) (b := A.length) (s := (ji.1, A))
    (body := fun k (jA : ℕ × List V) => do
      let x ← rd jA.2 k
      let A ← wr jA.2 jA.1 x
      pure (jA.1 + 1, A))
    (fun k jA => jA.1 + T = k ∧ jA.2.length = n ∧ ∀ x, jA.2[x]? = if ji.1 ≤ x ∧ x + T < k then A[x + T]? else A[x]?) (by omega)
    ⟨by simp only; omega, hAl, fun x => by rw [if_neg (by omega)]⟩
    (by
      intro k jA h1 h2 ⟨g1, g2, g3⟩
      have e1 : jA.2[k]? = A[k]? := by rw [g3 k, if_neg (by omega)]
      have e2 : A[k]? = some (pf A k) := pf_getElem? h2
      refine ⟨(jA.1 + 1, jA.2.set jA.1 (pf A k)), ?_, by simp only; omega, by simp [g2], ?_⟩
      · beta_reduce
        rw [rd_eq_ok.mpr (e1.trans e2), R_bind_ok, wr_ok (by omega), R_bind_ok]
        rfl
      · intro x
        simp only
        rw [getElem?_set_of_lt (by omega)]
        by_cases hx : x = jA.1
        · rw [if_pos hx, if_pos (by omega), hx, g1, e2]
        · rw [if_neg hx, g3 x]
          congr 1
          apply propext
          omega)
  rw [e3, R_bind_ok, usub_ok (by omega), R_bind_ok, usub_ok (by omega), R_bind_ok, R_pure]
  refine ⟨jA.2.take (A.length - T), ?_, by simp; omega, ?_⟩
  · congr 2
    apply List.ext_getElem?
    intro x
    rw [List.getElem?_take, List.getElem?_append]
    simp only [List.length_take]
    rw [show min (r + 1 - T) U.length = r + 1 - T by omega]
    by_cases c1 : x < U.length - T
    · rw [if_pos c1, hU x]
      by_cases c2 : x < r + 1 - T
      · rw [if_pos c2, if_neg (by omega), List.getElem?_take, if_pos c2]
      · rw [if_neg c2, if_pos (by omega), List.getElem?_drop]
        congr 1
        omega
    · rw [if_neg c1, if_neg (by omega), List.getElem?_drop, List.getElem?_eq_none (by omega)]
  · intro i hi
    rw [List.getElem?_take, if_pos (by omega), hk3 i, ← hj1]
    by_cases c1 : i < ji.1
    · rw [if_neg (by omega), if_pos c1]
    · rw [if_pos (by omega), if_neg c1]

theorem remFinish_spec (h : RemOk (kf U) n p r s u) (hlen : U.length = n + p + 1) {c : ℕ → V} (hT : 1 ≤ T) (hTs : T ≤ s)
    {A : List V} (hI : RemInv c (remQ (kf U) p r s c) n p r s T A) :
    ∃ Q, remFinish p r s T U A = .ok (U.take (r + 1 - T) ++ U.drop (r + 1), Q) ∧ Q.length = n - T ∧
      ∀ i, i < n - T → pf Q i = remP (kf U) p r s c T i := by
  have hps := h.ps; have hsp := h.sp; have hrn := h.rn
  obtain ⟨Q, e, hl, hQ⟩ := remFinish_gen h hlen hT hTs hI.len
  refine ⟨Q, e, hl, ?_⟩
  intro i hi
  have key : Q[i]? = some (remP (kf U) p r s c T i) := by
    rw [hQ i hi]
    unfold remP
    split
    · by_cases c2 : i + p + T < r
      · rw [if_pos c2]; exact hI.low i c2
      · rw [if_neg c2, if_pos (by omega)]
        exact hI.left i (by omega) (by omega)
    · rw [if_neg (by omega)]
      by_cases c2 : i + s ≤ r
      · rw [if_pos c2]
        have := hI.right (i + T) (by omega) (by omega)
        rwa [show i + T - T = i by omega] at this
      · rw [if_neg c2]
        exact hI.high (i + T) (by omega) (by omega)
  unfold pf
  rw [List.getD_eq_getElem?_getD, key]
  rfl

end

/-- `u` is a knot inside the domain, of multiplicity at most `p`. -/
theorem remOk_of {U : List K} (hU : U.Pairwise (· ≤ ·)) {n p : ℕ} {u : K} (hlen : U.length = n + p + 1)
    (h1 : kf U p < u) (h2 : u < kf U n) (hs : 1 ≤ multOf U u) (hsp : multOf U u ≤ p) :
    RemOk (kf U) n p (upperBound U u - 1) (multOf U u) u ∧ 1 ≤ upperBound U u := by
  have hm := kf_mono hU
  have hlb := lowerBound_le_upperBound U u
  have hlb1 : p < lowerBound U u := by
    by_contra hc
    have a1 : lowerBound U u < U.length := by omega
    have := le_kf_lowerBound a1
    have := hm (show lowerBound U u ≤ p by omega)
    linarith
  have hn : upperBound U u ≤ n := by
    by_contra hc
    have := kf_le_of_lt_upperBound (U := U) (u := u) (j := n) (by omega)
    linarith
  have hmu : multOf U u = upperBound U u - lowerBound U u := rfl
  refine ⟨⟨hm, ?_, ?_, ?_, by omega, by omega, hsp, hs⟩, by omega⟩
  · intro j g1 g2
    apply le_antisymm
    · exact kf_le_of_lt_upperBound (by omega)
    · exact le_trans (le_kf_lowerBound (by omega)) (hm (show lowerBound U u ≤ j by omega))
  · apply kf_lt_of_lt_lowerBound
    omega
  · rw [show upperBound U u - 1 + 1 = upperBound U u by omega]
    exact lt_kf_upperBound (by omega)

/-- The knots after removal. -/
def remKnots (U : List K) (u : K) (T : ℕ) : List K := U.take (upperBound U u - T) ++ U.drop (upperBound U u)

theorem kf_remKnots {U : List K} {r T : ℕ} (hT : T ≤ r) (hr : r + 1 < U.length) :
    kf (U.take (r + 1 - T) ++ U.drop (r + 1)) = tRem (kf U) r T := by
  funext j
  have hl : (U.take (r + 1 - T) ++ U.drop (r + 1)).length = U.length - T := by simp; omega
  have main : ∀ j, j < U.length - T → kf (U.take (r + 1 - T) ++ U.drop (r + 1)) j = tRem (kf U) r T j := by
    intro j hj
    rw [kf_of_lt (by omega)]
    unfold tRem
    split
    · rw [List.getElem_append_left (by simp; omega), List.getElem_take, kf_of_lt (by omega)]
    · rw [List.getElem_append_right (by simp; omega), List.getElem_drop, kf_of_lt (by omega)]
      congr 1
      simp
      omega
  rcases Nat.lt_or_ge j (U.length - T) with hj | hj
  · exact main j hj
  · rw [kf_last (by intro hc; rw [hc] at hl; simp at hl; omega) (by omega), hl, main _ (by omega)]
    unfold tRem
    rw [if_neg (by omega), if_neg (by omega), kf_last (i := j + T) (by intro hc; rw [hc] at hr; simp at hr) (by omega)]
    congr 1
    omega

/-- `remove_knot` without tolerance: knots and poles of the result, when the knot is removable. -/
theorem removeKnot_spec {eps : K} (heps : 0 ≤ eps) {U : List K} (hU : U.Pairwise (· ≤ ·)) {P : List V} {p N : ℕ} {u : K}
    (hlen : U.length = P.length + p + 1) (h1 : kf U p < u) (h2 : u < kf U P.length) (hN : 1 ≤ N) (hNs : N ≤ multOf U u)
    (hsp : multOf U u ≤ p) {r s : ℕ} (hr : r = upperBound U u - 1) (hs : s = multOf U u)
    (hAg : AgreeAt p (bl (kf U) (r - s) (pf P)) (bl (kf U) r (pf P)) u (s - N)) :
    RemOk (kf U) P.length p r s u ∧
    ∃ Q, removeKnot eps u N U P p = .ok (remKnots U u N, Q) ∧ Q.length = P.length - N ∧
      (∀ i, i < P.length - N → pf Q i = remP (kf U) p r s (pf P) N i) := by
  obtain ⟨h, hub⟩ := remOk_of hU hlen h1 h2 (by omega) hsp
  rw [← hr, ← hs] at h
  refine ⟨h, ?_⟩
  have hps := h.ps; have hrn := h.rn; have hsp' := h.sp
  unfold removeKnot
  rw [usub_ok hub, R_bind_ok, ← hr, rd_kf (by omega), R_bind_ok, h.mult r (by omega) le_rfl, sub_self, abs_zero, if_neg
    (by rintro (hc | hc | hc); exacts [absurd hc (not_lt.mpr heps), by omega, by omega])]
  simp only
  rw [if_neg (by omega)]
  rw [show upperBound U u - lowerBound U u = s from hs.symm]
  obtain ⟨At, e, hI, ht⟩ := forLt_inv (a := 0) (b := N) (s := (P, List.replicate (2 * p + 1) (0 : V)))
    (body := fun t (At : List V × List V) => do
        let (first, off, last, st) ← remPass u U p r s t At.1 At.2
        let A ← remCommit st.temp t off last first At.1
        pure (A, st.temp))
    (fun T At => RemInv (pf P) (remQ (kf U) p r s (pf P)) P.length p r s T At.1 ∧ At.2.length = 2 * p + 1) (by omega)
    ⟨remInv_zero h rfl, by simp⟩
    (by
      intro T At _ hT ⟨hI, ht⟩
      obtain ⟨temp', e1, hR⟩ := remPass_spec h hlen (by omega) hT hAg hI ht rfl
      obtain ⟨A', e2, hI'⟩ := remPass_inv h (by omega) hT hAg hI rfl hR
      refine ⟨(A', temp'), ?_, hI', hR.len⟩
      beta_reduce
      rw [e1, R_bind_ok]
      simp only
      rw [e2, R_bind_ok]
      rfl)
  rw [e, R_bind_ok]
  obtain ⟨Q, e3, hQl, hQ⟩ := remFinish_spec h hlen hN (by omega) hI
  refine ⟨Q, ?_, hQl, hQ⟩
  rw [e3]
  unfold remKnots
  rw [show upperBound U u = r + 1 by omega]

/-- The loop with tolerance accepts all the removals of a removable knot. -/
theorem remTolLoop_spec {near : V → V → Bool} (hn : ∀ x, near x x = true) {U : List K} {n p r s N : ℕ} {u : K}
    (h : RemOk (kf U) n p r s u) (hlen : U.length = n + p + 1) {c : ℕ → V} (hNs : N ≤ s)
    (hAg : AgreeAt p (bl (kf U) (r - s) c) (bl (kf U) r c) u (s - N)) :
    ∀ f T A temp, T + f = N → temp.length = 2 * p + 1 → RemInv c (remQ (kf U) p r s c) n p r s T A →
      ∃ A', remTolLoop near u U p r s f T A temp = .ok (N, A') ∧ RemInv c (remQ (kf U) p r s c) n p r s N A' := by
  have hps := h.ps; have hrn := h.rn; have hsp := h.sp
  intro f
  induction f with
  | zero =>
    intro T A temp h1 _ hI
    obtain rfl : T = N := by omega
    exact ⟨A, rfl, hI⟩
  | succ f ih =>
    intro T A temp h1 ht hI
    obtain ⟨steps, hst⟩ : ∃ x, x = (p - s + T + 1) / 2 := ⟨_, rfl⟩
    obtain ⟨temp', e1, hR⟩ := remPass_spec h hlen hNs (by omega) hAg hI ht hst
    obtain ⟨A', e2, hI'⟩ := remPass_inv h hNs (by omega) hAg hI hst hR
    obtain ⟨A'', e3, hI''⟩ := ih (T + 1) A' temp' (by omega) hR.len hI'
    refine ⟨A'', ?_, hI''⟩
    unfold remTolLoop
    rw [e1, R_bind_ok]
    simp only
    have t1 := hR.left steps (by omega)
    split
    · have t2 := hR.right (r - s + T - steps + 1) (by omega) (by omega)
      rw [show r - s + T - steps + 1 - (r - (p + T) - 1) = r - s + T - steps - (r - (p + T) - 1) + 1 by omega] at t2
      rw [usub_ok (by omega), R_bind_ok, Nat.add_sub_cancel, rd_eq_ok.mpr t1, R_bind_ok, rd_eq_ok.mpr t2, R_bind_ok,
        show r - s + T - steps + 1 - T - 1 = r - (p + T) - 1 + steps by omega, hn, R_pure, R_bind_ok, if_pos rfl, e2, R_bind_ok, e3]
    · have t2 := hR.right (r - s + T - steps + 1) (by omega) (by omega)
      rw [show r - s + T - steps + 1 - (r - (p + T) - 1) = steps + 1 + T + 1 by omega] at t2
      obtain ⟨d1, -, -⟩ := remQ_alpha h (T := T) (m := r - (p + T) + steps) (by omega) (by omega)
      have r1 := remQ_rel h c (T := T) (m := r - (p + T) + steps) (by omega) (by omega) (by omega)
      rw [rd_kf (by omega), R_bind_ok, rd_kf (by omega), R_bind_ok, fdiv_ok d1, R_bind_ok,
        rd_eq_ok.mpr (hI.left (r - (p + T) + steps) (by omega) (by omega)), R_bind_ok, rd_eq_ok.mpr t2, R_bind_ok, usub_ok (by omega),
        R_bind_ok, Nat.add_sub_cancel, rd_eq_ok.mpr t1, R_bind_ok, r1,
        show r - s + T - steps + 1 - T - 1 = r - (p + T) + steps by omega,
        show r - (p + T) - 1 + steps = r - (p + T) + steps - 1 by omega, hn, R_pure, R_bind_ok, if_pos rfl, e2, R_bind_ok, e3]

theorem removeKnotTol_spec {eps : K} (heps : 0 ≤ eps) {near : V → V → Bool} (hn : ∀ x, near x x = true) {U : List K}
    (hU : U.Pairwise (· ≤ ·)) {P : List V} {p N : ℕ} {u : K}
    (hlen : U.length = P.length + p + 1) (h1 : kf U p < u) (h2 : u < kf U P.length) (hN : 1 ≤ N) (hNs : N ≤ multOf U u)
    (hsp : multOf U u ≤ p) {r s : ℕ} (hr : r = upperBound U u - 1) (hs : s = multOf U u)
    (hAg : AgreeAt p (bl (kf U) (r - s) (pf P)) (bl (kf U) r (pf P)) u (s - N)) :
    RemOk (kf U) P.length p r s u ∧
    ∃ Q, removeKnotTol eps near u p N U P = .ok (N, remKnots U u N, Q) ∧ Q.length = P.length - N ∧
      (∀ i, i < P.length - N → pf Q i = remP (kf U) p r s (pf P) N i) := by
  obtain ⟨h, hub⟩ := remOk_of hU hlen h1 h2 (by omega) hsp
  rw [← hr, ← hs] at h
  refine ⟨h, ?_⟩
  have hps := h.ps; have hrn := h.rn; have hsp' := h.sp
  unfold removeKnotTol
  rw [usub_ok hub, R_bind_ok, ← hr, rd_kf (by omega), R_bind_ok, h.mult r (by omega) le_rfl, sub_self, abs_zero, if_neg
    (by rintro (hc | hc | hc); exacts [absurd hc (not_lt.mpr heps), by omega, by omega])]
  simp only
  rw [if_neg (by omega), show upperBound U u - lowerBound U u = s from hs.symm]
  obtain ⟨A, e, hI⟩ := remTolLoop_spec hn h hlen (by omega) hAg N 0 P (List.replicate (2 * p + 1) 0) (by omega) (by simp)
    (remInv_zero h rfl)
  rw [e, R_bind_ok]
  simp only
  rw [if_neg (by omega)]
  obtain ⟨Q, e3, hQl, hQ⟩ := remFinish_spec h hlen hN (by omega) hI
  refine ⟨Q, ?_, hQl, hQ⟩
  rw [e3, R_bind_ok]
  unfold remKnots
  rw [show upperBound U u = r + 1 by omega]
  rfl

end Gbs
