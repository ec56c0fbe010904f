import Verif.Model.Basis
import Verif.Lemmas.Knots
import Verif.Lemmas.Deriv

namespace Gbs

set_option linter.unusedSectionVars false

variable {K : Type} [Field K] [LinearOrder K] [IsStrictOrderedRing K]

theorem tget_ok {rows cols : ℕ} {T : ℕ → ℕ → K} {r c : ℕ} (h1 : r < rows) (h2 : c < cols) :
    tget rows cols T r c = .ok (T r c) := by simp [tget, h1, h2]

theorem tset_ok {rows cols : ℕ} {T : ℕ → ℕ → K} {r c : ℕ} {v : K} (h1 : r < rows) (h2 : c < cols) :
    tset rows cols T r c v = .ok (fun r' c' => if r' = r ∧ c' = c then v else T r' c') := by
  simp [tset, h1, h2]

/-- The triangular table after column `j` is complete. -/
structure NduTable (t : ℕ → K) (i : ℕ) (u : K) (j : ℕ) (T : ℕ → ℕ → K) : Prop where
  up : ∀ c r, c ≤ j → r ≤ c → T r c = B t i c (i - c + r) u
  lo : ∀ c r, c ≤ j → r < c → T c r = t (i + (r + 1)) - t (i + 1 - (c - r))

structure NduInv (U : List K) (i p : ℕ) (u : K) (j : ℕ) (s : NduState K) : Prop where
  lenL : p < s.left.length
  lenR : p < s.right.length
  tab : NduTable (kf U) i u j s.ndu
  left : ∀ r, 1 ≤ r → r ≤ j → s.left[r]? = some (u - kf U (i + 1 - r))
  right : ∀ r, 1 ≤ r → r ≤ j → s.right[r]? = some (kf U (i + r) - u)

theorem nduOuter_spec {U : List K} (hU : U.Pairwise (· ≤ ·)) {i p : ℕ} (hpi : p ≤ i)
    (hlen : i + p < U.length) (hk : kf U i < kf U (i+1)) (u : K)
    {j : ℕ} (hj1 : 1 ≤ j) (hjp : j ≤ p) {s : NduState K} (h : NduInv U i p u (j-1) s) :
    ∃ s', nduOuter i p u U j s = .ok s' ∧ NduInv U i p u j s' := by
  have hm := kf_mono hU
  obtain ⟨j, rfl⟩ : ∃ j', j = j' + 1 := ⟨j - 1, by omega⟩
  simp only [Nat.add_sub_cancel] at h
  simp only [nduOuter]
  rw [usub_ok (by omega), R_bind_ok, rd_kf (by omega), R_bind_ok,
    wr_ok (by have := h.lenL; omega), R_bind_ok, rd_kf (by omega), R_bind_ok,
    wr_ok (by have := h.lenR; omega), R_bind_ok]
  set L := s.left.set (j+1) (u - kf U (i + 1 - (j+1))) with hL
  set Rt := s.right.set (j+1) (kf U (i + (j+1)) - u) with hR
  have hLlen : L.length = s.left.length := by simp [hL]
  have hRlen : Rt.length = s.right.length := by simp [hR]
  have left : ∀ r, 1 ≤ r → r ≤ j + 1 → L[r]? = some (u - kf U (i + 1 - r)) := by
    intro r h1 h2
    rw [hL, getElem?_set_of_lt (by have := h.lenL; omega)]
    split
    · subst_vars; rfl
    · exact h.left r h1 (by omega)
  have right : ∀ r, 1 ≤ r → r ≤ j + 1 → Rt[r]? = some (kf U (i + r) - u) := by
    intro r h1 h2
    rw [hR, getElem?_set_of_lt (by have := h.lenR; omega)]
    split
    · subst_vars; rfl
    · exact h.right r h1 (by omega)
  set sv : ℕ → K := fun r => (u - kf U (i - (j+1) + r)) /
      (kf U (i - (j+1) + r + j + 1) - kf U (i - (j+1) + r)) * B (kf U) i j (i - (j+1) + r) u with hsv
  obtain ⟨s', e, hI⟩ := forLt_inv (a := 0) (b := j+1) (body := nduInner p (j+1))
    (s := { ndu := s.ndu, left := L, right := Rt, saved := 0 })
    (fun r st => st.left = L ∧ st.right = Rt ∧ st.saved = sv r ∧
      NduTable (kf U) i u j st.ndu ∧
      (∀ x, x < r → st.ndu x (j+1) = B (kf U) i (j+1) (i - (j+1) + x) u) ∧
      (∀ x, x < r → st.ndu (j+1) x = kf U (i + (x + 1)) - kf U (i + 1 - (j + 1 - x))))
    (by omega)
    (by
      refine ⟨rfl, rfl, ?_, h.tab, fun x hx => by omega, fun x hx => by omega⟩
      simp only [hsv]
      rw [B_eq_zero _ _ _ _ _ (by omega), mul_zero])
    (by
      rintro r st - hr ⟨e1, e2, e4, et, e5, e6⟩
      simp only [nduInner]
      have hrt : st.right[r+1]? = some (kf U (i + (r+1)) - u) := by
        rw [e2]; exact right _ (by omega) (by omega)
      have hlf : st.left[j+1-r]? = some (u - kf U (i + 1 - (j+1-r))) := by
        rw [e1]; exact left _ (by omega) (by omega)
      rw [rd_eq_ok.mpr hrt, R_bind_ok, usub_ok (by omega), R_bind_ok,
        rd_eq_ok.mpr hlf, R_bind_ok, tset_ok (by omega) (by omega), R_bind_ok,
        usub_ok (by omega), R_bind_ok, Nat.add_sub_cancel, tget_ok (by omega) (by omega), R_bind_ok,
        tget_ok (by omega) (by omega), R_bind_ok]
      rw [if_neg (by omega), if_pos ⟨rfl, rfl⟩, et.up j r le_rfl (by omega)]
      have hden : kf U (i + 1 - (j+1-r)) < kf U (i + (r+1)) :=
        lt_of_le_of_lt (hm (show i + 1 - (j+1-r) ≤ i by omega))
          (lt_of_lt_of_le hk (hm (by omega)))
      have hsum : kf U (i + (r+1)) - u + (u - kf U (i + 1 - (j+1-r)))
          = kf U (i + (r+1)) - kf U (i + 1 - (j+1-r)) := by ring
      have hne : kf U (i + (r+1)) - u + (u - kf U (i + 1 - (j+1-r))) ≠ 0 := by
        rw [hsum]; exact (sub_pos.mpr hden).ne'
      rw [fdiv_ok hne, R_bind_ok, tset_ok (by omega) (by omega), R_bind_ok]
      have i1 : i + 1 - (j+1-r) = i - (j+1) + (r+1) := by omega
      have i2 : i + (r+1) = i - (j+1) + (r+1) + j + 1 := by omega
      have i3 : i - j + r = i - (j+1) + (r+1) := by omega
      have hden' : kf U (i + (r+1)) - u + (u - kf U (i + 1 - (j+1-r)))
          = kf U (i - (j+1) + (r+1) + j + 1) - kf U (i - (j+1) + (r+1)) := by
        rw [i1, i2]; ring
      refine ⟨_, rfl, e1, e2, ?_, ⟨?_, ?_⟩, ?_, ?_⟩
      · simp only [hsv]
        rw [hden', i1, i3]
        field_simp
      · intro c r' hc hr'
        dsimp only
        rw [if_neg (by omega), if_neg (by omega)]
        exact et.up c r' hc hr'
      · intro c r' hc hr'
        dsimp only
        rw [if_neg (by omega), if_neg (by omega)]
        exact et.lo c r' hc hr'
      · intro x hxr
        dsimp only
        by_cases hx : x = r
        · subst hx
          rw [if_pos ⟨rfl, rfl⟩]
          simp only [e4, hsv, B]
          rw [hden', i2, i3]
          rw [show i - (j+1) + x + 1 = i - (j+1) + (x+1) by omega,
            show i - (j+1) + x + j + 2 = i - (j+1) + (x+1) + j + 1 by omega]
          congr 1
          field_simp
        · rw [if_neg (by omega), if_neg (by omega)]
          exact e5 x (by omega)
      · intro x hxr
        dsimp only
        rw [if_neg (by omega)]
        by_cases hx : x = r
        · subst hx
          rw [if_pos ⟨rfl, rfl⟩, hsum]
        · rw [if_neg (by omega)]
          exact e6 x (by omega))
  obtain ⟨e1, e2, e4, et, e5, e6⟩ := hI
  rw [e, R_bind_ok, tset_ok (by omega) (by omega), R_bind_ok]
  refine ⟨_, rfl, ⟨?_, ?_, ⟨?_, ?_⟩, ?_, ?_⟩⟩
  · simp only [e1, hLlen]; exact h.lenL
  · simp only [e2, hRlen]; exact h.lenR
  · intro c r hc hr
    dsimp only
    by_cases hcj : c = j + 1
    · subst hcj
      by_cases hr' : r = j + 1
      · subst hr'
        rw [if_pos ⟨rfl, rfl⟩, e4]
        simp only [hsv, B]
        rw [B_eq_zero (kf U) i j (i - (j+1) + (j+1) + 1) u (by omega)]
        simp
      · rw [if_neg (by omega)]
        exact e5 r (by omega)
    · rw [if_neg (by omega)]
      exact et.up c r (by omega) hr
  · intro c r hc hr
    dsimp only
    rw [if_neg (by omega)]
    by_cases hcj : c = j + 1
    · subst hcj; exact e6 r hr
    · exact et.lo c r (by omega) hr
  · intro r h1 h2; simp only [e1]; exact left r h1 h2
  · intro r h1 h2; simp only [e2]; exact right r h1 h2

/-- Valid column of the coefficient table at order `kk` for the basis function `r`. -/
def Valid (p r kk j : ℕ) : Prop := kk ≤ r + j ∧ j ≤ kk ∧ j + r ≤ p

/-- Partial sum of eq. (2.9), columns `< j`. -/
def dsum (t : ℕ → K) (i p r : ℕ) (u : K) (kk j : ℕ) : K :=
  ∑ x ∈ Finset.range j, acoef t (i - p + r) p kk x * B t i (p - kk) (i - p + r + x) u

theorem dsum_succ_invalid (t : ℕ → K) {i p r kk j : ℕ} (u : K) (hpi : p ≤ i) (hkp : kk ≤ p)
    (h : ¬ Valid p r kk j) (hj : j ≤ kk) :
    dsum t i p r u kk (j+1) = dsum t i p r u kk j := by
  unfold dsum
  rw [Finset.sum_range_succ, B_eq_zero, mul_zero, add_zero]
  unfold Valid at h
  omega

theorem dsum_below (t : ℕ → K) {i p r kk : ℕ} (u : K) (hpi : p ≤ i) (hkp : kk ≤ p) :
    ∀ j, j + r ≤ kk → j ≤ kk → dsum t i p r u kk j = 0 := by
  intro j
  induction j with
  | zero => intro _ _; simp [dsum]
  | succ j ih =>
    intro h1 h2
    rw [dsum_succ_invalid t u hpi hkp (by unfold Valid; omega) (by omega)]
    exact ih (by omega) (by omega)

theorem dsum_above (t : ℕ → K) {i p r kk j0 : ℕ} (u : K) (hpi : p ≤ i) (hkp : kk ≤ p)
    (h0 : p < j0 + r) : ∀ j, j0 ≤ j → j ≤ kk + 1 →
    dsum t i p r u kk j = dsum t i p r u kk j0 := by
  intro j
  induction j with
  | zero => intro h _; rw [show j0 = 0 by omega]
  | succ j ih =>
    intro h1 h2
    by_cases hj : j + 1 = j0
    · rw [hj]
    · rw [dsum_succ_invalid t u hpi hkp (by unfold Valid; omega) (by omega)]
      exact ih (by omega) (by omega)

structure DerInv (t : ℕ → K) (p r m kk : ℕ) (s : DerState K) : Prop where
  rows : (s.s1 = 0 ∧ s.s2 = 1) ∨ (s.s1 = 1 ∧ s.s2 = 0)
  coef : ∀ j, Valid p r kk j → s.a s.s1 j = acoef t m p kk j

theorem dersKk_spec {t : ℕ → K} (ht : Monotone t) {i p r kk : ℕ} (hpi : p ≤ i) (hr : r ≤ p)
    (hk : t i < t (i+1)) (u : K) {ndu : ℕ → ℕ → K} (hndu : NduTable t i u p ndu)
    (hkk : kk + 1 ≤ p) {s : DerState K} (h : DerInv t p r (i - p + r) kk s)
    (hL : (kk+1) * (p+1) + r < s.ders.length) :
    ∃ s', dersKk p r ndu (kk+1) s = .ok s' ∧ DerInv t p r (i - p + r) (kk+1) s' ∧
      s'.ders = s.ders.set ((kk+1) * (p+1) + r) (dsum t i p r u (kk+1) (kk+1+1)) := by
  set m := i - p + r with hm
  have hs1 : s.s1 < 2 := by rcases h.rows with h | h <;> omega
  have hs2 : s.s2 < 2 := by rcases h.rows with h | h <;> omega
  have hs12 : s.s1 ≠ s.s2 := by rcases h.rows with h | h <;> omega
  -- the divisor of column `j`
  have hden : ∀ j, Valid p r (kk+1) j → ndu (p + 1 - (kk+1)) (r + j - (kk+1)) = t (m + p - kk + j) - t (m + j)
      ∧ t (m + p - kk + j) - t (m + j) ≠ 0 := by
    intro j hj
    unfold Valid at hj
    constructor
    · rw [hndu.lo (p + 1 - (kk+1)) (r + j - (kk+1)) (by omega) (by omega)]
      congr 2 <;> omega
    · apply (sub_pos.mpr _).ne'
      exact lt_of_le_of_lt (ht (show m + j ≤ i by omega)) (lt_of_lt_of_le hk (ht (by omega)))
  have hup : ∀ j, Valid p r (kk+1) j → ndu (r + j - (kk+1)) (p - (kk+1)) = B t i (p - (kk+1)) (m + j) u := by
    intro j hj
    unfold Valid at hj
    rw [hndu.up (p - (kk+1)) (r + j - (kk+1)) (by omega) (by omega)]
    congr 1; omega
  simp only [dersKk]
  -- first column
  have hF : ∃ f, dersFirst p r (kk+1) s.s1 s.s2 ndu s.a = .ok f ∧
      (∀ j, f.1 s.s1 j = s.a s.s1 j) ∧
      (Valid p r (kk+1) 0 → f.1 s.s2 0 = acoef t m p (kk+1) 0) ∧
      f.2 = dsum t i p r u (kk+1) 1 := by
    unfold dersFirst
    by_cases hkr : kk + 1 ≤ r
    · have hv : Valid p r (kk+1) 0 := by unfold Valid; omega
      obtain ⟨d1, d2⟩ := hden 0 hv
      have d3 := hup 0 hv
      simp only [Nat.add_zero] at d1 d2 d3
      rw [if_pos hkr, tget_ok hs1 (by omega), R_bind_ok, usub_ok (by omega), R_bind_ok,
        tget_ok (by omega) (by omega), R_bind_ok, d1, fdiv_ok d2, R_bind_ok,
        tset_ok hs2 (by omega), R_bind_ok, tget_ok hs2 (by omega), R_bind_ok, usub_ok (by omega),
        R_bind_ok, tget_ok (by omega) (by omega), R_bind_ok, d3]
      refine ⟨_, rfl, ?_, ?_, ?_⟩
      · intro j; dsimp only; rw [if_neg (by omega)]
      · intro _
        dsimp only
        rw [if_pos ⟨rfl, rfl⟩, h.coef 0 (by unfold Valid; omega)]
        simp [acoef]
      · dsimp only
        rw [if_pos ⟨rfl, rfl⟩, h.coef 0 (by unfold Valid; omega)]
        simp [dsum, acoef, ← hm]
    · rw [if_neg hkr]
      refine ⟨_, rfl, fun _ => rfl, fun hv => ?_, ?_⟩
      · unfold Valid at hv; omega
      · rw [dsum_succ_invalid t u hpi hkk (by unfold Valid; omega) (by omega)]
        simp [dsum]
  obtain ⟨f, ef, f1, f2, f3⟩ := hF
  rw [ef, R_bind_ok]
  -- middle columns
  set j1 := if kk + 1 ≤ r + 1 then 1 else kk + 1 - r with hj1
  set j2 := if r + (kk+1) ≤ p + 1 then kk + 1 - 1 else p - r with hj2
  have hj1' : 1 ≤ j1 ∧ kk + 1 ≤ r + j1 ∧ (j1 = 1 ∨ j1 + r = kk + 1) := by
    rw [hj1]; split <;> omega
  have hj2' : j2 ≤ kk ∧ j2 + r ≤ p ∧ (j2 = kk ∨ (j2 + r = p)) := by
    rw [hj2]; split <;> omega
  have hj12 : j1 ≤ j2 + 1 := by
    rw [hj1, hj2]; split <;> split <;> omega
  obtain ⟨g, eg, g1, g2, g3⟩ := forLe_inv (a := j1) (b := j2)
    (body := dersInner p r (kk+1) s.s1 s.s2 ndu) (s := f)
    (fun j st => (∀ x, st.1 s.s1 x = s.a s.s1 x) ∧
      (∀ x, x < j → Valid p r (kk+1) x → st.1 s.s2 x = acoef t m p (kk+1) x) ∧
      st.2 = dsum t i p r u (kk+1) j) hj12
    (by
      refine ⟨f1, ?_, ?_⟩
      · intro x hx hv
        unfold Valid at hv
        have : x = 0 := by omega
        subst this
        exact f2 (by unfold Valid; omega)
      · rw [f3]
        rcases hj1'.2.2 with h' | h'
        · rw [h']
        · rw [dsum_below t u hpi hkk j1 (by omega) (by omega),
            dsum_below t u hpi hkk 1 (by omega) (by omega)])
    (by
      rintro j st ha hb ⟨g1, g2, g3⟩
      have hv : Valid p r (kk+1) j := by unfold Valid; omega
      obtain ⟨d1, d2⟩ := hden j hv
      have d3 := hup j hv
      simp only [dersInner]
      rw [tget_ok hs1 (by omega), R_bind_ok, usub_ok (by omega), R_bind_ok,
        tget_ok hs1 (by omega), R_bind_ok, usub_ok (by omega), R_bind_ok,
        usub_ok (by omega), R_bind_ok, tget_ok (by omega) (by omega), R_bind_ok, d1,
        fdiv_ok d2, R_bind_ok, tset_ok hs2 (by omega), R_bind_ok,
        tget_ok hs2 (by omega), R_bind_ok, usub_ok (by omega), R_bind_ok,
        tget_ok (by omega) (by omega), R_bind_ok, d3]
      rw [g1 j, g1 (j-1), h.coef j (by unfold Valid; omega), h.coef (j-1) (by unfold Valid; omega)]
      have hac : (acoef t m p kk j - acoef t m p kk (j-1)) / (t (m + p - kk + j) - t (m+j)) =
          acoef t m p (kk+1) j := by
        simp only [acoef]; rw [if_neg (by omega)]
      refine ⟨_, rfl, ?_, ?_, ?_⟩
      · intro x; dsimp only; rw [if_neg (by omega), g1 x]
      · intro x hx hvx
        dsimp only
        by_cases hxj : x = j
        · subst hxj; rw [if_pos ⟨rfl, rfl⟩, hac]
        · rw [if_neg (by omega)]; exact g2 x (by omega) hvx
      · dsimp only
        rw [if_pos ⟨rfl, rfl⟩, hac, g3]
        simp only [dsum]
        rw [Finset.sum_range_succ])
  rw [eg, R_bind_ok]
  -- last column
  have hLst : ∃ l, dersLast p r (kk+1) s.s1 s.s2 ndu g = .ok l ∧
      (∀ j, l.1 s.s1 j = s.a s.s1 j) ∧
      (∀ j, Valid p r (kk+1) j → l.1 s.s2 j = acoef t m p (kk+1) j) ∧
      l.2 = dsum t i p r u (kk+1) (kk+1+1) := by
    unfold dersLast
    by_cases hrp : r + (kk+1) ≤ p
    · have hv : Valid p r (kk+1) (kk+1) := by unfold Valid; omega
      obtain ⟨d1, d2⟩ := hden (kk+1) hv
      have d3 := hup (kk+1) hv
      rw [Nat.add_sub_cancel] at d1 d3
      have hj2k : j2 = kk := by omega
      rw [if_pos hrp, usub_ok (by omega), R_bind_ok, tget_ok hs1 (by omega), R_bind_ok,
        tget_ok (by omega) (by omega), R_bind_ok, d1, fdiv_ok d2, R_bind_ok,
        tset_ok hs2 (by omega), R_bind_ok, tget_ok hs2 (by omega), R_bind_ok,
        tget_ok (by omega) (by omega), R_bind_ok, d3]
      rw [Nat.add_sub_cancel, g1 kk, h.coef kk (by unfold Valid; omega)]
      have hac : -acoef t m p kk kk / (t (m + p - kk + (kk+1)) - t (m+(kk+1))) =
          acoef t m p (kk+1) (kk+1) := by
        simp only [acoef]
        rw [if_neg (by omega), acoef_zero t m p kk (kk+1) (by omega), Nat.add_sub_cancel, zero_sub]
      refine ⟨_, rfl, ?_, ?_, ?_⟩
      · intro x; dsimp only; rw [if_neg (by omega), g1 x]
      · intro x hvx
        dsimp only
        by_cases hxj : x = kk + 1
        · subst hxj; rw [if_pos ⟨rfl, rfl⟩, hac]
        · rw [if_neg (by omega)]; exact g2 x (by unfold Valid at hvx; omega) hvx
      · dsimp only
        rw [if_pos ⟨rfl, rfl⟩, hac, g3, hj2k]
        simp only [dsum]
        rw [Finset.sum_range_succ _ (kk+1)]
    · rw [if_neg hrp]
      have hj2r : j2 + r = p ∨ j2 + 1 + r > p := by omega
      refine ⟨g, rfl, g1, ?_, ?_⟩
      · intro x hvx
        exact g2 x (by unfold Valid at hvx; omega) hvx
      · rw [g3]
        exact (dsum_above t u hpi hkk (by omega) _ (by omega) (by omega)).symm
  obtain ⟨l, el, l1, l2, l3⟩ := hLst
  rw [el, R_bind_ok, wr_ok hL, R_bind_ok]
  refine ⟨_, rfl, ⟨?_, ?_⟩, ?_⟩
  · rcases h.rows with h | h
    · right; exact ⟨h.2, h.1⟩
    · left; exact ⟨h.2, h.1⟩
  · exact l2
  · dsimp only; rw [l3]

theorem index_lt {p n kk r : ℕ} (h1 : kk ≤ n) (h2 : r ≤ p) : kk * (p+1) + r < (n+1)*(p+1) := by
  have : kk * (p+1) ≤ n * (p+1) := Nat.mul_le_mul_right _ h1
  have e : (n+1)*(p+1) = n*(p+1) + p + 1 := by ring
  omega

theorem index_inj {p a b c d : ℕ} (hb : b ≤ p) (hd : d ≤ p)
    (h : a * (p+1) + b = c * (p+1) + d) : a = c ∧ b = d := by
  have h1 : (a * (p+1) + b) / (p+1) = a := by
    rw [mul_comm, Nat.mul_add_div (by omega), Nat.div_eq_of_lt (by omega)]; omega
  have h2 : (c * (p+1) + d) / (p+1) = c := by
    rw [mul_comm, Nat.mul_add_div (by omega), Nat.div_eq_of_lt (by omega)]; omega
  have : a = c := by rw [← h1, ← h2, h]
  subst this
  exact ⟨rfl, by omega⟩

/-- All orders of one basis function. -/
theorem dersR_spec {t : ℕ → K} (ht : Monotone t) {i p r n : ℕ} (hpi : p ≤ i) (hr : r ≤ p)
    (hk : t i < t (i+1)) (u : K) {ndu : ℕ → ℕ → K} (hndu : NduTable t i u p ndu)
    (hn : n ≤ p) {s : (ℕ → ℕ → K) × List K} (hL : (n+1) * (p+1) ≤ s.2.length) :
    ∃ s', dersR p n ndu r s = .ok s' ∧ s'.2.length = s.2.length ∧
      (∀ kk, 1 ≤ kk → kk ≤ n → s'.2[kk * (p+1) + r]? = some (dsum t i p r u kk (kk+1))) ∧
      (∀ kk r', r' ≤ p → (kk = 0 ∨ r' ≠ r) → s'.2[kk * (p+1) + r']? = s.2[kk * (p+1) + r']?) := by
  simp only [dersR]
  rw [tset_ok (by omega) (by omega), R_bind_ok]
  obtain ⟨st, e, hI, h1, h2, h3⟩ := forLe_inv (a := 1) (b := n) (body := dersKk p r ndu)
    (s := { a := fun r' c' => if r' = 0 ∧ c' = 0 then 1 else s.1 r' c', s1 := 0, s2 := 1, ders := s.2 })
    (fun kk st => DerInv t p r (i - p + r) (kk-1) st ∧ st.ders.length = s.2.length ∧
      (∀ kk', 1 ≤ kk' → kk' < kk → st.ders[kk' * (p+1) + r]? = some (dsum t i p r u kk' (kk'+1))) ∧
      (∀ kk r', r' ≤ p → (kk = 0 ∨ r' ≠ r) → st.ders[kk * (p+1) + r']? = s.2[kk * (p+1) + r']?))
    (by omega)
    (by
      refine ⟨⟨Or.inl ⟨rfl, rfl⟩, ?_⟩, rfl, fun kk' _ _ => by omega, fun _ _ _ _ => rfl⟩
      intro j hv
      have : j = 0 := by unfold Valid at hv; omega
      subst this
      simp [acoef])
    (by
      rintro kk st hk1 hk2 ⟨hI, h1, h2, h3⟩
      obtain ⟨kk, rfl⟩ : ∃ q, kk = q + 1 := ⟨kk - 1, by omega⟩
      rw [Nat.add_sub_cancel] at hI
      have hidx : (kk+1) * (p+1) + r < st.ders.length := by
        have := index_lt (p := p) hk2 hr; omega
      obtain ⟨s', e, hI', hd⟩ := dersKk_spec ht hpi hr hk u hndu (by omega) hI hidx
      refine ⟨s', e, by simpa using hI', by simp [hd, h1], ?_, ?_⟩
      · intro kk' ha hb
        rw [hd, getElem?_set_of_lt hidx]
        by_cases hkk : kk' = kk + 1
        · subst hkk; rw [if_pos rfl]
        · rw [if_neg]
          · exact h2 kk' ha (by omega)
          · intro h; exact hkk (index_inj hr hr h).1
      · intro kk' r' hr' hor
        rw [hd, getElem?_set_of_lt hidx, if_neg]
        · exact h3 kk' r' hr' hor
        · intro h
          obtain ⟨a, b⟩ := index_inj hr' hr h
          omega)
  rw [e, R_bind_ok]
  exact ⟨_, rfl, h1, fun kk a b => h2 kk a (by omega), h3⟩

/-- Multiplication by the falling factorials. -/
theorem dersScale_spec {p n : ℕ} (hn : n ≤ p) (D : List K) (hL : (n+1) * (p+1) ≤ D.length)
    (f : ℕ → ℕ → K) (hf : ∀ kk r, kk ≤ n → r ≤ p → D[kk * (p+1) + r]? = some (f kk r)) :
    ∃ s', forLe 1 n (dersScale p) (D, (p : K)) = .ok s' ∧ s'.1.length = D.length ∧
      ∀ kk r, kk ≤ n → r ≤ p →
        s'.1[kk * (p+1) + r]? = some (f kk r * ((p.descFactorial kk : ℕ) : K)) := by
  obtain ⟨s', e, h1, h2, h3, h4⟩ := forLe_inv (a := 1) (b := n) (body := dersScale p)
    (s := (D, (p : K)))
    (fun kk st => st.1.length = D.length ∧ (kk ≤ n → st.2 = ((p.descFactorial kk : ℕ) : K)) ∧
      (∀ kk' r, kk' < kk → kk' ≤ n → r ≤ p →
        st.1[kk' * (p+1) + r]? = some (f kk' r * ((p.descFactorial kk' : ℕ) : K))) ∧
      (∀ kk' r, kk ≤ kk' → kk' ≤ n → r ≤ p → st.1[kk' * (p+1) + r]? = some (f kk' r)))
    (by omega)
    (by
      refine ⟨rfl, by simp, ?_, ?_⟩
      · intro kk' r h0 h1 h2
        have : kk' = 0 := by omega
        subst this
        rw [hf 0 r (by omega) h2]; simp
      · intro kk' r _ h1 h2; exact hf kk' r h1 h2)
    (by
      rintro kk st ha hb ⟨h1, h2, h3, h4⟩
      simp only [dersScale]
      obtain ⟨D', e, g1, g2, g3⟩ := forLe_inv (a := 0) (b := p) (body := dersScaleRow p kk st.2)
        (s := st.1)
        (fun j E => E.length = D.length ∧
          (∀ r, r < j → E[kk * (p+1) + r]? = some (f kk r * ((p.descFactorial kk : ℕ) : K))) ∧
          (∀ kk' r, kk' ≤ n → r ≤ p → (kk' ≠ kk ∨ j ≤ r) → E[kk' * (p+1) + r]? = st.1[kk' * (p+1) + r]?))
        (by omega)
        (by refine ⟨h1, fun r hr => by omega, fun _ _ _ _ _ => rfl⟩)
        (by
          rintro j E - hj ⟨g1, g2, g3⟩
          have hidx : kk * (p+1) + j < E.length := by
            have := index_lt (p := p) hb hj; omega
          simp only [dersScaleRow]
          have hx : E[kk * (p+1) + j]? = some (f kk j) := by
            rw [g3 kk j hb hj (Or.inr le_rfl)]; exact h4 kk j le_rfl hb hj
          rw [rd_eq_ok.mpr hx, R_bind_ok, wr_ok hidx]
          refine ⟨_, rfl, by simp [g1], ?_, ?_⟩
          · intro r hr
            rw [getElem?_set_of_lt hidx]
            by_cases hrj : r = j
            · subst hrj; rw [if_pos rfl, h2 hb]
            · rw [if_neg (by omega)]; exact g2 r (by omega)
          · intro kk' r hk' hr' hor
            rw [getElem?_set_of_lt hidx, if_neg]
            · exact g3 kk' r hk' hr' (by omega)
            · intro h
              obtain ⟨a, b⟩ := index_inj hr' hj h
              omega)
      rw [e, R_bind_ok, usub_ok (by omega), R_bind_ok]
      refine ⟨_, rfl, g1, ?_, ?_, ?_⟩
      · intro hk'
        dsimp only
        rw [h2 hb, Nat.descFactorial_succ]
        push_cast
        ring
      · intro kk' r hlt hle hr
        dsimp only
        by_cases hkk : kk' = kk
        · subst hkk; exact g2 r (by omega)
        · rw [g3 kk' r hle hr (Or.inl hkk)]
          exact h3 kk' r (by omega) hle hr
      · intro kk' r hlt hle hr
        dsimp only
        rw [g3 kk' r hle hr (Or.inl (by omega))]
        exact h4 kk' r (by omega) hle hr)
  exact ⟨s', e, h1, fun kk r hk hr => h3 kk r (by omega) hk hr⟩

open Polynomial in
/-- A2.3 computes the derivatives of the span polynomials. -/
theorem dersBasisFuns_spec {U : List K} (hU : U.Pairwise (· ≤ ·)) {i p n : ℕ} (hpi : p ≤ i)
    (hlen : i + p < U.length) (hk : kf U i < kf U (i+1)) (hn : n ≤ p) (u : K)
    (ndu0 a0 : ℕ → ℕ → K) (wl wrk ders0 : List K)
    (h1 : p < wl.length) (h2 : p < wrk.length) (h3 : (n+1)*(p+1) ≤ ders0.length) :
    ∃ D, dersBasisFuns i p n u U ndu0 a0 wl wrk ders0 = .ok D ∧ D.length = ders0.length ∧
      ∀ kk r, kk ≤ n → r ≤ p → D[kk * (p+1) + r]? =
        some ((derivative^[kk] (Bp (kf U) i p (i - p + r))).eval u) := by
  have hm := kf_mono hU
  simp only [dersBasisFuns]
  rw [tset_ok (by omega) (by omega), R_bind_ok]
  obtain ⟨s, es, hI⟩ := forLe_inv (a := 1) (b := p) (body := nduOuter i p u U)
    (s := { ndu := fun r' c' => if r' = 0 ∧ c' = 0 then 1 else ndu0 r' c', left := wl, right := wrk, saved := 0 })
    (fun j st => NduInv U i p u (j-1) st) (by omega)
    (by
      refine ⟨h1, h2, ⟨?_, ?_⟩, ?_, ?_⟩
      · intro c r hc hr
        have h0 : c = 0 := by omega
        have h0' : r = 0 := by omega
        subst h0; subst h0'
        simp [B]
      · intro c r hc hr; omega
      · intro r a b; omega
      · intro r a b; omega)
    (by
      intro j st a b hI
      obtain ⟨s', e, hI'⟩ := nduOuter_spec hU hpi hlen hk u a b hI
      exact ⟨s', e, by simpa using hI'⟩)
  rw [Nat.add_sub_cancel] at hI
  rw [es, R_bind_ok]
  have hL0 : p < ders0.length := by
    have := index_lt (p := p) (n := n) (kk := 0) (r := p) (by omega) le_rfl
    omega
  obtain ⟨D1, e1, d1, d2⟩ := forLe_inv (a := 0) (b := p) (body := fun j ders => (do
      let x ← tget (p+1) (p+1) s.ndu j p
      wr ders j x : R (List K))) (s := ders0)
    (fun j E => E.length = ders0.length ∧ ∀ r, r < j → E[r]? = some (B (kf U) i p (i - p + r) u))
    (by omega) ⟨rfl, fun r hr => by omega⟩
    (by
      rintro j E - hj ⟨g1, g2⟩
      rw [tget_ok (by omega) (by omega), R_bind_ok, wr_ok (by omega)]
      refine ⟨_, rfl, by simp [g1], ?_⟩
      intro r hr
      rw [getElem?_set_of_lt (by omega)]
      by_cases hrj : r = j
      · subst hrj; rw [if_pos rfl, hI.tab.up p r le_rfl hj]
      · rw [if_neg hrj]; exact g2 r (by omega))
  rw [e1, R_bind_ok]
  obtain ⟨A, e2, a1, a2, a3⟩ := forLe_inv (a := 0) (b := p) (body := dersR p n s.ndu) (s := (a0, D1))
    (fun r st => st.2.length = ders0.length ∧
      (∀ r', r' ≤ p → st.2[r']? = some (B (kf U) i p (i - p + r') u)) ∧
      (∀ kk r', 1 ≤ kk → kk ≤ n → r' < r → st.2[kk * (p+1) + r']? = some (dsum (kf U) i p r' u kk (kk+1))))
    (by omega)
    ⟨d1, fun r' hr => d2 r' (by omega), fun kk r' _ _ h => by omega⟩
    (by
      rintro r st - hr ⟨g1, g2, g3⟩
      obtain ⟨s', e, f1, f2, f3⟩ := dersR_spec hm hpi hr hk u hI.tab hn (s := st) (by omega)
      refine ⟨s', e, by omega, ?_, ?_⟩
      · intro r' hr'
        have := f3 0 r' hr' (Or.inl rfl)
        simp only [zero_mul, zero_add] at this
        rw [this]; exact g2 r' hr'
      · intro kk r' ha hb hc
        by_cases hrr : r' = r
        · subst hrr; exact f2 kk ha hb
        · rw [f3 kk r' (by omega) (Or.inr hrr)]
          exact g3 kk r' ha hb (by omega))
  rw [e2, R_bind_ok]
  obtain ⟨S, e3, b1, b2⟩ := dersScale_spec hn A.2 (by omega)
    (fun kk r => dsum (kf U) i p r u kk (kk+1))
    (by
      intro kk r hkk hr
      by_cases h0 : kk = 0
      · subst h0
        simp only [zero_mul, zero_add]
        rw [a2 r hr]
        simp [dsum, acoef]
      · exact a3 kk r (by omega) hkk (by omega))
  rw [e3, R_bind_ok]
  refine ⟨_, rfl, by omega, ?_⟩
  intro kk r hkk hr
  rw [b2 kk r hkk hr, Bp_iterate_derivative hm i (i-p+r) p kk (by omega)]
  simp only [eval_mul, eval_C, eval_finsetSum, Bp_eval, dsum]
  rw [mul_comm]

end Gbs
