import Verif.Model.Basis
import Verif.Lemmas.Knots

namespace Gbs

set_option linter.unusedSectionVars false

variable {K : Type} [Field K] [LinearOrder K] [IsStrictOrderedRing K]

/-- Row `j` of A2.2 is written in `N`; `left` and `right` hold the first `j` differences. -/
structure BfInv (U : List K) (i p : ℕ) (u : K) (j : ℕ) (s : BfState K) : Prop where
  lenN : p < s.N.length
  lenL : p < s.left.length
  lenR : p < s.right.length
  row : ∀ r, r ≤ j → s.N[r]? = some (B (kf U) i j (i - j + r) u)
  left : ∀ r, 1 ≤ r → r ≤ j → s.left[r]? = some (u - kf U (i + 1 - r))
  right : ∀ r, 1 ≤ r → r ≤ j → s.right[r]? = some (kf U (i + r) - u)

theorem bfOuter_spec {U : List K} (hU : U.Pairwise (· ≤ ·)) {i p : ℕ} (hpi : p ≤ i)
    (hlen : i + p < U.length) (hk : kf U i < kf U (i+1)) (u : K)
    {j : ℕ} (hj1 : 1 ≤ j) (hjp : j ≤ p) {s : BfState K} {N0 : ℕ} (h : BfInv U i p u (j-1) s)
    (hN0 : s.N.length = N0) :
    ∃ s', bfOuter i u U j s = .ok s' ∧ BfInv U i p u j s' ∧ s'.N.length = N0 := by
  have hm := kf_mono hU
  obtain ⟨j, rfl⟩ : ∃ j', j = j' + 1 := ⟨j - 1, by omega⟩
  simp only [Nat.add_sub_cancel] at h
  simp only [bfOuter]
  rw [usub_ok (by omega), R_bind_ok, rd_kf (by omega), R_bind_ok,
    wr_ok (by have := h.lenL; omega), R_bind_ok, rd_kf (by omega), R_bind_ok,
    wr_ok (by have := h.lenR; omega), R_bind_ok]
  set L := s.left.set (j+1) (u - kf U (i + 1 - (j+1))) with hL
  set Rt := s.right.set (j+1) (kf U (i + (j+1)) - u) with hR
  have hLlen : L.length = s.left.length := by simp [hL]
  have hRlen : Rt.length = s.right.length := by simp [hR]
  have left : ∀ r, 1 ≤ r → r ≤ j + 1 → L[r]? = some (u - kf U (i + 1 - r)) := by
    intro r h1 h2
    rw [hL, getElem?_set_of_lt (by have := h.lenL; omega)]
    split
    · subst_vars; rfl
    · exact h.left r h1 (by omega)
  have right : ∀ r, 1 ≤ r → r ≤ j + 1 → Rt[r]? = some (kf U (i + r) - u) := by
    intro r h1 h2
    rw [hR, getElem?_set_of_lt (by have := h.lenR; omega)]
    split
    · subst_vars; rfl
    · exact h.right r h1 (by omega)
  -- first term of the Cox–de Boor recursion for the index `i-(j+1)+r`
  set sv : ℕ → K := fun r => (u - kf U (i - (j+1) + r)) /
      (kf U (i - (j+1) + r + j + 1) - kf U (i - (j+1) + r)) * B (kf U) i j (i - (j+1) + r) u with hsv
  obtain ⟨s', e, hI⟩ := forLt_inv (a := 0) (b := j+1) (body := bfInner (j+1))
    (s := { N := s.N, left := L, right := Rt, saved := 0 })
    (fun r st => st.left = L ∧ st.right = Rt ∧ st.N.length = s.N.length ∧ st.saved = sv r ∧
      (∀ x, x < r → st.N[x]? = some (B (kf U) i (j+1) (i - (j+1) + x) u)) ∧
      (∀ x, r ≤ x → x ≤ j → st.N[x]? = some (B (kf U) i j (i - j + x) u)))
    (by omega)
    (by
      refine ⟨rfl, rfl, rfl, ?_, fun x hx => by omega, fun x _ hx => h.row x hx⟩
      simp only [hsv]
      rw [B_eq_zero _ _ _ _ _ (by omega), mul_zero])
    (by
      rintro r st - hr ⟨e1, e2, e3, e4, e5, e6⟩
      have hx := e6 r le_rfl (by omega)
      simp only [bfInner]
      have hrt : st.right[r+1]? = some (kf U (i + (r+1)) - u) := by
        rw [e2]; exact right _ (by omega) (by omega)
      have hlf : st.left[j+1-r]? = some (u - kf U (i + 1 - (j+1-r))) := by
        rw [e1]; exact left _ (by omega) (by omega)
      rw [rd_eq_ok.mpr hx, R_bind_ok, rd_eq_ok.mpr hrt, R_bind_ok, usub_ok (by omega), R_bind_ok,
        rd_eq_ok.mpr hlf, R_bind_ok]
      have hden : kf U (i + 1 - (j+1-r)) < kf U (i + (r+1)) :=
        lt_of_le_of_lt (hm (show i + 1 - (j+1-r) ≤ i by omega))
          (lt_of_lt_of_le hk (hm (by omega)))
      have hne : kf U (i + (r+1)) - u + (u - kf U (i + 1 - (j+1-r))) ≠ 0 := by
        have := sub_pos.mpr hden
        have e : kf U (i + (r+1)) - u + (u - kf U (i + 1 - (j+1-r)))
          = kf U (i + (r+1)) - kf U (i + 1 - (j+1-r)) := by ring
        rw [e]; exact this.ne'
      rw [fdiv_ok hne, R_bind_ok]
      have hrl : r < st.N.length := by rw [e3]; have := h.lenN; omega
      rw [wr_ok hrl, R_bind_ok]
      have i1 : i + 1 - (j+1-r) = i - (j+1) + (r+1) := by omega
      have i2 : i + (r+1) = i - (j+1) + (r+1) + j + 1 := by omega
      have i3 : i - j + r = i - (j+1) + (r+1) := by omega
      have hden' : kf U (i + (r+1)) - u + (u - kf U (i + 1 - (j+1-r)))
          = kf U (i - (j+1) + (r+1) + j + 1) - kf U (i - (j+1) + (r+1)) := by
        rw [i1, i2]; ring
      refine ⟨_, rfl, e1, e2, by simp [e3], ?_, ?_, ?_⟩
      · simp only [hsv]
        rw [hden', i1, i3]
        field_simp
      · intro x hxr
        rw [getElem?_set_of_lt hrl]
        split
        · subst_vars
          simp only [e4, hsv, B]
          rw [hden', i2, i3]
          rw [show i - (j+1) + x + 1 = i - (j+1) + (x+1) by omega,
            show i - (j+1) + x + j + 2 = i - (j+1) + (x+1) + j + 1 by omega]
          congr 1
          field_simp
        · exact e5 x (by omega)
      · intro x h1 h2
        rw [getElem?_set_of_lt hrl, if_neg (by omega)]
        exact e6 x (by omega) h2)
  obtain ⟨e1, e2, e3, e4, e5, -⟩ := hI
  rw [e, R_bind_ok]
  have hjl : j + 1 < s'.N.length := by rw [e3]; have := h.lenN; omega
  rw [wr_ok hjl, R_bind_ok]
  refine ⟨_, rfl, ⟨?_, ?_, ?_, ?_, ?_, ?_⟩, ?_⟩
  · simp only [List.length_set, e3]; exact h.lenN
  · simp only [e1, hLlen]; exact h.lenL
  · simp only [e2, hRlen]; exact h.lenR
  · intro r hr
    rw [getElem?_set_of_lt hjl]
    split
    · subst_vars
      rw [e4]
      simp only [hsv, B]
      rw [B_eq_zero (kf U) i j (i - (j+1) + (j+1) + 1) u (by omega)]
      simp
    · exact e5 r (by omega)
  · intro r h1 h2; simp only [e1]; exact left r h1 h2
  · intro r h1 h2; simp only [e2]; exact right r h1 h2
  · simp only [List.length_set, e3, hN0]

/-- A2.2 computes the `p+1` basis functions of the span `i`, whatever the initial
content of the buffers. -/
theorem basisFuncs_spec {U : List K} (hU : U.Pairwise (· ≤ ·)) {i p : ℕ} (hpi : p ≤ i)
    (hlen : i + p < U.length) (hk : kf U i < kf U (i+1)) (u : K) (wl wrk N0 : List K)
    (h1 : p < wl.length) (h2 : p < wrk.length) (h3 : p < N0.length) :
    ∃ N, basisFuncs i p u U wl wrk N0 = .ok N ∧ N.length = N0.length ∧
      ∀ r, r ≤ p → N[r]? = some (B (kf U) i p (i - p + r) u) := by
  simp only [basisFuncs]
  rw [wr_ok (by omega), R_bind_ok]
  obtain ⟨s', e, hI, hl⟩ := forLe_inv (a := 1) (b := p) (body := bfOuter i u U)
    (s := { N := N0.set 0 1, left := wl, right := wrk, saved := 0 })
    (fun j st => BfInv U i p u (j-1) st ∧ st.N.length = N0.length) (by omega)
    (by
      refine ⟨⟨by simpa using h3, h1, h2, ?_, ?_, ?_⟩, by simp⟩
      · intro r hr
        have : r = 0 := by omega
        subst this
        rw [getElem?_set_of_lt (by omega)]
        simp [B]
      · intro r h1 h2; omega
      · intro r h1 h2; omega)
    (by
      rintro j st hj1 hjp ⟨hI, hl⟩
      obtain ⟨s', e, hI', hl'⟩ := bfOuter_spec hU hpi hlen hk u hj1 hjp hI hl
      exact ⟨s', e, by simpa using hI', hl'⟩)
  rw [e, R_bind_ok]
  exact ⟨s'.N, rfl, hl, fun r hr => by simpa using hI.row r (by simpa using hr)⟩

end Gbs
