import Verif.Model.KnotInsertion

/-! # Copy loops -/

namespace Gbs

/-- `for (i = a; i <= b; i++) D[i + off] = S[i]`. -/
theorem copyLe_spec {α : Type} {S D : List α} {a b off : ℕ} (hab : a ≤ b + 1)
    (hS : a ≤ b → b < S.length) (hD : a ≤ b → b + off < D.length) :
    ∃ D', forLe a b (copyBody S off) D = .ok D' ∧ D'.length = D.length ∧
      ∀ j, D'[j]? = if a + off ≤ j ∧ j ≤ b + off then S[j - off]? else D[j]? := by
  obtain ⟨D', e, hl, h⟩ := forLe_inv (a := a) (b := b) (body := copyBody S off) (s := D)
    (fun i D' => D'.length = D.length ∧
      ∀ j, D'[j]? = if a + off ≤ j ∧ j < i + off then S[j - off]? else D[j]?) hab
    ⟨rfl, fun j => by rw [if_neg (by omega)]⟩
    (by
      intro i s h1 h2 ⟨g1, g2⟩
      have hS := hS (by omega)
      have hD := hD (by omega)
      refine ⟨s.set (i + off) (S[i]'(by omega)), ?_, by simp [g1], ?_⟩
      · unfold copyBody
        rw [rd_ok (by omega), R_bind_ok, wr_ok (by omega)]
      · intro j
        rw [List.getElem?_set]
        by_cases hj : i + off = j
        · subst hj
          rw [if_pos rfl, if_pos (by omega), if_pos (by omega)]
          simp
        · rw [if_neg hj, g2 j]
          congr 1
          apply propext
          omega)
  refine ⟨D', e, hl, ?_⟩
  intro j
  rw [h j]
  congr 1
  apply propext
  omega

/-- A loop that writes `f i` in cell `g i`… for the constant offset case. -/
theorem fillLe_spec {α : Type} {D : List α} {a b off : ℕ} (hab : a ≤ b + 1)
    (body : ℕ → List α → R (List α)) (f : ℕ → α)
    (hb : ∀ i s, a ≤ i → i ≤ b → s.length = D.length → body i s = .ok (s.set (i + off) (f i)))
    (hD : a ≤ b → b + off < D.length) :
    ∃ D', forLe a b body D = .ok D' ∧ D'.length = D.length ∧
      ∀ j, D'[j]? = if a + off ≤ j ∧ j ≤ b + off then some (f (j - off)) else D[j]? := by
  obtain ⟨D', e, hl, h⟩ := forLe_inv (a := a) (b := b) (body := body) (s := D)
    (fun i D' => D'.length = D.length ∧
      ∀ j, D'[j]? = if a + off ≤ j ∧ j < i + off then some (f (j - off)) else D[j]?) hab
    ⟨rfl, fun j => by rw [if_neg (by omega)]⟩
    (by
      intro i s h1 h2 ⟨g1, g2⟩
      have hD := hD (by omega)
      refine ⟨_, hb i s h1 h2 g1, by simp [g1], ?_⟩
      intro j
      rw [List.getElem?_set]
      by_cases hj : i + off = j
      · subst hj
        rw [if_pos rfl, if_pos (by omega), if_pos (by omega)]
        simp
      · rw [if_neg hj, g2 j]
        congr 1
        apply propext
        omega)
  refine ⟨D', e, hl, ?_⟩
  intro j
  rw [h j]
  congr 1
  apply propext
  omega

theorem fillLt_spec {α : Type} {D : List α} {a b : ℕ}
    (body : ℕ → List α → R (List α)) (f : ℕ → α)
    (hb : ∀ i s, a ≤ i → i < b → s.length = D.length → body i s = .ok (s.set i (f i)))
    (hD : b ≤ D.length) :
    ∃ D', forLt a b body D = .ok D' ∧ D'.length = D.length ∧
      ∀ j, D'[j]? = if a ≤ j ∧ j < b then some (f j) else D[j]? := by
  rcases Nat.lt_or_ge a b with hab | hab
  · obtain ⟨D', e, hl, h⟩ := forLt_inv (a := a) (b := b) (body := body) (s := D)
      (fun i D' => D'.length = D.length ∧
        ∀ j, D'[j]? = if a ≤ j ∧ j < i then some (f j) else D[j]?) (by omega)
      ⟨rfl, fun j => by rw [if_neg (by omega)]⟩
      (by
        intro i s h1 h2 ⟨g1, g2⟩
        refine ⟨_, hb i s h1 h2 g1, by simp [g1], ?_⟩
        intro j
        rw [List.getElem?_set]
        by_cases hj : i = j
        · subst hj
          rw [if_pos rfl, if_pos (by omega), if_pos (by omega)]
        · rw [if_neg hj, g2 j]
          congr 1
          apply propext
          omega)
    exact ⟨D', e, hl, h⟩
  · refine ⟨D, ?_, rfl, ?_⟩
    · unfold forLt
      rw [show b - a = 0 by omega]; rfl
    · intro j; rw [if_neg (by omega)]

end Gbs
