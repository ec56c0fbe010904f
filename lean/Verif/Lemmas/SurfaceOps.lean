import Verif.Lemmas.Surface
import Verif.Lemmas.LinearOps
import Verif.Lemmas.InsertCurve
import Mathlib.Algebra.Module.Pi
import Mathlib.Algebra.BigOperators.Pi

/-! # Operations on surfaces, row by row and column by column -/

namespace Gbs

set_option linter.unusedSectionVars false

variable {K : Type} [Field K] [LinearOrder K] [IsStrictOrderedRing K]
variable {V : Type} [AddCommGroup V] [Module K V]

/-- Nested loops writing each entry of a table once. -/
theorem nested_fill' {α : Type} {body : ℕ → ℕ → List α → R (List α)} {A B : ℕ} {idx : ℕ → ℕ → ℕ}
    (inj : ∀ x y x' y', x < A → y < B → x' < A → y' < B → idx x y = idx x' y' → x = x' ∧ y = y')
    {g : ℕ → ℕ → α} {S0 : List α}
    (hlen : ∀ x y, x < A → y < B → idx x y < S0.length)
    (hbody : ∀ x y (S : List α), x < A → y < B → S.length = S0.length →
      body x y S = .ok (S.set (idx x y) (g x y))) :
    ∃ S, forLt 0 A (fun x S => forLt 0 B (fun y S => body x y S) S) S0 = .ok S ∧ S.length = S0.length ∧
      (∀ x y, x < A → y < B → S[idx x y]? = some (g x y)) := by
  obtain ⟨S, e, h1, h2⟩ := forLt_inv (a := 0) (b := A) (s := S0)
    (body := fun x S => forLt 0 B (fun y S => body x y S) S)
    (fun x S => S.length = S0.length ∧ (∀ x' y, x' < x → x' < A → y < B → S[idx x' y]? = some (g x' y)))
    (by omega) ⟨rfl, by intro x' y h; omega⟩
    (by
      intro x S _ hx ⟨g1, g2⟩
      obtain ⟨S', e, k1, k2, k3⟩ := forLt_inv (a := 0) (b := B) (s := S) (body := fun y S => body x y S)
        (fun y S' => S'.length = S0.length ∧ (∀ x' y, x' < x → x' < A → y < B → S'[idx x' y]? = some (g x' y)) ∧
          (∀ y', y' < y → y' < B → S'[idx x y']? = some (g x y'))) (by omega)
        ⟨g1, g2, by intro y' h; omega⟩
        (by
          intro y S' _ hy ⟨k1, k2, k3⟩
          refine ⟨S'.set (idx x y) (g x y), hbody x y S' hx hy k1, by simp [k1], ?_, ?_⟩
          · intro x' y' h1 h2 h3
            rw [getElem?_set_of_lt (by rw [k1]; exact hlen x y hx hy), if_neg (by
              intro h; have := (inj x' y' x y h2 h3 hx hy h).1; omega)]
            exact k2 x' y' h1 h2 h3
          · intro y' h1 h2
            rw [getElem?_set_of_lt (by rw [k1]; exact hlen x y hx hy)]
            by_cases hyy : y' = y
            · subst hyy; rw [if_pos rfl]
            · rw [if_neg (by intro h; exact hyy (inj x y' x y hx h2 hx hy h).2)]
              exact k3 y' (by omega) h2)
      refine ⟨S', e, k1, ?_⟩
      intro x' y h1 h2 h3
      rcases Nat.lt_or_ge x' x with h4 | h4
      · exact k2 x' y h4 h2 h3
      · obtain rfl : x' = x := by omega
        exact k3 y h3 h3)
  exact ⟨S, e, h1, fun x y hx hy => h2 x y hx hx hy⟩

theorem idx_inj {n : ℕ} {i j i' j' : ℕ} (hi : i < n) (hi' : i' < n) (h : i + n * j = i' + n * j') : i = i' ∧ j = j' := by
  have a1 : (i + n * j) % n = i := by rw [Nat.add_mul_mod_self_left, Nat.mod_eq_of_lt hi]
  have a2 : (i' + n * j') % n = i' := by rw [Nat.add_mul_mod_self_left, Nat.mod_eq_of_lt hi']
  have h1 : i = i' := by rw [← a1, ← a2, h]
  subst h1
  exact ⟨rfl, Nat.eq_of_mul_eq_mul_left (by omega) (by omega : n * j = n * j')⟩

theorem pf_of_getElem? {P : List V} {i : ℕ} {x : V} (h : P[i]? = some x) : pf P i = x := by
  unfold pf; rw [List.getD_eq_getElem?_getD, h]; rfl

theorem pf_ext {P Q : List V} (hl : P.length = Q.length) (h : ∀ i, i < P.length → pf P i = pf Q i) : P = Q := by
  apply List.ext_getElem? 
  intro i
  rcases Nat.lt_or_ge i P.length with h1 | h1
  · rw [pf_getElem? h1, pf_getElem? (by omega), h i h1]
  · rw [List.getElem?_eq_none h1, List.getElem?_eq_none (by omega)]

/-- Every index of a table of `n * m` cells is `i + n * j`. -/
theorem idx_cases {n m k : ℕ} (h : k < n * m) : ∃ i j, i < n ∧ j < m ∧ k = i + n * j := by
  have hn : 0 < n := Nat.pos_of_ne_zero (by rintro rfl; simp at h)
  refine ⟨k % n, k / n, Nat.mod_lt _ hn, ?_, by rw [Nat.mod_add_div]⟩
  exact (Nat.div_lt_iff_lt_mul hn).mpr (by rwa [Nat.mul_comm m n])

theorem invertedUVPoles_spec {P : List V} {n m : ℕ} (hn : 0 < n) (hP : P.length = m * n) :
    ∃ Q, invertedUVPoles P n = .ok Q ∧ Q.length = n * m ∧ ∀ i j, i < n → j < m → pf Q (i + n * j) = pf P (j + m * i) := by
  unfold invertedUVPoles
  rw [if_neg (by omega)]
  simp only
  rw [show P.length / n = m by rw [hP, Nat.mul_div_cancel _ hn]]
  obtain ⟨S, e, h1, h2⟩ := nested_fill' (A := n) (B := m) (idx := fun i j => i + n * j) (S0 := List.replicate P.length (0 : V))
    (body := fun i j Q => do
      let x ← rd P (j + m * i)
      wr Q (i + n * j) x) (g := fun i j => pf P (j + m * i))
    (fun x y x' y' a b c d h => idx_inj a c h)
    (fun x y hx hy => by rw [List.length_replicate, hP, Nat.mul_comm m n]; exact idx_lt hx hy)
    (fun x y S hx hy hS => by
      rw [rd_pf (by rw [hP]; exact idx_lt hy hx), R_bind_ok, wr_ok]
      rw [hS, List.length_replicate, hP, Nat.mul_comm m n]; exact idx_lt hx hy)
  refine ⟨S, e, by rw [h1, List.length_replicate, hP, Nat.mul_comm], fun i j hi hj => pf_of_getElem? (h2 i j hi hj)⟩

/-- The poles of a flat table as a sequence of columns. -/
def cols (n m : ℕ) (P : ℕ → ℕ → V) : List (ℕ → V) := (List.range n).map (fun i j => if j < m then P i j else 0)

theorem cols_length (n m : ℕ) (P : ℕ → ℕ → V) : (cols n m P).length = n := by simp [cols]

theorem pf_cols {n m : ℕ} {P : ℕ → ℕ → V} {i j : ℕ} (hi : i < n) (hj : j < m) : pf (cols n m P) i j = P i j := by
  have : (cols n m P)[i]? = some (fun j => if j < m then P i j else 0) := by
    simp [cols, hi]
  rw [pf_of_getElem? this]
  exact if_pos hj

theorem pf_lmap {W : Type} [AddCommGroup W] [Module K W] (f : V →ₗ[K] W) (P : List V) (i : ℕ) : pf (P.map f) i = f (pf P i) := by
  unfold pf
  rw [List.getD_eq_getElem?_getD, List.getD_eq_getElem?_getD, List.getElem?_map]
  cases P[i]? <;> simp

/-- Evaluation of a sequence at an index. -/
def projAt (K : Type) [Field K] {V : Type} [AddCommGroup V] [Module K V] (j : ℕ) : (ℕ → V) →ₗ[K] V := LinearMap.proj j

@[simp] theorem projAt_apply (j : ℕ) (x : ℕ → V) : projAt K j x = x j := rfl

theorem row_eq_map {n m : ℕ} {P : List V} (hP : P.length = n * m) {j : ℕ} (hj : j < m) :
    (P.drop (j * n)).take n = (cols n m (fun i j => pf P (i + n * j))).map (projAt K j) := by
  have hjn : (j + 1) * n ≤ n * m := by
    rw [Nat.mul_comm]; exact Nat.mul_le_mul_left _ hj
  have hjn' : (j + 1) * n = j * n + n := by ring
  have hl : ((P.drop (j * n)).take n).length = n := by
    rw [List.length_take, List.length_drop, hP]; omega
  apply pf_ext
  · rw [hl]; simp [cols_length]
  · intro i hi
    rw [hl] at hi
    rw [pf_lmap, projAt_apply, pf_cols hi hj]
    unfold pf
    rw [List.getD_eq_getElem?_getD, List.getD_eq_getElem?_getD, List.getElem?_take, if_pos hi, List.getElem?_drop,
      Nat.add_comm, Nat.mul_comm]

/-- Concatenation of rows of the same length. -/
theorem rows_loop {β : Type} {f : ℕ → R (β × List V)} {b b0 : β} {Q : List (ℕ → V)} {m : ℕ}
    (hf : ∀ j, j < m → f j = .ok (b, Q.map (projAt K j))) (hm : 0 < m) :
    ∃ S, forLt 0 m (fun j (st : β × List V) => do
        let t ← f j
        pure (t.1, st.2 ++ t.2)) (b0, []) = .ok (b, S) ∧ S.length = Q.length * m ∧
      ∀ i j, i < Q.length → j < m → pf S (i + Q.length * j) = pf Q i j := by
  obtain ⟨S, e, h0, h1, h2⟩ := forLt_inv (a := 0) (b := m) (s := (b0, ([] : List V)))
    (body := fun j (st : β × List V) => do
        let t ← f j
        pure (t.1, st.2 ++ t.2))
    (fun j st => (0 < j → st.1 = b) ∧ st.2.length = Q.length * j ∧
      ∀ i j', i < Q.length → j' < j → pf st.2 (i + Q.length * j') = pf Q i j') (by omega)
    ⟨by omega, by simp, by intro i j' _ h; omega⟩
    (by
      intro j st _ hj ⟨g0, g1, g2⟩
      refine ⟨(b, st.2 ++ Q.map (projAt K j)), by rw [hf j hj]; rfl, fun _ => rfl, ?_, ?_⟩
      · simp only [List.length_append, List.length_map]; rw [g1]; ring
      · intro i j' hi hj'
        have hq := g1
        rcases Nat.lt_or_ge j' j with h3 | h3
        · rw [← g2 i j' hi h3]
          unfold pf
          rw [List.getD_eq_getElem?_getD, List.getD_eq_getElem?_getD, List.getElem?_append_left]
          rw [hq]; exact idx_lt hi h3
        · obtain rfl : j' = j := by omega
          rw [← projAt_apply (K := K) j' (pf Q i), ← pf_lmap]
          unfold pf
          rw [List.getD_eq_getElem?_getD, List.getD_eq_getElem?_getD, List.getElem?_append_right (by omega)]
          simp only [hq]
          rw [show i + Q.length * j' - Q.length * j' = i by omega])
  refine ⟨S.2, ?_, h1, h2⟩
  rw [e]
  exact congrArg _ (Prod.ext (h0 hm) rfl)

/-- Number of poles along U (the value of `nPolesU` when it does not wrap around). -/
def Surface.nPU (s : Surface K V) : ℕ := s.knotsU.length - (s.degU + 1)

/-- Number of poles along V. -/
def Surface.nPV (s : Surface K V) : ℕ := s.knotsV.length - (s.degV + 1)

/-- Well-formed surface: sorted knots, at least `p+1` poles, non-empty end spans in both directions, and a complete
net of poles. -/
structure Surface.Wf (s : Surface K V) : Prop where
  u : KWf s.degU s.knotsU s.nPU
  v : KWf s.degV s.knotsV s.nPV
  len : s.poles.length = s.nPU * s.nPV

/-- Consistent sizes. -/
structure Surface.Sz (s : Surface K V) : Prop where
  u : s.degU + 1 ≤ s.knotsU.length
  v : s.degV + 1 ≤ s.knotsV.length
  len : s.poles.length = s.nPU * s.nPV

theorem Surface.Wf.sz {s : Surface K V} (h : s.Wf) : s.Sz :=
  ⟨by rw [h.u.len]; omega, by rw [h.v.len]; omega, h.len⟩

theorem Surface.Sz.nU_eq {s : Surface K V} (h : s.Sz) : s.nU = .ok s.nPU := by
  unfold Surface.nU Surface.nPU
  rw [usub_ok h.u]

theorem Surface.Sz.nV_eq {s : Surface K V} (h : s.Sz) : s.nV = .ok s.nPV := by
  unfold Surface.nV Surface.nPV
  rw [usub_ok h.v]

theorem Surface.Wf.nU_eq {s : Surface K V} (h : s.Wf) : s.nU = .ok s.nPU := h.sz.nU_eq
theorem Surface.Wf.nV_eq {s : Surface K V} (h : s.Wf) : s.nV = .ok s.nPV := h.sz.nV_eq

theorem Surface.Wf.posU {s : Surface K V} (h : s.Wf) : 0 < s.nPU := by have := h.u.min; omega
theorem Surface.Wf.posV {s : Surface K V} (h : s.Wf) : 0 < s.nPV := by have := h.v.min; omega

/-- The pole of indices `i` along U, `j` along V. -/
def Surface.P (s : Surface K V) (i j : ℕ) : V := pf s.poles (i + s.nPU * j)

/-- Columns along U: the surface as a curve in `u` whose poles are sequences in `j`. -/
def Surface.colsU (s : Surface K V) : List (ℕ → V) := cols s.nPU s.nPV s.P

/-- The surface as a curve in `v` whose poles are sequences in `i`. -/
def Surface.colsV (s : Surface K V) : List (ℕ → V) := cols s.nPV s.nPU (fun j i => s.P i j)

theorem Surface.polesU_eq {s : Surface K V} (h : s.Sz) {j : ℕ} (hj : j < s.nPV) :
    s.polesU j = .ok (s.colsU.map (projAt K j)) := by
  unfold Surface.polesU
  rw [h.nU_eq, R_bind_ok, h.nV_eq, R_bind_ok, if_pos hj, if_pos]
  · rw [row_eq_map (K := K) h.len hj]; rfl
  · rw [h.len, Nat.mul_comm]; exact Nat.mul_le_mul_left _ hj

theorem Surface.polesV_eq {s : Surface K V} (h : s.Sz) {i : ℕ} (hi : i < s.nPU) :
    s.polesV i = .ok (s.colsV.map (projAt K i)) := by
  unfold Surface.polesV
  rw [h.nU_eq, R_bind_ok, h.nV_eq, R_bind_ok]
  obtain ⟨S, e, h1, h2⟩ := forLt_inv (a := 0) (b := s.nPV) (s := List.replicate s.nPV (0 : V))
    (body := fun j P => do
      let x ← rd s.poles (i + j * s.nPU)
      wr P j x)
    (fun j S => S.length = s.nPV ∧ ∀ j', j' < j → S[j']? = some (s.P i j')) (by omega)
    ⟨by simp, by intro j' h; omega⟩
    (by
      intro j S _ hj ⟨g1, g2⟩
      refine ⟨S.set j (s.P i j), ?_, by simp [g1], ?_⟩
      · rw [rd_pf (by rw [h.len, Nat.mul_comm j]; exact idx_lt hi hj), R_bind_ok, wr_ok (by omega), Nat.mul_comm]
        rfl
      · intro j' hj'
        rw [getElem?_set_of_lt (by omega)]
        by_cases hjj : j' = j
        · subst hjj; rw [if_pos rfl]
        · rw [if_neg hjj]; exact g2 j' (by omega))
  rw [e]
  refine congrArg _ (pf_ext (by rw [h1]; simp [Surface.colsV, cols_length]) ?_)
  intro j hj
  rw [pf_of_getElem? (h2 j (by omega)), pf_lmap, projAt_apply]
  unfold Surface.colsV
  rw [pf_cols (by omega) hi]

theorem spanDer_apply (t : ℕ → K) (n p i : ℕ) (P : ℕ → ℕ → V) (d : ℕ) (u : K) (j : ℕ) :
    spanDer t n p i P d u j = spanDer t n p i (fun ii => P ii j) d u := by
  unfold spanDer
  rw [Finset.sum_apply]
  rfl

theorem spanDer_congr {t : ℕ → K} {n p i : ℕ} {P P' : ℕ → V} {d : ℕ} {u : K} (h : ∀ j, j < n → P j = P' j) :
    spanDer t n p i P d u = spanDer t n p i P' d u := by
  unfold spanDer
  exact Finset.sum_congr rfl fun j hj => by rw [h j (Finset.mem_range.mp hj)]

/-- The mixed derivative through the columns along U. -/
theorem Surface.der_colsU (s : Surface K V) (i j du dv : ℕ) (u v : K) :
    surfDer (kf s.knotsU) s.nPU s.degU i (kf s.knotsV) s.nPV s.degV j (pf s.poles) du dv u v =
      spanDer (kf s.knotsV) s.nPV s.degV j (spanDer (kf s.knotsU) s.nPU s.degU i (pf s.colsU) du u) dv v := by
  unfold surfDer
  apply spanDer_congr
  intro b hb
  rw [spanDer_apply]
  apply spanDer_congr
  intro a ha
  unfold Surface.colsU
  rw [pf_cols ha hb]
  rfl

theorem spanDer_comm (t t' : ℕ → K) (n p i n' p' i' : ℕ) (P : ℕ → ℕ → V) (d d' : ℕ) (u v : K) :
    spanDer t n p i (fun a => spanDer t' n' p' i' (P a) d' v) d u =
      spanDer t' n' p' i' (fun b => spanDer t n p i (fun a => P a b) d u) d' v := by
  unfold spanDer
  simp only [Finset.smul_sum]
  rw [Finset.sum_comm]
  apply Finset.sum_congr rfl
  intro b _
  apply Finset.sum_congr rfl
  intro a _
  rw [smul_comm]

/-- The mixed derivative through the columns along V. -/
theorem Surface.der_colsV (s : Surface K V) (i j du dv : ℕ) (u v : K) :
    surfDer (kf s.knotsU) s.nPU s.degU i (kf s.knotsV) s.nPV s.degV j (pf s.poles) du dv u v =
      spanDer (kf s.knotsU) s.nPU s.degU i (spanDer (kf s.knotsV) s.nPV s.degV j (pf s.colsV) dv v) du u := by
  unfold surfDer
  rw [← spanDer_comm (kf s.knotsU) (kf s.knotsV) s.nPU s.degU i s.nPV s.degV j (fun a b => pf s.poles (a + s.nPU * b)) du dv u v]
  apply spanDer_congr
  intro a ha
  rw [spanDer_apply]
  apply spanDer_congr
  intro b hb
  unfold Surface.colsV
  rw [pf_cols hb ha]
  rfl

/-! ## Knot insertion along U -/

theorem Surface.insertKnotU_eq {s : Surface K V} (h : s.Wf) {u : K} {r : ℕ} {idx : ℤ} {U' : List K} {Q : List (ℕ → V)}
    (e : insertKnots u s.degU r s.knotsU s.colsU = .ok (idx, U', Q)) (hl : U'.length = Q.length + s.degU + 1) :
    ∃ S, s.insertKnotU u r = .ok (idx, { s with knotsU := U', poles := S }) ∧ S.length = Q.length * s.nPV ∧
      ({ s with knotsU := U', poles := S } : Surface K V).nPU = Q.length ∧
      ∀ i j, i < Q.length → j < s.nPV → ({ s with knotsU := U', poles := S } : Surface K V).P i j = pf Q i j := by
  obtain ⟨S, e2, h1, h2⟩ := rows_loop (K := K) (V := V) (b := (idx, U')) (b0 := ((0 : ℤ), ([] : List K))) (Q := Q) (m := s.nPV)
    (f := fun j => do
      let row ← s.polesU j
      let t ← insertKnots u s.degU r s.knotsU row
      pure ((t.1, t.2.1), t.2.2)) (by
      intro j hj
      rw [Surface.polesU_eq h.sz hj, R_bind_ok, insertKnots_map, e]
      rfl) h.posV
  have hn : ({ s with knotsU := U', poles := S } : Surface K V).nPU = Q.length := by
    unfold Surface.nPU; simp only; omega
  refine ⟨S, ?_, h1, hn, ?_⟩
  · unfold Surface.insertKnotU
    rw [h.nV_eq, R_bind_ok]
    have : (fun j (st : (ℤ × List K) × List V) => do
        let row ← s.polesU j
        let (ik, U, Q) ← insertKnots u s.degU r s.knotsU row
        pure ((ik, U), st.2 ++ Q) : ℕ → (ℤ × List K) × List V → R ((ℤ × List K) × List V)) =
      (fun j st => do
        let t ← (do
          let row ← s.polesU j
          let t ← insertKnots u s.degU r s.knotsU row
          pure ((t.1, t.2.1), t.2.2) : R ((ℤ × List K) × List V))
        pure (t.1, st.2 ++ t.2)) := by
      funext j st
      cases s.polesU j with
      | error e => rfl
      | ok row =>
        simp only [R_bind_ok]
        cases insertKnots u s.degU r s.knotsU row with
        | error e => rfl
        | ok t => rfl
    rw [this, e2]
    rfl
  · intro i j hi hj
    unfold Surface.P
    rw [hn]
    exact h2 i j hi hj

theorem Surface.insertKnotV_eq {s : Surface K V} (h : s.Wf) {v : K} {r : ℕ} {idx : ℤ} {U' : List K} {Q : List (ℕ → V)}
    (e : insertKnots v s.degV r s.knotsV s.colsV = .ok (idx, U', Q)) (hl : U'.length = Q.length + s.degV + 1) :
    ∃ S, s.insertKnotV v r = .ok (idx, { s with knotsV := U', poles := S }) ∧ S.length = s.nPU * Q.length ∧
      ({ s with knotsV := U', poles := S } : Surface K V).nPV = Q.length ∧
      ∀ i j, i < s.nPU → j < Q.length → ({ s with knotsV := U', poles := S } : Surface K V).P i j = pf Q j i := by
  obtain ⟨S, e2, h1, h2⟩ := rows_loop (K := K) (V := V) (b := (idx, U')) (b0 := ((0 : ℤ), ([] : List K))) (Q := Q) (m := s.nPU)
    (f := fun j => do
      let row ← s.polesV j
      let t ← insertKnots v s.degV r s.knotsV row
      pure ((t.1, t.2.1), t.2.2)) (by
      intro j hj
      rw [Surface.polesV_eq h.sz hj, R_bind_ok, insertKnots_map, e]
      rfl) h.posU
  obtain ⟨S', e3, h3, h4⟩ := invertedUVPoles_spec h.posU h1
  have hn : ({ s with knotsV := U', poles := S' } : Surface K V).nPV = Q.length := by
    unfold Surface.nPV; simp only; omega
  refine ⟨S', ?_, h3, hn, ?_⟩
  · unfold Surface.insertKnotV
    rw [h.nU_eq, R_bind_ok]
    have : (fun j (st : (ℤ × List K) × List V) => do
        let row ← s.polesV j
        let (ik, U, Q) ← insertKnots v s.degV r s.knotsV row
        pure ((ik, U), st.2 ++ Q) : ℕ → (ℤ × List K) × List V → R ((ℤ × List K) × List V)) =
      (fun j st => do
        let t ← (do
          let row ← s.polesV j
          let t ← insertKnots v s.degV r s.knotsV row
          pure ((t.1, t.2.1), t.2.2) : R ((ℤ × List K) × List V))
        pure (t.1, st.2 ++ t.2)) := by
      funext j st
      cases s.polesV j with
      | error e => rfl
      | ok row =>
        simp only [R_bind_ok]
        cases insertKnots v s.degV r s.knotsV row with
        | error e => rfl
        | ok t => rfl
    rw [this, e2, R_bind_ok, e3, R_bind_ok]
    rfl
  · intro i j hi hj
    unfold Surface.P
    exact (h4 i j hi hj).trans (h2 j i hj hi)

/-! ## Exchange of U and V -/

theorem frontBack_eq {U : List K} (h : U ≠ []) : frontBack U = .ok (kf U 0, kLast U) := by
  have : 0 < U.length := List.length_pos_iff.mpr h
  unfold frontBack
  rw [rd_kf (by omega), R_bind_ok, usub_ok (by omega), R_bind_ok, rd_kf (by omega), R_bind_ok]
  rfl

theorem KWf.ne {p n : ℕ} {U : List K} (h : KWf p U n) : U ≠ [] := by
  intro h0
  have := h.len
  rw [h0] at this
  simp at this

theorem Surface.invertUV_eq {s : Surface K V} (h : s.Wf) :
    ∃ s', s.invertUV = .ok s' ∧ s'.Wf ∧ s'.degU = s.degV ∧ s'.degV = s.degU ∧ s'.knotsU = s.knotsV ∧ s'.knotsV = s.knotsU ∧
      s'.u0 = kf s.knotsV 0 ∧ s'.u1 = kLast s.knotsV ∧ s'.v0 = kf s.knotsU 0 ∧ s'.v1 = kLast s.knotsU ∧
      s'.nPU = s.nPV ∧ s'.nPV = s.nPU ∧ ∀ i j, i < s.nPU → j < s.nPV → s'.P j i = s.P i j := by
  obtain ⟨Q, e, h1, h2⟩ := invertedUVPoles_spec (P := s.poles) (n := s.nPV) (m := s.nPU) h.posV h.len
  refine ⟨⟨s.degV, s.degU, Q, s.knotsV, s.knotsU, kf s.knotsV 0, kLast s.knotsV, kf s.knotsU 0, kLast s.knotsU⟩, ?_,
    ⟨h.v, h.u, h1⟩, rfl, rfl, rfl, rfl, rfl, rfl, rfl, rfl, rfl, rfl, ?_⟩
  · unfold Surface.invertUV
    rw [h.nV_eq, R_bind_ok, e, R_bind_ok, frontBack_eq h.v.ne, frontBack_eq h.u.ne]
    rfl
  · intro i j hi hj
    exact h2 j i hj hi

end Gbs
