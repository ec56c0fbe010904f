import Verif.Model.Ranges
import Verif.Lemmas.Insert
import Verif.Lemmas.Copy
import Verif.Lemmas.Reparam
import Mathlib.Analysis.SpecialFunctions.Sqrt
import Mathlib.Data.List.Sort
import Mathlib.Data.Rat.Defs
import Mathlib.Algebra.Order.Field.Rat

/-!
# Ranges, parametrizations, generated knots, ordered insertion: C33, C34, C51, C54
-/

namespace Gbs

set_option linter.unusedSectionVars false

variable {K : Type} [Field K] [LinearOrder K] [IsStrictOrderedRing K]

/-! ## C33 -/

theorem genSteps_length (step : K) : ∀ n v, (genSteps step v n).length = n := by
  intro n
  induction n with
  | zero => intro v; rfl
  | succ n ih => intro v; simp [genSteps, ih]

theorem genSteps_get (step : K) : ∀ n v i, i < n → (genSteps step v n)[i]? = some (v + ((i : K) + 1) * step) := by
  intro n
  induction n with
  | zero => intro v i h; omega
  | succ n ih =>
    intro v i h
    cases i with
    | zero => simp [genSteps]
    | succ i =>
      rw [genSteps, List.getElem?_cons_succ, ih _ _ (by omega)]
      push_cast
      congr 1
      ring

/-- C33: `make_range(v1,v2,n)` throws exactly when `n < 2`; otherwise it returns `n` equally spaced values, the first
being `v1` and the last `v2`. -/
theorem C33_make_range (v1 v2 : K) (n : ℕ) :
    (n < 2 → makeRange v1 v2 n = .error (.thrown .length)) ∧
    (2 ≤ n → ∃ v, makeRange v1 v2 n = .ok v ∧ v.length = n ∧ v.head? = some v1 ∧ v.getLast? = some v2 ∧
      ∀ i, i < n → v[i]? = some (v1 + (i : K) * ((v2 - v1) / ((n : K) - 1)))) := by
  constructor
  · intro h; unfold makeRange; rw [if_pos h]
  · intro h
    have hn : (n : K) - 1 ≠ 0 := by
      have : (2 : K) ≤ n := by exact_mod_cast h
      intro h0
      linarith
    unfold makeRange
    rw [if_neg (by omega), fdiv_ok hn, R_bind_ok]
    simp only
    set step := (v2 - v1) / ((n : K) - 1) with hstep
    set v := v1 :: (if 2 < n then genSteps step v1 (n - 1) else List.replicate (n - 1) 0) with hv
    have hl : v.length = n := by
      rw [hv, List.length_cons]
      split
      · rw [genSteps_length]; omega
      · rw [List.length_replicate]; omega
    rw [wr_ok (by omega)]
    have hend : v1 + ((n - 1 : ℕ) : K) * step = v2 := by
      rw [Nat.cast_sub (by omega), Nat.cast_one, hstep]
      field_simp
      ring
    have hget : ∀ i, i < n → (v.set (n - 1) v2)[i]? = some (v1 + (i : K) * step) := by
      intro i hi
      rw [getElem?_set_of_lt (by omega)]
      split
      · rename_i h0; rw [h0, hend]
      · rename_i h0
        cases i with
        | zero => simp [hv]
        | succ i =>
          rw [hv, List.getElem?_cons_succ, if_pos (by omega), genSteps_get _ _ _ _ (by omega)]
          push_cast
          rfl
    refine ⟨_, rfl, by simp [hl], ?_, ?_, hget⟩
    · rw [List.head?_eq_getElem?, hget 0 (by omega)]; simp
    · rw [List.getLast?_eq_getElem?, List.length_set, hl, hget _ (by omega), hend]

/-- A loop over `i` that writes the cells `m*i .. m*(i+1)-1` fills the grid. -/
theorem forLt_grid {α : Type} {n m : ℕ} {g : ℕ → ℕ → α} {body : ℕ → List α → R (List α)} {s : List α}
    (hl : s.length = n * m)
    (hb : ∀ i s, i < n → s.length = n * m → ∃ s', body i s = .ok s' ∧ s'.length = n * m ∧
      (∀ j, j < m → s'[j + m * i]? = some (g i j)) ∧
      (∀ x, x < m * i → s'[x]? = s[x]?)) :
    ∃ s', forLt 0 n body s = .ok s' ∧ s'.length = n * m ∧ ∀ i j, i < n → j < m → s'[j + m * i]? = some (g i j) := by
  obtain ⟨s', e, h1, h2⟩ := forLt_inv (a := 0) (b := n) (body := body) (s := s)
    (fun k s => s.length = n * m ∧ ∀ i j, i < k → j < m → s[j + m * i]? = some (g i j)) (by omega)
    ⟨hl, by intro i j h; omega⟩ (by
      intro k s _ hk ⟨g1, g2⟩
      obtain ⟨s', e, f1, f2, f3⟩ := hb k s hk g1
      refine ⟨s', e, f1, ?_⟩
      intro i j hi hj
      rcases Nat.lt_or_ge i k with h | h
      · rw [f3 _ (by have := Nat.mul_le_mul_left m (show i + 1 ≤ k by omega); rw [Nat.mul_add] at this; omega), g2 i j h hj]
      · obtain rfl : i = k := by omega
        exact f2 j hj)
  exact ⟨s', e, h1, h2⟩

/-- A loop that writes the consecutive cells `off .. off+m-1`. -/
theorem forLt_row {α : Type} {m off : ℕ} {f : ℕ → α} {body : ℕ → List α → R (List α)} {s : List α}
    (hl : off + m ≤ s.length)
    (hb : ∀ j s', j < m → s'.length = s.length → body j s' = .ok (s'.set (j + off) (f j))) :
    ∃ s', forLt 0 m body s = .ok s' ∧ s'.length = s.length ∧ (∀ j, j < m → s'[j + off]? = some (f j)) ∧
      (∀ x, (x < off ∨ off + m ≤ x) → s'[x]? = s[x]?) := by
  obtain ⟨s', e, h1, h2, h3⟩ := forLt_inv (a := 0) (b := m) (body := body) (s := s)
    (fun k s' => s'.length = s.length ∧ (∀ j, j < k → s'[j + off]? = some (f j)) ∧
      (∀ x, (x < off ∨ off + m ≤ x) → s'[x]? = s[x]?)) (by omega)
    ⟨rfl, by intro j h; omega, by intro x _; rfl⟩ (by
      intro k s' _ hk ⟨g1, g2, g3⟩
      refine ⟨_, hb k s' hk g1, by simp [g1], ?_, ?_⟩
      · intro j hj
        rw [getElem?_set_of_lt (by omega)]
        split
        · rename_i h; rw [show j = k by omega]
        · exact g2 j (by omega)
      · intro x hx
        rw [getElem?_set_of_lt (by omega), if_neg (by omega), g3 x hx])
  exact ⟨s', e, h1, h2, h3⟩

/-- C33, plane grid: it throws exactly when a count is below 2; otherwise the grid holds, at index `j + nv*i`, the
`i`-th value of the first range with the `j`-th of the second. -/
theorem C33_make_range_2d (u1 u2 v1 v2 : K) (nu nv : ℕ) :
    ((nu < 2 ∨ nv < 2) → makeRange2 u1 u2 v1 v2 nu nv = .error (.thrown .length)) ∧
    (2 ≤ nu → 2 ≤ nv → ∃ g, makeRange2 u1 u2 v1 v2 nu nv = .ok g ∧ g.length = nu * nv ∧
      ∀ i j, i < nu → j < nv → ∃ U V a b, makeRange u1 u2 nu = .ok U ∧ makeRange v1 v2 nv = .ok V ∧
        U[i]? = some a ∧ V[j]? = some b ∧ g[j + nv * i]? = some (a, b)) := by
  constructor
  · intro h; unfold makeRange2; rw [if_pos h]
  · intro hu hv
    unfold makeRange2
    rw [if_neg (by omega)]
    simp only
    have hlu : ((nu - 1 : ℕ) : K) ≠ 0 := by exact_mod_cast (show nu - 1 ≠ 0 by omega)
    have hlv : ((nv - 1 : ℕ) : K) ≠ 0 := by exact_mod_cast (show nv - 1 ≠ 0 by omega)
    obtain ⟨g, e, h1, h2⟩ := forLt_grid (n := nu) (m := nv) (s := List.replicate (nu * nv) ((0 : K), (0 : K)))
      (g := fun i j => (u1 + (u2 - u1) * i / ((nu - 1 : ℕ) : K), v1 + (v2 - v1) * j / ((nv - 1 : ℕ) : K)))
      (body := fun i v => forLt 0 nv (fun j v => do
        let a ← fdiv ((u2 - u1) * i) ((nu - 1 : ℕ) : K)
        let b ← fdiv ((v2 - v1) * j) ((nv - 1 : ℕ) : K)
        wr v (j + nv * i) (u1 + a, v1 + b)) v) (by simp) (by
        intro i s hi hs
        have hle : nv * i + nv ≤ nu * nv := by
          have := Nat.mul_le_mul_left nv (show i + 1 ≤ nu by omega)
          rw [Nat.mul_comm nu nv]; rw [Nat.mul_add] at this; omega
        obtain ⟨s', e, f1, f2, f3⟩ := forLt_row (m := nv) (off := nv * i) (s := s)
          (f := fun j => (u1 + (u2 - u1) * i / ((nu - 1 : ℕ) : K), v1 + (v2 - v1) * j / ((nv - 1 : ℕ) : K)))
          (body := fun j v => do
            let a ← fdiv ((u2 - u1) * i) ((nu - 1 : ℕ) : K)
            let b ← fdiv ((v2 - v1) * j) ((nv - 1 : ℕ) : K)
            wr v (j + nv * i) (u1 + a, v1 + b)) (by omega) (by
            intro j s' hj hs'
            rw [fdiv_ok hlu, R_bind_ok, fdiv_ok hlv, R_bind_ok, wr_ok (by omega)])
        exact ⟨s', e, by omega, f2, fun x hx => f3 x (Or.inl hx)⟩)
    refine ⟨g, e, h1, ?_⟩
    intro i j hi hj
    obtain ⟨U, eU, -, -, -, hU⟩ := (C33_make_range u1 u2 nu).2 hu
    obtain ⟨W, eV, -, -, -, hV⟩ := (C33_make_range v1 v2 nv).2 hv
    refine ⟨U, W, _, _, eU, eV, hU i hi, hV j hj, ?_⟩
    rw [h2 i j hi hj, Nat.cast_sub (by omega), Nat.cast_sub (by omega), Nat.cast_one]
    congr 2 <;> ring

/-- C33, space grid: it throws exactly when a count is below 2; otherwise the grid holds, at index `k + nw*(j + nv*i)`,
the `i`-th, `j`-th and `k`-th values of the three ranges. -/
theorem C33_make_range_3d (u1 u2 v1 v2 w1 w2 : K) (nu nv nw : ℕ) :
    ((nu < 2 ∨ nv < 2 ∨ nw < 2) → makeRange3 u1 u2 v1 v2 w1 w2 nu nv nw = .error (.thrown .length)) ∧
    (2 ≤ nu → 2 ≤ nv → 2 ≤ nw → ∃ g, makeRange3 u1 u2 v1 v2 w1 w2 nu nv nw = .ok g ∧ g.length = nu * nv * nw ∧
      ∀ i j k, i < nu → j < nv → k < nw → ∃ U V W a b c, makeRange u1 u2 nu = .ok U ∧ makeRange v1 v2 nv = .ok V ∧
        makeRange w1 w2 nw = .ok W ∧ U[i]? = some a ∧ V[j]? = some b ∧ W[k]? = some c ∧
        g[k + nw * (j + nv * i)]? = some (a, b, c)) := by
  constructor
  · intro h; unfold makeRange3; rw [if_pos h]
  · intro hu hv hw
    unfold makeRange3
    rw [if_neg (by omega)]
    simp only
    have hlu : ((nu - 1 : ℕ) : K) ≠ 0 := by exact_mod_cast (show nu - 1 ≠ 0 by omega)
    have hlv : ((nv - 1 : ℕ) : K) ≠ 0 := by exact_mod_cast (show nv - 1 ≠ 0 by omega)
    have hlw : ((nw - 1 : ℕ) : K) ≠ 0 := by exact_mod_cast (show nw - 1 ≠ 0 by omega)
    set F : ℕ → ℕ → ℕ → K × K × K := fun i j k => (u1 + (u2 - u1) * i / ((nu - 1 : ℕ) : K),
      v1 + (v2 - v1) * j / ((nv - 1 : ℕ) : K), w1 + (w2 - w1) * k / ((nw - 1 : ℕ) : K)) with hF
    obtain ⟨g, e, h1, h2⟩ := forLt_inv (a := 0) (b := nu)
      (s := List.replicate (nu * nv * nw) ((0 : K), (0 : K), (0 : K)))
      (body := fun i v => forLt 0 nv (fun j v => forLt 0 nw (fun k v => do
        let a ← fdiv ((u2 - u1) * i) ((nu - 1 : ℕ) : K)
        let b ← fdiv ((v2 - v1) * j) ((nv - 1 : ℕ) : K)
        let c ← fdiv ((w2 - w1) * k) ((nw - 1 : ℕ) : K)
        wr v (k + nw * (j + nv * i)) (u1 + a, v1 + b, w1 + c)) v) v)
      (fun i s => s.length = nu * nv * nw ∧
        ∀ i' j k, i' < i → j < nv → k < nw → s[k + nw * (j + nv * i')]? = some (F i' j k)) (by omega)
      ⟨by simp, by intro i' j k h; omega⟩ (by
        intro i s _ hi ⟨g1, g2⟩
        obtain ⟨s', e, f1, f2, f3⟩ := forLt_inv (a := 0) (b := nv) (s := s)
          (body := fun j v => forLt 0 nw (fun k v => do
            let a ← fdiv ((u2 - u1) * i) ((nu - 1 : ℕ) : K)
            let b ← fdiv ((v2 - v1) * j) ((nv - 1 : ℕ) : K)
            let c ← fdiv ((w2 - w1) * k) ((nw - 1 : ℕ) : K)
            wr v (k + nw * (j + nv * i)) (u1 + a, v1 + b, w1 + c)) v)
          (fun j s' => s'.length = nu * nv * nw ∧
            (∀ j' k, j' < j → k < nw → s'[k + nw * (j' + nv * i)]? = some (F i j' k)) ∧
            (∀ x, x < nw * (nv * i) → s'[x]? = s[x]?)) (by omega)
          ⟨g1, by intro j' k h; omega, by intro x _; rfl⟩ (by
            intro j s1 _ hj ⟨k1, k2, k3⟩
            have hle : nw * (j + nv * i) + nw ≤ nu * nv * nw := by
              have h3 : j + nv * i + 1 ≤ nu * nv := by
                have := Nat.mul_le_mul_left nv (show i + 1 ≤ nu by omega)
                rw [Nat.mul_comm nu nv]; rw [Nat.mul_add] at this; omega
              have := Nat.mul_le_mul_left nw h3
              rw [Nat.mul_comm (nu * nv) nw]; rw [Nat.mul_add] at this; omega
            obtain ⟨s2, e2, m1, m2, m3⟩ := forLt_row (m := nw) (off := nw * (j + nv * i)) (s := s1)
              (f := F i j)
              (body := fun k v => do
                let a ← fdiv ((u2 - u1) * i) ((nu - 1 : ℕ) : K)
                let b ← fdiv ((v2 - v1) * j) ((nv - 1 : ℕ) : K)
                let c ← fdiv ((w2 - w1) * k) ((nw - 1 : ℕ) : K)
                wr v (k + nw * (j + nv * i)) (u1 + a, v1 + b, w1 + c)) (by omega) (by
                intro k s' hk hs'
                rw [fdiv_ok hlu, R_bind_ok, fdiv_ok hlv, R_bind_ok, fdiv_ok hlw, R_bind_ok, wr_ok (by omega)])
            refine ⟨s2, e2, by omega, ?_, ?_⟩
            · intro j' k hj' hk
              rcases Nat.lt_or_ge j' j with h | h
              · rw [m3 _ (Or.inl ?_), k2 j' k h hk]
                have := Nat.mul_le_mul_left nw (show j' + nv * i + 1 ≤ j + nv * i by omega)
                rw [Nat.mul_add] at this; omega
              · obtain rfl : j' = j := by omega
                exact m2 k hk
            · intro x hx
              rw [m3 _ (Or.inl ?_), k3 x hx]
              have := Nat.mul_le_mul_left nw (show nv * i ≤ j + nv * i by omega)
              omega)
        refine ⟨s', e, f1, ?_⟩
        intro i' j k hi' hj hk
        rcases Nat.lt_or_ge i' i with h | h
        · rw [f3 _ ?_, g2 i' j k h hj hk]
          have h3 : j + nv * i' + 1 ≤ nv * i := by
            have := Nat.mul_le_mul_left nv (show i' + 1 ≤ i by omega)
            rw [Nat.mul_add] at this; omega
          have := Nat.mul_le_mul_left nw h3
          rw [Nat.mul_add] at this; omega
        · obtain rfl : i' = i := by omega
          exact f2 j k hj hk)
    refine ⟨g, e, h1, ?_⟩
    intro i j k hi hj hk
    obtain ⟨U, eU, -, -, -, hU⟩ := (C33_make_range u1 u2 nu).2 hu
    obtain ⟨V, eV, -, -, -, hV⟩ := (C33_make_range v1 v2 nv).2 hv
    obtain ⟨W, eW, -, -, -, hW⟩ := (C33_make_range w1 w2 nw).2 hw
    refine ⟨U, V, W, _, _, _, eU, eV, eW, hU i hi, hV j hj, hW k hk, ?_⟩
    rw [h2 i j k hi hj hk, hF]
    simp only
    rw [Nat.cast_sub (by omega), Nat.cast_sub (by omega), Nat.cast_sub (by omega), Nat.cast_one]
    congr 2
    · ring
    · congr 1 <;> ring

example : makeRange (1 : ℚ) 2 5 = .ok [1, 5/4, 3/2, 7/4, 2] := by decide +kernel
example : makeRange2 (0 : ℚ) 1 0 2 2 3 = .ok [(0,0), (0,1), (0,2), (1,0), (1,1), (1,2)] := by decide +kernel

/-- C33, integers: all the integers from `v1` to `v2`, at least two of them. -/
theorem C33_make_range_int (v1 v2 : ℤ) :
    (v2 ≤ v1 → makeRangeInt v1 v2 = .error (.thrown .length)) ∧
    (v1 < v2 → ∃ v, makeRangeInt v1 v2 = .ok v ∧ ((v.length : ℤ) = v2 - v1 + 1) ∧
      ∀ i : ℕ, v1 + (i : ℤ) ≤ v2 → v[i]? = some (v1 + (i : ℤ))) := by
  constructor
  · intro h; unfold makeRangeInt; rw [if_pos (by omega)]
  · intro h
    unfold makeRangeInt
    rw [if_neg (by omega)]
    refine ⟨_, rfl, by simp; omega, ?_⟩
    intro i hi
    rw [List.getElem?_map, List.getElem?_range (by omega)]
    rfl

end Gbs
