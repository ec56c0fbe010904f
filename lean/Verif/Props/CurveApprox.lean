import Verif.Model.CurveApprox
import Verif.Props.ApproxRefine
import Verif.Props.Discretize
import Verif.Props.AbsCurv
import Verif.Props.Parametrization

/-!
# C106: approximation of curves
-/

namespace Gbs

open scoped BigOperators

set_option linter.unusedSectionVars false

variable {K : Type} [Field K] [LinearOrder K] [IsStrictOrderedRing K]
variable {V : Type} [AddCommGroup V] [Module K V]
variable {dim : ℕ}

/-! ## Evenly spaced parameters determine the poles -/

/-- The knots of `n` poles of degree `p` between `a` and `b` that the approximation starts with; the last span is twice the others. -/
structure Spec.StartKnots (a b : K) (p n : ℕ) (k : List K) : Prop where
  wf : KWf p k n
  lo : ∀ j, j ≤ p → kf k j = a
  hi : ∀ j, n ≤ j → j ≤ n + p → kf k j = b
  inner : ∀ j, 1 ≤ j → j < n - p → kf k (p + j) = a + (b - a) * j / ((n - p : ℕ) + 1)

theorem evenly_lt {a b : K} (hab : a < b) {m i j : ℕ} (hm : 2 ≤ m) (hij : i < j) : Spec.evenly a b m i < Spec.evenly a b m j := by
  unfold Spec.evenly
  have hd : (0 : K) < (m : K) - 1 := by
    have : (2 : K) ≤ m := by exact_mod_cast hm
    linarith
  have : (i : K) < j := by exact_mod_cast hij
  have h2 : (b - a) * i / ((m : K) - 1) < (b - a) * j / ((m : K) - 1) :=
    div_lt_div_of_pos_right (mul_lt_mul_of_pos_left this (by linarith)) hd
  linarith

theorem evenly_zero (a b : K) (m : ℕ) : Spec.evenly a b m 0 = a := by simp [Spec.evenly]

theorem evenly_last (a b : K) {m : ℕ} (hm : 2 ≤ m) : Spec.evenly a b m (m - 1) = b := by
  unfold Spec.evenly
  have hd : (0 : K) < (m : K) - 1 := by
    have : (2 : K) ≤ m := by exact_mod_cast hm
    linarith
  rw [Nat.cast_sub (by omega), Nat.cast_one, mul_div_assoc, div_self hd.ne']
  ring

/-- Rounding the place of the `j`-th of `n` evenly spaced values down to one of `s + 1`. -/
theorem pick_lt {s n j : ℕ} (hn : 2 ≤ n) (hs : n - 1 ≤ s) : j * s / (n - 1) < (j + 1) * s / (n - 1) := by
  have h0 : 0 < n - 1 := by omega
  calc j * s / (n - 1) < j * s / (n - 1) + 1 := Nat.lt_succ_self _
    _ = (j * s + (n - 1)) / (n - 1) := (Nat.add_div_right _ h0).symm
    _ ≤ (j + 1) * s / (n - 1) := Nat.div_le_div_right (by rw [Nat.add_mul]; omega)

theorem pick_mono {s n i j : ℕ} (hn : 2 ≤ n) (hs : n - 1 ≤ s) (h : i < j) : i * s / (n - 1) < j * s / (n - 1) := by
  induction j with
  | zero => omega
  | succ j ih =>
    rcases Nat.lt_succ_iff_lt_or_eq.mp h with h | rfl
    · exact lt_trans (ih h) (pick_lt hn hs)
    · exact pick_lt hn hs

/-- **C106**: as many evenly spaced parameters as poles determine the poles of a curve on the knots the approximation starts with. -/
theorem C106_determines {eps : K} (heps : 0 < eps) {p n m : ℕ} (hp1 : 1 ≤ p) (hp : p ≤ stackMaxDegree) {a b : K} (hab : a < b) {k : List K}
    (hk : Spec.StartKnots a b p n k) (hnm : n ≤ m) {u : List K} (hu : ∀ i, i < m → Spec.evenly a b m i ∈ u) : Spec.Determines eps k p n u := by
  have hmin := hk.wf.min
  have hn2 : 2 ≤ n := by omega
  have hd : (0 : K) < (m : K) - 1 := by
    have : (2 : K) ≤ m := by exact_mod_cast (by omega : 2 ≤ m)
    linarith
  set f : ℕ → ℕ := fun j => j * (m - 1) / (n - 1) with hf
  set t : List K := (List.range n).map fun j => Spec.evenly a b m (f j) with ht
  have htj : ∀ j, j < n → kf t j = Spec.evenly a b m (f j) := by
    intro j hj
    unfold kf
    rw [ht, List.getElem?_map, List.getElem?_range hj]
    rfl
  have f0 : f 0 = 0 := by simp [hf]
  have fl : f (n - 1) = m - 1 := by
    simp only [hf]
    exact Nat.mul_div_cancel_left _ (by omega)
  have fmono : ∀ i j, i < j → f i < f j := fun i j h => pick_mono hn2 (by omega) h
  have h0 : kf k 0 = kf k p := by rw [hk.lo 0 (by omega), hk.lo p le_rfl]
  have h1 : kLast k = kf k n := by
    unfold kLast
    rw [hk.wf.len, hk.hi n le_rfl (by omega)]
    exact hk.hi _ (by omega) (by omega)
  refine C78_determines heps hp1 hp hk.wf h0 h1 (t := t) ?_ (by simp [ht]) ?_ ?_ ?_ ?_
  · intro x hx
    obtain ⟨j, hj, rfl⟩ := List.mem_map.mp hx
    refine hu _ ?_
    have hj := List.mem_range.mp hj
    rcases Nat.lt_or_ge j (n - 1) with h | h
    · have := fmono _ _ h
      omega
    · obtain rfl : j = n - 1 := by omega
      omega
  · rw [ht, List.pairwise_map]
    refine List.Pairwise.imp_of_mem ?_ (List.pairwise_lt_range)
    intro i j _ _ hij
    exact evenly_lt hab (by omega) (fmono _ _ hij)
  · rw [htj 0 (by omega), f0, evenly_zero, hk.lo p le_rfl]
  · rw [htj _ (by omega), fl, evenly_last a b (by omega), hk.hi n le_rfl (by omega)]
  · intro j hj1 hj2
    rw [htj j (by omega)]
    have hfS : f j < m - 1 := by rw [← fl]; exact fmono _ _ (by omega)
    have hlow : j * (m - 1) < (f j + 1) * (n - 1) := by
      have := Nat.lt_div_mul_add (a := j * (m - 1)) (b := n - 1) (by omega)
      simp only [hf]
      rw [Nat.add_mul, Nat.one_mul]
      exact this
    have hup : f j * (n - 1) ≤ j * (m - 1) := Nat.div_mul_le_self _ _
    have hba : 0 < b - a := by linarith
    have hcmp : ∀ {x N : ℕ} {s : ℕ}, 0 < N → x * (m - 1) < s * N → (b - a) * x / N < (b - a) * s / ((m : K) - 1) := by
      intro x N s hN h
      have hN' : (0 : K) < N := by exact_mod_cast hN
      rw [div_lt_div_iff₀ hN' hd, mul_assoc, mul_assoc]
      refine mul_lt_mul_of_pos_left ?_ hba
      have hc : (m : K) - 1 = ((m - 1 : ℕ) : K) := by rw [Nat.cast_sub (by omega), Nat.cast_one]
      rw [hc]
      exact_mod_cast h
    have hcmp' : ∀ {x N : ℕ} {s : ℕ}, 0 < N → s * N < x * (m - 1) → (b - a) * s / ((m : K) - 1) < (b - a) * x / N := by
      intro x N s hN h
      have hN' : (0 : K) < N := by exact_mod_cast hN
      rw [div_lt_div_iff₀ hd hN', mul_assoc, mul_assoc]
      refine mul_lt_mul_of_pos_left ?_ hba
      have hc : (m : K) - 1 = ((m - 1 : ℕ) : K) := by rw [Nat.cast_sub (by omega), Nat.cast_one]
      rw [hc]
      exact_mod_cast h
    constructor
    · rcases Nat.lt_or_ge p j with h | h
      · obtain ⟨i, rfl⟩ : ∃ i, j = p + i := ⟨j - p, by omega⟩
        rw [hk.inner i (by omega) (by omega)]
        unfold Spec.evenly
        have key : i * (m - 1) < f (p + i) * (n - p + 1) := by
          obtain ⟨q, rfl⟩ : ∃ q, p = q + 1 := ⟨p - 1, by omega⟩
          obtain ⟨r, rfl⟩ : ∃ r, n = q + 1 + i + 2 + r := ⟨n - (q + 1 + i + 2), by omega⟩
          obtain ⟨s, hs⟩ : ∃ s, m - 1 = q + i + r + 2 + s := ⟨m - 1 - (q + i + r + 2), by omega⟩
          rw [hs] at hlow ⊢
          rw [show q + 1 + i + 2 + r - 1 = q + i + r + 2 by omega] at hlow
          rw [show q + 1 + i + 2 + r - (q + 1) + 1 = i + 3 + r by omega]
          generalize f (q + 1 + i) = g at hlow ⊢
          by_contra hcon
          have hcon : g * (i + 3 + r) ≤ i * (q + i + r + 2 + s) := not_lt.mp hcon
          -- multiply by the number of poles less one
          have e1 : (q + 1 + i) * (q + i + r + 2 + s) * (i + 3 + r) < (g + 1) * (q + i + r + 2) * (i + 3 + r) :=
            Nat.mul_lt_mul_of_pos_right hlow (by omega)
          have e2 : g * (i + 3 + r) * (q + i + r + 2) ≤ i * (q + i + r + 2 + s) * (q + i + r + 2) := Nat.mul_le_mul_right _ hcon
          have e3 : (g + 1) * (q + i + r + 2) * (i + 3 + r) = g * (i + 3 + r) * (q + i + r + 2) + (q + i + r + 2) * (i + 3 + r) := by ring
          have e4 : (q + 1 + i) * (q + i + r + 2 + s) * (i + 3 + r) = i * (q + i + r + 2 + s) * (q + i + r + 2) + (q + i + r + 2) * (i + 3 + r)
              + (s * (i + 3 + r) + (q + i + r + 2 + s) * (q * (3 + r) + i)) := by ring
          omega
        have := hcmp (x := i) (N := n - p + 1) (s := f (p + i)) (by omega) key
        rw [Nat.cast_add, Nat.cast_one] at this
        linarith
      · rw [hk.lo j h]
        have h2 := fmono 0 j (by omega)
        have := evenly_lt hab (m := m) (by omega) (by omega : 0 < f j)
        rwa [evenly_zero] at this
    · rcases Nat.lt_or_ge (j + p + 1) n with h | h
      · rw [show j + p + 1 = p + (j + 1) by omega, hk.inner (j + 1) (by omega) (by omega)]
        unfold Spec.evenly
        have key : f j * (n - p + 1) < (j + 1) * (m - 1) := by
          obtain ⟨r, hr⟩ : ∃ r, n - 1 = j + 1 + r := ⟨n - 1 - (j + 1), by omega⟩
          rw [hr] at hup
          have hN : n - p + 1 ≤ j + 1 + r + 1 := by omega
          obtain ⟨s, hs⟩ : ∃ s, m - 1 = 1 + s := ⟨m - 2, by omega⟩
          rw [hs] at hup ⊢
          generalize f j = g at hup ⊢
          by_contra hcon
          have hcon : (j + 1) * (1 + s) ≤ g * (j + 1 + r + 1) := le_trans (not_lt.mp hcon) (Nat.mul_le_mul_left _ hN)
          have e1 : (j + 1) * (1 + s) * (j + 1 + r) ≤ g * (j + 1 + r + 1) * (j + 1 + r) := Nat.mul_le_mul_right _ hcon
          have e2 : g * (j + 1 + r) * (j + 1 + r + 1) ≤ j * (1 + s) * (j + 1 + r + 1) := Nat.mul_le_mul_right _ hup
          have e3 : g * (j + 1 + r + 1) * (j + 1 + r) = g * (j + 1 + r) * (j + 1 + r + 1) := by ring
          have e4 : (j + 1) * (1 + s) * (j + 1 + r) = j * (1 + s) * (j + 1 + r + 1) + (1 + s) * (1 + r) := by ring
          have e5 : 0 < (1 + s) * (1 + r) := by positivity
          omega
        have := hcmp' (x := j + 1) (N := n - p + 1) (s := f j) (by omega) key
        rw [Nat.cast_add (n - p), Nat.cast_one] at this
        linarith
      · rw [hk.hi (j + p + 1) h (by omega)]
        have := evenly_lt hab (m := m) (by omega) hfS
        rwa [evenly_last a b (by omega)] at this

/-! ## Samples -/

/-- `Q` are the points of the curve at the parameters `u`, which go from its start to its end through `np` evenly spaced ones. -/
structure Spec.Samples (crv : ACurve K V) (np : ℕ) (Q : List V) (u : List K) : Prop where
  len : Q.length = u.length
  value : ∀ (i : ℕ) (t : K), u[i]? = some t → ∃ q, crv.value t 0 = .ok q ∧ Q[i]? = some q
  sorted : u.Pairwise (· ≤ ·)
  head : u.head? = some crv.b0
  last : u.getLast? = some crv.b1
  even : ∀ i, i < np → Spec.evenly crv.b0 crv.b1 np i ∈ u

/-- A curve with a value at each of its parameters. -/
structure Spec.Valued (crv : ACurve K V) : Prop where
  lt : crv.b0 < crv.b1
  value : ∀ t, crv.b0 ≤ t → t ≤ crv.b1 → ∃ q, crv.value t 0 = .ok q

/-- What is assumed of the library: the solver answers, and solves the regular systems; the fuel is enough for the curve. -/
structure Spec.FitOk (o : FitArgs K V) (crv : ACurve K V) : Prop where
  eps : 0 < o.eps
  frac : 0 ≤ o.frac
  cross : Spec.CrossNorm o.nrm o.ncross
  zero : o.nrm 0 = 0
  solves : Spec.SolvesDense o.dense
  answers : Spec.AnswersDense o.dense
  fuel : ∃ N, crv.b1 - crv.b0 ≤ o.eps * 2 ^ N ∧ N < o.fuel

theorem Spec.Samples.many {crv : ACurve K V} {np : ℕ} {Q : List V} {u : List K} (h : Spec.Samples crv np Q u) (hlt : crv.b0 < crv.b1) (hn : 2 ≤ np) :
    np ≤ Q.length := by
  rw [h.len]
  have hnd : ((List.range np).map (Spec.evenly crv.b0 crv.b1 np)).Nodup := by
    refine List.Nodup.map ?_ List.nodup_range
    intro i j hij
    rcases lt_trichotomy i j with h | h | h
    · exact absurd hij (evenly_lt hlt hn h).ne
    · exact h
    · exact absurd hij (evenly_lt hlt hn h).ne'
  have := (hnd.subperm (l₂ := u) (by
    intro x hx
    obtain ⟨i, hi, rfl⟩ := List.mem_map.mp hx
    exact h.even i (List.mem_range.mp hi))).length_le
  simpa using this

theorem Spec.Samples.ends {crv : ACurve K V} {np : ℕ} {Q : List V} {u : List K} (h : Spec.Samples crv np Q u) :
    0 < u.length ∧ kf u 0 = crv.b0 ∧ kf u (u.length - 1) = crv.b1 ∧ (∀ x ∈ u, crv.b0 ≤ x ∧ x ≤ crv.b1) ∧ crv.value crv.b0 0 = .ok (pf Q 0) ∧
      crv.value crv.b1 0 = .ok (pf Q (Q.length - 1)) := by
  have hu : 0 < u.length := by
    rcases u with - | ⟨x, l⟩
    · simpa using h.head
    · simp
  have e0 : u[0]? = some crv.b0 := by rw [← List.head?_eq_getElem?]; exact h.head
  have e1 : u[u.length - 1]? = some crv.b1 := by rw [← List.getLast?_eq_getElem?]; exact h.last
  have k0 := (kf_of_some e0).2
  have k1 := (kf_of_some e1).2
  refine ⟨hu, k0, k1, ?_, ?_, ?_⟩
  · intro x hx
    obtain ⟨i, hi⟩ := List.getElem?_of_mem hx
    obtain ⟨hi, rfl⟩ := kf_of_some hi
    rw [← k0, ← k1]
    exact ⟨kf_mono h.sorted (by omega), kf_mono h.sorted (by omega)⟩
  · obtain ⟨q, eq, hq⟩ := h.value 0 _ e0
    rw [eq]
    unfold pf
    rw [List.getD_eq_getElem?_getD, hq]
    rfl
  · obtain ⟨q, eq, hq⟩ := h.value _ _ e1
    rw [eq]
    unfold pf
    rw [List.getD_eq_getElem?_getD, h.len, hq]
    rfl

/-- **C106**: the samples of a curve. -/
theorem C106_samples {o : FitArgs K V} {crv : ACurve K V} (ho : Spec.FitOk o crv) (hc : Spec.Valued crv) (knots : List K) (dev : K) {np : ℕ} (hn : 2 ≤ np)
    (nMax : ℕ) :
    ∃ Q u, discretizeWithParams o.nrm o.ncross dev (fun t => crv.value t 0) o.eps o.fuel knots crv.b0 crv.b1 np nMax = .ok (Q, u) ∧
      Spec.Samples crv np Q u ∧ ∀ x ∈ knots, crv.b0 < x → x < crv.b1 → x ∈ u := by
  obtain ⟨N, hN, hf⟩ := ho.fuel
  obtain ⟨L, eL, h1, h2, h3, h4, h5, -⟩ := C93_params (devMax := dev) (nMax := nMax) (val := fun t => crv.value t 0) ho.cross ho.eps hc.lt hn knots hN hf hc.value
  have hin : ∀ t ∈ L, crv.b0 ≤ t ∧ t ≤ crv.b1 := by
    intro t ht
    obtain ⟨i, hi⟩ := List.getElem?_of_mem ht
    obtain ⟨hi, rfl⟩ := kf_of_some hi
    have e0 : L[0]? = some crv.b0 := by rw [← List.head?_eq_getElem?]; exact h2
    have e1 : L[L.length - 1]? = some crv.b1 := by rw [← List.getLast?_eq_getElem?]; exact h3
    rw [← (kf_of_some e0).2, ← (kf_of_some e1).2]
    exact ⟨kf_mono h1 (by omega), kf_mono h1 (by omega)⟩
  obtain ⟨Q, eQ⟩ := mapM_exists (f := fun t => crv.value t 0) L fun t ht => hc.value t (hin t ht).1 (hin t ht).2
  obtain ⟨lQ, hQ⟩ := mapM_inv eQ
  refine ⟨Q, L, ?_, ⟨lQ, hQ, h1, h2, h3, h4⟩, h5⟩
  unfold discretizeWithParams
  rw [eL, R_bind_ok, eQ]
  rfl

/-! ## Fits -/

/-- The result of the approximation of a curve at its parameters: it has the bounds, the degree asked for, and the ends of the curve; it comes by
refinement from the least squares of the samples on the knots of `n` poles. -/
structure Spec.CurveFit (eps : K) (crv : ACurve K (Fin dim → K)) (p n : ℕ) (Q : List (Fin dim → K)) (u : List K) (c : Curve K (Fin dim → K)) : Prop where
  good : c.Good
  deg : c.deg = p
  lo : c.b0 = crv.b0
  hi : c.b1 = crv.b1
  first : ∀ junk, c.value eps junk crv.b0 0 = crv.value crv.b0 0
  last : ∀ junk, c.value eps junk crv.b1 0 = crv.value crv.b1 0
  least : ∃ k c0 ins, Spec.StartKnots crv.b0 crv.b1 p n k ∧ Spec.LeastSquares eps u Q (Spec.Family eps k p Q true) c0 ∧ Spec.Refined eps u Q true c0 ins c
  better : Spec.Determines eps c.knots p c.poles.length u → ∀ k c', Spec.StartKnots crv.b0 crv.b1 p n k → Spec.Family eps k p Q true c' →
    ∃ s s', Spec.SquareSum eps u Q c s ∧ Spec.SquareSum eps u Q c' s' ∧ s ≤ s'

theorem Spec.StartKnots.unique {a b : K} {p n : ℕ} {k k' : List K} (h : Spec.StartKnots a b p n k) (h' : Spec.StartKnots a b p n k') : k = k' := by
  have hmin := h.wf.min
  refine List.ext_getElem? fun i => ?_
  rcases Nat.lt_or_ge i (n + p + 1) with hi | hi
  · rw [kf_getElem? (by rw [h.wf.len]; omega), kf_getElem? (by rw [h'.wf.len]; omega)]
    congr 1
    by_cases h1 : i ≤ p
    · rw [h.lo i h1, h'.lo i h1]
    · by_cases h2 : n ≤ i
      · rw [h.hi i h2 (by omega), h'.hi i h2 (by omega)]
      · obtain ⟨j, rfl⟩ : ∃ j, i = p + j := ⟨i - p, by omega⟩
        rw [h.inner j (by omega) (by omega), h'.inner j (by omega) (by omega)]
  · rw [List.getElem?_eq_none (by rw [h.wf.len]; omega), List.getElem?_eq_none (by rw [h'.wf.len]; omega)]

theorem squareSum_unique {eps : K} {u : List K} {Q : List (Fin dim → K)} {c : Curve K (Fin dim → K)} {s s' : K} (h : Spec.SquareSum eps u Q c s)
    (h' : Spec.SquareSum eps u Q c s') : s = s' := by
  obtain ⟨X, hX, rfl⟩ := h
  obtain ⟨Y, hY, rfl⟩ := h'
  refine Finset.sum_congr rfl fun i hi => ?_
  have e := hX i (Finset.mem_range.mp hi) 0
  rw [hY i (Finset.mem_range.mp hi) 0] at e
  rw [Except.ok.inj e]

section fits
variable {o : FitArgs K (Fin dim → K)} {crv : ACurve K (Fin dim → K)} {Q : List (Fin dim → K)} {u : List K} {np p n : ℕ}

/-- The first approximation. -/
theorem fit_first (ho : Spec.FitOk o crv) (hlt : crv.b0 < crv.b1) (hs : Spec.Samples crv np Q u) (hp1 : 1 ≤ p) (hp : p ≤ stackMaxDegree) (hpn : p + 1 ≤ n) (hn : n ≤ np) :
    ∃ k c, Spec.StartKnots crv.b0 crv.b1 p n k ∧ Spec.Determines o.eps k p n u ∧ approxUniform o.eps o.junk o.dense Q p n u true = .ok c ∧
      Spec.LeastSquares o.eps u Q (Spec.Family o.eps k p Q true) c ∧ Spec.RefineData u Q true c := by
  obtain ⟨hu, k0, k1, hin, -, -⟩ := hs.ends
  have hmany := hs.many hlt (by omega)
  obtain ⟨k, hU, a0, a1, ai, h⟩ := C78_approx_uniform ho.eps o.junk hp1 hp hpn hs.len (by omega) (by rw [k0, k1]; exact hlt) (by rw [k0, k1]; exact hin) true ho.solves
  rw [k0] at a0 ai
  rw [k1] at a1 ai
  have hk : Spec.StartKnots crv.b0 crv.b1 p n k := ⟨hU, a0, a1, ai⟩
  have hdet := C106_determines ho.eps hp1 hp hlt hk hn hs.even
  obtain ⟨c, e, hc⟩ := h hdet
  have hon := hc.1.1
  have hl := OnKnots.poles hU hon
  have hb0 : c.b0 = crv.b0 := by rw [hon.good.lo, hon.knots, hon.deg]; exact a0 p le_rfl
  have hb1 : c.b1 = crv.b1 := by rw [hon.good.hi, hon.knots, hl]; exact a1 _ le_rfl (by omega)
  refine ⟨k, c, hk, hdet, e, hc, hon.good, by rw [hon.deg]; exact hp1, by rw [hon.deg]; exact hp, ?_, ?_, hs.len, by rw [hb0, hb1]; exact hin,
    fun _ => ⟨by rw [hb0, k0], by rw [hb1, k1]⟩⟩
  · rw [hon.knots, hb0]; exact a0 0 (by omega)
  · rw [hon.knots, hb1]
    unfold kLast
    rw [hU.len]
    exact a1 _ (by omega) (by omega)

/-- The refined approximation. -/
theorem fit_refined (ho : Spec.FitOk o crv) (hlt : crv.b0 < crv.b1) (hs : Spec.Samples crv np Q u) (hp1 : 1 ≤ p) (hp : p ≤ stackMaxDegree) (hpn : p + 1 ≤ n) (hn : n < np)
    (h5 : 5 ≤ np) (tol : K) :
    ∃ c, refineFromPoints o Q u p n tol = .ok c ∧ Spec.CurveFit o.eps crv p n Q u c ∧ n ≤ c.poles.length ∧ c.poles.length ≤ max (n + 1) (Q.length - 5) := by
  obtain ⟨k, c0, hk, hdet, e, hc, hD⟩ := fit_first ho hlt hs hp1 hp hpn hn.le
  have hmany := hs.many hlt (by omega)
  have hon := hc.1.1
  have hl := OnKnots.poles hk.wf hon
  obtain ⟨hu, k0, k1, hin, v0, v1⟩ := hs.ends
  obtain ⟨c, ins, e', hr, hil, hcap⟩ := C79_refine ho.eps o.junk (norm := o.nrm) ho.frac ho.solves ho.answers hD (by omega) (by omega) (10 * tol) tol approxMaxIter
  obtain ⟨c'', e'', hbest⟩ := C79_refine_not_worse ho.eps o.junk (norm := o.nrm) ho.frac ho.solves ho.answers hD (by omega) (by omega) (10 * tol) tol approxMaxIter
    (by rw [hon.knots, hon.deg]; exact hc.1)
  rw [e'] at e''
  obtain rfl := Except.ok.inj e''
  have hb0 : c0.b0 = crv.b0 := by rw [← (hD.ends rfl).1, k0]
  have hb1 : c0.b1 = crv.b1 := by rw [← (hD.ends rfl).2, k1]
  have hfam : ∀ junk, c.value o.eps junk c.b0 0 = .ok (pf Q 0) ∧ c.value o.eps junk c.b1 0 = .ok (pf Q (Q.length - 1)) := by
    by_cases h0 : ins = []
    · rw [hr.same h0]
      exact hc.1.2 rfl
    · exact (hr.family h0).2 rfl
  refine ⟨c, ?_, ⟨hr.good, hr.deg.trans hon.deg, hr.lo.trans hb0, hr.hi.trans hb1, ?_, ?_, ⟨k, c0, ins, hk, hc, hr⟩, ?_⟩, ?_, ?_⟩
  · unfold refineFromPoints
    rw [e, R_bind_ok, e']
  · intro junk
    rw [← hb0, ← hr.lo, (hfam junk).1, hr.lo, hb0, v0]
  · intro junk
    rw [← hb1, ← hr.hi, (hfam junk).2, hr.hi, hb1, v1]
  · intro hd k' c' hk' hc'
    rw [hon.deg] at hbest
    obtain ⟨s, s', hs, hs', hle⟩ := hbest hd
    obtain rfl := hk.unique hk'
    obtain ⟨-, s0, hs0, hmin⟩ := hc
    obtain ⟨s1, hs1, hle1, -⟩ := hmin c' hc'
    refine ⟨s', s1, hs', hs1, hle.trans ?_⟩
    rwa [squareSum_unique hs hs0]
  · rw [hr.poles, hl]; omega
  · rw [hl] at hcap
    exact hcap

/-- A curve of the family through all the points is the one of least squares. -/
theorem least_exact {eps : K} {k : List K} {c c' : Curve K (Fin dim → K)} (hc : Spec.LeastSquares eps u Q (Spec.Family eps k p Q true) c)
    (hc' : Spec.Family eps k p Q true c') (hv : ∀ i, i < u.length → ∀ junk, c'.value eps junk (kf u i) 0 = .ok (pf Q i)) : c' = c := by
  obtain ⟨-, s, hs, hmin⟩ := hc
  obtain ⟨s', hs', hle, heq⟩ := hmin c' hc'
  refine heq ?_
  have h0 : Spec.SquareSum eps u Q c' 0 := ⟨Q, hv, by simp [Spec.sqDist]⟩
  have hs0 : 0 ≤ s := by
    obtain ⟨X, -, rfl⟩ := hs
    exact Finset.sum_nonneg fun i _ => Finset.sum_nonneg fun j _ => sq_nonneg _
  rw [squareSum_unique hs' h0] at hle ⊢
  exact le_antisymm hs0 hle

/-- The value of a sample. -/
theorem Spec.Samples.point {V : Type} {crv : ACurve K V} {Q : List V} [AddCommGroup V] (hs : Spec.Samples crv np Q u) {i : ℕ} (hi : i < u.length) :
    crv.value (kf u i) 0 = .ok (pf Q i) := by
  obtain ⟨q, e, hq⟩ := hs.value i _ (kf_getElem? hi)
  rw [e]
  unfold pf
  rw [List.getD_eq_getElem?_getD, hq]
  rfl

/-- What is refined when the first approximation goes through all the points: nothing. -/
theorem fit_exact (ho : Spec.FitOk o crv) (hlt : crv.b0 < crv.b1) (hs : Spec.Samples crv np Q u) (hp1 : 1 ≤ p) (hp : p ≤ stackMaxDegree) (hpn : p + 1 ≤ n) (hn : n < np)
    (h5 : 5 ≤ np) (tol : K) {k : List K} (hk : Spec.StartKnots crv.b0 crv.b1 p n k) {c : Curve K (Fin dim → K)} (hc : Spec.OnKnots k p c)
    (hv : ∀ t, crv.b0 ≤ t → t ≤ crv.b1 → ∀ junk, c.value o.eps junk t 0 = crv.value t 0) :
    approxUniform o.eps o.junk o.dense Q p n u true = .ok c ∧ refineFromPoints o Q u p n tol = .ok c := by
  obtain ⟨k', c0, hk', hdet, e, hc0, hD⟩ := fit_first ho hlt hs hp1 hp hpn hn.le
  obtain rfl := hk.unique hk'
  obtain ⟨hu, k0, k1, hin, v0, v1⟩ := hs.ends
  have hl := OnKnots.poles hk.wf hc
  have hmany := hs.many hlt (by omega)
  have hb0 : c.b0 = crv.b0 := by rw [hc.good.lo, hc.knots, hc.deg]; exact hk.lo p le_rfl
  have hb1 : c.b1 = crv.b1 := by rw [hc.good.hi, hc.knots, hl]; exact hk.hi _ le_rfl (by omega)
  have hpt : ∀ i, i < u.length → ∀ junk, c.value o.eps junk (kf u i) 0 = .ok (pf Q i) := by
    intro i hi junk
    have hm := hin _ (kf_mem (by intro h; rw [h] at hi; simp at hi) i)
    rw [hv _ hm.1 hm.2, hs.point hi]
  have hfam : Spec.Family o.eps k p Q true c := by
    refine ⟨hc, fun _ junk => ⟨?_, ?_⟩⟩
    · rw [hb0, hv _ le_rfl hlt.le, v0]
    · rw [hb1, hv _ hlt.le le_rfl, v1]
  obtain rfl := least_exact hc0 hfam hpt
  refine ⟨e, ?_⟩
  unfold refineFromPoints
  rw [e, R_bind_ok]
  refine C79_refine_none ho.eps o.junk ho.frac ho.solves ho.answers hD (by omega) (by omega) _ _ _ ?_
  rintro j d hj - ⟨x, hx, rfl⟩
  have hj' : j < u.length := by rw [← hs.len]; exact hj
  have := hx 0
  rw [hpt j hj' 0] at this
  rw [← Except.ok.inj this, sub_self, ho.zero]

/-- A polynomial is a curve on given knots. -/
theorem poly_curve {eps : K} (heps : 0 < eps) {k : List K} (hU : KWf p k n) (hp : p ≤ stackMaxDegree) (A : ℕ → V) :
    ∃ c : Curve K V, Spec.OnKnots k p c ∧ c.b0 = kf k p ∧ c.b1 = kf k n ∧
      ∀ t, c.b0 ≤ t → t ≤ c.b1 → ∀ junk, c.value eps junk t 0 = .ok (∑ i ∈ Finset.range (p + 1), t ^ i • A i) := by
  set G : List V := (List.range n).map fun j => polyBlossom p A (seg (kf k) (j + 1) p) with hG
  have hGj : ∀ j, j < n → pf G j = polyBlossom p A (seg (kf k) (j + 1) p) := fun j hj => pf_map_range _ hj
  have hGl : G.length = n := by simp [hG]
  have hwf : (⟨p, G, k, kf k p, kf k n⟩ : Curve K V).Good := by
    refine ⟨⟨hU.sorted, ?_, ?_, hU.first, ?_⟩, rfl, ?_⟩
    · rw [hU.len, hGl]
    · rw [hGl]; exact hU.min
    · rw [hGl]; exact hU.last
    · simp only [hGl]
  refine ⟨⟨p, G, k, kf k p, kf k n⟩, ⟨hwf, rfl, rfl⟩, rfl, rfl, ?_⟩
  intro t h0 h1 junk
  obtain ⟨s, e, hs, -, -, hval⟩ := Curve.value_span heps hwf (Or.inl hp) h0 h1
  obtain ⟨i', e', a1, a2, a3, -⟩ := findSpan_wf hwf.wf t
  rw [e] at e'
  obtain rfl := Except.ok.inj e'
  rw [hval junk 0]
  simp only [hGl]
  simp only [hGl] at a2
  rw [poly_poles (kf_mono hU.sorted) a1 (by omega) a3 A hGj t]

end fits

/-! ## The approximations that keep the parameters of the curve -/

section keep
variable {o : FitArgs K (Fin dim → K)} {crv : ACurve K (Fin dim → K)} {p n np : ℕ}

/-- **C106**: the approximation of a curve to a tolerance from a number of poles: the result has the bounds and the ends of the curve, and comes by
refinement from the least squares on `n` poles. -/
theorem C106_tol_poles (ho : Spec.FitOk o crv) (hc : Spec.Valued crv) (knots : List K) (dev tol : K) (hp1 : 1 ≤ p) (hp : p ≤ stackMaxDegree) (hpn : p + 1 ≤ n)
    (hn : n < np) (h5 : 5 ≤ np) :
    ∃ Q u c, Spec.Samples crv np Q u ∧ approxCurveTolPoles o knots crv dev tol p n np = .ok c ∧ Spec.CurveFit o.eps crv p n Q u c ∧ n ≤ c.poles.length ∧
      c.poles.length ≤ max (n + 1) (Q.length - 5) := by
  obtain ⟨Q, u, e, hs, -⟩ := C106_samples ho hc knots dev (np := np) (by omega) approxMaxSamplePoints
  obtain ⟨c, e', h⟩ := fit_refined ho hc.lt hs hp1 hp hpn hn h5 tol
  refine ⟨Q, u, c, hs, ?_, h⟩
  unfold approxCurveTolPoles sampleByDeviation
  rw [e, R_bind_ok, e']

/-- **C106**: with a third of the samples for poles. -/
theorem C106_tol (ho : Spec.FitOk o crv) (hc : Spec.Valued crv) (knots : List K) (dev tol : K) (hp1 : 1 ≤ p) (hp : p ≤ stackMaxDegree) (hn : p + 1 < np) (h5 : 5 ≤ np) :
    ∃ Q u c, Spec.Samples crv np Q u ∧ approxCurveTol o knots crv dev tol p np = .ok c ∧ Spec.CurveFit o.eps crv p (max (np / 3) (p + 1)) Q u c := by
  obtain ⟨Q, u, c, hs, e, hf, -⟩ := C106_tol_poles ho hc knots dev tol hp1 hp (n := max (np / 3) (p + 1)) (le_max_right _ _) (by omega) h5
  exact ⟨Q, u, c, hs, e, hf⟩

/-- **C106**, negation of the claim of the parameters: the approximation "between `u1` and `u2`" is that of the whole curve. -/
theorem C106_between (ho : Spec.FitOk o crv) (hc : Spec.Valued crv) (knots : List K) (u1 u2 dev tol : K) (hp1 : 1 ≤ p) (hp : p ≤ stackMaxDegree) (hn : 2 * p < np)
    (h5 : 5 ≤ np) :
    ∃ Q u c, Spec.Samples crv np Q u ∧ approxCurveBetween o knots crv u1 u2 dev tol p np = .ok c ∧ Spec.CurveFit o.eps crv p (2 * p) Q u c ∧
      (crv.b0 < u1 ∨ u2 < crv.b1 → ¬(c.b0 = u1 ∧ c.b1 = u2)) := by
  obtain ⟨Q, u, c, hs, e, hf, -⟩ := C106_tol_poles ho hc knots dev tol hp1 hp (n := 2 * p) (by omega) hn h5
  refine ⟨Q, u, c, hs, ?_, hf, ?_⟩
  · rw [← e]
    unfold approxCurveBetween approxCurveTolPoles defaultNPoles
    rw [Nat.mul_comm]
  · rintro h ⟨rfl, rfl⟩
    rw [hf.lo, hf.hi] at h
    rcases h with h | h
    · exact lt_irrefl _ h
    · exact lt_irrefl _ h

/-- A curve seen through a map of the space. -/
def Spec.image {V : Type} (crv : ACurve K V) (trf : V → V) : ACurve K V := ⟨crv.b0, crv.b1, fun t d => (crv.value t d).map trf⟩

theorem Spec.Samples.image {V : Type} {crv : ACurve K V} {Q : List V} {u : List K} (hs : Spec.Samples crv np Q u) (trf : V → V) :
    Spec.Samples (Spec.image crv trf) np (Q.map trf) u := by
  refine ⟨by rw [List.length_map, hs.len], ?_, hs.sorted, hs.head, hs.last, hs.even⟩
  intro i t ht
  obtain ⟨q, e, hq⟩ := hs.value i t ht
  refine ⟨trf q, ?_, by rw [List.getElem?_map, hq]; rfl⟩
  show (crv.value t 0).map trf = _
  rw [e]
  rfl

/-- **C106**: the approximation of a curve through a map of the space is a fit of the image of the curve; the samples are refined on the curve, not on its
image. -/
theorem C106_mapped (ho : Spec.FitOk o crv) (hc : Spec.Valued crv) (knots : List K) (trf : (Fin dim → K) → Fin dim → K) (dev tol : K) (hp1 : 1 ≤ p)
    (hp : p ≤ stackMaxDegree) (hn : 2 * p < np) (h5 : 5 ≤ np) :
    ∃ Q u c, Spec.Samples crv np Q u ∧ approxCurveMapped o knots crv trf dev tol p np = .ok c ∧
      Spec.CurveFit o.eps (Spec.image crv trf) p (2 * p) (Q.map trf) u c := by
  obtain ⟨Q, u, e, hs, -⟩ := C106_samples ho hc knots dev (np := np) (by omega) approxMaxSamplePoints
  have ho' : Spec.FitOk o (Spec.image crv trf) := ⟨ho.eps, ho.frac, ho.cross, ho.zero, ho.solves, ho.answers, ho.fuel⟩
  obtain ⟨c, e', h, -⟩ := fit_refined ho' hc.lt (hs.image trf) hp1 hp (n := 2 * p) (by omega) hn h5 tol
  refine ⟨Q, u, c, hs, ?_, h⟩
  unfold approxCurveMapped sampleByDeviation defaultNPoles
  rw [e, R_bind_ok, Nat.mul_comm, e']

/-- **C106**: a curve that is a B-spline on the knots of `n` poles is returned as this B-spline, whatever the tolerances. -/
theorem C106_exact (ho : Spec.FitOk o crv) (hc : Spec.Valued crv) (knots : List K) (dev tol : K) (hp1 : 1 ≤ p) (hp : p ≤ stackMaxDegree) (hpn : p + 1 ≤ n)
    (hn : n < np) (h5 : 5 ≤ np) {k : List K} (hk : Spec.StartKnots crv.b0 crv.b1 p n k) {c : Curve K (Fin dim → K)} (hon : Spec.OnKnots k p c)
    (hv : ∀ t, crv.b0 ≤ t → t ≤ crv.b1 → ∀ junk, c.value o.eps junk t 0 = crv.value t 0) : approxCurveTolPoles o knots crv dev tol p n np = .ok c := by
  obtain ⟨Q, u, e, hs, -⟩ := C106_samples ho hc knots dev (np := np) (by omega) approxMaxSamplePoints
  unfold approxCurveTolPoles sampleByDeviation
  rw [e, R_bind_ok, (fit_exact ho hc.lt hs hp1 hp hpn hn h5 tol hk hon hv).2]

theorem exists_startKnots {a b : K} (hab : a < b) (hpn : p + 1 ≤ n) : ∃ k, Spec.StartKnots a b p n k := by
  obtain ⟨k, ek, lk, a0, a1, ai, hw⟩ := C54_uniform_knots (V := K) hpn hab
  have hW := hw (List.replicate n 0) (by simp)
  refine ⟨k, ⟨?_, fun j hj => (kf_of_some (a0 j hj)).2, fun j h1 h2 => (kf_of_some (a1 j h1 h2)).2, fun j h1 h2 => (kf_of_some (ai j h1 h2)).2⟩⟩
  have h2 := hW.last
  have hl : (List.replicate n (0 : K)).length = n := by simp
  rw [hl] at h2
  exact ⟨hW.sorted, by rw [lk], hpn, hW.first, h2⟩

/-- **C106**: a polynomial curve of degree at most `p` is reproduced at every parameter, by each of the approximations that keep the parameters, with the
number of poles they start with. -/
theorem C106_polynomial (ho : Spec.FitOk o crv) (hlt : crv.b0 < crv.b1) (knots : List K) (u1 u2 dev tol : K) (hp1 : 1 ≤ p) (hp : p ≤ stackMaxDegree) (hpn : p + 1 ≤ n)
    (hn : n < np) (h5 : 5 ≤ np) (A : ℕ → Fin dim → K) (hA : ∀ t, crv.b0 ≤ t → t ≤ crv.b1 → crv.value t 0 = .ok (∑ i ∈ Finset.range (p + 1), t ^ i • A i)) :
    (∃ c, approxCurveTolPoles o knots crv dev tol p n np = .ok c ∧ c.poles.length = n ∧ c.b0 = crv.b0 ∧ c.b1 = crv.b1 ∧
      ∀ t, crv.b0 ≤ t → t ≤ crv.b1 → ∀ junk, c.value o.eps junk t 0 = crv.value t 0) ∧
    (∃ c, approxCurveTol o knots crv dev tol p np = .ok c ∧ c.poles.length = max (np / 3) (p + 1) ∧ c.b0 = crv.b0 ∧ c.b1 = crv.b1 ∧
      ∀ t, crv.b0 ≤ t → t ≤ crv.b1 → ∀ junk, c.value o.eps junk t 0 = crv.value t 0) ∧
    (2 * p < np → ∃ c, approxCurveBetween o knots crv u1 u2 dev tol p np = .ok c ∧ c.poles.length = 2 * p ∧ c.b0 = crv.b0 ∧ c.b1 = crv.b1 ∧
      ∀ t, crv.b0 ≤ t → t ≤ crv.b1 → ∀ junk, c.value o.eps junk t 0 = crv.value t 0) := by
  have hc : Spec.Valued crv := ⟨hlt, fun t h0 h1 => ⟨_, hA t h0 h1⟩⟩
  have main : ∀ n, p + 1 ≤ n → n < np → ∃ c, approxCurveTolPoles o knots crv dev tol p n np = .ok c ∧ c.poles.length = n ∧ c.b0 = crv.b0 ∧ c.b1 = crv.b1 ∧
      ∀ t, crv.b0 ≤ t → t ≤ crv.b1 → ∀ junk, c.value o.eps junk t 0 = crv.value t 0 := by
    intro n hpn hn
    obtain ⟨k, hk⟩ := exists_startKnots hlt hpn
    obtain ⟨c, hon, e0, e1, hv⟩ := poly_curve ho.eps hk.wf hp A
    rw [hk.lo p le_rfl] at e0
    rw [hk.hi n le_rfl (by omega)] at e1
    have hv' : ∀ t, crv.b0 ≤ t → t ≤ crv.b1 → ∀ junk, c.value o.eps junk t 0 = crv.value t 0 := by
      intro t h0 h1 junk
      rw [hv t (by rw [e0]; exact h0) (by rw [e1]; exact h1), hA t h0 h1]
    exact ⟨c, C106_exact ho hc knots dev tol hp1 hp hpn hn h5 hk hon hv', OnKnots.poles hk.wf hon, e0, e1, hv'⟩
  refine ⟨main n hpn hn, ?_, ?_⟩
  · exact main _ (le_max_right _ _) (by omega)
  · intro h2
    obtain ⟨c, e, h⟩ := main (2 * p) (by omega) h2
    refine ⟨c, ?_, h⟩
    rw [← e]
    unfold approxCurveBetween approxCurveTolPoles defaultNPoles
    rw [Nat.mul_comm]

/-- **C106**: the approximation on given knots is the least squares of the samples among the curves on these knots that join the ends of the curve, and a
curve on these knots is returned as it is. -/
theorem C106_knots (ho : Spec.FitOk o crv) (hc : Spec.Valued crv) (knots : List K) (dev : K) (nMax : ℕ) (hp1 : 1 ≤ p) (hp : p ≤ stackMaxDegree) {k : List K}
    (hU : KWf p k n) (h0 : kf k 0 = kf k p) (h1 : kLast k = kf k n) (e0 : kf k p = crv.b0) (e1 : kf k n = crv.b1) (hn2 : 2 ≤ np) (hn : n ≤ np)
    (hdet : ∀ u : List K, (∀ i, i < np → Spec.evenly crv.b0 crv.b1 np i ∈ u) → Spec.Determines o.eps k p n u) :
    ∃ Q u c, Spec.Samples crv np Q u ∧ approxCurveKnots o knots crv p n k dev np nMax = .ok c ∧
      Spec.LeastSquares o.eps u Q (Spec.Family o.eps k p Q true) c ∧ c.b0 = crv.b0 ∧ c.b1 = crv.b1 ∧
      (∀ junk, c.value o.eps junk crv.b0 0 = crv.value crv.b0 0 ∧ c.value o.eps junk crv.b1 0 = crv.value crv.b1 0) ∧
      ∀ c', Spec.OnKnots k p c' → (∀ t, crv.b0 ≤ t → t ≤ crv.b1 → ∀ junk, c'.value o.eps junk t 0 = crv.value t 0) → c = c' := by
  obtain ⟨Q, u, e, hs, -⟩ := C106_samples ho hc knots dev (np := np) hn2 nMax
  obtain ⟨hu, k0, k1, hin, v0, v1⟩ := hs.ends
  have hmany := hs.many hc.lt hn2
  obtain ⟨c, ec, hl⟩ := C78_approx_with ho.eps o.junk hp1 hp hU h0 h1 hs.len (by omega) (by rw [e0, e1]; exact hin) (fix := true)
    (fun _ => ⟨by rw [e0, k0], by rw [e1, k1]⟩) (hdet u hs.even) ho.solves
  have hon := hl.1.1
  have hpl := OnKnots.poles hU hon
  have hb0 : ∀ c : Curve K (Fin dim → K), Spec.OnKnots k p c → c.b0 = crv.b0 := by
    intro c hon
    rw [hon.good.lo, hon.knots, hon.deg, e0]
  have hb1 : ∀ c : Curve K (Fin dim → K), Spec.OnKnots k p c → c.b1 = crv.b1 := by
    intro c hon
    rw [hon.good.hi, hon.knots, OnKnots.poles hU hon, e1]
  refine ⟨Q, u, c, hs, ?_, hl, hb0 c hon, hb1 c hon, ?_, ?_⟩
  · unfold approxCurveKnots
    rw [e, R_bind_ok]
    exact ec
  · intro junk
    have := hl.1.2 rfl junk
    rw [hb0 c hon, hb1 c hon] at this
    exact ⟨this.1.trans v0.symm, this.2.trans v1.symm⟩
  · intro c' hon' hv
    refine (least_exact hl ⟨hon', fun _ junk => ⟨?_, ?_⟩⟩ ?_).symm
    · rw [hb0 c' hon', hv _ le_rfl hc.lt.le, v0]
    · rw [hb1 c' hon', hv _ hc.lt.le le_rfl, v1]
    · intro i hi junk
      have hm := hin _ (kf_mem (by intro h; rw [h] at hi; simp at hi) i)
      rw [hv _ hm.1 hm.2, hs.point hi]

end keep

/-! ## The approximations with parameters of their own -/

section modes

/-- An approximation on the parameters of points, without the least squares. -/
theorem approxUniform_total {eps : K} (heps : 0 < eps) (junk : K) {dense : ℕ → (ℕ → ℕ → K) → List (Fin dim → K) → R (List (Fin dim → K))}
    (hA : Spec.AnswersDense dense) {p n : ℕ} (hp1 : 1 ≤ p) (hp : p ≤ stackMaxDegree) (hpn : p + 1 ≤ n) {u : List K} {Q : List (Fin dim → K)}
    (hlen : Q.length = u.length) (hn : n ≤ Q.length) (hu : u.Pairwise (· ≤ ·)) (h01 : kf u 0 < kf u (u.length - 1)) (fix : Bool) :
    ∃ k c, Spec.StartKnots (kf u 0) (kf u (u.length - 1)) p n k ∧ approxUniform eps junk dense Q p n u fix = .ok c ∧ Spec.Family eps k p Q fix c ∧
      Spec.RefineData u Q fix c := by
  have hin : ∀ x ∈ u, kf u 0 ≤ x ∧ x ≤ kf u (u.length - 1) := by
    intro x hx
    obtain ⟨i, hi⟩ := List.getElem?_of_mem hx
    obtain ⟨hi, rfl⟩ := kf_of_some hi
    exact ⟨kf_mono hu (by omega), kf_mono hu (by omega)⟩
  obtain ⟨k, ek, lk, a0, a1, ai, hw⟩ := C54_uniform_knots (V := K) hpn h01
  have hk : Spec.StartKnots (kf u 0) (kf u (u.length - 1)) p n k := by
    have hW := hw (List.replicate n 0) (by simp)
    refine ⟨?_, fun j hj => (kf_of_some (a0 j hj)).2, fun j h1 h2 => (kf_of_some (a1 j h1 h2)).2, fun j h1 h2 => (kf_of_some (ai j h1 h2)).2⟩
    have h2 := hW.last
    have hl : (List.replicate n (0 : K)).length = n := by simp
    rw [hl] at h2
    exact ⟨hW.sorted, by rw [lk], hpn, hW.first, h2⟩
  have hkl : kLast k = kf k n := by
    unfold kLast
    rw [lk, hk.hi n le_rfl (by omega)]
    exact hk.hi _ (by omega) (by omega)
  obtain ⟨c, e, hf⟩ := approxWith_total heps junk hp1 hp hk.wf (by rw [hk.lo 0 (by omega), hk.lo p le_rfl]) hkl hlen hn fix hA
  have hon := hf.1
  have hb0 : c.b0 = kf u 0 := by rw [hon.good.lo, hon.knots, hon.deg]; exact hk.lo p le_rfl
  have hb1 : c.b1 = kf u (u.length - 1) := by rw [hon.good.hi, hon.knots, OnKnots.poles hk.wf hon]; exact hk.hi _ le_rfl (by omega)
  refine ⟨k, c, hk, ?_, hf, hon.good, by rw [hon.deg]; exact hp1, by rw [hon.deg]; exact hp, ?_, ?_, hlen, by rw [hb0, hb1]; exact hin, fun _ => ⟨hb0.symm, hb1.symm⟩⟩
  · unfold approxUniform checkApproxSizes
    rw [if_neg (by omega), if_neg (by omega), R_pure, R_bind_ok, rd_kf (by omega), R_bind_ok, usub_ok (by omega), R_bind_ok, rd_kf (by omega), R_bind_ok,
      ek, R_bind_ok, e]
  · rw [hon.knots, hb0]; exact hk.lo 0 (by omega)
  · rw [hon.knots, hkl, hb1]; exact hk.hi _ le_rfl (by omega)

/-- The parameters of samples for a mode: they start at zero and increase by what the mode asks for. -/
structure Spec.ModeParams (mode : KnotsCalcMode) (Q : List (Fin dim → ℝ)) (v : List ℝ) : Prop where
  len : v.length = Q.length
  zero : kf v 0 = 0
  sorted : v.Pairwise (· ≤ ·)
  step : ∀ i, i + 1 < Q.length → kf v (i + 1) - kf v i = Spec.segLen Q.length mode (pf Q i) (pf Q (i + 1))

/-- A curve is not a single point at its evenly spaced parameters. -/
def Spec.Spread {V : Type} (crv : ACurve K V) (np : ℕ) : Prop := ∃ i, i < np ∧ crv.value (Spec.evenly crv.b0 crv.b1 np i) 0 ≠ crv.value crv.b0 0

variable {o : FitArgs ℝ (Fin dim → ℝ)} {crv : ACurve ℝ (Fin dim → ℝ)} {p n np : ℕ}

theorem eDist_eq_dist (a b : Fin dim → ℝ) : eDist a b = dist (WithLp.toLp 2 a : EuclideanSpace ℝ (Fin dim)) (WithLp.toLp 2 b) := by
  unfold eDist
  rw [EuclideanSpace.dist_eq]
  congr 1
  refine Finset.sum_congr rfl fun i _ => ?_
  rw [Real.dist_eq, sq_abs]

theorem mode_params (hq : ∀ a b, o.nrm (a - b) = eDist a b) (hr : o.sqrt = Real.sqrt) {Q : List (Fin dim → ℝ)} {u : List ℝ} (hs : Spec.Samples crv np Q u)
    (hlt : crv.b0 < crv.b1) (hn : 2 ≤ np) (hsp : Spec.Spread crv np) (mode : KnotsCalcMode) :
    ∃ v, curveParametrization o.eps (fun a b => o.nrm (a - b)) o.sqrt Q mode false = .ok v ∧ Spec.ModeParams mode Q v ∧ 0 < kf v (v.length - 1) := by
  have hmany := hs.many hlt hn
  obtain ⟨v, e, hl, h0, hsrt, -, hst⟩ := C34_parametrization o.eps Q (by intro h; rw [h] at hmany; simp at hmany; omega) mode
  have hfun : (fun a b => o.nrm (a - b)) = (eDist : (Fin dim → ℝ) → (Fin dim → ℝ) → ℝ) := by
    funext a b
    exact hq a b
  have hget : ∀ i, i < Q.length → Q[i]? = some (pf Q i) := by
    intro i hi
    unfold pf
    rw [List.getD_eq_getElem?_getD, List.getElem?_eq_getElem hi]
    rfl
  have hstep : ∀ i, i + 1 < Q.length → kf v (i + 1) - kf v i = Spec.segLen Q.length mode (pf Q i) (pf Q (i + 1)) := by
    intro i hi
    obtain ⟨s, t, es, et, h⟩ := hst i _ _ (hget i (by omega)) (hget (i + 1) hi)
    rw [(kf_of_some es).2, (kf_of_some et).2, h]
  have hz : kf v 0 = 0 := by
    rw [List.head?_eq_getElem?] at h0
    exact (kf_of_some h0).2
  refine ⟨v, by rw [hfun, hr, e], ⟨hl, hz, hsrt, hstep⟩, ?_⟩
  by_contra hneg
  -- all the parameters are null, hence all the points are the same
  have hall : ∀ i, i < Q.length → kf v i = 0 := by
    intro i hi
    have h1 := kf_mono hsrt (Nat.zero_le i)
    have h2 := kf_mono hsrt (show i ≤ v.length - 1 by omega)
    rw [hz] at h1
    linarith [not_lt.mp hneg]
  have hsame : ∀ i, i < Q.length → pf Q i = pf Q 0 := by
    intro i
    induction i with
    | zero => intro _; rfl
    | succ i ih =>
      intro hi
      rw [← ih (by omega)]
      have h := hstep i hi
      rw [hall i (by omega), hall (i + 1) hi, sub_zero] at h
      by_contra hne
      have hpos := eDist_pos hne
      cases mode with
      | equallySpaced =>
        have : (0 : ℝ) < 1 / ((Q.length : ℝ) - 1) := by
          have : (2 : ℝ) ≤ Q.length := by exact_mod_cast (by omega : 2 ≤ Q.length)
          apply one_div_pos.mpr
          linarith
        simp only [Spec.segLen] at h
        linarith
      | chordLength =>
        simp only [Spec.segLen] at h
        linarith
      | centripetal =>
        have := Real.sqrt_pos.mpr hpos
        simp only [Spec.segLen] at h
        linarith
  obtain ⟨i, hi, hne⟩ := hsp
  obtain ⟨j, hj⟩ := List.getElem?_of_mem (hs.even i hi)
  obtain ⟨hj, ej⟩ := kf_of_some hj
  have h1 := hs.point hj
  rw [ej, hsame j (by rw [hs.len]; exact hj)] at h1
  exact hne (h1.trans hs.ends.2.2.2.2.1.symm)

/-- What the approximations with parameters of their own return: a curve with the ends of the given one, on parameters from zero to the sum of the lengths
of the mode. -/
structure Spec.ModeFit (eps : ℝ) (crv : ACurve ℝ (Fin dim → ℝ)) (p : ℕ) (mode : KnotsCalcMode) (Q : List (Fin dim → ℝ)) (c : Curve ℝ (Fin dim → ℝ)) : Prop where
  good : c.Good
  deg : c.deg = p
  lo : c.b0 = 0
  hi : c.b1 = ∑ i ∈ Finset.range (Q.length - 1), Spec.segLen Q.length mode (pf Q i) (pf Q (i + 1))
  pos : 0 < c.b1
  first : ∀ junk, c.value eps junk c.b0 0 = crv.value crv.b0 0
  last : ∀ junk, c.value eps junk c.b1 0 = crv.value crv.b1 0

theorem Spec.ModeParams.sum {mode : KnotsCalcMode} {Q : List (Fin dim → ℝ)} {v : List ℝ} (h : Spec.ModeParams mode Q v) {m : ℕ} (hm : m < Q.length) :
    kf v m = ∑ i ∈ Finset.range m, Spec.segLen Q.length mode (pf Q i) (pf Q (i + 1)) := by
  induction m with
  | zero => rw [h.zero, Finset.sum_range_zero]
  | succ m ih =>
    rw [Finset.sum_range_succ, ← ih (by omega), ← h.step m hm]
    ring

/-- **C106**: the approximation with a mode of parametrization: the result goes from the start to the end of the curve, on parameters of its own. -/
theorem C106_mode (ho : Spec.FitOk o crv) (hc : Spec.Valued crv) (hq : ∀ a b, o.nrm (a - b) = eDist a b) (hr : o.sqrt = Real.sqrt) (knots : List ℝ) (dev : ℝ)
    (hp1 : 1 ≤ p) (hp : p ≤ stackMaxDegree) (hn : 2 * p < np) (h5 : 5 ≤ np) (hsp : Spec.Spread crv np) (mode : KnotsCalcMode) :
    ∃ Q u c, Spec.Samples crv np Q u ∧ approxCurve o knots crv dev p mode np = .ok c ∧ Spec.ModeFit o.eps crv p mode Q c ∧ 2 * p ≤ c.poles.length := by
  obtain ⟨Q, u, e, hs, -⟩ := C106_samples ho hc knots dev (np := np) (by omega) approxMaxSamplePoints
  obtain ⟨v, ev, hv, hpos⟩ := mode_params hq hr hs hc.lt (by omega) hsp mode
  have hmany := hs.many hc.lt (by omega)
  obtain ⟨-, -, -, -, v0, v1⟩ := hs.ends
  obtain ⟨k, c0, hk, e0, hf, hD⟩ := approxUniform_total ho.eps o.junk ho.answers hp1 hp (n := 2 * p) (by omega) hv.len.symm (by omega) hv.sorted
    (by rw [hv.zero]; exact hpos) true
  have hl := OnKnots.poles hk.wf hf.1
  obtain ⟨c, ins, e', hrf, -, -⟩ := C79_refine ho.eps o.junk (norm := o.nrm) ho.frac ho.solves ho.answers hD (by omega) (by omega) (1 / 1000) (1 / 10000) approxMaxIter
  have hfam : ∀ junk, c.value o.eps junk c.b0 0 = .ok (pf Q 0) ∧ c.value o.eps junk c.b1 0 = .ok (pf Q (Q.length - 1)) := by
    by_cases h0 : ins = []
    · rw [hrf.same h0]
      exact hf.2 rfl
    · exact (hrf.family h0).2 rfl
  have hb1 : c.b1 = kf v (v.length - 1) := by rw [hrf.hi, ← (hD.ends rfl).2]
  refine ⟨Q, u, c, hs, ?_, ⟨hrf.good, hrf.deg.trans hf.1.deg, ?_, ?_, by rw [hb1]; exact hpos, ?_, ?_⟩, ?_⟩
  · unfold approxCurve sampleByDeviation approxPoints approxRefined defaultNPoles
    rw [e, R_bind_ok, ev, R_bind_ok, Nat.mul_comm, e0, R_bind_ok, e']
  · rw [hrf.lo, ← (hD.ends rfl).1, hv.zero]
  · rw [hb1, hv.len, hv.sum (by omega)]
  · intro junk
    rw [(hfam junk).1, v0]
  · intro junk
    rw [(hfam junk).2, v1]
  · rw [hrf.poles, hl]; omega

/-- **C106**: the approximation with a number of poles and a mode: the number of poles is checked, and the result has this number of poles. -/
theorem C106_mode_poles (ho : Spec.FitOk o crv) (hc : Spec.Valued crv) (hq : ∀ a b, o.nrm (a - b) = eDist a b) (hr : o.sqrt = Real.sqrt) (knots : List ℝ) (dev : ℝ)
    (hp1 : 1 ≤ p) (hp : p ≤ stackMaxDegree) (hsp : Spec.Spread crv (n * 10)) (mode : KnotsCalcMode) :
    (n < p + 1 → approxCurvePoles o knots crv dev n p mode = .error (.thrown .length)) ∧
    (p + 1 ≤ n → ∃ Q u c, Spec.Samples crv (n * 10) Q u ∧ approxCurvePoles o knots crv dev n p mode = .ok c ∧ Spec.ModeFit o.eps crv p mode Q c ∧
      c.poles.length = n) := by
  constructor
  · intro h
    unfold approxCurvePoles
    rw [if_pos h]
  · intro hpn
    obtain ⟨Q, u, e, hs, -⟩ := C106_samples ho hc knots dev (np := n * 10) (by omega) approxMaxSamplePoints
    obtain ⟨v, ev, hv, hpos⟩ := mode_params hq hr hs hc.lt (by omega) hsp mode
    have hmany := hs.many hc.lt (by omega)
    obtain ⟨-, -, -, -, v0, v1⟩ := hs.ends
    obtain ⟨k, c, hk, e0, hf, hD⟩ := approxUniform_total ho.eps o.junk ho.answers hp1 hp (n := n) hpn hv.len.symm (by omega) hv.sorted
      (by rw [hv.zero]; exact hpos) true
    have hb1 : c.b1 = kf v (v.length - 1) := by rw [← (hD.ends rfl).2]
    refine ⟨Q, u, c, hs, ?_, ⟨hf.1.good, hf.1.deg, ?_, ?_, by rw [hb1]; exact hpos, ?_, ?_⟩, OnKnots.poles hk.wf hf.1⟩
    · unfold approxCurvePoles sampleByDeviation approxPointsPoles
      rw [if_neg (by omega), e, R_bind_ok, ev, R_bind_ok, e0]
    · rw [← (hD.ends rfl).1, hv.zero]
    · rw [hb1, hv.len, hv.sum (by omega)]
    · intro junk
      rw [(hf.2 rfl junk).1, v0]
    · intro junk
      rw [(hf.2 rfl junk).2, v1]

/-- **C106**: with the lengths of the chords, the parameters of the result span at least the distance of the ends of the curve, whatever its bounds. -/
theorem C106_chord_bounds {Q : List (Fin dim → ℝ)} {u : List ℝ} (hs : Spec.Samples crv np Q u) {c : Curve ℝ (Fin dim → ℝ)}
    (h : Spec.ModeFit o.eps crv p .chordLength Q c) {a b : Fin dim → ℝ} (ha : crv.value crv.b0 0 = .ok a) (hb : crv.value crv.b1 0 = .ok b) : eDist a b ≤ c.b1 := by
  obtain ⟨hu, -, -, -, v0, v1⟩ := hs.ends
  rw [ha] at v0
  rw [hb] at v1
  rw [Except.ok.inj v0, Except.ok.inj v1, h.hi]
  have main : ∀ m, eDist (pf Q 0) (pf Q m) ≤ ∑ i ∈ Finset.range m, Spec.segLen Q.length .chordLength (pf Q i) (pf Q (i + 1)) := by
    intro m
    induction m with
    | zero => rw [eDist_eq_dist, dist_self, Finset.sum_range_zero]
    | succ m ih =>
      rw [Finset.sum_range_succ]
      simp only [Spec.segLen] at ih ⊢
      have := dist_triangle (WithLp.toLp 2 (pf Q 0) : EuclideanSpace ℝ (Fin dim)) (WithLp.toLp 2 (pf Q m)) (WithLp.toLp 2 (pf Q (m + 1)))
      rw [dist_comm (WithLp.toLp 2 (pf Q m)), ← eDist_eq_dist, ← eDist_eq_dist, ← eDist_eq_dist] at this
      linarith
  exact main _

/-- **C106**: `to_bs_curve` returns a `BSCurve` as it is, and otherwise an approximation with the ends of the curve, on parameters of its own: its bounds
are not those of the curve when the distance of the ends is larger. -/
theorem C106_to_bs_curve (hq : ∀ a b, o.nrm (a - b) = eDist a b) (hr : o.sqrt = Real.sqrt) (dev : ℝ) (hp1 : 1 ≤ p) (hp : p ≤ stackMaxDegree) (hn : 2 * p < np)
    (h5 : 5 ≤ np) (mode : KnotsCalcMode) :
    (∀ c, toBsCurve o (.bs c) dev np p mode = .ok c) ∧
    ∀ (crv : ACurve ℝ (Fin dim → ℝ)) (knots : List ℝ), Spec.FitOk o crv → Spec.Valued crv → Spec.Spread crv np →
      ∃ Q u c, Spec.Samples crv np Q u ∧ toBsCurve o (.other knots crv) dev np p mode = .ok c ∧ Spec.ModeFit o.eps crv p mode Q c ∧
        (mode = .chordLength → ∀ a b, crv.value crv.b0 0 = .ok a → crv.value crv.b1 0 = .ok b → crv.b1 < eDist a b → c.b1 ≠ crv.b1) := by
  refine ⟨fun c => rfl, ?_⟩
  intro crv knots ho hc hsp
  obtain ⟨Q, u, c, hs, e, hf, -⟩ := C106_mode ho hc hq hr knots dev hp1 hp hn h5 hsp mode
  refine ⟨Q, u, c, hs, e, hf, ?_⟩
  rintro rfl a b ha hb hlt heq
  have := C106_chord_bounds hs hf ha hb
  linarith

end modes

/-! ## Uniformly spaced points -/

section uniform
variable {o : FitArgs K (Fin dim → K)} {crv : ACurve K (Fin dim → K)} {p np : ℕ}

/-- **C106**: the approximation at uniformly spaced points: the distribution fails, or the result has twice the degree poles, the bounds and the ends of the
curve, and it is the least squares when the parameters determine it. -/
theorem C106_uniform (ho : Spec.FitOk o crv) (hc : Spec.Valued crv) {a : InterpArgs K} (ha : Spec.InterpOk a) {len : K → K → R K} {l : K → K → K}
    (hlen : Spec.Lengths len l crv.b0 crv.b1) (hmov : Spec.Moving l crv.b0 crv.b1) (hp1 : 1 ≤ p) (hp : p ≤ stackMaxDegree) (hn : 2 * p ≤ np) :
    approxCurveUniform o a len crv p np = .error (.thrown .length) ∨
    ∃ u Q k c, uniformParams a len crv crv.b0 crv.b1 np 30 = .ok u ∧ u.length = np ∧ (∀ i, i < np → crv.value (kf u i) 0 = .ok (pf Q i)) ∧
      approxCurveUniform o a len crv p np = .ok c ∧ Spec.StartKnots crv.b0 crv.b1 p (2 * p) k ∧ Spec.OnKnots k p c ∧ c.poles.length = 2 * p ∧
      c.b0 = crv.b0 ∧ c.b1 = crv.b1 ∧
      (∀ junk, c.value o.eps junk crv.b0 0 = crv.value crv.b0 0 ∧ c.value o.eps junk crv.b1 0 = crv.value crv.b1 0) ∧
      (Spec.Determines o.eps k p (2 * p) u → Spec.LeastSquares o.eps u Q (Spec.Family o.eps k p Q true) c) := by
  obtain ⟨-, u, -, hl, h0, h1, -, e⟩ := (C104_params ha hc.lt hlen hmov crv (n := np) (nLaw := 30) (by omega)).1 (by omega)
  by_cases hs : u.Pairwise (· ≤ ·)
  swap
  · left
    rw [if_neg hs] at e
    unfold approxCurveUniform
    rw [e]
    rfl
  right
  rw [if_pos hs] at e
  have k0 := (kf_of_some h0).2
  have k1 : kf u (u.length - 1) = crv.b1 := by rw [hl]; exact (kf_of_some h1).2
  have hin : ∀ t ∈ u, crv.b0 ≤ t ∧ t ≤ crv.b1 := by
    intro t ht
    obtain ⟨i, hi⟩ := List.getElem?_of_mem ht
    obtain ⟨hi, rfl⟩ := kf_of_some hi
    rw [← k0, ← k1]
    exact ⟨kf_mono hs (by omega), kf_mono hs (by omega)⟩
  obtain ⟨Q, eQ⟩ := mapM_exists (f := fun t => crv.value t 0) u fun t ht => hc.value t (hin t ht).1 (hin t ht).2
  obtain ⟨lQ, hQ⟩ := mapM_inv eQ
  have hpt : ∀ i, i < np → crv.value (kf u i) 0 = .ok (pf Q i) := by
    intro i hi
    obtain ⟨q, e, hq⟩ := hQ i _ (kf_getElem? (by omega))
    rw [e]
    unfold pf
    rw [List.getD_eq_getElem?_getD, hq]
    rfl
  obtain ⟨k, c, hk, ec, hf, hD⟩ := approxUniform_total ho.eps o.junk ho.answers hp1 hp (n := 2 * p) (by omega) lQ (by omega) hs (by rw [k0, k1]; exact hc.lt) true
  rw [k0, k1] at hk
  have hb0 : c.b0 = crv.b0 := by rw [← (hD.ends rfl).1, k0]
  have hb1 : c.b1 = crv.b1 := by rw [← (hD.ends rfl).2, k1]
  refine ⟨u, Q, k, c, e, hl, hpt, ?_, hk, hf.1, OnKnots.poles hk.wf hf.1, hb0, hb1, ?_, ?_⟩
  · unfold approxCurveUniform defaultNPoles
    rw [e, R_bind_ok, eQ, R_bind_ok, Nat.mul_comm, ec]
  · intro junk
    have h := hf.2 rfl junk
    have a0 := hpt 0 (by omega)
    have a1 := hpt (np - 1) (by omega)
    rw [k0] at a0
    rw [show kf u (np - 1) = crv.b1 by rw [← hl]; exact k1] at a1
    rw [hb0, hb1, lQ, hl] at h
    exact ⟨h.1.trans a0.symm, h.2.trans a1.symm⟩
  · intro hdet
    obtain ⟨k', hU, b0, b1, bi, h⟩ := C78_approx_uniform ho.eps o.junk hp1 hp (n := 2 * p) (by omega) lQ (by omega) (by rw [k0, k1]; exact hc.lt)
      (by rw [k0, k1]; exact hin) true ho.solves
    rw [k0] at b0 bi
    rw [k1] at b1 bi
    obtain rfl := hk.unique ⟨hU, b0, b1, bi⟩
    obtain ⟨c', e', h'⟩ := h hdet
    rw [ec] at e'
    obtain rfl := Except.ok.inj e'
    exact h'

/-- **C106**: a curve of constant speed: the parameters determine the approximation, and a line is returned as this line. -/
theorem C106_uniform_constant_speed (ho : Spec.FitOk o crv) (hc : Spec.Valued crv) {a : InterpArgs K} (ha : Spec.InterpOk a) {len : K → K → R K} {v : K} (hv : 0 < v)
    (hlen : Spec.Lengths len (fun x y => v * (y - x)) crv.b0 crv.b1) (hp1 : 1 ≤ p) (hp : p ≤ stackMaxDegree) (hn : 2 * p ≤ np) :
    ∃ Q u k c, Spec.Samples crv np Q u ∧ approxCurveUniform o a len crv p np = .ok c ∧ Spec.StartKnots crv.b0 crv.b1 p (2 * p) k ∧
      Spec.LeastSquares o.eps u Q (Spec.Family o.eps k p Q true) c ∧
      ∀ A B : Fin dim → K, (∀ t, crv.b0 ≤ t → t ≤ crv.b1 → crv.value t 0 = .ok (A + t • B)) →
        ∀ t, crv.b0 ≤ t → t ≤ crv.b1 → ∀ junk, c.value o.eps junk t 0 = .ok (A + t • B) := by
  have hlt := hc.lt
  obtain ⟨-, e⟩ := C104_constant_speed ha hv hlt hlen crv (n := np) (nLaw := 30) (p := 3) (by omega) (by omega) (by decide)
  have e := e (by omega)
  set u : List K := (List.range np).map (Spec.evenly crv.b0 crv.b1 np) with hu
  have e : uniformParams a len crv crv.b0 crv.b1 np 30 = .ok u := by
    rw [e, hu]
    congr 2
    funext i
    unfold Spec.sample Spec.evenly
    ring
  have hul : u.length = np := by simp [hu]
  have hui : ∀ i, i < np → u[i]? = some (Spec.evenly crv.b0 crv.b1 np i) := by
    intro i hi
    rw [hu, List.getElem?_map, List.getElem?_range hi]
    rfl
  have hs : u.Pairwise (· ≤ ·) := by
    rw [hu, List.pairwise_map]
    exact List.Pairwise.imp (fun h => (evenly_lt hlt (by omega) h).le) List.pairwise_lt_range
  have k0 : kf u 0 = crv.b0 := by rw [(kf_of_some (hui 0 (by omega))).2, evenly_zero]
  have k1 : kf u (u.length - 1) = crv.b1 := by rw [hul, (kf_of_some (hui (np - 1) (by omega))).2, evenly_last _ _ (by omega)]
  have hin : ∀ t ∈ u, crv.b0 ≤ t ∧ t ≤ crv.b1 := by
    intro t ht
    obtain ⟨i, hi⟩ := List.getElem?_of_mem ht
    obtain ⟨hi, rfl⟩ := kf_of_some hi
    rw [← k0, ← k1]
    exact ⟨kf_mono hs (by omega), kf_mono hs (by omega)⟩
  obtain ⟨Q, eQ⟩ := mapM_exists (f := fun t => crv.value t 0) u fun t ht => hc.value t (hin t ht).1 (hin t ht).2
  obtain ⟨lQ, hQ⟩ := mapM_inv eQ
  have hsm : Spec.Samples crv np Q u := by
    refine ⟨lQ, hQ, hs, ?_, ?_, fun i hi => List.mem_of_getElem? (hui i hi)⟩
    · rw [List.head?_eq_getElem?, kf_getElem? (by omega), k0]
    · rw [List.getLast?_eq_getElem?, kf_getElem? (by omega), k1]
  obtain ⟨k, c, hk, -, ec, hl, -⟩ := fit_first ho hlt hsm hp1 hp (n := 2 * p) (by omega) hn
  refine ⟨Q, u, k, c, hsm, ?_, hk, hl, ?_⟩
  · unfold approxCurveUniform defaultNPoles
    rw [e, R_bind_ok, eQ, R_bind_ok, Nat.mul_comm, ec]
  · intro A B hAB t h0 h1 junk
    have ep : ∀ t : K, ∑ k ∈ Finset.range (p + 1), t ^ k • (if k = 0 then A else if k = 1 then B else 0) = A + t • B := by
      intro t
      obtain ⟨q, rfl⟩ : ∃ q, p = q + 1 := ⟨p - 1, by omega⟩
      rw [Finset.sum_range_succ', Finset.sum_range_succ', Finset.sum_eq_zero]
      · simp [add_comm]
      · intro k _
        rw [if_neg (by omega), if_neg (by omega), smul_zero]
    obtain ⟨c', hon, e0, e1, hval⟩ := poly_curve ho.eps hk.wf hp (fun k => if k = 0 then A else if k = 1 then B else (0 : Fin dim → K))
    rw [hk.lo p le_rfl] at e0
    rw [hk.hi _ le_rfl (by omega)] at e1
    rw [e0, e1] at hval
    obtain ⟨-, -, -, -, v0, v1⟩ := hsm.ends
    have : c' = c := by
      refine least_exact hl ⟨hon, fun _ junk => ⟨?_, ?_⟩⟩ ?_
      · rw [e0, hval _ le_rfl hlt.le, ep, ← v0, hAB _ le_rfl hlt.le]
      · rw [e1, hval _ hlt.le le_rfl, ep, ← v1, hAB _ hlt.le le_rfl]
      · intro i hi junk
        have hm := hin _ (kf_mem (by intro h; rw [h] at hi; simp at hi) i)
        rw [hval _ hm.1 hm.2, ep, ← hsm.point hi, hAB _ hm.1 hm.2]
    rw [← this, hval t h0 h1, ep]

end uniform

/-! ## Examples -/

namespace Sample

/-- The line twice as fast as its parameter. -/
noncomputable def fastLine : ACurve ℝ (Fin 1 → ℝ) := ⟨0, 1, fun t _ => .ok ![2 * t]⟩

/-- A parabola. -/
noncomputable def parabola1 : ACurve ℝ (Fin 1 → ℝ) := ⟨0, 1, fun t _ => .ok ![t ^ 2]⟩

/-- A way back and forth. -/
noncomputable def hat1 : ACurve ℝ (Fin 1 → ℝ) := ⟨0, 1, fun t _ => .ok ![1 - |2 * t - 1|]⟩

noncomputable def fitArgs : FitArgs ℝ (Fin 1 → ℝ) :=
  ⟨1 / 1000, 7, fun v => |v 0|, fun _ _ => 0, Real.sqrt, 1 / 10, Classical.choose (exists_answersDense (K := ℝ) (V := Fin 1 → ℝ)), 20⟩

theorem fitArgs_ok {crv : ACurve ℝ (Fin 1 → ℝ)} (h0 : crv.b0 = 0) (h1 : crv.b1 = 1) : Spec.FitOk fitArgs crv := by
  have h := Classical.choose_spec (exists_answersDense (K := ℝ) (V := Fin 1 → ℝ))
  refine ⟨by norm_num [fitArgs], by norm_num [fitArgs], ⟨fun v => abs_nonneg _, fun v w _ => rfl⟩, by simp [fitArgs], h.1, h.2, 10, ?_, by norm_num [fitArgs]⟩
  rw [h0, h1]
  norm_num [fitArgs]

theorem fitArgs_dist (a b : Fin 1 → ℝ) : fitArgs.nrm (a - b) = eDist a b := by
  simp [fitArgs, eDist, Real.sqrt_sq_eq_abs]

theorem fastLine_valued : Spec.Valued fastLine := ⟨one_pos, fun _ _ _ => ⟨_, rfl⟩⟩
theorem parabola1_valued : Spec.Valued parabola1 := ⟨one_pos, fun _ _ _ => ⟨_, rfl⟩⟩
theorem hat1_valued : Spec.Valued hat1 := ⟨one_pos, fun _ _ _ => ⟨_, rfl⟩⟩

theorem fastLine_spread : Spec.Spread fastLine 30 := by
  refine ⟨29, by norm_num, ?_⟩
  show Except.ok ![2 * Spec.evenly (0 : ℝ) 1 30 29] ≠ Except.ok ![2 * (0 : ℝ)]
  intro h
  have := congrFun (Except.ok.inj h) 0
  simp [Spec.evenly] at this
  norm_num at this

theorem hat1_spread : Spec.Spread hat1 30 := by
  refine ⟨1, by norm_num, ?_⟩
  show Except.ok ![1 - |2 * Spec.evenly (0 : ℝ) 1 30 1 - 1|] ≠ Except.ok ![1 - |2 * (0 : ℝ) - 1|]
  intro h
  have := congrFun (Except.ok.inj h) 0
  simp [Spec.evenly] at this
  norm_num [abs_of_neg] at this

/-- The approximations of a way back and forth, of degree two. -/
example : ∃ Q u c, Spec.Samples hat1 30 Q u ∧ approxCurveTol fitArgs [] hat1 (1 / 100) (1 / 1000) 2 30 = .ok c ∧ Spec.CurveFit fitArgs.eps hat1 2 10 Q u c :=
  C106_tol (fitArgs_ok rfl rfl) hat1_valued [] _ _ (by norm_num) (by decide) (by norm_num) (by norm_num)

/-- The approximation between a quarter and a half is that of the whole curve. -/
theorem _root_.Gbs.C106_between_witness : ∃ c, approxCurveBetween fitArgs [] hat1 (1 / 4) (1 / 2) (1 / 100) (1 / 1000) 2 30 = .ok c ∧ c.b0 = 0 ∧ c.b1 = 1 := by
  obtain ⟨Q, u, c, hs, e, hf, -⟩ := C106_between (fitArgs_ok rfl rfl) hat1_valued [] (1 / 4) (1 / 2) (1 / 100) (1 / 1000) (p := 2) (np := 30) (by norm_num) (by decide)
    (by norm_num) (by norm_num)
  exact ⟨c, e, hf.lo, hf.hi⟩

example : ∃ Q u c, Spec.Samples hat1 30 Q u ∧ approxCurveMapped fitArgs [] hat1 (fun x => x + x) (1 / 100) (1 / 1000) 2 30 = .ok c ∧
    Spec.CurveFit fitArgs.eps (Spec.image hat1 fun x => x + x) 2 4 (Q.map fun x => x + x) u c :=
  C106_mapped (fitArgs_ok rfl rfl) hat1_valued [] _ _ _ (by norm_num) (by decide) (by norm_num) (by norm_num)

/-- The parabola is reproduced. -/
example : ∃ c, approxCurveTol fitArgs [] parabola1 (1 / 100) (1 / 1000) 3 30 = .ok c ∧ c.poles.length = 10 ∧ c.value fitArgs.eps 0 (1 / 2) 0 = .ok ![1 / 4] := by
  obtain ⟨-, ⟨c, e, hl, -, -, hv⟩, -⟩ := C106_polynomial (crv := parabola1) (fitArgs_ok rfl rfl) one_pos [] 0 0 (1 / 100) (1 / 1000) (p := 3) (n := 4) (np := 30) (by norm_num)
    (by decide) (by norm_num) (by norm_num) (by norm_num) (fun i => if i = 2 then ![1] else 0) (by
      intro t _ _
      show Except.ok ![t ^ 2] = _
      congr 1
      simp [Finset.sum_range_succ])
  refine ⟨c, e, hl, ?_⟩
  rw [hv (1 / 2) (by norm_num [parabola1]) (by norm_num [parabola1])]
  show Except.ok ![((1 : ℝ) / 2) ^ 2] = _
  norm_num

/-- The knots of the first approximation, imposed. -/
example : ∃ k Q u c, Spec.Samples hat1 30 Q u ∧ approxCurveKnots fitArgs [] hat1 2 4 k (1 / 100) 30 5000 = .ok c ∧
    Spec.LeastSquares fitArgs.eps u Q (Spec.Family fitArgs.eps k 2 Q true) c := by
  obtain ⟨k, hk⟩ := exists_startKnots (p := 2) (n := 4) (one_pos : (0 : ℝ) < 1) (by norm_num)
  have ho : Spec.FitOk fitArgs hat1 := fitArgs_ok rfl rfl
  obtain ⟨Q, u, c, hs, e, hl, -⟩ := C106_knots (np := 30) ho hat1_valued [] (1 / 100) 5000 (by norm_num) (by decide) hk.wf (by rw [hk.lo 0 (by omega), hk.lo 2 le_rfl])
    (by
      unfold kLast
      rw [hk.wf.len, hk.hi 4 le_rfl (by omega)]
      exact hk.hi _ (by omega) (by omega))
    (hk.lo 2 le_rfl) (hk.hi 4 le_rfl (by omega)) (by norm_num) (by norm_num)
    (fun u hu => C106_determines ho.eps (by norm_num) (by decide) one_pos hk (by norm_num) hu)
  exact ⟨k, Q, u, c, hs, e, hl⟩

example : ∃ Q u c, Spec.Samples hat1 30 Q u ∧ approxCurve fitArgs [] hat1 (1 / 100) 2 .centripetal 30 = .ok c ∧ Spec.ModeFit fitArgs.eps hat1 2 .centripetal Q c ∧
    2 * 2 ≤ c.poles.length :=
  C106_mode (fitArgs_ok rfl rfl) hat1_valued fitArgs_dist rfl [] _ (by norm_num) (by decide) (by norm_num) (by norm_num) hat1_spread _

example : ∃ Q u c, Spec.Samples hat1 30 Q u ∧ approxCurvePoles fitArgs [] hat1 (1 / 100) 3 2 .chordLength = .ok c ∧
    Spec.ModeFit fitArgs.eps hat1 2 .chordLength Q c ∧ c.poles.length = 3 :=
  (C106_mode_poles (n := 3) (p := 2) (fitArgs_ok rfl rfl) hat1_valued fitArgs_dist rfl [] _ (by norm_num) (by decide) hat1_spread _).2 (by norm_num)

/-- **C106**, negation of the claim of the bounds: the line from 0 to 2 with the bounds 0 and 1 becomes a B-spline with other bounds. -/
theorem _root_.Gbs.C106_bounds_witness : ∃ c, toBsCurve fitArgs (.other [] fastLine) (1 / 100) 30 2 .chordLength = .ok c ∧ c.b1 ≠ fastLine.b1 := by
  obtain ⟨Q, u, c, -, e, -, h⟩ := (C106_to_bs_curve (o := fitArgs) (p := 2) (np := 30) fitArgs_dist rfl (1 / 100) (by norm_num) (by decide) (by norm_num) (by norm_num) .chordLength).2
    fastLine [] (fitArgs_ok rfl rfl) fastLine_valued fastLine_spread
  refine ⟨c, e, h rfl _ _ rfl rfl ?_⟩
  rw [← fitArgs_dist]
  norm_num [fitArgs, fastLine]

example (a : InterpArgs ℝ) (ha : Spec.InterpOk a) : approxCurveUniform fitArgs a (fun x y => .ok (y ^ 2 + y - (x ^ 2 + x))) fastLine 2 30 = .error (.thrown .length) ∨
    ∃ c, approxCurveUniform fitArgs a (fun x y => .ok (y ^ 2 + y - (x ^ 2 + x))) fastLine 2 30 = .ok c ∧ c.poles.length = 4 := by
  rcases C106_uniform (np := 30) (p := 2) (len := fun x y => .ok (y ^ 2 + y - (x ^ 2 + x))) (l := fun x y => y ^ 2 + y - (x ^ 2 + x))
    (fitArgs_ok (crv := fastLine) rfl rfl) fastLine_valued ha (fun _ _ _ _ _ => rfl) (by
      intro x y hx hxy _
      have hx : 0 ≤ x := hx
      show 0 < y ^ 2 + y - (x ^ 2 + x)
      nlinarith) (by norm_num) (by decide) (by norm_num) with h | ⟨u, Q, k, c, -, -, -, e, -, -, hl, -⟩
  · exact Or.inl h
  · exact Or.inr ⟨c, e, hl⟩

/-- A line at uniformly spaced points. -/
example (a : InterpArgs ℝ) (ha : Spec.InterpOk a) : ∃ c, approxCurveUniform fitArgs a (fun x y => .ok (2 * (y - x))) fastLine 2 30 = .ok c ∧
    c.value fitArgs.eps 0 (1 / 2) 0 = .ok ![1] := by
  obtain ⟨Q, u, k, c, hs, e, hk, hl, hv⟩ := C106_uniform_constant_speed (np := 30) (p := 2) (v := 2) (len := fun x y => .ok (2 * (y - x)))
    (fitArgs_ok (crv := fastLine) rfl rfl) fastLine_valued ha (by norm_num) (fun _ _ _ _ _ => rfl) (by norm_num) (by decide) (by norm_num)
  refine ⟨c, e, ?_⟩
  rw [hv 0 ![2] (by
    intro t _ _
    show Except.ok ![2 * t] = _
    congr 1
    simp [mul_comm]) (1 / 2) (by norm_num [fastLine]) (by norm_num [fastLine])]
  simp

end Sample

end Gbs
