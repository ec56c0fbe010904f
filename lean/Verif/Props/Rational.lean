import Verif.Lemmas.Rational
import Verif.Props.Evaluation
import Verif.Props.Reparam
import Mathlib.Algebra.CharZero.Infinite
import Mathlib.Algebra.Polynomial.Roots
import Mathlib.Algebra.BigOperators.Field

/-!
# Rational curves: C12–C15, C53

A rational curve is a `Curve K (V × K)` of homogeneous poles (weighted point, weight).
-/

namespace Gbs

set_option linter.unusedSectionVars false

open Polynomial

variable {K : Type} [Field K] [LinearOrder K] [IsStrictOrderedRing K]
variable {V : Type} [AddCommGroup V] [Module K V]

theorem pf_map {V W : Type} [AddCommGroup V] [AddCommGroup W] (f : V → W) {P : List V} {i : ℕ} (h : i < P.length) :
    pf (P.map f) i = f (pf P i) := by
  simp [pf, h]

theorem spanDer_fst (t : ℕ → K) (n p i : ℕ) (P : ℕ → V × K) (d : ℕ) (u : K) :
    (spanDer t n p i P d u).1 = spanDer t n p i (fun j => (P j).1) d u := by
  unfold spanDer
  rw [Prod.fst_sum]
  rfl

theorem spanDer_snd (t : ℕ → K) (n p i : ℕ) (P : ℕ → V × K) (d : ℕ) (u : K) :
    (spanDer t n p i P d u).2 = spanDer t n p i (fun j => (P j).2) d u := by
  unfold spanDer
  rw [Prod.snd_sum]
  rfl

theorem spanDer_congr_poles {t : ℕ → K} {n p i : ℕ} {P P' : ℕ → V} (h : ∀ j, j < n → P j = P' j) (d : ℕ) (u : K) :
    spanDer t n p i P d u = spanDer t n p i P' d u := by
  unfold spanDer
  apply Finset.sum_congr rfl
  intro j hj
  rw [h j (Finset.mem_range.mp hj)]

theorem spanDer_smul (t : ℕ → K) (n p i : ℕ) (P : ℕ → V) (s : K) (d : ℕ) (u : K) :
    spanDer t n p i (fun j => s • P j) d u = s • spanDer t n p i P d u := by
  unfold spanDer
  rw [Finset.smul_sum]
  apply Finset.sum_congr rfl
  intro j _
  rw [smul_smul, smul_smul, mul_comm]

theorem sum_Bp_eq_one {t : ℕ → K} (ht : Monotone t) {k n p : ℕ} (hk : t k < t (k+1)) (hp : p ≤ k) (hn : k < n) :
    ∑ j ∈ Finset.range n, Bp t k p j = 1 := by
  apply Polynomial.funext
  intro v
  rw [Polynomial.eval_finsetSum, eval_one]
  simp only [Bp_eval]
  exact sum_B_eq_one ht hk hp hn v

/-- All the derivatives of the basis functions sum to zero. -/
theorem spanDer_const {t : ℕ → K} (ht : Monotone t) {k n p : ℕ} (hk : t k < t (k+1)) (hp : p ≤ k) (hn : k < n)
    (s : V) (d : ℕ) (u : K) : spanDer t n p k (fun _ => s) d u = if d = 0 then s else 0 := by
  unfold spanDer
  rw [← Finset.sum_smul, ← Polynomial.eval_finsetSum]
  have : ∑ j ∈ Finset.range n, derivative^[d] (Bp t k p j) = derivative^[d] (∑ j ∈ Finset.range n, Bp t k p j) :=
    (Polynomial.iterate_derivative_sum d _ _).symm
  rw [this, sum_Bp_eq_one ht hk hp hn]
  cases d with
  | zero => simp
  | succ d => simp [Function.iterate_succ, Polynomial.iterate_derivative_zero]

theorem Curve.ratValue_inBounds {eps : K} (heps : 0 < eps) {c : Curve K (V × K)}
    {u : K} (h1 : c.b0 ≤ u) (h2 : u ≤ c.b1) (junk : K) (d : ℕ) :
    c.ratValue eps junk u d = evalRational eps junk u c.knots c.poles c.deg d := by
  unfold Curve.ratValue
  rw [if_neg]
  rintro (h | h) <;> linarith

theorem Curve.ratDerivatives_inBounds {eps : K} (heps : 0 < eps) {c : Curve K (V × K)}
    {u : K} (h1 : c.b0 ≤ u) (h2 : u ≤ c.b1) (junk : K) (n : ℕ) (CK0 : List V) :
    c.ratDerivatives eps junk u n CK0 = evalRationalDers eps junk u c.knots c.poles c.deg n CK0 := by
  unfold Curve.ratDerivatives
  rw [if_neg]
  rintro (h | h) <;> linarith

/-- The homogeneous derivatives and the result of the two rational evaluations. -/
theorem Curve.rat_spec {eps : K} (heps : 0 < eps) {c : Curve K (V × K)} (h : c.Good)
    (hb : c.BigOk eps) {u : K} (h1 : c.b0 ≤ u) (h2 : u ≤ c.b1) :
    ∃ i, Spec.InSpan (kf c.knots) (kf c.knots c.poles.length) i u ∧ c.deg ≤ i ∧ i < c.poles.length ∧
      findSpan c.poles.length c.deg u c.knots = .ok i ∧
      (∀ junk d, c.value eps junk u d = .ok (spanDer (kf c.knots) c.poles.length c.deg i (pf c.poles) d u)) ∧
      ((spanDer (kf c.knots) c.poles.length c.deg i (pf c.poles) 0 u).2 ≠ 0 →
        (∀ junk d, d ≤ 60 → c.ratValue eps junk u d = .ok (quotB (bU K)
          (fun d => (spanDer (kf c.knots) c.poles.length c.deg i (pf c.poles) d u).1)
          (fun d => (spanDer (kf c.knots) c.poles.length c.deg i (pf c.poles) d u).2) d)) ∧
        (∀ junk n CK0, n ≤ 60 → n < CK0.length → ∃ C, c.ratDerivatives eps junk u n CK0 = .ok C ∧
          C.length = CK0.length ∧ ∀ d, d ≤ n → C[d]? = some (quotB (bU K)
          (fun d => (spanDer (kf c.knots) c.poles.length c.deg i (pf c.poles) d u).1)
          (fun d => (spanDer (kf c.knots) c.poles.length c.deg i (pf c.poles) d u).2) d))) := by
  obtain ⟨i, e1, hin, a1, a2, hv⟩ := Curve.value_span heps h hb h1 h2
  refine ⟨i, hin, a1, a2, e1, hv, ?_⟩
  intro hw
  have hv' : ∀ junk d, evalValue eps junk u c.knots c.poles c.deg d =
      .ok (spanDer (kf c.knots) c.poles.length c.deg i (pf c.poles) d u) := by
    intro junk d
    rw [← hv junk d, Curve.value_inBounds heps h1 h2]
  constructor
  · intro junk d hd
    rw [Curve.ratValue_inBounds heps h1 h2]
    exact evalRational_spec (D := 60) le_rfl (fun d _ => hv' junk d) hw d hd
  · intro junk n CK0 hn h0
    rw [Curve.ratDerivatives_inBounds heps h1 h2]
    obtain ⟨CK, e2, -, hCK⟩ := evalDers_all (junk := junk) h.wf
      (Curve.evalOk heps h hb h1 (show u < c.b1 + eps by linarith)) n e1
    exact evalRationalDers_spec hn (fun d _ => hv' junk d) e2 hCK hw CK0 h0

/-! ## C12 -/

/-- C12: a rational curve whose weights are all equal to the same non-zero constant `s` evaluates, at
every order up to 60, to the same points as the non-rational curve on the same poles. -/
theorem C12_equal_weights {eps : K} (heps : 0 < eps) {c : Curve K V} (h : c.Good) (hb : c.BigOk eps)
    {s : K} (hs : s ≠ 0) {u : K} (h1 : c.b0 ≤ u) (h2 : u ≤ c.b1) (junk junk' : K) {d : ℕ} (hd : d ≤ 60)
    (c' : Curve K (V × K))
    (hc' : c' = ⟨c.deg, c.poles.map (fun x => addWeight x s), c.knots, c.b0, c.b1⟩) :
    ∃ pt, c.value eps junk' u d = .ok pt ∧ c'.ratValue eps junk u d = .ok pt := by
  have hlen : c'.poles.length = c.poles.length := by rw [hc']; simp
  have hwf : Wf c'.deg c'.knots c'.poles := by
    have := h.wf
    subst hc'
    exact ⟨this.sorted, by simp [this.len], by simpa using this.min, this.first, by simpa using this.last⟩
  have hG : c'.Good := ⟨hwf, by subst hc'; exact h.lo, by subst hc'; simpa using h.hi⟩
  have hB : c'.BigOk eps := by subst hc'; exact hb
  obtain ⟨i, e1, hin, a1, a2, hv⟩ := Curve.value_span heps h hb h1 h2
  obtain ⟨i', hin', a1', a2', -, hv', hr⟩ := Curve.rat_spec heps hG hB (u := u) (by subst hc'; exact h1)
    (by subst hc'; exact h2)
  have hm := kf_mono h.wf.sorted
  have hi : i' = i := by
    apply InSpan_unique hm _ hin
    subst hc'
    simpa using hin'
  subst hi
  have hp : ∀ j, j < c.poles.length → pf c'.poles j = (s • pf c.poles j, s) := by
    intro j hj
    subst hc'
    rw [pf_map _ hj]
    rfl
  have hA : ∀ d, (spanDer (kf c'.knots) c'.poles.length c'.deg i' (pf c'.poles) d u).1 =
      s • spanDer (kf c.knots) c.poles.length c.deg i' (pf c.poles) d u := by
    intro d
    rw [spanDer_fst, hlen, ← spanDer_smul]
    rw [spanDer_congr_poles (P' := fun j => s • pf c.poles j) (fun j hj => by rw [hp j hj])]
    subst hc'
    rfl
  have hW : ∀ d, (spanDer (kf c'.knots) c'.poles.length c'.deg i' (pf c'.poles) d u).2 =
      if d = 0 then s else 0 := by
    intro d
    rw [spanDer_snd, hlen, spanDer_congr_poles (P' := fun _ => s) (fun j hj => by rw [hp j hj])]
    subst hc'
    exact spanDer_const hm (InSpan_bounds hin).2.2 a1 a2 s d u
  refine ⟨_, hv junk' d, ?_⟩
  rw [(hr (by rw [hW]; simpa using hs)).1 junk d hd, quotB_eq]
  congr 1
  rw [hA, hW 0, if_pos rfl, Finset.sum_eq_zero, sub_zero, smul_smul, inv_mul_cancel₀ hs, one_smul]
  intro j _
  rw [hW, if_neg (by omega), mul_zero, zero_smul]

example : Sample.c.Good ∧ Sample.c.BigOk (1/1000000) ∧ (5 : ℚ) ≠ 0 ∧ Sample.c.b0 ≤ (3/2 : ℚ) ∧
    (3/2 : ℚ) ≤ Sample.c.b1 ∧ addWeight (pf Sample.c.poles 1) (5 : ℚ) = ((5, 10), 5) :=
  ⟨Sample.c_good, Or.inl (by decide), by norm_num, by decide +kernel, by decide +kernel, by decide +kernel⟩

/-! ## C13 -/

/-- C13: multiplying all the homogeneous poles by a non-zero factor changes no outcome of the
rational evaluations, for any data (well formed or not), parameter and order. -/
theorem C13_scale_poles {s : K} (hs : s ≠ 0) (eps junk u : K) (c : Curve K (V × K)) :
    (∀ d, ({ c with poles := scalePoles c.poles s } : Curve K (V × K)).ratValue eps junk u d =
      c.ratValue eps junk u d) ∧
    (∀ n CK0, ({ c with poles := scalePoles c.poles s } : Curve K (V × K)).ratDerivatives eps junk u n CK0 =
      c.ratDerivatives eps junk u n CK0) := by
  constructor
  · intro d
    unfold Curve.ratValue evalRational
    simp only [evalRationalF_scale hs]
  · intro n CK0
    unfold Curve.ratDerivatives
    simp only [evalRationalDers_scale hs]

theorem foldl_weight (P : List (V × K)) : ∀ s : K, P.foldl (fun s x => s + x.2) s = s + (P.map Prod.snd).sum := by
  induction P with
  | nil => intro s; simp
  | cons x P ih => intro s; rw [List.foldl_cons, ih]; simp [add_assoc]

/-- C13 for `scale_weights`: when it succeeds the weights have the requested mean and (the mean being
non-zero) no evaluated point or derivative changes. It fails exactly when there is no pole or the
weights sum to zero. -/
theorem C13_scale_weights (eps junk u : K) (c : Curve K (V × K)) (mean : K) :
    (∀ P', scaleWeights c.poles mean = .ok P' →
      P'.length = c.poles.length ∧ (P'.map Prod.snd).sum = mean * P'.length ∧
      (mean ≠ 0 →
        (∀ d, ({ c with poles := P' } : Curve K (V × K)).ratValue eps junk u d = c.ratValue eps junk u d) ∧
        (∀ n CK0, ({ c with poles := P' } : Curve K (V × K)).ratDerivatives eps junk u n CK0 =
          c.ratDerivatives eps junk u n CK0))) ∧
    ((∃ P', scaleWeights c.poles mean = .ok P') ↔ (c.poles.map Prod.snd).sum ≠ 0) := by
  have hS : c.poles.foldl (fun s x => s + x.2) 0 = (c.poles.map Prod.snd).sum := by
    rw [foldl_weight, zero_add]
  have hsum : ∀ s : K, ((scalePoles c.poles s).map Prod.snd).sum = s * (c.poles.map Prod.snd).sum := by
    intro s
    unfold scalePoles
    rw [List.map_map]
    induction c.poles with
    | nil => simp
    | cons x P ih => simp only [List.map_cons, List.sum_cons, ih, Function.comp, Prod.smul_snd, smul_eq_mul, mul_add]
  by_cases h0 : (c.poles.map Prod.snd).sum = 0
  · have hne : ∀ P', scaleWeights c.poles mean ≠ .ok P' := by
      intro P' h
      unfold scaleWeights at h
      rw [hS, h0] at h
      by_cases hl : (c.poles.length : K) = 0
      · simp [fdiv, hl] at h
      · simp [fdiv, hl] at h
    refine ⟨fun P' h => absurd h (hne P'), ?_⟩
    constructor
    · rintro ⟨P', h⟩; exact absurd h (hne P')
    · intro h; exact absurd h0 h
  · have hl : (c.poles.length : K) ≠ 0 := by
      intro hl
      have : c.poles = [] := List.length_eq_zero_iff.mp (by exact_mod_cast hl)
      simp [this] at h0
    have hq : (c.poles.map Prod.snd).sum / (c.poles.length : K) ≠ 0 := div_ne_zero h0 hl
    have he : scaleWeights c.poles mean =
        .ok (scalePoles c.poles (mean / ((c.poles.map Prod.snd).sum / (c.poles.length : K)))) := by
      unfold scaleWeights
      rw [hS, fdiv_ok hl, R_bind_ok, fdiv_ok hq]
      rfl
    refine ⟨?_, fun _ => h0, fun _ => ⟨_, he⟩⟩
    intro P' h
    rw [he] at h
    have := (Except.ok.inj h).symm
    subst this
    refine ⟨by simp [scalePoles], ?_, ?_⟩
    · rw [hsum, show (scalePoles c.poles (mean / ((c.poles.map Prod.snd).sum / (c.poles.length : K)))).length =
        c.poles.length by simp [scalePoles]]
      field_simp
    · intro hm
      exact C13_scale_poles (div_ne_zero hm hq) eps junk u c

example : scaleWeights ([((1, 2), 1), ((0, 3), 2), ((4, 4), 3)] : List ((ℚ × ℚ) × ℚ)) 5 =
    .ok [((5/2, 5), 5/2), ((0, 15/2), 5), ((10, 10), 15/2)] := by decide +kernel

/-- `scaled_weights(poles, mean_value)` ignores the mean it is given: asked for a mean of 5, it
returns weights of mean 1. -/
theorem C13_scaled_weights_witness :
    ∃ P' : List (ℚ × ℚ), scaledWeights [((1 : ℚ), (1 : ℚ)), (2, 3)] 5 = .ok P' ∧
      (P'.map Prod.snd).sum ≠ 5 * P'.length ∧ (P'.map Prod.snd).sum = 1 * P'.length := by
  refine ⟨[(1/2, 1/2), (1, 3/2)], ?_, ?_, ?_⟩ <;> decide +kernel

/-! ## C14 -/

theorem weightProjection_addWeight {w : K} (hw : w ≠ 0) (x : V) : weightProjection (addWeight x w) = x := by
  simp [weightProjection, addWeight, hw, smul_smul]

/-- C14: `merge_weights` and `add_weights_coord(poles,weights)` succeed and agree when there is a weight for each
pole; `separate_weights` gives back the poles and the weights when no weight is zero. -/
theorem C14_separate_merge (P : List V) (W : List K) (hl : P.length = W.length) (hw : ∀ w ∈ W, w ≠ 0) :
    ∃ Q, mergeWeights P W = .ok Q ∧ addWeightsCoord P W = .ok Q ∧ Q.length = P.length ∧ separateWeights Q = (P, W) := by
  have key : ∀ (P : List V) (W : List K), P.length = W.length → (∀ w ∈ W, w ≠ 0) →
      mergeWeights P W = .ok (List.zipWith addWeight P W) ∧
      (List.zipWith addWeight P W).map weightProjection = P ∧ (List.zipWith addWeight P W).map Prod.snd = W := by
    intro P
    induction P with
    | nil =>
      intro W hl _
      have : W = [] := List.length_eq_zero_iff.mp hl.symm
      subst this
      exact ⟨rfl, rfl, rfl⟩
    | cons x P ih =>
      intro W hl hw
      cases W with
      | nil => simp at hl
      | cons w W =>
        obtain ⟨e1, e2, e3⟩ := ih W (by simpa using hl) (fun y hy => hw y (List.mem_cons_of_mem _ hy))
        refine ⟨?_, ?_, ?_⟩
        · simp [mergeWeights, e1]
        · simp only [List.zipWith_cons_cons, List.map_cons, e2]
          rw [weightProjection_addWeight (hw w (by simp))]
        · simp only [List.zipWith_cons_cons, List.map_cons, e3]
          rfl
  obtain ⟨e1, e2, e3⟩ := key P W hl hw
  refine ⟨_, e1, ?_, ?_, ?_⟩
  · unfold addWeightsCoord
    rw [if_neg (by simpa using hl)]
  · simp [hl]
  · unfold separateWeights
    rw [e2, e3]

/-- C14, converse: merging back what `separate_weights` returns gives the same homogeneous poles, when no
weight is zero. -/
theorem C14_merge_separate (Q : List (V × K)) (hw : ∀ x ∈ Q, x.2 ≠ 0) :
    mergeWeights (separateWeights Q).1 (separateWeights Q).2 = .ok Q ∧
      addWeightsCoord (separateWeights Q).1 (separateWeights Q).2 = .ok Q := by
  have hl : (separateWeights Q).1.length = (separateWeights Q).2.length := by simp [separateWeights]
  obtain ⟨Q', e1, e2, -⟩ := C14_separate_merge (separateWeights Q).1 (separateWeights Q).2 hl (by
    intro w h
    simp only [separateWeights, List.mem_map] at h
    obtain ⟨x, hx, rfl⟩ := h
    exact hw x hx)
  have : Q' = Q := by
    have e3 : addWeightsCoord (separateWeights Q).1 (separateWeights Q).2 =
        .ok (List.zipWith addWeight (separateWeights Q).1 (separateWeights Q).2) := by
      unfold addWeightsCoord
      rw [if_neg (by simpa using hl)]
    rw [e3] at e2
    rw [← Except.ok.inj e2]
    clear e1 e2 e3 hl
    induction Q with
    | nil => rfl
    | cons x Q ih =>
      have := ih (fun y hy => hw y (List.mem_cons_of_mem _ hy))
      simp only [separateWeights, List.map_cons, List.zipWith_cons_cons] at this ⊢
      rw [this]
      congr 1
      have hx := hw x (by simp)
      simp [addWeight, weightProjection, hx, smul_smul]
  rw [← this]
  rw [this] at e1 e2 ⊢
  exact ⟨e1, e2⟩

/-- C14, sizes: `add_weights_coord` reports a size mismatch, while `merge_weights` reads outside of the weights
when there are fewer weights than poles. -/
theorem C14_sizes (P : List V) (W : List K) :
    (addWeightsCoord P W = .error (.thrown .length) ↔ P.length ≠ W.length) ∧
    (mergeWeights P W = .error .oob ↔ W.length < P.length) := by
  constructor
  · unfold addWeightsCoord
    split
    · rename_i h; simpa using h
    · rename_i h; simpa using h
  · induction P generalizing W with
    | nil => simp [mergeWeights]
    | cons x P ih =>
      cases W with
      | nil => simp [mergeWeights]
      | cons w W =>
        simp only [mergeWeights, List.length_cons, Nat.add_lt_add_iff_right]
        rw [← ih W]
        cases mergeWeights P W with
        | error e => simp
        | ok r => simp

/-- C14: a null weight loses the pole. -/
theorem C14_null_weight_witness : ∃ Q : List (ℚ × ℚ), mergeWeights [(7 : ℚ)] [(0 : ℚ)] = .ok Q ∧
    separateWeights Q ≠ ([7], [0]) := by
  refine ⟨[(0, 0)], ?_, ?_⟩ <;> decide +kernel

example : separateWeights ([((2, 4), 2), ((9, 3), 3)] : List ((ℚ × ℚ) × ℚ)) = ([(1, 2), (3, 1)], [2, 3]) := by
  decide +kernel

/-! ## C15 -/

/-- C15: at a parameter where the weight does not vanish, the rational evaluation returns, for all orders up to
20 (the range in which the `size_t` binomials are exact), vectors `C d` that satisfy the Leibniz rule
`A⁽ᵈ⁾ = Σ_i binom(d,i) w⁽ⁱ⁾ C⁽ᵈ⁻ⁱ⁾` with the homogeneous derivatives `A`, `w`. -/
theorem C15_quotient_rule {eps : K} (heps : 0 < eps) {c : Curve K (V × K)} (h : c.Good)
    (hb : c.BigOk eps) {u : K} (h1 : c.b0 ≤ u) (h2 : u ≤ c.b1) (junk : K) :
    ∃ H : ℕ → V × K, (∀ d, c.value eps junk u d = .ok (H d)) ∧
      ((H 0).2 ≠ 0 → ∃ C : ℕ → V, (∀ d, d ≤ 20 → c.ratValue eps junk u d = .ok (C d)) ∧
        ∀ d, d ≤ 20 → ∑ i ∈ Finset.range (d + 1), ((d.choose i : K) * (H i).2) • C (d - i) = (H d).1) := by
  obtain ⟨i, -, -, -, -, hv, hr⟩ := Curve.rat_spec heps h hb h1 h2
  refine ⟨_, hv junk, ?_⟩
  intro hw
  obtain ⟨r1, -⟩ := hr hw
  refine ⟨_, fun d hd => r1 junk d (by omega), ?_⟩
  intro d hd
  have := quotB_rule (b := bU K)
    (A := fun d => (spanDer (kf c.knots) c.poles.length c.deg i (pf c.poles) d u).1)
    (w := fun d => (spanDer (kf c.knots) c.poles.length c.deg i (pf c.poles) d u).2) hw d
    (by rw [bU_choose hd (by omega)]; simp)
  refine Eq.trans ?_ this
  apply Finset.sum_congr rfl
  intro j hj
  rw [Finset.mem_range] at hj
  rw [bU_choose hd (by omega)]

/-- C15: `derivatives(u,n)` writes in its buffer, for every order `d ≤ n`, the vector returned by `value(u,d)` (wherever
the weight does not vanish). Orders up to 60; the entries above `n` keep their length. -/
theorem C15_derivatives {eps : K} (heps : 0 < eps) {c : Curve K (V × K)} (h : c.Good)
    (hb : c.BigOk eps) {u : K} (h1 : c.b0 ≤ u) (h2 : u ≤ c.b1) (junk junk' : K) {x : V × K}
    (hx : c.value eps junk u = .ok x) (hw : x.2 ≠ 0) {n : ℕ} (hn : n ≤ 60) (CK0 : List V) (h0 : n < CK0.length) :
    ∃ C, c.ratDerivatives eps junk u n CK0 = .ok C ∧ C.length = CK0.length ∧
      ∀ d, d ≤ n → ∃ pt, C[d]? = some pt ∧ c.ratValue eps junk' u d = .ok pt := by
  obtain ⟨i, -, -, -, -, hv, hr⟩ := Curve.rat_spec heps h hb h1 h2
  rw [hv junk 0] at hx
  obtain ⟨r1, r2⟩ := hr (by rw [Except.ok.inj hx]; exact hw)
  obtain ⟨C, e, hl, hC⟩ := r2 junk n CK0 hn h0
  exact ⟨C, e, hl, fun d hd => ⟨_, hC d hd, r1 junk' d (by omega)⟩⟩

/-- A rational quadratic with two interior knots and distinct weights. -/
def Sample.rc : Curve ℚ ((ℚ × ℚ) × ℚ) where
  deg := 2
  poles := [((0,0),1), ((2,4),2), ((3,1),1), ((2,-1/2),1/2), ((6,0),1)]
  knots := [0,0,0,1,2,3,3,3]
  b0 := 0
  b1 := 3

theorem Sample.rc_good : Sample.rc.Good where
  wf := { sorted := by decide +kernel, len := rfl, min := by decide, first := by decide +kernel, last := by decide +kernel }
  lo := by decide +kernel
  hi := by decide +kernel

example : Sample.rc.Good ∧ Sample.rc.BigOk (1/1000000) ∧ Sample.rc.b0 ≤ (3 : ℚ) ∧ (3 : ℚ) ≤ Sample.rc.b1 ∧
    Sample.rc.value (1/1000000) 0 3 = .ok ((6, 0), 1) ∧ ((6, 0), (1 : ℚ)).2 ≠ 0 ∧
    Sample.rc.ratValue (1/1000000) 0 3 1 = .ok (2, 1) :=
  ⟨Sample.rc_good, Or.inl (by decide), by decide +kernel, by decide +kernel, by decide +kernel, by norm_num,
    by decide +kernel⟩

/-- The line `2u/(1+u)`, of weights 1 and 2. -/
def Sample.hyp : Curve ℚ (ℚ × ℚ) where
  deg := 1
  poles := [(0, 1), (2, 2)]
  knots := [0,0,1,1]
  b0 := 0
  b1 := 1

/-- C15, the bound on the order: the 20th derivative of `2u/(1+u)` at 1 is exact, the 21st is not, because
`21!` does not fit in a `size_t`. -/
theorem C15_order_21_witness :
    ∃ CK, Sample.hyp.ratDerivatives (1/1000000) 0 1 21 (List.replicate 22 0) = .ok CK ∧
      CK[20]? = some (-2 * (-1)^20 * (Nat.factorial 20 : ℚ) / 2 ^ 21) ∧
      CK[21]? ≠ some (-2 * (-1)^21 * (Nat.factorial 21 : ℚ) / 2 ^ 22) := by
  have key : ((match Sample.hyp.ratDerivatives (1/1000000) 0 1 21 (List.replicate 22 0) with
    | .ok CK => decide (CK[20]? = some (-2 * (-1)^20 * (Nat.factorial 20 : ℚ) / 2 ^ 21)) &&
      decide (CK[21]? ≠ some (-2 * (-1)^21 * (Nat.factorial 21 : ℚ) / 2 ^ 22))
    | .error _ => false) : Bool) = true := by decide +kernel
  revert key
  cases Sample.hyp.ratDerivatives (1/1000000) 0 1 21 (List.replicate 22 0) with
  | error e => intro h; simp at h
  | ok CK =>
    intro h
    rw [Bool.and_eq_true, decide_eq_true_eq, decide_eq_true_eq] at h
    exact ⟨CK, rfl, h.1, h.2⟩

/-- C15, the condition on the weight: where it vanishes `value` returns the origin, while `derivatives`
divides by zero, even for the order 0. -/
theorem C15_null_weight_witness :
    let c : Curve ℚ (ℚ × ℚ) := { deg := 1, poles := [(0, 1), (2, 0)], knots := [0,0,1,1], b0 := 0, b1 := 1 }
    c.ratValue (1/1000000) 0 1 = .ok 0 ∧ c.ratDerivatives (1/1000000) 0 1 0 [0] = .error .divZero := by
  constructor <;> decide +kernel

/-! ## C53 -/

/-- C53: a rational curve whose weights are all positive evaluates without failure, in its bounds, to a convex
combination of the projections of the poles active on the span. -/
theorem C53_rational_convex_combination {eps : K} (heps : 0 < eps) {c : Curve K (V × K)} (h : c.Good)
    (hb : c.BigOk eps) (hpos : ∀ x ∈ c.poles, 0 < x.2) {u : K} (h1 : c.b0 ≤ u) (h2 : u ≤ c.b1) (junk : K) :
    ∃ i, ∃ a : ℕ → K, findSpan c.poles.length c.deg u c.knots = .ok i ∧ c.deg ≤ i ∧ i < c.poles.length ∧
      (∀ r, r ≤ c.deg → 0 ≤ a r) ∧ ∑ r ∈ Finset.range (c.deg + 1), a r = 1 ∧
      c.ratValue eps junk u = .ok (∑ r ∈ Finset.range (c.deg + 1), a r • pf (polesProjected c.poles) (i - c.deg + r)) := by
  obtain ⟨i, hin, a1, a2, e1, hv, hr⟩ := Curve.rat_spec heps h hb h1 h2
  have hm := kf_mono h.wf.sorted
  obtain ⟨b1, b2, b3⟩ := InSpan_bounds hin
  set Bf := fun r => B (kf c.knots) i c.deg (i - c.deg + r) u with hBf
  have hB0 : ∀ r, 0 ≤ Bf r := fun r => B_nonneg hm _ b1 b2 _
  have hB1 : ∑ r ∈ Finset.range (c.deg + 1), Bf r = 1 := by
    have hw := sum_window (V := K) a1 a2 (fun j => B (kf c.knots) i c.deg j u)
      (fun j _ hj => B_eq_zero _ _ _ _ _ hj)
    rw [hBf, ← hw]
    exact sum_B_eq_one hm b3 a1 a2 u
  have hH : spanDer (kf c.knots) c.poles.length c.deg i (pf c.poles) 0 u =
      ∑ r ∈ Finset.range (c.deg + 1), Bf r • pf c.poles (i - c.deg + r) := by
    rw [spanDer_window _ a1 a2]
    simp [Bp_eval, hBf]
  have hwp : ∀ r, r ∈ Finset.range (c.deg + 1) → 0 < (pf c.poles (i - c.deg + r)).2 := by
    intro r hr
    rw [Finset.mem_range] at hr
    apply hpos
    exact List.mem_of_getElem? (pf_getElem? (show i - c.deg + r < c.poles.length by omega))
  set wr := fun r => (pf c.poles (i - c.deg + r)).2 with hwr
  have hW : (spanDer (kf c.knots) c.poles.length c.deg i (pf c.poles) 0 u).2 =
      ∑ r ∈ Finset.range (c.deg + 1), Bf r * wr r := by
    rw [hH, Prod.snd_sum]
    rfl
  have hWpos : 0 < ∑ r ∈ Finset.range (c.deg + 1), Bf r * wr r := by
    apply Finset.sum_pos' (fun r hr => mul_nonneg (hB0 r) (hwp r hr).le)
    by_contra hcon
    push Not at hcon
    have hz : ∀ r ∈ Finset.range (c.deg + 1), Bf r = 0 := by
      intro r hr
      by_contra hne
      have : 0 < Bf r := lt_of_le_of_ne (hB0 r) (Ne.symm hne)
      have := mul_pos this (hwp r hr)
      exact absurd (hcon r hr) (not_le.mpr this)
    rw [Finset.sum_eq_zero hz] at hB1
    exact zero_ne_one hB1
  obtain ⟨r1, -⟩ := hr (by rw [hW]; exact hWpos.ne')
  set S := ∑ r ∈ Finset.range (c.deg + 1), Bf r * wr r with hS
  refine ⟨i, fun r => Bf r * wr r / S, e1, a1, a2, ?_, ?_, ?_⟩
  · intro r hr
    exact div_nonneg (mul_nonneg (hB0 r) (hwp r (Finset.mem_range.mpr (by omega))).le) hWpos.le
  · rw [← Finset.sum_div, ← hS, div_self hWpos.ne']
  · rw [r1 junk 0 (by omega), quotB_eq]
    congr 1
    rw [Finset.range_zero, Finset.sum_empty, sub_zero, hW, hH, Prod.fst_sum, Finset.smul_sum]
    apply Finset.sum_congr rfl
    intro r hr
    have hr' := Finset.mem_range.mp hr
    have hne := (hwp r hr).ne'
    rw [polesProjected, pf_map _ (by omega)]
    simp only [weightProjection, ne_eq, hne, not_false_eq_true, if_true, Prod.smul_fst, smul_smul]
    congr 1
    simp only [hwr]
    field_simp

example : Sample.rc.Good ∧ Sample.rc.BigOk (1/1000000) ∧ (∀ x ∈ Sample.rc.poles, 0 < x.2) ∧
    Sample.rc.b0 ≤ (3/2 : ℚ) ∧ (3/2 : ℚ) ≤ Sample.rc.b1 :=
  ⟨Sample.rc_good, Or.inl (by decide), by decide +kernel, by decide +kernel, by decide +kernel⟩

/-- C53: where all the weights are positive the weight of every point is positive. -/
theorem C53_weight_pos {eps : K} (heps : 0 < eps) {c : Curve K (V × K)} (h : c.Good)
    (hb : c.BigOk eps) (hpos : ∀ x ∈ c.poles, 0 < x.2) {u : K} (h1 : c.b0 ≤ u) (h2 : u ≤ c.b1) (junk : K) :
    ∃ x, c.value eps junk u = .ok x ∧ 0 < x.2 := by
  obtain ⟨i, w, -, a1, a2, w0, w1, e⟩ := C05_convex_combination heps h hb h1 h2 junk
  refine ⟨_, e, ?_⟩
  rw [Prod.snd_sum]
  have hp : ∀ r ∈ Finset.range (c.deg + 1), 0 < (pf c.poles (i - c.deg + r)).2 := by
    intro r hr
    rw [Finset.mem_range] at hr
    apply hpos
    exact List.mem_of_getElem? (pf_getElem? (show i - c.deg + r < c.poles.length by omega))
  apply Finset.sum_pos' (fun r hr => mul_nonneg (w0 r) (hp r hr).le)
  by_contra hcon
  push Not at hcon
  have hz : ∀ r ∈ Finset.range (c.deg + 1), w r = 0 := by
    intro r hr
    by_contra hne
    have : 0 < w r := lt_of_le_of_ne (w0 r) (Ne.symm hne)
    have := mul_pos this (hp r hr)
    exact absurd (hcon r hr) (not_le.mpr this)
  rw [Finset.sum_eq_zero hz] at w1
  exact zero_ne_one w1

/-! ## C10 for rational curves -/

/-- C10 for `BSCurveRational::value` and `derivatives`. -/
theorem C10_out_of_bounds_rational (eps junk : K) (c : Curve K (V × K)) (u : K) :
    (∀ d, c.ratValue eps junk u d = .error (.thrown .outOfBoundsEval) ↔
      (u < c.b0 - eps ∨ c.b1 + eps < u)) ∧
    (∀ n CK0, c.ratDerivatives eps junk u n CK0 = .error (.thrown .outOfBoundsEval) ↔
      (u < c.b0 - eps ∨ c.b1 + eps < u)) := by
  constructor
  · intro d
    unfold Curve.ratValue
    split
    · rename_i h; exact ⟨fun _ => h, fun _ => rfl⟩
    · rename_i h
      exact ⟨fun h' => absurd h' ((evalRationalF_noThrow _ _ _ _ _ _ _ _).ne _), fun h' => absurd h' h⟩
  · intro n CK0
    unfold Curve.ratDerivatives
    split
    · rename_i h; exact ⟨fun _ => h, fun _ => rfl⟩
    · rename_i h
      exact ⟨fun h' => absurd h' ((evalRationalDers_noThrow _ _ _ _ _ _ _ _).ne _), fun h' => absurd h' h⟩

end Gbs
