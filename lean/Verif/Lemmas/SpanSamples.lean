import Verif.Props.AbsCurv
import Verif.Props.SurfApprox
import Mathlib.LinearAlgebra.Lagrange
import Mathlib.LinearAlgebra.FiniteDimensional.Basic
import Mathlib.LinearAlgebra.Matrix.ToLin

/-!
# Samples in each span determine the poles

On a span, the `p + 1` basis functions of degree `p` are determined by any `p + 1` values: the map from the poles to the values is onto, by the polynomial that
interpolates them and its blossom, hence one to one.
-/

set_option linter.unusedSectionVars false

namespace Gbs

open Polynomial
open scoped BigOperators

variable {K : Type} [Field K] [LinearOrder K] [IsStrictOrderedRing K]
variable {V : Type} [AddCommGroup V] [Module K V]

/-- The poles of a span from the values at `p + 1` places. -/
theorem span_injective {t : ℕ → K} (ht : Monotone t) {n p i : ℕ} (hpi : p ≤ i) (hi : i < n) (hk : t i < t (i + 1)) {x : Fin (p + 1) → K}
    (hx : Function.Injective x) {P : ℕ → K} (hz : ∀ s, spanDer t n p i P 0 (x s) = 0) : ∀ j, i - p ≤ j → j ≤ i → P j = 0 := by
  set E : (Fin (p + 1) → K) →ₗ[K] (Fin (p + 1) → K) :=
    { toFun := fun c s => ∑ r : Fin (p + 1), (Bp t i p (i - p + r)).eval (x s) * c r
      map_add' := by
        intro a b
        funext s
        simp [mul_add, Finset.sum_add_distrib]
      map_smul' := by
        intro a b
        funext s
        simp only [Pi.smul_apply, smul_eq_mul, RingHom.id_apply, Finset.mul_sum]
        exact Finset.sum_congr rfl fun r _ => by ring } with hE
  have hEv : ∀ (Q : ℕ → K) (s : Fin (p + 1)), E (fun r => Q (i - p + r)) s = spanDer t n p i Q 0 (x s) := by
    intro Q s
    rw [spanDer_window t hpi hi, Finset.sum_range]
    rfl
  have hsurj : Function.Surjective E := by
    intro y
    set L := Lagrange.interpolate Finset.univ x y with hL
    have hdeg : L.natDegree < p + 1 := by
      rcases eq_or_ne L 0 with h | h
      · rw [h]; simp
      · rw [Polynomial.natDegree_lt_iff_degree_lt h]
        have := Lagrange.degree_interpolate_lt (s := Finset.univ) (v := x) y hx.injOn
        rw [← hL, Finset.card_univ, Fintype.card_fin] at this
        exact this
    refine ⟨fun r => polyBlossom p L.coeff (seg t (i - p + r + 1) p), ?_⟩
    funext s
    have := hEv (fun j => polyBlossom p L.coeff (seg t (j + 1) p)) s
    rw [poly_poles ht hpi hi hk L.coeff (P := fun j => polyBlossom p L.coeff (seg t (j + 1) p)) (fun j _ => rfl)] at this
    rw [this, ← Lagrange.eval_interpolate_at_node (s := Finset.univ) y hx.injOn (Finset.mem_univ s), ← hL, Polynomial.eval_eq_sum_range' hdeg]
    exact Finset.sum_congr rfl fun k _ => by rw [smul_eq_mul, mul_comm]
  have hinj : Function.Injective E := LinearMap.injective_iff_surjective.mpr hsurj
  have h0 : (fun r : Fin (p + 1) => P (i - p + r)) = 0 := by
    apply hinj
    rw [map_zero]
    funext s
    rw [hEv, hz]
    rfl
  intro j hj hj'
  have := congrFun h0 ⟨j - (i - p), by omega⟩
  simpa [show i - p + (j - (i - p)) = j by omega] using this

/-- Clamped knots, no knot of multiplicity above `p + 1`, and in each span `p + 1` of the parameters: the poles are determined. -/
theorem determines_of_full_spans {eps : K} (heps : 0 < eps) {p n : ℕ} (hp : p ≤ stackMaxDegree) {k : List K} (hU : KWf p k n) (h0 : kf k 0 = kf k p) (h1 : kLast k = kf k n)
    (hm : ∀ j, j < n → kf k j < kf k (j + p + 1)) {u : List K}
    (hs : ∀ i, p ≤ i → i < n → kf k i < kf k (i + 1) → ∃ x : Fin (p + 1) → K, Function.Injective x ∧ ∀ s, x s ∈ u ∧ kf k i ≤ x s ∧ x s < kf k (i + 1)) :
    Spec.Determines eps k p n u := by
  intro P hlP hP y hy
  obtain ⟨j, hj, rfl⟩ := List.getElem_of_mem hy
  have hmono := kf_mono hU.sorted
  have hkl : kf k (n + p) = kf k n := by
    rw [← h1, kLast, hU.len]
    rfl
  obtain ⟨i, hi1, hi2, hi3⟩ : ∃ i, j ≤ i ∧ i ≤ j + p ∧ kf k i < kf k (i + 1) := by
    by_contra hc
    push Not at hc
    have : ∀ d, d ≤ p + 1 → kf k (j + d) ≤ kf k j := by
      intro d
      induction d with
      | zero => intro _; exact le_rfl
      | succ d ih => intro hd; exact (hc (j + d) (by omega) (by omega)).trans (ih (by omega))
    exact absurd (hm j (by omega)) (not_lt.mpr (this (p + 1) le_rfl))
  have hip : p ≤ i := by
    by_contra h
    have a := hmono (show 0 ≤ i by omega)
    have b := hmono (show i + 1 ≤ p by omega)
    rw [h0] at a
    linarith
  have hin : i < n := by
    by_contra h
    have a := hmono (show n ≤ i by omega)
    have b := hmono (show i + 1 ≤ j + p + 1 by omega)
    have c := hmono (show j + p + 1 ≤ n + p by omega)
    rw [hkl] at c
    linarith
  obtain ⟨x, hx, hxs⟩ := hs i hip hin hi3
  have hw : Wf p k P := hU.wf hlP
  have hg : (⟨p, P, k, kf k p, kf k P.length⟩ : Curve K K).Good := ⟨hw, rfl, rfl⟩
  have := span_injective hmono hip hin hi3 hx (P := pf P) (by
    intro s
    obtain ⟨hu, hl, hr⟩ := hxs s
    have a := hmono hip
    have b := hmono (show i + 1 ≤ n by omega)
    obtain ⟨i', -, hsp, -, -, hval⟩ := Curve.value_span heps hg (Or.inl hp) (u := x s) (by simp only; linarith) (by simp only; rw [hlP]; linarith)
    simp only [hlP] at hsp hval
    obtain rfl : i' = i := InSpan_unique hmono hsp (by
      unfold Spec.InSpan
      rw [if_neg (by linarith)]
      exact ⟨hl, hr⟩)
    have h := hval eps 0
    rw [Curve.value_inBounds heps (by simp only; linarith) (by simp only; linarith)] at h
    simp only at h
    rw [hP _ hu] at h
    exact (Except.ok.inj h).symm) j (by omega) hi1
  rw [show P[j] = pf P j by unfold pf; rw [List.getD_eq_getElem?_getD, List.getElem?_eq_getElem hj]; rfl, this]

/-- Evenly spaced parameters, with a step that goes `p + 1` times into each span. -/
theorem determines_of_step {eps : K} (heps : 0 < eps) {p n : ℕ} (hp : p ≤ stackMaxDegree) {k : List K} (hU : KWf p k n) (h0 : kf k 0 = kf k p) (h1 : kLast k = kf k n)
    (hm : ∀ j, j < n → kf k j < kf k (j + p + 1)) {N : ℕ} (hN : 2 ≤ N)
    (hst : ∀ i, p ≤ i → i < n → kf k i < kf k (i + 1) → ((p : K) + 1) * (kf k n - kf k p) ≤ (kf k (i + 1) - kf k i) * ((N : K) - 1)) :
    Spec.Determines eps k p n ((List.range N).map (Spec.sample (kf k p) (kf k n) N)) := by
  refine determines_of_full_spans heps hp hU h0 h1 hm ?_
  intro i hip hin hlt
  have hmono := kf_mono hU.sorted
  set a := kf k p with ha
  set b := kf k n with hb
  have hai : a ≤ kf k i := hmono hip
  have hib : kf k (i + 1) ≤ b := hmono (by omega)
  have hab : a < b := by linarith
  have hd : (0 : K) < (N : K) - 1 := by
    have : (2 : K) ≤ N := by exact_mod_cast hN
    linarith
  set δ := (b - a) / ((N : K) - 1) with hδ
  have hδ0 : 0 < δ := div_pos (by linarith) hd
  have hsamp : ∀ r : ℕ, Spec.sample a b N r = a + r * δ := fun r => rfl
  have hstep : ((p : K) + 1) * δ ≤ kf k (i + 1) - kf k i := by
    rw [hδ, mul_div_assoc', div_le_iff₀ hd]
    exact hst i hip hin hlt
  have hex : ∃ r, kf k i ≤ Spec.sample a b N r := ⟨N - 1, by rw [sample_last hN]; linarith⟩
  classical
  set r0 := Nat.find hex with hr0
  have hr0s : kf k i ≤ Spec.sample a b N r0 := Nat.find_spec hex
  have hr0l : Spec.sample a b N r0 < kf k i + δ := by
    rcases Nat.eq_zero_or_pos r0 with h | h
    · rw [h, sample_first]
      linarith
    · have := Nat.find_min hex (show r0 - 1 < r0 by omega)
      rw [hsamp] at this ⊢
      rw [Nat.cast_sub (by omega), Nat.cast_one] at this
      have := not_le.mp this
      linarith [this, show ((r0 : K) - 1) * δ = r0 * δ - δ by ring]
  have hplace : ∀ s : Fin (p + 1), Spec.sample a b N (r0 + s) < kf k (i + 1) := by
    intro s
    have hs : (s : K) ≤ p := by exact_mod_cast Nat.lt_succ_iff.mp s.2
    have := mul_le_mul_of_nonneg_right hs hδ0.le
    rw [hsamp] at hr0l ⊢
    push_cast
    linarith [show ((r0 : K) + (s : ℕ)) * δ = r0 * δ + (s : ℕ) * δ by ring, show ((p : K) + 1) * δ = p * δ + δ by ring]
  refine ⟨fun s => Spec.sample a b N (r0 + s), ?_, fun s => ⟨?_, ?_, hplace s⟩⟩
  · intro s s' h
    rcases lt_trichotomy s s' with hl | hl | hl
    · exact absurd h (sample_lt hab hN (by omega)).ne
    · exact hl
    · exact absurd h (sample_lt hab hN (by omega)).ne'
  · refine List.mem_map.mpr ⟨r0 + s, List.mem_range.mpr ?_, rfl⟩
    by_contra hc
    have h := hplace s
    rcases (show N - 1 ≤ r0 + s by omega).eq_or_lt with hl | hl
    · rw [← hl, sample_last hN] at h
      linarith
    · have := sample_lt hab hN hl
      rw [sample_last hN] at this
      linarith
  · refine hr0s.trans ?_
    simp only
    rw [hsamp, hsamp]
    have : (0 : K) ≤ (s : ℕ) * δ := by positivity
    push_cast
    linarith [show ((r0 : K) + (s : ℕ)) * δ = r0 * δ + (s : ℕ) * δ by ring]

/-- Fewer parameters than poles do not determine them. -/
theorem Determines.le_length {eps : K} (heps : 0 < eps) {p n : ℕ} (hp : p ≤ stackMaxDegree) {k : List K} (hU : KWf p k n) {u : List K}
    (hin : ∀ x ∈ u, kf k p ≤ x ∧ x ≤ kf k n) (h : Spec.Determines eps k p n u) : n ≤ u.length := by
  obtain ⟨sp, hsp⟩ := exists_spans hU u
  have hr := (Determines.iff_rows heps hU hp hsp hin).mp h
  set E : (Fin n → K) →ₗ[K] (Fin u.length → K) := Matrix.toLin' (Matrix.of fun (r : Fin u.length) (j : Fin n) => coll k u p 1 sp r j) with hE
  have hinj : Function.Injective E := by
    rw [← LinearMap.ker_eq_bot, LinearMap.ker_eq_bot']
    intro c hc
    have := hr (fun j => if hj : j < n then c ⟨j, hj⟩ else 0) (by
      intro r hr'
      have := congrFun hc ⟨r, hr'⟩
      rw [hE, Matrix.toLin'_apply] at this
      rw [Finset.sum_range]
      simpa [Matrix.mulVec, dotProduct] using this)
    funext j
    have := this j j.2
    rwa [dif_pos j.2] at this
  simpa using LinearMap.finrank_le_finrank_of_injective hinj

end Gbs
