import Verif.Model.Transform
import Verif.Props.Rational
import Verif.Props.Surface
import Verif.Lemmas.Reparam
import Verif.Props.Interp
import Mathlib.LinearAlgebra.Matrix.ToLin
import Mathlib.Tactic.LinearCombination
import Mathlib.Tactic.FinCases

/-! # Transformation of the poles -/

namespace Gbs

set_option linter.unusedSectionVars false

open Polynomial

variable {K : Type} [Field K] [LinearOrder K] [IsStrictOrderedRing K]
variable {V W : Type} [AddCommGroup V] [Module K V] [AddCommGroup W] [Module K W]

/-- An affine transformation: it never fails, and adds a constant vector to a linear map. -/
def IsAffine (trf : V → R V) (L : V →ₗ[K] V) (b : V) : Prop := ∀ x, trf x = .ok (L x + b)

theorem spanDer_lmap (f : V →ₗ[K] W) (t : ℕ → K) (n p i : ℕ) (P : ℕ → V) (d : ℕ) (u : K) :
    spanDer t n p i (fun j => f (P j)) d u = f (spanDer t n p i P d u) := by
  unfold spanDer
  rw [map_sum]
  simp only [map_smul]

theorem spanDer_add (t : ℕ → K) (n p i : ℕ) (P Q : ℕ → V) (d : ℕ) (u : K) :
    spanDer t n p i (fun j => P j + Q j) d u = spanDer t n p i P d u + spanDer t n p i Q d u := by
  unfold spanDer
  rw [← Finset.sum_add_distrib]
  simp only [smul_add]

/-- The linear map of homogeneous coordinates of an affine map. -/
def liftH (L : V →ₗ[K] V) (b : V) : (V × K) →ₗ[K] (V × K) where
  toFun x := (L x.1 + x.2 • b, x.2)
  map_add' x y := by
    ext
    · simp only [Prod.fst_add, Prod.snd_add, map_add, add_smul]; abel
    · simp
  map_smul' s x := by
    ext
    · simp only [Prod.smul_fst, Prod.smul_snd, map_smul, smul_eq_mul, RingHom.id_apply, smul_add, smul_smul]
    · simp

theorem liftH_fst (L : V →ₗ[K] V) (b : V) (x : V × K) : (liftH L b x).1 = L x.1 + x.2 • b := rfl
theorem liftH_snd (L : V →ₗ[K] V) (b : V) (x : V × K) : (liftH L b x).2 = x.2 := rfl

theorem mapM_affine {trf : V → R V} {L : V →ₗ[K] V} {b : V} (h : IsAffine trf L b) (P : List V) :
    P.mapM trf = .ok (P.map (fun x => L x + b)) := by
  induction P with
  | nil => rfl
  | cons x P ih =>
    rw [List.mapM_cons, h x, R_bind_ok, ih]
    rfl

theorem Curve.movePoles_ok {M : Type} {c : Curve K M} {P : List M} (h : P.length = c.poles.length) :
    c.movePoles P = .ok { c with poles := P } := by
  unfold Curve.movePoles
  rw [if_neg (by simpa using h)]

theorem Surface.movePoles_ok {M : Type} {s : Surface K M} {P : List M} (h : P.length = s.poles.length) :
    s.movePoles P = .ok { s with poles := P } := by
  unfold Surface.movePoles
  rw [if_neg (by simpa using h)]

theorem Curve.transform_eq {trf : V → R V} {L : V →ₗ[K] V} {b : V} (h : IsAffine trf L b) (c : Curve K V) :
    c.transform trf = .ok { c with poles := c.poles.map (fun x => L x + b) } := by
  unfold Curve.transform
  rw [mapM_affine h, R_bind_ok, Curve.movePoles_ok (by simp)]

theorem Surface.transform_eq {trf : V → R V} {L : V →ₗ[K] V} {b : V} (h : IsAffine trf L b) (s : Surface K V) :
    s.transform trf = .ok { s with poles := s.poles.map (fun x => L x + b) } := by
  unfold Surface.transform
  rw [mapM_affine h, R_bind_ok, Surface.movePoles_ok (by simp)]

theorem transformH (L : V →ₗ[K] V) (b : V) (Q : List (V × K)) (hQ : ∀ x ∈ Q, x.2 ≠ 0) :
    addWeightsCoord ((separateWeights Q).1.map (fun x => L x + b)) (separateWeights Q).2 = .ok (Q.map (liftH L b)) := by
  unfold addWeightsCoord separateWeights
  rw [if_neg (by simp)]
  congr 1
  induction Q with
  | nil => rfl
  | cons x Q ih =>
    have := ih (fun y hy => hQ y (List.mem_cons_of_mem _ hy))
    simp only [List.map_cons, List.zipWith_cons_cons] at this ⊢
    rw [this]
    congr 1
    have hx := hQ x (by simp)
    ext
    · simp only [addWeight, liftH_fst, weightProjection, ne_eq, hx, not_false_eq_true, if_true, smul_add, map_smul, smul_smul,
        mul_inv_cancel₀ hx, one_smul]
    · rfl

theorem Curve.transformRat_eq {trf : V → R V} {L : V →ₗ[K] V} {b : V} (h : IsAffine trf L b) (c : Curve K (V × K))
    (hw : ∀ x ∈ c.poles, x.2 ≠ 0) : c.transformRat trf = .ok { c with poles := c.poles.map (liftH L b) } := by
  unfold Curve.transformRat
  simp only
  rw [mapM_affine h, R_bind_ok, transformH L b _ hw, R_bind_ok, Curve.movePoles_ok (by simp)]

theorem Surface.transformRat_eq {trf : V → R V} {L : V →ₗ[K] V} {b : V} (h : IsAffine trf L b) (s : Surface K (V × K))
    (hw : ∀ x ∈ s.poles, x.2 ≠ 0) : s.transformRat trf = .ok { s with poles := s.poles.map (liftH L b) } := by
  unfold Surface.transformRat
  simp only
  rw [mapM_affine h, R_bind_ok, transformH L b _ hw, R_bind_ok, Surface.movePoles_ok (by simp)]

theorem Curve.Good.withPoles {c : Curve K V} (h : c.Good) {P : List W} (hP : P.length = c.poles.length) :
    (⟨c.deg, P, c.knots, c.b0, c.b1⟩ : Curve K W).Good :=
  ⟨h.wf.kwf.wf hP, h.lo, by simpa [hP] using h.hi⟩

theorem bU_self (n : ℕ) : bU K n n = 1 := by simp [bU]

/-- The quotients of an affine image. -/
theorem quotB_affine (L : V →ₗ[K] V) (b : V) {A : ℕ → V} {w : ℕ → K} (hw : w 0 ≠ 0) : ∀ d,
    quotB (bU K) (fun d => L (A d) + w d • b) w d = L (quotB (bU K) A w d) + if d = 0 then b else 0 := by
  intro d
  induction d using Nat.strong_induction_on with
  | _ d ih =>
    rw [quotB_eq, quotB_eq (A := A)]
    rcases Nat.eq_zero_or_pos d with rfl | hd
    · simp only [Finset.range_zero, Finset.sum_empty, sub_zero, smul_add, map_smul, smul_smul, inv_mul_cancel₀ hw, one_smul, if_true]
    · obtain ⟨e, rfl⟩ : ∃ e, d = e + 1 := ⟨d - 1, by omega⟩
      rw [if_neg (by omega), add_zero]
      have : ∑ i ∈ Finset.range (e + 1), (bU K (e+1) (i + 1) * w (i + 1)) •
            quotB (bU K) (fun d => L (A d) + w d • b) w (e + 1 - (i + 1)) =
          L (∑ i ∈ Finset.range (e + 1), (bU K (e+1) (i + 1) * w (i + 1)) • quotB (bU K) A w (e + 1 - (i + 1))) + w (e + 1) • b := by
        rw [Finset.sum_congr rfl (fun i hi => by rw [ih (e + 1 - (i + 1)) (by omega)])]
        simp only [smul_add, Finset.sum_add_distrib, map_sum, map_smul]
        congr 1
        rw [Finset.sum_range_succ, Finset.sum_eq_zero]
        · rw [bU_self, Nat.sub_self, if_pos rfl, one_mul, zero_add]
        · intro i hi
          rw [Finset.mem_range] at hi
          rw [if_neg (by omega), smul_zero]
      rw [this, map_smul, map_sub]
      congr 1
      abel

theorem quotB2_affine (L : V →ₗ[K] V) (b : V) {A : ℕ → ℕ → V} {w : ℕ → ℕ → K} (hw : w 0 0 ≠ 0) (D E : ℕ) (hD : D ≤ 60) (hE : E ≤ 60) : ∀ k l, k ≤ D → l ≤ E →
    quotB2 (bU K) (fun k l => L (A k l) + w k l • b) w k l = L (quotB2 (bU K) A w k l) + if k = 0 ∧ l = 0 then b else 0 := by
  have hb : ∀ d, d ≤ 60 → bU K d 0 = 1 := by
    intro d hd
    unfold bU
    split
    · rfl
    · have h0 : (factU 0 * factU (d - 0)) % 2 ^ 64 = factU d := by
        revert d
        decide +kernel
      rw [h0]
      have : factU d ≠ 0 := by
        have := fact_den_ne d hd 0 (by omega)
        rw [h0] at this
        exact this
      exact div_self (by exact_mod_cast this)
  intro k l hk hl
  symm
  refine quotB2_unique (C := fun k l => L (quotB2 (bU K) A w k l) + if k = 0 ∧ l = 0 then b else 0) hw D E ?_ ?_ k l hk hl
  · rintro d (hd | hd)
    · exact hb d (by omega)
    · exact hb d (by omega)
  · intro k l hk hl
    simp only [smul_add, Finset.sum_add_distrib]
    congr 1
    · have := congrArg L (quotB2_rule (b := bU K) (A := A) (w := w) hw k l (hb k (by omega)) (hb l (by omega)))
      simpa only [map_sum, map_smul] using this
    · rw [Finset.sum_eq_single k, Finset.sum_eq_single l]
      · rw [bU_self, bU_self, if_pos ⟨by omega, by omega⟩, one_mul, one_mul]
      · intro j hj hne
        rw [Finset.mem_range] at hj
        rw [if_neg (by omega), smul_zero]
      · intro h; exact absurd (Finset.mem_range.mpr (by omega)) h
      · intro i hi hne
        rw [Finset.mem_range] at hi
        apply Finset.sum_eq_zero
        intro j _
        rw [if_neg (by omega), smul_zero]
      · intro h; exact absurd (Finset.mem_range.mpr (by omega)) h

end Gbs
