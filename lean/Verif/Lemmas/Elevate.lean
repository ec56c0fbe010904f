import Verif.Lemmas.Blossom
import Mathlib.Data.Nat.Choose.Basic
import Mathlib.Data.Nat.Cast.Field
import Mathlib.Tactic.Module
import Mathlib.Tactic.Abel

/-! # Blossoms of a degree-elevated polynomial -/

namespace Gbs

set_option linter.unusedSectionVars false

variable {K : Type} [Field K] [LinearOrder K] [IsStrictOrderedRing K]
variable {V : Type} [AddCommGroup V] [Module K V]

/-- Sum over the ways of erasing one argument. -/
def er : (List K → V) → List K → V
  | _, [] => 0
  | F, x :: xs => F xs + er (fun ys => F (x :: ys)) xs

theorem er_congr : ∀ (xs : List K) (F G : List K → V), (∀ ys, ys.length + 1 = xs.length → F ys = G ys) → er F xs = er G xs := by
  intro xs
  induction xs with
  | nil => intros; rfl
  | cons x xs ih =>
    intro F G h
    rw [er, er, h xs (by simp), ih _ _ (fun ys hy => h (x :: ys) (by simp [hy]))]

theorem er_lin : ∀ (xs : List K) (F G : List K → V) (a b : K), er (fun ys => a • F ys + b • G ys) xs = a • er F xs + b • er G xs := by
  intro xs
  induction xs with
  | nil => intros; simp [er]
  | cons x xs ih =>
    intro F G a b
    simp only [er]
    rw [ih]
    module

theorem er_perm {xs ys : List K} (h : xs.Perm ys) : ∀ (F : List K → V),
    (∀ {l l' : List K}, l.length + 1 = xs.length → l.Perm l' → F l = F l') → er F xs = er F ys := by
  induction h with
  | nil => intros; rfl
  | cons x h ih =>
    intro F hF
    rw [er, er, hF (by simp) h, ih _ (fun hl hp => hF (by simp [hl]) (hp.cons x))]
  | swap x y l =>
    intro F hF
    simp only [er]
    rw [er_congr l (fun ys => F (y :: x :: ys)) (fun ys => F (x :: y :: ys))
      (fun ys hy => hF (by simp [hy]) (List.Perm.swap _ _ _))]
    abel
  | trans h1 h2 ih1 ih2 =>
    intro F hF
    rw [ih1 F hF, ih2 F (fun hl hp => hF (by rw [hl, h1.length_eq]) hp)]

theorem er_append : ∀ (l l' : List K) (F : List K → V),
    er F (l ++ l') = er (fun ys => F (ys ++ l')) l + er (fun ys => F (l ++ ys)) l' := by
  intro l
  induction l with
  | nil => intros; simp [er]
  | cons x l ih =>
    intro l' F
    simp only [List.cons_append, er]
    rw [ih]
    abel

theorem er_replicate (v : K) : ∀ (n : ℕ) (F : List K → V), er F (List.replicate n v) = (n : K) • F (List.replicate (n - 1) v) := by
  intro n
  induction n with
  | zero => intro F; simp [er]
  | succ n ih =>
    intro F
    rw [List.replicate_succ, er, ih]
    simp only [Nat.add_sub_cancel]
    cases n with
    | zero => simp
    | succ n =>
      rw [Nat.add_sub_cancel, ← List.replicate_succ]
      push_cast
      module

/-- The blossom of degree `p+1` of the polynomial with the blossom `F` of degree `p`. -/
noncomputable def elev (p : ℕ) (F : List K → V) (xs : List K) : V := ((p : K) + 1)⁻¹ • er F xs

/-- Elevation `t` times. -/
noncomputable def elevN (p : ℕ) : ℕ → (List K → V) → List K → V
  | 0, F => F
  | t + 1, F => elev (p + t) (elevN p t F)

theorem IsBlossom.elev {p : ℕ} {F : List K → V} (h : IsBlossom p F) : IsBlossom (p + 1) (elev p F) where
  perm hx hp := by
    unfold Gbs.elev
    rw [er_perm hp F (fun hl hp' => h.perm (by omega) hp')]
  affine xs y z a b hx hab := by
    unfold Gbs.elev
    simp only [er]
    rw [er_congr xs _ (fun ys => a • F (y :: ys) + b • F (z :: ys)) (fun ys hy => h.affine ys y z a b (by omega) hab), er_lin]
    have hb : b = 1 - a := by linear_combination hab
    subst hb
    module

theorem IsBlossom.elevN {p : ℕ} {F : List K → V} (h : IsBlossom p F) : ∀ t, IsBlossom (p + t) (elevN p t F)
  | 0 => h
  | t + 1 => (IsBlossom.elevN h t).elev

theorem elev_diag {p : ℕ} (F : List K → V) (v : K) : elev p F (List.replicate (p + 1) v) = F (List.replicate p v) := by
  unfold elev
  rw [er_replicate, Nat.add_sub_cancel, smul_smul]
  push_cast
  rw [inv_mul_cancel₀ (by positivity), one_smul]

theorem elevN_diag {p : ℕ} (F : List K → V) (v : K) : ∀ t, elevN p t F (List.replicate (p + t) v) = F (List.replicate p v)
  | 0 => rfl
  | t + 1 => by
    have := elev_diag (p := p + t) (elevN p t F) v
    rw [elevN_diag F v t] at this
    exact this

/-- Two forms that agree as soon as `s` arguments are `u`. -/
def AgreeAt (p : ℕ) (F G : List K → V) (u : K) (s : ℕ) : Prop :=
  ∀ ys : List K, s + ys.length = p → F (List.replicate s u ++ ys) = G (List.replicate s u ++ ys)

theorem AgreeAt.mono {p : ℕ} {F G : List K → V} {u : K} {s s' : ℕ} (h : AgreeAt p F G u s) (hs : s ≤ s') : AgreeAt p F G u s' := by
  intro ys hy
  rw [show s' = s + (s' - s) by omega, List.replicate_add, List.append_assoc]
  exact h _ (by simp; omega)

theorem AgreeAt.elev {p : ℕ} {F G : List K → V} {u : K} {s : ℕ} (h : AgreeAt p F G u s) :
    AgreeAt (p + 1) (elev p F) (elev p G) u (s + 1) := by
  intro ys hy
  unfold Gbs.elev
  rw [er_append, er_append, er_replicate, er_replicate, Nat.add_sub_cancel, h ys (by omega)]
  congr 2
  apply er_congr
  intro zs hz
  exact h.mono (Nat.le_succ s) zs (by omega)

theorem AgreeAt.elevN {p : ℕ} {F G : List K → V} {u : K} {s : ℕ} (h : AgreeAt p F G u s) :
    ∀ t, AgreeAt (p + t) (elevN p t F) (elevN p t G) u (s + t)
  | 0 => h
  | t + 1 => (AgreeAt.elevN h t).elev

/-- The elevated blossom at two values. -/
theorem elevN_two (p : ℕ) (F : List K → V) (a b : K) : ∀ t i, i ≤ p + t →
    elevN p t F (List.replicate (p + t - i) a ++ List.replicate i b) =
      ∑ j ∈ Finset.range (p + 1), ((p.choose j : K) * ((if j ≤ i then t.choose (i - j) else 0 : ℕ) : K) / ((p + t).choose i : K)) •
        F (List.replicate (p - j) a ++ List.replicate j b) := by
  intro t
  induction t with
  | zero =>
    intro i hi
    rw [Finset.sum_eq_single i]
    · rw [if_pos le_rfl]
      have : (p.choose i : K) ≠ 0 := by exact_mod_cast (Nat.choose_pos hi).ne'
      simp [elevN, this]
    · intro j hj hji
      have : (if j ≤ i then Nat.choose 0 (i - j) else 0) = 0 := by
        split
        · rw [Nat.choose_eq_zero_of_lt (by omega)]
        · rfl
      rw [this]; simp
    · intro h; exact absurd (Finset.mem_range.mpr (by omega)) h
  | succ t ih =>
    intro i hi
    rw [elevN, elev, er_append, er_replicate, er_replicate]
    have hq : ((p + t : ℕ) : K) + 1 ≠ 0 := by positivity
    have hC : (((p + (t + 1)).choose i : ℕ) : K) ≠ 0 := by exact_mod_cast (Nat.choose_pos hi).ne'
    rw [smul_add, smul_smul, smul_smul]
    have e1 : ((((p + t : ℕ) : K) + 1)⁻¹ * ((p + (t + 1) - i : ℕ) : K)) •
        elevN p t F (List.replicate (p + (t + 1) - i - 1) a ++ List.replicate i b) =
        ∑ j ∈ Finset.range (p + 1), ((p.choose j : K) * ((if j ≤ i then t.choose (i - j) else 0 : ℕ) : K) / ((p + (t + 1)).choose i : K)) •
        F (List.replicate (p - j) a ++ List.replicate j b) := by
      rcases Nat.lt_or_ge i (p + t + 1) with h | h
      · rw [show p + (t + 1) - i - 1 = p + t - i by omega, ih i (by omega), Finset.smul_sum]
        apply Finset.sum_congr rfl
        intro j _
        rw [smul_smul]
        congr 1
        have hc' : ((p + t : ℕ) + 1 : K) * ((p + t).choose i : K) = ((p + (t + 1)).choose i : K) * ((p + (t + 1) - i : ℕ) : K) := by
          have := Nat.choose_mul_succ_eq (p + t) i
          have h2 : ((p + t).choose i * (p + t + 1) : ℕ) = (p + (t + 1)).choose i * (p + (t + 1) - i) := this
          have h3 := congrArg (Nat.cast : ℕ → K) h2
          push_cast at h3 ⊢
          rw [← h3]; ring
        have hD : (((p + t).choose i : ℕ) : K) ≠ 0 := by exact_mod_cast (Nat.choose_pos (show i ≤ p + t by omega)).ne'
        field_simp
        linear_combination (-(p.choose j : K) * ((if j ≤ i then t.choose (i - j) else 0 : ℕ) : K)) * hc'
      · rw [show p + (t + 1) - i = 0 by omega]
        rw [Nat.cast_zero, mul_zero, zero_smul, eq_comm]
        apply Finset.sum_eq_zero
        intro j hj
        have := Finset.mem_range.mp hj
        rw [if_pos (by omega), Nat.choose_eq_zero_of_lt (show t < i - j by omega)]
        simp
    have e2 : ((((p + t : ℕ) : K) + 1)⁻¹ * (i : K)) •
        elevN p t F (List.replicate (p + (t + 1) - i) a ++ List.replicate (i - 1) b) =
        ∑ j ∈ Finset.range (p + 1), ((p.choose j : K) * ((if j + 1 ≤ i then t.choose (i - 1 - j) else 0 : ℕ) : K) / ((p + (t + 1)).choose i : K)) •
        F (List.replicate (p - j) a ++ List.replicate j b) := by
      rcases Nat.eq_zero_or_pos i with rfl | h
      · simp
      · rw [show p + (t + 1) - i = p + t - (i - 1) by omega, ih (i - 1) (by omega), Finset.smul_sum]
        apply Finset.sum_congr rfl
        intro j _
        rw [smul_smul]
        congr 1
        have e : (if j ≤ i - 1 then t.choose (i - 1 - j) else 0) = if j + 1 ≤ i then t.choose (i - 1 - j) else 0 := by
          by_cases hj : j + 1 ≤ i
          · rw [if_pos hj, if_pos (by omega)]
          · rw [if_neg hj, if_neg (by omega)]
        rw [e]
        have hc' : ((p + t : ℕ) + 1 : K) * ((p + t).choose (i - 1) : K) = ((p + (t + 1)).choose i : K) * (i : K) := by
          have := Nat.add_one_mul_choose_eq (p + t) (i - 1)
          rw [show (i - 1) + 1 = i by omega] at this
          have h3 := congrArg (Nat.cast : ℕ → K) this
          push_cast at h3 ⊢
          exact h3
        have hD : (((p + t).choose (i - 1) : ℕ) : K) ≠ 0 := by exact_mod_cast (Nat.choose_pos (show i - 1 ≤ p + t by omega)).ne'
        field_simp
        linear_combination (-(p.choose j : K) * ((if j + 1 ≤ i then t.choose (i - 1 - j) else 0 : ℕ) : K)) * hc'
    have key : ∀ (A B : V), A = ∑ j ∈ Finset.range (p + 1), ((p.choose j : K) * ((if j ≤ i then t.choose (i - j) else 0 : ℕ) : K) / ((p + (t + 1)).choose i : K)) •
        F (List.replicate (p - j) a ++ List.replicate j b) →
        B = ∑ j ∈ Finset.range (p + 1), ((p.choose j : K) * ((if j + 1 ≤ i then t.choose (i - 1 - j) else 0 : ℕ) : K) / ((p + (t + 1)).choose i : K)) •
        F (List.replicate (p - j) a ++ List.replicate j b) →
        A + B = ∑ j ∈ Finset.range (p + 1), ((p.choose j : K) * ((if j ≤ i then (t + 1).choose (i - j) else 0 : ℕ) : K) / ((p + (t + 1)).choose i : K)) •
        F (List.replicate (p - j) a ++ List.replicate j b) := by
      intro A B hA hB
      rw [hA, hB, ← Finset.sum_add_distrib]
      apply Finset.sum_congr rfl
      intro j _
      rw [← add_smul, ← add_div, ← mul_add]
      congr 3
      rw [← Nat.cast_add]
      congr 1
      by_cases h1 : j ≤ i
      · rw [if_pos h1, if_pos h1]
        by_cases h2 : j + 1 ≤ i
        · rw [if_pos h2, show i - j = (i - 1 - j) + 1 by omega, Nat.choose_succ_succ', add_comm]
        · rw [if_neg h2, show i - j = 0 by omega]; simp
      · rw [if_neg h1, if_neg h1, if_neg (by omega)]
    exact key _ _ e1 e2

end Gbs
