import Verif.Props.Geom2
import Mathlib.Data.Sym.Sym2
import Mathlib.Data.ZMod.Basic
import Mathlib.Algebra.BigOperators.Group.Finset.Basic
import Mathlib.Tactic.Linarith
import Mathlib.Data.Nat.ModEq
import Mathlib.Tactic.NormNum
import Mathlib.Algebra.BigOperators.Group.List.Basic

/-!
# C66: segments, C67: point in polygon
-/

set_option linter.unusedSectionVars false

open scoped BigOperators

namespace Gbs

variable {K : Type} [Field K] [LinearOrder K] [IsStrictOrderedRing K]

/-! ## Segments -/

/-- C66: `seg_seg_strict_intersection` never divides by zero, and is true exactly when the segments are not degenerate or nearly parallel and meet
at a point whose parameters on both are in the open interval `(tol, 1 - tol)`. -/
theorem C66_seg_seg {tol : K} (htol : 0 < tol) (a b c d : K × K) :
    ∃ r, segSegStrict tol a b c d = .ok r ∧
      (r = true ↔ tol ≤ |(b.1 - a.1) * (d.2 - c.2) - (b.2 - a.2) * (d.1 - c.1)| ∧ (tol ≤ |b.1 - a.1| ∨ tol ≤ |b.2 - a.2|) ∧
        (tol ≤ |d.1 - c.1| ∨ tol ≤ |d.2 - c.2|) ∧
        ∃ s t : K, tol < s ∧ s < 1 - tol ∧ tol < t ∧ t < 1 - tol ∧ a + t • (b - a) = c + s • (d - c)) := by
  have hD : -(d.1 - c.1) * (b.2 - a.2) + (b.1 - a.1) * (d.2 - c.2) = (b.1 - a.1) * (d.2 - c.2) - (b.2 - a.2) * (d.1 - c.1) := by ring
  simp only [segSegStrict, hD]
  set D := (b.1 - a.1) * (d.2 - c.2) - (b.2 - a.2) * (d.1 - c.1) with hDdef
  by_cases h : |D| < tol ∨ (|b.1 - a.1| < tol ∧ |b.2 - a.2| < tol) ∨ (|d.1 - c.1| < tol ∧ |d.2 - c.2| < tol)
  · rw [if_pos h]
    refine ⟨false, rfl, ?_⟩
    simp only [Bool.false_eq_true, false_iff]
    rintro ⟨h1, h2, h3, _⟩
    rcases h with h | ⟨h, h'⟩ | ⟨h, h'⟩
    · exact absurd h (not_lt.mpr h1)
    · rcases h2 with h2 | h2
      · exact absurd h (not_lt.mpr h2)
      · exact absurd h' (not_lt.mpr h2)
    · rcases h3 with h2 | h2
      · exact absurd h (not_lt.mpr h2)
      · exact absurd h' (not_lt.mpr h2)
  · rw [if_neg h]
    push Not at h
    have hD0 : D ≠ 0 := fun h' => by rw [h', abs_zero] at h; exact absurd h.1 (not_le.mpr htol)
    rw [fdiv_ok hD0, fdiv_ok hD0]
    refine ⟨_, rfl, ?_⟩
    simp only [Bool.and_eq_true, decide_eq_true_eq]
    constructor
    · rintro ⟨⟨⟨h1, h2⟩, h3⟩, h4⟩
      refine ⟨h.1, ?_, ?_, _, _, h1, h2, h3, h4, ?_⟩
      · by_contra hc; push Not at hc; exact absurd hc.2 (not_lt.mpr (h.2.1 hc.1))
      · by_contra hc; push Not at hc; exact absurd hc.2 (not_lt.mpr (h.2.2 hc.1))
      · ext
        · simp only [Prod.fst_add, Prod.smul_fst, Prod.fst_sub, smul_eq_mul]
          field_simp
          rw [hDdef]; ring
        · simp only [Prod.snd_add, Prod.smul_snd, Prod.snd_sub, smul_eq_mul]
          field_simp
          rw [hDdef]; ring
    · rintro ⟨_, _, _, s, t, h1, h2, h3, h4, he⟩
      have e1 := congrArg Prod.fst he
      have e2 := congrArg Prod.snd he
      simp only [Prod.fst_add, Prod.snd_add, Prod.smul_fst, Prod.smul_snd, Prod.fst_sub, Prod.snd_sub, smul_eq_mul] at e1 e2
      have hs : (-(b.2 - a.2) * (a.1 - c.1) + (b.1 - a.1) * (a.2 - c.2)) / D = s := by
        rw [div_eq_iff hD0, hDdef]
        linear_combination (b.1 - a.1) * e2 - (b.2 - a.2) * e1
      have ht : ((d.1 - c.1) * (a.2 - c.2) - (d.2 - c.2) * (a.1 - c.1)) / D = t := by
        rw [div_eq_iff hD0, hDdef]
        linear_combination (d.1 - c.1) * e2 - (d.2 - c.2) * e1
      rw [hs, ht]
      exact ⟨⟨⟨h1, h2⟩, h3⟩, h4⟩

/-- C66: `seg_D_strict_end_intersection` is true exactly when the segment, without its end, meets the half-line, and they are not degenerate or
nearly parallel. -/
theorem C66_seg_ray {tol : K} (htol : 0 < tol) (a b c D : K × K) :
    ∃ r, segDStrict tol a b c D = .ok r ∧
      (r = true ↔ tol ≤ |(b.1 - a.1) * D.2 - (b.2 - a.2) * D.1| ∧ (tol ≤ |b.1 - a.1| ∨ tol ≤ |b.2 - a.2|) ∧
        ∃ s t : K, 0 < s ∧ 0 ≤ t ∧ t < 1 ∧ a + t • (b - a) = c + s • D) := by
  have hD : -D.1 * (b.2 - a.2) + (b.1 - a.1) * D.2 = (b.1 - a.1) * D.2 - (b.2 - a.2) * D.1 := by ring
  simp only [segDStrict, hD]
  set E := (b.1 - a.1) * D.2 - (b.2 - a.2) * D.1 with hDdef
  by_cases h : |E| < tol ∨ (|b.1 - a.1| < tol ∧ |b.2 - a.2| < tol)
  · rw [if_pos h]
    refine ⟨false, rfl, ?_⟩
    simp only [Bool.false_eq_true, false_iff]
    rintro ⟨h1, h2, _⟩
    rcases h with h | ⟨h, h'⟩
    · exact absurd h (not_lt.mpr h1)
    · rcases h2 with h2 | h2
      · exact absurd h (not_lt.mpr h2)
      · exact absurd h' (not_lt.mpr h2)
  · rw [if_neg h]
    push Not at h
    have hD0 : E ≠ 0 := fun h' => by rw [h', abs_zero] at h; exact absurd h.1 (not_le.mpr htol)
    rw [fdiv_ok hD0, fdiv_ok hD0]
    refine ⟨_, rfl, ?_⟩
    simp only [Bool.and_eq_true, decide_eq_true_eq]
    constructor
    · rintro ⟨⟨h1, h2⟩, h3⟩
      refine ⟨h.1, ?_, _, _, h1, h2, h3, ?_⟩
      · by_contra hc; push Not at hc; exact absurd hc.2 (not_lt.mpr (h.2 hc.1))
      · ext
        · simp only [Prod.fst_add, Prod.smul_fst, Prod.fst_sub, smul_eq_mul]
          field_simp
          rw [hDdef]; ring
        · simp only [Prod.snd_add, Prod.smul_snd, Prod.snd_sub, smul_eq_mul]
          field_simp
          rw [hDdef]; ring
    · rintro ⟨_, _, s, t, h1, h2, h3, he⟩
      have e1 := congrArg Prod.fst he
      have e2 := congrArg Prod.snd he
      simp only [Prod.fst_add, Prod.snd_add, Prod.smul_fst, Prod.smul_snd, Prod.fst_sub, Prod.snd_sub, smul_eq_mul] at e1 e2
      have hs : (-(b.2 - a.2) * (a.1 - c.1) + (b.1 - a.1) * (a.2 - c.2)) / E = s := by
        rw [div_eq_iff hD0, hDdef]
        linear_combination (b.1 - a.1) * e2 - (b.2 - a.2) * e1
      have ht : (D.1 * (a.2 - c.2) - D.2 * (a.1 - c.1)) / E = t := by
        rw [div_eq_iff hD0, hDdef]
        linear_combination D.1 * e2 - D.2 * e1
      rw [hs, ht]
      exact ⟨⟨h1, h2⟩, h3⟩

/-- The points of the closed segment. -/
def Spec.OnSeg (a b p : K × K) : Prop := ∃ t : K, 0 ≤ t ∧ t ≤ 1 ∧ p = a + t • (b - a)

/-- C66: a point of a segment that is not reduced to a point is accepted by `on_segment` for every tolerance; with a null tolerance these are the
only points accepted; and an accepted point shares its abscissa or its ordinate (that of the longest extent of the segment) with a point of the
segment at a distance at most the tolerance divided by that extent. -/
theorem C66_on_segment {tol : K} (htol : 0 ≤ tol) {a b : K × K} (hab : a ≠ b) (p : K × K) :
    (Spec.OnSeg a b p → onSegment tol a b p = true) ∧
    (onSegment 0 a b p = true ↔ Spec.OnSeg a b p) ∧
    (onSegment tol a b p = true → ∃ q, Spec.OnSeg a b q ∧
      ((|b.2 - a.2| ≤ |b.1 - a.1| ∧ p.1 = q.1 ∧ |p.2 - q.2| * |b.1 - a.1| ≤ tol) ∨
       (|b.1 - a.1| < |b.2 - a.2| ∧ p.2 = q.2 ∧ |p.1 - q.1| * |b.2 - a.2| ≤ tol))) := by
  have hne : b.1 - a.1 ≠ 0 ∨ b.2 - a.2 ≠ 0 := by
    by_contra hc
    push Not at hc
    exact hab (Prod.ext (by linear_combination -hc.1) (by linear_combination -hc.2))
  have h1ne : |b.2 - a.2| ≤ |b.1 - a.1| → b.1 - a.1 ≠ 0 := by
    intro h h0
    rw [h0, abs_zero] at h
    exact (hne.resolve_left (not_not.mpr h0)) (abs_nonpos_iff.mp h)
  have h2ne : |b.1 - a.1| < |b.2 - a.2| → b.2 - a.2 ≠ 0 := by
    intro h h0
    rw [h0, abs_zero] at h
    exact absurd h (not_lt.mpr (abs_nonneg _))
  have fwd : ∀ tol : K, 0 ≤ tol → Spec.OnSeg a b p → onSegment tol a b p = true := by
    rintro tol htol ⟨t, h0, h1, rfl⟩
    simp only [onSegment, Prod.fst_add, Prod.snd_add, Prod.smul_fst, Prod.smul_snd, Prod.fst_sub, Prod.snd_sub, smul_eq_mul]
    have : (b.1 - a.1) * (a.2 + t * (b.2 - a.2) - a.2) - (a.1 + t * (b.1 - a.1) - a.1) * (b.2 - a.2) = 0 := by ring
    rw [this, abs_zero, if_neg (not_lt.mpr htol), if_neg hab]
    by_cases h : |b.2 - a.2| ≤ |b.1 - a.1|
    · rw [if_pos h]
      have : (a.1 + t * (b.1 - a.1) - a.1) / (b.1 - a.1) = t := by rw [div_eq_iff (h1ne h)]; ring
      rw [this]
      simp [h0, h1]
    · rw [if_neg h]
      have : (a.2 + t * (b.2 - a.2) - a.2) / (b.2 - a.2) = t := by rw [div_eq_iff (h2ne (not_le.mp h))]; ring
      rw [this]
      simp [h0, h1]
  have bwd : ∀ tol : K, 0 ≤ tol → onSegment tol a b p = true → ∃ q, Spec.OnSeg a b q ∧
      ((|b.2 - a.2| ≤ |b.1 - a.1| ∧ p.1 = q.1 ∧ |p.2 - q.2| * |b.1 - a.1| ≤ tol) ∨
       (|b.1 - a.1| < |b.2 - a.2| ∧ p.2 = q.2 ∧ |p.1 - q.1| * |b.2 - a.2| ≤ tol)) := by
    intro tol htol h
    simp only [onSegment] at h
    by_cases hc : tol < |(b.1 - a.1) * (p.2 - a.2) - (p.1 - a.1) * (b.2 - a.2)|
    · rw [if_pos hc] at h; cases h
    · rw [if_neg hc, if_neg hab] at h
      rw [not_lt] at hc
      by_cases hm : |b.2 - a.2| ≤ |b.1 - a.1|
      · rw [if_pos hm] at h
        simp only [Bool.and_eq_true, decide_eq_true_eq] at h
        have hb := h1ne hm
        have hp : (p.1 - a.1) / (b.1 - a.1) * (b.1 - a.1) = p.1 - a.1 := div_mul_cancel₀ _ hb
        refine ⟨a + ((p.1 - a.1) / (b.1 - a.1)) • (b - a), ⟨_, h.1, h.2, rfl⟩, Or.inl ⟨hm, ?_, ?_⟩⟩
        · simp only [Prod.fst_add, Prod.smul_fst, Prod.fst_sub, smul_eq_mul]
          linear_combination -hp
        · simp only [Prod.snd_add, Prod.smul_snd, Prod.snd_sub, smul_eq_mul]
          rw [← abs_mul]
          refine le_of_eq_of_le (congrArg _ ?_) hc
          linear_combination -(b.2 - a.2) * hp
      · rw [if_neg hm] at h
        simp only [Bool.and_eq_true, decide_eq_true_eq] at h
        have hb := h2ne (not_le.mp hm)
        have hp : (p.2 - a.2) / (b.2 - a.2) * (b.2 - a.2) = p.2 - a.2 := div_mul_cancel₀ _ hb
        refine ⟨a + ((p.2 - a.2) / (b.2 - a.2)) • (b - a), ⟨_, h.1, h.2, rfl⟩, Or.inr ⟨not_le.mp hm, ?_, ?_⟩⟩
        · simp only [Prod.snd_add, Prod.smul_snd, Prod.snd_sub, smul_eq_mul]
          linear_combination -hp
        · simp only [Prod.fst_add, Prod.smul_fst, Prod.fst_sub, smul_eq_mul]
          rw [← abs_mul, ← abs_neg]
          refine le_of_eq_of_le (congrArg _ ?_) hc
          linear_combination (b.1 - a.1) * hp
  refine ⟨fwd tol htol, ⟨fun h => ?_, fwd 0 le_rfl⟩, bwd tol htol⟩
  obtain ⟨q, hq, ⟨hm, h1, h2⟩ | ⟨hm, h1, h2⟩⟩ := bwd 0 le_rfl h
  · have h3 : |p.2 - q.2| * |b.1 - a.1| = 0 := le_antisymm h2 (mul_nonneg (abs_nonneg _) (abs_nonneg _))
    have h4 := (mul_eq_zero.mp h3).resolve_right (fun h5 => h1ne hm (abs_eq_zero.mp h5))
    have : p = q := Prod.ext h1 (sub_eq_zero.mp (abs_eq_zero.mp h4))
    rw [this]; exact hq
  · have h3 : |p.1 - q.1| * |b.2 - a.2| = 0 := le_antisymm h2 (mul_nonneg (abs_nonneg _) (abs_nonneg _))
    have h4 := (mul_eq_zero.mp h3).resolve_right (fun h5 => h2ne hm (abs_eq_zero.mp h5))
    have : p = q := Prod.ext (sub_eq_zero.mp (abs_eq_zero.mp h4)) h1
    rw [this]; exact hq

/-- C66 needs distinct end points: on a segment reduced to a point even that point is refused. -/
theorem C66_point_segment_witness : ∃ a : ℚ × ℚ, onSegment 1 a a a = false := ⟨(0, 0), by decide +kernel⟩

/-! ## Point in polygon -/

/-- Whether the ray crosses an edge, by orientation. -/
theorem rayCrosses_iff (p a b : K × K) : rayCrosses p a b = true ↔
    (p.2 < a.2 ∧ b.2 ≤ p.2 ∧ orient2d a b p < 0) ∨ (p.2 < b.2 ∧ a.2 ≤ p.2 ∧ 0 < orient2d a b p) := by
  unfold rayCrosses
  by_cases ha : p.2 < a.2 <;> by_cases hb : p.2 < b.2
  · simp [ha, hb, not_le.mpr ha, not_le.mpr hb]
  · have hd : b.2 - a.2 < 0 := by linarith [not_lt.mp hb]
    simp only [ha, hb, decide_true, decide_false, ne_eq, Bool.true_eq_false, not_false_eq_true, if_true, decide_eq_true_eq, true_and, false_and,
      or_false, not_lt.mp hb]
    rw [← sub_lt_iff_lt_add', lt_div_iff_of_neg hd]
    unfold orient2d
    constructor <;> intro h <;> linarith
  · have hd : 0 < b.2 - a.2 := by linarith [not_lt.mp ha]
    simp only [ha, hb, decide_true, decide_false, ne_eq, Bool.false_eq_true, not_false_eq_true, if_true, decide_eq_true_eq, true_and, false_and,
      false_or, not_lt.mp ha]
    rw [← sub_lt_iff_lt_add', lt_div_iff₀ hd]
    unfold orient2d
    constructor <;> intro h <;> linarith
  · simp [ha, hb]

theorem rayCrosses_comm (p a b : K × K) : rayCrosses p a b = rayCrosses p b a := by
  rw [Bool.eq_iff_iff, rayCrosses_iff, rayCrosses_iff]
  have : orient2d b a p = -orient2d a b p := by unfold orient2d; ring
  rw [this]
  constructor
  · rintro (⟨h1, h2, h3⟩ | ⟨h1, h2, h3⟩)
    · exact Or.inr ⟨h1, h2, by linarith⟩
    · exact Or.inl ⟨h1, h2, by linarith⟩
  · rintro (⟨h1, h2, h3⟩ | ⟨h1, h2, h3⟩)
    · exact Or.inr ⟨h1, h2, by linarith⟩
    · exact Or.inl ⟨h1, h2, by linarith⟩

/-- A point of the line of an edge, at a height within the edge, is on the edge. -/
theorem onSeg_of_straddle {a b p : K × K} (h : orient2d a b p = 0) (h1 : p.2 < a.2 ∧ b.2 ≤ p.2 ∨ p.2 < b.2 ∧ a.2 ≤ p.2) : Spec.OnSeg a b p := by
  have hd : b.2 - a.2 ≠ 0 := by
    rcases h1 with ⟨h1, h2⟩ | ⟨h1, h2⟩
    · exact (by linarith : b.2 - a.2 < 0).ne
    · exact (by linarith : 0 < b.2 - a.2).ne'
  have hp : (p.2 - a.2) / (b.2 - a.2) * (b.2 - a.2) = p.2 - a.2 := div_mul_cancel₀ _ hd
  refine ⟨(p.2 - a.2) / (b.2 - a.2), ?_, ?_, ?_⟩
  · rcases h1 with ⟨h1, h2⟩ | ⟨h1, h2⟩
    · exact div_nonneg_of_nonpos (by linarith) (by linarith)
    · exact div_nonneg (by linarith) (by linarith)
  · rcases h1 with ⟨h1, h2⟩ | ⟨h1, h2⟩
    · rw [div_le_one_of_neg (by linarith)]; linarith
    · rw [div_le_one (by linarith)]; linarith
  · ext
    · simp only [Prod.fst_add, Prod.smul_fst, Prod.fst_sub, smul_eq_mul]
      have : (p.1 - a.1 - (p.2 - a.2) / (b.2 - a.2) * (b.1 - a.1)) * (b.2 - a.2) = 0 := by
        unfold orient2d at h
        linear_combination -(b.1 - a.1) * hp - h
      have := (mul_eq_zero.mp this).resolve_right hd
      linear_combination this
    · simp only [Prod.snd_add, Prod.smul_snd, Prod.snd_sub, smul_eq_mul]
      linear_combination -hp

/-- A point on the line of an edge of a triangle, on the right side of the two others, is on the edge. -/
theorem onSeg_of_zero {a b c p : K × K} (hw : 0 < orient2d a b c) (h : orient2d a b p = 0) (h2 : 0 ≤ orient2d b c p) (h3 : 0 ≤ orient2d c a p) :
    Spec.OnSeg a b p := by
  have hs := (C45_orient a b c).2.2.2.2.2.1 p
  have hc := orient_combination a b c p
  rw [h, zero_smul, add_zero] at hc
  refine ⟨orient2d c a p / orient2d a b c, div_nonneg h3 hw.le, ?_, ?_⟩
  · rw [div_le_one hw]; linarith
  · have c1 := congrArg Prod.fst hc
    have c2 := congrArg Prod.snd hc
    simp only [Prod.fst_add, Prod.snd_add, Prod.smul_fst, Prod.smul_snd, smul_eq_mul] at c1 c2
    ext
    · simp only [Prod.fst_add, Prod.smul_fst, Prod.fst_sub, smul_eq_mul]
      field_simp
      linear_combination c1 + a.1 * (hs - h)
    · simp only [Prod.snd_add, Prod.smul_snd, Prod.snd_sub, smul_eq_mul]
      field_simp
      linear_combination c2 + a.2 * (hs - h)

/-- Number of edges of a triangle crossed by the ray, modulo two. -/
def triParity (p a b c : K × K) : Bool := (rayCrosses p a b ^^ rayCrosses p b c) ^^ rayCrosses p c a

theorem triParity_rotate (p a b c : K × K) : triParity p b c a = triParity p a b c := by
  unfold triParity
  cases rayCrosses p a b <;> cases rayCrosses p b c <;> cases rayCrosses p c a <;> rfl

/-- Strictly inside. -/
def StrictIn (a b c p : K × K) : Prop := 0 < orient2d a b p ∧ 0 < orient2d b c p ∧ 0 < orient2d c a p

theorem height_identity (a b c p : K × K) :
    orient2d b c p * (a.2 - p.2) + orient2d c a p * (b.2 - p.2) + orient2d a b p * (c.2 - p.2) = 0 := by
  unfold orient2d; ring

/-- One vertex above the ray. -/
theorem triParity_one {a b c p : K × K} (hw : 0 < orient2d a b c) (n1 : ¬Spec.OnSeg a b p) (n2 : ¬Spec.OnSeg b c p) (n3 : ¬Spec.OnSeg c a p)
    (ha : p.2 < a.2) (hb : b.2 ≤ p.2) (hc : c.2 ≤ p.2) : triParity p a b c = true ↔ StrictIn a b c p := by
  have o1 : orient2d a b p ≠ 0 := fun h => n1 (onSeg_of_straddle h (Or.inl ⟨ha, hb⟩))
  have o3 : orient2d c a p ≠ 0 := fun h => n3 (onSeg_of_straddle h (Or.inr ⟨ha, hc⟩))
  have hs := (C45_orient a b c).2.2.2.2.2.1 p
  have hi := height_identity a b c p
  have r1 : rayCrosses p a b = decide (orient2d a b p < 0) := by
    rw [Bool.eq_iff_iff, rayCrosses_iff, decide_eq_true_eq]
    exact ⟨fun h => by rcases h with h | h; exacts [h.2.2, absurd h.1 (not_lt.mpr hb)], fun h => Or.inl ⟨ha, hb, h⟩⟩
  have r2 : rayCrosses p b c = false := by
    rw [Bool.eq_false_iff, ne_eq, rayCrosses_iff]
    rintro (h | h)
    exacts [absurd h.1 (not_lt.mpr hb), absurd h.1 (not_lt.mpr hc)]
  have r3 : rayCrosses p c a = decide (0 < orient2d c a p) := by
    rw [Bool.eq_iff_iff, rayCrosses_iff, decide_eq_true_eq]
    exact ⟨fun h => by rcases h with h | h; exacts [absurd h.1 (not_lt.mpr hc), h.2.2], fun h => Or.inr ⟨ha, hc, h⟩⟩
  unfold triParity StrictIn
  rw [r1, r2, r3, Bool.xor_false]
  rcases lt_or_gt_of_ne o1 with p1 | p1 <;> rcases lt_or_gt_of_ne o3 with p3 | p3
  · exfalso
    have : orient2d b c p * (a.2 - p.2) ≤ 0 := by nlinarith
    have h2 : orient2d b c p ≤ 0 := by
      by_contra hc'; push Not at hc'
      exact absurd this (not_le.mpr (mul_pos hc' (by linarith)))
    linarith
  · simp [p1, p3, not_lt.mpr p1.le]
  · simp [not_lt.mpr p1.le, not_lt.mpr p3.le]
  · simp only [not_lt.mpr p1.le, decide_false, p3, decide_true, Bool.false_xor, true_iff, p1, true_and, and_true]
    have h2 : 0 ≤ orient2d b c p := by
      by_contra hc'; push Not at hc'
      have := mul_neg_of_neg_of_pos hc' (sub_pos.mpr ha)
      nlinarith
    rcases h2.lt_or_eq with h | h
    · exact h
    · exfalso
      have := onSeg_of_zero (a := b) (b := c) (c := a) (p := p) (by rw [(C45_orient a b c).2.2.2.1]; exact hw) h.symm p3.le p1.le
      exact n2 this

/-- Two vertices above the ray. -/
theorem triParity_two {a b c p : K × K} (hw : 0 < orient2d a b c) (n1 : ¬Spec.OnSeg a b p) (n3 : ¬Spec.OnSeg c a p)
    (ha : a.2 ≤ p.2) (hb : p.2 < b.2) (hc : p.2 < c.2) : triParity p a b c = true ↔ StrictIn a b c p := by
  have o1 : orient2d a b p ≠ 0 := fun h => n1 (onSeg_of_straddle h (Or.inr ⟨hb, ha⟩))
  have o3 : orient2d c a p ≠ 0 := fun h => n3 (onSeg_of_straddle h (Or.inl ⟨hc, ha⟩))
  have hs := (C45_orient a b c).2.2.2.2.2.1 p
  have hi := height_identity a b c p
  have r1 : rayCrosses p a b = decide (0 < orient2d a b p) := by
    rw [Bool.eq_iff_iff, rayCrosses_iff, decide_eq_true_eq]
    exact ⟨fun h => by rcases h with h | h; exacts [absurd h.1 (not_lt.mpr ha), h.2.2], fun h => Or.inr ⟨hb, ha, h⟩⟩
  have r2 : rayCrosses p b c = false := by
    rw [Bool.eq_false_iff, ne_eq, rayCrosses_iff]
    rintro (h | h)
    exacts [absurd h.2.1 (not_le.mpr hc), absurd h.2.1 (not_le.mpr hb)]
  have r3 : rayCrosses p c a = decide (orient2d c a p < 0) := by
    rw [Bool.eq_iff_iff, rayCrosses_iff, decide_eq_true_eq]
    exact ⟨fun h => by rcases h with h | h; exacts [h.2.2, absurd h.1 (not_lt.mpr ha)], fun h => Or.inl ⟨hc, ha, h⟩⟩
  unfold triParity StrictIn
  rw [r1, r2, r3, Bool.xor_false]
  rcases lt_or_gt_of_ne o1 with p1 | p1 <;> rcases lt_or_gt_of_ne o3 with p3 | p3
  · exfalso
    have e1 := mul_neg_of_neg_of_pos p3 (sub_pos.mpr hb)
    have e2 := mul_neg_of_neg_of_pos p1 (sub_pos.mpr hc)
    have h2 : orient2d b c p ≤ 0 := by
      by_contra hc'; push Not at hc'
      have := mul_nonneg hc'.le (sub_nonneg.mpr ha)
      nlinarith
    linarith
  · simp [not_lt.mpr p1.le, not_lt.mpr p3.le]
  · simp [p1, p3, not_lt.mpr p3.le]
  · simp only [p1, decide_true, not_lt.mpr p3.le, decide_false, Bool.xor_false, true_iff, true_and, p3, and_true]
    by_contra hc'; push Not at hc'
    have e1 := mul_pos p3 (sub_pos.mpr hb)
    have e2 := mul_pos p1 (sub_pos.mpr hc)
    have := mul_nonneg (neg_nonneg.mpr hc') (sub_nonneg.mpr ha)
    nlinarith

theorem StrictIn.rotate {a b c p : K × K} : StrictIn b c a p ↔ StrictIn a b c p :=
  ⟨fun ⟨h1, h2, h3⟩ => ⟨h3, h1, h2⟩, fun ⟨h1, h2, h3⟩ => ⟨h2, h3, h1⟩⟩

/-- Off the edges of a counter-clockwise triangle the ray cast on its edges decides whether the point is inside. -/
theorem triParity_iff {a b c p : K × K} (hw : 0 < orient2d a b c) (n1 : ¬Spec.OnSeg a b p) (n2 : ¬Spec.OnSeg b c p) (n3 : ¬Spec.OnSeg c a p) :
    triParity p a b c = true ↔ StrictIn a b c p := by
  have hw2 : 0 < orient2d b c a := by rw [(C45_orient a b c).2.2.2.1]; exact hw
  have hw3 : 0 < orient2d c a b := by rw [(C45_orient b c a).2.2.2.1]; exact hw2
  have hi := height_identity a b c p
  by_cases ha : p.2 < a.2 <;> by_cases hb : p.2 < b.2 <;> by_cases hc : p.2 < c.2
  · have r : triParity p a b c = false := by
      have : ∀ x y : K × K, p.2 < x.2 → p.2 < y.2 → rayCrosses p x y = false := by
        intro x y hx hy
        rw [Bool.eq_false_iff, ne_eq, rayCrosses_iff]
        rintro (h | h)
        exacts [absurd h.2.1 (not_le.mpr hy), absurd h.2.1 (not_le.mpr hx)]
      simp [triParity, this a b ha hb, this b c hb hc, this c a hc ha]
    rw [r]
    simp only [Bool.false_eq_true, false_iff]
    rintro ⟨h1, h2, h3⟩
    have e1 := mul_pos h2 (sub_pos.mpr ha)
    have e2 := mul_pos h3 (sub_pos.mpr hb)
    have e3 := mul_pos h1 (sub_pos.mpr hc)
    linarith
  · rw [← triParity_rotate, ← triParity_rotate, ← StrictIn.rotate, ← StrictIn.rotate]
    exact triParity_two hw3 n3 n2 (not_lt.mp hc) ha hb
  · rw [← triParity_rotate, ← StrictIn.rotate]
    exact triParity_two hw2 n2 n1 (not_lt.mp hb) hc ha
  · exact triParity_one hw n1 n2 n3 ha (not_lt.mp hb) (not_lt.mp hc)
  · exact triParity_two hw n1 n3 (not_lt.mp ha) hb hc
  · rw [← triParity_rotate, ← StrictIn.rotate]
    exact triParity_one hw2 n2 n3 n1 hb (not_lt.mp hc) (not_lt.mp ha)
  · rw [← triParity_rotate, ← triParity_rotate, ← StrictIn.rotate, ← StrictIn.rotate]
    exact triParity_one hw3 n3 n1 n2 hc (not_lt.mp ha) (not_lt.mp hb)
  · have r : triParity p a b c = false := by
      have : ∀ x y : K × K, ¬p.2 < x.2 → ¬p.2 < y.2 → rayCrosses p x y = false := by
        intro x y hx hy
        rw [Bool.eq_false_iff, ne_eq, rayCrosses_iff]
        rintro (h | h)
        exacts [hx h.1, hy h.1]
      simp [triParity, this a b ha hb, this b c hb hc, this c a hc ha]
    rw [r]
    simp only [Bool.false_eq_true, false_iff]
    rintro ⟨h1, h2, h3⟩
    rw [not_lt] at ha hb hc
    have e1 := mul_nonneg h2.le (sub_nonneg.mpr ha)
    have e2 := mul_nonneg h3.le (sub_nonneg.mpr hb)
    have e3 := mul_nonneg h1.le (sub_nonneg.mpr hc)
    have z1 : orient2d b c p * (p.2 - a.2) = 0 := by linarith
    have z2 : orient2d c a p * (p.2 - b.2) = 0 := by linarith
    have z3 : orient2d a b p * (p.2 - c.2) = 0 := by linarith
    have y1 := (mul_eq_zero.mp z1).resolve_left h2.ne'
    have y2 := (mul_eq_zero.mp z2).resolve_left h3.ne'
    have y3 := (mul_eq_zero.mp z3).resolve_left h1.ne'
    have : orient2d a b c = 0 := by
      unfold orient2d
      rw [show a.2 = p.2 by linarith, show b.2 = p.2 by linarith, show c.2 = p.2 by linarith]
      ring
    linarith

/-- The points of the open triangle. -/
def Spec.InsideTri (a b c d : K × K) : Prop := ∃ α β γ : K, 0 < α ∧ 0 < β ∧ 0 < γ ∧ α + β + γ = 1 ∧ d = α • a + β • b + γ • c

theorem strictIn_iff {a b c p : K × K} (hw : 0 < orient2d a b c) : StrictIn a b c p ↔ Spec.InsideTri a b c p := by
  constructor
  · rintro ⟨h1, h2, h3⟩
    have hs := (C45_orient a b c).2.2.2.2.2.1 p
    have hc := orient_combination a b c p
    refine ⟨orient2d b c p / orient2d a b c, orient2d c a p / orient2d a b c, orient2d a b p / orient2d a b c, div_pos h2 hw, div_pos h3 hw,
      div_pos h1 hw, ?_, ?_⟩
    · field_simp
      linear_combination hs
    · have c1 := congrArg Prod.fst hc
      have c2 := congrArg Prod.snd hc
      simp only [Prod.fst_add, Prod.snd_add, Prod.smul_fst, Prod.smul_snd, smul_eq_mul] at c1 c2
      ext
      · simp only [Prod.fst_add, Prod.smul_fst, smul_eq_mul]
        field_simp
        linear_combination c1
      · simp only [Prod.snd_add, Prod.smul_snd, smul_eq_mul]
        field_simp
        linear_combination c2
  · rintro ⟨α, β, γ, hα, hβ, hγ, h1, rfl⟩
    have hα' : α = 1 - β - γ := by linear_combination h1
    refine ⟨?_, ?_, ?_⟩
    · have : orient2d a b (α • a + β • b + γ • c) = γ * orient2d a b c := by
        subst hα'
        simp only [orient2d, Prod.fst_add, Prod.snd_add, Prod.smul_fst, Prod.smul_snd, smul_eq_mul]
        ring
      rw [this]; exact mul_pos hγ hw
    · have : orient2d b c (α • a + β • b + γ • c) = α * orient2d a b c := by
        have : β = 1 - α - γ := by linear_combination h1
        subst this
        simp only [orient2d, Prod.fst_add, Prod.snd_add, Prod.smul_fst, Prod.smul_snd, smul_eq_mul]
        ring
      rw [this]; exact mul_pos hα hw
    · have : orient2d c a (α • a + β • b + γ • c) = β * orient2d a b c := by
        have : γ = 1 - α - β := by linear_combination h1
        subst this
        simp only [orient2d, Prod.fst_add, Prod.snd_add, Prod.smul_fst, Prod.smul_snd, smul_eq_mul]
        ring
      rw [this]; exact mul_pos hβ hw

/-- The three sides of a triangle. -/
def Spec.sides (t : (K × K) × (K × K) × (K × K)) : List ((K × K) × (K × K)) := [(t.1, t.2.1), (t.2.1, t.2.2), (t.2.2, t.1)]

/-- How many times a side, whatever its direction, is in a list of directed edges. -/
def Spec.sideCount (x y : K × K) (B : List ((K × K) × (K × K))) : ℕ := (B.map fun e => s(e.1, e.2)).count s(x, y)

/-- The edges `B` bound the region cut in the triangles `T`: the sides inside the region are shared by two triangles. -/
def Spec.BoundsMod2 (B : List ((K × K) × (K × K))) (T : List ((K × K) × (K × K) × (K × K))) : Prop :=
  ∀ x y, Spec.sideCount x y B % 2 = Spec.sideCount x y (T.flatMap Spec.sides) % 2

/-- The edge of a list on which the point is decides. -/
theorem isInside_on {tol : K} {xy : K × K} {B : List ((K × K) × (K × K))} (ins : Bool) (h : ∃ e ∈ B, onSegment tol e.1 e.2 xy = true) :
    isInside tol xy ins B = true := by
  induction B generalizing ins with
  | nil => obtain ⟨e, he, _⟩ := h; cases he
  | cons e l ih =>
    obtain ⟨a, b⟩ := e
    rw [isInside]
    by_cases ho : onSegment tol a b xy = true
    · rw [if_pos ho]
    · rw [if_neg ho]
      apply ih
      obtain ⟨e', he', h'⟩ := h
      rcases List.mem_cons.mp he' with rfl | he'
      · exact absurd h' ho
      · exact ⟨e', he', h'⟩

/-- Parity of the crossings. -/
def crossSum (p : K × K) (B : List ((K × K) × (K × K))) : ZMod 2 := (B.map fun e => if rayCrosses p e.1 e.2 then (1 : ZMod 2) else 0).sum

theorem isInside_off {tol : K} {xy : K × K} {B : List ((K × K) × (K × K))} (ins : Bool) (h : ∀ e ∈ B, onSegment tol e.1 e.2 xy = false) :
    isInside tol xy ins B = true ↔ (if ins then (1 : ZMod 2) else 0) + crossSum xy B = 1 := by
  induction B generalizing ins with
  | nil => cases ins <;> simp [isInside, crossSum]
  | cons e l ih =>
    obtain ⟨a, b⟩ := e
    have h0 := h (a, b) (List.mem_cons_self ..)
    rw [isInside, if_neg (by rw [h0]; simp), ih _ (fun e he => h e (List.mem_cons_of_mem _ he))]
    have hc : crossSum xy ((a, b) :: l) = (if rayCrosses xy a b then (1 : ZMod 2) else 0) + crossSum xy l := by simp [crossSum]
    rw [hc, ← add_assoc]
    have : (if (if rayCrosses xy a b = true then !ins else ins) = true then (1 : ZMod 2) else 0) =
        (if ins = true then 1 else 0) + if rayCrosses xy a b = true then 1 else 0 := by
      cases ins <;> cases rayCrosses xy a b <;> decide
    rw [this]

/-- Parity of the crossings of an undirected edge. -/
def crossSym (p : K × K) : Sym2 (K × K) → ZMod 2 :=
  Sym2.lift ⟨fun a b => if rayCrosses p a b then (1 : ZMod 2) else 0, fun a b => by simp only [rayCrosses_comm p a b]⟩

theorem crossSum_eq (p : K × K) (B : List ((K × K) × (K × K))) :
    crossSum p B = ∑ e ∈ (B.map fun e => s(e.1, e.2)).toFinset, ((B.map fun e => s(e.1, e.2)).count e) • crossSym p e := by
  have : crossSum p B = ((B.map fun e => s(e.1, e.2)).map (crossSym p)).sum := by
    rw [crossSum, List.map_map]
    rfl
  rw [this, Finset.sum_list_map_count]

theorem crossSum_congr (p : K × K) {B : List ((K × K) × (K × K))} {T : List ((K × K) × (K × K) × (K × K))} (h : Spec.BoundsMod2 B T) :
    crossSum p B = crossSum p (T.flatMap Spec.sides) := by
  have ext : ∀ (L : List (Sym2 (K × K))) (S : Finset (Sym2 (K × K))), L.toFinset ⊆ S →
      ∑ e ∈ L.toFinset, L.count e • crossSym p e = ∑ e ∈ S, L.count e • crossSym p e := by
    intro L S hS
    refine Finset.sum_subset hS fun e _ he => ?_
    rw [List.mem_toFinset] at he
    rw [List.count_eq_zero_of_not_mem he, zero_smul]
  rw [crossSum_eq, crossSum_eq, ext _ _ Finset.subset_union_left,
    ext ((T.flatMap Spec.sides).map fun e => s(e.1, e.2)) _ (Finset.subset_union_right (s₁ := (B.map fun e => s(e.1, e.2)).toFinset))]
  refine Finset.sum_congr rfl fun e _ => ?_
  induction e using Sym2.inductionOn with
  | hf x y =>
    have := h x y
    unfold Spec.sideCount at this
    rw [nsmul_eq_mul, nsmul_eq_mul]
    congr 1
    exact (ZMod.natCast_eq_natCast_iff' _ _ 2).mpr this

theorem crossSum_append (p : K × K) (A B : List ((K × K) × (K × K))) : crossSum p (A ++ B) = crossSum p A + crossSum p B := by
  simp [crossSum]

theorem crossSum_sides (p : K × K) (t : (K × K) × (K × K) × (K × K)) :
    crossSum p (Spec.sides t) = if triParity p t.1 t.2.1 t.2.2 then 1 else 0 := by
  obtain ⟨a, b, c⟩ := t
  simp only [crossSum, Spec.sides, triParity, List.map_cons, List.map_nil, List.sum_cons, List.sum_nil, add_zero]
  have : ∀ x y z : Bool, ((if x = true then (1 : ZMod 2) else 0) + ((if y = true then 1 else 0) + if z = true then 1 else 0)) =
      if ((x ^^ y) ^^ z) = true then 1 else 0 := by decide
  exact this _ _ _

open Classical in
/-- C67: point in polygon. Let the edges given to `is_inside` bound a region cut in counter-clockwise triangles. A point of an edge, up to the
tolerance, is inside; any other point that is not on a side of a triangle is inside exactly when it is in the interior of an odd number of
triangles, of one triangle when the triangles do not overlap. The edges may be in any order and of any direction, and may form holes. -/
theorem C67_is_inside {tol : K} {xy : K × K} {B : List ((K × K) × (K × K))} :
    ((∃ e ∈ B, onSegment tol e.1 e.2 xy = true) → isInside tol xy false B = true) ∧
    ∀ T, Spec.BoundsMod2 B T → (∀ t ∈ T, 0 < orient2d t.1 t.2.1 t.2.2) → (∀ e ∈ B, onSegment tol e.1 e.2 xy = false) →
      (∀ t ∈ T, ∀ e ∈ Spec.sides t, ¬Spec.OnSeg e.1 e.2 xy) →
      (isInside tol xy false B = true ↔ Odd (T.countP fun t => decide (Spec.InsideTri t.1 t.2.1 t.2.2 xy))) ∧
      (T.Pairwise (fun t u => ∀ p, Spec.InsideTri t.1 t.2.1 t.2.2 p → ¬Spec.InsideTri u.1 u.2.1 u.2.2 p) →
        (isInside tol xy false B = true ↔ ∃ t ∈ T, Spec.InsideTri t.1 t.2.1 t.2.2 xy)) := by
  refine ⟨isInside_on false, fun T hB hT hoff hside => ?_⟩
  have key : crossSum xy (T.flatMap Spec.sides) = ((T.countP fun t => decide (Spec.InsideTri t.1 t.2.1 t.2.2 xy) : ℕ) : ZMod 2) := by
    clear hB
    induction T with
    | nil => simp [crossSum]
    | cons t T ih =>
      rw [List.flatMap_cons, crossSum_append, crossSum_sides, ih (fun u hu => hT u (List.mem_cons_of_mem _ hu))
        (fun u hu => hside u (List.mem_cons_of_mem _ hu)), List.countP_cons]
      have ht := hT t (List.mem_cons_self ..)
      have hs := hside t (List.mem_cons_self ..)
      have := (triParity_iff ht (hs (t.1, t.2.1) (by simp [Spec.sides])) (hs (t.2.1, t.2.2) (by simp [Spec.sides]))
        (hs (t.2.2, t.1) (by simp [Spec.sides]))).trans (strictIn_iff ht)
      push_cast
      rw [add_comm]
      congr 1
      by_cases hi : Spec.InsideTri t.1 t.2.1 t.2.2 xy
      · rw [if_pos (this.mpr hi)]; simp [hi]
      · rw [if_neg (fun h => hi (this.mp h))]; simp [hi]
  have main : isInside tol xy false B = true ↔ Odd (T.countP fun t => decide (Spec.InsideTri t.1 t.2.1 t.2.2 xy)) := by
    rw [isInside_off false hoff, crossSum_congr xy hB, key, ← ZMod.natCast_eq_one_iff_odd]
    simp
  refine ⟨main, fun hp => ?_⟩
  rw [main]
  have hle : T.countP (fun t => decide (Spec.InsideTri t.1 t.2.1 t.2.2 xy)) ≤ 1 := by
    clear main key hside hoff hT hB
    induction T with
    | nil => simp
    | cons t T ih =>
      rw [List.pairwise_cons] at hp
      rw [List.countP_cons]
      by_cases hi : Spec.InsideTri t.1 t.2.1 t.2.2 xy
      · have : T.countP (fun t => decide (Spec.InsideTri t.1 t.2.1 t.2.2 xy)) = 0 := by
          rw [List.countP_eq_zero]
          intro u hu
          simpa using hp.1 u hu xy hi
        rw [this]; simp [hi]
      · simpa [hi] using ih hp.2
  constructor
  · intro ho
    have : 0 < T.countP fun t => decide (Spec.InsideTri t.1 t.2.1 t.2.2 xy) := ho.pos
    rw [List.countP_pos_iff] at this
    obtain ⟨t, ht, h⟩ := this
    exact ⟨t, ht, by simpa using h⟩
  · rintro ⟨t, ht, h⟩
    have : 0 < T.countP fun t => decide (Spec.InsideTri t.1 t.2.1 t.2.2 xy) := List.countP_pos_iff.mpr ⟨t, ht, by simpa using h⟩
    rw [show T.countP (fun t => decide (Spec.InsideTri t.1 t.2.1 t.2.2 xy)) = 1 by omega]
    exact odd_one

/-- The directed edges `B` bound the region cut in the triangles `T`: the sides inside the region are run in both directions. -/
def Spec.Bounds (B : List ((K × K) × (K × K))) (T : List ((K × K) × (K × K) × (K × K))) : Prop :=
  ∀ e : (K × K) × (K × K), B.count e + (T.flatMap Spec.sides).count e.swap = B.count e.swap + (T.flatMap Spec.sides).count e

/-- Sums of an antisymmetric function over edges that bound the same region are equal. -/
theorem sum_antisymm {B C : List ((K × K) × (K × K))} (h : ∀ e, B.count e + C.count e.swap = B.count e.swap + C.count e)
    {g : (K × K) × (K × K) → K} (hg : ∀ e, g e.swap = -g e) : (B.map g).sum = (C.map g).sum := by
  have two : ∀ L : List ((K × K) × (K × K)), ∀ S : Finset ((K × K) × (K × K)), (∀ e ∈ S, e.swap ∈ S) → L.toFinset ⊆ S →
      2 * (L.map g).sum = ∑ e ∈ S, ((L.count e : K) - L.count e.swap) * g e := by
    intro L S hsw hS
    have h1 : (L.map g).sum = ∑ e ∈ S, (L.count e : K) * g e := by
      clear hsw
      induction L with
      | nil => simp
      | cons x l ih =>
        have hx : x ∈ S := hS (by simp)
        rw [List.map_cons, List.sum_cons, ih (fun y hy => hS (by rw [List.mem_toFinset] at hy ⊢; exact List.mem_cons_of_mem _ hy))]
        have : ∀ e, ((x :: l).count e : K) * g e = (if x = e then g e else 0) + (l.count e : K) * g e := by
          intro e
          rw [List.count_cons]
          by_cases he : x = e
          · subst he
            simp
            ring
          · simp [he]
        simp only [this]
        rw [Finset.sum_add_distrib, Finset.sum_ite_eq, if_pos hx]
    have h2 : ∑ e ∈ S, (L.count e : K) * g e = ∑ e ∈ S, (L.count e.swap : K) * g e.swap :=
      Finset.sum_bij (fun e _ => e.swap) (fun e he => hsw e he) (fun a _ b _ hab => Prod.swap_injective hab)
        (fun b hb => ⟨b.swap, hsw b hb, Prod.swap_swap b⟩) (fun e _ => by rw [Prod.swap_swap])
    have h3 : 2 * (L.map g).sum = ∑ e ∈ S, (L.count e : K) * g e + ∑ e ∈ S, (L.count e.swap : K) * g e.swap := by
      rw [← h2, ← h1, two_mul]
    rw [h3, ← Finset.sum_add_distrib]
    refine Finset.sum_congr rfl fun e _ => ?_
    rw [hg]; ring
  set S := (B ++ C ++ (B ++ C).map Prod.swap).toFinset with hS
  have hsw : ∀ e ∈ S, e.swap ∈ S := by
    intro e he
    rw [hS, List.mem_toFinset, List.mem_append] at he ⊢
    rcases he with he | he
    · exact Or.inr (List.mem_map.mpr ⟨e, he, rfl⟩)
    · obtain ⟨e', he', rfl⟩ := List.mem_map.mp he
      rw [Prod.swap_swap]; exact Or.inl he'
  have hb : B.toFinset ⊆ S := by
    intro e he
    rw [List.mem_toFinset] at he
    rw [hS, List.mem_toFinset]; simp [he]
  have hc : C.toFinset ⊆ S := by
    intro e he
    rw [List.mem_toFinset] at he
    rw [hS, List.mem_toFinset]; simp [he]
  have : (2 : K) * (B.map g).sum = 2 * (C.map g).sum := by
    rw [two B S hsw hb, two C S hsw hc]
    refine Finset.sum_congr rfl fun e _ => ?_
    have := congrArg (Nat.cast (R := K)) (h e)
    push_cast at this
    rw [show (B.count e : K) - B.count e.swap = C.count e - C.count e.swap by linear_combination this]
  exact mul_left_cancel₀ two_ne_zero this

/-- C67: what `are_edges_2d_ccw` decides. For directed edges that bound a chain of triangles, of any orientation, the answer is whether the
signed area of the chain is positive; a null area is not counter-clockwise. -/
theorem C67_edges_area {B : List ((K × K) × (K × K))} {T : List ((K × K) × (K × K) × (K × K))} (hB : Spec.Bounds B T) :
    edgesCcw B = true ↔ 0 < (T.map fun t => orient2d t.1 t.2.1 t.2.2).sum := by
  have hsum : (B.map fun e => (e.2.1 - e.1.1) * (e.2.2 + e.1.2)).sum = -(T.map fun t => orient2d t.1 t.2.1 t.2.2).sum := by
    rw [sum_antisymm (C := T.flatMap Spec.sides) hB (g := fun e => (e.2.1 - e.1.1) * (e.2.2 + e.1.2)) (fun e => by
      show (e.1.1 - e.2.1) * (e.1.2 + e.2.2) = _; ring)]
    clear hB
    induction T with
    | nil => simp
    | cons t T ih =>
      rw [List.flatMap_cons, List.map_append, List.sum_append, ih, List.map_cons, List.sum_cons]
      obtain ⟨a, b, c⟩ := t
      simp only [Spec.sides, List.map_cons, List.map_nil, List.sum_cons, List.sum_nil, orient2d]
      ring
  rw [edgesCcw, decide_eq_true_eq, hsum]
  exact neg_lt_zero

/-- C67: orientation of a loop. Directed edges that bound a region cut in counter-clockwise triangles are counter-clockwise for
`are_edges_2d_ccw`; run backwards they are not. -/
theorem C67_edges_ccw {B : List ((K × K) × (K × K))} {T : List ((K × K) × (K × K) × (K × K))} (hB : Spec.Bounds B T) (hne : T ≠ [])
    (hT : ∀ t ∈ T, 0 < orient2d t.1 t.2.1 t.2.2) : edgesCcw B = true ∧ edgesCcw (B.map Prod.swap) = false := by
  have hsum : (B.map fun e => (e.2.1 - e.1.1) * (e.2.2 + e.1.2)).sum = -(T.map fun t => orient2d t.1 t.2.1 t.2.2).sum := by
    rw [sum_antisymm (C := T.flatMap Spec.sides) hB (g := fun e => (e.2.1 - e.1.1) * (e.2.2 + e.1.2)) (fun e => by
      show (e.1.1 - e.2.1) * (e.1.2 + e.2.2) = _; ring)]
    clear hB hne hT
    induction T with
    | nil => simp
    | cons t T ih =>
      rw [List.flatMap_cons, List.map_append, List.sum_append, ih, List.map_cons, List.sum_cons]
      obtain ⟨a, b, c⟩ := t
      simp only [Spec.sides, List.map_cons, List.map_nil, List.sum_cons, List.sum_nil, orient2d]
      ring
  have hpos : 0 < (T.map fun t => orient2d t.1 t.2.1 t.2.2).sum := by
    clear hsum hB
    induction T with
    | nil => exact absurd rfl hne
    | cons t T ih =>
      rw [List.map_cons, List.sum_cons]
      have h1 := hT t (List.mem_cons_self ..)
      by_cases hn : T = []
      · subst hn; simpa using h1
      · exact add_pos h1 (ih hn (fun u hu => hT u (List.mem_cons_of_mem _ hu)))
  constructor
  · rw [edgesCcw, decide_eq_true_eq, hsum]; linarith
  · rw [edgesCcw, decide_eq_false_iff_not, List.map_map]
    have : (B.map ((fun e : (K × K) × (K × K) => (e.2.1 - e.1.1) * (e.2.2 + e.1.2)) ∘ Prod.swap)).sum =
        -(B.map fun e => (e.2.1 - e.1.1) * (e.2.2 + e.1.2)).sum := by
      clear hsum hB
      induction B with
      | nil => simp
      | cons e B ih =>
        rw [List.map_cons, List.sum_cons, ih, List.map_cons, List.sum_cons]
        show (e.1.1 - e.2.1) * (e.1.2 + e.2.2) + _ = _
        ring
    rw [this, hsum]
    linarith

/-- The sides inside the region, each run in both directions. -/
theorem bounds_of_perm {B D : List ((K × K) × (K × K))} {T : List ((K × K) × (K × K) × (K × K))}
    (h : (T.flatMap Spec.sides).Perm (B ++ (D ++ D.map Prod.swap))) : Spec.BoundsMod2 B T ∧ Spec.Bounds B T := by
  constructor
  · intro x y
    unfold Spec.sideCount
    rw [(h.map _).count_eq, List.map_append, List.map_append, List.count_append, List.count_append, List.map_map]
    have : (D.map ((fun e : (K × K) × (K × K) => s(e.1, e.2)) ∘ Prod.swap)) = D.map fun e => s(e.1, e.2) :=
      List.map_congr_left fun e _ => Sym2.eq_swap
    rw [this]
    omega
  · intro e
    rw [h.count_eq, h.count_eq, List.count_append, List.count_append, List.count_append, List.count_append]
    have hc : ∀ f : (K × K) × (K × K), (D.map Prod.swap).count f = D.count f.swap := by
      intro f
      rw [← Prod.swap_swap f, List.count_map_of_injective _ _ Prod.swap_injective, Prod.swap_swap]
    rw [hc, hc, Prod.swap_swap]
    omega

/-- The unit square, its diagonal, and its two triangles. -/
def Sample.square : List ((ℚ × ℚ) × (ℚ × ℚ)) := [((0, 0), (1, 0)), ((1, 0), (1, 1)), ((1, 1), (0, 1)), ((0, 1), (0, 0))]

def Sample.halves : List ((ℚ × ℚ) × (ℚ × ℚ) × (ℚ × ℚ)) := [((0, 0), (1, 0), (1, 1)), ((0, 0), (1, 1), (0, 1))]

theorem Sample.square_bounds : Spec.BoundsMod2 Sample.square Sample.halves ∧ Spec.Bounds Sample.square Sample.halves :=
  bounds_of_perm (D := [((0, 0), (1, 1))]) (by decide +kernel)

/-- The hypotheses of `C67_is_inside` hold for a point of the unit square. -/
example : isInside 0 ((3 / 4, 1 / 4) : ℚ × ℚ) false Sample.square = true := by
  refine ((C67_is_inside (tol := 0) (xy := ((3 / 4, 1 / 4) : ℚ × ℚ)) (B := Sample.square)).2 Sample.halves Sample.square_bounds.1
    (by decide +kernel) (by decide +kernel) ?_).1.mpr ?_
  · intro t ht e he h
    have hh : ∀ t ∈ Sample.halves, ∀ e ∈ Spec.sides t, onSegment 0 e.1 e.2 ((3 / 4, 1 / 4) : ℚ × ℚ) = false ∧ e.1 ≠ e.2 := by decide +kernel
    have := ((C66_on_segment le_rfl (hh t ht e he).2 _).2.1.mpr h)
    rw [(hh t ht e he).1] at this
    cases this
  · have h1 : Spec.InsideTri ((0, 0) : ℚ × ℚ) (1, 0) (1, 1) (3 / 4, 1 / 4) :=
      (strictIn_iff (by decide +kernel)).mp ⟨by decide +kernel, by decide +kernel, by decide +kernel⟩
    have h2 : ¬Spec.InsideTri ((0, 0) : ℚ × ℚ) (1, 1) (0, 1) (3 / 4, 1 / 4) := by
      rw [← strictIn_iff (by decide +kernel)]
      rintro ⟨h, _⟩
      exact absurd h (by decide +kernel)
    simp only [Sample.halves, List.countP_cons, List.countP_nil]
    rw [if_neg (by simpa using h2), if_pos (by simpa using h1)]
    exact odd_one

/-- `C67_edges_ccw` applies to the unit square. -/
example : edgesCcw Sample.square = true := (C67_edges_ccw Sample.square_bounds.2 (by decide) (by decide +kernel)).1

/-- `C66_seg_seg` on two crossing segments, `C66_seg_ray` on a ray through a segment, `C66_on_segment` on a middle point. -/
example : segSegStrict (1 / 100) ((0, 0) : ℚ × ℚ) (1, 1) (0, 1) (1, 0) = .ok true ∧
    segDStrict (1 / 100) ((0, 0) : ℚ × ℚ) (1, 1) (0, 1) (1, -1) = .ok true ∧
    onSegment 0 ((0, 0) : ℚ × ℚ) (1, 3) (1 / 2, 3 / 2) = true := by decide +kernel

/-- C67: `sphere_center` is documented as the center of a sphere through the three points; the point it returns is not at the same distance of
the three points. -/
theorem C67_sphere_center_witness : ∃ (a b c o : Fin 3 → ℚ), sphereCenter (1 / 1000000) a b c = .ok (some o) ∧
    (∑ i, (o i - a i) ^ 2 ≠ ∑ i, (o i - b i) ^ 2) ∧ (∑ i, (o i - a i) ^ 2 ≠ ∑ i, (o i - c i) ^ 2) := by
  refine ⟨![0, 0, 0], ![0, 1, 0], ![1, 1, 1], ![2, -1, -1 / 2], ?_, ?_, ?_⟩
  · decide +kernel
  · simp only [Fin.sum_univ_three, Matrix.cons_val_zero, Matrix.cons_val_one, Matrix.cons_val]
    norm_num
  · simp only [Fin.sum_univ_three, Matrix.cons_val_zero, Matrix.cons_val_one, Matrix.cons_val]
    norm_num

end Gbs
