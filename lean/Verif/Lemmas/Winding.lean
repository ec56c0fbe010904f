import Verif.Props.Polygon
import Verif.Lemmas.Crossing
import Mathlib.Data.Fintype.EquivFin
import Mathlib.Tactic.FieldSimp

/-!
# Winding numbers

The signed number of crossings of a closed polygon with a ray does not depend on the direction of the ray, does not change along a segment that meets no edge
of the polygon, and changes by one where it crosses an edge.
-/

set_option linter.unusedSectionVars false

namespace Gbs

variable {K : Type} [Field K] [LinearOrder K] [IsStrictOrderedRing K]

/-- Coordinates in which `d` is the first axis. -/
def turnD (d x : K × K) : K × K := (d.1 * x.1 + d.2 * x.2, d.1 * x.2 - d.2 * x.1)

theorem turn_area (d a b c : K × K) : Spec.area2 (turnD d a) (turnD d b) (turnD d c) = (d.1 ^ 2 + d.2 ^ 2) * Spec.area2 a b c := by
  unfold Spec.area2 turnD; ring

theorem norm2_pos {d : K × K} (hd : d ≠ 0) : 0 < d.1 ^ 2 + d.2 ^ 2 := by
  have h1 := sq_nonneg d.1
  have h2 := sq_nonneg d.2
  rcases (add_nonneg h1 h2).lt_or_eq with h | h
  · exact h
  · exfalso
    apply hd
    have e1 : d.1 ^ 2 = 0 := by linarith
    have e2 : d.2 ^ 2 = 0 := by linarith
    ext
    · exact pow_eq_zero_iff (two_ne_zero) |>.mp e1
    · exact pow_eq_zero_iff (two_ne_zero) |>.mp e2

/-- The crossing with the ray of direction `d`. -/
def crossD (d p a b : K × K) : ℤ := crossing (turnD d p) (turnD d a) (turnD d b)

theorem crossD_swap (d p a b : K × K) : crossD d p b a = - crossD d p a b := crossing_swap _ _ _

theorem crossD_one (p a b : K × K) : crossD (1, 0) p a b = crossing p a b := by
  have h : ∀ x : K × K, turnD (1, 0) x = x := fun x => by simp [turnD]
  simp only [crossD, h]

/-- The crossings of the edges of a list. -/
def windD (d p : K × K) (B : List ((K × K) × (K × K))) : ℤ := (B.map fun s => crossD d p s.1 s.2).sum

/-- The edges of the list arrive at each point as often as they leave it. -/
def Closed2 (B : List ((K × K) × (K × K))) : Prop := ∀ g : K × K → ℤ, (B.map fun s => g s.2 - g s.1).sum = 0

theorem area_pos_turn {d : K × K} (hd : d ≠ 0) {a b c : K × K} : 0 < Spec.area2 (turnD d a) (turnD d b) (turnD d c) ↔ 0 < Spec.area2 a b c := by
  rw [turn_area]; exact mul_pos_iff_of_pos_left (norm2_pos hd)

theorem area_nonneg_turn {d : K × K} (hd : d ≠ 0) {a b c : K × K} : 0 ≤ Spec.area2 (turnD d a) (turnD d b) (turnD d c) ↔ 0 ≤ Spec.area2 a b c := by
  rw [turn_area]; exact mul_nonneg_iff_of_pos_left (norm2_pos hd)

theorem area_neg_turn {d : K × K} (hd : d ≠ 0) {a b c : K × K} : Spec.area2 (turnD d a) (turnD d b) (turnD d c) < 0 ↔ Spec.area2 a b c < 0 := by
  rw [← not_le, area_nonneg_turn hd, not_le]

open Classical in
/-- The crossings of a triangle do not depend on the direction. -/
theorem tri_turn {d : K × K} (hd : d ≠ 0) {p o a b : K × K} (hw : 0 < Spec.area2 o a b) (h1 : Spec.area2 o a p ≠ 0) (h2 : Spec.area2 b o p ≠ 0)
    (h3 : ¬Spec.OnSeg a b p) : crossD d p o a + crossD d p a b + crossD d p b o = if InOpen o a b p then 1 else 0 := by
  obtain ⟨t1, t2, t3⟩ := triCrossing_spec (p := turnD d p) ((area_pos_turn hd).mpr hw)
  show triCrossing (turnD d p) (turnD d o) (turnD d a) (turnD d b) = _
  split_ifs with h
  · exact t3 ⟨(area_pos_turn hd).mpr h.1, (area_pos_turn hd).mpr h.2.1, (area_pos_turn hd).mpr h.2.2⟩
  · rcases t1 with t1 | t1
    · exact t1
    · exfalso
      obtain ⟨q1, q2, q3⟩ := t2 t1
      rw [area_nonneg_turn hd] at q1 q2 q3
      have k1 := lt_of_le_of_ne q1 h1.symm
      have k3 := lt_of_le_of_ne q3 h2.symm
      rcases q2.lt_or_eq with k2 | k2
      · exact h ⟨k1, k2, k3⟩
      · refine h3 (onSeg_of_zero (c := o) ?_ ?_ ?_ ?_)
        · rw [orient2d_eq, area2_rotate]; exact hw
        · rw [orient2d_eq]; exact k2.symm
        · rw [orient2d_eq]; exact q3
        · rw [orient2d_eq]; exact q1

/-- A point off finitely many lines. -/
theorem exists_off (L : List (K × K × K)) (hL : ∀ l ∈ L, (l.1, l.2.1) ≠ (0, 0)) : ∃ o : K × K, ∀ l ∈ L, l.1 * o.1 + l.2.1 * o.2 + l.2.2 ≠ 0 := by
  classical
  obtain ⟨t, ht⟩ := Infinite.exists_notMem_finset (L.map fun l => -l.1 / l.2.1).toFinset
  obtain ⟨x, hx⟩ := Infinite.exists_notMem_finset (insert 0 (L.map fun l => -l.2.2 / (l.1 + l.2.1 * t)).toFinset)
  refine ⟨(x, t * x), fun l hl h0 => ?_⟩
  have h1 : l.1 + l.2.1 * t ≠ 0 := by
    intro h
    by_cases h2 : l.2.1 = 0
    · rw [h2, zero_mul, add_zero] at h
      exact hL l hl (by rw [h, h2])
    · refine ht (List.mem_toFinset.mpr (List.mem_map.mpr ⟨l, hl, ?_⟩))
      rw [div_eq_iff h2]; linear_combination -h
  refine hx (Finset.mem_insert_of_mem (List.mem_toFinset.mpr (List.mem_map.mpr ⟨l, hl, ?_⟩)))
  rw [div_eq_iff h1]
  simp only at h0
  linear_combination -h0

open Classical in
/-- The winding number does not depend on the direction of the ray. -/
theorem windD_turn {d : K × K} (hd : d ≠ 0) {p : K × K} {B : List ((K × K) × (K × K))} (hB : Closed2 B) (hp : ∀ s ∈ B, ¬Spec.OnSeg s.1 s.2 p) :
    windD d p B = windD (1, 0) p B := by
  have hone : ((1, 0) : K × K) ≠ 0 := by simp
  have hne : ∀ s ∈ B, s.1 ≠ p ∧ s.2 ≠ p := by
    intro s hs
    constructor
    · rintro rfl; exact hp s hs ⟨0, le_rfl, zero_le_one, by simp⟩
    · rintro rfl; exact hp s hs ⟨1, zero_le_one, le_rfl, by simp⟩
  obtain ⟨o, ho⟩ := exists_off (K := K) ((B.map fun s => (s.1.2 - p.2, p.1 - s.1.1, s.1.1 * p.2 - s.1.2 * p.1)) ++
      (B.map fun s => (s.2.2 - p.2, p.1 - s.2.1, s.2.1 * p.2 - s.2.2 * p.1)) ++
      ((B.filter fun s => decide (s.1 ≠ s.2)).map fun s => (s.1.2 - s.2.2, s.2.1 - s.1.1, s.1.1 * s.2.2 - s.1.2 * s.2.1))) (by
    intro l hl
    simp only [List.mem_append, List.mem_map, List.mem_filter, decide_eq_true_eq] at hl
    rcases hl with (⟨s, hs, rfl⟩ | ⟨s, hs, rfl⟩) | ⟨s, ⟨hs, hs2⟩, rfl⟩ <;> intro h <;> rw [Prod.mk.injEq] at h <;> obtain ⟨h1, h2⟩ := h <;> simp only at h1 h2
    · exact (hne s hs).1 (Prod.ext (by linarith) (by linarith))
    · exact (hne s hs).2 (Prod.ext (by linarith) (by linarith))
    · exact hs2 (Prod.ext (by linarith) (by linarith)))
  have key : ∀ e : K × K, e ≠ 0 → windD e p B = (B.map fun s => if 0 < Spec.area2 o s.1 s.2 then (if InOpen o s.1 s.2 p then (1 : ℤ) else 0)
      else if Spec.area2 o s.1 s.2 < 0 then -(if InOpen o s.2 s.1 p then (1 : ℤ) else 0) else 0).sum := by
    intro e he
    have h0 := hB fun x => crossD e p o x
    have h1 : windD e p B = (B.map fun s => crossD e p o s.1 + crossD e p s.1 s.2 + crossD e p s.2 o).sum + (B.map fun s => crossD e p o s.2 - crossD e p o s.1).sum := by
      rw [windD, ← List.sum_map_add]
      congr 1
      apply List.map_congr_left
      intro s _
      rw [crossD_swap e p o s.2]; ring
    rw [h1, h0, add_zero]
    congr 1
    apply List.map_congr_left
    intro s hs
    have a1 : Spec.area2 o s.1 p ≠ 0 := by
      intro h
      refine ho (s.1.2 - p.2, p.1 - s.1.1, s.1.1 * p.2 - s.1.2 * p.1) (by simp only [List.mem_append, List.mem_map]; exact Or.inl (Or.inl ⟨s, hs, rfl⟩)) ?_
      unfold Spec.area2 at h
      simp only
      linear_combination h
    have a2 : Spec.area2 o s.2 p ≠ 0 := by
      intro h
      refine ho (s.2.2 - p.2, p.1 - s.2.1, s.2.1 * p.2 - s.2.2 * p.1) (by simp only [List.mem_append, List.mem_map]; exact Or.inl (Or.inr ⟨s, hs, rfl⟩)) ?_
      unfold Spec.area2 at h
      simp only
      linear_combination h
    split_ifs with k1 k2 k3 k4
    · rw [tri_turn he k1 a1 (by rw [area2_swap]; exact neg_ne_zero.mpr a2) (hp s hs), if_pos k2]
    · rw [tri_turn he k1 a1 (by rw [area2_swap]; exact neg_ne_zero.mpr a2) (hp s hs), if_neg k2]
    · have := tri_turn he (p := p) (o := o) (a := s.2) (b := s.1) (by
        have : Spec.area2 o s.2 s.1 = - Spec.area2 o s.1 s.2 := by unfold Spec.area2; ring
        linarith) a2 (by rw [area2_swap]; exact neg_ne_zero.mpr a1) (by
          rintro ⟨t, t1, t2, t3⟩
          refine hp s hs ⟨1 - t, by linarith, by linarith, ?_⟩
          rw [t3, sub_smul, one_smul]; simp only [smul_sub]; abel)
      rw [if_pos k4] at this
      rw [← this, crossD_swap e p o s.1, crossD_swap e p o s.2, crossD_swap e p s.1 s.2]
      ring
    · have := tri_turn he (p := p) (o := o) (a := s.2) (b := s.1) (by
        have : Spec.area2 o s.2 s.1 = - Spec.area2 o s.1 s.2 := by unfold Spec.area2; ring
        linarith) a2 (by rw [area2_swap]; exact neg_ne_zero.mpr a1) (by
          rintro ⟨t, t1, t2, t3⟩
          refine hp s hs ⟨1 - t, by linarith, by linarith, ?_⟩
          rw [t3, sub_smul, one_smul]; simp only [smul_sub]; abel)
      rw [if_neg k4] at this
      rw [← this, crossD_swap e p o s.1, crossD_swap e p o s.2, crossD_swap e p s.1 s.2]
      ring
    · have h00 : Spec.area2 o s.1 s.2 = 0 := le_antisymm (not_lt.mp k1) (not_lt.mp k3)
      by_cases hs2 : s.1 = s.2
      · rw [crossD_swap e p o s.2, hs2]
        have : crossD e p s.2 s.2 = 0 := by have := crossD_swap e p s.2 s.2; omega
        rw [this]; ring
      · exfalso
        refine ho (s.1.2 - s.2.2, s.2.1 - s.1.1, s.1.1 * s.2.2 - s.1.2 * s.2.1) (by
          simp only [List.mem_append, List.mem_map, List.mem_filter, decide_eq_true_eq]; exact Or.inr ⟨s, ⟨hs, hs2⟩, rfl⟩) ?_
        unfold Spec.area2 at h00
        simp only
        linear_combination h00
  rw [key d hd, key _ hone]

/-- The heights of the points of a ray. -/
theorem turn_same (p q : K × K) : (turnD (q - p) q).2 = (turnD (q - p) p).2 := by
  simp only [turnD, Prod.fst_sub, Prod.snd_sub]; ring

theorem area2_line (a b p q : K × K) (t : K) : Spec.area2 a b (p + t • (q - p)) = Spec.area2 a b p + t * (Spec.area2 a b q - Spec.area2 a b p) := by
  unfold Spec.area2
  simp only [Prod.fst_add, Prod.smul_fst, Prod.fst_sub, smul_eq_mul, Prod.snd_add, Prod.smul_snd, Prod.snd_sub]; ring

/-- The point where a segment meets a line. -/
theorem meets_line {a b p q : K × K} (h : 0 < Spec.area2 a b p ∧ Spec.area2 a b q ≤ 0 ∨ Spec.area2 a b p < 0 ∧ 0 ≤ Spec.area2 a b q ∨
    Spec.area2 a b p ≤ 0 ∧ 0 < Spec.area2 a b q ∨ 0 ≤ Spec.area2 a b p ∧ Spec.area2 a b q < 0) :
    ∃ t : K, 0 ≤ t ∧ t ≤ 1 ∧ Spec.area2 a b (p + t • (q - p)) = 0 := by
  generalize hA : Spec.area2 a b p = A at *
  generalize hA' : Spec.area2 a b q = A' at *
  have hd : A - A' ≠ 0 := by
    intro h0
    rcases h with ⟨h1, h2⟩ | ⟨h1, h2⟩ | ⟨h1, h2⟩ | ⟨h1, h2⟩ <;> linarith
  refine ⟨A / (A - A'), ?_, ?_, ?_⟩
  · rcases h with ⟨h1, h2⟩ | ⟨h1, h2⟩ | ⟨h1, h2⟩ | ⟨h1, h2⟩
    · exact div_nonneg h1.le (by linarith)
    · exact div_nonneg_of_nonpos h1.le (by linarith)
    · exact div_nonneg_of_nonpos h1 (by linarith)
    · exact div_nonneg h1 (by linarith)
  · rcases h with ⟨h1, h2⟩ | ⟨h1, h2⟩ | ⟨h1, h2⟩ | ⟨h1, h2⟩
    · rw [div_le_one (by linarith)]; linarith
    · rw [div_le_one_of_neg (by linarith)]; linarith
    · rw [div_le_one_of_neg (by linarith)]; linarith
    · rw [div_le_one (by linarith)]; linarith
  · rw [area2_line, hA, hA']
    field_simp
    ring

/-- A point of the ray on the line of an edge, at a height within the edge, is on the edge. -/
theorem onSeg_turn {d : K × K} (hd : d ≠ 0) {a b m : K × K} (h : Spec.area2 a b m = 0)
    (h1 : (turnD d m).2 < (turnD d a).2 ∧ (turnD d b).2 ≤ (turnD d m).2 ∨ (turnD d m).2 < (turnD d b).2 ∧ (turnD d a).2 ≤ (turnD d m).2) : Spec.OnSeg a b m := by
  have h0 : orient2d (turnD d a) (turnD d b) (turnD d m) = 0 := by rw [orient2d_eq, turn_area, h, mul_zero]
  obtain ⟨t, t1, t2, t3⟩ := onSeg_of_straddle h0 h1
  refine ⟨t, t1, t2, ?_⟩
  have hn := (norm2_pos hd).ne'
  have c1 := congrArg Prod.fst t3
  have c2 := congrArg Prod.snd t3
  simp only [turnD, Prod.fst_add, Prod.snd_add, Prod.smul_fst, Prod.smul_snd, smul_eq_mul, Prod.fst_sub, Prod.snd_sub] at c1 c2
  ext
  · simp only [Prod.fst_add, Prod.smul_fst, Prod.fst_sub, smul_eq_mul]
    apply mul_left_cancel₀ hn
    linear_combination d.1 * c1 - d.2 * c2
  · simp only [Prod.snd_add, Prod.smul_snd, Prod.snd_sub, smul_eq_mul]
    apply mul_left_cancel₀ hn
    linear_combination d.2 * c1 + d.1 * c2

/-- Along a segment that does not meet an edge, the crossing of the edge does not change. -/
theorem crossD_move {p q a b : K × K} (hpq : p ≠ q) (hm : ∀ m, Spec.OnSeg p q m → ¬Spec.OnSeg a b m) : crossD (q - p) p a b = crossD (q - p) q a b := by
  have hd : q - p ≠ 0 := sub_ne_zero.mpr (Ne.symm hpq)
  have hy := turn_same p q
  have hty : ∀ t : K, (turnD (q - p) (p + t • (q - p))).2 = (turnD (q - p) p).2 := by
    intro t; simp only [turnD, Prod.fst_add, Prod.snd_add, Prod.smul_fst, Prod.smul_snd, smul_eq_mul, Prod.fst_sub, Prod.snd_sub]; ring
  have hno : ((turnD (q - p) p).2 < (turnD (q - p) a).2 ∧ (turnD (q - p) b).2 ≤ (turnD (q - p) p).2 ∨
      (turnD (q - p) p).2 < (turnD (q - p) b).2 ∧ (turnD (q - p) a).2 ≤ (turnD (q - p) p).2) →
      ¬(0 < Spec.area2 a b p ∧ Spec.area2 a b q ≤ 0 ∨ Spec.area2 a b p < 0 ∧ 0 ≤ Spec.area2 a b q ∨
    Spec.area2 a b p ≤ 0 ∧ 0 < Spec.area2 a b q ∨ 0 ≤ Spec.area2 a b p ∧ Spec.area2 a b q < 0) := by
    intro hh hc
    obtain ⟨t, t1, t2, t3⟩ := meets_line hc
    refine hm _ ⟨t, t1, t2, rfl⟩ (onSeg_turn hd t3 ?_)
    rw [hty]; exact hh
  unfold crossD
  rcases le_or_gt (turnD (q - p) a).2 (turnD (q - p) p).2 with ha | ha <;> rcases le_or_gt (turnD (q - p) b).2 (turnD (q - p) p).2 with hb | hb
  · rw [crossing_same (Or.inl ⟨ha, hb⟩), crossing_same (Or.inl ⟨by rw [hy]; exact ha, by rw [hy]; exact hb⟩)]
  · have := hno (Or.inr ⟨hb, ha⟩)
    rw [crossing_up ha hb, crossing_up (by rw [hy]; exact ha) (by rw [hy]; exact hb)]
    simp only [area_pos_turn hd]
    push Not at this
    obtain ⟨n1, -, n3, -⟩ := this
    congr 1
    apply propext
    constructor
    · exact n1
    · intro h2; by_contra h3; exact absurd h2 (not_lt.mpr (n3 (not_lt.mp h3)))
  · have := hno (Or.inl ⟨ha, hb⟩)
    rw [crossing_down ha hb, crossing_down (by rw [hy]; exact ha) (by rw [hy]; exact hb)]
    simp only [area_neg_turn hd]
    push Not at this
    obtain ⟨-, n2, -, n4⟩ := this
    congr 1
    apply propext
    constructor
    · exact n2
    · intro h2; by_contra h3; exact absurd h2 (not_lt.mpr (n4 (not_lt.mp h3)))
  · rw [crossing_same (Or.inr ⟨ha, hb⟩), crossing_same (Or.inr ⟨by rw [hy]; exact ha, by rw [hy]; exact hb⟩)]

/-- The point is on the segment, and is none of its ends. -/
def Spec.InSeg (a b p : K × K) : Prop := ∃ t : K, 0 < t ∧ t < 1 ∧ p = a + t • (b - a)

/-- Where a segment crosses an edge from the left to the right, the crossing of the edge is one less. -/
theorem crossD_cross {p q a b m : K × K} (h1 : 0 < Spec.area2 a b p) (h2 : Spec.area2 a b q < 0) (hm : Spec.OnSeg p q m) (hab : Spec.InSeg a b m) :
    crossD (q - p) p a b = 1 ∧ crossD (q - p) q a b = 0 := by
  have hpq : p ≠ q := by rintro rfl; linarith
  have hd : q - p ≠ 0 := sub_ne_zero.mpr (Ne.symm hpq)
  have hy := turn_same p q
  obtain ⟨s, s1, s2, rfl⟩ := hm
  obtain ⟨t, t1, t2, t3⟩ := hab
  have c1 := congrArg Prod.fst t3
  have c2 := congrArg Prod.snd t3
  simp only [Prod.fst_add, Prod.snd_add, Prod.smul_fst, Prod.smul_snd, smul_eq_mul, Prod.fst_sub, Prod.snd_sub] at c1 c2
  have hu : 0 < (turnD (q - p) b).2 - (turnD (q - p) a).2 := by
    have : (turnD (q - p) b).2 - (turnD (q - p) a).2 = Spec.area2 a b p - Spec.area2 a b q := by
      unfold Spec.area2; simp only [turnD, Prod.fst_sub, Prod.snd_sub]; ring
    rw [this]; linarith
  have hmid : (turnD (q - p) p).2 = (turnD (q - p) a).2 + t * ((turnD (q - p) b).2 - (turnD (q - p) a).2) := by
    simp only [turnD, Prod.fst_sub, Prod.snd_sub]
    linear_combination (q.1 - p.1) * c2 - (q.2 - p.2) * c1
  have ha : (turnD (q - p) a).2 ≤ (turnD (q - p) p).2 := by rw [hmid]; linarith [mul_pos t1 hu]
  have hb : (turnD (q - p) p).2 < (turnD (q - p) b).2 := by rw [hmid]; linarith [mul_pos (sub_pos.mpr t2) hu]
  unfold crossD
  rw [crossing_up ha hb, crossing_up (by rw [hy]; exact ha) (by rw [hy]; exact hb)]
  simp only [area_pos_turn hd]
  exact ⟨if_pos h1, if_neg (not_lt.mpr h2.le)⟩

/-- The signed number of times the edges of the list turnD around a point. -/
def Spec.winding (B : List ((K × K) × (K × K))) (p : K × K) : ℤ := (B.map fun s => crossing p s.1 s.2).sum

theorem windD_one (p : K × K) (B : List ((K × K) × (K × K))) : windD (1, 0) p B = Spec.winding B p := by
  unfold windD Spec.winding; simp only [crossD_one]

/-- The winding number is constant along a segment that does not meet the polygon. -/
theorem winding_move {p q : K × K} {B : List ((K × K) × (K × K))} (hB : Closed2 B) (h : ∀ s ∈ B, ∀ m, Spec.OnSeg p q m → ¬Spec.OnSeg s.1 s.2 m) :
    Spec.winding B p = Spec.winding B q := by
  by_cases hpq : p = q
  · rw [hpq]
  have hd : q - p ≠ 0 := sub_ne_zero.mpr (Ne.symm hpq)
  rw [← windD_one, ← windD_one, ← windD_turn hd hB fun s hs => h s hs p ⟨0, le_rfl, zero_le_one, by simp⟩,
    ← windD_turn hd hB fun s hs => h s hs q ⟨1, zero_le_one, le_rfl, by simp⟩]
  unfold windD
  congr 1
  apply List.map_congr_left
  intro s hs
  exact crossD_move hpq (h s hs)

open Classical in
/-- The winding number changes by the number of times the polygon has the edge, when a segment crosses this edge only. -/
theorem winding_cross {p q a b m : K × K} {B : List ((K × K) × (K × K))} (hB : Closed2 B) (h1 : 0 < Spec.area2 a b p) (h2 : Spec.area2 a b q < 0)
    (hm : Spec.OnSeg p q m) (hab : Spec.InSeg a b m)
    (h : ∀ s ∈ B, s ≠ (a, b) → s ≠ (b, a) → ∀ m, Spec.OnSeg p q m → ¬Spec.OnSeg s.1 s.2 m) :
    Spec.winding B p = Spec.winding B q + B.count (a, b) - B.count (b, a) := by
  have hpq : p ≠ q := by rintro rfl; linarith
  have hne : (a, b) ≠ (b, a) := by
    intro e
    obtain ⟨rfl, -⟩ := Prod.mk.inj e
    unfold Spec.area2 at h1
    simp at h1
  have hd : q - p ≠ 0 := sub_ne_zero.mpr (Ne.symm hpq)
  obtain ⟨k1, k2⟩ := crossD_cross h1 h2 hm hab
  have hoff : ∀ x : K × K, Spec.area2 a b x ≠ 0 → ¬Spec.OnSeg a b x ∧ ¬Spec.OnSeg b a x := by
    intro x hx
    constructor
    · rintro ⟨t, -, -, rfl⟩; apply hx; unfold Spec.area2; simp; ring
    · rintro ⟨t, -, -, rfl⟩; apply hx; unfold Spec.area2; simp; ring
  have hp' : ∀ s ∈ B, ¬Spec.OnSeg s.1 s.2 p := by
    intro s hs
    by_cases e1 : s = (a, b)
    · rw [e1]; exact (hoff p h1.ne').1
    by_cases e2 : s = (b, a)
    · rw [e2]; exact (hoff p h1.ne').2
    exact h s hs e1 e2 p ⟨0, le_rfl, zero_le_one, by simp⟩
  have hq' : ∀ s ∈ B, ¬Spec.OnSeg s.1 s.2 q := by
    intro s hs
    by_cases e1 : s = (a, b)
    · rw [e1]; exact (hoff q h2.ne).1
    by_cases e2 : s = (b, a)
    · rw [e2]; exact (hoff q h2.ne).2
    exact h s hs e1 e2 q ⟨1, zero_le_one, le_rfl, by simp⟩
  rw [← windD_one, ← windD_one, ← windD_turn hd hB hp', ← windD_turn hd hB hq']
  clear hB hp' hq'
  induction B with
  | nil => simp [windD]
  | cons s B ih =>
    have ih := ih fun s hs => h s (by simp [hs])
    simp only [windD, List.map_cons, List.sum_cons] at ih ⊢
    by_cases e1 : s = (a, b)
    · subst e1
      rw [List.count_cons_self, List.count_cons_of_ne hne]
      simp only [k1, k2]
      push_cast
      linarith
    by_cases e2 : s = (b, a)
    · subst e2
      rw [List.count_cons_self, List.count_cons_of_ne hne.symm]
      simp only
      rw [crossD_swap _ p a b, crossD_swap _ q a b, k1, k2]
      push_cast
      linarith
    · rw [List.count_cons_of_ne e1, List.count_cons_of_ne e2, crossD_move hpq (h s (by simp) e1 e2)]
      linarith

end Gbs
