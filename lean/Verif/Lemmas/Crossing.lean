import Verif.Model.Geom2
import Mathlib.Tactic.Ring
import Mathlib.Tactic.Linarith
import Mathlib.Tactic.LinearCombination
import Mathlib.Tactic.Positivity
import Mathlib.Data.List.Chain

/-!
# Signed crossings of a horizontal ray

Over a closed counter-clockwise triangle the signed number of crossings of the ray from a point towards the right is 0 or 1.
-/

namespace Gbs

variable {K : Type} [Field K] [LinearOrder K] [IsStrictOrderedRing K]

/-- Twice the signed area of a triangle: positive when it is counter-clockwise. -/
def Spec.area2 (a b c : K × K) : K := (b.1 - a.1) * (c.2 - a.2) - (b.2 - a.2) * (c.1 - a.1)

omit [LinearOrder K] [IsStrictOrderedRing K] in
theorem orient2d_eq (a b c : K × K) : orient2d a b c = Spec.area2 a b c := by unfold orient2d Spec.area2; ring

/-- The signed crossing of the segment from `a` to `b` with the ray from `p` towards the right: 1 when it goes up, -1 when it goes down. -/
def crossing (p a b : K × K) : ℤ :=
  if a.2 ≤ p.2 ∧ p.2 < b.2 ∧ 0 < Spec.area2 a b p then 1
  else if b.2 ≤ p.2 ∧ p.2 < a.2 ∧ Spec.area2 a b p < 0 then -1
  else 0

omit [LinearOrder K] [IsStrictOrderedRing K] in
theorem area2_swap (a b p : K × K) : Spec.area2 b a p = - Spec.area2 a b p := by unfold Spec.area2; ring

omit [LinearOrder K] [IsStrictOrderedRing K] in
theorem area2_rotate (a b p : K × K) : Spec.area2 b p a = Spec.area2 a b p := by unfold Spec.area2; ring

omit [LinearOrder K] [IsStrictOrderedRing K] in
theorem area2_sum (a b c p : K × K) : Spec.area2 a b p + Spec.area2 b c p + Spec.area2 c a p = Spec.area2 a b c := by unfold Spec.area2; ring

omit [LinearOrder K] [IsStrictOrderedRing K] in
theorem area2_heights (a b c p : K × K) :
    Spec.area2 a b p * (c.2 - p.2) + Spec.area2 b c p * (a.2 - p.2) + Spec.area2 c a p * (b.2 - p.2) = 0 := by unfold Spec.area2; ring

theorem crossing_swap (p a b : K × K) : crossing p b a = - crossing p a b := by
  unfold crossing
  rw [area2_swap a b p]
  by_cases h1 : a.2 ≤ p.2 ∧ p.2 < b.2 ∧ 0 < Spec.area2 a b p
  · rw [if_pos h1, if_neg, if_pos ⟨h1.1, h1.2.1, by linarith [h1.2.2]⟩]
    rintro ⟨h2, -, -⟩
    exact absurd h1.2.1 (not_lt.mpr h2)
  · rw [if_neg h1]
    by_cases h2 : b.2 ≤ p.2 ∧ p.2 < a.2 ∧ Spec.area2 a b p < 0
    · rw [if_pos h2, if_pos ⟨h2.1, h2.2.1, by linarith [h2.2.2]⟩]; rfl
    · rw [if_neg h2, if_neg, if_neg]
      · rfl
      · rintro ⟨h3, h4, h5⟩; exact h1 ⟨h3, h4, by linarith⟩
      · rintro ⟨h3, h4, h5⟩; exact h2 ⟨h3, h4, by linarith⟩

/-- Upwards. -/
theorem crossing_up {p a b : K × K} (ha : a.2 ≤ p.2) (hb : p.2 < b.2) : crossing p a b = if 0 < Spec.area2 a b p then 1 else 0 := by
  unfold crossing
  by_cases h : 0 < Spec.area2 a b p
  · rw [if_pos ⟨ha, hb, h⟩, if_pos h]
  · rw [if_neg (fun hc => h hc.2.2), if_neg h, if_neg]
    rintro ⟨h1, -, -⟩; exact absurd hb (not_lt.mpr h1)

/-- Downwards. -/
theorem crossing_down {p a b : K × K} (ha : p.2 < a.2) (hb : b.2 ≤ p.2) : crossing p a b = if Spec.area2 a b p < 0 then -1 else 0 := by
  rw [← neg_neg (crossing p a b), ← crossing_swap, crossing_up hb ha, area2_swap]
  by_cases h : Spec.area2 a b p < 0
  · rw [if_pos (by linarith), if_pos h]
  · rw [if_neg (by linarith), if_neg h]; rfl

/-- On one side. -/
theorem crossing_same {p a b : K × K} (h : (a.2 ≤ p.2 ∧ b.2 ≤ p.2) ∨ (p.2 < a.2 ∧ p.2 < b.2)) : crossing p a b = 0 := by
  unfold crossing
  rw [if_neg, if_neg]
  · rintro ⟨h1, h2, -⟩
    rcases h with ⟨h3, h4⟩ | ⟨h3, h4⟩
    · exact absurd h2 (not_lt.mpr h3)
    · exact absurd h4 (not_lt.mpr h1)
  · rintro ⟨h1, h2, -⟩
    rcases h with ⟨h3, h4⟩ | ⟨h3, h4⟩
    · exact absurd h2 (not_lt.mpr h4)
    · exact absurd h3 (not_lt.mpr h1)

/-- The signed crossings of a triangle. -/
def triCrossing (p a b c : K × K) : ℤ := crossing p a b + crossing p b c + crossing p c a

theorem triCrossing_rotate (p a b c : K × K) : triCrossing p b c a = triCrossing p a b c := by unfold triCrossing; ring

/-- One vertex above. -/
theorem triCrossing_one {p a b c : K × K} (hw : 0 < Spec.area2 a b c) (ha : a.2 ≤ p.2) (hb : b.2 ≤ p.2) (hc : p.2 < c.2) :
    (triCrossing p a b c = 0 ∨ triCrossing p a b c = 1) ∧
    (triCrossing p a b c = 1 ↔ 0 < Spec.area2 b c p ∧ 0 ≤ Spec.area2 c a p) ∧
    (0 < Spec.area2 b c p ∧ 0 ≤ Spec.area2 c a p → 0 ≤ Spec.area2 a b p) := by
  have hs := area2_sum a b c p
  have hh := area2_heights a b c p
  have key : 0 < Spec.area2 b c p → 0 ≤ Spec.area2 c a p → 0 ≤ Spec.area2 a b p := by
    intro h1 h2
    by_contra hn
    push Not at hn
    have := mul_neg_of_neg_of_pos hn (sub_pos.mpr hc)
    have := mul_nonpos_of_nonneg_of_nonpos h1.le (sub_nonpos.mpr ha)
    have := mul_nonpos_of_nonneg_of_nonpos h2 (sub_nonpos.mpr hb)
    linarith
  have key2 : Spec.area2 c a p < 0 → 0 < Spec.area2 b c p := by
    intro h1
    by_contra hn
    push Not at hn
    have h2 := mul_nonneg_of_nonpos_of_nonpos hn (sub_nonpos.mpr ha)
    have h3 := mul_nonneg_of_nonpos_of_nonpos h1.le (sub_nonpos.mpr hb)
    have h4 : Spec.area2 a b p ≤ 0 := by
      by_contra h5
      push Not at h5
      have := mul_pos h5 (sub_pos.mpr hc)
      linarith
    linarith
  have hv : triCrossing p a b c = (if 0 < Spec.area2 b c p then 1 else 0) + (if Spec.area2 c a p < 0 then -1 else 0) := by
    unfold triCrossing
    rw [crossing_same (Or.inl ⟨ha, hb⟩), crossing_up hb hc, crossing_down hc ha]; ring
  refine ⟨?_, ?_, fun h => key h.1 h.2⟩
  · rw [hv]
    by_cases h1 : Spec.area2 c a p < 0
    · left; rw [if_pos (key2 h1), if_pos h1]; rfl
    · rw [if_neg h1]; split <;> simp
  · rw [hv]
    by_cases h1 : Spec.area2 c a p < 0
    · rw [if_pos (key2 h1), if_pos h1]
      simp; intro _; exact h1
    · rw [if_neg h1]
      by_cases h2 : 0 < Spec.area2 b c p
      · simp [h2, not_lt.mp h1]
      · simp [h2]

/-- Two vertices above. -/
theorem triCrossing_two {p a b c : K × K} (hw : 0 < Spec.area2 a b c) (ha : p.2 < a.2) (hb : p.2 < b.2) (hc : c.2 ≤ p.2) :
    (triCrossing p a b c = 0 ∨ triCrossing p a b c = 1) ∧
    (triCrossing p a b c = 1 ↔ 0 < Spec.area2 c a p ∧ 0 ≤ Spec.area2 b c p) ∧
    (0 < Spec.area2 c a p ∧ 0 ≤ Spec.area2 b c p → 0 ≤ Spec.area2 a b p) := by
  have hs := area2_sum a b c p
  have hh := area2_heights a b c p
  have ha' := sub_pos.mpr ha
  have hb' := sub_pos.mpr hb
  have hc' := sub_nonpos.mpr hc
  have key : 0 < Spec.area2 c a p → 0 ≤ Spec.area2 b c p → 0 ≤ Spec.area2 a b p := by
    intro h1 h2
    by_contra hn
    push Not at hn
    have := mul_nonneg_of_nonpos_of_nonpos hn.le hc'
    have := mul_pos h1 hb'
    have := mul_nonneg h2 ha'.le
    linarith
  have key2 : Spec.area2 b c p < 0 → 0 < Spec.area2 c a p := by
    intro h1
    by_contra hn
    push Not at hn
    have h2 := mul_neg_of_neg_of_pos h1 ha'
    have h3 := mul_nonpos_of_nonpos_of_nonneg hn hb'.le
    have h4 : Spec.area2 a b p ≤ 0 := by
      by_contra h5
      push Not at h5
      have := mul_nonpos_of_nonneg_of_nonpos h5.le hc'
      linarith
    linarith
  have hv : triCrossing p a b c = (if 0 < Spec.area2 c a p then 1 else 0) + (if Spec.area2 b c p < 0 then -1 else 0) := by
    unfold triCrossing
    rw [crossing_same (Or.inr ⟨ha, hb⟩), crossing_up hc ha, crossing_down hb hc]; ring
  refine ⟨?_, ?_, fun h => key h.1 h.2⟩
  · rw [hv]
    by_cases h1 : Spec.area2 b c p < 0
    · left; rw [if_pos (key2 h1), if_pos h1]; rfl
    · rw [if_neg h1]; split <;> simp
  · rw [hv]
    by_cases h1 : Spec.area2 b c p < 0
    · rw [if_pos (key2 h1), if_pos h1]
      simp; intro _; exact h1
    · rw [if_neg h1]
      by_cases h2 : 0 < Spec.area2 c a p
      · simp [h2, not_lt.mp h1]
      · simp [h2]

theorem triCrossing_zero {p a b c : K × K} (h : (a.2 ≤ p.2 ∧ b.2 ≤ p.2 ∧ c.2 ≤ p.2) ∨ (p.2 < a.2 ∧ p.2 < b.2 ∧ p.2 < c.2)) :
    triCrossing p a b c = 0 := by
  unfold triCrossing
  rcases h with ⟨h1, h2, h3⟩ | ⟨h1, h2, h3⟩
  · rw [crossing_same (Or.inl ⟨h1, h2⟩), crossing_same (Or.inl ⟨h2, h3⟩), crossing_same (Or.inl ⟨h3, h1⟩)]; rfl
  · rw [crossing_same (Or.inr ⟨h1, h2⟩), crossing_same (Or.inr ⟨h2, h3⟩), crossing_same (Or.inr ⟨h3, h1⟩)]; rfl

/-- The point is in the closed triangle. -/
def InClosed (a b c p : K × K) : Prop := 0 ≤ Spec.area2 a b p ∧ 0 ≤ Spec.area2 b c p ∧ 0 ≤ Spec.area2 c a p

/-- The point is in the open triangle. -/
def InOpen (a b c p : K × K) : Prop := 0 < Spec.area2 a b p ∧ 0 < Spec.area2 b c p ∧ 0 < Spec.area2 c a p

omit [IsStrictOrderedRing K] in
theorem InClosed.rot {a b c p : K × K} (h : InClosed b c a p) : InClosed a b c p := ⟨h.2.2, h.1, h.2.1⟩

omit [IsStrictOrderedRing K] in
theorem InOpen.rot {a b c p : K × K} (h : InOpen a b c p) : InOpen b c a p := ⟨h.2.1, h.2.2, h.1⟩

theorem triCrossing_spec {p a b c : K × K} (hw : 0 < Spec.area2 a b c) :
    (triCrossing p a b c = 0 ∨ triCrossing p a b c = 1) ∧ (triCrossing p a b c = 1 → InClosed a b c p) ∧
      (InOpen a b c p → triCrossing p a b c = 1) := by
  have hh := area2_heights a b c p
  have hwr : 0 < Spec.area2 b c a := by rw [area2_rotate]; exact hw
  have hwr2 : 0 < Spec.area2 c a b := by rw [area2_rotate, area2_rotate]; exact hw
  have r1 := triCrossing_rotate p a b c
  have r2 := triCrossing_rotate p b c a
  rcases le_or_gt a.2 p.2 with ha | ha <;> rcases le_or_gt b.2 p.2 with hb | hb <;> rcases le_or_gt c.2 p.2 with hc | hc
  · -- none above
    have h0 := triCrossing_zero (p := p) (a := a) (b := b) (c := c) (Or.inl ⟨ha, hb, hc⟩)
    refine ⟨Or.inl h0, by rw [h0]; simp, ?_⟩
    rintro ⟨h1, h2, h3⟩
    exfalso
    have q1 := mul_nonpos_of_nonneg_of_nonpos h1.le (sub_nonpos.mpr hc)
    have q2 := mul_nonpos_of_nonneg_of_nonpos h2.le (sub_nonpos.mpr ha)
    have q3 := mul_nonpos_of_nonneg_of_nonpos h3.le (sub_nonpos.mpr hb)
    have e1 : Spec.area2 a b p * (c.2 - p.2) = 0 := by linarith
    have e2 : Spec.area2 b c p * (a.2 - p.2) = 0 := by linarith
    have e3 : Spec.area2 c a p * (b.2 - p.2) = 0 := by linarith
    have f1 : c.2 = p.2 := by rcases mul_eq_zero.mp e1 with h | h <;> linarith
    have f2 : a.2 = p.2 := by rcases mul_eq_zero.mp e2 with h | h <;> linarith
    have f3 : b.2 = p.2 := by rcases mul_eq_zero.mp e3 with h | h <;> linarith
    have : Spec.area2 a b c = 0 := by unfold Spec.area2; rw [f1, f2, f3]; ring
    linarith
  · -- only c
    obtain ⟨h1, h2, h3⟩ := triCrossing_one hw ha hb hc
    exact ⟨h1, fun h => ⟨h3 (h2.mp h), (h2.mp h).1.le, (h2.mp h).2⟩, fun h => h2.mpr ⟨h.2.1, h.2.2.le⟩⟩
  · -- only b: triangle c a b
    obtain ⟨h1, h2, h3⟩ := triCrossing_one hwr2 hc ha hb
    rw [r2, r1] at h1 h2
    exact ⟨h1, fun h => ⟨(h2.mp h).1.le, (h2.mp h).2, h3 (h2.mp h)⟩, fun h => h2.mpr ⟨h.1, h.2.1.le⟩⟩
  · -- b and c: triangle b c a
    obtain ⟨h1, h2, h3⟩ := triCrossing_two hwr hb hc ha
    rw [r1] at h1 h2
    exact ⟨h1, fun h => ⟨(h2.mp h).1.le, h3 (h2.mp h), (h2.mp h).2⟩, fun h => h2.mpr ⟨h.1, h.2.2.le⟩⟩
  · -- only a: triangle b c a
    obtain ⟨h1, h2, h3⟩ := triCrossing_one hwr hb hc ha
    rw [r1] at h1 h2
    exact ⟨h1, fun h => ⟨(h2.mp h).2, h3 (h2.mp h), (h2.mp h).1.le⟩, fun h => h2.mpr ⟨h.2.2, h.1.le⟩⟩
  · -- a and c: triangle c a b
    obtain ⟨h1, h2, h3⟩ := triCrossing_two hwr2 hc ha hb
    rw [r2, r1] at h1 h2
    exact ⟨h1, fun h => ⟨(h2.mp h).2, (h2.mp h).1.le, h3 (h2.mp h)⟩, fun h => h2.mpr ⟨h.2.1, h.1.le⟩⟩
  · -- a and b
    obtain ⟨h1, h2, h3⟩ := triCrossing_two hw ha hb hc
    exact ⟨h1, fun h => ⟨h3 (h2.mp h), (h2.mp h).2, (h2.mp h).1.le⟩, fun h => h2.mpr ⟨h.2.2, h.2.1.le⟩⟩
  · -- all above
    have h0 := triCrossing_zero (p := p) (a := a) (b := b) (c := c) (Or.inr ⟨ha, hb, hc⟩)
    refine ⟨Or.inl h0, by rw [h0]; simp, ?_⟩
    rintro ⟨h1, h2, h3⟩
    exfalso
    have q1 := mul_pos h1 (sub_pos.mpr hc)
    have q2 := mul_pos h2 (sub_pos.mpr ha)
    have q3 := mul_pos h3 (sub_pos.mpr hb)
    linarith

/-- A segment seen counter-clockwise from the point is not crossed downwards. -/
theorem crossing_of_pos {p a b : K × K} (h : 0 < Spec.area2 a b p) : crossing p a b = if a.2 ≤ p.2 ∧ p.2 < b.2 then 1 else 0 := by
  unfold crossing
  by_cases h1 : a.2 ≤ p.2 ∧ p.2 < b.2
  · rw [if_pos ⟨h1.1, h1.2, h⟩, if_pos h1]
  · rw [if_neg (fun hc => h1 ⟨hc.1, hc.2.1⟩), if_neg h1, if_neg (fun hc => by linarith [hc.2.2])]

/-- Segments from points to points, each one starting where the one before it ends. -/
def SegChain (l : List ((K × K) × (K × K))) : Prop := l.IsChain fun s t => s.2 = t.1

/-- The slope seen from the point decreases along a chain seen counter-clockwise on one side. -/
theorem key_chain {p : K × K} : ∀ (l : List ((K × K) × (K × K))) (s t : (K × K) × (K × K)), SegChain l → l.head? = some s → l.getLast? = some t →
    (∀ x ∈ l, 0 < Spec.area2 x.1 x.2 p) → ((∀ x ∈ l, p.2 < x.1.2 ∧ p.2 < x.2.2) ∨ (∀ x ∈ l, x.1.2 < p.2 ∧ x.2.2 < p.2)) →
    (t.2.1 - p.1) / (t.2.2 - p.2) < (s.1.1 - p.1) / (s.1.2 - p.2) := by
  have one : ∀ x : (K × K) × (K × K), 0 < Spec.area2 x.1 x.2 p → (p.2 < x.1.2 ∧ p.2 < x.2.2) ∨ (x.1.2 < p.2 ∧ x.2.2 < p.2) →
      (x.2.1 - p.1) / (x.2.2 - p.2) < (x.1.1 - p.1) / (x.1.2 - p.2) := by
    intro x hx hs
    have hx' : 0 < (x.1.1 - p.1) * (x.2.2 - p.2) - (x.1.2 - p.2) * (x.2.1 - p.1) := by
      unfold Spec.area2 at hx; linarith
    rcases hs with ⟨h1, h2⟩ | ⟨h1, h2⟩
    · rw [div_lt_div_iff₀ (sub_pos.mpr h2) (sub_pos.mpr h1)]; linarith
    · rw [← neg_div_neg_eq, ← neg_div_neg_eq (x.1.1 - p.1), div_lt_div_iff₀ (by linarith) (by linarith)]
      linarith
  intro l
  induction l with
  | nil => intro s t _ hs; simp at hs
  | cons x l ih =>
    intro s t hc hs ht hp hside
    simp at hs; subst hs
    cases l with
    | nil =>
      simp at ht; subst ht
      apply one _ (hp _ (by simp))
      rcases hside with h | h
      · exact Or.inl (h _ (by simp))
      · exact Or.inr (h _ (by simp))
    | cons y l =>
      have hxy := (List.isChain_cons_cons.mp hc).1
      have h1 := ih y t (List.isChain_cons_cons.mp hc).2 rfl (by simpa using ht) (fun z hz => hp z (by simp [hz])) (by
        rcases hside with h | h
        · exact Or.inl fun z hz => h z (by simp [hz])
        · exact Or.inr fun z hz => h z (by simp [hz]))
      have h2 := one x (hp x (by simp)) (by
        rcases hside with h | h
        · exact Or.inl (h x (by simp))
        · exact Or.inr (h x (by simp)))
      rw [← hxy] at h1
      exact h1.trans h2

/-- Along a chain without upwards segment, below stays below. -/
theorem stay_below {p : K × K} : ∀ (l : List ((K × K) × (K × K))) (s : (K × K) × (K × K)), SegChain l → l.head? = some s →
    (∀ x ∈ l, ¬(x.1.2 ≤ p.2 ∧ p.2 < x.2.2)) → s.1.2 ≤ p.2 → ∀ x ∈ l, x.1.2 ≤ p.2 ∧ x.2.2 ≤ p.2 := by
  intro l
  induction l with
  | nil => intro s _ hs; simp at hs
  | cons y l ih =>
    intro s hc hs hup hb x hx
    simp at hs; subst hs
    have hy : y.2.2 ≤ p.2 := by
      by_contra hn
      exact hup y (by simp) ⟨hb, not_le.mp hn⟩
    rcases List.mem_cons.mp hx with rfl | hx
    · exact ⟨hb, hy⟩
    · cases l with
      | nil => simp at hx
      | cons z l =>
        have hyz := (List.isChain_cons_cons.mp hc).1
        exact ih z (List.isChain_cons_cons.mp hc).2 rfl (fun w hw => hup w (by simp [hw])) (by rw [← hyz]; exact hy) x hx

/-- A closed chain of segments seen counter-clockwise from the point crosses the ray at least once. -/
theorem loop_crossing {p : K × K} {l : List ((K × K) × (K × K))} {s t : (K × K) × (K × K)} (hc : SegChain l) (hs : l.head? = some s)
    (ht : l.getLast? = some t) (hcl : s.1 = t.2) (hp : ∀ x ∈ l, 0 < Spec.area2 x.1 x.2 p) : 1 ≤ (l.map fun x => crossing p x.1 x.2).sum := by
  have hv : ∀ x ∈ l, crossing p x.1 x.2 = if x.1.2 ≤ p.2 ∧ p.2 < x.2.2 then 1 else 0 := fun x hx => crossing_of_pos (hp x hx)
  rw [List.map_congr_left hv]
  by_contra hn
  have hno : ∀ x ∈ l, ¬(x.1.2 ≤ p.2 ∧ p.2 < x.2.2) := by
    intro x hx hc'
    apply hn
    have hpos : ∀ (l : List ((K × K) × (K × K))), 0 ≤ (l.map fun x => if x.1.2 ≤ p.2 ∧ p.2 < x.2.2 then (1 : ℤ) else 0).sum := by
      intro l
      induction l with
      | nil => simp
      | cons y l ih =>
        rw [List.map_cons, List.sum_cons]
        split <;> omega
    have : ∀ (l : List ((K × K) × (K × K))), x ∈ l → 1 ≤ (l.map fun x => if x.1.2 ≤ p.2 ∧ p.2 < x.2.2 then (1 : ℤ) else 0).sum := by
      intro l hl
      induction l with
      | nil => simp at hl
      | cons y l ih =>
        rw [List.map_cons, List.sum_cons]
        rcases List.mem_cons.mp hl with rfl | hl
        · rw [if_pos hc']; have := hpos l; omega
        · have := ih hl
          split <;> omega
    exact this l hx
  have hsl : s ∈ l := List.mem_of_mem_head? (by rw [hs]; rfl)
  have htl : t ∈ l := List.mem_of_getLast? ht
  rcases le_or_gt s.1.2 p.2 with hlow | hhigh
  · have hb := stay_below l s hc hs hno hlow
    -- no vertex at the height of the point
    have hnz1 : ∀ x ∈ l, x.1.2 < p.2 ∧ x.2.2 < p.2 := by
      have step : ∀ (x y : (K × K) × (K × K)), x ∈ l → y ∈ l → x.2 = y.1 → y.1.2 < p.2 := by
        intro x y hx hy hxy
        refine lt_of_le_of_ne (hb y hy).1 ?_
        intro heq
        have q1 : 0 < (x.1.1 - p.1) * (x.2.2 - p.2) - (x.1.2 - p.2) * (x.2.1 - p.1) := by
          have := hp x hx; unfold Spec.area2 at this; linarith
        have q2 : 0 < (y.1.1 - p.1) * (y.2.2 - p.2) - (y.1.2 - p.2) * (y.2.1 - p.1) := by
          have := hp y hy; unfold Spec.area2 at this; linarith
        rw [hxy, heq] at q1
        rw [heq] at q2
        have b1 := (hb x hx).1
        have b2 := (hb y hy).2
        have e1 : (p.2 - x.1.2) * (y.1.1 - p.1) > 0 := by linarith
        have e2 : (y.1.1 - p.1) * (y.2.2 - p.2) > 0 := by linarith
        have e3 : 0 < y.1.1 - p.1 := by
          by_contra hneg
          have := mul_nonpos_of_nonneg_of_nonpos (sub_nonneg.mpr b1) (not_lt.mp hneg)
          linarith
        have := mul_nonpos_of_nonneg_of_nonpos e3.le (sub_nonpos.mpr b2)
        linarith
      have hstart : s.1.2 < p.2 := step t s htl hsl hcl.symm
      -- along the list
      have walk : ∀ (m : List ((K × K) × (K × K))) (x : (K × K) × (K × K)), SegChain m → m.head? = some x → (∀ y ∈ m, y ∈ l) →
          m.getLast? = some t → x.1.2 < p.2 → ∀ y ∈ m, y.1.2 < p.2 ∧ y.2.2 < p.2 := by
        intro m
        induction m with
        | nil => intro x _ hx; simp at hx
        | cons z m ih =>
          intro x hcm hx hml hlast hxp y hy
          simp at hx; subst hx
          cases m with
          | nil =>
            simp at hlast hy; subst hlast; subst hy
            exact ⟨hxp, by rw [← hcl]; exact hstart⟩
          | cons w m =>
            have hzw := (List.isChain_cons_cons.mp hcm).1
            have hw := step z w (hml z (by simp)) (hml w (by simp)) hzw
            rcases List.mem_cons.mp hy with rfl | hy
            · exact ⟨hxp, by rw [hzw]; exact hw⟩
            · exact ih w (List.isChain_cons_cons.mp hcm).2 rfl (fun v hv => hml v (by simp [hv])) (by simpa using hlast) hw y hy
      exact walk l s hc hs (fun _ h => h) ht hstart
    have := key_chain l s t hc hs ht hp (Or.inr hnz1)
    rw [hcl] at this
    exact lt_irrefl _ this
  · -- all above
    have hup : ∀ x ∈ l, p.2 < x.1.2 ∧ p.2 < x.2.2 := by
      have walk : ∀ (m : List ((K × K) × (K × K))) (x : (K × K) × (K × K)), SegChain m → m.head? = some x → (∀ y ∈ m, y ∈ l) →
          m.getLast? = some t → p.2 < x.1.2 → ∀ y ∈ m, p.2 < y.1.2 ∧ p.2 < y.2.2 := by
        intro m
        induction m with
        | nil => intro x _ hx; simp at hx
        | cons z m ih =>
          intro x hcm hx hml hlast hxp y hy
          simp at hx; subst hx
          cases m with
          | nil =>
            simp at hlast hy; subst hlast; subst hy
            exact ⟨hxp, by rw [← hcl]; exact hhigh⟩
          | cons w m =>
            have hzw := (List.isChain_cons_cons.mp hcm).1
            have hw : p.2 < w.1.2 := by
              by_contra hn'
              have := stay_below (w :: m) w (List.isChain_cons_cons.mp hcm).2 rfl (fun v hv => hno v (hml v (by simp [hv]))) (not_lt.mp hn') t
                (List.mem_of_getLast? (by simpa using hlast))
              rw [← hcl] at this
              exact absurd hhigh (not_lt.mpr this.2)
            rcases List.mem_cons.mp hy with rfl | hy
            · exact ⟨hxp, by rw [hzw]; exact hw⟩
            · exact ih w (List.isChain_cons_cons.mp hcm).2 rfl (fun v hv => hml v (by simp [hv])) (by simpa using hlast) hw y hy
      exact walk l s hc hs (fun _ h => h) ht hhigh
    have := key_chain l s t hc hs ht hp (Or.inl hup)
    rw [hcl] at this
    exact lt_irrefl _ this

end Gbs
