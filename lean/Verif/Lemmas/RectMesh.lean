import Mathlib.Algebra.Order.Field.Basic
import Mathlib.Tactic.Linarith
import Mathlib.Tactic.Ring
import Mathlib.Tactic.LinearCombination
import Mathlib.Tactic.Positivity
import Mathlib.Tactic.FieldSimp

/-!
# Circles through a far corner of an encompassing rectangle

The rectangle is `[0,w]×[0,h]`. The power of a point for a circle is `x(x-w) + y(y-h)` plus an affine function.
-/

namespace Gbs

variable {K : Type} [Field K] [LinearOrder K] [IsStrictOrderedRing K] {w h r k0 k1 k2 : K}

/-- The power of a point for a circle. -/
def cpow (w h k0 k1 k2 x y : K) : K := x * (x - w) + y * (y - h) + k0 + k1 * x + k2 * y

/-- On the border of the rectangle. -/
def OnBox (w h x y : K) : Prop := 0 ≤ x ∧ x ≤ w ∧ 0 ≤ y ∧ y ≤ h ∧ (x = 0 ∨ x = w ∨ y = 0 ∨ y = h)

/-- No corner of the rectangle is inside the circle. -/
structure Clear (w h k0 k1 k2 : K) : Prop where
  c00 : 0 ≤ k0
  c10 : 0 ≤ k0 + k1 * w
  c01 : 0 ≤ k0 + k2 * h
  c11 : 0 ≤ k0 + k1 * w + k2 * h

theorem Clear.flipX (c : Clear w h k0 k1 k2) : Clear w h (k0 + k1 * w) (-k1) k2 :=
  ⟨c.c10, by linarith [c.c00], by linarith [c.c11], by linarith [c.c01]⟩

theorem Clear.flipY (c : Clear w h k0 k1 k2) : Clear w h (k0 + k2 * h) k1 (-k2) :=
  ⟨c.c01, by linarith [c.c11], by linarith [c.c00], by linarith [c.c10]⟩

theorem cpow_flipX (x y : K) : cpow w h (k0 + k1 * w) (-k1) k2 (w - x) y = cpow w h k0 k1 k2 x y := by unfold cpow; ring
theorem cpow_flipY (x y : K) : cpow w h (k0 + k2 * h) k1 (-k2) x (h - y) = cpow w h k0 k1 k2 x y := by unfold cpow; ring

theorem OnBox.flipX {x y : K} (o : OnBox w h x y) : OnBox w h (w - x) y := by
  obtain ⟨a, b, c, d, e⟩ := o
  refine ⟨by linarith, by linarith, c, d, ?_⟩
  rcases e with e | e | e | e
  · exact Or.inr (Or.inl (by linarith))
  · exact Or.inl (by linarith)
  · exact Or.inr (Or.inr (Or.inl e))
  · exact Or.inr (Or.inr (Or.inr e))

theorem OnBox.flipY {x y : K} (o : OnBox w h x y) : OnBox w h x (h - y) := by
  obtain ⟨a, b, c, d, e⟩ := o
  refine ⟨a, b, by linarith, by linarith, ?_⟩
  rcases e with e | e | e | e
  · exact Or.inl e
  · exact Or.inr (Or.inl e)
  · exact Or.inr (Or.inr (Or.inr (by linarith)))
  · exact Or.inr (Or.inr (Or.inl (by linarith)))

/-- When the power of the corner `(w,h)` is large, the points of the border on the circle are on one of the two other sides. -/
theorem clear_sides (hw : 0 < w) (hh : 0 < h) (c : Clear w h k0 k1 k2) (hb : w * w + h * h < k0 + k1 * w + k2 * h) :
    (∀ x y, OnBox w h x y → cpow w h k0 k1 k2 x y = 0 → x = 0) ∨ (∀ x y, OnBox w h x y → cpow w h k0 k1 k2 x y = 0 → y = 0) := by
  have hor : ∀ x y, OnBox w h x y → cpow w h k0 k1 k2 x y = 0 → x = 0 ∨ y = 0 := by
    intro x y o he
    obtain ⟨a, b, d, e, g⟩ := o
    unfold cpow at he
    rcases g with rfl | rfl | rfl | rfl
    · exact Or.inl rfl
    · right
      by_contra hy
      have hy : 0 < y := lt_of_le_of_ne d (Ne.symm hy)
      have h1 := mul_nonneg (sub_nonneg.mpr e) c.c10
      have h2 : y * (k0 + k1 * x + k2 * h) ≤ y * (h * (h - y)) := by linear_combination h1 + h * he
      have h3 := le_of_mul_le_mul_left h2 hy
      have := mul_pos hh hy
      have := mul_pos hw hw
      linarith
    · exact Or.inr rfl
    · left
      by_contra hx
      have hx : 0 < x := lt_of_le_of_ne a (Ne.symm hx)
      have h1 := mul_nonneg (sub_nonneg.mpr b) c.c01
      have h2 : x * (k0 + k1 * w + k2 * y) ≤ x * (w * (w - x)) := by linear_combination h1 + w * he
      have h3 := le_of_mul_le_mul_left h2 hx
      have := mul_pos hw hx
      have := mul_pos hh hh
      linarith
  by_contra hcon
  push Not at hcon
  obtain ⟨⟨x, y, o1, e1, hx⟩, ⟨x', y', o2, e2, hy⟩⟩ := hcon
  have hy0 : y = 0 := (hor x y o1 e1).resolve_left hx
  have hx0 : x' = 0 := (hor x' y' o2 e2).resolve_right hy
  subst hy0 hx0
  have hx : 0 < x := lt_of_le_of_ne o1.1 (Ne.symm hx)
  have hy : 0 < y' := lt_of_le_of_ne o2.2.2.1 (Ne.symm hy)
  unfold cpow at e1 e2
  have h1 : x * (k0 + k1 * w) ≤ x * (w * (w - x)) := by
    have := mul_nonneg (sub_nonneg.mpr o1.2.1) c.c00
    linear_combination this + w * e1
  have h2 : y' * (k0 + k2 * h) ≤ y' * (h * (h - y')) := by
    have := mul_nonneg (sub_nonneg.mpr o2.2.2.2.1) c.c00
    linear_combination this + h * e2
  have h1 := le_of_mul_le_mul_left h1 hx
  have h2 := le_of_mul_le_mul_left h2 hy
  have := mul_pos hw hx
  have := mul_pos hh hy
  have := c.c00
  linarith

/-- A circle through a far corner is far from the opposite corner of the rectangle. -/
theorem far_big (hw : 0 < w) (hh : 0 < h) (hr : 0 < r) (c : Clear w h k0 k1 k2) :
    (cpow w h k0 k1 k2 (-(r * (1 + r) * w)) (-(r * (1 + r) * h)) = 0 → w * w + h * h < k0 + k1 * w + k2 * h) ∧
    (cpow w h k0 k1 k2 ((1 + r) * w) (-(r * (1 + r) * h)) = 0 → w * w + h * h < k0 + k2 * h) ∧
    (cpow w h k0 k1 k2 (-(r * (1 + r) * w)) ((1 + r) * h) = 0 → w * w + h * h < k0 + k1 * w) ∧
    (cpow w h k0 k1 k2 ((1 + r) * w) ((1 + r) * h) = 0 → w * w + h * h < k0) := by
  obtain ⟨c1, c2, c3, c4⟩ := c
  have hρ : 0 < r * (1 + r) := by positivity
  obtain ⟨ρ, hρe⟩ : ∃ ρ, ρ = r * (1 + r) := ⟨_, rfl⟩
  rw [← hρe] at hρ
  have hww := mul_pos hw hw
  have hhh := mul_pos hh hh
  rw [← hρe]
  unfold cpow
  refine ⟨?_, ?_, ?_, ?_⟩
  · intro he
    have h1 : ρ * ((1 + ρ) * (w * w + h * h)) ≤ ρ * (k0 + k1 * w + k2 * h) := by
      have := mul_nonneg (show (0:K) ≤ 1 + ρ by linarith) c1
      linear_combination this + he
    have := le_of_mul_le_mul_left h1 hρ
    have := mul_pos hρ (add_pos hww hhh)
    linarith
  · intro he
    have h1 : ρ * (w * w + (1 + ρ) * (h * h)) ≤ ρ * (k0 + k2 * h) := by
      have := mul_nonneg (show (0:K) ≤ 1 + r by linarith) c2
      have h4 := mul_nonneg (mul_nonneg hr.le hr.le) c1
      rw [hρe] at he ⊢
      linear_combination this + h4 + he
    have := le_of_mul_le_mul_left h1 hρ
    have := mul_pos hρ hhh
    linarith
  · intro he
    have h1 : ρ * (h * h + (1 + ρ) * (w * w)) ≤ ρ * (k0 + k1 * w) := by
      have := mul_nonneg (show (0:K) ≤ 1 + r by linarith) c3
      have h4 := mul_nonneg (mul_nonneg hr.le hr.le) c1
      rw [hρe] at he ⊢
      linear_combination this + h4 + he
    have := le_of_mul_le_mul_left h1 hρ
    have := mul_pos hρ hww
    linarith
  · intro he
    have h1 : r * ((1 + r) * (w * w + h * h)) ≤ r * k0 := by
      have := mul_nonneg (show (0:K) ≤ 1 + r by linarith) c4
      linear_combination this + he
    have := le_of_mul_le_mul_left h1 hr
    have := mul_pos hr (add_pos hww hhh)
    linarith

/-- A circle does not pass through two opposite far corners. -/
theorem far_opposite (hw : 0 < w) (hh : 0 < h) (hr : 0 < r) (hr1 : r ≤ 1) (c : Clear w h k0 k1 k2) :
    ¬(cpow w h k0 k1 k2 (-(r * (1 + r) * w)) (-(r * (1 + r) * h)) = 0 ∧ cpow w h k0 k1 k2 ((1 + r) * w) ((1 + r) * h) = 0) ∧
    ¬(cpow w h k0 k1 k2 ((1 + r) * w) (-(r * (1 + r) * h)) = 0 ∧ cpow w h k0 k1 k2 (-(r * (1 + r) * w)) ((1 + r) * h) = 0) := by
  obtain ⟨c1, c2, c3, c4⟩ := c
  have hww := mul_pos hw hw
  have hhh := mul_pos hh hh
  have hρ : 0 < r * (1 + r) := by positivity
  unfold cpow
  constructor
  · rintro ⟨e1, e2⟩
    obtain ⟨ρ, hρe⟩ : ∃ ρ, ρ = r * (1 + r) := ⟨_, rfl⟩
    rw [← hρe] at e1 hρ
    have h1 : ρ * (k0 + k1 * w + k2 * h) = (1 + ρ) * k0 + ρ * ((1 + ρ) * (w * w + h * h)) := by linear_combination -e1
    have h2 : r * k0 = (1 + r) * (k0 + k1 * w + k2 * h) + r * ((1 + r) * (w * w + h * h)) := by linear_combination -e2
    have a1 : k0 < k0 + k1 * w + k2 * h := by
      refine lt_of_mul_lt_mul_left (a := ρ) ?_ hρ.le
      have := mul_pos hρ (mul_pos (show 0 < 1 + ρ by linarith) (add_pos hww hhh))
      linarith
    have a2 : k0 + k1 * w + k2 * h < k0 := by
      refine lt_of_mul_lt_mul_left (a := r) ?_ hr.le
      have := mul_pos hr (mul_pos (show 0 < 1 + r by linarith) (add_pos hww hhh))
      linarith
    linarith
  · rintro ⟨e1, e2⟩
    have h1 : 0 ≤ (1 + r) * (1 - r) * ((k0 + k1 * w) + (k0 + k2 * h)) :=
      mul_nonneg (mul_nonneg (by linarith) (by linarith)) (add_nonneg c2 c3)
    have h2 := mul_nonneg (mul_nonneg hr.le hr.le) c1
    have h3 := mul_pos hρ (mul_pos (show 0 < 2 + r * (1 + r) by linarith) (add_pos hww hhh))
    have : (1 + r) * (1 - r) * ((k0 + k1 * w) + (k0 + k2 * h)) + 2 * (r * r * k0) + r * (1 + r) * ((2 + r * (1 + r)) * (w * w + h * h)) = 0 := by
      linear_combination e1 + e2
    linarith

/-- Beyond one of the four sides of the rectangle. -/
def Beyond (w h : K) (S : K → K → Prop) : Prop :=
  (∀ x y, S x y → x ≤ 0) ∨ (∀ x y, S x y → y ≤ 0) ∨ (∀ x y, S x y → w ≤ x) ∨ (∀ x y, S x y → h ≤ y)

/-- The vertices on a circle which passes through a far corner and is clear of the corners of the rectangle are beyond one side. -/
theorem far_beyond (hw : 0 < w) (hh : 0 < h) (hr : 0 < r) (hr1 : r ≤ 1) (c : Clear w h k0 k1 k2) {S : K → K → Prop}
    (hS : ∀ x y, S x y → cpow w h k0 k1 k2 x y = 0 ∧ (OnBox w h x y ∨ ((x = -(r * (1 + r) * w) ∨ x = (1 + r) * w) ∧ (y = -(r * (1 + r) * h) ∨ y = (1 + r) * h))))
    (hfar : ∃ x y, S x y ∧ (x = -(r * (1 + r) * w) ∨ x = (1 + r) * w) ∧ (y = -(r * (1 + r) * h) ∨ y = (1 + r) * h)) :
    Beyond w h S := by
  have hρw : 0 < r * (1 + r) * w := by positivity
  have hρh : 0 < r * (1 + r) * h := by positivity
  have hrw : w < (1 + r) * w := by nlinarith [mul_pos hr hw]
  have hrh : h < (1 + r) * h := by nlinarith [mul_pos hr hh]
  obtain ⟨b1, b2, b3, b4⟩ := far_big hw hh hr c
  obtain ⟨o1, o2⟩ := far_opposite hw hh hr hr1 c
  have s1 := fun hh' => clear_sides hw hh c (b1 hh')
  have s2 : cpow w h k0 k1 k2 ((1 + r) * w) (-(r * (1 + r) * h)) = 0 →
      (∀ x y, OnBox w h x y → cpow w h k0 k1 k2 x y = 0 → x = w) ∨ (∀ x y, OnBox w h x y → cpow w h k0 k1 k2 x y = 0 → y = 0) := by
    intro he
    rcases clear_sides hw hh c.flipX (by linarith [b2 he]) with k | k
    · exact Or.inl fun x y o e => by linarith [k (w - x) y o.flipX (by rw [cpow_flipX, e])]
    · exact Or.inr fun x y o e => k (w - x) y o.flipX (by rw [cpow_flipX, e])
  have s3 : cpow w h k0 k1 k2 (-(r * (1 + r) * w)) ((1 + r) * h) = 0 →
      (∀ x y, OnBox w h x y → cpow w h k0 k1 k2 x y = 0 → x = 0) ∨ (∀ x y, OnBox w h x y → cpow w h k0 k1 k2 x y = 0 → y = h) := by
    intro he
    rcases clear_sides hw hh c.flipY (by linarith [b3 he]) with k | k
    · exact Or.inl fun x y o e => k x (h - y) o.flipY (by rw [cpow_flipY, e])
    · exact Or.inr fun x y o e => by linarith [k x (h - y) o.flipY (by rw [cpow_flipY, e])]
  have s4 : cpow w h k0 k1 k2 ((1 + r) * w) ((1 + r) * h) = 0 →
      (∀ x y, OnBox w h x y → cpow w h k0 k1 k2 x y = 0 → x = w) ∨ (∀ x y, OnBox w h x y → cpow w h k0 k1 k2 x y = 0 → y = h) := by
    intro he
    rcases clear_sides hw hh c.flipX.flipY (by linarith [b4 he]) with k | k
    · exact Or.inl fun x y o e => by linarith [k (w - x) (h - y) o.flipX.flipY (by rw [cpow_flipY, cpow_flipX, e])]
    · exact Or.inr fun x y o e => by linarith [k (w - x) (h - y) o.flipX.flipY (by rw [cpow_flipY, cpow_flipX, e])]
  have hX0 : -(r * (1 + r) * w) < 0 := by linarith
  have hY0 : -(r * (1 + r) * h) < 0 := by linarith
  generalize -(r * (1 + r) * w) = X0 at *
  generalize -(r * (1 + r) * h) = Y0 at *
  generalize (1 + r) * w = X1 at *
  generalize (1 + r) * h = Y1 at *
  have key : ∀ x y, S x y → OnBox w h x y ∨ (S X0 Y0 ∧ x = X0 ∧ y = Y0) ∨ (S X1 Y0 ∧ x = X1 ∧ y = Y0) ∨ (S X0 Y1 ∧ x = X0 ∧ y = Y1) ∨
      (S X1 Y1 ∧ x = X1 ∧ y = Y1) := by
    intro x y hs
    rcases (hS x y hs).2 with o | ⟨rfl | rfl, rfl | rfl⟩
    · exact Or.inl o
    · exact Or.inr (Or.inl ⟨hs, rfl, rfl⟩)
    · exact Or.inr (Or.inr (Or.inr (Or.inl ⟨hs, rfl, rfl⟩)))
    · exact Or.inr (Or.inr (Or.inl ⟨hs, rfl, rfl⟩))
    · exact Or.inr (Or.inr (Or.inr (Or.inr ⟨hs, rfl, rfl⟩)))
  have some : S X0 Y0 ∨ S X1 Y0 ∨ S X0 Y1 ∨ S X1 Y1 := by
    obtain ⟨x, y, hs, rfl | rfl, rfl | rfl⟩ := hfar
    exacts [Or.inl hs, Or.inr (Or.inr (Or.inl hs)), Or.inr (Or.inl hs), Or.inr (Or.inr (Or.inr hs))]
  have n1 : ¬(S X0 Y0 ∧ S X1 Y1) := fun hc => o1 ⟨(hS _ _ hc.1).1, (hS _ _ hc.2).1⟩
  have n2 : ¬(S X1 Y0 ∧ S X0 Y1) := fun hc => o2 ⟨(hS _ _ hc.1).1, (hS _ _ hc.2).1⟩
  have t1 : S X0 Y0 → (∀ x y, OnBox w h x y → S x y → x = 0) ∨ (∀ x y, OnBox w h x y → S x y → y = 0) := fun hc =>
    (s1 (hS _ _ hc).1).imp (fun k x y o hs => k x y o (hS x y hs).1) (fun k x y o hs => k x y o (hS x y hs).1)
  have t2 : S X1 Y0 → (∀ x y, OnBox w h x y → S x y → x = w) ∨ (∀ x y, OnBox w h x y → S x y → y = 0) := fun hc =>
    (s2 (hS _ _ hc).1).imp (fun k x y o hs => k x y o (hS x y hs).1) (fun k x y o hs => k x y o (hS x y hs).1)
  have t3 : S X0 Y1 → (∀ x y, OnBox w h x y → S x y → x = 0) ∨ (∀ x y, OnBox w h x y → S x y → y = h) := fun hc =>
    (s3 (hS _ _ hc).1).imp (fun k x y o hs => k x y o (hS x y hs).1) (fun k x y o hs => k x y o (hS x y hs).1)
  have t4 : S X1 Y1 → (∀ x y, OnBox w h x y → S x y → x = w) ∨ (∀ x y, OnBox w h x y → S x y → y = h) := fun hc =>
    (s4 (hS _ _ hc).1).imp (fun k x y o hs => k x y o (hS x y hs).1) (fun k x y o hs => k x y o (hS x y hs).1)
  clear s1 s2 s3 s4 o1 o2 b1 b2 b3 b4 hS hfar
  -- the sides that suit the far corners present suit the others
  have bottom : ¬S X0 Y1 → ¬S X1 Y1 → (∀ x y, OnBox w h x y → S x y → y = 0) → Beyond w h S := fun m3 m4 k => Or.inr (Or.inl fun x y hs => by
    rcases key x y hs with o | ⟨-, -, rfl⟩ | ⟨-, -, rfl⟩ | ⟨m, -⟩ | ⟨m, -⟩
    exacts [(k x y o hs).le, hY0.le, hY0.le, absurd m m3, absurd m m4])
  have left : ¬S X1 Y0 → ¬S X1 Y1 → (∀ x y, OnBox w h x y → S x y → x = 0) → Beyond w h S := fun m2 m4 k => Or.inl fun x y hs => by
    rcases key x y hs with o | ⟨-, rfl, -⟩ | ⟨m, -⟩ | ⟨-, rfl, -⟩ | ⟨m, -⟩
    exacts [(k x y o hs).le, hX0.le, absurd m m2, hX0.le, absurd m m4]
  have right : ¬S X0 Y0 → ¬S X0 Y1 → (∀ x y, OnBox w h x y → S x y → x = w) → Beyond w h S := fun m1 m3 k => Or.inr (Or.inr (Or.inl fun x y hs => by
    rcases key x y hs with o | ⟨m, -⟩ | ⟨-, rfl, -⟩ | ⟨m, -⟩ | ⟨-, rfl, -⟩
    exacts [(k x y o hs).ge, absurd m m1, hrw.le, absurd m m3, hrw.le]))
  have top : ¬S X0 Y0 → ¬S X1 Y0 → (∀ x y, OnBox w h x y → S x y → y = h) → Beyond w h S := fun m1 m2 k => Or.inr (Or.inr (Or.inr fun x y hs => by
    rcases key x y hs with o | ⟨m, -⟩ | ⟨m, -⟩ | ⟨-, -, rfl⟩ | ⟨-, -, rfl⟩
    exacts [(k x y o hs).ge, absurd m m1, absurd m m2, hrh.le, hrh.le]))
  by_cases m1 : S X0 Y0 <;> by_cases m2 : S X1 Y0 <;> by_cases m3 : S X0 Y1 <;> by_cases m4 : S X1 Y1
  all_goals try (exfalso; clear key t1 t2 t3 t4 bottom left right top; tauto)
  · -- LL, LR
    rcases t1 m1 with k | k
    · rcases t2 m2 with k' | k'
      · exact bottom m3 m4 fun x y o hs => absurd (k x y o hs) (by rw [k' x y o hs]; exact hw.ne')
      · exact bottom m3 m4 k'
    · exact bottom m3 m4 k
  · -- LL, UL
    rcases t1 m1 with k | k
    · exact left m2 m4 k
    · rcases t3 m3 with k' | k'
      · exact left m2 m4 k'
      · exact left m2 m4 fun x y o hs => absurd (k x y o hs) (by rw [k' x y o hs]; exact hh.ne')
  · rcases t1 m1 with k | k
    · exact left m2 m4 k
    · exact bottom m3 m4 k
  · -- LR, UR
    rcases t2 m2 with k | k
    · exact right m1 m3 k
    · rcases t4 m4 with k' | k'
      · exact right m1 m3 k'
      · exact right m1 m3 fun x y o hs => absurd (k x y o hs) (by rw [k' x y o hs]; exact hh.ne')
  · rcases t2 m2 with k | k
    · exact right m1 m3 k
    · exact bottom m3 m4 k
  · -- UL, UR
    rcases t3 m3 with k | k
    · rcases t4 m4 with k' | k'
      · exact top m1 m2 fun x y o hs => absurd (k x y o hs) (by rw [k' x y o hs]; exact hw.ne')
      · exact top m1 m2 k'
    · exact top m1 m2 k
  · rcases t3 m3 with k | k
    · exact left m2 m4 k
    · exact top m1 m2 k
  · rcases t4 m4 with k | k
    · exact right m1 m3 k
    · exact top m1 m2 k

end Gbs
