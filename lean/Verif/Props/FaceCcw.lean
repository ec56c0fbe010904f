import Verif.Model.FaceCcw
import Verif.Props.Polydata
import Verif.Props.Polygon

/-! # C134: orientation of a face, crossing of a horizontal half-line -/

namespace Gbs

set_option linter.unusedSectionVars false

variable {K : Type} [Field K] [LinearOrder K] [IsStrictOrderedRing K]

/-- Twice the area of the triangle, positive when it turns counter-clockwise. -/
def Spec.turn2 (a b c : K × K) : K := (b.1 - a.1) * (c.2 - a.2) - (b.2 - a.2) * (c.1 - a.1)

/-- C134: `is_ccw` of a face is 1 when its first three vertices turn counter-clockwise or are aligned, 0 otherwise: the result is never negative, and does not
depend on the other vertices. -/
theorem C134_face {h : Mesh (K × K)} {f : ℕ} {l : List ℕ} {a b c : ℕ} {w : List ℕ} (hn : l.Nodup) (hlt : ∀ e ∈ l, e < h.nE)
    (hr : Spec.IsRing h f l) (hw : l.map (fun e => (h.he e).vertex) = (a :: b :: c :: w).map some) :
    (0 ≤ Spec.turn2 (h.co a) (h.co b) (h.co c) → h.isCcw f = .ok 1) ∧ (Spec.turn2 (h.co a) (h.co b) (h.co c) < 0 → h.isCcw f = .ok 0) := by
  have hl : l ≠ [] := by rintro rfl; simp at hw
  have e : orient2d (h.co a) (h.co b) (h.co c) = Spec.turn2 (h.co a) (h.co b) (h.co c) := by unfold orient2d Spec.turn2; ring
  have hi : h.isCcw f = .ok (if 0 ≤ Spec.turn2 (h.co a) (h.co b) (h.co c) then 1 else 0) := by
    unfold Mesh.isCcw
    rw [getFaceVertices_ring hl hn hlt hr hw, R_bind_ok, ← e]
    simp [rd, deref, areCcw]
  rw [hi]
  exact ⟨fun h => by rw [if_pos h], fun h => by rw [if_neg (not_le.mpr h)]⟩

/-- C134: the result for a triangle does not depend on the half-edge its face refers to. -/
theorem C134_start {h h' : Mesh (K × K)} {f f' : ℕ} {l l' : List ℕ} {a b c : ℕ} (hn : l.Nodup) (hlt : ∀ e ∈ l, e < h.nE)
    (hr : Spec.IsRing h f l) (hw : l.map (fun e => (h.he e).vertex) = [some a, some b, some c]) (hn' : l'.Nodup) (hlt' : ∀ e ∈ l', e < h'.nE)
    (hr' : Spec.IsRing h' f' l') (hw' : l'.map (fun e => (h'.he e).vertex) = [some b, some c, some a]) (hco : h'.co = h.co) :
    h'.isCcw f' = h.isCcw f := by
  have e : Spec.turn2 (h.co b) (h.co c) (h.co a) = Spec.turn2 (h.co a) (h.co b) (h.co c) := by unfold Spec.turn2; ring
  obtain ⟨p1, p2⟩ := C134_face (w := []) hn hlt hr hw
  obtain ⟨q1, q2⟩ := C134_face (w := []) hn' hlt' hr' hw'
  rw [hco, e] at q1 q2
  rcases le_or_gt 0 (Spec.turn2 (h.co a) (h.co b) (h.co c)) with h0 | h0
  · rw [p1 h0, q1 h0]
  · rw [p2 h0, q2 h0]

/-- C134: a face with one or two vertices is read past its end. -/
theorem C134_few {h : Mesh (K × K)} {f : ℕ} {l w : List ℕ} (hl : l ≠ []) (hn : l.Nodup) (hlt : ∀ e ∈ l, e < h.nE)
    (hr : Spec.IsRing h f l) (hw : l.map (fun e => (h.he e).vertex) = w.map some) (h3 : l.length < 3) : h.isCcw f = .error .oob := by
  have hlen : l.length = w.length := by simpa using congrArg List.length hw
  unfold Mesh.isCcw
  rw [getFaceVertices_ring hl hn hlt hr hw, R_bind_ok]
  match w, hlen with
  | [], hlen => exact absurd (List.length_eq_zero_iff.mp hlen) hl
  | [_], _ => rfl
  | [_, _], _ => rfl
  | _ :: _ :: _ :: _, hlen => simp at hlen; omega

/-- C134: `seg_H_strict_end_intersection` is true exactly when the segment is not nearly horizontal and has a point, other than its end, to the right of `c`
at its height. -/
theorem C134_half_line {tol : K} (htol : 0 < tol) (a b c : K × K) :
    ∃ r, segHStrict tol a b c = .ok r ∧
      (r = true ↔ tol ≤ |b.2 - a.2| ∧ ∃ t : K, 0 ≤ t ∧ t < 1 ∧ a.2 + t * (b.2 - a.2) = c.2 ∧ c.1 < a.1 + t * (b.1 - a.1)) := by
  obtain ⟨r, e, h⟩ := C66_seg_ray htol a b c (1, 0)
  refine ⟨r, e, ?_⟩
  rw [h]
  have hd : (b.1 - a.1) * ((1, 0) : K × K).2 - (b.2 - a.2) * ((1, 0) : K × K).1 = -(b.2 - a.2) := by simp
  rw [hd, abs_neg]
  constructor
  · rintro ⟨h1, -, s, t, hs, ht, ht1, he⟩
    have e1 := congrArg Prod.fst he
    have e2 := congrArg Prod.snd he
    simp at e1 e2
    exact ⟨h1, t, ht, ht1, e2, by rw [e1]; linarith⟩
  · rintro ⟨h1, t, ht, ht1, e2, e1⟩
    refine ⟨h1, Or.inr h1, a.1 + t * (b.1 - a.1) - c.1, t, by linarith, ht, ht1, ?_⟩
    ext
    · simp
    · simpa using e2

namespace Sample

/-- Six faces on the points (0, 0), (4, 0), (1, 1), (0, 4) and (8, 0). -/
def mesh134 : Mesh (ℚ × ℚ) where
  he e := [⟨some 0, some 0, some 1, some 2, none⟩, ⟨some 1, some 0, some 2, some 0, none⟩, ⟨some 2, some 0, some 0, some 1, none⟩,
    ⟨some 0, some 1, some 4, some 5, none⟩, ⟨some 2, some 1, some 5, some 3, none⟩, ⟨some 1, some 1, some 3, some 4, none⟩,
    ⟨some 0, some 2, some 7, some 8, none⟩, ⟨some 1, some 2, some 8, some 6, none⟩, ⟨some 4, some 2, some 6, some 7, none⟩,
    ⟨some 1, some 3, some 10, some 12, none⟩, ⟨some 2, some 3, some 11, some 9, none⟩, ⟨some 3, some 3, some 12, some 10, none⟩,
    ⟨some 0, some 3, some 9, some 11, none⟩, ⟨some 0, some 4, some 14, some 14, none⟩, ⟨some 1, some 4, some 13, some 13, none⟩,
    ⟨some 1, some 5, some 16, some 17, none⟩, ⟨some 2, some 5, some 17, some 15, none⟩, ⟨some 0, some 5, some 15, some 16, none⟩].getD e {}
  co v := [(0, 0), (4, 0), (1, 1), (0, 4), (8, 0)].getD v (0, 0)
  ve _ := none
  fe f := [some 0, some 3, some 6, some 9, some 13, some 15].getD f none
  nE := 18
  nV := 5
  nF := 6

theorem ring134 : Spec.IsRing mesh134 0 [0, 1, 2] ∧ Spec.IsRing mesh134 3 [9, 10, 11, 12] ∧ Spec.IsRing mesh134 4 [13, 14] ∧ Spec.IsRing mesh134 5 [15, 16, 17] := by
  refine ⟨⟨rfl, ?_⟩, ⟨rfl, ?_⟩, ⟨rfl, ?_⟩, ⟨rfl, ?_⟩⟩
  · intro i a b ha hb
    match i with
    | 0 | 1 | 2 => simp at ha hb; subst ha hb; decide
    | n + 3 => simp at ha
  · intro i a b ha hb
    match i with
    | 0 | 1 | 2 | 3 => simp at ha hb; subst ha hb; decide
    | n + 4 => simp at ha
  · intro i a b ha hb
    match i with
    | 0 | 1 => simp at ha hb; subst ha hb; decide
    | n + 2 => simp at ha
  · intro i a b ha hb
    match i with
    | 0 | 1 | 2 => simp at ha hb; subst ha hb; decide
    | n + 3 => simp at ha

/-- A triangle. -/
example : mesh134.isCcw 0 = .ok 1 :=
  (C134_face (a := 0) (b := 1) (c := 2) (w := []) (by decide) (by decide) ring134.1 rfl).1 (by decide +kernel)

/-- The same triangle from another of its vertices. -/
example : mesh134.isCcw 5 = mesh134.isCcw 0 :=
  C134_start (by decide) (by decide) ring134.1 rfl (by decide) (by decide) ring134.2.2.2 rfl rfl

/-- Two half-edges. -/
example : mesh134.isCcw 4 = .error .oob :=
  C134_few (w := [0, 1]) (by decide) (by decide) (by decide) ring134.2.2.1 rfl (by decide)

/-- C134: a clockwise triangle gives 0 and not a negative number, aligned vertices 1 and not 0, and a counter-clockwise face of four vertices 0. -/
theorem _root_.Gbs.C134_witness : mesh134.isCcw 1 = .ok 0 ∧ mesh134.isCcw 2 = .ok 1 ∧ mesh134.isCcw 3 = .ok 0 ∧
    Spec.turn2 (mesh134.co 1) (mesh134.co 2) (mesh134.co 0) + Spec.turn2 (mesh134.co 2) (mesh134.co 3) (mesh134.co 0) = 8 := by decide +kernel

/-- The segment from (1, -1) to (1, 1), the origin, the point (2, 0) and one at the height of the end. -/
example : segHStrict (1 / 100) ((1, -1) : ℚ × ℚ) (1, 1) (0, 0) = .ok true ∧ segHStrict (1 / 100) ((1, -1) : ℚ × ℚ) (1, 1) (2, 0) = .ok false ∧
    segHStrict (1 / 100) ((1, -1) : ℚ × ℚ) (1, 1) (0, 1) = .ok false := by decide +kernel

end Sample

end Gbs
