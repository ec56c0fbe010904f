import Verif.Model.BoyerWatson
import Verif.Lemmas.Crossing
import Verif.Props.MeshBorder

/-!
# Triangle meshes in the plane
-/

set_option linter.unusedSectionVars false

namespace Gbs

variable {K : Type} [Field K] [LinearOrder K] [IsStrictOrderedRing K]

/-- The point at the end of a half-edge. -/
def Spec.endPt (h : Mesh (K × K)) (e : ℕ) : K × K := h.co ((h.he e).vertex.getD 0)

/-- The point at the start of a half-edge. -/
def Spec.startPt (h : Mesh (K × K)) (e : ℕ) : K × K := h.co ((Spec.start h e).getD 0)

/-- Twice the signed area of the triangle made of a half-edge and a point: positive when the point is on its left. -/
def Spec.side (h : Mesh (K × K)) (e : ℕ) (p : K × K) : K := Spec.area2 (Spec.startPt h e) (Spec.endPt h e) p

/-- The three points of a triangular face. -/
def Spec.corners (h : Mesh (K × K)) (f : ℕ) : (K × K) × (K × K) × (K × K) :=
  let a := (h.fe f).getD 0
  let b := (h.he a).next.getD 0
  let c := (h.he b).next.getD 0
  (Spec.endPt h a, Spec.endPt h b, Spec.endPt h c)

/-- Twice the signed area of a triangular face. -/
def Spec.faceArea2 (h : Mesh (K × K)) (f : ℕ) : K := Spec.area2 (Spec.corners h f).1 (Spec.corners h f).2.1 (Spec.corners h f).2.2

/-- All the faces are strictly counter-clockwise triangles. -/
def Spec.Ccw (h : Mesh (K × K)) (F : List ℕ) : Prop := ∀ f ∈ F, 0 < Spec.faceArea2 h f

variable {h : Mesh (K × K)} {F C : List ℕ} {f a b c : ℕ}

theorem Tri.corners (t : Tri h f a b c) (hfe : h.fe f = some a) : Spec.corners h f = (Spec.endPt h a, Spec.endPt h b, Spec.endPt h c) := by
  simp [Spec.corners, hfe, t.na, t.nb]

theorem Tri.startPt (t : Tri h f a b c) : Spec.startPt h a = Spec.endPt h c := by simp [Spec.startPt, Spec.endPt, t.start]

theorem Spec.Valid.faceArea2 (H : Spec.Valid h F) (hf : f ∈ F) (t : Tri h f a b c) :
    Spec.faceArea2 h f = Spec.area2 (Spec.endPt h a) (Spec.endPt h b) (Spec.endPt h c) := by
  obtain ⟨x, y, z, t', hfe⟩ := H.tri hf
  rw [Spec.faceArea2, t'.corners hfe]
  rcases t.own x t'.fa with rfl | rfl | rfl
  · obtain ⟨-, rfl, rfl⟩ := t'.unique t; rfl
  · obtain ⟨-, rfl, rfl⟩ := t'.unique t.rotate
    exact area2_rotate _ _ _
  · obtain ⟨-, rfl, rfl⟩ := t'.unique t.rotate.rotate
    exact (area2_rotate _ _ _).symm

theorem Tri.side_sum (t : Tri h f a b c) (p : K × K) :
    Spec.side h a p + Spec.side h b p + Spec.side h c p = Spec.area2 (Spec.endPt h a) (Spec.endPt h b) (Spec.endPt h c) := by
  unfold Spec.side
  rw [t.startPt, t.rotate.startPt, t.rotate.rotate.startPt]
  unfold Spec.area2; ring

/-- The vertex of the half-edges of a live face. -/
theorem Spec.Valid.vertexEq (H : Spec.Valid h F) {e : ℕ} (he : Spec.Live h F e) :
    ∃ v, (h.he e).vertex = some v ∧ v < h.nV ∧ Spec.endPt h e = h.co v := by
  obtain ⟨v, hv, hlt⟩ := H.vertex e he
  exact ⟨v, hv, hlt, by simp [Spec.endPt, hv]⟩

theorem Spec.Valid.startEq {P : Type} {h : Mesh P} (H : Spec.Valid h F) {e : ℕ} (he : Spec.Live h F e) :
    ∃ v, Spec.start h e = some v ∧ v < h.nV := by
  obtain ⟨f, hf, hef⟩ := he
  obtain ⟨b, c, t⟩ := H.triAt hf hef
  obtain ⟨v, hv, hlt⟩ := H.vertex c ⟨f, hf, t.fc⟩
  exact ⟨v, by rw [t.start, hv], hlt⟩

theorem Spec.Valid.endCo (H : Spec.Valid h F) {e : ℕ} (he : Spec.Live h F e) : h.endCo e = .ok (Spec.endPt h e) := by
  obtain ⟨v, hv, -, hp⟩ := H.vertexEq he
  unfold Mesh.endCo
  rw [hv, hp]; rfl

theorem Spec.Valid.startCo (H : Spec.Valid h F) {e : ℕ} (he : Spec.Live h F e) : h.startCo e = .ok (Spec.startPt h e) := by
  obtain ⟨v, hv, -⟩ := H.startEq he
  obtain ⟨f, hf, hef⟩ := he
  obtain ⟨b, c, t⟩ := H.triAt hf hef
  unfold Mesh.startCo
  rw [startV_eq (by rw [t.pa]; simp), R_bind_ok, hv]
  simp [Spec.startPt, hv, deref]

theorem Spec.Valid.triCoords (H : Spec.Valid h F) (hf : f ∈ F) : h.triCoords f = .ok (Spec.corners h f) := by
  obtain ⟨a, b, c, t, hfe⟩ := H.tri hf
  unfold Mesh.triCoords
  rw [t.corners hfe, hfe]
  simp only [deref, t.na, t.nb, R_bind_ok]
  rw [H.endCo ⟨f, hf, t.fa⟩, R_bind_ok, H.endCo ⟨f, hf, t.fb⟩, R_bind_ok, H.endCo ⟨f, hf, t.fc⟩]; rfl

/-- The sides of opposite half-edges. -/
theorem Spec.Valid.opp_pts (H : Spec.Valid h F) {e o : ℕ} (he : Spec.Live h F e) (ho : (h.he e).opp = some o) :
    Spec.startPt h o = Spec.endPt h e ∧ Spec.endPt h o = Spec.startPt h e := by
  refine ⟨?_, ?_⟩
  · simp only [Spec.startPt, Spec.endPt, H.start_opp he ho]
  · simp only [Spec.startPt, Spec.endPt, (H.opp_start he ho).2.2]

theorem Spec.Valid.side_opp (H : Spec.Valid h F) {e o : ℕ} (he : Spec.Live h F e) (ho : (h.he e).opp = some o) (p : K × K) :
    Spec.side h o p = - Spec.side h e p := by
  obtain ⟨h1, h2⟩ := H.opp_pts he ho
  rw [Spec.side, h1, h2, area2_swap]; rfl

theorem Spec.Valid.across (H : Spec.Valid h F) {e : ℕ} (he : Spec.Live h F e) :
    (h.faceAcross e = none ∧ (h.he e).opp = none) ∨
      ∃ o g, (h.he e).opp = some o ∧ (h.he o).face = some g ∧ g ∈ F ∧ h.faceAcross e = some g := by
  unfold Mesh.faceAcross
  cases ho : (h.he e).opp with
  | none => exact Or.inl ⟨rfl, rfl⟩
  | some o =>
    obtain ⟨⟨g, hg, hog⟩, -⟩ := H.opp_start he ho
    exact Or.inr ⟨o, g, rfl, hog, hg, hog⟩

/-! ## Where a point is with respect to a face -/

/-- In the closed triangle. -/
def Spec.InFace (h : Mesh (K × K)) (f : ℕ) (p : K × K) : Prop := ∀ e, (h.he e).face = some f → 0 ≤ Spec.side h e p

/-- In the open triangle. -/
def Spec.InsideFace (h : Mesh (K × K)) (f : ℕ) (p : K × K) : Prop := ∀ e, (h.he e).face = some f → 0 < Spec.side h e p

/-- One of the corners. -/
def Spec.IsCorner (h : Mesh (K × K)) (f : ℕ) (p : K × K) : Prop := ∃ e, (h.he e).face = some f ∧ Spec.endPt h e = p

theorem Tri.inFace (t : Tri h f a b c) {p : K × K} : Spec.InFace h f p ↔ 0 ≤ Spec.side h a p ∧ 0 ≤ Spec.side h b p ∧ 0 ≤ Spec.side h c p :=
  ⟨fun H => ⟨H a t.fa, H b t.fb, H c t.fc⟩, fun H e he => by rcases t.own e he with rfl | rfl | rfl; exacts [H.1, H.2.1, H.2.2]⟩

theorem Tri.insideFace (t : Tri h f a b c) {p : K × K} : Spec.InsideFace h f p ↔ 0 < Spec.side h a p ∧ 0 < Spec.side h b p ∧ 0 < Spec.side h c p :=
  ⟨fun H => ⟨H a t.fa, H b t.fb, H c t.fc⟩, fun H e he => by rcases t.own e he with rfl | rfl | rfl; exacts [H.1, H.2.1, H.2.2]⟩

theorem Tri.isCorner (t : Tri h f a b c) {p : K × K} : Spec.IsCorner h f p ↔ p = Spec.endPt h a ∨ p = Spec.endPt h b ∨ p = Spec.endPt h c := by
  constructor
  · rintro ⟨e, he, rfl⟩
    rcases t.own e he with rfl | rfl | rfl <;> simp
  · rintro (rfl | rfl | rfl)
    exacts [⟨a, t.fa, rfl⟩, ⟨b, t.fb, rfl⟩, ⟨c, t.fc, rfl⟩]

/-- A point of a closed triangle which is on two of its edges is a corner. -/
theorem corner_of_zero {A B C p : K × K} (hw : Spec.area2 A B C ≠ 0) (h1 : Spec.area2 A B p = 0) (h2 : Spec.area2 B C p = 0) : p = B := by
  have e1 : (p.1 - B.1) * Spec.area2 A B C = 0 := by
    unfold Spec.area2 at *
    linear_combination (C.1 - B.1) * h1 + (A.1 - B.1) * h2
  have e2 : (p.2 - B.2) * Spec.area2 A B C = 0 := by
    unfold Spec.area2 at *
    linear_combination (C.2 - B.2) * h1 + (A.2 - B.2) * h2
  have f1 := (mul_eq_zero.mp e1).resolve_right hw
  have f2 := (mul_eq_zero.mp e2).resolve_right hw
  exact Prod.ext (by linarith) (by linarith)

/-- On an edge but no corner: the other sides are positive. -/
theorem Tri.on_edge (t : Tri h f a b c) (hw : 0 < Spec.area2 (Spec.endPt h a) (Spec.endPt h b) (Spec.endPt h c)) {p : K × K}
    (hin : Spec.InFace h f p) (hnc : ¬Spec.IsCorner h f p) (h0 : Spec.side h a p = 0) : 0 < Spec.side h b p ∧ 0 < Spec.side h c p := by
  obtain ⟨-, hb, hc⟩ := t.inFace.mp hin
  rw [t.isCorner] at hnc
  have sa : Spec.side h a p = Spec.area2 (Spec.endPt h c) (Spec.endPt h a) p := by rw [Spec.side, t.startPt]
  have sb : Spec.side h b p = Spec.area2 (Spec.endPt h a) (Spec.endPt h b) p := by rw [Spec.side, t.rotate.startPt]
  have sc : Spec.side h c p = Spec.area2 (Spec.endPt h b) (Spec.endPt h c) p := by rw [Spec.side, t.rotate.rotate.startPt]
  refine ⟨lt_of_le_of_ne hb fun hz => hnc (Or.inl ?_), lt_of_le_of_ne hc fun hz => hnc (Or.inr (Or.inr ?_))⟩
  · exact corner_of_zero (A := Spec.endPt h c) (B := Spec.endPt h a) (C := Spec.endPt h b)
      (by rw [← area2_rotate]; exact hw.ne') (by rw [← sa, h0]) (by rw [← sb, ← hz])
  · exact corner_of_zero (A := Spec.endPt h b) (B := Spec.endPt h c) (C := Spec.endPt h a)
      (by rw [area2_rotate]; exact hw.ne') (by rw [← sc, ← hz]) (by rw [← sa, h0])

/-- The half-edges of a counter-clockwise face are not opposite to one another. -/
theorem Spec.Valid.not_self (H : Spec.Valid h F) (hw : Spec.Ccw h F) {e o : ℕ} (hf : f ∈ F) (he : (h.he e).face = some f)
    (ho : (h.he e).opp = some o) : (h.he o).face ≠ some f := by
  intro hof
  obtain ⟨b, c, t⟩ := H.triAt hf he
  have hpos := hw f hf
  rw [H.faceArea2 hf t] at hpos
  have ps := H.opp_pts ⟨f, hf, he⟩ ho
  rw [t.startPt] at ps
  rcases t.own o hof with rfl | rfl | rfl
  · rw [t.startPt] at ps
    unfold Spec.area2 at hpos; rw [ps.1] at hpos
    linarith
  · unfold Spec.area2 at hpos; rw [ps.2] at hpos
    linarith
  · rw [t.rotate.rotate.startPt] at ps
    unfold Spec.area2 at hpos; rw [ps.1] at hpos
    linarith

/-- Two counter-clockwise faces share at most one edge. -/
theorem Spec.Valid.share_one (H : Spec.Valid h F) (hw : Spec.Ccw h F) {g e o e' o' : ℕ} (hf : f ∈ F) (hg : g ∈ F) (he : (h.he e).face = some f)
    (ho : (h.he e).opp = some o) (hog : (h.he o).face = some g) (he' : (h.he e').face = some f) (ho' : (h.he e').opp = some o')
    (hog' : (h.he o').face = some g) : e' = e := by
  have main : ∀ {a b c : ℕ} {o o' : ℕ}, Tri h f a b c → (h.he a).opp = some o → (h.he o).face = some g → (h.he b).opp = some o' →
      (h.he o').face = some g → False := by
    intro a b c o o' t ho hog ho' hog'
    -- `o` goes from A to C, `o'` from B to A
    obtain ⟨p1, p2⟩ := H.opp_pts ⟨f, hf, t.fa⟩ ho
    obtain ⟨q1, q2⟩ := H.opp_pts ⟨f, hf, t.fb⟩ ho'
    rw [t.startPt] at p2
    rw [t.rotate.startPt] at q2
    obtain ⟨x, y, u⟩ := H.triAt hg hog
    have hpf := hw f hf
    have hpg := hw g hg
    rw [H.faceArea2 hf t] at hpf
    rw [H.faceArea2 hg u, u.startPt.symm.trans p1, p2] at hpg
    rcases u.own o' hog' with rfl | rfl | rfl
    · rw [p1] at q1
      unfold Spec.area2 at hpf; rw [q1] at hpf; linarith
    · -- starts at the end of `o`, that is C
      rw [u.rotate.startPt, p2] at q1
      unfold Spec.area2 at hpf; rw [q1] at hpf; linarith
    · -- `o'` is before `o`
      rw [u.rotate.rotate.startPt] at q1
      rw [q1] at hpg
      have := area2_swap (Spec.endPt h c) (Spec.endPt h b) (Spec.endPt h a)
      have := area2_rotate (Spec.endPt h a) (Spec.endPt h b) (Spec.endPt h c)
      linarith
  obtain ⟨b, c, t⟩ := H.triAt hf he
  rcases t.own e' he' with rfl | rfl | rfl
  · rfl
  · exact (main t ho hog ho' hog').elim
  · exact (main t.rotate.rotate ho' hog' ho hog).elim

end Gbs
