import Verif.Model.Circulation
import Verif.Model.BaseDelaunay
import Verif.Props.MeshRing

/-!
# C127: the circulation around a face and the reversal of a boundary
-/

set_option linter.unusedSectionVars false

namespace Gbs

variable {P : Type}

/-- The half-edges of `l` follow each other, and the first one follows the last one. -/
def Spec.IsLoop (h : Mesh P) (l : List ℕ) : Prop :=
  ∀ i a b, l[i]? = some a → l[(i + 1) % l.length]? = some b → (h.he a).next = some b ∧ (h.he b).prev = some a

theorem walk_ring (h : Mesh P) {l : List ℕ} (hl : 0 < l.length) (hnd : l.Nodup)
    (hn : ∀ i (hi : i < l.length), (h.he l[i]).next = some (l[(i + 1) % l.length]'(Nat.mod_lt _ hl))) :
    ∀ d i k (hi : i < l.length), d = l.length - i → d < k →
      FaceIter.walk h (FaceIter.make (some l[0]) true) k { cur := some l[i], init := some l[0], isEnd := false } = .ok ((l.drop i).map some) := by
  intro d
  induction d with
  | zero => intro i k hi hd; omega
  | succ d ih =>
    intro i k hi hd hk
    obtain ⟨k, rfl⟩ : ∃ k', k = k' + 1 := ⟨k - 1, by omega⟩
    rw [FaceIter.walk, if_pos (by simp [FaceIter.ne, FaceIter.make])]
    by_cases hlast : i + 1 = l.length
    · have e : FaceIter.inc h { cur := some l[i], init := some l[0], isEnd := false } = FaceIter.make (some l[0]) true := by
        simp [FaceIter.inc, FaceIter.make, hn i hi, hlast]
      obtain ⟨k, rfl⟩ : ∃ k', k = k' + 1 := ⟨k - 1, by omega⟩
      rw [e, FaceIter.walk, if_neg (by simp [FaceIter.ne]), List.drop_eq_getElem_cons hi, List.drop_of_length_le (by omega)]
      rfl
    · have hi1 : i + 1 < l.length := by omega
      have hne : l[i + 1] ≠ l[0] := fun hc => by
        have := (List.Nodup.getElem_inj_iff hnd).mp hc
        omega
      have e : FaceIter.inc h { cur := some l[i], init := some l[0], isEnd := false } =
          { cur := some l[i + 1], init := some l[0], isEnd := false } := by
        simp [FaceIter.inc, hn i hi, Nat.mod_eq_of_lt hi1, hne]
      rw [e, ih (i + 1) k hi1 (by omega) (by omega), List.drop_eq_getElem_cons hi]
      rfl

theorem ring_next {h : Mesh P} {f : ℕ} {l : List ℕ} (hr : Spec.IsRing h f l) (hl : 0 < l.length) :
    ∀ i (hi : i < l.length), (h.he l[i]).next = some (l[(i + 1) % l.length]'(Nat.mod_lt _ hl)) :=
  fun i hi => (hr.2 i l[i] _ (List.getElem?_eq_getElem hi) (List.getElem?_eq_getElem (Nat.mod_lt _ hl))).1

/-- **C127**: a loop over a face visits each half-edge of its ring once, from the edge of the face, in the order of the ring, and ends. -/
theorem C127_circulation {h : Mesh P} {f : ℕ} {l : List ℕ} (hl : l ≠ []) (hnd : l.Nodup) (hr : Spec.IsRing h f l) {k : ℕ} (hk : l.length < k) :
    h.forFace k f = .ok (l.map some) := by
  have hp : 0 < l.length := List.length_pos_iff.mpr hl
  have hfe : h.fe f = some l[0] := by rw [hr.1, List.head?_eq_getElem?, List.getElem?_eq_getElem hp]
  unfold Mesh.forFace
  rw [hfe]
  exact walk_ring h hp hnd (ring_next hr hp) l.length 0 k hp (by omega) hk

/-- **C127**: the iterators of the start and of the end of any face are equal for `==` and different for `!=`. -/
theorem C127_begin_equals_end (h : Mesh P) (f : ℕ) :
    FaceIter.eq (FaceIter.make (h.fe f)) (FaceIter.make (h.fe f) true) = true ∧ FaceIter.ne (FaceIter.make (h.fe f)) (FaceIter.make (h.fe f) true) = true := by
  simp [FaceIter.eq, FaceIter.ne, FaceIter.make]

theorem walk_null (h : Mesh P) {e : FaceIter} (he : e.isEnd = true) {i : Option ℕ} :
    ∀ k, FaceIter.walk h e k { cur := none, init := i, isEnd := false } = .error .noEnd := by
  intro k
  induction k with
  | zero => rfl
  | succ k ih =>
    rw [FaceIter.walk, if_pos (by simp [FaceIter.ne, he])]
    have : FaceIter.inc h { cur := none, init := i, isEnd := false } = { cur := none, init := i, isEnd := false } := rfl
    rw [this, ih]
    rfl

/-- **C127**: a loop over a face without half-edge does not end: it visits the null pointer for ever. -/
theorem C127_empty_face {h : Mesh P} {f : ℕ} (hf : h.fe f = none) (k : ℕ) : h.forFace k f = .error .noEnd := by
  unfold Mesh.forFace
  rw [hf]
  exact walk_null h rfl k

/-- **C127**: nor does the loop over a face whose half-edges `l` are not closed. -/
theorem C127_open_face {h : Mesh P} {f : ℕ} {l : List ℕ} (hnd : l.Nodup) (hf : h.fe f = l.head?)
    (hn : ∀ i a, l[i]? = some a → (h.he a).next = l[i + 1]?) (k : ℕ) : h.forFace k f = .error .noEnd := by
  rcases l with _ | ⟨s, l⟩
  · exact C127_empty_face hf k
  set m := s :: l with hm
  have key : ∀ k i (hi : i < m.length), FaceIter.walk h (FaceIter.make (some s) true) k { cur := some m[i], init := some s, isEnd := false } = .error .noEnd := by
    intro k
    induction k with
    | zero => intro i hi; rfl
    | succ k ih =>
      intro i hi
      rw [FaceIter.walk, if_pos (by simp [FaceIter.ne, FaceIter.make])]
      have hnx := hn i m[i] (List.getElem?_eq_getElem hi)
      by_cases hlast : i + 1 = m.length
      · have e : FaceIter.inc h { cur := some m[i], init := some s, isEnd := false } = { cur := none, init := some s, isEnd := false } := by
          rw [List.getElem?_eq_none (by omega)] at hnx
          simp [FaceIter.inc, hnx]
        rw [e, walk_null h rfl]
        rfl
      · have hi1 : i + 1 < m.length := by omega
        have hne : m[i + 1] ≠ s := fun hc => by
          have : m[i + 1] = m[0] := hc
          have := (List.Nodup.getElem_inj_iff hnd).mp this
          omega
        have e : FaceIter.inc h { cur := some m[i], init := some s, isEnd := false } = { cur := some m[i + 1], init := some s, isEnd := false } := by
          rw [List.getElem?_eq_getElem hi1] at hnx
          simp only [FaceIter.inc, hnx]
          simp [hne]
        rw [e, ih (i + 1) hi1]
        rfl
  unfold Mesh.forFace
  rw [hf]
  exact key k 0 (by simp [hm])

/-- **C127**: where `getFaceEdges` ends, and returns these half-edges. -/
theorem C127_open_edges {h : Mesh P} {f : ℕ} {l : List ℕ} (hnd : l.Nodup) (hlt : ∀ e ∈ l, e < h.nE) (hf : h.fe f = l.head?)
    (hn : ∀ i a, l[i]? = some a → (h.he a).next = l[i + 1]?) : h.getFaceEdges f = .ok l := by
  rcases l with _ | ⟨s, l⟩
  · unfold Mesh.getFaceEdges
    rw [hf]
    rfl
  set m := s :: l with hm
  have key : ∀ d i k (hi : i < m.length), d = m.length - i → d < k → h.faceEdgesFrom (some s) k (some m[i]) = .ok (m.drop i) := by
    intro d
    induction d with
    | zero => intro i k hi hd; omega
    | succ d ih =>
      intro i k hi hd hk
      obtain ⟨k, rfl⟩ : ∃ k', k = k' + 1 := ⟨k - 1, by omega⟩
      have hnx := hn i m[i] (List.getElem?_eq_getElem hi)
      rw [Mesh.faceEdgesFrom, hnx]
      by_cases hlast : i + 1 = m.length
      · obtain ⟨k, rfl⟩ : ∃ k', k = k' + 1 := ⟨k - 1, by omega⟩
        rw [List.getElem?_eq_none (by omega), if_neg (by simp), Mesh.faceEdgesFrom, List.drop_eq_getElem_cons hi, List.drop_of_length_le (by omega)]
        rfl
      · have hi1 : i + 1 < m.length := by omega
        have hne : m[i + 1] ≠ s := fun hc => by
          have : m[i + 1] = m[0] := hc
          have := (List.Nodup.getElem_inj_iff hnd).mp this
          omega
        rw [List.getElem?_eq_getElem hi1, if_neg (by simpa using hne), ih (i + 1) k hi1 (by omega) (by omega), List.drop_eq_getElem_cons hi]
        rfl
  have hlen := Mesh.length_le_of_lt hnd hlt
  unfold Mesh.getFaceEdges
  rw [hf]
  exact key m.length 0 _ (by simp [hm]) (by omega) (by omega)

/-- **C127**: `getTriangleVertices` returns the ends of the three half-edges of a triangle, but turns the other way: from the second one, in the order
opposite to that of the ring. -/
theorem C127_triangle_vertices {h : Mesh P} {f a b c : ℕ} (hr : Spec.IsRing h f [a, b, c]) :
    h.triangleVertices f = .ok ([(h.he a).vertex, (h.he b).vertex, (h.he c).vertex].reverse.rotate 1) := by
  have n1 := hr.2 0 a b rfl rfl
  have n3 := hr.2 2 c a rfl (by simp)
  unfold Mesh.triangleVertices
  rw [hr.1]
  simp [deref, n1.1, n3.2.1, R_bind_ok]

theorem swapLinks_spec {l : List ℕ} : ∀ (h : Mesh P), l.Nodup →
    (∀ e, (h.swapLinks l).he e = if e ∈ l then { h.he e with next := (h.he e).prev, prev := (h.he e).next } else h.he e) ∧
    (h.swapLinks l).co = h.co ∧ (h.swapLinks l).ve = h.ve ∧ (h.swapLinks l).fe = h.fe ∧ (h.swapLinks l).nE = h.nE ∧ (h.swapLinks l).nV = h.nV ∧
    (h.swapLinks l).nF = h.nF := by
  induction l with
  | nil => intro h _; exact ⟨fun e => by simp [Mesh.swapLinks], rfl, rfl, rfl, rfl, rfl, rfl⟩
  | cons a l ih =>
    intro h hnd
    obtain ⟨h1, h2⟩ := List.nodup_cons.mp hnd
    obtain ⟨e1, e2⟩ := ih (h.setE a fun r => { r with next := r.prev, prev := r.next }) h2
    refine ⟨fun e => ?_, e2⟩
    rw [Mesh.swapLinks, e1]
    by_cases hea : e = a
    · subst hea
      rw [if_neg h1, Mesh.setE_self]
      simp
    · rw [Mesh.setE_ne _ _ hea]
      simp [hea]

/-- **C127**: the reversal of a closed boundary links its half-edges in the opposite order, the list too; each half-edge then starts where the one that
followed it ends, and ends where it did; nothing else is changed. -/
theorem C127_reverse {h : Mesh P} {l : List ℕ} (hnd : l.Nodup) (hr : Spec.IsLoop h l) :
    (h.reverseBoundary l).2 = l.reverse ∧ Spec.IsLoop (h.reverseBoundary l).1 l.reverse ∧
    (∀ e ∈ l, ∀ b, (h.he e).next = some b → (h.reverseBoundary l).1.startV e = .ok (h.he b).vertex) ∧
    (∀ e, ((h.reverseBoundary l).1.he e).vertex = (h.he e).vertex ∧ ((h.reverseBoundary l).1.he e).face = (h.he e).face ∧
      ((h.reverseBoundary l).1.he e).opp = (h.he e).opp) ∧
    (∀ e, e ∉ l → (h.reverseBoundary l).1.he e = h.he e) ∧ (h.reverseBoundary l).1.co = h.co := by
  obtain ⟨e1, e2, -⟩ := swapLinks_spec h (List.nodup_reverse.mpr hnd)
  have hv : ∀ e, ((h.swapLinks l.reverse).he e).vertex = (h.he e).vertex := fun e => by rw [e1]; split_ifs <;> rfl
  refine ⟨rfl, ?_, ?_, ?_, ?_, e2⟩
  · intro i a b ha hb
    rw [List.length_reverse] at hb
    have hi : i < l.length := by
      have := (List.getElem?_eq_some_iff.mp ha).1
      simpa using this
    have hj : (i + 1) % l.length < l.length := Nat.mod_lt _ (by omega)
    rw [List.getElem?_reverse hi] at ha
    rw [List.getElem?_reverse hj] at hb
    have hlink := hr (l.length - 1 - (i + 1) % l.length) b a hb (by
      rw [← ha]
      congr 1
      by_cases hlast : i + 1 = l.length
      · rw [hlast, Nat.mod_self, Nat.sub_zero, Nat.sub_add_cancel (by omega), Nat.mod_self]; omega
      · rw [Nat.mod_eq_of_lt (by omega : i + 1 < l.length), Nat.mod_eq_of_lt (by omega)]; omega)
    have ma : a ∈ l.reverse := List.mem_reverse.mpr (List.mem_of_getElem? ha)
    have mb : b ∈ l.reverse := List.mem_reverse.mpr (List.mem_of_getElem? hb)
    constructor
    · show ((h.swapLinks l.reverse).he a).next = some b
      rw [e1, if_pos ma]; exact hlink.2
    · show ((h.swapLinks l.reverse).he b).prev = some a
      rw [e1, if_pos mb]; exact hlink.1
  · intro e he b hb
    show (h.swapLinks l.reverse).startV e = _
    unfold Mesh.startV
    rw [e1, if_pos (List.mem_reverse.mpr he)]
    simp only [hb, deref, R_bind_ok]
    rw [hv]
    rfl
  · intro e
    show ((h.swapLinks l.reverse).he e).vertex = _ ∧ ((h.swapLinks l.reverse).he e).face = _ ∧ ((h.swapLinks l.reverse).he e).opp = _
    rw [e1]; split_ifs <;> exact ⟨rfl, rfl, rfl⟩
  · intro e he
    show (h.swapLinks l.reverse).he e = _
    rw [e1, if_neg (by simpa using he)]

/-- **C127**: two reversals restore the mesh and the list. -/
theorem C127_reverse_twice (h : Mesh P) {l : List ℕ} (hnd : l.Nodup) :
    (h.reverseBoundary l).1.reverseBoundary (h.reverseBoundary l).2 = (h, l) := by
  have hr := List.nodup_reverse.mpr hnd
  obtain ⟨e1, e2, e3, e4, e5, e6, e7⟩ := swapLinks_spec h hr
  obtain ⟨f1, f2, f3, f4, f5, f6, f7⟩ := swapLinks_spec (h.swapLinks l.reverse) (List.nodup_reverse.mpr hr)
  have he : ((h.swapLinks l.reverse).swapLinks l.reverse.reverse).he = h.he := by
    funext e
    rw [f1, e1, List.reverse_reverse]
    by_cases hm : e ∈ l
    · rw [if_pos hm, if_pos (List.mem_reverse.mpr hm)]
    · rw [if_neg hm, if_neg (by simpa using hm)]
  unfold Mesh.reverseBoundary
  refine Prod.ext ?_ (List.reverse_reverse l)
  show (h.swapLinks l.reverse).swapLinks l.reverse.reverse = h
  cases hm : (h.swapLinks l.reverse).swapLinks l.reverse.reverse
  rw [hm] at he f2 f3 f4 f5 f6 f7
  cases h
  simp_all

/-- **C127**: the hypotheses hold for the face of three of four half-edges: the loop visits 2, 0 and 3; the vertices of the triangle are those of 0, 2
and 3; after the reversal of its boundary 0 is followed by 2. -/
theorem C127_witness : ∃ h', Sample.edges4.makeFace [2, 0, 3] = .ok (h', some 0) ∧ h'.forFace 4 0 = .ok [some 2, some 0, some 3] ∧
    h'.triangleVertices 0 = .ok [some 0, some 2, some 3] ∧ ((h'.reverseBoundary [2, 0, 3]).1.he 0).next = some 2 ∧
    Sample.edges4.forFace 100 0 = .error .noEnd := by
  obtain ⟨h', e1, e2, -, -, e4, -⟩ := (C37_make_face Sample.edges4 (l := [2, 0, 3]) (by decide) (by decide)).1 (by decide)
  refine ⟨h', e1, C127_circulation (by simp) (by decide) e2 (by decide), ?_, ?_, C127_empty_face rfl 100⟩
  · have h0 : (Sample.edges4.he 0).vertex = some 0 := rfl
    have h2 : (Sample.edges4.he 2).vertex = some 2 := rfl
    have h3 : (Sample.edges4.he 3).vertex = some 3 := rfl
    have e3 := C127_triangle_vertices e2
    rw [(e4 0).1, (e4 2).1, (e4 3).1, h0, h2, h3] at e3
    exact e3
  · exact ((C127_reverse (by decide) (fun i a b ha hb => ⟨(e2.2 i a b ha hb).1, (e2.2 i a b ha hb).2.1⟩)).2.1 1 0 2 rfl rfl).1

end Gbs
