import Verif.Model.Neighbours
import Verif.Props.MeshFlip
import Verif.Props.Insert

/-!
# C121: faces next to a face
-/

namespace Gbs

variable {P : Type} {h : Mesh P} {F : List ℕ}

/-- A half-edge of the first face has an opposite in the second one. -/
def Spec.Adjacent (h : Mesh P) (f g : ℕ) : Prop := ∃ e o, (h.he e).face = some f ∧ (h.he e).opp = some o ∧ (h.he o).face = some g

/-- The half-edges of a face that have an opposite. -/
def Spec.Inner (h : Mesh P) (f : ℕ) (E : List ℕ) : Prop :=
  E.Nodup ∧ ∀ e, e ∈ E ↔ (h.he e).face = some f ∧ (h.he e).opp ≠ none

theorem oppFace_eq {e g : ℕ} : h.oppFace e = some g ↔ ∃ o, (h.he e).opp = some o ∧ (h.he o).face = some g := by
  unfold Mesh.oppFace
  rcases (h.he e).opp with _ | o <;> simp

/-- The relation is symmetric in a valid mesh. -/
theorem Spec.Valid.adjacent_symm (H : Spec.Valid h F) {f g : ℕ} (hf : f ∈ F) (ha : Spec.Adjacent h f g) : g ∈ F ∧ Spec.Adjacent h g f := by
  obtain ⟨e, o, h1, h2, h3⟩ := ha
  obtain ⟨⟨g', hg, hg'⟩, h4, -⟩ := H.opp e o ⟨f, hf, h1⟩ h2
  rw [h3] at hg'
  cases hg'
  exact ⟨hg, o, e, h3, h4, h1⟩

/-- C121: `getNeighboringFaces` never fails on a face of a valid mesh. It returns the faces that share an edge with it, once for each such edge; they are
faces of the mesh. -/
theorem C121_faces (H : Spec.Valid h F) {f : ℕ} (hf : f ∈ F) : ∃ l, h.getNeighboringFaces f = .ok l ∧ (∀ g, g ∈ l ↔ Spec.Adjacent h f g) ∧
    (∀ g ∈ l, g ∈ F) ∧ ∀ E, Spec.Inner h f E → l.length = E.length := by
  obtain ⟨a, b, c, t, hfe⟩ := H.tri hf
  have hl : ∀ g, g ∈ ([a, b, c].map h.oppFace).filterMap id ↔ Spec.Adjacent h f g := by
    intro g
    simp only [List.mem_filterMap, List.mem_map, id]
    constructor
    · rintro ⟨x, ⟨e, he, rfl⟩, hx⟩
      obtain ⟨o, ho, hg⟩ := oppFace_eq.mp hx
      refine ⟨e, o, ?_, ho, hg⟩
      simp only [List.mem_cons, List.not_mem_nil, or_false] at he
      rcases he with rfl | rfl | rfl
      exacts [t.fa, t.fb, t.fc]
    · rintro ⟨e, o, h1, h2, h3⟩
      exact ⟨some g, ⟨e, by simpa using t.own e h1, oppFace_eq.mpr ⟨o, h2, h3⟩⟩, rfl⟩
  refine ⟨_, by unfold Mesh.getNeighboringFaces; rw [H.getFaceEdges t hfe]; rfl, hl, fun g hg => (H.adjacent_symm hf ((hl g).mp hg)).1, ?_⟩
  rintro E ⟨hE1, hE2⟩
  have hp : E.Perm ([a, b, c].filter fun e => (h.oppFace e).isSome) := by
    refine (List.perm_ext_iff_of_nodup hE1 (List.Nodup.filter _ (by simp [t.ab, t.bc, t.ca.symm]))).mpr fun e => ?_
    rw [hE2, List.mem_filter, Option.isSome_iff_exists]
    constructor
    · rintro ⟨h1, h2⟩
      obtain ⟨o, ho⟩ := Option.ne_none_iff_exists'.mp h2
      obtain ⟨⟨g, -, hg⟩, -⟩ := H.opp e o ⟨f, hf, h1⟩ ho
      exact ⟨by simpa using t.own e h1, g, oppFace_eq.mpr ⟨o, ho, hg⟩⟩
    · rintro ⟨h1, g, hg⟩
      obtain ⟨o, ho, -⟩ := oppFace_eq.mp hg
      refine ⟨?_, by simp [ho]⟩
      simp only [List.mem_cons, List.not_mem_nil, or_false] at h1
      rcases h1 with rfl | rfl | rfl
      exacts [t.fa, t.fb, t.fc]
  rw [hp.length_eq]
  generalize [a, b, c] = L
  induction L with
  | nil => rfl
  | cons x L ih =>
    rw [List.map_cons, List.filterMap_cons, List.filter_cons]
    rcases hx : h.oppFace x with _ | g <;> simpa using ih

/-- C121: a face is returned for another one exactly when this one is returned for it. -/
theorem C121_symmetric (H : Spec.Valid h F) {f g : ℕ} (hf : f ∈ F) (hg : g ∈ F) : ∃ l m, h.getNeighboringFaces f = .ok l ∧
    h.getNeighboringFaces g = .ok m ∧ (g ∈ l ↔ f ∈ m) := by
  obtain ⟨l, e1, h1, -⟩ := C121_faces H hf
  obtain ⟨m, e2, h2, -⟩ := C121_faces H hg
  exact ⟨l, m, e1, e2, by rw [h1, h2]; exact ⟨fun h => (H.adjacent_symm hf h).2, fun h => (H.adjacent_symm hg h).2⟩⟩

/-- C121: `getCommonEdges` returns two null pointers when the faces share no edge. Otherwise it returns a half-edge of the first face and its opposite, which
is in the second face and goes the other way; if the faces share one edge only, exchanging them exchanges the two half-edges. -/
theorem C121_common (H : Spec.Valid h F) {f g : ℕ} (hf : f ∈ F) :
    (¬ Spec.Adjacent h f g → h.getCommonEdges f g = .ok (none, none)) ∧
    (Spec.Adjacent h f g → ∃ e o, h.getCommonEdges f g = .ok (some e, some o) ∧ (h.he e).face = some f ∧ (h.he o).face = some g ∧
      (h.he e).opp = some o ∧ (h.he o).opp = some e ∧ (h.he o).vertex = Spec.start h e ∧ (h.he e).vertex = Spec.start h o ∧
      ((∀ e' o', (h.he e').face = some f → (h.he e').opp = some o' → (h.he o').face = some g → e' = e) →
        h.getCommonEdges g f = .ok (some o, some e))) := by
  have key : ∀ {f g : ℕ}, f ∈ F → (¬ Spec.Adjacent h f g ∧ h.getCommonEdges f g = .ok (none, none)) ∨
      ∃ e o, h.getCommonEdges f g = .ok (some e, some o) ∧ (h.he e).face = some f ∧ (h.he o).face = some g ∧ (h.he e).opp = some o := by
    intro f g hf
    obtain ⟨a, b, c, t, hfe⟩ := H.tri hf
    have hg : h.getCommonEdge f g = .ok ([a, b, c].find? fun e => h.oppFaceIs e g) := by
      unfold Mesh.getCommonEdge
      rw [H.getFaceEdges t hfe]; rfl
    unfold Mesh.getCommonEdges
    rw [hg, R_bind_ok]
    cases hfind : [a, b, c].find? (fun e => h.oppFaceIs e g) with
    | none =>
      left
      refine ⟨?_, rfl⟩
      rintro ⟨e, o, h1, h2, h3⟩
      rw [List.find?_eq_none] at hfind
      exact hfind e (by simpa using t.own e h1) (oppFaceIs_iff.mpr ⟨o, h2, h3⟩)
    | some e =>
      right
      have hm := List.mem_of_find?_eq_some hfind
      obtain ⟨o, ho, hfo⟩ := oppFaceIs_iff.mp (List.find?_some (p := fun e => h.oppFaceIs e g) hfind)
      refine ⟨e, o, by simp only [ho]; rfl, ?_, hfo, ho⟩
      simp only [List.mem_cons, List.not_mem_nil, or_false] at hm
      rcases hm with rfl | rfl | rfl
      exacts [t.fa, t.fb, t.fc]
  constructor
  · intro hn
    rcases key (g := g) hf with ⟨-, hh⟩ | ⟨e, o, -, h1, h2, h3⟩
    · exact hh
    · exact absurd ⟨e, o, h1, h3, h2⟩ hn
  · intro ha
    rcases key (g := g) hf with ⟨hh, -⟩ | ⟨e, o, h0, h1, h2, h3⟩
    · exact absurd ha hh
    · obtain ⟨hlo, h4, h5⟩ := H.opp_start ⟨f, hf, h1⟩ h3
      obtain ⟨-, -, h6⟩ := H.opp_start hlo h4
      refine ⟨e, o, h0, h1, h2, h3, h4, h5, h6, fun hu => ?_⟩
      obtain ⟨hgF, hga⟩ := H.adjacent_symm hf ha
      rcases key (g := f) hgF with ⟨hh, -⟩ | ⟨e', o', g0, g1, g2, g3⟩
      · exact absurd hga hh
      · obtain ⟨-, g4, -⟩ := H.opp_start ⟨g, hgF, g1⟩ g3
        have : o' = e := hu o' e' g2 g4 g1
        subst this
        rw [h3] at g4
        cases g4
        exact g0

/-- C121: from a half-edge of a face, `getNextFace` and `getPreviousFace` return the faces next to it around the vertex at its end: they have a half-edge that
ends there too, from which the other function comes back to the face. -/
theorem C121_turn (H : Spec.Valid h F) {f e : ℕ} (hf : f ∈ F) (he : (h.he e).face = some f) :
    (∀ g, h.getNextFace e = some g → ∃ e', (h.he e').face = some g ∧ (h.he e').vertex = (h.he e).vertex ∧ h.getPreviousFace e' = some f) ∧
    (∀ g, h.getPreviousFace e = some g → ∃ e', (h.he e').face = some g ∧ (h.he e').vertex = (h.he e).vertex ∧ h.getNextFace e' = some f) := by
  constructor
  · intro g hg
    obtain ⟨o, ho, hog⟩ := oppFace_eq.mp hg
    obtain ⟨hlo, h4, -⟩ := H.opp_start ⟨f, hf, he⟩ ho
    obtain ⟨-, -, h6⟩ := H.opp_start hlo h4
    have hgF : g ∈ F := by
      obtain ⟨g', hg', hgg⟩ := hlo
      rw [hog] at hgg; cases hgg; exact hg'
    obtain ⟨b, c, t⟩ := H.triAt hgF hog
    refine ⟨c, t.fc, by rw [h6, t.start], ?_⟩
    unfold Mesh.getPreviousFace
    rw [t.nc]
    exact oppFace_eq.mpr ⟨e, h4, he⟩
  · intro g hg
    obtain ⟨b, c, t⟩ := H.triAt hf he
    unfold Mesh.getPreviousFace at hg
    rw [t.na] at hg
    obtain ⟨o, ho, hog⟩ := oppFace_eq.mp hg
    obtain ⟨hlo, h4, h5⟩ := H.opp_start ⟨f, hf, t.fb⟩ ho
    refine ⟨o, hog, by rw [h5, t.rotate.start], ?_⟩
    exact oppFace_eq.mpr ⟨b, h4, t.fb⟩

/-- C121: they return null pointers exactly when there is no face on that side. -/
theorem C121_turn_none (H : Spec.Valid h F) {f e : ℕ} (hf : f ∈ F) (he : (h.he e).face = some f) :
    (h.getNextFace e = none ↔ (h.he e).opp = none) ∧ (h.getPreviousFace e = none ↔ ∃ n, (h.he e).next = some n ∧ (h.he n).opp = none) := by
  have key : ∀ {x}, (h.he x).face = some f → (h.oppFace x = none ↔ (h.he x).opp = none) := by
    intro x hx
    unfold Mesh.oppFace
    rcases ho : (h.he x).opp with _ | o
    · simp
    · obtain ⟨⟨g, -, hg⟩, -⟩ := H.opp x o ⟨f, hf, hx⟩ ho
      simp [hg]
  obtain ⟨b, c, t⟩ := H.triAt hf he
  refine ⟨key he, ?_⟩
  unfold Mesh.getPreviousFace
  rw [t.na]
  dsimp only
  rw [key t.fb]
  simp

/-- C121: in two triangles that share an edge, each one is the neighbour of the other and of no other. -/
theorem C121_witness : Spec.Valid Sample.twoTris [0, 1] ∧ Sample.twoTris.getNeighboringFaces 0 = .ok [1] ∧
    Sample.twoTris.getNeighboringFaces 1 = .ok [0] ∧ Spec.Adjacent Sample.twoTris 0 1 ∧ ¬ Spec.Adjacent Sample.twoTris 0 2 ∧
    (∃ e o, Sample.twoTris.getCommonEdges 0 1 = .ok (some e, some o) ∧ Sample.twoTris.getCommonEdges 1 0 = .ok (some o, some e)) := by
  have e1 : Sample.twoTris.getNeighboringFaces 0 = .ok [1] := by decide +kernel
  obtain ⟨l, h1, h2, -⟩ := C121_faces Sample.twoTris_valid (f := 0) (by simp)
  rw [e1] at h1
  cases h1
  refine ⟨Sample.twoTris_valid, e1, by decide +kernel, (h2 1).mp (by simp), fun h => by simpa using (h2 2).mpr h, ?_⟩
  exact ⟨1, 3, by decide +kernel, by decide +kernel⟩

end Gbs
