import Verif.Props.MeshRing

/-!
# Valid triangle meshes
-/

namespace Gbs

variable {P : Type}

/-- The half-edge belongs to a face of the list. -/
def Spec.Live (h : Mesh P) (F : List ℕ) (e : ℕ) : Prop := ∃ f ∈ F, (h.he e).face = some f

/-- A valid triangle mesh: the faces of the list are distinct rings of three half-edges, no other half-edge refers to them, every half-edge of a face has a
vertex, and the opposite of a half-edge of a face is a half-edge of a face, has it as opposite, and ends where it starts. -/
structure Spec.Valid (h : Mesh P) (F : List ℕ) : Prop where
  nodup : F.Nodup
  faces : ∀ f ∈ F, f < h.nF
  edges : ∀ e f, (h.he e).face = some f → e < h.nE ∧ f < h.nF
  ring : ∀ f ∈ F, ∃ a b c, [a, b, c].Nodup ∧ Spec.IsRing h f [a, b, c] ∧ ∀ e, (h.he e).face = some f → e ∈ [a, b, c]
  vertex : ∀ e, Spec.Live h F e → ∃ v, (h.he e).vertex = some v ∧ v < h.nV
  opp : ∀ e o, Spec.Live h F e → (h.he e).opp = some o →
    Spec.Live h F o ∧ (h.he o).opp = some e ∧ ∃ p, (h.he e).prev = some p ∧ (h.he o).vertex = (h.he p).vertex

/-- The vertices of the faces designate half-edges of faces that end at them. -/
def Spec.VertexLinks (h : Mesh P) (F : List ℕ) : Prop :=
  ∀ e v, Spec.Live h F e → (h.he e).vertex = some v → ∃ e', h.ve v = some e' ∧ Spec.Live h F e' ∧ (h.he e').vertex = some v

/-- Three half-edges around a face. -/
structure Tri (h : Mesh P) (f a b c : ℕ) : Prop where
  ab : a ≠ b
  bc : b ≠ c
  ca : c ≠ a
  na : (h.he a).next = some b
  nb : (h.he b).next = some c
  nc : (h.he c).next = some a
  pa : (h.he a).prev = some c
  pb : (h.he b).prev = some a
  pc : (h.he c).prev = some b
  fa : (h.he a).face = some f
  fb : (h.he b).face = some f
  fc : (h.he c).face = some f
  own : ∀ e, (h.he e).face = some f → e = a ∨ e = b ∨ e = c

variable {h : Mesh P} {F : List ℕ} {f a b c : ℕ}

theorem Tri.rotate (t : Tri h f a b c) : Tri h f b c a :=
  ⟨t.bc, t.ca, t.ab, t.nb, t.nc, t.na, t.pb, t.pc, t.pa, t.fb, t.fc, t.fa, fun e he => by rcases t.own e he with h | h | h <;> simp [h]⟩

theorem tri_iff : ([a, b, c].Nodup ∧ Spec.IsRing h f [a, b, c] ∧ ∀ e, (h.he e).face = some f → e ∈ [a, b, c]) ↔
    Tri h f a b c ∧ h.fe f = some a := by
  constructor
  · rintro ⟨h1, ⟨h2, h3⟩, h4⟩
    have n1 := h3 0 a b rfl rfl
    have n2 := h3 1 b c rfl rfl
    have n3 := h3 2 c a rfl (by simp)
    simp at h1
    exact ⟨⟨h1.1.1, h1.2, fun hc => h1.1.2 hc.symm, n1.1, n2.1, n3.1, n3.2.1, n1.2.1, n2.2.1, n1.2.2, n2.2.2, n3.2.2, fun e he => by
      simpa using h4 e he⟩, h2⟩
  · rintro ⟨t, h2⟩
    refine ⟨by simp [t.ab, t.bc, t.ca.symm], ⟨h2, ?_⟩, fun e he => by simpa using t.own e he⟩
    intro i x y hx hy
    match i with
    | 0 => simp at hx hy; subst hx hy; exact ⟨t.na, t.pb, t.fa⟩
    | 1 => simp at hx hy; subst hx hy; exact ⟨t.nb, t.pc, t.fb⟩
    | 2 => simp at hx hy; subst hx hy; exact ⟨t.nc, t.pa, t.fc⟩
    | n + 3 => simp at hx

theorem Spec.Valid.tri (H : Spec.Valid h F) (hf : f ∈ F) : ∃ a b c, Tri h f a b c ∧ h.fe f = some a := by
  obtain ⟨a, b, c, hh⟩ := H.ring f hf
  exact ⟨a, b, c, tri_iff.mp hh⟩

/-- The triangle from one of its half-edges. -/
theorem Spec.Valid.triAt (H : Spec.Valid h F) {e : ℕ} (hf : f ∈ F) (he : (h.he e).face = some f) : ∃ b c, Tri h f e b c := by
  obtain ⟨a, b, c, t, -⟩ := H.tri hf
  rcases t.own e he with rfl | rfl | rfl
  · exact ⟨b, c, t⟩
  · exact ⟨c, a, t.rotate⟩
  · exact ⟨a, b, t.rotate.rotate⟩

/-- The vertex at the start of a half-edge. -/
def Spec.start (h : Mesh P) (e : ℕ) : Option ℕ := (h.he e).prev.bind fun p => (h.he p).vertex

theorem Tri.start (t : Tri h f a b c) : Spec.start h a = (h.he c).vertex := by simp [Spec.start, t.pa]

/-- Validity, triangle by triangle. -/
theorem Spec.Valid.of_tri (nodup : F.Nodup) (faces : ∀ f ∈ F, f < h.nF) (edges : ∀ e f, (h.he e).face = some f → e < h.nE ∧ f < h.nF)
    (ring : ∀ f ∈ F, ∃ a b c, Tri h f a b c ∧ h.fe f = some a)
    (vertex : ∀ e, Spec.Live h F e → ∃ v, (h.he e).vertex = some v ∧ v < h.nV)
    (opp : ∀ e o, Spec.Live h F e → (h.he e).opp = some o → Spec.Live h F o ∧ (h.he o).opp = some e ∧ (h.he o).vertex = Spec.start h e) :
    Spec.Valid h F where
  nodup := nodup
  faces := faces
  edges := edges
  ring := fun f hf => by
    obtain ⟨a, b, c, hh⟩ := ring f hf
    exact ⟨a, b, c, tri_iff.mpr hh⟩
  vertex := vertex
  opp := fun e o he ho => by
    obtain ⟨h1, h2, h3⟩ := opp e o he ho
    refine ⟨h1, h2, ?_⟩
    obtain ⟨f, hf, hef⟩ := he
    obtain ⟨a, b, c, t, -⟩ := ring f hf
    rcases t.own e hef with rfl | rfl | rfl
    exacts [⟨_, t.pa, h3.trans t.start⟩, ⟨_, t.pb, h3.trans t.rotate.start⟩, ⟨_, t.pc, h3.trans t.rotate.rotate.start⟩]

theorem Spec.Valid.opp_start (H : Spec.Valid h F) {e o : ℕ} (he : Spec.Live h F e) (ho : (h.he e).opp = some o) :
    Spec.Live h F o ∧ (h.he o).opp = some e ∧ (h.he o).vertex = Spec.start h e := by
  obtain ⟨h1, h2, p, h3, h4⟩ := H.opp e o he ho
  exact ⟨h1, h2, by simp [Spec.start, h3, h4]⟩

/-- The half-edge after `a` determines the triangle. -/
theorem Tri.unique {b' c' : ℕ} {f' : ℕ} (t : Tri h f a b c) (t' : Tri h f' a b' c') : f' = f ∧ b' = b ∧ c' = c := by
  have h1 := t.fa.symm.trans t'.fa
  have h2 := t.na.symm.trans t'.na
  have h3 := t.pa.symm.trans t'.pa
  cases h1; cases h2; cases h3
  exact ⟨rfl, rfl, rfl⟩

theorem Spec.Valid.getFaceEdges (H : Spec.Valid h F) (t : Tri h f a b c) (hfe : h.fe f = some a) :
    h.getFaceEdges f = .ok [a, b, c] := by
  have ha := (H.edges a f t.fa).1
  have hb := (H.edges b f t.fb).1
  have hc := (H.edges c f t.fc).1
  have h3 : 3 ≤ h.nE := by
    have := Mesh.length_le_of_lt (l := [a, b, c]) (by simp [t.ab, t.bc, t.ca.symm]) (n := h.nE) (by simp [ha, hb, hc])
    simpa using this
  unfold Mesh.getFaceEdges
  rw [hfe]
  obtain ⟨k, hk⟩ : ∃ k, h.nE + 1 = k + 1 + 1 + 1 := ⟨h.nE - 2, by omega⟩
  rw [hk, Mesh.faceEdgesFrom, t.na, if_neg (by simp [t.ab.symm]), Mesh.faceEdgesFrom, t.nb, if_neg (by simp [t.ca]), Mesh.faceEdgesFrom, t.nc,
    if_pos rfl]
  rfl

theorem Spec.Valid.live_lt (H : Spec.Valid h F) {e : ℕ} (hl : Spec.Live h F e) : e < h.nE := by
  obtain ⟨f, _, hf⟩ := hl
  exact (H.edges e f hf).1

/-- `make_loop` on three half-edges. -/
theorem Mesh.makeLoop3 (h : Mesh P) (hab : a ≠ b) (hbc : b ≠ c) (hca : c ≠ a) (f : ℕ) :
    ∃ h', h.makeLoop [a, b, c] f = .ok h' ∧ h'.fe = Function.update h.fe f (some a) ∧ h'.co = h.co ∧ h'.ve = h.ve ∧ h'.nE = h.nE ∧ h'.nV = h.nV ∧
      h'.nF = h.nF ∧ h'.he a = { h.he a with face := some f, next := some b, prev := some c } ∧
      h'.he b = { h.he b with face := some f, next := some c, prev := some a } ∧
      h'.he c = { h.he c with face := some f, next := some a, prev := some b } ∧ ∀ e, e ≠ a → e ≠ b → e ≠ c → h'.he e = h.he e := by
  obtain ⟨h', e1, e2, e3, e4, e5, e6, e7, e8, e9⟩ := h.makeLoop_spec (l := [a, b, c]) (by simp) (by simp [hab, hbc, hca.symm]) f
  exact ⟨h', e1, e2, e3, e4, e5, e6, e7, by simpa using e8 0 (by simp), by simpa using e8 1 (by simp),
    by simpa using e8 2 (by simp), fun e h1 h2 h3 => e9 e (by simp [h1, h2, h3])⟩

/-- `make_shared_h_face` on three half-edges. -/
theorem Mesh.makeFace3 (h : Mesh P) (hab : a ≠ b) (hbc : b ≠ c) (hca : c ≠ a) :
    ∃ h', h.makeFace [a, b, c] = .ok (h', some h.nF) ∧ h'.fe = Function.update h.fe h.nF (some a) ∧ h'.co = h.co ∧ h'.ve = h.ve ∧ h'.nE = h.nE ∧
      h'.nV = h.nV ∧ h'.nF = h.nF + 1 ∧ h'.he a = { h.he a with face := some h.nF, next := some b, prev := some c } ∧
      h'.he b = { h.he b with face := some h.nF, next := some c, prev := some a } ∧
      h'.he c = { h.he c with face := some h.nF, next := some a, prev := some b } ∧ ∀ e, e ≠ a → e ≠ b → e ≠ c → h'.he e = h.he e := by
  obtain ⟨h', e1, e2, e3, e4, e5, e6, e7, e8, e9, e10, e11⟩ :=
    Mesh.makeLoop3 ({ h with fe := Function.update h.fe h.nF none, nF := h.nF + 1 } : Mesh P) hab hbc hca h.nF
  refine ⟨h', ?_, ?_, e3, e4, e5, e6, e7, e8, e9, e10, e11⟩
  · rw [Mesh.makeFace, if_neg (by simp)]
    simp only
    rw [e1, R_bind_ok]; rfl
  · rw [e2]; simp

end Gbs
