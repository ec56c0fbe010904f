import Verif.Props.Cavity

/-!
# Filling the cavity
-/

set_option linter.unusedSectionVars false

namespace Gbs

variable {K : Type} [Field K] [LinearOrder K] [IsStrictOrderedRing K] {h h' : Mesh (K × K)} {F C l : List ℕ} {f a b c : ℕ} {xy : K × K}

/-- A loop is a closed chain. -/
theorem Spec.Loop.closedChain {P : Type} {h : Mesh P} (hl : Spec.Loop h l) : Spec.ClosedChain h l := by
  obtain ⟨hc, x, y, hx, hy, hxy⟩ := hl
  intro i a b ha hb
  have hi : i < l.length := (List.getElem?_eq_some_iff.mp ha).1
  by_cases hlast : i + 1 < l.length
  · rw [Nat.mod_eq_of_lt hlast] at hb
    have := List.isChain_iff_getElem.mp hc i hlast
    rw [List.getElem?_eq_some_iff] at ha hb
    obtain ⟨_, rfl⟩ := ha
    obtain ⟨_, rfl⟩ := hb
    exact this.symm
  · have : i + 1 = l.length := by omega
    rw [this, Nat.mod_self] at hb
    rw [List.head?_eq_getElem?] at hx
    rw [hx] at hb; cases hb
    rw [List.getLast?_eq_getElem?] at hy
    have : l.length - 1 = i := by omega
    rw [this, ha] at hy; cases hy
    exact hxy

/-- The sum over the ends of the half-edges of a loop is the sum over their starts. -/
theorem Spec.Loop.sum_eq {P : Type} {h : Mesh P} {A : Type} [AddCommGroup A] (g : Option ℕ → A) (hl : Spec.Loop h l) :
    (l.map fun e => g (h.he e).vertex).sum = (l.map fun e => g (Spec.start h e)).sum := by
  have chain : ∀ (l : List ℕ) (a b : ℕ), Spec.Chained h l → l.head? = some a → l.getLast? = some b →
      (l.map fun e => g (h.he e).vertex).sum + g (Spec.start h a) = (l.map fun e => g (Spec.start h e)).sum + g (h.he b).vertex := by
    intro l
    induction l with
    | nil => intro a b _ ha; simp at ha
    | cons x l ih =>
      intro a b hc ha hb
      simp at ha; subst ha
      cases l with
      | nil => simp at hb; subst hb; simp [add_comm]
      | cons y l =>
        have := ih y b (List.isChain_cons_cons.mp hc).2 rfl (by simpa using hb)
        have hxy := (List.isChain_cons_cons.mp hc).1
        rw [List.map_cons, List.sum_cons, List.map_cons (f := fun e => g (Spec.start h e)), List.sum_cons, hxy]
        rw [add_assoc (g (Spec.start h x)), ← this]
        abel
  obtain ⟨hc, x, y, hx, hy, hxy⟩ := hl
  have := chain l x y hc hx hy
  rw [hxy] at this
  exact add_right_cancel this

/-- The cavity `C`, of border `l`, has been filled with triangles around a new vertex. -/
structure Refilled (h h' : Mesh (K × K)) (F C l : List ℕ) (xy : K × K) : Prop where
  valid : Spec.Valid h' (F.filter (fun f => decide (f ∉ C)) ++ (List.range l.length).map (h.nF + ·))
  tris : ∀ i (hi : i < l.length), ∃ a b, Tri h' (h.nF + i) l[i] a b ∧ (h'.he l[i]).vertex = (h.he l[i]).vertex ∧ (h'.he a).vertex = some h.nV ∧
        (h'.he b).vertex = Spec.start h l[i] ∧ (h'.he l[i]).opp = (h.he l[i]).opp ∧ (h'.he a).opp ≠ none ∧ (h'.he b).opp ≠ none
  old : ∀ x, x < h.nE → x ∉ l → h'.he x = h.he x
  fe : ∀ f, f < h.nF → h'.fe f = h.fe f
  co : h'.co = Function.update h.co h.nV xy
  nV : h'.nV = h.nV + 1
  ve : ∃ x, h'.ve h.nV = some x ∧ Spec.Live h' (F.filter (fun f => decide (f ∉ C)) ++ (List.range l.length).map (h.nF + ·)) x ∧
    (h'.he x).vertex = some h.nV

/-- What is needed of the border. -/
structure Bordered (h : Mesh (K × K)) (F C l : List ℕ) : Prop where
  sub : ∀ f ∈ C, f ∈ F
  nodupC : C.Nodup
  nodup : l.Nodup
  ne : l ≠ []
  mem : ∀ e, e ∈ l ↔ Spec.Border h C e
  loop : Spec.Loop h l

theorem fillCavity_spec (H : Spec.Valid h F) (B : Bordered h F C l) (xy : K × K) :
    ∃ h', h.fillCavity F xy C [l] = .ok ((h', F.filter (fun f => decide (f ∉ C)) ++ (List.range l.length).map (h.nF + ·)),
        some (h.nV, F.filter (fun f => decide (f ∈ C)), (List.range l.length).map (h.nF + ·))) ∧ Refilled h h' F C l xy := by
  obtain ⟨h', k1, k2, k3, k4, k5, k6, k7, -, x, k8, k9, -, k10⟩ := C40_add_vertex (H.newVertex xy) (C := C) (l := l) (v := h.nV) B.sub B.ne B.nodup B.mem B.loop.closedChain
    (by show h.nV < h.nV + 1; omega)
  refine ⟨h', ?_, ⟨k2, k3, k4, k5, k6, k7, x, k8, k10, k9⟩⟩
  unfold Mesh.fillCavity
  simp only [rd, List.getElem?_cons_zero, R_bind_ok]
  have : (h.newVertex xy).2 = h.nV := rfl
  rw [this, k1, R_bind_ok]; rfl

theorem Bordered.live (B : Bordered h F C l) {e : ℕ} (he : e ∈ l) : Spec.Live h F e := by
  obtain ⟨⟨f, hf, hef⟩, -⟩ := (B.mem e).mp he
  exact ⟨f, B.sub f hf, hef⟩

theorem Refilled.co_old (R : Refilled h h' F C l xy) {u : ℕ} (hu : u < h.nV) : h'.co u = h.co u := by
  rw [R.co, Function.update_of_ne hu.ne]

theorem Refilled.co_new (R : Refilled h h' F C l xy) : h'.co h.nV = xy := by rw [R.co, Function.update_self]

/-- A face which is not in the cavity is unchanged. -/
theorem Refilled.kept (R : Refilled h h' F C l xy) (H : Spec.Valid h F) (B : Bordered h F C l) (hf : f ∈ F) (hfC : f ∉ C) {e : ℕ}
    (he : (h.he e).face = some f) : h'.he e = h.he e ∧ Spec.endPt h' e = Spec.endPt h e := by
  have hel : e ∉ l := by
    intro hh
    obtain ⟨⟨g, hg, heg⟩, -⟩ := (B.mem e).mp hh
    rw [he] at heg; cases heg
    exact hfC hg
  have h1 := R.old e (H.edges e f he).1 hel
  refine ⟨h1, ?_⟩
  obtain ⟨v, hv, hlt, hp⟩ := H.vertexEq ⟨f, hf, he⟩
  rw [hp, Spec.endPt, h1, hv]
  exact R.co_old hlt

theorem Refilled.keptTri (R : Refilled h h' F C l xy) (H : Spec.Valid h F) (B : Bordered h F C l) (hf : f ∈ F) (hfC : f ∉ C) (t : Tri h f a b c) :
    Tri h' f a b c ∧ Spec.endPt h' a = Spec.endPt h a ∧ Spec.endPt h' b = Spec.endPt h b ∧ Spec.endPt h' c = Spec.endPt h c := by
  have ka := R.kept H B hf hfC t.fa
  refine ⟨?_, ka.2, (R.kept H B hf hfC t.fb).2, (R.kept H B hf hfC t.fc).2⟩
  have hf' : f ∈ F.filter (fun f => decide (f ∉ C)) ++ (List.range l.length).map (h.nF + ·) := by simp [hf, hfC]
  obtain ⟨b', c', t'⟩ := R.valid.triAt (e := a) hf' (by rw [ka.1, t.fa])
  have h1 := t'.na
  have h2 := t'.pa
  rw [ka.1, t.na] at h1
  rw [ka.1, t.pa] at h2
  cases h1; cases h2
  exact t'

/-- The points of the new faces. -/
theorem Refilled.newTri (R : Refilled h h' F C l xy) (H : Spec.Valid h F) (B : Bordered h F C l) {i : ℕ} (hi : i < l.length) :
    ∃ a b, Tri h' (h.nF + i) l[i] a b ∧ Spec.endPt h' l[i] = Spec.endPt h l[i] ∧ Spec.endPt h' a = xy ∧ Spec.endPt h' b = Spec.startPt h l[i] := by
  obtain ⟨a, b, t, h1, h2, h3, -⟩ := R.tris i hi
  have hl := B.live (List.getElem_mem hi)
  obtain ⟨v, hv, hlt, hp⟩ := H.vertexEq hl
  obtain ⟨s, hs, hslt⟩ := H.startEq hl
  refine ⟨a, b, t, ?_, ?_, ?_⟩
  · rw [hp, Spec.endPt, h1, hv]; exact R.co_old hlt
  · rw [Spec.endPt, h2]; exact R.co_new
  · rw [Spec.endPt, h3, Spec.startPt, hs]; exact R.co_old hslt

theorem mem_new {i n g : ℕ} : g ∈ (List.range n).map (i + ·) ↔ ∃ j, j < n ∧ g = i + j := by
  simp [eq_comm]

/-- The new mesh is counter-clockwise when the border is seen counter-clockwise from the point. -/
theorem Refilled.ccw (R : Refilled h h' F C l xy) (H : Spec.Valid h F) (hw : Spec.Ccw h F) (B : Bordered h F C l)
    (hs : ∀ e ∈ l, 0 < Spec.side h e xy) : Spec.Ccw h' (F.filter (fun f => decide (f ∉ C)) ++ (List.range l.length).map (h.nF + ·)) := by
  intro f hf
  rcases List.mem_append.mp hf with hf' | hf'
  · rw [List.mem_filter, decide_eq_true_eq] at hf'
    obtain ⟨a, b, c, t, -⟩ := H.tri hf'.1
    obtain ⟨t', p1, p2, p3⟩ := R.keptTri H B hf'.1 hf'.2 t
    rw [R.valid.faceArea2 hf t', p1, p2, p3, ← H.faceArea2 hf'.1 t]
    exact hw f hf'.1
  · obtain ⟨i, hi, rfl⟩ := mem_new.mp hf'
    obtain ⟨a, b, t, p1, p2, p3⟩ := R.newTri H B hi
    rw [R.valid.faceArea2 hf t, p1, p2, p3, area2_rotate, area2_rotate]
    rw [← area2_rotate]
    exact hs _ (List.getElem_mem hi)

/-! ## Conserved quantities -/

/-- The sum over the sides of a triangular face. -/
def faceSum {A : Type} [AddCommGroup A] (φ : K × K → K × K → A) (h : Mesh (K × K)) (f : ℕ) : A :=
  φ (Spec.corners h f).1 (Spec.corners h f).2.1 + φ (Spec.corners h f).2.1 (Spec.corners h f).2.2 + φ (Spec.corners h f).2.2 (Spec.corners h f).1

theorem Spec.Valid.faceSumTri {A : Type} [AddCommGroup A] (φ : K × K → K × K → A) (H : Spec.Valid h F) (hf : f ∈ F) (t : Tri h f a b c) :
    faceSum φ h f = φ (Spec.endPt h a) (Spec.endPt h b) + φ (Spec.endPt h b) (Spec.endPt h c) + φ (Spec.endPt h c) (Spec.endPt h a) := by
  obtain ⟨x, y, z, t', hfe⟩ := H.tri hf
  rw [faceSum, t'.corners hfe]
  rcases t.own x t'.fa with rfl | rfl | rfl
  · obtain ⟨-, rfl, rfl⟩ := t'.unique t; rfl
  · obtain ⟨-, rfl, rfl⟩ := t'.unique t.rotate
    simp only; abel
  · obtain ⟨-, rfl, rfl⟩ := t'.unique t.rotate.rotate
    simp only; abel

theorem Spec.Valid.cavity_sum {A : Type} [AddCommGroup A] (hA : ∀ x : A, x + x = 0 → x = 0) (φ : K × K → K × K → A) (hφ : ∀ p q, φ q p = - φ p q)
    (H : Spec.Valid h F) (hC : ∀ f ∈ C, f ∈ F) (hnd : C.Nodup) {b : List ℕ} (hb : b.Nodup) (hmem : ∀ e, e ∈ b ↔ Spec.Border h C e) :
    (C.map (faceSum φ h)).sum = (b.map fun e => φ (Spec.startPt h e) (Spec.endPt h e)).sum := by
  obtain ⟨ls, b', -, -, h3, h4, h5, h6⟩ := H.boundary hC hnd
  have hperm : List.Perm b b' := (List.perm_ext_iff_of_nodup hb h3).mpr fun e => by rw [hmem, h4]
  rw [(hperm.map _).sum_eq, h6 (fun e => φ (Spec.startPt h e) (Spec.endPt h e)) hA]
  · rw [sum_flatten_faces _ (faceSum φ h)]
    · intro f a b c hf t hfe
      rw [H.faceSumTri φ (hC f hf) t, t.startPt, t.rotate.startPt, t.rotate.rotate.startPt]; abel
    · exact h5
  · intro e o he ho
    obtain ⟨p1, p2⟩ := H.opp_pts he ho
    rw [p1, p2, hφ]

theorem sum_filter_split {A : Type} [AddCommGroup A] (g : ℕ → A) (p : ℕ → Prop) [DecidablePred p] (F : List ℕ) :
    (F.map g).sum = ((F.filter fun f => decide (p f)).map g).sum + ((F.filter fun f => decide (¬p f)).map g).sum := by
  induction F with
  | nil => simp
  | cons f F ih =>
    by_cases hf : p f
    · simp [hf, ih, add_assoc]
    · simp only [List.map_cons, List.sum_cons, ih, List.filter_cons, hf, decide_false, decide_true, not_false_eq_true, if_true, Bool.false_eq_true, if_false]
      abel

theorem filter_mem_perm (hF : F.Nodup) (hC : ∀ f ∈ C, f ∈ F) (hnd : C.Nodup) : List.Perm (F.filter fun f => decide (f ∈ C)) C := by
  rw [List.perm_ext_iff_of_nodup (hF.filter _) hnd]
  intro f
  simp only [List.mem_filter, decide_eq_true_eq]
  exact ⟨fun hh => hh.2, fun hh => ⟨hC f hh, hh⟩⟩

/-- A quantity that is a sum over the sides of the triangles, and changes sign with their direction, is conserved. -/
theorem Refilled.conserve {A : Type} [AddCommGroup A] (hA : ∀ x : A, x + x = 0 → x = 0) (φ : K × K → K × K → A) (hφ : ∀ p q, φ q p = - φ p q)
    (R : Refilled h h' F C l xy) (H : Spec.Valid h F) (B : Bordered h F C l) :
    ((F.filter (fun f => decide (f ∉ C)) ++ (List.range l.length).map (h.nF + ·)).map (faceSum φ h')).sum = (F.map (faceSum φ h)).sum := by
  rw [sum_filter_split (faceSum φ h) (· ∈ C) F, ((filter_mem_perm H.nodup B.sub B.nodupC).map _).sum_eq,
    H.cavity_sum hA φ hφ B.sub B.nodupC B.nodup B.mem, List.map_append, List.sum_append, add_comm]
  congr 1
  · -- the new faces
    have hnew : ((List.range l.length).map (h.nF + ·)).map (faceSum φ h') =
        l.map fun e => φ (Spec.startPt h e) (Spec.endPt h e) + (φ (Spec.endPt h e) xy - φ (Spec.startPt h e) xy) := by
      apply List.ext_getElem
      · simp
      · intro i h1 h2
        simp only [List.length_map] at h2
        simp only [List.getElem_map, List.getElem_range]
        obtain ⟨a, b, t, p1, p2, p3⟩ := R.newTri H B h2
        rw [R.valid.faceSumTri φ (by rw [List.mem_append]; right; exact mem_new.mpr ⟨i, h2, rfl⟩) t, p1, p2, p3, hφ (Spec.startPt h l[i]) xy]
        abel
    rw [hnew]
    have key := B.loop.sum_eq (fun v => φ (h.co (v.getD 0)) xy)
    have hsub : ∀ (m : List ℕ), (m.map fun e => φ (Spec.startPt h e) (Spec.endPt h e) + (φ (Spec.endPt h e) xy - φ (Spec.startPt h e) xy)).sum =
        (m.map fun e => φ (Spec.startPt h e) (Spec.endPt h e)).sum + ((m.map fun e => φ (Spec.endPt h e) xy).sum -
          (m.map fun e => φ (Spec.startPt h e) xy).sum) := by
      intro m
      induction m with
      | nil => simp
      | cons e m ih => simp only [List.map_cons, List.sum_cons, ih]; abel
    rw [hsub]
    change (l.map fun e => φ (Spec.endPt h e) xy).sum = (l.map fun e => φ (Spec.startPt h e) xy).sum at key
    rw [key, sub_self, add_zero]
  · -- the faces kept
    congr 1
    apply List.map_congr_left
    intro f hf
    have hf' := hf
    rw [List.mem_filter, decide_eq_true_eq] at hf
    obtain ⟨a, b, c, t, -⟩ := H.tri hf.1
    obtain ⟨t', p1, p2, p3⟩ := R.keptTri H B hf.1 hf.2 t
    rw [R.valid.faceSumTri φ (List.mem_append.mpr (Or.inl hf')) t', p1, p2, p3, ← H.faceSumTri φ hf.1 t]

end Gbs
