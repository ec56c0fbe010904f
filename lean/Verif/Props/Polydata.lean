import Verif.Model.Polydata
import Verif.Props.MeshRing
import Verif.Lemmas.Reparam
import Mathlib.Data.List.Zip
import Mathlib.Data.Set.Function

/-!
# C118: points and cells of a mesh
-/

namespace Gbs

variable {P Q : Type}

/-- The pairs of a map whose keys are `D`, numbered in this order. -/
def enc (D : List ℕ) : VertexMap := (D.map some).zipIdx

theorem lookup_enc {D : List ℕ} (hD : D.Nodup) (v : ℕ) : (enc D).lookup (some v) = if v ∈ D then some (D.idxOf v) else none := by
  have key : ∀ (D : List ℕ) (k : ℕ), (((D.map some).zipIdx k).find? fun p => p.1 == some v).map Prod.snd =
      if v ∈ D then some (D.idxOf v + k) else none := by
    intro D
    induction D with
    | nil => intro k; simp
    | cons a D ih =>
      intro k
      rw [List.map_cons, List.zipIdx_cons, List.find?_cons]
      by_cases ha : a = v
      · subst ha; simp
      · have : ((some a, k).1 == some v) = false := by simp [ha]
        simp only [this, ih]
        by_cases hv : v ∈ D
        · rw [if_pos hv, if_pos (List.mem_cons_of_mem _ hv), List.idxOf_cons_ne _ ha]
          congr 1; omega
        · rw [if_neg hv, if_neg (by simp [hv, Ne.symm ha])]
  simpa [VertexMap.lookup, enc] using key D 0

theorem foldl_add_enc : ∀ (vs D : List ℕ), D.Nodup → ∃ D' : List ℕ, D'.Nodup ∧ (∀ v, v ∈ D' ↔ v ∈ D ∨ v ∈ vs) ∧
    (vs.map some).foldl VertexMap.add (enc D, D.length) = (enc D', D'.length) ∧ D <+: D' := by
  intro vs
  induction vs with
  | nil => intro D hD; exact ⟨D, hD, by simp, rfl, List.prefix_rfl⟩
  | cons a vs ih =>
    intro D hD
    by_cases ha : a ∈ D
    · obtain ⟨D', h1, h2, h3, h4⟩ := ih D hD
      refine ⟨D', h1, fun v => ?_, ?_, h4⟩
      · rw [h2, List.mem_cons]
        constructor
        · tauto
        · rintro (h | rfl | h)
          exacts [.inl h, .inl ha, .inr h]
      · rw [List.map_cons, List.foldl_cons, VertexMap.add, lookup_enc hD, if_pos ha, if_pos (by rfl), h3]
    · obtain ⟨D', h1, h2, h3, h4⟩ := ih (D ++ [a]) (List.nodup_append.mpr ⟨hD, by simp, by
        intro x hx y hy
        rw [List.mem_singleton] at hy
        rintro rfl
        exact ha (hy ▸ hx)⟩)
      refine ⟨D', h1, fun v => ?_, ?_, (List.prefix_append D [a]).trans h4⟩
      · rw [h2]; simp only [List.mem_append, List.mem_cons, List.not_mem_nil, or_false]; tauto
      · rw [List.map_cons, List.foldl_cons, VertexMap.add, lookup_enc hD, if_neg ha, if_neg (by simp)]
        have : enc (D ++ [a]) = enc D ++ [(some a, D.length)] := by simp [enc, List.zipIdx_append]
        rw [← this, show D.length + 1 = (D ++ [a]).length by simp, h3]

/-- Points stored one by one at distinct places. -/
theorem store_all {h : Mesh P} {g : P → R Q} : ∀ (l : List (ℕ × ℕ)) (A : List (Option Q)), (l.map Prod.snd).Nodup → (∀ p ∈ l, p.2 < A.length) →
    (∀ p ∈ l, ∃ x, g (h.co p.1) = .ok x) →
    ∃ B, (l.map fun p => (some p.1, p.2)).foldlM (fun a (p : Option ℕ × ℕ) => do
        let v ← deref p.1
        let x ← g (h.co v)
        wr a p.2 (some x)) A = .ok B ∧ B.length = A.length ∧ (∀ p ∈ l, ∃ x, g (h.co p.1) = .ok x ∧ B[p.2]? = some (some x)) ∧
      ∀ i, i ∉ l.map Prod.snd → B[i]? = A[i]? := by
  intro l
  induction l with
  | nil => intro A _ _ _; exact ⟨A, rfl, rfl, by simp, fun _ _ => rfl⟩
  | cons p l ih =>
    intro A hn hlt hg
    rw [List.map_cons, List.nodup_cons] at hn
    obtain ⟨x, hx⟩ := hg p List.mem_cons_self
    have hp := hlt p List.mem_cons_self
    obtain ⟨B, h1, h2, h3, h4⟩ := ih (A.set p.2 (some x)) hn.2 (fun q hq => by
      rw [List.length_set]; exact hlt q (List.mem_cons_of_mem _ hq)) (fun q hq => hg q (List.mem_cons_of_mem _ hq))
    refine ⟨B, ?_, by rw [h2, List.length_set], ?_, ?_⟩
    · rw [List.map_cons, List.foldlM_cons]
      have : (do
          let v ← deref (some p.1)
          let x ← g (h.co v)
          wr A p.2 (some x)) = (.ok (A.set p.2 (some x)) : R (List (Option Q))) := by
        show (do
          let x ← g (h.co p.1)
          wr A p.2 (some x)) = _
        rw [hx, R_bind_ok, wr, if_pos hp]
      rw [this, R_bind_ok, h1]
    · intro q hq
      rcases List.mem_cons.mp hq with rfl | hq
      · refine ⟨x, hx, ?_⟩
        rw [h4 _ hn.1]
        simp [hp]
      · exact h3 q hq
    · intro i hi
      rw [List.map_cons, List.mem_cons, not_or] at hi
      rw [h4 i hi.2, List.getElem?_set_ne (fun hc => hi.1 hc.symm)]

/-- The points of the vertices `D`, whatever the order of the visit. -/
theorem generatePoints_enc {h : Mesh P} {g : P → R Q} {D : List ℕ} {pts : List Q}
    (hp : ∀ (i v : ℕ), D[i]? = some v → ∃ x, g (h.co v) = .ok x ∧ pts[i]? = some x) (hl : pts.length = D.length)
    {ord : VertexMap → VertexMap} (ho : ∀ m, (ord m).Perm m) : h.generatePoints ord g (enc D) = .ok (pts.map some) := by
  have hlen : (enc D).length = D.length := by simp [enc]
  obtain ⟨l, hlm⟩ : ∃ l : List (ℕ × ℕ), ord (enc D) = l.map fun p => (some p.1, p.2) := by
    have : ∀ p ∈ ord (enc D), ∃ v, p.1 = some v := by
      intro p hp
      have := (ho _).mem_iff.mp hp
      obtain ⟨a, i⟩ := p
      have := List.mem_zipIdx_iff_getElem?.mp this
      simp only [List.getElem?_map, Option.map_eq_some_iff] at this
      obtain ⟨v, -, rfl⟩ := this
      exact ⟨v, rfl⟩
    generalize ord (enc D) = L at this
    induction L with
    | nil => exact ⟨[], rfl⟩
    | cons p L ih =>
      obtain ⟨l, hl⟩ := ih fun q hq => this q (List.mem_cons_of_mem _ hq)
      obtain ⟨v, hv⟩ := this p List.mem_cons_self
      exact ⟨(v, p.2) :: l, by rw [List.map_cons, ← hl, ← hv]⟩
  have hmem : ∀ p ∈ l, D[p.2]? = some p.1 := by
    intro p hp
    have h1 : (some p.1, p.2) ∈ ord (enc D) := by rw [hlm]; exact List.mem_map_of_mem hp
    have := List.mem_zipIdx_iff_getElem?.mp ((ho _).mem_iff.mp h1)
    simp only [List.getElem?_map, Option.map_eq_some_iff] at this
    obtain ⟨v, hv, hv'⟩ := this
    rw [hv, hv']
  have hmem' : ∀ (i v : ℕ), D[i]? = some v → (v, i) ∈ l := by
    intro i v hv
    have h1 : (some v, i) ∈ enc D := List.mem_zipIdx_iff_getElem?.mpr (by simp [hv])
    have := (ho _).mem_iff.mpr h1
    rw [hlm, List.mem_map] at this
    obtain ⟨⟨a, b⟩, hq, hq'⟩ := this
    simp only [Prod.mk.injEq, Option.some.injEq] at hq'
    rwa [hq'.1, hq'.2] at hq
  have hnd : (l.map Prod.snd).Nodup := by
    have h1 : ((ord (enc D)).map Prod.snd).Perm ((enc D).map Prod.snd) := (ho _).map _
    have h2 : (enc D).map Prod.snd = List.range' 0 D.length := by
      rw [enc, List.zipIdx_map_snd]; simp
    rw [h2, hlm, List.map_map] at h1
    exact h1.nodup_iff.mpr List.nodup_range'
  obtain ⟨B, h1, h2, h3, h4⟩ := store_all (h := h) (g := g) l (List.replicate (enc D).length none) hnd (by
    intro p hp
    rw [List.length_replicate, hlen]
    exact (List.getElem?_eq_some_iff.mp (hmem p hp)).1) (fun p hq => by
      obtain ⟨x, hx, -⟩ := hp _ _ (hmem p hq)
      exact ⟨x, hx⟩)
  unfold Mesh.generatePoints
  rw [hlm, h1]
  congr 1
  apply List.ext_getElem?
  intro i
  rw [List.length_replicate, hlen] at h2
  by_cases hi : i < D.length
  · obtain ⟨x, hx, hx'⟩ := h3 _ (hmem' i D[i] (by simp [hi]))
    obtain ⟨y, hy, hy'⟩ := hp i D[i] (by simp [hi])
    rw [hx', List.getElem?_map, hy']
    rw [hx] at hy
    cases hy
    rfl
  · rw [List.getElem?_eq_none (by omega), List.getElem?_eq_none (by rw [List.length_map]; omega)]

theorem points_exist {h : Mesh P} {g : P → R Q} {D : List ℕ} (hg : ∀ v ∈ D, ∃ x, g (h.co v) = .ok x) :
    ∃ pts : List Q, pts.length = D.length ∧ ∀ (i v : ℕ), D[i]? = some v → ∃ x, g (h.co v) = .ok x ∧ pts[i]? = some x := by
  induction D with
  | nil => exact ⟨[], rfl, by simp⟩
  | cons a D ih =>
    obtain ⟨pts, h1, h2⟩ := ih fun v hv => hg v (List.mem_cons_of_mem _ hv)
    obtain ⟨x, hx⟩ := hg a List.mem_cons_self
    refine ⟨x :: pts, by simp [h1], ?_⟩
    rintro (_ | i) v hv
    · simp only [List.getElem?_cons_zero, Option.some.injEq] at hv
      subst hv
      exact ⟨x, hx, by simp⟩
    · simpa using h2 i v (by simpa using hv)

/-- `num` numbers the vertices of `S` from 0 to `pts.length - 1`, and the point of that number is the one of the vertex. -/
structure Spec.Numbers (h : Mesh P) (g : P → R Q) (S : Set ℕ) (num : ℕ → ℕ) (pts : List Q) : Prop where
  bij : Set.BijOn num S {i | i < pts.length}
  point : ∀ v ∈ S, ∃ x, g (h.co v) = .ok x ∧ pts[num v]? = some x

theorem numbers_idxOf {h : Mesh P} {g : P → R Q} {D : List ℕ} (hD : D.Nodup) {pts : List Q} (hl : pts.length = D.length)
    (hp : ∀ (i v : ℕ), D[i]? = some v → ∃ x, g (h.co v) = .ok x ∧ pts[i]? = some x) {S : Set ℕ} (hS : ∀ v, v ∈ D ↔ v ∈ S) :
    Spec.Numbers h g S D.idxOf pts where
  bij := by
    refine ⟨fun v hv => ?_, fun v hv w hw hvw => ?_, fun i hi => ?_⟩
    · rw [Set.mem_ofPred_eq, hl]; exact List.idxOf_lt_length_of_mem ((hS v).mpr hv)
    · exact (List.idxOf_inj ((hS v).mpr hv)).mp hvw
    · rw [Set.mem_ofPred_eq, hl] at hi
      exact ⟨D[i], (hS _).mp (List.getElem_mem hi), List.Nodup.idxOf_getElem hD i hi⟩
  point := fun v hv => by
    have h1 := (hS v).mpr hv
    exact hp _ _ (by rw [List.getElem?_eq_getElem (List.idxOf_lt_length_of_mem h1)]; simp)

/-- `W` has the vertices of each face of `F`, in the order of its ring. -/
def Spec.FaceVertices (h : Mesh P) (F : List ℕ) (W : List (List ℕ)) : Prop :=
  List.Forall₂ (fun f w => ∃ l : List ℕ, l ≠ [] ∧ l.Nodup ∧ (∀ e ∈ l, e < h.nE) ∧ Spec.IsRing h f l ∧
    l.map (fun e => (h.he e).vertex) = w.map some) F W

theorem getFaceVertices_ring {h : Mesh P} {f : ℕ} {l w : List ℕ} (hl : l ≠ []) (hn : l.Nodup) (hlt : ∀ e ∈ l, e < h.nE) (hr : Spec.IsRing h f l)
    (hw : l.map (fun e => (h.he e).vertex) = w.map some) : h.getFaceVertices f = .ok (w.map some) := by
  have hl' : 0 < l.length := List.length_pos_iff.mpr hl
  have hfe : h.fe f = some l[0] := by rw [hr.1, List.head?_eq_getElem?]; simp [hl']
  unfold Mesh.getFaceVertices Mesh.getFaceEdges
  rw [hfe, h.faceEdgesFrom_ring hl' hn (fun i hi => (hr.2 i l[i] _ (by simp [hi]) (List.getElem?_eq_getElem (Nat.mod_lt _ hl'))).1) l.length 0 _ hl'
    (by omega) (by have := Mesh.length_le_of_lt hn hlt; omega), R_bind_ok, List.drop_zero, hw]
  rfl

theorem faceVertices_ok {h : Mesh P} {F : List ℕ} {W : List (List ℕ)} (H : Spec.FaceVertices h F W) :
    List.Forall₂ (fun f w => h.getFaceVertices f = .ok (w.map some)) F W :=
  H.imp fun _ _ ⟨_, h1, h2, h3, h4, h5⟩ => getFaceVertices_ring h1 h2 h3 h4 h5

theorem verticesMap_enc {h : Mesh P} {F : List ℕ} {W : List (List ℕ)} (H : Spec.FaceVertices h F W) :
    ∃ D : List ℕ, D.Nodup ∧ (∀ v, v ∈ D ↔ v ∈ W.flatten) ∧ h.verticesMap F = .ok (enc D) := by
  have key : ∀ {F : List ℕ} {W : List (List ℕ)}, List.Forall₂ (fun f w => h.getFaceVertices f = .ok (w.map some)) F W → ∀ D : List ℕ, D.Nodup →
      ∃ D' : List ℕ, D'.Nodup ∧ (∀ v, v ∈ D' ↔ v ∈ D ∨ v ∈ W.flatten) ∧ F.foldlM (fun s f => do
        let vs ← h.getFaceVertices f
        pure (vs.foldl VertexMap.add s)) (enc D, D.length) = (.ok (enc D', D'.length) : R (VertexMap × ℕ)) := by
    intro F W H
    induction H with
    | nil => intro D hD; exact ⟨D, hD, by simp, rfl⟩
    | cons hfw htl ih =>
      rename_i f w F W
      intro D hD
      obtain ⟨D1, a1, a2, a3, -⟩ := foldl_add_enc w D hD
      obtain ⟨D2, b1, b2, b3⟩ := ih D1 a1
      refine ⟨D2, b1, fun v => by rw [b2, a2, List.flatten_cons, List.mem_append, or_assoc], ?_⟩
      rw [List.foldlM_cons, hfw, R_bind_ok, a3]
      exact b3
  obtain ⟨D, h1, h2, h3⟩ := key (faceVertices_ok H) [] List.nodup_nil
  refine ⟨D, h1, fun v => by rw [h2]; simp, ?_⟩
  unfold Mesh.verticesMap
  rw [show (([], 0) : VertexMap × ℕ) = (enc [], ([] : List ℕ).length) from rfl, h3]
  rfl

/-- C118: `make_polydata_from_faces`, for faces with any number of vertices, each vertex once: the points are those of the vertices of the faces, one for each
vertex, and each cell has the numbers of the vertices of its face, in the order of the face. The result does not depend on the addresses of the vertices. -/
theorem C118_faces {h : Mesh P} {F : List ℕ} {W : List (List ℕ)} (H : Spec.FaceVertices h F W) {g : P → R Q}
    (hg : ∀ w ∈ W, ∀ v ∈ w, ∃ x, g (h.co v) = .ok x) :
    ∃ (pts : List Q) (num : ℕ → ℕ), Spec.Numbers h g {v | ∃ w ∈ W, v ∈ w} num pts ∧
      ∀ ord : VertexMap → VertexMap, (∀ m, (ord m).Perm m) → h.polydata ord g F = .ok (pts.map some, W.map (List.map num)) := by
  obtain ⟨D, hD, hmem, hm⟩ := verticesMap_enc H
  have hS : ∀ v, v ∈ D ↔ v ∈ {v | ∃ w ∈ W, v ∈ w} := fun v => by rw [hmem, List.mem_flatten]; rfl
  obtain ⟨pts, hl, hp⟩ := points_exist (h := h) (g := g) (D := D) fun v hv => by
    obtain ⟨w, hw, hv⟩ := (hS v).mp hv
    exact hg w hw v hv
  refine ⟨pts, D.idxOf, numbers_idxOf hD hl hp hS, fun ord ho => ?_⟩
  have hcells : h.generateCells F (enc D) = .ok (W.map (List.map D.idxOf)) := by
    unfold Mesh.generateCells
    have hin : ∀ w ∈ W, ∀ v ∈ w, v ∈ D := fun w hw v hv => (hS v).mpr ⟨w, hw, hv⟩
    have := faceVertices_ok H
    clear hm hmem hS hg H
    induction this with
    | nil => rfl
    | cons hfw htl ih =>
      rename_i f w F W
      have hw : (w.map some).mapM (enc D).at! = .ok (w.map D.idxOf) := by
        have hin' := hin w List.mem_cons_self
        clear hfw
        induction w with
        | nil => rfl
        | cons a w ihw =>
          rw [List.map_cons, List.mapM_cons, VertexMap.at!, lookup_enc hD, if_pos (hin' a List.mem_cons_self)]
          show (do
            let b ← (w.map some).mapM (enc D).at!
            pure (D.idxOf a :: b)) = _
          rw [ihw (fun w' hw' v hv => by
            rcases List.mem_cons.mp hw' with rfl | hw'
            · exact hin' v (List.mem_cons_of_mem _ hv)
            · exact hin w' (List.mem_cons_of_mem _ hw') v hv) (fun v hv => hin' v (List.mem_cons_of_mem _ hv))]
          rfl
      rw [List.mapM_cons, hfw, R_bind_ok, hw, R_bind_ok, ih fun w' hw' => hin w' (List.mem_cons_of_mem _ hw')]
      rfl
  unfold Mesh.polydata
  rw [hm, R_bind_ok, generatePoints_enc hp hl ho, R_bind_ok, hcells]
  rfl

/-- C118: `getVerticesVectorFromFaces` returns each vertex of the faces once, in the order of the addresses. -/
theorem C118_vector {h : Mesh P} {F : List ℕ} {W : List (List ℕ)} (H : Spec.FaceVertices h F W) {ord : VertexMap → VertexMap}
    (ho : ∀ m, (ord m).Perm m) : ∃ vs : List ℕ, h.verticesVector ord F = .ok (vs.map some) ∧ vs.Nodup ∧ ∀ v, v ∈ vs ↔ ∃ w ∈ W, v ∈ w := by
  obtain ⟨D, hD, hmem, hm⟩ := verticesMap_enc H
  have hp : ((ord (enc D)).map Prod.fst).Perm (D.map some) := by
    have h1 : (enc D).map Prod.fst = D.map some := by rw [enc, List.zipIdx_map_fst]
    rw [← h1]; exact (ho _).map _
  obtain ⟨vs, hvs⟩ : ∃ vs : List ℕ, (ord (enc D)).map Prod.fst = vs.map some := by
    have : ∀ x ∈ (ord (enc D)).map Prod.fst, ∃ v : ℕ, x = some v := fun x hx => by
      obtain ⟨v, -, rfl⟩ := List.mem_map.mp (hp.mem_iff.mp hx)
      exact ⟨v, rfl⟩
    generalize (ord (enc D)).map Prod.fst = L at this
    induction L with
    | nil => exact ⟨[], rfl⟩
    | cons x L ih =>
      obtain ⟨vs, h1⟩ := ih fun y hy => this y (List.mem_cons_of_mem _ hy)
      obtain ⟨v, rfl⟩ := this x List.mem_cons_self
      exact ⟨v :: vs, by rw [List.map_cons, ← h1]⟩
  rw [hvs] at hp
  have hperm : vs.Perm D := (List.map_perm_map_iff (Option.some_injective ℕ)).mp hp
  refine ⟨vs, ?_, hperm.nodup_iff.mpr hD, fun v => by rw [hperm.mem_iff, hmem, List.mem_flatten]⟩
  unfold Mesh.verticesVector
  rw [hm, R_bind_ok, hvs]
  rfl

/-- The identifiers of the edges stored one after the other. -/
theorem store_ids {h : Mesh P} {D : List ℕ} (hD : D.Nodup) (ex : VertexMap) : ∀ (es vs : List ℕ) (a : List (Option ℕ)) (b : List (Option ℕ)),
    es.map (fun e => (h.he e).vertex) = vs.map some → (∀ v ∈ vs, v ∈ D) → es.length ≤ b.length →
    es.foldlM (fun (s : VertexMap × List (Option ℕ) × ℕ) e => do
      let ids ← wr s.2.1 s.2.2 (some (s.1.index (h.he e).vertex).2)
      pure ((s.1.index (h.he e).vertex).1, ids, s.2.2 + 1)) (enc D ++ ex, a ++ b, a.length) =
    (.ok (enc D ++ ex, a ++ vs.map (fun v => some (D.idxOf v)) ++ b.drop es.length, a.length + es.length) : R (VertexMap × List (Option ℕ) × ℕ)) := by
  intro es
  induction es with
  | nil =>
    intro vs a b hv _ _
    obtain rfl : vs = [] := by simpa using hv.symm
    simp [pure, Except.pure]
  | cons e es ih =>
    intro vs a b hv hin hb
    match vs, b, hv, hin, hb with
    | v :: vs, x :: b, hv, hin, hb =>
      rw [List.map_cons, List.map_cons, List.cons.injEq] at hv
      have hlk : (enc D ++ ex).lookup (some v) = some (D.idxOf v) := by
        have := lookup_enc hD v
        rw [if_pos (hin v List.mem_cons_self)] at this
        unfold VertexMap.lookup at this ⊢
        rw [Option.map_eq_some_iff] at this
        obtain ⟨q, hq, hq'⟩ := this
        rw [List.find?_append, hq, Option.some_or, Option.map_some, hq']
      have hix : VertexMap.index (enc D ++ ex) (some v) = (enc D ++ ex, D.idxOf v) := by rw [VertexMap.index, hlk]
      rw [List.foldlM_cons]
      simp only [hv.1, hix]
      rw [wr, if_pos (by simp), R_bind_ok]
      have hset : (a ++ x :: b).set a.length (some (D.idxOf v)) = (a ++ [some (D.idxOf v)]) ++ b := by simp
      rw [hset]
      have := ih vs (a ++ [some (D.idxOf v)]) b hv.2 (fun w hw => hin w (List.mem_cons_of_mem _ hw)) (by simpa using hb)
      rw [List.length_append, List.length_singleton] at this
      show es.foldlM _ _ = _
      rw [this]
      simp [Nat.add_comm, Nat.add_left_comm]

theorem loopMap_enc {h : Mesh P} {es vs : List ℕ} (hv : es.map (fun e => (h.he e).vertex) = vs.map some) :
    ∃ D : List ℕ, D.Nodup ∧ (∀ v, v ∈ D ↔ v ∈ vs) ∧ vs.head? = D.head? ∧
      (es.foldl (fun s e => VertexMap.add s (h.he e).vertex) (([], 0) : VertexMap × ℕ)).1 = enc D := by
  obtain ⟨D, h1, h2, h3, -⟩ := foldl_add_enc vs [] List.nodup_nil
  refine ⟨D, h1, fun v => by rw [h2]; simp, ?_, ?_⟩
  · cases vs with
    | nil =>
      have : D = [] := List.eq_nil_iff_forall_not_mem.mpr fun v hv => by simpa using (h2 v).mp hv
      rw [this]
    | cons a vs =>
      obtain ⟨D', b1, b2, b3, t, ht⟩ := foldl_add_enc vs [a] (List.nodup_singleton a)
      have hE : enc D = enc D' := by
        rw [List.map_cons, List.foldl_cons, show VertexMap.add (enc [], ([] : List ℕ).length) (some a) = (enc [a], [a].length) from rfl, b3] at h3
        exact (congrArg Prod.fst h3).symm
      have : D = D' := by
        have := congrArg (List.map Prod.fst) hE
        rw [enc, enc, List.zipIdx_map_fst, List.zipIdx_map_fst] at this
        exact List.map_injective_iff.mpr (Option.some_injective ℕ) this
      rw [this, ← ht]
      rfl
  · rw [← List.foldl_map (f := fun e => (h.he e).vertex) (g := VertexMap.add), hv]
    exact congrArg Prod.fst h3

section
variable {h : Mesh P} {e : ℕ} {es : List ℕ} {v : ℕ} {vs : List ℕ} {g : P → R Q}

/-- C118: `make_polydata_from_edges_loop` on a closed loop, where the half-edge before the first one ends where the last one does: the points are those of
the vertices, one for each, and the polyline goes through the vertices in the order of the loop, from the end of the last half-edge. -/
theorem C118_loop {p : ℕ} (hv : (e :: es).map (fun e => (h.he e).vertex) = (v :: vs).map some) (hp : (h.he e).prev = some p)
    (hpv : (h.he p).vertex = (v :: vs).getLast?) (hg : ∀ w ∈ v :: vs, ∃ x, g (h.co w) = .ok x) :
    ∃ (pts : List Q) (num : ℕ → ℕ), Spec.Numbers h g {w | w ∈ v :: vs} num pts ∧ ∀ ord : VertexMap → VertexMap, (∀ m, (ord m).Perm m) →
      h.polydataLoop ord g (e :: es) = .ok (pts.map some, (((v :: vs).getLast (by simp) :: v :: vs).map num).map some) := by
  obtain ⟨D, hD, hmem, -, hm⟩ := loopMap_enc hv
  obtain ⟨pts, hl, hpt⟩ := points_exist (h := h) (g := g) (D := D) fun w hw => hg w ((hmem w).mp hw)
  refine ⟨pts, D.idxOf, numbers_idxOf hD hl hpt hmem, fun ord ho => ?_⟩
  unfold Mesh.polydataLoop
  simp only [hm]
  rw [generatePoints_enc hpt hl ho, R_bind_ok, show rd (e :: es) 0 = .ok e from rd_eq_ok.mpr rfl, R_bind_ok]
  have hlast : (h.he p).vertex = some ((v :: vs).getLast (by simp)) := by rw [hpv, List.getLast?_eq_getLast_of_ne_nil]
  have hix : VertexMap.index (enc D) (h.he p).vertex = (enc D, D.idxOf ((v :: vs).getLast (by simp))) := by
    rw [hlast, VertexMap.index, lookup_enc hD, if_pos ((hmem _).mpr (List.getLast_mem _))]
  have hst : h.polylineStart e (enc D) (List.replicate ((e :: es).length + 1) none) =
      .ok (enc D, some (D.idxOf ((v :: vs).getLast (by simp))) :: List.replicate (e :: es).length none, 1) := by
    unfold Mesh.polylineStart
    rw [hp]
    simp only [hix]
    rw [wr, if_pos (by simp), R_bind_ok]
    rfl
  rw [hst, R_bind_ok]
  have := store_ids hD [] (e :: es) (v :: vs) [some (D.idxOf ((v :: vs).getLast (by simp)))] (List.replicate (e :: es).length none) hv
    (fun w hw => (hmem w).mpr hw) (by simp)
  rw [List.append_nil] at this
  simp only [List.singleton_append, List.length_singleton] at this
  rw [this, R_bind_ok]
  simp [List.map_map, Function.comp_def, pure, Except.pure]

/-- C118: when nothing precedes the first half-edge, the last identifier of the polyline is never stored. -/
theorem C118_unset (hv : (e :: es).map (fun e => (h.he e).vertex) = (v :: vs).map some) (hp : (h.he e).prev = none)
    (hg : ∀ w ∈ v :: vs, ∃ x, g (h.co w) = .ok x) :
    ∃ (pts : List Q) (num : ℕ → ℕ), Spec.Numbers h g {w | w ∈ v :: vs} num pts ∧ ∀ ord : VertexMap → VertexMap, (∀ m, (ord m).Perm m) →
      h.polydataLoop ord g (e :: es) = .ok (pts.map some, ((v :: vs).map num).map some ++ [none]) := by
  obtain ⟨D, hD, hmem, -, hm⟩ := loopMap_enc hv
  obtain ⟨pts, hl, hpt⟩ := points_exist (h := h) (g := g) (D := D) fun w hw => hg w ((hmem w).mp hw)
  refine ⟨pts, D.idxOf, numbers_idxOf hD hl hpt hmem, fun ord ho => ?_⟩
  unfold Mesh.polydataLoop
  simp only [hm]
  rw [generatePoints_enc hpt hl ho, R_bind_ok, show rd (e :: es) 0 = .ok e from rd_eq_ok.mpr rfl, R_bind_ok]
  have hst : h.polylineStart e (enc D) (List.replicate ((e :: es).length + 1) none) =
      .ok (enc D, List.replicate ((e :: es).length + 1) none, 0) := by
    unfold Mesh.polylineStart
    rw [hp]
    rfl
  rw [hst, R_bind_ok]
  have := store_ids hD [] (e :: es) (v :: vs) [] (List.replicate ((e :: es).length + 1) none) hv (fun w hw => (hmem w).mpr hw) (by simp)
  rw [List.append_nil] at this
  simp only [List.nil_append, List.length_nil] at this
  rw [this, R_bind_ok]
  simp [List.map_map, Function.comp_def, pure, Except.pure]

/-- C118: when the half-edges do not close, because the half-edge before the first one ends at a vertex where none of them ends, that vertex is not one of
the points: the polyline starts twice at the end of the first half-edge. -/
theorem C118_open {p a : ℕ} (hv : (e :: es).map (fun e => (h.he e).vertex) = (v :: vs).map some) (hp : (h.he e).prev = some p)
    (hpv : (h.he p).vertex = some a) (ha : a ∉ v :: vs) (hg : ∀ w ∈ v :: vs, ∃ x, g (h.co w) = .ok x) :
    ∃ (pts : List Q) (num : ℕ → ℕ), Spec.Numbers h g {w | w ∈ v :: vs} num pts ∧ ∀ ord : VertexMap → VertexMap, (∀ m, (ord m).Perm m) →
      h.polydataLoop ord g (e :: es) = .ok (pts.map some, ((v :: v :: vs).map num).map some) := by
  obtain ⟨D, hD, hmem, hh, hm⟩ := loopMap_enc hv
  obtain ⟨pts, hl, hpt⟩ := points_exist (h := h) (g := g) (D := D) fun w hw => hg w ((hmem w).mp hw)
  refine ⟨pts, D.idxOf, numbers_idxOf hD hl hpt hmem, fun ord ho => ?_⟩
  unfold Mesh.polydataLoop
  simp only [hm]
  rw [generatePoints_enc hpt hl ho, R_bind_ok, show rd (e :: es) 0 = .ok e from rd_eq_ok.mpr rfl, R_bind_ok]
  have hv0 : D.idxOf v = 0 := by
    cases D with
    | nil => simp at hh
    | cons d D =>
      simp only [List.head?_cons, Option.some.injEq] at hh
      rw [hh, List.idxOf_cons_self]
  have hix : VertexMap.index (enc D) (h.he p).vertex = (enc D ++ [(some a, 0)], D.idxOf v) := by
    rw [hpv, VertexMap.index, lookup_enc hD, if_neg (fun hc => ha ((hmem a).mp hc)), hv0]
  have hst : h.polylineStart e (enc D) (List.replicate ((e :: es).length + 1) none) =
      .ok (enc D ++ [(some a, 0)], some (D.idxOf v) :: List.replicate (e :: es).length none, 1) := by
    unfold Mesh.polylineStart
    rw [hp]
    simp only [hix]
    rw [wr, if_pos (by simp), R_bind_ok]
    rfl
  rw [hst, R_bind_ok]
  have := store_ids hD [(some a, 0)] (e :: es) (v :: vs) [some (D.idxOf v)] (List.replicate (e :: es).length none) hv
    (fun w hw => (hmem w).mpr hw) (by simp)
  simp only [List.singleton_append, List.length_singleton] at this
  rw [this, R_bind_ok]
  simp [List.map_map, Function.comp_def, pure, Except.pure]

end

namespace Sample

/-- A square with four sides and a triangle on its second side. -/
def mesh118 : Mesh ℕ where
  he e := [⟨some 1, some 0, some 1, some 3, none⟩, ⟨some 2, some 0, some 2, some 0, some 4⟩, ⟨some 3, some 0, some 3, some 1, none⟩,
    ⟨some 0, some 0, some 0, some 2, none⟩, ⟨some 1, some 1, some 5, some 6, some 1⟩, ⟨some 4, some 1, some 6, some 4, none⟩,
    ⟨some 2, some 1, some 4, some 5, none⟩, ⟨some 6, none, none, none, none⟩].getD e {}
  co v := 10 * v
  ve _ := none
  fe f := [some 0, some 4].getD f none
  nE := 8
  nV := 7
  nF := 2

theorem faces118 : Spec.FaceVertices mesh118 [0, 1] [[1, 2, 3, 0], [1, 4, 2]] := by
  refine .cons ⟨[0, 1, 2, 3], by simp, by decide, by decide, ⟨rfl, ?_⟩, rfl⟩ (.cons ⟨[4, 5, 6], by simp, by decide, by decide, ⟨rfl, ?_⟩, rfl⟩ .nil)
  · intro i a b ha hb
    match i with
    | 0 | 1 | 2 | 3 => simp at ha hb; subst ha hb; decide
    | n + 4 => simp at ha
  · intro i a b ha hb
    match i with
    | 0 | 1 | 2 => simp at ha hb; subst ha hb; decide
    | n + 3 => simp at ha

example : ∃ (pts : List ℕ) (num : ℕ → ℕ), Spec.Numbers mesh118 pure {v | ∃ w ∈ [[1, 2, 3, 0], [1, 4, 2]], v ∈ w} num pts ∧
    ∀ ord : VertexMap → VertexMap, (∀ m, (ord m).Perm m) →
      mesh118.polydata ord pure [0, 1] = .ok (pts.map some, [[1, 2, 3, 0], [1, 4, 2]].map (List.map num)) :=
  C118_faces faces118 fun _ _ v _ => ⟨_, rfl⟩

/-- The points and the cells, whatever the order of the map. -/
example : mesh118.polydata List.reverse (pure : ℕ → R ℕ) [0, 1] =
    .ok ([some 10, some 20, some 30, some 0, some 40], [[0, 1, 2, 3], [0, 4, 1]]) := by decide +kernel

example : ∃ vs : List ℕ, mesh118.verticesVector List.reverse [0, 1] = .ok (vs.map some) ∧ vs.Nodup ∧
    ∀ v, v ∈ vs ↔ ∃ w ∈ [[1, 2, 3, 0], [1, 4, 2]], v ∈ w :=
  C118_vector faces118 fun m => List.reverse_perm m

/-- The sides of the square. -/
example : ∃ (pts : List ℕ) (num : ℕ → ℕ), Spec.Numbers mesh118 pure {w | w ∈ [1, 2, 3, 0]} num pts ∧
    ∀ ord : VertexMap → VertexMap, (∀ m, (ord m).Perm m) →
      mesh118.polydataLoop ord pure [0, 1, 2, 3] = .ok (pts.map some, ([0, 1, 2, 3, 0].map num).map some) :=
  C118_loop (p := 3) rfl rfl rfl fun v _ => ⟨_, rfl⟩

/-- A half-edge without neighbours. -/
example : ∃ (pts : List ℕ) (num : ℕ → ℕ), Spec.Numbers mesh118 pure {w | w ∈ [6]} num pts ∧
    ∀ ord : VertexMap → VertexMap, (∀ m, (ord m).Perm m) → mesh118.polydataLoop ord pure [7] = .ok (pts.map some, ([6].map num).map some ++ [none]) :=
  C118_unset rfl rfl fun v _ => ⟨_, rfl⟩

/-- Two sides of the square, from the vertex 0 to the vertex 2: the polyline misses the vertex 0. -/
example : ∃ (pts : List ℕ) (num : ℕ → ℕ), Spec.Numbers mesh118 pure {w | w ∈ [1, 2]} num pts ∧
    ∀ ord : VertexMap → VertexMap, (∀ m, (ord m).Perm m) → mesh118.polydataLoop ord pure [0, 1] = .ok (pts.map some, ([1, 1, 2].map num).map some) :=
  C118_open (p := 3) (a := 0) rfl rfl rfl (by decide) fun v _ => ⟨_, rfl⟩

/-- C118: the sides from the vertex 0 to the vertex 2 make a polyline without the point of the vertex 0, whose first two points are the same. -/
theorem _root_.Gbs.C118_witness : mesh118.polydataLoop id (pure : ℕ → R ℕ) [0, 1] = .ok ([some 10, some 20], [some 0, some 0, some 1]) ∧
    mesh118.startV 0 = .ok (some 0) ∧ mesh118.co 0 = 0 := by decide +kernel

end Sample

end Gbs
