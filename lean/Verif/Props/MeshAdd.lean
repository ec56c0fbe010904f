import Verif.Props.MeshFan
import Verif.Props.MeshFlip

/-!
# C39, C40: adding a face and adding a vertex
-/

namespace Gbs

variable {P : Type} {h : Mesh P} {F : List ℕ}

/-- What `add_face` does. -/
theorem addFaceBody_spec (h : Mesh P) {e p s t : ℕ} (x : P) (he : e < h.nE) (hp : (h.he e).prev = some p)
    (hs : (h.he p).vertex = some s) (ht : (h.he e).vertex = some t) :
    ∃ h', h.addFaceBody e x = .ok (h', some h.nF) ∧ h'.nE = h.nE + 3 ∧ h'.nF = h.nF + 1 ∧ h'.nV = h.nV + 1 ∧
      h'.co = Function.update h.co h.nV x ∧ h'.fe = Function.update h.fe h.nF (some (h.nE + 1)) ∧
      h'.he e = { h.he e with opp := some h.nE } ∧
      h'.he h.nE = ⟨some s, some h.nF, some (h.nE + 2), some (h.nE + 1), some e⟩ ∧
      h'.he (h.nE + 1) = ⟨some t, some h.nF, some h.nE, some (h.nE + 2), none⟩ ∧
      h'.he (h.nE + 2) = ⟨some h.nV, some h.nF, some (h.nE + 1), some h.nE, none⟩ ∧
      (∀ y, y ≠ e → y < h.nE → h'.he y = h.he y) ∧ (∀ y, h.nE + 3 ≤ y → h'.he y = h.he y) ∧
      h'.ve h.nV = some (h.nE + 2) ∧ (∀ u y, u < h.nV → h.ve u = some y → h'.ve u = some y) := by
  set h1 := (h.newEdge s).1 with h1d
  set h2 := (h1.setE h.nE fun r => { r with opp := some e }).setE e fun r => { r with opp := some h.nE } with h2d
  set h3 := (h2.newEdge t).1 with h3d
  set h4 := (h3.newVertex x).1 with h4d
  set h5 := (h4.newEdge h.nV).1 with h5d
  have n1 : h1.nE = h.nE + 1 := Mesh.newEdge_nE _ _ _
  have n2 : h2.nE = h.nE + 1 := n1
  have n3 : h3.nE = h.nE + 2 := by rw [h3d, Mesh.newEdge_nE, n2]
  have n4 : h4.nE = h.nE + 2 := n3
  have n5 : h5.nE = h.nE + 3 := by rw [h5d, Mesh.newEdge_nE, n4]
  have v3 : h3.nV = h.nV := by rw [h3d, Mesh.newEdge_nV]; exact Mesh.newEdge_nV _ _ _
  have v4 : h4.nV = h.nV + 1 := by show h3.nV + 1 = _; rw [v3]
  have v5 : h5.nV = h.nV + 1 := by rw [h5d, Mesh.newEdge_nV, v4]
  have f5 : h5.nF = h.nF := by
    rw [h5d, Mesh.newEdge_nF]; show h3.nF = _; rw [h3d, Mesh.newEdge_nF]; exact Mesh.newEdge_nF _ _ _
  have c5 : h5.co = Function.update h.co h.nV x := by
    rw [h5d, Mesh.newEdge_co]; show Function.update h3.co h3.nV x = _; rw [v3, h3d, Mesh.newEdge_co]
    exact congrArg (fun c => Function.update c h.nV x) (Mesh.newEdge_co _ _ _)
  have fe5 : h5.fe = h.fe := by
    rw [h5d, Mesh.newEdge_fe]; show h3.fe = _; rw [h3d, Mesh.newEdge_fe]; exact Mesh.newEdge_fe _ _ _
  have he5 : ∀ y, h5.he y = if y = h.nE + 2 then ⟨some h.nV, none, none, none, none⟩ else if y = h.nE + 1 then ⟨some t, none, none, none, none⟩
      else if y = e then { h.he e with opp := some h.nE } else if y = h.nE then ⟨some s, none, none, none, some e⟩ else h.he y := by
    intro y
    have hee : e ≠ h.nE := by omega
    rw [h5d, Mesh.newEdge_he, n4, Function.update_apply]
    show (if _ then _ else h3.he y) = _
    rw [h3d, Mesh.newEdge_he, n2, Function.update_apply, h2d]
    simp only [Mesh.setE, Function.update_apply, h1d, Mesh.newEdge_he, hee, if_false, if_true]
    by_cases h1 : y = h.nE + 2
    · simp [h1]
    by_cases h2 : y = h.nE + 1
    · simp [h2]
    by_cases h3 : y = e
    · simp [h3]
    by_cases h4 : y = h.nE
    · simp [h4]
    simp [h1, h2, h3, h4]
  have ve5 : ∀ u, u < h.nV → ∀ y, h.ve u = some y → h5.ve u = some y := by
    intro u hu y hy
    have q1 : h1.ve u = some y := by
      rw [h1d, Mesh.newEdge_ve, if_neg, hy]
      rintro ⟨rfl, hc⟩; rw [hc] at hy; cases hy
    have q2 : h3.ve u = some y := by
      rw [h3d, Mesh.newEdge_ve, if_neg]
      · exact q1
      · rintro ⟨rfl, hc⟩
        have : h1.ve u = none := hc
        rw [this] at q1; cases q1
    have q3 : h4.ve u = some y := by
      show Function.update h3.ve h3.nV none u = _
      rw [v3, Function.update_of_ne (by omega), q2]
    rw [h5d, Mesh.newEdge_ve, if_neg, q3]
    rintro ⟨hc, -⟩; omega
  have ve5' : h5.ve h.nV = some (h.nE + 2) := by
    have q0 : h4.ve h.nV = none := by
      show Function.update h3.ve h3.nV none h.nV = _
      rw [v3, Function.update_self]
    rw [h5d, Mesh.newEdge_ve, if_pos ⟨rfl, q0⟩, n4]
  obtain ⟨h', q1, q2, q3, q4, q5, q6, q7, q8, q9, q10, q11⟩ := h5.makeFace3 (a := h.nE + 1) (b := h.nE) (c := h.nE + 2) (by omega) (by omega) (by omega)
  rw [f5] at q1 q2 q7 q8 q9 q10
  refine ⟨h', ?_, by rw [q5, n5], q7, by rw [q6, v5], by rw [q3, c5], by rw [q2, fe5], ?_, ?_, ?_, ?_, ?_, ?_, by rw [q4, ve5'], ?_⟩
  · have hst : h.startV e = .ok (some s) := by
      unfold Mesh.startV
      rw [hp]; simp only [deref]
      rw [R_bind_ok, hs]; rfl
    have hmo : h.makeOpposite e = .ok (h2, h.nE) := by
      unfold Mesh.makeOpposite
      rw [hst, R_bind_ok]
      simp only [deref, R_bind_ok]
      rfl
    have hv2 : (h2.he e).vertex = some t := by
      rw [h2d, Mesh.setE_self, Mesh.setE_ne _ _ (by omega), h1d, Mesh.newEdge_he, Function.update_of_ne (by omega), ht]
    unfold Mesh.addFaceBody
    rw [hmo, R_bind_ok]
    simp only [hv2, deref, R_bind_ok]
    show (h4.newEdge h3.nV).1.makeFace [h2.nE, h.nE, h4.nE] = _
    rw [v3, ← h5d, n2, n4, q1]
  · rw [q11 e (by omega) (by omega) (by omega), he5, if_neg (by omega), if_neg (by omega), if_pos rfl]
  · rw [q9, he5, if_neg (by omega), if_neg (by omega), if_neg (by omega), if_pos rfl]
  · rw [q8, he5, if_neg (by omega), if_pos rfl]
  · rw [q10, he5, if_pos rfl]
  · intro y hy1 hy2
    rw [q11 y (by omega) (by omega) (by omega), he5, if_neg (by omega), if_neg (by omega), if_neg hy1, if_neg (by omega)]
  · intro y hy
    rw [q11 y (by omega) (by omega) (by omega), he5, if_neg (by omega), if_neg (by omega), if_neg (by omega), if_neg (by omega)]
  · intro u y hu hy
    rw [q4, ve5 u hu y hy]

/-- C39: adding a face beyond a half-edge without opposite of a valid mesh makes a triangle on a new vertex at the point, on the other side of the
half-edge; the mesh with this face is valid, and the links from the vertices too. -/
theorem C39_add_face (H : Spec.Valid h F) {f e : ℕ} (hf : f ∈ F) (hef : (h.he e).face = some f) (hopp : (h.he e).opp = none) (x : P) :
    ∃ h', h.addFace f (some e) x = .ok (h', some h.nF) ∧ h.addFaceEdge (some e) x = .ok (h', some h.nF) ∧
      Spec.Valid h' (F ++ [h.nF]) ∧ (Spec.VertexLinks h F → Spec.VertexLinks h' (F ++ [h.nF])) ∧
      (∃ o a b v, Tri h' h.nF a o b ∧ (h'.he e).opp = some o ∧ (h'.he o).opp = some e ∧ (h'.he o).vertex = Spec.start h e ∧
        (h'.he a).vertex = (h.he e).vertex ∧ (h'.he b).vertex = some v ∧ h'.co v = x ∧ h.nV ≤ v ∧ (h'.he a).opp = none ∧ (h'.he b).opp = none) ∧
      (∀ y, y < h.nE → y ≠ e → h'.he y = h.he y) ∧ (∃ o, h'.he e = { h.he e with opp := o }) ∧ (∀ u, u < h.nV → h'.co u = h.co u) ∧
      (∀ g, g < h.nF → h'.fe g = h.fe g) := by
  have hle := (H.edges e f hef).1
  obtain ⟨b, c, t⟩ := H.triAt hf hef
  obtain ⟨w, hw, hwV⟩ := H.vertex e ⟨f, hf, hef⟩
  obtain ⟨s, hs, hsV⟩ := H.vertex c ⟨f, hf, t.fc⟩
  obtain ⟨h', k1, k2, k3, k4, k5, k6, k7, k8, k9, k10, k11, k12, k13, k14⟩ := addFaceBody_spec h x hle t.pa hs hw
  have hvx : ∀ y, y < h.nE → (h'.he y).vertex = (h.he y).vertex ∧ (h'.he y).face = (h.he y).face ∧ (h'.he y).next = (h.he y).next ∧
      (h'.he y).prev = (h.he y).prev := by
    intro y hy
    by_cases hye : y = e
    · subst hye; rw [k7]; exact ⟨rfl, rfl, rfl, rfl⟩
    · rw [k11 y hye hy]; exact ⟨rfl, rfl, rfl, rfl⟩
  have hface : ∀ y g, (h'.he y).face = some g → y < h.nE ∧ (h.he y).face = some g ∨ h.nE ≤ y ∧ y < h.nE + 3 ∧ g = h.nF := by
    intro y g hy
    by_cases hy1 : y < h.nE
    · left; exact ⟨hy1, by rw [← (hvx y hy1).2.1, hy]⟩
    by_cases hy2 : h.nE + 3 ≤ y
    · rw [k12 y hy2] at hy
      exact absurd (H.edges y g hy).1 hy1
    · right
      refine ⟨by omega, by omega, ?_⟩
      obtain rfl | rfl | rfl : y = h.nE ∨ y = h.nE + 1 ∨ y = h.nE + 2 := by omega
      · rw [k8] at hy; cases hy; rfl
      · rw [k9] at hy; cases hy; rfl
      · rw [k10] at hy; cases hy; rfl
  have hlive : ∀ y, Spec.Live h' (F ++ [h.nF]) y → y < h.nE ∧ Spec.Live h F y ∨ y = h.nE ∨ y = h.nE + 1 ∨ y = h.nE + 2 := by
    rintro y ⟨g, hg, hyg⟩
    rcases hface y g hyg with ⟨h1, h2⟩ | ⟨h1, h2, -⟩
    · left
      refine ⟨h1, g, ?_, h2⟩
      rcases List.mem_append.mp hg with hg | hg
      · exact hg
      · simp at hg; subst hg
        exact absurd (H.edges y _ h2).2 (by omega)
    · right; omega
  have hlive' : ∀ y, Spec.Live h F y → Spec.Live h' (F ++ [h.nF]) y := by
    rintro y ⟨g, hg, hyg⟩
    exact ⟨g, by simp [hg], by rw [(hvx y (H.edges y g hyg).1).2.1, hyg]⟩
  have T : Tri h' h.nF (h.nE + 1) h.nE (h.nE + 2) := by
    refine ⟨by omega, by omega, by omega, by rw [k9], by rw [k8], by rw [k10], by rw [k9], by rw [k8], by rw [k10], by rw [k9], by rw [k8], by rw [k10], ?_⟩
    intro y hy
    rcases hface y _ hy with ⟨h1, h2⟩ | ⟨h1, h2, -⟩
    · exact absurd (H.edges y _ h2).2 (by omega)
    · omega
  have triOld : ∀ g a b c, Tri h g a b c → Tri h' g a b c := by
    intro g a b c t
    have ha := hvx a (H.edges a g t.fa).1
    have hb := hvx b (H.edges b g t.fb).1
    have hc := hvx c (H.edges c g t.fc).1
    refine ⟨t.ab, t.bc, t.ca, by rw [ha.2.2.1, t.na], by rw [hb.2.2.1, t.nb], by rw [hc.2.2.1, t.nc], by rw [ha.2.2.2, t.pa], by rw [hb.2.2.2, t.pb],
      by rw [hc.2.2.2, t.pc], by rw [ha.2.1, t.fa], by rw [hb.2.1, t.fb], by rw [hc.2.1, t.fc], ?_⟩
    intro y hy
    rcases hface y g hy with ⟨h1, h2⟩ | ⟨h1, h2, h3⟩
    · exact t.own y h2
    · exact absurd (H.edges a g t.fa).2 (by omega)
  have hstart : ∀ y, Spec.Live h F y → Spec.start h' y = Spec.start h y := by
    rintro y ⟨g, hg, hyg⟩
    obtain ⟨b, c, ty⟩ := H.triAt hg hyg
    rw [(triOld g y b c ty).start, ty.start, (hvx c (H.edges c g ty.fc).1).1]
  have hst : Spec.start h e = some s := by rw [t.start, hs]
  refine ⟨h', ?_, ?_, Spec.Valid.of_tri ?_ ?_ ?_ ?_ ?_ ?_, ?_, ⟨h.nE, h.nE + 1, h.nE + 2, h.nV, T, by rw [k7], by rw [k8], by rw [k8, hst],
    by rw [k9, hw], by rw [k10], by rw [k5]; simp, le_rfl, by rw [k9], by rw [k10]⟩, fun y h1 h2 => k11 y h2 h1, ⟨_, k7⟩, ?_, ?_⟩
  · unfold Mesh.addFace
    simp only [hopp, hef]
    rw [if_neg (by simp), k1]
  · unfold Mesh.addFaceEdge
    simp only [hopp]
    rw [if_neg (by simp), k1]
  · rw [List.nodup_append]
    refine ⟨H.nodup, by simp, ?_⟩
    intro a ha b hb
    have := H.faces a ha
    simp at hb; omega
  · intro g hg
    rw [k3]
    rcases List.mem_append.mp hg with hg | hg
    · have := H.faces g hg; omega
    · simp at hg; omega
  · intro y g hy
    rw [k2, k3]
    rcases hface y g hy with ⟨h1, h2⟩ | ⟨h1, h2, h3⟩
    · have := H.edges y g h2; omega
    · omega
  · intro g hg
    rcases List.mem_append.mp hg with hg | hg
    · obtain ⟨a, b, c, tg, hfe⟩ := H.tri hg
      have := H.faces g hg
      exact ⟨a, b, c, triOld g a b c tg, by rw [k6, Function.update_of_ne (by omega), hfe]⟩
    · simp at hg; subst hg
      exact ⟨_, _, _, T, by rw [k6]; simp⟩
  · intro y hy
    rw [k4]
    rcases hlive y hy with ⟨h1, h2⟩ | rfl | rfl | rfl
    · obtain ⟨u, h3, h4⟩ := H.vertex y h2
      exact ⟨u, by rw [(hvx y h1).1, h3], by omega⟩
    · exact ⟨s, by rw [k8], by omega⟩
    · exact ⟨w, by rw [k9], by omega⟩
    · exact ⟨h.nV, by rw [k10], by omega⟩
  · intro y o hy ho
    rcases hlive y hy with ⟨h1, h2⟩ | rfl | rfl | rfl
    · by_cases hye : y = e
      · subst hye
        rw [k7] at ho; cases ho
        exact ⟨⟨h.nF, by simp, T.fb⟩, by rw [k8], by rw [k8, hstart y h2, hst]⟩
      · rw [k11 y hye h1] at ho
        obtain ⟨q1, q2, q3⟩ := H.opp_start h2 ho
        have hoe : o ≠ e := by rintro rfl; rw [hopp] at q2; cases q2
        have hoE := H.live_lt q1
        exact ⟨hlive' o q1, by rw [k11 o hoe hoE, q2], by rw [(hvx o hoE).1, q3, hstart y h2]⟩
    · rw [k8] at ho; cases ho
      exact ⟨hlive' e ⟨f, hf, hef⟩, by rw [k7], by rw [T.rotate.start, k9, (hvx e hle).1, hw]⟩
    · rw [k9] at ho; cases ho
    · rw [k10] at ho; cases ho
  · intro HL y u hy hu
    have old : ∀ z, Spec.Live h F z → (h.he z).vertex = some u → ∃ e', h'.ve u = some e' ∧ Spec.Live h' (F ++ [h.nF]) e' ∧ (h'.he e').vertex = some u := by
      intro z hz hzu
      obtain ⟨e', q1, q2, q3⟩ := HL z u hz hzu
      obtain ⟨u', q4, q5⟩ := H.vertex z hz
      rw [hzu] at q4; cases q4
      exact ⟨e', k14 u e' q5 q1, hlive' e' q2, by rw [(hvx e' (H.live_lt q2)).1, q3]⟩
    rcases hlive y hy with ⟨h1, h2⟩ | rfl | rfl | rfl
    · rw [(hvx y h1).1] at hu; exact old y h2 hu
    · rw [k8] at hu; cases hu; exact old c ⟨f, hf, t.fc⟩ hs
    · rw [k9] at hu; cases hu; exact old e ⟨f, hf, hef⟩ hw
    · rw [k10] at hu; cases hu
      exact ⟨_, k13, ⟨h.nF, by simp, T.fc⟩, by rw [k10]⟩
  · intro u hu
    rw [k5, Function.update_of_ne (by omega)]
  · intro g hg
    rw [k6, Function.update_of_ne (by omega)]

/-- C39: no face is added on a null half-edge, on one that has an opposite, or on one of another face. -/
theorem C39_add_face_refused (h : Mesh P) (f e : ℕ) (x : P) :
    h.addFace f none x = .ok (h, none) ∧ h.addFaceEdge none x = .ok (h, none) ∧
      ((h.he e).opp ≠ none → h.addFace f (some e) x = .ok (h, none) ∧ h.addFaceEdge (some e) x = .ok (h, none)) ∧
      ((h.he e).face ≠ some f → h.addFace f (some e) x = .ok (h, none)) := by
  refine ⟨rfl, rfl, fun ho => ?_, fun hf => ?_⟩
  · obtain ⟨o, ho⟩ := Option.ne_none_iff_exists'.mp ho
    constructor
    · unfold Mesh.addFace; simp only [ho]; rfl
    · unfold Mesh.addFaceEdge; simp only [ho]; rfl
  · unfold Mesh.addFace
    simp only
    rw [if_pos (by simp [hf])]; rfl

example : ∃ h', Sample.twoTris.addFace 0 (some 0) 9 = .ok (h', some 2) ∧ Spec.Valid h' [0, 1, 2] := by
  obtain ⟨h', h1, -, h2, -⟩ := C39_add_face Sample.twoTris_valid (f := 0) (e := 0) (by decide) rfl rfl 9
  exact ⟨h', h1, h2⟩

/-- A half-edge of the border of a set of faces: it belongs to one of them and its opposite, if any, does not. -/
def Spec.Border (h : Mesh P) (C : List ℕ) (e : ℕ) : Prop :=
  (∃ f ∈ C, (h.he e).face = some f) ∧ ∀ o, (h.he e).opp = some o → ∀ f ∈ C, (h.he o).face ≠ some f

/-- Each half-edge starts where the one before it ends, cyclically. -/
def Spec.ClosedChain (h : Mesh P) (l : List ℕ) : Prop :=
  ∀ i a b, l[i]? = some a → l[(i + 1) % l.length]? = some b → Spec.start h b = (h.he a).vertex

/-- C40: when the border of a set of faces of a valid mesh is a closed chain of half-edges, `add_vertex` on this chain replaces these faces by one triangle
per half-edge, made of this half-edge and of the vertex: the result is a valid mesh, the half-edges of the chain keep their end vertices, starts and
opposites, and the rest of the mesh is unchanged. -/
theorem C40_add_vertex (H : Spec.Valid h F) {C l : List ℕ} {v : ℕ} (hC : ∀ f ∈ C, f ∈ F) (hne : l ≠ []) (hnd : l.Nodup)
    (hb : ∀ e, e ∈ l ↔ Spec.Border h C e) (hch : Spec.ClosedChain h l) (hv : v < h.nV) :
    ∃ h', h.addVertex l v = .ok (h', (List.range l.length).map (h.nF + ·)) ∧
      Spec.Valid h' (F.filter (fun f => decide (f ∉ C)) ++ (List.range l.length).map (h.nF + ·)) ∧
      (∀ i (hi : i < l.length), ∃ a b, Tri h' (h.nF + i) l[i] a b ∧ (h'.he l[i]).vertex = (h.he l[i]).vertex ∧ (h'.he a).vertex = some v ∧
        (h'.he b).vertex = Spec.start h l[i] ∧ (h'.he l[i]).opp = (h.he l[i]).opp ∧ (h'.he a).opp ≠ none ∧ (h'.he b).opp ≠ none) ∧
      (∀ x, x < h.nE → x ∉ l → h'.he x = h.he x) ∧ (∀ f, f < h.nF → h'.fe f = h.fe f) ∧ h'.co = h.co ∧ h'.nV = h.nV ∧
      (∀ u x, u ≠ v → h.ve u = some x → h'.ve u = some x) ∧ (∃ x, h'.ve v = some x ∧ (h'.he x).vertex = some v ∧ h.nE ≤ x ∧
        Spec.Live h' (F.filter (fun f => decide (f ∉ C)) ++ (List.range l.length).map (h.nF + ·)) x) := by
  have hlF : ∀ e ∈ l, Spec.Live h F e := by
    intro e he
    obtain ⟨⟨f, hf, hef⟩, -⟩ := (hb e).mp he
    exact ⟨f, hC f hf, hef⟩
  have hl : ∀ e ∈ l, e < h.nE ∧ ∃ p s, (h.he e).prev = some p ∧ p < h.nE ∧ (h.he p).vertex = some s := by
    intro e he
    obtain ⟨f, hf, hef⟩ := hlF e he
    obtain ⟨b, c, t⟩ := H.triAt hf hef
    obtain ⟨s, hs, -⟩ := H.vertex c ⟨f, hf, t.fc⟩
    exact ⟨(H.edges e f hef).1, c, s, t.pa, (H.edges c f t.fc).1, hs⟩
  obtain ⟨h', k1, k2, k3, k4, k5, k6, k7, k8, k9, k10, k11, k12⟩ := h.addVertex_spec (v := v) hne hnd hl
  have hlen : 0 < l.length := List.length_pos_iff.mpr hne
  -- cases on a half-edge of the new store
  have hcase : ∀ x g, (h'.he x).face = some g →
      (x < h.nE ∧ x ∉ l ∧ h'.he x = h.he x ∧ (h.he x).face = some g) ∨
      ∃ i, ∃ hi : i < l.length, g = h.nF + i ∧ (x = l[i] ∨ x = h.nE + 2 * i ∨ x = h.nE + 2 * i + 1) := by
    intro x g hx
    by_cases hxl : x ∈ l
    · obtain ⟨i, hi, rfl⟩ := List.getElem_of_mem hxl
      right
      rw [(k6 i hi).2.1] at hx
      cases hx
      exact ⟨i, hi, rfl, Or.inl rfl⟩
    by_cases hx1 : x < h.nE
    · left
      refine ⟨hx1, hxl, k7 x hx1 hxl, by rw [← k7 x hx1 hxl, hx]⟩
    by_cases hx2 : h.nE + 2 * l.length ≤ x
    · rw [k8 x hx2] at hx
      exact absurd (H.edges x g hx).1 hx1
    · right
      rcases Nat.even_or_odd' (x - h.nE) with ⟨i, hi | hi⟩
      · have hx3 : x = h.nE + 2 * i := by omega
        have hi' : i < l.length := by omega
        rw [hx3, (k6 i hi').2.2.1] at hx
        cases hx
        exact ⟨i, hi', rfl, Or.inr (Or.inl hx3)⟩
      · have hx3 : x = h.nE + 2 * i + 1 := by omega
        have hi' : i < l.length := by omega
        rw [hx3, (k6 i hi').2.2.2] at hx
        cases hx
        exact ⟨i, hi', rfl, Or.inr (Or.inr hx3)⟩
  have T : ∀ i (hi : i < l.length), Tri h' (h.nF + i) l[i] (h.nE + 2 * i) (h.nE + 2 * i + 1) := by
    intro i hi
    obtain ⟨m1, m2, m3, m4⟩ := k6 i hi
    have hE := (hl l[i] (List.getElem_mem hi)).1
    refine ⟨by omega, by omega, by omega, by rw [m2], by rw [m3], by rw [m4], by rw [m2], by rw [m3], by rw [m4], by rw [m2], by rw [m3], by rw [m4], ?_⟩
    intro x hx
    rcases hcase x _ hx with ⟨-, -, -, h4⟩ | ⟨j, hj, h1, h2⟩
    · exact absurd (H.edges x _ h4).2 (by omega)
    · have : j = i := by omega
      subst this; exact h2
  have notin : ∀ f a, f ∈ F → f ∉ C → (h.he a).face = some f → a ∉ l := by
    intro f a hf hfC ha hal
    obtain ⟨⟨g, hg, hag⟩, -⟩ := (hb a).mp hal
    rw [ha] at hag; cases hag; exact hfC hg
  have keep : ∀ f a, f ∈ F → f ∉ C → (h.he a).face = some f → h'.he a = h.he a := fun f a hf hfC ha =>
    k7 a (H.edges a f ha).1 (notin f a hf hfC ha)
  have triOld : ∀ f a b c, f ∈ F → f ∉ C → Tri h f a b c → Tri h' f a b c := by
    intro f a b c hf hfC t
    have ka := keep f a hf hfC t.fa
    have kb := keep f b hf hfC t.fb
    have kc := keep f c hf hfC t.fc
    refine ⟨t.ab, t.bc, t.ca, by rw [ka, t.na], by rw [kb, t.nb], by rw [kc, t.nc], by rw [ka, t.pa], by rw [kb, t.pb], by rw [kc, t.pc], by rw [ka, t.fa],
      by rw [kb, t.fb], by rw [kc, t.fc], ?_⟩
    intro x hx
    rcases hcase x _ hx with ⟨-, -, -, h4⟩ | ⟨j, hj, h1, -⟩
    · exact t.own x h4
    · exact absurd (H.faces f hf) (by omega)
  have mem : ∀ f, f ∈ F.filter (fun f => decide (f ∉ C)) ++ (List.range l.length).map (h.nF + ·) ↔ (f ∈ F ∧ f ∉ C) ∨ ∃ i, i < l.length ∧ f = h.nF + i := by
    intro f
    simp only [List.mem_append, List.mem_filter, List.mem_map, List.mem_range, decide_eq_true_eq]
    constructor
    · rintro (h1 | ⟨i, h1, h2⟩)
      · exact Or.inl h1
      · exact Or.inr ⟨i, h1, h2.symm⟩
    · rintro (h1 | ⟨i, h1, h2⟩)
      · exact Or.inl h1
      · exact Or.inr ⟨i, h1, h2.symm⟩
  set F' := F.filter (fun f => decide (f ∉ C)) ++ (List.range l.length).map (h.nF + ·) with hF'
  have live : ∀ x, Spec.Live h' F' x → (∃ f, f ∈ F ∧ f ∉ C ∧ (h.he x).face = some f ∧ h'.he x = h.he x) ∨
      ∃ i, ∃ hi : i < l.length, x = l[i] ∨ x = h.nE + 2 * i ∨ x = h.nE + 2 * i + 1 := by
    rintro x ⟨f, hf, hx⟩
    rcases hcase x f hx with ⟨h1, h2, h3, h4⟩ | ⟨i, hi, -, h2⟩
    · left
      rcases (mem f).mp hf with h5 | ⟨i, hi, h5⟩
      · exact ⟨f, h5.1, h5.2, h4, h3⟩
      · exact absurd (H.edges x f h4).2 (by omega)
    · exact Or.inr ⟨i, hi, h2⟩
  have liveNew : ∀ i (hi : i < l.length) x, x = l[i] ∨ x = h.nE + 2 * i ∨ x = h.nE + 2 * i + 1 → Spec.Live h' F' x := by
    intro i hi x hx
    refine ⟨h.nF + i, (mem _).mpr (Or.inr ⟨i, hi, rfl⟩), ?_⟩
    rcases hx with rfl | rfl | rfl
    exacts [(T i hi).fa, (T i hi).fb, (T i hi).fc]
  have liveOld : ∀ x f, f ∈ F → f ∉ C → (h.he x).face = some f → Spec.Live h' F' x := by
    intro x f hf hfC hx
    exact ⟨f, (mem f).mpr (Or.inl ⟨hf, hfC⟩), by rw [keep f x hf hfC hx, hx]⟩
  have startOld : ∀ x f, f ∈ F → f ∉ C → (h.he x).face = some f → Spec.start h' x = Spec.start h x := by
    intro x f hf hfC hx
    obtain ⟨b, c, t⟩ := H.triAt hf hx
    rw [(triOld f x b c hf hfC t).start, t.start, keep f c hf hfC t.fc]
  refine ⟨h', k1, Spec.Valid.of_tri ?_ ?_ ?_ ?_ ?_ ?_, ?_, k7, k9, k5, k4, k10, ?_⟩
  · rw [hF', List.nodup_append]
    refine ⟨H.nodup.filter _, (List.nodup_range).map (fun a b hab => by simpa using hab), ?_⟩
    intro a ha b hb
    have := H.faces a (List.mem_filter.mp ha).1
    obtain ⟨i, -, rfl⟩ := List.mem_map.mp hb
    omega
  · intro f hf
    rw [k3]
    rcases (mem f).mp hf with h5 | ⟨i, hi, h5⟩
    · have := H.faces f h5.1; omega
    · omega
  · intro x g hx
    rw [k2, k3]
    rcases hcase x g hx with ⟨h1, h2, h3, h4⟩ | ⟨i, hi, h1, h2⟩
    · have := H.edges x g h4; omega
    · refine ⟨?_, by omega⟩
      rcases h2 with rfl | rfl | rfl
      · have := (hl l[i] (List.getElem_mem hi)).1; omega
      · omega
      · omega
  · intro f hf
    rcases (mem f).mp hf with h5 | ⟨i, hi, rfl⟩
    · obtain ⟨a, b, c, t, hfe⟩ := H.tri h5.1
      exact ⟨a, b, c, triOld f a b c h5.1 h5.2 t, by rw [k9 f (H.faces f h5.1), hfe]⟩
    · exact ⟨_, _, _, T i hi, (k6 i hi).1⟩
  · intro x hx
    rw [k4]
    rcases live x hx with ⟨f, hf, hfC, hxf, hk⟩ | ⟨i, hi, rfl | rfl | rfl⟩
    · rw [hk]; exact H.vertex x ⟨f, hf, hxf⟩
    · rw [(k6 i hi).2.1]; exact H.vertex _ (hlF _ (List.getElem_mem hi))
    · rw [(k6 i hi).2.2.1]; exact ⟨v, rfl, hv⟩
    · rw [(k6 i hi).2.2.2]
      obtain ⟨f, hf, hef⟩ := hlF _ (List.getElem_mem hi)
      obtain ⟨b, c, t⟩ := H.triAt hf hef
      rw [t.start]
      exact H.vertex c ⟨f, hf, t.fc⟩
  · intro x o hx ho
    rcases live x hx with ⟨f, hf, hfC, hxf, hk⟩ | ⟨i, hi, rfl | rfl | rfl⟩
    · rw [hk] at ho
      obtain ⟨q1, q2, q3⟩ := H.opp_start ⟨f, hf, hxf⟩ ho
      rw [startOld x f hf hfC hxf]
      obtain ⟨g, hg, hog⟩ := q1
      by_cases hgC : g ∈ C
      · have hol : o ∈ l := (hb o).mpr ⟨⟨g, hgC, hog⟩, fun o' ho' f' hf' hc => by
          rw [q2] at ho'; cases ho'
          rw [hxf] at hc; cases hc; exact hfC hf'⟩
        obtain ⟨i, hi, rfl⟩ := List.getElem_of_mem hol
        refine ⟨liveNew i hi _ (Or.inl rfl), ?_, ?_⟩
        · rw [(k6 i hi).2.1]; exact q2
        · rw [(k6 i hi).2.1]; exact q3
      · rw [keep g o hg hgC hog]
        exact ⟨liveOld o g hg hgC hog, q2, q3⟩
    · rw [(k6 i hi).2.1] at ho
      have hil := List.getElem_mem hi
      obtain ⟨q1, q2, q3⟩ := H.opp_start (hlF _ hil) ho
      obtain ⟨g, hg, hog⟩ := q1
      have hgC : g ∉ C := fun hc => ((hb _).mp hil).2 o ho g hc hog
      rw [keep g o hg hgC hog, (T i hi).start, (k6 i hi).2.2.2]
      exact ⟨liveOld o g hg hgC hog, q2, q3⟩
    · rw [(k6 i hi).2.2.1] at ho
      cases ho
      set j := if i + 1 < l.length then i + 1 else 0 with hj
      have hj' : j < l.length := by rw [hj]; split <;> omega
      have hjm : (i + 1) % l.length = j := by
        rw [hj]; split
        · exact Nat.mod_eq_of_lt (by assumption)
        · rw [show i + 1 = l.length by omega, Nat.mod_self]
      refine ⟨liveNew j hj' _ (Or.inr (Or.inr rfl)), ?_, ?_⟩
      · rw [(k6 j hj').2.2.2]
        have : (if j = 0 then l.length - 1 else j - 1) = i := by
          rw [hj]; split <;> split <;> omega
        rw [this]
      · rw [(k6 j hj').2.2.2, (T i hi).rotate.start, (k6 i hi).2.1]
        exact hch i l[i] l[j] (by simp) (by rw [hjm]; simp)
    · rw [(k6 i hi).2.2.2] at ho
      cases ho
      set j := if i = 0 then l.length - 1 else i - 1 with hj
      have hj' : j < l.length := by rw [hj]; split <;> omega
      refine ⟨liveNew j hj' _ (Or.inr (Or.inl rfl)), ?_, ?_⟩
      · rw [(k6 j hj').2.2.1]
        have : (if j + 1 < l.length then j + 1 else 0) = i := by
          rw [hj]; split <;> split <;> omega
        rw [this]
      · rw [(k6 j hj').2.2.1, (T i hi).rotate.rotate.start, (k6 i hi).2.2.1]
  · intro i hi
    refine ⟨_, _, T i hi, ?_, ?_, ?_, ?_, ?_, ?_⟩
    · rw [(k6 i hi).2.1]
    · rw [(k6 i hi).2.2.1]
    · rw [(k6 i hi).2.2.2]
    · rw [(k6 i hi).2.1]
    · rw [(k6 i hi).2.2.1]; simp
    · rw [(k6 i hi).2.2.2]; simp
  · obtain ⟨x, hx⟩ := Option.ne_none_iff_exists'.mp k12
    obtain ⟨q1, q2, q3⟩ := k11 v x (Or.inr rfl) hx
    rw [k2] at q2
    exact ⟨x, hx, q3, q1, liveNew ((x - h.nE) / 2) (by omega) x (by omega)⟩

/-- C40: without half-edges `add_vertex` reads the back of an empty list. -/
theorem C40_add_vertex_empty (h : Mesh P) (v : ℕ) : h.addVertex [] v = .error .oob := rfl

/-- A new vertex changes nothing else. -/
theorem Spec.Valid.newVertex (H : Spec.Valid h F) (x : P) : Spec.Valid (h.newVertex x).1 F :=
  ⟨H.nodup, H.faces, H.edges, H.ring, fun e he => by
    obtain ⟨v, h1, h2⟩ := H.vertex e he
    exact ⟨v, h1, by show v < h.nV + 1; omega⟩, H.opp⟩

/-- C40: `add_vertex` on a face of a valid mesh none of whose half-edges is opposite to another one of it replaces the face by three triangles. -/
theorem C40_add_vertex_face (H : Spec.Valid h F) {f v : ℕ} (hf : f ∈ F)
    (hself : ∀ e o, (h.he e).face = some f → (h.he e).opp = some o → (h.he o).face ≠ some f) (hv : v < h.nV) :
    ∃ h', h.addVertexFace f v = .ok (h', [h.nF, h.nF + 1, h.nF + 2]) ∧
      Spec.Valid h' (F.filter (fun g => decide (g ≠ f)) ++ [h.nF, h.nF + 1, h.nF + 2]) ∧
      ∃ a b c, Tri h f a b c ∧
        (∃ x y, Tri h' h.nF a x y ∧ (h'.he a).vertex = (h.he a).vertex ∧ (h'.he x).vertex = some v ∧ (h'.he y).vertex = (h.he c).vertex) ∧
        (∃ x y, Tri h' (h.nF + 1) b x y ∧ (h'.he b).vertex = (h.he b).vertex ∧ (h'.he x).vertex = some v ∧ (h'.he y).vertex = (h.he a).vertex) ∧
        (∃ x y, Tri h' (h.nF + 2) c x y ∧ (h'.he c).vertex = (h.he c).vertex ∧ (h'.he x).vertex = some v ∧ (h'.he y).vertex = (h.he b).vertex) ∧
        (∀ x, x < h.nE → (h'.he x).opp = (h.he x).opp) ∧ h'.co = h.co := by
  obtain ⟨a, b, c, t, hfe⟩ := H.tri hf
  obtain ⟨h', k1, k2, k3, k4, -, k6, -⟩ := C40_add_vertex H (C := [f]) (l := [a, b, c]) (v := v) (by simpa using hf) (by simp)
    (by simp [t.ab, t.bc, t.ca.symm]) (by
      intro e
      constructor
      · intro he
        have hef : (h.he e).face = some f := by
          simp at he
          rcases he with rfl | rfl | rfl
          exacts [t.fa, t.fb, t.fc]
        refine ⟨⟨f, by simp, hef⟩, ?_⟩
        intro o ho g hg
        simp at hg; subst hg
        exact hself e o hef ho
      · rintro ⟨⟨g, hg, heg⟩, -⟩
        simp at hg; subst hg
        simpa using t.own e heg) (by
      intro i x y hx hy
      match i with
      | 0 => simp at hx hy; subst hx hy; exact t.rotate.start
      | 1 => simp at hx hy; subst hx hy; exact t.rotate.rotate.start
      | 2 => simp at hx hy; subst hx hy; exact t.start
      | n + 3 => simp at hx) hv
  have hC : (fun g => decide (g ∉ [f])) = fun g => decide (g ≠ f) := by
    funext g; simp
  rw [hC] at k2
  refine ⟨h', ?_, k2, a, b, c, t, ?_, ?_, ?_, ?_, k6⟩
  · unfold Mesh.addVertexFace
    rw [H.getFaceEdges t hfe, R_bind_ok, k1]; rfl
  · obtain ⟨x, y, q1, q2, q3, q4, -⟩ := k3 0 (by simp)
    exact ⟨x, y, q1, q2, q3, by rw [q4]; exact t.start⟩
  · obtain ⟨x, y, q1, q2, q3, q4, -⟩ := k3 1 (by simp)
    exact ⟨x, y, q1, q2, q3, by rw [q4]; exact t.rotate.start⟩
  · obtain ⟨x, y, q1, q2, q3, q4, -⟩ := k3 2 (by simp)
    exact ⟨x, y, q1, q2, q3, by rw [q4]; exact t.rotate.rotate.start⟩
  · intro x hx
    by_cases hxl : x ∈ [a, b, c]
    · obtain ⟨i, hi, rfl⟩ := List.getElem_of_mem hxl
      obtain ⟨_, _, _, _, _, _, q5, _⟩ := k3 i hi
      exact q5
    · rw [k4 x hx hxl]

example : ∃ h', (Sample.twoTris.newVertex 7).1.addVertexFace 0 4 = .ok (h', [2, 3, 4]) ∧ Spec.Valid h' [1, 2, 3, 4] := by
  obtain ⟨h', h1, h2, -⟩ := C40_add_vertex_face (Sample.twoTris_valid.newVertex 7) (f := 0) (v := 4) (by decide) (by
    intro e o he ho hc
    have h6 := (Sample.twoTris_valid.edges e 0 he).1
    change e < 6 at h6
    interval_cases e <;> simp [Sample.twoTris, Mesh.newVertex] at he ho
    subst ho
    simp [Sample.twoTris, Mesh.newVertex] at hc) (by decide)
  exact ⟨h', h1, h2⟩

end Gbs
