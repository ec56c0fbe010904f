import Verif.Lemmas.Planar
import Verif.Model.Constrained
import Verif.Props.Recover

/-!
# The flood fill inside a polygon
-/

set_option linter.unusedSectionVars false

namespace Gbs

variable {K : Type} [Field K] [LinearOrder K] [IsStrictOrderedRing K] {h : Mesh (K × K)} {F : List ℕ} {f : ℕ}

/-! ## The flood fill -/

/-- The second face is across a half-edge of the first which is not in the list. -/
def Spec.Step {P : Type} (h : Mesh P) (cons : List ℕ) (f g : ℕ) : Prop :=
  ∃ e o, (h.he e).face = some f ∧ e ∉ cons ∧ (h.he e).opp = some o ∧ (h.he o).face = some g

theorem fillEdges_spec (cons : List ℕ) : ∀ (es I Q : List ℕ), I.Nodup → ∃ new, es.foldl (h.fillEdge cons) (I, Q) = (I ++ new, Q ++ new) ∧ (I ++ new).Nodup ∧
    (∀ g ∈ new, ∃ e ∈ es, e ∉ cons ∧ h.faceAcross e = some g) ∧ ∀ e ∈ es, e ∉ cons → ∀ g, h.faceAcross e = some g → g ∈ I ++ new := by
  intro es
  induction es with
  | nil => intro I Q hI; exact ⟨[], by simp, by simpa using hI, by simp, by simp⟩
  | cons e es ih =>
    intro I Q hI
    rw [List.foldl_cons]
    have hcase : (h.fillEdge cons (I, Q) e = (I, Q) ∧ (e ∉ cons → ∀ g, h.faceAcross e = some g → g ∈ I)) ∨
        ∃ g, e ∉ cons ∧ h.faceAcross e = some g ∧ g ∉ I ∧ h.fillEdge cons (I, Q) e = (I ++ [g], Q ++ [g]) := by
      unfold Mesh.fillEdge
      by_cases hc : e ∈ cons
      · rw [if_pos hc]; exact Or.inl ⟨rfl, fun hn => absurd hc hn⟩
      · rw [if_neg hc]
        rcases hx : h.faceAcross e with _ | g
        · exact Or.inl ⟨rfl, by simp⟩
        · by_cases hg : g ∈ I
          · refine Or.inl ⟨by simp only [if_pos hg], fun _ g' hg' => by cases hg'; exact hg⟩
          · refine Or.inr ⟨g, hc, rfl, hg, by simp only [if_neg hg]⟩
    rcases hcase with ⟨k1, k2⟩ | ⟨g, k1, k2, k3, k4⟩
    · rw [k1]
      obtain ⟨new, n1, n2, n3, n4⟩ := ih I Q hI
      refine ⟨new, n1, n2, fun g hg => ?_, fun x hx hxc g hg => ?_⟩
      · obtain ⟨x, hx, hh⟩ := n3 g hg
        exact ⟨x, by simp [hx], hh⟩
      · rcases List.mem_cons.mp hx with rfl | hx
        · exact List.mem_append_left _ (k2 hxc g hg)
        · exact n4 x hx hxc g hg
    · rw [k4]
      obtain ⟨new, n1, n2, n3, n4⟩ := ih (I ++ [g]) (Q ++ [g]) (List.nodup_append.mpr ⟨hI, by simp, fun a ha b hb hab => k3 (by simp only [List.mem_singleton] at hb; rw [← hb, ← hab]; exact ha)⟩)
      refine ⟨g :: new, by rw [n1]; simp, by simpa using n2, fun g' hg' => ?_, fun x hx hxc g' hg' => ?_⟩
      · rcases List.mem_cons.mp hg' with rfl | hg'
        · exact ⟨e, by simp, k1, k2⟩
        · obtain ⟨x, hx, hh⟩ := n3 g' hg'
          exact ⟨x, by simp [hx], hh⟩
      · rcases List.mem_cons.mp hx with rfl | hx
        · rw [k2] at hg'; cases hg'; simp
        · have := n4 x hx hxc g' hg'
          simpa using this

theorem fillFaces_spec (H : Spec.Valid h F) (cons : List ℕ) : ∀ (k : ℕ) (I Q : List ℕ), I.Nodup → (∀ f ∈ I, f ∈ F) → (∀ f ∈ Q, f ∈ I) →
    (∀ f ∈ I, f ∉ Q → ∀ g, Spec.Step h cons f g → g ∈ I) → Q.length + h.nF ≤ k + I.length →
    ∃ J, h.fillFaces cons k (I, Q) = .ok J ∧ (∀ f ∈ I, f ∈ J) ∧ (∀ f ∈ J, f ∈ F) ∧ (∀ f ∈ J, ∀ g, Spec.Step h cons f g → g ∈ J) ∧
      ∀ f ∈ J, ∃ f0 ∈ I, Relation.ReflTransGen (Spec.Step h cons) f0 f := by
  intro k
  induction k with
  | zero =>
    intro I Q hI hF hQ hc hk
    have hlen : I.length ≤ h.nF := by
      have : I.length ≤ (List.range h.nF).length := (hI.subperm fun f hf => List.mem_range.mpr (H.faces f (hF f hf))).length_le
      simpa using this
    have : Q = [] := List.length_eq_zero_iff.mp (by omega)
    subst this
    exact ⟨I, by unfold Mesh.fillFaces; rfl, fun f hf => hf, hF, fun f hf g => hc f hf (by simp) g, fun f hf => ⟨f, hf, .refl⟩⟩
  | succ k ih =>
    intro I Q hI hF hQ hc hk
    rcases Q with _ | ⟨f, Q⟩
    · exact ⟨I, by unfold Mesh.fillFaces; rfl, fun f hf => hf, hF, fun f hf g => hc f hf (by simp) g, fun f hf => ⟨f, hf, .refl⟩⟩
    · have hfI := hQ f (by simp)
      have hfF := hF f hfI
      obtain ⟨a, b, c, t, hfe⟩ := H.tri hfF
      obtain ⟨new, n1, n2, n3, n4⟩ := fillEdges_spec (h := h) cons [b, a, c] I Q hI
      have hstep : ∀ g, Spec.Step h cons f g ↔ ∃ e ∈ [b, a, c], e ∉ cons ∧ h.faceAcross e = some g := by
        intro g
        constructor
        · rintro ⟨e, o, he, hn, ho, hg⟩
          refine ⟨e, ?_, hn, by simp [Mesh.faceAcross, ho, hg]⟩
          rcases t.own e he with rfl | rfl | rfl <;> simp
        · rintro ⟨e, he, hn, hx⟩
          unfold Mesh.faceAcross at hx
          rcases ho : (h.he e).opp with _ | o
          · rw [ho] at hx; cases hx
          · rw [ho] at hx
            refine ⟨e, o, ?_, hn, ho, hx⟩
            simp only [List.mem_cons, List.not_mem_nil, or_false] at he
            rcases he with rfl | rfl | rfl
            exacts [t.fb, t.fa, t.fc]
      have hnewF : ∀ g ∈ new, g ∈ F ∧ Spec.Step h cons f g := by
        intro g hg
        obtain ⟨e, he, hn, hx⟩ := n3 g hg
        have hs := (hstep g).mpr ⟨e, he, hn, hx⟩
        refine ⟨?_, hs⟩
        obtain ⟨e', o, he', -, ho, hgo⟩ := hs
        obtain ⟨⟨g', hg', hgo'⟩, -⟩ := H.opp_start ⟨f, hfF, he'⟩ ho
        rw [hgo] at hgo'; cases hgo'; exact hg'
      obtain ⟨J, j1, j2, j3, j4, j5⟩ := ih (I ++ new) (Q ++ new) n2 (by
          intro g hg
          rcases List.mem_append.mp hg with hg | hg
          · exact hF g hg
          · exact (hnewF g hg).1) (by
          intro g hg
          rcases List.mem_append.mp hg with hg | hg
          · exact List.mem_append_left _ (hQ g (by simp [hg]))
          · exact List.mem_append_right _ hg) (by
          intro g hg hgQ g' hs
          rw [List.mem_append, not_or] at hgQ
          rcases List.mem_append.mp hg with hg | hg
          · by_cases hgf : g = f
            · subst hgf
              obtain ⟨e, he, hn, hx⟩ := (hstep g').mp hs
              exact n4 e he hn g' hx
            · exact List.mem_append_left _ (hc g hg (by simp [hgf, hgQ.1]) g' hs)
          · exact absurd hg hgQ.2) (by
          simp only [List.length_append, List.length_cons] at hk ⊢
          omega)
      refine ⟨J, ?_, fun g hg => j2 g (List.mem_append_left _ hg), j3, j4, fun g hg => ?_⟩
      · unfold Mesh.fillFaces
        rw [Spec.Valid.getTriangleEdges t hfe, R_bind_ok, n1]
        exact j1
      · obtain ⟨f0, hf0, hr⟩ := j5 g hg
        rcases List.mem_append.mp hf0 with hf0 | hf0
        · exact ⟨f0, hf0, hr⟩
        · exact ⟨f, hfI, .head (hnewF f0 hf0).2 hr⟩

/-! ## The faces inside a polygon -/

theorem Spec.Valid.exists_inside (H : Spec.Valid h F) (hw : Spec.Ccw h F) (hf : f ∈ F) : ∃ p, Spec.InsideFace h f p := by
  obtain ⟨a, b, c, t, -⟩ := H.tri hf
  have hA := hw f hf
  rw [H.faceArea2 hf t] at hA
  obtain ⟨w, ⟨w1, w2, w3⟩, -⟩ := exists_inside_off (s := (0, 0)) (t := (1, 0)) hA (by simp)
  refine ⟨w, t.insideFace.mpr ⟨?_, ?_, ?_⟩⟩
  · unfold Spec.side; rw [t.startPt]; exact w3
  · unfold Spec.side; rw [t.rotate.startPt]; exact w1
  · unfold Spec.side; rw [t.rotate.rotate.startPt]; exact w2

/-- Two half-edges with the same ends are the same. -/
theorem Spec.Delaunay.segOf_inj (D : Spec.Delaunay h F) {e g : ℕ} (he : Spec.Live h F e) (hg : Spec.Live h F g) (hs : segOf h e = segOf h g) : e = g := by
  obtain ⟨f, hf, hef⟩ := he
  obtain ⟨k, hk, hgk⟩ := hg
  obtain ⟨b, c, t⟩ := D.valid.triAt hf hef
  obtain ⟨b', c', t'⟩ := D.valid.triAt hk hgk
  obtain ⟨hs1, hs2⟩ := Prod.mk.inj hs
  have hA := D.ccw f hf
  rw [D.valid.faceArea2 hf t] at hA
  have hside : 0 < Spec.side h e (Spec.endPt h b) := by unfold Spec.side; rw [t.startPt, ← area2_rotate]; exact hA
  have hside' : 0 < Spec.side h g (Spec.endPt h b) := by unfold Spec.side at hside ⊢; rw [← hs1, ← hs2]; exact hside
  obtain ⟨m, hm⟩ : ∃ m, m = Spec.startPt h e + (1 / 2 : K) • (Spec.endPt h e - Spec.startPt h e) := ⟨_, rfl⟩
  have hme : Spec.InSeg (Spec.startPt h e) (Spec.endPt h e) m := ⟨1 / 2, by norm_num, by norm_num, hm⟩
  have hmg : Spec.InSeg (Spec.startPt h g) (Spec.endPt h g) m := by rw [← hs1, ← hs2]; exact hme
  obtain ⟨δ, d1, d2, d3⟩ := D.near_edge hf t hme hside
  obtain ⟨δ', d1', d2', d3'⟩ := D.near_edge hk t' hmg hside'
  have hmin : 0 < min δ δ' := lt_min d1 d1'
  have := D.unique hf hk (d3 (min δ δ' / 2) (half_pos hmin) (by have := min_le_left δ δ'; linarith))
    (d3' (min δ δ' / 2) (half_pos hmin) (by have := min_le_right δ δ'; linarith))
  subst this
  obtain ⟨-, p2, p3, -, -⟩ := D.mid_edge hf t hme
  obtain ⟨m1, -⟩ := D.mid_edge hf t' hmg
  rcases t.own g hgk with rfl | rfl | rfl
  · rfl
  · linarith
  · linarith

/-- A polygon does not turn around points above or below it. -/
theorem winding_out {B : List ((K × K) × (K × K))} {p : K × K} (hp : (∀ s ∈ B, s.1.2 ≤ p.2 ∧ s.2.2 ≤ p.2) ∨ ∀ s ∈ B, p.2 < s.1.2 ∧ p.2 < s.2.2) :
    Spec.winding B p = 0 := by
  unfold Spec.winding
  rw [List.sum_eq_zero]
  intro x hx
  obtain ⟨s, hs, rfl⟩ := List.mem_map.mp hx
  rcases hp with hp | hp
  · exact crossing_same (Or.inl (hp s hs))
  · exact crossing_same (Or.inr (hp s hs))

/-- What the polygon, the triangulation before the removal of the corners and the mesh after it have in common. -/
structure Region (h h2 : Mesh (K × K)) (F F1 E cons : List ℕ) : Prop where
  D : Spec.Delaunay h F
  sub : ∀ f ∈ F1, f ∈ F
  far : ∀ f ∈ F, f ∉ F1 → ∃ u y, Spec.IsCorner h f u ∧ ((u.2 > y ∧ ∀ e ∈ E, (Spec.startPt h e).2 ≤ y ∧ (Spec.endPt h e).2 ≤ y) ∨
    (u.2 < y ∧ ∀ e ∈ E, y ≤ (Spec.startPt h e).2 ∧ y ≤ (Spec.endPt h e).2))
  linked : ∀ e, Spec.Live h F1 e → (h.he e).opp ≠ none
  face : ∀ e, (h2.he e).face = (h.he e).face
  opp : ∀ e, Spec.Live h F1 e → ∀ o, (h2.he e).opp = some o ↔ (h.he e).opp = some o ∧ Spec.Live h F1 o
  edges : ∀ e ∈ E, Spec.Live h F1 e
  closed : Closed2 (E.map (segOf h))
  simple : ∀ p, (∀ s ∈ E.map (segOf h), ¬Spec.OnSeg s.1 s.2 p) → Spec.winding (E.map (segOf h)) p = 0 ∨ Spec.winding (E.map (segOf h)) p = 1
  once : ∀ s ∈ E.map (segOf h), s.swap ∉ E.map (segOf h)
  cons : ∀ x, x ∈ cons ↔ x ∈ E ∨ ∃ e ∈ E, (h2.he e).opp = some x

variable {h2 : Mesh (K × K)} {F1 E cons : List ℕ}

theorem Region.live (R : Region h h2 F F1 E cons) {e : ℕ} (he : Spec.Live h F1 e) : Spec.Live h F e := by
  obtain ⟨f, hf, h1⟩ := he; exact ⟨f, R.sub f hf, h1⟩

theorem Region.segs (R : Region h h2 F F1 E cons) : ∀ s ∈ E.map (segOf h), ∃ e, Spec.Live h F e ∧ s = segOf h e := by
  intro s hs
  obtain ⟨e, he, rfl⟩ := List.mem_map.mp hs
  exact ⟨e, R.live (R.edges e he), rfl⟩

theorem Region.mem_segs (R : Region h h2 F F1 E cons) {e : ℕ} (he : Spec.Live h F e) : segOf h e ∈ E.map (segOf h) ↔ e ∈ E := by
  constructor
  · intro hs
    obtain ⟨g, hg, hs⟩ := List.mem_map.mp hs
    have := R.D.segOf_inj (R.live (R.edges g hg)) he hs
    rwa [← this]
  · exact fun h => List.mem_map_of_mem h

theorem Region.zero_one (R : Region h h2 F F1 E cons) (hf : f ∈ F) {p : K × K} (hp : Spec.InsideFace h f p) :
    Spec.winding (E.map (segOf h)) p = 0 ∨ Spec.winding (E.map (segOf h)) p = 1 := by
  refine R.simple p fun s hs => ?_
  obtain ⟨e, he, rfl⟩ := R.segs s hs
  exact R.D.off_edges hf hp he

/-- The winding number is zero in the faces that are removed. -/
theorem Region.outside (R : Region h h2 F F1 E cons) (hf : f ∈ F) (hf1 : f ∉ F1) {p : K × K} (hp : Spec.InsideFace h f p) :
    Spec.winding (E.map (segOf h)) p = 0 := by
  obtain ⟨u, y, hu, huy⟩ := R.far f hf hf1
  have huf : Spec.InFace h f u := by
    obtain ⟨a, b, c, t, -⟩ := R.D.valid.tri hf
    have hA := R.D.ccw f hf
    rw [R.D.valid.faceArea2 hf t] at hA
    have s1 := t.startPt
    have s2 := t.rotate.startPt
    have s3 := t.rotate.rotate.startPt
    refine t.inFace.mpr ?_
    rcases t.isCorner.mp hu with rfl | rfl | rfl <;> unfold Spec.side <;> rw [s1, s2, s3] <;> unfold Spec.area2 at hA ⊢ <;> refine ⟨?_, ?_, ?_⟩ <;>
      first
      | (ring_nf; exact le_rfl)
      | (ring_nf at hA ⊢; exact hA.le)
  have key : ∃ ε : K, 0 < ε ∧ ε ≤ 1 ∧ Spec.winding (E.map (segOf h)) (u + ε • (p - u)) = 0 := by
    rcases huy with ⟨h1, h2⟩ | ⟨h1, h2⟩
    · obtain ⟨δ, d1, d2, d3⟩ := near_pos (x := u.2 - y) (y := p.2 - y) (by linarith)
      refine ⟨δ / 2, half_pos d1, by linarith, winding_out (Or.inl ?_)⟩
      intro s hs
      obtain ⟨e, he, rfl⟩ := List.mem_map.mp hs
      have h3 := d3 (δ / 2) (half_pos d1).le (by linarith)
      obtain ⟨k1, k2⟩ := h2 e he
      have : (u + (δ / 2) • (p - u)).2 - y = (1 - δ / 2) * (u.2 - y) + δ / 2 * (p.2 - y) := by
        simp only [Prod.snd_add, Prod.smul_snd, Prod.snd_sub, smul_eq_mul]; ring
      exact ⟨by simp only [segOf]; linarith, by simp only [segOf]; linarith⟩
    · obtain ⟨δ, d1, d2, d3⟩ := near_pos (x := y - u.2) (y := y - p.2) (by linarith)
      refine ⟨δ / 2, half_pos d1, by linarith, winding_out (Or.inr ?_)⟩
      intro s hs
      obtain ⟨e, he, rfl⟩ := List.mem_map.mp hs
      have h3 := d3 (δ / 2) (half_pos d1).le (by linarith)
      obtain ⟨k1, k2⟩ := h2 e he
      have : y - (u + (δ / 2) • (p - u)).2 = (1 - δ / 2) * (y - u.2) + δ / 2 * (y - p.2) := by
        simp only [Prod.snd_add, Prod.smul_snd, Prod.snd_sub, smul_eq_mul]; ring
      exact ⟨by simp only [segOf]; linarith, by simp only [segOf]; linarith⟩
  obtain ⟨ε, e0, e1, hw⟩ := key
  rw [R.D.wind_same R.closed R.segs hf hp (insideFace_mix huf hp e0 e1), hw]

open Classical in
/-- Across an edge. -/
theorem Region.jump (R : Region h h2 F F1 E cons) {e o f' : ℕ} (hf : f ∈ F) (he : (h.he e).face = some f) (ho : (h.he e).opp = some o)
    (hf' : f' ∈ F) (hof : (h.he o).face = some f') {p q : K × K} (hp : Spec.InsideFace h f p) (hq : Spec.InsideFace h f' q) :
    (e ∈ E → Spec.winding (E.map (segOf h)) p = 1 ∧ Spec.winding (E.map (segOf h)) q = 0) ∧
    (e ∉ E → o ∉ E → Spec.winding (E.map (segOf h)) p = Spec.winding (E.map (segOf h)) q) := by
  have hlive : Spec.Live h F e := ⟨f, hf, he⟩
  have hlo : Spec.Live h F o := ⟨f', hf', hof⟩
  have hj := R.D.wind_jump R.closed R.segs hf he ho hf' hof hp hq
  obtain ⟨op1, op2⟩ := R.D.valid.opp_pts hlive ho
  have hz : ∀ x, Spec.Live h F x → x ∉ E → (E.map (segOf h)).count (segOf h x) = 0 := fun x hx hn =>
    List.count_eq_zero.mpr fun hm => hn ((R.mem_segs hx).mp hm)
  constructor
  · intro heE
    have h1 : 0 < (E.map (segOf h)).count (segOf h e) := List.count_pos_iff.mpr ((R.mem_segs hlive).mpr heE)
    have h2 : (E.map (segOf h)).count (segOf h o) = 0 := by
      rw [List.count_eq_zero]
      have := R.once (segOf h e) ((R.mem_segs hlive).mpr heE)
      have e0 : (segOf h e).swap = segOf h o := by unfold segOf; rw [op1, op2]; rfl
      rwa [e0] at this
    have z1 := R.zero_one hf hp
    have z2 := R.zero_one hf' hq
    omega
  · intro n1 n2
    rw [hj, hz e hlive n1, hz o hlo n2]; simp

open Classical in
/-- The faces in which the winding number is one are those that the flood fill reaches. -/
theorem Region.exact (R : Region h h2 F F1 E cons) (hf : f ∈ F) {p : K × K} (hp : Spec.InsideFace h f p) :
    Spec.winding (E.map (segOf h)) p = 1 ↔
      f ∈ F1 ∧ ∃ e ∈ E, ∃ f0, (h.he e).face = some f0 ∧ Relation.ReflTransGen (Spec.Step h2 cons) f0 f := by
  obtain ⟨W, hW⟩ : ∃ W, W = Spec.winding (E.map (segOf h)) := ⟨_, rfl⟩
  have H := R.D.valid
  obtain ⟨Reached, hR⟩ : ∃ Rc : ℕ → Prop, ∀ f, Rc f ↔ ∃ e ∈ E, ∃ f0, (h.he e).face = some f0 ∧ Relation.ReflTransGen (Spec.Step h2 cons) f0 f := ⟨_, fun _ => Iff.rfl⟩
  rw [← hR, ← hW]
  -- reached faces are inside
  have hsound : ∀ f, Reached f → f ∈ F1 ∧ ∀ p, Spec.InsideFace h f p → W p = 1 := by
    intro f hr0
    obtain ⟨e, he, f0, hef, hr⟩ := (hR f).mp hr0
    clear hr0
    induction hr with
    | refl =>
      obtain ⟨f0', hf0, hef'⟩ := R.edges e he
      rw [hef] at hef'; cases hef'
      refine ⟨hf0, fun p hp => ?_⟩
      obtain ⟨o, ho⟩ := Option.ne_none_iff_exists'.mp (R.linked e (R.edges e he))
      obtain ⟨⟨f', hf', hof⟩, -⟩ := H.opp_start (R.live (R.edges e he)) ho
      obtain ⟨q, hq⟩ := H.exists_inside R.D.ccw hf'
      rw [hW]
      exact ((R.jump (R.sub _ hf0) hef ho hf' hof hp hq).1 he).1
    | tail hr hs ih =>
      rename_i g g'
      obtain ⟨x, o, hx, hxc, ho, hg'⟩ := hs
      obtain ⟨ih1, ih2⟩ := ih
      rw [R.face] at hx hg'
      have hlx : Spec.Live h F1 x := ⟨g, ih1, hx⟩
      obtain ⟨ho0, ⟨k, hk, hok⟩⟩ := (R.opp x hlx o).mp ho
      rw [hg'] at hok; cases hok
      refine ⟨hk, fun p hp => ?_⟩
      obtain ⟨q, hq⟩ := H.exists_inside R.D.ccw (R.sub _ ih1)
      rw [← ih2 q hq, hW]
      refine ((R.jump (R.sub _ ih1) hx ho0 (R.sub _ hk) hg' hq hp).2 ?_ ?_).symm
      · exact fun hE => hxc ((R.cons x).mpr (Or.inl hE))
      · intro hE
        refine hxc ((R.cons x).mpr (Or.inr ⟨o, hE, ?_⟩))
        exact (R.opp o ⟨_, hk, hg'⟩ x).mpr ⟨(H.opp_start (R.live hlx) ho0).2.1, hlx⟩
  constructor
  swap
  · rintro ⟨-, hr⟩; exact (hsound f hr).2 p hp
  intro hp1
  by_contra hnot
  -- the faces inside which are not reached have no border
  obtain ⟨C, hC⟩ : ∃ C, C = F.filter fun f => decide ((∀ p, Spec.InsideFace h f p → W p = 1) ∧ ¬(f ∈ F1 ∧ Reached f)) := ⟨_, rfl⟩
  have hmem : ∀ f, f ∈ C ↔ f ∈ F ∧ (∀ p, Spec.InsideFace h f p → W p = 1) ∧ ¬(f ∈ F1 ∧ Reached f) := by
    intro f; rw [hC, List.mem_filter, decide_eq_true_eq]
  have hsame : ∀ f ∈ F, ∀ p, Spec.InsideFace h f p → W p = 1 → ∀ q, Spec.InsideFace h f q → W q = 1 := by
    intro f hf p hp h1 q hq
    rw [← h1, hW]; exact R.D.wind_same R.closed R.segs hf hq hp
  have hF1 : ∀ f ∈ F, (∀ p, Spec.InsideFace h f p → W p = 1) → f ∈ F1 := by
    intro f hf h1
    by_contra hn
    obtain ⟨q, hq⟩ := H.exists_inside R.D.ccw hf
    have := R.outside hf hn hq
    rw [← hW, h1 q hq] at this
    omega
  have hfC : f ∈ C := (hmem f).mpr ⟨hf, fun q hq => hsame f hf p hp hp1 q hq, hnot⟩
  have hnb : ∀ e, ¬Spec.Border h C e := by
    rintro e ⟨⟨g, hg, heg⟩, hb⟩
    obtain ⟨g1, g2, g3⟩ := (hmem g).mp hg
    have gF1 := hF1 g g1 g2
    have hnr : ¬Reached g := fun hr => g3 ⟨gF1, hr⟩
    have hle : Spec.Live h F1 e := ⟨g, gF1, heg⟩
    obtain ⟨o, ho⟩ := Option.ne_none_iff_exists'.mp (R.linked e hle)
    obtain ⟨⟨g', hg', hog⟩, hoe, -⟩ := H.opp_start (R.live hle) ho
    obtain ⟨x, hx⟩ := H.exists_inside R.D.ccw g1
    obtain ⟨y, hy⟩ := H.exists_inside R.D.ccw hg'
    have heE : e ∉ E := fun hE => hnr ((hR g).mpr ⟨e, hE, g, heg, .refl⟩)
    have hoE : o ∉ E := by
      intro hE
      have := ((R.jump hg' hog hoe g1 heg hy hx).1 hE).2
      rw [← hW, g2 x hx] at this
      omega
    have hyx := (R.jump g1 heg ho hg' hog hx hy).2 heE hoE
    rw [← hW, g2 x hx] at hyx
    have g2' : ∀ q, Spec.InsideFace h g' q → W q = 1 := fun q hq => hsame g' hg' y hy hyx.symm q hq
    have g'F1 := hF1 g' hg' g2'
    refine hb o ho g' ((hmem g').mpr ⟨hg', g2', ?_⟩) hog
    rintro ⟨-, hr⟩
    obtain ⟨e0, he0, f0, hef0, hr⟩ := (hR g').mp hr
    refine hnr ((hR g).mpr ⟨e0, he0, f0, hef0, hr.tail ⟨o, e, ?_, ?_, ?_, ?_⟩⟩)
    · rw [R.face]; exact hog
    · intro hc
      rcases (R.cons o).mp hc with hc | ⟨e1, he1, ho1⟩
      · exact hoE hc
      · have h1 := ((R.opp e1 (R.edges e1 he1) o).mp ho1).1
        have h2 := (H.opp_start (R.live (R.edges e1 he1)) h1).2.1
        rw [hoe] at h2; cases h2
        exact heE he1
    · exact (R.opp o ⟨g', g'F1, hog⟩ e).mpr ⟨hoe, hle⟩
    · rw [R.face]; exact heg
  have hCF : ∀ f ∈ C, f ∈ F := fun f hf => ((hmem f).mp hf).1
  have hnd : C.Nodup := by rw [hC]; exact H.nodup.filter _
  have hsum := H.cavity_sum (A := K) (fun x hx => by linarith) (fun p q => p.1 * q.2 - p.2 * q.1) (fun p q => by ring) hCF hnd (b := []) List.nodup_nil
    (by intro e; simp [hnb e])
  have hpos := sum_pos_of_ccw R.D.ccw C hCF (List.ne_nil_of_mem hfC)
  have e1 : Spec.faceArea2 h = faceSum (fun p q => p.1 * q.2 - p.2 * q.1) h := funext fun _ => faceArea2_eq_sum
  rw [e1, hsum] at hpos
  simp at hpos

/-! ## The insertions, with the vertices they make -/

theorem insertTracked_spec : ∀ (X : List (K × K)) (h : Mesh (K × K)) (F : List ℕ), Spec.Delaunay h F → X.Nodup → (∀ x ∈ X, ¬Spec.IsVertex h F x) →
    (∀ x ∈ X, ∀ e, Spec.Live h F e → (h.he e).opp = none → 0 < Spec.side h e x) →
    ∃ h' F', Mesh.insertTracked (h, F) X = .ok ((h', F'), (List.range X.length).map fun i => some (h.nV + i)) ∧ Mesh.insertAll (h, F) X = .ok (h', F') ∧
      h'.nV = h.nV + X.length ∧ (∀ v < h.nV, h'.co v = h.co v) ∧ X = (List.range X.length).map fun i => h'.co (h.nV + i) := by
  intro X
  induction X with
  | nil => intro h F D _ _ _; exact ⟨h, F, rfl, rfl, rfl, fun _ _ => rfl, rfl⟩
  | cons x X ih =>
    intro h F D hnd hX hp
    have hnd' := List.nodup_cons.mp hnd
    obtain ⟨h1, F1, r, a1, a2, a3, a4, -⟩ := C69_insert D (hp x (by simp))
    obtain ⟨s, r', w1, w2⟩ := boyerWatson_spec D.valid D.ccw x
    rw [a1] at w1
    obtain ⟨rfl, rfl⟩ := Prod.mk.inj (Except.ok.inj w1)
    rcases w2 with ⟨-, w2, w3⟩ | ⟨sd, C, l, h', -, -, -, -, -, R, w2, w3⟩
    · exfalso
      simp only [Prod.mk.injEq] at w2
      obtain ⟨rfl, rfl⟩ := w2
      exact hX x (by simp) ((a3 x).mpr (Or.inl rfl))
    simp only [Prod.mk.injEq] at w2
    obtain ⟨rfl, rfl⟩ := w2
    obtain ⟨h2, F2, b1, b2, b3, b4, b5⟩ := ih h1 _ a2 hnd'.2 (by
      intro y hy hv
      rcases (a3 y).mp hv with rfl | hv
      · exact hnd'.1 hy
      · exact hX y (by simp [hy]) hv) (by
      intro y hy e he ho
      obtain ⟨k1, k2, k3⟩ := a4 e he ho
      rw [k3]
      exact hp y (by simp [hy]) e k1 k2)
    have hn := R.nV
    refine ⟨h2, F2, ?_, ?_, ?_, ?_, ?_⟩
    · rw [Mesh.insertTracked, a1, R_bind_ok]
      dsimp only
      rw [b1, R_bind_ok, w3]
      simp only [List.length_cons, List.range_succ_eq_map, List.map_cons, List.map_map, Option.map_some, add_zero, hn]
      show Except.ok _ = Except.ok _
      congr 3
      apply List.map_congr_left
      intro i _
      simp only [Function.comp, Nat.succ_eq_add_one]
      congr 1; omega
    · rw [Mesh.insertAll, a1, R_bind_ok]; exact b2
    · rw [b3, hn, List.length_cons]; omega
    · intro v hv
      rw [b4 v (by omega), R.co_old hv]
    · rw [List.length_cons, List.range_succ_eq_map, List.map_cons, List.map_map, add_zero, b4 h.nV (by omega), R.co_new]
      congr 1
      conv_lhs => rw [b5]
      apply List.map_congr_left
      intro i _
      simp only [Function.comp, Nat.succ_eq_add_one, hn]
      congr 1; omega

open Classical in
/-- The links after the removal of vertices. -/
theorem removeAll_links : ∀ (vs : List ℕ) (h : Mesh (K × K)) (F : List ℕ), Spec.Valid h F →
    ∃ h', Mesh.removeAll (h, F) vs = .ok (h', F.filter fun f => decide (∀ v ∈ vs, ¬Spec.HasVertex h v f)) ∧ SameBut h h' ∧
      ∀ e, Spec.Live h (F.filter fun f => decide (∀ v ∈ vs, ¬Spec.HasVertex h v f)) e → ∀ o,
        ((h'.he e).opp = some o ↔ (h.he e).opp = some o ∧ Spec.Live h (F.filter fun f => decide (∀ v ∈ vs, ¬Spec.HasVertex h v f)) o) := by
  intro vs
  induction vs with
  | nil =>
    intro h F H
    refine ⟨h, by simp [Mesh.removeAll], SameBut.refl h, fun e he o => ⟨fun ho => ⟨ho, ?_⟩, fun ho => ho.1⟩⟩
    simp only [List.not_mem_nil, false_imp_iff, implies_true, decide_true, List.filter_true] at he ⊢
    exact (H.opp_start he ho).1
  | cons v vs ih =>
    intro h F H
    obtain ⟨h1, a1, a2, a3, a4⟩ := removeFaces_spec v F [] h H
    obtain ⟨h2, b1, b2, b3⟩ := ih h1 _ a3
    have hiff : ∀ v g, Spec.HasVertex h1 v g ↔ Spec.HasVertex h v g := by
      intro v g; unfold Spec.HasVertex; simp only [a2.face, a2.vertex]
    have hF : ((F.filter fun f => decide (¬Spec.HasVertex h v f)).filter fun f => decide (∀ w ∈ vs, ¬Spec.HasVertex h1 w f)) =
        F.filter fun f => decide (∀ w ∈ v :: vs, ¬Spec.HasVertex h w f) := by
      rw [List.filter_filter]
      apply List.filter_congr
      intro f _
      simp only [hiff, List.forall_mem_cons]
      by_cases h1 : Spec.HasVertex h v f <;> by_cases h2 : ∀ w ∈ vs, ¬Spec.HasVertex h w f <;> simp [h1, h2]
    simp only [List.nil_append] at b1 b3 a4
    rw [hF] at b1 b3
    have hlive : ∀ G e, Spec.Live h1 G e ↔ Spec.Live h G e := by
      intro G e; unfold Spec.Live; simp only [a2.face]
    simp only [hlive] at b3
    refine ⟨h2, by rw [Mesh.removeAll, a1, R_bind_ok]; exact b1, a2.trans b2, ?_⟩
    intro e he o
    rw [b3 e he o]
    have hsub : ∀ x, Spec.Live h (F.filter fun f => decide (∀ w ∈ v :: vs, ¬Spec.HasVertex h w f)) x →
        Spec.Live h (F.filter fun f => decide (¬Spec.HasVertex h v f)) x := by
      rintro x ⟨g, hg, hx⟩
      rw [List.mem_filter, decide_eq_true_eq] at hg
      exact ⟨g, List.mem_filter.mpr ⟨hg.1, by simpa using hg.2 v (by simp)⟩, hx⟩
    constructor
    · rintro ⟨ho, hl⟩
      refine ⟨?_, hl⟩
      rcases a4 e (hsub e he) with ⟨-, -, -, -, -, -, hn⟩ | ⟨-, hn⟩
      · rw [hn] at ho; cases ho
      · rw [← hn]; exact ho
    · rintro ⟨ho, hl⟩
      refine ⟨?_, hl⟩
      rcases a4 e (hsub e he) with ⟨o', g, ho', hg, hgF, hgv, hn⟩ | ⟨-, hn⟩
      · rw [ho] at ho'; cases ho'
        obtain ⟨g', hg', hog⟩ := hsub o hl
        rw [hg] at hog; cases hog
        simp only [List.mem_filter, decide_eq_true_eq] at hg'
        exact absurd hgv hg'.2
      · rw [hn]; exact ho

/-! ## Rings -/

theorem splitRings_map {α β : Type} (g : α → β) : ∀ (ns : List ℕ) (l : List α), Mesh.splitRings ns (l.map g) = (Mesh.splitRings ns l).map (List.map g)
  | [], _ => rfl
  | n :: ns, l => by rw [Mesh.splitRings, Mesh.splitRings, ← List.map_take, ← List.map_drop, splitRings_map g ns, List.map_cons]

theorem splitRings_flatten {α : Type} : ∀ (rs : List (List α)), Mesh.splitRings (rs.map List.length) rs.flatten = rs
  | [] => rfl
  | r :: rs => by
    rw [List.map_cons, List.flatten_cons, Mesh.splitRings, List.take_left, List.drop_left, splitRings_flatten rs]

theorem ringPairs_map {α β : Type} (g : α → β) (l : List α) : Mesh.ringPairs (l.map g) = (Mesh.ringPairs l).map (Prod.map g g) := by
  unfold Mesh.ringPairs
  rw [← List.map_rotate, List.zip_map]

theorem pairs_map {α β : Type} (g : α → β) (rs : List (List α)) :
    ((rs.map (List.map g)).map Mesh.ringPairs).flatten = ((rs.map Mesh.ringPairs).flatten).map (Prod.map g g) := by
  rw [List.map_flatten, List.map_map, List.map_map]
  congr 1
  apply List.map_congr_left
  intro l _
  exact ringPairs_map g l

theorem zip_sum {α : Type} (g : α → ℤ) : ∀ (l l' : List α), l.length = l'.length →
    ((l.zip l').map fun s => g s.2 - g s.1).sum = (l'.map g).sum - (l.map g).sum
  | [], [], _ => rfl
  | [], _ :: _, h => by simp at h
  | _ :: _, [], h => by simp at h
  | a :: l, b :: l', h => by
    have := zip_sum g l l' (by simpa using h)
    simp only [List.zip_cons_cons, List.map_cons, List.sum_cons, this]
    ring

theorem ring_sum {α : Type} (g : α → ℤ) (l : List α) : ((Mesh.ringPairs l).map fun s => g s.2 - g s.1).sum = 0 := by
  unfold Mesh.ringPairs
  rw [zip_sum g l _ (by simp), ((List.rotate_perm l 1).map g).sum_eq, sub_self]

theorem rings_closed (rs : List (List (K × K))) : Closed2 (rs.map Mesh.ringPairs).flatten := by
  intro g
  rw [List.map_flatten, List.map_map, List.sum_flatten, List.map_map]
  apply List.sum_eq_zero
  intro x hx
  obtain ⟨l, -, rfl⟩ := List.mem_map.mp hx
  exact ring_sum g l

theorem mem_ringPairs {α : Type} {l : List α} {s : α × α} (hs : s ∈ Mesh.ringPairs l) : s.1 ∈ l ∧ s.2 ∈ l := by
  have := List.of_mem_zip (a := s.1) (b := s.2) hs
  exact ⟨this.1, (List.mem_rotate).mp this.2⟩

/-! ## The recovery and the fill when every side is there -/

theorem recoverRings_spec (tol : K) (n : ℕ × ℕ → ℕ) : ∀ (P : List (ℕ × ℕ)) (cons : List ℕ),
    (∀ x ∈ P, x.1 ≠ x.2 ∧ h.findHalfEdge x.1 x.2 = .ok (some (n x))) →
    Mesh.recoverRings tol (P.map (Prod.map some some)) h cons = .ok (h, cons ++ (P.map n).flatMap fun e => e :: (h.he e).opp.toList) := by
  intro P
  induction P with
  | nil => intro cons _; simp [Mesh.recoverRings]
  | cons x P ih =>
    intro cons hP
    obtain ⟨h1, h2⟩ := hP x (by simp)
    have h3 : h.recoverEdge tol x.1 x.2 = .ok (h, some (n x)) := by
      unfold Mesh.recoverEdge
      rw [if_neg h1, h2, R_bind_ok]
      rfl
    rw [List.map_cons]
    show Mesh.recoverRings tol ((some x.1, some x.2) :: _) h cons = _
    rw [Mesh.recoverRings, h3, R_bind_ok]
    dsimp only
    rw [ih _ fun y hy => hP y (by simp [hy])]
    simp

theorem seedRings_spec (n : ℕ × ℕ → ℕ) (g : ℕ → ℕ) : ∀ (P : List (ℕ × ℕ)) (s : List ℕ), s.Nodup →
    (∀ x ∈ P, h.findHalfEdge x.1 x.2 = .ok (some (n x)) ∧ (h.he (n x)).face = some (g (n x))) →
    ∃ s', h.seedRings (P.map (Prod.map some some)) s = .ok s' ∧ s'.Nodup ∧ ∀ f, f ∈ s' ↔ f ∈ s ∨ f ∈ (P.map n).map g := by
  intro P
  induction P with
  | nil => intro s hs _; exact ⟨s, rfl, hs, by simp⟩
  | cons x P ih =>
    intro s hs hP
    obtain ⟨h1, h2⟩ := hP x (by simp)
    obtain ⟨s', k1, k2, k3⟩ := ih (if g (n x) ∈ s then s else s ++ [g (n x)]) (by
      split_ifs with hm
      · exact hs
      · exact List.nodup_append.mpr ⟨hs, by simp, fun a ha b hb hab => hm (by simp only [List.mem_singleton] at hb; rw [← hb, ← hab]; exact ha)⟩)
      fun y hy => hP y (by simp [hy])
    refine ⟨s', ?_, k2, fun f => ?_⟩
    · rw [List.map_cons]
      show Mesh.seedRings h ((some x.1, some x.2) :: _) s = _
      rw [Mesh.seedRings, h1, R_bind_ok]
      simp only [Option.bind_some, h2]
      exact k1
    · rw [k3 f]
      simp only [List.map_cons, List.mem_cons]
      split_ifs with hm
      · constructor
        · rintro (hh | hh)
          exacts [Or.inl hh, Or.inr (Or.inr hh)]
        · rintro (hh | rfl | hh)
          exacts [Or.inl hh, Or.inl hm, Or.inr hh]
      · simp only [List.mem_append, List.mem_singleton]
        tauto

theorem keepInterior_spec (H : Spec.Valid h F) (tol : K) (n : ℕ × ℕ → ℕ) (P : List (ℕ × ℕ))
    (hP : ∀ x ∈ P, x.1 ≠ x.2 ∧ h.findHalfEdge x.1 x.2 = .ok (some (n x)) ∧ Spec.Live h F (n x)) :
    ∃ S cons, Mesh.keepInterior tol h F (P.map (Prod.map some some)) = .ok (h, S) ∧ S.Sublist F ∧
      (∀ x, x ∈ cons ↔ x ∈ P.map n ∨ ∃ e ∈ P.map n, (h.he e).opp = some x) ∧
      ∀ f, f ∈ S ↔ f ∈ F ∧ ∃ e ∈ P.map n, ∃ f0, (h.he e).face = some f0 ∧ Relation.ReflTransGen (Spec.Step h cons) f0 f := by
  have h1 := recoverRings_spec (h := h) tol n P [] fun x hx => ⟨(hP x hx).1, (hP x hx).2.1⟩
  obtain ⟨g, hg⟩ : ∃ g : ℕ → ℕ, ∀ x ∈ P, (h.he (n x)).face = some (g (n x)) ∧ g (n x) ∈ F := by
    refine ⟨fun e => ((h.he e).face).getD 0, fun x hx => ?_⟩
    obtain ⟨f, hf, he⟩ := (hP x hx).2.2
    simp [he, hf]
  obtain ⟨s, s1, s2, s3⟩ := seedRings_spec (h := h) n g P [] List.nodup_nil fun x hx => ⟨(hP x hx).2.1, (hg x hx).1⟩
  simp only [List.not_mem_nil, false_or] at s3
  have hsF : ∀ f ∈ s, f ∈ F := by
    intro f hf
    rw [s3, List.map_map] at hf
    obtain ⟨x, hx, rfl⟩ := List.mem_map.mp hf
    exact (hg x hx).2
  obtain ⟨cons, hc⟩ : ∃ cons, cons = [] ++ (P.map n).flatMap fun e => e :: (h.he e).opp.toList := ⟨_, rfl⟩
  obtain ⟨J, j1, j2, j3, j4, j5⟩ := fillFaces_spec H cons (h.nF + 1) s s s2 hsF (fun f hf => hf) (fun f hf hn => absurd hf hn) (by omega)
  refine ⟨F.filter fun f => decide (f ∈ J), cons, ?_, List.filter_sublist, ?_, ?_⟩
  · unfold Mesh.keepInterior
    rw [h1, R_bind_ok, ← hc]
    dsimp only
    rw [s1, R_bind_ok, j1, R_bind_ok]
    rfl
  · intro x
    rw [hc]
    simp only [List.nil_append, List.mem_flatMap, List.mem_cons, Option.mem_toList]
    constructor
    · rintro ⟨e, he, rfl | ho⟩
      exacts [Or.inl he, Or.inr ⟨e, he, ho⟩]
    · rintro (hx | ⟨e, he, ho⟩)
      exacts [⟨x, hx, Or.inl rfl⟩, ⟨e, he, Or.inr ho⟩]
  · intro f
    rw [List.mem_filter, decide_eq_true_eq]
    constructor
    · rintro ⟨hf, hJ⟩
      refine ⟨hf, ?_⟩
      obtain ⟨f0, hf0, hr⟩ := j5 f hJ
      rw [s3, List.map_map] at hf0
      obtain ⟨x, hx, rfl⟩ := List.mem_map.mp hf0
      exact ⟨n x, List.mem_map_of_mem hx, _, (hg x hx).1, hr⟩
    · rintro ⟨hf, e, he, f0, hef, hr⟩
      refine ⟨hf, ?_⟩
      have h0 : f0 ∈ J := by
        obtain ⟨x, hx, rfl⟩ := List.mem_map.mp he
        apply j2
        rw [s3, List.map_map]
        rw [(hg x hx).1] at hef; cases hef
        exact List.mem_map.mpr ⟨x, hx, rfl⟩
      clear hef hf
      induction hr with
      | refl => exact h0
      | tail _ hs ih => exact j4 _ ih _ hs

/-- A polygon does not turn around points that are not in its box. -/
theorem winding_box {B : List ((K × K) × (K × K))} (hB : Closed2 B) {p lo hi : K × K} (hp : ∀ s ∈ B, ¬Spec.OnSeg s.1 s.2 p)
    (hbox : ∀ s ∈ B, ∀ x, x = s.1 ∨ x = s.2 → lo.1 ≤ x.1 ∧ lo.2 ≤ x.2 ∧ x.1 ≤ hi.1 ∧ x.2 ≤ hi.2) (hw : Spec.winding B p ≠ 0) :
    lo.1 ≤ p.1 ∧ lo.2 ≤ p.2 ∧ p.1 ≤ hi.1 ∧ p.2 ≤ hi.2 := by
  have hx : ((∀ s ∈ B, p.1 ≤ s.1.1 ∧ p.1 ≤ s.2.1) ∨ ∀ s ∈ B, s.1.1 < p.1 ∧ s.2.1 < p.1) → Spec.winding B p = 0 := by
    intro hx
    rw [← windD_one, ← windD_turn (d := (0, 1)) (by simp) hB hp]
    unfold windD
    rw [List.sum_eq_zero]
    intro x hx'
    obtain ⟨s, hs, rfl⟩ := List.mem_map.mp hx'
    unfold crossD
    apply crossing_same
    simp only [turnD]
    rcases hx with hx | hx
    · left; have := hx s hs; constructor <;> linarith
    · right; have := hx s hs; constructor <;> linarith
  refine ⟨?_, ?_, ?_, ?_⟩ <;> by_contra hn <;> rw [not_le] at hn <;> apply hw
  · exact hx (Or.inl fun s hs => ⟨by have := hbox s hs _ (Or.inl rfl); linarith, by have := hbox s hs _ (Or.inr rfl); linarith⟩)
  · exact winding_out (Or.inr fun s hs => ⟨by have := hbox s hs _ (Or.inl rfl); linarith, by have := hbox s hs _ (Or.inr rfl); linarith⟩)
  · exact hx (Or.inr fun s hs => ⟨by have := hbox s hs _ (Or.inl rfl); linarith, by have := hbox s hs _ (Or.inr rfl); linarith⟩)
  · exact winding_out (Or.inl fun s hs => ⟨by have := hbox s hs _ (Or.inl rfl); linarith, by have := hbox s hs _ (Or.inr rfl); linarith⟩)

end Gbs
