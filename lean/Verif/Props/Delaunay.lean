import Verif.Props.Insert
import Verif.Props.Geom2
import Verif.Lemmas.InCircle

/-!
# C69: insertion in a Delaunay triangulation
-/

set_option linter.unusedSectionVars false

namespace Gbs

variable {K : Type} [Field K] [LinearOrder K] [IsStrictOrderedRing K] {h h' : Mesh (K × K)} {F C l : List ℕ} {f a b c : ℕ} {xy : K × K}

/-- A corner of a face of the list. -/
def Spec.IsVertex (h : Mesh (K × K)) (F : List ℕ) (p : K × K) : Prop := ∃ e, Spec.Live h F e ∧ Spec.endPt h e = p

/-- The point is not strictly inside the circle through the corners of the face. -/
def Spec.OutOfCircle (h : Mesh (K × K)) (f : ℕ) (u : K × K) : Prop :=
  ∀ o r, Spec.dist2 o (Spec.corners h f).1 = r → Spec.dist2 o (Spec.corners h f).2.1 = r → Spec.dist2 o (Spec.corners h f).2.2 = r → r ≤ Spec.dist2 o u

/-- A Delaunay triangulation of a convex region: the circle of a triangle has no vertex strictly inside, no vertex is on the right of an edge of the
border, and no point is in two triangles. For points of edges the last condition counts the triangle on one side only: `crossing p a b` is 1 when the segment
from `a` to `b` crosses upwards the ray from `p` towards the right, -1 when it crosses it downwards, and for a counter-clockwise triangle the sum over the
sides is 1 when `p` is inside and 0 when it is outside. -/
structure Spec.Delaunay (h : Mesh (K × K)) (F : List ℕ) : Prop where
  valid : Spec.Valid h F
  ccw : Spec.Ccw h F
  ne : F ≠ []
  empty : ∀ f ∈ F, ∀ u, Spec.IsVertex h F u → Spec.OutOfCircle h f u
  convex : ∀ e, Spec.Live h F e → (h.he e).opp = none → ∀ u, Spec.IsVertex h F u → 0 ≤ Spec.side h e u
  once : ∀ p, (F.map (faceSum (crossing p) h)).sum ≤ 1

theorem outOfCircle_iff (hw : 0 < Spec.faceArea2 h f) (u : K × K) : Spec.OutOfCircle h f u ↔ faceInc h f u ≤ 0 := by
  unfold Spec.OutOfCircle faceInc
  have hw' : 0 < orient2d (Spec.corners h f).1 (Spec.corners h f).2.1 (Spec.corners h f).2.2 := by rw [orient2d_eq]; exact hw
  generalize (Spec.corners h f).1 = A at *
  generalize (Spec.corners h f).2.1 = B at *
  generalize (Spec.corners h f).2.2 = C at *
  constructor
  · intro H
    have habs : 0 < |2 * orient2d A B C| := abs_pos.mpr (by linarith)
    obtain ⟨o, -, h1, h2, -⟩ := (C45_circle_center habs A B C).1 le_rfl
    by_contra hn
    have := (C45_in_circle hw' o h1 h2 u).1.mp (not_le.mp hn)
    have := H o (Spec.dist2 o A) rfl h1.symm h2.symm
    linarith
  · intro H o r h1 h2 h3
    by_contra hn
    have := (C45_in_circle hw' o (h1.trans h2.symm) (h1.trans h3.symm) u).1.mpr (by rw [h1]; exact not_le.mp hn)
    linarith

theorem Spec.Valid.faceInc (H : Spec.Valid h F) (hf : f ∈ F) (t : Tri h f a b c) (u : K × K) :
    faceInc h f u = inCircle (Spec.endPt h a) (Spec.endPt h b) (Spec.endPt h c) u := by
  obtain ⟨x, y, z, t', hfe⟩ := H.tri hf
  rw [Gbs.faceInc, t'.corners hfe]
  rcases t.own x t'.fa with rfl | rfl | rfl
  · obtain ⟨-, rfl, rfl⟩ := t'.unique t; rfl
  · obtain ⟨-, rfl, rfl⟩ := t'.unique t.rotate
    exact inCircle_rotate _ _ _ _
  · obtain ⟨-, rfl, rfl⟩ := t'.unique t.rotate.rotate
    exact (inCircle_rotate _ _ _ _).symm

theorem Spec.Delaunay.inc (D : Spec.Delaunay h F) (hf : f ∈ F) {u : K × K} (hu : Spec.IsVertex h F u) : Gbs.faceInc h f u ≤ 0 :=
  (outOfCircle_iff (D.ccw f hf) u).mp (D.empty f hf u hu)

/-- In a closed triangle without being a corner: strictly inside the circle. -/
theorem Spec.Valid.inc_pos (H : Spec.Valid h F) (hw : Spec.Ccw h F) (hf : f ∈ F) {p : K × K} (hin : Spec.InFace h f p)
    (hnc : ¬Spec.IsCorner h f p) : 0 < Gbs.faceInc h f p := by
  obtain ⟨a, b, c, t, -⟩ := H.tri hf
  have hpos := hw f hf
  rw [H.faceArea2 hf t] at hpos
  rw [H.faceInc hf t]
  obtain ⟨s1, s2, s3⟩ := t.inFace.mp hin
  have hnc' : (0 < Spec.side h b p ∧ 0 < Spec.side h c p) ∨ (0 < Spec.side h c p ∧ 0 < Spec.side h a p) ∨ (0 < Spec.side h a p ∧ 0 < Spec.side h b p) := by
    rcases eq_or_lt_of_le s1 with h1 | h1
    · exact Or.inl (t.on_edge hpos hin hnc h1.symm)
    · rcases eq_or_lt_of_le s2 with h2 | h2
      · have := t.rotate.on_edge (by rw [area2_rotate]; exact hpos) hin hnc h2.symm
        exact Or.inr (Or.inl this)
      · exact Or.inr (Or.inr ⟨h1, h2⟩)
  unfold Spec.side at hnc' s1 s2 s3
  rw [t.startPt, t.rotate.startPt, t.rotate.rotate.startPt] at hnc'
  rw [t.startPt] at s1
  rw [t.rotate.startPt] at s2
  rw [t.rotate.rotate.startPt] at s3
  exact inCircle_pos hpos s2 s3 s1 hnc'

/-- A vertex in a closed triangle is a corner of it. -/
theorem Spec.Delaunay.corner (D : Spec.Delaunay h F) (hf : f ∈ F) {u : K × K} (hu : Spec.IsVertex h F u) (hin : Spec.InFace h f u) :
    Spec.IsCorner h f u := by
  by_contra hn
  have := D.valid.inc_pos D.ccw hf hin hn
  have := D.inc hf hu
  linarith

/-- The border of a set of faces with the point in their circles, the neighbours of which do not have it in theirs. -/
theorem Spec.Delaunay.border_side (D : Spec.Delaunay h F) {S : List ℕ} (hS : ∀ f ∈ S, f ∈ F) (hin : ∀ f ∈ S, 0 < Gbs.faceInc h f xy)
    (hout : ∀ f ∈ S, ∀ e o g, (h.he e).face = some f → (h.he e).opp = some o → (h.he o).face = some g → g ∈ S ∨ Gbs.faceInc h g xy ≤ 0)
    (hp : ∀ e, Spec.Live h F e → (h.he e).opp = none → 0 < Spec.side h e xy) {e : ℕ} (he : Spec.Border h S e) : 0 < Spec.side h e xy := by
  obtain ⟨⟨f, hf, hef⟩, hopp⟩ := he
  have hfF := hS f hf
  have hlive : Spec.Live h F e := ⟨f, hfF, hef⟩
  rcases D.valid.across hlive with ⟨-, h2⟩ | ⟨o, g, ho, hog, hg, -⟩
  · exact hp e hlive h2
  · have hgS : g ∉ S := fun hgS => hopp o ho g hgS hog
    have hg0 := (hout f hf e o g hef ho hog).resolve_left hgS
    obtain ⟨b, c, t⟩ := D.valid.triAt hfF hef
    obtain ⟨b', c', u⟩ := D.valid.triAt hg hog
    have hwf := D.ccw f hfF
    have hwg := D.ccw g hg
    have hinf := hin f hf
    have hdx := D.inc hg (u := Spec.endPt h b) ⟨b, ⟨f, hfF, t.fb⟩, rfl⟩
    rw [D.valid.faceArea2 hfF t] at hwf
    rw [D.valid.faceInc hfF t] at hinf
    rw [D.valid.faceArea2 hg u] at hwg
    rw [D.valid.faceInc hg u] at hg0 hdx
    obtain ⟨p1, p2⟩ := D.valid.opp_pts hlive ho
    rw [u.startPt] at p1
    rw [t.startPt] at p2
    rw [p1, p2] at hwg hg0 hdx
    rw [Spec.side, t.startPt]
    generalize Spec.endPt h e = B at *
    generalize Spec.endPt h b = X at *
    generalize Spec.endPt h c = A at *
    generalize Spec.endPt h b' = Y at *
    refine inCircle_beyond (x := X) (y := Y) ?_ ?_ ?_ ?_ ?_
    · rw [← area2_rotate]; exact hwf
    · rw [← area2_rotate]; exact hwg
    · rw [← inCircle_rotate]; exact hdx
    · rw [← inCircle_rotate]; exact hinf
    · rw [← inCircle_rotate]; exact hg0

/-- The signed crossings of a loop seen counter-clockwise. -/
theorem Spec.Loop.crossing (hl : Spec.Loop h l) (hs : ∀ e ∈ l, 0 < Spec.side h e xy) :
    1 ≤ (l.map fun e => crossing xy (Spec.startPt h e) (Spec.endPt h e)).sum := by
  obtain ⟨hc, x, y, hx, hy, hxy⟩ := hl
  have := loop_crossing (p := xy) (l := l.map fun e => (Spec.startPt h e, Spec.endPt h e)) (s := (Spec.startPt h x, Spec.endPt h x))
    (t := (Spec.startPt h y, Spec.endPt h y)) (by
      unfold SegChain
      rw [List.isChain_map]
      exact hc.imp fun a b hab => by simp only [Spec.endPt, Spec.startPt, hab])
    (by simp [hx]) (by simp [hy]) (by simp only [Spec.endPt, Spec.startPt, hxy]) (by
      intro z hz
      obtain ⟨e, he, rfl⟩ := List.mem_map.mp hz
      exact hs e he)
  rwa [List.map_map] at this

theorem sum_loops_ge (φ : ℕ → ℤ) : ∀ ls : List (List ℕ), (∀ l ∈ ls, 1 ≤ (l.map φ).sum) → (ls.length : ℤ) ≤ (ls.flatten.map φ).sum := by
  intro ls
  induction ls with
  | nil => simp
  | cons l ls ih =>
    intro hl
    have h1 := ih fun x hx => hl x (by simp [hx])
    have h2 := hl l (by simp)
    rw [List.flatten_cons, List.map_append, List.sum_append, List.length_cons]
    push_cast; linarith

theorem sum_pos_of_ccw (hw : Spec.Ccw h F) : ∀ S : List ℕ, (∀ f ∈ S, f ∈ F) → S ≠ [] → 0 < (S.map (Spec.faceArea2 h)).sum := by
  intro S
  induction S with
  | nil => intro _ hne; exact absurd rfl hne
  | cons f S ih =>
    intro hS _
    have h1 := hw f (hS f (by simp))
    rw [List.map_cons, List.sum_cons]
    rcases eq_or_ne S [] with rfl | hne
    · simpa using h1
    · have := ih (fun g hg => hS g (by simp [hg])) hne
      linarith

/-- A set of faces whose border is seen counter-clockwise from the point has it inside; the number of loops of the border is at most the number of times. -/
theorem Spec.Valid.star_crossing (H : Spec.Valid h F) (hw : Spec.Ccw h F) {S : List ℕ} (hS : ∀ f ∈ S, f ∈ F) (hnd : S.Nodup) (hne : S ≠ [])
    (hs : ∀ e, Spec.Border h S e → 0 < Spec.side h e xy) {ls : List (List ℕ)} (h1 : ls.flatten.Nodup)
    (h2 : ∀ e, e ∈ ls.flatten ↔ Spec.Border h S e) (h3 : ∀ l ∈ ls, Spec.Loop h l) :
    1 ≤ ls.length ∧ (ls.length : ℤ) ≤ (S.map (faceSum (Gbs.crossing xy) h)).sum := by
  constructor
  · by_contra hn
    have hnil : ls = [] := by
      rw [← List.length_eq_zero_iff]; omega
    subst hnil
    have ha := H.cavity_sum (A := K) (fun x hx => by linarith) (fun p q => p.1 * q.2 - p.2 * q.1) (fun p q => by ring) hS hnd h1 h2
    have hp := sum_pos_of_ccw hw S hS hne
    have e : Spec.faceArea2 h = faceSum (fun p q => p.1 * q.2 - p.2 * q.1) h := funext fun _ => faceArea2_eq_sum
    rw [e, ha] at hp
    simp at hp
  · rw [H.cavity_sum (A := ℤ) (fun x hx => by omega) (Gbs.crossing xy) (fun a b => crossing_swap xy a b) hS hnd h1 h2]
    exact sum_loops_ge _ ls fun l hl => (h3 l hl).crossing fun e he => hs e ((h2 e).mp (List.mem_flatten.mpr ⟨l, hl, he⟩))

theorem crossing_sum_nonneg (H : Spec.Valid h F) (hw : Spec.Ccw h F) (p : K × K) : ∀ S : List ℕ, (∀ f ∈ S, f ∈ F) →
    0 ≤ (S.map (faceSum (Gbs.crossing p) h)).sum := by
  intro S
  induction S with
  | nil => simp
  | cons f S ih =>
    intro hS
    have h1 := ih fun g hg => hS g (by simp [hg])
    have h2 := (H.faceCrossing hw (hS f (by simp)) p).1
    rw [List.map_cons, List.sum_cons]
    rcases h2 with h2 | h2 <;> rw [h2] <;> linarith

/-- A face that counts. -/
theorem crossing_sum_pos (H : Spec.Valid h F) (hw : Spec.Ccw h F) {p : K × K} : ∀ S : List ℕ, (∀ f ∈ S, f ∈ F) →
    1 ≤ (S.map (faceSum (Gbs.crossing p) h)).sum → ∃ f ∈ S, Spec.InFace h f p := by
  intro S
  induction S with
  | nil => intro _ hh; simp at hh
  | cons f S ih =>
    intro hS hh
    obtain ⟨h1, h2, -⟩ := H.faceCrossing hw (hS f (by simp)) p
    rw [List.map_cons, List.sum_cons] at hh
    rcases h1 with h1 | h1
    · rw [h1, zero_add] at hh
      obtain ⟨g, hg, hgi⟩ := ih (fun g hg => hS g (by simp [hg])) hh
      exact ⟨g, by simp [hg], hgi⟩
    · exact ⟨f, by simp, h2 h1⟩

/-- A point on the left of the border is in a face. -/
theorem Spec.Delaunay.located (D : Spec.Delaunay h F) (hp : ∀ e, Spec.Live h F e → (h.he e).opp = none → 0 < Spec.side h e xy) :
    ∃ f ∈ F, Spec.InFace h f xy := by
  obtain ⟨ls, -, h1, h2, h3⟩ := C43_oriented_boundaries D.valid (C := F) (fun _ h => h) D.valid.nodup
  have := D.valid.star_crossing D.ccw (S := F) (xy := xy) (fun _ h => h) D.valid.nodup D.ne (by
    rintro e ⟨he, ho⟩
    refine hp e he ?_
    rcases D.valid.across he with ⟨-, h2⟩ | ⟨o, g, h1, h2, h3, -⟩
    · exact h2
    · exact absurd h2 (ho o h1 g h3)) h1 h2 h3
  exact crossing_sum_pos D.valid D.ccw F (fun _ h => h) (by omega)

/-- Facts on the cavity. -/
theorem Spec.Delaunay.cavity (D : Spec.Delaunay h F) (hp : ∀ e, Spec.Live h F e → (h.he e).opp = none → 0 < Spec.side h e xy)
    (hv : ¬Spec.IsVertex h F xy) {sd : List ℕ} (hs : Seeds h F xy sd) (G : Grown h F sd xy C []) :
    (∀ f ∈ C, 0 < Gbs.faceInc h f xy) ∧ (∀ e, Spec.Border h C e → 0 < Spec.side h e xy) ∧ C ≠ [] ∧
      ∀ f ∈ F, f ∉ C → Gbs.faceInc h f xy ≤ 0 := by
  classical
  have hcor : ∀ f ∈ F, ¬Spec.IsCorner h f xy := by
    rintro f hf ⟨e, he, hc⟩
    exact hv ⟨e, ⟨f, hf, he⟩, hc⟩
  have hseed : ∀ f ∈ sd, 0 < Gbs.faceInc h f xy := by
    cases hs with
    | @inside f hf hin =>
      intro g hg
      simp at hg; subst hg
      exact D.valid.inc_pos D.ccw hf (fun e he => (hin e he).le) (hcor _ hf)
    | @edge f g e o hf hg hin hnc he h0 ho hog =>
      intro x hx
      simp at hx
      rcases hx with rfl | rfl
      · exact D.valid.inc_pos D.ccw hf hin hnc
      · obtain ⟨b, c, t⟩ := D.valid.triAt hf he
        obtain ⟨b', c', u⟩ := D.valid.triAt hg hog
        obtain ⟨-, -, s3, s4⟩ := D.valid.edge_sides D.ccw hf hg hin hnc he h0 ho hog t u
        refine D.valid.inc_pos D.ccw hg (u.inFace.mpr ⟨?_, s3.le, s4.le⟩) (hcor _ hg)
        rw [D.valid.side_opp ⟨f, hf, he⟩ ho, h0, neg_zero]
    | @outer f e hf hin hnc he h0 ho =>
      exact absurd (hp e ⟨f, hf, he⟩ ho) (by rw [h0]; exact lt_irrefl _)
  have hinC : ∀ f ∈ C, 0 < Gbs.faceInc h f xy := by
    intro f hf
    rcases G.inc f hf with h1 | h1
    · exact hseed f h1
    · exact h1
  have hCne : C ≠ [] := by
    obtain ⟨x, rest, rfl⟩ := List.exists_cons_of_ne_nil hs.ne_nil
    intro hc
    have := G.seeds x (by simp)
    rw [hc] at this; simp at this
  have hbord := fun e => D.border_side G.sub hinC (fun f hf => G.closed f hf (by simp)) hp (e := e)
  refine ⟨hinC, hbord, hCne, ?_⟩
  -- the faces with the point in their circle which are not in the cavity
  have hS : ∀ f ∈ F.filter (fun f => decide (f ∉ C ∧ 0 < Gbs.faceInc h f xy)), f ∈ F ∧ f ∉ C ∧ 0 < Gbs.faceInc h f xy := by
    intro f hf
    simpa using hf
  by_contra hn
  push Not at hn
  obtain ⟨f0, hf0, hf0C, hf0p⟩ := hn
  have hSne : F.filter (fun f => decide (f ∉ C ∧ 0 < Gbs.faceInc h f xy)) ≠ [] := by
    intro hc
    have : f0 ∈ F.filter (fun f => decide (f ∉ C ∧ 0 < Gbs.faceInc h f xy)) := by simp [hf0, hf0C, hf0p]
    rw [hc] at this; simp at this
  have hcnt : ∀ S : List ℕ, (∀ f ∈ S, f ∈ F) → S.Nodup → S ≠ [] → (∀ e, Spec.Border h S e → 0 < Spec.side h e xy) →
      1 ≤ (S.map (faceSum (Gbs.crossing xy) h)).sum := by
    intro S h1 h2 h3 h4
    obtain ⟨ls, -, k1, k2, k3⟩ := C43_oriented_boundaries D.valid h1 h2
    have := D.valid.star_crossing D.ccw h1 h2 h3 h4 k1 k2 k3
    omega
  have c1 := hcnt C G.sub G.nodup hCne hbord
  have c2 := hcnt _ (fun f hf => (hS f hf).1) (D.valid.nodup.filter _) hSne (by
    intro e
    refine D.border_side (fun f hf => (hS f hf).1) (fun f hf => (hS f hf).2.2) ?_ hp
    intro f hf e o g he ho hg
    obtain ⟨q1, q2, q3⟩ := hS f hf
    obtain ⟨⟨g', hg', hgf⟩, hoe, -⟩ := D.valid.opp_start ⟨f, q1, he⟩ ho
    rw [hg] at hgf; cases hgf
    by_cases hgp : 0 < Gbs.faceInc h g xy
    · left
      have : g ∉ C := by
        intro hgC
        rcases G.closed g hgC (by simp) o e f hg hoe he with hh | hh
        · exact q2 hh
        · linarith
      simp [hg', this, hgp]
    · exact Or.inr (not_lt.mp hgp))
  have htot := D.once xy
  rw [sum_filter_split (faceSum (Gbs.crossing xy) h) (· ∈ C) F, ((filter_mem_perm D.valid.nodup G.sub G.nodup).map _).sum_eq] at htot
  have hsub : (F.filter fun f => decide (¬f ∈ C)).filter (fun f => decide (0 < Gbs.faceInc h f xy)) =
      F.filter (fun f => decide (f ∉ C ∧ 0 < Gbs.faceInc h f xy)) := by
    rw [List.filter_filter]
    apply List.filter_congr
    intro f _
    rw [Bool.and_comm]; simp [Bool.decide_and]
  rw [sum_filter_split (faceSum (Gbs.crossing xy) h) (fun f => 0 < Gbs.faceInc h f xy) (F.filter fun f => decide (¬f ∈ C)), hsub] at htot
  have c3 := crossing_sum_nonneg D.valid D.ccw xy ((F.filter fun f => decide (¬f ∈ C)).filter fun f => decide (¬0 < Gbs.faceInc h f xy))
    (fun f hf => (List.mem_filter.mp (List.mem_filter.mp hf).1).1)
  linarith

/-! ## The new mesh -/

/-- The live half-edges of the new mesh. -/
theorem Refilled.live (R : Refilled h h' F C l xy) (H : Spec.Valid h F) (B : Bordered h F C l) {e : ℕ}
    (he : Spec.Live h' (F.filter (fun f => decide (f ∉ C)) ++ (List.range l.length).map (h.nF + ·)) e) :
    (∃ f ∈ F, f ∉ C ∧ (h.he e).face = some f ∧ h'.he e = h.he e) ∨
      ∃ i, ∃ hi : i < l.length, ∃ a b, Tri h' (h.nF + i) l[i] a b ∧ (e = l[i] ∨ e = a ∨ e = b) ∧ (h'.he a).vertex = some h.nV ∧
        (h'.he b).vertex = Spec.start h l[i] ∧ (h'.he l[i]).vertex = (h.he l[i]).vertex ∧ (h'.he l[i]).opp = (h.he l[i]).opp ∧
        (h'.he a).opp ≠ none ∧ (h'.he b).opp ≠ none := by
  obtain ⟨f, hf, hef⟩ := he
  rcases List.mem_append.mp hf with hf' | hf'
  · left
    rw [List.mem_filter, decide_eq_true_eq] at hf'
    obtain ⟨a, b, c, t, hfe⟩ := H.tri hf'.1
    obtain ⟨t', -⟩ := R.keptTri H B hf'.1 hf'.2 t
    rcases t'.own e hef with rfl | rfl | rfl
    exacts [⟨f, hf'.1, hf'.2, t.fa, (R.kept H B hf'.1 hf'.2 t.fa).1⟩, ⟨f, hf'.1, hf'.2, t.fb, (R.kept H B hf'.1 hf'.2 t.fb).1⟩,
      ⟨f, hf'.1, hf'.2, t.fc, (R.kept H B hf'.1 hf'.2 t.fc).1⟩]
  · right
    obtain ⟨i, hi, rfl⟩ := mem_new.mp hf'
    obtain ⟨a, b, t, h1, h2, h3, h4, h5, h6⟩ := R.tris i hi
    exact ⟨i, hi, a, b, t, t.own e hef, h2, h3, h1, h4, h5, h6⟩

/-- The corners of the new mesh. -/
theorem Refilled.isVertex (R : Refilled h h' F C l xy) (H : Spec.Valid h F) (B : Bordered h F C l) {u : K × K}
    (hu : Spec.IsVertex h' (F.filter (fun f => decide (f ∉ C)) ++ (List.range l.length).map (h.nF + ·)) u) : u = xy ∨ Spec.IsVertex h F u := by
  obtain ⟨e, he, rfl⟩ := hu
  rcases R.live H B he with ⟨f, hf, hfC, hef, -⟩ | ⟨i, hi, a, b, t, hc, -⟩
  · rw [(R.kept H B hf hfC hef).2]
    exact Or.inr ⟨e, ⟨f, hf, hef⟩, rfl⟩
  · obtain ⟨a', b', t', p1, p2, p3⟩ := R.newTri H B hi
    obtain ⟨-, rfl, rfl⟩ := t'.unique t
    have hl := B.live (List.getElem_mem hi)
    rcases hc with rfl | rfl | rfl
    · rw [p1]; exact Or.inr ⟨_, hl, rfl⟩
    · exact Or.inl p2
    · right
      rw [p3]
      obtain ⟨f, hf, hef⟩ := hl
      obtain ⟨b, c, t2⟩ := H.triAt hf hef
      exact ⟨c, ⟨f, hf, t2.fc⟩, t2.startPt.symm⟩

/-- The outer half-edges of the new mesh are outer half-edges of the old one. -/
theorem Refilled.outer (R : Refilled h h' F C l xy) (H : Spec.Valid h F) (B : Bordered h F C l) {e : ℕ}
    (he : Spec.Live h' (F.filter (fun f => decide (f ∉ C)) ++ (List.range l.length).map (h.nF + ·)) e) (ho : (h'.he e).opp = none) :
    Spec.Live h F e ∧ (h.he e).opp = none ∧ ∀ q, Spec.side h' e q = Spec.side h e q := by
  rcases R.live H B he with ⟨f, hf, hfC, hef, heq⟩ | ⟨i, hi, a, b, t, hc, q1, q2, q3, q4, q5, q6⟩
  · refine ⟨⟨f, hf, hef⟩, by rw [← heq]; exact ho, ?_⟩
    intro q
    obtain ⟨b, c, t⟩ := H.triAt hf hef
    obtain ⟨t', p1, p2, p3⟩ := R.keptTri H B hf hfC t
    rw [Spec.side, Spec.side, t.startPt, t'.startPt, p1, p3]
  · obtain ⟨a', b', t', p1, p2, p3⟩ := R.newTri H B hi
    obtain ⟨-, rfl, rfl⟩ := t'.unique t
    rcases hc with rfl | rfl | rfl
    · refine ⟨B.live (List.getElem_mem hi), by rw [← q4]; exact ho, ?_⟩
      intro q
      rw [Spec.side, Spec.side, t.startPt, p1, p3]
    · exact absurd ho q5
    · exact absurd ho q6

/-- The points close to a corner of a triangle, on the segment towards a point. -/
theorem not_inFace_near (H : Spec.Valid h F) (u w : K × K) : ∀ S : List ℕ, (∀ f ∈ S, f ∈ F) → (∀ f ∈ S, ¬Spec.InFace h f u) →
    ∃ δ : K, 0 < δ ∧ δ ≤ 1 ∧ ∀ ε, 0 < ε → ε < δ → ∀ f ∈ S, ¬Spec.InFace h f (u.1 + ε * (w.1 - u.1), u.2 + ε * (w.2 - u.2)) := by
  intro S
  induction S with
  | nil => intro _ _; exact ⟨1, one_pos, le_rfl, by simp⟩
  | cons f S ih =>
    intro hS hu
    obtain ⟨δ, h1, h2, h3⟩ := ih (fun g hg => hS g (by simp [hg])) (fun g hg => hu g (by simp [hg]))
    have hf := hu f (by simp)
    unfold Spec.InFace at hf
    push Not at hf
    obtain ⟨e, he, hneg⟩ := hf
    have hlin : ∀ ε : K, Spec.side h e (u.1 + ε * (w.1 - u.1), u.2 + ε * (w.2 - u.2)) = Spec.side h e u + ε * (Spec.side h e w - Spec.side h e u) := by
      intro ε; unfold Spec.side Spec.area2; ring
    obtain ⟨η, k1, k2⟩ : ∃ η : K, 0 < η ∧ ∀ ε, 0 < ε → ε < η → Spec.side h e u + ε * (Spec.side h e w - Spec.side h e u) < 0 := by
      rcases le_or_gt (Spec.side h e w - Spec.side h e u) 0 with hs | hs
      · exact ⟨1, one_pos, fun ε q1 _ => by have := mul_nonpos_of_nonneg_of_nonpos q1.le hs; linarith⟩
      · refine ⟨-Spec.side h e u / (Spec.side h e w - Spec.side h e u), div_pos (by linarith) hs, fun ε _ q2 => ?_⟩
        rw [lt_div_iff₀ hs] at q2
        linarith
    refine ⟨min δ η, lt_min h1 k1, (min_le_left _ _).trans h2, ?_⟩
    intro ε q1 q2 g hg hin
    rcases List.mem_cons.mp hg with rfl | hg
    · have := hin e he
      rw [hlin] at this
      exact absurd (k2 ε q1 (q2.trans_le (min_le_right _ _))) (not_lt.mpr this)
    · exact h3 ε q1 (q2.trans_le (min_le_left _ _)) g hg hin

/-- C69: in a Delaunay triangulation of a convex region, a point strictly inside the region is a corner of a triangle after `boyerWatson`; the result is a
Delaunay triangulation of the same region, and its corners are those of before and the point. -/
theorem C69_insert (D : Spec.Delaunay h F) (hp : ∀ e, Spec.Live h F e → (h.he e).opp = none → 0 < Spec.side h e xy) :
    ∃ h' F' r, h.boyerWatson F xy = .ok ((h', F'), r) ∧ Spec.Delaunay h' F' ∧ (∀ u, Spec.IsVertex h' F' u ↔ u = xy ∨ Spec.IsVertex h F u) ∧
      (∀ e, Spec.Live h' F' e → (h'.he e).opp = none → Spec.Live h F e ∧ (h.he e).opp = none ∧ ∀ q, Spec.side h' e q = Spec.side h e q) ∧
      h.nV ≤ h'.nV ∧ (∀ v < h.nV, h'.co v = h.co v) ∧ ∀ v, h.nV ≤ v → v < h'.nV → h'.co v = xy := by
  obtain ⟨⟨h', F'⟩, r, h1, h2⟩ := boyerWatson_spec D.valid D.ccw xy
  refine ⟨h', F', r, h1, ?_⟩
  rcases h2 with ⟨-, h3, h4⟩ | ⟨sd, C, l, h'', hs, hsC, hG, B, hside, R, hss, -⟩
  · simp only [Prod.mk.injEq] at h3
    obtain ⟨rfl, rfl⟩ := h3
    have hv : Spec.IsVertex h' F' xy := by
      rcases h4 with ⟨f, hf, e, he, hc⟩ | h4 | ⟨f, e, hf, he, ho, -, h0⟩
      · exact ⟨e, ⟨f, hf, he⟩, hc⟩
      · obtain ⟨f, hf, hin⟩ := D.located hp
        exact absurd hin (h4 f hf)
      · exact absurd (hp e ⟨f, hf, he⟩ ho) (by rw [h0]; exact lt_irrefl _)
    refine ⟨D, ?_, fun e he ho => ⟨he, ho, fun _ => rfl⟩, le_rfl, fun _ _ => rfl, fun v k1 k2 => absurd k2 (not_lt.mpr k1)⟩
    intro u
    exact ⟨Or.inr, fun hh => hh.elim (fun hu => by rw [hu]; exact hv) id⟩
  · simp only [Prod.mk.injEq] at hss
    obtain ⟨rfl, rfl⟩ := hss
    -- the point is not a vertex
    have hv : ¬Spec.IsVertex h F xy := by
      intro hv
      cases hs with
      | @inside f hf hin =>
        obtain ⟨e, he, hc⟩ := D.corner hf hv (fun e he => (hin e he).le)
        obtain ⟨b, c, t⟩ := D.valid.triAt hf he
        have := hin e he
        rw [Spec.side, hc] at this
        unfold Spec.area2 at this
        linarith
      | edge hf hg hin hnc => exact hnc (D.corner hf hv hin)
      | outer hf hin hnc => exact hnc (D.corner hf hv hin)
    -- the cavity is the grown one
    have hG' : Grown h F sd xy C [] := by
      rcases hG with hG | ⟨-, C', ls, hG', k1, k2, k3, k4⟩
      · exact hG
      · exfalso
        obtain ⟨c1, c2, c3, c4⟩ := D.cavity hp hv hs hG'
        obtain ⟨q1, q2⟩ := D.valid.star_crossing D.ccw hG'.sub hG'.nodup c3 c2 k1 k2 k3
        have htot := D.once xy
        rw [sum_filter_split (faceSum (crossing xy) h) (· ∈ C') F, ((filter_mem_perm D.valid.nodup hG'.sub hG'.nodup).map _).sum_eq] at htot
        have := crossing_sum_nonneg D.valid D.ccw xy (F.filter fun f => decide (¬f ∈ C')) (fun f hf => (List.mem_filter.mp hf).1)
        have hlen : ls.length = 1 := by
          have : (ls.length : ℤ) ≤ 1 := by linarith
          omega
        obtain ⟨l', rfl⟩ := List.length_eq_one_iff.mp hlen
        exact k4 ⟨l', rfl, fun e he => c2 e ((k2 e).mp (by simpa using he))⟩
    obtain ⟨c1, c2, c3, c4⟩ := D.cavity hp hv hs hG'
    have hV := R.valid
    have hW := R.ccw D.valid D.ccw B hside
    have honce : ∀ p, ((F.filter (fun f => decide (f ∉ C)) ++ (List.range l.length).map (h.nF + ·)).map (faceSum (crossing p) h')).sum =
        (F.map (faceSum (crossing p) h)).sum := fun p =>
      R.conserve (A := ℤ) (fun x hx => by omega) (crossing p) (fun a b => crossing_swap p a b) D.valid B
    -- the circles, for the old vertices
    have hold : ∀ f ∈ F.filter (fun f => decide (f ∉ C)) ++ (List.range l.length).map (h.nF + ·), ∀ u, u = xy ∨ Spec.IsVertex h F u →
        Gbs.faceInc h' f u ≤ 0 := by
      intro f hf u hu
      rcases List.mem_append.mp hf with hf' | hf'
      · rw [List.mem_filter, decide_eq_true_eq] at hf'
        obtain ⟨a, b, c, t, -⟩ := D.valid.tri hf'.1
        obtain ⟨t', p1, p2, p3⟩ := R.keptTri D.valid B hf'.1 hf'.2 t
        rw [hV.faceInc hf t', p1, p2, p3, ← D.valid.faceInc hf'.1 t]
        rcases hu with rfl | hu
        · exact c4 f hf'.1 hf'.2
        · exact D.inc hf'.1 hu
      · obtain ⟨i, hi, rfl⟩ := mem_new.mp hf'
        obtain ⟨a, b, t, p1, p2, p3⟩ := R.newTri D.valid B hi
        rw [hV.faceInc hf t, p1, p2, p3, inCircle_rotate]
        have hsd := hside l[i] (List.getElem_mem hi)
        obtain ⟨⟨g, hg, heg⟩, hopp⟩ := (B.mem l[i]).mp (List.getElem_mem hi)
        have hgF := B.sub g hg
        have hlive : Spec.Live h F l[i] := ⟨g, hgF, heg⟩
        obtain ⟨y, z, t2⟩ := D.valid.triAt hgF heg
        rw [Spec.side] at hsd
        have hwg := D.ccw g hgF
        rw [D.valid.faceArea2 hgF t2, area2_rotate, ← t2.startPt] at hwg
        have hincg := c1 g hg
        rw [D.valid.faceInc hgF t2, inCircle_rotate, ← t2.startPt] at hincg
        rcases hu with rfl | hu
        · have : inCircle (Spec.startPt h l[i]) (Spec.endPt h l[i]) u u = 0 := by unfold inCircle; ring
          rw [this]
        rcases le_or_gt 0 (Spec.area2 (Spec.startPt h l[i]) (Spec.endPt h l[i]) u) with hsu | hsu
        · have hux := D.inc hgF hu
          rw [D.valid.faceInc hgF t2, inCircle_rotate, ← t2.startPt] at hux
          exact inCircle_new_left hwg hsd hincg hux hsu
        · rcases D.valid.across hlive with ⟨-, ho⟩ | ⟨o, k, ho, hok, hk, -⟩
          · exact absurd (D.convex _ hlive ho u hu) (not_le.mpr hsu)
          · have hkC : k ∉ C := fun hkC => hopp o ho k hkC hok
            obtain ⟨y', z', t3⟩ := D.valid.triAt hk hok
            obtain ⟨r1, r2⟩ := D.valid.opp_pts hlive ho
            have hwk := D.ccw k hk
            rw [D.valid.faceArea2 hk t3, area2_rotate, ← t3.startPt, r1, r2] at hwk
            have hik := c4 k hk hkC
            rw [D.valid.faceInc hk t3, inCircle_rotate, ← t3.startPt, r1, r2] at hik
            have hiu := D.inc hk hu
            rw [D.valid.faceInc hk t3, inCircle_rotate, ← t3.startPt, r1, r2] at hiu
            exact inCircle_new_right hwk hsd hik hiu hsu.le
    have hDel : Spec.Delaunay h' (F.filter (fun f => decide (f ∉ C)) ++ (List.range l.length).map (h.nF + ·)) := by
      refine ⟨hV, hW, ?_, ?_, ?_, fun p => by rw [honce]; exact D.once p⟩
      · simpa using fun _ => B.ne
      · intro f hf u hu
        exact (outOfCircle_iff (hW f hf) u).mpr (hold f hf u (R.isVertex D.valid B hu))
      · intro e he ho u hu
        obtain ⟨k1, k2, k3⟩ := R.outer D.valid B he ho
        rw [k3]
        rcases R.isVertex D.valid B hu with rfl | hu
        · exact (hp e k1 k2).le
        · exact D.convex e k1 k2 u hu
    refine ⟨hDel, ?_, fun e he ho => R.outer D.valid B he ho, by rw [R.nV]; exact Nat.le_succ _, fun v hv => R.co_old hv, fun v k1 k2 => ?_⟩
    swap
    · rw [R.nV] at k2
      obtain rfl : v = h.nV := by omega
      exact R.co_new
    intro u
    refine ⟨fun hu => R.isVertex D.valid B hu, ?_⟩
    have corner_of_in : ∀ f ∈ F.filter (fun f => decide (f ∉ C)) ++ (List.range l.length).map (h.nF + ·), u = xy ∨ Spec.IsVertex h F u →
        Spec.InFace h' f u → Spec.IsVertex h' (F.filter (fun f => decide (f ∉ C)) ++ (List.range l.length).map (h.nF + ·)) u := by
      intro f hf hu hin
      by_contra hn
      have := hV.inc_pos hW hf hin (fun ⟨e, he, hc⟩ => hn ⟨e, ⟨f, hf, he⟩, hc⟩)
      have := hold f hf u hu
      linarith
    rintro (rfl | hu)
    · -- the new point
      have hlen : 0 < l.length := List.length_pos_iff.mpr B.ne
      obtain ⟨a, b, t, p1, p2, p3⟩ := R.newTri D.valid B hlen
      exact ⟨a, ⟨h.nF + 0, List.mem_append.mpr (Or.inr (mem_new.mpr ⟨0, hlen, rfl⟩)), t.fb⟩, p2⟩
    · -- an old corner
      by_contra hn
      have hnot : ∀ f ∈ F.filter (fun f => decide (f ∉ C)) ++ (List.range l.length).map (h.nF + ·), ¬Spec.InFace h' f u :=
        fun f hf hin => hn (corner_of_in f hf (Or.inr hu) hin)
      obtain ⟨e, ⟨f, hf, hef⟩, hep⟩ := hu
      obtain ⟨b, c, t⟩ := D.valid.triAt hf hef
      have hwf := D.ccw f hf
      rw [D.valid.faceArea2 hf t] at hwf
      -- the middle of the opposite side
      set w : K × K := (((Spec.endPt h b).1 + (Spec.endPt h c).1) / 2, ((Spec.endPt h b).2 + (Spec.endPt h c).2) / 2) with hwdef
      obtain ⟨δ, d1, d2, d3⟩ := not_inFace_near hV u w _ (fun _ h => h) hnot
      have hδ2 : 0 < δ / 2 := by linarith
      have hin : Spec.InsideFace h f (u.1 + δ / 2 * (w.1 - u.1), u.2 + δ / 2 * (w.2 - u.2)) := by
        rw [t.insideFace]
        unfold Spec.side
        rw [t.startPt, t.rotate.startPt, t.rotate.rotate.startPt, hep]
        rw [hep] at hwf
        have e1 : Spec.area2 (Spec.endPt h c) u (u.1 + δ / 2 * (w.1 - u.1), u.2 + δ / 2 * (w.2 - u.2)) =
            δ / 4 * Spec.area2 u (Spec.endPt h b) (Spec.endPt h c) := by
          rw [hwdef]; unfold Spec.area2; ring
        have e2 : Spec.area2 u (Spec.endPt h b) (u.1 + δ / 2 * (w.1 - u.1), u.2 + δ / 2 * (w.2 - u.2)) =
            δ / 4 * Spec.area2 u (Spec.endPt h b) (Spec.endPt h c) := by
          rw [hwdef]; unfold Spec.area2; ring
        have e3 : Spec.area2 (Spec.endPt h b) (Spec.endPt h c) (u.1 + δ / 2 * (w.1 - u.1), u.2 + δ / 2 * (w.2 - u.2)) =
            (1 - δ / 2) * Spec.area2 u (Spec.endPt h b) (Spec.endPt h c) := by
          rw [hwdef]; unfold Spec.area2; ring
        rw [e1, e2, e3]
        exact ⟨mul_pos (by linarith) hwf, mul_pos (by linarith) hwf, mul_pos (by linarith) hwf⟩
      generalize hq : ((u.1 + δ / 2 * (w.1 - u.1), u.2 + δ / 2 * (w.2 - u.2)) : K × K) = q at hin
      have hone := (D.valid.faceCrossing D.ccw hf q).2.2 hin
      have hsum : 1 ≤ (F.map (faceSum (crossing q) h)).sum := by
        rw [sum_filter_split (faceSum (crossing q) h) (· = f) F]
        have k1 := crossing_sum_nonneg D.valid D.ccw q (F.filter fun x => decide (¬x = f)) (fun x hx => (List.mem_filter.mp hx).1)
        have k2 : 1 ≤ ((F.filter fun x => decide (x = f)).map (faceSum (crossing q) h)).sum := by
          obtain ⟨s1, s2, hsplit⟩ := List.append_of_mem (show f ∈ F.filter fun x => decide (x = f) by simp [hf])
          have hsub : ∀ x ∈ F.filter fun x => decide (x = f), x ∈ F := fun x hx => (List.mem_filter.mp hx).1
          have n1 := crossing_sum_nonneg D.valid D.ccw q s1 (fun x hx => hsub x (by rw [hsplit]; simp [hx]))
          have n2 := crossing_sum_nonneg D.valid D.ccw q s2 (fun x hx => hsub x (by rw [hsplit]; simp [hx]))
          rw [hsplit, List.map_append, List.sum_append, List.map_cons, List.sum_cons, hone]
          linarith
        linarith
      rw [← honce q] at hsum
      obtain ⟨g, hg, hgin⟩ := crossing_sum_pos hV hW _ (fun _ h => h) hsum
      rw [← hq] at hgin
      exact d3 (δ / 2) hδ2 (by linarith) g hg hgin

end Gbs
