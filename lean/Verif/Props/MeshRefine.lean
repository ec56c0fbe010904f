import Verif.Props.SurfaceMesh

/-!
# C99: the refinement of the mesh of a surface
-/

set_option linter.unusedSectionVars false

namespace Gbs

variable {K : Type} [Field K] [LinearOrder K] [IsStrictOrderedRing K] {h h' : Mesh (K × K)} {F : List ℕ} {f a b c : ℕ}

/-- The side of a line is an affine function. -/
theorem area2_bary (A B C s t p : K × K) : Spec.area2 A B C * Spec.area2 s t p =
    Spec.area2 B C p * Spec.area2 s t A + Spec.area2 C A p * Spec.area2 s t B + Spec.area2 A B p * Spec.area2 s t C := by
  unfold Spec.area2; ring

/-- The three corners of a face are not on the line of an edge. -/
theorem Spec.Delaunay.not_flat (D : Spec.Delaunay h F) (t : Tri h f a b c) (hf : f ∈ F) {e : ℕ} (he : Spec.Live h F e)
    (h1 : Spec.side h e (Spec.endPt h a) = 0) (h2 : Spec.side h e (Spec.endPt h b) = 0) (h3 : Spec.side h e (Spec.endPt h c) = 0) : False := by
  have hA := D.ccw f hf
  rw [D.valid.faceArea2 hf t] at hA
  obtain ⟨g, hg, heg⟩ := he
  obtain ⟨x, y, t'⟩ := D.valid.triAt hg heg
  have hB := D.ccw g hg
  rw [D.valid.faceArea2 hg t'] at hB
  have k := area2_bary (Spec.endPt h a) (Spec.endPt h b) (Spec.endPt h c) (Spec.startPt h e) (Spec.endPt h e) (Spec.endPt h x)
  unfold Spec.side at h1 h2 h3
  rw [h1, h2, h3, mul_zero, mul_zero, mul_zero, add_zero, add_zero, t'.startPt] at k
  have : Spec.area2 (Spec.endPt h y) (Spec.endPt h e) (Spec.endPt h x) = Spec.area2 (Spec.endPt h e) (Spec.endPt h x) (Spec.endPt h y) := by
    unfold Spec.area2; ring
  rw [this] at k
  exact absurd k (mul_pos hA hB).ne'

/-- The sides of the border are not negative on the faces. -/
theorem Spec.Delaunay.side_nonneg (D : Spec.Delaunay h F) {e : ℕ} (he : Spec.Live h F e) (ho : (h.he e).opp = none) (hf : f ∈ F) {p : K × K}
    (hp : Spec.InFace h f p) : 0 ≤ Spec.side h e p := by
  obtain ⟨a, b, c, t, -⟩ := D.valid.tri hf
  have hA := D.ccw f hf
  rw [D.valid.faceArea2 hf t] at hA
  obtain ⟨i1, i2, i3⟩ := t.inFace.mp hp
  have k := area2_bary (Spec.endPt h a) (Spec.endPt h b) (Spec.endPt h c) (Spec.startPt h e) (Spec.endPt h e) p
  have n1 := D.convex e he ho _ ⟨a, ⟨f, hf, t.fa⟩, rfl⟩
  have n2 := D.convex e he ho _ ⟨b, ⟨f, hf, t.fb⟩, rfl⟩
  have n3 := D.convex e he ho _ ⟨c, ⟨f, hf, t.fc⟩, rfl⟩
  unfold Spec.side at *
  rw [t.startPt] at i1
  rw [t.rotate.startPt] at i2
  rw [t.rotate.rotate.startPt] at i3
  have := add_nonneg (add_nonneg (mul_nonneg i3 n1) (mul_nonneg i1 n2)) (mul_nonneg i2 n3)
  rw [← k] at this
  exact nonneg_of_mul_nonneg_right this hA

/-- A point inside of a face is strictly inside of the border. -/
theorem Spec.Delaunay.inside_pos (D : Spec.Delaunay h F) (hf : f ∈ F) {p : K × K} (hp : Spec.InsideFace h f p) {e : ℕ} (he : Spec.Live h F e)
    (ho : (h.he e).opp = none) : 0 < Spec.side h e p := by
  refine lt_of_le_of_ne (D.side_nonneg he ho hf fun x hx => (hp x hx).le) fun h0 => ?_
  obtain ⟨a, b, c, t, -⟩ := D.valid.tri hf
  obtain ⟨i1, i2, i3⟩ := t.insideFace.mp hp
  have k := area2_bary (Spec.endPt h a) (Spec.endPt h b) (Spec.endPt h c) (Spec.startPt h e) (Spec.endPt h e) p
  have n1 := D.convex e he ho _ ⟨a, ⟨f, hf, t.fa⟩, rfl⟩
  have n2 := D.convex e he ho _ ⟨b, ⟨f, hf, t.fb⟩, rfl⟩
  have n3 := D.convex e he ho _ ⟨c, ⟨f, hf, t.fc⟩, rfl⟩
  have hs : Spec.area2 (Spec.startPt h e) (Spec.endPt h e) p = 0 := h0.symm
  rw [hs, mul_zero] at k
  unfold Spec.side at i1 i2 i3
  rw [t.startPt] at i1
  rw [t.rotate.startPt] at i2
  rw [t.rotate.rotate.startPt] at i3
  have m1 := mul_nonneg i3.le n1
  have m2 := mul_nonneg i1.le n2
  have m3 := mul_nonneg i2.le n3
  unfold Spec.side at m1 m2 m3
  refine D.not_flat t hf he ?_ ?_ ?_
  · exact (mul_eq_zero.mp (le_antisymm (by linarith) m1)).resolve_left i3.ne'
  · exact (mul_eq_zero.mp (le_antisymm (by linarith) m2)).resolve_left i1.ne'
  · exact (mul_eq_zero.mp (le_antisymm (by linarith) m3)).resolve_left i2.ne'

/-- A point of an edge shared by two faces, not at its ends, is strictly inside of the border. -/
theorem Spec.Delaunay.edge_pos (D : Spec.Delaunay h F) (hf : f ∈ F) {p : K × K} (hp : Spec.InFace h f p) (hnc : ¬Spec.IsCorner h f p) {x o : ℕ}
    (hx : (h.he x).face = some f) (hx0 : Spec.side h x p = 0) (hxo : (h.he x).opp = some o) {e : ℕ} (he : Spec.Live h F e)
    (ho : (h.he e).opp = none) : 0 < Spec.side h e p := by
  refine lt_of_le_of_ne (D.side_nonneg he ho hf hp) fun h0 => ?_
  obtain ⟨b, c, t⟩ := D.valid.triAt hf hx
  have hA := D.ccw f hf
  rw [D.valid.faceArea2 hf t] at hA
  obtain ⟨⟨g, hg, hog⟩, -⟩ := D.valid.opp_start ⟨f, hf, hx⟩ hxo
  obtain ⟨b', c', t'⟩ := D.valid.triAt hg hog
  have hB := D.ccw g hg
  rw [D.valid.faceArea2 hg t'] at hB
  obtain ⟨q1, q2⟩ := D.valid.opp_pts ⟨f, hf, hx⟩ hxo
  rw [t'.startPt] at q1
  rw [t.startPt] at q2
  rw [q1, q2] at hB
  obtain ⟨-, i2, i3⟩ := t.inFace.mp hp
  have n1 := D.convex e he ho _ ⟨x, ⟨f, hf, t.fa⟩, rfl⟩
  have n2 := D.convex e he ho _ ⟨b, ⟨f, hf, t.fb⟩, rfl⟩
  have n3 := D.convex e he ho _ ⟨c, ⟨f, hf, t.fc⟩, rfl⟩
  have n4 := D.convex e he ho _ ⟨b', ⟨g, hg, t'.fb⟩, rfl⟩
  have hs : Spec.area2 (Spec.startPt h e) (Spec.endPt h e) p = 0 := h0.symm
  unfold Spec.side at hx0 i2 i3 n1 n2 n3 n4
  rw [t.startPt] at hx0
  rw [t.rotate.startPt] at i2
  rw [t.rotate.rotate.startPt] at i3
  have hc1 : Spec.endPt h x ≠ p := fun hh => hnc ⟨x, hx, hh⟩
  have hc2 : Spec.endPt h c ≠ p := fun hh => hnc ⟨c, t.fc, hh⟩
  have hflat := fun z1 z2 z3 => D.not_flat t hf he z1 z2 z3
  unfold Spec.side at hflat
  generalize Spec.endPt h x = A at *
  generalize Spec.endPt h b = B at *
  generalize Spec.endPt h c = C at *
  generalize Spec.endPt h b' = E at *
  have k := area2_bary A B C (Spec.startPt h e) (Spec.endPt h e) p
  have kE := area2_bary A B C (Spec.startPt h e) (Spec.endPt h e) E
  rw [hs, hx0, mul_zero, zero_mul, add_zero] at k
  -- the two weights are positive
  have hsum : Spec.area2 A B C = Spec.area2 B C p + Spec.area2 C A p + Spec.area2 A B p := by unfold Spec.area2; ring
  have e1 : Spec.area2 A B C * p.1 = Spec.area2 B C p * A.1 + Spec.area2 C A p * B.1 + Spec.area2 A B p * C.1 := by unfold Spec.area2; ring
  have e2 : Spec.area2 A B C * p.2 = Spec.area2 B C p * A.2 + Spec.area2 C A p * B.2 + Spec.area2 A B p * C.2 := by unfold Spec.area2; ring
  have p2 : 0 < Spec.area2 A B p := by
    refine lt_of_le_of_ne i2 fun hz => hc1 ?_
    rw [hx0, ← hz, zero_mul, zero_mul, add_zero, add_zero] at e1 e2
    rw [hx0, ← hz, add_zero, add_zero] at hsum
    rw [hsum] at e1 e2 hA
    exact Prod.ext (mul_left_cancel₀ hA.ne' e1.symm) (mul_left_cancel₀ hA.ne' e2.symm)
  have p3 : 0 < Spec.area2 B C p := by
    refine lt_of_le_of_ne i3 fun hz => hc2 ?_
    rw [hx0, ← hz, zero_mul, zero_mul, zero_add, zero_add] at e1 e2
    rw [hx0, ← hz, zero_add, zero_add] at hsum
    rw [hsum] at e1 e2 hA
    exact Prod.ext (mul_left_cancel₀ hA.ne' e1.symm) (mul_left_cancel₀ hA.ne' e2.symm)
  have m1 := mul_nonneg p3.le n1
  have m2 := mul_nonneg p2.le n3
  have z1 := (mul_eq_zero.mp (le_antisymm (by linarith) m1)).resolve_left p3.ne'
  have z3 := (mul_eq_zero.mp (le_antisymm (by linarith) m2)).resolve_left p2.ne'
  rw [z1, z3, mul_zero, mul_zero, zero_add, add_zero] at kE
  have hneg : Spec.area2 C A E < 0 := by
    have : Spec.area2 C A E = -Spec.area2 C E A := by unfold Spec.area2; ring
    rw [this]; linarith
  have m3 := mul_nonneg (neg_nonneg.mpr hneg.le) n2
  have m4 := mul_nonneg hA.le n4
  have z2 := (mul_eq_zero.mp (show -Spec.area2 C A E * Spec.area2 (Spec.startPt h e) (Spec.endPt h e) B = 0 from le_antisymm (by linarith) m3)).resolve_left
    (by linarith)
  exact hflat z1 z2 z3

/-- The faces cover the points which are on the right of no side of the border. -/
theorem Spec.Delaunay.cover_iff (D : Spec.Delaunay h F) (p : K × K) :
    (∃ f ∈ F, Spec.InFace h f p) ↔ ∀ e, Spec.Live h F e → (h.he e).opp = none → 0 ≤ Spec.side h e p := by
  constructor
  · rintro ⟨f, hf, hp⟩ e he ho
    exact D.side_nonneg he ho hf hp
  · intro hs
    by_contra hn
    push Not at hn
    obtain ⟨f, hf⟩ := List.exists_mem_of_ne_nil _ D.ne
    obtain ⟨q, hq⟩ := D.valid.exists_inside D.ccw hf
    obtain ⟨δ, hd, hδ⟩ := near_outside h p q F hn
    set ε := min (δ / 2) (1 / 2) with hε
    have e1 : 0 < ε := lt_min (by linarith) (by norm_num)
    have e2 : ε < δ := lt_of_le_of_lt (min_le_left _ _) (by linarith)
    have e3 : ε ≤ 1 / 2 := min_le_right _ _
    obtain ⟨g, hg, hin⟩ := D.located (xy := (p.1 + ε * (q.1 - p.1), p.2 + ε * (q.2 - p.2))) (by
      intro e he ho
      have hl : Spec.side h e (p.1 + ε * (q.1 - p.1), p.2 + ε * (q.2 - p.2)) = (1 - ε) * Spec.side h e p + ε * Spec.side h e q := by
        unfold Spec.side Spec.area2; ring
      rw [hl]
      exact add_pos_of_nonneg_of_pos (mul_nonneg (by linarith) (hs e he ho)) (mul_pos e1 (D.inside_pos hf hq he ho)))
    exact hδ ε e1.le e2 g hg hin

/-- What a criterion is given of a triangle: for each side where it starts, where it ends, and if it is shared. -/
def Spec.view (h : Mesh (K × K)) (f : ℕ) : List ((K × K) × (K × K) × Bool) :=
  let a := (h.fe f).getD 0
  let b := (h.he a).next.getD 0
  let c := (h.he b).next.getD 0
  [a, b, c].map fun e => (Spec.startPt h e, Spec.endPt h e, (h.he e).opp.isSome)

theorem Tri.view (t : Tri h f a b c) (hfe : h.fe f = some a) :
    Spec.view h f = [a, b, c].map fun e => (Spec.startPt h e, Spec.endPt h e, (h.he e).opp.isSome) := by
  unfold Spec.view
  simp only [hfe, Option.getD_some, t.na, t.nb]

theorem Spec.Valid.faceView (H : Spec.Valid h F) (hf : f ∈ F) : h.faceView f = .ok (Spec.view h f) := by
  obtain ⟨a, b, c, t, hfe⟩ := H.tri hf
  unfold Mesh.faceView
  rw [H.getFaceEdges t hfe, R_bind_ok, t.view hfe]
  refine mapM_ok _ fun e he => ?_
  have hL : Spec.Live h F e := by
    simp only [List.mem_cons, List.not_mem_nil, or_false] at he
    rcases he with rfl | rfl | rfl
    exacts [⟨f, hf, t.fa⟩, ⟨f, hf, t.fb⟩, ⟨f, hf, t.fc⟩]
  rw [H.startCo hL, H.endCo hL]
  rfl

theorem side_affine (h : Mesh (K × K)) (e : ℕ) (p : K × K) : Spec.side h e p = -((Spec.endPt h e).2 - (Spec.startPt h e).2) * p.1 +
    ((Spec.endPt h e).1 - (Spec.startPt h e).1) * p.2 -
      (-((Spec.endPt h e).2 - (Spec.startPt h e).2) * (Spec.startPt h e).1 + ((Spec.endPt h e).1 - (Spec.startPt h e).1) * (Spec.startPt h e).2) := by
  unfold Spec.side Spec.area2; ring

/-- The insertion of any point in a Delaunay triangulation. -/
theorem Spec.Delaunay.insert_any (D : Spec.Delaunay h F) (xy : K × K) :
    ∃ h' F' r, h.boyerWatson F xy = .ok ((h', F'), r) ∧ Spec.Delaunay h' F' ∧ (∀ u, Spec.IsVertex h F u → Spec.IsVertex h' F' u) ∧
      (∀ u, Spec.IsVertex h' F' u → u = xy ∨ Spec.IsVertex h F u) ∧ (∀ p, (∃ f ∈ F', Spec.InFace h' f p) ↔ ∃ f ∈ F, Spec.InFace h f p) ∧
      (Spec.IsVertex h' F' xy ∨ ∃ e, Spec.Live h F e ∧ (h.he e).opp = none ∧ Spec.side h e xy ≤ 0) ∧
      (∀ e, Spec.Live h' F' e → (h'.he e).opp = none → Spec.Live h F e ∧ (h.he e).opp = none ∧ ∀ q, Spec.side h' e q = Spec.side h e q) ∧
      h'.nV ≤ h.nV + 1 ∧
      ((r = none ∧ (h', F') = (h, F)) ∨ ∃ v del new, r = some (v, del, new) ∧ F' = (F.filter fun f => decide (f ∉ del)) ++ new ∧ (∀ f ∈ new, f ∉ F) ∧
        (∀ f ∈ F, f ∉ del → Spec.view h' f = Spec.view h f) ∧ h'.co v = xy ∧ (∃ x, h'.ve v = some x ∧ Spec.Live h' F' x ∧ (h'.he x).vertex = some v) ∧
        ∀ e, Spec.Live h F e → (h.he e).opp = none → 0 < Spec.side h e xy) := by
  obtain ⟨⟨h', F'⟩, r, h1, h2⟩ := boyerWatson_spec D.valid D.ccw xy
  refine ⟨h', F', r, h1, ?_⟩
  rcases h2 with ⟨rfl, h3, h4⟩ | ⟨sd, C, l, h'', hs, hsC, hG, B, hside, R, hss, hr⟩
  · simp only [Prod.mk.injEq] at h3
    obtain ⟨rfl, rfl⟩ := h3
    refine ⟨D, fun _ h => h, fun _ h => Or.inr h, fun _ => Iff.rfl, ?_, fun e he ho => ⟨he, ho, fun _ => rfl⟩, by omega, Or.inl ⟨rfl, rfl⟩⟩
    rcases h4 with ⟨f, hf, e, he, hc⟩ | h4 | ⟨f, e, hf, he, ho, -, h0⟩
    · exact Or.inl ⟨e, ⟨f, hf, he⟩, hc⟩
    · right
      by_contra hn
      push Not at hn
      obtain ⟨f, hf, hin⟩ := D.located (xy := xy) hn
      exact h4 f hf hin
    · exact Or.inr ⟨e, ⟨f, hf, he⟩, ho, h0.le⟩
  · have hp : ∀ e, Spec.Live h F e → (h.he e).opp = none → 0 < Spec.side h e xy := by
      intro e he ho
      cases hs with
      | inside hf hin => exact D.inside_pos hf hin he ho
      | edge hf hg hin hnc hx hx0 hxo hog => exact D.edge_pos hf hin hnc hx hx0 hxo he ho
      | @outer f x hf hin hnc hx hx0 hxo =>
        exfalso
        have hm := (B.mem x).mpr ⟨⟨f, hsC f (by simp), hx⟩, fun o ho' => by rw [hxo] at ho'; simp at ho'⟩
        have := hside x hm
        rw [hx0] at this
        exact lt_irrefl _ this
    obtain ⟨h2', F2, r2, k1, k2, k3, k4, -⟩ := C69_insert D hp
    rw [h1] at k1
    obtain ⟨he, -⟩ := Prod.mk.inj (Except.ok.inj k1)
    obtain ⟨rfl, rfl⟩ := Prod.mk.inj he
    obtain ⟨rfl, rfl⟩ := Prod.mk.inj hss
    refine ⟨k2, fun u hu => (k3 u).mpr (Or.inr hu), fun u hu => (k3 u).mp hu, ?_, Or.inl ((k3 xy).mpr (Or.inl rfl)), k4, by rw [R.nV],
      Or.inr ⟨_, _, _, hr, ?_, ?_, ?_, R.co_new, R.ve, hp⟩⟩
    · intro p
      rw [D.cover_iff]
      constructor
      · rintro ⟨f, hf, hin⟩ e he ho
        rw [side_affine, sub_nonneg]
        refine k2.valid.inFace_ge k2.ccw hf (fun x hx => ?_) hin
        rw [← sub_nonneg, ← side_affine]
        rcases (k3 _).mp ⟨x, ⟨f, hf, hx⟩, rfl⟩ with hu | hu
        · rw [hu]; exact (hp e he ho).le
        · exact D.convex e he ho _ hu
      · intro hs
        rw [k2.cover_iff]
        intro e he ho
        obtain ⟨l1, l2, l3⟩ := k4 e he ho
        rw [l3]
        exact hs e l1 l2
    · congr 1
      apply List.filter_congr
      intro x hx
      simp [hx]
    · intro f hf hfF
      obtain ⟨i, -, rfl⟩ := mem_new.mp hf
      have := D.valid.faces _ hfF
      omega
    · intro f hf hfC
      have hfC' : f ∉ C := fun hh => hfC (List.mem_filter.mpr ⟨hf, by simpa using hh⟩)
      obtain ⟨a, b, c, t, hfe⟩ := D.valid.tri hf
      obtain ⟨t', p1, p2, p3⟩ := R.keptTri D.valid B hf hfC' t
      rw [t.view hfe, t'.view (by rw [R.fe f (D.valid.faces f hf)]; exact hfe)]
      simp only [List.map_cons, List.map_nil, t.startPt, t.rotate.startPt, t.rotate.rotate.startPt, t'.startPt, t'.rotate.startPt, t'.rotate.rotate.startPt,
        p1, p2, p3, (R.kept D.valid B hf hfC' t.fa).1, (R.kept D.valid B hf hfC' t.fb).1, (R.kept D.valid B hf hfC' t.fc).1]

section
variable (crit : List ((K × K) × (K × K) × Bool) → K × (K × K))

/-- The quality of a triangle, and the point which the criterion proposes. -/
def Spec.quality (h : Mesh (K × K)) (f : ℕ) : K := (crit (Spec.view h f)).1
@[inherit_doc Spec.quality]
def Spec.proposed (h : Mesh (K × K)) (f : ℕ) : K × K := (crit (Spec.view h f)).2

theorem updateAll_spec (H : Spec.Valid h F) : ∀ (L : List ℕ) (q : ℕ → Option K), (∀ f ∈ L, f ∈ F) →
    ∃ q', Mesh.updateAll crit h q L = .ok q' ∧ (∀ f ∈ L, q' f = some (Spec.quality crit h f)) ∧ ∀ f, f ∉ L → q' f = q f := by
  intro L
  induction L with
  | nil => exact fun q _ => ⟨q, rfl, by simp, fun _ _ => rfl⟩
  | cons f L ih =>
    intro q hL
    obtain ⟨q', k1, k2, k3⟩ := ih (Function.update q f (some (Spec.quality crit h f))) fun g hg => hL g (List.mem_cons_of_mem _ hg)
    refine ⟨q', ?_, ?_, ?_⟩
    · unfold Mesh.updateAll Mesh.updateQuality
      rw [H.faceView (hL f (List.mem_cons_self ..)), R_bind_ok]
      exact k1
    · intro g hg
      by_cases hgL : g ∈ L
      · exact k2 g hgL
      · rcases List.mem_cons.mp hg with rfl | hg
        · rw [k3 g hgL, Function.update_self]
        · exact absurd hg hgL
    · intro g hg
      rw [List.mem_cons, not_or] at hg
      rw [k3 g hg.2, Function.update_of_ne hg.1]

theorem worstFace_spec {q : ℕ → Option K} {Q : ℕ → K} (hne : F ≠ []) (hq : ∀ f ∈ F, q f = some (Q f)) :
    ∃ f ∈ F, Mesh.worstFace q F = .ok f ∧ ∀ g ∈ F, Q g ≤ Q f := by
  obtain ⟨x, L, rfl⟩ := List.exists_cons_of_ne_nil hne
  have key : ∀ (L : List ℕ) (b : ℕ) (S : List ℕ), (∀ g ∈ L, q g = some (Q g)) → q b = some (Q b) →
      ∃ f, (f = b ∨ f ∈ L) ∧ L.foldl (fun best g => if (q best).getD 0 < (q g).getD 0 then g else best) b = f ∧ Q b ≤ Q f ∧ ∀ g ∈ L, Q g ≤ Q f := by
    intro L
    induction L with
    | nil => exact fun b _ _ _ => ⟨b, Or.inl rfl, rfl, le_refl _, by simp⟩
    | cons y L ih =>
      intro b S hL hb
      have hy := hL y (List.mem_cons_self ..)
      have hL' : ∀ g ∈ L, q g = some (Q g) := fun g hg => hL g (List.mem_cons_of_mem _ hg)
      rw [List.foldl_cons, hb, hy]
      simp only [Option.getD_some]
      by_cases hlt : Q b < Q y
      · rw [if_pos hlt]
        obtain ⟨f, k1, k2, k3, k4⟩ := ih y S hL' hy
        refine ⟨f, ?_, k2, hlt.le.trans k3, ?_⟩
        · rcases k1 with rfl | k1
          · exact Or.inr (List.mem_cons_self ..)
          · exact Or.inr (List.mem_cons_of_mem _ k1)
        · intro g hg
          rcases List.mem_cons.mp hg with rfl | hg
          exacts [k3, k4 g hg]
      · rw [if_neg hlt]
        obtain ⟨f, k1, k2, k3, k4⟩ := ih b S hL' hb
        refine ⟨f, k1.imp id (List.mem_cons_of_mem _), k2, k3, ?_⟩
        intro g hg
        rcases List.mem_cons.mp hg with rfl | hg
        exacts [(not_lt.mp hlt).trans k3, k4 g hg]
  obtain ⟨f, k1, k2, k3, k4⟩ := key L x [] (fun g hg => hq g (List.mem_cons_of_mem _ hg)) (hq x (List.mem_cons_self ..))
  refine ⟨f, ?_, by rw [← k2]; rfl, ?_⟩
  · rcases k1 with rfl | k1
    exacts [List.mem_cons_self .., List.mem_cons_of_mem _ k1]
  · intro g hg
    rcases List.mem_cons.mp hg with rfl | hg
    exacts [k3, k4 g hg]

/-- The points that are inserted, in turn: each is the point proposed for a worst triangle of the mesh at that time. The triangle of a point that is
not the last does not meet the criterion; when there are less than `n` points all the triangles met the criterion before the last one. -/
def Spec.Chosen (critMax : K) (n : ℕ) (s : Mesh (K × K) × List ℕ) (L : List (K × K)) : Prop :=
  ∀ L1 p L2, L = L1 ++ p :: L2 → ∃ h F f, Mesh.insertAll s L1 = .ok (h, F) ∧ Spec.Delaunay h F ∧ f ∈ F ∧
    (∀ g ∈ F, Spec.quality crit h g ≤ Spec.quality crit h f) ∧ p = Spec.proposed crit h f ∧ (L2 ≠ [] → critMax < Spec.quality crit h f) ∧
    (L2 = [] → L.length < n → ∀ g ∈ F, Spec.quality crit h g ≤ critMax)

theorem refineLoop_spec (critMax : K) : ∀ (n : ℕ) (c : Option K) (h : Mesh (K × K)) (F : List ℕ) (q : ℕ → Option K), Spec.Delaunay h F →
    (∀ f ∈ F, q f = some (Spec.quality crit h f)) →
    ∃ L h' F', Mesh.refineLoop crit critMax n c (h, F) q = .ok (h', F') ∧ Mesh.insertAll (h, F) L = .ok (h', F') ∧ L.length ≤ n ∧ Spec.Delaunay h' F' ∧
      (∀ u, Spec.IsVertex h F u → Spec.IsVertex h' F' u) ∧ (∀ u, Spec.IsVertex h' F' u → u ∈ L ∨ Spec.IsVertex h F u) ∧
      (∀ p, (∃ f ∈ F', Spec.InFace h' f p) ↔ ∃ f ∈ F, Spec.InFace h f p) ∧
      (∀ u ∈ L, Spec.IsVertex h' F' u ∨ ∃ e, Spec.Live h F e ∧ (h.he e).opp = none ∧ Spec.side h e u ≤ 0) ∧
      h'.nV ≤ h.nV + L.length ∧ Spec.Chosen crit critMax n (h, F) L ∧ (L = [] → n = 0 ∨ ∃ x, c = some x ∧ x ≤ critMax) ∧
      ((∃ x, c = some x ∧ x ≤ critMax) → L = []) := by
  intro n
  induction n with
  | zero =>
    intro c h F q D hq
    exact ⟨[], h, F, rfl, rfl, le_refl _, D, fun _ h => h, fun _ h => Or.inr h, fun _ => Iff.rfl, by simp, by simp, by intro L1 p L2 hh; simp at hh,
      fun _ => Or.inl rfl, fun _ => rfl⟩
  | succ n ih =>
    intro c h F q D hq
    unfold Mesh.refineLoop
    by_cases hstop : ∃ x, c = some x ∧ x ≤ critMax
    · obtain ⟨x, rfl, hx⟩ := hstop
      rw [if_neg (by simpa using hx)]
      exact ⟨[], h, F, rfl, rfl, by simp, D, fun _ h => h, fun _ h => Or.inr h, fun _ => Iff.rfl, by simp, by simp, by intro L1 p L2 hh; simp at hh,
        fun _ => Or.inr ⟨x, rfl, hx⟩, fun _ => rfl⟩
    · rw [if_pos (by
        cases c with
        | none => rfl
        | some x =>
          simp only [decide_eq_true_eq]
          by_contra hn
          exact hstop ⟨x, rfl, not_lt.mp hn⟩)]
      obtain ⟨f, hf, w1, w2⟩ := worstFace_spec D.ne hq
      rw [w1, R_bind_ok, D.valid.faceView hf, R_bind_ok]
      dsimp only
      obtain ⟨h1, F1, r, k1, D1, k3, k4, k5, k6, k7, k8, k9⟩ := D.insert_any (crit (Spec.view h f)).2
      rw [k1, R_bind_ok]
      -- the qualities of the new mesh
      obtain ⟨q1, hq1, hrun⟩ : ∃ q1 : ℕ → Option K, (∀ g ∈ F1, q1 g = some (Spec.quality crit h1 g)) ∧
          (match r with
            | none => Mesh.refineLoop crit critMax n (some (crit (Spec.view h f)).1) (h1, F1) q
            | some (_, deleted, new) => do
              let q := fun g => if g ∈ deleted then none else q g
              let q ← Mesh.updateAll crit h1 q new
              Mesh.refineLoop crit critMax n (some (crit (Spec.view h f)).1) (h1, F1) q) =
          Mesh.refineLoop crit critMax n (some (crit (Spec.view h f)).1) (h1, F1) q1 := by
        rcases k9 with ⟨rfl, he⟩ | ⟨v, del, new, rfl, hF1, hnew, hview, -⟩
        · obtain ⟨rfl, rfl⟩ := Prod.mk.inj he
          exact ⟨q, hq, rfl⟩
        · obtain ⟨q1, u1, u2, u3⟩ := updateAll_spec crit D1.valid new (fun g => if g ∈ del then none else q g) (by
            intro g hg; rw [hF1]; exact List.mem_append_right _ hg)
          refine ⟨q1, ?_, ?_⟩
          · intro g hg
            by_cases hgn : g ∈ new
            · exact u2 g hgn
            · rw [u3 g hgn]
              rw [hF1] at hg
              have hg := (List.mem_append.mp hg).resolve_right hgn
              rw [List.mem_filter, decide_eq_true_eq] at hg
              rw [if_neg hg.2, hq g hg.1, Spec.quality, Spec.quality, hview g hg.1 hg.2]
          · dsimp only
            rw [u1, R_bind_ok]
      obtain ⟨L, h', F', l1, l2, l3, l4, l5, l6, l7, l8, l9, l10, l11, l12⟩ := ih (some (crit (Spec.view h f)).1) h1 F1 q1 D1 hq1
      have hins : ∀ L, Mesh.insertAll (h, F) ((crit (Spec.view h f)).2 :: L) = Mesh.insertAll (h1, F1) L := by
        intro L; rw [Mesh.insertAll, k1, R_bind_ok]
      refine ⟨(crit (Spec.view h f)).2 :: L, h', F', ?_, by rw [hins]; exact l2, by simpa using l3, l4, fun u hu => l5 u (k3 u hu), ?_, ?_, ?_, ?_, ?_, ?_, ?_⟩
      · rw [← l1, ← hrun]
        rcases r with - | ⟨v, del, new⟩ <;> rfl
      · intro u hu
        rcases l6 u hu with hu | hu
        · exact Or.inl (List.mem_cons_of_mem _ hu)
        · rcases k4 u hu with rfl | hu
          · exact Or.inl (List.mem_cons_self ..)
          · exact Or.inr hu
      · intro p; rw [l7, k5]
      · intro u hu
        rcases List.mem_cons.mp hu with rfl | hu
        · exact k6.imp (l5 _) id
        · refine (l8 u hu).imp id ?_
          rintro ⟨e, he, ho, hs⟩
          obtain ⟨m1, m2, m3⟩ := k7 e he ho
          exact ⟨e, m1, m2, by rw [← m3]; exact hs⟩
      · rw [List.length_cons]; omega
      · intro L1 p L2 hL
        cases L1 with
        | nil =>
          rw [List.nil_append] at hL
          obtain ⟨rfl, rfl⟩ := List.cons.inj hL
          refine ⟨h, F, f, rfl, D, hf, w2, rfl, ?_, ?_⟩
          · intro hne
            by_contra hn
            exact hne (l12 ⟨_, rfl, not_lt.mp hn⟩)
          · intro hnil hlen g hg
            rw [hnil] at hlen
            rcases l11 hnil with h0 | ⟨x, hx, hx2⟩
            · rw [h0] at hlen; simp at hlen
            · have hx : (crit (Spec.view h f)).1 = x := Option.some.inj hx
              exact (w2 g hg).trans (by rw [Spec.quality, hx]; exact hx2)
        | cons y L1 =>
          rw [List.cons_append] at hL
          obtain ⟨rfl, rfl⟩ := List.cons.inj hL
          obtain ⟨h2, F2, f2, m1, m2, m3, m4, m5, m6, m7⟩ := l10 L1 p L2 rfl
          refine ⟨h2, F2, f2, by rw [hins]; exact m1, m2, m3, m4, m5, m6, fun a b => m7 a (by simpa using b)⟩
      · intro hh; simp at hh
      · intro hh; exact absurd hh hstop

/-- C99: whatever the criterion, `delaunay2DBoyerWatsonSurfaceMeshRefine` of a Delaunay triangulation returns a Delaunay triangulation of the same region,
with the vertices it had and at most `maxInner` more. The points are those the criterion proposes for a worst triangle; a point which is not inserted is not
strictly inside the region. Every triangle met the criterion before the last insertion, unless `maxInner` points were proposed. -/
theorem C99_refine_partial (D : Spec.Delaunay h F) (critMax : K) (maxInner : ℕ) :
    ∃ L h' F', Mesh.surfaceMeshRefine crit critMax maxInner (h, F) = .ok (h', F') ∧ Mesh.insertAll (h, F) L = .ok (h', F') ∧ L.length ≤ maxInner ∧
      Spec.Delaunay h' F' ∧ (∀ u, Spec.IsVertex h F u → Spec.IsVertex h' F' u) ∧ (∀ u, Spec.IsVertex h' F' u → u ∈ L ∨ Spec.IsVertex h F u) ∧
      (∀ p, (∃ f ∈ F', Spec.InFace h' f p) ↔ ∃ f ∈ F, Spec.InFace h f p) ∧
      (∀ u ∈ L, Spec.IsVertex h' F' u ∨ ∃ e, Spec.Live h F e ∧ (h.he e).opp = none ∧ Spec.side h e u ≤ 0) ∧
      Spec.Chosen crit critMax maxInner (h, F) L ∧ (0 < maxInner → L ≠ []) := by
  obtain ⟨q, k1, k2, -⟩ := updateAll_spec crit D.valid F (fun _ => none) fun _ h => h
  obtain ⟨L, h', F', l1, l2, l3, l4, l5, l6, l7, l8, l9, l10, l11, l12⟩ := refineLoop_spec crit critMax maxInner none h F q D k2
  refine ⟨L, h', F', ?_, l2, l3, l4, l5, l6, l7, l8, l10, ?_⟩
  · unfold Mesh.surfaceMeshRefine
    dsimp only
    rw [k1, R_bind_ok]
    exact l1
  · intro hpos hL
    rcases l11 hL with h0 | ⟨x, hx, -⟩
    · omega
    · simp at hx

/-- The refinement of no triangle dereferences the end of the list. -/
theorem C99_empty (h : Mesh (K × K)) (critMax : K) (n : ℕ) : Mesh.surfaceMeshRefine crit critMax (n + 1) (h, []) = .error .oob := rfl

/-- C99: so the mesh of a surface covers exactly the rectangle of its parameters, whatever the criterion, when the origin is on the border. -/
theorem C99_surface_partial {V : Type} [AddCommGroup V] {nrm : V → K} {ncross : V → V → K} {devMax : K} {srf : K → K → R V}
    (hcn : Spec.CrossNorm nrm ncross) {pc : K} (hpc : 0 < pc) (hpc1 : pc ≤ 100) {u1 u2 v1 v2 : K} (hu : u1 < u2) (hv : v1 < v2)
    {nu nv nMax fuel : ℕ} (hnu : 2 ≤ nu) (hnv : 2 ≤ nv) {corners : List ℕ} (hcor : ∀ v, v ∈ corners ↔ v < 4)
    (h0 : Spec.OnRect (u1, v1) (u2, v2) (0, 0)) {X : List (K × K)} (hX : meshSurfaceBoundary nrm ncross devMax srf fuel u1 u2 v1 v2 nu nv nMax = .ok X)
    (critMax : K) (maxInner : ℕ) :
    ∃ h F, Mesh.surfaceMesh crit nrm ncross devMax srf critMax maxInner pc corners fuel u1 u2 v1 v2 nu nv nMax = .ok (h, F) ∧ Spec.Delaunay h F ∧
      (∀ u ∈ X, Spec.IsVertex h F u) ∧ ∀ p, (∃ f ∈ F, Spec.InFace h f p) ↔ Spec.InRect (u1, v1) (u2, v2) p := by
  obtain ⟨h, F, k1, D, k2, k3⟩ := C98_base_partial hcn hpc hpc1 hu hv hnu hnv hcor h0 hX
  obtain ⟨L, h', F', l1, -, -, l2, l3, -, l4, -⟩ := C99_refine_partial crit D critMax maxInner
  refine ⟨h', F', ?_, l2, fun u hu => l3 u ((k2 u).mpr hu), fun p => by rw [l4, k3]⟩
  unfold Mesh.surfaceMesh
  rw [k1, R_bind_ok]
  exact l1

end

/-- The unit square with a vertex at the middle of each side, refined by the length of the sides of the triangles. -/
example : ∃ h F, Mesh.surfaceMesh Mesh.maxEdgeSize taxi taxiCross (1 / 100) flatSurface (1 / 4) 10 10 [0, 1, 2, 3] 5 0 1 0 1 3 3 100 = .ok (h, F) ∧
    Spec.Delaunay h F ∧ (∀ p, (∃ f ∈ F, Spec.InFace h f p) ↔ Spec.InRect (0, 0) (1, 1) p) ∧ 6 < F.length := by
  have hX : meshSurfaceBoundary taxi taxiCross (1 / 100) flatSurface 5 0 1 0 1 3 3 100 =
      .ok [(0, 0), (1 / 2, 0), (1, 0), (1, 1 / 2), (1, 1), (1, 1), (1 / 2, 1), (0, 1), (0, 1 / 2), (0, 0), (0, 0), (0, 0)] := by decide +kernel
  obtain ⟨h, F, k1, k2, -, k3⟩ := C99_surface_partial Mesh.maxEdgeSize taxi_crossNorm (pc := 10) (by norm_num) (by norm_num) (u1 := 0) (u2 := 1) (v1 := 0)
    (v2 := 1) (by norm_num) (by norm_num) (by norm_num) (by norm_num) (corners := [0, 1, 2, 3]) (by intro v; simp; omega)
    ⟨by unfold Spec.InRect; norm_num, by simp⟩ hX (1 / 4) 10
  refine ⟨h, F, k1, k2, k3, ?_⟩
  have : 6 < (facesOf (Mesh.surfaceMesh Mesh.maxEdgeSize taxi taxiCross (1 / 100) flatSurface (1 / 4) 10 10 [0, 1, 2, 3] 5 0 1 0 1 3 3 100)).length := by
    decide +kernel
  rw [k1] at this
  simpa [facesOf] using this

/-- The mesh that is returned may not meet the criterion although less points than allowed were inserted: here the greatest squared length allowed is 4,
and sides shared by triangles have a squared length of 9. -/
theorem C99_not_met : facesOf (Mesh.delaunay2D 10 [0, 1, 2, 3] [(1, 0), (0, 3), (-1, 0), (0, -3)] >>= Mesh.surfaceMeshRefine Mesh.maxEdgeSize 4 10) =
    [((-1, 0), (0, 0), (0, 3)), ((0, -3), (0, 0), (-1, 0)), ((1, 0), (0, 0), (0, -3)), (((0, 3) : ℚ × ℚ), (0, 0), (1, 0))] ∧
    (Mesh.maxEdgeSize [((-1, 0), (0, 0), true), ((0, 0), (0, 3), true), (((0, 3) : ℚ × ℚ), (-1, 0), false)]).1 = 9 :=
  ⟨by decide +kernel, by decide +kernel⟩

/-- And the origin is inserted in a mesh with no shared side, whatever the criterion allows. -/
theorem C99_dummy : facesOf (Mesh.delaunay2D 10 [0, 1, 2, 3] [(-1, -1), (2, -1), (-1, 2)] >>= Mesh.surfaceMeshRefine Mesh.maxEdgeSize 1000 10) =
    [((-1, 2), (0, 0), (2, -1)), ((-1, -1), (0, 0), (-1, 2)), (((2, -1) : ℚ × ℚ), (0, 0), (-1, -1))] := by decide +kernel

end Gbs
