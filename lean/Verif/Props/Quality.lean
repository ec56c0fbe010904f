import Verif.Model.Quality
import Verif.Props.TakeFaces
import Verif.Props.Delaunay2D
import Verif.Lemmas.OkInv
import Mathlib.Analysis.Convex.StrictConvexBetween
import Mathlib.Analysis.InnerProductSpace.PiL2
import Mathlib.Analysis.InnerProductSpace.Convex
import Mathlib.Geometry.Euclidean.Angle.Unoriented.CrossProduct

/-!
# C105: the area of meshes and the criteria of refinement
-/

set_option linter.unusedSectionVars false

namespace Gbs

section area
variable {K : Type} [Field K] [LinearOrder K] [IsStrictOrderedRing K] {h h' : Mesh (K × K)} {F : List ℕ} {f : ℕ}

theorem triFaceArea_spec (H : Spec.Valid h F) (hf : f ∈ F) : h.triFaceArea f = .ok (|Spec.faceArea2 h f| / 2) := by
  obtain ⟨a, b, c, t, hfe⟩ := H.tri hf
  unfold Mesh.triFaceArea
  rw [H.getFaceEdges t hfe, R_bind_ok]
  rw [mapM_ok (g := Spec.endPt h) _ fun e he => ?_, R_bind_ok]
  · simp only [List.map_cons, List.map_nil, R_pure, Except.ok.injEq]
    rw [Spec.faceArea2, t.corners hfe, triArea, Spec.area2]
    ring
  · simp only [List.mem_cons, List.not_mem_nil, or_false] at he
    rcases he with rfl | rfl | rfl
    exacts [H.endCo ⟨f, hf, t.fa⟩, H.endCo ⟨f, hf, t.fb⟩, H.endCo ⟨f, hf, t.fc⟩]

/-- What an operand of the reduction is worth. -/
def AreaArg.worth (h : Mesh (K × K)) : AreaArg K → K
  | .num x => x
  | .face f => |Spec.faceArea2 h f| / 2

theorem reduceArea_spec (H : Spec.Valid h F) : ∀ t : ReduceTree, (∀ f, some f ∈ t.leaves → f ∈ F) →
    ∃ a, h.reduceArea t = .ok a ∧ (∀ f, a = .face f → f ∈ F) ∧ (2 ≤ t.leaves.length → ∃ x, a = .num x) ∧
      a.worth h = (t.leaves.map fun x => match x with | none => 0 | some f => |Spec.faceArea2 h f| / 2).sum
  | .leaf none, _ => ⟨.num 0, rfl, fun _ h => by simp at h, fun _ => ⟨0, rfl⟩, by simp [AreaArg.worth, ReduceTree.leaves]⟩
  | .leaf (some f), hl => ⟨.face f, rfl, fun g hg => by cases hg; exact hl f (by simp [ReduceTree.leaves]), fun h => by simp [ReduceTree.leaves] at h,
      by simp [AreaArg.worth, ReduceTree.leaves]⟩
  | .node l r, hl => by
    obtain ⟨a, ha, ha', -, hav⟩ := reduceArea_spec H l fun f hf => hl f (by simp [ReduceTree.leaves, hf])
    obtain ⟨b, hb, hb', -, hbv⟩ := reduceArea_spec H r fun f hf => hl f (by simp [ReduceTree.leaves, hf])
    have hs : h.sumArea a b = .ok (a.worth h + b.worth h) := by
      cases a with
      | num A =>
        cases b with
        | num B => rfl
        | face g => simp [Mesh.sumArea, triFaceArea_spec H (hb' g rfl), AreaArg.worth, R_bind_ok, R_pure]
      | face f =>
        cases b with
        | num B => simp [Mesh.sumArea, triFaceArea_spec H (ha' f rfl), AreaArg.worth, R_bind_ok, R_pure, add_comm]
        | face g => simp [Mesh.sumArea, triFaceArea_spec H (hb' g rfl), triFaceArea_spec H (ha' f rfl), AreaArg.worth, R_bind_ok, R_pure]
    refine ⟨.num (a.worth h + b.worth h), ?_, fun _ h => by simp at h, fun _ => ⟨_, rfl⟩, ?_⟩
    · simp only [Mesh.reduceArea, ha, hb, R_bind_ok, hs, R_pure]
    · simp only [AreaArg.worth, ReduceTree.leaves, List.map_append, List.sum_append]
      exact congrArg₂ (· + ·) hav hbv

/-- C105: whatever the order in which `std::reduce` combines the faces and the initial value, alone or in parallel, the result is the sum of the areas of the
triangles, and half the sum of the signed areas when they turn counter-clockwise. -/
theorem C105_area (H : Spec.Valid h F) (t : ReduceTree) (ht : t.leaves.Perm (none :: F.map some)) :
    ∃ A, h.reduceArea t = .ok (.num A) ∧ A = (F.map fun f => |Spec.faceArea2 h f| / 2).sum ∧
      (Spec.Ccw h F → A = (F.map (Spec.faceArea2 h)).sum / 2) := by
  obtain ⟨a, h1, -, h3, h4⟩ := reduceArea_spec H t fun f hf => by
    have := ht.mem_iff.mp hf
    simpa using this
  have e : (t.leaves.map fun x => match x with | none => 0 | some f => |Spec.faceArea2 h f| / 2).sum = (F.map fun f => |Spec.faceArea2 h f| / 2).sum := by
    rw [(ht.map _).sum_eq]
    simp only [List.map_cons, List.sum_cons, zero_add, List.map_map]
    rfl
  have hnum : ∃ x, a = .num x := by
    rcases Nat.lt_or_ge t.leaves.length 2 with hlt | hge
    · have hlen := ht.length_eq
      rw [List.length_cons, List.length_map] at hlen
      have hF : F = [] := List.length_eq_zero_iff.mp (by omega)
      subst hF
      cases t with
      | leaf x =>
        have : x = none := by simpa [ReduceTree.leaves] using ht
        subst this
        exact ⟨0, (Except.ok.inj h1).symm⟩
      | node l r =>
        exfalso
        have pos : ∀ t : ReduceTree, 0 < t.leaves.length := by
          intro t
          induction t with
          | leaf => simp [ReduceTree.leaves]
          | node l r il ir => simp only [ReduceTree.leaves, List.length_append]; omega
        have := pos l
        have := pos r
        simp only [ReduceTree.leaves, List.length_append] at hlt
        omega
    · exact h3 hge
  obtain ⟨A, rfl⟩ := hnum
  refine ⟨A, h1, h4.trans e, fun hc => (h4.trans e).trans ?_⟩
  rw [List.map_congr_left (g := fun f => Spec.faceArea2 h f * (1 / 2)) fun f hf => by rw [abs_of_pos (hc f hf)]; ring, List.sum_map_mul_right]
  ring

/-- C105: the insertion of a point keeps the area that the reductions give. -/
theorem C105_area_insert (H : Spec.Valid h F) (hw : Spec.Ccw h F) (xy : K × K) (t : ReduceTree) (ht : t.leaves.Perm (none :: F.map some)) :
    ∃ h' F' r, h.boyerWatson F xy = .ok ((h', F'), r) ∧
      ∀ t' : ReduceTree, t'.leaves.Perm (none :: F'.map some) → h'.reduceArea t' = h.reduceArea t := by
  obtain ⟨h', F', r, h1, h2⟩ := C42_insert H hw xy
  refine ⟨h', F', r, h1, fun t' ht' => ?_⟩
  obtain ⟨A, a1, -, a3⟩ := C105_area H t ht
  rcases h2 with ⟨-, rfl, rfl⟩ | ⟨del, new, -, -, -, -, -, -, -, -, -, v, c, s, -⟩
  · obtain ⟨B, b1, -, b3⟩ := C105_area H t' ht'
    rw [a1, b1, a3 hw, b3 hw]
  · obtain ⟨B, b1, -, b3⟩ := C105_area v t' ht'
    rw [a1, b1, a3 hw, b3 c, s]

end area

section inserted
variable {K : Type} [Field K] [LinearOrder K] [IsStrictOrderedRing K] {h h' : Mesh (K × K)} {F : List ℕ} {f : ℕ}

/-- The middle of a side. -/
def Spec.midPt (e : SideView K) : K × K := ((e.1.1 + e.2.1.1) / 2, (e.1.2 + e.2.1.2) / 2)

/-- `Q` is the greatest of a quantity on the shared sides of a face and `p` the middle of a side that reaches it; or nothing is greater than 0. -/
def Spec.WorstSide (v : List (SideView K)) (q : SideView K → K) (Q : K) (p : K × K) : Prop :=
  0 ≤ Q ∧ (∀ e ∈ v, e.2.2 = true → q e ≤ Q) ∧ ((∃ e ∈ v, e.2.2 = true ∧ Q = q e ∧ p = Spec.midPt e) ∨ (Q = 0 ∧ p = (0, 0)))

/-- A point which is a vertex of a triangulation after an insertion and not before. -/
def Spec.GetsInserted (h : Mesh (K × K)) (F : List ℕ) (p : K × K) : Prop :=
  ∃ h' F' v del new, h.boyerWatson F p = .ok ((h', F'), some (v, del, new)) ∧ Spec.Delaunay h' F' ∧ Spec.IsVertex h' F' p ∧ ¬Spec.IsVertex h F p

theorem getsInserted (D : Spec.Delaunay h F) {p : K × K} (hf : f ∈ F) (hin : Spec.InFace h f p) (hnc : ¬Spec.IsCorner h f p)
    (hpos : ∀ e, Spec.Live h F e → (h.he e).opp = none → 0 < Spec.side h e p) : Spec.GetsInserted h F p := by
  have hnv : ¬Spec.IsVertex h F p := fun hv => hnc (D.corner hf hv hin)
  obtain ⟨h', F', r, k1, k2, -, -, -, k5, -, -, k8⟩ := D.insert_any p
  have hv' : Spec.IsVertex h' F' p := by
    rcases k5 with k5 | ⟨e, he, ho, hs⟩
    · exact k5
    · exact absurd (hpos e he ho) (not_lt.mpr hs)
  rcases k8 with ⟨-, k8⟩ | ⟨v, del, new, rfl, -⟩
  · obtain ⟨rfl, rfl⟩ := Prod.mk.inj k8
    exact absurd hv' hnv
  · exact ⟨h', F', v, del, new, k1, k2, hv', hnv⟩

/-- C105: in a Delaunay triangulation, the middle of a shared side gets inserted. -/
theorem C105_middle_inserted (D : Spec.Delaunay h F) (hf : f ∈ F) {x : SideView K} (hx : x ∈ Spec.view h f) (hs : x.2.2 = true) :
    Spec.GetsInserted h F (Spec.midPt x) := by
  obtain ⟨a, b, c, t, hfe⟩ := D.valid.tri hf
  rw [t.view hfe, List.mem_map] at hx
  obtain ⟨e, he, rfl⟩ := hx
  have hef : (h.he e).face = some f := by
    simp only [List.mem_cons, List.not_mem_nil, or_false] at he
    rcases he with rfl | rfl | rfl
    exacts [t.fa, t.fb, t.fc]
  obtain ⟨o, ho⟩ := Option.isSome_iff_exists.mp hs
  obtain ⟨b, c, t⟩ := D.valid.triAt hf hef
  have hA := D.ccw f hf
  rw [D.valid.faceArea2 hf t] at hA
  have hin : Spec.InFace h f (Spec.midPt (Spec.startPt h e, Spec.endPt h e, (h.he e).opp.isSome)) ∧
      Spec.side h e (Spec.midPt (Spec.startPt h e, Spec.endPt h e, (h.he e).opp.isSome)) = 0 ∧
      ¬Spec.IsCorner h f (Spec.midPt (Spec.startPt h e, Spec.endPt h e, (h.he e).opp.isSome)) := by
    rw [t.inFace, t.isCorner]
    unfold Spec.side Spec.midPt
    simp only [t.startPt, t.rotate.startPt, t.rotate.rotate.startPt]
    generalize Spec.endPt h e = A at *
    generalize Spec.endPt h b = B at *
    generalize Spec.endPt h c = C at *
    obtain ⟨A1, A2⟩ := A
    obtain ⟨B1, B2⟩ := B
    obtain ⟨C1, C2⟩ := C
    simp only [Spec.area2, Prod.mk.injEq] at *
    have e0 : (A1 - C1) * ((C2 + A2) / 2 - C2) - (A2 - C2) * ((C1 + A1) / 2 - C1) = 0 := by ring
    have e1 : (B1 - A1) * ((C2 + A2) / 2 - A2) - (B2 - A2) * ((C1 + A1) / 2 - A1) = ((B1 - A1) * (C2 - A2) - (B2 - A2) * (C1 - A1)) / 2 := by ring
    have e2 : (C1 - B1) * ((C2 + A2) / 2 - B2) - (C2 - B2) * ((C1 + A1) / 2 - B1) = ((B1 - A1) * (C2 - A2) - (B2 - A2) * (C1 - A1)) / 2 := by ring
    refine ⟨⟨e0.ge, by rw [e1]; linarith, by rw [e2]; linarith⟩, e0, ?_⟩
    rintro (⟨h1, h2⟩ | ⟨h1, h2⟩ | ⟨h1, h2⟩)
    · have r1 : C1 = A1 := by linarith
      have r2 : C2 = A2 := by linarith
      rw [r1, r2] at hA; norm_num at hA
    · have r1 : C1 - A1 = 2 * (B1 - A1) := by linarith
      have r2 : C2 - A2 = 2 * (B2 - A2) := by linarith
      rw [r1, r2] at hA
      exact absurd hA (by rw [not_lt]; apply le_of_eq; ring)
    · have r1 : C1 = A1 := by linarith
      have r2 : C2 = A2 := by linarith
      rw [r1, r2] at hA; norm_num at hA
  exact getsInserted D hf hin.1 hin.2.2 fun y hy hyo => D.edge_pos hf hin.1 hin.2.2 hef hin.2.1 ho hy hyo

/-- C105: so does the centroid of a triangle. -/
theorem C105_centroid_inserted (D : Spec.Delaunay h F) (hf : f ∈ F) : Spec.GetsInserted h F (Spec.centroid h f) := by
  have hin := D.valid.centroid_inside D.ccw hf
  refine getsInserted D hf (fun e he => (hin e he).le) ?_ fun y hy hyo => D.inside_pos hf hin hy hyo
  rintro ⟨e, he, hc⟩
  obtain ⟨b, c, t⟩ := D.valid.triAt hf he
  have := hin e he
  rw [← hc, Spec.side] at this
  unfold Spec.area2 at this
  exact absurd this (by rw [not_lt]; apply le_of_eq; ring)

/-- C105: with a criterion that returns the worst of the shared sides, the refinement has a point to insert at each face which is not perfect. -/
theorem C105_worst_inserted (D : Spec.Delaunay h F) (hf : f ∈ F) {q : SideView K → K} {Q : K} {p : K × K} (hW : Spec.WorstSide (Spec.view h f) q Q p)
    (hQ : Q ≠ 0) : Spec.GetsInserted h F p := by
  rcases hW.2.2 with ⟨e, he, hs, -, rfl⟩ | ⟨h0, -⟩
  · exact C105_middle_inserted D hf he hs
  · exact absurd h0 hQ

theorem maxFirst_spec {α : Type} (l : List (K × α)) (hl : l ≠ []) : ∃ x ∈ l, maxFirst l = .ok x ∧ ∀ y ∈ l, y.1 ≤ x.1 := by
  have key : ∀ (l : List (K × α)) (b : K × α), ∃ x, (x = b ∨ x ∈ l) ∧ l.foldl (fun best y => if best.1 < y.1 then y else best) b = x ∧ b.1 ≤ x.1 ∧
      ∀ y ∈ l, y.1 ≤ x.1 := by
    intro l
    induction l with
    | nil => exact fun b => ⟨b, Or.inl rfl, rfl, le_refl _, by simp⟩
    | cons y l ih =>
      intro b
      rw [List.foldl_cons]
      obtain ⟨x, k1, k2, k3, k4⟩ := ih (if b.1 < y.1 then y else b)
      have hb : b.1 ≤ (if b.1 < y.1 then y else b).1 ∧ y.1 ≤ (if b.1 < y.1 then y else b).1 := by
        split_ifs with h
        exacts [⟨h.le, le_refl _⟩, ⟨le_refl _, not_lt.mp h⟩]
      refine ⟨x, ?_, k2, hb.1.trans k3, fun z hz => ?_⟩
      · rcases k1 with k1 | k1
        · split_ifs at k1
          exacts [Or.inr (by rw [k1]; exact List.mem_cons_self ..), Or.inl k1]
        · exact Or.inr (List.mem_cons_of_mem _ k1)
      · rcases List.mem_cons.mp hz with rfl | hz
        exacts [hb.2.trans k3, k4 z hz]
  obtain ⟨b, l, rfl⟩ := List.exists_cons_of_ne_nil hl
  obtain ⟨x, k1, k2, k3, k4⟩ := key l b
  refine ⟨x, ?_, ?_, ?_⟩
  · rcases k1 with rfl | k1
    exacts [List.mem_cons_self .., List.mem_cons_of_mem _ k1]
  · simp only [maxFirst, k2, R_pure]
  · intro y hy
    rcases List.mem_cons.mp hy with rfl | hy
    exacts [k3, k4 y hy]

/-- The greatest of the values of the sides, null for those which are not shared, is that of the worst of the shared sides. -/
theorem worstSide_of_max {v : List (SideView K)} {q : SideView K → K} (hq : ∀ e ∈ v, e.2.2 = true → 0 ≤ q e) (hv : v ≠ []) {z : List (K × (K × K))}
    (hz : ∀ x ∈ z, x = (0, (0, 0))) :
    ∃ Q p, maxFirst (z ++ v.map fun e => if e.2.2 = true then (q e, Spec.midPt e) else (0, (0, 0))) = .ok (Q, p) ∧ Spec.WorstSide v q Q p := by
  obtain ⟨⟨Q, p⟩, k1, k2, k3⟩ := maxFirst_spec (z ++ v.map fun e => if e.2.2 = true then (q e, Spec.midPt e) else (0, (0, 0))) (by simp [hv])
  refine ⟨Q, p, k2, ?_, fun e he hs => ?_, ?_⟩
  · obtain ⟨e, he⟩ := List.exists_mem_of_ne_nil _ hv
    have := k3 _ (List.mem_append_right _ (List.mem_map_of_mem he))
    split_ifs at this with hs
    · exact (hq e he hs).trans this
    · exact this
  · have := k3 _ (List.mem_append_right _ (List.mem_map_of_mem he))
    simpa [hs] using this
  · rcases List.mem_append.mp k1 with k1 | k1
    · have := hz _ k1
      simp only [Prod.mk.injEq] at this
      exact Or.inr ⟨this.1, by rw [this.2]⟩
    · obtain ⟨e, he, hx⟩ := List.mem_map.mp k1
      split_ifs at hx with hs
      · obtain ⟨rfl, rfl⟩ := Prod.mk.inj hx
        exact Or.inl ⟨e, he, hs, rfl, rfl⟩
      · obtain ⟨rfl, rfl⟩ := Prod.mk.inj hx
        exact Or.inr ⟨rfl, rfl⟩

theorem worstSide_zero {v : List (SideView K)} {q : SideView K → K} (hq : ∀ e ∈ v, e.2.2 = true → 0 ≤ q e) {Q : K} {p : K × K}
    (W : Spec.WorstSide v q Q p) : Q = 0 ↔ ∀ e ∈ v, e.2.2 = true → q e = 0 := by
  obtain ⟨w1, w2, w3⟩ := W
  constructor
  · rintro rfl e he hs
    exact le_antisymm (w2 e he hs) (hq e he hs)
  · intro hall
    rcases w3 with ⟨e, he, hs, rfl, -⟩ | ⟨h0, -⟩
    exacts [hall e he hs, h0]

theorem sideMid_eq (e : SideView K) : sideMid e = Spec.midPt e := by
  unfold sideMid Spec.midPt; ext <;> simp <;> ring

theorem sideMid'_eq (e : SideView K) : sideMid' e = Spec.midPt e := by
  unfold sideMid' Spec.midPt; ext <;> simp <;> ring

end inserted

section criteria
variable {n : ℕ}

/-- The distance of two points. -/
noncomputable def Spec.len (x y : Fin n → ℝ) : ℝ := Real.sqrt (∑ i, (x i - y i) ^ 2)

theorem vnorm_sub (x y : Fin n → ℝ) : vnorm Real.sqrt (x - y) = Spec.len x y := by
  unfold vnorm sqNorm Spec.len
  congr 1
  exact Finset.sum_congr rfl fun i _ => by rw [Pi.sub_apply]; ring

theorem len_dist (x y : Fin n → ℝ) : Spec.len x y = dist (WithLp.toLp 2 x) (WithLp.toLp 2 y) := by
  rw [EuclideanSpace.dist_eq]
  unfold Spec.len
  congr 1
  exact Finset.sum_congr rfl fun i _ => by rw [Real.dist_eq, sq_abs]

theorem len_nonneg (x y : Fin n → ℝ) : 0 ≤ Spec.len x y := Real.sqrt_nonneg _

theorem len_comm (x y : Fin n → ℝ) : Spec.len x y = Spec.len y x := by rw [len_dist, len_dist, dist_comm]

theorem len_eq_zero {x y : Fin n → ℝ} : Spec.len x y = 0 ↔ x = y := by
  rw [len_dist, dist_eq_zero, (WithLp.toLp_injective 2).eq_iff]

theorem len_pos {x y : Fin n → ℝ} (hxy : x ≠ y) : 0 < Spec.len x y :=
  lt_of_le_of_ne (len_nonneg _ _) fun h0 => hxy (len_eq_zero.mp h0.symm)

theorem len_between {x y z : Fin n → ℝ} : Spec.len x y + Spec.len y z = Spec.len x z ↔ ∃ t : ℝ, 0 ≤ t ∧ t ≤ 1 ∧ y = x + t • (z - x) := by
  rw [len_dist, len_dist, len_dist, dist_add_dist_eq_iff]
  constructor
  · rintro ⟨t, ⟨t0, t1⟩, ht⟩
    refine ⟨t, t0, t1, WithLp.toLp_injective 2 ?_⟩
    rw [← ht, AffineMap.lineMap_apply]
    ext i
    simp [add_comm]
  · rintro ⟨t, t0, t1, rfl⟩
    refine ⟨t, ⟨t0, t1⟩, ?_⟩
    rw [AffineMap.lineMap_apply]
    ext i
    simp [add_comm]

/-- The two ends and the middle of a side on the surface. -/
def Spec.first (S : ℝ → ℝ → Fin n → ℝ) (e : SideView ℝ) : Fin n → ℝ := S e.1.1 e.1.2
@[inherit_doc Spec.first]
def Spec.last (S : ℝ → ℝ → Fin n → ℝ) (e : SideView ℝ) : Fin n → ℝ := S e.2.1.1 e.2.1.2
@[inherit_doc Spec.first]
noncomputable def Spec.middle (S : ℝ → ℝ → Fin n → ℝ) (e : SideView ℝ) : Fin n → ℝ := S (Spec.midPt e).1 (Spec.midPt e).2

/-- By how much the way through the point of the surface at the middle of a side is longer than the chord. -/
noncomputable def Spec.sag (S : ℝ → ℝ → Fin n → ℝ) (e : SideView ℝ) : ℝ :=
  (Spec.len (Spec.first S e) (Spec.middle S e) + Spec.len (Spec.middle S e) (Spec.last S e)) / Spec.len (Spec.first S e) (Spec.last S e) - 1

/-- C105: `DistanceMeshSurface2` returns the greatest of the relative lengthenings on the shared sides and the middle of a side that reaches it. It is 0
exactly when the points of the surface at the middles are on the chords. -/
theorem C105_sag (S : ℝ → ℝ → Fin n → ℝ) {v : List (SideView ℝ)} (hv : v ≠ [])
    (hne : ∀ e ∈ v, e.2.2 = true → Spec.first S e ≠ Spec.last S e) :
    ∃ Q p, distanceMesh2 Real.sqrt (fun u w => pure (S u w)) v = .ok (Q, p) ∧ Spec.WorstSide v (Spec.sag S) Q p ∧
      (Q = 0 ↔ ∀ e ∈ v, e.2.2 = true → ∃ t : ℝ, 0 ≤ t ∧ t ≤ 1 ∧ Spec.middle S e = Spec.first S e + t • (Spec.last S e - Spec.first S e)) := by
  have hq : ∀ e ∈ v, e.2.2 = true → 0 ≤ Spec.sag S e := by
    intro e he hs
    have h1 := len_pos (hne e he hs)
    unfold Spec.sag
    rw [sub_nonneg, le_div_iff₀ h1, one_mul, len_dist, len_dist, len_dist]
    exact dist_triangle _ _ _
  obtain ⟨Q, p, k1, k2⟩ := worstSide_of_max hq hv (z := List.replicate v.length (0, (0, 0))) fun x hx => List.eq_of_mem_replicate hx
  refine ⟨Q, p, ?_, k2, ?_⟩
  · unfold distanceMesh2
    rw [mapM_ok (g := fun e => if e.2.2 = true then (Spec.sag S e, Spec.midPt e) else (0, (0, 0))) v fun e he => ?_, R_bind_ok]
    · exact k1
    · unfold sideSag
      split_ifs with hs
      · have h1 := (len_pos (hne e he hs)).ne'
        simp only [R_pure, R_bind_ok, vnorm_sub, sideMid'_eq]
        change (fdiv (Spec.len (Spec.first S e) (Spec.middle S e) + Spec.len (Spec.last S e) (Spec.middle S e) - Spec.len (Spec.last S e) (Spec.first S e))
          (Spec.len (Spec.last S e) (Spec.first S e)) >>= _) = _
        rw [fdiv_ok (by rw [len_comm]; exact h1), R_bind_ok, len_comm (Spec.last S e) (Spec.first S e), len_comm (Spec.last S e) (Spec.middle S e)]
        unfold Spec.sag
        rw [sub_div, div_self h1]
      · rfl
  · rw [worstSide_zero hq k2]
    refine forall_congr' fun e => forall_congr' fun he => forall_congr' fun hs => ?_
    rw [← len_between, Spec.sag, sub_eq_zero, div_eq_one_iff_eq (len_pos (hne e he hs)).ne']

/-- How far the middle of the chord of a side is from the point of the surface at the middle of the side. -/
noncomputable def Spec.gap (S : ℝ → ℝ → Fin n → ℝ) (e : SideView ℝ) : ℝ :=
  Spec.len ((1 / 2 : ℝ) • (Spec.first S e + Spec.last S e)) (Spec.middle S e)

/-- How far the centroid of the corners of a triangle on the surface is from the point of the surface at the centroid. -/
noncomputable def Spec.gapCentroid (S : ℝ → ℝ → Fin n → ℝ) (a b c : ℝ × ℝ) : ℝ :=
  Spec.len ((1 / 3 : ℝ) • (S a.1 a.2 + S b.1 b.2 + S c.1 c.2)) (S ((a.1 + b.1 + c.1) / 3) ((a.2 + b.2 + c.2) / 3))

/-- C105: `DistanceMeshSurface3` returns the greatest of the distances at the middles of the shared sides and at the centroid, and a point that reaches it. -/
theorem C105_gap (S : ℝ → ℝ → Fin n → ℝ) (a b c : ℝ × ℝ) (s1 s2 s3 : Bool) :
    ∃ Q p, distanceMesh3 Real.sqrt (fun u w => pure (S u w)) [(c, a, s1), (a, b, s2), (b, c, s3)] = .ok (Q, p) ∧ 0 ≤ Q ∧
      Spec.gapCentroid S a b c ≤ Q ∧ (∀ e ∈ [(c, a, s1), (a, b, s2), (b, c, s3)], e.2.2 = true → Spec.gap S e ≤ Q) ∧
      ((∃ e ∈ [(c, a, s1), (a, b, s2), (b, c, s3)], e.2.2 = true ∧ Q = Spec.gap S e ∧ p = Spec.midPt e) ∨
        (Q = Spec.gapCentroid S a b c ∧ p = ((a.1 + b.1 + c.1) / 3, (a.2 + b.2 + c.2) / 3)) ∨ (Q = 0 ∧ p = (0, 0))) := by
  set v : List (SideView ℝ) := [(c, a, s1), (a, b, s2), (b, c, s3)] with hv
  obtain ⟨⟨Q, p⟩, k1, k2, k3⟩ := maxFirst_spec ((v.map fun e => if e.2.2 = true then (Spec.gap S e, Spec.midPt e) else (0, (0, 0))) ++
    [(Spec.gapCentroid S a b c, ((a.1 + b.1 + c.1) / 3, (a.2 + b.2 + c.2) / 3))]) (by simp)
  have kc := k3 _ (List.mem_append_right _ (List.mem_singleton_self _))
  refine ⟨Q, p, ?_, (len_nonneg _ _).trans kc, kc, fun e he hs => ?_, ?_⟩
  · unfold distanceMesh3
    rw [mapM_ok (f := sideGap Real.sqrt fun u w => pure (S u w))
      (g := fun e => if e.2.2 = true then (Spec.gap S e, Spec.midPt e) else (0, (0, 0))) v fun e he => ?_]
    · have hm : (v.map fun e => e.2.1).mapM (fun x : ℝ × ℝ => (Except.ok (S x.1 x.2) : R (Fin n → ℝ))) =
          .ok ((v.map fun e => e.2.1).map fun x : ℝ × ℝ => S x.1 x.2) := mapM_ok _ fun x _ => rfl
      have h3 : fdiv (1 : ℝ) (((v.map fun e => e.2.1).length : ℕ) : ℝ) = .ok (1 / 3) := by
        rw [fdiv_ok (by simp [hv])]; simp [hv]
      simp only [R_pure]
      simp only [h3, hm, R_bind_ok, vnorm_sub]
      have e1 : ((1 / 3 : ℝ) * ((v.map fun e : SideView ℝ => e.2.1).foldl (fun x y => x + y) (0 : ℝ × ℝ)).1) = (a.1 + b.1 + c.1) / 3 := by
        simp [hv]; ring
      have e2 : ((1 / 3 : ℝ) * ((v.map fun e : SideView ℝ => e.2.1).foldl (fun x y => x + y) (0 : ℝ × ℝ)).2) = (a.2 + b.2 + c.2) / 3 := by
        simp [hv]; ring
      have e3 : ((v.map fun e => e.2.1).map fun x : ℝ × ℝ => S x.1 x.2).foldl (fun x y => x + y) 0 = S a.1 a.2 + S b.1 b.2 + S c.1 c.2 := by
        simp [hv]
      rw [e1, e2, e3]
      exact k2
    · unfold sideGap
      split_ifs with hs
      · simp only [R_pure, R_bind_ok, vnorm_sub, sideMid'_eq]
        unfold Spec.gap Spec.first Spec.last Spec.middle
        congr 3
        module
      · rfl
  · have := k3 _ (List.mem_append_left _ (List.mem_map_of_mem he))
    simpa [hs] using this
  · rcases List.mem_append.mp k1 with k1 | k1
    · obtain ⟨e, he, hx⟩ := List.mem_map.mp k1
      split_ifs at hx with hs
      · obtain ⟨rfl, rfl⟩ := Prod.mk.inj hx
        exact Or.inl ⟨e, he, hs, rfl, rfl⟩
      · obtain ⟨rfl, rfl⟩ := Prod.mk.inj hx
        exact Or.inr (Or.inr ⟨rfl, rfl⟩)
    · rw [List.mem_singleton] at k1
      obtain ⟨rfl, rfl⟩ := Prod.mk.inj k1
      exact Or.inr (Or.inl ⟨rfl, rfl⟩)

/-- C105: `MaxEdgeSizeSurface` returns the square of the longest chord of the shared sides and the middle of a side that reaches it. -/
theorem C105_size (S : ℝ → ℝ → Fin n → ℝ) {v : List (SideView ℝ)} (hv : v ≠ []) :
    ∃ Q p, maxEdgeSizeSurface (fun u w => pure (S u w)) v = .ok (Q, p) ∧
      Spec.WorstSide v (fun e => Spec.len (Spec.first S e) (Spec.last S e) ^ 2) Q p := by
  obtain ⟨Q, p, k1, k2⟩ := worstSide_of_max (q := fun e => Spec.len (Spec.first S e) (Spec.last S e) ^ 2) (v := v) (fun e _ _ => sq_nonneg _) hv (z := [])
    (by simp)
  refine ⟨Q, p, ?_, k2⟩
  unfold maxEdgeSizeSurface
  rw [mapM_ok (g := fun e : SideView ℝ => if e.2.2 = true then (Spec.len (Spec.first S e) (Spec.last S e) ^ 2, Spec.midPt e) else (0, (0, 0))) v
    fun e he => ?_, R_bind_ok]
  · exact k1
  · split_ifs with hs
    · simp only [R_pure, R_bind_ok, sideMid_eq]
      congr 2
      unfold sqNorm Spec.len Spec.first Spec.last
      rw [Real.sq_sqrt (Finset.sum_nonneg fun i _ => sq_nonneg _)]
      exact Finset.sum_congr rfl fun i _ => by rw [Pi.sub_apply]; ring
    · rfl

/-! ### Directions -/

/-- The angle of two vectors of the space. -/
noncomputable def Spec.angle3 (a b : Fin 3 → ℝ) : ℝ := InnerProductGeometry.angle (WithLp.toLp 2 a) (WithLp.toLp 2 b)

theorem vnorm_toLp (x : Fin n → ℝ) : vnorm Real.sqrt x = ‖WithLp.toLp 2 x‖ := by
  rw [EuclideanSpace.norm_eq]
  unfold vnorm sqNorm
  congr 1
  exact Finset.sum_congr rfl fun i _ => by rw [Real.norm_eq_abs, sq_abs]; ring

theorem vnorm_pos {x : Fin n → ℝ} (hx : x ≠ 0) : 0 < vnorm Real.sqrt x := by
  rw [vnorm_toLp, norm_pos_iff]
  exact fun h0 => hx (WithLp.toLp_injective 2 h0)

theorem vnorm_cross3 (a b : Fin 3 → ℝ) : vnorm Real.sqrt (cross3 a b) = vnorm Real.sqrt a * vnorm Real.sqrt b * Real.sin (Spec.angle3 a b) := by
  rw [vnorm_toLp, vnorm_toLp, vnorm_toLp, Spec.angle3, ← InnerProductGeometry.norm_toLp_symm_crossProduct, cross_apply]
  rfl

/-- The direction of a side on the surface at a point. -/
def Spec.along (Su Sv : ℝ → ℝ → Fin 3 → ℝ) (e : SideView ℝ) (x : ℝ × ℝ) : Fin 3 → ℝ :=
  (e.2.1.1 - e.1.1) • Su x.1 x.2 + (e.2.1.2 - e.1.2) • Sv x.1 x.2

/-- C105: `DeviationMeshSurface2` returns the greatest sine of the angles between the directions of a shared side at its ends, and the middle of a side that
reaches it. It is 0 exactly when the directions are parallel, also when they are opposite. -/
theorem C105_turn {srf : ℝ → ℝ → ℕ → ℕ → R (Fin 3 → ℝ)} {Su Sv : ℝ → ℝ → Fin 3 → ℝ} (hu : ∀ u w, srf u w 1 0 = .ok (Su u w))
    (hw : ∀ u w, srf u w 0 1 = .ok (Sv u w)) {v : List (SideView ℝ)} (hv : v ≠ [])
    (hne : ∀ e ∈ v, e.2.2 = true → Spec.along Su Sv e e.1 ≠ 0 ∧ Spec.along Su Sv e e.2.1 ≠ 0) :
    ∃ Q p, deviationMesh2 Real.sqrt srf v = .ok (Q, p) ∧
      Spec.WorstSide v (fun e => Real.sin (Spec.angle3 (Spec.along Su Sv e e.1) (Spec.along Su Sv e e.2.1))) Q p ∧
      (Q = 0 ↔ ∀ e ∈ v, e.2.2 = true → ∃ k : ℝ, Spec.along Su Sv e e.2.1 = k • Spec.along Su Sv e e.1) := by
  have hq : ∀ e ∈ v, e.2.2 = true → 0 ≤ Real.sin (Spec.angle3 (Spec.along Su Sv e e.1) (Spec.along Su Sv e e.2.1)) :=
    fun e _ _ => InnerProductGeometry.sin_angle_nonneg _ _
  obtain ⟨Q, p, k1, k2⟩ := worstSide_of_max hq hv (z := []) (by simp)
  refine ⟨Q, p, ?_, k2, ?_⟩
  · unfold deviationMesh2
    rw [mapM_ok (g := fun e : SideView ℝ => if e.2.2 = true then
      (Real.sin (Spec.angle3 (Spec.along Su Sv e e.1) (Spec.along Su Sv e e.2.1)), Spec.midPt e) else (0, (0, 0))) v fun e he => ?_, R_bind_ok]
    · exact k1
    · unfold sideTurn
      split_ifs with hs
      · obtain ⟨n1, n2⟩ := hne e he hs
        have p1 := vnorm_pos n1
        have p2 := vnorm_pos n2
        simp only [surfTangent, hu, hw, R_bind_ok, R_pure, sideMid'_eq]
        change (fdiv (vnorm Real.sqrt (cross3 (Spec.along Su Sv e e.1) (Spec.along Su Sv e e.2.1)))
          (vnorm Real.sqrt (Spec.along Su Sv e e.1) * vnorm Real.sqrt (Spec.along Su Sv e e.2.1)) >>= _) = _
        rw [fdiv_ok (mul_pos p1 p2).ne', R_bind_ok, vnorm_cross3, mul_div_cancel_left₀ _ (mul_pos p1 p2).ne']
      · rfl
  · rw [worstSide_zero hq k2]
    refine forall_congr' fun e => forall_congr' fun he => forall_congr' fun hs => ?_
    obtain ⟨n1, n2⟩ := hne e he hs
    generalize Spec.along Su Sv e e.1 = x at *
    generalize Spec.along Su Sv e e.2.1 = y at *
    have hx : WithLp.toLp 2 x ≠ 0 := fun h0 => n1 (WithLp.toLp_injective 2 h0)
    have hy : WithLp.toLp 2 y ≠ 0 := fun h0 => n2 (WithLp.toLp_injective 2 h0)
    unfold Spec.angle3
    rw [InnerProductGeometry.sin_eq_zero_iff_angle_eq_zero_or_angle_eq_pi, InnerProductGeometry.angle_eq_zero_iff, InnerProductGeometry.angle_eq_pi_iff]
    constructor
    · rintro (⟨-, k, -, hk⟩ | ⟨-, k, -, hk⟩) <;> exact ⟨k, WithLp.toLp_injective 2 hk⟩
    · rintro ⟨k, rfl⟩
      rcases lt_trichotomy k 0 with hk | rfl | hk
      · exact Or.inr ⟨hx, k, hk, rfl⟩
      · simp at n2
      · exact Or.inl ⟨hx, k, hk, rfl⟩

/-- The normal of the triangle of three points. -/
noncomputable def Spec.normal3 (a b c : Fin 3 → ℝ) : Fin 3 → ℝ := cross3 (b - a) (c - a)

/-- C105: `DeviationMeshSurface` of a triangle whose corners on the surface are `A`, `B`, `C` in the order of the face: the normal of the triangle is taken in
the other order, so what is returned is the distance between the unit normals when one of them is reversed. -/
theorem C105_deviation {srf : ℝ → ℝ → ℕ → ℕ → R (Fin 3 → ℝ)} {S Su Sv : ℝ → ℝ → Fin 3 → ℝ} (h0 : ∀ u w, srf u w 0 0 = .ok (S u w))
    (hu : ∀ u w, srf u w 1 0 = .ok (Su u w)) (hw : ∀ u w, srf u w 0 1 = .ok (Sv u w)) (a b c : ℝ × ℝ) (s1 s2 s3 : Bool) {g : ℝ × ℝ}
    (hg : g = ((a.1 + b.1 + c.1) / 3, (a.2 + b.2 + c.2) / 3)) (hN : Spec.normal3 (S a.1 a.2) (S b.1 b.2) (S c.1 c.2) ≠ 0)
    (hM : cross3 (Su g.1 g.2) (Sv g.1 g.2) ≠ 0) :
    ∃ Q, deviationMesh Real.sqrt srf [(c, a, s1), (a, b, s2), (b, c, s3)] = .ok (Q, g) ∧ 0 ≤ Q ∧
      Q ^ 2 = 2 + 2 * Real.cos (Spec.angle3 (Spec.normal3 (S a.1 a.2) (S b.1 b.2) (S c.1 c.2)) (cross3 (Su g.1 g.2) (Sv g.1 g.2))) := by
  have hrev : cross3 (S a.1 a.2 - S b.1 b.2) (S c.1 c.2 - S b.1 b.2) = -Spec.normal3 (S a.1 a.2) (S b.1 b.2) (S c.1 c.2) := by
    unfold Spec.normal3
    funext i
    fin_cases i <;> simp [cross3] <;> ring
  have eg1 : (b.1 + a.1 + c.1) / 3 = g.1 := by rw [hg]; ring
  have eg2 : (b.2 + a.2 + c.2) / 3 = g.2 := by rw [hg]; ring
  set N := Spec.normal3 (S a.1 a.2) (S b.1 b.2) (S c.1 c.2) with hNdef
  set M := cross3 (Su g.1 g.2) (Sv g.1 g.2) with hMdef
  have pN := vnorm_pos hN
  have pN' : vnorm Real.sqrt (-N) = vnorm Real.sqrt N := by rw [vnorm_toLp, vnorm_toLp, WithLp.toLp_neg, norm_neg]
  have pM := vnorm_pos hM
  refine ⟨vnorm Real.sqrt ((vnorm Real.sqrt N)⁻¹ • (-N) - (vnorm Real.sqrt M)⁻¹ • M), ?_, Real.sqrt_nonneg _, ?_⟩
  · unfold deviationMesh triangleCoords
    simp only [R_pure, R_bind_ok, h0, hu, hw, adimV]
    rw [hrev, eg1, eg2, ← hMdef, vdiv_ok (by rw [pN']; exact pN.ne'), pN']
    simp only [R_bind_ok]
    rw [vdiv_ok pM.ne']
    rfl
  · rw [vnorm_toLp] at pN pM
    rw [vnorm_toLp, vnorm_toLp, vnorm_toLp, Spec.angle3, InnerProductGeometry.cos_angle]
    have e1 : WithLp.toLp 2 ((‖WithLp.toLp 2 N‖)⁻¹ • (-N) - (‖WithLp.toLp 2 M‖)⁻¹ • M) =
      -((‖WithLp.toLp 2 N‖)⁻¹ • WithLp.toLp 2 N + (‖WithLp.toLp 2 M‖)⁻¹ • WithLp.toLp 2 M) := by
      ext i; simp; ring
    rw [e1, norm_neg, norm_add_sq_real, norm_smul, norm_smul, inner_smul_left, inner_smul_right, norm_inv, norm_inv, norm_norm, norm_norm,
      inv_mul_cancel₀ pN.ne', inv_mul_cancel₀ pM.ne']
    simp only [conj_trivial]
    field_simp
    ring

theorem affine_normal (O A B : Fin 3 → ℝ) (a b c : ℝ × ℝ) :
    Spec.normal3 (O + a.1 • A + a.2 • B) (O + b.1 • A + b.2 • B) (O + c.1 • A + c.2 • B) = Spec.area2 a b c • cross3 A B := by
  unfold Spec.normal3 Spec.area2
  funext i
  fin_cases i <;> simp [cross3] <;> ring

/-- C105 (false of the code): the deviation between a plane and a triangle of it is not 0 for a triangle that turns counter-clockwise, as all those of the
meshes of the library: it is the greatest possible, 2. It is 0 for a triangle that turns clockwise. -/
theorem C105_deviation_plane (O A B : Fin 3 → ℝ) (hAB : cross3 A B ≠ 0) {srf : ℝ → ℝ → ℕ → ℕ → R (Fin 3 → ℝ)}
    (h0 : ∀ u w, srf u w 0 0 = .ok (O + u • A + w • B)) (hu : ∀ u w, srf u w 1 0 = .ok A) (hw : ∀ u w, srf u w 0 1 = .ok B) (a b c : ℝ × ℝ)
    (s1 s2 s3 : Bool) :
    (0 < Spec.area2 a b c → deviationMesh Real.sqrt srf [(c, a, s1), (a, b, s2), (b, c, s3)] =
      .ok (2, ((a.1 + b.1 + c.1) / 3, (a.2 + b.2 + c.2) / 3))) ∧
    (Spec.area2 a b c < 0 → deviationMesh Real.sqrt srf [(c, a, s1), (a, b, s2), (b, c, s3)] =
      .ok (0, ((a.1 + b.1 + c.1) / 3, (a.2 + b.2 + c.2) / 3))) := by
  have hx : WithLp.toLp 2 (cross3 A B) ≠ 0 := fun h0 => hAB (WithLp.toLp_injective 2 h0)
  have key : ∀ hne : Spec.area2 a b c ≠ 0, _ := fun hne => C105_deviation (S := fun u w => O + u • A + w • B) (Su := fun _ _ => A) (Sv := fun _ _ => B) h0 hu hw a b c s1
    s2 s3 rfl (by rw [affine_normal]; exact smul_ne_zero hne hAB) hAB
  constructor
  · intro hpos
    obtain ⟨Q, k1, k2, k3⟩ := key hpos.ne'
    rw [affine_normal, Spec.angle3, WithLp.toLp_smul, InnerProductGeometry.angle_smul_left_of_pos _ _ hpos, InnerProductGeometry.angle_self hx,
      Real.cos_zero] at k3
    have : Q = 2 := by nlinarith
    rw [k1, this]
  · intro hneg
    obtain ⟨Q, k1, k2, k3⟩ := key hneg.ne
    rw [affine_normal, Spec.angle3, WithLp.toLp_smul, InnerProductGeometry.angle_smul_left_of_neg _ _ hneg, InnerProductGeometry.angle_neg_self_of_nonzero hx,
      Real.cos_pi] at k3
    have : Q = 0 := by nlinarith
    rw [k1, this]

/-! ### Shapes -/

/-- The length of a side. -/
noncomputable def Spec.sideLen (e : SideView ℝ) : ℝ := Real.sqrt ((e.2.1.1 - e.1.1) ^ 2 + (e.2.1.2 - e.1.2) ^ 2)

theorem sqrt_sideSq (e : SideView ℝ) : Real.sqrt (sideSq e) = Spec.sideLen e := by
  unfold sideSq Spec.sideLen
  congr 1; ring

theorem sideSq_eq (e : SideView ℝ) : sideSq e = Spec.sideLen e ^ 2 := by
  rw [← sqrt_sideSq, Real.sq_sqrt]
  unfold sideSq
  nlinarith [mul_self_nonneg (e.2.1.1 - e.1.1), mul_self_nonneg (e.2.1.2 - e.1.2)]

theorem sideLen_nonneg (e : SideView ℝ) : 0 ≤ Spec.sideLen e := Real.sqrt_nonneg _

theorem sideSq_le {e e' : SideView ℝ} : sideSq e ≤ sideSq e' ↔ Spec.sideLen e ≤ Spec.sideLen e' := by
  rw [sideSq_eq, sideSq_eq, sq_le_sq₀ (sideLen_nonneg _) (sideLen_nonneg _)]

theorem minMax_spec (l : List ℝ) (hl : l ≠ []) : ∃ mn ∈ l, ∃ mx ∈ l, minMax l = .ok (mn, mx) ∧ ∀ x ∈ l, mn ≤ x ∧ x ≤ mx := by
  have k1 : ∀ (l : List ℝ) (b : ℝ), (l.foldl min b = b ∨ l.foldl min b ∈ l) ∧ l.foldl min b ≤ b ∧ ∀ x ∈ l, l.foldl min b ≤ x := by
    intro l
    induction l with
    | nil => simp
    | cons y l ih =>
      intro b
      obtain ⟨i1, i2, i3⟩ := ih (min b y)
      rw [List.foldl_cons]
      refine ⟨?_, i2.trans (min_le_left _ _), fun x hx => ?_⟩
      · rcases i1 with i1 | i1
        · rcases min_choice b y with hm | hm
          · exact Or.inl (i1.trans hm)
          · exact Or.inr (by rw [i1, hm]; exact List.mem_cons_self ..)
        · exact Or.inr (List.mem_cons_of_mem _ i1)
      · rcases List.mem_cons.mp hx with rfl | hx
        exacts [i2.trans (min_le_right _ _), i3 x hx]
  have k2 : ∀ (l : List ℝ) (b : ℝ), (l.foldl max b = b ∨ l.foldl max b ∈ l) ∧ b ≤ l.foldl max b ∧ ∀ x ∈ l, x ≤ l.foldl max b := by
    intro l
    induction l with
    | nil => simp
    | cons y l ih =>
      intro b
      obtain ⟨i1, i2, i3⟩ := ih (max b y)
      rw [List.foldl_cons]
      refine ⟨?_, (le_max_left _ _).trans i2, fun x hx => ?_⟩
      · rcases i1 with i1 | i1
        · rcases max_choice b y with hm | hm
          · exact Or.inl (i1.trans hm)
          · exact Or.inr (by rw [i1, hm]; exact List.mem_cons_self ..)
        · exact Or.inr (List.mem_cons_of_mem _ i1)
      · rcases List.mem_cons.mp hx with rfl | hx
        exacts [(le_max_right _ _).trans i2, i3 x hx]
  obtain ⟨b, l, rfl⟩ := List.exists_cons_of_ne_nil hl
  obtain ⟨a1, a2, a3⟩ := k1 l b
  obtain ⟨b1, b2, b3⟩ := k2 l b
  refine ⟨_, ?_, _, ?_, rfl, ?_⟩
  · rcases a1 with a1 | a1
    exacts [by rw [a1]; exact List.mem_cons_self .., List.mem_cons_of_mem _ a1]
  · rcases b1 with b1 | b1
    exacts [by rw [b1]; exact List.mem_cons_self .., List.mem_cons_of_mem _ b1]
  · intro x hx
    rcases List.mem_cons.mp hx with rfl | hx
    exacts [⟨a2, b2⟩, ⟨a3 x hx, b3 x hx⟩]

/-- What the quality of the shape of a triangle is: the ratio of its longest side to its shortest one, or `low` when all of them are shorter than the limit. -/
def Spec.ShapeQuality (low minLen : ℝ) (v : List (SideView ℝ)) (q : ℝ) : Prop :=
  ((∀ e ∈ v, Spec.sideLen e < minLen) → q = low) ∧
  ((∃ e ∈ v, minLen ≤ Spec.sideLen e) → (∃ e1 ∈ v, ∃ e2 ∈ v, (∀ e ∈ v, Spec.sideLen e2 ≤ Spec.sideLen e ∧ Spec.sideLen e ≤ Spec.sideLen e1) ∧
    q = Spec.sideLen e1 / Spec.sideLen e2) ∧ 1 ≤ q ∧ (q = 1 ↔ ∀ e ∈ v, ∀ e' ∈ v, Spec.sideLen e = Spec.sideLen e'))

theorem shape_spec (low minLen : ℝ) {v : List (SideView ℝ)} (hv : v ≠ []) (hne : ∀ e ∈ v, Spec.sideLen e ≠ 0) :
    ∃ mn mx, minMax (v.map sideSq) = .ok (mn, mx) ∧
      ∃ q, (∀ p : ℝ × ℝ, (if Real.sqrt mx < minLen then pure (low, p) else do let q ← fdiv mx mn; pure (Real.sqrt q, p) : R (ℝ × (ℝ × ℝ))) = .ok (q, p)) ∧
        Spec.ShapeQuality low minLen v q := by
  obtain ⟨mn, h1, mx, h2, h3, h4⟩ := minMax_spec (v.map sideSq) (by simpa using hv)
  obtain ⟨e2, he2, rfl⟩ := List.mem_map.mp h1
  obtain ⟨e1, he1, rfl⟩ := List.mem_map.mp h2
  have hb : ∀ e ∈ v, Spec.sideLen e2 ≤ Spec.sideLen e ∧ Spec.sideLen e ≤ Spec.sideLen e1 := fun e he =>
    ⟨sideSq_le.mp (h4 _ (List.mem_map_of_mem he)).1, sideSq_le.mp (h4 _ (List.mem_map_of_mem he)).2⟩
  have hp2 : 0 < Spec.sideLen e2 := lt_of_le_of_ne (sideLen_nonneg _) (hne e2 he2).symm
  refine ⟨_, _, h3, ?_⟩
  by_cases hc : Real.sqrt (sideSq e1) < minLen
  · refine ⟨low, fun p => by rw [if_pos hc]; rfl, fun _ => rfl, ?_⟩
    rintro ⟨e, he, hle⟩
    rw [sqrt_sideSq] at hc
    exact absurd ((hb e he).2.trans_lt hc) (not_lt.mpr hle)
  · refine ⟨Spec.sideLen e1 / Spec.sideLen e2, fun p => ?_, fun hall => ?_, fun _ => ⟨⟨e1, he1, e2, he2, hb, rfl⟩, ?_, ?_⟩⟩
    · rw [if_neg hc, fdiv_ok (by rw [sideSq_eq]; positivity), R_bind_ok, R_pure, sideSq_eq, sideSq_eq, ← div_pow, Real.sqrt_sq]
      exact div_nonneg (sideLen_nonneg _) hp2.le
    · rw [sqrt_sideSq] at hc
      exact absurd (hall e1 he1) hc
    · rw [one_le_div hp2]; exact (hb e1 he1).1
    · rw [div_eq_one_iff_eq hp2.ne']
      constructor
      · intro heq e he e' he'
        have x := hb e he
        have y := hb e' he'
        rw [heq] at x y
        rw [le_antisymm x.2 x.1, le_antisymm y.2 y.1]
      · exact fun hall => hall e1 he1 e2 he2

/-- C105: `TriangleShape` returns the ratio of the longest side to the shortest one, at least 1 and equal to 1 for the equilateral triangles only, and the
centroid. A triangle is left out when all its sides are shorter than the limit; the comment says when the shortest is. -/
theorem C105_shape (low minLen : ℝ) (a b c : ℝ × ℝ) (s1 s2 s3 : Bool) (hab : a ≠ b) (hbc : b ≠ c) (hca : c ≠ a) :
    ∃ q, triangleShape Real.sqrt low minLen [(c, a, s1), (a, b, s2), (b, c, s3)] = .ok (q, ((a.1 + b.1 + c.1) / 3, (a.2 + b.2 + c.2) / 3)) ∧
      Spec.ShapeQuality low minLen [(c, a, s1), (a, b, s2), (b, c, s3)] q := by
  have hside : ∀ x y : ℝ × ℝ, ∀ s, x ≠ y → Spec.sideLen (x, y, s) ≠ 0 := by
    intro x y s hxy h0
    unfold Spec.sideLen at h0
    rw [Real.sqrt_eq_zero (by positivity)] at h0
    have h1 : (y.1 - x.1) ^ 2 = 0 := by nlinarith [sq_nonneg (y.1 - x.1), sq_nonneg (y.2 - x.2)]
    have h2 : (y.2 - x.2) ^ 2 = 0 := by nlinarith [sq_nonneg (y.1 - x.1), sq_nonneg (y.2 - x.2)]
    exact hxy (Prod.ext (by linarith [pow_eq_zero_iff (two_ne_zero) |>.mp h1]) (by linarith [pow_eq_zero_iff (two_ne_zero) |>.mp h2]))
  obtain ⟨mn, mx, k1, q, k2, k3⟩ := shape_spec low minLen (v := [(c, a, s1), (a, b, s2), (b, c, s3)]) (by simp) (by
    intro e he
    simp only [List.mem_cons, List.not_mem_nil, or_false] at he
    rcases he with rfl | rfl | rfl
    exacts [hside _ _ _ hca, hside _ _ _ hab, hside _ _ _ hbc])
  refine ⟨q, ?_, k3⟩
  unfold triangleShape
  rw [k1]
  simp only [R_bind_ok, triangleCoords, R_pure] at k2 ⊢
  rw [k2]
  congr 3 <;> ring

/-- C105: `TriangleShapeEdgeSplit` returns the same quality with the middle of a side. When the library tests with `!=` whether there are sides, it is the longest of
those which are shared, as the comment says; when it tests with `==`, it is the first one, even when it is not shared. -/
theorem C105_edge_split (low minLen : ℝ) (hlow : low < 0) (viaEq : Bool) {v : List (SideView ℝ)} (hv : v ≠ []) (hne : ∀ e ∈ v, Spec.sideLen e ≠ 0) :
    ∃ q p, edgeSplit Real.sqrt low viaEq minLen v = .ok (q, p) ∧ Spec.ShapeQuality low minLen v q ∧
      (viaEq = true → ∃ e l, v = e :: l ∧ p = Spec.midPt e) ∧
      (viaEq = false → (∃ e ∈ v, e.2.2 = true) → ∃ e ∈ v, e.2.2 = true ∧ p = Spec.midPt e ∧ ∀ e' ∈ v, e'.2.2 = true → Spec.sideLen e' ≤ Spec.sideLen e) := by
  obtain ⟨mn, mx, k1, q, k2, k3⟩ := shape_spec low minLen hv hne
  have hl : ∃ e ∈ v, longestSide low viaEq v = .ok e ∧ (viaEq = true → ∃ l, v = e :: l) ∧
      (viaEq = false → ∀ e' ∈ v, (if e'.2.2 then sideSq e' else low) ≤ (if e.2.2 then sideSq e else low)) := by
    obtain ⟨e, l, rfl⟩ := List.exists_cons_of_ne_nil hv
    cases viaEq with
    | true => exact ⟨e, List.mem_cons_self .., rfl, fun _ => ⟨l, rfl⟩, fun h => by simp at h⟩
    | false =>
      have key : ∀ (l : List (SideView ℝ)) (b : SideView ℝ), ∃ x, (x = b ∨ x ∈ l) ∧
          l.foldl (fun best y => if (if best.2.2 then sideSq best else low) < (if y.2.2 then sideSq y else low) then y else best) b = x ∧
          (if b.2.2 then sideSq b else low) ≤ (if x.2.2 then sideSq x else low) ∧ ∀ y ∈ l, (if y.2.2 then sideSq y else low) ≤ (if x.2.2 then sideSq x else low) := by
        generalize hk : (fun e : SideView ℝ => if e.2.2 then sideSq e else low) = key
        have hk' : ∀ e : SideView ℝ, (if e.2.2 then sideSq e else low) = key e := fun e => congrFun hk e
        simp only [hk']
        intro l
        induction l with
        | nil => exact fun b => ⟨b, Or.inl rfl, rfl, le_refl _, by simp⟩
        | cons y l ih =>
          intro b
          rw [List.foldl_cons]
          obtain ⟨x, k1, k2, k3, k4⟩ := ih (if key b < key y then y else b)
          have hb : key b ≤ key (if key b < key y then y else b) ∧ key y ≤ key (if key b < key y then y else b) := by
            split_ifs with h
            exacts [⟨h.le, le_refl _⟩, ⟨le_refl _, not_lt.mp h⟩]
          refine ⟨x, ?_, k2, hb.1.trans k3, fun z hz => ?_⟩
          · rcases k1 with k1 | k1
            · split_ifs at k1
              exacts [Or.inr (by rw [k1]; exact List.mem_cons_self ..), Or.inl k1]
            · exact Or.inr (List.mem_cons_of_mem _ k1)
          · rcases List.mem_cons.mp hz with rfl | hz
            exacts [hb.2.trans k3, k4 z hz]
      obtain ⟨x, i1, i2, i3, i4⟩ := key l e
      refine ⟨x, ?_, ?_, fun h => by simp at h, fun _ y hy => ?_⟩
      · rcases i1 with rfl | i1
        exacts [List.mem_cons_self .., List.mem_cons_of_mem _ i1]
      · rw [← i2]; rfl
      · rcases List.mem_cons.mp hy with rfl | hy
        exacts [i3, i4 y hy]
  obtain ⟨e, he, l1, l2, l3⟩ := hl
  refine ⟨q, Spec.midPt e, ?_, k3, fun h => ?_, fun h hex => ?_⟩
  · unfold edgeSplit
    rw [k1]
    simp only [R_bind_ok, l1, sideMid_eq]
    exact k2 _
  · obtain ⟨l, rfl⟩ := l2 h
    exact ⟨e, l, rfl, rfl⟩
  · obtain ⟨x, hx, hxs⟩ := hex
    have hes : e.2.2 = true := by
      by_contra hn
      have := l3 h x hx
      rw [if_pos hxs, if_neg hn, sideSq_eq] at this
      nlinarith [sq_nonneg (Spec.sideLen x)]
    refine ⟨e, he, hes, rfl, fun y hy hys => ?_⟩
    have := l3 h y hy
    rw [if_pos hys, if_pos hes] at this
    exact sideSq_le.mp this

/-- C105: `TriangleShape2` of an equilateral triangle, in terms of its side: not 0 unless the square of the side is `√3`. -/
theorem C105_shape2 {s : ℝ} (a b c : ℝ × ℝ) (s1 s2 s3 : Bool) (hab : Spec.sideLen (a, b, s2) = s) (hbc : Spec.sideLen (b, c, s3) = s)
    (hca : Spec.sideLen (c, a, s1) = s) :
    triangleShape2 Real.sqrt [(c, a, s1), (a, b, s2), (b, c, s3)] =
      .ok (|Real.sqrt 3 / 2 - s ^ 2 / 2|, ((a.1 + b.1 + c.1) / 3, (a.2 + b.2 + c.2) / 3)) := by
  have h1 := sideSq_eq (a, b, s2)
  have h2 := sideSq_eq (b, c, s3)
  have h3 := sideSq_eq (c, a, s1)
  rw [hab] at h1
  rw [hbc] at h2
  rw [hca] at h3
  unfold sideSq at h1 h2 h3
  simp only at h1 h2 h3
  have d1 : (a - b).1 * (c - b).1 + (a - b).2 * (c - b).2 = s ^ 2 / 2 := by simp only [Prod.fst_sub, Prod.snd_sub]; linarith
  have d2 : (b - a).1 * (c - a).1 + (b - a).2 * (c - a).2 = s ^ 2 / 2 := by simp only [Prod.fst_sub, Prod.snd_sub]; linarith
  have d3 : (a - c).1 * (b - c).1 + (a - c).2 * (b - c).2 = s ^ 2 / 2 := by simp only [Prod.fst_sub, Prod.snd_sub]; linarith
  unfold triangleShape2 triangleCoords
  simp only [R_pure, R_bind_ok, d1, d2, d3, abs_of_nonneg (show (0 : ℝ) ≤ s ^ 2 / 2 by positivity), max_self]
  congr 3
  · ring_nf
  · ring
  · ring

/-- C105 (false of the code): equilateral triangles are not the best ones for `TriangleShape2`. Some are worse than any number, although it is at most 1 for a triangle
reduced to a point. -/
theorem C105_shape2_equilateral (M : ℝ) :
    (∃ a b c : ℝ × ℝ, ∃ s q p, 0 < s ∧ Spec.sideLen (a, b, true) = s ∧ Spec.sideLen (b, c, true) = s ∧ Spec.sideLen (c, a, true) = s ∧
      triangleShape2 Real.sqrt [(c, a, true), (a, b, true), (b, c, true)] = .ok (q, p) ∧ M < q) ∧
    ∀ a : ℝ × ℝ, ∃ q p, triangleShape2 Real.sqrt [(a, a, true), (a, a, true), (a, a, true)] = .ok (q, p) ∧ q ≤ 1 := by
  have h3 : Real.sqrt 3 ≤ 2 := by rw [Real.sqrt_le_left (by norm_num)]; norm_num
  have h33 : Real.sqrt 3 * Real.sqrt 3 = 3 := Real.mul_self_sqrt (by norm_num)
  constructor
  · set m := |M| + 2 with hm
    have hmpos : 2 ≤ m := by have := abs_nonneg M; linarith
    have l1 : Spec.sideLen ((0, 0), (2 * m, 0), true) = 2 * m := by
      unfold Spec.sideLen
      rw [show ((2 * m - 0) ^ 2 + (0 - 0) ^ 2 : ℝ) = (2 * m) ^ 2 by ring, Real.sqrt_sq (by linarith)]
    have l2 : Spec.sideLen ((2 * m, 0), (m, m * Real.sqrt 3), true) = 2 * m := by
      unfold Spec.sideLen
      rw [show ((m - 2 * m) ^ 2 + (m * Real.sqrt 3 - 0) ^ 2 : ℝ) = (2 * m) ^ 2 by linear_combination m ^ 2 * h33, Real.sqrt_sq (by linarith)]
    have l3 : Spec.sideLen ((m, m * Real.sqrt 3), (0, 0), true) = 2 * m := by
      unfold Spec.sideLen
      rw [show ((0 - m) ^ 2 + (0 - m * Real.sqrt 3) ^ 2 : ℝ) = (2 * m) ^ 2 by linear_combination m ^ 2 * h33, Real.sqrt_sq (by linarith)]
    refine ⟨(0, 0), (2 * m, 0), (m, m * Real.sqrt 3), 2 * m, _, _, by linarith, l1, l2, l3, C105_shape2 _ _ _ _ _ _ l1 l2 l3, ?_⟩
    rw [abs_sub_comm]
    refine lt_of_lt_of_le ?_ (le_abs_self _)
    have := le_abs_self M
    nlinarith
  · intro a
    have l : Spec.sideLen (a, a, true) = 0 := by unfold Spec.sideLen; simp
    refine ⟨_, _, C105_shape2 a a a true true true l l l, ?_⟩
    rw [abs_le]
    constructor <;> nlinarith [Real.sqrt_nonneg 3]

/-- What a criterion is given of a triangle with the corners `a`, `b`, `c`. -/
theorem view_corners {h : Mesh (ℝ × ℝ)} {F : List ℕ} {f : ℕ} (H : Spec.Valid h F) (hf : f ∈ F) : ∃ s1 s2 s3,
    Spec.view h f = [((Spec.corners h f).2.2, (Spec.corners h f).1, s1), ((Spec.corners h f).1, (Spec.corners h f).2.1, s2),
      ((Spec.corners h f).2.1, (Spec.corners h f).2.2, s3)] := by
  obtain ⟨a, b, c, t, hfe⟩ := H.tri hf
  refine ⟨(h.he a).opp.isSome, (h.he b).opp.isSome, (h.he c).opp.isSome, ?_⟩
  rw [t.view hfe, t.corners hfe]
  simp only [List.map_cons, List.map_nil, t.startPt, t.rotate.startPt, t.rotate.rotate.startPt]

/-- C105 (false of the code): on a plane, the deviation of each triangle of a mesh that turns counter-clockwise is 2. -/
theorem C105_deviation_mesh (O A B : Fin 3 → ℝ) (hAB : cross3 A B ≠ 0) {srf : ℝ → ℝ → ℕ → ℕ → R (Fin 3 → ℝ)}
    (h0 : ∀ u w, srf u w 0 0 = .ok (O + u • A + w • B)) (hu : ∀ u w, srf u w 1 0 = .ok A) (hw : ∀ u w, srf u w 0 1 = .ok B)
    {h : Mesh (ℝ × ℝ)} {F : List ℕ} (H : Spec.Valid h F) (hc : Spec.Ccw h F) {f : ℕ} (hf : f ∈ F) :
    ∃ p, (h.faceView f >>= deviationMesh Real.sqrt srf) = .ok (2, p) := by
  obtain ⟨s1, s2, s3, hv⟩ := view_corners H hf
  rw [H.faceView hf, R_bind_ok, hv]
  exact ⟨_, (C105_deviation_plane O A B hAB h0 hu hw _ _ _ s1 s2 s3).1 (hc f hf)⟩

/-- C105: on the faces of a Delaunay triangulation, when the value of `DistanceMeshSurface2`, `MaxEdgeSizeSurface` or `DistanceMeshSurface3` is not 0, the point they
return gets inserted: the refinement has something to do. -/
theorem C105_progress (S : ℝ → ℝ → Fin n → ℝ) {h : Mesh (ℝ × ℝ)} {F : List ℕ} (D : Spec.Delaunay h F) {f : ℕ} (hf : f ∈ F)
    (hinj : ∀ e ∈ Spec.view h f, Spec.first S e ≠ Spec.last S e) :
    (∃ Q p, (h.faceView f >>= distanceMesh2 Real.sqrt fun u w => pure (S u w)) = .ok (Q, p) ∧ (Q ≠ 0 → Spec.GetsInserted h F p)) ∧
    (∃ Q p, (h.faceView f >>= maxEdgeSizeSurface fun u w => pure (S u w)) = .ok (Q, p) ∧ (Q ≠ 0 → Spec.GetsInserted h F p)) ∧
    ∃ Q p, (h.faceView f >>= distanceMesh3 Real.sqrt fun u w => pure (S u w)) = .ok (Q, p) ∧ (Q ≠ 0 → Spec.GetsInserted h F p) := by
  have hne : Spec.view h f ≠ [] := by
    obtain ⟨s1, s2, s3, hv⟩ := view_corners D.valid hf
    rw [hv]; simp
  rw [D.valid.faceView hf]
  simp only [R_bind_ok]
  refine ⟨?_, ?_, ?_⟩
  · obtain ⟨Q, p, k1, k2, -⟩ := C105_sag S hne fun e he _ => hinj e he
    exact ⟨Q, p, k1, C105_worst_inserted D hf k2⟩
  · obtain ⟨Q, p, k1, k2⟩ := C105_size S hne
    exact ⟨Q, p, k1, C105_worst_inserted D hf k2⟩
  · obtain ⟨s1, s2, s3, hv⟩ := view_corners D.valid hf
    obtain ⟨Q, p, k1, -, -, -, k2⟩ := C105_gap S (Spec.corners h f).1 (Spec.corners h f).2.1 (Spec.corners h f).2.2 s1 s2 s3
    refine ⟨Q, p, by rw [hv]; exact k1, fun hQ => ?_⟩
    rcases k2 with ⟨e, he, hs, -, rfl⟩ | ⟨-, rfl⟩ | ⟨h0, -⟩
    · exact C105_middle_inserted D hf (by rw [hv]; exact he) hs
    · have := C105_centroid_inserted D hf
      obtain ⟨a, b, c, t, hfe⟩ := D.valid.tri hf
      rw [t.centroid hfe] at this
      rw [t.corners hfe]
      convert this using 1
      ext
      · simp only [Prod.smul_fst, Prod.fst_add, smul_eq_mul]; ring
      · simp only [Prod.smul_snd, Prod.snd_add, smul_eq_mul]; ring
    · exact absurd h0 hQ

/-! ## Examples -/

/-- The square of side 4 made of two triangles: its area, whatever the order, and after an insertion. -/
example : ∃ h, rectOf ((0, 0) : ℝ × ℝ) (4, 4) = .ok (h, [0, 1]) ∧ Spec.Delaunay h [0, 1] ∧
    ∃ A, h.reduceArea (.node (.node (.leaf (some 0)) (.leaf (some 1))) (.leaf none)) = .ok (.num A) ∧
      h.reduceArea (.node (.leaf (some 1)) (.node (.leaf none) (.leaf (some 0)))) = .ok (.num A) ∧ 0 < A := by
  obtain ⟨h, r1, r2⟩ := rectOf_spec ((0, 0) : ℝ × ℝ) (4, 4)
  have D := r2.delaunay (by norm_num) (by norm_num)
  obtain ⟨A, a1, -, a3⟩ := C105_area D.valid (.node (.node (.leaf (some 0)) (.leaf (some 1))) (.leaf none)) (by
    simp only [ReduceTree.leaves, List.map_cons, List.map_nil, List.cons_append, List.nil_append]
    decide)
  obtain ⟨B, b1, -, b3⟩ := C105_area D.valid (.node (.leaf (some 1)) (.node (.leaf none) (.leaf (some 0)))) (by
    simp only [ReduceTree.leaves, List.map_cons, List.map_nil, List.cons_append, List.nil_append]
    decide)
  have hA := a3 D.ccw
  have hB := b3 D.ccw
  refine ⟨h, r1, D, A, a1, by rw [b1, hA, hB], ?_⟩
  have h0 := D.ccw 0 (by simp)
  have h1 := D.ccw 1 (by simp)
  rw [hA]
  simp only [List.map_cons, List.map_nil, List.sum_cons, List.sum_nil]
  linarith

/-- A paraboloid, and a side along which it sags. -/
noncomputable def Sample.bowl (u w : ℝ) : Fin 3 → ℝ := ![u, w, u ^ 2 + w ^ 2]

/-- A triangle with one shared side. -/
def Sample.sides : List (SideView ℝ) := [((0, 2), (0, 0), false), ((0, 0), (2, 0), true), ((2, 0), (0, 2), false)]

example : ∃ Q, distanceMesh2 Real.sqrt (fun u w => pure (Sample.bowl u w)) Sample.sides = .ok (Q, (1, 0)) ∧ 0 < Q := by
  obtain ⟨Q, p, k1, k2, k3⟩ := C105_sag Sample.bowl (v := Sample.sides) (by simp [Sample.sides]) (by
    intro e he hs
    simp only [Sample.sides, List.mem_cons, List.not_mem_nil, or_false] at he
    rcases he with rfl | rfl | rfl
    · simp at hs
    · intro h0
      have := congrFun h0 0
      simp [Spec.first, Spec.last, Sample.bowl] at this
    · simp at hs)
  have hQ : Q ≠ 0 := by
    rw [ne_eq, k3]
    intro hall
    obtain ⟨t, -, -, ht⟩ := hall ((0, 0), (2, 0), true) (by simp [Sample.sides]) rfl
    have h0 := congrFun ht 0
    have h2 := congrFun ht 2
    simp [Spec.first, Spec.last, Spec.middle, Spec.midPt, Sample.bowl] at h0 h2
    linarith
  rcases k2.2.2 with ⟨e, he, hs, -, rfl⟩ | ⟨h0, -⟩
  · simp only [Sample.sides, List.mem_cons, List.not_mem_nil, or_false] at he
    rcases he with rfl | rfl | rfl
    · simp at hs
    · refine ⟨Q, ?_, lt_of_le_of_ne k2.1 hQ.symm⟩
      rw [k1]
      norm_num [Spec.midPt]
    · simp at hs
  · exact absurd h0 hQ

/-- The derivatives of the paraboloid. -/
noncomputable def Sample.bowlD (u w : ℝ) : ℕ → ℕ → R (Fin 3 → ℝ)
  | 1, 0 => .ok ![1, 0, 2 * u]
  | 0, 1 => .ok ![0, 1, 2 * w]
  | _, _ => .ok 0

example : ∃ Q p, deviationMesh2 Real.sqrt Sample.bowlD Sample.sides = .ok (Q, p) ∧ Q ≠ 0 := by
  obtain ⟨Q, p, k1, -, k3⟩ := C105_turn (srf := Sample.bowlD) (Su := fun u _ => ![1, 0, 2 * u]) (Sv := fun _ w => ![0, 1, 2 * w]) (fun _ _ => rfl)
    (fun _ _ => rfl) (v := Sample.sides) (by simp [Sample.sides]) (by
    intro e he hs
    simp only [Sample.sides, List.mem_cons, List.not_mem_nil, or_false] at he
    rcases he with rfl | rfl | rfl
    · simp at hs
    · constructor <;> (intro h0; have := congrFun h0 0; simp [Spec.along] at this)
    · simp at hs)
  refine ⟨Q, p, k1, fun h0 => ?_⟩
  obtain ⟨k, hk⟩ := k3.mp h0 ((0, 0), (2, 0), true) (by simp [Sample.sides]) rfl
  have h0 := congrFun hk 0
  have h2 := congrFun hk 2
  simp [Spec.along] at h0 h2

/-- The plane `(u,w,0)`. -/
noncomputable def Sample.ground (u w : ℝ) : ℕ → ℕ → R (Fin 3 → ℝ)
  | 0, 0 => .ok (0 + u • ![1, 0, 0] + w • ![0, 1, 0])
  | 1, 0 => .ok ![1, 0, 0]
  | 0, 1 => .ok ![0, 1, 0]
  | _, _ => .ok 0

example : deviationMesh Real.sqrt Sample.ground [((0, 3), (0, 0), true), ((0, 0), (3, 0), true), ((3, 0), (0, 3), true)] = .ok (2, (1, 1)) := by
  rw [(C105_deviation_plane 0 ![1, 0, 0] ![0, 1, 0] (fun h0 => by have := congrFun h0 2; simp [cross3] at this) (srf := Sample.ground) (fun _ _ => rfl)
    (fun _ _ => rfl) (fun _ _ => rfl) (0, 0) (3, 0) (0, 3) true true true).1 (by norm_num [Spec.area2])]
  norm_num

/-- The hypotheses of the shapes are met by the triangle 3, 4, 5. -/
example : ∃ q, triangleShape Real.sqrt (-1) 1 [((0, 4), (0, 0), true), ((0, 0), (3, 0), true), ((3, 0), (0, 4), true)] = .ok (q, (1, 4 / 3)) ∧ 1 < q := by
  obtain ⟨q, k1, k2⟩ := C105_shape (-1) 1 (0, 0) (3, 0) (0, 4) true true true (by simp) (by simp) (by simp)
  have l1 : Spec.sideLen ((0, 4), (0, 0), true) = 4 := by
    unfold Spec.sideLen
    rw [show ((0 - 0) ^ 2 + (0 - 4) ^ 2 : ℝ) = 4 ^ 2 by norm_num, Real.sqrt_sq (by norm_num)]
  have l2 : Spec.sideLen ((0, 0), (3, 0), true) = 3 := by
    unfold Spec.sideLen
    rw [show ((3 - 0) ^ 2 + (0 - 0) ^ 2 : ℝ) = 3 ^ 2 by norm_num, Real.sqrt_sq (by norm_num)]
  obtain ⟨-, h2, h3⟩ := k2.2 ⟨_, List.mem_cons_self .., by rw [l1]; norm_num⟩
  refine ⟨q, by rw [k1]; norm_num, lt_of_le_of_ne h2 fun h0 => ?_⟩
  have := h3.mp h0.symm _ (List.mem_cons_self ..) _ (List.mem_cons_of_mem _ (List.mem_cons_self ..))
  rw [l1, l2] at this
  norm_num at this

/-- The side which is split is the first one though it is not shared and the second one is. -/
example : ∃ q, edgeSplit Real.sqrt (-1) true 0 Sample.sides = .ok (q, (0, 1)) := by
  obtain ⟨q, p, k1, -, k2, -⟩ := C105_edge_split (-1) 0 (by norm_num) true (v := Sample.sides) (by simp [Sample.sides]) (by
    intro e he
    simp only [Sample.sides, List.mem_cons, List.not_mem_nil, or_false] at he
    rcases he with rfl | rfl | rfl <;> exact Real.sqrt_ne_zero'.mpr (by norm_num))
  obtain ⟨e, l, h1, rfl⟩ := k2 rfl
  obtain ⟨rfl, -⟩ := List.cons.inj h1
  exact ⟨q, by rw [k1]; norm_num [Spec.midPt]⟩

end criteria

end Gbs
