import Verif.Lemmas.Constrained

/-!
# C97: the constrained triangulation of a polygon with holes
-/

set_option linter.unusedSectionVars false

namespace Gbs

variable {K : Type} [Field K] [LinearOrder K] [IsStrictOrderedRing K] {h : Mesh (K × K)} {F : List ℕ}

/-- The sides of rings: each point with the next, the last with the first. -/
def Spec.ringSides (rings : List (List (K × K))) : List ((K × K) × (K × K)) :=
  (rings.map fun l => (List.range l.length).map fun i => (l.getD i (0, 0), l.getD ((i + 1) % l.length) (0, 0))).flatten

theorem ringPairs_sides (rings : List (List (K × K))) : (rings.map Mesh.ringPairs).flatten = Spec.ringSides rings := by
  unfold Spec.ringSides
  congr 1
  apply List.map_congr_left
  intro l _
  unfold Mesh.ringPairs
  apply List.ext_getElem
  · simp
  · intro i h1 h2
    simp only [List.length_map, List.length_range] at h2
    simp only [List.getElem_zip, List.getElem_rotate, List.getElem_map, List.getElem_range]
    have h3 : (i + 1) % l.length < l.length := Nat.mod_lt _ (by omega)
    simp [List.getD, List.getElem?_eq_getElem h2, List.getElem?_eq_getElem h3]

/-- The points, all different, are inserted in the encompassing rectangle. -/
theorem tracked_inserted {pc : K} (hpc : 0 < pc) {X : List (K × K)} (hnd : X.Nodup) (h1 : ∃ p ∈ X, ∃ q ∈ X, p.1 ≠ q.1) (h2 : ∃ p ∈ X, ∃ q ∈ X, p.2 ≠ q.2) :
    ∃ lo hi s h F, Spec.BoxOf X lo hi ∧ Mesh.getEncompassingMesh pc X = .ok s ∧
      Mesh.insertTracked s X = .ok ((h, F), (List.range X.length).map fun i => some (4 + i)) ∧ Mesh.insertAll s X = .ok (h, F) ∧ Spec.Delaunay h F ∧
      (∀ q : K × K, lo.1 ≤ q.1 → lo.2 ≤ q.2 → q.1 ≤ hi.1 → q.2 ≤ hi.2 →
        (∃ f ∈ F, Spec.InFace h f q) ∧ ∀ e, Spec.Live h F e → (h.he e).opp = none → 0 < Spec.side h e q) ∧
      h.nV = 4 + X.length ∧ (∀ v < 4, (h.co v).2 < lo.2 ∨ hi.2 < (h.co v).2) ∧ X = (List.range X.length).map fun i => h.co (4 + i) := by
  obtain ⟨p, hp, q, hq, hpq⟩ := h1
  obtain ⟨p', hp', q', hq', hpq'⟩ := h2
  obtain ⟨x, l, rfl⟩ := List.exists_cons_of_ne_nil (List.ne_nil_of_mem hp)
  obtain ⟨lo, hi, hb, k1, k2, k3, k4, k5⟩ := C45_min_max x l
  generalize x :: l = X at *
  have hlt1 : lo.1 < hi.1 := by
    obtain ⟨a1, -, a2, -⟩ := k1 p hp
    obtain ⟨b1, -, b2, -⟩ := k1 q hq
    rcases lt_or_gt_of_ne hpq with hh | hh <;> linarith
  have hlt2 : lo.2 < hi.2 := by
    obtain ⟨-, a1, -, a2⟩ := k1 p' hp'
    obtain ⟨-, b1, -, b2⟩ := k1 q' hq'
    rcases lt_or_gt_of_ne hpq' with hh | hh <;> linarith
  have hq0 : 0 < pc / 100 := by positivity
  set r := pc / 100 with hr
  set hi' : K × K := (hi.1 + r * (hi.1 - lo.1), hi.2 + r * (hi.2 - lo.2)) with hhi
  set lo' : K × K := (lo.1 - r * (hi'.1 - lo.1), lo.2 - r * (hi'.2 - lo.2)) with hlo
  have m1 : hi.1 < hi'.1 := by rw [hhi]; simp only; linarith [mul_pos hq0 (sub_pos.mpr hlt1)]
  have m2 : hi.2 < hi'.2 := by rw [hhi]; simp only; linarith [mul_pos hq0 (sub_pos.mpr hlt2)]
  have m3 : lo'.1 < lo.1 := by rw [hlo]; simp only; linarith [mul_pos hq0 (show 0 < hi'.1 - lo.1 by linarith)]
  have m4 : lo'.2 < lo.2 := by rw [hlo]; simp only; linarith [mul_pos hq0 (show 0 < hi'.2 - lo.2 by linarith)]
  obtain ⟨h0, r1, r2⟩ := rectOf_spec lo' hi'
  have hD := r2.delaunay (by linarith) (by linarith)
  have henc : Mesh.getEncompassingMesh pc X = .ok (h0, [0, 1]) := by
    rw [Mesh.getEncompassingMesh, hb, R_bind_ok]
    exact r1
  have hin : ∀ q : K × K, lo.1 ≤ q.1 → lo.2 ≤ q.2 → q.1 ≤ hi.1 → q.2 ≤ hi.2 → ∀ e, Spec.Live h0 [0, 1] e → (h0.he e).opp = none →
      0 < Spec.side h0 e q := fun q u1 u2 u3 u4 => r2.inside (by linarith) (by linarith) (by linarith) (by linarith)
  have hinX : ∀ x ∈ X, ∀ e, Spec.Live h0 [0, 1] e → (h0.he e).opp = none → 0 < Spec.side h0 e x := by
    intro x hx
    obtain ⟨u1, u2, u3, u4⟩ := k1 x hx
    exact hin x u1 u2 u3 u4
  obtain ⟨h, F, i1, i2, -, i4, -⟩ := insertAll_spec X h0 [0, 1] hD hinX
  obtain ⟨h', F', j1, j2, j3, j4, j5⟩ := insertTracked_spec X h0 [0, 1] hD hnd (by
    intro y hy hv
    rw [r2.isVertex] at hv
    obtain ⟨u1, u2, u3, u4⟩ := k1 y hy
    simp only [Spec.rectCorners, List.mem_cons, List.not_mem_nil, or_false] at hv
    rcases hv with rfl | rfl | rfl | rfl <;> (try simp only at u1 u2 u3 u4) <;> linarith) hinX
  rw [i1] at j2
  obtain ⟨rfl, rfl⟩ := Prod.mk.inj (Except.ok.inj j2)
  rw [r2.nV] at j1 j3 j4 j5
  refine ⟨lo, hi, (h0, [0, 1]), h, F, ⟨k1, k2, k3, k4, k5⟩, henc, j1, i1, i2, ?_, j3, ?_, j5⟩
  · intro q u1 u2 u3 u4
    have hside : ∀ e, Spec.Live h F e → (h.he e).opp = none → 0 < Spec.side h e q := by
      intro e he ho
      obtain ⟨v1, v2, v3⟩ := i4 e he ho
      rw [v3]
      exact hin q u1 u2 u3 u4 e v1 v2
    exact ⟨i2.located (xy := q) hside, hside⟩
  · intro v hv
    rw [j4 v hv]
    interval_cases v
    · rw [r2.c0]; exact Or.inl m4
    · rw [r2.c1]; exact Or.inr m2
    · rw [r2.c2]; exact Or.inl m4
    · rw [r2.c3]; exact Or.inr m2

open Classical in
/-- C97: when every side of the rings is a side of a triangle of the Delaunay triangulation of their points, and the triangles around a point make one fan,
`delaunay2DConstrained` returns the triangles which cover exactly the points around which the rings turn once. -/
theorem C97_polygon_partial {pc tol : K} (hpc : 0 < pc) {outer : List (K × K)} {holes : List (List (K × K))}
    (hnd : (outer :: holes.map List.reverse).flatten.Nodup) (h1 : ∃ p ∈ (outer :: holes.map List.reverse).flatten, ∃ q ∈ (outer :: holes.map List.reverse).flatten, p.1 ≠ q.1)
    (h2 : ∃ p ∈ (outer :: holes.map List.reverse).flatten, ∃ q ∈ (outer :: holes.map List.reverse).flatten, p.2 ≠ q.2)
    {corners : List ℕ} (hcor : ∀ v, v ∈ corners ↔ v < 4) (hd : Mesh.delaunay2D pc corners (outer :: holes.map List.reverse).flatten = .ok (h, F))
    (hsides : ∀ s ∈ Spec.ringSides (outer :: holes.map List.reverse), ∃ e, Spec.Live h F e ∧ Spec.startPt h e = s.1 ∧ Spec.endPt h e = s.2)
    (hfan : ∀ a b, Spec.Live h F a → Spec.Live h F b → (h.he a).vertex = (h.he b).vertex → Spec.SameFan h F a b)
    (hsimple : ∀ p, (∀ s ∈ Spec.ringSides (outer :: holes.map List.reverse), ¬Spec.OnSeg s.1 s.2 p) →
      Spec.winding (Spec.ringSides (outer :: holes.map List.reverse)) p = 0 ∨ Spec.winding (Spec.ringSides (outer :: holes.map List.reverse)) p = 1)
    (honce : ∀ s ∈ Spec.ringSides (outer :: holes.map List.reverse), s.swap ∉ Spec.ringSides (outer :: holes.map List.reverse)) :
    ∃ h' S, Mesh.delaunay2DConstrained pc tol corners outer holes = .ok (h', S) ∧ h'.he = h.he ∧ h'.co = h.co ∧ h'.fe = h.fe ∧ S.Sublist F ∧
      ∀ p, (∀ s ∈ Spec.ringSides (outer :: holes.map List.reverse), ¬Spec.OnSeg s.1 s.2 p) →
        (Spec.winding (Spec.ringSides (outer :: holes.map List.reverse)) p = 1 ↔ ∃ f ∈ S, Spec.InFace h' f p) := by
  unfold Mesh.delaunay2DConstrained
  dsimp only
  generalize hrings : outer :: holes.map List.reverse = rings at *
  generalize hX : rings.flatten = X at *
  obtain ⟨lo, hi, s, h0, F0, k1, k2, k3, k3', D, k5, k6, k7, k8⟩ := tracked_inserted hpc hnd h1 h2
  obtain ⟨h', r1, S0, lk⟩ := removeAll_links corners h0 F0 D.valid
  obtain ⟨F1, hF1⟩ : ∃ F1, F1 = F0.filter fun f => decide (∀ v ∈ corners, ¬Spec.HasVertex h0 v f) := ⟨_, rfl⟩
  rw [← hF1] at r1 lk
  have hdel : Mesh.delaunay2D pc corners X = .ok (h', F1) := by
    unfold Mesh.delaunay2D
    rw [k2, R_bind_ok, k3', R_bind_ok]
    exact r1
  rw [hd] at hdel
  obtain ⟨rfl, rfl⟩ := Prod.mk.inj (Except.ok.inj hdel)
  have hsub : ∀ f, f ∈ F ↔ f ∈ F0 ∧ ∀ v, v < 4 → ¬Spec.HasVertex h0 v f := by
    intro f
    rw [hF1, List.mem_filter, decide_eq_true_eq]
    simp only [hcor]
  have V : Spec.Valid h F := by
    obtain ⟨h'', q1, -, q3⟩ := removeAll_spec corners h0 F0 D.valid
    rw [← hF1] at q1 q3
    rw [r1] at q1
    obtain ⟨rfl, -⟩ := Prod.mk.inj (Except.ok.inj q1)
    exact q3
  have hW : Spec.Ccw h F := by
    intro f hf
    rw [Spec.faceArea2, S0.corners]
    exact D.ccw f ((hsub f).mp hf).1
  obtain ⟨h2, c1, c2, c3, c4, c5, c6, -⟩ := C72_repair V
  have hlive2 : ∀ G e, Spec.Live h2 G e ↔ Spec.Live h0 G e := by
    intro G e; unfold Spec.Live; rw [c4]; simp only [S0.face]
  have hlive : ∀ G e, Spec.Live h G e ↔ Spec.Live h0 G e := by
    intro G e; unfold Spec.Live; simp only [S0.face]
  have hend2 : ∀ e, Spec.endPt h2 e = Spec.endPt h0 e := by
    intro e; unfold Spec.endPt; rw [c4, c5, S0.vertex, S0.co]
  have hend : ∀ e, Spec.endPt h e = Spec.endPt h0 e := S0.endPt
  have hstart : ∀ e, Spec.start h e = Spec.start h0 e := by
    intro e; unfold Spec.start; rw [S0.prev]; congr 1; exact funext fun x => by rw [S0.vertex]
  have hstart2 : ∀ e, Spec.start h2 e = Spec.start h0 e := by
    intro e; rw [← hstart]; unfold Spec.start; rw [c4]
  have hspt : ∀ e, Spec.startPt h e = Spec.startPt h0 e := by
    intro e; unfold Spec.startPt; rw [hstart, S0.co]
  -- the vertices of the points
  obtain ⟨Vs, hVs⟩ : ∃ Vs, Vs = (List.range X.length).map (4 + ·) := ⟨_, rfl⟩
  have hVX : X = Vs.map h0.co := by rw [hVs, List.map_map]; exact k8
  have hinj : ∀ v < h0.nV, 4 ≤ v → ∀ w ∈ Vs, h0.co v = h0.co w → v = w := by
    intro v hv h4 w hw hvw
    have hvV : v ∈ Vs := by rw [hVs]; exact List.mem_map.mpr ⟨v - 4, List.mem_range.mpr (by omega), by omega⟩
    rw [hVX] at hnd
    exact List.inj_on_of_nodup_map hnd hvV hw hvw
  obtain ⟨P, hP⟩ : ∃ P, P = ((Mesh.splitRings (rings.map List.length) Vs).map Mesh.ringPairs).flatten := ⟨_, rfl⟩
  have hB : P.map (Prod.map h0.co h0.co) = Spec.ringSides rings := by
    rw [hP, ← pairs_map, ← splitRings_map, ← hVX, ← hX, splitRings_flatten, ringPairs_sides]
  have hpairs : ((Mesh.splitRings (rings.map List.length) ((List.range X.length).map fun i => some (4 + i))).map Mesh.ringPairs).flatten =
      P.map (Prod.map some some) := by
    have : ((List.range X.length).map fun i => some (4 + i)) = Vs.map some := by rw [hVs, List.map_map]; rfl
    rw [this, splitRings_map, pairs_map, ← hP]
  have hPV : ∀ x ∈ P, x.1 ∈ Vs ∧ x.2 ∈ Vs := by
    have hsplit : ∀ (ns : List ℕ) (l r : List ℕ), r ∈ Mesh.splitRings ns l → ∀ v ∈ r, v ∈ l := by
      intro ns
      induction ns with
      | nil => intro l r hr; simp [Mesh.splitRings] at hr
      | cons n ns ih =>
        intro l r hr v hv
        rw [Mesh.splitRings] at hr
        rcases List.mem_cons.mp hr with rfl | hr
        · exact List.mem_of_mem_take hv
        · exact List.mem_of_mem_drop (ih _ r hr v hv)
    intro x hx
    rw [hP] at hx
    obtain ⟨l, hl, hx⟩ := List.mem_flatten.mp hx
    obtain ⟨r, hr, rfl⟩ := List.mem_map.mp hl
    obtain ⟨m1, m2⟩ := mem_ringPairs hx
    exact ⟨hsplit _ _ r hr _ m1, hsplit _ _ r hr _ m2⟩
  -- the half-edges of the sides
  have hvid : ∀ e, Spec.Live h0 F e → ∀ w ∈ Vs, Spec.endPt h0 e = h0.co w → (h0.he e).vertex = some w := by
    rintro e ⟨f, hf, hef⟩ w hw he
    obtain ⟨hf0, hv4⟩ := (hsub f).mp hf
    obtain ⟨v, v1, v2, v3⟩ := D.valid.vertexEq ⟨f, hf0, hef⟩
    rw [v1]
    congr 1
    refine hinj v v2 ?_ w hw (by rw [← v3, he])
    by_contra hn
    exact hv4 v (by omega) ⟨e, hef, v1⟩
  have hfind : ∀ x ∈ P, ∃ n, x.1 ≠ x.2 ∧ h2.findHalfEdge x.1 x.2 = .ok (some n) ∧ Spec.Live h2 F n ∧ segOf h0 n = (h0.co x.1, h0.co x.2) := by
    intro x hx
    obtain ⟨m1, m2⟩ := hPV x hx
    obtain ⟨e, he, e1, e2⟩ := hsides (h0.co x.1, h0.co x.2) (by rw [← hB]; exact List.mem_map.mpr ⟨x, hx, rfl⟩)
    obtain ⟨f, hf, hef⟩ := he
    obtain ⟨b, c, t⟩ := V.triAt hf hef
    have t2 : (h2.he e).prev = some c := by rw [c4]; exact t.pa
    rw [hspt] at e1
    rw [hend] at e2
    dsimp only at e1 e2
    have hec : Spec.endPt h0 c = h0.co x.1 := by rw [← e1, ← hspt, ← hend, t.startPt]
    have hvx2 : (h0.he e).vertex = some x.2 := hvid e ((hlive F e).mp ⟨f, hf, hef⟩) x.2 m2 e2
    have hvx1 : (h0.he c).vertex = some x.1 := hvid c ((hlive F c).mp ⟨f, hf, t.fc⟩) x.1 m1 hec
    have hlc : Spec.Live h2 F c := (hlive2 F c).mpr ((hlive F c).mp ⟨f, hf, t.fc⟩)
    have hle : Spec.Live h2 F e := (hlive2 F e).mpr ((hlive F e).mp ⟨f, hf, hef⟩)
    have hvc2 : (h2.he c).vertex = some x.1 := by rw [c4, S0.vertex]; exact hvx1
    obtain ⟨sv, v1, v2, v3⟩ := c2 c x.1 hlc hvc2
    have hW2 : Spec.Ccw h2 F := by
      intro f hf
      have := D.ccw f ((hsub f).mp hf).1
      unfold Spec.faceArea2 Spec.corners at this ⊢
      simp only [hend2, c4, c6, S0.fe, S0.next]
      exact this
    have hnl := Spec.Ccw.noLoop c3 hW2
    have hfan2 : Spec.SameFan h2 F sv c := by
      have h3 := hfan sv c ((hlive F sv).mpr ((hlive2 F sv).mp v2)) ⟨f, hf, t.fc⟩ (by
        have := v3.trans hvc2.symm
        rwa [c4] at this)
      have e3 : Spec.SameFan h2 F = Spec.SameFan h F := by
        unfold Spec.SameFan
        congr 1
        funext a b
        simp only [hlive2, hlive]
        unfold Spec.Around
        rw [c4]
      rw [e3]
      exact h3
    obtain ⟨r, q1, q2, q3⟩ := C73_find c3 hnl v1 v2 v3 x.2
    rcases r with _ | n
    · exact absurd rfl (q3 e c hle (by rw [c4, S0.vertex]; exact hvx2) t2 hfan2)
    obtain ⟨w1, w2, w3⟩ := q2 n rfl
    refine ⟨n, ?_, q1, w1, ?_⟩
    · intro heq
      exact hnl n w1 (by rw [w2, w3, heq])
    · rw [hstart2] at w2
      rw [c4, S0.vertex] at w3
      simp [segOf, Spec.startPt, Spec.endPt, w2, w3]
  obtain ⟨n, hn⟩ : ∃ n : ℕ × ℕ → ℕ, ∀ x ∈ P, x.1 ≠ x.2 ∧ h2.findHalfEdge x.1 x.2 = .ok (some (n x)) ∧ Spec.Live h2 F (n x) ∧
      segOf h0 (n x) = (h0.co x.1, h0.co x.2) := by
    choose! n hn using hfind
    exact ⟨n, hn⟩
  obtain ⟨S, cons, s1, s2, s3, s4⟩ := keepInterior_spec c3 tol n P fun x hx => ⟨(hn x hx).1, (hn x hx).2.1, (hn x hx).2.2.1⟩
  obtain ⟨E, hE⟩ : ∃ E, E = P.map n := ⟨_, rfl⟩
  rw [← hE] at s3 s4
  have hEB : E.map (segOf h0) = Spec.ringSides rings := by
    rw [← hB, hE, List.map_map]
    apply List.map_congr_left
    intro x hx
    exact (hn x hx).2.2.2
  have hEl : ∀ e ∈ E, Spec.Live h0 F e := by
    intro e he
    rw [hE] at he
    obtain ⟨x, hx, rfl⟩ := List.mem_map.mp he
    exact (hlive2 F _).mp (hn x hx).2.2.1
  have hcl : Closed2 (Spec.ringSides rings) := by rw [← ringPairs_sides]; exact rings_closed rings
  have hbox : ∀ s ∈ Spec.ringSides rings, ∀ x, x = s.1 ∨ x = s.2 → lo.1 ≤ x.1 ∧ lo.2 ≤ x.2 ∧ x.1 ≤ hi.1 ∧ x.2 ≤ hi.2 := by
    intro s hs x hx
    apply k1.inside
    rw [← ringPairs_sides] at hs
    obtain ⟨l, hl, hs⟩ := List.mem_flatten.mp hs
    obtain ⟨r, hr, rfl⟩ := List.mem_map.mp hl
    obtain ⟨m1, m2⟩ := mem_ringPairs hs
    rw [← hX]
    refine List.mem_flatten.mpr ⟨r, hr, ?_⟩
    rcases hx with rfl | rfl
    exacts [m1, m2]
  have R : Region h0 h2 F0 F E cons := by
    refine ⟨D, fun f hf => ((hsub f).mp hf).1, ?_, ?_, ?_, ?_, hEl, by rw [hEB]; exact hcl, by rw [hEB]; exact hsimple, by rw [hEB]; exact honce, s3⟩
    · intro f hf hf1
      rw [hsub] at hf1
      push Not at hf1
      obtain ⟨v, hv, e, hef, hev⟩ := hf1 hf
      have hy : ∀ e ∈ E, lo.2 ≤ (Spec.startPt h0 e).2 ∧ (Spec.startPt h0 e).2 ≤ hi.2 ∧ lo.2 ≤ (Spec.endPt h0 e).2 ∧ (Spec.endPt h0 e).2 ≤ hi.2 := by
        intro e he
        have hm : segOf h0 e ∈ Spec.ringSides rings := by rw [← hEB]; exact List.mem_map_of_mem he
        obtain ⟨-, y1, -, y2⟩ := hbox _ hm _ (Or.inl rfl)
        obtain ⟨-, y3, -, y4⟩ := hbox _ hm _ (Or.inr rfl)
        exact ⟨y1, y2, y3, y4⟩
      refine ⟨Spec.endPt h0 e, if (h0.co v).2 < lo.2 then lo.2 else hi.2, ⟨e, hef, rfl⟩, ?_⟩
      have : Spec.endPt h0 e = h0.co v := by simp [Spec.endPt, hev]
      rw [this]
      split_ifs with hlt
      · exact Or.inr ⟨hlt, fun e he => ⟨(hy e he).1, (hy e he).2.2.1⟩⟩
      · exact Or.inl ⟨(k7 v hv).resolve_left hlt, fun e he => ⟨(hy e he).2.1, (hy e he).2.2.2⟩⟩
    · rintro e ⟨f, hf, hef⟩ ho
      obtain ⟨hf0, hv4⟩ := (hsub f).mp hf
      obtain ⟨v, v1, v2, v3⟩ := D.valid.vertexEq ⟨f, hf0, hef⟩
      have h4 : 4 ≤ v := by
        by_contra hlt
        exact hv4 v (by omega) ⟨e, hef, v1⟩
      have hvX : h0.co v ∈ X := by
        rw [hVX]
        exact List.mem_map_of_mem (by rw [hVs]; exact List.mem_map.mpr ⟨v - 4, List.mem_range.mpr (by omega), by omega⟩)
      obtain ⟨u1, u2, u3, u4⟩ := k1.inside _ hvX
      have := (k5 (h0.co v) u1 u2 u3 u4).2 e ⟨f, hf0, hef⟩ ho
      rw [← v3] at this
      unfold Spec.side Spec.area2 at this
      linarith
    · intro e; rw [c4, S0.face]
    · intro e he o
      rw [c4]
      exact lk e he o
  refine ⟨h2, S, ?_, c4, c5, c6, s2, ?_⟩
  · rw [k2, R_bind_ok, k3, R_bind_ok]
    dsimp only
    rw [r1, R_bind_ok]
    dsimp only
    rw [c1, R_bind_ok, hpairs]
    exact s1
  · intro p hp
    have hin2 : ∀ f, Spec.InFace h2 f p ↔ Spec.InFace h0 f p := by
      intro f
      unfold Spec.InFace Spec.side Spec.startPt
      simp only [hend2, hstart2]
      rw [c4, c5, S0.co]
      simp only [S0.face]
    have hstep : ∀ f ∈ F0, Spec.InFace h0 f p → ∃ q, Spec.InsideFace h0 f q ∧ Spec.winding (Spec.ringSides rings) p = Spec.winding (Spec.ringSides rings) q := by
      intro f hf hpf
      obtain ⟨q, hq⟩ := D.valid.exists_inside D.ccw hf
      refine ⟨q, hq, winding_move hcl ?_⟩
      rintro s hs m ⟨t, t0, t1, rfl⟩
      rcases t0.lt_or_eq with t0 | rfl
      · rw [← hEB] at hs
        obtain ⟨e, he, rfl⟩ := R.segs s hs
        exact D.off_edges hf (insideFace_mix hpf hq t0 t1) he
      · simpa using hp s hs
    constructor
    · intro hw
      obtain ⟨u1, u2, u3, u4⟩ := winding_box hcl hp hbox (by omega)
      obtain ⟨f, hf, hpf⟩ := (k5 p u1 u2 u3 u4).1
      obtain ⟨q, hq, hwq⟩ := hstep f hf hpf
      have hx := R.exact hf hq
      rw [hEB, ← hwq] at hx
      obtain ⟨hfF, e, he, f0, hef, hr⟩ := hx.mp hw
      refine ⟨f, (s4 f).mpr ⟨hfF, e, he, f0, ?_, hr⟩, (hin2 f).mpr hpf⟩
      rw [c4, S0.face]; exact hef
    · rintro ⟨f, hf, hpf⟩
      obtain ⟨hfF, e, he, f0, hef, hr⟩ := (s4 f).mp hf
      have hf0 := ((hsub f).mp hfF).1
      obtain ⟨q, hq, hwq⟩ := hstep f hf0 ((hin2 f).mp hpf)
      have hx := R.exact hf0 hq
      rw [hEB, ← hwq] at hx
      refine hx.mpr ⟨hfF, e, he, f0, ?_, hr⟩
      rw [c4, S0.face] at hef
      exact hef

/-- Steps of the rotation around a vertex. -/
def turnN {P : Type} (h : Mesh P) : ℕ → ℕ → Option ℕ
  | 0, a => some a
  | k + 1, a => (turn h a).bind (turnN h k)

theorem turnN_rel {P : Type} {h : Mesh P} : ∀ (k a b : ℕ), turnN h k a = some b → Relation.ReflTransGen (fun a b => turn h a = some b) a b
  | 0, a, b, hh => by cases hh; exact .refl
  | k + 1, a, b, hh => by
    rw [turnN, Option.bind_eq_some_iff] at hh
    obtain ⟨c, h1, h2⟩ := hh
    exact .head h1 (turnN_rel k c b h2)

/-- The sides are there and the fans are connected: a test. -/
def checkSides (r : R (Mesh (ℚ × ℚ) × List ℕ)) (B : List ((ℚ × ℚ) × (ℚ × ℚ))) : Bool :=
  match r with
  | .error _ => false
  | .ok (h, F) =>
    let L := (List.range h.nE).filter fun e => match (h.he e).face with
      | some f => decide (f ∈ F)
      | none => false
    (B.all fun s => L.any fun e => decide (Spec.startPt h e = s.1 ∧ Spec.endPt h e = s.2)) &&
      L.all fun a => L.all fun b => decide ((h.he a).vertex ≠ (h.he b).vertex) ||
        (List.range 8).any fun k => decide (turnN h k a = some b) || decide (turnN h k b = some a)

theorem checkSides_spec {pc : ℚ} (hpc : 0 < pc) {X : List (ℚ × ℚ)} (h1 : ∃ p ∈ X, ∃ q ∈ X, p.1 ≠ q.1) (h2 : ∃ p ∈ X, ∃ q ∈ X, p.2 ≠ q.2)
    {B : List ((ℚ × ℚ) × (ℚ × ℚ))} (hc : checkSides (Mesh.delaunay2D pc [0, 1, 2, 3] X) B = true) :
    ∃ h F, Mesh.delaunay2D pc [0, 1, 2, 3] X = .ok (h, F) ∧ (∀ s ∈ B, ∃ e, Spec.Live h F e ∧ Spec.startPt h e = s.1 ∧ Spec.endPt h e = s.2) ∧
      ∀ a b, Spec.Live h F a → Spec.Live h F b → (h.he a).vertex = (h.he b).vertex → Spec.SameFan h F a b := by
  obtain ⟨h, F, k1, V, -⟩ := C70_delaunay hpc h1 h2 (corners := [0, 1, 2, 3]) (by intro v; simp; omega)
  refine ⟨h, F, k1, ?_⟩
  rw [k1] at hc
  unfold checkSides at hc
  simp only [Bool.and_eq_true, List.all_eq_true, List.any_eq_true, decide_eq_true_eq, Bool.or_eq_true, List.mem_filter, List.mem_range] at hc
  have hL : ∀ e, Spec.Live h F e ↔ e < h.nE ∧ (match (h.he e).face with | some f => decide (f ∈ F) | none => false) = true := by
    intro e
    constructor
    · rintro ⟨f, hf, he⟩
      exact ⟨(V.edges e f he).1, by rw [he]; simpa using hf⟩
    · rintro ⟨-, he⟩
      rcases hfe : (h.he e).face with _ | f
      · rw [hfe] at he; simp at he
      · rw [hfe] at he; exact ⟨f, by simpa using he, hfe⟩
  refine ⟨fun s hs => ?_, fun a b ha hb hab => ?_⟩
  · obtain ⟨e, he, hh⟩ := hc.1 s hs
    exact ⟨e, (hL e).mpr he, hh⟩
  · rcases hc.2 a ((hL a).mp ha) b ((hL b).mp hb) with hn | ⟨k, -, hk | hk⟩
    · exact absurd hab hn
    · exact (sameFan_of_turn V ha (turnN_rel k a b hk)).2.2
    · exact (sameFan_of_turn V hb (turnN_rel k b a hk)).2.2.symm

theorem onSeg_area {a b p : K × K} (hp : Spec.OnSeg a b p) : Spec.area2 a b p = 0 := by
  obtain ⟨t, -, -, rfl⟩ := hp
  rw [area2_line]
  unfold Spec.area2
  ring

/-- A polygon which is not convex: the triangle above its notch is dropped. -/
example : ∃ h' S, Mesh.delaunay2DConstrained (K := ℚ) 10 (1 / 10 ^ 10) [0, 1, 2, 3] [(0, 0), (4, 0), (4, 4), (2, 1), (0, 4)] [] = .ok (h', S) ∧
    (∃ f ∈ S, Spec.InFace h' f (1, 1)) ∧ ¬∃ f ∈ S, Spec.InFace h' f (2, 3) := by
  have hx : ∃ p ∈ ([(0, 0), (4, 0), (4, 4), (2, 1), (0, 4)] : List (ℚ × ℚ)), ∃ q ∈ ([(0, 0), (4, 0), (4, 4), (2, 1), (0, 4)] : List (ℚ × ℚ)), p.1 ≠ q.1 :=
    ⟨(0, 0), by simp, (4, 4), by simp, by norm_num⟩
  have hy : ∃ p ∈ ([(0, 0), (4, 0), (4, 4), (2, 1), (0, 4)] : List (ℚ × ℚ)), ∃ q ∈ ([(0, 0), (4, 0), (4, 4), (2, 1), (0, 4)] : List (ℚ × ℚ)), p.2 ≠ q.2 :=
    ⟨(0, 0), by simp, (4, 4), by simp, by norm_num⟩
  have hs : Spec.ringSides ([[(0, 0), (4, 0), (4, 4), (2, 1), (0, 4)]] : List (List (ℚ × ℚ))) =
      [((0, 0), (4, 0)), ((4, 0), (4, 4)), ((4, 4), (2, 1)), ((2, 1), (0, 4)), ((0, 4), (0, 0))] := by decide +kernel
  obtain ⟨h, F, k1, k2, k3⟩ := checkSides_spec (pc := 10) (by norm_num) hx hy
    (B := [((0, 0), (4, 0)), ((4, 0), (4, 4)), ((4, 4), (2, 1)), ((2, 1), (0, 4)), ((0, 4), (0, 0))]) (by decide +kernel)
  have hw : ∀ p : ℚ × ℚ, Spec.winding [((0, 0), (4, 0)), ((4, 0), (4, 4)), ((4, 4), (2, 1)), ((2, 1), (0, 4)), ((0, 4), (0, 0))] p =
      crossing p (4, 0) (4, 4) + crossing p (4, 4) (2, 1) + crossing p (2, 1) (0, 4) + crossing p (0, 4) (0, 0) := by
    intro p
    simp only [Spec.winding, List.map_cons, List.map_nil, List.sum_cons, List.sum_nil, crossing_flat p (0, 0) (4, 0) rfl]
    ring
  obtain ⟨h', S, m1, -, -, -, -, m5⟩ := C97_polygon_partial (K := ℚ) (pc := 10) (tol := 1 / 10 ^ 10) (by norm_num)
    (outer := [(0, 0), (4, 0), (4, 4), (2, 1), (0, 4)]) (holes := []) (by decide +kernel) (by simpa using hx) (by simpa using hy)
    (corners := [0, 1, 2, 3]) (by intro v; simp; omega) (h := h) (F := F) (by simpa using k1) (by rw [List.map_nil, hs]; exact k2) k3 (by
      rw [List.map_nil, hs]
      intro p _
      rw [hw]
      unfold crossing Spec.area2
      simp only
      split_ifs <;> first | omega | (exfalso; grind)) (by rw [List.map_nil, hs]; decide +kernel)
  rw [List.map_nil, hs] at m5
  refine ⟨h', S, m1, (m5 (1, 1) ?_).mp ?_, fun hn => ?_⟩
  · refine fun s hs hp => absurd (onSeg_area hp) ?_
    clear hp; revert s; decide +kernel
  · rw [hw]; decide +kernel
  · have := (m5 (2, 3) ?_).mpr hn
    · rw [hw] at this; revert this; decide +kernel
    · refine fun s hs hp => absurd (onSeg_area hp) ?_
      clear hp; revert s; decide +kernel

/-- The code does not keep the inside of every polygon: a side which is not a side of the Delaunay triangulation is not recovered, the fill goes through it
and a triangle which is partly outside of the polygon is returned. -/
theorem C97_leaks : (∀ p : ℚ × ℚ, Spec.winding (Spec.ringSides [[(0, 0), (8, 0), (7, 8), (4, 1), (3, 3)]]) p = 0 ∨
      Spec.winding (Spec.ringSides [[(0, 0), (8, 0), (7, 8), (4, 1), (3, 3)]]) p = 1) ∧
    ((7, 8), (3, 3), (8, 0)) ∈ facesOf (Mesh.delaunay2DConstrained (K := ℚ) 10 (1 / 10 ^ 10) [0, 1, 2, 3] [(0, 0), (8, 0), (7, 8), (4, 1), (3, 3)] []) ∧
    InOpen ((7, 8) : ℚ × ℚ) (3, 3) (8, 0) (4, 3) ∧ Spec.winding (Spec.ringSides [[((0, 0) : ℚ × ℚ), (8, 0), (7, 8), (4, 1), (3, 3)]]) (4, 3) = 0 := by
  refine ⟨fun p => ?_, by decide +kernel, by unfold InOpen; decide +kernel, by decide +kernel⟩
  have hs : Spec.ringSides ([[(0, 0), (8, 0), (7, 8), (4, 1), (3, 3)]] : List (List (ℚ × ℚ))) =
      [((0, 0), (8, 0)), ((8, 0), (7, 8)), ((7, 8), (4, 1)), ((4, 1), (3, 3)), ((3, 3), (0, 0))] := by decide +kernel
  rw [hs]
  simp only [Spec.winding, List.map_cons, List.map_nil, List.sum_cons, List.sum_nil, crossing_flat p (0, 0) (8, 0) rfl]
  unfold crossing Spec.area2
  simp only
  split_ifs <;> first | omega | (exfalso; grind)

/-- A polygon of which a triangle is missing in the result: it touches the hull of the points and a corner of the encompassing rectangle is in its circle. -/
theorem C97_misses : (∀ p : ℚ × ℚ, Spec.winding (Spec.ringSides [[(0, 0), (10, 0), (5, 1), (10, 6), (0, 6)]]) p = 0 ∨
      Spec.winding (Spec.ringSides [[(0, 0), (10, 0), (5, 1), (10, 6), (0, 6)]]) p = 1) ∧
    Spec.winding (Spec.ringSides [[((0, 0) : ℚ × ℚ), (10, 0), (5, 1), (10, 6), (0, 6)]]) (5, 1 / 2) = 1 ∧
    facesOf (Mesh.delaunay2DConstrained (K := ℚ) 10 (1 / 10 ^ 10) [0, 1, 2, 3] [(0, 0), (10, 0), (5, 1), (10, 6), (0, 6)] []) =
      [((5, 1), (0, 6), (0, 0)), ((10, 6), (0, 6), (5, 1))] ∧
    Spec.area2 ((0, 0) : ℚ × ℚ) (5, 1) (5, 1 / 2) < 0 ∧ Spec.area2 ((5, 1) : ℚ × ℚ) (10, 6) (5, 1 / 2) < 0 := by
  refine ⟨fun p => ?_, by decide +kernel, by decide +kernel, by decide +kernel, by decide +kernel⟩
  have hs : Spec.ringSides ([[(0, 0), (10, 0), (5, 1), (10, 6), (0, 6)]] : List (List (ℚ × ℚ))) =
      [((0, 0), (10, 0)), ((10, 0), (5, 1)), ((5, 1), (10, 6)), ((10, 6), (0, 6)), ((0, 6), (0, 0))] := by decide +kernel
  rw [hs]
  simp only [Spec.winding, List.map_cons, List.map_nil, List.sum_cons, List.sum_nil, crossing_flat p (0, 0) (10, 0) rfl, crossing_flat p (10, 6) (0, 6) rfl]
  unfold crossing Spec.area2
  simp only
  split_ifs <;> first | omega | (exfalso; grind)

end Gbs
