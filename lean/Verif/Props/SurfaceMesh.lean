import Verif.Lemmas.Constrained
import Verif.Lemmas.RectMesh
import Verif.Model.SurfaceMesh
import Verif.Props.Discretize

/-!
# C98: the base mesh of a surface
-/

set_option linter.unusedSectionVars false

namespace Gbs

variable {K : Type} [Field K] [LinearOrder K] [IsStrictOrderedRing K] {h h' : Mesh (K × K)} {F : List ℕ} {f a b c : ℕ}

/-- In the closed rectangle. -/
def Spec.InRect (lo hi p : K × K) : Prop := lo.1 ≤ p.1 ∧ lo.2 ≤ p.2 ∧ p.1 ≤ hi.1 ∧ p.2 ≤ hi.2

/-- On the border of the rectangle. -/
def Spec.OnRect (lo hi p : K × K) : Prop := Spec.InRect lo hi p ∧ (p.1 = lo.1 ∨ p.1 = hi.1 ∨ p.2 = lo.2 ∨ p.2 = hi.2)

/-- The test of the circle is a quadratic function of the point. -/
theorem inCircle_quad (a b c : K × K) : ∃ l0 l1 l2, ∀ u : K × K, inCircle a b c u = -Spec.area2 a b c * (u.1 * u.1 + u.2 * u.2) + l0 + l1 * u.1 + l2 * u.2 := by
  refine ⟨inCircle a b c (0, 0), inCircle a b c (1, 0) - inCircle a b c (0, 0) + Spec.area2 a b c,
    inCircle a b c (0, 1) - inCircle a b c (0, 0) + Spec.area2 a b c, fun u => ?_⟩
  unfold inCircle Spec.area2
  ring

/-- An affine function which separates the face from the rectangle. -/
def Outside (h : Mesh (K × K)) (lo hi : K × K) (f : ℕ) : Prop :=
  ∃ α β γ : K, 0 < α * α + β * β ∧ (∀ e, (h.he e).face = some f → γ ≤ α * (Spec.endPt h e).1 + β * (Spec.endPt h e).2) ∧
    (∀ q, Spec.InRect lo hi q → α * q.1 + β * q.2 ≤ γ) ∧
    ∀ q : K × K, lo.1 < q.1 → lo.2 < q.2 → q.1 < hi.1 → q.2 < hi.2 → α * q.1 + β * q.2 < γ

/-- A face with a far corner is outside of the rectangle. -/
theorem Spec.Delaunay.outside (D : Spec.Delaunay h F) {pc : K} (hpc : 0 < pc) (hpc1 : pc ≤ 100) {lo hi : K × K} (h1 : lo.1 < hi.1) (h2 : lo.2 < hi.2)
    (hv : ∀ u, Spec.IsVertex h F u → Spec.OnRect lo hi u ∨ u ∈ Spec.farCorners pc lo hi) (hc : ∀ q ∈ Spec.rectCorners lo hi, Spec.IsVertex h F q)
    (hf : f ∈ F) (hfar : ∃ e, (h.he e).face = some f ∧ Spec.endPt h e ∈ Spec.farCorners pc lo hi) : Outside h lo hi f := by
  obtain ⟨a, b, c, t, -⟩ := D.valid.tri hf
  have hA := D.ccw f hf
  rw [D.valid.faceArea2 hf t] at hA
  obtain ⟨l0, l1, l2, hl⟩ := inCircle_quad (Spec.endPt h a) (Spec.endPt h b) (Spec.endPt h c)
  have hinc : ∀ u, Spec.IsVertex h F u → inCircle (Spec.endPt h a) (Spec.endPt h b) (Spec.endPt h c) u ≤ 0 := fun u hu => by
    rw [← D.valid.faceInc hf t]; exact D.inc hf hu
  set S := Spec.area2 (Spec.endPt h a) (Spec.endPt h b) (Spec.endPt h c) with hS
  have hw : 0 < hi.1 - lo.1 := by linarith
  have hh : 0 < hi.2 - lo.2 := by linarith
  have hp : ∀ u : K × K, cpow (hi.1 - lo.1) (hi.2 - lo.2) (lo.1 * lo.1 + lo.2 * lo.2 - (l0 + l1 * lo.1 + l2 * lo.2) / S)
      (hi.1 - lo.1 + 2 * lo.1 - l1 / S) (hi.2 - lo.2 + 2 * lo.2 - l2 / S) (u.1 - lo.1) (u.2 - lo.2) =
      -inCircle (Spec.endPt h a) (Spec.endPt h b) (Spec.endPt h c) u / S := by
    intro u
    rw [hl]
    unfold cpow
    field_simp
    ring
  have hz : ∀ u, u = Spec.endPt h a ∨ u = Spec.endPt h b ∨ u = Spec.endPt h c → inCircle (Spec.endPt h a) (Spec.endPt h b) (Spec.endPt h c) u = 0 := by
    rintro u (rfl | rfl | rfl) <;> unfold inCircle <;> ring
  have hpos : ∀ u, Spec.IsVertex h F u → 0 ≤ -inCircle (Spec.endPt h a) (Spec.endPt h b) (Spec.endPt h c) u / S := fun u hu =>
    div_nonneg (by linarith [hinc u hu]) hA.le
  have hr : 0 < pc / 100 := by positivity
  have hr1 : pc / 100 ≤ 1 := by rw [div_le_one (by norm_num)]; exact hpc1
  set k0 := lo.1 * lo.1 + lo.2 * lo.2 - (l0 + l1 * lo.1 + l2 * lo.2) / S
  set k1 := hi.1 - lo.1 + 2 * lo.1 - l1 / S
  set k2 := hi.2 - lo.2 + 2 * lo.2 - l2 / S
  have cl : Clear (hi.1 - lo.1) (hi.2 - lo.2) k0 k1 k2 := by
    have q1 := hpos _ (hc lo (by simp [Spec.rectCorners]))
    have q2 := hpos _ (hc (hi.1, lo.2) (by simp [Spec.rectCorners]))
    have q3 := hpos _ (hc (lo.1, hi.2) (by simp [Spec.rectCorners]))
    have q4 := hpos _ (hc hi (by simp [Spec.rectCorners]))
    rw [← hp] at q1 q2 q3 q4
    unfold cpow at q1 q2 q3 q4
    simp only at q1 q2 q3 q4
    refine ⟨by linarith, by linarith, by linarith, by linarith⟩
  have hfc : ∀ u ∈ Spec.farCorners pc lo hi, (u.1 - lo.1 = -(pc / 100 * (1 + pc / 100) * (hi.1 - lo.1)) ∨ u.1 - lo.1 = (1 + pc / 100) * (hi.1 - lo.1)) ∧
      (u.2 - lo.2 = -(pc / 100 * (1 + pc / 100) * (hi.2 - lo.2)) ∨ u.2 - lo.2 = (1 + pc / 100) * (hi.2 - lo.2)) := by
    intro u hu
    unfold Spec.farCorners at hu
    simp only [Spec.rectCorners, List.mem_cons, List.not_mem_nil, or_false] at hu
    rcases hu with rfl | rfl | rfl | rfl
    · exact ⟨Or.inl (by ring), Or.inl (by ring)⟩
    · exact ⟨Or.inr (by ring), Or.inl (by ring)⟩
    · exact ⟨Or.inr (by ring), Or.inr (by ring)⟩
    · exact ⟨Or.inl (by ring), Or.inr (by ring)⟩
  have hb := far_beyond hw hh hr hr1 cl (S := fun x y => ∃ e, (h.he e).face = some f ∧ (Spec.endPt h e).1 - lo.1 = x ∧ (Spec.endPt h e).2 - lo.2 = y) (by
      rintro x y ⟨e, he, rfl, rfl⟩
      refine ⟨?_, ?_⟩
      · rw [hp, hz, neg_zero, zero_div]
        rcases t.own e he with rfl | rfl | rfl
        exacts [Or.inl rfl, Or.inr (Or.inl rfl), Or.inr (Or.inr rfl)]
      · rcases hv _ ⟨e, ⟨f, hf, he⟩, rfl⟩ with ⟨⟨o1, o2, o3, o4⟩, o⟩ | o
        · refine Or.inl ⟨by linarith, by linarith, by linarith, by linarith, ?_⟩
          rcases o with o | o | o | o <;> rw [o] <;> simp
        · exact Or.inr (hfc _ o)) (by
      obtain ⟨e, he, hef⟩ := hfar
      exact ⟨_, _, ⟨e, he, rfl, rfl⟩, hfc _ hef⟩)
  rcases hb with k | k | k | k
  · refine ⟨-1, 0, -lo.1, by norm_num, fun e he => ?_, fun q hq => by linarith [hq.1], fun q q1 _ _ _ => by linarith⟩
    linarith [k _ _ ⟨e, he, rfl, rfl⟩]
  · refine ⟨0, -1, -lo.2, by norm_num, fun e he => ?_, fun q hq => by linarith [hq.2.1], fun q _ q1 _ _ => by linarith⟩
    linarith [k _ _ ⟨e, he, rfl, rfl⟩]
  · refine ⟨1, 0, hi.1, by norm_num, fun e he => ?_, fun q hq => by linarith [hq.2.2.1], fun q _ _ q1 _ => by linarith⟩
    linarith [k _ _ ⟨e, he, rfl, rfl⟩]
  · refine ⟨0, 1, hi.2, by norm_num, fun e he => ?_, fun q hq => by linarith [hq.2.2.2], fun q _ _ _ q1 => by linarith⟩
    linarith [k _ _ ⟨e, he, rfl, rfl⟩]

/-- A point of a face is between its corners for an affine function. -/
theorem Spec.Valid.inFace_ge (H : Spec.Valid h F) (hw : Spec.Ccw h F) (hf : f ∈ F) {α β γ : K}
    (hc : ∀ e, (h.he e).face = some f → γ ≤ α * (Spec.endPt h e).1 + β * (Spec.endPt h e).2) {p : K × K} (hp : Spec.InFace h f p) :
    γ ≤ α * p.1 + β * p.2 := by
  obtain ⟨a, b, c, t, -⟩ := H.tri hf
  have hA := hw f hf
  rw [H.faceArea2 hf t] at hA
  obtain ⟨i1, i2, i3⟩ := t.inFace.mp hp
  unfold Spec.side at i1 i2 i3
  rw [t.startPt] at i1
  rw [t.rotate.startPt] at i2
  rw [t.rotate.rotate.startPt] at i3
  have ca := sub_nonneg.mpr (hc a t.fa)
  have cb := sub_nonneg.mpr (hc b t.fb)
  have cc := sub_nonneg.mpr (hc c t.fc)
  have := add_nonneg (add_nonneg (mul_nonneg i1 cb) (mul_nonneg i2 cc)) (mul_nonneg i3 ca)
  have e : Spec.area2 (Spec.endPt h c) (Spec.endPt h a) p * (α * (Spec.endPt h b).1 + β * (Spec.endPt h b).2 - γ) +
      Spec.area2 (Spec.endPt h a) (Spec.endPt h b) p * (α * (Spec.endPt h c).1 + β * (Spec.endPt h c).2 - γ) +
      Spec.area2 (Spec.endPt h b) (Spec.endPt h c) p * (α * (Spec.endPt h a).1 + β * (Spec.endPt h a).2 - γ) =
      Spec.area2 (Spec.endPt h a) (Spec.endPt h b) (Spec.endPt h c) * (α * p.1 + β * p.2 - γ) := by unfold Spec.area2; ring
  rw [e] at this
  exact sub_nonneg.mp (nonneg_of_mul_nonneg_right this hA)

/-- Near a point which is in no face of a list, towards another point, no point is in a face of the list. -/
theorem near_outside (h : Mesh (K × K)) (p q : K × K) : ∀ L : List ℕ, (∀ f ∈ L, ¬Spec.InFace h f p) →
    ∃ δ : K, 0 < δ ∧ ∀ ε, 0 ≤ ε → ε < δ → ∀ f ∈ L, ¬Spec.InFace h f (p.1 + ε * (q.1 - p.1), p.2 + ε * (q.2 - p.2)) := by
  intro L
  induction L with
  | nil => exact fun _ => ⟨1, one_pos, by simp⟩
  | cons f L ih =>
    intro hL
    obtain ⟨δ, hd, hδ⟩ := ih fun g hg => hL g (List.mem_cons_of_mem _ hg)
    have hf := hL f (List.mem_cons_self ..)
    unfold Spec.InFace at hf
    push Not at hf
    obtain ⟨e, he, hs⟩ := hf
    set s0 := Spec.side h e p with hs0
    set s1 := Spec.side h e q with hs1
    have hlin : ∀ ε, Spec.side h e (p.1 + ε * (q.1 - p.1), p.2 + ε * (q.2 - p.2)) = s0 + ε * (s1 - s0) := by
      intro ε; rw [hs0, hs1]; unfold Spec.side Spec.area2; ring
    have hden : 0 < |s1 - s0| + 1 := by positivity
    refine ⟨min δ (-s0 / (|s1 - s0| + 1)), lt_min hd (div_pos (by linarith) hden), fun ε h0 hε g hg => ?_⟩
    rcases List.mem_cons.mp hg with rfl | hg
    · intro hin
      have h1 := hin e he
      rw [hlin] at h1
      have h2 := lt_of_lt_of_le hε (min_le_right _ _)
      rw [lt_div_iff₀ hden] at h2
      have := mul_le_mul_of_nonneg_left (le_abs_self (s1 - s0)) h0
      linarith
    · exact hδ ε h0 (lt_of_lt_of_le hε (min_le_left _ _)) g hg

/-- The points of a half-plane are on the same side of a segment of its border. -/
theorem side_halfplane {α β γ : K} (hN : 0 < α * α + β * β) {s t w u : K × K} (hs : α * s.1 + β * s.2 = γ) (ht : α * t.1 + β * t.2 = γ)
    (hw : α * w.1 + β * w.2 ≤ γ) (hu : α * u.1 + β * u.2 ≤ γ) (hA : 0 < Spec.area2 s t w) : 0 ≤ Spec.area2 s t u := by
  have id : ∀ v : K × K, (α * α + β * β) * Spec.area2 s t v = (α * (t.2 - s.2) - β * (t.1 - s.1)) * (γ - (α * v.1 + β * v.2)) := by
    intro v
    unfold Spec.area2
    have e2 : α * (t.1 - s.1) + β * (t.2 - s.2) = 0 := by linarith
    rw [← hs]
    linear_combination (α * (v.2 - s.2) - β * (v.1 - s.1)) * e2
  have h1 := mul_pos hN hA
  rw [id] at h1
  have h2 : 0 < α * (t.2 - s.2) - β * (t.1 - s.1) := by
    by_contra hn
    have := mul_nonneg (neg_nonneg.mpr (not_lt.mp hn)) (sub_nonneg.mpr hw)
    linarith
  have h3 := mul_nonneg h2.le (sub_nonneg.mpr hu)
  rw [← id] at h3
  exact nonneg_of_mul_nonneg_right h3 hN

open Classical in
/-- The triangulation of points of the border of a rectangle, with its corners: it covers exactly the rectangle. -/
theorem C98_rectangle {pc : K} (hpc : 0 < pc) (hpc1 : pc ≤ 100) {lo hi : K × K} (h1 : lo.1 < hi.1) (h2 : lo.2 < hi.2) {X : List (K × K)}
    (hon : ∀ x ∈ X, Spec.OnRect lo hi x) (hc : ∀ q ∈ Spec.rectCorners lo hi, q ∈ X) {corners : List ℕ} (hcor : ∀ v, v ∈ corners ↔ v < 4) :
    ∃ h F, Mesh.delaunay2D pc corners X = .ok (h, F) ∧ Spec.Delaunay h F ∧ (∀ u, Spec.IsVertex h F u ↔ u ∈ X) ∧
      ∀ p, (∃ f ∈ F, Spec.InFace h f p) ↔ Spec.InRect lo hi p := by
  have c0 := hc lo (by simp [Spec.rectCorners])
  have c1 := hc hi (by simp [Spec.rectCorners])
  obtain ⟨lo', hi', s, h, F, k1, k2, k3, D, k4, k5, k6, k7, k8, k9⟩ := C70_inserted hpc ⟨lo, c0, hi, c1, h1.ne⟩ ⟨lo, c0, hi, c1, h2.ne⟩
  have hbe : lo' = lo ∧ hi' = hi := by
    obtain ⟨p1, m1, e1⟩ := k1.left
    obtain ⟨p2, m2, e2⟩ := k1.bottom
    obtain ⟨p3, m3, e3⟩ := k1.right
    obtain ⟨p4, m4, e4⟩ := k1.top
    have a1 := (hon p1 m1).1.1
    have a2 := (hon p2 m2).1.2.1
    have a3 := (hon p3 m3).1.2.2.1
    have a4 := (hon p4 m4).1.2.2.2
    obtain ⟨b1, b2, -, -⟩ := k1.inside lo c0
    obtain ⟨-, -, b3, b4⟩ := k1.inside hi c1
    exact ⟨Prod.ext (by linarith) (by linarith), Prod.ext (by linarith) (by linarith)⟩
  obtain ⟨rfl, rfl⟩ := hbe
  obtain ⟨h', r1, S, lk⟩ := removeAll_links corners h F D.valid
  obtain ⟨F', hF'⟩ : ∃ F', F' = F.filter fun f => decide (∀ v ∈ corners, ¬Spec.HasVertex h v f) := ⟨_, rfl⟩
  rw [← hF'] at r1 lk
  have hsub : ∀ f, f ∈ F' ↔ f ∈ F ∧ ∀ v, v < 4 → ¬Spec.HasVertex h v f := by
    intro f
    rw [hF', List.mem_filter, decide_eq_true_eq]
    simp only [hcor]
  have V : Spec.Valid h' F' := by
    obtain ⟨h'', q1, -, q3⟩ := removeAll_spec corners h F D.valid
    rw [← hF'] at q1 q3
    rw [r1] at q1
    obtain ⟨rfl, -⟩ := Prod.mk.inj (Except.ok.inj q1)
    exact q3
  have hW : Spec.Ccw h' F' := by
    intro f hf
    rw [Spec.faceArea2, S.corners]
    exact D.ccw f ((hsub f).mp hf).1
  have hend : ∀ e, Spec.endPt h' e = Spec.endPt h e := S.endPt
  have hspt : ∀ e, Spec.startPt h' e = Spec.startPt h e := by
    intro e
    unfold Spec.startPt Spec.start
    rw [S.prev, S.co]
    congr 2
    exact congrArg _ (funext fun x => by rw [S.vertex])
  have hside : ∀ e p, Spec.side h' e p = Spec.side h e p := by
    intro e p; unfold Spec.side; rw [hend, hspt]
  have hinF : ∀ f p, Spec.InFace h' f p ↔ Spec.InFace h f p := by
    intro f p; unfold Spec.InFace; simp only [S.face, hside]
  -- the vertices of the faces kept
  have hvX : ∀ e, Spec.Live h F' e → Spec.endPt h e ∈ X := by
    rintro e ⟨f, hf, hef⟩
    obtain ⟨hf, hv⟩ := (hsub f).mp hf
    obtain ⟨v, hv1, hv2, hv3⟩ := D.valid.vertexEq ⟨f, hf, hef⟩
    rw [hv3]
    refine k8 v ?_ hv2
    by_contra hn
    exact hv v (by omega) ⟨e, hef, hv1⟩
  -- the faces removed are outside
  have hout : ∀ f ∈ F, f ∉ F' → Outside h lo' hi' f := by
    intro f hf hn
    refine D.outside hpc hpc1 h1 h2 (fun u hu => ((k4 u).mp hu).imp (hon u) id) (fun q hq => (k4 q).mpr (Or.inl (hc q hq))) hf ?_
    rw [hsub] at hn
    push Not at hn
    obtain ⟨v, hv, e, he, hev⟩ := hn hf
    exact ⟨e, he, by rw [Spec.endPt, hev]; exact k7 v hv⟩
  have hopen : ∀ q : K × K, lo'.1 < q.1 → lo'.2 < q.2 → q.1 < hi'.1 → q.2 < hi'.2 → ∃ f ∈ F', Spec.InFace h f q := by
    intro q q1 q2 q3 q4
    obtain ⟨⟨f, hf, hin⟩, -⟩ := k5 q q1.le q2.le q3.le q4.le
    refine ⟨f, ?_, hin⟩
    by_contra hn
    obtain ⟨α, β, γ, -, o1, -, o3⟩ := hout f hf hn
    have := D.valid.inFace_ge D.ccw hf o1 hin
    have := o3 q q1 q2 q3 q4
    linarith
  have hcov : ∀ p, (∃ f ∈ F', Spec.InFace h f p) ↔ Spec.InRect lo' hi' p := by
    intro p
    constructor
    · rintro ⟨f, hf, hin⟩
      have hf0 := ((hsub f).mp hf).1
      have hx : ∀ e, (h.he e).face = some f → Spec.InRect lo' hi' (Spec.endPt h e) := fun e he => (hon _ (hvX e ⟨f, hf, he⟩)).1
      have g1 := D.valid.inFace_ge D.ccw hf0 (α := 1) (β := 0) (γ := lo'.1) (fun e he => by linarith [(hx e he).1]) hin
      have g2 := D.valid.inFace_ge D.ccw hf0 (α := 0) (β := 1) (γ := lo'.2) (fun e he => by linarith [(hx e he).2.1]) hin
      have g3 := D.valid.inFace_ge D.ccw hf0 (α := -1) (β := 0) (γ := -hi'.1) (fun e he => by linarith [(hx e he).2.2.1]) hin
      have g4 := D.valid.inFace_ge D.ccw hf0 (α := 0) (β := -1) (γ := -hi'.2) (fun e he => by linarith [(hx e he).2.2.2]) hin
      exact ⟨by linarith, by linarith, by linarith, by linarith⟩
    · rintro ⟨p1, p2, p3, p4⟩
      by_contra hn
      push Not at hn
      obtain ⟨δ, hd, hδ⟩ := near_outside h p ((lo'.1 + hi'.1) / 2, (lo'.2 + hi'.2) / 2) F' hn
      set ε := min (δ / 2) (1 / 2) with hε
      have e1 : 0 < ε := lt_min (by linarith) (by norm_num)
      have e2 : ε < δ := lt_of_le_of_lt (min_le_left _ _) (by linarith)
      have e3 : ε ≤ 1 / 2 := min_le_right _ _
      simp only at hδ
      obtain ⟨f, hf, hin⟩ := hopen (p.1 + ε * ((lo'.1 + hi'.1) / 2 - p.1), p.2 + ε * ((lo'.2 + hi'.2) / 2 - p.2))
        (by simp only; nlinarith [mul_pos e1 (show 0 < (lo'.1 + hi'.1) / 2 - lo'.1 by linarith), mul_nonneg (show 0 ≤ 1 - ε by linarith) (sub_nonneg.mpr p1)])
        (by simp only; nlinarith [mul_pos e1 (show 0 < (lo'.2 + hi'.2) / 2 - lo'.2 by linarith), mul_nonneg (show 0 ≤ 1 - ε by linarith) (sub_nonneg.mpr p2)])
        (by simp only; nlinarith [mul_pos e1 (show 0 < hi'.1 - (lo'.1 + hi'.1) / 2 by linarith), mul_nonneg (show 0 ≤ 1 - ε by linarith) (sub_nonneg.mpr p3)])
        (by simp only; nlinarith [mul_pos e1 (show 0 < hi'.2 - (lo'.2 + hi'.2) / 2 by linarith), mul_nonneg (show 0 ≤ 1 - ε by linarith) (sub_nonneg.mpr p4)])
      exact hδ ε e1.le e2 f hf hin
  have hiv : ∀ u, Spec.IsVertex h' F' u ↔ u ∈ X := by
    intro u
    constructor
    · rintro ⟨e, ⟨f, hf, hef⟩, rfl⟩
      rw [S.face] at hef
      rw [hend]
      exact hvX e ⟨f, hf, hef⟩
    · intro hu
      obtain ⟨f, hf, hin⟩ := (hcov u).mpr (hon u hu).1
      obtain ⟨e, he, rfl⟩ := D.corner ((hsub f).mp hf).1 ((k4 u).mpr (Or.inl hu)) hin
      exact ⟨e, ⟨f, hf, by rw [S.face]; exact he⟩, hend e⟩
  refine ⟨h', F', ?_, ⟨V, hW, ?_, ?_, ?_, ?_⟩, hiv, fun p => by simp only [hinF]; exact hcov p⟩
  · unfold Mesh.delaunay2D
    rw [k2, R_bind_ok, k3, R_bind_ok]
    exact r1
  · obtain ⟨f, hf, -⟩ := (hcov lo').mpr ⟨le_refl _, le_refl _, h1.le, h2.le⟩
    exact List.ne_nil_of_mem hf
  · intro f hf u hu
    have := D.empty f ((hsub f).mp hf).1 u ((k4 u).mpr (Or.inl ((hiv u).mp hu)))
    unfold Spec.OutOfCircle at this ⊢
    rw [S.corners]
    exact this
  · rintro e ⟨f, hf, hef⟩ ho u hu
    rw [S.face] at hef
    rw [hside]
    have hf0 := ((hsub f).mp hf).1
    have hL : Spec.Live h F e := ⟨f, hf0, hef⟩
    have hL' : Spec.Live h F' e := ⟨f, hf, hef⟩
    have huX := (hiv u).mp hu
    -- its neighbour was removed
    obtain ⟨b, c, t⟩ := D.valid.triAt hf0 hef
    have hA := D.ccw f hf0
    rw [D.valid.faceArea2 hf0 t] at hA
    obtain ⟨o, ho0⟩ : ∃ o, (h.he e).opp = some o := by
      by_contra hn
      push Not at hn
      have h0 : (h.he e).opp = none := Option.eq_none_iff_forall_ne_some.mpr hn
      obtain ⟨w1, w2, w3, w4⟩ := (hon _ (hvX e hL')).1
      have := (k5 _ w1 w2 w3 w4).2 e hL h0
      unfold Spec.side Spec.area2 at this
      exact absurd this (by ring_nf; exact lt_irrefl 0)
    obtain ⟨⟨g, hg, hog⟩, ho2, -⟩ := D.valid.opp_start hL ho0
    have hgn : g ∉ F' := by
      intro hg'
      have := (lk e hL' o).mpr ⟨ho0, ⟨g, hg', hog⟩⟩
      rw [ho] at this
      exact absurd this (by simp)
    obtain ⟨α, β, γ, hN, o1, o2, -⟩ := hout g hg hgn
    obtain ⟨b', c', t'⟩ := D.valid.triAt hg hog
    obtain ⟨q1, q2⟩ := D.valid.opp_pts hL ho0
    rw [t'.startPt] at q1
    rw [t.startPt] at q2
    have s1 := o1 o hog
    have s2 := o1 c' t'.fc
    rw [q1] at s2
    rw [q2] at s1
    have s3 := o2 _ (hon _ (hvX e hL')).1
    have s4 := o2 _ (hon _ (hvX c ⟨f, hf, t.fc⟩)).1
    have s5 := o2 _ (hon _ (hvX b ⟨f, hf, t.fb⟩)).1
    have s6 := o2 _ (hon u huX).1
    unfold Spec.side
    rw [t.startPt]
    exact side_halfplane hN (le_antisymm s4 s1) (le_antisymm s3 s2) s5 s6 (by
      have : Spec.area2 (Spec.endPt h c) (Spec.endPt h e) (Spec.endPt h b) = Spec.area2 (Spec.endPt h e) (Spec.endPt h b) (Spec.endPt h c) := by
        unfold Spec.area2; ring
      rw [this]; exact hA)
  · intro p
    have e1 : F'.map (faceSum (crossing p) h') = F'.map (faceSum (crossing p) h) := by
      apply List.map_congr_left
      intro f _
      unfold faceSum
      rw [S.corners]
    have e2 := sum_filter_split (faceSum (crossing p) h) (fun f => ∀ v ∈ corners, ¬Spec.HasVertex h v f) F
    rw [← hF'] at e2
    have := crossing_sum_nonneg D.valid D.ccw p (F.filter fun f => decide (¬∀ v ∈ corners, ¬Spec.HasVertex h v f))
      (fun f hf => (List.mem_filter.mp hf).1)
    have := D.once p
    rw [e1]
    linarith

section
variable {V : Type} [AddCommGroup V] {nrm : V → K} {ncross : V → V → K} {devMax : K} {srf : K → K → R V}

theorem between_ends {L : List K} {x y : K} (h1 : L.Pairwise (· ≤ ·)) (h2 : L.head? = some x) (h3 : L.getLast? = some y) : ∀ z ∈ L, x ≤ z ∧ z ≤ y := by
  intro z hz
  constructor
  · cases L with
    | nil => simp at hz
    | cons a l =>
      simp only [List.head?_cons, Option.some.injEq] at h2
      subst h2
      rcases List.mem_cons.mp hz with rfl | hz
      · exact le_refl _
      · exact (List.pairwise_cons.mp h1).1 z hz
  · obtain ⟨l, rfl⟩ := List.getLast?_eq_some_iff.mp h3
    rw [List.pairwise_append] at h1
    rcases List.mem_append.mp hz with hz | hz
    · exact h1.2.2 z hz y (by simp)
    · rw [List.mem_singleton.mp hz]

/-- C98: `meshSurfaceBoundary` returns points of the border of the rectangle of the parameters, its corners and the regular samples of the four sides
among them, followed by twice the origin. -/
theorem C98_boundary (hcn : Spec.CrossNorm nrm ncross) {u1 u2 v1 v2 : K} (hu : u1 < u2) (hv : v1 < v2) {nu nv nMax fuel : ℕ} (hnu : 2 ≤ nu) (hnv : 2 ≤ nv)
    {X : List (K × K)} (hX : meshSurfaceBoundary nrm ncross devMax srf fuel u1 u2 v1 v2 nu nv nMax = .ok X) :
    ∃ W, X = W ++ [(0, 0), (0, 0)] ∧ (∀ p ∈ W, Spec.OnRect (u1, v1) (u2, v2) p) ∧ (∀ q ∈ Spec.rectCorners (u1, v1) (u2, v2), q ∈ W) ∧
      (∀ i < nu, (Spec.evenly u1 u2 nu i, v1) ∈ W ∧ (Spec.evenly u1 u2 nu i, v2) ∈ W) ∧
      ∀ i < nv, (u1, Spec.evenly v1 v2 nv i) ∈ W ∧ (u2, Spec.evenly v1 v2 nv i) ∈ W := by
  unfold meshSurfaceBoundary at hX
  obtain ⟨a, ha, hX⟩ := R_bind_eq_ok.mp hX
  obtain ⟨b, hb, hX⟩ := R_bind_eq_ok.mp hX
  obtain ⟨c, hc, hX⟩ := R_bind_eq_ok.mp hX
  obtain ⟨d, hd, hX⟩ := R_bind_eq_ok.mp hX
  obtain ⟨a1, a2, a3, a4, -⟩ := C93_iso_partial hcn hu hnu ha
  obtain ⟨b1, b2, b3, b4, -⟩ := C93_iso_partial hcn hu hnu hb
  obtain ⟨c1, c2, c3, c4, -⟩ := C93_iso_partial hcn hv hnv hc
  obtain ⟨d1, d2, d3, d4, -⟩ := C93_iso_partial hcn hv hnv hd
  have a5 := between_ends a1 a2 a3
  have b5 := between_ends b1 b2 b3
  have c5 := between_ends c1 c2 c3
  have d5 := between_ends d1 d2 d3
  obtain ⟨d', rfl⟩ : ∃ d', d = v1 :: d' := by
    cases d with
    | nil => simp at d2
    | cons x l => simp at d2; exact ⟨l, by rw [d2]⟩
  obtain ⟨c', rfl⟩ := List.getLast?_eq_some_iff.mp c3
  simp only [List.reverse_append, List.reverse_cons, List.reverse_nil, List.nil_append, List.singleton_append, afterFirst] at hX
  have hX := (Except.ok.inj hX).symm
  have ma1 : u1 ∈ a := List.mem_of_head? a2
  have ma2 : u2 ∈ a := List.mem_of_getLast? a3
  have mb1 : u1 ∈ b := List.mem_of_head? b2
  have mb2 : u2 ∈ b := List.mem_of_getLast? b3
  refine ⟨a.map (fun u => (u, v1)) ++ d'.map (fun v => (u2, v)) ++ b.reverse.map (fun u => (u, v2)) ++ c'.reverse.map (fun v => (u1, v)), ?_, ?_, ?_, ?_, ?_⟩
  · rw [hX]
    congr 1
    have hl2 : a.length + b.reverse.length + (v2 :: c'.reverse).length + (v1 :: d').length -
        (a.map (fun u => (u, v1)) ++ d'.map (fun v => (u2, v)) ++ b.reverse.map (fun u => (u, v2)) ++ c'.reverse.map (fun v => (u1, v))).length = 2 := by
      simp only [List.length_append, List.length_map, List.length_reverse, List.length_cons]
      omega
    rw [hl2]
    rfl
  · intro p hp
    simp only [List.mem_append, List.mem_map, List.mem_reverse] at hp
    rcases hp with ((⟨u, hu', rfl⟩ | ⟨v, hv', rfl⟩) | ⟨u, hu', rfl⟩) | ⟨v, hv', rfl⟩
    · exact ⟨⟨(a5 u hu').1, le_refl _, (a5 u hu').2, hv.le⟩, Or.inr (Or.inr (Or.inl rfl))⟩
    · have := d5 v (List.mem_cons_of_mem _ hv')
      exact ⟨⟨hu.le, this.1, le_refl _, this.2⟩, Or.inr (Or.inl rfl)⟩
    · exact ⟨⟨(b5 u hu').1, hv.le, (b5 u hu').2, le_refl _⟩, Or.inr (Or.inr (Or.inr rfl))⟩
    · have := c5 v (List.mem_append_left _ hv')
      exact ⟨⟨le_refl _, this.1, hu.le, this.2⟩, Or.inl rfl⟩
  · intro q hq
    simp only [Spec.rectCorners, List.mem_cons, List.not_mem_nil, or_false] at hq
    simp only [List.mem_append, List.mem_map, List.mem_reverse]
    rcases hq with rfl | rfl | rfl | rfl
    · exact Or.inl (Or.inl (Or.inl ⟨u1, ma1, rfl⟩))
    · exact Or.inl (Or.inl (Or.inl ⟨u2, ma2, rfl⟩))
    · exact Or.inl (Or.inr ⟨u2, mb2, rfl⟩)
    · exact Or.inl (Or.inr ⟨u1, mb1, rfl⟩)
  · intro i hi
    simp only [List.mem_append, List.mem_map, List.mem_reverse]
    exact ⟨Or.inl (Or.inl (Or.inl ⟨_, a4 i hi, rfl⟩)), Or.inl (Or.inr ⟨_, b4 i hi, rfl⟩)⟩
  · intro i hi
    simp only [List.mem_append, List.mem_map, List.mem_reverse]
    constructor
    · rcases List.mem_append.mp (c4 i hi) with m | m
      · exact Or.inr ⟨_, m, rfl⟩
      · rw [List.mem_singleton.mp m]
        exact Or.inl (Or.inr ⟨u1, mb1, rfl⟩)
    · rcases List.mem_cons.mp (d4 i hi) with m | m
      · rw [m]
        exact Or.inl (Or.inl (Or.inl ⟨u2, ma2, rfl⟩))
      · exact Or.inl (Or.inl (Or.inr ⟨_, m, rfl⟩))

/-- C98: when the origin is on the border of the rectangle of the parameters, the base mesh of a surface is a Delaunay triangulation of the points of the
border and covers exactly the rectangle. -/
theorem C98_base_partial (hcn : Spec.CrossNorm nrm ncross) {pc : K} (hpc : 0 < pc) (hpc1 : pc ≤ 100) {u1 u2 v1 v2 : K} (hu : u1 < u2) (hv : v1 < v2)
    {nu nv nMax fuel : ℕ} (hnu : 2 ≤ nu) (hnv : 2 ≤ nv) {corners : List ℕ} (hcor : ∀ v, v ∈ corners ↔ v < 4)
    (h0 : Spec.OnRect (u1, v1) (u2, v2) (0, 0)) {X : List (K × K)} (hX : meshSurfaceBoundary nrm ncross devMax srf fuel u1 u2 v1 v2 nu nv nMax = .ok X) :
    ∃ h F, Mesh.surfaceBase nrm ncross devMax srf pc corners fuel u1 u2 v1 v2 nu nv nMax = .ok (h, F) ∧ Spec.Delaunay h F ∧
      (∀ u, Spec.IsVertex h F u ↔ u ∈ X) ∧ ∀ p, (∃ f ∈ F, Spec.InFace h f p) ↔ Spec.InRect (u1, v1) (u2, v2) p := by
  obtain ⟨W, hW, w1, w2, -⟩ := C98_boundary hcn hu hv hnu hnv hX
  obtain ⟨h, F, k1, k2⟩ := C98_rectangle hpc hpc1 (lo := (u1, v1)) (hi := (u2, v2)) hu hv (X := X) (by
    intro x hx
    rw [hW] at hx
    rcases List.mem_append.mp hx with hx | hx
    · exact w1 x hx
    · simp at hx; rw [hx]; exact h0) (fun q hq => by rw [hW]; exact List.mem_append_left _ (w2 q hq)) hcor
  refine ⟨h, F, ?_, k2⟩
  unfold Mesh.surfaceBase
  rw [hX, R_bind_ok]
  exact k1

end

/-- The plane as a surface. -/
def flatSurface (u v : ℚ) : R (ℚ × ℚ) := .ok (u, v)

/-- Sizes of vectors of the plane. -/
def taxi (v : ℚ × ℚ) : ℚ := |v.1| + |v.2|

/-- The size of the vector product. -/
def taxiCross (v w : ℚ × ℚ) : ℚ := |v.1 * w.2 - v.2 * w.1|

theorem taxi_crossNorm : Spec.CrossNorm taxi taxiCross := by
  have key : ∀ v, taxi v = 0 → v = 0 := by
    intro v h
    unfold taxi at h
    have h1 := abs_nonneg v.1
    have h2 := abs_nonneg v.2
    exact Prod.ext (abs_eq_zero.mp (by linarith)) (abs_eq_zero.mp (by linarith))
  refine ⟨fun v => add_nonneg (abs_nonneg _) (abs_nonneg _), fun v w h => ?_⟩
  rcases mul_eq_zero.mp h with h | h <;> rw [key _ h] <;> simp [taxiCross]

/-- The unit square, with three points on each side. -/
example : ∃ h F, Mesh.surfaceBase taxi taxiCross (1 / 100) flatSurface 10 [0, 1, 2, 3] 5 0 1 0 1 3 3 100 = .ok (h, F) ∧ Spec.Delaunay h F ∧
    (∀ p, (∃ f ∈ F, Spec.InFace h f p) ↔ Spec.InRect (0, 0) (1, 1) p) ∧ F.length = 6 := by
  have hX : meshSurfaceBoundary taxi taxiCross (1 / 100) flatSurface 5 0 1 0 1 3 3 100 =
      .ok [(0, 0), (1 / 2, 0), (1, 0), (1, 1 / 2), (1, 1), (1, 1), (1 / 2, 1), (0, 1), (0, 1 / 2), (0, 0), (0, 0), (0, 0)] := by decide +kernel
  obtain ⟨h, F, k1, k2, -, k3⟩ := C98_base_partial taxi_crossNorm (pc := 10) (by norm_num) (by norm_num) (u1 := 0) (u2 := 1) (v1 := 0) (v2 := 1) (by norm_num)
    (by norm_num) (by norm_num) (by norm_num) (corners := [0, 1, 2, 3]) (by intro v; simp; omega) ⟨by unfold Spec.InRect; norm_num, by simp⟩ hX
  refine ⟨h, F, k1, k2, k3, ?_⟩
  have : (facesOf (Mesh.surfaceBase taxi taxiCross (1 / 100) flatSurface 10 [0, 1, 2, 3] 5 0 1 0 1 3 3 100)).length = 6 := by decide +kernel
  rw [k1] at this
  simpa [facesOf] using this

/-- The code does not mesh the rectangle of the parameters when the origin is not on its border: a triangle has a corner out of the bounds. -/
theorem C98_out_of_bounds : facesOf (Mesh.surfaceBase taxi taxiCross (1 / 100) flatSurface 10 [0, 1, 2, 3] 5 1 2 0 1 2 2 100) =
    [((2, 0), (2, 1), (1, 0)), ((2, 1), (1, 1), (1, 0)), ((1, 1), (0, 0), (1, 0))] ∧ ¬Spec.InRect ((1, 0) : ℚ × ℚ) (2, 1) (0, 0) :=
  ⟨by decide +kernel, by unfold Spec.InRect; norm_num⟩

/-- And when it is inside: near the side `v = -1/100` a part of the rectangle is in no triangle. -/
theorem C98_uncovered : Spec.InRect ((-1, -1 / 100) : ℚ × ℚ) (1, 1) (0, -1 / 200) ∧
    facesOf (Mesh.surfaceBase taxi taxiCross (1 / 100) flatSurface 10 [0, 1, 2, 3] 5 (-1) 1 (-1 / 100) 1 2 2 100) ≠ [] ∧
    ∀ t ∈ facesOf (Mesh.surfaceBase taxi taxiCross (1 / 100) flatSurface 10 [0, 1, 2, 3] 5 (-1) 1 (-1 / 100) 1 2 2 100),
      ¬(0 ≤ Spec.area2 t.1 t.2.1 (0, -1 / 200) ∧ 0 ≤ Spec.area2 t.2.1 t.2.2 (0, -1 / 200) ∧ 0 ≤ Spec.area2 t.2.2 t.1 (0, -1 / 200)) :=
  ⟨by unfold Spec.InRect; norm_num, by decide +kernel, by decide +kernel⟩

end Gbs
