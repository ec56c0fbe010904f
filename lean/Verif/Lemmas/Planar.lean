import Verif.Props.Delaunay2D
import Verif.Lemmas.Winding

/-!
# The faces of a Delaunay triangulation and the polygons made of its edges
-/

set_option linter.unusedSectionVars false

namespace Gbs

variable {K : Type} [Field K] [LinearOrder K] [IsStrictOrderedRing K] {h : Mesh (K × K)} {F : List ℕ} {f : ℕ}

open Classical in
/-- No point is strictly inside two faces. -/
theorem Spec.Delaunay.unique (D : Spec.Delaunay h F) {g : ℕ} {q : K × K} (hf : f ∈ F) (hg : g ∈ F) (h1 : Spec.InsideFace h f q) (h2 : Spec.InsideFace h g q) :
    f = g := by
  by_contra hne
  have hc := cover_le D.valid D.ccw q
  have ho := D.once q
  have : 2 ≤ Spec.cover h F q := by
    unfold Spec.cover
    rw [List.countP_eq_length_filter]
    have hsub : [f, g] ⊆ F.filter fun f => decide (Spec.InsideFace h f q) := by
      intro x hx
      simp only [List.mem_cons, List.not_mem_nil, or_false] at hx
      rcases hx with rfl | rfl <;> simp [*]
    have hn : [f, g].Nodup := by simp [hne]
    exact (hn.subperm hsub).length_le
  omega

theorem side_line (e : ℕ) (p q : K × K) (t : K) : Spec.side h e (p + t • (q - p)) = (1 - t) * Spec.side h e p + t * Spec.side h e q := by
  unfold Spec.side; rw [area2_line]; ring

theorem side_start (e : ℕ) : Spec.side h e (Spec.startPt h e) = 0 := by unfold Spec.side Spec.area2; ring

theorem side_end (e : ℕ) : Spec.side h e (Spec.endPt h e) = 0 := by unfold Spec.side Spec.area2; ring

/-- A finite number of positive affine functions stay positive nearby. -/
theorem near_pos {x y : K} (hx : 0 < x) : ∃ δ : K, 0 < δ ∧ δ ≤ 1 ∧ ∀ ε, 0 ≤ ε → ε < δ → 0 < (1 - ε) * x + ε * y := by
  rcases le_or_gt 0 y with hy | hy
  · refine ⟨1, one_pos, le_rfl, fun ε h1 h2 => ?_⟩
    have := mul_pos (sub_pos.mpr h2) hx
    have := mul_nonneg h1 hy
    linarith
  · have hxy : 0 < x - y := by linarith
    refine ⟨x / (x - y), div_pos hx hxy, by rw [div_le_one hxy]; linarith, fun ε h1 h2 => ?_⟩
    rw [lt_div_iff₀ hxy] at h2
    nlinarith

/-- Near a point strictly inside a face. -/
theorem insideFace_near (H : Spec.Valid h F) (hf : f ∈ F) {q : K × K} (hq : Spec.InsideFace h f q) (w : K × K) :
    ∃ δ : K, 0 < δ ∧ δ ≤ 1 ∧ ∀ ε, 0 ≤ ε → ε < δ → Spec.InsideFace h f (q + ε • (w - q)) := by
  obtain ⟨a, b, c, t, -⟩ := H.tri hf
  obtain ⟨q1, q2, q3⟩ := t.insideFace.mp hq
  obtain ⟨d1, a1, a2, a3⟩ := near_pos (y := Spec.side h a w) q1
  obtain ⟨d2, b1, b2, b3⟩ := near_pos (y := Spec.side h b w) q2
  obtain ⟨d3, c1, c2, c3⟩ := near_pos (y := Spec.side h c w) q3
  refine ⟨min d1 (min d2 d3), lt_min a1 (lt_min b1 c1), (min_le_left _ _).trans a2, fun ε h1 h2 => t.insideFace.mpr ⟨?_, ?_, ?_⟩⟩
  · rw [side_line]; exact a3 ε h1 (h2.trans_le (min_le_left _ _))
  · rw [side_line]; exact b3 ε h1 (h2.trans_le ((min_le_right _ _).trans (min_le_left _ _)))
  · rw [side_line]; exact c3 ε h1 (h2.trans_le ((min_le_right _ _).trans (min_le_right _ _)))

/-- From a point of the closed face towards a point strictly inside. -/
theorem insideFace_mix {p q : K × K} (hp : Spec.InFace h f p) (hq : Spec.InsideFace h f q) {t : K} (h0 : 0 < t) (h1 : t ≤ 1) :
    Spec.InsideFace h f (p + t • (q - p)) := by
  intro e he
  rw [side_line]
  have := mul_nonneg (sub_nonneg.mpr h1) (hp e he)
  have := mul_pos h0 (hq e he)
  linarith

theorem insideFace_mix' {p q : K × K} (hp : Spec.InsideFace h f p) (hq : Spec.InFace h f q) {t : K} (h0 : 0 ≤ t) (h1 : t < 1) :
    Spec.InsideFace h f (p + t • (q - p)) := by
  intro e he
  rw [side_line]
  have := mul_pos (sub_pos.mpr h1) (hp e he)
  have := mul_nonneg h0 (hq e he)
  linarith

theorem insideFace_inFace {p : K × K} (hp : Spec.InsideFace h f p) : Spec.InFace h f p := fun e he => (hp e he).le

/-- No vertex is strictly inside a face. -/
theorem Spec.Delaunay.vertex_off (D : Spec.Delaunay h F) (hf : f ∈ F) {q : K × K} (hq : Spec.InsideFace h f q) : ¬Spec.IsVertex h F q := by
  intro hv
  obtain ⟨e, he, rfl⟩ := D.corner hf hv (insideFace_inFace hq)
  have := hq e he
  rw [side_end] at this
  exact lt_irrefl _ this

theorem Spec.Valid.start_isVertex (H : Spec.Valid h F) {g : ℕ} (hg : Spec.Live h F g) : Spec.IsVertex h F (Spec.startPt h g) := by
  obtain ⟨k, hk, hgk⟩ := hg
  obtain ⟨b, c, t⟩ := H.triAt hk hgk
  exact ⟨c, ⟨k, hk, t.fc⟩, t.startPt.symm⟩

/-- The sides of a triangle at a point of an edge. -/
theorem Tri.edge_sides {e b c : ℕ} (t : Tri h f e b c) {q : K × K} {s : K} (hq : q = Spec.startPt h e + s • (Spec.endPt h e - Spec.startPt h e)) :
    Spec.side h e q = 0 ∧ Spec.side h b q = (1 - s) * Spec.area2 (Spec.endPt h e) (Spec.endPt h b) (Spec.endPt h c) ∧
      Spec.side h c q = s * Spec.area2 (Spec.endPt h e) (Spec.endPt h b) (Spec.endPt h c) := by
  have h1 := t.startPt
  have h2 := t.rotate.startPt
  have h3 := t.rotate.rotate.startPt
  rw [hq, side_line, side_line, side_line, side_start, side_end]
  refine ⟨by ring, ?_, ?_⟩
  · unfold Spec.side; rw [h1, h2]; unfold Spec.area2; ring
  · unfold Spec.side; rw [h1, h3]; unfold Spec.area2; ring

/-- An edge has no point strictly inside a face. -/
theorem Spec.Delaunay.off_edges (D : Spec.Delaunay h F) (hf : f ∈ F) {q : K × K} (hq : Spec.InsideFace h f q) {g : ℕ} (hg : Spec.Live h F g) :
    ¬Spec.OnSeg (Spec.startPt h g) (Spec.endPt h g) q := by
  rintro ⟨s, s0, s1, hs⟩
  rcases s0.lt_or_eq with s0 | rfl
  swap
  · exact D.vertex_off hf hq (by rw [hs]; simpa using D.valid.start_isVertex hg)
  rcases s1.lt_or_eq with s1 | rfl
  swap
  · exact D.vertex_off hf hq (by rw [hs]; exact ⟨g, hg, by simp⟩)
  obtain ⟨k, hk, hgk⟩ := hg
  obtain ⟨b, c, t⟩ := D.valid.triAt hk hgk
  have hA := D.ccw k hk
  rw [D.valid.faceArea2 hk t] at hA
  obtain ⟨e1, e2, e3⟩ := t.edge_sides hs
  obtain ⟨δ, d1, d2, d3⟩ := insideFace_near D.valid hf hq (Spec.endPt h b)
  have hin : Spec.InsideFace h k (q + (δ / 2) • (Spec.endPt h b - q)) := by
    refine t.insideFace.mpr ⟨?_, ?_, ?_⟩
    · rw [side_line, e1]
      have : 0 < Spec.side h g (Spec.endPt h b) := by
        unfold Spec.side; rw [t.startPt, ← area2_rotate]; exact hA
      have := mul_pos (half_pos d1) this
      linarith
    · rw [side_line, e2, side_end]
      have := mul_pos (show (0 : K) < 1 - δ / 2 by linarith) (mul_pos (sub_pos.mpr s1) hA)
      linarith
    · have h0 : Spec.side h c (Spec.endPt h b) = 0 := by rw [← t.rotate.rotate.startPt, side_start]
      rw [side_line, e3, h0]
      have := mul_pos (show (0 : K) < 1 - δ / 2 by linarith) (mul_pos s0 hA)
      linarith
  have := D.unique hf hk (d3 (δ / 2) (half_pos d1).le (by linarith)) hin
  subst this
  have := hq g hgk
  rw [e1] at this
  exact lt_irrefl _ this

/-- A triangle has points off a line. -/
theorem exists_inside_off {A B C s t : K × K} (hw : 0 < Spec.area2 A B C) (hst : s ≠ t) : ∃ w, InOpen A B C w ∧ Spec.area2 s t w ≠ 0 := by
  have hp : ∀ x y z : K, 0 < x → 0 < y → 0 < z → x + y + z = 1 → InOpen A B C (x • A + y • B + z • C) := by
    intro x y z hx hy hz hs
    have hz' : z = 1 - x - y := by linarith
    refine ⟨?_, ?_, ?_⟩
    · have : Spec.area2 A B (x • A + y • B + z • C) = z * Spec.area2 A B C := by subst hz'; unfold Spec.area2; simp; ring
      rw [this]; exact mul_pos hz hw
    · have : Spec.area2 B C (x • A + y • B + z • C) = x * Spec.area2 A B C := by subst hz'; unfold Spec.area2; simp; ring
      rw [this]; exact mul_pos hx hw
    · have : Spec.area2 C A (x • A + y • B + z • C) = y * Spec.area2 A B C := by subst hz'; unfold Spec.area2; simp; ring
      rw [this]; exact mul_pos hy hw
  have hl : ∀ x y z : K, x + y + z = 1 → Spec.area2 s t (x • A + y • B + z • C) = x * Spec.area2 s t A + y * Spec.area2 s t B + z * Spec.area2 s t C := by
    intro x y z hs
    have hz' : z = 1 - x - y := by linarith
    subst hz'; unfold Spec.area2; simp; ring
  by_contra hno
  push Not at hno
  have g1 := hno _ (hp (1 / 4) (1 / 4) (1 / 2) (by norm_num) (by norm_num) (by norm_num) (by norm_num))
  have g2 := hno _ (hp (1 / 4) (1 / 2) (1 / 4) (by norm_num) (by norm_num) (by norm_num) (by norm_num))
  have g3 := hno _ (hp (1 / 2) (1 / 4) (1 / 4) (by norm_num) (by norm_num) (by norm_num) (by norm_num))
  rw [hl _ _ _ (by norm_num)] at g1 g2 g3
  have a0 : Spec.area2 s t A = 0 := by linarith
  have b0 : Spec.area2 s t B = 0 := by linarith
  have c0 : Spec.area2 s t C = 0 := by linarith
  have h1 : (t.1 - s.1) * Spec.area2 A B C = 0 := by
    unfold Spec.area2 at a0 b0 c0 ⊢
    linear_combination (C.1 - B.1) * a0 + (A.1 - C.1) * b0 + (B.1 - A.1) * c0
  have h2 : (t.2 - s.2) * Spec.area2 A B C = 0 := by
    unfold Spec.area2 at a0 b0 c0 ⊢
    linear_combination (C.2 - B.2) * a0 + (A.2 - C.2) * b0 + (B.2 - A.2) * c0
  refine hst (Prod.ext ?_ ?_)
  · linarith [(mul_eq_zero.mp h1).resolve_right hw.ne']
  · linarith [(mul_eq_zero.mp h2).resolve_right hw.ne']

theorem Spec.Valid.ends_ne (H : Spec.Valid h F) (hw : Spec.Ccw h F) {e : ℕ} (he : Spec.Live h F e) : Spec.startPt h e ≠ Spec.endPt h e := by
  obtain ⟨k, hk, hgk⟩ := he
  obtain ⟨b, c, t⟩ := H.triAt hk hgk
  have hA := hw k hk
  rw [H.faceArea2 hk t] at hA
  intro e0
  rw [t.startPt] at e0
  rw [← e0] at hA
  unfold Spec.area2 at hA
  have : (Spec.endPt h b).1 - (Spec.endPt h c).1 = (Spec.endPt h b).1 - (Spec.endPt h c).1 := rfl
  ring_nf at hA
  exact lt_irrefl _ hA

/-- A point inside an edge of a face is on no other edge of the face, and is no vertex. -/
theorem Spec.Delaunay.mid_edge (D : Spec.Delaunay h F) {e b c : ℕ} (hf : f ∈ F) (t : Tri h f e b c) {m : K × K}
    (hm : Spec.InSeg (Spec.startPt h e) (Spec.endPt h e) m) :
    Spec.side h e m = 0 ∧ 0 < Spec.side h b m ∧ 0 < Spec.side h c m ∧ Spec.InFace h f m ∧ ¬Spec.IsVertex h F m := by
  obtain ⟨s, s0, s1, hs⟩ := hm
  have hA := D.ccw f hf
  rw [D.valid.faceArea2 hf t] at hA
  obtain ⟨e1, e2, e3⟩ := t.edge_sides hs
  have p2 : 0 < Spec.side h b m := by rw [e2]; exact mul_pos (sub_pos.mpr s1) hA
  have p3 : 0 < Spec.side h c m := by rw [e3]; exact mul_pos s0 hA
  have hin : Spec.InFace h f m := t.inFace.mpr ⟨e1.ge, p2.le, p3.le⟩
  refine ⟨e1, p2, p3, hin, fun hv => ?_⟩
  obtain ⟨x, hx, rfl⟩ := D.corner hf hv hin
  rcases t.own x hx with rfl | rfl | rfl
  · rw [← t.rotate.startPt, side_start] at p2; exact lt_irrefl _ p2
  · rw [side_end] at p2; exact lt_irrefl _ p2
  · rw [side_end] at p3; exact lt_irrefl _ p3

/-- Near the middle of an edge, on its left, one is strictly inside the face. -/
theorem Spec.Delaunay.near_edge (D : Spec.Delaunay h F) {e b c : ℕ} (hf : f ∈ F) (t : Tri h f e b c) {m : K × K}
    (hm : Spec.InSeg (Spec.startPt h e) (Spec.endPt h e) m) {w : K × K} (hw : 0 < Spec.side h e w) :
    ∃ δ : K, 0 < δ ∧ δ ≤ 1 ∧ ∀ ε, 0 < ε → ε < δ → Spec.InsideFace h f (m + ε • (w - m)) := by
  obtain ⟨e1, p2, p3, -, -⟩ := D.mid_edge hf t hm
  obtain ⟨d2, b1, b2, b3⟩ := near_pos (y := Spec.side h b w) p2
  obtain ⟨d3, c1, c2, c3⟩ := near_pos (y := Spec.side h c w) p3
  refine ⟨min d2 d3, lt_min b1 c1, (min_le_left _ _).trans b2, fun ε h1 h2 => t.insideFace.mpr ⟨?_, ?_, ?_⟩⟩
  · rw [side_line, e1]; have := mul_pos h1 hw; linarith
  · rw [side_line]; exact b3 ε h1.le (h2.trans_le (min_le_left _ _))
  · rw [side_line]; exact c3 ε h1.le (h2.trans_le (min_le_right _ _))

/-- Two faces on both sides of an edge: a segment from one to the other through the edge meets no other edge. -/
theorem Spec.Delaunay.cross_only (D : Spec.Delaunay h F) {e o f' : ℕ} (hf : f ∈ F) (he : (h.he e).face = some f) (ho : (h.he e).opp = some o)
    (hf' : f' ∈ F) (hof : (h.he o).face = some f') {p q m x : K × K} (hp : Spec.InsideFace h f p) (hq : Spec.InsideFace h f' q)
    (hm : Spec.OnSeg p q m) (hme : Spec.InSeg (Spec.startPt h e) (Spec.endPt h e) m) {g : ℕ} (hg : Spec.Live h F g) (hx : Spec.OnSeg p q x)
    (hxg : Spec.OnSeg (Spec.startPt h g) (Spec.endPt h g) x) : g = e ∨ g = o := by
  have hlive : Spec.Live h F e := ⟨f, hf, he⟩
  obtain ⟨b, c, t⟩ := D.valid.triAt hf he
  obtain ⟨b', c', t'⟩ := D.valid.triAt hf' hof
  obtain ⟨op1, op2⟩ := D.valid.opp_pts hlive ho
  have hmo : Spec.InSeg (Spec.startPt h o) (Spec.endPt h o) m := by
    obtain ⟨s, s0, s1, hs⟩ := hme
    refine ⟨1 - s, by linarith, by linarith, ?_⟩
    rw [op1, op2, hs, sub_smul, one_smul]; simp only [smul_sub]; abel
  obtain ⟨m1, m2, m3, m4, m5⟩ := D.mid_edge hf t hme
  obtain ⟨n1, n2, n3, n4, -⟩ := D.mid_edge hf' t' hmo
  obtain ⟨s, s0, s1, rfl⟩ := hm
  have hs0 : 0 < s := by
    rcases s0.lt_or_eq with s0 | rfl
    · exact s0
    · have := hp e he; simp only [zero_smul, add_zero] at m1; linarith
  have hs1 : s < 1 := by
    rcases s1.lt_or_eq with s1 | rfl
    · exact s1
    · have := hq o hof; simp only [one_smul, add_sub_cancel] at n1; linarith
  obtain ⟨r, r0, r1, rfl⟩ := hx
  rcases lt_trichotomy r s with hrs | rfl | hrs
  · exfalso
    refine D.off_edges hf (q := p + r • (q - p)) ?_ hg hxg
    have : p + r • (q - p) = p + (r / s) • (p + s • (q - p) - p) := by
      rw [add_sub_cancel_left, smul_smul, div_mul_cancel₀ _ hs0.ne']
    rw [this]
    exact insideFace_mix' hp m4 (div_nonneg r0 hs0.le) (by rw [div_lt_one hs0]; exact hrs)
  swap
  · exfalso
    refine D.off_edges hf' (q := p + r • (q - p)) ?_ hg hxg
    have h1s : 0 < 1 - s := by linarith
    have : p + r • (q - p) = (p + s • (q - p)) + ((r - s) / (1 - s)) • (q - (p + s • (q - p))) := by
      have e1 : q - (p + s • (q - p)) = (1 - s) • (q - p) := by rw [sub_smul, one_smul]; abel
      rw [e1, smul_smul, div_mul_cancel₀ _ h1s.ne', add_assoc, ← add_smul]
      congr 2; ring
    rw [this]
    exact insideFace_mix n4 hq (div_pos (by linarith) h1s) (by rw [div_le_one h1s]; linarith)
  generalize p + r • (q - p) = m at *
  obtain ⟨k, hk, hgk⟩ := hg
  have hg : Spec.Live h F g := ⟨k, hk, hgk⟩
  obtain ⟨bg, cg, tg⟩ := D.valid.triAt hk hgk
  have hmg : Spec.InSeg (Spec.startPt h g) (Spec.endPt h g) m := by
    obtain ⟨u, u0, u1, hu⟩ := hxg
    refine ⟨u, ?_, ?_, hu⟩
    · rcases u0.lt_or_eq with u0 | rfl
      · exact u0
      · exact absurd (by rw [hu]; simpa using D.valid.start_isVertex hg) m5
    · rcases u1.lt_or_eq with u1 | rfl
      · exact u1
      · exact absurd (by rw [hu]; exact ⟨g, hg, by simp⟩) m5
  obtain ⟨g1, -, -, g4, -⟩ := D.mid_edge hk tg hmg
  have hA := D.ccw k hk
  rw [D.valid.faceArea2 hk tg] at hA
  obtain ⟨w, ⟨w1, w2, w3⟩, hw⟩ := exists_inside_off hA (D.valid.ends_ne D.ccw hlive)
  have hwin : Spec.InsideFace h k w := by
    refine tg.insideFace.mpr ⟨?_, ?_, ?_⟩
    · unfold Spec.side; rw [tg.startPt]; exact w3
    · unfold Spec.side; rw [tg.rotate.startPt]; exact w1
    · unfold Spec.side; rw [tg.rotate.rotate.startPt]; exact w2
  rcases lt_or_gt_of_ne hw with hneg | hpos
  · right
    obtain ⟨δ, d1, d2, d3⟩ := D.near_edge hf' t' hmo (w := w) (by
      rw [D.valid.side_opp hlive ho]; show 0 < -Spec.area2 _ _ _; linarith)
    have := D.unique hf' hk (d3 (δ / 2) (half_pos d1) (by linarith)) (insideFace_mix g4 hwin (half_pos d1) (by linarith))
    subst this
    rcases t'.own g hgk with rfl | rfl | rfl
    · rfl
    · linarith
    · linarith
  · left
    obtain ⟨δ, d1, d2, d3⟩ := D.near_edge hf t hme (w := w) hpos
    have := D.unique hf hk (d3 (δ / 2) (half_pos d1) (by linarith)) (insideFace_mix g4 hwin (half_pos d1) (by linarith))
    subst this
    rcases t.own g hgk with rfl | rfl | rfl
    · rfl
    · linarith
    · linarith

/-- A half-edge as a segment. -/
def segOf (h : Mesh (K × K)) (e : ℕ) : (K × K) × (K × K) := (Spec.startPt h e, Spec.endPt h e)

/-- The winding number of a polygon made of edges is constant in a face. -/
theorem Spec.Delaunay.wind_same (D : Spec.Delaunay h F) {B : List ((K × K) × (K × K))} (hB : Closed2 B) (hE : ∀ s ∈ B, ∃ e, Spec.Live h F e ∧ s = segOf h e)
    (hf : f ∈ F) {p q : K × K} (hp : Spec.InsideFace h f p) (hq : Spec.InsideFace h f q) : Spec.winding B p = Spec.winding B q := by
  refine winding_move hB ?_
  rintro s hs m ⟨t, t0, t1, rfl⟩
  obtain ⟨e, he, rfl⟩ := hE s hs
  refine D.off_edges hf ?_ he
  rcases t1.lt_or_eq with t1 | rfl
  · exact insideFace_mix' hp (insideFace_inFace hq) t0 t1
  · simpa using hq

open Classical in
/-- The winding number changes across an edge by the number of times the polygon has it. -/
theorem Spec.Delaunay.wind_jump (D : Spec.Delaunay h F) {B : List ((K × K) × (K × K))} (hB : Closed2 B) (hE : ∀ s ∈ B, ∃ e, Spec.Live h F e ∧ s = segOf h e)
    {e o f' : ℕ} (hf : f ∈ F) (he : (h.he e).face = some f) (ho : (h.he e).opp = some o) (hf' : f' ∈ F) (hof : (h.he o).face = some f')
    {p q : K × K} (hp : Spec.InsideFace h f p) (hq : Spec.InsideFace h f' q) :
    Spec.winding B p = Spec.winding B q + B.count (segOf h e) - B.count (segOf h o) := by
  have hlive : Spec.Live h F e := ⟨f, hf, he⟩
  obtain ⟨b, c, t⟩ := D.valid.triAt hf he
  obtain ⟨b', c', t'⟩ := D.valid.triAt hf' hof
  obtain ⟨op1, op2⟩ := D.valid.opp_pts hlive ho
  have hA := D.ccw f hf
  rw [D.valid.faceArea2 hf t] at hA
  have hside : 0 < Spec.side h e (Spec.endPt h b) := by unfold Spec.side; rw [t.startPt, ← area2_rotate]; exact hA
  obtain ⟨m, hm⟩ : ∃ m, m = Spec.startPt h e + (1 / 2 : K) • (Spec.endPt h e - Spec.startPt h e) := ⟨_, rfl⟩
  have hme : Spec.InSeg (Spec.startPt h e) (Spec.endPt h e) m := ⟨1 / 2, by norm_num, by norm_num, hm⟩
  have hmo : Spec.InSeg (Spec.startPt h o) (Spec.endPt h o) m := by
    refine ⟨1 / 2, by norm_num, by norm_num, ?_⟩
    rw [op1, op2, hm]
    have : (1 / 2 : K) • (Spec.startPt h e - Spec.endPt h e) = - ((1 / 2 : K) • (Spec.endPt h e - Spec.startPt h e)) := by rw [← smul_neg, neg_sub]
    rw [this]
    have : Spec.endPt h e = Spec.startPt h e + ((1 / 2 : K) • (Spec.endPt h e - Spec.startPt h e) + (1 / 2 : K) • (Spec.endPt h e - Spec.startPt h e)) := by
      rw [← add_smul]; norm_num
    conv_rhs => rw [this]
    simp only [add_sub_cancel_left]
    generalize Spec.startPt h e = S
    generalize Spec.endPt h e = T
    ext <;> simp <;> ring
  have hme0 : Spec.side h e m = 0 := (D.mid_edge hf t hme).1
  set w := Spec.endPt h b with hwdef
  have hback : Spec.side h e (m + (-1 : K) • (w - m)) = - Spec.side h e w := by rw [side_line, hme0]; ring
  obtain ⟨δ, d1, d2, d3⟩ := D.near_edge hf t hme hside
  obtain ⟨δ', d1', d2', d3'⟩ := D.near_edge hf' t' hmo (w := m + (-1 : K) • (w - m)) (by rw [D.valid.side_opp hlive ho, hback]; linarith)
  set ε := min δ δ' / 2 with hε
  have hmin : 0 < min δ δ' := lt_min d1 d1'
  have e0 : 0 < ε := half_pos hmin
  have i1 := d3 ε e0 (by have := min_le_left δ δ'; linarith)
  have i2 := d3' ε e0 (by have := min_le_right δ δ'; linarith)
  rw [add_sub_cancel_left, smul_smul] at i2
  rw [D.wind_same hB hE hf hp i1, D.wind_same hB hE hf' hq i2]
  have hon : Spec.OnSeg (m + ε • (w - m)) (m + (ε * -1) • (w - m)) m := by
    refine ⟨1 / 2, by norm_num, by norm_num, ?_⟩
    generalize w - m = v
    ext <;> simp <;> ring
  have hjump := winding_cross (a := Spec.startPt h e) (b := Spec.endPt h e) hB (p := m + ε • (w - m)) (q := m + (ε * -1) • (w - m)) (i1 e he) (by
    have := i2 o hof
    rw [D.valid.side_opp hlive ho] at this
    exact neg_pos.mp this) hon hme (by
      intro s hs n1 n2 x hx hxs
      obtain ⟨g, hg, rfl⟩ := hE s hs
      rcases D.cross_only hf he ho hf' hof i1 i2 hon hme hg hx hxs with rfl | rfl
      · exact n1 rfl
      · exact n2 (by unfold segOf; rw [op1, op2]))
  rw [hjump]
  unfold segOf
  rw [op1, op2]

end Gbs
