import Verif.Model.BaseDelaunay
import Verif.Props.MeshFan
import Verif.Props.Polygon
import Mathlib.Tactic.FieldSimp
import Mathlib.Tactic.LinearCombination

/-!
# C116: the Delaunay triangulation by trial of all the triangles
-/

namespace Gbs

set_option linter.unusedSectionVars false

variable {K : Type} [Field K] [LinearOrder K] [IsStrictOrderedRing K]

/-! ## What is to be proved -/

/-- The face `f` is a ring of three half-edges that end at `a`, `b` and `c`, without opposites. -/
def Spec.FaceOf {P : Type} (h : Mesh P) (f a b c : ℕ) : Prop :=
  ∃ x y z, h.fe f = some x ∧ x ≠ y ∧ y ≠ z ∧ z ≠ x ∧ h.he x = ⟨some a, some f, some y, some z, none⟩ ∧
    h.he y = ⟨some b, some f, some z, some x, none⟩ ∧ h.he z = ⟨some c, some f, some x, some y, none⟩

/-- No point of `pts` is strictly inside a circle that goes through `a`, `b`, `c`. -/
def Spec.EmptyCircle (pts : List (K × K)) (a b c : K × K) : Prop :=
  ∀ o, Spec.dist2 o a = Spec.dist2 o b → Spec.dist2 o a = Spec.dist2 o c → ∀ d ∈ pts, Spec.dist2 o a ≤ Spec.dist2 o d

/-- The triangle is counter-clockwise and its circle is empty. -/
def Spec.IsDelaunay (pts : List (K × K)) (a b c : K × K) : Prop := 0 < orient2d a b c ∧ Spec.EmptyCircle pts a b c

/-- The segments are not nearly parallel nor short, and meet at a point whose parameters on both are in `(tol, 1 - tol)`. -/
def Spec.CrossBy (tol : K) (a b c d : K × K) : Prop :=
  tol ≤ |(b.1 - a.1) * (d.2 - c.2) - (b.2 - a.2) * (d.1 - c.1)| ∧ (tol ≤ |b.1 - a.1| ∨ tol ≤ |b.2 - a.2|) ∧
    (tol ≤ |d.1 - c.1| ∨ tol ≤ |d.2 - c.2|) ∧ ∃ s t : K, tol < s ∧ s < 1 - tol ∧ tol < t ∧ t < 1 - tol ∧ a + t • (b - a) = c + s • (d - c)

/-- The sides of a triangle. -/
def Spec.sidesOf {α : Type} (a b c : α) : List (α × α) := [(c, a), (a, b), (b, c)]

/-- A side of the first triangle crosses a side of the second one. -/
def Spec.TrianglesCross (tol : K) (co : ℕ → K × K) (a b c a' b' c' : ℕ) : Prop :=
  ∃ x ∈ Spec.sidesOf a b c, ∃ y ∈ Spec.sidesOf a' b' c', Spec.CrossBy tol (co x.1) (co x.2) (co y.1) (co y.2)

/-- No four of the vertices are on one circle. -/
structure Spec.GeneralPosition (co : ℕ → K × K) (vs : List ℕ) : Prop where
  four : ∀ a ∈ vs, ∀ b ∈ vs, ∀ c ∈ vs, ∀ d ∈ vs, [a, b, c, d].Nodup → ∀ o, Spec.dist2 o (co a) = Spec.dist2 o (co b) →
    Spec.dist2 o (co a) = Spec.dist2 o (co c) → Spec.dist2 o (co a) ≠ Spec.dist2 o (co d)

/-! ## Geometry -/

/-- The centre of the circle through three points that are not on one line. -/
theorem exists_centre {a b c : K × K} (h : orient2d a b c ≠ 0) : ∃ o, Spec.dist2 o a = Spec.dist2 o b ∧ Spec.dist2 o a = Spec.dist2 o c := by
  set D := orient2d a b c with hD
  set A := b.1 ^ 2 + b.2 ^ 2 - a.1 ^ 2 - a.2 ^ 2 with hA
  set B := c.1 ^ 2 + c.2 ^ 2 - a.1 ^ 2 - a.2 ^ 2 with hB
  refine ⟨((A * (c.2 - a.2) - B * (b.2 - a.2)) / (2 * D), (B * (b.1 - a.1) - A * (c.1 - a.1)) / (2 * D)), ?_, ?_⟩ <;> unfold Spec.dist2 <;>
    rw [← sub_eq_zero] <;> field_simp <;> rw [hA, hB, hD] <;> unfold orient2d <;> ring

/-- `in_circle` answers the question of the empty circle. -/
theorem emptyCircle_iff {a b c : K × K} (h : 0 < orient2d a b c) (pts : List (K × K)) :
    Spec.EmptyCircle pts a b c ↔ ∀ d ∈ pts, ¬ 0 < inCircle a b c d := by
  constructor
  · intro H d hd hpos
    obtain ⟨o, h1, h2⟩ := exists_centre h.ne'
    exact absurd (H o h1 h2 d hd) (not_le.mpr ((C45_in_circle h o h1 h2 d).1.mp hpos))
  · intro H o h1 h2 d hd
    by_contra hc
    exact H d hd ((C45_in_circle h o h1 h2 d).1.mpr (not_le.mp hc))

/-- Two segments with a common end do not cross strictly. -/
theorem cross_common {p q r : K × K} {D : K} (hD : D = (q.1 - p.1) * (r.2 - p.2) - (q.2 - p.2) * (r.1 - p.1)) (h0 : D ≠ 0) {s t : K} (hs : s ≠ 0)
    (h1 : t * (q.1 - p.1) = s * (r.1 - p.1)) (h2 : t * (q.2 - p.2) = s * (r.2 - p.2)) : False := by
  have : s * D = 0 := by rw [hD]; linear_combination (q.1 - p.1) * (-h2) + (q.2 - p.2) * h1
  rcases mul_eq_zero.mp this with h | h
  · exact hs h
  · exact h0 h

theorem orient_ids {co : ℕ → K × K} {a b c : ℕ} (h : 0 < orient2d (co a) (co b) (co c)) : a ≠ b ∧ b ≠ c ∧ c ≠ a := by
  refine ⟨?_, ?_, ?_⟩ <;> rintro rfl <;> unfold orient2d at h <;> ring_nf at h <;> exact lt_irrefl _ h

/-- In general position only the three vertices are on the circle. -/
theorem Spec.GeneralPosition.on_circle {co : ℕ → K × K} {vs : List ℕ} (G : Spec.GeneralPosition co vs) {a b c v : ℕ} (ha : a ∈ vs) (hb : b ∈ vs) (hc : c ∈ vs)
    (hv : v ∈ vs) (h : 0 < orient2d (co a) (co b) (co c)) {o : K × K} (h1 : Spec.dist2 o (co a) = Spec.dist2 o (co b))
    (h2 : Spec.dist2 o (co a) = Spec.dist2 o (co c)) (h3 : Spec.dist2 o (co a) = Spec.dist2 o (co v)) : v = a ∨ v = b ∨ v = c := by
  by_contra hn
  push Not at hn
  obtain ⟨x1, x2, x3⟩ := orient_ids h
  exact G.four a ha b hb c hc v hv (by simp [x1, x2, x3.symm, hn.1.symm, hn.2.1.symm, hn.2.2.symm]) o h1 h2 h3

theorem sides_mem {α : Type} {a b c : α} {x : α × α} (hx : x ∈ Spec.sidesOf a b c) (h1 : a ≠ b) (h2 : b ≠ c) (h3 : c ≠ a) :
    (x.1 = a ∨ x.1 = b ∨ x.1 = c) ∧ (x.2 = a ∨ x.2 = b ∨ x.2 = c) ∧ x.1 ≠ x.2 := by
  simp only [Spec.sidesOf, List.mem_cons, List.not_mem_nil, or_false] at hx
  rcases hx with rfl | rfl | rfl
  · exact ⟨Or.inr (Or.inr rfl), Or.inl rfl, h3⟩
  · exact ⟨Or.inl rfl, Or.inr (Or.inl rfl), h1⟩
  · exact ⟨Or.inr (Or.inl rfl), Or.inr (Or.inr rfl), h2⟩

/-- In general position the sides of two Delaunay triangles do not cross: the difference of the powers with respect to the two circles is affine, not
positive at the ends of one side and not negative at those of the other one. -/
theorem delaunay_no_cross {co : ℕ → K × K} {vs : List ℕ} (G : Spec.GeneralPosition co vs) {tol : K} (htol : 0 < tol) {a b c a' b' c' : ℕ}
    (ha : a ∈ vs) (hb : b ∈ vs) (hc : c ∈ vs) (ha' : a' ∈ vs) (hb' : b' ∈ vs) (hc' : c' ∈ vs)
    (D : Spec.IsDelaunay (vs.map co) (co a) (co b) (co c)) (D' : Spec.IsDelaunay (vs.map co) (co a') (co b') (co c')) :
    ¬ Spec.TrianglesCross tol co a b c a' b' c' := by
  rintro ⟨⟨p, q⟩, hx, ⟨r, u⟩, hy, hD, -, -, s, t, s0, s1, t0, t1, he⟩
  obtain ⟨i1, i2, i3⟩ := orient_ids D.1
  obtain ⟨j1, j2, j3⟩ := orient_ids D'.1
  obtain ⟨hp, hq, hpq⟩ := sides_mem hx i1 i2 i3
  obtain ⟨hr, hu, hru⟩ := sides_mem hy j1 j2 j3
  dsimp only at hp hq hpq hr hu hru hD he
  obtain ⟨o, o1, o2⟩ := exists_centre D.1.ne'
  obtain ⟨o', o1', o2'⟩ := exists_centre D'.1.ne'
  have mem : ∀ {v : ℕ}, (v = a ∨ v = b ∨ v = c) → v ∈ vs := by rintro v (rfl | rfl | rfl) <;> assumption
  have mem' : ∀ {v : ℕ}, (v = a' ∨ v = b' ∨ v = c') → v ∈ vs := by rintro v (rfl | rfl | rfl) <;> assumption
  have on : ∀ {v : ℕ}, (v = a ∨ v = b ∨ v = c) → Spec.dist2 o (co v) = Spec.dist2 o (co a) := by
    rintro v (rfl | rfl | rfl)
    exacts [rfl, o1.symm, o2.symm]
  have on' : ∀ {v : ℕ}, (v = a' ∨ v = b' ∨ v = c') → Spec.dist2 o' (co v) = Spec.dist2 o' (co a') := by
    rintro v (rfl | rfl | rfl)
    exacts [rfl, o1'.symm, o2'.symm]
  have np := D'.2 o' o1' o2' (co p) (List.mem_map_of_mem (mem hp))
  have nq := D'.2 o' o1' o2' (co q) (List.mem_map_of_mem (mem hq))
  have nr := D.2 o o1 o2 (co r) (List.mem_map_of_mem (mem' hr))
  have nu := D.2 o o1 o2 (co u) (List.mem_map_of_mem (mem' hu))
  have e1 := congrArg Prod.fst he
  have e2 := congrArg Prod.snd he
  simp only [Prod.fst_add, Prod.snd_add, Prod.smul_fst, Prod.smul_snd, Prod.fst_sub, Prod.snd_sub, smul_eq_mul] at e1 e2
  have key : (1 - t) * (Spec.dist2 o' (co p) - Spec.dist2 o' (co a')) + t * (Spec.dist2 o' (co q) - Spec.dist2 o' (co a')) +
      (1 - s) * (Spec.dist2 o (co r) - Spec.dist2 o (co a)) + s * (Spec.dist2 o (co u) - Spec.dist2 o (co a)) = 0 := by
    have h1 := on hp
    have h2 := on hq
    have h3 := on' hr
    have h4 := on' hu
    have : (1 - t) * (Spec.dist2 o' (co p) - Spec.dist2 o (co p)) + t * (Spec.dist2 o' (co q) - Spec.dist2 o (co q)) +
        (1 - s) * (Spec.dist2 o (co r) - Spec.dist2 o' (co r)) + s * (Spec.dist2 o (co u) - Spec.dist2 o' (co u)) = 0 := by
      unfold Spec.dist2
      linear_combination (2 * (o.1 - o'.1)) * e1 + (2 * (o.2 - o'.2)) * e2
    rw [h1, h2, h3, h4] at this
    linear_combination this
  have z1 : 0 ≤ (1 - t) * (Spec.dist2 o' (co p) - Spec.dist2 o' (co a')) := mul_nonneg (by linarith) (by linarith)
  have z2 : 0 ≤ t * (Spec.dist2 o' (co q) - Spec.dist2 o' (co a')) := mul_nonneg (by linarith) (by linarith)
  have z3 : 0 ≤ (1 - s) * (Spec.dist2 o (co r) - Spec.dist2 o (co a)) := mul_nonneg (by linarith) (by linarith)
  have z4 : 0 ≤ s * (Spec.dist2 o (co u) - Spec.dist2 o (co a)) := mul_nonneg (by linarith) (by linarith)
  have w1 : Spec.dist2 o' (co a') = Spec.dist2 o' (co p) := by
    have := (mul_eq_zero.mp (show (1 - t) * (Spec.dist2 o' (co p) - Spec.dist2 o' (co a')) = 0 by linarith)).resolve_left (by linarith)
    linarith
  have w2 : Spec.dist2 o' (co a') = Spec.dist2 o' (co q) := by
    have := (mul_eq_zero.mp (show t * (Spec.dist2 o' (co q) - Spec.dist2 o' (co a')) = 0 by linarith)).resolve_left (by linarith)
    linarith
  have m1 := G.on_circle ha' hb' hc' (mem hp) D'.1 o1' o2' w1
  have m2 := G.on_circle ha' hb' hc' (mem hq) D'.1 o1' o2' w2
  have hD0 : ((co q).1 - (co p).1) * ((co u).2 - (co r).2) - ((co q).2 - (co p).2) * ((co u).1 - (co r).1) ≠ 0 := by
    intro h
    rw [h, abs_zero] at hD
    linarith
  have hcase : p = r ∨ p = u ∨ q = r ∨ q = u := by omega
  rcases hcase with rfl | rfl | rfl | rfl
  · exact cross_common rfl hD0 (s := s) (t := t) (by linarith) (by linear_combination e1) (by linear_combination e2)
  · refine cross_common (p := co p) (q := co q) (r := co r) rfl (fun h => hD0 (by linear_combination -h)) (s := 1 - s) (t := t) (by linarith) (by linear_combination e1) (by linear_combination e2)
  · refine cross_common (p := co q) (q := co p) (r := co u) rfl (fun h => hD0 (by linear_combination -h)) (s := s) (t := 1 - t) (by linarith) (by linear_combination e1) (by linear_combination e2)
  · refine cross_common (p := co q) (q := co p) (r := co r) rfl (fun h => hD0 (by linear_combination h)) (s := 1 - s) (t := 1 - t) (by linarith) (by linear_combination e1) (by linear_combination e2)

/-! ## The store -/

/-- A face made by the program: its half-edges were made one after the other. -/
structure BFace (h : Mesh (K × K)) (f a b c : ℕ) : Prop where
  lt : f < h.nF
  ex : ∃ e, h.fe f = some e ∧ e + 2 < h.nE ∧ h.he e = ⟨some a, some f, some (e + 1), some (e + 2), none⟩ ∧
    h.he (e + 1) = ⟨some b, some f, some (e + 2), some e, none⟩ ∧ h.he (e + 2) = ⟨some c, some f, some e, some (e + 1), none⟩

theorem BFace.faceOf {h : Mesh (K × K)} {f a b c : ℕ} (H : BFace h f a b c) : Spec.FaceOf h f a b c := by
  obtain ⟨e, h1, h2, h3, h4, h5⟩ := H.ex
  exact ⟨e, e + 1, e + 2, h1, by omega, by omega, by omega, h3, h4, h5⟩

/-- The vertices of a face are determined by the store. -/
theorem faceOf_unique {P : Type} {h : Mesh P} {f a b c a' b' c' : ℕ} (H : Spec.FaceOf h f a b c) (H' : Spec.FaceOf h f a' b' c') :
    a' = a ∧ b' = b ∧ c' = c := by
  obtain ⟨x, y, z, h1, -, -, -, h3, h4, h5⟩ := H
  obtain ⟨x', y', z', h1', -, -, -, h3', h4', h5'⟩ := H'
  obtain rfl := Option.some.inj (h1.symm.trans h1')
  have e1 := h3.symm.trans h3'
  simp only [HEdge.mk.injEq, Option.some.injEq] at e1
  obtain ⟨rfl, -, rfl, rfl, -⟩ := e1
  have e2 := h4.symm.trans h4'
  have e3 := h5.symm.trans h5'
  simp only [HEdge.mk.injEq, Option.some.injEq] at e2 e3
  exact ⟨rfl, e2.1.symm, e3.1.symm⟩

/-- `h'` has the objects of `h`. -/
structure Keeps (h h' : Mesh (K × K)) : Prop where
  he : ∀ e, e < h.nE → h'.he e = h.he e
  fe : ∀ f, f < h.nF → h'.fe f = h.fe f
  co : h'.co = h.co
  nE : h.nE ≤ h'.nE
  nF : h.nF ≤ h'.nF

theorem Keeps.refl (h : Mesh (K × K)) : Keeps h h := ⟨fun _ _ => rfl, fun _ _ => rfl, rfl, le_rfl, le_rfl⟩

theorem Keeps.trans {h₁ h₂ h₃ : Mesh (K × K)} (H : Keeps h₁ h₂) (H' : Keeps h₂ h₃) : Keeps h₁ h₃ :=
  ⟨fun e he => by rw [H'.he e (lt_of_lt_of_le he H.nE), H.he e he], fun f hf => by rw [H'.fe f (lt_of_lt_of_le hf H.nF), H.fe f hf],
    H'.co.trans H.co, H.nE.trans H'.nE, H.nF.trans H'.nF⟩

theorem BFace.keeps {h h' : Mesh (K × K)} (k : Keeps h h') {f a b c : ℕ} (H : BFace h f a b c) : BFace h' f a b c := by
  obtain ⟨e, h1, h2, h3, h4, h5⟩ := H.ex
  exact ⟨lt_of_lt_of_le H.lt k.nF, e, by rw [k.fe f H.lt, h1], lt_of_lt_of_le h2 k.nE, by rw [k.he e (by omega), h3], by rw [k.he (e + 1) (by omega), h4],
    by rw [k.he (e + 2) h2, h5]⟩

theorem BFace.edges {h : Mesh (K × K)} {f a b c e : ℕ} (hfe : h.fe f = some e) (h2 : e + 2 < h.nE)
    (h3 : h.he e = ⟨some a, some f, some (e + 1), some (e + 2), none⟩) (h4 : h.he (e + 1) = ⟨some b, some f, some (e + 2), some e, none⟩)
    (h5 : h.he (e + 2) = ⟨some c, some f, some e, some (e + 1), none⟩) : h.getFaceEdges f = .ok [e, e + 1, e + 2] := by
  unfold Mesh.getFaceEdges
  obtain ⟨k, hk⟩ : ∃ k, h.nE + 1 = k + 1 + 1 + 1 := ⟨h.nE - 2, by omega⟩
  rw [hfe, hk, Mesh.faceEdgesFrom, h3, if_neg (by simp), Mesh.faceEdgesFrom, h4, if_neg (by simp), Mesh.faceEdgesFrom, h5, if_pos rfl]
  rfl

theorem startCo_eq {h : Mesh (K × K)} {e p v : ℕ} (h1 : (h.he e).prev = some p) (h2 : (h.he p).vertex = some v) : h.startCo e = .ok (h.co v) := by
  unfold Mesh.startCo Mesh.startV
  rw [h1]
  show (deref (h.he p).vertex >>= fun v => pure (h.co v)) = _
  rw [h2]
  rfl

theorem endCo_eq {h : Mesh (K × K)} {e v : ℕ} (h2 : (h.he e).vertex = some v) : h.endCo e = .ok (h.co v) := by
  unfold Mesh.endCo
  rw [h2]
  rfl

/-- The ends of a half-edge. -/
def Ends (h : Mesh (K × K)) (e : ℕ) (x : ℕ × ℕ) : Prop := h.startCo e = .ok (h.co x.1) ∧ h.endCo e = .ok (h.co x.2)

theorem edgeCrosses_spec {tol : K} (htol : 0 < tol) {h : Mesh (K × K)} {e : ℕ} {x : ℕ × ℕ} (he : Ends h e x) {es : List ℕ} {ys : List (ℕ × ℕ)}
    (hes : List.Forall₂ (Ends h) es ys) : ∃ r, h.edgeCrosses tol e es = .ok r ∧
      (r = true ↔ ∃ y ∈ ys, Spec.CrossBy tol (h.co x.1) (h.co x.2) (h.co y.1) (h.co y.2)) := by
  induction hes with
  | nil => exact ⟨false, rfl, by simp⟩
  | @cons g y es ys hg _ ih =>
    obtain ⟨r, er, hr⟩ := ih
    obtain ⟨r0, e0, h0⟩ := C66_seg_seg htol (h.co x.1) (h.co x.2) (h.co y.1) (h.co y.2)
    rw [Mesh.edgeCrosses, he.1, R_bind_ok, he.2, R_bind_ok, hg.1, R_bind_ok, hg.2, R_bind_ok, e0, R_bind_ok]
    change r0 = true ↔ Spec.CrossBy _ _ _ _ _ at h0
    cases r0 with
    | true => exact ⟨true, rfl, by simp [h0.mp rfl]⟩
    | false =>
      refine ⟨r, er, ?_⟩
      rw [hr]
      have : ¬ Spec.CrossBy tol (h.co x.1) (h.co x.2) (h.co y.1) (h.co y.2) := fun hc => by simpa using h0.mpr hc
      simp [this]

theorem BFace.ends {h : Mesh (K × K)} {f a b c e : ℕ} 
    (h3 : h.he e = ⟨some a, some f, some (e + 1), some (e + 2), none⟩) (h4 : h.he (e + 1) = ⟨some b, some f, some (e + 2), some e, none⟩)
    (h5 : h.he (e + 2) = ⟨some c, some f, some e, some (e + 1), none⟩) : List.Forall₂ (Ends h) [e, e + 1, e + 2] (Spec.sidesOf a b c) :=
  .cons ⟨startCo_eq (p := e + 2) (by rw [h3]) (by rw [h5]), endCo_eq (by rw [h3])⟩ <|
    .cons ⟨startCo_eq (p := e) (by rw [h4]) (by rw [h3]), endCo_eq (by rw [h4])⟩ <|
      .cons ⟨startCo_eq (p := e + 1) (by rw [h5]) (by rw [h4]), endCo_eq (by rw [h5])⟩ .nil

theorem anyCrosses_spec {tol : K} (htol : 0 < tol) {h : Mesh (K × K)} {f a b c : ℕ} (H : BFace h f a b c) {es : List ℕ} {xs : List (ℕ × ℕ)}
    (hes : List.Forall₂ (Ends h) es xs) : ∃ r, h.anyCrosses tol f es = .ok r ∧
      (r = true ↔ ∃ x ∈ xs, ∃ y ∈ Spec.sidesOf a b c, Spec.CrossBy tol (h.co x.1) (h.co x.2) (h.co y.1) (h.co y.2)) := by
  obtain ⟨e, h1, h2, h3, h4, h5⟩ := H.ex
  have hE := BFace.edges h1 h2 h3 h4 h5
  induction hes with
  | nil => exact ⟨false, rfl, by simp⟩
  | @cons g x es xs hg _ ih =>
    obtain ⟨r, er, hr⟩ := ih
    obtain ⟨r0, e0, h0⟩ := edgeCrosses_spec htol hg (BFace.ends h3 h4 h5)
    rw [Mesh.anyCrosses, Mesh.areFacesEdgesIntersect, hE, R_bind_ok, e0, R_bind_ok]
    cases r0 with
    | true => exact ⟨true, rfl, by simp only [true_iff]; exact ⟨x, by simp, h0.mp rfl⟩⟩
    | false =>
      refine ⟨r, er, ?_⟩
      have hn := mt h0.mpr (by simp)
      rw [hr, List.exists_mem_cons_iff]
      constructor
      · exact Or.inr
      · rintro (h | h)
        · exact absurd h hn
        · exact h

theorem clashes_spec {tol : K} (htol : 0 < tol) {h : Mesh (K × K)} {a b c : ℕ} {es : List ℕ} (hes : List.Forall₂ (Ends h) es (Spec.sidesOf a b c))
    {F : List ℕ} {T : List (ℕ × ℕ × ℕ)} (hF : List.Forall₂ (fun f t => BFace h f t.1 t.2.1 t.2.2) F T) : ∃ r, h.clashes tol a b c es F = .ok r ∧
      (r = true ↔ ∃ t ∈ T, [a, b, c].Perm [t.1, t.2.1, t.2.2] ∨ Spec.TrianglesCross tol h.co a b c t.1 t.2.1 t.2.2) := by
  induction hF with
  | nil => exact ⟨false, rfl, by simp⟩
  | @cons f t F T hf _ ih =>
    obtain ⟨r, er, hr⟩ := ih
    obtain ⟨r0, e0, h0⟩ := anyCrosses_spec htol hf hes
    obtain ⟨e, h1, h2, h3, h4, h5⟩ := hf.ex
    have hperm : ([some a, some b, some c].Perm [some t.1, some t.2.1, some t.2.2]) ↔ [a, b, c].Perm [t.1, t.2.1, t.2.2] :=
      ⟨fun h => by simpa using h.map (·.getD 0), fun h => by simpa using h.map some⟩
    rw [Mesh.clashes, Mesh.getFaceVertices, BFace.edges h1 h2 h3 h4 h5, R_bind_ok]
    have hv : List.map (fun e => (h.he e).vertex) [e, e + 1, e + 2] = [some t.1, some t.2.1, some t.2.2] := by simp [h3, h4, h5]
    rw [hv]
    show ∃ r', (if [some a, some b, some c].isPerm [some t.1, some t.2.1, some t.2.2] then pure true else
      h.anyCrosses tol f es >>= fun x => if x then pure true else h.clashes tol a b c es F) = .ok r' ∧ _
    by_cases hp : [a, b, c].Perm [t.1, t.2.1, t.2.2]
    · rw [if_pos (List.isPerm_iff.mpr (hperm.mpr hp))]
      exact ⟨true, rfl, by simp only [true_iff]; exact ⟨t, by simp, Or.inl hp⟩⟩
    · rw [if_neg (fun hc => hp (hperm.mp (List.isPerm_iff.mp hc))), e0, R_bind_ok]
      cases r0 with
      | true => exact ⟨true, rfl, by simp only [true_iff]; exact ⟨t, by simp, Or.inr (h0.mp rfl)⟩⟩
      | false =>
        refine ⟨r, er, ?_⟩
        have hn : ¬ Spec.TrianglesCross tol h.co a b c t.1 t.2.1 t.2.2 := mt h0.mpr (by simp)
        rw [hr, List.exists_mem_cons_iff]
        constructor
        · exact Or.inr
        · rintro ((h | h) | h)
          · exact absurd h hp
          · exact absurd h hn
          · exact h

/-- The three new half-edges, chained by their `previous`. -/
theorem threeEdges (h : Mesh (K × K)) (a b c : ℕ) : ∃ g : Mesh (K × K),
    (((((h.newEdge a).1.newEdge b).1.newEdge c).1.setE h.nE fun r => { r with prev := some (h.nE + 2) }).setE (h.nE + 1)
      fun r => { r with prev := some h.nE }).setE (h.nE + 2) (fun r => { r with prev := some (h.nE + 1) }) = g ∧ Keeps h g ∧ g.nE = h.nE + 3 ∧ g.nF = h.nF ∧
      g.he h.nE = ⟨some a, none, none, some (h.nE + 2), none⟩ ∧ g.he (h.nE + 1) = ⟨some b, none, none, some h.nE, none⟩ ∧
      g.he (h.nE + 2) = ⟨some c, none, none, some (h.nE + 1), none⟩ := by
  have e2 : ((h.newEdge a).1.newEdge b).1.nE = h.nE + 2 := by rw [Mesh.newEdge_nE, Mesh.newEdge_nE]
  have hh : ((((h.newEdge a).1.newEdge b).1.newEdge c).1).he = Function.update (Function.update (Function.update h.he h.nE ⟨some a, none, none, none, none⟩)
      (h.nE + 1) ⟨some b, none, none, none, none⟩) (h.nE + 2) ⟨some c, none, none, none, none⟩ := by
    rw [Mesh.newEdge_he, e2, Mesh.newEdge_he, Mesh.newEdge_nE, Mesh.newEdge_he]
  refine ⟨_, rfl, ⟨?_, ?_, ?_, ?_, ?_⟩, ?_, ?_, ?_, ?_, ?_⟩
  · intro e he
    simp only [Mesh.setE, hh]
    rw [Function.update_of_ne (by omega), Function.update_of_ne (by omega), Function.update_of_ne (by omega), Function.update_of_ne (by omega),
      Function.update_of_ne (by omega), Function.update_of_ne (by omega)]
  · intro f _
    simp only [Mesh.setE, Mesh.newEdge_fe]
  · simp only [Mesh.setE, Mesh.newEdge_co]
  · simp only [Mesh.setE, Mesh.newEdge_nE]; omega
  · simp only [Mesh.setE, Mesh.newEdge_nF]; exact le_rfl
  · simp only [Mesh.setE, Mesh.newEdge_nE]
  · simp only [Mesh.setE, Mesh.newEdge_nF]
  · simp [Mesh.setE, hh, Function.update]
  · simp [Mesh.setE, hh, Function.update]
  · simp [Mesh.setE, hh, Function.update]

/-- One trial: the triangle is left out, because it is not Delaunay or because of a face, or becomes a new face. -/
theorem tryTriangle_spec {tol : K} (htol : 0 < tol) (vs : List ℕ) (a b c : ℕ) {h : Mesh (K × K)} {F : List ℕ} {T : List (ℕ × ℕ × ℕ)}
    (hF : List.Forall₂ (fun f t => BFace h f t.1 t.2.1 t.2.2) F T) : ∃ h' F' T', Mesh.tryTriangle tol vs a b c (h, F) = .ok (h', F') ∧ Keeps h h' ∧
      List.Forall₂ (fun f t => BFace h' f t.1 t.2.1 t.2.2) F' T' ∧
      ((F' = F ∧ T' = T ∧ (Spec.IsDelaunay (vs.map h.co) (h.co a) (h.co b) (h.co c) →
          ∃ t ∈ T, [a, b, c].Perm [t.1, t.2.1, t.2.2] ∨ Spec.TrianglesCross tol h.co a b c t.1 t.2.1 t.2.2)) ∨
        (∃ f, F' = F ++ [f] ∧ T' = T ++ [(a, b, c)] ∧ Spec.IsDelaunay (vs.map h.co) (h.co a) (h.co b) (h.co c) ∧
          ∀ t ∈ T, ¬ [a, b, c].Perm [t.1, t.2.1, t.2.2] ∧ ¬ Spec.TrianglesCross tol h.co a b c t.1 t.2.1 t.2.2)) := by
  unfold Mesh.tryTriangle
  by_cases ho : 0 < orient2d (h.co a) (h.co b) (h.co c)
  swap
  · rw [if_neg ho]
    exact ⟨h, F, T, rfl, Keeps.refl h, hF, Or.inl ⟨rfl, rfl, fun hd => absurd hd.1 ho⟩⟩
  rw [if_pos ho]
  by_cases hin : (vs.any fun d => decide (0 < inCircle (h.co a) (h.co b) (h.co c) (h.co d))) = true
  · rw [if_pos hin]
    refine ⟨h, F, T, rfl, Keeps.refl h, hF, Or.inl ⟨rfl, rfl, fun hd => ?_⟩⟩
    obtain ⟨d, hd1, hd2⟩ := List.any_eq_true.mp hin
    exact absurd (of_decide_eq_true hd2) ((emptyCircle_iff ho _).mp hd.2 _ (List.mem_map_of_mem hd1))
  rw [if_neg hin]
  have hdel : Spec.IsDelaunay (vs.map h.co) (h.co a) (h.co b) (h.co c) := by
    refine ⟨ho, (emptyCircle_iff ho _).mpr ?_⟩
    intro x hx hpos
    obtain ⟨d, hd, rfl⟩ := List.mem_map.mp hx
    exact hin (List.any_eq_true.mpr ⟨d, hd, decide_eq_true hpos⟩)
  obtain ⟨g, hg, hk, nE, nF, g0, g1, g2⟩ := threeEdges h a b c
  have s1 : ((h.newEdge a).1.newEdge b).2 = h.nE + 1 := by rw [Mesh.newEdge_snd, Mesh.newEdge_nE]
  have s2 : (((h.newEdge a).1.newEdge b).1.newEdge c).2 = h.nE + 2 := by rw [Mesh.newEdge_snd, Mesh.newEdge_nE, Mesh.newEdge_nE]
  simp only [s1, s2, Mesh.newEdge_snd, hg]
  have hends : List.Forall₂ (Ends g) [h.nE, h.nE + 1, h.nE + 2] (Spec.sidesOf a b c) :=
    .cons ⟨startCo_eq (p := h.nE + 2) (by rw [g0]) (by rw [g2]), endCo_eq (by rw [g0])⟩ <|
      .cons ⟨startCo_eq (p := h.nE) (by rw [g1]) (by rw [g0]), endCo_eq (by rw [g1])⟩ <|
        .cons ⟨startCo_eq (p := h.nE + 1) (by rw [g2]) (by rw [g1]), endCo_eq (by rw [g2])⟩ .nil
  have hF' : List.Forall₂ (fun f t => BFace g f t.1 t.2.1 t.2.2) F T := hF.imp fun f t H => H.keeps hk
  obtain ⟨r, er, hr⟩ := clashes_spec htol hends hF'
  rw [hk.co] at hr
  rw [er, R_bind_ok]
  cases r with
  | true => exact ⟨g, F, T, rfl, hk, hF', Or.inl ⟨rfl, rfl, fun _ => hr.mp rfl⟩⟩
  | false =>
    obtain ⟨h', e1, e2, e3, -, e5, -, e7, e8, e9, e10, e11⟩ := Mesh.makeFace3 g (a := h.nE) (b := h.nE + 1) (c := h.nE + 2) (by omega) (by omega) (by omega)
    have hk2 : Keeps h h' := by
      refine ⟨fun e he => ?_, fun f hf => ?_, by rw [e3, hk.co], by rw [e5, nE]; omega, by rw [e7, nF]; omega⟩
      · rw [e11 e (by omega) (by omega) (by omega), hk.he e he]
      · rw [e2, Function.update_of_ne (by omega), hk.fe f hf]
    have hnew : BFace h' g.nF a b c := by
      refine ⟨by omega, h.nE, by rw [e2, Function.update_self], by omega, ?_, ?_, ?_⟩
      · rw [e8, g0]
      · rw [e9, g1]
      · rw [e10, g2]
    refine ⟨h', F ++ [g.nF], T ++ [(a, b, c)], ?_, hk2, ?_, Or.inr ⟨g.nF, rfl, rfl, hdel, ?_⟩⟩
    · rw [if_neg (by simp), e1, R_bind_ok]
      rfl
    · exact List.rel_append (hF.imp fun f t H => H.keeps hk2) (.cons hnew .nil)
    · intro t ht
      have := mt hr.mpr (by simp)
      push Not at this
      exact this t ht

/-! ## The loops -/

theorem forLt_grow {S : Type} (I : S → Prop) (le : S → S → Prop) (hrefl : ∀ s, le s s) (htrans : ∀ s s' s'', le s s' → le s' s'' → le s s'')
    (Q : ℕ → S → Prop) (mono : ∀ i s s', I s → le s s' → Q i s → Q i s') {body : ℕ → S → R S} {a b : ℕ}
    (hb : ∀ i s, a ≤ i → i < b → I s → ∃ s', body i s = .ok s' ∧ I s' ∧ le s s' ∧ Q i s') {s : S} (hs : I s) :
    ∃ s', forLt a b body s = .ok s' ∧ I s' ∧ le s s' ∧ ∀ i, a ≤ i → i < b → Q i s' := by
  by_cases hab : a ≤ b
  · obtain ⟨s', e, h1, h2, h3⟩ := forLt_inv (fun j s' => I s' ∧ le s s' ∧ ∀ i, a ≤ i → i < j → Q i s') hab
      ⟨hs, hrefl s, fun i h1 h2 => by omega⟩ (by
        rintro i s₁ h1 h2 ⟨i1, i2, i3⟩
        obtain ⟨s₂, e, j1, j2, j3⟩ := hb i s₁ h1 h2 i1
        refine ⟨s₂, e, j1, htrans _ _ _ i2 j2, ?_⟩
        intro k k1 k2
        by_cases hk : k = i
        · exact hk ▸ j3
        · exact mono k s₁ s₂ i1 j2 (i3 k k1 (by omega)))
    exact ⟨s', e, h1, h2, h3⟩
  · refine ⟨s, ?_, hs, hrefl s, fun i h1 h2 => by omega⟩
    unfold forLt
    rw [show b - a = 0 by omega]
    rfl

theorem exists_of_forall₂ {α β : Type} {r : α → β → Prop} {l : List α} {m : List β} (h : List.Forall₂ r l m) {y : β} (hy : y ∈ m) : ∃ x ∈ l, r x y := by
  induction h with
  | nil => simp at hy
  | cons hr _ ih =>
    rcases List.mem_cons.mp hy with rfl | hy
    · exact ⟨_, List.mem_cons_self, hr⟩
    · obtain ⟨x, hx, hxy⟩ := ih hy
      exact ⟨x, List.mem_cons_of_mem _ hx, hxy⟩

/-- What holds at all times: the faces are Delaunay triangles of the vertices, all different, whose sides do not cross. -/
def Inv (tol : K) (h : Mesh (K × K)) (vs : List ℕ) (s : Mesh (K × K) × List ℕ) : Prop :=
  s.1.co = h.co ∧ ∃ T : List (ℕ × ℕ × ℕ), List.Forall₂ (fun f t => BFace s.1 f t.1 t.2.1 t.2.2) s.2 T ∧
    (∀ t ∈ T, t.1 ∈ vs ∧ t.2.1 ∈ vs ∧ t.2.2 ∈ vs ∧ Spec.IsDelaunay (vs.map h.co) (h.co t.1) (h.co t.2.1) (h.co t.2.2)) ∧
    T.Pairwise fun t t' => ¬ [t'.1, t'.2.1, t'.2.2].Perm [t.1, t.2.1, t.2.2] ∧ ¬ Spec.TrianglesCross tol h.co t'.1 t'.2.1 t'.2.2 t.1 t.2.1 t.2.2

/-- A face for the triangle. -/
def Has (s : Mesh (K × K) × List ℕ) (a b c : ℕ) : Prop := ∃ f ∈ s.2, ∃ x y z, BFace s.1 f x y z ∧ [a, b, c].Perm [x, y, z]

def Grows (s s' : Mesh (K × K) × List ℕ) : Prop := Keeps s.1 s'.1 ∧ s.2 ⊆ s'.2

theorem Has.mono {s s' : Mesh (K × K) × List ℕ} (g : Grows s s') {a b c : ℕ} (H : Has s a b c) : Has s' a b c := by
  obtain ⟨f, hf, x, y, z, h1, h2⟩ := H
  exact ⟨f, g.2 hf, x, y, z, h1.keeps g.1, h2⟩

/-- The triangle crosses no Delaunay triangle. -/
def Free (tol : K) (h : Mesh (K × K)) (vs : List ℕ) (a b c : ℕ) : Prop :=
  ∀ x ∈ vs, ∀ y ∈ vs, ∀ z ∈ vs, Spec.IsDelaunay (vs.map h.co) (h.co x) (h.co y) (h.co z) → ¬ Spec.TrianglesCross tol h.co a b c x y z

theorem tryTriangle_inv {tol : K} (htol : 0 < tol) {h : Mesh (K × K)} {vs : List ℕ} {a b c : ℕ} (ha : a ∈ vs) (hb : b ∈ vs) (hc : c ∈ vs)
    {s : Mesh (K × K) × List ℕ} (H : Inv tol h vs s) : ∃ s', Mesh.tryTriangle tol vs a b c s = .ok s' ∧ Inv tol h vs s' ∧ Grows s s' ∧
      (Spec.IsDelaunay (vs.map h.co) (h.co a) (h.co b) (h.co c) → Free tol h vs a b c → Has s' a b c) := by
  obtain ⟨hco, T, hF, hT, hP⟩ := H
  obtain ⟨h', F', T', e, hk, hF', hcase⟩ := tryTriangle_spec htol vs a b c (h := s.1) (F := s.2) hF
  rw [hco] at hcase
  refine ⟨(h', F'), e, ?_⟩
  have hco' : h'.co = h.co := by rw [hk.co, hco]
  rcases hcase with ⟨rfl, rfl, hcl⟩ | ⟨f, rfl, rfl, hdel, hno⟩
  · refine ⟨⟨hco', T', hF', hT, hP⟩, ⟨hk, List.Subset.refl _⟩, ?_⟩
    intro hd hfree
    obtain ⟨t, ht, hp | hx⟩ := hcl hd
    · obtain ⟨f, hf, hb⟩ := exists_of_forall₂ hF' ht
      exact ⟨f, hf, _, _, _, hb, hp⟩
    · obtain ⟨m1, m2, m3, m4⟩ := hT t ht
      exact absurd hx (hfree _ m1 _ m2 _ m3 m4)
  · refine ⟨⟨hco', _, hF', ?_, ?_⟩, ⟨hk, List.subset_append_left _ _⟩, ?_⟩
    · intro t ht
      rcases List.mem_append.mp ht with ht | ht
      · exact hT t ht
      · obtain rfl := List.mem_singleton.mp ht
        exact ⟨ha, hb, hc, hdel⟩
    · rw [List.pairwise_append]
      refine ⟨hP, List.pairwise_singleton _ _, ?_⟩
      intro t ht t' ht'
      obtain rfl := List.mem_singleton.mp ht'
      exact hno t ht
    · intro _ _
      obtain ⟨f', hf', hb'⟩ := exists_of_forall₂ hF' (show (a, b, c) ∈ T ++ [(a, b, c)] by simp)
      exact ⟨f', hf', _, _, _, hb', List.Perm.refl _⟩

theorem baseDelaunay_inv {tol : K} (htol : 0 < tol) (h : Mesh (K × K)) (vs : List ℕ) : ∃ s', Mesh.baseDelaunay tol h vs = .ok s' ∧ Inv tol h vs s' ∧ Grows (h, []) s' ∧
    ∀ i j k (hi : i < vs.length) (hj : j < k) (hk : k < vs.length), Spec.IsDelaunay (vs.map h.co) (h.co vs[i]) (h.co vs[j]) (h.co vs[k]) →
      Free tol h vs vs[i] vs[j] vs[k] → Has s' vs[i] vs[j] vs[k] := by
  have gr : ∀ s : Mesh (K × K) × List ℕ, Grows s s := fun s => ⟨Keeps.refl _, List.Subset.refl _⟩
  have gt : ∀ s s' s'' : Mesh (K × K) × List ℕ, Grows s s' → Grows s' s'' → Grows s s'' := fun s s' s'' h1 h2 => ⟨h1.1.trans h2.1, List.Subset.trans h1.2 h2.2⟩
  have h0 : Inv tol h vs (h, []) := ⟨rfl, [], .nil, by simp, List.Pairwise.nil⟩
  obtain ⟨s', e, h1, h2, h3⟩ := forLt_grow (Inv tol h vs) Grows gr gt
    (fun i s => ∀ j k (hi : i < vs.length) (hj : j < k) (hk : k < vs.length), Spec.IsDelaunay (vs.map h.co) (h.co vs[i]) (h.co vs[j]) (h.co vs[k]) →
      Free tol h vs vs[i] vs[j] vs[k] → Has s vs[i] vs[j] vs[k])
    (fun i s s' _ hg H j k hi hj hk hd hf => (H j k hi hj hk hd hf).mono hg)
    (body := fun i s => do
      let a ← rd vs i
      forLt 0 vs.length (fun j s => do
        let b ← rd vs j
        forLt (j + 1) vs.length (fun k s => do
          let c ← rd vs k
          Mesh.tryTriangle tol vs a b c s) s) s) (a := 0) (b := vs.length) (by
      intro i s _ hi hs
      rw [rd_ok hi, R_bind_ok]
      obtain ⟨s', e, h1, h2, h3⟩ := forLt_grow (Inv tol h vs) Grows gr gt
        (fun j s => ∀ k (hj : j < k) (hk : k < vs.length), Spec.IsDelaunay (vs.map h.co) (h.co vs[i]) (h.co vs[j]) (h.co vs[k]) →
          Free tol h vs vs[i] vs[j] vs[k] → Has s vs[i] vs[j] vs[k])
        (fun j s s' _ hg H k hj hk hd hf => (H k hj hk hd hf).mono hg)
        (body := fun j s => do
          let b ← rd vs j
          forLt (j + 1) vs.length (fun k s => do
            let c ← rd vs k
            Mesh.tryTriangle tol vs vs[i] b c s) s) (a := 0) (b := vs.length) (by
          intro j s _ hj hs
          rw [rd_ok hj, R_bind_ok]
          obtain ⟨s', e, h1, h2, h3⟩ := forLt_grow (Inv tol h vs) Grows gr gt
            (fun k s => ∀ hk : k < vs.length, Spec.IsDelaunay (vs.map h.co) (h.co vs[i]) (h.co vs[j]) (h.co vs[k]) →
              Free tol h vs vs[i] vs[j] vs[k] → Has s vs[i] vs[j] vs[k])
            (fun k s s' _ hg H hk hd hf => (H hk hd hf).mono hg)
            (body := fun k s => do
              let c ← rd vs k
              Mesh.tryTriangle tol vs vs[i] vs[j] c s) (a := j + 1) (b := vs.length) (by
              intro k s _ hk hs
              rw [rd_ok hk, R_bind_ok]
              obtain ⟨s', e, h1, h2, h3⟩ := tryTriangle_inv htol (List.getElem_mem hi) (List.getElem_mem hj) (List.getElem_mem hk) hs
              exact ⟨s', e, h1, h2, fun _ => h3⟩) hs
          exact ⟨s', e, h1, h2, fun k hj hk => h3 k (by omega) hk hk⟩) hs
      exact ⟨s', e, h1, h2, fun j k _ hj hk => h3 j (by omega) (by omega) k hj hk⟩) h0
  exact ⟨s', e, h1, h2, fun i j k hi hj hk => h3 i (by omega) hi j k hi hj hk⟩

/-! ## The property -/

/-- C116. Whatever the vertices, the faces that are made are counter-clockwise triangles of these vertices with an empty circle; no two of them have
the same vertices or sides that cross, as far as the tolerance tells. -/
theorem C116_faces {tol : K} (htol : 0 < tol) (h : Mesh (K × K)) (vs : List ℕ) : ∃ h' F, Mesh.baseDelaunay tol h vs = .ok (h', F) ∧ h'.co = h.co ∧
    (∀ e < h.nE, h'.he e = h.he e) ∧ (∀ f < h.nF, h'.fe f = h.fe f) ∧
    (∀ f ∈ F, ∃ a ∈ vs, ∃ b ∈ vs, ∃ c ∈ vs, Spec.FaceOf h' f a b c ∧ Spec.IsDelaunay (vs.map h.co) (h.co a) (h.co b) (h.co c)) ∧
    F.Pairwise fun f g => ∀ a b c a' b' c', Spec.FaceOf h' f a b c → Spec.FaceOf h' g a' b' c' →
      ¬ [a', b', c'].Perm [a, b, c] ∧ ¬ Spec.TrianglesCross tol h.co a' b' c' a b c := by
  obtain ⟨⟨h', F⟩, e, ⟨hco, T, hF, hT, hP⟩, hg, -⟩ := baseDelaunay_inv htol h vs
  refine ⟨h', F, e, hco, hg.1.he, hg.1.fe, ?_, ?_⟩
  · intro f hf
    obtain ⟨t, ht, hb⟩ := exists_of_forall₂ hF.flip hf
    obtain ⟨m1, m2, m3, m4⟩ := hT t ht
    exact ⟨_, m1, _, m2, _, m3, BFace.faceOf hb, m4⟩
  · rw [List.pairwise_iff_getElem] at hP ⊢
    intro i j hi hj hij a b c a' b' c' H H'
    have hl := hF.length_eq
    have e1 := (List.forall₂_iff_get.mp hF).2 i hi (by simpa [← hl] using hi)
    have e2 := (List.forall₂_iff_get.mp hF).2 j hj (by simpa [← hl] using hj)
    simp only [List.get_eq_getElem] at e1 e2
    obtain ⟨rfl, rfl, rfl⟩ := faceOf_unique e1.faceOf H
    obtain ⟨rfl, rfl, rfl⟩ := faceOf_unique e2.faceOf H'
    exact hP i j _ _ hij

/-- The two orders in which a triangle is counter-clockwise are rotations of each other. -/
theorem perm_ccw {co : ℕ → K × K} {a b c x y z : ℕ} (hp : [a, b, c].Perm [x, y, z]) (h1 : 0 < orient2d (co a) (co b) (co c))
    (h2 : 0 < orient2d (co x) (co y) (co z)) : (x = a ∧ y = b ∧ z = c) ∨ (x = b ∧ y = c ∧ z = a) ∨ (x = c ∧ y = a ∧ z = b) := by
  obtain ⟨i1, i2, i3⟩ := orient_ids h1
  obtain ⟨j1, j2, j3⟩ := orient_ids h2
  have hx : x ∈ [a, b, c] := hp.mem_iff.mpr (by simp)
  have hy : y ∈ [a, b, c] := hp.mem_iff.mpr (by simp)
  have hz : z ∈ [a, b, c] := hp.mem_iff.mpr (by simp)
  simp only [List.mem_cons, List.not_mem_nil, or_false] at hx hy hz
  have flip1 : orient2d (co a) (co c) (co b) = -orient2d (co a) (co b) (co c) := by unfold orient2d; ring
  have flip2 : orient2d (co c) (co b) (co a) = -orient2d (co a) (co b) (co c) := by unfold orient2d; ring
  have flip3 : orient2d (co b) (co a) (co c) = -orient2d (co a) (co b) (co c) := by unfold orient2d; ring
  rcases hx with rfl | rfl | rfl <;> rcases hy with rfl | rfl | rfl <;> rcases hz with rfl | rfl | rfl <;> first
    | exact absurd rfl j1
    | exact absurd rfl j2
    | exact absurd rfl j3
    | exact Or.inl ⟨rfl, rfl, rfl⟩
    | exact Or.inr (Or.inl ⟨rfl, rfl, rfl⟩)
    | exact Or.inr (Or.inr ⟨rfl, rfl, rfl⟩)
    | (exfalso; linarith)

theorem isDelaunay_rot {pts : List (K × K)} {a b c : K × K} (H : Spec.IsDelaunay pts a b c) : Spec.IsDelaunay pts b c a := by
  refine ⟨?_, ?_⟩
  · have : orient2d b c a = orient2d a b c := by unfold orient2d; ring
    rw [this]; exact H.1
  · intro o h1 h2 d hd
    rw [h2]
    exact H.2 o h2.symm (h2.symm.trans h1) d hd

/-- C116. If no four of the vertices are on one circle, all their counter-clockwise triangles with an empty circle are faces. -/
theorem C116_complete {tol : K} (htol : 0 < tol) (h : Mesh (K × K)) (vs : List ℕ) (G : Spec.GeneralPosition h.co vs) :
    ∃ h' F, Mesh.baseDelaunay tol h vs = .ok (h', F) ∧ ∀ a ∈ vs, ∀ b ∈ vs, ∀ c ∈ vs, Spec.IsDelaunay (vs.map h.co) (h.co a) (h.co b) (h.co c) →
      ∃ f ∈ F, Spec.FaceOf h' f a b c ∨ Spec.FaceOf h' f b c a ∨ Spec.FaceOf h' f c a b := by
  obtain ⟨⟨h', F⟩, e, ⟨hco, T, hF, hT, hP⟩, hg, hall⟩ := baseDelaunay_inv htol h vs
  refine ⟨h', F, e, ?_⟩
  have key : ∀ i j k (hi : i < vs.length) (hj : j < k) (hk : k < vs.length), Spec.IsDelaunay (vs.map h.co) (h.co vs[i]) (h.co vs[j]) (h.co vs[k]) →
      ∃ f ∈ F, Spec.FaceOf h' f vs[i] vs[j] vs[k] ∨ Spec.FaceOf h' f vs[j] vs[k] vs[i] ∨ Spec.FaceOf h' f vs[k] vs[i] vs[j] := by
    intro i j k hi hj hk hd
    obtain ⟨f, hf, x, y, z, hb, hp⟩ := hall i j k hi hj hk hd (fun x hx y hy z hz hd' =>
      delaunay_no_cross G htol (List.getElem_mem hi) (List.getElem_mem _) (List.getElem_mem hk) hx hy hz hd hd')
    obtain ⟨t, ht, hb'⟩ := exists_of_forall₂ hF.flip hf
    obtain ⟨rfl, rfl, rfl⟩ := faceOf_unique (BFace.faceOf hb') hb.faceOf
    obtain ⟨-, -, -, m4⟩ := hT t ht
    refine ⟨f, hf, ?_⟩
    have hfc := hb.faceOf
    rcases perm_ccw hp hd.1 m4.1 with ⟨e1, e2, e3⟩ | ⟨e1, e2, e3⟩ | ⟨e1, e2, e3⟩ <;> rw [e1, e2, e3] at hfc
    · exact Or.inl hfc
    · exact Or.inr (Or.inl hfc)
    · exact Or.inr (Or.inr hfc)
  intro a ha b hb c hc hd
  obtain ⟨i1, i2, i3⟩ := orient_ids hd.1
  obtain ⟨i, hi, rfl⟩ := List.getElem_of_mem ha
  obtain ⟨j, hj, rfl⟩ := List.getElem_of_mem hb
  obtain ⟨k, hk, rfl⟩ := List.getElem_of_mem hc
  have n1 : i ≠ j := by rintro rfl; exact absurd rfl (by first | exact i1 | exact i2 | exact i3)
  have n2 : j ≠ k := by rintro rfl; exact absurd rfl (by first | exact i1 | exact i2 | exact i3)
  have n3 : k ≠ i := by rintro rfl; exact absurd rfl (by first | exact i1 | exact i2 | exact i3)
  by_cases c1 : j < k
  · exact key i j k hi c1 hk hd
  by_cases c2 : k < i
  · obtain ⟨f, hf, H⟩ := key j k i hj c2 hi (isDelaunay_rot hd)
    exact ⟨f, hf, by tauto⟩
  · obtain ⟨f, hf, H⟩ := key k i j hk (by omega) hj (isDelaunay_rot (isDelaunay_rot hd))
    exact ⟨f, hf, by tauto⟩

/-! ## Examples -/

namespace Sample

/-- A store with the vertices 0 .. n - 1 at the given points and nothing else. -/
def ptsMesh (l : List (ℚ × ℚ)) : Mesh (ℚ × ℚ) :=
  { he := fun _ => ⟨none, none, none, none, none⟩, co := fun i => l.getD i 0, ve := fun _ => none, fe := fun _ => none, nE := 0, nV := l.length, nF := 0 }

/-- The triangles of the faces. -/
def baseFaces (tol : ℚ) (l : List (ℚ × ℚ)) : List (List ℕ) :=
  match Mesh.baseDelaunay tol (ptsMesh l) (List.range l.length) with
  | .ok (h, F) => F.map fun f => ((h.getFaceVertices f).toOption.getD []).map (·.getD 0)
  | .error _ => []

/-- Two triangles for the unit square, out of the four with an empty circle. -/
example : baseFaces (1 / 10 ^ 10) [(0, 0), (1, 0), (1, 1), (0, 1)] = [[0, 1, 2], [0, 2, 3]] := by decide +kernel

/-- Four triangles around the point that is inside. -/
example : baseFaces (1 / 10 ^ 10) [(0, 0), (4, 0), (5, 3), (1, 4), (2, 1)] = [[0, 1, 4], [1, 2, 4], [2, 3, 4], [3, 0, 4]] := by decide +kernel

/-- Three points and one inside: no four are on one circle. -/
def four : List (ℚ × ℚ) := [(0, 0), (4, 0), (1, 3), (2, 1)]

theorem four_general : Spec.GeneralPosition (ptsMesh four).co [0, 1, 2, 3] := by
  constructor
  intro a ha b hb c hc d hd hn o h1 h2 h3
  simp only [List.mem_cons, List.not_mem_nil, or_false] at ha hb hc hd
  rcases ha with rfl | rfl | rfl | rfl <;> rcases hb with rfl | rfl | rfl | rfl <;> first
    | exact absurd hn (by decide)
    | (rcases hc with rfl | rfl | rfl | rfl <;> first
        | exact absurd hn (by decide)
        | (rcases hd with rfl | rfl | rfl | rfl <;> first
            | exact absurd hn (by decide)
            | (simp [Spec.dist2, ptsMesh, four] at h1 h2 h3; linarith)))

example : ∃ h' F, Mesh.baseDelaunay (1 / 10 ^ 10) (ptsMesh four) [0, 1, 2, 3] = .ok (h', F) ∧
    ∃ f ∈ F, Spec.FaceOf h' f 0 1 3 ∨ Spec.FaceOf h' f 1 3 0 ∨ Spec.FaceOf h' f 3 0 1 := by
  obtain ⟨h', F, e, H⟩ := C116_complete (tol := (1 / 10 ^ 10 : ℚ)) (by norm_num) (ptsMesh four) [0, 1, 2, 3] four_general
  have ho : 0 < orient2d ((ptsMesh four).co 0) ((ptsMesh four).co 1) ((ptsMesh four).co 3) := by decide +kernel
  refine ⟨h', F, e, H 0 (by simp) 1 (by simp) 3 (by simp) ⟨ho, (emptyCircle_iff ho _).mpr ?_⟩⟩
  decide +kernel

/-- C116, against "the triangles do not overlap": for a square of side `1e-6` and the tolerance `1e-10` of the code, the crossing of the diagonals is not
seen, and the four triangles are made; the centre of the first two is inside both. -/
theorem _root_.Gbs.C116_witness : ∃ (l : List (ℚ × ℚ)) (p : ℚ × ℚ),
    baseFaces (1 / 10 ^ 10) l = [[0, 1, 2], [0, 1, 3], [0, 2, 3], [1, 2, 3]] ∧
    (0 < orient2d (l.getD 0 0) (l.getD 1 0) p ∧ 0 < orient2d (l.getD 1 0) (l.getD 2 0) p ∧ 0 < orient2d (l.getD 2 0) (l.getD 0 0) p) ∧
    (0 < orient2d (l.getD 0 0) (l.getD 1 0) p ∧ 0 < orient2d (l.getD 1 0) (l.getD 3 0) p ∧ 0 < orient2d (l.getD 3 0) (l.getD 0 0) p) :=
  ⟨[(0, 0), (1 / 10 ^ 6, 0), (1 / 10 ^ 6, 1 / 10 ^ 6), (0, 1 / 10 ^ 6)], (1 / (2 * 10 ^ 6), 1 / (4 * 10 ^ 6)), by decide +kernel, by decide +kernel, by decide +kernel⟩

end Sample

end Gbs
