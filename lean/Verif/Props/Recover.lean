import Verif.Props.MeshFaces
import Verif.Props.MeshGeom
import Verif.Props.Insert

/-!
# C68: recovery of edges
-/

namespace Gbs

variable {K : Type} [Field K] [LinearOrder K] [IsStrictOrderedRing K] {h : Mesh (K × K)} {F : List ℕ}

/-- The vertex designates a half-edge of a face that ends at it. -/
def Spec.Linked {P : Type} (h : Mesh P) (F : List ℕ) (v : ℕ) : Prop := ∃ s, h.ve v = some s ∧ Spec.Live h F s ∧ (h.he s).vertex = some v

theorem Spec.Ccw.noLoop (H : Spec.Valid h F) (hw : Spec.Ccw h F) : Spec.NoLoop h F := by
  rintro e ⟨f, hf, hef⟩ hh
  obtain ⟨b, c, t⟩ := H.triAt hf hef
  have h1 := hw f hf
  rw [H.faceArea2 hf t] at h1
  rw [t.start] at hh
  have : Spec.endPt h c = Spec.endPt h e := by simp only [Spec.endPt, hh]
  rw [this] at h1
  unfold Spec.area2 at h1
  nlinarith

theorem segSegStrict_ok {tol : K} (ht : 0 < tol) (a b c d : K × K) : ∃ x, segSegStrict tol a b c d = .ok x := by
  unfold segSegStrict
  simp only
  split_ifs with hc
  · exact ⟨_, rfl⟩
  · push Not at hc
    have hd : -(d.1 - c.1) * (b.2 - a.2) + (b.1 - a.1) * (d.2 - c.2) ≠ 0 := by
      intro h0
      have := hc.1
      rw [h0, abs_zero] at this
      linarith
    unfold fdiv
    rw [if_neg hd, if_neg hd]
    exact ⟨_, rfl⟩

theorem Spec.Valid.startV {P : Type} {h : Mesh P} (H : Spec.Valid h F) {e : ℕ} (he : Spec.Live h F e) : h.startV e = .ok (Spec.start h e) := by
  obtain ⟨f, hf, hef⟩ := he
  obtain ⟨b, c, t⟩ := H.triAt hf hef
  exact startV_eq (by rw [t.pa]; simp)

theorem crossEdge_ok (H : Spec.Valid h F) {tol : K} (ht : 0 < tol) {vp : ℕ} {p q : K × K} : ∀ es : List ℕ, (∀ e ∈ es, Spec.Live h F e) →
    ∃ r, h.crossEdge tol vp p q es = .ok r ∧ ∀ e, r = some e → Spec.Live h F e
  | [], _ => ⟨none, rfl, by simp⟩
  | e :: es, hes => by
    obtain ⟨r, h1, h2⟩ := crossEdge_ok H ht (vp := vp) (p := p) (q := q) es fun x hx => hes x (by simp [hx])
    have he := hes e (by simp)
    rw [Mesh.crossEdge]
    split_ifs with hc
    · exact ⟨r, h1, h2⟩
    · rw [H.startV he, R_bind_ok]
      split_ifs with hc'
      · exact ⟨r, h1, h2⟩
      · obtain ⟨x, hx⟩ := segSegStrict_ok ht p q (Spec.startPt h e) (Spec.endPt h e)
        rw [H.startCo he, R_bind_ok, H.endCo he, R_bind_ok, hx, R_bind_ok]
        cases x
        · exact ⟨r, h1, h2⟩
        · exact ⟨some e, rfl, fun y hy => by cases hy; exact he⟩

theorem crossFace_ok (H : Spec.Valid h F) {tol : K} (ht : 0 < tol) {vp : ℕ} {p q : K × K} : ∀ es : List ℕ, (∀ e ∈ es, Spec.Live h F e) →
    ∃ r, h.crossFace tol vp p q (es.map fun e => (h.he e).face) = .ok r ∧ ∀ e, r = some e → Spec.Live h F e
  | [], _ => ⟨none, rfl, by simp⟩
  | e :: es, hes => by
    obtain ⟨r, h1, h2⟩ := crossFace_ok H ht (vp := vp) (p := p) (q := q) es fun x hx => hes x (by simp [hx])
    obtain ⟨f, hf, hef⟩ := hes e (by simp)
    obtain ⟨a, b, c, t, hfe⟩ := H.tri hf
    obtain ⟨r', k1, k2⟩ := crossEdge_ok H ht (vp := vp) (p := p) (q := q) [b, a, c] (by
      intro x hx
      simp at hx
      rcases hx with rfl | rfl | rfl
      exacts [⟨f, hf, t.fb⟩, ⟨f, hf, t.fa⟩, ⟨f, hf, t.fc⟩])
    have htri : h.getTriangleEdges f = .ok [b, a, c] := by
      unfold Mesh.getTriangleEdges
      rw [hfe, deref_some, R_bind_ok, t.na, deref_some, R_bind_ok, t.pa, deref_some, R_bind_ok]; rfl
    rw [List.map_cons, Mesh.crossFace, hef, deref_some, R_bind_ok, htri, R_bind_ok, k1, R_bind_ok]
    cases r' with
    | none => exact ⟨r, h1, h2⟩
    | some x => exact ⟨some x, rfl, k2⟩

theorem walkCross_ok (H : Spec.Valid h F) {tol : K} (ht : 0 < tol) {vq : ℕ} {p q : K × K} : ∀ (k e : ℕ) (l : List ℕ), (∀ x ∈ e :: l, Spec.Live h F x) →
    ∃ r, h.walkCross tol vq p q k e l = .ok r ∧ ∀ l', r = some l' → l' ≠ [] ∧ ∀ x ∈ l', Spec.Live h F x
  | 0, e, l, hl => ⟨some (e :: l), rfl, fun l' hl' => by cases hl'; exact ⟨by simp, hl⟩⟩
  | k + 1, e, l, hl => by
    rw [Mesh.walkCross]
    rcases ho : (h.he e).opp with _ | o
    · exact ⟨none, rfl, by simp⟩
    · obtain ⟨⟨f, hf, hof⟩, -, -⟩ := H.opp e o (hl e (by simp)) ho
      obtain ⟨n, r, t⟩ := H.triAt hf hof
      simp only
      rw [t.na, deref_some, R_bind_ok]
      split_ifs with hc
      · exact ⟨some (e :: l), rfl, fun l' hl' => by cases hl'; exact ⟨by simp, hl⟩⟩
      · have hln : Spec.Live h F n := ⟨f, hf, t.fb⟩
        have hlr : Spec.Live h F r := ⟨f, hf, t.fc⟩
        obtain ⟨x, hx⟩ := segSegStrict_ok ht p q (Spec.startPt h n) (Spec.endPt h n)
        obtain ⟨y, hy⟩ := segSegStrict_ok ht p q (Spec.startPt h r) (Spec.endPt h r)
        rw [t.pa, deref_some, R_bind_ok, H.startCo hln, R_bind_ok, H.endCo hln, R_bind_ok, H.startCo hlr, R_bind_ok, H.endCo hlr, R_bind_ok, hx, R_bind_ok]
        cases x
        · simp only [Bool.false_eq_true, if_false]
          rw [hy, R_bind_ok]
          cases y
          · exact ⟨none, rfl, by simp⟩
          · exact walkCross_ok H ht k r (e :: l) fun x hx => by
              rcases List.mem_cons.mp hx with rfl | hx
              exacts [hlr, hl x hx]
        · exact walkCross_ok H ht k n (e :: l) fun x hx => by
            rcases List.mem_cons.mp hx with rfl | hx
            exacts [hln, hl x hx]

/-- The test of the code rejects every pair of counter-clockwise triangles. -/
theorem convexTest_fails {A B C D : K × K} (h1 : 0 < Spec.area2 A B C) (h2 : 0 < Spec.area2 B A D) {tol : K} (ht : 0 < tol) :
    orient2d C B D ≤ tol ∨ orient2d D A C ≤ tol := by
  by_contra hh
  push Not at hh
  rw [orient2d_eq, orient2d_eq] at hh
  have : Spec.area2 C B D + Spec.area2 D A C = -(Spec.area2 A B C + Spec.area2 B A D) := by unfold Spec.area2; ring
  linarith [hh.1, hh.2]

theorem recoverPass_idle (H : Spec.Valid h F) (hw : Spec.Ccw h F) {tol : K} (ht : 0 < tol) {vp vq : ℕ} {p q : K × K} :
    ∀ (l : List ℕ) (r : Option ℕ), (∀ x ∈ l, Spec.Live h F x) → ∃ rem, Mesh.recoverPass tol vp vq p q l h r = .ok (h, rem, r, false)
  | [], r, _ => ⟨[], rfl⟩
  | e :: l, r, hl => by
    obtain ⟨rem, h1⟩ := recoverPass_idle H hw ht (vp := vp) (vq := vq) (p := p) (q := q) l r fun x hx => hl x (by simp [hx])
    rw [Mesh.recoverPass]
    have he := hl e (by simp)
    rcases ho : (h.he e).opp with _ | o
    · exact ⟨rem, h1⟩
    · obtain ⟨⟨g, hg, hog⟩, -, -⟩ := H.opp e o he ho
      obtain ⟨e1, e2⟩ := H.opp_pts he ho
      obtain ⟨n', r', t'⟩ := H.triAt hg hog
      obtain ⟨f, hf, hef⟩ := he
      have he : Spec.Live h F e := ⟨f, hf, hef⟩
      obtain ⟨n, c, t⟩ := H.triAt hf hef
      have a1 := hw f hf
      rw [H.faceArea2 hf t] at a1
      have a2 := hw g hg
      rw [H.faceArea2 hg t'] at a2
      have key := convexTest_fails (A := Spec.startPt h e) (B := Spec.endPt h e) (C := Spec.endPt h n) (D := Spec.endPt h n')
        (by rw [t.startPt, ← area2_rotate]; exact a1)
        (by rw [← e1, ← e2, t'.startPt, ← area2_rotate]; exact a2) ht
      simp only
      rw [H.startCo he, R_bind_ok, H.endCo he, R_bind_ok, t.na, deref_some, R_bind_ok, H.endCo ⟨f, hf, t.fb⟩, R_bind_ok, t'.na, deref_some, R_bind_ok,
        H.endCo ⟨g, hg, t'.fb⟩, R_bind_ok, if_pos key, h1, R_bind_ok]
      exact ⟨e :: rem, rfl⟩

/-- C68 (negation): on a valid mesh of counter-clockwise triangles `recoverEdge` never changes the mesh, so that it only returns half-edges that were
already there: an edge that is missing is never recovered. -/
theorem C68_never_recovers (H : Spec.Valid h F) (hw : Spec.Ccw h F) {tol : K} (ht : 0 < tol) {vp vq : ℕ} (hp : Spec.Linked h F vp) (hq : Spec.Linked h F vq) :
    ∃ r, h.recoverEdge tol vp vq = .ok (h, r) ∧ ∀ n, r = some n → Spec.Live h F n ∧ Spec.start h n = some vp ∧ (h.he n).vertex = some vq := by
  unfold Mesh.recoverEdge
  split_ifs with hpq
  · exact ⟨none, rfl, by simp⟩
  obtain ⟨sp, p1, p2, p3⟩ := hp
  obtain ⟨sq, q1, q2, q3⟩ := hq
  have hn := Spec.Ccw.noLoop H hw
  obtain ⟨r, r1, r2, -⟩ := C73_find H hn p1 p2 p3 vq
  rw [r1, R_bind_ok]
  rcases r with _ | e
  swap
  · exact ⟨some e, rfl, r2⟩
  simp only
  obtain ⟨r, r3, r4, -⟩ := C73_find H hn q1 q2 q3 vp
  rw [r3, R_bind_ok]
  rcases r with _ | e
  swap
  · refine ⟨_, rfl, ?_⟩
    intro n hen
    obtain ⟨k1, k2, k3⟩ := r4 e rfl
    obtain ⟨k4, k5, k6⟩ := H.opp_start k1 hen
    exact ⟨k4, ((H.opp_start k4 k5).2.2).symm.trans k3, k6.trans k2⟩
  simp only
  obtain ⟨es, f1, -, f3, -⟩ := C73_faces H p1 p2
  obtain ⟨x, x1, x2⟩ := crossFace_ok H ht (vp := vp) (p := h.co vp) (q := h.co vq) es fun e he => (f3 e he).1
  rw [f1, R_bind_ok, x1, R_bind_ok]
  rcases x with _ | e
  · exact ⟨none, rfl, by simp⟩
  simp only
  obtain ⟨c, c1, c2⟩ := walkCross_ok H ht (vq := vq) (p := h.co vp) (q := h.co vq) 4096 e [] (by simpa using x2 e rfl)
  rw [c1, R_bind_ok]
  rcases c with _ | l
  · exact ⟨none, rfl, by simp⟩
  simp only
  obtain ⟨l1, l2⟩ := c2 l rfl
  obtain ⟨rem, m1⟩ := recoverPass_idle H hw ht (vp := vp) (vq := vq) (p := h.co vp) (q := h.co vq) l.reverse none fun x hx => l2 x (by simpa using hx)
  rw [Mesh.recoverPasses, if_neg (by simpa using l1), m1, R_bind_ok]
  exact ⟨none, rfl, by simp⟩

/-- C68 (partial): an edge that is in the fan of its first vertex is returned, and the mesh is unchanged. What is missing is the recovery of the other edges,
which the code does not do, see `C68_never_recovers`. -/
theorem C68_present_partial (H : Spec.Valid h F) (hw : Spec.Ccw h F) {tol : K} {vp vq s n e : ℕ} (hpq : vp ≠ vq) (hp : h.ve vp = some s)
    (hs : Spec.Live h F s) (hsv : (h.he s).vertex = some vp) (hn : Spec.Live h F n) (hnv : (h.he n).vertex = some vq) (hne : (h.he n).prev = some e)
    (hfan : Spec.SameFan h F s e) :
    ∃ n', h.recoverEdge tol vp vq = .ok (h, some n') ∧ Spec.Live h F n' ∧ Spec.start h n' = some vp ∧ (h.he n').vertex = some vq := by
  obtain ⟨r, r1, r2, r3⟩ := C73_find H (Spec.Ccw.noLoop H hw) hp hs hsv vq
  unfold Mesh.recoverEdge
  rw [if_neg hpq, r1, R_bind_ok]
  rcases r with _ | n'
  · exact absurd rfl (r3 n e hn hnv hne hfan)
  · exact ⟨n', rfl, r2 n' rfl⟩

/-- The square has a diagonal; the other one is not recovered although it only crosses the diagonal. -/
example : Sample.squareMesh.recoverEdge (1 / 100) 0 3 = .ok (Sample.squareMesh, none) ∧
    segSegStrict (1 / 100 : ℚ) (Sample.squareMesh.co 0) (Sample.squareMesh.co 3) (Sample.squareMesh.co 1) (Sample.squareMesh.co 2) = .ok true := by
  have hl : ∀ v < 4, Spec.Linked Sample.squareMesh [0, 1] v := by
    intro v hv
    refine ⟨(Sample.squareMesh.ve v).getD 0, ?_, ⟨((Sample.squareMesh.he ((Sample.squareMesh.ve v).getD 0)).face).getD 0, ?_, ?_⟩, ?_⟩ <;>
      interval_cases v <;> decide
  obtain ⟨r, h1, h2⟩ := C68_never_recovers Sample.squareMesh_valid Sample.squareMesh_ccw (tol := 1 / 100) (by norm_num) (hl 0 (by norm_num)) (hl 3 (by norm_num))
  refine ⟨?_, by decide +kernel⟩
  rw [h1]
  rcases r with _ | n
  · rfl
  · exfalso
    obtain ⟨⟨f, hf, hn⟩, k2, k3⟩ := h2 n rfl
    have := (Sample.squareMesh_valid.edges n f hn).1
    change n < 6 at this
    interval_cases n <;> revert k2 k3 <;> decide

end Gbs
