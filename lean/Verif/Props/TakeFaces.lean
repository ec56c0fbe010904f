import Verif.Props.MeshRefine
import Verif.Props.Constrained
import Verif.Model.TakeFaces

/-!
# C100: cutting a mesh by a boundary
-/

set_option linter.unusedSectionVars false

namespace Gbs

variable {K : Type} [Field K] [LinearOrder K] [IsStrictOrderedRing K] {h h' : Mesh (K × K)} {F : List ℕ} {f a b c : ℕ}

/-! ## The list -/

theorem findFace_spec {cond : ℕ → R Bool} {Q : ℕ → Bool} : ∀ (F : List ℕ), (∀ f ∈ F, cond f = .ok (Q f)) →
    (Mesh.findFace cond F = .ok none ∧ ∀ f ∈ F, Q f = false) ∨
    ∃ F1 f F2, Mesh.findFace cond F = .ok (some (F1, f, F2)) ∧ F = F1 ++ f :: F2 ∧ Q f = true ∧ ∀ g ∈ F1, Q g = false := by
  intro F
  induction F with
  | nil => exact fun _ => Or.inl ⟨rfl, by simp⟩
  | cons x F ih =>
    intro hc
    unfold Mesh.findFace
    rw [hc x (List.mem_cons_self ..), R_bind_ok]
    by_cases hx : Q x = true
    · rw [if_pos hx]
      exact Or.inr ⟨[], x, F, rfl, rfl, hx, by simp⟩
    · rw [if_neg hx]
      rcases ih fun f hf => hc f (List.mem_cons_of_mem _ hf) with ⟨k1, k2⟩ | ⟨F1, f, F2, k1, k2, k3, k4⟩
      · rw [k1, R_bind_ok]
        refine Or.inl ⟨rfl, ?_⟩
        intro f hf
        rcases List.mem_cons.mp hf with rfl | hf
        exacts [by simpa using hx, k2 f hf]
      · rw [k1, R_bind_ok]
        refine Or.inr ⟨x :: F1, f, F2, rfl, by rw [k2]; rfl, k3, ?_⟩
        intro g hg
        rcases List.mem_cons.mp hg with rfl | hg
        exacts [by simpa using hx, k4 g hg]

/-- The links of the half-edges of the faces that stay: those between two of these faces. -/
def Spec.LinksIn (h h' : Mesh (K × K)) (G : List ℕ) : Prop :=
  ∀ e, Spec.Live h G e → ∀ o, ((h'.he e).opp = some o ↔ (h.he e).opp = some o ∧ Spec.Live h G o)

theorem takeWhere_spec {cond : Mesh (K × K) → ℕ → R Bool} {Q : ℕ → Bool} : ∀ (k : ℕ) (h : Mesh (K × K)) (F taken : List ℕ), F.length < k → Spec.Valid h F →
    (∀ h', SameBut h h' → ∀ f ∈ F, cond h' f = .ok (Q f)) →
    ∃ h', Mesh.takeWhere cond k h F taken = .ok (h', F.filter (fun f => !Q f), taken ++ F.filter Q) ∧ SameBut h h' ∧
      Spec.Valid h' (F.filter fun f => !Q f) ∧ Spec.LinksIn h h' (F.filter fun f => !Q f) := by
  intro k
  induction k with
  | zero => intro h F taken hk; omega
  | succ k ih =>
    intro h F taken hk H hc
    unfold Mesh.takeWhere
    rcases findFace_spec F (hc h (SameBut.refl h)) with ⟨k1, k2⟩ | ⟨F1, f, F2, k1, rfl, k3, k4⟩
    · rw [k1, R_bind_ok]
      have e1 : F.filter (fun f => !Q f) = F := List.filter_eq_self.mpr fun f hf => by rw [k2 f hf]; rfl
      have e2 : F.filter Q = [] := List.filter_eq_nil_iff.mpr fun f hf => by rw [k2 f hf]; simp
      rw [e1, e2, List.append_nil]
      exact ⟨h, rfl, SameBut.refl h, H, fun e he o => ⟨fun ho => ⟨ho, (H.opp_start he ho).1⟩, fun ho => ho.1⟩⟩
    · rw [k1, R_bind_ok]
      dsimp only
      have hfF : f ∈ F1 ++ f :: F2 := by simp
      obtain ⟨a, b, c, t, hfe⟩ := H.tri hfF
      obtain ⟨V1, S1, C1⟩ := H.remove t
      have hlen : (F1 ++ F2).length < k := by simp only [List.length_append, List.length_cons] at hk ⊢; omega
      obtain ⟨h', r1, r2, r3, r4⟩ := ih _ (F1 ++ F2) (taken ++ [f]) hlen V1 fun h' hs g hg => hc h' (S1.trans hs) g (by
        simp only [List.mem_append, List.mem_cons] at hg ⊢; tauto)
      have e1 : (F1 ++ f :: F2).filter (fun f => !Q f) = (F1 ++ F2).filter (fun f => !Q f) := by
        rw [List.filter_append, List.filter_append, List.filter_cons_of_neg (by simp [k3])]
      have e2 : (F1 ++ f :: F2).filter Q = f :: (F1 ++ F2).filter Q := by
        rw [List.filter_append, List.filter_append, List.filter_cons_of_pos k3, List.filter_eq_nil_iff.mpr (fun g hg => by rw [k4 g hg]; simp)]
        rfl
      refine ⟨h', ?_, S1.trans r2, by rw [e1]; exact r3, ?_⟩
      · unfold Mesh.eraseLinks
        rw [H.getFaceEdges t hfe, R_bind_ok]
        show Mesh.takeWhere cond k _ (F1 ++ F2) (taken ++ [f]) = _
        rw [r1, e1, e2, List.append_assoc]
        rfl
      · rw [e1]
        intro e he o
        have hlive : ∀ G e, Spec.Live ([a, b, c].foldl Mesh.unlinkOpp h) G e ↔ Spec.Live h G e := by
          intro G e; unfold Spec.Live; simp only [S1.face]
        have := r4 e ((hlive _ _).mpr he) o
        rw [hlive] at this
        rw [this]
        have hsub : ∀ x, Spec.Live h ((F1 ++ F2).filter fun f => !Q f) x → Spec.Live h (F1 ++ F2) x := by
          rintro x ⟨g, hg, hx⟩
          exact ⟨g, (List.mem_filter.mp hg).1, hx⟩
        have hnf : f ∉ F1 ++ F2 := by
          have := H.nodup
          rw [List.nodup_append] at this
          intro hg
          rcases List.mem_append.mp hg with hg | hg
          · exact absurd rfl (this.2.2 f hg f (by simp))
          · exact (List.nodup_cons.mp this.2.1).1 hg
        constructor
        · rintro ⟨ho, hl⟩
          refine ⟨?_, hl⟩
          rcases C1 e (hsub e he) with ⟨-, -, -, hn⟩ | ⟨-, hn⟩
          · rw [hn] at ho; cases ho
          · rw [← hn]; exact ho
        · rintro ⟨ho, hl⟩
          refine ⟨?_, hl⟩
          rcases C1 e (hsub e he) with ⟨o', ho', hg, -⟩ | ⟨-, hn⟩
          · rw [ho] at ho'; cases ho'
            obtain ⟨g', hg', hog⟩ := hsub o hl
            rw [hg] at hog; cases hog
            exact absurd hg' hnf
          · rw [hn]; exact ho

/-! ## The centroid -/

/-- The centroid of a triangle. -/
def Spec.centroid (h : Mesh (K × K)) (f : ℕ) : K × K :=
  let a := (h.fe f).getD 0
  let b := (h.he a).next.getD 0
  let c := (h.he b).next.getD 0
  (3 : K)⁻¹ • (Spec.endPt h a + Spec.endPt h b + Spec.endPt h c)

theorem Tri.centroid (t : Tri h f a b c) (hfe : h.fe f = some a) :
    Spec.centroid h f = (3 : K)⁻¹ • (Spec.endPt h a + Spec.endPt h b + Spec.endPt h c) := by
  unfold Spec.centroid
  simp only [hfe, Option.getD_some, t.na, t.nb]

theorem Spec.Valid.centroid_inside (H : Spec.Valid h F) (hw : Spec.Ccw h F) (hf : f ∈ F) : Spec.InsideFace h f (Spec.centroid h f) := by
  obtain ⟨a, b, c, t, hfe⟩ := H.tri hf
  have hA := hw f hf
  rw [H.faceArea2 hf t] at hA
  rw [t.centroid hfe, t.insideFace]
  have h3 : (3 : K)⁻¹ * 3 = 1 := by norm_num
  have key : ∀ x y z : K × K, Spec.area2 x y ((3 : K)⁻¹ • (x + y + z)) = (3 : K)⁻¹ * Spec.area2 x y z := by
    intro x y z
    unfold Spec.area2
    simp only [Prod.smul_fst, Prod.smul_snd, Prod.fst_add, Prod.snd_add, smul_eq_mul]
    linear_combination ((y.1 - x.1) * x.2 - (y.2 - x.2) * x.1) * h3
  have p : (0 : K) < (3 : K)⁻¹ := by norm_num
  unfold Spec.side
  rw [t.startPt, t.rotate.startPt, t.rotate.rotate.startPt]
  generalize Spec.endPt h a = A at *
  generalize Spec.endPt h b = B at *
  generalize Spec.endPt h c = C at *
  refine ⟨?_, ?_, ?_⟩
  · rw [show A + B + C = C + A + B by abel, key]
    exact mul_pos p (by rw [area2_rotate, area2_rotate]; exact hA)
  · rw [key]; exact mul_pos p hA
  · rw [show A + B + C = B + C + A by abel, key]
    exact mul_pos p (by rw [area2_rotate]; exact hA)

theorem Spec.Valid.centroidInside (H : Spec.Valid h F) (hf : f ∈ F) (tol : K) (B : List ((K × K) × (K × K))) :
    h.centroidInside tol B f = .ok (isInside tol (Spec.centroid h f) false B) := by
  obtain ⟨a, b, c, t, hfe⟩ := H.tri hf
  unfold Mesh.centroidInside
  rw [H.getFaceEdges t hfe, R_bind_ok, mapM_ok (g := Spec.endPt h) _ (fun e he => H.endCo (by
    simp only [List.mem_cons, List.not_mem_nil, or_false] at he
    rcases he with rfl | rfl | rfl
    exacts [⟨f, hf, t.fa⟩, ⟨f, hf, t.fb⟩, ⟨f, hf, t.fc⟩])), R_bind_ok]
  simp only [List.map_cons, List.map_nil, List.foldl_cons, List.foldl_nil, List.length_cons, List.length_nil, zero_add]
  unfold vdiv
  rw [if_neg (by norm_num), R_bind_ok, t.centroid hfe]
  norm_num

/-! ## The winding number -/

theorem rayCrosses_crossing (p a b : K × K) : (if rayCrosses p a b then (1 : ZMod 2) else 0) = ((crossing p a b : ℤ) : ZMod 2) := by
  unfold rayCrosses crossing
  dsimp only
  by_cases ha : p.2 < a.2 <;> by_cases hb : p.2 < b.2
  · have n1 : ¬a.2 ≤ p.2 := not_le.mpr ha
    have n2 : ¬b.2 ≤ p.2 := not_le.mpr hb
    simp [ha, hb, n1, n2]
  · have n1 : ¬a.2 ≤ p.2 := not_le.mpr ha
    have n2 : b.2 ≤ p.2 := not_lt.mp hb
    have hd : 0 < a.2 - b.2 := by linarith
    have key : p.1 < a.1 + (p.2 - a.2) * (b.1 - a.1) / (b.2 - a.2) ↔ Spec.area2 a b p < 0 := by
      have : a.1 + (p.2 - a.2) * (b.1 - a.1) / (b.2 - a.2) - p.1 = -Spec.area2 a b p / (a.2 - b.2) := by
        have h1 : b.2 - a.2 ≠ 0 := by linarith
        have h2 : a.2 - b.2 ≠ 0 := hd.ne'
        unfold Spec.area2
        rw [eq_div_iff h2, show a.2 - b.2 = -(b.2 - a.2) by ring]
        field_simp
        ring
      rw [← sub_pos, this, div_pos_iff_of_pos_right hd, neg_pos]
    by_cases hk : Spec.area2 a b p < 0
    · have hk' := key.mpr hk
      simp only [ha, hb, n1, n2, hk, hk', decide_true, decide_false, ne_eq, Bool.true_eq_false, not_false_eq_true, if_true, false_and, true_and, if_false]
      decide
    · have hk' := not_lt.mp fun x => hk (key.mp x)
      simp [ha, hb, n1, n2, hk, hk']
  · have n1 : a.2 ≤ p.2 := not_lt.mp ha
    have n2 : ¬b.2 ≤ p.2 := not_le.mpr hb
    have hd : 0 < b.2 - a.2 := by linarith
    have key : p.1 < a.1 + (p.2 - a.2) * (b.1 - a.1) / (b.2 - a.2) ↔ 0 < Spec.area2 a b p := by
      have : a.1 + (p.2 - a.2) * (b.1 - a.1) / (b.2 - a.2) - p.1 = Spec.area2 a b p / (b.2 - a.2) := by
        have h1 : b.2 - a.2 ≠ 0 := hd.ne'
        unfold Spec.area2
        field_simp
        ring
      rw [← sub_pos, this, div_pos_iff_of_pos_right hd]
    by_cases hk : 0 < Spec.area2 a b p
    · have hk' := key.mpr hk
      simp [ha, hb, n1, n2, hk, hk']
    · have hk' := not_lt.mp fun x => hk (key.mp x)
      simp [ha, hb, n1, n2, hk, hk']
  · have n1 : a.2 ≤ p.2 := not_lt.mp ha
    have n2 : b.2 ≤ p.2 := not_lt.mp hb
    simp [ha, hb]

/-- The parity of the rays is that of the winding number. -/
theorem isInside_odd {tol : K} {p : K × K} {B : List ((K × K) × (K × K))} (h : ∀ s ∈ B, onSegment tol s.1 s.2 p = false) :
    isInside tol p false B = true ↔ Odd (Spec.winding B p) := by
  rw [isInside_off false h]
  have : crossSum p B = ((Spec.winding B p : ℤ) : ZMod 2) := by
    unfold crossSum Spec.winding
    rw [Int.cast_list_sum, List.map_map]
    congr 1
    apply List.map_congr_left
    intro s _
    exact rayCrosses_crossing p s.1 s.2
  rw [this]
  simp only [Bool.false_eq_true, if_false, zero_add]
  rw [← ZMod.intCast_eq_one_iff_odd]

/-- The point is farther from the segment than the tolerance divided by its length. -/
def Spec.Away (tol : K) (s : (K × K) × (K × K)) (p : K × K) : Prop :=
  ∀ q, Spec.OnSeg s.1 s.2 q → tol < max |p.1 - q.1| |p.2 - q.2| * max |s.2.1 - s.1.1| |s.2.2 - s.1.2|

theorem Spec.Away.off {tol : K} (htol : 0 ≤ tol) {s : (K × K) × (K × K)} {p : K × K} (h : Spec.Away tol s p) : onSegment tol s.1 s.2 p = false := by
  by_contra hc
  rw [Bool.not_eq_false] at hc
  by_cases hs : s.1 = s.2
  · unfold onSegment at hc
    dsimp only at hc
    split_ifs at hc
  · obtain ⟨q, hq, h1 | h1⟩ := (C66_on_segment htol hs p).2.2 hc
    · have := h q hq
      rw [h1.2.1, sub_self, abs_zero, max_eq_right (abs_nonneg _), max_eq_left h1.1] at this
      exact absurd h1.2.2 (not_le.mpr this)
    · have := h q hq
      rw [h1.2.1, sub_self, abs_zero, max_eq_left (abs_nonneg _), max_eq_right h1.1.le] at this
      exact absurd h1.2.2 (not_le.mpr this)

theorem winding_face {B : List ((K × K) × (K × K))} (hB : Closed2 B) (hcut : ∀ s ∈ B, ∀ p, Spec.InsideFace h f p → ¬Spec.OnSeg s.1 s.2 p) {p g : K × K}
    (hp : Spec.InFace h f p) (hoff : ∀ s ∈ B, ¬Spec.OnSeg s.1 s.2 p) (hg : Spec.InsideFace h f g) : Spec.winding B p = Spec.winding B g := by
  refine winding_move hB ?_
  rintro s hs m ⟨t, t0, t1, rfl⟩
  rcases t0.eq_or_lt with rfl | t0
  · simpa using hoff s hs
  · refine hcut s hs _ fun e he => ?_
    have h1 := hp e he
    have h2 := hg e he
    have : Spec.side h e (p + t • (g - p)) = (1 - t) * Spec.side h e p + t * Spec.side h e g := by
      unfold Spec.side Spec.area2
      simp only [Prod.fst_add, Prod.snd_add, Prod.smul_fst, Prod.smul_snd, Prod.fst_sub, Prod.snd_sub, smul_eq_mul]
      ring
    rw [this]
    have := mul_nonneg (sub_nonneg.mpr t1) h1
    have := mul_pos t0 h2
    linarith

theorem loopEdges_perm (X : List (K × K)) : (loopEdges X).Perm (Spec.ringSides [X]) := by
  rw [← ringPairs_sides]
  simp only [List.map_cons, List.map_nil, List.flatten_cons, List.flatten_nil, List.append_nil]
  cases X with
  | nil => exact List.Perm.refl _
  | cons x X =>
    unfold loopEdges Mesh.ringPairs
    have h1 : ((x :: X).zip ((x :: X).rotate 1)).rotate ((x :: X).length - 1) = ((x :: X).rotate ((x :: X).length - 1)).zip (x :: X) := by
      have := List.zipWith_rotate_distrib (f := Prod.mk) (x :: X) ((x :: X).rotate 1) ((x :: X).length - 1) (by simp)
      unfold List.zip
      rw [this, List.rotate_rotate]
      congr 1
      rw [show 1 + ((x :: X).length - 1) = (x :: X).length by simp; omega, List.rotate_length]
    rw [← h1]
    exact List.rotate_perm _ _

theorem SameBut.side (S : SameBut h h') (e : ℕ) (p : K × K) : Spec.side h' e p = Spec.side h e p := by
  unfold Spec.side Spec.startPt Spec.endPt Spec.start
  simp only [S.vertex, S.prev, S.co]

theorem SameBut.inFace (S : SameBut h h') (f : ℕ) (p : K × K) : Spec.InFace h' f p ↔ Spec.InFace h f p := by
  unfold Spec.InFace
  simp only [S.face, S.side]

theorem SameBut.area2 (S : SameBut h h') (f : ℕ) : Spec.faceArea2 h' f = Spec.faceArea2 h f := by
  unfold Spec.faceArea2
  rw [S.corners]

/-! ## The boundary and the faces -/

/-- The points of the faces of a list. -/
def Spec.Covered (h : Mesh (K × K)) (F : List ℕ) (p : K × K) : Prop := ∃ f ∈ F, Spec.InFace h f p

/-- What the cutting of a mesh leaves (`kept`) and gives (`taken`): two parts of the list of faces, in the same order; the mesh that is left is correctly
linked, by the links there were between its faces, and nothing else changed. -/
structure Spec.Cut (h h' : Mesh (K × K)) (F kept taken : List ℕ) : Prop where
  left : kept.Sublist F
  gone : taken.Sublist F
  perm : (kept ++ taken).Perm F
  same : SameBut h h'
  valid : Spec.Valid h' kept
  links : Spec.LinksIn h h' kept

theorem take_cut {Q : ℕ → Bool} (S : SameBut h h') (V : Spec.Valid h' (F.filter fun f => !Q f)) (L : Spec.LinksIn h h' (F.filter fun f => !Q f)) :
    Spec.Cut h h' F (F.filter fun f => !Q f) (F.filter Q) :=
  ⟨List.filter_sublist, List.filter_sublist, (List.perm_append_comm.trans (List.filter_append_perm Q F)), S, V, L⟩

section
variable {tol : K} {rings : List (List (K × K))} {B : List ((K × K) × (K × K))}

theorem ringSides_closed (hB : B.Perm (Spec.ringSides rings)) : Closed2 B := by
  intro g
  rw [(hB.map _).sum_eq, ← ringPairs_sides]
  exact rings_closed rings g

theorem winding_perm {B C : List ((K × K) × (K × K))} (h : B.Perm C) (p : K × K) : Spec.winding B p = Spec.winding C p := (h.map _).sum_eq

theorem centroid_odd (H : Spec.Valid h F) (hw : Spec.Ccw h F) (htol : 0 ≤ tol) (hB : B.Perm (Spec.ringSides rings))
    (hcut : ∀ s ∈ Spec.ringSides rings, ∀ f ∈ F, ∀ p, Spec.InsideFace h f p → ¬Spec.OnSeg s.1 s.2 p)
    (haway : ∀ s ∈ Spec.ringSides rings, ∀ f ∈ F, Spec.Away tol s (Spec.centroid h f)) (hf : f ∈ F) {p : K × K} (hp : Spec.InFace h f p)
    (hoff : ∀ s ∈ Spec.ringSides rings, ¬Spec.OnSeg s.1 s.2 p) :
    isInside tol (Spec.centroid h f) false B = true ↔ Odd (Spec.winding (Spec.ringSides rings) p) := by
  rw [isInside_odd fun s hs => (haway s (hB.mem_iff.mp hs) f hf).off htol, ← winding_face (ringSides_closed hB) (fun s hs => hcut s (hB.mem_iff.mp hs) f hf) hp
    (fun s hs => hoff s (hB.mem_iff.mp hs)) (H.centroid_inside hw hf), winding_perm hB]

theorem SameBut.centroid (S : SameBut h h') (f : ℕ) : Spec.centroid h' f = Spec.centroid h f := by
  unfold Spec.centroid Spec.endPt
  simp only [S.fe, S.next, S.vertex, S.co]

/-- The condition does not depend on the links to opposites. -/
theorem SameBut.centroidInside (S : SameBut h h') (H : Spec.Valid h F) (hf : f ∈ F) (tol : K) (B : List ((K × K) × (K × K))) :
    h'.centroidInside tol B f = .ok (isInside tol (Spec.centroid h f) false B) := by
  have e : h'.centroidInside tol B f = h.centroidInside tol B f := by
    obtain ⟨a, b, c, t, hfe⟩ := H.tri hf
    have g1 := H.getFaceEdges t hfe
    have hfold : ∀ (s : Option ℕ) (k : ℕ) (o : Option ℕ), h'.faceEdgesFrom s k o = h.faceEdgesFrom s k o := by
      intro s k
      induction k with
      | zero => intro o; cases o <;> rfl
      | succ k ih =>
        intro o
        cases o with
        | none => rfl
        | some o => simp only [Mesh.faceEdgesFrom, S.next, ih]
    have g2 : h'.getFaceEdges f = h.getFaceEdges f := by
      unfold Mesh.getFaceEdges
      rw [S.fe, S.nE, hfold]
    have g3 : h'.endCo = h.endCo := by
      funext e
      unfold Mesh.endCo
      rw [S.vertex, S.co]
    unfold Mesh.centroidInside
    rw [g2, g3]
  rw [e, H.centroidInside hf]

/-- C100: `takeInternalFaces` takes the faces inside a boundary whose sides cut no face: the points of the mesh around which the boundary turns an odd number
of times are those of the faces taken, the other ones those of the faces left. -/
theorem C100_internal_partial (H : Spec.Valid h F) (hw : Spec.Ccw h F) (htol : 0 ≤ tol) (hB : B.Perm (Spec.ringSides rings))
    (hcut : ∀ s ∈ Spec.ringSides rings, ∀ f ∈ F, ∀ p, Spec.InsideFace h f p → ¬Spec.OnSeg s.1 s.2 p)
    (haway : ∀ s ∈ Spec.ringSides rings, ∀ f ∈ F, Spec.Away tol s (Spec.centroid h f)) :
    ∃ h' kept taken, Mesh.takeInternalFaces tol B (h, F) = .ok (h', kept, taken) ∧ Spec.Cut h h' F kept taken ∧ Spec.Ccw h' kept ∧
      ∀ p, (∀ s ∈ Spec.ringSides rings, ¬Spec.OnSeg s.1 s.2 p) →
        (Spec.Covered h' taken p ↔ Spec.Covered h F p ∧ Odd (Spec.winding (Spec.ringSides rings) p)) ∧
        (Spec.Covered h' kept p ↔ Spec.Covered h F p ∧ ¬Odd (Spec.winding (Spec.ringSides rings) p)) := by
  obtain ⟨Q, hQ⟩ : ∃ Q : ℕ → Bool, ∀ f, Q f = isInside tol (Spec.centroid h f) false B := ⟨_, fun _ => rfl⟩
  obtain ⟨h', k1, S, V, L⟩ := takeWhere_spec (cond := Mesh.centroidInside tol B) (Q := Q) (F.length + 1) h F [] (by omega) H
    fun h' S f hf => by rw [S.centroidInside H hf, hQ]
  have hin : ∀ f ∈ F, ∀ p, (∀ s ∈ Spec.ringSides rings, ¬Spec.OnSeg s.1 s.2 p) → Spec.InFace h f p →
      (Q f = true ↔ Odd (Spec.winding (Spec.ringSides rings) p)) := fun f hf p hoff hp => by
    rw [hQ, centroid_odd H hw htol hB hcut haway hf hp hoff]
  refine ⟨h', _, _, k1, take_cut S V L, fun f hf => ?_, fun p hoff => ⟨⟨?_, ?_⟩, ?_, ?_⟩⟩
  · rw [S.area2]
    exact hw f (List.mem_filter.mp hf).1
  · rintro ⟨f, hf, hp⟩
    rw [List.nil_append, List.mem_filter] at hf
    rw [S.inFace] at hp
    exact ⟨⟨f, hf.1, hp⟩, (hin f hf.1 p hoff hp).mp hf.2⟩
  · rintro ⟨⟨f, hf, hp⟩, ho⟩
    exact ⟨f, by rw [List.nil_append, List.mem_filter]; exact ⟨hf, (hin f hf p hoff hp).mpr ho⟩, (S.inFace f p).mpr hp⟩
  · rintro ⟨f, hf, hp⟩
    rw [List.mem_filter] at hf
    rw [S.inFace] at hp
    exact ⟨⟨f, hf.1, hp⟩, fun ho => by simpa [(hin f hf.1 p hoff hp).mpr ho] using hf.2⟩
  · rintro ⟨⟨f, hf, hp⟩, ho⟩
    exact ⟨f, List.mem_filter.mpr ⟨hf, by
      rw [Bool.not_eq_true', ← Bool.not_eq_true, hin f hf p hoff hp]
      exact ho⟩, (S.inFace f p).mpr hp⟩

/-- C100: `takeExternalFaces` takes the faces outside a boundary whose sides cut no face. -/
theorem C100_external_partial (H : Spec.Valid h F) (hw : Spec.Ccw h F) (htol : 0 ≤ tol) (hB : B.Perm (Spec.ringSides rings))
    (hcut : ∀ s ∈ Spec.ringSides rings, ∀ f ∈ F, ∀ p, Spec.InsideFace h f p → ¬Spec.OnSeg s.1 s.2 p)
    (haway : ∀ s ∈ Spec.ringSides rings, ∀ f ∈ F, Spec.Away tol s (Spec.centroid h f)) :
    ∃ h' kept taken, Mesh.takeExternalFaces tol B (h, F) = .ok (h', kept, taken) ∧ Spec.Cut h h' F kept taken ∧ Spec.Ccw h' kept ∧
      ∀ p, (∀ s ∈ Spec.ringSides rings, ¬Spec.OnSeg s.1 s.2 p) →
        (Spec.Covered h' taken p ↔ Spec.Covered h F p ∧ ¬Odd (Spec.winding (Spec.ringSides rings) p)) ∧
        (Spec.Covered h' kept p ↔ Spec.Covered h F p ∧ Odd (Spec.winding (Spec.ringSides rings) p)) := by
  obtain ⟨Q, hQ⟩ : ∃ Q : ℕ → Bool, ∀ f, Q f = !isInside tol (Spec.centroid h f) false B := ⟨_, fun _ => rfl⟩
  obtain ⟨h', k1, S, V, L⟩ := takeWhere_spec (cond := fun h f => do
      let b ← Mesh.centroidInside tol B h f
      pure !b) (Q := Q) (F.length + 1) h F [] (by omega) H
    fun h' S f hf => by rw [S.centroidInside H hf, hQ]; rfl
  have hin : ∀ f ∈ F, ∀ p, (∀ s ∈ Spec.ringSides rings, ¬Spec.OnSeg s.1 s.2 p) → Spec.InFace h f p →
      (Q f = false ↔ Odd (Spec.winding (Spec.ringSides rings) p)) := fun f hf p hoff hp => by
    rw [hQ, Bool.not_eq_false', centroid_odd H hw htol hB hcut haway hf hp hoff]
  refine ⟨h', _, _, k1, take_cut S V L, fun f hf => ?_, fun p hoff => ⟨⟨?_, ?_⟩, ?_, ?_⟩⟩
  · rw [S.area2]
    exact hw f (List.mem_filter.mp hf).1
  · rintro ⟨f, hf, hp⟩
    rw [List.nil_append, List.mem_filter] at hf
    rw [S.inFace] at hp
    exact ⟨⟨f, hf.1, hp⟩, fun ho => by simpa [(hin f hf.1 p hoff hp).mpr ho] using hf.2⟩
  · rintro ⟨⟨f, hf, hp⟩, ho⟩
    exact ⟨f, by
      rw [List.nil_append, List.mem_filter, ← Bool.not_eq_false, hin f hf p hoff hp]
      exact ⟨hf, ho⟩, (S.inFace f p).mpr hp⟩
  · rintro ⟨f, hf, hp⟩
    rw [List.mem_filter, Bool.not_eq_true'] at hf
    rw [S.inFace] at hp
    exact ⟨⟨f, hf.1, hp⟩, (hin f hf.1 p hoff hp).mp hf.2⟩
  · rintro ⟨⟨f, hf, hp⟩, ho⟩
    exact ⟨f, List.mem_filter.mpr ⟨hf, by
      rw [Bool.not_eq_true', hin f hf p hoff hp]
      exact ho⟩, (S.inFace f p).mpr hp⟩

/-! ## The sides that a Delaunay mesh keeps -/

/-- There is a circle through the ends of the segment that leaves the other points of the set strictly outside. -/
def Spec.Strong (V : K × K → Prop) (s : (K × K) × (K × K)) : Prop :=
  ∃ o r, Spec.dist2 o s.1 = r ∧ Spec.dist2 o s.2 = r ∧ ∀ u, V u → u ≠ s.1 → u ≠ s.2 → r < Spec.dist2 o u

/-- The difference of the powers of a point with respect to two circles. -/
private def pow (o o' : K × K) (k : K) (x : K × K) : K := Spec.dist2 o x - Spec.dist2 o' x - k

private theorem pow_tri (o o' : K × K) (k : K) (A B C p : K × K) :
    Spec.area2 A B C * pow o o' k p = Spec.area2 B C p * pow o o' k A + Spec.area2 C A p * pow o o' k B + Spec.area2 A B p * pow o o' k C := by
  unfold pow Spec.dist2 Spec.area2
  ring

private theorem pow_seg (o o' : K × K) (k : K) (a b : K × K) (t : K) : pow o o' k (a + t • (b - a)) = (1 - t) * pow o o' k a + t * pow o o' k b := by
  unfold pow Spec.dist2
  simp only [Prod.fst_add, Prod.snd_add, Prod.smul_fst, Prod.smul_snd, Prod.fst_sub, Prod.snd_sub, smul_eq_mul]
  ring

/-- Such a segment cuts no face of a Delaunay mesh: the difference of the powers of a point with respect to the circle of a face and to this one is affine, at
least zero at the ends of the segment, at most zero at the corners of the face, and not zero at one of them. -/
theorem Spec.Delaunay.uncut (D : Spec.Delaunay h F) {s : (K × K) × (K × K)} (h1 : Spec.IsVertex h F s.1) (h2 : Spec.IsVertex h F s.2)
    (hs : Spec.Strong (Spec.IsVertex h F) s) (hf : f ∈ F) {p : K × K} (hp : Spec.InsideFace h f p) : ¬Spec.OnSeg s.1 s.2 p := by
  rintro ⟨t, t0, t1, rfl⟩
  obtain ⟨o', r, e1, e2, hout⟩ := hs
  obtain ⟨a, b, c, ta, hfe⟩ := D.valid.tri hf
  have hA := D.ccw f hf
  have hv : ∀ e ∈ [a, b, c], Spec.IsVertex h F (Spec.endPt h e) := fun e he => by
    simp only [List.mem_cons, List.not_mem_nil, or_false] at he
    rcases he with rfl | rfl | rfl
    exacts [⟨_, ⟨f, hf, ta.fa⟩, rfl⟩, ⟨_, ⟨f, hf, ta.fb⟩, rfl⟩, ⟨_, ⟨f, hf, ta.fc⟩, rfl⟩]
  have va := hv a (by simp)
  have vb := hv b (by simp)
  have vc := hv c (by simp)
  have em1 := D.empty f hf s.1 h1
  have em2 := D.empty f hf s.2 h2
  unfold Spec.OutOfCircle at em1 em2
  rw [ta.corners hfe] at em1 em2
  rw [D.valid.faceArea2 hf ta] at hA
  have hsd := ta.insideFace.mp hp
  unfold Spec.side at hsd
  rw [ta.startPt, ta.rotate.startPt, ta.rotate.rotate.startPt] at hsd
  generalize Spec.endPt h a = A at *
  generalize Spec.endPt h b = B at *
  generalize Spec.endPt h c = C at *
  dsimp only at em1 em2
  have habs : 0 < |2 * orient2d A B C| := abs_pos.mpr (by rw [orient2d_eq]; positivity)
  obtain ⟨o, -, k1, k2, -⟩ := (C45_circle_center habs A B C).1 le_rfl
  have g1 := em1 o _ rfl k1.symm k2.symm
  have g2 := em2 o _ rfl k1.symm k2.symm
  have q := pow_tri o o' (Spec.dist2 o A - r) A B C (s.1 + t • (s.2 - s.1))
  rw [pow_seg] at q
  have p1 : 0 ≤ pow o o' (Spec.dist2 o A - r) s.1 := by unfold pow; linarith
  have p2 : 0 ≤ pow o o' (Spec.dist2 o A - r) s.2 := by unfold pow; linarith
  have pc : ∀ x, Spec.IsVertex h F x → Spec.dist2 o x = Spec.dist2 o A → pow o o' (Spec.dist2 o A - r) x ≤ 0 ∧
      (x ≠ s.1 → x ≠ s.2 → pow o o' (Spec.dist2 o A - r) x < 0) := by
    intro x hx hd
    have hlt : x ≠ s.1 → x ≠ s.2 → pow o o' (Spec.dist2 o A - r) x < 0 := fun n1 n2 => by
      have := hout x hx n1 n2
      unfold pow; linarith
    refine ⟨?_, hlt⟩
    by_cases n1 : x = s.1
    · unfold pow; rw [hd, n1, e1]; linarith
    by_cases n2 : x = s.2
    · unfold pow; rw [hd, n2, e2]; linarith
    exact (hlt n1 n2).le
  have cA := pc A va rfl
  have cB := pc B vb k1.symm
  have cC := pc C vc k2.symm
  have nAB : A ≠ B := by rintro rfl; unfold Spec.area2 at hA; ring_nf at hA; exact hA.false
  have nBC : B ≠ C := by rintro rfl; unfold Spec.area2 at hA; ring_nf at hA; exact hA.false
  have nAC : A ≠ C := by rintro rfl; unfold Spec.area2 at hA; ring_nf at hA; exact hA.false
  have hl : 0 ≤ Spec.area2 A B C * ((1 - t) * pow o o' (Spec.dist2 o A - r) s.1 + t * pow o o' (Spec.dist2 o A - r) s.2) :=
    mul_nonneg hA.le (add_nonneg (mul_nonneg (by linarith) p1) (mul_nonneg t0 p2))
  rw [q] at hl
  generalize pow o o' (Spec.dist2 o A - r) A = x at *
  generalize pow o o' (Spec.dist2 o A - r) B = y at *
  generalize pow o o' (Spec.dist2 o A - r) C = z at *
  have i1 := mul_nonpos_of_nonneg_of_nonpos hsd.2.2.le cA.1
  have i2 := mul_nonpos_of_nonneg_of_nonpos hsd.1.le cB.1
  have i3 := mul_nonpos_of_nonneg_of_nonpos hsd.2.1.le cC.1
  by_cases wA : A ≠ s.1 ∧ A ≠ s.2
  · have := mul_neg_of_pos_of_neg hsd.2.2 (cA.2 wA.1 wA.2)
    linarith
  by_cases wB : B ≠ s.1 ∧ B ≠ s.2
  · have := mul_neg_of_pos_of_neg hsd.1 (cB.2 wB.1 wB.2)
    linarith
  by_cases wC : C ≠ s.1 ∧ C ≠ s.2
  · have := mul_neg_of_pos_of_neg hsd.2.1 (cC.2 wC.1 wC.2)
    linarith
  simp only [ne_eq, not_and_or, not_not] at wA wB wC
  rcases wA with wA | wA <;> rcases wB with wB | wB <;> rcases wC with wC | wC <;>
    first
    | exact nAB (wA.trans wB.symm)
    | exact nBC (wB.trans wC.symm)
    | exact nAC (wA.trans wC.symm)

/-! ## The insertion of the boundary, and the cutting -/

/-- A vertex of the mesh, or a point strictly inside its contour. -/
def Spec.Within (h : Mesh (K × K)) (F : List ℕ) (x : K × K) : Prop :=
  Spec.IsVertex h F x ∨ ∀ e, Spec.Live h F e → (h.he e).opp = none → 0 < Spec.side h e x

theorem insertAll_any : ∀ (X : List (K × K)) (h : Mesh (K × K)) (F : List ℕ), Spec.Delaunay h F →
    ∃ h' F', Mesh.insertAll (h, F) X = .ok (h', F') ∧ Spec.Delaunay h' F' ∧ (∀ u, Spec.IsVertex h F u → Spec.IsVertex h' F' u) ∧
      (∀ u, Spec.IsVertex h' F' u → u ∈ X ∨ Spec.IsVertex h F u) ∧ (∀ p, Spec.Covered h' F' p ↔ Spec.Covered h F p) ∧
      (∀ x ∈ X, Spec.Within h F x → Spec.IsVertex h' F' x) ∧
      ∀ e, Spec.Live h' F' e → (h'.he e).opp = none → Spec.Live h F e ∧ (h.he e).opp = none ∧ ∀ q, Spec.side h' e q = Spec.side h e q := by
  intro X
  induction X with
  | nil => exact fun h F D => ⟨h, F, rfl, D, fun _ h => h, fun _ h => Or.inr h, fun _ => Iff.rfl, by simp, fun e he ho => ⟨he, ho, fun _ => rfl⟩⟩
  | cons x X ih =>
    intro h F D
    obtain ⟨h1, F1, r, e1, D1, v1, w1, c1, i1, b1, -⟩ := D.insert_any x
    obtain ⟨h2, F2, e2, D2, v2, w2, c2, i2, b2⟩ := ih h1 F1 D1
    refine ⟨h2, F2, ?_, D2, fun u hu => v2 u (v1 u hu), fun u hu => ?_, fun p => (c2 p).trans (c1 p), fun y hy hW => ?_, fun e he ho => ?_⟩
    · rw [Mesh.insertAll, e1, R_bind_ok]
      exact e2
    · rcases w2 u hu with h3 | h3
      · exact Or.inl (List.mem_cons_of_mem _ h3)
      · rcases w1 u h3 with rfl | h4
        · exact Or.inl (by simp)
        · exact Or.inr h4
    · rcases List.mem_cons.mp hy with rfl | hy
      · rcases hW with hW | hW
        · exact v2 _ (v1 _ hW)
        · rcases i1 with i1 | ⟨e, he, ho, hs⟩
          · exact v2 _ i1
          · exact absurd (hW e he ho) (not_lt.mpr hs)
      · refine i2 y hy ?_
        rcases hW with hW | hW
        · exact Or.inl (v1 _ hW)
        · right
          intro e he ho
          obtain ⟨h3, h4, h5⟩ := b1 e he ho
          rw [h5]
          exact hW e h3 h4
    · obtain ⟨h3, h4, h5⟩ := b2 e he ho
      obtain ⟨h6, h7, h8⟩ := b1 e h3 h4
      exact ⟨h6, h7, fun q => (h5 q).trans (h8 q)⟩

theorem ringSides_mem {X : List (K × K)} {s : (K × K) × (K × K)} (hs : s ∈ Spec.ringSides [X]) : s.1 ∈ X ∧ s.2 ∈ X := by
  have := (loopEdges_perm X).mem_iff.mpr hs
  unfold loopEdges at this
  obtain ⟨h1, h2⟩ := List.of_mem_zip (a := s.1) (b := s.2) this
  exact ⟨List.mem_rotate.mp h1, h2⟩

theorem Spec.Strong.mono {V W : K × K → Prop} {s : (K × K) × (K × K)} (h : ∀ u, V u → W u) (hs : Spec.Strong W s) : Spec.Strong V s := by
  obtain ⟨o, r, h1, h2, h3⟩ := hs
  exact ⟨o, r, h1, h2, fun u hu => h3 u (h u hu)⟩

/-- C100: `delaunay2DBoyerWatsonAddInnerBound` on a Delaunay mesh. When the points of the ring are vertices or strictly inside the mesh, and each of its sides
has a circle that leaves the other points strictly outside, the mesh that stays covers what it covered outside the ring, the faces returned what it covered
inside, and the circles are still empty; the tolerance must not reach the centroids of the faces. -/
theorem C100_add_inner_partial (D : Spec.Delaunay h F) (htol : 0 ≤ tol) {X : List (K × K)} (hX : ∀ x ∈ X, Spec.Within h F x)
    (hs : ∀ s ∈ Spec.ringSides [X], Spec.Strong (fun u => u ∈ X ∨ Spec.IsVertex h F u) s)
    (haway : ∀ s ∈ Spec.ringSides [X], ∀ h1 F1, Mesh.insertAll (h, F) X = .ok (h1, F1) → ∀ f ∈ F1, Spec.Away tol s (Spec.centroid h1 f)) :
    ∃ h' kept taken, Mesh.addInnerBound tol (h, F) X = .ok (h', kept, taken) ∧ Spec.Valid h' kept ∧ Spec.Ccw h' kept ∧
      (∀ f ∈ kept, ∀ u, u ∈ X ∨ Spec.IsVertex h F u → Spec.OutOfCircle h' f u) ∧
      ∀ p, (∀ s ∈ Spec.ringSides [X], ¬Spec.OnSeg s.1 s.2 p) →
        (Spec.Covered h' taken p ↔ Spec.Covered h F p ∧ Odd (Spec.winding (Spec.ringSides [X]) p)) ∧
        (Spec.Covered h' kept p ↔ Spec.Covered h F p ∧ ¬Odd (Spec.winding (Spec.ringSides [X]) p)) := by
  obtain ⟨h1, F1, e1, D1, v1, w1, c1, i1, -⟩ := insertAll_any X h F D
  have hvx : ∀ x ∈ X, Spec.IsVertex h1 F1 x := fun x hx => i1 x hx (hX x hx)
  have hcut : ∀ s ∈ Spec.ringSides [X], ∀ f ∈ F1, ∀ p, Spec.InsideFace h1 f p → ¬Spec.OnSeg s.1 s.2 p := fun s h2 f hf p hp =>
    D1.uncut (hvx _ (ringSides_mem h2).1) (hvx _ (ringSides_mem h2).2) ((hs s h2).mono w1) hf hp
  obtain ⟨h', kept, taken, e2, hC, hw, hp⟩ := C100_internal_partial D1.valid D1.ccw htol (loopEdges_perm X) hcut fun s h2 f hf => haway s h2 h1 F1 e1 f hf
  refine ⟨h', kept, taken, ?_, hC.valid, hw, fun f hf u hu => ?_, fun p hoff => ?_⟩
  · rw [Mesh.addInnerBound, e1, R_bind_ok, e2]
  · unfold Spec.OutOfCircle
    rw [hC.same.corners]
    exact D1.empty f (hC.left.subset hf) u (hu.elim (hvx u) (v1 u))
  · rw [← c1 p]
    exact hp p hoff

/-- C100: `delaunay2DBoyerWatsonAddOuterBound` likewise: the mesh that stays covers what it covered inside the ring. -/
theorem C100_add_outer_partial (D : Spec.Delaunay h F) (htol : 0 ≤ tol) {X : List (K × K)} (hX : ∀ x ∈ X, Spec.Within h F x)
    (hs : ∀ s ∈ Spec.ringSides [X], Spec.Strong (fun u => u ∈ X ∨ Spec.IsVertex h F u) s)
    (haway : ∀ s ∈ Spec.ringSides [X], ∀ h1 F1, Mesh.insertAll (h, F) X = .ok (h1, F1) → ∀ f ∈ F1, Spec.Away tol s (Spec.centroid h1 f)) :
    ∃ h' kept taken, Mesh.addOuterBound tol (h, F) X = .ok (h', kept, taken) ∧ Spec.Valid h' kept ∧ Spec.Ccw h' kept ∧
      (∀ f ∈ kept, ∀ u, u ∈ X ∨ Spec.IsVertex h F u → Spec.OutOfCircle h' f u) ∧
      ∀ p, (∀ s ∈ Spec.ringSides [X], ¬Spec.OnSeg s.1 s.2 p) →
        (Spec.Covered h' taken p ↔ Spec.Covered h F p ∧ ¬Odd (Spec.winding (Spec.ringSides [X]) p)) ∧
        (Spec.Covered h' kept p ↔ Spec.Covered h F p ∧ Odd (Spec.winding (Spec.ringSides [X]) p)) := by
  obtain ⟨h1, F1, e1, D1, v1, w1, c1, i1, -⟩ := insertAll_any X h F D
  have hvx : ∀ x ∈ X, Spec.IsVertex h1 F1 x := fun x hx => i1 x hx (hX x hx)
  have hcut : ∀ s ∈ Spec.ringSides [X], ∀ f ∈ F1, ∀ p, Spec.InsideFace h1 f p → ¬Spec.OnSeg s.1 s.2 p := fun s h2 f hf p hp =>
    D1.uncut (hvx _ (ringSides_mem h2).1) (hvx _ (ringSides_mem h2).2) ((hs s h2).mono w1) hf hp
  obtain ⟨h', kept, taken, e2, hC, hw, hp⟩ := C100_external_partial D1.valid D1.ccw htol (loopEdges_perm X) hcut fun s h2 f hf => haway s h2 h1 F1 e1 f hf
  refine ⟨h', kept, taken, ?_, hC.valid, hw, fun f hf u hu => ?_, fun p hoff => ?_⟩
  · rw [Mesh.addOuterBound, e1, R_bind_ok, e2]
  · unfold Spec.OutOfCircle
    rw [hC.same.corners]
    exact D1.empty f (hC.left.subset hf) u (hu.elim (hvx u) (v1 u))
  · rw [← c1 p]
    exact hp p hoff

/-- C100: with a null tolerance the centroids are never too close, for a ring without two equal consecutive points. -/
theorem C100_away (D : Spec.Delaunay h F) {X : List (K × K)} (hX : ∀ x ∈ X, Spec.Within h F x) (hne : ∀ s ∈ Spec.ringSides [X], s.1 ≠ s.2)
    (hs : ∀ s ∈ Spec.ringSides [X], Spec.Strong (fun u => u ∈ X ∨ Spec.IsVertex h F u) s) :
    ∀ s ∈ Spec.ringSides [X], ∀ h1 F1, Mesh.insertAll (h, F) X = .ok (h1, F1) → ∀ f ∈ F1, Spec.Away 0 s (Spec.centroid h1 f) := by
  intro s h2 h1 F1 e1 f hf q hq
  obtain ⟨h1', F1', e1', D1, v1, w1, c1, i1, -⟩ := insertAll_any X h F D
  rw [e1] at e1'
  simp only [Except.ok.injEq, Prod.mk.injEq] at e1'
  obtain ⟨rfl, rfl⟩ := e1'
  have hvx : ∀ x ∈ X, Spec.IsVertex h1 F1 x := fun x hx => i1 x hx (hX x hx)
  have hn := D1.uncut (hvx _ (ringSides_mem h2).1) (hvx _ (ringSides_mem h2).2) ((hs s h2).mono w1) hf (D1.valid.centroid_inside D1.ccw hf)
  have pos : ∀ {x y : K × K}, x ≠ y → 0 < max |x.1 - y.1| |x.2 - y.2| := by
    intro x y hxy
    rw [lt_max_iff, abs_pos, abs_pos, sub_ne_zero, sub_ne_zero]
    by_contra hc
    push Not at hc
    exact hxy (Prod.ext hc.1 hc.2)
  exact mul_pos (pos fun e => hn (e ▸ hq)) (pos (hne s h2).symm)

end

/-! ## Examples, and what the code does not do -/

/-- A hole in the rectangle. -/
example : ∃ h h' kept taken, rectOf ((0, 0) : ℚ × ℚ) (10, 10) = .ok (h, [0, 1]) ∧
    Mesh.addInnerBound 0 (h, [0, 1]) [(4, 4), (6, 4), (6, 6), (4, 6)] = .ok (h', kept, taken) ∧ Spec.Valid h' kept ∧
    (¬Spec.Covered h' kept (5, 9 / 2)) ∧ Spec.Covered h' kept (5, 1 / 2) := by
  obtain ⟨h, r1, r2⟩ := rectOf_spec ((0, 0) : ℚ × ℚ) (10, 10)
  have D := r2.delaunay (by norm_num) (by norm_num)
  have hX : ∀ x ∈ ([(4, 4), (6, 4), (6, 6), (4, 6)] : List (ℚ × ℚ)), Spec.Within h [0, 1] x := by
    intro x hx
    right
    simp only [List.mem_cons, List.not_mem_nil, or_false] at hx
    rcases hx with rfl | rfl | rfl | rfl <;> exact r2.inside (by norm_num) (by norm_num) (by norm_num) (by norm_num)
  have hside : Spec.ringSides [[((4 : ℚ), (4 : ℚ)), (6, 4), (6, 6), (4, 6)]] =
      [((4, 4), (6, 4)), ((6, 4), (6, 6)), ((6, 6), (4, 6)), ((4, 6), (4, 4))] := by decide +kernel
  have hs : ∀ s ∈ Spec.ringSides [[((4 : ℚ), (4 : ℚ)), (6, 4), (6, 6), (4, 6)]],
      Spec.Strong (fun u => u ∈ [((4 : ℚ), (4 : ℚ)), (6, 4), (6, 6), (4, 6)] ∨ Spec.IsVertex h [0, 1] u) s := by
    intro s hs
    have hm : ∀ u, (u ∈ [((4 : ℚ), (4 : ℚ)), (6, 4), (6, 6), (4, 6)] ∨ Spec.IsVertex h [0, 1] u) →
        u ∈ [((4 : ℚ), (4 : ℚ)), (6, 4), (6, 6), (4, 6), (0, 0), (10, 0), (0, 10), (10, 10)] := by
      intro u hu
      rw [r2.isVertex] at hu
      simp [Spec.rectCorners] at hu ⊢
      tauto
    refine Spec.Strong.mono hm ?_
    rw [hside] at hs
    refine ⟨((s.1.1 + s.2.1) / 2, (s.1.2 + s.2.2) / 2), 1, ?_⟩
    revert s
    decide +kernel
  have hne : ∀ s ∈ Spec.ringSides [[((4 : ℚ), (4 : ℚ)), (6, 4), (6, 6), (4, 6)]], s.1 ≠ s.2 := by decide +kernel
  obtain ⟨h', kept, taken, k1, k2, -, -, k3⟩ := C100_add_inner_partial D le_rfl hX hs (C100_away D hX hne hs)
  refine ⟨h, h', kept, taken, r1, k1, k2, fun hc => ?_, ?_⟩
  · refine ((k3 (5, 9 / 2) ?_).2.mp hc).2 ?_
    · rw [hside]
      intro s hs
      simp only [List.mem_cons, List.not_mem_nil, or_false] at hs
      rcases hs with rfl | rfl | rfl | rfl <;> (rintro ⟨t, t0, t1, e⟩; have e1 := congrArg Prod.fst e; have e2 := congrArg Prod.snd e; norm_num at e1 <;> norm_num at e2 <;> linarith)
    · decide +kernel
  · refine (k3 (5, 1 / 2) ?_).2.mpr ⟨?_, by decide +kernel⟩
    · rw [hside]
      intro s hs
      simp only [List.mem_cons, List.not_mem_nil, or_false] at hs
      rcases hs with rfl | rfl | rfl | rfl <;> (rintro ⟨t, t0, t1, e⟩; have e1 := congrArg Prod.fst e; have e2 := congrArg Prod.snd e; norm_num at e1 <;> norm_num at e2 <;> linarith)
    · exact D.located (r2.inside (by norm_num) (by norm_num) (by norm_num) (by norm_num))

/-- The faces that stay and those that are taken. -/
def partsOf (r : R (Mesh (K × K) × List ℕ × List ℕ)) : List ((K × K) × (K × K) × (K × K)) × List ((K × K) × (K × K) × (K × K)) :=
  match r with
  | .ok s => (s.2.1.map (Spec.corners s.1), s.2.2.map (Spec.corners s.1))
  | .error _ => ([], [])

/-- The code does not cut along a side of the ring that is not an edge of the Delaunay triangulation: a triangle is taken whose corner is not on the ring, and the
point `(1/4, 1/5)`, outside the ring, is then in no triangle that stays. -/
theorem C100_side_missed : ∃ t ∈ (partsOf (do
      let s ← rectOf ((0, 0) : ℚ × ℚ) (10, 10)
      Mesh.addInnerBound 0 s [(1, 1), (9, 1), (5, 9 / 4)])).2,
    (0 < Spec.area2 t.1 t.2.1 (1 / 4, 1 / 5) ∧ 0 < Spec.area2 t.2.1 t.2.2 (1 / 4, 1 / 5) ∧ 0 < Spec.area2 t.2.2 t.1 (1 / 4, 1 / 5)) ∧
    Spec.winding (Spec.ringSides [[(1, 1), (9, 1), (5, 9 / 4)]]) ((1 / 4, 1 / 5) : ℚ × ℚ) = 0 := by
  decide +kernel

/-- The faces that are returned are not correctly linked: of two half-edges that were opposite only one still designates the other. -/
theorem C100_links_taken : ∃ h h' : Mesh (ℚ × ℚ), rectOf ((0, 0) : ℚ × ℚ) (10, 10) = .ok (h, [0, 1]) ∧
    Mesh.takeInternalFaces 0 [((-1, -1), (11, -1)), ((11, -1), (11, 11)), ((11, 11), (-1, 11)), ((-1, 11), (-1, -1))] (h, [0, 1]) = .ok (h', [], [0, 1]) ∧
    ¬Spec.Valid h' [0, 1] := by
  obtain ⟨h, r1, -⟩ := rectOf_spec ((0, 0) : ℚ × ℚ) (10, 10)
  have key : (match (rectOf ((0, 0) : ℚ × ℚ) (10, 10)) >>=
      Mesh.takeInternalFaces 0 [((-1, -1), (11, -1)), ((11, -1), (11, 11)), ((11, 11), (-1, 11)), ((-1, 11), (-1, -1))] with
    | .ok s => decide (s.2 = ([], [0, 1]) ∧ (s.1.he 1).face = some 0 ∧ (s.1.he 1).opp = some 3 ∧ (s.1.he 3).opp = none)
    | .error _ => false) = true := by decide +kernel
  rw [r1, R_bind_ok] at key
  generalize hr : Mesh.takeInternalFaces (0 : ℚ) [((-1, -1), (11, -1)), ((11, -1), (11, 11)), ((11, 11), (-1, 11)), ((-1, 11), (-1, -1))] (h, [0, 1]) = r at key
  match r, key with
  | .ok (h', k, t), key =>
    obtain ⟨e1, e2, e3, e4⟩ := of_decide_eq_true key
    simp only [Prod.mk.injEq] at e1
    obtain ⟨rfl, rfl⟩ := e1
    refine ⟨h, h', r1, hr, fun V => ?_⟩
    have := (V.opp 1 3 ⟨0, by simp, e2⟩ e3).2.1
    rw [e4] at this
    exact absurd this (by simp)

/-- `delaunay2DBoyerWatson` with an inner boundary does not insert the points of this boundary: a hole of size one half around the centroid of a triangle
takes half of the square. -/
theorem C100_hole : facesOf (Mesh.delaunay2DInner (10 : ℚ) 0 [0, 1, 2, 3] [(0, 0), (4, 0), (4, 4), (0, 4)]
      [(29 / 12, 13 / 12), (35 / 12, 13 / 12), (8 / 3, 19 / 12)]) = [((4, 4), (0, 4), (0, 0))] ∧
    facesOf (Mesh.delaunay2D (10 : ℚ) [0, 1, 2, 3] [(0, 0), (4, 0), (4, 4), (0, 4)]) = [((4, 0), (4, 4), (0, 0)), ((4, 4), (0, 4), (0, 0))] :=
  ⟨by decide +kernel, by decide +kernel⟩

end Gbs
