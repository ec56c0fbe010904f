import Verif.Props.MeshLoops
import Verif.Props.MeshAdd
import Verif.Lemmas.Reparam
import Mathlib.Algebra.BigOperators.Group.Finset.Basic
import Mathlib.Algebra.BigOperators.Group.Finset.Lemmas
import Mathlib.Algebra.Order.BigOperators.Group.List
import Mathlib.Tactic.Abel
import Mathlib.Tactic.Ring

/-!
# Borders of sets of faces
-/

namespace Gbs

open scoped BigOperators

variable {P : Type} {h : Mesh P} {F C : List ℕ}

/-- The half-edges of the faces, in order. -/
theorem Spec.Valid.allEdges (H : Spec.Valid h F) : ∀ (C : List ℕ), (∀ f ∈ C, f ∈ F) → C.Nodup →
    ∃ ls, C.mapM h.getFaceEdges = .ok ls ∧ ls.flatten.Nodup ∧ (∀ e, e ∈ ls.flatten ↔ ∃ f ∈ C, (h.he e).face = some f) ∧
      List.Forall₂ (fun f l => ∃ a b c, l = [a, b, c] ∧ Tri h f a b c ∧ h.fe f = some a) C ls := by
  intro C
  induction C with
  | nil => intro _ _; exact ⟨[], rfl, by simp, by simp, List.Forall₂.nil⟩
  | cons f C ih =>
    intro hC hnd
    obtain ⟨hfC, hnd'⟩ := List.nodup_cons.mp hnd
    obtain ⟨ls, h1, h2, h3, h4⟩ := ih (fun g hg => hC g (by simp [hg])) hnd'
    obtain ⟨a, b, c, t, hfe⟩ := H.tri (hC f (by simp))
    refine ⟨[a, b, c] :: ls, ?_, ?_, ?_, List.Forall₂.cons ⟨a, b, c, rfl, t, hfe⟩ h4⟩
    · rw [List.mapM_cons, H.getFaceEdges t hfe, R_bind_ok, h1]; rfl
    · rw [List.flatten_cons, List.nodup_append]
      refine ⟨by simp [t.ab, t.bc, t.ca.symm], h2, ?_⟩
      rintro x hx y hy rfl
      obtain ⟨g, hg, hxg⟩ := (h3 x).mp hy
      have : (h.he x).face = some f := by
        simp at hx
        rcases hx with rfl | rfl | rfl
        exacts [t.fa, t.fb, t.fc]
      rw [this] at hxg; cases hxg
      exact hfC hg
    · intro e
      rw [List.flatten_cons, List.mem_append, h3]
      constructor
      · rintro (hx | ⟨g, hg, hx⟩)
        · refine ⟨f, by simp, ?_⟩
          simp at hx
          rcases hx with rfl | rfl | rfl
          exacts [t.fa, t.fb, t.fc]
        · exact ⟨g, by simp [hg], hx⟩
      · rintro ⟨g, hg, hx⟩
        rcases List.mem_cons.mp hg with rfl | hg
        · left; simpa using t.own e hx
        · exact Or.inr ⟨g, hg, hx⟩

theorem onBoundaryOf_iff {e : ℕ} : h.onBoundaryOf C e = true ↔ ∀ o, (h.he e).opp = some o → ∀ f ∈ C, (h.he o).face ≠ some f := by
  unfold Mesh.onBoundaryOf
  cases (h.he e).opp with
  | none => simp
  | some o =>
    simp only [List.all_eq_true, decide_eq_true_eq, Option.some.injEq, forall_eq']
    exact ⟨fun hh f hf hc => hh f hf hc.symm, fun hh f hf hc => hh f hf hc.symm⟩

/-- What `getFacesBoundary` returns, and the sum over it of a quantity that changes sign with the direction of the half-edges. -/
theorem Spec.Valid.boundary (H : Spec.Valid h F) (hC : ∀ f ∈ C, f ∈ F) (hnd : C.Nodup) :
    ∃ ls b, C.mapM h.getFaceEdges = .ok ls ∧ h.getFacesBoundary C = .ok b ∧ b.Nodup ∧ (∀ e, e ∈ b ↔ Spec.Border h C e) ∧
      List.Forall₂ (fun f l => ∃ a b c, l = [a, b, c] ∧ Tri h f a b c ∧ h.fe f = some a) C ls ∧
      ∀ {A : Type} [AddCommGroup A] (φ : ℕ → A), (∀ x : A, x + x = 0 → x = 0) →
        (∀ e o, Spec.Live h F e → (h.he e).opp = some o → φ o = - φ e) → (b.map φ).sum = (ls.flatten.map φ).sum := by
  obtain ⟨ls, h1, h2, h3, h4⟩ := H.allEdges C hC hnd
  have hbd : ∀ e, e ∈ ls.flatten.filter (h.onBoundaryOf C) ↔ Spec.Border h C e := by
    intro e
    rw [List.mem_filter, h3, onBoundaryOf_iff]
    rfl
  refine ⟨ls, ls.flatten.filter (h.onBoundaryOf C), h1, ?_, h2.filter _, hbd, h4, ?_⟩
  · unfold Mesh.getFacesBoundary
    rw [h1]; rfl
  · intro A _ φ hA hφ
    have hsplit : (ls.flatten.map φ).sum = ((ls.flatten.filter (h.onBoundaryOf C)).map φ).sum +
        ((ls.flatten.filter (fun e => !h.onBoundaryOf C e)).map φ).sum := by
      generalize ls.flatten = l
      induction l with
      | nil => simp
      | cons a l ih =>
        by_cases ha : h.onBoundaryOf C a
        · simp [ha, ih, add_assoc]
        · simp only [List.map_cons, List.sum_cons, List.filter_cons, ha, Bool.not_false, if_true, ih, Bool.false_eq_true, if_false]
          abel
    rw [hsplit]
    have hz : ((ls.flatten.filter (fun e => !h.onBoundaryOf C e)).map φ).sum = 0 := by
      have hint : ∀ e, e ∈ ls.flatten.filter (fun e => !h.onBoundaryOf C e) ↔
          (∃ f ∈ C, (h.he e).face = some f) ∧ ∃ o, (h.he e).opp = some o ∧ ∃ f ∈ C, (h.he o).face = some f := by
        intro e
        rw [List.mem_filter, h3]
        simp only [Bool.not_eq_true', ← Bool.not_eq_true, onBoundaryOf_iff]
        push Not
        simp
      rw [← List.sum_toFinset φ (h2.filter _)]
      refine Finset.sum_involution (fun e _ => (h.he e).opp.getD e) ?_ ?_ ?_ ?_
      · intro e he
        obtain ⟨⟨f, hf, hef⟩, o, ho, -⟩ := (hint e).mp (List.mem_toFinset.mp he)
        simp only [ho, Option.getD_some]
        rw [hφ e o ⟨f, hC f hf, hef⟩ ho]; abel
      · intro e he hne hc
        obtain ⟨⟨f, hf, hef⟩, o, ho, -⟩ := (hint e).mp (List.mem_toFinset.mp he)
        simp only [ho, Option.getD_some] at hc
        subst hc
        apply hne
        apply hA
        have := hφ o o ⟨f, hC f hf, hef⟩ ho
        nth_rewrite 1 [this]
        abel
      · intro e he
        obtain ⟨⟨f, hf, hef⟩, o, ho, hof⟩ := (hint e).mp (List.mem_toFinset.mp he)
        simp only [ho, Option.getD_some]
        rw [List.mem_toFinset, hint]
        exact ⟨hof, e, (H.opp_start ⟨f, hC f hf, hef⟩ ho).2.1, f, hf, hef⟩
      · intro e he
        obtain ⟨⟨f, hf, hef⟩, o, ho, hof⟩ := (hint e).mp (List.mem_toFinset.mp he)
        simp only [ho, Option.getD_some, (H.opp_start ⟨f, hC f hf, hef⟩ ho).2.1]
    rw [hz, add_zero]

/-- The sum over the half-edges of faces, face by face. -/
theorem sum_flatten_faces {A : Type} [AddCommGroup A] (φ : ℕ → A) (ψ : ℕ → A)
    (hψ : ∀ f a b c, f ∈ C → Tri h f a b c → h.fe f = some a → φ a + φ b + φ c = ψ f) :
    ∀ ls : List (List ℕ), List.Forall₂ (fun f l => ∃ a b c, l = [a, b, c] ∧ Tri h f a b c ∧ h.fe f = some a) C ls →
      (ls.flatten.map φ).sum = (C.map ψ).sum := by
  intro ls hls
  induction hls with
  | nil => rfl
  | @cons f l C ls h1 h2 ih =>
    obtain ⟨a, b, c, rfl, t, hfe⟩ := h1
    rw [List.flatten_cons, List.map_append, List.sum_append, ih (fun f' a b c hf' => hψ f' a b c (by simp [hf'])), List.map_cons, List.sum_cons]
    congr 1
    rw [← hψ f a b c (by simp) t hfe]
    simp [add_assoc]

theorem countP_eq_sum (p : ℕ → Prop) [DecidablePred p] (l : List ℕ) :
    ((l.countP fun e => decide (p e) : ℕ) : ℤ) = (l.map fun e => if p e then (1 : ℤ) else 0).sum := by
  induction l with
  | nil => rfl
  | cons a l ih =>
    rw [List.countP_cons, List.map_cons, List.sum_cons, ← ih]
    by_cases ha : p a <;> simp [ha, add_comm]

theorem Spec.Valid.start_opp (H : Spec.Valid h F) {e o : ℕ} (he : Spec.Live h F e) (ho : (h.he e).opp = some o) :
    Spec.start h o = (h.he e).vertex := by
  obtain ⟨h1, h2, -⟩ := H.opp_start he ho
  exact ((H.opp_start h1 h2).2.2).symm

/-- The border of a set of faces is balanced. -/
theorem Spec.Valid.balanced (H : Spec.Valid h F) (hC : ∀ f ∈ C, f ∈ F) (hnd : C.Nodup) {b : List ℕ} (hb : h.getFacesBoundary C = .ok b) :
    Spec.Balanced h b := by
  obtain ⟨ls, b', h1, h2, h3, h4, h5, h6⟩ := H.boundary hC hnd
  rw [h2] at hb; cases hb
  intro u
  have hz := h6 (A := ℤ) (fun e => (if (h.he e).vertex = u then (1 : ℤ) else 0) - if Spec.start h e = u then (1 : ℤ) else 0)
    (fun x hx => by omega) (by
      intro e o he ho
      rw [H.start_opp he ho, (H.opp_start he ho).2.2]
      ring)
  rw [sum_flatten_faces _ (fun _ => 0) (by
    intro f a b c hf t _
    simp only [t.start, t.rotate.start, t.rotate.rotate.start]
    ring) ls h5] at hz
  have hc := countP_eq_sum (fun e => (h.he e).vertex = u) b
  have hs := countP_eq_sum (fun e => Spec.start h e = u) b
  have : (b.map fun e => (if (h.he e).vertex = u then (1 : ℤ) else 0) - if Spec.start h e = u then (1 : ℤ) else 0).sum =
      (b.map fun e => if (h.he e).vertex = u then (1 : ℤ) else 0).sum - (b.map fun e => if Spec.start h e = u then (1 : ℤ) else 0).sum := by
    clear hz hc hs h2 h3 h4 h6
    induction b with
    | nil => rfl
    | cons a b ih => simp only [List.map_cons, List.sum_cons, ih]; ring
  rw [this, ← hc, ← hs] at hz
  simp at hz
  omega

/-- C43: the loops around a set of faces of a valid mesh are closed, and together are the half-edges of its border. -/
theorem C43_oriented_boundaries (H : Spec.Valid h F) (hC : ∀ f ∈ C, f ∈ F) (hnd : C.Nodup) :
    ∃ ls, h.getOrientedFacesBoundaries C = .ok ls ∧ ls.flatten.Nodup ∧ (∀ e, e ∈ ls.flatten ↔ Spec.Border h C e) ∧ ∀ c ∈ ls, Spec.Loop h c := by
  obtain ⟨ls, b, h1, h2, h3, h4, h5, h6⟩ := H.boundary hC hnd
  obtain ⟨r, q1, q2, q3, q4⟩ := C43_take_closed_loops h b (by
    intro e he
    obtain ⟨⟨f, hf, hef⟩, -⟩ := (h4 e).mp he
    obtain ⟨b, c, t⟩ := H.triAt (hC f hf) hef
    rw [t.pa]; simp)
  refine ⟨r, ?_, q2.nodup_iff.mp h3, ?_, q4 (H.balanced hC hnd h2)⟩
  · unfold Mesh.getOrientedFacesBoundaries
    rw [h2, R_bind_ok, q1]
  · intro e
    rw [← q2.mem_iff, h4]

end Gbs
