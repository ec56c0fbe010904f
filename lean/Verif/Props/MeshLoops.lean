import Verif.Props.MeshFlip
import Mathlib.Data.List.Chain
import Mathlib.Data.List.Count
import Mathlib.Data.List.Perm.Basic

/-!
# C43: extraction of closed loops
-/

namespace Gbs

variable {P : Type} {h : Mesh P}

/-- Every half-edge of the list starts where the one before it ends. -/
def Spec.Chained (h : Mesh P) (l : List ℕ) : Prop := l.IsChain fun a b => (h.he a).vertex = Spec.start h b

/-- A loop: chained, not empty, and its first half-edge starts where its last one ends. -/
def Spec.Loop (h : Mesh P) (l : List ℕ) : Prop :=
  Spec.Chained h l ∧ ∃ a b, l.head? = some a ∧ l.getLast? = some b ∧ Spec.start h a = (h.he b).vertex

/-- Every vertex is the end of as many half-edges of the list as it is the start of. -/
def Spec.Balanced (h : Mesh P) (l : List ℕ) : Prop :=
  ∀ u, l.countP (fun e => decide ((h.he e).vertex = u)) = l.countP (fun e => decide (Spec.start h e = u))

theorem startV_eq {e : ℕ} (he : (h.he e).prev ≠ none) : h.startV e = .ok (Spec.start h e) := by
  obtain ⟨p, hp⟩ := Option.ne_none_iff_exists'.mp he
  unfold Mesh.startV Spec.start
  rw [hp]; rfl

/-- In a chain, a vertex is the start of as many half-edges as it is the end of, but for the ends of the chain. -/
theorem chain_count (h : Mesh P) (u : Option ℕ) : ∀ (l : List ℕ) (a b : ℕ), Spec.Chained h l → l.head? = some a → l.getLast? = some b →
    l.countP (fun e => decide ((h.he e).vertex = u)) + (if Spec.start h a = u then 1 else 0) =
      l.countP (fun e => decide (Spec.start h e = u)) + (if (h.he b).vertex = u then 1 else 0)
  | [], a, b, _, ha, _ => by simp at ha
  | [x], a, b, _, ha, hb => by
    simp at ha hb; subst ha hb
    simp [List.countP_cons]; omega
  | x :: y :: l, a, b, hc, ha, hb => by
    have ih := chain_count h u (y :: l) y b (List.isChain_cons_cons.mp hc).2 rfl (by simpa using hb)
    have hxy := (List.isChain_cons_cons.mp hc).1
    simp at ha; subst ha
    rw [List.countP_cons, List.countP_cons (a := x)]
    simp only [decide_eq_true_eq]
    rw [hxy]
    omega

theorem takeEndingAt_some {v : Option ℕ} {l l' : List ℕ} {e : ℕ} (hh : h.takeEndingAt v l = some (e, l')) :
    (h.he e).vertex = v ∧ List.Perm l (e :: l') := by
  unfold Mesh.takeEndingAt at hh
  cases hf : l.find? (fun e => decide ((h.he e).vertex = v)) with
  | none => rw [hf] at hh; simp at hh
  | some x =>
    rw [hf] at hh
    simp only [Option.some.injEq, Prod.mk.injEq] at hh
    obtain ⟨rfl, rfl⟩ := hh
    refine ⟨by simpa using List.find?_some (p := fun e => decide ((h.he e).vertex = v)) hf, ?_⟩
    exact List.perm_cons_erase (List.mem_of_find?_eq_some hf)

theorem takeEndingAt_none {v : Option ℕ} {l : List ℕ} (hh : h.takeEndingAt v l = none) : ∀ e ∈ l, (h.he e).vertex ≠ v := by
  unfold Mesh.takeEndingAt at hh
  cases hf : l.find? (fun e => decide ((h.he e).vertex = v)) with
  | none =>
    rw [List.find?_eq_none] at hf
    intro e he; simpa using hf e he
  | some x => rw [hf] at hh; simp at hh

/-- What the inner loop returns. -/
theorem takeChain_spec (h : Mesh P) : ∀ (k front : ℕ) (acc l : List ℕ), l.length ≤ k → (∀ e ∈ front :: l, (h.he e).prev ≠ none) →
    Spec.Chained h (front :: acc) →
    ∃ c l' f', h.takeChain k front acc l = .ok (c, l') ∧ List.Perm (front :: acc ++ l) (c ++ l') ∧ Spec.Chained h c ∧ c.head? = some f' ∧
      c.getLast? = (front :: acc).getLast? ∧ (∀ e ∈ l', (h.he e).vertex ≠ Spec.start h f') ∧ l'.length ≤ l.length := by
  intro k
  induction k with
  | zero =>
    intro front acc l hk hp hc
    have : l = [] := by simpa using hk
    subst this
    exact ⟨front :: acc, [], front, rfl, List.Perm.refl _, hc, rfl, rfl, by simp, le_rfl⟩
  | succ k ih =>
    intro front acc l hk hp hc
    cases l with
    | nil => exact ⟨front :: acc, [], front, by simp [Mesh.takeChain], List.Perm.refl _, hc, rfl, rfl, by simp, le_rfl⟩
    | cons x l =>
      rw [Mesh.takeChain, if_neg (by simp), startV_eq (hp front (by simp)), R_bind_ok]
      cases ht : h.takeEndingAt (Spec.start h front) (x :: l) with
      | none => exact ⟨front :: acc, x :: l, front, rfl, List.Perm.refl _, hc, rfl, rfl, takeEndingAt_none ht, le_rfl⟩
      | some r =>
        obtain ⟨e, l'⟩ := r
        obtain ⟨h1, h2⟩ := takeEndingAt_some ht
        have hlen := h2.length_eq
        simp only [List.length_cons] at hlen hk
        obtain ⟨c, l'', f', q1, q2, q3, q4, q5, q6, q7⟩ := ih e (front :: acc) l' (by omega)
          (fun y hy => hp y (List.mem_cons_of_mem _ (h2.mem_iff.mpr hy)))
          (List.isChain_cons_cons.mpr ⟨h1, hc⟩)
        refine ⟨c, l'', f', q1, ?_, q3, q4, by rw [q5]; simp, q6, by simp only [List.length_cons]; omega⟩
        refine List.Perm.trans ?_ q2
        refine (List.Perm.append_left (front :: acc) h2).trans ?_
        exact List.perm_middle

theorem takeLoops_spec (h : Mesh P) : ∀ (k : ℕ) (l : List ℕ), l.length ≤ k → (∀ e ∈ l, (h.he e).prev ≠ none) →
    ∃ ls, h.takeLoops k l = .ok ls ∧ List.Perm l ls.flatten ∧ (∀ c ∈ ls, c ≠ [] ∧ Spec.Chained h c) ∧
      (Spec.Balanced h l → ∀ c ∈ ls, Spec.Loop h c) := by
  intro k
  induction k with
  | zero =>
    intro l hk _
    have : l = [] := by simpa using hk
    subst this
    exact ⟨[], rfl, List.Perm.refl _, by simp, by simp⟩
  | succ k ih =>
    intro l hk hp
    cases l with
    | nil => exact ⟨[], rfl, List.Perm.refl _, by simp, by simp⟩
    | cons e l =>
      obtain ⟨c, l', f', q1, q2, q3, q4, q5, q6, q7⟩ := takeChain_spec h l.length e [] l le_rfl hp (List.isChain_singleton _)
      have q2 : List.Perm (e :: l) (c ++ l') := by simpa using q2
      have hne : c ≠ [] := by intro hc; rw [hc] at q4; simp at q4
      simp only [List.length_cons] at hk
      obtain ⟨ls, r1, r2, r3, r4⟩ := ih l' (by omega) (fun y hy => hp y (q2.mem_iff.mpr (by simp [hy])))
      refine ⟨c :: ls, ?_, ?_, ?_, ?_⟩
      · rw [Mesh.takeLoops, q1, R_bind_ok]
        simp only
        rw [r1]; rfl
      · rw [List.flatten_cons]
        exact q2.trans (List.Perm.append_left c r2)
      · intro d hd
        rcases List.mem_cons.mp hd with rfl | hd
        · exact ⟨hne, q3⟩
        · exact r3 d hd
      · intro hb
        -- the chain is closed
        have hlast : c.getLast? = some e := by rw [q5]; rfl
        have hcl : Spec.start h f' = (h.he e).vertex := by
          by_contra hn
          have h1 := chain_count h (Spec.start h f') c f' e q3 q4 hlast
          rw [if_pos rfl, if_neg (fun hc => hn hc.symm)] at h1
          have h2 := hb (Spec.start h f')
          rw [q2.countP_eq, q2.countP_eq, List.countP_append, List.countP_append] at h2
          have h3 : l'.countP (fun e => decide ((h.he e).vertex = Spec.start h f')) = 0 := by
            rw [List.countP_eq_zero]
            intro a ha; simpa using q6 a ha
          omega
        have hbc : Spec.Balanced h c := by
          intro u
          have h1 := chain_count h u c f' e q3 q4 hlast
          rw [hcl] at h1
          omega
        have hbl : Spec.Balanced h l' := by
          intro u
          have h1 := hb u
          rw [q2.countP_eq, q2.countP_eq, List.countP_append, List.countP_append] at h1
          have h2 := hbc u
          omega
        intro d hd
        rcases List.mem_cons.mp hd with rfl | hd
        · exact ⟨q3, f', e, q4, hlast, hcl⟩
        · exact r4 hbl d hd

/-- C43: `takeClosedLoops` ends, its lists together are a permutation of the half-edges given, none is empty, and in each list every half-edge starts where
the one before it ends. When every vertex is the end of as many half-edges as it is the start of, each list is closed. -/
theorem C43_take_closed_loops (h : Mesh P) (l : List ℕ) (hp : ∀ e ∈ l, (h.he e).prev ≠ none) :
    ∃ ls, h.takeClosedLoops l = .ok ls ∧ List.Perm l ls.flatten ∧ (∀ c ∈ ls, c ≠ [] ∧ Spec.Chained h c) ∧
      (Spec.Balanced h l → ∀ c ∈ ls, Spec.Loop h c) := takeLoops_spec h l.length l le_rfl hp

example : ∃ ls, Sample.twoTris.takeClosedLoops [0, 2, 4, 5] = .ok ls ∧ ∀ c ∈ ls, Spec.Loop Sample.twoTris c := by
  obtain ⟨ls, h1, -, -, h4⟩ := C43_take_closed_loops Sample.twoTris [0, 2, 4, 5] (by decide)
  refine ⟨ls, h1, h4 ?_⟩
  intro u
  have e1 : (Sample.twoTris.he 0).vertex = some 1 := rfl
  have e2 : (Sample.twoTris.he 2).vertex = some 0 := rfl
  have e3 : (Sample.twoTris.he 4).vertex = some 3 := rfl
  have e4 : (Sample.twoTris.he 5).vertex = some 2 := rfl
  have s1 : Spec.start Sample.twoTris 0 = some 0 := rfl
  have s2 : Spec.start Sample.twoTris 2 = some 2 := rfl
  have s3 : Spec.start Sample.twoTris 4 = some 1 := rfl
  have s4 : Spec.start Sample.twoTris 5 = some 3 := rfl
  simp only [List.countP_cons, List.countP_nil, e1, e2, e3, e4, s1, s2, s3, s4]
  omega

example : Sample.twoTris.takeClosedLoops [0, 2, 4, 5] = .ok [[4, 5, 2, 0]] := by decide +kernel

end Gbs
