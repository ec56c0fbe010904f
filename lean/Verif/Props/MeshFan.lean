import Verif.Props.MeshSpec

/-!
# What `add_face` and the fan of `add_vertex` do to the store
-/

namespace Gbs

variable {P : Type}

namespace Mesh

theorem newEdge_he (h : Mesh P) (v : ℕ) (f : Option ℕ) : (h.newEdge v f).1.he = Function.update h.he h.nE ⟨some v, f, none, none, none⟩ := by
  unfold newEdge; simp only; split <;> rfl

theorem newEdge_co (h : Mesh P) (v : ℕ) (f : Option ℕ) : (h.newEdge v f).1.co = h.co := by unfold newEdge; simp only; split <;> rfl

theorem newEdge_fe (h : Mesh P) (v : ℕ) (f : Option ℕ) : (h.newEdge v f).1.fe = h.fe := by unfold newEdge; simp only; split <;> rfl

theorem newEdge_nE (h : Mesh P) (v : ℕ) (f : Option ℕ) : (h.newEdge v f).1.nE = h.nE + 1 := by unfold newEdge; simp only; split <;> rfl

theorem newEdge_nV (h : Mesh P) (v : ℕ) (f : Option ℕ) : (h.newEdge v f).1.nV = h.nV := by unfold newEdge; simp only; split <;> rfl

theorem newEdge_nF (h : Mesh P) (v : ℕ) (f : Option ℕ) : (h.newEdge v f).1.nF = h.nF := by unfold newEdge; simp only; split <;> rfl

theorem newEdge_snd (h : Mesh P) (v : ℕ) (f : Option ℕ) : (h.newEdge v f).2 = h.nE := rfl

theorem newEdge_ve (h : Mesh P) (v : ℕ) (f : Option ℕ) (u : ℕ) :
    (h.newEdge v f).1.ve u = if u = v ∧ h.ve v = none then some h.nE else h.ve u := by
  unfold newEdge; simp only
  cases hv : h.ve v with
  | none => simp [setVE, Function.update_apply]
  | some x => simp

/-- The store after one step of the loop of `add_vertex`. -/
theorem fanStep (h : Mesh P) {v e p s : ℕ} {prev : Option ℕ} (he : e < h.nE) (hp : (h.he e).prev = some p) (hpE : p < h.nE)
    (hs : (h.he p).vertex = some s) (hprev : ∀ q, prev = some q → q < h.nE ∧ q ≠ e) :
    ∃ h', (∀ l, fanLoop v (e :: l) h prev = (do let (g, fs) ← fanLoop v l h' (some h.nE); pure (g, h.nF :: fs))) ∧
      h'.nE = h.nE + 2 ∧ h'.nF = h.nF + 1 ∧ h'.nV = h.nV ∧ h'.co = h.co ∧ h'.fe = Function.update h.fe h.nF (some e) ∧
      h'.he e = { h.he e with face := some h.nF, next := some h.nE, prev := some (h.nE + 1) } ∧
      h'.he h.nE = ⟨some v, some h.nF, some (h.nE + 1), some e, none⟩ ∧
      h'.he (h.nE + 1) = ⟨some s, some h.nF, some e, some h.nE, prev⟩ ∧
      (∀ x, x ≠ e → x < h.nE → h'.he x = if prev = some x then { h.he x with opp := some (h.nE + 1) } else h.he x) ∧
      (∀ x, h.nE + 2 ≤ x → h'.he x = h.he x) ∧
      (∀ u x, h.ve u = some x → h'.ve u = some x) ∧
      (∀ u x, h.ve u = none → h'.ve u = some x → u = v ∧ x = h.nE ∨ u = s ∧ x = h.nE + 1) ∧ h'.ve v ≠ none := by
  set h1 := (h.newEdge v).1 with h1d
  set h2 := (h1.newEdge s).1 with h2d
  have n1 : h1.nE = h.nE + 1 := newEdge_nE _ _ _
  have n2 : h2.nE = h.nE + 2 := by rw [h2d, newEdge_nE, n1]
  have e1 : h1.he = Function.update h.he h.nE ⟨some v, none, none, none, none⟩ := newEdge_he _ _ _
  have e2 : h2.he = Function.update (Function.update h.he h.nE ⟨some v, none, none, none, none⟩) (h.nE + 1) ⟨some s, none, none, none, none⟩ := by
    rw [h2d, newEdge_he, e1, n1]
  have hl : (h2.linkPrev (h.nE + 1) prev).fe = h2.fe ∧ (h2.linkPrev (h.nE + 1) prev).co = h2.co ∧ (h2.linkPrev (h.nE + 1) prev).ve = h2.ve ∧
      (h2.linkPrev (h.nE + 1) prev).nE = h2.nE ∧ (h2.linkPrev (h.nE + 1) prev).nV = h2.nV ∧ (h2.linkPrev (h.nE + 1) prev).nF = h2.nF := by
    cases prev <;> exact ⟨rfl, rfl, rfl, rfl, rfl, rfl⟩
  have he3 : ∀ x, (h2.linkPrev (h.nE + 1) prev).he x = if x = h.nE + 1 then ⟨some s, none, none, none, prev⟩ else if x = h.nE then ⟨some v, none, none, none, none⟩
      else if prev = some x then { h.he x with opp := some (h.nE + 1) } else h.he x := by
    intro x
    cases hpr : prev with
    | none =>
      simp only [linkPrev]
      rw [e2]
      simp only [Function.update_apply]
      simp
    | some q =>
      obtain ⟨hq1, hq2⟩ := hprev q hpr
      simp only [linkPrev, linkEdges, setE, e2, Function.update_apply, Option.some.injEq]
      by_cases hx1 : x = h.nE + 1
      · subst hx1
        simp [show h.nE + 1 ≠ q by omega]
      by_cases hx2 : x = h.nE
      · subst hx2
        simp [show h.nE ≠ q by omega]
      by_cases hx3 : x = q
      · subst hx3
        simp [hx1, hx2]
      · have hx4 : ¬ q = x := fun hc => hx3 hc.symm
        simp [hx1, hx2, hx3, hx4]
  obtain ⟨h', q1, q2, q3, q4, q5, q6, q7, q8, q9, q10, q11⟩ := (h2.linkPrev (h.nE + 1) prev).makeFace3 (a := e) (b := h.nE) (c := h.nE + 1) (by omega)
    (by omega) (by omega)
  have hF : (h2.linkPrev (h.nE + 1) prev).nF = h.nF := by rw [hl.2.2.2.2.2, h2d, newEdge_nF, h1d, newEdge_nF]
  rw [hF] at q1 q2 q7 q8 q9 q10
  have hve : ∀ u, h'.ve u = if u = s ∧ h1.ve s = none then some (h.nE + 1) else if u = v ∧ h.ve v = none then some h.nE else h.ve u := by
    intro u
    rw [q4, hl.2.2.1, h2d, newEdge_ve, n1, h1d, newEdge_ve, newEdge_ve]
  refine ⟨h', ?_, by rw [q5, hl.2.2.2.1, n2], q7, by rw [q6, hl.2.2.2.2.1, h2d, newEdge_nV, h1d, newEdge_nV],
    by rw [q3, hl.2.1, h2d, newEdge_co, h1d, newEdge_co], by rw [q2, hl.1, h2d, newEdge_fe, h1d, newEdge_fe], ?_, ?_, ?_, ?_, ?_, ?_, ?_, ?_⟩
  · intro l
    rw [fanLoop]
    have hst : h1.startV e = .ok (some s) := by
      unfold startV
      rw [e1]
      simp only [Function.update_apply, if_neg (show e ≠ h.nE by omega), hp, deref]
      rw [R_bind_ok]
      simp only [if_neg (show p ≠ h.nE by omega), hs]
      rfl
    show (do
      let s' ← h1.startV e
      let s' ← deref s'
      let (h3, f) ← ((h1.newEdge s').1.linkPrev (h1.newEdge s').2 prev).makeFace [e, h.nE, (h1.newEdge s').2]
      let f ← deref f
      let (h4, fs) ← fanLoop v l h3 (some h.nE)
      pure (h4, f :: fs)) = _
    rw [hst, R_bind_ok]
    simp only [deref, R_bind_ok, newEdge_snd, n1]
    rw [← h2d, q1, R_bind_ok]
    rfl
  · rw [q8, he3, if_neg (by omega), if_neg (by omega), if_neg (fun hc => (hprev e hc).2 rfl)]
  · rw [q9, he3, if_neg (by omega), if_pos rfl]
  · rw [q10, he3, if_pos rfl]
  · intro x hx1 hx2
    rw [q11 x hx1 (by omega) (by omega), he3, if_neg (by omega), if_neg (by omega)]
  · intro x hx
    rw [q11 x (by omega) (by omega) (by omega), he3, if_neg (by omega), if_neg (by omega), if_neg]
    intro hc; have := (hprev x hc).1; omega
  · intro u x hux
    rw [hve]
    split
    · rename_i hc
      rw [hc.1] at hux
      rw [h1d, newEdge_ve] at hc
      by_cases hc' : s = v ∧ h.ve v = none
      · rw [if_pos hc'] at hc; simp at hc
      · rw [if_neg hc', hux] at hc; simp at hc
    · split
      · rename_i hc; rw [hc.1, hc.2] at hux; cases hux
      · exact hux
  · intro u x hu hux
    rw [hve] at hux
    split at hux
    · rename_i hc; cases hux; exact Or.inr ⟨hc.1, rfl⟩
    · split at hux
      · rename_i hc; cases hux; exact Or.inl ⟨hc.1, rfl⟩
      · rw [hu] at hux; cases hux
  · rw [hve]
    split
    · simp
    · split
      · simp
      · rename_i hc; simpa using hc

/-- The store after the loop of `add_vertex`. -/
theorem fanLoop_spec {v : ℕ} : ∀ (l : List ℕ) (h : Mesh P) (prev : Option ℕ), l.Nodup →
    (∀ e ∈ l, e < h.nE ∧ ∃ p s, (h.he e).prev = some p ∧ p < h.nE ∧ (h.he p).vertex = some s) →
    (∀ q, prev = some q → q < h.nE ∧ q ∉ l) →
    ∃ h', fanLoop v l h prev = .ok (h', (List.range l.length).map (h.nF + ·)) ∧ h'.nE = h.nE + 2 * l.length ∧ h'.nF = h.nF + l.length ∧
      h'.nV = h.nV ∧ h'.co = h.co ∧
      (∀ i (hi : i < l.length), h'.fe (h.nF + i) = some l[i] ∧
        h'.he l[i] = { h.he l[i] with face := some (h.nF + i), next := some (h.nE + 2 * i), prev := some (h.nE + 2 * i + 1) } ∧
        h'.he (h.nE + 2 * i) = ⟨some v, some (h.nF + i), some (h.nE + 2 * i + 1), some l[i],
          if i + 1 < l.length then some (h.nE + 2 * i + 3) else none⟩ ∧
        h'.he (h.nE + 2 * i + 1) = ⟨Spec.start h l[i], some (h.nF + i), some l[i], some (h.nE + 2 * i),
          if i = 0 then prev else some (h.nE + 2 * i - 2)⟩) ∧
      (∀ x, x < h.nE → x ∉ l → h'.he x = if l ≠ [] ∧ prev = some x then { h.he x with opp := some (h.nE + 1) } else h.he x) ∧
      (∀ x, h.nE + 2 * l.length ≤ x → h'.he x = h.he x) ∧
      (∀ f, f < h.nF → h'.fe f = h.fe f) ∧
      (∀ u x, h.ve u = some x → h'.ve u = some x) ∧
      (∀ u x, h.ve u = none → h'.ve u = some x → h.nE ≤ x ∧ x < h'.nE ∧ (h'.he x).vertex = some u) ∧
      (l ≠ [] → h'.ve v ≠ none) := by
  intro l
  induction l with
  | nil =>
    intro h prev _ _ _
    refine ⟨h, rfl, by simp, by simp, rfl, rfl, fun i hi => absurd hi (by simp), ?_, fun _ _ => rfl, fun _ _ => rfl, fun _ _ h => h, ?_, by simp⟩
    · intro x _ _; simp
    · intro u x h1 h2; rw [h1] at h2; cases h2
  | cons e l ih =>
    intro h prev hnd hl hprev
    obtain ⟨hel, hnd'⟩ := List.nodup_cons.mp hnd
    obtain ⟨heE, p, s, hp, hpE, hs⟩ := hl e (by simp)
    obtain ⟨h1, g1, g2, g3, g4, g5, g6, g7, g8, g9, g10, g11, g12, g13, g14⟩ := fanStep h (v := v) heE hp hpE hs (prev := prev) (fun q hq => by
      obtain ⟨a, b⟩ := hprev q hq
      exact ⟨a, fun hc => b (by simp [hc])⟩)
    -- the vertices and the other half-edges are unchanged
    have hvx : ∀ x, x < h.nE → (h1.he x).vertex = (h.he x).vertex := by
      intro x hx
      by_cases hxe : x = e
      · rw [hxe, g7]
      · rw [g10 x hxe hx]; split <;> rfl
    have hst : ∀ x ∈ l, Spec.start h1 x = Spec.start h x ∧ (∃ p s, (h1.he x).prev = some p ∧ p < h1.nE ∧ (h1.he p).vertex = some s) ∧ h1.he x = h.he x := by
      intro x hx
      obtain ⟨hxE, px, sx, hpx, hpxE, hsx⟩ := hl x (by simp [hx])
      have hxe : x ≠ e := by rintro rfl; exact hel hx
      have hxx : h1.he x = h.he x := by
        rw [g10 x hxe hxE, if_neg]
        intro hc; exact (hprev x hc).2 (by simp [hx])
      refine ⟨?_, ⟨px, sx, by rw [hxx, hpx], by omega, by rw [hvx px hpxE, hsx]⟩, hxx⟩
      unfold Spec.start
      rw [hxx, hpx]
      simp [hvx px hpxE]
    obtain ⟨h2, k1, k2, k3, k4, k5, k6, k7, k8, k9, k10, k11, k12⟩ := ih h1 (some h.nE) hnd' (fun x hx => ⟨by
        have := (hl x (by simp [hx])).1
        omega, (hst x hx).2.1⟩) (by
      intro q hq
      cases hq
      refine ⟨by omega, fun hc => ?_⟩
      have := (hl h.nE (by simp [hc])).1
      omega)
    have hstart : Spec.start h e = some s := by simp [Spec.start, hp, hs]
    refine ⟨h2, ?_, by rw [k2, g2, List.length_cons]; omega, by rw [k3, g3, List.length_cons]; omega, k4.trans g4, k5.trans g5, ?_, ?_, ?_, ?_, ?_, ?_, ?_⟩
    · rw [g1, k1, R_bind_ok]
      show Except.ok _ = Except.ok _
      congr 2
      rw [List.length_cons, List.range_succ_eq_map, List.map_cons, List.map_map, g3]
      congr 1
      apply List.map_congr_left
      intro i _
      simp; omega
    · intro i hi
      match i with
      | 0 =>
        have hne : l ≠ [] → 0 + 1 < (e :: l).length := by
          intro hc
          have := List.length_pos_iff.mpr hc
          simp; omega
        refine ⟨?_, ?_, ?_, ?_⟩
        · rw [show h.nF + 0 = h.nF from rfl, k9 h.nF (by omega), g6]; simp
        · simp only [List.getElem_cons_zero]
          rw [k7 e (by omega) hel, if_neg (by rintro ⟨_, hc⟩; cases hc; omega), g7]
          rfl
        · simp only [List.getElem_cons_zero, Nat.mul_zero, Nat.add_zero]
          rw [k7 h.nE (by omega) (fun hc => by have := (hl h.nE (by simp [hc])).1; omega), g8, g2]
          by_cases hln : l = []
          · subst hln; simp
          · have := List.length_pos_iff.mpr hln
            simp [hln, show 0 < l.length by omega]
        · simp only [List.getElem_cons_zero, Nat.mul_zero, Nat.add_zero, if_true]
          rw [k7 (h.nE + 1) (by omega) (fun hc => by have := (hl (h.nE + 1) (by simp [hc])).1; omega),
            if_neg (by rintro ⟨_, hc⟩; simp at hc), g9, hstart]
      | i + 1 =>
        have hi' : i < l.length := by simpa using hi
        obtain ⟨m1, m2, m3, m4⟩ := k6 i hi'
        obtain ⟨s1, -, s3⟩ := hst l[i] (List.getElem_mem hi')
        have a1 : h1.nF + i = h.nF + (i + 1) := by omega
        have a2 : h1.nE + 2 * i = h.nE + 2 * (i + 1) := by omega
        simp only [a1, a2, s1, s3] at m1 m2 m3 m4
        simp only [List.getElem_cons_succ, List.length_cons, Nat.add_lt_add_iff_right]
        refine ⟨m1, m2, m3, ?_⟩
        rw [m4]
        congr 1
        rw [if_neg (show ¬ i + 1 = 0 by omega)]
        by_cases h0 : i = 0
        · subst h0; simp
        · rw [if_neg h0]
    · intro x hx hxl
      simp only [List.mem_cons, not_or] at hxl
      rw [k7 x (by omega) hxl.2, if_neg (by rintro ⟨_, hc⟩; cases hc; omega), g10 x hxl.1 hx]
      simp
    · intro x hx
      simp only [List.length_cons] at hx
      rw [k8 x (by omega), g11 x (by omega)]
    · intro f hf
      rw [k9 f (by omega), g6, Function.update_of_ne (by omega)]
    · intro u x hux
      exact k10 u x (g12 u x hux)
    · intro u x hu hux
      cases hu1 : h1.ve u with
      | none =>
        obtain ⟨b1, b2, b3⟩ := k11 u x hu1 hux
        exact ⟨by omega, b2, b3⟩
      | some y =>
        have := k10 u y hu1
        rw [this] at hux; cases hux
        rcases g13 u x hu hu1 with ⟨rfl, rfl⟩ | ⟨rfl, rfl⟩
        · refine ⟨le_rfl, by omega, ?_⟩
          rw [k7 h.nE (by omega) (fun hc => by have := (hl h.nE (by simp [hc])).1; omega), g8]
          split <;> rfl
        · refine ⟨by omega, by omega, ?_⟩
          rw [k7 (h.nE + 1) (by omega) (fun hc => by have := (hl (h.nE + 1) (by simp [hc])).1; omega), g9]
          split <;> rfl
    · intro _
      cases hv1 : h1.ve v with
      | none => exact absurd hv1 g14
      | some y => rw [k10 v y hv1]; simp

/-- The store after `add_vertex`: `n` triangles around the vertex, the `i`-th one made of `l[i]` and of the new half-edges `nE + 2i` towards the vertex and
`nE + 2i + 1` from it; each new half-edge towards the vertex is opposite to the half-edge from the vertex of the next triangle. -/
theorem addVertex_spec (h : Mesh P) {l : List ℕ} {v : ℕ} (hne : l ≠ []) (hnd : l.Nodup)
    (hl : ∀ e ∈ l, e < h.nE ∧ ∃ p s, (h.he e).prev = some p ∧ p < h.nE ∧ (h.he p).vertex = some s) :
    ∃ h', h.addVertex l v = .ok (h', (List.range l.length).map (h.nF + ·)) ∧ h'.nE = h.nE + 2 * l.length ∧ h'.nF = h.nF + l.length ∧
      h'.nV = h.nV ∧ h'.co = h.co ∧
      (∀ i (hi : i < l.length), h'.fe (h.nF + i) = some l[i] ∧
        h'.he l[i] = { h.he l[i] with face := some (h.nF + i), next := some (h.nE + 2 * i), prev := some (h.nE + 2 * i + 1) } ∧
        h'.he (h.nE + 2 * i) = ⟨some v, some (h.nF + i), some (h.nE + 2 * i + 1), some l[i],
          some (h.nE + 2 * (if i + 1 < l.length then i + 1 else 0) + 1)⟩ ∧
        h'.he (h.nE + 2 * i + 1) = ⟨Spec.start h l[i], some (h.nF + i), some l[i], some (h.nE + 2 * i),
          some (h.nE + 2 * (if i = 0 then l.length - 1 else i - 1))⟩) ∧
      (∀ x, x < h.nE → x ∉ l → h'.he x = h.he x) ∧
      (∀ x, h.nE + 2 * l.length ≤ x → h'.he x = h.he x) ∧
      (∀ f, f < h.nF → h'.fe f = h.fe f) ∧
      (∀ u x, u ≠ v → h.ve u = some x → h'.ve u = some x) ∧
      (∀ u x, (h.ve u = none ∨ u = v) → h'.ve u = some x → h.nE ≤ x ∧ x < h'.nE ∧ (h'.he x).vertex = some u) ∧
      h'.ve v ≠ none := by
  have hlen : 0 < l.length := List.length_pos_iff.mpr hne
  obtain ⟨h1, k1, k2, k3, k4, k5, k6, k7, k8, k9, k10, k11, k12⟩ := fanLoop_spec (v := v) l (h.setVE v none) none hnd hl (by simp)
  have sE : (h.setVE v none).nE = h.nE := rfl
  have sF : (h.setVE v none).nF = h.nF := rfl
  have sH : (h.setVE v none).he = h.he := rfl
  have sS : ∀ e, Spec.start (h.setVE v none) e = Spec.start h e := fun _ => rfl
  have sV : ∀ u, (h.setVE v none).ve u = if u = v then none else h.ve u := by
    intro u; simp [setVE, Function.update_apply]
  simp only [sE, sF, sH, sS] at k1 k2 k3 k6 k7 k8 k9 k11
  obtain ⟨a1, a2, a3, a4⟩ := k6 0 hlen
  obtain ⟨b1, b2, b3, b4⟩ := k6 (l.length - 1) (by omega)
  have hlk : ∀ x, (h1.linkEdges (h.nE + 2 * (l.length - 1)) (h.nE + 1)).he x =
      if x = h.nE + 1 then { h1.he x with opp := some (h.nE + 2 * (l.length - 1)) }
      else if x = h.nE + 2 * (l.length - 1) then { h1.he x with opp := some (h.nE + 1) } else h1.he x := by
    intro x
    simp only [linkEdges, setE, Function.update_apply, if_neg (show h.nE + 1 ≠ h.nE + 2 * (l.length - 1) by omega)]
    by_cases h1 : x = h.nE + 1
    · subst h1; simp
    by_cases h2 : x = h.nE + 2 * (l.length - 1)
    · subst h2; simp [h1]
    simp [h1, h2]
  refine ⟨h1.linkEdges (h.nE + 2 * (l.length - 1)) (h.nE + 1), ?_, k2, k3, k4, k5, ?_, ?_, ?_, k9, ?_, ?_, k12 hne⟩
  · unfold addVertex
    rw [k1, R_bind_ok]
    have r1 : rd ((List.range l.length).map (h.nF + ·)) (((List.range l.length).map (h.nF + ·)).length - 1) = .ok (h.nF + (l.length - 1)) := by
      rw [rd_eq_ok]; simp [hlen]
    have r2 : rd ((List.range l.length).map (h.nF + ·)) 0 = .ok (h.nF + 0) := by
      rw [rd_eq_ok]; simp [hlen]
    simp only [r1, r2, R_bind_ok, a1, b1, deref]
    rw [b2]; simp only [R_bind_ok]
    rw [a2]; simp only [R_bind_ok, Nat.mul_zero, Nat.add_zero]
    rfl
  · intro i hi
    obtain ⟨c1, c2, c3, c4⟩ := k6 i hi
    have hli := (hl l[i] (List.getElem_mem hi)).1
    refine ⟨c1, ?_, ?_, ?_⟩
    · rw [hlk, if_neg (by omega), if_neg (by omega), c2]
    · rw [hlk, if_neg (by omega)]
      by_cases hlast : i + 1 < l.length
      · rw [if_neg (by omega), c3, if_pos hlast, if_pos hlast]
        congr 2
      · rw [if_pos (by omega), c3]
        simp [hlast]
    · rw [hlk]
      by_cases h0 : i = 0
      · subst h0
        rw [if_pos (by omega), c4, if_pos rfl]
        simp
      · rw [if_neg (by omega), if_neg (by omega), c4, if_neg h0, if_neg h0]
        congr 2
        omega
  · intro x hx hxl
    rw [hlk, if_neg (by omega), if_neg (by omega), k7 x hx hxl, if_neg (by simp)]
  · intro x hx
    rw [hlk, if_neg (by omega), if_neg (by omega), k8 x hx]
  · intro u x huv hux
    exact k10 u x (by rw [sV, if_neg huv, hux])
  · intro u x hu hux
    obtain ⟨d1, d2, d3⟩ := k11 u x (by rw [sV]; rcases hu with h | h <;> simp [h]) hux
    refine ⟨d1, d2, ?_⟩
    rw [hlk]
    split
    · exact d3
    · split <;> exact d3

end Mesh

end Gbs
