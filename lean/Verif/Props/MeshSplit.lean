import Verif.Props.MeshFan
import Verif.Props.MeshFlip
import Mathlib.Tactic.IntervalCases

/-!
# C41: splitting a half-edge
-/

namespace Gbs

variable {P : Type} {h : Mesh P} {F : List ℕ}

theorem newEdge_facts (h : Mesh P) (v : ℕ) (f : Option ℕ) : ∃ g, h.newEdge v f = (g, h.nE) ∧
    g.he = Function.update h.he h.nE ⟨some v, f, none, none, none⟩ ∧ g.co = h.co ∧ g.fe = h.fe ∧ g.nE = h.nE + 1 ∧ g.nV = h.nV ∧ g.nF = h.nF ∧
    ∀ u y, h.ve u = some y → g.ve u = some y := by
  refine ⟨(h.newEdge v f).1, rfl, Mesh.newEdge_he h v f, Mesh.newEdge_co h v f, Mesh.newEdge_fe h v f, Mesh.newEdge_nE h v f, Mesh.newEdge_nV h v f,
    Mesh.newEdge_nF h v f, ?_⟩
  intro u y hu
  unfold Mesh.newEdge
  simp only
  split
  · rename_i hn
    have : u ≠ v := by rintro rfl; rw [hu] at hn; cases hn
    simp [Mesh.setVE, this, hu]
  · exact hu

/-- What the first half does. -/
theorem splitFace_spec (h : Mesh P) {e p n f nv c : ℕ} (hne : e ≠ n) (hnp : n ≠ p) (hpe : p ≠ e) (he : e < h.nE) (hn : n < h.nE) (hp : p < h.nE)
    (hf : f < h.nF) (hc : (h.he n).vertex = some c) :
    ∃ g, h.splitFace e p n f nv = .ok (g, h.nF) ∧ g.nE = h.nE + 3 ∧ g.nV = h.nV ∧ g.nF = h.nF + 1 ∧ g.co = h.co ∧
      g.he e = { h.he e with prev := some h.nE } ∧ g.he n = { h.he n with next := some h.nE } ∧
      g.he p = { h.he p with face := some h.nF, next := some (h.nE + 1), prev := some (h.nE + 2) } ∧
      g.he h.nE = ⟨some nv, some f, some e, some n, some (h.nE + 2)⟩ ∧
      g.he (h.nE + 1) = ⟨some nv, some h.nF, some (h.nE + 2), some p, none⟩ ∧
      g.he (h.nE + 2) = ⟨some c, some h.nF, some p, some (h.nE + 1), some h.nE⟩ ∧
      (∀ x, x ≠ e → x ≠ n → x ≠ p → x < h.nE → g.he x = h.he x) ∧ (∀ x, h.nE + 3 ≤ x → g.he x = h.he x) ∧
      g.fe f = some h.nE ∧ g.fe h.nF = some (h.nE + 1) ∧ (∀ x, x ≠ f → x < h.nF → g.fe x = h.fe x) ∧ g.ve nv = some e := by
  unfold Mesh.splitFace
  simp only
  obtain ⟨h1, a0, a1, a2, a3, a4, a5, a6, a7⟩ := newEdge_facts (h.setVE nv (some e)) nv (some f)
  rw [a0]
  simp only
  have a1' : h1.he = Function.update h.he h.nE ⟨some nv, some f, none, none, none⟩ := a1
  have a4' : h1.nE = h.nE + 1 := a4
  obtain ⟨h2, b0, b1, b2, b3, b4, b5, b6, b7⟩ := newEdge_facts (((h1.setFE f (some (h.setVE nv (some e)).nE)).chainEdges (h.setVE nv (some e)).nE e).chainEdges
    n (h.setVE nv (some e)).nE) nv none
  rw [b0]
  simp only
  have nE2 : h2.nE = h.nE + 2 := by rw [b4]; exact congrArg (· + 1) a4'
  have b1' : ∀ x, h2.he x = if x = h.nE + 1 then ⟨some nv, none, none, none, none⟩ else if x = h.nE then ⟨some nv, some f, some e, some n, none⟩ else
      if x = e then { h.he e with prev := some h.nE } else if x = n then { h.he n with next := some h.nE } else h.he x := by
    intro x
    rw [b1]
    have hE : (((h1.setFE f (some (h.setVE nv (some e)).nE)).chainEdges (h.setVE nv (some e)).nE e).chainEdges n (h.setVE nv (some e)).nE).nE = h.nE + 1 := a4'
    rw [hE]
    by_cases x1 : x = h.nE + 1
    · subst x1; simp
    rw [Function.update_of_ne x1, if_neg x1]
    simp only [Mesh.chainEdges, Mesh.setE, Mesh.setFE, Mesh.setVE, a1']
    by_cases x2 : x = h.nE
    · subst x2
      simp [Function.update_of_ne hn.ne', Function.update_of_ne he.ne', hn.ne', he.ne', Function.update_apply]
    · rw [if_neg x2]
      by_cases x3 : x = e
      · subst x3
        simp [Function.update_apply, hne, x2]
      · rw [if_neg x3]
        by_cases x4 : x = n
        · subst x4; simp [Function.update_apply, x2, x3]
        · simp [Function.update_apply, x2, x3, x4]
  have hcn : (deref (h2.he n).vertex : R ℕ) = .ok c := by
    rw [b1' n, if_neg (by omega), if_neg (by omega), if_neg (Ne.symm hne), if_pos rfl]
    simp only [hc]; rfl
  have e1 : (((h1.setFE f (some (h.setVE nv (some e)).nE)).chainEdges (h.setVE nv (some e)).nE e).chainEdges n (h.setVE nv (some e)).nE).nE = h.nE + 1 := a4'
  rw [hcn, R_bind_ok, e1]
  obtain ⟨h3, c0, c1, c2, c3, c4, c5, c6, c7⟩ := newEdge_facts h2 c none
  rw [c0]
  simp only
  rw [nE2]
  obtain ⟨g, d1, d2, d3, d4, d5, d6, d7, d8, d9, d10, d11⟩ := (h3.linkEdges (h.setVE nv (some e)).nE (h.nE + 2)).makeFace3 (a := h.nE + 1) (b := h.nE + 2)
    (c := p) (by omega) (by omega) (by omega)
  rw [d1, R_bind_ok]
  have hs : (h.setVE nv (some e)).nE = h.nE := rfl
  rw [hs] at d2 d3 d4 d5 d6 d7 d8 d9 d10 d11
  have hl : ∀ x, (h3.linkEdges h.nE (h.nE + 2)).he x = if x = h.nE + 2 then ⟨some c, none, none, none, some h.nE⟩ else
      if x = h.nE then ⟨some nv, some f, some e, some n, some (h.nE + 2)⟩ else h2.he x := by
    intro x
    simp only [Mesh.linkEdges, Mesh.setE, c1, nE2]
    by_cases x1 : x = h.nE + 2
    · subst x1; simp
    · by_cases x2 : x = h.nE
      · subst x2; simp [b1']
      · simp [Function.update_apply, x1, x2]
  have nF3 : h3.nF = h.nF := by rw [c6, b6]; exact a6
  have nFl : (h3.linkEdges h.nE (h.nE + 2)).nF = h.nF := nF3
  have fel : (h3.linkEdges h.nE (h.nE + 2)).fe = Function.update h.fe f (some h.nE) := by
    show h3.fe = _
    rw [c3, b3]
    show Function.update h1.fe f (some (h.setVE nv (some e)).nE) = _
    rw [a3]
    rfl
  rw [nFl] at d2 d7 d8 d9 d10
  rw [fel] at d2
  refine ⟨g, ?_, ?_, ?_, ?_, ?_, ?_, ?_, ?_, ?_, ?_, ?_, ?_, ?_, ?_, ?_, ?_, ?_⟩
  · show (Except.ok (g, (h3.linkEdges h.nE (h.nE + 2)).nF) : R _) = _
    rw [nFl]
  · rw [d5]; show h3.nE = _; rw [c4, nE2]
  · rw [d6]; show h3.nV = _; rw [c5, b5]; exact a5
  · exact d7
  · rw [d3]; show h3.co = _; rw [c2, b2]; exact a2
  · rw [d11 e (by omega) (by omega) (Ne.symm hpe), hl, if_neg (by omega), if_neg (by omega), b1', if_neg (by omega), if_neg (by omega), if_pos rfl]
  · rw [d11 n (by omega) (by omega) hnp, hl, if_neg (by omega), if_neg (by omega), b1', if_neg (by omega), if_neg (by omega), if_neg (Ne.symm hne), if_pos rfl]
  · rw [d10, hl, if_neg (by omega), if_neg (by omega), b1', if_neg (by omega), if_neg (by omega), if_neg hpe, if_neg (Ne.symm hnp)]
  · rw [d11 h.nE (by omega) (by omega) (by omega), hl, if_neg (by omega), if_pos rfl]
  · rw [d8, hl, if_neg (by omega), if_neg (by omega), b1', if_pos rfl]
  · rw [d9, hl, if_pos rfl]
  · intro x x1 x2 x3 x4
    rw [d11 x (by omega) (by omega) x3, hl, if_neg (by omega), if_neg (by omega), b1', if_neg (by omega), if_neg (by omega), if_neg x1, if_neg x2]
  · intro x x1
    rw [d11 x (by omega) (by omega) (by omega), hl, if_neg (by omega), if_neg (by omega), b1', if_neg (by omega), if_neg (by omega), if_neg (by omega),
      if_neg (by omega)]
  · rw [d2, Function.update_of_ne (by omega), Function.update_self]
  · rw [d2, Function.update_self]
  · intro x x1 x2
    rw [d2, Function.update_of_ne (by omega), Function.update_of_ne x1]
  · rw [d4]
    show h3.ve nv = _
    exact c7 _ _ (b7 _ _ (a7 _ _ (by simp [Mesh.setVE])))

/-- What the second half does. -/
theorem splitOpp_spec (h : Mesh P) {o q r f nv d s p : ℕ} (hoq : o ≠ q) (hqr : q ≠ r) (hro : r ≠ o) (ho : o < h.nE) (hq : q < h.nE) (hr : r < h.nE)
    (hp : p < h.nE) (hpo : p ≠ o) (hpr : p ≠ r) (hpq : p ≠ q) (hf : f < h.nF) (on : (h.he o).next = some q) (op : (h.he o).prev = some r)
    (ofc : (h.he o).face = some f) {ov : ℕ} (ovx : (h.he o).vertex = some ov) (hd : (h.he q).vertex = some d) (hs : (h.he p).vertex = some s) (hovn : ov ≠ nv)
    {vy : ℕ} (hvn : h.ve nv = some vy) :
    ∃ g, h.splitOpp o p nv = .ok (g, h.nF) ∧ g.nE = h.nE + 3 ∧ g.nV = h.nV ∧ g.nF = h.nF + 1 ∧ g.co = h.co ∧
      g.he o = { h.he o with vertex := some nv, next := some h.nE } ∧ g.he r = { h.he r with prev := some h.nE } ∧
      g.he q = { h.he q with face := some h.nF, next := some (h.nE + 1), prev := some (h.nE + 2) } ∧
      g.he h.nE = ⟨some d, some f, some r, some o, some (h.nE + 1)⟩ ∧
      g.he (h.nE + 1) = ⟨some nv, some h.nF, some (h.nE + 2), some q, some h.nE⟩ ∧
      g.he (h.nE + 2) = ⟨some s, some h.nF, some q, some (h.nE + 1), none⟩ ∧
      (∀ x, x ≠ o → x ≠ q → x ≠ r → x < h.nE → g.he x = h.he x) ∧ (∀ x, h.nE + 3 ≤ x → g.he x = h.he x) ∧
      g.fe f = some h.nE ∧ g.fe h.nF = some (h.nE + 1) ∧ (∀ x, x ≠ f → x < h.nF → g.fe x = h.fe x) ∧ g.ve nv = some vy := by
  unfold Mesh.splitOpp
  have dr : ∀ x, (deref (some x) : R ℕ) = .ok x := fun _ => rfl
  rw [op, on, ofc, ovx, dr, dr, dr, dr, R_bind_ok, R_bind_ok, R_bind_ok, R_bind_ok]
  simp only
  set h0 := (h.setVE ov (some p)).setE o fun r => { r with vertex := some nv } with h0d
  have z0 : ∀ x, h0.he x = if x = o then { h.he o with vertex := some nv } else h.he x := by
    intro x
    rw [h0d]
    by_cases x1 : x = o
    · subst x1; simp [Mesh.setE, Mesh.setVE]
    · simp [Mesh.setE, Mesh.setVE, x1]
  have zE : h0.nE = h.nE := rfl
  have zn : h0.ve nv = some vy := by
    show Function.update h.ve ov (some p) nv = _
    rw [Function.update_of_ne (Ne.symm hovn), hvn]
  have hdd : (deref (h0.he q).vertex : R ℕ) = .ok d := by rw [z0 q, if_neg (Ne.symm hoq), hd]; rfl
  rw [hdd, R_bind_ok]
  obtain ⟨h1, a0, a1, a2, a3, a4, a5, a6, a7⟩ := newEdge_facts h0 d (some f)
  rw [a0]
  simp only
  rw [zE] at a0 a1 a4 ⊢
  obtain ⟨h2, b0, b1, b2, b3, b4, b5, b6, b7⟩ := newEdge_facts (((h1.setFE f (some h.nE)).chainEdges o h.nE).chainEdges h.nE r) nv none
  rw [b0]
  simp only
  have hE : (((h1.setFE f (some h.nE)).chainEdges o h.nE).chainEdges h.nE r).nE = h.nE + 1 := a4
  rw [hE] at b1 b4 ⊢
  have nE2 : h2.nE = h.nE + 2 := b4
  have b1' : ∀ x, h2.he x = if x = h.nE + 1 then ⟨some nv, none, none, none, none⟩ else if x = h.nE then ⟨some d, some f, some r, some o, none⟩ else
      if x = o then { h.he o with vertex := some nv, next := some h.nE } else if x = r then { h.he r with prev := some h.nE } else h.he x := by
    intro x
    rw [b1]
    by_cases x1 : x = h.nE + 1
    · subst x1; simp
    rw [Function.update_of_ne x1, if_neg x1]
    simp only [Mesh.chainEdges, Mesh.setE, Mesh.setFE, a1]
    by_cases x2 : x = h.nE
    · subst x2
      simp [hr.ne', ho.ne', Function.update_apply]
    · rw [if_neg x2]
      by_cases x3 : x = o
      · subst x3
        simp [Function.update_apply, Ne.symm hro, x2, z0]
      · rw [if_neg x3]
        by_cases x4 : x = r
        · subst x4; simp [Function.update_apply, x2, x3, z0]
        · simp [Function.update_apply, x2, x3, x4, z0]
  have hss : (deref (h2.he p).vertex : R ℕ) = .ok s := by
    rw [b1' p, if_neg (by omega), if_neg (by omega), if_neg hpo, if_neg hpr, hs]; rfl
  rw [hss, R_bind_ok]
  obtain ⟨h3, c0, c1, c2, c3, c4, c5, c6, c7⟩ := newEdge_facts h2 s none
  rw [c0]
  simp only
  rw [nE2]
  obtain ⟨g, d1, d2, d3, d4, d5, d6, d7, d8, d9, d10, d11⟩ := (h3.linkEdges h.nE (h.nE + 1)).makeFace3 (a := h.nE + 1) (b := h.nE + 2)
    (c := q) (by omega) (by omega) (by omega)
  rw [d1, R_bind_ok]
  have hl : ∀ x, (h3.linkEdges h.nE (h.nE + 1)).he x = if x = h.nE + 2 then ⟨some s, none, none, none, none⟩ else
      if x = h.nE + 1 then ⟨some nv, none, none, none, some h.nE⟩ else
      if x = h.nE then ⟨some d, some f, some r, some o, some (h.nE + 1)⟩ else h2.he x := by
    intro x
    simp only [Mesh.linkEdges, Mesh.setE, c1, nE2]
    by_cases x1 : x = h.nE + 2
    · subst x1; simp
    · by_cases x2 : x = h.nE
      · subst x2; simp [b1']
      · by_cases x3 : x = h.nE + 1
        · subst x3; simp [b1']
        · simp [Function.update_apply, x1, x2, x3]
  have nF3 : h3.nF = h.nF := by rw [c6, b6]; exact a6
  have nFl : (h3.linkEdges h.nE (h.nE + 1)).nF = h.nF := nF3
  have fel : (h3.linkEdges h.nE (h.nE + 1)).fe = Function.update h.fe f (some h.nE) := by
    show h3.fe = _
    rw [c3, b3]
    show Function.update h1.fe f (some h.nE) = _
    rw [a3]
    rfl
  rw [nFl] at d2 d7 d8 d9 d10
  rw [fel] at d2
  refine ⟨g, ?_, ?_, ?_, ?_, ?_, ?_, ?_, ?_, ?_, ?_, ?_, ?_, ?_, ?_, ?_, ?_, ?_⟩
  · show (Except.ok (g, (h3.linkEdges h.nE (h.nE + 1)).nF) : R _) = _
    rw [nFl]
  · rw [d5]; show h3.nE = _; rw [c4, nE2]
  · rw [d6]; show h3.nV = _; rw [c5, b5]; exact a5
  · exact d7
  · rw [d3]; show h3.co = _; rw [c2, b2]; exact a2
  · rw [d11 o (by omega) (by omega) hoq, hl, if_neg (by omega), if_neg (by omega), if_neg (by omega), b1', if_neg (by omega), if_neg (by omega), if_pos rfl]
  · rw [d11 r (by omega) (by omega) (Ne.symm hqr), hl, if_neg (by omega), if_neg (by omega), if_neg (by omega), b1', if_neg (by omega), if_neg (by omega),
      if_neg hro, if_pos rfl]
  · rw [d10, hl, if_neg (by omega), if_neg (by omega), if_neg (by omega), b1', if_neg (by omega), if_neg (by omega), if_neg (Ne.symm hoq), if_neg hqr]
  · rw [d11 h.nE (by omega) (by omega) (by omega), hl, if_neg (by omega), if_neg (by omega), if_pos rfl]
  · rw [d8, hl, if_neg (by omega), if_pos rfl]
  · rw [d9, hl, if_pos rfl]
  · intro x x1 x2 x3 x4
    rw [d11 x (by omega) (by omega) x2, hl, if_neg (by omega), if_neg (by omega), if_neg (by omega), b1', if_neg (by omega), if_neg (by omega), if_neg x1,
      if_neg x3]
  · intro x x1
    rw [d11 x (by omega) (by omega) (by omega), hl, if_neg (by omega), if_neg (by omega), if_neg (by omega), b1', if_neg (by omega), if_neg (by omega),
      if_neg (by omega), if_neg (by omega)]
  · rw [d2, Function.update_of_ne (by omega), Function.update_self]
  · rw [d2, Function.update_self]
  · intro x x1 x2
    rw [d2, Function.update_of_ne (by omega), Function.update_of_ne x1]
  · rw [d4]
    show h3.ve nv = _
    exact c7 _ _ (b7 _ _ (a7 _ _ zn))

/-- Valid but for the opposite of one half-edge. -/
structure Semi (h : Mesh P) (F : List ℕ) (e : ℕ) : Prop where
  nodup : F.Nodup
  faces : ∀ f ∈ F, f < h.nF
  edges : ∀ x f, (h.he x).face = some f → x < h.nE ∧ f < h.nF
  tri : ∀ f ∈ F, ∃ a b c, Tri h f a b c ∧ h.fe f = some a
  vertex : ∀ x, Spec.Live h F x → ∃ v, (h.he x).vertex = some v ∧ v < h.nV
  opp : ∀ x o, Spec.Live h F x → (h.he x).opp = some o → x ≠ e → o ≠ e → Spec.Live h F o ∧ (h.he o).opp = some x ∧ (h.he o).vertex = Spec.start h x
  back : ∀ x, Spec.Live h F x → (h.he x).opp = some e → (h.he e).opp = some x

theorem Semi.valid {e : ℕ} (S : Semi h F e) (ho : (h.he e).opp = none) : Spec.Valid h F := by
  refine Spec.Valid.of_tri S.nodup S.faces S.edges S.tri S.vertex ?_
  intro x o hx hxo
  refine S.opp x o hx hxo ?_ ?_
  · rintro rfl; rw [ho] at hxo; cases hxo
  · rintro rfl
    rw [S.back x hx hxo] at ho; cases ho

/-- After the first half. -/
theorem semi_one (H : Spec.Valid h F) {f e n p nv : ℕ} (hf : f ∈ F) (t : Tri h f e n p) (hnv : nv < h.nV) :
    ∃ g, h.splitFace e p n f nv = .ok (g, h.nF) ∧ Semi g (F ++ [h.nF]) e ∧ g.nE = h.nE + 3 ∧ g.nV = h.nV ∧ g.nF = h.nF + 1 ∧ g.co = h.co ∧
      (∀ x, x < h.nE → (g.he x).vertex = (h.he x).vertex ∧ (g.he x).opp = (h.he x).opp ∧ (x ≠ e → Spec.Live h F x → Spec.start g x = Spec.start h x)) ∧
      Spec.start g e = some nv ∧ (∀ x, x ≠ e → x ≠ n → x ≠ p → x < h.nE → g.he x = h.he x) ∧ g.ve nv = some e ∧
      Spec.Live g (F ++ [h.nF]) (h.nE + 1) ∧ (g.he (h.nE + 1)).vertex = some nv ∧ Spec.start g (h.nE + 1) = (h.he p).vertex ∧
      (g.he (h.nE + 1)).opp = none ∧ (∀ x, Spec.Live h F x → Spec.Live g (F ++ [h.nF]) x) ∧ (g.he p).face = some h.nF := by
  obtain ⟨c, hc, hcV⟩ := H.vertex n ⟨f, hf, t.fb⟩
  have he := (H.edges e f t.fa).1
  have hn := (H.edges n f t.fb).1
  have hp := (H.edges p f t.fc).1
  have hfF := H.faces f hf
  obtain ⟨g, k1, k2, k3, k4, k5, ge, gn, gp, g0, g1, g2, go, gz, f1, f2, f3, v1⟩ := splitFace_spec h (nv := nv) t.ab t.bc t.ca he hn hp hfF hc
  have big : ∀ x, h.nE + 3 ≤ x → (g.he x).face = none := by
    intro x hx
    rw [gz x hx]
    by_contra hh
    obtain ⟨y, hy⟩ := Option.ne_none_iff_exists'.mp hh
    have := (H.edges x y hy).1
    omega
  have hfn : f ≠ h.nF := by omega
  have tf : Tri g f e n h.nE := by
    refine ⟨t.ab, by omega, by omega, by rw [ge]; exact t.na, by rw [gn], by rw [g0], by rw [ge], by rw [gn]; exact t.pb, by rw [g0],
      by rw [ge]; exact t.fa, by rw [gn]; exact t.fb, by rw [g0], ?_⟩
    intro x hx
    by_cases x1 : x = e
    · exact Or.inl x1
    by_cases x2 : x = n
    · exact Or.inr (Or.inl x2)
    by_cases x3 : x = h.nE
    · exact Or.inr (Or.inr x3)
    exfalso
    by_cases x4 : x = p
    · rw [x4, gp] at hx; simp at hx; omega
    by_cases x5 : x = h.nE + 1
    · rw [x5, g1] at hx; simp at hx; omega
    by_cases x6 : x = h.nE + 2
    · rw [x6, g2] at hx; simp at hx; omega
    rcases Nat.lt_or_ge x h.nE with x7 | x7
    · rw [go x x1 x2 x4 x7] at hx
      rcases t.own x hx with h1 | h1 | h1 <;> contradiction
    · rw [big x (by omega)] at hx; cases hx
  have tn : Tri g h.nF (h.nE + 1) (h.nE + 2) p := by
    refine ⟨by omega, by omega, by omega, by rw [g1], by rw [g2], by rw [gp], by rw [g1], by rw [g2], by rw [gp], by rw [g1], by rw [g2], by rw [gp], ?_⟩
    intro x hx
    by_cases x1 : x = h.nE + 1
    · exact Or.inl x1
    by_cases x2 : x = h.nE + 2
    · exact Or.inr (Or.inl x2)
    by_cases x3 : x = p
    · exact Or.inr (Or.inr x3)
    exfalso
    by_cases x4 : x = e
    · rw [x4, ge] at hx; simp only [t.fa, Option.some.injEq] at hx; omega
    by_cases x5 : x = n
    · rw [x5, gn] at hx; simp only [t.fb, Option.some.injEq] at hx; omega
    by_cases x6 : x = h.nE
    · rw [x6, g0] at hx; simp only [Option.some.injEq] at hx; omega
    rcases Nat.lt_or_ge x h.nE with x7 | x7
    · rw [go x x4 x5 x3 x7] at hx
      have := (H.edges x _ hx).2
      omega
    · rw [big x (by omega)] at hx; cases hx
  have tk : ∀ k ∈ F, k ≠ f → ∀ a b c, Tri h k a b c → Tri g k a b c := by
    intro k hk hkf a b c t'
    have keep : ∀ x, (h.he x).face = some k → g.he x = h.he x := by
      intro x hx
      refine go x ?_ ?_ ?_ (H.edges x k hx).1
      · rintro rfl; rw [t.fa] at hx; cases hx; exact hkf rfl
      · rintro rfl; rw [t.fb] at hx; cases hx; exact hkf rfl
      · rintro rfl; rw [t.fc] at hx; cases hx; exact hkf rfl
    have ka := keep a t'.fa
    have kb := keep b t'.fb
    have kc := keep c t'.fc
    refine ⟨t'.ab, t'.bc, t'.ca, by rw [ka, t'.na], by rw [kb, t'.nb], by rw [kc, t'.nc], by rw [ka, t'.pa], by rw [kb, t'.pb], by rw [kc, t'.pc],
      by rw [ka, t'.fa], by rw [kb, t'.fb], by rw [kc, t'.fc], ?_⟩
    intro x hx
    have hkF := H.faces k hk
    by_cases x4 : x = e
    · rw [x4, ge] at hx; simp only [t.fa, Option.some.injEq] at hx; omega
    by_cases x5 : x = n
    · rw [x5, gn] at hx; simp only [t.fb, Option.some.injEq] at hx; omega
    by_cases x3 : x = p
    · rw [x3, gp] at hx; simp only [Option.some.injEq] at hx; omega
    by_cases x6 : x = h.nE
    · rw [x6, g0] at hx; simp only [Option.some.injEq] at hx; omega
    by_cases x8 : x = h.nE + 1
    · rw [x8, g1] at hx; simp only [Option.some.injEq] at hx; omega
    by_cases x9 : x = h.nE + 2
    · rw [x9, g2] at hx; simp only [Option.some.injEq] at hx; omega
    rcases Nat.lt_or_ge x h.nE with x7 | x7
    · rw [go x x4 x5 x3 x7] at hx
      exact t'.own x hx
    · rw [big x (by omega)] at hx; cases hx
  have hvo : ∀ x, x < h.nE → (g.he x).vertex = (h.he x).vertex ∧ (g.he x).opp = (h.he x).opp := by
    intro x hx
    by_cases x4 : x = e
    · rw [x4, ge]; exact ⟨rfl, rfl⟩
    by_cases x5 : x = n
    · rw [x5, gn]; exact ⟨rfl, rfl⟩
    by_cases x3 : x = p
    · rw [x3, gp]; exact ⟨rfl, rfl⟩
    rw [go x x4 x5 x3 hx]; exact ⟨rfl, rfl⟩
  have hst : ∀ x, x < h.nE → x ≠ e → Spec.Live h F x → Spec.start g x = Spec.start h x := by
    rintro x hx x4 ⟨k, hk, hxk⟩
    by_cases x5 : x = n
    · rw [x5, tf.rotate.start, t.rotate.start, ge]
    by_cases x3 : x = p
    · rw [x3, tn.rotate.rotate.start, t.rotate.rotate.start, g2, hc]
    have hkf : k ≠ f := by
      rintro rfl
      rcases t.own x hxk with h1 | h1 | h1 <;> contradiction
    obtain ⟨b, d, t'⟩ := H.triAt hk hxk
    rw [t'.start, (tk k hk hkf _ _ _ t').start]
    exact (hvo d (H.edges d k t'.fc).1).1
  have mnew : h.nF ∈ F ++ [h.nF] := by simp
  have mold : ∀ k ∈ F, k ∈ F ++ [h.nF] := fun k hk => by simp [hk]
  have hlive : ∀ x, Spec.Live h F x → Spec.Live g (F ++ [h.nF]) x := by
    rintro x ⟨k, hk, hxk⟩
    by_cases x4 : x = e
    · rw [x4]; exact ⟨f, mold f hf, tf.fa⟩
    by_cases x5 : x = n
    · rw [x5]; exact ⟨f, mold f hf, tf.fb⟩
    by_cases x3 : x = p
    · rw [x3]; exact ⟨h.nF, mnew, tn.fc⟩
    · exact ⟨k, mold k hk, by rw [go x x4 x5 x3 (H.edges x k hxk).1]; exact hxk⟩
  have hcases : ∀ x, Spec.Live g (F ++ [h.nF]) x → Spec.Live h F x ∨ x = h.nE ∨ x = h.nE + 1 ∨ x = h.nE + 2 := by
    rintro x ⟨k, hk, hxk⟩
    by_cases x4 : x = e
    · rw [x4]; exact Or.inl ⟨f, hf, t.fa⟩
    by_cases x5 : x = n
    · rw [x5]; exact Or.inl ⟨f, hf, t.fb⟩
    by_cases x3 : x = p
    · rw [x3]; exact Or.inl ⟨f, hf, t.fc⟩
    rcases Nat.lt_or_ge x h.nE with x7 | x7
    · rw [go x x4 x5 x3 x7] at hxk
      rcases List.mem_append.mp hk with hk | hk
      · exact Or.inl ⟨k, hk, hxk⟩
      · have := (H.edges x k hxk).2
        simp only [List.mem_singleton] at hk
        omega
    · rcases Nat.lt_or_ge x (h.nE + 3) with x8 | x8
      · omega
      · rw [big x x8] at hxk; cases hxk
  refine ⟨g, k1, ⟨?_, ?_, ?_, ?_, ?_, ?_, ?_⟩, k2, k3, k4, k5, fun x hx => ⟨(hvo x hx).1, (hvo x hx).2, hst x hx⟩, ?_, go, v1, ⟨h.nF, mnew, tn.fa⟩, by rw [g1], ?_,
    by rw [g1], hlive, tn.fc⟩
  · rw [List.nodup_append]
    refine ⟨H.nodup, by simp, ?_⟩
    intro a ha b hb hab
    have := H.faces a ha
    simp only [List.mem_singleton] at hb
    omega
  · intro k hk
    rw [k4]
    rcases List.mem_append.mp hk with hk | hk
    · have := H.faces k hk; omega
    · simp only [List.mem_singleton] at hk; omega
  · intro x k hxk
    rw [k2, k4]
    by_cases x4 : x = e
    · rw [x4, ge] at hxk; simp only [t.fa, Option.some.injEq] at hxk; omega
    by_cases x5 : x = n
    · rw [x5, gn] at hxk; simp only [t.fb, Option.some.injEq] at hxk; omega
    by_cases x3 : x = p
    · rw [x3, gp] at hxk; simp only [Option.some.injEq] at hxk; omega
    by_cases x6 : x = h.nE
    · rw [x6, g0] at hxk; simp only [Option.some.injEq] at hxk; omega
    by_cases x8 : x = h.nE + 1
    · rw [x8, g1] at hxk; simp only [Option.some.injEq] at hxk; omega
    by_cases x9 : x = h.nE + 2
    · rw [x9, g2] at hxk; simp only [Option.some.injEq] at hxk; omega
    rcases Nat.lt_or_ge x h.nE with x7 | x7
    · rw [go x x4 x5 x3 x7] at hxk
      have := H.edges x k hxk
      omega
    · rw [big x (by omega)] at hxk; cases hxk
  · intro k hk
    rcases List.mem_append.mp hk with hk | hk
    · by_cases hkf : k = f
      · subst hkf
        exact ⟨_, _, _, tf.rotate.rotate, f1⟩
      · obtain ⟨a, b, c', t', hfe⟩ := H.tri hk
        exact ⟨a, b, c', tk k hk hkf _ _ _ t', by rw [f3 k hkf (H.faces k hk)]; exact hfe⟩
    · simp only [List.mem_singleton] at hk
      subst hk
      exact ⟨_, _, _, tn, f2⟩
  · intro x hx
    rw [k3]
    rcases hcases x hx with hx | rfl | rfl | rfl
    · rw [(hvo x (H.live_lt hx)).1]; exact H.vertex x hx
    · exact ⟨nv, by rw [g0], hnv⟩
    · exact ⟨nv, by rw [g1], hnv⟩
    · exact ⟨c, by rw [g2], hcV⟩
  · intro x o hx hxo hxe hoe
    rcases hcases x hx with hx | rfl | rfl | rfl
    · have hxl := H.live_lt hx
      rw [(hvo x hxl).2] at hxo
      obtain ⟨q1, q2, -⟩ := H.opp x o hx hxo
      have q3 := H.opp_start hx hxo
      have hol := H.live_lt q1
      refine ⟨hlive o q1, by rw [(hvo o hol).2]; exact q2, ?_⟩
      rw [(hvo o hol).1, hst x hxl hxe hx]
      exact q3.2.2
    · rw [g0] at hxo
      cases hxo
      refine ⟨⟨h.nF, mnew, tn.fb⟩, by rw [g2], ?_⟩
      rw [g2, tf.rotate.rotate.start, gn, hc]
    · rw [g1] at hxo; cases hxo
    · rw [g2] at hxo
      cases hxo
      refine ⟨⟨f, mold f hf, tf.fc⟩, by rw [g0], ?_⟩
      rw [g0, tn.rotate.start, g1]
  · intro x hx hxe
    rcases hcases x hx with hx | rfl | rfl | rfl
    · rw [(hvo x (H.live_lt hx)).2] at hxe
      rw [(hvo e he).2]
      exact (H.opp x e hx hxe).2.1
    · rw [g0] at hxe; simp at hxe; omega
    · rw [g1] at hxe; cases hxe
    · rw [g2] at hxe; simp at hxe; omega
  · rw [tf.start, g0]
  · rw [tn.start, gp]

/-- After the second half. -/
theorem semi_two {e o k q r p nv vy : ℕ} (S : Semi h F e) (hk : k ∈ F) (t : Tri h k o q r) (he : Spec.Live h F e) (heo : (h.he e).opp = some o)
    (hoe : (h.he o).opp = some e) (hek : (h.he e).face ≠ some k) (hev : (h.he e).vertex = Spec.start h o) (hst : Spec.start h e = some nv)
    (hp : Spec.Live h F p) (hpk : (h.he p).face ≠ some k) (hpo : (h.he p).vertex = (h.he o).vertex) (hnv : nv < h.nV) (hon : (h.he o).vertex ≠ some nv)
    (hvn : h.ve nv = some vy) :
    ∃ g, h.splitOpp o p nv = .ok (g, h.nF) ∧ Spec.Valid g (F ++ [h.nF]) ∧ g.nV = h.nV ∧ g.co = h.co ∧
      (∀ x, x < h.nE → (x ≠ o → (g.he x).vertex = (h.he x).vertex) ∧ (g.he x).opp = (h.he x).opp ∧ (Spec.Live h F x → Spec.start g x = Spec.start h x)) ∧
      g.ve nv = some vy ∧ (g.he o).vertex = some nv ∧
      Spec.Live g (F ++ [h.nF]) (h.nE + 2) ∧ (g.he (h.nE + 2)).vertex = (h.he p).vertex ∧ Spec.start g (h.nE + 2) = some nv ∧
      (g.he (h.nE + 2)).opp = none ∧ ∀ x, Spec.Live h F x → Spec.Live g (F ++ [h.nF]) x := by
  obtain ⟨d, hd, hdV⟩ := S.vertex q ⟨k, hk, t.fb⟩
  obtain ⟨s, hs, hsV⟩ := S.vertex p hp
  obtain ⟨ov, hov, -⟩ := S.vertex o ⟨k, hk, t.fa⟩
  have hos : ov = s := by rw [hs, hov] at hpo; exact (Option.some.inj hpo).symm
  subst hos
  have ho' := (S.edges o k t.fa).1
  have hq' := (S.edges q k t.fb).1
  have hr' := (S.edges r k t.fc).1
  have hlt : ∀ x, Spec.Live h F x → x < h.nE := fun x ⟨f, _, hx⟩ => (S.edges x f hx).1
  have hkF := S.faces k hk
  have pne : ∀ x, (h.he x).face = some k → p ≠ x := by rintro x hx rfl; exact hpk hx
  have ene : ∀ x, (h.he x).face = some k → e ≠ x := by rintro x hx rfl; exact hek hx
  obtain ⟨g, k1, k2, k3, k4, k5, g_o, gr, gq, g0, g1, g2, go, gz, f1, f2, f3, v1⟩ := splitOpp_spec h t.ab t.bc t.ca ho' hq' hr' (hlt p hp) (pne o t.fa)
    (pne r t.fc) (pne q t.fb) hkF t.na t.pa t.fa hov hd hs (by intro hh; rw [hov, hh] at hon; exact hon rfl) hvn
  have big : ∀ x, h.nE + 3 ≤ x → (g.he x).face = none := by
    intro x hx
    rw [gz x hx]
    by_contra hh
    obtain ⟨y, hy⟩ := Option.ne_none_iff_exists'.mp hh
    have := (S.edges x y hy).1
    omega
  have tf : Tri g k o h.nE r := by
    refine ⟨by omega, by omega, t.ca, by rw [g_o], by rw [g0], by rw [gr]; exact t.nc, by rw [g_o]; exact t.pa, by rw [g0], by rw [gr],
      by rw [g_o]; exact t.fa, by rw [g0], by rw [gr]; exact t.fc, ?_⟩
    intro x hx
    by_cases x1 : x = o
    · exact Or.inl x1
    by_cases x2 : x = h.nE
    · exact Or.inr (Or.inl x2)
    by_cases x3 : x = r
    · exact Or.inr (Or.inr x3)
    exfalso
    by_cases x4 : x = q
    · rw [x4, gq] at hx; simp only [Option.some.injEq] at hx; omega
    by_cases x5 : x = h.nE + 1
    · rw [x5, g1] at hx; simp only [Option.some.injEq] at hx; omega
    by_cases x6 : x = h.nE + 2
    · rw [x6, g2] at hx; simp only [Option.some.injEq] at hx; omega
    rcases Nat.lt_or_ge x h.nE with x7 | x7
    · rw [go x x1 x4 x3 x7] at hx
      rcases t.own x hx with h1 | h1 | h1 <;> contradiction
    · rw [big x (by omega)] at hx; cases hx
  have tn : Tri g h.nF (h.nE + 1) (h.nE + 2) q := by
    refine ⟨by omega, by omega, by omega, by rw [g1], by rw [g2], by rw [gq], by rw [g1], by rw [g2], by rw [gq], by rw [g1], by rw [g2], by rw [gq], ?_⟩
    intro x hx
    by_cases x1 : x = h.nE + 1
    · exact Or.inl x1
    by_cases x2 : x = h.nE + 2
    · exact Or.inr (Or.inl x2)
    by_cases x3 : x = q
    · exact Or.inr (Or.inr x3)
    exfalso
    by_cases x4 : x = o
    · rw [x4, g_o] at hx; simp only [t.fa, Option.some.injEq] at hx; omega
    by_cases x5 : x = r
    · rw [x5, gr] at hx; simp only [t.fc, Option.some.injEq] at hx; omega
    by_cases x6 : x = h.nE
    · rw [x6, g0] at hx; simp only [Option.some.injEq] at hx; omega
    rcases Nat.lt_or_ge x h.nE with x7 | x7
    · rw [go x x4 x3 x5 x7] at hx
      have := (S.edges x _ hx).2
      omega
    · rw [big x (by omega)] at hx; cases hx
  have keep : ∀ x f, f ≠ k → (h.he x).face = some f → g.he x = h.he x := by
    intro x f hfk hx
    refine go x ?_ ?_ ?_ (S.edges x f hx).1
    · rintro rfl; rw [t.fa] at hx; cases hx; exact hfk rfl
    · rintro rfl; rw [t.fb] at hx; cases hx; exact hfk rfl
    · rintro rfl; rw [t.fc] at hx; cases hx; exact hfk rfl
  have tk : ∀ f ∈ F, f ≠ k → ∀ a b c, Tri h f a b c → Tri g f a b c := by
    intro f hf hfk a b c t'
    have ka := keep a f hfk t'.fa
    have kb := keep b f hfk t'.fb
    have kc := keep c f hfk t'.fc
    refine ⟨t'.ab, t'.bc, t'.ca, by rw [ka, t'.na], by rw [kb, t'.nb], by rw [kc, t'.nc], by rw [ka, t'.pa], by rw [kb, t'.pb], by rw [kc, t'.pc],
      by rw [ka, t'.fa], by rw [kb, t'.fb], by rw [kc, t'.fc], ?_⟩
    intro x hx
    have hfF := S.faces f hf
    by_cases x4 : x = o
    · rw [x4, g_o] at hx; simp only [t.fa, Option.some.injEq] at hx; omega
    by_cases x5 : x = r
    · rw [x5, gr] at hx; simp only [t.fc, Option.some.injEq] at hx; omega
    by_cases x3 : x = q
    · rw [x3, gq] at hx; simp only [Option.some.injEq] at hx; omega
    by_cases x6 : x = h.nE
    · rw [x6, g0] at hx; simp only [Option.some.injEq] at hx; omega
    by_cases x8 : x = h.nE + 1
    · rw [x8, g1] at hx; simp only [Option.some.injEq] at hx; omega
    by_cases x9 : x = h.nE + 2
    · rw [x9, g2] at hx; simp only [Option.some.injEq] at hx; omega
    rcases Nat.lt_or_ge x h.nE with x7 | x7
    · rw [go x x4 x3 x5 x7] at hx
      exact t'.own x hx
    · rw [big x (by omega)] at hx; cases hx
  have hvo : ∀ x, x < h.nE → (x ≠ o → (g.he x).vertex = (h.he x).vertex) ∧ (g.he x).opp = (h.he x).opp := by
    intro x hx
    by_cases x4 : x = o
    · rw [x4, g_o]; exact ⟨fun hh => absurd rfl hh, rfl⟩
    by_cases x5 : x = r
    · rw [x5, gr]; exact ⟨fun _ => rfl, rfl⟩
    by_cases x3 : x = q
    · rw [x3, gq]; exact ⟨fun _ => rfl, rfl⟩
    rw [go x x4 x3 x5 hx]; exact ⟨fun _ => rfl, rfl⟩
  have hstart : ∀ x, x < h.nE → Spec.Live h F x → Spec.start g x = Spec.start h x := by
    rintro x hx ⟨f, hf, hxf⟩
    by_cases x4 : x = o
    · rw [x4, tf.start, t.start, gr]
    by_cases x5 : x = r
    · rw [x5, tf.rotate.rotate.start, t.rotate.rotate.start, g0, hd]
    by_cases x3 : x = q
    · rw [x3, tn.rotate.rotate.start, t.rotate.start, g2, hov]
    have hfk : f ≠ k := by
      rintro rfl
      rcases t.own x hxf with h1 | h1 | h1 <;> contradiction
    obtain ⟨a, b, c, t', -⟩ := S.tri f hf
    have key : ∀ a b c, Tri h f a b c → Spec.start g a = Spec.start h a := by
      intro a b c t'
      rw [t'.start, (tk f hf hfk _ _ _ t').start, keep c f hfk t'.fc]
    rcases t'.own x hxf with rfl | rfl | rfl
    exacts [key _ _ _ t', key _ _ _ t'.rotate, key _ _ _ t'.rotate.rotate]
  have mnew : h.nF ∈ F ++ [h.nF] := by simp
  have mold : ∀ f ∈ F, f ∈ F ++ [h.nF] := fun f hf => by simp [hf]
  have hlive : ∀ x, Spec.Live h F x → Spec.Live g (F ++ [h.nF]) x := by
    rintro x ⟨f, hf, hxf⟩
    by_cases x4 : x = o
    · rw [x4]; exact ⟨k, mold k hk, tf.fa⟩
    by_cases x5 : x = r
    · rw [x5]; exact ⟨k, mold k hk, tf.fc⟩
    by_cases x3 : x = q
    · rw [x3]; exact ⟨h.nF, mnew, tn.fc⟩
    · exact ⟨f, mold f hf, by rw [go x x4 x3 x5 (S.edges x f hxf).1]; exact hxf⟩
  have hcases : ∀ x, Spec.Live g (F ++ [h.nF]) x → Spec.Live h F x ∨ x = h.nE ∨ x = h.nE + 1 ∨ x = h.nE + 2 := by
    rintro x ⟨f, hf, hxf⟩
    by_cases x4 : x = o
    · rw [x4]; exact Or.inl ⟨k, hk, t.fa⟩
    by_cases x5 : x = r
    · rw [x5]; exact Or.inl ⟨k, hk, t.fc⟩
    by_cases x3 : x = q
    · rw [x3]; exact Or.inl ⟨k, hk, t.fb⟩
    rcases Nat.lt_or_ge x h.nE with x7 | x7
    · rw [go x x4 x3 x5 x7] at hxf
      rcases List.mem_append.mp hf with hf | hf
      · exact Or.inl ⟨f, hf, hxf⟩
      · have := (S.edges x f hxf).2
        simp only [List.mem_singleton] at hf
        omega
    · rcases Nat.lt_or_ge x (h.nE + 3) with x8 | x8
      · omega
      · rw [big x x8] at hxf; cases hxf
  have heo' : e ≠ o := ene o t.fa
  refine ⟨g, k1, ?_, k3, k5, fun x hx => ⟨(hvo x hx).1, (hvo x hx).2, hstart x hx⟩, v1, by rw [g_o], ⟨h.nF, mnew, tn.fb⟩, by rw [g2, hs], ?_, by rw [g2], hlive⟩
  · refine Spec.Valid.of_tri ?_ ?_ ?_ ?_ ?_ ?_
    · rw [List.nodup_append]
      refine ⟨S.nodup, by simp, ?_⟩
      intro a ha b hb hab
      have := S.faces a ha
      simp only [List.mem_singleton] at hb
      omega
    · intro f hf
      rw [k4]
      rcases List.mem_append.mp hf with hf | hf
      · have := S.faces f hf; omega
      · simp only [List.mem_singleton] at hf; omega
    · intro x f hxf
      rw [k2, k4]
      by_cases x4 : x = o
      · rw [x4, g_o] at hxf; simp only [t.fa, Option.some.injEq] at hxf; omega
      by_cases x5 : x = r
      · rw [x5, gr] at hxf; simp only [t.fc, Option.some.injEq] at hxf; omega
      by_cases x3 : x = q
      · rw [x3, gq] at hxf; simp only [Option.some.injEq] at hxf; omega
      by_cases x6 : x = h.nE
      · rw [x6, g0] at hxf; simp only [Option.some.injEq] at hxf; omega
      by_cases x8 : x = h.nE + 1
      · rw [x8, g1] at hxf; simp only [Option.some.injEq] at hxf; omega
      by_cases x9 : x = h.nE + 2
      · rw [x9, g2] at hxf; simp only [Option.some.injEq] at hxf; omega
      rcases Nat.lt_or_ge x h.nE with x7 | x7
      · rw [go x x4 x3 x5 x7] at hxf
        have := S.edges x f hxf
        omega
      · rw [big x (by omega)] at hxf; cases hxf
    · intro f hf
      rcases List.mem_append.mp hf with hf | hf
      · by_cases hfk : f = k
        · subst hfk
          exact ⟨_, _, _, tf.rotate, f1⟩
        · obtain ⟨a, b, c', t', hfe⟩ := S.tri f hf
          exact ⟨a, b, c', tk f hf hfk _ _ _ t', by rw [f3 f hfk (S.faces f hf)]; exact hfe⟩
      · simp only [List.mem_singleton] at hf
        subst hf
        exact ⟨_, _, _, tn, f2⟩
    · intro x hx
      rw [k3]
      rcases hcases x hx with hx | rfl | rfl | rfl
      · by_cases x4 : x = o
        · rw [x4, g_o]; exact ⟨nv, rfl, hnv⟩
        · rw [(hvo x (hlt x hx)).1 x4]; exact S.vertex x hx
      · exact ⟨d, by rw [g0], hdV⟩
      · exact ⟨nv, by rw [g1], hnv⟩
      · exact ⟨ov, by rw [g2], hsV⟩
    · intro x y hx hxy
      rcases hcases x hx with hx | rfl | rfl | rfl
      · have hxl := hlt x hx
        rw [(hvo x hxl).2] at hxy
        rw [hstart x hxl hx]
        by_cases x1 : x = e
        · subst x1
          rw [heo] at hxy; cases hxy
          refine ⟨hlive o ⟨k, hk, t.fa⟩, by rw [(hvo o ho').2]; exact hoe, ?_⟩
          rw [g_o, hst]
        · by_cases y1 : y = e
          · subst y1
            have := S.back x hx hxy
            rw [heo] at this; cases this
            refine ⟨hlive y he, by rw [(hvo y (hlt y he)).2]; exact heo, ?_⟩
            rw [(hvo y (hlt y he)).1 heo']
            exact hev
          · obtain ⟨q1, q2, q3⟩ := S.opp x y hx hxy x1 y1
            have hyl := hlt y q1
            have y2 : y ≠ o := by
              rintro rfl
              rw [hoe] at q2; cases q2; exact x1 rfl
            exact ⟨hlive y q1, by rw [(hvo y hyl).2]; exact q2, by rw [(hvo y hyl).1 y2]; exact q3⟩
      · rw [g0] at hxy; cases hxy
        exact ⟨⟨h.nF, mnew, tn.fa⟩, by rw [g1], by rw [g1, tf.rotate.start, g_o]⟩
      · rw [g1] at hxy; cases hxy
        exact ⟨⟨k, mold k hk, tf.fb⟩, by rw [g0], by rw [g0, tn.start, gq, hd]⟩
      · rw [g2] at hxy; cases hxy
  · rw [tn.rotate.start, g1]

/-- C41 (partial): `splitHalfEdge` on a half-edge from `a` to `b` of a valid mesh, the face across being another one, makes a valid mesh with one more triangle
on each side. The half-edge now goes from the new vertex to `b`, and the half-edges other than it and its opposite have the same ends and opposites. The
property also asks that the mesh has no crack and that the new vertex designates one of its half-edges: see `C41_crack`. -/
theorem C41_split_partial (mid : P → P → P) (H : Spec.Valid h F) {f e : ℕ} (hf : f ∈ F) (hef : (h.he e).face = some f)
    (hself : ∀ o, (h.he e).opp = some o → (h.he o).face ≠ some f) :
    ∃ a b h' new, Spec.start h e = some a ∧ (h.he e).vertex = some b ∧ h.splitHalfEdge mid e = .ok (h', h.nV, new) ∧
      Spec.Valid h' (F ++ new) ∧ h'.nV = h.nV + 1 ∧ h'.co h.nV = mid (h.co a) (h.co b) ∧ (∀ u < h.nV, h'.co u = h.co u) ∧
      new = (if (h.he e).opp = none then [h.nF] else [h.nF, h.nF + 1]) ∧ Spec.start h' e = some h.nV ∧ (h'.he e).vertex = some b ∧
      (∀ x, Spec.Live h F x → Spec.Live h' (F ++ new) x) ∧
      (∀ x, Spec.Live h F x → x ≠ e → (h.he x).opp ≠ some e → Spec.start h' x = Spec.start h x ∧ (h'.he x).vertex = (h.he x).vertex ∧
        (h'.he x).opp = (h.he x).opp) ∧ h'.ve h.nV = some e ∧
      (∃ x, Spec.Live h' (F ++ new) x ∧ Spec.start h' x = some a ∧ (h'.he x).vertex = some h.nV ∧ (h'.he x).opp = none) ∧
      ∀ o, (h.he e).opp = some o → (h'.he e).opp = some o ∧ ∃ y, Spec.Live h' (F ++ new) y ∧ Spec.start h' y = some h.nV ∧ (h'.he y).vertex = some a ∧
        (h'.he y).opp = none := by
  obtain ⟨n, p, t⟩ := H.triAt hf hef
  obtain ⟨b, hb, hbV⟩ := H.vertex e ⟨f, hf, hef⟩
  obtain ⟨a, ha, haV⟩ := H.vertex p ⟨f, hf, t.fc⟩
  have hsa : Spec.start h e = some a := by rw [t.start, ha]
  have H1 : Spec.Valid (h.newVertex (mid (h.co a) (h.co b))).1 F :=
    ⟨H.nodup, H.faces, H.edges, H.ring, fun x hx => by
      obtain ⟨v, hv, hlt⟩ := H.vertex x hx
      exact ⟨v, hv, Nat.lt_succ_of_lt hlt⟩, H.opp⟩
  have t1 : Tri (h.newVertex (mid (h.co a) (h.co b))).1 f e n p :=
    ⟨t.ab, t.bc, t.ca, t.na, t.nb, t.nc, t.pa, t.pb, t.pc, t.fa, t.fb, t.fc, t.own⟩
  obtain ⟨g, k1, S, k2, k3, k4, k5, k6, k7, k8, k9, k10, k11, k12, k13, k14, k15⟩ := semi_one H1 hf t1 (nv := h.nV) (Nat.lt_succ_self h.nV)
  have he := (H.edges e f hef).1
  have dr : ∀ x, (deref (some x) : R ℕ) = .ok x := fun _ => rfl
  have hco1 : g.co h.nV = mid (h.co a) (h.co b) := by rw [k5]; simp [Mesh.newVertex]
  have hco2 : ∀ u < h.nV, g.co u = h.co u := by
    intro u hu
    rw [k5]
    simp only [Mesh.newVertex]
    rw [Function.update_of_ne (by omega)]
  have hrun : h.splitHalfEdge mid e = (match (h.he e).opp with
      | none => (.ok (g, h.nV, [h.nF]) : R _)
      | some o => (g.splitOpp o p h.nV >>= fun s => (.ok (s.1, h.nV, [h.nF, s.2]) : R _))) := by
    unfold Mesh.splitHalfEdge Mesh.startCo Mesh.endCo Mesh.startV
    rw [t.pa, t.na, hef, hb, dr, dr, dr, dr]
    simp only [R_bind_ok, R_pure]
    rw [ha, dr]
    simp only [R_bind_ok]
    have e1 : (h.newVertex (mid (h.co a) (h.co b))).2 = h.nV := rfl
    rw [e1, k1, R_bind_ok]
    rfl
  have hv_e : (g.he e).vertex = some b := by rw [(k6 e he).1]; exact hb
  refine ⟨a, b, ?_⟩
  rcases hopp : (h.he e).opp with _ | o
  · rw [hopp] at hrun
    refine ⟨g, [h.nF], hsa, hb, hrun, S.valid (by rw [(k6 e he).2.1]; exact hopp), k3, hco1, hco2, by simp, k7, hv_e, k14, ?_, k9, ?_, by simp⟩
    · intro x hx hxe _
      have := k6 x (H.live_lt hx)
      exact ⟨this.2.2 hxe hx, this.1, this.2.1⟩
    · exact ⟨h.nE + 1, k10, by rw [show (h.nE + 1) = (h.newVertex (mid (h.co a) (h.co b))).1.nE + 1 from rfl, k12]; exact ha, k11, k13⟩
  · rw [hopp] at hrun
    simp only at hrun
    obtain ⟨⟨k, hk, hok⟩, hoe, hov⟩ := H.opp_start ⟨f, hf, hef⟩ hopp
    have hkf : k ≠ f := by rintro rfl; exact hself o hopp hok
    obtain ⟨q, r, t'⟩ := H.triAt hk hok
    have notf : ∀ x, (h.he x).face = some k → x ≠ e ∧ x ≠ n ∧ x ≠ p := by
      intro x hx
      refine ⟨?_, ?_, ?_⟩
      · rintro rfl; rw [hef] at hx; cases hx; exact hkf rfl
      · rintro rfl; rw [t.fb] at hx; cases hx; exact hkf rfl
      · rintro rfl; rw [t.fc] at hx; cases hx; exact hkf rfl
    have keep : ∀ x, (h.he x).face = some k → g.he x = h.he x := fun x hx =>
      k8 x (notf x hx).1 (notf x hx).2.1 (notf x hx).2.2 (H.edges x k hx).1
    have hkS : k ∈ F ++ [h.nF] := by simp [hk]
    have tg : Tri g k o q r := by
      obtain ⟨a', b', c', t2, -⟩ := S.tri k hkS
      have f1 : (g.he o).face = some k := by rw [keep o hok]; exact hok
      have : ∃ x y, Tri g k o x y := by
        rcases t2.own o f1 with rfl | rfl | rfl
        exacts [⟨_, _, t2⟩, ⟨_, _, t2.rotate⟩, ⟨_, _, t2.rotate.rotate⟩]
      obtain ⟨x, y, t3⟩ := this
      have h1 := t3.na
      have h2 := t3.pa
      rw [keep o hok, t'.na] at h1
      rw [keep o hok, t'.pa] at h2
      cases h1; cases h2
      exact t3
    have hol := (H.edges o k hok).1
    have hoel : o ≠ e := (notf o hok).1
    have hov' : (h.he o).vertex = some a := by rw [hov]; exact hsa
    have hlo : Spec.Live h F o := ⟨k, hk, hok⟩
    have hbo : (h.he e).vertex = Spec.start h o := (H.opp_start hlo hoe).2.2
    have hpl := (H.edges p f t.fc).1
    obtain ⟨g', l1, l2, l3, l4, l5, l6, l7, l8, l9, l10, l11, l12⟩ := semi_two (nv := h.nV) (vy := e) (p := p) S hkS tg (k14 e ⟨f, hf, hef⟩)
      (by rw [(k6 e he).2.1]; exact hopp) (by rw [keep o hok]; exact hoe)
      (by
        intro hh
        obtain ⟨f', hf', hef'⟩ := k14 e ⟨f, hf, hef⟩
        rcases tg.own e hh with h1 | h1 | h1
        · exact hoel h1.symm
        · exact (notf q t'.fb).1 h1.symm
        · exact (notf r t'.fc).1 h1.symm)
      (by rw [(k6 e he).1, (k6 o hol).2.2 hoel hlo]; exact hbo) k7 (k14 p ⟨f, hf, t.fc⟩)
      (by rw [k15]; intro hh; have := H.faces k hk; simp only [Option.some.injEq] at hh; change h.nF = k at hh; omega)
      (by rw [(k6 p hpl).1, keep o hok, hov']; exact ha) (by rw [k3]; exact Nat.lt_succ_self _)
      (by rw [keep o hok, hov']; simp; omega) k9
    rw [l1, R_bind_ok] at hrun
    have hnF : g.nF = h.nF + 1 := k4
    have hnE : g.nE = h.nE + 3 := k2
    rw [hnF] at hrun l2 l8 l12
    have happ : F ++ [h.nF, h.nF + 1] = (F ++ [h.nF]) ++ [h.nF + 1] := by simp
    refine ⟨g', [h.nF, h.nF + 1], hsa, hb, hrun, by rw [happ]; exact l2, by rw [l3]; exact k3, by rw [l4]; exact hco1, fun u hu => by rw [l4]; exact hco2 u hu,
      by simp, ?_, ?_, ?_, ?_, l6, ?_, ?_⟩
    · rw [(l5 e (by omega)).2.2 (k14 e ⟨f, hf, hef⟩)]; exact k7
    · rw [(l5 e (by omega)).1 (Ne.symm hoel)]; exact hv_e
    · intro x hx
      rw [happ]
      exact l12 x (k14 x hx)
    · intro x hx hxe hxo
      have hxl := H.live_lt hx
      have m1 := k6 x hxl
      have m2 := l5 x (by omega)
      have hxo' : x ≠ o := by rintro rfl; exact hxo hoe
      exact ⟨(m2.2.2 (k14 x hx)).trans (m1.2.2 hxe hx), (m2.1 hxo').trans m1.1, m2.2.1.trans m1.2.1⟩
    · have hne : h.nE + 1 ≠ o := by omega
      have m2 := l5 (h.nE + 1) (by omega)
      refine ⟨h.nE + 1, by rw [happ]; exact l12 _ k10, ?_, (m2.1 hne).trans k11, m2.2.1.trans k13⟩
      rw [m2.2.2 k10]
      exact k12.trans ha
    · intro o' ho'
      cases ho'
      refine ⟨?_, g.nE + 2, by rw [happ]; exact l8, l10, ?_, l11⟩
      · rw [(l5 e (by omega)).2.1, (k6 e he).2.1]; exact hopp
      · rw [l9, (k6 p hpl).1]; exact ha

/-- C41 (negation): a half-edge with an opposite is replaced by two halves, one of which has no opposite although the two sides of it are there, and the new
vertex designates a half-edge that does not end at it. -/
theorem C41_crack (mid : P → P → P) (H : Spec.Valid h F) {f e o : ℕ} (hf : f ∈ F) (hef : (h.he e).face = some f) (hopp : (h.he e).opp = some o)
    (hself : (h.he o).face ≠ some f) :
    ∃ h' new, h.splitHalfEdge mid e = .ok (h', h.nV, new) ∧
      (∃ x y, Spec.Live h' (F ++ new) x ∧ Spec.Live h' (F ++ new) y ∧ Spec.start h' x = (h'.he y).vertex ∧ (h'.he x).vertex = Spec.start h' y ∧
        (h'.he x).opp = none ∧ (h'.he y).opp = none) ∧
      ∃ y, h'.ve h.nV = some y ∧ (h'.he y).vertex ≠ some h.nV := by
  obtain ⟨a, b, h', new, h1, h2, h3, h4, h5, h6, h7, h8, h9, h10, h11, h12, h13, ⟨x, x1, x2, x3, x4⟩, h15⟩ := C41_split_partial mid H hf hef (by
    intro o' ho'; rw [hopp] at ho'; cases ho'; exact hself)
  obtain ⟨-, y, y1, y2, y3, y4⟩ := h15 o hopp
  refine ⟨h', new, h3, ⟨x, y, x1, y1, by rw [x2, y3], by rw [x3, y2], x4, y4⟩, e, h13, ?_⟩
  rw [h10]
  obtain ⟨v, hv, hlt⟩ := H.vertex e ⟨f, hf, hef⟩
  rw [h2] at hv; cases hv
  simp
  omega

/-- The common side of two triangles. -/
example : ∃ h', Sample.twoTris.splitHalfEdge (fun a b => a + b) 1 = .ok (h', 4, [2, 3]) ∧ Spec.Valid h' [0, 1, 2, 3] := by
  obtain ⟨a, b, h', new, -, -, h3, h4, -, -, -, h8, -⟩ := C41_split_partial (fun a b => a + b) Sample.twoTris_valid (f := 0) (e := 1) (by simp) rfl (by
    intro o ho
    cases ho
    decide)
  subst h8
  exact ⟨h', h3, h4⟩

end Gbs
