import Verif.Lemmas.Linear
import Verif.Model.Trim
import Verif.Model.Reparam

/-! # Knot insertion and trimming commute with linear maps of the poles, for every input -/

namespace Gbs

set_option linter.unusedSectionVars false

variable {K : Type} [Field K] [LinearOrder K]
variable {V W : Type} [AddCommGroup V] [Module K V] [AddCommGroup W] [Module K W]

theorem bind_rmap {α α' β β' : Type} {f : α → α'} {h : β → β'} {x : R α} {x' : R α'} {g : α → R β} {g' : α' → R β'}
    (hx : x' = rmap f x) (hg : ∀ a, g' (f a) = rmap h (g a)) : (x' >>= g') = rmap h (x >>= g) := by
  subst hx
  cases x with
  | error e => rfl
  | ok a => exact hg a

theorem bind_rmap_id {α β β' : Type} {h : β → β'} {x : R α} {g : α → R β} {g' : α → R β'}
    (hg : ∀ a, g' a = rmap h (g a)) : (x >>= g') = rmap h (x >>= g) := by
  cases x with
  | error e => rfl
  | ok a => exact hg a

theorem copyBody_map {α β : Type} (f : α → β) (S : List α) (off i : ℕ) (D : List α) :
    copyBody (S.map f) off i (D.map f) = rmap (List.map f) (copyBody S off i D) := by
  unfold copyBody
  exact bind_rmap (rd_map f S i) (fun a => wr_map f D _ a)

theorem insInner_map (f : V →ₗ[K] W) (u : K) (U : List K) (k L i : ℕ) (Rt : List V) :
    insInner u U k L i (Rt.map f) = rmap (List.map f) (insInner u U k L i Rt) := by
  unfold insInner
  refine bind_rmap_id fun a => bind_rmap_id fun b => bind_rmap_id fun alpha => ?_
  refine bind_rmap (rd_map f Rt _) fun x1 => bind_rmap (rd_map f Rt _) fun x0 => ?_
  rw [← wr_map]
  simp

/-- Linear image of the working storage. -/
def InsState.map (f : V → W) (st : InsState V) : InsState W := ⟨st.Rt.map f, st.Q.map f, st.L⟩

theorem insOuter_map (f : V →ₗ[K] W) (u : K) (U : List K) (p s r k j : ℕ) (st : InsState V) :
    insOuter u U p s r k j (st.map f) = rmap (InsState.map f) (insOuter u U p s r k j st) := by
  unfold insOuter
  refine bind_rmap_id fun kp => bind_rmap_id fun e => ?_
  refine bind_rmap (forLe_map (List.map f) (fun i s => insInner_map f u U k _ i s) 0 e st.Rt) fun Rt => ?_
  refine bind_rmap (rd_map f Rt _) fun x0 => bind_rmap (wr_map f st.Q _ x0) fun Q => ?_
  refine bind_rmap_id fun h => bind_rmap (rd_map f Rt _) fun xe => bind_rmap (wr_map f Q _ xe) fun Q => ?_
  rfl

theorem map_rep (f : V →ₗ[K] W) (n : ℕ) : List.replicate n (0 : W) = (List.replicate n (0 : V)).map f := by
  rw [List.map_replicate, map_zero]

theorem insertKnots_map (f : V →ₗ[K] W) (u : K) (p r : ℕ) (U : List K) (P : List V) :
    insertKnots u p r U (P.map f) = rmap (fun t => (t.1, t.2.1, t.2.2.map f)) (insertKnots u p r U P) := by
  unfold insertKnots
  simp only [List.length_map]
  split
  · rfl
  refine bind_rmap_id fun np => bind_rmap_id fun k => bind_rmap_id fun U1 => bind_rmap_id fun U2 => bind_rmap_id fun U3 => ?_
  refine bind_rmap_id fun kp => ?_
  refine bind_rmap (f := List.map f) (by rw [map_rep f]; exact forLe_map _ (fun i s => copyBody_map f P 0 i s) 0 kp _) fun Q1 => ?_
  refine bind_rmap_id fun ks => ?_
  refine bind_rmap (f := List.map f) (forLe_map _ (fun i s => copyBody_map f P _ i s) ks np _) fun Q2 => ?_
  refine bind_rmap (f := List.map f) (by
    rw [map_rep f]
    exact forLe_map _ (fun i s => bind_rmap (rd_map f P _) (fun a => wr_map f s _ a)) 0 _ _) fun Rt => ?_
  refine bind_rmap (f := InsState.map f) (forLe_map (InsState.map f) (fun j st => insOuter_map f u U p _ _ k j st) 1 _ ⟨Rt, Q2, 0⟩) fun st => ?_
  refine bind_rmap (f := List.map f) (forN_map _ (fun i s => bind_rmap_id fun d => bind_rmap (rd_map f st.Rt _) (fun a => wr_map f s _ a)) _ _ st.Q) fun Q3 => ?_
  rfl

theorem trimBegin_map (f : V →ₗ[K] W) (eps : K) (p : ℕ) (U : List K) (P : List V) (u : K) :
    trimBegin eps p U (P.map f) u = rmap (fun t => (t.1, t.2.map f)) (trimBegin eps p U P u) := by
  unfold trimBegin
  refine bind_rmap_id fun a => ?_
  split
  · rfl
  refine bind_rmap (insertKnots_map f u p p U P) fun t => ?_
  simp only
  refine bind_rmap_id fun g => bind_rmap_id fun a => ?_
  simp only [List.length_map]
  split
  · rfl
  · simp

theorem trimEnd_map (f : V →ₗ[K] W) (eps : K) (p : ℕ) (U : List K) (P : List V) (u : K) :
    trimEnd eps p U (P.map f) u = rmap (fun t => (t.1, t.2.map f)) (trimEnd eps p U P u) := by
  unfold trimEnd
  refine bind_rmap_id fun l => bind_rmap_id fun b => ?_
  split
  · rfl
  refine bind_rmap (insertKnots_map f u p p U P) fun t => ?_
  simp only
  split
  · rfl
  refine bind_rmap_id fun l2 => bind_rmap_id fun g => ?_
  simp only [List.length_map]
  split
  · rfl
  · simp

theorem trimKnots_map (f : V →ₗ[K] W) (eps : K) (p : ℕ) (U : List K) (P : List V) (u1 u2 : K) :
    trimKnots eps p U (P.map f) u1 u2 = rmap (fun t => (t.1, t.2.map f)) (trimKnots eps p U P u1 u2) := by
  unfold trimKnots
  exact bind_rmap (trimBegin_map f eps p U P _) fun t => trimEnd_map f eps p t.1 t.2 _

end Gbs
