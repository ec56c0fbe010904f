import Verif.Props.MeshFlip
import Mathlib.Logic.Relation
import Mathlib.Data.Fintype.Card
import Mathlib.Data.Fintype.Pigeonhole
import Mathlib.Tactic.IntervalCases

/-!
# C44, C72: half-edges around a vertex
-/

namespace Gbs

variable {P : Type} {h : Mesh P} {F : List ℕ}

/-- The half-edge that ends at the same vertex in the face across. -/
def Spec.Around (h : Mesh P) (e e' : ℕ) : Prop := ∃ o, (h.he e).opp = some o ∧ (h.he o).prev = some e'

/-- The fan of faces around the end of a half-edge has an outer half-edge. -/
def Spec.OpenFan (h : Mesh P) (e : ℕ) : Prop := ∃ e', Relation.ReflTransGen (Spec.Around h) e e' ∧ (h.he e').opp = none

/-- The next half-edge. -/
def around (h : Mesh P) (e : ℕ) : ℕ := ((h.he e).opp.bind fun o => (h.he o).prev).getD 0

theorem Spec.Valid.aroundStep (H : Spec.Valid h F) {e o : ℕ} (he : Spec.Live h F e) (ho : (h.he e).opp = some o) :
    (h.he o).prev = some (around h e) ∧ Spec.Live h F (around h e) ∧ (h.he (around h e)).vertex = (h.he e).vertex := by
  obtain ⟨⟨g, hg, hog⟩, h2, -⟩ := H.opp e o he ho
  obtain ⟨b, c, t⟩ := H.triAt hg hog
  have hc : around h e = c := by simp [around, ho, t.pa]
  rw [hc]
  refine ⟨t.pa, ⟨g, hg, t.fc⟩, ?_⟩
  obtain ⟨-, -, p, h3, h4⟩ := H.opp o e ⟨g, hg, hog⟩ h2
  rw [t.pa] at h3
  cases h3
  exact h4.symm

theorem Spec.Valid.around_inj (H : Spec.Valid h F) {e e' o o' : ℕ} (he : Spec.Live h F e) (he' : Spec.Live h F e') (ho : (h.he e).opp = some o)
    (ho' : (h.he e').opp = some o') (hh : around h e = around h e') : e = e' := by
  obtain ⟨⟨g, hg, hog⟩, h2, -⟩ := H.opp e o he ho
  obtain ⟨⟨g', hg', hog'⟩, h2', -⟩ := H.opp e' o' he' ho'
  obtain ⟨p1, -, -⟩ := H.aroundStep he ho
  obtain ⟨p1', -, -⟩ := H.aroundStep he' ho'
  obtain ⟨b, c, t⟩ := H.triAt hg hog
  obtain ⟨b', c', t'⟩ := H.triAt hg' hog'
  have e1 : c = around h e := by have := t.pa; rw [p1] at this; simpa using this.symm
  have e2 : c' = around h e' := by have := t'.pa; rw [p1'] at this; simpa using this.symm
  have n1 := t.nc
  have n2 := t'.nc
  rw [e1] at n1
  rw [e2, ← hh, n1] at n2
  cases n2
  rw [h2] at h2'
  exact Option.some.inj h2'

/-- As long as the walk has not ended. -/
theorem Spec.Valid.walk (H : Spec.Valid h F) {s : ℕ} (hs : Spec.Live h F s) (j : ℕ) (hj : ∀ i < j, (h.he ((around h)^[i] s)).opp ≠ none) :
    Spec.Live h F ((around h)^[j] s) ∧ (h.he ((around h)^[j] s)).vertex = (h.he s).vertex ∧ Relation.ReflTransGen (Spec.Around h) s ((around h)^[j] s) := by
  induction j with
  | zero => exact ⟨hs, rfl, Relation.ReflTransGen.refl⟩
  | succ j ih =>
    obtain ⟨h1, h2, h3⟩ := ih fun i hi => hj i (by omega)
    obtain ⟨o, ho⟩ := Option.ne_none_iff_exists'.mp (hj j (by omega))
    obtain ⟨k1, k2, k3⟩ := H.aroundStep h1 ho
    rw [Function.iterate_succ_apply']
    exact ⟨k2, k3.trans h2, h3.tail ⟨o, ho, k1⟩⟩

theorem Spec.Valid.walk_inj (H : Spec.Valid h F) {s : ℕ} (hs : Spec.Live h F s) (n : ℕ) (hj : ∀ i < n, (h.he ((around h)^[i] s)).opp ≠ none)
    (hns : ∀ i < n, (around h)^[i + 1] s ≠ s) : ∀ i j, i < j → j ≤ n → (around h)^[i] s ≠ (around h)^[j] s := by
  intro i
  induction i with
  | zero =>
    intro j h0 hjn heq
    obtain ⟨k, rfl⟩ : ∃ k, j = k + 1 := ⟨j - 1, by omega⟩
    exact hns k (by omega) heq.symm
  | succ i ih =>
    intro j hij hjn heq
    obtain ⟨k, rfl⟩ : ∃ k, j = k + 1 := ⟨j - 1, by omega⟩
    rw [Function.iterate_succ_apply', Function.iterate_succ_apply'] at heq
    obtain ⟨o, ho⟩ := Option.ne_none_iff_exists'.mp (hj i (by omega))
    obtain ⟨o', ho'⟩ := Option.ne_none_iff_exists'.mp (hj k (by omega))
    exact ih k (by omega) (by omega) (H.around_inj (H.walk hs i fun x hx => hj x (by omega)).1 (H.walk hs k fun x hx => hj x (by omega)).1 ho ho' heq)

theorem isBoundaryFrom_spec (H : Spec.Valid h F) {s : ℕ} (hs : Spec.Live h F s) : ∀ k j, k + j = h.nE + 1 →
    (∀ i < j, (h.he ((around h)^[i] s)).opp ≠ none) → (∀ i < j, (around h)^[i + 1] s ≠ s) →
    ∃ b, h.isBoundaryFrom s k ((around h)^[j] s) = .ok b ∧ (b = false ↔ Spec.OpenFan h s) := by
  intro k
  induction k with
  | zero =>
    intro j hkj ho hn
    exfalso
    have hinj := H.walk_inj hs j ho hn
    have hlt : ∀ i : Fin (h.nE + 1), (around h)^[i.1] s < h.nE := fun i => H.live_lt (H.walk hs i.1 fun x hx => ho x (by omega)).1
    obtain ⟨x, y, hxy, heq⟩ := Fintype.exists_ne_map_eq_of_card_lt (fun i : Fin (h.nE + 1) => (⟨(around h)^[i.1] s, hlt i⟩ : Fin h.nE)) (by simp)
    simp only [Fin.mk.injEq] at heq
    rcases Nat.lt_or_gt_of_ne (fun hh => hxy (Fin.ext hh)) with hh | hh
    · exact hinj x.1 y.1 hh (by omega) heq
    · exact hinj y.1 x.1 hh (by omega) heq.symm
  | succ k ih =>
    intro j hkj ho hn
    obtain ⟨w1, w2, w3⟩ := H.walk hs j ho
    rw [Mesh.isBoundaryFrom]
    rcases hopp : (h.he ((around h)^[j] s)).opp with _ | o
    · exact ⟨false, rfl, by simpa using ⟨_, w3, hopp⟩⟩
    · obtain ⟨k1, k2, k3⟩ := H.aroundStep w1 hopp
      simp only
      by_cases hc : (h.he o).prev = some s
      · rw [if_pos hc]
        refine ⟨true, rfl, by simp, ?_⟩
        rintro ⟨e', hr, hn'⟩
        exfalso
        -- the walk is a cycle
        have hcyc : ∀ e', Relation.ReflTransGen (Spec.Around h) s e' → ∃ i ≤ j, e' = (around h)^[i] s := by
          intro e' hr
          induction hr with
          | refl => exact ⟨0, by omega, rfl⟩
          | tail _ hst ih =>
            obtain ⟨i, hi, rfl⟩ := ih
            obtain ⟨o', ho', hp'⟩ := hst
            rcases Nat.lt_or_ge i j with hij | hij
            · obtain ⟨l1, -, -⟩ := H.aroundStep (H.walk hs i fun x hx => ho x (by omega)).1 ho'
              rw [l1] at hp'
              refine ⟨i + 1, by omega, ?_⟩
              rw [Function.iterate_succ_apply']
              exact (Option.some.inj hp').symm
            · obtain rfl : i = j := by omega
              rw [hopp] at ho'
              cases ho'
              rw [hc] at hp'
              exact ⟨0, by omega, (Option.some.inj hp').symm⟩
        obtain ⟨i, hi, rfl⟩ := hcyc e' hr
        rcases Nat.lt_or_ge i j with hij | hij
        · exact ho i hij hn'
        · obtain rfl : i = j := by omega
          rw [hopp] at hn'; cases hn'
      · rw [if_neg hc, k1]
        have e1 : (deref (some (around h ((around h)^[j] s))) : R ℕ) = .ok (around h ((around h)^[j] s)) := rfl
        rw [e1, R_bind_ok]
        have := ih (j + 1) (by omega) (by
          intro i hi
          rcases Nat.lt_or_ge i j with hij | hij
          · exact ho i hij
          · obtain rfl : i = j := by omega
            rw [hopp]; simp) (by
          intro i hi
          rcases Nat.lt_or_ge i j with hij | hij
          · exact hn i hij
          · obtain rfl : i = j := by omega
            rw [Function.iterate_succ_apply']
            intro hh
            rw [k1, hh] at hc
            exact hc rfl)
        rw [Function.iterate_succ_apply'] at this
        exact this

/-- C44 (partial): on a valid mesh `is_boundary` ends and is true exactly when the fan of faces around the vertex is closed. The property asks for the
opposite, see `C44_inverted`. -/
theorem C44_is_boundary_partial (H : Spec.Valid h F) {v e : ℕ} (hv : h.ve v = some e) (he : Spec.Live h F e) :
    ∃ b, h.isBoundary v = .ok b ∧ (b = true ↔ ¬Spec.OpenFan h e) := by
  obtain ⟨b, h1, h2⟩ := isBoundaryFrom_spec H he (h.nE + 1) 0 (by omega) (by omega) (by omega)
  refine ⟨b, ?_, ?_⟩
  · unfold Mesh.isBoundary
    rw [hv]
    exact h1
  · rw [← h2]; simp

/-- C44 (negation): the property is false of every vertex of every valid mesh. -/
theorem C44_inverted (H : Spec.Valid h F) {v e : ℕ} (hv : h.ve v = some e) (he : Spec.Live h F e) :
    ¬∃ b, h.isBoundary v = .ok b ∧ (b = true ↔ Spec.OpenFan h e) := by
  rintro ⟨b, h1, h2⟩
  obtain ⟨b', h3, h4⟩ := C44_is_boundary_partial H hv he
  rw [h1] at h3
  cases h3
  tauto

/-- A vertex of two triangles is on the border, and the answer is no. -/
example : Spec.OpenFan Sample.twoTris 2 ∧ Sample.twoTris.isBoundary 0 = .ok false := by
  have ho : Spec.OpenFan Sample.twoTris 2 := ⟨2, Relation.ReflTransGen.refl, rfl⟩
  refine ⟨ho, ?_⟩
  obtain ⟨b, h1, h2⟩ := C44_is_boundary_partial Sample.twoTris_valid (v := 0) (e := 2) rfl ⟨0, by simp, rfl⟩
  rw [h1]
  cases b
  · rfl
  · exact absurd ho (h2.mp rfl)

/-- The fold of `repairVertexEdges`. -/
theorem repair_fold {h : Mesh P} : ∀ (l : List ℕ) (g : Mesh P) (seen : List ℕ), g.he = h.he → (∀ e ∈ l, ∃ v, (h.he e).vertex = some v) →
    ∃ g' seen', l.foldlM (fun (s : Mesh P × List ℕ) e => do
        let v ← deref (s.1.he e).vertex
        pure (if v ∈ s.2 then s else (s.1.setVE v (some e), v :: s.2))) (g, seen) = (.ok (g', seen') : R _) ∧
      g'.he = h.he ∧ g'.co = g.co ∧ g'.fe = g.fe ∧ g'.nE = g.nE ∧ g'.nV = g.nV ∧ g'.nF = g.nF ∧
      (∀ v, v ∈ seen ∨ (∀ e ∈ l, (h.he e).vertex ≠ some v) → g'.ve v = g.ve v) ∧
      ∀ v, v ∉ seen → (∃ e ∈ l, (h.he e).vertex = some v) → ∃ e ∈ l, (h.he e).vertex = some v ∧ g'.ve v = some e := by
  intro l
  induction l with
  | nil => intro g seen hg _; exact ⟨g, seen, rfl, hg, rfl, rfl, rfl, rfl, rfl, fun _ _ => rfl, by simp⟩
  | cons e l ih =>
    intro g seen hg hl
    obtain ⟨v, hv⟩ := hl e (by simp)
    rw [List.foldlM_cons]
    have e1 : (deref (g.he e).vertex : R ℕ) = .ok v := by rw [hg, hv]; rfl
    simp only [e1, R_bind_ok, R_pure]
    by_cases hvs : v ∈ seen
    · rw [if_pos hvs]
      obtain ⟨g', seen', k1, k2, k3, k4, k5, k6, k7, k8, k9⟩ := ih g seen hg fun x hx => hl x (by simp [hx])
      refine ⟨g', seen', k1, k2, k3, k4, k5, k6, k7, ?_, ?_⟩
      · intro u hu
        apply k8
        rcases hu with hu | hu
        · exact Or.inl hu
        · exact Or.inr fun x hx => hu x (by simp [hx])
      · rintro u hu ⟨x, hx, hxu⟩
        rcases List.mem_cons.mp hx with rfl | hx
        · rw [hv] at hxu; cases hxu; exact absurd hvs hu
        · obtain ⟨y, hy, hh⟩ := k9 u hu ⟨x, hx, hxu⟩
          exact ⟨y, by simp [hy], hh⟩
    · rw [if_neg hvs]
      obtain ⟨g', seen', k1, k2, k3, k4, k5, k6, k7, k8, k9⟩ := ih (g.setVE v (some e)) (v :: seen) hg fun x hx => hl x (by simp [hx])
      have hve : g'.ve v = some e := by rw [k8 v (Or.inl (by simp))]; simp [Mesh.setVE]
      refine ⟨g', seen', k1, k2, k3, k4, k5, k6, k7, ?_, ?_⟩
      · intro u hu
        have huv : u ≠ v := by
          rintro rfl
          rcases hu with hu | hu
          · exact hvs hu
          · exact hu e (by simp) hv
        rw [k8 u]
        · simp [Mesh.setVE, huv]
        · rcases hu with hu | hu
          · exact Or.inl (by simp [hu])
          · exact Or.inr fun x hx => hu x (by simp [hx])
      · rintro u hu ⟨x, hx, hxu⟩
        by_cases huv : u = v
        · subst huv
          exact ⟨e, by simp, hv, hve⟩
        · rcases List.mem_cons.mp hx with rfl | hx
          · rw [hv] at hxu; cases hxu; exact absurd rfl huv
          · obtain ⟨y, hy, hh⟩ := k9 u (by simp [huv, hu]) ⟨x, hx, hxu⟩
            exact ⟨y, by simp [hy], hh⟩

/-- C72: after `repairVertexEdges` the vertices of the faces designate half-edges of faces that end at them, whatever they designated; the other vertices and
the half-edges and faces are unchanged. -/
theorem C72_repair (H : Spec.Valid h F) : ∃ h', h.repairVertexEdges F = .ok h' ∧ Spec.VertexLinks h' F ∧ Spec.Valid h' F ∧ h'.he = h.he ∧ h'.co = h.co ∧
    h'.fe = h.fe ∧ ∀ v, (∀ e, Spec.Live h F e → (h.he e).vertex ≠ some v) → h'.ve v = h.ve v := by
  have hmap : ∀ G : List ℕ, (∀ f ∈ G, f ∈ F) → ∃ ls, G.mapM h.getFaceEdges = .ok ls ∧ ∀ e, e ∈ ls.flatten ↔ Spec.Live h G e := by
    intro G
    induction G with
    | nil => intro _; exact ⟨[], rfl, by simp [Spec.Live]⟩
    | cons f G ih =>
      intro hG
      obtain ⟨ls, h1, h2⟩ := ih fun g hg => hG g (by simp [hg])
      obtain ⟨a, b, c, t, hfe⟩ := H.tri (hG f (by simp))
      refine ⟨[a, b, c] :: ls, ?_, ?_⟩
      · rw [List.mapM_cons, H.getFaceEdges t hfe, R_bind_ok, h1, R_bind_ok]; rfl
      · intro e
        rw [List.flatten_cons, List.mem_append, h2]
        constructor
        · rintro (he | ⟨g, hg, heg⟩)
          · simp only [List.mem_cons, List.not_mem_nil, or_false] at he
            rcases he with rfl | rfl | rfl
            exacts [⟨f, by simp, t.fa⟩, ⟨f, by simp, t.fb⟩, ⟨f, by simp, t.fc⟩]
          · exact ⟨g, by simp [hg], heg⟩
        · rintro ⟨g, hg, heg⟩
          rcases List.mem_cons.mp hg with rfl | hg
          · left
            rcases t.own e heg with rfl | rfl | rfl <;> simp
          · exact Or.inr ⟨g, hg, heg⟩
  obtain ⟨ls, h1, h2⟩ := hmap F fun _ h => h
  obtain ⟨g, seen, k1, k2, k3, k4, k5, k6, k7, k8, k9⟩ := repair_fold (h := h) ls.flatten h [] rfl (fun e he => by
    obtain ⟨v, hv, -⟩ := H.vertex e ((h2 e).mp he)
    exact ⟨v, hv⟩)
  refine ⟨g, ?_, ?_, ?_, k2, k3, k4, ?_⟩
  · unfold Mesh.repairVertexEdges
    rw [h1, R_bind_ok, k1, R_bind_ok]; rfl
  · intro e v he hev
    have hl : ∀ e, Spec.Live g F e ↔ Spec.Live h F e := fun e => by unfold Spec.Live; rw [k2]
    rw [k2] at hev
    obtain ⟨e', he', hv', hve⟩ := k9 v (by simp) ⟨e, (h2 e).mpr ((hl e).mp he), hev⟩
    exact ⟨e', hve, (hl e').mpr ((h2 e').mp he'), by rw [k2]; exact hv'⟩
  · refine ⟨H.nodup, ?_, ?_, ?_, ?_, ?_⟩
    · rw [k7]; exact H.faces
    · rw [k2, k5, k7]; exact H.edges
    · intro f hf
      obtain ⟨a, b, c, q1, q2, q3⟩ := H.ring f hf
      refine ⟨a, b, c, q1, ?_, by rw [k2]; exact q3⟩
      unfold Spec.IsRing at q2 ⊢
      rw [k2, k4]
      exact q2
    · unfold Spec.Live; rw [k2, k6]; exact H.vertex
    · unfold Spec.Live; rw [k2]; exact H.opp
  · intro v hv
    exact k8 v (Or.inr fun e he => hv e ((h2 e).mp he))

/-- Two triangles with lost links of vertices. -/
example : ∃ h', ({ Sample.twoTris with ve := fun _ => none } : Mesh ℕ).repairVertexEdges [0, 1] = .ok h' ∧ Spec.VertexLinks h' [0, 1] := by
  have H : Spec.Valid ({ Sample.twoTris with ve := fun _ => none } : Mesh ℕ) [0, 1] :=
    ⟨Sample.twoTris_valid.nodup, Sample.twoTris_valid.faces, Sample.twoTris_valid.edges, Sample.twoTris_valid.ring, Sample.twoTris_valid.vertex,
      Sample.twoTris_valid.opp⟩
  obtain ⟨h', h1, h2, -⟩ := C72_repair H
  exact ⟨h', h1, h2⟩

end Gbs
