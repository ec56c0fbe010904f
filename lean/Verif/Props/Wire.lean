import Verif.Model.Wire
import Verif.Lemmas.OkInv
import Mathlib.Data.List.Chain
import Mathlib.Tactic.Linarith

import Mathlib.Algebra.Order.Field.Rat

/-!
# Properties of the wires (C95)
-/

namespace Gbs

variable {C V K : Type} [Field K] [LinearOrder K]

/-- The second edge starts at the vertex where the first one ends. -/
def Spec.Follows (st : Topo C V K) (i j : ℕ) : Prop := ∃ a b, st.edges[i]? = some a ∧ st.edges[j]? = some b ∧ a.v2 = b.v1

/-- Each edge of the wire starts at the vertex where the one before ends. -/
def Spec.Connected (st : Topo C V K) (w : TWire K) : Prop := w.ids.IsChain (Spec.Follows st)

/-- `f` is the first edge of the wire and `b` the last one. -/
structure Spec.WireEnds (st : Topo C V K) (w : TWire K) (f b : TEdge C K) : Prop where
  first : ∃ i, w.ids.head? = some i ∧ st.edges[i]? = some f
  last : ∃ i, w.ids.getLast? = some i ∧ st.edges[i]? = some b

/-- The wire ends at the vertex where it starts. -/
def Spec.ClosedWire (st : Topo C V K) (w : TWire K) : Prop := ∃ f b, Spec.WireEnds st w f b ∧ f.v1 = b.v2

/-- The points of two vertices are nearer than the tolerance. -/
def Spec.Near (o : CrvOps C V K) (st : Topo C V K) (w : TWire K) (a b : ℕ) : Prop :=
  ∃ p q, st.pos[a]? = some p ∧ st.pos[b]? = some q ∧ o.dist p q < w.tol

/-- The numbers in the objects are those of objects. -/
structure Spec.TopoWF (st : Topo C V K) (w : TWire K) : Prop where
  verts : ∀ e ∈ st.edges, e.v1 < st.pos.length ∧ e.v2 < st.pos.length
  edges : ∀ i ∈ w.ids, i < st.edges.length
  some : w.ids ≠ []

/-- The vertices of the edge are at points of its curve, for the search of the nearest point; its tolerance is not less than that of the wire. -/
structure Spec.EdgeFits (o : CrvOps C V K) (st : Topo C V K) (w : TWire K) (e : TEdge C K) : Prop where
  tol : w.tol ≤ e.tol
  start : ∀ p q, st.pos[e.v1]? = some q → (o.ext e.crv p).2 ≤ o.dist p q
  stop : ∀ p q, st.pos[e.v2]? = some q → (o.ext e.crv p).2 ≤ o.dist p q

theorem wireFront_inv {st : Topo C V K} {w : TWire K} {f : TEdge C K} (h : wireFront st w = .ok f) : ∃ i, w.ids.head? = some i ∧ st.edges[i]? = some f := by
  obtain ⟨i, a, b⟩ := R_bind_eq_ok.mp h
  rw [rd_eq_ok] at a b
  exact ⟨i, by rw [List.head?_eq_getElem?]; exact a, b⟩

theorem wireBack_inv {st : Topo C V K} {w : TWire K} {f : TEdge C K} (h : wireBack st w = .ok f) : ∃ i, w.ids.getLast? = some i ∧ st.edges[i]? = some f := by
  obtain ⟨n, c, h⟩ := R_bind_eq_ok.mp h
  obtain ⟨i, a, b⟩ := R_bind_eq_ok.mp h
  rw [rd_eq_ok] at a b
  obtain ⟨-, rfl⟩ := usub_eq_ok.mp c
  exact ⟨i, by rw [List.getLast?_eq_getElem?]; exact a, b⟩

theorem wireFront_ok {st : Topo C V K} {w : TWire K} {f : TEdge C K} (h : ∃ i, w.ids.head? = some i ∧ st.edges[i]? = some f) : wireFront st w = .ok f := by
  obtain ⟨i, a, b⟩ := h
  rw [List.head?_eq_getElem?] at a
  exact R_bind_eq_ok.mpr ⟨i, rd_eq_ok.mpr a, rd_eq_ok.mpr b⟩

theorem wireBack_ok {st : Topo C V K} {w : TWire K} {f : TEdge C K} (h : ∃ i, w.ids.getLast? = some i ∧ st.edges[i]? = some f) : wireBack st w = .ok f := by
  obtain ⟨i, a, b⟩ := h
  have hl : 1 ≤ w.ids.length := by
    cases hw : w.ids with
    | nil => rw [hw] at a; cases a
    | cons x l => simp
  rw [List.getLast?_eq_getElem?] at a
  exact R_bind_eq_ok.mpr ⟨_, usub_ok hl, R_bind_eq_ok.mpr ⟨i, rd_eq_ok.mpr a, rd_eq_ok.mpr b⟩⟩

theorem wireEnds_unique {st : Topo C V K} {w : TWire K} {f b f' b' : TEdge C K} (h : Spec.WireEnds st w f b) (h' : Spec.WireEnds st w f' b') : f = f' ∧ b = b' := by
  obtain ⟨⟨i, a1, a2⟩, ⟨j, b1, b2⟩⟩ := h
  obtain ⟨⟨i', c1, c2⟩, ⟨j', d1, d2⟩⟩ := h'
  rw [a1] at c1
  cases c1
  rw [b1] at d1
  cases d1
  rw [a2] at c2
  rw [b2] at d2
  exact ⟨Option.some.inj c2, Option.some.inj d2⟩

theorem wireNear_inv {o : CrvOps C V K} {st : Topo C V K} {w : TWire K} {a b : ℕ} {r : Bool} (h : wireNear o st w a b = .ok r) : (r = true ↔ Spec.Near o st w a b) := by
  obtain ⟨p, hp, h⟩ := R_bind_eq_ok.mp h
  obtain ⟨q, hq, h⟩ := R_bind_eq_ok.mp h
  rw [rd_eq_ok] at hp hq
  cases h
  rw [decide_eq_true_iff]
  constructor
  · intro h; exact ⟨p, q, hp, hq, h⟩
  · rintro ⟨p', q', hp', hq', h⟩
    rw [hp] at hp'
    rw [hq] at hq'
    cases hp'
    cases hq'
    exact h

/-- The curves go forwards, the nearest point of a point is on the curve, and the tolerance of the parameters is positive. -/
def Spec.GoodCurves (o : CrvOps C V K) : Prop :=
  0 < o.eps ∧ ∀ c, (o.bnd c).1 < (o.bnd c).2 ∧ ∀ p, (o.bnd c).1 ≤ (o.ext c p).1 ∧ (o.ext c p).1 ≤ (o.bnd c).2

/-- The edge starts on its curve before its end, and ends on it after its start. -/
def Spec.InBounds (o : CrvOps C V K) (e : TEdge C K) : Prop :=
  (o.bnd e.crv).1 ≤ e.u1 ∧ e.u1 < (o.bnd e.crv).2 ∧ (o.bnd e.crv).1 < e.u2 ∧ e.u2 ≤ (o.bnd e.crv).2

/-- What `setVertex1` does to an edge. -/
structure Set1 (o : CrvOps C V K) (pos : List V) (e e' : TEdge C K) (v : ℕ) : Prop where
  crv : e'.crv = e.crv
  tol : e'.tol = e.tol
  v2 : e'.v2 = e.v2
  out : (∃ p, pos[v]? = some p ∧ e.tol < (o.ext e.crv p).2 ∧ e' = e) ∨ (∃ p, pos[v]? = some p ∧ (o.ext e.crv p).2 ≤ e.tol ∧ e'.v1 = v)
  par : Spec.GoodCurves o → Spec.InBounds o e → Spec.InBounds o e'

/-- What `setVertex2` does to an edge. -/
structure Set2 (o : CrvOps C V K) (pos : List V) (e e' : TEdge C K) (v : ℕ) : Prop where
  crv : e'.crv = e.crv
  tol : e'.tol = e.tol
  v1 : e'.v1 = e.v1
  out : (∃ p, pos[v]? = some p ∧ e.tol < (o.ext e.crv p).2 ∧ e' = e) ∨ (∃ p, pos[v]? = some p ∧ (o.ext e.crv p).2 ≤ e.tol ∧ e'.v2 = v)
  par : Spec.GoodCurves o → Spec.InBounds o e → Spec.InBounds o e'

theorem setVertex1_inv {o : CrvOps C V K} {pos : List V} {e : TEdge C K} {v : ℕ} {r : Bool × TEdge C K} (h : setVertex1 o pos e v = .ok r) : Set1 o pos e r.2 v := by
  obtain ⟨p, hp, h⟩ := R_bind_eq_ok.mp h
  rw [rd_eq_ok] at hp
  dsimp only at h
  split at h
  · rename_i hc
    cases h
    exact ⟨rfl, rfl, rfl, Or.inl ⟨p, hp, hc, rfl⟩, fun _ h => h⟩
  · rename_i hc
    cases h
    refine ⟨rfl, rfl, rfl, Or.inr ⟨p, hp, not_lt.mp hc, rfl⟩, ?_⟩
    rintro ⟨h0, hg⟩ ⟨b1, b2, b3, b4⟩
    obtain ⟨g1, g2⟩ := hg e.crv
    obtain ⟨g3, g4⟩ := g2 p
    refine ⟨?_, ?_, b3, b4⟩
    · dsimp only
      split
      exacts [le_rfl, g3]
    · dsimp only
      split
      · exact g1
      · rename_i hn
        refine lt_of_le_of_ne g4 fun he => hn ?_
        rw [he, sub_self, abs, neg_zero, max_self]
        exact h0

theorem setVertex2_inv {o : CrvOps C V K} {pos : List V} {e : TEdge C K} {v : ℕ} {r : Bool × TEdge C K} (h : setVertex2 o pos e v = .ok r) : Set2 o pos e r.2 v := by
  obtain ⟨p, hp, h⟩ := R_bind_eq_ok.mp h
  rw [rd_eq_ok] at hp
  dsimp only at h
  split at h
  · rename_i hc
    cases h
    exact ⟨rfl, rfl, rfl, Or.inl ⟨p, hp, hc, rfl⟩, fun _ h => h⟩
  · rename_i hc
    cases h
    refine ⟨rfl, rfl, rfl, Or.inr ⟨p, hp, not_lt.mp hc, rfl⟩, ?_⟩
    rintro ⟨h0, hg⟩ ⟨b1, b2, b3, b4⟩
    obtain ⟨g1, g2⟩ := hg e.crv
    obtain ⟨g3, g4⟩ := g2 p
    refine ⟨b1, b2, ?_, ?_⟩
    · dsimp only
      split
      · exact g1
      · rename_i hn
        refine lt_of_le_of_ne g3 fun he => hn ?_
        rw [← he, sub_self, abs, neg_zero, max_self]
        exact h0
    · dsimp only
      split
      exacts [le_rfl, g4]

/-- The outcomes of `addEdge`. -/
inductive Added (o : CrvOps C V K) (st : Topo C V K) (w : TWire K) (id : ℕ) (f b e : TEdge C K) : Bool → Topo C V K → TWire K → Prop
  | closed (h : f.v1 = b.v2) : Added o st w id f b e false st w
  | front (h : f.v1 ≠ b.v2) (h1 : f.v1 = e.v2) : Added o st w id f b e true st { w with ids := id :: w.ids }
  | back (h : f.v1 ≠ b.v2) (h1 : f.v1 ≠ e.v2) (h2 : b.v2 = e.v1) : Added o st w id f b e true st { w with ids := w.ids ++ [id] }
  | none (h : f.v1 ≠ b.v2) (h1 : f.v1 ≠ e.v2) (h2 : b.v2 ≠ e.v1) (n1 : ¬ Spec.Near o st w b.v2 e.v1) (n2 : ¬ Spec.Near o st w f.v1 e.v2) :
      Added o st w id f b e false st w
  | near1 (h : f.v1 ≠ b.v2) (h1 : f.v1 ≠ e.v2) (h2 : b.v2 ≠ e.v1) (n1 : Spec.Near o st w b.v2 e.v1) (e1 f1 : TEdge C K) (s1 : Set1 o st.pos e e1 b.v2)
      (hf : ∃ i, w.ids.head? = some i ∧ (st.edges.set id e1)[i]? = some f1) (n2 : ¬ Spec.Near o st w f1.v1 e.v2) :
      Added o st w id f b e true { st with edges := st.edges.set id e1 } { w with ids := w.ids ++ [id] }
  | near2 (h : f.v1 ≠ b.v2) (h1 : f.v1 ≠ e.v2) (h2 : b.v2 ≠ e.v1) (n1 : ¬ Spec.Near o st w b.v2 e.v1) (n2 : Spec.Near o st w f.v1 e.v2) (e2 : TEdge C K)
      (s2 : Set2 o st.pos e e2 f.v1) : Added o st w id f b e true { st with edges := st.edges.set id e2 } { w with ids := id :: w.ids }
  | both (h : f.v1 ≠ b.v2) (h1 : f.v1 ≠ e.v2) (h2 : b.v2 ≠ e.v1) (n1 : Spec.Near o st w b.v2 e.v1) (e1 f1 e2 : TEdge C K) (s1 : Set1 o st.pos e e1 b.v2)
      (hf : ∃ i, w.ids.head? = some i ∧ (st.edges.set id e1)[i]? = some f1) (n2 : Spec.Near o st w f1.v1 e.v2)
      (s2 : Set2 o st.pos e1 e2 f1.v1) : Added o st w id f b e true { st with edges := st.edges.set id e2 } { w with ids := w.ids ++ [id] }

theorem addEdge_inv {o : CrvOps C V K} {st : Topo C V K} {w : TWire K} {id : ℕ} (hne : w.ids ≠ []) {r : Bool} {st' : Topo C V K} {w' : TWire K}
    (h : addEdge o st w id = .ok (r, st', w')) :
    ∃ f b, Spec.WireEnds st w f b ∧ ((f.v1 = b.v2 ∧ r = false ∧ st' = st ∧ w' = w) ∨ ∃ e, st.edges[id]? = some e ∧ Added o st w id f b e r st' w') := by
  have hl : w.ids.length ≠ 0 := by simpa using hne
  unfold addEdge at h
  rw [if_neg hl] at h
  obtain ⟨c, hc, h⟩ := R_bind_eq_ok.mp h
  unfold wireClosed at hc
  rw [if_neg hl] at hc
  obtain ⟨f, hf, hc⟩ := R_bind_eq_ok.mp hc
  obtain ⟨b, hb, hc⟩ := R_bind_eq_ok.mp hc
  cases hc
  refine ⟨f, b, ⟨wireFront_inv hf, wireBack_inv hb⟩, ?_⟩
  by_cases hcl : f.v1 = b.v2
  · rw [if_pos (by simpa using hcl)] at h
    cases h
    exact Or.inl ⟨hcl, rfl, rfl, rfl⟩
  right
  rw [if_neg (by simpa using hcl), hf, R_bind_ok, hb, R_bind_ok] at h
  obtain ⟨e, he, h⟩ := R_bind_eq_ok.mp h
  have he' := rd_eq_ok.mp he
  refine ⟨e, he', ?_⟩
  have hlt : id < st.edges.length := (List.getElem?_eq_some_iff.mp he').1
  by_cases h1 : f.v1 = e.v2
  · rw [if_pos h1] at h
    cases h
    exact .front hcl h1
  rw [if_neg h1] at h
  by_cases h2 : b.v2 = e.v1
  · rw [if_pos h2] at h
    cases h
    exact .back hcl h1 h2
  rw [if_neg h2] at h
  obtain ⟨⟨ad, st1, w1⟩, hB, h⟩ := R_bind_eq_ok.mp h
  unfold addAtBack at hB
  rw [hb, R_bind_ok, he, R_bind_ok] at hB
  obtain ⟨n1, hn1, hB⟩ := R_bind_eq_ok.mp hB
  have k1 := wireNear_inv hn1
  unfold addAtFront at h
  obtain ⟨f1, hf1, h⟩ := R_bind_eq_ok.mp h
  obtain ⟨e1', he1, h⟩ := R_bind_eq_ok.mp h
  obtain ⟨n2, hn2, h⟩ := R_bind_eq_ok.mp h
  have k2 := wireNear_inv hn2
  have k3 := wireFront_inv hf1
  rw [rd_eq_ok] at he1
  cases n1 with
  | true =>
    have k1 := k1.mp rfl
    obtain ⟨⟨r1, e1⟩, hs1, hB⟩ := R_bind_eq_ok.mp hB
    obtain ⟨edges, hw, hB⟩ := R_bind_eq_ok.mp hB
    obtain ⟨-, rfl⟩ := wr_eq_ok.mp hw
    cases hB
    have s1 := setVertex1_inv hs1
    dsimp only at k2 k3 he1 s1 h
    rw [List.getElem?_set_self hlt] at he1
    cases he1
    have k2' : n2 = true ↔ Spec.Near o st w f1.v1 e.v2 := by rw [k2, s1.v2]; exact Iff.rfl
    cases n2 with
    | true =>
      obtain ⟨⟨r2, e2⟩, hs2, h⟩ := R_bind_eq_ok.mp h
      obtain ⟨edges, hw2, h⟩ := R_bind_eq_ok.mp h
      obtain ⟨-, rfl⟩ := wr_eq_ok.mp hw2
      cases h
      have s2 := setVertex2_inv hs2
      have := Added.both (o := o) (id := id) hcl h1 h2 k1 _ f1 e2 s1 (by
        obtain ⟨i, a, c⟩ := k3
        refine ⟨i, ?_, c⟩
        rw [List.head?_append_of_ne_nil _ hne] at a
        exact a) (k2'.mp rfl) s2
      simpa using this
    | false =>
      cases h
      exact .near1 hcl h1 h2 k1 _ f1 s1 (by
        obtain ⟨i, a, c⟩ := k3
        refine ⟨i, ?_, c⟩
        rw [List.head?_append_of_ne_nil _ hne] at a
        exact a) (fun hn => by simpa using k2'.mpr hn)
  | false =>
    cases hB
    dsimp only at k2 k3 he1 h hf1
    have k1' : ¬ Spec.Near o st w b.v2 e.v1 := fun hn => by simpa using k1.mpr hn
    rw [hf] at hf1
    cases hf1
    rw [he'] at he1
    cases he1
    cases n2 with
    | true =>
      obtain ⟨⟨r2, e2⟩, hs2, h⟩ := R_bind_eq_ok.mp h
      obtain ⟨edges, hw2, h⟩ := R_bind_eq_ok.mp h
      obtain ⟨-, rfl⟩ := wr_eq_ok.mp hw2
      cases h
      exact .near2 hcl h1 h2 k1' (k2.mp rfl) e2 (setVertex2_inv hs2)
    | false =>
      cases h
      exact .none hcl h1 h2 k1' (fun hn => by simpa using k2.mpr hn)

/-- **C95**: an edge that is refused changes nothing, and it is refused because the wire is closed or because it is neither joined to its ends nor near them. -/
theorem C95_refused {o : CrvOps C V K} {st : Topo C V K} {w : TWire K} {id : ℕ} (hne : w.ids ≠ []) {st' : Topo C V K} {w' : TWire K}
    (h : addEdge o st w id = .ok (false, st', w')) : st' = st ∧ w' = w ∧ (Spec.ClosedWire st w ∨ ∃ f b e, Spec.WireEnds st w f b ∧ st.edges[id]? = some e ∧
      f.v1 ≠ e.v2 ∧ b.v2 ≠ e.v1 ∧ ¬ Spec.Near o st w b.v2 e.v1 ∧ ¬ Spec.Near o st w f.v1 e.v2) := by
  obtain ⟨f, b, hfb, ⟨hc, -, rfl, rfl⟩ | ⟨e, he, ha⟩⟩ := addEdge_inv hne h
  · exact ⟨rfl, rfl, Or.inl ⟨f, b, hfb, hc⟩⟩
  · cases ha with
    | closed hc => exact ⟨rfl, rfl, Or.inl ⟨f, b, hfb, hc⟩⟩
    | none _ h1 h2 n1 n2 => exact ⟨rfl, rfl, Or.inr ⟨f, b, e, hfb, he, h1, h2, n1, n2⟩⟩

/-- **C95**: an edge that is added was added to a wire that was not closed; it comes at one end of its list, the other edges and the points of the vertices
do not change, nor the curve of the edge. -/
theorem C95_added {o : CrvOps C V K} {st : Topo C V K} {w : TWire K} {id : ℕ} (hne : w.ids ≠ []) {st' : Topo C V K} {w' : TWire K}
    (h : addEdge o st w id = .ok (true, st', w')) : ¬ Spec.ClosedWire st w ∧ (w'.ids = id :: w.ids ∨ w'.ids = w.ids ++ [id]) ∧ w'.tol = w.tol ∧ st'.pos = st.pos ∧
      (∀ i, i ≠ id → st'.edges[i]? = st.edges[i]?) ∧ ∃ e e', st.edges[id]? = some e ∧ st'.edges[id]? = some e' ∧ e'.crv = e.crv ∧ e'.tol = e.tol := by
  obtain ⟨f, b, hfb, ⟨-, hc, -, -⟩ | ⟨e, he, ha⟩⟩ := addEdge_inv hne h
  · cases hc
  have hlt : id < st.edges.length := (List.getElem?_eq_some_iff.mp he).1
  have open_ : f.v1 ≠ b.v2 → ¬ Spec.ClosedWire st w := by
    rintro hn ⟨f', b', hfb', hc⟩
    obtain ⟨rfl, rfl⟩ := wireEnds_unique hfb hfb'
    exact hn hc
  have other : ∀ (x : TEdge C K) (i : ℕ), i ≠ id → (st.edges.set id x)[i]? = st.edges[i]? := fun x i hi => List.getElem?_set_ne (Ne.symm hi)
  cases ha with
  | front hc h1 => exact ⟨open_ hc, Or.inl rfl, rfl, rfl, fun _ _ => rfl, e, e, he, he, rfl, rfl⟩
  | back hc h1 h2 => exact ⟨open_ hc, Or.inr rfl, rfl, rfl, fun _ _ => rfl, e, e, he, he, rfl, rfl⟩
  | near1 hc h1 h2 n1 e1 f1 s1 hf n2 =>
    exact ⟨open_ hc, Or.inr rfl, rfl, rfl, other e1, e, e1, he, List.getElem?_set_self hlt, s1.crv, s1.tol⟩
  | near2 hc h1 h2 n1 n2 e2 s2 =>
    exact ⟨open_ hc, Or.inl rfl, rfl, rfl, other e2, e, e2, he, List.getElem?_set_self hlt, s2.crv, s2.tol⟩
  | both hc h1 h2 n1 e1 f1 e2 s1 hf n2 s2 =>
    exact ⟨open_ hc, Or.inr rfl, rfl, rfl, other e2, e, e2, he, List.getElem?_set_self hlt, s2.crv.trans s1.crv, s2.tol.trans s1.tol⟩

theorem follows_set {st : Topo C V K} {id : ℕ} {x : TEdge C K} {i j : ℕ} (hi : i ≠ id) (hj : j ≠ id) (h : Spec.Follows st i j) :
    Spec.Follows { st with edges := st.edges.set id x } i j := by
  obtain ⟨a, b, ha, hb, e⟩ := h
  exact ⟨a, b, by dsimp only; rw [List.getElem?_set_ne (Ne.symm hi)]; exact ha, by dsimp only; rw [List.getElem?_set_ne (Ne.symm hj)]; exact hb, e⟩

theorem chain_set {st : Topo C V K} {id : ℕ} {x : TEdge C K} {l : List ℕ} (hid : id ∉ l) (h : l.IsChain (Spec.Follows st)) :
    l.IsChain (Spec.Follows ({ st with edges := st.edges.set id x } : Topo C V K)) := by
  refine List.IsChain.imp_of_mem_imp ?_ h
  intro a b ha hb hab
  exact follows_set (fun e => hid (e ▸ ha)) (fun e => hid (e ▸ hb)) hab

/-- What `setVertex1` does when the edge fits. -/
theorem Set1.done {o : CrvOps C V K} {st : Topo C V K} {w : TWire K} {e e' : TEdge C K} {v : ℕ} (h : Set1 o st.pos e e' v) (fit : Spec.EdgeFits o st w e)
    (hn : Spec.Near o st w v e.v1) : e'.v1 = v := by
  obtain ⟨p, q, hp, hq, hd⟩ := hn
  rcases h.out with ⟨p', hp', hc, -⟩ | ⟨p', hp', hc, h⟩
  · rw [hp] at hp'
    cases hp'
    exact absurd ((hc.trans_le (fit.start p q hq)).trans (hd.trans_le fit.tol)) (lt_irrefl _)
  · exact h

/-- What `setVertex2` does when the edge fits. -/
theorem Set2.done {o : CrvOps C V K} {st : Topo C V K} {w : TWire K} {e e0 e' : TEdge C K} {v : ℕ} (h : Set2 o st.pos e e' v) (fit : Spec.EdgeFits o st w e0)
    (hcrv : e.crv = e0.crv) (htol : e.tol = e0.tol) (hn : Spec.Near o st w v e0.v2) : e'.v2 = v := by
  obtain ⟨p, q, hp, hq, hd⟩ := hn
  rcases h.out with ⟨p', hp', hc, -⟩ | ⟨p', hp', hc, h⟩
  · rw [hp] at hp'
    cases hp'
    rw [hcrv, htol] at hc
    exact absurd ((hc.trans_le (fit.stop p q hq)).trans (hd.trans_le fit.tol)) (lt_irrefl _)
  · exact h

theorem chain_cons {st : Topo C V K} {w : TWire K} {id : ℕ} {f b e : TEdge C K} (hfb : Spec.WireEnds st w f b) (he : st.edges[id]? = some e) (hv : e.v2 = f.v1)
    (hc : Spec.Connected st w) : (id :: w.ids).IsChain (Spec.Follows st) := by
  rw [List.isChain_cons]
  refine ⟨?_, hc⟩
  intro y hy
  obtain ⟨i, hi, hf⟩ := hfb.first
  rw [Option.mem_def, hi] at hy
  cases hy
  exact ⟨e, f, he, hf, hv⟩

theorem chain_snoc {st : Topo C V K} {w : TWire K} {id : ℕ} {f b e : TEdge C K} (hfb : Spec.WireEnds st w f b) (he : st.edges[id]? = some e) (hv : b.v2 = e.v1)
    (hc : Spec.Connected st w) : (w.ids ++ [id]).IsChain (Spec.Follows st) := by
  rw [List.isChain_append]
  refine ⟨hc, List.isChain_singleton _, ?_⟩
  intro x hx y hy
  obtain ⟨i, hi, hb⟩ := hfb.last
  rw [Option.mem_def, hi] at hx
  cases hx
  cases hy
  exact ⟨b, e, hb, he, hv⟩

theorem ends_set {st : Topo C V K} {w : TWire K} {id : ℕ} {f b x : TEdge C K} (hid : id ∉ w.ids) (hfb : Spec.WireEnds st w f b) :
    Spec.WireEnds ({ st with edges := st.edges.set id x } : Topo C V K) w f b := by
  obtain ⟨⟨i, a1, a2⟩, ⟨j, b1, b2⟩⟩ := hfb
  refine ⟨⟨i, a1, ?_⟩, ⟨j, b1, ?_⟩⟩
  · dsimp only
    rw [List.getElem?_set_ne]
    · exact a2
    · rintro rfl; exact hid (List.mem_of_mem_head? a1)
  · dsimp only
    rw [List.getElem?_set_ne]
    · exact b2
    · rintro rfl; exact hid (List.mem_of_getLast? b1)

theorem ends_cons {st : Topo C V K} {w : TWire K} {id : ℕ} {f b e : TEdge C K} (hfb : Spec.WireEnds st w f b) (he : st.edges[id]? = some e) :
    Spec.WireEnds st ({ w with ids := id :: w.ids } : TWire K) e b := by
  refine ⟨⟨id, rfl, he⟩, ?_⟩
  obtain ⟨j, b1, b2⟩ := hfb.last
  refine ⟨j, ?_, b2⟩
  cases hw : w.ids with
  | nil => rw [hw] at b1; cases b1
  | cons y l => rw [hw] at b1; simpa using b1

theorem ends_snoc {st : Topo C V K} {w : TWire K} {id : ℕ} {f b e : TEdge C K} (hfb : Spec.WireEnds st w f b) (he : st.edges[id]? = some e) :
    Spec.WireEnds st ({ w with ids := w.ids ++ [id] } : TWire K) f e := by
  refine ⟨?_, ⟨id, by simp, he⟩⟩
  obtain ⟨j, b1, b2⟩ := hfb.first
  refine ⟨j, ?_, b2⟩
  cases hw : w.ids with
  | nil => rw [hw] at b1; cases b1
  | cons y l => rw [hw] at b1; simpa using b1

theorem closed_iff {st : Topo C V K} {w : TWire K} {f b : TEdge C K} (hfb : Spec.WireEnds st w f b) : Spec.ClosedWire st w ↔ f.v1 = b.v2 := by
  constructor
  · rintro ⟨f', b', hfb', hc⟩
    obtain ⟨rfl, rfl⟩ := wireEnds_unique hfb hfb'
    exact hc
  · exact fun h => ⟨f, b, hfb, h⟩

theorem add_full {o : CrvOps C V K} {st : Topo C V K} {w : TWire K} {id : ℕ} (hid : id ∉ w.ids) {f b e : TEdge C K} (hfb : Spec.WireEnds st w f b)
    (he : st.edges[id]? = some e) (fit : Spec.EdgeFits o st w e) (hcon : Spec.Connected st w) {r : Bool} {st' : Topo C V K} {w' : TWire K}
    (h : addEdge o st w id = .ok (r, st', w')) :
    (r = true ↔ f.v1 ≠ b.v2 ∧ (f.v1 = e.v2 ∨ b.v2 = e.v1 ∨ Spec.Near o st w b.v2 e.v1 ∨ Spec.Near o st w f.v1 e.v2)) ∧ Spec.Connected st' w' ∧
    (Spec.ClosedWire st' w' ↔ f.v1 = b.v2 ∨ (f.v1 = e.v2 ∧ b.v2 = e.v1) ∨
      (f.v1 ≠ e.v2 ∧ b.v2 ≠ e.v1 ∧ Spec.Near o st w b.v2 e.v1 ∧ Spec.Near o st w f.v1 e.v2)) ∧
    ∃ f' b', Spec.WireEnds st' w' f' b' ∧ (f.v1 ≠ b.v2 → f.v1 ≠ e.v2 → (b.v2 = e.v1 ∨ Spec.Near o st w b.v2 e.v1) →
      w'.ids = w.ids ++ [id] ∧ f' = f ∧ b'.v1 = b.v2 ∧ (Spec.ClosedWire st' w' ∨ b'.v2 = e.v2)) := by
  have hne : w.ids ≠ [] := by
    obtain ⟨i, a, -⟩ := hfb.first
    intro e
    rw [e] at a
    cases a
  obtain ⟨f', b', hfb', hcs⟩ := addEdge_inv hne h
  obtain ⟨rfl, rfl⟩ := wireEnds_unique hfb hfb'
  rcases hcs with ⟨hc, rfl, rfl, rfl⟩ | ⟨e', he', ha⟩
  · exact ⟨by simp [hc], hcon, by rw [closed_iff hfb]; simp [hc], f, b, hfb, fun h => absurd hc h⟩
  rw [he] at he'
  cases he'
  have hlt : id < st.edges.length := (List.getElem?_eq_some_iff.mp he).1
  have hf1 : ∀ (x f1 : TEdge C K), (∃ i, w.ids.head? = some i ∧ (st.edges.set id x)[i]? = some f1) → f1 = f := by
    rintro x f1 ⟨i, a, c⟩
    obtain ⟨i', a', c'⟩ := (ends_set (x := x) hid hfb).first
    rw [a] at a'
    cases a'
    exact Option.some.inj (c.symm.trans c')
  cases ha with
  | closed hc => exact ⟨by simp [hc], hcon, by rw [closed_iff hfb]; simp [hc], f, b, hfb, fun h => absurd hc h⟩
  | front hc h1 =>
    have hends := ends_cons hfb he
    refine ⟨⟨fun _ => ⟨hc, Or.inl h1⟩, fun _ => rfl⟩, chain_cons hfb he h1.symm hcon, ?_, e, b, hends, fun _ h => absurd h1 h⟩
    rw [closed_iff hends]
    exact ⟨fun h => Or.inr (Or.inl ⟨h1, h.symm⟩), fun h => by
      rcases h with h | ⟨-, h⟩ | ⟨h, -⟩
      · exact absurd h hc
      · exact h.symm
      · exact absurd h1 h⟩
  | back hc h1 h2 =>
    have hends := ends_snoc hfb he
    refine ⟨⟨fun _ => ⟨hc, Or.inr (Or.inl h2)⟩, fun _ => rfl⟩, chain_snoc hfb he h2 hcon, ?_, f, e, hends, fun _ _ _ => ⟨rfl, rfl, h2.symm, Or.inr rfl⟩⟩
    rw [closed_iff hends]
    exact ⟨fun h => absurd h h1, fun h => by
      rcases h with h | ⟨h, -⟩ | ⟨-, h, -⟩
      · exact absurd h hc
      · exact h
      · exact absurd h2 h⟩
  | none hc h1 h2 n1 n2 =>
    exact ⟨by simp [h1, h2, n1, n2], hcon, by rw [closed_iff hfb]; simp [hc, h1, n1], f, b, hfb, fun _ _ h => (h.elim h2 n1).elim⟩
  | near1 hc h1 h2 n1 e1 f1 s1 hf n2 =>
    obtain rfl := hf1 _ _ hf
    have hv := s1.done fit n1
    have he1 : (st.edges.set id e1)[id]? = some e1 := List.getElem?_set_self hlt
    have hends := ends_snoc (ends_set (x := e1) hid hfb) he1
    refine ⟨by simp [hc, n1], chain_snoc (ends_set (x := e1) hid hfb) he1 hv.symm (chain_set hid hcon), ?_, f1, e1, hends, fun _ _ _ => ⟨rfl, rfl, hv, Or.inr s1.v2⟩⟩
    rw [closed_iff hends, s1.v2]
    simp [hc, h1, n2]
  | near2 hc h1 h2 n1 n2 e2 s2 =>
    have hv := s2.done fit rfl rfl n2
    have he2 : (st.edges.set id e2)[id]? = some e2 := List.getElem?_set_self hlt
    have hends := ends_cons (ends_set (x := e2) hid hfb) he2
    refine ⟨by simp [hc, n2], chain_cons (ends_set (x := e2) hid hfb) he2 hv (chain_set hid hcon), ?_, e2, b, hends, fun _ _ h => (h.elim h2 n1).elim⟩
    rw [closed_iff hends, s2.v1]
    simp [hc, h1, n1, Ne.symm h2]
  | both hc h1 h2 n1 e1 f1 e2 s1 hf n2 s2 =>
    obtain rfl := hf1 _ _ hf
    have hv := s1.done fit n1
    have hv2 := s2.done fit s1.crv s1.tol n2
    have he2 : (st.edges.set id e2)[id]? = some e2 := List.getElem?_set_self hlt
    have hends := ends_snoc (ends_set (x := e2) hid hfb) he2
    have hcl : Spec.ClosedWire ({ st with edges := st.edges.set id e2 } : Topo C V K) ({ w with ids := w.ids ++ [id] } : TWire K) := by
      rw [closed_iff hends, hv2]
    refine ⟨by simp [hc, n1], chain_snoc (ends_set (x := e2) hid hfb) he2 (by rw [s2.v1, hv]) (chain_set hid hcon), ?_, f1, e2, hends,
      fun _ _ _ => ⟨rfl, rfl, by rw [s2.v1, hv], Or.inl hcl⟩⟩
    exact ⟨fun _ => Or.inr (Or.inr ⟨h1, h2, n1, n2⟩), fun _ => hcl⟩

/-- **C95**: an edge that is not yet in the wire and fits it is added exactly when the wire is not closed and the edge is joined to one of its ends or near it;
the wire stays connected; it becomes closed exactly when the edge is joined to both ends, or to none of them and near both. -/
theorem C95_add {o : CrvOps C V K} {st : Topo C V K} {w : TWire K} {id : ℕ} (hid : id ∉ w.ids) {f b e : TEdge C K} (hfb : Spec.WireEnds st w f b)
    (he : st.edges[id]? = some e) (fit : Spec.EdgeFits o st w e) (hcon : Spec.Connected st w) {r : Bool} {st' : Topo C V K} {w' : TWire K}
    (h : addEdge o st w id = .ok (r, st', w')) :
    (r = true ↔ f.v1 ≠ b.v2 ∧ (f.v1 = e.v2 ∨ b.v2 = e.v1 ∨ Spec.Near o st w b.v2 e.v1 ∨ Spec.Near o st w f.v1 e.v2)) ∧ Spec.Connected st' w' ∧
    (Spec.ClosedWire st' w' ↔ f.v1 = b.v2 ∨ (f.v1 = e.v2 ∧ b.v2 = e.v1) ∨
      (f.v1 ≠ e.v2 ∧ b.v2 ≠ e.v1 ∧ Spec.Near o st w b.v2 e.v1 ∧ Spec.Near o st w f.v1 e.v2)) := by
  obtain ⟨a, b, c, -⟩ := add_full hid hfb he fit hcon h
  exact ⟨a, b, c⟩

/-- **C95**: an edge that starts at the end of the wire, or near it, comes at its end; what follows starts where it ends. -/
theorem C95_order {o : CrvOps C V K} {st : Topo C V K} {w : TWire K} {id : ℕ} (hid : id ∉ w.ids) {f b e : TEdge C K} (hfb : Spec.WireEnds st w f b)
    (he : st.edges[id]? = some e) (fit : Spec.EdgeFits o st w e) (hcon : Spec.Connected st w) {r : Bool} {st' : Topo C V K} {w' : TWire K}
    (h : addEdge o st w id = .ok (r, st', w')) :
    ∃ f' b', Spec.WireEnds st' w' f' b' ∧ (f.v1 ≠ b.v2 → f.v1 ≠ e.v2 → (b.v2 = e.v1 ∨ Spec.Near o st w b.v2 e.v1) →
      w'.ids = w.ids ++ [id] ∧ f' = f ∧ b'.v1 = b.v2 ∧ (Spec.ClosedWire st' w' ∨ b'.v2 = e.v2)) := by
  obtain ⟨-, -, -, d⟩ := add_full hid hfb he fit hcon h
  exact d

/-- Every edge has its vertices at its tolerance from its curve. -/
def Spec.OnCurves (o : CrvOps C V K) (st : Topo C V K) : Prop :=
  ∀ e ∈ st.edges, ∀ p, (st.pos[e.v1]? = some p ∨ st.pos[e.v2]? = some p) → (o.ext e.crv p).2 ≤ e.tol

theorem onCurves_set {o : CrvOps C V K} {st : Topo C V K} (h : Spec.OnCurves o st) {id : ℕ} {e : TEdge C K}
    (he : ∀ p, (st.pos[e.v1]? = some p ∨ st.pos[e.v2]? = some p) → (o.ext e.crv p).2 ≤ e.tol) : Spec.OnCurves o { st with edges := st.edges.set id e } := by
  intro x hx p hp
  rcases List.mem_or_eq_of_mem_set hx with hx | rfl
  · exact h x hx p hp
  · exact he p hp

theorem Set1.on {o : CrvOps C V K} {st : Topo C V K} {e e' : TEdge C K} {v : ℕ} (h : Set1 o st.pos e e' v) 
    (he : ∀ p, (st.pos[e.v1]? = some p ∨ st.pos[e.v2]? = some p) → (o.ext e.crv p).2 ≤ e.tol) :
    ∀ p, (st.pos[e'.v1]? = some p ∨ st.pos[e'.v2]? = some p) → (o.ext e'.crv p).2 ≤ e'.tol := by
  rcases h.out with ⟨-, -, -, rfl⟩ | ⟨q, hq, hle, hv⟩
  · exact he
  · intro p hp
    rw [h.crv, h.tol]
    rw [h.v2, hv] at hp
    rcases hp with hp | hp
    · rw [hq] at hp; cases hp; exact hle
    · exact he p (Or.inr hp)

theorem Set2.on {o : CrvOps C V K} {st : Topo C V K} {e e' : TEdge C K} {v : ℕ} (h : Set2 o st.pos e e' v) 
    (he : ∀ p, (st.pos[e.v1]? = some p ∨ st.pos[e.v2]? = some p) → (o.ext e.crv p).2 ≤ e.tol) :
    ∀ p, (st.pos[e'.v1]? = some p ∨ st.pos[e'.v2]? = some p) → (o.ext e'.crv p).2 ≤ e'.tol := by
  rcases h.out with ⟨-, -, -, rfl⟩ | ⟨q, hq, hle, hv⟩
  · exact he
  · intro p hp
    rw [h.crv, h.tol]
    rw [h.v1, hv] at hp
    rcases hp with hp | hp
    · exact he p (Or.inl hp)
    · rw [hq] at hp; cases hp; exact hle

/-- **C95**: adding any edge, even one that is shared, leaves the vertices of all the edges at the tolerance of the edge from its curve. -/
theorem C95_on_curves {o : CrvOps C V K} {st : Topo C V K} {w : TWire K} {id : ℕ} (hne : w.ids ≠ []) (ho : Spec.OnCurves o st) {r : Bool} {st' : Topo C V K} {w' : TWire K}
    (h : addEdge o st w id = .ok (r, st', w')) : Spec.OnCurves o st' := by
  obtain ⟨f, b, hfb, ⟨-, -, rfl, -⟩ | ⟨e, he, ha⟩⟩ := addEdge_inv hne h
  · exact ho
  have hon := ho e (List.mem_of_getElem? he)
  cases ha with
  | closed => exact ho
  | front => exact ho
  | back => exact ho
  | none => exact ho
  | near1 hc h1 h2 n1 e1 f1 s1 hf n2 => exact onCurves_set ho (s1.on hon)
  | near2 hc h1 h2 n1 n2 e2 s2 => exact onCurves_set ho (s2.on hon)
  | both hc h1 h2 n1 e1 f1 e2 s1 hf n2 s2 => exact onCurves_set ho (s2.on (s1.on hon))

/-- **C95**: adding any edge keeps the parameters of all the edges: they start on their curve before its end and end on it after its start, also when the
curve is closed and the vertex is where it closes. -/
theorem C95_bounds {o : CrvOps C V K} (hg : Spec.GoodCurves o) {st : Topo C V K} {w : TWire K} {id : ℕ} (hne : w.ids ≠ []) (ho : ∀ e ∈ st.edges, Spec.InBounds o e)
    {r : Bool} {st' : Topo C V K} {w' : TWire K} (h : addEdge o st w id = .ok (r, st', w')) : ∀ e ∈ st'.edges, Spec.InBounds o e := by
  have set : ∀ x, Spec.InBounds o x → ∀ e ∈ st.edges.set id x, Spec.InBounds o e := by
    intro x hx e he
    rcases List.mem_or_eq_of_mem_set he with he | rfl
    exacts [ho e he, hx]
  obtain ⟨f, b, hfb, ⟨-, -, rfl, -⟩ | ⟨e, he, ha⟩⟩ := addEdge_inv hne h
  · exact ho
  have hon := ho e (List.mem_of_getElem? he)
  cases ha with
  | closed => exact ho
  | front => exact ho
  | back => exact ho
  | none => exact ho
  | near1 hc h1 h2 n1 e1 f1 s1 hf n2 => exact set _ (s1.par hg hon)
  | near2 hc h1 h2 n1 n2 e2 s2 => exact set _ (s2.par hg hon)
  | both hc h1 h2 n1 e1 f1 e2 s1 hf n2 s2 => exact set _ (s2.par hg (s1.par hg hon))

/-- **C95**: the wire of one edge. It is closed when the edge is, or when the points of its vertices are nearer than the tolerance and the first one is near enough
to the curve. Nothing else changes. -/
theorem C95_one {o : CrvOps C V K} {tol : K} {st : Topo C V K} {id : ℕ} {e : TEdge C K} {p q : V} (he : st.edges[id]? = some e) (hp : st.pos[e.v1]? = some p)
    (hq : st.pos[e.v2]? = some q) :
    ∃ st' w, wireOf o tol st id = .ok (st', w) ∧ w.ids = [id] ∧ w.tol = tol ∧ st'.pos = st.pos ∧ (∀ i, i ≠ id → st'.edges[i]? = st.edges[i]?) ∧
      (Spec.ClosedWire st' w ↔ e.v1 = e.v2 ∨ (o.dist p q < tol ∧ (o.ext e.crv p).2 ≤ e.tol)) ∧
      ∃ e', st'.edges[id]? = some e' ∧ e'.crv = e.crv ∧ e'.v1 = e.v1 ∧ (e'.v2 = e.v2 ∨ e'.v2 = e.v1) ∧ (Spec.GoodCurves o → Spec.InBounds o e → Spec.InBounds o e') := by
  have closed : ∀ (st' : Topo C V K) e', st'.edges[id]? = some e' → (Spec.ClosedWire st' (⟨[id], tol⟩ : TWire K) ↔ e'.v1 = e'.v2) := by
    intro st' e' he'
    constructor
    · rintro ⟨f, b, ⟨⟨i, a1, a2⟩, ⟨j, b1, b2⟩⟩, hc⟩
      simp only [List.head?_cons, Option.some.injEq] at a1
      simp only [List.getLast?_singleton, Option.some.injEq] at b1
      subst a1 b1
      rw [he'] at a2 b2
      cases a2; cases b2
      exact hc
    · intro hc
      exact ⟨e', e', ⟨⟨id, rfl, he'⟩, ⟨id, rfl, he'⟩⟩, hc⟩
  have hf : wireFront st (⟨[id], tol⟩ : TWire K) = .ok e := wireFront_ok ⟨id, rfl, he⟩
  have hlt : id < st.edges.length := (List.getElem?_eq_some_iff.mp he).1
  have hnear : wireNear o st (⟨[id], tol⟩ : TWire K) e.v1 e.v2 = .ok (decide (o.dist p q < tol)) := by
    unfold wireNear
    rw [rd_eq_ok.mpr hp, R_bind_ok, rd_eq_ok.mpr hq, R_bind_ok]
    rfl
  unfold wireOf fuseVertex2
  dsimp only
  rw [hf, R_bind_ok, rd_eq_ok.mpr he, R_bind_ok, hnear, R_bind_ok]
  by_cases hd : o.dist p q < tol
  · rw [if_pos (by simpa using hd)]
    have hs : ∃ r, setVertex2 o st.pos e e.v1 = .ok r ∧ (r.2.v2 = if (o.ext e.crv p).2 ≤ e.tol then e.v1 else e.v2) := by
      unfold setVertex2
      rw [rd_eq_ok.mpr hp, R_bind_ok]
      dsimp only
      by_cases hc : e.tol < (o.ext e.crv p).2
      · rw [if_pos hc]
        exact ⟨_, rfl, by rw [if_neg (not_le.mpr hc)]⟩
      · rw [if_neg hc]
        exact ⟨_, rfl, by rw [if_pos (not_lt.mp hc)]⟩
    obtain ⟨r, r1, r2⟩ := hs
    have S := setVertex2_inv r1
    rw [r1, R_bind_ok, wr_ok hlt, R_bind_ok]
    refine ⟨{ st with edges := st.edges.set id r.2 }, ⟨[id], tol⟩, rfl, rfl, rfl, rfl, fun i hi => List.getElem?_set_ne (Ne.symm hi), ?_, r.2,
      List.getElem?_set_self hlt, S.crv, S.v1, ?_, S.par⟩
    · rw [closed _ r.2 (List.getElem?_set_self hlt), S.v1, r2]
      split
      · rename_i hle; simp [hd, hle]
      · rename_i hle; simp [hle]
    · rw [r2]
      split
      exacts [Or.inr rfl, Or.inl rfl]
  · rw [if_neg (by simpa using hd)]
    refine ⟨st, ⟨[id], tol⟩, rfl, rfl, rfl, rfl, fun _ _ => rfl, ?_, e, he, rfl, rfl, Or.inl rfl, fun _ h => h⟩
    rw [closed _ e he]
    simp [hd]

/-- The edges start and end at the points of their vertices. -/
def Spec.AtEnds (val : C → K → V) (st : Topo C V K) : Prop :=
  ∀ e ∈ st.edges, st.pos[e.v1]? = some (val e.crv e.u1) ∧ st.pos[e.v2]? = some (val e.crv e.u2)

/-- **C95**: the edges made of two points, of two vertices or of a curve come after the others, join the points, the vertices or the ends of the curve in that
order, and have the bounds of their curve; an edge made of two vertices makes no other vertex. -/
theorem C95_edges {o : CrvOps C V K} {val : C → K → V} (hseg : ∀ p q, val (o.seg p q) (o.bnd (o.seg p q)).1 = p ∧ val (o.seg p q) (o.bnd (o.seg p q)).2 = q)
    (hg : Spec.GoodCurves o) {tol : K} {st : Topo C V K} (ho : Spec.AtEnds val st) :
    (∀ p q, Spec.AtEnds val (edgeOfPoints o tol st p q).1 ∧ ∃ e, (edgeOfPoints o tol st p q).1.edges = st.edges ++ [e] ∧
      (edgeOfPoints o tol st p q).2 = st.edges.length ∧ val e.crv e.u1 = p ∧ val e.crv e.u2 = q ∧ Spec.InBounds o e) ∧
    (∀ c, Spec.AtEnds val (edgeOfCurve o val tol st c).1 ∧ ∃ e, (edgeOfCurve o val tol st c).1.edges = st.edges ++ [e] ∧
      (edgeOfCurve o val tol st c).2 = st.edges.length ∧ e.crv = c ∧ Spec.InBounds o e) ∧
    ∀ a b, a < st.pos.length → b < st.pos.length → ∃ st' e, edgeOfVertices o tol st a b = .ok (st', st.edges.length) ∧ Spec.AtEnds val st' ∧ st'.pos = st.pos ∧
      st'.edges = st.edges ++ [e] ∧ e.v1 = a ∧ e.v2 = b ∧ Spec.InBounds o e := by
  have inb : ∀ c v1 v2, Spec.InBounds o (⟨c, v1, v2, (o.bnd c).1, (o.bnd c).2, tol⟩ : TEdge C K) := fun c _ _ => ⟨le_rfl, (hg.2 c).1, (hg.2 c).1, le_rfl⟩
  have old : ∀ (l : List V) (e : TEdge C K), e ∈ st.edges → (st.pos ++ l)[e.v1]? = some (val e.crv e.u1) ∧ (st.pos ++ l)[e.v2]? = some (val e.crv e.u2) := by
    intro l e he
    obtain ⟨h1, h2⟩ := ho e he
    exact ⟨by rw [List.getElem?_append_left (List.getElem?_eq_some_iff.mp h1).1, h1], by rw [List.getElem?_append_left (List.getElem?_eq_some_iff.mp h2).1, h2]⟩
  refine ⟨fun p q => ⟨?_, _, rfl, rfl, (hseg p q).1, (hseg p q).2, inb _ _ _⟩, fun c => ⟨?_, _, rfl, rfl, rfl, inb _ _ _⟩, fun a b ha hb => ?_⟩
  · intro e he
    rcases List.mem_append.mp he with he | he
    · exact old _ e he
    · rw [List.mem_singleton] at he
      subst he
      dsimp only [edgeOfPoints]
      rw [(hseg p q).1, (hseg p q).2]
      simp
  · intro e he
    rcases List.mem_append.mp he with he | he
    · exact old _ e he
    · rw [List.mem_singleton] at he
      subst he
      dsimp only [edgeOfCurve]
      simp
  · obtain ⟨p, hp⟩ : ∃ p, st.pos[a]? = some p := ⟨_, List.getElem?_eq_getElem ha⟩
    obtain ⟨q, hq⟩ : ∃ q, st.pos[b]? = some q := ⟨_, List.getElem?_eq_getElem hb⟩
    unfold edgeOfVertices
    rw [rd_eq_ok.mpr hp, R_bind_ok, rd_eq_ok.mpr hq, R_bind_ok]
    refine ⟨_, _, rfl, ?_, rfl, rfl, rfl, rfl, inb _ _ _⟩
    intro e he
    rcases List.mem_append.mp he with he | he
    · exact ho e he
    · rw [List.mem_singleton] at he
      subst he
      dsimp only
      rw [(hseg p q).1, (hseg p q).2]
      exact ⟨hp, hq⟩

theorem setVertex1_ok {o : CrvOps C V K} {pos : List V} {e : TEdge C K} {v : ℕ} (h : v < pos.length) : ∃ r, setVertex1 o pos e v = .ok r := by
  unfold setVertex1
  rw [rd_ok h, R_bind_ok]
  dsimp only
  split <;> exact ⟨_, rfl⟩

theorem setVertex2_ok {o : CrvOps C V K} {pos : List V} {e : TEdge C K} {v : ℕ} (h : v < pos.length) : ∃ r, setVertex2 o pos e v = .ok r := by
  unfold setVertex2
  rw [rd_ok h, R_bind_ok]
  dsimp only
  split <;> exact ⟨_, rfl⟩

theorem wireNear_ok {o : CrvOps C V K} {st : Topo C V K} {w : TWire K} {a b : ℕ} (ha : a < st.pos.length) (hb : b < st.pos.length) :
    ∃ r, wireNear o st w a b = .ok r := by
  unfold wireNear
  rw [rd_ok ha, R_bind_ok, rd_ok hb, R_bind_ok]
  exact ⟨_, rfl⟩

theorem ends_exist {st : Topo C V K} {w : TWire K} (wf : Spec.TopoWF st w) : ∃ f b, Spec.WireEnds st w f b ∧ f ∈ st.edges ∧ b ∈ st.edges := by
  obtain ⟨i, hi⟩ : ∃ i, w.ids.head? = some i := by
    cases h : w.ids with
    | nil => exact absurd h wf.some
    | cons x l => exact ⟨x, rfl⟩
  obtain ⟨j, hj⟩ : ∃ j, w.ids.getLast? = some j := ⟨_, List.getLast?_eq_some_getLast wf.some⟩
  have li := wf.edges i (List.mem_of_mem_head? hi)
  have lj := wf.edges j (List.mem_of_getLast? hj)
  exact ⟨st.edges[i], st.edges[j], ⟨⟨i, hi, List.getElem?_eq_getElem li⟩, ⟨j, hj, List.getElem?_eq_getElem lj⟩⟩, List.getElem_mem li, List.getElem_mem lj⟩

/-- **C95**: adding an edge always ends, without undefined behaviour, and the numbers stay those of objects. -/
theorem C95_total {o : CrvOps C V K} {st : Topo C V K} {w : TWire K} {id : ℕ} (wf : Spec.TopoWF st w) (hid : id < st.edges.length) :
    ∃ r st' w', addEdge o st w id = .ok (r, st', w') ∧ Spec.TopoWF st' w' := by
  obtain ⟨f, b, hfb, mf, mb⟩ := ends_exist wf
  have hf := wireFront_ok hfb.first
  have hb := wireBack_ok hfb.last
  have hne : w.ids.length ≠ 0 := by simpa using wf.some
  have hex : ∃ r, addEdge o st w id = .ok r := by
    unfold addEdge
    rw [if_neg hne]
    unfold wireClosed
    rw [if_neg hne, hf, R_bind_ok, hb, R_bind_ok]
    by_cases hc : f.v1 = b.v2
    · exact ⟨_, by rw [show decide (f.v1 = b.v2) = true by simpa using hc]; rfl⟩
    rw [show decide (f.v1 = b.v2) = false by simpa using hc]
    have he := rd_ok hid
    set e := st.edges[id]
    have me : e ∈ st.edges := List.getElem_mem hid
    rw [show (pure false : R Bool) = .ok false from rfl, R_bind_ok]
    simp only [Bool.false_eq_true, if_false, R_bind_ok]
    rw [he, R_bind_ok]
    by_cases h1 : f.v1 = e.v2
    · exact ⟨_, by rw [if_pos h1]; rfl⟩
    rw [if_neg h1]
    by_cases h2 : b.v2 = e.v1
    · exact ⟨_, by rw [if_pos h2]; rfl⟩
    rw [if_neg h2]
    obtain ⟨q, hq, hB⟩ : ∃ q, addAtBack o st w id = .ok q ∧ (q.2.1.pos = st.pos ∧ q.2.1.edges.length = st.edges.length ∧
        (∀ x ∈ q.2.1.edges, x.v1 < st.pos.length ∧ x.v2 < st.pos.length) ∧ q.2.2.ids ≠ [] ∧ ∀ i ∈ q.2.2.ids, i < st.edges.length) := by
      unfold addAtBack
      rw [hb, R_bind_ok, he, R_bind_ok]
      obtain ⟨n1, hn⟩ := wireNear_ok (o := o) (w := w) (wf.verts b mb).2 (wf.verts e me).1
      rw [hn, R_bind_ok]
      cases n1 with
      | true =>
        obtain ⟨r1, hr⟩ := setVertex1_ok (o := o) (e := e) (wf.verts b mb).2
        have s1 := setVertex1_inv hr
        refine ⟨_, by rw [if_pos rfl, hr, R_bind_ok, wr_ok hid, R_bind_ok]; rfl, rfl, by simp, ?_, by simp, ?_⟩
        · intro x hx
          rcases List.mem_or_eq_of_mem_set hx with hx | rfl
          · exact wf.verts x hx
          · rcases s1.out with ⟨-, -, -, h⟩ | ⟨-, -, -, h⟩
            · rw [h]; exact wf.verts e me
            · rw [h, s1.v2]; exact ⟨(wf.verts b mb).2, (wf.verts e me).2⟩
        · intro i hi
          rcases List.mem_append.mp hi with hi | hi
          · exact wf.edges i hi
          · rw [List.mem_singleton] at hi; subst hi; exact hid
      | false => exact ⟨_, rfl, rfl, rfl, wf.verts, wf.some, wf.edges⟩
    rw [hq, R_bind_ok]
    obtain ⟨p1, p2, p3, p4, p5⟩ := hB
    unfold addAtFront
    obtain ⟨f2, b2, hfb2, mf2, -⟩ := ends_exist (st := q.2.1) (w := q.2.2) ⟨by rw [p1]; exact p3, by rw [p2]; exact p5, p4⟩
    have hid2 : id < q.2.1.edges.length := by rw [p2]; exact hid
    rw [wireFront_ok hfb2.first, R_bind_ok, rd_ok hid2, R_bind_ok]
    obtain ⟨n2, hn2⟩ := wireNear_ok (o := o) (st := q.2.1) (w := q.2.2) (a := f2.v1) (b := q.2.1.edges[id].v2) (by rw [p1]; exact (p3 f2 mf2).1)
      (by rw [p1]; exact (p3 _ (List.getElem_mem hid2)).2)
    rw [hn2, R_bind_ok]
    cases n2 with
    | true =>
      obtain ⟨r2, hr2⟩ := setVertex2_ok (o := o) (pos := q.2.1.pos) (e := q.2.1.edges[id]) (v := f2.v1) (by rw [p1]; exact (p3 f2 mf2).1)
      exact ⟨_, by rw [if_pos rfl, hr2, R_bind_ok, wr_ok hid2, R_bind_ok]; rfl⟩
    | false => exact ⟨_, rfl⟩
  obtain ⟨⟨r, st', w'⟩, h⟩ := hex
  refine ⟨r, st', w', h, ?_⟩
  obtain ⟨f', b', hfb', ⟨-, -, rfl, rfl⟩ | ⟨e, he, ha⟩⟩ := addEdge_inv wf.some h
  · exact wf
  obtain ⟨rfl, rfl⟩ := wireEnds_unique hfb hfb'
  have me := List.mem_of_getElem? he
  have vset : ∀ x : TEdge C K, (x.v1 < st.pos.length ∧ x.v2 < st.pos.length) → ∀ y ∈ st.edges.set id x, y.v1 < st.pos.length ∧ y.v2 < st.pos.length := by
    intro x hx y hy
    rcases List.mem_or_eq_of_mem_set hy with hy | rfl
    · exact wf.verts y hy
    · exact hx
  have lcons : ∀ i ∈ id :: w.ids, i < st.edges.length := by
    intro i hi
    rcases List.mem_cons.mp hi with rfl | hi
    · exact hid
    · exact wf.edges i hi
  have lsnoc : ∀ i ∈ w.ids ++ [id], i < st.edges.length := by
    intro i hi
    rcases List.mem_append.mp hi with hi | hi
    · exact wf.edges i hi
    · rw [List.mem_singleton] at hi; subst hi; exact hid
  have v1of : ∀ e1 : TEdge C K, Set1 o st.pos e e1 b.v2 → e1.v1 < st.pos.length ∧ e1.v2 < st.pos.length := by
    intro e1 s1
    rcases s1.out with ⟨-, -, -, h⟩ | ⟨-, -, -, h⟩
    · rw [h]; exact wf.verts e me
    · rw [h, s1.v2]; exact ⟨(wf.verts b mb).2, (wf.verts e me).2⟩
  cases ha with
  | closed => exact wf
  | front => exact ⟨wf.verts, lcons, by simp⟩
  | back => exact ⟨wf.verts, lsnoc, by simp⟩
  | none => exact wf
  | near1 hc h1 h2 n1 e1 f1 s1 hf n2 => exact ⟨vset e1 (v1of e1 s1), by simpa using lsnoc, by simp⟩
  | near2 hc h1 h2 n1 n2 e2 s2 =>
    refine ⟨vset e2 ?_, by simpa using lcons, by simp⟩
    rcases s2.out with ⟨-, -, -, h⟩ | ⟨-, -, -, h⟩
    · rw [h]; exact wf.verts e me
    · rw [h, s2.v1]; exact ⟨(wf.verts e me).1, (wf.verts f mf).1⟩
  | both hc h1 h2 n1 e1 f1 e2 s1 hf n2 s2 =>
    refine ⟨vset e2 ?_, by simpa using lsnoc, by simp⟩
    rcases s2.out with ⟨-, -, -, h⟩ | ⟨p, hp, -, h⟩
    · rw [h]; exact v1of e1 s1
    · rw [h, s2.v1]; exact ⟨(v1of e1 s1).1, (List.getElem?_eq_some_iff.mp hp).1⟩

/-- The edges of a polygon after its first one: from `p` through the points of the list, and back to `p0`. -/
def Spec.polygonSegments (p0 : V) : V → List V → List (V × V)
  | p, [] => [(p, p0)]
  | p, q :: l => (p, q) :: Spec.polygonSegments p0 q l

theorem some_append {α : Type} {l m : List α} {i : ℕ} {x : α} (h : l[i]? = some x) : (l ++ m)[i]? = some x := by
  rw [List.getElem?_append_left (List.getElem?_eq_some_iff.mp h).1]
  exact h

/-- One more segment. -/
theorem segment_step {o : CrvOps C V K} {etol : K} {st : Topo C V K} {w : TWire K} (ht : w.tol ≤ etol)
    (hseg : ∀ p q x, (o.ext (o.seg p q) x).2 ≤ o.dist x p ∧ (o.ext (o.seg p q) x).2 ≤ o.dist x q) (wf : Spec.TopoWF st w) {f b : TEdge C K}
    (hfb : Spec.WireEnds st w f b) (hcon : Spec.Connected st w) {p0 p q : V} (hp0 : st.pos[f.v1]? = some p0) (hp : st.pos[b.v2]? = some p) (hne : p ≠ p0)
    (hpp : o.dist p p < w.tol) (hpq : o.dist p0 q < w.tol ↔ q = p0) :
    ∃ st' w' f' b', addEdge o (edgeOfPoints o etol st p q).1 w (edgeOfPoints o etol st p q).2 = .ok (true, st', w') ∧ Spec.TopoWF st' w' ∧
      Spec.WireEnds st' w' f' b' ∧ Spec.Connected st' w' ∧ w'.tol = w.tol ∧ w'.ids = w.ids ++ [st.edges.length] ∧ st'.edges.length = st.edges.length + 1 ∧
      (Spec.ClosedWire st' w' ↔ q = p0) ∧ (q ≠ p0 → st'.pos[f'.v1]? = some p0 ∧ st'.pos[b'.v2]? = some q) := by
  set st1 := (edgeOfPoints o etol st p q).1 with hst1
  set e : TEdge C K := ⟨o.seg p q, st.pos.length, st.pos.length + 1, (o.bnd (o.seg p q)).1, (o.bnd (o.seg p q)).2, etol⟩ with hedef
  have e1 : st1.pos = st.pos ++ [p, q] := rfl
  have e2 : st1.edges = st.edges ++ [e] := rfl
  have hpos1 : st1.pos[st.pos.length]? = some p := by rw [e1]; simp
  have hpos2 : st1.pos[st.pos.length + 1]? = some q := by rw [e1]; simp
  have hfe : Spec.WireEnds st1 w f b := by
    obtain ⟨⟨i, a1, a2⟩, ⟨j, b1, b2⟩⟩ := hfb
    exact ⟨⟨i, a1, some_append a2⟩, ⟨j, b1, some_append b2⟩⟩
  have hcon1 : Spec.Connected st1 w := by
    refine List.IsChain.imp ?_ hcon
    rintro i j ⟨x, y, hx, hy, hxy⟩
    exact ⟨x, y, some_append hx, some_append hy, hxy⟩
  have wf1 : Spec.TopoWF st1 w := by
    refine ⟨?_, ?_, wf.some⟩
    · intro x hx
      rw [e2, List.mem_append] at hx
      rw [e1, List.length_append]
      rcases hx with hx | hx
      · have := wf.verts x hx
        omega
      · rw [List.mem_singleton] at hx
        subst hx
        simp [hedef]
    · intro i hi
      rw [e2, List.length_append]
      have := wf.edges i hi
      omega
  have hidl : st.edges.length < st1.edges.length := by rw [e2]; simp
  have hid : st.edges.length ∉ w.ids := fun h => absurd (wf.edges _ h) (lt_irrefl _)
  have he : st1.edges[st.edges.length]? = some e := by rw [e2]; simp
  have hf1 : f.v1 < st.pos.length := (List.getElem?_eq_some_iff.mp hp0).1
  have hb1 : b.v2 < st.pos.length := (List.getElem?_eq_some_iff.mp hp).1
  have hp0' : st1.pos[f.v1]? = some p0 := some_append hp0
  have hp' : st1.pos[b.v2]? = some p := some_append hp
  have fit : Spec.EdgeFits o st1 w e := by
    refine ⟨ht, ?_, ?_⟩
    · intro x y hy
      rw [show e.v1 = st.pos.length from rfl, hpos1] at hy
      cases hy
      exact (hseg _ _ _).1
    · intro x y hy
      rw [show e.v2 = st.pos.length + 1 from rfl, hpos2] at hy
      cases hy
      exact (hseg _ _ _).2
  have n1 : Spec.Near o st1 w b.v2 e.v1 := ⟨p, p, hp', hpos1, hpp⟩
  have n2 : Spec.Near o st1 w f.v1 e.v2 ↔ q = p0 := by
    rw [← hpq]
    constructor
    · rintro ⟨x, y, hx, hy, h⟩
      rw [hp0'] at hx
      rw [show e.v2 = st.pos.length + 1 from rfl, hpos2] at hy
      cases hx
      cases hy
      exact h
    · exact fun h => ⟨p0, q, hp0', hpos2, h⟩
  have d1 : f.v1 ≠ e.v2 := by show f.v1 ≠ st.pos.length + 1; omega
  have d2 : b.v2 ≠ e.v1 := by show b.v2 ≠ st.pos.length; omega
  have d3 : f.v1 ≠ b.v2 := by
    intro h
    rw [h, hp] at hp0
    exact hne (Option.some.inj hp0)
  obtain ⟨r, st', w', hadd, wf'⟩ := C95_total (o := o) wf1 hidl
  obtain ⟨a1, a2, a3, f', b', a4, a5⟩ := add_full hid hfe he fit hcon1 hadd
  obtain rfl : r = true := a1.mpr ⟨d3, Or.inr (Or.inr (Or.inl n1))⟩
  obtain ⟨-, -, c1, c2, c3, -⟩ := C95_added wf1.some hadd
  obtain ⟨a6, rfl, a7, a8⟩ := a5 d3 d1 (Or.inr n1)
  have hclosed : Spec.ClosedWire st' w' ↔ q = p0 := by
    rw [a3, n2]
    exact ⟨fun h => by rcases h with h | ⟨h, -⟩ | ⟨-, -, -, h⟩; exacts [absurd h d3, absurd h d1, h], fun h => Or.inr (Or.inr ⟨d1, d2, n1, h⟩)⟩
  have hlen : st'.edges.length = st.edges.length + 1 := by
    obtain ⟨f', b', hfb', ⟨-, hc, -, -⟩ | ⟨e', he', ha⟩⟩ := addEdge_inv wf1.some hadd
    · cases hc
    · cases ha <;> simp [e2]
  refine ⟨st', w', f', b', hadd, wf', a4, a2, c1, a6, hlen, hclosed, ?_⟩
  intro hq
  rw [c2]
  refine ⟨hp0', ?_⟩
  rw [a8.resolve_left (fun h => hq (hclosed.mp h))]
  exact hpos2

theorem polygon_loop {o : CrvOps C V K} {etol : K} (hseg : ∀ p q x, (o.ext (o.seg p q) x).2 ≤ o.dist x p ∧ (o.ext (o.seg p q) x).2 ≤ o.dist x q) {p0 : V} :
    ∀ (l : List V) (p : V) (st : Topo C V K) (w : TWire K) (f b : TEdge C K), w.tol ≤ etol → Spec.TopoWF st w → Spec.WireEnds st w f b → Spec.Connected st w →
    st.pos[f.v1]? = some p0 → st.pos[b.v2]? = some p → (p0 :: p :: l).Nodup → (∀ x ∈ p0 :: p :: l, ∀ y ∈ p0 :: p :: l, (o.dist x y < w.tol ↔ x = y)) →
    w.ids = List.range st.edges.length →
    ∃ bs st' w', addSegments o etol st w (Spec.polygonSegments p0 p l) = .ok (bs, st', w') ∧ bs = List.replicate (l.length + 1) true ∧
      w'.ids = List.range (st.edges.length + l.length + 1) ∧ Spec.Connected st' w' ∧ Spec.ClosedWire st' w' := by
  intro l
  induction l with
  | nil =>
    intro p st w f b ht wf hfb hcon hp0 hp hnd hsep hids
    obtain ⟨st', w', f', b', hadd, -, -, hc, -, hid', -, hcl, -⟩ := segment_step (q := p0) ht hseg wf hfb hcon hp0 hp (by simp at hnd; exact Ne.symm hnd)
      ((hsep p (by simp) p (by simp)).mpr rfl) (by simpa using (hsep p0 (by simp) p0 (by simp)))
    refine ⟨[true], st', w', ?_, rfl, ?_, hc, hcl.mpr rfl⟩
    · unfold Spec.polygonSegments addSegments
      dsimp only
      rw [hadd, R_bind_ok]
      rfl
    · rw [hid', hids, List.length_nil, Nat.add_zero, List.range_succ]
  | cons q l ih =>
    intro p st w f b ht wf hfb hcon hp0 hp hnd hsep hids
    have hq0 : q ≠ p0 := by
      rintro rfl
      simp at hnd
    have hpp0 : p ≠ p0 := by
      rintro rfl
      simp at hnd
    obtain ⟨st', w', f', b', hadd, wf', hfb', hc, ht', hid', hlen, hcl, hpos⟩ := segment_step (q := q) ht hseg wf hfb hcon hp0 hp hpp0
      ((hsep p (by simp) p (by simp)).mpr rfl) (by rw [hsep p0 (by simp) q (by simp)]; exact eq_comm)
    obtain ⟨hp0', hp'⟩ := hpos hq0
    obtain ⟨bs, st2, w2, hrun, hbs, hids2, hc2, hcl2⟩ := ih q st' w' f' b' (by rw [ht']; exact ht) wf' hfb' hc hp0' hp'
      (by rw [List.nodup_cons] at hnd ⊢; exact ⟨fun h => hnd.1 (List.mem_cons_of_mem _ h), (List.nodup_cons.mp hnd.2).2⟩)
      (by
        rw [ht']
        intro x hx y hy
        apply hsep
        · rcases List.mem_cons.mp hx with rfl | hx
          · simp
          · exact List.mem_cons_of_mem _ (List.mem_cons_of_mem _ hx)
        · rcases List.mem_cons.mp hy with rfl | hy
          · simp
          · exact List.mem_cons_of_mem _ (List.mem_cons_of_mem _ hy))
      (by rw [hid', hids, hlen, List.range_succ])
    refine ⟨true :: bs, st2, w2, ?_, ?_, ?_, hc2, hcl2⟩
    · unfold Spec.polygonSegments addSegments
      dsimp only
      rw [hadd, R_bind_ok]
      dsimp only
      rw [hrun, R_bind_ok]
      rfl
    · rw [hbs, List.length_cons, List.replicate_succ (n := l.length + 1)]
    · rw [hids2, hlen, List.length_cons]
      congr 1
      omega

/-- **C95**: the segments between the points of a polygon, farther from each other than the tolerance, make a wire that has them all in their order, connected,
and closed by the last one (the others are added to a wire that is not closed). -/
theorem C95_polygon {o : CrvOps C V K} {tol etol : K} (ht : tol ≤ etol)
    (hseg : ∀ p q x, (o.ext (o.seg p q) x).2 ≤ o.dist x p ∧ (o.ext (o.seg p q) x).2 ≤ o.dist x q) {p0 p1 : V} {l : List V} (hnd : (p0 :: p1 :: l).Nodup)
    (hsep : ∀ x ∈ p0 :: p1 :: l, ∀ y ∈ p0 :: p1 :: l, (o.dist x y < tol ↔ x = y)) :
    ∃ st w st' w', wireOf o tol (edgeOfPoints o etol ⟨[], []⟩ p0 p1).1 0 = .ok (st, w) ∧
      addSegments o etol st w (Spec.polygonSegments p0 p1 l) = .ok (List.replicate (l.length + 1) true, st', w') ∧ w'.ids = List.range (l.length + 2) ∧
      Spec.Connected st' w' ∧ Spec.ClosedWire st' w' := by
  have h01 : p0 ≠ p1 := by
    rintro rfl
    simp at hnd
  have hfar : ¬ o.dist p0 p1 < tol := fun h => h01 ((hsep p0 (by simp) p1 (by simp)).mp h)
  set st : Topo C V K := (edgeOfPoints o etol ⟨[], []⟩ p0 p1).1 with hst
  set e : TEdge C K := ⟨o.seg p0 p1, 0, 1, (o.bnd (o.seg p0 p1)).1, (o.bnd (o.seg p0 p1)).2, etol⟩
  have hedges : st.edges = [e] := rfl
  have hpos : st.pos = [p0, p1] := rfl
  have hends : Spec.WireEnds st (⟨[0], tol⟩ : TWire K) e e := ⟨⟨0, rfl, rfl⟩, ⟨0, rfl, rfl⟩⟩
  have hwire : wireOf o tol st 0 = .ok (st, ⟨[0], tol⟩) := by
    unfold wireOf fuseVertex2
    dsimp only
    rw [wireFront_ok hends.first, R_bind_ok, rd_eq_ok.mpr (show st.edges[0]? = some e from rfl), R_bind_ok]
    unfold wireNear
    rw [rd_eq_ok.mpr (show st.pos[e.v1]? = some p0 from rfl), R_bind_ok, rd_eq_ok.mpr (show st.pos[e.v2]? = some p1 from rfl), R_bind_ok]
    dsimp only
    rw [show decide (o.dist p0 p1 < tol) = false by simpa using hfar]
    rfl
  obtain ⟨bs, st', w', hrun, rfl, hids, hc, hcl⟩ := polygon_loop hseg (p0 := p0) l p1 st ⟨[0], tol⟩ e e ht (by
    refine ⟨?_, ?_, by simp⟩
    · intro x hx
      rw [hedges, List.mem_singleton] at hx
      subst hx
      exact ⟨by rw [hpos]; show 0 < 2; omega, by rw [hpos]; show 1 < 2; omega⟩
    · intro i hi
      rw [List.mem_singleton] at hi
      subst hi
      rw [hedges]
      simp) hends (List.isChain_singleton _) rfl rfl hnd hsep rfl
  refine ⟨st, ⟨[0], tol⟩, st', w', hwire, hrun, ?_, hc, hcl⟩
  rw [hids, hedges, List.length_singleton]
  congr 1
  omega

/-- **C95**: the points of the tessellation of an edge are those of the discretization of its curve, but for the first and the last, which are the points of its
two vertices. -/
theorem C95_tessellate {st : Topo C V K} {disc : C → R (List V)} {id : ℕ} {e : TEdge C K} {pts : List V} {p q : V} (he : st.edges[id]? = some e)
    (hd : disc e.crv = .ok pts) (h2 : 2 ≤ pts.length) (hp : st.pos[e.v1]? = some p) (hq : st.pos[e.v2]? = some q) :
    ∃ out, tessellate st disc id = .ok out ∧ out.length = pts.length ∧ out.head? = some p ∧ out.getLast? = some q ∧
      ∀ i, 0 < i → i + 1 < pts.length → out[i]? = pts[i]? := by
  refine ⟨(pts.set 0 p).set (pts.length - 1) q, ?_, by simp, ?_, ?_, ?_⟩
  · unfold tessellate
    rw [rd_eq_ok.mpr he, R_bind_ok, hd, R_bind_ok, rd_eq_ok.mpr hp, R_bind_ok, wr_ok (by omega), R_bind_ok, rd_eq_ok.mpr hq, R_bind_ok, List.length_set,
      usub_ok (by omega), R_bind_ok, wr_ok (by simp; omega)]
  · rw [List.head?_eq_getElem?, List.getElem?_set_ne (by omega), List.getElem?_set_self (by omega)]
  · rw [List.getLast?_eq_getElem?, List.length_set, List.length_set, List.getElem?_set_self (by simp; omega)]
  · intro i h0 h1
    rw [List.getElem?_set_ne (by omega), List.getElem?_set_ne (by omega)]

/-! Examples: points of the plane with the distance `|dx| + |dy|`, segments whose nearest point is taken at their ends. -/

/-- The curves of the examples are segments, given by their ends. -/
def planeOps : CrvOps ((ℚ × ℚ) × (ℚ × ℚ)) (ℚ × ℚ) ℚ where
  bnd _ := (0, 1)
  ext c p := if |p.1 - c.1.1| + |p.2 - c.1.2| ≤ |p.1 - c.2.1| + |p.2 - c.2.2| then (0, |p.1 - c.1.1| + |p.2 - c.1.2|) else (1, |p.1 - c.2.1| + |p.2 - c.2.2|)
  dist p q := |p.1 - q.1| + |p.2 - q.2|
  seg p q := (p, q)
  eps := 1 / 100000

/-- The square of `tests/tests_topo.cpp:87-90`. -/
example : ∃ st w st' w', wireOf planeOps (1 / 1000) (edgeOfPoints planeOps (1 / 1000) ⟨[], []⟩ (0, 0) (1, 0)).1 0 = .ok (st, w) ∧
    addSegments planeOps (1 / 1000) st w [((1, 0), (1, 1)), ((1, 1), (0, 1)), ((0, 1), (0, 0))] = .ok ([true, true, true], st', w') ∧
    w'.ids = [0, 1, 2, 3] ∧ Spec.Connected st' w' ∧ Spec.ClosedWire st' w' :=
  C95_polygon (o := planeOps) (l := [(1, 1), (0, 1)]) le_rfl (by
    intro p q x
    show (if _ then _ else _ : ℚ × ℚ).2 ≤ |x.1 - p.1| + |x.2 - p.2| ∧ (if _ then _ else _ : ℚ × ℚ).2 ≤ |x.1 - q.1| + |x.2 - q.2|
    split
    · rename_i h; exact ⟨le_rfl, h⟩
    · rename_i h; exact ⟨(not_le.mp h).le, le_rfl⟩) (by decide +kernel) (by decide +kernel)

/-- The segments of the examples go forwards. -/
theorem planeOps_good : Spec.GoodCurves planeOps := by
  refine ⟨by decide +kernel, fun c => ⟨by show (0 : ℚ) < 1; norm_num, fun p => ?_⟩⟩
  show (0 : ℚ) ≤ (if _ then _ else _ : ℚ × ℚ).1 ∧ (if _ then _ else _ : ℚ × ℚ).1 ≤ (1 : ℚ)
  split <;> norm_num

/-- A curve that comes back near its start makes a closed wire. -/
example : ∃ st' w, wireOf planeOps (1 / 1000) (⟨[(0, 0), (0, 1 / 2000)], [⟨((0, 0), (0, 1 / 2000)), 0, 1, 0, 1, 1 / 1000⟩]⟩ : Topo _ _ ℚ) 0 = .ok (st', w) ∧
    Spec.ClosedWire st' w := by
  obtain ⟨st', w, h, -, -, -, -, hc, -⟩ := C95_one (o := planeOps) (tol := 1 / 1000)
    (st := ⟨[(0, 0), (0, 1 / 2000)], [⟨((0, 0), (0, 1 / 2000)), 0, 1, 0, 1, 1 / 1000⟩]⟩) (id := 0) rfl rfl rfl
  exact ⟨st', w, h, hc.mpr (Or.inr (by decide +kernel))⟩

/-- The edge between two vertices of a square. -/
example : ∃ st' e, edgeOfVertices planeOps (1 / 1000) (⟨[(0, 0), (1, 0), (1, 1), (0, 1)], []⟩ : Topo _ _ ℚ) 3 0 = .ok (st', 0) ∧
    Spec.AtEnds (fun c u => ((1 - u) * c.1.1 + u * c.2.1, (1 - u) * c.1.2 + u * c.2.2)) st' ∧ st'.pos = [(0, 0), (1, 0), (1, 1), (0, 1)] ∧
    st'.edges = [e] ∧ e.v1 = 3 ∧ e.v2 = 0 ∧ Spec.InBounds planeOps e :=
  (C95_edges (o := planeOps) (val := fun c u => ((1 - u) * c.1.1 + u * c.2.1, (1 - u) * c.1.2 + u * c.2.2)) (by
    rintro ⟨a, b⟩ ⟨c, d⟩
    simp [planeOps]) planeOps_good (st := ⟨[(0, 0), (1, 0), (1, 1), (0, 1)], []⟩) (by intro e he; cases he)).2.2 3 0 (by decide) (by decide)

/-- Three sides of a square joined by their vertices, and the fourth one from the last vertex to a new one at the first point. -/
def wireMixed : Topo ((ℚ × ℚ) × (ℚ × ℚ)) (ℚ × ℚ) ℚ :=
  ⟨[(0, 0), (1, 0), (1, 1), (0, 0)], [⟨((0, 0), (1, 0)), 0, 1, 0, 1, 1 / 1000⟩, ⟨((1, 0), (1, 1)), 1, 2, 0, 1, 1 / 1000⟩, ⟨((1, 1), (0, 0)), 2, 3, 0, 1, 1 / 1000⟩]⟩

set_option synthInstance.maxSize 1000 in
/-- **C95** (false of the code): an edge joined to the end of the wire by its vertex, whose other vertex is at the point where the wire starts, does not close it:
the nearness of the other end is only looked at when no vertex is shared. The first edge can then be added again, and is twice in the wire. -/
theorem C95_not_closed : addEdge planeOps wireMixed ⟨[0, 1], 1 / 1000⟩ 2 = .ok (true, wireMixed, ⟨[0, 1, 2], 1 / 1000⟩) ∧
    wireClosed wireMixed (⟨[0, 1, 2], 1 / 1000⟩ : TWire ℚ) = .ok false ∧ wireNear planeOps wireMixed ⟨[0, 1, 2], 1 / 1000⟩ 0 3 = .ok true ∧
    (addEdge planeOps wireMixed ⟨[0, 1, 2], 1 / 1000⟩ 0).toOption.map (fun r => (r.1, r.2.2.ids)) = some (true, [0, 1, 2, 0]) := by
  decide +kernel

/-- Two edges, the second one with a smaller tolerance, near each other. -/
def wireLoose : Topo ((ℚ × ℚ) × (ℚ × ℚ)) (ℚ × ℚ) ℚ :=
  ⟨[(0, 0), (1, 0), (1, 1 / 100), (1, 1)], [⟨((0, 0), (1, 0)), 0, 1, 0, 1, 1 / 10⟩, ⟨((1, 1 / 100), (1, 1)), 2, 3, 0, 1, 1 / 1000⟩]⟩

set_option synthInstance.maxSize 1000 in
/-- **C95** (false of the code): when the tolerance of the edge is less than that of the wire, `setVertex1` fails, but the edge is added: the wire is not connected,
and `addEdge` returns true. -/
theorem C95_not_connected : addEdge planeOps wireLoose ⟨[0], 1 / 10⟩ 1 = .ok (true, wireLoose, ⟨[0, 1], 1 / 10⟩) ∧
    ¬ Spec.Connected wireLoose (⟨[0, 1], 1 / 10⟩ : TWire ℚ) := by
  refine ⟨by decide +kernel, ?_⟩
  intro h
  obtain ⟨a, b, ha, hb, hab⟩ := (List.isChain_cons_cons.mp h).1
  cases ha
  cases hb
  exact absurd hab (by decide)

/-- The two edges of a wire, and one of another wire that ends near the start of its second edge. -/
def wireShared : Topo ((ℚ × ℚ) × (ℚ × ℚ)) (ℚ × ℚ) ℚ :=
  ⟨[(0, 0), (1, 0), (1, 1), (2, 0), (1, 0)], [⟨((0, 0), (1, 0)), 0, 1, 0, 1, 1 / 1000⟩, ⟨((1, 0), (1, 1)), 1, 2, 0, 1, 1 / 1000⟩, ⟨((2, 0), (1, 0)), 3, 4, 0, 1, 1 / 1000⟩]⟩

set_option synthInstance.maxSize 1000 in
/-- **C95** (false of the code): adding to a wire an edge that is also in another one changes its vertex, and the other wire is no longer connected. -/
theorem C95_shared : Spec.Connected wireShared (⟨[0, 1], 1 / 1000⟩ : TWire ℚ) ∧
    ∃ st w, addEdge planeOps wireShared ⟨[2], 1 / 1000⟩ 1 = .ok (true, st, w) ∧ ¬ Spec.Connected st (⟨[0, 1], 1 / 1000⟩ : TWire ℚ) := by
  refine ⟨List.isChain_cons_cons.mpr ⟨⟨_, _, rfl, rfl, rfl⟩, List.isChain_singleton _⟩, _, _,
    (by decide +kernel : addEdge planeOps wireShared ⟨[2], 1 / 1000⟩ 1 = .ok (true, ⟨wireShared.pos, wireShared.edges.set 1 ⟨((1, 0), (1, 1)), 4, 2, 0, 1, 1 / 1000⟩⟩,
      ⟨[2, 1], 1 / 1000⟩)), ?_⟩
  intro h
  obtain ⟨a, b, ha, hb, hab⟩ := (List.isChain_cons_cons.mp h).1
  cases ha
  cases hb
  exact absurd hab (by decide)

/-- **C95** (false of the code): the bounds of an edge are not used by its tessellation: when the first vertex is in the middle of the curve (as `setVertex1` accepts
it), the points go back to the start of the curve. Here the curve goes from 0 to 4 with a point at each unit. -/
theorem C95_tessellate_trimmed : setVertex1 (⟨fun _ => (0, 4), fun _ p => (p, 0), fun p q => |p - q|, fun _ _ => (), 1 / 1000⟩ : CrvOps Unit ℚ ℚ) [0, 4, 2]
      ⟨(), 0, 1, 0, 4, 1 / 1000⟩ 2 = .ok (true, ⟨(), 2, 1, 2, 4, 1 / 1000⟩) ∧
    tessellate (⟨[0, 4, 2], [⟨(), 2, 1, 2, 4, 1 / 1000⟩]⟩ : Topo Unit ℚ ℚ) (fun _ => .ok [0, 1, 2, 3, 4]) 0 = .ok [2, 1, 2, 3, 4] := by
  decide +kernel

/-- The edges of a wire to which a third one is added. -/
example {r : Bool} {st' : Topo ((ℚ × ℚ) × (ℚ × ℚ)) (ℚ × ℚ) ℚ} {w' : TWire ℚ} (h : addEdge planeOps wireShared ⟨[2], 1 / 1000⟩ 1 = .ok (r, st', w')) :
    ∀ e ∈ st'.edges, Spec.InBounds planeOps e :=
  C95_bounds planeOps_good (by simp) (by
    intro e he
    have hb : e.u1 = 0 ∧ e.u2 = 1 := by
      simp only [wireShared, List.mem_cons, List.not_mem_nil, or_false] at he
      rcases he with rfl | rfl | rfl <;> exact ⟨rfl, rfl⟩
    unfold Spec.InBounds
    rw [hb.1, hb.2]
    exact ⟨le_rfl, zero_lt_one, zero_lt_one, le_rfl⟩) h

end Gbs
