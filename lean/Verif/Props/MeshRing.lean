import Verif.Model.HalfEdge
import Verif.Lemmas.OkInv
import Mathlib.Data.Finset.Card
import Mathlib.Data.Finset.Range

/-!
# C37: rings of half-edges
-/

namespace Gbs

variable {P : Type}

namespace Mesh

theorem setE_self (h : Mesh P) (e : ℕ) (g : HEdge → HEdge) : (h.setE e g).he e = g (h.he e) := by simp [setE]

theorem setE_ne (h : Mesh P) {e x : ℕ} (g : HEdge → HEdge) (hx : x ≠ e) : (h.setE e g).he x = h.he x := by simp [setE, hx]

theorem loopNext_ok {l : List ℕ} {i : ℕ} (hi : i < l.length) :
    loopNext l i = .ok (l[(i + 1) % l.length]'(Nat.mod_lt _ (by omega))) := by
  unfold loopNext
  split
  · rename_i h
    rw [rd_eq_ok]
    simp [Nat.mod_eq_of_lt h]
  · have : i + 1 = l.length := by omega
    rw [rd_eq_ok]
    simp [this, show 0 < l.length by omega]

theorem loopPrev_ok {l : List ℕ} {i : ℕ} (hi : i < l.length) :
    loopPrev l i = .ok (l[(i + (l.length - 1)) % l.length]'(Nat.mod_lt _ (by omega))) := by
  unfold loopPrev
  split
  · rename_i h
    rw [rd_eq_ok]
    have : (i + (l.length - 1)) % l.length = i - 1 := by
      rw [show i + (l.length - 1) = (i - 1) + l.length by omega, Nat.add_mod_right, Nat.mod_eq_of_lt (by omega)]
    simp [this, show i - 1 < l.length by omega]
  · rename_i h
    have h0 : i = 0 := by omega
    subst h0
    rw [rd_eq_ok]
    have : (0 + (l.length - 1)) % l.length = l.length - 1 := by rw [Nat.zero_add, Nat.mod_eq_of_lt (by omega)]
    simp [this, show l.length - 1 < l.length by omega]

/-- What `make_loop` does. -/
theorem makeLoop_spec (h : Mesh P) {l : List ℕ} (hl : 0 < l.length) (hnd : l.Nodup) (f : ℕ) :
    ∃ h', h.makeLoop l f = .ok h' ∧ h'.fe = Function.update h.fe f (some l[0]) ∧ h'.co = h.co ∧ h'.ve = h.ve ∧ h'.nE = h.nE ∧ h'.nV = h.nV ∧
      h'.nF = h.nF ∧ (∀ i (hi : i < l.length), h'.he l[i] = { h.he l[i] with
        face := some f
        next := some (l[(i + 1) % l.length]'(Nat.mod_lt _ hl))
        prev := some (l[(i + (l.length - 1)) % l.length]'(Nat.mod_lt _ hl)) }) ∧ ∀ e, e ∉ l → h'.he e = h.he e := by
  unfold makeLoop
  rw [show rd l 0 = .ok l[0] from rd_eq_ok.mpr (by simp), R_bind_ok]
  obtain ⟨h', h1, h2⟩ := forLt_inv (fun k (m : Mesh P) => m.fe = Function.update h.fe f (some l[0]) ∧ m.co = h.co ∧ m.ve = h.ve ∧ m.nE = h.nE ∧
      m.nV = h.nV ∧ m.nF = h.nF ∧ (∀ i (hi : i < l.length), i < k → m.he l[i] = { h.he l[i] with
        face := some f
        next := some (l[(i + 1) % l.length]'(Nat.mod_lt _ hl))
        prev := some (l[(i + (l.length - 1)) % l.length]'(Nat.mod_lt _ hl)) }) ∧
      (∀ i (hi : i < l.length), k ≤ i → m.he l[i] = h.he l[i]) ∧ ∀ e, e ∉ l → m.he e = h.he e)
    (a := 0) (b := l.length) (s := h.setFE f (some l[0]))
    (body := fun i h => do
      let e ← rd l i
      let nx ← loopNext l i
      let pv ← loopPrev l i
      pure (h.setE e fun r => { r with face := some f, next := some nx, prev := some pv }))
    (Nat.zero_le _) ⟨rfl, rfl, rfl, rfl, rfl, rfl, fun i _ hi => absurd hi (Nat.not_lt_zero _), fun _ _ _ => rfl, fun _ _ => rfl⟩ (by
      rintro i m - hi ⟨m1, m2, m3, m4, m5, m6, m7, m8, m9⟩
      refine ⟨m.setE l[i] fun r => { r with
        face := some f
        next := some (l[(i + 1) % l.length]'(Nat.mod_lt _ hl))
        prev := some (l[(i + (l.length - 1)) % l.length]'(Nat.mod_lt _ hl)) }, by
        rw [show rd l i = .ok l[i] from rd_eq_ok.mpr (by simp [hi]), R_bind_ok, loopNext_ok hi, R_bind_ok, loopPrev_ok hi, R_bind_ok]
        rfl, m1, m2, m3, m4, m5, m6, ?_, ?_, ?_⟩
      · intro j hj hji
        by_cases hji' : j = i
        · subst hji'
          rw [setE_self, m8 j hj le_rfl]
        · rw [setE_ne _ _ (fun hc => hji' ((List.Nodup.getElem_inj_iff hnd).mp hc)), m7 j hj (by omega)]
      · intro j hj hji
        rw [setE_ne _ _ (fun hc => (by omega : j ≠ i) ((List.Nodup.getElem_inj_iff hnd).mp hc)), m8 j hj (by omega)]
      · intro e he
        rw [setE_ne _ _ (fun hc => he (by rw [hc]; exact List.getElem_mem hi)), m9 e he])
  obtain ⟨m1, m2, m3, m4, m5, m6, m7, m8, m9⟩ := h2
  exact ⟨h', h1, m1, m2, m3, m4, m5, m6, fun i hi => m7 i hi hi, m9⟩

/-- The walk around a ring. -/
theorem faceEdgesFrom_ring (h : Mesh P) {l : List ℕ} (hl : 0 < l.length) (hnd : l.Nodup)
    (hn : ∀ i (hi : i < l.length), (h.he l[i]).next = some (l[(i + 1) % l.length]'(Nat.mod_lt _ hl))) :
    ∀ d i k (hi : i < l.length), d = l.length - i → d ≤ k → h.faceEdgesFrom (some l[0]) k (some l[i]) = .ok (l.drop i) := by
  intro d
  induction d with
  | zero => intro i k hi hd; omega
  | succ d ih =>
    intro i k hi hd hk
    obtain ⟨k, rfl⟩ : ∃ k', k = k' + 1 := ⟨k - 1, by omega⟩
    rw [faceEdgesFrom, hn i hi]
    by_cases hlast : i + 1 = l.length
    · rw [if_pos (by simp [hlast])]
      rw [List.drop_eq_getElem_cons hi, List.drop_of_length_le (by omega)]
      rfl
    · have hi1 : i + 1 < l.length := by omega
      have hm : (i + 1) % l.length = i + 1 := Nat.mod_eq_of_lt hi1
      simp only [hm]
      rw [if_neg (by
        intro hc
        have := (List.Nodup.getElem_inj_iff hnd).mp (Option.some.inj hc)
        omega), ih (i + 1) k hi1 (by omega) (by omega), R_bind_ok, List.drop_eq_getElem_cons hi]
      rfl

theorem length_le_of_lt {l : List ℕ} (hnd : l.Nodup) {n : ℕ} (h : ∀ e ∈ l, e < n) : l.length ≤ n := by
  have : l.toFinset ⊆ Finset.range n := fun e he => Finset.mem_range.mpr (h e (List.mem_toFinset.mp he))
  have := Finset.card_le_card this
  rwa [List.toFinset_card_of_nodup hnd, Finset.card_range] at this

end Mesh

/-- The half-edges of `l` make the ring of the face `f`: they are linked both ways in this order, around the face. -/
def Spec.IsRing (h : Mesh P) (f : ℕ) (l : List ℕ) : Prop :=
  h.fe f = l.head? ∧ ∀ i a b, l[i]? = some a → l[(i + 1) % l.length]? = some b →
    (h.he a).next = some b ∧ (h.he b).prev = some a ∧ (h.he a).face = some f

/-- C37: `make_loop` on distinct half-edges makes their ring around the face; the vertices and opposites of the half-edges and all the other objects are
unchanged; the ring is what `getFaceEdges` returns. -/
theorem C37_make_loop (h : Mesh P) {l : List ℕ} (hl : l ≠ []) (hnd : l.Nodup) (hlt : ∀ e ∈ l, e < h.nE) (f : ℕ) :
    ∃ h', h.makeLoop l f = .ok h' ∧ Spec.IsRing h' f l ∧ h'.getFaceEdges f = .ok l ∧
      (∀ e, (h'.he e).vertex = (h.he e).vertex ∧ (h'.he e).opp = (h.he e).opp) ∧ (∀ e, e ∉ l → h'.he e = h.he e) ∧
      (∀ g, g ≠ f → h'.fe g = h.fe g) ∧ h'.co = h.co ∧ h'.ve = h.ve ∧ h'.nE = h.nE ∧ h'.nV = h.nV ∧ h'.nF = h.nF := by
  have hl' : 0 < l.length := List.length_pos_iff.mpr hl
  obtain ⟨h', e1, e2, e3, e4, e5, e6, e7, e8, e9⟩ := h.makeLoop_spec hl' hnd f
  have hfe : h'.fe f = some l[0] := by rw [e2]; simp
  refine ⟨h', e1, ⟨?_, ?_⟩, ?_, ?_, e9, ?_, e3, e4, e5, e6, e7⟩
  · rw [hfe, List.head?_eq_getElem?]; simp [hl']
  · intro i a b ha hb
    obtain ⟨hi, rfl⟩ := List.getElem?_eq_some_iff.mp ha
    obtain ⟨hj, rfl⟩ := List.getElem?_eq_some_iff.mp hb
    refine ⟨by rw [e8 i hi], ?_, by rw [e8 i hi]⟩
    rw [e8 _ hj]
    have : ((i + 1) % l.length + (l.length - 1)) % l.length = i := by
      rw [Nat.mod_add_mod, show i + 1 + (l.length - 1) = i + l.length by omega, Nat.add_mod_right, Nat.mod_eq_of_lt hi]
    simp only [this]
  · rw [Mesh.getFaceEdges, hfe, h'.faceEdgesFrom_ring hl' hnd (fun i hi => by rw [e8 i hi]) l.length 0 _ hl' (by omega) (by
      have := Mesh.length_le_of_lt hnd hlt
      omega)]
    rfl
  · intro e
    by_cases he : e ∈ l
    · obtain ⟨i, hi, rfl⟩ := List.getElem_of_mem he
      rw [e8 i hi]
      exact ⟨rfl, rfl⟩
    · rw [e9 e he]; exact ⟨rfl, rfl⟩
  · intro g hg
    rw [e2, Function.update_of_ne hg]

/-- C37: `make_shared_h_face` on at least two distinct half-edges makes a new face and its ring; on less than two it makes nothing. -/
theorem C37_make_face (h : Mesh P) {l : List ℕ} (hnd : l.Nodup) (hlt : ∀ e ∈ l, e < h.nE) :
    (2 ≤ l.length → ∃ h', h.makeFace l = .ok (h', some h.nF) ∧ Spec.IsRing h' h.nF l ∧ h'.getFaceEdges h.nF = .ok l ∧ h'.nF = h.nF + 1 ∧
      (∀ e, (h'.he e).vertex = (h.he e).vertex ∧ (h'.he e).opp = (h.he e).opp) ∧ (∀ e, e ∉ l → h'.he e = h.he e) ∧
      (∀ g, g < h.nF → h'.fe g = h.fe g) ∧ h'.co = h.co ∧ h'.ve = h.ve ∧ h'.nE = h.nE ∧ h'.nV = h.nV) ∧
    (l.length < 2 → h.makeFace l = .ok (h, none)) := by
  constructor
  · intro h2
    obtain ⟨h', e1, e2, e3, e4, e5, e6, e7, e8, e9, e10, e11⟩ := C37_make_loop
      ({ h with fe := Function.update h.fe h.nF none, nF := h.nF + 1 } : Mesh P) (l := l) (by rintro rfl; simp at h2) hnd hlt h.nF
    refine ⟨h', ?_, e2, e3, e11, e4, e5, ?_, e7, e8, e9, e10⟩
    · rw [Mesh.makeFace, if_neg (by omega)]
      simp only
      rw [e1, R_bind_ok]; rfl
    · intro g hg
      rw [e6 g (by omega)]
      exact Function.update_of_ne (by omega) _ _
  · intro h2
    rw [Mesh.makeFace, if_pos h2]; rfl

/-- Four half-edges and no face. -/
def Sample.edges4 : Mesh (ℚ × ℚ) where
  he := fun i => if i < 4 then { vertex := some i } else {}
  co := fun i => (i, i * i)
  ve := fun i => some i
  fe := fun _ => none
  nE := 4
  nV := 4
  nF := 0

/-- The hypotheses of `C37_make_face` hold for three of four half-edges, in another order. -/
example : ∃ h', Sample.edges4.makeFace [2, 0, 3] = .ok (h', some 0) ∧ (h'.he 0).next = some 3 ∧ (h'.he 2).prev = some 3 ∧
    h'.getFaceEdges 0 = .ok [2, 0, 3] := by
  obtain ⟨h', e1, e2, e3, -⟩ := (C37_make_face Sample.edges4 (l := [2, 0, 3]) (by decide) (by decide)).1 (by decide)
  exact ⟨h', e1, (e2.2 1 0 3 rfl rfl).1, (e2.2 2 3 2 rfl rfl).2.1, e3⟩

end Gbs
