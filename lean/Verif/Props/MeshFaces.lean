import Verif.Model.EdgeRecovery
import Verif.Props.MeshVertex
import Mathlib.Data.List.Chain

/-!
# C73: faces around a vertex
-/

namespace Gbs

/-! ### Chains of a partial function -/

section chain

variable {f : ℕ → Option ℕ}

/-- The orbit of an element under an injective partial function of a finite set is a cycle or ends. -/
theorem orbit_exists {L : ℕ → Prop} {N : ℕ} (hL : ∀ x, L x → x < N) (hf : ∀ x y, L x → f x = some y → L y)
    (hinj : ∀ x x' y, L x → L x' → f x = some y → f x' = some y → x = x') {s : ℕ} (hs : L s) :
    ∃ l, List.IsChain (fun a b => f a = some b) (s :: l) ∧ (s :: l).Nodup ∧ (∀ x ∈ s :: l, L x) ∧
      (f ((s :: l).getLast (by simp)) = none ∨ f ((s :: l).getLast (by simp)) = some s) := by
  have key : ∀ (k : ℕ) (l : List ℕ), k + l.length = N → List.IsChain (fun a b => f a = some b) (s :: l) → (s :: l).Nodup → (∀ x ∈ s :: l, L x) →
      ∃ l, List.IsChain (fun a b => f a = some b) (s :: l) ∧ (s :: l).Nodup ∧ (∀ x ∈ s :: l, L x) ∧
        (f ((s :: l).getLast (by simp)) = none ∨ f ((s :: l).getLast (by simp)) = some s) := by
    intro k
    induction k with
    | zero =>
      intro l hl _ hnd hlive
      have := Mesh.length_le_of_lt hnd fun x hx => hL x (hlive x hx)
      simp at this
      omega
    | succ k ih =>
      intro l hl hc hnd hlive
      rcases hz : f ((s :: l).getLast (by simp)) with _ | z
      · exact ⟨l, hc, hnd, hlive, Or.inl hz⟩
      by_cases hzs : z = s
      · subst hzs; exact ⟨l, hc, hnd, hlive, Or.inr hz⟩
      have hlast : L ((s :: l).getLast (by simp)) := hlive _ (List.getLast_mem _)
      have hzl : z ∉ s :: l := by
        intro hz'
        rcases List.mem_cons.mp hz' with h1 | h1
        · exact hzs h1
        obtain ⟨a, b, hab⟩ := List.append_of_mem h1
        -- the element before
        have hne : s :: a ≠ [] := by simp
        have e1 : s :: l = (s :: a) ++ z :: b := by rw [hab]; rfl
        have h2 := hc
        rw [e1, List.isChain_append] at h2
        have h3 := h2.2.2 ((s :: a).getLast hne) (by simp [List.getLast?_eq_getLast_of_ne_nil]) z (by simp)
        have h4 : L ((s :: a).getLast hne) := hlive _ (by rw [e1]; exact List.mem_append_left _ (List.getLast_mem _))
        have h5 := hinj _ _ _ h4 hlast h3 hz
        have h6 : (s :: l).getLast (by simp) ∈ z :: b := by
          have : (s :: l).getLast (by simp) = (z :: b).getLast (by simp) := by
            simp only [e1]
            rw [List.getLast_append_of_right_ne_nil _ _ (by simp)]
          rw [this]; exact List.getLast_mem _
        rw [e1, List.nodup_append] at hnd
        exact hnd.2.2 _ (List.getLast_mem hne) _ h6 h5
      refine ih (l ++ [z]) (by simp; omega) ?_ ?_ ?_
      · rw [← List.cons_append, List.isChain_append]
        refine ⟨hc, by simp, ?_⟩
        intro x hx y hy
        simp at hy
        subst hy
        rw [List.getLast?_eq_getLast_of_ne_nil (by simp)] at hx
        simp only [Option.mem_def, Option.some.injEq] at hx
        subst hx
        exact hz
      · rw [← List.cons_append, List.nodup_append]
        refine ⟨hnd, by simp, ?_⟩
        intro a ha b hb hab
        simp at hb
        subst hb; subst hab
        exact hzl ha
      · intro x hx
        rw [← List.cons_append, List.mem_append] at hx
        rcases hx with hx | hx
        · exact hlive x hx
        · simp at hx; subst hx
          exact hf _ _ hlast hz
  exact key N [] (by simp) (by simp) (by simp) (by simpa using hs)

theorem chain_succ : ∀ (l : List ℕ) (x a : ℕ), List.IsChain (fun a b => f a = some b) (x :: l) → a ∈ x :: l →
    a = (x :: l).getLast (by simp) ∨ ∃ b ∈ l, f a = some b
  | [], x, a, _, ha => Or.inl (by simpa using ha)
  | y :: l, x, a, hc, ha => by
    rw [List.isChain_cons_cons] at hc
    rcases List.mem_cons.mp ha with rfl | ha
    · exact Or.inr ⟨y, by simp, hc.1⟩
    · rcases chain_succ l y a hc.2 ha with h1 | ⟨b, hb, h1⟩
      · exact Or.inl (by rw [h1]; simp)
      · exact Or.inr ⟨b, by simp [hb], h1⟩

theorem chain_pred : ∀ (l : List ℕ) (x a : ℕ), List.IsChain (fun a b => f a = some b) (x :: l) → a ∈ l → ∃ b ∈ x :: l, f b = some a
  | y :: l, x, a, hc, ha => by
    rw [List.isChain_cons_cons] at hc
    rcases List.mem_cons.mp ha with rfl | ha
    · exact ⟨x, by simp, hc.1⟩
    · obtain ⟨b, hb, h1⟩ := chain_pred l y a hc.2 ha
      exact ⟨b, by simp [List.mem_cons.mp hb], h1⟩

theorem chain_rel {r : ℕ → ℕ → Prop} : ∀ (l : List ℕ) (x : ℕ), List.IsChain r (x :: l) → ∀ a ∈ x :: l, Relation.ReflTransGen r x a
  | [], x, _, a, ha => by simp at ha; subst ha; exact .refl
  | y :: l, x, hc, a, ha => by
    rw [List.isChain_cons_cons] at hc
    rcases List.mem_cons.mp ha with rfl | ha
    · exact .refl
    · exact .head hc.1 (chain_rel l y hc.2 a ha)

end chain

variable {P : Type} {h : Mesh P} {F : List ℕ}

/-- The next half-edge around the end, on one side. -/
def turn (h : Mesh P) (e : ℕ) : Option ℕ := (h.he e).opp.bind fun o => (h.he o).prev

/-- On the other side. -/
def turnBack (h : Mesh P) (e : ℕ) : Option ℕ := (h.he e).next.bind fun n => (h.he n).opp

theorem around_iff {e e' : ℕ} : Spec.Around h e e' ↔ turn h e = some e' := by
  unfold Spec.Around turn
  cases (h.he e).opp <;> simp

theorem Spec.Valid.turn_live (H : Spec.Valid h F) {e e' : ℕ} (he : Spec.Live h F e) (hh : turn h e = some e') :
    Spec.Live h F e' ∧ (h.he e').vertex = (h.he e).vertex ∧ turnBack h e' = some e := by
  unfold turn at hh
  rcases ho : (h.he e).opp with _ | o
  · rw [ho] at hh; cases hh
  rw [ho] at hh
  simp only [Option.bind_some] at hh
  obtain ⟨h1, h2, h3⟩ := H.aroundStep he ho
  rw [hh] at h1
  rw [Option.some.inj h1]
  refine ⟨h2, h3, ?_⟩
  obtain ⟨⟨g, hg, hog⟩, q2, -⟩ := H.opp e o he ho
  obtain ⟨b, c, t⟩ := H.triAt hg hog
  have : c = around h e := by have := t.pa; rw [hh] at this; rw [← Option.some.inj h1]; exact (Option.some.inj this).symm
  unfold turnBack
  rw [← this, t.nc]
  simpa using q2

theorem Spec.Valid.turnBack_live (H : Spec.Valid h F) {e e' : ℕ} (he : Spec.Live h F e) (hh : turnBack h e = some e') :
    Spec.Live h F e' ∧ (h.he e').vertex = (h.he e).vertex ∧ turn h e' = some e := by
  obtain ⟨f, hf, hef⟩ := he
  obtain ⟨b, c, t⟩ := H.triAt hf hef
  unfold turnBack at hh
  rw [t.na] at hh
  simp only [Option.bind_some] at hh
  obtain ⟨h1, h2, h3⟩ := H.opp_start ⟨f, hf, t.fb⟩ hh
  refine ⟨h1, by rw [h3, t.rotate.start], ?_⟩
  unfold turn
  rw [h2]
  simpa using t.pb

theorem fanFirst_chain {s : ℕ} : ∀ (l : List ℕ) (c k : ℕ) (acc : List (Option ℕ)), l.length < k → List.IsChain (fun a b => turn h a = some b) (c :: l) →
    (∀ x ∈ l, x ≠ s) → (turn h ((c :: l).getLast (by simp)) = none ∨ turn h ((c :: l).getLast (by simp)) = some s) →
    h.fanFirst s k c acc = .ok (((c :: l).reverse.map fun e => (h.he e).face) ++ acc, turn h ((c :: l).getLast (by simp)))
  | [], c, k + 1, acc, _, _, _, hl => by
    rw [Mesh.fanFirst]
    simp only [List.getLast_singleton] at hl ⊢
    unfold turn at hl ⊢
    rcases ho : (h.he c).opp with _ | o
    · rfl
    · rw [ho] at hl
      simp only [Option.bind_some] at hl ⊢
      rcases hl with hl | hl
      · rw [hl]; rfl
      · rw [hl]; simp [pure, Except.pure]
  | d :: l, c, k + 1, acc, hk, hc, hs, hl => by
    rw [List.isChain_cons_cons] at hc
    have ih := fanFirst_chain l d k ((h.he c).face :: acc) (by simp at hk; omega) hc.2 (fun x hx => hs x (by simp [hx])) (by simpa using hl)
    have hd := hc.1
    unfold turn at hd
    rw [Mesh.fanFirst]
    rcases ho : (h.he c).opp with _ | o
    · rw [ho] at hd; cases hd
    · rw [ho] at hd
      simp only [Option.bind_some] at hd
      simp only [hd]
      rw [if_neg (hs d (by simp)), ih]
      simp

theorem fanSecond_chain {s : ℕ} : ∀ (l : List ℕ) (c k : ℕ) (acc : List (Option ℕ)), l.length < k → List.IsChain (fun a b => turnBack h a = some b) (c :: l) →
    (∀ x ∈ l, x ≠ s) → (∀ x ∈ c :: l, (h.he x).next ≠ none) → turnBack h ((c :: l).getLast (by simp)) = none →
    h.fanSecond s k c acc = .ok (acc ++ (c :: l).map fun e => (h.he e).face)
  | [], c, k + 1, acc, _, _, _, hn, hl => by
    rw [Mesh.fanSecond]
    simp only [List.getLast_singleton] at hl ⊢
    unfold turnBack at hl
    rcases ho : (h.he c).next with _ | o
    · exact absurd ho (hn c (by simp))
    · rw [ho] at hl
      simp only [Option.bind_some] at hl
      rw [deref_some, R_bind_ok, hl]; rfl
  | d :: l, c, k + 1, acc, hk, hc, hs, hn, hl => by
    rw [List.isChain_cons_cons] at hc
    have ih := fanSecond_chain l d k (acc ++ [(h.he c).face]) (by simp at hk; omega) hc.2 (fun x hx => hs x (by simp [hx])) (fun x hx => hn x (by simp [hx]))
      (by simpa using hl)
    have hd := hc.1
    unfold turnBack at hd
    rw [Mesh.fanSecond]
    rcases ho : (h.he c).next with _ | o
    · exact absurd ho (hn c (by simp))
    · rw [ho] at hd
      simp only [Option.bind_some] at hd
      rw [deref_some, R_bind_ok]
      simp only [hd]
      rw [if_neg (hs d (by simp)), ih]
      simp

/-- Half-edges of faces around the same vertex, face to face. -/
def Spec.SameFan (h : Mesh P) (F : List ℕ) : ℕ → ℕ → Prop :=
  Relation.EqvGen fun a b => Spec.Live h F a ∧ Spec.Live h F b ∧ Spec.Around h a b

theorem sameFan_of_turn (H : Spec.Valid h F) {x a : ℕ} (hx : Spec.Live h F x) (hr : Relation.ReflTransGen (fun a b => turn h a = some b) x a) :
    Spec.Live h F a ∧ (h.he a).vertex = (h.he x).vertex ∧ Spec.SameFan h F x a := by
  induction hr with
  | refl => exact ⟨hx, rfl, .refl _⟩
  | tail _ h1 ih =>
    obtain ⟨i1, i2, i3⟩ := ih
    obtain ⟨k1, k2, -⟩ := H.turn_live i1 h1
    exact ⟨k1, k2.trans i2, i3.trans _ _ _ (.rel _ _ ⟨i1, k1, around_iff.mpr h1⟩)⟩

theorem sameFan_of_turnBack (H : Spec.Valid h F) {x a : ℕ} (hx : Spec.Live h F x) (hr : Relation.ReflTransGen (fun a b => turnBack h a = some b) x a) :
    Spec.Live h F a ∧ (h.he a).vertex = (h.he x).vertex ∧ Spec.SameFan h F x a := by
  induction hr with
  | refl => exact ⟨hx, rfl, .refl _⟩
  | tail _ h1 ih =>
    obtain ⟨i1, i2, i3⟩ := ih
    obtain ⟨k1, k2, k3⟩ := H.turnBack_live i1 h1
    exact ⟨k1, k2.trans i2, i3.trans _ _ _ (.symm _ _ (.rel _ _ ⟨k1, i1, around_iff.mpr k3⟩))⟩

/-- C73: `getFacesAttachedToVertex` lists, once each, the faces of the half-edges that end at the vertex and are face to face with the one that the vertex
designates, whether the fan is open or closed. -/
theorem C73_faces (H : Spec.Valid h F) {v s : ℕ} (hv : h.ve v = some s) (hs : Spec.Live h F s) :
    ∃ es : List ℕ, h.getFacesAttachedToVertex v = .ok (es.map fun e => (h.he e).face) ∧ es.Nodup ∧
      (∀ e ∈ es, Spec.Live h F e ∧ (h.he e).vertex = (h.he s).vertex) ∧ ∀ e, e ∈ es ↔ Spec.SameFan h F s e := by
  obtain ⟨l, c1, c2, c3, c4⟩ := orbit_exists (f := turn h) (L := Spec.Live h F) (N := h.nE) (fun x hx => H.live_lt hx)
    (fun x y hx hy => (H.turn_live hx hy).1) (fun x x' y hx hx' hy hy' => by
      have h1 := (H.turn_live hx hy).2.2
      rw [(H.turn_live hx' hy').2.2] at h1
      exact (Option.some.inj h1).symm) hs
  have hlen := Mesh.length_le_of_lt c2 fun x hx => H.live_lt (c3 x hx)
  have run1 := fanFirst_chain (h := h) (s := s) l s (h.nE + 1) [] (by simp at hlen; omega) c1
    (fun x hx hxs => (List.nodup_cons.mp c2).1 (hxs ▸ hx)) c4
  have fwd := chain_rel l s c1
  -- enough to be closed on both sides
  have fin : ∀ es : List ℕ, s ∈ es → (∀ a b, Spec.Live h F a → Spec.Live h F b → turn h a = some b → (a ∈ es ↔ b ∈ es)) → ∀ e, Spec.SameFan h F s e → e ∈ es := by
    intro es hes hcl e he
    have : ∀ a b, Spec.SameFan h F a b → (a ∈ es ↔ b ∈ es) := by
      intro a b hab
      induction hab with
      | rel a b hh => exact hcl a b hh.1 hh.2.1 (around_iff.mp hh.2.2)
      | refl => rfl
      | symm _ _ _ ih => exact ih.symm
      | trans _ _ _ _ _ ih1 ih2 => exact ih1.trans ih2
    exact (this s e he).mp hes
  unfold Mesh.getFacesAttachedToVertex
  rw [hv, deref_some, R_bind_ok, run1, R_bind_ok]
  simp only
  rcases c4 with c4 | c4
  · -- open
    rw [c4, if_pos (by simp)]
    obtain ⟨f, hf, hsf⟩ := hs
    obtain ⟨b, c, t⟩ := H.triAt hf hsf
    have hs : Spec.Live h F s := ⟨f, hf, hsf⟩
    obtain ⟨m, d1, d2, d3, d4⟩ := orbit_exists (f := turnBack h) (L := Spec.Live h F) (N := h.nE) (fun x hx => H.live_lt hx)
      (fun x y hx hy => (H.turnBack_live hx hy).1) (fun x x' y hx hx' hy hy' => by
        have h1 := (H.turnBack_live hx hy).2.2
        rw [(H.turnBack_live hx' hy').2.2] at h1
        exact (Option.some.inj h1).symm) hs
    have bwd := chain_rel m s d1
    have d5 : turnBack h ((s :: m).getLast (by simp)) = none := by
      rcases d4 with d4 | d4
      · exact d4
      exfalso
      have hA : ∀ x ∈ s :: m, ∃ y ∈ s :: m, turn h x = some y := by
        intro x hx
        rcases List.mem_cons.mp hx with rfl | hx'
        · exact ⟨_, List.getLast_mem _, (H.turnBack_live (d3 _ (List.getLast_mem _)) d4).2.2⟩
        · obtain ⟨y, hy, hxy⟩ := chain_pred m s x d1 hx'
          exact ⟨y, hy, (H.turnBack_live (d3 y hy) hxy).2.2⟩
      have hall : ∀ a, Relation.ReflTransGen (fun a b => turn h a = some b) s a → a ∈ s :: m := by
        intro a hr
        induction hr with
        | refl => simp
        | tail _ h1 ih =>
          obtain ⟨y, hy, hxy⟩ := hA _ ih
          rw [h1] at hxy; cases hxy; exact hy
      obtain ⟨y, -, hy⟩ := hA _ (hall _ (fwd _ (List.getLast_mem (by simp))))
      rw [c4] at hy; cases hy
    have hrun : (do
        let n ← deref (h.he s).next
        match (h.he n).opp with
        | none => pure ((s :: l).reverse.map (fun e => (h.he e).face) ++ [])
        | some c => h.fanSecond s (h.nE + 1) c ((s :: l).reverse.map (fun e => (h.he e).face) ++ []) : R (List (Option ℕ))) =
        .ok (((s :: l).reverse ++ m).map fun e => (h.he e).face) := by
      rw [t.na, deref_some, R_bind_ok]
      have hlen2 := Mesh.length_le_of_lt d2 fun x hx => H.live_lt (d3 x hx)
      have hd : ∀ x, turnBack h s = some x ↔ (h.he b).opp = some x := by intro x; simp [turnBack, t.na]
      cases m with
      | nil =>
        have : (h.he b).opp = none := by simpa [turnBack, t.na] using d5
        rw [this]
        simp [pure, Except.pure]
      | cons x m =>
        rw [List.isChain_cons_cons] at d1
        rw [(hd x).mp d1.1]
        simp only
        rw [fanSecond_chain m x (h.nE + 1) _ (by simp at hlen2; omega) d1.2 (fun y hy hys => (List.nodup_cons.mp d2).1 (by rw [← hys]; exact List.mem_cons_of_mem _ hy)) ?_ (by simpa using d5)]
        · simp
        · intro y hy
          obtain ⟨g, hg, hyg⟩ := d3 y (List.mem_cons_of_mem _ hy)
          obtain ⟨b', c', t'⟩ := H.triAt hg hyg
          rw [t'.na]; simp
    refine ⟨(s :: l).reverse ++ m, hrun, ?_, ?_, fun e => ⟨?_, ?_⟩⟩
    · have hdis : ∀ (m' : List ℕ) (y : ℕ), List.IsChain (fun a b => turnBack h a = some b) (y :: m') → Spec.Live h F y → y ∉ l → ∀ x ∈ m', x ∉ s :: l := by
        intro m'
        induction m' with
        | nil => intro y _ _ _ x hx; simp at hx
        | cons z m' ih =>
          intro y hc hy hyl x hx
          rw [List.isChain_cons_cons] at hc
          obtain ⟨q1, -, q3⟩ := H.turnBack_live hy hc.1
          have hz : z ∉ s :: l := by
            intro hz
            rcases chain_succ l s z c1 hz with h1 | ⟨b, hb, h1⟩
            · rw [h1, c4] at q3; cases q3
            · rw [q3] at h1; cases h1; exact hyl hb
          rcases List.mem_cons.mp hx with rfl | hx
          · exact hz
          · exact ih z hc.2 q1 (fun hh => hz (by simp [hh])) x hx
      rw [List.nodup_append]
      refine ⟨List.nodup_reverse.mpr c2, (List.nodup_cons.mp d2).2, ?_⟩
      rintro a ha b hb rfl
      exact hdis m s d1 hs (List.nodup_cons.mp c2).1 a hb (List.mem_reverse.mp ha)
    · intro e he
      rcases List.mem_append.mp he with he | he
      · have := sameFan_of_turn H hs (fwd e (List.mem_reverse.mp he))
        exact ⟨this.1, this.2.1⟩
      · have := sameFan_of_turnBack H hs (bwd e (by simp [he]))
        exact ⟨this.1, this.2.1⟩
    · intro he
      rcases List.mem_append.mp he with he | he
      · exact (sameFan_of_turn H hs (fwd e (List.mem_reverse.mp he))).2.2
      · exact (sameFan_of_turnBack H hs (bwd e (by simp [he]))).2.2
    · refine fin _ (by simp) ?_ e
      intro a b ha hb hab
      have hba := (H.turn_live ha hab).2.2
      simp only [List.mem_append, List.mem_reverse]
      constructor
      · rintro (h1 | h1)
        · rcases chain_succ l s a c1 h1 with rfl | ⟨y, hy, hay⟩
          · rw [c4] at hab; cases hab
          · rw [hab] at hay; cases hay; exact Or.inl (by simp [hy])
        · obtain ⟨y, hy, hya⟩ := chain_pred m s a d1 h1
          have := (H.turnBack_live (d3 y hy) hya).2.2
          rw [hab] at this; cases this
          rcases List.mem_cons.mp hy with rfl | hy
          · exact Or.inl (by simp)
          · exact Or.inr hy
      · have hb2 : b ∈ s :: m → a ∈ m := by
          intro h1
          rcases chain_succ m s b d1 h1 with rfl | ⟨y, hy, hby⟩
          · rw [d5] at hba; cases hba
          · rw [hba] at hby; cases hby; exact hy
        rintro (h1 | h1)
        · rcases List.mem_cons.mp h1 with rfl | h1
          · exact Or.inr (hb2 (by simp))
          · obtain ⟨y, hy, hyb⟩ := chain_pred l s b c1 h1
            have := (H.turn_live (c3 y hy) hyb).2.2
            rw [hba] at this; cases this
            exact Or.inl hy
        · exact Or.inr (hb2 (by simp [h1]))
  · -- closed
    rw [c4, if_neg (by simp)]
    refine ⟨(s :: l).reverse, by simp [pure, Except.pure], List.nodup_reverse.mpr c2, ?_, fun e => ⟨?_, ?_⟩⟩
    · intro e he
      have := sameFan_of_turn H hs (fwd e (List.mem_reverse.mp he))
      exact ⟨this.1, this.2.1⟩
    · intro he
      exact (sameFan_of_turn H hs (fwd e (List.mem_reverse.mp he))).2.2
    · refine fin _ (by simp) ?_ e
      intro a b ha hb hab
      have hba := (H.turn_live ha hab).2.2
      rw [List.mem_reverse, List.mem_reverse]
      constructor
      · intro h1
        rcases chain_succ l s a c1 h1 with rfl | ⟨y, hy, hay⟩
        · rw [c4] at hab; cases hab; simp
        · rw [hab] at hay; cases hay; simp [hy]
      · intro h1
        rcases List.mem_cons.mp h1 with rfl | h1
        · have := (H.turn_live (c3 _ (List.getLast_mem _)) c4).2.2
          rw [hba] at this; cases this
          exact List.getLast_mem _
        · obtain ⟨y, hy, hyb⟩ := chain_pred l s b c1 h1
          have := (H.turn_live (c3 y hy) hyb).2.2
          rw [hba] at this; cases this
          exact hy

/-- No half-edge ends where it starts. -/
def Spec.NoLoop (h : Mesh P) (F : List ℕ) : Prop := ∀ e, Spec.Live h F e → Spec.start h e ≠ (h.he e).vertex

theorem Spec.Valid.getFaceEdge (H : Spec.Valid h F) (hn : Spec.NoLoop h F) {f e v : ℕ} (hf : f ∈ F) (hef : (h.he e).face = some f)
    (hev : (h.he e).vertex = some v) : h.getFaceEdge f v = .ok (some e) := by
  obtain ⟨a, b, c, t, hfe⟩ := H.tri hf
  have n1 := hn b ⟨f, hf, t.fb⟩
  have n2 := hn c ⟨f, hf, t.fc⟩
  have n3 := hn a ⟨f, hf, t.fa⟩
  rw [t.rotate.start] at n1
  rw [t.rotate.rotate.start] at n2
  rw [t.start] at n3
  have ha := (H.edges a f t.fa).1
  have hb := (H.edges b f t.fb).1
  have hc := (H.edges c f t.fc).1
  have hab := t.ab
  have hbc := t.bc
  have hca := t.ca
  obtain ⟨k, hk⟩ : ∃ k, h.nE + 1 = k + 1 + 1 + 1 := ⟨h.nE - 2, by omega⟩
  unfold Mesh.getFaceEdge
  rw [hfe, deref_some, R_bind_ok, hk]
  rcases t.own e hef with rfl | rfl | rfl
  · rw [Mesh.faceEdgeFrom, if_pos hev]; rfl
  · rw [Mesh.faceEdgeFrom, if_neg (by rw [← hev]; exact n1), t.na, if_neg (by simpa using hab.symm), deref_some, R_bind_ok, Mesh.faceEdgeFrom, if_pos hev]; rfl
  · rw [Mesh.faceEdgeFrom, if_neg (by rw [← hev]; exact n3.symm), t.na, if_neg (by simpa using hab.symm), deref_some, R_bind_ok, Mesh.faceEdgeFrom,
      if_neg (by rw [← hev]; exact n2), t.nb, if_neg (by simpa using hca), deref_some, R_bind_ok, Mesh.faceEdgeFrom, if_pos hev]; rfl

theorem findIn_spec (H : Spec.Valid h F) (hn : Spec.NoLoop h F) {v w : ℕ} : ∀ es : List ℕ, (∀ e ∈ es, Spec.Live h F e ∧ (h.he e).vertex = some v) →
    ∃ r, h.findIn v w (es.map fun e => (h.he e).face) = .ok r ∧ (∀ n, r = some n → ∃ e ∈ es, (h.he e).next = some n ∧ (h.he n).vertex = some w) ∧
      (r = none → ∀ e ∈ es, ∀ n, (h.he e).next = some n → (h.he n).vertex ≠ some w)
  | [], _ => ⟨none, rfl, by simp, by simp⟩
  | e :: es, hes => by
    obtain ⟨⟨f, hf, hef⟩, hev⟩ := hes e (by simp)
    obtain ⟨b, c, t⟩ := H.triAt hf hef
    rw [List.map_cons, Mesh.findIn, hef, deref_some, R_bind_ok, H.getFaceEdge hn hf hef hev, R_bind_ok]
    simp only [t.na]
    by_cases hw : (h.he b).vertex = some w
    · rw [if_pos hw]
      exact ⟨some b, rfl, fun n hnb => by cases hnb; exact ⟨e, by simp, t.na, hw⟩, by simp⟩
    · rw [if_neg hw]
      obtain ⟨r, h1, h2, h3⟩ := findIn_spec H hn (w := w) es fun x hx => hes x (by simp [hx])
      refine ⟨r, h1, fun n hr => ?_, fun hr x hx n hxn => ?_⟩
      · obtain ⟨x, hx, hh⟩ := h2 n hr
        exact ⟨x, by simp [hx], hh⟩
      · rcases List.mem_cons.mp hx with rfl | hx
        · rw [t.na] at hxn; cases hxn; exact hw
        · exact h3 hr x hx n hxn

/-- C73: `findHalfEdge` returns a half-edge from the first vertex to the second, and does if there is one in the fan that the first vertex designates. -/
theorem C73_find (H : Spec.Valid h F) (hn : Spec.NoLoop h F) {v s : ℕ} (hv : h.ve v = some s) (hs : Spec.Live h F s) (hsv : (h.he s).vertex = some v)
    (w : ℕ) : ∃ r, h.findHalfEdge v w = .ok r ∧
      (∀ n, r = some n → Spec.Live h F n ∧ Spec.start h n = some v ∧ (h.he n).vertex = some w) ∧
      ∀ n e, Spec.Live h F n → (h.he n).vertex = some w → (h.he n).prev = some e → Spec.SameFan h F s e → r ≠ none := by
  obtain ⟨es, h1, h2, h3, h4⟩ := C73_faces H hv hs
  have h3' : ∀ e ∈ es, Spec.Live h F e ∧ (h.he e).vertex = some v := fun e he => ⟨(h3 e he).1, (h3 e he).2.trans hsv⟩
  obtain ⟨r, r1, r2, r3⟩ := findIn_spec H hn (w := w) es h3'
  refine ⟨r, ?_, ?_, ?_⟩
  · unfold Mesh.findHalfEdge
    rw [if_neg (by rw [hv]; simp), h1, R_bind_ok, r1]
  · intro n hrn
    obtain ⟨e, he, hen, hnw⟩ := r2 n hrn
    obtain ⟨⟨f, hf, hef⟩, hev⟩ := h3' e he
    obtain ⟨b, c, t⟩ := H.triAt hf hef
    rw [t.na] at hen
    cases hen
    exact ⟨⟨f, hf, t.fb⟩, by rw [t.rotate.start]; exact hev, hnw⟩
  · rintro n e ⟨f, hf, hnf⟩ hnw hne hfan hr
    obtain ⟨b, c, t⟩ := H.triAt hf hnf
    rw [t.pa] at hne
    cases hne
    exact r3 hr e ((h4 e).mpr hfan) n t.nc hnw

/-- The two faces at the first end of the common side of two triangles, and that side. -/
example : ∃ es : List ℕ, Sample.twoTris.getFacesAttachedToVertex 1 = .ok (es.map fun e => (Sample.twoTris.he e).face) ∧ es.Nodup := by
  obtain ⟨es, h1, h2, -⟩ := C73_faces Sample.twoTris_valid (v := 1) (s := (Sample.twoTris.ve 1).getD 0) (by decide) ⟨_, by decide, rfl⟩
  exact ⟨es, h1, h2⟩

end Gbs
