import Verif.Model.Discretize
import Verif.Lemmas.Tfi
import Verif.Props.Ranges
import Verif.Props.Evaluation
import Verif.Props.Constructor
import Mathlib.Tactic.FieldSimp
import Mathlib.Analysis.Real.Sqrt

/-!
# Properties of the discretizations by deviation (C93)
-/

namespace Gbs

variable {K : Type} [Field K] [LinearOrder K] [IsStrictOrderedRing K]
variable {V : Type} [AddCommGroup V]

/-- The point at the middle parameter is seen from the first one at an angle with the chord whose sine is more than the deviation. -/
def Spec.Deviates (nrm : V → K) (ncross : V → V → K) (devMax : K) (val : K → R V) (a b : K) : Prop :=
  ∃ p q r, val a = .ok p ∧ val ((a + b) / 2) = .ok q ∧ val b = .ok r ∧ devMax * (nrm (q - p) * nrm (r - p)) < ncross (q - p) (r - p)

/-- What is asked of the two norms: a norm is not negative, and the norm of a vector product with a null vector is null. -/
structure Spec.CrossNorm (nrm : V → K) (ncross : V → V → K) : Prop where
  nonneg : ∀ v, 0 ≤ nrm v
  null : ∀ v w, nrm v * nrm w = 0 → ncross v w = 0

/-- The parameters `m` inserted between `a` and `b`: neighbours are in relation `G`, and each inserted one is at the middle of two others that are in
relation `D`. -/
structure RefOk (G D : K → K → Prop) (N : ℕ) (a b : K) (m : List K) : Prop where
  mem : ∀ x ∈ m, a < x ∧ x < b
  chain : (a :: (m ++ [b])).IsChain G
  le : (a :: (m ++ [b])).IsChain (· ≤ ·)
  mid : ∀ x ∈ m, ∃ c ∈ a :: (m ++ [b]), ∃ d ∈ a :: (m ++ [b]), D c d ∧ x = (c + d) / 2
  len : m.length + 1 ≤ 2 ^ N

section
variable {nrm : V → K} {ncross : V → V → K} {devMax : K} {val : K → R V}

theorem devGt_iff (h : Spec.CrossNorm nrm ncross) (v w : V) : devGt nrm ncross devMax v w = true ↔ devMax * (nrm v * nrm w) < ncross v w := by
  unfold devGt
  split
  · rename_i h0
    rw [h0, h.null v w h0]
    simp
  · rename_i h0
    have hp : 0 < nrm v * nrm w := lt_of_le_of_ne (mul_nonneg (h.nonneg v) (h.nonneg w)) (Ne.symm h0)
    rw [decide_eq_true_eq, lt_div_iff₀ hp]

theorem refOk_nil {G D : K → K → Prop} {a b : K} (N : ℕ) (hab : a ≤ b) (hG : G a b) : RefOk G D N a b [] := by
  refine ⟨by simp, by simpa using hG, by simpa using hab, by simp, ?_⟩
  simp only [List.length_nil, Nat.zero_add]
  exact Nat.one_le_two_pow

theorem refOk_join {G D : K → K → Prop} {N : ℕ} {a b : K} {l r : List K} (hab : a < b) (hD : D a b) (h1 : RefOk G D N a ((a + b) / 2) l)
    (h2 : RefOk G D N ((a + b) / 2) b r) : RefOk G D (N + 1) a b (l ++ (a + b) / 2 :: r) := by
  have e : a :: ((l ++ (a + b) / 2 :: r) ++ [b]) = (a :: l) ++ [(a + b) / 2] ++ (r ++ [b]) := by simp
  have ha : a < (a + b) / 2 := by linarith
  have hb : (a + b) / 2 < b := by linarith
  refine ⟨?_, ?_, ?_, ?_, ?_⟩
  · intro x hx
    rcases List.mem_append.mp hx with h | h
    · have := h1.mem x h
      exact ⟨this.1, by linarith⟩
    · rcases List.mem_cons.mp h with rfl | h
      · exact ⟨ha, hb⟩
      · have := h2.mem x h
        exact ⟨by linarith, this.2⟩
  · rw [e]
    exact List.IsChain.append_overlap h1.chain h2.chain (by simp)
  · rw [e]
    exact List.IsChain.append_overlap h1.le h2.le (by simp)
  · intro x hx
    rw [e]
    rcases List.mem_append.mp hx with h | h
    · obtain ⟨c, hc, d, hd, h3, h4⟩ := h1.mid x h
      exact ⟨c, List.mem_append_left _ hc, d, List.mem_append_left _ hd, h3, h4⟩
    · rcases List.mem_cons.mp h with rfl | h
      · exact ⟨a, by simp, b, by simp, hD, rfl⟩
      · obtain ⟨c, hc, d, hd, h3, h4⟩ := h2.mid x h
        have : ∀ y, y ∈ (a + b) / 2 :: (r ++ [b]) → y ∈ (a :: l) ++ [(a + b) / 2] ++ (r ++ [b]) := by
          intro y hy
          rw [List.append_assoc]
          exact List.mem_append_right _ (by simpa using hy)
        exact ⟨c, this c hc, d, this d hd, h3, h4⟩
  · have := h1.len
    have := h2.len
    rw [pow_succ]
    simp only [List.length_append, List.length_cons]
    omega

theorem half_eq (a b : K) : (1 / 2) * (a + b) = (a + b) / 2 := by ring

/-- What is proved of the refinement between two parameters. -/
theorem refineParams_ok (hn : Spec.CrossNorm nrm ncross) {eps : K} (heps : 0 ≤ eps) : ∀ (N f : ℕ) (a b : K), a ≤ b → b - a ≤ eps * 2 ^ N → N < f →
    (∀ t, a ≤ t → t ≤ b → ∃ p, val t = .ok p) → ∃ m, refineParams nrm ncross devMax val eps f a b = .ok m ∧
      RefOk (fun c d => d - c ≤ eps ∨ ¬Spec.Deviates nrm ncross devMax val c d)
        (fun c d => eps < d - c ∧ Spec.Deviates nrm ncross devMax val c d) N a b m := by
  intro N
  induction N with
  | zero =>
    intro f a b hab hN hf hv
    obtain ⟨f, rfl⟩ : ∃ g, f = g + 1 := ⟨f - 1, by omega⟩
    refine ⟨[], ?_, refOk_nil 0 hab (Or.inl (by simpa using hN))⟩
    unfold refineParams
    rw [if_neg]
    · rfl
    · rw [abs_of_nonneg (by linarith)]
      simp only [pow_zero, mul_one] at hN
      exact not_lt.mpr hN
  | succ N ih =>
    intro f a b hab hN hf hv
    obtain ⟨f, rfl⟩ : ∃ g, f = g + 1 := ⟨f - 1, by omega⟩
    unfold refineParams
    rw [abs_of_nonneg (by linarith), half_eq]
    by_cases h : eps < b - a
    · rw [if_pos h]
      obtain ⟨q, hq⟩ := hv ((a + b) / 2) (by linarith) (by linarith)
      obtain ⟨p, hp⟩ := hv a le_rfl hab
      obtain ⟨r, hr⟩ := hv b hab le_rfl
      dsimp only
      rw [hq, R_bind_ok, hp, R_bind_ok, hr, R_bind_ok]
      by_cases hd : devGt nrm ncross devMax (q - p) (r - p) = true
      · rw [if_pos hd]
        rw [devGt_iff hn] at hd
        have hD : Spec.Deviates nrm ncross devMax val a b := ⟨p, q, r, hp, hq, hr, hd⟩
        have hlt : a < b := by linarith
        have hpow : eps * 2 ^ (N + 1) = 2 * (eps * 2 ^ N) := by ring
        obtain ⟨l, el, hl⟩ := ih f a ((a + b) / 2) (by linarith) (by linarith) (by omega) (fun t h1 h2 => hv t h1 (by linarith))
        obtain ⟨m, em, hm⟩ := ih f ((a + b) / 2) b (by linarith) (by linarith) (by omega) (fun t h1 h2 => hv t (by linarith) h2)
        rw [el, R_bind_ok, em, R_bind_ok]
        exact ⟨_, rfl, refOk_join hlt ⟨h, hD⟩ hl hm⟩
      · rw [if_neg hd]
        refine ⟨[], rfl, refOk_nil _ hab (Or.inr ?_)⟩
        rintro ⟨p', q', r', e1, e2, e3, h'⟩
        rw [hp] at e1
        rw [hq] at e2
        rw [hr] at e3
        cases e1; cases e2; cases e3
        exact hd ((devGt_iff hn _ _).mpr h')
    · rw [if_neg h]
      exact ⟨[], rfl, refOk_nil _ hab (Or.inl (not_lt.mp h))⟩

theorem refineParams_mono {eps : K} : ∀ (f : ℕ) {a b : K} {m : List K}, refineParams nrm ncross devMax val eps f a b = .ok m →
    refineParams nrm ncross devMax val eps (f + 1) a b = .ok m := by
  intro f
  induction f with
  | zero => intro a b m h; cases h
  | succ f ih =>
    intro a b m h
    rw [refineParams] at h ⊢
    split
    · rename_i h0
      rw [if_pos h0] at h
      dsimp only at h ⊢
      obtain ⟨q, eq, h⟩ := R_bind_eq_ok.mp h
      obtain ⟨p, ep, h⟩ := R_bind_eq_ok.mp h
      obtain ⟨r, er, h⟩ := R_bind_eq_ok.mp h
      rw [eq, R_bind_ok, ep, R_bind_ok, er, R_bind_ok]
      split
      · rename_i h1
        rw [if_pos h1] at h
        obtain ⟨l, el, h⟩ := R_bind_eq_ok.mp h
        obtain ⟨r', er', h⟩ := R_bind_eq_ok.mp h
        rw [ih el, R_bind_ok, ih er', R_bind_ok]
        exact h
      · rename_i h1
        rw [if_neg h1] at h
        exact h
    · rename_i h0
      rw [if_neg h0] at h
      exact h

theorem refineParams_mono_le {eps : K} {f g : ℕ} (hfg : f ≤ g) {a b : K} {m : List K} (h : refineParams nrm ncross devMax val eps f a b = .ok m) :
    refineParams nrm ncross devMax val eps g a b = .ok m := by
  obtain ⟨k, rfl⟩ := Nat.exists_eq_add_of_le hfg
  induction k with
  | zero => exact h
  | succ k ih => exact refineParams_mono _ (ih (by omega))

theorem refineIso_inv (hn : Spec.CrossNorm nrm ncross) : ∀ (f : ℕ) (a b : K) (m : List K), a < b →
    refineIso nrm ncross devMax val f a b = .ok m →
      RefOk (fun c d => ¬Spec.Deviates nrm ncross devMax val c d) (fun c d => Spec.Deviates nrm ncross devMax val c d) f a b m := by
  intro f
  induction f with
  | zero => intro a b m _ h; cases h
  | succ f ih =>
    intro a b m hab h
    rw [refineIso, half_eq] at h
    obtain ⟨q, hq, h⟩ := R_bind_eq_ok.mp h
    obtain ⟨p, hp, h⟩ := R_bind_eq_ok.mp h
    obtain ⟨r, hr, h⟩ := R_bind_eq_ok.mp h
    split at h
    · rename_i hd
      obtain ⟨l, el, h⟩ := R_bind_eq_ok.mp h
      obtain ⟨r', er, h⟩ := R_bind_eq_ok.mp h
      cases h
      exact refOk_join hab ⟨p, q, r, hp, hq, hr, (devGt_iff hn _ _).mp hd⟩ (ih _ _ _ (by linarith) el) (ih _ _ _ (by linarith) er)
    · rename_i hd
      cases h
      refine refOk_nil _ hab.le ?_
      rintro ⟨p', q', r', e1, e2, e3, h'⟩
      rw [hp] at e1
      rw [hq] at e2
      rw [hr] at e3
      cases e1; cases e2; cases e3
      exact hd ((devGt_iff hn _ _).mpr h')

/-- What the loop over the neighbours gives. -/
structure AllOk (G D : K → K → Prop) (N : ℕ) (us L : List K) : Prop where
  head : L.head? = us.head?
  last : L.getLast? = us.getLast?
  sub : ∀ x ∈ us, x ∈ L
  chain : L.IsChain G
  le : L.IsChain (· ≤ ·)
  mid : ∀ x ∈ L, x ∈ us ∨ ∃ c ∈ L, ∃ d ∈ L, D c d ∧ x = (c + d) / 2
  len : L.length ≤ (us.length - 1) * 2 ^ N + 1

theorem refineAll_ok {G D : K → K → Prop} {N : ℕ} {refine : K → K → R (List K)} : ∀ (us : List K), us ≠ [] →
    us.IsChain (fun a b => ∃ m, refine a b = .ok m ∧ RefOk G D N a b m) → ∃ L, refineAll refine us = .ok L ∧ AllOk G D N us L := by
  intro us
  induction us with
  | nil => intro h; exact absurd rfl h
  | cons x l ih =>
    intro _ h
    cases l with
    | nil => exact ⟨[x], rfl, rfl, rfl, by simp, by simp, by simp, by simp, by simp⟩
    | cons y l =>
      rw [List.isChain_cons_cons] at h
      obtain ⟨⟨m, em, hm⟩, h⟩ := h
      obtain ⟨L, eL, hL⟩ := ih (by simp) h
      obtain ⟨L', rfl⟩ : ∃ L', L = y :: L' := by
        have := hL.head
        cases L with
        | nil => simp at this
        | cons z L' =>
          simp only [List.head?_cons, Option.some.injEq] at this
          exact ⟨L', by rw [this]⟩
      have e : x :: (m ++ y :: L') = (x :: m) ++ [y] ++ L' := by simp
      refine ⟨x :: (m ++ y :: L'), ?_, rfl, ?_, ?_, ?_, ?_, ?_, ?_⟩
      · rw [refineAll, em, R_bind_ok, eL, R_bind_ok]
        rfl
      · have h1 := hL.last
        rw [List.getLast?_cons_cons, ← h1, show x :: (m ++ y :: L') = (x :: m) ++ y :: L' by simp, List.getLast?_append_cons]
      · intro z hz
        rcases List.mem_cons.mp hz with rfl | hz
        · simp
        · exact List.mem_cons_of_mem _ (List.mem_append_right _ (hL.sub z hz))
      · rw [e]
        exact List.IsChain.append_overlap hm.chain hL.chain (by simp)
      · rw [e]
        exact List.IsChain.append_overlap hm.le hL.le (by simp)
      · intro z hz
        have in1 : ∀ w ∈ x :: (m ++ [y]), w ∈ x :: (m ++ y :: L') := by
          intro w hw
          simp only [List.mem_cons, List.mem_append, List.not_mem_nil, or_false] at hw ⊢
          tauto
        rcases List.mem_cons.mp hz with rfl | hz
        · exact Or.inl (by simp)
        · rcases List.mem_append.mp hz with hz | hz
          · obtain ⟨c, hc, d, hd, h1⟩ := hm.mid z hz
            exact Or.inr ⟨c, in1 c hc, d, in1 d hd, h1⟩
          · rcases hL.mid z hz with h1 | ⟨c, hc, d, hd, h1⟩
            · exact Or.inl (List.mem_cons_of_mem _ h1)
            · exact Or.inr ⟨c, List.mem_cons_of_mem _ (List.mem_append_right _ hc), d, List.mem_cons_of_mem _ (List.mem_append_right _ hd), h1⟩
      · have h1 := hL.len
        have h2 := hm.len
        simp only [List.length_cons, List.length_append, Nat.add_sub_cancel] at h1 ⊢
        rw [Nat.add_mul, Nat.one_mul]
        omega

omit [Field K] [LinearOrder K] [IsStrictOrderedRing K] in
theorem refineAll_chain {P : K → K → Prop} {refine : K → K → R (List K)} : ∀ (us : List K) {L : List K}, refineAll refine us = .ok L → us.IsChain P →
    us ≠ [] ∧ us.IsChain (fun a b => P a b ∧ ∃ m, refine a b = .ok m) := by
  intro us
  induction us with
  | nil => intro L h; cases h
  | cons x l ih =>
    intro L h hP
    refine ⟨by simp, ?_⟩
    cases l with
    | nil => simp
    | cons y l =>
      rw [refineAll] at h
      obtain ⟨m, em, h⟩ := R_bind_eq_ok.mp h
      obtain ⟨r, er, h⟩ := R_bind_eq_ok.mp h
      rw [List.isChain_cons_cons] at hP ⊢
      exact ⟨⟨hP.1, m, em⟩, (ih er hP.2).2⟩

omit [Field K] [LinearOrder K] [IsStrictOrderedRing K] in
theorem refineAll_congr {f g : K → K → R (List K)} (h : ∀ a b m, f a b = .ok m → g a b = .ok m) : ∀ (us : List K) {L : List K},
    refineAll f us = .ok L → refineAll g us = .ok L := by
  intro us
  induction us with
  | nil => intro L h; cases h
  | cons x l ih =>
    intro L eL
    cases l with
    | nil => exact eL
    | cons y l =>
      rw [refineAll] at eL ⊢
      obtain ⟨m, em, eL⟩ := R_bind_eq_ok.mp eL
      obtain ⟨r, er, eL⟩ := R_bind_eq_ok.mp eL
      rw [h _ _ _ em, R_bind_ok, ih er, R_bind_ok]
      exact eL

theorem startParams_ok (u1 u2 : K) {n : ℕ} (hn : 2 ≤ n) : startParams u1 u2 n = .ok ((List.range n).map fun i : ℕ => u1 + (u2 - u1) * (i : K) / ((n : K) - 1)) := by
  unfold startParams
  apply mapM_ok
  intro i _
  have h1 : (1 : K) < n := by exact_mod_cast (by omega : 1 < n)
  unfold fdiv
  rw [if_neg (by linarith), R_bind_ok]
  rfl

theorem startParams_facts {u1 u2 : K} (h12 : u1 < u2) {n : ℕ} (hn : 2 ≤ n) :
    ((List.range n).map fun i : ℕ => u1 + (u2 - u1) * (i : K) / ((n : K) - 1)).Pairwise (· < ·) ∧
    (∀ i, i < n → u1 ≤ u1 + (u2 - u1) * (i : K) / ((n : K) - 1) ∧ u1 + (u2 - u1) * (i : K) / ((n : K) - 1) ≤ u2) ∧
    u1 + (u2 - u1) * ((0 : ℕ) : K) / ((n : K) - 1) = u1 ∧ u1 + (u2 - u1) * ((n - 1 : ℕ) : K) / ((n : K) - 1) = u2 := by
  have h1 : (0 : K) < (n : K) - 1 := by
    have : (1 : K) < n := by exact_mod_cast (by omega : 1 < n)
    linarith
  have hd : 0 < u2 - u1 := by linarith
  refine ⟨?_, ?_, by simp, ?_⟩
  · rw [List.pairwise_map]
    refine List.pairwise_lt_range.imp ?_
    intro i j hij
    have hc : (i : K) < j := by exact_mod_cast hij
    have := div_lt_div_of_pos_right (mul_lt_mul_of_pos_left hc hd) h1
    linarith
  · intro i hi
    have hc : (i : K) ≤ (n : K) - 1 := by
      have : ((i + 1 : ℕ) : K) ≤ n := by exact_mod_cast hi
      push_cast at this
      linarith
    have h0 : (0 : K) ≤ i := Nat.cast_nonneg i
    have h2 : (u2 - u1) * (i : K) / ((n : K) - 1) ≤ u2 - u1 := by
      rw [div_le_iff₀ h1]
      exact mul_le_mul_of_nonneg_left hc hd.le
    have h3 : 0 ≤ (u2 - u1) * (i : K) / ((n : K) - 1) := div_nonneg (mul_nonneg hd.le h0) h1.le
    exact ⟨by linarith, by linarith⟩
  · have : ((n - 1 : ℕ) : K) = (n : K) - 1 := by rw [Nat.cast_sub (by omega)]; simp
    rw [this, mul_div_cancel_right₀ _ h1.ne']
    ring

/-- The first parameters: evenly spaced. -/
def Spec.evenly (u1 u2 : K) (n i : ℕ) : K := u1 + (u2 - u1) * (i : K) / ((n : K) - 1)

/-- The knots strictly between two parameters. -/
def Spec.inner (u1 u2 : K) (knots : List K) : List K := knots.filter fun u => decide (u1 < u) && decide (u < u2)

theorem first_ok {u1 u2 : K} (h12 : u1 < u2) {n : ℕ} (hn : 2 ≤ n) (knots : List K) :
    let us := (((List.range n).map fun i : ℕ => u1 + (u2 - u1) * (i : K) / ((n : K) - 1)) ++ Spec.inner u1 u2 knots).insertionSort (· ≤ ·)
    us.length = n + (Spec.inner u1 u2 knots).length ∧ us ≠ [] ∧ us.Pairwise (· ≤ ·) ∧ us.head? = some u1 ∧ us.getLast? = some u2 ∧
    (∀ x ∈ us, u1 ≤ x ∧ x ≤ u2) ∧ (∀ i, i < n → Spec.evenly u1 u2 n i ∈ us) ∧ (∀ u ∈ knots, u1 < u → u < u2 → u ∈ us) ∧
    ∀ x ∈ us, (∃ i, i < n ∧ x = Spec.evenly u1 u2 n i) ∨ x ∈ knots ∧ u1 < x ∧ x < u2 := by
  intro us
  obtain ⟨f1, f2, f3, f4⟩ := startParams_facts h12 hn
  have hp : us.Perm (((List.range n).map fun i : ℕ => u1 + (u2 - u1) * (i : K) / ((n : K) - 1)) ++ Spec.inner u1 u2 knots) := List.perm_insertionSort _ _
  have hs : us.Pairwise (· ≤ ·) := List.pairwise_insertionSort (r := fun a b : K => a ≤ b) _
  have hl : us.length = n + (Spec.inner u1 u2 knots).length := by rw [hp.length_eq]; simp
  have hmem : ∀ x, x ∈ us ↔ (∃ i, i < n ∧ x = Spec.evenly u1 u2 n i) ∨ x ∈ knots ∧ u1 < x ∧ x < u2 := by
    intro x
    rw [hp.mem_iff, List.mem_append, List.mem_map, Spec.inner, List.mem_filter]
    simp only [List.mem_range, Bool.and_eq_true, decide_eq_true_eq, Spec.evenly]
    constructor
    · rintro (⟨i, h1, h2⟩ | h)
      · exact Or.inl ⟨i, h1, h2.symm⟩
      · exact Or.inr h
    · rintro (⟨i, h1, h2⟩ | h)
      · exact Or.inl ⟨i, h1, h2.symm⟩
      · exact Or.inr h
  have hb : ∀ x ∈ us, u1 ≤ x ∧ x ≤ u2 := by
    intro x hx
    rcases (hmem x).mp hx with ⟨i, hi, rfl⟩ | ⟨-, h1, h2⟩
    · exact f2 i hi
    · exact ⟨h1.le, h2.le⟩
  have m1 : u1 ∈ us := (hmem u1).mpr (Or.inl ⟨0, by omega, f3.symm⟩)
  have m2 : u2 ∈ us := (hmem u2).mpr (Or.inl ⟨n - 1, by omega, f4.symm⟩)
  have h0 : us ≠ [] := List.ne_nil_of_mem m1
  refine ⟨hl, h0, hs, ?_, ?_, hb, fun i hi => (hmem _).mpr (Or.inl ⟨i, hi, rfl⟩), fun u hu h1 h2 => (hmem _).mpr (Or.inr ⟨hu, h1, h2⟩),
    fun x hx => (hmem x).mp hx⟩
  · obtain ⟨x, l, e⟩ := List.exists_cons_of_ne_nil h0
    rw [e] at hs m1 hb ⊢
    rw [List.head?_cons, Option.some.injEq]
    refine le_antisymm ?_ (hb x (by simp)).1
    rcases List.mem_cons.mp m1 with h | h
    · exact h.ge
    · exact (List.pairwise_cons.mp hs).1 _ h
  · have e := List.dropLast_append_getLast h0
    rw [List.getLast?_eq_getLast_of_ne_nil h0, Option.some.injEq]
    refine le_antisymm (hb _ (List.getLast_mem h0)).2 ?_
    rw [← e] at hs m2
    rcases List.mem_append.mp m2 with h | h
    · exact (List.pairwise_append.mp hs).2.2 _ h _ (by simp)
    · exact (List.mem_singleton.mp h).le

/-- C93: the parameters by deviation. -/
theorem C93_params (hc : Spec.CrossNorm nrm ncross) {eps : K} (heps : 0 < eps) {u1 u2 : K} (h12 : u1 < u2) {n nMax : ℕ} (hn : 2 ≤ n)
    (knots : List K) {N fuel : ℕ} (hN : u2 - u1 ≤ eps * 2 ^ N) (hf : N < fuel) (hv : ∀ t, u1 ≤ t → t ≤ u2 → ∃ p, val t = .ok p) :
    ∃ L, deviationParams nrm ncross devMax val eps fuel knots u1 u2 n nMax = .ok L ∧
      L.Pairwise (· ≤ ·) ∧ L.head? = some u1 ∧ L.getLast? = some u2 ∧ (∀ i, i < n → Spec.evenly u1 u2 n i ∈ L) ∧
      (∀ u ∈ knots, u1 < u → u < u2 → u ∈ L) ∧
      (n + (Spec.inner u1 u2 knots).length < nMax → L.IsChain fun a b => b - a ≤ eps ∨ ¬Spec.Deviates nrm ncross devMax val a b) ∧
      (∀ x ∈ L, (∃ i, i < n ∧ x = Spec.evenly u1 u2 n i) ∨ x ∈ knots ∨
        ∃ a ∈ L, ∃ b ∈ L, (eps < b - a ∧ Spec.Deviates nrm ncross devMax val a b) ∧ x = (a + b) / 2) ∧
      L.length ≤ (n + (Spec.inner u1 u2 knots).length - 1) * 2 ^ N + 1 ∧
      (nMax ≤ n + (Spec.inner u1 u2 knots).length → L.length = n + (Spec.inner u1 u2 knots).length) := by
  obtain ⟨hl, h0, hs, hh, hlast, hb, he, hk, hm⟩ := first_ok h12 hn knots
  unfold deviationParams
  rw [startParams_ok u1 u2 hn, R_bind_ok]
  dsimp only
  rw [show (List.filter (fun u => decide (u1 < u) && decide (u < u2)) knots) = Spec.inner u1 u2 knots from rfl]
  generalize ((List.map (fun i : ℕ => u1 + (u2 - u1) * (i : K) / ((n : K) - 1)) (List.range n) ++ Spec.inner u1 u2 knots).insertionSort (· ≤ ·)) = us
    at hl h0 hs hh hlast hb he hk hm ⊢
  by_cases hlt : us.length < nMax
  · rw [if_pos hlt]
    have hch : us.IsChain (fun a b => ∃ m, refineParams nrm ncross devMax val eps fuel a b = .ok m ∧
        RefOk (fun c d => d - c ≤ eps ∨ ¬Spec.Deviates nrm ncross devMax val c d)
          (fun c d => eps < d - c ∧ Spec.Deviates nrm ncross devMax val c d) N a b m) := by
      refine List.IsChain.imp_of_mem_imp ?_ (List.isChain_iff_pairwise.mpr hs)
      intro a b ha hb' hab
      have h1 := hb a ha
      have h2 := hb b hb'
      exact refineParams_ok hc heps.le N fuel a b hab (by linarith) hf (fun t t1 t2 => hv t (by linarith) (by linarith))
    obtain ⟨L, eL, hL⟩ := refineAll_ok us h0 hch
    refine ⟨L, eL, List.isChain_iff_pairwise.mp hL.le, hL.head.trans hh, hL.last.trans hlast, fun i hi => hL.sub _ (he i hi),
      fun u hu a b => hL.sub _ (hk u hu a b), fun _ => hL.chain, ?_, by rw [← hl]; exact hL.len, fun h => by omega⟩
    intro x hx
    rcases hL.mid x hx with h | h
    · rcases hm x h with h | ⟨h, -, -⟩
      · exact Or.inl h
      · exact Or.inr (Or.inl h)
    · exact Or.inr (Or.inr h)
  · rw [if_neg hlt]
    refine ⟨us, rfl, hs, hh, hlast, he, hk, fun h => by omega, ?_, ?_, fun _ => hl⟩
    · intro x hx
      rcases hm x hx with h | ⟨h, -, -⟩
      · exact Or.inl h
      · exact Or.inr (Or.inl h)
    · rw [← hl]
      have : us.length - 1 ≤ (us.length - 1) * 2 ^ N := Nat.le_mul_of_pos_right _ (by positivity)
      omega

/-- C93: the refinement ends, and gives the same parameters with any larger fuel. -/
theorem C93_ends [Archimedean K] (hc : Spec.CrossNorm nrm ncross) {eps : K} (heps : 0 < eps) {u1 u2 : K} (h12 : u1 < u2) {n : ℕ} (nMax : ℕ) (hn : 2 ≤ n)
    (knots : List K) (hv : ∀ t, u1 ≤ t → t ≤ u2 → ∃ p, val t = .ok p) :
    ∃ L f0, ∀ fuel, f0 ≤ fuel → deviationParams nrm ncross devMax val eps fuel knots u1 u2 n nMax = .ok L := by
  obtain ⟨N, hN⟩ := pow_unbounded_of_one_lt ((u2 - u1) / eps) (one_lt_two : (1 : K) < 2)
  have hN : u2 - u1 ≤ eps * 2 ^ N := by
    rw [div_lt_iff₀ heps] at hN
    linarith
  obtain ⟨L, eL, -⟩ := C93_params (devMax := devMax) (nMax := nMax) hc heps h12 hn knots hN (Nat.lt_succ_self N) hv
  refine ⟨L, N + 1, ?_⟩
  intro fuel hfuel
  unfold deviationParams at eL ⊢
  obtain ⟨us, e1, eL⟩ := R_bind_eq_ok.mp eL
  rw [e1, R_bind_ok]
  dsimp only at eL ⊢
  split
  · rename_i h
    rw [if_pos h] at eL
    exact refineAll_congr (fun a b m h => refineParams_mono_le hfuel h) _ eL
  · rename_i h
    rw [if_neg h] at eL
    exact eL

/-- C93: the points are those of the curve at the parameters. -/
theorem C93_points {eps : K} {fuel : ℕ} {knots : List K} {u1 u2 : K} {n nMax : ℕ} {pts : List V} {L : List K}
    (h : discretizeWithParams nrm ncross devMax val eps fuel knots u1 u2 n nMax = .ok (pts, L)) :
    deviationParams nrm ncross devMax val eps fuel knots u1 u2 n nMax = .ok L ∧ pts.length = L.length ∧
      ∀ (i : ℕ) (t : K), L[i]? = some t → ∃ p, val t = .ok p ∧ pts[i]? = some p := by
  unfold discretizeWithParams at h
  obtain ⟨us, e1, h⟩ := R_bind_eq_ok.mp h
  obtain ⟨ps, e2, h⟩ := R_bind_eq_ok.mp h
  cases h
  obtain ⟨h1, h2⟩ := mapM_inv e2
  exact ⟨e1, h1, h2⟩

/-- C93: a chord whose ends are the same point is never refined, whatever the curve between them. -/
theorem C93_closed_chord (hc : Spec.CrossNorm nrm ncross) (h0 : nrm 0 = 0) {eps : K} {u1 u2 : K} {p q : V} (h1 : val u1 = .ok p) (h2 : val u2 = .ok p)
    (hq : val ((u1 + u2) / 2) = .ok q) {nMax : ℕ} (hM : 2 < nMax) (fuel : ℕ) (h12 : u1 ≤ u2) :
    deviationParams nrm ncross devMax val eps (fuel + 1) [] u1 u2 2 nMax = .ok [u1, u2] := by
  unfold deviationParams
  rw [startParams_ok u1 u2 (le_refl 2), R_bind_ok]
  have e : ((List.range 2).map fun i : ℕ => u1 + (u2 - u1) * (i : K) / (((2 : ℕ) : K) - 1)) = [u1, u2] := by
    simp only [List.range_succ, List.range_zero, List.nil_append, List.map_append, List.map_cons, List.map_nil, List.cons_append]
    norm_num
  rw [e]
  have es : ([u1, u2] ++ List.filter (fun u => decide (u1 < u) && decide (u < u2)) []).insertionSort (fun a b => a ≤ b) = [u1, u2] := by
    simp [List.insertionSort, List.orderedInsert, h12]
  dsimp only
  rw [es, if_pos (by simpa using hM), refineAll]
  have er : refineParams nrm ncross devMax val eps (fuel + 1) u1 u2 = .ok [] := by
    rw [refineParams, half_eq]
    split
    · dsimp only
      rw [hq, R_bind_ok, h1, R_bind_ok, h2, R_bind_ok, if_neg]
      · rfl
      · rw [devGt_iff hc, sub_self, h0, mul_zero, mul_zero, hc.null _ _ (by rw [h0, mul_zero])]
        exact lt_irrefl _
    · rfl
  rw [er, R_bind_ok]
  rfl

/-- C93: one point cannot be asked, and no point only when there is a knot inside. -/
theorem C93_few {eps : K} {u1 u2 : K} {nMax : ℕ} (fuel : ℕ) (knots : List K) :
    deviationParams nrm ncross devMax val eps fuel knots u1 u2 1 nMax = .error .divZero ∧
      (0 < nMax → Spec.inner u1 u2 knots = [] → deviationParams nrm ncross devMax val eps fuel knots u1 u2 0 nMax = .error .oob) := by
  refine ⟨?_, ?_⟩
  · unfold deviationParams startParams fdiv
    simp [List.range_succ]
  · intro hM hk
    unfold deviationParams startParams
    change (if (([] ++ Spec.inner u1 u2 knots).insertionSort (fun a b : K => a ≤ b)).length < nMax then refineAll _ (([] ++ Spec.inner u1 u2 knots).insertionSort (fun a b : K => a ≤ b)) else _) = _
    rw [hk]
    rw [if_pos (by simpa using hM)]
    rfl

/-- C93: the parameters along an iso-curve of a surface, when the refinement ends. -/
theorem C93_iso_partial (hc : Spec.CrossNorm nrm ncross) {u1 u2 : K} (h12 : u1 < u2) {n nMax : ℕ} (hn : 2 ≤ n) {fuel : ℕ} {L : List K}
    (h : deviationIsoParams nrm ncross devMax val fuel u1 u2 n nMax = .ok L) :
    L.Pairwise (· ≤ ·) ∧ L.head? = some u1 ∧ L.getLast? = some u2 ∧ (∀ i, i < n → Spec.evenly u1 u2 n i ∈ L) ∧
      (n < nMax → L.IsChain fun a b => ¬Spec.Deviates nrm ncross devMax val a b) ∧
      (∀ x ∈ L, (∃ i, i < n ∧ x = Spec.evenly u1 u2 n i) ∨ ∃ a ∈ L, ∃ b ∈ L, Spec.Deviates nrm ncross devMax val a b ∧ x = (a + b) / 2) ∧
      (nMax ≤ n → L.length = n) := by
  obtain ⟨f1, f2, f3, f4⟩ := startParams_facts h12 hn
  unfold deviationIsoParams at h
  rw [startParams_ok u1 u2 hn, R_bind_ok] at h
  have hmem : ∀ x, x ∈ (List.map (fun i : ℕ => u1 + (u2 - u1) * (i : K) / ((n : K) - 1)) (List.range n)) ↔ ∃ i, i < n ∧ x = Spec.evenly u1 u2 n i := by
    intro x
    rw [List.mem_map]
    simp only [List.mem_range, Spec.evenly]
    exact ⟨fun ⟨i, a, b⟩ => ⟨i, a, b.symm⟩, fun ⟨i, a, b⟩ => ⟨i, a, b.symm⟩⟩
  have hh : (List.map (fun i : ℕ => u1 + (u2 - u1) * (i : K) / ((n : K) - 1)) (List.range n)).head? = some u1 := by
    rw [List.head?_eq_getElem?, List.getElem?_map, List.getElem?_range (by omega), Option.map_some, f3]
  have hlast : (List.map (fun i : ℕ => u1 + (u2 - u1) * (i : K) / ((n : K) - 1)) (List.range n)).getLast? = some u2 := by
    rw [List.getLast?_eq_getElem?, List.getElem?_map, List.length_map, List.length_range, List.getElem?_range (by omega), Option.map_some, f4]
  have hl : (List.map (fun i : ℕ => u1 + (u2 - u1) * (i : K) / ((n : K) - 1)) (List.range n)).length = n := by simp
  generalize (List.map (fun i : ℕ => u1 + (u2 - u1) * (i : K) / ((n : K) - 1)) (List.range n)) = us at h f1 hmem hh hlast hl
  split at h
  · rename_i hlt
    obtain ⟨h0, hch⟩ := refineAll_chain us h (List.isChain_iff_pairwise.mpr f1)
    have hch' : us.IsChain (fun a b => ∃ m, refineIso nrm ncross devMax val fuel a b = .ok m ∧
        RefOk (fun c d => ¬Spec.Deviates nrm ncross devMax val c d) (fun c d => Spec.Deviates nrm ncross devMax val c d) fuel a b m) := by
      refine List.IsChain.imp ?_ hch
      rintro a b ⟨hab, m, em⟩
      exact ⟨m, em, refineIso_inv hc fuel a b m hab em⟩
    obtain ⟨L', eL, hL⟩ := refineAll_ok us h0 hch'
    rw [eL] at h
    cases h
    refine ⟨List.isChain_iff_pairwise.mp hL.le, hL.head.trans hh, hL.last.trans hlast, fun i hi => hL.sub _ ((hmem _).mpr ⟨i, hi, rfl⟩),
      fun _ => hL.chain, ?_, fun h => by omega⟩
    intro x hx
    rcases hL.mid x hx with h | h
    · exact Or.inl ((hmem x).mp h)
    · exact Or.inr h
  · cases h
    refine ⟨f1.imp le_of_lt, hh, hlast, fun i hi => (hmem _).mpr ⟨i, hi, rfl⟩, fun h => by omega, fun x hx => Or.inl ((hmem x).mp hx), fun _ => hl⟩

/-- C93: the maximum number of points is only compared with the first ones; it is exceeded as soon as the first half deviates too. -/
theorem C93_more_than_max (hc : Spec.CrossNorm nrm ncross) {eps : K} (heps : 0 ≤ eps) {u1 u2 : K} (h12 : 2 * eps < u2 - u1)
    (hd : Spec.Deviates nrm ncross devMax val u1 u2) (hd1 : Spec.Deviates nrm ncross devMax val u1 ((u1 + u2) / 2)) {fuel : ℕ} {L : List K}
    (h : deviationParams nrm ncross devMax val eps fuel [] u1 u2 2 3 = .ok L) : 3 < L.length := by
  unfold deviationParams at h
  rw [startParams_ok u1 u2 (le_refl 2), R_bind_ok] at h
  have e : ((List.range 2).map fun i : ℕ => u1 + (u2 - u1) * (i : K) / (((2 : ℕ) : K) - 1)) = [u1, u2] := by
    simp only [List.range_succ, List.range_zero, List.nil_append, List.map_cons, List.map_nil, List.cons_append]
    norm_num
  have es : ([u1, u2] ++ List.filter (fun u => decide (u1 < u) && decide (u < u2)) []).insertionSort (fun a b => a ≤ b) = [u1, u2] := by
    have : u1 ≤ u2 := by linarith
    simp [List.insertionSort, this]
  dsimp only at h
  rw [e, es, if_pos (by simp), refineAll] at h
  obtain ⟨m, em, h⟩ := R_bind_eq_ok.mp h
  cases h
  have step : ∀ {f : ℕ} {a b : K} {m : List K}, eps < b - a → a ≤ b → Spec.Deviates nrm ncross devMax val a b →
      refineParams nrm ncross devMax val eps f a b = .ok m → ∃ g l r, m = l ++ (a + b) / 2 :: r ∧ refineParams nrm ncross devMax val eps g a ((a + b) / 2) = .ok l := by
    rintro f a b m hab hle ⟨p, q, r, hp, hq, hr, hdev⟩ hm
    cases f with
    | zero => cases hm
    | succ f =>
      rw [refineParams, abs_of_nonneg (by linarith), if_pos hab, half_eq] at hm
      dsimp only at hm
      rw [hq, R_bind_ok, hp, R_bind_ok, hr, R_bind_ok, if_pos ((devGt_iff hc _ _).mpr hdev)] at hm
      obtain ⟨l, el, hm⟩ := R_bind_eq_ok.mp hm
      obtain ⟨r', er, hm⟩ := R_bind_eq_ok.mp hm
      cases hm
      exact ⟨f, l, r', rfl, el⟩
  obtain ⟨g, l, r, rfl, el⟩ := step (by linarith) (by linarith) hd em
  obtain ⟨g', l', r', rfl, -⟩ := step (by linarith) (by linarith) hd1 el
  simp only [List.length_cons, List.length_append, List.length_nil]
  omega

omit [Field K] [LinearOrder K] [IsStrictOrderedRing K] [AddCommGroup V] in
theorem gridLoop {nu nv : ℕ} {α : Type} (z : α) {f : ℕ → ℕ → R α} {g : ℕ → ℕ → α} (h : ∀ i j, i < nu → j < nv → f i j = .ok (g i j)) :
    ∃ s, forLt 0 nv (fun j s => forLt 0 nu (fun i s => do
        let x ← f i j
        wr s (j * nu + i) x) s) (List.replicate (nu * nv) z) = .ok s ∧ s.length = nu * nv ∧
      ∀ i j, i < nu → j < nv → s[j * nu + i]? = some (g i j) := by
  have hpos : ∀ i j, i < nu → j < nv → j * nu + i < nu * nv := by
    intro i j hi hj
    calc j * nu + i < j * nu + nu := by omega
      _ = nu * (j + 1) := by ring
      _ ≤ nu * nv := Nat.mul_le_mul_left _ hj
  have hinj : ∀ {i j i' j' : ℕ}, i < nu → i' < nu → j * nu + i = j' * nu + i' → i = i' ∧ j = j' := by
    intro i j i' j' hi hi' he
    have h1 : (j * nu + i) % nu = (j' * nu + i') % nu := by rw [he]
    rw [Nat.mul_add_mod_self_right, Nat.mul_add_mod_self_right, Nat.mod_eq_of_lt hi, Nat.mod_eq_of_lt hi'] at h1
    subst h1
    exact ⟨rfl, Nat.eq_of_mul_eq_mul_right (by omega) (Nat.add_right_cancel he)⟩
  obtain ⟨s, e, hs⟩ := forLt_inv (fun j (s : List α) => s.length = nu * nv ∧ ∀ i' j', i' < nu → j' < j → s[j' * nu + i']? = some (g i' j'))
    (body := fun j s => forLt 0 nu (fun i s => do
        let x ← f i j
        wr s (j * nu + i) x) s) (a := 0) (b := nv) (s := List.replicate (nu * nv) z) (Nat.zero_le _) ⟨by simp, fun i' j' _ hj' => by omega⟩ (by
      intro j s _ hj hI
      obtain ⟨s', e', h1, h2, h3⟩ := forLt_inv (fun i (s : List α) => s.length = nu * nv ∧
          (∀ i' j', i' < nu → j' < j → s[j' * nu + i']? = some (g i' j')) ∧ ∀ i', i' < i → s[j * nu + i']? = some (g i' j))
        (body := fun i s => do
          let x ← f i j
          wr s (j * nu + i) x) (a := 0) (b := nu) (s := s) (Nat.zero_le _) ⟨hI.1, hI.2, fun i' hi' => by omega⟩ (by
          intro i x _ hi hx
          refine ⟨x.set (j * nu + i) (g i j), ?_, by simp [hx.1], ?_, ?_⟩
          · rw [h i j hi hj, R_bind_ok, wr_ok (by rw [hx.1]; exact hpos i j hi hj)]
          · intro i' j' hi' hj'
            rw [getElem?_set_of_lt (by rw [hx.1]; exact hpos i j hi hj), if_neg, hx.2.1 i' j' hi' hj']
            intro hc
            have := (hinj hi' hi hc).2
            omega
          · intro i' hi'
            rw [getElem?_set_of_lt (by rw [hx.1]; exact hpos i j hi hj)]
            rcases eq_or_ne i' i with rfl | hne
            · rw [if_pos rfl]
            · rw [if_neg (by omega), hx.2.2 i' (by omega)])
      refine ⟨s', e', h1, ?_⟩
      intro i' j' hi' hj'
      rcases Nat.lt_or_ge j' j with hlt | hge
      · exact h2 i' j' hi' hlt
      · obtain rfl : j' = j := by omega
        exact h3 i' hi')
  exact ⟨s, e, hs.1, hs.2⟩

omit [AddCommGroup V] in
/-- C93: the grid of a surface: the node `i` along U and `j` along V is at `j * nu + i`. Less than two nodes are refused. -/
theorem C93_grid {srf : K → K → R V} {u1 u2 v1 v2 : K} {nu nv : ℕ} :
    (nu < 2 ∨ nv < 2 → discretizeGrid srf u1 u2 v1 v2 nu nv = .error (.thrown .length)) ∧
    (2 ≤ nu → 2 ≤ nv → u1 ≤ u2 → v1 ≤ v2 → (∀ u v, u1 ≤ u → u ≤ u2 → v1 ≤ v → v ≤ v2 → ∃ p, srf u v = .ok p) →
      ∃ pts, discretizeGrid srf u1 u2 v1 v2 nu nv = .ok pts ∧ pts.length = nu * nv ∧ ∀ i j, i < nu → j < nv →
        ∃ p, srf (Spec.evenly u1 u2 nu i) (Spec.evenly v1 v2 nv j) = .ok p ∧ pts[j * nu + i]? = some p) := by
  constructor
  · intro h
    unfold discretizeGrid
    by_cases h1 : nu < 2
    · rw [(C33_make_range u1 u2 nu).1 h1]
      rfl
    · obtain ⟨u, eu, -⟩ := (C33_make_range u1 u2 nu).2 (by omega)
      rw [eu, R_bind_ok, (C33_make_range v1 v2 nv).1 (by omega)]
      rfl
  · intro hu hv h12 hv12 hs
    obtain ⟨u, eu, lu, -, -, gu⟩ := (C33_make_range u1 u2 nu).2 hu
    obtain ⟨v, ev, lv, -, -, gv⟩ := (C33_make_range v1 v2 nv).2 hv
    have even : ∀ (a b : K) (n i : ℕ), a + (i : K) * ((b - a) / ((n : K) - 1)) = Spec.evenly a b n i := by
      intro a b n i
      unfold Spec.evenly
      ring
    have bounds : ∀ (a b : K) (n i : ℕ), 2 ≤ n → i < n → a ≤ b → a ≤ Spec.evenly a b n i ∧ Spec.evenly a b n i ≤ b := by
      intro a b n i hn hi hab
      rcases hab.lt_or_eq with h | rfl
      · exact (startParams_facts h hn).2.1 i hi
      · simp [Spec.evenly]
    unfold discretizeGrid
    rw [eu, R_bind_ok, ev, R_bind_ok]
    obtain ⟨s, es, ls, hss⟩ := gridLoop (nu := nu) (nv := nv) ((0, 0) : K × K) (f := fun i j => do
        let a ← rd u i
        let b ← rd v j
        pure (a, b)) (g := fun i j => (Spec.evenly u1 u2 nu i, Spec.evenly v1 v2 nv j)) (by
      intro i j hi hj
      have e1 := gu i hi
      have e2 := gv j hj
      rw [even] at e1 e2
      rw [rd_eq_ok.mpr e1, R_bind_ok, rd_eq_ok.mpr e2]
      rfl)
    have hbody : (fun j (uv : List (K × K)) => forLt 0 nu (fun i uv => do
        let a ← rd u i
        let b ← rd v j
        wr uv (j * nu + i) (a, b)) uv) = (fun j s => forLt 0 nu (fun i s => do
        let x ← (do
          let a ← rd u i
          let b ← rd v j
          pure (a, b))
        wr s (j * nu + i) x) s) := by
      funext j s
      congr 1
      funext i s
      cases rd u i with
      | error x => rfl
      | ok a =>
        cases rd v j with
        | error x => rfl
        | ok b => rfl
    rw [hbody, es, R_bind_ok]
    have hall : ∀ x ∈ s, ∃ p, srf x.1 x.2 = .ok p := by
      intro x hx
      obtain ⟨k, hk⟩ := List.getElem?_of_mem hx
      have hk' : k < nu * nv := by rw [← ls]; exact (List.getElem?_eq_some_iff.mp hk).1
      have h0 : 0 < nu := by omega
      have h1 : k / nu < nv := by rw [Nat.div_lt_iff_lt_mul h0, Nat.mul_comm]; exact hk'
      have h2 := hss (k % nu) (k / nu) (Nat.mod_lt _ h0) h1
      rw [Nat.div_add_mod', hk, Option.some.injEq] at h2
      rw [h2]
      have b1 := bounds u1 u2 nu (k % nu) hu (Nat.mod_lt _ h0) h12
      have b2 := bounds v1 v2 nv (k / nu) hv h1 hv12
      exact hs _ _ b1.1 b1.2 b2.1 b2.2
    obtain ⟨pts, ep⟩ := mapM_exists s hall
    obtain ⟨lp, hp⟩ := mapM_inv ep
    refine ⟨pts, ep, lp.trans ls, ?_⟩
    intro i j hi hj
    exact hp _ _ (hss i j hi hj)

end

section
variable {nrm : V → K} {ncross : V → V → K} {devMax : K} [Module K V]

/-- C93: the discretization of a B-spline curve: the points are those of the curve, from its start to its end, with its knots among the parameters,
and no chord longer than the knot tolerance deviates at the middle parameter. -/
theorem C93_curve (hc : Spec.CrossNorm nrm ncross) {eps : K} (heps : 0 < eps) {c : Curve K V} (h : c.Good) (hb : c.BigOk eps) (h12 : c.b0 < c.b1)
    (hsep : ∀ x ∈ c.knots, ∀ y ∈ c.knots, |x - y| ≤ eps → x = y) (junk : K) {n nMax N fuel : ℕ} (hn : 2 ≤ n) (hN : c.b1 - c.b0 ≤ eps * 2 ^ N)
    (hf : N < fuel) :
    ∃ pts L, Curve.discretize nrm ncross devMax eps junk fuel c n nMax = .ok (pts, L) ∧ pts.length = L.length ∧
      (∀ (i : ℕ) (t : K), L[i]? = some t → ∃ p, c.value eps junk t = .ok p ∧ pts[i]? = some p) ∧
      L.Pairwise (· ≤ ·) ∧ L.head? = some c.b0 ∧ L.getLast? = some c.b1 ∧ (∀ i, i < n → Spec.evenly c.b0 c.b1 n i ∈ L) ∧
      (∀ u ∈ c.knots, c.b0 < u → u < c.b1 → u ∈ L) ∧
      (n + c.knots.length ≤ nMax → L.IsChain fun a b => b - a ≤ eps ∨ ¬Spec.Deviates nrm ncross devMax (fun u => c.value eps junk u) a b) ∧
      ∀ x ∈ L, (∃ i, i < n ∧ x = Spec.evenly c.b0 c.b1 n i) ∨ x ∈ c.knots ∨
        ∃ a ∈ L, ∃ b ∈ L, (eps < b - a ∧ Spec.Deviates nrm ncross devMax (fun u => c.value eps junk u) a b) ∧ x = (a + b) / 2 := by
  have hne : c.knots ≠ [] := by
    intro h0
    have := h.wf.len
    rw [h0] at this
    simp at this
  obtain ⟨km, ekm, hflat⟩ := C23_flat_unflat hne hsep
  have hval : ∀ t, c.b0 ≤ t → t ≤ c.b1 → ∃ p, c.value eps junk t = .ok p := fun t t1 t2 => ⟨_, C04_value_eq_sum heps h hb t1 t2 junk⟩
  have hmem : ∀ x, x ∈ c.knots → x ∈ km.map Prod.fst := by
    intro x hx
    unfold flatKnots at hflat
    split at hflat
    · cases hflat
    · rw [← Except.ok.inj hflat] at hx
      obtain ⟨y, hy, hxy⟩ := List.mem_flatMap.mp hx
      rw [List.eq_of_mem_replicate hxy]
      exact (List.of_mem_zip hy).1
  have hsub : (km.map Prod.fst).Sublist c.knots := by
    obtain ⟨x, l, e⟩ := List.exists_cons_of_ne_nil hne
    rw [e] at ekm ⊢
    cases ekm
    exact unflatLoop_sublist eps l x 1
  obtain ⟨L, eL, p1, p2, p3, p4, p5, p6, p7, -⟩ := C93_params (devMax := devMax) (nMax := nMax) (val := fun u => c.value eps junk u) hc heps h12 hn
    (km.map Prod.fst) hN hf hval
  have hin : ∀ t ∈ L, c.b0 ≤ t ∧ t ≤ c.b1 := by
    intro t ht
    have hL : L ≠ [] := List.ne_nil_of_mem ht
    constructor
    · obtain ⟨x, l, e⟩ := List.exists_cons_of_ne_nil hL
      rw [e] at p1 p2 ht
      cases p2
      rcases List.mem_cons.mp ht with rfl | h'
      · exact le_rfl
      · exact (List.pairwise_cons.mp p1).1 _ h'
    · have e := List.dropLast_append_getLast hL
      rw [List.getLast?_eq_getLast_of_ne_nil hL, Option.some.injEq] at p3
      rw [← e] at p1 ht
      rw [← p3]
      rcases List.mem_append.mp ht with h' | h'
      · exact (List.pairwise_append.mp p1).2.2 _ h' _ (by simp)
      · exact (List.mem_singleton.mp h').le
  obtain ⟨pts, ep⟩ := mapM_exists (f := fun u => c.value eps junk u) L fun t ht => hval t (hin t ht).1 (hin t ht).2
  have eall : Curve.discretize nrm ncross devMax eps junk fuel c n nMax = .ok (pts, L) := by
    unfold Curve.discretize discretizeWithParams
    rw [ekm, R_bind_ok, eL, R_bind_ok, ep]
    rfl
  obtain ⟨q1, q2⟩ := mapM_inv ep
  refine ⟨pts, L, eall, q1, q2, p1, p2, p3, p4, fun u hu a b => p5 u (hmem u hu) a b, ?_, ?_⟩
  · intro hM
    refine p6 ?_
    have h1 : (Spec.inner c.b0 c.b1 (km.map Prod.fst)).length < (km.map Prod.fst).length := by
      unfold Spec.inner
      refine lt_of_le_of_ne (List.length_filter_le _ _) ?_
      intro he
      rw [List.length_filter_eq_length_iff] at he
      obtain ⟨x, hx⟩ : ∃ x, c.knots[c.deg]? = some x := ⟨_, List.getElem?_eq_getElem (by have := h.wf.len; omega)⟩
      have hx' := (kf_of_some hx).2
      have hxb : x = c.b0 := by rw [h.lo, hx']
      have := he x (hmem x (List.mem_of_getElem? hx))
      rw [hxb] at this
      simp at this
    have h2 := hsub.length_le
    omega
  · intro x hx
    rcases p7 x hx with h1 | h1 | h1
    · exact Or.inl h1
    · exact Or.inr (Or.inl (hsub.subset h1))
    · exact Or.inr (Or.inr h1)

end

/-- The norm of the plane. -/
noncomputable def planeNorm (v : ℝ × ℝ) : ℝ := Real.sqrt (v.1 ^ 2 + v.2 ^ 2)

/-- The norm of the vector product of the plane. -/
noncomputable def planeCross (v w : ℝ × ℝ) : ℝ := |v.1 * w.2 - v.2 * w.1|

theorem planeNorm_cross : Spec.CrossNorm planeNorm planeCross := by
  refine ⟨fun v => Real.sqrt_nonneg _, ?_⟩
  have key : ∀ v : ℝ × ℝ, planeNorm v = 0 → v = 0 := by
    intro v h
    unfold planeNorm at h
    rw [Real.sqrt_eq_zero (by positivity)] at h
    have h1 : v.1 = 0 := by nlinarith [sq_nonneg v.1, sq_nonneg v.2]
    have h2 : v.2 = 0 := by nlinarith [sq_nonneg v.1, sq_nonneg v.2]
    exact Prod.ext h1 h2
  intro v w h
  rcases mul_eq_zero.mp h with h | h
  · simp [planeCross, key v h]
  · simp [planeCross, key w h]

/-- A line along the first axis that turns at right angles at the parameter 1/3. -/
noncomputable def corner (t : ℝ) : R (ℝ × ℝ) := .ok (if t ≤ 1 / 3 then (t, 0) else (1 / 3, t - 1 / 3))

theorem planeNorm_le {v : ℝ × ℝ} {r : ℝ} (hr : 0 ≤ r) (h : v.1 ^ 2 + v.2 ^ 2 ≤ r ^ 2) : planeNorm v ≤ r := by
  unfold planeNorm
  exact Real.sqrt_le_iff.mpr ⟨hr, h⟩

theorem corner_deviates {a h : ℝ} (hh : 0 < h) (hs : 1 / 3 - a = h / 3 ∨ 1 / 3 - a = 2 * h / 3) :
    Spec.Deviates planeNorm planeCross (1 / 4) corner a (a + h) := by
  rcases hs with hs | hs
  · refine ⟨_, _, _, rfl, rfl, rfl, ?_⟩
    rw [if_neg (show ¬(a + (a + h)) / 2 ≤ 1 / 3 by linarith), if_pos (show a ≤ 1 / 3 by linarith), if_neg (show ¬a + h ≤ 1 / 3 by linarith)]
    have ha : a = 1 / 3 - h / 3 := by linarith
    subst ha
    have n1 : planeNorm ((1 / 3, (1 / 3 - h / 3 + (1 / 3 - h / 3 + h)) / 2 - 1 / 3) - (1 / 3 - h / 3, 0)) ≤ h / 2 :=
      planeNorm_le (by linarith) (by simp only [Prod.mk_sub_mk]; nlinarith [sq_nonneg h])
    have n2 : planeNorm ((1 / 3, 1 / 3 - h / 3 + h - 1 / 3) - (1 / 3 - h / 3, 0)) ≤ h :=
      planeNorm_le (by linarith) (by simp only [Prod.mk_sub_mk]; nlinarith [sq_nonneg h])
    have n3 := mul_le_mul n1 n2 (Real.sqrt_nonneg _) (by linarith)
    have e : planeCross ((1 / 3, (1 / 3 - h / 3 + (1 / 3 - h / 3 + h)) / 2 - 1 / 3) - (1 / 3 - h / 3, 0))
        ((1 / 3, 1 / 3 - h / 3 + h - 1 / 3) - (1 / 3 - h / 3, 0)) = h ^ 2 / 6 := by
      simp only [planeCross, Prod.mk_sub_mk]
      rw [abs_of_nonneg] <;> ring_nf
      positivity
    rw [e]
    nlinarith [sq_pos_of_pos hh]
  · refine ⟨_, _, _, rfl, rfl, rfl, ?_⟩
    rw [if_pos (show (a + (a + h)) / 2 ≤ 1 / 3 by linarith), if_pos (show a ≤ 1 / 3 by linarith), if_neg (show ¬a + h ≤ 1 / 3 by linarith)]
    have ha : a = 1 / 3 - 2 * h / 3 := by linarith
    subst ha
    have n1 : planeNorm (((1 / 3 - 2 * h / 3 + (1 / 3 - 2 * h / 3 + h)) / 2, 0) - (1 / 3 - 2 * h / 3, 0)) ≤ h / 2 :=
      planeNorm_le (by linarith) (by simp only [Prod.mk_sub_mk]; nlinarith [sq_nonneg h])
    have n2 : planeNorm ((1 / 3, 1 / 3 - 2 * h / 3 + h - 1 / 3) - (1 / 3 - 2 * h / 3, 0)) ≤ h :=
      planeNorm_le (by linarith) (by simp only [Prod.mk_sub_mk]; nlinarith [sq_nonneg h])
    have n3 := mul_le_mul n1 n2 (Real.sqrt_nonneg _) (by linarith)
    have e : planeCross (((1 / 3 - 2 * h / 3 + (1 / 3 - 2 * h / 3 + h)) / 2, 0) - (1 / 3 - 2 * h / 3, 0))
        ((1 / 3, 1 / 3 - 2 * h / 3 + h - 1 / 3) - (1 / 3 - 2 * h / 3, 0)) = h ^ 2 / 6 := by
      simp only [planeCross, Prod.mk_sub_mk]
      rw [abs_of_nonneg] <;> ring_nf
      positivity
    rw [e]
    nlinarith [sq_pos_of_pos hh]

theorem corner_noEnd : ∀ (f : ℕ) (a h : ℝ), 0 < h → (1 / 3 - a = h / 3 ∨ 1 / 3 - a = 2 * h / 3) →
    refineIso planeNorm planeCross (1 / 4) corner f a (a + h) = .error .noEnd := by
  intro f
  induction f with
  | zero => intro a h _ _; rfl
  | succ f ih =>
    intro a h hh hs
    obtain ⟨p, q, r, hp, hq, hr, hd⟩ := corner_deviates hh hs
    rw [refineIso, half_eq]
    rw [hq, R_bind_ok, hp, R_bind_ok, hr, R_bind_ok, if_pos ((devGt_iff planeNorm_cross _ _).mpr hd)]
    rcases hs with hs | hs
    · have := ih a (h / 2) (by linarith) (Or.inr (by linarith))
      rw [show (a + (a + h)) / 2 = a + h / 2 by ring, this]
      rfl
    · cases f with
      | zero => rfl
      | succ g =>
        have e1 : refineIso planeNorm planeCross (1 / 4) corner (g + 1) a ((a + (a + h)) / 2) = .ok [] := by
          rw [refineIso, half_eq]
          have c1 : corner ((a + (a + (a + h)) / 2) / 2) = .ok ((a + (a + (a + h)) / 2) / 2, 0) := by unfold corner; rw [if_pos (by linarith)]
          have c2 : corner a = .ok (a, 0) := by unfold corner; rw [if_pos (by linarith)]
          have c3 : corner ((a + (a + h)) / 2) = .ok ((a + (a + h)) / 2, 0) := by unfold corner; rw [if_pos (by linarith)]
          rw [c1, R_bind_ok, c2, R_bind_ok, c3, R_bind_ok, if_neg]
          · rfl
          · rw [devGt_iff planeNorm_cross, not_lt]
            have : planeCross (((a + (a + (a + h)) / 2) / 2, 0) - (a, 0)) (((a + (a + h)) / 2, 0) - (a, 0)) = 0 := by
              simp [planeCross]
            rw [this]
            exact mul_nonneg (by norm_num) (mul_nonneg (Real.sqrt_nonneg _) (Real.sqrt_nonneg _))
        have e2 := ih ((a + (a + h)) / 2) (h / 2) (by linarith) (Or.inl (by linarith))
        rw [show (a + (a + h)) / 2 + h / 2 = a + h by ring] at e2
        rw [e1, R_bind_ok, e2]
        rfl

/-- C93: along an iso-curve of a surface the refinement does not stop at the knot tolerance: at a corner it never ends, whatever the fuel. -/
theorem C93_iso_no_end (fuel : ℕ) : deviationIsoParams planeNorm planeCross (1 / 4) corner fuel 0 1 2 100 = .error .noEnd := by
  unfold deviationIsoParams
  rw [startParams_ok 0 1 (le_refl 2), R_bind_ok]
  have e : ((List.range 2).map fun i : ℕ => (0 : ℝ) + (1 - 0) * (i : ℝ) / (((2 : ℕ) : ℝ) - 1)) = [0, 1] := by
    simp only [List.range_succ, List.range_zero, List.nil_append, List.map_cons, List.map_nil, List.cons_append]
    norm_num
  rw [e, if_pos (by simp), refineAll]
  have := corner_noEnd fuel 0 1 one_pos (Or.inl (by norm_num))
  rw [zero_add] at this
  rw [this]
  rfl

/-- Non-vacuity of `C93_params` and `C93_ends`: the same corner on a curve. -/
example : ∃ L f0, ∀ fuel, f0 ≤ fuel → deviationParams planeNorm planeCross (1 / 4) corner (1 / 1000) fuel [1 / 3] 0 1 2 100 = .ok L :=
  C93_ends planeNorm_cross (by norm_num) one_pos 100 (le_refl 2) [1 / 3] fun t _ _ => ⟨_, rfl⟩

/-- C93: the maximum number of points is not respected: three asked at most, and more found. -/
theorem C93_max_witness : ∃ L fuel, deviationParams planeNorm planeCross (1 / 4) corner (1 / 1000) fuel [] 0 1 2 3 = .ok L ∧ 3 < L.length := by
  obtain ⟨L, f0, h⟩ := C93_ends (devMax := 1 / 4) (val := corner) planeNorm_cross (by norm_num : (0 : ℝ) < 1 / 1000) one_pos 3 (le_refl 2) []
    fun t _ _ => ⟨_, rfl⟩
  refine ⟨L, f0, h f0 le_rfl, ?_⟩
  refine C93_more_than_max planeNorm_cross (by norm_num) (by norm_num) ?_ ?_ (h f0 le_rfl)
  · have := corner_deviates (a := 0) one_pos (Or.inl (by norm_num))
    rwa [zero_add] at this
  · have := corner_deviates (a := 0) (h := 1 / 2) (by norm_num) (Or.inr (by norm_num))
    rwa [zero_add, show (1 / 2 : ℝ) = (0 + 1) / 2 by norm_num] at this

/-- C93: a knot that is one of the first parameters comes twice. -/
theorem C93_twice_witness : deviationParams (fun x : ℚ => |x|) (fun _ _ => 0) (1 / 100) (fun t => .ok t) (1 / 1000) 5 [0, 1 / 2, 1] 0 1 3 100 =
    .ok [0, 1 / 2, 1 / 2, 1] := by
  decide +kernel

theorem sumNorm_cross : Spec.CrossNorm (fun v : ℚ × ℚ => |v.1| + |v.2|) (fun v w => |v.1 * w.2 - v.2 * w.1|) := by
  refine ⟨fun v => by positivity, ?_⟩
  have key : ∀ v : ℚ × ℚ, |v.1| + |v.2| = 0 → v.1 = 0 ∧ v.2 = 0 := by
    intro v h
    have h1 := abs_nonneg v.1
    have h2 := abs_nonneg v.2
    exact ⟨abs_eq_zero.mp (by linarith), abs_eq_zero.mp (by linarith)⟩
  intro v w h
  rcases mul_eq_zero.mp h with h | h
  · simp [key v h]
  · simp [key w h]

/-- Non-vacuity of `C93_curve`, for the norm of the sum. -/
example : ∃ pts L, Curve.discretize (fun v : ℚ × ℚ => |v.1| + |v.2|) (fun v w => |v.1 * w.2 - v.2 * w.1|) (1 / 100) (1 / 1000000) 0 100 Sample.c 5 1000 =
    .ok (pts, L) ∧ pts.length = L.length := by
  obtain ⟨pts, L, h1, h2, -⟩ := C93_curve (devMax := 1 / 100) (nMax := 1000) (n := 5) (N := 99) (fuel := 100) sumNorm_cross
    (by norm_num : (0 : ℚ) < 1 / 1000000) Sample.c_good (Or.inl (by decide)) (by decide +kernel) (by decide +kernel) 0 (by omega) (by decide +kernel) (by omega)
  exact ⟨pts, L, h1, h2⟩

/-- Non-vacuity of `C93_iso_partial`: on a straight line nothing is added. -/
example : deviationIsoParams (fun v : ℚ × ℚ => |v.1| + |v.2|) (fun v w => |v.1 * w.2 - v.2 * w.1|) (1 / 100) (fun t => .ok (t, 2 * t)) 3 0 1 3 100 =
    .ok [0, 1 / 2, 1] := by
  decide +kernel

/-- Non-vacuity of `C93_closed_chord`: a triangle whose ends are the same point, discretized by this point twice. -/
example : deviationParams (fun v : ℚ × ℚ => |v.1| + |v.2|) (fun v w => |v.1 * w.2 - v.2 * w.1|) (1 / 100)
    (fun t => .ok (if t ≤ 1 / 3 then (t, 0) else if t ≤ 2 / 3 then (1 / 3, t - 1 / 3) else (1 - t, 1 - t))) (1 / 1000) 1 [] 0 1 2 100 = .ok [0, 1] :=
  C93_closed_chord (p := (0, 0)) (q := (1 / 3, 1 / 6)) sumNorm_cross (by simp) (by decide +kernel) (by decide +kernel) (by decide +kernel) (by omega) 0
    (by norm_num)

/-- Non-vacuity of `C93_grid`. -/
example : discretizeGrid (fun u v : ℚ => .ok (u, v)) 0 1 0 2 3 2 = .ok [(0, 0), (1 / 2, 0), (1, 0), (0, 2), (1 / 2, 2), (1, 2)] := by
  decide +kernel

end Gbs
