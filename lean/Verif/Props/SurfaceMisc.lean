import Verif.Props.SurfaceKnots
import Verif.Props.Rational

/-! # Surfaces: transposition of poles (C28), rational isoparametric curves (C30), access to poles (C31), constructor (C27),
and instances of the hypotheses -/

namespace Gbs

set_option linter.unusedSectionVars false

variable {K : Type} [Field K] [LinearOrder K] [IsStrictOrderedRing K]
variable {V : Type} [AddCommGroup V] [Module K V]

/-! ## Transposition -/

/-- `m` rows of `n` entries, the entry `i` of the row `j` being the entry `j` of the row `i` of `M` for `(i,j)` in `S`. -/
structure Filled {α : Type} (M : List (List α)) (n m : ℕ) (S : ℕ → ℕ → Prop) (T : List (List α)) : Prop where
  len : T.length = m
  row : ∀ r ∈ T, r.length = n
  val : ∀ i j, i < n → j < m → S i j → ∃ r t, M[i]? = some r ∧ T[j]? = some t ∧ t[i]? = r[j]?

theorem Filled.mono {α : Type} {M : List (List α)} {n m : ℕ} {S S' : ℕ → ℕ → Prop} {T : List (List α)}
    (h : Filled M n m S T) (hS : ∀ i j, i < n → j < m → S' i j → S i j) : Filled M n m S' T :=
  ⟨h.len, h.row, fun i j hi hj hs => h.val i j hi hj (hS i j hi hj hs)⟩

theorem Filled.step {α : Type} {M : List (List α)} {n m : ℕ} (hn : M.length = n) (hm : ∀ r ∈ M, r.length = m)
    {S : ℕ → ℕ → Prop} {T : List (List α)} (h : Filled M n m S T) {i j : ℕ} (hi : i < n) (hj : j < m) :
    ∃ T', (do
      let r ← rd M i
      let x ← rd r j
      let t ← rd T j
      let t ← wr t i x
      wr T j t : R (List (List α))) = .ok T' ∧ Filled M n m (fun i' j' => S i' j' ∨ (i' = i ∧ j' = j)) T' := by
  have hl := h.len
  have hr : M[i]? = some M[i] := List.getElem?_eq_getElem (by omega)
  have hrl : M[i].length = m := hm _ (List.getElem_mem _)
  have ht : T[j]? = some T[j] := List.getElem?_eq_getElem (by omega)
  have htl : T[j].length = n := h.row _ (List.getElem_mem _)
  refine ⟨T.set j (T[j].set i M[i][j]), ?_, ?_, ?_, ?_⟩
  · rw [rd_eq_ok.mpr hr, R_bind_ok, rd_ok (by omega), R_bind_ok, rd_eq_ok.mpr ht, R_bind_ok, wr_ok (by omega), R_bind_ok,
      wr_ok (by omega)]
  · simp [hl]
  · intro r hr
    rcases List.mem_or_eq_of_mem_set hr with h1 | h1
    · exact h.row r h1
    · rw [h1]; simp [htl]
  · intro i' j' hi' hj' hs
    by_cases hjj : j' = j
    · subst hjj
      by_cases hii : i' = i
      · subst hii
        refine ⟨M[i'], T[j'].set i' M[i'][j'], hr, ?_, ?_⟩
        · rw [getElem?_set_of_lt (by omega), if_pos rfl]
        · rw [getElem?_set_of_lt (by omega), if_pos rfl, List.getElem?_eq_getElem]
      · obtain ⟨r, t, e1, e2, e3⟩ := h.val i' j' hi' hj' (hs.resolve_right (fun h => hii h.1))
        refine ⟨r, T[j'].set i M[i][j'], e1, ?_, ?_⟩
        · rw [getElem?_set_of_lt (by omega), if_pos rfl]
        · rw [getElem?_set_of_lt (by omega), if_neg hii]
          rw [ht] at e2
          obtain rfl := Option.some.inj e2
          exact e3
    · obtain ⟨r, t, e1, e2, e3⟩ := h.val i' j' hi' hj' (hs.resolve_right (fun h => hjj h.2))
      exact ⟨r, t, e1, by rw [getElem?_set_of_lt (by omega), if_neg hjj]; exact e2, e3⟩

/-- The two nested loops over a rectangle. -/
theorem Filled.rect {α : Type} {M : List (List α)} {n m : ℕ} (hn : M.length = n) (hm : ∀ r ∈ M, r.length = m)
    {S : ℕ → ℕ → Prop} {T : List (List α)} (h : Filled M n m S T) {a b c d : ℕ} (hb : b ≤ n) (hd : d ≤ m) (hab : a ≤ b) (hcd : c ≤ d) :
    ∃ T', forLt a b (fun i T => forLt c d (fun j T => do
      let r ← rd M i
      let x ← rd r j
      let t ← rd T j
      let t ← wr t i x
      wr T j t) T) T = .ok T' ∧
      Filled M n m (fun i j => S i j ∨ (a ≤ i ∧ i < b ∧ c ≤ j ∧ j < d)) T' := by
  obtain ⟨T', e, h'⟩ := forLt_inv (a := a) (b := b) (s := T)
    (body := fun i T => forLt c d (fun j T => do
      let r ← rd M i
      let x ← rd r j
      let t ← rd T j
      let t ← wr t i x
      wr T j t) T)
    (fun k T => Filled M n m (fun i j => S i j ∨ (a ≤ i ∧ i < k ∧ c ≤ j ∧ j < d)) T) hab
    (h.mono (fun i j _ _ hs => hs.resolve_right (by omega)))
    (by
      intro k T1 hk1 hk2 h1
      obtain ⟨T2, e2, h2⟩ := forLt_inv (a := c) (b := d) (s := T1)
        (body := fun j T => do
          let r ← rd M k
          let x ← rd r j
          let t ← rd T j
          let t ← wr t k x
          wr T j t)
        (fun l T => Filled M n m (fun i j => (S i j ∨ (a ≤ i ∧ i < k ∧ c ≤ j ∧ j < d)) ∨ (i = k ∧ c ≤ j ∧ j < l)) T) hcd
        (h1.mono (fun i j _ _ hs => hs.resolve_right (by omega)))
        (by
          intro l T3 hl1 hl2 h3
          obtain ⟨T4, e4, h4⟩ := Filled.step hn hm h3 (i := k) (j := l) (by omega) (by omega)
          refine ⟨T4, e4, h4.mono ?_⟩
          intro i j _ _ hs
          rcases hs with hs | ⟨rfl, g1, g2⟩
          · exact Or.inl (Or.inl hs)
          · by_cases hjl : j = l
            · exact Or.inr ⟨rfl, hjl⟩
            · exact Or.inl (Or.inr ⟨rfl, g1, by omega⟩))
      refine ⟨T2, e2, h2.mono ?_⟩
      intro i j _ _ hs
      rcases hs with hs | ⟨g1, g2, g3, g4⟩
      · exact Or.inl (Or.inl hs)
      · by_cases hik : i = k
        · exact Or.inr ⟨hik, g3, g4⟩
        · exact Or.inl (Or.inr ⟨g1, by omega, g3, g4⟩))
  exact ⟨T', e, h'⟩

theorem Filled.start {α : Type} [Inhabited α] (M : List (List α)) (n m : ℕ) :
    Filled M n m (fun _ _ => False) (List.replicate m (List.replicate n default)) :=
  ⟨by simp, fun r hr => by rw [(List.mem_replicate.mp hr).2]; simp, fun _ _ _ _ h => h.elim⟩

/-- `T` is the transposition of the `n × m` matrix `M`. -/
def IsTranspose {α : Type} (n m : ℕ) (M T : List (List α)) : Prop :=
  T.length = m ∧ (∀ r ∈ T, r.length = n) ∧
    ∀ i j (hi : i < M.length) (hj : j < T.length) (hj' : j < M[i].length) (hi' : i < T[j].length), T[j][i] = M[i][j]

theorem Filled.isTranspose {α : Type} {M T : List (List α)} {n m : ℕ} (hn : M.length = n)
    {S : ℕ → ℕ → Prop} (hS : ∀ i j, i < n → j < m → S i j) (h : Filled M n m S T) : IsTranspose n m M T := by
  refine ⟨h.len, h.row, ?_⟩
  intro i j hi hj hj' hi'
  obtain ⟨r, t, e1, e2, e3⟩ := h.val i j (by omega) (by rw [← h.len]; exact hj) (hS i j (by omega) (by rw [← h.len]; exact hj))
  rw [List.getElem?_eq_getElem hi] at e1
  rw [List.getElem?_eq_getElem hj] at e2
  obtain rfl := Option.some.inj e1
  obtain rfl := Option.some.inj e2
  rw [List.getElem?_eq_getElem hi', List.getElem?_eq_getElem hj'] at e3
  exact Option.some.inj e3

theorem IsTranspose.unique {α : Type} {M T T' : List (List α)} {n m : ℕ} (hn : M.length = n) (hm : ∀ r ∈ M, r.length = m)
    (h : IsTranspose n m M T) (h' : IsTranspose n m M T') : T = T' := by
  apply List.ext_getElem
  · rw [h.1, h'.1]
  · intro j h1 h2
    have a := h.2.1 _ (List.getElem_mem h1)
    have b := h'.2.1 _ (List.getElem_mem h2)
    apply List.ext_getElem
    · rw [a, b]
    · intro i h3 h4
      have hi : i < M.length := by omega
      have hr := hm _ (List.getElem_mem hi)
      rw [h.2.2 i j hi h1 (by rw [hr, ← h.1]; exact h1) h3, h'.2.2 i j hi h2 (by rw [hr, ← h.1]; exact h1) h4]

theorem IsTranspose.symm {α : Type} {M T : List (List α)} {n m : ℕ} (hn : M.length = n) (hm : ∀ r ∈ M, r.length = m)
    (h : IsTranspose n m M T) : IsTranspose m n T M :=
  ⟨hn, hm, fun i j hi hj hj' hi' => (h.2.2 j i hj hi hi' hj').symm⟩

/-- C28: `transpose_poles` of a matrix of `n ≥ 1` rows of `m` entries succeeds and returns the transposed matrix. -/
theorem C28_transpose_poles {α : Type} [Inhabited α] {M : List (List α)} {n m : ℕ} (hn : M.length = n) (hn0 : 0 < n)
    (hm : ∀ r ∈ M, r.length = m) : ∃ T, transposePoles M = .ok T ∧ IsTranspose n m M T := by
  unfold transposePoles
  match M, hn with
  | [], hn => simp at hn; omega
  | r0 :: M', hn =>
    have hr0 : r0.length = m := hm _ List.mem_cons_self
    obtain ⟨T, e, h⟩ := Filled.rect hn hm (Filled.start (r0 :: M') n m) (a := 0) (b := n) (c := 0) (d := m)
      le_rfl le_rfl (by omega) (by omega)
    refine ⟨T, ?_, h.isTranspose hn (fun i j hi hj => Or.inr ⟨by omega, hi, by omega, hj⟩)⟩
    rw [← e]
    simp only [hn, hr0]

/-- C28: so does the transposition by blocks, whatever the block size. -/
theorem C28_transpose_poles_blocked {α : Type} [Inhabited α] {M : List (List α)} {n m : ℕ} (hn : M.length = n) (hn0 : 0 < n)
    (hm : ∀ r ∈ M, r.length = m) {b : ℕ} (hb : 0 < b) :
    ∃ T, transposePolesBlocked M b = .ok T ∧ IsTranspose n m M T := by
  unfold transposePolesBlocked
  have hr0 : (M[0]'(by omega)).length = m := hm _ (List.getElem_mem _)
  have hrd : rd M 0 = .ok (M[0]'(by omega)) := rd_ok (by omega)
  have hdiv : ∀ x k, k < (x + b - 1) / b → k * b < x := by
    intro x k hk
    have h1 : (k + 1) * b ≤ x + b - 1 := (Nat.le_div_iff_mul_le hb).mp hk
    rw [Nat.add_mul, Nat.one_mul] at h1
    omega
  have hcov : ∀ x i, i < x → i / b < (x + b - 1) / b := by
    intro x i hi
    rw [Nat.lt_iff_add_one_le, Nat.le_div_iff_mul_le hb, Nat.add_mul, Nat.one_mul]
    have := Nat.div_mul_le_self i b
    omega
  rw [hrd, R_bind_ok]
  simp only [hr0, hn]
  rw [if_neg (by omega)]
  obtain ⟨T, e, h⟩ := forLt_inv (a := 0) (b := (n + b - 1) / b) (s := List.replicate m (List.replicate n (default : α)))
    (body := fun i T => forLt 0 ((m + b - 1) / b) (fun j T => transposeBlock M T (i * b) (j * b) b) T)
    (fun k T => Filled M n m (fun i j => i / b < k) T) (Nat.zero_le _)
    ((Filled.start M n m).mono (fun i j _ _ h => absurd h (Nat.not_lt_zero _)))
    (by
      intro k T1 _ hk h1
      obtain ⟨T2, e2, h2⟩ := forLt_inv (a := 0) (b := (m + b - 1) / b) (s := T1)
        (body := fun j T => transposeBlock M T (k * b) (j * b) b)
        (fun l T => Filled M n m (fun i j => i / b < k ∨ (i / b = k ∧ j / b < l)) T) (Nat.zero_le _)
        (h1.mono (fun i j _ _ hs => hs.resolve_right (fun h => absurd h.2 (Nat.not_lt_zero _))))
        (by
          intro l T3 _ hl h3
          have hkb := hdiv n k hk
          have hlb := hdiv m l hl
          obtain ⟨T4, e4, h4⟩ := Filled.rect hn hm h3 (a := k * b) (b := min (k * b + b) n) (c := l * b) (d := min (l * b + b) m)
            (by omega) (by omega) (by omega) (by omega)
          refine ⟨T4, ?_, h4.mono ?_⟩
          · unfold transposeBlock
            rw [hrd, R_bind_ok]
            simp only [hr0, hn]
            exact e4
          · intro i j hi hj hs
            rcases hs with hs | ⟨g1, g2⟩
            · exact Or.inl (Or.inl hs)
            · by_cases hjl : j / b < l
              · exact Or.inl (Or.inr ⟨g1, hjl⟩)
              · have hjl' : j / b = l := by omega
                have a1 := Nat.div_add_mod i b
                have a2 := Nat.mod_lt i hb
                have b1 := Nat.div_add_mod j b
                have b2 := Nat.mod_lt j hb
                rw [g1, Nat.mul_comm] at a1
                rw [hjl', Nat.mul_comm] at b1
                exact Or.inr ⟨by omega, by omega, by omega, by omega⟩)
      refine ⟨T2, e2, h2.mono ?_⟩
      intro i j hi hj hs
      by_cases hik : i / b < k
      · exact Or.inl hik
      · exact Or.inr ⟨by omega, hcov m j hj⟩)
  exact ⟨T, e, h.isTranspose hn (fun i j hi _ => hcov n i hi)⟩

/-- C28: transposing twice, with or without blocks (of any sizes), restores a non-empty rectangular matrix. -/
theorem C28_transpose_involutive {α : Type} [Inhabited α] {M : List (List α)} {n m : ℕ} (hn : M.length = n) (hn0 : 0 < n)
    (hm : ∀ r ∈ M, r.length = m) (hm0 : 0 < m) {b b' : ℕ} (hb : 0 < b) (hb' : 0 < b') :
    ∃ T, transposePoles M = .ok T ∧ transposePolesBlocked M b = .ok T ∧ transposePoles T = .ok M ∧ transposePolesBlocked T b' = .ok M := by
  obtain ⟨T, e, h⟩ := C28_transpose_poles hn hn0 hm
  obtain ⟨T1, e1, h1⟩ := C28_transpose_poles_blocked hn hn0 hm hb
  obtain ⟨T2, e2, h2⟩ := C28_transpose_poles h.1 hm0 h.2.1
  obtain ⟨T3, e3, h3⟩ := C28_transpose_poles_blocked h.1 hm0 h.2.1 hb'
  have hs := h.symm hn hm
  refine ⟨T, e, ?_, ?_, ?_⟩
  · rw [e1, h1.unique hn hm h]
  · rw [e2, h2.unique h.1 h.2.1 hs]
  · rw [e3, h3.unique h.1 h.2.1 hs]

example : ∃ T, transposePoles [[1, 2, 3], [4, 5, 6]] = .ok T ∧ transposePolesBlocked [[1, 2, 3], [4, 5, 6]] 2 = .ok T ∧
    transposePoles T = .ok [[1, 2, 3], [4, 5, 6]] ∧ transposePolesBlocked T 5 = .ok [[1, 2, 3], [4, 5, 6]] :=
  C28_transpose_involutive (n := 2) (m := 3) rfl (by omega) (by decide) (by omega) (by omega) (by omega)

/-- C28: without poles the transposition by blocks reads the first row of nothing; the plain one is guarded. -/
theorem C28_blocked_empty_witness : transposePolesBlocked ([] : List (List ℕ)) 4 = .error .oob ∧
    transposePoles ([] : List (List ℕ)) = .ok [] := ⟨rfl, rfl⟩

/-! ## C30, rational surfaces -/

theorem quotB2_zero (b : ℕ → ℕ → K) (A : ℕ → ℕ → V) (w : ℕ → ℕ → K) : ∀ l, quotB2 b A w 0 l = quotB b (A 0) (w 0) l := by
  intro l
  induction l using Nat.strong_induction_on with
  | _ l ih =>
    rw [quotB2_eq, quotB_eq]
    simp only [Finset.range_zero, Finset.sum_empty, sub_zero]
    congr 2
    apply Finset.sum_congr rfl
    intro j hj
    rw [ih (l - (j+1)) (by have := Finset.mem_range.mp hj; omega)]

theorem quotB2_zero' (b : ℕ → ℕ → K) (A : ℕ → ℕ → V) (w : ℕ → ℕ → K) :
    ∀ k, quotB2 b A w k 0 = quotB b (fun k => A k 0) (fun k => w k 0) k := by
  intro k
  induction k using Nat.strong_induction_on with
  | _ k ih =>
    rw [quotB2_eq, quotB_eq]
    simp only [Finset.range_zero, Finset.sum_empty, sub_zero, smul_zero, add_zero]
    congr 2
    apply Finset.sum_congr rfl
    intro j hj
    rw [ih (k - (j+1)) (by have := Finset.mem_range.mp hj; omega)]

theorem Surface.ratValue_spec {eps : K} (heps : 0 < eps) {s : Surface K (V × K)} (h : s.Wf) (hb : s.BigOk eps) {u v : K}
    (hi : s.In u v) {A : ℕ → ℕ → V × K} (hA : ∀ a b, ∃ junk, s.value eps junk u v a b = .ok (A a b)) (hw : (A 0 0).2 ≠ 0)
    (junk : K) {a b : ℕ} (ha : a ≤ 60) (hb' : b ≤ 60) :
    s.ratValue eps junk u v a b = .ok (quotB2 (bU K) (fun a b => (A a b).1) (fun a b => (A a b).2) a b) := by
  by_cases h0 : a = 0 ∧ b = 0
  · obtain ⟨rfl, rfl⟩ := h0
    obtain ⟨jk, hj⟩ := hA 0 0
    rw [C55_value heps h hb hi jk junk hj hw, quotB2_eq]
    simp
  · obtain ⟨T', e2, -, h3⟩ := Surface.ratDers_spec heps h hb hi hA hw junk (nu := a) (nv := b) ha hb'
      (List.replicate ((a+1)*(b+1)) 0) (by simp)
    unfold Surface.ratValue
    rw [if_neg (Surface.not_outside heps hi), if_neg h0, e2, R_bind_ok, rd_eq_ok.mpr (h3 a b le_rfl le_rfl)]

/-- C30: the isoparametric curve `isoU(u)` of a rational surface, with clamped knots along V, is the rational curve
`v ↦ S(u,v)`, derivatives included (up to the order 60), wherever the weight does not vanish. -/
theorem C30_isoU_rational {eps : K} (heps : 0 < eps) {s : Surface K (V × K)} (h : s.Wf) (hb : s.BigOk eps) {u : K}
    (hu0 : s.u0 ≤ u) (hu1 : u ≤ s.u1) (h1 : kf s.knotsU s.degU ≤ u)
    (h2 : u < kf s.knotsU s.nPU ∨ (u = kf s.knotsU s.nPU ∧ kf s.knotsU s.nPU = kLast s.knotsU))
    (c0 : kf s.knotsV 0 = kf s.knotsV s.degV) (c1 : kf s.knotsV s.nPV = kLast s.knotsV) :
    ∃ c, s.isoU eps u = .ok c ∧ c.Good ∧ c.deg = s.degV ∧ c.knots = s.knotsV ∧
      ∀ v, s.In u v → ∀ (junk : K) {x : V} {w : K}, s.value eps junk u v = .ok (x, w) → w ≠ 0 →
        ∀ (junk' junk'' : K) (d : ℕ), d ≤ 60 → ∃ pt, s.ratValue eps junk' u v 0 d = .ok pt ∧ c.ratValue eps junk'' v d = .ok pt := by
  obtain ⟨c, e, k1, k2, k3, k4, k5, k6, k7⟩ := C30_isoU heps h hb hu0 hu1 h1 h2
  have hg : c.Good := ⟨k5, by rw [k3, k2, k1, c0], by rw [k4, k2, k6, c1]⟩
  have hbc : c.BigOk eps := by
    rcases hb with hb | hb
    · exact Or.inl (by rw [k1]; exact hb.2)
    · exact Or.inr ⟨by rw [k2]; exact hb.2.2.1, by rw [k4, k2]⟩
  refine ⟨c, e, hg, k1, k2, ?_⟩
  intro v hi junk x w hx hw junk' junk'' d hd
  obtain ⟨i, j, -, -, -, -, -, -, -, -, ev⟩ := Surface.value_spec heps h hb hi
  set A := fun a b => surfDer (kf s.knotsU) s.nPU s.degU i (kf s.knotsV) s.nPV s.degV j (pf s.poles) a b u v with hA
  have hA0 : A 0 0 = (x, w) := by
    rw [ev junk 0 0] at hx
    exact Except.ok.inj hx
  refine ⟨_, Surface.ratValue_spec heps h hb hi (A := A) (fun a b => ⟨junk, ev junk a b⟩) (by rw [hA0]; exact hw) junk'
    (by omega) hd, ?_⟩
  obtain ⟨l, -, -, -, -, r1, r2⟩ := Curve.rat_spec heps hg hbc (u := v) (by rw [k3, c0]; exact hi.kv0) (by rw [k4, ← c1]; exact hi.kv1)
  have hc : ∀ d, spanDer (kf c.knots) c.poles.length c.deg l (pf c.poles) d v = A 0 d := by
    intro d
    obtain ⟨pt, p1, p2⟩ := k7 v hi junk junk d
    rw [ev] at p1
    rw [r1] at p2
    rw [Except.ok.inj p2, ← Except.ok.inj p1]
  simp only [hc] at r2
  rw [quotB2_zero, (r2 (by rw [hA0]; exact hw)).1 junk'' d hd]

/-- C30: same for `isoV(v)`. -/
theorem C30_isoV_rational {eps : K} (heps : 0 < eps) {s : Surface K (V × K)} (h : s.Wf) (hb : s.BigOk eps) {v : K}
    (hv0 : s.v0 ≤ v) (hv1 : v ≤ s.v1) (h1 : kf s.knotsV s.degV ≤ v)
    (h2 : v < kf s.knotsV s.nPV ∨ (v = kf s.knotsV s.nPV ∧ kf s.knotsV s.nPV = kLast s.knotsV))
    (c0 : kf s.knotsU 0 = kf s.knotsU s.degU) (c1 : kf s.knotsU s.nPU = kLast s.knotsU) :
    ∃ c, s.isoV eps v = .ok c ∧ c.Good ∧ c.deg = s.degU ∧ c.knots = s.knotsU ∧
      ∀ u, s.In u v → ∀ (junk : K) {x : V} {w : K}, s.value eps junk u v = .ok (x, w) → w ≠ 0 →
        ∀ (junk' junk'' : K) (d : ℕ), d ≤ 60 → ∃ pt, s.ratValue eps junk' u v d 0 = .ok pt ∧ c.ratValue eps junk'' u d = .ok pt := by
  obtain ⟨c, e, k1, k2, k3, k4, k5, k6, k7⟩ := C30_isoV heps h hb hv0 hv1 h1 h2
  have hg : c.Good := ⟨k5, by rw [k3, k2, k1, c0], by rw [k4, k2, k6, c1]⟩
  have hbc : c.BigOk eps := by
    rcases hb with hb | hb
    · exact Or.inl (by rw [k1]; exact hb.1)
    · exact Or.inr ⟨by rw [k2]; exact hb.1, by rw [k4, k2]⟩
  refine ⟨c, e, hg, k1, k2, ?_⟩
  intro u hi junk x w hx hw junk' junk'' d hd
  obtain ⟨i, j, -, -, -, -, -, -, -, -, ev⟩ := Surface.value_spec heps h hb hi
  set A := fun a b => surfDer (kf s.knotsU) s.nPU s.degU i (kf s.knotsV) s.nPV s.degV j (pf s.poles) a b u v with hA
  have hA0 : A 0 0 = (x, w) := by
    rw [ev junk 0 0] at hx
    exact Except.ok.inj hx
  refine ⟨_, Surface.ratValue_spec heps h hb hi (A := A) (fun a b => ⟨junk, ev junk a b⟩) (by rw [hA0]; exact hw) junk'
    hd (by omega), ?_⟩
  obtain ⟨l, -, -, -, -, r1, r2⟩ := Curve.rat_spec heps hg hbc (u := u) (by rw [k3, c0]; exact hi.ku0) (by rw [k4, ← c1]; exact hi.ku1)
  have hc : ∀ d, spanDer (kf c.knots) c.poles.length c.deg l (pf c.poles) d u = A d 0 := by
    intro d
    obtain ⟨pt, p1, p2⟩ := k7 u hi junk junk d
    rw [ev] at p1
    rw [r1] at p2
    rw [Except.ok.inj p2, ← Except.ok.inj p1]
  simp only [hc] at r2
  rw [quotB2_zero', (r2 (by rw [hA0]; exact hw)).1 junk'' d hd]

/-! ## C31 -/

/-- C31, what holds: `pole(i,j)` returns the pole of U-index `j` and V-index `i`, the indices being exchanged with respect to the
storage and to the evaluation. Missing: the claim itself, see the witness below. -/
theorem C31_pole_partial {s : Surface K V} (h : s.Wf) {i j : ℕ} (hj : j < s.nPU) (hi : i < s.nPV) :
    s.pole i j = .ok (pf s.poles (j + s.nPU * i)) := by
  unfold Surface.pole
  rw [h.nU_eq, R_bind_ok, Nat.mul_comm, pf_getElem? (by rw [h.len]; exact idx_lt hj hi)]
  rfl

/-- C31: `polesU(j)` is the row of the poles `P_ij`, `polesV(i)` the column, for indices in range. -/
theorem C31_rows {s : Surface K V} (h : s.Wf) :
    (∀ j, j < s.nPV → ∃ L, s.polesU j = .ok L ∧ L.length = s.nPU ∧ ∀ i, i < s.nPU → pf L i = pf s.poles (i + s.nPU * j)) ∧
    (∀ i, i < s.nPU → ∃ L, s.polesV i = .ok L ∧ L.length = s.nPV ∧ ∀ j, j < s.nPV → pf L j = pf s.poles (i + s.nPU * j)) := by
  constructor
  · intro j hj
    refine ⟨_, Surface.polesU_eq h.sz hj, by rw [List.length_map, s.colsU_length], ?_⟩
    intro i hi
    rw [pf_lmap, projAt_apply]
    unfold Surface.colsU
    rw [pf_cols hi hj]
    rfl
  · intro i hi
    refine ⟨_, Surface.polesV_eq h.sz hi, by rw [List.length_map, s.colsV_length], ?_⟩
    intro j hj
    rw [pf_lmap, projAt_apply]
    unfold Surface.colsV
    rw [pf_cols hj hi]
    rfl

/-- A bilinear patch with 2 poles along U and 3 along V. -/
def Sample.net : Surface ℚ ℚ := ⟨1, 1, [0, 1, 2, 3, 4, 5], [0,0,1,1], [0,0,1,2,2], 0, 1, 0, 2⟩

/-- C31 is false: at the corner `(1,2)` the only non-null basis functions are `N_1` along U and `N_2` along V, and the surface is at its pole 5;
`pole(1,2)` is 4. `polesU(3)`, past the last row, is a row of null poles (the documentation announces the last row), and `pole(2,0)`, past the last
index along U, is not rejected. -/
theorem C31_pole_witness : Surface.value (1/1000) 0 Sample.net 1 2 = .ok 5 ∧ Sample.net.pole 1 2 = .ok 4 ∧
    Sample.net.polesU 3 = .ok [0, 0] ∧ Sample.net.pole 2 0 = .ok 4 := by
  refine ⟨by decide +kernel, by decide +kernel, by decide +kernel, by decide +kernel⟩

/-! ## The constructor -/

/-- The constructor accepts one pole with one knot in each direction for the degrees 1 and 1: the numbers of poles `1-(1+1)` wrap
around, and so does their product. The evaluation of this surface reads out of range. -/
theorem C27_constructor_witness : ∃ s : Surface ℚ ℚ, Surface.mk? (1/1000) [7] [0] [0] 1 1 = .ok s ∧
    Surface.value (1/1000) 0 s 0 0 = .error .oob := by
  refine ⟨⟨1, 1, [7], [0], [0], 0, 0, 0, 0⟩, by decide +kernel, by decide +kernel⟩

theorem wsub_le {a b : ℕ} (h : b ≤ a) : wsub a b = a - b := if_pos h

theorem checkCurveW_eq {eps : K} {U : List K} (hU : U.Pairwise (· ≤ ·)) (hne : U ≠ []) {np p : ℕ} (h1 : p + 1 + np < 2 ^ 64) :
    checkCurveW eps np U p = .ok (decide (U.length = np + p + 1 ∧ p + 1 ≤ np)) := by
  rw [← checkCurve_sorted (eps := eps) hU hne np p]
  unfold checkCurveW checkCurve
  rw [Nat.mod_eq_of_lt h1, Nat.mod_eq_of_lt (show p + 1 < 2 ^ 64 by omega)]

/-- With at least as many knots as the order in each direction (and sizes that fit in memory), the constructor accepts exactly the sorted
knots with `nU * nV` poles and at least `p+1` and `q+1` of them in each direction. -/
theorem C27_constructor {eps : K} (P : List V) {ku kv : List K} {p q : ℕ} (hp : p + 1 ≤ ku.length) (hq : q + 1 ≤ kv.length)
    (hu : ku.Pairwise (· ≤ ·)) (hv : kv.Pairwise (· ≤ ·)) (hmem : ku.length * kv.length < 2 ^ 64) :
    ((∃ s, Surface.mk? eps P ku kv p q = .ok s) ↔
      (P.length = (ku.length - (p+1)) * (kv.length - (q+1)) ∧ p + 1 ≤ ku.length - (p+1) ∧ q + 1 ≤ kv.length - (q+1))) ∧
    ∀ s, Surface.mk? eps P ku kv p q = .ok s → s = ⟨p, q, P, ku, kv, kf ku 0, kLast ku, kf kv 0, kLast kv⟩ := by
  have hun : ku ≠ [] := by intro h; rw [h] at hp; simp at hp
  have hvn : kv ≠ [] := by intro h; rw [h] at hq; simp at hq
  have b1 : ku.length < 2 ^ 64 := lt_of_le_of_lt (Nat.le_mul_of_pos_right _ (by omega)) hmem
  have b2 : kv.length < 2 ^ 64 := lt_of_le_of_lt (Nat.le_mul_of_pos_left _ (by omega)) hmem
  have b3 : (ku.length - (p+1)) * (kv.length - (q+1)) < 2 ^ 64 :=
    lt_of_le_of_lt (Nat.mul_le_mul (Nat.sub_le _ _) (Nat.sub_le _ _)) hmem
  have e1 : ku.head hun = kf ku 0 := by rw [kf_of_lt (by omega), List.head_eq_getElem]
  have e2 : ku.getLast hun = kLast ku := by unfold kLast; rw [kf_of_lt (by omega), List.getLast_eq_getElem]
  have e3 : kv.head hvn = kf kv 0 := by rw [kf_of_lt (by omega), List.head_eq_getElem]
  have e4 : kv.getLast hvn = kLast kv := by unfold kLast; rw [kf_of_lt (by omega), List.getLast_eq_getElem]
  unfold Surface.mk?
  rw [List.head?_eq_some_head hun, List.getLast?_eq_some_getLast hun, List.head?_eq_some_head hvn, List.getLast?_eq_some_getLast hvn,
    e1, e2, e3, e4]
  simp only [wsub_le hp, wsub_le hq, Nat.mod_eq_of_lt b3]
  rw [checkCurveW_eq hu hun (by omega), checkCurveW_eq hv hvn (by omega)]
  have a1 : (ku.length = ku.length - (p+1) + p + 1 ∧ p + 1 ≤ ku.length - (p+1)) ↔ p + 1 ≤ ku.length - (p+1) :=
    ⟨fun h => h.2, fun h => ⟨by omega, h⟩⟩
  have a2 : (kv.length = kv.length - (q+1) + q + 1 ∧ q + 1 ≤ kv.length - (q+1)) ↔ q + 1 ≤ kv.length - (q+1) :=
    ⟨fun h => h.2, fun h => ⟨by omega, h⟩⟩
  simp only [a1, a2, R_bind_ok]
  by_cases c0 : (ku.length - (p+1)) * (kv.length - (q+1)) = P.length
  · rw [if_neg (by simpa using c0)]
    by_cases c1 : p + 1 ≤ ku.length - (p+1)
    · rw [if_neg (by rw [decide_eq_true c1]; simp)]
      by_cases c2 : q + 1 ≤ kv.length - (q+1)
      · rw [if_neg (by rw [decide_eq_true c2]; simp)]
        exact ⟨⟨fun _ => ⟨c0.symm, c1, c2⟩, fun _ => ⟨_, rfl⟩⟩, fun s h => (Except.ok.inj h).symm⟩
      · rw [if_pos (by rw [decide_eq_false c2]; simp)]
        exact ⟨⟨fun ⟨s, h⟩ => by simp at h, fun h => absurd h.2.2 c2⟩, fun s h => by simp at h⟩
    · rw [if_pos (by rw [decide_eq_false c1]; simp)]
      exact ⟨⟨fun ⟨s, h⟩ => by simp at h, fun h => absurd h.2.1 c1⟩, fun s h => by simp at h⟩
  · rw [if_pos c0]
    exact ⟨⟨fun ⟨s, h⟩ => by simp at h, fun h => absurd h.1.symm c0⟩, fun s h => by simp at h⟩

/-! ## Instances of the hypotheses -/

/-- Degrees 2 and 1, interior knots in both directions, unequal numbers of poles. -/
def Sample.s : Surface ℚ ℚ := ⟨2, 1, [0, 1, 3, 2, 5, 4, 1, 1, 2, 0, 7, 3], [0,0,0,1,2,2,2], [0,0,1,3,3], 0, 2, 0, 3⟩

theorem Sample.s_wf : Sample.s.Wf := by
  refine ⟨⟨by decide +kernel, by decide, by decide, by decide +kernel, by decide +kernel⟩,
    ⟨by decide +kernel, by decide, by decide, by decide +kernel, by decide +kernel⟩, by decide⟩

theorem Sample.s_big : Sample.s.BigOk (1/1000) := Or.inl ⟨by decide, by decide⟩

theorem Sample.s_in {u v : ℚ} (h0 : 0 ≤ u) (h1 : u ≤ 2) (h2 : 0 ≤ v) (h3 : v ≤ 3) : Sample.s.In u v :=
  ⟨h0, h1, h2, h3, h0, h1, h2, h3⟩

example : Surface.value (1/1000) 0 Sample.s 1 1 = .ok (∑ j ∈ Finset.range 3, ∑ i ∈ Finset.range 4,
    (Spec.N (kf Sample.s.knotsU) (kf Sample.s.knotsU 4) 2 i 1 * Spec.N (kf Sample.s.knotsV) (kf Sample.s.knotsV 3) 1 j 1) •
      pf Sample.s.poles (i + 4 * j)) :=
  C27_value_eq_sum (by norm_num) Sample.s_wf Sample.s_big (Sample.s_in (by norm_num) (by norm_num) (by norm_num) (by norm_num)) 0
    (by decide) (by decide)

example : ∃ s', Sample.s.invertUV = .ok s' ∧ s'.invertUV = .ok Sample.s := by
  obtain ⟨s', e, e'⟩ := C28_invertUV_involutive Sample.s_wf
  refine ⟨s', e, e'.trans ?_⟩
  decide +kernel

/-- A knot inside of a span, then at an existing knot. -/
example : (∃ idx s', Sample.s.insertKnotU (1/2) 2 = .ok (idx, s') ∧ s'.knotsU.count (1/2) = 2) ∧
    (∃ idx s', Sample.s.insertKnotU 1 1 = .ok (idx, s') ∧ s'.knotsU.count 1 = 2) := by
  constructor
  · obtain ⟨idx, s', e, -, -, -, -, -, -, -, -, -, hc, -⟩ := C29_insertKnotU (eps := 1/1000) (by norm_num) Sample.s_wf Sample.s_big
      (x := 1/2) (by decide +kernel) (by decide +kernel) (r := 2) (by omega) (Or.inl ⟨by decide, by decide⟩)
    refine ⟨idx, s', e, ?_⟩
    rw [hc, if_pos rfl]
    decide +kernel
  · obtain ⟨idx, s', e, -, -, -, -, -, -, -, -, -, hc, -⟩ := C29_insertKnotU (eps := 1/1000) (by norm_num) Sample.s_wf Sample.s_big
      (x := 1) (by decide +kernel) (by decide +kernel) (r := 1) (by omega) (Or.inl ⟨by decide, by decide⟩)
    refine ⟨idx, s', e, ?_⟩
    rw [hc, if_pos rfl]
    decide +kernel

/-- At an interior parameter, at an existing knot, and at the ends. -/
example : ∀ u ∈ ([0, 1/2, 1, 2] : List ℚ), ∃ c, Sample.s.isoU (1/1000) u = .ok c ∧
    ∀ v, 0 ≤ v → v ≤ 3 → ∃ pt, Surface.value (1/1000) 0 Sample.s u v 0 0 = .ok pt ∧ c.value (1/1000) 0 v = .ok pt := by
  intro u hu
  have hb : 0 ≤ u ∧ (u < 2 ∨ u = 2) := by fin_cases hu <;> norm_num
  obtain ⟨h0, h1⟩ := hb
  have h1' : u ≤ 2 := by rcases h1 with h | h <;> linarith
  obtain ⟨c, e, -, -, -, -, -, -, h⟩ := C30_isoU (eps := 1/1000) (by norm_num) Sample.s_wf Sample.s_big (u := u) h0 h1' h0
    (h1.imp id (fun h => ⟨h, rfl⟩))
  exact ⟨c, e, fun v g0 g1 => h v (Sample.s_in h0 h1' g0 g1) 0 0 0⟩

/-- A rational surface: the same net with weights. -/
def Sample.sr : Surface ℚ (ℚ × ℚ) := ⟨2, 1, [(0,1), (1,2), (3,1), (2,1), (5,1), (4,1/2), (1,1), (1,3), (2,1), (0,1), (7,1), (3,1)],
  [0,0,0,1,2,2,2], [0,0,1,3,3], 0, 2, 0, 3⟩

theorem Sample.sr_wf : Sample.sr.Wf := by
  refine ⟨⟨by decide +kernel, by decide, by decide, by decide +kernel, by decide +kernel⟩,
    ⟨by decide +kernel, by decide, by decide, by decide +kernel, by decide +kernel⟩, by decide⟩

/-- The weight at the corner `(2,3)` is 1. -/
example : ∃ A : ℕ → ℕ → ℚ × ℚ, (A 0 0).2 ≠ 0 ∧ ∃ S : ℕ → ℕ → ℚ, ∃ T,
    Surface.ratDerivatives (1/1000) 0 Sample.sr 2 3 2 1 (List.replicate 6 0) = .ok T ∧
      ∑ i ∈ Finset.range 3, ∑ j ∈ Finset.range 2, (((Nat.choose 2 i * Nat.choose 1 j : ℕ) : ℚ) * (A i j).2) • S (2 - i) (1 - j) = (A 2 1).1 := by
  have hin : Sample.sr.In 2 3 := ⟨by decide +kernel, by decide +kernel, by decide +kernel, by decide +kernel, by decide +kernel,
    by decide +kernel, by decide +kernel, by decide +kernel⟩
  have hb : Sample.sr.BigOk (1/1000) := Or.inl ⟨by decide, by decide⟩
  obtain ⟨i, j, -, -, -, -, -, -, -, -, e⟩ := Surface.value_spec (eps := 1/1000) (by norm_num) Sample.sr_wf hb hin
  have e0 : Surface.value (1/1000) 0 Sample.sr 2 3 = .ok (3, 1) := by decide +kernel
  have hw := Except.ok.inj ((e 0 0 0).symm.trans e0)
  obtain ⟨S, T, eT, -, hS⟩ := C55_leibniz (eps := 1/1000) (by norm_num) Sample.sr_wf hb hin (fun a b => ⟨0, e 0 a b⟩)
    (by rw [hw]; norm_num) 0 0 (nu := 2) (nv := 1) (by omega) (by omega) (List.replicate 6 0) (by simp)
  exact ⟨_, by rw [hw]; norm_num, S, T, eT, hS 2 1 le_rfl le_rfl⟩

end Gbs
