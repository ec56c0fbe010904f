import Verif.Props.Approx
import Verif.Props.Insertion

/-!
# C79: refinement of an approximation
-/

namespace Gbs

set_option linter.unusedSectionVars false

open Polynomial
open scoped BigOperators

variable {K : Type} [Field K] [LinearOrder K] [IsStrictOrderedRing K]
variable {V : Type} [AddCommGroup V] [Module K V]
variable {dim : ℕ}

/-- The solver always answers, whether the system is regular or not. -/
def Spec.AnswersDense (dense : ℕ → (ℕ → ℕ → K) → List V → R (List V)) : Prop :=
  ∀ (n : ℕ) (A : ℕ → ℕ → K) (B : List V), B.length = n → ∃ X, dense n A B = .ok X ∧ X.length = n

theorem approxWith_total {eps : K} (heps : 0 < eps) (junk : K) {p n : ℕ} (hp1 : 1 ≤ p) (hp : p ≤ stackMaxDegree) {k : List K}
    (hU : KWf p k n) (h0 : kf k 0 = kf k p) (h1 : kLast k = kf k n) {u : List K} {Q : List V} (hlen : Q.length = u.length)
    (hn : n ≤ Q.length) (fix : Bool) {dense : ℕ → (ℕ → ℕ → K) → List V → R (List V)} (hA : Spec.AnswersDense dense) :
    ∃ c, approxWith eps junk dense Q p n u k fix = .ok c ∧ Spec.Family eps k p Q fix c := by
  obtain ⟨sp, hsp⟩ := exists_spans hU u
  have hmin := hU.min
  unfold approxWith
  cases fix with
  | true =>
    obtain ⟨N, eN, -⟩ := innerMatrix_spec hU hp hsp eps junk
    obtain ⟨B, -, hrun⟩ := approxBoundFixed_run heps junk (by omega) hp hU h0 h1 hlen hn eN dense
    obtain ⟨X, eX, hlX⟩ := hA (n - 2) (normalMatrix (u.length - 2) fun i j => N i (j + 1))
      (normalRhs (u.length - 2) (n - 2) (fun i j => N i (j + 1)) B) (by simp [normalRhs])
    obtain ⟨c, ec, hc, p0, p1, -⟩ := hrun X eX hlX
    exact ⟨c, ec, hc, fun _ => ((joins_iff heps hU hp h0 h1).mpr ⟨hc, p0, p1⟩).2⟩
  | false =>
    obtain ⟨N, eN, -⟩ := buildPolesMatrix_spec hU hp hsp (nc := 1) le_rfl eps junk
    obtain ⟨X, eX, hlX⟩ := hA n (normalMatrix u.length N) (normalRhs u.length n N Q) (by simp [normalRhs])
    obtain ⟨c, ec, c1, c2, c3, c4, c5, hg, -⟩ := mk_clamped heps hU hlX hp h0 h1
    refine ⟨c, ?_, ⟨hg, c1, c3⟩, by simp⟩
    rw [if_neg (by simp)]
    unfold approxKnots checkApproxSizes
    rw [if_neg (by omega), if_neg (by omega), R_pure, R_bind_ok, eN, R_bind_ok, collect_loop, R_bind_ok]
    unfold solveApproxBanded
    rw [if_neg (by omega), eX, R_bind_ok, copy_loop hlX, R_bind_ok, ec]

theorem OnKnots.kwf {k : List K} {p : ℕ} {c : Curve K V} (h : Spec.OnKnots k p c) : KWf p k c.poles.length := by
  have hw := h.good.wf
  rw [h.knots, h.deg] at hw
  exact ⟨hw.sorted, hw.len, hw.min, hw.first, hw.last⟩

/-- The sorted knots that a family of inserted values gives. -/
theorem nested_curve {eps : K} (heps : 0 < eps) {p : ℕ} (hp1 : 1 ≤ p) (hp : p ≤ stackMaxDegree) : ∀ (ins : List K) {c : Curve K V}, c.Good → c.deg = p →
    ins.Nodup → (∀ x ∈ ins, c.b0 < x ∧ x < c.b1 ∧ x ∉ c.knots) → ∀ {k : List K}, k.Pairwise (· ≤ ·) → k.Perm (ins ++ c.knots) →
    ∃ c', Spec.OnKnots k p c' ∧ c'.b0 = c.b0 ∧ c'.b1 = c.b1 ∧ c'.poles.length = c.poles.length + ins.length ∧
      ∀ v, c.b0 ≤ v → v ≤ c.b1 → ∀ junk junk' : K, ∃ pt, c.value eps junk v 0 = .ok pt ∧ c'.value eps junk' v 0 = .ok pt
  | [], c, hg, hd, _, _, k, hk, hperm => by
    have : k = c.knots := List.Perm.eq_of_pairwise' hk hg.wf.sorted hperm
    refine ⟨c, ⟨hg, hd, this.symm⟩, rfl, rfl, by simp, ?_⟩
    intro v h1 h2 junk junk'
    obtain ⟨i, -, -, -, -, h⟩ := Curve.value_span heps hg (Or.inl (by rw [hd]; exact hp)) h1 h2
    exact ⟨_, h junk 0, h junk' 0⟩
  | x :: ins, c, hg, hd, hnd, hin, k, hk, hperm => by
    obtain ⟨hx1, hx2, hx3⟩ := hin x (by simp)
    obtain ⟨idx, c1, e1, g1, b0, b1, hv⟩ := C16_insert_keeps_curve heps hg (u := x) (Or.inl (by rw [hd]; exact hp)) hx1 hx2 (m := 1) le_rfl
    obtain ⟨idx', c1', e1', d1, p1, s1, l1, -⟩ := C17_insert_shape hg hx1 hx2 (m := 1) le_rfl
    rw [e1] at e1'
    obtain ⟨rfl, rfl⟩ : idx = idx' ∧ c1 = c1' := by
      have := Except.ok.inj e1'
      exact Prod.mk.inj this
    have hcount : c.knots.count x = 0 := List.count_eq_zero.mpr hx3
    have hmin : min 1 (c.deg - c.knots.count x) = 1 := by rw [hcount, hd]; omega
    rw [hmin] at p1 l1
    have p1' : c1.knots.Perm (x :: c.knots) := p1
    rw [List.nodup_cons] at hnd
    obtain ⟨c', h', b0', b1', l', hv'⟩ := nested_curve heps hp1 hp ins g1 (by rw [d1, hd]) hnd.2
      (by
        intro y hy
        rw [b0, b1]
        obtain ⟨y1, y2, y3⟩ := hin y (by simp [hy])
        refine ⟨y1, y2, ?_⟩
        intro hm
        rcases List.mem_cons.mp (p1'.mem_iff.mp hm) with rfl | h
        · exact hnd.1 hy
        · exact y3 h) hk
      (hperm.trans ((List.perm_middle.symm).trans ((p1'.symm).append_left ins)))
    refine ⟨c', h', b0'.trans b0, b1'.trans b1, by rw [l', l1]; simp; omega, ?_⟩
    intro v h1 h2 junk junk'
    obtain ⟨pt, e, e'⟩ := hv v h1 h2 junk junk 0
    obtain ⟨pt', f, f'⟩ := hv' v (by rw [b0]; exact h1) (by rw [b1]; exact h2) junk junk'
    rw [e'] at f
    obtain rfl := Except.ok.inj f
    exact ⟨pt, e, f'⟩

theorem kf_ge_first {k : List K} (hk : k.Pairwise (· ≤ ·)) {b : K} (h : ∀ x ∈ k, b ≤ x) (hb : b ∈ k) : kf k 0 = b := by
  obtain ⟨i, hi, e⟩ := List.getElem_of_mem hb
  apply le_antisymm
  · rw [← e, ← kf_of_lt hi]; exact kf_mono hk (Nat.zero_le i)
  · exact h _ (kf_mem (by intro h0; rw [h0] at hi; simp at hi) 0)

theorem kf_le_last {k : List K} (hk : k.Pairwise (· ≤ ·)) {b : K} (h : ∀ x ∈ k, x ≤ b) (hb : b ∈ k) : kLast k = b := by
  obtain ⟨i, hi, e⟩ := List.getElem_of_mem hb
  unfold kLast
  apply le_antisymm
  · exact h _ (kf_mem (by intro h0; rw [h0] at hi; simp at hi) _)
  · rw [← e, ← kf_of_lt hi]; exact kf_mono hk (by omega)

/-- The knots after insertions are clamped when the first ones are. -/
theorem nested_clamped {c c' : Curve K V} (hg : c.Good) (hg' : c'.Good) (h0 : kf c.knots 0 = c.b0) (h1 : kLast c.knots = c.b1) {ins : List K}
    (hin : ∀ x ∈ ins, c.b0 < x ∧ x < c.b1 ∧ x ∉ c.knots) (hperm : c'.knots.Perm (ins ++ c.knots)) :
    kf c'.knots 0 = c.b0 ∧ kLast c'.knots = c.b1 := by
  have hne : c.knots ≠ [] := hg.wf.ne
  have hlo : ∀ x ∈ c.knots, c.b0 ≤ x := by
    intro x hx
    obtain ⟨i, hi, e⟩ := List.getElem_of_mem hx
    rw [← h0, ← e, ← kf_of_lt hi]
    exact kf_mono hg.wf.sorted (Nat.zero_le i)
  have hhi : ∀ x ∈ c.knots, x ≤ c.b1 := by
    intro x hx
    obtain ⟨i, hi, e⟩ := List.getElem_of_mem hx
    rw [← h1, ← e, ← kf_of_lt hi]
    unfold kLast
    exact kf_mono hg.wf.sorted (by omega)
  constructor
  · refine kf_ge_first hg'.wf.sorted ?_ ?_
    · intro x hx
      rcases List.mem_append.mp (hperm.mem_iff.mp hx) with h | h
      · exact (hin x h).1.le
      · exact hlo x h
    · refine hperm.mem_iff.mpr (List.mem_append_right _ ?_)
      rw [← h0]; exact kf_mem hne 0
  · refine kf_le_last hg'.wf.sorted ?_ ?_
    · intro x hx
      rcases List.mem_append.mp (hperm.mem_iff.mp hx) with h | h
      · exact (hin x h).2.1.le
      · exact hhi x h
    · refine hperm.mem_iff.mpr (List.mem_append_right _ ?_)
      rw [← h1]; exact kf_mem hne _

/-! ## The candidate of a turn -/

/-- `x` is inside a span of the knots, at more than the given fraction of its length from both ends. -/
def Spec.Inside (frac : K) (k : List K) (x : K) : Prop :=
  ∃ i, i + 1 < k.length ∧ frac * (kf k (i + 1) - kf k i) < x - kf k i ∧ frac * (kf k (i + 1) - kf k i) < kf k (i + 1) - x

theorem inside_strict {frac : K} (hf : 0 ≤ frac) {k : List K} (hk : k.Pairwise (· ≤ ·)) {x : K} {i : ℕ}
    (h1 : frac * (kf k (i + 1) - kf k i) < x - kf k i) (h2 : frac * (kf k (i + 1) - kf k i) < kf k (i + 1) - x) : kf k i < x ∧ x < kf k (i + 1) := by
  have : 0 ≤ frac * (kf k (i + 1) - kf k i) := mul_nonneg hf (sub_nonneg.mpr (kf_mono hk (Nat.le_succ i)))
  exact ⟨by linarith, by linarith⟩

theorem inside_lowerBound {k : List K} (hk : k.Pairwise (· ≤ ·)) {x : K} {i : ℕ} (hi : i + 1 < k.length) (h1 : kf k i < x) (h2 : x < kf k (i + 1)) :
    lowerBound k x = i + 1 := by
  have hm := kf_mono hk
  rcases lt_trichotomy (lowerBound k x) (i + 1) with h | h | h
  · have := le_kf_lowerBound (U := k) (u := x) (by omega)
    have := hm (show lowerBound k x ≤ i by omega)
    exact absurd h1 (not_lt.mpr (by linarith))
  · exact h
  · exact absurd (kf_lt_of_lt_lowerBound h) (not_lt.mpr h2.le)

theorem inside_notMem {frac : K} (hf : 0 ≤ frac) {k : List K} (hk : k.Pairwise (· ≤ ·)) {x : K} (h : Spec.Inside frac k x) : x ∉ k := by
  obtain ⟨i, hi, h1, h2⟩ := h
  obtain ⟨a, b⟩ := inside_strict hf hk h1 h2
  intro hx
  obtain ⟨j, hj, e⟩ := List.getElem_of_mem hx
  rw [← kf_of_lt hj] at e
  by_cases hij : j ≤ i
  · have := kf_mono hk hij
    rw [e] at this
    exact absurd a (not_lt.mpr this)
  · have := kf_mono hk (show i + 1 ≤ j by omega)
    rw [e] at this
    exact absurd b (not_lt.mpr this)

/-- The test of the code. -/
theorem inside_iff {frac : K} (hf : 0 ≤ frac) {k : List K} (hk : k.Pairwise (· ≤ ·)) {x : K} :
    Spec.Inside frac k x ↔ lowerBound k x ≠ k.length ∧ lowerBound k x ≠ 0 ∧ kf k (lowerBound k x - 1) < kf k (lowerBound k x) ∧
      frac < (x - kf k (lowerBound k x - 1)) / (kf k (lowerBound k x) - kf k (lowerBound k x - 1)) ∧
      frac < (kf k (lowerBound k x) - x) / (kf k (lowerBound k x) - kf k (lowerBound k x - 1)) := by
  constructor
  · rintro ⟨i, hi, h1, h2⟩
    obtain ⟨a, b⟩ := inside_strict hf hk h1 h2
    rw [inside_lowerBound hk hi a b, Nat.add_sub_cancel]
    have : 0 < kf k (i + 1) - kf k i := by linarith
    refine ⟨by omega, by omega, by linarith, ?_, ?_⟩
    · rw [lt_div_iff₀ this]; exact h1
    · rw [lt_div_iff₀ this]; exact h2
  · rintro ⟨h1, h2, h3, h4, h5⟩
    have hl := lowerBound_le k x
    have hd : 0 < kf k (lowerBound k x) - kf k (lowerBound k x - 1) := by linarith
    refine ⟨lowerBound k x - 1, by omega, ?_, ?_⟩
    · rw [show lowerBound k x - 1 + 1 = lowerBound k x by omega]; exact (lt_div_iff₀ hd).mp h4
    · rw [show lowerBound k x - 1 + 1 = lowerBound k x by omega]; exact (lt_div_iff₀ hd).mp h5

/-- What a pass over the points knows after the first `i` of them, for the distances `d`. -/
structure ScanInv (frac : K) (k u : List K) (d : ℕ → K) (i : ℕ) (s : RefineScan K) : Prop where
  sum : s.sum = ∑ j ∈ Finset.range i, d j
  ub : ∀ j, j < i → d j ≤ s.max
  max : s.max = 0 ∨ ∃ j, j < i ∧ s.max = d j
  worst : ∀ j, j < i → Spec.Inside frac k (kf u j) → d j ≤ s.ins
  cand : (s.ins = 0 ∧ s.uMax = -1) ∨ ∃ j, j < i ∧ Spec.Inside frac k (kf u j) ∧ s.ins = d j ∧ s.uMax = kf u j ∧ 0 < d j

theorem refineScan_spec {eps junk : K} {norm : V → K} {frac : K} (hf : 0 ≤ frac) {Q : List V} {u : List K} (hlen : Q.length = u.length)
    {c : Curve K V} (hk : c.knots.Pairwise (· ≤ ·)) {x : ℕ → V} (hx : ∀ j, j < u.length → c.value eps junk (kf u j) 0 = .ok (x j)) :
    ∃ s, refineScan eps junk norm frac Q u c = .ok s ∧ ScanInv frac c.knots u (fun j => norm (x j - pf Q j)) Q.length s := by
  unfold refineScan
  refine forLt_inv (ScanInv frac c.knots u (fun j => norm (x j - pf Q j))) (Nat.zero_le _) ?_ ?_
  · exact ⟨by simp, by intro j hj; omega, Or.inl rfl, by intro j hj; omega, Or.inl ⟨rfl, rfl⟩⟩
  · intro i s _ hi ⟨h1, h2, h3, h4, h5⟩
    set d := norm (x i - pf Q i) with hd
    rw [rd_kf (by omega), R_bind_ok, hx i (by omega), R_bind_ok, rd_pf hi, R_bind_ok, ← hd]
    have base : ∀ s' : RefineScan K, s'.sum = s.sum + d → s'.max = (if s.max < d then d else s.max) →
        s'.sum = (∑ j ∈ Finset.range (i + 1), norm (x j - pf Q j)) ∧ (∀ j, j < i + 1 → norm (x j - pf Q j) ≤ s'.max) ∧
          (s'.max = 0 ∨ ∃ j, j < i + 1 ∧ s'.max = norm (x j - pf Q j)) := by
      intro s' e1 e2
      refine ⟨by rw [e1, h1, Finset.sum_range_succ], ?_, ?_⟩
      · intro j hj
        rw [e2]
        by_cases hji : j = i
        · subst hji
          split_ifs with h
          · exact le_rfl
          · exact not_lt.mp h
        · have := h2 j (by omega)
          split_ifs with h
          · exact this.trans h.le
          · exact this
      · rw [e2]
        split_ifs with h
        · exact Or.inr ⟨i, by omega, rfl⟩
        · rcases h3 with h3 | ⟨j, hj, e⟩
          · exact Or.inl h3
          · exact Or.inr ⟨j, by omega, e⟩
    have keepCand : (s.ins = 0 ∧ s.uMax = -1) ∨ ∃ j, j < i + 1 ∧ Spec.Inside frac c.knots (kf u j) ∧ s.ins = norm (x j - pf Q j) ∧
        s.uMax = kf u j ∧ 0 < norm (x j - pf Q j) := by
      rcases h5 with h5 | ⟨j, hj, h⟩
      · exact Or.inl h5
      · exact Or.inr ⟨j, by omega, h⟩
    have keep : ∀ (_ : Spec.Inside frac c.knots (kf u i) → d ≤ s.ins), ScanInv frac c.knots u (fun j => norm (x j - pf Q j)) (i + 1)
        { s with sum := s.sum + d, max := if s.max < d then d else s.max } := by
      intro hi'
      obtain ⟨a, b, e⟩ := base { s with sum := s.sum + d, max := if s.max < d then d else s.max } rfl rfl
      refine ⟨a, b, e, ?_, keepCand⟩
      intro j hj hin
      by_cases hji : j = i
      · subst hji; exact hi' hin
      · exact h4 j (by omega) hin
    dsimp only
    by_cases hins : s.ins < d
    · rw [if_pos hins]
      by_cases ht : Spec.Inside frac c.knots (kf u i)
      · obtain ⟨t1, t2, t3, t4, t5⟩ := (inside_iff hf hk).mp ht
        have hl := lowerBound_le c.knots (kf u i)
        have hne : kf c.knots (lowerBound c.knots (kf u i)) - kf c.knots (lowerBound c.knots (kf u i) - 1) ≠ 0 := by
          intro h; linarith
        rw [if_neg (by omega), rd_kf (by omega), R_bind_ok, rd_kf (by omega), R_bind_ok, if_neg (not_le.mpr t3), fdiv_ok hne, R_bind_ok,
          fdiv_ok hne, R_bind_ok, if_pos ⟨t4, t5⟩]
        refine ⟨_, rfl, ?_⟩
        obtain ⟨a, b, e⟩ := base { s with sum := s.sum + d, max := (if s.max < d then d else s.max), ins := d, uMax := kf u i } rfl rfl
        have hpos : 0 < d := by
          rcases h5 with ⟨h5, -⟩ | ⟨j, hj, -, h, -, h'⟩
          · rw [h5] at hins; exact hins
          · rw [h] at hins; exact h'.trans hins
        refine ⟨a, b, e, ?_, Or.inr ⟨i, by omega, ht, rfl, rfl, hpos⟩⟩
        intro j hj hin
        by_cases hji : j = i
        · subst hji; exact le_rfl
        · exact (h4 j (by omega) hin).trans hins.le
      · refine ⟨_, ?_, keep fun h => absurd h ht⟩
        have hn := mt (inside_iff hf hk).mpr ht
        have hl := lowerBound_le c.knots (kf u i)
        by_cases t1 : lowerBound c.knots (kf u i) = c.knots.length ∨ lowerBound c.knots (kf u i) = 0
        · rw [if_pos t1]; rfl
        · rw [if_neg t1, rd_kf (by omega), R_bind_ok, rd_kf (by omega), R_bind_ok]
          by_cases t2 : kf c.knots (lowerBound c.knots (kf u i)) ≤ kf c.knots (lowerBound c.knots (kf u i) - 1)
          · rw [if_pos t2]; rfl
          · have hne : kf c.knots (lowerBound c.knots (kf u i)) - kf c.knots (lowerBound c.knots (kf u i) - 1) ≠ 0 := by
              intro h; apply t2; linarith
            rw [if_neg t2, fdiv_ok hne, R_bind_ok, fdiv_ok hne, R_bind_ok, if_neg]
            · rfl
            · intro t3
              exact hn ⟨fun h => t1 (Or.inl h), fun h => t1 (Or.inr h), not_le.mp t2, t3.1, t3.2⟩
    · rw [if_neg hins]
      exact ⟨_, rfl, keep fun _ => not_lt.mp hins⟩

/-! ## The loop -/

theorem insertIdx_take_drop {α : Type} (x : α) : ∀ (i : ℕ) (l : List α), i ≤ l.length → l.insertIdx i x = l.take i ++ x :: l.drop i
  | 0, l, _ => by simp
  | i + 1, [], h => by simp at h
  | i + 1, a :: l, h => by
    rw [List.insertIdx_succ_cons, insertIdx_take_drop x i l (by simpa using h)]
    rfl

/-- `c'` refines `c` with the knots `ins`, parameters of points that are strictly inside its domain and are no knots of `c`: same degree, same bounds; with new knots it
has the least sum of squares on its knots as soon as the parameters determine its poles; without, it is `c`. -/
structure Spec.Refined (eps : K) (u : List K) (Q : List (Fin dim → K)) (fix : Bool) (c : Curve K (Fin dim → K)) (ins : List K)
    (c' : Curve K (Fin dim → K)) : Prop where
  nodup : ins.Nodup
  mem : ∀ x ∈ ins, x ∈ u
  inner : ∀ x ∈ ins, c.b0 < x ∧ x < c.b1 ∧ x ∉ c.knots
  good : c'.Good
  deg : c'.deg = c.deg
  lo : c'.b0 = c.b0
  hi : c'.b1 = c.b1
  knots : c'.knots.Perm (ins ++ c.knots)
  poles : c'.poles.length = c.poles.length + ins.length
  same : ins = [] → c' = c
  family : ins ≠ [] → Spec.Family eps c'.knots c.deg Q fix c'
  least : ins ≠ [] → Spec.Determines eps c'.knots c.deg c'.poles.length u →
    Spec.LeastSquares eps u Q (Spec.Family eps c'.knots c.deg Q fix) c'

/-- The distance between the point of the curve at a parameter and the point to approximate. -/
def Spec.Deviation (eps : K) (norm : V → K) (u : List K) (Q : List V) (c : Curve K V) (j : ℕ) (d : K) : Prop :=
  ∃ x, (∀ junk, c.value eps junk (kf u j) 0 = .ok x) ∧ d = norm (x - pf Q j)

/-- The point `j` is away from the curve, at a parameter inside a span, and none of the points inside a span is farther. -/
def Spec.Worst (eps : K) (norm : V → K) (frac : K) (u : List K) (Q : List V) (c : Curve K V) (j : ℕ) : Prop :=
  j < Q.length ∧ Spec.Inside frac c.knots (kf u j) ∧ ∃ d, Spec.Deviation eps norm u Q c j d ∧ 0 < d ∧
    ∀ j' d', j' < Q.length → Spec.Inside frac c.knots (kf u j') → Spec.Deviation eps norm u Q c j' d' → d' ≤ d

/-- The hypotheses on the data of a refinement. -/
structure Spec.RefineData (u : List K) (Q : List (Fin dim → K)) (fix : Bool) (c : Curve K (Fin dim → K)) : Prop where
  good : c.Good
  deg1 : 1 ≤ c.deg
  deg2 : c.deg ≤ stackMaxDegree
  clamped0 : kf c.knots 0 = c.b0
  clamped1 : kLast c.knots = c.b1
  len : Q.length = u.length
  dom : ∀ x ∈ u, c.b0 ≤ x ∧ x ≤ c.b1
  ends : fix = true → kf u 0 = c.b0 ∧ kf u (u.length - 1) = c.b1

section loop
variable {eps : K} {u : List K} {Q : List (Fin dim → K)} {fix : Bool} {c : Curve K (Fin dim → K)}

theorem Refined.refl (hd : c.Good) : Spec.Refined eps u Q fix c [] c :=
  ⟨List.nodup_nil, by simp, by simp, hd, rfl, rfl, rfl, by simp, by simp, fun _ => rfl, fun h => absurd rfl h, fun h => absurd rfl h⟩

theorem dev_exists (heps : 0 < eps) {c : Curve K V} (hg : c.Good) (hp : c.deg ≤ stackMaxDegree) (hin : ∀ x ∈ u, c.b0 ≤ x ∧ x ≤ c.b1) :
    ∃ x : ℕ → V, ∀ j, j < u.length → ∀ junk, c.value eps junk (kf u j) 0 = .ok (x j) := by
  obtain ⟨sp, hsp⟩ := exists_spans (OnKnots.kwf (⟨hg, rfl, rfl⟩ : Spec.OnKnots c.knots c.deg c)) u
  refine ⟨fun j => ∑ r ∈ Finset.range c.poles.length, coll c.knots u c.deg 1 sp j r • pf c.poles r, ?_⟩
  intro j hj junk
  have hmem : kf u j ∈ u := kf_mem (by intro h; rw [h] at hj; simp at hj) j
  exact value_coll heps hg hp hsp hj (hin _ hmem).1 (hin _ hmem).2 junk

/-- One turn: either there is no candidate, or one of the worst has a negative parameter, and the loop is left, or the parameter of one of the worst is
inserted and the points are approximated on the new knots. -/
theorem refineTurn_spec (heps : 0 < eps) (junk : K) {norm : (Fin dim → K) → K} {frac : K} (hf : 0 ≤ frac)
    {dense : ℕ → (ℕ → ℕ → K) → List (Fin dim → K) → R (List (Fin dim → K))} (hS : Spec.SolvesDense dense) (hA : Spec.AnswersDense dense)
    (hD : Spec.RefineData u Q fix c) {ins : List K} {c1 : Curve K (Fin dim → K)} (h : Spec.Refined eps u Q fix c ins c1)
    (hn : c1.poles.length < Q.length) (dMax dAvg : K) :
    ((∀ j, ¬ Spec.Worst eps norm frac u Q c1 j) ∧
      refineTurn eps junk norm frac dense Q u fix dMax dAvg c.deg c1.poles.length c1 = .ok (c1, c1.poles.length, true)) ∨
    ∃ j, Spec.Worst eps norm frac u Q c1 j ∧
      ((kf u j < 0 ∧ refineTurn eps junk norm frac dense Q u fix dMax dAvg c.deg c1.poles.length c1 = .ok (c1, c1.poles.length, true)) ∨
      (0 ≤ kf u j ∧ ∃ c2 stop, refineTurn eps junk norm frac dense Q u fix dMax dAvg c.deg c1.poles.length c1 = .ok (c2, c2.poles.length, stop) ∧
        Spec.Refined eps u Q fix c (kf u j :: ins) c2 ∧ (5 ≤ Q.length → stop = false → c2.poles.length < Q.length - 5))) := by
  have hsort := h.good.wf.sorted
  have hdom : ∀ x ∈ u, c1.b0 ≤ x ∧ x ≤ c1.b1 := by rw [h.lo, h.hi]; exact hD.dom
  obtain ⟨x, hx⟩ := dev_exists heps h.good (by rw [h.deg]; exact hD.deg2) hdom
  obtain ⟨s, es, hs⟩ := refineScan_spec (norm := norm) hf hD.len (c := c1) hsort (eps := eps) (junk := junk) (fun j hj => hx j hj junk)
  have hdev : ∀ j d, j < Q.length → (Spec.Deviation eps norm u Q c1 j d ↔ d = norm (x j - pf Q j)) := by
    intro j d hj
    have hju : j < u.length := by rw [← hD.len]; exact hj
    constructor
    · rintro ⟨y, hy, rfl⟩
      have := hy junk
      rw [hx j hju junk] at this
      rw [Except.ok.inj this]
    · intro e
      exact ⟨x j, hx j hju, e⟩
  rcases hs.cand with ⟨hi, hu⟩ | ⟨j, hj, hin, hi, hu, hpos⟩
  · left
    constructor
    · rintro j ⟨hj, hin, d, hd, hpos, -⟩
      rw [hdev j d hj] at hd
      have := hs.worst j hj hin
      rw [hi] at this
      rw [← hd] at this
      exact absurd hpos (not_lt.mpr this)
    · unfold refineTurn
      rw [es, R_bind_ok, hu, if_pos (by linarith [show (0 : K) < 1 from one_pos])]
      rfl
  · right
    have hw : Spec.Worst eps norm frac u Q c1 j := by
      refine ⟨hj, hin, _, (hdev j _ hj).mpr rfl, hpos, ?_⟩
      intro j' d' hj' hin' hd'
      rw [hdev j' d' hj'] at hd'
      have := hs.worst j' hj' hin'
      rw [hi] at this
      rw [hd']; exact this
    refine ⟨j, hw, ?_⟩
    by_cases hneg : kf u j < 0
    · left
      refine ⟨hneg, ?_⟩
      unfold refineTurn
      rw [es, R_bind_ok, hu, if_pos hneg]
      rfl
    right
    refine ⟨not_lt.mp hneg, ?_⟩
    have hjl : j < u.length := by rw [← hD.len]; exact hj
    have hmem : kf u j ∈ u := kf_mem (by intro h; rw [h] at hjl; simp at hjl) j
    have hnot := inside_notMem hf hsort hin
    set v := kf u j with hv
    set k := c1.knots.insertIdx (lowerBound c1.knots v) v with hk
    have hperm1 : k.Perm (v :: c1.knots) := List.perm_insertIdx _ _ (lowerBound_le _ _)
    have hperm : k.Perm ((v :: ins) ++ c.knots) := hperm1.trans (h.knots.cons v)
    have hks : k.Pairwise (· ≤ ·) := by
      obtain ⟨i, hi1, q1, q2⟩ := hin
      obtain ⟨a, b⟩ := inside_strict hf hsort q1 q2
      rw [hk, insertIdx_take_drop _ _ _ (lowerBound_le _ _), List.pairwise_append, inside_lowerBound hsort hi1 a b]
      refine ⟨hsort.sublist (List.take_sublist _ _), ?_, ?_⟩
      · rw [List.pairwise_cons]
        refine ⟨?_, hsort.sublist (List.drop_sublist _ _)⟩
        intro y hy
        obtain ⟨t, ht, e⟩ := List.getElem_of_mem hy
        rw [List.getElem_drop, ← kf_of_lt (by rw [List.length_drop] at ht; omega)] at e
        rw [← e]
        exact b.le.trans (kf_mono hsort (by omega))
      · intro y hy z hz
        obtain ⟨t, ht, e⟩ := List.getElem_of_mem hy
        rw [List.getElem_take, ← kf_of_lt (by rw [List.length_take] at ht; omega)] at e
        rw [List.length_take] at ht
        have hyv : y ≤ v := by rw [← e]; exact (kf_mono hsort (by omega)).trans a.le
        rcases List.mem_cons.mp hz with rfl | hz
        · exact hyv
        · obtain ⟨t', ht', e'⟩ := List.getElem_of_mem hz
          rw [List.getElem_drop, ← kf_of_lt (by rw [List.length_drop] at ht'; omega)] at e'
          rw [← e']
          exact hyv.trans (b.le.trans (kf_mono hsort (by omega)))
    have hcmem : ∀ y ∈ c.knots, y ∈ c1.knots := fun y hy => h.knots.mem_iff.mpr (List.mem_append_right _ hy)
    have hvdom : c.b0 < v ∧ v < c.b1 := by
      have h1 : c1.b0 ∈ c1.knots := by rw [h.good.lo]; exact kf_mem h.good.wf.ne _
      have h2 : c1.b1 ∈ c1.knots := by rw [h.good.hi]; exact kf_mem h.good.wf.ne _
      rw [h.lo] at h1
      rw [h.hi] at h2
      refine ⟨lt_of_le_of_ne (hD.dom _ hmem).1 ?_, lt_of_le_of_ne (hD.dom _ hmem).2 ?_⟩
      · intro e; rw [e] at h1; exact hnot h1
      · intro e; rw [← e] at h2; exact hnot h2
    have hnd : (v :: ins).Nodup := by
      rw [List.nodup_cons]
      exact ⟨fun hm => hnot (h.knots.mem_iff.mpr (List.mem_append_left _ hm)), h.nodup⟩
    have hinner : ∀ y ∈ v :: ins, c.b0 < y ∧ y < c.b1 ∧ y ∉ c.knots := by
      intro y hy
      rcases List.mem_cons.mp hy with rfl | hy
      · exact ⟨hvdom.1, hvdom.2, fun hm => hnot (hcmem _ hm)⟩
      · exact h.inner y hy
    obtain ⟨cn, on, n0, n1, nl, -⟩ := nested_curve heps hD.deg1 hD.deg2 (v :: ins) hD.good rfl hnd hinner hks hperm
    have hU := OnKnots.kwf on
    have hlen : cn.poles.length = c1.poles.length + 1 := by rw [nl, h.poles]; simp; omega
    rw [hlen] at hU
    have hlo : kf k c.deg = c.b0 := by
      have := on.good.lo
      rw [on.knots, on.deg, n0] at this
      exact this.symm
    have hhi : kf k (c1.poles.length + 1) = c.b1 := by
      have := on.good.hi
      rw [on.knots, hlen, n1] at this
      exact this.symm
    obtain ⟨z0, z1⟩ := nested_clamped hD.good on.good hD.clamped0 hD.clamped1 hinner (by rw [on.knots]; exact hperm)
    rw [on.knots] at z0 z1
    obtain ⟨c2, e2, f2⟩ := approxWith_total heps junk hD.deg1 hD.deg2 hU (z0.trans hlo.symm) (z1.trans hhi.symm) hD.len (by omega) fix hA
    have hl2 := OnKnots.poles hU f2.1
    have hQ : (Q.length : K) ≠ 0 := by exact_mod_cast (by omega : Q.length ≠ 0)
    have eturn : refineTurn eps junk norm frac dense Q u fix dMax dAvg c.deg c1.poles.length c1 = .ok (c2, c2.poles.length,
        decide ((s.max < dMax ∧ s.sum / (Q.length : K) < dAvg) ∨ (5 ≤ Q.length ∧ Q.length - 5 ≤ c1.poles.length + 1))) := by
      unfold refineTurn
      rw [es, R_bind_ok, hu, if_neg hneg, fdiv_ok hQ, R_bind_ok]
      dsimp only
      rw [← hk, e2, R_bind_ok, hl2]
      rfl
    refine ⟨c2, _, eturn, ?_, ?_⟩
    · refine ⟨hnd, ?_, hinner, f2.1.good, f2.1.deg, ?_, ?_, ?_, ?_, ?_, ?_, ?_⟩
      · intro y hy
        rcases List.mem_cons.mp hy with rfl | hy
        · exact hmem
        · exact h.mem y hy
      · rw [f2.1.good.lo, f2.1.knots, f2.1.deg, hlo]
      · rw [f2.1.good.hi, f2.1.knots, hl2, hhi]
      · rw [f2.1.knots]; exact hperm
      · rw [hl2, h.poles]; simp; omega
      · intro he; cases he
      · intro _; rw [f2.1.knots]; exact f2
      · intro _ hdet
        rw [f2.1.knots, hl2] at hdet
        rw [f2.1.knots]
        obtain ⟨c3, e3, h3⟩ := C78_approx_with heps junk hD.deg1 hD.deg2 hU (z0.trans hlo.symm) (z1.trans hhi.symm) hD.len (by omega)
          (by rw [hlo, hhi]; exact hD.dom) (fix := fix) (by rw [hlo, hhi]; exact hD.ends) hdet hS
        rw [e2] at e3
        rw [Except.ok.inj e3]
        exact h3
    · intro h5 hstop
      rw [decide_eq_false_iff_not, not_or] at hstop
      rw [hl2]
      have := hstop.2
      omega

/-- The state of the loop. -/
def LoopInv (eps : K) (u : List K) (Q : List (Fin dim → K)) (fix : Bool) (c : Curve K (Fin dim → K)) (I : List K → Prop) (i : ℕ)
    (s : Curve K (Fin dim → K) × ℕ × Bool) : Prop :=
  s.2.1 = s.1.poles.length ∧ ∃ ins, Spec.Refined eps u Q fix c ins s.1 ∧ ins.length ≤ i ∧
    s.1.poles.length ≤ max (c.poles.length + 1) (Q.length - 5) ∧ (s.2.2 = false → ins = [] ∨ s.1.poles.length < Q.length - 5) ∧
    (s.2.2 = true → ins = [] → I []) ∧ (s.2.2 = false → ins = [] → i = 0) ∧ (ins ≠ [] → I ins)

/-- The loop, for any property `I` of the inserted knots that the first turn gives and the next ones keep. -/
theorem refineApprox_inv (heps : 0 < eps) (junk : K) {norm : (Fin dim → K) → K} {frac : K} (hf : 0 ≤ frac)
    {dense : ℕ → (ℕ → ℕ → K) → List (Fin dim → K) → R (List (Fin dim → K))} (hS : Spec.SolvesDense dense) (hA : Spec.AnswersDense dense)
    (hD : Spec.RefineData u Q fix c) (hn : c.poles.length < Q.length) (h5 : 5 ≤ Q.length) (dMax dAvg : K) (nMax : ℕ) (I : List K → Prop)
    (hnil : (∀ j, ¬ Spec.Worst eps norm frac u Q c j) → I []) (hneg : ∀ j, Spec.Worst eps norm frac u Q c j → kf u j < 0 → I [])
    (hone : ∀ j, Spec.Worst eps norm frac u Q c j → 0 ≤ kf u j → I [kf u j]) (hcons : ∀ x ins, ins ≠ [] → I ins → I (x :: ins)) :
    ∃ c' ins, refineApprox eps junk norm frac dense Q u c fix dMax dAvg nMax = .ok c' ∧ Spec.Refined eps u Q fix c ins c' ∧ ins.length ≤ nMax ∧
      c'.poles.length ≤ max (c.poles.length + 1) (Q.length - 5) ∧ (1 ≤ nMax → I ins) := by
  obtain ⟨s, e, hs⟩ := forLt_inv (LoopInv eps u Q fix c I) (a := 0) (b := nMax) (s := (c, c.poles.length, false))
    (body := fun _ (s : Curve K (Fin dim → K) × ℕ × Bool) =>
      if s.2.2 then pure s else refineTurn eps junk norm frac dense Q u fix dMax dAvg c.deg s.2.1 s.1) (Nat.zero_le _)
    ⟨rfl, [], Refined.refl hD.good, by simp, by show c.poles.length ≤ _; omega, fun _ => Or.inl rfl, by simp, fun _ _ => rfl, fun h => absurd rfl h⟩
    (by
      rintro i ⟨c1, np, stop⟩ - hi ⟨hnp, ins, hr, hil, hcap, hgo, hst, hz, hI⟩
      dsimp only at hnp hr hcap hgo hst hz ⊢
      subst hnp
      cases stop with
      | true => exact ⟨_, if_pos rfl, rfl, ins, hr, by omega, hcap, by simp, hst, by simp, hI⟩
      | false =>
        rw [if_neg (by simp)]
        have hlt : c1.poles.length < Q.length := by
          rcases hgo rfl with h | h
          · rw [hr.same h]; exact hn
          · omega
        rcases refineTurn_spec heps junk (norm := norm) hf hS hA hD hr hlt dMax dAvg with ⟨hno, e⟩ | ⟨j, hw, ⟨hj, e⟩ | ⟨hj, c2, stop, e, h2, hgo2⟩⟩
        · refine ⟨_, e, rfl, ins, hr, by omega, hcap, by simp, ?_, by simp, hI⟩
          intro _ h0
          rw [hr.same h0] at hno
          exact hnil hno
        · refine ⟨_, e, rfl, ins, hr, by omega, hcap, by simp, ?_, by simp, hI⟩
          intro _ h0
          rw [hr.same h0] at hw
          exact hneg j hw hj
        · refine ⟨_, e, rfl, kf u j :: ins, h2, by simp; omega, ?_, fun hs => Or.inr (hgo2 h5 hs), by simp, by simp, ?_⟩
          · show c2.poles.length ≤ _
            have l1 := h2.poles
            have l2 := hr.poles
            rw [List.length_cons] at l1
            rcases hgo rfl with h | h
            · rw [h] at l1
              simp at l1
              omega
            · omega
          · intro _
            by_cases h0 : ins = []
            · rw [hr.same h0] at hw
              rw [h0]
              exact hone j hw hj
            · exact hcons _ _ h0 (hI h0))
  obtain ⟨c', np, stop⟩ := s
  obtain ⟨-, ins, hr, hil, hcap, -, hst, hz, hI⟩ := hs
  refine ⟨c', ins, ?_, hr, hil, hcap, ?_⟩
  · unfold refineApprox
    rw [e, R_bind_ok]
    rfl
  · intro h1
    by_cases h0 : ins = []
    · rw [h0]
      cases stop with
      | true => exact hst rfl h0
      | false =>
        have := hz rfl h0
        omega
    · exact hI h0

end loop

/-- C79: `refine_approx` ends for any tolerances and any number of turns, with a refinement of the given curve: at most `n_max` knots are inserted, each
at the parameter of a point, and the number of poles stays under the number of points less five, except for the first one. -/
theorem C79_refine {eps : K} {u : List K} {Q : List (Fin dim → K)} {fix : Bool} {c : Curve K (Fin dim → K)} (heps : 0 < eps) (junk : K)
    {norm : (Fin dim → K) → K} {frac : K} (hf : 0 ≤ frac) {dense : ℕ → (ℕ → ℕ → K) → List (Fin dim → K) → R (List (Fin dim → K))}
    (hS : Spec.SolvesDense dense) (hA : Spec.AnswersDense dense) (hD : Spec.RefineData u Q fix c) (hn : c.poles.length < Q.length)
    (h5 : 5 ≤ Q.length) (dMax dAvg : K) (nMax : ℕ) :
    ∃ c' ins, refineApprox eps junk norm frac dense Q u c fix dMax dAvg nMax = .ok c' ∧ Spec.Refined eps u Q fix c ins c' ∧ ins.length ≤ nMax ∧
      c'.poles.length ≤ max (c.poles.length + 1) (Q.length - 5) := by
  obtain ⟨c', ins, e, h, hl, hcap, -⟩ := refineApprox_inv heps junk (norm := norm) hf hS hA hD hn h5 dMax dAvg nMax (fun _ => True)
    (fun _ => trivial) (fun _ _ _ => trivial) (fun _ _ _ => trivial) (fun _ _ _ _ => trivial)
  exact ⟨c', ins, e, h, hl, hcap⟩

/-- C79: a refinement is not farther from the points than the given curve, when the parameters determine its poles. -/
theorem C79_refine_not_worse {eps : K} {u : List K} {Q : List (Fin dim → K)} {fix : Bool} {c : Curve K (Fin dim → K)} (heps : 0 < eps) (junk : K)
    {norm : (Fin dim → K) → K} {frac : K} (hf : 0 ≤ frac) {dense : ℕ → (ℕ → ℕ → K) → List (Fin dim → K) → R (List (Fin dim → K))}
    (hS : Spec.SolvesDense dense) (hA : Spec.AnswersDense dense) (hD : Spec.RefineData u Q fix c) (hn : c.poles.length < Q.length)
    (h5 : 5 ≤ Q.length) (dMax dAvg : K) (nMax : ℕ) (hfam : Spec.Family eps c.knots c.deg Q fix c) :
    ∃ c', refineApprox eps junk norm frac dense Q u c fix dMax dAvg nMax = .ok c' ∧
      (Spec.Determines eps c'.knots c.deg c'.poles.length u → ∃ s s', Spec.SquareSum eps u Q c s ∧ Spec.SquareSum eps u Q c' s' ∧ s' ≤ s) := by
  obtain ⟨c', ins, e, h, -, -⟩ := C79_refine heps junk (norm := norm) hf hS hA hD hn h5 dMax dAvg nMax
  refine ⟨c', e, ?_⟩
  intro hdet
  by_cases h0 : ins = []
  · obtain rfl := h.same h0
    obtain ⟨x, hx⟩ := dev_exists heps h.good hD.deg2 hD.dom
    have hs : Spec.SquareSum eps u Q c' (∑ i ∈ Finset.range u.length, Spec.sqDist (pf ((List.range u.length).map x) i) (pf Q i)) :=
      ⟨_, fun i hi j => by rw [hx i hi, pf_map_range x hi], rfl⟩
    exact ⟨_, _, hs, hs, le_rfl⟩
  · obtain ⟨-, s', hs', hmin⟩ := h.least h0 hdet
    obtain ⟨cn, on, n0, n1, nl, nv⟩ := nested_curve heps hD.deg1 hD.deg2 ins hD.good rfl h.nodup h.inner h.good.wf.sorted h.knots
    have hval : ∀ v, c.b0 ≤ v → v ≤ c.b1 → ∀ j, cn.value eps j v 0 = c.value eps j v 0 := by
      intro v h1 h2 j
      obtain ⟨pt, e1, e2⟩ := nv v h1 h2 j j
      rw [e1, e2]
    have hb : c.b0 ≤ c.b1 := by
      rw [hD.good.lo, hD.good.hi]
      have := hD.good.wf.min
      exact kf_mono hD.good.wf.sorted (by omega)
    obtain ⟨s, ⟨X, hX, es⟩, hle, -⟩ := hmin cn ⟨on, by
      intro hf j
      rw [n0, n1, hval _ le_rfl hb, hval _ hb le_rfl]
      exact hfam.2 hf j⟩
    refine ⟨s, s', ⟨X, ?_, es⟩, hs', hle⟩
    intro i hi j
    have hmem : kf u i ∈ u := kf_mem (by intro h; rw [h] at hi; simp at hi) i
    rw [← hval _ (hD.dom _ hmem).1 (hD.dom _ hmem).2]
    exact hX i hi j

theorem exists_worst {eps : K} (heps : 0 < eps) {norm : (Fin dim → K) → K} {frac : K} {u : List K} {Q : List (Fin dim → K)} {fix : Bool}
    {c : Curve K (Fin dim → K)} (hD : Spec.RefineData u Q fix c) {j : ℕ} {d : K} (hj : j < Q.length) (hin : Spec.Inside frac c.knots (kf u j))
    (hd : Spec.Deviation eps norm u Q c j d) (hpos : 0 < d) : ∃ j, Spec.Worst eps norm frac u Q c j := by
  classical
  obtain ⟨x, hx⟩ := dev_exists heps hD.good hD.deg2 hD.dom
  have hdev : ∀ j d, j < Q.length → Spec.Deviation eps norm u Q c j d → d = norm (x j - pf Q j) := by
    rintro j d hj ⟨y, hy, rfl⟩
    have := hy 0
    rw [hx j (by rw [← hD.len]; exact hj) 0] at this
    rw [Except.ok.inj this]
  obtain ⟨m, hm, hmax⟩ := Finset.exists_max_image ((Finset.range Q.length).filter fun j => Spec.Inside frac c.knots (kf u j))
    (fun j => norm (x j - pf Q j)) ⟨j, Finset.mem_filter.mpr ⟨Finset.mem_range.mpr hj, hin⟩⟩
  rw [Finset.mem_filter, Finset.mem_range] at hm
  refine ⟨m, hm.1, hm.2, norm (x m - pf Q m), ⟨x m, hx m (by rw [← hD.len]; exact hm.1), rfl⟩, ?_, ?_⟩
  · have := hmax j (Finset.mem_filter.mpr ⟨Finset.mem_range.mpr hj, hin⟩)
    rw [hdev j d hj hd] at hpos
    exact lt_of_lt_of_le hpos this
  · intro j' d' hj' hin' hd'
    rw [hdev j' d' hj' hd']
    exact hmax j' (Finset.mem_filter.mpr ⟨Finset.mem_range.mpr hj', hin'⟩)

/-- C79: for parameters that are not negative, as soon as a point whose parameter is well inside a span is away from the curve, one of the farthest
of these points gives its parameter as a knot of the result. -/
theorem C79_refine_progress_partial {eps : K} {u : List K} {Q : List (Fin dim → K)} {fix : Bool} {c : Curve K (Fin dim → K)} (heps : 0 < eps) (junk : K)
    {norm : (Fin dim → K) → K} {frac : K} (hf : 0 ≤ frac) {dense : ℕ → (ℕ → ℕ → K) → List (Fin dim → K) → R (List (Fin dim → K))}
    (hS : Spec.SolvesDense dense) (hA : Spec.AnswersDense dense) (hD : Spec.RefineData u Q fix c) (hn : c.poles.length < Q.length)
    (h5 : 5 ≤ Q.length) (dMax dAvg : K) {nMax : ℕ} (h1 : 1 ≤ nMax) (hu : ∀ x ∈ u, 0 ≤ x) {j : ℕ} {d : K} (hj : j < Q.length)
    (hin : Spec.Inside frac c.knots (kf u j)) (hd : Spec.Deviation eps norm u Q c j d) (hpos : 0 < d) :
    ∃ c' i, refineApprox eps junk norm frac dense Q u c fix dMax dAvg nMax = .ok c' ∧ Spec.Worst eps norm frac u Q c i ∧ kf u i ∈ c'.knots ∧
      c.poles.length < c'.poles.length := by
  obtain ⟨w, hw⟩ := exists_worst heps hD hj hin hd hpos
  obtain ⟨c', ins, e, h, -, -, hI⟩ := refineApprox_inv heps junk (norm := norm) hf hS hA hD hn h5 dMax dAvg nMax
    (fun ins => ∃ i, Spec.Worst eps norm frac u Q c i ∧ kf u i ∈ ins)
    (fun h => absurd hw (h w))
    (by
      intro i hi hneg
      have : i < u.length := by rw [← hD.len]; exact hi.1
      exact absurd hneg (not_lt.mpr (hu _ (kf_mem (by intro h; rw [h] at this; simp at this) i))))
    (fun i hi _ => ⟨i, hi, by simp⟩) (by rintro x ins - ⟨i, hi, hm⟩; exact ⟨i, hi, by simp [hm]⟩)
  obtain ⟨i, hi, hm⟩ := hI h1
  refine ⟨c', i, e, hi, h.knots.mem_iff.mpr (List.mem_append_left _ hm), ?_⟩
  rw [h.poles]
  have : 0 < ins.length := List.length_pos_of_mem hm
  omega

/-- C79: the curve is returned as it is when no point with a parameter well inside a span is away from it. -/
theorem C79_refine_none {eps : K} {u : List K} {Q : List (Fin dim → K)} {fix : Bool} {c : Curve K (Fin dim → K)} (heps : 0 < eps) (junk : K)
    {norm : (Fin dim → K) → K} {frac : K} (hf : 0 ≤ frac) {dense : ℕ → (ℕ → ℕ → K) → List (Fin dim → K) → R (List (Fin dim → K))}
    (hS : Spec.SolvesDense dense) (hA : Spec.AnswersDense dense) (hD : Spec.RefineData u Q fix c) (hn : c.poles.length < Q.length)
    (h5 : 5 ≤ Q.length) (dMax dAvg : K) (nMax : ℕ)
    (hno : ∀ j d, j < Q.length → Spec.Inside frac c.knots (kf u j) → Spec.Deviation eps norm u Q c j d → d ≤ 0) :
    refineApprox eps junk norm frac dense Q u c fix dMax dAvg nMax = .ok c := by
  have hno' : ∀ j, ¬ Spec.Worst eps norm frac u Q c j := by
    rintro j ⟨hj, hin, d, hd, hpos, -⟩
    exact absurd hpos (not_lt.mpr (hno j d hj hin hd))
  obtain ⟨c', ins, e, h, hl, -, hI⟩ := refineApprox_inv heps junk (norm := norm) hf hS hA hD hn h5 dMax dAvg nMax (fun ins => ins = [])
    (fun _ => rfl) (fun _ _ _ => rfl) (fun j hj _ => absurd hj (hno' j)) (fun x ins hne h => absurd h hne)
  rw [e, h.same]
  by_cases h1 : 1 ≤ nMax
  · exact hI h1
  · exact List.length_eq_zero_iff.mp (by omega)

/-- C79, negation of the claim for negative parameters: the mark of "no candidate" is a negative parameter, so that a curve with a negative domain is never
refined, however far from the points it is. -/
theorem C79_negative_parameters {eps : K} {u : List K} {Q : List (Fin dim → K)} {fix : Bool} {c : Curve K (Fin dim → K)} (heps : 0 < eps) (junk : K)
    {norm : (Fin dim → K) → K} {frac : K} (hf : 0 ≤ frac) {dense : ℕ → (ℕ → ℕ → K) → List (Fin dim → K) → R (List (Fin dim → K))}
    (hS : Spec.SolvesDense dense) (hA : Spec.AnswersDense dense) (hD : Spec.RefineData u Q fix c) (hn : c.poles.length < Q.length)
    (h5 : 5 ≤ Q.length) (dMax dAvg : K) (nMax : ℕ) (hu : ∀ x ∈ u, x < 0) :
    refineApprox eps junk norm frac dense Q u c fix dMax dAvg nMax = .ok c := by
  obtain ⟨c', ins, e, h, hl, -, hI⟩ := refineApprox_inv heps junk (norm := norm) hf hS hA hD hn h5 dMax dAvg nMax (fun ins => ins = [])
    (fun _ => rfl) (fun _ _ _ => rfl)
    (by
      intro j hj h0
      have : j < u.length := by rw [← hD.len]; exact hj.1
      exact absurd (hu _ (kf_mem (by intro h; rw [h] at this; simp at this) j)) (not_lt.mpr h0))
    (fun x ins hne h => absurd h hne)
  rw [e, h.same]
  by_cases h1 : 1 ≤ nMax
  · exact hI h1
  · exact List.length_eq_zero_iff.mp (by omega)

/-- C79, `approx` with refinement: the refinement of the approximation with twice as many poles as the degree. -/
theorem C79_approx_refined {eps : K} (heps : 0 < eps) (junk : K) {p : ℕ} (hp1 : 1 ≤ p) (hp : p ≤ stackMaxDegree)
    {u : List K} {Q : List (Fin dim → K)} (hlen : Q.length = u.length) (hn : 2 * p < Q.length) (h5 : 5 ≤ Q.length) (h01 : kf u 0 < kf u (u.length - 1))
    (hin : ∀ x ∈ u, kf u 0 ≤ x ∧ x ≤ kf u (u.length - 1)) (fix : Bool) {norm : (Fin dim → K) → K} {frac : K} (hf : 0 ≤ frac)
    {dense : ℕ → (ℕ → ℕ → K) → List (Fin dim → K) → R (List (Fin dim → K))} (hS : Spec.SolvesDense dense) (hA : Spec.AnswersDense dense)
    (dMax dAvg : K) (nMax : ℕ) :
    ∃ k, KWf p k (2 * p) ∧ (∀ j, j ≤ p → kf k j = kf u 0) ∧ (∀ j, 2 * p ≤ j → j ≤ 2 * p + p → kf k j = kf u (u.length - 1)) ∧
      (∀ j, 1 ≤ j → j < 2 * p - p → kf k (p + j) = kf u 0 + (kf u (u.length - 1) - kf u 0) * j / ((2 * p - p : ℕ) + 1)) ∧ (Spec.Determines eps k p (2 * p) u →
      ∃ c c' ins, approxRefined eps junk norm frac dense Q u p fix dMax dAvg nMax = .ok c' ∧
        Spec.LeastSquares eps u Q (Spec.Family eps k p Q fix) c ∧ Spec.Refined eps u Q fix c ins c' ∧ ins.length ≤ nMax ∧
        (Spec.Determines eps c'.knots p c'.poles.length u → ∃ s s', Spec.SquareSum eps u Q c s ∧ Spec.SquareSum eps u Q c' s' ∧ s' ≤ s)) := by
  obtain ⟨k, hU, a0, a1, ai, h⟩ := C78_approx_uniform heps junk hp1 hp (n := 2 * p) (by omega) hlen hn.le h01 hin fix hS
  refine ⟨k, hU, a0, a1, ai, ?_⟩
  intro hdet
  obtain ⟨c, e, hc⟩ := h hdet
  have hon := hc.1.1
  have hl := OnKnots.poles hU hon
  have hb0 : c.b0 = kf u 0 := by rw [hon.good.lo, hon.knots, hon.deg]; exact a0 p le_rfl
  have hb1 : c.b1 = kf u (u.length - 1) := by rw [hon.good.hi, hon.knots, hl]; exact a1 _ le_rfl (by omega)
  have hD : Spec.RefineData u Q fix c := by
    refine ⟨hon.good, by rw [hon.deg]; exact hp1, by rw [hon.deg]; exact hp, ?_, ?_, hlen, by rw [hb0, hb1]; exact hin, fun _ => ⟨hb0.symm, hb1.symm⟩⟩
    · rw [hon.knots, hb0]; exact a0 0 (by omega)
    · rw [hon.knots, hb1]
      unfold kLast
      rw [hU.len]
      exact a1 _ (by omega) (by omega)
  obtain ⟨c', ins, e', hr, hil, -⟩ := C79_refine heps junk (norm := norm) hf hS hA hD (by omega) h5 dMax dAvg nMax
  obtain ⟨c'', e'', hs⟩ := C79_refine_not_worse heps junk (norm := norm) hf hS hA hD (by omega) h5 dMax dAvg nMax
    (by rw [hon.knots, hon.deg]; exact hc.1)
  rw [e'] at e''
  obtain rfl := Except.ok.inj e''
  rw [hon.deg] at hs
  refine ⟨c, c', ins, ?_, hc, hr, hil, hs⟩
  unfold approxRefined defaultNPoles
  rw [Nat.mul_comm, e, R_bind_ok, e']

/-- C79: a curve with as many poles as points and a point away from it at a parameter well inside a span cannot be refined: an exception is thrown. -/
theorem C79_as_many_poles_as_points {eps : K} {u : List K} {Q : List (Fin dim → K)} {fix : Bool} {c : Curve K (Fin dim → K)} (heps : 0 < eps) (junk : K)
    {norm : (Fin dim → K) → K} {frac : K} (hf : 0 ≤ frac) (dense : ℕ → (ℕ → ℕ → K) → List (Fin dim → K) → R (List (Fin dim → K)))
    (hD : Spec.RefineData u Q fix c) (hn : Q.length ≤ c.poles.length) (dMax dAvg : K) {nMax : ℕ} (h1 : 1 ≤ nMax) (hu : ∀ x ∈ u, 0 ≤ x) {j : ℕ} {d : K}
    (hj : j < Q.length) (hin : Spec.Inside frac c.knots (kf u j)) (hd : Spec.Deviation eps norm u Q c j d) (hpos : 0 < d) :
    refineApprox eps junk norm frac dense Q u c fix dMax dAvg nMax = .error (.thrown .length) := by
  obtain ⟨x, hx⟩ := dev_exists heps hD.good hD.deg2 hD.dom
  obtain ⟨s, es, hs⟩ := refineScan_spec (norm := norm) hf hD.len (c := c) hD.good.wf.sorted (eps := eps) (junk := junk) (fun j hj => hx j hj junk)
  have hsu : 0 ≤ s.uMax := by
    rcases hs.cand with ⟨hi, -⟩ | ⟨i, hi, -, -, h, -⟩
    · exfalso
      obtain ⟨y, hy, rfl⟩ := hd
      have e := hy junk
      rw [hx j (by rw [← hD.len]; exact hj) junk] at e
      rw [← Except.ok.inj e] at hpos
      have := hs.worst j hj hin
      rw [hi] at this
      exact absurd hpos (not_lt.mpr this)
    · rw [h]
      have : i < u.length := by rw [← hD.len]; exact hi
      exact hu _ (kf_mem (by intro h; rw [h] at this; simp at this) i)
  have hQ : (Q.length : K) ≠ 0 := by exact_mod_cast (by omega : Q.length ≠ 0)
  have eturn : refineTurn eps junk norm frac dense Q u fix dMax dAvg c.deg c.poles.length c = .error (.thrown .length) := by
    unfold refineTurn
    rw [es, R_bind_ok, if_neg (not_lt.mpr hsu), fdiv_ok hQ, R_bind_ok]
    obtain ⟨e1, e2, -⟩ := C78_sizes eps junk dense Q c.deg (c.poles.length + 1) u (c.knots.insertIdx (lowerBound c.knots s.uMax) s.uMax) fix (Or.inr (by omega))
    dsimp only
    unfold approxWith
    cases fix with
    | true => rw [if_pos rfl, e2]; rfl
    | false => rw [if_neg (by simp), e1]; rfl
  obtain ⟨m, rfl⟩ : ∃ m, nMax = m + 1 := ⟨nMax - 1, by omega⟩
  unfold refineApprox
  rw [forLt, Nat.sub_zero, forN, if_neg (by simp), eturn]
  rfl

/-- A solver that always answers, and solves the regular systems. -/
theorem exists_answersDense : ∃ dense : ℕ → (ℕ → ℕ → K) → List V → R (List V), Spec.SolvesDense dense ∧ Spec.AnswersDense dense := by
  obtain ⟨f, hf⟩ := exists_solvesDense (K := K) (V := V)
  classical
  refine ⟨fun n A B => if Spec.Regular n A ∧ B.length = n then f n A B else .ok (List.replicate n 0), ?_, ?_⟩
  · intro n A B hl hR
    dsimp only
    rw [if_pos ⟨hR, hl⟩]
    exact hf n A B hl hR
  · intro n A B hl
    dsimp only
    by_cases h : Spec.Regular n A ∧ B.length = n
    · rw [if_pos h]
      obtain ⟨X, e, hX, -⟩ := hf n A B hl h.1
      exact ⟨X, e, hX⟩
    · rw [if_neg h]
      exact ⟨_, rfl, by simp⟩

/-! ## Examples -/

namespace Sample

/-- A null segment, from `a` to `a + 1`. -/
def reC (a : ℚ) : Curve ℚ (Fin 1 → ℚ) := ⟨1, [![0], ![0]], [a, a, a + 1, a + 1], a, a + 1⟩
def reU (a : ℚ) : List ℚ := [a, a + 1/4, a + 1/2, a + 3/4, a + 1]
def reQ : List (Fin 1 → ℚ) := [![0], ![1], ![2], ![1], ![0]]
def reNorm (v : Fin 1 → ℚ) : ℚ := |v 0|

theorem re_data (a : ℚ) (h : a = 0 ∨ a = -2) (fix : Bool) : Spec.RefineData (reU a) reQ fix (reC a) := by
  rcases h with rfl | rfl
  all_goals
    exact ⟨⟨⟨by decide +kernel, by decide +kernel, by decide +kernel, by decide +kernel, by decide +kernel⟩, by decide +kernel, by decide +kernel⟩,
      by decide +kernel, by decide +kernel, by decide +kernel, by decide +kernel, by decide +kernel, by decide +kernel, fun _ => by decide +kernel⟩

theorem re_inside (a : ℚ) (h : a = 0 ∨ a = -2) : Spec.Inside (1/10) (reC a).knots (kf (reU a) 2) := by
  refine ⟨1, by simp [reC], ?_⟩
  rcases h with rfl | rfl
  all_goals decide +kernel

theorem re_value (a : ℚ) (h : a = 0 ∨ a = -2) {v : ℚ} (h1 : a ≤ v) (h2 : v ≤ a + 1) (junk : ℚ) : (reC a).value (1/1000) junk v 0 = .ok ![0] := by
  have hD := re_data a h false
  obtain ⟨i, -, -, -, -, e⟩ := Curve.value_span (eps := (1/1000 : ℚ)) (by norm_num) hD.good (Or.inl hD.deg2) h1 h2
  rw [e]
  congr 1
  unfold spanDer
  have hz : ∀ j, pf (reC a).poles j = 0 := by
    intro j
    match j with
    | 0 => show (![0] : Fin 1 → ℚ) = 0; decide +kernel
    | 1 => show (![0] : Fin 1 → ℚ) = 0; decide +kernel
    | j + 2 => rfl
  rw [Finset.sum_eq_zero fun c _ => by rw [hz, smul_zero]]
  decide +kernel

theorem re_dev (a : ℚ) (h : a = 0 ∨ a = -2) : Spec.Deviation (1/1000) reNorm (reU a) reQ (reC a) 2 2 := by
  refine ⟨![0], re_value a h ?_ ?_, by decide +kernel⟩
  all_goals
    show _ ≤ _
    simp [reU, kf]
  all_goals norm_num

/-- The hypotheses of `C79_refine`, `C79_refine_not_worse` and `C79_refine_progress_partial` are met: one insertion at 1/2. -/
example (dense : ℕ → (ℕ → ℕ → ℚ) → List (Fin 1 → ℚ) → R (List (Fin 1 → ℚ))) (hS : Spec.SolvesDense dense) (hA : Spec.AnswersDense dense) :
    (∃ c', refineApprox (1/1000) 7 reNorm (1/10) dense reQ (reU 0) (reC 0) true (1/100) (1/1000) 10 = .ok c' ∧ 2 < c'.poles.length) ∧
      (∃ c' ins, refineApprox (1/1000) 7 reNorm (1/10) dense reQ (reU 0) (reC 0) true (1/100) (1/1000) 10 = .ok c' ∧
        Spec.Refined (1/1000) (reU 0) reQ true (reC 0) ins c') ∧
      ∃ c', refineApprox (1/1000) 7 reNorm (1/10) dense reQ (reU 0) (reC 0) true (1/100) (1/1000) 10 = .ok c' ∧
      (Spec.Determines (1/1000) c'.knots 1 c'.poles.length (reU 0) →
        ∃ s s', Spec.SquareSum (1/1000) (reU 0) reQ (reC 0) s ∧ Spec.SquareSum (1/1000) (reU 0) reQ c' s' ∧ s' ≤ s) := by
  refine ⟨?_, ?_, ?_⟩
  · obtain ⟨c', i, e, -, -, h⟩ := C79_refine_progress_partial (eps := (1/1000 : ℚ)) (by norm_num) 7 (norm := reNorm) (frac := 1/10) (by norm_num) hS hA
      (re_data 0 (Or.inl rfl) true) (by decide) (by decide) (1/100) (1/1000) (nMax := 10) (by omega) (by decide +kernel) (j := 2) (by decide)
      (re_inside 0 (Or.inl rfl)) (re_dev 0 (Or.inl rfl)) (by norm_num)
    exact ⟨c', e, h⟩
  · obtain ⟨c', ins, e, h, -⟩ := C79_refine (eps := (1/1000 : ℚ)) (by norm_num) 7 (norm := reNorm) (frac := 1/10) (by norm_num) hS hA
      (re_data 0 (Or.inl rfl) true) (by decide) (by decide) (1/100) (1/1000) 10
    exact ⟨c', ins, e, h⟩
  · refine C79_refine_not_worse (eps := (1/1000 : ℚ)) (by norm_num) 7 (norm := reNorm) (frac := 1/10) (by norm_num) hS hA
      (re_data 0 (Or.inl rfl) true) (by decide) (by decide) (1/100) (1/1000) 10
      ⟨⟨(re_data 0 (Or.inl rfl) true).good, rfl, rfl⟩, fun _ j => ?_⟩
    exact ⟨(re_value 0 (Or.inl rfl) (by decide +kernel) (by decide +kernel) j).trans (by congr 1),
      (re_value 0 (Or.inl rfl) (by decide +kernel) (by decide +kernel) j).trans (by congr 1)⟩

/-- The hypotheses of `C79_negative_parameters` are met by the same points two units before: the segment is not refined, although a point well inside
its span is at distance 2. -/
example (dense : ℕ → (ℕ → ℕ → ℚ) → List (Fin 1 → ℚ) → R (List (Fin 1 → ℚ))) (hS : Spec.SolvesDense dense) (hA : Spec.AnswersDense dense) :
    refineApprox (1/1000) 7 reNorm (1/10) dense reQ (reU (-2)) (reC (-2)) true (1/100) (1/1000) 10 = .ok (reC (-2)) ∧
      Spec.Inside (1/10) (reC (-2)).knots (kf (reU (-2)) 2) ∧ Spec.Deviation (1/1000) reNorm (reU (-2)) reQ (reC (-2)) 2 2 :=
  ⟨C79_negative_parameters (by norm_num) 7 (by norm_num) hS hA (re_data (-2) (Or.inr rfl) true) (by decide) (by decide) _ _ _ (by decide +kernel),
    re_inside _ (Or.inr rfl), re_dev _ (Or.inr rfl)⟩

/-- The hypotheses of `C79_refine_none` are met by points on the segment. -/
example (dense : ℕ → (ℕ → ℕ → ℚ) → List (Fin 1 → ℚ) → R (List (Fin 1 → ℚ))) (hS : Spec.SolvesDense dense) (hA : Spec.AnswersDense dense) :
    refineApprox (1/1000) 7 (fun _ => 0) (1/10) dense reQ (reU 0) (reC 0) true (1/100) (1/1000) 10 = .ok (reC 0) :=
  C79_refine_none (by norm_num) 7 (by norm_num) hS hA (re_data 0 (Or.inl rfl) true) (by decide) (by decide) _ _ _
    (by rintro j d - - ⟨x, -, rfl⟩; exact le_rfl)

/-- The hypotheses of `C79_as_many_poles_as_points` are met with two points. -/
example (dense : ℕ → (ℕ → ℕ → ℚ) → List (Fin 1 → ℚ) → R (List (Fin 1 → ℚ))) :
    refineApprox (1/1000) 7 reNorm (1/10) dense [![0], ![2]] [0, 1/2] (reC 0) false (1/100) (1/1000) 10 = .error (.thrown .length) := by
  have hD := re_data 0 (Or.inl rfl) false
  exact C79_as_many_poles_as_points (by norm_num) 7 (by norm_num) dense
    (⟨hD.good, hD.deg1, hD.deg2, hD.clamped0, hD.clamped1, rfl, by decide +kernel, by simp⟩ : Spec.RefineData _ _ _ _) (by decide) _ _ (by omega)
    (by decide +kernel) (j := 1) (d := 2) (by decide) ⟨1, by decide, by decide +kernel, by decide +kernel⟩
    ⟨![0], re_value 0 (Or.inl rfl) (by decide +kernel) (by decide +kernel), by decide +kernel⟩ (by norm_num)

/-- The hypotheses of `C79_approx_refined` are met. -/
example (dense : ℕ → (ℕ → ℕ → ℚ) → List (Fin 1 → ℚ) → R (List (Fin 1 → ℚ))) (hS : Spec.SolvesDense dense) (hA : Spec.AnswersDense dense) :
    ∃ c', approxRefined (1/1000 : ℚ) 7 reNorm (1/10) dense reQ (reU 0) 1 false (1/100) (1/1000) 10 = .ok c' ∧ c'.Good := by
  obtain ⟨k, hU, h0, h1, -, h⟩ := C79_approx_refined (eps := (1/1000 : ℚ)) (by norm_num) 7 (p := 1) le_rfl (by decide) (u := reU 0) (Q := reQ) rfl (by decide)
    (by decide) (by decide +kernel) (by decide +kernel) false (norm := reNorm) (frac := 1/10) (by norm_num) hS hA (1/100) (1/1000) 10
  have e0 : kf (reU 0) 0 = 0 := by decide +kernel
  have e1 : kf (reU 0) ((reU 0).length - 1) = 1 := by decide +kernel
  rw [e0] at h0
  rw [e1] at h1
  obtain ⟨c, c', ins, e, -, hr, -⟩ := h (C78_determines (by norm_num) le_rfl (by decide) hU (by rw [h0 0 (by omega), h0 1 (by omega)])
    (by unfold kLast; rw [hU.len, h1 2 (by omega) (by omega)]; exact h1 _ (by omega) (by omega)) (t := [0, 1]) (by decide +kernel) rfl (by decide +kernel)
    (by rw [h0 1 (by omega)]; rfl) (by rw [h1 (2 * 1) (by omega) (by omega)]; rfl) (by intro j h1 h2; omega))
  exact ⟨c', e, hr.good⟩

end Sample

end Gbs
