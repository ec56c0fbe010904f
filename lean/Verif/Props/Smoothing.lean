import Verif.Model.Smoothing
import Verif.Lemmas.Tfi
import Mathlib.Tactic.FieldSimp
import Mathlib.Tactic.Linarith
import Mathlib.Tactic.LinearCombination
import Mathlib.Algebra.Order.Field.Rat

/-!
# Properties of the elliptic smoothing of structured meshes (C94)
-/

namespace Gbs

variable {K : Type} [Field K] [LinearOrder K] [IsStrictOrderedRing K]

/-- The node `(i,j)` of a grid with `nj` nodes by line. -/
def Spec.node (nj : ℕ) (pts : List (K × K)) (i j : ℕ) : K × K := (pts[j + nj * i]?).getD 0

/-- One coordinate of the elliptic equation `a x_ksiksi - 2 b x_ksieth + c x_etheth = 0`, with centred differences of steps `h` and `k`; `p` is the
value at the node. -/
def Spec.Elliptic (a b c h k : K) (p e w n s ne se sw nw : K) : Prop :=
  a * ((e - 2 * p + w) / h ^ 2) - 2 * b * ((ne - se - nw + sw) / (4 * h * k)) + c * ((n - 2 * p + s) / k ^ 2) = 0

/-- The elliptic equation at a node, the metrics and the neighbours being those of the grid `g`, `p` the place of the node. -/
def Spec.Winslow (ni nj : ℕ) (g : ℕ → ℕ → K × K) (i j : ℕ) (p : K × K) : Prop :=
  let h : K := 1 / ((ni : K) - 1)
  let k : K := 1 / ((nj : K) - 1)
  let dk := (1 / (2 * h)) • (g (i + 1) j - g (i - 1) j)
  let de := (1 / (2 * k)) • (g i (j + 1) - g i (j - 1))
  let a := de.1 ^ 2 + de.2 ^ 2
  let b := dk.1 * de.1 + dk.2 * de.2
  let c := dk.1 ^ 2 + dk.2 ^ 2
  Spec.Elliptic a b c h k p.1 (g (i + 1) j).1 (g (i - 1) j).1 (g i (j + 1)).1 (g i (j - 1)).1 (g (i + 1) (j + 1)).1 (g (i + 1) (j - 1)).1
    (g (i - 1) (j - 1)).1 (g (i - 1) (j + 1)).1 ∧
  Spec.Elliptic a b c h k p.2 (g (i + 1) j).2 (g (i - 1) j).2 (g i (j + 1)).2 (g i (j - 1)).2 (g (i + 1) (j + 1)).2 (g (i + 1) (j - 1)).2
    (g (i - 1) (j - 1)).2 (g (i - 1) (j + 1)).2

/-- The nodes that are moved. -/
def Spec.InBlock (i1 i2 j1 j2 i j : ℕ) : Prop := i1 < i ∧ i < i2 ∧ j1 < j ∧ j < j2

/-- One iteration from the grid `A` to the grid `B`, `e` being the largest displacement. -/
structure Spec.SmoothStep (ni nj i1 i2 j1 j2 : ℕ) (A B : List (K × K)) (e : K) : Prop where
  len : B.length = A.length
  kept : ∀ x, (∀ i j, Spec.InBlock i1 i2 j1 j2 i j → x ≠ j + nj * i) → B[x]? = A[x]?
  moved : ∀ i j, Spec.InBlock i1 i2 j1 j2 i j → Spec.Winslow ni nj (Spec.node nj A) i j (Spec.node nj B i j)
  le : ∀ i j, Spec.InBlock i1 i2 j1 j2 i j → |(Spec.node nj B i j).1 - (Spec.node nj A i j).1| + |(Spec.node nj B i j).2 - (Spec.node nj A i j).2| ≤ e
  nonneg : 0 ≤ e
  reached : e = 0 ∨ ∃ i j, Spec.InBlock i1 i2 j1 j2 i j ∧
    |(Spec.node nj B i j).1 - (Spec.node nj A i j).1| + |(Spec.node nj B i j).2 - (Spec.node nj A i j).2| = e

theorem node_of_some {nj : ℕ} {pts : List (K × K)} {i j x : ℕ} {p : K × K} (hx : x = j + nj * i) (h : pts[x]? = some p) : Spec.node nj pts i j = p := by
  subst hx
  simp [Spec.node, h]

theorem step_pos {n : ℕ} (h : 2 ≤ n) : (0 : K) < (n : K) - 1 := by
  have : (2 : K) ≤ n := by exact_mod_cast h
  linarith

theorem smoothNode_inv {ni nj : ℕ} {pts : List (K × K)} {i j : ℕ} {x : K × K} (h : smoothNode ni nj pts i j = .ok x) :
    Spec.Winslow ni nj (Spec.node nj pts) i j x ∧ (Spec.node nj pts (i + 1) j ≠ Spec.node nj pts (i - 1) j ∨
      Spec.node nj pts i (j + 1) ≠ Spec.node nj pts i (j - 1)) := by
  unfold smoothNode at h
  obtain ⟨dk, e1, h⟩ := R_bind_eq_ok.mp h
  obtain ⟨de, e2, h⟩ := R_bind_eq_ok.mp h
  obtain ⟨im, e3, h⟩ := R_bind_eq_ok.mp h
  obtain ⟨jm, e4, h⟩ := R_bind_eq_ok.mp h
  obtain ⟨e, r1, h⟩ := R_bind_eq_ok.mp h
  obtain ⟨w, r2, h⟩ := R_bind_eq_ok.mp h
  obtain ⟨n, r3, h⟩ := R_bind_eq_ok.mp h
  obtain ⟨s, r4, h⟩ := R_bind_eq_ok.mp h
  obtain ⟨ne, r5, h⟩ := R_bind_eq_ok.mp h
  obtain ⟨se, r6, h⟩ := R_bind_eq_ok.mp h
  obtain ⟨sw, r7, h⟩ := R_bind_eq_ok.mp h
  obtain ⟨nw, r8, h⟩ := R_bind_eq_ok.mp h
  dsimp only at h
  obtain ⟨x1, d1, h⟩ := R_bind_eq_ok.mp h
  obtain ⟨x2, d2, h⟩ := R_bind_eq_ok.mp h
  cases h
  obtain ⟨i0, rfl⟩ := usub_eq_ok.mp e3
  obtain ⟨j0, rfl⟩ := usub_eq_ok.mp e4
  rw [rd_eq_ok] at r1 r2 r3 r4 r5 r6 r7 r8
  have g1 := node_of_some rfl r1
  have g2 := node_of_some rfl r2
  have g3 := node_of_some rfl r3
  have g4 := node_of_some rfl r4
  have g5 := node_of_some rfl r5
  have g6 := node_of_some rfl r6
  have g7 := node_of_some rfl r7
  have g8 := node_of_some rfl r8
  have fd : ∀ {a b c : K}, fdiv a b = .ok c → b ≠ 0 ∧ c = a / b := by
    intro a b c h
    unfold fdiv at h
    split at h
    · cases h
    · rename_i h0
      exact ⟨h0, (Except.ok.inj h).symm⟩
  obtain ⟨k0, k1⟩ := fd e1
  obtain ⟨k2, k3⟩ := fd e2
  obtain ⟨hden, y1⟩ := fd d1
  obtain ⟨-, y2⟩ := fd d2
  have hk : dk ≠ 0 := by rw [k1]; exact div_ne_zero one_ne_zero k0
  have he : de ≠ 0 := by rw [k3]; exact div_ne_zero one_ne_zero k2
  refine ⟨?_, ?_⟩
  · unfold Spec.Winslow
    rw [g1, g2, g3, g4, g5, g6, g7, g8, ← k1, ← k3]
    dsimp only
    simp only [Prod.smul_fst, Prod.smul_snd, Prod.fst_sub, Prod.snd_sub, smul_eq_mul]
    rw [eq_div_iff hden] at y1 y2
    constructor
    · unfold Spec.Elliptic
      linear_combination (-2) * y1
    · unfold Spec.Elliptic
      linear_combination (-2) * y2
  · by_contra hc
    rw [not_or, not_not, not_not, g1, g2, g3, g4] at hc
    apply hden
    rw [hc.1, hc.2]
    simp


/-- The step of a direction is not null. -/
theorem inv_step_ne {n : ℕ} (h : 2 ≤ n) : (1 : K) / ((n : K) - 1) ≠ 0 := div_ne_zero one_ne_zero (step_pos h).ne'

/-- The place of a node by the elliptic equation is unique when the two centred differences are not both null. -/
theorem C94_unique {ni nj : ℕ} (hi : 2 ≤ ni) (hj : 2 ≤ nj) {g : ℕ → ℕ → K × K} {i j : ℕ} (hd : g (i + 1) j ≠ g (i - 1) j ∨ g i (j + 1) ≠ g i (j - 1)) {p q : K × K}
    (hp : Spec.Winslow ni nj g i j p) (hq : Spec.Winslow ni nj g i j q) : p = q := by
  have hh := inv_step_ne (K := K) hi
  have hk := inv_step_ne (K := K) hj
  unfold Spec.Winslow at hp hq
  dsimp only at hp hq
  generalize hH : (1 : K) / ((ni : K) - 1) = H at hp hq hh
  generalize hL : (1 : K) / ((nj : K) - 1) = L at hp hq hk
  simp only [Prod.smul_fst, Prod.smul_snd, Prod.fst_sub, Prod.snd_sub, smul_eq_mul] at hp hq
  set A := (1 / (2 * L) * ((g i (j + 1)).1 - (g i (j - 1)).1)) ^ 2 + (1 / (2 * L) * ((g i (j + 1)).2 - (g i (j - 1)).2)) ^ 2 with hA
  set C := (1 / (2 * H) * ((g (i + 1) j).1 - (g (i - 1) j).1)) ^ 2 + (1 / (2 * H) * ((g (i + 1) j).2 - (g (i - 1) j).2)) ^ 2 with hC
  have hA0 : 0 ≤ A := by positivity
  have hC0 : 0 ≤ C := by positivity
  have sq : ∀ {t u v : K}, t ≠ 0 → (t * u) ^ 2 + (t * v) ^ 2 = 0 → u = 0 ∧ v = 0 := by
    intro t u v ht h
    have h1 : (t * u) ^ 2 = 0 := le_antisymm (by nlinarith [sq_nonneg (t * v)]) (sq_nonneg _)
    have h2 : (t * v) ^ 2 = 0 := le_antisymm (by nlinarith [sq_nonneg (t * u)]) (sq_nonneg _)
    exact ⟨(mul_eq_zero.mp (pow_eq_zero_iff (two_ne_zero)|>.mp h1)).resolve_left ht, (mul_eq_zero.mp (pow_eq_zero_iff (two_ne_zero)|>.mp h2)).resolve_left ht⟩
  have hpos : 0 < A / H ^ 2 + C / L ^ 2 := by
    have hH2 : 0 < H ^ 2 := by positivity
    have hL2 : 0 < L ^ 2 := by positivity
    rcases hd with hd | hd
    · have : C ≠ 0 := by
        intro h0
        obtain ⟨u, v⟩ := sq (by simp [hh]) (hC ▸ h0)
        exact hd (Prod.ext (sub_eq_zero.mp u) (sub_eq_zero.mp v))
      have : 0 < C := lt_of_le_of_ne hC0 (Ne.symm this)
      positivity
    · have : A ≠ 0 := by
        intro h0
        obtain ⟨u, v⟩ := sq (by simp [hk]) (hA ▸ h0)
        exact hd (Prod.ext (sub_eq_zero.mp u) (sub_eq_zero.mp v))
      have : 0 < A := lt_of_le_of_ne hA0 (Ne.symm this)
      positivity
  unfold Spec.Elliptic at hp hq
  have e1 : (p.1 - q.1) * (A / H ^ 2 + C / L ^ 2) = 0 := by linear_combination (hq.1 - hp.1) / 2
  have e2 : (p.2 - q.2) * (A / H ^ 2 + C / L ^ 2) = 0 := by linear_combination (hq.2 - hp.2) / 2
  exact Prod.ext (sub_eq_zero.mp ((mul_eq_zero.mp e1).resolve_right hpos.ne')) (sub_eq_zero.mp ((mul_eq_zero.mp e2).resolve_right hpos.ne'))

/-- The reads of a node inside the grid, and the two outcomes. -/
theorem smoothNode_run {ni nj : ℕ} {pts : List (K × K)} (hl : ni * nj ≤ pts.length) {i j : ℕ} (h1 : 1 ≤ i) (h2 : i + 1 < ni)
    (h3 : 1 ≤ j) (h4 : j + 1 < nj) :
    (Spec.node nj pts (i + 1) j = Spec.node nj pts (i - 1) j ∧ Spec.node nj pts i (j + 1) = Spec.node nj pts i (j - 1) →
      smoothNode ni nj pts i j = .error .divZero) ∧
    ((Spec.node nj pts (i + 1) j ≠ Spec.node nj pts (i - 1) j ∨ Spec.node nj pts i (j + 1) ≠ Spec.node nj pts i (j - 1)) →
      ∃ x, smoothNode ni nj pts i j = .ok x) := by
  have hn : 0 < (ni : K) - 1 := step_pos (by omega)
  have hm : 0 < (nj : K) - 1 := step_pos (by omega)
  have rds : ∀ i' j', i' < ni → j' < nj → rd pts (j' + nj * i') = .ok (Spec.node nj pts i' j') := by
    intro i' j' hi hj
    have : j' + nj * i' < pts.length := by nlinarith
    rw [rd_eq_ok, Spec.node, List.getElem?_eq_getElem this]
    rfl
  have hd0 : (2 * (1 / ((ni : K) - 1))) ≠ 0 := by positivity
  have hd1 : (2 * (1 / ((nj : K) - 1))) ≠ 0 := by positivity
  unfold smoothNode
  simp only [fdiv_ok hn.ne', R_bind_ok, fdiv_ok hm.ne', usub_ok h1, usub_ok h3, rds _ _ h2 (show j < nj by omega),
    rds _ _ (show i - 1 < ni by omega) (show j < nj by omega), rds _ _ (show i < ni by omega) h4, rds _ _ (show i < ni by omega) (show j - 1 < nj by omega),
    rds _ _ h2 h4, rds _ _ h2 (show j - 1 < nj by omega), rds _ _ (show i - 1 < ni by omega) (show j - 1 < nj by omega),
    rds _ _ (show i - 1 < ni by omega) h4]
  constructor
  · rintro ⟨e1, e2⟩
    rw [e1, e2]
    simp only [sub_self, zero_div, mul_zero, add_zero, fdiv, if_true]
    rfl
  · intro hd
    set N := Spec.node nj pts
    have hpos : ((N i (j + 1)).1 - (N i (j - 1)).1) / (2 * (1 / ((nj : K) - 1))) * (((N i (j + 1)).1 - (N i (j - 1)).1) / (2 * (1 / ((nj : K) - 1)))) +
        ((N i (j + 1)).2 - (N i (j - 1)).2) / (2 * (1 / ((nj : K) - 1))) * (((N i (j + 1)).2 - (N i (j - 1)).2) / (2 * (1 / ((nj : K) - 1)))) ≠ 0 ∨
        ((N (i + 1) j).1 - (N (i - 1) j).1) / (2 * (1 / ((ni : K) - 1))) * (((N (i + 1) j).1 - (N (i - 1) j).1) / (2 * (1 / ((ni : K) - 1)))) +
        ((N (i + 1) j).2 - (N (i - 1) j).2) / (2 * (1 / ((ni : K) - 1))) * (((N (i + 1) j).2 - (N (i - 1) j).2) / (2 * (1 / ((ni : K) - 1)))) ≠ 0 := by
      by_contra hc
      rw [not_or, not_not, not_not] at hc
      have z : ∀ {t u v : K}, t ≠ 0 → u / t * (u / t) + v / t * (v / t) = 0 → u = 0 ∧ v = 0 := by
        intro t u v ht h
        obtain ⟨p, q⟩ := mul_self_add_mul_self_eq_zero.mp h
        exact ⟨(div_eq_zero_iff.mp p).resolve_right ht, (div_eq_zero_iff.mp q).resolve_right ht⟩
      obtain ⟨p1, p2⟩ := z hd1 hc.1
      obtain ⟨q1, q2⟩ := z hd0 hc.2
      rcases hd with hd | hd
      · exact hd (Prod.ext (sub_eq_zero.mp q1) (sub_eq_zero.mp q2))
      · exact hd (Prod.ext (sub_eq_zero.mp p1) (sub_eq_zero.mp p2))
    generalize ((N i (j + 1)).1 - (N i (j - 1)).1) / (2 * (1 / ((nj : K) - 1))) = a1 at hpos ⊢
    generalize ((N i (j + 1)).2 - (N i (j - 1)).2) / (2 * (1 / ((nj : K) - 1))) = a2 at hpos ⊢
    generalize ((N (i + 1) j).1 - (N (i - 1) j).1) / (2 * (1 / ((ni : K) - 1))) = c1 at hpos ⊢
    generalize ((N (i + 1) j).2 - (N (i - 1) j).2) / (2 * (1 / ((ni : K) - 1))) = c2 at hpos ⊢
    have hA : 0 ≤ a1 * a1 + a2 * a2 := by nlinarith [mul_self_nonneg a1, mul_self_nonneg a2]
    have hC : 0 ≤ c1 * c1 + c2 * c2 := by nlinarith [mul_self_nonneg c1, mul_self_nonneg c2]
    have hh : 0 < 1 / ((ni : K) - 1) := by positivity
    have hk : 0 < 1 / ((nj : K) - 1) := by positivity
    have hden : (a1 * a1 + a2 * a2) / (1 / ((ni : K) - 1)) / (1 / ((ni : K) - 1)) + (c1 * c1 + c2 * c2) / (1 / ((nj : K) - 1)) / (1 / ((nj : K) - 1)) ≠ 0 := by
      apply ne_of_gt
      have u1 := div_nonneg (div_nonneg hA hh.le) hh.le
      have u2 := div_nonneg (div_nonneg hC hk.le) hk.le
      rcases hpos with hp | hp
      · have := div_pos (div_pos (lt_of_le_of_ne hA (Ne.symm hp)) hh) hh
        linarith
      · have := div_pos (div_pos (lt_of_le_of_ne hC (Ne.symm hp)) hk) hk
        linarith
    rw [fdiv_ok hden, R_bind_ok, fdiv_ok hden, R_bind_ok]
    exact ⟨_, rfl⟩

/-- The nodes made before the node `(i,j)`. -/
def smoothDone (i1 i2 j1 j2 i j i' j' : ℕ) : Prop := Spec.InBlock i1 i2 j1 j2 i' j' ∧ (i' < i ∨ i' = i ∧ j' < j)

/-- The state of an iteration before the node `(i,j)`. -/
structure SmoothAt (ni nj i1 i2 j1 j2 : ℕ) (pts pts_ : List (K × K)) (i j : ℕ) (s : List (K × K) × K) : Prop where
  len : s.1.length = pts_.length
  kept : ∀ x, (∀ i' j', smoothDone i1 i2 j1 j2 i j i' j' → x ≠ j' + nj * i') → s.1[x]? = pts_[x]?
  made : ∀ i' j', smoothDone i1 i2 j1 j2 i j i' j' → ∃ x p, smoothNode ni nj pts i' j' = .ok x ∧ s.1[j' + nj * i']? = some x ∧
    pts[j' + nj * i']? = some p ∧ |x.1 - p.1| + |x.2 - p.2| ≤ s.2
  nonneg : 0 ≤ s.2
  reached : s.2 = 0 ∨ ∃ i' j' x p, smoothDone i1 i2 j1 j2 i j i' j' ∧ s.1[j' + nj * i']? = some x ∧
    pts[j' + nj * i']? = some p ∧ |x.1 - p.1| + |x.2 - p.2| = s.2

theorem smooth_idx_inj {nj i j i' j' : ℕ} (h : j < nj) (h' : j' < nj) (e : j + nj * i = j' + nj * i') : i = i' ∧ j = j' := by
  have h0 : 0 < nj := by omega
  have a := congrArg (· / nj) e
  have b := congrArg (· % nj) e
  simp only [Nat.add_mul_div_left _ _ h0, Nat.add_mul_mod_self_left, Nat.div_eq_of_lt h, Nat.div_eq_of_lt h', Nat.mod_eq_of_lt h, Nat.mod_eq_of_lt h', Nat.zero_add] at a b
  exact ⟨a, b⟩

omit [IsStrictOrderedRing K] in
theorem SmoothAt.next {ni nj i1 i2 j1 j2 : ℕ} {pts pts_ : List (K × K)} {i j : ℕ} {s : List (K × K) × K} (h : SmoothAt ni nj i1 i2 j1 j2 pts pts_ i j s)
    (hj2 : j2 ≤ nj) (hin : Spec.InBlock i1 i2 j1 j2 i j) {x p : K × K} (hx : smoothNode ni nj pts i j = .ok x) (hlt : j + nj * i < s.1.length)
    (hp : pts[j + nj * i]? = some p) :
    SmoothAt ni nj i1 i2 j1 j2 pts pts_ i (j + 1) (s.1.set (j + nj * i) x,
      if s.2 < |x.1 - p.1| + |x.2 - p.2| then |x.1 - p.1| + |x.2 - p.2| else s.2) := by
  have old : ∀ i' j', smoothDone i1 i2 j1 j2 i j i' j' → (s.1.set (j + nj * i) x)[j' + nj * i']? = s.1[j' + nj * i']? := by
    intro i' j' hd
    apply List.getElem?_set_ne
    intro e
    obtain ⟨e1, e2⟩ := smooth_idx_inj (by have := hin.2.2.2; omega) (by have := hd.1.2.2.2; omega) e
    have := hd.2
    omega
  have hle : s.2 ≤ (if s.2 < |x.1 - p.1| + |x.2 - p.2| then |x.1 - p.1| + |x.2 - p.2| else s.2) := by
    split
    · rename_i h; exact h.le
    · exact le_rfl
  have hle' : |x.1 - p.1| + |x.2 - p.2| ≤ (if s.2 < |x.1 - p.1| + |x.2 - p.2| then |x.1 - p.1| + |x.2 - p.2| else s.2) := by
    split
    · exact le_rfl
    · rename_i h; exact not_lt.mp h
  refine ⟨by simp [h.len], ?_, ?_, h.nonneg.trans hle, ?_⟩
  · intro y hy
    dsimp only
    rw [List.getElem?_set_ne (fun e => hy i j ⟨hin, Or.inr ⟨rfl, by omega⟩⟩ e.symm)]
    exact h.kept y (fun i' j' hd => hy i' j' ⟨hd.1, by have := hd.2; omega⟩)
  · intro i' j' hd
    by_cases he : i' = i ∧ j' = j
    · obtain ⟨rfl, rfl⟩ := he
      exact ⟨x, p, hx, by simp [hlt], hp, hle'⟩
    · have hd' : smoothDone i1 i2 j1 j2 i j i' j' := ⟨hd.1, by have := hd.2; omega⟩
      obtain ⟨x', p', a, b, c, d⟩ := h.made i' j' hd'
      exact ⟨x', p', a, by dsimp only; rw [old i' j' hd']; exact b, c, d.trans hle⟩
  · by_cases hc : s.2 < |x.1 - p.1| + |x.2 - p.2|
    · right
      exact ⟨i, j, x, p, ⟨hin, Or.inr ⟨rfl, by omega⟩⟩, by simp [hlt], hp, by simp [hc]⟩
    · dsimp only
      rw [if_neg hc]
      rcases h.reached with h0 | ⟨i', j', x', p', a, b, c, d⟩
      · exact Or.inl h0
      · exact Or.inr ⟨i', j', x', p', ⟨a.1, by have := a.2; omega⟩, by rw [old i' j' a]; exact b, c, d⟩

omit [IsStrictOrderedRing K] in
theorem SmoothAt.congr {ni nj i1 i2 j1 j2 : ℕ} {pts pts_ : List (K × K)} {i j k l : ℕ} {s : List (K × K) × K} (h : SmoothAt ni nj i1 i2 j1 j2 pts pts_ i j s)
    (e : ∀ i' j', smoothDone i1 i2 j1 j2 i j i' j' ↔ smoothDone i1 i2 j1 j2 k l i' j') : SmoothAt ni nj i1 i2 j1 j2 pts pts_ k l s :=
  ⟨h.len, fun x hx => h.kept x (fun i' j' hd => hx i' j' ((e i' j').mp hd)), fun i' j' hd => h.made i' j' ((e i' j').mpr hd), h.nonneg,
    h.reached.imp_right (fun ⟨i', j', x, p, a, b⟩ => ⟨i', j', x, p, (e i' j').mp a, b⟩)⟩

omit [IsStrictOrderedRing K] in
theorem SmoothAt.start {ni nj i1 i2 j1 j2 : ℕ} {pts pts_ : List (K × K)} : SmoothAt ni nj i1 i2 j1 j2 pts pts_ (i1 + 1) (j1 + 1) (pts_, 0) := by
  have hno : ∀ i' j', ¬ smoothDone i1 i2 j1 j2 (i1 + 1) (j1 + 1) i' j' := by
    rintro i' j' ⟨⟨a, b, c, d⟩, e⟩
    omega
  exact ⟨rfl, fun _ _ => rfl, fun i' j' h => absurd h (hno i' j'), le_rfl, Or.inl rfl⟩

omit [IsStrictOrderedRing K] in
theorem smoothSweep_inv {ni nj i1 i2 j1 j2 : ℕ} {pts pts_ : List (K × K)} (hj2 : j2 ≤ nj) {s : List (K × K) × K}
    (h : smoothSweep ni nj i1 i2 j1 j2 pts pts_ = .ok s) : SmoothAt ni nj i1 i2 j1 j2 pts pts_ i2 0 s := by
  unfold smoothSweep at h
  by_cases hi : i1 + 1 ≤ i2
  · have key := forLt_okI (fun i s => SmoothAt ni nj i1 i2 j1 j2 pts pts_ i (j1 + 1) s) hi h SmoothAt.start (by
      intro i s s' ha hb hbody hI
      by_cases hj : j1 + 1 ≤ j2
      · have := forLt_okI (fun j s => SmoothAt ni nj i1 i2 j1 j2 pts pts_ i j s) hj hbody hI (by
          intro j t t' hc hd hb2 hI2
          obtain ⟨x, hx, hb2⟩ := R_bind_eq_ok.mp hb2
          obtain ⟨q, hq, hb2⟩ := R_bind_eq_ok.mp hb2
          obtain ⟨p, hp, hb2⟩ := R_bind_eq_ok.mp hb2
          cases hb2
          obtain ⟨hlt, rfl⟩ := wr_eq_ok.mp hq
          exact hI2.next hj2 ⟨by omega, hb, by omega, hd⟩ hx hlt (rd_eq_ok.mp hp))
        refine this.congr ?_
        rintro i' j'
        unfold smoothDone Spec.InBlock
        omega
      · have : forLt (j1 + 1) j2 _ s = .ok s' := hbody
        rw [forLt, show j2 - (j1 + 1) = 0 by omega] at this
        cases this
        refine hI.congr ?_
        rintro i' j'
        unfold smoothDone Spec.InBlock
        omega)
    refine key.congr ?_
    rintro i' j'
    unfold smoothDone Spec.InBlock
    omega
  · rw [forLt, show i2 - (i1 + 1) = 0 by omega] at h
    cases h
    refine SmoothAt.start.congr ?_
    rintro i' j'
    unfold smoothDone Spec.InBlock
    omega

/-- An iteration from a grid that agrees with the grid written outside of the block. -/
theorem smoothStep_of_sweep {ni nj i1 i2 j1 j2 : ℕ} {pts pts_ : List (K × K)} (hj2 : j2 ≤ nj) (hl : pts_.length = pts.length)
    (ho : ∀ x, (∀ i j, Spec.InBlock i1 i2 j1 j2 i j → x ≠ j + nj * i) → pts_[x]? = pts[x]?) {s : List (K × K) × K}
    (h : smoothSweep ni nj i1 i2 j1 j2 pts pts_ = .ok s) : Spec.SmoothStep ni nj i1 i2 j1 j2 pts s.1 s.2 := by
  have hs := smoothSweep_inv hj2 h
  have hdone : ∀ i j, Spec.InBlock i1 i2 j1 j2 i j → smoothDone i1 i2 j1 j2 i2 0 i j := fun i j hin => ⟨hin, Or.inl hin.2.1⟩
  refine ⟨hs.len.trans hl, ?_, ?_, ?_, hs.nonneg, ?_⟩
  · intro x hx
    rw [hs.kept x (fun i j hd => hx i j hd.1), ho x hx]
  · intro i j hin
    obtain ⟨x, p, a, b, c, d⟩ := hs.made i j (hdone i j hin)
    rw [node_of_some rfl b]
    exact (smoothNode_inv a).1
  · intro i j hin
    obtain ⟨x, p, a, b, c, d⟩ := hs.made i j (hdone i j hin)
    rw [node_of_some rfl b, node_of_some rfl c]
    exact d
  · rcases hs.reached with h0 | ⟨i, j, x, p, a, b, c, d⟩
    · exact Or.inl h0
    · refine Or.inr ⟨i, j, a.1, ?_⟩
      rw [node_of_some rfl b, node_of_some rfl c]
      exact d

theorem smoothLoop_inv {ni nj i1 i2 j1 j2 : ℕ} (hj2 : j2 ≤ nj) {tol : K} : ∀ (k it : ℕ) (pts pts_ : List (K × K)), pts_.length = pts.length →
    (∀ x, (∀ i j, Spec.InBlock i1 i2 j1 j2 i j → x ≠ j + nj * i) → pts_[x]? = pts[x]?) → ∀ {q : List (K × K)} {m : ℕ} {err : K},
    smoothLoop ni nj i1 i2 j1 j2 tol k it pts pts_ = .ok (q, m, err) →
    ∃ n, m = it + n + 1 ∧ n ≤ k ∧ (n < k → err ≤ tol) ∧ ∃ (g : ℕ → List (K × K)) (e : ℕ → K), g 0 = pts ∧ g (n + 1) = q ∧ e n = err ∧
      (∀ l, l ≤ n → Spec.SmoothStep ni nj i1 i2 j1 j2 (g l) (g (l + 1)) (e l)) ∧ ∀ l, l < n → tol < e l := by
  intro k
  induction k with
  | zero =>
    intro it pts pts_ hl ho q m err h
    unfold smoothLoop at h
    obtain ⟨⟨q', e'⟩, h1, h⟩ := R_bind_eq_ok.mp h
    cases h
    refine ⟨0, by omega, le_rfl, fun h => absurd h (lt_irrefl _), fun l => if l = 0 then pts else q, fun _ => err, by simp, by simp, rfl, ?_, fun l hl => absurd hl (by omega)⟩
    intro l hl'
    obtain rfl : l = 0 := by omega
    exact smoothStep_of_sweep hj2 hl ho h1
  | succ k ih =>
    intro it pts pts_ hl ho q m err h
    unfold smoothLoop at h
    obtain ⟨⟨q', e'⟩, h1, h⟩ := R_bind_eq_ok.mp h
    have hst := smoothStep_of_sweep hj2 hl ho h1
    dsimp only at h hst
    by_cases ht : tol < e'
    · rw [if_pos ht] at h
      obtain ⟨n, a, b, c, g, e, g0, g1, e1, st, gt⟩ := ih (it + 1) q' pts hst.len.symm (fun x hx => (hst.kept x hx).symm) h
      refine ⟨n + 1, by omega, by omega, fun h => c (by omega), fun l => if l = 0 then pts else g (l - 1), fun l => if l = 0 then e' else e (l - 1), by simp,
        by simpa using g1, by simpa using e1, ?_, ?_⟩
      · intro l hl'
        rcases Nat.eq_zero_or_pos l with rfl | hp
        · simpa [g0] using hst
        · have := st (l - 1) (by omega)
          rw [show l - 1 + 1 = l by omega] at this
          simpa [show l ≠ 0 by omega] using this
      · intro l hl'
        rcases Nat.eq_zero_or_pos l with rfl | hp
        · simpa using ht
        · have := gt (l - 1) (by omega)
          simpa [show l ≠ 0 by omega] using this
    · rw [if_neg ht] at h
      cases h
      refine ⟨0, by omega, by omega, fun _ => not_lt.mp ht, fun l => if l = 0 then pts else q, fun _ => err, by simp, by simp, rfl, ?_, fun l hl => absurd hl (by omega)⟩
      intro l hl'
      obtain rfl : l = 0 := by omega
      exact hst

/-- **C94**: the smoothing is a sequence of iterations, each of which solves the elliptic equation at every node strictly inside the block with the grid of
the iteration before; it stops at the first iteration that moves no node by more than the tolerance, or at the `n_it`-th (the first one is always made). -/
theorem C94_iterations {pts : List (K × K)} {nj i1 i2 j1 j2 nIt : ℕ} {tol : K} (hj2 : j2 ≤ nj) {q : List (K × K)} {it : ℕ} {err : K}
    (h : smooth pts nj i1 i2 j1 j2 nIt tol = .ok (q, it, err)) :
    1 ≤ it ∧ it ≤ max 1 nIt ∧ (it < nIt → err ≤ tol) ∧ ∃ (g : ℕ → List (K × K)) (e : ℕ → K), g 0 = pts ∧ g it = q ∧ e (it - 1) = err ∧
      (∀ l, l < it → Spec.SmoothStep (pts.length / nj) nj i1 i2 j1 j2 (g l) (g (l + 1)) (e l)) ∧ ∀ l, l + 1 < it → tol < e l := by
  unfold smooth at h
  split at h
  · cases h
  obtain ⟨n, a, b, c, g, e, g0, g1, e1, st, gt⟩ := smoothLoop_inv hj2 (nIt - 1) 0 pts pts rfl (fun _ _ => rfl) h
  obtain rfl : it = n + 1 := by omega
  exact ⟨by omega, by omega, fun h => c (by omega), g, e, g0, g1, by simpa using e1, fun l hl => st l (by omega), fun l hl => gt l (by omega)⟩

/-- **C94**: the border of the block and everything outside are not moved, and no node is added or lost. -/
theorem C94_kept {pts : List (K × K)} {nj i1 i2 j1 j2 nIt : ℕ} {tol : K} (hj2 : j2 ≤ nj) {q : List (K × K)} {it : ℕ} {err : K}
    (h : smooth pts nj i1 i2 j1 j2 nIt tol = .ok (q, it, err)) :
    q.length = pts.length ∧ ∀ i j, j < nj → (i ≤ i1 ∨ i2 ≤ i ∨ j ≤ j1 ∨ j2 ≤ j) → Spec.node nj q i j = Spec.node nj pts i j := by
  obtain ⟨-, -, -, g, e, g0, g1, -, st, -⟩ := C94_iterations hj2 h
  have key : ∀ l, l ≤ it → (g l).length = pts.length ∧ ∀ i j, j < nj → (i ≤ i1 ∨ i2 ≤ i ∨ j ≤ j1 ∨ j2 ≤ j) → Spec.node nj (g l) i j = Spec.node nj pts i j := by
    intro l
    induction l with
    | zero => intro _; rw [g0]; exact ⟨rfl, fun _ _ _ _ => rfl⟩
    | succ l ih =>
      intro hl
      obtain ⟨a, b⟩ := ih (by omega)
      have s := st l (by omega)
      refine ⟨s.len.trans a, fun i j hj hc => ?_⟩
      rw [← b i j hj hc]
      unfold Spec.node
      rw [s.kept (j + nj * i)]
      rintro i' j' ⟨c1, c2, c3, c4⟩ e
      obtain ⟨rfl, rfl⟩ := smooth_idx_inj hj (by omega) e
      omega
  have := key it le_rfl
  rwa [g1] at this

/-- An iteration succeeds when no node inside has its two centred differences null. -/
theorem smoothSweep_ok {ni nj i1 i2 j1 j2 : ℕ} {pts pts_ : List (K × K)} (hi2 : i2 < ni) (hj2 : j2 < nj) (hl : ni * nj ≤ pts.length)
    (hl' : pts_.length = pts.length) (hd : ∀ i j, Spec.InBlock i1 i2 j1 j2 i j →
      Spec.node nj pts (i + 1) j ≠ Spec.node nj pts (i - 1) j ∨ Spec.node nj pts i (j + 1) ≠ Spec.node nj pts i (j - 1)) :
    ∃ s, smoothSweep ni nj i1 i2 j1 j2 pts pts_ = .ok s := by
  unfold smoothSweep
  by_cases hi : i1 + 1 ≤ i2
  · obtain ⟨s, a, -⟩ := forLt_inv (fun _ (s : List (K × K) × K) => s.1.length = pts.length) (s := (pts_, (0 : K))) hi hl' (fun i s ha hb hI => by
      by_cases hj : j1 + 1 ≤ j2
      · obtain ⟨s', b, c⟩ := forLt_inv (fun _ (s : List (K × K) × K) => s.1.length = pts.length) (s := s) (body := fun j s => do
            let x ← smoothNode ni nj pts i j
            let q ← wr s.1 (j + nj * i) x
            let p ← rd pts (j + nj * i)
            let err := |x.1 - p.1| + |x.2 - p.2|
            pure (q, if s.2 < err then err else s.2)) hj hI (fun j s hc hd' hI' => by
          obtain ⟨x, hx⟩ := (smoothNode_run (ni := ni) hl (show 1 ≤ i by omega) (by omega) (show 1 ≤ j by omega) (by omega)).2 (hd i j ⟨by omega, hb, by omega, hd'⟩)
          have hlt : j + nj * i < pts.length := by nlinarith
          refine ⟨_, by rw [hx, R_bind_ok, wr_ok (by rw [hI']; exact hlt), R_bind_ok, rd_ok hlt, R_bind_ok]; rfl, ?_⟩
          simpa using hI')
        exact ⟨s', b, c⟩
      · exact ⟨s, by rw [forLt, show j2 - (j1 + 1) = 0 by omega]; rfl, hI⟩)
    exact ⟨s, a⟩
  · exact ⟨(pts_, 0), by rw [forLt, show i2 - (i1 + 1) = 0 by omega]; rfl⟩

/-- **C94**: a block strictly inside the grid, with no node where the two centred differences are null: one iteration is made, without error. -/
theorem C94_runs {pts : List (K × K)} {ni nj i1 i2 j1 j2 : ℕ} {tol : K} (hi2 : i2 < ni) (hj2 : j2 < nj) (hl : pts.length = ni * nj)
    (hd : ∀ i j, Spec.InBlock i1 i2 j1 j2 i j →
      Spec.node nj pts (i + 1) j ≠ Spec.node nj pts (i - 1) j ∨ Spec.node nj pts i (j + 1) ≠ Spec.node nj pts i (j - 1)) :
    ∃ q err, smooth pts nj i1 i2 j1 j2 1 tol = .ok (q, 1, err) := by
  obtain ⟨⟨q, err⟩, h⟩ := smoothSweep_ok (pts_ := pts) hi2 hj2 hl.ge rfl hd
  refine ⟨q, err, ?_⟩
  rw [smooth, if_neg (by omega), hl, Nat.mul_div_cancel _ (by omega)]
  simp only [Nat.sub_self]
  rw [smoothLoop, h, R_bind_ok]
  rfl

/-- **C94**: a grid that satisfies the elliptic equation is not moved, and one iteration is enough. -/
theorem C94_fixed {pts : List (K × K)} {ni nj i1 i2 j1 j2 nIt : ℕ} {tol : K} (ht : 0 ≤ tol) (hi2 : i2 < ni) (hj2 : j2 < nj) (hl : pts.length = ni * nj)
    (hd : ∀ i j, Spec.InBlock i1 i2 j1 j2 i j →
      Spec.node nj pts (i + 1) j ≠ Spec.node nj pts (i - 1) j ∨ Spec.node nj pts i (j + 1) ≠ Spec.node nj pts i (j - 1))
    (hw : ∀ i j, Spec.InBlock i1 i2 j1 j2 i j → Spec.Winslow ni nj (Spec.node nj pts) i j (Spec.node nj pts i j)) :
    smooth pts nj i1 i2 j1 j2 nIt tol = .ok (pts, 1, 0) := by
  obtain ⟨⟨q, err⟩, h⟩ := smoothSweep_ok (pts_ := pts) hi2 hj2 hl.ge rfl hd
  have st := smoothStep_of_sweep hj2.le rfl (fun _ _ => rfl) h
  have same : ∀ i j, Spec.InBlock i1 i2 j1 j2 i j → Spec.node nj q i j = Spec.node nj pts i j := by
    intro i j hin
    have : i1 < i ∧ i < i2 ∧ j1 < j ∧ j < j2 := hin
    exact C94_unique (by omega) (by omega) (hd i j hin) (st.moved i j hin) (hw i j hin)
  have herr : err = 0 := by
    rcases st.reached with h0 | ⟨i, j, hin, h0⟩
    · exact h0
    · rw [same i j hin] at h0
      simpa using h0.symm
  have hq : q = pts := by
    have hlen : q.length = pts.length := st.len
    apply List.ext_getElem? 
    intro x
    by_cases hx : ∃ i j, Spec.InBlock i1 i2 j1 j2 i j ∧ x = j + nj * i
    · obtain ⟨i, j, hin, rfl⟩ := hx
      have : i1 < i ∧ i < i2 ∧ j1 < j ∧ j < j2 := hin
      have hlt : j + nj * i < pts.length := by rw [hl]; nlinarith
      have hs := same i j hin
      unfold Spec.node at hs
      rw [List.getElem?_eq_getElem hlt, List.getElem?_eq_getElem (by omega)] at hs ⊢
      exact congrArg some hs
    · exact st.kept x (fun i j hin e => hx ⟨i, j, hin, e⟩)
  subst hq herr
  rw [smooth, if_neg (by omega), hl, Nat.mul_div_cancel _ (by omega)]
  unfold smoothLoop
  rw [h, R_bind_ok]
  cases nIt - 1 with
  | zero => rfl
  | succ k => simp [ht]

/-- **C94**: a grid of equal parallelograms is not moved, and one iteration is enough. -/
theorem C94_parallelograms {pts : List (K × K)} {ni nj i1 i2 j1 j2 nIt : ℕ} {tol : K} (ht : 0 ≤ tol) (hi2 : i2 < ni) (hj2 : j2 < nj) (hl : pts.length = ni * nj)
    {P U W : K × K} (hn : U ≠ 0 ∨ W ≠ 0) (hg : ∀ i j, i1 ≤ i → i ≤ i2 → j1 ≤ j → j ≤ j2 → Spec.node nj pts i j = P + (i : K) • U + (j : K) • W) :
    smooth pts nj i1 i2 j1 j2 nIt tol = .ok (pts, 1, 0) := by
  have g1 : ∀ i j, Spec.InBlock i1 i2 j1 j2 i j → Spec.node nj pts (i + 1) j = P + ((i : K) + 1) • U + (j : K) • W ∧
      Spec.node nj pts (i - 1) j = P + ((i : K) - 1) • U + (j : K) • W ∧ Spec.node nj pts i (j + 1) = P + (i : K) • U + ((j : K) + 1) • W ∧
      Spec.node nj pts i (j - 1) = P + (i : K) • U + ((j : K) - 1) • W := by
    rintro i j ⟨a, b, c, d⟩
    refine ⟨?_, ?_, ?_, ?_⟩
    · rw [hg _ _ (by omega) (by omega) (by omega) (by omega)]; push_cast; rfl
    · rw [hg _ _ (by omega) (by omega) (by omega) (by omega), Nat.cast_sub (by omega)]; push_cast; rfl
    · rw [hg _ _ (by omega) (by omega) (by omega) (by omega)]; push_cast; rfl
    · rw [hg _ _ (by omega) (by omega) (by omega) (by omega), Nat.cast_sub (by omega)]; push_cast; rfl
  apply C94_fixed ht hi2 hj2 hl
  · intro i j hin
    obtain ⟨e1, e2, e3, e4⟩ := g1 i j hin
    rw [e1, e2, e3, e4]
    have two : (2 : K) ≠ 0 := two_ne_zero
    have dz : ∀ V : K × K, (2 : K) • V = 0 → V = 0 := fun V h => (smul_eq_zero.mp h).resolve_left two
    rcases hn with hn | hn
    · left
      intro e
      refine hn (dz U ?_)
      rw [← sub_eq_zero] at e
      rw [← e]
      module
    · right
      intro e
      refine hn (dz W ?_)
      rw [← sub_eq_zero] at e
      rw [← e]
      module
  · intro i j hin
    obtain ⟨e1, e2, e3, e4⟩ := g1 i j hin
    obtain ⟨a, b, c, d⟩ := hin
    unfold Spec.Winslow
    dsimp only
    rw [hg (i + 1) (j + 1) (by omega) (by omega) (by omega) (by omega), hg (i + 1) (j - 1) (by omega) (by omega) (by omega) (by omega),
      hg (i - 1) (j - 1) (by omega) (by omega) (by omega) (by omega), hg (i - 1) (j + 1) (by omega) (by omega) (by omega) (by omega), 
      hg i j (by omega) (by omega) (by omega) (by omega), e1, e2, e3, e4, Nat.cast_sub (show 1 ≤ i by omega), Nat.cast_sub (show 1 ≤ j by omega)]
    unfold Spec.Elliptic
    simp only [Prod.fst_add, Prod.snd_add, Prod.smul_fst, Prod.smul_snd, smul_eq_mul, Prod.fst_sub, Prod.snd_sub]
    push_cast
    constructor <;> ring

theorem forLt_or {S : Type} (I : S → Prop) {er : Err} {body : ℕ → S → R S} {a b : ℕ} 
    (hs : ∀ i s, a ≤ i → i < b → I s → (∃ s', body i s = .ok s' ∧ I s') ∨ body i s = .error er) {s : S} (h0 : I s) :
    (∃ s', forLt a b body s = .ok s' ∧ I s') ∨ forLt a b body s = .error er := by
  unfold forLt
  have key : ∀ n a s, (∀ i s, a ≤ i → i < a + n → I s → (∃ s', body i s = .ok s' ∧ I s') ∨ body i s = .error er) → I s →
      (∃ s', forN body n a s = .ok s' ∧ I s') ∨ forN body n a s = .error er := by
    intro n
    induction n with
    | zero => intro a s _ h; exact Or.inl ⟨s, rfl, h⟩
    | succ n ih =>
      intro a s hb h
      rcases hb a s le_rfl (by omega) h with ⟨s', e, h'⟩ | e
      · have := ih (a + 1) s' (fun i s h1 h2 => hb i s (by omega) (by omega)) h'
        simpa [forN, e, R_bind_ok] using this
      · right
        simp [forN, e]
  by_cases hab : a ≤ b
  · exact key (b - a) a s (fun i s h1 h2 => hs i s h1 (by omega)) h0
  · rw [show b - a = 0 by omega]
    exact Or.inl ⟨s, rfl, h0⟩

/-- **C94**: a node strictly inside the block whose two neighbours along each direction coincide makes the first iteration divide by zero. -/
theorem C94_degenerate {pts : List (K × K)} {ni nj i1 i2 j1 j2 nIt : ℕ} {tol : K} (hi2 : i2 < ni) (hj2 : j2 < nj) (hl : pts.length = ni * nj) {i j : ℕ}
    (hin : Spec.InBlock i1 i2 j1 j2 i j) (e1 : Spec.node nj pts (i + 1) j = Spec.node nj pts (i - 1) j)
    (e2 : Spec.node nj pts i (j + 1) = Spec.node nj pts i (j - 1)) : smooth pts nj i1 i2 j1 j2 nIt tol = .error .divZero := by
  have hsw : smoothSweep ni nj i1 i2 j1 j2 pts pts = .error .divZero := by
    have hor : (∃ s', smoothSweep ni nj i1 i2 j1 j2 pts pts = .ok s' ∧ s'.1.length = pts.length) ∨ smoothSweep ni nj i1 i2 j1 j2 pts pts = .error .divZero := by
      unfold smoothSweep
      refine forLt_or (fun s : List (K × K) × K => s.1.length = pts.length) (fun i' s ha hb hI => ?_) rfl
      refine forLt_or (fun s : List (K × K) × K => s.1.length = pts.length) (fun j' s hc hd hI => ?_) hI
      have hrun := smoothNode_run (ni := ni) hl.ge (show 1 ≤ i' by omega) (by omega) (show 1 ≤ j' by omega) (by omega)
      by_cases hdg : Spec.node nj pts (i' + 1) j' = Spec.node nj pts (i' - 1) j' ∧ Spec.node nj pts i' (j' + 1) = Spec.node nj pts i' (j' - 1)
      · right
        rw [hrun.1 hdg]
        rfl
      · left
        obtain ⟨x, hx⟩ := hrun.2 (by rw [not_and_or] at hdg; exact hdg)
        have hlt : j' + nj * i' < pts.length := by rw [hl]; nlinarith
        refine ⟨_, by rw [hx, R_bind_ok, wr_ok (by rw [hI]; exact hlt), R_bind_ok, rd_ok hlt, R_bind_ok]; rfl, ?_⟩
        simpa using hI
    rcases hor with ⟨s, hs, -⟩ | hor
    · obtain ⟨x, p, hx, -⟩ := (smoothSweep_inv hj2.le hs).made i j ⟨hin, Or.inl hin.2.1⟩
      rcases (smoothNode_inv hx).2 with h | h
      · exact absurd e1 h
      · exact absurd e2 h
    · exact hor
  rw [smooth, if_neg (by omega), hl, Nat.mul_div_cancel _ (by omega)]
  unfold smoothLoop
  rw [hsw]
  rfl

/-- A grid of 3 by 3 nodes whose centre is not in its place: one iteration brings it back, the second one sees it. -/
def smoothSample : List (ℚ × ℚ) := [(0, 0), (0, 1), (0, 2), (1, 0), (3 / 2, 5 / 4), (1, 2), (2, 0), (2, 1), (2, 2)]

example : (smooth smoothSample 3 0 2 0 2 10 (1 / 1000)).isOk = true := by decide +kernel

example : smooth smoothSample 3 0 2 0 2 10 (1 / 1000) = .ok (smoothSample.set 4 (1, 1), 2, 0) := by decide +kernel

example : smooth smoothSample 3 0 2 0 2 1 (1 / 1000) = .ok (smoothSample.set 4 (1, 1), 1, 3 / 4) := by decide +kernel

/-- The nodes of the hypotheses of `C94_runs` and `C94_fixed` exist. -/
example : smooth (smoothSample.set 4 (1, 1)) 3 0 2 0 2 10 0 = .ok (smoothSample.set 4 (1, 1), 1, 0) :=
  C94_parallelograms (ni := 3) (P := (0, 0)) (U := (1, 0)) (W := (0, 1)) le_rfl (by omega) (by omega) rfl (Or.inl (by decide +kernel)) (by
    intro i j _ hi _ hj
    interval_cases i <;> interval_cases j <;> decide +kernel)

/-- A grid folded at its centre. -/
def smoothFolded : List (ℚ × ℚ) := [(0, 0), (0, 1), (0, 0), (1, 1), (1, 1), (1, 1), (0, 0), (0, 1), (2, 2)]

theorem C94_degenerate_witness : smooth smoothFolded 3 0 2 0 2 10 (1 / 1000) = .error .divZero :=
  C94_degenerate (ni := 3) (i := 1) (j := 1) (by omega) (by omega) rfl ⟨by omega, by omega, by omega, by omega⟩ (by decide +kernel) (by decide +kernel)

/-- A grid of 4 by 3 nodes of equal squares. -/
def smoothSquares : List (ℚ × ℚ) := [(0, 0), (0, 1), (0, 2), (1, 0), (1, 1), (1, 2), (2, 0), (2, 1), (2, 2), (3, 0), (3, 1), (3, 2)]

/-- **C94**: nothing checks the block: with `j2 = nj` the last node of a line is moved with the first node of the next line as its neighbour, or, on the
line before the last, with a node that is not in the grid. -/
theorem C94_block_too_wide : smooth smoothSquares 3 0 2 0 3 1 (1 / 1000) = .ok (smoothSquares.set 5 (4 / 3, 1), 1, 4 / 3) ∧
    smooth smoothSquares 3 0 3 0 3 1 (1 / 1000) = .error .oob := by
  decide +kernel

/-- **C94** (of the code, against its documentation): the Python function makes one iteration, whatever the number of iterations, for tolerances below 1. -/
theorem C94_python {trunc : K → ℕ} {pts : List (K × K)} {nj i1 i2 j1 j2 nIt : ℕ} {tol : K} (ht : trunc tol = 0) (hj2 : j2 ≤ nj) {q : List (K × K)} {it : ℕ} {err : K}
    (h : smoothPython trunc pts nj i1 i2 j1 j2 nIt tol = .ok (q, it, err)) : it = 1 := by
  obtain ⟨a, b, -⟩ := C94_iterations hj2 h
  rw [ht] at b
  omega

/-- With ten iterations asked, the displacement is left above the tolerance. -/
theorem C94_python_witness : smoothPython (fun x : ℚ => ⌊x⌋.toNat) smoothSample 3 0 2 0 2 10 (1 / 1000) = .ok (smoothSample.set 4 (1, 1), 1, 3 / 4) := by
  decide +kernel

end Gbs
