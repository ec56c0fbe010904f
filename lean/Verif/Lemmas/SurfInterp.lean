import Verif.Model.SurfInterp
import Verif.Props.Collocation
import Verif.Props.SurfaceMisc

/-! # Interpolation of surfaces -/

namespace Gbs

set_option linter.unusedSectionVars false

open Polynomial
open scoped BigOperators

variable {K : Type} [Field K] [LinearOrder K] [IsStrictOrderedRing K]
variable {V : Type} [AddCommGroup V] [Module K V]

/-- What is assumed of a dense solver: it solves every square system with a null kernel. -/
def Spec.SolvesDense (dense : ℕ → (ℕ → ℕ → K) → List V → R (List V)) : Prop :=
  ∀ (n : ℕ) (A : ℕ → ℕ → K) (B : List V), B.length = n → Spec.Regular n A →
    ∃ X, dense n A B = .ok X ∧ X.length = n ∧ ∀ i, i < n → ∑ j ∈ Finset.range n, A i j • pf X j = pf B i

theorem pf_map_range {n : ℕ} (x : ℕ → V) {j : ℕ} (hj : j < n) : pf ((List.range n).map x) j = x j := by
  unfold pf
  rw [List.getD_eq_getElem?_getD, List.getElem?_map, List.getElem?_range hj]
  rfl

/-- Such a solver exists. -/
theorem exists_solvesDense : ∃ dense : ℕ → (ℕ → ℕ → K) → List V → R (List V), Spec.SolvesDense dense := by
  have : ∀ (n : ℕ) (A : ℕ → ℕ → K) (B : List V), ∃ X : List V, X.length = n ∧
      (Spec.Regular n A → ∀ i, i < n → ∑ j ∈ Finset.range n, A i j • pf X j = pf B i) := by
    intro n A B
    by_cases h : Spec.Regular n A
    · obtain ⟨x, hx⟩ := Regular.solve h (pf B)
      refine ⟨(List.range n).map x, by simp, fun _ i hi => ?_⟩
      rw [← hx i hi]
      exact Finset.sum_congr rfl fun j hj => by rw [pf_map_range x (Finset.mem_range.mp hj)]
    · exact ⟨List.replicate n 0, by simp, fun h' => absurd h' h⟩
  choose f f1 f2 using this
  exact ⟨fun n A B => .ok (f n A B), fun n A B _ hR => ⟨_, rfl, f1 n A B, f2 n A B hR⟩⟩

/-- A loop that appends one element at each turn. -/
theorem forLt_collect {α : Type} {n : ℕ} {body : ℕ → List α → R (List α)} (Pr : ℕ → α → Prop)
    (h : ∀ i acc, i < n → ∃ x, body i acc = .ok (acc ++ [x]) ∧ Pr i x) :
    ∃ L, forLt 0 n body [] = .ok L ∧ L.length = n ∧ ∀ i, i < n → ∃ x, L[i]? = some x ∧ Pr i x := by
  obtain ⟨L, e, hl, hL⟩ := forLt_inv (a := 0) (b := n) (s := ([] : List α)) (body := body)
    (fun k L => L.length = k ∧ ∀ i, i < k → ∃ x, L[i]? = some x ∧ Pr i x) (by omega) ⟨rfl, by intro i hi; omega⟩
    (by
      rintro k L - hk ⟨hl, hL⟩
      obtain ⟨x, ex, hx⟩ := h k L hk
      refine ⟨_, ex, by simp [hl], ?_⟩
      intro i hi
      rcases Nat.lt_or_ge i k with h | h
      · obtain ⟨y, hy, hPr⟩ := hL i h
        exact ⟨y, by rw [List.getElem?_append_left (by omega)]; exact hy, hPr⟩
      · obtain rfl : i = k := by omega
        exact ⟨x, by rw [List.getElem?_append_right (by omega), hl, Nat.sub_self]; rfl, hx⟩)
  exact ⟨L, e, hl, hL⟩

theorem grid_lt {nu nv i j : ℕ} (hi : i < nu) (hj : j < nv) : i + nu * j < nu * nv := by
  have := Nat.mul_le_mul_left nu (show j + 1 ≤ nv by omega)
  rw [Nat.mul_add] at this
  omega

theorem pf_of_some {P : List V} {i : ℕ} {x : V} (h : P[i]? = some x) : pf P i = x := by
  unfold pf; rw [List.getD_eq_getElem?_getD, h]; rfl

/-- When the solver solves the two systems, the poles solve the tensor product system. -/
theorem tensorSolve_spec {dense : ℕ → (ℕ → ℕ → K) → List V → R (List V)} {Q : List V} {nu nv : ℕ}
    (hQ : Q.length = nu * nv) {Mu Mv : ℕ → ℕ → K}
    (hu : ∀ B : List V, B.length = nu → ∃ X, dense nu Mu B = .ok X ∧ X.length = nu ∧
      ∀ i, i < nu → ∑ j ∈ Finset.range nu, Mu i j • pf X j = pf B i)
    (hv : ∀ B : List V, B.length = nv → ∃ X, dense nv Mv B = .ok X ∧ X.length = nv ∧
      ∀ i, i < nv → ∑ j ∈ Finset.range nv, Mv i j • pf X j = pf B i) :
    ∃ P, tensorSolve dense nu nv Mu Mv Q = .ok P ∧ P.length = nu * nv ∧
      ∀ i j, i < nu → j < nv → ∑ b ∈ Finset.range nv, Mv j b • ∑ a ∈ Finset.range nu,
        Mu i a • pf P (a + nu * b) = pf Q (i + nu * j) := by
  unfold tensorSolve
  obtain ⟨A, eA, hlA, hA⟩ := forLt_collect (n := nv) (body := fun iv A => do
      let c ← forLt 0 nu (fun iu c => do
        let x ← rd Q (iu + nu * iv)
        pure (c ++ [x])) []
      let a ← dense nu Mu c
      pure (A ++ [a]))
    (fun iv a => a.length = nu ∧ ∀ i, i < nu → ∑ k ∈ Finset.range nu, Mu i k • pf a k = pf Q (i + nu * iv))
    (by
      intro iv acc hiv
      obtain ⟨c, ec, hlc, hc⟩ := forLt_collect (n := nu) (body := fun iu c => do
          let x ← rd Q (iu + nu * iv)
          pure (c ++ [x])) (fun iu x => pf Q (iu + nu * iv) = x)
        (by
          intro iu acc hiu
          have hlt : iu + nu * iv < Q.length := by rw [hQ]; exact grid_lt hiu hiv
          exact ⟨Q[iu + nu * iv], by rw [rd_ok hlt, R_bind_ok]; rfl, pf_of_some (List.getElem?_eq_getElem hlt)⟩)
      obtain ⟨X, eX, hlX, hX⟩ := hu c hlc
      refine ⟨X, by rw [ec, R_bind_ok, eX, R_bind_ok]; rfl, hlX, ?_⟩
      intro i hi
      obtain ⟨x, hx, e⟩ := hc i hi
      rw [hX i hi, e, pf_of_some hx])
  rw [eA, R_bind_ok]
  obtain ⟨Pt, eP, hlP, hP⟩ := forLt_collect (n := nu) (body := fun i Pt => do
      let r ← forLt 0 nv (fun iv r => do
        let a ← rd A iv
        let x ← rd a i
        pure (r ++ [x])) []
      let z ← dense nv Mv r
      pure (Pt ++ [z]))
    (fun i z => z.length = nv ∧ ∀ j, j < nv → ∀ a, A[j]? = some a → ∑ b ∈ Finset.range nv, Mv j b • pf z b = pf a i)
    (by
      intro i acc hi
      obtain ⟨c, ec, hlc, hc⟩ := forLt_collect (n := nv) (body := fun iv r => do
          let a ← rd A iv
          let x ← rd a i
          pure (r ++ [x])) (fun iv x => ∀ a, A[iv]? = some a → pf a i = x)
        (by
          intro iv acc hiv
          obtain ⟨a, ha, hla, -⟩ := hA iv hiv
          rw [rd_eq_ok.mpr ha, R_bind_ok]
          refine ⟨a[i]'(by omega), by rw [rd_ok (by omega), R_bind_ok]; rfl, ?_⟩
          intro a' ha'
          obtain rfl : a = a' := by rw [ha] at ha'; exact Option.some.inj ha'
          exact pf_of_some (List.getElem?_eq_getElem _))
      obtain ⟨X, eX, hlX, hX⟩ := hv c hlc
      refine ⟨X, by rw [ec, R_bind_ok, eX, R_bind_ok]; rfl, hlX, ?_⟩
      intro j hj a ha
      obtain ⟨x, hx, e⟩ := hc j hj
      rw [hX j hj, e a ha, pf_of_some hx])
  rw [eP, R_bind_ok]
  obtain ⟨P, e, hl, h⟩ := forLt_grid (n := nv) (m := nu) (s := List.replicate Q.length (0 : V))
    (g := fun j i => pf (Pt.getD i []) j)
    (body := fun j P => forLt 0 nu (fun i P => do
      let z ← rd Pt i
      let x ← rd z j
      wr P (i + nu * j) x) P) (by rw [List.length_replicate, hQ, Nat.mul_comm])
    (by
      intro j s hj hs
      have hle : nu * j + nu ≤ nv * nu := by
        have := Nat.mul_le_mul_left nu (show j + 1 ≤ nv by omega)
        rw [Nat.mul_comm nv nu]; rw [Nat.mul_add] at this; omega
      obtain ⟨s', e, f1, f2, f3⟩ := forLt_row (m := nu) (off := nu * j) (s := s) (f := fun i => pf (Pt.getD i []) j)
        (body := fun i P => do
          let z ← rd Pt i
          let x ← rd z j
          wr P (i + nu * j) x) (by omega)
        (by
          intro i s' hi hs'
          obtain ⟨z, hz, hlz, -⟩ := hP i hi
          have : Pt.getD i [] = z := by rw [List.getD_eq_getElem?_getD, hz]; rfl
          rw [rd_eq_ok.mpr hz, R_bind_ok, rd_ok (by omega), R_bind_ok, wr_ok (by omega), this,
            pf_of_some (List.getElem?_eq_getElem _)])
      exact ⟨s', e, by omega, f2, fun x hx => f3 x (Or.inl hx)⟩)
  refine ⟨P, e, by rw [hl, Nat.mul_comm], ?_⟩
  intro i j hi hj
  obtain ⟨a, ha, -, haQ⟩ := hA j hj
  rw [← haQ i hi]
  have h1 : ∀ b ∈ Finset.range nv, Mv j b • ∑ a ∈ Finset.range nu, Mu i a • pf P (a + nu * b) =
      ∑ k ∈ Finset.range nu, Mu i k • (Mv j b • pf (Pt.getD k []) b) := by
    intro b hb
    rw [Finset.smul_sum]
    apply Finset.sum_congr rfl
    intro k hk
    rw [pf_of_some (h b k (Finset.mem_range.mp hb) (Finset.mem_range.mp hk)), smul_comm]
  rw [Finset.sum_congr rfl h1, Finset.sum_comm]
  apply Finset.sum_congr rfl
  intro k hk
  rw [← Finset.smul_sum]
  congr 1
  obtain ⟨z, hz, -, hzj⟩ := hP k (Finset.mem_range.mp hk)
  have : Pt.getD k [] = z := by rw [List.getD_eq_getElem?_getD, hz]; rfl
  rw [this]
  exact hzj j hj a ha

/-- `build_poles` for a grid: when the solver solves the two systems, the poles solve the tensor product system. -/
theorem buildPolesGrid_spec {eps junk : K} {dense : ℕ → (ℕ → ℕ → K) → List V → R (List V)} {Q : List V} {ku kv u v : List K} {p q : ℕ}
    (hQ : Q.length = u.length * v.length) {Mu Mv : ℕ → ℕ → K} (eu : gridMatrix eps junk ku u p = .ok Mu)
    (ev : gridMatrix eps junk kv v q = .ok Mv)
    (hu : ∀ B : List V, B.length = u.length → ∃ X, dense u.length Mu B = .ok X ∧ X.length = u.length ∧
      ∀ i, i < u.length → ∑ j ∈ Finset.range u.length, Mu i j • pf X j = pf B i)
    (hv : ∀ B : List V, B.length = v.length → ∃ X, dense v.length Mv B = .ok X ∧ X.length = v.length ∧
      ∀ i, i < v.length → ∑ j ∈ Finset.range v.length, Mv i j • pf X j = pf B i) :
    ∃ P, buildPolesGrid eps junk dense Q ku kv u v p q = .ok P ∧ P.length = u.length * v.length ∧
      ∀ i j, i < u.length → j < v.length → ∑ b ∈ Finset.range v.length, Mv j b • ∑ a ∈ Finset.range u.length,
        Mu i a • pf P (a + u.length * b) = pf Q (i + u.length * j) := by
  unfold buildPolesGrid
  rw [if_neg (by omega), eu, R_bind_ok, ev, R_bind_ok]
  exact tensorSolve_spec hQ hu hv

/-- The matrix of one direction is the collocation matrix. -/
theorem gridMatrix_spec {ku u : List K} {p : ℕ} (hU : KWf p ku u.length) (hp : p ≤ stackMaxDegree) (eps junk : K) :
    ∃ sp M, Spans ku u p u.length sp ∧ gridMatrix eps junk ku u p = .ok M ∧
      ∀ r c, r < u.length → c < u.length → M r c = coll ku u p 1 sp r c := by
  obtain ⟨sp, hsp⟩ := exists_spans hU u
  have hget : ∀ i x, (u.map fun x => (⟨x, 0, 0⟩ : Constr K K))[i]? = some x → i < u.length ∧ x = ⟨kf u i, 0, 0⟩ := by
    intro i x hx
    rw [List.getElem?_map] at hx
    cases h : u[i]? with
    | none => rw [h] at hx; cases hx
    | some y =>
      rw [h] at hx
      obtain ⟨hi, hy⟩ := kf_of_some h
      exact ⟨hi, by rw [← Option.some.inj hx]; rw [hy]⟩
  have hspC : SpansC ku p u.length (u.map fun x => (⟨x, 0, 0⟩ : Constr K K)) sp := by
    refine ⟨?_, ?_, ?_, ?_⟩
    · intro i x hx
      obtain ⟨hi, rfl⟩ := hget i x hx
      exact hsp.find i hi
    · intro i hi; exact hsp.lo i (by simpa using hi)
    · intro i hi; exact hsp.hi i (by simpa using hi)
    · intro i hi; exact hsp.pos i (by simpa using hi)
  obtain ⟨M, e, hM⟩ := fillRows_spec hU hp hspC (by simp) eps junk
  refine ⟨sp, M, hsp, e, ?_⟩
  intro r c hr hc
  rw [hM r c hr hc, collC_row (x := ⟨kf u r, 0, 0⟩) (by rw [List.getElem?_map, kf_getElem? hr]; rfl)]
  unfold coll
  rw [Nat.mod_one, Nat.div_one]

/-! ## Constraints -/

/-- Collocation matrix of the constraints of a surface. -/
noncomputable def collS (ku kv : List K) (p q n : ℕ) (cs : List (SConstr K V)) (su sv : ℕ → ℕ) (r c : ℕ) : K :=
  match cs[r]? with
  | none => 0
  | some x => (derivative^[x.du] (Bp (kf ku) (su r) p (c % n))).eval x.u * (derivative^[x.dv] (Bp (kf kv) (sv r) q (c / n))).eval x.v

theorem collS_row {ku kv : List K} {p q n : ℕ} {cs : List (SConstr K V)} {su sv : ℕ → ℕ} {r : ℕ} {x : SConstr K V} (hx : cs[r]? = some x) (c : ℕ) :
    collS ku kv p q n cs su sv r c =
      (derivative^[x.du] (Bp (kf ku) (su r) p (c % n))).eval x.u * (derivative^[x.dv] (Bp (kf kv) (sv r) q (c / n))).eval x.v := by
  unfold collS; rw [hx]

theorem bp_der_out {t : ℕ → K} {s p c d : ℕ} (hc : s < c ∨ c + p < s) (u : K) : (derivative^[d] (Bp t s p c)).eval u = 0 := by
  rw [Bp_eq_zero _ _ _ _ hc, iterate_derivative_zero]; simp

theorem bp_der_high {t : ℕ → K} {s p c d : ℕ} (hd : p < d) (u : K) : (derivative^[d] (Bp t s p c)).eval u = 0 := by
  rw [iterate_derivative_eq_zero (lt_of_le_of_lt (Bp_natDegree _ _ _ _) hd)]; simp

theorem sum_range_grid {M : Type} [AddCommMonoid M] (n m : ℕ) (f : ℕ → M) :
    ∑ c ∈ Finset.range (n * m), f c = ∑ b ∈ Finset.range m, ∑ a ∈ Finset.range n, f (a + n * b) := by
  induction m with
  | zero => simp
  | succ m ih =>
    rw [Nat.mul_succ, Finset.sum_range_add, ih, Finset.sum_range_succ]
    congr 1
    exact Finset.sum_congr rfl fun a _ => by rw [Nat.add_comm]

/-- A row of the matrix applied to the poles is the evaluation of the surface. -/
theorem sum_collS {W : Type} [AddCommGroup W] [Module K W] {ku kv : List K} {p q n m : ℕ} {cs : List (SConstr K V)} {su sv : ℕ → ℕ} {r : ℕ}
    {x : SConstr K V} (hx : cs[r]? = some x) (P : ℕ → W) : ∑ c ∈ Finset.range (n * m), collS ku kv p q n cs su sv r c • P c =
      surfDer (kf ku) n p (su r) (kf kv) m q (sv r) P x.du x.dv x.u x.v := by
  rw [sum_range_grid]
  unfold surfDer spanDer
  apply Finset.sum_congr rfl
  intro b _
  rw [Finset.smul_sum]
  apply Finset.sum_congr rfl
  intro a ha
  have ha := Finset.mem_range.mp ha
  rw [collS_row hx, Nat.add_mul_mod_self_left, Nat.mod_eq_of_lt ha, Nat.add_mul_div_left _ _ (by omega), Nat.div_eq_of_lt ha, Nat.zero_add,
    smul_smul, mul_comm]

/-- Spans of the constraints. -/
structure SpansS (ku kv : List K) (p q n m : ℕ) (cs : List (SConstr K V)) (su sv : ℕ → ℕ) : Prop where
  u : ∀ i x, cs[i]? = some x → findSpan n p x.u ku = .ok (su i) ∧ p ≤ su i ∧ su i < n ∧ kf ku (su i) < kf ku (su i + 1)
  v : ∀ i x, cs[i]? = some x → findSpan m q x.v kv = .ok (sv i) ∧ q ≤ sv i ∧ sv i < m ∧ kf kv (sv i) < kf kv (sv i + 1)

theorem exists_spansS {ku kv : List K} {p q n m : ℕ} (hU : KWf p ku n) (hV : KWf q kv m) (cs : List (SConstr K V)) :
    ∃ su sv, SpansS ku kv p q n m cs su sv := by
  have key : ∀ {k : List K} {p n : ℕ} (_ : KWf p k n) (f : SConstr K V → K), ∃ su : ℕ → ℕ, ∀ (i : ℕ) x, cs[i]? = some x →
      findSpan n p (f x) k = .ok (su i) ∧ p ≤ su i ∧ su i < n ∧ kf k (su i) < kf k (su i + 1) := by
    intro k p n h f
    have : ∀ i : ℕ, ∃ s, ∀ x, cs[i]? = some x → findSpan n p (f x) k = .ok s ∧ p ≤ s ∧ s < n ∧ kf k s < kf k (s + 1) := by
      intro i
      cases hc : cs[i]? with
      | none => exact ⟨0, fun x hx => by cases hx⟩
      | some y =>
        obtain ⟨s, e, a1, a2, a3, -⟩ := findSpan_kwf h (f y)
        exact ⟨s, fun x hx => by obtain rfl := Option.some.inj hx; exact ⟨e, a1, a2, a3⟩⟩
    choose su hsu using this
    exact ⟨su, hsu⟩
  obtain ⟨su, h1⟩ := key hU SConstr.u
  obtain ⟨sv, h2⟩ := key hV SConstr.v
  exact ⟨su, sv, h1, h2⟩

theorem extent_of_span {n p s : ℕ} {u : K} {k : List K} (e : findSpan n p u k = .ok s) (h1 : p ≤ s) (h2 : s < n) :
    basisBandExtent n p u k = .ok (s, s - p, p) := by
  unfold basisBandExtent
  rw [e, R_bind_ok]
  dsimp only
  rw [if_pos h1, if_pos (by omega)]
  rfl

/-- A column of the grid of poles. -/
theorem grid_col {n a b c : ℕ} (ha : a < n) : c = a + n * b ↔ c % n = a ∧ c / n = b := by
  constructor
  · rintro rfl
    rw [Nat.add_mul_mod_self_left, Nat.mod_eq_of_lt ha, Nat.add_mul_div_left _ _ (by omega), Nat.div_eq_of_lt ha, Nat.zero_add]
    exact ⟨rfl, rfl⟩
  · rintro ⟨rfl, rfl⟩
    exact (Nat.mod_add_div c n).symm

/-- One row: the entries of the other rows are kept. -/
theorem surfConstrRow_spec {ku kv : List K} {p q n m : ℕ} (hU : KWf p ku n) (hV : KWf q kv m) (hp : p ≤ stackMaxDegree) (hq : q ≤ stackMaxDegree)
    {cs : List (SConstr K V)} {su sv : ℕ → ℕ} (hsp : SpansS ku kv p q n m cs su sv) {k : ℕ} {x : SConstr K V} (hx : cs[k]? = some x)
    {nr : ℕ} (hk : k < nr) {N : ℕ → ℕ → K} (h0 : ∀ c, c < n * m → N k c = 0) (eps junk : K) :
    ∃ N', surfConstrRow eps junk ku kv p q n m nr (n * m) k x N = .ok N' ∧ (∀ r c, r ≠ k → N' r c = N r c) ∧
      ∀ c, c < n * m → N' k c = collS ku kv p q n cs su sv k c := by
  unfold surfConstrRow
  by_cases hd : p < x.du ∨ q < x.dv
  · rw [if_pos hd]
    refine ⟨N, rfl, fun _ _ _ => rfl, ?_⟩
    intro c hc
    rw [h0 c hc, collS_row hx]
    rcases hd with h | h
    · rw [bp_der_high h, zero_mul]
    · rw [bp_der_high h, mul_zero]
  push Not at hd
  rw [if_neg (by omega)]
  obtain ⟨e1, a1, a2, a3⟩ := hsp.u k x hx
  obtain ⟨e2, b1, b2, b3⟩ := hsp.v k x hx
  rw [extent_of_span e1 a1 a2, R_bind_ok, extent_of_span e2 b1 b2, R_bind_ok, if_pos ⟨hp, hq⟩]
  dsimp only
  obtain ⟨Du, eDu, hDu⟩ := basisDers_spec hU.sorted a1 (by rw [hU.len]; omega) a3 hd.1 hp x.u junk
  obtain ⟨Dv, eDv, hDv⟩ := basisDers_spec hV.sorted b1 (by rw [hV.len]; omega) b3 hd.2 hq x.v junk
  rw [eDu, R_bind_ok, eDv, R_bind_ok]
  set i0 := su k - p with hi0
  set j0 := sv k - q with hj0
  obtain ⟨N', e', h1, h2⟩ := forLe_inv (a := 0) (b := q) (s := N)
    (body := fun jj N => forLe 0 p (fun ii N => do
      let a ← rd Du ii
      let b ← rd Dv jj
      matSet nr (n * m) N k (i0 + ii + n * (j0 + jj)) (a * b)) N)
    (fun jj N' => (∀ r c, r ≠ k → N' r c = N r c) ∧ ∀ c, c < n * m → N' k c =
      if j0 ≤ c / n ∧ c / n < j0 + jj ∧ i0 ≤ c % n ∧ c % n ≤ i0 + p then collS ku kv p q n cs su sv k c else 0)
    (by omega)
    ⟨fun _ _ _ => rfl, fun c hc => by rw [if_neg (by omega)]; exact h0 c hc⟩
    (by
      rintro jj N1 - hjj ⟨g1, g2⟩
      obtain ⟨N', e', h1, h2⟩ := forLe_inv (a := 0) (b := p) (s := N1)
        (body := fun ii N => do
          let a ← rd Du ii
          let b ← rd Dv jj
          matSet nr (n * m) N k (i0 + ii + n * (j0 + jj)) (a * b))
        (fun ii N' => (∀ r c, r ≠ k → N' r c = N r c) ∧ ∀ c, c < n * m → N' k c =
          if (j0 ≤ c / n ∧ c / n < j0 + jj ∧ i0 ≤ c % n ∧ c % n ≤ i0 + p) ∨ (c / n = j0 + jj ∧ i0 ≤ c % n ∧ c % n < i0 + ii) then
            collS ku kv p q n cs su sv k c else 0)
        (by omega)
        ⟨g1, fun c hc => by
          rw [g2 c hc]
          split <;> rename_i h
          · rw [if_pos (Or.inl h)]
          · rw [if_neg (by omega)]⟩
        (by
          rintro ii N2 - hii ⟨f1, f2⟩
          rw [rd_eq_ok.mpr (hDu ii hii), R_bind_ok, rd_eq_ok.mpr (hDv jj hjj), R_bind_ok]
          have hcol : i0 + ii + n * (j0 + jj) < n * m := grid_lt (by omega) (by omega)
          unfold matSet
          rw [if_pos ⟨hk, hcol⟩]
          refine ⟨_, rfl, ?_, ?_⟩
          · intro r c hr
            rw [if_neg (fun h => hr h.1)]
            exact f1 r c hr
          · intro c hc
            by_cases hcc : c = i0 + ii + n * (j0 + jj)
            · obtain ⟨m1, m2⟩ := (grid_col (show i0 + ii < n by omega)).mp hcc
              rw [if_pos ⟨rfl, hcc⟩, if_pos (Or.inr ⟨m2, by omega, by omega⟩), collS_row hx, m1, m2]
            · rw [if_neg (fun h => hcc h.2), f2 c hc]
              have hne : ¬ (c % n = i0 + ii ∧ c / n = j0 + jj) := fun h => hcc ((grid_col (by omega)).mpr h)
              split <;> rename_i h
              · rw [if_pos (by omega)]
              · rw [if_neg (by omega)])
      refine ⟨N', e', h1, ?_⟩
      intro c hc
      rw [h2 c hc]
      split <;> rename_i h
      · rw [if_pos (by omega)]
      · rw [if_neg (by omega)])
  refine ⟨N', e', h1, ?_⟩
  intro c hc
  rw [h2 c hc]
  split
  · rfl
  · rename_i h
    rw [collS_row hx]
    by_cases hu' : i0 ≤ c % n ∧ c % n ≤ i0 + p
    · rw [bp_der_out (s := sv k) (c := c / n) (by omega), mul_zero]
    · rw [bp_der_out (s := su k) (c := c % n) (by omega), zero_mul]

/-- The matrix of `build_poles` for constraints. -/
theorem surfConstrRows_spec {ku kv : List K} {p q n m : ℕ} (hU : KWf p ku n) (hV : KWf q kv m) (hp : p ≤ stackMaxDegree)
    (hq : q ≤ stackMaxDegree) {cs : List (SConstr K V)} {su sv : ℕ → ℕ} (hsp : SpansS ku kv p q n m cs su sv) (eps junk : K) :
    ∃ N, surfConstrMatrix eps junk ku kv p q n m (n * m) cs = .ok N ∧
      ∀ r c, r < cs.length → c < n * m → N r c = collS ku kv p q n cs su sv r c := by
  obtain ⟨N, e, h1, h2⟩ := forLt_inv (a := 0) (b := cs.length) (s := (fun _ _ => 0 : ℕ → ℕ → K))
    (body := fun k N => do
        let c ← rd cs k
        surfConstrRow eps junk ku kv p q n m cs.length (n * m) k c N)
    (fun k N => (∀ r c, r < k → c < n * m → N r c = collS ku kv p q n cs su sv r c) ∧ ∀ r c, k ≤ r → N r c = 0)
    (by omega) ⟨by intro r c h; omega, fun _ _ _ => rfl⟩
    (by
      rintro k N - hk ⟨g1, g2⟩
      rw [rd_ok hk, R_bind_ok]
      obtain ⟨N', e', f1, f2⟩ := surfConstrRow_spec hU hV hp hq hsp (List.getElem?_eq_getElem hk) hk (N := N)
        (fun c _ => g2 k c le_rfl) eps junk
      refine ⟨N', e', ?_, ?_⟩
      · intro r c hr hc
        by_cases h : r = k
        · rw [h]; exact f2 c hc
        · rw [f1 r c h]; exact g1 r c (by omega) hc
      · intro r c hr
        rw [f1 r c (by omega)]; exact g2 r c (by omega))
  exact ⟨N, e, fun r c hr hc => h1 r c (by omega) hc⟩

end Gbs
