import Verif.Model.SurfApprox
import Verif.Props.Approx
import Verif.Props.SurfInterp
import Mathlib.LinearAlgebra.FiniteDimensional.Lemmas
import Mathlib.LinearAlgebra.Matrix.ToLin

/-!
# C80: least-squares approximation by surfaces
-/

namespace Gbs

set_option linter.unusedSectionVars false

open Polynomial
open scoped BigOperators

variable {K : Type} [Field K] [LinearOrder K] [IsStrictOrderedRing K]
variable {V : Type} [AddCommGroup V] [Module K V]
variable {dim : ℕ}

/-- `s` is the sum of the squares of the distances between the values or derivatives of the surface of poles `P` and the constraints. -/
def Spec.SurfSquareSum (eps : K) (ku kv : List K) (p q : ℕ) (cs : List (SConstr K (Fin dim → K))) (P : List (Fin dim → K)) (s : K) : Prop :=
  ∃ X : List (Fin dim → K), (∀ (i : ℕ) x, cs[i]? = some x → ∀ junk, evalSurf eps junk x.u x.v ku kv P p q x.du x.dv = .ok (pf X i)) ∧
    s = ∑ i ∈ Finset.range cs.length, Spec.sqDist (pf X i) (pf (cs.map SConstr.x) i)

/-- `P` is the only list of `n` poles with the least sum of squares. -/
def Spec.SurfLeastSquares (eps : K) (ku kv : List K) (p q n : ℕ) (cs : List (SConstr K (Fin dim → K))) (P : List (Fin dim → K)) : Prop :=
  P.length = n ∧ ∃ s, Spec.SurfSquareSum eps ku kv p q cs P s ∧
    ∀ P', P'.length = n → ∃ s', Spec.SurfSquareSum eps ku kv p q cs P' s' ∧ s ≤ s' ∧ (s' = s → P' = P)

/-- The points of a grid as constraints: point `(i, j)` is at `i + u.length * j`. -/
def Spec.gridOf (u v : List K) (Q : List V) : List (SConstr K V) :=
  (List.range (u.length * v.length)).map fun k => ⟨kf u (k % u.length), kf v (k / u.length), pf Q k, 0, 0⟩

/-- What is assumed of a least-squares solver: when the rows determine the unknowns, the residual is orthogonal to the columns. -/
def Spec.SolvesLeast (lsq : ℕ → ℕ → (ℕ → ℕ → K) → List V → R (List V)) : Prop :=
  ∀ (m n : ℕ) (N : ℕ → ℕ → K) (B : List V), B.length = m →
    (∀ x : ℕ → K, (∀ r, r < m → ∑ j ∈ Finset.range n, N r j * x j = 0) → ∀ j, j < n → x j = 0) →
    ∃ X, lsq m n N B = .ok X ∧ X.length = n ∧
      ∀ i, i < n → ∑ r ∈ Finset.range m, N r i • (∑ j ∈ Finset.range n, N r j • pf X j - pf B r) = 0

theorem normal_apply_smul (m n : ℕ) (N : ℕ → ℕ → K) (x : ℕ → V) (i : ℕ) :
    ∑ j ∈ Finset.range n, normalMatrix m N i j • x j = ∑ r ∈ Finset.range m, N r i • ∑ j ∈ Finset.range n, N r j • x j := by
  unfold normalMatrix
  simp only [Finset.sum_smul, Finset.smul_sum, mul_smul]
  rw [Finset.sum_comm]

/-- Such a solver exists. -/
theorem exists_solvesLeast : ∃ lsq : ℕ → ℕ → (ℕ → ℕ → K) → List V → R (List V), Spec.SolvesLeast lsq := by
  obtain ⟨dense, hd⟩ := exists_solvesDense (K := K) (V := V)
  refine ⟨fun m n N B => dense n (normalMatrix m N) (normalRhs m n N B), ?_⟩
  intro m n N B hB hker
  obtain ⟨X, e, hl, hX⟩ := hd n (normalMatrix m N) (normalRhs m n N B) (by simp [normalRhs]) (regular_normal hker)
  refine ⟨X, e, hl, fun i hi => ?_⟩
  simp only [smul_sub, Finset.sum_sub_distrib]
  rw [← normal_apply_smul, hX i hi, pf_normalRhs N B hi, sub_self]

/-- The value at a constraint, with the row of the matrix. -/
theorem evalSurf_collS {W : Type} [AddCommGroup W] [Module K W] {eps : K} {p q n m : ℕ} (hp : p ≤ stackMaxDegree) (hq : q ≤ stackMaxDegree)
    {ku kv : List K} (hU : KWf p ku n) (hV : KWf q kv m) {cs : List (SConstr K V)} {su sv : ℕ → ℕ} (hsp : SpansS ku kv p q n m cs su sv)
    {P : List W} (hP : P.length = n * m) {i : ℕ} {x : SConstr K V} (hx : cs[i]? = some x) (junk : K) :
    evalSurf eps junk x.u x.v ku kv P p q x.du x.dv = .ok (∑ c ∈ Finset.range (n * m), collS ku kv p q n cs su sv i c • pf P c) := by
  rw [evalSurf_spec (eps := eps) hU hV hP (Or.inl ⟨hp, hq⟩) x.du x.dv (hsp.u i x hx).1 (hsp.v i x hx).1, sum_collS (cs := cs) hx]

theorem squareSum_collS {eps : K} {p q n m : ℕ} (hp : p ≤ stackMaxDegree) (hq : q ≤ stackMaxDegree)
    {ku kv : List K} (hU : KWf p ku n) (hV : KWf q kv m) {cs : List (SConstr K (Fin dim → K))} {su sv : ℕ → ℕ}
    (hsp : SpansS ku kv p q n m cs su sv) {P : List (Fin dim → K)} (hP : P.length = n * m) :
    Spec.SurfSquareSum eps ku kv p q cs P (∑ r ∈ Finset.range cs.length,
      Spec.sqDist (∑ c ∈ Finset.range (n * m), collS ku kv p q n cs su sv r c • pf P c) (pf (cs.map SConstr.x) r)) := by
  refine ⟨(List.range cs.length).map fun r => ∑ c ∈ Finset.range (n * m), collS ku kv p q n cs su sv r c • pf P c, ?_, ?_⟩
  · intro i x hx junk
    have hi : i < cs.length := by
      by_contra hc
      rw [List.getElem?_eq_none (by omega)] at hx
      cases hx
    rw [pf_map_range _ hi]
    exact evalSurf_collS hp hq hU hV hsp hP hx junk
  · exact Finset.sum_congr rfl fun r hr => by rw [pf_map_range _ (Finset.mem_range.mp hr)]

theorem unisolvent_rows {eps : K} {p q n m : ℕ} (hp : p ≤ stackMaxDegree) (hq : q ≤ stackMaxDegree)
    {ku kv : List K} (hU : KWf p ku n) (hV : KWf q kv m) {cs : List (SConstr K V)} {su sv : ℕ → ℕ}
    (hsp : SpansS ku kv p q n m cs su sv) : Spec.Unisolvent eps ku kv p q (n * m) cs ↔
      ∀ x : ℕ → K, (∀ r, r < cs.length → ∑ c ∈ Finset.range (n * m), collS ku kv p q n cs su sv r c * x c = 0) → ∀ j, j < n * m → x j = 0 := by
  constructor
  · intro h x hx j hj
    refine h ((List.range (n * m)).map x) (by simp) ?_ (x j) (List.mem_map.mpr ⟨j, List.mem_range.mpr hj, rfl⟩)
    intro c hc junk
    obtain ⟨i, hi⟩ := List.getElem?_of_mem hc
    have hil : i < cs.length := by
      by_contra hc
      rw [List.getElem?_eq_none (by omega)] at hi
      cases hi
    rw [evalSurf_collS hp hq hU hV hsp (by simp) hi junk, ← hx i hil]
    congr 1
    exact Finset.sum_congr rfl fun j hj => by rw [pf_map_range x (Finset.mem_range.mp hj), smul_eq_mul]
  · intro h P hP he y hy
    obtain ⟨j, hj, rfl⟩ := List.getElem_of_mem hy
    have := h (pf P) (by
      intro r hr
      have hx := List.getElem?_eq_getElem hr
      have := he _ (List.getElem_mem hr) 0
      rw [evalSurf_collS hp hq hU hV hsp hP hx 0] at this
      have := Except.ok.inj this
      simpa only [smul_eq_mul] using this) j (by omega)
    rwa [pf_of_some (List.getElem?_eq_getElem hj)] at this

/-- The solution of the normal equations. -/
theorem surfLeast_of_normal {eps : K} {p q n m : ℕ} (hp : p ≤ stackMaxDegree) (hq : q ≤ stackMaxDegree)
    {ku kv : List K} (hU : KWf p ku n) (hV : KWf q kv m) {cs : List (SConstr K (Fin dim → K))} {su sv : ℕ → ℕ}
    (hsp : SpansS ku kv p q n m cs su sv) (hdet : Spec.Unisolvent eps ku kv p q (n * m) cs) {P : List (Fin dim → K)} (hP : P.length = n * m)
    (hn : ∀ i, i < n * m → ∑ j ∈ Finset.range (n * m), normalMatrix cs.length (collS ku kv p q n cs su sv) i j • pf P j =
      ∑ r ∈ Finset.range cs.length, collS ku kv p q n cs su sv r i • pf (cs.map SConstr.x) r) :
    Spec.SurfLeastSquares eps ku kv p q (n * m) cs P := by
  refine ⟨hP, _, squareSum_collS hp hq hU hV hsp hP, ?_⟩
  intro P' hP'
  refine ⟨_, squareSum_collS hp hq hU hV hsp hP', lsq_min_vec hn (pf P'), ?_⟩
  intro he
  refine pf_ext (by omega) fun j hj => ?_
  exact lsq_unique_vec hn ((unisolvent_rows (eps := eps) hp hq hU hV hsp).mp hdet) (Y := pf P') he.le j (by omega)

/-- C80, `approx` for constraints on clamped knots: for at least as many constraints as poles, when the constraints determine the poles, the
result is the surface on these knots whose poles are the only ones that minimize the sum of the squares of the distances to the
constraints, which are values or derivatives of any orders at parameters of the domain. -/
theorem C80_approx_constraints {eps : K} (heps : 0 < eps) (junk : K) {p q n m : ℕ} (hp : p ≤ stackMaxDegree) (hq : q ≤ stackMaxDegree)
    {lsq : ℕ → ℕ → (ℕ → ℕ → K) → List (Fin dim → K) → R (List (Fin dim → K))} (hS : Spec.SolvesLeast lsq)
    {cs : List (SConstr K (Fin dim → K))} {ku kv : List K} (hU : KWf p ku n) (hV : KWf q kv m)
    (hu0 : kf ku 0 = kf ku p) (hu1 : kLast ku = kf ku n) (hv0 : kf kv 0 = kf kv q) (hv1 : kLast kv = kf kv m)
    (hmem : (n + p + 1) * (m + q + 1) < 2 ^ 64) (hn : n * m ≤ cs.length)
    (hin : ∀ x ∈ cs, kf ku p ≤ x.u ∧ x.u ≤ kf ku n ∧ kf kv q ≤ x.v ∧ x.v ≤ kf kv m)
    (hdet : Spec.Unisolvent eps ku kv p q (n * m) cs) :
    ∃ s, approxSurfConstr eps junk lsq cs ku kv p q = .ok s ∧ s.Wf ∧ s = ⟨p, q, s.poles, ku, kv, kf ku p, kf ku n, kf kv q, kf kv m⟩ ∧
      Spec.SurfLeastSquares eps ku kv p q (n * m) cs s.poles ∧
      ∀ x ∈ cs, ∀ junk', s.value eps junk' x.u x.v x.du x.dv = evalSurf eps junk' x.u x.v ku kv s.poles p q x.du x.dv := by
  obtain ⟨su, sv, hsp⟩ := exists_spansS hU hV cs
  obtain ⟨N, eN, hN⟩ := surfConstrRows_spec hU hV hp hq hsp eps junk
  have hrow := (unisolvent_rows (eps := eps) hp hq hU hV hsp).mp hdet
  obtain ⟨X, eX, hlX, hX⟩ := hS cs.length (n * m) N (cs.map SConstr.x) (by simp) (by
    intro x hx
    apply hrow
    intro r hr
    rw [← hx r hr]
    exact Finset.sum_congr rfl fun j hj => by rw [hN r j hr (Finset.mem_range.mp hj)])
  obtain ⟨s, es, hs, hwf, hval⟩ := surf_clamped heps hU hV hlX hp hq hmem hu0 hu1 hv0 hv1
  have hlu := hU.len
  have hlv := hV.len
  have hmu := hU.min
  have hmv := hV.min
  have hpol : s.poles = X := by rw [hs]
  refine ⟨s, ?_, hwf, by rw [hpol, ← hs], ?_, ?_⟩
  · unfold approxSurfConstr checkApproxSizesSurf
    rw [usub_ok (by omega), R_bind_ok, usub_ok (by omega), R_bind_ok, show ku.length - (p + 1) = n by omega,
      show kv.length - (q + 1) = m by omega, if_neg (by omega), if_neg (by omega), R_pure, R_bind_ok, eN, R_bind_ok, eX, R_bind_ok,
      copy_loop hlX, R_bind_ok, es]
  · rw [hpol]
    refine surfLeast_of_normal hp hq hU hV hsp hdet hlX ?_
    intro i hi
    rw [normal_apply_smul]
    have := hX i hi
    simp only [smul_sub, Finset.sum_sub_distrib] at this
    have := sub_eq_zero.mp this
    have key : ∀ Y : ℕ → Fin dim → K, ∑ r ∈ Finset.range cs.length, N r i • Y r =
        ∑ r ∈ Finset.range cs.length, collS ku kv p q n cs su sv r i • Y r := fun Y =>
      Finset.sum_congr rfl fun r hr => by rw [hN r i (Finset.mem_range.mp hr) hi]
    rw [key, key] at this
    rw [← this]
    refine Finset.sum_congr rfl fun r hr => ?_
    congr 1
    exact Finset.sum_congr rfl fun j hj => by rw [hN r j (Finset.mem_range.mp hr) (Finset.mem_range.mp hj)]
  · intro x hx junk'
    obtain ⟨i, hi⟩ := List.getElem?_of_mem hx
    obtain ⟨h1, h2, h3, h4⟩ := hin x hx
    rw [hpol, hval x.u x.v _ _ h1 h2 h3 h4 (hsp.u i x hi).1 (hsp.v i x hi).1,
      evalSurf_spec (eps := eps) hU hV hlX (Or.inl ⟨hp, hq⟩) x.du x.dv (hsp.u i x hi).1 (hsp.v i x hi).1]

/-! ## Grids -/

/-- The matrix of one direction. -/
theorem fillMatrix_params {k u : List K} {p n : ℕ} {sp : ℕ → ℕ} (hU : KWf p k n) (hp : p ≤ stackMaxDegree) (hsp : Spans k u p n sp) (eps junk : K) :
    ∃ N, fillMatrix eps junk k p n (u.map fun x => (⟨x, 0, 0⟩ : Constr K K)) = .ok N ∧
      ∀ r c, r < u.length → c < n → N r c = coll k u p 1 sp r c := by
  have hget : ∀ (i : ℕ) x, (u.map fun x => (⟨x, 0, 0⟩ : Constr K K))[i]? = some x → i < u.length ∧ x = ⟨kf u i, 0, 0⟩ := by
    intro i x hx
    rw [List.getElem?_map] at hx
    cases h : u[i]? with
    | none => rw [h] at hx; cases hx
    | some y =>
      rw [h] at hx
      obtain ⟨hi, hy⟩ := kf_of_some h
      exact ⟨hi, by rw [hy]; exact (Option.some.inj hx).symm⟩
  have hspC : SpansC k p n (u.map fun x => (⟨x, 0, 0⟩ : Constr K K)) sp := by
    refine ⟨?_, ?_, ?_, ?_⟩
    · intro i x hx
      obtain ⟨hi, rfl⟩ := hget i x hx
      exact hsp.find i hi
    · intro i hi; exact hsp.lo i (by simpa using hi)
    · intro i hi; exact hsp.hi i (by simpa using hi)
    · intro i hi; exact hsp.pos i (by simpa using hi)
  obtain ⟨N, e, hN⟩ := fillMatrix_spec hU hp hspC eps junk
  refine ⟨N, e, ?_⟩
  intro r c hr hc
  rw [hN r c (by simpa using hr) hc, collC_row (x := ⟨kf u r, 0, 0⟩) (by rw [List.getElem?_map, kf_getElem? hr]; rfl), coll_one]
  rfl

theorem gridOf_length (u v : List K) (Q : List V) : (Spec.gridOf u v Q).length = u.length * v.length := by simp [Spec.gridOf]

theorem gridOf_get {u v : List K} {Q : List V} {k : ℕ} {x : SConstr K V} (h : (Spec.gridOf u v Q)[k]? = some x) :
    k % u.length < u.length ∧ k / u.length < v.length ∧ x = ⟨kf u (k % u.length), kf v (k / u.length), pf Q k, 0, 0⟩ := by
  have hk : k < u.length * v.length := by
    by_contra hc
    rw [List.getElem?_eq_none (by rw [gridOf_length]; omega)] at h
    cases h
  have hpos : 0 < u.length := by
    rcases Nat.eq_zero_or_pos u.length with h0 | h0
    · rw [h0, Nat.zero_mul] at hk; omega
    · exact h0
  refine ⟨Nat.mod_lt _ hpos, Nat.div_lt_of_lt_mul hk, ?_⟩
  rw [Spec.gridOf, List.getElem?_map, List.getElem?_range hk] at h
  exact (Option.some.inj h).symm

theorem gridOf_at {u v : List K} (Q : List V) {r s : ℕ} (hr : r < u.length) (hs : s < v.length) :
    (Spec.gridOf u v Q)[r + u.length * s]? = some ⟨kf u r, kf v s, pf Q (r + u.length * s), 0, 0⟩ := by
  rw [Spec.gridOf, List.getElem?_map, List.getElem?_range (grid_lt hr hs)]
  obtain ⟨h1, h2⟩ := (grid_col (c := r + u.length * s) hr).mp rfl
  rw [Option.map_some, h1, h2]

theorem gridOf_spans {ku kv u v : List K} {p q n m : ℕ} {su sv : ℕ → ℕ} (hsu : Spans ku u p n su) (hsv : Spans kv v q m sv) (Q : List V) :
    SpansS ku kv p q n m (Spec.gridOf u v Q) (fun k => su (k % u.length)) (fun k => sv (k / u.length)) := by
  constructor
  · intro i x hx
    obtain ⟨h1, h2, rfl⟩ := gridOf_get hx
    exact ⟨hsu.find _ h1, hsu.lo _ h1, hsu.hi _ h1, hsu.pos _ h1⟩
  · intro i x hx
    obtain ⟨h1, h2, rfl⟩ := gridOf_get hx
    exact ⟨hsv.find _ h2, hsv.lo _ h2, hsv.hi _ h2, hsv.pos _ h2⟩

theorem gridOf_coll {ku kv u v : List K} {p q n : ℕ} {su sv : ℕ → ℕ} (Q : List V) {r s a b : ℕ} (hr : r < u.length) (hs : s < v.length)
    (ha : a < n) : collS ku kv p q n (Spec.gridOf u v Q) (fun k => su (k % u.length)) (fun k => sv (k / u.length)) (r + u.length * s) (a + n * b) =
      coll ku u p 1 su r a * coll kv v q 1 sv s b := by
  obtain ⟨h1, h2⟩ := (grid_col (c := r + u.length * s) hr).mp rfl
  obtain ⟨h3, h4⟩ := (grid_col (c := a + n * b) ha).mp rfl
  rw [collS_row (gridOf_at Q hr hs), coll_one, coll_one, h3, h4]
  show (derivative^[0] (Bp (kf ku) (su ((r + u.length * s) % u.length)) p a)).eval _ * (derivative^[0] (Bp (kf kv) (sv ((r + u.length * s) / u.length)) q b)).eval _ = _
  rw [h1, h2]
  rfl

/-- The sum over the columns of a row of the grid. -/
theorem gridOf_row {W : Type} [AddCommGroup W] [Module K W] {ku kv u v : List K} {p q n m : ℕ} {su sv : ℕ → ℕ} (Q : List V) {r s : ℕ}
    (hr : r < u.length) (hs : s < v.length) (x : ℕ → W) :
    ∑ c ∈ Finset.range (n * m), collS ku kv p q n (Spec.gridOf u v Q) (fun k => su (k % u.length)) (fun k => sv (k / u.length))
      (r + u.length * s) c • x c =
      ∑ b ∈ Finset.range m, coll kv v q 1 sv s b • ∑ a ∈ Finset.range n, coll ku u p 1 su r a • x (a + n * b) := by
  rw [sum_range_grid]
  refine Finset.sum_congr rfl fun b _ => ?_
  rw [Finset.smul_sum]
  refine Finset.sum_congr rfl fun a ha => ?_
  rw [gridOf_coll Q hr hs (Finset.mem_range.mp ha), mul_comm, mul_smul]

theorem Determines.iff_rows {eps : K} (heps : 0 < eps) {k : List K} {p n : ℕ} (hU : KWf p k n) (hp : p ≤ stackMaxDegree) {u : List K}
    {sp : ℕ → ℕ} (hsp : Spans k u p n sp) (hin : ∀ x ∈ u, kf k p ≤ x ∧ x ≤ kf k n) : Spec.Determines eps k p n u ↔
      ∀ x : ℕ → K, (∀ r, r < u.length → ∑ j ∈ Finset.range n, coll k u p 1 sp r j * x j = 0) → ∀ j, j < n → x j = 0 := by
  refine ⟨fun h => Determines.rows heps hU hp hsp hin h, ?_⟩
  intro h P hP he y hy
  obtain ⟨j, hj, rfl⟩ := List.getElem_of_mem hy
  have := h (pf P) (by
    intro r hr
    have hmem : kf u r ∈ u := kf_mem (by intro h; rw [h] at hr; simp at hr) r
    obtain ⟨h1, h2⟩ := hin _ hmem
    have hg : (⟨p, P, k, kf k p, kf k P.length⟩ : Curve K K).Good := ⟨hU.wf hP, rfl, rfl⟩
    have := he _ hmem 0
    rw [evalValue_all (hU.wf hP) (Curve.evalOk heps hg (Or.inl hp) h1 (by show kf u r < kf k P.length + eps; rw [hP]; linarith)) 0
      (by rw [hP]; exact hsp.find r hr), hP] at this
    rw [← Except.ok.inj this]
    unfold spanDer
    exact Finset.sum_congr rfl fun c _ => by rw [coll_one]; rfl) j (by omega)
  rwa [pf_of_some (List.getElem?_eq_getElem hj)] at this

/-- C80: a grid of parameters determines the poles of the surface exactly when the parameters of each direction determine those of a curve. -/
theorem C80_grid_determines {eps : K} (heps : 0 < eps) {p q n m : ℕ} (hp : p ≤ stackMaxDegree) (hq : q ≤ stackMaxDegree) {ku kv : List K}
    (hU : KWf p ku n) (hV : KWf q kv m) {u v : List K} (hu : ∀ x ∈ u, kf ku p ≤ x ∧ x ≤ kf ku n) (hv : ∀ x ∈ v, kf kv q ≤ x ∧ x ≤ kf kv m)
    (Q : List V) : Spec.Unisolvent eps ku kv p q (n * m) (Spec.gridOf u v Q) ↔ Spec.Determines eps ku p n u ∧ Spec.Determines eps kv q m v := by
  obtain ⟨su, hsu⟩ := exists_spans hU u
  obtain ⟨sv, hsv⟩ := exists_spans hV v
  have hmu := hU.min
  have hmv := hV.min
  rw [unisolvent_rows (eps := eps) hp hq hU hV (gridOf_spans hsu hsv Q), Determines.iff_rows heps hU hp hsu hu,
    Determines.iff_rows heps hV hq hsv hv, gridOf_length]
  have hrows : ∀ x : ℕ → K, (∀ r, r < u.length * v.length → ∑ c ∈ Finset.range (n * m), collS ku kv p q n (Spec.gridOf u v Q)
      (fun k => su (k % u.length)) (fun k => sv (k / u.length)) r c * x c = 0) ↔
      ∀ r s, r < u.length → s < v.length →
        ∑ b ∈ Finset.range m, coll kv v q 1 sv s b * ∑ a ∈ Finset.range n, coll ku u p 1 su r a * x (a + n * b) = 0 := by
    intro x
    constructor
    · intro h r s hr hs
      rw [← h _ (grid_lt hr hs)]
      have := gridOf_row (ku := ku) (kv := kv) (p := p) (q := q) (n := n) (m := m) (su := su) (sv := sv) Q hr hs x
      simp only [smul_eq_mul] at this
      exact this.symm
    · intro h k hk
      have hpos : 0 < u.length := by
        rcases Nat.eq_zero_or_pos u.length with h0 | h0
        · rw [h0, Nat.zero_mul] at hk; omega
        · exact h0
      have h1 := Nat.mod_lt k hpos
      have h2 := Nat.div_lt_of_lt_mul hk
      have := gridOf_row (ku := ku) (kv := kv) (p := p) (q := q) (n := n) (m := m) (su := su) (sv := sv) Q h1 h2 x
      simp only [smul_eq_mul] at this
      rw [h _ _ h1 h2, Nat.mod_add_div] at this
      exact this
  constructor
  · intro h
    constructor
    · intro x hx j hj
      have := h (fun c => x (c % n)) ((hrows _).mpr (by
        intro r s hr hs
        apply Finset.sum_eq_zero
        intro b _
        rw [Finset.sum_congr rfl (fun a ha => by rw [((grid_col (c := a + n * b) (Finset.mem_range.mp ha)).mp rfl).1]), hx r hr, mul_zero])) j
        (by have := Nat.le_mul_of_pos_right n (show 0 < m by omega); omega)
      rwa [show j % n = j from Nat.mod_eq_of_lt hj] at this
    · intro x hx j hj
      have := h (fun c => x (c / n)) ((hrows _).mpr (by
        intro r s hr hs
        have : ∀ b ∈ Finset.range m, coll kv v q 1 sv s b * ∑ a ∈ Finset.range n, coll ku u p 1 su r a * x ((a + n * b) / n) =
            (∑ a ∈ Finset.range n, coll ku u p 1 su r a) * (coll kv v q 1 sv s b * x b) := by
          intro b _
          rw [Finset.sum_congr rfl (fun a ha => by rw [((grid_col (c := a + n * b) (Finset.mem_range.mp ha)).mp rfl).2]), ← Finset.sum_mul]
          ring
        rw [Finset.sum_congr rfl this, ← Finset.mul_sum, hx s hs, mul_zero])) (0 + n * j) (grid_lt (by omega) hj)
      rwa [((grid_col (c := 0 + n * j) (show 0 < n by omega)).mp rfl).2] at this
  · rintro ⟨h1, h2⟩ x hx
    have hx := (hrows x).mp hx
    intro c hc
    have hn : 0 < n := by omega
    have := h1 (fun a => x (a + n * (c / n))) (fun r hr =>
      h2 (fun b => ∑ a ∈ Finset.range n, coll ku u p 1 su r a * x (a + n * b)) (fun s hs => hx r s hr hs) (c / n) (Nat.div_lt_of_lt_mul hc))
      (c % n) (Nat.mod_lt _ hn)
    rwa [Nat.mod_add_div] at this

/-- Reading of a grid. -/
theorem read_grid {Q : List V} {nu nv : ℕ} (hQ : nu * nv ≤ Q.length) :
    forLt 0 nv (fun iv Qd => forLt 0 nu (fun iu Qd => do
      let x ← rd Q (iu + nu * iv)
      pure (Qd ++ [x])) Qd) [] = .ok (Q.take (nu * nv)) := by
  obtain ⟨s, e, hs⟩ := forLt_inv (a := 0) (b := nv) (s := ([] : List V)) (body := fun iv Qd => forLt 0 nu (fun iu Qd => do
      let x ← rd Q (iu + nu * iv)
      pure (Qd ++ [x])) Qd) (fun k L => L = Q.take (nu * k)) (by omega) (by simp)
    (by
      rintro k L - hk rfl
      obtain ⟨s, e, hs⟩ := forLt_inv (a := 0) (b := nu) (s := Q.take (nu * k)) (body := fun iu Qd => do
        let x ← rd Q (iu + nu * k)
        pure (Qd ++ [x])) (fun i L => L = Q.take (nu * k + i)) (by omega) (by simp)
        (by
          rintro i L - hi rfl
          have hlt := grid_lt hi hk
          rw [Nat.add_comm i (nu * k)]
          refine ⟨_, by rw [rd_ok (by omega), R_bind_ok]; rfl, ?_⟩
          rw [← Nat.add_assoc, List.take_succ_eq_append_getElem (by omega)])
      exact ⟨s, e, by rw [hs, Nat.mul_succ]⟩)
  rw [e, hs]

/-- C80, `approx` for a grid of points: on well-formed knots, when the parameters of each direction lie in the domain and determine the
poles of a curve, the result is the only list of poles whose surface minimizes the sum of the squares of the distances to the points of the
grid. The solver is only asked to solve regular systems. -/
theorem C80_approx_grid {eps : K} (heps : 0 < eps) (junk : K) {p q n m : ℕ} (hp : p ≤ stackMaxDegree) (hq : q ≤ stackMaxDegree)
    {dense : ℕ → (ℕ → ℕ → K) → List (Fin dim → K) → R (List (Fin dim → K))} (hS : Spec.SolvesDense dense) {ku kv : List K}
    (hU : KWf p ku n) (hV : KWf q kv m) {u v : List K} {Q : List (Fin dim → K)} (hQ : Q.length = u.length * v.length) (hn : n * m ≤ Q.length)
    (hu : ∀ x ∈ u, kf ku p ≤ x ∧ x ≤ kf ku n) (hv : ∀ x ∈ v, kf kv q ≤ x ∧ x ≤ kf kv m)
    (hdu : Spec.Determines eps ku p n u) (hdv : Spec.Determines eps kv q m v) :
    ∃ P, approxGrid eps junk dense Q ku kv u v p q = .ok P ∧ Spec.SurfLeastSquares eps ku kv p q (n * m) (Spec.gridOf u v Q) P := by
  obtain ⟨su, hsu⟩ := exists_spans hU u
  obtain ⟨sv, hsv⟩ := exists_spans hV v
  obtain ⟨Mu, eu, hMu⟩ := fillMatrix_params hU hp hsu eps junk
  obtain ⟨Mv, ev, hMv⟩ := fillMatrix_params hV hq hsv eps junk
  have hlu := hU.len
  have hlv := hV.len
  have hmu := hU.min
  have hmv := hV.min
  have ru := (Determines.iff_rows heps hU hp hsu hu).mp hdu
  have rv := (Determines.iff_rows heps hV hq hsv hv).mp hdv
  have hRu : Spec.Regular n (normalMatrix u.length Mu) := regular_normal fun x hx => ru x fun r hr => by
    rw [← hx r hr]
    exact Finset.sum_congr rfl fun j hj => by rw [hMu r j hr (Finset.mem_range.mp hj)]
  have hRv : Spec.Regular m (normalMatrix v.length Mv) := regular_normal fun x hx => rv x fun r hr => by
    rw [← hx r hr]
    exact Finset.sum_congr rfl fun j hj => by rw [hMv r j hr (Finset.mem_range.mp hj)]
  have htake : Q.take (u.length * v.length) = Q := List.take_of_length_le (by omega)
  obtain ⟨P, eP, hlP, hP⟩ := tensorSolve_spec (nu := n) (nv := m) (Q := normalGridRhs u.length v.length n m Mu Mv Q)
    (by simp [normalGridRhs]) (fun B hB => hS n _ B hB hRu) (fun B hB => hS m _ B hB hRv)
  refine ⟨P, ?_, ?_⟩
  · unfold approxGrid checkApproxSizesSurf
    rw [usub_ok (by omega), R_bind_ok, usub_ok (by omega), R_bind_ok, show ku.length - (p + 1) = n by omega,
      show kv.length - (q + 1) = m by omega, if_neg (by omega), if_neg (by omega), R_pure, R_bind_ok, eu, R_bind_ok, ev, R_bind_ok,
      read_grid (by omega), R_bind_ok, htake, eP]
  refine surfLeast_of_normal hp hq hU hV (gridOf_spans hsu hsv Q) ((C80_grid_determines heps hp hq hU hV hu hv Q).mpr ⟨hdu, hdv⟩) hlP ?_
  intro c hc
  have hn0 : 0 < n := by omega
  have hi := Nat.mod_lt c hn0
  have hj := Nat.div_lt_of_lt_mul hc
  obtain ⟨i, hi', e1⟩ : ∃ i, i < n ∧ i = c % n := ⟨_, hi, rfl⟩
  obtain ⟨j, hj', e2⟩ : ∃ j, j < m ∧ j = c / n := ⟨_, hj, rfl⟩
  obtain rfl : c = i + n * j := by rw [e1, e2, Nat.mod_add_div]
  have key := hP i j hi' hj'
  rw [normalGridRhs, pf_map_range _ hc, ← e1, ← e2] at key
  rw [normal_apply_smul, gridOf_length, sum_range_grid, sum_range_grid]
  have hR : ∀ s ∈ Finset.range v.length, ∑ r ∈ Finset.range u.length, collS ku kv p q n (Spec.gridOf u v Q) (fun k => su (k % u.length))
      (fun k => sv (k / u.length)) (r + u.length * s) (i + n * j) • pf ((Spec.gridOf u v Q).map SConstr.x) (r + u.length * s) =
      Mv s j • ∑ r ∈ Finset.range u.length, Mu r i • Q.getD (r + u.length * s) 0 := by
    intro s hs
    have hs := Finset.mem_range.mp hs
    rw [Finset.smul_sum]
    refine Finset.sum_congr rfl fun r hr => ?_
    have hr := Finset.mem_range.mp hr
    rw [gridOf_coll Q hr hs hi', pf_of_some (x := pf Q (r + u.length * s)) (by rw [List.getElem?_map, gridOf_at Q hr hs]; rfl), mul_comm, mul_smul,
      hMv s j hs hj', hMu r i hr hi']
    rfl
  rw [Finset.sum_congr rfl hR, ← key]
  have hL : ∀ s ∈ Finset.range v.length, ∑ r ∈ Finset.range u.length, collS ku kv p q n (Spec.gridOf u v Q) (fun k => su (k % u.length))
      (fun k => sv (k / u.length)) (r + u.length * s) (i + n * j) • ∑ c ∈ Finset.range (n * m), collS ku kv p q n (Spec.gridOf u v Q)
        (fun k => su (k % u.length)) (fun k => sv (k / u.length)) (r + u.length * s) c • pf P c =
      Mv s j • ∑ b ∈ Finset.range m, Mv s b • ∑ r ∈ Finset.range u.length, Mu r i • ∑ a ∈ Finset.range n, Mu r a • pf P (a + n * b) := by
    intro s hs
    have hs := Finset.mem_range.mp hs
    have hrow : ∀ r, r < u.length → ∑ c ∈ Finset.range (n * m), collS ku kv p q n (Spec.gridOf u v Q)
        (fun k => su (k % u.length)) (fun k => sv (k / u.length)) (r + u.length * s) c • pf P c =
        ∑ b ∈ Finset.range m, Mv s b • ∑ a ∈ Finset.range n, Mu r a • pf P (a + n * b) := by
      intro r hr
      rw [gridOf_row Q hr hs]
      refine Finset.sum_congr rfl fun b hb => ?_
      rw [hMv s b hs (Finset.mem_range.mp hb)]
      congr 1
      exact Finset.sum_congr rfl fun a ha => by rw [hMu r a hr (Finset.mem_range.mp ha)]
    have hterm : ∀ r ∈ Finset.range u.length, collS ku kv p q n (Spec.gridOf u v Q) (fun k => su (k % u.length))
      (fun k => sv (k / u.length)) (r + u.length * s) (i + n * j) • ∑ c ∈ Finset.range (n * m), collS ku kv p q n (Spec.gridOf u v Q)
        (fun k => su (k % u.length)) (fun k => sv (k / u.length)) (r + u.length * s) c • pf P c =
        Mv s j • ∑ b ∈ Finset.range m, Mv s b • Mu r i • ∑ a ∈ Finset.range n, Mu r a • pf P (a + n * b) := by
      intro r hr
      have hr := Finset.mem_range.mp hr
      rw [hrow r hr, gridOf_coll Q hr hs hi', ← hMv s j hs hj', ← hMu r i hr hi', mul_comm, mul_smul, Finset.smul_sum]
      congr 1
      exact Finset.sum_congr rfl fun b _ => smul_comm _ _ _
    rw [Finset.sum_congr rfl hterm, ← Finset.smul_sum, Finset.sum_comm]
    congr 1
    exact Finset.sum_congr rfl fun b _ => by rw [← Finset.smul_sum]
  rw [Finset.sum_congr rfl hL, normal_apply_smul]
  refine Finset.sum_congr rfl fun s _ => ?_
  congr 1
  exact Finset.sum_congr rfl fun b _ => by rw [normal_apply_smul]

/-! ## Sizes -/

/-- C80: both functions throw `length_error` when a direction has too few poles for its degree or when there are more poles than points. -/
theorem C80_sizes (eps junk : K) (dense : ℕ → (ℕ → ℕ → K) → List V → R (List V)) (lsq : ℕ → ℕ → (ℕ → ℕ → K) → List V → R (List V))
    (Q : List V) (cs : List (SConstr K V)) {ku kv : List K} (u v : List K) {p q : ℕ} (hu : p + 1 ≤ ku.length) (hv : q + 1 ≤ kv.length) :
    (ku.length < 2 * (p + 1) ∨ kv.length < 2 * (q + 1) ∨ Q.length < (ku.length - (p + 1)) * (kv.length - (q + 1)) →
      approxGrid eps junk dense Q ku kv u v p q = .error (.thrown .length)) ∧
    (ku.length < 2 * (p + 1) ∨ kv.length < 2 * (q + 1) ∨ cs.length < (ku.length - (p + 1)) * (kv.length - (q + 1)) →
      approxSurfConstr eps junk lsq cs ku kv p q = .error (.thrown .length)) := by
  have key : ∀ N : ℕ, ku.length < 2 * (p + 1) ∨ kv.length < 2 * (q + 1) ∨ N < (ku.length - (p + 1)) * (kv.length - (q + 1)) →
      checkApproxSizesSurf (ku.length - (p + 1)) p (kv.length - (q + 1)) q N = .error (.thrown .length) := by
    intro N h
    unfold checkApproxSizesSurf
    split
    · rfl
    · rw [if_pos (by omega)]
  constructor
  · intro h
    unfold approxGrid
    rw [usub_ok hu, R_bind_ok, usub_ok hv, R_bind_ok, key _ h, R_bind_error]
  · intro h
    unfold approxSurfConstr
    rw [usub_ok hu, R_bind_ok, usub_ok hv, R_bind_ok, key _ h, R_bind_error]

/-- A loop stops at the first error. -/
theorem forN_err {S : Type} {body : ℕ → S → R S} {e : Err} (hb : ∀ i s, (∃ s', body i s = .ok s') ∨ body i s = .error e) :
    ∀ (n a : ℕ) (s : S), (∃ k, a ≤ k ∧ k < a + n ∧ ∀ s, body k s = .error e) → forN body n a s = .error e
  | 0, a, s, ⟨k, h1, h2, _⟩ => by omega
  | n + 1, a, s, ⟨k, h1, h2, h3⟩ => by
    rw [forN]
    rcases hb a s with ⟨s', h⟩ | h
    · rw [h, R_bind_ok]
      refine forN_err hb n (a + 1) s' ⟨k, ?_, by omega, h3⟩
      rcases Nat.eq_or_lt_of_le h1 with rfl | h4
      · rw [h3 s] at h; cases h
      · exact h4
    · rw [h, R_bind_error]

/-- C80, disagreement: nothing compares the number of points with the number of parameters. When there are enough points for the poles but
less than the grid has, `approx` reads past the end of the points. -/
theorem C80_short_grid (eps junk : K) {p q n m : ℕ} (hp : p ≤ stackMaxDegree) (hq : q ≤ stackMaxDegree)
    (dense : ℕ → (ℕ → ℕ → K) → List V → R (List V)) {ku kv : List K} (hU : KWf p ku n) (hV : KWf q kv m) {u v : List K} {Q : List V}
    (hn : n * m ≤ Q.length) (hQ : Q.length < u.length * v.length) : approxGrid eps junk dense Q ku kv u v p q = .error .oob := by
  obtain ⟨su, hsu⟩ := exists_spans hU u
  obtain ⟨sv, hsv⟩ := exists_spans hV v
  obtain ⟨Mu, eu, hMu⟩ := fillMatrix_params hU hp hsu eps junk
  obtain ⟨Mv, ev, hMv⟩ := fillMatrix_params hV hq hsv eps junk
  have hlu := hU.len
  have hlv := hV.len
  have hmu := hU.min
  have hmv := hV.min
  have hpos : 0 < u.length := by
    rcases Nat.eq_zero_or_pos u.length with h0 | h0
    · rw [h0, Nat.zero_mul] at hQ; omega
    · exact h0
  have hrd : ∀ k, (∃ x, rd Q k = .ok x) ∨ rd Q k = .error .oob := by
    intro k
    unfold rd
    cases Q[k]? <;> simp
  have hbody : ∀ iv (i : ℕ) (s : List V), (∃ s', (do let x ← rd Q (i + u.length * iv); pure (s ++ [x]) : R (List V)) = .ok s') ∨
      (do let x ← rd Q (i + u.length * iv); pure (s ++ [x]) : R (List V)) = .error .oob := by
    intro iv i s
    rcases hrd (i + u.length * iv) with ⟨x, h⟩ | h
    · exact Or.inl ⟨_, by rw [h, R_bind_ok]; rfl⟩
    · exact Or.inr (by rw [h, R_bind_error])
  have hany : ∀ iv n a (s : List V), (∃ s', forN (fun iu Qd => do let x ← rd Q (iu + u.length * iv); pure (Qd ++ [x])) n a s = .ok s') ∨
      forN (fun iu Qd => do let x ← rd Q (iu + u.length * iv); pure (Qd ++ [x])) n a s = .error .oob := by
    intro iv n
    induction n with
    | zero => intro a s; exact Or.inl ⟨s, rfl⟩
    | succ n ih =>
      intro a s
      rw [forN]
      rcases hbody iv a s with ⟨s', h⟩ | h
      · rw [h, R_bind_ok]; exact ih _ _
      · rw [h, R_bind_error]; exact Or.inr rfl
  unfold approxGrid checkApproxSizesSurf
  rw [usub_ok (by omega), R_bind_ok, usub_ok (by omega), R_bind_ok, show ku.length - (p + 1) = n by omega,
    show kv.length - (q + 1) = m by omega, if_neg (by omega), if_neg (by omega), R_pure, R_bind_ok, eu, R_bind_ok, ev, R_bind_ok]
  have : forLt 0 v.length (fun iv Qd => forLt 0 u.length (fun iu Qd => do
      let x ← rd Q (iu + u.length * iv)
      pure (Qd ++ [x])) Qd) [] = .error .oob := by
    refine forN_err (fun iv s => hany iv _ _ s) _ _ _ ⟨Q.length / u.length, Nat.zero_le _, ?_, ?_⟩
    · have := Nat.div_lt_of_lt_mul hQ
      omega
    · intro s
      refine forN_err (hbody _) _ _ _ ⟨Q.length % u.length, Nat.zero_le _, ?_, ?_⟩
      · have := Nat.mod_lt Q.length hpos
        omega
      · intro s
        rw [Nat.mod_add_div, rd, List.getElem?_eq_none le_rfl, R_bind_error]
  rw [this, R_bind_error]

/-- More poles than parameters: some poles give a null curve at the parameters. -/
theorem not_determines {eps : K} (heps : 0 < eps) {k : List K} {p n : ℕ} (hU : KWf p k n) (hp : p ≤ stackMaxDegree) {u : List K}
    (hin : ∀ x ∈ u, kf k p ≤ x ∧ x ≤ kf k n) (h : u.length < n) : ¬ Spec.Determines eps k p n u := by
  obtain ⟨sp, hsp⟩ := exists_spans hU u
  rw [Determines.iff_rows heps hU hp hsp hin]
  intro hrow
  let f : (Fin n → K) →ₗ[K] (Fin u.length → K) := Matrix.toLin' (Matrix.of fun r c => coll k u p 1 sp r c)
  have hk : LinearMap.ker f ≠ ⊥ := LinearMap.ker_ne_bot_of_finrank_lt (by simpa using h)
  obtain ⟨x, hx, h0⟩ := (Submodule.ne_bot_iff _).mp hk
  apply h0
  have := hrow (fun j => if hj : j < n then x ⟨j, hj⟩ else 0) (by
    intro r hr
    have := congrFun (LinearMap.mem_ker.mp hx) ⟨r, hr⟩
    simp only [f, Matrix.toLin'_apply, Matrix.mulVec, dotProduct, Matrix.of_apply, Pi.zero_apply] at this
    rw [Finset.sum_range, ← this]
    exact Finset.sum_congr rfl fun j _ => by rw [dif_pos j.2])
  funext j
  have := this j j.2
  rwa [dif_pos j.2] at this

/-- C80: a problem has an only solution exactly when its constraints determine the poles. -/
theorem C80_least_iff (eps : K) {p q n m : ℕ} (hdim : 1 ≤ dim) (hp : p ≤ stackMaxDegree) (hq : q ≤ stackMaxDegree) {ku kv : List K}
    (hU : KWf p ku n) (hV : KWf q kv m) (cs : List (SConstr K (Fin dim → K))) :
    (∃ P, Spec.SurfLeastSquares eps ku kv p q (n * m) cs P) ↔ Spec.Unisolvent eps ku kv p q (n * m) cs := by
  obtain ⟨su, sv, hsp⟩ := exists_spansS hU hV cs
  constructor
  · rintro ⟨P, hP, s, ⟨X, hX, rfl⟩, hmin⟩
    rw [unisolvent_rows (eps := eps) hp hq hU hV hsp]
    intro x hx j hj
    let P' : List (Fin dim → K) := (List.range (n * m)).map fun c => pf P c + fun _ => x c
    obtain ⟨s', ⟨X', hX', rfl⟩, -, hu⟩ := hmin P' (by simp [P'])
    have heq : ∀ i, i < cs.length → pf X' i = pf X i := by
      intro i hi
      have hc := List.getElem?_eq_getElem hi
      have h1 := hX i _ hc 0
      have h2 := hX' i _ hc 0
      rw [evalSurf_collS hp hq hU hV hsp hP hc] at h1
      rw [evalSurf_collS hp hq hU hV hsp (by simp [P']) hc] at h2
      rw [← Except.ok.inj h1, ← Except.ok.inj h2]
      have : ∀ c ∈ Finset.range (n * m), collS ku kv p q n cs su sv i c • pf P' c =
          collS ku kv p q n cs su sv i c • pf P c + fun _ => collS ku kv p q n cs su sv i c * x c := by
        intro c hc
        rw [pf_map_range _ (Finset.mem_range.mp hc), smul_add]
        rfl
      rw [Finset.sum_congr rfl this, Finset.sum_add_distrib]
      have h0 : ∑ c ∈ Finset.range (n * m), (fun _ : Fin dim => collS ku kv p q n cs su sv i c * x c) = 0 := by
        funext t
        rw [Finset.sum_apply]
        exact hx i hi
      rw [h0, add_zero]
    have := hu (Finset.sum_congr rfl fun i hi => by rw [heq i (Finset.mem_range.mp hi)])
    have h3 : pf P' j = pf P j := by rw [this]
    rw [pf_map_range _ hj] at h3
    have := congrFun (add_eq_left.mp h3) ⟨0, hdim⟩
    exact this
  · intro h
    obtain ⟨lsq, hS⟩ := exists_solvesLeast (K := K) (V := Fin dim → K)
    obtain ⟨X, -, hl, hX⟩ := hS cs.length (n * m) (collS ku kv p q n cs su sv) (cs.map SConstr.x) (by simp)
      ((unisolvent_rows (eps := eps) hp hq hU hV hsp).mp h)
    refine ⟨X, surfLeast_of_normal hp hq hU hV hsp h hl ?_⟩
    intro i hi
    rw [normal_apply_smul]
    have := hX i hi
    simp only [smul_sub, Finset.sum_sub_distrib] at this
    exact sub_eq_zero.mp this

/-- C80, disagreement: the check of the sizes only compares the products. When one direction has less parameters than poles and the other
enough parameters for the check to pass, there is no solution of least squares to be found. -/
theorem C80_too_few_parameters {eps : K} (heps : 0 < eps) {p q n m : ℕ} (hdim : 1 ≤ dim) (hp : p ≤ stackMaxDegree) (hq : q ≤ stackMaxDegree)
    {ku kv : List K} (hU : KWf p ku n) (hV : KWf q kv m) {u v : List K} {Q : List (Fin dim → K)} (hn : n * m ≤ Q.length)
    (hu : ∀ x ∈ u, kf ku p ≤ x ∧ x ≤ kf ku n) (hv : ∀ x ∈ v, kf kv q ≤ x ∧ x ≤ kf kv m) (h : u.length < n ∨ v.length < m) :
    checkApproxSizesSurf n p m q Q.length = .ok () ∧
      ¬ ∃ P, Spec.SurfLeastSquares eps ku kv p q (n * m) (Spec.gridOf u v Q) P := by
  have hmu := hU.min
  have hmv := hV.min
  constructor
  · unfold checkApproxSizesSurf
    rw [if_neg (by omega), if_neg (by omega), R_pure]
  · rw [C80_least_iff eps hdim hp hq hU hV, C80_grid_determines heps hp hq hU hV hu hv]
    rintro ⟨h1, h2⟩
    rcases h with h | h
    · exact not_determines heps hU hp hu h h1
    · exact not_determines heps hV hq hv h h2

/-! ## The hypotheses are met -/

namespace Sample

def asK : List ℚ := [0, 0, 1, 1]
def asV : List ℚ := [0, 1/2, 1]
def asQ : List (Fin 1 → ℚ) := (List.range 15).map fun i => ![(i : ℚ) ^ 2]

theorem asK_wf : KWf 1 asK 2 := ⟨by decide +kernel, rfl, by omega, by decide +kernel, by decide +kernel⟩

theorem asK_determines : Spec.Determines (1/1000 : ℚ) asK 1 2 asV :=
  C78_determines (by norm_num) (by omega) (by decide) asK_wf (by decide +kernel) (by decide +kernel) (t := [0, 1]) (by decide +kernel) rfl
    (by decide +kernel) (by decide +kernel) (by decide +kernel) (by intro j h1 h2; omega)

theorem as_grid : Spec.Unisolvent (1/1000 : ℚ) apK asK 2 1 (4 * 2) (Spec.gridOf apU asV asQ) :=
  (C80_grid_determines (by norm_num) (by decide) (by decide) apK_wf asK_wf (by decide +kernel) (by decide +kernel) asQ).mpr
    ⟨apK_determines, asK_determines⟩

/-- Fifteen points and a mixed derivative. -/
def asC : List (SConstr ℚ (Fin 1 → ℚ)) := Spec.gridOf apU asV asQ ++ [⟨1/2, 1/2, ![3], 1, 1⟩]

/-- The hypotheses of `C80_approx_grid` are met: fifteen points, eight poles. -/
example (dense : ℕ → (ℕ → ℕ → ℚ) → List (Fin 1 → ℚ) → R (List (Fin 1 → ℚ))) (hS : Spec.SolvesDense dense) :
    ∃ P, approxGrid (1/1000 : ℚ) 7 dense asQ apK asK apU asV 2 1 = .ok P ∧
      Spec.SurfLeastSquares (1/1000) apK asK 2 1 8 (Spec.gridOf apU asV asQ) P :=
  C80_approx_grid (by norm_num) 7 (by decide) (by decide) hS apK_wf asK_wf (by simp [asQ, apU, asV]) (by simp [asQ]) (by decide +kernel)
    (by decide +kernel) apK_determines asK_determines

/-- The hypotheses of `C80_approx_constraints` are met. -/
example (lsq : ℕ → ℕ → (ℕ → ℕ → ℚ) → List (Fin 1 → ℚ) → R (List (Fin 1 → ℚ))) (hS : Spec.SolvesLeast lsq) :
    ∃ s, approxSurfConstr (1/1000 : ℚ) 7 lsq asC apK asK 2 1 = .ok s ∧ Spec.SurfLeastSquares (1/1000) apK asK 2 1 8 asC s.poles := by
  obtain ⟨s, e, -, -, h, -⟩ := C80_approx_constraints (eps := (1/1000 : ℚ)) (by norm_num) 7 (p := 2) (q := 1) (by decide) (by decide) hS
    (cs := asC) apK_wf asK_wf (by decide +kernel) (by decide +kernel) (by decide +kernel) (by decide +kernel) (by norm_num)
    (by unfold asC; rw [List.length_append, gridOf_length]; decide)
    (by
      intro x hx
      rcases List.mem_append.mp hx with hx | hx
      · obtain ⟨i, hi⟩ := List.getElem?_of_mem hx
        obtain ⟨h1, h2, rfl⟩ := gridOf_get hi
        have a1 : ∀ x ∈ apU, kf apK 2 ≤ x ∧ x ≤ kf apK 4 := by decide +kernel
        have a2 : ∀ x ∈ asV, kf asK 1 ≤ x ∧ x ≤ kf asK 2 := by decide +kernel
        have b1 := a1 _ (kf_mem (by simp [apU]) (i % apU.length))
        have b2 := a2 _ (kf_mem (by simp [asV]) (i / apU.length))
        exact ⟨b1.1, b1.2, b2.1, b2.2⟩
      · obtain rfl := List.mem_singleton.mp hx
        have : kf apK 2 ≤ 1/2 ∧ 1/2 ≤ kf apK 4 ∧ kf asK 1 ≤ 1/2 ∧ 1/2 ≤ kf asK 2 := by decide +kernel
        exact this)
    (fun P hP h => as_grid P hP fun x hx => h x (List.mem_append_left _ hx))
  exact ⟨s, e, h⟩

example : ∃ lsq : ℕ → ℕ → (ℕ → ℕ → ℚ) → List (Fin 1 → ℚ) → R (List (Fin 1 → ℚ)), Spec.SolvesLeast lsq := exists_solvesLeast

/-- The hypotheses of `C80_short_grid` are met: nine points for a grid of fifteen. -/
example (dense : ℕ → (ℕ → ℕ → ℚ) → List (Fin 1 → ℚ) → R (List (Fin 1 → ℚ))) :
    approxGrid (1/1000 : ℚ) 7 dense (asQ.take 9) apK asK apU asV 2 1 = .error .oob :=
  C80_short_grid _ _ (by decide) (by decide) dense apK_wf asK_wf (by simp [asQ]) (by simp [asQ, apU, asV])

/-- The hypotheses of `C80_too_few_parameters` are met: three parameters for four poles along U. -/
example : checkApproxSizesSurf 4 2 2 1 asQ.length = .ok () ∧
    ¬ ∃ P, Spec.SurfLeastSquares (1/1000 : ℚ) apK asK 2 1 8 (Spec.gridOf [0, 1, 2] [0, 1/4, 1/2, 3/4, 1] asQ) P :=
  C80_too_few_parameters (by norm_num) le_rfl (by decide) (by decide) apK_wf asK_wf (by simp [asQ]) (by decide +kernel) (by decide +kernel)
    (Or.inl (by decide))

/-- The hypotheses of `C80_sizes` are met. -/
example (dense : ℕ → (ℕ → ℕ → ℚ) → List (Fin 1 → ℚ) → R (List (Fin 1 → ℚ))) (lsq : ℕ → ℕ → (ℕ → ℕ → ℚ) → List (Fin 1 → ℚ) → R (List (Fin 1 → ℚ))) :
    approxGrid (1/1000 : ℚ) 7 dense (asQ.take 7) apK asK apU asV 2 1 = .error (.thrown .length) :=
  (C80_sizes _ _ dense lsq _ [] apU asV (by decide) (by decide)).1 (Or.inr (Or.inr (by simp [asQ, apK, asK])))

end Sample

end Gbs
