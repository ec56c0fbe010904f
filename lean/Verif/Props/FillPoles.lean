import Verif.Model.FillPoles
import Verif.Props.SurfApprox

/-!
# C117: the collocation matrix of a grid
-/

namespace Gbs

set_option linter.unusedSectionVars false

open Polynomial
open scoped BigOperators

variable {K : Type} [Field K] [LinearOrder K] [IsStrictOrderedRing K]
variable {V : Type} [AddCommGroup V] [Module K V]
variable {dim : ℕ}

theorem supportBand_eq {n p s : ℕ} {u : K} {k : List K} (e : findSpan n p u k = .ok s) (h1 : p ≤ s) (h2 : s < n) :
    supportBand u k p n = .ok (s - p, p + 1) := by
  unfold supportBand
  rw [e, R_bind_ok]
  dsimp only
  rw [if_pos h1, if_pos (by omega)]
  rfl

theorem matGet_ok {nr nc r c : ℕ} (N : ℕ → ℕ → K) (hr : r < nr) (hc : c < nc) : matGet nr nc N r c = .ok (N r c) := by
  unfold matGet; rw [if_pos ⟨hr, hc⟩]; rfl

/-- The block of one row: the entries of the other rows and columns are kept. -/
theorem fillBlock_spec {nr nu nv n m : ℕ} {Mu Mv : ℕ → ℕ → K} {iu iv i0 j0 p q : ℕ} (hu : iu < nu) (hv : iv < nv) (hi : i0 + p < n) (hj : j0 + q < m)
    (hr : iu + nu * iv < nr) (N : ℕ → ℕ → K) : ∃ N', fillBlock nr (n * m) nu nv n m Mu Mv iu iv (i0, p + 1) (j0, q + 1) N = .ok N' ∧
      (∀ r c, r ≠ iu + nu * iv → N' r c = N r c) ∧ ∀ c, c < n * m → N' (iu + nu * iv) c =
        if j0 ≤ c / n ∧ c / n ≤ j0 + q ∧ i0 ≤ c % n ∧ c % n ≤ i0 + p then Mu iu (c % n) * Mv iv (c / n) else N (iu + nu * iv) c := by
  set k := iu + nu * iv with hk
  unfold fillBlock
  dsimp only
  rw [← hk]
  obtain ⟨N', e', h1, h2⟩ := forLt_inv (a := 0) (b := q + 1) (s := N)
    (body := fun jb N => do
      let y ← matGet nv m Mv iv (j0 + jb)
      forLt 0 (p + 1) (fun ib N => do
        let x ← matGet nu n Mu iu (i0 + ib)
        matSet nr (n * m) N k (i0 + ib + n * (j0 + jb)) (x * y)) N)
    (fun jj N' => (∀ r c, r ≠ k → N' r c = N r c) ∧ ∀ c, c < n * m → N' k c =
      if j0 ≤ c / n ∧ c / n < j0 + jj ∧ i0 ≤ c % n ∧ c % n ≤ i0 + p then Mu iu (c % n) * Mv iv (c / n) else N k c)
    (by omega)
    ⟨fun _ _ _ => rfl, fun c hc => by rw [if_neg (by omega)]⟩
    (by
      rintro jj N1 - hjj ⟨g1, g2⟩
      rw [matGet_ok Mv hv (by omega), R_bind_ok]
      obtain ⟨N', e', h1, h2⟩ := forLt_inv (a := 0) (b := p + 1) (s := N1)
        (body := fun ib N => do
          let x ← matGet nu n Mu iu (i0 + ib)
          matSet nr (n * m) N k (i0 + ib + n * (j0 + jj)) (x * Mv iv (j0 + jj)))
        (fun ii N' => (∀ r c, r ≠ k → N' r c = N r c) ∧ ∀ c, c < n * m → N' k c =
          if (j0 ≤ c / n ∧ c / n < j0 + jj ∧ i0 ≤ c % n ∧ c % n ≤ i0 + p) ∨ (c / n = j0 + jj ∧ i0 ≤ c % n ∧ c % n < i0 + ii) then
            Mu iu (c % n) * Mv iv (c / n) else N k c)
        (by omega)
        ⟨g1, fun c hc => by
          rw [g2 c hc]
          split <;> rename_i h
          · rw [if_pos (Or.inl h)]
          · rw [if_neg (by omega)]⟩
        (by
          rintro ii N2 - hii ⟨f1, f2⟩
          rw [matGet_ok Mu hu (by omega), R_bind_ok]
          have hcol : i0 + ii + n * (j0 + jj) < n * m := grid_lt (by omega) (by omega)
          unfold matSet
          rw [if_pos ⟨hr, hcol⟩]
          refine ⟨_, rfl, ?_, ?_⟩
          · intro r c hr
            rw [if_neg (fun h => hr h.1)]
            exact f1 r c hr
          · intro c hc
            by_cases hcc : c = i0 + ii + n * (j0 + jj)
            · obtain ⟨m1, m2⟩ := (grid_col (show i0 + ii < n by omega)).mp hcc
              rw [if_pos ⟨rfl, hcc⟩, if_pos (Or.inr ⟨m2, by omega, by omega⟩), m1, m2]
            · rw [if_neg (fun h => hcc h.2), f2 c hc]
              have hne : ¬ (c % n = i0 + ii ∧ c / n = j0 + jj) := fun h => hcc ((grid_col (by omega)).mpr h)
              split <;> rename_i h
              · rw [if_pos (by omega)]
              · rw [if_neg (by omega)])
      refine ⟨N', e', h1, ?_⟩
      intro c hc
      rw [h2 c hc]
      split <;> rename_i h
      · rw [if_pos (by omega)]
      · rw [if_neg (by omega)])
  refine ⟨N', e', h1, ?_⟩
  intro c hc
  rw [h2 c hc]
  split <;> rename_i h
  · rw [if_pos (by omega)]
  · rw [if_neg (by omega)]

/-- The entries of the matrix. -/
theorem fillPolesMatrix_spec {ku kv : List K} {p q n m : ℕ} (hU : KWf p ku n) (hV : KWf q kv m) (hp : p ≤ stackMaxDegree) (hq : q ≤ stackMaxDegree)
    {u v : List K} {su sv : ℕ → ℕ} (hsu : Spans ku u p n su) (hsv : Spans kv v q m sv) (eps junk : K) :
    ∃ N, fillPolesMatrix eps junk (u.length * v.length) (n * m) ku kv u v p q = .ok N ∧
      ∀ r s a b, r < u.length → s < v.length → a < n → b < m → N (r + u.length * s) (a + n * b) = coll ku u p 1 su r a * coll kv v q 1 sv s b := by
  obtain ⟨Mu, eu, hMu⟩ := fillMatrix_params hU hp hsu eps junk
  obtain ⟨Mv, ev, hMv⟩ := fillMatrix_params hV hq hsv eps junk
  have hlu := hU.len
  have hlv := hV.len
  obtain ⟨N, e, h1, -⟩ := forLt_inv (a := 0) (b := v.length) (s := (fun _ _ => 0 : ℕ → ℕ → K))
    (body := fun iv N => do
      let y ← rd v iv
      let bv ← supportBand y kv q m
      forLt 0 u.length (fun iu N => do
        let x ← rd u iu
        let bu ← supportBand x ku p n
        fillBlock (u.length * v.length) (n * m) u.length v.length n m Mu Mv iu iv bu bv N) N)
    (fun t N => (∀ r s a b, r < u.length → s < t → a < n → b < m → N (r + u.length * s) (a + n * b) = coll ku u p 1 su r a * coll kv v q 1 sv s b) ∧
      ∀ r c, u.length * t ≤ r → N r c = 0)
    (by omega) ⟨by intro r s a b _ h; omega, fun _ _ _ => rfl⟩
    (by
      rintro t N - ht ⟨g1, g2⟩
      rw [rd_kf ht, R_bind_ok, supportBand_eq (hsv.find t ht) (hsv.lo t ht) (hsv.hi t ht), R_bind_ok]
      obtain ⟨N', e', f1, f2⟩ := forLt_inv (a := 0) (b := u.length) (s := N)
        (body := fun iu N => do
          let x ← rd u iu
          let bu ← supportBand x ku p n
          fillBlock (u.length * v.length) (n * m) u.length v.length n m Mu Mv iu t bu (sv t - q, q + 1) N)
        (fun i N' => (∀ r s a b, r < u.length → (s < t ∨ (s = t ∧ r < i)) → a < n → b < m →
            N' (r + u.length * s) (a + n * b) = coll ku u p 1 su r a * coll kv v q 1 sv s b) ∧
          ∀ r c, u.length * t + i ≤ r → N' r c = 0)
        (by omega) ⟨fun r s a b hr hs => g1 r s a b hr (by omega), fun r c hr => g2 r c (by omega)⟩
        (by
          rintro i N - hi ⟨g1, g2⟩
          have l1 := hsu.lo i hi
          have l2 := hsu.hi i hi
          have l3 := hsv.lo t ht
          have l4 := hsv.hi t ht
          rw [rd_kf hi, R_bind_ok, supportBand_eq (hsu.find i hi) l1 l2, R_bind_ok]
          obtain ⟨N', e', f1, f2⟩ := fillBlock_spec (nr := u.length * v.length) (nu := u.length) (nv := v.length) (n := n) (m := m) (Mu := Mu) (Mv := Mv)
            (i0 := su i - p) (j0 := sv t - q) (p := p) (q := q) hi ht (by omega) (by omega) (grid_lt hi ht) N
          refine ⟨N', e', ?_, ?_⟩
          · intro r s a b hr hs ha hb
            by_cases hrow : r + u.length * s = i + u.length * t
            · obtain ⟨m1, m2⟩ := (grid_col hr).mp hrow.symm
              obtain ⟨m3, m4⟩ := (grid_col (c := i + u.length * t) hi).mp rfl
              obtain rfl : r = i := by omega
              obtain rfl : s = t := by omega
              obtain ⟨m5, m6⟩ := (grid_col (c := a + n * b) ha).mp rfl
              rw [f2 _ (grid_lt ha hb), m5, m6]
              split <;> rename_i h
              · rw [hMu r a hr ha, hMv s b ht hb]
              · rw [g2 _ _ (by omega)]
                by_cases hu' : su r - p ≤ a ∧ a ≤ su r - p + p
                · rw [coll_one (r := s), Bp_eq_zero _ _ _ _ (by omega)]; simp
                · rw [coll_one, Bp_eq_zero _ _ _ _ (by omega)]; simp
            · rw [f1 _ _ hrow]
              refine g1 r s a b hr ?_ ha hb
              rcases hs with hs | ⟨rfl, hs⟩
              · exact Or.inl hs
              · exact Or.inr ⟨rfl, by
                  rcases Nat.lt_or_ge r i with h | h
                  · exact h
                  · obtain rfl : r = i := by omega
                    exact absurd rfl hrow⟩
          · intro r c hr
            rw [f1 _ _ (by omega)]
            exact g2 r c (by omega))
      refine ⟨N', e', ?_, ?_⟩
      · intro r s a b hr hs
        exact f1 r s a b hr (by omega)
      · intro r c hr
        exact f2 r c (by rw [Nat.mul_succ] at hr; omega))
  refine ⟨N, ?_, h1⟩
  unfold fillPolesMatrix
  rw [usub_ok (by omega), R_bind_ok, usub_ok (by omega), R_bind_ok, show ku.length - (p + 1) = n by omega,
    show kv.length - (q + 1) = m by omega, eu, R_bind_ok, ev, R_bind_ok]
  exact e

/-- The matrix is that of the points of the grid taken as constraints. -/
theorem fillPolesMatrix_collS {ku kv : List K} {p q n m : ℕ} (hU : KWf p ku n) (hV : KWf q kv m) (hp : p ≤ stackMaxDegree) (hq : q ≤ stackMaxDegree)
    {u v : List K} {su sv : ℕ → ℕ} (hsu : Spans ku u p n su) (hsv : Spans kv v q m sv) (eps junk : K) (Q : List V) :
    ∃ N, fillPolesMatrix eps junk (u.length * v.length) (n * m) ku kv u v p q = .ok N ∧
      ∀ r c, r < u.length * v.length → c < n * m → N r c = collS ku kv p q n (Spec.gridOf u v Q) (fun k => su (k % u.length)) (fun k => sv (k / u.length)) r c := by
  obtain ⟨N, e, h⟩ := fillPolesMatrix_spec hU hV hp hq hsu hsv eps junk
  refine ⟨N, e, ?_⟩
  intro r c hr hc
  have hn0 : 0 < n := by have := hU.min; omega
  have hu0 : 0 < u.length := Nat.pos_of_ne_zero fun h => by rw [h, Nat.zero_mul] at hr; omega
  obtain ⟨i, hi, e1⟩ : ∃ i, i < u.length ∧ i = r % u.length := ⟨_, Nat.mod_lt _ hu0, rfl⟩
  obtain ⟨j, hj, e2⟩ : ∃ j, j < v.length ∧ j = r / u.length := ⟨_, Nat.div_lt_of_lt_mul hr, rfl⟩
  obtain rfl : r = i + u.length * j := by rw [e1, e2, Nat.mod_add_div]
  obtain ⟨a, ha, e3⟩ : ∃ a, a < n ∧ a = c % n := ⟨_, Nat.mod_lt _ hn0, rfl⟩
  obtain ⟨b, hb, e4⟩ : ∃ b, b < m ∧ b = c / n := ⟨_, Nat.div_lt_of_lt_mul hc, rfl⟩
  obtain rfl : c = a + n * b := by rw [e3, e4, Nat.mod_add_div]
  rw [h i j a b hi hj ha hb, gridOf_coll Q hi hj ha]

/-- C117. On well-formed knots, whatever the parameters, `fill_poles_matrix` stays inside a matrix with one row for each point of the grid and one
column for each pole, and a row of this matrix, applied to any poles, gives the point of their surface: nothing is left out of the band. -/
theorem C117_matrix (eps junk : K) {p q n m : ℕ} (hp : p ≤ stackMaxDegree) (hq : q ≤ stackMaxDegree) {ku kv : List K} (hU : KWf p ku n)
    (hV : KWf q kv m) (u v : List K) : ∃ N, fillPolesMatrix eps junk (u.length * v.length) (n * m) ku kv u v p q = .ok N ∧
      ∀ (i j : ℕ) (x y : K), u[i]? = some x → v[j]? = some y → ∀ P : List V, P.length = n * m → ∀ junk',
        evalSurf eps junk' x y ku kv P p q 0 0 = .ok (∑ c ∈ Finset.range (n * m), N (i + u.length * j) c • pf P c) := by
  obtain ⟨su, hsu⟩ := exists_spans hU u
  obtain ⟨sv, hsv⟩ := exists_spans hV v
  obtain ⟨N, e, h⟩ := fillPolesMatrix_collS hU hV hp hq hsu hsv eps junk ([] : List V)
  refine ⟨N, e, ?_⟩
  intro i j x y hx hy P hP junk'
  obtain ⟨hi, rfl⟩ := kf_of_some hx
  obtain ⟨hj, rfl⟩ := kf_of_some hy
  have := evalSurf_collS (eps := eps) hp hq hU hV (gridOf_spans hsu hsv ([] : List V)) hP (gridOf_at ([] : List V) hi hj) junk'
  dsimp only at this
  rw [this]
  congr 1
  exact Finset.sum_congr rfl fun c hc => by rw [h _ c (grid_lt hi hj) (Finset.mem_range.mp hc)]

/-- C117. On knots that are clamped at their end and farther apart than the tolerance, an entry is the product of the two recursive basis functions. -/
theorem C117_recursive {eps : K} (heps : 0 < eps) (junk : K) {p q n m : ℕ} (hp1 : 1 ≤ p) (hp : p ≤ stackMaxDegree) (hq1 : 1 ≤ q) (hq : q ≤ stackMaxDegree)
    {ku kv : List K} (hU : KWf p ku n) (hV : KWf q kv m) (sU : Sep eps ku) (sV : Sep eps kv) (cU : kf ku n = kLast ku) (cV : kf kv m = kLast kv)
    {u v : List K} (hu : ∀ x ∈ u, kf ku p ≤ x ∧ x ≤ kf ku n) (hv : ∀ x ∈ v, kf kv q ≤ x ∧ x ≤ kf kv m) :
    ∃ N, fillPolesMatrix eps junk (u.length * v.length) (n * m) ku kv u v p q = .ok N ∧
      ∀ (i j a b : ℕ) (x y : K), u[i]? = some x → v[j]? = some y → a < n → b < m → ∃ A B, basisFunctionD eps ku x p 0 a = .ok A ∧
        basisFunctionD eps kv y q 0 b = .ok B ∧ N (i + u.length * j) (a + n * b) = A * B := by
  obtain ⟨su, hsu⟩ := exists_spans hU u
  obtain ⟨sv, hsv⟩ := exists_spans hV v
  obtain ⟨N, e, h⟩ := fillPolesMatrix_spec hU hV hp hq hsu hsv eps junk
  refine ⟨N, e, ?_⟩
  intro i j a b x y hx hy ha hb
  obtain ⟨x1, x2⟩ := hu x (List.mem_of_getElem? hx)
  obtain ⟨y1, y2⟩ := hv y (List.mem_of_getElem? hy)
  obtain ⟨hi, rfl⟩ := kf_of_some hx
  obtain ⟨hj, rfl⟩ := kf_of_some hy
  have ru : KRecOk eps p ku n (kf u i) := ⟨heps, sU, cU, x1, by linarith⟩
  have rv : KRecOk eps q kv m (kf v j) := ⟨heps, sV, cV, y1, by linarith⟩
  refine ⟨_, _, basisFunctionD_spec heps hU.sorted sU (ru.span hU (hsu.find i hi)) 0 p a (by rw [hU.len]; omega) (Or.inl hp1),
    basisFunctionD_spec heps hV.sorted sV (rv.span hV (hsv.find j hj)) 0 q b (by rw [hV.len]; omega) (Or.inl hq1), ?_⟩
  rw [h i j a b hi hj ha hb, coll_one, coll_one]
  rfl

theorem surfSquareSum_unique {eps : K} {ku kv : List K} {p q : ℕ} {cs : List (SConstr K (Fin dim → K))} {P : List (Fin dim → K)} {s s' : K}
    (h : Spec.SurfSquareSum eps ku kv p q cs P s) (h' : Spec.SurfSquareSum eps ku kv p q cs P s') : s = s' := by
  obtain ⟨X, h1, rfl⟩ := h
  obtain ⟨X', h1', rfl⟩ := h'
  refine Finset.sum_congr rfl fun i hi => ?_
  have hx := List.getElem?_eq_getElem (Finset.mem_range.mp hi)
  have := (h1 i _ hx 0).symm.trans (h1' i _ hx 0)
  rw [Except.ok.inj this]

/-- There is at most one best fit. -/
theorem surfLeast_unique {eps : K} {ku kv : List K} {p q n : ℕ} {cs : List (SConstr K (Fin dim → K))} {P P' : List (Fin dim → K)}
    (h : Spec.SurfLeastSquares eps ku kv p q n cs P) (h' : Spec.SurfLeastSquares eps ku kv p q n cs P') : P' = P := by
  obtain ⟨l, s, hs, hmin⟩ := h
  obtain ⟨l', s', hs', hmin'⟩ := h'
  obtain ⟨t, ht, a1, a2⟩ := hmin P' l'
  obtain ⟨t', ht', b1, -⟩ := hmin' P l
  obtain rfl := surfSquareSum_unique ht hs'
  obtain rfl := surfSquareSum_unique ht' hs
  exact a2 (le_antisymm b1 a1)

theorem gridOf_points {u v : List K} {Q : List V} (hQ : Q.length = u.length * v.length) : (Spec.gridOf u v Q).map SConstr.x = Q := by
  refine pf_ext (by rw [List.length_map, gridOf_length, hQ]) fun k hk => ?_
  rw [List.length_map, gridOf_length] at hk
  rw [pf_of_some (x := pf Q k) (by rw [List.getElem?_map, Spec.gridOf, List.getElem?_map, List.getElem?_range hk]; rfl)]

/-- C117, least squares. When the parameters of each direction lie in the domain and determine the poles of a curve, the poles that `build_poles` gets from a
least-squares factorization of this matrix are the only best fit of the grid; `approx`, which solves for the two directions one after the other, returns
the same poles. -/
theorem C117_least_squares {eps : K} (heps : 0 < eps) (junk : K) {p q n m : ℕ} (hp : p ≤ stackMaxDegree) (hq : q ≤ stackMaxDegree)
    {lsq : ℕ → ℕ → (ℕ → ℕ → K) → List (Fin dim → K) → R (List (Fin dim → K))} (hL : Spec.SolvesLeast lsq)
    {dense : ℕ → (ℕ → ℕ → K) → List (Fin dim → K) → R (List (Fin dim → K))} (hS : Spec.SolvesDense dense) {ku kv : List K}
    (hU : KWf p ku n) (hV : KWf q kv m) {u v : List K} {Q : List (Fin dim → K)} (hQ : Q.length = u.length * v.length) (hn : n * m ≤ Q.length)
    (hu : ∀ x ∈ u, kf ku p ≤ x ∧ x ≤ kf ku n) (hv : ∀ x ∈ v, kf kv q ≤ x ∧ x ≤ kf kv m)
    (hdu : Spec.Determines eps ku p n u) (hdv : Spec.Determines eps kv q m v) :
    ∃ N P, fillPolesMatrix eps junk Q.length (n * m) ku kv u v p q = .ok N ∧ buildPolesWith lsq Q.length (n * m) N Q = .ok P ∧
      Spec.SurfLeastSquares eps ku kv p q (n * m) (Spec.gridOf u v Q) P ∧ approxGrid eps junk dense Q ku kv u v p q = .ok P := by
  obtain ⟨su, hsu⟩ := exists_spans hU u
  obtain ⟨sv, hsv⟩ := exists_spans hV v
  obtain ⟨N, e, h⟩ := fillPolesMatrix_collS hU hV hp hq hsu hsv eps junk Q
  have hsp := gridOf_spans hsu hsv Q
  have hdet := (C80_grid_determines heps hp hq hU hV hu hv Q).mpr ⟨hdu, hdv⟩
  have hrow := (unisolvent_rows (eps := eps) hp hq hU hV hsp).mp hdet
  rw [gridOf_length] at hrow
  rw [hQ] at hn ⊢
  obtain ⟨X, eX, hlX, hX⟩ := hL (u.length * v.length) (n * m) N Q hQ (by
    intro x hx
    apply hrow
    intro r hr
    rw [← hx r hr]
    exact Finset.sum_congr rfl fun j hj => by rw [h r j hr (Finset.mem_range.mp hj)])
  have hbest : Spec.SurfLeastSquares eps ku kv p q (n * m) (Spec.gridOf u v Q) X := by
    refine surfLeast_of_normal hp hq hU hV hsp hdet hlX ?_
    intro i hi
    rw [normal_apply_smul, gridOf_length, gridOf_points hQ]
    have := hX i hi
    simp only [smul_sub, Finset.sum_sub_distrib] at this
    have := sub_eq_zero.mp this
    have key : ∀ Y : ℕ → Fin dim → K, ∑ r ∈ Finset.range (u.length * v.length), N r i • Y r = ∑ r ∈ Finset.range (u.length * v.length),
        collS ku kv p q n (Spec.gridOf u v Q) (fun k => su (k % u.length)) (fun k => sv (k / u.length)) r i • Y r := fun Y =>
      Finset.sum_congr rfl fun r hr => by rw [h r i (Finset.mem_range.mp hr) hi]
    rw [key, key] at this
    rw [← this]
    refine Finset.sum_congr rfl fun r hr => ?_
    congr 1
    exact Finset.sum_congr rfl fun j hj => by rw [h r j (Finset.mem_range.mp hr) (Finset.mem_range.mp hj)]
  obtain ⟨P, eP, hP⟩ := C80_approx_grid heps junk hp hq hS hU hV hQ (by omega) hu hv hdu hdv
  refine ⟨N, X, e, ?_, hbest, ?_⟩
  · unfold buildPolesWith
    rw [if_neg (by omega), eX, R_bind_ok, copy_loop hlX]
  · rw [eP, surfLeast_unique hbest hP]

/-- C117, interpolation. With as many parameters as poles in each direction, the poles that `build_poles` gets from a solver of the whole system and those that
it gets from the two systems in one variable are the same. -/
theorem C117_separates {eps : K} (heps : 0 < eps) (junk : K) {p q : ℕ} (hp : p ≤ stackMaxDegree) (hq : q ≤ stackMaxDegree)
    {dense : ℕ → (ℕ → ℕ → K) → List V → R (List V)} (hS : Spec.SolvesDense dense) {ku kv u v : List K} {Q : List V} (hQ : Q.length = u.length * v.length)
    (hU : KWf p ku u.length) (hV : KWf q kv v.length) (hu : ∀ x ∈ u, kf ku p ≤ x ∧ x ≤ kf ku u.length) (hv : ∀ x ∈ v, kf kv q ≤ x ∧ x ≤ kf kv v.length)
    (hdu : Spec.Determines eps ku p u.length u) (hdv : Spec.Determines eps kv q v.length v) :
    ∃ N P, fillPolesMatrix eps junk Q.length Q.length ku kv u v p q = .ok N ∧ buildPolesWith (fun n _ => dense n) Q.length Q.length N Q = .ok P ∧
      buildPolesGrid eps junk dense Q ku kv u v p q = .ok P ∧
      ∀ (i j : ℕ) (a b : K) (x : V), u[i]? = some a → v[j]? = some b → Q[i + u.length * j]? = some x →
        ∀ junk', evalSurf eps junk' a b ku kv P p q 0 0 = .ok x := by
  obtain ⟨N, e, hN⟩ := C117_matrix (V := V) eps junk hp hq hU hV u v
  obtain ⟨N', e', hN'⟩ := C117_matrix (V := K) eps junk hp hq hU hV u v
  obtain rfl := Except.ok.inj (e.symm.trans e')
  have hsolve : ∀ {k w : List K} {d : ℕ} (hd : d ≤ stackMaxDegree) (_ : KWf d k w.length) (_ : ∀ x ∈ w, kf k d ≤ x ∧ x ≤ kf k w.length)
      (_ : Spec.Determines eps k d w.length w) (M : ℕ → ℕ → K), gridMatrix eps junk k w d = .ok M → ∀ B : List V, B.length = w.length →
        ∃ X, dense w.length M B = .ok X ∧ X.length = w.length ∧ ∀ i, i < w.length → ∑ j ∈ Finset.range w.length, M i j • pf X j = pf B i := by
    intro k w d hd hW hw hdet M hM B hB
    obtain ⟨sp, M', hsp, eM, hM'⟩ := gridMatrix_spec hW hd eps junk
    obtain rfl := Except.ok.inj (hM.symm.trans eM)
    refine hS _ M B hB (Regular.congr (A := coll k w d 1 sp) ?_ fun i j hi hj => (hM' i j hi hj).symm)
    exact (Determines.iff_rows heps hW hd hsp hw).mp hdet
  obtain ⟨P, eP, hlP, hP⟩ := C77_build_poles_grid (Q := Q) heps junk hp hq hQ hU hV (hsolve hp hU hu hdu) (hsolve hq hV hv hdv)
  have hdet := (C80_grid_determines heps hp hq hU hV hu hv Q).mpr ⟨hdu, hdv⟩
  have hpos : ∀ {k}, k < u.length * v.length → 0 < u.length := fun {k} hk => Nat.pos_of_ne_zero fun h => by rw [h, Nat.zero_mul] at hk; omega
  have hR : Spec.Regular (u.length * v.length) N := by
    intro x hx j hj
    refine hdet ((List.range (u.length * v.length)).map x) (by simp) ?_ (x j) (List.mem_map.mpr ⟨j, List.mem_range.mpr hj, rfl⟩)
    intro c hc junk'
    obtain ⟨k, hk⟩ := List.getElem?_of_mem hc
    obtain ⟨h1, h2, rfl⟩ := gridOf_get hk
    have hkl : k < u.length * v.length := by
      by_contra hc
      rw [List.getElem?_eq_none (by rw [gridOf_length]; omega)] at hk
      cases hk
    have := hN' (k % u.length) (k / u.length) _ _ (kf_getElem? h1) (kf_getElem? h2) ((List.range (u.length * v.length)).map x) (by simp) junk'
    dsimp only
    rw [this, Nat.mod_add_div, ← hx k hkl]
    congr 1
    exact Finset.sum_congr rfl fun j hj => by rw [pf_map_range x (Finset.mem_range.mp hj), smul_eq_mul]
  rw [hQ]
  obtain ⟨X, eX, hlX, hX⟩ := hS (u.length * v.length) N Q hQ hR
  have hXP : X = P := by
    refine pf_ext (by omega) fun j hj => ?_
    refine Regular.unique hR (x := pf X) (y := pf P) (fun k hk => ?_) j (by omega)
    have hi := Nat.mod_lt k (hpos hk)
    have hj := Nat.div_lt_of_lt_mul hk
    have hq : Q[k % u.length + u.length * (k / u.length)]? = some (pf Q k) := by
      rw [Nat.mod_add_div, pf_of_some (List.getElem?_eq_getElem (by omega : k < Q.length))]
      exact List.getElem?_eq_getElem _
    have e1 := hP _ _ _ _ _ (kf_getElem? hi) (kf_getElem? hj) hq 0
    rw [hN _ _ _ _ (kf_getElem? hi) (kf_getElem? hj) P hlP 0, Nat.mod_add_div] at e1
    rw [hX k hk, ← Except.ok.inj e1]
  refine ⟨N, P, e, ?_, eP, hP⟩
  unfold buildPolesWith
  rw [if_neg (by omega)]
  show dense (u.length * v.length) N Q >>= _ = _
  rw [eX, R_bind_ok, copy_loop hlX, hXP]

/-! ## The hypotheses are met -/

namespace Sample

/-- Fifteen points, eight poles. -/
example {lsq : ℕ → ℕ → (ℕ → ℕ → ℚ) → List (Fin 1 → ℚ) → R (List (Fin 1 → ℚ))} (hL : Spec.SolvesLeast lsq)
    {dense : ℕ → (ℕ → ℕ → ℚ) → List (Fin 1 → ℚ) → R (List (Fin 1 → ℚ))} (hS : Spec.SolvesDense dense) :
    ∃ N P, fillPolesMatrix (1/1000 : ℚ) 7 15 8 apK asK apU asV 2 1 = .ok N ∧ buildPolesWith lsq 15 8 N asQ = .ok P ∧
      approxGrid (1/1000 : ℚ) 7 dense asQ apK asK apU asV 2 1 = .ok P := by
  obtain ⟨N, P, h1, h2, -, h3⟩ := C117_least_squares (eps := (1/1000 : ℚ)) (by norm_num) 7 (by decide) (by decide) hL hS apK_wf asK_wf
    (u := apU) (v := asV) (Q := asQ) (by simp [asQ, apU, asV]) (by simp [asQ]) (by decide +kernel) (by decide +kernel) apK_determines asK_determines
  rw [show asQ.length = 15 by simp [asQ]] at h1 h2
  exact ⟨N, P, h1, h2, h3⟩

theorem asK_two : Spec.Determines (1/1000 : ℚ) asK 1 2 [0, 1] :=
  C78_determines (by norm_num) (by omega) (by decide) asK_wf (by decide +kernel) (by decide +kernel) (t := [0, 1]) (by decide +kernel) rfl
    (by decide +kernel) (by decide +kernel) (by decide +kernel) (by intro j h1 h2; omega)

/-- The corners of a bilinear surface. -/
example {dense : ℕ → (ℕ → ℕ → ℚ) → List ℚ → R (List ℚ)} (hS : Spec.SolvesDense dense) :
    ∃ N P, fillPolesMatrix (1/1000 : ℚ) 7 4 4 asK asK [0, 1] [0, 1] 1 1 = .ok N ∧ buildPolesWith (fun n _ => dense n) 4 4 N [3, 5, 4, 9] = .ok P ∧
      buildPolesGrid (1/1000 : ℚ) 7 dense [3, 5, 4, 9] asK asK [0, 1] [0, 1] 1 1 = .ok P := by
  obtain ⟨N, P, h1, h2, h3, -⟩ := C117_separates (eps := (1/1000 : ℚ)) (by norm_num) 7 (p := 1) (q := 1) (by decide) (by decide) hS (ku := asK) (kv := asK)
    (u := [0, 1]) (v := [0, 1]) (Q := [3, 5, 4, 9]) rfl asK_wf asK_wf (by decide +kernel) (by decide +kernel) asK_two asK_two
  exact ⟨N, P, h1, h2, h3⟩

example : ∃ N, fillPolesMatrix (1/1000 : ℚ) 7 (2 * 2) (2 * 2) asK asK [1/3, 1] [1/4, 1] 1 1 = .ok N ∧ ∃ A B, basisFunctionD (1/1000 : ℚ) asK 1 1 0 1 = .ok A ∧
    basisFunctionD (1/1000 : ℚ) asK (1/4) 1 0 0 = .ok B ∧ N (1 + 2 * 0) (1 + 2 * 0) = A * B := by
  have hs : Sep (1/1000 : ℚ) asK := by
    have : ∀ i, kf asK i = if i < 2 then 0 else 1 := by
      intro i
      rcases i with _ | _ | _ | _ | i <;> rfl
    intro i j h
    rw [this, this] at h ⊢
    split_ifs at h ⊢ <;> first | (norm_num at h; done) | norm_num
  obtain ⟨N, e, h⟩ := C117_recursive (eps := (1/1000 : ℚ)) (by norm_num) 7 (p := 1) (q := 1) le_rfl (by decide) le_rfl (by decide) asK_wf asK_wf hs hs
    (by decide +kernel) (by decide +kernel) (u := [1/3, 1]) (v := [1/4, 1]) (by decide +kernel) (by decide +kernel)
  exact ⟨N, e, h 1 0 1 0 1 (1/4) rfl rfl (by decide) (by decide)⟩

/-- A row in the middle of the domain, and the row of the last corner. -/
example : ((fillPolesMatrix (1/1000 : ℚ) 7 4 4 asK asK [1/3, 1] [1/4, 1] 1 1).map fun N => ([0, 1, 2, 3].map (N 0), [0, 1, 2, 3].map (N 3))).toOption =
    some ([1/2, 1/4, 1/6, 1/12], [0, 0, 0, 1]) := by decide +kernel

end Sample

end Gbs
