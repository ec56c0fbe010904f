import Verif.Lemmas.InterpConstr
import Verif.Props.Parametrization
import Verif.Props.Constructor
import Verif.Props.IncreaseDegree
import Verif.Props.SurfaceReparam

/-! # Interpolation: the banded solver and the curves through data (C35, C36) -/

namespace Gbs

open Polynomial

set_option linter.unusedSectionVars false

variable {K : Type} [Field K] [LinearOrder K] [IsStrictOrderedRing K]
variable {V : Type} [AddCommGroup V] [Module K V]

/-! ## C35 -/

/-- The matrix stored by rows of `kl + ku + 1` entries around the diagonal. -/
def Spec.bandMatrix (kl ku : ℕ) (M : List K) (i j : ℕ) : K :=
  if i ≤ j + kl ∧ j ≤ i + ku then M.getD (i * (kl + ku + 1) + (j + kl - i)) 0 else 0

/-- A matrix with an LU decomposition and non-zero pivots is injective. -/
theorem lu_injective {n : ℕ} {A a : ℕ → ℕ → K} (hd : ∀ i, i < n → a i i ≠ 0)
    (hLU : ∀ i j, i < n → j < n → A i j = ∑ m ∈ Finset.range n, luL a i m * luU a m j) {z : ℕ → V}
    (hz : ∀ i, i < n → ∑ j ∈ Finset.range n, A i j • z j = 0) : ∀ i, i < n → z i = 0 := by
  have hw : ∀ i, i < n → ∑ m ∈ Finset.range n, luL a i m • ∑ j ∈ Finset.range n, luU a m j • z j = 0 := by
    intro i hi
    rw [← hz i hi]
    simp only [Finset.smul_sum]
    rw [Finset.sum_comm]
    apply Finset.sum_congr rfl
    intro j hj
    rw [hLU i j hi (Finset.mem_range.mp hj), Finset.sum_smul]
    apply Finset.sum_congr rfl
    intro m _
    rw [mul_smul]
  have hL : ∀ i, i < n → ∑ j ∈ Finset.range n, luU a i j • z j = 0 := by
    intro i
    induction i using Nat.strong_induction_on with
    | _ i ih =>
      intro hi
      have := hw i hi
      rw [Finset.sum_eq_single i] at this
      · simpa [luL] using this
      · intro m hm hmi
        rcases Nat.lt_or_ge m i with h | h
        · rw [ih m h (by omega), smul_zero]
        · rw [luL, if_neg (by omega), if_neg hmi, zero_smul]
      · intro h; exact absurd (Finset.mem_range.mpr hi) h
  have : ∀ t i, i < n → n - 1 - i = t → z i = 0 := by
    intro t
    induction t using Nat.strong_induction_on with
    | _ t ih =>
      intro i hi ht
      have := hL i hi
      rw [Finset.sum_eq_single i] at this
      · rw [luU, if_pos le_rfl] at this
        exact (smul_eq_zero.mp this).resolve_left (hd i hi)
      · intro j hj hji
        have hj := Finset.mem_range.mp hj
        rcases Nat.lt_or_ge i j with h | h
        · rw [ih (n - 1 - j) (by omega) j hj rfl, smul_zero]
        · rw [luU, if_neg (by omega), zero_smul]
      · intro h; exact absurd (Finset.mem_range.mpr hi) h
  exact fun i hi => this _ i hi rfl

/-- C35: for every size, bandwidths, storage of the right length, tolerance and growth limit, `factorize_inplace` ends without leaving its
storage nor dividing by zero; if it accepts, then `solve` ends in the same way, with any content of the result buffer, and returns the only
`x` such that `A x = b`, `A` being the matrix that was stored before the factorization. -/
theorem C35_band_lu {n kl ku : ℕ} {tol : K} (htol : 0 ≤ tol) (growth : K) {M : List K} (hM : M.length = n * (kl + ku + 1)) :
    ∃ f, factorize n kl ku tol growth M = .ok f ∧ ∀ M', f = some M' → ∀ b x0 : List V, b.length = n → x0.length = n →
      ∃ x, bandSolve n kl ku M' b x0 = .ok x ∧ x.length = n ∧
        (∀ i, i < n → ∑ j ∈ Finset.range n, Spec.bandMatrix kl ku M i j • pf x j = pf b i) ∧
        ∀ y : List V, y.length = n → (∀ i, i < n → ∑ j ∈ Finset.range n, Spec.bandMatrix kl ku M i j • pf y j = pf b i) → y = x := by
  have hbm : ∀ i j, i < n → j < n → bandMat n kl ku M i j = Spec.bandMatrix kl ku M i j := by
    intro i j hi hj
    unfold bandMat Spec.bandMatrix
    by_cases h : i ≤ j + kl ∧ j ≤ i + ku
    · rw [if_pos (show InB n kl ku i j from ⟨hi, hj, h.1, h.2⟩), if_pos h, show i * (kl + ku + 1) + j + kl - i = i * (kl + ku + 1) + (j + kl - i) by omega]
    · rw [if_neg (show ¬InB n kl ku i j from fun h' => h ⟨h'.2.2.1, h'.2.2.2⟩), if_neg h]
  obtain ⟨f, ef, hf⟩ := factorize_spec (n := n) (growth := growth) htol hM
  refine ⟨f, ef, ?_⟩
  rintro M' rfl b x0 hb hx0
  obtain ⟨x, ex, hlx, hx⟩ := bandSolve_spec htol hM ef hb hx0
  refine ⟨x, ex, hlx, ?_, ?_⟩
  · intro i hi
    rw [← hx i hi]
    apply Finset.sum_congr rfl
    intro j hj
    rw [hbm i j hi (Finset.mem_range.mp hj)]
  · intro y hy hyb
    obtain ⟨-, hd, hLU⟩ := hf M' rfl
    have hz := lu_injective (z := fun i => pf y i - pf x i) hd hLU (fun i hi => by
      simp only [smul_sub, Finset.sum_sub_distrib]
      rw [hx i hi, ← hyb i hi, sub_eq_zero]
      apply Finset.sum_congr rfl
      intro j hj
      rw [hbm i j hi (Finset.mem_range.mp hj)])
    apply List.ext_getElem (by rw [hy, hlx])
    intro i h1 h2
    have := sub_eq_zero.mp (hz i (by omega))
    simpa [pf, List.getD_eq_getElem?_getD, h1, h2] using this

/-- A tridiagonal matrix of size 4 in its storage: the factorization accepts it, and the solution is exact. -/
example : ∃ M', factorize 4 1 1 (1 / 1000) 10000 [(0 : ℚ), 2, -1, -1, 2, -1, -1, 2, -1, -1, 2, 0] = .ok (some M') ∧
    bandSolve 4 1 1 M' [(1 : ℚ), 0, 0, 6] [7, 7, 7, 7] = .ok [2, 3, 4, 5] := by
  refine ⟨[0, 2, -1, -1/2, 3/2, -1, -2/3, 4/3, -1, -3/4, 5/4, 0], ?_, ?_⟩ <;> decide +kernel

/-- A regular matrix that needs a row exchange is refused, not solved wrongly: `[[0,1],[1,0]]`. -/
theorem C35_refused_witness : factorize 2 1 1 (0 : ℚ) 10000 [0, 0, 1, 1, 0, 0] = .ok none := by
  decide +kernel

/-! ## C36 -/

/-- Building a curve on clamped knots. -/
theorem mk_clamped {eps : K} (heps : 0 < eps) {p n : ℕ} {U : List K} {P : List V} (hU : KWf p U n) (hP : P.length = n) (hp : p ≤ stackMaxDegree)
    (h0 : kf U 0 = kf U p) (h1 : kLast U = kf U n) :
    ∃ c, Curve.mk? eps P U p = .ok c ∧ c.deg = p ∧ c.poles = P ∧ c.knots = U ∧ c.b0 = kf U p ∧ c.b1 = kf U n ∧ c.Good ∧
      ∀ u s, kf U p ≤ u → u ≤ kf U n → findSpan n p u U = .ok s → ∀ junk d, c.value eps junk u d = .ok (spanDer (kf U) n p s (pf P) d u) := by
  have hw : Wf p U P := hU.wf hP
  have hhead : U.head hw.ne = kf U p := by
    rw [← h0, kf_of_lt (by rw [hU.len]; omega), List.head_eq_getElem]
  have hlast : U.getLast hw.ne = kf U n := by
    rw [← h1, kLast, kf_of_lt (by rw [hU.len]; omega), List.getLast_eq_getElem]
  have hmk := (C11_constructor eps P hU.sorted hw.ne p).1 ⟨by rw [hU.len, hP], by rw [hP]; exact hU.min⟩
  rw [hhead, hlast] at hmk
  have hg : (⟨p, P, U, kf U p, kf U n⟩ : Curve K V).Good := ⟨hw, rfl, by rw [← hP]⟩
  refine ⟨_, hmk, rfl, rfl, rfl, rfl, rfl, hg, ?_⟩
  intro u s hu1 hu2 hs junk d
  obtain ⟨i, e, -, -, -, hv⟩ := Curve.value_span heps hg (Or.inl hp) hu1 hu2
  simp only [hP] at e hv
  rw [hs] at e
  obtain rfl := Except.ok.inj e
  exact hv junk d

theorem kf_of_some {u : List K} {i : ℕ} {t : K} (h : u[i]? = some t) : i < u.length ∧ kf u i = t := by
  have hi : i < u.length := by
    by_contra hc
    rw [List.getElem?_eq_none (by omega)] at h
    cases h
  refine ⟨hi, ?_⟩
  rw [kf_getElem? hi] at h
  exact Option.some.inj h

/-- What is assumed of the sparse solver used when the band is refused: it solves the system of the triplets it is given, repeated
positions being added. Nothing is assumed when the band is accepted. -/
def SparseOk (eps meps growth junk : K) (sparse : ℕ → List (ℕ × ℕ × K) → List V → R (List V)) (nc : ℕ) (Q : List (List V)) (k u : List K)
    (p : ℕ) : Prop :=
  ∀ T B, assembleAndFactorize meps growth junk k u p nc (Q.length * nc) = .ok none → assembleSparse eps junk k u p nc = .ok T →
    interpRhs nc Q = .ok B → ∃ X, sparse (Q.length * nc) T B = .ok X ∧ X.length = Q.length * nc ∧
      ∀ i, i < Q.length * nc → ∑ j ∈ Finset.range (Q.length * nc), (T.map fun t => if t.1 = i ∧ t.2.1 = j then t.2.2 else 0).sum • pf X j = pf B i

/-- C36, `build_poles`: for all admissible knots, degrees up to 24, parameters, number of constraints per parameter and data, no access
leaves its array, and the poles give at each parameter of the domain the requested point and derivatives; when the band is refused this
holds for a sparse solver that solves the system it is given. -/
theorem C36_build_poles {eps meps : K} (heps : 0 < eps) (hm : 0 ≤ meps) (growth junk : K) (x0 : V) {p nc : ℕ} (hp : p ≤ stackMaxDegree)
    (hnc : 1 ≤ nc) {Q : List (List V)} {U u : List K} (hU : KWf p U (Q.length * nc)) (hl : Q.length = u.length)
    (hQ : ∀ q ∈ Q, q.length = nc) {sparse : ℕ → List (ℕ × ℕ × K) → List V → R (List V)}
    (hs : SparseOk eps meps growth junk sparse nc Q U u p) :
    ∃ P, buildPoles eps meps growth junk x0 sparse nc Q U u p = .ok P ∧ P.length = Q.length * nc ∧
      ∀ (i : ℕ) (q : List V) (t : K) (d : ℕ) (v : V), Q[i]? = some q → u[i]? = some t → kf U p ≤ t → t ≤ kf U (Q.length * nc) → q[d]? = some v →
        ∀ junk', evalValue eps junk' t U P p d = .ok v := by
  obtain ⟨sp, hsp⟩ := exists_spans hU u
  obtain ⟨P, e, hlP, hP⟩ := buildPoles_spec (nc := nc) hm hU hp hsp hnc (by rw [hl]) hl hQ eps growth junk x0 sparse hs
  refine ⟨P, e, hlP, ?_⟩
  intro i q t d v hq ht h1 h2 hv junk'
  obtain ⟨hi, hkt⟩ := kf_of_some ht
  have hd : d < nc := by
    rw [← hQ q (List.mem_of_getElem? hq)]
    by_contra hc
    rw [List.getElem?_eq_none (by omega)] at hv
    cases hv
  have := hP i d q hq hd
  rw [hkt] at this
  have hpv : pf q d = v := by unfold pf; rw [List.getD_eq_getElem?_getD, hv]; rfl
  rw [hpv] at this
  rw [← this]
  have hw : Wf p U P := hU.wf hlP
  have hg : (⟨p, P, U, kf U p, kf U P.length⟩ : Curve K V).Good := ⟨hw, rfl, rfl⟩
  rw [← hlP]
  exact evalValue_all hw (Curve.evalOk heps hg (Or.inl hp) h1 (by show t < kf U P.length + eps; rw [hlP]; linarith)) d
    (by rw [hlP, ← hkt]; exact hsp.find i hi)

/-- C36, interpolation of points with averaged knots: for every degree from 1 to 24, at least `p + 1` points and strictly increasing
parameters, `interpolate` returns a curve of that degree, defined between the first and the last parameters, that passes through each point
at its parameter. When the band is refused this holds for a sparse solver that solves the system it is given. -/
theorem C36_interpolate_cn {eps meps : K} (heps : 0 < eps) (hm : 0 ≤ meps) (growth junk : K) (x0 : V) {p : ℕ} (hp1 : 1 ≤ p)
    (hp : p ≤ stackMaxDegree) {Q : List V} {u : List K} (hl : Q.length = u.length) (hn : p + 1 ≤ u.length) (hu : u.Pairwise (· < ·))
    {sparse : ℕ → List (ℕ × ℕ × K) → List V → R (List V)}
    (hs : ∀ k, averagedFlatKnots u p = .ok k → SparseOk eps meps growth junk sparse 1 (Q.map fun q => [q]) k u p) :
    ∃ c, interpolateCn eps meps growth junk x0 sparse Q u p = .ok c ∧ c.Good ∧ c.deg = p ∧ c.poles.length = Q.length ∧
      some c.b0 = u.head? ∧ some c.b1 = u.getLast? ∧
      ∀ (i : ℕ) (q : V) (t : K), Q[i]? = some q → u[i]? = some t → ∀ junk', c.value eps junk' t 0 = .ok q := by
  obtain ⟨k, ek, hlk, hk0, hk1, -, hwf⟩ := C54_averaged_knots (V := V) hp1 hn hu
  have hQl : (Q.map fun q => [q]).length * 1 = u.length := by simp [hl]
  have hU : KWf p k u.length := by
    have h := hwf (List.replicate u.length 0) (by simp)
    have := h.kwf
    rwa [List.length_replicate] at this
  have hU' : KWf p k ((Q.map fun q => [q]).length * 1) := by rw [hQl]; exact hU
  have hkk0 : ∀ j, j ≤ p → kf k j = kf u 0 := fun j hj => by
    have := hk0 j hj
    rw [kf_getElem? (by omega), kf_getElem? (by omega)] at this
    exact Option.some.inj this
  have hkk1 : ∀ j, u.length ≤ j → j ≤ u.length + p → kf k j = kf u (u.length - 1) := fun j hj hj2 => by
    have := hk1 j hj hj2
    rw [kf_getElem? (by omega), kf_getElem? (by omega)] at this
    exact Option.some.inj this
  obtain ⟨sp, hsp⟩ := exists_spans hU u
  obtain ⟨P, eP, hlP, hP⟩ := buildPoles_spec (nc := 1) (Q := Q.map fun q => [q]) hm hU hp hsp le_rfl (by simp) (by simp [hl])
    (by simp) eps growth junk x0 sparse (by have := hs k ek; unfold SparseOk at this; rw [hQl] at this; exact this)
  obtain ⟨c, ec, c1, c2, c3, c4, c5, hg, hv⟩ := mk_clamped heps hU hlP hp (by rw [hkk0 0 (by omega), hkk0 p le_rfl])
    (by unfold kLast; rw [hkk1 _ (by omega) (by omega), hkk1 _ le_rfl (by omega)])
  refine ⟨c, ?_, hg, c1, by rw [c2, hlP, hl], ?_, ?_, ?_⟩
  · unfold interpolateCn
    rw [ek, R_bind_ok, eP, R_bind_ok, ec]
  · rw [c4, hkk0 p le_rfl, List.head?_eq_getElem?, kf_getElem? (by omega)]
  · rw [c5, hkk1 _ le_rfl (by omega), List.getLast?_eq_getElem?, kf_getElem? (by omega)]
  · intro i q t hq ht junk'
    obtain ⟨hi, hkt⟩ := kf_of_some ht
    have := hP i 0 [q] (by rw [List.getElem?_map, hq]; rfl) (by omega)
    rw [hkt] at this
    have hle := hu.imp le_of_lt (R := (· < ·)) (S := (· ≤ ·))
    rw [hv t (sp i) (by rw [hkk0 p le_rfl, ← hkt]; exact kf_mono hle (by omega))
      (by rw [hkk1 _ le_rfl (by omega), ← hkt]; exact kf_mono hle (by omega)) (by rw [← hkt]; exact hsp.find i hi) junk' 0, this]
    rfl

/-- The multiplicities of `interpolate(Q,u)`. -/
theorem ncMults {nc m i : ℕ} (hm : 1 ≤ m) : ((2 * nc - 1 + 1) :: (List.replicate (m - 1) nc ++ [2 * nc - 1 + 1])).getD i 0 =
    if i = 0 ∨ i = m then 2 * nc - 1 + 1 else if i < m then nc else 0 := by
  rw [List.getD_eq_getElem?_getD]
  rcases Nat.eq_zero_or_pos i with rfl | hi
  · simp
  · obtain ⟨j, rfl⟩ : ∃ j, i = j + 1 := ⟨i - 1, by omega⟩
    rw [List.getElem?_cons_succ]
    rcases Nat.lt_or_ge j (m - 1) with h | h
    · rw [List.getElem?_append_left (by simpa using h), List.getElem?_replicate, if_pos h, if_neg (by omega), if_pos (by omega)]
      rfl
    · rw [List.getElem?_append_right (by simpa using h), List.length_replicate]
      rcases Nat.eq_or_lt_of_le h with h' | h'
      · rw [if_pos (by omega), show j - (m - 1) = 0 by omega]
        rfl
      · rw [if_neg (by omega), if_neg (by omega), List.getElem?_eq_none (by simp; omega)]
        rfl

/-- C36, interpolation of points and derivatives: for `nc` constraints (point, first derivative, ...) at each of at least two strictly
increasing parameters, with degree `2 nc - 1` at most 24, `interpolate` returns a curve that has at each parameter the given value and
derivatives. When the band is refused this holds for a sparse solver that solves the system it is given. -/
theorem C36_interpolate_nc {eps meps : K} (heps : 0 < eps) (hm : 0 ≤ meps) (growth junk : K) (x0 : V) {nc : ℕ} (hnc : 1 ≤ nc)
    (hp : 2 * nc - 1 ≤ stackMaxDegree) {Q : List (List V)} {u : List K} (hl : Q.length = u.length) (hn : 2 ≤ u.length)
    (hu : u.Pairwise (· < ·)) (hQ : ∀ q ∈ Q, q.length = nc) {sparse : ℕ → List (ℕ × ℕ × K) → List V → R (List V)}
    (hs : ∀ k, flatKnots u ((2 * nc) :: (List.replicate (Q.length - 2) nc ++ [2 * nc])) = .ok k →
      SparseOk eps meps growth junk sparse nc Q k u (2 * nc - 1)) :
    ∃ c, interpolateNc eps meps growth junk x0 sparse nc Q u = .ok c ∧ c.Good ∧ c.deg = 2 * nc - 1 ∧ c.poles.length = Q.length * nc ∧
      some c.b0 = u.head? ∧ some c.b1 = u.getLast? ∧
      ∀ (i : ℕ) (q : List V) (t : K) (d : ℕ) (v : V), Q[i]? = some q → u[i]? = some t → q[d]? = some v →
        ∀ junk', c.value eps junk' t d = .ok v := by
  obtain ⟨m, hm1⟩ : ∃ m, u.length = m + 1 := ⟨u.length - 1, by omega⟩
  have hlt : Gaps 0 (kf u) m := by
    intro i hi
    rw [kf_of_lt (by omega), kf_of_lt (by omega), add_zero]
    exact List.pairwise_iff_getElem.mp hu i (i + 1) _ _ (by omega)
  set p := 2 * nc - 1 with hpdef
  have hp1 : p + 1 = 2 * nc := by omega
  set ms : List ℕ := (p + 1) :: (List.replicate (Q.length - 2) nc ++ [p + 1]) with hms
  have hlms : u.length = ms.length := by simp [hms]; omega
  have hgetD : ∀ i, ms.getD i 0 = if i = 0 ∨ i = m then p + 1 else if i < m then nc else 0 := by
    intro i
    rw [hms, show Q.length - 2 = m - 1 by omega]
    exact ncMults (by omega)
  have ek := flatF_eq_flatKnots u ms hlms
  rw [hm1] at ek
  set k := flatF (kf u) (fun i => ms.getD i 0) (m + 1) with hk
  have hlen : ∀ j, 1 ≤ j → j ≤ m → (flatF (kf u) (fun i => ms.getD i 0) j).length = (j + 1) * nc := by
    intro j h1 h2
    induction j with
    | zero => omega
    | succ j ih =>
      rw [flatF_length_succ]
      rcases Nat.eq_zero_or_pos j with rfl | hj
      · rw [flatF_length_zero, hgetD, if_pos (Or.inl rfl)]
        omega
      · rw [ih hj (by omega), hgetD, if_neg (by omega), if_pos (by omega)]
        ring
  have hlk : k.length = u.length * nc + p + 1 := by
    rw [hk, flatF_length_succ, hlen m (by omega) le_rfl, hgetD, if_pos (Or.inr rfl), hm1]
    omega
  have hU : KWf p k (u.length * nc) := by
    have h := wf_flatF (V := V) (p := p) (eps := 0) le_rfl hlt (show 1 ≤ m by omega) (f := fun i => ms.getD i 0)
      (fun i hi => by
        simp only [hgetD]
        split
        · omega
        · rw [if_pos (by omega)]; exact hnc)
      (by show ms.getD 0 0 = _; rw [hgetD, if_pos (Or.inl rfl)]) (by show ms.getD m 0 = _; rw [hgetD, if_pos (Or.inr rfl)])
      (P := List.replicate (u.length * nc) 0) (by rw [← hk, hlk]; simp)
    have := h.kwf
    rwa [List.length_replicate] at this
  have hd0 : ∀ j, j ≤ p → kf k j = kf u 0 := fun j hj =>
    kf_flatF (kf u) _ (by omega) (by rw [flatF_length_zero]; omega) (by rw [flatF_length_zero, hgetD, if_pos (Or.inl rfl)]; omega)
  have hd1 : ∀ j, u.length * nc ≤ j → j ≤ u.length * nc + p → kf k j = kf u m := fun j hj hj2 =>
    kf_flatF (kf u) _ (by omega) (by rw [hlen m (by omega) le_rfl, ← hm1]; omega)
      (by rw [hlen m (by omega) le_rfl, ← hm1, hgetD, if_pos (Or.inr rfl)]; omega)
  obtain ⟨sp, hsp⟩ := exists_spans hU u
  obtain ⟨P, eP, hlP, hP⟩ := buildPoles_spec (nc := nc) (Q := Q) hm hU hp hsp hnc rfl hl hQ eps growth junk x0 sparse
    (by have := hs k (by rw [← hp1]; exact ek); unfold SparseOk at this; rw [hl] at this; exact this)
  obtain ⟨c, ec, c1, c2, c3, c4, c5, hg, hv⟩ := mk_clamped heps hU hlP hp (by rw [hd0 0 (by omega), hd0 p le_rfl])
    (by unfold kLast; rw [hd1 _ (by omega) (by omega), hd1 _ le_rfl (by omega)])
  refine ⟨c, ?_, hg, c1, by rw [c2, hlP, hl], ?_, ?_, ?_⟩
  · unfold interpolateNc
    rw [usub_ok (by omega), R_bind_ok, if_neg (by omega), ← hpdef, ← hms, ek, R_bind_ok, eP, R_bind_ok, ec]
  · rw [c4, hd0 p le_rfl, List.head?_eq_getElem?, kf_getElem? (by omega)]
  · rw [c5, hd1 _ le_rfl (by omega), List.getLast?_eq_getElem?, kf_getElem? (by omega), show u.length - 1 = m by omega]
  · intro i q t d v hq ht hqd junk'
    obtain ⟨hi, hkt⟩ := kf_of_some ht
    have hd : d < nc := by
      rw [← hQ q (List.mem_of_getElem? hq)]
      by_contra hc
      rw [List.getElem?_eq_none (by omega)] at hqd
      cases hqd
    have := hP i d q hq hd
    rw [hkt] at this
    have hle := hu.imp le_of_lt (R := (· < ·)) (S := (· ≤ ·))
    rw [hv t (sp i) (by rw [hd0 p le_rfl, ← hkt]; exact kf_mono hle (by omega))
      (by rw [hd1 _ le_rfl (by omega), ← hkt]; exact kf_mono hle (by omega)) (by rw [← hkt]; exact hsp.find i hi) junk' d, this]
    unfold pf; rw [List.getD_eq_getElem?_getD, hqd]; rfl

/-- C36, `build_poles` for general constraints: whatever the order of the constraints and the permutation returned by the sort, no access
leaves its array and each constraint (point or derivative at a parameter of the domain) is met; when the band is refused this holds for a
solver that solves the dense system it is given. -/
theorem C36_build_poles_constraints {eps meps : K} (heps : 0 < eps) (hm : 0 ≤ meps) (growth junk : K) (x0 : V) {p : ℕ}
    (hp : p ≤ stackMaxDegree) {cs : List (Constr K V)} {U : List K} (hU : KWf p U cs.length)
    {srt : List (Constr K V) → List (Constr K V)} (hsrt : (srt cs).Perm cs) {dense : ℕ → (ℕ → ℕ → K) → List V → R (List V)}
    (hs : ∀ N, fillRows eps junk U p cs = .ok N →
      (∃ qs, qs.Perm cs ∧ assembleConstraints meps growth junk qs U p = .ok none) →
      ∃ X, dense cs.length N (cs.map Constr.v) = .ok X ∧ X.length = cs.length ∧
        ∀ i, i < cs.length → ∑ j ∈ Finset.range cs.length, N i j • pf X j = pf (cs.map Constr.v) i) :
    ∃ P, buildPolesConstr eps meps growth junk x0 srt dense cs U p = .ok P ∧ P.length = cs.length ∧
      ∀ x ∈ cs, kf U p ≤ x.u → x.u ≤ kf U cs.length → ∀ junk', evalValue eps junk' x.u U P p x.d = .ok x.v := by
  have fin : ∀ (qs : List (Constr K V)) (sp : ℕ → ℕ) (P : List V), qs.Perm cs → SpansC U p cs.length qs sp → P.length = cs.length →
      (∀ i, i < cs.length → ∑ j ∈ Finset.range cs.length, collC U p qs sp i j • pf P j = pf (qs.map Constr.v) i) →
      ∀ x ∈ cs, kf U p ≤ x.u → x.u ≤ kf U cs.length → ∀ junk', evalValue eps junk' x.u U P p x.d = .ok x.v := by
    intro qs sp P hperm hsp hlP hP x hx h1 h2 junk'
    obtain ⟨i, hi⟩ := List.getElem?_of_mem (hperm.mem_iff.mpr hx)
    have hil : i < qs.length := by
      by_contra hc
      rw [List.getElem?_eq_none (by omega)] at hi
      cases hi
    have := hP i (by rw [← hperm.length_eq]; exact hil)
    rw [sum_collC hi] at this
    have hpv : pf (qs.map Constr.v) i = x.v := by
      unfold pf; rw [List.getD_eq_getElem?_getD, List.getElem?_map, hi]; rfl
    rw [hpv] at this
    rw [← this]
    have hw : Wf p U P := hU.wf hlP
    have hg : (⟨p, P, U, kf U p, kf U P.length⟩ : Curve K V).Good := ⟨hw, rfl, rfl⟩
    rw [← hlP]
    exact evalValue_all hw (Curve.evalOk heps hg (Or.inl hp) h1 (by show x.u < kf U P.length + eps; rw [hlP]; linarith)) x.d
      (by rw [hlP]; exact hsp.find i x hi)
  unfold buildPolesConstr
  simp only
  have hperm : (if isSortedUd cs = true then cs else srt cs).Perm cs := by
    split
    · exact List.Perm.refl _
    · exact hsrt
  generalize (if isSortedUd cs = true then cs else srt cs) = qs at hperm
  obtain ⟨sp, hsp⟩ := exists_spansC hU qs
  obtain ⟨f, ef, hf⟩ := assembleConstraints_spec hm hU hp hsp hperm.length_eq growth junk
  rw [ef, R_bind_ok]
  cases f with
  | some g =>
    obtain ⟨kl, ku, M'⟩ := g
    obtain ⟨x, ex, hlx, hx⟩ := hf kl ku M' rfl (qs.map Constr.v) (List.replicate cs.length x0) (by simp [hperm.length_eq]) (by simp)
    exact ⟨x, ex, hlx, fin qs sp x hperm hsp hlx hx⟩
  | none =>
    obtain ⟨sp', hsp'⟩ := exists_spansC hU cs
    obtain ⟨N, eN, hN⟩ := fillRows_spec hU hp hsp' rfl eps junk
    obtain ⟨X, eX, hlX, hX⟩ := hs N eN ⟨qs, hperm, ef⟩
    refine ⟨X, ?_, hlX, fin cs sp' X (List.Perm.refl _) hsp' hlX ?_⟩
    · show (fillRows eps junk U p cs >>= fun N => dense cs.length N (cs.map Constr.v)) = _
      rw [eN, R_bind_ok, eX]
    · intro i hi
      rw [← hX i hi]
      apply Finset.sum_congr rfl
      intro j hj
      rw [hN i j hi (Finset.mem_range.mp hj)]

theorem foldl_insertOrdered {L : List K} (hL : L.Pairwise (· ≤ ·)) (vs : List K) :
    (vs.foldl insertOrdered L).Pairwise (· ≤ ·) ∧ (vs.foldl insertOrdered L).Perm (vs ++ L) := by
  induction vs generalizing L with
  | nil => exact ⟨hL, List.Perm.refl _⟩
  | cons v vs ih =>
    obtain ⟨h1, h2⟩ := C51_insert_ordered hL v
    obtain ⟨h3, h4⟩ := ih h1
    refine ⟨h3, h4.trans ?_⟩
    exact (List.Perm.append_left vs h2).trans List.perm_middle

/-- C36, the most general interpolation: two end points and constraints at parameters between them, at most `p` of all the parameters being
equal to the first one and at most `p` to the last one. For a dense solver that solves the system it is given, the returned curve goes from
one end point to the other and meets every constraint. -/
theorem C36_interpolate_bounds {eps : K} (heps : 0 < eps) (junk : K) {p : ℕ} (hp1 : 1 ≤ p) (hp : p ≤ stackMaxDegree) {b e : K × V}
    {cs : List (Constr K V)} (hn : p + 1 ≤ cs.length + 2) (hin : ∀ x ∈ cs, b.1 ≤ x.u ∧ x.u ≤ e.1) (hbe : b.1 < e.1)
    (hc0 : (cs.map Constr.u).count b.1 + 1 ≤ p) (hc1 : (cs.map Constr.u).count e.1 + 1 ≤ p)
    {dense : ℕ → (ℕ → ℕ → K) → List V → R (List V)}
    (hs : ∀ k N, averagedFlatKnots ((cs.map Constr.u).foldl insertOrdered [b.1, e.1]) p = .ok k →
      KWf p k (cs.length + 2) → kf k p = b.1 → kf k (cs.length + 2) = e.1 →
      fillRows eps junk k p ((⟨b.1, 0, b.2⟩ : Constr K V) :: (cs ++ [⟨e.1, 0, e.2⟩])) = .ok N →
      ∃ X, dense (cs.length + 2) N (b.2 :: (cs.map Constr.v ++ [e.2])) = .ok X ∧ X.length = cs.length + 2 ∧
        ∀ i, i < cs.length + 2 → ∑ j ∈ Finset.range (cs.length + 2), N i j • pf X j = pf (b.2 :: (cs.map Constr.v ++ [e.2])) i) :
    ∃ c, interpolateBounds eps junk dense b e cs p = .ok c ∧ c.Good ∧ c.deg = p ∧ c.poles.length = cs.length + 2 ∧ c.b0 = b.1 ∧ c.b1 = e.1 ∧
      ∀ junk', c.value eps junk' b.1 0 = .ok b.2 ∧ c.value eps junk' e.1 0 = .ok e.2 ∧
        ∀ x ∈ cs, c.value eps junk' x.u x.d = .ok x.v := by
  set u := (cs.map Constr.u).foldl insertOrdered [b.1, e.1] with hu
  obtain ⟨hsort, hperm⟩ := foldl_insertOrdered (L := [b.1, e.1]) (by simpa using hbe.le) (cs.map Constr.u)
  rw [← hu] at hsort hperm
  have hlu : u.length = cs.length + 2 := by rw [hperm.length_eq]; simp
  have hmem : ∀ y ∈ u, b.1 ≤ y ∧ y ≤ e.1 := by
    intro y hy
    have := hperm.mem_iff.mp hy
    rw [List.mem_append, List.mem_map] at this
    rcases this with ⟨x, hx, rfl⟩ | h
    · exact hin x hx
    · rcases List.mem_cons.mp h with rfl | h
      · exact ⟨le_rfl, hbe.le⟩
      · rw [List.mem_singleton.mp h]; exact ⟨hbe.le, le_rfl⟩
  have hne : u ≠ [] := by intro h; rw [h] at hlu; simp at hlu
  have hk : ∀ i, b.1 ≤ kf u i ∧ kf u i ≤ e.1 := fun i => hmem _ (kf_mem hne i)
  have hu0 : kf u 0 = b.1 := by
    have hb : b.1 ∈ u := hperm.mem_iff.mpr (by simp)
    obtain ⟨i, hi, he⟩ := List.getElem_of_mem hb
    apply le_antisymm _ (hk 0).1
    rw [← he, ← kf_of_lt hi]
    exact kf_mono hsort (by omega)
  have hu1 : kf u (u.length - 1) = e.1 := by
    have hb : e.1 ∈ u := hperm.mem_iff.mpr (by simp)
    obtain ⟨i, hi, he⟩ := List.getElem_of_mem hb
    apply le_antisymm (hk _).2
    rw [← he, ← kf_of_lt hi]
    exact kf_mono hsort (by omega)
  have hcount0 : u.count b.1 ≤ p := by
    rw [hperm.count_eq, List.count_append, List.count_cons, List.count_cons]
    simp [hbe.ne']; omega
  have hcount1 : u.count e.1 ≤ p := by
    rw [hperm.count_eq, List.count_append, List.count_cons, List.count_cons]
    simp [hbe.ne]; omega
  have hfirst : kf u 0 < kf u p := by
    rcases lt_or_eq_of_le (kf_mono hsort (Nat.zero_le p)) with h | h
    · exact h
    · exfalso
      have : (List.replicate (p + 1) b.1).Sublist u := by
        have h2 : u.take (p + 1) = List.replicate (p + 1) b.1 := by
          apply List.ext_getElem (by simp; omega)
          intro i h1 h2
          rw [List.getElem_take, List.getElem_replicate, ← kf_of_lt]
          simp at h2
          exact le_antisymm (by rw [← hu0, h]; exact kf_mono hsort (by omega)) (hk i).1
        rw [← h2]
        exact List.take_sublist _ _
      have := this.count_le b.1
      rw [List.count_replicate_self] at this
      omega
  have hlast : kf u (u.length - 1 - p) < kf u (u.length - 1) := by
    rcases lt_or_eq_of_le (kf_mono hsort (show u.length - 1 - p ≤ u.length - 1 by omega)) with h | h
    · exact h
    · exfalso
      have : (List.replicate (p + 1) e.1).Sublist u := by
        have h2 : u.drop (u.length - 1 - p) = List.replicate (p + 1) e.1 := by
          apply List.ext_getElem (by simp; omega)
          intro i h1 h2
          rw [List.getElem_drop, List.getElem_replicate, ← kf_of_lt]
          exact le_antisymm (hk _).2 (by rw [← hu1, ← h]; exact kf_mono hsort (by omega))
        rw [← h2]
        exact List.drop_sublist _ _
      have := this.count_le e.1
      rw [List.count_replicate_self] at this
      omega
  obtain ⟨k, ek, hlk, hk0, hk1, -, hwf⟩ := C54_averaged_knots_repeated (V := V) hp1 (by omega) hsort hfirst hlast
  set rows : List (Constr K V) := (⟨b.1, 0, b.2⟩ : Constr K V) :: (cs ++ [⟨e.1, 0, e.2⟩]) with hrows
  have hlr : rows.length = cs.length + 2 := by simp [hrows]
  have hU : KWf p k (cs.length + 2) := by
    have h := (hwf (List.replicate u.length 0) (by simp)).kwf
    rwa [List.length_replicate, hlu] at h
  have hkk0 : ∀ j, j ≤ p → kf k j = b.1 := fun j hj => by
    have := hk0 j hj
    rw [kf_getElem? (by omega), kf_getElem? (by omega)] at this
    rw [← hu0]
    exact Option.some.inj this
  have hkk1 : ∀ j, cs.length + 2 ≤ j → j ≤ cs.length + 2 + p → kf k j = e.1 := fun j hj hj2 => by
    have := hk1 j (by omega) (by omega)
    rw [kf_getElem? (by omega), kf_getElem? (by omega)] at this
    rw [← hu1]
    exact Option.some.inj this
  obtain ⟨sp, hsp⟩ := exists_spansC hU rows
  obtain ⟨N, eN, hN⟩ := fillRows_spec hU hp hsp hlr eps junk
  obtain ⟨X, eX, hlX, hX⟩ := hs k N ek hU (hkk0 p le_rfl) (hkk1 _ le_rfl (by omega)) eN
  have hvals : rows.map Constr.v = b.2 :: (cs.map Constr.v ++ [e.2]) := by simp [hrows]
  obtain ⟨c, ec, c1, c2, c3, c4, c5, hg, hv⟩ := mk_clamped heps hU hlX hp (by rw [hkk0 0 (by omega), hkk0 p le_rfl])
    (by unfold kLast; rw [hkk1 _ (by omega) (by omega), hkk1 _ le_rfl (by omega)])
  have hall : ∀ x ∈ rows, ∀ junk', c.value eps junk' x.u x.d = .ok x.v := by
    intro x hx junk'
    obtain ⟨i, hi⟩ := List.getElem?_of_mem hx
    have hil : i < rows.length := by
      by_contra hc
      rw [List.getElem?_eq_none (by omega)] at hi
      cases hi
    have hxin : b.1 ≤ x.u ∧ x.u ≤ e.1 := by
      rw [hrows, List.mem_cons, List.mem_append, List.mem_singleton] at hx
      rcases hx with rfl | hx | rfl
      · exact ⟨le_rfl, hbe.le⟩
      · exact hin x hx
      · exact ⟨hbe.le, le_rfl⟩
    have h1 := hX i (by omega)
    have h2 : ∑ j ∈ Finset.range (cs.length + 2), N i j • pf X j = spanDer (kf k) (cs.length + 2) p (sp i) (pf X) x.d x.u := by
      rw [← sum_collC hi]
      apply Finset.sum_congr rfl
      intro j hj
      rw [hN i j (by omega) (Finset.mem_range.mp hj)]
    rw [h2, ← hvals] at h1
    have hpv : pf (rows.map Constr.v) i = x.v := by
      unfold pf; rw [List.getD_eq_getElem?_getD, List.getElem?_map, hi]; rfl
    rw [hpv] at h1
    rw [hv x.u (sp i) (by rw [hkk0 p le_rfl]; exact hxin.1) (by rw [hkk1 _ le_rfl (by omega)]; exact hxin.2) (hsp.find i x hi) junk' x.d, h1]
  refine ⟨c, ?_, hg, c1, by rw [c2, hlX], by rw [c4, hkk0 p le_rfl], by rw [c5, hkk1 _ le_rfl (by omega)], ?_⟩
  · unfold interpolateBounds
    simp only
    rw [if_neg (by omega), ← hu, ek, R_bind_ok, ← hrows, eN, R_bind_ok, hlr, hvals, eX, R_bind_ok, ec]
  · intro junk'
    refine ⟨hall ⟨b.1, 0, b.2⟩ (by simp [hrows]) junk', hall ⟨e.1, 0, e.2⟩ (by simp [hrows]) junk', fun x hx => hall x (by simp [hrows, hx]) junk'⟩

/-! ## Examples -/

theorem findSpan_of {p n i : ℕ} {U : List K} (h : KWf p U n) {u : K} (hp : p ≤ i) (hi : i < n) (h1 : kf U i ≤ u) (h2 : u < kf U (i + 1)) :
    findSpan n p u U = .ok i := by
  have hm := kf_mono h.sorted
  obtain ⟨j, e, a1, a2, -, a4, -⟩ := findSpan_spec h.sorted (n := n) (p := p) (by have := h.min; omega) (by rw [h.len]; omega) u
  obtain ⟨b1, b2⟩ := a4 (lt_of_lt_of_le h2 (hm (by omega))) (le_trans (hm hp) h1)
  rw [e]
  congr 1
  rcases Nat.lt_trichotomy i j with h | h | h
  · exact absurd (lt_of_lt_of_le h2 (hm (show i + 1 ≤ j by omega))) (not_lt.mpr b1)
  · exact h.symm
  · exact absurd (lt_of_lt_of_le b2 (hm (show j + 1 ≤ i by omega))) (not_lt.mpr h1)

theorem bandPass1_eval {U u : List K} {p n : ℕ} {sp : ℕ → ℕ} (hsp : Spans U u p n sp) (nc dd : ℕ) :
    bandPass1 U u p nc dd n = forLt 0 u.length (fun i s =>
      pure (s.1 ++ [(sp i, sp i - p, p)], max s.2.1 (nc * i + dd - (sp i - p)), max s.2.2 (sp i - p + p - nc * i))) ([], 0, 0) := by
  unfold bandPass1
  apply forLt_congr
  intro i s _ hi
  rw [rd_kf hi, R_bind_ok, basisBandExtent_eq hsp hi, R_bind_ok]

theorem assembleSparse_eval {U u : List K} {p n nc : ℕ} {sp : ℕ → ℕ} (hU : KWf p U n) (hp : p ≤ stackMaxDegree) (hsp : Spans U u p n sp) (hnc : 1 ≤ nc)
    (eps junk : K) :
    assembleSparse eps junk U u p nc = forLt 0 u.length (fun i T => do
      let ui ← rd u i
      let D ← dersBasisFuns (sp i) p (min (nc - 1) p) ui U (fun _ _ => junk) (fun _ _ => junk) (List.replicate (stackMaxDegree + 1) junk)
        (List.replicate (stackMaxDegree + 1) junk) (List.replicate ((stackMaxDegree + 1) * (stackMaxDegree + 1)) junk)
      forLe 0 (min (nc - 1) p) (fun d T => forLe 0 p (fun r T => do
        let v ← rd D (d * (p + 1) + r)
        pure (T ++ [(nc * i + d, sp i - p + r, v)])) T) T) [] := by
  unfold assembleSparse
  rw [usub_ok (by rw [hU.len]; omega), R_bind_ok, usub_ok hnc, R_bind_ok]
  simp only
  rw [show U.length - (p + 1) = n by rw [hU.len]; omega]
  apply forLt_congr
  intro i T _ hi
  rw [rd_kf hi, R_bind_ok, R_bind_ok, basisBandExtent_eq hsp hi, R_bind_ok, if_pos hp]

/-- Whether a factorization was accepted. -/
def accepted {X : Type} : R (Option X) → Bool
  | .ok (some _) => true
  | _ => false

theorem accepted_of {X : Type} : ∀ {r : R (Option X)}, accepted r = true → ∃ x, r = .ok (some x)
  | .ok (some x), _ => ⟨x, rfl⟩

namespace Sample

/-- Knots averaged from the parameters `0, 1, 2, 3` at degree 2. -/
def iU : List ℚ := [0, 0, 0, 3/2, 3, 3, 3]

theorem iU_wf : KWf 2 iU 4 := ⟨by decide +kernel, by decide +kernel, by decide +kernel, by decide +kernel, by decide +kernel⟩

theorem iU_spans : Spans iU [0, 1, 2, 3] 2 4 (fun i => if i < 2 then 2 else 3) := by
  have h3 : findSpan 4 2 (3 : ℚ) iU = .ok 3 := by
    obtain ⟨j, e, -, -, h, -⟩ := findSpan_spec iU_wf.sorted (n := 4) (p := 2) (by omega) (by decide) 3
    rw [e, h (by decide +kernel)]
  refine ⟨?_, ?_, ?_, ?_⟩ <;> intro i hi
  · match i, hi with
    | 0, _ => exact findSpan_of iU_wf (by decide) (by decide) (by decide +kernel) (by decide +kernel)
    | 1, _ => exact findSpan_of iU_wf (by decide) (by decide) (by decide +kernel) (by decide +kernel)
    | 2, _ => exact findSpan_of iU_wf (by decide) (by decide) (by decide +kernel) (by decide +kernel)
    | 3, _ => exact h3
  · split <;> omega
  · split <;> omega
  · split
    · decide +kernel
    · decide +kernel

/-- The band is accepted. -/
theorem iU_accepted : ∃ X, assembleAndFactorize (1/1000000 : ℚ) 10000 7 iU [0, 1, 2, 3] 2 1 4 = .ok (some X) := by
  unfold assembleAndFactorize
  rw [if_neg (by decide), show usub iU.length (2 + 1) = .ok 4 by decide, R_bind_ok, show usub 1 1 = .ok 0 by decide, R_bind_ok]
  simp only
  rw [bandPass1_eval iU_spans]
  apply accepted_of
  decide +kernel

/-- The hypotheses of `C36_interpolate_cn` are met by four points of the plane, the sparse solver being one that always fails. -/
example (x0 : ℚ × ℚ) : ∃ c, interpolateCn (1/1000 : ℚ) (1/1000000) 10000 7 x0 (fun _ _ _ => .error .oob)
    [((0 : ℚ), (0 : ℚ)), (1, 2), (2, -1), (3, 0)] [0, 1, 2, 3] 2 = .ok c ∧ c.value (1/1000) 7 1 0 = .ok (1, 2) := by
  obtain ⟨c, e, -, -, -, -, -, h⟩ := C36_interpolate_cn (eps := (1/1000 : ℚ)) (meps := 1/1000000) (by norm_num) (by norm_num) 10000 7 x0
    (p := 2) (by decide) (by decide) (Q := [((0 : ℚ), (0 : ℚ)), (1, 2), (2, -1), (3, 0)]) (u := [0, 1, 2, 3]) rfl (by decide) (by decide +kernel)
    (sparse := fun _ _ _ => .error .oob)
    (by
      intro k hk T B h
      obtain rfl : k = iU := by
        have : averagedFlatKnots ([0, 1, 2, 3] : List ℚ) 2 = .ok iU := by decide +kernel
        rw [this] at hk
        exact (Except.ok.inj hk).symm
      obtain ⟨X, hX⟩ := iU_accepted
      have h' : assembleAndFactorize (1/1000000 : ℚ) 10000 7 iU [0, 1, 2, 3] 2 1 4 = .ok none := h
      rw [hX] at h'
      cases h')
  exact ⟨c, e, h 1 (1, 2) 1 rfl rfl 7⟩

/-- Points and derivatives at `0, 1, 3`: degree 3, double interior knot. -/
def jU : List ℚ := [0, 0, 0, 0, 1, 1, 3, 3, 3, 3]

theorem jU_wf : KWf 3 jU 6 := ⟨by decide +kernel, by decide +kernel, by decide +kernel, by decide +kernel, by decide +kernel⟩

theorem jU_spans : Spans jU [0, 1, 3] 3 6 (fun i => if i < 1 then 3 else 5) := by
  have h3 : findSpan 6 3 (3 : ℚ) jU = .ok 5 := by
    obtain ⟨j, e, -, -, h, -⟩ := findSpan_spec jU_wf.sorted (n := 6) (p := 3) (by omega) (by decide) 3
    rw [e, h (by decide +kernel)]
  refine ⟨?_, ?_, ?_, ?_⟩ <;> intro i hi
  · match i, hi with
    | 0, _ => exact findSpan_of jU_wf (by decide) (by decide) (by decide +kernel) (by decide +kernel)
    | 1, _ => exact findSpan_of jU_wf (by decide) (by decide) (by decide +kernel) (by decide +kernel)
    | 2, _ => exact h3
  · split <;> omega
  · split <;> omega
  · split
    · decide +kernel
    · decide +kernel

/-- The exact solution of the system. -/
def jX : List (ℚ × ℚ) := [(0, 0), (1/3, 0), (1, 5/3), (1, 8/3), (7/3, 2/3), (3, 0)]

def jQ : List (List (ℚ × ℚ)) := [[(0, 0), (1, 0)], [(1, 2), (0, 1)], [(3, 0), (1, -1)]]

def jB : List (ℚ × ℚ) := [(0, 0), (1, 0), (1, 2), (0, 1), (3, 0), (1, -1)]

/-- Whether the triplets give a system solved by `X`. -/
def solves (n : ℕ) (X B : List (ℚ × ℚ)) : R (List (ℕ × ℕ × ℚ)) → Bool
  | .ok T => (List.range n).all fun i => decide (∑ j ∈ Finset.range n, (T.map fun t => if t.1 = i ∧ t.2.1 = j then t.2.2 else 0).sum • pf X j = pf B i)
  | _ => false

theorem solves_ok {n : ℕ} {X B : List (ℚ × ℚ)} {T : List (ℕ × ℕ × ℚ)} {r : R (List (ℕ × ℕ × ℚ))} (h : solves n X B r = true) (hT : r = .ok T) :
    ∀ i, i < n → ∑ j ∈ Finset.range n, (T.map fun t => if t.1 = i ∧ t.2.1 = j then t.2.2 else 0).sum • pf X j = pf B i := by
  subst hT
  simpa only [solves, List.all_eq_true, List.mem_range, decide_eq_true_eq] using h

/-- The hypotheses of `C36_interpolate_nc` are met by three points of the plane with their tangents. The row of the last point has its only
non-zero entry on the right of the diagonal: the band is refused, and the sparse solver has to give the solution. -/
example (x0 : ℚ × ℚ) : ∃ c, interpolateNc (1/1000 : ℚ) (1/1000000) 10000 7 x0 (fun _ _ _ => .ok jX) 2 jQ [0, 1, 3] = .ok c ∧
    c.value (1/1000) 7 1 1 = .ok (0, 1) := by
  obtain ⟨c, e, -, -, -, -, -, h⟩ := C36_interpolate_nc (eps := (1/1000 : ℚ)) (meps := 1/1000000) (by norm_num) (by norm_num) 10000 7 x0
    (nc := 2) (by decide) (by decide) (Q := jQ) (u := [0, 1, 3]) rfl
    (by decide) (by decide +kernel) (by decide +kernel) (sparse := fun _ _ _ => .ok jX)
    (by
      intro k hk T B _ hT hB
      obtain rfl : k = jU := by
        have : flatKnots ([0, 1, 3] : List ℚ) [2 * 2, 2, 2 * 2] = .ok jU := by decide +kernel
        rw [show flatKnots ([0, 1, 3] : List ℚ) [2 * 2, 2, 2 * 2] = .ok k from hk] at this
        exact Except.ok.inj this
      obtain rfl : B = jB := by
        have : interpRhs 2 jQ = .ok jB := by decide +kernel
        rw [hB] at this
        exact Except.ok.inj this
      refine ⟨jX, rfl, rfl, ?_⟩
      have hT' : assembleSparse (1/1000 : ℚ) 7 jU [0, 1, 3] 3 2 = .ok T := hT
      rw [assembleSparse_eval jU_wf (by decide) jU_spans (by decide)] at hT'
      exact solves_ok (n := 6) (by decide +kernel) hT')
  exact ⟨c, e, h 1 [(1, 2), (0, 1)] 1 1 (0, 1) rfl rfl rfl 7⟩

/-- Two ends and a tangent at the start: a parabola with parameters `0, 0, 1`. -/
def bRows : List (Constr ℚ ℚ) := [⟨0, 0, 5⟩, ⟨0, 1, 2⟩, ⟨1, 0, 4⟩]

def bU : List ℚ := [0, 0, 0, 1, 1, 1]

theorem bU_wf : KWf 2 bU 3 := ⟨by decide +kernel, by decide +kernel, by decide +kernel, by decide +kernel, by decide +kernel⟩

/-- The entries of a computed matrix. -/
def matIs (n : ℕ) (A : List (List ℚ)) : R (ℕ → ℕ → ℚ) → Bool
  | .ok N => (List.range n).all fun i => (List.range n).all fun j => N i j == (A.getD i []).getD j 0
  | _ => false

theorem matIs_ok {n : ℕ} {A : List (List ℚ)} : ∀ {r : R (ℕ → ℕ → ℚ)}, matIs n A r = true →
    ∃ N, r = .ok N ∧ ∀ i, i < n → ∀ j, j < n → N i j = (A.getD i []).getD j 0
  | .ok N, h => ⟨N, rfl, by simpa [matIs] using h⟩

theorem b_rows : ∃ N, fillRows (1/1000) 7 bU 2 bRows = .ok N ∧
    ∀ i, i < 3 → ∀ j, j < 3 → N i j = (([[1, 0, 0], [-2, 2, 0], [0, 0, 1]] : List (List ℚ)).getD i []).getD j 0 := by
  have h0 : findSpan 3 2 (0 : ℚ) bU = .ok 2 := findSpan_of bU_wf (by decide) (by decide) (by decide +kernel) (by decide +kernel)
  have h1 : findSpan 3 2 (1 : ℚ) bU = .ok 2 := by
    obtain ⟨j, e, -, -, h, -⟩ := findSpan_spec bU_wf.sorted (n := 3) (p := 2) (by omega) (by decide) 1
    rw [e, h (by decide +kernel)]
  have hE : ∀ x ∈ bRows, basisBandExtent 3 2 x.u bU = .ok (2, 0, 2) := by
    intro x hx
    rcases List.mem_cons.mp hx with rfl | hx
    · show basisBandExtent 3 2 (0 : ℚ) bU = _
      unfold basisBandExtent; rw [h0]; rfl
    rcases List.mem_cons.mp hx with rfl | hx
    · show basisBandExtent 3 2 (0 : ℚ) bU = _
      unfold basisBandExtent; rw [h0]; rfl
    rw [List.mem_singleton.mp hx]
    show basisBandExtent 3 2 (1 : ℚ) bU = _
    unfold basisBandExtent; rw [h1]; rfl
  have : fillRows (1/1000) 7 bU 2 bRows = forLt 0 3 (fun i N => do
      let c ← rd bRows i
      if 2 < c.d then pure N else do
        let D ← basisDers 7 2 2 c.d c.u bU (List.replicate (stackMaxDegree + 1) 7)
        forLe 0 2 (fun r N => do
          let v ← rd D r
          matSet 3 3 N i (0 + r) v) N) (fun _ _ => 0) := by
    unfold fillRows fillMatrix
    apply forLt_congr
    intro i N _ hi
    rw [rd_ok hi, R_bind_ok, R_bind_ok]
    unfold fillBasisRow
    split
    · rfl
    · rw [show usub bU.length (2 + 1) = .ok 3 by decide, R_bind_ok, hE _ (List.getElem_mem hi), R_bind_ok, if_pos (by decide)]
      rfl
  rw [this]
  apply matIs_ok
  decide +kernel

/-- The hypotheses of `C36_interpolate_bounds` are met, with a solver that returns the exact solution of this system. -/
example : ∃ c, interpolateBounds (1/1000 : ℚ) 7 (fun _ _ _ => .ok [5, 6, 4]) (0, (5 : ℚ)) (1, 4) [⟨0, 1, 2⟩] 2 = .ok c ∧
    c.value (1/1000) 7 0 1 = .ok 2 := by
  obtain ⟨c, e, -, -, -, -, -, h⟩ := C36_interpolate_bounds (eps := (1/1000 : ℚ)) (by norm_num) 7 (p := 2) (by decide) (by decide)
    (b := (0, (5 : ℚ))) (e := (1, 4)) (cs := [⟨0, 1, 2⟩]) (by decide) (by simp) (by norm_num) (by decide +kernel) (by decide +kernel)
    (dense := fun _ _ _ => .ok [5, 6, 4])
    (by
      intro k N hk _ _ _ hN
      obtain rfl : k = bU := by
        have : averagedFlatKnots ([0, 0, 1] : List ℚ) 2 = .ok bU := by decide +kernel
        rw [show ([(⟨0, 1, 2⟩ : Constr ℚ ℚ)].map Constr.u).foldl insertOrdered [(0 : ℚ), 1] = [0, 0, 1] by decide +kernel, this] at hk
        exact (Except.ok.inj hk).symm
      obtain ⟨N', e', h'⟩ := b_rows
      rw [show fillRows (1/1000) 7 bU 2 bRows = .ok N from hN] at e'
      obtain rfl := Except.ok.inj e'
      refine ⟨_, rfl, rfl, ?_⟩
      intro i hi
      have hi : i < 3 := hi
      show ∑ j ∈ Finset.range 3, N i j • pf [(5 : ℚ), 6, 4] j = pf [(5 : ℚ), 2, 4] i
      rw [Finset.sum_range_succ, Finset.sum_range_succ, Finset.sum_range_one, h' i hi 0 (by omega), h' i hi 1 (by omega), h' i hi 2 (by omega)]
      match i, hi with
      | 0, _ => decide +kernel
      | 1, _ => decide +kernel
      | 2, _ => decide +kernel)
  exact ⟨c, e, (h 7).2.2 ⟨0, 1, 2⟩ (by simp)⟩

/-- The hypotheses of `C36_build_poles_constraints` are met by the same constraints in another order; the sort reverses the list. -/
example : ∃ P, buildPolesConstr (1/1000 : ℚ) (1/1000000) 10000 7 0 List.reverse (fun _ _ _ => .ok [5, 6, 4]) bRows bU 2 = .ok P ∧
    P.length = 3 := by
  obtain ⟨P, e, hl, -⟩ := C36_build_poles_constraints (eps := (1/1000 : ℚ)) (meps := 1/1000000) (by norm_num) (by norm_num) 10000 7 0 (p := 2) (by decide)
    (cs := bRows) (U := bU) bU_wf (srt := List.reverse) (List.reverse_perm _) (dense := fun _ _ _ => .ok [5, 6, 4])
    (by
      intro N hN _
      obtain ⟨N', e', h'⟩ := b_rows
      rw [hN] at e'
      obtain rfl := Except.ok.inj e'
      refine ⟨_, rfl, rfl, ?_⟩
      intro i hi
      have hi : i < 3 := hi
      show ∑ j ∈ Finset.range 3, N i j • pf [(5 : ℚ), 6, 4] j = pf [(5 : ℚ), 2, 4] i
      rw [Finset.sum_range_succ, Finset.sum_range_succ, Finset.sum_range_one, h' i hi 0 (by omega), h' i hi 1 (by omega), h' i hi 2 (by omega)]
      match i, hi with
      | 0, _ => decide +kernel
      | 1, _ => decide +kernel
      | 2, _ => decide +kernel)
  exact ⟨P, e, hl⟩

end Sample

end Gbs
