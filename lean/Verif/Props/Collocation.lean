import Verif.Lemmas.Collocation
import Verif.Props.Interp

/-!
# C76: the interpolation systems have exactly one solution

The systems that `build_poles` assembles for the knots chosen by `interpolate` are regular: the Schoenberg–Whitney conditions hold for
averaged knots, and each span is a Hermite problem for repeated knots. The interpolation theorems of C36 then only need a sparse solver
that solves regular systems.
-/

namespace Gbs

set_option linter.unusedSectionVars false

variable {K : Type} [Field K] [LinearOrder K] [IsStrictOrderedRing K]
variable {V : Type} [AddCommGroup V] [Module K V]

/-- What is assumed of the sparse solver: it solves every system with a null kernel, given by triplets whose repeated positions are added. -/
def Spec.SolvesRegular (sparse : ℕ → List (ℕ × ℕ × K) → List V → R (List V)) : Prop :=
  ∀ (n : ℕ) (T : List (ℕ × ℕ × K)) (B : List V), B.length = n →
    Spec.Regular n (fun i j => (T.map fun t => if t.1 = i ∧ t.2.1 = j then t.2.2 else 0).sum) →
    ∃ X, sparse n T B = .ok X ∧ X.length = n ∧
      ∀ i, i < n → ∑ j ∈ Finset.range n, (T.map fun t => if t.1 = i ∧ t.2.1 = j then t.2.2 else 0).sum • pf X j = pf B i

/-- Such a solver exists. -/
theorem exists_solvesRegular : ∃ sparse : ℕ → List (ℕ × ℕ × K) → List V → R (List V), Spec.SolvesRegular sparse := by
  have : ∀ (n : ℕ) (T : List (ℕ × ℕ × K)) (B : List V), ∃ X : List V, X.length = n ∧
      (Spec.Regular n (fun i j => (T.map fun t => if t.1 = i ∧ t.2.1 = j then t.2.2 else 0).sum) →
      ∀ i, i < n → ∑ j ∈ Finset.range n, (T.map fun t => if t.1 = i ∧ t.2.1 = j then t.2.2 else 0).sum • pf X j = pf B i) := by
    intro n T B
    by_cases h : Spec.Regular n (fun i j => (T.map fun t => if t.1 = i ∧ t.2.1 = j then t.2.2 else 0).sum)
    · obtain ⟨x, hx⟩ := Regular.solve h (pf B)
      refine ⟨(List.range n).map x, by simp, fun _ i hi => ?_⟩
      rw [← hx i hi]
      apply Finset.sum_congr rfl
      intro j hj
      have hj := Finset.mem_range.mp hj
      congr 1
      unfold pf
      rw [List.getD_eq_getElem?_getD, List.getElem?_map, List.getElem?_range hj]
      rfl
    · exact ⟨List.replicate n 0, by simp, fun h' => absurd h' h⟩
  choose f f1 f2 using this
  exact ⟨fun n T B => .ok (f n T B), fun n T B _ hR => ⟨_, rfl, f1 n T B, f2 n T B hR⟩⟩

/-- A solver of regular systems solves the system of `build_poles` when its matrix is regular. -/
theorem SolvesRegular.sparseOk {sparse : ℕ → List (ℕ × ℕ × K) → List V → R (List V)} (hS : Spec.SolvesRegular sparse) {p nc : ℕ}
    (hp : p ≤ stackMaxDegree) (hnc : 1 ≤ nc) {Q : List (List V)} {U u : List K} (hU : KWf p U (Q.length * nc)) (hl : Q.length = u.length)
    (hQ : ∀ q ∈ Q, q.length = nc) {sp : ℕ → ℕ} (hsp : Spans U u p (Q.length * nc) sp)
    (hR : Spec.Regular (Q.length * nc) (coll U u p nc sp)) (eps meps growth junk : K) :
    SparseOk eps meps growth junk sparse nc Q U u p := by
  intro T B _ hT hB
  obtain ⟨T', eT, hT'⟩ := assembleSparse_spec hU hp hsp hnc (by rw [hl]) eps junk
  rw [hT] at eT
  obtain rfl := Except.ok.inj eT
  obtain ⟨B', eB, hlB, -⟩ := interpRhs_spec (nc := nc) hQ
  rw [hB] at eB
  obtain rfl := Except.ok.inj eB
  exact hS _ T B hlB (Regular.congr hR fun i j hi hj => (hT' i j hi hj).symm)

/-- The averaged knots of strictly increasing parameters satisfy the Schoenberg–Whitney conditions. -/
theorem averaged_coll {p : ℕ} {u : List K} (hp : 1 ≤ p) (hn : p + 1 ≤ u.length) (hu : u.Pairwise (· < ·)) {k : List K}
    (ek : averagedFlatKnots u p = .ok k) :
    KWf p k u.length ∧ kf k p = kf u 0 ∧ kf k u.length = kf u (u.length - 1) ∧
      ∀ sp, Spans k u p u.length sp → Spec.Regular u.length (coll k u p 1 sp) := by
  obtain ⟨k', ek', hlk, hk0, hk1, hk2, hwf⟩ := C54_averaged_knots (V := K) hp hn hu
  rw [ek] at ek'
  obtain rfl := Except.ok.inj ek'
  have hU : KWf p k u.length := by
    have h := hwf (List.replicate u.length 0) (by simp)
    have := h.kwf
    rwa [List.length_replicate] at this
  have hkk0 : ∀ j, j ≤ p → kf k j = kf u 0 := fun j hj => by
    have := hk0 j hj
    rw [kf_getElem? (by omega), kf_getElem? (by omega)] at this
    exact Option.some.inj this
  have hkk1 : ∀ j, u.length ≤ j → j ≤ u.length + p → kf k j = kf u (u.length - 1) := fun j hj hj2 => by
    have := hk1 j hj hj2
    rw [kf_getElem? (by omega), kf_getElem? (by omega)] at this
    exact Option.some.inj this
  have hkk2 : ∀ j, 1 ≤ j → j < u.length - p → kf k (p + j) = (∑ i ∈ Finset.range p, kf u (j + i)) / p := fun j hj hj2 => by
    have := hk2 j hj hj2
    rw [kf_getElem? (by omega)] at this
    exact Option.some.inj this
  have hlt : ∀ i j, i < j → j < u.length → kf u i < kf u j := by
    intro i j hij hj
    rw [kf_of_lt (by omega), kf_of_lt (by omega)]
    exact List.pairwise_iff_getElem.mp hu i j _ _ hij
  have hpK : (0 : K) < p := by exact_mod_cast hp
  have hne : (Finset.range p).Nonempty := ⟨0, Finset.mem_range.mpr (by omega)⟩
  refine ⟨hU, hkk0 p le_rfl, hkk1 _ le_rfl (by omega), ?_⟩
  intro sp hsp
  apply coll_regular hp hU rfl hu (fun j _ h => hkk0 j h) (fun j h h' => hkk1 j h (by omega)) _ hsp
  intro j hj1 hj2
  constructor
  · rcases Nat.lt_or_ge p j with h | h
    · rw [show j = p + (j - p) by omega, hkk2 (j - p) (by omega) (by omega), ← show j = p + (j - p) by omega, div_lt_iff₀ hpK]
      calc ∑ i ∈ Finset.range p, kf u (j - p + i) < ∑ i ∈ Finset.range p, kf u j := by
            apply Finset.sum_lt_sum_of_nonempty hne
            intro i hi
            have := Finset.mem_range.mp hi
            exact hlt _ _ (by omega) (by omega)
        _ = kf u j * p := by rw [Finset.sum_const, Finset.card_range, nsmul_eq_mul, mul_comm]
    · rw [hkk0 j h]
      exact hlt 0 j (by omega) (by omega)
  · rcases Nat.lt_or_ge (j + 1) (u.length - p) with h | h
    · rw [show j + p + 1 = p + (j + 1) by omega, hkk2 (j + 1) (by omega) h, lt_div_iff₀ hpK]
      calc kf u j * p = ∑ i ∈ Finset.range p, kf u j := by rw [Finset.sum_const, Finset.card_range, nsmul_eq_mul, mul_comm]
        _ < ∑ i ∈ Finset.range p, kf u (j + 1 + i) := by
            apply Finset.sum_lt_sum_of_nonempty hne
            intro i hi
            have := Finset.mem_range.mp hi
            exact hlt _ _ (by omega) (by omega)
    · rw [hkk1 _ (by omega) (by omega)]
      exact hlt j _ (by omega) (by omega)

/-- C76, averaged knots: for every degree from 1, every list of at least `p + 1` strictly increasing parameters and any data, exactly one list of
poles gives a B-spline on the averaged knots that passes through each datum at its parameter. -/
theorem C76_unique_averaged {p : ℕ} {u : List K} (hp : 1 ≤ p) (hn : p + 1 ≤ u.length) (hu : u.Pairwise (· < ·)) (Q : List V)
    (hQ : Q.length = u.length) :
    ∃ k, averagedFlatKnots u p = .ok k ∧ ∃! P : List V, P.length = u.length ∧
      ∀ (i : ℕ) (t : K) (q : V), u[i]? = some t → Q[i]? = some q → Spec.curve (kf k) u.length p (pf P) t = q := by
  obtain ⟨k, ek, -⟩ := C54_averaged_knots (V := K) hp hn hu
  obtain ⟨hU, e0, e1, hR⟩ := averaged_coll hp hn hu ek
  refine ⟨k, ek, ?_⟩
  obtain ⟨sp, hsp⟩ := exists_spans hU u
  have hR := hR sp hsp
  have hle : u.Pairwise (· ≤ ·) := hu.imp le_of_lt
  have hrow : ∀ (P : ℕ → V) i, i < u.length → ∑ j ∈ Finset.range u.length, coll k u p 1 sp i j • P j =
      Spec.curve (kf k) u.length p P (kf u i) := by
    intro P i hi
    have := sum_coll (n := u.length) (U := k) (u := u) (p := p) (sp := sp) (i := i) (d := 0) (nc := 1) (by omega) P
    rw [one_mul, Nat.add_zero] at this
    rw [this]
    obtain ⟨s, e, -, -, -, a4, -⟩ := findSpan_wf (hU.wf (P := List.replicate u.length (0 : K)) (by simp)) (kf u i)
    rw [List.length_replicate] at e a4
    rw [hsp.find i hi] at e
    obtain rfl := Except.ok.inj e
    exact spanDer_eq_curve (kf_mono hU.sorted)
      (a4 (by rw [e0]; exact kf_mono hle (by omega)) (by rw [e1]; exact kf_mono hle (by omega)))
  obtain ⟨x, hx⟩ := Regular.solve hR (pf Q)
  have hpx : ∀ j, j < u.length → pf ((List.range u.length).map x) j = x j := by
    intro j hj
    unfold pf
    rw [List.getD_eq_getElem?_getD, List.getElem?_map, List.getElem?_range hj]
    rfl
  refine ⟨(List.range u.length).map x, ⟨by simp, ?_⟩, ?_⟩
  · intro i t q ht hq
    obtain ⟨hi, rfl⟩ := kf_of_some ht
    have hqi : pf Q i = q := by unfold pf; rw [List.getD_eq_getElem?_getD, hq]; rfl
    rw [← hrow _ i hi, ← hqi, ← hx i hi]
    exact Finset.sum_congr rfl fun j hj => by rw [hpx j (Finset.mem_range.mp hj)]
  · rintro P ⟨hl, hP⟩
    apply List.ext_getElem?
    intro j
    rcases Nat.lt_or_ge j u.length with hj | hj
    · rw [pf_getElem? (by omega), pf_getElem? (by simpa using hj)]
      congr 1
      apply Regular.unique hR _ j hj
      intro i hi
      rw [hrow _ i hi, hP i (kf u i) (pf Q i) (kf_getElem? hi) (pf_getElem? (by omega)), ← hx i hi]
      exact Finset.sum_congr rfl fun j hj => by rw [hpx j (Finset.mem_range.mp hj)]
    · rw [List.getElem?_eq_none (by omega), List.getElem?_eq_none (by simpa using hj)]

/-- C36, interpolation of points, without any assumption on the system: for every degree from 1 to 24, at least `p + 1` points and strictly
increasing parameters, `interpolate` returns a curve of that degree, defined between the first and the last parameters, that passes
through each point at its parameter. The sparse solver, used when the band is refused, is only assumed to solve regular systems. -/
theorem C36_interpolate_points {eps meps : K} (heps : 0 < eps) (hm : 0 ≤ meps) (growth junk : K) (x0 : V) {p : ℕ} (hp1 : 1 ≤ p)
    (hp : p ≤ stackMaxDegree) {Q : List V} {u : List K} (hl : Q.length = u.length) (hn : p + 1 ≤ u.length) (hu : u.Pairwise (· < ·))
    {sparse : ℕ → List (ℕ × ℕ × K) → List V → R (List V)} (hS : Spec.SolvesRegular sparse) :
    ∃ c, interpolateCn eps meps growth junk x0 sparse Q u p = .ok c ∧ c.Good ∧ c.deg = p ∧ c.poles.length = Q.length ∧
      some c.b0 = u.head? ∧ some c.b1 = u.getLast? ∧
      ∀ (i : ℕ) (q : V) (t : K), Q[i]? = some q → u[i]? = some t → ∀ junk', c.value eps junk' t 0 = .ok q := by
  apply C36_interpolate_cn heps hm growth junk x0 hp1 hp hl hn hu
  intro k ek
  obtain ⟨hU, -, -, hR⟩ := averaged_coll hp1 hn hu ek
  obtain ⟨sp, hsp⟩ := exists_spans hU u
  have hQl : (Q.map fun q => [q]).length * 1 = u.length := by simp [hl]
  exact SolvesRegular.sparseOk hS hp le_rfl (by rw [hQl]; exact hU) (by simp [hl]) (by simp) (sp := sp) (by rw [hQl]; exact hsp)
    (by rw [hQl]; exact hR sp hsp) eps meps growth junk

/-- The knots of `interpolate(Q,u)`: parameters repeated `nc` times, `2 nc` times at the ends. -/
theorem nc_knots {nc m : ℕ} (hnc : 1 ≤ nc) (hm1 : 1 ≤ m) {u : List K} (hl : u.length = m + 1) (hu : u.Pairwise (· < ·)) {k : List K}
    (ek : flatKnots u ((2 * nc) :: (List.replicate (m - 1) nc ++ [2 * nc])) = .ok k) :
    KWf (2 * nc - 1) k ((m + 1) * nc) ∧ (∀ i, i < m → kf k ((i + 2) * nc - 1) = kf u i) ∧
      (∀ i, i < m → kf k ((i + 2) * nc) = kf u (i + 1)) := by
  set p := 2 * nc - 1 with hpdef
  have hp1 : p + 1 = 2 * nc := by omega
  have hlt : Gaps 0 (kf u) m := by
    intro i hi
    rw [kf_of_lt (by omega), kf_of_lt (by omega), add_zero]
    exact List.pairwise_iff_getElem.mp hu i (i + 1) _ _ (by omega)
  rw [← hp1] at ek
  set ms : List ℕ := (p + 1) :: (List.replicate (m - 1) nc ++ [p + 1]) with hms
  have hlms : u.length = ms.length := by simp [hms]; omega
  have hgetD : ∀ i, ms.getD i 0 = if i = 0 ∨ i = m then p + 1 else if i < m then nc else 0 := fun i => ncMults hm1
  have ek' := flatF_eq_flatKnots u ms hlms
  rw [hl, ek] at ek'
  obtain rfl := Except.ok.inj ek'
  have hlen : ∀ j, 1 ≤ j → j ≤ m → (flatF (kf u) (fun i => ms.getD i 0) j).length = (j + 1) * nc := by
    intro j h1 h2
    induction j with
    | zero => omega
    | succ j ih =>
      rw [flatF_length_succ]
      rcases Nat.eq_zero_or_pos j with rfl | hj
      · rw [flatF_length_zero, hgetD, if_pos (Or.inl rfl)]
        omega
      · rw [ih hj (by omega), hgetD, if_neg (by omega), if_pos (by omega)]
        ring
  have hlk : (flatF (kf u) (fun i => ms.getD i 0) (m + 1)).length = (m + 1) * nc + p + 1 := by
    rw [flatF_length_succ, hlen m (by omega) le_rfl, hgetD, if_pos (Or.inr rfl)]
    omega
  have hU : KWf p (flatF (kf u) (fun i => ms.getD i 0) (m + 1)) ((m + 1) * nc) := by
    have h := wf_flatF (V := K) (p := p) (eps := 0) le_rfl hlt (show 1 ≤ m by omega) (f := fun i => ms.getD i 0)
      (fun i hi => by
        simp only [hgetD]
        split
        · omega
        · rw [if_pos (by omega)]; exact hnc)
      (by show ms.getD 0 0 = _; rw [hgetD, if_pos (Or.inl rfl)]) (by show ms.getD m 0 = _; rw [hgetD, if_pos (Or.inr rfl)])
      (P := List.replicate ((m + 1) * nc) 0) (by rw [hlk]; simp)
    have := h.kwf
    rwa [List.length_replicate] at this
  have hpos : ∀ i, 2 * nc ≤ (i + 2) * nc := fun i => Nat.mul_le_mul_right _ (by omega)
  refine ⟨hU, ?_, ?_⟩
  · intro i hi
    have := hpos i
    apply kf_flatF (kf u) _ (show i < m + 1 by omega)
    · rcases Nat.eq_zero_or_pos i with rfl | h
      · rw [flatF_length_zero]; omega
      · rw [hlen i h (by omega), show (i + 2) * nc = (i + 1) * nc + nc by ring]; omega
    · rcases Nat.eq_zero_or_pos i with rfl | h
      · rw [flatF_length_zero, hgetD, if_pos (Or.inl rfl)]; omega
      · rw [hlen i h (by omega), hgetD, if_neg (by omega), if_pos (by omega), show (i + 2) * nc = (i + 1) * nc + nc by ring]; omega
  · intro i hi
    apply kf_flatF (kf u) _ (show i + 1 < m + 1 by omega)
    · rw [hlen (i + 1) (by omega) (by omega)]
    · rw [hlen (i + 1) (by omega) (by omega), hgetD, show i + 1 + 1 = i + 2 by omega]
      split
      · omega
      · rw [if_pos (by omega)]; omega

/-- C36, interpolation of points and derivatives, without any assumption on the system. -/
theorem C36_interpolate_derivatives {eps meps : K} (heps : 0 < eps) (hm : 0 ≤ meps) (growth junk : K) (x0 : V) {nc : ℕ} (hnc : 1 ≤ nc)
    (hp : 2 * nc - 1 ≤ stackMaxDegree) {Q : List (List V)} {u : List K} (hl : Q.length = u.length) (hn : 2 ≤ u.length)
    (hu : u.Pairwise (· < ·)) (hQ : ∀ q ∈ Q, q.length = nc) {sparse : ℕ → List (ℕ × ℕ × K) → List V → R (List V)}
    (hS : Spec.SolvesRegular sparse) :
    ∃ c, interpolateNc eps meps growth junk x0 sparse nc Q u = .ok c ∧ c.Good ∧ c.deg = 2 * nc - 1 ∧ c.poles.length = Q.length * nc ∧
      some c.b0 = u.head? ∧ some c.b1 = u.getLast? ∧
      ∀ (i : ℕ) (q : List V) (t : K) (d : ℕ) (v : V), Q[i]? = some q → u[i]? = some t → q[d]? = some v →
        ∀ junk', c.value eps junk' t d = .ok v := by
  apply C36_interpolate_nc heps hm growth junk x0 hnc hp hl hn hu hQ
  intro k ek
  obtain ⟨m, hm1⟩ : ∃ m, u.length = m + 1 := ⟨u.length - 1, by omega⟩
  rw [show Q.length - 2 = m - 1 by omega] at ek
  obtain ⟨hU, h1, h2⟩ := nc_knots hnc (by omega) hm1 hu ek
  have hQl : Q.length * nc = (m + 1) * nc := by rw [hl, hm1]
  obtain ⟨sp, hsp⟩ := exists_spans hU u
  exact SolvesRegular.sparseOk hS hp hnc (by rw [hQl]; exact hU) hl hQ (sp := sp) (by rw [hQl]; exact hsp)
    (by rw [hQl]; exact coll_regular_hermite hnc (by omega) hU hm1 hu h1 h2 hsp) eps meps growth junk

/-- C76, values and derivatives: for `nc` constraints (point, first derivative, ...) at each of at least two strictly increasing
parameters, with degree `2 nc - 1` at most 24, exactly one list of poles gives a curve on the knots of `interpolate` whose evaluation
returns each constraint. -/
theorem C76_unique_hermite {eps : K} (heps : 0 < eps) (junk : K) {nc : ℕ} (hnc : 1 ≤ nc) (hp : 2 * nc - 1 ≤ stackMaxDegree)
    {Q : List (List V)} {u : List K} (hl : Q.length = u.length) (hn : 2 ≤ u.length) (hu : u.Pairwise (· < ·)) (hQ : ∀ q ∈ Q, q.length = nc) :
    ∃ k, flatKnots u ((2 * nc) :: (List.replicate (u.length - 2) nc ++ [2 * nc])) = .ok k ∧
      ∃! P : List V, P.length = u.length * nc ∧
        ∀ (i : ℕ) (t : K) (q : List V) (d : ℕ) (v : V), u[i]? = some t → Q[i]? = some q → q[d]? = some v →
          evalValue eps junk t k P (2 * nc - 1) d = .ok v := by
  obtain ⟨m, hm1⟩ : ∃ m, u.length = m + 1 := ⟨u.length - 1, by omega⟩
  obtain ⟨sparse, hS⟩ := exists_solvesRegular (K := K) (V := V)
  set ms : List ℕ := (2 * nc) :: (List.replicate (m - 1) nc ++ [2 * nc]) with hms
  have hlms : u.length = ms.length := by simp [hms]; omega
  have ek := flatF_eq_flatKnots u ms hlms
  rw [show u.length - 2 = m - 1 by omega]
  refine ⟨_, ek, ?_⟩
  obtain ⟨hU, h1, h2⟩ := nc_knots hnc (by omega) hm1 hu ek
  generalize flatF (kf u) (fun i => ms.getD i 0) u.length = k at *
  obtain ⟨sp, hsp⟩ := exists_spans hU u
  have hR := coll_regular_hermite hnc (by omega) hU hm1 hu h1 h2 hsp
  have hQl : Q.length * nc = (m + 1) * nc := by rw [hl, hm1]
  have hle : u.Pairwise (· ≤ ·) := hu.imp le_of_lt
  have e0 : kf k (2 * nc - 1) = kf u 0 := by have := h1 0 (by omega); rwa [Nat.zero_add] at this
  have e1 : kf k ((m + 1) * nc) = kf u m := by
    have := h2 (m - 1) (by omega)
    rwa [show m - 1 + 2 = m + 1 by omega, show m - 1 + 1 = m by omega] at this
  have hev : ∀ (P : List V), P.length = (m + 1) * nc → ∀ i d, i < u.length → d < nc →
      evalValue eps junk (kf u i) k P (2 * nc - 1) d =
        .ok (∑ j ∈ Finset.range ((m + 1) * nc), coll k u (2 * nc - 1) nc sp (nc * i + d) j • pf P j) := by
    intro P hlP i d hi hd
    have hw : Wf (2 * nc - 1) k P := hU.wf hlP
    have hg : (⟨2 * nc - 1, P, k, kf k (2 * nc - 1), kf k P.length⟩ : Curve K V).Good := ⟨hw, rfl, rfl⟩
    rw [sum_coll hd, ← hlP]
    exact evalValue_all hw (Curve.evalOk heps hg (Or.inl hp) (by show kf k (2 * nc - 1) ≤ kf u i; rw [e0]; exact kf_mono hle (by omega))
      (by show kf u i < kf k P.length + eps
          rw [hlP, e1]
          have : kf u i ≤ kf u m := kf_mono hle (by omega)
          linarith)) d (by rw [hlP]; exact hsp.find i hi)
  obtain ⟨P, eP, hlP, hP⟩ := C36_build_poles (meps := 0) heps le_rfl 0 junk (0 : V) hp hnc (Q := Q) (U := k) (u := u)
    (by rw [hQl]; exact hU) hl hQ (SolvesRegular.sparseOk hS hp hnc (by rw [hQl]; exact hU) hl hQ (sp := sp) (by rw [hQl]; exact hsp)
    (by rw [hQl]; exact hR) eps 0 0 junk)
  rw [hQl] at hlP hP
  refine ⟨P, ⟨by rw [hm1]; exact hlP, ?_⟩, ?_⟩
  · intro i t q d v ht hq hv
    obtain ⟨hi, rfl⟩ := kf_of_some ht
    exact hP i q _ d v hq ht (by rw [e0]; exact kf_mono hle (by omega)) (by rw [e1]; exact kf_mono hle (by omega)) hv junk
  · rintro P' ⟨hl', hP'⟩
    rw [hm1] at hl'
    apply List.ext_getElem?
    intro j
    rcases Nat.lt_or_ge j ((m + 1) * nc) with hj | hj
    · rw [pf_getElem? (by omega), pf_getElem? (by omega)]
      congr 1
      apply Regular.unique hR _ j hj
      intro r hr
      have hi : r / nc < u.length := by rw [hm1]; exact (Nat.div_lt_iff_lt_mul (by omega)).mpr hr
      have hi' : r / nc ≤ m ∧ m < u.length := ⟨by rw [hm1] at hi; exact Nat.lt_succ_iff.mp hi, by omega⟩
      have hd : r % nc < nc := Nat.mod_lt _ (by omega)
      have hrd : nc * (r / nc) + r % nc = r := Nat.div_add_mod r nc
      obtain ⟨q, hq⟩ : ∃ q, Q[r / nc]? = some q := ⟨_, List.getElem?_eq_getElem (by omega)⟩
      have hql := hQ q (List.mem_of_getElem? hq)
      obtain ⟨v, hv⟩ : ∃ v, q[r % nc]? = some v := ⟨_, List.getElem?_eq_getElem (by omega)⟩
      have a1 := hev P' hl' (r / nc) (r % nc) hi hd
      have a2 := hev P hlP (r / nc) (r % nc) hi hd
      rw [hrd] at a1 a2
      rw [hP' _ _ q _ v (kf_getElem? hi) hq hv] at a1
      rw [hP _ q _ _ v hq (kf_getElem? hi) (by rw [e0]; exact kf_mono hle (Nat.zero_le _)) (by rw [e1]; exact kf_mono hle hi'.1) hv junk] at a2
      rw [← Except.ok.inj a1, ← Except.ok.inj a2]
    · rw [List.getElem?_eq_none (by omega), List.getElem?_eq_none (by omega)]

/-! ## Instances -/

/-- Four points of the plane at uneven parameters, degree 2. -/
example : ∃ k, averagedFlatKnots ([0, 1, 2, 5] : List ℚ) 2 = .ok k ∧ ∃! P : List (ℚ × ℚ), P.length = 4 ∧
    ∀ (i : ℕ) (t : ℚ) (q : ℚ × ℚ), ([0, 1, 2, 5] : List ℚ)[i]? = some t → [((0 : ℚ), (0 : ℚ)), (1, 2), (2, -1), (3, 0)][i]? = some q →
      Spec.curve (kf k) 4 2 (pf P) t = q :=
  C76_unique_averaged (p := 2) (u := [0, 1, 2, 5]) (by decide) (by decide) (by decide +kernel) [(0, 0), (1, 2), (2, -1), (3, 0)] rfl

/-- Points and tangents at three parameters, with a solver of regular systems. -/
example (x0 : ℚ × ℚ) : ∃ sparse c, interpolateNc (1/1000 : ℚ) (1/1000000) 10000 7 x0 sparse 2
    [[((0 : ℚ), (0 : ℚ)), (1, 0)], [(1, 2), (0, 1)], [(3, 0), (1, -1)]] [0, 1, 3] = .ok c ∧ c.value (1/1000) 7 1 1 = .ok (0, 1) := by
  obtain ⟨sparse, hS⟩ := exists_solvesRegular (K := ℚ) (V := ℚ × ℚ)
  obtain ⟨c, e, -, -, -, -, -, h⟩ := C36_interpolate_derivatives (eps := (1/1000 : ℚ)) (meps := 1/1000000) (by norm_num) (by norm_num) 10000 7 x0
    (nc := 2) (by decide) (by decide) (Q := [[((0 : ℚ), (0 : ℚ)), (1, 0)], [(1, 2), (0, 1)], [(3, 0), (1, -1)]]) (u := [0, 1, 3]) rfl
    (by decide) (by decide +kernel) (by decide) hS
  exact ⟨sparse, c, e, h 1 [(1, 2), (0, 1)] 1 1 (0, 1) rfl rfl rfl 7⟩

/-- Three points at degree 1 and three at degree 2, with the same solver. -/
example (x0 : ℚ) (p : ℕ) (hp1 : 1 ≤ p) (hp : p ≤ 2) : ∃ sparse c, interpolateCn (1/1000 : ℚ) (1/1000000) 10000 7 x0 sparse [5, 1, 2] [0, 1, 3] p = .ok c ∧
    c.value (1/1000) 7 1 0 = .ok 1 := by
  obtain ⟨sparse, hS⟩ := exists_solvesRegular (K := ℚ) (V := ℚ)
  obtain ⟨c, e, -, -, -, -, -, h⟩ := C36_interpolate_points (eps := (1/1000 : ℚ)) (meps := 1/1000000) (by norm_num) (by norm_num) 10000 7 x0
    hp1 (by unfold stackMaxDegree; omega) (Q := [5, 1, 2]) (u := [0, 1, 3]) rfl (show p + 1 ≤ 3 by omega) (by decide +kernel) hS
  exact ⟨sparse, c, e, h 1 1 1 rfl rfl 7⟩

/-- Points and tangents determine the poles. -/
example : ∃ k, flatKnots ([0, 1, 3] : List ℚ) [2 * 2, 2, 2 * 2] = .ok k ∧ ∃! P : List ℚ, P.length = 3 * 2 ∧
    ∀ (i : ℕ) (t : ℚ) (q : List ℚ) (d : ℕ) (v : ℚ), ([0, 1, 3] : List ℚ)[i]? = some t → [[(0 : ℚ), 1], [1, 2], [3, 0]][i]? = some q →
      q[d]? = some v → evalValue (1/1000) 7 t k P 3 d = .ok v :=
  C76_unique_hermite (eps := (1/1000 : ℚ)) (by norm_num) 7 (nc := 2) (by decide) (by decide) (Q := [[0, 1], [1, 2], [3, 0]]) (u := [0, 1, 3]) rfl
    (by decide) (by decide +kernel) (by decide)

end Gbs
