import Verif.Lemmas.PolyBlossom
import Verif.Model.AbsCurv
import Verif.Props.Collocation
import Verif.Props.Extrema
import Mathlib.MeasureTheory.Integral.IntervalIntegral.FundThmCalculus
import Mathlib.Analysis.SpecialFunctions.Sqrt

/-!
# C104: lengths of curves and curvilinear abscissae
-/

set_option linter.unusedSectionVars false

namespace Gbs

variable {K : Type} [Field K] [LinearOrder K] [IsStrictOrderedRing K]
variable {V : Type} [AddCommGroup V] [Module K V]

/-! ## Interpolation of points of a polynomial -/

/-- Poles at the blossom of a polynomial give this polynomial. -/
theorem poly_poles {t : ℕ → K} (ht : Monotone t) {n p i : ℕ} (hpi : p ≤ i) (hi : i < n) (hk : t i < t (i + 1)) (A : ℕ → V) {P : ℕ → V}
    (hP : ∀ j, j < n → P j = polyBlossom p A (seg t (j + 1) p)) (v : K) : spanDer t n p i P 0 v = ∑ k ∈ Finset.range (p + 1), v ^ k • A k := by
  rw [spanDer_zero t hpi hi, bl_unique ht hk (List.replicate p v) (polyBlossom p A) P (by simpa using hpi) (by simpa using polyBlossom_isBlossom p A) (by
    intro j _ hj
    rw [hP j (by omega), List.length_replicate]), polyBlossom_diag]

theorem mk?_eq {eps : K} {P : List V} {k : List K} {p : ℕ} {c : Curve K V} (h : Curve.mk? eps P k p = .ok c) : c.deg = p ∧ c.poles = P ∧ c.knots = k := by
  unfold Curve.mk? at h
  split at h
  · obtain ⟨b, -, h⟩ := R_bind_eq_ok.mp h
    split at h
    · cases h
      exact ⟨rfl, rfl, rfl⟩
    · exact absurd h (by simp)
  · exact absurd h (by simp)

/-- **C104**: the interpolation of degree `p` of points of a polynomial of degree at most `p` is this polynomial. -/
theorem C104_polynomial {eps meps : K} (heps : 0 < eps) (hm : 0 ≤ meps) (growth junk : K) (x0 : V) {p : ℕ} (hp1 : 1 ≤ p)
    (hp : p ≤ stackMaxDegree) {Q : List V} {u : List K} (hl : Q.length = u.length) (hn : p + 1 ≤ u.length) (hu : u.Pairwise (· < ·))
    {sparse : ℕ → List (ℕ × ℕ × K) → List V → R (List V)} (hS : Spec.SolvesRegular sparse) (A : ℕ → V)
    (hQ : ∀ (i : ℕ) (q : V) (t : K), Q[i]? = some q → u[i]? = some t → q = ∑ k ∈ Finset.range (p + 1), t ^ k • A k) :
    ∃ c, interpolateCn eps meps growth junk x0 sparse Q u p = .ok c ∧ some c.b0 = u.head? ∧ some c.b1 = u.getLast? ∧
      ∀ t, c.b0 ≤ t → t ≤ c.b1 → ∀ junk', c.value eps junk' t 0 = .ok (∑ k ∈ Finset.range (p + 1), t ^ k • A k) := by
  obtain ⟨c, ec, hg, hd, hlen, hb0, hb1, hv⟩ := C36_interpolate_points heps hm growth junk x0 hp1 hp hl hn hu hS
  refine ⟨c, ec, hb0, hb1, ?_⟩
  have hbig : c.BigOk eps := Or.inl (by rw [hd]; exact hp)
  obtain ⟨k, ek, P', ⟨hl', hP'⟩, huniq⟩ := C76_unique_averaged hp1 hn hu Q hl
  have hk : c.knots = k := by
    unfold interpolateCn at ec
    rw [ek, R_bind_ok] at ec
    obtain ⟨P, -, ec⟩ := R_bind_eq_ok.mp ec
    exact (mk?_eq ec).2.2
  have hmono : Monotone (kf c.knots) := kf_mono hg.wf.sorted
  -- the poles at the blossoms of the knots
  set G : List V := (List.range u.length).map fun j => polyBlossom p A (seg (kf c.knots) (j + 1) p) with hG
  have hGj : ∀ j, j < u.length → pf G j = polyBlossom p A (seg (kf c.knots) (j + 1) p) := by
    intro j hj
    unfold pf
    rw [List.getD_eq_getElem?_getD, hG, List.getElem?_map, List.getElem?_range hj]
    rfl
  have hcl : c.poles.length = u.length := by rw [hlen, hl]
  have poly : ∀ t i, findSpan c.poles.length c.deg t c.knots = .ok i → spanDer (kf c.knots) u.length p i (pf G) 0 t = ∑ k ∈ Finset.range (p + 1), t ^ k • A k := by
    intro t i e
    obtain ⟨i', e', a1, a2, a3, -⟩ := findSpan_wf hg.wf t
    rw [e] at e'
    obtain rfl := Except.ok.inj e'
    rw [hd] at a1
    exact poly_poles hmono a1 (by omega) a3 A hGj t
  have mem : ∀ (i : ℕ) (t : K), u[i]? = some t → c.b0 ≤ t ∧ t ≤ c.b1 := by
    intro i t h
    obtain ⟨hi, rfl⟩ := kf_of_some h
    have hle : u.Pairwise (· ≤ ·) := hu.imp le_of_lt
    rw [List.head?_eq_getElem?, kf_getElem? (by omega)] at hb0
    rw [List.getLast?_eq_getElem?, kf_getElem? (by omega)] at hb1
    rw [Option.some.inj hb0, Option.some.inj hb1]
    exact ⟨kf_mono hle (by omega), kf_mono hle (by omega)⟩
  have hPG : c.poles = G := by
    rw [huniq c.poles ⟨hcl, ?_⟩, huniq G ⟨by simp [hG], ?_⟩]
    · intro i t q ht hq
      obtain ⟨h0, h1⟩ := mem i t ht
      obtain ⟨s, e, hs, -⟩ := Curve.value_span heps hg hbig h0 h1
      rw [hcl] at hs
      rw [← hk, ← spanDer_eq_curve hmono hs, poly t s e, hQ i q t hq ht]
    · intro i t q ht hq
      obtain ⟨h0, h1⟩ := mem i t ht
      obtain ⟨s, e, hs, -, -, hval⟩ := Curve.value_span heps hg hbig h0 h1
      rw [hcl] at hs hval
      have := hval junk 0
      rw [hv i q t hq ht junk, hd] at this
      rw [← hk, ← spanDer_eq_curve hmono hs]
      exact (Except.ok.inj this).symm
  intro t h0 h1 junk'
  obtain ⟨s, e, hs, -, -, hval⟩ := Curve.value_span heps hg hbig h0 h1
  rw [hval junk' 0, hPG, hd]
  have := poly t s e
  rw [show G.length = u.length by simp [hG], this]

/-- **C104**: the interpolation of points of a line at proportional parameters is this line. -/
theorem C104_line {eps meps : K} (heps : 0 < eps) (hm : 0 ≤ meps) (growth junk : K) (x0 : V) {p : ℕ} (hp1 : 1 ≤ p)
    (hp : p ≤ stackMaxDegree) {Q : List V} {u : List K} (hl : Q.length = u.length) (hn : p + 1 ≤ u.length) (hu : u.Pairwise (· < ·))
    {sparse : ℕ → List (ℕ × ℕ × K) → List V → R (List V)} (hS : Spec.SolvesRegular sparse) (A B : V)
    (hQ : ∀ (i : ℕ) (q : V) (t : K), Q[i]? = some q → u[i]? = some t → q = A + t • B) :
    ∃ c, interpolateCn eps meps growth junk x0 sparse Q u p = .ok c ∧ some c.b0 = u.head? ∧ some c.b1 = u.getLast? ∧
      ∀ t, c.b0 ≤ t → t ≤ c.b1 → ∀ junk', c.value eps junk' t 0 = .ok (A + t • B) := by
  have e : ∀ t : K, ∑ k ∈ Finset.range (p + 1), t ^ k • (if k = 0 then A else if k = 1 then B else 0) = A + t • B := by
    intro t
    obtain ⟨q, rfl⟩ : ∃ q, p = q + 1 := ⟨p - 1, by omega⟩
    rw [Finset.sum_range_succ', Finset.sum_range_succ', Finset.sum_eq_zero]
    · simp [add_comm]
    · intro k _
      rw [if_neg (by omega), if_neg (by omega), smul_zero]
  obtain ⟨c, ec, h0, h1, hv⟩ := C104_polynomial heps hm growth junk x0 hp1 hp hl hn hu hS (fun k => if k = 0 then A else if k = 1 then B else 0) (by
    intro i q t h1 h2
    rw [e]
    exact hQ i q t h1 h2)
  refine ⟨c, ec, h0, h1, fun t ht0 ht1 junk' => ?_⟩
  rw [hv t ht0 ht1, e]

/-! ## Abscissae -/

/-- The abscissa of the value `i` of a parameter: the sum of the lengths before it. -/
def Spec.abscissa (l : K → K → K) (s : ℕ → K) (i : ℕ) : K := ∑ j ∈ Finset.range i, l (s j) (s (j + 1))

/-- `len` computes the lengths `l` between `u1` and `u2`. -/
def Spec.Lengths (len : K → K → R K) (l : K → K → K) (u1 u2 : K) : Prop := ∀ a b, u1 ≤ a → a < b → b ≤ u2 → len a b = .ok (l a b)

/-- The length of two adjacent intervals is the sum of their lengths. -/
def Spec.Additive (l : K → K → K) (u1 u2 : K) : Prop := ∀ a b c, u1 ≤ a → a < b → b < c → c ≤ u2 → l a b + l b c = l a c

/-- Every interval has a length. -/
def Spec.Moving (l : K → K → K) (u1 u2 : K) : Prop := ∀ a b, u1 ≤ a → a < b → b ≤ u2 → 0 < l a b

/-- What is assumed of the interpolation. -/
def Spec.InterpOk (a : InterpArgs K) : Prop := 0 < a.eps ∧ 0 ≤ a.meps ∧ Spec.SolvesRegular a.sparse

theorem intervalLengths_range {len : K → K → R K} {l : K → K → K} {s : ℕ → K} : ∀ (n a : ℕ),
    (∀ j, a ≤ j → j + 1 < a + n → len (s j) (s (j + 1)) = .ok (l (s j) (s (j + 1)))) →
    intervalLengths len ((List.range' a n).map s) = .ok ((List.range' a (n - 1)).map fun j => l (s j) (s (j + 1)))
  | 0, a, _ => rfl
  | 1, a, _ => rfl
  | n + 2, a, h => by
    have ih := intervalLengths_range (n + 1) (a + 1) fun j h1 h2 => h j (by omega) (by omega)
    rw [List.range'_succ, List.map_cons]
    rw [List.range'_succ, List.map_cons] at ih ⊢
    rw [intervalLengths, h a le_rfl (by omega), R_bind_ok, ih, R_bind_ok, show n + 2 - 1 = (n + 1 - 1) + 1 by omega, List.range'_succ, List.map_cons]
    rfl

theorem runningSums_range {d : ℕ → K} : ∀ (n a : ℕ) (S : K),
    runningSums S ((List.range' a n).map d) = (List.range' a (n + 1)).map fun i => S + ∑ j ∈ Finset.Ico a i, d j
  | 0, a, S => by simp [runningSums]
  | n + 1, a, S => by
    rw [List.range'_succ, List.map_cons, runningSums, runningSums_range n (a + 1) (S + d a), List.range'_succ (s := a) (n := n + 1), List.map_cons]
    congr 1
    · simp
    · refine List.map_congr_left fun i hi => ?_
      have := List.mem_range'_1.mp hi
      rw [Finset.sum_eq_sum_Ico_succ_bot (show a < i by omega), add_assoc]

theorem abscissae_range {len : K → K → R K} {l : K → K → K} {s : ℕ → K} {n : ℕ} (hn : 1 ≤ n)
    (h : ∀ j, j + 1 < n → len (s j) (s (j + 1)) = .ok (l (s j) (s (j + 1)))) :
    abscissae len ((List.range n).map s) = .ok ((List.range n).map (Spec.abscissa l s)) := by
  unfold abscissae
  rw [List.range_eq_range', intervalLengths_range n 0 fun j _ h2 => h j (by omega), R_bind_ok, runningSums_range, show n - 1 + 1 = n by omega]
  congr 1
  refine List.map_congr_left fun i _ => ?_
  rw [zero_add, Spec.abscissa, Finset.range_eq_Ico]

theorem range_list {u1 u2 : K} {n : ℕ} (hn : 2 ≤ n) : makeRange u1 u2 n = .ok ((List.range n).map (Spec.sample u1 u2 n)) := by
  obtain ⟨v, e, hl, -, -, hv⟩ := (C33_make_range u1 u2 n).2 hn
  rw [e]
  congr 1
  refine List.ext_getElem? fun i => ?_
  rcases Nat.lt_or_ge i n with h | h
  · rw [hv i h, List.getElem?_map, List.getElem?_range h]
    rfl
  · rw [List.getElem?_eq_none (by omega), List.getElem?_eq_none (by simpa using h)]

theorem sample_lt {u1 u2 : K} (h12 : u1 < u2) {n : ℕ} (hn : 2 ≤ n) {i j : ℕ} (hij : i < j) : Spec.sample u1 u2 n i < Spec.sample u1 u2 n j := by
  have hn' : (0 : K) < (n : K) - 1 := by
    have : (2 : K) ≤ n := by exact_mod_cast hn
    linarith
  have : (i : K) < j := by exact_mod_cast hij
  unfold Spec.sample
  have hq : 0 < (u2 - u1) / ((n : K) - 1) := div_pos (by linarith) hn'
  nlinarith

theorem sample_first (u1 u2 : K) (n : ℕ) : Spec.sample u1 u2 n 0 = u1 := by simp [Spec.sample]

theorem sample_last {u1 u2 : K} {n : ℕ} (hn : 2 ≤ n) : Spec.sample u1 u2 n (n - 1) = u2 := by
  have hn' : (n : K) - 1 ≠ 0 := by
    have : (2 : K) ≤ n := by exact_mod_cast hn
    intro h
    linarith
  rw [Spec.sample, Nat.cast_sub (by omega), Nat.cast_one]
  field_simp
  ring

theorem range_sorted {f : ℕ → K} {n : ℕ} (h : ∀ i j, i < j → j < n → f i < f j) : ((List.range n).map f).Pairwise (· < ·) := by
  rw [List.pairwise_map, List.pairwise_iff_getElem]
  intro i j hi hj hij
  simp only [List.getElem_range]
  exact h i j hij (by simpa using hj)

theorem abscissa_lt {l : K → K → K} {u1 u2 : K} (h12 : u1 < u2) {n : ℕ} (hn : 2 ≤ n) (hl : Spec.Moving l u1 u2) {i j : ℕ} (hij : i < j) (hj : j < n) :
    Spec.abscissa l (Spec.sample u1 u2 n) i < Spec.abscissa l (Spec.sample u1 u2 n) j := by
  obtain ⟨k, rfl⟩ : ∃ k, j = i + k + 1 := ⟨j - i - 1, by omega⟩
  have pos : ∀ m, m < n - 1 → 0 < l (Spec.sample u1 u2 n m) (Spec.sample u1 u2 n (m + 1)) := fun m hm =>
    hl _ _ (sample_mem h12.le hn (by omega)).1 (sample_lt h12 hn (by omega)) (sample_mem h12.le hn (by omega)).2
  induction k with
  | zero =>
    rw [Spec.abscissa, Spec.abscissa, Finset.sum_range_succ]
    exact lt_add_of_pos_right _ (pos _ (by omega))
  | succ k ih =>
    refine (ih (by omega) (by omega)).trans ?_
    rw [Spec.abscissa, Spec.abscissa, show i + (k + 1) + 1 = (i + k + 1) + 1 by omega, Finset.sum_range_succ (n := i + k + 1)]
    exact lt_add_of_pos_right _ (pos _ (by omega))

/-- **C104**: `abs_curv` gives the parameter from the abscissa at the samples: for every curve whose intervals have lengths, any bounds, number of samples and degree
from 1, the law is defined between 0 and the sum of the lengths of the intervals between the samples, and is each sample at the sum of the lengths before it. Less
than two samples throw. -/
theorem C104_law {a : InterpArgs K} (ha : Spec.InterpOk a) {len : K → K → R K} {l : K → K → K} {u1 u2 : K} (h12 : u1 < u2) (hlen : Spec.Lengths len l u1 u2)
    (hmov : Spec.Moving l u1 u2) {n p : ℕ} (hp1 : 1 ≤ p) (hp : min p (n - 1) ≤ stackMaxDegree) :
    (2 ≤ n → ∃ c, absCurv a len u1 u2 n p = .ok c ∧ c.Good ∧ c.deg = min p (n - 1) ∧ c.b0 = 0 ∧ c.b1 = Spec.abscissa l (Spec.sample u1 u2 n) (n - 1) ∧
      ∀ i, i < n → ∀ junk, c.value a.eps junk (Spec.abscissa l (Spec.sample u1 u2 n) i) 0 = .ok (Spec.sample u1 u2 n i)) ∧
    (n < 2 → absCurv a len u1 u2 n p = .error (.thrown .length)) := by
  obtain ⟨heps, hm, hS⟩ := ha
  constructor
  · intro hn
    obtain ⟨c, ec, hg, hd, -, hb0, hb1, hv⟩ := C36_interpolate_points heps hm a.growth a.junk a.x0 (p := min p (n - 1)) (by omega) hp
      (Q := (List.range n).map (Spec.sample u1 u2 n)) (u := (List.range n).map (Spec.abscissa l (Spec.sample u1 u2 n))) (by simp) (by simp; omega)
      (range_sorted fun i j hij hj => abscissa_lt h12 hn hmov hij hj) hS
    refine ⟨c, ?_, hg, hd, ?_, ?_, ?_⟩
    · unfold absCurv
      rw [range_list hn, R_bind_ok, abscissae_range (l := l) (s := Spec.sample u1 u2 n) (n := n) (by omega) fun j hj => hlen _ _ (sample_mem h12.le hn (by omega)).1 (sample_lt h12 hn (by omega))
        (sample_mem h12.le hn (by omega)).2, R_bind_ok, List.length_map, List.length_range]
      exact ec
    · rw [List.head?_eq_getElem?, List.getElem?_map, List.getElem?_range (by omega)] at hb0
      rw [Option.some.inj hb0]
      simp [Spec.abscissa]
    · rw [List.getLast?_eq_getElem?, List.getElem?_map, List.length_map, List.length_range, List.getElem?_range (by omega)] at hb1
      exact Option.some.inj hb1
    · intro i hi junk
      refine hv i _ _ ?_ ?_ junk <;> rw [List.getElem?_map, List.getElem?_range hi] <;> rfl
  · intro hn
    unfold absCurv
    rw [(C33_make_range u1 u2 n).1 hn]
    rfl

theorem abscissa_exact {l : K → K → K} {u1 u2 : K} (h12 : u1 < u2) {n : ℕ} (hn : 2 ≤ n) (hadd : Spec.Additive l u1 u2) : ∀ i, i + 1 < n →
    Spec.abscissa l (Spec.sample u1 u2 n) (i + 1) = l u1 (Spec.sample u1 u2 n (i + 1))
  | 0, _ => by rw [Spec.abscissa, Finset.sum_range_one, sample_first]
  | i + 1, hi => by
    rw [Spec.abscissa, Finset.sum_range_succ]
    have := abscissa_exact h12 hn hadd i (by omega)
    rw [Spec.abscissa] at this
    rw [this]
    refine hadd _ _ _ le_rfl ?_ (sample_lt h12 hn (by omega)) (sample_mem h12.le hn hi).2
    exact lt_of_eq_of_lt (sample_first u1 u2 n).symm (sample_lt h12 hn (by omega))

/-- **C104**: when the lengths are exact, the law ends at the length of the curve, and is each sample at the length of the curve up to it. -/
theorem C104_law_exact {a : InterpArgs K} (ha : Spec.InterpOk a) {len : K → K → R K} {l : K → K → K} {u1 u2 : K} (h12 : u1 < u2) (hlen : Spec.Lengths len l u1 u2)
    (hmov : Spec.Moving l u1 u2) (hadd : Spec.Additive l u1 u2) {n p : ℕ} (hp1 : 1 ≤ p) (hp : min p (n - 1) ≤ stackMaxDegree) (hn : 2 ≤ n) :
    ∃ c, absCurv a len u1 u2 n p = .ok c ∧ c.b0 = 0 ∧ c.b1 = l u1 u2 ∧ (∀ junk, c.value a.eps junk 0 0 = .ok u1) ∧
      ∀ i, i + 1 < n → ∀ junk, c.value a.eps junk (l u1 (Spec.sample u1 u2 n (i + 1))) 0 = .ok (Spec.sample u1 u2 n (i + 1)) := by
  obtain ⟨c, ec, -, -, h0, h1, hv⟩ := (C104_law ha h12 hlen hmov hp1 hp).1 hn
  refine ⟨c, ec, h0, ?_, ?_, ?_⟩
  · obtain ⟨i, hi⟩ : ∃ i, n - 1 = i + 1 := ⟨n - 2, by omega⟩
    rw [h1, hi, abscissa_exact h12 hn hadd i (by omega), ← hi, sample_last hn]
  · intro junk
    have := hv 0 (by omega) junk
    rwa [sample_first, Spec.abscissa, Finset.sum_range_zero] at this
  · intro i hi junk
    rw [← abscissa_exact h12 hn hadd i hi]
    exact hv (i + 1) hi junk

/-! ## Parameters spread uniformly -/

/-- **C104**: parameters spread uniformly. There are as many as asked for, the first and the last are those given, and the others are the law at equal steps of the
abscissa; they are in order, or the function throws. Less than two: undefined. -/
theorem C104_params {a : InterpArgs K} (ha : Spec.InterpOk a) {len : K → K → R K} {l : K → K → K} {u1 u2 : K} (h12 : u1 < u2) (hlen : Spec.Lengths len l u1 u2)
    (hmov : Spec.Moving l u1 u2) (crv : ACurve K V) {n nLaw : ℕ} (hnl : 2 ≤ nLaw) :
    (2 ≤ n → ∃ c us, absCurv a len u1 u2 nLaw 3 = .ok c ∧ us.length = n ∧ us[0]? = some u1 ∧ us[n - 1]? = some u2 ∧
      (∀ i, i + 2 < n → ∃ t, us[i + 1]? = some t ∧ c.value a.eps a.junk (((i : K) + 1) * (c.b1 / ((n : K) - 1))) 0 = .ok t) ∧
      uniformParams a len crv u1 u2 n nLaw = if us.Pairwise (· ≤ ·) then .ok us else .error (.thrown .length)) ∧
    (n < 2 → uniformParams a len crv u1 u2 n nLaw = .error .oob) := by
  constructor
  · intro hn
    have hdeg : min 3 (nLaw - 1) ≤ stackMaxDegree := le_trans (min_le_left _ _) (by decide)
    obtain ⟨c, ec, hg, hd, h0, h1, -⟩ := (C104_law ha h12 hlen hmov (p := 3) (by omega) hdeg).1 hnl
    have hn' : (0 : K) < (n : K) - 1 := by
      have : (2 : K) ≤ n := by exact_mod_cast hn
      linarith
    have hb1 : 0 < c.b1 := by
      rw [h1, show (0 : K) = Spec.abscissa l (Spec.sample u1 u2 nLaw) 0 by simp [Spec.abscissa]]
      exact abscissa_lt h12 hnl hmov (by omega) (by omega)
    have hval : ∀ m, 0 ≤ m → m ≤ c.b1 → ∃ t, c.value a.eps a.junk m 0 = .ok t := by
      intro m hm0 hm1
      obtain ⟨s, -, -, -, -, hv⟩ := Curve.value_span ha.1 hg (Or.inl (by rw [hd]; exact hdeg)) (by rw [h0]; exact hm0) hm1
      exact ⟨_, hv a.junk 0⟩
    set dm := c.b1 / ((n : K) - 1) with hdm
    have hin : ∀ i, i < n - 2 → ∃ t, c.value a.eps a.junk (((i : K) + 1) * dm) 0 = .ok t := by
      intro i hi
      refine hval _ (by positivity) ?_
      rw [hdm, mul_div_assoc', div_le_iff₀ hn']
      have : ((i + 1 : ℕ) : K) ≤ ((n - 1 : ℕ) : K) := by exact_mod_cast (by omega : i + 1 ≤ n - 1)
      rw [Nat.cast_sub (by omega), Nat.cast_one, Nat.cast_add, Nat.cast_one] at this
      nlinarith
    have hin' : ∀ i, ∃ t, i < n - 2 → c.value a.eps a.junk (((i : K) + 1) * dm) 0 = .ok t := by
      intro i
      by_cases hi : i < n - 2
      · obtain ⟨t, ht⟩ := hin i hi
        exact ⟨t, fun _ => ht⟩
      · exact ⟨0, fun h => absurd h hi⟩
    choose f hf using hin'
    have hgs : genSteps dm 0 (n - 2) = (List.range (n - 2)).map fun i : ℕ => ((i : K) + 1) * dm := by
      refine List.ext_getElem? fun i => ?_
      rcases Nat.lt_or_ge i (n - 2) with h | h
      · rw [genSteps_get dm _ _ i h, List.getElem?_map, List.getElem?_range h, zero_add]
        rfl
      · rw [List.getElem?_eq_none (by rw [genSteps_length]; exact h), List.getElem?_eq_none (by simpa using h)]
    have hmap : ∀ L : List ℕ, (∀ i ∈ L, i < n - 2) → (L.map fun i : ℕ => ((i : K) + 1) * dm).mapM (fun m => c.value a.eps a.junk m 0) = .ok (L.map f) := by
      intro L
      induction L with
      | nil => intro _; rfl
      | cons i L ih =>
        intro h
        rw [List.map_cons, List.mapM_cons, hf i (h i (by simp)), R_bind_ok, ih fun j hj => h j (by simp [hj]), R_bind_ok]
        rfl
    refine ⟨c, u1 :: ((List.range (n - 2)).map f ++ [u2]), ec, by simp; omega, rfl, ?_, ?_, ?_⟩
    · rw [show n - 1 = (n - 2) + 1 by omega, List.getElem?_cons_succ, List.getElem?_append_right (by simp)]
      simp
    · intro i hi
      refine ⟨f i, ?_, hf i (by omega)⟩
      rw [List.getElem?_cons_succ, List.getElem?_append_left (by simp; omega), List.getElem?_map, List.getElem?_range (by omega)]
      rfl
    · unfold uniformParams uniformDistrib
      rw [if_neg (by omega)]
      simp only [latticeCurve]
      rw [ec, R_bind_ok]
      simp only [R_pure, R_bind_ok]
      rw [fdiv_ok hn'.ne', R_bind_ok, ← hdm, hgs, hmap _ fun i hi => List.mem_range.mp hi, R_bind_ok]
  · intro hn
    unfold uniformParams uniformDistrib
    rw [if_pos hn]

theorem abscissa_constant {v u1 u2 : K} {n : ℕ} : ∀ i, Spec.abscissa (fun a b => v * (b - a)) (Spec.sample u1 u2 n) i = v * (Spec.sample u1 u2 n i - u1)
  | 0 => by simp [Spec.abscissa, sample_first]
  | i + 1 => by
    have := abscissa_constant (v := v) (u1 := u1) (u2 := u2) (n := n) i
    rw [Spec.abscissa] at this ⊢
    rw [Finset.sum_range_succ, this]
    ring

/-- **C104**: for a curve run at a constant speed, the law is exact everywhere, and the parameters spread uniformly are the regular samples. -/
theorem C104_constant_speed {a : InterpArgs K} (ha : Spec.InterpOk a) {len : K → K → R K} {v u1 u2 : K} (hv : 0 < v) (h12 : u1 < u2)
    (hlen : Spec.Lengths len (fun a b => v * (b - a)) u1 u2) (crv : ACurve K V) {n nLaw p : ℕ} (hnl : 2 ≤ nLaw) (hp1 : 1 ≤ p) (hp : min p (nLaw - 1) ≤ stackMaxDegree) :
    (∃ c, absCurv a len u1 u2 nLaw p = .ok c ∧ c.b0 = 0 ∧ c.b1 = v * (u2 - u1) ∧
      ∀ m, 0 ≤ m → m ≤ v * (u2 - u1) → ∀ junk, c.value a.eps junk m 0 = .ok (u1 + m / v)) ∧
    (2 ≤ n → uniformParams a len crv u1 u2 n nLaw = .ok ((List.range n).map (Spec.sample u1 u2 n))) := by
  have hmov : Spec.Moving (fun a b => v * (b - a)) u1 u2 := fun x y _ h _ => mul_pos hv (by linarith)
  have law : ∀ q, 1 ≤ q → min q (nLaw - 1) ≤ stackMaxDegree → ∃ c, absCurv a len u1 u2 nLaw q = .ok c ∧ c.b0 = 0 ∧ c.b1 = v * (u2 - u1) ∧
      ∀ m, 0 ≤ m → m ≤ v * (u2 - u1) → ∀ junk, c.value a.eps junk m 0 = .ok (u1 + m / v) := by
    intro q hq1 hq
    obtain ⟨c', ec', -, -, h0, h1, -⟩ := (C104_law ha h12 hlen hmov hq1 hq).1 hnl
    rw [abscissa_constant, sample_last hnl] at h1
    refine ⟨c', ec', h0, h1, ?_⟩
    obtain ⟨c, ec, -, -, hval⟩ := C104_line ha.1 ha.2.1 a.growth a.junk a.x0 (p := min q (nLaw - 1)) (by omega) hq
      (Q := (List.range nLaw).map (Spec.sample u1 u2 nLaw)) (u := (List.range nLaw).map (Spec.abscissa (fun a b => v * (b - a)) (Spec.sample u1 u2 nLaw))) (by simp)
      (by simp; omega) (range_sorted fun i j hij hj => abscissa_lt h12 hnl hmov hij hj) ha.2.2 u1 (1 / v) (by
        intro i x t hx ht
        have hi : i < nLaw := by
          by_contra hc
          rw [List.getElem?_eq_none (by simpa using hc)] at hx
          exact absurd hx (by simp)
        rw [List.getElem?_map, List.getElem?_range hi] at hx ht
        rw [← Option.some.inj hx, ← Option.some.inj ht]
        rw [abscissa_constant, smul_eq_mul]
        field_simp
        ring)
    have e : c = c' := by
      unfold absCurv at ec'
      rw [range_list hnl, R_bind_ok, abscissae_range (l := fun a b => v * (b - a)) (s := Spec.sample u1 u2 nLaw) (n := nLaw) (by omega) fun j hj =>
        hlen _ _ (sample_mem h12.le hnl (by omega)).1 (sample_lt h12 hnl (by omega)) (sample_mem h12.le hnl (by omega)).2, R_bind_ok, List.length_map,
        List.length_range] at ec'
      exact Except.ok.inj (ec.symm.trans ec')
    subst e
    intro m hm0 hm1 junk
    rw [hval m (by rw [h0]; exact hm0) (by rw [h1]; exact hm1) junk, smul_eq_mul, mul_one_div]
  refine ⟨law p hp1 hp, fun hn => ?_⟩
  obtain ⟨c, us, ec, hl, hf, hlast, hin, hu⟩ := (C104_params ha h12 hlen hmov crv hnl (n := n)).1 hn
  obtain ⟨c', ec', h0, h1, hval⟩ := law 3 (by omega) (le_trans (min_le_left _ _) (by decide))
  obtain rfl := Except.ok.inj (ec.symm.trans ec')
  have hn' : (0 : K) < (n : K) - 1 := by
    have : (2 : K) ≤ n := by exact_mod_cast hn
    linarith
  have e : us = (List.range n).map (Spec.sample u1 u2 n) := by
    refine List.ext_getElem? fun i => ?_
    rcases Nat.lt_or_ge i n with h | h
    · rw [List.getElem?_map, List.getElem?_range h]
      rcases Nat.eq_zero_or_pos i with rfl | hi
      · rw [hf, Option.map_some, sample_first]
      · rcases Nat.lt_or_ge i (n - 1) with h' | h'
        · obtain ⟨j, rfl⟩ : ∃ j, i = j + 1 := ⟨i - 1, by omega⟩
          obtain ⟨t, ht, hvt⟩ := hin j (by omega)
          have hj : ((j : K) + 1) ≤ (n : K) - 1 := by
            have : ((j + 1 : ℕ) : K) ≤ ((n - 1 : ℕ) : K) := by exact_mod_cast (by omega : j + 1 ≤ n - 1)
            rwa [Nat.cast_sub (by omega), Nat.cast_one, Nat.cast_add, Nat.cast_one] at this
          have hpos : 0 < v * (u2 - u1) := mul_pos hv (by linarith)
          rw [h1, hval _ (by positivity) (by rw [mul_div_assoc', div_le_iff₀ hn']; nlinarith)] at hvt
          rw [ht, ← Except.ok.inj hvt, Option.map_some, Spec.sample]
          congr 1
          push_cast
          field_simp
        · obtain rfl : i = n - 1 := by omega
          rw [hlast, Option.map_some, sample_last hn]
    · rw [List.getElem?_eq_none (by omega), List.getElem?_eq_none (by simpa using h)]
  rw [hu, e, if_pos]
  exact (range_sorted fun i j hij _ => sample_lt h12 hn hij).imp le_of_lt

/-! ## Adaptive discretization -/

theorem adaptivePass_range {len : K → K → R K} {l : K → K → K} {s : ℕ → K} {tol : K} : ∀ (n a : ℕ), 1 ≤ n →
    (∀ j, a ≤ j → j + 1 < a + n → len (s j) ((1 / 2) * (s j + s (j + 1))) = .ok (l (s j) ((1 / 2) * (s j + s (j + 1)))) ∧
      len ((1 / 2) * (s j + s (j + 1))) (s (j + 1)) = .ok (l ((1 / 2) * (s j + s (j + 1))) (s (j + 1))) ∧
      len (s j) (s (j + 1)) = .ok (l (s j) (s (j + 1)))) →
    ((∀ j, a ≤ j → j + 1 < a + n → needsPoint tol (l (s j) ((1 / 2) * (s j + s (j + 1)))) (l ((1 / 2) * (s j + s (j + 1))) (s (j + 1))) (l (s j) (s (j + 1))) = false) →
      adaptivePass len tol ((List.range' a n).map s) = .ok ()) ∧
    ((∃ j, a ≤ j ∧ j + 1 < a + n ∧ needsPoint tol (l (s j) ((1 / 2) * (s j + s (j + 1)))) (l ((1 / 2) * (s j + s (j + 1))) (s (j + 1))) (l (s j) (s (j + 1))) = true) →
      adaptivePass len tol ((List.range' a n).map s) = .error .oob)
  | 0, a, h, _ => by omega
  | 1, a, _, _ => ⟨fun _ => rfl, fun ⟨j, h1, h2, _⟩ => by omega⟩
  | n + 2, a, _, h => by
    have ih := adaptivePass_range (tol := tol) (n + 1) (a + 1) (by omega) fun j h1 h2 => h j (by omega) (by omega)
    obtain ⟨e1, e2, e3⟩ := h a le_rfl (by omega)
    have step : adaptivePass len tol ((List.range' a (n + 2)).map s) =
        if needsPoint tol (l (s a) ((1 / 2) * (s a + s (a + 1)))) (l ((1 / 2) * (s a + s (a + 1))) (s (a + 1))) (l (s a) (s (a + 1))) then .error .oob
        else adaptivePass len tol ((List.range' (a + 1) (n + 1)).map s) := by
      rw [List.range'_succ, List.map_cons, List.range'_succ, List.map_cons, adaptivePass]
      simp only [e1, e2, e3, R_bind_ok]
    constructor
    · intro hno
      rw [step, hno a le_rfl (by omega), if_neg (by decide)]
      exact ih.1 fun j h1 h2 => hno j (by omega) (by omega)
    · rintro ⟨j, h1, h2, hj⟩
      rw [step]
      by_cases ha : needsPoint tol (l (s a) ((1 / 2) * (s a + s (a + 1)))) (l ((1 / 2) * (s a + s (a + 1))) (s (a + 1))) (l (s a) (s (a + 1))) = true
      · rw [if_pos ha]
      · rw [if_neg ha]
        rcases Nat.eq_or_lt_of_le h1 with rfl | h1
        · exact absurd hj ha
        · exact ih.2 ⟨j, by omega, by omega, hj⟩

/-- The interval `i` of the samples has to be cut: the sum of the lengths of its halves differs from its length by more than the tolerance, relatively. -/
def Spec.Rough (l : K → K → K) (tol u1 u2 : K) (n i : ℕ) : Prop :=
  tol * l (Spec.sample u1 u2 n i) (Spec.sample u1 u2 n (i + 1)) <
    |l (Spec.sample u1 u2 n i) ((Spec.sample u1 u2 n i + Spec.sample u1 u2 n (i + 1)) / 2) +
      l ((Spec.sample u1 u2 n i + Spec.sample u1 u2 n (i + 1)) / 2) (Spec.sample u1 u2 n (i + 1)) - l (Spec.sample u1 u2 n i) (Spec.sample u1 u2 n (i + 1))|

theorem needsPoint_iff {tol a b c : K} (hc : 0 < c) : needsPoint tol a b c = true ↔ tol * c < |a + b - c| := by
  rw [needsPoint, if_neg hc.ne', decide_eq_true_iff, lt_div_iff₀ hc]

/-- **C104** (false of the code): the adaptive discretization returns the regular samples and their abscissae when no interval has to be cut. When one has to be, an
iterator invalidated by the insertion is used: undefined. -/
theorem C104_adaptive_partial {len : K → K → R K} {l : K → K → K} {u1 u2 : K} (h12 : u1 < u2) (hlen : Spec.Lengths len l u1 u2) (hmov : Spec.Moving l u1 u2) {n : ℕ} (tol : K) :
    (2 ≤ n → (∀ i, i + 1 < n → ¬ Spec.Rough l tol u1 u2 n i) →
      adaptiveTable len u1 u2 n tol = .ok ((List.range n).map (Spec.sample u1 u2 n), (List.range n).map (Spec.abscissa l (Spec.sample u1 u2 n)))) ∧
    (2 ≤ n → (∃ i, i + 1 < n ∧ Spec.Rough l tol u1 u2 n i) → adaptiveTable len u1 u2 n tol = .error .oob) ∧
    (n < 2 → adaptiveTable len u1 u2 n tol = .error (.thrown .length)) := by
  have mids : ∀ i, (1 / 2 : K) * (Spec.sample u1 u2 n i + Spec.sample u1 u2 n (i + 1)) = (Spec.sample u1 u2 n i + Spec.sample u1 u2 n (i + 1)) / 2 := fun i => by ring
  have hall : 2 ≤ n → ∀ j, 0 ≤ j → j + 1 < 0 + n →
      len (Spec.sample u1 u2 n j) ((1 / 2) * (Spec.sample u1 u2 n j + Spec.sample u1 u2 n (j + 1))) =
        .ok (l (Spec.sample u1 u2 n j) ((1 / 2) * (Spec.sample u1 u2 n j + Spec.sample u1 u2 n (j + 1)))) ∧
      len ((1 / 2) * (Spec.sample u1 u2 n j + Spec.sample u1 u2 n (j + 1))) (Spec.sample u1 u2 n (j + 1)) =
        .ok (l ((1 / 2) * (Spec.sample u1 u2 n j + Spec.sample u1 u2 n (j + 1))) (Spec.sample u1 u2 n (j + 1))) ∧
      len (Spec.sample u1 u2 n j) (Spec.sample u1 u2 n (j + 1)) = .ok (l (Spec.sample u1 u2 n j) (Spec.sample u1 u2 n (j + 1))) := by
    intro hn j _ hj
    have m1 := sample_mem h12.le hn (i := j) (by omega)
    have m2 := sample_mem h12.le hn (i := j + 1) (by omega)
    have lt := sample_lt h12 hn (Nat.lt_succ_self j)
    have m1' : u1 ≤ Spec.sample u1 u2 n j := m1.1
    have m2' : Spec.sample u1 u2 n (j + 1) ≤ u2 := m2.2
    rw [mids]
    exact ⟨hlen _ _ m1' (by linarith) (by linarith), hlen _ _ (by linarith) (by linarith) m2', hlen _ _ m1' lt m2'⟩
  have hpos : 2 ≤ n → ∀ j, j + 1 < n → 0 < l (Spec.sample u1 u2 n j) (Spec.sample u1 u2 n (j + 1)) := fun hn j hj =>
    hmov _ _ (sample_mem h12.le hn (by omega)).1 (sample_lt h12 hn (Nat.lt_succ_self j)) (sample_mem h12.le hn (by omega)).2
  refine ⟨fun hn hno => ?_, fun hn => ?_, fun hn => ?_⟩
  · unfold adaptiveTable
    rw [range_list hn, R_bind_ok, List.range_eq_range', (adaptivePass_range n 0 (by omega) (hall hn)).1 (by
      intro j _ hj
      rw [← Bool.not_eq_true, needsPoint_iff (hpos hn j (by omega)), mids]
      exact hno j (by omega)), R_bind_ok, ← List.range_eq_range', abscissae_range (l := l) (s := Spec.sample u1 u2 n) (n := n) (by omega) fun j hj =>
        (hall hn j (by omega) (by omega)).2.2, R_bind_ok]
    rfl
  · rintro ⟨i, hi, hr⟩
    unfold adaptiveTable
    rw [range_list hn, R_bind_ok, List.range_eq_range', (adaptivePass_range n 0 (by omega) (hall hn)).2
      ⟨i, by omega, by omega, by rw [needsPoint_iff (hpos hn i hi), mids]; exact hr⟩]
    rfl
  · unfold adaptiveTable
    rw [(C33_make_range u1 u2 n).1 hn]
    rfl

/-- **C104** (false of the code): with exact lengths no interval has to be cut, however curved the curve is: the discretization never adapts, and `abs_curv_adaptive` is
`abs_curv`. -/
theorem C104_never_adapts {a : InterpArgs K} {len : K → K → R K} {l : K → K → K} {u1 u2 : K} (h12 : u1 < u2) (hlen : Spec.Lengths len l u1 u2)
    (hmov : Spec.Moving l u1 u2) (hadd : Spec.Additive l u1 u2) {n p : ℕ} {tol : K} (ht : 0 ≤ tol) (hn : 2 ≤ n) :
    adaptiveTable len u1 u2 n tol = .ok ((List.range n).map (Spec.sample u1 u2 n), (List.range n).map (Spec.abscissa l (Spec.sample u1 u2 n))) ∧
    absCurvAdaptive a len u1 u2 n p tol = absCurv a len u1 u2 n p := by
  have e := (C104_adaptive_partial h12 hlen hmov (n := n) tol).1 hn (by
    intro i hi hr
    have m1 : u1 ≤ Spec.sample u1 u2 n i := (sample_mem h12.le hn (i := i) (by omega)).1
    have m2 : Spec.sample u1 u2 n (i + 1) ≤ u2 := (sample_mem h12.le hn (i := i + 1) (by omega)).2
    have lt := sample_lt h12 hn (Nat.lt_succ_self i)
    unfold Spec.Rough at hr
    rw [hadd _ _ _ m1 (by linarith) (by linarith) m2, sub_self, abs_zero] at hr
    exact absurd hr (not_lt.mpr (mul_nonneg ht (hmov _ _ m1 lt m2).le)))
  refine ⟨e, ?_⟩
  unfold absCurvAdaptive absCurv
  rw [e, R_bind_ok, range_list hn, R_bind_ok, abscissae_range (l := l) (s := Spec.sample u1 u2 n) (n := n) (by omega) fun j hj =>
    hlen _ _ (sample_mem h12.le hn (by omega)).1 (sample_lt h12 hn (by omega)) (sample_mem h12.le hn (by omega)).2, R_bind_ok]

/-- **C104** (partial: no interval has to be cut): `curve_length_function` gives the abscissa from the parameter at the samples, between the bounds. -/
theorem C104_length_function_partial {a : InterpArgs K} (ha : Spec.InterpOk a) {len : K → K → R K} {l : K → K → K} {u1 u2 : K} (h12 : u1 < u2)
    (hlen : Spec.Lengths len l u1 u2) (hmov : Spec.Moving l u1 u2) {n p : ℕ} {tol : K} (hno : ∀ i, i + 1 < n → ¬ Spec.Rough l tol u1 u2 n i) (hp1 : 1 ≤ p)
    (hp : min p (n - 1) ≤ stackMaxDegree) (hn : 2 ≤ n) :
    ∃ c, curveLengthFunction a len u1 u2 n p tol = .ok c ∧ c.Good ∧ c.deg = min p (n - 1) ∧ c.b0 = u1 ∧ c.b1 = u2 ∧
      ∀ i, i < n → ∀ junk, c.value a.eps junk (Spec.sample u1 u2 n i) 0 = .ok (Spec.abscissa l (Spec.sample u1 u2 n) i) := by
  obtain ⟨c, ec, hg, hd, -, hb0, hb1, hv⟩ := C36_interpolate_points ha.1 ha.2.1 a.growth a.junk a.x0 (p := min p (n - 1)) (by omega) hp
    (Q := (List.range n).map (Spec.abscissa l (Spec.sample u1 u2 n))) (u := (List.range n).map (Spec.sample u1 u2 n)) (by simp) (by simp; omega)
    (range_sorted fun i j hij hj => sample_lt h12 hn hij) ha.2.2
  refine ⟨c, ?_, hg, hd, ?_, ?_, ?_⟩
  · unfold curveLengthFunction
    rw [(C104_adaptive_partial h12 hlen hmov (n := n) tol).1 hn hno, R_bind_ok]
    dsimp only
    rw [List.length_map, List.length_range]
    exact ec
  · rw [List.head?_eq_getElem?, List.getElem?_map, List.getElem?_range (by omega)] at hb0
    exact (Option.some.inj hb0).trans (sample_first _ _ _)
  · rw [List.getLast?_eq_getElem?, List.getElem?_map, List.length_map, List.length_range, List.getElem?_range (by omega)] at hb1
    exact (Option.some.inj hb1).trans (sample_last hn)
  · intro i hi junk
    refine hv i _ _ ?_ ?_ junk <;> rw [List.getElem?_map, List.getElem?_range hi] <;> rfl

/-! ## Points spread uniformly -/

/-- **C104**: points spread uniformly: the values of the curve at the parameters spread uniformly, which are between its bounds; or the function throws. -/
theorem C104_discretize {a : InterpArgs K} (ha : Spec.InterpOk a) {len : K → K → R K} {l : K → K → K} {crv : ACurve K V} (h12 : crv.b0 < crv.b1)
    (hlen : Spec.Lengths len l crv.b0 crv.b1) (hmov : Spec.Moving l crv.b0 crv.b1) (hv : ∀ t, crv.b0 ≤ t → t ≤ crv.b1 → ∃ P, crv.value t 0 = .ok P) {n : ℕ} :
    (2 ≤ n → discretizeUniform a len crv n = .error (.thrown .length) ∨
      ∃ us pts, uniformParams a len crv crv.b0 crv.b1 n 30 = .ok us ∧ discretizeUniform a len crv n = .ok pts ∧ pts.length = n ∧
        List.Forall₂ (fun t P => crv.b0 ≤ t ∧ t ≤ crv.b1 ∧ crv.value t 0 = .ok P) us pts) ∧
    (n < 2 → discretizeUniform a len crv n = .error .oob) := by
  constructor
  · intro hn
    obtain ⟨c, us, -, hl, hf, hlast, -, hu⟩ := (C104_params ha h12 hlen hmov crv (n := n) (nLaw := 30) (by decide)).1 hn
    split at hu
    · rename_i hs
      right
      have hmem : ∀ t ∈ us, crv.b0 ≤ t ∧ t ≤ crv.b1 := by
        intro t ht
        obtain ⟨i, hi, rfl⟩ := List.mem_iff_getElem.mp ht
        obtain ⟨h0, e0⟩ := List.getElem?_eq_some_iff.mp hf
        obtain ⟨h1, e1⟩ := List.getElem?_eq_some_iff.mp hlast
        have mono := List.pairwise_iff_getElem.mp hs
        constructor
        · rcases Nat.eq_zero_or_pos i with rfl | h
          · exact e0.ge
          · rw [← e0]
            exact mono 0 i h0 hi h
        · rcases Nat.eq_or_lt_of_le (show i ≤ n - 1 by omega) with rfl | h
          · exact e1.le
          · rw [← e1]
            exact mono i (n - 1) hi h1 h
      have hpts : ∀ us : List K, (∀ t ∈ us, crv.b0 ≤ t ∧ t ≤ crv.b1) → ∃ pts, us.mapM (fun t => crv.value t 0) = .ok pts ∧ pts.length = us.length ∧
          List.Forall₂ (fun t P => crv.b0 ≤ t ∧ t ≤ crv.b1 ∧ crv.value t 0 = .ok P) us pts := by
        intro us
        induction us with
        | nil => intro _; exact ⟨[], rfl, rfl, .nil⟩
        | cons t us ih =>
          intro h
          obtain ⟨pts, e, hl, hF⟩ := ih fun t ht => h t (by simp [ht])
          obtain ⟨h0, h1⟩ := h t (by simp)
          obtain ⟨P, hP⟩ := hv t h0 h1
          refine ⟨P :: pts, ?_, by simp [hl], .cons ⟨h0, h1, hP⟩ hF⟩
          rw [List.mapM_cons, hP, R_bind_ok, e, R_bind_ok]
          rfl
      obtain ⟨pts, e, hl', hF⟩ := hpts us hmem
      refine ⟨us, pts, hu, ?_, by rw [hl', hl], hF⟩
      unfold discretizeUniform
      rw [hu, R_bind_ok, e]
    · left
      unfold discretizeUniform
      rw [hu]
      rfl
  · intro hn
    unfold discretizeUniform
    rw [(C104_params ha h12 hlen hmov crv (n := n) (nLaw := 30) (by decide)).2 hn]
    rfl

end Gbs

namespace Gbs

/-! ## Lengths of curves of the real plane or space -/

section real

variable {n : ℕ}

/-- The speed of a curve of derivative `P1`. -/
noncomputable def Spec.speed (P1 : ℝ → Fin n → ℝ) (t : ℝ) : ℝ := Real.sqrt (∑ i, P1 t i ^ 2)

/-- An exact quadrature. -/
def Spec.Integrates (quad : (ℝ → R ℝ) → ℝ → ℝ → R ℝ) : Prop :=
  ∀ (f : ℝ → R ℝ) (F : ℝ → ℝ) (a b : ℝ), a ≤ b → ContinuousOn F (Set.Icc a b) → (∀ t, a ≤ t → t ≤ b → f t = .ok (F t)) → quad f a b = .ok (∫ t in a..b, F t)

theorem vnorm_speed (P1 : ℝ → Fin n → ℝ) (t : ℝ) : vnorm Real.sqrt (P1 t) = Spec.speed P1 t := by
  rw [vnorm, Spec.speed, sqNorm]
  congr 1
  exact Finset.sum_congr rfl fun i _ => by rw [pow_two]

theorem speed_continuousOn {P1 : ℝ → Fin n → ℝ} {s : Set ℝ} (h : ContinuousOn P1 s) : ContinuousOn (Spec.speed P1) s := by
  unfold Spec.speed
  refine ContinuousOn.sqrt (continuousOn_finsetSum _ fun i _ => ?_)
  exact (continuousOn_pi.mp h i).pow 2

theorem speed_pos {P1 : ℝ → Fin n → ℝ} {t : ℝ} (h : P1 t ≠ 0) : 0 < ∑ i, P1 t i ^ 2 := by
  obtain ⟨i, hi⟩ : ∃ i, P1 t i ≠ 0 := by
    by_contra hc
    push Not at hc
    exact h (funext hc)
  exact Finset.sum_pos' (fun i _ => sq_nonneg _) ⟨i, Finset.mem_univ i, by positivity⟩

/-- **C104**: with an exact quadrature, `length` gives the integral of the speed; these lengths add up, and are positive when the speed does not vanish. -/
theorem C104_length {quad : (ℝ → R ℝ) → ℝ → ℝ → R ℝ} (hq : Spec.Integrates quad) {c : ACurve ℝ (Fin n → ℝ)} {P1 : ℝ → Fin n → ℝ}
    (hv : ∀ t, c.b0 ≤ t → t ≤ c.b1 → c.value t 1 = .ok (P1 t)) (hc : ContinuousOn P1 (Set.Icc c.b0 c.b1)) :
    Spec.Lengths (fun a b => lengthD Real.sqrt quad c a b 0) (fun a b => ∫ t in a..b, Spec.speed P1 t) c.b0 c.b1 ∧
    Spec.Additive (fun a b => ∫ t in a..b, Spec.speed P1 t) c.b0 c.b1 ∧
    ((∀ t, c.b0 ≤ t → t ≤ c.b1 → P1 t ≠ 0) → Spec.Moving (fun a b => ∫ t in a..b, Spec.speed P1 t) c.b0 c.b1) := by
  have hs := speed_continuousOn hc
  have hint : ∀ a b, c.b0 ≤ a → a ≤ b → b ≤ c.b1 → IntervalIntegrable (Spec.speed P1) MeasureTheory.volume a b := by
    intro a b h1 h2 h3
    refine (hs.mono ?_).intervalIntegrable
    rw [Set.uIcc_of_le h2]
    exact Set.Icc_subset_Icc h1 h3
  refine ⟨?_, ?_, ?_⟩
  · intro a b h1 h2 h3
    refine hq _ _ a b h2.le (hs.mono (Set.Icc_subset_Icc h1 h3)) fun t ht1 ht2 => ?_
    rw [hv t (by linarith) (by linarith), R_bind_ok, vnorm_speed]
    rfl
  · intro x y z h1 h2 h3 h4
    exact intervalIntegral.integral_add_adjacent_intervals (hint x y h1 h2.le (by linarith)) (hint y z (by linarith) h3.le h4)
  · intro hne a b h1 h2 h3
    refine intervalIntegral.intervalIntegral_pos_of_pos_on (hint a b h1 h2.le h3) (fun t ht => ?_) h2
    exact Real.sqrt_pos.mpr (speed_pos (hne t (by linarith [ht.1]) (by linarith [ht.2])))

/-- **C104**: the derivatives of `length` with respect to the end: of order 1, the speed, is the derivative of the length; of order 2 is the derivative of the speed
where it does not vanish, and divides by zero where it does. The other ones throw. -/
theorem C104_length_derivatives (quad : (ℝ → R ℝ) → ℝ → ℝ → R ℝ) {c : ACurve ℝ (Fin n → ℝ)} {P1 : ℝ → Fin n → ℝ}
    (hv : ∀ t, c.b0 ≤ t → t ≤ c.b1 → c.value t 1 = .ok (P1 t)) (hc : ContinuousOn P1 (Set.Icc c.b0 c.b1)) {u1 u2 : ℝ} (h1 : c.b0 ≤ u1 ∧ u1 ≤ c.b1)
    (h2 : c.b0 < u2 ∧ u2 < c.b1) :
    (∃ s, lengthD Real.sqrt quad c u1 u2 1 = .ok s ∧ HasDerivAt (fun u => ∫ t in u1..u, Spec.speed P1 t) s u2) ∧
    (∀ P2, c.value u2 2 = .ok P2 → HasDerivAt P1 P2 u2 → (P1 u2 ≠ 0 → ∃ k, lengthD Real.sqrt quad c u1 u2 2 = .ok k ∧ HasDerivAt (Spec.speed P1) k u2) ∧
      (P1 u2 = 0 → lengthD Real.sqrt quad c u1 u2 2 = .error .divZero)) ∧
    ∀ d, 2 < d → lengthD Real.sqrt quad c u1 u2 d = .error (.thrown .runtime) := by
  have hs := speed_continuousOn hc
  refine ⟨⟨Spec.speed P1 u2, ?_, ?_⟩, ?_, ?_⟩
  · simp only [lengthD]
    rw [hv u2 h2.1.le h2.2.le, R_bind_ok, vnorm_speed]
    rfl
  · refine intervalIntegral.integral_hasDerivAt_right ?_ ?_ ?_
    · refine (hs.mono ?_).intervalIntegrable
      exact Set.uIcc_subset_Icc ⟨h1.1, h1.2⟩ ⟨h2.1.le, h2.2.le⟩
    · exact ContinuousOn.stronglyMeasurableAtFilter isOpen_Ioo (hs.mono Set.Ioo_subset_Icc_self) u2 ⟨h2.1, h2.2⟩
    · exact hs.continuousAt (Icc_mem_nhds h2.1 h2.2)
  · intro P2 hP2 hd
    have hsq : HasDerivAt (fun t => ∑ i, P1 t i ^ 2) (2 * dotV (P1 u2) P2) u2 := by
      have := HasDerivAt.fun_sum (u := Finset.univ) (A := fun i t => P1 t i ^ 2) (A' := fun i => 2 * (P1 u2 i * P2 i)) (x := u2) fun i _ => by
        have := ((hasDerivAt_pi.mp hd) i).fun_pow 2
        refine this.congr_deriv ?_
        push_cast
        ring
      refine this.congr_deriv ?_
      rw [dotV, Finset.mul_sum]
    constructor
    · intro hne
      have hpos := speed_pos hne
      refine ⟨dotV (P1 u2) P2 / Spec.speed P1 u2, ?_, ?_⟩
      · simp only [lengthD]
        rw [hv u2 h2.1.le h2.2.le, R_bind_ok, hP2, R_bind_ok, vnorm_speed, fdiv_ok (show Spec.speed P1 u2 ≠ 0 from (Real.sqrt_pos.mpr hpos).ne')]
      · refine (hsq.sqrt hpos.ne').congr_deriv ?_
        rw [Spec.speed]
        exact mul_div_mul_left _ _ two_ne_zero
    · intro h0
      simp only [lengthD]
      rw [hv u2 h2.1.le h2.2.le, R_bind_ok, hP2, R_bind_ok, vnorm_speed, fdiv, if_pos]
      rw [Spec.speed, h0]
      simp
  · intro d hd
    obtain ⟨e, rfl⟩ : ∃ e, d = e + 3 := ⟨d - 3, by omega⟩
    rfl

end real

/-! ## Witnesses -/

/-- The abscissa along a segment run at the speed 12, then 3, then 12. -/
def slowMiddle (u : ℚ) : ℚ := if u ≤ 1 / 3 then 12 * u else if u ≤ 2 / 3 then 4 + (u - 1 / 3) * 3 else 5 + (u - 2 / 3) * 12

theorem slowMiddle_lt {x y : ℚ} (h : x < y) : slowMiddle x < slowMiddle y := by
  unfold slowMiddle
  split_ifs <;> linarith

/-- **C104** (false of the code): the law is not increasing, nor between the bounds. Along a segment which is run more slowly in the middle, the parameter found for a
quarter of the length is negative, and the function that spreads the parameters throws. -/
theorem C104_not_increasing {V : Type} [AddCommGroup V] [Module ℚ V] {a : InterpArgs ℚ} (ha : Spec.InterpOk a) (crv : ACurve ℚ V) :
    Spec.Additive (fun x y => slowMiddle y - slowMiddle x) 0 1 ∧ Spec.Moving (fun x y => slowMiddle y - slowMiddle x) 0 1 ∧
    (∃ c t, absCurv a (fun x y => .ok (slowMiddle y - slowMiddle x)) 0 1 4 3 = .ok c ∧ c.b0 = 0 ∧ c.b1 = 9 ∧ c.value a.eps a.junk (9 / 4) 0 = .ok t ∧ t < 0) ∧
    uniformParams a (fun x y => .ok (slowMiddle y - slowMiddle x)) crv 0 1 5 4 = .error (.thrown .length) := by
  have hmov : Spec.Moving (fun x y => slowMiddle y - slowMiddle x) 0 1 := fun x y _ h _ => sub_pos.mpr (slowMiddle_lt h)
  have hlen : Spec.Lengths (fun x y => .ok (slowMiddle y - slowMiddle x)) (fun x y => slowMiddle y - slowMiddle x) 0 1 := fun _ _ _ _ _ => rfl
  have eS : (List.range 4).map (Spec.sample (0 : ℚ) 1 4) = [0, 1 / 3, 2 / 3, 1] := by norm_num [List.range_succ, Spec.sample]
  have eA : (List.range 4).map (Spec.abscissa (fun x y => slowMiddle y - slowMiddle x) (Spec.sample (0 : ℚ) 1 4)) = [0, 4, 5, 9] := by
    norm_num [List.range_succ, Spec.sample, Spec.abscissa, Finset.sum_range_succ, slowMiddle]
  obtain ⟨c, ec, hb0, hb1, hval⟩ := C104_polynomial ha.1 ha.2.1 a.growth a.junk a.x0 (p := 3) (by decide) (by decide) (Q := [0, 1 / 3, 2 / 3, 1]) (u := [0, 4, 5, 9])
    (by decide) (by decide) (by decide +kernel) ha.2.2 (fun k => if k = 1 then -(61 / 180) else if k = 2 then 3 / 20 else if k = 3 then -(1 / 90) else 0) (by
      intro i q t hq ht
      match i with
      | 0 | 1 | 2 | 3 =>
        simp only [List.getElem?_cons_zero, List.getElem?_cons_succ, Option.some.injEq] at hq ht
        subst hq ht
        norm_num [Finset.sum_range_succ]
      | i + 4 => simp at hq)
  simp only [List.head?_cons, Option.some.injEq] at hb0
  simp only [List.getLast?_cons_cons, List.getLast?_singleton, Option.some.injEq] at hb1
  have ec' : absCurv a (fun x y => .ok (slowMiddle y - slowMiddle x)) 0 1 4 3 = .ok c := by
    unfold absCurv
    rw [range_list (by decide), R_bind_ok, abscissae_range (l := fun x y => slowMiddle y - slowMiddle x) (s := Spec.sample 0 1 4) (n := 4) (by decide)
      fun _ _ => rfl, R_bind_ok, eS, eA]
    exact ec
  have hneg : (∑ k ∈ Finset.range (3 + 1), (9 / 4 : ℚ) ^ k • (if k = 1 then -(61 / 180) else if k = 2 then 3 / 20 else if k = 3 then -(1 / 90) else 0 : ℚ)) < 0 := by
    norm_num [Finset.sum_range_succ]
  have hv := hval (9 / 4) (by rw [hb0]; norm_num) (by rw [hb1]; norm_num) a.junk
  refine ⟨fun x y z _ _ _ _ => by ring, hmov, ⟨c, _, ec', hb0, hb1, hv, hneg⟩, ?_⟩
  obtain ⟨c', us, e, hl, hf, -, hin, hu⟩ := (C104_params ha one_pos hlen hmov crv (n := 5) (nLaw := 4) (by decide)).1 (by decide)
  obtain rfl := Except.ok.inj (e.symm.trans ec')
  rw [hu, if_neg]
  intro hs
  obtain ⟨t, ht, hvt⟩ := hin 0 (by decide)
  rw [hb1, show (((0 : ℕ) : ℚ) + 1) * (9 / (((5 : ℕ) : ℚ) - 1)) = 9 / 4 by norm_num, hv] at hvt
  obtain ⟨h0, e0⟩ := List.getElem?_eq_some_iff.mp hf
  obtain ⟨h1, e1⟩ := List.getElem?_eq_some_iff.mp ht
  have := List.pairwise_iff_getElem.mp hs 0 1 h0 h1 (by decide)
  rw [e0, e1, ← Except.ok.inj hvt] at this
  exact absurd this (not_le.mpr hneg)

theorem exists_interpOk : ∃ a : InterpArgs ℚ, Spec.InterpOk a := by
  obtain ⟨sparse, h⟩ := exists_solvesRegular (K := ℚ) (V := ℚ)
  exact ⟨⟨1 / 1000, 1 / 1000000, 10000, 7, 0, sparse⟩, by norm_num, by norm_num, h⟩

example : ∃ sparse c, interpolateCn (1 / 1000 : ℚ) (1 / 1000000) 10000 7 (0 : ℚ) sparse [0, 1, 9, 16] [0, 1, 3, 4] 2 = .ok c ∧ c.value (1 / 1000) 7 2 0 = .ok 4 := by
  obtain ⟨sparse, h⟩ := exists_solvesRegular (K := ℚ) (V := ℚ)
  obtain ⟨c, e, h0, h1, hv⟩ := C104_polynomial (eps := 1 / 1000) (meps := 1 / 1000000) (by norm_num) (by norm_num) (10000 : ℚ) 7 (0 : ℚ) (p := 2) (by decide) (by decide)
    (Q := [0, 1, 9, 16]) (u := [0, 1, 3, 4]) (by decide) (by decide) (by decide +kernel) h (fun k => if k = 2 then 1 else 0) (by
      intro i q t hq ht
      match i with
      | 0 | 1 | 2 | 3 =>
        simp only [List.getElem?_cons_zero, List.getElem?_cons_succ, Option.some.injEq] at hq ht
        subst hq ht
        norm_num [Finset.sum_range_succ]
      | i + 4 => simp at hq)
  simp only [List.head?_cons, Option.some.injEq] at h0
  simp only [List.getLast?_cons_cons, List.getLast?_singleton, Option.some.injEq] at h1
  refine ⟨sparse, c, e, ?_⟩
  rw [hv 2 (by rw [h0]; norm_num) (by rw [h1]; norm_num)]
  norm_num [Finset.sum_range_succ]

example : ∃ sparse c, interpolateCn (1 / 1000 : ℚ) (1 / 1000000) 10000 7 (0 : ℚ) sparse [1, 3, 7, 9] [0, 1, 3, 4] 3 = .ok c ∧ c.value (1 / 1000) 7 2 0 = .ok 5 := by
  obtain ⟨sparse, h⟩ := exists_solvesRegular (K := ℚ) (V := ℚ)
  obtain ⟨c, e, h0, h1, hv⟩ := C104_line (eps := 1 / 1000) (meps := 1 / 1000000) (by norm_num) (by norm_num) (10000 : ℚ) 7 (0 : ℚ) (p := 3) (by decide) (by decide)
    (Q := [1, 3, 7, 9]) (u := [0, 1, 3, 4]) (by decide) (by decide) (by decide +kernel) h 1 2 (by
      intro i q t hq ht
      match i with
      | 0 | 1 | 2 | 3 =>
        simp only [List.getElem?_cons_zero, List.getElem?_cons_succ, Option.some.injEq] at hq ht
        subst hq ht
        norm_num
      | i + 4 => simp at hq)
  simp only [List.head?_cons, Option.some.injEq] at h0
  simp only [List.getLast?_cons_cons, List.getLast?_singleton, Option.some.injEq] at h1
  refine ⟨sparse, c, e, ?_⟩
  rw [hv 2 (by rw [h0]; norm_num) (by rw [h1]; norm_num)]
  norm_num

theorem slow_lengths : Spec.Lengths (fun x y => .ok (slowMiddle y - slowMiddle x)) (fun x y => slowMiddle y - slowMiddle x) 0 1 := fun _ _ _ _ _ => rfl

theorem slow_moving : Spec.Moving (fun x y => slowMiddle y - slowMiddle x) 0 1 := fun _ _ _ h _ => sub_pos.mpr (slowMiddle_lt h)

theorem slow_additive : Spec.Additive (fun x y => slowMiddle y - slowMiddle x) 0 1 := fun _ _ _ _ _ _ _ => by ring

example : ∃ (a : InterpArgs ℚ) (c : Curve ℚ ℚ), absCurv a (fun x y => .ok (slowMiddle y - slowMiddle x)) 0 1 7 3 = .ok c ∧ c.deg = 3 ∧ c.b0 = 0 := by
  obtain ⟨a, ha⟩ := exists_interpOk
  obtain ⟨c, e, -, hd, h0, -⟩ := (C104_law ha one_pos slow_lengths slow_moving (n := 7) (p := 3) (by decide) (by decide)).1 (by decide)
  exact ⟨a, c, e, hd, h0⟩

example (a : InterpArgs ℚ) (ha : Spec.InterpOk a) : ∃ c : Curve ℚ ℚ, absCurv a (fun x y => .ok (slowMiddle y - slowMiddle x)) 0 1 5 3 = .ok c ∧ c.b1 = 9 ∧
    c.value a.eps 0 (9 / 2) 0 = .ok (1 / 2) := by
  obtain ⟨c, e, -, h1, -, hv⟩ := C104_law_exact ha one_pos slow_lengths slow_moving slow_additive (n := 5) (p := 3) (by decide) (by decide) (by decide)
  refine ⟨c, e, by rw [h1]; decide +kernel, ?_⟩
  have := hv 1 (by decide) 0
  rwa [show Spec.sample (0 : ℚ) 1 5 (1 + 1) = 1 / 2 by norm_num [Spec.sample], show slowMiddle (1 / 2) - slowMiddle 0 = 9 / 2 by norm_num [slowMiddle]] at this

example (a : InterpArgs ℚ) (ha : Spec.InterpOk a) : ∃ us, us.length = 5 ∧
    uniformParams a (fun x y => .ok (slowMiddle y - slowMiddle x)) (flatCurve 0) 0 1 5 4 = if us.Pairwise (· ≤ ·) then .ok us else .error (.thrown .length) := by
  obtain ⟨_, us, -, hl, -, -, -, e⟩ := (C104_params ha one_pos slow_lengths slow_moving (flatCurve (0 : ℚ)) (n := 5) (nLaw := 4) (by decide)).1 (by decide)
  exact ⟨us, hl, e⟩

example (a : InterpArgs ℚ) (ha : Spec.InterpOk a) : uniformParams a (fun x y => .ok (2 * (y - x))) (flatCurve 0) 0 1 3 30 = .ok [0, 1 / 2, 1] := by
  have := (C104_constant_speed ha (v := 2) two_pos one_pos (len := fun x y => .ok (2 * (y - x))) (fun _ _ _ _ _ => rfl) (flatCurve (0 : ℚ)) (n := 3) (nLaw := 30) (p := 3)
    (by decide) (by decide) (by decide)).2 (by decide)
  rw [this]
  norm_num [List.range_succ, Spec.sample]

example (a : InterpArgs ℚ) (ha : Spec.InterpOk a) : ∃ pts, discretizeUniform a (fun x y => .ok (y - x)) (flatCurve 0) 3 = .ok pts ∧ pts.length = 3 := by
  have hl : Spec.Lengths (K := ℚ) (fun x y => .ok (y - x)) (fun x y => 1 * (y - x)) 0 1 := fun x y _ _ _ => by simp only [one_mul]
  rcases (C104_discretize ha (crv := flatCurve (0 : ℚ)) one_pos hl (fun x y _ h _ => by simp only [one_mul]; exact sub_pos.mpr h) (fun _ _ _ => ⟨_, rfl⟩) (n := 3)).1 (by decide) with h | h
  · have := (C104_constant_speed ha (v := 1) one_pos one_pos hl (flatCurve (0 : ℚ)) (n := 3) (nLaw := 30) (p := 3) (by decide) (by decide) (by decide)).2 (by decide)
    unfold discretizeUniform at h
    rw [show (flatCurve (0 : ℚ)).b0 = 0 from rfl, show (flatCurve (0 : ℚ)).b1 = 1 from rfl, this, R_bind_ok, List.range_succ, List.range_succ, List.range_succ] at h
    exact absurd h (by simp [flatCurve, R_bind_ok, R_pure])
  · obtain ⟨-, pts, -, e, hl, -⟩ := h
    exact ⟨pts, e, hl⟩

example : adaptiveTable (fun x y => .ok ((y - x) + (y - x) ^ 2)) (0 : ℚ) 1 3 (1 / 100) = .error .oob := by
  refine (C104_adaptive_partial (l := fun x y => (y - x) + (y - x) ^ 2) one_pos (fun _ _ _ _ _ => rfl) (fun x y _ h _ => ?_) (n := 3) (1 / 100)).2.1 (by decide) ⟨0, by decide, ?_⟩
  · have : 0 < y - x := sub_pos.mpr h
    positivity
  · norm_num [Spec.Rough, Spec.sample, abs_of_neg]

example (a : InterpArgs ℚ) : adaptiveTable (fun x y => .ok (slowMiddle y - slowMiddle x)) (0 : ℚ) 1 3 (1 / 100) = .ok ([0, 1 / 2, 1], [0, 9 / 2, 9]) := by
  rw [(C104_never_adapts (a := a) one_pos slow_lengths slow_moving slow_additive (p := 3) (show (0 : ℚ) ≤ 1 / 100 by norm_num) (n := 3) (by decide)).1]
  norm_num [List.range_succ, Spec.sample, Spec.abscissa, Finset.sum_range_succ, slowMiddle]

example (a : InterpArgs ℚ) (ha : Spec.InterpOk a) : ∃ c : Curve ℚ ℚ, curveLengthFunction a (fun x y => .ok (slowMiddle y - slowMiddle x)) 0 1 5 3 (1 / 100) = .ok c ∧ c.b1 = 1 := by
  obtain ⟨c, e, -, -, -, h1, -⟩ := C104_length_function_partial ha one_pos slow_lengths slow_moving (n := 5) (p := 3) (tol := 1 / 100) (by
    intro i hi hr
    have lt := sample_lt (one_pos : (0 : ℚ) < 1) (n := 5) (by decide) (Nat.lt_succ_self i)
    unfold Spec.Rough at hr
    rw [sub_add_sub_cancel', sub_self, abs_zero] at hr
    have := slowMiddle_lt lt
    linarith) (by decide) (by decide) (by decide)
  exact ⟨c, e, h1⟩

/-- A circle of radius 3. -/
noncomputable def circle3 : ACurve ℝ (Fin 2 → ℝ) :=
  ⟨0, 1, fun u d => .ok (if d = 0 then ![3 * Real.cos u, 3 * Real.sin u] else if d = 1 then ![-(3 * Real.sin u), 3 * Real.cos u] else ![-(3 * Real.cos u), -(3 * Real.sin u)])⟩

theorem circle3_speed (t : ℝ) : Spec.speed (fun u => ![-(3 * Real.sin u), 3 * Real.cos u]) t = 3 := by
  rw [Spec.speed]
  simp only [Fin.sum_univ_two, Matrix.cons_val_zero, Matrix.cons_val_one]
  rw [show (-(3 * Real.sin t)) ^ 2 + (3 * Real.cos t) ^ 2 = 3 ^ 2 by nlinarith [Real.sin_sq_add_cos_sq t], Real.sqrt_sq (by norm_num)]

theorem circle3_continuous : Continuous fun u : ℝ => (![-(3 * Real.sin u), 3 * Real.cos u] : Fin 2 → ℝ) := by
  refine continuous_pi fun i => ?_
  fin_cases i
  · exact (continuous_const.mul Real.continuous_sin).neg
  · exact continuous_const.mul Real.continuous_cos

example (quad : (ℝ → R ℝ) → ℝ → ℝ → R ℝ) (hq : Spec.Integrates quad) : lengthD Real.sqrt quad circle3 0 (1 / 2) 0 = .ok (3 / 2) := by
  have := (C104_length hq (c := circle3) (P1 := fun u => ![-(3 * Real.sin u), 3 * Real.cos u]) (fun _ _ _ => rfl) circle3_continuous.continuousOn).1 0 (1 / 2) le_rfl (by norm_num)
    (show (1 / 2 : ℝ) ≤ 1 by norm_num)
  simp only [circle3_speed, intervalIntegral.integral_const, smul_eq_mul] at this
  rw [this]
  norm_num

example : ∃ quad, Spec.Integrates quad := by
  classical
  refine ⟨fun f a b => .ok (∫ t in a..b, (f t).toOption.getD 0), fun f F a b h _ hf => ?_⟩
  have e : ∫ t in a..b, (f t).toOption.getD 0 = ∫ t in a..b, F t := by
    refine intervalIntegral.integral_congr fun t ht => ?_
    rw [Set.uIcc_of_le h] at ht
    simp only [hf t ht.1 ht.2]
    rfl
  simp only [e]

example (quad : (ℝ → R ℝ) → ℝ → ℝ → R ℝ) : ∃ s, lengthD Real.sqrt quad circle3 0 (1 / 2) 1 = .ok s ∧ HasDerivAt (fun u => ∫ t in (0 : ℝ)..u,
    Spec.speed (fun u => ![-(3 * Real.sin u), 3 * Real.cos u]) t) s (1 / 2) :=
  (C104_length_derivatives quad (c := circle3) (P1 := fun u => ![-(3 * Real.sin u), 3 * Real.cos u]) (fun _ _ _ => rfl) circle3_continuous.continuousOn
    ⟨le_rfl, zero_le_one⟩ ⟨by norm_num [circle3], by norm_num [circle3]⟩).1

end Gbs
