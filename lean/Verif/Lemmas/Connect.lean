import Verif.Model.Connect
import Verif.Lemmas.Extend
import Verif.Lemmas.Shaping
import Verif.Props.Extend
import Verif.Props.InterpUnisolvent
import Verif.Props.Collocation

/-! # Curves given by their derivatives at the two ends -/

namespace Gbs

set_option linter.unusedSectionVars false

open Polynomial
open scoped BigOperators

variable {K : Type} [Field K] [LinearOrder K] [IsStrictOrderedRing K]
variable {V : Type} [AddCommGroup V] [Module K V]

/-- A curve whose derivatives up to the order `m` vanish at its clamped end has its `m + 1` last poles null. -/
theorem end_poles_zero {b : K} : ∀ (m p n : ℕ) {t : ℕ → K} (_ : Monotone t) (c : ℕ → V), m ≤ p → p ≤ n →
    (∀ j, n + 1 ≤ j → j < n + 1 + p → t j = b) → (∀ j, j ≤ n → t j < b) → t n < t (n + 1) →
    (∀ d, d ≤ m → spanDer t (n + 1) p n c d b = 0) → ∀ i, i ≤ m → c (n - i) = 0 := by
  intro m
  induction m with
  | zero =>
    intro p n t ht c _ hn hj _ hlt hz i hi
    obtain rfl : i = 0 := by omega
    have := spanDer_end ht c (n := n + 1) (p := p) (by omega) hj hlt
    rw [Nat.add_sub_cancel, hz 0 le_rfl] at this
    exact this.symm
  | succ m ih =>
    intro p n t ht c hm hn hj hbefore hlt hz
    obtain ⟨p, rfl⟩ : ∃ q, p = q + 1 := ⟨p - 1, by omega⟩
    obtain ⟨n, rfl⟩ : ∃ q, n = q + 1 := ⟨n - 1, by omega⟩
    have ht' : Monotone (fun j => t (j + 1)) := fun x y h => ht (by omega)
    have h0 : c (n + 1) = 0 := by
      have := spanDer_end ht c (n := n + 1 + 1) (p := p + 1) (by omega) hj hlt
      rw [Nat.add_sub_cancel, hz 0 (by omega)] at this
      exact this.symm
    have hd := ih p n ht' (derP t (p + 1) c) (by omega) (by omega) (fun j h1 h2 => hj (j + 1) (by omega) (by omega))
      (fun j h => hbefore (j + 1) (by omega)) hlt (fun d hd => by
        have := hz (d + 1) (by omega)
        rw [spanDer_succ ht (by omega) (by omega)] at this
        exact this)
    intro i
    induction i with
    | zero => intro _; exact h0
    | succ i ihi =>
      intro hi
      have h1 := derP_eq_zero (i := n - i) (by omega) ?_ (hd i (by omega))
      · rw [show n + 1 - (i + 1) = n - i by omega, ← h1, show n - i + 1 = n + 1 - i by omega]
        exact ihi (by omega)
      · rw [hj (n - i + (p + 1) + 1) (by omega) (by omega)]
        exact hbefore _ (by omega)

/-- A list of poles on clamped knots whose derivatives up to the orders `m` and `s` vanish at the ends. -/
theorem both_ends_zero {eps : K} (heps : 0 < eps) {k : List K} {a b : K} (hab : a < b) {n q m s : ℕ} (hq : q ≤ stackMaxDegree)
    (hU : KWf q k n) (hk0 : ∀ j, j ≤ q → kf k j = a) (hk1 : ∀ j, n ≤ j → kf k j = b) (hm : m ≤ q) (hs : s ≤ q) {P : List V}
    (hl : P.length = n) (hA : ∀ d, d ≤ m → evalValue eps 0 a k P q d = .ok 0) (hB : ∀ d, d ≤ s → evalValue eps 0 b k P q d = .ok 0) :
    (∀ i, i ≤ m → pf P i = 0) ∧ ∀ i, i ≤ s → pf P (n - 1 - i) = 0 := by
  have hmono := kf_mono hU.sorted
  have hmin := hU.min
  have hsp := fun d => ext_spans heps hab hq hU hk0 hk1 hl 0 d
  have hfirst : a < kf k (q + 1) := by rw [← hk0 q le_rfl]; exact hU.first
  have hlast : kf k (n - 1) < b := by rw [← hk1 n le_rfl]; exact hU.last
  constructor
  · refine start_poles_zero m q n hmono (pf P) hm (by omega) (fun j _ h => hk0 j h) hU.first (fun j hj => lt_of_lt_of_le hfirst (hmono hj)) ?_
    intro d hd
    have h := hA d hd
    rw [(hsp d).1] at h
    exact Except.ok.inj h
  · obtain ⟨N, rfl⟩ : ∃ N, n = N + 1 := ⟨n - 1, by omega⟩
    rw [Nat.add_sub_cancel] at hlast ⊢
    refine end_poles_zero s q N hmono (pf P) hs (by omega) (fun j h _ => hk1 j h) (fun j hj => lt_of_le_of_lt (hmono hj) hlast) ?_ ?_
    · rw [hk1 (N + 1) le_rfl]; exact hlast
    · intro d hd
      have h := hB d hd
      rw [(hsp d).2] at h
      exact Except.ok.inj h

theorem zero_of_pf {P : List K} {n : ℕ} (hl : P.length = n) (h : ∀ i, i < n → pf P i = 0) : ∀ y ∈ P, y = 0 := by
  intro y hy
  obtain ⟨i, hi, rfl⟩ := List.getElem_of_mem hy
  have := h i (by omega)
  unfold pf at this
  simpa [hi] using this

/-- The derivatives up to the orders `m` and `s` at the ends determine `m + s + 2` poles. -/
theorem ends_unisolvent {eps : K} (heps : 0 < eps) {k : List K} {a b : K} (hab : a < b) {n q m s : ℕ} (hq : q ≤ stackMaxDegree)
    (hU : KWf q k n) (hk0 : ∀ j, j ≤ q → kf k j = a) (hk1 : ∀ j, n ≤ j → kf k j = b) (hm : m ≤ q) (hs : s ≤ q) (hn : n ≤ m + s + 2)
    {cs : List (Constr K V)} (hA : ∀ d, d ≤ m → ∃ y, (⟨a, d, y⟩ : Constr K V) ∈ cs) (hB : ∀ d, d ≤ s → ∃ y, (⟨b, d, y⟩ : Constr K V) ∈ cs) :
    Spec.UnisolventC eps k q n cs := by
  intro P hl hz
  obtain ⟨z1, z2⟩ := both_ends_zero heps hab hq hU hk0 hk1 hm hs hl
    (fun d hd => by obtain ⟨y, hy⟩ := hA d hd; exact hz _ hy 0) (fun d hd => by obtain ⟨y, hy⟩ := hB d hd; exact hz _ hy 0)
  refine zero_of_pf hl fun i hi => ?_
  rcases Nat.lt_or_ge m i with h | h
  · have := z2 (n - 1 - i) (by omega)
    rwa [show n - 1 - (n - 1 - i) = i by omega] at this
  · exact z1 i h


/-- Parameters that are a permutation of the sorted ones are inserted as these. -/
theorem foldl_insert_sorted {vs w : List K} {b e : K} (hbe : b ≤ e) (hw : w.Pairwise (· ≤ ·)) (hp : w.Perm (vs ++ [b, e])) :
    vs.foldl insertOrdered [b, e] = w := by
  obtain ⟨h1, h2⟩ := foldl_insertOrdered (L := [b, e]) (by simpa using hbe) vs
  exact (h2.trans hp.symm).eq_of_pairwise (fun a b _ _ h h' => le_antisymm h h') h1 hw

/-- `interpolate` of two end points and constraints, for a given sorted list of the parameters: it is enough that the constraints determine the
poles on the knots that are the averages of these parameters. -/
theorem bounds_connect {eps : K} (heps : 0 < eps) (junk : K) {p : ℕ} (hp1 : 1 ≤ p) (hp : p ≤ stackMaxDegree) {b e : K × V}
    {cs : List (Constr K V)} (hn : p + 1 ≤ cs.length + 2) (hbe : b.1 < e.1) {w : List K} (hw : w.Pairwise (· ≤ ·))
    (hwp : w.Perm (cs.map Constr.u ++ [b.1, e.1])) (h0 : kf w 0 = b.1) (h1 : kf w (cs.length + 1) = e.1)
    (hc0 : (cs.map Constr.u).count b.1 + 1 ≤ p) (hc1 : (cs.map Constr.u).count e.1 + 1 ≤ p)
    (hfirst : kf w 0 < kf w p) (hlast : kf w (cs.length + 1 - p) < kf w (cs.length + 1))
    (hreg : ∀ k, KWf p k (cs.length + 2) → (∀ j, j ≤ p → kf k j = b.1) → (∀ j, cs.length + 2 ≤ j → kf k j = e.1) →
      (∀ j, 1 ≤ j → j < cs.length + 2 - p → kf k (p + j) = (∑ i ∈ Finset.range p, kf w (j + i)) / p) →
      Spec.UnisolventC eps k p (cs.length + 2) ((⟨b.1, 0, b.2⟩ : Constr K V) :: (cs ++ [⟨e.1, 0, e.2⟩])))
    {dense : ℕ → (ℕ → ℕ → K) → List V → R (List V)} (hS : Spec.SolvesDense dense) :
    ∃ c, interpolateBounds eps junk dense b e cs p = .ok c ∧ c.Good ∧ c.deg = p ∧ c.poles.length = cs.length + 2 ∧ c.b0 = b.1 ∧ c.b1 = e.1 ∧
      (∀ junk', c.value eps junk' b.1 0 = .ok b.2 ∧ c.value eps junk' e.1 0 = .ok e.2 ∧
        ∀ x ∈ cs, c.value eps junk' x.u x.d = .ok x.v) ∧
      (∀ j, j ≤ p → kf c.knots j = b.1) ∧ (∀ j, cs.length + 2 ≤ j → kf c.knots j = e.1) ∧
      (∀ j, 1 ≤ j → j < cs.length + 2 - p → kf c.knots (p + j) = (∑ i ∈ Finset.range p, kf w (j + i)) / p) := by
  have hlw : w.length = cs.length + 2 := by rw [hwp.length_eq]; simp
  have hin : ∀ x ∈ cs, b.1 ≤ x.u ∧ x.u ≤ e.1 := by
    intro x hx
    have hm : x.u ∈ w := hwp.mem_iff.mpr (List.mem_append_left _ (List.mem_map.mpr ⟨x, hx, rfl⟩))
    obtain ⟨i, hi, he⟩ := List.getElem_of_mem hm
    rw [← he, ← kf_of_lt hi, ← h0, ← h1]
    exact ⟨kf_mono hw (by omega), kf_mono hw (by omega)⟩
  have hu := foldl_insert_sorted hbe.le hw hwp
  obtain ⟨k, ek, hlk, hk0, hk1, hki, hwf⟩ := C54_averaged_knots_repeated (V := K) (p := p) (u := w) hp1 (by omega) hw hfirst
    (by rw [hlw, show cs.length + 2 - 1 - p = cs.length + 1 - p by omega]; exact hlast)
  rw [hlw] at hlk hk1 hki
  have hkk0 : ∀ j, j ≤ p → kf k j = b.1 := fun j hj => by
    have := hk0 j hj
    rw [kf_getElem? (by omega), kf_getElem? (by omega), h0] at this
    exact Option.some.inj this
  have hkk1' : ∀ j, cs.length + 2 ≤ j → j ≤ cs.length + 2 + p → kf k j = e.1 := fun j hj hj2 => by
    have := hk1 j (by omega) (by omega)
    rw [kf_getElem? (by omega), kf_getElem? (by omega), show cs.length + 2 - 1 = cs.length + 1 by omega, h1] at this
    exact Option.some.inj this
  have hkk1 : ∀ j, cs.length + 2 ≤ j → kf k j = e.1 := fun j hj => by
    rcases Nat.lt_or_ge (cs.length + 2 + p) j with h | h
    · rw [kf_of_ge (by omega), ← hkk1' (cs.length + 2 + p) (by omega) le_rfl, kf_of_lt (by omega), List.getLastD_eq_getLast?,
        List.getLast?_eq_getElem?, List.getElem?_eq_getElem (by omega)]
      simp only [Option.getD_some]
      congr 1
      omega
    · exact hkk1' j hj h
  have hkki : ∀ j, 1 ≤ j → j < cs.length + 2 - p → kf k (p + j) = (∑ i ∈ Finset.range p, kf w (j + i)) / p := fun j h h' => by
    have := hki j h h'
    rw [kf_getElem? (by omega)] at this
    exact Option.some.inj this
  obtain ⟨c, ec, hg, hd, hl, hb0, hb1, hv⟩ := C36_bounds_unisolvent heps junk hp1 hp hn hin hbe hc0 hc1 (by
    intro k' ek' hU _ _
    rw [hu, ek] at ek'
    obtain rfl := Except.ok.inj ek'
    exact hreg k hU hkk0 hkk1 hkki) hS
  have hck : c.knots = k := by
    have e2 := ec
    unfold interpolateBounds at e2
    rw [if_neg (by omega)] at e2
    dsimp only at e2
    rw [hu, ek, R_bind_ok] at e2
    obtain ⟨N, -, e2⟩ := R_bind_eq_ok.mp e2
    obtain ⟨P, -, e2⟩ := R_bind_eq_ok.mp e2
    exact (Curve.mk?_fields e2).2.2
  exact ⟨c, ec, hg, hd, hl, hb0, hb1, hv, by rw [hck]; exact hkk0, by rw [hck]; exact hkk1, by rw [hck]; exact hkki⟩


/-- The value of a curve at a parameter of a known span. -/
theorem Curve.value_at {eps : K} (heps : 0 < eps) {c : Curve K V} (h : c.Good) (hq : c.deg ≤ stackMaxDegree) {u : K} (h1 : c.b0 ≤ u) (h2 : u ≤ c.b1)
    {i : ℕ} (hi : Spec.InSpan (kf c.knots) (kf c.knots c.poles.length) i u) (junk : K) (d : ℕ) :
    c.value eps junk u d = .ok (spanDer (kf c.knots) c.poles.length c.deg i (pf c.poles) d u) := by
  obtain ⟨j, -, hj, -, -, hv⟩ := Curve.value_span heps h (Or.inl hq) h1 h2
  obtain rfl : j = i := InSpan_unique (kf_mono h.wf.sorted) hj hi
  exact hv junk d

/-- The two derivatives in the middle of the clamped cubic on three equal spans, by the derivatives at its ends. -/
theorem cubic_mid {t : ℕ → K} (ht : Monotone t) {a : K} (ha : 0 < a) (h1 : t 1 = 0) (h2 : t 2 = 0) (h3 : t 3 = 0) (h4 : t 4 = a / 3)
    (h5 : t 5 = 2 * a / 3) (h6 : t 6 = a) (h7 : t 7 = a) (h8 : t 8 = a) (P : ℕ → V) :
    spanDer t 6 3 4 P 1 (a / 2) = (9 / (4 * a)) • (spanDer t 6 3 5 P 0 a - spanDer t 6 3 3 P 0 0) -
      (5 / 8 : K) • (spanDer t 6 3 3 P 1 0 + spanDer t 6 3 5 P 1 a) + (a / 16) • (spanDer t 6 3 5 P 2 a - spanDer t 6 3 3 P 2 0) ∧
    spanDer t 6 3 4 P 2 (a / 2) = (3 / (2 * a)) • (spanDer t 6 3 5 P 1 a - spanDer t 6 3 3 P 1 0) -
      (1 / 4 : K) • (spanDer t 6 3 3 P 2 0 + spanDer t 6 3 5 P 2 a) := by
  have ht1 : Monotone (fun j => t (j + 1)) := fun x y h => ht (by omega)
  have ha' := ha.ne'
  simp only [spanDer_succ ht (show 3 ≤ 3 by omega) (show 3 < 6 by omega), spanDer_succ ht (show 3 ≤ 4 by omega) (show 4 < 6 by omega),
    spanDer_succ ht (show 3 ≤ 5 by omega) (show 5 < 6 by omega), spanDer_succ ht1 (show 2 ≤ 2 by omega) (show 2 < 5 by omega),
    spanDer_succ ht1 (show 2 ≤ 3 by omega) (show 3 < 5 by omega), spanDer_succ ht1 (show 2 ≤ 4 by omega) (show 4 < 5 by omega),
    Nat.add_one_sub_one]
  constructor
  · rw [spanDer_zero _ (by omega) (by omega), spanDer_zero _ (by omega) (by omega), spanDer_zero _ (by omega) (by omega),
      spanDer_zero _ (by omega) (by omega), spanDer_zero _ (by omega) (by omega), spanDer_zero _ (by omega) (by omega),
      spanDer_zero _ (by omega) (by omega)]
    simp [bl, dbStep, derP, List.replicate, h1, h2, h3, h4, h5, h6, h7, h8, ha']
    match_scalars <;> field_simp <;> ring
  · rw [spanDer_zero _ (by omega) (by omega), spanDer_zero _ (by omega) (by omega), spanDer_zero _ (by omega) (by omega),
      spanDer_zero _ (by omega) (by omega), spanDer_zero _ (by omega) (by omega)]
    simp [bl, dbStep, derP, List.replicate, h1, h2, h3, h4, h5, h6, h7, h8, ha']
    match_scalars <;> field_simp <;> ring

/-- The same for the clamped curve of degree 5 of `c3_connect`. -/
theorem quintic_mid {t : ℕ → K} (ht : Monotone t) {a : K} (ha : 0 < a) (h1 : t 1 = 0) (h2 : t 2 = 0) (h3 : t 3 = 0) (h4 : t 4 = 0)
    (h5 : t 5 = 0) (h6 : t 6 = 2 * a / 5) (h7 : t 7 = 3 * a / 5) (h8 : t 8 = a) (h9 : t 9 = a) (h10 : t 10 = a) (h11 : t 11 = a) (h12 : t 12 = a)
    (P : ℕ → V) :
    spanDer t 8 5 6 P 1 (a / 2) = (175 / (72 * a)) • (spanDer t 8 5 7 P 0 a - spanDer t 8 5 5 P 0 0) -
      (103 / 144 : K) • (spanDer t 8 5 5 P 1 0 + spanDer t 8 5 7 P 1 a) + (25 * a / 288) • (spanDer t 8 5 7 P 2 a - spanDer t 8 5 5 P 2 0) -
      (a ^ 2 / 216) • (spanDer t 8 5 5 P 3 0 + spanDer t 8 5 7 P 3 a) ∧
    spanDer t 8 5 6 P 2 (a / 2) = (35 / (18 * a)) • (spanDer t 8 5 7 P 1 a - spanDer t 8 5 5 P 1 0) -
      (17 / 36 : K) • (spanDer t 8 5 5 P 2 0 + spanDer t 8 5 7 P 2 a) + (a / 27) • (spanDer t 8 5 7 P 3 a - spanDer t 8 5 5 P 3 0) := by
  have ht1 : Monotone (fun j => t (j + 1)) := fun x y h => ht (by omega)
  have ht2 : Monotone (fun j => t (j + 1 + 1)) := fun x y h => ht (by omega)
  have ha' := ha.ne'
  simp only [spanDer_succ ht (show 5 ≤ 5 by omega) (show 5 < 8 by omega), spanDer_succ ht (show 5 ≤ 6 by omega) (show 6 < 8 by omega),
    spanDer_succ ht (show 5 ≤ 7 by omega) (show 7 < 8 by omega), spanDer_succ ht1 (show 4 ≤ 4 by omega) (show 4 < 7 by omega),
    spanDer_succ ht1 (show 4 ≤ 5 by omega) (show 5 < 7 by omega), spanDer_succ ht1 (show 4 ≤ 6 by omega) (show 6 < 7 by omega),
    spanDer_succ ht2 (show 3 ≤ 3 by omega) (show 3 < 6 by omega), spanDer_succ ht2 (show 3 ≤ 5 by omega) (show 5 < 6 by omega),
    Nat.add_one_sub_one]
  constructor
  · simp only [spanDer_zero _ (show 5 ≤ 5 by omega) (show 5 < 8 by omega), spanDer_zero _ (show 5 ≤ 7 by omega) (show 7 < 8 by omega),
      spanDer_zero _ (show 4 ≤ 5 by omega) (show 5 < 7 by omega), spanDer_zero _ (show 4 ≤ 4 by omega) (show 4 < 7 by omega),
      spanDer_zero _ (show 4 ≤ 6 by omega) (show 6 < 7 by omega), spanDer_zero _ (show 3 ≤ 3 by omega) (show 3 < 6 by omega),
      spanDer_zero _ (show 3 ≤ 5 by omega) (show 5 < 6 by omega), spanDer_zero _ (show 2 ≤ 2 by omega) (show 2 < 5 by omega),
      spanDer_zero _ (show 2 ≤ 4 by omega) (show 4 < 5 by omega)]
    simp [bl, dbStep, derP, List.replicate, h1, h2, h3, h4, h5, h6, h7, h8, h9, h10, h11, h12, ha']
    match_scalars <;> field_simp <;> ring
  · simp only [spanDer_zero _ (show 5 ≤ 5 by omega) (show 5 < 8 by omega), spanDer_zero _ (show 5 ≤ 7 by omega) (show 7 < 8 by omega),
      spanDer_zero _ (show 4 ≤ 5 by omega) (show 5 < 7 by omega), spanDer_zero _ (show 4 ≤ 4 by omega) (show 4 < 7 by omega),
      spanDer_zero _ (show 4 ≤ 6 by omega) (show 6 < 7 by omega), spanDer_zero _ (show 3 ≤ 3 by omega) (show 3 < 6 by omega),
      spanDer_zero _ (show 3 ≤ 4 by omega) (show 4 < 6 by omega),
      spanDer_zero _ (show 3 ≤ 5 by omega) (show 5 < 6 by omega), spanDer_zero _ (show 2 ≤ 2 by omega) (show 2 < 5 by omega),
      spanDer_zero _ (show 2 ≤ 4 by omega) (show 4 < 5 by omega)]
    simp [bl, dbStep, derP, List.replicate, h1, h2, h3, h4, h5, h6, h7, h8, h9, h10, h11, h12, ha']
    match_scalars <;> field_simp <;> ring

/-- With null first and last three poles, the two derivatives in the middle determine the two others. -/
theorem mid_c2_zero {t : ℕ → K} (ht : Monotone t) {a : K} (ha : 0 < a) (h3 : t 3 = 0) (h4 : t 4 = 0) (h5 : t 5 = a / 4)
    (h6 : t 6 = a / 2) (h7 : t 7 = 3 * a / 4) (h8 : t 8 = a) (h9 : t 9 = a) {P : ℕ → K} (z2 : P 2 = 0) (z5 : P 5 = 0) (z6 : P 6 = 0)
    (e1 : spanDer t 8 4 6 P 1 (a / 2) = 0) (e2 : spanDer t 8 4 6 P 2 (a / 2) = 0) : P 3 = 0 ∧ P 4 = 0 := by
  have ht1 : Monotone (fun j => t (j + 1)) := fun x y h => ht (by omega)
  rw [spanDer_succ ht (by omega) (by omega), spanDer_zero _ (by omega) (by omega)] at e1
  rw [spanDer_succ ht (by omega) (by omega), spanDer_succ ht1 (by omega) (by omega), spanDer_zero _ (by omega) (by omega)] at e2
  simp [bl, dbStep, derP, List.replicate, h3, h4, h5, h6, h7, h8, h9, z2, z5, z6] at e1 e2
  have ha' := ha.ne'
  field_simp at e1 e2
  ring_nf at e1 e2
  rcases e1 with e1 | e1
  · exact absurd e1 (by positivity)
  · rcases e2 with e2 | e2
    · exact absurd e2 (by positivity)
    · exact ⟨by linarith, by linarith⟩

/-- With null first and last four poles, the two derivatives in the middle determine the two others. -/
theorem mid_c3_zero {t : ℕ → K} (ht : Monotone t) {a : K} (ha : 0 < a) (h3 : t 3 = 0) (h4 : t 4 = 0) (h5 : t 5 = a / 8)
    (h6 : t 6 = a / 4) (h7 : t 7 = a / 2) (h8 : t 8 = 3 * a / 4) (h9 : t 9 = 7 * a / 8) (h10 : t 10 = a) (h11 : t 11 = a)
    {P : ℕ → K} (z3 : P 3 = 0) (z6 : P 6 = 0) (z7 : P 7 = 0)
    (e1 : spanDer t 10 4 7 P 1 (a / 2) = 0) (e2 : spanDer t 10 4 7 P 2 (a / 2) = 0) : P 4 = 0 ∧ P 5 = 0 := by
  have ht1 : Monotone (fun j => t (j + 1)) := fun x y h => ht (by omega)
  rw [spanDer_succ ht (by omega) (by omega), spanDer_zero _ (by omega) (by omega)] at e1
  rw [spanDer_succ ht (by omega) (by omega), spanDer_succ ht1 (by omega) (by omega), spanDer_zero _ (by omega) (by omega)] at e2
  simp [bl, dbStep, derP, List.replicate, h3, h4, h5, h6, h7, h8, h9, h10, h11, z3, z6, z7] at e1 e2
  have ha' := ha.ne'
  field_simp at e1 e2
  ring_nf at e1 e2
  rcases e1 with e1 | e1
  · exact absurd e1 (by positivity)
  · rcases e2 with e2 | e2
    · exact absurd e2 (by positivity)
    · exact ⟨by linarith, by linarith⟩

end Gbs
