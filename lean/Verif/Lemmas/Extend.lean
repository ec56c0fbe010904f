import Verif.Model.Extend
import Verif.Lemmas.EndPoles
import Verif.Props.InterpUnisolvent
import Verif.Props.Join

/-!
# The knots of an extension and the regularity of its system
-/

namespace Gbs

set_option linter.unusedSectionVars false

variable {K : Type} [Field K] [LinearOrder K] [IsStrictOrderedRing K]
variable {V : Type} [AddCommGroup V] [Module K V]

/-- The constraints of an extension when the curve can be evaluated. -/
theorem extConstraints_ok {ev : ℕ → R V} {x : ℕ → V} {u unew : K} {p : ℕ} (hp : 1 ≤ p) (natural : Bool) (mc : Option ℕ)
    (hx : ∀ i, i ≤ min (p - 1) (mc.getD p) → ev i = .ok (x i)) :
    extConstraints ev u unew p natural mc = .ok (((List.range (min (p - 1) (mc.getD p))).map fun i => (⟨u, i + 1, x (i + 1)⟩ : Constr K V)) ++
      if 2 < p ∧ natural = true then [⟨unew, 2, 0⟩] else []) := by
  obtain ⟨L, e, h⟩ := forLt_inv (S := List (Constr K V)) (a := 1) (b := min p (mc.getD p + 1)) (s := [])
    (fun k L => L = (List.range (k - 1)).map fun i => (⟨u, i + 1, x (i + 1)⟩ : Constr K V))
    (body := fun i cs => do
      let t ← ev i
      pure (cs ++ [⟨u, i, t⟩])) (by omega) (by simp) (by
      rintro i s h1 h2 rfl
      refine ⟨_, by rw [hx i (by omega), R_bind_ok]; rfl, ?_⟩
      obtain ⟨i, rfl⟩ : ∃ j, i = j + 1 := ⟨i - 1, by omega⟩
      simp [List.range_succ])
  unfold extConstraints
  rw [e, R_bind_ok, h, show min p (mc.getD p + 1) - 1 = min (p - 1) (mc.getD p) by omega]
  split <;> simp <;> rfl

/-- The sorted parameters of an extension. -/
theorem ext_params {u unew : K} (hu : u < unew) (m s : ℕ) {L : List K} (hL : L.Perm (List.replicate m u ++ List.replicate s unew)) :
    L.foldl insertOrdered [u, unew] = List.replicate (m + 1) u ++ List.replicate (s + 1) unew := by
  obtain ⟨h1, h2⟩ := foldl_insertOrdered (L := [u, unew]) (by simpa using hu.le) L
  apply List.Perm.eq_of_pairwise' (r := (· ≤ ·)) h1
  · rw [List.pairwise_append]
    refine ⟨List.pairwise_replicate.mpr (Or.inr le_rfl), List.pairwise_replicate.mpr (Or.inr le_rfl), ?_⟩
    intro a ha b hb
    rw [List.eq_of_mem_replicate ha, List.eq_of_mem_replicate hb]
    exact hu.le
  · refine h2.trans ((hL.append_right _).trans ?_)
    rw [List.perm_iff_count]
    intro a
    simp only [List.count_append, List.count_cons, List.count_replicate, List.count_nil]
    by_cases h1 : u = a
    · subst h1
      simp [hu.ne']
    · by_cases h2 : unew = a
      · subst h2; simp [hu.ne]
      · simp [h1, h2]

/-- The knots of an extension: a clamped vector, without interior knot or with one simple interior knot. -/
theorem ext_knots {eps : K} (heps : 0 < eps) {u unew : K} {p m s q : ℕ} (hp : 1 ≤ p) (hm : m + 1 ≤ p) (hs : s = 0 ∨ s = 1 ∧ 2 < p)
    (hq : q = min p (m + s + 1)) (hgap : eps * p < unew - u) :
    ∃ k, averagedFlatKnots (List.replicate (m + 1) u ++ List.replicate (s + 1) unew) q = .ok k ∧ KWf q k (m + s + 2) ∧
      (∀ j, j ≤ q → kf k j = u) ∧ (∀ j, m + s + 2 ≤ j → kf k j = unew) ∧ (∃ ks ms, KnotsBy eps q k ks ms) ∧
      (s = 0 → k = List.replicate (q + 1) u ++ List.replicate (q + 1) unew) := by
  have hpK : (1 : K) ≤ p := by exact_mod_cast hp
  have hgap1 : u + eps < unew := by nlinarith
  have hlt : u < unew := by linarith
  set w := List.replicate (m + 1) u ++ List.replicate (s + 1) unew with hw
  have hlw : w.length = m + s + 2 := by simp [hw]; omega
  have hw0 : ∀ j, j ≤ m → kf w j = u := by
    intro j hj
    rw [kf_of_lt (by omega)]
    simp only [hw]
    rw [List.getElem_append_left (by simp; omega), List.getElem_replicate]
  have hw1 : ∀ j, m < j → j < m + s + 2 → kf w j = unew := by
    intro j hj hj2
    rw [kf_of_lt (by omega)]
    simp only [hw]
    rw [List.getElem_append_right (by simp; omega), List.getElem_replicate]
  have hsort : w.Pairwise (· ≤ ·) := by
    rw [hw, List.pairwise_append]
    refine ⟨List.pairwise_replicate.mpr (Or.inr le_rfl), List.pairwise_replicate.mpr (Or.inr le_rfl), ?_⟩
    intro a ha b hb
    rw [List.eq_of_mem_replicate ha, List.eq_of_mem_replicate hb]
    exact hlt.le
  obtain ⟨k, ek, hlk, hk0, hk1, hki, hwf⟩ := C54_averaged_knots_repeated (V := K) (p := q) (u := w) (by omega) (by omega) hsort
    (by rw [hw0 0 (by omega), hw1 q (by omega) (by omega)]; exact hlt)
    (by rw [hw0 _ (by omega), hw1 _ (by omega) (by omega)]; exact hlt)
  rw [hlw] at hlk hk1 hki
  have hU : KWf q k (m + s + 2) := by
    have h := (hwf (List.replicate w.length 0) (by simp)).kwf
    rwa [List.length_replicate, hlw] at h
  have hkk0 : ∀ j, j ≤ q → kf k j = u := fun j hj => by
    have := hk0 j hj
    rw [kf_getElem? (by omega), kf_getElem? (by omega), hw0 0 (by omega)] at this
    exact Option.some.inj this
  have hkk1' : ∀ j, m + s + 2 ≤ j → j ≤ m + s + 2 + q → kf k j = unew := fun j hj hj2 => by
    have := hk1 j (by omega) (by omega)
    rw [kf_getElem? (by omega), kf_getElem? (by omega), hw1 _ (by omega) (by omega)] at this
    exact Option.some.inj this
  have hkk1 : ∀ j, m + s + 2 ≤ j → kf k j = unew := fun j hj => by
    rcases Nat.lt_or_ge (m + s + 2 + q) j with h | h
    · rw [kf_of_ge (by omega), ← hkk1' (m + s + 2 + q) (by omega) le_rfl, kf_of_lt (by omega), List.getLastD_eq_getLast?, List.getLast?_eq_getElem?,
        show k.length - 1 = m + s + 2 + q by omega, List.getElem?_eq_getElem (by omega)]
      simp
    · exact hkk1' j hj h
  refine ⟨k, ek, hU, hkk0, hkk1, ?_⟩
  rcases Nat.lt_or_ge p (m + s + 1) with hc | hc
  · -- one interior knot
    obtain ⟨rfl, h2p⟩ : s = 1 ∧ 2 < p := by omega
    obtain rfl : p = m + 1 := by omega
    obtain rfl : q = m + 1 := by omega
    have hmid : kf k (m + 2) = u + (unew - u) / ((m + 1 : ℕ) : K) := by
      have := hki 1 le_rfl (by omega)
      rw [kf_getElem? (by omega)] at this
      rw [show m + 2 = m + 1 + 1 by omega, Option.some.inj this, Finset.sum_range_succ, hw1 _ (by omega) (by omega),
        Finset.sum_congr rfl (fun i hi => hw0 (1 + i) (by have := Finset.mem_range.mp hi; omega)), Finset.sum_const, Finset.card_range, nsmul_eq_mul]
      have : ((m + 1 : ℕ) : K) ≠ 0 := by exact_mod_cast (by omega : m + 1 ≠ 0)
      field_simp
      push_cast
      ring
    set v := u + (unew - u) / ((m + 1 : ℕ) : K) with hv
    have hmK : (2 : K) ≤ ((m + 1 : ℕ) : K) := by exact_mod_cast (by omega : 2 ≤ m + 1)
    have hv1 : u + eps < v := by
      have : eps < (unew - u) / ((m + 1 : ℕ) : K) := by rw [lt_div_iff₀ (by linarith)]; exact hgap
      linarith
    have hv2 : v + eps < unew := by
      have : eps < (unew - u) / ((m + 1 : ℕ) : K) := by rw [lt_div_iff₀ (by linarith)]; exact hgap
      have h3 : (unew - u) / ((m + 1 : ℕ) : K) * 2 ≤ unew - u := by
        rw [div_mul_eq_mul_div, div_le_iff₀ (by linarith)]
        exact mul_le_mul_of_nonneg_left hmK (by linarith)
      linarith
    refine ⟨⟨[u, v, unew], [m + 1 + 1, 1, m + 1 + 1], by omega, ?_, ?_, rfl, rfl, ?_⟩, by omega⟩
    · unfold flatKnots
      rw [if_neg (by simp)]
      congr 1
      apply List.ext_getElem
      · simp; omega
      · intro i h1 h2
        rw [← kf_of_lt h2]
        rw [hlk] at h2
        simp only [List.zip_cons_cons, List.zip_nil_left, List.flatMap_cons, List.flatMap_nil, List.append_nil, List.replicate_one]
        rcases Nat.lt_or_ge i (m + 1 + 1) with h | h
        · rw [List.getElem_append_left (by simpa using h), List.getElem_replicate, hkk0 i (by omega)]
        · rw [List.getElem_append_right (by simpa using h)]
          rcases Nat.lt_or_ge i (m + 3) with h' | h'
          · obtain rfl : i = m + 2 := by omega
            rw [List.getElem_append_left (by simp), hmid]
            simp
          · rw [List.getElem_append_right (by simp; omega), List.getElem_replicate, hkk1 i (by omega)]
    · simp only [List.pairwise_cons, List.mem_cons, List.not_mem_nil, or_false, forall_eq_or_imp, forall_eq, List.Pairwise.nil, and_true]
      refine ⟨⟨hv1, hgap1⟩, hv2, ?_⟩
      intro a h; exact absurd h (by simp)
    · intro i x h1 h2 hx
      simp at h2
      obtain rfl : i = 1 := by omega
      simp at hx
      omega
  · -- no interior knot
    obtain rfl : q = m + s + 1 := by omega
    have hkeq : k = List.replicate (m + s + 1 + 1) u ++ List.replicate (m + s + 1 + 1) unew := by
      symm
      apply List.ext_getElem
      · simp; omega
      · intro i h1 h2
        rw [← kf_of_lt h2]
        rcases Nat.lt_or_ge i (m + s + 1 + 1) with h | h
        · rw [List.getElem_append_left (by simpa using h), List.getElem_replicate, hkk0 i (by omega)]
        · rw [List.getElem_append_right (by simpa using h), List.getElem_replicate, hkk1 i (by omega)]
    refine ⟨⟨[u, unew], [m + s + 1 + 1, m + s + 1 + 1], by omega, ?_, ?_, rfl, rfl, ?_⟩, fun _ => hkeq⟩
    · unfold flatKnots
      rw [if_neg (by simp), hkeq]
      simp
    · simpa using hgap1
    · intro i x h1 h2
      simp at h2
      omega

/-- Poles on the knots of an extension vanish with its conditions. -/
theorem ext_poles_zero {k : List K} {u unew : K} {m s q : ℕ} (hU : KWf q k (m + s + 2)) (hk0 : ∀ j, j ≤ q → kf k j = u)
    (hk1 : ∀ j, m + s + 2 ≤ j → kf k j = unew) (hm : m ≤ q) (hs : s = 0 ∨ s = 1 ∧ 2 ≤ q) {P : ℕ → V}
    (hA : ∀ d, d ≤ m → spanDer (kf k) (m + s + 2) q q P d u = 0) (hB : spanDer (kf k) (m + s + 2) q (m + s + 2 - 1) P 0 unew = 0)
    (hC : s = 1 → spanDer (kf k) (m + s + 2) q (m + s + 2 - 1) P 2 unew = 0) : ∀ i, i < m + s + 2 → P i = 0 := by
  have hmono := kf_mono hU.sorted
  have hfirst : u < kf k (q + 1) := by rw [← hk0 q le_rfl]; exact hU.first
  have hmin := hU.min
  have p0 := start_poles_zero m q (m + s + 2) hmono P hm (by omega) (fun j _ h => hk0 j h) hU.first
    (fun j hj => lt_of_lt_of_le hfirst (hmono hj)) hA
  have p1 : P (m + s + 1) = 0 := by
    rwa [spanDer_end hmono P hmin (fun j h _ => hk1 j h) hU.last] at hB
  intro i hi
  rcases Nat.lt_or_ge m i with h | h
  · rcases Nat.lt_or_ge i (m + s + 1) with h' | h'
    · obtain ⟨rfl, hq2⟩ : s = 1 ∧ 2 ≤ q := by omega
      obtain rfl : i = m + 1 := by omega
      exact end_second_zero hmono P hq2 hmin (fun j h _ => hk1 j h) hU.last (hC rfl) p1 (by
        rw [show m + 1 + 2 - 3 = m by omega]; exact p0 m le_rfl)
    · rw [show i = m + s + 1 by omega]; exact p1
  · exact p0 i h

/-- The spans of the ends of an extension. -/
theorem ext_spans {eps : K} (heps : 0 < eps) {k : List K} {u unew : K} (hu : u < unew) {n q : ℕ} (hq : q ≤ stackMaxDegree)
    (hU : KWf q k n) (hk0 : ∀ j, j ≤ q → kf k j = u) (hk1 : ∀ j, n ≤ j → kf k j = unew) {P : List V} (hl : P.length = n) (junk : K) (d : ℕ) :
    evalValue eps junk u k P q d = .ok (spanDer (kf k) n q q (pf P) d u) ∧
    evalValue eps junk unew k P q d = .ok (spanDer (kf k) n q (n - 1) (pf P) d unew) := by
  have hw : Wf q k P := hU.wf hl
  have hmono := kf_mono hU.sorted
  have hmin := hU.min
  have hfirst : u < kf k (q + 1) := by rw [← hk0 q le_rfl]; exact hU.first
  have hlast : kf k (n - 1) < unew := by rw [← hk1 _ le_rfl]; exact hU.last
  have hg : (⟨q, P, k, u, unew⟩ : Curve K V).Good := ⟨hw, (hk0 q le_rfl).symm, by show unew = kf k P.length; rw [hl, hk1 _ le_rfl]⟩
  constructor
  · obtain ⟨i, -, hi, -, -, hv⟩ := Curve.value_span heps hg (Or.inl hq) (u := u) le_rfl hu.le
    have : i = q := InSpan_unique hmono hi (by
      show Spec.InSpan (kf k) (kf k P.length) q u
      unfold Spec.InSpan
      rw [hl, hk1 _ le_rfl, if_neg hu.ne]
      exact ⟨(hk0 q le_rfl).le, hfirst⟩)
    subst this
    have h1 := hv junk d
    rw [Curve.value_inBounds heps le_rfl hu.le] at h1
    simp only [hl] at h1
    exact h1
  · obtain ⟨i, -, hi, -, -, hv⟩ := Curve.value_span heps hg (Or.inl hq) (u := unew) hu.le le_rfl
    have : i = n - 1 := InSpan_unique hmono hi (by
      show Spec.InSpan (kf k) (kf k P.length) (n - 1) unew
      unfold Spec.InSpan
      rw [hl, hk1 n le_rfl, if_pos rfl]
      exact ⟨hlast, hk1 _ (by omega)⟩)
    subst this
    have h1 := hv junk d
    rw [Curve.value_inBounds heps hu.le le_rfl] at h1
    simp only [hl] at h1
    exact h1

/-- The conditions of an extension determine its poles. -/
theorem ext_unisolvent {eps : K} (heps : 0 < eps) {k : List K} {u unew : K} (hu : u < unew) {m s q : ℕ} (hq : q ≤ stackMaxDegree)
    (hU : KWf q k (m + s + 2)) (hk0 : ∀ j, j ≤ q → kf k j = u) (hk1 : ∀ j, m + s + 2 ≤ j → kf k j = unew) (hm : m ≤ q) (hs : s = 0 ∨ s = 1 ∧ 2 ≤ q)
    {cs : List (Constr K V)} (hA : ∀ d, d ≤ m → ∃ y, (⟨u, d, y⟩ : Constr K V) ∈ cs) (hB : ∃ y, (⟨unew, 0, y⟩ : Constr K V) ∈ cs)
    (hC : s = 1 → ∃ y, (⟨unew, 2, y⟩ : Constr K V) ∈ cs) : Spec.UnisolventC eps k q (m + s + 2) cs := by
  intro P hl hz
  have hsp := fun d => ext_spans heps hu hq hU hk0 hk1 hl 0 d
  have evA : ∀ d, d ≤ m → spanDer (kf k) (m + s + 2) q q (pf P) d u = 0 := by
    intro d hd
    obtain ⟨y, hy⟩ := hA d hd
    have h2 := hz _ hy 0
    rw [(hsp d).1] at h2
    exact Except.ok.inj h2
  have evB : ∀ d y, (⟨unew, d, y⟩ : Constr K V) ∈ cs → spanDer (kf k) (m + s + 2) q (m + s + 2 - 1) (pf P) d unew = 0 := by
    intro d y hy
    have h2 := hz _ hy 0
    rw [(hsp d).2] at h2
    exact Except.ok.inj h2
  have p2 := ext_poles_zero hU hk0 hk1 hm hs evA (hB.elim fun y hy => evB 0 y hy) (fun h => (hC h).elim fun y hy => evB 2 y hy)
  intro y hy
  obtain ⟨i, hi, rfl⟩ := List.getElem_of_mem hy
  have := p2 i (by omega)
  unfold pf at this
  simpa [hi] using this

end Gbs
