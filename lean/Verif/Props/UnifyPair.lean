import Verif.Model.UnifyPair
import Verif.Props.Unify
import Verif.Props.UnifyCurves

/-! # C132: insertion into one curve of the knots of another one -/

namespace Gbs

set_option linter.unusedSectionVars false

variable {K : Type} [Field K] [LinearOrder K] [IsStrictOrderedRing K]
variable {V : Type} [AddCommGroup V] [Module K V]

/-- The multiplicity that a knot inside the interval gets, from `c` times in the first curve and `m` times in the second one. -/
def Spec.pairMult (p c m : ℕ) : ℕ := if m = 0 then c else if m < c then p else m

theorem insertKnots_min (u : K) (p r : ℕ) (U : List K) (P : List V) :
    insertKnots u p r U P = insertKnots u p (min r (p - multOf U u)) U P := by
  unfold insertKnots multOf
  simp only [min_assoc, min_self]

theorem unifyPairInto_spec {eps : K} (heps : 0 < eps) {p : ℕ} (hp : p ≤ stackMaxDegree) {a b : K} {L : List K} (hL : SepL eps L) :
    ∀ (km : List (K × ℕ)) (U : List K) (P : List V), KC p a b U P → (∀ x ∈ U, x ∈ L) → (km.map Prod.fst).Pairwise (· < ·) →
    (∀ q ∈ km, a ≤ q.1 ∧ q.1 ≤ b ∧ q.1 ∈ L ∧ 1 ≤ q.2 ∧ (a < q.1 → q.1 < b → q.2 ≤ p ∧ (q.2 = U.count q.1 → U.count q.1 = p))) →
    ∃ W Q, unifyPairInto eps p km U P = .ok (W, Q) ∧ KC p a b W Q ∧ SameMap p U P p W Q ∧
      (∀ q ∈ km, a < q.1 → q.1 < b → W.count q.1 = Spec.pairMult p (U.count q.1) q.2) ∧
      ∀ x, (∀ q ∈ km, q.1 = x → ¬ (a < x ∧ x < b)) → W.count x = U.count x := by
  intro km
  induction km with
  | nil =>
    intro U P h _ _ _
    exact ⟨U, P, rfl, h, SameMap.refl h.wf, by simp, fun _ _ => rfl⟩
  | cons q rest ih =>
    obtain ⟨u, m⟩ := q
    intro U P h hU hs hkm
    obtain ⟨q1, q2, q3, q4, q5⟩ := hkm (u, m) List.mem_cons_self
    have q1 : a ≤ u := q1
    have q2 : u ≤ b := q2
    have q4 : 1 ≤ m := q4
    have hc := multEps_eq heps hL hU q3
    have hmu := count_eq_multOf h.wf.sorted u
    have hne : ∀ q ∈ rest, q.1 ≠ u := by
      intro q hq
      rw [List.map_cons, List.pairwise_cons] at hs
      exact ne_of_gt (hs.1 q.1 (List.mem_map_of_mem hq))
    have hs' : (rest.map Prod.fst).Pairwise (· < ·) := by
      rw [List.map_cons, List.pairwise_cons] at hs
      exact hs.2
    -- the insertion
    have step : ∃ idx U' P', insertKnots u p (wrapSub m (U.count u)) U P = .ok (idx, U', P') ∧ KC p a b U' P' ∧ SameMap p U P p U' P' ∧
        (∀ x, x ≠ u → U'.count x = U.count x) ∧ (a < u → u < b → U'.count u = Spec.pairMult p (U.count u) m) ∧
        (¬ (a < u ∧ u < b) → U'.count u = U.count u) ∧ ∀ x ∈ U', x = u ∨ x ∈ U := by
      by_cases hf : p ≤ U.count u
      · refine ⟨_, U, P, insertKnots_full (by rw [← hmu]; exact hf), h, SameMap.refl h.wf, fun _ _ => rfl, fun h1 h2 => ?_, fun _ => rfl, fun x hx => Or.inr hx⟩
        obtain ⟨r1, r2⟩ := q5 h1 h2
        have r1 : m ≤ p := r1
        have := h.ci u h1 h2
        unfold Spec.pairMult
        split_ifs <;> omega
      · have hau : a < u := by
          rcases lt_or_eq_of_le q1 with h1 | h1
          · exact h1
          · rw [← h1, h.ca] at hf; omega
        have hub : u < b := by
          rcases lt_or_eq_of_le q2 with h1 | h1
          · exact h1
          · rw [h1, h.cb] at hf; omega
        obtain ⟨r1, r2⟩ := q5 hau hub
        have r1 : m ≤ p := r1
        have r2 : m = U.count u → U.count u = p := r2
        have hmc : m ≠ U.count u := fun e => by have := r2 e; omega
        have hr : min (wrapSub m (U.count u)) (p - multOf U u) = Spec.pairMult p (U.count u) m - U.count u := by
          unfold wrapSub Spec.pairMult
          unfold stackMaxDegree at hp
          rw [← hmu]
          split_ifs <;> omega
        have hpm : U.count u < Spec.pairMult p (U.count u) m ∧ Spec.pairMult p (U.count u) m ≤ p := by
          unfold Spec.pairMult
          split_ifs <;> omega
        obtain ⟨idx, U', P', e, k1, k2, k3, k4⟩ := h.insert hau hub (r := Spec.pairMult p (U.count u) m - U.count u) (by omega) (by omega)
        refine ⟨idx, U', P', by rw [insertKnots_min, hr, e], k1, k2, fun x hx => by rw [k3, if_neg hx, add_zero], fun _ _ => ?_,
          fun hn => absurd ⟨hau, hub⟩ hn, fun x hx => (k4 x).mp hx⟩
        rw [k3, if_pos rfl]
        omega
    obtain ⟨idx, U', P', e, k1, k2, k3, k4, k5, k6⟩ := step
    obtain ⟨W, Q, eW, w1, w2, w3, w4⟩ := ih U' P' k1 (by
      intro x hx
      rcases k6 x hx with rfl | hx
      · exact q3
      · exact hU x hx) hs' (by
      intro q hq
      obtain ⟨a1, a2, a3, a4, a5⟩ := hkm q (List.mem_cons_of_mem _ hq)
      rw [k3 q.1 (hne q hq)]
      exact ⟨a1, a2, a3, a4, a5⟩)
    refine ⟨W, Q, ?_, w1, k2.trans w2 (by rw [k1.d0, h.d0]) (by rw [k1.d1, h.d1]), ?_, ?_⟩
    · rw [unifyPairInto, hc, e, R_bind_ok, eW]
    · intro q hq h1 h2
      rcases List.mem_cons.mp hq with rfl | hq
      · rw [w4 u fun q hq e => absurd e (hne q hq)]
        exact k4 h1 h2
      · rw [w3 q hq h1 h2, k3 q.1 (hne q hq)]
    · intro x hx
      rw [w4 x fun q hq e => hx q (List.mem_cons_of_mem _ hq) e]
      rcases eq_or_ne x u with rfl | hxu
      · exact k5 (hx (x, m) List.mem_cons_self rfl)
      · exact k3 x hxu

/-- C132: when no knot inside the interval has the same multiplicity, less than the degree, in both curves, the curve is unchanged, and each knot of the second
one gets its multiplicity in it when that is greater. A knot that has a greater one in the first curve gets the degree as multiplicity. -/
theorem C132_unify {eps : K} (heps : 0 < eps) {c : CurveInfo K V} (hp : c.deg ≤ stackMaxDegree) (hc : c.Clamped) {U' : List K} (hne : U' ≠ [])
    (hs : U'.Pairwise (· ≤ ·)) (hin : ∀ x ∈ U', kf c.knots 0 ≤ x ∧ x ≤ kLast c.knots) (hsep : SepL eps (c.knots ++ U'))
    (hm : ∀ x, kf c.knots 0 < x → x < kLast c.knots → U'.count x ≤ c.deg ∧
      (U'.count x = c.knots.count x → c.knots.count x = c.deg ∨ c.knots.count x = 0)) :
    ∃ W Q, unifyPair eps c.deg c.knots c.poles U' = .ok (W, Q) ∧ (CurveInfo.toCurve ⟨Q, W, c.deg⟩).Good ∧
      kf W 0 = kf c.knots 0 ∧ kLast W = kLast c.knots ∧
      (∀ u, kf c.knots 0 ≤ u → u ≤ kLast c.knots → ∀ d junk junk', ∃ pt, c.toCurve.value eps junk u d = .ok pt ∧
        (CurveInfo.toCurve ⟨Q, W, c.deg⟩).value eps junk' u d = .ok pt) ∧
      (∀ x, kf c.knots 0 < x → x < kLast c.knots → W.count x = Spec.pairMult c.deg (c.knots.count x) (U'.count x)) ∧
      ∀ x, ¬ (kf c.knots 0 < x ∧ x < kLast c.knots) → W.count x = c.knots.count x := by
  have hk := hc.kc
  obtain ⟨km, ekm, hD⟩ := unflatPairs_desc heps hne hs fun x hx y hy h => hsep x (List.mem_append_right _ hx) y (List.mem_append_right _ hy) h
  obtain ⟨W, Q, e, k1, k2, k3, k4⟩ := unifyPairInto_spec heps hp hsep km c.knots c.poles hk (fun x hx => List.mem_append_left _ hx) hD.sorted (by
    intro q hq
    have hq' := hD.mem hq
    obtain ⟨c1, c2⟩ := hD.cnt q hq
    obtain ⟨i1, i2⟩ := hin q.1 hq'
    refine ⟨i1, i2, List.mem_append_right _ hq', c2, fun h1 h2 => ?_⟩
    obtain ⟨m1, m2⟩ := hm q.1 h1 h2
    rw [c1] at m1 m2
    refine ⟨m1, fun e => ?_⟩
    rcases m2 e with h | h
    · exact h
    · omega)
  have hg : (CurveInfo.toCurve ⟨Q, W, c.deg⟩).Good := KC.good (c := ⟨Q, W, c.deg⟩) k1
  refine ⟨W, Q, by unfold unifyPair; rw [ekm, R_bind_ok, e], hg, k1.kf_zero, k1.kLast, ?_, ?_, ?_⟩
  · intro u h0 h1 d junk junk'
    exact SameMap.value_eq heps hk.good hg (Or.inl hp) (Or.inl hp) k2 (le_of_eq k1.kf_zero) (le_of_eq k1.kLast.symm) h0 h1 junk junk' d
  · intro x h0 h1
    by_cases hx : x ∈ U'
    · obtain ⟨m, hm'⟩ := hD.all x hx
      have := (hD.cnt _ hm').1
      rw [k3 _ hm' h0 h1, this]
    · rw [List.count_eq_zero_of_not_mem hx, k4 x fun q hq e => absurd (e ▸ hD.mem hq) hx]
      rfl
  · intro x hx
    exact k4 x fun _ _ _ => hx

/-- C132: a knot that is once in the second curve and twice in the first one, of degree 3, is inserted once more in the first one. -/
theorem C132_more_witness : unifyPair (1 / 1000 : ℚ) 3 [0, 0, 0, 0, 1, 1, 2, 2, 2, 2] [(0 : ℚ), 1, 5, 2, 0, 4] [0, 0, 0, 0, 1, 2, 2, 2, 2] =
    .ok ([0, 0, 0, 0, 1, 1, 1, 2, 2, 2, 2], [0, 1, 5, 7 / 2, 2, 0, 4]) := by
  decide +kernel

/-- C132: the curve is changed by its own knots: the one inside the interval is inserted zero times, which changes the poles. -/
theorem C132_self_witness : unifyPair (1 / 1000 : ℚ) 2 [0, 0, 0, 1, 2, 2, 2] [(0 : ℚ), 1, 5, 2] [0, 0, 0, 1, 2, 2, 2] =
    .ok ([0, 0, 0, 1, 2, 2, 2], [0, 5, 5, 2]) := by
  decide +kernel

/-- A curve of degree 3 with a knot twice at 1. -/
def pairSample : CurveInfo ℚ ℚ := ⟨[0, 1, 5, 2, 0, 4], [0, 0, 0, 0, 1, 1, 2, 2, 2, 2], 3⟩

theorem pairSample_clamped : pairSample.Clamped := by
  refine ⟨by decide, by decide, by decide +kernel, by decide +kernel, by decide +kernel, by decide +kernel, ?_⟩
  intro x h0 h1
  have h0 : (0 : ℚ) < x := h0
  have h1 : x < 2 := h1
  by_cases hx : x ∈ pairSample.knots
  · have : ∀ y ∈ pairSample.knots, 0 < y → y < 2 → pairSample.knots.count y ≤ pairSample.deg := by decide +kernel
    exact this x hx h0 h1
  · rw [List.count_eq_zero_of_not_mem hx]; exact Nat.zero_le _

/-- The knots of the second curve have 1 once and 3/2 twice: the first one gets 1 three times and 3/2 twice. -/
example : ∃ W Q, unifyPair (1 / 1000 : ℚ) 3 pairSample.knots pairSample.poles [0, 0, 0, 0, 1, 3 / 2, 3 / 2, 2, 2, 2, 2] = .ok (W, Q) ∧
    W.count 1 = 3 ∧ W.count (3 / 2) = 2 := by
  have hs : ∀ x, kf pairSample.knots 0 < x → x < kLast pairSample.knots →
      ([0, 0, 0, 0, 1, 3 / 2, 3 / 2, 2, 2, 2, 2] : List ℚ).count x ≤ pairSample.deg ∧
      (([0, 0, 0, 0, 1, 3 / 2, 3 / 2, 2, 2, 2, 2] : List ℚ).count x = pairSample.knots.count x →
        pairSample.knots.count x = pairSample.deg ∨ pairSample.knots.count x = 0) := by
    intro x h0 h1
    by_cases hx : x ∈ ([0, 0, 0, 0, 1, 3 / 2, 3 / 2, 2, 2, 2, 2] : List ℚ)
    · have : ∀ y ∈ ([0, 0, 0, 0, 1, 3 / 2, 3 / 2, 2, 2, 2, 2] : List ℚ), kf pairSample.knots 0 < y → y < kLast pairSample.knots →
          ([0, 0, 0, 0, 1, 3 / 2, 3 / 2, 2, 2, 2, 2] : List ℚ).count y ≤ pairSample.deg ∧
          (([0, 0, 0, 0, 1, 3 / 2, 3 / 2, 2, 2, 2, 2] : List ℚ).count y = pairSample.knots.count y →
            pairSample.knots.count y = pairSample.deg ∨ pairSample.knots.count y = 0) := by decide +kernel
      exact this x hx h0 h1
    · rw [List.count_eq_zero_of_not_mem hx]
      exact ⟨Nat.zero_le _, fun h => Or.inr h.symm⟩
  obtain ⟨W, Q, e, _, _, _, _, h, _⟩ := C132_unify (eps := (1 / 1000 : ℚ)) (by norm_num) (c := pairSample) (by decide) pairSample_clamped
    (U' := [0, 0, 0, 0, 1, 3 / 2, 3 / 2, 2, 2, 2, 2]) (by simp) (by decide +kernel) (by decide +kernel) (by unfold SepL; decide +kernel) hs
  refine ⟨W, Q, e, ?_, ?_⟩
  · rw [h 1 (by decide +kernel) (by decide +kernel)]; decide +kernel
  · rw [h (3 / 2) (by decide +kernel) (by decide +kernel)]; decide +kernel

end Gbs
