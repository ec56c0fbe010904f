import Verif.Lemmas.SurfInterp

/-!
# C36 for general constraints, with a solver of regular systems

The system of `build_poles` for constraints is regular exactly when the constraints determine the poles, a statement about curves.
-/

namespace Gbs

set_option linter.unusedSectionVars false

open Polynomial
open scoped BigOperators

variable {K : Type} [Field K] [LinearOrder K] [IsStrictOrderedRing K]
variable {V : Type} [AddCommGroup V] [Module K V]

/-- The constraints determine the poles: only null poles give the value 0 at each of them. -/
def Spec.UnisolventC (eps : K) (U : List K) (p n : ℕ) (cs : List (Constr K V)) : Prop :=
  ∀ P : List K, P.length = n → (∀ x ∈ cs, ∀ junk, evalValue eps junk x.u U P p x.d = .ok 0) → ∀ y ∈ P, y = 0

theorem evalValue_row {eps : K} (heps : 0 < eps) {p : ℕ} (hp : p ≤ stackMaxDegree) {cs : List (Constr K V)} {U : List K}
    (hU : KWf p U cs.length) {sp : ℕ → ℕ} (hsp : SpansC U p cs.length cs sp) {i : ℕ} {x : Constr K V} (hi : cs[i]? = some x)
    (h1 : kf U p ≤ x.u) (h2 : x.u ≤ kf U cs.length) {P : List K} (hlP : P.length = cs.length) (junk : K) :
    evalValue eps junk x.u U P p x.d = .ok (∑ c ∈ Finset.range cs.length, collC U p cs sp i c * pf P c) := by
  have hw : Wf p U P := hU.wf hlP
  have hg : (⟨p, P, U, kf U p, kf U P.length⟩ : Curve K K).Good := ⟨hw, rfl, rfl⟩
  rw [evalValue_all hw (Curve.evalOk heps hg (Or.inl hp) h1 (by show x.u < kf U P.length + eps; rw [hlP]; linarith)) x.d
    (by rw [hlP]; exact hsp.find i x hi), hlP]
  congr 1
  unfold spanDer
  apply Finset.sum_congr rfl
  intro c hc
  rw [collC_row hi, smul_eq_mul]

theorem collC_regular {eps : K} (heps : 0 < eps) {p : ℕ} (hp : p ≤ stackMaxDegree) {cs : List (Constr K V)} {U : List K}
    (hU : KWf p U cs.length) (hin : ∀ x ∈ cs, kf U p ≤ x.u ∧ x.u ≤ kf U cs.length) {sp : ℕ → ℕ} (hsp : SpansC U p cs.length cs sp)
    (hreg : Spec.UnisolventC eps U p cs.length cs) : Spec.Regular cs.length (collC U p cs sp) := by
  intro y hy j hj
  have := hreg ((List.range cs.length).map y) (by simp)
    (by
      intro x hx junk
      obtain ⟨i, hi⟩ := List.getElem?_of_mem hx
      have hil : i < cs.length := by
        by_contra hc
        rw [List.getElem?_eq_none (by omega)] at hi
        cases hi
      rw [evalValue_row heps hp hU hsp hi (hin x hx).1 (hin x hx).2 (by simp), ← hy i hil]
      congr 1
      apply Finset.sum_congr rfl
      intro c hc
      rw [pf_map_range y (Finset.mem_range.mp hc)])
  exact this (y j) (List.mem_map.mpr ⟨j, List.mem_range.mpr hj, rfl⟩)

/-- C36, `build_poles` for general constraints that determine the poles, at parameters of the domain: each constraint is met, the solver being
only asked to solve regular systems. -/
theorem C36_constraints_unisolvent {eps meps : K} (heps : 0 < eps) (hm : 0 ≤ meps) (growth junk : K) (x0 : V) {p : ℕ}
    (hp : p ≤ stackMaxDegree) {cs : List (Constr K V)} {U : List K} (hU : KWf p U cs.length)
    (hin : ∀ x ∈ cs, kf U p ≤ x.u ∧ x.u ≤ kf U cs.length) (hreg : Spec.UnisolventC eps U p cs.length cs)
    {srt : List (Constr K V) → List (Constr K V)} (hsrt : (srt cs).Perm cs) {dense : ℕ → (ℕ → ℕ → K) → List V → R (List V)}
    (hS : Spec.SolvesDense dense) :
    ∃ P, buildPolesConstr eps meps growth junk x0 srt dense cs U p = .ok P ∧ P.length = cs.length ∧
      ∀ x ∈ cs, ∀ junk', evalValue eps junk' x.u U P p x.d = .ok x.v := by
  obtain ⟨P, e, hl, h⟩ := C36_build_poles_constraints heps hm growth junk x0 hp hU hsrt (dense := dense)
    (by
      intro N eN _
      obtain ⟨sp, hsp⟩ := exists_spansC hU cs
      obtain ⟨N', eN', hN⟩ := fillRows_spec hU hp hsp rfl eps junk
      rw [eN] at eN'
      obtain rfl := Except.ok.inj eN'
      exact hS _ N _ (by simp) (Regular.congr (collC_regular heps hp hU hin hsp hreg) fun i j hi hj => (hN i j hi hj).symm))
  exact ⟨P, e, hl, fun x hx junk' => h x hx (hin x hx).1 (hin x hx).2 junk'⟩

/-- C36, the most general interpolation, for constraints that determine the poles. -/
theorem C36_bounds_unisolvent {eps : K} (heps : 0 < eps) (junk : K) {p : ℕ} (hp1 : 1 ≤ p) (hp : p ≤ stackMaxDegree) {b e : K × V}
    {cs : List (Constr K V)} (hn : p + 1 ≤ cs.length + 2) (hin : ∀ x ∈ cs, b.1 ≤ x.u ∧ x.u ≤ e.1) (hbe : b.1 < e.1)
    (hc0 : (cs.map Constr.u).count b.1 + 1 ≤ p) (hc1 : (cs.map Constr.u).count e.1 + 1 ≤ p)
    (hreg : ∀ k, averagedFlatKnots ((cs.map Constr.u).foldl insertOrdered [b.1, e.1]) p = .ok k →
      KWf p k (cs.length + 2) → kf k p = b.1 → kf k (cs.length + 2) = e.1 →
      Spec.UnisolventC eps k p (cs.length + 2) ((⟨b.1, 0, b.2⟩ : Constr K V) :: (cs ++ [⟨e.1, 0, e.2⟩])))
    {dense : ℕ → (ℕ → ℕ → K) → List V → R (List V)} (hS : Spec.SolvesDense dense) :
    ∃ c, interpolateBounds eps junk dense b e cs p = .ok c ∧ c.Good ∧ c.deg = p ∧ c.poles.length = cs.length + 2 ∧ c.b0 = b.1 ∧ c.b1 = e.1 ∧
      ∀ junk', c.value eps junk' b.1 0 = .ok b.2 ∧ c.value eps junk' e.1 0 = .ok e.2 ∧
        ∀ x ∈ cs, c.value eps junk' x.u x.d = .ok x.v := by
  refine C36_interpolate_bounds heps junk hp1 hp hn hin hbe hc0 hc1 ?_
  intro k N ek hU h0 h1 eN
  set rows : List (Constr K V) := (⟨b.1, 0, b.2⟩ : Constr K V) :: (cs ++ [⟨e.1, 0, e.2⟩]) with hrows
  have hlr : rows.length = cs.length + 2 := by simp [hrows]
  have hrow : ∀ x ∈ rows, kf k p ≤ x.u ∧ x.u ≤ kf k rows.length := by
    intro x hx
    rw [hlr, h0, h1]
    rw [hrows, List.mem_cons, List.mem_append, List.mem_singleton] at hx
    rcases hx with rfl | hx | rfl
    · exact ⟨le_rfl, hbe.le⟩
    · exact hin x hx
    · exact ⟨hbe.le, le_rfl⟩
  have hU' : KWf p k rows.length := by rw [hlr]; exact hU
  obtain ⟨sp, hsp⟩ := exists_spansC hU' rows
  obtain ⟨N', eN', hN⟩ := fillRows_spec hU' hp hsp rfl eps junk
  rw [eN] at eN'
  obtain rfl := Except.ok.inj eN'
  have hr := collC_regular heps hp hU' hrow hsp (by rw [hlr]; exact hreg k ek hU h0 h1)
  rw [hlr] at hr hN
  exact hS _ N _ (by simp) (Regular.congr hr fun i j hi hj => (hN i j hi hj).symm)

/-! ## Examples -/

namespace Sample

/-- The value and the first derivative at one end and the value at the other determine a curve of degree 2 with three poles. -/
theorem bRows_unisolvent : Spec.UnisolventC (1/1000 : ℚ) bU 2 3 bRows := by
  intro P hl h
  obtain ⟨sp, hsp⟩ := exists_spansC (V := ℚ) bU_wf bRows
  obtain ⟨N, eN, hN⟩ := b_rows
  obtain ⟨N', eN', hN'⟩ := fillRows_spec bU_wf (by decide) hsp rfl (1/1000) 7
  rw [eN] at eN'
  obtain rfl := Except.ok.inj eN'
  have key : ∀ i x, (hi : bRows[i]? = some x) → i < 3 → 0 ≤ x.u ∧ x.u ≤ 1 → ∑ c ∈ Finset.range 3, N i c * pf P c = 0 := by
    intro i x hi hi3 hx
    have e := evalValue_row (eps := (1/1000 : ℚ)) (by norm_num) (by decide) bU_wf hsp hi
      (by rw [show kf bU 2 = 0 by decide +kernel]; exact hx.1) (by rw [show kf bU bRows.length = 1 by decide +kernel]; exact hx.2) hl 0
    rw [h x (List.mem_of_getElem? hi) 0] at e
    rw [Except.ok.inj e]
    exact Finset.sum_congr rfl fun c hc => by rw [hN' i c hi3 (Finset.mem_range.mp hc)]
  have h0 := key 0 _ rfl (by omega) (by decide +kernel)
  have h1 := key 1 _ rfl (by omega) (by decide +kernel)
  have h2 := key 2 _ rfl (by omega) (by decide +kernel)
  rw [Finset.sum_range_succ, Finset.sum_range_succ, Finset.sum_range_one] at h0 h1 h2
  simp only [hN _ (show 0 < 3 by omega) _ (show 0 < 3 by omega), hN _ (show 0 < 3 by omega) _ (show 1 < 3 by omega),
    hN _ (show 0 < 3 by omega) _ (show 2 < 3 by omega)] at h0
  simp only [hN _ (show 1 < 3 by omega) _ (show 0 < 3 by omega), hN _ (show 1 < 3 by omega) _ (show 1 < 3 by omega),
    hN _ (show 1 < 3 by omega) _ (show 2 < 3 by omega)] at h1
  simp only [hN _ (show 2 < 3 by omega) _ (show 0 < 3 by omega), hN _ (show 2 < 3 by omega) _ (show 1 < 3 by omega),
    hN _ (show 2 < 3 by omega) _ (show 2 < 3 by omega)] at h2
  obtain ⟨a, b, c, rfl⟩ := List.length_eq_three.mp hl
  simp [pf] at h0 h1 h2
  subst h0 h2
  simpa using h1

/-- The hypotheses of `C36_constraints_unisolvent` are met. -/
example (dense : ℕ → (ℕ → ℕ → ℚ) → List ℚ → R (List ℚ)) (hS : Spec.SolvesDense dense) :
    ∃ P : List ℚ, buildPolesConstr (1/1000 : ℚ) (1/1000000) 10000 7 0 List.reverse dense bRows bU 2 = .ok P ∧
      ∀ x ∈ bRows, evalValue (1/1000) 7 x.u bU P 2 x.d = .ok x.v := by
  obtain ⟨P, e, -, h⟩ := C36_constraints_unisolvent (eps := (1/1000 : ℚ)) (meps := 1/1000000) (by norm_num) (by norm_num) 10000 7 0 (p := 2) (by decide)
    (cs := bRows) (U := bU) bU_wf (by decide +kernel) bRows_unisolvent (srt := List.reverse) (List.reverse_perm _) hS
  exact ⟨P, e, fun x hx => h x hx 7⟩

/-- The hypotheses of `C36_bounds_unisolvent` are met. -/
example (dense : ℕ → (ℕ → ℕ → ℚ) → List ℚ → R (List ℚ)) (hS : Spec.SolvesDense dense) :
    ∃ c : Curve ℚ ℚ, interpolateBounds (1/1000 : ℚ) 7 dense (0, (5 : ℚ)) (1, 4) [⟨0, 1, 2⟩] 2 = .ok c ∧ c.value (1/1000) 7 0 1 = .ok 2 := by
  obtain ⟨c, e, -, -, -, -, -, h⟩ := C36_bounds_unisolvent (eps := (1/1000 : ℚ)) (by norm_num) 7 (p := 2) (by decide) (by decide)
    (b := (0, (5 : ℚ))) (e := (1, 4)) (cs := [⟨0, 1, 2⟩]) (by decide) (by simp) (by norm_num) (by decide +kernel) (by decide +kernel)
    (by
      intro k hk _ _ _
      obtain rfl : k = bU := by
        have : averagedFlatKnots ([0, 0, 1] : List ℚ) 2 = .ok bU := by decide +kernel
        rw [show ([(⟨0, 1, 2⟩ : Constr ℚ ℚ)].map Constr.u).foldl insertOrdered [(0 : ℚ), 1] = [0, 0, 1] by decide +kernel, this] at hk
        exact (Except.ok.inj hk).symm
      exact bRows_unisolvent) hS
  exact ⟨c, e, (h 7).2.2 ⟨0, 1, 2⟩ (by simp)⟩

end Sample

end Gbs
