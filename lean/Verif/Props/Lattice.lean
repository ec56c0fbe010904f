import Verif.Model.Lattice
import Verif.Props.Extrema
import Verif.Props.Conics
import Verif.Props.RollingBall
import Verif.Lemmas.Tfi

/-!
# C112: lattices of curves, projection of the nodes, lines of a surface
-/

set_option linter.unusedVariables false
set_option linter.unusedSectionVars false

namespace Gbs

variable {K : Type} [Field K] [LinearOrder K] [IsStrictOrderedRing K] {n : ℕ} {sqrt : K → K} {opt : Nlopt K}

/-- Two samples of the curves, among 30 on each, are nearer than `big`. -/
def Spec.NearSamples (big : K) (c c' : ACurve K (Fin n → K)) : Prop :=
  ∃ i j P Q, i < 30 ∧ j < 30 ∧ c.value (Spec.sample c.b0 c.b1 30 i) 0 = .ok P ∧ c'.value (Spec.sample c'.b0 c'.b1 30 j) 0 = .ok Q ∧ Spec.distSq P Q < big

/-- What is asked of the curves: ordered bounds, and values between them. -/
def Spec.Usable (c : ACurve K (Fin n → K)) : Prop := c.b0 ≤ c.b1 ∧ Spec.Defined c

/-- `a` on `e` and `b` on `k` are parameters of two points the square of whose distance is not larger than `tol`. -/
def Spec.Cross (tol : K) (e k : ACurve K (Fin n → K)) (a b : K) : Prop :=
  (e.b0 ≤ a ∧ a ≤ e.b1) ∧ (k.b0 ≤ b ∧ b ≤ k.b1) ∧ ∃ P Q, e.value a 0 = .ok P ∧ k.value b 0 = .ok Q ∧ Spec.distSq P Q ≤ tol ∧
    ∀ i j, i < 30 → j < 30 → ∀ P0 Q0, e.value (Spec.sample e.b0 e.b1 30 i) 0 = .ok P0 → k.value (Spec.sample k.b0 k.b1 30 j) 0 = .ok Q0 →
      Spec.distSq P Q ≤ Spec.distSq P0 Q0

/-- The square of the distance of any two samples is larger than `tol`, and so is the one of two other points of the curves. -/
def Spec.NotMet (tol : K) (e k : ACurve K (Fin n → K)) : Prop :=
  ∃ a b P Q, (e.b0 ≤ a ∧ a ≤ e.b1) ∧ (k.b0 ≤ b ∧ b ≤ k.b1) ∧ e.value a 0 = .ok P ∧ k.value b 0 = .ok Q ∧ tol < Spec.distSq P Q ∧
    ∀ i j, i < 30 → j < 30 → ∀ P0 Q0, e.value (Spec.sample e.b0 e.b1 30 i) 0 = .ok P0 → k.value (Spec.sample k.b0 k.b1 30 j) 0 = .ok Q0 →
      tol < Spec.distSq P0 Q0

theorem meetingOf_spec (hs : ∀ y, 0 ≤ y → sqrt (y * y) = y) (ho : Spec.Solver opt) {big tol : K} {e k : ACurve K (Fin n → K)} (he : Spec.Usable e)
    (hk : Spec.Usable k) (hn : Spec.NearSamples big e k) :
    (∃ a b, meetingOf sqrt big opt tol e k = .ok (a, b) ∧ Spec.Cross tol e k a b) ∨
    (meetingOf sqrt big opt tol e k = .error (.thrown .invalid) ∧ Spec.NotMet tol e k) := by
  obtain ⟨u, v, d, P, Q, e1, e2, e3, e4, e5, e6, e7⟩ := (C103_curves_partial hs ho he.1 hk.1 he.2 hk.2 big tol 30 30).1 (by omega) (by omega) hn
  by_cases h : tol < d
  · right
    refine ⟨?_, u, v, P, Q, e2, e3, e4, e5, e6 ▸ h, fun i j hi hj P0 Q0 h1 h2 => h.trans_le (e7 i j hi hj P0 Q0 h1 h2)⟩
    unfold meetingOf
    rw [e1, R_bind_ok]
    dsimp only
    rw [if_pos h]
  · left
    refine ⟨u, v, ?_, e2, e3, P, Q, e4, e5, e6 ▸ not_lt.mp h, fun i j hi hj P0 Q0 h1 h2 => e6 ▸ e7 i j hi hj P0 Q0 h1 h2⟩
    unfold meetingOf
    rw [e1, R_bind_ok]
    dsimp only
    rw [if_neg h]
    rfl

theorem mapM_dichotomy {α β : Type} {f : α → R β} {er : Err} : ∀ (l : List α), (∀ x ∈ l, (∃ y, f x = .ok y) ∨ f x = .error er) →
    (∃ r, l.mapM f = .ok r) ∨ (l.mapM f = .error er ∧ ∃ x ∈ l, f x = .error er)
  | [], _ => .inl ⟨[], rfl⟩
  | a :: l, h => by
    rcases h a (by simp) with ⟨y, hy⟩ | hy
    · rcases mapM_dichotomy l (fun x hx => h x (by simp [hx])) with ⟨r, hr⟩ | ⟨hr, x, hx, hx'⟩
      · exact .inl ⟨y :: r, by rw [List.mapM_cons, hy, R_bind_ok, hr]; rfl⟩
      · exact .inr ⟨by rw [List.mapM_cons, hy, R_bind_ok, hr]; rfl, x, by simp [hx], hx'⟩
    · exact .inr ⟨by rw [List.mapM_cons, hy]; rfl, a, by simp, hy⟩

/-- **C112** (partial: the squares of the distances are compared with the tolerance): the crossings of a lattice of curves are found, or an invalid argument is
reported. When they are found, there is one for each couple of curves, `ksi[j][i]` on the curve `eth[j]` and `eth[i][j]` on the curve `ksi[i]`, between
the bounds, the square of the distance of the two points is not larger than the tolerance, and no couple of samples is nearer. When they are not, the
samples of two curves are all farther than the root of the tolerance. -/
theorem C112_intersections_partial (hs : ∀ y, 0 ≤ y → sqrt (y * y) = y) (ho : Spec.Solver opt) {big tol : K} {isoKsi isoEth : List (ACurve K (Fin n → K))}
    (hk : ∀ k ∈ isoKsi, Spec.Usable k) (he : ∀ e ∈ isoEth, Spec.Usable e) (hn : ∀ e ∈ isoEth, ∀ k ∈ isoKsi, Spec.NearSamples big e k) :
    (∃ (ksi eth : List (List K)), latticeIntersections sqrt big opt isoKsi isoEth tol = .ok (ksi, eth) ∧ ksi.length = isoEth.length ∧ eth.length = isoKsi.length ∧
      (∀ r ∈ ksi, r.length = isoKsi.length) ∧ (∀ r ∈ eth, r.length = isoEth.length) ∧
      ∀ (i j : ℕ) k e, isoKsi[i]? = some k → isoEth[j]? = some e → ∃ (r r' : List K) (a b : K), ksi[j]? = some r ∧ r[i]? = some a ∧ eth[i]? = some r' ∧ r'[j]? = some b ∧
        Spec.Cross tol e k a b) ∨
    (latticeIntersections sqrt big opt isoKsi isoEth tol = .error (.thrown .invalid) ∧ ∃ e ∈ isoEth, ∃ k ∈ isoKsi, Spec.NotMet tol e k) := by
  have hf : ∀ e ∈ isoEth, ∀ k ∈ isoKsi, (∃ y, (do let x ← meetingOf sqrt big opt tol e k; pure x.1 : R K) = .ok y) ∨
      (do let x ← meetingOf sqrt big opt tol e k; pure x.1 : R K) = .error (.thrown .invalid) := by
    intro e h k h'
    rcases meetingOf_spec hs ho (tol := tol) (he e h) (hk k h') (hn e h k h') with ⟨a, b, h1, -⟩ | ⟨h1, -⟩
    · exact .inl ⟨a, by rw [h1]; rfl⟩
    · exact .inr (by rw [h1]; rfl)
  have hg : ∀ e ∈ isoEth, ∀ k ∈ isoKsi, (∃ y, (do let x ← meetingOf sqrt big opt tol e k; pure x.2 : R K) = .ok y) ∨
      (do let x ← meetingOf sqrt big opt tol e k; pure x.2 : R K) = .error (.thrown .invalid) := by
    intro e h k h'
    rcases meetingOf_spec hs ho (tol := tol) (he e h) (hk k h') (hn e h k h') with ⟨a, b, h1, -⟩ | ⟨h1, -⟩
    · exact .inl ⟨b, by rw [h1]; rfl⟩
    · exact .inr (by rw [h1]; rfl)
  have apart : ∀ e ∈ isoEth, ∀ k ∈ isoKsi, ∀ g : K × K → K, (do let x ← meetingOf sqrt big opt tol e k; pure (g x) : R K) = .error (.thrown .invalid) →
      Spec.NotMet tol e k := by
    intro e h k h' g h2
    rcases meetingOf_spec hs ho (tol := tol) (he e h) (hk k h') (hn e h k h') with ⟨a, b, h1, -⟩ | ⟨h1, h3⟩
    · rw [h1] at h2
      cases h2
    · exact h3
  rcases mapM_dichotomy (f := fun e => isoKsi.mapM fun k => do let x ← meetingOf sqrt big opt tol e k; pure x.1) (er := .thrown .invalid) isoEth (by
      intro e h
      rcases mapM_dichotomy (f := fun k => do let x ← meetingOf sqrt big opt tol e k; pure x.1) (er := .thrown .invalid) isoKsi (hf e h) with h1 | h1
      · exact .inl h1
      · exact .inr h1.1) with ⟨ksi, hksi⟩ | ⟨h1, e, h2, h3⟩
  · rcases mapM_dichotomy (f := fun k => isoEth.mapM fun e => do let x ← meetingOf sqrt big opt tol e k; pure x.2) (er := .thrown .invalid) isoKsi (by
        intro k h
        rcases mapM_dichotomy (f := fun e => do let x ← meetingOf sqrt big opt tol e k; pure x.2) (er := .thrown .invalid) isoEth (fun e h' => hg e h' k h) with h1 | h1
        · exact .inl h1
        · exact .inr h1.1) with ⟨eth, heth⟩ | ⟨h1, k, h2, h3⟩
    · left
      obtain ⟨l1, g1⟩ := mapM_inv hksi
      obtain ⟨l2, g2⟩ := mapM_inv heth
      have len1 : ∀ r ∈ ksi, r.length = isoKsi.length := by
        intro r hr
        obtain ⟨j, hj⟩ := List.getElem?_of_mem hr
        have hlt : j < isoEth.length := by
          rw [← l1]
          exact (List.getElem?_eq_some_iff.mp hj).1
        obtain ⟨r', h1, h2⟩ := g1 j _ (List.getElem?_eq_getElem hlt)
        rw [hj] at h2
        cases h2
        exact (mapM_inv h1).1
      have len2 : ∀ r ∈ eth, r.length = isoEth.length := by
        intro r hr
        obtain ⟨j, hj⟩ := List.getElem?_of_mem hr
        have hlt : j < isoKsi.length := by
          rw [← l2]
          exact (List.getElem?_eq_some_iff.mp hj).1
        obtain ⟨r', h1, h2⟩ := g2 j _ (List.getElem?_eq_getElem hlt)
        rw [hj] at h2
        cases h2
        exact (mapM_inv h1).1
      refine ⟨ksi, eth, ?_, l1, l2, len1, len2, ?_⟩
      · unfold latticeIntersections
        rw [hksi, R_bind_ok, heth, R_bind_ok]
        rfl
      · intro i j k e hi hj
        obtain ⟨r, h1, h2⟩ := g1 j e hj
        obtain ⟨a, h3, h4⟩ := (mapM_inv h1).2 i k hi
        obtain ⟨r', h5, h6⟩ := g2 i k hi
        obtain ⟨b, h7, h8⟩ := (mapM_inv h5).2 j e hj
        refine ⟨r, r', a, b, h2, h4, h6, h8, ?_⟩
        have me : e ∈ isoEth := List.mem_of_getElem? hj
        have mk : k ∈ isoKsi := List.mem_of_getElem? hi
        rcases meetingOf_spec hs ho (tol := tol) (he e me) (hk k mk) (hn e me k mk) with ⟨a', b', c1, c2⟩ | ⟨c1, -⟩
        · rw [c1] at h3 h7
          cases h3
          cases h7
          exact c2
        · rw [c1] at h3
          cases h3
    · right
      obtain ⟨e, h4, h5⟩ : ∃ e ∈ isoEth, (do let x ← meetingOf sqrt big opt tol e k; pure x.2 : R K) = .error (.thrown .invalid) := by
        rcases mapM_dichotomy (f := fun e => do let x ← meetingOf sqrt big opt tol e k; pure x.2) (er := .thrown .invalid) isoEth (fun e h' => hg e h' k h2) with ⟨r, h⟩ | ⟨-, h⟩
        · rw [h] at h3
          cases h3
        · exact h
      refine ⟨?_, e, h4, k, h2, apart e h4 k h2 _ h5⟩
      unfold latticeIntersections
      rw [hksi, R_bind_ok, h1]
      rfl
  · right
    obtain ⟨k, h4, h5⟩ : ∃ k ∈ isoKsi, (do let x ← meetingOf sqrt big opt tol e k; pure x.1 : R K) = .error (.thrown .invalid) := by
      rcases mapM_dichotomy (f := fun k => do let x ← meetingOf sqrt big opt tol e k; pure x.1) (er := .thrown .invalid) isoKsi (hf e h2) with ⟨r, h⟩ | ⟨-, h⟩
      · rw [h] at h3
        cases h3
      · exact h
    refine ⟨?_, e, h2, k, h4, apart e h2 k h4 _ h5⟩
    unfold latticeIntersections
    rw [h1]
    rfl

/-- The curve of the witnesses: the segment of the plane from `(0, y)` to `(0, y + 1)`. -/
def uprightCurve (y : K) : ACurve K (Fin 2 → K) := ⟨0, 1, fun u d => .ok (if d = 0 then ![0, y + u] else if d = 1 then ![0, 1] else 0)⟩

theorem uprightCurve_usable (y : K) : Spec.Usable (uprightCurve y) := ⟨zero_le_one, fun _ _ _ _ _ => ⟨_, rfl⟩⟩

theorem flatCurve_usable (y : K) : Spec.Usable (flatCurve y) := ⟨zero_le_one, flatCurve_defined y⟩

/-- **C112** (false of the code): a lattice whose curves are farther than the tolerance from each other is accepted. With the tolerance `tol < 1`, the
gap `d` between the curves can be any number with `tol < d` and `d² ≤ tol`, whatever the minimisation. -/
theorem C112_gap_accepted (hs : ∀ y, 0 ≤ y → sqrt (y * y) = y) (ho : Spec.Solver opt) {big tol d : K} (h0 : 0 ≤ tol) (hd : tol < d) (hd' : d * d ≤ tol) (hbig : d * d < big) :
    (∃ a b, latticeIntersections sqrt big opt [uprightCurve d] [flatCurve 0] tol = .ok ([[a]], [[b]])) ∧
    ∀ a b P Q, (flatCurve (0 : K)).value a 0 = .ok P → 0 ≤ b → (uprightCurve d).value b 0 = .ok Q → tol ^ 2 < Spec.distSq P Q := by
  have dp : 0 < d := h0.trans_lt hd
  have s0 : (flatCurve (0 : K)).value (Spec.sample (flatCurve (0 : K)).b0 (flatCurve (0 : K)).b1 30 0) 0 = .ok ![0, 0] := by
    simp [flatCurve, Spec.sample]
  have s1 : (uprightCurve d).value (Spec.sample (uprightCurve d).b0 (uprightCurve d).b1 30 0) 0 = .ok ![0, d] := by
    simp [uprightCurve, Spec.sample]
  have hds : Spec.distSq ![0, 0] ![0, d] = d * d := by
    simp [Spec.distSq, pow_two]
  constructor
  · rcases C112_intersections_partial hs ho (big := big) (tol := tol) (isoKsi := [uprightCurve d]) (isoEth := [flatCurve 0])
      (fun k hk => by rw [List.mem_singleton.mp hk]; exact uprightCurve_usable d) (fun k hk => by rw [List.mem_singleton.mp hk]; exact flatCurve_usable 0)
      (fun e he k hk => by
        rw [List.mem_singleton.mp hk, List.mem_singleton.mp he]
        exact ⟨0, 0, _, _, by omega, by omega, s0, s1, by rw [hds]; exact hbig⟩) with ⟨ksi, eth, h1, h2, h3, h4, h5, -⟩ | ⟨-, e, he, k, hk, h⟩
    · obtain ⟨r, rfl⟩ := List.length_eq_one_iff.mp h2
      obtain ⟨r', rfl⟩ := List.length_eq_one_iff.mp h3
      obtain ⟨a, rfl⟩ := List.length_eq_one_iff.mp (h4 r (by simp))
      obtain ⟨b, rfl⟩ := List.length_eq_one_iff.mp (h5 r' (by simp))
      exact ⟨a, b, h1⟩
    · rw [List.mem_singleton.mp hk, List.mem_singleton.mp he] at h
      obtain ⟨-, -, -, -, -, -, -, -, -, h⟩ := h
      have := h 0 0 (by omega) (by omega) _ _ s0 s1
      rw [hds] at this
      exact absurd hd' (not_le.mpr this)
  · intro a b P Q hP hb hQ
    obtain rfl : ![a, 0] = P := Except.ok.inj hP
    obtain rfl : ![0, d + b] = Q := Except.ok.inj hQ
    have : Spec.distSq ![a, 0] ![0, d + b] = a ^ 2 + (d + b) ^ 2 := by
      simp [Spec.distSq]
      ring
    rw [this]
    nlinarith [sq_nonneg a]

theorem allPass_spec {α : Type} {f : α → R Bool} : ∀ (l : List α), (∀ x ∈ l, ∃ b, f x = .ok b) →
    ∃ b, allPass f l = .ok b ∧ (b = true ↔ ∀ x ∈ l, f x = .ok true)
  | [], _ => ⟨true, rfl, by simp⟩
  | a :: l, h => by
    obtain ⟨b, hb⟩ := h a (by simp)
    obtain ⟨b', h1, h2⟩ := allPass_spec l fun x hx => h x (by simp [hx])
    cases b with
    | true =>
      refine ⟨b', by rw [allPass, hb, R_bind_ok, if_pos rfl, h1], ?_⟩
      rw [h2]
      simp [hb]
    | false =>
      refine ⟨false, by rw [allPass, hb, R_bind_ok]; rfl, ?_⟩
      simp [hb]

/-- **C112**: `check_curve_lattice` answers when the curves have values at the parameters, and the answer is true exactly when the distance of the curves
`eth[j]` at `ksi_i` and `ksi[i]` at `eth_j` is not larger than the tolerance, for each `i` and `j`. -/
theorem C112_check (hs : IsSqrt sqrt) {isoKsi isoEth : List (ACurve K (Fin n → K))} {ksi eth : List K} {tol : K} (h0 : 0 ≤ tol)
    (lk : ksi.length ≤ isoKsi.length) (le : eth.length ≤ isoEth.length) (P Q : ℕ → ℕ → Fin n → K)
    (hP : ∀ i j e a, isoEth[j]? = some e → ksi[i]? = some a → j < eth.length → e.value a 0 = .ok (P i j))
    (hQ : ∀ i j k b, isoKsi[i]? = some k → eth[j]? = some b → i < ksi.length → k.value b 0 = .ok (Q i j)) :
    ∃ r, checkCurveLattice sqrt isoKsi isoEth ksi eth tol = .ok r ∧
      (r = true ↔ ∀ i j, i < ksi.length → j < eth.length → Spec.distSq (P i j) (Q i j) ≤ tol ^ 2) := by
  have step : ∀ i j, i < ksi.length → j < eth.length → (do
      let e ← rd isoEth j
      let a ← rd ksi i
      let P ← e.value a 0
      let k ← rd isoKsi i
      let b ← rd eth j
      let Q ← k.value b 0
      pure (!decide (tol < vnorm sqrt (P - Q))) : R Bool) = .ok (decide (Spec.distSq (P i j) (Q i j) ≤ tol ^ 2)) := by
    intro i j hi hj
    have x1 := List.getElem?_eq_getElem (hj.trans_le le)
    have x2 := List.getElem?_eq_getElem hi
    have x3 := List.getElem?_eq_getElem (hi.trans_le lk)
    have x4 := List.getElem?_eq_getElem hj
    rw [rd_ok (hj.trans_le le), R_bind_ok, rd_ok hi, R_bind_ok, hP i j _ _ x1 x2 hj, R_bind_ok, rd_ok (hi.trans_le lk), R_bind_ok, rd_ok hj, R_bind_ok,
      hQ i j _ _ x3 x4 hi, R_bind_ok, R_pure]
    congr 1
    rw [Bool.eq_iff_iff]
    simp only [Bool.not_eq_true', decide_eq_false_iff_not, decide_eq_true_eq, not_lt]
    have v0 : 0 ≤ vnorm sqrt (P i j - Q i j) := (hs _ (sqNorm_nonneg _)).1
    have v2 : vnorm sqrt (P i j - Q i j) ^ 2 = Spec.distSq (P i j) (Q i j) := by
      rw [pow_two, vnorm_mul_self hs, sqNorm_distSq]
    rw [← v2]
    exact (pow_le_pow_iff_left₀ v0 h0 (by omega)).symm
  have row : ∀ i, i < ksi.length → ∃ b, allPass (fun j => do
      let e ← rd isoEth j
      let a ← rd ksi i
      let P ← e.value a 0
      let k ← rd isoKsi i
      let b ← rd eth j
      let Q ← k.value b 0
      pure (!decide (tol < vnorm sqrt (P - Q)))) (List.range eth.length) = .ok b ∧
      (b = true ↔ ∀ j, j < eth.length → Spec.distSq (P i j) (Q i j) ≤ tol ^ 2) := by
    intro i hi
    obtain ⟨b, h1, h2⟩ := allPass_spec (f := fun j => do
      let e ← rd isoEth j
      let a ← rd ksi i
      let P ← e.value a 0
      let k ← rd isoKsi i
      let b ← rd eth j
      let Q ← k.value b 0
      pure (!decide (tol < vnorm sqrt (P - Q)))) (List.range eth.length) (fun j hj => ⟨_, step i j hi (List.mem_range.mp hj)⟩)
    refine ⟨b, h1, h2.trans ⟨fun h j hj => ?_, fun h j hj => ?_⟩⟩
    · have := h j (List.mem_range.mpr hj)
      rw [step i j hi hj] at this
      simpa using this
    · rw [step i j hi (List.mem_range.mp hj), decide_eq_true (h j (List.mem_range.mp hj))]
  obtain ⟨b, h1, h2⟩ := allPass_spec (f := fun i => allPass (fun j => do
      let e ← rd isoEth j
      let a ← rd ksi i
      let P ← e.value a 0
      let k ← rd isoKsi i
      let b ← rd eth j
      let Q ← k.value b 0
      pure (!decide (tol < vnorm sqrt (P - Q)))) (List.range eth.length)) (List.range ksi.length) (fun i hi => by
    obtain ⟨b, hb, -⟩ := row i (List.mem_range.mp hi)
    exact ⟨b, hb⟩)
  refine ⟨b, h1, h2.trans ⟨fun h i j hi hj => ?_, fun h i hi => ?_⟩⟩
  · obtain ⟨b', hb, hb'⟩ := row i hi
    have := h i (List.mem_range.mpr hi)
    rw [hb] at this
    exact hb'.mp (Except.ok.inj this) j hj
  · obtain ⟨b', hb, hb'⟩ := row i (List.mem_range.mp hi)
    rw [hb, hb'.mpr fun j hj => h i j (List.mem_range.mp hi) hj]

/-- **C112**: the projection replaces each point, in order, by a point of the surface between its bounds, and no sample of the 30 by 30 grid is nearer to the
point. -/
theorem C112_project (hs : ∀ y, 0 ≤ y → sqrt (y * y) = y) (ho : Spec.Solver opt) {s : ASurface K (Fin n → K)} (hbu : s.u0 ≤ s.u1) (hbv : s.v0 ≤ s.v1)
    (hv : Spec.DefinedS s) (pts : List (Fin n → K)) (tol : K) :
    ∃ r, projectPoints sqrt opt s pts tol = .ok r ∧ r.length = pts.length ∧ ∀ (i : ℕ) p P, pts[i]? = some p → r[i]? = some P →
      (∃ u v, (s.u0 ≤ u ∧ u ≤ s.u1) ∧ (s.v0 ≤ v ∧ v ≤ s.v1) ∧ s.value u v 0 0 = .ok P) ∧
      ∀ a b, a < 30 → b < 30 → ∀ Q, s.value (Spec.sample s.u0 s.u1 30 a) (Spec.sample s.v0 s.v1 30 b) 0 0 = .ok Q → Spec.distSq P p ≤ Spec.distSq Q p := by
  have one : ∀ p, ∃ P, (do
      let (u, v, _) ← extremaSurfPnt sqrt opt s p tol 30 30
      s.value u v 0 0 : R (Fin n → K)) = .ok P ∧ (∃ u v, (s.u0 ≤ u ∧ u ≤ s.u1) ∧ (s.v0 ≤ v ∧ v ≤ s.v1) ∧ s.value u v 0 0 = .ok P) ∧
      ∀ a b, a < 30 → b < 30 → ∀ Q, s.value (Spec.sample s.u0 s.u1 30 a) (Spec.sample s.v0 s.v1 30 b) 0 0 = .ok Q → Spec.distSq P p ≤ Spec.distSq Q p := by
    intro p
    obtain ⟨u, v, d, P, e1, e2, e3, e4, e5, e6⟩ := (C103_surf_point_partial hs ho hbu hbv hv p tol 30 30).1 (by omega) (by omega)
    refine ⟨P, ?_, ⟨u, v, e2, e3, e4⟩, fun a b ha hb Q hQ => e5 ▸ e6 a b ha hb Q hQ⟩
    rw [e1, R_bind_ok]
    exact e4
  obtain ⟨r, hr⟩ := mapM_exists (f := fun p => do
      let (u, v, _) ← extremaSurfPnt sqrt opt s p tol 30 30
      s.value u v 0 0) pts (fun p _ => ⟨_, (one p).choose_spec.1⟩)
  obtain ⟨h1, h2⟩ := mapM_inv hr
  refine ⟨r, hr, h1, fun i p P hp hP => ?_⟩
  obtain ⟨y, h3, h4⟩ := h2 i p hp
  rw [hP] at h4
  cases h4
  obtain ⟨P', h5, h6⟩ := one p
  rw [h3] at h5
  cases h5
  exact h6

theorem isoSegment_spec {eps : K} (heps : 0 < eps) (hs : IsSqrt sqrt) (junk : K) (s : ASurface K (Fin n → K)) (p q : Fin 2 → K) {l : K} (hl : 0 < l)
    (hn : sqNorm (q - p) = l ^ 2) :
    ∃ c, isoSegment eps junk sqrt s p q = .ok c ∧ c.b0 = 0 ∧ c.b1 = l ∧
      (∀ t, 0 ≤ t → t ≤ l → c.value t 0 = s.value ((p + (t / l) • (q - p)) 0) ((p + (t / l) • (q - p)) 1) 0 0) ∧
      ∀ t d, t < - eps ∨ l + eps < t → c.value t d = .error (.thrown .outOfBoundsEval) := by
  obtain ⟨c, l', e1, -, e2, e3, e4, -, e5, e6⟩ := C60_segment heps hs p q false (.inr (by
    rintro rfl
    rw [sub_self] at hn
    have : sqNorm (0 : Fin 2 → K) = 0 := by simp [sqNorm]
    rw [this] at hn
    exact (pow_pos hl 2).ne hn))
  obtain rfl : l' = l := by
    have := (e5 rfl).trans hn
    exact (pow_left_inj₀ e4.le hl.le (by omega)).mp this
  refine ⟨(c.toA eps junk).onSurface s, by rw [isoSegment, e1]; rfl, e2, e3, fun t h0 h1 => ?_, fun t d h => ?_⟩
  · show (do let p ← c.value eps junk t 0; _) = _
    rw [(e6 t h0 h1 junk).1, R_bind_ok, if_pos rfl]
  · show (do let p ← c.value eps junk t 0; _) = _
    have : c.value eps junk t 0 = .error (.thrown .outOfBoundsEval) := by
      unfold Curve.value
      rw [e2, e3, zero_sub, if_pos h]
    rw [this]
    rfl

/-- **C112** (partial: only when the first parameters are null do the lines carry the parameters of the surface): the lines that `tfi_mesh_2d` takes from a
surface, one for each parameter. When the first parameter is less than the last, the line `eth = b` runs from 0 to the difference of the last and first
`ksi`, and its point at `t` is the one of the surface at the first `ksi` plus `t` and `b`; similarly for the lines `ksi = a`. -/
theorem C112_iso_lines_partial {eps : K} (heps : 0 < eps) (hs : IsSqrt sqrt) (junk : K) (s : ASurface K (Fin n → K)) {ksi eth : List K} {f l g h : K}
    (hf : ksi[0]? = some f) (hl : ksi[ksi.length - 1]? = some l) (hfl : f < l) (hg : eth[0]? = some g) (hh : eth[eth.length - 1]? = some h) (hgh : g < h) :
    ∃ (isoKsi isoEth : List (ACurve K (Fin n → K))), isoLines eps junk sqrt s ksi eth = .ok (isoKsi, isoEth) ∧ isoKsi.length = ksi.length ∧
      isoEth.length = eth.length ∧
      (∀ (j : ℕ) b, eth[j]? = some b → ∃ c, isoEth[j]? = some c ∧ c.b0 = 0 ∧ c.b1 = l - f ∧
        (∀ t, 0 ≤ t → t ≤ l - f → c.value t 0 = s.value (f + t) b 0 0) ∧
        (f = 0 → ∀ t, 0 ≤ t → t ≤ l → c.value t 0 = s.value t b 0 0) ∧
        ∀ t d, t < - eps ∨ l - f + eps < t → c.value t d = .error (.thrown .outOfBoundsEval)) ∧
      (∀ (i : ℕ) a, ksi[i]? = some a → ∃ c, isoKsi[i]? = some c ∧ c.b0 = 0 ∧ c.b1 = h - g ∧
        (∀ t, 0 ≤ t → t ≤ h - g → c.value t 0 = s.value a (g + t) 0 0) ∧
        (g = 0 → ∀ t, 0 ≤ t → t ≤ h → c.value t 0 = s.value a t 0 0) ∧
        ∀ t d, t < - eps ∨ h - g + eps < t → c.value t d = .error (.thrown .outOfBoundsEval)) := by
  have rf : rd ksi 0 = .ok f := by unfold rd; rw [hf]
  have rl : rd ksi (ksi.length - 1) = .ok l := by unfold rd; rw [hl]
  have rg : rd eth 0 = .ok g := by unfold rd; rw [hg]
  have rh : rd eth (eth.length - 1) = .ok h := by unfold rd; rw [hh]
  have oneE : ∀ b : K, ∃ c, isoSegment eps junk sqrt s ![f, b] ![l, b] = .ok c ∧ c.b0 = 0 ∧ c.b1 = l - f ∧
        (∀ t, 0 ≤ t → t ≤ l - f → c.value t 0 = s.value (f + t) b 0 0) ∧
        (f = 0 → ∀ t, 0 ≤ t → t ≤ l → c.value t 0 = s.value t b 0 0) ∧
        ∀ t d, t < - eps ∨ l - f + eps < t → c.value t d = .error (.thrown .outOfBoundsEval) := by
    intro b
    obtain ⟨c, e1, e2, e3, e4, e5⟩ := isoSegment_spec heps hs junk s ![f, b] ![l, b] (sub_pos.mpr hfl) (by simp [sqNorm, Fin.sum_univ_two]; try ring)
    have e6 : ∀ t, 0 ≤ t → t ≤ l - f → c.value t 0 = s.value (f + t) b 0 0 := by
      intro t h0 h1
      rw [e4 t h0 h1]
      have : t / (l - f) * (l - f) = t := div_mul_cancel₀ _ (sub_pos.mpr hfl).ne'
      congr 1
      · simp [this]
      · simp
    refine ⟨c, e1, e2, e3, e6, ?_, e5⟩
    rintro h0 t h1 h2
    rw [e6 t h1 (by rw [h0, sub_zero]; exact h2), h0, zero_add]
  have oneK : ∀ a : K, ∃ c, isoSegment eps junk sqrt s ![a, g] ![a, h] = .ok c ∧ c.b0 = 0 ∧ c.b1 = h - g ∧
        (∀ t, 0 ≤ t → t ≤ h - g → c.value t 0 = s.value a (g + t) 0 0) ∧
        (g = 0 → ∀ t, 0 ≤ t → t ≤ h → c.value t 0 = s.value a t 0 0) ∧
        ∀ t d, t < - eps ∨ h - g + eps < t → c.value t d = .error (.thrown .outOfBoundsEval) := by
    intro a
    obtain ⟨c, e1, e2, e3, e4, e5⟩ := isoSegment_spec heps hs junk s ![a, g] ![a, h] (sub_pos.mpr hgh) (by simp [sqNorm, Fin.sum_univ_two]; try ring)
    have e6 : ∀ t, 0 ≤ t → t ≤ h - g → c.value t 0 = s.value a (g + t) 0 0 := by
      intro t h0 h1
      rw [e4 t h0 h1]
      have : t / (h - g) * (h - g) = t := div_mul_cancel₀ _ (sub_pos.mpr hgh).ne'
      congr 1
      · simp
      · simp [this]
    refine ⟨c, e1, e2, e3, e6, ?_, e5⟩
    rintro h0 t h1 h2
    rw [e6 t h1 (by rw [h0, sub_zero]; exact h2), h0, zero_add]
  have fE : ∀ b, (do
      let f ← rd ksi 0
      let l ← rd ksi (ksi.length - 1)
      isoSegment eps junk sqrt s ![f, b] ![l, b] : R (ACurve K (Fin n → K))) = isoSegment eps junk sqrt s ![f, b] ![l, b] := by
    intro b
    rw [rf, R_bind_ok, rl, R_bind_ok]
  have fK : ∀ a, (do
      let f ← rd eth 0
      let l ← rd eth (eth.length - 1)
      isoSegment eps junk sqrt s ![a, f] ![a, l] : R (ACurve K (Fin n → K))) = isoSegment eps junk sqrt s ![a, g] ![a, h] := by
    intro a
    rw [rg, R_bind_ok, rh, R_bind_ok]
  obtain ⟨E, hE⟩ := mapM_exists (f := fun b => isoSegment eps junk sqrt s ![f, b] ![l, b]) eth fun b _ => ⟨_, (oneE b).choose_spec.1⟩
  obtain ⟨M, hM⟩ := mapM_exists (f := fun a => isoSegment eps junk sqrt s ![a, g] ![a, h]) ksi fun a _ => ⟨_, (oneK a).choose_spec.1⟩
  obtain ⟨l1, g1⟩ := mapM_inv hE
  obtain ⟨l2, g2⟩ := mapM_inv hM
  refine ⟨M, E, ?_, l2, l1, fun j b hj => ?_, fun i a hi => ?_⟩
  · unfold isoLines
    simp only [fE, fK]
    rw [hE, R_bind_ok, hM, R_bind_ok]
    rfl
  · obtain ⟨c, c1, c2⟩ := g1 j b hj
    obtain ⟨c', d1, d2⟩ := oneE b
    rw [c1] at d1
    cases d1
    exact ⟨c, c2, d2⟩
  · obtain ⟨c, c1, c2⟩ := g2 i a hi
    obtain ⟨c', d1, d2⟩ := oneK a
    rw [c1] at d1
    cases d1
    exact ⟨c, c2, d2⟩

/-- **C112** (false of the code): when the first `ksi` is positive, the lines `eth = cst` of the surface cannot be evaluated at the last `ksi`, where the mesh
evaluates them; and where they can, the points are those of other parameters of the surface. -/
theorem C112_iso_lines_shifted {eps : K} (heps : 0 < eps) (hs : IsSqrt sqrt) (junk : K) (s : ASurface K (Fin n → K)) {ksi eth : List K} {f l g h : K}
    (hf : ksi[0]? = some f) (hl : ksi[ksi.length - 1]? = some l) (hfl : f < l) (hg : eth[0]? = some g) (hh : eth[eth.length - 1]? = some h) (hgh : g < h) (hpos : eps < f) :
    ∃ (isoKsi isoEth : List (ACurve K (Fin n → K))), isoLines eps junk sqrt s ksi eth = .ok (isoKsi, isoEth) ∧
      ∀ (j : ℕ) b, eth[j]? = some b → ∃ c, isoEth[j]? = some c ∧ c.value l 0 = .error (.thrown .outOfBoundsEval) ∧
        (2 * f ≤ l → c.value f 0 = s.value (2 * f) b 0 0) := by
  obtain ⟨M, E, h1, -, -, h2, -⟩ := C112_iso_lines_partial heps hs junk s hf hl hfl hg hh hgh
  refine ⟨M, E, h1, fun j b hj => ?_⟩
  obtain ⟨c, c1, -, -, c2, -, c3⟩ := h2 j b hj
  refine ⟨c, c1, c3 l 0 (.inr (by linarith)), fun h3 => ?_⟩
  rw [c2 f (heps.trans hpos).le (by linarith), two_mul]

/-! ## The hypotheses can be met -/

section witnesses

example : ∃ (ksi eth : List (List ℝ)), latticeIntersections Real.sqrt 1000 stay [uprightCurve (0 : ℝ)] [flatCurve (0 : ℝ)] (1 / 1000000) = .ok (ksi, eth) := by
  have s0 : (flatCurve (0 : ℝ)).value (Spec.sample (flatCurve (0 : ℝ)).b0 (flatCurve (0 : ℝ)).b1 30 0) 0 = .ok ![0, 0] := by
    simp [flatCurve, Spec.sample]
  have s1 : (uprightCurve (0 : ℝ)).value (Spec.sample (uprightCurve (0 : ℝ)).b0 (uprightCurve (0 : ℝ)).b1 30 0) 0 = .ok ![0, 0] := by
    simp [uprightCurve, Spec.sample]
  rcases C112_intersections_partial sqrt_sq stay_solver (big := 1000) (tol := 1 / 1000000) (isoKsi := [uprightCurve (0 : ℝ)]) (isoEth := [flatCurve 0])
      (fun k hk => by rw [List.mem_singleton.mp hk]; exact uprightCurve_usable 0) (fun k hk => by rw [List.mem_singleton.mp hk]; exact flatCurve_usable 0)
      (fun e he k hk => by
        rw [List.mem_singleton.mp hk, List.mem_singleton.mp he]
        exact ⟨0, 0, _, _, by omega, by omega, s0, s1, by simp [Spec.distSq]⟩) with ⟨ksi, eth, h, -⟩ | ⟨-, e, he, k, hk, h⟩
  · exact ⟨ksi, eth, h⟩
  · rw [List.mem_singleton.mp hk, List.mem_singleton.mp he] at h
    obtain ⟨-, -, -, -, -, -, -, -, -, h⟩ := h
    have := h 0 0 (by omega) (by omega) _ _ s0 s1
    norm_num [Spec.distSq] at this

example : ∃ a b, latticeIntersections Real.sqrt 1000 stay [uprightCurve (1 / 2 : ℝ)] [flatCurve (0 : ℝ)] (1 / 4) = .ok ([[a]], [[b]]) :=
  (C112_gap_accepted sqrt_sq stay_solver (by norm_num) (by norm_num) (by norm_num) (by norm_num)).1

example : ∃ r, checkCurveLattice Real.sqrt [uprightCurve (0 : ℝ)] [flatCurve (0 : ℝ)] [0] [0] (1 / 10) = .ok r ∧ r = true := by
  obtain ⟨r, h1, h2⟩ := C112_check isSqrt_real (isoKsi := [uprightCurve (0 : ℝ)]) (isoEth := [flatCurve (0 : ℝ)]) (ksi := [0]) (eth := [0]) (tol := 1 / 10)
    (by norm_num) le_rfl le_rfl (fun _ _ => ![0, 0]) (fun _ _ => ![0, 0]) (by
      rintro (_ | i) (_ | j) e a h1 h2 h3 <;> simp at h1 h2 h3
      subst h1; subst h2; rfl) (by
      rintro (_ | i) (_ | j) e a h1 h2 h3 <;> simp at h1 h2 h3
      subst h1; subst h2; simp [uprightCurve])
  exact ⟨r, h1, h2.mpr fun i j _ _ => by norm_num [Spec.distSq]⟩

example : ∃ r, projectPoints Real.sqrt stay planeSurface [![1, 2], ![0, 1]] (1 / 10) = .ok r ∧ r.length = 2 := by
  obtain ⟨r, h1, h2, -⟩ := C112_project sqrt_sq stay_solver (s := planeSurface) zero_le_one zero_le_one planeSurface_defined [![1, 2], ![0, 1]] (1 / 10)
  exact ⟨r, h1, h2⟩

example (s : ASurface ℝ (Fin 3 → ℝ)) : ∃ (isoKsi isoEth : List (ACurve ℝ (Fin 3 → ℝ))),
    isoLines (1 / 1000000) 0 Real.sqrt s [1, 2, 3] [0, 1] = .ok (isoKsi, isoEth) ∧
      ∀ (j : ℕ) (b : ℝ), [0, 1][j]? = some b → ∃ c, isoEth[j]? = some c ∧ c.value 3 0 = .error (.thrown .outOfBoundsEval) ∧
        (2 * 1 ≤ (3 : ℝ) → c.value 1 0 = s.value (2 * 1) b 0 0) :=
  C112_iso_lines_shifted (by norm_num) isSqrt_real 0 s (f := 1) (l := 3) (g := 0) (h := 1) rfl rfl (by norm_num) rfl rfl (by norm_num) (by norm_num)

end witnesses

end Gbs
