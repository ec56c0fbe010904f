import Verif.Model.TfiBlend
import Verif.Props.Tfi
import Verif.Props.AbsCurv

/-! # C130: the blend functions of one order of a transfinite interpolation -/

namespace Gbs

set_option linter.unusedSectionVars false

variable {K : Type} [Field K] [LinearOrder K] [IsStrictOrderedRing K]
variable {V : Type} [AddCommGroup V] [Module K V]

/-- The degree of the blend functions. -/
def Spec.blendDegree (slope : Bool) (n : ℕ) : ℕ := if slope then 3 else if n = 2 then 1 else 2

/-! ## Combinations of curves with the same knots -/

/-- The curve of the combination of the poles of `m` curves. -/
def combCurve (p N m : ℕ) (k : List K) (C : ℕ → Curve K K) (q : ℕ → V) : Curve K V :=
  ⟨p, (List.range N).map fun j => ∑ i ∈ Finset.range m, pf (C i).poles j • q i, k, kf k p, kf k N⟩

theorem combCurve_length {p N m : ℕ} {k : List K} {C : ℕ → Curve K K} {q : ℕ → V} : (combCurve p N m k C q).poles.length = N := by
  simp [combCurve]

theorem combCurve_good {p N m : ℕ} {k : List K} {C : ℕ → Curve K K} {q : ℕ → V} (h : KWf p k N) : (combCurve p N m k C q).Good := by
  have e : (combCurve p N m k C q).poles.length = N := combCurve_length
  exact ⟨h.wf e, rfl, by rw [e]; rfl⟩

theorem combCurve_value {eps : K} (heps : 0 < eps) {p N m : ℕ} {k : List K} {C : ℕ → Curve K K} {q : ℕ → V} (h : KWf p k N)
    (hp : p ≤ stackMaxDegree)
    (hC : ∀ i, i < m → (C i).Good ∧ (C i).deg = p ∧ (C i).knots = k ∧ (C i).poles.length = N) {t : K} (h0 : kf k p ≤ t) (h1 : t ≤ kf k N) {d : ℕ}
    {a : ℕ → K} {junk : K} (ha : ∀ i, i < m → (C i).value eps junk t d = .ok (a i)) (junk' : K) :
    (combCurve p N m k C q).value eps junk' t d = .ok (∑ i ∈ Finset.range m, a i • q i) := by
  obtain ⟨s, es, -, -, -, hv⟩ := Curve.value_span (c := combCurve p N m k C q) heps (combCurve_good h) (Or.inl hp) h0 h1
  rw [hv junk' d]
  rw [combCurve_length] at es ⊢
  have hp' : ∀ j, j < N → pf (combCurve p N m k C q).poles j = ∑ i ∈ Finset.range m, pf (C i).poles j • q i := by
    intro j hj
    unfold pf
    rw [List.getD_eq_getElem?_getD, combCurve, List.getElem?_map, List.getElem?_range hj]
    rfl
  rw [spanDer_congr hp']
  have e : ∀ i, i < m → a i = spanDer (kf k) N p s (pf (C i).poles) d t := by
    intro i hi
    obtain ⟨g, gd, gk, gl⟩ := hC i hi
    obtain ⟨s', es', -, -, -, hv'⟩ := Curve.value_span (c := C i) (u := t) heps g (Or.inl (by rw [gd]; exact hp)) (by rw [g.lo, gd, gk]; exact h0)
      (by rw [g.hi, gl, gk]; exact h1)
    have hv' := hv' junk d
    rw [gl, gd, gk] at es' hv'
    have es : findSpan N p t k = .ok s := es
    rw [es] at es'
    obtain rfl := Except.ok.inj es'
    rw [ha i hi] at hv'
    exact Except.ok.inj hv'
  congr 1
  rw [Finset.sum_congr rfl fun i hi => by rw [e i (Finset.mem_range.mp hi)]]
  unfold spanDer
  simp only [Finset.smul_sum, Finset.sum_smul, smul_smul, smul_eq_mul]
  rw [Finset.sum_comm]
  rfl

/-! ## Curves that are polynomials -/

/-- The curve of a polynomial on given knots. -/
def polyCurve (p N : ℕ) (k : List K) (A : ℕ → V) : Curve K V :=
  ⟨p, (List.range N).map fun j => polyBlossom p A (seg (kf k) (j + 1) p), k, kf k p, kf k N⟩

theorem polyCurve_length {p N : ℕ} {k : List K} {A : ℕ → V} : (polyCurve p N k A).poles.length = N := by simp [polyCurve]

theorem polyCurve_good {p N : ℕ} {k : List K} {A : ℕ → V} (h : KWf p k N) : (polyCurve p N k A).Good := by
  have e : (polyCurve p N k A).poles.length = N := polyCurve_length
  exact ⟨h.wf e, rfl, by rw [e]; rfl⟩

theorem polyCurve_pf {p N : ℕ} {k : List K} {A : ℕ → V} {j : ℕ} (hj : j < N) :
    pf (polyCurve p N k A).poles j = polyBlossom p A (seg (kf k) (j + 1) p) := by
  unfold pf
  rw [List.getD_eq_getElem?_getD, polyCurve, List.getElem?_map, List.getElem?_range hj]
  rfl

theorem polyCurve_value {eps : K} (heps : 0 < eps) {p N : ℕ} {k : List K} {A : ℕ → V} (h : KWf p k N) (hp : p ≤ stackMaxDegree) {t : K}
    (h0 : kf k p ≤ t) (h1 : t ≤ kf k N) (junk : K) :
    (polyCurve p N k A).value eps junk t 0 = .ok (∑ e ∈ Finset.range (p + 1), t ^ e • A e) := by
  have hg := polyCurve_good (A := A) h
  obtain ⟨s, es, -, a1, a2, hv⟩ := Curve.value_span (c := polyCurve p N k A) heps hg (Or.inl hp) h0 h1
  obtain ⟨s', es', -, -, a3, -⟩ := findSpan_wf hg.wf t
  rw [es] at es'
  obtain rfl := Except.ok.inj es'
  rw [hv junk 0]
  rw [polyCurve_length] at a2 ⊢
  congr 1
  exact poly_poles (kf_mono h.sorted) a1 a2 a3 A (fun j hj => polyCurve_pf hj) t

theorem polyCurve_slope {eps : K} (heps : 0 < eps) {p N : ℕ} {k : List K} {A : ℕ → V} (h : KWf (p + 1) k N) (hp : p + 1 ≤ stackMaxDegree)
    (hA : ∀ e, e ≠ 0 → A e = 0) {t : K} (h0 : kf k (p + 1) ≤ t) (h1 : t ≤ kf k N) (junk : K) :
    (polyCurve (p + 1) N k A).value eps junk t 1 = .ok 0 := by
  have hg := polyCurve_good (A := A) h
  obtain ⟨s, es, -, a1, a2, hv⟩ := Curve.value_span (c := polyCurve (p + 1) N k A) heps hg (Or.inl hp) h0 h1
  rw [hv junk 1]
  rw [polyCurve_length] at a2 ⊢
  congr 1
  have hc : ∀ j, j < N → pf (polyCurve (p + 1) N k A).poles j = A 0 := by
    intro j hj
    rw [polyCurve_pf hj]
    unfold polyBlossom
    rw [Finset.sum_eq_single 0]
    · simp [esym_zero]
    · intro e _ he
      rw [hA e he, smul_zero]
    · simp
  have e := spanDer_succ (kf_mono h.sorted) (p := p) a1 a2 (pf (polyCurve (p + 1) N k A).poles) 0 t
  refine e.trans ?_
  rw [spanDer_congr (P' := fun _ => 0)]
  · unfold spanDer
    simp
  · intro j hj
    unfold derP
    rw [hc _ (by omega), hc _ (by omega), sub_self, smul_zero]

/-! ## Curves with the same values at the parameters -/

/-- What the curves on the knots of an interpolation have in common. -/
structure OnKnots (p N : ℕ) (k : List K) (c : Curve K V) : Prop where
  good : c.Good
  deg : c.deg = p
  knots : c.knots = k
  len : c.poles.length = N

theorem OnKnots.mem {p N : ℕ} {k : List K} {c : Curve K V} (h : OnKnots p N k c) {t : K} (h0 : kf k p ≤ t) (h1 : t ≤ kf k N) : c.b0 ≤ t ∧ t ≤ c.b1 := by
  rw [h.good.lo, h.good.hi, h.deg, h.knots, h.len]
  exact ⟨h0, h1⟩

theorem ksi_mem {u : List K} (hu : u.Pairwise (· < ·)) {j : ℕ} (hj : j < u.length) : kf u 0 ≤ kf u j ∧ kf u j ≤ kf u (u.length - 1) := by
  have hle : u.Pairwise (· ≤ ·) := hu.imp le_of_lt
  exact ⟨kf_mono hle (by omega), kf_mono hle (by omega)⟩

theorem averaged_eq {eps : K} (heps : 0 < eps) {p : ℕ} {u : List K} (hp1 : 1 ≤ p) (hp : p ≤ stackMaxDegree) (hn : p + 1 ≤ u.length)
    (hu : u.Pairwise (· < ·)) {k : List K} (ek : averagedFlatKnots u p = .ok k) {c c' : Curve K V} (hc : OnKnots p u.length k c)
    (hc' : OnKnots p u.length k c') {v : ℕ → V} {junk : K} (hv : ∀ j, j < u.length → c.value eps junk (kf u j) 0 = .ok (v j))
    (hv' : ∀ j, j < u.length → c'.value eps junk (kf u j) 0 = .ok (v j)) : c.poles = c'.poles := by
  obtain ⟨hU, e0, e1, -⟩ := averaged_coll hp1 hn hu ek
  obtain ⟨k', ek', P, -, huniq⟩ := C76_unique_averaged hp1 hn hu ((List.range u.length).map v) (by simp)
  rw [ek] at ek'
  obtain rfl := Except.ok.inj ek'
  have key : ∀ b : Curve K V, OnKnots p u.length k b → (∀ j, j < u.length → b.value eps junk (kf u j) 0 = .ok (v j)) → b.poles = P := by
    intro b hb hbv
    refine huniq _ ⟨hb.len, ?_⟩
    intro j t q ht hq
    obtain ⟨hj, rfl⟩ := kf_of_some ht
    rw [List.getElem?_map, List.getElem?_range hj] at hq
    obtain rfl : v j = q := by simpa using hq
    obtain ⟨m0, m1⟩ := ksi_mem hu hj
    obtain ⟨h0, h1⟩ := hb.mem (t := kf u j) (by rw [e0]; exact m0) (by rw [e1]; exact m1)
    obtain ⟨s, es, hs, -, -, hval⟩ := Curve.value_span heps hb.good (Or.inl (by rw [hb.deg]; exact hp)) h0 h1
    have hval := hval junk 0
    rw [hbv j hj, hb.knots, hb.len, hb.deg] at hval
    rw [hb.knots, hb.len] at hs
    rw [← spanDer_eq_curve (kf_mono hU.sorted) hs]
    exact (Except.ok.inj hval).symm
  rw [key c hc hv, key c' hc' hv']

theorem hermite_eq {eps : K} (heps : 0 < eps) {nc : ℕ} {u : List K} (hnc : 1 ≤ nc) (hp : 2 * nc - 1 ≤ stackMaxDegree) (hn : 2 ≤ u.length)
    (hu : u.Pairwise (· < ·)) {k : List K} (ek : flatKnots u ((2 * nc) :: (List.replicate (u.length - 2) nc ++ [2 * nc])) = .ok k)
    {c c' : Curve K V} (e0 : kf k (2 * nc - 1) = kf u 0) (e1 : kf k (u.length * nc) = kf u (u.length - 1))
    (hc : OnKnots (2 * nc - 1) (u.length * nc) k c) (hc' : OnKnots (2 * nc - 1) (u.length * nc) k c') {v : ℕ → ℕ → V} {junk : K}
    (hv : ∀ j d, j < u.length → d < nc → c.value eps junk (kf u j) d = .ok (v j d))
    (hv' : ∀ j d, j < u.length → d < nc → c'.value eps junk (kf u j) d = .ok (v j d)) : c.poles = c'.poles := by
  obtain ⟨k', ek', P, -, huniq⟩ := C76_unique_hermite heps junk hnc hp (Q := (List.range u.length).map fun j => (List.range nc).map (v j)) (by simp) hn hu
    (by intro q hq; obtain ⟨j, -, rfl⟩ := List.mem_map.mp hq; simp)
  rw [ek] at ek'
  obtain rfl := Except.ok.inj ek'
  have key : ∀ b : Curve K V, OnKnots (2 * nc - 1) (u.length * nc) k b →
      (∀ j d, j < u.length → d < nc → b.value eps junk (kf u j) d = .ok (v j d)) → b.poles = P := by
    intro b hb hbv
    refine huniq _ ⟨hb.len, ?_⟩
    intro j t q d x ht hq hx
    obtain ⟨hj, rfl⟩ := kf_of_some ht
    rw [List.getElem?_map, List.getElem?_range hj] at hq
    obtain rfl : (List.range nc).map (v j) = q := by simpa using hq
    have hd : d < nc := by
      by_contra hc
      rw [List.getElem?_eq_none (by simpa using hc)] at hx
      cases hx
    rw [List.getElem?_map, List.getElem?_range hd] at hx
    obtain rfl : v j d = x := by simpa using hx
    obtain ⟨m0, m1⟩ := ksi_mem hu hj
    obtain ⟨h0, h1⟩ := hb.mem (t := kf u j) (by rw [e0]; exact m0) (by rw [e1]; exact m1)
    have := hbv j d hj hd
    rw [Curve.value_inBounds heps h0 h1, hb.knots, hb.deg] at this
    exact this
  rw [key c hc hv, key c' hc' hv']

/-! ## The blend functions -/

/-- What each branch of the code gives. -/
structure BlendOk (eps : K) (slope : Bool) (ksi : List K) (p N : ℕ) (k : List K) (C : ℕ → Curve K K) : Prop where
  kwf : KWf p k N
  first : kf k p = kf ksi 0
  last : kf k N = kf ksi (ksi.length - 1)
  on : ∀ i, i < ksi.length → OnKnots p N k (C i)
  card : ∀ i j, i < ksi.length → j < ksi.length → ∀ junk, (C i).value eps junk (kf ksi j) 0 = .ok (if i = j then 1 else 0)
  flat : slope = true → ∀ i j, i < ksi.length → j < ksi.length → ∀ junk, (C i).value eps junk (kf ksi j) 1 = .ok 0

theorem averaged_branch {eps meps : K} (heps : 0 < eps) (hm : 0 ≤ meps) (growth junk : K) {ksi : List K} (hn : 3 ≤ ksi.length)
    (hk : ksi.Pairwise (· < ·)) {sparse : ℕ → List (ℕ × ℕ × K) → List K → R (List K)} (hS : Spec.SolvesRegular sparse) :
    ∃ k C, averagedFlatKnots ksi 2 = .ok k ∧ BlendOk eps false ksi 2 ksi.length k C ∧ ∀ i, i < ksi.length → (do
      let d ← wr (List.replicate ksi.length 0) i 1
      interpolateCn eps meps growth junk 0 sparse d ksi 2) = .ok (C i) := by
  obtain ⟨k, ek, -⟩ := C54_averaged_knots (V := K) (p := 2) (by decide) hn hk
  obtain ⟨hU, e0, e1, -⟩ := averaged_coll (by decide) hn hk ek
  have key : ∀ i, ∃ c : Curve K K, i < ksi.length → (do
      let d ← wr (List.replicate ksi.length 0) i 1
      interpolateCn eps meps growth junk 0 sparse d ksi 2) = .ok c ∧ OnKnots 2 ksi.length k c ∧
      ∀ j, j < ksi.length → ∀ junk', c.value eps junk' (kf ksi j) 0 = .ok (if i = j then 1 else 0) := by
    intro i
    by_cases hi : i < ksi.length
    · obtain ⟨c, ec, c1, c2, c3, -, -, c6⟩ := C36_interpolate_points heps hm growth junk (0 : K) (p := 2) (by decide) (by decide)
        (Q := (List.replicate ksi.length (0 : K)).set i 1) (u := ksi) (by simp) hn hk hS
      refine ⟨c, fun _ => ⟨?_, ⟨c1, c2, ?_, by simpa using c3⟩, ?_⟩⟩
      · rw [wr_ok (by simpa using hi), R_bind_ok, ec]
      · unfold interpolateCn at ec
        rw [ek, R_bind_ok] at ec
        obtain ⟨P, -, ec⟩ := R_bind_eq_ok.mp ec
        exact (mk?_eq ec).2.2
      · intro j hj junk'
        refine c6 j _ _ ?_ (kf_getElem? hj) junk'
        rw [getElem?_set_of_lt (by simpa using hi)]
        rcases eq_or_ne i j with rfl | h
        · simp
        · rw [if_neg (Ne.symm h), if_neg h, List.getElem?_replicate, if_pos hj]
    · exact ⟨⟨0, [], [], 0, 0⟩, fun h => absurd h hi⟩
  choose C hC using key
  exact ⟨k, C, ek, ⟨hU, e0, e1, fun i hi => (hC i hi).2.1, fun i j hi hj => (hC i hi).2.2 j hj, fun h => by cases h⟩, fun i hi => (hC i hi).1⟩

theorem hermite_branch {eps meps : K} (heps : 0 < eps) (hm : 0 ≤ meps) (growth junk : K) {ksi : List K} (hn : 2 ≤ ksi.length)
    (hk : ksi.Pairwise (· < ·)) {sparse : ℕ → List (ℕ × ℕ × K) → List K → R (List K)} (hS : Spec.SolvesRegular sparse) {nc : ℕ} (hnc : 1 ≤ nc)
    (hp : 2 * nc - 1 ≤ stackMaxDegree) {slope : Bool} (hs : slope = true → 2 ≤ nc) :
    ∃ k C, flatKnots ksi ((2 * nc) :: (List.replicate (ksi.length - 2) nc ++ [2 * nc])) = .ok k ∧
      BlendOk eps slope ksi (2 * nc - 1) (ksi.length * nc) k C ∧ ∀ i, i < ksi.length → (do
      let d ← blendData ksi.length nc i 0
      interpolateNc eps meps growth junk 0 sparse nc d ksi) = .ok (C i) := by
  obtain ⟨m, hm1⟩ : ∃ m, ksi.length = m + 1 := ⟨ksi.length - 1, by omega⟩
  obtain ⟨k, ek, -⟩ := C76_unique_hermite (V := K) heps junk hnc hp (Q := List.replicate ksi.length (List.replicate nc 0)) (by simp) hn hk
    (by intro q hq; rw [(List.mem_replicate.mp hq).2]; simp)
  have ek' := ek
  rw [show ksi.length - 2 = m - 1 by omega] at ek'
  obtain ⟨hU, h1, h2⟩ := nc_knots hnc (by omega) hm1 hk ek'
  have e0 : kf k (2 * nc - 1) = kf ksi 0 := by have := h1 0 (by omega); rwa [Nat.zero_add] at this
  have e1 : kf k (ksi.length * nc) = kf ksi (ksi.length - 1) := by
    have := h2 (m - 1) (by omega)
    rw [show m - 1 + 2 = m + 1 by omega, show m - 1 + 1 = m by omega] at this
    rw [hm1, this, Nat.add_sub_cancel]
  have key : ∀ i, ∃ c : Curve K K, i < ksi.length → (do
      let d ← blendData ksi.length nc i 0
      interpolateNc eps meps growth junk 0 sparse nc d ksi) = .ok c ∧ OnKnots (2 * nc - 1) (ksi.length * nc) k c ∧
      ∀ j d, j < ksi.length → d < nc → ∀ junk', c.value eps junk' (kf ksi j) d = .ok (if i = j ∧ 0 = d then 1 else 0) := by
    intro i
    by_cases hi : i < ksi.length
    · obtain ⟨d, ed, d1, d2, d3⟩ := blendData_spec (K := K) hi (show 0 < nc by omega)
      obtain ⟨c, ec, c1, c2, c3, -, -, c6⟩ := C36_interpolate_derivatives heps hm growth junk (0 : K) (by omega) hp d1 hn hk d2 hS
      refine ⟨c, fun _ => ⟨by rw [ed, R_bind_ok, ec], ⟨c1, c2, ?_, by rw [c3, d1]⟩, ?_⟩⟩
      · unfold interpolateNc at ec
        rw [usub_ok (by omega), R_bind_ok, if_neg (by omega), show 2 * nc - 1 + 1 = 2 * nc by omega, d1, ek, R_bind_ok] at ec
        obtain ⟨P, -, ec⟩ := R_bind_eq_ok.mp ec
        exact (mk?_eq ec).2.2
      · intro j e hj he junk'
        obtain ⟨q, q1, q2⟩ := d3 j hj
        exact c6 j q _ e _ q1 (kf_getElem? hj) (q2 e he) junk'
    · exact ⟨⟨0, [], [], 0, 0⟩, fun h => absurd h hi⟩
  choose C hC using key
  refine ⟨k, C, ek, ⟨by rw [hm1]; exact hU, e0, e1, fun i hi => (hC i hi).2.1, fun i j hi hj junk' => ?_, fun h i j hi hj junk' => ?_⟩, fun i hi => (hC i hi).1⟩
  · rw [(hC i hi).2.2 j 0 hj (by omega) junk']
    simp
  · rw [(hC i hi).2.2 j 1 hj (hs h) junk']
    simp

/-- All the branches. -/
theorem tfiBlend_branch {eps meps : K} (heps : 0 < eps) (hm : 0 ≤ meps) (growth junk : K) (slope : Bool) {ksi : List K} (hn : 2 ≤ ksi.length)
    (hk : ksi.Pairwise (· < ·)) {sparse : ℕ → List (ℕ × ℕ × K) → List K → R (List K)} (hS : Spec.SolvesRegular sparse) :
    ∃ N k C F, BlendOk eps slope ksi (Spec.blendDegree slope ksi.length) N k C ∧ tfiBlend eps meps growth junk sparse slope ksi = .ok F ∧
      F.length = ksi.length ∧ (∀ i, i < ksi.length → F[i]? = some (C i)) ∧
      ∀ {c c' : Curve K V}, OnKnots (Spec.blendDegree slope ksi.length) N k c → OnKnots (Spec.blendDegree slope ksi.length) N k c' →
        ∀ {v : ℕ → ℕ → V} {junk' : K}, (∀ j d, j < ksi.length → d < (if slope then 2 else 1) → c.value eps junk' (kf ksi j) d = .ok (v j d) ∧
          c'.value eps junk' (kf ksi j) d = .ok (v j d)) → c.poles = c'.poles := by
  have fin : ∀ {C : ℕ → Curve K K} {f : ℕ → R (Curve K K)}, (∀ i, i < ksi.length → f i = .ok (C i)) →
      ∃ F, (List.range ksi.length).mapM f = .ok F ∧ F.length = ksi.length ∧ ∀ i, i < ksi.length → F[i]? = some (C i) := by
    intro C f h
    obtain ⟨F, eF⟩ := mapM_range_exists fun i hi => ⟨_, h i hi⟩
    obtain ⟨F1, F2⟩ := mapM_range_inv eF
    refine ⟨F, eF, F1, fun i hi => ?_⟩
    obtain ⟨y, y1, y2⟩ := F2 i hi
    rw [h i hi] at y1
    rw [y2, Except.ok.inj y1]
  unfold tfiBlend Spec.blendDegree
  cases slope with
  | true =>
    obtain ⟨k, C, ek, hB, hC⟩ := hermite_branch heps hm growth junk hn hk hS (nc := 2) (by decide) (by decide) (slope := true) (fun _ => le_rfl)
    obtain ⟨F, f1, f2, f3⟩ := fin hC
    refine ⟨_, k, C, F, hB, f1, f2, f3, ?_⟩
    intro c c' hc hc' v junk' hv
    exact hermite_eq heps (nc := 2) (by decide) (by decide) hn hk ek hB.first hB.last hc hc' (fun j d hj hd => (hv j d hj hd).1) (fun j d hj hd => (hv j d hj hd).2)
  | false =>
    by_cases h2 : ksi.length = 2
    · obtain ⟨k, C, ek, hB, hC⟩ := hermite_branch heps hm growth junk hn hk hS (nc := 1) (by decide) (by decide) (slope := false) (fun h => by cases h)
      obtain ⟨F, f1, f2, f3⟩ := fin hC
      simp only [if_pos h2]
      refine ⟨_, k, C, F, hB, f1, f2, f3, ?_⟩
      intro c c' hc hc' v junk' hv
      exact hermite_eq heps (nc := 1) (by decide) (by decide) hn hk ek hB.first hB.last hc hc' (fun j d hj hd => (hv j d hj hd).1) (fun j d hj hd => (hv j d hj hd).2)
    · obtain ⟨k, C, ek, hB, hC⟩ := averaged_branch heps hm growth junk (show 3 ≤ ksi.length by omega) hk hS
      obtain ⟨F, f1, f2, f3⟩ := fin hC
      simp only [if_neg h2]
      refine ⟨_, k, C, F, hB, f1, f2, f3, ?_⟩
      intro c c' hc hc' v junk' hv
      exact averaged_eq heps (by decide) (by decide) (show 3 ≤ ksi.length by omega) hk ek hc hc' (v := fun j => v j 0)
        (fun j hj => (hv j 0 hj (by decide)).1) (fun j hj => (hv j 0 hj (by decide)).2)

/-- C130: there is one blend function by parameter, defined between the first and the last ones; it is 1 at its parameter and 0 at the other
ones, and with slope control its slope is 0 at all of them. -/
theorem C130_blend {eps meps : K} (heps : 0 < eps) (hm : 0 ≤ meps) (growth junk : K) (slope : Bool) {ksi : List K} (hn : 2 ≤ ksi.length)
    (hk : ksi.Pairwise (· < ·)) {sparse : ℕ → List (ℕ × ℕ × K) → List K → R (List K)} (hS : Spec.SolvesRegular sparse) :
    ∃ F, tfiBlend eps meps growth junk sparse slope ksi = .ok F ∧ F.length = ksi.length ∧
      ∀ i, i < ksi.length → ∃ f, F[i]? = some f ∧ f.Good ∧ f.deg = Spec.blendDegree slope ksi.length ∧
        some f.b0 = ksi.head? ∧ some f.b1 = ksi.getLast? ∧
        ∀ (j : ℕ) (t : K), ksi[j]? = some t → ∀ junk', f.value eps junk' t 0 = .ok (if i = j then 1 else 0) ∧
          (slope = true → f.value eps junk' t 1 = .ok 0) := by
  obtain ⟨N, k, C, F, hB, eF, lF, hF, -⟩ := tfiBlend_branch (V := K) heps hm growth junk slope hn hk hS
  refine ⟨F, eF, lF, fun i hi => ⟨C i, hF i hi, (hB.on i hi).good, (hB.on i hi).deg, ?_, ?_, ?_⟩⟩
  · rw [(hB.on i hi).good.lo, (hB.on i hi).deg, (hB.on i hi).knots, hB.first, List.head?_eq_getElem?, kf_getElem? (by omega)]
  · rw [(hB.on i hi).good.hi, (hB.on i hi).len, (hB.on i hi).knots, hB.last, List.getLast?_eq_getElem?, kf_getElem? (by omega)]
  · intro j t ht junk'
    obtain ⟨hj, rfl⟩ := kf_of_some ht
    exact ⟨hB.card i j hi hj junk', fun h => hB.flat h i j hi hj junk'⟩

/-- C130: the combination of values of a polynomial by the blend functions is this polynomial everywhere between the parameters: of
degree at most the one of the functions without slope control, of degree 0 with it. -/
theorem C130_reproduces {eps meps : K} (heps : 0 < eps) (hm : 0 ≤ meps) (growth junk : K) (slope : Bool) {ksi : List K} (hn : 2 ≤ ksi.length)
    (hk : ksi.Pairwise (· < ·)) {sparse : ℕ → List (ℕ × ℕ × K) → List K → R (List K)} (hS : Spec.SolvesRegular sparse) (A : ℕ → V)
    (hA : slope = true → ∀ e, e ≠ 0 → A e = 0) {F : List (Curve K K)} (eF : tfiBlend eps meps growth junk sparse slope ksi = .ok F) {t : K}
    (h0 : kf ksi 0 ≤ t) (h1 : t ≤ kf ksi (ksi.length - 1)) (junk' : K) :
    ∃ a : ℕ → K, (∀ i, i < ksi.length → ∃ f, F[i]? = some f ∧ f.value eps junk' t 0 = .ok (a i)) ∧
      ∑ i ∈ Finset.range ksi.length, a i • ∑ e ∈ Finset.range (Spec.blendDegree slope ksi.length + 1), kf ksi i ^ e • A e =
        ∑ e ∈ Finset.range (Spec.blendDegree slope ksi.length + 1), t ^ e • A e := by
  obtain ⟨N, k, C, F', hB, eF', lF, hF, huniq⟩ := tfiBlend_branch (V := V) heps hm growth junk slope hn hk hS
  rw [eF] at eF'
  obtain rfl := Except.ok.inj eF'
  set p := Spec.blendDegree slope ksi.length with hpd
  have hp : p ≤ stackMaxDegree := by rw [hpd]; unfold Spec.blendDegree stackMaxDegree; split_ifs <;> omega
  set q : ℕ → V := fun i => ∑ e ∈ Finset.range (p + 1), kf ksi i ^ e • A e with hq
  have hC : ∀ i, i < ksi.length → (C i).Good ∧ (C i).deg = p ∧ (C i).knots = k ∧ (C i).poles.length = N := fun i hi =>
    ⟨(hB.on i hi).good, (hB.on i hi).deg, (hB.on i hi).knots, (hB.on i hi).len⟩
  have o1 : OnKnots p N k (combCurve p N ksi.length k C q) := ⟨combCurve_good hB.kwf, rfl, rfl, combCurve_length⟩
  have o2 : OnKnots p N k (polyCurve p N k A) := ⟨polyCurve_good hB.kwf, rfl, rfl, polyCurve_length⟩
  have hpoles : (combCurve p N ksi.length k C q).poles = (polyCurve p N k A).poles := by
    refine huniq o1 o2 (v := fun j d => if d = 0 then q j else 0) (junk' := junk') ?_
    intro j d hj hd
    obtain ⟨m0, m1⟩ := ksi_mem hk hj
    rw [← hB.first] at m0
    rw [← hB.last] at m1
    rcases Nat.eq_zero_or_pos d with rfl | hd0
    · refine ⟨?_, ?_⟩
      · rw [combCurve_value heps hB.kwf hp hC m0 m1 (fun i hi => hB.card i j hi hj junk') junk', if_pos rfl]
        congr 1
        rw [Finset.sum_eq_single j]
        · simp
        · intro i _ hij
          rw [if_neg hij, zero_smul]
        · intro h
          exact absurd (Finset.mem_range.mpr hj) h
      · rw [polyCurve_value heps hB.kwf hp m0 m1, if_pos rfl]
    · cases slope with
      | false => exact absurd hd (by simp; omega)
      | true =>
        obtain rfl : d = 1 := by simp at hd; omega
        refine ⟨?_, ?_⟩
        · rw [combCurve_value heps hB.kwf hp hC m0 m1 (fun i hi => hB.flat rfl i j hi hj junk') junk', if_neg one_ne_zero]
          simp
        · rw [if_neg one_ne_zero]
          exact polyCurve_slope (p := 2) heps hB.kwf hp (hA rfl) m0 m1 junk'
  have hc : combCurve p N ksi.length k C q = polyCurve p N k A := by
    unfold combCurve polyCurve at hpoles ⊢
    dsimp only at hpoles
    rw [hpoles]
  rw [← hB.first] at h0
  rw [← hB.last] at h1
  have hex : ∀ i, ∃ a, i < ksi.length → (C i).value eps junk' t 0 = .ok a := by
    intro i
    by_cases hi : i < ksi.length
    · obtain ⟨b0, b1⟩ := (hB.on i hi).mem h0 h1
      obtain ⟨s, -, -, -, -, hv⟩ := Curve.value_span heps (hB.on i hi).good (Or.inl (by rw [(hB.on i hi).deg]; exact hp)) b0 b1
      exact ⟨_, fun _ => hv junk' 0⟩
    · exact ⟨0, fun h => absurd h hi⟩
  choose a ha using hex
  refine ⟨a, fun i hi => ⟨C i, hF i hi, ha i hi⟩, ?_⟩
  have e := combCurve_value (q := q) heps hB.kwf hp hC h0 h1 ha junk'
  rw [hc, polyCurve_value heps hB.kwf hp h0 h1] at e
  exact (Except.ok.inj e).symm

/-- C130: the sum of the blend functions is 1 everywhere between the parameters. -/
theorem C130_unity {eps meps : K} (heps : 0 < eps) (hm : 0 ≤ meps) (growth junk : K) (slope : Bool) {ksi : List K} (hn : 2 ≤ ksi.length)
    (hk : ksi.Pairwise (· < ·)) {sparse : ℕ → List (ℕ × ℕ × K) → List K → R (List K)} (hS : Spec.SolvesRegular sparse)
    {F : List (Curve K K)} (eF : tfiBlend eps meps growth junk sparse slope ksi = .ok F) {t : K}
    (h0 : kf ksi 0 ≤ t) (h1 : t ≤ kf ksi (ksi.length - 1)) (junk' : K) :
    ∃ a : ℕ → K, (∀ i, i < ksi.length → ∃ f, F[i]? = some f ∧ f.value eps junk' t 0 = .ok (a i)) ∧ ∑ i ∈ Finset.range ksi.length, a i = 1 := by
  obtain ⟨a, ha, e⟩ := C130_reproduces heps hm growth junk slope hn hk hS (fun e => if e = 0 then (1 : K) else 0) (fun _ e he => by simp [he]) eF h0 h1 junk'
  refine ⟨a, ha, ?_⟩
  have hs : ∀ (x : K) (p : ℕ), ∑ e ∈ Finset.range (p + 1), x ^ e • (if e = 0 then (1 : K) else 0) = 1 := by
    intro x p
    rw [Finset.sum_eq_single 0]
    · simp
    · intro e _ he
      simp [he]
    · simp
  simp only [hs] at e
  simp only [smul_eq_mul, mul_one] at e
  exact e

/-- C130: without parameter there is no function, and one parameter with slope control makes the code access a list outside of its bounds. -/
theorem C130_few (eps meps growth junk : K) (sparse : ℕ → List (ℕ × ℕ × K) → List K → R (List K)) (slope : Bool) (x : K) :
    tfiBlend eps meps growth junk sparse slope [] = .ok [] ∧ tfiBlend eps meps growth junk sparse true [x] = .error .oob := by
  constructor <;> rfl

/-- Four parameters without slope control: the functions are 1 and 0 at the parameters, and reproduce the squares between them. -/
example : ∃ (sparse : ℕ → List (ℕ × ℕ × ℚ) → List ℚ → R (List ℚ)) (F : List (Curve ℚ ℚ)) (a : ℕ → ℚ),
    tfiBlend (1 / 1000) (1 / 1000000) 10000 7 sparse false [0, 1, 3, 4] = .ok F ∧
    (∀ i, i < 4 → ∃ f, F[i]? = some f ∧ f.value (1 / 1000) 7 2 0 = .ok (a i)) ∧ a 1 + 9 * a 2 + 16 * a 3 = 4 := by
  obtain ⟨sparse, hS⟩ := exists_solvesRegular (K := ℚ) (V := ℚ)
  obtain ⟨F, eF, -⟩ := C130_blend (eps := (1 / 1000 : ℚ)) (meps := 1 / 1000000) (by norm_num) (by norm_num) 10000 7 false (ksi := [0, 1, 3, 4])
    (by decide) (by decide +kernel) hS
  obtain ⟨a, ha, e⟩ := C130_reproduces (eps := (1 / 1000 : ℚ)) (meps := 1 / 1000000) (by norm_num) (by norm_num) 10000 7 false (ksi := [0, 1, 3, 4])
    (by decide) (by decide +kernel) hS (fun e => if e = 2 then (1 : ℚ) else 0) (fun h => by cases h) eF (t := 2) (by decide +kernel) (by decide +kernel) 7
  refine ⟨sparse, F, a, eF, ha, ?_⟩
  simp [Spec.blendDegree, Finset.sum_range_succ, kf] at e
  linarith

/-- Three parameters with slope control: the sum of the functions between the parameters. -/
example : ∃ (sparse : ℕ → List (ℕ × ℕ × ℚ) → List ℚ → R (List ℚ)) (F : List (Curve ℚ ℚ)) (a : ℕ → ℚ),
    tfiBlend (1 / 1000) (1 / 1000000) 10000 7 sparse true [0, 1, 3] = .ok F ∧
    (∀ i, i < 3 → ∃ f, F[i]? = some f ∧ f.value (1 / 1000) 7 2 0 = .ok (a i)) ∧ a 0 + a 1 + a 2 = 1 := by
  obtain ⟨sparse, hS⟩ := exists_solvesRegular (K := ℚ) (V := ℚ)
  obtain ⟨F, eF, -⟩ := C130_blend (eps := (1 / 1000 : ℚ)) (meps := 1 / 1000000) (by norm_num) (by norm_num) 10000 7 true (ksi := [0, 1, 3])
    (by decide) (by decide +kernel) hS
  obtain ⟨a, ha, e⟩ := C130_unity (eps := (1 / 1000 : ℚ)) (meps := 1 / 1000000) (by norm_num) (by norm_num) 10000 7 true (ksi := [0, 1, 3])
    (by decide) (by decide +kernel) hS eF (t := 2) (by decide +kernel) (by decide +kernel) 7
  refine ⟨sparse, F, a, eF, ha, ?_⟩
  simpa [Finset.sum_range_succ] using e

end Gbs
