import Verif.Lemmas.Connect

/-!
# C96: connections of curves

`cn_connect`, `c2_connect` and `c3_connect` return a curve that continues the first curve at its end and runs into the second one at its start,
with all the derivatives up to the announced order.
-/

namespace Gbs

set_option linter.unusedSectionVars false

open Polynomial
open scoped BigOperators

variable {K : Type} [Field K] [LinearOrder K] [IsStrictOrderedRing K]
variable {V : Type} [AddCommGroup V] [Module K V]

/-- The curve `c` starts with the derivatives of `f` at its end and ends with those of `g` at its start, up to the order `n`. -/
def Spec.Connects (eps : K) (n : ℕ) (f g : CrvFn K V) (c : Curve K V) : Prop :=
  ∀ i, i ≤ n → ∀ v junk, (f.val f.b1 i = .ok v → c.value eps junk c.b0 i = .ok v) ∧ (g.val g.b0 i = .ok v → c.value eps junk c.b1 i = .ok v)

/-- The end of `f` and the start of `g` can be evaluated up to the order `n`. -/
def Spec.EndsTo (n : ℕ) (f g : CrvFn K V) (F G : ℕ → V) : Prop :=
  ∀ i, i ≤ n → f.val f.b1 i = .ok (F i) ∧ g.val g.b0 i = .ok (G i)

theorem Spec.EndsTo.connects {eps : K} {n : ℕ} {f g : CrvFn K V} {F G : ℕ → V} (h : Spec.EndsTo n f g F G) {c : Curve K V}
    (hc : ∀ i, i ≤ n → ∀ junk, c.value eps junk c.b0 i = .ok (F i) ∧ c.value eps junk c.b1 i = .ok (G i)) : Spec.Connects eps n f g c := by
  intro i hi v junk
  constructor
  · intro e
    rw [(h i hi).1] at e
    rw [← Except.ok.inj e]
    exact (hc i hi junk).1
  · intro e
    rw [(h i hi).2] at e
    rw [← Except.ok.inj e]
    exact (hc i hi junk).2

/-! ## Chord length -/

theorem chord_connect {o : ConnNum K V} (heps : 0 < o.eps) (hm : 0 ≤ o.meps) (hS : Spec.SolvesRegular o.sparse) {p1 p2 : V} {q1 q2 : List V}
    (hp : 2 * (q1.length + 1) - 1 ≤ stackMaxDegree) (hq : q2.length = q1.length) (hd : 0 < o.norm (p2 - p1)) :
    ∃ c, interpolateChord o (q1.length + 1) [p1 :: q1, p2 :: q2] = .ok c ∧ c.Good ∧ c.deg = 2 * (q1.length + 1) - 1 ∧
      c.poles.length = 2 * (q1.length + 1) ∧ c.b0 = 0 ∧ c.b1 = o.norm (p2 - p1) ∧
      ∀ i junk, (∀ v, (p1 :: q1)[i]? = some v → c.value o.eps junk c.b0 i = .ok v) ∧
        (∀ v, (p2 :: q2)[i]? = some v → c.value o.eps junk c.b1 i = .ok v) := by
  obtain ⟨c, ec, hg, hdeg, hl, h0, h1, hv⟩ := C36_interpolate_derivatives heps hm o.growth o.junk o.x0 (nc := q1.length + 1) (by omega) hp
    (Q := [p1 :: q1, p2 :: q2]) (u := [0, o.norm (p2 - p1)]) rfl (by simp) (by simpa using hd) (by simp [hq]) hS
  have hb0 : c.b0 = 0 := by simpa using h0
  have hb1 : c.b1 = o.norm (p2 - p1) := by simpa using h1
  refine ⟨c, ?_, hg, hdeg, by simpa using hl, hb0, hb1, ?_⟩
  · rw [← ec]
    unfold interpolateChord
    simp [rd, curveParametrization, cumulate, bind, Except.bind, pure, Except.pure, List.mapM_cons, List.mapM_nil]
  · intro i junk
    constructor
    · intro v h
      rw [hb0]
      exact hv 0 (p1 :: q1) 0 i v rfl rfl h junk
    · intro v h
      rw [hb1]
      exact hv 1 (p2 :: q2) _ i v rfl rfl h junk

/-- C96, `c2_connect`: for two curves whose facing ends are distinct points, the connection exists, is a Bezier curve of degree 5 on the length of
the gap, and has the point, the first and the second derivative of the first curve at its start and of the second curve at its end. -/
theorem C96_c2 {o : ConnNum K V} (heps : 0 < o.eps) (hm : 0 ≤ o.meps) (hS : Spec.SolvesRegular o.sparse) {f g : CrvFn K V} {F G : ℕ → V}
    (h : Spec.EndsTo 2 f g F G) (hd : 0 < o.norm (G 0 - F 0)) :
    ∃ c, c2Connect o f g = .ok c ∧ c.Good ∧ c.deg = 5 ∧ c.poles.length = 6 ∧ c.b0 = 0 ∧ c.b1 = o.norm (G 0 - F 0) ∧
      Spec.Connects o.eps 2 f g c := by
  obtain ⟨c, ec, hg, hdeg, hl, h0, h1, hv⟩ := chord_connect heps hm hS (p1 := F 0) (p2 := G 0) (q1 := [F 1, F 2]) (q2 := [G 1, G 2])
    (by simp [stackMaxDegree]) rfl hd
  refine ⟨c, ?_, hg, by simpa using hdeg, by simpa using hl, h0, h1, h.connects ?_⟩
  · unfold c2Connect
    simp only [(h 0 (by omega)).1, (h 1 (by omega)).1, (h 2 le_rfl).1, (h 0 (by omega)).2, (h 1 (by omega)).2, (h 2 le_rfl).2, R_bind_ok]
    exact ec
  · intro i hi junk
    interval_cases i <;> exact ⟨(hv _ junk).1 _ rfl, (hv _ junk).2 _ rfl⟩

/-- C96, `c2_connect` with scaled third derivatives: of order 2, and the third derivatives at the two ends are those of the curves multiplied by
the two given numbers. -/
theorem C96_c2_scaled {o : ConnNum K V} (heps : 0 < o.eps) (hm : 0 ≤ o.meps) (hS : Spec.SolvesRegular o.sparse) {f g : CrvFn K V} {F G : ℕ → V}
    (h : Spec.EndsTo 3 f g F G) (hd : 0 < o.norm (G 0 - F 0)) (s1 s2 : K) :
    ∃ c, c2ConnectScaled o f g s1 s2 = .ok c ∧ c.Good ∧ c.deg = 7 ∧ c.b0 = 0 ∧ c.b1 = o.norm (G 0 - F 0) ∧ Spec.Connects o.eps 2 f g c ∧
      ∀ junk, c.value o.eps junk c.b0 3 = .ok (s1 • F 3) ∧ c.value o.eps junk c.b1 3 = .ok (s2 • G 3) := by
  obtain ⟨c, ec, hg, hdeg, hl, h0, h1, hv⟩ := chord_connect heps hm hS (p1 := F 0) (p2 := G 0) (q1 := [F 1, F 2, s1 • F 3])
    (q2 := [G 1, G 2, s2 • G 3]) (by simp [stackMaxDegree]) rfl hd
  refine ⟨c, ?_, hg, by simpa using hdeg, h0, h1, Spec.EndsTo.connects (F := F) (G := G) (fun i hi => h i (by omega)) ?_,
    fun junk => ⟨(hv 3 junk).1 _ rfl, (hv 3 junk).2 _ rfl⟩⟩
  · unfold c2ConnectScaled
    simp only [(h 0 (by omega)).1, (h 1 (by omega)).1, (h 2 (by omega)).1, (h 3 le_rfl).1, (h 0 (by omega)).2, (h 1 (by omega)).2,
      (h 2 (by omega)).2, (h 3 le_rfl).2, R_bind_ok]
    exact ec
  · intro i hi junk
    interval_cases i <;> exact ⟨(hv _ junk).1 _ rfl, (hv _ junk).2 _ rfl⟩

/-- C96, `c3_connect`: a Bezier curve of degree 7 on the length of the gap that meets both curves with three derivatives. -/
theorem C96_c3 {o : ConnNum K V} (heps : 0 < o.eps) (hm : 0 ≤ o.meps) (hS : Spec.SolvesRegular o.sparse) {f g : CrvFn K V} {F G : ℕ → V}
    (h : Spec.EndsTo 3 f g F G) (hd : 0 < o.norm (G 0 - F 0)) :
    ∃ c, c3Connect o f g = .ok c ∧ c.Good ∧ c.deg = 7 ∧ c.poles.length = 8 ∧ c.b0 = 0 ∧ c.b1 = o.norm (G 0 - F 0) ∧
      Spec.Connects o.eps 3 f g c := by
  obtain ⟨c, ec, hg, hdeg, hl, h0, h1, hv⟩ := chord_connect heps hm hS (p1 := F 0) (p2 := G 0) (q1 := [F 1, F 2, F 3])
    (q2 := [G 1, G 2, G 3]) (by simp [stackMaxDegree]) rfl hd
  refine ⟨c, ?_, hg, by simpa using hdeg, by simpa using hl, h0, h1, h.connects ?_⟩
  · unfold c3Connect
    simp only [(h 0 (by omega)).1, (h 1 (by omega)).1, (h 2 (by omega)).1, (h 3 le_rfl).1, (h 0 (by omega)).2, (h 1 (by omega)).2,
      (h 2 (by omega)).2, (h 3 le_rfl).2, R_bind_ok]
    exact ec
  · intro i hi junk
    interval_cases i <;> exact ⟨(hv _ junk).1 _ rfl, (hv _ junk).2 _ rfl⟩

/-! ## Any order -/

theorem cnConstraints_spec {f g : CrvFn K V} {F G : ℕ → V} {n : ℕ} (h : Spec.EndsTo n f g F G) (du : K) :
    ∃ cs, cnConstraints f g du n = .ok cs ∧ cs.length = 2 * n ∧
      (cs.map Constr.u).Perm (List.replicate n 0 ++ List.replicate n du) ∧
      ∀ i, 1 ≤ i → i ≤ n → (⟨0, i, F i⟩ : Constr K V) ∈ cs ∧ (⟨du, i, G i⟩ : Constr K V) ∈ cs := by
  obtain ⟨cs, e, h1, h2, h3⟩ := forLe_inv (a := 1) (b := n) (s := ([] : List (Constr K V)))
    (body := fun i cs => do
      let a ← f.val f.b1 i
      let b ← g.val g.b0 i
      pure (cs ++ [⟨0, i, a⟩] ++ [⟨du, i, b⟩]))
    (fun i cs => cs.length = 2 * (i - 1) ∧ (cs.map Constr.u).Perm (List.replicate (i - 1) 0 ++ List.replicate (i - 1) du) ∧
      ∀ j, 1 ≤ j → j < i → (⟨0, j, F j⟩ : Constr K V) ∈ cs ∧ (⟨du, j, G j⟩ : Constr K V) ∈ cs) (by omega)
    (by simp; omega)
    (by
      rintro i s g1 g2 ⟨a1, a2, a3⟩
      refine ⟨s ++ [⟨0, i, F i⟩] ++ [⟨du, i, G i⟩], ?_, ?_, ?_, ?_⟩
      · simp only [(h i g2).1, (h i g2).2, R_bind_ok]
        rfl
      · simp [a1]; omega
      · obtain ⟨i, rfl⟩ : ∃ j, i = j + 1 := ⟨i - 1, by omega⟩
        simp only [Nat.add_sub_cancel, List.map_append, List.map_cons, List.map_nil] at a2 ⊢
        rw [List.replicate_succ', List.replicate_succ']
        have e1 : (s.map Constr.u ++ [0] ++ [du]).Perm (List.replicate i 0 ++ List.replicate i du ++ [0] ++ [du]) :=
          (a2.append_right [0]).append_right [du]
        refine e1.trans ?_
        rw [← List.append_assoc]
        apply List.Perm.append_right
        rw [List.append_assoc, List.append_assoc]
        exact List.Perm.append_left _ List.perm_append_comm
      · intro j j1 j2
        rcases Nat.lt_or_ge j i with h' | h'
        · obtain ⟨b1, b2⟩ := a3 j j1 h'
          exact ⟨by simp [b1], by simp [b2]⟩
        · obtain rfl : j = i := by omega
          exact ⟨by simp, by simp⟩)
  exact ⟨cs, e, by simpa using h1, by simpa using h2, fun i i1 i2 => h3 i i1 (by omega)⟩

/-- C96, `cn_connect`: for a positive parameter length `du` and a degree above the order `n`, the connection exists, is a curve of the degree
`min p (2 n + 1)` on `[0,du]` with `2 n + 2` poles, and meets both curves with all the derivatives up to the order `n`. -/
theorem C96_cn {o : ConnNum K V} (heps : 0 < o.eps) (hS : Spec.SolvesDense o.dense) {f g : CrvFn K V} {F G : ℕ → V} {n p : ℕ}
    (h : Spec.EndsTo n f g F G) {du : K} (hdu : 0 < du) (hn : n + 1 ≤ p) (hp : min p (2 * n + 1) ≤ stackMaxDegree) :
    ∃ c, cnConnect o f g du p n = .ok c ∧ c.Good ∧ c.deg = min p (2 * n + 1) ∧ c.poles.length = 2 * n + 2 ∧ c.b0 = 0 ∧ c.b1 = du ∧
      Spec.Connects o.eps n f g c := by
  obtain ⟨cs, ecs, hl, hperm, hmem⟩ := cnConstraints_spec h du
  set q := min p (2 * n + 1) with hq
  have hw0 : ∀ j, j ≤ n → kf (List.replicate (n + 1) 0 ++ List.replicate (n + 1) du) j = 0 := by
    intro j hj
    rw [kf_of_lt (by simp; omega), List.getElem_append_left (by simp; omega), List.getElem_replicate]
  have hw1 : ∀ j, n < j → j < 2 * n + 2 → kf (List.replicate (n + 1) 0 ++ List.replicate (n + 1) du) j = du := by
    intro j hj hj2
    rw [kf_of_lt (by simp; omega), List.getElem_append_right (by simp; omega), List.getElem_replicate]
  obtain ⟨c, ec, hg, hdeg, hlp, hb0, hb1, hv, -⟩ := bounds_connect heps o.junk (p := q) (b := (0, F 0)) (e := (du, G 0)) (cs := cs)
    (w := List.replicate (n + 1) 0 ++ List.replicate (n + 1) du) (by omega) hp (by omega) hdu
    (by
      rw [List.pairwise_append]
      refine ⟨List.pairwise_replicate.mpr (Or.inr le_rfl), List.pairwise_replicate.mpr (Or.inr le_rfl), ?_⟩
      intro a ha b hb
      rw [List.eq_of_mem_replicate ha, List.eq_of_mem_replicate hb]
      exact hdu.le)
    (by
      rw [List.replicate_succ', List.replicate_succ', ← List.append_assoc]
      refine List.Perm.trans ?_ (hperm.append_right [0, du]).symm
      rw [List.append_assoc (List.replicate n 0 ++ [0]), List.append_assoc, List.append_assoc]
      refine List.Perm.append_left _ ?_
      have : ([0] ++ List.replicate n du).Perm (List.replicate n du ++ [0]) := List.perm_append_comm
      have := this.append_right [du]
      simpa using this)
    (hw0 0 (by omega)) (hw1 _ (by omega) (by omega))
    (by
      rw [hperm.count_eq, List.count_append, List.count_replicate_self, List.count_replicate, if_neg (by simpa using hdu.ne')]
      omega)
    (by
      rw [hperm.count_eq, List.count_append, List.count_replicate_self, List.count_replicate, if_neg (by simpa using hdu.ne)]
      omega)
    (by rw [hw0 0 (by omega), hw1 _ (by omega) (by omega)]; exact hdu)
    (by rw [hw0 _ (by omega), hw1 _ (by omega) (by omega)]; exact hdu)
    (by
      intro k hU hk0 hk1 _
      refine ends_unisolvent heps hdu (m := n) (s := n) hp hU hk0 hk1 (by omega) (by omega) (by omega) ?_ ?_
      · intro d hd
        rcases Nat.eq_zero_or_pos d with rfl | h'
        · exact ⟨F 0, by simp⟩
        · exact ⟨F d, by simp [(hmem d h' hd).1]⟩
      · intro d hd
        rcases Nat.eq_zero_or_pos d with rfl | h'
        · exact ⟨G 0, by simp⟩
        · exact ⟨G d, by simp [(hmem d h' hd).2]⟩)
    hS
  refine ⟨c, ?_, hg, hdeg, by omega, hb0, hb1, h.connects ?_⟩
  · unfold cnConnect
    rw [(h 0 (by omega)).1, R_bind_ok, (h 0 (by omega)).2, R_bind_ok, ecs, R_bind_ok]
    exact ec
  · intro i hi junk
    obtain ⟨v1, v2, v3⟩ := hv junk
    rw [hb0, hb1]
    rcases Nat.eq_zero_or_pos i with rfl | h'
    · exact ⟨v1, v2⟩
    · exact ⟨v3 _ (hmem i h' hi).1, v3 _ (hmem i h' hi).2⟩

/-! ## Mimicking an ellipse -/

/-- First derivative in the middle of the cubic that `c2_connect` starts from, by the data at the ends; `a` is the length of its domain. -/
def Spec.midTangent2 (a : K) (p1 p2 t1 t2 c1 c2 : V) : V := (9 / (4 * a)) • (p2 - p1) - (5 / 8 : K) • (t1 + t2) + (a / 16) • (c2 - c1)

/-- Second derivative there. -/
def Spec.midSecond2 (a : K) (t1 t2 c1 c2 : V) : V := (3 / (2 * a)) • (t2 - t1) - (1 / 4 : K) • (c1 + c2)

/-- The cubic that `c2_connect` starts from, and its derivatives in the middle. -/
theorem c2_start {o : ConnNum K V} (heps : 0 < o.eps) (hS : Spec.SolvesDense o.dense) {a : K} (ha : 0 < a) (p1 p2 t1 t2 c1 c2 : V) :
    ∃ c, interpolateBounds o.eps o.junk o.dense (0, p1) (a, p2) [⟨0, 1, t1⟩, ⟨0, 2, c1⟩, ⟨a, 1, t2⟩, ⟨a, 2, c2⟩] 3 = .ok c ∧
      ∀ junk, c.value o.eps junk (a / 2) 1 = .ok (Spec.midTangent2 a p1 p2 t1 t2 c1 c2) ∧
        c.value o.eps junk (a / 2) 2 = .ok (Spec.midSecond2 a t1 t2 c1 c2) := by
  obtain ⟨c, ec, hg, hdeg, hl, hb0, hb1, hv, hk0, hk1, hki⟩ := bounds_connect heps o.junk (p := 3) (b := (0, p1)) (e := (a, p2))
    (cs := [⟨0, 1, t1⟩, ⟨0, 2, c1⟩, ⟨a, 1, t2⟩, ⟨a, 2, c2⟩]) (w := [0, 0, 0, a, a, a]) (by omega) (by simp [stackMaxDegree]) (by simp) ha
    (by simp [ha.le])
    (by
      refine List.Perm.cons _ (List.Perm.cons _ ?_)
      exact (List.perm_middle (l₁ := [a, a]) (a := 0) (l₂ := [a])).symm)
    (by simp [kf]) (by simp [kf]) (by simp [ha.ne']) (by simp [ha.ne]) (by simpa [kf] using ha)
    (by simpa [kf] using ha)
    (by
      intro k hU hk0 hk1 _
      refine ends_unisolvent heps ha (m := 2) (s := 2) (by simp [stackMaxDegree]) hU hk0 hk1 (by omega) (by omega) (by simp) ?_ ?_
      · intro d hd
        interval_cases d
        · exact ⟨p1, by simp⟩
        · exact ⟨t1, by simp⟩
        · exact ⟨c1, by simp⟩
      · intro d hd
        interval_cases d
        · exact ⟨p2, by simp⟩
        · exact ⟨t2, by simp⟩
        · exact ⟨c2, by simp⟩)
    hS
  refine ⟨c, ec, ?_⟩
  have hl6 : c.poles.length = 6 := by simpa using hl
  have hb0' : c.b0 = 0 := hb0
  have hb1' : c.b1 = a := hb1
  have hmono := kf_mono hg.wf.sorted
  have k3 : kf c.knots 3 = 0 := hk0 3 le_rfl
  have k4 : kf c.knots 4 = a / 3 := by
    have := hki 1 le_rfl (by simp)
    simpa [Finset.sum_range_succ, kf] using this
  have k5 : kf c.knots 5 = 2 * a / 3 := by
    have := hki 2 (by omega) (by simp)
    rw [show (3 : ℕ) + 2 = 5 by rfl] at this
    rw [this]
    simp [Finset.sum_range_succ, kf]
    ring
  have k6 : ∀ j, 6 ≤ j → kf c.knots j = a := fun j hj => hk1 j (by simpa using hj)
  have vat : ∀ u : K, 0 ≤ u → u ≤ a → ∀ i, Spec.InSpan (kf c.knots) a i u → ∀ junk d,
      c.value o.eps junk u d = .ok (spanDer (kf c.knots) 6 3 i (pf c.poles) d u) := by
    intro u h1 h2 i hi junk d
    have := Curve.value_at heps hg (by rw [hdeg]; simp [stackMaxDegree]) (u := u) (by rw [hb0']; exact h1) (by rw [hb1']; exact h2)
      (i := i) (by rw [hl6, k6 6 le_rfl]; exact hi) junk d
    rwa [hl6, hdeg] at this
  have s0 : Spec.InSpan (kf c.knots) a 3 0 := by
    unfold Spec.InSpan; rw [if_neg ha.ne, k3, k4]; exact ⟨le_rfl, by positivity⟩
  have s1 : Spec.InSpan (kf c.knots) a 5 a := by
    unfold Spec.InSpan; rw [if_pos rfl, k5, k6 6 le_rfl]; exact ⟨by linarith, rfl⟩
  have sm : Spec.InSpan (kf c.knots) a 4 (a / 2) := by
    unfold Spec.InSpan; rw [if_neg (by linarith), k4, k5]; exact ⟨by linarith, by linarith⟩
  have ev0 : ∀ d v, c.value o.eps o.junk 0 d = .ok v → spanDer (kf c.knots) 6 3 3 (pf c.poles) d 0 = v := by
    intro d v h
    rw [vat 0 le_rfl ha.le 3 s0] at h
    exact Except.ok.inj h
  have ev1 : ∀ d v, c.value o.eps o.junk a d = .ok v → spanDer (kf c.knots) 6 3 5 (pf c.poles) d a = v := by
    intro d v h
    rw [vat a ha.le le_rfl 5 s1] at h
    exact Except.ok.inj h
  obtain ⟨v1, v2, v3⟩ := hv o.junk
  obtain ⟨m1, m2⟩ := cubic_mid hmono ha (hk0 1 (by omega)) (hk0 2 (by omega)) k3 k4 k5 (k6 6 le_rfl) (k6 7 (by omega)) (k6 8 (by omega)) (pf c.poles)
  rw [ev0 0 _ v1, ev1 0 _ v2, ev0 1 _ (v3 ⟨0, 1, t1⟩ (by simp)), ev1 1 _ (v3 ⟨a, 1, t2⟩ (by simp)), ev0 2 _ (v3 ⟨0, 2, c1⟩ (by simp)),
    ev1 2 _ (v3 ⟨a, 2, c2⟩ (by simp))] at m1
  rw [ev0 1 _ (v3 ⟨0, 1, t1⟩ (by simp)), ev1 1 _ (v3 ⟨a, 1, t2⟩ (by simp)), ev0 2 _ (v3 ⟨0, 2, c1⟩ (by simp)),
    ev1 2 _ (v3 ⟨a, 2, c2⟩ (by simp))] at m2
  intro junk
  rw [vat (a / 2) (by positivity) (by linarith) 4 sm, vat (a / 2) (by positivity) (by linarith) 4 sm, m1, m2]
  exact ⟨rfl, rfl⟩

/-- The final interpolation of `c2_connect`. -/
theorem c2_final {o : ConnNum K V} (heps : 0 < o.eps) (hS : Spec.SolvesDense o.dense) {a : K} (ha : 0 < a) (p1 p2 t1 t2 c1 c2 tg cr : V) :
    ∃ c, interpolateBounds o.eps o.junk o.dense (0, p1) (a, p2)
        [⟨0, 1, t1⟩, ⟨0, 2, c1⟩, ⟨a, 1, t2⟩, ⟨a, 2, c2⟩, ⟨a / 2, 1, tg⟩, ⟨a / 2, 2, cr⟩] 4 = .ok c ∧ c.Good ∧ c.deg = 4 ∧ c.poles.length = 8 ∧
      c.b0 = 0 ∧ c.b1 = a ∧ ∀ junk, c.value o.eps junk 0 0 = .ok p1 ∧ c.value o.eps junk a 0 = .ok p2 ∧
        c.value o.eps junk 0 1 = .ok t1 ∧ c.value o.eps junk a 1 = .ok t2 ∧ c.value o.eps junk 0 2 = .ok c1 ∧ c.value o.eps junk a 2 = .ok c2 ∧
        c.value o.eps junk (a / 2) 1 = .ok tg ∧ c.value o.eps junk (a / 2) 2 = .ok cr := by
  have ha2 : a / 2 < a := by linarith
  have ha0 : 0 < a / 2 := by positivity
  obtain ⟨c, ec, hg, hdeg, hl, hb0, hb1, hv, -⟩ := bounds_connect heps o.junk (p := 4) (b := (0, p1)) (e := (a, p2))
    (cs := [⟨0, 1, t1⟩, ⟨0, 2, c1⟩, ⟨a, 1, t2⟩, ⟨a, 2, c2⟩, ⟨a / 2, 1, tg⟩, ⟨a / 2, 2, cr⟩]) (w := [0, 0, 0, a / 2, a / 2, a, a, a])
    (by omega) (by simp [stackMaxDegree]) (by simp) ha (by simp [ha.le, ha2.le, ha0.le])
    (by
      refine List.Perm.cons _ (List.Perm.cons _ ?_)
      refine List.Perm.trans ?_ (List.perm_middle (l₁ := [a, a, a / 2, a / 2]) (a := 0) (l₂ := [a])).symm
      refine List.Perm.cons _ ?_
      exact (List.perm_append_comm (l₁ := [a / 2, a / 2]) (l₂ := [a, a])).append_right [a])
    (by simp [kf]) (by simp [kf]) (by simp [ha.ne', ha0.ne']) (by simp [ha.ne, ha2.ne]) (by simpa [kf] using ha)
    (by simpa [kf] using ha2)
    (by
      intro k hU hk0 hk1 hki P hlP hz
      simp only [List.length_cons, List.length_nil, Nat.reduceAdd] at hU hk1 hki hlP
      have hmono := kf_mono hU.sorted
      have k4 : kf k 4 = 0 := hk0 4 le_rfl
      have k5 : kf k 5 = a / 4 := by
        have := hki 1 le_rfl (by omega)
        rw [show (4 : ℕ) + 1 = 5 by rfl] at this
        rw [this]; simp [Finset.sum_range_succ, kf]
      have k6 : kf k 6 = a / 2 := by
        have := hki 2 (by omega) (by omega)
        rw [show (4 : ℕ) + 2 = 6 by rfl] at this
        rw [this]; simp [Finset.sum_range_succ, kf]; ring
      have k7 : kf k 7 = 3 * a / 4 := by
        have := hki 3 (by omega) (by omega)
        rw [show (4 : ℕ) + 3 = 7 by rfl] at this
        rw [this]; simp [Finset.sum_range_succ, kf]; ring
      have k8 : ∀ j, 8 ≤ j → kf k j = a := fun j hj => hk1 j (by simpa using hj)
      obtain ⟨z1, z2⟩ := both_ends_zero heps ha (m := 2) (s := 2) (by simp [stackMaxDegree]) hU hk0 hk1 (by omega) (by omega) hlP
        (by
          intro d hd
          interval_cases d
          · exact hz ⟨0, 0, p1⟩ (by simp) 0
          · exact hz ⟨0, 1, t1⟩ (by simp) 0
          · exact hz ⟨0, 2, c1⟩ (by simp) 0)
        (by
          intro d hd
          interval_cases d
          · exact hz ⟨a, 0, p2⟩ (by simp) 0
          · exact hz ⟨a, 1, t2⟩ (by simp) 0
          · exact hz ⟨a, 2, c2⟩ (by simp) 0)
      have hw : Wf 4 k P := hU.wf hlP
      have hgP : (⟨4, P, k, kf k 4, kf k P.length⟩ : Curve K K).Good := ⟨hw, rfl, rfl⟩
      have em : ∀ d, evalValue o.eps 0 (a / 2) k P 4 d = .ok 0 → spanDer (kf k) 8 4 6 (pf P) d (a / 2) = 0 := by
        intro d h
        have := Curve.value_at heps hgP (by simp [stackMaxDegree]) (u := a / 2) (by show kf k 4 ≤ _; rw [k4]; positivity)
          (by show _ ≤ kf k P.length; rw [hlP, k8 8 le_rfl]; linarith) (i := 6)
          (by
            show Spec.InSpan (kf k) (kf k P.length) 6 (a / 2)
            unfold Spec.InSpan
            rw [hlP, k8 8 le_rfl, if_neg (by linarith), k6, k7]
            exact ⟨le_rfl, by linarith⟩) 0 d
        rw [Curve.value_inBounds heps (by show kf k 4 ≤ _; rw [k4]; positivity)
          (by show _ ≤ kf k P.length; rw [hlP, k8 8 le_rfl]; linarith)] at this
        simp only [hlP] at this
        rw [h] at this
        exact (Except.ok.inj this).symm
      obtain ⟨y3, y4⟩ := mid_c2_zero hmono ha (hk0 3 (by omega)) k4 k5 k6 k7 (k8 8 le_rfl) (k8 9 (by omega)) (z1 2 le_rfl)
        (z2 2 le_rfl) (z2 1 (by omega)) (em 1 (hz ⟨a / 2, 1, tg⟩ (by simp) 0)) (em 2 (hz ⟨a / 2, 2, cr⟩ (by simp) 0))
      refine zero_of_pf hlP fun i hi => ?_
      interval_cases i
      · exact z1 0 (by omega)
      · exact z1 1 (by omega)
      · exact z1 2 (by omega)
      · exact y3
      · exact y4
      · exact z2 2 (by omega)
      · exact z2 1 (by omega)
      · exact z2 0 (by omega))
    hS
  refine ⟨c, ec, hg, hdeg, by simpa using hl, hb0, hb1, ?_⟩
  intro junk
  obtain ⟨v1, v2, v3⟩ := hv junk
  exact ⟨v1, v2, v3 ⟨0, 1, t1⟩ (by simp), v3 ⟨a, 1, t2⟩ (by simp), v3 ⟨0, 2, c1⟩ (by simp), v3 ⟨a, 2, c2⟩ (by simp),
    v3 ⟨a / 2, 1, tg⟩ (by simp), v3 ⟨a / 2, 2, cr⟩ (by simp)⟩

/-- The length of the domain of the connections that mimic an ellipse. -/
def Spec.arcLen (o : ConnNum K V) (p1 p2 : V) : K := o.pi * o.norm (p1 - p2) / 2

theorem midConstraints_ok {o : ConnNum K V} {c : Curve K V} {um d e : K} {T C : V} (h1 : c.value o.eps o.junk um 1 = .ok T)
    (h2 : c.value o.eps o.junk um 2 = .ok C) (hT : o.norm T ≠ 0) (hC : o.norm C ≠ 0) :
    midConstraints o c um d e = .ok [⟨um, 1, (d / 2 / o.norm T) • T⟩, ⟨um, 2, (d * e / 2 / o.norm C) • C⟩] := by
  unfold midConstraints
  rw [h2, R_bind_ok]
  unfold vdiv
  rw [if_neg hC, R_bind_ok, h1, R_bind_ok, if_neg hT, R_bind_ok, smul_smul, smul_smul]
  congr 1
  rw [show 1 / 2 * d * (o.norm T)⁻¹ = d / 2 / o.norm T by ring, show 1 / 2 * d * e * (o.norm C)⁻¹ = d * e / 2 / o.norm C by ring]

theorem midConstraints_err {o : ConnNum K V} {c : Curve K V} {um d e : K} {T C : V} (h1 : c.value o.eps o.junk um 1 = .ok T)
    (h2 : c.value o.eps o.junk um 2 = .ok C) (h : o.norm T = 0 ∨ o.norm C = 0) : midConstraints o c um d e = .error .divZero := by
  unfold midConstraints
  rw [h2, R_bind_ok]
  unfold vdiv
  by_cases hC : o.norm C = 0
  · rw [if_pos hC]; rfl
  · rw [if_neg hC, R_bind_ok, h1, R_bind_ok, if_pos (h.resolve_right hC)]; rfl

/-- C96, the connection of points, tangents and second derivatives that mimics an ellipse: when the cubic it starts from has a tangent and a second
derivative in the middle, the result is a curve of degree 4 with the given points and derivatives at its ends, and in the middle the directions of
those of the cubic with the lengths `d / 2` and `e d / 2`, for `d` the distance of the two points. -/
theorem C96_ellipse {o : ConnNum K V} (heps : 0 < o.eps) (hS : Spec.SolvesDense o.dense) (hpi : 0 < o.pi) {p1 p2 : V} (hd : 0 < o.norm (p1 - p2))
    (t1 t2 c1 c2 : V) (e : K) (hT : o.norm (Spec.midTangent2 (Spec.arcLen o p1 p2) p1 p2 t1 t2 c1 c2) ≠ 0)
    (hC : o.norm (Spec.midSecond2 (Spec.arcLen o p1 p2) t1 t2 c1 c2) ≠ 0) :
    ∃ c, c2Ellipse o p1 p2 t1 t2 c1 c2 e = .ok c ∧ c.Good ∧ c.deg = 4 ∧ c.poles.length = 8 ∧ c.b0 = 0 ∧ c.b1 = Spec.arcLen o p1 p2 ∧
      ∀ junk, c.value o.eps junk c.b0 0 = .ok p1 ∧ c.value o.eps junk c.b1 0 = .ok p2 ∧ c.value o.eps junk c.b0 1 = .ok t1 ∧
        c.value o.eps junk c.b1 1 = .ok t2 ∧ c.value o.eps junk c.b0 2 = .ok c1 ∧ c.value o.eps junk c.b1 2 = .ok c2 ∧
        (let T := Spec.midTangent2 (Spec.arcLen o p1 p2) p1 p2 t1 t2 c1 c2
         c.value o.eps junk (Spec.arcLen o p1 p2 / 2) 1 = .ok ((o.norm (p1 - p2) / 2 / o.norm T) • T)) ∧
        (let C := Spec.midSecond2 (Spec.arcLen o p1 p2) t1 t2 c1 c2
         c.value o.eps junk (Spec.arcLen o p1 p2 / 2) 2 = .ok ((o.norm (p1 - p2) * e / 2 / o.norm C) • C)) := by
  have hu : o.pi * o.norm (p1 - p2) * (1 / 2) = Spec.arcLen o p1 p2 := by unfold Spec.arcLen; ring
  have ha : 0 < Spec.arcLen o p1 p2 := by unfold Spec.arcLen; positivity
  generalize Spec.arcLen o p1 p2 = a at *
  obtain ⟨c0, e0, h0⟩ := c2_start heps hS ha p1 p2 t1 t2 c1 c2
  obtain ⟨c, ec, hg, hdeg, hl, hb0, hb1, hv⟩ := c2_final heps hS ha p1 p2 t1 t2 c1 c2
    ((o.norm (p1 - p2) / 2 / o.norm (Spec.midTangent2 a p1 p2 t1 t2 c1 c2)) • Spec.midTangent2 a p1 p2 t1 t2 c1 c2)
    ((o.norm (p1 - p2) * e / 2 / o.norm (Spec.midSecond2 a t1 t2 c1 c2)) • Spec.midSecond2 a t1 t2 c1 c2)
  refine ⟨c, ?_, hg, hdeg, hl, hb0, hb1, by rw [hb0, hb1]; exact hv⟩
  unfold c2Ellipse
  dsimp only
  rw [hu, e0, R_bind_ok, show (1 / 2 : K) * (0 + a) = a / 2 by ring, midConstraints_ok (h0 o.junk).1 (h0 o.junk).2 hT hC, R_bind_ok]
  exact ec

/-- C96: when the cubic has no tangent or no second derivative in the middle, the connection that mimics an ellipse divides by zero. -/
theorem C96_ellipse_degenerate {o : ConnNum K V} (heps : 0 < o.eps) (hS : Spec.SolvesDense o.dense) (hpi : 0 < o.pi) {p1 p2 : V}
    (hd : 0 < o.norm (p1 - p2)) (t1 t2 c1 c2 : V) (e : K) (h : o.norm (Spec.midTangent2 (Spec.arcLen o p1 p2) p1 p2 t1 t2 c1 c2) = 0 ∨
      o.norm (Spec.midSecond2 (Spec.arcLen o p1 p2) t1 t2 c1 c2) = 0) :
    c2Ellipse o p1 p2 t1 t2 c1 c2 e = .error .divZero := by
  have hu : o.pi * o.norm (p1 - p2) * (1 / 2) = Spec.arcLen o p1 p2 := by unfold Spec.arcLen; ring
  have ha : 0 < Spec.arcLen o p1 p2 := by unfold Spec.arcLen; positivity
  generalize Spec.arcLen o p1 p2 = a at *
  obtain ⟨c0, e0, h0⟩ := c2_start heps hS ha p1 p2 t1 t2 c1 c2
  unfold c2Ellipse
  dsimp only
  rw [hu, e0, R_bind_ok, show (1 / 2 : K) * (0 + a) = a / 2 by ring, midConstraints_err (h0 o.junk).1 (h0 o.junk).2 h]
  rfl

/-- C96: two curves with the same tangent at the facing ends and opposite second derivatives, for instance two segments of the same direction and
speed, are never connected. -/
theorem C96_parallel {o : ConnNum K V} (heps : 0 < o.eps) (hS : Spec.SolvesDense o.dense) (hpi : 0 < o.pi) (hz : o.norm 0 = 0) {f g : CrvFn K V}
    {F G : ℕ → V} (h : Spec.EndsTo 2 f g F G) (hd : 0 < o.norm (F 0 - G 0)) (h1 : F 1 = G 1) (h2 : F 2 = - G 2) (e : K) :
    c2ConnectE o f g e = .error .divZero := by
  unfold c2ConnectE
  simp only [(h 0 (by omega)).1, (h 1 (by omega)).1, (h 2 le_rfl).1, (h 0 (by omega)).2, (h 1 (by omega)).2, (h 2 le_rfl).2, R_bind_ok]
  apply C96_ellipse_degenerate heps hS hpi hd
  right
  rw [show Spec.midSecond2 (Spec.arcLen o (F 0) (G 0)) (F 1) (G 1) (F 2) (G 2) = 0 by unfold Spec.midSecond2; rw [h1, h2]; simp]
  exact hz

/-- C96, `c2_connect` with the coefficient `e` in the plane: of order 2 when the cubic is not degenerate in the middle. -/
theorem C96_c2_plane {o : ConnNum K V} (heps : 0 < o.eps) (hS : Spec.SolvesDense o.dense) (hpi : 0 < o.pi) {f g : CrvFn K V} {F G : ℕ → V}
    (h : Spec.EndsTo 2 f g F G) (hd : 0 < o.norm (F 0 - G 0)) (e : K)
    (hT : o.norm (Spec.midTangent2 (Spec.arcLen o (F 0) (G 0)) (F 0) (G 0) (F 1) (G 1) (F 2) (G 2)) ≠ 0)
    (hC : o.norm (Spec.midSecond2 (Spec.arcLen o (F 0) (G 0)) (F 1) (G 1) (F 2) (G 2)) ≠ 0) :
    ∃ c, c2ConnectE o f g e = .ok c ∧ c.Good ∧ c.deg = 4 ∧ c.b0 = 0 ∧ c.b1 = Spec.arcLen o (F 0) (G 0) ∧ Spec.Connects o.eps 2 f g c := by
  obtain ⟨c, ec, hg, hdeg, -, hb0, hb1, hv⟩ := C96_ellipse heps hS hpi hd (F 1) (G 1) (F 2) (G 2) e hT hC
  refine ⟨c, ?_, hg, hdeg, hb0, hb1, h.connects ?_⟩
  · unfold c2ConnectE
    simp only [(h 0 (by omega)).1, (h 1 (by omega)).1, (h 2 le_rfl).1, (h 0 (by omega)).2, (h 1 (by omega)).2, (h 2 le_rfl).2, R_bind_ok]
    exact ec
  · intro i hi junk
    obtain ⟨v1, v2, v3, v4, v5, v6, -⟩ := hv junk
    interval_cases i
    · exact ⟨v1, v2⟩
    · exact ⟨v3, v4⟩
    · exact ⟨v5, v6⟩

/-- The curve run backwards. -/
def Spec.reversedFn (f : CrvFn K V) : CrvFn K V :=
  ⟨-f.b1, -f.b0, fun u d => do
    let v ← f.val (-u) d
    pure ((-1 : K) ^ d • v)⟩

/-- C96, `c2_connect` at given parameters: with a side that is not taken the curve is to be left, or reached, backwards; the first derivative is
that of the reversed curve, but the second derivative is its opposite. -/
theorem C96_sides {o : ConnNum K V} (heps : 0 < o.eps) (hS : Spec.SolvesDense o.dense) (hpi : 0 < o.pi) {f g : CrvFn K V} {u1 u2 : K} {F G : ℕ → V}
    (hF : ∀ i, i ≤ 2 → f.val u1 i = .ok (F i)) (hG : ∀ i, i ≤ 2 → g.val u2 i = .ok (G i)) (hd : 0 < o.norm (F 0 - G 0)) (side1 : Bool) (e : K)
    {c : Curve K V} (ec : c2ConnectAt o f g u1 u2 side1 false e = .ok c) (junk : K) :
    c.value o.eps junk c.b1 0 = (Spec.reversedFn g).val (-u2) 0 ∧ c.value o.eps junk c.b1 1 = (Spec.reversedFn g).val (-u2) 1 ∧
      c.value o.eps junk c.b1 2 = .ok (- G 2) ∧ (Spec.reversedFn g).val (-u2) 2 = .ok (G 2) := by
  have r : ∀ i, i ≤ 2 → (Spec.reversedFn g).val (-u2) i = .ok ((-1 : K) ^ i • G i) := by
    intro i hi
    simp only [Spec.reversedFn, neg_neg, hG i hi, R_bind_ok]
    rfl
  unfold c2ConnectAt at ec
  dsimp only at ec
  rw [hF 0 (by omega), R_bind_ok, hG 0 (by omega), R_bind_ok, hF 1 (by omega), R_bind_ok, hG 1 (by omega), R_bind_ok, hF 2 (by omega), R_bind_ok,
    hG 2 (by omega), R_bind_ok] at ec
  by_cases hdeg : o.norm (Spec.midTangent2 (Spec.arcLen o (F 0) (G 0)) (F 0) (G 0) ((if side1 = true then (1 : K) else -1) • F 1)
      ((if false = true then (1 : K) else -1) • G 1) ((if side1 = true then (1 : K) else -1) • F 2) ((if false = true then (1 : K) else -1) • G 2)) = 0 ∨
      o.norm (Spec.midSecond2 (Spec.arcLen o (F 0) (G 0)) ((if side1 = true then (1 : K) else -1) • F 1)
      ((if false = true then (1 : K) else -1) • G 1) ((if side1 = true then (1 : K) else -1) • F 2) ((if false = true then (1 : K) else -1) • G 2)) = 0
  · rw [C96_ellipse_degenerate heps hS hpi hd _ _ _ _ e hdeg] at ec
    cases ec
  · push Not at hdeg
    obtain ⟨c', ec', -, -, -, -, -, hv⟩ := C96_ellipse heps hS hpi hd _ _ _ _ e hdeg.1 hdeg.2
    rw [ec] at ec'
    obtain rfl := Except.ok.inj ec'
    obtain ⟨-, v2, -, v4, -, v6, -⟩ := hv junk
    rw [r 0 (by omega), r 1 (by omega), r 2 le_rfl, v2, v4, v6]
    simp

/-- First derivative in the middle of the curve of degree 5 that `c3_connect` starts from, by the data at the ends. -/
def Spec.midTangent3 (a : K) (p1 p2 t1 t2 c1 c2 d1 d2 : V) : V :=
  (175 / (72 * a)) • (p2 - p1) - (103 / 144 : K) • (t1 + t2) + (25 * a / 288) • (c2 - c1) - (a ^ 2 / 216) • (d1 + d2)

/-- Second derivative there. -/
def Spec.midSecond3 (a : K) (t1 t2 c1 c2 d1 d2 : V) : V := (35 / (18 * a)) • (t2 - t1) - (17 / 36 : K) • (c1 + c2) + (a / 27) • (d2 - d1)

/-- The curve of degree 5 that `c3_connect` starts from, and its derivatives in the middle. -/
theorem c3_start {o : ConnNum K V} (heps : 0 < o.eps) (hS : Spec.SolvesDense o.dense) {a : K} (ha : 0 < a) (p1 p2 t1 t2 c1 c2 d1 d2 : V) :
    ∃ c, interpolateBounds o.eps o.junk o.dense (0, p1) (a, p2) [⟨0, 1, t1⟩, ⟨0, 2, c1⟩, ⟨a, 1, t2⟩, ⟨a, 2, c2⟩, ⟨a, 3, d2⟩, ⟨0, 3, d1⟩] 5 = .ok c ∧
      ∀ junk, c.value o.eps junk (a / 2) 1 = .ok (Spec.midTangent3 a p1 p2 t1 t2 c1 c2 d1 d2) ∧
        c.value o.eps junk (a / 2) 2 = .ok (Spec.midSecond3 a t1 t2 c1 c2 d1 d2) := by
  obtain ⟨c, ec, hg, hdeg, hl, hb0, hb1, hv, hk0, hk1, hki⟩ := bounds_connect heps o.junk (p := 5) (b := (0, p1)) (e := (a, p2))
    (cs := [⟨0, 1, t1⟩, ⟨0, 2, c1⟩, ⟨a, 1, t2⟩, ⟨a, 2, c2⟩, ⟨a, 3, d2⟩, ⟨0, 3, d1⟩]) (w := [0, 0, 0, 0, a, a, a, a]) (by omega) (by simp [stackMaxDegree]) (by simp) ha
    (by simp [ha.le])
    (by
      refine List.Perm.cons _ (List.Perm.cons _ ?_)
      exact (List.perm_append_comm (l₁ := [0, 0]) (l₂ := [a, a, a])).append_right [a])
    (by simp [kf]) (by simp [kf]) (by simp [ha.ne']) (by simp [ha.ne]) (by simpa [kf] using ha)
    (by simpa [kf] using ha)
    (by
      intro k hU hk0 hk1 _
      refine ends_unisolvent heps ha (m := 3) (s := 3) (by simp [stackMaxDegree]) hU hk0 hk1 (by omega) (by omega) (by simp) ?_ ?_
      · intro d hd
        interval_cases d
        · exact ⟨p1, by simp⟩
        · exact ⟨t1, by simp⟩
        · exact ⟨c1, by simp⟩
        · exact ⟨d1, by simp⟩
      · intro d hd
        interval_cases d
        · exact ⟨p2, by simp⟩
        · exact ⟨t2, by simp⟩
        · exact ⟨c2, by simp⟩
        · exact ⟨d2, by simp⟩)
    hS
  refine ⟨c, ec, ?_⟩
  have hl6 : c.poles.length = 8 := by simpa using hl
  have hb0' : c.b0 = 0 := hb0
  have hb1' : c.b1 = a := hb1
  have hmono := kf_mono hg.wf.sorted
  have k5 : kf c.knots 5 = 0 := hk0 5 le_rfl
  have k6 : kf c.knots 6 = 2 * a / 5 := by
    have := hki 1 le_rfl (by simp)
    rw [show (5 : ℕ) + 1 = 6 by rfl] at this
    rw [this]
    simp [Finset.sum_range_succ, kf]
    ring
  have k7 : kf c.knots 7 = 3 * a / 5 := by
    have := hki 2 (by omega) (by simp)
    rw [show (5 : ℕ) + 2 = 7 by rfl] at this
    rw [this]
    simp [Finset.sum_range_succ, kf]
    ring
  have k8 : ∀ j, 8 ≤ j → kf c.knots j = a := fun j hj => hk1 j (by simpa using hj)
  have vat : ∀ u : K, 0 ≤ u → u ≤ a → ∀ i, Spec.InSpan (kf c.knots) a i u → ∀ junk d,
      c.value o.eps junk u d = .ok (spanDer (kf c.knots) 8 5 i (pf c.poles) d u) := by
    intro u h1 h2 i hi junk d
    have := Curve.value_at heps hg (by rw [hdeg]; simp [stackMaxDegree]) (u := u) (by rw [hb0']; exact h1) (by rw [hb1']; exact h2)
      (i := i) (by rw [hl6, k8 8 le_rfl]; exact hi) junk d
    rwa [hl6, hdeg] at this
  have s0 : Spec.InSpan (kf c.knots) a 5 0 := by
    unfold Spec.InSpan; rw [if_neg ha.ne, k5, k6]; exact ⟨le_rfl, by positivity⟩
  have s1 : Spec.InSpan (kf c.knots) a 7 a := by
    unfold Spec.InSpan; rw [if_pos rfl, k7, k8 8 le_rfl]; exact ⟨by linarith, rfl⟩
  have sm : Spec.InSpan (kf c.knots) a 6 (a / 2) := by
    unfold Spec.InSpan; rw [if_neg (by linarith), k6, k7]; exact ⟨by linarith, by linarith⟩
  have ev0 : ∀ d v, c.value o.eps o.junk 0 d = .ok v → spanDer (kf c.knots) 8 5 5 (pf c.poles) d 0 = v := by
    intro d v h
    rw [vat 0 le_rfl ha.le 5 s0] at h
    exact Except.ok.inj h
  have ev1 : ∀ d v, c.value o.eps o.junk a d = .ok v → spanDer (kf c.knots) 8 5 7 (pf c.poles) d a = v := by
    intro d v h
    rw [vat a ha.le le_rfl 7 s1] at h
    exact Except.ok.inj h
  obtain ⟨v1, v2, v3⟩ := hv o.junk
  obtain ⟨m1, m2⟩ := quintic_mid hmono ha (hk0 1 (by omega)) (hk0 2 (by omega)) (hk0 3 (by omega)) (hk0 4 (by omega)) k5 k6 k7 (k8 8 le_rfl)
    (k8 9 (by omega)) (k8 10 (by omega)) (k8 11 (by omega)) (k8 12 (by omega)) (pf c.poles)
  rw [ev0 0 _ v1, ev1 0 _ v2, ev0 1 _ (v3 ⟨0, 1, t1⟩ (by simp)), ev1 1 _ (v3 ⟨a, 1, t2⟩ (by simp)), ev0 2 _ (v3 ⟨0, 2, c1⟩ (by simp)),
    ev1 2 _ (v3 ⟨a, 2, c2⟩ (by simp)), ev0 3 _ (v3 ⟨0, 3, d1⟩ (by simp)), ev1 3 _ (v3 ⟨a, 3, d2⟩ (by simp))] at m1
  rw [ev0 1 _ (v3 ⟨0, 1, t1⟩ (by simp)), ev1 1 _ (v3 ⟨a, 1, t2⟩ (by simp)), ev0 2 _ (v3 ⟨0, 2, c1⟩ (by simp)),
    ev1 2 _ (v3 ⟨a, 2, c2⟩ (by simp)), ev0 3 _ (v3 ⟨0, 3, d1⟩ (by simp)), ev1 3 _ (v3 ⟨a, 3, d2⟩ (by simp))] at m2
  intro junk
  rw [vat (a / 2) (by positivity) (by linarith) 6 sm, vat (a / 2) (by positivity) (by linarith) 6 sm, m1, m2]
  exact ⟨rfl, rfl⟩

/-- The final interpolation of `c3_connect`. -/
theorem c3_final {o : ConnNum K V} (heps : 0 < o.eps) (hS : Spec.SolvesDense o.dense) {a : K} (ha : 0 < a) (p1 p2 t1 t2 c1 c2 d1 d2 tg cr : V) :
    ∃ c, interpolateBounds o.eps o.junk o.dense (0, p1) (a, p2)
        [⟨0, 1, t1⟩, ⟨0, 2, c1⟩, ⟨a, 1, t2⟩, ⟨a, 2, c2⟩, ⟨a, 3, d2⟩, ⟨0, 3, d1⟩, ⟨a / 2, 1, tg⟩, ⟨a / 2, 2, cr⟩] 4 = .ok c ∧ c.Good ∧ c.deg = 4 ∧ c.poles.length = 10 ∧
      c.b0 = 0 ∧ c.b1 = a ∧ ∀ junk, c.value o.eps junk 0 0 = .ok p1 ∧ c.value o.eps junk a 0 = .ok p2 ∧
        c.value o.eps junk 0 1 = .ok t1 ∧ c.value o.eps junk a 1 = .ok t2 ∧ c.value o.eps junk 0 2 = .ok c1 ∧ c.value o.eps junk a 2 = .ok c2 ∧
        c.value o.eps junk 0 3 = .ok d1 ∧ c.value o.eps junk a 3 = .ok d2 ∧
        c.value o.eps junk (a / 2) 1 = .ok tg ∧ c.value o.eps junk (a / 2) 2 = .ok cr := by
  have ha2 : a / 2 < a := by linarith
  have ha0 : 0 < a / 2 := by positivity
  obtain ⟨c, ec, hg, hdeg, hl, hb0, hb1, hv, -⟩ := bounds_connect heps o.junk (p := 4) (b := (0, p1)) (e := (a, p2))
    (cs := [⟨0, 1, t1⟩, ⟨0, 2, c1⟩, ⟨a, 1, t2⟩, ⟨a, 2, c2⟩, ⟨a, 3, d2⟩, ⟨0, 3, d1⟩, ⟨a / 2, 1, tg⟩, ⟨a / 2, 2, cr⟩]) (w := [0, 0, 0, 0, a / 2, a / 2, a, a, a, a])
    (by omega) (by simp [stackMaxDegree]) (by simp) ha (by simp [ha.le, ha2.le, ha0.le])
    (by
      refine List.Perm.cons _ (List.Perm.cons _ ?_)
      refine List.Perm.trans ?_ ((List.perm_append_comm (l₁ := [0]) (l₂ := [a, a, a])).append_right [a / 2, a / 2, 0, a]).symm.symm
      refine List.Perm.cons _ ?_
      refine List.Perm.trans ?_ (List.perm_middle (l₁ := [a, a, a, a / 2, a / 2]) (a := 0) (l₂ := [a])).symm
      refine List.Perm.cons _ ?_
      exact (List.perm_append_comm (l₁ := [a / 2, a / 2]) (l₂ := [a, a, a])).append_right [a])
    (by simp [kf]) (by simp [kf]) (by simp [ha.ne', ha0.ne']) (by simp [ha.ne, ha2.ne]) (by simpa [kf] using ha)
    (by simpa [kf] using ha2)
    (by
      intro k hU hk0 hk1 hki P hlP hz
      simp only [List.length_cons, List.length_nil, Nat.reduceAdd] at hU hk1 hki hlP
      have hmono := kf_mono hU.sorted
      have k4 : kf k 4 = 0 := hk0 4 le_rfl
      have k5 : kf k 5 = a / 8 := by
        have := hki 1 (by omega) (by omega)
        rw [show (4 : ℕ) + 1 = 5 by rfl] at this
        rw [this]; simp [Finset.sum_range_succ, kf]; ring
      have k6 : kf k 6 = a / 4 := by
        have := hki 2 (by omega) (by omega)
        rw [show (4 : ℕ) + 2 = 6 by rfl] at this
        rw [this]; simp [Finset.sum_range_succ, kf]
      have k7 : kf k 7 = a / 2 := by
        have := hki 3 (by omega) (by omega)
        rw [show (4 : ℕ) + 3 = 7 by rfl] at this
        rw [this]; simp [Finset.sum_range_succ, kf]; ring
      have k8 : kf k 8 = 3 * a / 4 := by
        have := hki 4 (by omega) (by omega)
        rw [show (4 : ℕ) + 4 = 8 by rfl] at this
        rw [this]; simp [Finset.sum_range_succ, kf]; ring
      have k9 : kf k 9 = 7 * a / 8 := by
        have := hki 5 (by omega) (by omega)
        rw [show (4 : ℕ) + 5 = 9 by rfl] at this
        rw [this]; simp [Finset.sum_range_succ, kf]; ring
      have k10 : ∀ j, 10 ≤ j → kf k j = a := fun j hj => hk1 j (by simpa using hj)
      obtain ⟨z1, z2⟩ := both_ends_zero heps ha (m := 3) (s := 3) (by simp [stackMaxDegree]) hU hk0 hk1 (by omega) (by omega) hlP
        (by
          intro d hd
          interval_cases d
          · exact hz ⟨0, 0, p1⟩ (by simp) 0
          · exact hz ⟨0, 1, t1⟩ (by simp) 0
          · exact hz ⟨0, 2, c1⟩ (by simp) 0
          · exact hz ⟨0, 3, d1⟩ (by simp) 0)
        (by
          intro d hd
          interval_cases d
          · exact hz ⟨a, 0, p2⟩ (by simp) 0
          · exact hz ⟨a, 1, t2⟩ (by simp) 0
          · exact hz ⟨a, 2, c2⟩ (by simp) 0
          · exact hz ⟨a, 3, d2⟩ (by simp) 0)
      have hw : Wf 4 k P := hU.wf hlP
      have hgP : (⟨4, P, k, kf k 4, kf k P.length⟩ : Curve K K).Good := ⟨hw, rfl, rfl⟩
      have em : ∀ d, evalValue o.eps 0 (a / 2) k P 4 d = .ok 0 → spanDer (kf k) 10 4 7 (pf P) d (a / 2) = 0 := by
        intro d h
        have := Curve.value_at heps hgP (by simp [stackMaxDegree]) (u := a / 2) (by show kf k 4 ≤ _; rw [k4]; positivity)
          (by show _ ≤ kf k P.length; rw [hlP, k10 10 le_rfl]; linarith) (i := 7)
          (by
            show Spec.InSpan (kf k) (kf k P.length) 7 (a / 2)
            unfold Spec.InSpan
            rw [hlP, k10 10 le_rfl, if_neg (by linarith), k7, k8]
            exact ⟨le_rfl, by linarith⟩) 0 d
        rw [Curve.value_inBounds heps (by show kf k 4 ≤ _; rw [k4]; positivity)
          (by show _ ≤ kf k P.length; rw [hlP, k10 10 le_rfl]; linarith)] at this
        simp only [hlP] at this
        rw [h] at this
        exact (Except.ok.inj this).symm
      obtain ⟨y4, y5⟩ := mid_c3_zero hmono ha (hk0 3 (by omega)) k4 k5 k6 k7 k8 k9 (k10 10 le_rfl) (k10 11 (by omega)) (z1 3 le_rfl)
        (z2 3 le_rfl) (z2 2 (by omega)) (em 1 (hz ⟨a / 2, 1, tg⟩ (by simp) 0)) (em 2 (hz ⟨a / 2, 2, cr⟩ (by simp) 0))
      refine zero_of_pf hlP fun i hi => ?_
      interval_cases i
      · exact z1 0 (by omega)
      · exact z1 1 (by omega)
      · exact z1 2 (by omega)
      · exact z1 3 (by omega)
      · exact y4
      · exact y5
      · exact z2 3 (by omega)
      · exact z2 2 (by omega)
      · exact z2 1 (by omega)
      · exact z2 0 (by omega))
    hS
  refine ⟨c, ec, hg, hdeg, by simpa using hl, hb0, hb1, ?_⟩
  intro junk
  obtain ⟨v1, v2, v3⟩ := hv junk
  exact ⟨v1, v2, v3 ⟨0, 1, t1⟩ (by simp), v3 ⟨a, 1, t2⟩ (by simp), v3 ⟨0, 2, c1⟩ (by simp), v3 ⟨a, 2, c2⟩ (by simp),
    v3 ⟨0, 3, d1⟩ (by simp), v3 ⟨a, 3, d2⟩ (by simp),
    v3 ⟨a / 2, 1, tg⟩ (by simp), v3 ⟨a / 2, 2, cr⟩ (by simp)⟩

/-- C96, `c3_connect` with the coefficient `e`: when the curve of degree 5 it starts from has a tangent and a second derivative in the middle, the
result meets both curves with three derivatives. -/
theorem C96_c3_plane {o : ConnNum K V} (heps : 0 < o.eps) (hS : Spec.SolvesDense o.dense) (hpi : 0 < o.pi) {f g : CrvFn K V} {F G : ℕ → V}
    (h : Spec.EndsTo 3 f g F G) (hd : 0 < o.norm (F 0 - G 0)) (e : K)
    (hT : o.norm (Spec.midTangent3 (Spec.arcLen o (F 0) (G 0)) (F 0) (G 0) (F 1) (G 1) (F 2) (G 2) (F 3) (G 3)) ≠ 0)
    (hC : o.norm (Spec.midSecond3 (Spec.arcLen o (F 0) (G 0)) (F 1) (G 1) (F 2) (G 2) (F 3) (G 3)) ≠ 0) :
    ∃ c, c3ConnectE o f g e = .ok c ∧ c.Good ∧ c.deg = 4 ∧ c.poles.length = 10 ∧ c.b0 = 0 ∧ c.b1 = Spec.arcLen o (F 0) (G 0) ∧
      Spec.Connects o.eps 3 f g c ∧ ∀ junk,
        (let T := Spec.midTangent3 (Spec.arcLen o (F 0) (G 0)) (F 0) (G 0) (F 1) (G 1) (F 2) (G 2) (F 3) (G 3)
         c.value o.eps junk (Spec.arcLen o (F 0) (G 0) / 2) 1 = .ok ((o.norm (F 0 - G 0) / 2 / o.norm T) • T)) ∧
        (let C := Spec.midSecond3 (Spec.arcLen o (F 0) (G 0)) (F 1) (G 1) (F 2) (G 2) (F 3) (G 3)
         c.value o.eps junk (Spec.arcLen o (F 0) (G 0) / 2) 2 = .ok ((o.norm (F 0 - G 0) * e / 2 / o.norm C) • C)) := by
  have hu : o.pi * o.norm (F 0 - G 0) * (1 / 2) = Spec.arcLen o (F 0) (G 0) := by unfold Spec.arcLen; ring
  have ha : 0 < Spec.arcLen o (F 0) (G 0) := by unfold Spec.arcLen; positivity
  generalize Spec.arcLen o (F 0) (G 0) = a at *
  obtain ⟨c0, e0, h0⟩ := c3_start heps hS ha (F 0) (G 0) (F 1) (G 1) (F 2) (G 2) (F 3) (G 3)
  obtain ⟨c, ec, hg, hdeg, hl, hb0, hb1, hv⟩ := c3_final heps hS ha (F 0) (G 0) (F 1) (G 1) (F 2) (G 2) (F 3) (G 3)
    ((o.norm (F 0 - G 0) / 2 / o.norm (Spec.midTangent3 a (F 0) (G 0) (F 1) (G 1) (F 2) (G 2) (F 3) (G 3))) •
      Spec.midTangent3 a (F 0) (G 0) (F 1) (G 1) (F 2) (G 2) (F 3) (G 3))
    ((o.norm (F 0 - G 0) * e / 2 / o.norm (Spec.midSecond3 a (F 1) (G 1) (F 2) (G 2) (F 3) (G 3))) •
      Spec.midSecond3 a (F 1) (G 1) (F 2) (G 2) (F 3) (G 3))
  refine ⟨c, ?_, hg, hdeg, hl, hb0, hb1, h.connects ?_, fun junk => (hv junk).2.2.2.2.2.2.2.2⟩
  · unfold c3ConnectE
    simp only [(h 0 (by omega)).1, (h 1 (by omega)).1, (h 2 (by omega)).1, (h 3 le_rfl).1, (h 0 (by omega)).2, (h 1 (by omega)).2,
      (h 2 (by omega)).2, (h 3 le_rfl).2, R_bind_ok]
    rw [hu, e0, R_bind_ok, show (1 / 2 : K) * (0 + a) = a / 2 by ring, midConstraints_ok (h0 o.junk).1 (h0 o.junk).2 hT hC, R_bind_ok]
    exact ec
  · intro i hi junk
    obtain ⟨v1, v2, v3, v4, v5, v6, v7, v8, -⟩ := hv junk
    rw [hb0, hb1]
    interval_cases i
    · exact ⟨v1, v2⟩
    · exact ⟨v3, v4⟩
    · exact ⟨v5, v6⟩
    · exact ⟨v7, v8⟩

/-! ## Through a point -/

theorem through_knots {d : K} (hd : 0 < d) : KWf 3 (throughKnots d) 7 ∧ (∀ j, j ≤ 3 → kf (throughKnots d) j = 0) ∧
    ∀ j, 7 ≤ j → kf (throughKnots d) j = d := by
  have k0 : ∀ j, j ≤ 3 → kf (throughKnots d) j = 0 := by intro j hj; interval_cases j <;> rfl
  have k1 : ∀ j, 7 ≤ j → kf (throughKnots d) j = d := by
    intro j hj
    rcases Nat.lt_or_ge j 11 with h | h
    · interval_cases j <;> rfl
    · rw [kf_of_ge (by simpa [throughKnots] using h)]; rfl
  refine ⟨⟨?_, rfl, by omega, ?_, ?_⟩, k0, k1⟩
  · have h1 : (0 : K) ≤ 1 / 4 * d := by positivity
    have h2 : 1 / 4 * d ≤ 1 / 2 * d := by linarith
    have h3 : 1 / 2 * d ≤ 3 / 4 * d := by linarith
    have h4 : 3 / 4 * d ≤ d := by linarith
    have := List.isChain_iff_pairwise (R := ((· ≤ ·) : K → K → Prop)) (l := throughKnots d)
    rw [← this]
    simp only [throughKnots, List.isChain_cons_cons, List.isChain_singleton, le_refl, and_true, true_and]
    exact ⟨h1, h2, h3, h4⟩
  · rw [k0 3 le_rfl]; show 0 < (1/4) * d; positivity
  · rw [k1 7 le_rfl]; show (3/4) * d < d; linarith

/-- The three derivatives at both ends and the value in the middle determine the poles. -/
theorem through_unisolvent {eps : K} (heps : 0 < eps) {d : K} (hd : 0 < d) (p1 t1 c1 p p2 t2 c2 : V) :
    Spec.UnisolventC eps (throughKnots d) 3 7
      ([⟨0, 0, p1⟩, ⟨0, 1, t1⟩, ⟨0, 2, c1⟩, ⟨(1/2) * d, 0, p⟩, ⟨d, 0, p2⟩, ⟨d, 1, t2⟩, ⟨d, 2, c2⟩] : List (Constr K V)) := by
  intro P hlP hz
  obtain ⟨hU, k0, k1⟩ := through_knots hd
  have hmono := kf_mono hU.sorted
  obtain ⟨z1, z2⟩ := both_ends_zero heps hd (m := 2) (s := 2) (by simp [stackMaxDegree]) hU k0 k1 (by omega) (by omega) hlP
    (by
      intro d hd
      interval_cases d
      · exact hz ⟨0, 0, p1⟩ (by simp) 0
      · exact hz ⟨0, 1, t1⟩ (by simp) 0
      · exact hz ⟨0, 2, c1⟩ (by simp) 0)
    (by
      intro e he
      interval_cases e
      · exact hz ⟨d, 0, p2⟩ (by simp) 0
      · exact hz ⟨d, 1, t2⟩ (by simp) 0
      · exact hz ⟨d, 2, c2⟩ (by simp) 0)
  have k3 := k0 3 le_rfl
  have k4 : kf (throughKnots d) 4 = (1/4) * d := rfl
  have k5 : kf (throughKnots d) 5 = (1/2) * d := rfl
  have k6 : kf (throughKnots d) 6 = (3/4) * d := rfl
  have k7 := k1 7 le_rfl
  have k8 := k1 8 (by omega)
  have hw : Wf 3 (throughKnots d) P := hU.wf hlP
  have hgP : (⟨3, P, throughKnots d, kf (throughKnots d) 3, kf (throughKnots d) P.length⟩ : Curve K K).Good := ⟨hw, rfl, rfl⟩
  have b0 : kf (throughKnots d) 3 ≤ (1/2) * d := by rw [k3]; positivity
  have b1 : (1/2) * d ≤ kf (throughKnots d) P.length := by rw [hlP, k7]; linarith
  have em : spanDer (kf (throughKnots d)) 7 3 5 (pf P) 0 ((1/2) * d) = 0 := by
    have := Curve.value_at heps hgP (by simp [stackMaxDegree]) (u := (1/2) * d) b0 b1 (i := 5)
      (by
        show Spec.InSpan (kf (throughKnots d)) (kf (throughKnots d) P.length) 5 ((1/2) * d)
        unfold Spec.InSpan
        rw [hlP, k7, if_neg (by linarith), k5, k6]
        exact ⟨le_rfl, by linarith⟩) 0 0
    rw [Curve.value_inBounds heps b0 b1] at this
    simp only [hlP] at this
    rw [hz ⟨(1/2) * d, 0, p⟩ (by simp) 0] at this
    exact (Except.ok.inj this).symm
  have y3 : pf P 3 = 0 := by
    rw [spanDer_zero _ (by omega) (by omega)] at em
    have z4 : pf P 4 = 0 := z2 2 (by omega)
    have z5 : pf P 5 = 0 := z2 1 (by omega)
    have z2' : pf P 2 = 0 := z1 2 (by omega)
    simp [bl, dbStep, List.replicate, k3, k4, k5, k6, k7, k8, z4, z5, z2'] at em
    have hd' := hd.ne'
    field_simp at em
    ring_nf at em
    rcases em with em | em
    · exact absurd em (by positivity)
    · linarith
  refine zero_of_pf hlP fun i hi => ?_
  interval_cases i
  · exact z1 0 (by omega)
  · exact z1 1 (by omega)
  · exact z1 2 (by omega)
  · exact y3
  · exact z2 2 (by omega)
  · exact z2 1 (by omega)
  · exact z2 0 (by omega)

/-- C96, `c2_connect` with the coefficient `e` out of the plane: when the tangents at the facing ends differ, the connection is a cubic on
`[0,d]`, `d` the distance of the two ends, meets both curves with two derivatives, and passes in the middle through the point at the distance `e d`
of the middle of the gap in the direction of the difference of the tangents. -/
theorem C96_through {o : ConnNum K V} (heps : 0 < o.eps) (hm : 0 ≤ o.meps) (hS : Spec.SolvesDense o.dense) (hsrt : ∀ l, (o.srt l).Perm l)
    {f g : CrvFn K V} {F G : ℕ → V} (h : Spec.EndsTo 2 f g F G) (hd : 0 < o.norm (F 0 - G 0)) (ht : o.norm (F 1 - G 1) ≠ 0) (e : K) :
    ∃ c, c2ConnectThrough o f g e = .ok c ∧ c.Good ∧ c.deg = 3 ∧ c.poles.length = 7 ∧ c.b0 = 0 ∧ c.b1 = o.norm (F 0 - G 0) ∧
      Spec.Connects o.eps 2 f g c ∧
      ∀ junk, c.value o.eps junk (o.norm (F 0 - G 0) / 2) 0 =
        .ok ((1 / 2 : K) • (F 0 + G 0) + (e * o.norm (F 0 - G 0) / o.norm (F 1 - G 1)) • (F 1 - G 1)) := by
  generalize hdd : o.norm (F 0 - G 0) = d at *
  obtain ⟨hU, k0, k1⟩ := through_knots hd
  set p : V := (1 / 2 : K) • (F 0 + G 0) + (e * d) • ((o.norm (F 1 - G 1))⁻¹ • (F 1 - G 1)) with hp
  set Q : List (Constr K V) := [⟨0, 0, F 0⟩, ⟨0, 1, F 1⟩, ⟨0, 2, F 2⟩, ⟨(1/2) * d, 0, p⟩, ⟨d, 0, G 0⟩, ⟨d, 1, G 1⟩, ⟨d, 2, G 2⟩] with hQ
  obtain ⟨P, eP, hlP, hv⟩ := C36_constraints_unisolvent heps hm o.growth o.junk o.x0 (p := 3) (by simp [stackMaxDegree]) (cs := Q) (U := throughKnots d) hU
    (by
      rw [k0 3 le_rfl, show Q.length = 7 from rfl, k1 7 le_rfl]
      have h2 : (1/2) * d ≤ d := by linarith
      have h3 : 0 ≤ (1/2) * d := by positivity
      simp only [hQ, List.mem_cons, List.not_mem_nil, or_false, forall_eq_or_imp, forall_eq, le_refl, true_and, and_true]
      exact ⟨hd.le, hd.le, hd.le, ⟨h3, h2⟩, hd.le, hd.le, hd.le⟩)
    (through_unisolvent heps hd _ _ _ _ _ _ _) (hsrt Q) hS
  have hl7 : P.length = 7 := hlP
  obtain ⟨c, ec, c1, c2, c3, c4, c5, hg, hval⟩ := mk_clamped heps hU hl7 (by simp [stackMaxDegree]) (by rw [k0 0 (by omega), k0 3 le_rfl])
    (by unfold kLast; rw [k1 _ (by simp [throughKnots]), k1 7 le_rfl])
  have hb0 : c.b0 = 0 := by rw [c4, k0 3 le_rfl]
  have hb1 : c.b1 = d := by rw [c5, k1 7 le_rfl]
  have hval' : ∀ x ∈ Q, ∀ junk, c.b0 ≤ x.u → x.u ≤ c.b1 → c.value o.eps junk x.u x.d = .ok x.v := by
    intro x hx junk h1 h2
    rw [Curve.value_inBounds heps h1 h2, c1, c2, c3]
    exact hv x hx junk
  refine ⟨c, ?_, hg, c1, by rw [c2, hl7], hb0, hb1, h.connects ?_, ?_⟩
  · unfold c2ConnectThrough
    simp only [(h 0 (by omega)).1, (h 1 (by omega)).1, (h 2 le_rfl).1, (h 0 (by omega)).2, (h 1 (by omega)).2, (h 2 le_rfl).2, R_bind_ok]
    unfold vdiv
    rw [if_neg ht, R_bind_ok, hdd, ← hp, ← hQ, eP, R_bind_ok]
    exact ec
  · intro i hi junk
    rw [hb0, hb1]
    rw [hb0, hb1] at hval'
    interval_cases i
    · exact ⟨hval' ⟨0, 0, F 0⟩ (by simp [hQ]) junk le_rfl hd.le, hval' ⟨d, 0, G 0⟩ (by simp [hQ]) junk hd.le le_rfl⟩
    · exact ⟨hval' ⟨0, 1, F 1⟩ (by simp [hQ]) junk le_rfl hd.le, hval' ⟨d, 1, G 1⟩ (by simp [hQ]) junk hd.le le_rfl⟩
    · exact ⟨hval' ⟨0, 2, F 2⟩ (by simp [hQ]) junk le_rfl hd.le, hval' ⟨d, 2, G 2⟩ (by simp [hQ]) junk hd.le le_rfl⟩
  · intro junk
    rw [hb0, hb1] at hval'
    have h1 := hval' ⟨(1/2) * d, 0, p⟩ (by simp [hQ]) junk (by show 0 ≤ (1/2) * d; positivity) (by show (1/2) * d ≤ d; linarith)
    rw [show d / 2 = (1/2) * d by ring]
    rw [h1]
    show Except.ok p = _
    rw [hp, smul_smul, div_eq_mul_inv (e * d)]

/-- C96: two curves with the same tangent at the facing ends are not connected out of the plane: the direction of the point is divided by zero. -/
theorem C96_through_parallel {o : ConnNum K V} (hz : o.norm 0 = 0) {f g : CrvFn K V} {F G : ℕ → V} (h : Spec.EndsTo 1 f g F G) (h1 : F 1 = G 1)
    (e : K) : c2ConnectThrough o f g e = .error .divZero := by
  unfold c2ConnectThrough
  rw [(h 0 (by omega)).1, R_bind_ok, (h 0 (by omega)).2, R_bind_ok, (h 1 le_rfl).1, R_bind_ok, (h 1 le_rfl).2, R_bind_ok, h1, sub_self, hz]
  unfold vdiv
  rw [if_pos rfl]
  rfl

/-! ## Samples and failures -/

namespace Sample

/-- The curve `u ↦ x + s u + q u ^ 2` on `[0,1]`. -/
def cnParab (x s q : ℚ) : CrvFn ℚ ℚ := ⟨0, 1, fun u d => .ok (if d = 0 then x + s * u + q * u ^ 2 else if d = 1 then s + 2 * q * u else if d = 2 then 2 * q else 0)⟩

/-- The numbers of the samples, with given solvers. -/
def cnNum (sparse : ℕ → List (ℕ × ℕ × ℚ) → List ℚ → R (List ℚ)) (dense : ℕ → (ℕ → ℕ → ℚ) → List ℚ → R (List ℚ)) : ConnNum ℚ ℚ :=
  ⟨1/1000, 0, 1000, 0, 0, fun x => |x|, 22/7, sparse, dense, id⟩

theorem cnEnds (n : ℕ) : Spec.EndsTo n (cnParab 0 1 1) (cnParab 3 2 (-1))
    (fun i => if i = 0 then 2 else if i = 1 then 3 else if i = 2 then 2 else 0) (fun i => if i = 0 then 3 else if i = 1 then 2 else if i = 2 then -2 else 0) := by
  intro i _
  simp only [cnParab]
  constructor <;> (congr 1; split_ifs <;> norm_num)

end Sample

open Sample

example {sparse : ℕ → List (ℕ × ℕ × ℚ) → List ℚ → R (List ℚ)} (hS : Spec.SolvesRegular sparse) :
    ∃ c, c2Connect (cnNum sparse fun _ _ _ => .error .oob) (cnParab 0 1 1) (cnParab 3 2 (-1)) = .ok c ∧ c.b1 = 1 ∧
      Spec.Connects (1/1000) 2 (cnParab 0 1 1) (cnParab 3 2 (-1)) c := by
  obtain ⟨c, e, -, -, -, -, h1, h2⟩ := C96_c2 (o := cnNum sparse fun _ _ _ => .error .oob) (by norm_num [cnNum]) (by norm_num [cnNum]) hS (cnEnds 2)
    (by norm_num [cnNum])
  exact ⟨c, e, by rw [h1]; norm_num [cnNum], h2⟩

example {dense : ℕ → (ℕ → ℕ → ℚ) → List ℚ → R (List ℚ)} (hS : Spec.SolvesDense dense) :
    ∃ c, cnConnect (cnNum (fun _ _ _ => .error .oob) dense) (cnParab 0 1 1) (cnParab 3 2 (-1)) 1 3 2 = .ok c ∧ c.deg = 3 ∧
      Spec.Connects (1/1000) 2 (cnParab 0 1 1) (cnParab 3 2 (-1)) c := by
  obtain ⟨c, e, -, h1, -, -, -, h2⟩ := C96_cn (o := cnNum (fun _ _ _ => .error .oob) dense) (by norm_num [cnNum]) hS (cnEnds 2) (du := 1) (by norm_num)
    (p := 3) (by norm_num) (by norm_num [stackMaxDegree])
  exact ⟨c, e, by rw [h1]; norm_num, h2⟩

/-- Through the coefficient `e`: the two parabolas have distinct tangents, and second derivatives that do not compensate them. -/
example {dense : ℕ → (ℕ → ℕ → ℚ) → List ℚ → R (List ℚ)} (hS : Spec.SolvesDense dense) :
    (∃ c, c2ConnectE (cnNum (fun _ _ _ => .error .oob) dense) (cnParab 0 1 1) (cnParab 3 2 (-1)) 2 = .ok c) ∧
    (∃ c, c2ConnectThrough (cnNum (fun _ _ _ => .error .oob) dense) (cnParab 0 1 1) (cnParab 3 2 (-1)) 2 = .ok c) ∧
    (∃ c, c3ConnectE (cnNum (fun _ _ _ => .error .oob) dense) (cnParab 0 1 1) (cnParab 3 2 (-1)) 2 = .ok c) := by
  refine ⟨?_, ?_, ?_⟩
  · obtain ⟨c, e, -⟩ := C96_c2_plane (o := cnNum (fun _ _ _ => .error .oob) dense) (by norm_num [cnNum]) hS (by norm_num [cnNum]) (cnEnds 2)
      (by norm_num [cnNum]) 2 (by norm_num [cnNum, Spec.midTangent2, Spec.arcLen]) (by norm_num [cnNum, Spec.midSecond2, Spec.arcLen])
    exact ⟨c, e⟩
  · obtain ⟨c, e, -⟩ := C96_through (o := cnNum (fun _ _ _ => .error .oob) dense) (by norm_num [cnNum]) (by norm_num [cnNum]) hS
      (fun l => List.Perm.refl _) (cnEnds 2) (by norm_num [cnNum]) (by norm_num [cnNum]) 2
    exact ⟨c, e⟩
  · obtain ⟨c, e, -⟩ := C96_c3_plane (o := cnNum (fun _ _ _ => .error .oob) dense) (by norm_num [cnNum]) hS (by norm_num [cnNum]) (cnEnds 3)
      (by norm_num [cnNum]) 2 (by norm_num [cnNum, Spec.midTangent3, Spec.arcLen]) (by norm_num [cnNum, Spec.midSecond3, Spec.arcLen])
    exact ⟨c, e⟩

/-- Two segments of the same direction and speed with a gap between them. -/
example {dense : ℕ → (ℕ → ℕ → ℚ) → List ℚ → R (List ℚ)} (hS : Spec.SolvesDense dense) (e : ℚ) :
    c2ConnectE (cnNum (fun _ _ _ => .error .oob) dense) (cnParab 0 1 0) (cnParab 3 1 0) e = .error .divZero :=
  C96_parallel (F := fun i => if i = 0 then 1 else if i = 1 then 1 else 0) (G := fun i => if i = 0 then 3 else if i = 1 then 1 else 0)
    (by norm_num [cnNum]) hS (by norm_num [cnNum]) (by norm_num [cnNum])
    (by
      intro i _
      simp only [cnParab]
      constructor <;> (congr 1; split_ifs <;> norm_num))
    (by norm_num [cnNum]) rfl (by norm_num) e

/-- An error of the interpolation before the system is solved does not depend on the solver. -/
theorem interpolateBounds_before {eps junk : K} {b e : K × V} {cs : List (Constr K V)} {p : ℕ} {x : Err} (hx : x ≠ .null)
    (h : interpolateBounds eps junk (fun _ _ _ => .error .null) b e cs p = .error x) (dense : ℕ → (ℕ → ℕ → K) → List V → R (List V)) :
    interpolateBounds eps junk dense b e cs p = .error x := by
  unfold interpolateBounds at h ⊢
  split at h
  · rw [if_pos ‹_›]; exact h
  · rw [if_neg ‹_›]
    dsimp only at h ⊢
    cases hk : averagedFlatKnots ((cs.map Constr.u).foldl insertOrdered [b.1, e.1]) p with
    | error y => rw [hk] at h; exact h
    | ok k =>
      rw [hk, R_bind_ok] at h
      rw [R_bind_ok]
      cases hN : fillRows eps junk k p ((⟨b.1, 0, b.2⟩ : Constr K V) :: (cs ++ [⟨e.1, 0, e.2⟩])) with
      | error y => rw [hN] at h; exact h
      | ok N =>
        rw [hN, R_bind_ok] at h
        exact absurd (Except.error.inj h).symm hx

theorem cnConnect_before {o : ConnNum K V} {f g : CrvFn K V} {du : K} {p n : ℕ} {x : Err} (hx : x ≠ .null)
    (h : cnConnect { o with dense := fun _ _ _ => .error .null } f g du p n = .error x) : cnConnect o f g du p n = .error x := by
  unfold cnConnect at h ⊢
  cases h1 : f.val f.b1 0 with
  | error y => rw [h1] at h; exact h
  | ok p1 =>
    rw [h1, R_bind_ok] at h
    rw [R_bind_ok]
    cases h2 : g.val g.b0 0 with
    | error y => rw [h2] at h; exact h
    | ok p2 =>
      rw [h2, R_bind_ok] at h
      rw [R_bind_ok]
      cases h3 : cnConstraints f g du n with
      | error y => rw [h3] at h; exact h
      | ok cs =>
        rw [h3, R_bind_ok] at h
        exact interpolateBounds_before hx h _

/-- C96: with a degree that is not above the order, `cn_connect` builds a knot vector whose end knots are repeated more than the degree plus one
times and the basis functions are divided by zero, whatever the solver. -/
theorem C96_low_degree (dense : ℕ → (ℕ → ℕ → ℚ) → List ℚ → R (List ℚ)) :
    cnConnect (cnNum (fun _ _ _ => .error .oob) dense) (cnParab 0 1 1) (cnParab 3 2 (-1)) 1 1 1 = .error .divZero ∧
    cnConnect (cnNum (fun _ _ _ => .error .oob) dense) (cnParab 0 1 1) (cnParab 3 2 (-1)) 1 2 2 = .error .divZero ∧
    cnConnect (cnNum (fun _ _ _ => .error .oob) dense) (cnParab 0 1 1) (cnParab 3 2 (-1)) 1 3 3 = .error .divZero := by
  refine ⟨cnConnect_before (by decide) ?_, cnConnect_before (by decide) ?_, cnConnect_before (by decide) ?_⟩ <;>
  · show cnConnect (cnNum (fun _ _ _ => .error .oob) fun _ _ _ => .error .null) _ _ _ _ _ = _
    decide +kernel

/-- C96: two curves that already touch are not connected by `c2_connect` and `c3_connect`: the length of the gap is zero. -/
theorem C96_touching :
    c2Connect (cnNum (fun _ _ _ => .ok []) fun _ _ _ => .error .oob) (cnParab 0 1 1) (cnParab 2 3 2) = .error .divZero ∧
    c3Connect (cnNum (fun _ _ _ => .ok []) fun _ _ _ => .error .oob) (cnParab 0 1 1) (cnParab 2 3 2) = .error .divZero := by
  decide +kernel

/-- A connection that reaches the second parabola backwards. -/
example {dense : ℕ → (ℕ → ℕ → ℚ) → List ℚ → R (List ℚ)} (hS : Spec.SolvesDense dense) :
    ∃ c, c2ConnectAt (cnNum (fun _ _ _ => .error .oob) dense) (cnParab 0 1 1) (cnParab 3 2 (-1)) 1 0 true false 2 = .ok c ∧
      c.value (1/1000) 0 c.b1 2 = .ok 2 ∧ (Spec.reversedFn (cnParab 3 2 (-1))).val 0 2 = .ok (-2) := by
  obtain ⟨c, e, -⟩ := C96_ellipse (o := cnNum (fun _ _ _ => .error .oob) dense) (by norm_num [cnNum]) hS (by norm_num [cnNum]) (p1 := 2) (p2 := 3)
    (by norm_num [cnNum]) 3 (-2) 2 2 2 (by norm_num [cnNum, Spec.midTangent2, Spec.arcLen]) (by norm_num [cnNum, Spec.midSecond2, Spec.arcLen])
  have ec : c2ConnectAt (cnNum (fun _ _ _ => .error .oob) dense) (cnParab 0 1 1) (cnParab 3 2 (-1)) 1 0 true false 2 = .ok c := by
    rw [← e]
    unfold c2ConnectAt
    simp only [cnParab, R_bind_ok]
    norm_num
  obtain ⟨-, -, h3, h4⟩ := C96_sides (F := fun i => if i = 0 then 2 else if i = 1 then 3 else 2) (G := fun i => if i = 0 then 3 else if i = 1 then 2 else -2)
    (by norm_num [cnNum]) hS (by norm_num [cnNum])
    (by intro i hi; interval_cases i <;> (simp only [cnParab]; norm_num)) (by intro i hi; interval_cases i <;> (simp only [cnParab]; norm_num))
    (by norm_num [cnNum]) true 2 ec 0
  refine ⟨c, ec, ?_, ?_⟩
  · have h := h3
    norm_num [cnNum] at h
    norm_num
    exact h
  · simpa using h4

end Gbs
