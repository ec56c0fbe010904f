import Verif.Props.Approx
import Verif.Lemmas.UnifyAgain
import Verif.Props.SurfaceReparam
import Verif.Lemmas.ExtendSurf

/-!
# Parameters which determine curves, and surfaces reversed or with exchanged parameters
-/

namespace Gbs

set_option linter.unusedSectionVars false

open scoped BigOperators

variable {K : Type} [Field K] [LinearOrder K] [IsStrictOrderedRing K]
variable {V : Type} [AddCommGroup V] [Module K V]

/-- Curves of degree `p` are determined by parameters with more than `p` of them in every span. -/
theorem determines_of_spans {eps : K} (heps : 0 < eps) {p n : ℕ} {k ks : List K} {ms : List ℕ} (hU : KWf p k n) (hp : p ≤ stackMaxDegree)
    (hk : KnotsBy eps p k ks ms) {u : List K}
    (hsp : ∀ i, p ≤ i → i < n → kf k i < kf k (i + 1) → ∃ S : Finset K, p < S.card ∧ ∀ x ∈ S, x ∈ u ∧ kf k i ≤ x ∧ x < kf k (i + 1)) :
    Spec.Determines eps k p n u := by
  intro P hP hz y hy
  obtain ⟨h0, h1⟩ := hk.ends heps.le hU
  have hg : ∀ Q : List K, Q.length = n → (⟨Q, k, p⟩ : CurveInfo K K).toCurve.Good := by
    intro Q hQ
    refine ⟨hU.wf hQ, h0, ?_⟩
    show kLast k = kf k Q.length
    rw [hQ, h1]
  have hcl : (⟨P, k, p⟩ : CurveInfo K K).Clamped := CurveInfo.clamped_of heps (ks := ks) (ms := ms) ⟨hk, hg P hP⟩
  have hzero : ∀ v, kf k 0 ≤ v → v ≤ kLast k → ∀ junk, (⟨P, k, p⟩ : CurveInfo K K).toCurve.value eps junk v 0 = .ok 0 := by
    intro v hv0 hv1 junk
    obtain ⟨i, ei, hin, i1, i2, e⟩ := Curve.value_span heps (hg P hP) (Or.inl hp) (u := v) hv0 hv1
    obtain ⟨i', ei', -, -, hlt, -⟩ := findSpan_kwf hU v
    obtain rfl : i' = i := by
      have : findSpan n p v k = .ok i := by rw [← hP]; exact ei
      rw [this] at ei'; exact (Except.ok.inj ei').symm
    have i2' : i' < n := by rw [← hP]; exact i2
    obtain ⟨S, hS, hSx⟩ := hsp i' i1 i2' hlt
    set q : Polynomial K := ∑ a ∈ Finset.range n, Polynomial.C (pf P a) * Bp (kf k) i' p a with hq
    have heval : ∀ x, q.eval x = spanDer (kf k) n p i' (pf P) 0 x := by
      intro x
      rw [hq, Polynomial.eval_finset_sum]
      unfold spanDer
      refine Finset.sum_congr rfl fun a _ => ?_
      simp [mul_comm]
    have hdeg : q.natDegree ≤ p := by
      apply Polynomial.natDegree_sum_le_of_forall_le
      intro a _
      refine le_trans Polynomial.natDegree_mul_le ?_
      rw [Polynomial.natDegree_C, zero_add]
      exact Bp_natDegree _ _ _ _
    have hq0 : q = 0 := by
      refine Polynomial.eq_zero_of_natDegree_lt_card_of_eval_eq_zero' q S ?_ (by omega)
      intro x hx
      obtain ⟨x1, x2, x3⟩ := hSx x hx
      have hx0 : kf k p ≤ x := le_trans (kf_mono hU.sorted i1) x2
      have hx1 : x ≤ kf k n := le_trans x3.le (kf_mono hU.sorted (by omega))
      obtain ⟨j, ej, -, -, -, hs', -⟩ := findSpan_kwf hU x
      have hinx : Spec.InSpan (kf k) (kf k n) i' x := by
        unfold Spec.InSpan
        rw [if_neg (lt_of_lt_of_le x3 (kf_mono hU.sorted (by omega))).ne]
        exact ⟨x2, x3⟩
      obtain rfl := InSpan_unique (kf_mono hU.sorted) (hs' hx0 hx1) hinx
      have hv := evalValue_all (junk := 0) (hU.wf hP) (Curve.evalOk heps (hg P hP) (Or.inl hp) (u := x) (by show kf k 0 ≤ x; rw [h0]; exact hx0)
        (by show x < kLast k + eps; rw [← h1]; linarith)) 0 (by rw [hP]; exact ej)
      rw [heval, ← hP]
      have hz' := hz x x1 0
      rw [hv] at hz'
      exact Except.ok.inj hz'
    rw [e junk 0]
    congr 1
    show spanDer (kf k) P.length p i' (pf P) 0 v = 0
    rw [hP, ← heval, hq0, Polynomial.eval_zero]
  have hg0 := hg (List.replicate n 0) (by simp)
  have heq := CurveInfo.eq_of_points heps (c' := ⟨List.replicate n 0, k, p⟩) hcl hp rfl rfl hg0 (by
    intro v hv0 hv1 junk junk'
    rw [hzero v hv0 hv1 junk']
    obtain ⟨i, -, -, -, -, e⟩ := Curve.value_span heps hg0 (Or.inl hp) (u := v) hv0 hv1
    rw [e junk 0]
    congr 1
    unfold spanDer
    apply Finset.sum_eq_zero
    intro a ha
    show _ • pf (List.replicate n (0 : K)) a = 0
    have : pf (List.replicate n (0 : K)) a = 0 := by
      unfold pf
      rw [List.getD_eq_getElem?_getD, List.getElem?_replicate]
      split <;> rfl
    rw [this, smul_zero])
  have hPz : List.replicate n (0 : K) = P := congrArg CurveInfo.poles heq
  rw [← hPz] at hy
  exact (List.mem_replicate.mp hy).2

/-- Equally spaced parameters from `v0` to `v1`. -/
def Spec.evenPar (v0 v1 : K) (np i : ℕ) : K := v0 + (v1 - v0) * i / (np - 1)

theorem evenPar_first (v0 v1 : K) (np : ℕ) : Spec.evenPar v0 v1 np 0 = v0 := by simp [Spec.evenPar]

theorem evenPar_last {v0 v1 : K} {np : ℕ} (hn : 2 ≤ np) : Spec.evenPar v0 v1 np (np - 1) = v1 := by
  have h1 : ((np - 1 : ℕ) : K) = (np : K) - 1 := by push_cast [Nat.cast_sub (by omega : 1 ≤ np)]; rfl
  have h2 : (np : K) - 1 ≠ 0 := by
    rw [← h1]
    exact_mod_cast (by omega : np - 1 ≠ 0)
  unfold Spec.evenPar
  rw [h1, mul_div_assoc, div_self h2]
  ring

theorem evenPar_strict {v0 v1 : K} (h : v0 < v1) {np : ℕ} (hn : 2 ≤ np) {i j : ℕ} (hij : i < j) : Spec.evenPar v0 v1 np i < Spec.evenPar v0 v1 np j := by
  have h2 : (0 : K) < np - 1 := by
    have : (2 : K) ≤ np := by exact_mod_cast hn
    linarith
  have h3 : (i : K) < j := by exact_mod_cast hij
  unfold Spec.evenPar
  have : (v1 - v0) * i / (np - 1) < (v1 - v0) * j / (np - 1) :=
    div_lt_div_of_pos_right (mul_lt_mul_of_pos_left h3 (sub_pos.mpr h)) h2
  linarith

theorem evenPar_in {v0 v1 : K} (h : v0 < v1) {np : ℕ} (hn : 2 ≤ np) {i : ℕ} (hi : i < np) : v0 ≤ Spec.evenPar v0 v1 np i ∧ Spec.evenPar v0 v1 np i ≤ v1 := by
  constructor
  · rcases Nat.eq_zero_or_pos i with rfl | h'
    · rw [evenPar_first]
    · have := evenPar_strict h hn h'
      rw [evenPar_first] at this
      exact this.le
  · rcases Nat.lt_or_ge i (np - 1) with h' | h'
    · have := evenPar_strict h hn h'
      rw [evenPar_last hn] at this
      exact this.le
    · obtain rfl : i = np - 1 := by omega
      rw [evenPar_last hn]

/-- An interval as wide as `p + 1` steps contains more than `p` parameters. -/
theorem evenPar_count {v0 v1 a b : K} (h : v0 < v1) {np p : ℕ} (hn : 2 ≤ np) (ha : v0 ≤ a) (hb : b ≤ v1) (hab : a < b)
    (hw : (p + 1) * (v1 - v0) ≤ (b - a) * (np - 1)) :
    ∃ S : Finset K, p < S.card ∧ ∀ x ∈ S, x ∈ (List.range np).map (Spec.evenPar v0 v1 np) ∧ a ≤ x ∧ x < b := by
  have hn1 : (0 : K) < np - 1 := by
    have : (2 : K) ≤ np := by exact_mod_cast hn
    linarith
  have hex : ∃ i, a ≤ Spec.evenPar v0 v1 np i := ⟨np - 1, by rw [evenPar_last hn]; linarith⟩
  classical
  set i := Nat.find hex with hi
  have hia : a ≤ Spec.evenPar v0 v1 np i := Nat.find_spec hex
  have hstep : ∀ m j, Spec.evenPar v0 v1 np (m + j) = Spec.evenPar v0 v1 np m + (v1 - v0) * j / (np - 1) := by
    intro m j
    unfold Spec.evenPar
    push_cast
    ring
  have hi1 : Spec.evenPar v0 v1 np i < a + (v1 - v0) / (np - 1) := by
    have hpos : 0 < (v1 - v0) / ((np : K) - 1) := div_pos (sub_pos.mpr h) hn1
    rcases Nat.eq_zero_or_pos i with h0 | h0
    · rw [h0, evenPar_first]
      linarith
    · have h1 := Nat.find_min hex (m := i - 1) (by omega)
      have h2 := hstep (i - 1) 1
      rw [show i - 1 + 1 = i by omega, Nat.cast_one, mul_one] at h2
      rw [h2]
      linarith [not_le.mp h1]
  have hlt : ∀ j, j ≤ p → Spec.evenPar v0 v1 np (i + j) < b := by
    intro j hj
    have h1 : (j : K) ≤ p := by exact_mod_cast hj
    have h2 : (v1 - v0) * j / ((np : K) - 1) + (v1 - v0) / ((np : K) - 1) ≤ b - a := by
      rw [← add_div, div_le_iff₀ hn1]
      refine le_trans ?_ hw
      have := mul_le_mul_of_nonneg_left h1 (sub_pos.mpr h).le
      linarith
    rw [hstep]
    linarith
  refine ⟨(Finset.range (p + 1)).image fun j => Spec.evenPar v0 v1 np (i + j), ?_, ?_⟩
  · rw [Finset.card_image_of_injective, Finset.card_range]
    · omega
    · intro x y hxy
      rcases lt_trichotomy x y with h' | h' | h'
      · exact absurd hxy (evenPar_strict h hn (by omega)).ne
      · exact h'
      · exact absurd hxy (evenPar_strict h hn (by omega)).ne'
  · intro x hx
    obtain ⟨j, hj, rfl⟩ := Finset.mem_image.mp hx
    have hj := Finset.mem_range.mp hj
    have hb' := hlt j (by omega)
    refine ⟨List.mem_map.mpr ⟨i + j, List.mem_range.mpr ?_, rfl⟩, ?_, hb'⟩
    · by_contra hc
      have : Spec.evenPar v0 v1 np (np - 1) < Spec.evenPar v0 v1 np (i + j) := evenPar_strict h hn (by omega)
      rw [evenPar_last hn] at this
      linarith
    · rcases Nat.eq_zero_or_pos j with rfl | h'
      · exact hia
      · exact le_trans hia (evenPar_strict h hn (by omega)).le

/-- The reversed surface of a surface with separated knots. -/
theorem Surface.ClampedBy.reverseU {eps : K} (heps : 0 < eps) {s s' : Surface K V} {ku kv : List K} {mu mv : List ℕ} (h : s.ClampedBy eps ku mu kv mv)
    (e : s.reverseU = .ok s') : s'.ClampedBy eps (ku.reverse.map fun k => s.u0 + s.u1 - k) mu.reverse kv mv := by
  obtain ⟨t, et, hcl, d1, d2, d3, -⟩ := C56_reverseU heps h.cl
  obtain rfl : t = s' := by rw [e] at et; exact (Except.ok.inj et).symm
  obtain ⟨c', ec, c1, -⟩ := C21_reverse heps h.cl.goodU h.cl.clU (Or.inl h.cl.du)
  have hm := Curve.ClampedBy.mirror (c := s.curveU) (ks := ku) (ms := mu) heps ⟨h.kU, h.cl.goodU⟩ h.cl.du ec
  obtain ⟨S, eS, -⟩ := Surface.reverseU_eq h.cl.wf
  rw [Curve.reverse_ok h.cl.goodU h.cl.clU] at ec
  rw [e, h.cl.u00, h.cl.u11] at eS
  have hk : c'.knots = t.knotsU := by rw [← Except.ok.inj ec, Except.ok.inj eS]; rfl
  have := hm.toKnotsBy
  rw [hk, c1] at this
  exact ⟨hcl, by rw [d1]; exact this, by rw [d2, d3]; exact h.kV⟩

/-- The surface with exchanged parameters. -/
theorem Surface.Cl.invertUV {eps : K} (heps : 0 < eps) {s : Surface K V} (hc : s.Cl) :
    ∃ s', s.invertUV = .ok s' ∧ s'.Cl ∧ s'.degU = s.degV ∧ s'.degV = s.degU ∧ s'.knotsU = s.knotsV ∧ s'.knotsV = s.knotsU ∧
      s'.u0 = s.v0 ∧ s'.u1 = s.v1 ∧ s'.v0 = s.u0 ∧ s'.v1 = s.u1 ∧
      ∀ u v, s.u0 ≤ u → u ≤ s.u1 → s.v0 ≤ v → v ≤ s.v1 → ∀ (junk junk' : K) (du dv : ℕ), s'.value eps junk' v u dv du = s.value eps junk u v du dv := by
  obtain ⟨s', e, l1, a1, a2, a3, a4, a5, a6, a7, a8⟩ := Surface.invert_cl hc.wf hc.du hc.dv (by rw [hc.u00, hc.u01]) (by rw [hc.u10, hc.u11])
    (by rw [hc.v00, hc.v01]) (by rw [hc.v10, hc.v11])
  rw [hc.v00] at a5; rw [hc.v11] at a6; rw [hc.u00] at a7; rw [hc.u11] at a8
  refine ⟨s', e, l1, a1, a2, a3, a4, a5, a6, a7, a8, ?_⟩
  intro u v u0 u1 v0 v1 junk junk' du dv
  obtain ⟨t, f, -, -, -, -, -, hv⟩ := C28_invertUV_swaps heps hc.wf (hc.big eps)
  obtain rfl : t = s' := by rw [e] at f; exact (Except.ok.inj f).symm
  obtain ⟨pt, p1, p2⟩ := hv u v (hc.in u0 u1 v0 v1) junk junk' du dv
  rw [p1, p2]

/-- The derivatives along V at a parameter `v` of a surface are a curve in `u`. -/
theorem Surface.Cl.slice {eps : K} (heps : 0 < eps) {s : Surface K V} (h : s.Cl) {v : K} (hv0 : s.v0 ≤ v) (hv1 : v ≤ s.v1) (dv : ℕ) :
    ∃ f : Curve K V, f.Good ∧ f.Clamped ∧ f.deg = s.degU ∧ f.b0 = s.u0 ∧ f.b1 = s.u1 ∧
      ∀ u, s.u0 ≤ u → u ≤ s.u1 → ∀ (junk junk' : K) (du : ℕ), f.value eps junk u du = s.value eps junk' u v du dv := by
  obtain ⟨s', -, l1, a1, a2, a3, a4, a5, a6, a7, a8, hv⟩ := h.invertUV heps
  have hx : ∀ j, ∃ x : V, j < s'.nPV → (s'.rowCurve j).toCurve.value eps 0 v dv = .ok x := by
    intro j
    by_cases hj : j < s'.nPV
    · obtain ⟨_, -, -, -, -, e⟩ := Curve.value_span heps (l1.rowGood hj) (Or.inl l1.du) (u := v) (by show kf s'.knotsU 0 ≤ v; rw [l1.u00, a5]; exact hv0)
        (by show v ≤ kLast s'.knotsU; rw [l1.u11, a6]; exact hv1)
      exact ⟨_, fun _ => e 0 dv⟩
    · exact ⟨0, fun h => absurd h hj⟩
  choose x hx using hx
  have hl : ((List.range s'.nPV).map x).length = s'.nPV := by simp
  refine ⟨(⟨(List.range s'.nPV).map x, s'.knotsV, s'.degV⟩ : CurveInfo K V).toCurve, ⟨l1.wf.v.wf hl, ?_, ?_⟩, ⟨rfl, rfl⟩, a2, ?_, ?_, ?_⟩
  · show kf s'.knotsV 0 = kf s'.knotsV s'.degV
    rw [l1.v00, l1.v01]
  · show kLast s'.knotsV = kf s'.knotsV ((List.range s'.nPV).map x).length
    rw [hl, l1.v11, l1.v10]
  · show kf s'.knotsV 0 = s.u0
    rw [l1.v00, a7]
  · show kLast s'.knotsV = s.u1
    rw [l1.v11, a8]
  · intro u hu0 hu1 junk junk' du
    rw [← hv u v hu0 hu1 hv0 hv1 junk' 0 du dv,
      l1.value_rows heps (by rw [a5]; exact hv0) (by rw [a6]; exact hv1) hx (by rw [a7]; exact hu0) (by rw [a8]; exact hu1) 0 junk du]

/-- The reversal, of a surface which begins with a reversed one, ends with it. -/
theorem reversed_back {eps : K} (heps : 0 < eps) {s r J : Surface K V} (hs : s.Cl) (er : s.reverseU = .ok r) (hJ : J.Cl) {d : K} (hd : 0 < d)
    (j0 : J.u0 = s.u0) (j1 : J.u1 = s.u1 + d) (j2 : J.v0 = s.v0) (j3 : J.v1 = s.v1) (jd : J.degU = s.degU)
    (hA : ∀ u v, s.u0 ≤ u → u < s.u1 → s.v0 ≤ v → v ≤ s.v1 → ∀ (junk : K) (du dv : ℕ), J.value eps junk u v du dv = r.value eps junk u v du dv) :
    ∃ J', J.reverseU = .ok J' ∧ J'.Cl ∧ J'.degU = s.degU ∧ J'.degV = J.degV ∧ J'.knotsV = J.knotsV ∧ J'.u0 = s.u0 ∧ J'.u1 = s.u1 + d ∧
      J'.v0 = s.v0 ∧ J'.v1 = s.v1 ∧ ∀ v, s.v0 ≤ v → v ≤ s.v1 → ∀ (junk : K) (du dv : ℕ),
        (∀ u, s.u0 ≤ u → u ≤ s.u1 → ∃ y, s.value eps junk u v du dv = .ok y ∧ J'.value eps junk (u + d) v du dv = .ok y) ∧
        ∃ y, J.value eps junk J.u1 v du dv = .ok y ∧ J'.value eps junk J'.u0 v du dv = .ok ((-1 : K) ^ du • y) := by
  have hlt : s.u0 < s.u1 := hs.goodU.lt
  obtain ⟨r', er', hr, r1, r2, r3, r4, r5, r6, r7, hrv⟩ := C56_reverseU heps hs
  obtain rfl : r' = r := by rw [er] at er'; exact (Except.ok.inj er').symm
  obtain ⟨J', eJ, hJ', t1, t2, t3, t4, t5, t6, t7, hJv⟩ := C56_reverseU heps hJ
  refine ⟨J', eJ, hJ', by rw [t1, jd], t2, t3, by rw [t4, j0], by rw [t5, j1], by rw [t6, j2], by rw [t7, j3], ?_⟩
  intro v hv0 hv1 junk du dv
  have hback : ∀ w, s.u0 < w → w ≤ s.u1 → w = s.u1 ∨ (s.u0 + s.u1 - w ∉ J.knotsU ∧ w ∉ s.knotsU) → ∀ du, ∃ y, s.value eps junk w v du dv = .ok y ∧
      J'.value eps junk (w + d) v du dv = .ok y := by
    intro w w0 w1 hw du
    have e1 : J.u0 + J.u1 - (w + d) = s.u0 + s.u1 - w := by rw [j0, j1]; ring
    obtain ⟨y, y1, y2⟩ := hJv (w + d) v (by rw [j0]; linarith) (by rw [j1]; linarith) (by rw [j2]; exact hv0) (by rw [j3]; exact hv1) du (by
      rw [e1]
      rcases hw with rfl | ⟨h1, -⟩
      · right; left; rw [j1]
      · right; right; left; exact List.count_eq_zero.mpr h1) junk junk dv
    rw [e1, hA _ v (by linarith) (by linarith) hv0 hv1] at y1
    obtain ⟨z, z1, z2⟩ := hrv (s.u0 + s.u1 - w) v (by linarith) (by linarith) hv0 hv1 du (by
      rw [sub_sub_cancel]
      rcases hw with rfl | ⟨-, h1⟩
      · left; ring
      · right; right; left; exact List.count_eq_zero.mpr h1) junk junk dv
    rw [sub_sub_cancel] at z1
    rw [z2] at y1
    refine ⟨z, z1, ?_⟩
    rw [y2, ← Except.ok.inj y1, neg_pow_smul_self]
  constructor
  · intro u hu0 hu1
    rcases hu1.lt_or_eq with hu1 | rfl
    · obtain ⟨f, gf, cf, df, f0, f1, hf⟩ := hs.slice heps hv0 hv1 dv
      obtain ⟨g, gg, cg, dg, g0, g1, hg⟩ := hJ'.slice heps (v := v) (by rw [t6, j2]; exact hv0) (by rw [t7, j3]; exact hv1) dv
      obtain ⟨g', eg', dg', gg', cg', g0', g1', hg'⟩ := Curve.shift_spec heps gg cg (by rw [dg]; exact hJ'.du) d
      rw [g0, t4, j0] at g0'
      rw [g1, t5, j1, add_sub_cancel_right] at g1'
      have hgJ : ∀ w, s.u0 ≤ w → w ≤ s.u1 → ∀ (du : ℕ), g'.value eps junk w du = J'.value eps junk (w + d) v du dv := by
        intro w w0 w1 du
        obtain ⟨y, y1, y2⟩ := hg' (w + d) du (by rw [g0, t4, j0]; linarith) (by rw [g1, t5, j1]; linarith) junk junk
        rw [add_sub_cancel_right] at y2
        rw [y2, ← y1, hg (w + d) (by rw [t4, j0]; linarith) (by rw [t5, j1]; linarith) junk junk du]
      obtain ⟨y, y1, y2⟩ := Curve.right_germ heps gf gg' (Or.inl (by rw [df]; exact hs.du)) (Or.inl (by rw [dg', dg]; exact hJ'.du)) (v := u)
        (by rw [f0]; exact hu0) (by rw [f1]; exact hu1) (by rw [g0']; linarith) (by rw [g1']; exact hu1) (b := s.u1) hu1
        (J.knotsU.map (fun k => s.u0 + s.u1 - k) ++ s.knotsU) (j := junk) (j' := junk) (by
          intro w w1 w2 _ w3 w4
          rw [List.mem_append, not_or] at w4
          obtain ⟨y, y1, y2⟩ := hback w (by linarith) w3.le (Or.inr ⟨fun h => w4.1 (List.mem_map.mpr ⟨_, h, by ring⟩), w4.2⟩) 0
          exact ⟨y, by rw [hf w (by linarith) w3.le junk junk 0]; exact y1, by rw [hgJ w (by linarith) w3.le 0]; exact y2⟩) du junk junk
      exact ⟨y, by rw [← hf u hu0 hu1.le junk junk du]; exact y1, by rw [← hgJ u hu0 hu1.le du]; exact y2⟩
    · exact hback s.u1 hlt le_rfl (Or.inl rfl) du
  · obtain ⟨y, y1, y2⟩ := hJv J.u0 v le_rfl hJ.goodU.lt.le (by rw [j2]; exact hv0) (by rw [j3]; exact hv1) du (Or.inl rfl) junk junk dv
    rw [add_sub_cancel_left] at y1
    exact ⟨y, y1, by rw [t4]; exact y2⟩

/-- The reversals, of surfaces equal between two parameters, are equal between the opposite ones, but for a shift. -/
theorem reversed_agree {eps : K} (heps : 0 < eps) {P Q P' Q' : Surface K V} (hP : P.Cl) (hQ : Q.Cl) (eP : P.reverseU = .ok P') (eQ : Q.reverseU = .ok Q')
    {a b : K} (pa : P.u0 ≤ a) (pb : b ≤ P.u1) (qa : Q.u0 ≤ a) (qb : b ≤ Q.u1) {v : K} (pv0 : P.v0 ≤ v) (pv1 : v ≤ P.v1)
    (qv0 : Q.v0 ≤ v) (qv1 : v ≤ Q.v1) (junk : K) (dv : ℕ) (hPQ : ∀ u, a < u → u < b → P.value eps junk u v 0 dv = Q.value eps junk u v 0 dv)
    {w : K} (w0 : P.u0 + P.u1 - b ≤ w) (w1 : w < P.u0 + P.u1 - a) (du : ℕ) :
    ∃ y, P'.value eps junk w v du dv = .ok y ∧ Q'.value eps junk (w + (Q.u0 + Q.u1 - (P.u0 + P.u1))) v du dv = .ok y := by
  obtain ⟨R', eR, hP', -, -, -, p4, p5, p6, p7, hPv⟩ := C56_reverseU heps hP
  obtain rfl : P' = R' := by rw [eP] at eR; exact Except.ok.inj eR
  obtain ⟨R', eR, hQ', -, -, -, q4, q5, q6, q7, hQv⟩ := C56_reverseU heps hQ
  obtain rfl : Q' = R' := by rw [eQ] at eR; exact Except.ok.inj eR
  set S := Q.u0 + Q.u1 - (P.u0 + P.u1) with hS
  obtain ⟨f, gf, cf, df, f0, f1, hf⟩ := hP'.slice heps (v := v) (by rw [p6]; exact pv0) (by rw [p7]; exact pv1) dv
  obtain ⟨g, gg, cg, dg, g0, g1, hg⟩ := hQ'.slice heps (v := v) (by rw [q6]; exact qv0) (by rw [q7]; exact qv1) dv
  obtain ⟨g', eg', dg', gg', cg', g0', g1', hg'⟩ := Curve.shift_spec heps gg cg (by rw [dg]; exact hQ'.du) S
  rw [g0, q4] at g0'
  rw [g1, q5] at g1'
  have hgJ : ∀ x, Q.u0 ≤ x + S → x + S ≤ Q.u1 → ∀ (du : ℕ), g'.value eps junk x du = Q'.value eps junk (x + S) v du dv := by
    intro x x0 x1 du
    obtain ⟨y, y1, y2⟩ := hg' (x + S) du (by rw [g0, q4]; exact x0) (by rw [g1, q5]; exact x1) junk junk
    rw [add_sub_cancel_right] at y2
    rw [y2, ← y1, hg (x + S) (by rw [q4]; exact x0) (by rw [q5]; exact x1) junk junk du]
  obtain ⟨y, y1, y2⟩ := Curve.right_germ heps gf gg' (Or.inl (by rw [df]; exact hP'.du)) (Or.inl (by rw [dg', dg]; exact hQ'.du)) (v := w)
    (by rw [f0, p4]; linarith) (by rw [f1, p5]; linarith) (by rw [g0']; linarith) (by rw [g1']; linarith) (b := P.u0 + P.u1 - a) w1
    ((P.knotsU ++ Q.knotsU).map fun k => P.u0 + P.u1 - k) (j := junk) (j' := junk) (by
      intro x x1 _ _ x2 x3
      have hx : ∀ k, k ∈ P.knotsU ∨ k ∈ Q.knotsU → P.u0 + P.u1 - x ≠ k := fun k hk h =>
        x3 (List.mem_map.mpr ⟨k, List.mem_append.mpr hk, by rw [← h]; ring⟩)
      obtain ⟨y, y1, y2⟩ := hPv x v (by linarith) (by linarith) pv0 pv1 0 (Or.inr (Or.inr (Or.inl (List.count_eq_zero.mpr
        fun h => hx _ (Or.inl h) rfl)))) junk junk dv
      have e : Q.u0 + Q.u1 - (x + S) = P.u0 + P.u1 - x := by rw [hS]; ring
      obtain ⟨z, z1, z2⟩ := hQv (x + S) v (by linarith) (by linarith) qv0 qv1 0 (Or.inr (Or.inr (Or.inl (by
        rw [e]; exact List.count_eq_zero.mpr fun h => hx _ (Or.inr h) rfl)))) junk junk dv
      rw [e, ← hPQ _ (by linarith) (by linarith), y1] at z1
      obtain rfl := Except.ok.inj z1
      exact ⟨_, by rw [hf x (by rw [p4]; linarith) (by rw [p5]; linarith) junk junk 0]; exact y2, by rw [hgJ x (by linarith) (by linarith) 0]; exact z2⟩)
    du junk junk
  exact ⟨y, by rw [← hf w (by rw [p4]; linarith) (by rw [p5]; linarith) junk junk du]; exact y1, by rw [← hgJ w (by linarith) (by linarith) du]; exact y2⟩

end Gbs
