import Verif.Lemmas.SurfaceOps
import Verif.Props.Insertion
import Verif.Props.DerivCurve

/-! # Surfaces: C27, C28, C29, C30, C31, C55 -/

namespace Gbs

set_option linter.unusedSectionVars false

open Polynomial

variable {K : Type} [Field K] [LinearOrder K] [IsStrictOrderedRing K]
variable {V : Type} [AddCommGroup V] [Module K V]

/-- Parameters inside of the bounds and of the domain of the basis functions (the two coincide for clamped knots). -/
structure Surface.In (s : Surface K V) (u v : K) : Prop where
  u0 : s.u0 ≤ u
  u1 : u ≤ s.u1
  v0 : s.v0 ≤ v
  v1 : v ≤ s.v1
  ku0 : kf s.knotsU s.degU ≤ u
  ku1 : u ≤ kf s.knotsU s.nPU
  kv0 : kf s.knotsV s.degV ≤ v
  kv1 : v ≤ kf s.knotsV s.nPV

/-- Above degree 24 the evaluation uses recursive basis functions: knots separated by more than the tolerance and clamped
ends. -/
def Surface.BigOk (eps : K) (s : Surface K V) : Prop :=
  (s.degU ≤ stackMaxDegree ∧ s.degV ≤ stackMaxDegree) ∨
    (Sep eps s.knotsU ∧ kf s.knotsU s.nPU = kLast s.knotsU ∧ Sep eps s.knotsV ∧ kf s.knotsV s.nPV = kLast s.knotsV)

theorem Surface.evalOk {eps : K} (heps : 0 < eps) {s : Surface K V} (hb : s.BigOk eps) {u v : K} (h : s.In u v) :
    SurfEvalOk eps s.degU s.degV s.knotsU s.knotsV s.nPU s.nPV u v := by
  rcases hb with hb | ⟨h1, h2, h3, h4⟩
  · exact Or.inl hb
  · have := h.ku1; have := h.kv1
    exact Or.inr ⟨⟨heps, h1, h2, h.ku0, by linarith⟩, ⟨heps, h3, h4, h.kv0, by linarith⟩⟩

theorem Surface.not_outside {eps : K} (heps : 0 < eps) {s : Surface K V} {u v : K} (h : s.In u v) : ¬ s.outside eps u v := by
  unfold Surface.outside
  have := h.u0; have := h.u1; have := h.v0; have := h.v1
  push Not
  exact ⟨⟨by linarith, by linarith⟩, by linarith, by linarith⟩

theorem Surface.value_spec {eps : K} (heps : 0 < eps) {s : Surface K V} (h : s.Wf) (hb : s.BigOk eps) {u v : K} (hi : s.In u v) :
    ∃ i j, findSpan s.nPU s.degU u s.knotsU = .ok i ∧ findSpan s.nPV s.degV v s.knotsV = .ok j ∧
      Spec.InSpan (kf s.knotsU) (kf s.knotsU s.nPU) i u ∧ Spec.InSpan (kf s.knotsV) (kf s.knotsV s.nPV) j v ∧
      s.degU ≤ i ∧ i < s.nPU ∧ s.degV ≤ j ∧ j < s.nPV ∧
      ∀ junk du dv, s.value eps junk u v du dv =
        .ok (surfDer (kf s.knotsU) s.nPU s.degU i (kf s.knotsV) s.nPV s.degV j (pf s.poles) du dv u v) := by
  obtain ⟨i, e, a1, a2, -, a4, -⟩ := findSpan_kwf h.u u
  obtain ⟨j, e', b1, b2, -, b4, -⟩ := findSpan_kwf h.v v
  refine ⟨i, j, e, e', a4 hi.ku0 hi.ku1, b4 hi.kv0 hi.kv1, a1, a2, b1, b2, ?_⟩
  intro junk du dv
  unfold Surface.value
  rw [if_neg (Surface.not_outside heps hi)]
  exact evalSurf_spec h.u h.v h.len (Surface.evalOk heps hb hi) du dv e e'

/-! ## C27 -/

/-- C27: the value is the tensor product sum over all the poles, the one of indices `(i,j)` being stored at
`i + nPolesU * j`; no access is out of range. -/
theorem C27_value_eq_sum {eps : K} (heps : 0 < eps) {s : Surface K V} (h : s.Wf) (hb : s.BigOk eps) {u v : K} (hi : s.In u v)
    (junk : K) {n m : ℕ} (hn : n = s.knotsU.length - (s.degU + 1)) (hm : m = s.knotsV.length - (s.degV + 1)) :
    s.value eps junk u v = .ok (∑ j ∈ Finset.range m, ∑ i ∈ Finset.range n,
      (Spec.N (kf s.knotsU) (kf s.knotsU n) s.degU i u * Spec.N (kf s.knotsV) (kf s.knotsV m) s.degV j v) •
        pf s.poles (i + n * j)) := by
  obtain ⟨i, j, -, -, hu, hv, -, -, -, -, e⟩ := Surface.value_spec heps h hb hi
  rw [e]
  subst hn hm
  change Except.ok (surfDer (kf s.knotsU) s.nPU s.degU i (kf s.knotsV) s.nPV s.degV j (pf s.poles) 0 0 u v) = _
  unfold surfDer
  rw [spanDer_eq_curve (kf_mono h.v.sorted) hv]
  unfold Spec.curve
  congr 1
  apply Finset.sum_congr rfl
  intro b _
  beta_reduce
  rw [spanDer_eq_curve (kf_mono h.u.sorted) hu]
  unfold Spec.curve
  rw [Finset.smul_sum]
  apply Finset.sum_congr rfl
  intro a _
  rw [smul_smul, mul_comm]
  rfl

/-- C27: the value is a convex combination of poles. -/
theorem C27_coordinate_bounds {eps : K} (heps : 0 < eps) {s : Surface K V} (h : s.Wf) (hb : s.BigOk eps) {u v : K} (hi : s.In u v)
    (junk : K) : ∃ pt, s.value eps junk u v = .ok pt ∧ ∀ (f : V →ₗ[K] K) (lo hi : K),
      (∀ x ∈ s.poles, lo ≤ f x ∧ f x ≤ hi) → lo ≤ f pt ∧ f pt ≤ hi := by
  obtain ⟨i, j, -, -, hu, hv, a1, a2, b1, b2, e⟩ := Surface.value_spec heps h hb hi
  refine ⟨_, e junk 0 0, ?_⟩
  intro f lo hi' hf
  obtain ⟨p1, p2, p3⟩ := InSpan_bounds hu
  obtain ⟨q1, q2, q3⟩ := InSpan_bounds hv
  have key : ∀ (g : V →ₗ[K] K) (lo : K), (∀ x ∈ s.poles, lo ≤ g x) →
      lo ≤ g (surfDer (kf s.knotsU) s.nPU s.degU i (kf s.knotsV) s.nPV s.degV j (pf s.poles) 0 0 u v) := by
    intro g lo hg
    have hval : g (surfDer (kf s.knotsU) s.nPU s.degU i (kf s.knotsV) s.nPV s.degV j (pf s.poles) 0 0 u v) =
        ∑ b ∈ Finset.range s.nPV, B (kf s.knotsV) j s.degV b v * ∑ a ∈ Finset.range s.nPU,
          B (kf s.knotsU) i s.degU a u * g (s.P a b) := by
      unfold surfDer spanDer
      rw [map_sum]
      simp only [map_smul, map_sum, smul_eq_mul, Function.iterate_zero, id_eq, Bp_eval]
      rfl
    rw [hval]
    calc lo = ∑ b ∈ Finset.range s.nPV, B (kf s.knotsV) j s.degV b v * ∑ a ∈ Finset.range s.nPU,
          B (kf s.knotsU) i s.degU a u * lo := by
          rw [← Finset.sum_mul, ← Finset.sum_mul, sum_B_eq_one (kf_mono h.u.sorted) p3 a1 a2 u, one_mul,
            sum_B_eq_one (kf_mono h.v.sorted) q3 b1 b2 v, one_mul]
      _ ≤ _ := by
          apply Finset.sum_le_sum
          intro b hb
          apply mul_le_mul_of_nonneg_left _ (B_nonneg (kf_mono h.v.sorted) _ q1 q2 _)
          apply Finset.sum_le_sum
          intro a ha
          apply mul_le_mul_of_nonneg_left _ (B_nonneg (kf_mono h.u.sorted) _ p1 p2 _)
          apply hg
          exact List.mem_of_getElem? (pf_getElem? (by
            rw [h.len]; exact idx_lt (Finset.mem_range.mp ha) (Finset.mem_range.mp hb)))
  refine ⟨key f lo (fun x hx => (hf x hx).1), ?_⟩
  have := key (-f) (-hi') (fun x hx => by simpa using (hf x hx).2)
  simpa using this

/-- C27: outside of the bounds by more than the tolerance, the evaluation throws, whatever the surface. -/
theorem C27_out_of_bounds {eps : K} (s : Surface K V) {u v : K}
    (h : u < s.u0 - eps ∨ s.u1 + eps < u ∨ v < s.v0 - eps ∨ s.v1 + eps < v) (junk : K) (du dv nu nv : ℕ) (B : List V) :
    s.value eps junk u v du dv = .error (.thrown .outOfBoundsEval) ∧
    s.derivatives eps junk u v nu nv B = .error (.thrown .outOfBoundsEval) := by
  have : s.outside eps u v := by unfold Surface.outside; tauto
  unfold Surface.value Surface.derivatives
  rw [if_pos this, if_pos this]
  exact ⟨rfl, rfl⟩

/-- C27: `value(u,v,du,dv)` is the mixed derivative: on the span of `u` and the span of `v` the basis functions are
polynomials, which are differentiated `du` and `dv` times. -/
theorem C27_mixed_derivative {eps : K} (heps : 0 < eps) {s : Surface K V} (h : s.Wf) (hb : s.BigOk eps) {u v : K} (hi : s.In u v)
    (junk : K) {n m : ℕ} (hn : n = s.knotsU.length - (s.degU + 1)) (hm : m = s.knotsV.length - (s.degV + 1)) :
    ∃ k l, ∃ f g : ℕ → K[X], Spec.InSpan (kf s.knotsU) (kf s.knotsU n) k u ∧ Spec.InSpan (kf s.knotsV) (kf s.knotsV m) l v ∧
      (∀ x, Spec.InSpan (kf s.knotsU) (kf s.knotsU n) k x → ∀ i, Spec.N (kf s.knotsU) (kf s.knotsU n) s.degU i x = (f i).eval x) ∧
      (∀ x, Spec.InSpan (kf s.knotsV) (kf s.knotsV m) l x → ∀ i, Spec.N (kf s.knotsV) (kf s.knotsV m) s.degV i x = (g i).eval x) ∧
      ∀ du dv, s.value eps junk u v du dv = .ok (∑ j ∈ Finset.range m, ∑ i ∈ Finset.range n,
        ((derivative^[du] (f i)).eval u * (derivative^[dv] (g j)).eval v) • pf s.poles (i + n * j)) := by
  obtain ⟨i, j, -, -, hu, hv, -, -, -, -, e⟩ := Surface.value_spec heps h hb hi
  subst hn hm
  refine ⟨i, j, Bp (kf s.knotsU) i s.degU, Bp (kf s.knotsV) j s.degV, hu, hv, ?_, ?_, ?_⟩
  · intro x hx a; rw [N_eq_B (kf_mono h.u.sorted) hx, Bp_eval]
  · intro x hx a; rw [N_eq_B (kf_mono h.v.sorted) hx, Bp_eval]
  · intro du dv
    rw [e]
    congr 1
    unfold surfDer spanDer
    apply Finset.sum_congr rfl
    intro b _
    rw [Finset.smul_sum]
    apply Finset.sum_congr rfl
    intro a _
    rw [smul_smul, mul_comm]
    rfl

/-- C27: the table of derivatives contains `value(u,v,a,b)` at `a*(nv+1)+b`, whatever was in the buffer, and the rest of
the buffer is not resized. -/
theorem C27_derivatives_table {eps : K} (heps : 0 < eps) {s : Surface K V} (h : s.Wf) (hb : s.BigOk eps) {u v : K} (hi : s.In u v)
    (junk junk' : K) (nu nv : ℕ) {B : List V} (hB : (nu + 1) * (nv + 1) ≤ B.length) :
    ∃ T, s.derivatives eps junk u v nu nv B = .ok T ∧ T.length = B.length ∧
      ∀ a b, a ≤ nu → b ≤ nv → ∃ pt, T[a * (nv + 1) + b]? = some pt ∧ s.value eps junk' u v a b = .ok pt := by
  obtain ⟨i, j, ei, ej, -, -, -, -, -, -, e⟩ := Surface.value_spec heps h hb hi
  obtain ⟨T, e1, h1, h2⟩ := evalSurfDers_spec (junk := junk) h.u h.v h.len (Surface.evalOk heps hb hi) nu nv ei ej B hB
  refine ⟨T, ?_, h1, fun a b ha hb' => ⟨_, h2 a b ha hb', e junk' a b⟩⟩
  unfold Surface.derivatives
  rw [if_neg (Surface.not_outside heps hi)]
  exact e1

/-! ## C55: rational surfaces -/

/-- C55: the value of a rational surface at a point of non-null weight is the quotient of the homogeneous value. -/
theorem C55_value {eps : K} (heps : 0 < eps) {s : Surface K (V × K)} (h : s.Wf) (hb : s.BigOk eps) {u v : K} (hi : s.In u v)
    (junk junk' : K) {x : V} {w : K} (hx : s.value eps junk u v = .ok (x, w)) (hw : w ≠ 0) :
    s.ratValue eps junk' u v = .ok (w⁻¹ • x) := by
  obtain ⟨i, j, -, -, -, -, -, -, -, -, e⟩ := Surface.value_spec heps h hb hi
  have e' := e junk' 0 0
  rw [← e junk 0 0, hx] at e'
  unfold Surface.ratValue
  rw [if_neg (Surface.not_outside heps hi), if_pos ⟨rfl, rfl⟩]
  unfold Surface.value at e'
  rw [if_neg (Surface.not_outside heps hi)] at e'
  rw [e', R_bind_ok]
  unfold weightProjection
  rw [if_pos hw]
  rfl

theorem Surface.ratDers_spec {eps : K} (heps : 0 < eps) {s : Surface K (V × K)} (h : s.Wf) (hb : s.BigOk eps) {u v : K}
    (hi : s.In u v) {A : ℕ → ℕ → V × K} (hA : ∀ a b, ∃ junk, s.value eps junk u v a b = .ok (A a b)) (hw : (A 0 0).2 ≠ 0)
    (junk : K) {nu nv : ℕ} (hnu : nu ≤ 60) (hnv : nv ≤ 60) (B : List V) (hB : (nu + 1) * (nv + 1) ≤ B.length) :
    ∃ T, s.ratDerivatives eps junk u v nu nv B = .ok T ∧ T.length = B.length ∧
      ∀ a b, a ≤ nu → b ≤ nv → T[a * (nv + 1) + b]? = some (quotB2 (bU K) (fun a b => (A a b).1) (fun a b => (A a b).2) a b) := by
  obtain ⟨i, j, ei, ej, -, -, -, -, -, -, e⟩ := Surface.value_spec heps h hb hi
  have hA' : A = fun x y => surfDer (kf s.knotsU) s.nPU s.degU i (kf s.knotsV) s.nPV s.degV j (pf s.poles) x y u v := by
    funext a b
    obtain ⟨j', hj'⟩ := hA a b
    rw [e] at hj'
    exact (Except.ok.inj hj').symm
  obtain ⟨T, e1, h1, h2⟩ := evalRatSurfDers_spec (junk := junk) h.u h.v h.len (Surface.evalOk heps hb hi) nu nv hnu hnv ei ej B hB hA' hw
  refine ⟨T, ?_, h1, h2⟩
  unfold Surface.ratDerivatives
  rw [if_neg (Surface.not_outside heps hi)]
  exact e1

/-- C55: the derivatives `S_kl` returned by a rational surface satisfy the Leibniz rule for the product of the weight
function and the surface, `Σ_i Σ_j C(k,i) C(l,j) w_ij S_(k-i)(l-j) = A_kl`, where `(A_kl, w_kl)` is the mixed derivative of the
homogeneous surface, at every point of non-null weight, up to the orders 20 (representable factorials). Single mixed
derivatives agree with the table. -/
theorem C55_leibniz {eps : K} (heps : 0 < eps) {s : Surface K (V × K)} (h : s.Wf) (hb : s.BigOk eps) {u v : K} (hi : s.In u v)
    {A : ℕ → ℕ → V × K} (hA : ∀ a b, ∃ junk, s.value eps junk u v a b = .ok (A a b)) (hw : (A 0 0).2 ≠ 0)
    (junk junk' : K) {nu nv : ℕ} (hnu : nu ≤ 20) (hnv : nv ≤ 20) (B : List V) (hB : (nu + 1) * (nv + 1) ≤ B.length) :
    ∃ S : ℕ → ℕ → V, ∃ T, s.ratDerivatives eps junk u v nu nv B = .ok T ∧
      (∀ a b, a ≤ nu → b ≤ nv → T[a * (nv + 1) + b]? = some (S a b) ∧ s.ratValue eps junk' u v a b = .ok (S a b)) ∧
      ∀ k l, k ≤ nu → l ≤ nv →
        ∑ i ∈ Finset.range (k + 1), ∑ j ∈ Finset.range (l + 1),
          (((k.choose i * l.choose j : ℕ) : K) * (A i j).2) • S (k - i) (l - j) = (A k l).1 := by
  obtain ⟨T, e1, -, h2⟩ := Surface.ratDers_spec heps h hb hi hA hw junk (nu := nu) (nv := nv) (by omega) (by omega) B hB
  refine ⟨_, T, e1, fun a b ha hb' => ⟨h2 a b ha hb', ?_⟩, ?_⟩
  · by_cases h0 : a = 0 ∧ b = 0
    · obtain ⟨rfl, rfl⟩ := h0
      obtain ⟨jk, hj⟩ := hA 0 0
      rw [C55_value heps h hb hi jk junk' hj hw]
      rw [quotB2_eq]
      simp
    · obtain ⟨T', e2, -, h3⟩ := Surface.ratDers_spec heps h hb hi hA hw junk' (nu := a) (nv := b) (by omega) (by omega)
        (List.replicate ((a+1)*(b+1)) 0) (by simp)
      unfold Surface.ratValue
      rw [if_neg (Surface.not_outside heps hi), if_neg h0, e2, R_bind_ok, rd_eq_ok.mpr (h3 a b le_rfl le_rfl)]
  · intro k l hk hl
    rw [← quotB2_rule (b := bU K) (A := fun a b => (A a b).1) (w := fun a b => (A a b).2) hw k l
      (by rw [bU_choose (by omega) (by omega)]; simp) (by rw [bU_choose (by omega) (by omega)]; simp)]
    apply Finset.sum_congr rfl
    intro i hi
    apply Finset.sum_congr rfl
    intro j hj
    rw [Finset.mem_range] at hi hj
    rw [bU_choose (by omega) (by omega), bU_choose (by omega) (by omega)]
    push_cast
    rfl

/-! ## C28 -/

theorem Surface.In.invert {s s' : Surface K V} (h : s.Wf) (e : s.invertUV = .ok s') {u v : K} (hi : s.In u v) : s'.In v u := by
  obtain ⟨t, e', w, d1, d2, k1, k2, b1, b2, b3, b4, n1, n2, -⟩ := Surface.invertUV_eq h
  obtain rfl : t = s' := by rw [e] at e'; exact (Except.ok.inj e').symm
  have hu0 := kf_mono h.u.sorted (Nat.zero_le s.degU)
  have hv0 := kf_mono h.v.sorted (Nat.zero_le s.degV)
  have hu1 := kf_le_kLast h.u.sorted s.nPU
  have hv1 := kf_le_kLast h.v.sorted s.nPV
  refine ⟨?_, ?_, ?_, ?_, ?_, ?_, ?_, ?_⟩
  · rw [b1]; exact le_trans hv0 hi.kv0
  · rw [b2]; exact le_trans hi.kv1 hv1
  · rw [b3]; exact le_trans hu0 hi.ku0
  · rw [b4]; exact le_trans hi.ku1 hu1
  · rw [k1, d1]; exact hi.kv0
  · rw [k1, n1]; exact hi.kv1
  · rw [k2, d2]; exact hi.ku0
  · rw [k2, n2]; exact hi.ku1

theorem Surface.BigOk.invert {eps : K} {s s' : Surface K V} (h : s.Wf) (e : s.invertUV = .ok s') (hb : s.BigOk eps) : s'.BigOk eps := by
  obtain ⟨t, e', w, d1, d2, k1, k2, b1, b2, b3, b4, n1, n2, -⟩ := Surface.invertUV_eq h
  obtain rfl : t = s' := by rw [e] at e'; exact (Except.ok.inj e').symm
  unfold Surface.BigOk at *
  rw [d1, d2, k1, k2, n1, n2]
  tauto

/-- C28: `invertUV` succeeds, exchanges degrees and knots, and exchanges the parameters (and orders) of every evaluation. -/
theorem C28_invertUV_swaps {eps : K} (heps : 0 < eps) {s : Surface K V} (h : s.Wf) (hb : s.BigOk eps) :
    ∃ s', s.invertUV = .ok s' ∧ s'.Wf ∧ s'.degU = s.degV ∧ s'.degV = s.degU ∧ s'.knotsU = s.knotsV ∧ s'.knotsV = s.knotsU ∧
      ∀ u v, s.In u v → ∀ (junk junk' : K) (du dv : ℕ),
        ∃ pt, s.value eps junk u v du dv = .ok pt ∧ s'.value eps junk' v u dv du = .ok pt := by
  obtain ⟨s', e, w, d1, d2, k1, k2, b1, b2, b3, b4, n1, n2, hp⟩ := Surface.invertUV_eq h
  refine ⟨s', e, w, d1, d2, k1, k2, ?_⟩
  intro u v hi junk junk' du dv
  obtain ⟨i, j, ei, ej, -, -, -, -, -, -, e1⟩ := Surface.value_spec heps h hb hi
  obtain ⟨i', j', ei', ej', -, -, -, -, -, -, e2⟩ := Surface.value_spec heps w (hb.invert h e) (hi.invert h e)
  rw [k1, n1, d1, ej] at ei'
  rw [k2, n2, d2, ei] at ej'
  obtain rfl := Except.ok.inj ei'
  obtain rfl := Except.ok.inj ej'
  refine ⟨_, e1 junk du dv, ?_⟩
  rw [e2]
  congr 1
  rw [k1, k2, n1, n2, d1, d2]
  unfold surfDer
  rw [← spanDer_comm (kf s.knotsU) (kf s.knotsV) s.nPU s.degU i s.nPV s.degV j (fun a b => pf s.poles (a + s.nPU * b)) du dv u v]
  apply spanDer_congr
  intro a ha
  apply spanDer_congr
  intro b hb
  have := hp a b ha hb
  unfold Surface.P at this
  rw [← this, n1]

/-- C28: exchanging twice gives back the degrees, knots and poles; the bounds become the end knots. -/
theorem C28_invertUV_involutive {s : Surface K V} (h : s.Wf) :
    ∃ s', s.invertUV = .ok s' ∧
      s'.invertUV = .ok { s with u0 := kf s.knotsU 0, u1 := kLast s.knotsU, v0 := kf s.knotsV 0, v1 := kLast s.knotsV } := by
  obtain ⟨s', e, w, d1, d2, k1, k2, b1, b2, b3, b4, n1, n2, hp⟩ := Surface.invertUV_eq h
  obtain ⟨t, e', w', d1', d2', k1', k2', b1', b2', b3', b4', n1', n2', hp'⟩ := Surface.invertUV_eq w
  refine ⟨s', e, ?_⟩
  rw [e']
  congr 1
  have hpoles : t.poles = s.poles := by
    apply pf_ext
    · rw [w'.len, h.len, n1', n2', n1, n2]
    · intro k hk
      rw [w'.len, n1', n2', n1, n2] at hk
      obtain ⟨i, j, hi, hj, rfl⟩ := idx_cases hk
      have a := hp i j hi hj
      have b := hp' j i (by rw [n1]; exact hj) (by rw [n2]; exact hi)
      unfold Surface.P at a b
      rw [n1', n2] at b
      rw [b, a]
  rcases t with ⟨_, _, _, _, _, _, _, _, _⟩
  simp only at hpoles d1' d2' k1' k2' b1' b2' b3' b4'
  subst hpoles d1' d2' k1' k2' b1' b2' b3' b4'
  rw [d1, d2, k1, k2]

end Gbs
