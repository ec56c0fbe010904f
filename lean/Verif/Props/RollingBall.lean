import Verif.Model.RollingBall
import Verif.Props.Extrema
import Verif.Props.Frames

/-!
# C110: the ball rolling between two curves of the plane
-/

set_option linter.unusedSectionVars false

namespace Gbs

variable {K : Type} [Field K] [LinearOrder K]

/-- `C` is on the normal at the point `P` where the tangent is `T`. -/
def Spec.OnNormal (P T C : Fin 2 → K) : Prop := (C 0 - P 0) * T 0 + (C 1 - P 1) * T 1 = 0

/-- The tangents are parallel. -/
def Spec.Along (S T : Fin 2 → K) : Prop := S 0 * T 1 = S 1 * T 0

/-- The cosine of the angle of the tangents is above `1 - a`, up to its sign. -/
def Spec.NearlyAlong (a : K) (S T : Fin 2 → K) : Prop :=
  (1 - a) ^ 2 * ((S 0 ^ 2 + S 1 ^ 2) * (T 0 ^ 2 + T 1 ^ 2)) < (S 0 * T 0 + S 1 * T 1) ^ 2

/-- How far the circle about `C` through `P` is from passing by `Q`: the difference of the squares of the radii. -/
def Spec.miss (P Q C : Fin 2 → K) : K := |Spec.distSq C P - Spec.distSq C Q|

/-- The curve never stops between its bounds. -/
def Spec.Moves (c : ACurve K (Fin 2 → K)) : Prop := ∀ u, c.b0 ≤ u → u ≤ c.b1 → ∀ T, c.value u 1 = .ok T → T ≠ 0

section ordered

variable [IsStrictOrderedRing K] {sqrt : K → K} {opt : Nlopt K}

theorem IsSqrt.mul_self (hs : IsSqrt sqrt) (y : K) (hy : 0 ≤ y) : sqrt (y * y) = y := by
  obtain ⟨h0, h1⟩ := hs (y * y) (mul_self_nonneg y)
  exact (mul_self_inj h0 hy).mp h1

theorem sqNorm_turn (T : Fin 2 → K) : sqNorm ![-T 1, T 0] = sqNorm T := by
  simp only [sqNorm, Fin.sum_univ_two, Matrix.cons_val_zero, Matrix.cons_val_one]
  ring

theorem unit_vdiv (hs : IsSqrt sqrt) {n : ℕ} {v : Fin n → K} (hv : v ≠ 0) :
    vdiv v (vnorm sqrt v) = .ok ((vnorm sqrt v)⁻¹ • v) ∧ sqNorm ((vnorm sqrt v)⁻¹ • v) = 1 := by
  refine ⟨vdiv_ok (vnorm_ne_zero hs hv), ?_⟩
  have h1 : sqNorm ((vnorm sqrt v)⁻¹ • v) = (vnorm sqrt v)⁻¹ * (vnorm sqrt v)⁻¹ * sqNorm v := by
    unfold sqNorm
    rw [Finset.mul_sum]
    exact Finset.sum_congr rfl fun i _ => by simp only [Pi.smul_apply, smul_eq_mul]; ring
  have := vnorm_ne_zero hs hv
  rw [h1, ← vnorm_mul_self hs v]
  field_simp

theorem vdiv_eq_ok {n : ℕ} {v w : Fin n → K} {s : K} (h : vdiv v s = .ok w) : s ≠ 0 ∧ w = s⁻¹ • v := by
  unfold vdiv at h
  split at h
  · cases h
  · rename_i h0
    exact ⟨h0, (Except.ok.inj h).symm⟩

/-- What the normal is. -/
theorem normalLine2_spec (hs : IsSqrt sqrt) {c : ACurve K (Fin 2 → K)} {u : K} {P T : Fin 2 → K} (hP : c.value u 0 = .ok P) (hT : c.value u 1 = .ok T) (hT0 : T ≠ 0) :
    normalLine2 sqrt c u = .ok (P, (vnorm sqrt T)⁻¹ • ![-T 1, T 0]) := by
  have hn : vnorm sqrt ![-T 1, T 0] = vnorm sqrt T := by unfold vnorm; rw [sqNorm_turn]
  have h0 : (![-T 1, T 0] : Fin 2 → K) ≠ 0 := by
    intro h
    apply hT0
    rw [← sqNorm_eq_zero, ← sqNorm_turn, h]
    simp [sqNorm]
  obtain ⟨h1, h2⟩ := unit_vdiv hs h0
  rw [hn] at h2
  have h3 : vnorm sqrt ((vnorm sqrt T)⁻¹ • ![-T 1, T 0]) = 1 := by
    rw [vnorm, h2]
    simpa using hs.mul_self 1 zero_le_one
  rw [normalLine2, hP, R_bind_ok, hT, R_bind_ok, normal2]
  rw [hn] at h1
  simp only [hn, h1, R_bind_ok]
  rw [add_sub_cancel_left, h3, vdiv_ok one_ne_zero, R_bind_ok, inv_one, one_smul]
  rfl

theorem normalLine2_inv {c : ACurve K (Fin 2 → K)} {u : K} {L : (Fin 2 → K) × (Fin 2 → K)} (hs : IsSqrt sqrt) (h : normalLine2 sqrt c u = .ok L) :
    ∃ P T, c.value u 0 = .ok P ∧ c.value u 1 = .ok T ∧ T ≠ 0 ∧ L = (P, (vnorm sqrt T)⁻¹ • ![-T 1, T 0]) := by
  have h' := h
  unfold normalLine2 at h
  obtain ⟨P, hP, h⟩ := R_bind_eq_ok.mp h
  obtain ⟨T, hT, h⟩ := R_bind_eq_ok.mp h
  obtain ⟨N, hN, h⟩ := R_bind_eq_ok.mp h
  have hT0 : T ≠ 0 := by
    rintro rfl
    refine (vdiv_eq_ok hN).1 ?_
    have : (![-(0 : Fin 2 → K) 1, (0 : Fin 2 → K) 0] : Fin 2 → K) = 0 := by
      funext i
      fin_cases i <;> simp
    rw [this, vnorm_zero hs]
  refine ⟨P, T, hP, hT, hT0, ?_⟩
  rw [normalLine2_spec hs hP hT hT0] at h'
  exact (Except.ok.inj h').symm

theorem sqNorm_lineAt (L : (Fin 2 → K) × (Fin 2 → K)) (l : K) : sqNorm (lineAt L l - lineAt L 0) = Spec.distSq (lineAt L l) L.1 := by
  rw [sqNorm_distSq]
  simp [lineAt]

theorem lineAt_onNormal (P T : Fin 2 → K) (a l : K) : Spec.OnNormal P T (lineAt (P, a • ![-T 1, T 0]) l) := by
  simp only [Spec.OnNormal, lineAt, Pi.add_apply, Pi.smul_apply, smul_eq_mul, Matrix.cons_val_zero, Matrix.cons_val_one]
  ring

theorem onNormal_unique {P T Q S C D : Fin 2 → K} (h : ¬ Spec.Along T S) (h1 : Spec.OnNormal P T C) (h2 : Spec.OnNormal Q S C)
    (h3 : Spec.OnNormal P T D) (h4 : Spec.OnNormal Q S D) : C = D := by
  unfold Spec.OnNormal at h1 h2 h3 h4
  have hd : T 0 * S 1 - T 1 * S 0 ≠ 0 := sub_ne_zero.mpr h
  have e0 : C 0 - D 0 = 0 := by
    have : (T 0 * S 1 - T 1 * S 0) * (C 0 - D 0) = 0 := by linear_combination S 1 * (h1 - h3) - T 1 * (h2 - h4)
    exact (mul_eq_zero.mp this).resolve_left hd
  have e1 : C 1 - D 1 = 0 := by
    have : (T 0 * S 1 - T 1 * S 0) * (C 1 - D 1) = 0 := by linear_combination -S 0 * (h1 - h3) + T 0 * (h2 - h4)
    exact (mul_eq_zero.mp this).resolve_left hd
  funext i
  fin_cases i
  · exact sub_eq_zero.mp e0
  · exact sub_eq_zero.mp e1

theorem lines_of_normals {P T Q S : Fin 2 → K} {a b : K} (ha : a ≠ 0) (hb : b ≠ 0) :
    (¬ Spec.Along T S → ∃ l1 l2, extremaLines P (a • ![-T 1, T 0]) Q (b • ![-S 1, S 0]) = .ok (l1, l2) ∧
      lineAt (P, a • ![-T 1, T 0]) l1 = lineAt (Q, b • ![-S 1, S 0]) l2) ∧
    (Spec.Along T S → extremaLines P (a • ![-T 1, T 0]) Q (b • ![-S 1, S 0]) = .error .divZero) := by
  obtain ⟨h1, h2⟩ := C103_lines P (a • ![-T 1, T 0]) Q (b • ![-S 1, S 0])
  simp only [Pi.smul_apply, smul_eq_mul, Matrix.cons_val_zero, Matrix.cons_val_one] at h1 h2
  constructor
  · intro h
    obtain ⟨l1, l2, e1, e2, -⟩ := h1 (by
      intro e
      apply h
      have : a * b * (T 0 * S 1 - T 1 * S 0) = 0 := by linear_combination e
      exact sub_eq_zero.mp ((mul_eq_zero.mp this).resolve_left (mul_ne_zero ha hb)))
    exact ⟨l1, l2, e1, e2⟩
  · intro h
    exact h2 (by unfold Spec.Along at h; linear_combination a * b * h)

/-- What the objective is: by how much the circle about the meeting of the normals misses the second foot. -/
theorem ballResidual_spec (hs : IsSqrt sqrt) {c1 c2 : ACurve K (Fin 2 → K)} {u1 u2 : K} {P T Q S : Fin 2 → K} (hP : c1.value u1 0 = .ok P) (hT : c1.value u1 1 = .ok T)
    (hT0 : T ≠ 0) (hQ : c2.value u2 0 = .ok Q) (hS : c2.value u2 1 = .ok S) (hS0 : S ≠ 0) :
    (¬ Spec.Along T S → ∃ C, Spec.OnNormal P T C ∧ Spec.OnNormal Q S C ∧ ballResidual sqrt c1 c2 u1 [u2] = .ok (Spec.miss P Q C)) ∧
    (Spec.Along T S → ballResidual sqrt c1 c2 u1 [u2] = .error .divZero) := by
  have e1 := normalLine2_spec hs hP hT hT0
  have e2 := normalLine2_spec hs hQ hS hS0
  obtain ⟨g1, g2⟩ := lines_of_normals (P := P) (T := T) (Q := Q) (S := S) (inv_ne_zero (vnorm_ne_zero hs hT0)) (inv_ne_zero (vnorm_ne_zero hs hS0))
  have e : ballResidual sqrt c1 c2 u1 [u2] = (do
      let (l1, l2) ← extremaLines P ((vnorm sqrt T)⁻¹ • ![-T 1, T 0]) Q ((vnorm sqrt S)⁻¹ • ![-S 1, S 0])
      pure |Spec.distSq (lineAt (P, (vnorm sqrt T)⁻¹ • ![-T 1, T 0]) l1) P - Spec.distSq (lineAt (Q, (vnorm sqrt S)⁻¹ • ![-S 1, S 0]) l2) Q|) := by
    simp only [ballResidual, rd, List.getElem?_cons_zero, R_bind_ok, e1, e2, sqNorm_lineAt]
  constructor
  · intro h
    obtain ⟨l1, l2, e3, e4⟩ := g1 h
    refine ⟨lineAt (P, (vnorm sqrt T)⁻¹ • ![-T 1, T 0]) l1, lineAt_onNormal _ _ _ _, ?_, ?_⟩
    · rw [e4]
      exact lineAt_onNormal _ _ _ _
    · rw [e, e3, R_bind_ok]
      dsimp only
      rw [← e4]
      rfl
  · intro h
    rw [e, g2 h]
    rfl

theorem nearly_iff (hs : IsSqrt sqrt) {T S : Fin 2 → K} (hT0 : T ≠ 0) (hS0 : S ≠ 0) {a : K} (ha1 : a < 1) :
    |(|dotV ((vnorm sqrt T)⁻¹ • ![-T 1, T 0]) ((vnorm sqrt S)⁻¹ • ![-S 1, S 0])|) - 1| < a ↔ Spec.NearlyAlong a T S := by
  have n1 := vnorm_ne_zero hs hT0
  have n2 := vnorm_ne_zero hs hS0
  have q1 := vnorm_mul_self hs T
  have q2 := vnorm_mul_self hs S
  have hd : dotV ((vnorm sqrt T)⁻¹ • ![-T 1, T 0]) ((vnorm sqrt S)⁻¹ • ![-S 1, S 0]) = (T 0 * S 0 + T 1 * S 1) / (vnorm sqrt T * vnorm sqrt S) := by
    simp only [dotV, Fin.sum_univ_two, Pi.smul_apply, smul_eq_mul, Matrix.cons_val_zero, Matrix.cons_val_one]
    field_simp
    ring
  rw [hd]
  set m := vnorm sqrt T * vnorm sqrt S with hm
  set d := T 0 * S 0 + T 1 * S 1 with hdd
  have hm2 : m ^ 2 = (T 0 ^ 2 + T 1 ^ 2) * (S 0 ^ 2 + S 1 ^ 2) := by
    have e1 : sqNorm T = T 0 ^ 2 + T 1 ^ 2 := by simp only [sqNorm, Fin.sum_univ_two]; ring
    have e2 : sqNorm S = S 0 ^ 2 + S 1 ^ 2 := by simp only [sqNorm, Fin.sum_univ_two]; ring
    rw [← e1, ← e2, ← q1, ← q2, hm]
    ring
  have hm0 : m ≠ 0 := mul_ne_zero n1 n2
  have hm2p : 0 < m ^ 2 := by positivity
  have hle : d ^ 2 ≤ m ^ 2 := by
    rw [hm2, hdd]
    have := sq_nonneg (T 0 * S 1 - T 1 * S 0)
    linarith [show (T 0 * S 0 + T 1 * S 1) ^ 2 + (T 0 * S 1 - T 1 * S 0) ^ 2 = (T 0 ^ 2 + T 1 ^ 2) * (S 0 ^ 2 + S 1 ^ 2) by ring]
  have hx : (d / m) ^ 2 * m ^ 2 = d ^ 2 := by field_simp
  have h1 : |d / m| ≤ 1 := by
    rw [← sq_le_one_iff_abs_le_one]
    rw [div_pow]
    exact (div_le_one hm2p).mpr hle
  rw [abs_of_nonpos (by linarith), neg_sub, Spec.NearlyAlong, ← hm2]
  constructor
  · intro h
    have h2 : 1 - a < |d / m| := by linarith
    have h3 : (1 - a) ^ 2 < (d / m) ^ 2 := by
      rw [← sq_abs (d / m)]
      exact pow_lt_pow_left₀ h2 (by linarith) two_ne_zero
    rw [← hx]
    exact mul_lt_mul_of_pos_right h3 hm2p
  · intro h
    rw [← hx] at h
    have h3 := lt_of_mul_lt_mul_right h hm2p.le
    rw [← sq_abs (d / m)] at h3
    have := lt_of_pow_lt_pow_left₀ 2 (abs_nonneg _) h3
    linarith

/-- **C110** What the rolling ball returns. From the parameter `u0` of a point of the second curve not farther than the point of parameter `u1`: when the tangents
are nearly parallel there, the middle of the two points; otherwise the meeting of the normals at `u1` and at a parameter `u2` between the bounds, such that
the circle about it through the first foot misses the second foot by no more than it does for `u0`. -/
theorem C110_ball (hs : IsSqrt sqrt) (ho : Spec.Solver opt) {c1 c2 : ACurve K (Fin 2 → K)} (hv : Spec.Defined c2) {u1 u2 : K} {C : Fin 2 → K} {par : Bool}
    (h : rollingBall sqrt opt c1 c2 u1 = .ok (u2, C, par)) :
    c2.b0 ≤ u2 ∧ u2 ≤ c2.b1 ∧ ∃ P T Q S Q0 S0 u0, c1.value u1 0 = .ok P ∧ c1.value u1 1 = .ok T ∧ c2.value u2 0 = .ok Q ∧ c2.value u2 1 = .ok S ∧
      c2.value u0 0 = .ok Q0 ∧ c2.value u0 1 = .ok S0 ∧ c2.b0 ≤ u0 ∧ u0 ≤ c2.b1 ∧ (∀ Q1, c2.value u1 0 = .ok Q1 → Spec.distSq Q0 P ≤ Spec.distSq Q1 P) ∧
      (par = true ↔ Spec.NearlyAlong (1 / 1000) T S0) ∧
      (par = true → u2 = u0 ∧ ∀ i, 2 * C i = P i + Q i) ∧
      (par = false → ¬ Spec.Along T S ∧ Spec.OnNormal P T C ∧ Spec.OnNormal Q S C ∧
        ∀ C0, ¬ Spec.Along T S0 → Spec.OnNormal P T C0 → Spec.OnNormal Q0 S0 C0 → Spec.miss P Q C ≤ Spec.miss P Q0 C0) := by
  unfold rollingBall at h
  obtain ⟨P, hP, h⟩ := R_bind_eq_ok.mp h
  obtain ⟨⟨u0, d0⟩, hu0, h⟩ := R_bind_eq_ok.mp h
  dsimp only at h
  have hin : c2.b0 ≤ u1 ∧ u1 ≤ c2.b1 := by
    by_contra hc
    have hc' : u1 < c2.b0 ∨ c2.b1 < u1 := by
      by_contra hn
      rw [not_or, not_lt, not_lt] at hn
      exact hc hn
    rw [(C103_curve_point_from_partial hs.mul_self ho hv P u1 _).2 hc'] at hu0
    cases hu0
  obtain ⟨u0', d0', Q0, f1, f2, f3, f4, f5, f6⟩ := (C103_curve_point_from_partial hs.mul_self ho hv P u1 (1 / 1000000)).1 hin.1 hin.2
  rw [f1] at hu0
  obtain ⟨rfl, rfl⟩ : u0' = u0 ∧ d0' = d0 := by simpa using hu0
  obtain ⟨L1, hL1, h⟩ := R_bind_eq_ok.mp h
  obtain ⟨L2, hL2, h⟩ := R_bind_eq_ok.mp h
  obtain ⟨P', T, hP', hT, hT0, rfl⟩ := normalLine2_inv hs hL1
  obtain ⟨Q0', S0, hQ0', hS0, hS00, rfl⟩ := normalLine2_inv hs hL2
  obtain rfl : P = P' := by rw [hP] at hP'; exact Except.ok.inj hP'
  obtain rfl : Q0 = Q0' := by rw [f4] at hQ0'; exact Except.ok.inj hQ0'
  dsimp only at h
  have hnear := nearly_iff hs hT0 hS00 (a := (1 / 1000 : K)) (by norm_num)
  have hclose : ∀ Q1, c2.value u1 0 = .ok Q1 → Spec.distSq Q0 P ≤ Spec.distSq Q1 P := fun Q1 h1 => by
    rw [← f5]
    exact f6 Q1 h1
  split at h
  · rename_i hlt
    rw [hP, R_bind_ok, f4, R_bind_ok] at h
    obtain ⟨rfl, rfl, rfl⟩ : u0' = u2 ∧ (1 / 2 : K) • (P + Q0) = C ∧ true = par := by
      have := Except.ok.inj h
      simpa using this
    refine ⟨f2, f3, P, T, Q0, S0, Q0, S0, u0', hP, hT, f4, hS0, f4, hS0, f2, f3, hclose, by simpa using hnear.mp hlt, fun _ => ⟨rfl, fun i => ?_⟩,
      fun hc => by cases hc⟩
    simp only [Pi.smul_apply, Pi.add_apply, smul_eq_mul]
    ring
  · rename_i hlt
    obtain ⟨⟨x, m⟩, hx, h⟩ := R_bind_eq_ok.mp h
    have hbox : Spec.Box [u0'] [c2.b0] [c2.b1] := box_one.mpr ⟨u0', rfl, f2, f3⟩
    rw [solveN, if_pos (inBox_iff.mpr hbox)] at hx
    obtain ⟨g1, g2, g3⟩ := (ho _ _ _ _ _ _ hbox).1 x m hx
    obtain ⟨w, rfl, w0, w1⟩ := box_one.mp g1
    dsimp only at h
    rw [show rd [w] 0 = .ok w from rfl, R_bind_ok, hL1, R_bind_ok] at h
    obtain ⟨M2, hM2, h⟩ := R_bind_eq_ok.mp h
    obtain ⟨Q, S, hQ, hS, hS0', rfl⟩ := normalLine2_inv hs hM2
    obtain ⟨k1, k2⟩ := lines_of_normals (P := P) (T := T) (Q := Q) (S := S) (inv_ne_zero (vnorm_ne_zero hs hT0)) (inv_ne_zero (vnorm_ne_zero hs hS0'))
    have hna : ¬ Spec.Along T S := by
      intro ha
      dsimp only at h
      rw [k2 ha] at h
      cases h
    obtain ⟨l1, l2, e1, e2⟩ := k1 hna
    dsimp only at h
    rw [e1, R_bind_ok] at h
    dsimp only at h
    obtain ⟨rfl, hC, rfl⟩ : w = u2 ∧ (1 / 2 : K) • (lineAt (P, (vnorm sqrt T)⁻¹ • ![-T 1, T 0]) l1 + lineAt (Q, (vnorm sqrt S)⁻¹ • ![-S 1, S 0]) l2) = C ∧ false = par := by
      have := Except.ok.inj h
      simpa using this
    rw [← e2] at hC
    have hC' : lineAt (P, (vnorm sqrt T)⁻¹ • ![-T 1, T 0]) l1 = C := by
      rw [← hC, ← two_smul K, smul_smul]
      norm_num
    have n1 : Spec.OnNormal P T C := by rw [← hC']; exact lineAt_onNormal _ _ _ _
    have n2 : Spec.OnNormal Q S C := by rw [← hC', e2]; exact lineAt_onNormal _ _ _ _
    refine ⟨w0, w1, P, T, Q, S, Q0, S0, u0', hP, hT, hQ, hS, f4, hS0, f2, f3, hclose, ⟨fun hc => ?_, fun hc => ?_⟩, fun hc => ?_,
      fun _ => ⟨hna, n1, n2, fun C0 ha m1 m2 => ?_⟩⟩
    · cases hc
    · exact absurd (hnear.mpr hc) hlt
    · cases hc
    · obtain ⟨D, d1, d2, d3⟩ := (ballResidual_spec hs hP hT hT0 hQ hS hS0').1 hna
      obtain ⟨D0, b1, b2, b3⟩ := (ballResidual_spec hs hP hT hT0 f4 hS0 hS00).1 ha
      have := g3 _ b3
      rw [d3] at g2
      rw [← Except.ok.inj g2] at this
      rwa [onNormal_unique hna d1 d2 n1 n2, onNormal_unique ha b1 b2 m1 m2] at this

/-- **C110** When the curves are not parallel and the search reaches zero, the circle about the centre through the point of the first curve passes by the point of
the second, and is tangent to both curves there. -/
theorem C110_tangent {P T Q S C : Fin 2 → K} (h1 : Spec.OnNormal P T C) (h2 : Spec.OnNormal Q S C) (h0 : Spec.miss P Q C = 0) :
    ∃ r2, 0 ≤ r2 ∧ (∀ X ∈ [P, Q], Spec.distSq X C = r2) ∧
      ∀ XV ∈ [(P, T), (Q, S)], ∀ t : K, r2 ≤ Spec.distSq (XV.1 + t • XV.2) C := by
  have e : Spec.distSq C P = Spec.distSq C Q := sub_eq_zero.mp (abs_eq_zero.mp h0)
  have key : ∀ X V : Fin 2 → K, Spec.OnNormal X V C → ∀ t : K, Spec.distSq X C ≤ Spec.distSq (X + t • V) C := by
    intro X V hV t
    unfold Spec.OnNormal at hV
    simp only [Spec.distSq, Fin.sum_univ_two, Pi.add_apply, Pi.smul_apply, smul_eq_mul]
    have : (X 0 + t * V 0 - C 0) ^ 2 + (X 1 + t * V 1 - C 1) ^ 2 = (X 0 - C 0) ^ 2 + (X 1 - C 1) ^ 2 + ((t * V 0) ^ 2 + (t * V 1) ^ 2) := by
      linear_combination -2 * t * hV
    rw [this]
    have := sq_nonneg (t * V 0)
    have := sq_nonneg (t * V 1)
    linarith
  refine ⟨Spec.distSq P C, distSq_nonneg _ _, ?_, ?_⟩
  · intro X hX
    simp only [List.mem_cons, List.not_mem_nil, or_false] at hX
    rcases hX with rfl | rfl
    · rfl
    · rw [distSq_comm, ← e, distSq_comm]
  · intro XV hX t
    simp only [List.mem_cons, List.not_mem_nil, or_false] at hX
    rcases hX with rfl | rfl
    · exact key P T h1 t
    · rw [show Spec.distSq P C = Spec.distSq Q C by rw [distSq_comm, e, distSq_comm]]
      exact key Q S h2 t

/-- **C110** There is an answer when the parameter is between the bounds of both curves, which do not stop, and no tangent of the second curve is parallel to the
tangent of the first; a parameter that is not between the bounds of the second curve is refused. -/
theorem C110_answers (hs : IsSqrt sqrt) (ho : Spec.Solver opt) {c1 c2 : ACurve K (Fin 2 → K)} (hv : Spec.Defined c2) {u1 : K} {P T : Fin 2 → K}
    (hP : c1.value u1 0 = .ok P) (hT : c1.value u1 1 = .ok T) (hT0 : T ≠ 0) :
    (c2.b0 ≤ u1 → u1 ≤ c2.b1 → Spec.Moves c2 → (∀ u S, c2.b0 ≤ u → u ≤ c2.b1 → c2.value u 1 = .ok S → ¬ Spec.Along T S) →
      ∃ r, rollingBall sqrt opt c1 c2 u1 = .ok r) ∧
    (u1 < c2.b0 ∨ c2.b1 < u1 → rollingBall sqrt opt c1 c2 u1 = .error (.thrown .invalid)) := by
  constructor
  · intro h0 h1 hm hna
    obtain ⟨u0, d0, Q0, f1, f2, f3, f4, f5, f6⟩ := (C103_curve_point_from_partial hs.mul_self ho hv P u1 (1 / 1000000)).1 h0 h1
    obtain ⟨S0, hS0⟩ := hv u0 f2 f3 1 le_rfl
    have e1 := normalLine2_spec hs hP hT hT0
    have e2 := normalLine2_spec hs f4 hS0 (hm u0 f2 f3 S0 hS0)
    unfold rollingBall
    simp only [hP, R_bind_ok, f1, e1, e2, f4]
    split
    · exact ⟨_, rfl⟩
    · have hbox : Spec.Box [u0] [c2.b0] [c2.b1] := box_one.mpr ⟨u0, rfl, f2, f3⟩
      obtain ⟨g, g'⟩ := ho (ballResidual sqrt c1 c2 u1) (fun _ => pure []) [u0] [c2.b0] [c2.b1] (1 / 1000000) hbox
      obtain ⟨x, m, hx⟩ := g' (by
        intro x hx
        obtain ⟨u, rfl, b0, b1⟩ := box_one.mp hx
        obtain ⟨Q, hQ⟩ := hv u b0 b1 0 (by omega)
        obtain ⟨S, hS⟩ := hv u b0 b1 1 le_rfl
        obtain ⟨C, -, -, hC⟩ := (ballResidual_spec hs hP hT hT0 hQ hS (hm u b0 b1 S hS)).1 (hna u S b0 b1 hS)
        exact ⟨⟨_, hC⟩, _, rfl⟩)
      obtain ⟨u, rfl, b0, b1⟩ := box_one.mp (g x m hx).1
      obtain ⟨Q, hQ⟩ := hv u b0 b1 0 (by omega)
      obtain ⟨S, hS⟩ := hv u b0 b1 1 le_rfl
      have hS1 := hm u b0 b1 S hS
      obtain ⟨l1, l2, k1, -⟩ := (lines_of_normals (P := P) (T := T) (Q := Q) (S := S) (inv_ne_zero (vnorm_ne_zero hs hT0)) (inv_ne_zero (vnorm_ne_zero hs hS1))).1
        (hna u S b0 b1 hS)
      rw [solveN, if_pos (inBox_iff.mpr hbox), hx, R_bind_ok]
      simp only [show rd [u] 0 = .ok u from rfl, R_bind_ok, normalLine2_spec hs hQ hS hS1, k1]
      exact ⟨_, rfl⟩
  · intro h
    unfold rollingBall
    rw [hP, R_bind_ok]
    dsimp only
    rw [(C103_curve_point_from_partial hs.mul_self ho hv P u1 (1 / 1000000)).2 h]
    rfl

/-- A segment from `P`, with the velocity `T`, for parameters between 0 and 1. -/
def Spec.segment (P T : Fin 2 → K) : ACurve K (Fin 2 → K) := ⟨0, 1, fun u d => pure (if d = 0 then P + u • T else if d = 1 then T else 0)⟩

theorem segment_defined (P T : Fin 2 → K) : Spec.Defined (Spec.segment P T) := fun _ _ _ _ _ => ⟨_, rfl⟩

theorem segment_at (P T : Fin 2 → K) (u : K) : (Spec.segment P T).value u 0 = .ok (P + u • T) := rfl

theorem segment_tangent (P T : Fin 2 → K) (u : K) : (Spec.segment P T).value u 1 = .ok T := rfl

/-- **C110** Parallel curves: the ball is not the one that touches both curves. Between the segment from the origin along the first axis and the parallel one from
the point (2,1), the centre returned from the origin is not on the normals, whatever the minimisation. -/
theorem C110_parallel_witness (hs : IsSqrt sqrt) (ho : Spec.Solver opt) :
    rollingBall sqrt opt (Spec.segment ![0, 0] ![1, 0]) (Spec.segment ![2, 1] ![1, 0]) 0 = .ok (0, ![1, 1 / 2], true) ∧
      ¬ Spec.OnNormal (![0, 0] : Fin 2 → K) ![1, 0] ![1, 1 / 2] ∧ ¬ Spec.OnNormal (![2, 1] : Fin 2 → K) ![1, 0] ![1, 1 / 2] := by
  refine ⟨?_, by simp [Spec.OnNormal], by norm_num [Spec.OnNormal]⟩
  set c1 := Spec.segment (![0, 0] : Fin 2 → K) ![1, 0] with hc1
  set c2 := Spec.segment (![2, 1] : Fin 2 → K) ![1, 0] with hc2
  have hT0 : (![1, 0] : Fin 2 → K) ≠ 0 := fun h => by simpa using congrFun h 0
  have hv : Spec.Defined c2 := segment_defined _ _
  obtain ⟨u0, d0, Q0, f1, f2, f3, f4, f5, f6⟩ := (C103_curve_point_from_partial hs.mul_self ho hv ((![0, 0] : Fin 2 → K) + (0 : K) • ![1, 0]) 0 (1 / 1000000)).1
    le_rfl zero_le_one
  have h0 := f6 _ (segment_at _ _ _)
  have f4' : (Spec.segment (![2, 1] : Fin 2 → K) ![1, 0]).value u0 0 = .ok Q0 := f4
  rw [segment_at] at f4'
  have hQ := (Except.ok.inj f4').symm
  have hz : u0 = 0 := by
    change (0 : K) ≤ u0 at f2
    rw [f5, hQ] at h0
    simp [Spec.distSq, Fin.sum_univ_two] at h0
    have : u0 * (u0 + 4) ≤ 0 := by linear_combination h0
    by_contra hne
    have hp : 0 < u0 := lt_of_le_of_ne f2 (Ne.symm hne)
    have : 0 < u0 * (u0 + 4) := mul_pos hp (by linarith)
    linarith
  subst hz
  have e1 := normalLine2_spec hs (segment_at (![0, 0] : Fin 2 → K) ![1, 0] 0) (segment_tangent _ _ _) hT0
  have e2 := normalLine2_spec hs (segment_at (![2, 1] : Fin 2 → K) ![1, 0] 0) (segment_tangent _ _ _) hT0
  rw [← hc1] at e1
  rw [← hc2] at e2
  unfold rollingBall
  rw [show c1.value 0 0 = .ok ((![0, 0] : Fin 2 → K) + (0 : K) • ![1, 0]) from rfl, R_bind_ok]
  dsimp only
  rw [f1, R_bind_ok]
  dsimp only
  rw [e1, R_bind_ok, e2, R_bind_ok]
  dsimp only
  rw [if_pos ((nearly_iff hs hT0 hT0 (a := (1 / 1000 : K)) (by norm_num)).mpr (by
    simp only [Spec.NearlyAlong, Matrix.cons_val_zero, Matrix.cons_val_one]
    norm_num))]
  rw [R_bind_ok, show c2.value 0 0 = .ok ((![2, 1] : Fin 2 → K) + (0 : K) • ![1, 0]) from rfl,
    R_bind_ok]
  congr 1
  refine Prod.ext rfl (Prod.ext ?_ rfl)
  funext i
  fin_cases i <;> simp

/-- **C110** Nothing tells that there is no ball: between the segment from the origin along the first axis and the one from (0,1) along (3,4), no circle touching
the first at the origin touches the second between its ends; a centre is returned all the same, whatever the minimisation, and the circle about it misses
the second foot. -/
theorem C110_no_ball_witness (hs : IsSqrt sqrt) (ho : Spec.Solver opt) :
    ∃ (u2 : K) (C : Fin 2 → K), rollingBall sqrt opt (Spec.segment ![0, 0] ![1, 0]) (Spec.segment ![0, 1] ![3, 4]) 0 = .ok (u2, C, false) ∧
      0 ≤ u2 ∧ Spec.OnNormal ![0, 0] ![1, 0] C ∧ Spec.OnNormal (![0, 1] + u2 • ![3, 4]) ![3, 4] C ∧
      ∀ u : K, 0 ≤ u → ∀ D : Fin 2 → K, Spec.OnNormal ![0, 0] ![1, 0] D → Spec.OnNormal (![0, 1] + u • ![3, 4]) ![3, 4] D →
        1 ≤ Spec.miss ![0, 0] (![0, 1] + u • ![3, 4]) D := by
  have hT0 : (![1, 0] : Fin 2 → K) ≠ 0 := fun h => by simpa using congrFun h 0
  have hS0 : (![3, 4] : Fin 2 → K) ≠ 0 := fun h => by simpa using congrFun h 0
  have hv : Spec.Defined (Spec.segment (![0, 1] : Fin 2 → K) ![3, 4]) := segment_defined _ _
  obtain ⟨⟨u2, C, par⟩, hr⟩ := (C110_answers hs ho hv (segment_at (![0, 0] : Fin 2 → K) ![1, 0] 0) (segment_tangent _ _ _) hT0).1 le_rfl zero_le_one (by
    intro u _ _ T hT
    rw [segment_tangent] at hT
    rw [← Except.ok.inj hT]
    exact hS0) (by
    intro u S _ _ hS
    rw [segment_tangent] at hS
    rw [← Except.ok.inj hS]
    simp [Spec.Along])
  have hpar : par = false := by
    obtain ⟨-, -, P, T, Q, S, Q0, S0, u0, a1, a2, a3, a4, a5, a6, -, -, -, a7, -⟩ := C110_ball hs ho hv hr
    rw [segment_tangent] at a2 a6
    rw [← Except.ok.inj a2, ← Except.ok.inj a6] at a7
    cases par
    · rfl
    · have := a7.mp rfl
      simp only [Spec.NearlyAlong, Matrix.cons_val_zero, Matrix.cons_val_one] at this
      norm_num at this
  subst hpar
  have hC : 0 ≤ u2 ∧ Spec.OnNormal ![0, 0] ![1, 0] C ∧ Spec.OnNormal (![0, 1] + u2 • ![3, 4]) ![3, 4] C := by
    obtain ⟨b0, -, P, T, Q, S, Q0, S0, u0, a1, a2, a3, a4, -, -, -, -, -, -, -, a8⟩ := C110_ball hs ho hv hr
    obtain ⟨-, m1, m2, -⟩ := a8 rfl
    rw [segment_at] at a1 a3
    rw [segment_tangent] at a2 a4
    rw [← Except.ok.inj a1, ← Except.ok.inj a2, zero_smul, add_zero] at m1
    rw [← Except.ok.inj a3, ← Except.ok.inj a4] at m2
    exact ⟨b0, m1, m2⟩
  refine ⟨u2, C, hr, hC.1, hC.2.1, hC.2.2, fun u hu D h1 h2 => ?_⟩
  simp only [Spec.OnNormal, Pi.add_apply, Pi.smul_apply, smul_eq_mul, Matrix.cons_val_zero, Matrix.cons_val_one] at h1 h2
  have d0 : D 0 = 0 := by linear_combination h1
  have d1 : D 1 = 1 + 25 / 4 * u := by linear_combination (1 / 4 : K) * h2 - (3 / 4 : K) * d0
  refine le_trans ?_ (le_abs_self _)
  simp only [Spec.distSq, Fin.sum_univ_two, Pi.add_apply, Pi.smul_apply, smul_eq_mul, Matrix.cons_val_zero, Matrix.cons_val_one, d0, d1]
  have := mul_nonneg hu hu
  linarith [show (0 - 0) ^ 2 + (1 + 25 / 4 * u - 0) ^ 2 - ((0 - (0 + u * 3)) ^ 2 + (1 + 25 / 4 * u - (1 + u * 4)) ^ 2) = 1 + 25 / 2 * u + 25 * (u * u) by ring]

end ordered

/-- A case with a ball: the axes, from (1,0) and (0,2) to (0,0); and the hypotheses of the theorems. -/
example : IsSqrt Real.sqrt ∧ Spec.Solver (stay : Nlopt ℝ) ∧ Spec.Defined (Spec.segment (![0, 2] : Fin 2 → ℝ) ![0, -1]) ∧
    ∃ r, rollingBall Real.sqrt stay (Spec.segment ![1, 0] ![1, 0]) (Spec.segment ![0, 2] ![0, -1]) (1 / 2) = .ok r := by
  refine ⟨isSqrt_real, stay_solver, segment_defined _ _, ?_⟩
  refine (C110_answers isSqrt_real stay_solver (segment_defined _ _) (segment_at (![1, 0] : Fin 2 → ℝ) ![1, 0] _) (segment_tangent _ _ _)
    (fun h => by simpa using congrFun h 0)).1 (by norm_num [Spec.segment]) (by norm_num [Spec.segment]) ?_ ?_
  · intro u _ _ T hT
    rw [segment_tangent] at hT
    rw [← Except.ok.inj hT]
    exact fun h => by simpa using congrFun h 1
  · intro u S _ _ hS
    rw [segment_tangent] at hS
    rw [← Except.ok.inj hS]
    simp [Spec.Along]

/-- A circle that touches both axes. -/
example : Spec.OnNormal (![1, 0] : Fin 2 → ℚ) ![1, 0] ![1, 1] ∧ Spec.OnNormal (![0, 1] : Fin 2 → ℚ) ![0, -1] ![1, 1] ∧ Spec.miss ![1, 0] ![0, 1] (![1, 1] : Fin 2 → ℚ) = 0 := by
  refine ⟨by simp [Spec.OnNormal], by simp [Spec.OnNormal], by simp [Spec.miss, Spec.distSq]⟩

end Gbs
