import Verif.Model.Angles
import Verif.Props.Quality
import Verif.Props.Circles
import Mathlib.Tactic.LinearCombination

/-!
# C129: angles of vectors, length of a polyline
-/

set_option linter.unusedSectionVars false

namespace Gbs

theorem sqNorm_two' (a : Fin 2 → ℝ) : sqNorm a = a 0 * a 0 + a 1 * a 1 := by simp [sqNorm, Fin.sum_univ_two]

/-- **C129**: the angle of two vectors of the plane that are not zero is the angle, in (-π, π], of the rotation that takes the first one to the direction
of the second one. -/
theorem C129_plane {a b : Fin 2 → ℝ} (ha : a ≠ 0) (hb : b ≠ 0) :
    -Real.pi < angleP a b ∧ angleP a b ≤ Real.pi ∧ ∃ s : ℝ, 0 < s ∧
      b = s • ![Real.cos (angleP a b) * a 0 - Real.sin (angleP a b) * a 1, Real.sin (angleP a b) * a 0 + Real.cos (angleP a b) * a 1] := by
  have na : 0 < sqNorm a := lt_of_le_of_ne (sqNorm_nonneg _) (fun h => ha (sqNorm_eq_zero.mp h.symm))
  have nb : 0 < sqNorm b := lt_of_le_of_ne (sqNorm_nonneg _) (fun h => hb (sqNorm_eq_zero.mp h.symm))
  have hd : dotV a b = a 0 * b 0 + a 1 * b 1 := by simp [dotV, Fin.sum_univ_two]
  rw [sqNorm_two'] at na nb
  set w : ℂ := ⟨a 0 * b 0 + a 1 * b 1, a 0 * b 1 - a 1 * b 0⟩ with hw
  have hang : angleP a b = Complex.arg w := by unfold angleP atan2; rw [hd]
  have hw2 : Complex.normSq w = (a 0 * a 0 + a 1 * a 1) * (b 0 * b 0 + b 1 * b 1) := by
    rw [Complex.normSq_apply]; simp only [hw]; ring
  have hw0 : w ≠ 0 := by
    intro h
    rw [h, map_zero] at hw2
    exact (mul_pos na nb).ne hw2
  have hn : 0 < ‖w‖ := norm_pos_iff.mpr hw0
  have hnn : ‖w‖ * ‖w‖ = (a 0 * a 0 + a 1 * a 1) * (b 0 * b 0 + b 1 * b 1) := by rw [← hw2, Complex.normSq_eq_norm_sq, sq]
  refine ⟨by rw [hang]; exact Complex.neg_pi_lt_arg _, by rw [hang]; exact Complex.arg_le_pi _, ‖w‖ / (a 0 * a 0 + a 1 * a 1), div_pos hn na, ?_⟩
  rw [hang, Complex.cos_arg hw0, Complex.sin_arg]
  have hre : w.re = a 0 * b 0 + a 1 * b 1 := rfl
  have him : w.im = a 0 * b 1 - a 1 * b 0 := rfl
  rw [hre, him]
  have hn' := hn.ne'
  have na' := na.ne'
  have gen1 : ∀ A x y p q : ℝ, ‖w‖ / A * (x / ‖w‖ * p - y / ‖w‖ * q) = (x * p - y * q) / A := fun A x y p q => by field_simp
  have gen2 : ∀ A x y p q : ℝ, ‖w‖ / A * (x / ‖w‖ * p + y / ‖w‖ * q) = (x * p + y * q) / A := fun A x y p q => by field_simp
  funext i
  fin_cases i
  · show b 0 = ‖w‖ / (a 0 * a 0 + a 1 * a 1) * ((a 0 * b 0 + a 1 * b 1) / ‖w‖ * a 0 - (a 0 * b 1 - a 1 * b 0) / ‖w‖ * a 1)
    rw [gen1, eq_div_iff na']
    ring
  · show b 1 = ‖w‖ / (a 0 * a 0 + a 1 * a 1) * ((a 0 * b 1 - a 1 * b 0) / ‖w‖ * a 0 + (a 0 * b 0 + a 1 * b 1) / ‖w‖ * a 1)
    rw [gen2, eq_div_iff na']
    ring

/-- **C129**: the angle of two vectors of the space that are not zero is the one, between 0 and π, whose cosine is their scalar product over the product of
their lengths; it does not depend on their order. -/
theorem C129_space {a b : Fin 3 → ℝ} (ha : a ≠ 0) (hb : b ≠ 0) :
    0 ≤ angleS a b ∧ angleS a b ≤ Real.pi ∧ vnorm Real.sqrt a * vnorm Real.sqrt b * Real.cos (angleS a b) = dot a b ∧ angleS b a = angleS a b := by
  have key : ∀ {a b : Fin 3 → ℝ}, a ≠ 0 → b ≠ 0 → 0 ≤ angleS a b ∧ angleS a b ≤ Real.pi ∧
      vnorm Real.sqrt a * vnorm Real.sqrt b * Real.cos (angleS a b) = dot a b := by
    intro a b ha hb
    have pa : 0 < vnorm Real.sqrt a := lt_of_le_of_ne (Real.sqrt_nonneg _) (vnorm_ne_zero isSqrt_real ha).symm
    have pb : 0 < vnorm Real.sqrt b := lt_of_le_of_ne (Real.sqrt_nonneg _) (vnorm_ne_zero isSqrt_real hb).symm
    set w : ℂ := ⟨dotV a b, vnorm Real.sqrt (cross3 a b)⟩ with hw
    have hang : angleS a b = Complex.arg w := rfl
    have lag : dotV a b * dotV a b + sqNorm (cross3 a b) = sqNorm a * sqNorm b := by
      have hd : dotV a b = a 0 * b 0 + a 1 * b 1 + a 2 * b 2 := dot_three a b
      obtain ⟨c0, c1, c2⟩ := cross3_apply a b
      rw [hd, sqNorm_three, sqNorm_three, sqNorm_three, c0, c1, c2]; ring
    have hnn : ‖w‖ = vnorm Real.sqrt a * vnorm Real.sqrt b := by
      refine (mul_self_inj (norm_nonneg _) (mul_pos pa pb).le).mp ?_
      have h1 : ‖w‖ * ‖w‖ = Complex.normSq w := by rw [Complex.normSq_eq_norm_sq]; ring
      rw [h1, Complex.normSq_apply, mul_mul_mul_comm, vnorm_mul_self isSqrt_real a, vnorm_mul_self isSqrt_real b, ← lag]
      show dotV a b * dotV a b + vnorm Real.sqrt (cross3 a b) * vnorm Real.sqrt (cross3 a b) = _
      rw [vnorm_mul_self isSqrt_real]
    have hw0 : w ≠ 0 := norm_pos_iff.mp (by rw [hnn]; exact mul_pos pa pb)
    refine ⟨by rw [hang, Complex.arg_nonneg_iff]; exact Real.sqrt_nonneg _, by rw [hang]; exact Complex.arg_le_pi _, ?_⟩
    rw [hang, Complex.cos_arg hw0, ← hnn]
    exact mul_div_cancel₀ _ (norm_pos_iff.mpr hw0).ne'
  obtain ⟨h1, h2, h3⟩ := key ha hb
  obtain ⟨g1, g2, g3⟩ := key hb ha
  refine ⟨h1, h2, h3, Real.injOn_cos ⟨g1, g2⟩ ⟨h1, h2⟩ ?_⟩
  have pa := vnorm_ne_zero isSqrt_real ha
  have pb := vnorm_ne_zero isSqrt_real hb
  have hdot : dot b a = dot a b := by rw [dot_three, dot_three]; ring
  refine mul_left_cancel₀ (mul_ne_zero pa pb) ?_
  rw [h3, ← hdot, ← g3]; ring

/-- **C129**: the angle with a zero vector is zero. -/
theorem C129_zero (a : Fin 2 → ℝ) (b : Fin 3 → ℝ) : angleP a 0 = 0 ∧ angleP 0 a = 0 ∧ angleS b 0 = 0 ∧ angleS 0 b = 0 := by
  have hs0 : vnorm Real.sqrt (0 : Fin 3 → ℝ) = 0 := vnorm_zero isSqrt_real
  have c1 : cross3 b 0 = 0 := by funext i; fin_cases i <;> simp [cross3]
  have c2 : cross3 0 b = 0 := by funext i; fin_cases i <;> simp [cross3]
  have z : Complex.arg ⟨0, 0⟩ = 0 := Complex.arg_zero
  refine ⟨?_, ?_, ?_, ?_⟩
  · simp [angleP, atan2, dotV, z]
  · simp [angleP, atan2, dotV, z]
  · simp [angleS, atan2, dotV, c1, hs0, z]
  · simp [angleS, atan2, dotV, c2, hs0, z]

theorem distV_triangle {n : ℕ} (p q r : Fin n → ℝ) : distV p r ≤ distV p q + distV q r := by
  unfold distV
  rw [vnorm_toLp, vnorm_toLp, vnorm_toLp]
  have : WithLp.toLp 2 (p - r) = WithLp.toLp 2 (p - q) + WithLp.toLp 2 (q - r) := by
    rw [← WithLp.toLp_add, sub_add_sub_cancel]
  rw [this]
  exact norm_add_le _ _

theorem distV_comm {n : ℕ} (p q : Fin n → ℝ) : distV p q = distV q p := by
  unfold distV
  rw [vnorm_toLp, vnorm_toLp, ← neg_sub q p, WithLp.toLp_neg, norm_neg]

/-- **C129**: the length of a list of points is the sum of the distances of the consecutive ones: it is zero for one point, grows by the distance of each
point added at the start, is additive where two lists meet, and is at least the distance of the first and of the last one. A list without point is not
refused. -/
theorem C129_length {n : ℕ} :
    (∀ p : Fin n → ℝ, polyLength [p] = .ok 0) ∧
    (∀ (p q : Fin n → ℝ) (l : List (Fin n → ℝ)) x, polyLength (q :: l) = .ok x →
      ∃ d, polyLength (p :: q :: l) = .ok (d + x) ∧ 0 ≤ d ∧ d * d = ∑ i, (q i - p i) * (q i - p i)) ∧
    (∀ (l m : List (Fin n → ℝ)) (p : Fin n → ℝ) x y, polyLength (l ++ [p]) = .ok x → polyLength (p :: m) = .ok y → polyLength (l ++ p :: m) = .ok (x + y)) ∧
    (∀ (l : List (Fin n → ℝ)) (p q : Fin n → ℝ) x, l.head? = some p → l.getLast? = some q → polyLength l = .ok x →
      ∀ d, 0 ≤ d → d * d = ∑ i, (q i - p i) * (q i - p i) → d ≤ x) ∧
    polyLength ([] : List (Fin n → ℝ)) = .error .oob := by
  have step : ∀ (p q : Fin n → ℝ) (l : List (Fin n → ℝ)) x, polyLength (q :: l) = .ok x → polyLength (p :: q :: l) = .ok (distV q p + x) := by
    intro p q l x h
    unfold polyLength at h ⊢
    rw [if_neg (by simp)] at h ⊢
    injection h with h
    simp only [List.tail_cons, List.zipWith_cons_cons, List.sum_cons] at h ⊢
    rw [h]
  have total : ∀ (p : Fin n → ℝ) l, ∃ x, polyLength (p :: l) = .ok x := fun p l => ⟨_, by unfold polyLength; rw [if_neg (by simp)]⟩
  refine ⟨fun p => by simp [polyLength], fun p q l x h => ⟨_, step p q l x h, Real.sqrt_nonneg _, ?_⟩, ?_, ?_, by simp [polyLength]⟩
  · have := vnorm_mul_self isSqrt_real (q - p)
    exact this
  · intro l m p
    induction l with
    | nil =>
      intro x y hx hy
      have : x = 0 := by simpa [polyLength] using hx.symm
      rw [List.nil_append, hy, this, zero_add]
    | cons a l ih =>
      intro x y hx hy
      rcases l with _ | ⟨b, l⟩
      · obtain ⟨x', hx'⟩ := total p []
        have h0 : x' = 0 := by simpa [polyLength] using hx'.symm
        have e := step a p [] x' hx'
        have hx2 : polyLength ([a] ++ [p]) = .ok x := hx
        have : (distV p a + x' : ℝ) = x := by
          have := e.symm.trans hx2
          injection this
        show polyLength (a :: p :: m) = _
        rw [step a p m y hy, ← this, h0, add_zero]
      · obtain ⟨x', hx'⟩ := total b (l ++ [p])
        have e := step a b (l ++ [p]) x' hx'
        have : (distV b a + x' : ℝ) = x := by
          have := e.symm.trans hx
          injection this
        show polyLength (a :: b :: (l ++ p :: m)) = _
        have e2 := step a b (l ++ p :: m) (x' + y) (ih x' y hx' hy)
        rw [e2, ← this, add_assoc]
  · intro l
    have main : ∀ (l : List (Fin n → ℝ)) (p q : Fin n → ℝ) x, l.head? = some p → l.getLast? = some q → polyLength l = .ok x → distV q p ≤ x := by
      intro l
      induction l with
      | nil => intro p q x h; simp at h
      | cons a l ih =>
        intro p q x hp hq hx
        obtain rfl : a = p := by simpa using hp
        rcases l with _ | ⟨b, l⟩
        · obtain rfl : a = q := by simpa using hq
          have : x = 0 := by simpa [polyLength] using hx.symm
          rw [this]
          unfold distV
          rw [sub_self, vnorm_zero isSqrt_real]
        · obtain ⟨x', hx'⟩ := total b l
          have e := step a b l x' hx'
          have h1 : (distV b a + x' : ℝ) = x := by
            have := e.symm.trans hx
            injection this
          have h2 := ih b q x' rfl (by simpa using hq) hx'
          have := distV_triangle q b a
          linarith
    intro p q x hp hq hx d hd hdd
    have := main l p q x hp hq hx
    have h2 : d = distV q p := (mul_self_inj hd (Real.sqrt_nonneg _)).mp (hdd.trans (vnorm_mul_self isSqrt_real (q - p)).symm)
    rw [h2]; exact this

/-- **C129**: `radians` and `degrees` are inverse of each other, and a half turn is 180 degrees. -/
theorem C129_degrees (a : ℝ) : degrees (radians a) = a ∧ radians (degrees a) = a ∧ radians 180 = Real.pi := by
  have := Real.pi_ne_zero
  unfold degrees radians
  refine ⟨by field_simp, by field_simp, by field_simp⟩

/-- **C129**: the angle from (1, 0) to (0, -2) is -π/2, in the plane, and that of (1, 0, 0) and (0, -2, 0) is π/2; the length of a unit square from corner to
corner, without its last side, is 3. -/
theorem C129_witness : angleP ![1, 0] ![0, -2] = -(Real.pi / 2) ∧ angleS ![1, 0, 0] ![0, -2, 0] = Real.pi / 2 ∧
    polyLength [![0, 0], ![1, 0], ![1, 1], (![0, 1] : Fin 2 → ℝ)] = .ok 3 := by
  refine ⟨?_, ?_, ?_⟩
  · have : angleP ![1, 0] ![0, -2] = Complex.arg ⟨0, -2⟩ := by simp [angleP, atan2, dotV, Fin.sum_univ_two]
    rw [this, Complex.arg_eq_neg_pi_div_two_iff]
    simp
  · have : angleS ![1, 0, 0] ![0, -2, 0] = Complex.arg ⟨0, 2⟩ := by
      have h : vnorm Real.sqrt (cross3 ![1, 0, 0] ![0, -2, 0]) = 2 := by
        unfold vnorm
        rw [sqNorm_three, Real.sqrt_eq_iff_mul_self_eq] <;> simp [cross3]
      simp [angleS, atan2, h, dotV, Fin.sum_univ_three]
    rw [this, Complex.arg_eq_pi_div_two_iff]
    simp
  · have d1 : distV ![1, 0] (![0, 0] : Fin 2 → ℝ) = 1 := by simp [distV, vnorm, sqNorm, Fin.sum_univ_two]
    have d2 : distV ![1, 1] (![1, 0] : Fin 2 → ℝ) = 1 := by simp [distV, vnorm, sqNorm, Fin.sum_univ_two]
    have d3 : distV ![0, 1] (![1, 1] : Fin 2 → ℝ) = 1 := by simp [distV, vnorm, sqNorm, Fin.sum_univ_two]
    unfold polyLength
    rw [if_neg (by simp)]
    simp only [List.tail_cons, List.zipWith_cons_cons, List.zipWith_nil_left, List.sum_cons, List.sum_nil, d1, d2, d3]
    norm_num

end Gbs
