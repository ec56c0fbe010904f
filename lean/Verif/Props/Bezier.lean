import Verif.Lemmas.Bezier

/-! # C24: degree elevation of a Bézier curve

The specification is the classical Bernstein form, written independently of the code. -/

namespace Gbs

variable {K : Type} [Field K] [LinearOrder K] [IsStrictOrderedRing K]
variable {V : Type} [AddCommGroup V] [Module K V]

/-- The point of parameter `x` of the Bézier curve of degree `n` with the control polygon `P`. -/
def Spec.bezier (n : ℕ) (P : ℕ → V) (x : K) : V :=
  ∑ i ∈ Finset.range (n + 1), ((n.choose i : K) * (1 - x) ^ (n - i) * x ^ i) • P i

/-- Up to degree 12 after elevation, `increase_bezier_degree` returns `p + t + 1` poles describing the same curve at every parameter. -/
theorem C24_increaseBezier (P : List V) (p t : ℕ) (hP : P.length = p + 1) (h : p + t ≤ 12) :
    ∃ Q, increaseBezier K P p t = .ok Q ∧ Q.length = p + t + 1 ∧
      ∀ x : K, Spec.bezier (p + t) (pf Q) x = Spec.bezier p (pf P) x := by
  obtain ⟨Q, e, hl, hQ⟩ := increaseBezier_spec (K := K) hP h
  refine ⟨Q, e, hl, ?_⟩
  intro x
  have h01 : (0 : K) < 1 := zero_lt_one
  have hF := bezBl_isBlossom h01 (p := p) (pf P)
  have h1 := hF.bernstein 0 1 x
  have h2 := (hF.elevN t).bernstein 0 1 x
  rw [elevN_diag, h1] at h2
  unfold Spec.bezier
  have e1 : ∀ i ∈ Finset.range (p + 1), ((p.choose i : K) * (1 - x) ^ (p - i) * x ^ i) • pf P i =
      ((p.choose i : K) * (1 - x) ^ (p - i) * x ^ i) • bezBl p (0 : K) 1 (pf P) (List.replicate (p - i) 0 ++ List.replicate i 1) := by
    intro i hi
    rw [bezBl_pole h01 _ (by have := Finset.mem_range.mp hi; omega)]
  rw [Finset.sum_congr rfl e1, h2]
  apply Finset.sum_congr rfl
  intro i hi
  have hi' : i ≤ p + t := by have := Finset.mem_range.mp hi; omega
  rw [hQ i hi', elevN_two p _ 0 1 t i hi']
  congr 1
  apply Finset.sum_congr rfl
  intro j hj
  rw [bezBl_pole h01 _ (by have := Finset.mem_range.mp hj; omega)]
  rfl

/-- From degree 13 on the factorial of `p + t` is not representable in an `int`: signed overflow, whatever the poles. -/
theorem C24_increaseBezier_overflow (P : List V) (p t : ℕ) (h : 13 ≤ p + t) :
    increaseBezier K P p t = .error .overflow :=
  increaseBezier_overflow h

/-- The elevation by one of a parabola, computed. -/
example : increaseBezier ℚ ([0, 3, 9] : List ℚ) 2 1 = .ok [0, 2, 5, 9] := by decide +kernel

example : ([0, 3, 9] : List ℚ).length = 2 + 1 ∧ 2 + 10 ≤ 12 ∧ 13 ≤ 3 + 10 := by decide

end Gbs
