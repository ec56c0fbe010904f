import Verif.Lemmas.Gordon
import Verif.Lemmas.SpanSamples
import Verif.Lemmas.Tfi
import Verif.Model.Offset
import Verif.Props.AbsCurv
import Verif.Props.Circles
import Verif.Props.SurfApprox
import Verif.Props.SurfaceMisc

/-!
# C108: offsets of surfaces
-/

set_option linter.unusedSectionVars false

namespace Gbs

open scoped BigOperators

variable {K : Type} [Field K] [LinearOrder K] [IsStrictOrderedRing K]

/-- `P` is at the signed distance `h` of `S`, along the normal to `tu` and `tv`, on the side from which `tu` turns to `tv` counter-clockwise. -/
structure Spec.OffsetOf (S tu tv : Fin 3 → K) (h : K) (P : Fin 3 → K) : Prop where
  alongU : ∑ i, (P i - S i) * tu i = 0
  alongV : ∑ i, (P i - S i) * tv i = 0
  dist : ∑ i, (P i - S i) ^ 2 = h ^ 2
  side : h ≠ 0 → 0 < h * ((P 0 - S 0) * (tu 1 * tv 2 - tu 2 * tv 1) + (P 1 - S 1) * (tu 2 * tv 0 - tu 0 * tv 2) + (P 2 - S 2) * (tu 0 * tv 1 - tu 1 * tv 0))

/-- **C108**: the conditions on an offset determine it when the tangents are not parallel. -/
theorem Spec.OffsetOf.unique {S tu tv : Fin 3 → K} {h : K} {P Q : Fin 3 → K} (hn : cross3 tu tv ≠ 0) (hP : Spec.OffsetOf S tu tv h P) (hQ : Spec.OffsetOf S tu tv h Q) :
    P = Q := by
  obtain ⟨a1, a2, a3, a4⟩ := hP
  obtain ⟨b1, b2, b3, b4⟩ := hQ
  simp only [Fin.sum_univ_three] at a1 a2 a3 b1 b2 b3
  set n0 := tu 1 * tv 2 - tu 2 * tv 1 with h0
  set n1 := tu 2 * tv 0 - tu 0 * tv 2 with h1
  set n2 := tu 0 * tv 1 - tu 1 * tv 0 with h2
  have hN : n0 ^ 2 + n1 ^ 2 + n2 ^ 2 ≠ 0 := by
    intro hz
    apply hn
    obtain ⟨c0, c1, c2⟩ := cross3_apply tu tv
    have z0 : n0 = 0 := (pow_eq_zero_iff two_ne_zero).mp (le_antisymm (by linarith only [hz, sq_nonneg n1, sq_nonneg n2]) (sq_nonneg n0))
    have z1 : n1 = 0 := (pow_eq_zero_iff two_ne_zero).mp (le_antisymm (by linarith only [hz, sq_nonneg n0, sq_nonneg n2]) (sq_nonneg n1))
    have z2 : n2 = 0 := (pow_eq_zero_iff two_ne_zero).mp (le_antisymm (by linarith only [hz, sq_nonneg n0, sq_nonneg n1]) (sq_nonneg n2))
    funext i
    fin_cases i
    · exact c0.trans z0
    · exact c1.trans z1
    · exact c2.trans z2
  have par : ∀ {D : Fin 3 → K}, D 0 * tu 0 + D 1 * tu 1 + D 2 * tu 2 = 0 → D 0 * tv 0 + D 1 * tv 1 + D 2 * tv 2 = 0 →
      (n0 ^ 2 + n1 ^ 2 + n2 ^ 2) * D 0 = (D 0 * n0 + D 1 * n1 + D 2 * n2) * n0 ∧ (n0 ^ 2 + n1 ^ 2 + n2 ^ 2) * D 1 = (D 0 * n0 + D 1 * n1 + D 2 * n2) * n1 ∧
      (n0 ^ 2 + n1 ^ 2 + n2 ^ 2) * D 2 = (D 0 * n0 + D 1 * n1 + D 2 * n2) * n2 := by
    intro D e1 e2
    have w0 : D 1 * n2 - D 2 * n1 = 0 := by rw [h2, h1]; linear_combination tu 0 * e2 - tv 0 * e1
    have w1 : D 2 * n0 - D 0 * n2 = 0 := by rw [h2, h0]; linear_combination tu 1 * e2 - tv 1 * e1
    have w2 : D 0 * n1 - D 1 * n0 = 0 := by rw [h1, h0]; linear_combination tu 2 * e2 - tv 2 * e1
    refine ⟨?_, ?_, ?_⟩
    · linear_combination n1 * w2 - n2 * w1
    · linear_combination n2 * w0 - n0 * w2
    · linear_combination n0 * w1 - n1 * w0
  obtain ⟨p0, p1, p2⟩ := par (D := fun i => P i - S i) a1 a2
  obtain ⟨q0, q1, q2⟩ := par (D := fun i => Q i - S i) b1 b2
  set x := (P 0 - S 0) * n0 + (P 1 - S 1) * n1 + (P 2 - S 2) * n2 with hx
  set y := (Q 0 - S 0) * n0 + (Q 1 - S 1) * n1 + (Q 2 - S 2) * n2 with hy
  have hx2 : x ^ 2 = h ^ 2 * (n0 ^ 2 + n1 ^ 2 + n2 ^ 2) := by
    rw [← a3]
    linear_combination (-(P 0 - S 0)) * p0 - (P 1 - S 1) * p1 - (P 2 - S 2) * p2 + x * hx
  have hy2 : y ^ 2 = h ^ 2 * (n0 ^ 2 + n1 ^ 2 + n2 ^ 2) := by
    rw [← b3]
    linear_combination (-(Q 0 - S 0)) * q0 - (Q 1 - S 1) * q1 - (Q 2 - S 2) * q2 + y * hy
  have hxy : x = y := by
    rcases eq_or_ne h 0 with hh | hh
    · rw [hh] at hx2 hy2
      have ex : x = 0 := by
        have : x ^ 2 = 0 := by rw [hx2]; ring
        exact pow_eq_zero_iff (two_ne_zero) |>.mp this
      have ey : y = 0 := by
        have : y ^ 2 = 0 := by rw [hy2]; ring
        exact pow_eq_zero_iff (two_ne_zero) |>.mp this
      rw [ex, ey]
    · have l1 := a4 hh
      have l2 := b4 hh
      rcases sq_eq_sq_iff_eq_or_eq_neg.mp (hx2.trans hy2.symm) with e | e
      · exact e
      · rw [e] at l1
        linarith only [l1, l2]
  funext i
  fin_cases i
  · have : P 0 - S 0 = Q 0 - S 0 := mul_left_cancel₀ hN (by rw [p0, q0, hxy])
    simpa using this
  · have : P 1 - S 1 = Q 1 - S 1 := mul_left_cancel₀ hN (by rw [p1, q1, hxy])
    simpa using this
  · have : P 2 - S 2 = Q 2 - S 2 := mul_left_cancel₀ hN (by rw [p2, q2, hxy])
    simpa using this

/-- **C108**: the kernel of the offset. The point is at the distance that the function gives, on the normal of the surface; where the tangents are parallel, the program
divides by zero. -/
theorem C108_point {sqrt : K → K} (hs : IsSqrt sqrt) {f : K → K → R K} {s : ASurface K (Fin 3 → K)} {u v h : K} {S tu tv : Fin 3 → K} (hS : s.value u v 0 0 = .ok S)
    (hu : s.value u v 1 0 = .ok tu) (hv : s.value u v 0 1 = .ok tv) (hf : f u v = .ok h) :
    (cross3 tu tv ≠ 0 → ∃ P, offsetPoint sqrt f s u v = .ok P ∧ Spec.OffsetOf S tu tv h P) ∧
    (cross3 tu tv = 0 → offsetPoint sqrt f s u v = .error .divZero) := by
  unfold offsetPoint
  rw [hS, R_bind_ok, hu, R_bind_ok, hv, R_bind_ok]
  simp only
  constructor
  · intro hn
    have hne := vnorm_ne_zero hs hn
    have hpos : 0 < vnorm sqrt (cross3 tu tv) := lt_of_le_of_ne (hs _ (sqNorm_nonneg _)).1 hne.symm
    have hsq := vnorm_mul_self hs (cross3 tu tv)
    set l := vnorm sqrt (cross3 tu tv) with hl
    refine ⟨S + h • l⁻¹ • cross3 tu tv, ?_, ?_⟩
    · rw [vdiv, if_neg hne, R_bind_ok, hf, R_bind_ok]
      rfl
    · obtain ⟨c0, c1, c2⟩ := cross3_apply tu tv
      simp only [sqNorm, Fin.sum_univ_three, c0, c1, c2] at hsq
      have hl1 : l⁻¹ * l = 1 := inv_mul_cancel₀ hne
      refine ⟨?_, ?_, ?_, ?_⟩
      · simp only [Fin.sum_univ_three, Pi.add_apply, Pi.smul_apply, smul_eq_mul, add_sub_cancel_left, c0, c1, c2]
        ring
      · simp only [Fin.sum_univ_three, Pi.add_apply, Pi.smul_apply, smul_eq_mul, add_sub_cancel_left, c0, c1, c2]
        ring
      · simp only [Fin.sum_univ_three, Pi.add_apply, Pi.smul_apply, smul_eq_mul, add_sub_cancel_left, c0, c1, c2]
        linear_combination (-h ^ 2 * l⁻¹ ^ 2) * hsq + h ^ 2 * (l⁻¹ * l + 1) * hl1
      · intro hh
        simp only [Pi.add_apply, Pi.smul_apply, smul_eq_mul, add_sub_cancel_left, c0, c1, c2]
        have : h * (h * (l⁻¹ * (tu 1 * tv 2 - tu 2 * tv 1)) * (tu 1 * tv 2 - tu 2 * tv 1) + h * (l⁻¹ * (tu 2 * tv 0 - tu 0 * tv 2)) * (tu 2 * tv 0 - tu 0 * tv 2) +
            h * (l⁻¹ * (tu 0 * tv 1 - tu 1 * tv 0)) * (tu 0 * tv 1 - tu 1 * tv 0)) = h ^ 2 * l := by
          linear_combination (-h ^ 2 * l⁻¹) * hsq + h ^ 2 * l * hl1
        rw [this]
        positivity
  · intro hn
    rw [hn, vdiv, if_pos]
    · rfl
    · have := vnorm_mul_self hs (0 : Fin 3 → K)
      rw [sqNorm_eq_zero.mpr rfl] at this
      exact mul_self_eq_zero.mp this

/-! ## The grid -/

/-- The loop that fills the pairs of parameters. -/
theorem uv_loop (u v : List K) : forLt 0 v.length (fun j uv => forLt 0 u.length (fun i uv => do
    let a ← rd u i
    let b ← rd v j
    wr uv (j * u.length + i) (a, b)) uv) (List.replicate (u.length * v.length) ((0 : K), (0 : K))) =
      .ok ((List.range (u.length * v.length)).map fun k => (kf u (k % u.length), kf v (k / u.length))) := by
  set nu := u.length with hnu
  set nv := v.length with hnv
  obtain ⟨r, hr, hl, hg⟩ := forLt_inv (a := 0) (b := nv) (s := List.replicate (nu * nv) ((0 : K), (0 : K)))
    (body := fun j uv => forLt 0 nu (fun i uv => do
      let a ← rd u i
      let b ← rd v j
      wr uv (j * nu + i) (a, b)) uv)
    (fun j uv => uv.length = nu * nv ∧ ∀ k, k < nu * j → uv[k]? = some (kf u (k % nu), kf v (k / nu))) (Nat.zero_le _)
    ⟨by simp, by intro k hk; simp at hk⟩ (by
      rintro j uv - hj ⟨hl, hg⟩
      have hjn : nu * (j + 1) ≤ nu * nv := Nat.mul_le_mul_left _ hj
      obtain ⟨r, hr, hl', hg'⟩ := forLt_inv (a := 0) (b := nu) (s := uv)
        (body := fun i uv => do
          let a ← rd u i
          let b ← rd v j
          wr uv (j * nu + i) (a, b))
        (fun i uv => uv.length = nu * nv ∧ ∀ k, k < nu * j + i → uv[k]? = some (kf u (k % nu), kf v (k / nu))) (Nat.zero_le _)
        ⟨hl, fun k hk => hg k (by omega)⟩ (by
          rintro i uv - hi ⟨hl, hg⟩
          have hlt : j * nu + i < uv.length := by rw [hl, Nat.mul_comm j nu]; rw [Nat.mul_succ] at hjn; omega
          refine ⟨uv.set (j * nu + i) (u[i], v[j]), ?_, by simp [hl], ?_⟩
          · rw [rd_ok hi, R_bind_ok, rd_ok hj, R_bind_ok, wr_ok hlt]
          · intro k hk
            rw [List.getElem?_set]
            split_ifs with he
            · subst he
              have h0 : 0 < nu := by omega
              rw [show (j * nu + i) % nu = i by rw [Nat.mul_comm, Nat.mul_add_mod, Nat.mod_eq_of_lt hi],
                show (j * nu + i) / nu = j by rw [Nat.mul_comm, Nat.mul_add_div h0, Nat.div_eq_of_lt hi, Nat.add_zero],
                (kf_of_some (List.getElem?_eq_getElem hi)).2, (kf_of_some (List.getElem?_eq_getElem hj)).2]
            · refine hg k ?_
              rw [Nat.mul_comm j nu] at he
              omega)
      exact ⟨r, hr, hl', fun k hk => hg' k (by rw [Nat.mul_succ] at hk; exact hk)⟩)
  rw [hr]
  congr 1
  apply List.ext_getElem?
  intro k
  by_cases hk : k < nu * nv
  · rw [hg k hk, List.getElem?_map, List.getElem?_range hk]
    rfl
  · rw [List.getElem?_eq_none (by omega), List.getElem?_eq_none (by simp; omega)]

/-- **C108**: `offset_points` gives one point for each pair of parameters, those of the first direction running first: the point of index `i + nu * j` is what the kernel gives at
the parameters `u[i]` and `v[j]`. It fails when the kernel fails somewhere. -/
theorem C108_points {sqrt : K → K} {f : K → K → R K} {s : ASurface K (Fin 3 → K)} {u v : List K} :
    (∀ Q, offsetPoints sqrt f s u v = .ok Q → Q.length = u.length * v.length ∧
      ∀ i j a b, u[i]? = some a → v[j]? = some b → offsetPoint sqrt f s a b = .ok (pf Q (i + u.length * j))) ∧
    ((∀ a ∈ u, ∀ b ∈ v, ∃ P, offsetPoint sqrt f s a b = .ok P) → ∃ Q, offsetPoints sqrt f s u v = .ok Q) := by
  unfold offsetPoints
  simp only
  rw [uv_loop, R_bind_ok]
  constructor
  · intro Q hQ
    obtain ⟨h1, h2⟩ := mapM_inv hQ
    refine ⟨by simpa using h1, ?_⟩
    intro i j a b ha hb
    have hi : i < u.length := (List.getElem?_eq_some_iff.mp ha).1
    have hj : j < v.length := (List.getElem?_eq_some_iff.mp hb).1
    obtain ⟨m1, m2⟩ := (grid_col (c := i + u.length * j) hi).mp rfl
    obtain ⟨y, hy, hq⟩ := h2 (i + u.length * j) (a, b) (by
      rw [List.getElem?_map, List.getElem?_range (grid_lt hi hj), Option.map_some, m1, m2, (kf_of_some ha).2, (kf_of_some hb).2])
    rw [pf_of_some hq]
    exact hy
  · intro h
    refine mapM_exists _ ?_
    intro x hx
    obtain ⟨k, hk, rfl⟩ := List.mem_map.mp hx
    have hk := List.mem_range.mp hk
    have h0 : 0 < u.length := by
      rcases Nat.eq_zero_or_pos u.length with e | e
      · rw [e, Nat.zero_mul] at hk; omega
      · exact e
    have h1 : 0 < v.length := lt_of_le_of_lt (Nat.zero_le _) (Nat.div_lt_of_lt_mul hk)
    exact h _ (kf_mem (List.ne_nil_of_length_pos h0) _) _ (kf_mem (List.ne_nil_of_length_pos h1) _)

/-! ## The approximation -/

/-- The sum of squares of poles is determined. -/
theorem SurfSquareSum.unique {dim : ℕ} {eps : K} {ku kv : List K} {p q : ℕ} {cs : List (SConstr K (Fin dim → K))} {P : List (Fin dim → K)} {s s' : K}
    (h : Spec.SurfSquareSum eps ku kv p q cs P s) (h' : Spec.SurfSquareSum eps ku kv p q cs P s') : s = s' := by
  obtain ⟨X, hX, rfl⟩ := h
  obtain ⟨Y, hY, rfl⟩ := h'
  refine Finset.sum_congr rfl fun i hi => ?_
  have hi := Finset.mem_range.mp hi
  have e := (hX i _ (List.getElem?_eq_getElem hi) 0).symm.trans (hY i _ (List.getElem?_eq_getElem hi) 0)
  rw [Except.ok.inj e]

/-- Poles that meet all constraints are those of the least sum of squares. -/
theorem SurfLeastSquares.exact {dim : ℕ} {eps : K} {ku kv : List K} {p q n : ℕ} {cs : List (SConstr K (Fin dim → K))} {P P' : List (Fin dim → K)}
    (h : Spec.SurfLeastSquares eps ku kv p q n cs P) (hl : P'.length = n)
    (he : ∀ (i : ℕ) x, cs[i]? = some x → ∀ junk, evalSurf eps junk x.u x.v ku kv P' p q x.du x.dv = .ok x.x) : P' = P := by
  obtain ⟨-, s, ⟨X, hX, rfl⟩, hmin⟩ := h
  obtain ⟨s', h1, h2, h3⟩ := hmin P' hl
  have hz : Spec.SurfSquareSum eps ku kv p q cs P' 0 := by
    refine ⟨cs.map SConstr.x, ?_, ?_⟩
    · intro i x hx junk
      rw [he i x hx junk, pf_of_some (by rw [List.getElem?_map, hx]; rfl)]
    · refine (Finset.sum_eq_zero fun i _ => ?_).symm
      simp [Spec.sqDist]
  obtain rfl := SurfSquareSum.unique h1 hz
  refine h3 (le_antisymm ?_ h2)
  exact Finset.sum_nonneg fun i _ => Finset.sum_nonneg fun t _ => sq_nonneg _

/-- What the approximation of an offset asks of the surface: its knots are clamped, no basis function vanishes, the bounds are those of the knots, and the sizes are within the
limits of the program. -/
structure Spec.OffsetBase {V : Type} (s : Surface K V) : Prop where
  wf : s.Wf
  degU : s.degU ≤ stackMaxDegree
  degV : s.degV ≤ stackMaxDegree
  size : s.knotsU.length * s.knotsV.length < 2 ^ 64
  firstU : kf s.knotsU 0 = kf s.knotsU s.degU
  lastU : kLast s.knotsU = kf s.knotsU s.nPU
  firstV : kf s.knotsV 0 = kf s.knotsV s.degV
  lastV : kLast s.knotsV = kf s.knotsV s.nPV
  u0 : s.u0 = kf s.knotsU s.degU
  u1 : s.u1 = kf s.knotsU s.nPU
  v0 : s.v0 = kf s.knotsV s.degV
  v1 : s.v1 = kf s.knotsV s.nPV
  multU : ∀ j, j < s.nPU → kf s.knotsU j < kf s.knotsU (j + s.degU + 1)
  multV : ∀ j, j < s.nPV → kf s.knotsV j < kf s.knotsV (j + s.degV + 1)

/-- `n` samples of the domain of `k` are close enough for `p + 1` of them to fall in each non-empty span. -/
def Spec.FineFor (k : List K) (p n N : ℕ) : Prop :=
  2 ≤ N ∧ ∀ i, p ≤ i → i < n → kf k i < kf k (i + 1) → ((p : K) + 1) * (kf k n - kf k p) ≤ (kf k (i + 1) - kf k i) * ((N : K) - 1)

/-- The values that the program reads at the node `(i, j)`. -/
structure Spec.NodeValues (eps junk : K) (f : K → K → R K) (s : Surface K (Fin 3 → K)) (nu nv i j : ℕ) (S tu tv : Fin 3 → K) (h : K) : Prop where
  point : s.value eps junk (Spec.sample s.u0 s.u1 nu i) (Spec.sample s.v0 s.v1 nv j) 0 0 = .ok S
  alongU : s.value eps junk (Spec.sample s.u0 s.u1 nu i) (Spec.sample s.v0 s.v1 nv j) 1 0 = .ok tu
  alongV : s.value eps junk (Spec.sample s.u0 s.u1 nu i) (Spec.sample s.v0 s.v1 nv j) 0 1 = .ok tv
  height : f (Spec.sample s.u0 s.u1 nu i) (Spec.sample s.v0 s.v1 nv j) = .ok h

theorem sample_get {a b : K} {n i : ℕ} {x : K} (h : ((List.range n).map (Spec.sample a b n))[i]? = some x) : i < n ∧ x = Spec.sample a b n i := by
  rw [List.getElem?_map] at h
  by_cases hi : i < n
  · rw [List.getElem?_range hi] at h
    exact ⟨hi, (Option.some.inj h).symm⟩
  · rw [List.getElem?_eq_none (by simp; omega)] at h
    cases h

/-- **C108**: `offset_approx` of a surface whose normal vanishes at no node, with a sampling fine enough for its knots, gives the surface on the same knots whose poles are the only
ones with the least sum of squares of distances to the offset points: those at the distance that the function gives, along the normal, on its side. -/
theorem C108_approx {eps : K} (heps : 0 < eps) (junk : K) {sqrt : K → K} (hs : IsSqrt sqrt)
    {dense : ℕ → (ℕ → ℕ → K) → List (Fin 3 → K) → R (List (Fin 3 → K))} (hS : Spec.SolvesDense dense) {f : K → K → R K} {s : Surface K (Fin 3 → K)}
    (hb : Spec.OffsetBase s) {nu nv : ℕ} (hfu : Spec.FineFor s.knotsU s.degU s.nPU nu) (hfv : Spec.FineFor s.knotsV s.degV s.nPV nv)
    (hreg : ∀ i j, i < nu → j < nv → ∃ S tu tv h, Spec.NodeValues eps junk f s nu nv i j S tu tv h ∧ cross3 tu tv ≠ 0) :
    ∃ r Q, offsetApprox eps junk sqrt dense f s nu nv = .ok r ∧ r.Wf ∧
      r.degU = s.degU ∧ r.degV = s.degV ∧ r.knotsU = s.knotsU ∧ r.knotsV = s.knotsV ∧ r.u0 = s.u0 ∧ r.u1 = s.u1 ∧ r.v0 = s.v0 ∧ r.v1 = s.v1 ∧
      Q.length = nu * nv ∧
      (∀ i j S tu tv h, i < nu → j < nv → Spec.NodeValues eps junk f s nu nv i j S tu tv h → Spec.OffsetOf S tu tv h (pf Q (i + nu * j))) ∧
      Spec.SurfLeastSquares eps s.knotsU s.knotsV s.degU s.degV (s.nPU * s.nPV)
        (Spec.gridOf ((List.range nu).map (Spec.sample s.u0 s.u1 nu)) ((List.range nv).map (Spec.sample s.v0 s.v1 nv)) Q) r.poles := by
  obtain ⟨h2u, hstu⟩ := hfu
  obtain ⟨h2v, hstv⟩ := hfv
  set U := (List.range nu).map (Spec.sample s.u0 s.u1 nu) with hU
  set W := (List.range nv).map (Spec.sample s.v0 s.v1 nv) with hW
  have lU : U.length = nu := by simp [hU]
  have lW : W.length = nv := by simp [hW]
  have hbU : ∀ i, i < nu → U[i]? = some (Spec.sample s.u0 s.u1 nu i) := by
    intro i hi
    rw [hU, List.getElem?_map, List.getElem?_range hi]
    rfl
  have hbW : ∀ j, j < nv → W[j]? = some (Spec.sample s.v0 s.v1 nv j) := by
    intro i hi
    rw [hW, List.getElem?_map, List.getElem?_range hi]
    rfl
  obtain ⟨hp1, hp2⟩ := C108_points (sqrt := sqrt) (f := f) (s := s.asSurface eps junk) (u := U) (v := W)
  obtain ⟨Q, hQ⟩ := hp2 (by
    intro a ha b hb
    obtain ⟨i, hi, rfl⟩ := List.mem_map.mp ha
    obtain ⟨j, hj, rfl⟩ := List.mem_map.mp hb
    obtain ⟨S, tu, tv, h, hv, hc⟩ := hreg i j (List.mem_range.mp hi) (List.mem_range.mp hj)
    obtain ⟨P, hP, -⟩ := (C108_point hs (f := f) (s := s.asSurface eps junk) hv.point hv.alongU hv.alongV hv.height).1 hc
    exact ⟨P, hP⟩)
  obtain ⟨lQ, hQg⟩ := hp1 Q hQ
  have hdu : s.u0 ≤ s.u1 := by
    rw [hb.u0, hb.u1]
    exact kf_mono hb.wf.u.sorted (by have := hb.wf.u.min; omega)
  have hdv : s.v0 ≤ s.v1 := by
    rw [hb.v0, hb.v1]
    exact kf_mono hb.wf.v.sorted (by have := hb.wf.v.min; omega)
  have inU : ∀ x ∈ U, kf s.knotsU s.degU ≤ x ∧ x ≤ kf s.knotsU s.nPU := by
    intro x hx
    obtain ⟨i, hi, rfl⟩ := List.mem_map.mp hx
    rw [← hb.u0, ← hb.u1]
    exact sample_mem hdu h2u (List.mem_range.mp hi)
  have inW : ∀ x ∈ W, kf s.knotsV s.degV ≤ x ∧ x ≤ kf s.knotsV s.nPV := by
    intro x hx
    obtain ⟨i, hi, rfl⟩ := List.mem_map.mp hx
    rw [← hb.v0, ← hb.v1]
    exact sample_mem hdv h2v (List.mem_range.mp hi)
  have dU : Spec.Determines eps s.knotsU s.degU s.nPU U := by
    rw [hU, hb.u0, hb.u1]
    exact determines_of_step heps hb.degU hb.wf.u hb.firstU hb.lastU hb.multU h2u hstu
  have dW : Spec.Determines eps s.knotsV s.degV s.nPV W := by
    rw [hW, hb.v0, hb.v1]
    exact determines_of_step heps hb.degV hb.wf.v hb.firstV hb.lastV hb.multV h2v hstv
  have nU := Determines.le_length heps hb.degU hb.wf.u inU dU
  have nW := Determines.le_length heps hb.degV hb.wf.v inW dW
  obtain ⟨P, hP, hls⟩ := C80_approx_grid heps junk hb.degU hb.degV hS hb.wf.u hb.wf.v (u := U) (v := W) (Q := Q) lQ
    (by rw [lQ]; exact Nat.mul_le_mul nU nW) inU inW dU dW
  obtain ⟨r, hr, hre, hrw, -⟩ := surf_clamped heps hb.wf.u hb.wf.v (P := P) hls.1 hb.degU hb.degV
    (by rw [← hb.wf.u.len, ← hb.wf.v.len]; exact hb.size) hb.firstU hb.lastU hb.firstV hb.lastV
  refine ⟨r, Q, ?_, hrw, by rw [hre], by rw [hre], by rw [hre], by rw [hre], by rw [hre, hb.u0], by rw [hre, hb.u1], by rw [hre, hb.v0], by rw [hre, hb.v1],
    by rw [lQ, lU, lW], ?_, by rw [hre]; exact hls⟩
  · unfold offsetApprox
    rw [range_list h2u, R_bind_ok, range_list h2v, R_bind_ok, hQ, R_bind_ok, hP, R_bind_ok, hr]
  · intro i j S tu tv h hi hj hv
    obtain ⟨S', tu', tv', h', hv', hc⟩ := hreg i j hi hj
    obtain rfl := Except.ok.inj (hv.point.symm.trans hv'.point)
    obtain rfl := Except.ok.inj (hv.alongU.symm.trans hv'.alongU)
    obtain rfl := Except.ok.inj (hv.alongV.symm.trans hv'.alongV)
    obtain rfl := Except.ok.inj (hv.height.symm.trans hv'.height)
    obtain ⟨P', hP', ho⟩ := (C108_point hs (f := f) (s := s.asSurface eps junk) hv.point hv.alongU hv.alongV hv.height).1 hc
    have := hQg i j _ _ (hbU i hi) (hbW j hj)
    rw [lU] at this
    rw [← Except.ok.inj (hP'.symm.trans this)]
    exact ho

/-- **C108**: when the offset points lie on a surface with the knots of the base, `offset_approx` gives its poles. -/
theorem C108_exact {eps : K} (heps : 0 < eps) (junk : K) {sqrt : K → K} (hs : IsSqrt sqrt)
    {dense : ℕ → (ℕ → ℕ → K) → List (Fin 3 → K) → R (List (Fin 3 → K))} (hS : Spec.SolvesDense dense) {f : K → K → R K} {s : Surface K (Fin 3 → K)}
    (hb : Spec.OffsetBase s) {nu nv : ℕ} (hfu : Spec.FineFor s.knotsU s.degU s.nPU nu) (hfv : Spec.FineFor s.knotsV s.degV s.nPV nv) {P : List (Fin 3 → K)}
    (hP : P.length = s.nPU * s.nPV)
    (hreg : ∀ i j, i < nu → j < nv → ∃ S tu tv h X, Spec.NodeValues eps junk f s nu nv i j S tu tv h ∧ cross3 tu tv ≠ 0 ∧ Spec.OffsetOf S tu tv h X ∧
      ∀ junk, evalSurf eps junk (Spec.sample s.u0 s.u1 nu i) (Spec.sample s.v0 s.v1 nv j) s.knotsU s.knotsV P s.degU s.degV 0 0 = .ok X) :
    ∃ r, offsetApprox eps junk sqrt dense f s nu nv = .ok r ∧ r = { s with poles := P } := by
  obtain ⟨r, Q, hr, -, e1, e2, e3, e4, e5, e6, e7, e8, lQ, hQ, hls⟩ := C108_approx heps junk hs hS hb hfu hfv (f := f) (by
    intro i j hi hj
    obtain ⟨S, tu, tv, h, -, h1, h2, -⟩ := hreg i j hi hj
    exact ⟨S, tu, tv, h, h1, h2⟩)
  refine ⟨r, hr, ?_⟩
  have key : P = r.poles := by
    refine SurfLeastSquares.exact hls hP ?_
    intro k x hx junk'
    obtain ⟨h1, h2, rfl⟩ := gridOf_get hx
    simp only [List.length_map, List.length_range] at h1 h2 ⊢
    obtain ⟨S, tu, tv, h, X, n1, n2, n3, n4⟩ := hreg _ _ h1 h2
    have g1 : kf ((List.range nu).map (Spec.sample s.u0 s.u1 nu)) (k % nu) = Spec.sample s.u0 s.u1 nu (k % nu) :=
      (kf_of_some (by rw [List.getElem?_map, List.getElem?_range h1]; rfl)).2
    have g2 : kf ((List.range nv).map (Spec.sample s.v0 s.v1 nv)) (k / nu) = Spec.sample s.v0 s.v1 nv (k / nu) :=
      (kf_of_some (by rw [List.getElem?_map, List.getElem?_range h2]; rfl)).2
    rw [g1, g2, n4 junk']
    have := hQ _ _ S tu tv h h1 h2 n1
    rw [Nat.mod_add_div] at this
    rw [Spec.OffsetOf.unique n2 n3 this]
  cases r
  cases s
  simp_all

/-- **C108**: for a surface with a constant unit normal, such as a plane, and a function on the same knots, `offset_approx` is exact: each pole moves along the normal by the pole
of the function. -/
theorem C108_plane {eps : K} (heps : 0 < eps) (junk : K) {sqrt : K → K} (hs : IsSqrt sqrt)
    {dense : ℕ → (ℕ → ℕ → K) → List (Fin 3 → K) → R (List (Fin 3 → K))} (hS : Spec.SolvesDense dense) {s : Surface K (Fin 3 → K)} {g : Surface K K}
    (hb : Spec.OffsetBase s) (hg : Spec.OffsetBase g) (eu : g.knotsU = s.knotsU) (ev : g.knotsV = s.knotsV) (ep : g.degU = s.degU) (eq : g.degV = s.degV)
    {nu nv : ℕ} (hfu : Spec.FineFor s.knotsU s.degU s.nPU nu) (hfv : Spec.FineFor s.knotsV s.degV s.nPV nv) {N : Fin 3 → K} (hN : ∑ i, N i ^ 2 = 1)
    (hnor : ∀ i j, i < nu → j < nv → ∃ (tu tv : Fin 3 → K) (l : K), s.value eps junk (Spec.sample s.u0 s.u1 nu i) (Spec.sample s.v0 s.v1 nv j) 1 0 = .ok tu ∧
      s.value eps junk (Spec.sample s.u0 s.u1 nu i) (Spec.sample s.v0 s.v1 nv j) 0 1 = .ok tv ∧ 0 < l ∧ cross3 tu tv = l • N) :
    ∃ r, offsetApprox eps junk sqrt dense (fun u v => g.value eps junk u v 0 0) s nu nv = .ok r ∧
      r = { s with poles := (List.range (s.nPU * s.nPV)).map fun k => pf s.poles k + pf g.poles k • N } := by
  have enU : g.nPU = s.nPU := by simp [Surface.nPU, eu, ep]
  have enV : g.nPV = s.nPV := by simp [Surface.nPV, ev, eq]
  have hdu : s.u0 ≤ s.u1 := by
    rw [hb.u0, hb.u1]
    exact kf_mono hb.wf.u.sorted (by have := hb.wf.u.min; omega)
  have hdv : s.v0 ≤ s.v1 := by
    rw [hb.v0, hb.v1]
    exact kf_mono hb.wf.v.sorted (by have := hb.wf.v.min; omega)
  refine C108_exact heps junk hs hS hb hfu hfv (by simp) ?_
  intro i j hi hj
  obtain ⟨tu, tv, l, t1, t2, hl, hc⟩ := hnor i j hi hj
  have mu := sample_mem hdu hfu.1 hi
  have mv := sample_mem hdv hfv.1 hj
  set a := Spec.sample s.u0 s.u1 nu i with ha
  set b := Spec.sample s.v0 s.v1 nv j with hbb
  obtain ⟨x, y, fx, fy, -, -, -, -, -, -, hv⟩ := Surface.value_spec heps hb.wf (Or.inl ⟨hb.degU, hb.degV⟩)
    (u := a) (v := b) ⟨mu.1, mu.2, mv.1, mv.2, by rw [← hb.u0]; exact mu.1, by rw [← hb.u1]; exact mu.2, by rw [← hb.v0]; exact mv.1, by rw [← hb.v1]; exact mv.2⟩
  have gu0 : g.u0 = s.u0 := by rw [hg.u0, hb.u0, eu, ep]
  have gu1 : g.u1 = s.u1 := by rw [hg.u1, hb.u1, eu, enU]
  have gv0 : g.v0 = s.v0 := by rw [hg.v0, hb.v0, ev, eq]
  have gv1 : g.v1 = s.v1 := by rw [hg.v1, hb.v1, ev, enV]
  obtain ⟨x', y', fx', fy', -, -, -, -, -, -, gv⟩ := Surface.value_spec heps hg.wf (Or.inl ⟨hg.degU, hg.degV⟩)
    (u := a) (v := b) ⟨by rw [gu0]; exact mu.1, by rw [gu1]; exact mu.2, by rw [gv0]; exact mv.1, by rw [gv1]; exact mv.2,
      by rw [← hg.u0, gu0]; exact mu.1, by rw [← hg.u1, gu1]; exact mu.2, by rw [← hg.v0, gv0]; exact mv.1, by rw [← hg.v1, gv1]; exact mv.2⟩
  rw [eu, ep, enU] at fx'
  rw [ev, eq, enV] at fy'
  obtain rfl := Except.ok.inj (fx'.symm.trans fx)
  obtain rfl := Except.ok.inj (fy'.symm.trans fy)
  rw [eu, ev, ep, eq, enU, enV] at gv
  have hv := hv junk 0 0
  have gv := gv junk 0 0
  set DS := surfDer (kf s.knotsU) s.nPU s.degU x' (kf s.knotsV) s.nPV s.degV y' (pf s.poles) 0 0 a b with hDS
  set Dg := surfDer (kf s.knotsU) s.nPU s.degU x' (kf s.knotsV) s.nPV s.degV y' (pf g.poles) 0 0 a b with hDg
  have hn : cross3 tu tv ≠ 0 := by
    rw [hc]
    refine smul_ne_zero hl.ne' ?_
    rintro rfl
    simp at hN
  refine ⟨DS, tu, tv, Dg, DS + Dg • N, ⟨hv, t1, t2, gv⟩, hn, ?_, ?_⟩
  · obtain ⟨c0, c1, c2⟩ := cross3_apply tu tv
    rw [hc] at c0 c1 c2
    simp only [Pi.smul_apply, smul_eq_mul] at c0 c1 c2
    rw [Fin.sum_univ_three] at hN
    have d1 : N 0 * tu 0 + N 1 * tu 1 + N 2 * tu 2 = 0 := by
      have e : l * (N 0 * tu 0 + N 1 * tu 1 + N 2 * tu 2) = l * 0 := by linear_combination tu 0 * c0 + tu 1 * c1 + tu 2 * c2
      exact mul_left_cancel₀ hl.ne' e
    have d2 : N 0 * tv 0 + N 1 * tv 1 + N 2 * tv 2 = 0 := by
      have e : l * (N 0 * tv 0 + N 1 * tv 1 + N 2 * tv 2) = l * 0 := by linear_combination tv 0 * c0 + tv 1 * c1 + tv 2 * c2
      exact mul_left_cancel₀ hl.ne' e
    generalize DS = S
    generalize Dg = h
    refine ⟨?_, ?_, ?_, ?_⟩
    · simp only [Fin.sum_univ_three, Pi.add_apply, Pi.smul_apply, smul_eq_mul, add_sub_cancel_left]
      linear_combination h * d1
    · simp only [Fin.sum_univ_three, Pi.add_apply, Pi.smul_apply, smul_eq_mul, add_sub_cancel_left]
      linear_combination h * d2
    · simp only [Fin.sum_univ_three, Pi.add_apply, Pi.smul_apply, smul_eq_mul, add_sub_cancel_left]
      linear_combination h ^ 2 * hN
    · intro hh
      simp only [Pi.add_apply, Pi.smul_apply, smul_eq_mul, add_sub_cancel_left, ← c0, ← c1, ← c2]
      have : h * (h * N 0 * (l * N 0) + h * N 1 * (l * N 1) + h * N 2 * (l * N 2)) = h ^ 2 * l := by linear_combination h ^ 2 * l * hN
      rw [this]
      positivity
  · intro junk'
    rw [evalSurf_spec hb.wf.u hb.wf.v (by simp) (Or.inl ⟨hb.degU, hb.degV⟩) 0 0 fx fy]
    congr 1
    rw [surfDer_congr_poles (P' := fun k => pf s.poles k + LinearMap.toSpanSingleton K (Fin 3 → K) N (pf g.poles k) - (0 : (Fin 3 → K) →ₗ[K] (Fin 3 → K)) (pf s.poles k))
      (by intro k hk; rw [pf_map_range _ hk]; simp), surfDer_sum, surfDer_lmap, surfDer_lmap]
    simp [hDS, hDg]

/-! ## The hypotheses are met -/

namespace Sample

def ofK : List ℝ := [0, 0, 1, 1]

/-- A rectangle of 2 by 3. -/
noncomputable def ofS : Surface ℝ (Fin 3 → ℝ) := ⟨1, 1, [![0, 0, 0], ![2, 0, 0], ![0, 3, 0], ![2, 3, 0]], ofK, ofK, 0, 1, 0, 1⟩

/-- A bilinear height. -/
noncomputable def ofG : Surface ℝ ℝ := ⟨1, 1, [1, 2, -1, 4], ofK, ofK, 0, 1, 0, 1⟩

theorem ofK_wf : KWf 1 ofK 2 := ⟨by simp [ofK], rfl, by omega, by simp [ofK, kf], by simp [ofK, kf]⟩

theorem ofK_mult : ∀ j, j < 2 → kf ofK j < kf ofK (j + 1 + 1) := by
  intro j hj
  interval_cases j <;> simp [ofK, kf]

theorem ofS_base : Spec.OffsetBase ofS :=
  ⟨⟨ofK_wf, ofK_wf, rfl⟩, by decide, by decide, by simp [ofS, ofK], by simp [ofS, ofK, kf], by simp [ofS, ofK, kf, kLast, Surface.nPU],
    by simp [ofS, ofK, kf], by simp [ofS, ofK, kf, kLast, Surface.nPV], by simp [ofS, ofK, kf], by simp [ofS, ofK, kf, Surface.nPU], by simp [ofS, ofK, kf],
    by simp [ofS, ofK, kf, Surface.nPV], ofK_mult, ofK_mult⟩

theorem ofG_base : Spec.OffsetBase ofG :=
  ⟨⟨ofK_wf, ofK_wf, rfl⟩, by decide, by decide, by simp [ofG, ofK], by simp [ofG, ofK, kf], by simp [ofG, ofK, kf, kLast, Surface.nPU],
    by simp [ofG, ofK, kf], by simp [ofG, ofK, kf, kLast, Surface.nPV], by simp [ofG, ofK, kf], by simp [ofG, ofK, kf, Surface.nPU], by simp [ofG, ofK, kf],
    by simp [ofG, ofK, kf, Surface.nPV], ofK_mult, ofK_mult⟩

theorem ofK_fine : Spec.FineFor ofK 1 2 3 := by
  refine ⟨by decide, ?_⟩
  intro i h1 h2 _
  obtain rfl : i = 1 := by omega
  simp [ofK, kf]
  norm_num

theorem ofS_value {u v : ℝ} (hu : 0 ≤ u ∧ u ≤ 1) (hv : 0 ≤ v ∧ v ≤ 1) (junk : ℝ) :
    ofS.value (1 / 1000) junk u v 1 0 = .ok ![2, 0, 0] ∧ ofS.value (1 / 1000) junk u v 0 1 = .ok ![0, 3, 0] := by
  obtain ⟨i, j, -, -, -, -, i1, i2, j1, j2, h⟩ := Surface.value_spec (eps := 1 / 1000) (by norm_num) ofS_base.wf (Or.inl ⟨ofS_base.degU, ofS_base.degV⟩) (u := u) (v := v)
    ⟨hu.1, hu.2, hv.1, hv.2, by simpa [ofS, ofK, kf] using hu.1, by simpa [ofS, ofK, kf, Surface.nPU] using hu.2, by simpa [ofS, ofK, kf] using hv.1,
      by simpa [ofS, ofK, kf, Surface.nPV] using hv.2⟩
  have e1 : ofS.nPU = 2 := rfl
  have e2 : ofS.nPV = 2 := rfl
  change 1 ≤ i at i1
  change 1 ≤ j at j1
  rw [e1] at i2
  rw [e2] at j2
  obtain rfl : i = 1 := by omega
  obtain rfl : j = 1 := by omega
  rw [h, h]
  constructor <;>
  · congr 1
    change surfDer (kf ofK) 2 1 1 (kf ofK) 2 1 1 _ _ _ _ _ = _
    rw [surfDer_window _ _ (by omega) (by omega) (by omega) (by omega)]
    funext t
    fin_cases t <;> simp [Finset.sum_range_succ, Bp, ofK, kf, pf, ofS] <;> ring

theorem ofS_normal (junk : ℝ) : ∀ i j, i < 3 → j < 3 → ∃ (tu tv : Fin 3 → ℝ) (l : ℝ),
    ofS.value (1 / 1000) junk (Spec.sample ofS.u0 ofS.u1 3 i) (Spec.sample ofS.v0 ofS.v1 3 j) 1 0 = .ok tu ∧
      ofS.value (1 / 1000) junk (Spec.sample ofS.u0 ofS.u1 3 i) (Spec.sample ofS.v0 ofS.v1 3 j) 0 1 = .ok tv ∧ 0 < l ∧ cross3 tu tv = l • ![0, 0, 1] := by
  intro i j hi hj
  obtain ⟨h1, h2⟩ := ofS_value (u := Spec.sample ofS.u0 ofS.u1 3 i) (v := Spec.sample ofS.v0 ofS.v1 3 j) (sample_mem zero_le_one (by decide) hi)
    (sample_mem zero_le_one (by decide) hj) junk
  refine ⟨_, _, 6, h1, h2, by norm_num, ?_⟩
  funext t
  obtain ⟨c0, c1, c2⟩ := cross3_apply ![(2 : ℝ), 0, 0] ![0, 3, 0]
  fin_cases t
  · exact c0.trans (by simp)
  · exact c1.trans (by simp)
  · exact c2.trans (by simp; norm_num)

/-- The offset of a rectangle by a bilinear height, from nine points. -/
theorem _root_.Gbs.C108_witness : ∃ dense r, Spec.SolvesDense dense ∧
    offsetApprox (1 / 1000) 7 Real.sqrt dense (fun u v => ofG.value (1 / 1000) 7 u v 0 0) ofS 3 3 = .ok r ∧
      r.poles = [![0, 0, 1], ![2, 0, 2], ![0, 3, -1], ![2, 3, 4]] := by
  obtain ⟨dense, hS⟩ := exists_solvesDense (K := ℝ) (V := Fin 3 → ℝ)
  obtain ⟨r, hr, e⟩ := C108_plane (eps := 1 / 1000) (by norm_num) 7 isSqrt_real hS ofS_base ofG_base rfl rfl rfl rfl (nu := 3) (nv := 3) ofK_fine ofK_fine
    (N := ![0, 0, 1]) (by simp [Fin.sum_univ_three]) (ofS_normal 7)
  refine ⟨dense, r, hS, hr, ?_⟩
  rw [e]
  have e1 : ofS.nPU = 2 := rfl
  have e2 : ofS.nPV = 2 := rfl
  rw [e1, e2]
  simp [List.range_succ, pf, ofS, ofG]

/-- The hypotheses of `C108_approx` and `C108_exact` are met by the same surface. -/
example : ∀ i j, i < 3 → j < 3 → ∃ S tu tv h, Spec.NodeValues (1 / 1000) 7 (fun _ _ => .ok 5) ofS 3 3 i j S tu tv h ∧ cross3 tu tv ≠ 0 := by
  intro i j hi hj
  obtain ⟨tu, tv, l, h1, h2, h3, h4⟩ := ofS_normal 7 i j hi hj
  obtain ⟨x, y, -, -, -, -, -, -, -, -, h⟩ := Surface.value_spec (eps := (1 / 1000 : ℝ)) (by norm_num) ofS_base.wf (Or.inl ⟨ofS_base.degU, ofS_base.degV⟩)
    (u := Spec.sample ofS.u0 ofS.u1 3 i) (v := Spec.sample ofS.v0 ofS.v1 3 j)
    ⟨(sample_mem zero_le_one (by decide) hi).1, (sample_mem zero_le_one (by decide) hi).2, (sample_mem zero_le_one (by decide) hj).1, (sample_mem zero_le_one (by decide) hj).2,
      by rw [← ofS_base.u0]; exact (sample_mem zero_le_one (by decide) hi).1, by rw [← ofS_base.u1]; exact (sample_mem zero_le_one (by decide) hi).2,
      by rw [← ofS_base.v0]; exact (sample_mem zero_le_one (by decide) hj).1, by rw [← ofS_base.v1]; exact (sample_mem zero_le_one (by decide) hj).2⟩
  refine ⟨_, tu, tv, 5, ⟨h 7 0 0, h1, h2, rfl⟩, ?_⟩
  rw [h4]
  intro h0
  have := congrFun h0 2
  simp at this
  exact h3.ne' this

/-- The kernel at a point of the rectangle, with heights of both signs, and where the tangents are parallel. -/
example : (∃ P, offsetPoint Real.sqrt (fun _ _ => .ok (-2)) ⟨0, 1, 0, 1, fun u v a b => .ok (if a = 1 then ![2, 0, 0] else if b = 1 then ![1, 3, 0] else ![u, v, 5])⟩ 1 2 = .ok P ∧
      Spec.OffsetOf ![1, 2, 5] ![2, 0, 0] ![1, 3, 0] (-2) P) ∧
    offsetPoint Real.sqrt (fun _ _ => .ok (-2)) ⟨0, 1, 0, 1, fun u v a b => .ok (if a = 1 then ![2, 0, 0] else if b = 1 then ![1, 0, 0] else ![u, v, 5])⟩ 1 2 = .error .divZero := by
  constructor
  · refine (C108_point isSqrt_real (S := ![1, 2, 5]) (tu := ![2, 0, 0]) (tv := ![1, 3, 0]) (by simp) (by simp) (by simp) rfl).1 ?_
    intro h
    have := congrFun h 2
    rw [(cross3_apply _ _).2.2] at this
    simp at this
  · refine (C108_point isSqrt_real (S := ![1, 2, 5]) (tu := ![2, 0, 0]) (tv := ![1, 0, 0]) (h := -2) (by simp) (by simp) (by simp) rfl).2 ?_
    obtain ⟨c0, c1, c2⟩ := cross3_apply ![(2 : ℝ), 0, 0] ![1, 0, 0]
    funext t
    fin_cases t
    · exact c0.trans (by simp)
    · exact c1.trans (by simp)
    · exact c2.trans (by simp)

end Sample

end Gbs
