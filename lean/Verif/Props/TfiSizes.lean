import Verif.Props.Tfi

/-! # C92: the numbers of nodes of the segments -/

namespace Gbs

set_option linter.unusedSectionVars false

variable {K : Type} [Field K] [LinearOrder K] [IsStrictOrderedRing K]
variable {V : Type} [AddCommGroup V] [Module K V]

theorem fdiv_quot {a b q : K} (h : fdiv a b = .ok q) : b ≠ 0 ∧ q = a / b := by
  unfold fdiv at h
  split at h
  · cases h
  · rename_i hb
    exact ⟨hb, (Except.ok.inj h).symm⟩

/-- The number of nodes asked for gives the step: the mean length of the whole curves divided by the number of intervals. -/
theorem Spec.step_of_number {crvs : List (LatticeCurve K V)} {n : ℕ} {β : Type} {f : K → R β} {r : β}
    (h : (do
      let ls ← crvs.mapM fun (c : LatticeCurve K V) => c.len c.b0 c.b1
      let l ← fdiv ls.sum (crvs.length : K)
      let n1 ← usub n 1
      let dm ← fdiv l (n1 : K)
      f dm) = .ok r) :
    2 ≤ n ∧ ∃ ls, crvs.mapM (fun c => c.len c.b0 c.b1) = .ok ls ∧ f (ls.sum / (crvs.length : K) / ((n : K) - 1)) = .ok r := by
  obtain ⟨ls, e1, h⟩ := R_bind_eq_ok.mp h
  obtain ⟨l, e2, h⟩ := R_bind_eq_ok.mp h
  obtain ⟨n1, e3, h⟩ := R_bind_eq_ok.mp h
  obtain ⟨dm, e4, h⟩ := R_bind_eq_ok.mp h
  obtain ⟨h1, rfl⟩ := usub_eq_ok.mp e3
  obtain ⟨h2, rfl⟩ := fdiv_quot e4
  obtain ⟨h3, rfl⟩ := fdiv_quot e2
  have : n - 1 ≠ 0 := fun h0 => h2 (by rw [h0]; simp)
  refine ⟨by omega, ls, e1, ?_⟩
  rw [Nat.cast_sub h1, Nat.cast_one] at h
  exact h

/-- C92: the number of nodes of a segment is one more than the mean length of the curves on it divided by the step, rounded. -/
theorem C92_sizes_step {round : K → ℕ} {crvs : List (LatticeCurve K V)} {u : List K} {dm : K} {r : List ℕ} (h : setSizes round crvs u dm = .ok r) :
    r.length + 1 = u.length ∧ ∀ (i n : ℕ), r[i]? = some n → ∃ u1 u2 ls, u[i]? = some u1 ∧ u[i + 1]? = some u2 ∧
      crvs.mapM (fun c => c.len u1 u2) = .ok ls ∧ n = round (ls.sum / (crvs.length : K) / dm) + 1 := by
  unfold setSizes at h
  obtain ⟨m, hm, h⟩ := R_bind_eq_ok.mp h
  obtain ⟨h1, rfl⟩ := usub_eq_ok.mp hm
  obtain ⟨r1, r2⟩ := mapM_range_inv h
  refine ⟨by omega, ?_⟩
  intro i n hn
  obtain ⟨y, hy, hr⟩ := r2 i (by rw [← r1]; exact (List.getElem?_eq_some_iff.mp hn).1)
  rw [hn] at hr
  cases hr
  obtain ⟨u1, e1, hy⟩ := R_bind_eq_ok.mp hy
  obtain ⟨u2, e2, hy⟩ := R_bind_eq_ok.mp hy
  obtain ⟨ls, e3, hy⟩ := R_bind_eq_ok.mp hy
  obtain ⟨l, e4, hy⟩ := R_bind_eq_ok.mp hy
  obtain ⟨q, e5, hy⟩ := R_bind_eq_ok.mp hy
  obtain ⟨-, rfl⟩ := fdiv_quot e4
  obtain ⟨-, rfl⟩ := fdiv_quot e5
  exact ⟨u1, u2, ls, rd_eq_ok.mp e1, rd_eq_ok.mp e2, e3, (Except.ok.inj hy).symm⟩

/-- C92: the same for curves with parameters of their own: the length of each curve is taken between its own parameters. The lists have as many
parameters as the first, for each curve one list, and there is at least one curve. -/
theorem C92_sizes_each {round : K → ℕ} {crvs : List (LatticeCurve K V)} {us : List (List K)} {dm : K} {r : List ℕ} (h : setSizesL round crvs us dm = .ok r) :
    crvs ≠ [] ∧ us.length = crvs.length ∧ (∀ u ∈ us, u.length = r.length + 1) ∧
      ∀ (i n : ℕ), r[i]? = some n → ∃ ls : List K, ls.length = crvs.length ∧ n = round (ls.sum / (crvs.length : K) / dm) + 1 ∧
        ∀ (a : ℕ) (c : LatticeCurve K V) (u : List K), crvs[a]? = some c → us[a]? = some u → ∃ u1 u2 l, u[i]? = some u1 ∧ u[i + 1]? = some u2 ∧
          c.len u1 u2 = .ok l ∧ ls[a]? = some l := by
  unfold setSizesL at h
  split at h
  · cases h
  rename_i h0
  split at h
  · cases h
  rename_i hl
  have hl : crvs.length = us.length := by simpa using hl
  obtain ⟨u0, e0, h⟩ := R_bind_eq_ok.mp h
  split at h
  · cases h
  rename_i hu
  obtain ⟨m, hm, h⟩ := R_bind_eq_ok.mp h
  obtain ⟨h1, rfl⟩ := usub_eq_ok.mp hm
  obtain ⟨r1, r2⟩ := mapM_range_inv h
  refine ⟨fun hn => h0 (by rw [hn]; rfl), hl.symm, ?_, ?_⟩
  · intro u hm
    have : u0.length = u.length := by
      by_contra hne
      exact hu (List.any_eq_true.mpr ⟨u, hm, by simpa using hne⟩)
    omega
  · intro i n hn
    obtain ⟨y, hy, hr⟩ := r2 i (by rw [← r1]; exact (List.getElem?_eq_some_iff.mp hn).1)
    rw [hn] at hr
    cases hr
    obtain ⟨ls, e3, hy⟩ := R_bind_eq_ok.mp hy
    obtain ⟨l, e4, hy⟩ := R_bind_eq_ok.mp hy
    obtain ⟨q, e5, hy⟩ := R_bind_eq_ok.mp hy
    obtain ⟨-, rfl⟩ := fdiv_quot e4
    obtain ⟨-, rfl⟩ := fdiv_quot e5
    obtain ⟨l1, l2⟩ := mapM_range_inv e3
    refine ⟨ls, l1, (Except.ok.inj hy).symm, ?_⟩
    intro a c u hc hu'
    obtain ⟨y, hy1, hr⟩ := l2 a (List.getElem?_eq_some_iff.mp hc).1
    obtain ⟨c', q1, hy2⟩ := R_bind_eq_ok.mp hy1
    obtain ⟨u', q2, hy3⟩ := R_bind_eq_ok.mp hy2
    obtain ⟨u1, q3, hy4⟩ := R_bind_eq_ok.mp hy3
    obtain ⟨u2, q4, hy5⟩ := R_bind_eq_ok.mp hy4
    obtain rfl := Option.some.inj (hc.symm.trans (rd_eq_ok.mp q1))
    obtain rfl := Option.some.inj (hu'.symm.trans (rd_eq_ok.mp q2))
    exact ⟨u1, u2, y, rd_eq_ok.mp q3, rd_eq_ok.mp q4, hy5, hr⟩

/-- C92: a number of nodes for the whole curves gives the sizes of the step that is their mean length over the number of intervals, with common
parameters and with parameters for each curve. Less than two nodes are refused. -/
theorem C92_sizes_number {round : K → ℕ} {crvs : List (LatticeCurve K V)} {n : ℕ} {r : List ℕ} :
    (∀ u, setSizesN round crvs u n = .ok r → 2 ≤ n ∧ ∃ ls, crvs.mapM (fun c => c.len c.b0 c.b1) = .ok ls ∧
      setSizes round crvs u (ls.sum / (crvs.length : K) / ((n : K) - 1)) = .ok r) ∧
    ∀ us, setSizesNL round crvs us n = .ok r → 2 ≤ n ∧ ∃ ls, crvs.mapM (fun c => c.len c.b0 c.b1) = .ok ls ∧
      setSizesL round crvs us (ls.sum / (crvs.length : K) / ((n : K) - 1)) = .ok r :=
  ⟨fun _ h => Spec.step_of_number h, fun _ h => Spec.step_of_number h⟩

/-- Non-vacuity: two vertical lines cut at parameters of their own. The first segment is `1/10` long on the first and `1/2` on the second, `3/10` in
the mean: one interval of `1/4`. -/
example : setSizesL tfiRound [tfiVert 0, tfiVert 1] [[0, 1 / 10, 1], [0, 1 / 2, 1]] (1 / 4) = .ok [2, 4] ∧
    setSizesNL tfiRound [tfiVert 0, tfiVert 1] [[0, 1 / 10, 1], [0, 1 / 2, 1]] 5 = .ok [2, 4] := by
  decide +kernel

/-- Non-vacuity of `C92_sizes_number` and `C92_sizes_step`. -/
example : setSizesN tfiRound [tfiVert 0, tfiVert 1] [0, 1 / 10, 1] 5 = .ok [1, 5] := by
  decide +kernel

end Gbs
