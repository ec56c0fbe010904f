import Verif.Model.Rational
import Verif.Lemmas.EvalAll
import Verif.Lemmas.Linear
import Verif.Lemmas.NoThrow
import Mathlib.Data.Nat.Choose.Cast
import Mathlib.Algebra.BigOperators.Fin
import Mathlib.Algebra.Module.Prod
import Mathlib.Tactic.Abel

/-! # Rational evaluation -/

namespace Gbs

set_option linter.unusedSectionVars false

variable {K : Type} [Field K] [LinearOrder K] [IsStrictOrderedRing K]
variable {V : Type} [AddCommGroup V] [Module K V]

/-! ## The machine binomials -/

/-- Value of `binomial_law(n,k)` when it does not fail. -/
def bU (K : Type) [Field K] [LinearOrder K] (n k : ℕ) : K :=
  if k = n then 1 else (factU n : K) / (((factU k * factU (n - k)) % 2 ^ 64 : ℕ) : K)

theorem fact_den_ne : ∀ n, n ≤ 60 → ∀ k, k ≤ n → (factU k * factU (n - k)) % 2 ^ 64 ≠ 0 := by
  decide +kernel

theorem binomialU_ok {n k : ℕ} (hn : n ≤ 60) (hk : k ≤ n) : binomialU (K := K) n k = .ok (bU K n k) := by
  unfold binomialU bU
  split
  · rfl
  · exact fdiv_ok (by exact_mod_cast fact_den_ne n hn k hk)

theorem factU_eq : ∀ n, n ≤ 20 → factU n = n.factorial := by decide +kernel

theorem bU_choose {n k : ℕ} (hn : n ≤ 20) (hk : k ≤ n) : bU K n k = (n.choose k : K) := by
  unfold bU
  split
  · rename_i h; subst h; simp
  · rw [Nat.cast_choose K hk, factU_eq n hn, factU_eq k (by omega), factU_eq (n-k) (by omega),
      Nat.mod_eq_of_lt]
    · push_cast; rfl
    · have h1 : k.factorial * (n-k).factorial ≤ n.factorial := by
        apply Nat.le_of_dvd (Nat.factorial_pos _) (Nat.factorial_mul_factorial_dvd_factorial hk)
      have h2 : n.factorial ≤ (20).factorial := Nat.factorial_le hn
      have h3 : (20).factorial < 2 ^ 64 := by decide
      omega

/-! ## The quotient recursion -/

/-- The sequence computed from the homogeneous derivatives `A`, `w` with the binomials `b`. -/
def quotB (b : ℕ → ℕ → K) (A : ℕ → V) (w : ℕ → K) (d : ℕ) : V :=
  (w 0)⁻¹ • (A d - ∑ i : Fin d, (b d (i + 1) * w (i + 1)) • quotB b A w (d - (i + 1)))
termination_by d
decreasing_by omega

theorem quotB_eq (b : ℕ → ℕ → K) (A : ℕ → V) (w : ℕ → K) (d : ℕ) :
    quotB b A w d = (w 0)⁻¹ • (A d - ∑ i ∈ Finset.range d, (b d (i + 1) * w (i + 1)) • quotB b A w (d - (i + 1))) := by
  rw [quotB, Finset.sum_range]

theorem quotB_rule {b : ℕ → ℕ → K} {A : ℕ → V} {w : ℕ → K} (hw : w 0 ≠ 0) (d : ℕ) (hb : b d 0 = 1) :
    ∑ i ∈ Finset.range (d + 1), (b d i * w i) • quotB b A w (d - i) = A d := by
  rw [Finset.sum_range_succ', hb, one_mul, Nat.sub_zero, quotB_eq b A w d, smul_smul, mul_inv_cancel₀ hw,
    one_smul]
  abel

theorem quotB_congr {b b' : ℕ → ℕ → K} {A A' : ℕ → V} {w w' : ℕ → K} (D : ℕ)
    (hb : ∀ d, d ≤ D → ∀ i, i ≤ d → b d i = b' d i) (hA : ∀ d, d ≤ D → A d = A' d)
    (hw : ∀ d, d ≤ D → w d = w' d) : ∀ d, d ≤ D → quotB b A w d = quotB b' A' w' d := by
  intro d
  induction d using Nat.strong_induction_on with
  | _ d ih =>
    intro hd
    rw [quotB_eq, quotB_eq, hw 0 (by omega), hA d hd]
    congr 2
    apply Finset.sum_congr rfl
    intro i hi
    rw [Finset.mem_range] at hi
    rw [hb d hd _ (by omega), hw _ (by omega), ih _ (by omega) (by omega)]

theorem quotB_unique {b : ℕ → ℕ → K} {A : ℕ → V} {w : ℕ → K} (hw : w 0 ≠ 0) (D : ℕ) (hb : ∀ d, d ≤ D → b d 0 = 1)
    {C : ℕ → V} (hC : ∀ d, d ≤ D → ∑ i ∈ Finset.range (d + 1), (b d i * w i) • C (d - i) = A d) :
    ∀ d, d ≤ D → C d = quotB b A w d := by
  intro d
  induction d using Nat.strong_induction_on with
  | _ d ih =>
    intro hd
    have h := hC d hd
    rw [Finset.sum_range_succ', hb d hd, one_mul, Nat.sub_zero] at h
    rw [quotB_eq, ← h]
    have : ∑ i ∈ Finset.range d, (b d (i + 1) * w (i + 1)) • C (d - (i + 1)) =
        ∑ i ∈ Finset.range d, (b d (i + 1) * w (i + 1)) • quotB b A w (d - (i + 1)) := by
      apply Finset.sum_congr rfl
      intro i hi
      rw [Finset.mem_range] at hi
      rw [ih _ (by omega) (by omega)]
    rw [this, add_sub_cancel_left, smul_smul, inv_mul_cancel₀ hw, one_smul]

theorem forLe_sub {body : ℕ → V → R V} {g : ℕ → V} (d : ℕ)
    (h : ∀ i s, 1 ≤ i → i ≤ d → body i s = .ok (s - g i)) (s : V) :
    forLe 1 d body s = .ok (s - ∑ i ∈ Finset.range d, g (i + 1)) := by
  obtain ⟨s', e, h'⟩ := forLe_inv (a := 1) (b := d) (body := body) (s := s)
    (fun j x => x = s - ∑ i ∈ Finset.range (j - 1), g (i + 1)) (by omega) (by simp) (by
      intro i x h1 h2 hx
      refine ⟨_, h i x h1 h2, ?_⟩
      obtain ⟨j, rfl⟩ : ∃ j, i = j + 1 := ⟨i - 1, by omega⟩
      rw [hx, show j + 1 + 1 - 1 = j + 1 by omega, Finset.sum_range_succ, show j + 1 - 1 = j by omega]
      abel)
  rw [e, h', Nat.add_sub_cancel]

theorem vdiv_ok {v : V} {s : K} (h : s ≠ 0) : vdiv v s = .ok (s⁻¹ • v) := by
  unfold vdiv; rw [if_neg h]

theorem evalRationalF_spec {eps junk u : K} {k : List K} {P : List (V × K)} {p : ℕ} {A : ℕ → V × K} {D : ℕ}
    (hD : D ≤ 60) (hA : ∀ d, d ≤ D → evalValue eps junk u k P p d = .ok (A d)) (hw : (A 0).2 ≠ 0) :
    ∀ f d, d < f → d ≤ D → evalRationalF eps junk u k P p f d =
      .ok (quotB (bU K) (fun d => (A d).1) (fun d => (A d).2) d) := by
  intro f
  induction f with
  | zero => intro d h; omega
  | succ f ih =>
    intro d hd hdD
    unfold evalRationalF
    split
    · rename_i h0
      subst h0
      rw [hA 0 (by omega), quotB_eq]
      simp [weightProjection, hw]
    · rw [hA 0 (by omega), R_bind_ok, hA d hdD, R_bind_ok]
      simp only
      rw [forLe_sub (g := fun i => (bU K d i * (A i).2) •
        quotB (bU K) (fun d => (A d).1) (fun d => (A d).2) (d - i))]
      · rw [R_bind_ok, vdiv_ok hw, quotB_eq]
        simp [weightProjection]
      · intro i s h1 h2
        rw [hA i (by omega), R_bind_ok, ih (d - i) (by omega) (by omega), R_bind_ok,
          binomialU_ok (by omega) h2]
        rfl

theorem evalRational_spec {eps junk u : K} {k : List K} {P : List (V × K)} {p : ℕ} {A : ℕ → V × K} {D : ℕ}
    (hD : D ≤ 60) (hA : ∀ d, d ≤ D → evalValue eps junk u k P p d = .ok (A d)) (hw : (A 0).2 ≠ 0) :
    ∀ d, d ≤ D → evalRational eps junk u k P p d =
      .ok (quotB (bU K) (fun d => (A d).1) (fun d => (A d).2) d) :=
  fun d hd => evalRationalF_spec hD hA hw (d+1) d (by omega) hd

theorem evalRationalDers_spec {eps junk u : K} {k : List K} {P : List (V × K)} {p : ℕ} {A : ℕ → V × K} {n : ℕ}
    (hD : n ≤ 60) (hA : ∀ d, d ≤ n → evalValue eps junk u k P p d = .ok (A d))
    {CK : List (V × K)} (hCK : evalDers eps junk u k P p n = .ok CK) (hCKA : ∀ d, d ≤ n → CK[d]? = some (A d))
    (hw : (A 0).2 ≠ 0) (CK0 : List V) (h0 : n < CK0.length) :
    ∃ C, evalRationalDers eps junk u k P p n CK0 = .ok C ∧ C.length = CK0.length ∧
      ∀ d, d ≤ n → C[d]? = some (quotB (bU K) (fun d => (A d).1) (fun d => (A d).2) d) := by
  unfold evalRationalDers
  split
  · obtain ⟨C, e, h1, h2⟩ := forLe_inv (a := 0) (b := n) (s := CK0)
      (body := fun kk CK => do
        let v ← evalRational eps junk u k P p kk
        wr CK kk v)
      (fun j C => C.length = CK0.length ∧ ∀ d, d < j → C[d]? =
        some (quotB (bU K) (fun d => (A d).1) (fun d => (A d).2) d)) (by omega)
      ⟨rfl, by intro d h; omega⟩ (by
        intro i C _ hi ⟨h1, h2⟩
        refine ⟨C.set i (quotB (bU K) (fun d => (A d).1) (fun d => (A d).2) i), ?_, by simpa using h1, ?_⟩
        · rw [evalRational_spec hD hA hw i hi, R_bind_ok, wr_ok (by omega)]
        · intro d hd
          rw [getElem?_set_of_lt (by omega)]
          split
          · rename_i h; subst h; rfl
          · exact h2 d (by omega))
    exact ⟨C, e, h1, fun d hd => h2 d (by omega)⟩
  · rw [hCK, R_bind_ok, rd_eq_ok.mpr (hCKA 0 (by omega)), R_bind_ok]
    obtain ⟨C, e, h1, h2⟩ := forLe_inv (a := 0) (b := n) (s := CK0)
      (body := rationalOrder CK (A 0).2)
      (fun j C => C.length = CK0.length ∧ ∀ d, d < j → C[d]? =
        some (quotB (bU K) (fun d => (A d).1) (fun d => (A d).2) d)) (by omega)
      ⟨rfl, by intro d h; omega⟩ (by
        intro i C _ hi ⟨h1, h2⟩
        refine ⟨C.set i (quotB (bU K) (fun d => (A d).1) (fun d => (A d).2) i), ?_, by simpa using h1, ?_⟩
        · unfold rationalOrder
          rw [rd_eq_ok.mpr (hCKA i hi), R_bind_ok]
          rw [forLe_sub (g := fun j => (bU K i j * (A j).2) •
            quotB (bU K) (fun d => (A d).1) (fun d => (A d).2) (i - j))]
          · rw [R_bind_ok, vdiv_ok hw, R_bind_ok, wr_ok (by omega),
              quotB_eq (bU K) (fun d => (A d).1) (fun d => (A d).2) i]
          · intro j s hj1 hj2
            rw [binomialU_ok (by omega) hj2, R_bind_ok, rd_eq_ok.mpr (hCKA j (by omega)), R_bind_ok,
              rd_eq_ok.mpr (h2 (i - j) (by omega))]
            rfl
        · intro d hd
          rw [getElem?_set_of_lt (by omega)]
          split
          · rename_i h; subst h; rfl
          · exact h2 d (by omega))
    exact ⟨C, e, h1, fun d hd => h2 d (by omega)⟩

/-! ## Scaling -/

theorem weightProjection_smul {s : K} (hs : s ≠ 0) (x : V × K) : weightProjection (s • x) = weightProjection x := by
  unfold weightProjection
  simp only [Prod.smul_fst, Prod.smul_snd, smul_eq_mul]
  by_cases h : x.2 = 0
  · simp [h]
  · have : s * x.2 ≠ 0 := mul_ne_zero hs h
    simp only [ne_eq, this, not_false_eq_true, if_true, h]
    rw [smul_smul]
    congr 1
    field_simp

theorem vdiv_smul {s : K} (hs : s ≠ 0) (v : V) (w : K) : vdiv (s • v) (s * w) = vdiv v w := by
  unfold vdiv
  by_cases h : w = 0
  · simp [h]
  · have : s * w ≠ 0 := mul_ne_zero hs h
    rw [if_neg this, if_neg h, smul_smul]
    congr 2
    field_simp

theorem evalValue_scale (s eps junk u : K) (k : List K) {M : Type} [AddCommGroup M] [Module K M] (P : List M)
    (p d : ℕ) : evalValue eps junk u k (scalePoles P s) p d = rmap (fun x => s • x) (evalValue eps junk u k P p d) :=
  evalValue_map (s • LinearMap.id (R := K) (M := M)) eps junk u k P p d

theorem evalDers_scale (s eps junk u : K) (k : List K) {M : Type} [AddCommGroup M] [Module K M] (P : List M)
    (p d : ℕ) : evalDers eps junk u k (scalePoles P s) p d =
      rmap (List.map (fun x => s • x)) (evalDers eps junk u k P p d) :=
  evalDers_map (s • LinearMap.id (R := K) (M := M)) eps junk u k P p d

theorem evalRationalF_scale {s : K} (hs : s ≠ 0) (eps junk u : K) (k : List K) (P : List (V × K)) (p : ℕ) :
    ∀ f d, evalRationalF eps junk u k (scalePoles P s) p f d = evalRationalF eps junk u k P p f d := by
  intro f
  induction f with
  | zero => intro d; simp only [evalRationalF]
  | succ f ih =>
    intro d
    unfold evalRationalF
    simp only [evalValue_scale]
    split
    · cases evalValue eps junk u k P p d with
      | error e => simp only [rmap_error, R_bind_error]
      | ok x => simp [weightProjection_smul hs]
    · cases evalValue eps junk u k P p 0 with
      | error e => simp only [rmap_error, R_bind_error]
      | ok x0 =>
        simp only [R_bind_ok, rmap_ok]
        cases evalValue eps junk u k P p d with
        | error e => simp only [rmap_error, R_bind_error]
        | ok xd =>
          simp only [R_bind_ok, rmap_ok]
          have hb := forLe_map (f := fun v : V => s • v)
            (body := fun i sum => do
              let wi ← evalValue eps junk u k P p i
              let C ← evalRationalF eps junk u k P p f (d - i)
              let b ← binomialU d i
              pure (sum - (b * wi.2) • C))
            (body' := fun i sum => do
              let wi ← rmap (fun x => s • x) (evalValue eps junk u k P p i)
              let C ← evalRationalF eps junk u k (scalePoles P s) p f (d - i)
              let b ← binomialU d i
              pure (sum - (b * wi.2) • C)) (by
                intro i v
                simp only [ih]
                cases evalValue eps junk u k P p i with
                | error e => simp only [rmap_error, R_bind_error]
                | ok xi =>
                  simp only [R_bind_ok, rmap_ok]
                  cases evalRationalF eps junk u k P p f (d - i) with
                  | error e => simp only [rmap_error, R_bind_error]
                  | ok C =>
                    simp only [R_bind_ok]
                    cases binomialU (K := K) d i with
                    | error e => simp only [rmap_error, R_bind_error]
                    | ok b =>
                      simp only [R_bind_ok, R_pure, rmap_ok, Prod.smul_snd, smul_eq_mul, smul_sub, smul_smul]
                      congr 3
                      ring)
          have e1 : weightProjection ((s • xd).1, (1 : K)) = s • weightProjection (xd.1, (1 : K)) := by
            simp [weightProjection]
          rw [e1, hb]
          cases forLe 1 d (fun i sum => do
              let wi ← evalValue eps junk u k P p i
              let C ← evalRationalF eps junk u k P p f (d - i)
              let b ← binomialU d i
              pure (sum - (b * wi.2) • C)) (weightProjection (xd.1, (1 : K))) with
          | error e => simp only [rmap_error, R_bind_error]
          | ok v =>
            simp only [rmap_ok, R_bind_ok, Prod.smul_snd, smul_eq_mul]
            exact vdiv_smul hs _ _

theorem rationalOrder_scale {s : K} (hs : s ≠ 0) (A : List (V × K)) (w0 : K) (kk : ℕ) (CK : List V) :
    rationalOrder (A.map (fun x => s • x)) (s * w0) kk CK = rationalOrder A w0 kk CK := by
  unfold rationalOrder
  rw [rd_map]
  cases rd A kk with
  | error e => simp only [rmap_error, R_bind_error]
  | ok a =>
    simp only [rmap_ok, R_bind_ok, Prod.smul_fst]
    have hb := forLe_map (f := fun v : V => s • v)
      (body := fun i v => do
        let b ← binomialU kk i
        let Ai ← rd A i
        let C ← rd CK (kk - i)
        pure (v - (b * Ai.2) • C))
      (body' := fun i v => do
        let b ← binomialU kk i
        let Ai ← rd (A.map (fun x => s • x)) i
        let C ← rd CK (kk - i)
        pure (v - (b * Ai.2) • C)) (by
          intro i v
          cases binomialU (K := K) kk i with
          | error e => simp only [rmap_error, R_bind_error]
          | ok b =>
            simp only [R_bind_ok]
            rw [rd_map]
            cases rd A i with
            | error e => simp only [rmap_error, R_bind_error]
            | ok Ai =>
              simp only [R_bind_ok, rmap_ok]
              cases rd CK (kk - i) with
              | error e => simp only [rmap_error, R_bind_error]
              | ok C =>
                simp only [R_bind_ok, R_pure, rmap_ok, Prod.smul_snd, smul_eq_mul, smul_sub, smul_smul]
                congr 3
                ring)
    rw [hb]
    cases forLe 1 kk (fun i v => do
        let b ← binomialU kk i
        let Ai ← rd A i
        let C ← rd CK (kk - i)
        pure (v - (b * Ai.2) • C)) a.1 with
    | error e => simp only [rmap_error, R_bind_error]
    | ok v =>
      simp only [rmap_ok, R_bind_ok, vdiv_smul hs]

theorem evalRationalDers_scale {s : K} (hs : s ≠ 0) (eps junk u : K) (k : List K) (P : List (V × K)) (p n : ℕ)
    (CK0 : List V) :
    evalRationalDers eps junk u k (scalePoles P s) p n CK0 = evalRationalDers eps junk u k P p n CK0 := by
  unfold evalRationalDers
  simp only [evalRational, evalRationalF_scale hs, evalDers_scale]
  split
  · rfl
  · cases evalDers eps junk u k P p n with
    | error e => simp only [rmap_error, R_bind_error]
    | ok A =>
      simp only [rmap_ok, R_bind_ok, rd_map]
      cases rd A 0 with
      | error e => simp only [rmap_error, R_bind_error]
      | ok a =>
        simp only [rmap_ok, R_bind_ok, Prod.smul_snd, smul_eq_mul]
        congr 1
        funext kk CK
        exact rationalOrder_scale hs _ _ _ _

/-! ## Exceptions -/

theorem binomialU_noThrow (n k : ℕ) : NoThrow (binomialU (K := K) n k) := by
  unfold binomialU; nothrow

theorem vdiv_noThrow (v : V) (s : K) : NoThrow (vdiv v s) := by
  unfold vdiv
  split
  · exact ⟨by intro e h; cases h⟩
  · exact NoThrow.ok _

theorem evalRationalF_noThrow (eps junk u : K) (k : List K) (P : List (V × K)) (p : ℕ) :
    ∀ f d, NoThrow (evalRationalF eps junk u k P p f d) := by
  intro f
  induction f with
  | zero => intro d; exact ⟨by intro e h; cases h⟩
  | succ f ih =>
    intro d
    unfold evalRationalF
    split
    · exact NoThrow.bind (evalValue_noThrow _ _ _ _ _ _ _) (fun _ => NoThrow.pure _)
    · refine NoThrow.bind (evalValue_noThrow _ _ _ _ _ _ _) (fun _ => ?_)
      refine NoThrow.bind (evalValue_noThrow _ _ _ _ _ _ _) (fun _ => ?_)
      refine NoThrow.bind (NoThrow.forLe (fun i s => ?_) _ _ _) (fun _ => vdiv_noThrow _ _)
      refine NoThrow.bind (evalValue_noThrow _ _ _ _ _ _ _) (fun _ => ?_)
      refine NoThrow.bind (ih _) (fun _ => ?_)
      exact NoThrow.bind (binomialU_noThrow _ _) (fun _ => NoThrow.pure _)

theorem evalRationalDers_noThrow (eps junk u : K) (k : List K) (P : List (V × K)) (p n : ℕ) (CK0 : List V) :
    NoThrow (evalRationalDers eps junk u k P p n CK0) := by
  unfold evalRationalDers
  split
  · refine NoThrow.forLe (fun i s => ?_) _ _ _
    exact NoThrow.bind (evalRationalF_noThrow _ _ _ _ _ _ _ _) (fun _ => NoThrow.wr _ _ _)
  · refine NoThrow.bind (evalDers_noThrow _ _ _ _ _ _ _) (fun _ => ?_)
    refine NoThrow.bind (NoThrow.rd _ _) (fun _ => NoThrow.forLe (fun i s => ?_) _ _ _)
    unfold rationalOrder
    refine NoThrow.bind (NoThrow.rd _ _) (fun _ => ?_)
    refine NoThrow.bind (NoThrow.forLe (fun i s => ?_) _ _ _) (fun _ => ?_)
    · refine NoThrow.bind (binomialU_noThrow _ _) (fun _ => ?_)
      nothrow
    · exact NoThrow.bind (vdiv_noThrow _ _) (fun _ => NoThrow.wr _ _ _)

end Gbs
