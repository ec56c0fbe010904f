import Verif.Model.Surface
import Verif.Lemmas.EvalAll
import Verif.Lemmas.Rational

/-! # Evaluation of tensor product surfaces -/

namespace Gbs

set_option linter.unusedSectionVars false

open Polynomial

variable {K : Type} [Field K] [LinearOrder K] [IsStrictOrderedRing K]
variable {V : Type} [AddCommGroup V] [Module K V]

/-- `Wf` for `n` poles, whatever they are. -/
structure KWf (p : ℕ) (U : List K) (n : ℕ) : Prop where
  sorted : U.Pairwise (· ≤ ·)
  len : U.length = n + p + 1
  min : p + 1 ≤ n
  first : kf U p < kf U (p + 1)
  last : kf U (n - 1) < kf U n

theorem KWf.wf {p : ℕ} {U : List K} {n : ℕ} (h : KWf p U n) {P : List V} (hP : P.length = n) : Wf p U P := by
  subst hP
  exact ⟨h.sorted, h.len, h.min, h.first, h.last⟩

theorem Wf.kwf {p : ℕ} {U : List K} {P : List V} (h : Wf p U P) : KWf p U P.length :=
  ⟨h.sorted, h.len, h.min, h.first, h.last⟩

/-- `RecOk` for `n` poles, whatever they are. -/
structure KRecOk (eps : K) (p : ℕ) (U : List K) (n : ℕ) (u : K) : Prop where
  pos : 0 < eps
  sep : Sep eps U
  clamped : kf U n = kLast U
  lower : kf U p ≤ u
  upper : u < kf U n + eps

theorem KRecOk.recOk {eps : K} {p : ℕ} {U : List K} {n : ℕ} {u : K} (h : KRecOk eps p U n u) {P : List V} (hP : P.length = n) :
    RecOk eps p U P u := by
  subst hP
  exact ⟨h.pos, h.sep, h.clamped, h.lower, h.upper⟩

theorem findSpan_kwf {p : ℕ} {U : List K} {n : ℕ} (h : KWf p U n) (u : K) :
    ∃ i, findSpan n p u U = .ok i ∧ p ≤ i ∧ i < n ∧ kf U i < kf U (i+1) ∧
      (kf U p ≤ u → u ≤ kf U n → Spec.InSpan (kf U) (kf U n) i u) ∧
      (kf U n ≤ u → i = n - 1) ∧ (u < kf U p → i = p) := by
  have := findSpan_wf (h.wf (P := List.replicate n (0 : K)) (by simp)) u
  simpa using this

/-- Mixed derivative of the polynomial of the patch `(i,j)`. -/
noncomputable def surfDer (tu : ℕ → K) (nU p i : ℕ) (tv : ℕ → K) (nV q j : ℕ) (P : ℕ → V) (du dv : ℕ) (u v : K) : V :=
  spanDer tv nV q j (fun jj => spanDer tu nU p i (fun ii => P (ii + nU * jj)) du u) dv v

theorem surfDer_window (tu : ℕ → K) {nU p i : ℕ} (tv : ℕ → K) {nV q j : ℕ} (hpi : p ≤ i) (hi : i < nU) (hqj : q ≤ j)
    (hj : j < nV) (P : ℕ → V) (du dv : ℕ) (u v : K) :
    surfDer tu nU p i tv nV q j P du dv u v =
      ∑ b ∈ Finset.range (q+1), ∑ a ∈ Finset.range (p+1),
        ((derivative^[du] (Bp tu i p (i - p + a))).eval u * (derivative^[dv] (Bp tv j q (j - q + b))).eval v) •
          P (i - p + a + nU * (j - q + b)) := by
  unfold surfDer
  rw [spanDer_window _ hqj hj]
  apply Finset.sum_congr rfl
  intro b _
  rw [spanDer_window _ hpi hi, Finset.smul_sum]
  apply Finset.sum_congr rfl
  intro a _
  rw [smul_smul, mul_comm]

theorem surfDer_zero_of_gt (tu : ℕ → K) (nU p i : ℕ) (tv : ℕ → K) (nV q j : ℕ) (P : ℕ → V) {du dv : ℕ}
    (h : p < du ∨ q < dv) (u v : K) : surfDer tu nU p i tv nV q j P du dv u v = 0 := by
  unfold surfDer
  rcases h with h | h
  · simp only [spanDer_zero_of_gt _ _ _ _ _ h]
    unfold spanDer
    simp
  · exact spanDer_zero_of_gt _ _ _ _ _ h _

theorem idx_lt {i j n m : ℕ} (hi : i < n) (hj : j < m) : i + n * j < n * m := by
  calc i + n * j < n + n * j := by omega
    _ = n * (j + 1) := by ring
    _ ≤ n * m := Nat.mul_le_mul_left _ hj

theorem surfSum_spec {Nu Nv : List K} {a b : ℕ → K} {offU offV : ℕ} {P : List V} {p q nU nV i j : ℕ}
    (ha : ∀ r, r ≤ p → Nu[offU + r]? = some (a r)) (hb : ∀ r, r ≤ q → Nv[offV + r]? = some (b r))
    (hP : P.length = nU * nV) (hpi : p ≤ i) (hi : i < nU) (hqj : q ≤ j) (hj : j < nV) (acc : V) :
    surfSum Nu Nv offU offV P p q nU (i - p) (j - q) acc =
      .ok (acc + ∑ y ∈ Finset.range (q+1), ∑ x ∈ Finset.range (p+1),
        (a x * b y) • pf P (i - p + x + nU * (j - q + y))) := by
  unfold surfSum
  unfold forLe
  rw [forN_sum (g := fun y => ∑ x ∈ Finset.range (p+1), (a x * b y) • pf P (i - p + x + nU * (j - q + y)))]
  · simp
  · intro y s _ hy
    rw [rd_eq_ok.mpr (hb y (by omega)), R_bind_ok]
    simp only
    rw [forN_sum (g := fun x => (a x * b y) • pf P (i - p + x + nU * (j - q + y)))]
    · simp
    · intro x s _ hx
      rw [rd_eq_ok.mpr (ha x (by omega)), R_bind_ok, rd_pf (by
        rw [hP]; exact idx_lt (by omega) (by omega)), R_bind_ok]
      rfl

theorem surfSumRec_spec {eps u v : K} {U W : List K} {P : List V} {p q nU nV i j : ℕ} (hU : KWf p U nU) (hW : KWf q W nV)
    (hP : P.length = nU * nV) (hp : 1 ≤ p ∨ kf U i < kf U (i+1)) (hq : 1 ≤ q ∨ kf W j < kf W (j+1))
    (hpi : p ≤ i) (hi : i < nU) (hqj : q ≤ j) (hj : j < nV) (hu : RecSpan eps U i u) (hv : RecSpan eps W j v)
    (heps : 0 < eps) (hsU : Sep eps U) (hsW : Sep eps W) (du dv : ℕ) (acc : V) :
    surfSumRec eps u v U W P p q du dv nU (i - p) i (j - q) j acc =
      .ok (acc + surfDer (kf U) nU p i (kf W) nV q j (pf P) du dv u v) := by
  have gen : ∀ {T : List K} {r n k x : ℕ}, (1 ≤ r ∨ kf T k < kf T (k+1)) → k - r ≤ x → x ≤ k → r ≤ k → (1 ≤ r ∨ kf T x < kf T (x+r+1)) := by
    intro T r n k x h h1 h2 h3
    rcases h with h | h
    · exact Or.inl h
    · rcases Nat.eq_zero_or_pos r with h0 | h0
      · subst h0
        obtain rfl : x = k := by omega
        exact Or.inr h
      · exact Or.inl h0
  rw [surfDer_window _ _ hpi hi hqj hj]
  unfold surfSumRec
  unfold forLe
  have e1 : j + 1 - (j - q) = q + 1 := by omega
  have e2 : i + 1 - (i - p) = p + 1 := by omega
  rw [e1, e2]
  rw [forN_sum (g := fun y => ∑ x ∈ Finset.range (p+1), ((derivative^[du] (Bp (kf U) i p (i - p + x))).eval u *
      (derivative^[dv] (Bp (kf W) j q y)).eval v) • pf P (i - p + x + nU * y))]
  intro y s h1 h2
  rw [basisFunctionD_spec heps hW.sorted hsW hv dv q y (by rw [hW.len]; omega)
    (gen (n := 0) hq h1 (by omega) hqj), R_bind_ok]
  rw [forN_sum (g := fun x => ((derivative^[du] (Bp (kf U) i p x)).eval u *
      (derivative^[dv] (Bp (kf W) j q y)).eval v) • pf P (x + nU * y))]
  intro x s h3 h4
  rw [basisFunctionD_spec heps hU.sorted hsU hu du p x (by rw [hU.len]; omega)
    (gen (n := 0) hp h3 (by omega) hpi), R_bind_ok, rd_pf (by
        rw [hP]; exact idx_lt (by omega) (by omega)), R_bind_ok]
  rfl

/-- Conditions for the evaluation of a surface: none up to the stack degrees. -/
def SurfEvalOk (eps : K) (p q : ℕ) (U W : List K) (nU nV : ℕ) (u v : K) : Prop :=
  (p ≤ stackMaxDegree ∧ q ≤ stackMaxDegree) ∨ (KRecOk eps p U nU u ∧ KRecOk eps q W nV v)

theorem KRecOk.span {eps : K} {p : ℕ} {U : List K} {n : ℕ} {u : K} (h : KWf p U n) (hr : KRecOk eps p U n u) {i : ℕ}
    (hi : findSpan n p u U = .ok i) : RecSpan eps U i u := by
  have hl : (List.replicate n (0 : K)).length = n := by simp
  exact RecOk.span (h.wf hl) (hr.recOk hl) (by rw [hl]; exact hi)

theorem evalSurf_spec {eps junk u v : K} {U W : List K} {P : List V} {p q nU nV : ℕ} (hU : KWf p U nU) (hW : KWf q W nV)
    (hP : P.length = nU * nV) (hok : SurfEvalOk eps p q U W nU nV u v) (du dv : ℕ) {i j : ℕ}
    (hi : findSpan nU p u U = .ok i) (hj : findSpan nV q v W = .ok j) :
    evalSurf eps junk u v U W P p q du dv = .ok (surfDer (kf U) nU p i (kf W) nV q j (pf P) du dv u v) := by
  obtain ⟨i', e, a1, a2, a3, -⟩ := findSpan_kwf hU u
  obtain rfl : i' = i := by rw [hi] at e; exact (Except.ok.inj e).symm
  obtain ⟨j', e', b1, b2, b3, -⟩ := findSpan_kwf hW v
  obtain rfl : j' = j := by rw [hj] at e'; exact (Except.ok.inj e').symm
  unfold evalSurf
  split
  · rename_i hd
    rw [surfDer_zero_of_gt _ _ _ _ _ _ _ _ _ hd]; rfl
  · rename_i hd
    push Not at hd
    rw [usub_ok (by rw [hU.len]; omega), R_bind_ok, usub_ok (by rw [hW.len]; omega), R_bind_ok]
    rw [show U.length - (p+1) = nU by rw [hU.len]; omega, show W.length - (q+1) = nV by rw [hW.len]; omega]
    rw [hi, R_bind_ok, hj, R_bind_ok]
    simp only [if_pos a1, if_pos b1]
    split
    · rename_i hs
      obtain ⟨Nu, e2, hNu⟩ := basisDers_spec hU.sorted a1 (by rw [hU.len]; omega) a3 hd.1 hs.1 u junk
      obtain ⟨Nv, e3, hNv⟩ := basisDers_spec hW.sorted b1 (by rw [hW.len]; omega) b3 hd.2 hs.2 v junk
      rw [e2, R_bind_ok, e3, R_bind_ok]
      rw [surfSum_spec (a := fun r => (derivative^[du] (Bp (kf U) i' p (i' - p + r))).eval u)
        (b := fun r => (derivative^[dv] (Bp (kf W) j' q (j' - q + r))).eval v) (by simpa using hNu) (by simpa using hNv)
        hP a1 a2 b1 b2, zero_add, surfDer_window _ _ a1 a2 b1 b2]
    · rename_i hs
      obtain ⟨r1, r2⟩ := hok.resolve_left hs
      rw [surfSumRec_spec hU hW hP (Or.inr a3) (Or.inr b3) a1 a2 b1 b2 (r1.span hU hi) (r2.span hW hj) r1.pos r1.sep r2.sep,
        zero_add]

/-- Filling a table by a nested loop: entry `(x,y)` is written from the previous content of the same entry. -/
theorem nested_fill {α : Type} {body : ℕ → ℕ → List α → R (List α)} {A B s : ℕ} (hB : B < s) {g : ℕ → ℕ → α} {S0 : List α}
    (hlen : A * s + B < S0.length)
    (hbody : ∀ x y (S : List α), x ≤ A → y ≤ B → S.length = S0.length → S[x * s + y]? = S0[x * s + y]? →
      (∀ x' y', x' < x → y' ≤ B → S[x' * s + y']? = some (g x' y')) →
      (∀ y', y' < y → S[x * s + y']? = some (g x y')) →
      body x y S = .ok (S.set (x * s + y) (g x y))) :
    ∃ S, forLe 0 A (fun x S => forLe 0 B (fun y S => body x y S) S) S0 = .ok S ∧ S.length = S0.length ∧
      (∀ x y, x ≤ A → y ≤ B → S[x * s + y]? = some (g x y)) ∧
      (∀ k, (∀ x y, x ≤ A → y ≤ B → k ≠ x * s + y) → S[k]? = S0[k]?) := by
  have inj : ∀ {x y x' y' : ℕ}, y < s → y' < s → x * s + y = x' * s + y' → x = x' ∧ y = y' := by
    intro x y x' y' h1 h2 h3
    have hx : x = x' := by
      have a1 : (x * s + y) / s = x := by
        rw [Nat.mul_comm, Nat.mul_add_div (by omega), Nat.div_eq_of_lt h1]; omega
      have a2 : (x' * s + y') / s = x' := by
        rw [Nat.mul_comm, Nat.mul_add_div (by omega), Nat.div_eq_of_lt h2]; omega
      rw [← a1, ← a2, h3]
    subst hx
    exact ⟨rfl, by omega⟩
  have hix : ∀ {x y : ℕ}, x ≤ A → y ≤ B → x * s + y < S0.length := by
    intro x y h1 h2
    have := Nat.mul_le_mul_right s h1
    omega
  obtain ⟨S, e, h1, h2, h3⟩ := forLe_inv (a := 0) (b := A) (s := S0)
    (body := fun x S => forLe 0 B (fun y S => body x y S) S)
    (fun x S => S.length = S0.length ∧ (∀ x' y, x' < x → x' ≤ A → y ≤ B → S[x' * s + y]? = some (g x' y)) ∧
      (∀ k, (∀ x' y, x' < x → y ≤ B → k ≠ x' * s + y) → S[k]? = S0[k]?)) (by omega)
    ⟨rfl, by intro x' y h; omega, fun _ _ => rfl⟩
    (by
      intro x S _ hx ⟨g1, g2, g3⟩
      obtain ⟨S', e, k1, k2, k3, k4⟩ := forLe_inv (a := 0) (b := B) (s := S) (body := fun y S => body x y S)
        (fun y S' => S'.length = S0.length ∧ (∀ x' y, x' < x → x' ≤ A → y ≤ B → S'[x' * s + y]? = some (g x' y)) ∧
          (∀ y', y' < y → y' ≤ B → S'[x * s + y']? = some (g x y')) ∧
          (∀ k, (∀ y', y' < y → k ≠ x * s + y') → S'[k]? = S[k]?)) (by omega)
        ⟨g1, g2, by intro y' h; omega, fun _ _ => rfl⟩
        (by
          intro y S' _ hy ⟨k1, k2, k3, k4⟩
          refine ⟨S'.set (x * s + y) (g x y), hbody x y S' hx hy k1 ?_ (fun x' y' a b => k2 x' y' a (by omega) b)
            (fun y' a => k3 y' a (by omega)), by simp [k1], ?_, ?_, ?_⟩
          · rw [k4 _ (by intro y' h1 h2; have := (inj (by omega) (by omega) h2).2; omega),
              g3 _ (by intro x' y' h1 h3 h2; have := (inj (by omega) (by omega) h2).1; omega)]
          · intro x' y' h1 h2 h3
            rw [getElem?_set_of_lt (by rw [k1]; exact hix hx hy), if_neg (by
              intro h; have := (inj (by omega) (by omega) h).1; omega)]
            exact k2 x' y' h1 h2 h3
          · intro y' h1 h2
            rw [getElem?_set_of_lt (by rw [k1]; exact hix hx hy)]
            by_cases hyy : y' = y
            · subst hyy; rw [if_pos rfl]
            · rw [if_neg (by omega)]
              exact k3 y' (by omega) h2
          · intro k hk
            rw [getElem?_set_of_lt (by rw [k1]; exact hix hx hy), if_neg (hk y (by omega))]
            exact k4 k (fun y' h => hk y' (by omega)))
      refine ⟨S', e, k1, ?_, ?_⟩
      · intro x' y h1 h2 h3
        rcases Nat.lt_or_ge x' x with h4 | h4
        · exact k2 x' y h4 h2 h3
        · obtain rfl : x' = x := by omega
          exact k3 y (by omega) h3
      · intro k hk
        rw [k4 k (fun y' h => hk x y' (by omega) (by omega)), g3 k (fun x' y h h' => hk x' y (by omega) h')])
  exact ⟨S, e, h1, fun x y hx hy => h2 x y (by omega) hx hy, fun k hk => h3 k (fun x' y h h' => hk x' y (by omega) h')⟩

theorem evalSurfDers_spec {eps junk u v : K} {U W : List K} {P : List V} {p q nU nV : ℕ} (hU : KWf p U nU) (hW : KWf q W nV)
    (hP : P.length = nU * nV) (hok : SurfEvalOk eps p q U W nU nV u v) (nu nv : ℕ) {i j : ℕ}
    (hi : findSpan nU p u U = .ok i) (hj : findSpan nV q v W = .ok j) (SKL0 : List V)
    (hlen : (nu + 1) * (nv + 1) ≤ SKL0.length) :
    ∃ S, evalSurfDers eps junk u v U W P p q nu nv SKL0 = .ok S ∧ S.length = SKL0.length ∧
      ∀ a b, a ≤ nu → b ≤ nv → S[a * (nv + 1) + b]? =
        some (surfDer (kf U) nU p i (kf W) nV q j (pf P) a b u v) := by
  obtain ⟨i', e, a1, a2, a3, -⟩ := findSpan_kwf hU u
  obtain rfl : i' = i := by rw [hi] at e; exact (Except.ok.inj e).symm
  obtain ⟨j', e', b1, b2, b3, -⟩ := findSpan_kwf hW v
  obtain rfl : j' = j := by rw [hj] at e'; exact (Except.ok.inj e').symm
  have hlen' : nu * (nv + 1) + nv < SKL0.length := by
    have : (nu + 1) * (nv + 1) = nu * (nv + 1) + nv + 1 := by ring
    omega
  unfold evalSurfDers
  obtain ⟨S1, f1, f2, f3, -⟩ := nested_fill (body := fun a b S => wr S (a * (nv + 1) + b) (0 : V)) (A := nu) (B := nv) (s := nv + 1)
    (by omega) (g := fun _ _ => 0) hlen' (by
      intro x y S hx hy hl _ _ _
      have := Nat.mul_le_mul_right (nv + 1) hx
      rw [wr_ok (by omega)])
  rw [f1, R_bind_ok]
  simp only
  rw [usub_ok (by rw [hU.len]; omega), R_bind_ok, usub_ok (by rw [hW.len]; omega), R_bind_ok]
  rw [show U.length - (p+1) = nU by rw [hU.len]; omega, show W.length - (q+1) = nV by rw [hW.len]; omega]
  rw [hi, R_bind_ok, hj, R_bind_ok]
  simp only [if_pos a1, if_pos b1]
  have hlen2 : min nu p * (nv + 1) + min nv q < S1.length := by
    have := Nat.mul_le_mul_right (nv + 1) (Nat.min_le_left nu p)
    omega
  have concl : ∀ S : List V, S.length = S1.length →
      (∀ a b, a ≤ min nu p → b ≤ min nv q → S[a * (nv + 1) + b]? = some (surfDer (kf U) nU p i' (kf W) nV q j' (pf P) a b u v)) →
      (∀ k, (∀ x y, x ≤ min nu p → y ≤ min nv q → k ≠ x * (nv + 1) + y) → S[k]? = S1[k]?) →
      S.length = SKL0.length ∧ ∀ a b, a ≤ nu → b ≤ nv → S[a * (nv + 1) + b]? =
        some (surfDer (kf U) nU p i' (kf W) nV q j' (pf P) a b u v) := by
    intro S h1 h2 h3
    refine ⟨h1.trans f2, ?_⟩
    intro a b ha hb
    by_cases hab : a ≤ p ∧ b ≤ q
    · exact h2 a b (by omega) (by omega)
    · rw [surfDer_zero_of_gt _ _ _ _ _ _ _ _ _ (by omega), h3 _ ?_, f3 a b ha hb]
      intro x y hx hy h
      have hx' : x = a := by
        have c1 : (a * (nv + 1) + b) / (nv + 1) = a := by
          rw [Nat.mul_comm, Nat.mul_add_div (by omega), Nat.div_eq_of_lt (by omega)]; omega
        have c2 : (x * (nv + 1) + y) / (nv + 1) = x := by
          rw [Nat.mul_comm, Nat.mul_add_div (by omega), Nat.div_eq_of_lt (by omega)]; omega
        rw [← c1, ← c2, h]
      subst hx'
      have : b = y := by omega
      omega
  split
  · rename_i hs
    have hL : ∀ {n r : ℕ}, n ≤ r → r ≤ stackMaxDegree → (n+1)*(r+1) ≤ (stackMaxDegree + 1) * (stackMaxDegree + 1) :=
      fun h1 h2 => Nat.mul_le_mul (by omega) (by omega)
    obtain ⟨DU, eU, -, hDU⟩ := dersBasisFuns_spec hU.sorted a1 (by rw [hU.len]; omega) a3
      (n := min nu p) (by omega) u (fun _ _ => junk) (fun _ _ => junk)
      (List.replicate (stackMaxDegree + 1) junk) (List.replicate (stackMaxDegree + 1) junk)
      (List.replicate ((stackMaxDegree + 1) * (stackMaxDegree + 1)) junk)
      (by simp; omega) (by simp; omega) (by simpa using hL (by omega) hs.1)
    obtain ⟨DV, eV, -, hDV⟩ := dersBasisFuns_spec hW.sorted b1 (by rw [hW.len]; omega) b3
      (n := min nv q) (by omega) v (fun _ _ => junk) (fun _ _ => junk)
      (List.replicate (stackMaxDegree + 1) junk) (List.replicate (stackMaxDegree + 1) junk)
      (List.replicate ((stackMaxDegree + 1) * (stackMaxDegree + 1)) junk)
      (by simp; omega) (by simp; omega) (by simpa using hL (by omega) hs.2)
    rw [eU, R_bind_ok, eV, R_bind_ok]
    obtain ⟨S, g1, g2, g3, g4⟩ := nested_fill (A := min nu p) (B := min nv q) (s := nv + 1) (S0 := S1)
      (body := fun a b S => do
        let x ← rd S (a * (nv + 1) + b)
        let y ← surfSum DU DV (a * (p + 1)) (b * (q + 1)) P p q nU (i' - p) (j' - q) x
        wr S (a * (nv + 1) + b) y)
      (by omega) (g := fun a b => surfDer (kf U) nU p i' (kf W) nV q j' (pf P) a b u v) hlen2 (by
        intro x y S hx hy hl hS _ _
        have := Nat.mul_le_mul_right (nv + 1) (show x ≤ nu by omega)
        rw [rd_eq_ok.mpr (hS.trans (f3 x y (by omega) (by omega))), R_bind_ok]
        rw [surfSum_spec (a := fun r => (derivative^[x] (Bp (kf U) i' p (i' - p + r))).eval u)
          (b := fun r => (derivative^[y] (Bp (kf W) j' q (j' - q + r))).eval v) (fun r hr => hDU x r hx hr) (fun r hr => hDV y r hy hr)
          hP a1 a2 b1 b2, zero_add, R_bind_ok, wr_ok (by omega), surfDer_window _ _ a1 a2 b1 b2])
    exact ⟨S, g1, concl S g2 g3 g4⟩
  · rename_i hs
    obtain ⟨r1, r2⟩ := hok.resolve_left hs
    obtain ⟨S, g1, g2, g3, g4⟩ := nested_fill (A := min nu p) (B := min nv q) (s := nv + 1) (S0 := S1)
      (body := fun a b S => do
        let x ← rd S (a * (nv + 1) + b)
        let y ← surfSumRec eps u v U W P p q a b nU (i' - p) i' (j' - q) j' x
        wr S (a * (nv + 1) + b) y)
      (by omega) (g := fun a b => surfDer (kf U) nU p i' (kf W) nV q j' (pf P) a b u v) hlen2 (by
        intro x y S hx hy hl hS _ _
        have := Nat.mul_le_mul_right (nv + 1) (show x ≤ nu by omega)
        rw [rd_eq_ok.mpr (hS.trans (f3 x y (by omega) (by omega))), R_bind_ok]
        rw [surfSumRec_spec hU hW hP (Or.inr a3) (Or.inr b3) a1 a2 b1 b2 (r1.span hU hi) (r2.span hW hj) r1.pos r1.sep r2.sep,
          zero_add, R_bind_ok, wr_ok (by omega)])
    exact ⟨S, g1, concl S g2 g3 g4⟩

/-! ## The quotient rule in two variables -/

/-- Quotients of the mixed derivatives by the recurrence of the code, with any coefficients `b`. -/
def quotB2 (b : ℕ → ℕ → K) (A : ℕ → ℕ → V) (w : ℕ → ℕ → K) (k l : ℕ) : V :=
  (w 0 0)⁻¹ • (A k l
    - (∑ j : Fin l, (b l (j + 1) * w 0 (j + 1)) • quotB2 b A w k (l - (j + 1)))
    - ∑ i : Fin k, ((b k (i + 1) * w (i + 1) 0) • quotB2 b A w (k - (i + 1)) l +
        b k (i + 1) • ∑ j : Fin l, (b l (j + 1) * w (i + 1) (j + 1)) • quotB2 b A w (k - (i + 1)) (l - (j + 1))))
termination_by k + l
decreasing_by all_goals omega

theorem quotB2_eq (b : ℕ → ℕ → K) (A : ℕ → ℕ → V) (w : ℕ → ℕ → K) (k l : ℕ) :
    quotB2 b A w k l = (w 0 0)⁻¹ • (A k l
    - (∑ j ∈ Finset.range l, (b l (j + 1) * w 0 (j + 1)) • quotB2 b A w k (l - (j + 1)))
    - ∑ i ∈ Finset.range k, ((b k (i + 1) * w (i + 1) 0) • quotB2 b A w (k - (i + 1)) l +
        b k (i + 1) • ∑ j ∈ Finset.range l, (b l (j + 1) * w (i + 1) (j + 1)) • quotB2 b A w (k - (i + 1)) (l - (j + 1)))) := by
  rw [quotB2, Finset.sum_range, Finset.sum_range]
  simp only [Finset.sum_range]

/-- Leibniz rule for `w * S = A`. -/
theorem quotB2_rule {b : ℕ → ℕ → K} {A : ℕ → ℕ → V} {w : ℕ → ℕ → K} (hw : w 0 0 ≠ 0) (k l : ℕ) (hk : b k 0 = 1)
    (hl : b l 0 = 1) :
    ∑ i ∈ Finset.range (k + 1), ∑ j ∈ Finset.range (l + 1), (b k i * b l j * w i j) • quotB2 b A w (k - i) (l - j) = A k l := by
  rw [Finset.sum_range_succ']
  have e1 : ∀ i, ∑ j ∈ Finset.range (l + 1), (b k (i+1) * b l j * w (i+1) j) • quotB2 b A w (k - (i+1)) (l - j) =
      (b k (i + 1) * w (i + 1) 0) • quotB2 b A w (k - (i + 1)) l +
        b k (i + 1) • ∑ j ∈ Finset.range l, (b l (j + 1) * w (i + 1) (j + 1)) • quotB2 b A w (k - (i + 1)) (l - (j + 1)) := by
    intro i
    rw [Finset.sum_range_succ', hl, mul_one, Nat.sub_zero, add_comm, Finset.smul_sum]
    congr 1
    apply Finset.sum_congr rfl
    intro j _
    rw [smul_smul, mul_assoc]
  rw [Finset.sum_congr rfl (fun i _ => e1 i), Finset.sum_range_succ' _ l, hk, hl]
  simp only [one_mul, Nat.sub_zero]
  conv_lhs => enter [2, 2]; rw [quotB2_eq, smul_smul, mul_inv_cancel₀ hw, one_smul]
  abel

theorem quotB2_unique {b : ℕ → ℕ → K} {A : ℕ → ℕ → V} {w : ℕ → ℕ → K} (hw : w 0 0 ≠ 0) (D E : ℕ) (hb : ∀ d, d ≤ D ∨ d ≤ E → b d 0 = 1)
    {C : ℕ → ℕ → V} (hC : ∀ k l, k ≤ D → l ≤ E → ∑ i ∈ Finset.range (k + 1), ∑ j ∈ Finset.range (l + 1),
      (b k i * b l j * w i j) • C (k - i) (l - j) = A k l) :
    ∀ k l, k ≤ D → l ≤ E → C k l = quotB2 b A w k l := by
  have main : ∀ s k l, k + l = s → k ≤ D → l ≤ E → C k l = quotB2 b A w k l := by
    intro s
    induction s using Nat.strong_induction_on with
    | _ s ih =>
      intro k l hs hk hl
      have h1 := hC k l hk hl
      rw [← quotB2_rule (A := A) hw k l (hb k (Or.inl hk)) (hb l (Or.inr hl))] at h1
      rw [Finset.sum_range_succ', Finset.sum_range_succ' _ k] at h1
      rw [Finset.sum_congr rfl (fun i hi => Finset.sum_congr rfl (fun j _ => by
        rw [ih (k - (i+1) + (l - j)) (by have := Finset.mem_range.mp hi; omega) (k - (i+1)) (l - j) rfl (by omega) (by omega)]))] at h1
      have h2 := add_left_cancel h1
      rw [Finset.sum_range_succ', Finset.sum_range_succ' _ l] at h2
      rw [Finset.sum_congr rfl (fun j hj => by
        rw [ih (k - 0 + (l - (j+1))) (by have := Finset.mem_range.mp hj; omega) (k - 0) (l - (j+1)) rfl (by omega) (by omega)])] at h2
      have h3 := add_left_cancel h2
      rw [hb k (Or.inl hk), hb l (Or.inr hl), one_mul, one_mul, Nat.sub_zero, Nat.sub_zero] at h3
      exact smul_right_injective V hw h3
  exact fun k l => main (k + l) k l rfl

theorem ratSurfEntry_spec {A : List (V × K)} {a : ℕ → ℕ → V × K} {k l nv nu : ℕ} (hk : k ≤ nu) (hl : l ≤ nv) (hk6 : k ≤ 60) (hl6 : l ≤ 60)
    (hA : ∀ x y, x ≤ nu → y ≤ nv → A[x * (nv + 1) + y]? = some (a x y)) (hw : (a 0 0).2 ≠ 0) {S : List V}
    (hlen : k * (nv + 1) + l < S.length)
    (h1 : ∀ x' y', x' < k → y' ≤ nv → S[x' * (nv + 1) + y']? = some (quotB2 (bU K) (fun x y => (a x y).1) (fun x y => (a x y).2) x' y'))
    (h2 : ∀ y', y' < l → S[k * (nv + 1) + y']? = some (quotB2 (bU K) (fun x y => (a x y).1) (fun x y => (a x y).2) k y')) :
    ratSurfEntry A (a 0 0).2 (nv + 1) k l S = .ok (S.set (k * (nv + 1) + l)
      (quotB2 (bU K) (fun x y => (a x y).1) (fun x y => (a x y).2) k l)) := by
  unfold ratSurfEntry
  rw [rd_eq_ok.mpr (hA k l hk hl), R_bind_ok]
  rw [forLe_sub (g := fun j => (bU K l j * (a 0 j).2) • quotB2 (bU K) (fun x y => (a x y).1) (fun x y => (a x y).2) k (l - j))]
  · rw [R_bind_ok]
    rw [forLe_sub (g := fun i => (bU K k i * (a i 0).2) • quotB2 (bU K) (fun x y => (a x y).1) (fun x y => (a x y).2) (k - i) l +
        bU K k i • ∑ j ∈ Finset.range l, (bU K l (j+1) * (a i (j+1)).2) • quotB2 (bU K) (fun x y => (a x y).1) (fun x y => (a x y).2) (k - i) (l - (j+1)))]
    · rw [R_bind_ok, vdiv_ok hw, R_bind_ok, wr_ok hlen, quotB2_eq]
    · intro i s g1 g2
      have hi0 := hA i 0 (by omega) (by omega)
      rw [Nat.add_zero] at hi0
      rw [binomialU_ok hk6 g2, R_bind_ok, rd_eq_ok.mpr hi0, R_bind_ok,
        rd_eq_ok.mpr (h1 (k - i) l (by omega) hl), R_bind_ok]
      simp only
      rw [forLe_sum (g := fun j => (bU K l j * (a i j).2) • quotB2 (bU K) (fun x y => (a x y).1) (fun x y => (a x y).2) (k - i) (l - j))]
      · rw [R_bind_ok, R_pure]
        congr 1
        rw [sub_sub, Nat.add_sub_cancel]
        simp only [Nat.add_comm 1]
      · intro j s' g3 g4
        rw [binomialU_ok hl6 g4, R_bind_ok, rd_eq_ok.mpr (hA i j (by omega) (by omega)), R_bind_ok,
          rd_eq_ok.mpr (h1 (k - i) (l - j) (by omega) (by omega)), R_bind_ok]
        rfl
  · intro j s g1 g2
    have h0j := hA 0 j (by omega) (by omega)
    rw [Nat.zero_mul, Nat.zero_add] at h0j
    rw [binomialU_ok hl6 g2, R_bind_ok, rd_eq_ok.mpr h0j, R_bind_ok,
      rd_eq_ok.mpr (h2 (l - j) (by omega)), R_bind_ok]
    rfl

theorem evalRatSurfDers_spec {eps junk u v : K} {U W : List K} {P : List (V × K)} {p q nU nV : ℕ} (hU : KWf p U nU) (hW : KWf q W nV)
    (hP : P.length = nU * nV) (hok : SurfEvalOk eps p q U W nU nV u v) (nu nv : ℕ) {i j : ℕ} (hu6 : nu ≤ 60) (hv6 : nv ≤ 60)
    (hi : findSpan nU p u U = .ok i) (hj : findSpan nV q v W = .ok j) (SKL0 : List V)
    (hlen : (nu + 1) * (nv + 1) ≤ SKL0.length) {a : ℕ → ℕ → V × K}
    (ha : a = fun x y => surfDer (kf U) nU p i (kf W) nV q j (pf P) x y u v) (hw : (a 0 0).2 ≠ 0) :
    ∃ S, evalRatSurfDers eps junk u v U W P p q nu nv SKL0 = .ok S ∧ S.length = SKL0.length ∧
      ∀ x y, x ≤ nu → y ≤ nv → S[x * (nv + 1) + y]? =
        some (quotB2 (bU K) (fun x y => (a x y).1) (fun x y => (a x y).2) x y) := by
  unfold evalRatSurfDers
  simp only
  obtain ⟨A, e, -, hA⟩ := evalSurfDers_spec (junk := junk) hU hW hP hok nu nv hi hj
    (if nu ≤ stackMaxDegree ∧ nv ≤ stackMaxDegree
      then List.replicate ((stackMaxDegree + 1) * (stackMaxDegree + 1)) ((0 : V), junk)
      else List.replicate ((nu + 1) * (nv + 1)) ((0 : V), (0 : K))) (by
      split
      · rename_i h
        rw [List.length_replicate]
        exact Nat.mul_le_mul (by omega) (by omega)
      · simp)
  rw [e, R_bind_ok]
  have hA' : ∀ x y, x ≤ nu → y ≤ nv → A[x * (nv + 1) + y]? = some (a x y) := by
    intro x y hx hy
    rw [hA x y hx hy, ha]
  have h00 := hA' 0 0 (by omega) (by omega)
  simp only [Nat.zero_mul, Nat.add_zero] at h00
  rw [rd_eq_ok.mpr h00, R_bind_ok]
  have hlen' : nu * (nv + 1) + nv < SKL0.length := by
    have : (nu + 1) * (nv + 1) = nu * (nv + 1) + nv + 1 := by ring
    omega
  obtain ⟨S, g1, g2, g3, -⟩ := nested_fill (A := nu) (B := nv) (s := nv + 1) (S0 := SKL0)
      (body := fun k l S => ratSurfEntry A (a 0 0).2 (nv + 1) k l S)
      (by omega) (g := fun k l => quotB2 (bU K) (fun x y => (a x y).1) (fun x y => (a x y).2) k l) hlen' (by
        intro x y S hx hy hl hS k1 k2
        have := Nat.mul_le_mul_right (nv + 1) (show x ≤ nu by omega)
        exact ratSurfEntry_spec hx hy (by omega) (by omega) hA' hw (by omega) k1 k2)
  exact ⟨S, g1, g2, g3⟩

end Gbs
