import Verif.Model.Extrema
import Verif.Props.Ranges
import Verif.Props.Transform
import Verif.Lemmas.OkInv
import Mathlib.Analysis.Calculus.Deriv.Add
import Mathlib.Analysis.Calculus.Deriv.Mul
import Mathlib.Analysis.Calculus.Deriv.Prod
import Mathlib.Analysis.Calculus.Deriv.Pow
import Mathlib.Analysis.Calculus.Deriv.Inv

/-!
# C103: nearest points of curves and surfaces
-/

set_option linter.unusedSectionVars false

namespace Gbs

variable {K : Type} [Field K] [LinearOrder K]

/-- The square of the distance of two points. -/
def Spec.distSq {n : ℕ} (P Q : Fin n → K) : K := ∑ i, (P i - Q i) ^ 2

/-- The parameters are between the lower and the upper bounds, one by one. -/
def Spec.Box (x lb hb : List K) : Prop := List.Forall₂ (· ≤ ·) lb x ∧ List.Forall₂ (· ≤ ·) x hb

/-- What is assumed of the minimisation: started inside the bounds, it answers when the objective and its gradient can be evaluated there; the answer is a
place inside the bounds with the value of the objective, not larger than at the start. -/
def Spec.Solver (opt : Nlopt K) : Prop :=
  ∀ F G x0 lb hb tol, Spec.Box x0 lb hb →
    (∀ x m, opt F G x0 lb hb tol = .ok (x, m) → Spec.Box x lb hb ∧ F x = .ok m ∧ ∀ m0, F x0 = .ok m0 → m ≤ m0) ∧
    ((∀ x, Spec.Box x lb hb → (∃ m, F x = .ok m) ∧ ∃ g, G x = .ok g) → ∃ x m, opt F G x0 lb hb tol = .ok (x, m))

/-- The curve can be evaluated, with its derivative, between its bounds. -/
def Spec.Defined {V : Type} (c : ACurve K V) : Prop := ∀ u, c.b0 ≤ u → u ≤ c.b1 → ∀ d, d ≤ 1 → ∃ P, c.value u d = .ok P

/-- The surface can be evaluated, with its derivatives of order 1, between its bounds. -/
def Spec.DefinedS {V : Type} (s : ASurface K V) : Prop :=
  ∀ u v, s.u0 ≤ u → u ≤ s.u1 → s.v0 ≤ v → v ≤ s.v1 → ∀ a b, a + b ≤ 1 → ∃ P, s.value u v a b = .ok P

theorem inBox_iff : ∀ {x lb hb : List K}, inBox x lb hb = true ↔ Spec.Box x lb hb
  | x :: xs, a :: as, b :: bs => by
    rw [inBox, Bool.and_eq_true, inBox_iff, Bool.and_eq_true, Bool.and_eq_true, decide_eq_true_eq, decide_eq_true_eq, decide_eq_true_eq]
    constructor
    · rintro ⟨⟨⟨-, h1⟩, h2⟩, h3, h4⟩
      exact ⟨.cons h1 h3, .cons h2 h4⟩
    · rintro ⟨h1, h2⟩
      cases h1 with | cons h1 h3 => cases h2 with | cons h2 h4 => exact ⟨⟨⟨h1.trans h2, h1⟩, h2⟩, h3, h4⟩
  | [], [], [] => by simp [inBox, Spec.Box]
  | [], [], b :: bs => by
    refine ⟨fun h => by simp [inBox] at h, fun h => ?_⟩
    cases h.2
  | [], a :: as, hb => by
    refine ⟨fun h => by simp [inBox] at h, fun h => ?_⟩
    cases h.1
  | x :: xs, [], hb => by
    refine ⟨fun h => by simp [inBox] at h, fun h => ?_⟩
    cases h.1
  | x :: xs, a :: as, [] => by
    refine ⟨fun h => by simp [inBox] at h, fun h => ?_⟩
    cases h.2

theorem solveD_outside {opt : Nlopt K} {f g} {x lb hb : List K} {tol : K} (h : ¬ Spec.Box x lb hb) : solveD opt f g x lb hb tol = .error (.thrown .invalid) := by
  rw [solveD, if_neg (by rwa [inBox_iff])]

section ordered

variable [IsStrictOrderedRing K]

theorem sqNorm_distSq {n : ℕ} (P Q : Fin n → K) : sqNorm (P - Q) = Spec.distSq P Q := by
  unfold sqNorm Spec.distSq
  exact Finset.sum_congr rfl fun i _ => by rw [Pi.sub_apply, sq]

theorem distSq_comm {n : ℕ} (P Q : Fin n → K) : Spec.distSq P Q = Spec.distSq Q P := by
  unfold Spec.distSq
  exact Finset.sum_congr rfl fun i _ => by ring

theorem distSq_nonneg {n : ℕ} (P Q : Fin n → K) : 0 ≤ Spec.distSq P Q := Finset.sum_nonneg fun i _ => sq_nonneg _

/-- The objective of one value which is not negative. -/
theorem solveD_one {opt : Nlopt K} (ho : Spec.Solver opt) {f : List K → R (List K)} {g : List K → List K → R (List K)} {x0 lb hb : List K} (tol : K)
    (hb0 : Spec.Box x0 lb hb) {sqrt : K → K} (hs : ∀ y, 0 ≤ y → sqrt (y * y) = y)
    (hf : ∀ x, Spec.Box x lb hb → ∃ y, 0 ≤ y ∧ f x = .ok [y] ∧ ∃ z, g x [y] = .ok z) :
    ∃ x m, solveD opt f g x0 lb hb tol = .ok (x, m) ∧ Spec.Box x lb hb ∧ f x = .ok [sqrt m] ∧ ∀ y, f x0 = .ok [y] → sqrt m ≤ y := by
  have e : ∀ x y, f x = .ok [y] → (do let r ← f x; pure (r.map (fun a => a * a)).sum : R K) = .ok (y * y) := by
    intro x y h
    rw [h]
    simp [R_bind_ok, R_pure]
  unfold solveD
  rw [if_pos (inBox_iff.mpr hb0)]
  obtain ⟨h1, h2⟩ := ho (fun x => do
      let r ← f x
      pure (r.map (fun a => a * a)).sum)
      (fun x => do
        let r ← f x
        g x r) x0 lb hb tol hb0
  obtain ⟨x, m, hx⟩ := h2 (by
    intro x hx
    obtain ⟨y, -, hy, z, hz⟩ := hf x hx
    refine ⟨⟨_, e x y hy⟩, z, ?_⟩
    rw [hy, R_bind_ok]
    exact hz)
  obtain ⟨a1, a2, a3⟩ := h1 x m hx
  obtain ⟨y, y0, hy, -⟩ := hf x a1
  rw [e x y hy] at a2
  obtain rfl : y * y = m := Except.ok.inj a2
  refine ⟨x, _, hx, a1, by rw [hs y y0]; exact hy, fun w hw => ?_⟩
  have := a3 _ (e x0 w hw)
  rw [hs y y0]
  obtain ⟨w', w0, hw', -⟩ := hf x0 hb0
  rw [hw] at hw'
  obtain rfl : w = w' := by simpa using hw'
  exact (mul_self_le_mul_self_iff y0 w0).mpr this

theorem minElementFrom_spec {α : Type} {d : α → R K} : ∀ (l : List α) (a m : α), minElementFrom d a l = .ok m →
    m ∈ a :: l ∧ ∀ b ∈ a :: l, ∀ y x, d b = .ok y → d m = .ok x → x ≤ y
  | [], a, m, h => by
    cases h
    refine ⟨List.mem_cons_self, fun b hb y x h1 h2 => ?_⟩
    rw [List.mem_singleton] at hb
    subst hb
    rw [h1] at h2
    cases h2
    exact le_rfl
  | b :: l, a, m, h => by
    unfold minElementFrom at h
    obtain ⟨x, hx, h⟩ := R_bind_eq_ok.mp h
    obtain ⟨y, hy, h⟩ := R_bind_eq_ok.mp h
    split at h
    · rename_i hlt
      obtain ⟨h1, h2⟩ := minElementFrom_spec l b m h
      refine ⟨List.mem_cons_of_mem _ h1, fun c hc z w hz hw => ?_⟩
      rcases List.mem_cons.mp hc with rfl | hc
      · have : z = y := by rw [hz] at hy; exact Except.ok.inj hy
        subst this
        exact (h2 b List.mem_cons_self x w hx hw).trans hlt.le
      · exact h2 c hc z w hz hw
    · rename_i hlt
      obtain ⟨h1, h2⟩ := minElementFrom_spec l a m h
      refine ⟨?_, fun c hc z w hz hw => ?_⟩
      · rcases List.mem_cons.mp h1 with rfl | h1
        exacts [List.mem_cons_self, List.mem_cons_of_mem _ (List.mem_cons_of_mem _ h1)]
      · rcases List.mem_cons.mp hc with rfl | hc
        · exact h2 c List.mem_cons_self z w hz hw
        · rcases List.mem_cons.mp hc with rfl | hc
          · have : z = x := by rw [hz] at hx; exact Except.ok.inj hx
            subst this
            exact (h2 a List.mem_cons_self y w hy hw).trans (not_lt.mp hlt)
          · exact h2 c (List.mem_cons_of_mem _ hc) z w hz hw

theorem minElementFrom_ok {α : Type} {d : α → R K} : ∀ (l : List α) (a : α), (∀ b ∈ a :: l, ∃ x, d b = .ok x) → ∃ m, minElementFrom d a l = .ok m
  | [], a, _ => ⟨a, rfl⟩
  | b :: l, a, h => by
    obtain ⟨x, hx⟩ := h b (List.mem_cons_of_mem _ List.mem_cons_self)
    obtain ⟨y, hy⟩ := h a List.mem_cons_self
    rw [minElementFrom, hx, R_bind_ok, hy, R_bind_ok]
    split
    · exact minElementFrom_ok l b fun c hc => h c (List.mem_cons_of_mem _ hc)
    · refine minElementFrom_ok l a fun c hc => ?_
      rcases List.mem_cons.mp hc with rfl | hc
      exacts [⟨y, hy⟩, h c (List.mem_cons_of_mem _ (List.mem_cons_of_mem _ hc))]

theorem minElement_spec {α : Type} {d : α → R K} {l : List α} (hl : l ≠ []) (h : ∀ b ∈ l, ∃ x, d b = .ok x) :
    ∃ m x, minElement d l = .ok m ∧ m ∈ l ∧ d m = .ok x ∧ ∀ b ∈ l, ∀ y, d b = .ok y → x ≤ y := by
  cases l with
  | nil => exact absurd rfl hl
  | cons a l =>
    obtain ⟨m, hm⟩ := minElementFrom_ok l a h
    obtain ⟨h1, h2⟩ := minElementFrom_spec l a m hm
    obtain ⟨x, hx⟩ := h m h1
    exact ⟨m, x, hm, h1, hx, fun b hb y hy => h2 b hb y x hy hx⟩

/-- The place of a sample. -/
theorem sample_mem {a b : K} (hab : a ≤ b) {n : ℕ} {i : ℕ} (hn : 2 ≤ n) (hi : i < n) :
    a ≤ a + (i : K) * ((b - a) / ((n : K) - 1)) ∧ a + (i : K) * ((b - a) / ((n : K) - 1)) ≤ b := by
  have h1 : (0 : K) < (n : K) - 1 := by
    have : (2 : K) ≤ n := by exact_mod_cast hn
    linarith
  have h2 : (0 : K) ≤ i := by exact_mod_cast Nat.zero_le i
  have h3 : (i : K) ≤ (n : K) - 1 := by
    have : (i : K) + 1 ≤ n := by exact_mod_cast hi
    linarith
  constructor
  · have : 0 ≤ (i : K) * ((b - a) / ((n : K) - 1)) := mul_nonneg h2 (div_nonneg (by linarith) h1.le)
    linarith
  · have e : (i : K) * ((b - a) / ((n : K) - 1)) = (i : K) / ((n : K) - 1) * (b - a) := by ring
    have h4 : (i : K) / ((n : K) - 1) ≤ 1 := (div_le_one h1).mpr h3
    have h5 := mul_le_mul_of_nonneg_right h4 (sub_nonneg.mpr hab)
    rw [e]
    linarith

theorem box_one {x : List K} {a b : K} : Spec.Box x [a] [b] ↔ ∃ u, x = [u] ∧ a ≤ u ∧ u ≤ b := by
  constructor
  · rintro ⟨h1, h2⟩
    cases h1 with | cons h1 h3 => cases h3; cases h2 with | cons h2 h4 => exact ⟨_, rfl, h1, h2⟩
  · rintro ⟨u, rfl, h1, h2⟩
    exact ⟨.cons h1 .nil, .cons h2 .nil⟩

theorem box_two {x : List K} {a b a' b' : K} : Spec.Box x [a, a'] [b, b'] ↔ ∃ u v, x = [u, v] ∧ (a ≤ u ∧ u ≤ b) ∧ a' ≤ v ∧ v ≤ b' := by
  constructor
  · rintro ⟨h1, h2⟩
    cases h1 with | cons h1 h3 => cases h2 with | cons h2 h4 =>
      obtain ⟨v, rfl, h5, h6⟩ := box_one.mp ⟨h3, h4⟩
      exact ⟨_, v, rfl, ⟨h1, h2⟩, h5, h6⟩
  · rintro ⟨u, v, rfl, ⟨h1, h2⟩, h3, h4⟩
    exact ⟨.cons h1 (.cons h3 .nil), .cons h2 (.cons h4 .nil)⟩

theorem box_three {x : List K} {a b a' b' a'' b'' : K} :
    Spec.Box x [a, a', a''] [b, b', b''] ↔ ∃ u v w, x = [u, v, w] ∧ (a ≤ u ∧ u ≤ b) ∧ (a' ≤ v ∧ v ≤ b') ∧ a'' ≤ w ∧ w ≤ b'' := by
  constructor
  · rintro ⟨h1, h2⟩
    cases h1 with | cons h1 h3 => cases h2 with | cons h2 h4 =>
      obtain ⟨v, w, rfl, h5, h6⟩ := box_two.mp ⟨h3, h4⟩
      exact ⟨_, v, w, rfl, ⟨h1, h2⟩, h5, h6⟩
  · rintro ⟨u, v, w, rfl, ⟨h1, h2⟩, ⟨h3, h4⟩, h5, h6⟩
    exact ⟨.cons h1 (.cons h3 (.cons h5 .nil)), .cons h2 (.cons h4 (.cons h6 .nil))⟩

variable {n : ℕ} {sqrt : K → K} {opt : Nlopt K}

theorem curvePointF_one {c : ACurve K (Fin n → K)} {p : Fin n → K} {u : K} {P : Fin n → K} (h : c.value u 0 = .ok P) :
    curvePointF c p [u] = .ok [Spec.distSq P p] := by
  simp only [curvePointF, rd, List.getElem?_cons_zero, R_bind_ok, h, sqNorm_distSq]
  rfl

theorem surfPointF_one {s : ASurface K (Fin n → K)} {p : Fin n → K} {u v : K} {P : Fin n → K} (h : s.value u v 0 0 = .ok P) :
    surfPointF s p [u, v] = .ok [Spec.distSq P p] := by
  simp only [surfPointF, rd, List.getElem?_cons_zero, List.getElem?_cons_succ, R_bind_ok, h, sqNorm_distSq]
  rfl

theorem curveCurveF_one {c c' : ACurve K (Fin n → K)} {u v : K} {P Q : Fin n → K} (h : c.value u 0 = .ok P) (h' : c'.value v 0 = .ok Q) :
    curveCurveF c c' [u, v] = .ok [Spec.distSq P Q] := by
  simp only [curveCurveF, rd, List.getElem?_cons_zero, List.getElem?_cons_succ, R_bind_ok, h, h', sqNorm_distSq]
  rfl

theorem surfCurveF_one {s : ASurface K (Fin n → K)} {c : ACurve K (Fin n → K)} {w u v : K} {P Q : Fin n → K} (h : c.value w 0 = .ok P) (h' : s.value u v 0 0 = .ok Q) :
    surfCurveF s c [w, u, v] = .ok [Spec.distSq P Q] := by
  simp only [surfCurveF, rd, List.getElem?_cons_zero, List.getElem?_cons_succ, R_bind_ok, h, h', sqNorm_distSq]
  rfl

/-- **C103** (partial: the number returned is the square of the distance): the point of a curve found from a first value between the bounds is between them, and
not farther than the point of this value; outside of the bounds it is refused. -/
theorem C103_curve_point_from_partial (hs : ∀ y, 0 ≤ y → sqrt (y * y) = y) (ho : Spec.Solver opt) {c : ACurve K (Fin n → K)} (hv : Spec.Defined c) (p : Fin n → K)
    (u0 tol : K) :
    (c.b0 ≤ u0 → u0 ≤ c.b1 → ∃ u d P, extremaCurvePointFrom sqrt opt c p u0 tol = .ok (u, d) ∧ c.b0 ≤ u ∧ u ≤ c.b1 ∧ c.value u 0 = .ok P ∧
      d = Spec.distSq P p ∧ ∀ Q, c.value u0 0 = .ok Q → d ≤ Spec.distSq Q p) ∧
    (u0 < c.b0 ∨ c.b1 < u0 → extremaCurvePointFrom sqrt opt c p u0 tol = .error (.thrown .invalid)) := by
  constructor
  · intro h0 h1
    obtain ⟨x, m, hx, hbx, hfx, hle⟩ := solveD_one (f := curvePointF c p) (g := curvePointG c p) ho (tol * tol) (box_one.mpr ⟨u0, rfl, h0, h1⟩) hs (by
      intro x hx
      obtain ⟨u, rfl, b0, b1⟩ := box_one.mp hx
      obtain ⟨P, hP⟩ := hv u b0 b1 0 (by omega)
      obtain ⟨P1, hP1⟩ := hv u b0 b1 1 le_rfl
      refine ⟨_, distSq_nonneg P p, curvePointF_one hP, ?_⟩
      simp only [curvePointG, rd, List.getElem?_cons_zero, R_bind_ok, hP, hP1]
      exact ⟨_, rfl⟩)
    obtain ⟨u, rfl, b0, b1⟩ := box_one.mp hbx
    obtain ⟨P, hP⟩ := hv u b0 b1 0 (by omega)
    rw [curvePointF_one hP] at hfx
    have hd : Spec.distSq P p = sqrt m := by simpa using hfx
    refine ⟨u, sqrt m, P, ?_, b0, b1, hP, hd.symm, fun Q hQ => hle _ (curvePointF_one hQ)⟩
    unfold extremaCurvePointFrom
    rw [hx]
    rfl
  · intro h
    unfold extremaCurvePointFrom
    rw [solveD_outside]
    · rfl
    · intro hb
      obtain ⟨u, hu, b0, b1⟩ := box_one.mp hb
      obtain rfl : u0 = u := by simpa using hu
      rcases h with h | h
      exacts [not_lt.mpr b0 h, not_lt.mpr b1 h]

/-- The samples of a range are those of `C33_make_range`. -/
theorem range_spec {a b : K} {nb : ℕ} (h2 : 2 ≤ nb) : ∃ us, makeRange a b nb = .ok us ∧ us ≠ [] ∧
    ∀ x, x ∈ us ↔ ∃ i, i < nb ∧ x = a + (i : K) * ((b - a) / ((nb : K) - 1)) := by
  obtain ⟨us, h, hl, -, -, hg⟩ := (C33_make_range a b nb).2 h2
  refine ⟨us, h, fun he => ?_, fun x => ⟨fun hx => ?_, ?_⟩⟩
  · rw [he] at hl
    simp at hl
    omega
  · obtain ⟨i, hi, rfl⟩ := List.getElem_of_mem hx
    refine ⟨i, by omega, ?_⟩
    have := hg i (by omega)
    rw [List.getElem?_eq_getElem hi] at this
    simpa using this
  · rintro ⟨i, hi, rfl⟩
    exact List.mem_of_getElem? (hg i hi)

/-- **C103** (partial: the number returned is the square of the distance): the point found on a curve is between the bounds, and not farther than any of the
equally spaced samples; less than two samples are refused. -/
theorem C103_curve_point_partial (hs : ∀ y, 0 ≤ y → sqrt (y * y) = y) (ho : Spec.Solver opt) {c : ACurve K (Fin n → K)} (hb : c.b0 ≤ c.b1) (hv : Spec.Defined c)
    (p : Fin n → K) (tol : K) (nb : ℕ) :
    (2 ≤ nb → ∃ u d P, extremaCurvePoint sqrt opt c p tol nb = .ok (u, d) ∧ c.b0 ≤ u ∧ u ≤ c.b1 ∧ c.value u 0 = .ok P ∧ d = Spec.distSq P p ∧
      ∀ i, i < nb → ∀ Q, c.value (c.b0 + (i : K) * ((c.b1 - c.b0) / ((nb : K) - 1))) 0 = .ok Q → d ≤ Spec.distSq Q p) ∧
    (nb < 2 → extremaCurvePoint sqrt opt c p tol nb = .error (.thrown .length)) := by
  constructor
  · intro h2
    obtain ⟨us, hus, hne, hmem⟩ := range_spec (a := c.b0) (b := c.b1) h2
    have bnd : ∀ u ∈ us, c.b0 ≤ u ∧ u ≤ c.b1 := by
      intro u hu
      obtain ⟨i, hi, rfl⟩ := (hmem u).mp hu
      exact sample_mem hb h2 hi
    have hd : ∀ u P, c.value u 0 = .ok P → (do let P ← c.value u 0; pure (sqNorm (p - P)) : R K) = .ok (Spec.distSq P p) := by
      intro u P h
      rw [h, R_bind_ok, sqNorm_distSq, distSq_comm]
      rfl
    obtain ⟨m, x, h1, h3, h4, h5⟩ := minElement_spec (d := fun u => do let P ← c.value u 0; pure (sqNorm (p - P))) hne (by
      intro u hu
      obtain ⟨P, hP⟩ := hv u (bnd u hu).1 (bnd u hu).2 0 (by omega)
      exact ⟨_, hd u P hP⟩)
    obtain ⟨u, d, P, e1, e2, e3, e4, e5, e6⟩ := (C103_curve_point_from_partial hs ho hv p m tol).1 (bnd m h3).1 (bnd m h3).2
    refine ⟨u, d, P, ?_, e2, e3, e4, e5, fun i hi Q hQ => ?_⟩
    · unfold extremaCurvePoint
      rw [hus, R_bind_ok, h1, R_bind_ok, e1]
    · obtain ⟨M, hM⟩ := hv m (bnd m h3).1 (bnd m h3).2 0 (by omega)
      have hx : x = Spec.distSq M p := by
        have := hd m M hM
        rw [h4] at this
        exact Except.ok.inj this
      have := h5 _ ((hmem _).mpr ⟨i, hi, rfl⟩) _ (hd _ Q hQ)
      rw [hx] at this
      exact (e6 M hM).trans this
  · intro h
    unfold extremaCurvePoint
    rw [(C33_make_range _ _ _).1 h]
    rfl

/-- The place of sample `i` of `nb` between two bounds. -/
def Spec.sample (a b : K) (nb i : ℕ) : K := a + (i : K) * ((b - a) / ((nb : K) - 1))

theorem makeRange_get {a b : K} {nb i : ℕ} (h2 : 2 ≤ nb) (hi : i < nb) {U : List K} (hU : makeRange a b nb = .ok U) {x : K} (hx : U[i]? = some x) :
    x = Spec.sample a b nb i := by
  obtain ⟨us, h, -, -, -, hg⟩ := (C33_make_range a b nb).2 h2
  rw [hU] at h
  cases h
  have := hg i hi
  rw [hx] at this
  exact Option.some.inj this

theorem range2_spec {a b a' b' : K} {nu nv : ℕ} (hu : 2 ≤ nu) (hv : 2 ≤ nv) : ∃ g, makeRange2 a b a' b' nu nv = .ok g ∧ g ≠ [] ∧
    ∀ x, x ∈ g ↔ ∃ i j, i < nu ∧ j < nv ∧ x = (Spec.sample a b nu i, Spec.sample a' b' nv j) := by
  obtain ⟨g, h, hl, hg⟩ := (C33_make_range_2d a b a' b' nu nv).2 hu hv
  refine ⟨g, h, fun he => ?_, fun x => ⟨fun hx => ?_, ?_⟩⟩
  · rw [he, List.length_nil] at hl
    have := Nat.mul_pos (by omega : 0 < nu) (by omega : 0 < nv)
    omega
  · obtain ⟨k, hk, rfl⟩ := List.getElem_of_mem hx
    rw [hl] at hk
    have hi : k / nv < nu := Nat.div_lt_of_lt_mul (by rwa [Nat.mul_comm] at hk)
    have hj : k % nv < nv := Nat.mod_lt _ (by omega)
    obtain ⟨U, V, x, y, hU, hV, hx, hy, hxy⟩ := hg _ _ hi hj
    rw [Nat.mod_add_div, List.getElem?_eq_getElem (by omega)] at hxy
    refine ⟨_, _, hi, hj, ?_⟩
    rw [Option.some.inj hxy, makeRange_get hu hi hU hx, makeRange_get hv hj hV hy]
  · rintro ⟨i, j, hi, hj, rfl⟩
    obtain ⟨U, V, x, y, hU, hV, hx, hy, hxy⟩ := hg _ _ hi hj
    rw [makeRange_get hu hi hU hx, makeRange_get hv hj hV hy] at hxy
    exact List.mem_of_getElem? hxy

theorem range3_spec {a b a' b' a'' b'' : K} {nu nv nw : ℕ} (hu : 2 ≤ nu) (hv : 2 ≤ nv) (hw : 2 ≤ nw) : ∃ g, makeRange3 a b a' b' a'' b'' nu nv nw = .ok g ∧ g ≠ [] ∧
    ∀ x, x ∈ g ↔ ∃ i j k, i < nu ∧ j < nv ∧ k < nw ∧ x = (Spec.sample a b nu i, Spec.sample a' b' nv j, Spec.sample a'' b'' nw k) := by
  obtain ⟨g, h, hl, hg⟩ := (C33_make_range_3d a b a' b' a'' b'' nu nv nw).2 hu hv hw
  refine ⟨g, h, fun he => ?_, fun x => ⟨fun hx => ?_, ?_⟩⟩
  · rw [he, List.length_nil] at hl
    have := Nat.mul_pos (Nat.mul_pos (by omega : 0 < nu) (by omega : 0 < nv)) (by omega : 0 < nw)
    omega
  · obtain ⟨k, hk, rfl⟩ := List.getElem_of_mem hx
    rw [hl] at hk
    have hk' : k / nw < nu * nv := Nat.div_lt_of_lt_mul (by rwa [Nat.mul_comm] at hk)
    have hi : k / nw / nv < nu := Nat.div_lt_of_lt_mul (by rwa [Nat.mul_comm] at hk')
    have hj : k / nw % nv < nv := Nat.mod_lt _ (by omega)
    have hl' : k % nw < nw := Nat.mod_lt _ (by omega)
    obtain ⟨U, V, W, x, y, z, hU, hV, hW, hx, hy, hz, hxy⟩ := hg _ _ _ hi hj hl'
    rw [Nat.mod_add_div, Nat.mod_add_div, List.getElem?_eq_getElem (by omega)] at hxy
    refine ⟨_, _, _, hi, hj, hl', ?_⟩
    rw [Option.some.inj hxy, makeRange_get hu hi hU hx, makeRange_get hv hj hV hy, makeRange_get hw hl' hW hz]
  · rintro ⟨i, j, k, hi, hj, hk, rfl⟩
    obtain ⟨U, V, W, x, y, z, hU, hV, hW, hx, hy, hz, hxy⟩ := hg _ _ _ hi hj hk
    rw [makeRange_get hu hi hU hx, makeRange_get hv hj hV hy, makeRange_get hw hk hW hz] at hxy
    exact List.mem_of_getElem? hxy

/-- **C103** (partial: the number returned is the square of the distance): the point of a surface found from first values between the bounds is between them, and
not farther than the point of these values; outside of the bounds they are refused. -/
theorem C103_surf_point_from_partial (hs : ∀ y, 0 ≤ y → sqrt (y * y) = y) (ho : Spec.Solver opt) {s : ASurface K (Fin n → K)} (hv : Spec.DefinedS s) (p : Fin n → K)
    (u0 v0 tol : K) :
    (s.u0 ≤ u0 ∧ u0 ≤ s.u1 → s.v0 ≤ v0 ∧ v0 ≤ s.v1 → ∃ u v d P, extremaSurfPntFrom sqrt opt s p u0 v0 tol = .ok (u, v, d) ∧ (s.u0 ≤ u ∧ u ≤ s.u1) ∧
      (s.v0 ≤ v ∧ v ≤ s.v1) ∧ s.value u v 0 0 = .ok P ∧ d = Spec.distSq P p ∧ ∀ Q, s.value u0 v0 0 0 = .ok Q → d ≤ Spec.distSq Q p) ∧
    (¬ ((s.u0 ≤ u0 ∧ u0 ≤ s.u1) ∧ s.v0 ≤ v0 ∧ v0 ≤ s.v1) → extremaSurfPntFrom sqrt opt s p u0 v0 tol = .error (.thrown .invalid)) := by
  constructor
  · intro h0 h1
    obtain ⟨x, m, hx, hbx, hfx, hle⟩ := solveD_one (f := surfPointF s p) (g := surfPointG s p) ho (tol * tol) (box_two.mpr ⟨u0, v0, rfl, h0, h1⟩) hs (by
      intro x hx
      obtain ⟨u, v, rfl, b0, b1⟩ := box_two.mp hx
      obtain ⟨P, hP⟩ := hv u v b0.1 b0.2 b1.1 b1.2 0 0 (by omega)
      obtain ⟨Pu, hPu⟩ := hv u v b0.1 b0.2 b1.1 b1.2 1 0 (by omega)
      obtain ⟨Pv, hPv⟩ := hv u v b0.1 b0.2 b1.1 b1.2 0 1 (by omega)
      refine ⟨_, distSq_nonneg P p, surfPointF_one hP, ?_⟩
      simp only [surfPointG, rd, List.getElem?_cons_zero, List.getElem?_cons_succ, R_bind_ok, hP, hPu, hPv]
      exact ⟨_, rfl⟩)
    obtain ⟨u, v, rfl, b0, b1⟩ := box_two.mp hbx
    obtain ⟨P, hP⟩ := hv u v b0.1 b0.2 b1.1 b1.2 0 0 (by omega)
    rw [surfPointF_one hP] at hfx
    have hd : Spec.distSq P p = sqrt m := by simpa using hfx
    refine ⟨u, v, sqrt m, P, ?_, b0, b1, hP, hd.symm, fun Q hQ => hle _ (surfPointF_one hQ)⟩
    unfold extremaSurfPntFrom
    rw [hx]
    rfl
  · intro h
    unfold extremaSurfPntFrom
    rw [solveD_outside]
    · rfl
    · intro hb
      obtain ⟨u, v, hu, b⟩ := box_two.mp hb
      obtain ⟨rfl, rfl⟩ : u0 = u ∧ v0 = v := by simpa using hu
      exact h b

/-- **C103** (partial: the number returned is the square of the distance): the point found on a surface is between the bounds, and not farther than any of the
samples of the grid; less than two samples in a direction are refused. -/
theorem C103_surf_point_partial (hs : ∀ y, 0 ≤ y → sqrt (y * y) = y) (ho : Spec.Solver opt) {s : ASurface K (Fin n → K)} (hbu : s.u0 ≤ s.u1) (hbv : s.v0 ≤ s.v1)
    (hv : Spec.DefinedS s) (p : Fin n → K) (tol : K) (nu nv : ℕ) :
    (2 ≤ nu → 2 ≤ nv → ∃ u v d P, extremaSurfPnt sqrt opt s p tol nu nv = .ok (u, v, d) ∧ (s.u0 ≤ u ∧ u ≤ s.u1) ∧ (s.v0 ≤ v ∧ v ≤ s.v1) ∧
      s.value u v 0 0 = .ok P ∧ d = Spec.distSq P p ∧ ∀ i j, i < nu → j < nv → ∀ Q,
        s.value (Spec.sample s.u0 s.u1 nu i) (Spec.sample s.v0 s.v1 nv j) 0 0 = .ok Q → d ≤ Spec.distSq Q p) ∧
    (nu < 2 ∨ nv < 2 → extremaSurfPnt sqrt opt s p tol nu nv = .error (.thrown .length)) := by
  constructor
  · intro h2 h2'
    obtain ⟨us, hus, hne, hmem⟩ := range2_spec (a := s.u0) (b := s.u1) (a' := s.v0) (b' := s.v1) h2 h2'
    have bnd : ∀ x ∈ us, (s.u0 ≤ x.1 ∧ x.1 ≤ s.u1) ∧ s.v0 ≤ x.2 ∧ x.2 ≤ s.v1 := by
      intro u hu
      obtain ⟨i, j, hi, hj, rfl⟩ := (hmem u).mp hu
      exact ⟨sample_mem hbu h2 hi, sample_mem hbv h2' hj⟩
    have def0 : ∀ x ∈ us, ∃ P, s.value x.1 x.2 0 0 = .ok P := fun x hx => by
      obtain ⟨⟨a, b⟩, c, d⟩ := bnd x hx
      exact hv _ _ a b c d 0 0 (by omega)
    have hd : ∀ (x : K × K) P, s.value x.1 x.2 0 0 = .ok P → (do let P ← s.value x.1 x.2 0 0; pure (sqNorm (p - P)) : R K) = .ok (Spec.distSq P p) := by
      intro u P h
      rw [h, R_bind_ok, sqNorm_distSq, distSq_comm]
      rfl
    obtain ⟨m, x, h1, h3, h4, h5⟩ := minElement_spec (d := fun x : K × K => do let P ← s.value x.1 x.2 0 0; pure (sqNorm (p - P))) hne (by
      intro u hu
      obtain ⟨P, hP⟩ := def0 u hu
      exact ⟨_, hd u P hP⟩)
    obtain ⟨u, v, d, P, e1, e2, e3, e4, e5, e6⟩ := (C103_surf_point_from_partial hs ho hv p m.1 m.2 tol).1 (bnd m h3).1 (bnd m h3).2
    refine ⟨u, v, d, P, ?_, e2, e3, e4, e5, fun i j hi hj Q hQ => ?_⟩
    · unfold extremaSurfPnt
      rw [hus, R_bind_ok, h1, R_bind_ok, e1]
    · obtain ⟨M, hM⟩ := def0 m h3
      have hx : x = Spec.distSq M p := by
        have := hd m M hM
        rw [h4] at this
        exact Except.ok.inj this
      have := h5 _ ((hmem _).mpr ⟨i, j, hi, hj, rfl⟩) _ (hd (_, _) Q hQ)
      rw [hx] at this
      exact (e6 M hM).trans this
  · intro h
    unfold extremaSurfPnt
    rw [(C33_make_range_2d _ _ _ _ _ _).1 h]
    rfl

/-- **C103** (partial: the number returned is the square of the distance): the points of two curves found from first values between the bounds are between them,
and not farther from each other than those of these values; outside of the bounds they are refused. -/
theorem C103_curves_from_partial (hs : ∀ y, 0 ≤ y → sqrt (y * y) = y) (ho : Spec.Solver opt) {c c' : ACurve K (Fin n → K)} (hv : Spec.Defined c) (hv' : Spec.Defined c')
    (u0 v0 tol : K) :
    (c.b0 ≤ u0 ∧ u0 ≤ c.b1 → c'.b0 ≤ v0 ∧ v0 ≤ c'.b1 → ∃ u v d P Q, extremaCurveCurveFrom sqrt opt c c' u0 v0 tol = .ok (u, v, d) ∧ (c.b0 ≤ u ∧ u ≤ c.b1) ∧
      (c'.b0 ≤ v ∧ v ≤ c'.b1) ∧ c.value u 0 = .ok P ∧ c'.value v 0 = .ok Q ∧ d = Spec.distSq P Q ∧
      ∀ P0 Q0, c.value u0 0 = .ok P0 → c'.value v0 0 = .ok Q0 → d ≤ Spec.distSq P0 Q0) ∧
    (¬ ((c.b0 ≤ u0 ∧ u0 ≤ c.b1) ∧ c'.b0 ≤ v0 ∧ v0 ≤ c'.b1) → extremaCurveCurveFrom sqrt opt c c' u0 v0 tol = .error (.thrown .invalid)) := by
  constructor
  · intro h0 h1
    obtain ⟨x, m, hx, hbx, hfx, hle⟩ := solveD_one (f := curveCurveF c c') (g := curveCurveG c c') ho (tol * tol) (box_two.mpr ⟨u0, v0, rfl, h0, h1⟩) hs (by
      intro x hx
      obtain ⟨u, v, rfl, b0, b1⟩ := box_two.mp hx
      obtain ⟨P, hP⟩ := hv u b0.1 b0.2 0 (by omega)
      obtain ⟨Q, hQ⟩ := hv' v b1.1 b1.2 0 (by omega)
      obtain ⟨P1, hP1⟩ := hv u b0.1 b0.2 1 (by omega)
      obtain ⟨Q1, hQ1⟩ := hv' v b1.1 b1.2 1 (by omega)
      refine ⟨_, distSq_nonneg P Q, curveCurveF_one hP hQ, ?_⟩
      simp only [curveCurveG, rd, List.getElem?_cons_zero, List.getElem?_cons_succ, R_bind_ok, hP, hQ, hP1, hQ1]
      exact ⟨_, rfl⟩)
    obtain ⟨u, v, rfl, b0, b1⟩ := box_two.mp hbx
    obtain ⟨P, hP⟩ := hv u b0.1 b0.2 0 (by omega)
    obtain ⟨Q, hQ⟩ := hv' v b1.1 b1.2 0 (by omega)
    rw [curveCurveF_one hP hQ] at hfx
    have hd : Spec.distSq P Q = sqrt m := by simpa using hfx
    refine ⟨u, v, sqrt m, P, Q, ?_, b0, b1, hP, hQ, hd.symm, fun P0 Q0 h h' => hle _ (curveCurveF_one h h')⟩
    unfold extremaCurveCurveFrom
    rw [hx]
    rfl
  · intro h
    unfold extremaCurveCurveFrom
    rw [solveD_outside]
    · rfl
    · intro hb
      obtain ⟨u, v, hu, b⟩ := box_two.mp hb
      obtain ⟨rfl, rfl⟩ : u0 = u ∧ v0 = v := by simpa using hu
      exact h b

/-- The two loops keep the first of the least pairs. -/
theorem bestPair_row {d : K → K → R K} {u : K} : ∀ (vs : List K) (s : K × K × K), (∀ v ∈ vs, ∃ x, d u v = .ok x) →
    ∃ s', vs.foldlM (fun s v => do
      let x ← d u v
      pure (if x < s.1 then (x, u, v) else s)) s = .ok s' ∧ s'.1 ≤ s.1 ∧ (s' = s ∨ ∃ v ∈ vs, s'.2 = (u, v) ∧ d u v = .ok s'.1) ∧
      ∀ v ∈ vs, ∀ x, d u v = .ok x → s'.1 ≤ x
  | [], s, _ => ⟨s, rfl, le_rfl, Or.inl rfl, fun v hv => absurd hv List.not_mem_nil⟩
  | v :: vs, s, h => by
    obtain ⟨x, hx⟩ := h v List.mem_cons_self
    obtain ⟨s', h1, h2, h3, h4⟩ := bestPair_row vs (if x < s.1 then (x, u, v) else s) fun w hw => h w (List.mem_cons_of_mem _ hw)
    have hle : s'.1 ≤ s.1 ∧ s'.1 ≤ x := by
      split at h2
      · rename_i hlt; exact ⟨h2.trans hlt.le, h2⟩
      · rename_i hlt; exact ⟨h2, h2.trans (not_lt.mp hlt)⟩
    refine ⟨s', ?_, hle.1, ?_, fun w hw y hy => ?_⟩
    · rw [List.foldlM_cons, hx, R_bind_ok, R_pure, R_bind_ok]
      exact h1
    · rcases h3 with h3 | ⟨w, hw, h3⟩
      · split at h3
        · exact Or.inr ⟨v, List.mem_cons_self, by rw [h3], by rw [h3]; exact hx⟩
        · exact Or.inl h3
      · exact Or.inr ⟨w, List.mem_cons_of_mem _ hw, h3⟩
    · rcases List.mem_cons.mp hw with rfl | hw
      · rw [hx] at hy
        cases hy
        exact hle.2
      · exact h4 w hw y hy

theorem bestPair_spec {d : K → K → R K} {vs : List K} : ∀ (us : List K) (s : K × K × K), (∀ u ∈ us, ∀ v ∈ vs, ∃ x, d u v = .ok x) →
    ∃ s', bestPair d us vs s = .ok s' ∧ s'.1 ≤ s.1 ∧ (s' = s ∨ ∃ u ∈ us, ∃ v ∈ vs, s'.2 = (u, v) ∧ d u v = .ok s'.1) ∧
      ∀ u ∈ us, ∀ v ∈ vs, ∀ x, d u v = .ok x → s'.1 ≤ x
  | [], s, _ => ⟨s, rfl, le_rfl, Or.inl rfl, fun v hv => absurd hv List.not_mem_nil⟩
  | u :: us, s, h => by
    obtain ⟨s1, a1, a2, a3, a4⟩ := bestPair_row vs s (h u List.mem_cons_self)
    obtain ⟨s', h1, h2, h3, h4⟩ := bestPair_spec us s1 fun w hw => h w (List.mem_cons_of_mem _ hw)
    refine ⟨s', ?_, h2.trans a2, ?_, fun w hw v hv y hy => ?_⟩
    · rw [bestPair, List.foldlM_cons, a1, R_bind_ok]
      exact h1
    · rcases h3 with h3 | ⟨w, hw, h3⟩
      · rcases a3 with a3 | ⟨v, hv, a3⟩
        · exact Or.inl (h3.trans a3)
        · exact Or.inr ⟨u, List.mem_cons_self, v, hv, by rw [h3]; exact a3⟩
      · exact Or.inr ⟨w, List.mem_cons_of_mem _ hw, h3⟩
    · rcases List.mem_cons.mp hw with rfl | hw
      · exact h2.trans (a4 v hv y hy)
      · exact h4 w hw v hv y hy

/-- **C103** (partial: the number returned is the square of the distance): the points found on two curves are between the bounds, and not farther from each other
than any two samples, when two of them are nearer than the largest number. Less than two samples are refused. -/
theorem C103_curves_partial (hs : ∀ y, 0 ≤ y → sqrt (y * y) = y) (ho : Spec.Solver opt) {c c' : ACurve K (Fin n → K)} (hb : c.b0 ≤ c.b1) (hb' : c'.b0 ≤ c'.b1)
    (hv : Spec.Defined c) (hv' : Spec.Defined c') (big tol : K) (nu nv : ℕ) :
    (2 ≤ nu → 2 ≤ nv → (∃ i j P Q, i < nu ∧ j < nv ∧ c.value (Spec.sample c.b0 c.b1 nu i) 0 = .ok P ∧ c'.value (Spec.sample c'.b0 c'.b1 nv j) 0 = .ok Q ∧
        Spec.distSq P Q < big) →
      ∃ u v d P Q, extremaCurveCurve sqrt big opt c c' tol nu nv = .ok (u, v, d) ∧ (c.b0 ≤ u ∧ u ≤ c.b1) ∧
        (c'.b0 ≤ v ∧ v ≤ c'.b1) ∧ c.value u 0 = .ok P ∧ c'.value v 0 = .ok Q ∧ d = Spec.distSq P Q ∧ ∀ i j, i < nu → j < nv → ∀ P0 Q0,
          c.value (Spec.sample c.b0 c.b1 nu i) 0 = .ok P0 → c'.value (Spec.sample c'.b0 c'.b1 nv j) 0 = .ok Q0 → d ≤ Spec.distSq P0 Q0) ∧
    (nu < 2 ∨ nv < 2 → extremaCurveCurve sqrt big opt c c' tol nu nv = .error (.thrown .length)) := by
  constructor
  · rintro h2 h2' ⟨i0, j0, P0, Q0, hi0, hj0, hP0, hQ0, hbig⟩
    obtain ⟨us, hus, -, hmem⟩ := range_spec (a := c.b0) (b := c.b1) h2
    obtain ⟨vs, hvs, -, hmem'⟩ := range_spec (a := c'.b0) (b := c'.b1) h2'
    have bnd : ∀ u ∈ us, c.b0 ≤ u ∧ u ≤ c.b1 := by
      intro u hu
      obtain ⟨i, hi, rfl⟩ := (hmem u).mp hu
      exact sample_mem hb h2 hi
    have bnd' : ∀ u ∈ vs, c'.b0 ≤ u ∧ u ≤ c'.b1 := by
      intro u hu
      obtain ⟨i, hi, rfl⟩ := (hmem' u).mp hu
      exact sample_mem hb' h2' hi
    have hd : ∀ u v P Q, c.value u 0 = .ok P → c'.value v 0 = .ok Q →
        (do let P ← c.value u 0; let Q ← c'.value v 0; pure (sqNorm (P - Q)) : R K) = .ok (Spec.distSq P Q) := by
      intro u v P Q h h'
      rw [h, R_bind_ok, h', R_bind_ok, sqNorm_distSq]
      rfl
    obtain ⟨s, a1, -, a3, a4⟩ := bestPair_spec (d := fun u v => do let P ← c.value u 0; let Q ← c'.value v 0; pure (sqNorm (P - Q))) (vs := vs) us (big, 0, 0) (by
      intro u hu v hv0
      obtain ⟨P, hP⟩ := hv u (bnd u hu).1 (bnd u hu).2 0 (by omega)
      obtain ⟨Q, hQ⟩ := hv' v (bnd' v hv0).1 (bnd' v hv0).2 0 (by omega)
      exact ⟨_, hd u v P Q hP hQ⟩)
    have m0 := (hmem _).mpr ⟨i0, hi0, rfl⟩
    have m0' := (hmem' _).mpr ⟨j0, hj0, rfl⟩
    have hlt : s.1 < big := (a4 _ m0 _ m0' _ (hd _ _ _ _ hP0 hQ0)).trans_lt hbig
    obtain ⟨u0, hu0, v0, hv0, e, hval⟩ : ∃ u ∈ us, ∃ v ∈ vs, s.2 = (u, v) ∧
        (do let P ← c.value u 0; let Q ← c'.value v 0; pure (sqNorm (P - Q)) : R K) = .ok s.1 := by
      rcases a3 with a3 | a3
      · rw [a3] at hlt
        exact absurd hlt (lt_irrefl _)
      · exact a3
    obtain ⟨u, v, d, P, Q, e1, e2, e3, e4, e5, e6, e7⟩ := (C103_curves_from_partial hs ho hv hv' u0 v0 tol).1 (bnd _ hu0) (bnd' _ hv0)
    refine ⟨u, v, d, P, Q, ?_, e2, e3, e4, e5, e6, fun i j hi hj P1 Q1 hP1 hQ1 => ?_⟩
    · unfold extremaCurveCurve
      rw [hus, R_bind_ok, hvs, R_bind_ok, a1, R_bind_ok, e, e1]
    · obtain ⟨P2, hP2⟩ := hv u0 (bnd u0 hu0).1 (bnd u0 hu0).2 0 (by omega)
      obtain ⟨Q2, hQ2⟩ := hv' v0 (bnd' v0 hv0).1 (bnd' v0 hv0).2 0 (by omega)
      rw [hd u0 v0 P2 Q2 hP2 hQ2] at hval
      have := a4 _ ((hmem _).mpr ⟨i, hi, rfl⟩) _ ((hmem' _).mpr ⟨j, hj, rfl⟩) _ (hd _ _ P1 Q1 hP1 hQ1)
      rw [← Except.ok.inj hval] at this
      exact (e7 P2 Q2 hP2 hQ2).trans this
  · intro h
    unfold extremaCurveCurve
    by_cases h1 : nu < 2
    · rw [(C33_make_range _ _ _).1 h1]
      rfl
    · obtain ⟨us, hus, -⟩ := range_spec (a := c.b0) (b := c.b1) (not_lt.mp h1)
      rw [hus, R_bind_ok, (C33_make_range _ _ _).1 (h.resolve_left h1)]
      rfl

/-- **C103** (partial: the number returned is the square of the distance): the points of a surface and a curve found from first values, that of the curve first. -/
theorem C103_surf_curve_from_partial (hs : ∀ y, 0 ≤ y → sqrt (y * y) = y) (ho : Spec.Solver opt) {s : ASurface K (Fin n → K)} {c : ACurve K (Fin n → K)}
    (hv : Spec.DefinedS s) (hv' : Spec.Defined c) (hg : ∀ u v, (s.u0 ≤ u ∧ u ≤ s.u1) → (s.v0 ≤ v ∧ v ≤ s.v1) → (∃ P, s.value u 1 0 0 = .ok P) ∧ ∃ P, s.value v 0 1 0 = .ok P)
    (w0 u0 v0 tol : K) :
    (c.b0 ≤ w0 ∧ w0 ≤ c.b1 → s.u0 ≤ u0 ∧ u0 ≤ s.u1 → s.v0 ≤ v0 ∧ v0 ≤ s.v1 → ∃ u v w d P Q, extremaSurfCurveFrom sqrt opt s c w0 u0 v0 tol = .ok (u, v, w, d) ∧
      (s.u0 ≤ u ∧ u ≤ s.u1) ∧ (s.v0 ≤ v ∧ v ≤ s.v1) ∧ (c.b0 ≤ w ∧ w ≤ c.b1) ∧ s.value u v 0 0 = .ok Q ∧ c.value w 0 = .ok P ∧ d = Spec.distSq P Q ∧
      ∀ P0 Q0, c.value w0 0 = .ok P0 → s.value u0 v0 0 0 = .ok Q0 → d ≤ Spec.distSq P0 Q0) ∧
    (¬ ((c.b0 ≤ w0 ∧ w0 ≤ c.b1) ∧ (s.u0 ≤ u0 ∧ u0 ≤ s.u1) ∧ s.v0 ≤ v0 ∧ v0 ≤ s.v1) → extremaSurfCurveFrom sqrt opt s c w0 u0 v0 tol = .error (.thrown .invalid)) := by
  constructor
  · intro h0 h1 h2
    obtain ⟨x, m, hx, hbx, hfx, hle⟩ := solveD_one (f := surfCurveF s c) (g := surfCurveG s c) ho (tol * tol) (box_three.mpr ⟨w0, u0, v0, rfl, h0, h1, h2⟩) hs (by
      intro x hx
      obtain ⟨w, u, v, rfl, b0, b1, b2⟩ := box_three.mp hx
      obtain ⟨P, hP⟩ := hv' w b0.1 b0.2 0 (by omega)
      obtain ⟨P1, hP1⟩ := hv' w b0.1 b0.2 1 (by omega)
      obtain ⟨Q, hQ⟩ := hv u v b1.1 b1.2 b2.1 b2.2 0 0 (by omega)
      obtain ⟨⟨Q1, hQ1⟩, Q2, hQ2⟩ := hg u v b1 b2
      refine ⟨_, distSq_nonneg P Q, surfCurveF_one hP hQ, ?_⟩
      simp only [surfCurveG, rd, List.getElem?_cons_zero, List.getElem?_cons_succ, R_bind_ok, hP, hQ, hP1, hQ1, hQ2]
      exact ⟨_, rfl⟩)
    obtain ⟨w, u, v, rfl, b0, b1, b2⟩ := box_three.mp hbx
    obtain ⟨P, hP⟩ := hv' w b0.1 b0.2 0 (by omega)
    obtain ⟨Q, hQ⟩ := hv u v b1.1 b1.2 b2.1 b2.2 0 0 (by omega)
    rw [surfCurveF_one hP hQ] at hfx
    have hd : Spec.distSq P Q = sqrt m := by simpa using hfx
    refine ⟨u, v, w, sqrt m, P, Q, ?_, b1, b2, b0, hQ, hP, hd.symm, fun P0 Q0 h h' => hle _ (surfCurveF_one h h')⟩
    unfold extremaSurfCurveFrom
    rw [hx]
    rfl
  · intro h
    unfold extremaSurfCurveFrom
    rw [solveD_outside]
    · rfl
    · intro hb
      obtain ⟨w, u, v, hu, b⟩ := box_three.mp hb
      obtain ⟨rfl, rfl, rfl⟩ : w0 = w ∧ u0 = u ∧ v0 = v := by simpa using hu
      exact h b

/-- **C103** (false of the code): the samples of a surface and a curve are passed to the minimisation in the wrong order. When the bounds of the curve and those
of the surface in its first direction have no common value, it always throws, wherever the curve and the surface meet. -/
theorem C103_surf_curve_order {s : ASurface K (Fin n → K)} {c : ACurve K (Fin n → K)} (hbu : s.u0 ≤ s.u1) (hbv : s.v0 ≤ s.v1) (hb : c.b0 ≤ c.b1)
    (hv : Spec.DefinedS s) (hv' : Spec.Defined c) (hdis : s.u1 < c.b0 ∨ c.b1 < s.u0) (tol : K) {nu nv nw : ℕ} (h1 : 2 ≤ nu) (h2 : 2 ≤ nv) (h3 : 2 ≤ nw) :
    extremaSurfCurve sqrt opt s c tol nu nv nw = .error (.thrown .invalid) := by
  obtain ⟨us, hus, hne, hmem⟩ := range3_spec (a := s.u0) (b := s.u1) (a' := s.v0) (b' := s.v1) (a'' := c.b0) (b'' := c.b1) h1 h2 h3
  obtain ⟨m, x, e1, e3, e4, e5⟩ := minElement_spec (d := fun a : K × K × K => do
      let Q ← s.value a.1 a.2.1 0 0
      let P ← c.value a.2.2 0
      pure (sqNorm (Q - P))) hne (by
    intro u hu
    obtain ⟨i, j, k, hi, hj, hk, rfl⟩ := (hmem u).mp hu
    have b1 := sample_mem hbu h1 hi
    have b2 := sample_mem hbv h2 hj
    have b3 := sample_mem hb h3 hk
    obtain ⟨Q, hQ⟩ := hv _ _ b1.1 b1.2 b2.1 b2.2 0 0 (by omega)
    obtain ⟨P, hP⟩ := hv' _ b3.1 b3.2 0 (by omega)
    refine ⟨sqNorm (Q - P), ?_⟩
    have hQ' : s.value (Spec.sample s.u0 s.u1 nu i) (Spec.sample s.v0 s.v1 nv j) 0 0 = .ok Q := hQ
    have hP' : c.value (Spec.sample c.b0 c.b1 nw k) 0 = .ok P := hP
    dsimp only
    rw [hQ', R_bind_ok, hP', R_bind_ok]
    rfl)
  unfold extremaSurfCurve
  rw [hus, R_bind_ok, e1, R_bind_ok]
  unfold extremaSurfCurveFrom
  rw [solveD_outside]
  · rfl
  · intro hbx
    obtain ⟨w, u, v, hu, b, -⟩ := box_three.mp hbx
    obtain ⟨rfl, -, -⟩ : m.1 = w ∧ m.2.1 = u ∧ m.2.2 = v := by simpa using hu
    obtain ⟨i, j, k, hi, hj, hk, rfl⟩ := (hmem m).mp e3
    have b1 : s.u0 ≤ Spec.sample s.u0 s.u1 nu i ∧ Spec.sample s.u0 s.u1 nu i ≤ s.u1 := sample_mem hbu h1 hi
    rcases hdis with h | h
    · exact absurd (b.1.trans b1.2) (not_le.mpr h)
    · exact absurd (b1.1.trans b.2) (not_le.mpr h)

/-- **C103** (false of the code): where the minimisation of a surface and a curve with the same bounds starts: at the nearest sample with the parameter on the
curve taken for the second one of the surface, and so on. The result is only known to be not farther than these two points. -/
theorem C103_surf_curve_start (hs : ∀ y, 0 ≤ y → sqrt (y * y) = y) (ho : Spec.Solver opt) {s : ASurface K (Fin n → K)} {c : ACurve K (Fin n → K)} {a b : K} (hab : a ≤ b)
    (hsu : s.u0 = a ∧ s.u1 = b) (hsv : s.v0 = a ∧ s.v1 = b) (hc : c.b0 = a ∧ c.b1 = b) (hv : Spec.DefinedS s) (hv' : Spec.Defined c)
    (hg : ∀ u v, (s.u0 ≤ u ∧ u ≤ s.u1) → (s.v0 ≤ v ∧ v ≤ s.v1) → (∃ P, s.value u 1 0 0 = .ok P) ∧ ∃ P, s.value v 0 1 0 = .ok P) (tol : K) {nu nv nw : ℕ}
    (h1 : 2 ≤ nu) (h2 : 2 ≤ nv) (h3 : 2 ≤ nw) :
    ∃ i j k P Q, i < nu ∧ j < nv ∧ k < nw ∧ s.value (Spec.sample a b nu i) (Spec.sample a b nv j) 0 0 = .ok Q ∧ c.value (Spec.sample a b nw k) 0 = .ok P ∧
      (∀ i' j' k' P' Q', i' < nu → j' < nv → k' < nw → s.value (Spec.sample a b nu i') (Spec.sample a b nv j') 0 0 = .ok Q' →
        c.value (Spec.sample a b nw k') 0 = .ok P' → Spec.distSq P Q ≤ Spec.distSq P' Q') ∧
      ∃ u v w d P1 Q1, extremaSurfCurve sqrt opt s c tol nu nv nw = .ok (u, v, w, d) ∧ (a ≤ u ∧ u ≤ b) ∧ (a ≤ v ∧ v ≤ b) ∧ (a ≤ w ∧ w ≤ b) ∧
        s.value u v 0 0 = .ok Q1 ∧ c.value w 0 = .ok P1 ∧ d = Spec.distSq P1 Q1 ∧ ∀ P0 Q0, c.value (Spec.sample a b nu i) 0 = .ok P0 →
          s.value (Spec.sample a b nv j) (Spec.sample a b nw k) 0 0 = .ok Q0 → d ≤ Spec.distSq P0 Q0 := by
  obtain ⟨su, su'⟩ := hsu
  obtain ⟨sv, sv'⟩ := hsv
  obtain ⟨c0, c1⟩ := hc
  obtain ⟨us, hus, hne, hmem⟩ := range3_spec (a := s.u0) (b := s.u1) (a' := s.v0) (b' := s.v1) (a'' := c.b0) (b'' := c.b1) h1 h2 h3
  have bnd : ∀ {nb i : ℕ}, 2 ≤ nb → i < nb → a ≤ Spec.sample a b nb i ∧ Spec.sample a b nb i ≤ b := fun h h' => sample_mem hab h h'
  have dS : ∀ u v, (a ≤ u ∧ u ≤ b) → (a ≤ v ∧ v ≤ b) → ∃ P, s.value u v 0 0 = .ok P := fun u v hu hv0 =>
    hv u v (su ▸ hu.1) (su' ▸ hu.2) (sv ▸ hv0.1) (sv' ▸ hv0.2) 0 0 (by omega)
  have dC : ∀ u, (a ≤ u ∧ u ≤ b) → ∃ P, c.value u 0 = .ok P := fun u hu => hv' u (c0 ▸ hu.1) (c1 ▸ hu.2) 0 (by omega)
  have hd : ∀ (x : K × K × K) P Q, s.value x.1 x.2.1 0 0 = .ok Q → c.value x.2.2 0 = .ok P → (do
      let Q ← s.value x.1 x.2.1 0 0
      let P ← c.value x.2.2 0
      pure (sqNorm (Q - P)) : R K) = .ok (Spec.distSq P Q) := by
    intro x P Q h h'
    rw [h, R_bind_ok, h', R_bind_ok, sqNorm_distSq, distSq_comm]
    rfl
  rw [su, su', sv, sv', c0, c1] at hmem
  obtain ⟨m, x, e1, e3, e4, e5⟩ := minElement_spec (d := fun a : K × K × K => do
      let Q ← s.value a.1 a.2.1 0 0
      let P ← c.value a.2.2 0
      pure (sqNorm (Q - P))) hne (by
    intro u hu
    obtain ⟨i, j, k, hi, hj, hk, rfl⟩ := (hmem u).mp hu
    obtain ⟨Q, hQ⟩ := dS _ _ (bnd h1 hi) (bnd h2 hj)
    obtain ⟨P, hP⟩ := dC _ (bnd h3 hk)
    exact ⟨_, hd (_, _, _) P Q hQ hP⟩)
  obtain ⟨i, j, k, hi, hj, hk, rfl⟩ := (hmem m).mp e3
  obtain ⟨Q, hQ⟩ := dS _ _ (bnd h1 hi) (bnd h2 hj)
  obtain ⟨P, hP⟩ := dC _ (bnd h3 hk)
  have hx : x = Spec.distSq P Q := by
    have := e4.symm.trans (hd (Spec.sample a b nu i, Spec.sample a b nv j, Spec.sample a b nw k) P Q hQ hP)
    exact Except.ok.inj this
  obtain ⟨u, v, w, d, P1, Q1, r1, r2, r3, r4, r5, r6, r7, r8⟩ := (C103_surf_curve_from_partial hs ho hv hv' hg (Spec.sample a b nu i) (Spec.sample a b nv j)
    (Spec.sample a b nw k) tol).1 (by rw [c0, c1]; exact bnd h1 hi) (by rw [su, su']; exact bnd h2 hj) (by rw [sv, sv']; exact bnd h3 hk)
  rw [su, su'] at r2
  rw [sv, sv'] at r3
  rw [c0, c1] at r4
  refine ⟨i, j, k, P, Q, hi, hj, hk, hQ, hP, fun i' j' k' P' Q' hi' hj' hk' hQ' hP' => ?_, u, v, w, d, P1, Q1, ?_, r2, r3, r4, r5, r6, r7, r8⟩
  · rw [← hx]
    exact e5 _ ((hmem _).mpr ⟨i', j', k', hi', hj', hk', rfl⟩) _ (hd (_, _, _) P' Q' hQ' hP')
  · unfold extremaSurfCurve
    rw [hus, R_bind_ok, e1, R_bind_ok]
    exact r1

/-- **C103**: lines which are not parallel meet at the parameters found, and only there; parallel ones divide by zero. -/
theorem C103_lines (P1 N1 P2 N2 : Fin 2 → K) :
    (N1 0 * N2 1 ≠ N1 1 * N2 0 → ∃ l1 l2, extremaLines P1 N1 P2 N2 = .ok (l1, l2) ∧ P1 + l1 • N1 = P2 + l2 • N2 ∧
      ∀ a b : K, P1 + a • N1 = P2 + b • N2 → a = l1 ∧ b = l2) ∧
    (N1 0 * N2 1 = N1 1 * N2 0 → extremaLines P1 N1 P2 N2 = .error .divZero) := by
  constructor
  · intro h
    have hd : N1 0 * -N2 1 - -N2 0 * N1 1 ≠ 0 := fun e => h (by linear_combination -e)
    have hu : extremaLines P1 N1 P2 N2 = .ok (((P2 0 - P1 0) * -N2 1 - -N2 0 * (P2 1 - P1 1)) / (N1 0 * -N2 1 - -N2 0 * N1 1),
        (N1 0 * (P2 1 - P1 1) - (P2 0 - P1 0) * N1 1) / (N1 0 * -N2 1 - -N2 0 * N1 1)) := by
      unfold extremaLines
      dsimp only
      rw [fdiv_ok hd, R_bind_ok, fdiv_ok hd, R_bind_ok]
      rfl
    refine ⟨_, _, hu, ?_, fun a b hab => ?_⟩
    · funext i
      simp only [Pi.add_apply, Pi.smul_apply, smul_eq_mul]
      generalize hD : N1 0 * -N2 1 - -N2 0 * N1 1 = D at hd
      have : ∀ a b x y : K, x + a / D * N1 i = y + b / D * N2 i ↔ D * x + a * N1 i = D * y + b * N2 i := by
        intro a b x y
        have e1 : D * (x + a / D * N1 i) = D * x + a * N1 i := by field_simp
        have e2 : D * (y + b / D * N2 i) = D * y + b * N2 i := by field_simp
        rw [← e1, ← e2]
        exact (mul_right_inj' hd).symm
      rw [this, ← hD]
      fin_cases i
      · show (N1 0 * -N2 1 - -N2 0 * N1 1) * P1 0 + _ * N1 0 = _ * P2 0 + _ * N2 0
        ring
      · show (N1 0 * -N2 1 - -N2 0 * N1 1) * P1 1 + _ * N1 1 = _ * P2 1 + _ * N2 1
        ring
    · have h0 := congrFun hab 0
      have h1 := congrFun hab 1
      simp only [Pi.add_apply, Pi.smul_apply, smul_eq_mul] at h0 h1
      rw [eq_div_iff hd, eq_div_iff hd]
      constructor
      · linear_combination (-N2 1) * h0 + N2 0 * h1
      · linear_combination (-N1 1) * h0 + N1 0 * h1
  · intro h
    have hd : N1 0 * -N2 1 - -N2 0 * N1 1 = 0 := by linear_combination -h
    unfold extremaLines
    dsimp only
    rw [fdiv, if_pos hd]
    rfl

/-- The points and the parameters and squares of distances found for them. -/
def Spec.Found (c : ACurve K (Fin n → K)) (p : Fin n → K) (x : K × K) : Prop :=
  (c.b0 ≤ x.1 ∧ x.1 ≤ c.b1) ∧ ∃ P, c.value x.1 0 = .ok P ∧ x.2 = Spec.distSq P p

theorem devLoop_spec (hs : ∀ y, 0 ≤ y → sqrt (y * y) = y) (ho : Spec.Solver opt) {c : ACurve K (Fin n → K)} (hv : Spec.Defined c) (tol : K) :
    ∀ (pts : List (Fin n → K)) (u0 um dm sm : K), (c.b0 ≤ u0 ∧ u0 ≤ c.b1) → ∃ l u um' dm', devLoop sqrt opt c tol pts (u0, um, dm, sm) =
      .ok (u, um', dm', sm + (l.map Prod.snd).sum) ∧ List.Forall₂ (Spec.Found c) pts l ∧ dm ≤ dm' ∧ (∀ x ∈ l, x.2 ≤ dm') ∧ ((um' = um ∧ dm' = dm) ∨ (um', dm') ∈ l)
  | [], u0, um, dm, sm, _ => ⟨[], u0, um, dm, by simp [devLoop, R_pure], .nil, le_rfl, by simp, Or.inl ⟨rfl, rfl⟩⟩
  | p :: pts, u0, um, dm, sm, h => by
    obtain ⟨u, d, P, e1, e2, e3, e4, e5, -⟩ := (C103_curve_point_from_partial hs ho hv p u0 tol).1 h.1 h.2
    obtain ⟨l, u', um', dm', a1, a2, a3, a4, a5⟩ := devLoop_spec hs ho hv tol pts u (if dm < d then u else um) (if dm < d then d else dm) (sm + d) ⟨e2, e3⟩
    have hle : dm ≤ dm' ∧ d ≤ dm' := by
      split at a3
      · rename_i hlt; exact ⟨hlt.le.trans a3, a3⟩
      · rename_i hlt; exact ⟨a3, (not_lt.mp hlt).trans a3⟩
    refine ⟨(u, d) :: l, u', um', dm', ?_, .cons ⟨⟨e2, e3⟩, P, e4, e5⟩ a2, hle.1, ?_, ?_⟩
    · rw [devLoop, List.foldlM_cons, e1, R_bind_ok, R_pure, R_bind_ok, List.map_cons, List.sum_cons, ← add_assoc]
      exact a1
    · intro x hx
      rcases List.mem_cons.mp hx with rfl | hx
      exacts [hle.2, a4 x hx]
    · rcases a5 with ⟨b1, b2⟩ | a5
      · split at b1
        · rename_i hlt
          rw [if_pos hlt] at b2
          rw [b1, b2]
          exact Or.inr List.mem_cons_self
        · rename_i hlt
          rw [if_neg hlt] at b2
          exact Or.inl ⟨b1, b2⟩
      · exact Or.inr (List.mem_cons_of_mem _ a5)

/-- **C103** (partial: squares of distances): the deviation from points gives the largest number, where it is, and the mean of the numbers found for the points.
When all are null the place is 0. No points: division by zero. -/
theorem C103_deviation_partial (hs : ∀ y, 0 ≤ y → sqrt (y * y) = y) (ho : Spec.Solver opt) {c : ACurve K (Fin n → K)} (hv : Spec.Defined c) (tol u0 : K) (h0 : c.b0 ≤ u0)
    (h1 : u0 ≤ c.b1) (pts : List (Fin n → K)) :
    (pts ≠ [] → ∃ l um dm, devFromPoints sqrt opt c u0 tol pts = .ok (um, dm, (l.map Prod.snd).sum / (pts.length : K)) ∧ List.Forall₂ (Spec.Found c) pts l ∧
      (∀ x ∈ l, x.2 ≤ dm) ∧ ((um, dm) ∈ l ∨ (um = 0 ∧ dm = 0 ∧ ∀ x ∈ l, x.2 = 0))) ∧
    (pts = [] → devFromPoints sqrt opt c u0 tol pts = .error .divZero) := by
  constructor
  · intro hne
    obtain ⟨l, u, um, dm, a1, a2, a3, a4, a5⟩ := devLoop_spec hs ho hv tol pts u0 0 0 0 ⟨h0, h1⟩
    have hl : (pts.length : K) ≠ 0 := by
      rw [Nat.cast_ne_zero]
      exact fun h => hne (List.length_eq_zero_iff.mp h)
    refine ⟨l, um, dm, ?_, a2, a4, ?_⟩
    · unfold devFromPoints
      rw [a1, R_bind_ok]
      dsimp only
      rw [fdiv_ok hl, R_bind_ok, zero_add]
      rfl
    · rcases a5 with ⟨rfl, rfl⟩ | a5
      · refine Or.inr ⟨rfl, rfl, fun x hx => le_antisymm (a4 x hx) ?_⟩
        have : ∀ (pts : List (Fin n → K)) l, List.Forall₂ (Spec.Found c) pts l → ∀ x ∈ l, 0 ≤ x.2 := by
          intro pts l h
          induction h with
          | nil => intro x hx; simp at hx
          | cons h _ ih =>
            intro x hx
            rcases List.mem_cons.mp hx with rfl | hx
            · obtain ⟨-, P, -, e⟩ := h
              rw [e]
              exact distSq_nonneg _ _
            · exact ih x hx
        exact this pts l a2 x hx
      · exact Or.inl a5
  · rintro rfl
    unfold devFromPoints
    simp only [devLoop, List.foldlM_nil, R_pure, R_bind_ok, List.length_nil, Nat.cast_zero]
    rw [fdiv, if_pos rfl]
    rfl

/-- **C103**: where the coordinate is positive, what `max_coordinate` minimises is less where the coordinate is larger, and what `min_coordinate` minimises is
less where it is less. -/
theorem C103_coordinates_partial {c : ACurve K (Fin n → K)} {i : Fin n} {u v : K} {P Q : Fin n → K} (hP : c.value u 0 = .ok P) (hQ : c.value v 0 = .ok Q) (h1 : 0 < P i)
    (h2 : 0 < Q i) :
    (∃ a b, maxCoordObjective c i u = .ok a ∧ maxCoordObjective c i v = .ok b ∧ (a ≤ b ↔ Q i ≤ P i)) ∧
    ∃ a b, minCoordObjective c i u = .ok a ∧ minCoordObjective c i v = .ok b ∧ (a ≤ b ↔ P i ≤ Q i) := by
  constructor
  · refine ⟨1 / P i / P i, 1 / Q i / Q i, ?_, ?_, ?_⟩
    · rw [maxCoordObjective, hP, R_bind_ok, fdiv_ok h1.ne', R_bind_ok, fdiv_ok h1.ne']
    · rw [maxCoordObjective, hQ, R_bind_ok, fdiv_ok h2.ne', R_bind_ok, fdiv_ok h2.ne']
    · rw [div_div, div_div, one_div_le_one_div (mul_pos h1 h1) (mul_pos h2 h2), ← mul_self_le_mul_self_iff h2.le h1.le]
  · exact ⟨P i * P i, Q i * Q i, by rw [minCoordObjective, hP, R_bind_ok]; rfl, by rw [minCoordObjective, hQ, R_bind_ok]; rfl,
      (mul_self_le_mul_self_iff h1.le h2.le).symm⟩

/-- **C103** (false of the code): where the coordinate is negative, it is the contrary: `max_coordinate` looks for the least coordinate and `min_coordinate` for the
largest one. A null coordinate divides by zero. -/
theorem C103_coordinates_negative {c : ACurve K (Fin n → K)} {i : Fin n} {u v : K} {P Q : Fin n → K} (hP : c.value u 0 = .ok P) (hQ : c.value v 0 = .ok Q) :
    (P i < 0 → Q i < 0 → (∃ a b, maxCoordObjective c i u = .ok a ∧ maxCoordObjective c i v = .ok b ∧ (a ≤ b ↔ P i ≤ Q i)) ∧
      ∃ a b, minCoordObjective c i u = .ok a ∧ minCoordObjective c i v = .ok b ∧ (a ≤ b ↔ Q i ≤ P i)) ∧
    (P i = 0 → maxCoordObjective c i u = .error .divZero) := by
  refine ⟨fun h1 h2 => ⟨?_, ?_⟩, fun h => ?_⟩
  · refine ⟨1 / P i / P i, 1 / Q i / Q i, ?_, ?_, ?_⟩
    · rw [maxCoordObjective, hP, R_bind_ok, fdiv_ok h1.ne, R_bind_ok, fdiv_ok h1.ne]
    · rw [maxCoordObjective, hQ, R_bind_ok, fdiv_ok h2.ne, R_bind_ok, fdiv_ok h2.ne]
    · rw [div_div, div_div, one_div_le_one_div (mul_pos_of_neg_of_neg h1 h1) (mul_pos_of_neg_of_neg h2 h2), ← neg_mul_neg (Q i), ← neg_mul_neg (P i),
        ← mul_self_le_mul_self_iff (by linarith) (by linarith), neg_le_neg_iff]
  · refine ⟨P i * P i, Q i * Q i, by rw [minCoordObjective, hP, R_bind_ok]; rfl, by rw [minCoordObjective, hQ, R_bind_ok]; rfl, ?_⟩
    rw [← neg_mul_neg (Q i), ← neg_mul_neg (P i), ← mul_self_le_mul_self_iff (by linarith) (by linarith), neg_le_neg_iff]
  · rw [maxCoordObjective, hP, R_bind_ok, fdiv, if_pos h]
    rfl

/-- **C103** (false of the code): what `max_curvature_pos` returns is the square of the second derivative, between the given bounds and not less than in the
middle; it is not the curvature. -/
theorem C103_second_derivative (hs : ∀ y, 0 ≤ y → sqrt (y * y) = y) (ho : Spec.Solver opt) {c : ACurve K (Fin n → K)} {u1 u2 : K} (hu : u1 ≤ u2)
    (hv : ∀ u, u1 ≤ u → u ≤ u2 → (∃ P, c.value u 2 = .ok P ∧ P ≠ 0) ∧ ∃ P, c.value u 3 = .ok P) (tol : K) :
    ∃ u k P, maxCurvaturePos sqrt opt c u1 u2 tol = .ok (u, k) ∧ u1 ≤ u ∧ u ≤ u2 ∧ c.value u 2 = .ok P ∧ k = ∑ i, P i ^ 2 ∧
      ∀ Q, c.value ((1 / 2) * (u1 + u2)) 2 = .ok Q → ∑ i, Q i ^ 2 ≤ k := by
  have hsum : ∀ P : Fin n → K, sqNorm P = ∑ i, P i ^ 2 := fun P => Finset.sum_congr rfl fun i _ => by rw [sq]
  have pos : ∀ P : Fin n → K, P ≠ 0 → 0 < sqNorm P := fun P hP => lt_of_le_of_ne (sqNorm_nonneg P) fun h => hP (sqNorm_eq_zero.mp h.symm)
  have hF : ∀ u P, c.value u 2 = .ok P → P ≠ 0 → curvatureF c [u] = .ok [1 / sqNorm P] := by
    intro u P h hP
    simp only [curvatureF, rd, List.getElem?_cons_zero, R_bind_ok, h]
    rw [fdiv_ok (pos P hP).ne', R_bind_ok]
    rfl
  obtain ⟨x, m, hx, hbx, hfx, hle⟩ := solveD_one (f := curvatureF c) (g := curvatureG c) (x0 := [(1 / 2) * (u1 + u2)]) (lb := [u1]) (hb := [u2]) ho (tol * tol)
    (box_one.mpr ⟨_, rfl, by linarith, by linarith⟩) hs (by
      intro x hx
      obtain ⟨u, rfl, b0, b1⟩ := box_one.mp hx
      obtain ⟨⟨P, hP, hP0⟩, P3, hP3⟩ := hv u b0 b1
      refine ⟨_, (one_div_pos.mpr (pos P hP0)).le, hF u P hP hP0, ?_⟩
      have hne : dotV P P * dotV P P ≠ 0 := (mul_pos (pos P hP0) (pos P hP0)).ne'
      simp only [curvatureG, rd, List.getElem?_cons_zero, R_bind_ok, hP, hP3]
      rw [fdiv_ok hne]
      exact ⟨_, rfl⟩)
  obtain ⟨u, rfl, b0, b1⟩ := box_one.mp hbx
  obtain ⟨⟨P, hP, hP0⟩, -⟩ := hv u b0 b1
  rw [hF u P hP hP0] at hfx
  have hd : 1 / sqNorm P = sqrt m := by simpa using hfx
  refine ⟨u, sqNorm P, P, ?_, b0, b1, hP, hsum P, fun Q hQ => ?_⟩
  · unfold maxCurvaturePos
    rw [hx, R_bind_ok]
    dsimp only [rd, List.getElem?_cons_zero]
    rw [R_bind_ok, ← hd, fdiv_ok (one_div_pos.mpr (pos P hP0)).ne', R_bind_ok, one_div_one_div]
    rfl
  · obtain ⟨⟨Q', hQ', hQ0⟩, -⟩ := hv ((1 / 2) * (u1 + u2)) (by linarith) (by linarith)
    rw [hQ] at hQ'
    cases hQ'
    have := hle _ (hF _ Q hQ hQ0)
    rw [← hd, one_div_le_one_div (pos P hP0) (pos Q hQ0)] at this
    rw [← hsum Q]
    exact this

/-- The curve of the witnesses: the segment of the plane from `(0, y)` to `(1, y)`. -/
def flatCurve (y : K) : ACurve K (Fin 2 → K) := ⟨0, 1, fun u d => .ok (if d = 0 then ![u, y] else if d = 1 then ![1, 0] else 0)⟩

theorem flatCurve_defined (y : K) : Spec.Defined (flatCurve y) := fun _ _ _ _ _ => ⟨_, rfl⟩

/-- **C103** (false of the code): the number returned is not the distance. The point of the segment from `(0, 0)` to `(1, 0)` nearest to `(-2, 0)` is found, at
the distance 2, and the answer is 4. -/
theorem C103_squared (hs : ∀ y, 0 ≤ y → sqrt (y * y) = y) (ho : Spec.Solver opt) (tol : K) {nb : ℕ} (h2 : 2 ≤ nb) :
    extremaCurvePoint sqrt opt (flatCurve 0) ![-2, 0] tol nb = .ok (0, 4) := by
  obtain ⟨u, d, P, e1, e2, e3, e4, e5, e6⟩ := (C103_curve_point_partial hs ho (c := flatCurve 0) zero_le_one (flatCurve_defined 0) ![-2, 0] tol nb).1 h2
  have hP : P = ![u, 0] := (Except.ok.inj e4).symm
  have h0 := e6 0 (by omega) ![0, 0] (by simp [flatCurve])
  have hd : d = (u + 2) ^ 2 := by rw [e5, hP]; simp [Spec.distSq]
  have h0' : d ≤ 4 := by
    refine h0.trans (le_of_eq ?_)
    simp [Spec.distSq]
    norm_num
  have hu : 0 ≤ u := e2
  have hu0 : u = 0 := by
    rw [hd] at h0'
    nlinarith
  rw [e1, hd, hu0]
  norm_num

/-- **C103** (false of the code): the segments at the heights 0 and 1/2 are farther than 1/3 from each other, and the answer is not larger than 1/3: they are taken
as touching with the tolerance 1/3. -/
theorem C103_touching (hs : ∀ y, 0 ≤ y → sqrt (y * y) = y) (ho : Spec.Solver opt) {big : K} (hbig : 1 / 4 < big) (tol : K) {nu nv : ℕ} (hu : 2 ≤ nu) (hv : 2 ≤ nv) :
    (∃ u v d, extremaCurveCurve sqrt big opt (flatCurve 0) (flatCurve (1 / 2)) tol nu nv = .ok (u, v, d) ∧ d ≤ 1 / 3) ∧
    ∀ u v P Q, (flatCurve (0 : K)).value u 0 = .ok P → (flatCurve (1 / 2 : K)).value v 0 = .ok Q → (1 / 3) ^ 2 < Spec.distSq P Q := by
  have s0 : ∀ y : K, ∀ nb, (flatCurve y).value (Spec.sample (flatCurve y).b0 (flatCurve y).b1 nb 0) 0 = .ok ![0, y] := by
    intro y nb
    simp [flatCurve, Spec.sample]
  have hd : Spec.distSq ![0, 0] ![(0 : K), 1 / 2] = 1 / 4 := by
    simp [Spec.distSq]
    norm_num
  constructor
  · obtain ⟨u, v, d, P, Q, e1, -, -, -, -, -, e7⟩ := (C103_curves_partial hs ho (c := flatCurve 0) (c' := flatCurve (1 / 2)) zero_le_one zero_le_one (flatCurve_defined 0)
      (flatCurve_defined _) big tol nu nv).1 hu hv ⟨0, 0, _, _, by omega, by omega, s0 0 nu, s0 _ nv, by rw [hd]; exact hbig⟩
    refine ⟨u, v, d, e1, ?_⟩
    have := e7 0 0 (by omega) (by omega) _ _ (s0 0 nu) (s0 _ nv)
    rw [hd] at this
    refine this.trans ?_
    norm_num
  · intro u v P Q hP hQ
    obtain rfl : ![u, 0] = P := Except.ok.inj hP
    obtain rfl : ![v, 1 / 2] = Q := Except.ok.inj hQ
    have : Spec.distSq ![u, 0] ![v, 1 / 2] = (u - v) ^ 2 + 1 / 4 := by
      simp [Spec.distSq]
      norm_num
    rw [this]
    have := sq_nonneg (u - v)
    have : (1 / 3 : K) ^ 2 < 1 / 4 := by norm_num
    linarith

/-- **C103** (false of the code): the segment run at the speed `2 u` between the parameters 1 and 2 has a null curvature, and the answer is 4. -/
theorem C103_not_curvature (hs : ∀ y, 0 ≤ y → sqrt (y * y) = y) (ho : Spec.Solver opt) (tol : K) :
    ∃ u, maxCurvaturePos sqrt opt (⟨1, 2, fun u d => .ok (if d = 0 then ![u * u, 0] else if d = 1 then ![2 * u, 0] else if d = 2 then ![2, 0] else 0)⟩ :
      ACurve K (Fin 2 → K)) 1 2 tol = .ok (u, 4) := by
  obtain ⟨u, k, P, e1, -, -, e4, e5, -⟩ := C103_second_derivative hs ho (c := (⟨1, 2, fun u d => .ok (if d = 0 then ![u * u, 0] else if d = 1 then ![2 * u, 0] else
    if d = 2 then ![2, 0] else 0)⟩ : ACurve K (Fin 2 → K))) (u1 := 1) (u2 := 2) one_le_two (by
      intro u _ _
      refine ⟨⟨![2, 0], by simp, fun h => ?_⟩, 0, by simp⟩
      have := congrFun h 0
      simp at this) tol
  refine ⟨u, ?_⟩
  have hP : P = ![2, 0] := by
    have := (Except.ok.inj e4).symm
    simpa using this
  rw [e1, e5, hP]
  norm_num

/-- The minimisation that stays where it starts is one of those allowed. -/
def stay (F : List K → R K) (_ : List K → R (List K)) (x0 _ _ : List K) (_ : K) : R (List K × K) := do
  let m ← F x0
  pure (x0, m)

theorem stay_solver : Spec.Solver (stay : Nlopt K) := by
  intro F G x0 lb hb tol hbox
  constructor
  · intro x m h
    obtain ⟨m', hm, h⟩ := R_bind_eq_ok.mp h
    cases h
    refine ⟨hbox, hm, fun m0 h0 => ?_⟩
    rw [hm] at h0
    cases h0
    exact le_rfl
  · intro h
    obtain ⟨m, hm⟩ := (h x0 hbox).1
    exact ⟨x0, m, by rw [stay, hm]; rfl⟩

end ordered

section gradient

variable {n : ℕ}

theorem distSq_deriv {P : ℝ → Fin n → ℝ} {P1 q : Fin n → ℝ} {u : ℝ} (h : HasDerivAt P P1 u) :
    HasDerivAt (fun t => Spec.distSq (P t) q) (dotV ((2 : ℝ) • P1) (P u - q)) u := by
  have hc := hasDerivAt_pi.mp h
  have : ∀ i, HasDerivAt (fun t => (P t i - q i) ^ 2) (((2 : ℝ) • P1) i * (P u - q) i) u := by
    intro i
    have := ((hc i).sub_const (q i)).fun_pow 2
    refine this.congr_deriv ?_
    simp only [Pi.smul_apply, Pi.sub_apply, smul_eq_mul]
    norm_num
    ring
  exact HasDerivAt.fun_sum fun i _ => this i

theorem distSq_sq_deriv {P : ℝ → Fin n → ℝ} {P1 q : Fin n → ℝ} {u : ℝ} (h : HasDerivAt P P1 u) :
    HasDerivAt (fun t => Spec.distSq (P t) q ^ 2) (2 * Spec.distSq (P u) q * dotV ((2 : ℝ) • P1) (P u - q)) u := by
  refine ((distSq_deriv (q := q) h).fun_pow 2).congr_deriv ?_
  norm_num

/-- **C103**: the gradient given for a curve and a point is the derivative of what is minimised. -/
theorem C103_gradient_point {c : ACurve ℝ (Fin n → ℝ)} {P : ℝ → Fin n → ℝ} {P1 : Fin n → ℝ} {u : ℝ} (h0 : c.value u 0 = .ok (P u)) (h1 : c.value u 1 = .ok P1)
    (h : HasDerivAt P P1 u) (p : Fin n → ℝ) :
    ∃ g, curvePointG c p [u] [Spec.distSq (P u) p] = .ok [g] ∧ HasDerivAt (fun t => Spec.distSq (P t) p ^ 2) g u := by
  refine ⟨_, ?_, distSq_sq_deriv h⟩
  simp only [curvePointG, rd, List.getElem?_cons_zero, R_bind_ok, h0, h1]
  rfl

/-- **C103**: the gradient given for a surface and a point is made of the partial derivatives of what is minimised. -/
theorem C103_gradient_surface {s : ASurface ℝ (Fin n → ℝ)} {P : ℝ → ℝ → Fin n → ℝ} {Pu Pv : Fin n → ℝ} {u v : ℝ} (h0 : s.value u v 0 0 = .ok (P u v))
    (h1 : s.value u v 1 0 = .ok Pu) (h2 : s.value u v 0 1 = .ok Pv) (hu : HasDerivAt (fun t => P t v) Pu u) (hv : HasDerivAt (fun t => P u t) Pv v) (p : Fin n → ℝ) :
    ∃ g g', surfPointG s p [u, v] [Spec.distSq (P u v) p] = .ok [g, g'] ∧ HasDerivAt (fun t => Spec.distSq (P t v) p ^ 2) g u ∧
      HasDerivAt (fun t => Spec.distSq (P u t) p ^ 2) g' v := by
  refine ⟨_, _, ?_, distSq_sq_deriv (P := fun t => P t v) hu, distSq_sq_deriv (P := fun t => P u t) hv⟩
  simp only [surfPointG, rd, List.getElem?_cons_zero, List.getElem?_cons_succ, R_bind_ok, h0, h1, h2]
  rfl

/-- **C103** (false of the code): the gradient given for two curves has the opposite of the derivative along the second one; it is the gradient only where this
derivative is null. -/
theorem C103_gradient_curves {c c' : ACurve ℝ (Fin n → ℝ)} {P Q : ℝ → Fin n → ℝ} {P1 Q1 : Fin n → ℝ} {u v : ℝ} (h0 : c.value u 0 = .ok (P u))
    (h1 : c.value u 1 = .ok P1) (k0 : c'.value v 0 = .ok (Q v)) (k1 : c'.value v 1 = .ok Q1) (h : HasDerivAt P P1 u) (k : HasDerivAt Q Q1 v) :
    ∃ g g', curveCurveG c c' [u, v] [Spec.distSq (P u) (Q v)] = .ok [g, g'] ∧ HasDerivAt (fun t => Spec.distSq (P t) (Q v) ^ 2) g u ∧
      HasDerivAt (fun t => Spec.distSq (P u) (Q t) ^ 2) (-g') v ∧ (HasDerivAt (fun t => Spec.distSq (P u) (Q t) ^ 2) g' v → g' = 0) := by
  have hk : HasDerivAt (fun t => Spec.distSq (P u) (Q t) ^ 2) (-(2 * Spec.distSq (P u) (Q v) * dotV ((2 : ℝ) • Q1) (P u - Q v))) v := by
    have e : (fun t => Spec.distSq (P u) (Q t) ^ 2) = fun t => Spec.distSq (Q t) (P u) ^ 2 := by
      funext t
      rw [distSq_comm]
    rw [e]
    refine (distSq_sq_deriv (q := P u) k).congr_deriv ?_
    have : dotV ((2 : ℝ) • Q1) (Q v - P u) = -dotV ((2 : ℝ) • Q1) (P u - Q v) := by
      unfold dotV
      rw [← Finset.sum_neg_distrib]
      exact Finset.sum_congr rfl fun i _ => by simp only [Pi.smul_apply, Pi.sub_apply, smul_eq_mul]; ring
    rw [this, distSq_comm]
    ring
  refine ⟨_, _, ?_, distSq_sq_deriv h, hk, fun hg => ?_⟩
  · simp only [curveCurveG, rd, List.getElem?_cons_zero, List.getElem?_cons_succ, R_bind_ok, h0, h1, k0, k1]
    rfl
  · have := hg.unique hk
    linarith

/-- **C103** (false of the code): the gradient given for a surface and a curve has the derivative along the curve, and the points `s(u, 1)` and the derivative at
`(v, 0)` in place of the derivatives of the surface. -/
theorem C103_gradient_surf_curve {s : ASurface ℝ (Fin n → ℝ)} {c : ACurve ℝ (Fin n → ℝ)} {P : ℝ → Fin n → ℝ} {P1 Q Qu Qv : Fin n → ℝ} {w u v : ℝ}
    (h0 : c.value w 0 = .ok (P w)) (h1 : c.value w 1 = .ok P1) (k0 : s.value u v 0 0 = .ok Q) (k1 : s.value u 1 0 0 = .ok Qu) (k2 : s.value v 0 1 0 = .ok Qv)
    (h : HasDerivAt P P1 w) :
    ∃ g, surfCurveG s c [w, u, v] [Spec.distSq (P w) Q] = .ok [g, 2 * Spec.distSq (P w) Q * dotV ((-2 : ℝ) • Qu) (P w - Q),
      2 * Spec.distSq (P w) Q * dotV ((-2 : ℝ) • Qv) (P w - Q)] ∧ HasDerivAt (fun t => Spec.distSq (P t) Q ^ 2) g w := by
  refine ⟨_, ?_, distSq_sq_deriv h⟩
  simp only [surfCurveG, rd, List.getElem?_cons_zero, List.getElem?_cons_succ, R_bind_ok, h0, h1, k0, k1, k2]
  rfl

/-- **C103** (false of the code): for the plane `(u, v)` at its origin and the point `(1, 0)` of the axis, the component along `u` is null, and the derivative of what
is minimised is -4. -/
theorem C103_gradient_plane :
    surfCurveG (⟨-1, 1, -1, 1, fun u v a b => .ok (if a = 0 ∧ b = 0 then ![u, v] else if a = 1 ∧ b = 0 then ![1, 0] else if a = 0 ∧ b = 1 then ![0, 1]
        else 0)⟩ : ASurface ℝ (Fin 2 → ℝ)) (⟨-1, 1, fun w d => .ok (if d = 0 then ![w, 0] else if d = 1 then ![1, 0] else 0)⟩ : ACurve ℝ (Fin 2 → ℝ)) [1, 0, 0]
        [Spec.distSq ![1, 0] ![0, 0]] = .ok [4, 0, -4] ∧
    HasDerivAt (fun t : ℝ => Spec.distSq ![1, 0] ![t, 0] ^ 2) (-4) 0 := by
  constructor
  · simp only [surfCurveG, rd, List.getElem?_cons_zero, List.getElem?_cons_succ, R_bind_ok]
    simp [dotV, R_pure, Spec.distSq]
    norm_num
  · have e : (fun t : ℝ => Spec.distSq ![1, 0] ![t, 0] ^ 2) = fun t => ((1 - t) ^ 2) ^ 2 := by
      funext t
      simp [Spec.distSq]
    rw [e]
    refine ((((hasDerivAt_id' (0 : ℝ)).const_sub 1).fun_pow 2).fun_pow 2).congr_deriv ?_
    norm_num

/-- **C103** (false of the code): the gradient given for the curvature is the derivative of the inverse of the square of the second derivative, while the square of
this inverse is minimised: a factor is missing. -/
theorem C103_gradient_curvature {c : ACurve ℝ (Fin n → ℝ)} {P : ℝ → Fin n → ℝ} {P3 : Fin n → ℝ} {u : ℝ} (h2 : c.value u 2 = .ok (P u)) (h3 : c.value u 3 = .ok P3)
    (h : HasDerivAt P P3 u) (hP : P u ≠ 0) (r : List ℝ) :
    ∃ g, curvatureG c [u] r = .ok [g] ∧ HasDerivAt (fun t => 1 / ∑ i, P t i ^ 2) g u ∧
      HasDerivAt (fun t => (1 / ∑ i, P t i ^ 2) ^ 2) (2 * (1 / ∑ i, P u i ^ 2) * g) u := by
  have hsum : ∀ Q : Fin n → ℝ, ∑ i, Q i ^ 2 = dotV Q Q := fun Q => Finset.sum_congr rfl fun i _ => by rw [pow_two]
  have hne : dotV (P u) (P u) ≠ 0 := by
    rw [← hsum]
    intro h0
    refine hP (funext fun i => ?_)
    have := (Finset.sum_eq_zero_iff_of_nonneg (fun i _ => sq_nonneg (P u i))).mp h0 i (Finset.mem_univ i)
    exact pow_eq_zero_iff (two_ne_zero) |>.mp this
  have hd : HasDerivAt (fun t => ∑ i, P t i ^ 2) (2 * dotV (P u) P3) u := by
    have := HasDerivAt.fun_sum (u := Finset.univ) (A := fun i t => P t i ^ 2) (A' := fun i => 2 * (P u i * P3 i)) (x := u) fun i _ => by
      have := ((hasDerivAt_pi.mp h) i).fun_pow 2
      refine this.congr_deriv ?_
      push_cast
      ring
    refine this.congr_deriv ?_
    rw [dotV, Finset.mul_sum]
  have hg : HasDerivAt (fun t => 1 / ∑ i, P t i ^ 2) (-2 * dotV (P u) P3 / (dotV (P u) (P u) * dotV (P u) (P u))) u := by
    have := (hasDerivAt_const u (1 : ℝ)).fun_div hd (by rw [hsum]; exact hne)
    refine this.congr_deriv ?_
    rw [hsum]
    ring
  refine ⟨_, ?_, hg, ?_⟩
  · simp only [curvatureG, rd, List.getElem?_cons_zero, R_bind_ok, h2, h3]
    rw [fdiv_ok (mul_ne_zero hne hne), R_bind_ok]
    rfl
  · refine (hg.fun_pow 2).congr_deriv ?_
    push_cast
    ring

end gradient

/-! Examples, with the square root of the real numbers and the minimisation that stays where it starts. -/

/-- The plane on the unit square. -/
noncomputable def planeSurface : ASurface ℝ (Fin 2 → ℝ) :=
  ⟨0, 1, 0, 1, fun u v a b => .ok (if a = 0 ∧ b = 0 then ![u, v] else if a = 1 ∧ b = 0 then ![1, 0] else if a = 0 ∧ b = 1 then ![0, 1] else 0)⟩

theorem planeSurface_defined : Spec.DefinedS planeSurface := fun _ _ _ _ _ _ _ _ _ => ⟨_, rfl⟩

theorem sqrt_sq : ∀ y : ℝ, 0 ≤ y → Real.sqrt (y * y) = y := fun _ h => Real.sqrt_mul_self h

/-- The point of a segment nearest to `(3, 4)`, from 30 samples. -/
example : ∃ u d, extremaCurvePoint Real.sqrt stay (flatCurve 1) ![3, 4] (1 / 1000) 30 = .ok (u, d) ∧ 0 ≤ u ∧ u ≤ 1 ∧ d ≤ 13 := by
  obtain ⟨u, d, P, e1, e2, e3, -, -, e6⟩ := (C103_curve_point_partial sqrt_sq stay_solver (c := flatCurve 1) zero_le_one (flatCurve_defined 1) ![3, 4] (1 / 1000) 30).1 (by decide)
  refine ⟨u, d, e1, e2, e3, ?_⟩
  have := e6 29 (by decide) ![1, 1] (by simp [flatCurve]; norm_num)
  refine this.trans (le_of_eq ?_)
  simp [Spec.distSq]
  norm_num

/-- A first value out of the bounds. -/
example : extremaCurvePointFrom Real.sqrt stay (flatCurve 1) ![3, 4] 2 (1 / 1000) = .error (.thrown .invalid) :=
  (C103_curve_point_from_partial sqrt_sq stay_solver (flatCurve_defined 1) ![3, 4] 2 (1 / 1000)).2 (Or.inr one_lt_two)

/-- The point of the unit square nearest to `(2, 2)`. -/
example : ∃ u v d, extremaSurfPnt Real.sqrt stay planeSurface ![2, 2] (1 / 1000) 30 30 = .ok (u, v, d) ∧ d ≤ 2 := by
  obtain ⟨u, v, d, P, e1, -, -, -, -, e6⟩ := (C103_surf_point_partial sqrt_sq stay_solver (s := planeSurface) zero_le_one zero_le_one planeSurface_defined ![2, 2]
    (1 / 1000) 30 30).1 (by decide) (by decide)
  refine ⟨u, v, d, e1, ?_⟩
  have := e6 29 29 (by decide) (by decide) ![1, 1] (by simp [planeSurface, Spec.sample]; norm_num)
  refine this.trans (le_of_eq ?_)
  simp [Spec.distSq]
  norm_num

/-- The points of the unit square and of a segment from first values. -/
example : ∃ u v w d, extremaSurfCurveFrom Real.sqrt stay planeSurface (flatCurve 3) 0 1 1 (1 / 1000) = .ok (u, v, w, d) ∧ d ≤ 5 := by
  obtain ⟨u, v, w, d, P, Q, e1, -, -, -, -, -, -, e6⟩ := (C103_surf_curve_from_partial sqrt_sq stay_solver planeSurface_defined (flatCurve_defined 3)
    (fun _ _ _ _ => ⟨⟨_, rfl⟩, _, rfl⟩) 0 1 1 (1 / 1000)).1 ⟨le_rfl, zero_le_one⟩ ⟨zero_le_one, le_rfl⟩ ⟨zero_le_one, le_rfl⟩
  refine ⟨u, v, w, d, e1, ?_⟩
  have := e6 ![0, 3] ![1, 1] (by simp [flatCurve]) (by simp [planeSurface])
  refine this.trans (le_of_eq ?_)
  simp [Spec.distSq]
  norm_num

/-- The unit square and the segment `y = 1/2` of parameters 5 to 6 meet everywhere along it, and the search throws. -/
example : extremaSurfCurve Real.sqrt stay planeSurface (⟨5, 6, fun u d => .ok (if d = 0 then ![u - 5, 1 / 2] else if d = 1 then ![1, 0] else 0)⟩ : ACurve ℝ (Fin 2 → ℝ))
    (1 / 1000) 30 30 30 = .error (.thrown .invalid) :=
  C103_surf_curve_order zero_le_one zero_le_one (by norm_num) planeSurface_defined (fun _ _ _ _ _ => ⟨_, rfl⟩) (Or.inl (by show (1 : ℝ) < 5; norm_num)) _ (by decide)
    (by decide) (by decide)

/-- The unit square and a segment with the same bounds. -/
example : ∃ u v w d, extremaSurfCurve Real.sqrt stay planeSurface (flatCurve (1 / 2)) (1 / 1000) 3 3 3 = .ok (u, v, w, d) ∧ (0 ≤ u ∧ u ≤ 1) := by
  obtain ⟨i, j, k, P, Q, -, -, -, -, -, -, u, v, w, d, P1, Q1, e1, e2, -⟩ := C103_surf_curve_start sqrt_sq stay_solver (s := planeSurface) (c := flatCurve (1 / 2))
    zero_le_one ⟨rfl, rfl⟩ ⟨rfl, rfl⟩ ⟨rfl, rfl⟩ planeSurface_defined (flatCurve_defined _) (fun _ _ _ _ => ⟨⟨_, rfl⟩, _, rfl⟩) (1 / 1000) (nu := 3) (nv := 3) (nw := 3)
    (by decide) (by decide) (by decide)
  exact ⟨u, v, w, d, e1, e2⟩

/-- The axes meet at the origin of the first, at the parameter -3 of the second. -/
example : extremaLines ![0, 3] ![0, 1] ![2, (0 : ℚ)] ![1, 0] = .ok (-3, -2) := by decide +kernel

/-- The deviation of a segment from two points. -/
example : ∃ um dm a, devFromPoints Real.sqrt stay (flatCurve 0) 0 (1 / 1000) [![0, 1], ![1, 2]] = .ok (um, dm, a) := by
  obtain ⟨l, um, dm, e, -⟩ := (C103_deviation_partial sqrt_sq stay_solver (flatCurve_defined 0) (1 / 1000) 0 le_rfl zero_le_one [![0, 1], ![1, 2]]).1 (by simp)
  exact ⟨um, dm, _, e⟩

theorem flatCurve_deriv (y u : ℝ) : HasDerivAt (fun t : ℝ => (![t, y] : Fin 2 → ℝ)) ![1, 0] u := by
  refine hasDerivAt_pi.mpr fun i => ?_
  fin_cases i
  · exact hasDerivAt_id' u
  · exact hasDerivAt_const u y

/-- The gradients for two segments at the heights 0 and 1, at the parameters 0 and 1: along the second one it is -8, and the derivative is 8. -/
example : ∃ g g', curveCurveG (flatCurve (0 : ℝ)) (flatCurve 1) [0, 1] [Spec.distSq ![0, 0] ![1, 1]] = .ok [g, g'] ∧
    HasDerivAt (fun t : ℝ => Spec.distSq ![0, 0] ![t, 1] ^ 2) (-g') 1 := by
  obtain ⟨g, g', e1, -, e3, -⟩ := C103_gradient_curves (c := flatCurve (0 : ℝ)) (c' := flatCurve 1) (P := fun t => ![t, 0]) (Q := fun t => ![t, 1]) (u := 0) (v := 1)
    rfl rfl rfl rfl (flatCurve_deriv 0 0) (flatCurve_deriv 1 1)
  exact ⟨g, g', e1, e3⟩

/-- The gradient for a segment and a point. -/
example : ∃ g, curvePointG (flatCurve (0 : ℝ)) ![3, 4] [1 / 2] [Spec.distSq ![1 / 2, 0] ![3, 4]] = .ok [g] ∧
    HasDerivAt (fun t : ℝ => Spec.distSq ![t, 0] ![3, 4] ^ 2) g (1 / 2) :=
  C103_gradient_point (c := flatCurve (0 : ℝ)) (P := fun t => ![t, 0]) rfl rfl (flatCurve_deriv 0 _) ![3, 4]

/-- The gradient for the unit square and a point. -/
example : ∃ g g', surfPointG planeSurface ![3, 4] [1 / 2, 1 / 3] [Spec.distSq ![1 / 2, 1 / 3] ![3, 4]] = .ok [g, g'] ∧
    HasDerivAt (fun t : ℝ => Spec.distSq ![t, 1 / 3] ![3, 4] ^ 2) g (1 / 2) ∧ HasDerivAt (fun t : ℝ => Spec.distSq ![1 / 2, t] ![3, 4] ^ 2) g' (1 / 3) :=
  C103_gradient_surface (s := planeSurface) (P := fun u v => ![u, v]) (Pu := ![1, 0]) (Pv := ![0, 1]) (by simp [planeSurface]) (by simp [planeSurface])
    (by simp [planeSurface]) (flatCurve_deriv _ _) (by
      refine hasDerivAt_pi.mpr fun i => ?_
      fin_cases i
      · exact hasDerivAt_const _ _
      · exact hasDerivAt_id' _) ![3, 4]

/-- The gradient of the curvature for `(u², u³)` at 1. -/
example : ∃ g, curvatureG (⟨0, 2, fun u d => .ok (if d = 2 then ![2, 6 * u] else ![0, 6])⟩ : ACurve ℝ (Fin 2 → ℝ)) [1] [] = .ok [g] ∧
    HasDerivAt (fun t : ℝ => 1 / ∑ i, (![2, 6 * t] : Fin 2 → ℝ) i ^ 2) g 1 := by
  obtain ⟨g, e1, e2, -⟩ := C103_gradient_curvature (c := (⟨0, 2, fun u d => .ok (if d = 2 then ![2, 6 * u] else ![0, 6])⟩ : ACurve ℝ (Fin 2 → ℝ)))
    (P := fun t => ![2, 6 * t]) (P3 := ![0, 6]) (u := 1) rfl rfl (by
      refine hasDerivAt_pi.mpr fun i => ?_
      fin_cases i
      · exact hasDerivAt_const _ _
      · exact ((hasDerivAt_id' (1 : ℝ)).const_mul 6).congr_deriv (by simp)) (fun h => by simpa using congrFun h 0) []
  exact ⟨g, e1, e2⟩

/-- Two points of a segment at a negative height. -/
example : ∃ a b, maxCoordObjective (flatCurve (-1 : ℚ)) 1 0 = .ok a ∧ maxCoordObjective (flatCurve (-1 : ℚ)) 1 1 = .ok b ∧ (a ≤ b ↔ (![0, -1] : Fin 2 → ℚ) 1 ≤ (![1, -1] : Fin 2 → ℚ) 1) :=
  ((C103_coordinates_negative (c := flatCurve (-1 : ℚ)) (i := 1) (u := 0) (v := 1) (P := ![0, -1]) (Q := ![1, -1]) rfl rfl).1 (by decide +kernel) (by decide +kernel)).1

/-- Two points of a segment with positive first coordinates. -/
example : ∃ a b, maxCoordObjective (flatCurve (0 : ℚ)) 0 (1 / 2) = .ok a ∧ maxCoordObjective (flatCurve (0 : ℚ)) 0 1 = .ok b ∧
    (a ≤ b ↔ (![1, 0] : Fin 2 → ℚ) 0 ≤ (![1 / 2, 0] : Fin 2 → ℚ) 0) :=
  (C103_coordinates_partial (c := flatCurve (0 : ℚ)) (i := 0) (u := 1 / 2) (v := 1) (P := ![1 / 2, 0]) (Q := ![1, 0]) rfl rfl (by decide +kernel) (by decide +kernel)).1

end Gbs
