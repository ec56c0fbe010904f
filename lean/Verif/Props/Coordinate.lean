import Verif.Model.Coordinate
import Verif.Props.Wrapped
import Mathlib.Tactic.FieldSimp

/-!
# C125: the greatest and the least coordinate of a curve
-/

set_option linter.unusedSectionVars false

namespace Gbs

variable {K : Type} [Field K] [LinearOrder K] [IsStrictOrderedRing K] {n : ℕ}

/-- The search of Brent finds a least value of a function that has one between the bounds. -/
def Spec.FindsLeast (brent : Brent K) : Prop :=
  ∀ (f : K → R (WithTop K)) (a b : K), (∀ u, a ≤ u → u ≤ b → ∃ y, f u = .ok y) →
    (∃ u y, a ≤ u ∧ u ≤ b ∧ f u = .ok y ∧ ∀ v z, a ≤ v → v ≤ b → f v = .ok z → y ≤ z) →
    ∃ u y, brent f a b = .ok (u, y) ∧ a ≤ u ∧ u ≤ b ∧ f u = .ok y ∧ ∀ v z, a ≤ v → v ≤ b → f v = .ok z → y ≤ z

/-- The iterations of Newton find a root between the bounds of a function that has one. -/
def Spec.FindsRoot (newton : Newton K) : Prop :=
  ∀ (f : K → R (K × K)) (u0 a b : K), a ≤ u0 → u0 ≤ b → (∀ u, a ≤ u → u ≤ b → ∃ y, f u = .ok y) →
    (∃ u y', a ≤ u ∧ u ≤ b ∧ f u = .ok (0, y')) → ∃ u y', newton f u0 a b = .ok u ∧ a ≤ u ∧ u ≤ b ∧ f u = .ok (0, y')

/-- The coordinate `i` of the curve is the function `X`. -/
def Spec.Coord (c : ACurve K (Fin n → K)) (i : Fin n) (X : K → K) : Prop :=
  ∀ u, c.b0 ≤ u → u ≤ c.b1 → ∃ P, c.value u 0 = .ok P ∧ P i = X u

theorem coordAt_ok {c : ACurve K (Fin n → K)} {i : Fin n} {X : K → K} (h : Spec.Coord c i X) {u : K} (h0 : c.b0 ≤ u) (h1 : u ≤ c.b1) :
    coordAt c i u 0 = .ok (X u) := by
  obtain ⟨P, e, hP⟩ := h u h0 h1
  unfold coordAt
  rw [e, R_bind_ok, dif_pos i.isLt, ← hP]
  rfl

theorem invSquare_le {x y : K} :
    (if x = 0 then (⊤ : WithTop K) else ((1 / x / x : K) : WithTop K)) ≤ (if y = 0 then ⊤ else ((1 / y / y : K) : WithTop K)) ↔
      y = 0 ∨ (x ≠ 0 ∧ |y| ≤ |x|) := by
  by_cases hy : y = 0
  · simp [hy]
  by_cases hx : x = 0
  · simp [hx, hy]
  rw [if_neg hx, if_neg hy, WithTop.coe_le_coe]
  have e : ∀ z : K, 1 / z / z = 1 / |z| ^ 2 := fun z => by rw [sq_abs, div_div, sq]
  rw [e, e, one_div_le_one_div (pow_pos (abs_pos.mpr hx) 2) (pow_pos (abs_pos.mpr hy) 2), pow_le_pow_iff_left₀ (abs_nonneg _) (abs_nonneg _) (by decide)]
  simp [hx, hy]

/-- **C125**: what `max_coordinate` finds is the greatest absolute value of the coordinate; the value returned with the parameter is the inverse of
its square. -/
theorem C125_max_abs {brent : Brent K} (hb : Spec.FindsLeast brent) {c : ACurve K (Fin n → K)} {i : Fin n} {X : K → K} (hX : Spec.Coord c i X)
    (hm : ∃ u, c.b0 ≤ u ∧ u ≤ c.b1 ∧ X u ≠ 0 ∧ ∀ v, c.b0 ≤ v → v ≤ c.b1 → |X v| ≤ |X u|) :
    ∃ u, maxCoordinate brent c i = .ok (u, ((1 / (X u) ^ 2 : K) : WithTop K)) ∧ c.b0 ≤ u ∧ u ≤ c.b1 ∧
      ∀ v, c.b0 ≤ v → v ≤ c.b1 → |X v| ≤ |X u| := by
  have hf : ∀ u, c.b0 ≤ u → u ≤ c.b1 → invSquare c i u = .ok (if X u = 0 then ⊤ else ((1 / X u / X u : K) : WithTop K)) := by
    intro u h0 h1
    unfold invSquare
    rw [coordAt_ok hX h0 h1, R_bind_ok]
    rfl
  obtain ⟨w, w0, w1, wne, wmax⟩ := hm
  obtain ⟨u, y, e, h0, h1, ey, hy⟩ := hb (invSquare c i) c.b0 c.b1 (fun u h0 h1 => ⟨_, hf u h0 h1⟩)
    ⟨w, _, w0, w1, hf w w0 w1, fun v z v0 v1 hz => by
      rw [hf v v0 v1] at hz
      rw [← Except.ok.inj hz, invSquare_le]
      exact Or.inr ⟨wne, wmax v v0 v1⟩⟩
  rw [hf u h0 h1] at ey
  have hle : ∀ v, c.b0 ≤ v → v ≤ c.b1 → X v = 0 ∨ (X u ≠ 0 ∧ |X v| ≤ |X u|) := by
    intro v v0 v1
    rw [← invSquare_le, Except.ok.inj ey]
    exact hy v _ v0 v1 (hf v v0 v1)
  have hne : X u ≠ 0 := ((hle w w0 w1).resolve_left wne).1
  refine ⟨u, ?_, h0, h1, ?_⟩
  · unfold maxCoordinate
    rw [if_neg (by have := i.isLt; omega), e, ← Except.ok.inj ey, if_neg hne, div_div, sq]
  · intro v v0 v1
    rcases hle v v0 v1 with h | h
    · rw [h, abs_zero]
      exact abs_nonneg _
    · exact h.2

/-- **C125**: it is the greatest coordinate if no coordinate is negative. -/
theorem C125_max {brent : Brent K} (hb : Spec.FindsLeast brent) {c : ACurve K (Fin n → K)} {i : Fin n} {X : K → K} (hX : Spec.Coord c i X)
    (hpos : ∀ v, c.b0 ≤ v → v ≤ c.b1 → 0 ≤ X v) (hm : ∃ u, c.b0 ≤ u ∧ u ≤ c.b1 ∧ X u ≠ 0 ∧ ∀ v, c.b0 ≤ v → v ≤ c.b1 → X v ≤ X u) :
    ∃ u y, maxCoordinate brent c i = .ok (u, y) ∧ c.b0 ≤ u ∧ u ≤ c.b1 ∧ ∀ v, c.b0 ≤ v → v ≤ c.b1 → X v ≤ X u := by
  obtain ⟨w, w0, w1, wne, wm⟩ := hm
  obtain ⟨u, e, h0, h1, h⟩ := C125_max_abs hb hX ⟨w, w0, w1, wne, fun v v0 v1 => by
    rw [abs_of_nonneg (hpos v v0 v1), abs_of_nonneg (hpos w w0 w1)]
    exact wm v v0 v1⟩
  refine ⟨u, _, e, h0, h1, fun v v0 v1 => ?_⟩
  have := h v v0 v1
  rwa [abs_of_nonneg (hpos v v0 v1), abs_of_nonneg (hpos u h0 h1)] at this

/-- **C125**: it is the least one if no coordinate is positive. -/
theorem C125_max_negative {brent : Brent K} (hb : Spec.FindsLeast brent) {c : ACurve K (Fin n → K)} {i : Fin n} {X : K → K} (hX : Spec.Coord c i X)
    (hneg : ∀ v, c.b0 ≤ v → v ≤ c.b1 → X v ≤ 0) (hm : ∃ u, c.b0 ≤ u ∧ u ≤ c.b1 ∧ X u ≠ 0 ∧ ∀ v, c.b0 ≤ v → v ≤ c.b1 → X u ≤ X v) :
    ∃ u y, maxCoordinate brent c i = .ok (u, y) ∧ c.b0 ≤ u ∧ u ≤ c.b1 ∧ ∀ v, c.b0 ≤ v → v ≤ c.b1 → X u ≤ X v := by
  obtain ⟨w, w0, w1, wne, wm⟩ := hm
  obtain ⟨u, e, h0, h1, h⟩ := C125_max_abs hb hX ⟨w, w0, w1, wne, fun v v0 v1 => by
    rw [abs_of_nonpos (hneg v v0 v1), abs_of_nonpos (hneg w w0 w1)]
    exact neg_le_neg (wm v v0 v1)⟩
  refine ⟨u, _, e, h0, h1, fun v v0 v1 => ?_⟩
  have := h v v0 v1
  rw [abs_of_nonpos (hneg v v0 v1), abs_of_nonpos (hneg u h0 h1)] at this
  exact neg_le_neg_iff.mp this

/-- **C125**: what `min_coordinate` finds is the least absolute value of the coordinate; the value returned with the parameter is its square. -/
theorem C125_min_abs {brent : Brent K} (hb : Spec.FindsLeast brent) {c : ACurve K (Fin n → K)} {i : Fin n} {X : K → K} (hX : Spec.Coord c i X)
    (hm : ∃ u, c.b0 ≤ u ∧ u ≤ c.b1 ∧ ∀ v, c.b0 ≤ v → v ≤ c.b1 → |X u| ≤ |X v|) :
    ∃ u, minCoordinate brent c i = .ok (u, (((X u) ^ 2 : K) : WithTop K)) ∧ c.b0 ≤ u ∧ u ≤ c.b1 ∧
      ∀ v, c.b0 ≤ v → v ≤ c.b1 → |X u| ≤ |X v| := by
  have hf : ∀ u, c.b0 ≤ u → u ≤ c.b1 → squareCoord c i u = .ok ((X u * X u : K) : WithTop K) := by
    intro u h0 h1
    unfold squareCoord
    rw [coordAt_ok hX h0 h1, R_bind_ok]
    rfl
  obtain ⟨w, w0, w1, wmin⟩ := hm
  obtain ⟨u, y, e, h0, h1, ey, hy⟩ := hb (squareCoord c i) c.b0 c.b1 (fun u h0 h1 => ⟨_, hf u h0 h1⟩)
    ⟨w, _, w0, w1, hf w w0 w1, fun v z v0 v1 hz => by
      rw [hf v v0 v1] at hz
      rw [← Except.ok.inj hz, WithTop.coe_le_coe]
      exact abs_le_iff_mul_self_le.mp (wmin v v0 v1)⟩
  rw [hf u h0 h1] at ey
  refine ⟨u, ?_, h0, h1, fun v v0 v1 => ?_⟩
  · unfold minCoordinate
    rw [if_neg (by have := i.isLt; omega), e, ← Except.ok.inj ey, sq]
  · have := hy v _ v0 v1 (hf v v0 v1)
    rw [← Except.ok.inj ey, WithTop.coe_le_coe] at this
    exact abs_le_iff_mul_self_le.mpr this

/-- **C125**: it is the least coordinate if no coordinate is negative. -/
theorem C125_min {brent : Brent K} (hb : Spec.FindsLeast brent) {c : ACurve K (Fin n → K)} {i : Fin n} {X : K → K} (hX : Spec.Coord c i X)
    (hpos : ∀ v, c.b0 ≤ v → v ≤ c.b1 → 0 ≤ X v) (hm : ∃ u, c.b0 ≤ u ∧ u ≤ c.b1 ∧ ∀ v, c.b0 ≤ v → v ≤ c.b1 → X u ≤ X v) :
    ∃ u y, minCoordinate brent c i = .ok (u, y) ∧ c.b0 ≤ u ∧ u ≤ c.b1 ∧ ∀ v, c.b0 ≤ v → v ≤ c.b1 → X u ≤ X v := by
  obtain ⟨w, w0, w1, wm⟩ := hm
  obtain ⟨u, e, h0, h1, h⟩ := C125_min_abs hb hX ⟨w, w0, w1, fun v v0 v1 => by
    rw [abs_of_nonneg (hpos v v0 v1), abs_of_nonneg (hpos w w0 w1)]
    exact wm v v0 v1⟩
  refine ⟨u, _, e, h0, h1, fun v v0 v1 => ?_⟩
  have := h v v0 v1
  rwa [abs_of_nonneg (hpos v v0 v1), abs_of_nonneg (hpos u h0 h1)] at this

/-- **C125**: on a curve whose coordinate vanishes and is negative elsewhere, `min_coordinate` does not find the least coordinate. -/
theorem C125_min_crossing {brent : Brent K} (hb : Spec.FindsLeast brent) {c : ACurve K (Fin n → K)} {i : Fin n} {X : K → K}
    (hX : Spec.Coord c i X) {z v : K} (z0 : c.b0 ≤ z) (z1 : z ≤ c.b1) (hz : X z = 0) (hv : X v < 0) :
    ∃ u y, minCoordinate brent c i = .ok (u, y) ∧ X u = 0 ∧ X v < X u := by
  obtain ⟨u, e, h0, h1, h⟩ := C125_min_abs hb hX ⟨z, z0, z1, fun v _ _ => by rw [hz, abs_zero]; exact abs_nonneg _⟩
  have h2 : X u = 0 := by
    have := h z z0 z1
    rw [hz, abs_zero] at this
    exact abs_nonpos_iff.mp this
  exact ⟨u, _, e, h2, by rw [h2]; exact hv⟩

/-- **C125**: a coordinate that the points do not have is refused by the three searches. -/
theorem C125_refused (brent : Brent K) (newton : Newton K) (c : ACurve K (Fin n → K)) {i : ℕ} (h : n ≤ i) (x : K) (u0 : Option K) :
    maxCoordinate brent c i = .error (.thrown .outOfRange) ∧ minCoordinate brent c i = .error (.thrown .outOfRange) ∧
      solveCoordinate newton c i x u0 = .error (.thrown .outOfRange) := by
  unfold maxCoordinate minCoordinate solveCoordinate
  rw [if_pos h, if_pos h, if_pos h]
  exact ⟨rfl, rfl, rfl⟩

/-- **C125**: `solve_coordinate`, from a start between the bounds or without one, finds a parameter where the coordinate has the value, if there is
one. -/
theorem C125_solve {newton : Newton K} (hn : Spec.FindsRoot newton) {c : ACurve K (Fin n → K)} (hc : c.b0 ≤ c.b1) {i : Fin n} {X : K → K}
    (hX : Spec.Coord c i X) (hd : ∀ u, c.b0 ≤ u → u ≤ c.b1 → ∀ d, d ≤ 2 → ∃ P, c.value u d = .ok P) (x : K) {u0 : Option K}
    (hu : ∀ a ∈ u0, c.b0 ≤ a ∧ a ≤ c.b1) (hx : ∃ u, c.b0 ≤ u ∧ u ≤ c.b1 ∧ X u = x) :
    ∃ u, solveCoordinate newton c i x u0 = .ok u ∧ c.b0 ≤ u ∧ u ≤ c.b1 ∧ X u = x := by
  have hf : ∀ u, c.b0 ≤ u → u ≤ c.b1 → ∃ y', (do
      let y ← coordAt c i u 0
      let y1 ← coordAt c i u 1
      let _ ← coordAt c i u 2
      pure (y - x, y1) : R (K × K)) = .ok (X u - x, y') := by
    intro u h0 h1
    obtain ⟨P1, e1⟩ := hd u h0 h1 1 (by decide)
    obtain ⟨P2, e2⟩ := hd u h0 h1 2 (by decide)
    refine ⟨P1 i, ?_⟩
    rw [coordAt_ok hX h0 h1, R_bind_ok]
    unfold coordAt
    rw [e1, e2, R_bind_ok, R_bind_ok, dif_pos i.isLt, dif_pos i.isLt]
    rfl
  obtain ⟨w, w0, w1, hw⟩ := hx
  have hst : c.b0 ≤ u0.getD ((c.b0 + c.b1) / 2) ∧ u0.getD ((c.b0 + c.b1) / 2) ≤ c.b1 := by
    cases u0 with
    | none => exact ⟨by simp only [Option.getD_none]; linarith, by simp only [Option.getD_none]; linarith⟩
    | some a => exact hu a rfl
  obtain ⟨u, y', e, h0, h1, hu'⟩ := hn _ _ c.b0 c.b1 hst.1 hst.2 (fun u h0 h1 => ⟨_, (hf u h0 h1).choose_spec⟩)
    (by
      obtain ⟨y', e⟩ := hf w w0 w1
      rw [hw, sub_self] at e
      exact ⟨w, y', w0, w1, e⟩)
  refine ⟨u, ?_, h0, h1, ?_⟩
  · unfold solveCoordinate
    rw [if_neg (by have := i.isLt; omega)]
    exact e
  · obtain ⟨y'', e'⟩ := hf u h0 h1
    rw [e'] at hu'
    have := congrArg Prod.fst (Except.ok.inj hu')
    exact sub_eq_zero.mp this

/-! ## Searches that behave exist -/

theorem exists_findsLeast : ∃ brent : Brent K, Spec.FindsLeast brent := by
  classical
  refine ⟨fun f a b => if h : ∃ p : K × WithTop K, a ≤ p.1 ∧ p.1 ≤ b ∧ f p.1 = .ok p.2 ∧ ∀ v z, a ≤ v → v ≤ b → f v = .ok z → p.2 ≤ z
    then .ok h.choose else .error .noEnd, ?_⟩
  rintro f a b - ⟨u, y, h⟩
  have hh : ∃ p : K × WithTop K, a ≤ p.1 ∧ p.1 ≤ b ∧ f p.1 = .ok p.2 ∧ ∀ v z, a ≤ v → v ≤ b → f v = .ok z → p.2 ≤ z := ⟨(u, y), h⟩
  exact ⟨hh.choose.1, hh.choose.2, dif_pos hh, hh.choose_spec⟩

theorem exists_findsRoot : ∃ newton : Newton K, Spec.FindsRoot newton := by
  classical
  refine ⟨fun f _ a b => if h : ∃ p : K × K, a ≤ p.1 ∧ p.1 ≤ b ∧ f p.1 = .ok (0, p.2) then .ok h.choose.1 else .error .noEnd, ?_⟩
  rintro f u0 a b - - - ⟨u, y, h⟩
  have hh : ∃ p : K × K, a ≤ p.1 ∧ p.1 ≤ b ∧ f p.1 = .ok (0, p.2) := ⟨(u, y), h⟩
  exact ⟨hh.choose.1, hh.choose.2, dif_pos hh, hh.choose_spec⟩

namespace Sample

/-- The segment from -3 to 1. -/
def crossSeg : ACurve ℚ (Fin 1 → ℚ) := ⟨-3, 1, fun u d => .ok (if d = 0 then ![u] else if d = 1 then ![1] else ![0])⟩

theorem crossSeg_coord : Spec.Coord crossSeg 0 id := fun u _ _ => ⟨![u], rfl, rfl⟩

/-- **C125**: on the segment from -3 to 1, `max_coordinate` finds -3, the least coordinate, with the value 1/9, and `min_coordinate` finds 0. -/
theorem _root_.Gbs.C125_witness {brent : Brent ℚ} (hb : Spec.FindsLeast brent) :
    maxCoordinate brent crossSeg 0 = .ok (-3, ((1 / 9 : ℚ) : WithTop ℚ)) ∧ minCoordinate brent crossSeg 0 = .ok (0, ((0 : ℚ) : WithTop ℚ)) := by
  have hle : ∀ v : ℚ, crossSeg.b0 ≤ v → v ≤ crossSeg.b1 → |v| ≤ 3 := fun v v0 v1 => abs_le.mpr ⟨v0, le_trans v1 (by decide)⟩
  constructor
  · obtain ⟨u, e, h0, h1, h⟩ := C125_max_abs hb crossSeg_coord
      ⟨-3, le_refl (-3 : ℚ), show (-3 : ℚ) ≤ 1 by norm_num, by simp, fun v v0 v1 => by
        have := hle v v0 v1
        simpa [abs_of_nonneg] using this⟩
    have h3 := h (-3) (le_refl (-3 : ℚ)) (show (-3 : ℚ) ≤ 1 by norm_num)
    have hu : u = -3 := by
      have h0' : (-3 : ℚ) ≤ u := h0
      have h1' : u ≤ (1 : ℚ) := h1
      simp only [id] at h3
      rw [abs_of_nonpos (by norm_num : (-3 : ℚ) ≤ 0)] at h3
      rcases abs_cases u with ⟨ha, -⟩ | ⟨ha, -⟩ <;> linarith
    subst hu
    have e' := e
    simp only [id] at e'
    rw [show ((-3 : ℚ)) ^ 2 = 9 by norm_num] at e'
    exact e'
  · obtain ⟨u, e, -, -, h⟩ := C125_min_abs hb crossSeg_coord
      ⟨0, show (-3 : ℚ) ≤ 0 by norm_num, show (0 : ℚ) ≤ 1 by norm_num, fun v _ _ => by simp⟩
    have h0 := h 0 (show (-3 : ℚ) ≤ 0 by norm_num) (show (0 : ℚ) ≤ 1 by norm_num)
    have hu : u = 0 := by simpa using h0
    subst hu
    have e' := e
    simp only [id] at e'
    rw [show ((0 : ℚ)) ^ 2 = 0 by norm_num] at e'
    exact e'

/-- The segment from 1 to 4. -/
def posSeg : ACurve ℚ (Fin 1 → ℚ) := ⟨1, 4, fun u d => .ok (if d = 0 then ![u] else if d = 1 then ![1] else ![0])⟩

theorem posSeg_coord : Spec.Coord posSeg 0 id := fun u _ _ => ⟨![u], rfl, rfl⟩

/-- The segment from -4 to -1. -/
def negSeg : ACurve ℚ (Fin 1 → ℚ) := ⟨-4, -1, fun u d => .ok (if d = 0 then ![u] else if d = 1 then ![1] else ![0])⟩

/-- The hypotheses of the theorems of C125 can be met. -/
example : ∃ (brent : Brent ℚ) (newton : Newton ℚ) (u v w x : ℚ) (y y' y'' : WithTop ℚ), maxCoordinate brent posSeg 0 = .ok (u, y) ∧ 4 ≤ u ∧
    minCoordinate brent posSeg 0 = .ok (v, y') ∧ v ≤ 1 ∧ maxCoordinate brent negSeg 0 = .ok (w, y'') ∧ w ≤ -4 ∧
    solveCoordinate newton posSeg 0 3 none = .ok x ∧ x = 3 := by
  obtain ⟨brent, hb⟩ := exists_findsLeast (K := ℚ)
  obtain ⟨newton, hn⟩ := exists_findsRoot (K := ℚ)
  have i14 : (1 : ℚ) ≤ 4 := by norm_num
  have i41 : (-4 : ℚ) ≤ -1 := by norm_num
  obtain ⟨u, y, e, -, -, h⟩ := C125_max hb posSeg_coord (fun v v0 _ => le_trans (by decide) v0) ⟨4, i14, le_refl (4 : ℚ), by simp, fun v _ v1 => v1⟩
  obtain ⟨v, y', e', -, -, h'⟩ := C125_min hb posSeg_coord (fun v v0 _ => le_trans (by decide) v0) ⟨1, le_refl (1 : ℚ), i14, fun v v0 _ => v0⟩
  obtain ⟨w, y'', e'', -, -, h''⟩ := C125_max_negative hb (c := negSeg) (i := 0) (X := id) (fun u _ _ => ⟨![u], rfl, rfl⟩)
    (fun v _ v1 => le_trans v1 (by decide)) ⟨-4, le_refl (-4 : ℚ), i41, by simp, fun v v0 _ => v0⟩
  obtain ⟨x, ex, -, -, hx⟩ := C125_solve hn (c := posSeg) i14 posSeg_coord (fun u _ _ d _ => ⟨_, rfl⟩) 3 (u0 := none) (by simp)
    ⟨3, show (1 : ℚ) ≤ 3 by norm_num, show (3 : ℚ) ≤ 4 by norm_num, rfl⟩
  exact ⟨brent, newton, u, v, w, x, y, y', y'', e, h 4 i14 (le_refl (4 : ℚ)), e', h' 1 (le_refl (1 : ℚ)) i14, e'',
    h'' (-4) (le_refl (-4 : ℚ)) i41, ex, hx⟩

end Sample

end Gbs
