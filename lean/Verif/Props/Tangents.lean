import Verif.Model.Tangents
import Verif.Props.AbsCurv
import Verif.Props.Join
import Verif.Lemmas.SurfInterp
import Verif.Lemmas.Tfi
import Verif.Props.Revolution

/-!
# C109: tangents from three points, and interpolation with computed derivatives
-/

set_option linter.unusedSectionVars false

namespace Gbs

open Polynomial

variable {K : Type} [Field K] [LinearOrder K] [IsStrictOrderedRing K]
variable {V : Type} [AddCommGroup V] [Module K V]

/-! ## What the steps of the construction compute -/

theorem deltaList_ok {A : Type} [AddCommGroup A] {v : List A} (h : 1 ≤ v.length) :
    deltaList v = .ok ((List.range (v.length - 1)).map fun i => v.getD (i + 1) 0 - v.getD i 0) := by
  unfold deltaList
  rw [usub_ok h, R_bind_ok]
  refine mapM_ok (g := fun i => v.getD (i + 1) 0 - v.getD i 0) _ fun i hi => ?_
  have hi := List.mem_range.mp hi
  rw [rd_getD 0 (by omega), R_bind_ok, rd_getD 0 (by omega), R_bind_ok]
  rfl

theorem pf_delta {v : List V} {i : ℕ} (h : i + 1 < v.length) :
    pf ((List.range (v.length - 1)).map fun i => v.getD (i + 1) 0 - v.getD i 0) i = pf v (i + 1) - pf v i := by
  rw [pf_map_range _ (by omega)]
  rfl

theorem blendInto_ok {v : List V} {b : List K} {r : List V} (hv : 1 ≤ v.length) (hb : v.length - 1 ≤ b.length) (hr : v.length + 1 ≤ r.length) :
    ∃ D, blendInto v b r = .ok D ∧ D.length = r.length ∧
      ∀ j, j < v.length → pf D (j + 1) = if j + 1 < v.length then (1 - pf b j) • pf v j + pf b j • pf v (j + 1) else 0 := by
  unfold blendInto
  rw [usub_ok hv, R_bind_ok, mapM_ok (g := fun i => (1 - pf b i) • pf v i) _ (by
    intro i hi
    have hi := List.mem_range.mp hi
    rw [rd_pf (by omega), R_bind_ok, rd_pf (by omega), R_bind_ok]
    rfl), R_bind_ok, mapM_ok (g := fun i => pf b i • pf v (i + 1)) _ (by
    intro i hi
    have hi := List.mem_range.mp hi
    rw [rd_pf (by omega), R_bind_ok, rd_pf (by omega), R_bind_ok]
    rfl), R_bind_ok]
  have get : ∀ (g : ℕ → V) i, i < v.length → rd ((List.range (v.length - 1)).map g ++ [0]) i = .ok (if i + 1 < v.length then g i else 0) := by
    intro g i hi
    apply rd_eq_ok.mpr
    by_cases h : i + 1 < v.length
    · rw [if_pos h, List.getElem?_append_left (by simp; omega), List.getElem?_map, List.getElem?_range (by omega)]
      rfl
    · rw [if_neg h, List.getElem?_append_right (by simp; omega)]
      have : i - (List.map g (List.range (v.length - 1))).length = 0 := by simp; omega
      rw [this]
      rfl
  obtain ⟨D, eD, hD⟩ := forLt_inv (fun i (D : List V) => D.length = r.length ∧
      ∀ j, j < i → pf D (j + 1) = if j + 1 < v.length then (1 - pf b j) • pf v j + pf b j • pf v (j + 1) else 0)
    (a := 0) (b := v.length - 1 + 1) (s := r)
    (body := fun i r => do
      let x ← rd (List.map (fun i => (1 - pf b i) • pf v i) (List.range (v.length - 1)) ++ [0]) i
      let y ← rd (List.map (fun i => pf b i • pf v (i + 1)) (List.range (v.length - 1)) ++ [0]) i
      wr r (i + 1) (x + y))
    (by omega) ⟨rfl, fun j hj => absurd hj (by omega)⟩ (by
      rintro i D - hi ⟨h1, h2⟩
      rw [get _ i (by omega), R_bind_ok, get _ i (by omega), R_bind_ok, wr_ok (by omega)]
      refine ⟨_, rfl, by simpa using h1, ?_⟩
      intro j hj
      rw [pf_set _ (by omega)]
      by_cases hji : j = i
      · subst hji
        rw [if_pos rfl]
        split_ifs <;> simp
      · rw [if_neg (by omega)]
        exact h2 j (by omega))
  exact ⟨D, eD, hD.1, fun j hj => hD.2 j (by omega)⟩

theorem tangentEnds_ok {q D : List V} (hq : 1 ≤ q.length) (hD : 2 ≤ D.length) :
    ∃ E, tangentEnds (K := K) q D = .ok E ∧ E.length = D.length ∧ pf E 0 = (2 : K) • pf q 0 - pf D 1 ∧
      pf E (D.length - 1) = (2 : K) • pf q (q.length - 1) - pf D (D.length - 1) ∧ ∀ j, 0 < j → j + 1 < D.length → pf E j = pf D j := by
  unfold tangentEnds
  rw [rd_pf (by omega), R_bind_ok, rd_pf (by omega), R_bind_ok, wr_ok (by omega), R_bind_ok, List.length_set, usub_ok (by omega), R_bind_ok,
    usub_ok hq, R_bind_ok, rd_pf (by omega), R_bind_ok, rd_pf (by rw [List.length_set]; omega), R_bind_ok, wr_ok (by rw [List.length_set]; omega)]
  refine ⟨_, rfl, by simp, ?_, ?_, ?_⟩
  · rw [pf_set _ (by rw [List.length_set]; omega), if_neg (by omega), pf_set _ (by omega), if_pos rfl]
  · rw [pf_set _ (by rw [List.length_set]; omega), if_pos rfl, pf_set _ (by omega), if_neg (by omega)]
  · intro j h0 h1
    rw [pf_set _ (by rw [List.length_set]; omega), if_neg (by omega), pf_set _ (by omega), if_neg (by omega)]

theorem besselWeights_ok {u : List K} (h2 : 2 ≤ u.length) (hu : u.Pairwise (· < ·)) :
    ∃ al, besselWeights u.length ((List.range (u.length - 1)).map fun i => u.getD (i + 1) 0 - u.getD i 0) = .ok al ∧ al.length = u.length - 2 ∧
      ∀ i, i + 2 < u.length → pf al i = (pf u (i + 1) - pf u i) / (pf u (i + 2) - pf u (i + 1) + (pf u (i + 1) - pf u i)) := by
  have step : ∀ i, i + 1 < u.length → pf u i < pf u (i + 1) := by
    intro i hi
    have := List.pairwise_iff_getElem.mp hu i (i + 1) (by omega) hi (by omega)
    simpa [pf, hi, show i < u.length by omega] using this
  unfold besselWeights
  rw [usub_ok h2, R_bind_ok, usub_ok (by simp; omega), R_bind_ok, mapM_ok
    (g := fun i => (pf u (i + 1) - pf u i) / (pf u (i + 2) - pf u (i + 1) + (pf u (i + 1) - pf u i))) _ (by
      intro i hi
      have hi := List.mem_range.mp hi
      rw [List.length_map, List.length_range] at hi
      rw [rd_pf (by simp; omega), R_bind_ok, rd_pf (by simp; omega), R_bind_ok, if_pos (by omega), pf_delta (by omega), pf_delta (by omega)]
      have := step i (by omega)
      have := step (i + 1) (by omega)
      exact fdiv_ok (ne_of_gt (by linarith)))]
  refine ⟨_, rfl, by simp; omega, ?_⟩
  intro i hi
  rw [pf_map_range _ (by simp; omega)]

theorem param_step {u : List K} (hu : u.Pairwise (· < ·)) {i : ℕ} (hi : i + 1 < u.length) : pf u i < pf u (i + 1) := by
  have := List.pairwise_iff_getElem.mp hu i (i + 1) (by omega) hi (by omega)
  simpa [pf, hi, show i < u.length by omega] using this

/-- All the elements computed by `build_3pt_tg_vec`. -/
theorem threePointVec_ok {pts : List V} {u : List K} (hl : pts.length = u.length) (h2 : 2 ≤ u.length) (hu : u.Pairwise (· < ·)) :
    ∃ D, threePointVec pts u = .ok D ∧ D.length = u.length ∧
      (∀ i, i + 2 < u.length → pf D (i + 1) =
        (1 - (pf u (i + 1) - pf u i) / (pf u (i + 2) - pf u (i + 1) + (pf u (i + 1) - pf u i))) • ((pf u (i + 1) - pf u i)⁻¹ • (pf pts (i + 1) - pf pts i)) +
        ((pf u (i + 1) - pf u i) / (pf u (i + 2) - pf u (i + 1) + (pf u (i + 1) - pf u i))) •
          ((pf u (i + 2) - pf u (i + 1))⁻¹ • (pf pts (i + 2) - pf pts (i + 1)))) ∧
      (3 ≤ u.length → pf D 0 = (2 : K) • (pf pts 1 - pf pts 0) - pf D 1) ∧
      (u.length = 2 → pf D 0 = (2 : K) • (pf pts 1 - pf pts 0)) ∧
      pf D (u.length - 1) = (2 : K) • (pf pts (u.length - 1) - pf pts (u.length - 2)) := by
  unfold threePointVec
  rw [deltaList_ok (by omega), R_bind_ok, deltaList_ok (by omega), R_bind_ok]
  have hquot : quotList ((List.range (pts.length - 1)).map fun i => pts.getD (i + 1) 0 - pts.getD i 0)
      ((List.range (u.length - 1)).map fun i => u.getD (i + 1) 0 - u.getD i 0) =
      .ok ((List.range (u.length - 1)).map fun i => (pf u (i + 1) - pf u i)⁻¹ • (pf pts (i + 1) - pf pts i)) := by
    unfold quotList
    rw [List.length_map, List.length_range, hl]
    refine mapM_ok (g := fun i => (pf u (i + 1) - pf u i)⁻¹ • (pf pts (i + 1) - pf pts i)) _ fun i hi => ?_
    have hi := List.mem_range.mp hi
    rw [rd_pf (by simp; omega), R_bind_ok, rd_pf (by simp; omega), R_bind_ok, pf_delta (by omega), ← hl, pf_delta (by omega)]
    have := param_step hu (show i + 1 < u.length by omega)
    unfold vdiv
    rw [if_neg (ne_of_gt (by linarith))]
  rw [hquot, R_bind_ok]
  obtain ⟨al, eal, hal, hal'⟩ := besselWeights_ok h2 hu
  rw [eal, R_bind_ok]
  obtain ⟨D, eD, hD, hD'⟩ := blendInto_ok
    (v := (List.range (u.length - 1)).map fun i => (pf u (i + 1) - pf u i)⁻¹ • (pf pts (i + 1) - pf pts i)) (b := al)
    (r := List.replicate u.length 0) (by simp; omega) (by simp; omega) (by simp; omega)
  simp only [List.length_map, List.length_range, List.length_replicate] at hD hD'
  rw [eD, R_bind_ok]
  obtain ⟨E, eE, hE, hE0, hE1, hE2⟩ := tangentEnds_ok (K := K)
    (q := (List.range (pts.length - 1)).map fun i => pts.getD (i + 1) 0 - pts.getD i 0) (D := D) (by simp; omega) (by omega)
  have mid : ∀ i, i + 2 < u.length → pf D (i + 1) =
        (1 - (pf u (i + 1) - pf u i) / (pf u (i + 2) - pf u (i + 1) + (pf u (i + 1) - pf u i))) • ((pf u (i + 1) - pf u i)⁻¹ • (pf pts (i + 1) - pf pts i)) +
        ((pf u (i + 1) - pf u i) / (pf u (i + 2) - pf u (i + 1) + (pf u (i + 1) - pf u i))) •
          ((pf u (i + 2) - pf u (i + 1))⁻¹ • (pf pts (i + 2) - pf pts (i + 1))) := by
    intro i hi
    rw [hD' i (by omega), if_pos (by omega), hal' i hi, pf_map_range _ (by omega), pf_map_range _ (by omega)]
  have last : pf D (u.length - 1) = 0 := by
    have := hD' (u.length - 2) (by omega)
    rwa [if_neg (by omega), show u.length - 2 + 1 = u.length - 1 by omega] at this
  refine ⟨E, eE, by omega, ?_, ?_, ?_, ?_⟩
  · intro i hi
    rw [hE2 (i + 1) (by omega) (by omega), mid i hi]
  · intro h3
    rw [hE0, hE2 1 (by omega) (by omega), pf_delta (by omega)]
  · intro h3
    have h1 : pf D 1 = 0 := by rw [← last, h3]
    rw [hE0, pf_delta (by omega), h1, sub_zero]
  · rw [← hD, hE1, hD, last, sub_zero, List.length_map, List.length_range, pf_delta (by omega), hl, show u.length - 1 - 1 + 1 = u.length - 1 by omega,
      show u.length - 1 - 1 = u.length - 2 by omega]

/-! ## Tangent vectors -/

/-- There is a parabola through three points at three different parameters. -/
theorem parabola_exists {a b c : K} (hab : a < b) (hbc : b < c) (x y z : V) : ∃ A B C : V,
    x = A + a • B + a ^ 2 • C ∧ y = A + b • B + b ^ 2 • C ∧ z = A + c • B + c ^ 2 • C := by
  have h1 : b - a ≠ 0 := ne_of_gt (by linarith)
  have h2 : c - b ≠ 0 := ne_of_gt (by linarith)
  have h3 : c - a ≠ 0 := ne_of_gt (by linarith)
  set C : V := (c - a)⁻¹ • ((c - b)⁻¹ • (z - y) - (b - a)⁻¹ • (y - x)) with hC
  set B : V := (b - a)⁻¹ • (y - x) - (a + b) • C with hB
  refine ⟨x - a • B - a ^ 2 • C, B, C, by module, ?_, ?_⟩
  · have e : (b - a) • B = (y - x) - ((b - a) * (a + b)) • C := by
      rw [hB, smul_sub, smul_smul, smul_smul, mul_inv_cancel₀ h1, one_smul]
    have : y = x + (b - a) • B + (b ^ 2 - a ^ 2) • C := by rw [e]; module
    rw [this]; module
  · have e : (c - b) • ((c - a) • C) = (z - y) - ((c - b) * (b - a)⁻¹) • (y - x) := by
      rw [hC, smul_smul (c - a), mul_inv_cancel₀ h3, one_smul, smul_sub, smul_smul, smul_smul, mul_inv_cancel₀ h2, one_smul]
    have e' : (c - a) • B = ((c - a) * (b - a)⁻¹) • (y - x) - ((c - a) * (a + b)) • C := by
      rw [hB, smul_sub, smul_smul, smul_smul]
    have e2 : ((c - a) * (b - a)⁻¹) • (y - x) = (y - x) + ((c - b) * (b - a)⁻¹) • (y - x) := by
      rw [show (c - a) * (b - a)⁻¹ = 1 + (c - b) * (b - a)⁻¹ by field_simp; ring]
      module
    have : z = x + (c - a) • B + (c ^ 2 - a ^ 2) • C := by
      rw [e', e2]
      have : z - y = (c - b) • (c - a) • C + ((c - b) * (b - a)⁻¹) • (y - x) := by rw [e]; module
      rw [show z = (z - y) + y by module, this]
      module
    rw [this]; module

/-- **C109**: for two points or more at increasing parameters, `build_3pt_tg_vec` gives as many vectors, and the vector of each point that has
two neighbours is the derivative there of the parabola through the three points at their parameters. -/
theorem C109_tangents {pts : List V} {u : List K} (hl : pts.length = u.length) (h2 : 2 ≤ u.length) (hu : u.Pairwise (· < ·)) :
    ∃ D, threePointVec pts u = .ok D ∧ D.length = u.length ∧
      ∀ (i : ℕ) (a b c : K) (x y z : V), u[i]? = some a → u[i + 1]? = some b → u[i + 2]? = some c →
        pts[i]? = some x → pts[i + 1]? = some y → pts[i + 2]? = some z →
        (∃ A B C : V, x = A + a • B + a ^ 2 • C ∧ y = A + b • B + b ^ 2 • C ∧ z = A + c • B + c ^ 2 • C) ∧
        ∀ A B C : V, x = A + a • B + a ^ 2 • C → y = A + b • B + b ^ 2 • C → z = A + c • B + c ^ 2 • C →
          D[i + 1]? = some (B + (2 * b) • C) := by
  obtain ⟨D, eD, hD, hmid, -⟩ := threePointVec_ok hl h2 hu
  refine ⟨D, eD, hD, ?_⟩
  intro i a b c x y z ha hb hc hx hy hz
  have hi : i + 2 < u.length := (kf_of_some hc).1
  have hab := param_step hu (show i + 1 < u.length by omega)
  have hbc := param_step hu hi
  rw [pf_of_some ha, pf_of_some hb] at hab
  rw [pf_of_some hb, pf_of_some hc] at hbc
  refine ⟨parabola_exists hab hbc x y z, ?_⟩
  intro A B C hA hB hC
  rw [pf_getElem? (by omega), hmid i hi, pf_of_some ha, pf_of_some hb, pf_of_some hc, pf_of_some hx, pf_of_some hy, pf_of_some hz, hA, hB, hC]
  have h1 : b - a ≠ 0 := ne_of_gt (by linarith)
  have h2 : c - b ≠ 0 := ne_of_gt (by linarith)
  have h3 : c - b + (b - a) ≠ 0 := ne_of_gt (by linarith)
  have e1 : (b - a)⁻¹ • (A + b • B + b ^ 2 • C - (A + a • B + a ^ 2 • C)) = B + (a + b) • C := by
    rw [show A + b • B + b ^ 2 • C - (A + a • B + a ^ 2 • C) = (b - a) • (B + (a + b) • C) by module, smul_smul, inv_mul_cancel₀ h1, one_smul]
  have e2 : (c - b)⁻¹ • (A + c • B + c ^ 2 • C - (A + b • B + b ^ 2 • C)) = B + (b + c) • C := by
    rw [show A + c • B + c ^ 2 • C - (A + b • B + b ^ 2 • C) = (c - b) • (B + (b + c) • C) by module, smul_smul, inv_mul_cancel₀ h2, one_smul]
  rw [e1, e2]
  set r := (b - a) / (c - b + (b - a)) with hr
  have e3 : r * (c - a) = b - a := by rw [hr]; field_simp; ring
  congr 1
  calc (1 - r) • (B + (a + b) • C) + r • (B + (b + c) • C) = B + (a + b + r * (c - a)) • C := by module
    _ = B + (2 * b) • C := by rw [e3]; congr 2; ring

/-- **C109**: the vectors of the points of a line at the parameters of a constant speed `B`: the speed, except at the ends, where the steps of
the parameters appear. -/
theorem C109_line {pts : List V} {u : List K} (hl : pts.length = u.length) (h3 : 3 ≤ u.length) (hu : u.Pairwise (· < ·)) (A B : V)
    (hp : ∀ (i : ℕ) (x : V) (t : K), pts[i]? = some x → u[i]? = some t → x = A + t • B) :
    ∃ D, threePointVec pts u = .ok D ∧ D.length = u.length ∧ (∀ i, 0 < i → i + 1 < u.length → D[i]? = some B) ∧
      (∀ a b, u[0]? = some a → u[1]? = some b → D[0]? = some ((2 * (b - a) - 1) • B)) ∧
      (∀ a b, u[u.length - 2]? = some a → u[u.length - 1]? = some b → D[u.length - 1]? = some ((2 * (b - a)) • B)) := by
  obtain ⟨D, eD, hD, hmid, hfirst, -, hlast⟩ := threePointVec_ok hl (by omega) hu
  obtain ⟨D', eD', -, hpar⟩ := C109_tangents hl (by omega) hu
  rw [eD] at eD'
  obtain rfl := Except.ok.inj eD'
  have hpt : ∀ i, i < u.length → pf pts i = A + pf u i • B := fun i hi => hp i _ _ (pf_getElem? (by omega)) (pf_getElem? hi)
  have inner : ∀ i, 0 < i → i + 1 < u.length → D[i]? = some B := by
    intro i h0 h1
    obtain ⟨j, rfl⟩ : ∃ j, i = j + 1 := ⟨i - 1, by omega⟩
    have := (hpar j _ _ _ _ _ _ (pf_getElem? (by omega)) (pf_getElem? (by omega)) (pf_getElem? (show j + 2 < u.length by omega))
      (pf_getElem? (by omega)) (pf_getElem? (by omega)) (pf_getElem? (show j + 2 < pts.length by omega))).2 A B 0
      (by rw [hpt _ (by omega)]; module) (by rw [hpt _ (by omega)]; module) (by rw [hpt _ (by omega)]; module)
    rw [this, smul_zero, add_zero]
  refine ⟨D, eD, hD, inner, ?_, ?_⟩
  · intro a b ha hb
    rw [pf_getElem? (by omega), hfirst h3, pf_of_some (inner 1 (by omega) (by omega)), hpt 0 (by omega), hpt 1 (by omega), pf_of_some ha, pf_of_some hb]
    congr 1
    module
  · intro a b ha hb
    rw [pf_getElem? (by omega), hlast, hpt _ (by omega), hpt _ (by omega), pf_of_some ha, pf_of_some hb]
    congr 1
    module

/-- **C109** is false of the ends: the first vector of the points of a line followed at a constant speed is this speed only when the first
step of the parameters is 1, and the last vector only when the last step is 1/2. -/
theorem C109_ends {pts : List V} {u : List K} (hl : pts.length = u.length) (h3 : 3 ≤ u.length) (hu : u.Pairwise (· < ·)) (A : V) {B : V}
    (hB : B ≠ 0) (hp : ∀ (i : ℕ) (x : V) (t : K), pts[i]? = some x → u[i]? = some t → x = A + t • B) {D : List V}
    (hD : threePointVec pts u = .ok D) :
    (∀ a b, u[0]? = some a → u[1]? = some b → (D[0]? = some B ↔ b - a = 1)) ∧
      ∀ a b, u[u.length - 2]? = some a → u[u.length - 1]? = some b → (D[u.length - 1]? = some B ↔ b - a = 1 / 2) := by
  obtain ⟨D', eD, -, -, h0, h1⟩ := C109_line hl h3 hu A B hp
  rw [hD] at eD
  obtain rfl := Except.ok.inj eD
  have one : ∀ s : K, s • B = B ↔ s = 1 := by
    intro s
    constructor
    · intro h
      have : (s - 1) • B = 0 := by rw [sub_smul, one_smul, h, sub_self]
      linarith [(smul_eq_zero.mp this).resolve_right hB]
    · rintro rfl
      exact one_smul _ _
  constructor
  · intro a b ha hb
    rw [h0 a b ha hb, Option.some.injEq, one]
    constructor <;> intro h <;> linarith
  · intro a b ha hb
    rw [h1 a b ha hb, Option.some.injEq, one]
    constructor <;> intro h <;> linarith

/-! ## Tangent directions -/

theorem adimList_ok {n : ℕ} {sqrt : K → K} {v r : List (Fin n → K)} (h : adimList sqrt v = .ok r) : r.length = v.length ∧
    (∀ i, i + 1 < v.length → vnorm sqrt (pf v i) ≠ 0 ∧ pf r i = (vnorm sqrt (pf v i))⁻¹ • pf v i) ∧ pf r (v.length - 1) = pf v (v.length - 1) := by
  unfold adimList at h
  obtain ⟨m, em, h⟩ := R_bind_eq_ok.mp h
  have hm : 1 ≤ v.length ∧ m = v.length - 1 := by
    unfold usub at em
    split at em
    · cases em; exact ⟨by assumption, rfl⟩
    · cases em
  obtain ⟨hv, rfl⟩ := hm
  have := forLt_okI (fun i (r : List (Fin n → K)) => r.length = v.length ∧ (∀ j, j < i → vnorm sqrt (pf v j) ≠ 0 ∧ pf r j = (vnorm sqrt (pf v j))⁻¹ • pf v j) ∧
    ∀ j, i ≤ j → pf r j = pf v j) (Nat.zero_le _) h ⟨rfl, fun j hj => absurd hj (by omega), fun _ _ => rfl⟩ (by
      rintro i r r' - hi e ⟨h1, h2, h3⟩
      rw [rd_pf (by omega), R_bind_ok] at e
      obtain ⟨y, ey, e⟩ := R_bind_eq_ok.mp e
      rw [wr_ok (by omega)] at e
      obtain rfl := Except.ok.inj e
      unfold vdiv at ey
      split at ey
      · cases ey
      rename_i hne
      obtain rfl := Except.ok.inj ey
      rw [h3 i le_rfl] at hne ⊢
      refine ⟨by simpa using h1, ?_, ?_⟩
      · intro j hj
        rw [pf_set _ (by omega)]
        by_cases hji : j = i
        · subst hji; rw [if_pos rfl]; exact ⟨hne, rfl⟩
        · rw [if_neg hji]; exact h2 j (by omega)
      · intro j hj
        rw [pf_set _ (by omega), if_neg (by omega)]
        exact h3 j (by omega))
  exact ⟨this.1, fun i hi => this.2.1 i (by omega), this.2.2 _ (by omega)⟩

/-- **C109**: fewer than three points are refused by `build_3pt_tg_dir`, for all parameters. -/
theorem C109_few {n : ℕ} (sqrt : K → K) {pts : List (Fin n → K)} (h : pts.length < 3) (u : List K) :
    threePointDir sqrt pts u = .error (.thrown .invalid) := by
  unfold threePointDir
  rw [if_pos h]

/-- **C109**: the directions of `build_3pt_tg_dir`: all of them but the last have norm 1; the direction of each point that has two neighbours
is along the sum of its two chords, each with the weight of the step of parameters of the other; the last is twice the last chord. -/
theorem C109_directions {n : ℕ} {sqrt : K → K} (hs : IsSqrt sqrt) {pts : List (Fin n → K)} {u : List K} (hl : pts.length = u.length)
    (hu : u.Pairwise (· < ·)) {D : List (Fin n → K)} (hD : threePointDir sqrt pts u = .ok D) :
    3 ≤ pts.length ∧ D.length = u.length ∧ (∀ (i : ℕ) (x : Fin n → K), i + 1 < u.length → D[i]? = some x → sqNorm x = 1) ∧
      (∀ (i : ℕ) (a b c : K) (x y z : Fin n → K), u[i]? = some a → u[i + 1]? = some b → u[i + 2]? = some c →
        pts[i]? = some x → pts[i + 1]? = some y → pts[i + 2]? = some z →
        ∃ l : K, 0 < l ∧ D[i + 1]? = some (l • ((c - b) • (y - x) + (b - a) • (z - y)))) ∧
      ∀ x y, pts[pts.length - 2]? = some x → pts[pts.length - 1]? = some y → D[u.length - 1]? = some ((2 : K) • (y - x)) := by
  unfold threePointDir at hD
  split at hD
  · cases hD
  rename_i h3
  have h3 : 3 ≤ pts.length := by omega
  rw [deltaList_ok (by omega), R_bind_ok, deltaList_ok (by omega), R_bind_ok] at hD
  obtain ⟨al, eal, hal, hal'⟩ := besselWeights_ok (by omega) hu
  rw [eal, R_bind_ok] at hD
  obtain ⟨E, eE, hE, hE'⟩ := blendInto_ok
    (v := (List.range (pts.length - 1)).map fun i => pts.getD (i + 1) 0 - pts.getD i 0) (b := al)
    (r := List.replicate u.length 0) (by simp; omega) (by simp; omega) (by simp; omega)
  simp only [List.length_map, List.length_range, List.length_replicate] at hE hE'
  rw [eE, R_bind_ok] at hD
  obtain ⟨F, eF, hF, hF0, hF1, hF2⟩ := tangentEnds_ok (K := K)
    (q := (List.range (pts.length - 1)).map fun i => pts.getD (i + 1) 0 - pts.getD i 0) (D := E) (by simp; omega) (by omega)
  rw [eF, R_bind_ok] at hD
  obtain ⟨hD1, hD2, hD3⟩ := adimList_ok hD
  refine ⟨h3, by omega, ?_, ?_, ?_⟩
  · intro i x hi hx
    obtain ⟨g1, g2⟩ := hD2 i (by omega)
    rw [pf_of_some hx] at g2
    have hn := vnorm_mul_self hs (pf F i)
    rw [g2]
    set N := vnorm sqrt (pf F i)
    have : sqNorm (N⁻¹ • pf F i) = N⁻¹ * N⁻¹ * sqNorm (pf F i) := by
      unfold sqNorm
      rw [Finset.mul_sum]
      refine Finset.sum_congr rfl fun j _ => ?_
      simp only [Pi.smul_apply, smul_eq_mul]
      ring
    rw [this, ← hn]
    field_simp
  · intro i a b c x y z ha hb hc hx hy hz
    have hi : i + 2 < u.length := (kf_of_some hc).1
    have hab := param_step hu (show i + 1 < u.length by omega)
    have hbc := param_step hu hi
    have hm := hE' i (by omega)
    rw [if_pos (by omega), hal' i hi, pf_delta (by omega), pf_delta (by omega), pf_of_some hx, pf_of_some hy, pf_of_some hz] at hm
    rw [pf_of_some ha, pf_of_some hb] at hab hm
    rw [pf_of_some hb, pf_of_some hc] at hbc
    rw [pf_of_some hc] at hm
    obtain ⟨g1, g2⟩ := hD2 (i + 1) (by omega)
    have hpos : 0 < vnorm sqrt (pf F (i + 1)) := lt_of_le_of_ne (hs _ (sqNorm_nonneg _)).1 (Ne.symm g1)
    have hd : 0 < c - b + (b - a) := by linarith
    refine ⟨(vnorm sqrt (pf F (i + 1)))⁻¹ * (c - b + (b - a))⁻¹, mul_pos (inv_pos.mpr hpos) (inv_pos.mpr hd), ?_⟩
    rw [pf_getElem? (by omega), g2, mul_smul]
    congr 2
    rw [hF2 (i + 1) (by omega) (by omega), hm]
    have e : 1 - (b - a) / (c - b + (b - a)) = (c - b + (b - a))⁻¹ * (c - b) := by field_simp; ring
    rw [e, div_eq_inv_mul, mul_smul, mul_smul, ← smul_add]
  · intro x y hx hy
    have hm := hE' (u.length - 2) (by omega)
    rw [if_neg (by omega), show u.length - 2 + 1 = u.length - 1 by omega] at hm
    rw [pf_getElem? (by omega), show u.length - 1 = F.length - 1 by omega, hD3, hF, hF1, hE, hm, sub_zero, List.length_map, List.length_range,
      pf_delta (by omega), show pts.length - 1 - 1 + 1 = pts.length - 1 by omega, show pts.length - 1 - 1 = pts.length - 2 by omega,
      pf_of_some hx, pf_of_some hy]

/-- **C109**: with two equal steps the direction is the one of the parabola. -/
theorem C109_direction_parabola {n : ℕ} {sqrt : K → K} (hs : IsSqrt sqrt) {pts : List (Fin n → K)} {u : List K} (hl : pts.length = u.length)
    (hu : u.Pairwise (· < ·)) {D : List (Fin n → K)} (hD : threePointDir sqrt pts u = .ok D) {i : ℕ} {a b c : K} {x y z : Fin n → K}
    (ha : u[i]? = some a) (hb : u[i + 1]? = some b) (hc : u[i + 2]? = some c) (hx : pts[i]? = some x) (hy : pts[i + 1]? = some y)
    (hz : pts[i + 2]? = some z) (he : b - a = c - b) {A B C : Fin n → K} (hA : x = A + a • B + a ^ 2 • C) (hB : y = A + b • B + b ^ 2 • C)
    (hC : z = A + c • B + c ^ 2 • C) : ∃ l : K, 0 < l ∧ D[i + 1]? = some (l • (B + (2 * b) • C)) := by
  obtain ⟨-, -, -, h, -⟩ := C109_directions hs hl hu hD
  obtain ⟨l, hl0, hl1⟩ := h i a b c x y z ha hb hc hx hy hz
  have hab := param_step hu (show i + 1 < u.length from (kf_of_some hb).1)
  rw [pf_of_some ha, pf_of_some hb] at hab
  refine ⟨l * (2 * (b - a) ^ 2), mul_pos hl0 (mul_pos (by norm_num) (pow_pos (by linarith) 2)), ?_⟩
  rw [hl1, hA, hB, hC, mul_smul]
  obtain rfl : c = 2 * b - a := by linarith
  congr 2
  module

/-- **C109**: `build_3pt_tg_dir` ends when none of the vectors to divide by their norms is null. -/
theorem C109_directions_exist {n : ℕ} {sqrt : K → K} (hs : IsSqrt sqrt) {pts : List (Fin n → K)} {u : List K} (hl : pts.length = u.length)
    (h3 : 3 ≤ u.length) (hu : u.Pairwise (· < ·))
    (hmid : ∀ (i : ℕ) (a b c : K) (x y z : Fin n → K), u[i]? = some a → u[i + 1]? = some b → u[i + 2]? = some c →
        pts[i]? = some x → pts[i + 1]? = some y → pts[i + 2]? = some z → (c - b) • (y - x) + (b - a) • (z - y) ≠ 0)
    (hfirst : ∀ (a b c : K) (x y z : Fin n → K), u[0]? = some a → u[1]? = some b → u[2]? = some c → pts[0]? = some x → pts[1]? = some y →
        pts[2]? = some z → (2 * (c - a)) • (y - x) ≠ (c - b) • (y - x) + (b - a) • (z - y)) :
    ∃ D, threePointDir sqrt pts u = .ok D := by
  unfold threePointDir
  rw [if_neg (by omega), deltaList_ok (by omega), R_bind_ok, deltaList_ok (by omega), R_bind_ok]
  obtain ⟨al, eal, hal, hal'⟩ := besselWeights_ok (by omega) hu
  rw [eal, R_bind_ok]
  obtain ⟨E, eE, hE, hE'⟩ := blendInto_ok
    (v := (List.range (pts.length - 1)).map fun i => pts.getD (i + 1) 0 - pts.getD i 0) (b := al)
    (r := List.replicate u.length 0) (by simp; omega) (by simp; omega) (by simp; omega)
  simp only [List.length_map, List.length_range, List.length_replicate] at hE hE'
  rw [eE, R_bind_ok]
  obtain ⟨F, eF, hF, hF0, -, hF2⟩ := tangentEnds_ok (K := K)
    (q := (List.range (pts.length - 1)).map fun i => pts.getD (i + 1) 0 - pts.getD i 0) (D := E) (by simp; omega) (by omega)
  rw [eF, R_bind_ok]
  have mid : ∀ i, i + 2 < u.length → ∃ s : K, 0 < s ∧ s * (pf u (i + 2) - pf u i) = 1 ∧ pf E (i + 1) = s • ((pf u (i + 2) - pf u (i + 1)) • (pf pts (i + 1) - pf pts i) +
      (pf u (i + 1) - pf u i) • (pf pts (i + 2) - pf pts (i + 1))) := by
    intro i hi
    have hab := param_step hu (show i + 1 < u.length by omega)
    have hbc := param_step hu hi
    have hd : 0 < pf u (i + 2) - pf u (i + 1) + (pf u (i + 1) - pf u i) := by linarith
    refine ⟨(pf u (i + 2) - pf u (i + 1) + (pf u (i + 1) - pf u i))⁻¹, inv_pos.mpr hd, ?_, ?_⟩
    · rw [sub_add_sub_cancel] at hd ⊢
      exact inv_mul_cancel₀ hd.ne'
    rw [hE' i (by omega), if_pos (by omega), hal' i hi, pf_delta (by omega), pf_delta (by omega)]
    have e : 1 - (pf u (i + 1) - pf u i) / (pf u (i + 2) - pf u (i + 1) + (pf u (i + 1) - pf u i)) =
        (pf u (i + 2) - pf u (i + 1) + (pf u (i + 1) - pf u i))⁻¹ * (pf u (i + 2) - pf u (i + 1)) := by
      field_simp; ring
    rw [e, div_eq_inv_mul, mul_smul, mul_smul, ← smul_add]
  have hne : ∀ j, j + 1 < u.length → pf F j ≠ 0 := by
    intro j hj
    rcases Nat.eq_zero_or_pos j with rfl | h
    · rw [hF0, pf_delta (by omega)]
      obtain ⟨s, hs0, hs1, e⟩ := mid 0 (by omega)
      simp only [Nat.zero_add] at e hs1 ⊢
      rw [e]
      intro h0
      refine hfirst _ _ _ _ _ _ (pf_getElem? (by omega)) (pf_getElem? (by omega)) (pf_getElem? (show 2 < u.length by omega)) (pf_getElem? (by omega))
        (pf_getElem? (by omega)) (pf_getElem? (show 2 < pts.length by omega)) ?_
      have h4 := congrArg (fun x => (pf u 2 - pf u 0) • x) (sub_eq_zero.mp h0)
      rw [smul_smul, smul_smul, mul_comm (pf u 2 - pf u 0) s, hs1, one_smul] at h4
      rw [← h4]
      congr 1
      ring
    · obtain ⟨i, rfl⟩ : ∃ i, j = i + 1 := ⟨j - 1, by omega⟩
      obtain ⟨s, hs0, -, e⟩ := mid i (by omega)
      rw [hF2 (i + 1) (by omega) (by omega), e]
      exact smul_ne_zero hs0.ne' (hmid i _ _ _ _ _ _ (pf_getElem? (by omega)) (pf_getElem? (by omega)) (pf_getElem? (by omega)) (pf_getElem? (by omega))
        (pf_getElem? (by omega)) (pf_getElem? (by omega)))
  unfold adimList
  rw [usub_ok (by omega), R_bind_ok]
  obtain ⟨r, er, -⟩ := forLt_inv (fun i (r : List (Fin n → K)) => r.length = F.length ∧ ∀ j, i ≤ j → pf r j = pf F j) (a := 0) (b := F.length - 1) (s := F)
    (body := fun i v => do
      let x ← rd v i
      let y ← vdiv x (vnorm sqrt x)
      wr v i y) (Nat.zero_le _) ⟨rfl, fun _ _ => rfl⟩ (by
      rintro i r - hi ⟨h1, h2⟩
      rw [rd_pf (by omega), R_bind_ok, h2 i le_rfl]
      unfold vdiv
      rw [if_neg (vnorm_ne_zero hs (hne i (by omega))), R_bind_ok, wr_ok (by omega)]
      refine ⟨_, rfl, by simpa using h1, ?_⟩
      intro j hj
      rw [pf_set _ (by omega), if_neg (by omega)]
      exact h2 j (by omega))
  exact ⟨r, er⟩

/-! ## Interpolation with computed derivatives -/

/-- The derivative of order `d` at `t` of the polynomial with the coefficients `A 0 … A (n-1)`. -/
def Spec.polyDer (A : ℕ → V) (n d : ℕ) (t : K) : V := ∑ k ∈ Finset.range n, ((k.descFactorial d : K) * t ^ (k - d)) • A k

theorem polyDer_eq (A : ℕ → V) (n d : ℕ) (t : K) :
    Spec.polyDer A n d t = ∑ k ∈ Finset.range n, (derivative^[d] (X ^ k : K[X])).eval t • A k := by
  unfold Spec.polyDer
  refine Finset.sum_congr rfl fun k _ => ?_
  rw [Polynomial.iterate_derivative_X_pow_eq_smul]
  simp

/-- Poles at the blossom of a polynomial give all the derivatives of this polynomial. -/
theorem poly_poles_der {t : ℕ → K} (ht : Monotone t) {n p i : ℕ} (hpi : p ≤ i) (hi : i < n) (hk : t i < t (i + 1)) (A : ℕ → V) {P : ℕ → V}
    (hP : ∀ j, j < n → P j = polyBlossom p A (seg t (j + 1) p)) (d : ℕ) (v : K) : spanDer t n p i P d v = Spec.polyDer A (p + 1) d v := by
  rw [polyDer_eq]
  unfold spanDer
  refine sum_derivative_congr (q := Bp t i p) (q' := fun k => X ^ k) (fun v => ?_) d v
  have := poly_poles ht hpi hi hk A hP v
  unfold spanDer at this
  simpa using this

/-- **C109**: the interpolation of the derivatives of order 0 to `nc - 1` of a polynomial of degree at most `2 nc - 1` is this polynomial, with
all its derivatives. -/
theorem C109_hermite {eps meps : K} (heps : 0 < eps) (hm : 0 ≤ meps) (growth junk : K) (x0 : V) {nc : ℕ} (hnc : 1 ≤ nc)
    (hp : 2 * nc - 1 ≤ stackMaxDegree) {Q : List (List V)} {u : List K} (hl : Q.length = u.length) (hn : 2 ≤ u.length) (hu : u.Pairwise (· < ·))
    (hQ : ∀ q ∈ Q, q.length = nc) {sparse : ℕ → List (ℕ × ℕ × K) → List V → R (List V)} (hS : Spec.SolvesRegular sparse) (A : ℕ → V)
    (hA : ∀ (i : ℕ) (q : List V) (t : K) (d : ℕ) (v : V), Q[i]? = some q → u[i]? = some t → q[d]? = some v → v = Spec.polyDer A (2 * nc) d t) :
    ∃ c, interpolateNc eps meps growth junk x0 sparse nc Q u = .ok c ∧ some c.b0 = u.head? ∧ some c.b1 = u.getLast? ∧
      ∀ t, c.b0 ≤ t → t ≤ c.b1 → ∀ d junk', c.value eps junk' t d = .ok (Spec.polyDer A (2 * nc) d t) := by
  obtain ⟨c, ec, hg, hd, hlen, hb0, hb1, hv⟩ := C36_interpolate_derivatives heps hm growth junk x0 hnc hp hl hn hu hQ hS
  refine ⟨c, ec, hb0, hb1, ?_⟩
  have hbig : c.BigOk eps := Or.inl (by rw [hd]; exact hp)
  obtain ⟨k, ek, P', ⟨hl', hP'⟩, huniq⟩ := C76_unique_hermite heps junk hnc hp hl hn hu hQ
  have hk : c.knots = k := by
    unfold interpolateNc at ec
    rw [usub_ok (by omega), R_bind_ok, if_neg (by omega), hl, show 2 * nc - 1 + 1 = 2 * nc by omega, ek, R_bind_ok] at ec
    obtain ⟨P, -, ec⟩ := R_bind_eq_ok.mp ec
    exact (mk?_eq ec).2.2
  have hmono : Monotone (kf c.knots) := kf_mono hg.wf.sorted
  have hcl : c.poles.length = u.length * nc := by rw [hlen, hl]
  set G : List V := (List.range (u.length * nc)).map fun j => polyBlossom (2 * nc - 1) A (seg (kf c.knots) (j + 1) (2 * nc - 1)) with hG
  have hGl : G.length = u.length * nc := by simp [hG]
  have hGj : ∀ j, j < u.length * nc → pf G j = polyBlossom (2 * nc - 1) A (seg (kf c.knots) (j + 1) (2 * nc - 1)) := fun j hj => by
    rw [hG, pf_map_range _ hj]
  have poly : ∀ t d i, findSpan c.poles.length c.deg t c.knots = .ok i → spanDer (kf c.knots) (u.length * nc) (2 * nc - 1) i (pf G) d t = Spec.polyDer A (2 * nc) d t := by
    intro t d i e
    obtain ⟨i', e', a1, a2, a3, -⟩ := findSpan_wf hg.wf t
    rw [e] at e'
    obtain rfl := Except.ok.inj e'
    rw [hd] at a1
    rw [poly_poles_der hmono a1 (by omega) a3 A hGj d t, show 2 * nc - 1 + 1 = 2 * nc by omega]
  have mem : ∀ (i : ℕ) (t : K), u[i]? = some t → c.b0 ≤ t ∧ t ≤ c.b1 := by
    intro i t h
    obtain ⟨hi, rfl⟩ := kf_of_some h
    have hle : u.Pairwise (· ≤ ·) := hu.imp le_of_lt
    rw [List.head?_eq_getElem?, kf_getElem? (by omega)] at hb0
    rw [List.getLast?_eq_getElem?, kf_getElem? (by omega)] at hb1
    rw [Option.some.inj hb0, Option.some.inj hb1]
    exact ⟨kf_mono hle (by omega), kf_mono hle (by omega)⟩
  -- the curve with the poles at the blossoms
  have hgG : (⟨c.deg, G, c.knots, c.b0, c.b1⟩ : Curve K V).Good := by
    have hw : Wf c.deg c.knots G := ⟨hg.wf.sorted, by rw [hGl, ← hcl]; exact hg.wf.len, by rw [hGl, ← hcl]; exact hg.wf.min,
      hg.wf.first, by rw [hGl, ← hcl]; exact hg.wf.last⟩
    exact ⟨hw, hg.lo, by show c.b1 = kf c.knots G.length; rw [hGl, ← hcl]; exact hg.hi⟩
  have gval : ∀ t, c.b0 ≤ t → t ≤ c.b1 → ∀ d junk', (⟨c.deg, G, c.knots, c.b0, c.b1⟩ : Curve K V).value eps junk' t d = .ok (Spec.polyDer A (2 * nc) d t) := by
    intro t h0 h1 d junk'
    obtain ⟨s, e, -, -, -, hval⟩ := Curve.value_span heps hgG (Or.inl (by show c.deg ≤ _; rw [hd]; exact hp)) h0 h1
    rw [hval junk' d]
    simp only [hGl] at e ⊢
    rw [← hcl] at e
    simp only [hd]
    exact congrArg _ (poly t d s e)
  have hPG : c.poles = G := by
    rw [huniq c.poles ⟨hcl, ?_⟩, huniq G ⟨hGl, ?_⟩]
    · intro i t q d v ht hq hdv
      obtain ⟨h0, h1⟩ := mem i t ht
      have := gval t h0 h1 d junk
      unfold Curve.value at this
      rw [if_neg (by push Not; constructor <;> simp only <;> linarith)] at this
      simp only [hd, hk] at this
      rw [this, hA i q t d v hq ht hdv]
    · intro i t q d v ht hq hdv
      obtain ⟨h0, h1⟩ := mem i t ht
      have := hv i q t d v hq ht hdv junk
      unfold Curve.value at this
      rw [if_neg (by push Not; constructor <;> linarith), hd, hk] at this
      exact this
  intro t h0 h1 d junk'
  have := gval t h0 h1 d junk'
  rw [← hPG] at this
  exact this

/-- The constraints with the computed derivatives. -/
theorem computedConstraints_ok {nc : ℕ} (hnc : 1 ≤ nc) {Q : List (List V)} {u : List K} (hl : Q.length = u.length) (h2 : 2 ≤ u.length)
    (hu : u.Pairwise (· < ·)) (hQ : ∀ q ∈ Q, q.length = nc) :
    ∃ Q', computedConstraints nc Q u = .ok Q' ∧ Q'.length = Q.length ∧ (∀ q ∈ Q', q.length = nc + 1) ∧
      (∀ (i : ℕ) (q : List V) (d : ℕ) (v : V), Q[i]? = some q → q[d]? = some v → ∃ q', Q'[i]? = some q' ∧ q'[d]? = some v) ∧
      (∃ q, Q'[0]? = some q ∧ q[nc]? = some 0) ∧ (∃ q, Q'[u.length - 1]? = some q ∧ q[nc]? = some 0) ∧
      ∀ (i : ℕ) (a b c : K) (x y z : V) (qx qy qz : List V), u[i]? = some a → u[i + 1]? = some b → u[i + 2]? = some c →
        Q[i]? = some qx → Q[i + 1]? = some qy → Q[i + 2]? = some qz → qx[nc - 1]? = some x → qy[nc - 1]? = some y → qz[nc - 1]? = some z →
        ∀ A B C : V, x = A + a • B + a ^ 2 • C → y = A + b • B + b ^ 2 • C → z = A + c • B + c ^ 2 • C →
          ∃ q', Q'[i + 1]? = some q' ∧ q'[nc]? = some (B + (2 * b) • C) := by
  unfold computedConstraints
  have hlen : ∀ (i : ℕ) (q : List V), Q[i]? = some q → q.length = nc := fun i q h => hQ q (List.mem_of_getElem? h)
  obtain ⟨v, ev⟩ := mapM_exists (f := fun q : List V => do
    let l ← usub nc 1
    rd q l) Q (by
      intro q hq
      rw [usub_ok hnc, R_bind_ok, rd_ok (by rw [hQ q hq]; omega)]
      exact ⟨_, rfl⟩)
  obtain ⟨hvl, hv⟩ := mapM_inv ev
  rw [ev, R_bind_ok]
  obtain ⟨w, ew, hw, hpar⟩ := C109_tangents (pts := v) (by rw [hvl, hl]) h2 hu
  rw [ew, R_bind_ok]
  have row : ∀ j, j < Q.length → ∃ y, (do
      let q ← rd Q j
      let qs ← (List.range nc).mapM fun i => rd q i
      let x ← rd w j
      pure (qs ++ [x]) : R (List V)) = .ok y := by
    intro j hj
    rw [rd_ok hj, R_bind_ok, mapM_ok (g := fun i => Q[j].getD i 0) _ (by
      intro i hi
      exact rd_getD 0 (by rw [hQ _ (List.getElem_mem hj)]; exact List.mem_range.mp hi)), R_bind_ok, rd_ok (by omega), R_bind_ok]
    exact ⟨_, rfl⟩
  obtain ⟨T, eT⟩ := mapM_range_exists row
  obtain ⟨hT, hT'⟩ := mapM_range_inv eT
  rw [eT, R_bind_ok]
  -- the rows before the ends are set to zero
  have rows : ∀ j, j < Q.length → ∃ (q r : List V) (x : V), Q[j]? = some q ∧ w[j]? = some x ∧ T[j]? = some r ∧ r = q ++ [x] := by
    intro j hj
    obtain ⟨y, ey, hy⟩ := hT' j hj
    rw [rd_ok hj, R_bind_ok, mapM_ok (g := fun i => Q[j].getD i 0) _ (by
      intro i hi
      exact rd_getD 0 (by rw [hQ _ (List.getElem_mem hj)]; exact List.mem_range.mp hi)), R_bind_ok, rd_ok (show j < w.length by omega), R_bind_ok] at ey
    refine ⟨Q[j], y, w[j], by simp [hj], by simp, hy, ?_⟩
    rw [← Except.ok.inj ey]
    congr 1
    apply List.ext_getElem (by rw [List.length_map, List.length_range, hQ _ (List.getElem_mem hj)])
    intro i h1 h2
    simp [h2]
  obtain ⟨q0, r0, y0, hq0, hy0, hr0, er0⟩ := rows 0 (by omega)
  have l0 : r0.length = nc + 1 := by rw [er0, List.length_append, hlen 0 q0 hq0]; rfl
  rw [rd_eq_ok.mpr hr0, R_bind_ok, wr_ok (by omega), R_bind_ok, wr_ok (by omega), R_bind_ok, usub_ok (by omega), R_bind_ok]
  obtain ⟨q1, r1, y1, hq1, hy1, hr1, er1⟩ := rows (Q.length - 1) (by omega)
  have l1 : r1.length = nc + 1 := by rw [er1, List.length_append, hlen _ q1 hq1]; rfl
  rw [rd_eq_ok.mpr (by rw [getElem?_set_of_lt (by omega), if_neg (by omega)]; exact hr1), R_bind_ok, wr_ok (by omega), R_bind_ok,
    wr_ok (by rw [List.length_set]; omega)]
  have get : ∀ j, ((T.set 0 (r0.set nc 0)).set (Q.length - 1) (r1.set nc 0))[j]? =
      if j = Q.length - 1 then some (r1.set nc 0) else if j = 0 then some (r0.set nc 0) else T[j]? := by
    intro j
    rw [getElem?_set_of_lt (by rw [List.length_set]; omega), getElem?_set_of_lt (by omega)]
  refine ⟨_, rfl, by simp [hT], ?_, ?_, ?_, ?_, ?_⟩
  · intro q hq
    obtain ⟨j, hj⟩ := List.getElem?_of_mem hq
    rw [get] at hj
    split_ifs at hj
    · rw [← Option.some.inj hj, List.length_set, l1]
    · rw [← Option.some.inj hj, List.length_set, l0]
    · have hjl : j < T.length := by
        by_contra hc
        rw [List.getElem?_eq_none (by omega)] at hj
        cases hj
      obtain ⟨q', r', x', h1, -, h3, h4⟩ := rows j (by omega)
      rw [hj] at h3
      rw [Option.some.inj h3, h4, List.length_append, hlen j q' h1]
      rfl
  · intro i q d v hq hd
    have hi : i < Q.length := by
      by_contra hc
      rw [List.getElem?_eq_none (by omega)] at hq
      cases hq
    have hdn : d < nc := by
      rw [← hlen i q hq]
      by_contra hc
      rw [List.getElem?_eq_none (by omega)] at hd
      cases hd
    obtain ⟨q', r', x', h1, -, h3, h4⟩ := rows i hi
    rw [hq] at h1
    obtain rfl := Option.some.inj h1
    have hrd : r'[d]? = some v := by rw [h4, List.getElem?_append_left (by rw [hlen i q hq]; exact hdn), hd]
    rw [get]
    split_ifs with c1 c2
    · rw [← c1, h3] at hr1
      obtain rfl := Option.some.inj hr1
      exact ⟨_, rfl, by rw [getElem?_set_of_lt (by omega), if_neg (by omega), hrd]⟩
    · rw [← c2, h3] at hr0
      obtain rfl := Option.some.inj hr0
      exact ⟨_, rfl, by rw [getElem?_set_of_lt (by omega), if_neg (by omega), hrd]⟩
    · exact ⟨_, h3, hrd⟩
  · exact ⟨r0.set nc 0, by rw [get, if_neg (by omega), if_pos rfl], by rw [getElem?_set_of_lt (by omega), if_pos rfl]⟩
  · exact ⟨r1.set nc 0, by rw [get, if_pos (by omega)], by rw [getElem?_set_of_lt (by omega), if_pos rfl]⟩
  · intro i a b c x y z qx qy qz ha hb hc hqx hqy hqz hx hy hz A B C hA hB hC
    have hi : i + 2 < u.length := (kf_of_some hc).1
    have vget : ∀ (j : ℕ) (q : List V) (x : V), Q[j]? = some q → q[nc - 1]? = some x → v[j]? = some x := by
      intro j q x hq hx
      obtain ⟨y, ey, hy⟩ := hv j q hq
      rw [usub_ok hnc, R_bind_ok, rd_eq_ok.mpr hx] at ey
      rw [hy, Except.ok.inj ey]
    have hD := (hpar i a b c x y z ha hb hc (vget _ _ _ hqx hx) (vget _ _ _ hqy hy) (vget _ _ _ hqz hz)).2 A B C hA hB hC
    obtain ⟨q', r', x', h1, h2', h3, h4⟩ := rows (i + 1) (by omega)
    rw [hD] at h2'
    obtain rfl := Option.some.inj h2'
    refine ⟨r', by rw [get, if_neg (by omega), if_neg (by omega), h3], ?_⟩
    rw [h4, List.getElem?_append_right (by rw [hlen _ q' h1]), hlen _ q' h1, Nat.sub_self]
    rfl

/-- **C109**: the interpolation with computed derivatives of two points or more with `nc` values each has the degree `2 nc + 1`, meets all the
given values, has at each point with two neighbours the derivative of order `nc` of the parabola through the three values of order `nc - 1`, and
a null derivative of order `nc` at both ends. -/
theorem C109_computed {eps meps : K} (heps : 0 < eps) (hm : 0 ≤ meps) (growth junk : K) (x0 : V) {nc : ℕ} (hnc : 1 ≤ nc)
    (hp : 2 * nc + 1 ≤ stackMaxDegree) {Q : List (List V)} {u : List K} (hl : Q.length = u.length) (h2 : 2 ≤ u.length) (hu : u.Pairwise (· < ·))
    (hQ : ∀ q ∈ Q, q.length = nc) {sparse : ℕ → List (ℕ × ℕ × K) → List V → R (List V)} (hS : Spec.SolvesRegular sparse) :
    ∃ c, interpolateWith eps meps growth junk x0 sparse nc Q u true = .ok c ∧ c.Good ∧ c.deg = 2 * nc + 1 ∧
      some c.b0 = u.head? ∧ some c.b1 = u.getLast? ∧
      (∀ (i : ℕ) (q : List V) (t : K) (d : ℕ) (v : V), Q[i]? = some q → u[i]? = some t → q[d]? = some v → ∀ junk', c.value eps junk' t d = .ok v) ∧
      (∀ junk', c.value eps junk' c.b0 nc = .ok 0 ∧ c.value eps junk' c.b1 nc = .ok 0) ∧
      ∀ (i : ℕ) (a b e : K) (x y z : V) (qx qy qz : List V), u[i]? = some a → u[i + 1]? = some b → u[i + 2]? = some e →
        Q[i]? = some qx → Q[i + 1]? = some qy → Q[i + 2]? = some qz → qx[nc - 1]? = some x → qy[nc - 1]? = some y → qz[nc - 1]? = some z →
        ∀ A B C : V, x = A + a • B + a ^ 2 • C → y = A + b • B + b ^ 2 • C → z = A + e • B + e ^ 2 • C →
          ∀ junk', c.value eps junk' b nc = .ok (B + (2 * b) • C) := by
  obtain ⟨Q', eQ, q1, q2, q3, ⟨e0, q40, q41⟩, ⟨e1, q50, q51⟩, q6⟩ := computedConstraints_ok hnc hl h2 hu hQ
  obtain ⟨c, ec, hg, hd, -, hb0, hb1, hv⟩ := C36_interpolate_derivatives heps hm growth junk x0 (nc := nc + 1) (by omega)
    (show 2 * (nc + 1) - 1 ≤ _ by rw [show 2 * (nc + 1) - 1 = 2 * nc + 1 by omega]; exact hp) (by rw [q1, hl]) h2 hu q2 hS
  refine ⟨c, ?_, hg, by omega, hb0, hb1, ?_, ?_, ?_⟩
  · unfold interpolateWith
    rw [if_pos rfl, eQ, R_bind_ok, ec]
  · intro i q t d v hq ht hdv junk'
    obtain ⟨q', h1, h2⟩ := q3 i q d v hq hdv
    exact hv i q' t d v h1 ht h2 junk'
  · intro junk'
    refine ⟨hv 0 e0 c.b0 nc 0 q40 ?_ q41 junk', hv (u.length - 1) e1 c.b1 nc 0 q50 ?_ q51 junk'⟩
    · rw [hb0, List.head?_eq_getElem?]
    · rw [hb1, List.getLast?_eq_getElem?]
  · intro i a b e x y z qx qy qz ha hb he hqx hqy hqz hx hy hz A B C hA hB hC junk'
    obtain ⟨q', h1, h2⟩ := q6 i a b e x y z qx qy qz ha hb he hqx hqy hqz hx hy hz A B C hA hB hC
    exact hv (i + 1) q' b nc _ h1 hb h2 junk'

theorem polyDer_top (A : ℕ → V) (n : ℕ) (t : K) : Spec.polyDer A (n + 1) n t = (n.factorial : K) • A n := by
  unfold Spec.polyDer
  rw [Finset.sum_range_succ, Finset.sum_eq_zero]
  · simp [Nat.descFactorial_self]
  · intro k hk
    rw [Nat.descFactorial_eq_zero_iff_lt.mpr (Finset.mem_range.mp hk)]
    simp

/-- **C109**: the interpolation with computed derivatives of the values of a polynomial of degree at most `nc - 1` is this polynomial. -/
theorem C109_reproduces {eps meps : K} (heps : 0 < eps) (hm : 0 ≤ meps) (growth junk : K) (x0 : V) {nc : ℕ} (hnc : 1 ≤ nc)
    (hp : 2 * nc + 1 ≤ stackMaxDegree) {Q : List (List V)} {u : List K} (hl : Q.length = u.length) (h2 : 2 ≤ u.length) (hu : u.Pairwise (· < ·))
    (hQ : ∀ q ∈ Q, q.length = nc) {sparse : ℕ → List (ℕ × ℕ × K) → List V → R (List V)} (hS : Spec.SolvesRegular sparse) (A : ℕ → V)
    (hA : ∀ (i : ℕ) (q : List V) (t : K) (d : ℕ) (v : V), Q[i]? = some q → u[i]? = some t → q[d]? = some v → v = Spec.polyDer A nc d t) :
    ∃ c, interpolateWith eps meps growth junk x0 sparse nc Q u true = .ok c ∧ some c.b0 = u.head? ∧ some c.b1 = u.getLast? ∧
      ∀ t, c.b0 ≤ t → t ≤ c.b1 → ∀ d junk', c.value eps junk' t d = .ok (Spec.polyDer A nc d t) := by
  obtain ⟨Q', eQ, q1, q2, q3, ⟨e0, q40, q41⟩, ⟨e1, q50, q51⟩, q6⟩ := computedConstraints_ok hnc hl h2 hu hQ
  set A' : ℕ → V := fun k => if k < nc then A k else 0 with hA'
  have hpoly : ∀ (d : ℕ) (t : K), Spec.polyDer A' (2 * (nc + 1)) d t = Spec.polyDer A nc d t := by
    intro d t
    unfold Spec.polyDer
    rw [← Finset.sum_subset (s₁ := Finset.range nc) (by intro k hk; rw [Finset.mem_range] at *; omega)]
    · refine Finset.sum_congr rfl fun k hk => ?_
      rw [hA']
      simp only
      rw [if_pos (Finset.mem_range.mp hk)]
    · intro k _ hk
      rw [hA']
      simp only
      rw [if_neg (by rwa [Finset.mem_range] at hk), smul_zero]
  have hzero : ∀ t : K, Spec.polyDer A nc nc t = 0 := by
    intro t
    unfold Spec.polyDer
    refine Finset.sum_eq_zero fun k hk => ?_
    rw [Nat.descFactorial_eq_zero_iff_lt.mpr (Finset.mem_range.mp hk)]
    simp
  have hconst : ∀ t : K, Spec.polyDer A nc (nc - 1) t = ((nc - 1).factorial : K) • A (nc - 1) := by
    intro t
    have := polyDer_top A (nc - 1) t
    rwa [show nc - 1 + 1 = nc by omega] at this
  have hlen : ∀ (i : ℕ) (q : List V), Q[i]? = some q → q.length = nc := fun i q h => hQ q (List.mem_of_getElem? h)
  obtain ⟨c, ec, hb0, hb1, hv⟩ := C109_hermite heps hm growth junk x0 (nc := nc + 1) (by omega)
    (show 2 * (nc + 1) - 1 ≤ _ by rw [show 2 * (nc + 1) - 1 = 2 * nc + 1 by omega]; exact hp) (by rw [q1, hl]) h2 hu q2 hS A' (by
      intro i q' t d v hq' ht hdv
      rw [hpoly]
      have hi : i < u.length := (kf_of_some ht).1
      have hd : d < nc + 1 := by
        rw [← q2 q' (List.mem_of_getElem? hq')]
        by_contra hc
        rw [List.getElem?_eq_none (by omega)] at hdv
        cases hdv
      have some_of : ∀ j, j < u.length → ∃ q, Q[j]? = some q ∧ ∀ d, d < nc → q[d]? = some (Spec.polyDer A nc d (pf u j)) := by
        intro j hj
        refine ⟨Q[j]'(by omega), by simp, ?_⟩
        intro d hd
        have h1 : d < (Q[j]'(by omega)).length := by rw [hQ _ (List.getElem_mem _)]; exact hd
        rw [List.getElem?_eq_getElem h1]
        congr 1
        exact hA j _ (pf u j) d _ (by simp) (pf_getElem? hj) (List.getElem?_eq_getElem h1)
      by_cases hdn : d < nc
      · obtain ⟨q, hq, hqd⟩ := some_of i hi
        obtain ⟨q'', h1, h2⟩ := q3 i q d _ hq (hqd d hdn)
        rw [hq'] at h1
        obtain rfl := Option.some.inj h1
        rw [hdv] at h2
        rw [Option.some.inj h2, pf_of_some ht]
      · obtain rfl : d = nc := by omega
        rw [hzero]
        rcases Nat.eq_zero_or_pos i with rfl | hpos
        · rw [hq'] at q40
          obtain rfl := Option.some.inj q40
          rw [hdv] at q41
          exact Option.some.inj q41
        by_cases hlast : i = u.length - 1
        · rw [← hlast, hq'] at q50
          obtain rfl := Option.some.inj q50
          rw [hdv] at q51
          exact Option.some.inj q51
        obtain ⟨j, rfl⟩ : ∃ j, i = j + 1 := ⟨i - 1, by omega⟩
        obtain ⟨qx, hqx, hx⟩ := some_of j (by omega)
        obtain ⟨qy, hqy, hy⟩ := some_of (j + 1) (by omega)
        obtain ⟨qz, hqz, hz⟩ := some_of (j + 2) (by omega)
        obtain ⟨q'', h1, h2⟩ := q6 j _ _ _ _ _ _ qx qy qz (pf_getElem? (by omega)) (pf_getElem? (by omega)) (pf_getElem? (show j + 2 < u.length by omega))
          hqx hqy hqz (hx _ (by omega)) (hy _ (by omega)) (hz _ (by omega)) (((d - 1).factorial : K) • A (d - 1)) 0 0
          (by rw [hconst]; module) (by rw [hconst]; module) (by rw [hconst]; module)
        rw [hq'] at h1
        obtain rfl := Option.some.inj h1
        rw [hdv] at h2
        rw [Option.some.inj h2, smul_zero, add_zero])
  refine ⟨c, ?_, hb0, hb1, ?_⟩
  · unfold interpolateWith
    rw [if_pos rfl, eQ, R_bind_ok, ec]
  · intro t h0 h1 d junk'
    rw [hv t h0 h1 d junk', hpoly]

/-- **C109**: it is not this polynomial as soon as the degree is `nc`: the derivative of order `nc` is null at the ends. In particular the curve
through points of a line at the parameters of a constant speed, without given tangents, stops at both ends. -/
theorem C109_not_reproduces {eps meps : K} (heps : 0 < eps) (hm : 0 ≤ meps) (growth junk : K) (x0 : V) {nc : ℕ} (hnc : 1 ≤ nc)
    (hp : 2 * nc + 1 ≤ stackMaxDegree) {Q : List (List V)} {u : List K} (hl : Q.length = u.length) (h2 : 2 ≤ u.length) (hu : u.Pairwise (· < ·))
    (hQ : ∀ q ∈ Q, q.length = nc) {sparse : ℕ → List (ℕ × ℕ × K) → List V → R (List V)} (hS : Spec.SolvesRegular sparse) (A : ℕ → V)
    (hA : A nc ≠ 0) : ∃ c, interpolateWith eps meps growth junk x0 sparse nc Q u true = .ok c ∧
      ∀ junk', c.value eps junk' c.b0 nc ≠ .ok (Spec.polyDer A (nc + 1) nc c.b0) ∧ c.value eps junk' c.b1 nc ≠ .ok (Spec.polyDer A (nc + 1) nc c.b1) := by
  obtain ⟨c, ec, -, -, -, -, -, h, -⟩ := C109_computed heps hm growth junk x0 hnc hp hl h2 hu hQ hS
  have hne : (nc.factorial : K) • A nc ≠ 0 := smul_ne_zero (by exact_mod_cast nc.factorial_ne_zero) hA
  refine ⟨c, ec, fun junk' => ?_⟩
  rw [(h junk').1, (h junk').2, polyDer_top, polyDer_top]
  exact ⟨fun e => hne (Except.ok.inj e).symm, fun e => hne (Except.ok.inj e).symm⟩

/-- **C109**: a degree that is not below the number of points is refused. -/
theorem C109_degree_refused (eps meps growth junk : K) (x0 : V) (sparse : ℕ → List (ℕ × ℕ × K) → List V → R (List V)) (dist : V → V → K)
    (sqrt : K → K) {Q : List V} {p : ℕ} (h : Q.length ≤ p) (mode : KnotsCalcMode) :
    interpolateDegree eps meps growth junk x0 sparse dist sqrt Q p mode = .error (.thrown .domain) := by
  unfold interpolateDegree
  rw [if_pos h]

/-- **C109**: a smaller degree is accepted for points different from their neighbours, or equally spaced parameters: the curve passes through
the points, in their order, at parameters from 0 whose steps are proportional to the lengths of the mode. -/
theorem C109_degree {eps meps : ℝ} (heps : 0 < eps) (hm : 0 ≤ meps) (growth junk : ℝ) {dim : ℕ} (x0 : Fin dim → ℝ) {p : ℕ} (hp1 : 1 ≤ p)
    (hp : p ≤ stackMaxDegree) {Q : List (Fin dim → ℝ)} (hn : p < Q.length) {mode : KnotsCalcMode}
    (hQ : mode = .equallySpaced ∨ Q.IsChain (· ≠ ·)) {sparse : ℕ → List (ℕ × ℕ × ℝ) → List (Fin dim → ℝ) → R (List (Fin dim → ℝ))}
    (hS : Spec.SolvesRegular sparse) :
    ∃ (c : Curve ℝ (Fin dim → ℝ)) (u : List ℝ) (s : ℝ), interpolateDegree eps meps growth junk x0 sparse eDist Real.sqrt Q p mode = .ok c ∧ c.deg = p ∧ c.poles.length = Q.length ∧ 0 < s ∧
      u.length = Q.length ∧ u.Pairwise (· < ·) ∧ u.head? = some 0 ∧ some c.b0 = u.head? ∧ some c.b1 = u.getLast? ∧
      (∀ i a b, Q[i]? = some a → Q[i + 1]? = some b → ∃ t t', u[i]? = some t ∧ u[i + 1]? = some t' ∧ t' - t = s * Spec.segLen Q.length mode a b) ∧
      ∀ (i : ℕ) (q : Fin dim → ℝ) (t : ℝ), Q[i]? = some q → u[i]? = some t → ∀ junk', c.value eps junk' t 0 = .ok q := by
  have hne : Q ≠ [] := by rintro rfl; simp at hn
  obtain ⟨k0, e0, hk0, hh, -, hst, hseg⟩ := C34_parametrization eps Q hne mode
  obtain ⟨k0', t, e0', ht, a1, a2⟩ := C34_normalized heps Q hne mode
  rw [e0] at e0'
  obtain rfl := Except.ok.inj e0'
  have key : ∃ (u : List ℝ) (s : ℝ), curveParametrization eps eDist Real.sqrt Q mode true = .ok u ∧ 0 < s ∧ u = k0.map (fun x => x * s) := by
    rcases lt_or_ge eps t with h | h
    · obtain ⟨k, ek, hk, -⟩ := a1 h
      exact ⟨k, t⁻¹, ek, inv_pos.mpr (by linarith), by rw [hk]; rfl⟩
    · exact ⟨k0, 1, a2 h, one_pos, by simp⟩
  obtain ⟨u, s, eu, hs, hu⟩ := key
  have hul : u.length = Q.length := by rw [hu, List.length_map, hk0]
  have hup : u.Pairwise (· < ·) := by
    rw [hu, List.pairwise_map]
    exact (hst hQ).imp fun h => mul_lt_mul_of_pos_right h hs
  obtain ⟨c, ec, -, hd, hcl, hb0, hb1, hv⟩ := C36_interpolate_points heps hm growth junk x0 hp1 hp (Q := Q) (u := u) hul.symm (by omega) hup hS
  refine ⟨c, u, s, ?_, hd, hcl, hs, hul, hup, by rw [hu, List.head?_map, hh]; simp, hb0, hb1, ?_, hv⟩
  · unfold interpolateDegree
    rw [if_neg (by omega), eu, R_bind_ok, ec]
  · intro i a b ha hb
    obtain ⟨x, y, hx, hy, hxy⟩ := hseg i a b ha hb
    refine ⟨x * s, y * s, by rw [hu, List.getElem?_map, hx]; rfl, by rw [hu, List.getElem?_map, hy]; rfl, ?_⟩
    rw [← hxy]
    ring

/-- **C109**: the values of one order of all the constraints, in their order. -/
theorem C109_constrain {V : Type} {Q : List (List V)} {d : ℕ} (h : ∀ q ∈ Q, d < q.length) :
    ∃ r, getConstrain Q d = .ok r ∧ r.length = Q.length ∧
      ∀ (i : ℕ) (q : List V) (x : V), Q[i]? = some q → q[d]? = some x → r[i]? = some x := by
  obtain ⟨r, e⟩ := mapM_exists (f := fun q : List V => rd q d) Q (fun q hq => ⟨q[d]'(h q hq), rd_eq_ok.mpr (List.getElem?_eq_getElem (h q hq))⟩)
  obtain ⟨hl, hr⟩ := mapM_inv e
  refine ⟨r, e, hl, ?_⟩
  intro i q x hq hx
  obtain ⟨y, ey, hy⟩ := hr i q hq
  rw [rd_eq_ok, hx] at ey
  rw [hy, ← ey]

example : ∃ r, getConstrain [[1, 2], [3, 4]] 1 = .ok r ∧ r[1]? = some 4 := by
  obtain ⟨r, e, -, h⟩ := C109_constrain (Q := [[1, 2], [3, 4]]) (d := 1) (by decide)
  exact ⟨r, e, h 1 _ _ rfl rfl⟩

/-- **C109**: the interpolation at the parameters of a mode, with or without computed derivatives, meets all the given values at parameters
from 0 whose steps are the lengths of the mode between the points. -/
theorem C109_mode {eps meps : ℝ} (heps : 0 < eps) (hm : 0 ≤ meps) (growth junk : ℝ) {dim : ℕ} (x0 : Fin dim → ℝ) {nc : ℕ} (hnc : 1 ≤ nc)
    (add : Bool) (hp : 2 * (if add then nc + 1 else nc) - 1 ≤ stackMaxDegree) {Q : List (List (Fin dim → ℝ))} (h2 : 2 ≤ Q.length)
    (hQ : ∀ q ∈ Q, q.length = nc) {pts : List (Fin dim → ℝ)} (hpts : Q.map (fun q => q[0]?) = pts.map some) {mode : KnotsCalcMode}
    (hch : mode = .equallySpaced ∨ pts.IsChain (· ≠ ·)) {sparse : ℕ → List (ℕ × ℕ × ℝ) → List (Fin dim → ℝ) → R (List (Fin dim → ℝ))}
    (hS : Spec.SolvesRegular sparse) :
    ∃ (c : Curve ℝ (Fin dim → ℝ)) (u : List ℝ), interpolateMode eps meps growth junk x0 sparse eDist Real.sqrt nc Q mode add = .ok c ∧ c.deg = 2 * (if add then nc + 1 else nc) - 1 ∧
      u.length = Q.length ∧ u.head? = some 0 ∧ some c.b0 = u.head? ∧ some c.b1 = u.getLast? ∧
      (∀ i a b, pts[i]? = some a → pts[i + 1]? = some b → ∃ t t', u[i]? = some t ∧ u[i + 1]? = some t' ∧ t' - t = Spec.segLen pts.length mode a b) ∧
      ∀ (i : ℕ) (q : List (Fin dim → ℝ)) (t : ℝ) (d : ℕ) (v : Fin dim → ℝ), Q[i]? = some q → u[i]? = some t → q[d]? = some v →
        ∀ junk', c.value eps junk' t d = .ok v := by
  have hlp : pts.length = Q.length := by simpa using (congrArg List.length hpts).symm
  have hne : pts ≠ [] := by rintro rfl; simp at hlp; omega
  obtain ⟨u, eu, hul, hh, -, hst, hseg⟩ := C34_parametrization eps pts hne mode
  have hg : getConstrain Q 0 = .ok pts := by
    obtain ⟨r, er⟩ := mapM_exists (f := fun q : List (Fin dim → ℝ) => rd q 0) Q (fun q hq => ⟨_, rd_ok (by rw [hQ q hq]; omega)⟩)
    obtain ⟨r1, r2⟩ := mapM_inv er
    unfold getConstrain
    rw [er]
    congr 1
    apply List.ext_getElem (by omega)
    intro i h1 h2
    obtain ⟨y, ey, hy⟩ := r2 i _ (List.getElem?_eq_getElem (show i < Q.length by omega))
    have h3 := rd_eq_ok.mp ey
    have h4 := congrArg (fun l => l[i]?) hpts
    simp only [List.getElem?_map, List.getElem?_eq_getElem (show i < Q.length by omega), List.getElem?_eq_getElem h2, Option.map_some,
      Option.some.injEq] at h4
    rw [h3] at h4
    rw [List.getElem?_eq_getElem h1] at hy
    rw [Option.some.inj hy, Option.some.inj h4]
  unfold interpolateMode
  rw [hg, R_bind_ok, eu, R_bind_ok]
  cases add with
  | true =>
    obtain ⟨c, ec, -, hd, hb0, hb1, hv, -⟩ := C109_computed heps hm growth junk x0 hnc
      (by simp only [if_true] at hp; omega) (Q := Q) (u := u) (by omega) (by omega) (hst hch) hQ hS
    exact ⟨c, u, ec, by simp only [if_true]; omega, by omega, hh, hb0, hb1, hseg, hv⟩
  | false =>
    obtain ⟨c, ec, -, hd, -, hb0, hb1, hv⟩ := C36_interpolate_derivatives heps hm growth junk x0 hnc
      (by simpa using hp) (Q := Q) (u := u) (by omega) (by omega) (hst hch) hQ hS
    refine ⟨c, u, ?_, by simpa using hd, by omega, hh, hb0, hb1, hseg, hv⟩
    unfold interpolateWith
    rw [if_neg (by simp), ec]

/-! ## Examples -/

namespace Sample

/-- Four points of a line at the parameters 0, 1, 2, 4: the vectors of the ends are not the speed. -/
theorem _root_.Gbs.C109_witness : threePointVec ([5, 8, 11, 17] : List ℚ) ([0, 1, 2, 4] : List ℚ) = .ok [3, 3, 3, 12] := by decide +kernel

/-- Points of a parabola: exact inside. -/
example : threePointVec ([0, 1, 4, 16, 25] : List ℚ) ([0, 1, 2, 4, 5] : List ℚ) = .ok [0, 2, 4, 8, 18] := by decide +kernel

/-- The hypotheses of `C109_tangents` and `C109_line` are met. -/
example : ∃ D, threePointVec ([5, 8, 11, 17] : List ℚ) ([0, 1, 2, 4] : List ℚ) = .ok D ∧ D[2]? = some 3 ∧ D[3]? ≠ some 3 := by
  refine ⟨_, C109_witness, rfl, ?_⟩
  obtain ⟨-, h⟩ := C109_ends (pts := ([5, 8, 11, 17] : List ℚ)) (u := [0, 1, 2, 4]) rfl (by decide) (by decide +kernel) 5 (B := 3) (by norm_num) (by
    intro i x t h1 h2
    match i with
    | 0 => cases h1; cases h2; norm_num
    | 1 => cases h1; cases h2; norm_num
    | 2 => cases h1; cases h2; norm_num
    | 3 => cases h1; cases h2; norm_num
    | i + 4 => simp at h1) C109_witness
  rw [show (3 : ℕ) = ([0, 1, 2, 4] : List ℚ).length - 1 from rfl]
  rw [Ne, h 2 4 rfl rfl]
  norm_num

/-- The points of the plane of the examples of directions. -/
def tgPts : List (Fin 2 → ℝ) := [![0, 0], ![1, 0], ![1, 3]]

/-- The hypotheses of `C109_directions` are met; the last vector is not a direction, and the second one is not along the tangent of the parabola
when the steps differ. -/
theorem _root_.Gbs.C109_direction_witness : ∃ D, threePointDir Real.sqrt tgPts [0, 1, 4] = .ok D ∧ D[2]? = some ![0, 6] ∧
    sqNorm (![0, 6] : Fin 2 → ℝ) ≠ 1 ∧ (∃ l : ℝ, 0 < l ∧ D[1]? = some (l • ![3, 3])) ∧
    ∃ T, threePointVec tgPts ([0, 1, 4] : List ℝ) = .ok T ∧ T[1]? = some ![3 / 4, 1 / 4] := by
  have hu : ([0, 1, 4] : List ℝ).Pairwise (· < ·) := by simp
  obtain ⟨D, hD⟩ := C109_directions_exist isSqrt_real (pts := tgPts) (u := [0, 1, 4]) rfl (by simp) hu (by
      intro i a b c x y z ha hb hc hx hy hz
      match i with
      | 0 =>
        cases ha; cases hb; cases hc; cases hx; cases hy; cases hz
        intro h
        have := congrFun h 0
        norm_num at this
      | i + 1 => simp at hc) (by
      intro a b c x y z ha hb hc hx hy hz
      cases ha; cases hb; cases hc; cases hx; cases hy; cases hz
      intro h
      have := congrFun h 0
      norm_num at this)
  obtain ⟨-, hl, -, hmid, hlast⟩ := C109_directions isSqrt_real (pts := tgPts) (u := [0, 1, 4]) rfl hu hD
  refine ⟨D, hD, ?_, ?_, ?_, ?_⟩
  · have := hlast ![1, 0] ![1, 3] rfl rfl
    rw [show ([0, 1, 4] : List ℝ).length - 1 = 2 from rfl] at this
    rw [this]
    congr 1
    ext i
    fin_cases i <;> norm_num
  · simp [sqNorm]
    norm_num
  · obtain ⟨l, l0, l1⟩ := hmid 0 0 1 4 ![0, 0] ![1, 0] ![1, 3] rfl rfl rfl rfl rfl rfl
    refine ⟨l, l0, ?_⟩
    rw [l1]
    congr 2
    ext i
    fin_cases i <;> norm_num
  · obtain ⟨T, eT, -, h⟩ := C109_tangents (pts := tgPts) (u := ([0, 1, 4] : List ℝ)) rfl (by simp) hu
    refine ⟨T, eT, ?_⟩
    obtain ⟨-, h⟩ := h 0 0 1 4 ![0, 0] ![1, 0] ![1, 3] rfl rfl rfl rfl rfl rfl
    rw [h 0 ![5 / 4, -1 / 4] ![-1 / 4, 1 / 4] (by ext i; fin_cases i <;> norm_num) (by ext i; fin_cases i <;> norm_num)
      (by ext i; fin_cases i <;> norm_num)]
    congr 1
    ext i
    fin_cases i <;> norm_num

/-- The hypotheses of `C109_computed`, `C109_reproduces` and `C109_not_reproduces` are met: points of a line, then points and tangents. -/
example (x0 : ℚ) : ∃ sparse c c' c'', interpolateWith (1/1000 : ℚ) (1/1000000) 10000 7 x0 sparse 1 [[(0 : ℚ)], [2], [8]] [0, 1, 4] true = .ok c ∧
    c.value (1/1000) 7 0 1 = .ok 0 ∧ c.value (1/1000) 7 1 1 = .ok 2 ∧
    interpolateWith (1/1000 : ℚ) (1/1000000) 10000 7 x0 sparse 2 [[(0 : ℚ), 2], [2, 2], [8, 2]] [0, 1, 4] true = .ok c' ∧
    c'.value (1/1000) 7 3 0 = .ok 6 ∧
    interpolateWith (1/1000 : ℚ) (1/1000000) 10000 7 x0 sparse 1 [[(0 : ℚ)], [2], [8]] [0, 1, 4] true = .ok c'' ∧
    c''.value (1/1000) 7 c''.b1 1 ≠ .ok 2 := by
  obtain ⟨sparse, hS⟩ := exists_solvesRegular (K := ℚ) (V := ℚ)
  have hu : ([0, 1, 4] : List ℚ).Pairwise (· < ·) := by decide +kernel
  obtain ⟨c, ec, -, -, hb0, -, -, h0, h1⟩ := C109_computed (eps := (1/1000 : ℚ)) (meps := 1/1000000) (by norm_num) (by norm_num) 10000 7 x0
    (nc := 1) le_rfl (by decide) (Q := [[(0 : ℚ)], [2], [8]]) (u := [0, 1, 4]) rfl (by decide) hu (by decide) hS
  obtain ⟨c', ec', hc0, hc1, h2⟩ := C109_reproduces (eps := (1/1000 : ℚ)) (meps := 1/1000000) (by norm_num) (by norm_num) 10000 7 x0
    (nc := 2) (by decide) (by decide) (Q := [[(0 : ℚ), 2], [2, 2], [8, 2]]) (u := [0, 1, 4]) rfl (by decide) hu (by decide) hS
    (fun k => if k = 1 then 2 else 0) (by
      intro i q t d v hq ht hd
      match i with
      | 0 =>
        cases hq; cases ht
        match d with
        | 0 => cases hd; simp [Spec.polyDer]
        | 1 => cases hd; simp [Spec.polyDer]
        | d + 2 => simp at hd
      | 1 =>
        cases hq; cases ht
        match d with
        | 0 => cases hd; simp [Spec.polyDer]
        | 1 => cases hd; simp [Spec.polyDer]
        | d + 2 => simp at hd
      | 2 =>
        cases hq; cases ht
        match d with
        | 0 => cases hd; simp [Spec.polyDer, Finset.sum_range_succ]; norm_num
        | 1 => cases hd; simp [Spec.polyDer, Finset.sum_range_succ]
        | d + 2 => simp at hd
      | i + 3 => simp at hq)
  obtain ⟨c'', ec'', h3⟩ := C109_not_reproduces (eps := (1/1000 : ℚ)) (meps := 1/1000000) (by norm_num) (by norm_num) 10000 7 x0
    (nc := 1) le_rfl (by decide) (Q := [[(0 : ℚ)], [2], [8]]) (u := [0, 1, 4]) rfl (by decide) hu (by decide) hS
    (fun k => if k = 1 then 2 else 0) (by norm_num)
  refine ⟨sparse, c, c', c'', ec, ?_, ?_, ec', ?_, ec'', ?_⟩
  · have : c.b0 = 0 := by simpa using hb0
    have h4 := (h0 7).1
    rwa [this] at h4
  · rw [h1 0 0 1 4 0 2 8 [0] [2] [8] rfl rfl rfl rfl rfl rfl rfl rfl rfl 0 2 0 (by norm_num) (by norm_num) (by norm_num)]
    norm_num
  · have e0 : c'.b0 = 0 := by simpa using hc0
    have e1 : c'.b1 = 4 := by simpa using hc1
    rw [h2 3 (by rw [e0]; norm_num) (by rw [e1]; norm_num)]
    simp [Spec.polyDer, Finset.sum_range_succ]
    norm_num
  · have := (h3 7).2
    rw [polyDer_top] at this
    simpa using this

/-- The hypotheses of `C109_degree` and `C109_mode` are met. -/
example (x0 : Fin 2 → ℝ) : ∃ sparse c c', interpolateDegree (1/1000 : ℝ) (1/1000000) 10000 7 x0 sparse eDist Real.sqrt tgPts 2 .chordLength = .ok c ∧
    c.value (1/1000) 7 0 0 = .ok ![0, 0] ∧
    interpolateMode (1/1000 : ℝ) (1/1000000) 10000 7 x0 sparse eDist Real.sqrt 1 (tgPts.map fun q => [q]) .centripetal true = .ok c' ∧
    c'.value (1/1000) 7 0 0 = .ok ![0, 0] := by
  obtain ⟨sparse, hS⟩ := exists_solvesRegular (K := ℝ) (V := Fin 2 → ℝ)
  have hch : tgPts.IsChain (· ≠ ·) := by
    have h1 : (![0, 0] : Fin 2 → ℝ) ≠ ![1, 0] := fun h => by have := congrFun h 0; norm_num at this
    have h2 : (![1, 0] : Fin 2 → ℝ) ≠ ![1, 3] := fun h => by have := congrFun h 1; norm_num at this
    simp only [tgPts, List.isChain_cons_cons, List.isChain_singleton, and_true]
    exact ⟨h1, h2⟩
  obtain ⟨c, u, -, ec, -, -, -, -, -, hh, -, -, -, h⟩ := C109_degree (eps := (1/1000 : ℝ)) (meps := 1/1000000) (by norm_num) (by norm_num) 10000 7 x0
    (p := 2) (by decide) (by decide) (Q := tgPts) (by decide) (mode := .chordLength) (Or.inr hch) hS
  obtain ⟨c', u', ec', -, -, hh', -, -, -, h'⟩ := C109_mode (eps := (1/1000 : ℝ)) (meps := 1/1000000) (by norm_num) (by norm_num) 10000 7 x0
    (nc := 1) le_rfl true (by decide) (Q := tgPts.map fun q => [q]) (by simp [tgPts]) (by simp) (pts := tgPts) (by simp) (mode := .centripetal)
    (Or.inr hch) hS
  exact ⟨sparse, c, c', ec, h 0 _ 0 rfl (by rw [← List.head?_eq_getElem?, hh]) 7, ec',
    h' 0 [![0, 0]] 0 0 _ rfl (by rw [← List.head?_eq_getElem?, hh']) rfl 7⟩

end Sample

end Gbs
