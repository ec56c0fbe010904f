import Verif.Lemmas.Shaping
import Verif.Props.Reparam
import Verif.Props.Trim
import Verif.Lemmas.InterpConstr
import Verif.Samples
import Mathlib.Data.Fin.VecNotation

/-!
# C90: moving the poles of a curve to meet constraints
-/

namespace Gbs

set_option linter.unusedSectionVars false

open Polynomial
open scoped BigOperators

variable {K : Type} [Field K] [LinearOrder K] [IsStrictOrderedRing K]
variable {V : Type} [AddCommGroup V] [Module K V]

/-- A clamped curve of degree at least 1, with the knots separated by more than the tolerance that the recursive basis functions need. -/
structure Curve.ShapeOk (eps : K) (c : Curve K V) : Prop where
  good : c.Good
  cl : c.Clamped
  sep : Sep eps c.knots
  deg : 1 ≤ c.deg

/-- Curves on the same knots, with as many poles, possibly of other dimensions. -/
structure Spec.SameBasis {W : Type} (c : Curve K V) (e : Curve K W) : Prop where
  deg : e.deg = c.deg
  knots : e.knots = c.knots
  b0 : e.b0 = c.b0
  b1 : e.b1 = c.b1
  len : e.poles.length = c.poles.length

/-- The poles `i1..i2` suffice to give any values to the constraints: for all the numbers `x`, there is a real-valued curve on the same knots,
with no other pole, that takes them. -/
def Spec.CanReach (eps junk : K) (c : Curve K V) (cs : List (Constr K V)) (i1 i2 : ℕ) : Prop :=
  ∀ x : ℕ → K, ∃ e : Curve K K, Spec.SameBasis c e ∧ (∀ j, j < i1 ∨ i2 < j → pf e.poles j = 0) ∧
    ∀ (r : ℕ) y, cs[r]? = some y → e.value eps junk y.u y.d = .ok (x r)

/-- The constraints determine the poles `i1..i2`: a real-valued curve on the same knots with no other pole, on which they all vanish, is null. -/
def Spec.Settles (eps junk : K) (c : Curve K V) (cs : List (Constr K V)) (i1 i2 : ℕ) : Prop :=
  ∀ e : Curve K K, Spec.SameBasis c e → (∀ j, j < i1 ∨ i2 < j → pf e.poles j = 0) →
    (∀ (r : ℕ) y, cs[r]? = some y → e.value eps junk y.u y.d = .ok 0) → ∀ j, pf e.poles j = 0

theorem Curve.ShapeOk.bigOk {eps : K} {c : Curve K V} (h : c.ShapeOk eps) : c.BigOk eps := Or.inr ⟨h.sep, h.cl.hi.symm⟩

theorem Spec.SameBasis.shapeOk {W : Type} [AddCommGroup W] [Module K W] {eps : K} {c : Curve K V} {e : Curve K W} (hs : Spec.SameBasis c e)
    (h : c.ShapeOk eps) : e.ShapeOk eps := by
  obtain ⟨a1, a2, a3, a4, a5⟩ := hs
  refine ⟨⟨⟨?_, ?_, ?_, ?_, ?_⟩, ?_, ?_⟩, ⟨?_, ?_⟩, ?_, ?_⟩
  · rw [a2]; exact h.good.wf.sorted
  · rw [a2, a5, a1]; exact h.good.wf.len
  · rw [a5, a1]; exact h.good.wf.min
  · rw [a2, a1]; exact h.good.wf.first
  · rw [a2, a5]; exact h.good.wf.last
  · rw [a3, a2, a1]; exact h.good.lo
  · rw [a4, a2, a5]; exact h.good.hi
  · rw [a2, a3]; exact h.cl.lo
  · rw [a2, a4]; exact h.cl.hi
  · rw [a2]; exact h.sep
  · rw [a1]; exact h.deg

theorem Curve.ShapeOk.kwf {eps : K} {c : Curve K V} (h : c.ShapeOk eps) : KWf c.deg c.knots c.poles.length :=
  ⟨h.good.wf.sorted, h.good.wf.len, h.good.wf.min, h.good.wf.first, h.good.wf.last⟩

/-- The basis functions of the code. -/
theorem Curve.ShapeOk.basis {eps : K} (heps : 0 < eps) {c : Curve K V} (h : c.ShapeOk eps) {u : K} (h1 : c.b0 ≤ u) (h2 : u ≤ c.b1) {i : ℕ}
    (hi : findSpan c.poles.length c.deg u c.knots = .ok i) (d : ℕ) {j : ℕ} (hj : j < c.poles.length) :
    basisFunctionD eps c.knots u c.deg d j = .ok ((derivative^[d] (Bp (kf c.knots) i c.deg j)).eval u) := by
  have hr : RecOk eps c.deg c.knots c.poles u :=
    ⟨heps, h.sep, by rw [← h.good.hi, h.cl.hi], by rw [← h.good.lo]; exact h1, by rw [← h.good.hi]; linarith⟩
  exact basisFunctionD_spec heps h.good.wf.sorted h.sep (hr.span h.good.wf hi) d c.deg j (by rw [h.good.wf.len]; omega) (Or.inl h.deg)

/-- Any curve on the same knots at the constraints. -/
theorem Spec.SameBasis.value {W : Type} [AddCommGroup W] [Module K W] {eps : K} (heps : 0 < eps) {c : Curve K V} (h : c.ShapeOk eps) {e : Curve K W}
    (hs : Spec.SameBasis c e) {cs : List (Constr K V)} {sp : ℕ → ℕ} (hsp : SpansC c.knots c.deg c.poles.length cs sp) {r : ℕ} {y : Constr K V}
    (hy : cs[r]? = some y) (h1 : c.b0 ≤ y.u) (h2 : y.u ≤ c.b1) (junk : K) :
    e.value eps junk y.u y.d = .ok (∑ j ∈ Finset.range c.poles.length, collC c.knots c.deg cs sp r j • pf e.poles j) := by
  have he := hs.shapeOk h
  obtain ⟨i, e1, -, -, -, e2⟩ := Curve.value_span heps he.good he.bigOk (u := y.u) (by rw [hs.b0]; exact h1) (by rw [hs.b1]; exact h2)
  rw [e2 junk y.d]
  rw [hs.len, hs.deg, hs.knots, hsp.find r y hy] at e1
  obtain rfl := Except.ok.inj e1
  rw [hs.knots, hs.len, hs.deg]
  unfold spanDer
  congr 1
  exact Finset.sum_congr rfl fun j _ => by rw [collC_row hy]

theorem Spec.SameBasis.refl (c : Curve K V) : Spec.SameBasis c c := ⟨rfl, rfl, rfl, rfl, rfl⟩

section core

variable {eps : K} {c : Curve K V} {cs : List (Constr K V)} {sp : ℕ → ℕ} {i1 i2 : ℕ}

/-- What is added by poles that are null outside of the range. -/
theorem sum_in_range {W : Type} [AddCommGroup W] [Module K W] (h12 : i1 ≤ i2 + 1) (hP : i2 + 1 ≤ c.poles.length) (r : ℕ) (D : ℕ → W)
    (h0 : ∀ j, j < i1 ∨ i2 < j → collC c.knots c.deg cs sp r j • D j = 0) :
    ∑ j ∈ Finset.range c.poles.length, collC c.knots c.deg cs sp r j • D j =
      ∑ l ∈ Finset.range (i2 + 1 - i1), collC c.knots c.deg cs sp r (i1 + l) • D (i1 + l) := by
  rw [← sum_range_window h12 hP (fun j => collC c.knots c.deg cs sp r j • D j)]
  apply Finset.sum_congr rfl
  intro j _
  split
  · rfl
  · exact h0 j (by omega)

theorem reaches_of {junk : K} (heps : 0 < eps) (h : c.ShapeOk eps) (hsp : SpansC c.knots c.deg c.poles.length cs sp)
    (hdom : ∀ y ∈ cs, c.b0 ≤ y.u ∧ y.u ≤ c.b1) (h12 : i1 ≤ i2 + 1) (hP : i2 + 1 ≤ c.poles.length) (hr : Spec.CanReach eps junk c cs i1 i2) :
    Reaches cs.length (i2 + 1 - i1) (fun r l => collC c.knots c.deg cs sp r (i1 + l)) := by
  intro x
  obtain ⟨e, hs, h0, hv⟩ := hr x
  refine ⟨fun l => pf e.poles (i1 + l), fun r hrl => ?_⟩
  have hy : cs[r]? = some cs[r] := List.getElem?_eq_getElem hrl
  have hd := hdom _ (List.getElem_mem hrl)
  have := hv r _ hy
  rw [hs.value heps h hsp hy hd.1 hd.2 junk, sum_in_range h12 hP r (pf e.poles) fun j hj => by rw [h0 j hj, smul_zero]] at this
  exact Except.ok.inj this

theorem settles_of {junk : K} (heps : 0 < eps) (h : c.ShapeOk eps) (hsp : SpansC c.knots c.deg c.poles.length cs sp)
    (hdom : ∀ y ∈ cs, c.b0 ≤ y.u ∧ y.u ≤ c.b1) (h12 : i1 ≤ i2 + 1) (hP : i2 + 1 ≤ c.poles.length) (hr : Spec.Settles eps junk c cs i1 i2)
    (x : ℕ → K) (hx : ∀ r, r < cs.length → ∑ l ∈ Finset.range (i2 + 1 - i1), collC c.knots c.deg cs sp r (i1 + l) * x l = 0) :
    ∀ l, l < i2 + 1 - i1 → x l = 0 := by
  intro l hl
  let e : Curve K K := ⟨c.deg, (List.range c.poles.length).map fun j => if i1 ≤ j ∧ j ≤ i2 then x (j - i1) else 0, c.knots, c.b0, c.b1⟩
  have hs : Spec.SameBasis c e := ⟨rfl, rfl, rfl, rfl, by simp [e]⟩
  have hp : ∀ j, pf e.poles j = if i1 ≤ j ∧ j ≤ i2 then x (j - i1) else 0 := by
    intro j
    rcases Nat.lt_or_ge j c.poles.length with hj | hj
    · exact pf_map_range _ hj
    · rw [if_neg (by omega)]
      unfold pf
      rw [List.getD_eq_getElem?_getD, List.getElem?_eq_none (by simpa [e] using hj)]
      rfl
  have := hr e hs (fun j hj => by rw [hp j, if_neg (by omega)]) (by
    intro r y hy
    obtain ⟨hrl, rfl⟩ := List.getElem?_eq_some_iff.mp hy
    have hd := hdom _ (List.getElem_mem hrl)
    rw [hs.value heps h hsp hy hd.1 hd.2 junk,
      sum_in_range h12 hP r (pf e.poles) fun j hj => by rw [hp j, if_neg (by omega), smul_zero], ← hx r hrl]
    congr 1
    apply Finset.sum_congr rfl
    intro l hl
    have := Finset.mem_range.mp hl
    rw [hp, if_pos (by omega), show i1 + l - i1 = l by omega, smul_eq_mul]) (i1 + l)
  rwa [hp, if_pos (by omega), show i1 + l - i1 = l by omega] at this

/-- The program around the solution of the system. -/
theorem Curve.movedDelta_eq (heps : 0 < eps) (h : c.ShapeOk eps) (hsp : SpansC c.knots c.deg c.poles.length cs sp)
    (hdom : ∀ y ∈ cs, c.b0 ≤ y.u ∧ y.u ≤ c.b1) (h12 : i1 ≤ i2 + 1) (hP : i2 + 1 ≤ c.poles.length)
    (dense : ℕ → (ℕ → ℕ → K) → List V → R (List V)) :
    ∃ B : ℕ → ℕ → K, (∀ r l, r < cs.length → l < i2 + 1 - i1 → B r l = collC c.knots c.deg cs sp r (i1 + l)) ∧
      ∀ DP, shapeSolve dense cs.length (i2 + 1 - i1) B (cs.map Constr.v) = .ok DP → DP.length = i2 + 1 - i1 →
        ∃ c', c.movedDelta eps dense cs i1 i2 = .ok c' ∧ Spec.SameBasis c c' ∧
          ∀ j, pf c'.poles j = pf c.poles j + if i1 ≤ j ∧ j ≤ i2 then pf DP (j - i1) else 0 := by
  obtain ⟨B, eB, hB⟩ := shapeMatrix_spec (eps := eps) (k := c.knots) (p := c.deg) (cs := cs) h12 (b := fun r j => collC c.knots c.deg cs sp r j) (by
    intro r x hx j j1 j2
    have hd := hdom x (List.mem_of_getElem? hx)
    rw [collC_row hx]
    exact h.basis heps hd.1 hd.2 (hsp.find r x hx) x.d (by omega))
  refine ⟨B, hB, fun DP eD lD => ?_⟩
  obtain ⟨P', eP, lP, hP'⟩ := addPoles_spec (P := c.poles) h12 hP lD
  refine ⟨⟨c.deg, P', c.knots, c.b0, c.b1⟩, ?_, ⟨rfl, rfl, rfl, rfl, lP⟩, hP'⟩
  unfold Curve.movedDelta moveDelta
  rw [usub_ok (by omega)]
  simp only [R_bind_ok]
  rw [eB]
  simp only [R_bind_ok]
  rw [eD]
  simp only [R_bind_ok]
  rw [eP]
  simp only [R_bind_ok]
  rw [mk?_sorted eps P' h.good.wf.sorted c.deg (by rw [lP]; exact h.good.wf.len) (by rw [lP]; exact h.good.wf.min), h.cl.lo, h.cl.hi]

/-- What the moved curve is at the constraints. -/
theorem Curve.moved_value (heps : 0 < eps) (h : c.ShapeOk eps) (hsp : SpansC c.knots c.deg c.poles.length cs sp) (h12 : i1 ≤ i2 + 1)
    (hP : i2 + 1 ≤ c.poles.length) {c' : Curve K V} (hs : Spec.SameBasis c c') {DP : List V}
    (hc' : ∀ j, pf c'.poles j = pf c.poles j + if i1 ≤ j ∧ j ≤ i2 then pf DP (j - i1) else 0) {r : ℕ} {y : Constr K V}
    (hy : cs[r]? = some y) (h1 : c.b0 ≤ y.u) (h2 : y.u ≤ c.b1) (junk : K) :
    ∃ w, c.value eps junk y.u y.d = .ok w ∧
      c'.value eps junk y.u y.d = .ok (w + ∑ l ∈ Finset.range (i2 + 1 - i1), collC c.knots c.deg cs sp r (i1 + l) • pf DP l) := by
  refine ⟨_, (Spec.SameBasis.refl c).value heps h hsp hy h1 h2 junk, ?_⟩
  rw [hs.value heps h hsp hy h1 h2 junk]
  congr 1
  simp only [hc', smul_add]
  rw [Finset.sum_add_distrib, sum_in_range h12 hP r (fun j => if i1 ≤ j ∧ j ≤ i2 then pf DP (j - i1) else 0) fun j hj => by
    rw [if_neg (by omega), smul_zero]]
  congr 1
  apply Finset.sum_congr rfl
  intro l hl
  have := Finset.mem_range.mp hl
  rw [if_pos (by omega), show i1 + l - i1 = l by omega]

end core

/-! ## Constraints given as differences -/

theorem sqDist_add {dim : ℕ} (x d : Fin dim → K) : Spec.sqDist (x + d) x = Spec.sqDist d 0 := by
  unfold Spec.sqDist; simp

theorem sqDist_self {dim : ℕ} (x : Fin dim → K) : Spec.sqDist x x = 0 := by
  unfold Spec.sqDist; simp

theorem sqDist_sub {dim : ℕ} (x y : Fin dim → K) : Spec.sqDist (x - y) 0 = Spec.sqDist x y := by
  unfold Spec.sqDist; simp

theorem sqDist_shiftC {dim : ℕ} (a b d : Fin dim → K) : Spec.sqDist a (b + d) = Spec.sqDist (a - b) d := by
  unfold Spec.sqDist
  exact Finset.sum_congr rfl fun t _ => by rw [Pi.add_apply, Pi.sub_apply, sub_sub]

/-- Sum of the squares of the displacements of the poles. -/
def Spec.moved2 {dim : ℕ} (c e : Curve K (Fin dim → K)) : K := ∑ j ∈ Finset.range c.poles.length, Spec.sqDist (pf e.poles j) (pf c.poles j)

section delta

variable {dim : ℕ} {eps : K} {c : Curve K (Fin dim → K)} {cs : List (Constr K (Fin dim → K))} {i1 i2 : ℕ}
  {dense : ℕ → (ℕ → ℕ → K) → List (Fin dim → K) → R (List (Fin dim → K))}

theorem moved2_window (h12 : i1 ≤ i2 + 1) (hP : i2 + 1 ≤ c.poles.length) {c' : Curve K (Fin dim → K)} {D : ℕ → Fin dim → K}
    (hc' : ∀ j, pf c'.poles j = pf c.poles j + if i1 ≤ j ∧ j ≤ i2 then D (j - i1) else 0) :
    Spec.moved2 c c' = ∑ l ∈ Finset.range (i2 + 1 - i1), Spec.sqDist (D l) 0 := by
  unfold Spec.moved2
  rw [show ∑ l ∈ Finset.range (i2 + 1 - i1), Spec.sqDist (D l) 0 = ∑ l ∈ Finset.range (i2 + 1 - i1), Spec.sqDist (D (i1 + l - i1)) 0 from
    Finset.sum_congr rfl fun l _ => by rw [show i1 + l - i1 = l by omega], ← sum_range_window h12 hP (fun j => Spec.sqDist (D (j - i1)) 0)]
  apply Finset.sum_congr rfl
  intro j _
  rw [hc' j, sqDist_add]
  split
  · rfl
  · exact sqDist_self 0

/-- The general form: the competitors may move any pole that the constraints do not see. -/
theorem Curve.movedDelta_reach (heps : 0 < eps) (h : c.ShapeOk eps) (hd : Spec.SolvesDense dense) {junk : K} {sp : ℕ → ℕ}
    (hsp : SpansC c.knots c.deg c.poles.length cs sp) (hdom : ∀ y ∈ cs, c.b0 ≤ y.u ∧ y.u ≤ c.b1) (h12 : i1 ≤ i2 + 1) (hP : i2 + 1 ≤ c.poles.length)
    (hm : cs.length ≤ i2 + 1 - i1) (hr : Reaches cs.length (i2 + 1 - i1) (fun r l => collC c.knots c.deg cs sp r (i1 + l))) :
    ∃ c', c.movedDelta eps dense cs i1 i2 = .ok c' ∧ Spec.SameBasis c c' ∧ (∀ j, j < i1 ∨ i2 < j → pf c'.poles j = pf c.poles j) ∧
      (∀ y ∈ cs, ∃ w, c.value eps junk y.u y.d = .ok w ∧ c'.value eps junk y.u y.d = .ok (w + y.v)) ∧
      ∀ e, Spec.SameBasis c e →
        (∀ j, j < i1 ∨ i2 < j → ∀ r, collC c.knots c.deg cs sp r j • (pf e.poles j - pf c.poles j) = 0) →
        (∀ y ∈ cs, ∃ w, c.value eps junk y.u y.d = .ok w ∧ e.value eps junk y.u y.d = .ok (w + y.v)) → Spec.moved2 c c' ≤ Spec.moved2 c e := by
  obtain ⟨B, hB, hrun⟩ := Curve.movedDelta_eq heps h hsp hdom h12 hP dense
  have hRB : Reaches cs.length (i2 + 1 - i1) B := Reaches.congr hB hr
  obtain ⟨DP, eD, lD, hDP, hmin⟩ := shapeSolve_min hd hRB hm (DX := cs.map Constr.v) (by simp)
  obtain ⟨c', e1, hs, hc'⟩ := hrun DP eD lD
  have hvec : ∀ (r : ℕ) y, cs[r]? = some y → pf (cs.map Constr.v) r = y.v := by
    intro r y hy
    exact pf_of_some (by rw [List.getElem?_map, hy]; rfl)
  have hrow : ∀ (Z : ℕ → Fin dim → K) r, r < cs.length → ∑ l ∈ Finset.range (i2 + 1 - i1), B r l • Z l =
      ∑ l ∈ Finset.range (i2 + 1 - i1), collC c.knots c.deg cs sp r (i1 + l) • Z l := fun Z r hrl =>
    Finset.sum_congr rfl fun l hl => by rw [hB r l hrl (Finset.mem_range.mp hl)]
  refine ⟨c', e1, hs, ?_, ?_, ?_⟩
  · intro j hj
    rw [hc' j, if_neg (by omega), add_zero]
  · intro y hy
    obtain ⟨r, hrl, rfl⟩ := List.getElem_of_mem hy
    have hd := hdom _ hy
    have hy' : cs[r]? = some cs[r] := List.getElem?_eq_getElem hrl
    obtain ⟨w, w1, w2⟩ := Curve.moved_value heps h hsp h12 hP hs hc' hy' hd.1 hd.2 junk
    refine ⟨w, w1, ?_⟩
    rw [w2, ← hrow _ r hrl, hDP r hrl, hvec r _ hy']
  · intro e he h0 hv
    rw [moved2_window h12 hP hc']
    refine (hmin (fun l => pf e.poles (i1 + l) - pf c.poles (i1 + l)) ?_).trans ?_
    · intro r hrl
      have hy' : cs[r]? = some cs[r] := List.getElem?_eq_getElem hrl
      have hd := hdom _ (List.getElem_mem hrl)
      rw [hrow _ r hrl, hvec r _ hy',
        ← sum_in_range h12 hP r (fun j => pf e.poles j - pf c.poles j) (fun j hj => h0 j hj r)]
      obtain ⟨w, w1, w2⟩ := hv _ (List.getElem_mem hrl)
      rw [(Spec.SameBasis.refl c).value heps h hsp hy' hd.1 hd.2 junk] at w1
      rw [he.value heps h hsp hy' hd.1 hd.2 junk] at w2
      simp only [smul_sub, Finset.sum_sub_distrib]
      rw [Except.ok.inj w2, Except.ok.inj w1]
      abel
    · unfold Spec.moved2
      rw [← sum_range_window h12 hP (fun j => Spec.sqDist (pf e.poles j - pf c.poles j) 0)]
      apply Finset.sum_le_sum
      intro j _
      split
      · rw [sqDist_sub]
      · exact sqDist_nonneg _ _

/-- C90, `moved_to_constraints_delta`, for at most as many constraints as moved poles, which these can reach: each constraint is added to the value
or to the derivative of the curve, the poles outside of the range are kept, and no curve on the same knots that moves these poles alone and does
as much moves them less. -/
theorem C90_delta (heps : 0 < eps) (h : c.ShapeOk eps) (hd : Spec.SolvesDense dense) {junk : K} (hdom : ∀ y ∈ cs, c.b0 ≤ y.u ∧ y.u ≤ c.b1)
    (h12 : i1 ≤ i2 + 1) (hP : i2 + 1 ≤ c.poles.length) (hm : cs.length ≤ i2 + 1 - i1) (hr : Spec.CanReach eps junk c cs i1 i2) :
    ∃ c', c.movedDelta eps dense cs i1 i2 = .ok c' ∧ Spec.SameBasis c c' ∧ (∀ j, j < i1 ∨ i2 < j → pf c'.poles j = pf c.poles j) ∧
      (∀ y ∈ cs, ∃ w, c.value eps junk y.u y.d = .ok w ∧ c'.value eps junk y.u y.d = .ok (w + y.v)) ∧
      ∀ e, Spec.SameBasis c e → (∀ j, j < i1 ∨ i2 < j → pf e.poles j = pf c.poles j) →
        (∀ y ∈ cs, ∃ w, c.value eps junk y.u y.d = .ok w ∧ e.value eps junk y.u y.d = .ok (w + y.v)) → Spec.moved2 c c' ≤ Spec.moved2 c e := by
  obtain ⟨sp, hsp⟩ := exists_spansC h.kwf cs
  obtain ⟨c', a1, a2, a3, a4, a5⟩ := Curve.movedDelta_reach heps h hd (junk := junk) hsp hdom h12 hP hm (reaches_of heps h hsp hdom h12 hP hr)
  exact ⟨c', a1, a2, a3, a4, fun e he ho hv => a5 e he (fun j hj r => by rw [ho j hj, sub_self, smul_zero]) hv⟩

/-- C90, `moved_to_constraints_delta`, for more constraints than moved poles, which they determine: no curve on the same knots that moves these
poles alone is nearer to the constraints in the sense of least squares. -/
theorem C90_delta_least (heps : 0 < eps) (h : c.ShapeOk eps) (hd : Spec.SolvesDense dense) {junk : K} (hdom : ∀ y ∈ cs, c.b0 ≤ y.u ∧ y.u ≤ c.b1)
    (h12 : i1 ≤ i2 + 1) (hP : i2 + 1 ≤ c.poles.length) (hm : i2 + 1 - i1 < cs.length) (hr : Spec.Settles eps junk c cs i1 i2) :
    ∃ c', c.movedDelta eps dense cs i1 i2 = .ok c' ∧ Spec.SameBasis c c' ∧ (∀ j, j < i1 ∨ i2 < j → pf c'.poles j = pf c.poles j) ∧
      ∃ W W' : ℕ → Fin dim → K, (∀ (r : ℕ) y, cs[r]? = some y → c.value eps junk y.u y.d = .ok (W r) ∧ c'.value eps junk y.u y.d = .ok (W' r)) ∧
        ∀ e, Spec.SameBasis c e → (∀ j, j < i1 ∨ i2 < j → pf e.poles j = pf c.poles j) →
          ∃ E : ℕ → Fin dim → K, (∀ (r : ℕ) y, cs[r]? = some y → e.value eps junk y.u y.d = .ok (E r)) ∧
            ∑ r ∈ Finset.range cs.length, Spec.sqDist (W' r) (W r + pf (cs.map Constr.v) r) ≤
              ∑ r ∈ Finset.range cs.length, Spec.sqDist (E r) (W r + pf (cs.map Constr.v) r) := by
  obtain ⟨sp, hsp⟩ := exists_spansC h.kwf cs
  obtain ⟨B, hB, hrun⟩ := Curve.movedDelta_eq heps h hsp hdom h12 hP dense
  have hrow : ∀ (Z : ℕ → Fin dim → K) r, r < cs.length → ∑ l ∈ Finset.range (i2 + 1 - i1), B r l • Z l =
      ∑ l ∈ Finset.range (i2 + 1 - i1), collC c.knots c.deg cs sp r (i1 + l) • Z l := fun Z r hrl =>
    Finset.sum_congr rfl fun l hl => by rw [hB r l hrl (Finset.mem_range.mp hl)]
  obtain ⟨DP, eD, lD, hmin⟩ := shapeSolve_least hd (B := B) (by
    intro x hx
    refine settles_of heps h hsp hdom h12 hP hr x fun r hrl => ?_
    rw [← hx r hrl]
    exact Finset.sum_congr rfl fun l hl => by rw [hB r l hrl (Finset.mem_range.mp hl)]) hm (cs.map Constr.v)
  obtain ⟨c', e1, hs, hc'⟩ := hrun DP eD lD
  have hlen : ∀ (r : ℕ) y, cs[r]? = some y → r < cs.length := fun r y hy => (List.getElem?_eq_some_iff.mp hy).1
  refine ⟨c', e1, hs, fun j hj => by rw [hc' j, if_neg (by omega), add_zero],
    fun r => ∑ j ∈ Finset.range c.poles.length, collC c.knots c.deg cs sp r j • pf c.poles j,
    fun r => ∑ j ∈ Finset.range c.poles.length, collC c.knots c.deg cs sp r j • pf c'.poles j, ?_, ?_⟩
  · intro r y hy
    have hd := hdom y (List.mem_of_getElem? hy)
    exact ⟨(Spec.SameBasis.refl c).value heps h hsp hy hd.1 hd.2 junk, hs.value heps h hsp hy hd.1 hd.2 junk⟩
  · intro e he ho
    refine ⟨fun r => ∑ j ∈ Finset.range c.poles.length, collC c.knots c.deg cs sp r j • pf e.poles j, ?_, ?_⟩
    · intro r y hy
      have hd := hdom y (List.mem_of_getElem? hy)
      exact he.value heps h hsp hy hd.1 hd.2 junk
    have key : ∀ (f : Curve K (Fin dim → K)) (_ : ∀ j, j < i1 ∨ i2 < j → pf f.poles j = pf c.poles j) r, r < cs.length →
        Spec.sqDist (∑ j ∈ Finset.range c.poles.length, collC c.knots c.deg cs sp r j • pf f.poles j)
          (∑ j ∈ Finset.range c.poles.length, collC c.knots c.deg cs sp r j • pf c.poles j + pf (cs.map Constr.v) r) =
        Spec.sqDist (∑ l ∈ Finset.range (i2 + 1 - i1), B r l • (pf f.poles (i1 + l) - pf c.poles (i1 + l))) (pf (cs.map Constr.v) r) := by
      intro f hf r hrl
      rw [hrow _ r hrl, ← sum_in_range h12 hP r (fun j => pf f.poles j - pf c.poles j) (fun j hj => by rw [hf j hj, sub_self, smul_zero])]
      simp only [smul_sub, Finset.sum_sub_distrib]
      exact sqDist_shiftC _ _ _
    rw [Finset.sum_congr rfl fun r hr => key c' (fun j hj => by rw [hc' j, if_neg (by omega), add_zero]) r (Finset.mem_range.mp hr),
      Finset.sum_congr rfl fun r hr => key e ho r (Finset.mem_range.mp hr)]
    have hw : ∀ l, l < i2 + 1 - i1 → pf c'.poles (i1 + l) - pf c.poles (i1 + l) = pf DP l := by
      intro l hl
      rw [hc', if_pos (by omega), show i1 + l - i1 = l by omega, add_sub_cancel_left]
    rw [Finset.sum_congr rfl fun r hr => by
      rw [Finset.sum_congr rfl fun l hl => by rw [hw l (Finset.mem_range.mp hl)]]]
    exact hmin _

end delta

/-! ## One point -/

theorem reaches_one {n : ℕ} {B : ℕ → ℕ → K} {l : ℕ} (hl : l < n) (h : B 0 l ≠ 0) : Reaches 1 n B := by
  intro x
  refine ⟨fun j => if j = l then x 0 / B 0 l else 0, fun r hr => ?_⟩
  obtain rfl : r = 0 := by omega
  simp only [mul_ite, mul_zero]
  rw [Finset.sum_ite_eq', if_pos (Finset.mem_range.mpr hl), mul_div_cancel₀ _ h]

theorem findSpanRange_eq {n p i : ℕ} {u : K} {k : List K} (h : findSpan n p u k = .ok i) : findSpanRange n p u k = .ok (i - p, i) := by
  unfold findSpanRange
  rw [h, R_bind_ok]
  dsimp only
  congr 2
  split <;> omega

/-- Poles out of reach of a parameter. -/
theorem out_of_span {t : ℕ → K} (ht : Monotone t) {T u : K} {k p j : ℕ} (hk : Spec.InSpan t T k u) (h : u < t j ∨ t (j + p + 1) < u) :
    j < k - p ∨ k < j := by
  obtain ⟨a, b, -⟩ := InSpan_bounds hk
  rcases h with h | h
  · right
    by_contra hc
    exact absurd (lt_of_le_of_lt a (lt_of_lt_of_le h (ht (by omega : j ≤ k)))) (lt_irrefl _)
  · left
    by_contra hc
    exact absurd (lt_of_le_of_lt (b.trans (ht (by omega : k + 1 ≤ j + p + 1))) h) (lt_irrefl _)

theorem moveDelta_keep {eps : K} {dense : ℕ → (ℕ → ℕ → K) → List V → R (List V)} {P P' : List V} {cs : List (Constr K V)} {k : List K} {p i1 i2 : ℕ}
    (h : moveDelta eps dense P cs k p i1 i2 = .ok P') : P'.length = P.length ∧ ∀ j, j < i1 ∨ i2 < j → pf P' j = pf P j := by
  unfold moveDelta at h
  obtain ⟨n, hn, h⟩ := R_bind_eq_ok.mp h
  obtain ⟨B, -, h⟩ := R_bind_eq_ok.mp h
  obtain ⟨DP, -, h⟩ := R_bind_eq_ok.mp h
  unfold forLe at h
  have key : ∀ m a (Q Q' : List V), a + m ≤ i2 + 1 ∨ m = 0 → i1 ≤ a → forN (fun i P => do
      let x ← rd P i
      let d ← rd DP (i - i1)
      wr P i (x + d)) m a Q = .ok Q' → Q'.length = Q.length ∧ ∀ j, j < i1 ∨ i2 < j → pf Q' j = pf Q j := by
    intro m
    induction m with
    | zero => intro a Q Q' _ _ h; cases h; exact ⟨rfl, fun _ _ => rfl⟩
    | succ m ih =>
      intro a Q Q' hm ha h
      rw [forN] at h
      obtain ⟨Q1, h1, h2⟩ := R_bind_eq_ok.mp h
      obtain ⟨x, -, h1⟩ := R_bind_eq_ok.mp h1
      obtain ⟨d, -, h1⟩ := R_bind_eq_ok.mp h1
      obtain ⟨hl, rfl⟩ := wr_eq_ok.mp h1
      obtain ⟨l2, g2⟩ := ih (a + 1) _ _ (by omega) (by omega) h2
      refine ⟨by rw [l2, List.length_set], fun j hj => ?_⟩
      rw [g2 j hj, pf_set _ hl, if_neg (by omega)]
  exact key _ _ _ _ (by omega) le_rfl h

theorem Curve.movedDelta_keep {eps : K} {dense : ℕ → (ℕ → ℕ → K) → List V → R (List V)} {c c' : Curve K V} (hc : c.ShapeOk eps)
    {cs : List (Constr K V)} {i1 i2 : ℕ} (h : c.movedDelta eps dense cs i1 i2 = .ok c') :
    Spec.SameBasis c c' ∧ ∀ j, j < i1 ∨ i2 < j → pf c'.poles j = pf c.poles j := by
  unfold Curve.movedDelta at h
  obtain ⟨P, h1, h2⟩ := R_bind_eq_ok.mp h
  obtain ⟨l, hk⟩ := moveDelta_keep h1
  rw [mk?_sorted eps P hc.good.wf.sorted c.deg (by rw [l]; exact hc.good.wf.len) (by rw [l]; exact hc.good.wf.min), hc.cl.lo, hc.cl.hi] at h2
  obtain rfl := Except.ok.inj h2
  exact ⟨⟨rfl, rfl, rfl, rfl, l⟩, hk⟩

/-- The ends of a clamped curve. -/
theorem Curve.ShapeOk.ends {eps : K} (heps : 0 < eps) {c : Curve K V} (h : c.ShapeOk eps) (junk : K) :
    c.value eps junk c.b0 0 = .ok (pf c.poles 0) ∧ c.value eps junk c.b1 0 = .ok (pf c.poles (c.poles.length - 1)) := by
  have hm := kf_mono h.good.wf.sorted
  obtain ⟨h0, h1⟩ := C06_clamped_ends heps h.good h.bigOk junk
  refine ⟨h0 ?_, h1 ?_⟩
  · intro j j1 j2
    exact le_antisymm (by rw [h.good.lo]; exact hm j2) (by rw [← h.cl.lo]; exact hm (by omega))
  · intro j j1 _
    exact le_antisymm (by rw [← h.cl.hi]; exact kf_le_kLast h.good.wf.sorted j) (by rw [h.good.hi]; exact hm j1)

section point

variable {dim : ℕ} {eps : K} {c : Curve K (Fin dim → K)} {dense : ℕ → (ℕ → ℕ → K) → List (Fin dim → K) → R (List (Fin dim → K))}

/-- `moved_to_point` in terms of the displacement of the constraint. -/
theorem Curve.movedToPoint_eq (heps : 0 < eps) (h : c.ShapeOk eps) {u : K} (h1 : c.b0 ≤ u) (h2 : u ≤ c.b1) (junk : K) (pt : Fin dim → K) (fix : Bool)
    (dense : ℕ → (ℕ → ℕ → K) → List (Fin dim → K) → R (List (Fin dim → K))) :
    ∃ k y, findSpan c.poles.length c.deg u c.knots = .ok k ∧ Spec.InSpan (kf c.knots) (kf c.knots c.poles.length) k u ∧ c.deg ≤ k ∧
      k < c.poles.length ∧ c.value eps junk u 0 = .ok y ∧
      c.movedToPoint eps junk dense pt u fix = c.movedDelta eps dense [⟨u, 0, pt - y⟩] (fixRange fix c.poles.length (k - c.deg, k)).1
        (fixRange fix c.poles.length (k - c.deg, k)).2 := by
  obtain ⟨k, e1, a1, a2, a3, a4⟩ := Curve.value_span heps h.good h.bigOk h1 h2
  refine ⟨k, _, e1, a1, a2, a3, a4 junk 0, ?_⟩
  unfold Curve.movedToPoint Curve.movedDelta
  rw [findSpanRange_eq e1]
  simp only [R_bind_ok]
  rw [a4 junk 0]
  simp only [R_bind_ok]

/-- C90, `moved_to_point` and `move_to_point`: the curve passes through the point at the parameter, it keeps its degree, its knots, and the poles
whose basis functions vanish there, and no curve on the same knots through the point moves the poles less. -/
theorem C90_point (heps : 0 < eps) (h : c.ShapeOk eps) (hd : Spec.SolvesDense dense) {u : K} (h1 : c.b0 ≤ u) (h2 : u ≤ c.b1) (junk : K)
    (pt : Fin dim → K) :
    ∃ c', c.movedToPoint eps junk dense pt u = .ok c' ∧ c.moveToPoint eps junk dense pt u = .ok c' ∧ Spec.SameBasis c c' ∧
      c'.value eps junk u 0 = .ok pt ∧ (∀ j, u < kf c.knots j ∨ kf c.knots (j + c.deg + 1) < u → pf c'.poles j = pf c.poles j) ∧
      ∀ e, Spec.SameBasis c e → e.value eps junk u 0 = .ok pt → Spec.moved2 c c' ≤ Spec.moved2 c e := by
  have hm := kf_mono h.good.wf.sorted
  obtain ⟨k, y, e1, a1, a2, a3, a4, e2⟩ := Curve.movedToPoint_eq heps h h1 h2 junk pt false dense
  have hsp : SpansC c.knots c.deg c.poles.length [(⟨u, 0, pt - y⟩ : Constr K (Fin dim → K))] (fun _ => k) := by
    refine ⟨?_, fun _ _ => a2, fun _ _ => a3, fun _ _ => (InSpan_bounds a1).2.2⟩
    intro i x hx
    obtain rfl : x = ⟨u, 0, pt - y⟩ := List.mem_singleton.mp (List.mem_of_getElem? hx)
    exact e1
  obtain ⟨j, hj, hB⟩ : ∃ j, j < c.poles.length ∧ B (kf c.knots) k c.deg j u ≠ 0 := by
    by_contra hc
    push Not at hc
    have := sum_B_eq_one hm (InSpan_bounds a1).2.2 a2 a3 u
    rw [Finset.sum_eq_zero fun j hj => hc j (Finset.mem_range.mp hj)] at this
    exact zero_ne_one this
  have hjk : k - c.deg ≤ j ∧ j ≤ k := by
    by_contra hc
    exact hB (B_eq_zero _ _ _ _ _ (by omega))
  obtain ⟨c', g1, g2, g3, g4, g5⟩ := Curve.movedDelta_reach (i1 := k - c.deg) (i2 := k) heps h hd (junk := junk) hsp (by
      intro x hx; rw [List.mem_singleton.mp hx]; exact ⟨h1, h2⟩) (by omega) (by omega) (by simp; omega)
    (reaches_one (l := j - (k - c.deg)) (by omega) (by
      rw [collC_row rfl, show k - c.deg + (j - (k - c.deg)) = j by omega, Function.iterate_zero, id, Bp_eval]
      exact hB))
  have e3 : c.movedToPoint eps junk dense pt u = .ok c' := by rw [e2]; exact g1
  refine ⟨c', e3, ?_, g2, ?_, ?_, ?_⟩
  · unfold Curve.moveToPoint
    rw [e3, R_bind_ok]
    unfold Curve.movePoles
    rw [if_neg (by rw [g2.len]; simp), ← g2.deg, ← g2.knots, ← g2.b0, ← g2.b1]
  · obtain ⟨w, w1, w2⟩ := g4 _ (List.mem_singleton.mpr rfl)
    rw [a4] at w1
    obtain rfl := Except.ok.inj w1
    rw [w2]
    simp
  · intro j hj
    exact g3 j (out_of_span hm a1 hj)
  · intro e he hv
    refine g5 e he ?_ ?_
    · intro j hj r
      rw [collC_out (by omega), zero_smul]
    · intro x hx
      obtain rfl := List.mem_singleton.mp hx
      exact ⟨y, a4, by rw [hv]; simp⟩

/-- C90, `moved_to_point` with `fix_bounds`, whatever the solver: the first and the last pole are kept, and the curve keeps its ends. -/
theorem C90_fixed_keeps (heps : 0 < eps) (h : c.ShapeOk eps) {u : K} (h1 : c.b0 ≤ u) (h2 : u ≤ c.b1) (junk : K) (pt : Fin dim → K)
    {c' : Curve K (Fin dim → K)} (hc : c.movedToPoint eps junk dense pt u true = .ok c') :
    Spec.SameBasis c c' ∧ pf c'.poles 0 = pf c.poles 0 ∧ pf c'.poles (c.poles.length - 1) = pf c.poles (c.poles.length - 1) ∧
      c'.value eps junk c.b0 0 = c.value eps junk c.b0 0 ∧ c'.value eps junk c.b1 0 = c.value eps junk c.b1 0 := by
  obtain ⟨k, y, -, -, a2, a3, -, e2⟩ := Curve.movedToPoint_eq heps h h1 h2 junk pt true dense
  rw [e2] at hc
  have hn := h.good.wf.min
  have hdeg := h.deg
  obtain ⟨hs, hk⟩ := Curve.movedDelta_keep h hc
  have p0 : pf c'.poles 0 = pf c.poles 0 := hk 0 (Or.inl (by simp [fixRange]))
  have p1 : pf c'.poles (c.poles.length - 1) = pf c.poles (c.poles.length - 1) := hk _ (Or.inr (by
    simp only [fixRange, if_true]
    rw [if_pos (by omega)]
    exact lt_of_le_of_lt (min_le_left _ _) (by omega)))
  have v := (hs.shapeOk h).ends heps junk
  rw [hs.b0, hs.b1, hs.len, p0, p1] at v
  exact ⟨hs, p0, p1, by rw [v.1, (h.ends heps junk).1], by rw [v.2, (h.ends heps junk).2]⟩

/-- C90, `moved_to_point` with `fix_bounds`, at least three poles and a parameter inside the domain: the curve passes through the point, and no curve
on the same knots with the same first and last pole that does moves the poles less. -/
theorem C90_point_fixed (heps : 0 < eps) (h : c.ShapeOk eps) (hd : Spec.SolvesDense dense) {u : K} (h1 : c.b0 < u) (h2 : u < c.b1) (junk : K)
    (pt : Fin dim → K) (hn : 3 ≤ c.poles.length) :
    ∃ c', c.movedToPoint eps junk dense pt u true = .ok c' ∧ c.moveToPoint eps junk dense pt u true = .ok c' ∧ Spec.SameBasis c c' ∧
      c'.value eps junk u 0 = .ok pt ∧ pf c'.poles 0 = pf c.poles 0 ∧ pf c'.poles (c.poles.length - 1) = pf c.poles (c.poles.length - 1) ∧
      (∀ j, u < kf c.knots j ∨ kf c.knots (j + c.deg + 1) < u → pf c'.poles j = pf c.poles j) ∧
      ∀ e, Spec.SameBasis c e → e.value eps junk u 0 = .ok pt → pf e.poles 0 = pf c.poles 0 →
        pf e.poles (c.poles.length - 1) = pf c.poles (c.poles.length - 1) → Spec.moved2 c c' ≤ Spec.moved2 c e := by
  have hm := kf_mono h.good.wf.sorted
  have hdeg := h.deg
  obtain ⟨k, y, e1, a1, a2, a3, a4, e2⟩ := Curve.movedToPoint_eq heps h h1.le h2.le junk pt true dense
  have hsp : SpansC c.knots c.deg c.poles.length [(⟨u, 0, pt - y⟩ : Constr K (Fin dim → K))] (fun _ => k) := by
    refine ⟨?_, fun _ _ => a2, fun _ _ => a3, fun _ _ => (InSpan_bounds a1).2.2⟩
    intro i x hx
    obtain rfl : x = ⟨u, 0, pt - y⟩ := List.mem_singleton.mp (List.mem_of_getElem? hx)
    exact e1
  have hfix : fixRange true c.poles.length (k - c.deg, k) = (max 1 (k - c.deg), min (c.poles.length - 2) k) := by
    simp only [fixRange, if_true]
    rw [if_pos (by omega)]
  rw [hfix] at e2
  have hin : kf c.knots k ≤ u ∧ u < kf c.knots (k + 1) := by
    unfold Spec.InSpan at a1
    rwa [if_neg (by rw [← h.good.hi]; exact h2.ne)] at a1
  obtain ⟨j, j1, j2, j3, j4, hB⟩ : ∃ j, 1 ≤ j ∧ j + 2 ≤ c.poles.length ∧ k - c.deg ≤ j ∧ j ≤ k ∧ B (kf c.knots) k c.deg j u ≠ 0 := by
    rcases Nat.lt_or_ge c.deg k with hk | hk
    · refine ⟨k - c.deg, by omega, by omega, le_rfl, by omega, (B_pos hm hin.1 hin.2 c.deg _ ?_ ?_ (Or.inr ?_)).ne'⟩
      · exact (hm (by omega)).trans hin.1
      · rw [Nat.sub_add_cancel a2]; exact hin.2
      · rw [Nat.sub_add_cancel a2]; exact hin.1
    · obtain rfl : k = c.deg := by omega
      have hlt : kf c.knots 1 < u := lt_of_le_of_lt (hm hdeg) (by rw [← h.good.lo]; exact h1)
      exact ⟨1, le_rfl, by omega, by omega, hdeg, (B_pos hm hin.1 hin.2 c.deg 1 hlt.le (lt_of_lt_of_le hin.2 (hm (by omega))) (Or.inl hlt)).ne'⟩
  obtain ⟨c', g1, g2, g3, g4, g5⟩ := Curve.movedDelta_reach (i1 := max 1 (k - c.deg)) (i2 := min (c.poles.length - 2) k) heps h hd (junk := junk) hsp (by
      intro x hx; rw [List.mem_singleton.mp hx]; exact ⟨h1.le, h2.le⟩) (by omega) (by omega) (by simp; omega)
    (reaches_one (l := j - max 1 (k - c.deg)) (by omega) (by
      rw [collC_row rfl, show max 1 (k - c.deg) + (j - max 1 (k - c.deg)) = j by omega, Function.iterate_zero, id, Bp_eval]
      exact hB))
  have e3 : c.movedToPoint eps junk dense pt u true = .ok c' := by rw [e2]; exact g1
  obtain ⟨-, q0, q1, -, -⟩ := C90_fixed_keeps heps h h1.le h2.le junk pt e3
  refine ⟨c', e3, ?_, g2, ?_, q0, q1, ?_, ?_⟩
  · unfold Curve.moveToPoint
    rw [e3, R_bind_ok]
    unfold Curve.movePoles
    rw [if_neg (by rw [g2.len]; simp), ← g2.deg, ← g2.knots, ← g2.b0, ← g2.b1]
  · obtain ⟨w, w1, w2⟩ := g4 _ (List.mem_singleton.mpr rfl)
    rw [a4] at w1
    obtain rfl := Except.ok.inj w1
    rw [w2]
    simp
  · intro j hj
    have := out_of_span hm a1 hj
    exact g3 j (by omega)
  · intro e he hv f0 f1
    refine g5 e he ?_ ?_
    · intro j hj r
      by_cases hj0 : j = 0
      · rw [hj0, f0, sub_self, smul_zero]
      by_cases hj1 : j = c.poles.length - 1
      · rw [hj1, f1, sub_self, smul_zero]
      rw [collC_out (by omega), zero_smul]
    · intro x hx
      obtain rfl := List.mem_singleton.mp hx
      exact ⟨y, a4, by rw [hv]; simp⟩

/-- C90, `moved_to_point` with `fix_bounds` at an end of the curve, whatever the solver: the curve never reaches a point that it did not pass through. -/
theorem C90_fixed_end (heps : 0 < eps) (h : c.ShapeOk eps) (junk : K) (pt : Fin dim → K) {u : K} (hu : u = c.b0 ∨ u = c.b1)
    {c' : Curve K (Fin dim → K)} (hc : c.movedToPoint eps junk dense pt u true = .ok c') :
    c'.value eps junk u 0 = c.value eps junk u 0 := by
  have hlt := h.good.lt
  rcases hu with rfl | rfl
  · exact (C90_fixed_keeps heps h le_rfl hlt.le junk pt hc).2.2.2.1
  · exact (C90_fixed_keeps heps h hlt.le le_rfl junk pt hc).2.2.2.2

/-! ## Constraints -/

/-- The range of the constraints. -/
theorem Curve.spanRange_spec (h : c.ShapeOk eps) (cs : List (Constr K (Fin dim → K))) {sp : ℕ → ℕ}
    (hsp : SpansC c.knots c.deg c.poles.length cs sp) :
    ∃ i1 i2, c.spanRange cs = .ok (i1, i2) ∧ i1 < c.poles.length ∧ i2 < c.poles.length ∧ (cs ≠ [] → i1 ≤ i2) ∧
      ∀ r, r < cs.length → i1 ≤ sp r - c.deg ∧ sp r ≤ i2 := by
  have hn := h.good.wf.min
  unfold Curve.spanRange
  have key : ∀ (l : List (Constr K (Fin dim → K))) (a b : ℕ), a < c.poles.length → b < c.poles.length →
      ∃ i1 i2, l.foldlM (fun (r : ℕ × ℕ) x => do
        let s ← findSpanRange c.poles.length c.deg x.u c.knots
        pure (min r.1 s.1, max r.2 s.2)) (a, b) = (.ok (i1, i2) : R (ℕ × ℕ)) ∧ i1 ≤ a ∧ b ≤ i2 ∧ i1 < c.poles.length ∧ i2 < c.poles.length ∧
        ∀ x ∈ l, ∀ i, findSpan c.poles.length c.deg x.u c.knots = .ok i → i1 ≤ i - c.deg ∧ i ≤ i2 := by
    intro l
    induction l with
    | nil => intro a b ha hb; exact ⟨a, b, rfl, le_rfl, le_rfl, ha, hb, by simp⟩
    | cons x l ih =>
      intro a b ha hb
      obtain ⟨i, e, b1, b2, -⟩ := findSpan_wf h.good.wf x.u
      rw [List.foldlM_cons, findSpanRange_eq e]
      obtain ⟨i1, i2, g1, g2, g3, g4, g5, g6⟩ := ih (min a (i - c.deg)) (max b i) (by omega) (by omega)
      refine ⟨i1, i2, g1, by omega, by omega, g4, g5, ?_⟩
      intro y hy j hj
      rcases List.mem_cons.mp hy with rfl | hy
      · rw [e] at hj
        obtain rfl := Except.ok.inj hj
        omega
      · exact g6 y hy j hj
  obtain ⟨i1, i2, g1, -, -, g4, g5, g6⟩ := key cs (c.poles.length - 1) 0 (by omega) (by omega)
  have hall : ∀ r, r < cs.length → i1 ≤ sp r - c.deg ∧ sp r ≤ i2 := fun r hr =>
    g6 _ (List.getElem_mem hr) _ (hsp.find r _ (List.getElem?_eq_getElem hr))
  refine ⟨i1, i2, g1, g4, g5, ?_, hall⟩
  intro hne
  have := hall 0 (List.length_pos_iff.mpr hne)
  omega

/-- C90, `moved_to_constraints` as it is, with or without `fix_bounds`: it computes the differences, then passes the constraints themselves on, so
that each constraint is added to the value that the curve had. The constraints are met by the curves that vanish there alone. -/
theorem C90_constraints_partial (heps : 0 < eps) (h : c.ShapeOk eps) (hd : Spec.SolvesDense dense) {junk : K} {cs : List (Constr K (Fin dim → K))}
    (hne : cs ≠ []) (hdom : ∀ y ∈ cs, c.b0 ≤ y.u ∧ y.u ≤ c.b1) (fix : Bool) {r : ℕ × ℕ} (hr : c.spanRange cs = .ok r)
    (hm : cs.length ≤ (fixRange fix c.poles.length r).2 + 1 - (fixRange fix c.poles.length r).1)
    (hc : Spec.CanReach eps junk c cs (fixRange fix c.poles.length r).1 (fixRange fix c.poles.length r).2) :
    ∃ c', c.movedToConstraints eps junk dense cs fix = .ok c' ∧ c.moveToConstraints eps junk dense cs fix = .ok c' ∧ Spec.SameBasis c c' ∧
      ∀ y ∈ cs, ∃ w, c.value eps junk y.u y.d = .ok w ∧ c'.value eps junk y.u y.d = .ok (w + y.v) ∧
        (c'.value eps junk y.u y.d = .ok y.v ↔ w = 0) := by
  obtain ⟨sp, hsp⟩ := exists_spansC h.kwf cs
  obtain ⟨i1, i2, e1, b1, b2, b3, b4⟩ := Curve.spanRange_spec h cs hsp
  rw [e1] at hr
  obtain rfl := Except.ok.inj hr
  have hpos : 0 < cs.length := List.length_pos_iff.mpr hne
  have hb2 : (fixRange fix c.poles.length (i1, i2)).2 + 1 ≤ c.poles.length := by
    unfold fixRange
    split
    · dsimp only
      split <;> omega
    · exact b2
  obtain ⟨c', a1, a2, -, a4, -⟩ := C90_delta heps h hd hdom (by omega) hb2 hm hc
  have hdel : ∃ ds, c.toDelta eps junk cs = .ok ds := by
    unfold Curve.toDelta
    have : ∀ l : List (Constr K (Fin dim → K)), (∀ y ∈ l, c.b0 ≤ y.u ∧ y.u ≤ c.b1) → ∃ ds, l.mapM (fun x => do
        let y ← c.value eps junk x.u x.d
        pure (⟨x.u, x.d, x.v - y⟩ : Constr K (Fin dim → K))) = (.ok ds : R _) := by
      intro l hl
      induction l with
      | nil => exact ⟨[], rfl⟩
      | cons x l ih =>
        obtain ⟨ds, e⟩ := ih fun y hy => hl y (List.mem_cons_of_mem _ hy)
        have hx := hl x List.mem_cons_self
        obtain ⟨_, -, -, -, -, e2⟩ := Curve.value_span heps h.good h.bigOk hx.1 hx.2
        rw [List.mapM_cons, e2 junk x.d, e]
        exact ⟨_, rfl⟩
    exact this cs hdom
  obtain ⟨ds, eds⟩ := hdel
  have e3 : c.movedToConstraints eps junk dense cs fix = .ok c' := by
    unfold Curve.movedToConstraints
    rw [eds, R_bind_ok, e1, R_bind_ok]
    exact a1
  refine ⟨c', e3, ?_, a2, ?_⟩
  · unfold Curve.moveToConstraints
    rw [e3, R_bind_ok]
    unfold Curve.movePoles
    rw [if_neg (by rw [a2.len]; simp), ← a2.deg, ← a2.knots, ← a2.b0, ← a2.b1]
  · intro y hy
    obtain ⟨w, w1, w2⟩ := a4 y hy
    refine ⟨w, w1, w2, ?_⟩
    rw [w2]
    constructor
    · intro hw
      simpa using Except.ok.inj hw
    · rintro rfl
      rw [zero_add]

/-- C90, `moved_to_constraints` without constraints, for at least three poles: the number of columns of the matrix wraps around. -/
theorem C90_no_constraints (hn : 3 ≤ c.poles.length) (junk : K) :
    c.movedToConstraints eps junk dense [] = .error .oob := by
  unfold Curve.movedToConstraints Curve.toDelta Curve.spanRange
  simp only [List.mapM_nil, List.foldlM_nil, pure, Except.pure, bind, Except.bind, fixRange]
  unfold Curve.movedDelta moveDelta usub
  simp only [Bool.false_eq_true, if_false]
  rw [if_neg (by omega)]
  rfl

end point

/-! ## Witnesses and examples -/

namespace Sample

/-- A clamped quadratic plane curve with five poles, away from the origin. -/
def shp : Curve ℚ (Fin 2 → ℚ) where
  deg := 2
  poles := [![1, 0], ![2, 2], ![3, 1], ![4, -1], ![6, 0]]
  knots := [0, 0, 0, 1, 2, 3, 3, 3]
  b0 := 0
  b1 := 3

theorem shp_ok : shp.ShapeOk (1/1000000 : ℚ) :=
  ⟨⟨⟨by decide +kernel, rfl, by decide, by decide +kernel, by decide +kernel⟩, by decide +kernel, by decide +kernel⟩,
    ⟨by decide +kernel, by decide +kernel⟩, c_sep, by decide⟩

/-- A real-valued curve on the same knots with given end poles. -/
def shpEnds (a b : ℚ) : Curve ℚ ℚ := ⟨2, [a, 0, 0, 0, b], [0, 0, 0, 1, 2, 3, 3, 3], 0, 3⟩

theorem shpEnds_same (a b : ℚ) : Spec.SameBasis shp (shpEnds a b) := ⟨rfl, rfl, rfl, rfl, rfl⟩

theorem shpEnds_value (a b : ℚ) : (shpEnds a b).value (1/1000000) 0 0 0 = .ok a ∧ (shpEnds a b).value (1/1000000) 0 3 0 = .ok b :=
  ((shpEnds_same a b).shapeOk shp_ok).ends (by norm_num) 0

/-- Two constraints, at the two ends. -/
def shpCs : List (Constr ℚ (Fin 2 → ℚ)) := [⟨0, 0, ![1, 1]⟩, ⟨3, 0, ![0, 2]⟩]

theorem shpCs_dom : ∀ y ∈ shpCs, shp.b0 ≤ y.u ∧ y.u ≤ shp.b1 := by
  intro y hy
  rcases List.mem_cons.mp hy with rfl | hy
  · exact ⟨by decide +kernel, by decide +kernel⟩
  · rw [List.mem_singleton.mp hy]
    exact ⟨by decide +kernel, by decide +kernel⟩

theorem shpCs_reach : Spec.CanReach (1/1000000 : ℚ) 0 shp shpCs 0 4 := by
  intro x
  refine ⟨shpEnds (x 0) (x 1), shpEnds_same _ _, ?_, ?_⟩
  · intro j hj
    have : 5 ≤ j := by omega
    unfold pf
    rw [List.getD_eq_getElem?_getD, List.getElem?_eq_none (by simpa [shpEnds] using this)]
    rfl
  · intro r y hy
    match r with
    | 0 => obtain rfl := Option.some.inj hy; exact (shpEnds_value _ _).1
    | 1 => obtain rfl := Option.some.inj hy; exact (shpEnds_value _ _).2
    | r + 2 => cases hy

/-- The two ends are moved. -/
example {dense : ℕ → (ℕ → ℕ → ℚ) → List (Fin 2 → ℚ) → R (List (Fin 2 → ℚ))} (hd : Spec.SolvesDense dense) :=
  C90_delta (by norm_num) shp_ok hd shpCs_dom (i1 := 0) (i2 := 4) (by decide) (by decide) (by decide) shpCs_reach

/-- Two points for one pole. -/
def shpTwo : List (Constr ℚ (Fin 2 → ℚ)) := [⟨0, 0, ![1, 1]⟩, ⟨0, 0, ![0, 2]⟩]

example {dense : ℕ → (ℕ → ℕ → ℚ) → List (Fin 2 → ℚ) → R (List (Fin 2 → ℚ))} (hd : Spec.SolvesDense dense) :=
  C90_delta_least (cs := shpTwo) (junk := 0) (by norm_num) shp_ok hd (by
    intro y hy
    have : y.u = 0 := by
      rcases List.mem_cons.mp hy with rfl | hy
      · rfl
      · rw [List.mem_singleton.mp hy]
    rw [this]
    exact ⟨by decide +kernel, by decide +kernel⟩) (i1 := 0) (i2 := 0) (by decide) (by decide) (by decide) (by
    intro e he h0 hv j
    rcases Nat.eq_zero_or_pos j with rfl | hj
    · have h1 := hv 0 _ rfl
      have h2 := ((he.shapeOk shp_ok).ends (by norm_num) 0).1
      rw [he.b0] at h2
      exact Except.ok.inj (h2.symm.trans h1)
    · exact h0 j (Or.inr hj))

example {dense : ℕ → (ℕ → ℕ → ℚ) → List (Fin 2 → ℚ) → R (List (Fin 2 → ℚ))} (hd : Spec.SolvesDense dense) :=
  C90_point (by norm_num) shp_ok hd (u := 3/2) (by decide +kernel) (by decide +kernel) 0 ![7, 7]

example {dense : ℕ → (ℕ → ℕ → ℚ) → List (Fin 2 → ℚ) → R (List (Fin 2 → ℚ))} (hd : Spec.SolvesDense dense) :=
  C90_point_fixed (by norm_num) shp_ok hd (u := 1/2) (by decide +kernel) (by decide +kernel) 0 ![7, 7] (by decide)

theorem shp_fixed_runs : ∃ c', shp.movedToPoint (1/1000000) 0 (fun n _ _ => .ok (List.replicate n 0)) ![7, 7] 0 true = .ok c' := by
  have h : (shp.movedToPoint (1/1000000) 0 (fun n _ _ => .ok (List.replicate n 0)) ![7, 7] 0 true).isOk = true := by decide +kernel
  cases e : shp.movedToPoint (1/1000000) 0 (fun n _ _ => .ok (List.replicate n 0)) ![7, 7] 0 true with
  | ok c' => exact ⟨c', rfl⟩
  | error x => rw [e] at h; cases h

example : ∃ c', shp.movedToPoint (1/1000000) 0 (fun n _ _ => .ok (List.replicate n 0)) ![7, 7] 0 true = .ok c' ∧
    pf c'.poles 0 = pf shp.poles 0 ∧ c'.value (1/1000000) 0 0 0 = shp.value (1/1000000) 0 0 0 := by
  obtain ⟨c', e⟩ := shp_fixed_runs
  exact ⟨c', e, (C90_fixed_keeps (by norm_num) shp_ok (by decide +kernel) (by decide +kernel) 0 _ e).2.1,
    C90_fixed_end (by norm_num) shp_ok 0 _ (Or.inl rfl) e⟩

end Sample

/-- C90, disagreement: a curve that starts at the point of its only constraint is moved away from it by `moved_to_constraints`. -/
theorem C90_constraints_witness {dense : ℕ → (ℕ → ℕ → ℚ) → List (Fin 2 → ℚ) → R (List (Fin 2 → ℚ))} (hd : Spec.SolvesDense dense) :
    Sample.shp.value (1/1000000) 0 0 0 = .ok ![1, 0] ∧
    ∃ c', Sample.shp.movedToConstraints (1/1000000) 0 dense [⟨0, 0, ![1, 0]⟩] = .ok c' ∧ c'.value (1/1000000) 0 0 0 = .ok (![1, 0] + ![1, 0]) ∧
      c'.value (1/1000000) 0 0 0 ≠ .ok ![1, 0] := by
  have h0 : Sample.shp.value (1/1000000) 0 0 0 = .ok ![1, 0] := (Sample.shp_ok.ends (by norm_num) 0).1
  obtain ⟨c', e, -, -, hv⟩ := C90_constraints_partial (cs := [⟨0, 0, ![1, 0]⟩]) (junk := 0) (by norm_num) Sample.shp_ok hd (by simp) (by
    intro y hy
    rw [List.mem_singleton.mp hy]
    exact ⟨by decide +kernel, by decide +kernel⟩) false (r := (0, 2)) (by decide +kernel) (by decide) (by
    intro x
    refine ⟨Sample.shpEnds (x 0) 0, Sample.shpEnds_same _ _, ?_, ?_⟩
    · intro j hj
      have : 3 ≤ j := by simp [fixRange] at hj; omega
      match j with
      | 3 => rfl
      | 4 => rfl
      | j + 5 => rfl
    · intro r y hy
      match r with
      | 0 => obtain rfl := Option.some.inj hy; exact (Sample.shpEnds_value _ _).1
      | r + 1 => cases hy)
  obtain ⟨w, w1, w2, w3⟩ := hv _ (List.mem_singleton.mpr rfl)
  obtain rfl : ![1, 0] = w := Except.ok.inj (h0.symm.trans w1)
  refine ⟨h0, c', e, w2, fun hc => ?_⟩
  have := congrFun (w3.mp hc) 0
  simp at this

end Gbs
