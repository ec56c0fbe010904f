import Verif.Props.MeshRefine
import Verif.Props.MeshVertex
import Verif.Model.Laplacian
import Mathlib.Algebra.BigOperators.Group.Finset.Basic

/-!
# C102: the neighbours of a vertex and the refinement with smoothing
-/

set_option linter.unusedSectionVars false

namespace Gbs

section fan

variable {P : Type} {h : Mesh P} {F : List ℕ}

/-- An injective step does not walk for ever among finitely many without coming back. -/
theorem endless {N s : ℕ} {g : ℕ → ℕ} (hlt : ∀ i, i ≤ N → g^[i] s < N)
    (hinj : ∀ i j, i < N → j < N → g (g^[i] s) = g (g^[j] s) → g^[i] s = g^[j] s) (hns : ∀ i < N, g^[i + 1] s ≠ s) : False := by
  have key : ∀ i j, i < j → j ≤ N → g^[i] s ≠ g^[j] s := by
    intro i
    induction i with
    | zero =>
      intro j h0 hjn heq
      obtain ⟨k, rfl⟩ : ∃ k, j = k + 1 := ⟨j - 1, by omega⟩
      exact hns k (by omega) heq.symm
    | succ i ih =>
      intro j hij hjn heq
      obtain ⟨k, rfl⟩ : ∃ k, j = k + 1 := ⟨j - 1, by omega⟩
      rw [Function.iterate_succ_apply', Function.iterate_succ_apply'] at heq
      exact ih k (by omega) (by omega) (hinj i k (by omega) (by omega) heq)
  obtain ⟨x, y, hxy, heq⟩ := Fintype.exists_ne_map_eq_of_card_lt (fun i : Fin (N + 1) => (⟨g^[i.1] s, hlt i (by omega)⟩ : Fin N)) (by simp)
  simp only [Fin.mk.injEq] at heq
  rcases Nat.lt_or_gt_of_ne (fun hh => hxy (Fin.ext hh)) with hh | hh
  · exact key x.1 y.1 hh (by omega) heq
  · exact key y.1 x.1 hh (by omega) heq.symm

theorem neighboursBack_spec (H : Spec.Valid h F) {s v : ℕ} (hs : Spec.Live h F s) (hv : (h.he s).vertex = some v) : ∀ k j, k + j = h.nE + 1 →
    (∀ i < j, (h.he ((around h)^[i] s)).opp ≠ none) → (∀ i < j, (around h)^[i + 1] s ≠ s) →
    ∃ n b, j ≤ n ∧ h.neighboursBack s k ((around h)^[j] s) (List.replicate j (some v)) = .ok (List.replicate n (some v), b) ∧
      (b = true ↔ Spec.OpenFan h s) ∧ (n = 0 → (h.he s).opp = none) := by
  intro k
  induction k with
  | zero =>
    intro j hkj ho hn
    exfalso
    refine endless (N := h.nE) (s := s) (g := around h) (fun i hi => H.live_lt (H.walk hs i fun x hx => ho x (by omega)).1) ?_ fun i hi => hn i (by omega)
    intro a b ha hb heq
    obtain ⟨o, ho1⟩ := Option.ne_none_iff_exists'.mp (ho a (by omega))
    obtain ⟨o', ho2⟩ := Option.ne_none_iff_exists'.mp (ho b (by omega))
    exact H.around_inj (H.walk hs a fun x hx => ho x (by omega)).1 (H.walk hs b fun x hx => ho x (by omega)).1 ho1 ho2 heq
  | succ k ih =>
    intro j hkj ho hn
    obtain ⟨w1, w2, w3⟩ := H.walk hs j ho
    rw [Mesh.neighboursBack]
    rcases hopp : (h.he ((around h)^[j] s)).opp with _ | o
    · refine ⟨j, true, le_refl _, rfl, by simpa using ⟨_, w3, hopp⟩, ?_⟩
      rintro rfl; exact hopp
    · obtain ⟨k1, k2, k3⟩ := H.aroundStep w1 hopp
      dsimp only
      rw [k1]
      have e1 : (deref (some (around h ((around h)^[j] s))) : R ℕ) = .ok (around h ((around h)^[j] s)) := rfl
      rw [e1, R_bind_ok]
      rw [k3, w2, hv]
      have e2 : some v :: List.replicate j (some v) = List.replicate (j + 1) (some v) := rfl
      rw [e2]
      by_cases hc : around h ((around h)^[j] s) = s
      · rw [if_pos hc]
        refine ⟨j + 1, false, by omega, rfl, ?_, by omega⟩
        constructor
        · intro hh; cases hh
        rintro ⟨e', hr, hn'⟩
        exfalso
        have hcyc : ∀ e', Relation.ReflTransGen (Spec.Around h) s e' → ∃ i ≤ j, e' = (around h)^[i] s := by
          intro e' hr
          induction hr with
          | refl => exact ⟨0, by omega, rfl⟩
          | tail _ hst ih =>
            obtain ⟨i, hi, rfl⟩ := ih
            obtain ⟨o', ho', hp'⟩ := hst
            obtain ⟨l1, -, -⟩ := H.aroundStep (H.walk hs i fun x hx => ho x (by omega)).1 ho'
            rw [l1] at hp'
            rcases Nat.lt_or_ge i j with hij | hij
            · refine ⟨i + 1, by omega, ?_⟩
              rw [Function.iterate_succ_apply']
              exact (Option.some.inj hp').symm
            · obtain rfl : i = j := by omega
              rw [hc] at hp'
              exact ⟨0, by omega, (Option.some.inj hp').symm⟩
        obtain ⟨i, hi, rfl⟩ := hcyc e' hr
        rcases Nat.lt_or_ge i j with hij | hij
        · exact ho i hij hn'
        · obtain rfl : i = j := by omega
          rw [hopp] at hn'; cases hn'
      · rw [if_neg hc]
        have := ih (j + 1) (by omega) (by
          intro i hi
          rcases Nat.lt_or_ge i j with hij | hij
          · exact ho i hij
          · obtain rfl : i = j := by omega
            rw [hopp]; simp) (by
          intro i hi
          rcases Nat.lt_or_ge i j with hij | hij
          · exact hn i hij
          · obtain rfl : i = j := by omega
            rw [Function.iterate_succ_apply']
            exact hc)
        rw [Function.iterate_succ_apply'] at this
        obtain ⟨n, b, l1, l2, l3, l4⟩ := this
        exact ⟨n, b, by omega, l2, l3, l4⟩

/-- The half-edge that ends at the same vertex in the face across the next half-edge. -/
def fwd (h : Mesh P) (e : ℕ) : ℕ := ((h.he e).next.bind fun n => (h.he n).opp).getD 0

theorem Spec.Valid.fwdStep (H : Spec.Valid h F) {e n o : ℕ} (he : Spec.Live h F e) (hn : (h.he e).next = some n) (ho : (h.he n).opp = some o) :
    o = fwd h e ∧ Spec.Live h F o ∧ (h.he o).vertex = (h.he e).vertex ∧ (h.he o).opp = some n := by
  obtain ⟨f, hf, hef⟩ := he
  obtain ⟨b, c, t⟩ := H.triAt hf hef
  rw [t.na] at hn
  cases hn
  obtain ⟨h1, h2, h3⟩ := H.opp_start ⟨f, hf, t.fb⟩ ho
  refine ⟨by simp [fwd, t.na, ho], h1, ?_, h2⟩
  rw [h3, t.rotate.start]

theorem Spec.Valid.next (H : Spec.Valid h F) {e : ℕ} (he : Spec.Live h F e) : ∃ n, (h.he e).next = some n ∧ Spec.Live h F n ∧ (h.he n).prev = some e := by
  obtain ⟨f, hf, hef⟩ := he
  obtain ⟨b, c, t⟩ := H.triAt hf hef
  exact ⟨b, t.na, ⟨f, hf, t.fb⟩, t.pb⟩

theorem neighboursFwd_spec (H : Spec.Valid h F) {s v : ℕ} (hs : Spec.Live h F s) (hv : (h.he s).vertex = some v) (m : ℕ) : ∀ k j, k + j = h.nE + 1 →
    (∀ i ≤ j, Spec.Live h F ((fwd h)^[i] s) ∧ (h.he ((fwd h)^[i] s)).vertex = some v) →
    (∀ i < j, ∃ n, (h.he ((fwd h)^[i] s)).next = some n ∧ (h.he n).opp = some ((fwd h)^[i + 1] s)) → (∀ i < j, (fwd h)^[i + 1] s ≠ s) →
    ∃ n, j + m ≤ n ∧ h.neighboursFwd s k ((fwd h)^[j] s) (List.replicate (m + j) (some v)) = .ok (List.replicate n (some v)) ∧
      (n = 0 ↔ m = 0 ∧ ∃ n, (h.he s).next = some n ∧ (h.he n).opp = none) := by
  intro k
  induction k with
  | zero =>
    intro j hkj hl ho hn
    exfalso
    refine endless (N := h.nE) (s := s) (g := fwd h) (fun i hi => H.live_lt (hl i (by omega)).1) ?_ fun i hi => hn i (by omega)
    intro a b ha hb heq
    obtain ⟨x, a1, a2⟩ := ho a (by omega)
    obtain ⟨y, b1, b2⟩ := ho b (by omega)
    obtain ⟨x', a3, a4, a5⟩ := H.next (hl a (by omega)).1
    obtain ⟨y', b3, b4, b5⟩ := H.next (hl b (by omega)).1
    rw [a1] at a3; cases a3
    rw [b1] at b3; cases b3
    obtain ⟨-, -, -, a6⟩ := H.fwdStep (hl a (by omega)).1 a1 a2
    obtain ⟨-, -, -, b6⟩ := H.fwdStep (hl b (by omega)).1 b1 b2
    rw [Function.iterate_succ_apply'] at a6 b6
    rw [heq, b6] at a6
    cases a6
    rw [a5] at b5
    exact Option.some.inj b5
  | succ k ih =>
    intro j hkj hl ho hn
    obtain ⟨w1, w2⟩ := hl j le_rfl
    obtain ⟨nx, n1, n2, n3⟩ := H.next w1
    rw [Mesh.neighboursFwd, n1]
    have e1 : (deref (some nx) : R ℕ) = .ok nx := rfl
    rw [e1, R_bind_ok]
    rcases hopp : (h.he nx).opp with _ | o
    · refine ⟨m + j, by omega, rfl, ?_⟩
      constructor
      · intro h0
        obtain rfl : j = 0 := by omega
        exact ⟨by omega, nx, n1, hopp⟩
      · rintro ⟨rfl, y, y1, y2⟩
        rcases Nat.eq_zero_or_pos j with rfl | hj
        · rfl
        · obtain ⟨z, z1, z2⟩ := ho 0 hj
          rw [Function.iterate_zero, id, y1] at z1
          cases z1
          rw [y2] at z2; cases z2
    · obtain ⟨k1, k2, k3, k4⟩ := H.fwdStep w1 n1 hopp
      dsimp only
      have e2 : List.replicate (m + j) (some v) ++ [(h.he o).vertex] = List.replicate (m + (j + 1)) (some v) := by
        rw [k3, w2, ← Nat.add_assoc, List.replicate_succ']
      rw [e2]
      have hfin : ∀ n, j + m < n → (n = 0 ↔ m = 0 ∧ ∃ n, (h.he s).next = some n ∧ (h.he n).opp = none) := by
        intro n hlt
        constructor
        · omega
        · rintro ⟨-, y, y1, y2⟩
          exfalso
          rcases Nat.eq_zero_or_pos j with rfl | hj
          · rw [Function.iterate_zero, id, y1] at n1
            cases n1
            rw [y2] at hopp; cases hopp
          · obtain ⟨z, z1, z2⟩ := ho 0 hj
            rw [Function.iterate_zero, id, y1] at z1
            cases z1
            rw [y2] at z2; cases z2
      by_cases hc : o = s
      · rw [if_pos hc]
        exact ⟨m + (j + 1), by omega, rfl, hfin _ (by omega)⟩
      · rw [if_neg hc]
        have e3 : (fwd h)^[j + 1] s = o := by rw [Function.iterate_succ_apply', ← k1]
        obtain ⟨n, l1, l2, l3⟩ := ih (j + 1) (by omega) (by
          intro i hi
          rcases Nat.lt_or_ge j i with hij | hij
          · obtain rfl : i = j + 1 := by omega
            rw [e3]; exact ⟨k2, k3.trans w2⟩
          · exact hl i hij) (by
          intro i hi
          rcases Nat.lt_or_ge i j with hij | hij
          · exact ho i hij
          · obtain rfl : i = j := by omega
            exact ⟨nx, n1, by rw [hopp, e3]⟩) (by
          intro i hi
          rcases Nat.lt_or_ge i j with hij | hij
          · exact hn i hij
          · obtain rfl : i = j := by omega
            rw [e3]; exact hc)
        rw [e3] at l2
        exact ⟨n, by omega, l2, hfin n (by omega)⟩

/-- C102 (negation): on a valid mesh `getNeighboringVertices` ends, and it never returns a neighbour: it returns copies of the vertex itself. It returns
nothing when the half-edge of the vertex is in a triangle with nothing across the two sides at the vertex. -/
theorem C102_neighbours (H : Spec.Valid h F) {v e : ℕ} (hv : h.ve v = some e) (he : Spec.Live h F e) (hev : (h.he e).vertex = some v) :
    ∃ n, h.getNeighboringVertices v = .ok (List.replicate n (some v)) ∧
      (n = 0 ↔ (h.he e).opp = none ∧ ∃ x, (h.he e).next = some x ∧ (h.he x).opp = none) := by
  obtain ⟨n, b, -, h1, h2, h3⟩ := neighboursBack_spec H he hev (h.nE + 1) 0 (by omega) (by omega) (by omega)
  unfold Mesh.getNeighboringVertices
  rw [hv]
  have e1 : (deref (some e) : R ℕ) = .ok e := rfl
  have h1' : h.neighboursBack e (h.nE + 1) e [] = .ok (List.replicate n (some v), b) := h1
  rw [e1, R_bind_ok, h1', R_bind_ok]
  dsimp only
  cases b with
  | false =>
    refine ⟨n, rfl, fun h0 => ?_, fun ⟨ho, _⟩ => ?_⟩
    · exfalso
      have := h2.mpr ⟨e, Relation.ReflTransGen.refl, h3 h0⟩
      cases this
    · exfalso
      have := h2.mpr ⟨e, Relation.ReflTransGen.refl, ho⟩
      cases this
  | true =>
    rw [if_pos rfl]
    obtain ⟨k, -, k2, k3⟩ := neighboursFwd_spec H he hev n (h.nE + 1) 0 (by omega) (by
      intro i hi
      obtain rfl : i = 0 := by omega
      exact ⟨he, hev⟩) (by omega) (by omega)
    refine ⟨k, k2, ?_⟩
    rw [k3]
    constructor
    · rintro ⟨h0, hx⟩; exact ⟨h3 h0, hx⟩
    · rintro ⟨ho, hx⟩
      refine ⟨?_, hx⟩
      -- nothing is met by the first loop
      rw [Mesh.neighboursBack, ho] at h1'
      have := congrArg (fun r => match r with | .ok (l, _) => l.length | .error _ => 0) h1'
      simpa [pure, Except.pure] using this.symm

end fan

section plane

variable {K : Type} [Field K] [LinearOrder K] [IsStrictOrderedRing K] {h h' : Mesh (K × K)} {F : List ℕ} {f a b c : ℕ}

theorem sumCo_replicate (v : ℕ) : ∀ (n : ℕ) (c : K × K), h.sumCo (List.replicate n (some v)) c = .ok (c.1 + n * (h.co v).1, c.2 + n * (h.co v).2) := by
  intro n
  induction n with
  | zero => intro c; simp [Mesh.sumCo, pure, Except.pure]
  | succ n ih =>
    intro c
    rw [List.replicate_succ, Mesh.sumCo]
    have e1 : (deref (some v) : R ℕ) = .ok v := rfl
    rw [e1, R_bind_ok, ih]
    congr 1
    ext
    · simp only [Prod.fst_add]; push_cast; ring
    · simp only [Prod.snd_add]; push_cast; ring

/-- C102 (negation): `laplacian_smoothing` moves no vertex of a valid mesh: it divides by zero when nothing is across the sides of the triangle of the
vertex, and changes nothing otherwise. -/
theorem C102_smoothing (H : Spec.Valid h F) {v e : ℕ} (hv : h.ve v = some e) (he : Spec.Live h F e) (hev : (h.he e).vertex = some v) :
    ((h.he e).opp = none ∧ (∃ x, (h.he e).next = some x ∧ (h.he x).opp = none) ∧ h.laplacianSmoothing v = .error .divZero) ∨
    (¬((h.he e).opp = none ∧ ∃ x, (h.he e).next = some x ∧ (h.he x).opp = none) ∧ h.laplacianSmoothing v = .ok h) := by
  obtain ⟨n, h1, h2⟩ := C102_neighbours H hv he hev
  by_cases h0 : n = 0
  · left
    refine ⟨(h2.mp h0).1, (h2.mp h0).2, ?_⟩
    unfold Mesh.laplacianSmoothing
    rw [h1, R_bind_ok, sumCo_replicate, R_bind_ok, h0]
    simp [fdiv]
  · right
    refine ⟨fun hc => h0 (h2.mpr hc), ?_⟩
    have hn : (n : K) ≠ 0 := Nat.cast_ne_zero.mpr h0
    unfold Mesh.laplacianSmoothing
    rw [h1, R_bind_ok, sumCo_replicate, R_bind_ok, List.length_replicate]
    have d1 : fdiv ((0, 0) + ((n : K) * (h.co v).1, (n : K) * (h.co v).2) : K × K).1 (n : K) = .ok (h.co v).1 := by
      rw [fdiv, if_neg hn]
      congr 1
      simp only [Prod.fst_add, zero_add]
      field_simp
    have d2 : fdiv ((0, 0) + ((n : K) * (h.co v).1, (n : K) * (h.co v).2) : K × K).2 (n : K) = .ok (h.co v).2 := by
      rw [fdiv, if_neg hn]
      congr 1
      simp only [Prod.snd_add, zero_add]
      field_simp
    have d1' : fdiv ((0 : K) + (n : K) * (h.co v).1) (n : K) = .ok (h.co v).1 := by simpa using d1
    have d2' : fdiv ((0 : K) + (n : K) * (h.co v).2) (n : K) = .ok (h.co v).2 := by simpa using d2
    dsimp only
    rw [d1', R_bind_ok, d2', R_bind_ok, Prod.mk.eta, Function.update_eq_self]
    rfl

/-- The apex of the triangle across is on the circle: the quadrangle is strictly convex. -/
theorem cocircular_convex {A B C E : K × K} (h1 : 0 < Spec.area2 A B C) (h2 : 0 < Spec.area2 C E A) (h3 : inCircle A B C E = 0) :
    0 < Spec.area2 E A B ∧ 0 < Spec.area2 B C E := by
  have hs : Spec.area2 E A B + Spec.area2 B C E = Spec.area2 A B C + Spec.area2 C E A := by unfold Spec.area2; ring
  have hid : Spec.area2 E A B * Spec.area2 B C E * ((C.1 - A.1) ^ 2 + (C.2 - A.2) ^ 2) =
      Spec.area2 A B C * Spec.area2 C E A * ((B.1 - E.1) ^ 2 + (B.2 - E.2) ^ 2) := by
    unfold inCircle at h3
    unfold Spec.area2 at *
    linear_combination ((B.1 - A.1) * (C.2 - A.2) - (C.1 - A.1) * (B.2 - A.2) + ((E.1 - C.1) * (A.2 - C.2) - (A.1 - C.1) * (E.2 - C.2))) * h3
  have hne : 0 < (B.1 - E.1) ^ 2 + (B.2 - E.2) ^ 2 := by
    by_contra hn
    have q1 : (B.1 - E.1) ^ 2 = 0 := le_antisymm (by nlinarith [sq_nonneg (B.2 - E.2)]) (sq_nonneg _)
    have q2 : (B.2 - E.2) ^ 2 = 0 := le_antisymm (by nlinarith [sq_nonneg (B.1 - E.1)]) (sq_nonneg _)
    have r1 : B.1 = E.1 := sub_eq_zero.mp (pow_eq_zero_iff (two_ne_zero) |>.mp q1)
    have r2 : B.2 = E.2 := sub_eq_zero.mp (pow_eq_zero_iff (two_ne_zero) |>.mp q2)
    have : B = E := Prod.ext r1 r2
    subst this
    have : Spec.area2 C B A = - Spec.area2 A B C := by unfold Spec.area2; ring
    linarith
  have hp : 0 < Spec.area2 E A B * Spec.area2 B C E := by
    have h4 : 0 < Spec.area2 E A B * Spec.area2 B C E * ((C.1 - A.1) ^ 2 + (C.2 - A.2) ^ 2) := by
      rw [hid]; exact mul_pos (mul_pos h1 h2) hne
    exact pos_of_mul_pos_left h4 (by positivity)
  rcases pos_and_pos_or_neg_and_neg_of_mul_pos hp with hh | hh
  · exact hh
  · linarith [hh.1, hh.2]

/-- Its two other triangles have the same circle. -/
theorem cocircular_out {A B C E u : K × K} (h1 : 0 < Spec.area2 A B C) (h2 : 0 < Spec.area2 C E A) (h3 : inCircle A B C E = 0) (hu : inCircle A B C u ≤ 0) :
    inCircle E A B u ≤ 0 ∧ inCircle B C E u ≤ 0 := by
  obtain ⟨p1, p2⟩ := cocircular_convex h1 h2 h3
  have i1 : Spec.area2 A B C * inCircle E A B u = Spec.area2 E A B * inCircle A B C u - Spec.area2 A B u * inCircle A B C E := by
    unfold inCircle Spec.area2
    ring
  have i2 : Spec.area2 A B C * inCircle B C E u = Spec.area2 B C E * inCircle A B C u - Spec.area2 B C u * inCircle A B C E := by
    unfold inCircle Spec.area2
    ring
  rw [h3, mul_zero, sub_zero] at i1 i2
  constructor
  · by_contra hn
    have := mul_pos h1 (not_le.mp hn)
    rw [i1] at this
    exact absurd (mul_nonpos_of_nonneg_of_nonpos p1.le hu) (not_le.mpr this)
  · by_contra hn
    have := mul_pos h1 (not_le.mp hn)
    rw [i2] at this
    exact absurd (mul_nonpos_of_nonneg_of_nonpos p2.le hu) (not_le.mpr this)

/-- Two terms of a sum over a list change and keep their sum. -/
theorem sum_two {A : Type} [AddCommGroup A] {g g' : ℕ → A} {f1 f2 : ℕ} (hnd : F.Nodup) (h1 : f1 ∈ F) (h2 : f2 ∈ F) (hne : f1 ≠ f2)
    (hs : g' f1 + g' f2 = g f1 + g f2) (ho : ∀ x ∈ F, x ≠ f1 → x ≠ f2 → g' x = g x) : (F.map g').sum = (F.map g).sum := by
  rw [← List.sum_toFinset g' hnd, ← List.sum_toFinset g hnd]
  have m1 : f1 ∈ F.toFinset := List.mem_toFinset.mpr h1
  have m2 : f2 ∈ F.toFinset.erase f1 := Finset.mem_erase.mpr ⟨hne.symm, List.mem_toFinset.mpr h2⟩
  rw [← Finset.add_sum_erase _ g' m1, ← Finset.add_sum_erase _ g m1, ← Finset.add_sum_erase _ g' m2, ← Finset.add_sum_erase _ g m2, ← add_assoc, ← add_assoc,
    hs]
  congr 1
  refine Finset.sum_congr rfl fun x hx => ?_
  rw [Finset.mem_erase, Finset.mem_erase] at hx
  exact ho x (List.mem_toFinset.mp hx.2.2) hx.2.1 hx.1

/-- What stays the same when the mesh is cut otherwise. -/
structure SameRegion (h h' : Mesh (K × K)) (F : List ℕ) : Prop where
  co : h'.co = h.co
  nV : h'.nV = h.nV
  live : ∀ x, Spec.Live h' F x ↔ Spec.Live h F x
  opp : ∀ x, (h'.he x).opp = (h.he x).opp
  vertex : ∀ u, Spec.IsVertex h' F u ↔ Spec.IsVertex h F u
  border : ∀ x, Spec.Live h F x → (h.he x).opp = none → ∀ p, Spec.side h' x p = Spec.side h x p

theorem SameRegion.refl (h : Mesh (K × K)) (F : List ℕ) : SameRegion h h F := ⟨rfl, rfl, fun _ => Iff.rfl, fun _ => rfl, fun _ => Iff.rfl, fun _ _ _ _ => rfl⟩

theorem SameRegion.trans {h1 h2 h3 : Mesh (K × K)} (s : SameRegion h1 h2 F) (t : SameRegion h2 h3 F) : SameRegion h1 h3 F :=
  ⟨t.co.trans s.co, t.nV.trans s.nV, fun x => (t.live x).trans (s.live x), fun x => (t.opp x).trans (s.opp x), fun u => (t.vertex u).trans (s.vertex u),
    fun x hx ho p => (t.border x ((s.live x).mpr hx) ((s.opp x).trans ho) p).trans (s.border x hx ho p)⟩

/-- The flip of an edge of a Delaunay triangulation whose quadrangle is on a circle. -/
theorem Spec.Delaunay.flip (D : Spec.Delaunay h F) {e o f1 f2 n1 n2 : ℕ} (h1 : f1 ∈ F) (h2 : f2 ∈ F) (he : (h.he e).face = some f1)
    (ho : (h.he e).opp = some o) (hof : (h.he o).face = some f2) (hn1 : (h.he e).next = some n1) (hn2 : (h.he o).next = some n2)
    (hc : faceInc h f1 (Spec.endPt h n2) = 0) :
    ∃ h', h.flip f1 f2 = .ok h' ∧ Spec.Delaunay h' F ∧ SameRegion h h' F := by
  have H := D.valid
  -- the two triangles
  obtain ⟨eb, ec, te⟩ := H.triAt h1 he
  obtain ⟨ob, oc, tq⟩ := H.triAt h2 hof
  obtain rfl : n1 = eb := Option.some.inj (hn1.symm.trans te.na)
  obtain rfl : n2 = ob := Option.some.inj (hn2.symm.trans tq.na)
  obtain ⟨q1, q2⟩ := H.opp_pts ⟨f1, h1, he⟩ ho
  rw [tq.startPt] at q1
  rw [te.startPt] at q2
  have w1 := D.ccw f1 h1
  have w2 := D.ccw f2 h2
  rw [H.faceArea2 h1 te] at w1
  rw [H.faceArea2 h2 tq, q1, q2] at w2
  rw [H.faceInc h1 te] at hc
  have hne : f1 ≠ f2 := by
    rintro rfl
    have hd : ∀ p q : K × K, Spec.area2 p q q = 0 ∧ Spec.area2 p p q = 0 ∧ Spec.area2 p q p = 0 := by
      intro p q; unfold Spec.area2; exact ⟨by ring, by ring, by ring⟩
    rcases te.own o hof with rfl | rfl | rfl
    · rw [q2, (hd _ _).2.2] at w1; exact lt_irrefl _ w1
    · rw [q2, (hd _ _).1] at w1; exact lt_irrefl _ w1
    · obtain ⟨-, -, k⟩ := te.rotate.rotate.unique tq
      subst k
      rw [q1, (hd _ _).2.1] at w1; exact lt_irrefl _ w1
  obtain ⟨h', k1, V', -, kco, kE, kV, kF, -, kk⟩ := C38_flip H h1 h2 hne
  obtain ⟨a, b, c, d, e', f', t1, t2, hopp, T1, T2, va, vd, vx, ox, out, fex⟩ := kk ⟨e, o, he, ho, hof⟩
  -- the common edge is this one
  have key : a = e ∧ d = o := by
    obtain ⟨r1, r2⟩ := H.opp_pts ⟨f1, h1, t1.fa⟩ hopp
    rw [t2.startPt] at r1
    rw [t1.startPt] at r2
    have hdd := (H.opp_start ⟨f1, h1, t1.fa⟩ hopp).2.1
    have hoo := (H.opp_start ⟨f1, h1, he⟩ ho).2.1
    by_cases hae : a = e
    · refine ⟨hae, ?_⟩
      rw [hae, ho] at hopp
      exact (Option.some.inj hopp).symm
    exfalso
    have hdo : d ≠ o := by
      rintro rfl
      rw [hdd] at hoo; exact hae (Option.some.inj hoo)
    have W1 := D.ccw f1 h1
    have W2 := D.ccw f2 h2
    rw [H.faceArea2 h1 t1] at W1
    rw [H.faceArea2 h2 t2, r1, r2] at W2
    have hd : ∀ p q : K × K, Spec.area2 p q q = 0 ∧ Spec.area2 p p q = 0 ∧ Spec.area2 p q p = 0 := by
      intro p q; unfold Spec.area2; exact ⟨by ring, by ring, by ring⟩
    have hsw : ∀ p q r : K × K, Spec.area2 p q r = - Spec.area2 r q p := by
      intro p q r; unfold Spec.area2; ring
    obtain ⟨s1, s2⟩ := H.opp_pts ⟨f1, h1, he⟩ ho
    rcases t1.own e he with rfl | rfl | rfl
    · exact hae rfl
    · rw [t1.rotate.startPt] at s2
      rcases t2.own o hof with rfl | rfl | rfl
      · exact hdo rfl
      · rw [t2.rotate.startPt, r2] at s1
        rw [s1, (hd _ _).1] at W1; exact lt_irrefl _ W1
      · rw [t2.rotate.rotate.startPt] at s1
        rw [s1, hsw] at W2
        linarith
    · rw [t1.rotate.rotate.startPt] at s2
      rcases t2.own o hof with rfl | rfl | rfl
      · exact hdo rfl
      · rw [s2, hsw] at W2
        linarith
      · rw [t2.rotate.rotate.startPt] at s1
        rw [s1, (hd _ _).2.1] at W2; exact lt_irrefl _ W2
  obtain ⟨rfl, rfl⟩ := key
  obtain ⟨-, rfl, rfl⟩ := te.unique t1
  obtain ⟨-, rfl, rfl⟩ := tq.unique t2
  -- the points
  have P : ∀ x, Spec.endPt h' x = h.co ((h'.he x).vertex.getD 0) := fun x => by rw [Spec.endPt, kco]
  have pa : Spec.endPt h' a = Spec.endPt h e' := by rw [P, va]; rfl
  have pd : Spec.endPt h' d = Spec.endPt h b := by rw [P, vd]; rfl
  have px : ∀ x, x ≠ a → x ≠ d → Spec.endPt h' x = Spec.endPt h x := fun x hx hy => by rw [P, vx x hx hy]; rfl
  have dis : ∀ x y, (h.he x).face = some f1 → (h.he y).face = some f2 → x ≠ y := by
    rintro x y hx hy rfl
    rw [hx] at hy; cases hy; exact hne rfl
  have pb := px b t1.ab.symm (dis b d t1.fb t2.fa)
  have pc := px c t1.ca (dis c d t1.fc t2.fa)
  have pe := px e' (dis a e' t1.fa t2.fb).symm t2.ab.symm
  have pf := px f' (dis a f' t1.fa t2.fc).symm t2.ca
  obtain ⟨x1, x2⟩ := cocircular_convex w1 w2 hc
  -- the other faces
  have triOut : ∀ f ∈ F, f ≠ f1 → f ≠ f2 → ∀ x y z, Tri h f x y z → Tri h' f x y z ∧ Spec.endPt h' x = Spec.endPt h x ∧ Spec.endPt h' y = Spec.endPt h y ∧
      Spec.endPt h' z = Spec.endPt h z := by
    intro f hf hn1 hn2 x y z t
    have oo : ∀ x, (h.he x).face = some f → h'.he x = h.he x := fun x hx =>
      out x (by rw [hx]; simpa using hn1) (by rw [hx]; simpa using hn2)
    have pp : ∀ x, (h.he x).face = some f → Spec.endPt h' x = Spec.endPt h x := fun x hx => by rw [P, oo x hx]; rfl
    refine ⟨?_, pp x t.fa, pp y t.fb, pp z t.fc⟩
    obtain ⟨y', z', t'⟩ := V'.triAt hf (by rw [oo x t.fa, t.fa] : (h'.he x).face = some f)
    have q1 := t'.na
    have q2 := t'.pa
    rw [oo x t.fa, t.na] at q1
    rw [oo x t.fa, t.pa] at q2
    cases q1; cases q2
    exact t'
  have live : ∀ x, Spec.Live h' F x ↔ Spec.Live h F x := by
    intro x
    by_cases hx1 : (h.he x).face = some f1
    · refine ⟨fun _ => ⟨f1, h1, hx1⟩, fun _ => ?_⟩
      rcases t1.own x hx1 with rfl | rfl | rfl
      exacts [⟨f1, h1, T1.fa⟩, ⟨f1, h1, T1.fc⟩, ⟨f2, h2, T2.fb⟩]
    by_cases hx2 : (h.he x).face = some f2
    · refine ⟨fun _ => ⟨f2, h2, hx2⟩, fun _ => ?_⟩
      rcases t2.own x hx2 with rfl | rfl | rfl
      exacts [⟨f2, h2, T2.fa⟩, ⟨f2, h2, T2.fc⟩, ⟨f1, h1, T1.fb⟩]
    unfold Spec.Live
    rw [out x hx1 hx2]
  have vtx : ∀ u, Spec.IsVertex h' F u ↔ Spec.IsVertex h F u := by
    intro u
    constructor
    · rintro ⟨x, hx, rfl⟩
      rw [live] at hx
      by_cases hxa : x = a
      · rw [hxa, pa]; exact ⟨e', ⟨f2, h2, t2.fb⟩, rfl⟩
      by_cases hxd : x = d
      · rw [hxd, pd]; exact ⟨b, ⟨f1, h1, t1.fb⟩, rfl⟩
      exact ⟨x, hx, (px x hxa hxd).symm⟩
    · rintro ⟨x, hx, rfl⟩
      by_cases hxa : x = a
      · rw [hxa]; exact ⟨f', (live _).mpr ⟨f2, h2, t2.fc⟩, by rw [pf, q1]⟩
      by_cases hxd : x = d
      · rw [hxd]; exact ⟨c, (live _).mpr ⟨f1, h1, t1.fc⟩, by rw [pc, q2]⟩
      exact ⟨x, (live _).mpr hx, px x hxa hxd⟩
  have start : ∀ x, Spec.Live h F x → x ≠ a → x ≠ d → Spec.startPt h' x = Spec.startPt h x := by
    rintro x ⟨f, hf, hxf⟩ hxa hxd
    by_cases hn1 : f = f1
    · subst hn1
      rcases t1.own x hxf with rfl | rfl | rfl
      · exact absurd rfl hxa
      · rw [T1.rotate.rotate.startPt, t1.rotate.startPt, pf, q1]
      · rw [T2.rotate.startPt, t1.rotate.rotate.startPt, pd]
    by_cases hn2 : f = f2
    · subst hn2
      rcases t2.own x hxf with rfl | rfl | rfl
      · exact absurd rfl hxd
      · rw [T2.rotate.rotate.startPt, t2.rotate.startPt, pc, q2]
      · rw [T1.rotate.startPt, t2.rotate.rotate.startPt, pa]
    obtain ⟨y, z, t⟩ := H.triAt hf hxf
    obtain ⟨t', -, -, p3⟩ := triOut f hf hn1 hn2 x y z t
    rw [t'.startPt, t.startPt, p3]
  have border : ∀ x, Spec.Live h F x → (h.he x).opp = none → ∀ p, Spec.side h' x p = Spec.side h x p := by
    intro x hx hxo p
    have hxa : x ≠ a := by rintro rfl; rw [ho] at hxo; cases hxo
    have hxd : x ≠ d := by
      rintro rfl
      rw [(H.opp_start ⟨f1, h1, he⟩ ho).2.1] at hxo; cases hxo
    rw [Spec.side, Spec.side, start x hx hxa hxd, px x hxa hxd]
  have A1 : Spec.faceArea2 h' f1 = Spec.area2 (Spec.endPt h e') (Spec.endPt h a) (Spec.endPt h b) := by
    rw [V'.faceArea2 h1 T1, pa, pf, pb, q1]
  have A2 : Spec.faceArea2 h' f2 = Spec.area2 (Spec.endPt h b) (Spec.endPt h c) (Spec.endPt h e') := by
    rw [V'.faceArea2 h2 T2, pd, pc, pe]
  have W' : Spec.Ccw h' F := by
    intro f hf
    by_cases hn1 : f = f1
    · rw [hn1, A1]; exact x1
    by_cases hn2 : f = f2
    · rw [hn2, A2]; exact x2
    obtain ⟨x, y, z, t, -⟩ := H.tri hf
    obtain ⟨t', p1, p2, p3⟩ := triOut f hf hn1 hn2 x y z t
    rw [V'.faceArea2 hf t', p1, p2, p3, ← H.faceArea2 hf t]
    exact D.ccw f hf
  refine ⟨h', k1, ⟨V', W', D.ne, ?_, ?_, ?_⟩, ⟨kco, kV, live, ox, vtx, border⟩⟩
  · intro f hf u hu
    rw [vtx] at hu
    rw [outOfCircle_iff (W' f hf)]
    have hu1 := D.inc h1 hu
    rw [H.faceInc h1 t1] at hu1
    obtain ⟨y1, y2⟩ := cocircular_out w1 w2 hc hu1
    by_cases hn1 : f = f1
    · rw [hn1, V'.faceInc h1 T1, pa, pf, pb, q1]; exact y1
    by_cases hn2 : f = f2
    · rw [hn2, V'.faceInc h2 T2, pd, pc, pe]; exact y2
    obtain ⟨x, y, z, t, -⟩ := H.tri hf
    obtain ⟨t', p1, p2, p3⟩ := triOut f hf hn1 hn2 x y z t
    rw [V'.faceInc hf t', p1, p2, p3, ← H.faceInc hf t]
    exact D.inc hf hu
  · intro x hx hxo u hu
    rw [live] at hx
    rw [ox] at hxo
    rw [vtx] at hu
    rw [border x hx hxo]
    exact D.convex x hx hxo u hu
  · intro p
    rw [sum_two (g := faceSum (crossing p) h) H.nodup h1 h2 hne]
    · exact D.once p
    · rw [V'.faceSumTri _ h1 T1, V'.faceSumTri _ h2 T2, H.faceSumTri _ h1 t1, H.faceSumTri _ h2 t2, pa, pb, pc, pd, pe, pf, q1, q2,
        crossing_swap p (Spec.endPt h e') (Spec.endPt h b), crossing_swap p (Spec.endPt h a) (Spec.endPt h c)]
      ring
    · intro f hf hn1 hn2
      obtain ⟨x, y, z, t, -⟩ := H.tri hf
      obtain ⟨t', p1, p2, p3⟩ := triOut f hf hn1 hn2 x y z t
      rw [V'.faceSumTri _ hf t', H.faceSumTri _ hf t, p1, p2, p3]

/-- The value of `is_locally_delaunay`. -/
theorem isLocallyDelaunay_eq (H : Spec.Valid h F) {e o f1 f2 n1 n2 : ℕ} (h1 : f1 ∈ F) (h2 : f2 ∈ F) (he : (h.he e).face = some f1)
    (ho : (h.he e).opp = some o) (hof : (h.he o).face = some f2) (hn1 : (h.he e).next = some n1) (hn2 : (h.he o).next = some n2) :
    h.isLocallyDelaunay e = .ok (min (faceInc h f2 (Spec.endPt h n1)) (faceInc h f1 (Spec.endPt h n2))) := by
  obtain ⟨eb, ec, te⟩ := H.triAt h1 he
  obtain ⟨ob, oc, tq⟩ := H.triAt h2 hof
  obtain rfl : n1 = eb := Option.some.inj (hn1.symm.trans te.na)
  obtain rfl : n2 = ob := Option.some.inj (hn2.symm.trans tq.na)
  have e1 : ∀ x : ℕ, (deref (some x) : R ℕ) = .ok x := fun _ => rfl
  unfold Mesh.isLocallyDelaunay
  rw [ho]
  dsimp only
  rw [he, e1, R_bind_ok, hof, e1, R_bind_ok, hn1, e1, R_bind_ok, H.endCo ⟨f1, h1, te.fb⟩, R_bind_ok, hn2, e1, R_bind_ok, H.endCo ⟨f2, h2, tq.fb⟩, R_bind_ok,
    H.inCircleFace h2, R_bind_ok, H.inCircleFace h1, R_bind_ok]
  rfl

theorem restoreDelaunay_spec : ∀ (es : List ℕ) (h : Mesh (K × K)), Spec.Delaunay h F → (∀ e ∈ es, Spec.Live h F e) →
    ∃ h', Mesh.restoreDelaunay h es = .ok h' ∧ Spec.Delaunay h' F ∧ SameRegion h h' F := by
  intro es
  induction es with
  | nil => intro h D _; exact ⟨h, rfl, D, SameRegion.refl h F⟩
  | cons e es ih =>
    intro h D hl
    have hl' : ∀ x ∈ es, Spec.Live h F x := fun x hx => hl x (List.mem_cons_of_mem _ hx)
    unfold Mesh.restoreDelaunay
    rcases ho : (h.he e).opp with _ | o
    · exact ih h D hl'
    · dsimp only
      obtain ⟨f1, h1, he⟩ := hl e (List.mem_cons_self ..)
      obtain ⟨⟨f2, h2, hof⟩, -, -⟩ := D.valid.opp_start ⟨f1, h1, he⟩ ho
      obtain ⟨n1, hn1, -, -⟩ := D.valid.next ⟨f1, h1, he⟩
      obtain ⟨n2, hn2, m2, -⟩ := D.valid.next (h := h) ⟨f2, h2, hof⟩
      rw [isLocallyDelaunay_eq D.valid h1 h2 he ho hof hn1 hn2, R_bind_ok]
      by_cases h0 : min (faceInc h f2 (Spec.endPt h n1)) (faceInc h f1 (Spec.endPt h n2)) = 0
      · rw [if_pos h0]
        have hc : faceInc h f1 (Spec.endPt h n2) = 0 := by
          refine le_antisymm (D.inc h1 ⟨n2, m2, rfl⟩) ?_
          rw [← h0]; exact min_le_right _ _
        obtain ⟨h', k1, D', S⟩ := D.flip h1 h2 he ho hof hn1 hn2 hc
        have e1 : ∀ x : ℕ, (deref (some x) : R ℕ) = .ok x := fun _ => rfl
        rw [he, e1, R_bind_ok, hof, e1, R_bind_ok, k1, R_bind_ok]
        obtain ⟨h2', l1, l2, l3⟩ := ih h' D' fun x hx => (S.live x).mpr (hl' x hx)
        exact ⟨h2', l1, l2, S.trans l3⟩
      · rw [if_neg h0]
        exact ih h D hl'

/-- C102 (negation): the loop that should restore the Delaunay condition only flips the edges whose four points are on one circle. A mesh without any is
left as it is, even when it is not Delaunay. -/
theorem C102_not_restored (H : Spec.Valid h F) : ∀ es : List ℕ, (∀ e ∈ es, Spec.Live h F e) →
    (∀ e ∈ es, ∀ o n1 n2 f1 f2, (h.he e).opp = some o → (h.he e).next = some n1 → (h.he o).next = some n2 → (h.he e).face = some f1 →
      (h.he o).face = some f2 → min (faceInc h f2 (Spec.endPt h n1)) (faceInc h f1 (Spec.endPt h n2)) ≠ 0) →
    Mesh.restoreDelaunay h es = .ok h := by
  intro es
  induction es with
  | nil => intro _ _; rfl
  | cons e es ih =>
    intro hl hn
    have ih' := ih (fun x hx => hl x (List.mem_cons_of_mem _ hx)) fun x hx => hn x (List.mem_cons_of_mem _ hx)
    unfold Mesh.restoreDelaunay
    rcases ho : (h.he e).opp with _ | o
    · exact ih'
    · dsimp only
      obtain ⟨f1, h1, he⟩ := hl e (List.mem_cons_self ..)
      obtain ⟨⟨f2, h2, hof⟩, -, -⟩ := H.opp_start ⟨f1, h1, he⟩ ho
      obtain ⟨n1, hn1, -, -⟩ := H.next ⟨f1, h1, he⟩
      obtain ⟨n2, hn2, m2, -⟩ := H.next (h := h) ⟨f2, h2, hof⟩
      rw [isLocallyDelaunay_eq H h1 h2 he ho hof hn1 hn2, R_bind_ok,
        if_neg (hn e (List.mem_cons_self ..) o n1 n2 f1 f2 ho hn1 hn2 he hof)]
      exact ih'

theorem SameRegion.cover (S : SameRegion h h' F) (D : Spec.Delaunay h F) (D' : Spec.Delaunay h' F) (p : K × K) :
    (∃ f ∈ F, Spec.InFace h' f p) ↔ ∃ f ∈ F, Spec.InFace h f p := by
  rw [D.cover_iff, D'.cover_iff]
  constructor
  · intro hh e he ho
    rw [← S.border e he ho]
    exact hh e ((S.live e).mpr he) ((S.opp e).trans ho)
  · intro hh e he ho
    rw [S.live] at he
    rw [S.opp] at ho
    rw [S.border e he ho]
    exact hh e he ho

theorem edgesMap_spec (H : Spec.Valid h F) {ord : List ℕ → List ℕ} (hord : ∀ l, (ord l).Perm l) :
    ∃ es, Mesh.edgesMap ord h F = .ok es ∧ ∀ e, e ∈ es ↔ Spec.Live h F e := by
  have key : ∀ L : List ℕ, (∀ f ∈ L, f ∈ F) → ∃ l : List (List ℕ), L.mapM h.getFaceEdges = .ok l ∧ ∀ e, e ∈ l.flatten ↔ ∃ f ∈ L, (h.he e).face = some f := by
    intro L
    induction L with
    | nil => intro _; exact ⟨[], rfl, by simp⟩
    | cons f L ih =>
      intro hL
      obtain ⟨l, k1, k2⟩ := ih fun x hx => hL x (List.mem_cons_of_mem _ hx)
      obtain ⟨a, b, c, t, hfe⟩ := H.tri (hL f (List.mem_cons_self ..))
      refine ⟨[a, b, c] :: l, ?_, ?_⟩
      · rw [List.mapM_cons, H.getFaceEdges t hfe, R_bind_ok, k1, R_bind_ok]; rfl
      · intro e
        rw [List.flatten_cons, List.mem_append, k2]
        constructor
        · rintro (he | ⟨g, hg, heg⟩)
          · refine ⟨f, List.mem_cons_self .., ?_⟩
            simp only [List.mem_cons, List.not_mem_nil, or_false] at he
            rcases he with rfl | rfl | rfl
            exacts [t.fa, t.fb, t.fc]
          · exact ⟨g, List.mem_cons_of_mem _ hg, heg⟩
        · rintro ⟨g, hg, heg⟩
          rcases List.mem_cons.mp hg with rfl | hg
          · left; simpa using t.own e heg
          · exact Or.inr ⟨g, hg, heg⟩
  obtain ⟨l, k1, k2⟩ := key F fun _ h => h
  refine ⟨ord l.flatten.dedup, by unfold Mesh.edgesMap; rw [k1, R_bind_ok]; rfl, ?_⟩
  intro e
  rw [(hord _).mem_iff, List.mem_dedup, k2]
  rfl

section
variable (crit : List ((K × K) × (K × K) × Bool) → K × (K × K)) {ord : List ℕ → List ℕ}

/-- The points inserted in turn in the triangulation `h`, `F`: each is the point proposed for a triangle of a Delaunay triangulation of the same region whose
vertices are those of `h`, `F` and the points inserted before. The value of the triangle of a point that is not the last is at least `critMax`; when there are
less than `n` points the value of the last one is less. -/
def Spec.Inserted (critMax : K) (n : ℕ) (h : Mesh (K × K)) (F : List ℕ) (L : List (K × K)) : Prop :=
  ∀ L1 p L2, L = L1 ++ p :: L2 → ∃ h1 F1 f, Spec.Delaunay h1 F1 ∧ (∀ u, Spec.IsVertex h1 F1 u ↔ u ∈ L1 ∨ Spec.IsVertex h F u) ∧
    (∀ q, (∃ f ∈ F1, Spec.InFace h1 f q) ↔ ∃ f ∈ F, Spec.InFace h f q) ∧ f ∈ F1 ∧ p = Spec.proposed crit h1 f ∧
    (L2 ≠ [] → critMax ≤ Spec.quality crit h1 f) ∧ (L2 = [] → L.length < n → Spec.quality crit h1 f < critMax)

theorem smoothLoop_spec (hord : ∀ l, (ord l).Perm l) (critMax : K) : ∀ (n : ℕ) (c : Option K) (h : Mesh (K × K)) (F : List ℕ) (q : ℕ → Option K),
    Spec.Delaunay h F → (∀ f ∈ F, q f ≠ none) →
    (∃ L h' F', Mesh.smoothLoop crit ord critMax n c (h, F) q = .ok (h', F') ∧ L.length ≤ n ∧ Spec.Delaunay h' F' ∧
      (∀ u, Spec.IsVertex h' F' u ↔ u ∈ L ∨ Spec.IsVertex h F u) ∧ (∀ p, (∃ f ∈ F', Spec.InFace h' f p) ↔ ∃ f ∈ F, Spec.InFace h f p) ∧
      Spec.Inserted crit critMax n h F L ∧ (L = [] ↔ n = 0 ∨ ∃ x, c = some x ∧ x < critMax)) ∨
    (Mesh.smoothLoop crit ord critMax n c (h, F) q = .error .null ∧ ∃ h1 F1 f, Spec.Delaunay h1 F1 ∧
      (∀ p, (∃ f ∈ F1, Spec.InFace h1 f p) ↔ ∃ f ∈ F, Spec.InFace h f p) ∧ f ∈ F1 ∧
      (Spec.IsVertex h1 F1 (Spec.proposed crit h1 f) ∨ ∃ e, Spec.Live h1 F1 e ∧ (h1.he e).opp = none ∧ Spec.side h1 e (Spec.proposed crit h1 f) ≤ 0)) := by
  intro n
  induction n with
  | zero =>
    intro c h F q D hq
    exact Or.inl ⟨[], h, F, rfl, le_refl _, D, by simp, fun _ => Iff.rfl, by intro L1 p L2 hh; simp at hh, by simp⟩
  | succ n ih =>
    intro c h F q D hq
    unfold Mesh.smoothLoop
    by_cases hstop : ∃ x, c = some x ∧ x < critMax
    · obtain ⟨x, rfl, hx⟩ := hstop
      rw [if_neg (by simpa using hx)]
      exact Or.inl ⟨[], h, F, rfl, by simp, D, by simp, fun _ => Iff.rfl, by intro L1 p L2 hh; simp at hh, by simpa using hx⟩
    · rw [if_pos (by
        cases c with
        | none => rfl
        | some x =>
          simp only [decide_eq_true_eq]
          by_contra hn
          exact hstop ⟨x, rfl, not_le.mp hn⟩)]
      obtain ⟨f, hf, w1, w2⟩ := worstFace_spec (q := q) (Q := fun f => (q f).getD 0) D.ne (fun f hf => by
        obtain ⟨x, hx⟩ := Option.ne_none_iff_exists'.mp (hq f hf)
        rw [hx]; rfl)
      rw [w1, R_bind_ok, D.valid.faceView hf, R_bind_ok]
      dsimp only
      obtain ⟨h1, F1, r, k1, D1, k3, k4, k5, k6, k7, -, k9⟩ := D.insert_any (crit (Spec.view h f)).2
      rw [k1, R_bind_ok]
      rcases k9 with ⟨rfl, he⟩ | ⟨v, del, new, rfl, hF1, hnew, hview, hco, ⟨x, hx1, hx2, hx3⟩, hin⟩
      · right
        obtain ⟨rfl, rfl⟩ := Prod.mk.inj he
        exact ⟨rfl, h1, F1, f, D, fun _ => Iff.rfl, hf, k6⟩
      dsimp only
      obtain ⟨q1, u1, u2, u3⟩ := updateAll_spec crit D1.valid new (fun g => if g ∈ del then none else q g) (by
        intro g hg; rw [hF1]; exact List.mem_append_right _ hg)
      -- the vertex is not on the border
      have hend : Spec.endPt h1 x = (crit (Spec.view h f)).2 := by rw [← hco, Spec.endPt, hx3]; rfl
      have hxo : (h1.he x).opp ≠ none := by
        intro hn
        obtain ⟨m1, m2, m3⟩ := k7 x hx2 hn
        have := hin x m1 m2
        rw [← m3, Spec.side, hend] at this
        have e0 : ∀ p q : K × K, Spec.area2 p q q = 0 := by intro p q; unfold Spec.area2; ring
        rw [e0] at this
        exact lt_irrefl _ this
      have hlap : h1.laplacianSmoothing v = .ok h1 := by
        rcases C102_smoothing D1.valid hx1 hx2 hx3 with ⟨hc, -⟩ | ⟨-, hok⟩
        · exact absurd hc hxo
        · exact hok
      obtain ⟨es, e1, e2⟩ := edgesMap_spec D1.valid hord
      obtain ⟨h2, r1, D2, S⟩ := restoreDelaunay_spec es h1 D1 fun e he => (e2 e).mp he
      rw [u1, R_bind_ok, hlap, R_bind_ok, e1, R_bind_ok, r1, R_bind_ok]
      have hv2 : ∀ u, Spec.IsVertex h2 F1 u ↔ u = Spec.proposed crit h f ∨ Spec.IsVertex h F u := by
        intro u
        rw [S.vertex]
        constructor
        · exact k4 u
        · rintro (rfl | hu)
          · exact ⟨x, hx2, hend⟩
          · exact k3 u hu
      have hcov : ∀ p, (∃ f ∈ F1, Spec.InFace h2 f p) ↔ ∃ f ∈ F, Spec.InFace h f p := fun p => (S.cover D1 D2 p).trans (k5 p)
      have hq1 : ∀ g ∈ F1, q1 g ≠ none := by
        intro g hg
        by_cases hgn : g ∈ new
        · rw [u2 g hgn]; simp
        · rw [u3 g hgn]
          rw [hF1] at hg
          rcases List.mem_append.mp hg with hg | hg
          · rw [List.mem_filter] at hg
            have hd : g ∉ del := by simpa using hg.2
            rw [if_neg hd]
            exact hq g hg.1
          · exact absurd hg hgn
      rcases ih (some (crit (Spec.view h f)).1) h2 F1 q1 D2 hq1 with
        ⟨L, h', F', l1, l2, l3, l4, l5, l6, l7⟩ | ⟨l1, h3, F3, f3, l2, l3, l4, l5⟩
      · left
        refine ⟨Spec.proposed crit h f :: L, h', F', l1, by simpa using l2, l3, ?_, fun p => (l5 p).trans (hcov p), ?_, ?_⟩
        · intro u
          rw [l4, hv2, List.mem_cons, or_left_comm, or_assoc]
        · intro L1 p L2 hL
          cases L1 with
          | nil =>
            obtain ⟨rfl, rfl⟩ := List.cons.inj hL
            refine ⟨h, F, f, D, by simp, fun _ => Iff.rfl, hf, rfl, ?_, ?_⟩
            · intro hne
              by_contra hn
              exact hne (l7.mpr (Or.inr ⟨_, rfl, not_le.mp hn⟩))
            · rintro rfl hlt
              rcases l7.mp rfl with h0 | ⟨y, hy1, hy2⟩
              · simp [h0] at hlt
              · cases hy1; exact hy2
          | cons y L1 =>
            rw [List.cons_append] at hL
            obtain ⟨rfl, rfl⟩ := List.cons.inj hL
            obtain ⟨h3, F3, f3, m1, m2, m3, m4, m5, m6, m7⟩ := l6 L1 p L2 rfl
            refine ⟨h3, F3, f3, m1, ?_, fun q => (m3 q).trans (hcov q), m4, m5, m6, fun a b => m7 a (by simpa using b)⟩
            intro u
            rw [m2, hv2, List.mem_cons, or_left_comm, or_assoc]
        · constructor
          · intro hh; simp at hh
          · rintro (hh | hh)
            · omega
            · exact absurd hh hstop
      · right
        exact ⟨l1, h3, F3, f3, l2, fun p => (l3 p).trans (hcov p), l4, l5⟩

/-- C102 (partial): whatever the criterion and the addresses of the half-edges, `delaunay2DBoyerWatsonMeshRefine` of a Delaunay triangulation returns a Delaunay
triangulation of the same region, whose vertices are those it had and at most `maxInner` points proposed by the criterion, exactly where it proposed
them; or it dereferences a null pointer, and then the criterion proposed a vertex or a point which is not strictly inside the region. -/
theorem C102_refine_partial (hord : ∀ l, (ord l).Perm l) (D : Spec.Delaunay h F) (critMax : K) (maxInner : ℕ) :
    (∃ L h' F', Mesh.meshRefine crit ord critMax maxInner (h, F) = .ok (h', F') ∧ L.length ≤ maxInner ∧ Spec.Delaunay h' F' ∧
      (∀ u, Spec.IsVertex h' F' u ↔ u ∈ L ∨ Spec.IsVertex h F u) ∧ (∀ p, (∃ f ∈ F', Spec.InFace h' f p) ↔ ∃ f ∈ F, Spec.InFace h f p) ∧
      Spec.Inserted crit critMax maxInner h F L ∧ (L = [] ↔ maxInner = 0)) ∨
    (Mesh.meshRefine crit ord critMax maxInner (h, F) = .error .null ∧ ∃ h1 F1 f, Spec.Delaunay h1 F1 ∧
      (∀ p, (∃ f ∈ F1, Spec.InFace h1 f p) ↔ ∃ f ∈ F, Spec.InFace h f p) ∧ f ∈ F1 ∧
      (Spec.IsVertex h1 F1 (Spec.proposed crit h1 f) ∨ ∃ e, Spec.Live h1 F1 e ∧ (h1.he e).opp = none ∧ Spec.side h1 e (Spec.proposed crit h1 f) ≤ 0)) := by
  obtain ⟨q, k1, k2, -⟩ := updateAll_spec crit D.valid F (fun _ => none) fun _ h => h
  unfold Mesh.meshRefine
  dsimp only
  rw [k1, R_bind_ok]
  rcases smoothLoop_spec crit hord critMax maxInner none h F q D (fun f hf => by rw [k2 f hf]; simp) with ⟨L, h', F', l1, l2, l3, l4, l5, l6, l7⟩ | hh
  · exact Or.inl ⟨L, h', F', l1, l2, l3, l4, l5, l6, by simpa using l7⟩
  · exact Or.inr hh

/-- C102 (negation): with a criterion which is never negative and no tolerance the refinement does not stop when all the triangles meet the criterion:
it inserts `maxInner` points. -/
theorem C102_exact_criterion (hord : ∀ l, (ord l).Perm l) (hcrit : ∀ v, 0 ≤ (crit v).1) (D : Spec.Delaunay h F) (maxInner : ℕ) {h' : Mesh (K × K)} {F' : List ℕ}
    (hr : Mesh.meshRefine crit ord 0 maxInner (h, F) = .ok (h', F')) :
    ∃ L : List (K × K), L.length = maxInner ∧ ∀ u, Spec.IsVertex h' F' u ↔ u ∈ L ∨ Spec.IsVertex h F u := by
  rcases C102_refine_partial crit hord D 0 maxInner with ⟨L, h2, F2, l1, l2, -, l4, -, l6, l7⟩ | ⟨l1, -⟩
  · rw [hr] at l1
    obtain ⟨rfl, rfl⟩ := Prod.mk.inj (Except.ok.inj l1)
    refine ⟨L, ?_, l4⟩
    by_contra hn
    rcases List.eq_nil_or_concat L with rfl | ⟨L1, p, rfl⟩
    · exact hn (l7.mp rfl).symm
    · rw [List.concat_eq_append] at *
      obtain ⟨h1, F1, f, -, -, -, -, -, -, m⟩ := l6 L1 p [] rfl
      exact absurd (m rfl (by omega)) (not_lt.mpr (hcrit _))
  · rw [hr] at l1; cases l1

end

/-! ## The hypotheses are met -/

/-- A vertex of the square cut in two is given as its own neighbour, another one has none. -/
example : (∃ n, Sample.squareMesh.getNeighboringVertices 1 = .ok (List.replicate n (some 1)) ∧ n ≠ 0) ∧
    Sample.squareMesh.laplacianSmoothing 0 = .error .divZero := by
  constructor
  · obtain ⟨n, h1, h2⟩ := C102_neighbours Sample.squareMesh_valid (v := 1) (e := 3) rfl ⟨1, by simp, rfl⟩ rfl
    refine ⟨n, h1, fun h0 => ?_⟩
    have := (h2.mp h0).1
    cases this
  · rcases C102_smoothing Sample.squareMesh_valid (v := 0) (e := 2) rfl ⟨0, by simp, rfl⟩ rfl with ⟨-, -, h⟩ | ⟨h, -⟩
    · exact h
    · exact absurd ⟨rfl, 0, rfl, rfl⟩ h

/-- A quadrangle cut along the wrong diagonal: the fourth point is inside the circle of the first triangle. -/
def Sample.wrongMesh : Mesh (ℚ × ℚ) := { Sample.squareMesh with co := fun v => if v = 1 then (4, 0) else if v = 2 then (0, 4) else if v = 3 then (3, 3) else (0, 0) }

theorem Sample.wrongMesh_valid : Spec.Valid Sample.wrongMesh [0, 1] :=
  ⟨Sample.twoTris_valid.nodup, Sample.twoTris_valid.faces, Sample.twoTris_valid.edges, Sample.twoTris_valid.ring, Sample.twoTris_valid.vertex,
    Sample.twoTris_valid.opp⟩

/-- It is not Delaunay, all its triangles are counter-clockwise, and it is not restored. -/
example : Spec.Ccw Sample.wrongMesh [0, 1] ∧ ¬Spec.Delaunay Sample.wrongMesh [0, 1] ∧
    ∀ es : List ℕ, (∀ e ∈ es, Spec.Live Sample.wrongMesh [0, 1] e) → Mesh.restoreDelaunay Sample.wrongMesh es = .ok Sample.wrongMesh := by
  refine ⟨?_, ?_, ?_⟩
  · intro f hf
    simp at hf
    rcases hf with rfl | rfl <;> decide +kernel
  · intro D
    have := D.inc (f := 0) (by simp) ⟨4, ⟨1, by simp, rfl⟩, rfl⟩
    revert this
    decide +kernel
  · intro es hes
    refine C102_not_restored Sample.wrongMesh_valid es hes ?_
    intro e he o n1 n2 f1 f2 h1 h2 h3 h4 h5
    have hl := (Sample.wrongMesh_valid.edges e f1 h4).1
    change e < 6 at hl
    interval_cases e <;> first | (exfalso; revert h1; simp [Sample.wrongMesh, Sample.squareMesh, Sample.twoTris]; done) | skip
    · cases h1; cases h2; cases h3; cases h4; cases h5
      decide +kernel
    · cases h1; cases h2; cases h3; cases h4; cases h5
      decide +kernel

/-- A square is refined by the middles of its long edges, whatever the order of the half-edges. -/
example : ∃ h F, Mesh.surfaceBase taxi taxiCross (1 / 100) flatSurface 10 [0, 1, 2, 3] 5 0 1 0 1 3 3 100 = .ok (h, F) ∧ Spec.Delaunay h F ∧
    (∃ h' F', Mesh.meshRefine Mesh.maxEdgeSize id (1 / 4) 10 (h, F) = .ok (h', F') ∧ Spec.Delaunay h' F' ∧ 6 < F'.length) ∧
    Mesh.meshRefine (fun _ => (1, (0, 0))) id (1 / 4) 10 (h, F) = .error .null := by
  have hX : meshSurfaceBoundary taxi taxiCross (1 / 100) flatSurface 5 0 1 0 1 3 3 100 =
      .ok [(0, 0), (1 / 2, 0), (1, 0), (1, 1 / 2), (1, 1), (1, 1), (1 / 2, 1), (0, 1), (0, 1 / 2), (0, 0), (0, 0), (0, 0)] := by decide +kernel
  obtain ⟨h, F, k1, D, k2, k3⟩ := C98_base_partial taxi_crossNorm (pc := 10) (by norm_num) (by norm_num) (u1 := 0) (u2 := 1) (v1 := 0)
    (v2 := 1) (by norm_num) (by norm_num) (by norm_num) (by norm_num) (corners := [0, 1, 2, 3]) (by intro v; simp; omega)
    ⟨by unfold Spec.InRect; norm_num, by simp⟩ hX
  refine ⟨h, F, k1, D, ?_, ?_⟩
  · have : 6 < (facesOf (Mesh.surfaceBase taxi taxiCross (1 / 100) flatSurface 10 [0, 1, 2, 3] 5 0 1 0 1 3 3 100 >>=
        Mesh.meshRefine Mesh.maxEdgeSize id (1 / 4) 10)).length := by decide +kernel
    rw [k1, R_bind_ok] at this
    rcases C102_refine_partial Mesh.maxEdgeSize (ord := id) (fun l => List.Perm.refl l) D (1 / 4) 10 with ⟨L, h', F', l1, -, D', -⟩ | ⟨l1, -⟩
    · rw [l1] at this
      exact ⟨h', F', l1, D', by simpa [facesOf] using this⟩
    · rw [l1] at this
      exact absurd this (by decide)
  · rcases C102_refine_partial (fun _ => ((1 : ℚ), ((0 : ℚ), (0 : ℚ)))) (ord := id) (fun l => List.Perm.refl l) D (1 / 4) 10 with ⟨L, h', F', l1, -⟩ | ⟨l1, -⟩
    · have : facesOf (Mesh.surfaceBase taxi taxiCross (1 / 100) flatSurface 10 [0, 1, 2, 3] 5 0 1 0 1 3 3 100 >>= fun s => do
          let s ← Mesh.meshRefine (fun _ => (1, (0, 0))) id (1 / 4) 10 s
          pure (s.1, 0 :: s.2)) = [] := by decide +kernel
      rw [k1, R_bind_ok, l1, R_bind_ok] at this
      simp [facesOf, pure, Except.pure] at this
    · exact l1

end plane

end Gbs
