import Verif.Lemmas.FlatF
import Verif.Lemmas.Elevate
import Verif.Lemmas.Bezier
import Verif.Lemmas.Unique
import Verif.Lemmas.Trim
import Verif.Props.RemoveKnot

/-! # Degree elevation -/

namespace Gbs

set_option linter.unusedSectionVars false

variable {K : Type} [Field K] [LinearOrder K] [IsStrictOrderedRing K]
variable {V : Type} [AddCommGroup V] [Module K V]

theorem SameMap.symm {p p' : ℕ} {U U' : List K} {P P' : List V} (h : SameMap p U P p' U' P')
    (h1 : kf U p ≤ kf U' p') (h2 : kf U' P'.length ≤ kf U P.length) : SameMap p' U' P' p U P := by
  intro v a b
  obtain ⟨i, i', e, e', hd⟩ := h v (le_trans h1 a) (le_trans b h2)
  exact ⟨i', i, e', e, fun d => (hd d).symm⟩

/-- Removal of knots that can be removed: the result is well formed with the same map. -/
theorem removeKnot_same {eps : K} (heps : 0 ≤ eps) {p N : ℕ} {U : List K} {P : List V} {u : K} (hw : Wf p U P)
    (h1 : kf U p < u) (h2 : u < kf U P.length) (hN : 1 ≤ N) (hNs : N ≤ multOf U u)
    (hsp : multOf U u ≤ p) {r s : ℕ} (hr : r = upperBound U u - 1) (hs : s = multOf U u)
    (hAg : AgreeAt p (bl (kf U) (r - s) (pf P)) (bl (kf U) r (pf P)) u (s - N)) (hw' : ∀ Q : List V, Q.length = P.length - N → Wf p (remKnots U u N) Q) :
    ∃ Q, removeKnot eps u N U P p = .ok (remKnots U u N, Q) ∧ Q.length = P.length - N ∧
      SameMap p U P p (remKnots U u N) Q := by
  obtain ⟨hR, Q, e, hl, hq⟩ := removeKnot_spec heps hw.sorted hw.len h1 h2 hN hNs hsp hr hs hAg
  refine ⟨Q, e, hl, ?_⟩
  have hps := hR.ps; have hrn := hR.rn
  have hlen := hw.len; have hmn := hw.min
  have hub : upperBound U u = r + 1 := by
    obtain ⟨-, hub⟩ := remOk_of hw.sorted hw.len h1 h2 (by omega) hsp
    omega
  have hkf : kf (remKnots U u N) = tRem (kf U) r N := by unfold remKnots; rw [hub]; exact kf_remKnots (by omega) (by omega)
  have d0 : kf (remKnots U u N) p = kf U p := by
    rw [hkf]; unfold tRem; rw [if_pos (by omega)]
  have d1 : kf (remKnots U u N) Q.length = kf U P.length := by
    rw [hkf, hl]; unfold tRem; rw [if_neg (by omega), show P.length - N + N = P.length by omega]
  apply SameMap.symm _ d0.le d1.ge
  apply sameMap_of_bl (hw' Q hl) hw d0.ge d1.symm
  intro k' hk' hp hn
  obtain ⟨m, b1, b2, b3, b4, b5, -, b6⟩ := remove_bl hR hAg hN (by omega) hk' hp hn
  rw [hkf]
  refine ⟨m, b1, by omega, b3, b4, b5, ?_⟩
  intro xs hx
  rw [b6 xs hx]
  apply bl_congr _ _ _ _ _ (by omega)
  intro i hi1 hi2
  exact (hq i (by omega)).symm

/-- The knots of a clamped curve of degree `p` with `m` spans wider than `eps` and interior multiplicities between 1 and `p`. -/
structure ClampF (eps : K) (w : ℕ → K) (f : ℕ → ℕ) (m p : ℕ) : Prop where
  heps : 0 ≤ eps
  gaps : Gaps eps w m
  hm : 1 ≤ m
  first : f 0 = p + 1
  last : f m = p + 1
  int : ∀ i, 0 < i → i < m → 1 ≤ f i ∧ f i ≤ p

namespace ClampF
variable {eps : K} {w : ℕ → K} {f : ℕ → ℕ} {m p : ℕ}

theorem pos (h : ClampF eps w f m p) : ∀ i, i ≤ m → 1 ≤ f i := by
  intro i hi
  by_cases h0 : i = 0
  · subst h0; rw [h.first]; omega
  · by_cases h1 : i = m
    · subst h1; rw [h.last]; omega
    · exact (h.int i (by omega) (by omega)).1

theorem wf (h : ClampF eps w f m p) {P : List V} (hl : (flatF w f (m + 1)).length = P.length + p + 1) : Wf p (flatF w f (m + 1)) P :=
  wf_flatF h.heps h.gaps h.hm h.pos h.first h.last hl

theorem d0 (h : ClampF eps w f m p) : kf (flatF w f (m + 1)) p = w 0 := kf_flatF_first h.first

theorem d1 (h : ClampF eps w f m p) {n : ℕ} (hl : (flatF w f (m + 1)).length = n + p + 1) : kf (flatF w f (m + 1)) n = w m :=
  kf_flatF_last h.last hl

theorem unflat (h : ClampF eps w f m p) :
    unflatKnots eps (flatF w f (m + 1)) = .ok ((List.range (m + 1)).map fun i => (w i, f i)) :=
  unflat_flatF h.heps h.gaps h.pos

end ClampF

/-- Multiplicities of a piecewise Bézier curve. -/
def fB (p m : ℕ) (j : ℕ) : ℕ := if j = 0 ∨ j = m then p + 1 else p

section
variable {eps : K} {w : ℕ → K} {f : ℕ → ℕ} {m p : ℕ}

theorem rd_km (w : ℕ → K) (f : ℕ → ℕ) {i n : ℕ} (hi : i < n) : rd ((List.range n).map fun i => (w i, f i)) i = .ok (w i, f i) := by
  rw [rd_eq_ok]; simp [hi]

theorem bezierInsert_spec (h : ClampF eps w f m p) (hp : 1 ≤ p) {P : List V} (hl : (flatF w f (m + 1)).length = P.length + p + 1) :
    ∃ P1, bezierInsert p ((List.range (m + 1)).map fun i => (w i, f i)) (flatF w f (m + 1)) P = .ok (flatF w (fB p m) (m + 1), P1) ∧
      (flatF w (fB p m) (m + 1)).length = P1.length + p + 1 ∧ SameMap p (flatF w f (m + 1)) P p (flatF w (fB p m) (m + 1)) P1 := by
  have hm := h.hm
  unfold bezierInsert
  rw [usub_ok (by simp), R_bind_ok]
  simp only [List.length_map, List.length_range, Nat.add_sub_cancel]
  obtain ⟨s', e, hI⟩ := forLt_inv (a := 1) (b := m) (fun i (UP : List K × List V) =>
      UP.1 = flatF w (fun j => if 0 < j ∧ j < i then p else f j) (m + 1) ∧ UP.1.length = UP.2.length + p + 1 ∧
        SameMap p (flatF w f (m + 1)) P p UP.1 UP.2)
    (body := fun i (UP : List K × List V) => do
      let x ← rd ((List.range (m + 1)).map fun i => (w i, f i)) i
      let n := if x.2 ≤ p then p - x.2 else 2 ^ 64 + p - x.2
      let r ← insertKnots x.1 p n UP.1 UP.2
      pure (r.2.1, r.2.2)) (s := (flatF w f (m + 1), P)) hm
    ⟨flatF_congr fun j _ => by rw [if_neg (by omega)], hl, SameMap.refl (h.wf hl)⟩ (by
    intro i UP hi1 hi2 ⟨h1, h2, h3⟩
    have hC : ClampF eps w (fun j => if 0 < j ∧ j < i then p else f j) m p := by
      refine ⟨h.heps, h.gaps, hm, ?_, ?_, ?_⟩
      · simp only [lt_irrefl, false_and, if_false]; exact h.first
      · rw [if_neg (by omega)]; exact h.last
      · intro j a b
        split
        · omega
        · exact h.int j a b
    obtain ⟨U, Q⟩ := UP
    simp only at h1 h2 h3
    subst h1
    have hW : Wf p _ Q := hC.wf h2
    obtain ⟨i1, i2⟩ := h.int i (by omega) hi2
    have hmu : multOf (flatF w (fun j => if 0 < j ∧ j < i then p else f j) (m + 1)) (w i) = f i := by
      rw [multOf_flatF h.heps h.gaps hi2.le, if_neg (by omega)]
    rw [rd_km w f (by omega), R_bind_ok]
    simp only [if_pos i2]
    have hg : ∀ j, j < m + 1 → (if 0 < j ∧ j < i + 1 then p else f j) = if j = i then p else (if 0 < j ∧ j < i then p else f j) := by
      intro j _
      by_cases hji : j = i
      · rw [if_pos hji, if_pos (by omega)]
      · rw [if_neg hji]
        by_cases hj : 0 < j ∧ j < i
        · rw [if_pos hj, if_pos (by omega)]
        · rw [if_neg hj, if_neg (by omega)]
    rcases Nat.lt_or_ge (f i) p with hlt | hge
    · have g1 : kf (flatF w (fun j => if 0 < j ∧ j < i then p else f j) (m + 1)) p < w i := by
        rw [hC.d0]; exact h.gaps.lt' h.heps (by omega) hi2.le
      have g2 : w i < kf (flatF w (fun j => if 0 < j ∧ j < i then p else f j) (m + 1)) Q.length := by
        rw [hC.d1 h2]; exact h.gaps.lt' h.heps (by omega) le_rfl
      obtain ⟨Q', e, hQl, hW', d0, d1, hS, -⟩ := insertKnots_same hW g1 g2 (r := p - f i) (by omega) (by rw [hmu]; exact hlt) rfl
        (r' := p - f i) (by rw [hmu]; omega)
      rw [e, R_bind_ok]
      have hins := insKnots_flatF h.heps (g := fun j => if 0 < j ∧ j < i + 1 then p else f j) h.gaps hi2.le (by
        intro j hj
        beta_reduce
        rw [hg j (by omega), if_neg (show ¬ (0 < i ∧ i < i) by omega), show f i + (p - f i) = p by omega]) hW'.sorted
      rw [hins] at hW' d0 d1 hS ⊢
      exact ⟨_, rfl, rfl, hW'.len, h3.trans hS (by rw [hC.d0, h.d0]) (by rw [hC.d1 h2, h.d1 hl])⟩
    · have hup : insertKnots (w i) p (p - f i) (flatF w (fun j => if 0 < j ∧ j < i then p else f j) (m + 1)) Q = .ok (((upperBound (flatF w (fun j => if 0 < j ∧ j < i then p else f j) (m + 1)) (w i) : ℕ) : ℤ) - 1 - p - (if upperBound (flatF w (fun j => if 0 < j ∧ j < i then p else f j) (m + 1)) (w i) = (flatF w (fun j => if 0 < j ∧ j < i then p else f j) (m + 1)).length then 1 else 0), flatF w (fun j => if 0 < j ∧ j < i then p else f j) (m + 1), Q) := by
        unfold insertKnots
        simp only
        rw [if_pos]
        · rfl
        · have := hmu; unfold multOf at this; omega
      rw [hup, R_bind_ok]
      refine ⟨_, rfl, ?_, h2, h3⟩
      apply flatF_congr
      intro j hj
      beta_reduce
      rw [hg j hj]
      by_cases hji : j = i
      · rw [if_pos hji, hji, if_neg (by omega)]; omega
      · rw [if_neg hji])
  obtain ⟨U1, P1⟩ := s'
  obtain ⟨h1, h2, h3⟩ := hI
  simp only at h1 h2 h3
  have hU1 : U1 = flatF w (fB p m) (m + 1) := by
    rw [h1]
    apply flatF_congr
    intro j hj
    unfold fB
    by_cases h0 : j = 0
    · subst h0; rw [if_neg (by omega), if_pos (by omega)]; exact h.first
    · by_cases hjm : j = m
      · subst hjm; rw [if_neg (by omega), if_pos (by omega)]; exact h.last
      · rw [if_pos (by omega), if_neg (by omega)]
  rw [hU1] at e h2 h3
  exact ⟨P1, e, h2, h3⟩

/-! ## Piecewise Bézier knots -/

theorem flatF_fB_length (w : ℕ → K) (p m : ℕ) : ∀ i, 1 ≤ i → i ≤ m → (flatF w (fB p m) i).length = i * p + 1 := by
  intro i hi
  induction i, hi using Nat.le_induction with
  | base =>
    intro _
    have : (flatF w (fB p m) 1).length = _ := flatF_length_succ w (fB p m) 0
    rw [this, flatF_length_zero]
    simp [fB]
  | succ i hi ih =>
    intro him
    rw [flatF_length_succ, ih (by omega), fB, if_neg (by omega)]
    ring

theorem clampF_fB (h : ClampF eps w f m p) (hp : 1 ≤ p) : ClampF eps w (fB p m) m p := by
  refine ⟨h.heps, h.gaps, h.hm, by simp [fB], by simp [fB], ?_⟩
  intro i h1 h2
  rw [fB, if_neg (by omega)]
  exact ⟨hp, le_rfl⟩

theorem kf_fB (w : ℕ → K) {p m i x : ℕ} (hi : i ≤ m) (h1 : i * p + 1 ≤ x) (h2 : x ≤ (i + 1) * p) : kf (flatF w (fB p m) (m + 1)) x = w i := by
  rw [Nat.add_mul, Nat.one_mul] at h2
  by_cases h0 : i = 0
  · subst h0
    rw [Nat.zero_mul] at h1 h2
    have := flatF_length_zero w (fB p m)
    exact kf_flatF w _ (by omega) (by omega) (by rw [this, fB, if_pos (by omega)]; omega)
  · have := flatF_fB_length w p m i (by omega) hi
    refine kf_flatF w _ (by omega) (by omega) ?_
    rw [this, fB]
    split <;> omega

theorem spanF_fB (w : ℕ → K) {p m i : ℕ} (hi : i < m) : spanF w (fB p m) i = (i + 1) * p := by
  unfold spanF
  rw [flatF_fB_length w p m (i + 1) (by omega) (by omega)]
  omega

theorem fB_total (w : ℕ → K) {p m n : ℕ} (hm : 1 ≤ m) (h : (flatF w (fB p m) (m + 1)).length = n + p + 1) : n = m * p + 1 := by
  rw [flatF_length_succ, flatF_fB_length w p m m hm le_rfl, fB, if_pos (by omega)] at h
  omega

theorem seg_fB (w : ℕ → K) {p m i j : ℕ} (hi : i < m) (hj : j ≤ p) :
    seg (kf (flatF w (fB p m) (m + 1))) (i * p + j + 1) p = List.replicate (p - j) (w i) ++ List.replicate j (w (i + 1)) := by
  conv_lhs => rw [show p = (p - j) + j by omega]
  have e : (i + 1) * p = i * p + p := by ring
  have e2 : (i + 1 + 1) * p = i * p + p + p := by ring
  rw [seg_append, show p - j + j = p by omega]
  congr 1
  · apply seg_const
    intro x hx
    exact kf_fB w (by omega) (by omega) (by omega)
  · apply seg_const
    intro x hx
    exact kf_fB w (by omega) (by omega) (by omega)

/-! ## Segments -/

theorem bezierLoop_spec {P : List V} {U : List K} {p : ℕ} (hp : 1 ≤ p) : ∀ (k a fuel : ℕ), 1 ≤ k → k ≤ fuel → P.length = (a + k) * p + 1 → a + k < U.length →
    bezierLoop P U p fuel (a * p) a = .ok ((List.range' a k).map fun i => ((P.drop (i * p)).take (p + 1), kf U i, kf U (i + 1))) := by
  intro k
  induction k with
  | zero => intro a fuel h; omega
  | succ k ih =>
    intro a fuel _ hf hP hU
    obtain ⟨fuel, rfl⟩ : ∃ x, fuel = x + 1 := ⟨fuel - 1, by omega⟩
    have e1 : (a + (k + 1)) * p = a * p + k * p + p := by ring
    unfold bezierLoop
    rw [if_pos (by omega), rd_kf (by omega), R_bind_ok, rd_kf (by omega), R_bind_ok]
    simp only
    by_cases hk : k = 0
    · subst hk
      rw [if_pos (by omega)]
      rfl
    · have : p ≤ k * p := Nat.le_mul_of_pos_left p (by omega)
      rw [if_neg (by omega), show a * p + p = (a + 1) * p by ring, ih (a + 1) fuel (by omega) (by omega) (by rw [hP]; ring) (by omega), R_bind_ok,
        List.range'_succ]
      rfl

theorem elevateSegs_spec {p t : ℕ} {S E : ℕ → List V} {a : ℕ → K × K} : ∀ (l : List ℕ), (∀ i ∈ l, increaseBezier K (S i) p t = .ok (E i)) →
    elevateSegs p t (l.map fun i => (S i, a i)) = .ok (l.map fun i => (E i, a i)) := by
  intro l
  induction l with
  | nil => intro _; rfl
  | cons i l ih =>
    intro h
    rw [List.map_cons, elevateSegs, h i (by simp), R_bind_ok, ih (fun j hj => h j (by simp [hj])), R_bind_ok]
    rfl

theorem joinSeg_inner {q : ℕ} {E : List V} (h : E.length = q + 1) :
    forLe 1 q (fun i P => do
      let x ← rd E i
      pure (P ++ [x])) ([] : List V) = .ok (E.drop 1) := by
  obtain ⟨s', e, hI⟩ := forLe_inv (a := 1) (b := q) (fun i (P : List V) => P = (E.drop 1).take (i - 1))
    (body := fun i P => do
      let x ← rd E i
      pure (P ++ [x])) (s := ([] : List V)) (by omega) (by simp) (by
    intro i P h1 h2 hP
    rw [rd_pf (by omega), R_bind_ok]
    refine ⟨_, rfl, ?_⟩
    rw [hP, show i + 1 - 1 = (i - 1) + 1 by omega, List.take_add_one, List.getElem?_drop, show 1 + (i - 1) = i by omega, pf_getElem? (by omega)]
    rfl)
  rw [e, hI, List.take_of_length_le (by simp; omega)]

theorem joinSegs_spec {q : ℕ} {E : ℕ → List V} {a b : ℕ → K} : ∀ (l : List ℕ), (∀ i ∈ l, (E i).length = q + 1) →
    joinSegs q (l.map fun i => (E i, a i, b i)) = .ok (l.flatMap (fun i => (E i).drop 1), List.replicate l.length q, l.map b) := by
  intro l
  induction l with
  | nil => intro _; rfl
  | cons i l ih =>
    intro h
    rw [List.map_cons, joinSegs, joinSeg_inner (h i (by simp)), R_bind_ok, ih (fun j hj => h j (by simp [hj])), R_bind_ok]
    rfl

theorem pf_append_left {P Q : List V} {i : ℕ} (h : i < P.length) : pf (P ++ Q) i = pf P i := by
  unfold pf
  rw [List.getD_eq_getElem?_getD, List.getD_eq_getElem?_getD, List.getElem?_append_left h]

theorem pf_append_right {P Q : List V} {i : ℕ} (h : P.length ≤ i) : pf (P ++ Q) i = pf Q (i - P.length) := by
  unfold pf
  rw [List.getD_eq_getElem?_getD, List.getD_eq_getElem?_getD, List.getElem?_append_right h]

theorem joinP_spec {q : ℕ} {E : ℕ → List V} : ∀ (k : ℕ), (∀ i, i ≤ k → (E i).length = q + 1) → (∀ i, i < k → pf (E i) q = pf (E (i + 1)) 0) →
    (E 0 ++ (List.range' 1 k).flatMap fun i => (E i).drop 1).length = (k + 1) * q + 1 ∧
    ∀ i j, i ≤ k → j ≤ q → pf (E 0 ++ (List.range' 1 k).flatMap fun i => (E i).drop 1) (i * q + j) = pf (E i) j := by
  intro k
  induction k with
  | zero =>
    intro hl _
    refine ⟨by simp [hl 0 le_rfl], ?_⟩
    intro i j hi hj
    obtain rfl : i = 0 := by omega
    simp
  | succ k ih =>
    intro hl hc
    obtain ⟨h1, h2⟩ := ih (fun i hi => hl i (by omega)) (fun i hi => hc i (by omega))
    rw [List.range'_1_concat, List.flatMap_append, ← List.append_assoc]
    have hlk := hl (k + 1) le_rfl
    have e1 : (k + 1) * q = k * q + q := by ring
    refine ⟨?_, ?_⟩
    · rw [List.length_append, h1]
      simp only [List.flatMap_cons, List.flatMap_nil, List.append_nil, List.length_drop, Nat.add_comm 1 k, hlk]
      have : (k + 1 + 1) * q = k * q + q + q := by ring
      omega
    · intro i j hi hj
      rcases Nat.lt_or_ge i (k + 1) with hik | hik
      · have : i * q ≤ k * q := Nat.mul_le_mul_right q (by omega)
        rw [pf_append_left (by omega)]
        exact h2 i j (by omega) hj
      · obtain rfl : i = k + 1 := by omega
        by_cases hj0 : j = 0
        · subst hj0
          rw [pf_append_left (by omega), e1, Nat.add_zero, h2 k q le_rfl le_rfl]
          exact hc k (by omega)
        · rw [pf_append_right (by omega), h1]
          simp only [List.flatMap_cons, List.flatMap_nil, List.append_nil, pf_drop, Nat.add_comm 1 k]
          congr 1
          omega

theorem flatKnots_fB (w : ℕ → K) {q m : ℕ} (hm : 1 ≤ m) :
    flatKnots (w 0 :: w 1 :: (List.range' 1 (m - 1)).map fun i => w (i + 1)) ((q + 1) :: List.replicate (m - 1) q ++ [q + 1]) =
      .ok (flatF w (fB q m) (m + 1)) := by
  have h1 : w 0 :: w 1 :: (List.range' 1 (m - 1)).map (fun i => w (i + 1)) = (List.range (m + 1)).map w := by
    apply List.ext_getElem
    · simp; omega
    · intro i a b
      rcases i with _ | _ | i
      · simp
      · simp
      · simp [Nat.add_comm 1 i]
  have h2 : (q + 1) :: List.replicate (m - 1) q ++ [q + 1] = (List.range (m + 1)).map (fB q m) := by
    apply List.ext_getElem
    · simp; omega
    · intro i a b
      simp only [List.length_map, List.length_range] at b
      rcases i with _ | i
      · simp [fB]
      · simp only [List.cons_append, List.getElem_cons_succ, List.getElem_map, List.getElem_range, fB]
        rcases Nat.lt_or_ge i (m - 1) with h | h
        · rw [List.getElem_append_left (by simpa using h), if_neg (by omega)]; simp
        · rw [List.getElem_append_right (by simpa using h), if_pos (by omega)]; simp
  rw [h1, h2]
  unfold flatKnots
  rw [if_neg (by simp), List.zip_map', List.flatMap_map]
  rfl

end

end Gbs
