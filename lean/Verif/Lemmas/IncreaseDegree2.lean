import Verif.Lemmas.IncreaseDegree

/-! # Degree elevation: the whole algorithm -/

namespace Gbs

set_option linter.unusedSectionVars false

variable {K : Type} [Field K] [LinearOrder K] [IsStrictOrderedRing K]
variable {V : Type} [AddCommGroup V] [Module K V]

variable {eps : K} {w : ℕ → K} {f g : ℕ → ℕ} {m p q : ℕ}

theorem flatF_add (w : ℕ → K) (f : ℕ → ℕ) (a : ℕ) : ∀ b, flatF w f (a + b) = flatF w f a ++ flatF (fun i => w (a + i)) (fun i => f (a + i)) b
  | 0 => by simp [flatF]
  | b + 1 => by rw [← Nat.add_assoc, flatF_succ, flatF_add w f a b, flatF_succ, List.append_assoc]

theorem remKnots_flatF (heps : 0 ≤ eps) (h : Gaps eps w m) (hf : ∀ i, i ≤ m → 1 ≤ f i) {i N : ℕ} (hi : i < m) (hN : N ≤ f i)
    (hg : ∀ j, j ≤ m → g j = if j = i then f i - N else f j) :
    remKnots (flatF w f (m + 1)) (w i) N = flatF w g (m + 1) := by
  have h1 := hf i (by omega)
  have hs := flatF_length_succ w f i
  unfold remKnots
  rw [upperBound_flatF heps h hf hi]
  have e : flatF w f (m + 1) = flatF w f i ++ List.replicate (f i - N) (w i) ++ List.replicate N (w i) ++ flatF (fun j => w (i + 1 + j)) (fun j => f (i + 1 + j)) (m - i) := by
    conv_lhs => rw [show m + 1 = i + 1 + (m - i) by omega]
    rw [flatF_add, flatF_succ, show f i = f i - N + N by omega, List.replicate_add, Nat.sub_add_cancel hN]
    simp
  have e' : flatF w g (m + 1) = flatF w f i ++ List.replicate (f i - N) (w i) ++ flatF (fun j => w (i + 1 + j)) (fun j => f (i + 1 + j)) (m - i) := by
    conv_lhs => rw [show m + 1 = i + 1 + (m - i) by omega]
    rw [flatF_add, flatF_succ, hg i (by omega), if_pos rfl]
    congr 1
    · congr 1
      exact flatF_congr fun j hj => by rw [hg j (by omega), if_neg (by omega)]
    · exact flatF_congr fun j hj => by rw [hg _ (by omega), if_neg (by omega)]
  have l1 : (flatF w f i ++ List.replicate (f i - N) (w i)).length = spanF w f i + 1 - N := by
    unfold spanF; simp; omega
  have l2 : (flatF w f i ++ List.replicate (f i - N) (w i) ++ List.replicate N (w i)).length = spanF w f i + 1 := by
    unfold spanF; simp; omega
  rw [e, e', ← l2, List.drop_left, l2, ← l1, List.append_assoc, List.take_left]

theorem exists_span {v : K} : ∀ {m : ℕ}, 1 ≤ m → w 0 ≤ v → v ≤ w m → ∃ i, i < m ∧ (w i ≤ v ∧ v < w (i + 1) ∨ v = w m ∧ i = m - 1) := by
  intro m
  induction m with
  | zero => intro h; omega
  | succ m ih =>
    intro _ h0 h1
    rcases lt_or_eq_of_le h1 with hlt | heq
    · rcases le_or_gt (w m) v with hc | hc
      · exact ⟨m, by omega, Or.inl ⟨hc, hlt⟩⟩
      · rcases Nat.eq_zero_or_pos m with rfl | hm
        · exact absurd h0 (not_le.mpr hc)
        · obtain ⟨i, hi, h⟩ := ih hm h0 hc.le
          rcases h with h | h
          · exact ⟨i, by omega, Or.inl h⟩
          · exact absurd h.1 hc.ne
    · exact ⟨m, by omega, Or.inr ⟨heq, by omega⟩⟩

theorem ClampF.findSpan (h : ClampF eps w f m p) {P : List V} (hl : (flatF w f (m + 1)).length = P.length + p + 1) {v : K} {i : ℕ} (hi : i < m)
    (hv : w i ≤ v ∧ v < w (i + 1) ∨ v = w m ∧ i = m - 1) : findSpan P.length p v (flatF w f (m + 1)) = .ok (spanF w f i) := by
  have hm := h.hm
  have hW := h.wf (P := P) hl
  obtain ⟨k, e, -, -, -, hin, -, -⟩ := findSpan_wf hW v
  rw [e]
  have b0 : w 0 ≤ v := by
    rcases hv with hv | hv
    · exact le_trans (h.gaps.le h.heps (by omega) (by omega)) hv.1
    · rw [hv.1]; exact h.gaps.le h.heps (by omega) (by omega)
  have b1 : v ≤ w m := by
    rcases hv with hv | hv
    · exact le_trans hv.2.le (h.gaps.le h.heps (by omega) (by omega))
    · exact hv.1.le
  have h1 := hin (by rw [h.d0]; exact b0) (by rw [h.d1 hl]; exact b1)
  congr 1
  refine InSpan_unique (kf_mono hW.sorted) h1 ?_
  unfold Spec.InSpan
  rw [h.d1 hl, spanF_left hi h.pos, spanF_right hi h.pos]
  rcases hv with hv | hv
  · rw [if_neg]
    · exact hv
    · intro hc
      have := h.gaps.le h.heps (show i + 1 ≤ m by omega) le_rfl
      rw [hc] at hv
      exact absurd hv.2 (not_lt.mpr this)
  · rw [if_pos hv.1, hv.2, show m - 1 + 1 = m by omega]
    exact ⟨h.gaps.lt' h.heps (by omega) le_rfl, rfl⟩

theorem ClampF.span_lt (h : ClampF eps w f m p) {n : ℕ} (hl : (flatF w f (m + 1)).length = n + p + 1) {i : ℕ} (hi : i < m) :
    spanF w f i < n := spanF_lt hl h.last h.pos hi

theorem ClampF.span_ge (h : ClampF eps w f m p) (i : ℕ) : p ≤ spanF w f i := spanF_ge h.first.ge i

/-- Same values on each span. -/
theorem sameMap_of_diag (h : ClampF eps w f m p) (h' : ClampF eps w g m q) {P Q : List V} (hl : (flatF w f (m + 1)).length = P.length + p + 1)
    (hl' : (flatF w g (m + 1)).length = Q.length + q + 1)
    (hd : ∀ i, i < m → ∀ v, bl (kf (flatF w f (m + 1))) (spanF w f i) (pf P) (List.replicate p v) =
      bl (kf (flatF w g (m + 1))) (spanF w g i) (pf Q) (List.replicate q v)) :
    SameMap p (flatF w f (m + 1)) P q (flatF w g (m + 1)) Q := by
  intro v h1 h2
  rw [h.d0] at h1
  rw [h.d1 hl] at h2
  obtain ⟨i, hi, hv⟩ := exists_span h.hm h1 h2
  refine ⟨_, _, h.findSpan hl hi hv, h'.findSpan hl' hi hv, ?_⟩
  intro d
  have hlt : w i < w (i + 1) := h.gaps.lt' h.heps (by omega) (by omega)
  apply spanDer_congr_Ioo hlt
  intro v _ _
  have a1 := sum_B_eq_bl (kf (flatF w f (m + 1))) (spanF w f i) P.length v (h.span_lt hl hi) p (pf P) (h.span_ge i)
  have a2 := sum_B_eq_bl (kf (flatF w g (m + 1))) (spanF w g i) Q.length v (h'.span_lt hl' hi) q (pf Q) (h'.span_ge i)
  unfold spanDer
  simp only [Function.iterate_zero, id_eq, Bp_eval]
  rw [a1, a2, hd i hi v]

theorem ClampF.bl_eq (h : ClampF eps w f m p) (h' : ClampF eps w g m p) {P Q : List V} (hl : (flatF w f (m + 1)).length = P.length + p + 1)
    (hl' : (flatF w g (m + 1)).length = Q.length + p + 1) (hS : SameMap p (flatF w f (m + 1)) P p (flatF w g (m + 1)) Q) {i : ℕ} (hi : i < m) :
    ∀ xs : List K, xs.length = p → bl (kf (flatF w f (m + 1))) (spanF w f i) (pf P) xs = bl (kf (flatF w g (m + 1))) (spanF w g i) (pf Q) xs :=
  SameMap.bl_eq (h.wf hl) (h'.wf hl') hS (h.span_ge i) (h.span_lt hl hi) (h'.span_ge i) (h'.span_lt hl' hi)
    (h.gaps.lt' h.heps (show i < i + 1 by omega) (by omega)) (spanF_left hi h.pos).le (spanF_right hi h.pos).ge (spanF_left hi h'.pos).le
    (spanF_right hi h'.pos).ge

theorem ClampF.agree (h : ClampF eps w f m p) (c : ℕ → V) {i : ℕ} (hi : i + 1 < m) :
    AgreeAt p (bl (kf (flatF w f (m + 1))) (spanF w f i) c) (bl (kf (flatF w f (m + 1))) (spanF w f (i + 1)) c) (w (i + 1)) (f (i + 1)) := by
  intro ys hy
  have hst := spanF_step (w := w) (show i + 1 ≤ m by omega) h.pos
  have hadj := bl_adjacent (kf_mono (h.gaps.flatF_sorted h.heps f)) (m := spanF w f i) (k := spanF w f (i + 1))
    (by rw [spanF_left (by omega) h.pos, spanF_right (by omega) h.pos]; exact h.gaps.lt' h.heps (by omega) (by omega))
    (by rw [spanF_left (by omega) h.pos, spanF_right (by omega) h.pos]; exact h.gaps.lt' h.heps (by omega) (by omega))
    (by omega) c ys p (by omega) (h.span_ge i)
  have hseg : seg (kf (flatF w f (m + 1))) (spanF w f i + 1) (spanF w f (i + 1) - spanF w f i) = List.replicate (f (i + 1)) (w (i + 1)) := by
    rw [show spanF w f (i + 1) - spanF w f i = f (i + 1) by omega]
    apply seg_const
    intro j hj
    have h1 := h.pos i (by omega)
    have h2 := flatF_length_succ w f i
    apply kf_flatF w f (by omega) <;> unfold spanF <;> omega
  rw [hseg] at hadj
  exact hadj

theorem AgreeAt.congr {p s : ℕ} {F G F' G' : List K → V} {u : K} (h : AgreeAt p F G u s) (hF : ∀ xs : List K, xs.length = p → F' xs = F xs)
    (hG : ∀ xs : List K, xs.length = p → G' xs = G xs) : AgreeAt p F' G' u s := by
  intro ys hy
  rw [hF _ (by simpa using hy), hG _ (by simpa using hy)]
  exact h ys hy

/-- The removal loop of `increase_degree`. -/
theorem elevRemove_spec (h : ClampF eps w f m p) (hp : 1 ≤ p) {t : ℕ} {Q : List V} (hl : (flatF w (fB (p + t) m) (m + 1)).length = Q.length + (p + t) + 1)
    (hA : ∀ i, i + 1 < m → AgreeAt (p + t) (bl (kf (flatF w (fB (p + t) m) (m + 1))) (spanF w (fB (p + t) m) i) (pf Q))
      (bl (kf (flatF w (fB (p + t) m) (m + 1))) (spanF w (fB (p + t) m) (i + 1)) (pf Q)) (w (i + 1)) (f (i + 1) + t)) :
    ∃ Q', forLt 1 m (fun i (UP : List K × List V) => do
      let x ← rd ((List.range (m + 1)).map fun i => (w i, f i)) i
      if x.2 ≤ p then removeKnot eps x.1 (p - x.2) UP.1 UP.2 (p + t)
      else .error .oob) (flatF w (fB (p + t) m) (m + 1), Q) = .ok (flatF w (fun i => f i + t) (m + 1), Q') ∧
      (flatF w (fun i => f i + t) (m + 1)).length = Q'.length + (p + t) + 1 ∧
      SameMap (p + t) (flatF w (fB (p + t) m) (m + 1)) Q (p + t) (flatF w (fun i => f i + t) (m + 1)) Q' := by
  have hm := h.hm
  have hB : ClampF eps w (fB (p + t) m) m (p + t) :=
    ⟨h.heps, h.gaps, h.hm, by simp [fB], by simp [fB], fun i a b => by rw [fB, if_neg (by omega)]; omega⟩
  obtain ⟨s', e, hI⟩ := forLt_inv (a := 1) (b := m) (fun i (UP : List K × List V) =>
      UP.1 = flatF w (fun j => if 0 < j ∧ j < i then f j + t else fB (p + t) m j) (m + 1) ∧ UP.1.length = UP.2.length + (p + t) + 1 ∧
        SameMap (p + t) (flatF w (fB (p + t) m) (m + 1)) Q (p + t) UP.1 UP.2)
    (body := fun i (UP : List K × List V) => do
      let x ← rd ((List.range (m + 1)).map fun i => (w i, f i)) i
      if x.2 ≤ p then removeKnot eps x.1 (p - x.2) UP.1 UP.2 (p + t)
      else .error .oob) (s := (flatF w (fB (p + t) m) (m + 1), Q)) hm
    ⟨flatF_congr fun j _ => by rw [if_neg (by omega)], hl, SameMap.refl (hB.wf hl)⟩ (by
    intro i UP hi1 hi2 ⟨h1, h2, h3⟩
    have hC : ClampF eps w (fun j => if 0 < j ∧ j < i then f j + t else fB (p + t) m j) m (p + t) := by
      refine ⟨h.heps, h.gaps, hm, ?_, ?_, ?_⟩
      · rw [if_neg (by omega)]; exact hB.first
      · rw [if_neg (by omega)]; exact hB.last
      · intro j a b
        have := h.int j a b
        split
        · omega
        · exact hB.int j a b
    obtain ⟨U, P⟩ := UP
    simp only at h1 h2 h3
    subst h1
    have hW : Wf (p + t) _ P := hC.wf h2
    obtain ⟨i1, i2⟩ := h.int i (by omega) hi2
    have hcur : (if 0 < i ∧ i < i then f i + t else fB (p + t) m i) = p + t := by
      rw [if_neg (by omega), fB, if_neg (by omega)]
    have hmu : multOf (flatF w (fun j => if 0 < j ∧ j < i then f j + t else fB (p + t) m j) (m + 1)) (w i) = p + t := by
      rw [multOf_flatF h.heps h.gaps hi2.le, hcur]
    have hub := upperBound_flatF h.heps h.gaps hC.pos hi2
    rw [rd_km w f (by omega), R_bind_ok]
    simp only [if_pos i2]
    have hg : ∀ j, j ≤ m → (if 0 < j ∧ j < i + 1 then f j + t else fB (p + t) m j) =
        if j = i then p + t - (p - f i) else (if 0 < j ∧ j < i then f j + t else fB (p + t) m j) := by
      intro j _
      by_cases hji : j = i
      · rw [if_pos hji, if_pos (by omega), hji]; omega
      · rw [if_neg hji]
        by_cases hj : 0 < j ∧ j < i
        · rw [if_pos hj, if_pos (by omega)]
        · rw [if_neg hj, if_neg (by omega)]
    rcases Nat.lt_or_ge (f i) p with hlt | hge
    · have g1 : kf (flatF w (fun j => if 0 < j ∧ j < i then f j + t else fB (p + t) m j) (m + 1)) (p + t) < w i := by
        rw [hC.d0]; exact h.gaps.lt' h.heps (by omega) hi2.le
      have g2 : w i < kf (flatF w (fun j => if 0 < j ∧ j < i then f j + t else fB (p + t) m j) (m + 1)) P.length := by
        rw [hC.d1 h2]; exact h.gaps.lt' h.heps (by omega) le_rfl
      have hrem := remKnots_flatF (w := w) (f := fun j => if 0 < j ∧ j < i then f j + t else fB (p + t) m j)
        (g := fun j => if 0 < j ∧ j < i + 1 then f j + t else fB (p + t) m j) h.heps h.gaps hC.pos hi2 (N := p - f i) (by rw [hcur]; omega) (by
          intro j hj
          beta_reduce
          rw [hg j hj, hcur])
      have hC' : ClampF eps w (fun j => if 0 < j ∧ j < i + 1 then f j + t else fB (p + t) m j) m (p + t) := by
        refine ⟨h.heps, h.gaps, hm, ?_, ?_, ?_⟩
        · rw [if_neg (by omega)]; exact hB.first
        · rw [if_neg (by omega)]; exact hB.last
        · intro j a b
          have := h.int j a b
          split
          · omega
          · exact hB.int j a b
      have hst := spanF_step (w := w) (i := i - 1) (show i - 1 + 1 ≤ m by omega) hC.pos
      rw [show i - 1 + 1 = i by omega, hcur] at hst
      have hlr : (remKnots (flatF w (fun j => if 0 < j ∧ j < i then f j + t else fB (p + t) m j) (m + 1)) (w i) (p - f i)).length =
          (flatF w (fun j => if 0 < j ∧ j < i then f j + t else fB (p + t) m j) (m + 1)).length - (p - f i) := by
        have := upperBound_le (flatF w (fun j => if 0 < j ∧ j < i then f j + t else fB (p + t) m j) (m + 1)) (w i)
        unfold remKnots
        simp only [List.length_append, List.length_take, List.length_drop]
        omega
      have hpl := hW.min
      have hA' := hA (i - 1) (by omega)
      rw [show i - 1 + 1 = i by omega] at hA'
      obtain ⟨Q', e, hQl, hS⟩ := removeKnot_same h.heps hW g1 g2 (N := p - f i) (by omega) (by rw [hmu]; omega) (by rw [hmu])
        (r := spanF w (fun j => if 0 < j ∧ j < i then f j + t else fB (p + t) m j) i) (by rw [hub]; omega) (s := p + t) hmu.symm
        (by
          rw [hst, Nat.add_sub_cancel, show p + t - (p - f i) = f i + t by omega, ← hst]
          exact hA'.congr (fun xs hx => (hB.bl_eq hC hl h2 h3 (by omega) xs hx).symm) (fun xs hx => (hB.bl_eq hC hl h2 h3 hi2 xs hx).symm)) (by
          intro Q'' hQ
          rw [hrem] at hlr ⊢
          exact hC'.wf (by omega))
      rw [hrem] at hlr hS e
      refine ⟨_, e, rfl, ?_, ?_⟩
      · simp only; omega
      · exact h3.trans hS (by rw [hC.d0, hB.d0]) (by rw [hC.d1 h2, hB.d1 hl])
    · have hnum : p - f i = 0 := by omega
      have : removeKnot eps (w i) (p - f i) (flatF w (fun j => if 0 < j ∧ j < i then f j + t else fB (p + t) m j) (m + 1)) P (p + t) =
          .ok (flatF w (fun j => if 0 < j ∧ j < i then f j + t else fB (p + t) m j) (m + 1), P) := by
        have hsl := hC.span_lt h2 hi2
        unfold removeKnot
        rw [usub_ok (by omega), R_bind_ok, rd_kf (by omega), R_bind_ok, hnum]
        simp only [zero_lt_one, if_true]
        split <;> rfl
      rw [this]
      refine ⟨_, rfl, ?_, h2, h3⟩
      apply flatF_congr
      intro j hj
      beta_reduce
      rw [hg j (by omega)]
      by_cases hji : j = i
      · rw [if_pos hji, hji, hcur]; omega
      · rw [if_neg hji])
  obtain ⟨U1, P1⟩ := s'
  obtain ⟨h1, h2, h3⟩ := hI
  simp only at h1 h2 h3
  have hU1 : U1 = flatF w (fun i => f i + t) (m + 1) := by
    rw [h1]
    apply flatF_congr
    intro j hj
    by_cases h0 : j = 0
    · subst h0; rw [if_neg (by omega), h.first, fB, if_pos (by omega)]; omega
    · by_cases hjm : j = m
      · subst hjm; rw [if_neg (by omega), h.last, fB, if_pos (by omega)]; omega
      · rw [if_pos (by omega)]
  rw [hU1] at e h2 h3
  exact ⟨P1, e, h2, h3⟩

theorem kf_mapRange (w : ℕ → K) {n i : ℕ} (hi : i < n) : kf (((List.range n).map fun i => (w i, f i)).map Prod.fst) i = w i := by
  unfold kf
  simp [hi]

/-- `increase_degree` keeps the map; every multiplicity grows by `t`. -/
theorem increaseDegree_spec (h : ClampF eps w f m p) (hp : 1 ≤ p) {t : ℕ} (hq : p + t ≤ 12) {P : List V}
    (hl : (flatF w f (m + 1)).length = P.length + p + 1) :
    ∃ Q, increaseDegree eps (flatF w f (m + 1)) P p t = .ok (flatF w (fun i => f i + t) (m + 1), Q) ∧
      (flatF w (fun i => f i + t) (m + 1)).length = Q.length + (p + t) + 1 ∧
      SameMap p (flatF w f (m + 1)) P (p + t) (flatF w (fun i => f i + t) (m + 1)) Q := by
  have hm := h.hm
  obtain ⟨P1, eB, hl1, hS1⟩ := bezierInsert_spec h hp hl
  have hB := clampF_fB h hp
  have hB2 : ClampF eps w (fB (p + t) m) m (p + t) :=
    ⟨h.heps, h.gaps, h.hm, by simp [fB], by simp [fB], fun i a b => by rw [fB, if_neg (by omega)]; omega⟩
  have hn1 := fB_total w hm hl1
  -- the blossoms of the segments
  obtain ⟨F, hF⟩ : ∃ F : ℕ → List K → V, ∀ i, F i = bl (kf (flatF w (fB p m) (m + 1))) (spanF w (fB p m) i) (pf P1) := ⟨_, fun _ => rfl⟩
  have hFB : ∀ i, i < m → IsBlossom (K := K) p (F i) := by
    intro i hi
    rw [hF]
    exact bl_isBlossom (kf_mono (h.gaps.flatF_sorted h.heps _)) (by
      rw [spanF_left hi hB.pos, spanF_right hi hB.pos]; exact h.gaps.lt' h.heps (by omega) (by omega)) (hB.span_ge i) _
  have hFP : ∀ i j, i < m → j ≤ p → F i (List.replicate (p - j) (w i) ++ List.replicate j (w (i + 1))) = pf P1 (i * p + j) := by
    intro i j hi hj
    have e1 : (i + 1) * p = i * p + p := by ring
    rw [hF, ← seg_fB w hi hj]
    apply bl_dual (kf_mono (h.gaps.flatF_sorted h.heps _)) (by
      rw [spanF_left hi hB.pos, spanF_right hi hB.pos]; exact h.gaps.lt' h.heps (by omega) (by omega)) _ _ _ (hB.span_ge i)
    · rw [spanF_fB w hi]; omega
    · rw [spanF_fB w hi]; omega
  obtain ⟨S, hS⟩ : ∃ S : ℕ → List V, ∀ i, S i = (P1.drop (i * p)).take (p + 1) := ⟨_, fun _ => rfl⟩
  have hSl : ∀ i, i < m → (S i).length = p + 1 := by
    intro i hi
    have e1 : (i + 1) * p = i * p + p := by ring
    have : (i + 1) * p ≤ m * p := Nat.mul_le_mul_right p (by omega)
    rw [hS, List.length_take, List.length_drop]
    omega
  have hex : ∀ i, ∃ E, i < m → increaseBezier K (S i) p t = .ok E ∧ E.length = p + t + 1 ∧
      ∀ j, j ≤ p + t → pf E j = elevN p t (F i) (List.replicate (p + t - j) (w i) ++ List.replicate j (w (i + 1))) := by
    intro i
    by_cases hi : i < m
    · obtain ⟨E, e, hEl, hE⟩ := increaseBezier_spec (K := K) (t := t) (hSl i hi) hq
      refine ⟨E, fun _ => ⟨e, hEl, ?_⟩⟩
      intro j hj
      rw [hE j hj, elevN_two p (F i) _ _ t j hj]
      apply Finset.sum_congr rfl
      intro x hx
      have hx' := Finset.mem_range.mp hx
      rw [hFP i x hi (by omega), hS, pf_take _ (by omega), pf_drop, Nat.add_comm x]
      rfl
    · exact ⟨[], fun hc => absurd hc hi⟩
  choose E hE using hex
  have hcont : ∀ i, i < m - 1 → pf (E i) (p + t) = pf (E (i + 1)) 0 := by
    intro i hi
    rw [(hE i (by omega)).2.2 _ le_rfl, (hE (i + 1) (by omega)).2.2 _ (by omega)]
    simp only [Nat.sub_self, List.replicate_zero, List.nil_append, Nat.sub_zero, List.append_nil]
    rw [elevN_diag, elevN_diag]
    have a1 := hFP i p (by omega) le_rfl
    have a2 := hFP (i + 1) 0 (by omega) (by omega)
    simp only [Nat.sub_self, List.replicate_zero, List.nil_append, Nat.sub_zero, List.append_nil] at a1 a2
    rw [a1, a2]
    congr 1
    ring
  obtain ⟨Q0, hQ0⟩ : ∃ Q0, Q0 = E 0 ++ (List.range' 1 (m - 1)).flatMap fun i => (E i).drop 1 := ⟨_, rfl⟩
  obtain ⟨hQl, hQ⟩ := joinP_spec (q := p + t) (E := E) (m - 1) (fun i hi => (hE i (by omega)).2.1) hcont
  rw [← hQ0] at hQl hQ
  have hl2 : (flatF w (fB (p + t) m) (m + 1)).length = Q0.length + (p + t) + 1 := by
    rw [flatF_length_succ, flatF_fB_length w _ m m hm le_rfl, hQl, fB, if_pos (by omega), show m - 1 + 1 = m by omega]
    omega
  -- the blossoms of the joined curve
  have hbl : ∀ i, i < m → ∀ xs : List K, xs.length = p + t →
      bl (kf (flatF w (fB (p + t) m) (m + 1))) (spanF w (fB (p + t) m) i) (pf Q0) xs = elevN p t (F i) xs := by
    intro i hi xs hx
    have e1 : (i + 1) * (p + t) = i * (p + t) + (p + t) := by ring
    apply bl_unique (kf_mono (h.gaps.flatF_sorted h.heps _)) (by
      rw [spanF_left hi hB2.pos, spanF_right hi hB2.pos]; exact h.gaps.lt' h.heps (by omega) (by omega)) xs (elevN p t (F i)) (pf Q0)
      (by rw [hx]; exact hB2.span_ge i) (by rw [hx]; exact (hFB i hi).elevN t)
    intro x h1 h2
    rw [hx, spanF_fB w hi] at h1
    rw [spanF_fB w hi] at h2
    obtain ⟨j, rfl⟩ : ∃ j, x = i * (p + t) + j := ⟨x - i * (p + t), by omega⟩
    rw [hx, seg_fB w hi (show j ≤ p + t by omega), hQ i j (by omega) (by omega), (hE i hi).2.2 j (by omega)]
  have hS2 : SameMap p (flatF w (fB p m) (m + 1)) P1 (p + t) (flatF w (fB (p + t) m) (m + 1)) Q0 := by
    apply sameMap_of_diag hB hB2 hl1 hl2
    intro i hi v
    rw [hbl i hi _ (by simp), elevN_diag, hF]
  obtain ⟨Q', e3, hl3, hS3⟩ := elevRemove_spec h hp hl2 (by
    intro i hi
    have hAg := (h.agree (pf P) hi).congr (fun xs hx => (h.bl_eq hB hl hl1 hS1 (by omega) xs hx).symm)
      (fun xs hx => (h.bl_eq hB hl hl1 hS1 hi xs hx).symm)
    rw [← hF, ← hF] at hAg
    exact (hAg.elevN t).congr (fun xs hx => hbl i (by omega) xs hx) (fun xs hx => hbl (i + 1) (by omega) xs hx))
  refine ⟨Q', ?_, hl3, ?_⟩
  · -- the execution
    have hm' : m * p ≤ m * p + 1 := by omega
    have hmp : m ≤ m * p := Nat.le_mul_of_pos_right m (by omega)
    have hseg : bezierSegments eps (flatF w f (m + 1)) P p = .ok ((List.range' 0 m).map fun i => (S i, w i, w (i + 1))) := by
      unfold bezierSegments
      rw [h.unflat, R_bind_ok, eB, R_bind_ok]
      simp only
      rw [hB.unflat, R_bind_ok, if_neg (by omega)]
      have := bezierLoop_spec (U := ((List.range (m + 1)).map fun i => (w i, fB p m i)).map Prod.fst) (P := P1) hp m 0 (P1.length + 1) hm (by omega)
        (by rw [hn1, Nat.zero_add]) (by simp)
      rw [Nat.zero_mul] at this
      rw [this]
      congr 1
      apply List.map_congr_left
      intro i hi
      have hi' : i < m := by have := List.mem_range'_1.mp hi; omega
      rw [kf_mapRange w (by omega), kf_mapRange w (by omega), hS]
    have hel := elevateSegs_spec (K := K) (p := p) (t := t) (S := S) (E := E) (a := fun i => (w i, w (i + 1))) (List.range' 0 m) (by
      intro i hi
      have hi' : i < m := by have := List.mem_range'_1.mp hi; omega
      exact (hE i hi').1)
    have hjo := joinSegs_spec (q := p + t) (E := E) (a := w) (b := fun i => w (i + 1)) (List.range' 1 (m - 1)) (by
      intro i hi
      have hi' : i < m := by have := List.mem_range'_1.mp hi; omega
      exact (hE i hi').2.1)
    rw [show List.range' 0 m = 0 :: List.range' 1 (m - 1) by
      conv_lhs => rw [show m = m - 1 + 1 by omega, List.range'_succ]] at hseg hel
    unfold increaseDegree
    rw [h.unflat, R_bind_ok, hseg, R_bind_ok, hel, R_bind_ok]
    simp only [List.map_cons]
    rw [hjo, R_bind_ok]
    simp only [List.length_range', Nat.zero_add]
    rw [flatKnots_fB w hm, R_bind_ok, usub_ok (by simp), R_bind_ok]
    simp only [List.length_map, List.length_range, Nat.add_sub_cancel]
    rw [← hQ0]
    exact e3
  · exact (hS1.trans hS2 (by rw [h.d0, hB.d0]) (by rw [h.d1 hl, hB.d1 hl1])).trans hS3 (by rw [h.d0, hB2.d0]) (by rw [h.d1 hl, hB2.d1 hl2])

end Gbs
