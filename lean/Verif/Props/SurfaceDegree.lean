import Verif.Model.SurfaceDegree
import Verif.Props.IncreaseDegree
import Verif.Props.SurfaceReparam

/-! # C59: degree elevation of a surface -/

namespace Gbs

set_option linter.unusedSectionVars false

variable {K : Type} [Field K] [LinearOrder K] [IsStrictOrderedRing K]
variable {V : Type} [AddCommGroup V] [Module K V]

theorem idx_lt' {n m j : ℕ} (hj : j < m) : j * n + n ≤ n * m := by
  have : n * (j + 1) ≤ n * m := Nat.mul_le_mul_left n hj
  calc j * n + n = n * (j + 1) := by ring
    _ ≤ n * m := this

/-- The loop over the rows, which keeps the knots of the first one. -/
theorem rows_loop_first {U' : List K} {f : ℕ → R (List K × List V)} {R : ℕ → List V} {n m : ℕ} (hf : ∀ j, j < m → f j = .ok (U', R j))
    (hR : ∀ j, j < m → (R j).length = n) (hm : 0 < m) :
    ∃ S, forLt 0 m (fun i (st : List K × List V) => do
        let t ← f i
        pure (if i = 0 then t.1 else st.1, st.2 ++ t.2)) ([], []) = .ok (U', S) ∧ S.length = n * m ∧
      ∀ i j, i < n → j < m → pf S (i + n * j) = pf (R j) i := by
  obtain ⟨S, e, h0, h1, h2⟩ := forLt_inv (a := 0) (b := m) (s := (([] : List K), ([] : List V)))
    (body := fun i (st : List K × List V) => do
        let t ← f i
        pure (if i = 0 then t.1 else st.1, st.2 ++ t.2))
    (fun j st => (0 < j → st.1 = U') ∧ st.2.length = n * j ∧ ∀ i j', i < n → j' < j → pf st.2 (i + n * j') = pf (R j') i) (by omega)
    ⟨by omega, by simp, by intro i j' _ h; omega⟩
    (by
      intro j st _ hj ⟨g0, g1, g2⟩
      refine ⟨(U', st.2 ++ R j), ?_, fun _ => rfl, ?_, ?_⟩
      · rw [hf j hj, R_bind_ok]
        simp only
        by_cases hj0 : j = 0
        · rw [if_pos hj0]; rfl
        · rw [if_neg hj0, g0 (by omega)]; rfl
      · simp only [List.length_append]; rw [g1, hR j hj]; ring
      · intro i j' hi hj'
        rcases Nat.lt_or_ge j' j with h3 | h3
        · rw [← g2 i j' hi h3]
          apply pf_append_left
          rw [g1]; exact idx_lt hi h3
        · obtain rfl : j' = j := by omega
          simp only
          rw [pf_append_right (by omega), g1, show i + n * j' - n * j' = i by omega])
  refine ⟨S.2, ?_, h1, h2⟩
  rw [e]
  exact congrArg _ (Prod.ext (h0 hm) rfl)

theorem pf_cols_out {n m : ℕ} {P : ℕ → ℕ → V} {i j : ℕ} (hj : m ≤ j) : pf (cols n m P) i j = 0 := by
  unfold pf cols
  rw [List.getD_eq_getElem?_getD, List.getElem?_map]
  rcases Nat.lt_or_ge i n with h | h
  · rw [List.getElem?_range h]; simp; omega
  · rw [List.getElem?_eq_none (by simpa using h)]; rfl

/-- Rows with the same map make columns with the same map. -/
theorem sameMap_cols {p p' : ℕ} {U U' : List K} {n n' m : ℕ} {P : ℕ → ℕ → V} {A B : ℕ → List V} (hm : 0 < m)
    (hA : ∀ j, j < m → (A j).length = n) (hB : ∀ j, j < m → (B j).length = n') (hPA : ∀ i j, i < n → j < m → P i j = pf (A j) i)
    (hS : ∀ j, j < m → SameMap p U (A j) p' U' (B j)) :
    SameMap p U (cols n m P) p' U' (cols n' m (fun i j => pf (B j) i)) := by
  intro v h1 h2
  rw [cols_length] at h2
  obtain ⟨i, i', e, e', -⟩ := hS 0 hm v h1 (by rw [hA 0 hm]; exact h2)
  rw [hA 0 hm] at e
  rw [hB 0 hm] at e'
  refine ⟨i, i', by rw [cols_length]; exact e, by rw [cols_length]; exact e', ?_⟩
  intro d
  funext j
  rw [spanDer_apply, spanDer_apply, cols_length, cols_length]
  rcases Nat.lt_or_ge j m with hj | hj
  · obtain ⟨a, a', ea, ea', hd⟩ := hS j hj v h1 (by rw [hA j hj]; exact h2)
    rw [hA j hj, e] at ea
    rw [hB j hj, e'] at ea'
    obtain rfl := Except.ok.inj ea
    obtain rfl := Except.ok.inj ea'
    have := hd d
    rw [hA j hj, hB j hj] at this
    rw [spanDer_congr (P := fun x => pf (cols n m P) x j) (P' := pf (A j)) (fun x hx => by rw [pf_cols hx hj]; exact hPA x j hx hj), this]
    apply spanDer_congr
    intro x hx
    rw [pf_cols hx hj]
  · have z : ∀ (t : ℕ → K) (n p i : ℕ), spanDer t n p i (fun _ => (0 : V)) d v = 0 := by
      intro t n p i; unfold spanDer; simp
    rw [show (fun x => pf (cols n m P) x j) = fun _ => (0 : V) from funext fun x => pf_cols_out hj,
      show (fun x => pf (cols n' m (fun i j => pf (B j) i)) x j) = fun _ => (0 : V) from funext fun x => pf_cols_out hj, z, z]

/-- C59: `increaseDegreeU` raises the degree along U by one and every multiplicity along U, keeps the second direction and the bounds, and every
value and mixed derivative. -/
theorem C59_increaseDegreeU {eps : K} (heps : 0 < eps) {s : Surface K V} (h : s.Wf) (hdv : s.degV ≤ stackMaxDegree) (hdu : s.degU + 1 ≤ 12)
    {ks : List K} {ms : List ℕ} (hk : KnotsBy eps s.degU s.knotsU ks ms) :
    ∃ s', s.increaseDegreeU eps = .ok s' ∧ s'.Wf ∧ s'.degU = s.degU + 1 ∧ s'.degV = s.degV ∧ s'.knotsV = s.knotsV ∧
      KnotsBy eps s'.degU s'.knotsU ks (ms.map (· + 1)) ∧ s'.u0 = s.u0 ∧ s'.u1 = s.u1 ∧ s'.v0 = s.v0 ∧ s'.v1 = s.v1 ∧
      kf s'.knotsU s'.degU = kf s.knotsU s.degU ∧ kf s'.knotsU s'.nPU = kf s.knotsU s.nPU ∧
      ∀ u v, s.In u v → ∀ (junk junk' : K) (du dv : ℕ),
        ∃ pt, s.value eps junk u v du dv = .ok pt ∧ s'.value eps junk' u v du dv = .ok pt := by
  have hs24 : stackMaxDegree = 24 := rfl
  have hlen := h.u.len
  have hmin := h.u.min
  have hpv := h.posV
  obtain ⟨m, hm, hlm, hU, hC⟩ := hk.clampF heps.le (by omega)
  have hl : (flatF (kf ks) (fun i => ms.getD i 0) (m + 1)).length = s.nPU + s.degU + 1 := by rw [← hU]; exact hlen
  have hrow : ∀ j, j < s.nPV → ((s.poles.drop (j * s.nPU)).take s.nPU).length = s.nPU := by
    intro j hj
    have := idx_lt' (n := s.nPU) hj
    have := h.len
    rw [List.length_take, List.length_drop]
    omega
  have hex : ∀ j, ∃ Q : List V, j < s.nPV → increaseDegree eps s.knotsU ((s.poles.drop (j * s.nPU)).take s.nPU) s.degU 1 =
      .ok (flatF (kf ks) (fun i => ms.getD i 0 + 1) (m + 1), Q) ∧
      (flatF (kf ks) (fun i => ms.getD i 0 + 1) (m + 1)).length = Q.length + (s.degU + 1) + 1 ∧
      SameMap s.degU s.knotsU ((s.poles.drop (j * s.nPU)).take s.nPU) (s.degU + 1) (flatF (kf ks) (fun i => ms.getD i 0 + 1) (m + 1)) Q := by
    intro j
    by_cases hj : j < s.nPV
    · obtain ⟨Q, a, b, c⟩ := increaseDegree_spec hC hk.deg hdu (P := (s.poles.drop (j * s.nPU)).take s.nPU) (by rw [hl, hrow j hj])
      rw [← hU] at a c
      exact ⟨Q, fun _ => ⟨a, b, c⟩⟩
    · exact ⟨[], fun hc => absurd hc hj⟩
  choose B hB using hex
  set U' := flatF (kf ks) (fun i => ms.getD i 0 + 1) (m + 1) with hU'
  have hBl : ∀ j, j < s.nPV → (B j).length = U'.length - (s.degU + 1 + 1) := by
    intro j hj
    have := (hB j hj).2.1
    omega
  obtain ⟨S, e, hSl, hSP⟩ := rows_loop_first (K := K) (U' := U') (R := B) (n := U'.length - (s.degU + 1 + 1)) (m := s.nPV)
    (f := fun i => increaseDegree eps s.knotsU ((s.poles.drop (i * s.nPU)).take s.nPU) s.degU 1) (fun j hj => (hB j hj).1) hBl hpv
  have hC' := hC.raise 1
  have hl' : U'.length = (B 0).length + (s.degU + 1) + 1 := (hB 0 hpv).2.1
  set s' : Surface K V := { s with knotsU := U', poles := S, degU := s.degU + 1 } with hs'
  have hn' : s'.nPU = U'.length - (s.degU + 1 + 1) := rfl
  have hw' : s'.Wf := by
    refine ⟨?_, h.v, hSl⟩
    have := (hC'.wf (P := B 0) hl').kwf
    rw [hBl 0 hpv] at this
    exact this
  have d0 : kf U' (s.degU + 1) = kf s.knotsU s.degU := by rw [hC'.d0, hU, hC.d0]
  have d1 : kf U' s'.nPU = kf s.knotsU s.nPU := by rw [hn', ← hBl 0 hpv, hC'.d1 hl', hU, hC.d1 hl]
  refine ⟨s', ?_, hw', rfl, rfl, rfl, hk.raise 1 hm hlm, rfl, rfl, rfl, rfl, d0, d1, ?_⟩
  · unfold Surface.increaseDegreeU
    rw [h.nV_eq, R_bind_ok, h.nU_eq, R_bind_ok]
    rw [forLt_congr (g := fun i (st : List K × List V) => do
        let t ← increaseDegree eps s.knotsU ((s.poles.drop (i * s.nPU)).take s.nPU) s.degU 1
        pure (if i = 0 then t.1 else st.1, st.2 ++ t.2)) (by
      intro i st _ hi
      have := idx_lt' (n := s.nPU) hi
      have := h.len
      rw [if_neg (by omega)]), e, R_bind_ok]
    rfl
  · intro u v hin junk junk' du dv
    have hin' : s'.In u v := by
      refine ⟨hin.u0, hin.u1, hin.v0, hin.v1, ?_, ?_, hin.kv0, hin.kv1⟩
      · rw [show kf s'.knotsU s'.degU = kf s.knotsU s.degU from d0]; exact hin.ku0
      · rw [show kf s'.knotsU s'.nPU = kf s.knotsU s.nPU from d1]; exact hin.ku1
    refine Surface.value_of_colsU heps h hw' (Or.inl ⟨by omega, hdv⟩) (Or.inl ⟨by change s.degU + 1 ≤ _; omega, hdv⟩) rfl rfl
      (Q := cols s'.nPU s.nPV (fun i j => pf (B j) i)) (by rw [cols_length]) ?_ ?_ hin hin' junk junk' du dv
    · intro i j hi hj
      rw [cols_length] at hi
      rw [pf_cols hi hj]
      exact hSP i j hi hj
    · refine sameMap_cols hpv hrow hBl ?_ (fun j hj => (hB j hj).2.2)
      intro i j hi hj
      rw [pf_take _ hi, pf_drop]
      unfold Surface.P
      rw [Nat.mul_comm]

/-- C59: the same along V, for a surface whose bounds are the ends of clamped knots (`invertUV` resets the bounds from the knots). -/
theorem C59_increaseDegreeV {eps : K} (heps : 0 < eps) {s : Surface K V} (h : s.Cl) (hdv : s.degV + 1 ≤ 12)
    {ks : List K} {ms : List ℕ} (hk : KnotsBy eps s.degV s.knotsV ks ms) :
    ∃ s', s.increaseDegreeV eps = .ok s' ∧ s'.Wf ∧ s'.degU = s.degU ∧ s'.degV = s.degV + 1 ∧ s'.knotsU = s.knotsU ∧
      KnotsBy eps s'.degV s'.knotsV ks (ms.map (· + 1)) ∧ s'.u0 = s.u0 ∧ s'.u1 = s.u1 ∧ s'.v0 = s.v0 ∧ s'.v1 = s.v1 ∧
      ∀ u v, s.u0 ≤ u → u ≤ s.u1 → s.v0 ≤ v → v ≤ s.v1 → ∀ (junk junk' : K) (du dv : ℕ),
        ∃ pt, s.value eps junk u v du dv = .ok pt ∧ s'.value eps junk' u v du dv = .ok pt := by
  have hs24 : stackMaxDegree = 24 := rfl
  obtain ⟨s1, e1, l1, a1, a2, a3, a4, a5, a6, a7, a8⟩ := Surface.invert_cl h.wf h.du h.dv (by rw [h.u00, h.u01]) (by rw [h.u10, h.u11])
    (by rw [h.v00, h.v01]) (by rw [h.v10, h.v11])
  rw [h.v00] at a5; rw [h.v11] at a6; rw [h.u00] at a7; rw [h.u11] at a8
  obtain ⟨s2, e2, w2, b1, b2, b3, b4, b5, b6, b7, b8, b9, b10, hv2⟩ := C59_increaseDegreeU heps l1.wf l1.dv (by rw [a1]; exact hdv)
    (ks := ks) (ms := ms) (by rw [a1, a3]; exact hk)
  -- the knots of `s2` are clamped
  have hlen := w2.u.len
  have hmin := w2.u.min
  obtain ⟨m, hm, hlm, hU, hC⟩ := b4.clampF heps.le (by omega)
  have z0 : kf s2.knotsU 0 = kf s2.knotsU s2.degU := by
    rw [hU, hC.d0]
    exact kf_flatF _ _ (by omega) (by rw [flatF_length_zero]) (by rw [flatF_length_zero, hC.first]; omega)
  have z1 : kf s2.knotsU s2.nPU = kLast s2.knotsU := by
    unfold kLast
    have hl : (flatF (kf ks) (fun i => (ms.map (· + 1)).getD i 0) (m + 1)).length = s2.nPU + s2.degU + 1 := by rw [← hU]; exact hlen
    have hl' := flatF_length_succ (kf ks) (fun i => (ms.map (· + 1)).getD i 0) m
    have hla := hC.last
    rw [hU, hC.d1 hl]
    exact (kf_flatF _ _ (by omega) (by omega) (by omega)).symm
  obtain ⟨s3, e3, l3, c1, c2, c3, c4, c5, c6, c7, c8⟩ := Surface.invert_cl w2 (by rw [b1, a1]; omega) (by rw [b2]; exact l1.dv) z0 z1
    (by rw [b3, b2, l1.v00, l1.v01]) (by unfold Surface.nPV; rw [b3, b2]; exact l1.v10.trans l1.v11.symm)
  rw [b3, l1.v00] at c5; rw [b3, l1.v11] at c6; rw [z0, b9, l1.u01] at c7; rw [← z1, b10, l1.u10] at c8
  refine ⟨s3, ?_, l3.wf, by rw [c1, b2, a2], by rw [c2, b1, a1], by rw [c3, b3, a4], by rw [c2, c4]; exact b4, by rw [c5, a7],
    by rw [c6, a8], by rw [c7, a5], by rw [c8, a6], ?_⟩
  · unfold Surface.increaseDegreeV; rw [e1, R_bind_ok, e2, R_bind_ok, e3]
  · intro u v u0 u1 v0 v1 junk junk' du dv
    obtain ⟨t1, f1, -, -, -, -, -, hv1⟩ := C28_invertUV_swaps heps h.wf (h.big eps)
    obtain rfl : t1 = s1 := by rw [e1] at f1; exact (Except.ok.inj f1).symm
    obtain ⟨t3, f3, -, -, -, -, -, hv3⟩ := C28_invertUV_swaps heps w2 (eps := eps) (Or.inl ⟨by rw [b1, a1]; omega, by rw [b2]; exact l1.dv⟩)
    obtain rfl : t3 = s3 := by rw [e3] at f3; exact (Except.ok.inj f3).symm
    obtain ⟨p1, g1, g1'⟩ := hv1 u v (h.in u0 u1 v0 v1) junk 0 du dv
    have hin1 := l1.in (u := v) (v := u) (by rw [a5]; exact v0) (by rw [a6]; exact v1) (by rw [a7]; exact u0) (by rw [a8]; exact u1)
    obtain ⟨p2, g2, g2'⟩ := hv2 v u hin1 0 0 dv du
    have hin2 : s2.In v u := by
      refine ⟨by rw [b5]; exact hin1.u0, by rw [b6]; exact hin1.u1, by rw [b7]; exact hin1.v0, by rw [b8]; exact hin1.v1, by rw [b9]; exact hin1.ku0,
        by rw [b10]; exact hin1.ku1, by rw [b3, b2]; exact hin1.kv0, ?_⟩
      unfold Surface.nPV
      rw [b3, b2]; exact hin1.kv1
    obtain ⟨p3, g3, g3'⟩ := hv3 v u hin2 0 junk' dv du
    rw [g1'] at g2
    rw [g2'] at g3
    refine ⟨p1, g1, ?_⟩
    rw [g3', ← Except.ok.inj g3, ← Except.ok.inj g2]

theorem Sample.s_knotsU : KnotsBy (1/10) Sample.s.degU Sample.s.knotsU [0, 1, 2] [3, 1, 3] := by
  refine ⟨by decide, by decide +kernel, by decide +kernel, by decide, by decide, ?_⟩
  intro i x h1 h2 hx
  have : i = 1 := by simp at h2; omega
  subst this
  have hd : Sample.s.degU = 2 := rfl
  simp at hx
  omega

theorem Sample.s_knotsV : KnotsBy (1/10) Sample.s.degV Sample.s.knotsV [0, 1, 3] [2, 1, 2] := by
  refine ⟨by decide, by decide +kernel, by decide +kernel, by decide, by decide, ?_⟩
  intro i x h1 h2 hx
  have : i = 1 := by simp at h2; omega
  subst this
  have hd : Sample.s.degV = 1 := rfl
  simp at hx
  omega

example : ∃ s', Sample.s.increaseDegreeU (1/10) = .ok s' ∧ s'.degU = 3 ∧ flatKnots [0, 1, 2] [4, 2, 4] = .ok s'.knotsU := by
  obtain ⟨s', e, -, hd, -, -, hk, -⟩ := C59_increaseDegreeU (by norm_num) Sample.s_wf (by decide) (by decide) Sample.s_knotsU
  exact ⟨s', e, hd, hk.flat⟩

example : ∃ s', Sample.s.increaseDegreeV (1/10) = .ok s' ∧ s'.degV = 2 ∧ flatKnots [0, 1, 3] [3, 2, 3] = .ok s'.knotsV := by
  obtain ⟨s', e, -, -, hd, -, hk, -⟩ := C59_increaseDegreeV (by norm_num) Sample.s_cl (by decide) Sample.s_knotsV
  exact ⟨s', e, hd, hk.flat⟩

end Gbs
