import Verif.Lemmas.UnifySurf
import Verif.Props.SurfJoin

/-! # C85: unification of the knots of surfaces keeps the surfaces and ends with common knots -/

namespace Gbs

set_option linter.unusedSectionVars false

variable {K : Type} [Field K] [LinearOrder K] [IsStrictOrderedRing K]
variable {V : Type} [AddCommGroup V] [Module K V]

/-- A clamped table of poles: each row is a clamped curve along U, the rows are as many as the poles of a clamped curve along V. -/
structure SurfInfo.Clamped (s : SurfInfo K V) : Prop where
  u : ∀ r ∈ s.polesUV, (⟨r, s.knotsU, s.degU⟩ : CurveInfo K V).Clamped
  v : (⟨s.polesUV.map (fun _ => 0), s.knotsV, s.degV⟩ : CurveInfo K V).Clamped
  du : s.degU ≤ stackMaxDegree
  dv : s.degV ≤ stackMaxDegree

theorem SurfInfo.Clamped.skc {s : SurfInfo K V} (h : s.Clamped) : SKC (kf s.knotsU 0) (kLast s.knotsU) (kf s.knotsV 0) (kLast s.knotsV) s :=
  ⟨fun r hr => (h.u r hr).kc, h.v.kc, h.du, h.dv⟩

theorem rescale_self {U : List K} (h : kf U 0 < kLast U) : U.map (rescale (kf U 0) (kLast U) U) = U := by
  conv_rhs => rw [← List.map_id U]
  apply List.map_congr_left
  intro x _
  unfold rescale
  rw [mul_comm, mul_div_assoc, div_self (by linarith)]
  simp

/-- C85: the unification of clamped surfaces of the same degrees (at most 24) succeeds. All the results have the same knots, on the intervals of
the first surface, and each surface is the same up to the affine changes of `u` and `v`, with its partial derivatives scaled accordingly. The
multiplicity of a knot is the greatest it has in one of the (rescaled) surfaces: nothing else is inserted. The knots of the rescaled surfaces
which differ must differ by more than the tolerance. -/
theorem C85_unify_surfaces {eps : K} (heps : 0 < eps) {s0 : SurfInfo K V} {ss : List (SurfInfo K V)} {p q : ℕ}
    (hcl : ∀ s ∈ s0 :: ss, s.degU = p ∧ s.degV = q ∧ s.Clamped)
    (hsepU : SepL eps ((s0 :: ss).flatMap fun s => s.knotsU.map (rescale (kf s0.knotsU 0) (kLast s0.knotsU) s.knotsU)))
    (hsepV : SepL eps ((s0 :: ss).flatMap fun s => s.knotsV.map (rescale (kf s0.knotsV 0) (kLast s0.knotsV) s.knotsV))) :
    ∃ out WU WV, unifyKnotsS eps (s0 :: ss) = .ok out ∧
      List.Forall₂ (Spec.UnifiedSurf eps (kf s0.knotsU 0) (kLast s0.knotsU) (kf s0.knotsV 0) (kLast s0.knotsV) WU WV) (s0 :: ss) out ∧
      (∀ x, (∀ s ∈ s0 :: ss, (s.knotsU.map (rescale (kf s0.knotsU 0) (kLast s0.knotsU) s.knotsU)).count x ≤ WU.count x) ∧
        ∃ s ∈ s0 :: ss, (s.knotsU.map (rescale (kf s0.knotsU 0) (kLast s0.knotsU) s.knotsU)).count x = WU.count x) ∧
      ∀ x, (∀ s ∈ s0 :: ss, (s.knotsV.map (rescale (kf s0.knotsV 0) (kLast s0.knotsV) s.knotsV)).count x ≤ WV.count x) ∧
        ∃ s ∈ s0 :: ss, (s.knotsV.map (rescale (kf s0.knotsV 0) (kLast s0.knotsV) s.knotsV)).count x = WV.count x := by
  obtain ⟨hp0, hq0, hc0⟩ := hcl s0 List.mem_cons_self
  have h0 := hc0.skc
  obtain ⟨hltU, hneU, -⟩ := h0.ltU
  obtain ⟨hltV, hneV, -⟩ := h0.ltV
  have idU := rescale_self hltU
  have idV := rescale_self hltV
  set a := kf s0.knotsU 0 with ha
  set b := kLast s0.knotsU with hb
  set c := kf s0.knotsV 0 with hc
  set d := kLast s0.knotsV with hd
  set LU := (s0 :: ss).flatMap fun s => s.knotsU.map (rescale a b s.knotsU) with hLU
  set LV := (s0 :: ss).flatMap fun s => s.knotsV.map (rescale c d s.knotsV) with hLV
  have hUm : ∀ s ∈ s0 :: ss, ∀ x ∈ (s.rescaled a b c d).knotsU, x ∈ LU := by
    intro s hs x hx
    rw [hLU, List.mem_flatMap]
    exact ⟨s, hs, hx⟩
  have hVm : ∀ s ∈ s0 :: ss, ∀ x ∈ (s.rescaled a b c d).knotsV, x ∈ LV := by
    intro s hs x hx
    rw [hLV, List.mem_flatMap]
    exact ⟨s, hs, hx⟩
  have id0 : s0.rescaled a b c d = s0 := by
    unfold SurfInfo.rescaled
    rw [idU, idV]
  have hU0 : ∀ x ∈ s0.knotsU, x ∈ LU := by
    intro x hx; apply hUm s0 List.mem_cons_self; rw [id0]; exact hx
  have hV0 : ∀ x ∈ s0.knotsV, x ∈ LV := by
    intro x hx; apply hVm s0 List.mem_cons_self; rw [id0]; exact hx
  have kU0 := h0.u _ (gr_mem h0.pos)
  obtain ⟨kmU0, ekU, hDU⟩ := unflatPairs_desc heps kU0.wf.ne kU0.wf.sorted (fun x hx y hy hxy => hsepU x (hU0 x hx) y (hU0 y hy) hxy)
  obtain ⟨kmV0, ekV, hDV⟩ := unflatPairs_desc heps h0.v.wf.ne h0.v.wf.sorted (fun x hx y hy hxy => hsepV x (hV0 x hx) y (hV0 y hy) hxy)
  obtain ⟨kmU, kmV, s', e, d1, d2, h', hDU', hDV', hUL', hVL', hS, m1, m2, m3, m4, m5, m6⟩ := unifyAbsorbS_spec heps hsepU hsepV ss kmU0 kmV0 s0 hp0 hq0 h0
    hDU hDV hU0 hV0 (by
      intro s hs
      obtain ⟨g1, g2, g3⟩ := hcl s (List.mem_cons_of_mem _ hs)
      exact ⟨g1, g2, ⟨_, _, _, _, g3.skc⟩, hUm s (List.mem_cons_of_mem _ hs), hVm s (List.mem_cons_of_mem _ hs)⟩)
  have happ : ∀ s ∈ ss, ∃ s1, unifyApplyS eps kmU kmV (s.rescaled a b c d) = .ok s1 ∧
      Spec.UnifiedSurf eps a b c d s'.knotsU s'.knotsV s s1 := by
    intro s hs
    obtain ⟨g1, g2, g3⟩ := hcl s (List.mem_cons_of_mem _ hs)
    have hr := g3.skc.rescaled hltU hltV
    obtain ⟨s1, e1, t1, t2, t3, t4, t5, t6⟩ := unifyApplyS_spec heps hsepU hsepV (s := s.rescaled a b c d) h' (g1.trans d1.symm) (g2.trans d2.symm)
      hDU' hDV' hUL' hVL' hr (hUm s (List.mem_cons_of_mem _ hs)) (hVm s (List.mem_cons_of_mem _ hs)) (m3 s hs) (m4 s hs)
    refine ⟨s1, e1, ?_⟩
    have := SKC.unified heps g3.skc hltU hltV t5 t1 t2 t6
    rwa [t3, t4] at this
  choose! f hf1 hf2 using happ
  refine ⟨s' :: ss.map f, s'.knotsU, s'.knotsV, ?_, ?_, ?_, ?_⟩
  · have hmap : (ss.map (SurfInfo.rescaled a b c d)).mapM (unifyApplyS eps kmU kmV) = .ok (ss.map f) := by
      rw [List.mapM_map]
      exact mapM_ok _ hf1
    have l1 := List.length_pos_iff.mpr hneU
    have l2 := List.length_pos_iff.mpr hneV
    unfold unifyKnotsS
    simp only
    rw [usub_ok (by omega), R_bind_ok, rd_kf (by omega), R_bind_ok, rd_kf (by omega), R_bind_ok, usub_ok (by omega), R_bind_ok, rd_kf (by omega),
      R_bind_ok, rd_kf (by omega), R_bind_ok, ekU, R_bind_ok, ekV, R_bind_ok]
    rw [show kf s0.knotsU (s0.knotsU.length - 1) = b from rfl, show kf s0.knotsV (s0.knotsV.length - 1) = d from rfl, ← ha, ← hc, e, R_bind_ok]
    simp only
    rw [hmap, R_bind_ok]
    rfl
  · refine List.Forall₂.cons ?_ ?_
    · exact SKC.unified heps h0 hltU hltV h' (d1.trans hp0.symm) (d2.trans hq0.symm) (by rw [id0]; exact hS)
    · rw [List.forall₂_map_right_iff, List.forall₂_same]
      exact hf2
  · intro x
    refine ⟨?_, ?_⟩
    · intro s hs
      rcases List.mem_cons.mp hs with rfl | hs
      · rw [idU]; exact m1 x
      · exact m3 s hs x
    · rcases m5 x with h | ⟨s, hs, h⟩
      · exact ⟨s0, List.mem_cons_self, by rw [idU, h]⟩
      · exact ⟨s, List.mem_cons_of_mem _ hs, h.symm⟩
  · intro x
    refine ⟨?_, ?_⟩
    · intro s hs
      rcases List.mem_cons.mp hs with rfl | hs
      · rw [idV]; exact m2 x
      · exact m4 s hs x
    · rcases m6 x with h | ⟨s, hs, h⟩
      · exact ⟨s0, List.mem_cons_self, by rw [idV, h]⟩
      · exact ⟨s, List.mem_cons_of_mem _ hs, h.symm⟩

/-- C85, `info()`: the rows of the poles; the tuple describes the surface. -/
theorem C85_info {eps : K} (heps : 0 < eps) {s : Surface K V} {ku kv : List K} {mu mv : List ℕ} (h : s.ClampedBy eps ku mu kv mv) :
    ∃ t, s.info = .ok t ∧ t.toSurface = s ∧ t.Clamped ∧ ∀ i j, i < s.nPU → j < s.nPV → ∃ r, t.polesUV[j]? = some r ∧ r[i]? = some (s.P i j) := by
  have hw := h.cl.wf
  set rows := (List.range s.nPV).map (fun j => s.colsU.map (projAt K j)) with hrows
  have e : (List.range s.nPV).mapM s.polesU = .ok rows := mapM_ok _ (fun j hj => Surface.polesU_eq hw.sz (List.mem_range.mp hj))
  have hrl : ∀ r ∈ rows, r.length = s.nPU := by
    intro r hr
    obtain ⟨j, -, rfl⟩ := List.mem_map.mp hr
    rw [List.length_map, s.colsU_length]
  have hlen : rows.length = s.nPV := by simp [hrows]
  have hgr : ∀ j, j < s.nPV → gr rows j = s.colsU.map (projAt K j) := by
    intro j hj
    rw [gr_of_lt (by rw [hlen]; exact hj)]
    simp [hrows]
  have hP : ∀ i j, i < s.nPU → j < s.nPV → pf (gr rows j) i = s.P i j := by
    intro i j hi hj
    rw [hgr j hj, pf_lmap, projAt_apply]
    unfold Surface.colsU
    rw [pf_cols hi hj]
  have hflat : rows.flatten = s.poles := by
    apply pf_ext
    · rw [flatten_length hrl, hlen, hw.len]
    · intro k hk
      rw [flatten_length hrl, hlen] at hk
      obtain ⟨i, j, hi, hj, rfl⟩ := idx_cases hk
      rw [pf_flatten hrl hi (by omega), hP i j hi hj]
      rfl
  refine ⟨⟨rows, s.knotsU, s.knotsV, s.degU, s.degV⟩, ?_, ?_, ?_, ?_⟩
  · unfold Surface.info
    rw [hw.nV_eq, R_bind_ok, e]
    rfl
  · unfold SurfInfo.toSurface
    simp only [hflat, h.cl.u00, h.cl.u11, h.cl.v00, h.cl.v11]
  · refine ⟨?_, ?_, h.cl.du, h.cl.dv⟩
    · intro r hr
      refine CurveInfo.clamped_of heps (c := ⟨r, s.knotsU, s.degU⟩) (ks := ku) (ms := mu) ⟨h.kU, hw.u.wf (hrl r hr), ?_, ?_⟩
      · show kf s.knotsU 0 = kf s.knotsU s.degU
        rw [h.cl.u00, h.cl.u01]
      · show kLast s.knotsU = kf s.knotsU r.length
        rw [hrl r hr, h.cl.u11, h.cl.u10]
    · have hl : (rows.map (fun _ => (0 : V))).length = s.nPV := by rw [List.length_map, hlen]
      refine CurveInfo.clamped_of heps (c := ⟨rows.map (fun _ => (0 : V)), s.knotsV, s.degV⟩) (ks := kv) (ms := mv) ⟨h.kV, hw.v.wf hl, ?_, ?_⟩
      · show kf s.knotsV 0 = kf s.knotsV s.degV
        rw [h.cl.v00, h.cl.v01]
      · show kLast s.knotsV = kf s.knotsV (rows.map (fun _ => (0 : V))).length
        rw [hl, h.cl.v11, h.cl.v10]
  · intro i j hi hj
    have h1 : j < rows.length := by omega
    refine ⟨gr rows j, by rw [gr_of_lt h1, List.getElem?_eq_getElem h1], ?_⟩
    rw [pf_getElem? (by rw [hrl _ (gr_mem h1)]; exact hi), hP i j hi hj]

/-- C85, disagreement: nothing checks that the degrees are the same. The knots of a ruled surface and of a surface of degree 2 end up different:
the ruled one cannot have the end knots with multiplicity 3. -/
theorem C85_degrees_witness :
    ∃ out, unifyKnotsS (K := ℚ) (V := ℚ) (1/1000) [⟨[[0, 1], [2, 3]], [0, 0, 1, 1], [0, 0, 1, 1], 1, 1⟩, ⟨[[0, 1, 5], [2, 3, 4]], [0, 0, 0, 1, 1, 1], [0, 0, 1, 1], 2, 1⟩] =
      .ok out ∧ out.map SurfInfo.knotsU = [[0, 0, 1, 1], [0, 0, 0, 1, 1, 1]] ∧ ([[0, 0, 1, 1], [0, 0, 0, 1, 1, 1]] : List (List ℚ)).Pairwise (· ≠ ·) :=
  ⟨[⟨[[0, 1], [2, 3]], [0, 0, 1, 1], [0, 0, 1, 1], 1, 1⟩, ⟨[[0, 1, 5], [2, 3, 4]], [0, 0, 0, 1, 1, 1], [0, 0, 1, 1], 2, 1⟩],
    by decide +kernel, rfl, by decide +kernel⟩

/-- C85, disagreement: knots closer than the tolerance are taken for the same in both passes, and stay different in the results. -/
theorem C85_close_knots_witness :
    ∃ out, unifyKnotsS (K := ℚ) (V := ℚ) (1/1000) [⟨[[0, 1, 4], [2, 3, 5]], [0, 0, 1/2, 1, 1], [0, 0, 1, 1], 1, 1⟩,
        ⟨[[0, 1, 5], [2, 3, 4]], [0, 0, 1/2 + 1/2000, 1, 1], [0, 0, 1, 1], 1, 1⟩] = .ok out ∧
      out.map SurfInfo.knotsU = [[0, 0, 1/2, 1, 1], [0, 0, 1/2 + 1/2000, 1, 1]] :=
  ⟨[⟨[[0, 1, 4], [2, 3, 5]], [0, 0, 1/2, 1, 1], [0, 0, 1, 1], 1, 1⟩,
    ⟨[[0, 1, 5], [2, 3, 4]], [0, 0, 1/2 + 1/2000, 1, 1], [0, 0, 1, 1], 1, 1⟩], by decide +kernel, rfl⟩

/-! ## Instances of the hypotheses -/

namespace Sample

def si1 : SurfInfo ℚ ℚ := ⟨[[0, 1, 3], [2, 5, 4]], [0, 0, 0, 2, 2, 2], [0, 0, 1, 1], 2, 1⟩
def si2 : SurfInfo ℚ ℚ := ⟨[[0, 1, 3, 2], [2, 5, 4, 1], [1, 1, 0, 7]], [0, 0, 0, 1, 4, 4, 4], [2, 2, 3, 6, 6], 2, 1⟩

theorem clampedInfo_of {p : ℕ} {U : List ℚ} {P : List ℚ} (h1 : 1 ≤ p) (h2 : U.length = P.length + p + 1) (h3 : U.Pairwise (· ≤ ·))
    (h4 : kf U 0 < kLast U) (h5 : U.count (kf U 0) = p + 1) (h6 : U.count (kLast U) = p + 1)
    (h7 : ∀ x ∈ U, kf U 0 < x → x < kLast U → U.count x ≤ p) : (⟨P, U, p⟩ : CurveInfo ℚ ℚ).Clamped := by
  refine ⟨h1, h2, h3, h4, h5, h6, ?_⟩
  intro x a b
  by_cases hx : x ∈ U
  · exact h7 x hx a b
  · show U.count x ≤ p
    rw [List.count_eq_zero_of_not_mem hx]; omega

theorem si1_clamped : si1.Clamped := by
  refine ⟨?_, ?_, by decide, by decide⟩
  · intro r hr
    have hl : r.length = 3 := by revert r; decide +kernel
    exact clampedInfo_of (by decide) (by rw [hl]; decide) (by decide +kernel) (by decide +kernel) (by decide +kernel) (by decide +kernel) (by decide +kernel)
  · exact clampedInfo_of (by decide) (by decide) (by decide +kernel) (by decide +kernel) (by decide +kernel) (by decide +kernel) (by decide +kernel)

theorem si2_clamped : si2.Clamped := by
  refine ⟨?_, ?_, by decide, by decide⟩
  · intro r hr
    have hl : r.length = 4 := by revert r; decide +kernel
    exact clampedInfo_of (by decide) (by rw [hl]; decide) (by decide +kernel) (by decide +kernel) (by decide +kernel) (by decide +kernel) (by decide +kernel)
  · exact clampedInfo_of (by decide) (by decide) (by decide +kernel) (by decide +kernel) (by decide +kernel) (by decide +kernel) (by decide +kernel)

end Sample

/-- Two surfaces on different intervals, with different knots in both directions. -/
example : ∃ t1 t2, unifyKnotsS (1/10) [Sample.si1, Sample.si2] = .ok [t1, t2] ∧ t1.knotsU = t2.knotsU ∧ t1.knotsV = t2.knotsV ∧
    ∃ pt, Sample.si2.toSurface.value (1/10) 0 2 4 1 0 = .ok pt ∧ t2.toSurface.value (1/10) 0 1 (1/2) 1 0 = .ok ((2 : ℚ) • pt) := by
  obtain ⟨out, WU, WV, e, h, -, -⟩ := C85_unify_surfaces (eps := 1/10) (by norm_num) (s0 := Sample.si1) (ss := [Sample.si2]) (p := 2) (q := 1)
    (by
      intro s hs
      simp only [List.mem_cons, List.not_mem_nil, or_false] at hs
      rcases hs with rfl | rfl
      · exact ⟨rfl, rfl, Sample.si1_clamped⟩
      · exact ⟨rfl, rfl, Sample.si2_clamped⟩) (by unfold SepL; decide +kernel) (by unfold SepL; decide +kernel)
  match out, h with
  | [t1, t2], .cons h1 (.cons h2 .nil) =>
    refine ⟨t1, t2, e, by rw [h1.knotsU, h2.knotsU], by rw [h1.knotsV, h2.knotsV], ?_⟩
    obtain ⟨pt, e1, e2⟩ := h2.value (1/2) (1/2) (by norm_num) (by norm_num) (by norm_num) (by norm_num) 0 0 1 0
    refine ⟨pt, ?_, ?_⟩
    · rw [← e1]; congr 1 <;> decide +kernel
    · rw [show ((2 : ℚ) • pt) = (((Sample.si2.toSurface.v1 - Sample.si2.toSurface.v0) / (kLast Sample.si1.knotsV - kf Sample.si1.knotsV 0)) ^ 0 •
        ((Sample.si2.toSurface.u1 - Sample.si2.toSurface.u0) / (kLast Sample.si1.knotsU - kf Sample.si1.knotsU 0)) ^ 1 • pt) by
          rw [pow_zero, one_smul]; congr 1; decide +kernel, ← e2]
      congr 1 <;> decide +kernel

example : ∃ t, Sample.s.info = .ok t ∧ t.toSurface = Sample.s ∧ t.Clamped := by
  obtain ⟨t, e, h1, h2, -⟩ := C85_info (eps := 1/10) (by norm_num) Sample.s_clampedBy
  exact ⟨t, e, h1, h2⟩

end Gbs
