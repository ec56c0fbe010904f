import Verif.Lemmas.SurfSame
import Verif.Props.Join
import Verif.Props.Trim

/-! # C84: the junction of two surfaces, and the splitting of a surface -/

namespace Gbs

set_option linter.unusedSectionVars false

variable {K : Type} [Field K] [LinearOrder K] [IsStrictOrderedRing K]
variable {V : Type} [AddCommGroup V] [Module K V]

theorem Surface.colsU_len (s : Surface K V) : s.colsU.length = s.nPU := cols_length _ _ _

/-- The junction of two surfaces with the same degrees and the same knots along V. -/
theorem joined_surf {eps : K} (heps : 0 < eps) {a b : Surface K V} (ha : a.Cl) (hb : b.Cl) (hdu : b.degU = a.degU) (hp : 1 ≤ a.degU)
    (hdv : b.degV = a.degV) (hkv : b.knotsV = a.knotsV) (hmem : (a.knotsU.length + b.knotsU.length) * a.knotsV.length < 2 ^ 64) :
    ∃ S U J, joinRows a.poles b.poles a.nPU b.nPU a.nPV = .ok S ∧ joinKnots a.knotsU b.knotsU b.degU = .ok U ∧
      Surface.mk? eps S U a.knotsV a.degU a.degV = .ok J ∧ J.Cl ∧ J.degU = a.degU ∧ J.degV = a.degV ∧ J.knotsV = a.knotsV ∧
      J.u0 = a.u0 ∧ J.u1 = a.u1 + (b.u1 - b.u0) ∧ J.v0 = a.v0 ∧ J.v1 = a.v1 ∧
      (∀ u v du, a.u0 ≤ u → u < a.u1 ∨ u = a.u1 ∧ du = 0 → a.v0 ≤ v → v ≤ a.v1 → ∀ (junk junk' : K) (dv : ℕ),
        ∃ pt, a.value eps junk u v du dv = .ok pt ∧ J.value eps junk' u v du dv = .ok pt) ∧
      (∀ u v, b.u0 ≤ u → u ≤ b.u1 → a.v0 ≤ v → v ≤ a.v1 →
        ((∀ j, j < a.nPV → b.P 0 j = a.P (a.nPU - 1) j) ∨ ∃ k ∈ b.knotsU, b.u0 < k ∧ k < b.u1 ∧ k ≤ u) → ∀ (junk junk' : K) (du dv : ℕ),
        ∃ pt, b.value eps junk u v du dv = .ok pt ∧ J.value eps junk' (a.u1 + (u - b.u0)) v du dv = .ok pt) := by
  have hnv : b.nPV = a.nPV := by unfold Surface.nPV; rw [hkv, hdv]
  have lu := ha.wf.u.len
  have lv := ha.wf.v.len
  have lub := hb.wf.u.len
  have n1 := ha.wf.posU
  have n2 := hb.wf.posU
  have n3 := ha.wf.posV
  have bv0 : b.v0 = a.v0 := by rw [← hb.v00, ← ha.v00, hkv]
  have bv1 : b.v1 = a.v1 := by rw [← hb.v11, ← ha.v11, hkv]
  obtain ⟨S, eS, hS, hS1, hS2⟩ := joinRows_spec ha.wf.len (by rw [← hnv]; exact hb.wf.len) n1 n2
  set n := a.nPU + b.nPU - 1 with hn
  set Q2 := b.colsU.set 0 (pf a.colsU (a.nPU - 1)) with hQ2
  have la := a.colsU_len
  have lb := b.colsU_len
  set P := cols n a.nPV (fun i j => pf S (i + n * j)) with hP
  have colA : ∀ i j, i < a.nPU → j < a.nPV → pf a.colsU i j = pf a.poles (i + a.nPU * j) := fun i j hi hj => by
    unfold Surface.colsU; rw [pf_cols hi hj]; rfl
  have colB : ∀ i j, i < b.nPU → j < a.nPV → pf b.colsU i j = pf b.poles (i + b.nPU * j) := fun i j hi hj => by
    unfold Surface.colsU; rw [pf_cols hi (by rw [hnv]; exact hj)]; rfl
  have colA0 : ∀ i j, a.nPV ≤ j → pf a.colsU i j = 0 := fun i j hj => by
    unfold Surface.colsU; rw [pf_cols_out hj]
  have colB0 : ∀ i j, a.nPV ≤ j → pf b.colsU i j = 0 := fun i j hj => by
    unfold Surface.colsU; rw [pf_cols_out (by rw [hnv]; exact hj)]
  have hP1 : ∀ i, i < a.colsU.length → pf P i = pf a.colsU i := by
    intro i hi
    rw [la] at hi
    funext j
    rcases Nat.lt_or_ge j a.nPV with hj | hj
    · rw [hP, pf_cols (by omega) hj, colA i j hi hj]
      exact hS1 i j hi hj
    · rw [hP, pf_cols_out hj, colA0 i j hj]
  have hP2 : ∀ i, i < Q2.length → pf P (i + (a.colsU.length - 1)) = pf Q2 i := by
    intro i hi
    rw [hQ2, List.length_set, lb] at hi
    rw [la, hQ2, pf_set _ (by omega)]
    by_cases h0 : i = 0
    · rw [if_pos h0, h0, Nat.zero_add]
      exact hP1 _ (by omega)
    · rw [if_neg h0]
      funext j
      rcases Nat.lt_or_ge j a.nPV with hj | hj
      · rw [hP, pf_cols (by omega) hj, colB i j hi hj]
        exact hS2 i j (by omega) hi hj
      · rw [hP, pf_cols_out hj, colB0 i j hj]
  have hPl : P.length = n := cols_length _ _ _
  obtain ⟨U, c, eU, ec, dc, pc, gc, cc, c0, c1, hA, hB⟩ := join_same heps ha.goodU hb.goodU ha.clU hb.clU hdu.symm hp ha.du (P := P) (Q1 := a.colsU)
    (Q2 := Q2) rfl (by rw [hQ2, List.length_set]; rfl) (by rw [hPl, hQ2, List.length_set, la, lb]; omega) hP1 hP2
  have dc' : c.deg = a.degU := dc
  have ck : c.knots = U := by
    unfold Curve.mk? at ec
    split at ec
    · rw [R_bind_eq_ok] at ec
      obtain ⟨x, -, ec⟩ := ec
      split at ec
      · rw [← Except.ok.inj ec]
      · cases ec
    · cases ec
  have wU : KWf a.degU U n := by
    have := gc.wf.kwf
    rw [dc', ck, pc, hPl] at this
    exact this
  have g0 : kf U a.degU = a.u0 := by rw [← ck, ← dc', ← gc.lo, c0]; rfl
  have g1 : kf U n = a.u1 + (b.u1 - b.u0) := by rw [← ck, ← hPl, ← pc, ← gc.hi, c1]; rfl
  have g2 : kf U 0 = a.u0 := by rw [← ck, cc.lo, c0]; rfl
  have g3 : kLast U = a.u1 + (b.u1 - b.u0) := by rw [← ck, cc.hi, c1]; rfl
  have hU := wU.len
  obtain ⟨J, eJ, hJ, wJ, -⟩ := surf_clamped heps wU ha.wf.v hS ha.du ha.dv (by
      refine lt_of_le_of_lt (Nat.mul_le_mul ?_ ?_) hmem <;> omega)
    (by rw [g0, g2]) (by rw [g1, g3]) (by rw [ha.v00, ha.v01]) (by rw [ha.v10, ha.v11])
  have j1 : J.degU = a.degU := by rw [hJ]
  have j2 : J.degV = a.degV := by rw [hJ]
  have j3 : J.knotsU = U := by rw [hJ]
  have j4 : J.knotsV = a.knotsV := by rw [hJ]
  have j5 : J.u0 = a.u0 := by rw [hJ]; exact g0
  have j6 : J.u1 = a.u1 + (b.u1 - b.u0) := by rw [hJ]; exact g1
  have j7 : J.v0 = a.v0 := by rw [hJ]; exact ha.v01
  have j8 : J.v1 = a.v1 := by rw [hJ]; exact ha.v10
  have j9 : J.poles = S := by rw [hJ]
  have jn : J.nPU = n := by unfold Surface.nPU; rw [j3, j1]; omega
  have jm : J.nPV = a.nPV := by unfold Surface.nPV; rw [j4, j2]
  have hcl : J.Cl := ⟨wJ, by rw [j1]; exact ha.du, by rw [j2]; exact ha.dv, by rw [j3, j5, g2], by rw [j3, j1, j5, g0], by rw [j3, jn, j6, g1],
    by rw [j3, j6, g3], by rw [j4, j7, ha.v00], by rw [j4, j2, j7, ha.v01], by rw [j4, jm, j8, ha.v10], by rw [j4, j8, ha.v11]⟩
  have hPJ : ∀ i j, i < J.nPU → j < a.nPV → J.P i j = pf c.poles i j := by
    intro i j hi hj
    rw [jn] at hi
    unfold Surface.P
    rw [pc, hP, pf_cols hi hj, j9, jn]
  have hlta : a.u0 < a.u1 := ha.goodU.lt
  have hltb : b.u0 < b.u1 := hb.goodU.lt
  refine ⟨S, U, J, eS, eU, eJ, hcl, j1, j2, j4, j5, j6, j7, j8, ?_, ?_⟩
  · intro u v du hu0 hu hv0 hv1 junk junk' dv
    have hu1 : u ≤ a.u1 := by rcases hu with h | h; exacts [h.le, h.1.le]
    have hin := ha.in hu0 hu1 hv0 hv1
    have hin' := hcl.in (u := u) (v := v) (by rw [j5]; exact hu0) (by rw [j6]; linarith) (by rw [j7]; exact hv0) (by rw [j8]; exact hv1)
    obtain ⟨pt, q1, q2⟩ := Surface.transferU heps ha.wf wJ ha.du ha.dv j1 j2 j4 (c' := c) (by rw [dc', j1]) (by rw [ck, j3]) (by rw [pc, hPl, jn])
      (by rw [c0, j5]; rfl) (by rw [c1, j6]; rfl) hPJ hin hin' (g := (1 : K)) (du := du) (by
        rcases hu with h | ⟨rfl, rfl⟩
        · obtain ⟨pt, a1, a2⟩ := hA u hu0 h 0 0 du
          exact ⟨pt, a1, by rw [one_smul]; exact a2⟩
        · obtain ⟨pt, a1, a2⟩ := hB b.u0 le_rfl hltb.le 0 0 0
          have hg : ({ b.curveU with poles := Q2 } : Curve K (ℕ → V)).Good :=
            ⟨hb.goodU.wf.kwf.wf (by rw [hQ2, List.length_set]; rfl), hb.goodU.lo, by
              show b.u1 = kf b.knotsU Q2.length; rw [hQ2, List.length_set]; exact hb.goodU.hi⟩
          have h3 := (Curve.clamped_ends heps hg ⟨hb.clU.lo, hb.clU.hi⟩ (by show b.degU ≤ _; exact hb.du) 0).1
          have h4 := (Curve.clamped_ends heps ha.goodU ha.clU ha.du 0).2
          refine ⟨_, h4, ?_⟩
          change ({ b.curveU with poles := Q2 } : Curve K (ℕ → V)).value eps 0 b.u0 0 = .ok (pf Q2 0) at h3
          rw [h3] at a1
          rw [one_smul]
          change c.value eps 0 (a.u1 + (b.u0 - b.u0)) 0 = _ at a2
          rw [sub_self, add_zero, ← Except.ok.inj a1, hQ2, pf_set _ (by omega), if_pos rfl] at a2
          rw [a2, show a.curveU.poles.length = a.nPU from la]
          rfl) junk junk' dv
    exact ⟨pt, q1, by rw [one_smul] at q2; exact q2⟩
  · intro u v hu0 hu1 hv0 hv1 hor junk junk' du dv
    have hin := hb.in (u := u) (v := v) hu0 hu1 (by rw [bv0]; exact hv0) (by rw [bv1]; exact hv1)
    have hin' := hcl.in (u := a.u1 + (u - b.u0)) (v := v) (by rw [j5]; linarith) (by rw [j6]; linarith) (by rw [j7]; exact hv0) (by rw [j8]; exact hv1)
    obtain ⟨pt, q1, q2⟩ := Surface.transferU heps hb.wf wJ hb.du hb.dv (by rw [j1, hdu]) (by rw [j2, hdv]) (by rw [j4, hkv]) (c' := c)
      (by rw [dc', j1]) (by rw [ck, j3]) (by rw [pc, hPl, jn])
      (by rw [c0, j5]; rfl) (by rw [c1, j6]; rfl) (by intro i j hi hj; exact hPJ i j hi (by omega)) hin hin' (g := (1 : K)) (du := du) (by
        obtain ⟨pt, a1, a2⟩ := hB u hu0 hu1 0 0 du
        refine ⟨pt, ?_, by rw [one_smul]; exact a2⟩
        rcases hor with h | ⟨k, k1, k2, k3, k4⟩
        · have : Q2 = b.colsU := by
            apply pf_ext (by rw [hQ2, List.length_set])
            intro i hi
            rw [hQ2, pf_set _ (by omega)]
            split
            · rename_i h0
              subst h0
              funext j
              rcases Nat.lt_or_ge j a.nPV with hj | hj
              · rw [colA _ j (by omega) hj, colB _ j n2 hj]; exact (h j hj).symm
              · rw [colA0 _ j hj, colB0 _ j hj]
            · rfl
          rw [this] at a1
          exact a1
        · rw [← a1]
          exact (Curve.set_first heps hb.goodU hb.clU hb.du _ hu1 k1 k4 k2 k3 0 0 du).symm) junk junk' dv
    exact ⟨pt, q1, by rw [one_smul] at q2; exact q2⟩

/-- Raising the degree to at most twelve does not multiply the knots by more than thirteen. -/
theorem raised_length {eps : K} {p p' : ℕ} {U U' ku : List K} {mu : List ℕ} {t : ℕ} (h : KnotsBy eps p U ku mu)
    (h' : KnotsBy eps p' U' ku (mu.map (· + t))) (ht : t ≤ 12) : U'.length ≤ 13 * U.length := by
  have e1 := h.length
  have e2 := h'.length
  have e3 := h.le_length
  rw [sum_map_add] at e2
  have : t * mu.length ≤ 12 * U.length := Nat.mul_le_mul ht e3
  omega

/-- What `join` returns. -/
theorem joinSurfaces_spec {eps : K} (heps : 0 < eps) {s1 s2 : Surface K V} {ku1 ku2 kv1 kv2 : List K} {mu1 mu2 mv1 mv2 : List ℕ}
    (h1 : s1.ClampedBy eps ku1 mu1 kv1 mv1) (h2 : s2.ClampedBy eps ku2 mu2 kv2 mv2) (hd1 : s1.degU ≤ 12) (hd2 : s2.degU ≤ 12)
    (hdv : s2.degV = s1.degV) (hkv : s2.knotsV = s1.knotsV) (hmem : 13 * (s1.knotsU.length + s2.knotsU.length) * s1.knotsV.length < 2 ^ 64) :
    ∃ a b J, Spec.SameSurf eps s1 a ∧ Spec.SameSurf eps s2 b ∧ joinSurfaces eps s1 s2 = .ok J ∧ J.Cl ∧
      a.ClampedBy eps ku1 (mu1.map (· + (s2.degU - s1.degU))) kv1 mv1 ∧ b.ClampedBy eps ku2 (mu2.map (· + (a.degU - s2.degU))) kv2 mv2 ∧
      a.degV = s1.degV ∧ b.degV = s1.degV ∧ a.knotsV = s1.knotsV ∧ b.knotsV = s1.knotsV ∧
      J.degU = max s1.degU s2.degU ∧ J.degV = s1.degV ∧ J.knotsV = s1.knotsV ∧
      J.u0 = s1.u0 ∧ J.u1 = s1.u1 + (s2.u1 - s2.u0) ∧ J.v0 = s1.v0 ∧ J.v1 = s1.v1 ∧
      (∀ u v du, s1.u0 ≤ u → u < s1.u1 ∨ u = s1.u1 ∧ du = 0 → s1.v0 ≤ v → v ≤ s1.v1 → ∀ (junk junk' : K) (dv : ℕ),
        ∃ pt, s1.value eps junk u v du dv = .ok pt ∧ J.value eps junk' u v du dv = .ok pt) ∧
      (∀ u v, s2.u0 ≤ u → u ≤ s2.u1 → s1.v0 ≤ v → v ≤ s1.v1 →
        ((∀ j, j < a.nPV → b.P 0 j = a.P (a.nPU - 1) j) ∨ ∃ k ∈ b.knotsU, s2.u0 < k ∧ k < s2.u1 ∧ k ≤ u) → ∀ (junk junk' : K) (du dv : ℕ),
        ∃ pt, s2.value eps junk u v du dv = .ok pt ∧ J.value eps junk' (s1.u1 + (u - s2.u0)) v du dv = .ok pt) := by
  obtain ⟨a, ea, ca, da, dva, kva, sa⟩ := h1.raiseU heps (q := s2.degU) hd2
  obtain ⟨b, eb, cb, db, dvb, kvb, sb⟩ := h2.raiseU heps (q := a.degU) (by omega)
  have la := raised_length h1.kU ca.kU (by omega)
  have lb := raised_length h2.kU cb.kU (by omega)
  have hm1 : s1.knotsU.length * s1.knotsV.length < 2 ^ 64 := lt_of_le_of_lt (Nat.mul_le_mul (by omega) le_rfl) hmem
  have hm2 : s2.knotsU.length * s2.knotsV.length < 2 ^ 64 := by
    rw [hkv]; exact lt_of_le_of_lt (Nat.mul_le_mul (by omega) le_rfl) hmem
  obtain ⟨S, U, J, eS, eU, eJ, cJ, j1, j2, j3, j4, j5, j6, j7, hA, hB⟩ := joined_surf heps ca.cl cb.cl (by omega) ca.kU.deg (by omega)
    (by rw [kvb, kva, hkv]) (by rw [kva]; exact lt_of_le_of_lt (Nat.mul_le_mul (by omega) le_rfl) hmem)
  have hlt : a.u0 < a.u1 := ca.cl.goodU.lt
  refine ⟨a, b, J, sa, sb, ?_, cJ, ca, cb, dva, by rw [dvb, hdv], kva, by rw [kvb, hkv], by rw [j1, da], by rw [j2, dva], by rw [j3, kva],
    by rw [j4, sa.u0], by rw [j5, sa.u1, sb.u1, sb.u0], by rw [j6, sa.v0], by rw [j7, sa.v1], ?_, ?_⟩
  · unfold joinSurfaces
    rw [h1.cl.copied heps hm1, R_bind_ok, h2.cl.copied heps hm2, R_bind_ok, ea, R_bind_ok, eb, R_bind_ok, kvb, hkv, kva, checkSameKnots_ok heps.le,
      R_bind_ok, ca.cl.wf.nU_eq, R_bind_ok, ca.cl.wf.nV_eq, R_bind_ok, cb.cl.wf.nU_eq, R_bind_ok, eS, R_bind_ok, eU, R_bind_ok, ← kva, eJ]
  · intro u v du hu0 hu hv0 hv1 junk junk' dv
    obtain ⟨pt, e1, e2⟩ := sa.value u v hu0 (by rcases hu with h | h; exacts [h.le, h.1.le]) hv0 hv1 junk junk du dv
    obtain ⟨pt', e3, e4⟩ := hA u v du (by rw [sa.u0]; exact hu0) (by rw [sa.u1]; exact hu) (by rw [sa.v0]; exact hv0) (by rw [sa.v1]; exact hv1)
      junk junk' dv
    rw [e2] at e3
    rw [← Except.ok.inj e3] at e4
    exact ⟨pt, e1, e4⟩
  · intro u v hu0 hu1 hv0 hv1 hor junk junk' du dv
    have bv0 : s2.v0 = s1.v0 := by rw [← h2.cl.v00, ← h1.cl.v00, hkv]
    have bv1 : s2.v1 = s1.v1 := by rw [← h2.cl.v11, ← h1.cl.v11, hkv]
    obtain ⟨pt, e1, e2⟩ := sb.value u v hu0 hu1 (by rw [bv0]; exact hv0) (by rw [bv1]; exact hv1) junk junk du dv
    obtain ⟨pt', e3, e4⟩ := hB u v (by rw [sb.u0]; exact hu0) (by rw [sb.u1]; exact hu1) (by rw [sa.v0]; exact hv0) (by rw [sa.v1]; exact hv1)
      (by rw [sb.u0, sb.u1]; exact hor) junk junk' du dv
    rw [e2] at e3
    rw [← Except.ok.inj e3, sa.u1, sb.u0] at e4
    exact ⟨pt, e1, e4⟩

/-- The knots of a clamped surface along U are the distinct ones. -/
theorem KnotsBy.mem_iff {eps : K} {p : ℕ} {U ks : List K} {ms : List ℕ} (h : KnotsBy eps p U ks ms) (x : K) : x ∈ U ↔ x ∈ ks := by
  obtain ⟨hl, hU⟩ := flatKnots_eq_flatF h.flat
  have h0 := h.flat
  unfold flatKnots at h0
  rw [if_neg (not_not.mpr hl)] at h0
  rw [← Except.ok.inj h0, List.mem_flatMap]
  constructor
  · rintro ⟨km, hkm, hx⟩
    rw [(List.mem_replicate.mp hx).2]
    exact (List.of_mem_zip hkm).1
  · intro hx
    obtain ⟨i, hi, rfl⟩ := List.getElem_of_mem hx
    refine ⟨(ks[i], ms[i]), ?_, List.mem_replicate.mpr ⟨?_, rfl⟩⟩
    · rw [List.mem_iff_getElem]
      exact ⟨i, by simp; omega, by simp⟩
    · have h1 := h.first
      have h2 := h.last
      have h3 := h.mid i ms[i]
      simp only
      rcases Nat.eq_zero_or_pos i with rfl | hi0
      · rw [List.head?_eq_getElem?, List.getElem?_eq_getElem (by omega)] at h1
        have := Option.some.inj h1
        omega
      · rcases Nat.lt_or_ge (i + 1) ms.length with hi1 | hi1
        · have := (h3 hi0 hi1 (List.getElem?_eq_getElem (by omega))).1
          omega
        · rw [List.getLast?_eq_getElem?, List.getElem?_eq_getElem (by omega)] at h2
          have := Option.some.inj h2
          simp only [show ms.length - 1 = i by omega] at this
          omega

/-- C84, `join`: two clamped surfaces with the same knots along V whose facing borders have the same points. The junction has the first surface
on its domain and the second one, shifted, after it, with all the partial derivatives; at the junction itself the derivatives along U are those of
the second surface. -/
theorem C84_join {eps : K} (heps : 0 < eps) {s1 s2 : Surface K V} {ku1 ku2 kv1 kv2 : List K} {mu1 mu2 mv1 mv2 : List ℕ}
    (h1 : s1.ClampedBy eps ku1 mu1 kv1 mv1) (h2 : s2.ClampedBy eps ku2 mu2 kv2 mv2) (hd1 : s1.degU ≤ 12) (hd2 : s2.degU ≤ 12)
    (hdv : s2.degV = s1.degV) (hkv : s2.knotsV = s1.knotsV) (hmem : 13 * (s1.knotsU.length + s2.knotsU.length) * s1.knotsV.length < 2 ^ 64)
    (hborder : ∀ v, s1.v0 ≤ v → v ≤ s1.v1 → ∃ pt, s1.value eps 0 s1.u1 v 0 0 = .ok pt ∧ s2.value eps 0 s2.u0 v 0 0 = .ok pt) :
    ∃ J, joinSurfaces eps s1 s2 = .ok J ∧ J.Cl ∧ J.degU = max s1.degU s2.degU ∧ J.degV = s1.degV ∧ J.knotsV = s1.knotsV ∧
      J.u0 = s1.u0 ∧ J.u1 = s1.u1 + (s2.u1 - s2.u0) ∧ J.v0 = s1.v0 ∧ J.v1 = s1.v1 ∧
      (∀ u v du, s1.u0 ≤ u → u < s1.u1 ∨ u = s1.u1 ∧ du = 0 → s1.v0 ≤ v → v ≤ s1.v1 → ∀ (junk junk' : K) (dv : ℕ),
        ∃ pt, s1.value eps junk u v du dv = .ok pt ∧ J.value eps junk' u v du dv = .ok pt) ∧
      (∀ u v, s2.u0 ≤ u → u ≤ s2.u1 → s1.v0 ≤ v → v ≤ s1.v1 → ∀ (junk junk' : K) (du dv : ℕ),
        ∃ pt, s2.value eps junk u v du dv = .ok pt ∧ J.value eps junk' (s1.u1 + (u - s2.u0)) v du dv = .ok pt) := by
  obtain ⟨a, b, J, sa, sb, eJ, cJ, ca, cb, d1, d2, k1, k2, j1, j2, j3, j4, j5, j6, j7, hA, hB⟩ := joinSurfaces_spec heps h1 h2 hd1 hd2 hdv hkv hmem
  refine ⟨J, eJ, cJ, j1, j2, j3, j4, j5, j6, j7, hA, fun u v hu0 hu1 hv0 hv1 => hB u v hu0 hu1 hv0 hv1 (Or.inl ?_)⟩
  have bv0 : s2.v0 = s1.v0 := by rw [← h2.cl.v00, ← h1.cl.v00, hkv]
  have bv1 : s2.v1 = s1.v1 := by rw [← h2.cl.v11, ← h1.cl.v11, hkv]
  have hlta : s1.u0 < s1.u1 := h1.cl.goodU.lt
  have hltb : s2.u0 < s2.u1 := h2.cl.goodU.lt
  have hmv : a.nPV = b.nPV := by unfold Surface.nPV; rw [k1, k2, d1, d2]
  have hcl : (a.colCurve (a.nPU - 1)).Clamped := CurveInfo.clamped_of heps (ks := kv1) (ms := mv1) ⟨ca.kV, ca.cl.colGood _⟩
  have heq := CurveInfo.eq_of_points heps (c := a.colCurve (a.nPU - 1)) (c' := b.colCurve 0) hcl ca.cl.dv
    (by show b.degV = a.degV; rw [d1, d2]) (by show b.knotsV = a.knotsV; rw [k1, k2]) (cb.cl.colGood 0) (by
      intro v g0 g1 junk junk'
      have g0' : a.v0 ≤ v := by rw [← ca.cl.v00]; exact g0
      have g1' : v ≤ a.v1 := by rw [← ca.cl.v11]; exact g1
      have g0'' := g0'
      have g1'' := g1'
      rw [sa.v0] at g0''
      rw [sa.v1] at g1''
      rw [← (ca.cl.border heps g0' g1' 0 junk' 0).2, ← (cb.cl.border heps (by rw [sb.v0, bv0]; exact g0'') (by rw [sb.v1, bv1]; exact g1'') 0 junk 0).1]
      obtain ⟨pt, q1, q2⟩ := hborder v g0'' g1''
      obtain ⟨p1, r1, r2⟩ := sa.value s1.u1 v hlta.le le_rfl g0'' g1'' 0 0 0 0
      obtain ⟨p2, r3, r4⟩ := sb.value s2.u0 v le_rfl hltb.le (by rw [bv0]; exact g0'') (by rw [bv1]; exact g1'') 0 0 0 0
      rw [sa.u1, sb.u0, r2, r4, ← Except.ok.inj (q1.symm.trans r1), ← Except.ok.inj (q2.symm.trans r3)])
  intro j hj
  have h3 := congrArg (fun c : CurveInfo K V => pf c.poles j) heq
  simp only [Surface.colCurve] at h3
  rw [pf_map_range _ hj, pf_map_range _ (by omega)] at h3
  exact h3

/-- C84 when the borders differ: the first surface is kept up to its border, which becomes the border of the second one, and the second surface is
kept from its first interior knot along U on. -/
theorem C84_join_gap {eps : K} (heps : 0 < eps) {s1 s2 : Surface K V} {ku1 ku2 kv1 kv2 : List K} {mu1 mu2 mv1 mv2 : List ℕ}
    (h1 : s1.ClampedBy eps ku1 mu1 kv1 mv1) (h2 : s2.ClampedBy eps ku2 mu2 kv2 mv2) (hd1 : s1.degU ≤ 12) (hd2 : s2.degU ≤ 12)
    (hdv : s2.degV = s1.degV) (hkv : s2.knotsV = s1.knotsV) (hmem : 13 * (s1.knotsU.length + s2.knotsU.length) * s1.knotsV.length < 2 ^ 64) :
    ∃ J, joinSurfaces eps s1 s2 = .ok J ∧ J.Cl ∧ J.degU = max s1.degU s2.degU ∧ J.degV = s1.degV ∧ J.knotsV = s1.knotsV ∧
      J.u0 = s1.u0 ∧ J.u1 = s1.u1 + (s2.u1 - s2.u0) ∧ J.v0 = s1.v0 ∧ J.v1 = s1.v1 ∧
      (∀ u v du, s1.u0 ≤ u → u < s1.u1 ∨ u = s1.u1 ∧ du = 0 → s1.v0 ≤ v → v ≤ s1.v1 → ∀ (junk junk' : K) (dv : ℕ),
        ∃ pt, s1.value eps junk u v du dv = .ok pt ∧ J.value eps junk' u v du dv = .ok pt) ∧
      (∀ u v k, k ∈ s2.knotsU → s2.u0 < k → k < s2.u1 → k ≤ u → u ≤ s2.u1 → s1.v0 ≤ v → v ≤ s1.v1 → ∀ (junk junk' : K) (du dv : ℕ),
        ∃ pt, s2.value eps junk u v du dv = .ok pt ∧ J.value eps junk' (s1.u1 + (u - s2.u0)) v du dv = .ok pt) := by
  obtain ⟨a, b, J, sa, sb, eJ, cJ, ca, cb, d1, d2, k1, k2, j1, j2, j3, j4, j5, j6, j7, hA, hB⟩ := joinSurfaces_spec heps h1 h2 hd1 hd2 hdv hkv hmem
  refine ⟨J, eJ, cJ, j1, j2, j3, j4, j5, j6, j7, hA, fun u v k hk hk0 hk1 hu hu1 hv0 hv1 => hB u v (by linarith) hu1 hv0 hv1 (Or.inr ⟨k, ?_, hk0, hk1, hu⟩)⟩
  rw [cb.kU.mem_iff]
  exact (h2.kU.mem_iff k).mp hk

/-- A loop over a range stops at the first error. -/
theorem forN_err_in {S : Type} {body : ℕ → S → R S} {e : Err} : ∀ (n a : ℕ) (s : S),
    (∀ i s, a ≤ i → i < a + n → (∃ s', body i s = .ok s') ∨ body i s = .error e) →
    (∃ k, a ≤ k ∧ k < a + n ∧ ∀ s, body k s = .error e) → forN body n a s = .error e
  | 0, a, s, _, ⟨k, h1, h2, _⟩ => by omega
  | n + 1, a, s, hb, ⟨k, h1, h2, h3⟩ => by
    rw [forN]
    rcases hb a s le_rfl (by omega) with ⟨s', h⟩ | h
    · rw [h, R_bind_ok]
      refine forN_err_in n (a + 1) s' (fun i s h4 h5 => hb i s (by omega) (by omega)) ⟨k, ?_, by omega, h3⟩
      rcases Nat.eq_or_lt_of_le h1 with rfl | h4
      · rw [h3 s] at h; cases h
      · exact h4
    · rw [h, R_bind_error]

/-- C84, the refusals: knots along V of different numbers, or farther apart than the tolerance somewhere. -/
theorem C84_join_refuses {eps : K} (heps : 0 < eps) {s1 s2 : Surface K V} {ku1 ku2 kv1 kv2 : List K} {mu1 mu2 mv1 mv2 : List ℕ}
    (h1 : s1.ClampedBy eps ku1 mu1 kv1 mv1) (h2 : s2.ClampedBy eps ku2 mu2 kv2 mv2) (hd1 : s1.degU ≤ 12) (hd2 : s2.degU ≤ 12)
    (hm1 : s1.knotsU.length * s1.knotsV.length < 2 ^ 64) (hm2 : s2.knotsU.length * s2.knotsV.length < 2 ^ 64)
    (hk : s2.knotsV.length ≠ s1.knotsV.length ∨ ∃ (i : ℕ) (a b : K), s1.knotsV[i]? = some a ∧ s2.knotsV[i]? = some b ∧ eps < |b - a|) :
    joinSurfaces eps s1 s2 = .error (.thrown .runtime) := by
  obtain ⟨a, ea, ca, da, dva, kva, sa⟩ := h1.raiseU heps (q := s2.degU) hd2
  obtain ⟨b, eb, cb, db, dvb, kvb, sb⟩ := h2.raiseU heps (q := a.degU) (by omega)
  have hc : checkSameKnots eps s1.knotsV s2.knotsV = .error (.thrown .runtime) := by
    unfold checkSameKnots
    by_cases hl : s2.knotsV.length ≠ s1.knotsV.length
    · rw [if_pos hl]
    · rw [if_neg hl]
      rcases hk with hk | ⟨i, x, y, hx, hy, hxy⟩
      · exact absurd hk hl
      rw [not_not] at hl
      have hi : i < s2.knotsV.length := by
        by_contra hc
        rw [List.getElem?_eq_none (by omega)] at hy
        cases hy
      refine forN_err_in _ _ _ ?_ ⟨i, Nat.zero_le _, by omega, ?_⟩
      · intro k _ _ hk
        rw [rd_kf (show k < s2.knotsV.length by omega), R_bind_ok, rd_kf (show k < s1.knotsV.length by omega), R_bind_ok]
        split
        · exact Or.inr rfl
        · exact Or.inl ⟨(), rfl⟩
      · intro _
        rw [rd_eq_ok.mpr hy, R_bind_ok, rd_eq_ok.mpr hx, R_bind_ok, if_pos hxy]
  unfold joinSurfaces
  rw [h1.cl.copied heps hm1, R_bind_ok, h2.cl.copied heps hm2, R_bind_ok, ea, R_bind_ok, eb, R_bind_ok, kvb, kva, hc, R_bind_error]

/-- A curve of equal poles is constant. -/
theorem colCurve_const {eps : K} (heps : 0 < eps) {s : Surface K V} (h : s.Cl) {i : ℕ} {x : V} {v junk : K} (hv0 : s.v0 ≤ v) (hv1 : v ≤ s.v1)
    (hx : ∀ j, j < s.nPV → s.P i j = x) : (s.colCurve i).toCurve.value eps junk v 0 = .ok x := by
  have hl : (s.colCurve i).poles.length = s.nPV := by simp [Surface.colCurve]
  have hw : Wf s.degV s.knotsV (s.colCurve i).poles := h.wf.v.wf hl
  obtain ⟨b, eb, hin, b1, b2, e⟩ := Curve.value_span heps (h.colGood i) (Or.inl h.dv) (u := v) (by show kf s.knotsV 0 ≤ v; rw [h.v00]; exact hv0)
    (by show v ≤ kLast s.knotsV; rw [h.v11]; exact hv1)
  rw [e junk 0]
  congr 1
  have hs : findSpan s.nPV s.degV v s.knotsV = .ok b := by rw [← hl]; exact eb
  obtain ⟨b', hb', hb1', hb2', hlt, -⟩ := findSpan_kwf h.wf.v v
  obtain rfl : b' = b := by rw [hs] at hb'; exact (Except.ok.inj hb').symm
  rw [show (s.colCurve i).toCurve.poles.length = s.nPV from hl, show (s.colCurve i).toCurve.deg = s.degV from rfl,
    show (s.colCurve i).toCurve.knots = s.knotsV from rfl, spanDer_congr (P' := fun _ => x) (by
      intro j hj
      show pf ((List.range s.nPV).map (fun j => s.P i j)) j = x
      rw [pf_map_range _ hj, hx j hj])]
  rw [spanDer_const (kf_mono h.wf.v.sorted) hlt hb1' hb2', if_pos rfl]

/-- C84, disagreement: the surfaces are joined in homogeneous coordinates and, unlike those of curves, the weights are not brought to the same
scale. Two rational surfaces with the same points on the facing borders but other weights there do not make a surface with the second one. -/
theorem C84_join_weights_witness :
    ∃ (s1 s2 J : Surface ℚ (ℚ × ℚ)), joinSurfaces (1/1000) s1 s2 = .ok J ∧ s2.u0 = 0 ∧ s1.u1 = 1 ∧
      (∀ v junk, 0 ≤ v → v ≤ 1 → s1.ratValue (1/1000) junk 1 v = .ok 1 ∧ s2.ratValue (1/1000) junk 0 v = .ok 1) ∧
      s2.ratValue (1/1000) 0 (1/2) 0 = .ok (3/2) ∧ J.ratValue (1/1000) 0 (3/2) 0 = .ok (5/3) := by
  refine ⟨⟨1, 1, [(0, 1), (1, 1), (0, 1), (1, 1)], [0, 0, 1, 1], [0, 0, 1, 1], 0, 1, 0, 1⟩,
    ⟨1, 1, [(2, 2), (4, 2), (2, 2), (4, 2)], [0, 0, 1, 1], [0, 0, 1, 1], 0, 1, 0, 1⟩,
    ⟨1, 1, [(0, 1), (1, 1), (4, 2), (0, 1), (1, 1), (4, 2)], [0, 0, 1, 2, 2], [0, 0, 1, 1], 0, 2, 0, 1⟩,
    by decide +kernel, rfl, rfl, ?_, by decide +kernel, by decide +kernel⟩
  intro v junk hv0 hv1
  have h1 : Surface.Cl (⟨1, 1, [(0, 1), (1, 1), (0, 1), (1, 1)], [0, 0, 1, 1], [0, 0, 1, 1], 0, 1, 0, 1⟩ : Surface ℚ (ℚ × ℚ)) := by
    refine ⟨⟨⟨by decide +kernel, by decide, by decide, by decide +kernel, by decide +kernel⟩,
      ⟨by decide +kernel, by decide, by decide, by decide +kernel, by decide +kernel⟩, by decide⟩, by decide, by decide, ?_, ?_, ?_, ?_, ?_, ?_, ?_, ?_⟩ <;>
      decide +kernel
  have h2 : Surface.Cl (⟨1, 1, [(2, 2), (4, 2), (2, 2), (4, 2)], [0, 0, 1, 1], [0, 0, 1, 1], 0, 1, 0, 1⟩ : Surface ℚ (ℚ × ℚ)) := by
    refine ⟨⟨⟨by decide +kernel, by decide, by decide, by decide +kernel, by decide +kernel⟩,
      ⟨by decide +kernel, by decide, by decide, by decide +kernel, by decide +kernel⟩, by decide⟩, by decide, by decide, ?_, ?_, ?_, ?_, ?_, ?_, ?_, ?_⟩ <;>
      decide +kernel
  have e1 := (h1.border (eps := 1/1000) (by norm_num) hv0 hv1 junk junk 0).2
  have e2 := (h2.border (eps := 1/1000) (by norm_num) hv0 hv1 junk junk 0).1
  rw [colCurve_const (by norm_num) h1 (x := (1, 1)) hv0 hv1 (by decide +kernel)] at e1
  rw [colCurve_const (by norm_num) h2 (x := (2, 2)) hv0 hv1 (by decide +kernel)] at e2
  constructor
  · rw [C55_value (by norm_num) h1.wf (h1.big _) (h1.in (by norm_num) (by norm_num) hv0 hv1) junk junk e1 (by norm_num)]
    norm_num
  · rw [C55_value (by norm_num) h2.wf (h2.big _) (h2.in (by norm_num) (by norm_num) hv0 hv1) junk junk e2 (by norm_num)]
    norm_num

/-- C84, `split_u`: inside the domain, each part is the surface on its part of the domain. -/
theorem C84_split_u {eps : K} (heps : 0 < eps) {s : Surface K V} (h : s.Cl) (hdeg : 1 ≤ s.degU) {u : K} (h0 : s.u0 + eps ≤ u) (h1 : u + eps ≤ s.u1)
    (hm : s.knotsU.count u ≤ s.degU) :
    ∃ a b, splitU eps s u = .ok (a, b) ∧ a.u0 = s.u0 ∧ a.u1 = u ∧ b.u0 = u ∧ b.u1 = s.u1 ∧ a.v0 = s.v0 ∧ a.v1 = s.v1 ∧ b.v0 = s.v0 ∧ b.v1 = s.v1 ∧
      (∀ x v du, s.u0 ≤ x → x ≤ u → s.v0 ≤ v → v ≤ s.v1 → (x < u ∨ du + s.knotsU.count u ≤ s.degU) → ∀ (junk junk' : K) (dv : ℕ),
        ∃ pt, s.value eps junk x v du dv = .ok pt ∧ a.value eps junk' x v du dv = .ok pt) ∧
      (∀ x v, u ≤ x → x ≤ s.u1 → s.v0 ≤ v → v ≤ s.v1 → ∀ (junk junk' : K) (du dv : ℕ),
        ∃ pt, s.value eps junk x v du dv = .ok pt ∧ b.value eps junk' x v du dv = .ok pt) := by
  obtain ⟨a, ea, -, -, -, -, a1, a2, a3, a4, -, -, -, -, va⟩ := C56_trimU_partial heps h hdeg (u1 := s.u0) (u2 := u) le_rfl (by linarith) (by linarith)
    (fun hc => by linarith)
  obtain ⟨b, eb, -, -, -, -, b1, b2, b3, b4, -, -, -, -, vb⟩ := C56_trimU_partial heps h hdeg (u1 := u) (u2 := s.u1) (by linarith) (by linarith) le_rfl
    (fun _ => hm)
  refine ⟨a, b, ?_, a1, a2, b1, b2, a3, a4, b3, b4, ?_, ?_⟩
  · unfold splitU
    rw [ea, R_bind_ok, eb, R_bind_ok]
    rfl
  · intro x v du hx0 hx1 hv0 hv1 hd junk junk' dv
    exact va x v hx0 hx1 hv0 hv1 du (by rcases hd with hd | hd; exacts [Or.inl hd, Or.inr (Or.inl hd)]) junk junk' dv
  · intro x v hx0 hx1 hv0 hv1 junk junk' du dv
    exact vb x v hx0 hx1 hv0 hv1 du (Or.inr (Or.inr (by linarith))) junk junk' dv

/-- C84, `split_v`. -/
theorem C84_split_v {eps : K} (heps : 0 < eps) {s : Surface K V} (h : s.Cl) (hdeg : 1 ≤ s.degV) {v : K} (h0 : s.v0 + eps ≤ v) (h1 : v + eps ≤ s.v1)
    (hm : s.knotsV.count v ≤ s.degV) :
    ∃ a b, splitV eps s v = .ok (a, b) ∧ a.u0 = s.u0 ∧ a.u1 = s.u1 ∧ b.u0 = s.u0 ∧ b.u1 = s.u1 ∧ a.v1 = v ∧ b.v0 = v ∧
      (∀ u x dv, s.u0 ≤ u → u ≤ s.u1 → s.v0 ≤ x → x ≤ v → (x < v ∨ dv + s.knotsV.count v ≤ s.degV) → ∀ (junk junk' : K) (du : ℕ),
        ∃ pt, s.value eps junk u x du dv = .ok pt ∧ a.value eps junk' u x du dv = .ok pt) ∧
      (∀ u x, s.u0 ≤ u → u ≤ s.u1 → v ≤ x → x ≤ s.v1 → ∀ (junk junk' : K) (du dv : ℕ),
        ∃ pt, s.value eps junk u x du dv = .ok pt ∧ b.value eps junk' u x du dv = .ok pt) := by
  obtain ⟨a, ea, -, -, -, -, a1, a2, -, a4, va⟩ := C56_trimV_partial heps h hdeg (v1 := s.v0) (v2 := v) le_rfl (by linarith) (by linarith)
    (fun hc => by linarith)
  obtain ⟨b, eb, -, -, -, -, b1, b2, b3, -, vb⟩ := C56_trimV_partial heps h hdeg (v1 := v) (v2 := s.v1) (by linarith) (by linarith) le_rfl
    (fun _ => hm)
  refine ⟨a, b, ?_, a1, a2, b1, b2, a4 h1, b3 h0, ?_, ?_⟩
  · unfold splitV
    rw [ea, R_bind_ok, eb, R_bind_ok]
    rfl
  · intro u x dv hu0 hu1 hx0 hx1 hd junk junk' du
    exact va u x hu0 hu1 hx0 hx1 dv (by rcases hd with hd | hd; exacts [Or.inl hd, Or.inr (Or.inl hd)]) junk junk' du
  · intro u x hu0 hu1 hx0 hx1 junk junk' du dv
    exact vb u x hu0 hu1 hx0 hx1 dv (Or.inr (Or.inr (by linarith))) junk junk' du

/-- C84, disagreement: a parameter at a bound passes the assertion of `split_u` and of `split_v`; one of the parts then has no poles along one
direction or a single one, and its evaluation divides by the width of an empty span. -/
theorem C84_split_bound_witness :
    (∃ a b, splitU (1/1000) Sample.s 0 = .ok (a, b) ∧ a.poles = [] ∧ a.value (1/1000) 0 0 0 = .error .divZero) ∧
    (∃ a b, splitV (1/1000) Sample.s 3 = .ok (a, b) ∧ b.knotsV = [3, 3, 3] ∧ b.value (1/1000) 0 0 3 = .error .divZero) := by
  refine ⟨⟨⟨2, 1, [], [0, 0, 0], [0, 0, 1, 3, 3], 0, 0, 0, 3⟩,
    ⟨2, 1, [0, 1, 3, 2, 5, 4, 1, 1, 2, 0, 7, 3], [0, 0, 0, 1, 2, 2, 2], [0, 0, 1, 3, 3], 0, 2, 0, 3⟩, by decide +kernel, rfl, by decide +kernel⟩,
    ⟨⟨2, 1, [0, 1, 3, 2, 5, 4, 1, 1, 2, 0, 7, 3], [0, 0, 0, 1, 2, 2, 2], [0, 0, 1, 3, 3], 0, 2, 0, 3⟩,
    ⟨2, 1, [2, 0, 7, 3], [0, 0, 0, 1, 2, 2, 2], [3, 3, 3], 0, 2, 3, 3⟩, by decide +kernel, rfl, by decide +kernel⟩⟩

/-! ## Instances of the hypotheses -/

theorem Sample.s_clampedBy : Sample.s.ClampedBy (1/10) [0, 1, 2] [3, 1, 3] [0, 1, 3] [2, 1, 2] := ⟨Sample.s_cl, Sample.s_knotsU, Sample.s_knotsV⟩

/-- A ruled surface which starts on the border `u = 2` of the surface `Sample.s`. -/
def Sample.sJoin : Surface ℚ ℚ := ⟨1, 1, [2, 9, 1, 8, 3, -1], [5, 5, 7, 7], [0, 0, 1, 3, 3], 5, 7, 0, 3⟩

theorem Sample.sJoin_clampedBy : Sample.sJoin.ClampedBy (1/10) [5, 7] [2, 2] [0, 1, 3] [2, 1, 2] := by
  refine ⟨⟨⟨⟨by decide +kernel, by decide, by decide, by decide +kernel, by decide +kernel⟩,
      ⟨by decide +kernel, by decide, by decide, by decide +kernel, by decide +kernel⟩, by decide⟩, by decide, by decide, ?_, ?_, ?_, ?_, ?_, ?_, ?_, ?_⟩,
      ⟨by decide, by decide +kernel, by decide +kernel, by decide, by decide, ?_⟩, Sample.s_knotsV⟩ <;> (try decide +kernel)
  intro i x h1 h2 hx
  simp at h2
  omega

/-- Degrees 2 and 1 along U, shifted knots. -/
example : ∃ J, joinSurfaces (1/10) Sample.s Sample.sJoin = .ok J ∧ J.degU = 2 ∧ J.u1 = 4 ∧
    ∃ pt, Sample.sJoin.value (1/10) 0 6 2 0 0 = .ok pt ∧ J.value (1/10) 0 3 2 0 0 = .ok pt := by
  obtain ⟨J, e, -, d, -, -, -, b, -, -, -, h⟩ := C84_join (by norm_num) Sample.s_clampedBy Sample.sJoin_clampedBy (by decide) (by decide) rfl rfl
    (by decide) (by
      intro v h0 h1
      have hc : Sample.s.colCurve (Sample.s.nPU - 1) = Sample.sJoin.colCurve 0 := by
        simp only [Surface.colCurve]
        congr 1
      have e1 := (Sample.s_cl.border (eps := 1/10) (by norm_num) h0 h1 0 0 0).2
      have e2 := (Sample.sJoin_clampedBy.cl.border (eps := 1/10) (by norm_num) h0 h1 0 0 0).1
      rw [hc] at e1
      obtain ⟨_, -, -, -, -, e⟩ := Curve.value_span (by norm_num : (0 : ℚ) < 1/10) (Sample.sJoin_clampedBy.cl.colGood 0) (Or.inl (by decide)) (u := v)
        h0 h1
      rw [e 0 0] at e1 e2
      exact ⟨_, e1, e2⟩)
  refine ⟨J, e, by rw [d]; decide, by rw [b]; decide +kernel, ?_⟩
  obtain ⟨pt, e1, e2⟩ := h 6 2 (by decide +kernel) (by decide +kernel) (by decide +kernel) (by decide +kernel) 0 0 0 0
  refine ⟨pt, e1, ?_⟩
  rw [← e2]
  congr 1
  decide +kernel

/-- A surface joined to itself: the borders differ. -/
example : ∃ J, joinSurfaces (1/10) Sample.s Sample.s = .ok J ∧ J.u1 = 4 ∧
    ∃ pt, Sample.s.value (1/10) 0 1 2 1 0 = .ok pt ∧ J.value (1/10) 0 3 2 1 0 = .ok pt := by
  obtain ⟨J, e, -, d, -, -, -, b, -, -, -, h⟩ := C84_join_gap (by norm_num) Sample.s_clampedBy Sample.s_clampedBy (by decide) (by decide) rfl rfl
    (by decide)
  refine ⟨J, e, by rw [b]; decide +kernel, ?_⟩
  obtain ⟨pt, e1, e2⟩ := h 1 2 1 (by decide +kernel) (by decide +kernel) (by decide +kernel) le_rfl (by decide +kernel) (by decide +kernel)
    (by decide +kernel) 0 0 1 0
  refine ⟨pt, e1, ?_⟩
  rw [← e2]
  congr 1
  decide +kernel

/-- The ruled surface with other knots along V. -/
def Sample.sOther : Surface ℚ ℚ := ⟨1, 1, [2, 9, 1, 8, 3, -1], [5, 5, 7, 7], [0, 0, 2, 3, 3], 5, 7, 0, 3⟩

theorem Sample.sOther_clampedBy : Sample.sOther.ClampedBy (1/10) [5, 7] [2, 2] [0, 2, 3] [2, 1, 2] := by
  refine ⟨⟨⟨⟨by decide +kernel, by decide, by decide, by decide +kernel, by decide +kernel⟩,
      ⟨by decide +kernel, by decide, by decide, by decide +kernel, by decide +kernel⟩, by decide⟩, by decide, by decide, ?_, ?_, ?_, ?_, ?_, ?_, ?_, ?_⟩,
      ⟨by decide, by decide +kernel, by decide +kernel, by decide, by decide, ?_⟩,
      ⟨by decide, by decide +kernel, by decide +kernel, by decide, by decide, ?_⟩⟩ <;> (try decide +kernel)
  · intro i x h1 h2 hx
    simp at h2
    omega
  · intro i x h1 h2 hx
    have : i = 1 := by simp at h2; omega
    subst this
    have hd : Sample.sOther.degV = 1 := rfl
    simp at hx
    omega

example : joinSurfaces (1/10) Sample.s Sample.sOther = .error (.thrown .runtime) :=
  C84_join_refuses (by norm_num) Sample.s_clampedBy Sample.sOther_clampedBy (by decide) (by decide) (by decide) (by decide)
    (Or.inr ⟨2, 1, 2, by decide +kernel, by decide +kernel, by decide +kernel⟩)

example : ∃ a b, splitU (1/1000) Sample.s 1 = .ok (a, b) ∧ a.u1 = 1 ∧ b.u0 = 1 := by
  obtain ⟨a, b, e, -, h1, h2, -⟩ := C84_split_u (eps := (1/1000 : ℚ)) (by norm_num) Sample.s_cl (by decide) (u := 1) (by decide +kernel)
    (by decide +kernel) (by decide +kernel)
  exact ⟨a, b, e, h1, h2⟩

example : ∃ a b, splitV (1/1000) Sample.s (1/2) = .ok (a, b) ∧ a.v1 = 1/2 ∧ b.v0 = 1/2 := by
  obtain ⟨a, b, e, -, -, -, -, h1, h2, -⟩ := C84_split_v (eps := (1/1000 : ℚ)) (by norm_num) Sample.s_cl (by decide) (v := 1/2) (by decide +kernel)
    (by decide +kernel) (by decide +kernel)
  exact ⟨a, b, e, h1, h2⟩

end Gbs
