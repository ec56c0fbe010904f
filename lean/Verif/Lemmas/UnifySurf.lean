import Verif.Model.UnifySurf
import Verif.Lemmas.SurfSame
import Verif.Props.SurfaceMisc
import Verif.Props.SurfaceKnots

/-! # Unification of surfaces, row by row -/

namespace Gbs

set_option linter.unusedSectionVars false

variable {K : Type} [Field K] [LinearOrder K] [IsStrictOrderedRing K]
variable {V W : Type} [AddCommGroup V] [Module K V] [AddCommGroup W] [Module K W]

theorem unifyInto_map (f : V →ₗ[K] W) (eps : K) (p : ℕ) : ∀ (kmIn km : List (K × ℕ)) (U : List K) (P : List V),
    unifyInto eps p kmIn km U (P.map f) = rmap (fun t => (t.1, t.2.1, t.2.2.map f)) (unifyInto eps p kmIn km U P) := by
  intro kmIn
  induction kmIn with
  | nil => intro km U P; rfl
  | cons q rest ih =>
    intro km U P
    obtain ⟨u, m⟩ := q
    unfold unifyInto
    simp only
    split
    · split
      · exact bind_rmap (insertKnots_map f u p _ U P) fun r => ih _ _ _
      · exact ih _ _ _
    · exact bind_rmap (insertKnots_map f u p _ U P) fun r => ih _ _ _

/-- The knots do not depend on the poles. -/
theorem unifyInto_same {eps : K} {p : ℕ} {kmIn km km1 km2 : List (K × ℕ)} {U U1 U2 : List K} {P Q P1 Q1 : List V} (hl : P.length = Q.length)
    (e1 : unifyInto eps p kmIn km U P = .ok (km1, U1, P1)) (e2 : unifyInto eps p kmIn km U Q = .ok (km2, U2, Q1)) : km2 = km1 ∧ U2 = U1 := by
  have h1 := unifyInto_map (0 : V →ₗ[K] V) eps p kmIn km U P
  have h2 := unifyInto_map (0 : V →ₗ[K] V) eps p kmIn km U Q
  have he : P.map (0 : V →ₗ[K] V) = Q.map (0 : V →ₗ[K] V) := by
    apply List.ext_getElem
    · simpa using hl
    · intro i a b; simp
  rw [← he, h1, e1, e2] at h2
  have := Except.ok.inj h2
  simp only [Prod.mk.injEq] at this
  exact ⟨this.1.symm, this.2.1.symm⟩

theorem KC.of_len {p : ℕ} {a b : K} {U : List K} {P : List V} {Q : List W} (h : KC p a b U P) (hl : Q.length = P.length) : KC p a b U Q :=
  ⟨h.wf.kwf.wf hl, h.d0, by rw [hl]; exact h.d1, h.mem, h.ca, h.cb, h.ci⟩

theorem KC.len {p : ℕ} {a b : K} {U : List K} {P : List V} (h : KC p a b U P) : P.length = U.length - p - 1 := by
  have := h.wf.len; omega

/-- Row `j` of a table. -/
def gr {α : Type} (M : List (List α)) (j : ℕ) : List α := M.getD j []

theorem gr_of_lt {α : Type} {M : List (List α)} {j : ℕ} (h : j < M.length) : gr M j = M[j] := by
  unfold gr; rw [List.getD_eq_getElem?_getD, List.getElem?_eq_getElem h]; rfl

theorem gr_mem {α : Type} {M : List (List α)} {j : ℕ} (h : j < M.length) : gr M j ∈ M := by
  rw [gr_of_lt h]; exact List.getElem_mem h

theorem pf_flatten {M : List (List V)} {n : ℕ} (h : ∀ r ∈ M, r.length = n) {i j : ℕ} (hi : i < n) (hj : j < M.length) :
    pf M.flatten (i + n * j) = pf (gr M j) i := by
  induction M generalizing j with
  | nil => simp at hj
  | cons r M ih =>
    have hr := h r List.mem_cons_self
    rw [List.flatten_cons]
    cases j with
    | zero =>
      rw [Nat.mul_zero, Nat.add_zero, pf_append_left (by omega)]
      rfl
    | succ j =>
      rw [pf_append_right (by rw [hr, Nat.mul_succ]; omega), hr, show i + n * (j + 1) - n = i + n * j by rw [Nat.mul_succ]; omega,
        ih (fun r hr => h r (List.mem_cons_of_mem _ hr)) (by simpa using hj)]
      rfl

theorem flatten_length {M : List (List V)} {n : ℕ} (h : ∀ r ∈ M, r.length = n) : M.flatten.length = n * M.length := by
  rw [List.length_flatten, List.map_congr_left (g := fun _ => n) h]
  simp [Nat.mul_comm]

/-- One direction of `unify_knots`. -/
theorem unifyRows_spec {eps : K} (heps : 0 < eps) {p : ℕ} {a b : K} {L : List K} (hL : SepL eps L) {km kmIn : List (K × ℕ)} {U Wk : List K}
    {M : List (List V)} (hM : M ≠ []) (h : ∀ r ∈ M, KC p a b U r) (hD : Desc km U) (hUL : ∀ x ∈ U, x ∈ L) {Q : List W} (hW : KC p a b Wk Q)
    (hDW : Desc kmIn Wk) (hWL : ∀ x ∈ Wk, x ∈ L) :
    ∃ km' U' M', unifyRows eps p kmIn km U M = .ok (km', U', M') ∧ M'.length = M.length ∧ (∀ r ∈ M', KC p a b U' r) ∧ Desc km' U' ∧
      (∀ x ∈ U', x ∈ L) ∧ (∀ j, j < M.length → SameMap p U (gr M j) p U' (gr M' j)) ∧ ∀ x, U'.count x = max (U.count x) (Wk.count x) := by
  have hpos : 0 < M.length := List.length_pos_iff.mpr hM
  have hWV : KC p a b Wk (List.replicate Q.length (0 : V)) := hW.of_len (by simp)
  obtain ⟨km', U', P0, e0, k0, hD', hUL', -, hc⟩ := unifyInto_desc heps hL (h _ (gr_mem hpos)) hD hUL hWV hDW hWL
  have hrow : ∀ r ∈ M, ∃ r', unifyInto eps p kmIn km U r = .ok (km', U', r') ∧ KC p a b U' r' ∧ SameMap p U r p U' r' := by
    intro r hr
    obtain ⟨km2, U2, P2, e2, k2, -, -, s2, -⟩ := unifyInto_desc heps hL (h r hr) hD hUL hWV hDW hWL
    obtain ⟨rfl, rfl⟩ := unifyInto_same (by rw [(h r hr).len, (h _ (gr_mem hpos)).len]) e0 e2
    exact ⟨P2, e2, k2, s2⟩
  choose! g hg1 hg2 hg3 using hrow
  have hm := mapM_ok (g := fun r => (km', U', g r)) M hg1
  refine ⟨km', U', M.map g, ?_, by simp, ?_, hD', hUL', ?_, hc⟩
  · unfold unifyRows
    rw [hm, R_bind_ok, List.getLast?_map, List.getLast?_eq_some_getLast hM]
    simp [List.map_map, Function.comp_def]
  · intro r hr
    obtain ⟨r0, h0, rfl⟩ := List.mem_map.mp hr
    exact hg2 r0 h0
  · intro j hj
    rw [show gr (M.map g) j = g (gr M j) by rw [gr_of_lt (by simpa using hj), gr_of_lt hj]; simp]
    exact hg3 _ (gr_mem hj)

/-- The surface of a tuple; its bounds are the end knots. -/
def SurfInfo.toSurface (s : SurfInfo K V) : Surface K V :=
  { degU := s.degU, degV := s.degV, poles := s.polesUV.flatten, knotsU := s.knotsU, knotsV := s.knotsV,
    u0 := kf s.knotsU 0, u1 := kLast s.knotsU, v0 := kf s.knotsV 0, v1 := kLast s.knotsV }

/-- A clamped table of poles on `[a, b]`, `[c, d]`. -/
structure SKC (a b c d : K) (s : SurfInfo K V) : Prop where
  u : ∀ r ∈ s.polesUV, KC s.degU a b s.knotsU r
  v : KC s.degV c d s.knotsV (s.polesUV.map fun _ => (0 : V))
  du : s.degU ≤ stackMaxDegree
  dv : s.degV ≤ stackMaxDegree

theorem SKC.ne {a b c d : K} {s : SurfInfo K V} (h : SKC a b c d s) : s.polesUV ≠ [] := by
  have h1 := h.v.wf.min
  intro he
  rw [he] at h1
  simp at h1

theorem SKC.pos {a b c d : K} {s : SurfInfo K V} (h : SKC a b c d s) : 0 < s.polesUV.length := List.length_pos_iff.mpr h.ne

theorem SKC.row {a b c d : K} {s : SurfInfo K V} (h : SKC a b c d s) : ∀ r ∈ s.polesUV, r.length = s.toSurface.nPU := by
  intro r hr
  rw [(h.u r hr).len]
  unfold Surface.nPU SurfInfo.toSurface
  simp only
  omega

theorem SKC.rows {a b c d : K} {s : SurfInfo K V} (h : SKC a b c d s) : s.polesUV.length = s.toSurface.nPV := by
  have := h.v.len
  rw [List.length_map] at this
  rw [this]
  unfold Surface.nPV SurfInfo.toSurface
  simp only
  omega

theorem SKC.P {a b c d : K} {s : SurfInfo K V} (h : SKC a b c d s) {i j : ℕ} (hi : i < s.toSurface.nPU) (hj : j < s.toSurface.nPV) :
    s.toSurface.P i j = pf (gr s.polesUV j) i := by
  unfold Surface.P
  exact pf_flatten h.row hi (by rw [h.rows]; exact hj)

theorem SKC.cl {a b c d : K} {s : SurfInfo K V} (h : SKC a b c d s) : s.toSurface.Cl ∧ s.toSurface.u0 = a ∧ s.toSurface.u1 = b ∧
    s.toSurface.v0 = c ∧ s.toSurface.v1 = d := by
  have hr := h.u _ (gr_mem h.pos)
  have hl := h.row _ (gr_mem h.pos)
  have hl' := h.rows
  have wu := hr.wf.kwf
  have wv := h.v.wf.kwf
  rw [hl] at wu
  rw [List.length_map, hl'] at wv
  have c1 : s.toSurface.u0 = a := hr.kf_zero
  have c2 : s.toSurface.u1 = b := hr.kLast
  have c3 : s.toSurface.v0 = c := h.v.kf_zero
  have c4 : s.toSurface.v1 = d := h.v.kLast
  refine ⟨⟨⟨wu, wv, ?_⟩, h.du, h.dv, rfl, ?_, ?_, rfl, rfl, ?_, ?_, rfl⟩, c1, c2, c3, c4⟩
  · show s.polesUV.flatten.length = _
    rw [flatten_length h.row, h.rows]
  · rw [c1]; exact hr.d0
  · rw [c2, ← hl]; exact hr.d1
  · rw [c3]; exact h.v.d0
  · rw [c4, ← hl']
    have := h.v.d1
    rwa [List.length_map] at this

/-- Rows with the same map make the same surface. -/
theorem SKC.sameU {eps : K} (heps : 0 < eps) {a b c d : K} {s s' : SurfInfo K V} (h : SKC a b c d s) (h' : SKC a b c d s') (hk : s'.knotsV = s.knotsV)
    (hd : s'.degV = s.degV) (hS : ∀ j, j < s.polesUV.length → SameMap s.degU s.knotsU (gr s.polesUV j) s'.degU s'.knotsU (gr s'.polesUV j)) :
    Spec.SameSurf eps s.toSurface s'.toSurface := by
  obtain ⟨cl, u0, u1, v0, v1⟩ := h.cl
  obtain ⟨cl', u0', u1', v0', v1'⟩ := h'.cl
  have hnV : s'.toSurface.nPV = s.toSurface.nPV := by unfold Surface.nPV SurfInfo.toSurface; simp only [hk, hd]
  refine ⟨u0'.trans u0.symm, u1'.trans u1.symm, v0'.trans v0.symm, v1'.trans v1.symm, ?_⟩
  intro u v hu0 hu1 hv0 hv1 junk junk' du dv
  refine Surface.value_of_colsU heps cl.wf cl'.wf (cl.big eps) (cl'.big eps) hk hd
    (Q := cols s'.toSurface.nPU s.toSurface.nPV (fun i j => pf (gr s'.polesUV j) i)) (by rw [cols_length]) ?_ ?_ (cl.in hu0 hu1 hv0 hv1)
    (cl'.in (by rw [u0', ← u0]; exact hu0) (by rw [u1', ← u1]; exact hu1) (by rw [v0', ← v0]; exact hv0) (by rw [v1', ← v1]; exact hv1))
    junk junk' du dv
  · intro i j hi hj
    rw [cols_length] at hi
    rw [pf_cols hi hj, h'.P hi (by omega)]
  · refine sameMap_cols (A := gr s.polesUV) cl.wf.posV ?_ ?_ ?_ ?_
    · intro j hj; exact h.row _ (gr_mem (by rw [h.rows]; exact hj))
    · intro j hj; exact h'.row _ (gr_mem (by rw [h'.rows, hnV]; exact hj))
    · intro i j hi hj; exact h.P hi hj
    · intro j hj; exact hS j (by rw [h.rows]; exact hj)

theorem isTranspose_pf {M T : List (List V)} {n m : ℕ} (hn : M.length = n) (hm : ∀ r ∈ M, r.length = m) (h : IsTranspose n m M T) {i j : ℕ}
    (hi : i < n) (hj : j < m) : pf (gr T j) i = pf (gr M i) j := by
  have h1 : i < M.length := by omega
  have h2 : j < T.length := by rw [h.1]; exact hj
  have h3 : j < M[i].length := by rw [hm _ (List.getElem_mem h1)]; exact hj
  have h4 : i < T[j].length := by rw [h.2.1 _ (List.getElem_mem h2)]; exact hi
  rw [gr_of_lt h2, gr_of_lt h1, pf_of_getElem? (List.getElem?_eq_getElem h4), pf_of_getElem? (List.getElem?_eq_getElem h3)]
  exact h.2.2 i j h1 h2 h3 h4

/-- Columns with the same map make the same surface. -/
theorem SKC.sameV {eps : K} (heps : 0 < eps) {a b c d : K} {s s' : SurfInfo K V} (h : SKC a b c d s) (h' : SKC a b c d s') (hk : s'.knotsU = s.knotsU)
    (hd : s'.degU = s.degU) {T T' : List (List V)} (hT : IsTranspose s.toSurface.nPV s.toSurface.nPU s.polesUV T)
    (hT' : IsTranspose s'.toSurface.nPV s.toSurface.nPU s'.polesUV T')
    (hS : ∀ i, i < T.length → SameMap s.degV s.knotsV (gr T i) s'.degV s'.knotsV (gr T' i)) :
    Spec.SameSurf eps s.toSurface s'.toSurface := by
  obtain ⟨cl, u0, u1, v0, v1⟩ := h.cl
  obtain ⟨cl', u0', u1', v0', v1'⟩ := h'.cl
  have hnU : s'.toSurface.nPU = s.toSurface.nPU := by unfold Surface.nPU SurfInfo.toSurface; simp only [hk, hd]
  have hTP : ∀ i j, i < s.toSurface.nPU → j < s.toSurface.nPV → s.toSurface.P i j = pf (gr T i) j := by
    intro i j hi hj
    rw [h.P hi hj, isTranspose_pf h.rows h.row hT hj hi]
  have hTP' : ∀ i j, i < s.toSurface.nPU → j < s'.toSurface.nPV → s'.toSurface.P i j = pf (gr T' i) j := by
    intro i j hi hj
    rw [h'.P (by omega) hj, isTranspose_pf h'.rows (by rw [← hnU]; exact h'.row) hT' hj hi]
  refine ⟨u0'.trans u0.symm, u1'.trans u1.symm, v0'.trans v0.symm, v1'.trans v1.symm, ?_⟩
  intro u v hu0 hu1 hv0 hv1 junk junk' du dv
  refine Surface.value_of_colsV heps cl.wf cl'.wf (cl.big eps) (cl'.big eps) hk hd
    (Q := cols s'.toSurface.nPV s.toSurface.nPU (fun j i => pf (gr T' i) j)) (by rw [cols_length]) ?_ ?_ (cl.in hu0 hu1 hv0 hv1)
    (cl'.in (by rw [u0', ← u0]; exact hu0) (by rw [u1', ← u1]; exact hu1) (by rw [v0', ← v0]; exact hv0) (by rw [v1', ← v1]; exact hv1))
    junk junk' du dv
  · intro i j hi hj
    rw [cols_length] at hj
    rw [pf_cols hj hi, hTP' i j hi hj]
  · refine sameMap_cols (A := gr T) cl.wf.posU ?_ ?_ ?_ ?_
    · intro i hi; exact hT.2.1 _ (gr_mem (by rw [hT.1]; exact hi))
    · intro i hi; exact hT'.2.1 _ (gr_mem (by rw [hT'.1]; exact hi))
    · intro j i hj hi; exact hTP i j hi hj
    · intro i hi; exact hS i (by rw [hT.1]; exact hi)

/-- The knots of another surface are added to one. -/
theorem unifyUV_spec {eps : K} (heps : 0 < eps) {a b c d : K} {LU LV : List K} (hLU : SepL eps LU) (hLV : SepL eps LV)
    {kmU kmV kmInU kmInV : List (K × ℕ)} {s : SurfInfo K V} (h : SKC a b c d s) (hDU : Desc kmU s.knotsU) (hDV : Desc kmV s.knotsV)
    (hUL : ∀ x ∈ s.knotsU, x ∈ LU) (hVL : ∀ x ∈ s.knotsV, x ∈ LV) {WU WV : List K} {QU QV : List W} (hWU : KC s.degU a b WU QU)
    (hWV : KC s.degV c d WV QV) (hDWU : Desc kmInU WU) (hDWV : Desc kmInV WV) (hWUL : ∀ x ∈ WU, x ∈ LU) (hWVL : ∀ x ∈ WV, x ∈ LV) :
    ∃ kmU' kmV' s', unifyUV eps kmInU kmInV kmU kmV s = .ok (kmU', kmV', s') ∧ s'.degU = s.degU ∧ s'.degV = s.degV ∧ SKC a b c d s' ∧
      Desc kmU' s'.knotsU ∧ Desc kmV' s'.knotsV ∧ (∀ x ∈ s'.knotsU, x ∈ LU) ∧ (∀ x ∈ s'.knotsV, x ∈ LV) ∧
      Spec.SameSurf eps s.toSurface s'.toSurface ∧ (∀ x, s'.knotsU.count x = max (s.knotsU.count x) (WU.count x)) ∧
      ∀ x, s'.knotsV.count x = max (s.knotsV.count x) (WV.count x) := by
  let _ : Inhabited V := ⟨0⟩
  obtain ⟨kmU', U', M1, e1, l1, k1, hD1, hL1, hS1, hc1⟩ := unifyRows_spec heps hLU h.ne h.u hDU hUL hWU hDWU hWUL
  have hs1 : SKC a b c d (⟨M1, U', s.knotsV, s.degU, s.degV⟩ : SurfInfo K V) :=
    ⟨k1, h.v.of_len (by simp [l1]), h.du, h.dv⟩
  set s1 : SurfInfo K V := ⟨M1, U', s.knotsV, s.degU, s.degV⟩ with hs1d
  have same1 : Spec.SameSurf eps s.toSurface s1.toSurface := SKC.sameU heps h hs1 rfl rfl hS1
  obtain ⟨T, eT, hT⟩ := C28_transpose_poles (M := M1) (n := s1.toSurface.nPV) (m := s1.toSurface.nPU) hs1.rows (by have := hs1.cl.1.wf.posV; omega) hs1.row
  have hTne : T ≠ [] := by
    apply List.length_pos_iff.mp
    rw [hT.1]; exact hs1.cl.1.wf.posU
  obtain ⟨kmV', V', T', e2, l2, k2, hD2, hL2, hS2, hc2⟩ := unifyRows_spec heps hLV (M := T) hTne (fun r hr => h.v.of_len (by
    rw [hT.2.1 r hr, ← hs1.rows, List.length_map, ← l1])) hDV hVL hWV hDWV hWVL
  have hT'pos : 0 < T'.length := by rw [l2]; exact List.length_pos_iff.mpr hTne
  have hr' : ∀ r ∈ T', r.length = V'.length - s.degV - 1 := fun r hr => (k2 r hr).len
  obtain ⟨M2, eM, hM⟩ := C28_transpose_poles (M := T') (n := s1.toSurface.nPU) (m := V'.length - s.degV - 1) (by rw [l2, hT.1])
    (hs1.cl.1.wf.posU) hr'
  set s2 : SurfInfo K V := ⟨M2, U', V', s.degU, s.degV⟩ with hs2d
  have hs2 : SKC a b c d s2 := by
    refine ⟨?_, ?_, h.du, h.dv⟩
    · intro r hr
      refine (k1 _ (gr_mem hs1.pos)).of_len ?_
      rw [hM.2.1 r hr]
      exact (hs1.row _ (gr_mem hs1.pos)).symm
    · refine (k2 _ (gr_mem hT'pos)).of_len ?_
      rw [List.length_map, hM.1, hr' _ (gr_mem hT'pos)]
  have hn1 : s2.toSurface.nPV = V'.length - s.degV - 1 := by
    rw [← hs2.rows]; exact hM.1
  have hM' := hM.symm (by rw [l2, hT.1]) hr'
  have same2 : Spec.SameSurf eps s1.toSurface s2.toSurface := by
    refine SKC.sameV heps hs1 hs2 rfl rfl hT (T' := T') ?_ hS2
    rw [hn1]
    exact hM'
  refine ⟨kmU', kmV', s2, ?_, rfl, rfl, hs2, hD1, hD2, hL1, hL2, same1.trans same2, hc1, hc2⟩
  unfold unifyUV
  rw [e1, R_bind_ok]
  simp only
  rw [eT, R_bind_ok, e2, R_bind_ok]
  rw [eM, R_bind_ok]
  rfl

/-- The knots of a surface brought to `[a, b]`, `[c, d]`. -/
def SurfInfo.rescaled (a b c d : K) (s : SurfInfo K V) : SurfInfo K V :=
  { s with knotsU := s.knotsU.map (rescale a b s.knotsU), knotsV := s.knotsV.map (rescale c d s.knotsV) }

theorem SKC.rescaled {a b c d a' b' c' d' : K} {s : SurfInfo K V} (h : SKC a' b' c' d' s) (hab : a < b) (hcd : c < d) : SKC a b c d (s.rescaled a b c d) :=
  ⟨fun r hr => (h.u r hr).rescale hab, h.v.rescale hcd, h.du, h.dv⟩

theorem SKC.ltU {a b c d : K} {s : SurfInfo K V} (h : SKC a b c d s) : kf s.knotsU 0 < kLast s.knotsU ∧ s.knotsU ≠ [] ∧ a < b := by
  have := h.u _ (gr_mem h.pos)
  exact ⟨by rw [this.kf_zero, this.kLast]; exact this.lt, this.wf.ne, this.lt⟩

theorem SKC.ltV {a b c d : K} {s : SurfInfo K V} (h : SKC a b c d s) : kf s.knotsV 0 < kLast s.knotsV ∧ s.knotsV ≠ [] ∧ c < d := by
  have := h.v
  exact ⟨by rw [this.kf_zero, this.kLast]; exact this.lt, this.wf.ne, this.lt⟩

/-- The relation between a surface and its unified version. -/
structure Spec.UnifiedSurf (eps a b c d : K) (WU WV : List K) (s s' : SurfInfo K V) : Prop where
  degU : s'.degU = s.degU
  degV : s'.degV = s.degV
  knotsU : s'.knotsU = WU
  knotsV : s'.knotsV = WV
  rows : s'.polesUV.length = WV.length - s.degV - 1
  row : ∀ r ∈ s'.polesUV, r.length = WU.length - s.degU - 1
  cl : s'.toSurface.Cl
  u0 : s'.toSurface.u0 = a
  u1 : s'.toSurface.u1 = b
  v0 : s'.toSurface.v0 = c
  v1 : s'.toSurface.v1 = d
  value : ∀ t w, 0 ≤ t → t ≤ 1 → 0 ≤ w → w ≤ 1 → ∀ (junk junk' : K) (du dv : ℕ), ∃ pt,
    s.toSurface.value eps junk (s.toSurface.u0 + (s.toSurface.u1 - s.toSurface.u0) * t)
      (s.toSurface.v0 + (s.toSurface.v1 - s.toSurface.v0) * w) du dv = .ok pt ∧
    s'.toSurface.value eps junk' (a + (b - a) * t) (c + (d - c) * w) du dv =
      .ok (((s.toSurface.v1 - s.toSurface.v0) / (d - c)) ^ dv • ((s.toSurface.u1 - s.toSurface.u0) / (b - a)) ^ du • pt)

theorem affine_between {x y t : K} (h : x < y) (h0 : 0 ≤ t) (h1 : t ≤ 1) : x ≤ x + (y - x) * t ∧ x + (y - x) * t ≤ y := by
  have r1 : 0 ≤ (y - x) * t := mul_nonneg (by linarith) h0
  have r2 : (y - x) * t ≤ y - x := mul_le_of_le_one_right (by linarith) h1
  exact ⟨by linarith, by linarith⟩

/-- Rescaling then keeping the surface. -/
theorem SKC.unified {eps : K} (heps : 0 < eps) {a b c d a' b' c' d' : K} {s s' : SurfInfo K V} (h : SKC a' b' c' d' s) (hab : a < b) (hcd : c < d)
    (h' : SKC a b c d s') (d1 : s'.degU = s.degU) (d2 : s'.degV = s.degV) (hS : Spec.SameSurf eps (s.rescaled a b c d).toSurface s'.toSurface) :
    Spec.UnifiedSurf eps a b c d s'.knotsU s'.knotsV s s' := by
  obtain ⟨cl, -, -, -, -⟩ := h.cl
  obtain ⟨cl', u0', u1', v0', v1'⟩ := h'.cl
  obtain ⟨clr, ur0, ur1, vr0, vr1⟩ := (h.rescaled hab hcd).cl
  refine ⟨d1, d2, rfl, rfl, ?_, ?_, cl', u0', u1', v0', v1', ?_⟩
  · rw [h'.rows]; unfold Surface.nPV SurfInfo.toSurface; simp only [d2]; omega
  · intro r hr; rw [h'.row r hr]; unfold Surface.nPU SurfInfo.toSurface; simp only [d1]; omega
  · intro t w t0 t1 w0 w1 junk junk' du dv
    obtain ⟨s1, e1, cl1, p1, g1, g2, g3, b1, b2, b3, b4, hv1⟩ := C56_changeUBounds heps cl hab
    obtain ⟨s2, e2, cl2, p2, g4, g5, g6, b5, b6, b7, b8, hv2⟩ := C56_changeVBounds heps cl1 hcd
    have eU := changeBoundsK_eq (a := a) (b := b) h.ltU.1 h.ltU.2.1
    have eV := changeBoundsK_eq (a := c) (b := d) h.ltV.1 h.ltV.2.1
    have ek1 : s1.knotsU = s.knotsU.map (rescale a b s.knotsU) := by
      unfold Surface.changeUBounds at e1
      rw [show s.toSurface.knotsU = s.knotsU from rfl, eU, R_bind_ok] at e1
      rw [← Except.ok.inj e1]
    have ek2 : s2.knotsV = s.knotsV.map (rescale c d s.knotsV) := by
      unfold Surface.changeVBounds at e2
      rw [g3, show s.toSurface.knotsV = s.knotsV from rfl, eV, R_bind_ok] at e2
      rw [← Except.ok.inj e2]
    have hs2 : s2 = (s.rescaled a b c d).toSurface := by
      rcases s2 with ⟨⟩
      unfold SurfInfo.rescaled SurfInfo.toSurface
      simp only at g4 g5 g6 b5 b6 b7 b8 p2 ek2
      simp only [Surface.mk.injEq]
      refine ⟨?_, ?_, ?_, ?_, ?_, ?_, ?_, ?_, ?_⟩
      all_goals first
        | (rw [g4, g1]; rfl)
        | (rw [g5, g2]; rfl)
        | (rw [g6, ek1])
        | (rw [ek2])
        | (rw [p2, p1]; rfl)
        | (rw [b7, b1]; exact ur0.symm)
        | (rw [b8, b2]; exact ur1.symm)
        | (rw [b5]; exact vr0.symm)
        | (rw [b6]; exact vr1.symm)
    have lu : s.toSurface.v0 < s.toSurface.v1 := cl.goodV.lt
    obtain ⟨q1, q2⟩ := affine_between lu w0 w1
    obtain ⟨q3, q4⟩ := affine_between hab t0 t1
    obtain ⟨q5, q6⟩ := affine_between hcd w0 w1
    obtain ⟨pt, x1, x2⟩ := hv1 t _ t0 t1 q1 q2 junk junk du dv
    obtain ⟨pt', y1, y2⟩ := hv2 w (a + (b - a) * t) w0 w1 (by rw [b1]; exact q3) (by rw [b2]; exact q4) junk junk du dv
    rw [b3, b4, x2] at y1
    obtain rfl := Except.ok.inj y1
    obtain ⟨pt', z1, z2⟩ := hS.value (a + (b - a) * t) (c + (d - c) * w) (by rw [ur0]; exact q3) (by rw [ur1]; exact q4) (by rw [vr0]; exact q5)
      (by rw [vr1]; exact q6) junk junk' du dv
    rw [← hs2, y2] at z1
    obtain rfl := Except.ok.inj z1
    rw [b3, b4] at z2
    exact ⟨pt, x1, z2⟩

/-- First pass. -/
theorem unifyAbsorbS_spec {eps : K} (heps : 0 < eps) {p q : ℕ} {a b c d : K} {LU LV : List K} (hLU : SepL eps LU) (hLV : SepL eps LV) :
    ∀ (ss : List (SurfInfo K V)) (kmU kmV : List (K × ℕ)) (s0 : SurfInfo K V), s0.degU = p → s0.degV = q → SKC a b c d s0 → Desc kmU s0.knotsU →
    Desc kmV s0.knotsV → (∀ x ∈ s0.knotsU, x ∈ LU) → (∀ x ∈ s0.knotsV, x ∈ LV) →
    (∀ s ∈ ss, s.degU = p ∧ s.degV = q ∧ (∃ a' b' c' d', SKC a' b' c' d' s) ∧ (∀ x ∈ (s.rescaled a b c d).knotsU, x ∈ LU) ∧
      ∀ x ∈ (s.rescaled a b c d).knotsV, x ∈ LV) →
    ∃ kmU' kmV' s', unifyAbsorbS eps a b c d ss kmU kmV s0 = .ok (ss.map (SurfInfo.rescaled a b c d), kmU', kmV', s') ∧ s'.degU = p ∧ s'.degV = q ∧
      SKC a b c d s' ∧ Desc kmU' s'.knotsU ∧ Desc kmV' s'.knotsV ∧ (∀ x ∈ s'.knotsU, x ∈ LU) ∧ (∀ x ∈ s'.knotsV, x ∈ LV) ∧
      Spec.SameSurf eps s0.toSurface s'.toSurface ∧
      (∀ x, s0.knotsU.count x ≤ s'.knotsU.count x) ∧ (∀ x, s0.knotsV.count x ≤ s'.knotsV.count x) ∧
      (∀ s ∈ ss, ∀ x, (s.rescaled a b c d).knotsU.count x ≤ s'.knotsU.count x) ∧
      (∀ s ∈ ss, ∀ x, (s.rescaled a b c d).knotsV.count x ≤ s'.knotsV.count x) ∧
      (∀ x, s'.knotsU.count x = s0.knotsU.count x ∨ ∃ s ∈ ss, s'.knotsU.count x = (s.rescaled a b c d).knotsU.count x) ∧
      ∀ x, s'.knotsV.count x = s0.knotsV.count x ∨ ∃ s ∈ ss, s'.knotsV.count x = (s.rescaled a b c d).knotsV.count x := by
  intro ss
  induction ss with
  | nil =>
    intro kmU kmV s0 d1 d2 h hDU hDV hUL hVL _
    exact ⟨kmU, kmV, s0, rfl, d1, d2, h, hDU, hDV, hUL, hVL, h.cl.1.same heps, fun _ => le_rfl, fun _ => le_rfl, by simp, by simp,
      fun _ => Or.inl rfl, fun _ => Or.inl rfl⟩
  | cons s ss ih =>
    intro kmU kmV s0 d1 d2 h hDU hDV hUL hVL hss
    obtain ⟨g1, g2, ⟨a', b', c', d', hs⟩, gU, gV⟩ := hss s List.mem_cons_self
    have hr := hs.rescaled (a := a) (b := b) (c := c) (d := d) h.ltU.2.2 h.ltV.2.2
    have hrU := hr.u _ (gr_mem hr.pos)
    obtain ⟨kU, ekU, hDkU⟩ := unflatPairs_desc heps hrU.wf.ne hrU.wf.sorted (fun x hx y hy hxy => hLU x (gU x hx) y (gU y hy) hxy)
    obtain ⟨kV, ekV, hDkV⟩ := unflatPairs_desc heps hr.v.wf.ne hr.v.wf.sorted (fun x hx y hy hxy => hLV x (gV x hx) y (gV y hy) hxy)
    obtain ⟨kmU1, kmV1, s1, e1, t1, t2, t3, t4, t5, t6, t7, t8, t9, t10⟩ := unifyUV_spec heps hLU hLV h hDU hDV hUL hVL
      (WU := (s.rescaled a b c d).knotsU) (WV := (s.rescaled a b c d).knotsV) (by rw [d1, ← g1]; exact hrU) (by rw [d2, ← g2]; exact hr.v) hDkU hDkV gU gV
    obtain ⟨kmU2, kmV2, s2, e2, r1, r2, r3, r4, r5, r6, r7, r8, r9, r10, r11, r12, r13, r14⟩ := ih kmU1 kmV1 s1 (t1.trans d1) (t2.trans d2) t3 t4 t5 t6 t7
      (fun s hs => hss s (List.mem_cons_of_mem _ hs))
    refine ⟨kmU2, kmV2, s2, ?_, r1, r2, r3, r4, r5, r6, r7, t8.trans r8, ?_, ?_, ?_, ?_, ?_, ?_⟩
    · unfold unifyAbsorbS
      rw [changeBoundsK_eq hs.ltU.1 hs.ltU.2.1, R_bind_ok, changeBoundsK_eq hs.ltV.1 hs.ltV.2.1, R_bind_ok]
      rw [show s.knotsU.map (rescale a b s.knotsU) = (s.rescaled a b c d).knotsU from rfl, ekU, R_bind_ok,
        show s.knotsV.map (rescale c d s.knotsV) = (s.rescaled a b c d).knotsV from rfl, ekV, R_bind_ok, e1, R_bind_ok]
      simp only
      rw [e2, R_bind_ok]
      rfl
    · intro x; have := t9 x; have := r9 x; omega
    · intro x; have := t10 x; have := r10 x; omega
    · intro s' hs' x
      rcases List.mem_cons.mp hs' with rfl | hs'
      · have := t9 x; have := r9 x; omega
      · exact r11 s' hs' x
    · intro s' hs' x
      rcases List.mem_cons.mp hs' with rfl | hs'
      · have := t10 x; have := r10 x; omega
      · exact r12 s' hs' x
    · intro x
      rcases r13 x with h1 | ⟨s', hs', h1⟩
      · rw [t9] at h1
        rcases max_choice (s0.knotsU.count x) ((s.rescaled a b c d).knotsU.count x) with h2 | h2
        · left; rw [h1, h2]
        · right; exact ⟨s, List.mem_cons_self, by rw [h1, h2]⟩
      · right; exact ⟨s', List.mem_cons_of_mem _ hs', h1⟩
    · intro x
      rcases r14 x with h1 | ⟨s', hs', h1⟩
      · rw [t10] at h1
        rcases max_choice (s0.knotsV.count x) ((s.rescaled a b c d).knotsV.count x) with h2 | h2
        · left; rw [h1, h2]
        · right; exact ⟨s, List.mem_cons_self, by rw [h1, h2]⟩
      · right; exact ⟨s', List.mem_cons_of_mem _ hs', h1⟩

/-- Second pass. -/
theorem unifyApplyS_spec {eps : K} (heps : 0 < eps) {a b c d : K} {LU LV : List K} (hLU : SepL eps LU) (hLV : SepL eps LV)
    {kmU0 kmV0 : List (K × ℕ)} {s s0 : SurfInfo K V} (h0 : SKC a b c d s0) (d1 : s.degU = s0.degU) (d2 : s.degV = s0.degV) (hDU0 : Desc kmU0 s0.knotsU)
    (hDV0 : Desc kmV0 s0.knotsV) (hUL0 : ∀ x ∈ s0.knotsU, x ∈ LU) (hVL0 : ∀ x ∈ s0.knotsV, x ∈ LV) (h : SKC a b c d s)
    (hUL : ∀ x ∈ s.knotsU, x ∈ LU) (hVL : ∀ x ∈ s.knotsV, x ∈ LV) (hu : ∀ x, s.knotsU.count x ≤ s0.knotsU.count x)
    (hv : ∀ x, s.knotsV.count x ≤ s0.knotsV.count x) :
    ∃ s', unifyApplyS eps kmU0 kmV0 s = .ok s' ∧ s'.degU = s.degU ∧ s'.degV = s.degV ∧ s'.knotsU = s0.knotsU ∧ s'.knotsV = s0.knotsV ∧
      SKC a b c d s' ∧ Spec.SameSurf eps s.toSurface s'.toSurface := by
  have hrU := h.u _ (gr_mem h.pos)
  have hrU0 := h0.u _ (gr_mem h0.pos)
  obtain ⟨kU, ekU, hDkU⟩ := unflatPairs_desc heps hrU.wf.ne hrU.wf.sorted (fun x hx y hy hxy => hLU x (hUL x hx) y (hUL y hy) hxy)
  obtain ⟨kV, ekV, hDkV⟩ := unflatPairs_desc heps h.v.wf.ne h.v.wf.sorted (fun x hx y hy hxy => hLV x (hVL x hx) y (hVL y hy) hxy)
  obtain ⟨kmU1, kmV1, s1, e1, t1, t2, t3, t4, t5, t6, t7, t8, t9, t10⟩ := unifyUV_spec heps hLU hLV h hDkU hDkV hUL hVL
    (WU := s0.knotsU) (WV := s0.knotsV) (by rw [d1]; exact hrU0) (by rw [d2]; exact h0.v) hDU0 hDV0 hUL0 hVL0
  have eU : s1.knotsU = s0.knotsU := by
    have hp : s1.knotsU.Perm s0.knotsU := List.perm_iff_count.mpr fun x => by rw [t9, max_eq_right (hu x)]
    exact hp.eq_of_pairwise (fun a b _ _ h1 h2 => le_antisymm h1 h2) (t3.u _ (gr_mem t3.pos)).wf.sorted hrU0.wf.sorted
  have eV : s1.knotsV = s0.knotsV := by
    have hp : s1.knotsV.Perm s0.knotsV := List.perm_iff_count.mpr fun x => by rw [t10, max_eq_right (hv x)]
    exact hp.eq_of_pairwise (fun a b _ _ h1 h2 => le_antisymm h1 h2) t3.v.wf.sorted h0.v.wf.sorted
  refine ⟨s1, ?_, t1, t2, eU, eV, t3, t8⟩
  unfold unifyApplyS
  rw [ekU, R_bind_ok, ekV, R_bind_ok, e1, R_bind_ok]
  rfl

end Gbs
