import Verif.Lemmas.SurfInterp

/-! # C77: interpolation of surfaces -/

namespace Gbs

set_option linter.unusedSectionVars false

open Polynomial
open scoped BigOperators

variable {K : Type} [Field K] [LinearOrder K] [IsStrictOrderedRing K]
variable {V : Type} [AddCommGroup V] [Module K V]

/-! ## Rows and columns -/

/-- C77, `extract_U`: row `iV` of a grid stored row after row. -/
theorem C77_extract_u {α : Type} {Q : List α} {nU nV iV : ℕ} (hU : 1 ≤ nU) (hQ : Q.length = nU * nV) (hi : iV < nV) :
    ∃ L, extractU iV Q nU = .ok L ∧ L.length = nU ∧ ∀ i, i < nU → L[i]? = Q[i + nU * iV]? := by
  unfold extractU
  rw [if_neg (by omega), if_neg (by rw [hQ, Nat.mul_mod_right]; simp)]
  obtain ⟨L, e, hl, h⟩ := forLt_collect (n := nU) (body := fun i row => do
      let x ← rd Q (iV * nU + i)
      pure (row ++ [x])) (fun i x => Q[i + nU * iV]? = some x)
    (by
      intro i acc hi'
      have hlt : i + nU * iV < Q.length := by rw [hQ]; exact grid_lt hi' hi
      have he : iV * nU + i = i + nU * iV := by rw [Nat.mul_comm]; omega
      rw [he]
      exact ⟨Q[i + nU * iV], by rw [rd_ok hlt, R_bind_ok]; rfl, List.getElem?_eq_getElem hlt⟩)
  exact ⟨L, e, hl, fun i hi => by obtain ⟨x, h1, h2⟩ := h i hi; rw [h1, h2]⟩

/-- C77, `extract_V`: column `iU`. -/
theorem C77_extract_v {α : Type} {Q : List α} {nU nV iU : ℕ} (hU : 1 ≤ nU) (hQ : Q.length = nU * nV) (hi : iU < nU) :
    ∃ L, extractV iU Q nU = .ok L ∧ L.length = nV ∧ ∀ j, j < nV → L[j]? = Q[iU + nU * j]? := by
  unfold extractV
  rw [if_neg (by omega), if_neg (by rw [hQ, Nat.mul_mod_right]; simp), hQ, Nat.mul_div_cancel_left _ (by omega)]
  obtain ⟨L, e, hl, h⟩ := forLt_collect (n := nV) (body := fun j col => do
      let x ← rd Q (iU + nU * j)
      pure (col ++ [x])) (fun j x => Q[iU + nU * j]? = some x)
    (by
      intro j acc hj
      have hlt : iU + nU * j < Q.length := by rw [hQ]; exact grid_lt hi hj
      exact ⟨Q[iU + nU * j], by rw [rd_ok hlt, R_bind_ok]; rfl, List.getElem?_eq_getElem hlt⟩)
  exact ⟨L, e, hl, fun i hi => by obtain ⟨x, h1, h2⟩ := h i hi; rw [h1, h2]⟩

/-- C77: both throw `length_error` when the size is not a multiple of the number of columns. -/
theorem C77_extract_throws {α : Type} {Q : List α} {nU i : ℕ} (hU : 1 ≤ nU) (hQ : ¬ nU ∣ Q.length) :
    extractU i Q nU = .error (.thrown .length) ∧ extractV i Q nU = .error (.thrown .length) := by
  have h : Q.length % nU ≠ 0 := fun h => hQ (Nat.dvd_of_mod_eq_zero h)
  unfold extractU extractV
  rw [if_neg (by omega), if_pos h, if_neg (by omega), if_pos h]
  exact ⟨rfl, rfl⟩

/-! ## Grid of points -/

/-- A surface on clamped knots: constructor and evaluation. -/
theorem surf_clamped {eps : K} (heps : 0 < eps) {p q nu nv : ℕ} {ku kv : List K} {P : List V} (hU : KWf p ku nu) (hV : KWf q kv nv)
    (hP : P.length = nu * nv) (hp : p ≤ stackMaxDegree) (hq : q ≤ stackMaxDegree) (hmem : (nu + p + 1) * (nv + q + 1) < 2 ^ 64)
    (hu0 : kf ku 0 = kf ku p) (hu1 : kLast ku = kf ku nu) (hv0 : kf kv 0 = kf kv q) (hv1 : kLast kv = kf kv nv) :
    ∃ s, Surface.mk? eps P ku kv p q = .ok s ∧ s = ⟨p, q, P, ku, kv, kf ku p, kf ku nu, kf kv q, kf kv nv⟩ ∧ s.Wf ∧
      ∀ u v i j, kf ku p ≤ u → u ≤ kf ku nu → kf kv q ≤ v → v ≤ kf kv nv → findSpan nu p u ku = .ok i → findSpan nv q v kv = .ok j →
        ∀ junk du dv, s.value eps junk u v du dv = .ok (surfDer (kf ku) nu p i (kf kv) nv q j (pf P) du dv u v) := by
  have hlu := hU.len
  have hlv := hV.len
  have hnu : ku.length - (p + 1) = nu := by omega
  have hnv : kv.length - (q + 1) = nv := by omega
  obtain ⟨h1, h2⟩ := C27_constructor (eps := eps) P (ku := ku) (kv := kv) (p := p) (q := q) (by omega) (by omega) hU.sorted hV.sorted
    (by rw [hlu, hlv]; exact hmem)
  obtain ⟨s, es⟩ := h1.mpr ⟨by rw [hnu, hnv, hP], by rw [hnu]; exact hU.min, by rw [hnv]; exact hV.min⟩
  have hs := h2 s es
  rw [hu0, hu1, hv0, hv1] at hs
  have eU : s.nPU = nu := by rw [hs]; exact hnu
  have eV : s.nPV = nv := by rw [hs]; exact hnv
  have hwf : s.Wf := ⟨by rw [eU, hs]; exact hU, by rw [eV, hs]; exact hV, by rw [eU, eV, hs]; exact hP⟩
  refine ⟨s, es, hs, hwf, ?_⟩
  intro u v i j a1 a2 b1 b2 ei ej junk du dv
  have hin : s.In u v := by
    constructor <;> (try rw [eU]) <;> (try rw [eV]) <;> rw [hs] <;> assumption
  obtain ⟨i', j', e1, e2, -, -, -, -, -, -, hval⟩ := Surface.value_spec heps hwf (Or.inl (by rw [hs]; exact ⟨hp, hq⟩)) hin
  rw [hval]
  rw [eU] at e1 ⊢
  rw [eV] at e2 ⊢
  subst hs
  change findSpan nu p u ku = _ at e1
  change findSpan nv q v kv = _ at e2
  rw [ei] at e1
  rw [ej] at e2
  rw [← Except.ok.inj e1, ← Except.ok.inj e2]

/-- C77, `build_poles` for a grid: on well-formed knots with as many poles as parameters, when the dense solver solves the two systems in one
variable, the surface of the poles passes through each point of the grid. -/
theorem C77_build_poles_grid {eps : K} (heps : 0 < eps) (junk : K) {p q : ℕ} (hp : p ≤ stackMaxDegree) (hq : q ≤ stackMaxDegree)
    {dense : ℕ → (ℕ → ℕ → K) → List V → R (List V)} {Q : List V} {ku kv u v : List K} (hQ : Q.length = u.length * v.length)
    (hU : KWf p ku u.length) (hV : KWf q kv v.length)
    (hsu : ∀ M, gridMatrix eps junk ku u p = .ok M → ∀ B : List V, B.length = u.length → ∃ X, dense u.length M B = .ok X ∧
      X.length = u.length ∧ ∀ i, i < u.length → ∑ j ∈ Finset.range u.length, M i j • pf X j = pf B i)
    (hsv : ∀ M, gridMatrix eps junk kv v q = .ok M → ∀ B : List V, B.length = v.length → ∃ X, dense v.length M B = .ok X ∧
      X.length = v.length ∧ ∀ i, i < v.length → ∑ j ∈ Finset.range v.length, M i j • pf X j = pf B i) :
    ∃ P, buildPolesGrid eps junk dense Q ku kv u v p q = .ok P ∧ P.length = u.length * v.length ∧
      ∀ (i j : ℕ) (a b : K) (x : V), u[i]? = some a → v[j]? = some b → Q[i + u.length * j]? = some x →
        ∀ junk', evalSurf eps junk' a b ku kv P p q 0 0 = .ok x := by
  obtain ⟨su, Mu, hsu', eu, hMu⟩ := gridMatrix_spec hU hp eps junk
  obtain ⟨sv, Mv, hsv', ev, hMv⟩ := gridMatrix_spec hV hq eps junk
  obtain ⟨P, e, hl, h⟩ := buildPolesGrid_spec hQ eu ev (hsu Mu eu) (hsv Mv ev)
  refine ⟨P, e, hl, ?_⟩
  intro i j a b x ha hb hx junk'
  obtain ⟨hi, rfl⟩ := kf_of_some ha
  obtain ⟨hj, rfl⟩ := kf_of_some hb
  rw [evalSurf_spec (eps := eps) hU hV hl (Or.inl ⟨hp, hq⟩) 0 0 (hsu'.find i hi) (hsv'.find j hj)]
  congr 1
  rw [← pf_of_some hx, ← h i j hi hj]
  unfold surfDer
  have s1 := sum_coll (n := u.length) (U := ku) (u := u) (p := p) (sp := su) (i := i) (d := 0) (nc := 1) (V := V) (by omega)
  have s2 := sum_coll (n := v.length) (U := kv) (u := v) (p := q) (sp := sv) (i := j) (d := 0) (nc := 1) (V := V) (by omega)
  rw [one_mul, Nat.add_zero] at s1 s2
  rw [← s2]
  apply Finset.sum_congr rfl
  intro k hk
  rw [hMv j k hj (Finset.mem_range.mp hk), ← s1]
  congr 1
  apply Finset.sum_congr rfl
  intro k' hk'
  rw [hMu i k' hi (Finset.mem_range.mp hk')]

/-- C77: `build_poles` throws when the number of points is not the product of the numbers of parameters. -/
theorem C77_build_poles_throws (eps junk : K) (dense : ℕ → (ℕ → ℕ → K) → List V → R (List V)) {Q : List V} (ku kv : List K) {u v : List K}
    (p q : ℕ) (hQ : Q.length ≠ u.length * v.length) : buildPolesGrid eps junk dense Q ku kv u v p q = .error (.thrown .length) := by
  unfold buildPolesGrid
  rw [if_pos hQ]

/-! ### Parametrization of the grid -/

/-- Length of a list of `n` points up to the `i`-th, for a mode. -/
noncomputable def Spec.arc {dim : ℕ} (mode : KnotsCalcMode) (pts : ℕ → Fin dim → ℝ) (n i : ℕ) : ℝ :=
  ∑ t ∈ Finset.range i, Spec.segLen n mode (pts t) (pts (t + 1))

/-- `n` parameters scaled so that the last is 1, unless it does not exceed the tolerance. -/
noncomputable def Spec.scaled (eps : ℝ) (f : ℕ → ℝ) (n i : ℕ) : ℝ := if eps < f (n - 1) then f i / f (n - 1) else f i

/-- The mean over `m` lists of `n` points of their scaled lengths, scaled. -/
noncomputable def Spec.gridParam {dim : ℕ} (eps : ℝ) (mode : KnotsCalcMode) (pts : ℕ → ℕ → Fin dim → ℝ) (n m i : ℕ) : ℝ :=
  Spec.scaled eps (fun i => (∑ j ∈ Finset.range m, Spec.scaled eps (Spec.arc mode (pts j) n) n i) / m) n i

theorem segLen_nonneg {dim n : ℕ} (hn : 1 ≤ n) (mode : KnotsCalcMode) (a b : Fin dim → ℝ) : 0 ≤ Spec.segLen n mode a b := by
  cases mode
  · have : (1 : ℝ) ≤ n := by exact_mod_cast hn
    exact div_nonneg zero_le_one (by linarith)
  · exact eDist_nonneg _ _
  · exact Real.sqrt_nonneg _

theorem segLen_pos {dim n : ℕ} (hn : 2 ≤ n) {mode : KnotsCalcMode} {a b : Fin dim → ℝ} (h : mode = .equallySpaced ∨ a ≠ b) :
    0 < Spec.segLen n mode a b := by
  cases mode
  · have : (2 : ℝ) ≤ n := by exact_mod_cast hn
    exact div_pos one_pos (by linarith)
  · exact eDist_pos (Ne.symm (h.resolve_left (by simp)))
  · exact Real.sqrt_pos.mpr (eDist_pos (Ne.symm (h.resolve_left (by simp))))

theorem arc_mono {dim n : ℕ} (hn : 1 ≤ n) (mode : KnotsCalcMode) (pts : ℕ → Fin dim → ℝ) : Monotone (Spec.arc mode pts n) := by
  apply monotone_nat_of_le_succ
  intro i
  unfold Spec.arc
  rw [Finset.sum_range_succ]
  linarith [segLen_nonneg hn mode (pts i) (pts (i + 1))]

theorem scaled_mono {eps : ℝ} (heps : 0 < eps) {f : ℕ → ℝ} (hf : Monotone f) (n : ℕ) : Monotone (Spec.scaled eps f n) := by
  intro i j hij
  unfold Spec.scaled
  split
  · rename_i h
    exact div_le_div_of_nonneg_right (hf hij) (by linarith)
  · exact hf hij

theorem scaled_lt {eps : ℝ} (heps : 0 < eps) {f : ℕ → ℝ} {i j : ℕ} (hf : f i < f j) (n : ℕ) : Spec.scaled eps f n i < Spec.scaled eps f n j := by
  unfold Spec.scaled
  split
  · rename_i h
    exact div_lt_div_of_pos_right hf (by linarith)
  · exact hf

theorem scaled_zero {eps : ℝ} {f : ℕ → ℝ} (hf : f 0 = 0) (n : ℕ) : Spec.scaled eps f n 0 = 0 := by
  unfold Spec.scaled
  rw [hf, zero_div, ite_self]

theorem arc_zero {dim : ℕ} (mode : KnotsCalcMode) (pts : ℕ → Fin dim → ℝ) (n : ℕ) : Spec.arc mode pts n 0 = 0 := by
  unfold Spec.arc; simp

/-- `adimension` of parameters that start at 0. -/
theorem adimension_scaled {eps : ℝ} (heps : 0 < eps) {k : List ℝ} (hne : 1 ≤ k.length) (h0 : kf k 0 = 0) (hs : k.Pairwise (· ≤ ·)) :
    ∃ w, adimension eps k = .ok w ∧ w.length = k.length ∧ ∀ i, i < k.length → kf w i = Spec.scaled eps (kf k) k.length i := by
  obtain ⟨t, ht, -, a1, a2⟩ := adimension_spec heps (k := k) (by rw [List.head?_eq_getElem?, kf_getElem? (by omega), h0]) hs
  rw [List.getLast?_eq_getElem?, kf_getElem? (by omega)] at ht
  have ht := Option.some.inj ht
  unfold Spec.scaled
  rw [ht]
  rcases lt_or_ge eps t with h | h
  · refine ⟨_, a1 h, by simp, ?_⟩
    intro i hi
    rw [if_pos h, kf_of_lt (by simpa using hi), List.getElem_map, ← kf_of_lt hi]
  · exact ⟨_, a2 h, rfl, fun i hi => by rw [if_neg (by linarith)]⟩

/-- The scaled parametrization of a list of points. -/
theorem param_spec {dim : ℕ} {eps : ℝ} (heps : 0 < eps) {L : List (Fin dim → ℝ)} (hne : 1 ≤ L.length) (mode : KnotsCalcMode) :
    ∃ k, curveParametrization eps eDist Real.sqrt L mode true = .ok k ∧ k.length = L.length ∧
      ∀ i, i < L.length → kf k i = Spec.scaled eps (Spec.arc mode (pf L) L.length) L.length i := by
  have hne' : L ≠ [] := by rintro rfl; simp at hne
  obtain ⟨k0, e, hl, h0, hs, -, hst⟩ := C34_parametrization eps L hne' mode
  have hk0 : ∀ i, i < L.length → kf k0 i = Spec.arc mode (pf L) L.length i := by
    intro i
    induction i with
    | zero =>
      intro _
      rw [List.head?_eq_getElem?, kf_getElem? (by omega)] at h0
      rw [Option.some.inj h0, arc_zero]
    | succ i ih =>
      intro hi
      obtain ⟨s, t, e1, e2, e3⟩ := hst i (pf L i) (pf L (i + 1)) (pf_getElem? (by omega)) (pf_getElem? hi)
      have := ih (by omega)
      rw [← (kf_of_some e1).2, ← (kf_of_some e2).2] at e3
      unfold Spec.arc at this ⊢
      rw [Finset.sum_range_succ, ← this, ← e3]
      ring
  have hte : curveParametrization eps eDist Real.sqrt L mode true = adimension eps k0 := by
    cases L with
    | nil => exact absurd rfl hne'
    | cons x xs =>
      unfold curveParametrization at e ⊢
      simp only [Bool.false_eq_true, if_false, R_pure, Except.ok.injEq] at e
      rw [← e]
      rfl
  obtain ⟨w, ew, hlw, hw⟩ := adimension_scaled heps (k := k0) (by omega) (by rw [hk0 0 (by omega), arc_zero]) hs
  refine ⟨w, by rw [hte, ew], by omega, ?_⟩
  intro i hi
  rw [hw i (by omega)]
  unfold Spec.scaled
  rw [hl, hk0 i hi, hk0 (L.length - 1) (by omega)]

/-- The lambda `avg_p` and the scaling that follows. -/
theorem avgParams_spec {dim : ℕ} {eps : ℝ} (heps : 0 < eps) (mode : KnotsCalcMode) {extract : ℕ → R (List (Fin dim → ℝ))} {ni nj : ℕ}
    (hi : 1 ≤ ni) (hj : 2 ≤ nj) (pts : ℕ → ℕ → Fin dim → ℝ)
    (he : ∀ i, i < ni → ∃ L, extract i = .ok L ∧ L.length = nj ∧ ∀ t, t < nj → pf L t = pts i t)
    (hs : mode = .equallySpaced ∨ ∀ t, t + 1 < nj → ∃ i, i < ni ∧ pts i t ≠ pts i (t + 1)) :
    ∃ w0 w, avgParams eps eDist Real.sqrt mode extract ni nj = .ok w0 ∧ adimension eps w0 = .ok w ∧ w.length = nj ∧
      w.Pairwise (· < ·) ∧ kf w 0 = 0 ∧ ∀ t, t < nj → kf w t = Spec.gridParam eps mode pts nj ni t := by
  have hniR : ((ni : ℕ) : ℝ) ≠ 0 := by exact_mod_cast (show ni ≠ 0 by omega)
  have hni0 : (0 : ℝ) < ni := by exact_mod_cast (show 0 < ni by omega)
  set sc : ℕ → ℕ → ℝ := fun j t => Spec.scaled eps (Spec.arc mode (pts j) nj) nj t with hsc
  obtain ⟨w0, e0, hl0, hw0⟩ := forLt_inv (a := 0) (b := ni) (s := List.replicate nj (0 : ℝ))
    (body := fun i params => do
      let pts ← extract i
      let pi ← curveParametrization eps eDist Real.sqrt pts mode true
      forLt 0 pi.length (fun t params => do
        let a ← rd pi t
        let b ← rd params t
        let x ← fdiv a (ni : ℝ)
        wr params t (b + x)) params)
    (fun k w => w.length = nj ∧ ∀ t, t < nj → kf w t = (∑ j ∈ Finset.range k, sc j t) / ni)
    (by omega)
    ⟨by simp, by
      intro t ht
      rw [kf_of_lt (by simpa using ht), List.getElem_replicate]; simp⟩
    (by
      rintro k w - hk ⟨hl, hw⟩
      obtain ⟨L, eL, hlL, hL⟩ := he k hk
      rw [eL, R_bind_ok]
      obtain ⟨c, ec, hlc, hc⟩ := param_spec heps (L := L) (by omega) mode
      rw [ec, R_bind_ok, hlc, hlL]
      obtain ⟨w', e', hl', h1, h2⟩ := forLt_inv (a := 0) (b := nj) (s := w)
        (body := fun t params => do
          let a ← rd c t
          let b ← rd params t
          let x ← fdiv a (ni : ℝ)
          wr params t (b + x))
        (fun m w' => w'.length = nj ∧ (∀ t, t < m → kf w' t = kf w t + kf c t / ni) ∧ ∀ t, m ≤ t → t < nj → kf w' t = kf w t)
        (by omega) ⟨hl, by intro t ht; omega, fun _ _ _ => rfl⟩
        (by
          rintro m w' - hm ⟨hl', h1, h2⟩
          rw [rd_ok (by omega), R_bind_ok, rd_ok (by omega), R_bind_ok, fdiv_ok hniR, R_bind_ok, wr_ok (by omega)]
          have hset : ∀ t x, t < nj → kf (w'.set m x) t = if t = m then x else kf w' t := by
            intro t x ht
            rw [kf_of_lt (by simpa [hl'] using ht), List.getElem_set]
            split
            · rename_i h; rw [if_pos h.symm]
            · rename_i h; rw [if_neg (fun h' => h h'.symm), kf_of_lt (by omega)]
          refine ⟨_, rfl, by simpa using hl', ?_, ?_⟩
          · intro t ht
            rw [hset _ _ (by omega)]
            split
            · rename_i h
              subst h
              rw [← kf_of_lt, ← kf_of_lt, h2 t le_rfl hm]
            · exact h1 t (by omega)
          · intro t ht ht'
            rw [hset _ _ ht', if_neg (by omega)]
            exact h2 t (by omega) ht')
      refine ⟨w', e', hl', ?_⟩
      intro t ht
      rw [h1 t ht, hw t ht, hc t (by omega), Finset.sum_range_succ, add_div]
      congr 2
      simp only [hsc]
      rw [hlL]
      have harc : ∀ i, i < nj → Spec.arc mode (pf L) nj i = Spec.arc mode (pts k) nj i := by
        intro i hi
        unfold Spec.arc
        apply Finset.sum_congr rfl
        intro s hs
        have := Finset.mem_range.mp hs
        rw [hL s (by omega), hL (s + 1) (by omega)]
      unfold Spec.scaled
      rw [harc t ht, harc (nj - 1) (by omega)])
  have hmonoc : ∀ j, Monotone (sc j) := fun j => scaled_mono heps (arc_mono (by omega) mode _) nj
  have hlt : ∀ t, t + 1 < nj → (∑ j ∈ Finset.range ni, sc j t) / (ni : ℝ) < (∑ j ∈ Finset.range ni, sc j (t + 1)) / ni := by
    intro t ht
    apply div_lt_div_of_pos_right _ hni0
    have : ∃ i, i < ni ∧ (mode = .equallySpaced ∨ pts i t ≠ pts i (t + 1)) := by
      rcases hs with h | h
      · exact ⟨0, by omega, Or.inl h⟩
      · obtain ⟨i, h1, h2⟩ := h t ht
        exact ⟨i, h1, Or.inr h2⟩
    obtain ⟨i, hi, hne⟩ := this
    apply Finset.sum_lt_sum (fun j _ => hmonoc j (by omega))
    refine ⟨i, Finset.mem_range.mpr hi, scaled_lt heps ?_ nj⟩
    unfold Spec.arc
    rw [Finset.sum_range_succ]
    linarith [segLen_pos (n := nj) (by omega) hne]
  have hsorted0 : w0.Pairwise (· < ·) := by
    have hm : ∀ d t, t + (d + 1) < nj → kf w0 t < kf w0 (t + (d + 1)) := by
      intro d
      induction d with
      | zero => intro t ht; rw [hw0 t (by omega), hw0 (t + 1) (by omega)]; exact hlt t ht
      | succ d ih =>
        intro t ht
        have a := ih t (by omega)
        have b := hlt (t + (d + 1)) (by omega)
        rw [← hw0 _ (by omega), ← hw0 _ (by omega)] at b
        exact a.trans b
    rw [List.pairwise_iff_getElem]
    intro i j hi hj hij
    rw [← kf_of_lt, ← kf_of_lt]
    have := hm (j - i - 1) i (by omega)
    rwa [show i + (j - i - 1 + 1) = j by omega] at this
  have hz : kf w0 0 = 0 := by
    rw [hw0 0 (by omega)]
    have : ∑ j ∈ Finset.range ni, sc j 0 = 0 := Finset.sum_eq_zero fun j _ => scaled_zero (arc_zero _ _ _) _
    rw [this, zero_div]
  obtain ⟨w, ew, hlw, hw⟩ := adimension_scaled heps (k := w0) (by omega) hz (hsorted0.imp le_of_lt)
  refine ⟨w0, w, e0, ew, by omega, ?_, ?_, ?_⟩
  · rw [List.pairwise_iff_getElem]
    intro i j hi hj hij
    rw [← kf_of_lt, ← kf_of_lt, hw i (by omega), hw j (by omega)]
    apply scaled_lt heps
    rw [kf_of_lt (by omega), kf_of_lt (by omega)]
    exact List.pairwise_iff_getElem.mp hsorted0 i j (by omega) (by omega) hij
  · rw [hw 0 (by omega)]
    exact scaled_zero hz _
  · intro t ht
    rw [hw t (by omega)]
    unfold Spec.gridParam Spec.scaled
    rw [hl0, hw0 t ht, hw0 (nj - 1) (by omega)]
    rfl

/-- The averaged knots are clamped. -/
theorem averaged_clamped {p : ℕ} {u : List K} (hp : 1 ≤ p) (hn : p + 1 ≤ u.length) (hu : u.Pairwise (· < ·)) {k : List K}
    (ek : averagedFlatKnots u p = .ok k) : kf k 0 = kf k p ∧ kLast k = kf k u.length := by
  obtain ⟨k', ek', hlk, hk0, hk1, -⟩ := C54_averaged_knots (V := K) hp hn hu
  rw [ek] at ek'
  obtain rfl := Except.ok.inj ek'
  constructor
  · have a := hk0 0 (by omega)
    have b := hk0 p le_rfl
    rw [← b, kf_getElem? (by omega), kf_getElem? (by omega)] at a
    exact Option.some.inj a
  · unfold kLast
    have a := hk1 u.length le_rfl (by omega)
    have b := hk1 (k.length - 1) (by omega) (by omega)
    rw [← a, kf_getElem? (by omega), kf_getElem? (by omega)] at b
    exact Option.some.inj b

theorem Regular_grid {ku u : List K} {p : ℕ} {eps junk : K} (hU : KWf p ku u.length) (hp : p ≤ stackMaxDegree)
    (hR : ∀ sp, Spans ku u p u.length sp → Spec.Regular u.length (coll ku u p 1 sp))
    {dense : ℕ → (ℕ → ℕ → K) → List V → R (List V)} (hS : Spec.SolvesDense dense) :
    ∀ M, gridMatrix eps junk ku u p = .ok M → ∀ B : List V, B.length = u.length → ∃ X, dense u.length M B = .ok X ∧
      X.length = u.length ∧ ∀ i, i < u.length → ∑ j ∈ Finset.range u.length, M i j • pf X j = pf B i := by
  intro M eM B hB
  obtain ⟨sp, M', hsp, eM', hM⟩ := gridMatrix_spec hU hp eps junk
  rw [eM] at eM'
  obtain rfl := Except.ok.inj eM'
  exact hS _ M B hB (Regular.congr (hR sp hsp) fun i j hi hj => (hM i j hi hj).symm)

/-- C77, interpolation of a grid of points: for degrees from 1 to 24 below the numbers of points, in the equally spaced mode or when each two
consecutive columns differ in some row and each two consecutive rows in some column, `interpolate` returns a surface with one pole for each
point that takes the value `Q[i + nU*j]` at the parameters of column `i` and row `j`. The parameters are strictly increasing from 0: they
are the means of the scaled parametrizations of the rows and of the columns. Of the dense solver only the solution of regular systems is
asked. -/
theorem C77_interpolate_grid {dim : ℕ} {eps : ℝ} (heps : 0 < eps) (junk : ℝ)
    {dense : ℕ → (ℕ → ℕ → ℝ) → List (Fin dim → ℝ) → R (List (Fin dim → ℝ))} (hS : Spec.SolvesDense dense) {Q : List (Fin dim → ℝ)}
    {nU nV p q : ℕ} (hQ : Q.length = nU * nV) (hp1 : 1 ≤ p) (hp : p ≤ stackMaxDegree) (hq1 : 1 ≤ q) (hq : q ≤ stackMaxDegree)
    (hnU : p + 1 ≤ nU) (hnV : q + 1 ≤ nV) (hmem : (nU + p + 1) * (nV + q + 1) < 2 ^ 64) (mode : KnotsCalcMode)
    (hu : mode = .equallySpaced ∨ ∀ i, i + 1 < nU → ∃ j, j < nV ∧ Q[i + nU * j]? ≠ Q[i + 1 + nU * j]?)
    (hv : mode = .equallySpaced ∨ ∀ j, j + 1 < nV → ∃ i, i < nU ∧ Q[i + nU * j]? ≠ Q[i + nU * (j + 1)]?) :
    ∃ s u v, interpolateGrid eps junk eDist Real.sqrt dense Q nV p q mode = .ok s ∧ s.Wf ∧ s.degU = p ∧ s.degV = q ∧ s.nPU = nU ∧ s.nPV = nV ∧
      u.length = nU ∧ v.length = nV ∧ u.Pairwise (· < ·) ∧ v.Pairwise (· < ·) ∧
      (∀ i, i < nU → u[i]? = some (Spec.gridParam eps mode (fun j i => pf Q (i + nU * j)) nU nV i)) ∧
      (∀ j, j < nV → v[j]? = some (Spec.gridParam eps mode (fun i j => pf Q (i + nU * j)) nV nU j)) ∧
      some s.u0 = u.head? ∧ some s.u1 = u.getLast? ∧ some s.v0 = v.head? ∧ some s.v1 = v.getLast? ∧
      averagedFlatKnots u p = .ok s.knotsU ∧ averagedFlatKnots v q = .ok s.knotsV ∧
      ∀ (i j : ℕ) (a b : ℝ) (x : Fin dim → ℝ), u[i]? = some a → v[j]? = some b → Q[i + nU * j]? = some x →
        ∀ junk', s.value eps junk' a b = .ok x := by
  have hQpf : ∀ i j, i < nU → j < nV → Q[i + nU * j]? = some (pf Q (i + nU * j)) := fun i j hi hj =>
    pf_getElem? (by rw [hQ]; exact grid_lt hi hj)
  obtain ⟨w0, u, ew0, eu, hlu, hsu, hu0, huv⟩ := avgParams_spec heps mode (extract := fun i => extractU i Q nU) (ni := nV) (nj := nU)
    (by omega) (by omega) (fun j i => pf Q (i + nU * j))
    (by
      intro j hj
      obtain ⟨L, e, hl, h⟩ := C77_extract_u (nU := nU) (by omega) hQ hj
      refine ⟨L, e, hl, fun t ht => ?_⟩
      have := h t ht
      rw [hQpf t j ht hj] at this
      exact pf_of_some this)
    (hu.imp_right fun h t ht => by
      obtain ⟨j, hj, hne⟩ := h t ht
      rw [hQpf _ _ (by omega) hj, hQpf _ _ ht hj] at hne
      exact ⟨j, hj, fun h' => hne (congrArg some h')⟩)
  obtain ⟨w1, v, ew1, ev, hlv, hsv, hv0, hvv⟩ := avgParams_spec heps mode (extract := fun i => extractV i Q nU) (ni := nU) (nj := nV)
    (by omega) (by omega) (fun i j => pf Q (i + nU * j))
    (by
      intro i hi
      obtain ⟨L, e, hl, h⟩ := C77_extract_v (nU := nU) (by omega) hQ hi
      refine ⟨L, e, hl, fun t ht => ?_⟩
      have := h t ht
      rw [hQpf i t hi ht] at this
      exact pf_of_some this)
    (hv.imp_right fun h t ht => by
      obtain ⟨i, hi, hne⟩ := h t ht
      rw [hQpf _ _ hi (by omega), hQpf _ _ hi ht] at hne
      exact ⟨i, hi, fun h' => hne (congrArg some h')⟩)
  obtain ⟨ku, eku, -⟩ := C54_averaged_knots (V := ℝ) hp1 (by omega : p + 1 ≤ u.length) hsu
  obtain ⟨kv, ekv, -⟩ := C54_averaged_knots (V := ℝ) hq1 (by omega : q + 1 ≤ v.length) hsv
  obtain ⟨hU, a0, a1, hRu⟩ := averaged_coll hp1 (by omega : p + 1 ≤ u.length) hsu eku
  obtain ⟨hV, b0, b1, hRv⟩ := averaged_coll hq1 (by omega : q + 1 ≤ v.length) hsv ekv
  obtain ⟨c0, c1⟩ := averaged_clamped hp1 (by omega : p + 1 ≤ u.length) hsu eku
  obtain ⟨d0, d1⟩ := averaged_clamped hq1 (by omega : q + 1 ≤ v.length) hsv ekv
  have hQ' : Q.length = u.length * v.length := by rw [hQ, hlu, hlv]
  obtain ⟨P, eP, hlP, hP⟩ := C77_build_poles_grid heps junk hp hq hQ' hU hV (Regular_grid hU hp hRu hS) (Regular_grid hV hq hRv hS)
  obtain ⟨s, es, hs, hwf, hval⟩ := surf_clamped heps hU hV hlP hp hq (by rw [hlu, hlv]; exact hmem) c0 c1 d0 d1
  have hlu' := hU.len
  have hlv' := hV.len
  refine ⟨s, u, v, ?_, hwf, by rw [hs], by rw [hs], ?_, ?_, hlu, hlv, hsu, hsv, ?_, ?_, ?_, ?_, ?_, ?_, by rw [hs]; exact eku,
    by rw [hs]; exact ekv, ?_⟩
  · unfold interpolateGrid
    rw [if_neg (by omega), if_neg (by rw [hQ, Nat.mul_mod_left]; simp)]
    dsimp only
    rw [hQ, Nat.mul_div_cancel _ (by omega), ew0, R_bind_ok, eu, R_bind_ok, eku, R_bind_ok, ew1, R_bind_ok, ev, R_bind_ok, ekv, R_bind_ok, eP,
      R_bind_ok, es]
  · rw [hs]; show ku.length - (p + 1) = nU; omega
  · rw [hs]; show kv.length - (q + 1) = nV; omega
  · intro i hi
    rw [kf_getElem? (by omega), huv i hi]
  · intro j hj
    rw [kf_getElem? (by omega), hvv j hj]
  · rw [hs, List.head?_eq_getElem?, kf_getElem? (by omega)]; exact congrArg some a0
  · rw [hs, List.getLast?_eq_getElem?, kf_getElem? (by omega)]; exact congrArg some a1
  · rw [hs, List.head?_eq_getElem?, kf_getElem? (by omega)]; exact congrArg some b0
  · rw [hs, List.getLast?_eq_getElem?, kf_getElem? (by omega)]; exact congrArg some b1
  · intro i j a b x ha hb hx junk'
    have hle : u.Pairwise (· ≤ ·) := hsu.imp le_of_lt
    have hle' : v.Pairwise (· ≤ ·) := hsv.imp le_of_lt
    have hev := hP i j a b x ha hb (by rw [hlu]; exact hx) junk'
    obtain ⟨hi, rfl⟩ := kf_of_some ha
    obtain ⟨hj, rfl⟩ := kf_of_some hb
    obtain ⟨su, hsu'⟩ := exists_spans hU u
    obtain ⟨sv, hsv'⟩ := exists_spans hV v
    rw [evalSurf_spec (eps := eps) hU hV hlP (Or.inl ⟨hp, hq⟩) 0 0 (hsu'.find i hi) (hsv'.find j hj)] at hev
    rw [hval _ _ _ _ (by rw [a0]; exact kf_mono hle (by omega)) (by rw [a1]; exact kf_mono hle (by omega))
      (by rw [b0]; exact kf_mono hle' (by omega)) (by rw [b1]; exact kf_mono hle' (by omega)) (hsu'.find i hi) (hsv'.find j hj)]
    exact hev

/-- C77: a size that is not a multiple of the number of rows throws `length_error`. -/
theorem C77_interpolate_throws (eps junk : K) (dist : V → V → K) (sqrt : K → K) (dense : ℕ → (ℕ → ℕ → K) → List V → R (List V)) {Q : List V}
    {nV : ℕ} (p q : ℕ) (mode : KnotsCalcMode) (h0 : 1 ≤ nV) (h : ¬ nV ∣ Q.length) :
    interpolateGrid eps junk dist sqrt dense Q nV p q mode = .error (.thrown .length) := by
  unfold interpolateGrid
  rw [if_neg (by omega), if_pos (fun h' => h (Nat.dvd_of_mod_eq_zero h'))]

/-! ## Constraints on values and derivatives -/

/-- The constraints determine the poles: only null poles give the value 0 at each constraint. -/
def Spec.Unisolvent (eps : K) (ku kv : List K) (p q n : ℕ) (cs : List (SConstr K V)) : Prop :=
  ∀ P : List K, P.length = n → (∀ x ∈ cs, ∀ junk, evalSurf eps junk x.u x.v ku kv P p q x.du x.dv = .ok 0) → ∀ y ∈ P, y = 0

/-- C77, `build_poles` for constraints: on well-formed knots with as many poles as constraints, when the constraints determine the poles and
the solver solves regular systems, the surface of the poles meets each constraint, a value or a derivative of any orders. -/
theorem C77_build_poles_constraints {eps : K} (junk : K) {p q n m : ℕ} (hp : p ≤ stackMaxDegree) (hq : q ≤ stackMaxDegree)
    {dense : ℕ → (ℕ → ℕ → K) → List V → R (List V)} (hS : Spec.SolvesDense dense) {cs : List (SConstr K V)} {ku kv : List K}
    (hU : KWf p ku n) (hV : KWf q kv m) (hn : cs.length = n * m) (hreg : Spec.Unisolvent eps ku kv p q (n * m) cs) :
    ∃ P, buildPolesSurf eps junk dense cs ku kv p q = .ok P ∧ P.length = n * m ∧
      ∀ x ∈ cs, ∀ junk', evalSurf eps junk' x.u x.v ku kv P p q x.du x.dv = .ok x.x := by
  obtain ⟨su, sv, hsp⟩ := exists_spansS hU hV cs
  obtain ⟨N, eN, hN⟩ := surfConstrRows_spec hU hV hp hq hsp eps junk
  rw [hn] at hN
  have hev : ∀ {W : Type} [AddCommGroup W] [Module K W] (P : List W), P.length = n * m → ∀ (i : ℕ) x, cs[i]? = some x → ∀ junk',
      evalSurf eps junk' x.u x.v ku kv P p q x.du x.dv = .ok (∑ j ∈ Finset.range (n * m), N i j • pf P j) := by
    intro W _ _ P hP i x hx junk'
    have hi : i < n * m := by
      by_contra hc
      rw [List.getElem?_eq_none (by omega)] at hx
      cases hx
    rw [evalSurf_spec (eps := eps) hU hV hP (Or.inl ⟨hp, hq⟩) x.du x.dv (hsp.u i x hx).1 (hsp.v i x hx).1]
    congr 1
    rw [← sum_collS (cs := cs) hx]
    apply Finset.sum_congr rfl
    intro c hc
    rw [hN i c hi (Finset.mem_range.mp hc)]
  have hR : Spec.Regular (n * m) N := by
    intro x hx j hj
    have := hreg ((List.range (n * m)).map x) (by simp)
      (by
        intro c hc junk'
        obtain ⟨i, hi⟩ := List.getElem?_of_mem hc
        have hil : i < n * m := by
          by_contra hc
          rw [List.getElem?_eq_none (by omega)] at hi
          cases hi
        rw [hev _ (by simp) i c hi junk']
        congr 1
        rw [← hx i hil]
        exact Finset.sum_congr rfl fun j hj => by rw [pf_map_range x (Finset.mem_range.mp hj), smul_eq_mul])
    exact this (x j) (List.mem_map.mpr ⟨j, List.mem_range.mpr hj, rfl⟩)
  obtain ⟨X, eX, hlX, hX⟩ := hS (n * m) N (cs.map SConstr.x) (by simpa using hn) hR
  refine ⟨X, ?_, hlX, ?_⟩
  · unfold buildPolesSurf
    rw [usub_ok (by rw [hU.len]; omega), R_bind_ok, usub_ok (by rw [hV.len]; omega), R_bind_ok,
      show ku.length - (p + 1) = n by rw [hU.len]; omega, show kv.length - (q + 1) = m by rw [hV.len]; omega, hn, eN, R_bind_ok]
    exact eX
  · intro x hx junk'
    obtain ⟨i, hi⟩ := List.getElem?_of_mem hx
    have hil : i < n * m := by
      by_contra hc
      rw [List.getElem?_eq_none (by omega)] at hi
      cases hi
    rw [hev X hlX i x hi junk', hX i hil, pf_of_some (x := x.x) (by rw [List.getElem?_map, hi]; rfl)]

theorem minElem_spec {x : K} {l : List K} : ∃ m, minElem (x :: l) = .ok m ∧ m ∈ x :: l ∧ ∀ y ∈ x :: l, m ≤ y := by
  refine ⟨_, rfl, ?_⟩
  induction l generalizing x with
  | nil => simp
  | cons z l ih =>
    rw [List.foldl_cons]
    obtain ⟨h1, h2⟩ := ih (x := if z < x then z else x)
    constructor
    · rw [List.mem_cons] at h1
      rcases h1 with h | h
      · rw [h]
        split <;> simp
      · exact List.mem_cons_of_mem _ (List.mem_cons_of_mem _ h)
    · have h0 := h2 _ List.mem_cons_self
      intro y hy
      rw [List.mem_cons, List.mem_cons] at hy
      rcases hy with rfl | rfl | hy
      · refine h0.trans ?_
        split
        · rename_i h; exact h.le
        · exact le_rfl
      · refine h0.trans ?_
        split
        · exact le_rfl
        · rename_i h; exact not_lt.mp h
      · exact h2 y (List.mem_cons_of_mem _ hy)

theorem maxElem_spec {x : K} {l : List K} : ∃ m, maxElem (x :: l) = .ok m ∧ m ∈ x :: l ∧ ∀ y ∈ x :: l, y ≤ m := by
  refine ⟨_, rfl, ?_⟩
  induction l generalizing x with
  | nil => simp
  | cons z l ih =>
    rw [List.foldl_cons]
    obtain ⟨h1, h2⟩ := ih (x := if x < z then z else x)
    constructor
    · rw [List.mem_cons] at h1
      rcases h1 with h | h
      · rw [h]
        split <;> simp
      · exact List.mem_cons_of_mem _ (List.mem_cons_of_mem _ h)
    · have h0 := h2 _ List.mem_cons_self
      intro y hy
      rw [List.mem_cons, List.mem_cons] at hy
      rcases hy with rfl | rfl | hy
      · refine le_trans ?_ h0
        split
        · rename_i h; exact h.le
        · exact le_rfl
      · refine le_trans ?_ h0
        split
        · exact le_rfl
        · rename_i h; exact not_lt.mp h
      · exact h2 y (List.mem_cons_of_mem _ hy)

/-- The knots of `interpolate` for constraints. -/
theorem rangeMultFlatKnots_spec {u1 u2 : K} (h12 : u1 < u2) (e p mult : ℕ) :
    ∃ k, rangeMultFlatKnots u1 u2 (2 + e) p mult = .ok k ∧ KWf p k (p + 1 + mult * e) ∧ kf k 0 = u1 ∧ kf k p = u1 ∧
      kf k (p + 1 + mult * e) = u2 ∧ kLast k = u2 := by
  obtain ⟨L, eL, hl, hh, hla, hL⟩ := (C33_make_range u1 u2 (2 + e)).2 (by omega)
  have hd : (0 : K) < ((2 + e : ℕ) : K) - 1 := by push_cast; have : (0 : K) ≤ e := Nat.cast_nonneg e; linarith
  have hsort : L.Pairwise (· < ·) := by
    rw [List.pairwise_iff_getElem]
    intro i j hi hj hij
    have a := hL i (by omega)
    have b := hL j (by omega)
    rw [List.getElem?_eq_getElem hi] at a
    rw [List.getElem?_eq_getElem hj] at b
    rw [Option.some.inj a, Option.some.inj b]
    have : (i : K) < j := by exact_mod_cast hij
    have hstep : 0 < (u2 - u1) / (((2 + e : ℕ) : K) - 1) := div_pos (by linarith) hd
    nlinarith
  cases L with
  | nil => simp at hl; omega
  | cons x ys' =>
    have hne : ys' ≠ [] := by rintro rfl; simp at hl; omega
    obtain ⟨ys, z, rfl⟩ : ∃ ys z, ys' = ys ++ [z] := ⟨ys'.dropLast, ys'.getLast hne, (List.dropLast_append_getLast hne).symm⟩
    have hx : x = u1 := by simpa using hh
    have hz : z = u2 := by
      rw [← List.cons_append, List.getLast?_append] at hla
      simpa using hla
    have hly : ys.length = e := by simp at hl; omega
    obtain ⟨k, ek, hk, hwf⟩ := C54_mult_knots (V := K) (p := p) (mult := mult) hsort
    have hU : KWf p k (p + 1 + mult * e) := by
      have h := (hwf (List.replicate (p + 1 + mult * e) 0) (by simp [hly])).kwf
      rwa [List.length_replicate] at h
    have hlk := hU.len
    have hfl : (ys.flatMap fun y => List.replicate mult y).length = mult * e := by
      rw [List.length_flatMap]; simp [hly, mul_comm]
    have g0 : ∀ i, i ≤ p → kf k i = u1 := by
      intro i hi
      have : k[i]? = some u1 := by
        rw [hk, List.getElem?_append_left (by simp; omega), List.getElem?_replicate, if_pos (by omega), hx]
      exact (kf_of_some this).2
    have g1 : ∀ i, p + 1 + mult * e ≤ i → i < k.length → kf k i = u2 := by
      intro i h1 h2
      have : k[i]? = some u2 := by
        rw [hk, List.getElem?_append_right (by simp; omega), List.getElem?_append_right (by simp [hfl]; omega), List.getElem?_replicate,
          if_pos (by simp [hfl]; omega), hz]
      exact (kf_of_some this).2
    refine ⟨k, ?_, hU, g0 0 (by omega), g0 p le_rfl, g1 _ le_rfl (by omega), ?_⟩
    · unfold rangeMultFlatKnots
      rw [eL, R_bind_ok, ek]
    · unfold kLast
      exact g1 _ (by omega) (by omega)

/-- C77, interpolation of constraints: for at least one constraint, all within the bounds, a number of them that is the product of numbers of
poles `nU ≥ p + 1` and `nV ≥ q + 1` with `nU - p - 1` and `nV - q - 1` multiples of the multiplicities asked for, the returned surface has
those numbers of poles, the bounds asked for, and meets each constraint, provided that the constraints determine the poles and that the
solver solves regular systems. -/
theorem C77_interpolate_constraints {eps : K} (heps : 0 < eps) (junk : K) {p q nU nV mu mv : ℕ} (hp : p ≤ stackMaxDegree)
    (hq : q ≤ stackMaxDegree) {dense : ℕ → (ℕ → ℕ → K) → List V → R (List V)} (hS : Spec.SolvesDense dense) {cs : List (SConstr K V)}
    (hn : cs.length = nU * nV) (hnU : p + 1 ≤ nU) (hnV : q + 1 ≤ nV) {u1 u2 v1 v2 : K} (hu : u1 < u2) (hv : v1 < v2) (hmu : 1 ≤ mu)
    (hmv : 1 ≤ mv) (hdu : mu ∣ nU - (p + 1)) (hdv : mv ∣ nV - (q + 1)) (hmem : (nU + p + 1) * (nV + q + 1) < 2 ^ 64)
    (hin : ∀ x ∈ cs, u1 ≤ x.u ∧ x.u ≤ u2 ∧ v1 ≤ x.v ∧ x.v ≤ v2)
    (hreg : ∀ ku kv, rangeMultFlatKnots u1 u2 (2 + (nU - (p + 1)) / mu) p mu = .ok ku →
      rangeMultFlatKnots v1 v2 (2 + (nV - (q + 1)) / mv) q mv = .ok kv → Spec.Unisolvent eps ku kv p q (nU * nV) cs) :
    ∃ s, interpolateSurfConstr eps junk dense cs nV p q u1 u2 v1 v2 mu mv = .ok s ∧ s.Wf ∧ s.degU = p ∧ s.degV = q ∧ s.nPU = nU ∧
      s.nPV = nV ∧ s.u0 = u1 ∧ s.u1 = u2 ∧ s.v0 = v1 ∧ s.v1 = v2 ∧
      ∀ x ∈ cs, ∀ junk', s.value eps junk' x.u x.v x.du x.dv = .ok x.x := by
  obtain ⟨ku, eku, hU, a0, a1, a2, a3⟩ := rangeMultFlatKnots_spec hu ((nU - (p + 1)) / mu) p mu
  obtain ⟨kv, ekv, hV, b0, b1, b2, b3⟩ := rangeMultFlatKnots_spec hv ((nV - (q + 1)) / mv) q mv
  rw [Nat.mul_div_cancel' hdu, show p + 1 + (nU - (p + 1)) = nU by omega] at hU a2
  rw [Nat.mul_div_cancel' hdv, show q + 1 + (nV - (q + 1)) = nV by omega] at hV b2
  obtain ⟨P, eP, hlP, hP⟩ := C77_build_poles_constraints (eps := eps) junk hp hq hS hU hV hn (hreg ku kv eku ekv)
  obtain ⟨s, es, hs, hwf, hval⟩ := surf_clamped heps hU hV hlP hp hq hmem (by rw [a0, a1]) (by rw [a2, a3]) (by rw [b0, b1]) (by rw [b2, b3])
  have hlu := hU.len
  have hlv := hV.len
  have hpos : 0 < cs.length := by rw [hn]; exact Nat.mul_pos (by omega) (by omega)
  refine ⟨s, ?_, hwf, by rw [hs], by rw [hs], ?_, ?_, by rw [hs, ← a1], by rw [hs, ← a2], by rw [hs, ← b1], by rw [hs, ← b2], ?_⟩
  · cases cs with
    | nil => simp at hpos
    | cons c l =>
      obtain ⟨m1, e1, h1, -⟩ := minElem_spec (x := c.u) (l := l.map SConstr.u)
      obtain ⟨m2, e2, h2, -⟩ := maxElem_spec (x := c.u) (l := l.map SConstr.u)
      obtain ⟨m3, e3, h3, -⟩ := minElem_spec (x := c.v) (l := l.map SConstr.v)
      obtain ⟨m4, e4, h4, -⟩ := maxElem_spec (x := c.v) (l := l.map SConstr.v)
      rw [← List.map_cons] at h1 h2 h3 h4 e1 e2 e3 e4
      obtain ⟨x1, i1, rfl⟩ := List.mem_map.mp h1
      obtain ⟨x2, i2, rfl⟩ := List.mem_map.mp h2
      obtain ⟨x3, i3, rfl⟩ := List.mem_map.mp h3
      obtain ⟨x4, i4, rfl⟩ := List.mem_map.mp h4
      unfold interpolateSurfConstr
      rw [e1, R_bind_ok, e2, R_bind_ok, e3, R_bind_ok, e4, R_bind_ok, if_neg, if_neg (by omega),
        if_neg (by rw [hn, Nat.mul_mod_left]; simp)]
      · dsimp only
        rw [hn, Nat.mul_div_cancel _ (by omega), usub_ok (by omega), R_bind_ok, if_neg (by omega), eku, R_bind_ok, usub_ok (by omega), R_bind_ok,
          if_neg (by omega), ekv, R_bind_ok, usub_ok (by omega), R_bind_ok, if_neg (by omega), usub_ok (by omega), R_bind_ok, if_neg (by omega),
          eP, R_bind_ok, es]
      · have q1 := hin x1 i1
        have q2 := hin x2 i2
        have q3 := hin x3 i3
        have q4 := hin x4 i4
        push Not
        exact ⟨q1.1, q2.2.1, q3.2.2.1, q4.2.2.2⟩
  · rw [hs]; show ku.length - (p + 1) = nU; omega
  · rw [hs]; show kv.length - (q + 1) = nV; omega
  · intro x hx junk'
    obtain ⟨su, sv, hsp⟩ := exists_spansS hU hV cs
    obtain ⟨i, hi⟩ := List.getElem?_of_mem hx
    obtain ⟨q1, q2, q3, q4⟩ := hin x hx
    rw [hval x.u x.v _ _ (by rw [a1]; exact q1) (by rw [a2]; exact q2) (by rw [b1]; exact q3) (by rw [b2]; exact q4) (hsp.u i x hi).1
      (hsp.v i x hi).1, ← hP x hx junk', evalSurf_spec (eps := eps) hU hV hlP (Or.inl ⟨hp, hq⟩) _ _ (hsp.u i x hi).1 (hsp.v i x hi).1]

/-- C77: a constraint outside of the bounds throws `invalid_argument`; otherwise a number of constraints that is not a multiple of the number
of poles along V throws `length_error`. -/
theorem C77_constraints_throw {eps : K} (junk : K) (dense : ℕ → (ℕ → ℕ → K) → List V → R (List V)) {cs : List (SConstr K V)} (hne : cs ≠ [])
    (nV p q : ℕ) (u1 u2 v1 v2 : K) (mu mv : ℕ) :
    ((∃ x ∈ cs, x.u < u1 ∨ u2 < x.u ∨ x.v < v1 ∨ v2 < x.v) →
      interpolateSurfConstr eps junk dense cs nV p q u1 u2 v1 v2 mu mv = .error (.thrown .invalid)) ∧
    ((∀ x ∈ cs, u1 ≤ x.u ∧ x.u ≤ u2 ∧ v1 ≤ x.v ∧ x.v ≤ v2) → 1 ≤ nV → ¬ nV ∣ cs.length →
      interpolateSurfConstr eps junk dense cs nV p q u1 u2 v1 v2 mu mv = .error (.thrown .length)) := by
  cases cs with
  | nil => exact absurd rfl hne
  | cons c l =>
    obtain ⟨m1, e1, h1, g1⟩ := minElem_spec (x := c.u) (l := l.map SConstr.u)
    obtain ⟨m2, e2, h2, g2⟩ := maxElem_spec (x := c.u) (l := l.map SConstr.u)
    obtain ⟨m3, e3, h3, g3⟩ := minElem_spec (x := c.v) (l := l.map SConstr.v)
    obtain ⟨m4, e4, h4, g4⟩ := maxElem_spec (x := c.v) (l := l.map SConstr.v)
    rw [← List.map_cons] at h1 h2 h3 h4 e1 e2 e3 e4 g1 g2 g3 g4
    unfold interpolateSurfConstr
    rw [e1, R_bind_ok, e2, R_bind_ok, e3, R_bind_ok, e4, R_bind_ok]
    constructor
    · rintro ⟨x, hx, h⟩
      rw [if_pos]
      have k1 := g1 x.u (List.mem_map.mpr ⟨x, hx, rfl⟩)
      have k2 := g2 x.u (List.mem_map.mpr ⟨x, hx, rfl⟩)
      have k3 := g3 x.v (List.mem_map.mpr ⟨x, hx, rfl⟩)
      have k4 := g4 x.v (List.mem_map.mpr ⟨x, hx, rfl⟩)
      rcases h with h | h | h | h
      · exact Or.inl (lt_of_le_of_lt k1 h)
      · exact Or.inr (Or.inl (lt_of_lt_of_le h k2))
      · exact Or.inr (Or.inr (Or.inl (lt_of_le_of_lt k3 h)))
      · exact Or.inr (Or.inr (Or.inr (lt_of_lt_of_le h k4)))
    · intro hin hV hdvd
      obtain ⟨x1, i1, rfl⟩ := List.mem_map.mp h1
      obtain ⟨x2, i2, rfl⟩ := List.mem_map.mp h2
      obtain ⟨x3, i3, rfl⟩ := List.mem_map.mp h3
      obtain ⟨x4, i4, rfl⟩ := List.mem_map.mp h4
      have q1 := hin x1 i1
      have q2 := hin x2 i2
      have q3 := hin x3 i3
      have q4 := hin x4 i4
      rw [if_neg, if_neg (by omega), if_pos (fun h => hdvd (Nat.dvd_of_mod_eq_zero h))]
      push Not
      exact ⟨q1.1, q2.2.1, q3.2.2.1, q4.2.2.2⟩

/-- C77: values at each pair of parameters of two strictly increasing lists determine the poles of a surface on their averaged knots. -/
theorem C77_grid_unisolvent {eps : K} {p q : ℕ} (hp1 : 1 ≤ p) (hp : p ≤ stackMaxDegree) (hq1 : 1 ≤ q) (hq : q ≤ stackMaxDegree) {u v : List K}
    (hnu : p + 1 ≤ u.length) (hnv : q + 1 ≤ v.length) (hu : u.Pairwise (· < ·)) (hv : v.Pairwise (· < ·)) {ku kv : List K}
    (eu : averagedFlatKnots u p = .ok ku) (ev : averagedFlatKnots v q = .ok kv) {cs : List (SConstr K V)}
    (hcs : ∀ a ∈ u, ∀ b ∈ v, ∃ x ∈ cs, x.u = a ∧ x.v = b ∧ x.du = 0 ∧ x.dv = 0) :
    Spec.Unisolvent eps ku kv p q (u.length * v.length) cs := by
  intro P hP h0
  obtain ⟨hU, -, -, hRu⟩ := averaged_coll hp1 hnu hu eu
  obtain ⟨hV, -, -, hRv⟩ := averaged_coll hq1 hnv hv ev
  obtain ⟨su, hsu⟩ := exists_spans hU u
  obtain ⟨sv, hsv⟩ := exists_spans hV v
  have hRu := hRu su hsu
  have hRv := hRv sv hsv
  have s1 := fun i => sum_coll (n := u.length) (U := ku) (u := u) (p := p) (sp := su) (i := i) (d := 0) (nc := 1) (V := K) (by omega)
  have s2 := fun i => sum_coll (n := v.length) (U := kv) (u := v) (p := q) (sp := sv) (i := i) (d := 0) (nc := 1) (V := K) (by omega)
  simp only [one_mul, Nat.add_zero] at s1 s2
  have key : ∀ i j, i < u.length → j < v.length → ∑ b ∈ Finset.range v.length, coll kv v q 1 sv j b *
      ∑ a ∈ Finset.range u.length, coll ku u p 1 su i a * pf P (a + u.length * b) = 0 := by
    intro i j hi hj
    obtain ⟨x, hx, e1, e2, e3, e4⟩ := hcs (u[i]) (List.getElem_mem hi) (v[j]) (List.getElem_mem hj)
    have h := h0 x hx 0
    rw [e1, e2, e3, e4, ← kf_of_lt hi, ← kf_of_lt hj,
      evalSurf_spec (eps := eps) hU hV hP (Or.inl ⟨hp, hq⟩) 0 0 (hsu.find i hi) (hsv.find j hj)] at h
    have h := Except.ok.inj h
    unfold surfDer at h
    rw [← h, ← s2 j]
    apply Finset.sum_congr rfl
    intro b _
    rw [smul_eq_mul, ← s1 i]
    rfl
  have k2 : ∀ j, j < v.length → ∀ a, a < u.length → ∑ b ∈ Finset.range v.length, coll kv v q 1 sv j b * pf P (a + u.length * b) = 0 := by
    intro j hj
    apply hRu
    intro i hi
    rw [← key i j hi hj]
    simp only [Finset.mul_sum]
    rw [Finset.sum_comm]
    apply Finset.sum_congr rfl
    intro b _
    apply Finset.sum_congr rfl
    intro a _
    ring
  have k3 : ∀ a, a < u.length → ∀ b, b < v.length → pf P (a + u.length * b) = 0 := fun a ha => hRv _ fun j hj => k2 j hj a ha
  intro y hy
  obtain ⟨c, hc⟩ := List.getElem?_of_mem hy
  have hcl : c < u.length * v.length := by
    by_contra h
    rw [List.getElem?_eq_none (by omega)] at hc
    cases hc
  have hupos : 0 < u.length := by omega
  have := k3 (c % u.length) (Nat.mod_lt _ hupos) (c / u.length) (Nat.div_lt_of_lt_mul hcl)
  rw [Nat.mod_add_div, pf_of_some hc] at this
  exact this

/-! ## Instances -/

/-- A grid of 3 by 2 points of the plane whose first column is a single point twice. -/
example : ∃ dense s, ∃ u v : List ℝ, interpolateGrid (1/1000 : ℝ) 7 eDist Real.sqrt dense
    [(![0, 0] : Fin 2 → ℝ), ![1, 0], ![2, 1], ![0, 0], ![1, 2], ![2, 3]] 2 2 1 .chordLength = .ok s ∧ u.length = 3 ∧ v.length = 2 ∧
    ∀ a b, u[2]? = some a → v[1]? = some b → s.value (1/1000) 7 a b = .ok ![2, 3] := by
  obtain ⟨dense, hS⟩ := exists_solvesDense (K := ℝ) (V := Fin 2 → ℝ)
  have h1 : (![0, 0] : Fin 2 → ℝ) ≠ ![1, 0] := fun h => by have := congrFun h 0; norm_num at this
  have h2 : (![1, 0] : Fin 2 → ℝ) ≠ ![2, 1] := fun h => by have := congrFun h 0; norm_num at this
  have h3 : (![1, 0] : Fin 2 → ℝ) ≠ ![1, 2] := fun h => by have := congrFun h 1; norm_num at this
  obtain ⟨s, u, v, e, -, -, -, -, -, hu, hv, -, -, -, -, -, -, -, -, -, -, h⟩ := C77_interpolate_grid (dim := 2) (eps := (1/1000 : ℝ)) (by norm_num) 7 hS
    (Q := [(![0, 0] : Fin 2 → ℝ), ![1, 0], ![2, 1], ![0, 0], ![1, 2], ![2, 3]]) (nU := 3) (nV := 2) (p := 2) (q := 1) rfl (by decide)
    (by decide) (by decide) (by decide) (by decide) (by decide) (by norm_num) .chordLength
    (Or.inr fun i hi => by
      refine ⟨0, by decide, ?_⟩
      have : i = 0 ∨ i = 1 := by omega
      rcases this with rfl | rfl
      · simpa using h1
      · simpa using h2)
    (Or.inr fun j hj => by
      obtain rfl : j = 0 := by omega
      exact ⟨1, by decide, by simpa using h3⟩)
  exact ⟨dense, s, u, v, e, hu, hv, fun a b ha hb => h 2 1 a b _ ha hb rfl 7⟩

/-- Four values at the corners. -/
def cornersC77 : List (SConstr ℚ ℚ) := [⟨0, 0, 5, 0, 0⟩, ⟨1, 0, 1, 0, 0⟩, ⟨1, 1, 2, 0, 0⟩, ⟨0, 1, -3, 0, 0⟩]

example : ∃ dense s, interpolateSurfConstr (1/1000 : ℚ) 7 dense cornersC77 2 1 1 0 1 0 1 1 1 = .ok s ∧ s.value (1/1000) 7 1 1 = .ok 2 := by
  obtain ⟨dense, hS⟩ := exists_solvesDense (K := ℚ) (V := ℚ)
  obtain ⟨s, e, -, -, -, -, -, -, -, -, -, h⟩ := C77_interpolate_constraints (eps := (1/1000 : ℚ)) (by norm_num) 7 (p := 1) (q := 1) (nU := 2)
    (nV := 2) (mu := 1) (mv := 1) (by decide) (by decide) hS (cs := cornersC77) rfl (by decide) (by decide) (u1 := 0) (u2 := 1) (v1 := 0)
    (v2 := 1) (by norm_num) (by norm_num) (by decide) (by decide) (by decide) (by decide) (by norm_num) (by decide +kernel)
    (by
      intro ku kv eu ev
      have e0 : rangeMultFlatKnots (0 : ℚ) 1 (2 + (2 - (1 + 1)) / 1) 1 1 = averagedFlatKnots [0, 1] 1 := by decide +kernel
      rw [e0] at eu ev
      exact C77_grid_unisolvent (u := [0, 1]) (v := [0, 1]) (by decide) (by decide) (by decide) (by decide) (by decide) (by decide)
        (by decide +kernel) (by decide +kernel) eu ev (by decide +kernel))
  exact ⟨dense, s, e, h ⟨1, 1, 2, 0, 0⟩ (by simp [cornersC77]) 7⟩

end Gbs
