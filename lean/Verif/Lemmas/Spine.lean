import Verif.Model.Spine
import Verif.Props.Loft
import Verif.Props.LoftAuto

/-! # Lemmas on the loft on a spine -/

namespace Gbs

set_option linter.unusedSectionVars false

open Polynomial
open scoped BigOperators

variable {K : Type} [Field K] [LinearOrder K] [IsStrictOrderedRing K]
variable {V : Type} [AddCommGroup V] [Module K V]
variable {P : Type} [AddCommGroup P] [Module K P]

/-! ## Specification of the parameters and of the tangents -/

/-- Length of the chords up to point `j`. -/
def Spec.chordLen (dist : P → P → K) (x : ℕ → P) (j : ℕ) : K := ∑ k ∈ Finset.range j, dist (x (k + 1)) (x k)

/-- Normalised parameter of point `j` of `n`; a polygon shorter than the tolerance is not normalised. -/
def Spec.chordParam (eps : K) (dist : P → P → K) (x : ℕ → P) (n j : ℕ) : K :=
  if eps < Spec.chordLen dist x (n - 1) then Spec.chordLen dist x j / Spec.chordLen dist x (n - 1) else Spec.chordLen dist x j

/-- Parameter of section `j`: the average over the `nu` rows of poles, `x i j` being pole `i` of section `j`. -/
def Spec.spineParam (eps : K) (dist : P → P → K) (x : ℕ → ℕ → P) (nu n j : ℕ) : K :=
  (∑ i ∈ Finset.range nu, Spec.chordParam eps dist (x i) n j) / nu

/-- Factor of the tangent at section `k` of `n`: distance of the poles to those of the neighbouring sections, over the distance of the points of the
spine. -/
def Spec.spineFactor (nrm : V → K) (x y : ℕ → V) (n k : ℕ) : K :=
  if k = 0 then nrm (x 1 - x 0) / nrm (y 1 - y 0)
  else if k + 1 = n then nrm (x (n - 1) - x (n - 2)) / nrm (y (n - 1) - y (n - 2))
  else (nrm (x (k + 1) - x k) + nrm (x k - x (k - 1))) / (nrm (y (k + 1) - y k) + nrm (y k - y (k - 1)))

theorem chordLen_mono {dist : P → P → K} (h0 : ∀ a b, 0 ≤ dist a b) (x : ℕ → P) : Monotone (Spec.chordLen dist x) := by
  apply monotone_nat_of_le_succ
  intro n
  unfold Spec.chordLen
  rw [Finset.sum_range_succ]
  have := h0 (x (n + 1)) (x n)
  linarith

theorem chordLen_nonneg {dist : P → P → K} (h0 : ∀ a b, 0 ≤ dist a b) (x : ℕ → P) (j : ℕ) : 0 ≤ Spec.chordLen dist x j :=
  Finset.sum_nonneg fun _ _ => h0 _ _

theorem chordParam_mono {eps : K} (heps : 0 < eps) {dist : P → P → K} (h0 : ∀ a b, 0 ≤ dist a b) (x : ℕ → P) (n : ℕ) :
    Monotone (Spec.chordParam eps dist x n) := by
  intro i j hij
  have hm := chordLen_mono h0 x hij
  unfold Spec.chordParam
  split
  · rename_i h
    exact div_le_div_of_nonneg_right hm (heps.le.trans h.le)
  · exact hm

theorem spineParam_mono {eps : K} (heps : 0 < eps) {dist : P → P → K} (h0 : ∀ a b, 0 ≤ dist a b) (x : ℕ → ℕ → P) (nu n : ℕ) :
    Monotone (Spec.spineParam eps dist x nu n) := by
  intro i j hij
  unfold Spec.spineParam
  apply div_le_div_of_nonneg_right _ (Nat.cast_nonneg _)
  exact Finset.sum_le_sum fun a _ => chordParam_mono heps h0 (x a) n hij

theorem spineParam_zero (eps : K) (dist : P → P → K) (x : ℕ → ℕ → P) (nu n : ℕ) : Spec.spineParam eps dist x nu n 0 = 0 := by
  unfold Spec.spineParam Spec.chordParam Spec.chordLen
  simp

theorem kf_cumulate (dist : P → P → K) : ∀ (xs : List P) (x : P) (a : K) (j : ℕ), j ≤ xs.length →
    kf (a :: cumulate dist a x xs) j = a + Spec.chordLen dist (pf (x :: xs)) j := by
  intro xs x a j hj
  induction j with
  | zero => simp [Spec.chordLen, kf_of_some (show (a :: cumulate dist a x xs)[0]? = some a from rfl)]
  | succ j ih =>
    have h1 : (x :: xs)[j]? = some (pf (x :: xs) j) := pf_getElem? (by simp; omega)
    have h2 : (x :: xs)[j + 1]? = some (pf (x :: xs) (j + 1)) := pf_getElem? (by simp; omega)
    obtain ⟨s, t, e1, e2, e3⟩ := cumulate_step dist xs a x j _ _ h1 h2
    have := ih (by omega)
    rw [(kf_of_some e1).2] at this
    rw [(kf_of_some e2).2]
    unfold Spec.chordLen at this ⊢
    rw [Finset.sum_range_succ, ← add_assoc, ← this, ← e3]
    ring

theorem chord_params {eps : K} (heps : 0 < eps) {dist : P → P → K} (h0 : ∀ a b, 0 ≤ dist a b) (f : K → K) {L : List P} (hL : 1 ≤ L.length) :
    ∃ k, curveParametrization eps dist f L .chordLength true = .ok k ∧ k.length = L.length ∧
      ∀ j, j < L.length → kf k j = Spec.chordParam eps dist (pf L) L.length j := by
  cases L with
  | nil => simp at hL
  | cons x xs =>
    unfold curveParametrization
    simp only [if_true]
    set k0 := (0 : K) :: cumulate dist 0 x xs with hk0
    have hl0 : k0.length = xs.length + 1 := by simp [hk0, cumulate_length]
    have hkf : ∀ j, j ≤ xs.length → kf k0 j = Spec.chordLen dist (pf (x :: xs)) j := by
      intro j hj
      rw [kf_cumulate dist xs x 0 j hj, zero_add]
    obtain ⟨t, ht, -, a1, a2⟩ := adimension_spec heps (k := k0) rfl (cumulate_sorted h0 xs 0 x)
    have htl : t = Spec.chordLen dist (pf (x :: xs)) xs.length := by
      rw [List.getLast?_eq_getElem?, hl0] at ht
      rw [← hkf _ le_rfl]
      exact (kf_of_some ht).2.symm
    have hn : (x :: xs).length - 1 = xs.length := by simp
    unfold Spec.chordParam
    rw [hn, ← htl]
    by_cases h : eps < t
    · refine ⟨_, a1 h, by rw [List.length_map, hl0]; rfl, ?_⟩
      intro j hj
      have hj' : j < k0.length := by rw [hl0]; simpa using hj
      rw [if_pos h, ← hkf j (by simp at hj; omega), (kf_of_some (show (k0.map fun x => x / t)[j]? = some (kf k0 j / t) by
        rw [List.getElem?_map, kf_getElem? hj']; rfl)).2]
    · refine ⟨_, a2 (not_lt.mp h), by rw [hl0]; rfl, ?_⟩
      intro j hj
      rw [if_neg h, ← hkf j (by simp at hj; omega)]

/-! ## Rows of poles -/

/-- The rows of poles of the sections. -/
def poleRows (nu : ℕ) (cs : List (CurveInfo K P)) : List (List P) := (List.range nu).map fun i => cs.map fun c => pf c.poles i

theorem alignedPoles_spec {nu : ℕ} {cs : List (CurveInfo K P)} (h : ∀ c ∈ cs, c.poles.length = nu) :
    alignedPoles nu cs = .ok (poleRows nu cs) := by
  unfold alignedPoles poleRows
  apply mapM_ok
  intro i hi
  apply mapM_ok
  intro c hc
  exact rd_pf (by rw [h c hc]; exact List.mem_range.mp hi)

/-- Pole `i` of section `j`. -/
def poleOf (cs : List (CurveInfo K P)) (i j : ℕ) : P := pf (cs.map fun c => pf c.poles i) j

theorem poleRows_get {nu : ℕ} {cs : List (CurveInfo K P)} {i : ℕ} (hi : i < nu) : (poleRows nu cs)[i]? = some (cs.map fun c => pf c.poles i) := by
  unfold poleRows
  rw [List.getElem?_map, List.getElem?_range hi]
  rfl

theorem poleOf_eq {cs : List (CurveInfo K P)} {i j : ℕ} {c : CurveInfo K P} (h : cs[j]? = some c) : poleOf cs i j = pf c.poles i :=
  pf_of_some (by rw [List.getElem?_map, h]; rfl)

theorem alignedParams_spec {eps : K} (heps : 0 < eps) {dist : P → P → K} (h0 : ∀ a b, 0 ≤ dist a b) {nu : ℕ} (hnu : 1 ≤ nu)
    {cs : List (CurveInfo K P)} (hn : 1 ≤ cs.length) :
    alignedParams eps dist (poleRows nu cs) cs.length =
      .ok ((List.range cs.length).map (Spec.spineParam eps dist (poleOf cs) nu cs.length)) := by
  have hch : ∀ i, ∃ k, curveParametrization eps dist id (cs.map fun c => pf c.poles i) .chordLength true = .ok k ∧ k.length = cs.length ∧
      ∀ j, j < cs.length → kf k j = Spec.chordParam eps dist (poleOf cs i) cs.length j := by
    intro i
    obtain ⟨k, e, hl, h⟩ := chord_params heps h0 id (L := cs.map fun c => pf c.poles i) (by simpa using hn)
    rw [List.length_map] at hl h
    exact ⟨k, e, hl, h⟩
  choose k ek hlk hk using hch
  have hps : (poleRows nu cs).mapM (fun r => curveParametrization eps dist id r .chordLength true) = .ok ((List.range nu).map k) := by
    unfold poleRows
    rw [List.mapM_map]
    exact mapM_ok _ fun i _ => ek i
  unfold alignedParams
  rw [hps, R_bind_ok]
  have hlr : (poleRows nu cs).length = nu := by simp [poleRows]
  apply mapM_ok
  intro j hj
  have hj := List.mem_range.mp hj
  rw [hlr]
  obtain ⟨s, e, hs⟩ := forLt_inv (a := 0) (b := nu) (s := (0 : K)) (body := fun i s => do
      let r ← rd ((List.range nu).map k) i
      let x ← rd r j
      pure (s + x)) (fun i s => s = ∑ a ∈ Finset.range i, Spec.chordParam eps dist (poleOf cs a) cs.length j) (by omega) (by simp)
    (by
      intro i s _ hi hs
      have : ((List.range nu).map k)[i]? = some (k i) := by rw [List.getElem?_map, List.getElem?_range hi]; rfl
      refine ⟨s + kf (k i) j, by rw [rd_eq_ok.mpr this, R_bind_ok, rd_kf (by rw [hlk]; exact hj), R_bind_ok]; rfl, ?_⟩
      rw [hs, Finset.sum_range_succ, hk i j hj])
  rw [e, R_bind_ok, fdiv_ok (by positivity), hs]
  rfl

/-! ## Tangents -/

theorem spineScale_spec {nrm : V → K} (h0 : ∀ x, 0 ≤ nrm x) {pm : List V} {d : List K} {y : ℕ → V} {n k : ℕ} (hn : 2 ≤ n) (hk : k < n) (hl : pm.length = n)
    (hd : d.length = n - 1) (hdy : ∀ k, k + 1 < n → kf d k = nrm (y (k + 1) - y k)) (hpos : ∀ k, k + 1 < n → nrm (y (k + 1) - y k) ≠ 0) :
    spineScale nrm pm d k = .ok (Spec.spineFactor nrm (pf pm) y n k) := by
  unfold spineScale Spec.spineFactor
  rw [usub_ok (by omega), R_bind_ok, hl]
  by_cases h1 : k = 0
  · rw [if_pos h1, if_pos h1, rd_pf (by omega), R_bind_ok, rd_pf (by omega), R_bind_ok, rd_kf (by omega), R_bind_ok, hdy 0 (by omega)]
    exact fdiv_ok (hpos 0 (by omega))
  · rw [if_neg h1, if_neg h1]
    by_cases h2 : k = n - 1
    · rw [if_pos h2, if_pos (by omega), rd_pf (by omega), R_bind_ok, rd_pf (by omega), R_bind_ok, rd_kf (by omega), R_bind_ok, hdy _ (by omega),
        show n - 1 - 1 + 1 = n - 1 by omega, show n - 1 - 1 = n - 2 by omega]
      refine fdiv_ok ?_
      have := hpos (n - 2) (by omega)
      rwa [show n - 2 + 1 = n - 1 by omega] at this
    · rw [if_neg h2, if_neg (by omega), rd_pf (by omega), R_bind_ok, rd_pf (by omega), R_bind_ok, rd_pf (by omega), R_bind_ok, rd_kf (by omega), R_bind_ok,
        rd_kf (by omega), R_bind_ok, hdy _ (by omega), hdy _ (by omega), show k - 1 + 1 = k by omega]
      refine fdiv_ok ?_
      have a1 := hpos k (by omega)
      have a2 := h0 (y (k + 1) - y k)
      have a3 := h0 (y k - y (k - 1))
      positivity

theorem spineFactor_nonneg {nrm : V → K} (h0 : ∀ x, 0 ≤ nrm x) (x y : ℕ → V) (n k : ℕ) : 0 ≤ Spec.spineFactor nrm x y n k := by
  unfold Spec.spineFactor
  split
  · exact div_nonneg (h0 _) (h0 _)
  · split
    · exact div_nonneg (h0 _) (h0 _)
    · exact div_nonneg (add_nonneg (h0 _) (h0 _)) (add_nonneg (h0 _) (h0 _))

theorem spineTangents_spec {eps junk : K} {nrm : V → K} (h0 : ∀ x, 0 ≤ nrm x) (proj : P → V) (lift : K → V → P → P)
    {ext : CurveInfo K P → R (K × K × K)} {spine : Curve K V} {cs : List (CurveInfo K P)} {nu : ℕ} {ts : List K} (hn : 2 ≤ cs.length)
    (hlt : ts.length = cs.length)
    (hext : ∀ (j : ℕ) c t, cs[j]? = some c → ts[j]? = some t → ∃ w e, ext c = .ok (t, w, e))
    {y D : ℕ → V} (hy : ∀ (j : ℕ) t, ts[j]? = some t → spine.value eps junk t 0 = .ok (y j))
    (hD : ∀ (j : ℕ) t, ts[j]? = some t → spine.value eps junk t 1 = .ok (D j))
    (hpos : ∀ k, k + 1 < cs.length → nrm (y (k + 1) - y k) ≠ 0) :
    spineTangents eps junk nrm proj lift ext spine (poleRows nu cs) cs =
      .ok ((List.range nu).map fun i => (List.range cs.length).map fun k =>
        lift (Spec.spineFactor nrm (fun j => proj (poleOf cs i j)) y cs.length k) (D k) (poleOf cs i k)) := by
  unfold spineTangents
  have hts : (cs.mapM fun c => do
      let r ← ext c
      pure r.1) = (.ok ts : R (List K)) := by
    clear hn hy hD hpos
    induction cs generalizing ts with
    | nil => obtain rfl : ts = [] := List.length_eq_zero_iff.mp hlt; rfl
    | cons c cs ih =>
      cases ts with
      | nil => simp at hlt
      | cons t ts =>
        obtain ⟨w, e, h⟩ := hext 0 c t rfl rfl
        rw [List.mapM_cons, h, R_bind_ok]
        rw [show (pure (t, w, e).1 : R K) = .ok t from rfl, R_bind_ok, ih (by simpa using hlt) (fun j c t h1 h2 => hext (j + 1) c t h1 h2), R_bind_ok]
        rfl
  rw [hts, R_bind_ok, usub_ok (by omega), R_bind_ok, hlt]
  have hd : ((List.range (cs.length - 1)).mapM fun k => do
      let t2 ← rd ts (k + 1)
      let t1 ← rd ts k
      let b ← spine.value eps junk t2 0
      let a ← spine.value eps junk t1 0
      pure (nrm (b - a))) = (.ok ((List.range (cs.length - 1)).map fun k => nrm (y (k + 1) - y k)) : R (List K)) := by
    apply mapM_ok
    intro k hk
    have hk := List.mem_range.mp hk
    rw [rd_ok (by omega), R_bind_ok, rd_ok (by omega), R_bind_ok, hy (k + 1) _ (List.getElem?_eq_getElem (by omega)), R_bind_ok,
      hy k _ (List.getElem?_eq_getElem (by omega)), R_bind_ok]
    rfl
  rw [hd, R_bind_ok]
  have hDl : (ts.mapM fun t => spine.value eps junk t 1) = (.ok ((List.range cs.length).map D) : R (List V)) := by
    rw [← hlt]
    clear hd hts hlt hext hy hpos
    induction ts generalizing D with
    | nil => rfl
    | cons t ts ih =>
      rw [List.mapM_cons, hD 0 t rfl, R_bind_ok, ih (D := fun j => D (j + 1)) (fun j t h => hD (j + 1) t h), R_bind_ok, List.length_cons,
        List.range_succ_eq_map, List.map_cons, List.map_map]
      rfl
  rw [hDl, R_bind_ok]
  unfold poleRows
  rw [List.mapM_map]
  apply mapM_ok
  intro i hi
  have hl : (cs.map fun c => pf c.poles i).length = cs.length := List.length_map _
  show List.mapM _ (List.range (cs.map fun c => pf c.poles i).length) = _
  rw [hl]
  apply mapM_ok
  intro k hk
  have hk := List.mem_range.mp hk
  rw [spineScale_spec h0 hn hk (by simp) (by simp) (y := y) (fun k hk => by
      rw [← (kf_of_some (show ((List.range (cs.length - 1)).map fun k => nrm (y (k + 1) - y k))[k]? = some (nrm (y (k + 1) - y k)) by
        rw [List.getElem?_map, List.getElem?_range (by omega)]; rfl)).2]) hpos, R_bind_ok, rd_pf (by simpa using hk), R_bind_ok,
    rd_pf (by simpa using hk), R_bind_ok, pf_map_range D hk]
  have hx : ∀ j, j < cs.length → pf ((cs.map fun c => pf c.poles i).map proj) j = proj (poleOf cs i j) := by
    intro j hj
    rw [pf_map proj (by simpa using hj)]
    rfl
  have : Spec.spineFactor nrm (pf ((cs.map fun c => pf c.poles i).map proj)) y cs.length k =
      Spec.spineFactor nrm (fun j => proj (poleOf cs i j)) y cs.length k := by
    unfold Spec.spineFactor
    split
    · rw [hx 1 (by omega), hx 0 (by omega)]
    · split
      · rw [hx _ (by omega), hx _ (by omega)]
      · rw [hx _ (by omega), hx _ (by omega), hx _ (by omega)]
  rw [this]
  rfl

theorem pf_pairs {n : ℕ} (x t : ℕ → P) : (((List.range n).map fun j => [x j, t j]).flatten).length = 2 * n ∧
    ∀ j, j < n → pf (((List.range n).map fun j => [x j, t j]).flatten) (2 * j) = x j ∧
      pf (((List.range n).map fun j => [x j, t j]).flatten) (2 * j + 1) = t j := by
  induction n with
  | zero => exact ⟨rfl, fun j hj => by omega⟩
  | succ n ih =>
    obtain ⟨hl, h⟩ := ih
    rw [List.range_succ, List.map_append, List.flatten_append]
    refine ⟨by rw [List.length_append, hl]; simp; omega, ?_⟩
    intro j hj
    have hg : ∀ r, pf (((List.range n).map fun j => [x j, t j]).flatten ++ (([n].map fun j => [x j, t j])).flatten) r =
        if r < 2 * n then pf (((List.range n).map fun j => [x j, t j]).flatten) r else pf [x n, t n] (r - 2 * n) := by
      intro r
      unfold pf
      rw [List.getD_eq_getElem?_getD, List.getElem?_append, hl]
      split
      · rw [List.getD_eq_getElem?_getD]
      · rw [List.getD_eq_getElem?_getD]; rfl
    rw [hg, hg]
    by_cases hjn : j < n
    · rw [if_pos (by omega), if_pos (by omega)]
      exact h j hjn
    · obtain rfl : j = n := by omega
      rw [if_neg (by omega), if_neg (by omega), show 2 * j - 2 * j = 0 by omega, show 2 * j + 1 - 2 * j = 1 by omega]
      exact ⟨rfl, rfl⟩

theorem hermiteColumns_spec {nu n : ℕ} (x t : ℕ → ℕ → P) :
    hermiteColumns ((List.range nu).map fun i => (List.range n).map (x i)) ((List.range nu).map fun i => (List.range n).map (t i)) n =
      .ok ((List.range nu).map fun i => ((List.range n).map fun j => [x i j, t i j]).flatten) := by
  unfold hermiteColumns
  rw [List.length_map, List.length_range]
  apply mapM_ok
  intro i hi
  have hi := List.mem_range.mp hi
  rw [rd_eq_ok.mpr (show ((List.range nu).map fun i => (List.range n).map (x i))[i]? = some ((List.range n).map (x i)) by
      rw [List.getElem?_map, List.getElem?_range hi]; rfl), R_bind_ok,
    rd_eq_ok.mpr (show ((List.range nu).map fun i => (List.range n).map (t i))[i]? = some ((List.range n).map (t i)) by
      rw [List.getElem?_map, List.getElem?_range hi]; rfl), R_bind_ok]
  rw [mapM_ok (g := fun j => [x i j, t i j]) _ (fun j hj => by
    have hj := List.mem_range.mp hj
    rw [rd_pf (by simpa using hj), R_bind_ok, rd_pf (by simpa using hj), R_bind_ok, pf_map_range _ hj, pf_map_range _ hj]
    rfl), R_bind_ok]
  rfl

theorem poleRows_eq (nu : ℕ) (cs : List (CurveInfo K P)) :
    poleRows nu cs = (List.range nu).map fun i => (List.range cs.length).map (poleOf cs i) := by
  unfold poleRows
  apply List.map_congr_left
  intro i _
  apply List.ext_getElem (by simp)
  intro j h1 h2
  have h1' : j < cs.length := by simpa using h1
  rw [List.getElem_map, List.getElem_map, List.getElem_range, poleOf_eq (List.getElem?_eq_getElem h1')]

/-! ## The surface -/

/-- The surface whose rows of poles have given points and derivatives across. -/
theorem hermite_surface {eps : K} (heps : 0 < eps) (junk : K) {dense : ℕ → (ℕ → ℕ → K) → List P → R (List P)} (hS : Spec.SolvesDense dense)
    {p q nu n : ℕ} {W flatV v : List K} (hp : p ≤ stackMaxDegree) (hq : q ≤ stackMaxDegree) (hv : v.length = n)
    (hU : KWf p W nu) (hu0 : kf W 0 = kf W p) (hu1 : kLast W = kf W nu)
    (hV : KWf q flatV (2 * n)) (hv0 : kf flatV 0 = kf flatV q) (hv1 : kLast flatV = kf flatV (2 * n))
    (hin : ∀ b ∈ v, kf flatV q ≤ b ∧ b ≤ kf flatV (2 * n))
    (hreg : ∀ sp, Spans flatV v q (2 * n) sp → Spec.Regular (2 * n) (coll flatV v q 2 sp))
    (hmem : (nu + p + 1) * (2 * n + q + 1) < 2 ^ 64) (x t : ℕ → ℕ → P) :
    ∃ X s, loftCore eps junk dense 2 ((List.range nu).map fun i => ((List.range n).map fun j => [x i j, t i j]).flatten) flatV v q = .ok X ∧
      Surface.mk? eps X W flatV p q = .ok s ∧ s.Cl ∧ s.degU = p ∧ s.degV = q ∧ s.u0 = kf W 0 ∧ s.u1 = kLast W ∧ s.v0 = kf flatV q ∧
      s.v1 = kf flatV (2 * n) ∧
      ∀ (j : ℕ) b, v[j]? = some b → ∀ u i, kf W 0 ≤ u → u ≤ kLast W → findSpan nu p u W = .ok i → ∀ junk du,
        s.value eps junk u b du 0 = .ok (spanDer (kf W) nu p i (fun a => x a j) du u) ∧
        s.value eps junk u b du 1 = .ok (spanDer (kf W) nu p i (fun a => t a j) du u) := by
  obtain ⟨sp, hsp⟩ := exists_spans hV v
  obtain ⟨N, eN, hN⟩ := buildPolesMatrix_spec hV hq hsp (nc := 2) (by omega) eps junk
  set B := (List.range nu).map fun i => ((List.range n).map fun j => [x i j, t i j]).flatten with hB
  have hBl : B.length = nu := by simp [hB]
  obtain ⟨X, eX, hlX, hX⟩ := loftCore_spec (eps := eps) (junk := junk) (dense := dense) (nc := 2) (B := B) (flatV := flatV) (v := v) (q := q) (n := 2 * n)
    (by rw [hv]) eN
    (by
      intro c hc
      obtain ⟨i, -, rfl⟩ := List.mem_map.mp hc
      exact (pf_pairs _ _).1)
    (fun c hc => hS _ N c hc (Regular.congr (hreg sp hsp) fun i j hi hj => (hN i j (by omega) hj).symm))
  rw [hBl] at hlX hX
  obtain ⟨s, es, hs, hwf, hval⟩ := surf_clamped heps hU hV hlX hp hq hmem hu0 hu1 hv0 hv1
  have hcl : s.Cl := by
    have hnu : s.nPU = nu := by
      have := hU.len
      rw [hs]
      show W.length - p - 1 = nu
      omega
    have hnv : s.nPV = 2 * n := by
      have := hV.len
      rw [hs]
      show flatV.length - q - 1 = 2 * n
      omega
    refine ⟨hwf, by rw [hs]; exact hp, by rw [hs]; exact hq, by rw [hs]; exact hu0, by rw [hs], ?_, by rw [hs]; exact hu1, by rw [hs]; exact hv0, by rw [hs], ?_,
      by rw [hs]; exact hv1⟩
    · rw [hnu, hs]
    · rw [hnv, hs]
  refine ⟨X, s, eX, es, hcl, by rw [hs], by rw [hs], by rw [hs, hu0], by rw [hs, hu1], by rw [hs], by rw [hs], ?_⟩
  intro j b hb u i h1 h2 hi junk1 du
  obtain ⟨hj, rfl⟩ := kf_of_some hb
  obtain ⟨z1, z2⟩ := hin (kf v j) (kf_mem (by rintro rfl; simp at hj) j)
  have key : ∀ d, d < 2 → s.value eps junk1 u (kf v j) du d =
      .ok (∑ a ∈ Finset.range nu, (derivative^[du] (Bp (kf W) i p a)).eval u • ∑ b ∈ Finset.range (2 * n), N (2 * j + d) b • pf X (a + nu * b)) := by
    intro d hd
    rw [hval u (kf v j) i (sp j) (by rw [← hu0]; exact h1) (by rw [← hu1]; exact h2) z1 z2 hi (hsp.find j hj)]
    congr 1
    unfold surfDer spanDer
    have hrow : ∀ b, b < 2 * n → (derivative^[d] (Bp (kf flatV) (sp j) q b)).eval (kf v j) = N (2 * j + d) b := by
      intro b hb
      rw [hN (2 * j + d) b (by omega) hb]
      exact (coll_row (U := flatV) (u := v) (p := q) (nc := 2) (sp := sp) (i := j) (d := d) hd b).symm
    calc _ = ∑ b ∈ Finset.range (2 * n), ∑ a ∈ Finset.range nu,
          (derivative^[du] (Bp (kf W) i p a)).eval u • N (2 * j + d) b • pf X (a + nu * b) := by
          apply Finset.sum_congr rfl
          intro b hb
          rw [hrow b (Finset.mem_range.mp hb), Finset.smul_sum]
          exact Finset.sum_congr rfl fun a _ => smul_comm _ _ _
      _ = _ := by
          rw [Finset.sum_comm]
          exact Finset.sum_congr rfl fun a _ => by rw [Finset.smul_sum]
  have hget : ∀ a, a < nu → B[a]? = some (((List.range n).map fun j => [x a j, t a j]).flatten) := by
    intro a ha
    rw [hB, List.getElem?_map, List.getElem?_range ha]
    rfl
  constructor
  · rw [key 0 (by omega)]
    congr 1
    unfold spanDer
    apply Finset.sum_congr rfl
    intro a ha
    rw [hX a _ (2 * j + 0) (hget a (Finset.mem_range.mp ha)) (by omega), Nat.add_zero, ((pf_pairs (x a) (t a)).2 j (by omega)).1]
  · rw [key 1 (by omega)]
    congr 1
    unfold spanDer
    apply Finset.sum_congr rfl
    intro a ha
    rw [hX a _ (2 * j + 1) (hget a (Finset.mem_range.mp ha)) (by omega), ((pf_pairs (x a) (t a)).2 j (by omega)).2]

end Gbs
