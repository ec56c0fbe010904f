import Verif.Lemmas.Mult
import Verif.Lemmas.Reparam
import Verif.Model.Unify

/-! # Unification of knots -/

namespace Gbs

set_option linter.unusedSectionVars false

variable {K : Type} [Field K] [LinearOrder K] [IsStrictOrderedRing K]
variable {V : Type} [AddCommGroup V] [Module K V]

/-- Knots of a clamped spline on `[a, b]`: full multiplicity at the ends, at most the degree inside. -/
structure KC (p : ℕ) (a b : K) (U : List K) (P : List V) : Prop where
  wf : Wf p U P
  d0 : kf U p = a
  d1 : kf U P.length = b
  mem : ∀ x ∈ U, a ≤ x ∧ x ≤ b
  ca : U.count a = p + 1
  cb : U.count b = p + 1
  ci : ∀ x, a < x → x < b → U.count x ≤ p

theorem KC.lt {p : ℕ} {a b : K} {U : List K} {P : List V} (h : KC p a b U P) : a < b := by
  rw [← h.d0, ← h.d1]
  exact lt_of_lt_of_le h.wf.first (kf_mono h.wf.sorted (by have := h.wf.min; omega))

/-- `km` lists the different knots of `U` with their multiplicities. -/
structure Desc (km : List (K × ℕ)) (U : List K) : Prop where
  sorted : (km.map Prod.fst).Pairwise (· < ·)
  cnt : ∀ q ∈ km, U.count q.1 = q.2 ∧ 1 ≤ q.2
  all : ∀ x ∈ U, ∃ m, (x, m) ∈ km

theorem unflatPairsLoop_desc {eps : K} (heps : 0 < eps) : ∀ (xs : List K) (cur : K) (m : ℕ), 1 ≤ m → (∀ x ∈ xs, cur ≤ x) →
    xs.Pairwise (· ≤ ·) → SepL eps (cur :: xs) →
    Desc (unflatPairsLoop eps cur m xs) (List.replicate m cur ++ xs) ∧ ∀ q ∈ unflatPairsLoop eps cur m xs, cur ≤ q.1 := by
  intro xs
  induction xs with
  | nil =>
    intro cur m hm _ _ _
    unfold unflatPairsLoop
    refine ⟨⟨by simp, ?_, ?_⟩, by simp⟩
    · intro q hq
      rw [List.mem_singleton] at hq
      subst hq
      simpa using hm
    · intro x hx
      rw [List.append_nil, List.mem_replicate] at hx
      exact ⟨m, by simp [hx.2]⟩
  | cons x xs ih =>
    intro cur m hm hcur hs hsep
    have hcx := hcur x List.mem_cons_self
    rw [List.pairwise_cons] at hs
    unfold unflatPairsLoop
    by_cases hx : |x - cur| < eps
    · rw [if_pos hx]
      have : x = cur := by
        by_contra hne
        have hlt := lt_of_le_of_ne hcx (Ne.symm hne)
        have h2 := hsep cur List.mem_cons_self x (List.mem_cons_of_mem _ List.mem_cons_self) hlt
        rw [abs_of_nonneg (by linarith)] at hx
        linarith
      subst this
      have h3 := ih x (m + 1) (by omega) hs.1 hs.2 (fun a ha b hb hab => hsep a (List.mem_cons_of_mem _ ha) b (List.mem_cons_of_mem _ hb) hab)
      rwa [List.replicate_succ', List.append_assoc] at h3
    · rw [if_neg hx]
      have hlt : cur < x := by
        refine lt_of_le_of_ne hcx ?_
        rintro rfl
        simp at hx
        linarith
      obtain ⟨hD, hge⟩ := ih x 1 le_rfl hs.1 hs.2 (fun a ha b hb hab => hsep a (List.mem_cons_of_mem _ ha) b (List.mem_cons_of_mem _ hb) hab)
      simp only [List.replicate_one, List.singleton_append] at hD
      have hnc : cur ∉ x :: xs := by
        intro hc
        rcases List.mem_cons.mp hc with h | h
        · exact hlt.ne h
        · exact absurd (hs.1 cur h) (not_le.mpr hlt)
      refine ⟨⟨?_, ?_, ?_⟩, ?_⟩
      · rw [List.map_cons, List.pairwise_cons]
        refine ⟨?_, hD.sorted⟩
        intro y hy
        obtain ⟨q, hq, rfl⟩ := List.mem_map.mp hy
        exact lt_of_lt_of_le hlt (hge q hq)
      · intro q hq
        rcases List.mem_cons.mp hq with rfl | hq
        · rw [List.count_append, List.count_replicate_self, List.count_eq_zero_of_not_mem hnc]
          exact ⟨rfl, hm⟩
        · have := hD.cnt q hq
          have hne : cur ≠ q.1 := (lt_of_lt_of_le hlt (hge q hq)).ne
          rw [List.count_append, List.count_replicate, if_neg (by simpa using hne), Nat.zero_add]
          exact this
      · intro y hy
        rcases List.mem_append.mp hy with hy | hy
        · exact ⟨m, by rw [(List.mem_replicate.mp hy).2]; exact List.mem_cons_self⟩
        · obtain ⟨m', hm'⟩ := hD.all y hy
          exact ⟨m', List.mem_cons_of_mem _ hm'⟩
      · intro q hq
        rcases List.mem_cons.mp hq with rfl | hq
        · exact le_rfl
        · exact hlt.le.trans (hge q hq)

theorem unflatPairs_desc {eps : K} (heps : 0 < eps) {U : List K} (hne : U ≠ []) (hs : U.Pairwise (· ≤ ·)) (hsep : SepL eps U) :
    ∃ km, unflatPairs eps U = .ok km ∧ Desc km U := by
  cases U with
  | nil => exact absurd rfl hne
  | cons x xs =>
    rw [List.pairwise_cons] at hs
    have h := (unflatPairsLoop_desc heps xs x 1 le_rfl hs.1 hs.2 hsep).1
    exact ⟨_, rfl, by simpa using h⟩

theorem Desc.mem {km : List (K × ℕ)} {U : List K} (h : Desc km U) {q : K × ℕ} (hq : q ∈ km) : q.1 ∈ U := by
  have := h.cnt q hq
  exact List.count_pos_iff.mp (by omega)

/-- The greatest multiplicity asked for `x`. -/
def kmMax (km : List (K × ℕ)) (x : K) : ℕ := km.foldr (fun q r => max (if q.1 = x then q.2 else 0) r) 0

theorem kmMax_cons (q : K × ℕ) (km : List (K × ℕ)) (x : K) : kmMax (q :: km) x = max (if q.1 = x then q.2 else 0) (kmMax km x) := rfl

theorem kmMax_of_not_mem {km : List (K × ℕ)} {x : K} (h : ∀ q ∈ km, q.1 ≠ x) : kmMax km x = 0 := by
  induction km with
  | nil => rfl
  | cons q km ih =>
    rw [kmMax_cons, if_neg (h q List.mem_cons_self), ih fun q hq => h q (List.mem_cons_of_mem _ hq)]
    rfl

theorem kmMax_of_mem {km : List (K × ℕ)} (hs : (km.map Prod.fst).Pairwise (· < ·)) {q : K × ℕ} (hq : q ∈ km) : kmMax km q.1 = q.2 := by
  induction km with
  | nil => cases hq
  | cons r km ih =>
    rw [List.map_cons, List.pairwise_cons] at hs
    rw [kmMax_cons]
    rcases List.mem_cons.mp hq with rfl | hq
    · rw [if_pos rfl, kmMax_of_not_mem, Nat.max_zero]
      intro s hs'
      exact (hs.1 s.1 (List.mem_map_of_mem hs')).ne'
    · rw [ih hs.2 hq, if_neg (hs.1 q.1 (List.mem_map_of_mem hq)).ne, Nat.zero_max]

theorem Desc.kmMax {km : List (K × ℕ)} {U : List K} (h : Desc km U) (x : K) : kmMax km x = U.count x := by
  by_cases hx : x ∈ U
  · obtain ⟨m, hm⟩ := h.all x hx
    rw [show x = (x, m).1 from rfl, kmMax_of_mem h.sorted hm, (h.cnt _ hm).1]
  · rw [List.count_eq_zero_of_not_mem hx, kmMax_of_not_mem]
    intro q hq he
    exact hx (he ▸ h.mem hq)

/-- One insertion inside a clamped spline. -/
theorem KC.insert {p : ℕ} {a b : K} {U : List K} {P : List V} (h : KC p a b U P) {u : K} (h1 : a < u) (h2 : u < b) {r : ℕ} (hr : 1 ≤ r)
    (hc : U.count u + r ≤ p) :
    ∃ idx U' P', insertKnots u p r U P = .ok (idx, U', P') ∧ KC p a b U' P' ∧ SameMap p U P p U' P' ∧
      (∀ x, U'.count x = U.count x + if x = u then r else 0) ∧ ∀ x, x ∈ U' ↔ x = u ∨ x ∈ U := by
  have hmu := count_eq_multOf h.wf.sorted u
  obtain ⟨Q, e, hl, hw, d0, d1, hS, -⟩ := insertKnots_same h.wf (u := u) (r := r) (by rw [h.d0]; exact h1) (by rw [h.d1]; exact h2) hr
    (by omega) rfl rfl
  have hmin : min r (p - multOf U u) = r := by omega
  rw [hmin] at e hw d0 d1 hS hl
  have hcount : ∀ x, (insKnots U (upperBound U u - 1) r u).count x = U.count x + if x = u then r else 0 := by
    intro x
    rw [(insKnots_perm _ _ _ _).count_eq, List.count_append, List.count_replicate]
    simp only [beq_iff_eq, eq_comm (a := u)]
    omega
  have hmem : ∀ x, x ∈ insKnots U (upperBound U u - 1) r u ↔ x = u ∨ x ∈ U := by
    intro x
    rw [(insKnots_perm _ _ _ _).mem_iff, List.mem_append, List.mem_replicate]
    have : r ≠ 0 := by omega
    simp [this]
  refine ⟨_, _, _, e, ⟨hw, d0.trans h.d0, d1.trans h.d1, ?_, ?_, ?_, ?_⟩, hS, hcount, hmem⟩
  · intro x hx
    rcases (hmem x).mp hx with rfl | hx
    · exact ⟨h1.le, h2.le⟩
    · exact h.mem x hx
  · rw [hcount, if_neg h1.ne, h.ca, Nat.add_zero]
  · rw [hcount, if_neg h2.ne', h.cb, Nat.add_zero]
  · intro x a1 a2
    rw [hcount]
    split
    · rename_i hx; subst hx; exact hc
    · exact h.ci x a1 a2

theorem take_drop_sorted {L : List K} (h : L.Pairwise (· < ·)) {u : K} (hu : u ∉ L) :
    (L.take (lowerBound L u) ++ u :: L.drop (lowerBound L u)).Pairwise (· < ·) := by
  have hlb := lowerBound_le L u
  have hL : L.Pairwise (· ≤ ·) := h.imp le_of_lt
  have hm := kf_mono hL
  have h1 : ∀ x ∈ L.take (lowerBound L u), x < u := by
    intro x hx
    obtain ⟨i, hi, rfl⟩ := List.getElem_of_mem hx
    rw [List.length_take] at hi
    rw [List.getElem_take, ← kf_of_lt (show i < L.length by omega)]
    exact kf_lt_of_lt_lowerBound (by omega)
  have h2 : ∀ x ∈ L.drop (lowerBound L u), u < x := by
    intro x hx
    refine lt_of_le_of_ne ?_ (fun he => hu (he ▸ List.mem_of_mem_drop hx))
    obtain ⟨i, hi, rfl⟩ := List.getElem_of_mem hx
    rw [List.length_drop] at hi
    rw [List.getElem_drop, ← kf_of_lt (show lowerBound L u + i < L.length by omega)]
    exact (le_kf_lowerBound (by omega)).trans (hm (by omega))
  rw [List.pairwise_append, List.pairwise_cons]
  refine ⟨h.sublist (List.take_sublist _ _), ⟨h2, h.sublist (List.drop_sublist _ _)⟩, ?_⟩
  intro x hx y hy
  rcases List.mem_cons.mp hy with rfl | hy
  · exact h1 x hx
  · exact (h1 x hx).trans (h2 y hy)

/-- `unify_knots(km_out, k_out, poles_out, degree, km_in)`. -/
theorem unifyInto_spec {eps : K} (heps : 0 < eps) {p : ℕ} {a b : K} {L : List K} (hL : SepL eps L) : ∀ (kmIn km : List (K × ℕ)) (U : List K)
    (P : List V), KC p a b U P → Desc km U → (∀ x ∈ U, x ∈ L) →
    (∀ q ∈ kmIn, q.1 ∈ L ∧ 1 ≤ q.2 ∧ a ≤ q.1 ∧ q.1 ≤ b ∧ q.2 ≤ p + 1 ∧ (a < q.1 → q.1 < b → q.2 ≤ p)) →
    ∃ km' U' P', unifyInto eps p kmIn km U P = .ok (km', U', P') ∧ KC p a b U' P' ∧ Desc km' U' ∧ (∀ x ∈ U', x ∈ L) ∧
      SameMap p U P p U' P' ∧ ∀ x, U'.count x = max (U.count x) (kmMax kmIn x) := by
  intro kmIn
  induction kmIn with
  | nil =>
    intro km U P h hD hUL _
    exact ⟨km, U, P, rfl, h, hD, hUL, SameMap.refl h.wf, fun x => by show _ = max _ 0; rw [Nat.max_zero]⟩
  | cons q0 rest ih =>
    intro km U P h hD hUL hin
    obtain ⟨u, m⟩ := q0
    obtain ⟨huL, hm1, hau, hub, hmp, hmi⟩ := hin _ List.mem_cons_self
    simp only at huL hm1 hau hub hmp hmi
    have hin' : ∀ q ∈ rest, q.1 ∈ L ∧ 1 ≤ q.2 ∧ a ≤ q.1 ∧ q.1 ≤ b ∧ q.2 ≤ p + 1 ∧ (a < q.1 → q.1 < b → q.2 ≤ p) :=
      fun q hq => hin q (List.mem_cons_of_mem _ hq)
    unfold unifyInto
    simp only
    -- the interior case of an insertion
    have key : ∀ r, 1 ≤ r → a < u → u < b → U.count u + r = m → ∀ km', (∀ U', (∀ x, U'.count x = U.count x + if x = u then r else 0) →
        (∀ x, x ∈ U' ↔ x = u ∨ x ∈ U) → Desc km' U') → ∃ km'' U' P', (do
          let s ← insertKnots u p r U P
          unifyInto eps p rest km' s.2.1 s.2.2 : R _) = .ok (km'', U', P') ∧ KC p a b U' P' ∧ Desc km'' U' ∧ (∀ x ∈ U', x ∈ L) ∧
          SameMap p U P p U' P' ∧ ∀ x, U'.count x = max (U.count x) (kmMax ((u, m) :: rest) x) := by
      intro r hr h1 h2 hc km' hD'
      obtain ⟨idx, U1, P1, e, hK, hS, hcnt, hmem⟩ := h.insert h1 h2 hr (by have := hmi h1 h2; omega)
      obtain ⟨km2, U2, P2, e2, hK2, hD2, hL2, hS2, hc2⟩ := ih km' U1 P1 hK (hD' U1 hcnt hmem) (by
        intro x hx
        rcases (hmem x).mp hx with rfl | hx
        · exact huL
        · exact hUL x hx) hin'
      refine ⟨km2, U2, P2, ?_, hK2, hD2, hL2, ?_, ?_⟩
      · rw [e, R_bind_ok]; exact e2
      · exact hS.trans hS2 (by rw [hK.d0, h.d0]) (by rw [hK.d1, h.d1])
      · intro x
        rw [hc2, hcnt, kmMax_cons]
        simp only [eq_comm (a := u)]
        by_cases hx : x = u
        · subst hx; rw [if_pos rfl, if_pos rfl]; omega
        · rw [if_neg hx, if_neg hx]; omega
    have hnotend : U.count u ≤ p → a < u ∧ u < b := by
      intro hc
      refine ⟨lt_of_le_of_ne hau ?_, lt_of_le_of_ne hub ?_⟩
      · intro he; rw [← he, h.ca] at hc; omega
      · intro he; rw [he, h.cb] at hc; omega
    rcases Nat.lt_or_ge (km.findIdx fun q => decide (|q.1 - u| < eps)) km.length with hi | hi
    · have hfound := List.findIdx_getElem (w := hi)
      generalize hii : (km.findIdx fun q => decide (|q.1 - u| < eps)) = i at *
      rw [List.getElem?_eq_getElem hi]
      simp only
      have hmem : km[i] ∈ km := List.getElem_mem hi
      have hq1 : km[i].1 = u := by
        simp only [decide_eq_true_eq] at hfound
        by_contra hne
        have hL1 := hUL _ (hD.mem hmem)
        rcases lt_or_gt_of_ne hne with hlt | hlt
        · have := hL _ hL1 _ huL hlt
          rw [abs_of_neg (by linarith)] at hfound; linarith
        · have := hL _ huL _ hL1 hlt
          rw [abs_of_pos (by linarith)] at hfound; linarith
      have hcu : U.count u = km[i].2 := by rw [← hq1]; exact (hD.cnt _ hmem).1
      by_cases hlt : km[i].2 < m
      · rw [if_pos hlt]
        obtain ⟨h1, h2⟩ := hnotend (by omega)
        apply key (m - km[i].2) (by omega) h1 h2 (by omega)
        intro U' hcnt hmemU
        have hfst : (km.set i (km[i].1, m)).map Prod.fst = km.map Prod.fst := by
          rw [List.map_set]
          apply List.ext_getElem
          · simp
          · intro j a1 a2
            rw [List.getElem_set]
            split
            · rename_i hj; subst hj; simp
            · rfl
        refine ⟨by rw [hfst]; exact hD.sorted, ?_, ?_⟩
        · intro q hq
          obtain ⟨j, hj, rfl⟩ := List.getElem_of_mem hq
          rw [List.length_set] at hj
          rw [List.getElem_set]
          by_cases hij : i = j
          · rw [if_pos hij]
            simp only
            rw [hq1, hcnt, if_pos rfl]
            omega
          · rw [if_neg hij]
            have hne : km[j].1 ≠ u := by
              intro he
              have hp := List.pairwise_iff_getElem.mp hD.sorted
              rcases Nat.lt_or_gt_of_ne hij with hlt' | hlt'
              · have := hp i j (by simpa using hi) (by simpa using hj) hlt'
                simp only [List.getElem_map] at this
                rw [hq1, he] at this; exact lt_irrefl _ this
              · have := hp j i (by simpa using hj) (by simpa using hi) hlt'
                simp only [List.getElem_map] at this
                rw [hq1, he] at this; exact lt_irrefl _ this
            rw [hcnt, if_neg hne, Nat.add_zero]
            exact hD.cnt _ (List.getElem_mem hj)
        · intro x hx
          have hxk : x ∈ km.map Prod.fst := by
            rcases (hmemU x).mp hx with rfl | hx
            · exact List.mem_map.mpr ⟨_, hmem, hq1⟩
            · obtain ⟨m', hm'⟩ := hD.all x hx
              exact List.mem_map.mpr ⟨_, hm', rfl⟩
          rw [← hfst] at hxk
          obtain ⟨q, hq, rfl⟩ := List.mem_map.mp hxk
          exact ⟨q.2, hq⟩
      · rw [if_neg hlt]
        obtain ⟨km2, U2, P2, e2, hK2, hD2, hL2, hS2, hc2⟩ := ih km U P h hD hUL hin'
        refine ⟨km2, U2, P2, e2, hK2, hD2, hL2, hS2, ?_⟩
        intro x
        rw [hc2, kmMax_cons]
        simp only
        by_cases hx : u = x
        · subst hx; rw [if_pos rfl]; omega
        · rw [if_neg hx]; omega
    · have hno : u ∉ U := by
        intro hu
        obtain ⟨m', hm'⟩ := hD.all u hu
        have := List.findIdx_lt_length_of_exists (p := fun q : K × ℕ => decide (|q.1 - u| < eps)) (xs := km)
          ⟨(u, m'), hm', by simpa using heps⟩
        omega
      rw [List.getElem?_eq_none hi]
      simp only
      have hc0 := List.count_eq_zero_of_not_mem hno
      obtain ⟨h1, h2⟩ := hnotend (by omega)
      apply key m hm1 h1 h2 (by omega)
      intro U' hcnt hmemU
      have huk : u ∉ km.map Prod.fst := by
        intro hk
        obtain ⟨q, hq, he⟩ := List.mem_map.mp hk
        exact hno (he ▸ hD.mem hq)
      have hper : (km.take (lowerBound (km.map Prod.fst) u) ++ (u, m) :: km.drop (lowerBound (km.map Prod.fst) u)).Perm ((u, m) :: km) := by
        refine List.perm_middle.trans ?_
        rw [List.take_append_drop]
      refine ⟨?_, ?_, ?_⟩
      · rw [List.map_append, List.map_cons, List.map_take, List.map_drop]
        exact take_drop_sorted hD.sorted huk
      · intro q hq
        rcases List.mem_cons.mp (hper.mem_iff.mp hq) with rfl | hq
        · simp only; rw [hcnt, if_pos rfl]; omega
        · have hne : q.1 ≠ u := fun he => huk (List.mem_map.mpr ⟨q, hq, he⟩)
          rw [hcnt, if_neg hne, Nat.add_zero]
          exact hD.cnt q hq
      · intro x hx
        rcases (hmemU x).mp hx with rfl | hx
        · exact ⟨m, hper.mem_iff.mpr List.mem_cons_self⟩
        · obtain ⟨m', hm'⟩ := hD.all x hx
          exact ⟨m', hper.mem_iff.mpr (List.mem_cons_of_mem _ hm')⟩

/-- The knots of one clamped spline added to another one on the same interval. -/
theorem unifyInto_desc {eps : K} (heps : 0 < eps) {p : ℕ} {a b : K} {L : List K} (hL : SepL eps L) {km kmIn : List (K × ℕ)} {U W : List K}
    {P Q : List V} (h : KC p a b U P) (hD : Desc km U) (hUL : ∀ x ∈ U, x ∈ L) (hW : KC p a b W Q) (hDW : Desc kmIn W) (hWL : ∀ x ∈ W, x ∈ L) :
    ∃ km' U' P', unifyInto eps p kmIn km U P = .ok (km', U', P') ∧ KC p a b U' P' ∧ Desc km' U' ∧ (∀ x ∈ U', x ∈ L) ∧
      SameMap p U P p U' P' ∧ ∀ x, U'.count x = max (U.count x) (W.count x) := by
  obtain ⟨km', U', P', e, h1, h2, h3, h4, h5⟩ := unifyInto_spec heps hL kmIn km U P h hD hUL (by
    intro q hq
    have hmem := hDW.mem hq
    have hc := hDW.cnt q hq
    have hab := hW.mem _ hmem
    refine ⟨hWL _ hmem, hc.2, hab.1, hab.2, ?_, ?_⟩
    · rcases eq_or_lt_of_le hab.1 with he | he
      · rw [← hc.1, ← he, hW.ca]
      · rcases eq_or_lt_of_le hab.2 with he' | he'
        · rw [← hc.1, he', hW.cb]
        · have := hW.ci _ he he'; omega
    · intro a1 a2; have := hW.ci _ a1 a2; omega)
  exact ⟨km', U', P', e, h1, h2, h3, h4, fun x => by rw [h5, hDW.kmMax]⟩

/-- Affine images of clamped splines. -/
theorem KC.map {p : ℕ} {a b : K} {U : List K} {P : List V} (h : KC p a b U P) {f : K → K} (hf : StrictMono f) : KC p (f a) (f b) (U.map f) P := by
  have hne := h.wf.ne
  refine ⟨h.wf.map hf, by rw [kf_map hne, h.d0], by rw [kf_map hne, h.d1], ?_, ?_, ?_, ?_⟩
  · intro x hx
    obtain ⟨y, hy, rfl⟩ := List.mem_map.mp hx
    exact ⟨hf.monotone (h.mem y hy).1, hf.monotone (h.mem y hy).2⟩
  · rw [List.count_map_of_injective _ _ hf.injective, h.ca]
  · rw [List.count_map_of_injective _ _ hf.injective, h.cb]
  · intro x h1 h2
    by_cases hx : x ∈ U.map f
    · obtain ⟨y, hy, rfl⟩ := List.mem_map.mp hx
      rw [List.count_map_of_injective _ _ hf.injective]
      exact h.ci y (hf.lt_iff_lt.mp h1) (hf.lt_iff_lt.mp h2)
    · rw [List.count_eq_zero_of_not_mem hx]; omega

/-- The map of `change_bounds`. -/
def rescale (a b : K) (U : List K) (x : K) : K := a + (b - a) * (x - kf U 0) / (kLast U - kf U 0)

theorem rescale_strictMono {a b : K} (hab : a < b) {U : List K} (hU : kf U 0 < kLast U) : StrictMono (rescale a b U) := by
  intro x y hxy
  unfold rescale
  have : 0 < kLast U - kf U 0 := by linarith
  have h1 : (b - a) * (x - kf U 0) / (kLast U - kf U 0) < (b - a) * (y - kf U 0) / (kLast U - kf U 0) := by
    apply div_lt_div_of_pos_right _ this
    exact mul_lt_mul_of_pos_left (by linarith) (by linarith)
  linarith

theorem KC.kf_zero {p : ℕ} {a b : K} {U : List K} {P : List V} (h : KC p a b U P) : kf U 0 = a :=
  le_antisymm (by rw [← h.d0]; exact kf_mono h.wf.sorted (by omega)) (h.mem _ (kf_mem h.wf.ne 0)).1

theorem KC.kLast {p : ℕ} {a b : K} {U : List K} {P : List V} (h : KC p a b U P) : kLast U = b :=
  le_antisymm (h.mem _ (kf_mem h.wf.ne _)).2 (by rw [← h.d1]; exact kf_mono h.wf.sorted (by have := h.wf.len; omega))

theorem changeBoundsK_eq {a b : K} {U : List K} (h : kf U 0 < kLast U) (hne : U ≠ []) : changeBoundsK a b U = .ok (U.map (rescale a b U)) := by
  have hl : 0 < U.length := List.length_pos_of_ne_nil hne
  unfold changeBoundsK
  rw [usub_ok (by omega), R_bind_ok, rd_kf (by omega), R_bind_ok, rd_kf (by omega), R_bind_ok]
  apply mapM_ok
  intro x _
  have hd : kf U (U.length - 1) - kf U 0 ≠ 0 := by
    have : kLast U = kf U (U.length - 1) := rfl
    rw [← this]; linarith
  rw [fdiv_ok hd]
  rfl

theorem KC.rescale {p : ℕ} {a b a' b' : K} {U : List K} {P : List V} (h : KC p a b U P) (hab : a' < b') :
    KC p a' b' (U.map (rescale a' b' U)) P := by
  have hlt : kf U 0 < Gbs.kLast U := by rw [h.kf_zero, h.kLast]; exact h.lt
  have := h.map (rescale_strictMono hab hlt)
  have e1 : Gbs.rescale a' b' U a = a' := by unfold Gbs.rescale; rw [h.kf_zero]; simp
  have e2 : Gbs.rescale a' b' U b = b' := by
    unfold Gbs.rescale
    rw [h.kf_zero, h.kLast, mul_div_assoc, div_self (by have := h.lt; linarith)]
    ring
  rwa [e1, e2] at this

/-- First pass of `unify_knots`. -/
theorem unifyAbsorb_spec {eps : K} (heps : 0 < eps) {p : ℕ} {a b : K} {L : List K} (hL : SepL eps L) : ∀ (cs : List (CurveInfo K V))
    (km : List (K × ℕ)) (U : List K) (P : List V), KC p a b U P → Desc km U → (∀ x ∈ U, x ∈ L) →
    (∀ c ∈ cs, (∃ a' b', KC p a' b' c.knots c.poles) ∧ ∀ x ∈ c.knots, rescale a b c.knots x ∈ L) →
    ∃ km' U' P', unifyAbsorb eps a b p cs km U P =
        .ok (cs.map (fun c => { c with knots := c.knots.map (rescale a b c.knots) }), km', U', P') ∧ KC p a b U' P' ∧ Desc km' U' ∧
      (∀ x ∈ U', x ∈ L) ∧ SameMap p U P p U' P' ∧ (∀ x, U.count x ≤ U'.count x) ∧
      (∀ c ∈ cs, ∀ x, (c.knots.map (rescale a b c.knots)).count x ≤ U'.count x) ∧
      ∀ x, U'.count x = U.count x ∨ ∃ c ∈ cs, U'.count x = (c.knots.map (rescale a b c.knots)).count x := by
  intro cs
  induction cs with
  | nil =>
    intro km U P h hD hUL _
    exact ⟨km, U, P, rfl, h, hD, hUL, SameMap.refl h.wf, fun _ => le_rfl, by simp, fun _ => Or.inl rfl⟩
  | cons c cs ih =>
    intro km U P h hD hUL hcs
    obtain ⟨⟨a', b', hc⟩, hcL⟩ := hcs c List.mem_cons_self
    have hlt : kf c.knots 0 < kLast c.knots := by rw [hc.kf_zero, hc.kLast]; exact hc.lt
    have hc' := hc.rescale h.lt
    have hcL' : ∀ x ∈ c.knots.map (rescale a b c.knots), x ∈ L := by
      intro x hx
      obtain ⟨y, hy, rfl⟩ := List.mem_map.mp hx
      exact hcL y hy
    obtain ⟨kmc, ekm, hDc⟩ := unflatPairs_desc heps hc'.wf.ne hc'.wf.sorted (fun x hx y hy hxy => hL x (hcL' x hx) y (hcL' y hy) hxy)
    obtain ⟨km1, U1, P1, e1, hK1, hD1, hL1, hS1, hc1⟩ := unifyInto_desc heps hL h hD hUL hc' hDc hcL'
    obtain ⟨km2, U2, P2, e2, hK2, hD2, hL2, hS2, hu2, hm2, hx2⟩ := ih km1 U1 P1 hK1 hD1 hL1 fun c hc => hcs c (List.mem_cons_of_mem _ hc)
    refine ⟨km2, U2, P2, ?_, hK2, hD2, hL2, hS1.trans hS2 (by rw [hK1.d0, h.d0]) (by rw [hK1.d1, h.d1]), ?_, ?_, ?_⟩
    · unfold unifyAbsorb
      rw [changeBoundsK_eq hlt hc.wf.ne, R_bind_ok, ekm, R_bind_ok, e1, R_bind_ok, e2, R_bind_ok]
      rfl
    · intro x
      have := hu2 x
      rw [hc1] at this
      omega
    · intro d hd x
      rcases List.mem_cons.mp hd with rfl | hd
      · have := hu2 x
        rw [hc1] at this
        omega
      · exact hm2 d hd x
    · intro x
      rcases hx2 x with h' | ⟨d, hd, h'⟩
      · rw [hc1] at h'
        rcases le_total (U.count x) ((c.knots.map (rescale a b c.knots)).count x) with hle | hle
        · right
          exact ⟨c, List.mem_cons_self, by rw [h', max_eq_right hle]⟩
        · left
          rw [h', max_eq_left hle]
      · right
        exact ⟨d, List.mem_cons_of_mem _ hd, h'⟩

/-- Second pass: a curve whose multiplicities are at most those of `W` gets the knots `W`. -/
theorem unifyApply_spec {eps : K} (heps : 0 < eps) {a b : K} {L : List K} (hL : SepL eps L) {km0 : List (K × ℕ)} {W : List K} {Q : List V}
    {c : CurveInfo K V} (hW : KC c.deg a b W Q) (hDW : Desc km0 W) (hWL : ∀ x ∈ W, x ∈ L) (h : KC c.deg a b c.knots c.poles)
    (hcL : ∀ x ∈ c.knots, x ∈ L) (hle : ∀ x, c.knots.count x ≤ W.count x) :
    ∃ P', unifyApply eps km0 c = .ok { c with knots := W, poles := P' } ∧ KC c.deg a b W P' ∧
      SameMap c.deg c.knots c.poles c.deg W P' := by
  obtain ⟨kmc, ekm, hDc⟩ := unflatPairs_desc heps h.wf.ne h.wf.sorted (fun x hx y hy hxy => hL x (hcL x hx) y (hcL y hy) hxy)
  obtain ⟨km1, U1, P1, e1, hK1, hD1, hL1, hS1, hc1⟩ := unifyInto_desc heps hL h hDc hcL hW hDW hWL
  have hU : U1 = W := by
    have hp : U1.Perm W := List.perm_iff_count.mpr fun x => by rw [hc1, max_eq_right (hle x)]
    exact hp.eq_of_pairwise (fun a b _ _ h1 h2 => le_antisymm h1 h2) hK1.wf.sorted hW.wf.sorted
  subst hU
  refine ⟨P1, ?_, hK1, hS1⟩
  unfold unifyApply
  rw [ekm, R_bind_ok, e1, R_bind_ok]
  rfl

end Gbs
