import Verif.Props.Constructor
import Verif.Props.Rational
import Verif.Lemmas.OkInv
import Verif.Model.Json

/-!
# C101: what is written as a JSON document is what is read from it
-/

set_option linter.unusedSectionVars false

namespace Gbs

variable {K : Type} [Field K] [LinearOrder K] [IsStrictOrderedRing K] {eps : K} {n : ℕ}

/-! ## Specification -/

/-- Knots that differ do so by more than the tolerance. -/
def Spec.Apart (eps : K) (U : List K) : Prop := ∀ x ∈ U, ∀ y ∈ U, |x - y| ≤ eps → x = y

/-- The knots of the second list are those of the first one, up to the tolerance. -/
def Spec.NearList (eps : K) (U U' : List K) : Prop := List.Forall₂ (fun x y => |x - y| ≤ eps) U U'

/-- A pole of weight zero is null. -/
def Spec.WeightsOk (P : List ((Fin n → K) × K)) : Prop := ∀ x ∈ P, x.2 = 0 → x.1 = 0

/-! ## Knots and multiplicities -/

theorem unflatLoop_chain : ∀ (l : List K) (cur : K) (m : ℕ), 1 ≤ m →
    ((unflatLoop eps cur m l).map Prod.fst).IsChain (fun a b => eps < |b - a|) ∧ ∀ x ∈ unflatLoop eps cur m l, 1 ≤ x.2 := by
  intro l
  induction l with
  | nil => intro cur m hm; simp [unflatLoop, hm]
  | cons x xs ih =>
    intro cur m hm
    simp only [unflatLoop]
    split
    · exact ih cur (m + 1) (by omega)
    · rename_i hx
      obtain ⟨h1, h2⟩ := ih x 1 le_rfl
      obtain ⟨m', r, hr⟩ := unflatLoop_head eps xs x 1
      rw [hr] at h1 h2 ⊢
      refine ⟨?_, ?_⟩
      · simp only [List.map_cons] at h1 ⊢
        exact List.IsChain.cons_cons (not_le.mp hx) h1
      · intro y hy
        rcases List.mem_cons.mp hy with rfl | hy
        · exact hm
        · exact h2 y hy

theorem unflatLoop_ofFlat' (heps : 0 ≤ eps) : ∀ (km : List (K × ℕ)) (cur : K) (m : ℕ),
    (∀ x ∈ km, 1 ≤ x.2) → (((cur, m) :: km).map Prod.fst).IsChain (fun a b => eps < |b - a|) →
    unflatLoop eps cur m (km.flatMap (fun km => List.replicate km.2 km.1)) = (cur, m) :: km := by
  intro km
  induction km with
  | nil => intro cur m _ _; rfl
  | cons a km ih =>
    intro cur m h1 h2
    obtain ⟨x, n⟩ := a
    have hn : 1 ≤ n := h1 (x, n) (by simp)
    obtain ⟨n, rfl⟩ : ∃ q, n = q + 1 := ⟨n - 1, by omega⟩
    rw [List.flatMap_cons]
    simp only [List.replicate_succ, List.cons_append, unflatLoop]
    simp only [List.map_cons, List.isChain_cons_cons] at h2
    rw [if_neg (not_le.mpr h2.1), unflatLoop_replicate heps, Nat.add_comm 1 n,
      ih x (n+1) (fun y hy => h1 y (by simp [hy])) (by simpa using h2.2)]

theorem unflatLoop_near (heps : 0 ≤ eps) : ∀ (l : List K) (cur : K) (m : ℕ),
    Spec.NearList eps (List.replicate m cur ++ l) ((unflatLoop eps cur m l).flatMap (fun km => List.replicate km.2 km.1)) := by
  intro l
  have hrep : ∀ (c : K) (m : ℕ), Spec.NearList eps (List.replicate m c) (List.replicate m c) := by
    intro c m
    induction m with
    | zero => exact .nil
    | succ m ih => rw [List.replicate_succ]; exact .cons (by simpa using heps) ih
  have happ : ∀ {a b c d : List K}, Spec.NearList eps a b → Spec.NearList eps c d → Spec.NearList eps (a ++ c) (b ++ d) := by
    intro a b c d h1 h2
    induction h1 with
    | nil => exact h2
    | cons h _ ih => exact .cons h ih
  induction l with
  | nil => intro cur m; simpa [unflatLoop] using hrep cur m
  | cons x xs ih =>
    intro cur m
    simp only [unflatLoop]
    split
    · rename_i hx
      -- the value is replaced by the current one
      have h := ih cur (m + 1)
      have h2 : ∀ (m : ℕ) (L : List K), Spec.NearList eps (List.replicate (m + 1) cur ++ xs) L → |x - cur| ≤ eps →
          (∃ L', L = List.replicate (m + 1) cur ++ L') → Spec.NearList eps (List.replicate m cur ++ x :: xs) L := by
        intro m
        induction m with
        | zero =>
          rintro L h1 h2 ⟨L', rfl⟩
          cases h1 with
          | cons _ h1 => exact .cons h2 h1
        | succ m ihm =>
          rintro L h1 h2 ⟨L', rfl⟩
          rw [List.replicate_succ, List.cons_append] at h1 ⊢
          rw [List.replicate_succ, List.cons_append]
          cases h1 with
          | cons h0 h1 => exact .cons h0 (ihm _ h1 h2 ⟨L', rfl⟩)
      refine h2 m _ h hx ?_
      have : ∀ (l : List K) (q : ℕ), ∃ L', (unflatLoop eps cur q l).flatMap (fun km => List.replicate km.2 km.1) =
          List.replicate q cur ++ L' := by
        intro l
        induction l with
        | nil => intro q; exact ⟨[], by simp [unflatLoop]⟩
        | cons y ys ihy =>
          intro q
          simp only [unflatLoop]
          split
          · obtain ⟨L', hL⟩ := ihy (q + 1)
            exact ⟨cur :: L', by rw [hL, List.replicate_succ']; simp⟩
          · exact ⟨_, by rw [List.flatMap_cons]⟩
      exact this xs (m + 1)
    · rw [List.flatMap_cons]
      exact happ (hrep cur m) (by simpa using ih x 1)

theorem zip_fst_snd (km : List (K × ℕ)) : (km.map Prod.fst).zip (km.map Prod.snd) = km := by
  induction km with
  | nil => rfl
  | cons a km ih => simp [ih]

/-- The knots and multiplicities that are written give back the knots, up to the tolerance. -/
theorem knots_roundtrip (heps : 0 ≤ eps) {U : List K} (hne : U ≠ []) :
    ∃ k m U', knotsAndMults eps U = .ok (k, m) ∧ flatKnots k m = .ok U' ∧ Spec.NearList eps U U' ∧
      unflatKnots eps U' = unflatKnots eps U ∧ U'.head? = U.head? ∧ k.head? = U'.head? ∧ k.getLast? = U'.getLast? ∧
      (Spec.Apart eps U → U' = U) := by
  obtain ⟨x, l, rfl⟩ := List.exists_cons_of_ne_nil hne
  obtain ⟨m', r, hr⟩ := unflatLoop_head eps l x 1
  obtain ⟨hc, hm⟩ := unflatLoop_chain (eps := eps) l x 1 le_rfl
  have hnear := unflatLoop_near heps l x 1
  rw [hr] at hc hm hnear
  have hm1 : 1 ≤ m' := hm (x, m') (by simp)
  obtain ⟨m', rfl⟩ : ∃ q, m' = q + 1 := ⟨m' - 1, by omega⟩
  refine ⟨((x, m' + 1) :: r).map Prod.fst, ((x, m' + 1) :: r).map Prod.snd, ((x, m' + 1) :: r).flatMap (fun km => List.replicate km.2 km.1), ?_, ?_, by simpa using hnear, ?_, ?_, ?_, ?_, ?_⟩
  · rw [show knotsAndMults eps (x :: l) = .ok ((unflatLoop eps x 1 l).map Prod.fst, (unflatLoop eps x 1 l).map Prod.snd) from rfl, hr]
  · unfold flatKnots
    rw [if_neg (by simp), zip_fst_snd]
  · rw [List.flatMap_cons]
    simp only [List.replicate_succ, List.cons_append, unflatKnots]
    rw [unflatLoop_replicate heps, hr, Nat.add_comm 1 m', unflatLoop_ofFlat' heps r x (m' + 1) (fun y hy => hm y (by simp [hy])) hc]
  · simp [List.replicate_succ]
  · simp [List.replicate_succ]
  · have : ∀ (km : List (K × ℕ)) (y : K × ℕ), (∀ x ∈ y :: km, 1 ≤ x.2) →
        ((y :: km).map Prod.fst).getLast? = ((y :: km).flatMap (fun km => List.replicate km.2 km.1)).getLast? := by
      intro km
      induction km with
      | nil =>
        intro y hy
        obtain ⟨y, q⟩ := y
        have := hy (y, q) (by simp)
        obtain ⟨q, rfl⟩ : ∃ z, q = z + 1 := ⟨q - 1, by simp at this; omega⟩
        simp [List.replicate_succ', List.getLast?_append]
      | cons z km ih =>
        intro y hy
        have h := ih z (fun a ha => hy a (by simp [ha]))
        rw [List.map_cons, List.map_cons, List.getLast?_cons_cons, ← List.map_cons, h, List.flatMap_cons (x := y), List.getLast?_append]
        have hz := hy z (by simp)
        obtain ⟨z, q⟩ := z
        obtain ⟨q, rfl⟩ : ∃ w, q = w + 1 := ⟨q - 1, by simp at hz; omega⟩
        cases hh : (List.flatMap (fun km => List.replicate km.2 km.1) ((z, q + 1) :: km)).getLast? with
        | none => simp [List.replicate_succ] at hh
        | some w => simp
    exact this r (x, m' + 1) hm
  · intro hs
    rw [← hr, unflatLoop_flat l x 1 (fun a ha b hb => hs a (by simp [ha]) b hb)]
    rfl

/-! ## Arrays -/

theorem mapM_map {α β : Type} {f : α → β} {g : β → R α} (h : ∀ x, g (f x) = .ok x) (l : List α) : (l.map f).mapM g = .ok l := by
  induction l with
  | nil => rfl
  | cons a l ih => rw [List.map_cons, List.mapM_cons, h, ih]; rfl

theorem makeVec_ofVec (l : List K) : (Json.ofVec l).makeVec Json.getDouble = .ok l :=
  mapM_map (f := Json.dbl) (g := Json.getDouble) (fun _ => rfl) l

theorem makeVec_ofSizes (l : List ℕ) : (Json.ofSizes (K := K) l).makeVec Json.getSize = .ok l :=
  mapM_map (f := Json.int) (g := Json.getSize) (fun _ => rfl) l

theorem makeArray_ofPoint (x : Fin n → K) : (Json.ofPoint x).makeArray n = .ok x := by
  unfold Json.ofPoint Json.ofVec Json.makeArray
  dsimp only
  rw [if_neg (by simp), mapM_map (f := Json.dbl) (g := Json.getDouble) (fun _ => rfl)]
  simp only [R_bind_ok, R_pure]
  congr 1
  funext i
  simp [List.getD_eq_getElem?_getD]

theorem makePointVec_ofPoints (l : List (Fin n → K)) : (Json.ofPoints l).makePointVec n = .ok l := mapM_map makeArray_ofPoint l

theorem makeAx2_ofAx2 (F : Ax2 K) : (Json.ofAx2 F).makeAx2 = .ok F := by
  unfold Json.ofAx2 Json.makeAx2
  dsimp only
  rw [if_neg (by simp)]
  simp [rd, makeArray_ofPoint]

/-! ## B-Spline curves -/

theorem checkCurve_congr {U U' : List K} (h : unflatKnots eps U' = unflatKnots eps U) (hl : U'.length = U.length) (np p : ℕ) :
    checkCurve eps np U' p = checkCurve eps np U p := by
  unfold checkCurve
  rw [h, hl]

theorem checkCurveW_congr {U U' : List K} (h : unflatKnots eps U' = unflatKnots eps U) (hl : U'.length = U.length) (np p : ℕ) :
    checkCurveW eps np U' p = checkCurveW eps np U p := by
  unfold checkCurveW
  rw [h, hl]

theorem Spec.NearList.length {U U' : List K} (h : Spec.NearList eps U U') : U'.length = U.length := (List.Forall₂.length_eq h).symm

theorem Spec.NearList.last {U U' : List K} (h : Spec.NearList eps U U') {a b : K} (ha : U.getLast? = some a) (hb : U'.getLast? = some b) :
    |a - b| ≤ eps := by
  have h2 := h.length
  rw [List.getLast?_eq_getElem?, List.getElem?_eq_some_iff] at ha hb
  obtain ⟨i1, rfl⟩ := ha
  obtain ⟨i2, rfl⟩ := hb
  have := (List.forall₂_iff_get.mp h).2 (U.length - 1) i1 (by omega)
  simpa [h2] using this

/-- What is known of a curve made by the constructor. -/
theorem mk_ok {V : Type} [AddCommGroup V] [Module K V] {P : List V} {U : List K} {p : ℕ} {c : Curve K V} (h : Curve.mk? eps P U p = .ok c) :
    U ≠ [] ∧ checkCurve eps P.length U p = .ok true ∧ c.deg = p ∧ c.poles = P ∧ c.knots = U ∧ U.head? = some c.b0 ∧
      U.getLast? = some c.b1 := by
  cases U with
  | nil => simp [Curve.mk?] at h
  | cons x l =>
    have hne : x :: l ≠ [] := by simp
    unfold Curve.mk? at h
    rw [List.head?_eq_some_head hne, List.getLast?_eq_some_getLast hne] at h
    dsimp only at h
    rw [R_bind_eq_ok] at h
    obtain ⟨b, hb, h⟩ := h
    cases b with
    | false => simp at h
    | true =>
      simp only [if_true, R_pure, Except.ok.injEq] at h
      subst h
      exact ⟨hne, hb, rfl, rfl, rfl, rfl, by rw [List.getLast?_eq_some_getLast hne]⟩

/-- The constructors give a curve from the knots that are read. -/
theorem mk_again {V : Type} [AddCommGroup V] [Module K V] (heps : 0 ≤ eps) {c : Curve K V} (h : Curve.mk? eps c.poles c.knots c.deg = .ok c) :
    ∃ k m U' c', knotsAndMults eps c.knots = .ok (k, m) ∧ flatKnots k m = .ok U' ∧ Curve.mk? eps c.poles U' c.deg = .ok c' ∧
      Curve.mkMult? eps c.poles k m c.deg = .ok c' ∧ c'.deg = c.deg ∧ c'.poles = c.poles ∧ Spec.NearList eps c.knots c'.knots ∧
      c'.b0 = c.b0 ∧ |c'.b1 - c.b1| ≤ eps ∧ (Spec.Apart eps c.knots → c' = c) := by
  obtain ⟨hne, hc, -, -, -, h0, h1⟩ := mk_ok h
  obtain ⟨k, m, U', e1, e2, hn, e3, e4, e5, e6, e7⟩ := knots_roundtrip heps hne
  have hl := hn.length
  have hne' : U' ≠ [] := by
    intro h0; rw [h0] at hl; exact hne (List.length_eq_zero_iff.mp hl.symm)
  have e8 := List.getLast?_eq_some_getLast hne'
  have hc' : checkCurve eps c.poles.length U' c.deg = .ok true := by rw [checkCurve_congr e3 hl, hc]
  refine ⟨k, m, U', ⟨c.deg, c.poles, U', c.b0, U'.getLast hne'⟩, e1, e2, ?_, ?_, rfl, rfl, hn, rfl, ?_, ?_⟩
  · unfold Curve.mk?
    rw [e4, h0, e8]
    dsimp only
    rw [hc', R_bind_ok]
    rfl
  · unfold Curve.mkMult?
    rw [e2, R_bind_ok, e5, e4, h0, e6, e8]
    dsimp only
    rw [hc', R_bind_ok]
    rfl
  · dsimp only
    rw [abs_sub_comm]
    exact hn.last h1 e8
  · intro hs
    obtain rfl := e7 hs
    have h2 : c.b1 = c.knots.getLast hne' := by rw [h1] at e8; exact Option.some.inj e8
    rw [← h2]

theorem getInt_small {t : ℕ} (h : t < 2 ^ 31) : (Json.int t : Json K).getInt = .ok t := by
  unfold Json.getInt Json.int?
  dsimp only
  rw [if_pos h]

/-- C101: a curve made by the constructor is written, and reading gives a curve of the same degree and with the same poles; the knots, and
the last bound, are the same up to the tolerance. When knots that differ do so by more than the tolerance, it is the same curve. The
two functions that read curves agree. -/
theorem C101_curve (heps : 0 ≤ eps) {c : Curve K (Fin n → K)} (h : Curve.mk? eps c.poles c.knots c.deg = .ok c) (hd : c.deg < 2 ^ 32)
    (ded : Bool) (interp : Json K → R (Curve K (Fin n → K))) :
    ∃ j c', (JCurve.bs c).write eps ded = .ok j ∧ (∀ fuel, j.makeCurve eps (fuel + 1) n = .ok (.bs c')) ∧ j.makeBscurve eps n interp = .ok c' ∧
      c'.deg = c.deg ∧ c'.poles = c.poles ∧ Spec.NearList eps c.knots c'.knots ∧ c'.b0 = c.b0 ∧ |c'.b1 - c.b1| ≤ eps ∧
      (Spec.Apart eps c.knots → c' = c) := by
  obtain ⟨k, m, U', c', e1, e2, e3, e4, e5⟩ := mk_again heps h
  have hd' : toUnsigned c.deg = c.deg := Nat.mod_eq_of_lt hd
  refine ⟨_, c', by simp only [JCurve.write, Json.ofBs, e1, R_bind_ok, hd']; rfl, ?_, ?_, e5⟩
  · intro fuel
    simp [Json.makeCurve, Json.get, getInt_small, Json.toBs, makePointVec_ofPoints, Json.flat, makeVec_ofVec, makeVec_ofSizes, e2, e3,
      Json.getUint64]
  · simp [Json.makeBscurve, Json.get, Json.int?, Json.bscurveDirect, makePointVec_ofPoints, makeVec_ofVec, makeVec_ofSizes, e4, Json.getSize]

theorem weights_again {P : List ((Fin n → K) × K)} (h : Spec.WeightsOk P) : addWeightsCoord (polesProjected P) (P.map Prod.snd) = .ok P := by
  unfold addWeightsCoord polesProjected
  rw [if_neg (by simp)]
  congr 1
  induction P with
  | nil => rfl
  | cons x P ih =>
    rw [List.map_cons, List.map_cons, List.zipWith_cons_cons, ih (fun y hy => h y (by simp [hy]))]
    congr 1
    unfold addWeight weightProjection
    by_cases h0 : x.2 = 0
    · have := h x (by simp) h0
      rw [if_neg (by simpa using h0), h0]
      ext1 <;> simp [this, h0]
    · rw [if_pos h0, smul_smul, mul_inv_cancel₀ h0, one_smul]

/-- C101 for rational curves: the weights must not be zero, unless the pole is null. -/
theorem C101_rational (heps : 0 ≤ eps) {c : Curve K ((Fin n → K) × K)} (h : Curve.mk? eps c.poles c.knots c.deg = .ok c) (hd : c.deg < 2 ^ 32)
    (hw : Spec.WeightsOk c.poles) (ded : Bool) :
    ∃ j c', (JCurve.rat c).write eps ded = .ok j ∧ (∀ fuel, j.makeCurve eps (fuel + 1) n = .ok (.rat c')) ∧
      c'.deg = c.deg ∧ c'.poles = c.poles ∧ Spec.NearList eps c.knots c'.knots ∧ c'.b0 = c.b0 ∧ |c'.b1 - c.b1| ≤ eps ∧
      (Spec.Apart eps c.knots → c' = c) := by
  obtain ⟨k, m, U', c', e1, e2, e3, e4, e5⟩ := mk_again heps h
  have hd' : toUnsigned c.deg = c.deg := Nat.mod_eq_of_lt hd
  refine ⟨_, c', by simp only [JCurve.write, Json.ofRat, e1, R_bind_ok, hd']; rfl, ?_, e5⟩
  intro fuel
  simp [Json.makeCurve, Json.get, getInt_small, Json.toRat, makePointVec_ofPoints, Json.flat, makeVec_ofVec, makeVec_ofSizes, e2, e3,
    Json.getUint64, weights_again hw]

/-! ## Surfaces -/

/-- What is known of a surface made by the constructor. -/
theorem smk_again {V : Type} [AddCommGroup V] [Module K V] (heps : 0 ≤ eps) {s : Surface K V}
    (h : Surface.mk? eps s.poles s.knotsU s.knotsV s.degU s.degV = .ok s) :
    ∃ ku mu kv mv U' W' s', knotsAndMults eps s.knotsU = .ok (ku, mu) ∧ flatKnots ku mu = .ok U' ∧
      knotsAndMults eps s.knotsV = .ok (kv, mv) ∧ flatKnots kv mv = .ok W' ∧ Surface.mk? eps s.poles U' W' s.degU s.degV = .ok s' ∧
      s'.degU = s.degU ∧ s'.degV = s.degV ∧ s'.poles = s.poles ∧ Spec.NearList eps s.knotsU s'.knotsU ∧ Spec.NearList eps s.knotsV s'.knotsV ∧
      s'.u0 = s.u0 ∧ |s'.u1 - s.u1| ≤ eps ∧ s'.v0 = s.v0 ∧ |s'.v1 - s.v1| ≤ eps ∧
      (Spec.Apart eps s.knotsU → Spec.Apart eps s.knotsV → s' = s) := by
  have hneU : s.knotsU ≠ [] := by intro h0; rw [h0] at h; simp [Surface.mk?] at h
  have hneV : s.knotsV ≠ [] := by
    intro h0; rw [h0] at h; unfold Surface.mk? at h
    rw [List.head?_eq_some_head hneU, List.getLast?_eq_some_getLast hneU] at h; simp at h
  obtain ⟨ku, mu, U', a1, a2, an, a3, a4, a5, a6, a7⟩ := knots_roundtrip heps hneU
  obtain ⟨kv, mv, W', b1, b2, bn, b3, b4, b5, b6, b7⟩ := knots_roundtrip heps hneV
  have al := an.length
  have bl := bn.length
  have aU : U' ≠ [] := by
    intro h0; rw [h0] at al; exact hneU (List.length_eq_zero_iff.mp al.symm)
  have bW : W' ≠ [] := by
    intro h0; rw [h0] at bl; exact hneV (List.length_eq_zero_iff.mp bl.symm)
  have a8 := List.getLast?_eq_some_getLast aU
  have b8 := List.getLast?_eq_some_getLast bW
  have c1 := List.head?_eq_some_head hneU
  have c2 := List.getLast?_eq_some_getLast hneU
  have d1 := List.head?_eq_some_head hneV
  have d2 := List.getLast?_eq_some_getLast hneV
  have key : s.u0 = s.knotsU.head hneU ∧ s.u1 = s.knotsU.getLast hneU ∧ s.v0 = s.knotsV.head hneV ∧ s.v1 = s.knotsV.getLast hneV ∧
      Surface.mk? eps s.poles U' W' s.degU s.degV = .ok ⟨s.degU, s.degV, s.poles, U', W', s.u0, U'.getLast aU, s.v0, W'.getLast bW⟩ := by
    unfold Surface.mk? at h ⊢
    rw [c1, c2, d1, d2] at h
    rw [a4, b4, c1, a8, d1, b8]
    dsimp only at h ⊢
    rw [al, bl, checkCurveW_congr a3 al, checkCurveW_congr b3 bl]
    split at h
    · simp at h
    · rename_i hp
      rw [if_neg hp]
      rw [R_bind_eq_ok] at h
      obtain ⟨b, hb, h⟩ := h
      rw [hb, R_bind_ok]
      split at h
      · simp at h
      · rename_i hp
        rw [if_neg hp]
        rw [R_bind_eq_ok] at h
        obtain ⟨b, hb, h⟩ := h
        rw [hb, R_bind_ok]
        split at h
        · simp at h
        · rename_i hp
          rw [if_neg hp]
          simp only [R_pure, Except.ok.injEq] at h ⊢
          have e1 := congrArg Surface.u0 h
          have e2 := congrArg Surface.u1 h
          have e3 := congrArg Surface.v0 h
          have e4 := congrArg Surface.v1 h
          dsimp only at e1 e2 e3 e4
          exact ⟨e1.symm, e2.symm, e3.symm, e4.symm, by rw [e1, e3]⟩
  obtain ⟨k1, k2, k3, k4, key⟩ := key
  refine ⟨ku, mu, kv, mv, U', W', _, a1, a2, b1, b2, key, rfl, rfl, rfl, an, bn, rfl, ?_, rfl, ?_, ?_⟩
  · dsimp only
    rw [abs_sub_comm, k2]
    exact an.last c2 a8
  · dsimp only
    rw [abs_sub_comm, k4]
    exact bn.last d2 b8
  · intro hu hv
    obtain rfl := a7 hu
    obtain rfl := b7 hv
    rw [← k2, ← k4]

/-- C101 for surfaces. -/
theorem C101_surface (heps : 0 ≤ eps) {s : Surface K (Fin n → K)} (h : Surface.mk? eps s.poles s.knotsU s.knotsV s.degU s.degV = .ok s)
    (hp : s.degU < 2 ^ 32) (hq : s.degV < 2 ^ 32) (ded : Bool) :
    ∃ j s', (JSurface.bs s).write eps ded = .ok j ∧ j.makeSurface eps n = .ok (.bs s') ∧ j.makeBssurface eps n = .ok s' ∧
      s'.degU = s.degU ∧ s'.degV = s.degV ∧ s'.poles = s.poles ∧ Spec.NearList eps s.knotsU s'.knotsU ∧ Spec.NearList eps s.knotsV s'.knotsV ∧
      s'.u0 = s.u0 ∧ |s'.u1 - s.u1| ≤ eps ∧ s'.v0 = s.v0 ∧ |s'.v1 - s.v1| ≤ eps ∧
      (Spec.Apart eps s.knotsU → Spec.Apart eps s.knotsV → s' = s) := by
  obtain ⟨ku, mu, kv, mv, U', W', s', a1, a2, b1, b2, e, e5⟩ := smk_again heps h
  have hp' : toUnsigned s.degU = s.degU := Nat.mod_eq_of_lt hp
  have hq' : toUnsigned s.degV = s.degV := Nat.mod_eq_of_lt hq
  refine ⟨_, s', by simp only [JSurface.write, Json.ofBsSurface, a1, b1, R_bind_ok, hp', hq']; rfl, ?_, ?_, e5⟩
  · simp [Json.makeSurface, Json.get, getInt_small, makePointVec_ofPoints, Json.flat, makeVec_ofVec, makeVec_ofSizes, a2, b2, e,
      Json.getUint64]
  · simp [Json.makeBssurface, Json.get, Json.int?, makePointVec_ofPoints, makeVec_ofVec, makeVec_ofSizes, a2, b2, e, Json.getSize]

/-- C101 for rational surfaces. -/
theorem C101_rational_surface (heps : 0 ≤ eps) {s : Surface K ((Fin n → K) × K)}
    (h : Surface.mk? eps s.poles s.knotsU s.knotsV s.degU s.degV = .ok s) (hp : s.degU < 2 ^ 32) (hq : s.degV < 2 ^ 32)
    (hw : Spec.WeightsOk s.poles) (ded : Bool) :
    ∃ j s', (JSurface.rat s).write eps ded = .ok j ∧ j.makeSurface eps n = .ok (.rat s') ∧
      s'.degU = s.degU ∧ s'.degV = s.degV ∧ s'.poles = s.poles ∧ Spec.NearList eps s.knotsU s'.knotsU ∧ Spec.NearList eps s.knotsV s'.knotsV ∧
      s'.u0 = s.u0 ∧ |s'.u1 - s.u1| ≤ eps ∧ s'.v0 = s.v0 ∧ |s'.v1 - s.v1| ≤ eps ∧
      (Spec.Apart eps s.knotsU → Spec.Apart eps s.knotsV → s' = s) := by
  obtain ⟨ku, mu, kv, mv, U', W', s', a1, a2, b1, b2, e, e5⟩ := smk_again heps h
  have hp' : toUnsigned s.degU = s.degU := Nat.mod_eq_of_lt hp
  have hq' : toUnsigned s.degV = s.degV := Nat.mod_eq_of_lt hq
  refine ⟨_, s', by simp only [JSurface.write, Json.ofRatSurface, a1, b1, R_bind_ok, hp', hq']; rfl, ?_, e5⟩
  simp [Json.makeSurface, Json.get, getInt_small, makePointVec_ofPoints, Json.flat, makeVec_ofVec, makeVec_ofSizes, a2, b2, e,
    Json.getUint64, weights_again hw]

/-! ## Curves on surfaces and surfaces of revolution -/

/-- The surfaces that are read as they were written. -/
def Spec.ReadableSurface (eps : K) {n : ℕ} : JSurface K n → Prop
  | .bs s => Surface.mk? eps s.poles s.knotsU s.knotsV s.degU s.degV = .ok s ∧ s.degU < 2 ^ 32 ∧ s.degV < 2 ^ 32 ∧
      Spec.Apart eps s.knotsU ∧ Spec.Apart eps s.knotsV
  | .rat s => Surface.mk? eps s.poles s.knotsU s.knotsV s.degU s.degV = .ok s ∧ s.degU < 2 ^ 32 ∧ s.degV < 2 ^ 32 ∧
      Spec.Apart eps s.knotsU ∧ Spec.Apart eps s.knotsV ∧ Spec.WeightsOk s.poles
  | _ => False

/-- The curves that are read as they were written. -/
inductive Spec.Readable (eps : K) : {n : ℕ} → JCurve K n → Prop
  | bs {n : ℕ} {c : Curve K (Fin n → K)} (h : Curve.mk? eps c.poles c.knots c.deg = .ok c) (hd : c.deg < 2 ^ 32)
      (ha : Spec.Apart eps c.knots) : Spec.Readable eps (.bs c)
  | rat {n : ℕ} {c : Curve K ((Fin n → K) × K)} (h : Curve.mk? eps c.poles c.knots c.deg = .ok c) (hd : c.deg < 2 ^ 32)
      (ha : Spec.Apart eps c.knots) (hw : Spec.WeightsOk c.poles) : Spec.Readable eps (.rat c)
  | onSurface {n : ℕ} {c : JCurve K 2} {s : JSurface K n} (hc : Spec.Readable eps c) (hs : Spec.ReadableSurface eps s) :
      Spec.Readable eps (.onSurface c s)

/-- The nesting of the curves on surfaces. -/
def Spec.depth {n : ℕ} : JCurve K n → ℕ
  | .onSurface c _ => Spec.depth c + 1
  | _ => 1

/-- C101: surfaces are read as they were written. -/
theorem C101_surface_exact (heps : 0 ≤ eps) {s : JSurface K n} (h : Spec.ReadableSurface eps s) (ded : Bool) :
    ∃ j, s.write eps ded = .ok j ∧ j.makeSurface eps n = .ok s := by
  cases s with
  | bs s =>
    obtain ⟨h1, h2, h3, h4, h5⟩ := h
    obtain ⟨j, s', e1, e2, -, -, -, -, -, -, -, -, -, -, e⟩ := C101_surface heps h1 h2 h3 ded
    exact ⟨j, e1, by rw [e2, e h4 h5]⟩
  | rat s =>
    obtain ⟨h1, h2, h3, h4, h5, h6⟩ := h
    obtain ⟨j, s', e1, e2, -, -, -, -, -, -, -, -, -, e⟩ := C101_rational_surface heps h1 h2 h3 h6 ded
    exact ⟨j, e1, by rw [e2, e h4 h5]⟩
  | revolution => exact h.elim
  | other => exact h.elim

/-- C101: curves, and curves on surfaces whatever their nesting, are read as they were written. -/
theorem C101_exact (heps : 0 ≤ eps) {c : JCurve K n} (h : Spec.Readable eps c) (ded : Bool) :
    ∃ j, c.write eps ded = .ok j ∧ ∀ fuel, Spec.depth c ≤ fuel → j.makeCurve eps fuel n = .ok c := by
  induction h generalizing ded with
  | bs h hd ha =>
    obtain ⟨j, c', e1, e2, -, -, -, -, -, -, e⟩ := C101_curve heps h hd ded (fun _ => .error .null)
    refine ⟨j, e1, ?_⟩
    intro fuel hf
    obtain ⟨fuel, rfl⟩ : ∃ q, fuel = q + 1 := ⟨fuel - 1, by simp only [Spec.depth] at hf; omega⟩
    rw [e2, e ha]
  | rat h hd ha hw =>
    obtain ⟨j, c', e1, e2, -, -, -, -, -, e⟩ := C101_rational heps h hd hw ded
    refine ⟨j, e1, ?_⟩
    intro fuel hf
    obtain ⟨fuel, rfl⟩ : ∃ q, fuel = q + 1 := ⟨fuel - 1, by simp only [Spec.depth] at hf; omega⟩
    rw [e2, e ha]
  | onSurface hc hs ih =>
    obtain ⟨j1, a1, a2⟩ := ih false
    obtain ⟨j2, b1, b2⟩ := C101_surface_exact heps hs false
    refine ⟨_, by simp only [JCurve.write, a1, b1, R_bind_ok]; rfl, ?_⟩
    intro fuel hf
    simp only [Spec.depth] at hf
    obtain ⟨fuel, rfl⟩ : ∃ q, fuel = q + 1 := ⟨fuel - 1, by omega⟩
    simp [Json.makeCurve, Json.get, getInt_small, a2 fuel (by omega), b2]

/-- C101: surfaces of revolution are read as they were written; their document says that the dimension is 2. -/
theorem C101_revolution (heps : 0 ≤ eps) {c : JCurve K 2} (h : Spec.Readable eps c) (F : Ax2 K) (a1 a2 : K) :
    ∃ j, (JSurface.revolution c F a1 a2).write eps true = .ok j ∧ j.get "dim" = .ok (.int 2) ∧
      ∀ fuel, Spec.depth c ≤ fuel → j.makeSurface3 eps fuel = .ok (.revolution c F a1 a2) := by
  obtain ⟨j, e1, e2⟩ := C101_exact heps h true
  refine ⟨_, by simp only [JSurface.write, e1, R_bind_ok, if_true]; rfl, rfl, ?_⟩
  intro fuel hf
  simp [Json.makeSurface3, Json.get, getInt_small, e2 fuel hf, makeAx2_ofAx2, Json.getDouble]

/-- C101: the other surfaces are read by the function for dimension 3 as by the general one. -/
theorem C101_surface_three (heps : 0 ≤ eps) {s : JSurface K 3} (h : Spec.ReadableSurface eps s) (ded : Bool) (fuel : ℕ) :
    ∃ j, s.write eps ded = .ok j ∧ j.makeSurface3 eps fuel = .ok s := by
  obtain ⟨j, e1, e2⟩ := C101_surface_exact heps h ded
  refine ⟨j, e1, ?_⟩
  unfold Json.makeSurface3
  have e3 := e2
  unfold Json.makeSurface at e3
  rw [R_bind_eq_ok] at e3
  obtain ⟨a, ha, e3⟩ := e3
  rw [R_bind_eq_ok] at e3
  obtain ⟨t, ht, e3⟩ := e3
  rw [ha, R_bind_ok, ht, R_bind_ok, if_neg, e2]
  rintro rfl
  simp at e3

/-! ## What cannot be read -/

/-- The curves made of B-Spline curves and surfaces. -/
inductive Spec.Splines : {n : ℕ} → JCurve K n → Prop
  | bs {n : ℕ} (c : Curve K (Fin n → K)) : Spec.Splines (.bs c)
  | rat {n : ℕ} (c : Curve K ((Fin n → K) × K)) : Spec.Splines (.rat c)
  | onBs {n : ℕ} {c : JCurve K 2} (s : Surface K (Fin n → K)) (hc : Spec.Splines c) : Spec.Splines (.onSurface c (.bs s))
  | onRat {n : ℕ} {c : JCurve K 2} (s : Surface K ((Fin n → K) × K)) (hc : Spec.Splines c) : Spec.Splines (.onSurface c (.rat s))

theorem makeSurface_null : (Json.null : Json K).makeSurface eps n = .error .null := rfl

/-- C101: nothing else than B-Spline curves, and curves on B-Spline surfaces, can be read back: what is written for composite, trimmed and
offset curves, for the other classes and for the curves on other surfaces is not accepted by the function that reads curves. -/
theorem C101_only : ∀ {fuel n : ℕ} {c d : JCurve K n} {ded : Bool} {j : Json K}, c.write eps ded = .ok j → j.makeCurve eps fuel n = .ok d →
    Spec.Splines c := by
  intro fuel
  induction fuel with
  | zero => intro n c d ded j _ h; simp [Json.makeCurve] at h
  | succ fuel ih =>
    intro n c d ded j hw h
    cases c with
    | bs c => exact .bs c
    | rat c => exact .rat c
    | onSurface c s =>
      simp only [JCurve.write] at hw
      rw [R_bind_eq_ok] at hw
      obtain ⟨jc, h1, hw⟩ := hw
      rw [R_bind_eq_ok] at hw
      obtain ⟨js, h2, hw⟩ := hw
      simp only [R_pure, Except.ok.injEq] at hw
      subst hw
      simp [Json.makeCurve, Json.get, getInt_small] at h
      rw [R_bind_eq_ok] at h
      obtain ⟨c', h3, h⟩ := h
      rw [R_bind_eq_ok] at h
      obtain ⟨s', h4, h⟩ := h
      have hc := ih h1 h3
      cases s with
      | bs s => exact .onBs s hc
      | rat s => exact .onRat s hc
      | revolution c2 F a1 a2 =>
        simp only [JSurface.write, Bool.false_eq_true, if_false, R_pure, Except.ok.injEq] at h2
        subst h2
        simp [makeSurface_null] at h4
      | other =>
        simp only [JSurface.write, R_pure, Except.ok.injEq] at h2
        subst h2
        simp [makeSurface_null] at h4
    | composite cs =>
      simp only [JCurve.write] at hw
      rw [R_bind_eq_ok] at hw
      obtain ⟨l, -, hw⟩ := hw
      simp only [R_pure, Except.ok.injEq] at hw
      subst hw
      simp [Json.makeCurve, Json.get, getInt_small] at h
    | trimmed c u1 u2 =>
      simp only [JCurve.write] at hw
      rw [R_bind_eq_ok] at hw
      obtain ⟨l, -, hw⟩ := hw
      simp only [R_pure, Except.ok.injEq] at hw
      subst hw
      simp [Json.makeCurve, Json.get, getInt_small] at h
    | offset2 c f =>
      simp only [JCurve.write] at hw
      split at hw
      · rw [R_bind_eq_ok] at hw
        obtain ⟨l, -, hw⟩ := hw
        rw [R_bind_eq_ok] at hw
        obtain ⟨l', -, hw⟩ := hw
        simp only [R_pure, Except.ok.injEq] at hw
        subst hw
        simp [Json.makeCurve, Json.get, getInt_small] at h
      · simp only [R_pure, Except.ok.injEq] at hw
        subst hw
        simp [Json.makeCurve, Json.get] at h
    | other =>
      simp only [JCurve.write, R_pure, Except.ok.injEq] at hw
      subst hw
      simp [Json.makeCurve, Json.get] at h

/-- C101: composite and trimmed curves of readable curves are written, and reading the document throws. -/
theorem C101_thrown (heps : 0 ≤ eps) {c : JCurve K n} (h : Spec.Readable eps c) (u1 u2 : K) (ded : Bool) (fuel : ℕ) :
    (∃ j, (JCurve.trimmed c u1 u2).write eps ded = .ok j ∧ j.makeCurve eps (fuel + 1) n = .error (.thrown .invalid)) ∧
    (∃ j, (JCurve.composite (.cons c .nil)).write eps ded = .ok j ∧ j.makeCurve eps (fuel + 1) n = .error (.thrown .invalid)) := by
  obtain ⟨j, e1, -⟩ := C101_exact heps h true
  constructor
  · refine ⟨_, by simp only [JCurve.write, e1, R_bind_ok]; rfl, ?_⟩
    simp [Json.makeCurve, Json.get, getInt_small]
  · refine ⟨_, by simp only [JCurve.write, JCurves.write, e1, R_bind_ok, R_pure]; rfl, ?_⟩
    simp [Json.makeCurve, Json.get, getInt_small]

/-- C101: a curve on a surface of revolution is written with no surface, although a surface of revolution alone is written; reading the
document is undefined. So is reading what is written for a class without a document. -/
theorem C101_lost (heps : 0 ≤ eps) {c c2 : JCurve K 2} (h : Spec.Readable eps c) (F : Ax2 K) (a1 a2 : K) (ded : Bool) {fuel : ℕ}
    (hf : Spec.depth c ≤ fuel) :
    (∃ j, (JCurve.onSurface c (.revolution c2 F a1 a2)).write eps ded = .ok j ∧ (∃ s, j.get "surface" = .ok s ∧ s = .null) ∧
      j.makeCurve eps (fuel + 1) 3 = .error .null) ∧
    (∃ j, (JCurve.other : JCurve K n).write eps ded = .ok j ∧ j.makeCurve eps (fuel + 1) n = .error .null) := by
  obtain ⟨j, e1, e2⟩ := C101_exact heps h false
  constructor
  · refine ⟨_, by simp only [JCurve.write, JSurface.write, e1, R_bind_ok, R_pure, Bool.false_eq_true, if_false]; rfl, ⟨_, rfl, rfl⟩, ?_⟩
    simp [Json.makeCurve, Json.get, getInt_small, e2 fuel hf, makeSurface_null]
  · exact ⟨_, by simp only [JCurve.write]; rfl, rfl⟩

theorem makePointVec_wrong {m : ℕ} (hm : m ≠ n) {l : List (Fin n → K)} (hl : l ≠ []) :
    (Json.ofPoints l).makePointVec m = .error (.thrown .invalid) := by
  obtain ⟨x, l, rfl⟩ := List.exists_cons_of_ne_nil hl
  unfold Json.makePointVec Json.ofPoints Json.makeVec
  dsimp only
  rw [List.map_cons, List.mapM_cons]
  have : (Json.ofPoint x).makeArray m = .error (.thrown .invalid) := by
    unfold Json.ofPoint Json.ofVec Json.makeArray
    dsimp only
    rw [if_pos (by simpa using Ne.symm hm)]
  rw [this]
  rfl

/-- C101: a curve is not read in another dimension: an exception is thrown. -/
theorem C101_dimension (heps : 0 ≤ eps) {c : Curve K (Fin n → K)} (h : Curve.mk? eps c.poles c.knots c.deg = .ok c) {m : ℕ} (hm : m ≠ n)
    (ded : Bool) : ∃ j, (JCurve.bs c).write eps ded = .ok j ∧ ∀ fuel, j.makeCurve eps (fuel + 1) m = .error (.thrown .invalid) := by
  have hl := (C11_accepted heps h).2.2.2.2.2.2.1
  obtain ⟨k, mu, U', c', e1, e2, e3, e4, e5⟩ := mk_again heps h
  refine ⟨_, by simp only [JCurve.write, Json.ofBs, e1, R_bind_ok]; rfl, ?_⟩
  intro fuel
  have : (Json.ofPoints c.poles).makePointVec m = .error (.thrown .invalid) := makePointVec_wrong hm (by
    intro h0; rw [h0] at hl; simp at hl)
  simp [Json.makeCurve, Json.get, getInt_small, Json.toBs, this]

/-! ## What is lost -/

theorem apart_of_chain (heps : 0 ≤ eps) {k : List K} (hs : k.Pairwise (· ≤ ·)) (hc : k.IsChain (fun a b => eps < |b - a|)) :
    Spec.Apart eps k := by
  have hp : k.Pairwise (fun a b => eps < b - a) := by
    induction k with
    | nil => exact .nil
    | cons x k ih =>
      rw [List.pairwise_cons] at hs ⊢
      cases k with
      | nil => simp
      | cons y k =>
        rw [List.isChain_cons_cons] at hc
        refine ⟨?_, ih hs.2 hc.2⟩
        have hxy : eps < y - x := by
          have := hc.1
          rwa [abs_of_nonneg (sub_nonneg.mpr (hs.1 y (by simp)))] at this
        intro z hz
        rcases List.mem_cons.mp hz with rfl | hz
        · exact hxy
        · have := (List.pairwise_cons.mp hs.2).1 z hz
          linarith
  intro x hx y hy h
  rw [List.mem_iff_getElem] at hx hy
  obtain ⟨i, hi, rfl⟩ := hx
  obtain ⟨j, hj, rfl⟩ := hy
  rw [List.pairwise_iff_getElem] at hp
  rw [abs_le] at h
  rcases Nat.lt_trichotomy i j with h1 | h1 | h1
  · have := hp i j hi hj h1; linarith
  · subst h1; rfl
  · have := hp j i hj hi h1; linarith

/-- C101: when two different knots are within the tolerance, what is read is not the curve that was written. -/
theorem C101_merged (heps : 0 ≤ eps) {c : Curve K (Fin n → K)} (h : Curve.mk? eps c.poles c.knots c.deg = .ok c) (hd : c.deg < 2 ^ 32)
    (hs : c.knots.Pairwise (· ≤ ·)) (ha : ¬ Spec.Apart eps c.knots) (ded : Bool) :
    ∃ j c', (JCurve.bs c).write eps ded = .ok j ∧ (∀ fuel, j.makeCurve eps (fuel + 1) n = .ok (.bs c')) ∧ c'.knots ≠ c.knots := by
  obtain ⟨k, m, U', c', e1, e2, e3, e4, e5⟩ := mk_again heps h
  have hd' : toUnsigned c.deg = c.deg := Nat.mod_eq_of_lt hd
  refine ⟨_, c', by simp only [JCurve.write, Json.ofBs, e1, R_bind_ok, hd']; rfl, ?_, ?_⟩
  · intro fuel
    simp [Json.makeCurve, Json.get, getInt_small, Json.toBs, makePointVec_ofPoints, Json.flat, makeVec_ofVec, makeVec_ofSizes, e2, e3,
      Json.getUint64]
  · rw [(mk_ok e3).2.2.2.2.1]
    intro he
    apply ha
    obtain ⟨x, l, hxl⟩ := List.exists_cons_of_ne_nil (mk_ok h).1
    rw [hxl] at hs
    have e1' : knotsAndMults eps c.knots = .ok ((unflatLoop eps x 1 l).map Prod.fst, (unflatLoop eps x 1 l).map Prod.snd) := by rw [hxl]; rfl
    rw [e1'] at e1
    simp only [Except.ok.injEq, Prod.mk.injEq] at e1
    obtain ⟨rfl, rfl⟩ := e1
    have hk := apart_of_chain heps (hs.sublist (unflatLoop_sublist eps l x 1)) (unflatLoop_chain (eps := eps) l x 1 le_rfl).1
    have hmem : ∀ y ∈ U', y ∈ (unflatLoop eps x 1 l).map Prod.fst := by
      intro y hy
      unfold flatKnots at e2
      rw [if_neg (by simp)] at e2
      simp only [Except.ok.injEq] at e2
      rw [← e2] at hy
      exact mem_flat hy
    intro a h1 b h2
    rw [← he] at h1 h2
    exact hk a (hmem a h1) b (hmem b h2)

/-- C101: when a pole that is not null has a zero weight, what is read is not the curve that was written. -/
theorem C101_zero_weight (heps : 0 ≤ eps) {c : Curve K ((Fin n → K) × K)} (h : Curve.mk? eps c.poles c.knots c.deg = .ok c)
    (hd : c.deg < 2 ^ 32) (hw : ¬ Spec.WeightsOk c.poles) (ded : Bool) :
    ∃ j c', (JCurve.rat c).write eps ded = .ok j ∧ (∀ fuel, j.makeCurve eps (fuel + 1) n = .ok (.rat c')) ∧ c'.poles ≠ c.poles := by
  set Q : List ((Fin n → K) × K) := List.zipWith addWeight (polesProjected c.poles) (c.poles.map Prod.snd) with hQ
  have hl : Q.length = c.poles.length := by rw [hQ]; simp [polesProjected]
  have ha : addWeightsCoord (polesProjected c.poles) (c.poles.map Prod.snd) = .ok Q := by
    unfold addWeightsCoord polesProjected
    rw [if_neg (by simp)]
    rfl
  have h' : Curve.mk? eps Q c.knots c.deg = .ok { c with poles := Q } := by
    obtain ⟨h1, h2, -, -, -, h3, h4⟩ := mk_ok h
    unfold Curve.mk?
    rw [h3, h4]
    dsimp only
    rw [hl, h2, R_bind_ok]
    rfl
  obtain ⟨k, m, U', c', e1, e2, e3, -, -, e5, -⟩ := mk_again (c := { c with poles := Q }) heps h'
  dsimp only at e1 e3 e5
  have hd' : toUnsigned c.deg = c.deg := Nat.mod_eq_of_lt hd
  refine ⟨_, c', by simp only [JCurve.write, Json.ofRat, e1, R_bind_ok, hd']; rfl, ?_, ?_⟩
  · intro fuel
    simp [Json.makeCurve, Json.get, getInt_small, Json.toRat, makePointVec_ofPoints, Json.flat, makeVec_ofVec, makeVec_ofSizes, e2, e3,
      Json.getUint64, ha]
  · rw [e5]
    intro he
    apply hw
    intro x hx h0
    have hmap : Q = c.poles.map (fun x => addWeight (weightProjection x) x.2) := by
      rw [hQ, polesProjected, List.zipWith_map_left, List.zipWith_map_right, List.zipWith_self]
    rw [he, List.mem_iff_getElem] at *
    obtain ⟨i, hi, rfl⟩ := hx
    have := congrArg (fun l => l[i]?) hmap
    simp only [List.getElem?_map, List.getElem?_eq_getElem hi, Option.map_some, Option.some.injEq] at this
    rw [this]
    unfold addWeight
    rw [h0, zero_smul]

/-! ## Examples -/

namespace Sample

/-- A curve of the plane with a multiple knot. -/
def jsC : Curve ℚ (Fin 2 → ℚ) := ⟨2, [![0, 0], ![1, 2], ![2, 1], ![3, 3], ![4, 0]], [0, 0, 0, 1, 1, 2, 2, 2], 0, 2⟩

/-- A rational curve; the second pole and its weight are null. -/
def jsR : Curve ℚ ((Fin 2 → ℚ) × ℚ) := ⟨1, [(![0, 0], 1), (![0, 0], 0), (![4, 2], 2)], [0, 0, 1, 3, 3], 0, 3⟩

/-- A surface. -/
def jsS : Surface ℚ (Fin 3 → ℚ) :=
  ⟨1, 1, [![0, 0, 0], ![1, 0, 1], ![2, 0, 0], ![0, 1, 0], ![1, 1, 2], ![2, 1, 0]], [0, 0, 1, 2, 2], [0, 0, 5, 5], 0, 2, 0, 5⟩

theorem jsC_ok : Curve.mk? (1 / 10 : ℚ) jsC.poles jsC.knots jsC.deg = .ok jsC := by decide +kernel

theorem jsR_ok : Curve.mk? (1 / 10 : ℚ) jsR.poles jsR.knots jsR.deg = .ok jsR := by decide +kernel

theorem jsS_ok : Surface.mk? (1 / 10 : ℚ) jsS.poles jsS.knotsU jsS.knotsV jsS.degU jsS.degV = .ok jsS := by decide +kernel

theorem jsC_apart : Spec.Apart (1 / 10 : ℚ) jsC.knots := by unfold Spec.Apart; decide +kernel

theorem jsR_readable : Spec.Readable (1 / 10 : ℚ) (.rat jsR) :=
  .rat jsR_ok (by decide) (by unfold Spec.Apart; decide +kernel) (by unfold Spec.WeightsOk; decide +kernel)

theorem jsS_readable : Spec.ReadableSurface (1 / 10 : ℚ) (.bs jsS) :=
  ⟨jsS_ok, by decide, by decide, by unfold Spec.Apart; decide +kernel, by unfold Spec.Apart; decide +kernel⟩

/-- The hypotheses of `C101_exact` are met by a rational curve on a surface. -/
example : Spec.Readable (1 / 10 : ℚ) (.onSurface (.rat jsR) (.bs jsS)) := .onSurface jsR_readable jsS_readable

/-- Those of `C101_curve`, `C101_dimension`. -/
example : Curve.mk? (1 / 10 : ℚ) jsC.poles jsC.knots jsC.deg = .ok jsC ∧ jsC.deg < 2 ^ 32 ∧ (3 : ℕ) ≠ 2 := ⟨jsC_ok, by decide, by decide⟩

/-- Those of `C101_only`: a written document that can be read. -/
example : ∃ j, (JCurve.onSurface (.rat jsR) (.bs jsS)).write (1 / 10 : ℚ) true = .ok j ∧
    j.makeCurve (1 / 10 : ℚ) 2 3 = .ok (.onSurface (.rat jsR) (.bs jsS)) := by
  obtain ⟨j, h1, h2⟩ := C101_exact (by norm_num) (.onSurface jsR_readable jsS_readable : Spec.Readable (1 / 10 : ℚ) _) true
  exact ⟨j, h1, h2 2 le_rfl⟩

/-- Those of `C101_merged`: with a larger tolerance. -/
example : Curve.mk? (1 : ℚ) jsC.poles jsC.knots jsC.deg = .ok jsC ∧ jsC.knots.Pairwise (· ≤ ·) ∧ ¬ Spec.Apart (1 : ℚ) jsC.knots :=
  ⟨by decide +kernel, by decide +kernel, by unfold Spec.Apart; decide +kernel⟩

/-- A rational curve with a pole at infinity. -/
def jsZ : Curve ℚ ((Fin 2 → ℚ) × ℚ) := ⟨1, [(![0, 0], 1), (![1, 0], 0), (![4, 2], 2)], [0, 0, 1, 3, 3], 0, 3⟩

/-- Those of `C101_zero_weight`. -/
example : Curve.mk? (1 / 10 : ℚ) jsZ.poles jsZ.knots jsZ.deg = .ok jsZ ∧ ¬ Spec.WeightsOk jsZ.poles :=
  ⟨by decide +kernel, by unfold Spec.WeightsOk; decide +kernel⟩

/-- Those of `C101_rational_surface`. -/
example : ∃ s : Surface ℚ ((Fin 2 → ℚ) × ℚ), Surface.mk? (1 / 10 : ℚ) s.poles s.knotsU s.knotsV s.degU s.degV = .ok s ∧ Spec.WeightsOk s.poles :=
  ⟨⟨1, 1, [(![0, 0], 1), (![1, 0], 1), (![0, 2], 2), (![2, 2], 2)], [0, 0, 1, 1], [0, 0, 1, 1], 0, 1, 0, 1⟩, by decide +kernel,
    by unfold Spec.WeightsOk; decide +kernel⟩

end Sample

end Gbs
