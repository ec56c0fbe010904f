import Verif.Props.Json
import Verif.Props.Tangents
import Verif.Model.JsonInterp

/-!
# C124: the curves described in a document by what they interpolate
-/

set_option linter.unusedSectionVars false

namespace Gbs

/-! ## The members of a document -/

section members

variable {K : Type} {l : List (String × Json K)} {s : String} {x : Json K}

theorem get_of_mem (hd : (l.map Prod.fst).Nodup) (h : (s, x) ∈ l) : (Json.obj l).get s = .ok x := by
  unfold Json.get
  dsimp only
  induction l with
  | nil => simp at h
  | cons m l ih =>
    rw [List.map_cons, List.nodup_cons] at hd
    rcases List.mem_cons.mp h with rfl | h
    · simp
    · have hne : (m.1 == s) = false := by
        rw [beq_eq_false_iff_ne]
        rintro rfl
        exact hd.1 (List.mem_map.mpr ⟨_, h, rfl⟩)
      rw [List.find?_cons, hne]
      exact ih hd.2 h

theorem has_of_mem (h : (s, x) ∈ l) : (Json.obj l).has s = .ok true := by
  unfold Json.has
  dsimp only
  congr 1
  rw [List.any_eq_true]
  exact ⟨_, h, by simp⟩

theorem has_of_not_mem (h : ∀ x, (s, x) ∉ l) : (Json.obj l).has s = .ok false := by
  unfold Json.has
  dsimp only
  congr 1
  rw [List.any_eq_false]
  rintro ⟨s', x⟩ hm he
  obtain rfl : s' = s := by simpa using he
  exact h x hm

end members

/-! ## The rows of constraints -/

section rows

variable {K : Type} [Field K] [LinearOrder K] [IsStrictOrderedRing K] {n : ℕ}

/-- The constraints of each point: those of its rank in each row. -/
def rowCols (n nc m : ℕ) (L : List (List (Fin n → K))) : List (List (Fin n → K)) :=
  (List.range m).map fun j => (List.range nc).map fun i => (L.getD i []).getD j 0

theorem item_rows {L : List (List (Fin n → K))} {i : ℕ} (h : i < L.length) :
    (Json.arr (L.map Json.ofPoints)).item i = .ok (Json.ofPoints (L.getD i [])) := by
  unfold Json.item Json.getArr
  simp [h]

theorem item_points {r : List (Fin n → K)} {j : ℕ} (h : j < r.length) : (Json.ofPoints r).item j = .ok (Json.ofPoint (r.getD j 0)) := by
  unfold Json.ofPoints Json.item Json.getArr
  simp [h]

theorem constraintsVec_rows {L : List (List (Fin n → K))} {r0 : List (Fin n → K)} (h0 : L[0]? = some r0) {nc : ℕ} (hnc : nc ≤ L.length)
    (hr : ∀ r ∈ L, r0.length ≤ r.length) :
    (Json.arr (L.map Json.ofPoints)).constraintsVec n nc = .ok (rowCols n nc r0.length L) := by
  have hL : 0 < L.length := (List.getElem?_eq_some_iff.mp h0).1
  have hg : L.getD 0 [] = r0 := by simp [h0]
  unfold Json.constraintsVec
  dsimp only
  rw [item_rows hL, R_bind_ok, hg]
  have hgr : (Json.ofPoints r0).getArr = .ok (r0.map Json.ofPoint) := rfl
  rw [hgr, R_bind_ok, List.length_map]
  apply mapM_ok
  intro j hj
  apply mapM_ok
  intro i hi
  rw [List.mem_range] at hi hj
  rw [item_rows (by omega), R_bind_ok]
  have hm : L.getD i [] ∈ L := by
    have hi' : i < L.length := by omega
    simp [hi']
  rw [item_points (lt_of_lt_of_le hj (hr _ hm)), R_bind_ok, makeArray_ofPoint]

theorem rowCols_spec {L : List (List (Fin n → K))} {nc m : ℕ} :
    (rowCols n nc m L).length = m ∧ (∀ q ∈ rowCols n nc m L, q.length = nc) ∧
      ∀ (d i : ℕ) (r : List (Fin n → K)) (x : Fin n → K), d < nc → i < m → L[d]? = some r → r[i]? = some x →
        ∃ q, (rowCols n nc m L)[i]? = some q ∧ q[d]? = some x := by
  refine ⟨by simp [rowCols], ?_, ?_⟩
  · intro q hq
    obtain ⟨j, -, rfl⟩ := List.mem_map.mp hq
    simp
  · intro d i r x hd hi hr hx
    refine ⟨(List.range nc).map fun k => (L.getD k []).getD i 0, by simp [rowCols, hi], ?_⟩
    simp [hd, hr, hx]

theorem rowCols_points {L : List (List (Fin n → K))} {r0 : List (Fin n → K)} (h0 : L[0]? = some r0) {nc : ℕ} (hnc : 1 ≤ nc) :
    (rowCols n nc r0.length L).map (fun q => q[0]?) = r0.map some := by
  apply List.ext_getElem?
  intro i
  unfold rowCols
  by_cases hi : i < r0.length
  · simp [hi, h0, show 0 < nc by omega]
  · simp [hi]

/-- The description of constraints: one row of points, or one of points and one of derivatives, at least as long. -/
def Spec.Rows (L : List (List (Fin n → K))) (r0 : List (Fin n → K)) : Prop :=
  L[0]? = some r0 ∧ L.length ≤ 2 ∧ ∀ r ∈ L, r0.length ≤ r.length

theorem readConstraints_rows {l : List (String × Json K)} (hd : (l.map Prod.fst).Nodup) {L : List (List (Fin n → K))} {r0 : List (Fin n → K)}
    (hL : Spec.Rows L r0) (hc : ("constraints", Json.arr (L.map Json.ofPoints)) ∈ l) :
    (Json.obj l).readConstraints n = .ok (L.length, rowCols n L.length r0.length L) := by
  obtain ⟨h0, h2, hr⟩ := hL
  unfold Json.readConstraints
  rw [has_of_mem hc, R_bind_ok, if_pos rfl, get_of_mem hd hc, R_bind_ok]
  have key := constraintsVec_rows h0 le_rfl hr
  match L, h0, h2, key with
  | [a], _, _, key =>
    have e : ([a].map Json.ofPoints : List (Json K)) = [Json.arr (a.map Json.ofPoint)] := rfl
    rw [e] at key ⊢
    dsimp only
    rw [if_pos (by simp)]
    rw [show [a].length = 1 from rfl] at key
    rw [key, R_bind_ok]
    rfl
  | [a, b], _, _, key =>
    have e : ([a, b].map Json.ofPoints : List (Json K)) = [Json.arr (a.map Json.ofPoint), Json.ofPoints b] := rfl
    rw [e] at key ⊢
    dsimp only
    rw [if_neg (by simp), if_pos (by simp)]
    rw [show [a, b].length = 2 from rfl] at key
    rw [key, R_bind_ok]
    rfl
  | _ :: _ :: _ :: _, _, h, _ => simp at h

end rows

/-! ## Given parameters -/

section params

variable {K : Type} [Field K] [LinearOrder K] [IsStrictOrderedRing K] {n : ℕ}

/-- Parameters of numerical computations that behave. -/
def Spec.NumOk (o : InterpNum K (Fin n → K)) : Prop := 0 < o.eps ∧ 0 ≤ o.meps ∧ Spec.SolvesRegular o.sparse

theorem read_interp_cn {l : List (String × Json K)} (hd : (l.map Prod.fst).Nodup) (ht : ("type", Json.str "bscurve_interp_cn") ∈ l)
    (o : InterpNum K (Fin n → K)) : (Json.obj l).readBscurve n o = (Json.obj l).bscurveInterpCn n o := by
  unfold Json.readBscurve Json.makeBscurve
  simp [get_of_mem hd ht, Json.int?, Json.getString]

theorem read_interp {l : List (String × Json K)} (hd : (l.map Prod.fst).Nodup) (ht : ("type", Json.str "bscurve_interp") ∈ l)
    (o : InterpNum K (Fin n → K)) : (Json.obj l).readBscurve n o = (Json.obj l).bscurveInterp n o := by
  unfold Json.readBscurve Json.makeBscurve
  simp [get_of_mem hd ht, Json.int?, Json.getString]

/-- **C124**: a description of type `bscurve_interp_cn` with parameters, at least `deg + 1` of them, increasing, one per point, is read as a
curve of that degree that passes through each point at its parameter, whatever mode it also gives. -/
theorem C124_cn_params {o : InterpNum K (Fin n → K)} (ho : Spec.NumOk o) {l : List (String × Json K)} (hd : (l.map Prod.fst).Nodup)
    (ht : ("type", Json.str "bscurve_interp_cn") ∈ l) {u : List K} (hu : ("params", Json.ofVec u) ∈ l) {p : ℕ} (hp : ("deg", Json.int p) ∈ l)
    {Q : List (Fin n → K)} (hQ : ("points", Json.ofPoints Q) ∈ l) (hp1 : 1 ≤ p) (hp2 : p ≤ stackMaxDegree) (hl : Q.length = u.length)
    (hn : p + 1 ≤ u.length) (hs : u.Pairwise (· < ·)) :
    ∃ c, (Json.obj l).readBscurve n o = .ok c ∧ c.deg = p ∧ c.poles.length = Q.length ∧ some c.b0 = u.head? ∧ some c.b1 = u.getLast? ∧
      ∀ (i : ℕ) (q : Fin n → K) (t : K), Q[i]? = some q → u[i]? = some t → ∀ junk, c.value o.eps junk t 0 = .ok q := by
  obtain ⟨h1, h2, h3⟩ := ho
  obtain ⟨c, ec, -, a1, a2, a3, a4, a5⟩ := C36_interpolate_points h1 h2 o.growth o.junk o.x0 hp1 hp2 hl hn hs h3
  refine ⟨c, ?_, a1, a2, a3, a4, a5⟩
  rw [read_interp_cn hd ht]
  unfold Json.bscurveInterpCn
  rw [has_of_mem hu, R_bind_ok, if_pos rfl, get_of_mem hd hu, R_bind_ok, makeVec_ofVec, R_bind_ok, get_of_mem hd hp, R_bind_ok]
  have e : (Json.int p : Json K).getSize = .ok p := rfl
  rw [e, R_bind_ok, get_of_mem hd hQ, R_bind_ok, makePointVec_ofPoints, R_bind_ok, ec]

theorem interp_rows {o : InterpNum K (Fin n → K)} (ho : Spec.NumOk o) {L : List (List (Fin n → K))} {r0 : List (Fin n → K)}
    (hL : Spec.Rows L r0) {u : List K} (hl : r0.length = u.length) (hn : 2 ≤ u.length) (hs : u.Pairwise (· < ·)) :
    ∃ c, interpolateWith o.eps o.meps o.growth o.junk o.x0 o.sparse L.length (rowCols n L.length r0.length L) u false = .ok c ∧
      c.deg = 2 * L.length - 1 ∧ some c.b0 = u.head? ∧ some c.b1 = u.getLast? ∧
      ∀ (d i : ℕ) (r : List (Fin n → K)) (x : Fin n → K) (t : K), L[d]? = some r → r[i]? = some x → u[i]? = some t →
        ∀ junk, c.value o.eps junk t d = .ok x := by
  obtain ⟨h1, h2, h3⟩ := ho
  have hpos : 0 < L.length := (List.getElem?_eq_some_iff.mp hL.1).1
  obtain ⟨b1, b2, b3⟩ := rowCols_spec (n := n) (L := L) (nc := L.length) (m := r0.length)
  obtain ⟨c, ec, -, a1, -, a3, a4, a5⟩ := C36_interpolate_derivatives h1 h2 o.growth o.junk o.x0 (nc := L.length) hpos
    (by have := hL.2.1; unfold stackMaxDegree; omega) (by rw [b1, hl]) hn hs b2 h3
  refine ⟨c, ?_, a1, a3, a4, ?_⟩
  · unfold interpolateWith
    rw [if_neg (by decide), ec]
  · intro d i r x t hr hx ht junk
    obtain ⟨q, e1, e2⟩ := b3 d i r x (List.getElem?_eq_some_iff.mp hr).1 (by rw [hl]; exact (List.getElem?_eq_some_iff.mp ht).1) hr hx
    exact a5 i q t d x e1 ht e2 junk

/-- **C124**: a description of type `bscurve_interp` with the mode `SPECIFIED` and increasing parameters, one per point, is read as a curve that
has at each parameter the value of each row, that of the points and that of the derivatives if there is one. What the second row has in excess
is ignored. -/
theorem C124_interp_params {o : InterpNum K (Fin n → K)} (ho : Spec.NumOk o) {l : List (String × Json K)} (hd : (l.map Prod.fst).Nodup)
    (ht : ("type", Json.str "bscurve_interp") ∈ l) (hm : ("param_calc_mode", Json.str "SPECIFIED") ∈ l) {u : List K}
    (hu : ("params", Json.ofVec u) ∈ l) {L : List (List (Fin n → K))} {r0 : List (Fin n → K)} (hL : Spec.Rows L r0)
    (hc : ("constraints", Json.arr (L.map Json.ofPoints)) ∈ l) (hl : r0.length = u.length) (hn : 2 ≤ u.length) (hs : u.Pairwise (· < ·)) :
    ∃ c, (Json.obj l).readBscurve n o = .ok c ∧ c.deg = 2 * L.length - 1 ∧ some c.b0 = u.head? ∧ some c.b1 = u.getLast? ∧
      ∀ (d i : ℕ) (r : List (Fin n → K)) (x : Fin n → K) (t : K), L[d]? = some r → r[i]? = some x → u[i]? = some t →
        ∀ junk, c.value o.eps junk t d = .ok x := by
  obtain ⟨c, ec, a⟩ := interp_rows ho hL hl hn hs
  refine ⟨c, ?_, a⟩
  rw [read_interp hd ht]
  unfold Json.bscurveInterp Json.modeAndParams
  rw [has_of_mem hm, R_bind_ok, if_pos rfl, get_of_mem hd hm, R_bind_ok]
  dsimp only [Json.str?]
  rw [if_pos rfl, get_of_mem hd hu, R_bind_ok, makeVec_ofVec, R_bind_ok, R_pure, R_bind_ok, readConstraints_rows hd hL hc, R_bind_ok]
  dsimp only
  rw [if_neg (by omega), ec]

/-- **C124**: with parameters given by the caller, the same, whatever the description says of them. -/
theorem C124_interp_given {o : InterpNum K (Fin n → K)} (ho : Spec.NumOk o) {l : List (String × Json K)} (hd : (l.map Prod.fst).Nodup)
    (ht : ("type", Json.str "bscurve_interp") ∈ l) {u : List K} {L : List (List (Fin n → K))} {r0 : List (Fin n → K)} (hL : Spec.Rows L r0)
    (hc : ("constraints", Json.arr (L.map Json.ofPoints)) ∈ l) (hl : r0.length = u.length) (hn : 2 ≤ u.length) (hs : u.Pairwise (· < ·)) :
    ∃ c, (Json.obj l).readBscurveAt n o u = .ok c ∧ c.deg = 2 * L.length - 1 ∧ some c.b0 = u.head? ∧ some c.b1 = u.getLast? ∧
      ∀ (d i : ℕ) (r : List (Fin n → K)) (x : Fin n → K) (t : K), L[d]? = some r → r[i]? = some x → u[i]? = some t →
        ∀ junk, c.value o.eps junk t d = .ok x := by
  obtain ⟨c, ec, a⟩ := interp_rows ho hL hl hn hs
  refine ⟨c, ?_, a⟩
  unfold Json.readBscurveAt
  rw [get_of_mem hd ht, R_bind_ok]
  dsimp only [Json.getString]
  rw [R_bind_ok, if_pos rfl, readConstraints_rows hd hL hc, R_bind_ok, ec]

/-- **C124**: only interpolations are read with the parameters of the caller. -/
theorem C124_given_refused (o : InterpNum K (Fin n → K)) {l : List (String × Json K)} (hd : (l.map Prod.fst).Nodup) {s : String}
    (ht : ("type", Json.str s) ∈ l) (hs : s ≠ "bscurve_interp") (u : List K) : (Json.obj l).readBscurveAt n o u = .error (.thrown .invalid) := by
  unfold Json.readBscurveAt
  rw [get_of_mem hd ht, R_bind_ok]
  dsimp only [Json.getString]
  rw [R_bind_ok, if_neg hs]

/-- **C124**: the parameters of a description of type `bscurve_interp` whose mode is not `SPECIFIED` are ignored. -/
theorem C124_params_ignored (o : InterpNum K (Fin n → K)) {l : List (String × Json K)} (hd : (l.map Prod.fst).Nodup)
    (ht : ("type", Json.str "bscurve_interp") ∈ l) (hm : ("param_calc_mode", Json.str "SPECIFIED") ∉ l) (x : Json K)
    (hx : ∀ y, ("params", y) ∉ l) :
    (Json.obj (("params", x) :: l)).readBscurve n o = (Json.obj l).readBscurve n o := by
  have hd' : ((("params", x) :: l).map Prod.fst).Nodup := by
    rw [List.map_cons, List.nodup_cons]
    refine ⟨fun h => ?_, hd⟩
    obtain ⟨⟨a, b⟩, h1, h2⟩ := List.mem_map.mp h
    obtain rfl : a = "params" := h2
    exact hx b h1
  rw [read_interp hd ht, read_interp hd' (List.mem_cons_of_mem _ ht)]
  have hget : ∀ s, s ≠ "params" → (Json.obj (("params", x) :: l)).get s = (Json.obj l).get s := by
    intro s hs
    unfold Json.get
    dsimp only
    rw [List.find?_cons, beq_eq_false_iff_ne.mpr (Ne.symm hs)]
  have hhas : ∀ s, s ≠ "params" → (Json.obj (("params", x) :: l)).has s = (Json.obj l).has s := by
    intro s hs
    unfold Json.has
    dsimp only
    rw [List.any_cons, beq_eq_false_iff_ne.mpr (Ne.symm hs), Bool.false_or]
  have hmp : (Json.obj (("params", x) :: l)).modeAndParams = (Json.obj l).modeAndParams := by
    unfold Json.modeAndParams
    rw [hhas _ (by decide), hget _ (by decide)]
    by_cases h : ∃ y, ("param_calc_mode", y) ∈ l
    · obtain ⟨y, hy⟩ := h
      rw [has_of_mem hy, R_bind_ok, R_bind_ok, if_pos rfl, if_pos rfl, get_of_mem hd hy, R_bind_ok, R_bind_ok]
      cases hy' : y.str? with
      | none => rfl
      | some s =>
        dsimp only
        have : s ≠ "SPECIFIED" := by
          rintro rfl
          apply hm
          cases y with
          | str s' =>
            obtain rfl : s' = "SPECIFIED" := by simpa [Json.str?] using hy'
            exact hy
          | _ => simp [Json.str?] at hy'
        rw [if_neg this, if_neg this]
    · rw [has_of_not_mem (by simpa using h)]
      rfl
  unfold Json.bscurveInterp
  rw [hmp]
  unfold Json.readConstraints
  rw [hhas _ (by decide), hget _ (by decide)]

/-- **C124**: with `SPECIFIED` and no parameters, the parameters are those of the lengths of the chords, as without any mode. -/
theorem C124_specified_empty (o : InterpNum K (Fin n → K)) {l : List (String × Json K)} (hd : (l.map Prod.fst).Nodup)
    (ht : ("type", Json.str "bscurve_interp") ∈ l) (hm : ∀ y, ("param_calc_mode", y) ∉ l) (hu : ("params", Json.ofVec []) ∈ l) :
    (Json.obj (("param_calc_mode", Json.str "SPECIFIED") :: l)).readBscurve n o = (Json.obj l).readBscurve n o := by
  have hd' : ((("param_calc_mode", Json.str "SPECIFIED") :: l).map Prod.fst).Nodup := by
    rw [List.map_cons, List.nodup_cons]
    refine ⟨fun h => ?_, hd⟩
    obtain ⟨⟨a, b⟩, h1, h2⟩ := List.mem_map.mp h
    obtain rfl : a = "param_calc_mode" := h2
    exact hm b h1
  rw [read_interp hd ht, read_interp hd' (List.mem_cons_of_mem _ ht)]
  have h1 : (Json.obj (("param_calc_mode", Json.str "SPECIFIED") :: l)).modeAndParams = .ok (.chordLength, []) := by
    unfold Json.modeAndParams
    rw [has_of_mem (List.mem_cons_self), R_bind_ok, if_pos rfl, get_of_mem hd' (List.mem_cons_self), R_bind_ok]
    dsimp only [Json.str?]
    rw [if_pos rfl, get_of_mem hd' (List.mem_cons_of_mem _ hu), R_bind_ok, makeVec_ofVec, R_bind_ok]
    rfl
  have h2 : (Json.obj l).modeAndParams = .ok (.chordLength, []) := by
    unfold Json.modeAndParams
    rw [has_of_not_mem hm]
    rfl
  unfold Json.bscurveInterp
  rw [h1, h2]
  unfold Json.readConstraints Json.has Json.get
  dsimp only
  rw [List.any_cons, List.find?_cons]
  rfl

/-! ## Refusals -/

/-- **C124**: no constraints, constraints that are not a list of lists, none of them or more than two of them are refused, if the mode can be
read. -/
theorem C124_refused (o : InterpNum K (Fin n → K)) {l : List (String × Json K)} (hd : (l.map Prod.fst).Nodup)
    (ht : ("type", Json.str "bscurve_interp") ∈ l) (hm : ("param_calc_mode", Json.str "SPECIFIED") ∉ l)
    (hc : (∀ y, ("constraints", y) ∉ l) ∨ ∃ y, ("constraints", y) ∈ l ∧
      ((∀ a, y ≠ .arr a) ∨ y = .arr [] ∨ (∃ x a, y = .arr (x :: a) ∧ ∀ b, x ≠ .arr b) ∨ ∃ a, y = .arr a ∧ 2 < a.length)) :
    (Json.obj l).readBscurve n o = .error (.thrown .invalid) := by
  rw [read_interp hd ht]
  have hR : (Json.obj l).readConstraints n = .error (.thrown .invalid) := by
    unfold Json.readConstraints
    rcases hc with h | ⟨y, hy, h⟩
    · rw [has_of_not_mem h]
      rfl
    · rw [has_of_mem hy, R_bind_ok, if_pos rfl, get_of_mem hd hy, R_bind_ok]
      rcases h with h | rfl | ⟨x, a, rfl, h⟩ | ⟨a, rfl, h⟩
      · cases y with
        | arr a => exact absurd rfl (h a)
        | _ => rfl
      · rfl
      · cases x with
        | arr b => exact absurd rfl (h b)
        | _ => rfl
      · match a, h with
        | x :: a, h =>
          cases x with
          | arr b =>
            dsimp only
            rw [if_neg (by simp at h ⊢; rintro rfl; simp at h), if_neg (by omega)]
          | _ => rfl
  have hM : (∃ m, (Json.obj l).modeAndParams = .ok m) ∨ (Json.obj l).modeAndParams = .error (.thrown .invalid) := by
    unfold Json.modeAndParams
    by_cases h : ∃ y, ("param_calc_mode", y) ∈ l
    · obtain ⟨y, hy⟩ := h
      rw [has_of_mem hy, R_bind_ok, if_pos rfl, get_of_mem hd hy, R_bind_ok]
      cases hy' : y.str? with
      | none => exact Or.inl ⟨_, rfl⟩
      | some s =>
        dsimp only
        have hs : s ≠ "SPECIFIED" := by
          rintro rfl
          apply hm
          cases y with
          | str s' =>
            obtain rfl : s' = "SPECIFIED" := by simpa [Json.str?] using hy'
            exact hy
          | _ => simp [Json.str?] at hy'
        rw [if_neg hs]
        unfold enumMode
        split
        · exact Or.inl ⟨_, rfl⟩
        split
        · exact Or.inl ⟨_, rfl⟩
        split
        · exact Or.inl ⟨_, rfl⟩
        · exact Or.inr rfl
    · rw [has_of_not_mem (by simpa using h)]
      exact Or.inl ⟨_, rfl⟩
  unfold Json.bscurveInterp
  rcases hM with ⟨m, hM⟩ | hM
  · rw [hM, R_bind_ok, hR]
    rfl
  · rw [hM]
    rfl

/-- **C124**: the name of a mode that is not one of the three is refused. -/
theorem C124_mode_refused (o : InterpNum K (Fin n → K)) {l : List (String × Json K)} (hd : (l.map Prod.fst).Nodup)
    (ht : ("type", Json.str "bscurve_interp") ∈ l) {s : String} (hm : ("param_calc_mode", Json.str s) ∈ l)
    (hs : s ∉ ["SPECIFIED", "EQUALLY_SPACED", "CHORD_LENGTH", "CENTRIPETAL"]) :
    (Json.obj l).readBscurve n o = .error (.thrown .invalid) := by
  simp only [List.mem_cons, List.not_mem_nil, or_false, not_or] at hs
  obtain ⟨h1, h2, h3, h4⟩ := hs
  rw [read_interp hd ht]
  unfold Json.bscurveInterp Json.modeAndParams
  rw [has_of_mem hm, R_bind_ok, if_pos rfl, get_of_mem hd hm, R_bind_ok]
  dsimp only [Json.str?]
  rw [if_neg h1]
  unfold enumMode
  rw [if_neg h2, if_neg h3, if_neg h4]
  rfl

/-- **C124**: a second row shorter than the first is read outside its bounds. -/
theorem C124_short_row (o : InterpNum K (Fin n → K)) {l : List (String × Json K)} (hd : (l.map Prod.fst).Nodup)
    (ht : ("type", Json.str "bscurve_interp") ∈ l) (hm : ∀ y, ("param_calc_mode", y) ∉ l) {a b : List (Fin n → K)} (hab : b.length < a.length)
    (hc : ("constraints", Json.arr [Json.ofPoints a, Json.ofPoints b]) ∈ l) : (Json.obj l).readBscurve n o = .error .null := by
  rw [read_interp hd ht]
  have hR : (Json.arr [Json.ofPoints a, Json.ofPoints b]).constraintsVec n 2 = .error .null := by
    unfold Json.constraintsVec
    dsimp only
    have h0 := item_rows (L := [a, b]) (i := 0) (by simp)
    have h1 := item_rows (L := [a, b]) (i := 1) (by simp)
    simp only [List.map_cons, List.map_nil] at h0 h1
    simp only [List.getD_cons_zero, List.getD_cons_succ] at h0 h1
    have hgr : (Json.ofPoints a).getArr = .ok (a.map Json.ofPoint) := rfl
    rw [h0, R_bind_ok, hgr, R_bind_ok, List.length_map]
    have hrange : List.range 2 = [0, 1] := rfl
    have hout : (Json.ofPoints b).item b.length = .error .null := by
      unfold Json.ofPoints Json.item Json.getArr
      simp
    have hsplit : List.range a.length = List.range b.length ++ b.length :: (List.range (a.length - b.length - 1)).map (fun i => b.length + (i + 1)) := by
      conv_lhs => rw [show a.length = b.length + ((a.length - b.length - 1) + 1) by omega, List.range_add, List.range_succ_eq_map]
      simp
    rw [hsplit, List.mapM_append]
    rw [mapM_ok (g := fun j => [a.getD j 0, b.getD j 0]) (List.range b.length) ?_]
    · rw [R_bind_ok, List.mapM_cons]
      simp only [hrange, List.mapM_cons, List.mapM_nil]
      rw [h0, R_bind_ok, item_points hab, R_bind_ok, makeArray_ofPoint, R_bind_ok, h1, R_bind_ok, hout]
      rfl
    · intro j hj
      rw [List.mem_range] at hj
      simp only [hrange, List.mapM_cons, List.mapM_nil]
      rw [h0, R_bind_ok, item_points (by omega), R_bind_ok, makeArray_ofPoint, R_bind_ok, h1, R_bind_ok, item_points hj, R_bind_ok,
        makeArray_ofPoint, R_bind_ok]
      rfl
  unfold Json.bscurveInterp Json.modeAndParams
  rw [has_of_not_mem hm, R_bind_ok, if_neg (by decide), R_pure, R_bind_ok]
  unfold Json.readConstraints
  rw [has_of_mem hc, R_bind_ok, if_pos rfl, get_of_mem hd hc, R_bind_ok]
  rw [show Json.ofPoints a = Json.arr (a.map Json.ofPoint) from rfl] at hR ⊢
  dsimp only
  rw [if_neg (by simp), if_pos (by simp), hR]
  rfl

end params

/-! ## Modes -/

section modes

variable {n : ℕ}

/-- The names of the modes. -/
def Spec.modeName : KnotsCalcMode → String
  | .equallySpaced => "EQUALLY_SPACED"
  | .chordLength => "CHORD_LENGTH"
  | .centripetal => "CENTRIPETAL"

/-- The mode of a description: named, or that of the lengths of the chords if none is. -/
def Spec.ModeIs {K : Type} (l : List (String × Json K)) (mode : KnotsCalcMode) : Prop :=
  ("param_calc_mode", Json.str (Spec.modeName mode)) ∈ l ∨ (mode = .chordLength ∧ ∀ y, ("param_calc_mode", y) ∉ l)

theorem enumMode_name (mode : KnotsCalcMode) : enumMode (Spec.modeName mode) = .ok mode := by
  cases mode <;> decide

/-- **C124**: a description of type `bscurve_interp_cn` without parameters is read as a curve of its degree through its points, in their order,
at parameters from 0 whose steps are proportional to the lengths of its mode. -/
theorem C124_cn_mode {o : InterpNum ℝ (Fin n → ℝ)} (ho : Spec.NumOk o) (hdist : o.dist = eDist) (hsqrt : o.sqrt = Real.sqrt)
    {l : List (String × Json ℝ)} (hd : (l.map Prod.fst).Nodup) (ht : ("type", Json.str "bscurve_interp_cn") ∈ l)
    (hu : ∀ y, ("params", y) ∉ l) {mode : KnotsCalcMode} (hmode : Spec.ModeIs l mode) {p : ℕ} (hp : ("deg", Json.int p) ∈ l)
    {Q : List (Fin n → ℝ)} (hQ : ("points", Json.ofPoints Q) ∈ l) (hp1 : 1 ≤ p) (hp2 : p ≤ stackMaxDegree) (hn : p < Q.length)
    (hch : mode = .equallySpaced ∨ Q.IsChain (· ≠ ·)) :
    ∃ (c : Curve ℝ (Fin n → ℝ)) (u : List ℝ) (s : ℝ), (Json.obj l).readBscurve n o = .ok c ∧ c.deg = p ∧ c.poles.length = Q.length ∧ 0 < s ∧
      u.length = Q.length ∧ u.Pairwise (· < ·) ∧ u.head? = some 0 ∧ some c.b0 = u.head? ∧ some c.b1 = u.getLast? ∧
      (∀ i a b, Q[i]? = some a → Q[i + 1]? = some b → ∃ t t', u[i]? = some t ∧ u[i + 1]? = some t' ∧ t' - t = s * Spec.segLen Q.length mode a b) ∧
      ∀ (i : ℕ) (q : Fin n → ℝ) (t : ℝ), Q[i]? = some q → u[i]? = some t → ∀ junk, c.value o.eps junk t 0 = .ok q := by
  obtain ⟨h1, h2, h3⟩ := ho
  obtain ⟨c, u, s, ec, a⟩ := C109_degree h1 h2 o.growth o.junk o.x0 hp1 hp2 hn hch h3
  refine ⟨c, u, s, ?_, a⟩
  rw [read_interp_cn hd ht]
  unfold Json.bscurveInterpCn
  rw [has_of_not_mem hu, R_bind_ok, if_neg (by decide)]
  have e : (Json.int p : Json ℝ).getSize = .ok p := rfl
  rcases hmode with hm | ⟨rfl, hm⟩
  · rw [has_of_mem hm, R_bind_ok, get_of_mem hd hp, R_bind_ok, e, R_bind_ok, get_of_mem hd hQ, R_bind_ok, makePointVec_ofPoints, R_bind_ok,
      if_pos rfl, get_of_mem hd hm, R_bind_ok]
    dsimp only [Json.getString]
    rw [R_bind_ok, enumMode_name, R_bind_ok, hdist, hsqrt, ec]
  · rw [has_of_not_mem hm, R_bind_ok, get_of_mem hd hp, R_bind_ok, e, R_bind_ok, get_of_mem hd hQ, R_bind_ok, makePointVec_ofPoints, R_bind_ok,
      if_neg (by decide), hdist, hsqrt, ec]

/-- **C124**: a description of type `bscurve_interp` whose mode is not `SPECIFIED` is read as a curve that has the values of its rows at
parameters from 0 whose steps are the lengths of its mode between its points. -/
theorem C124_interp_mode {o : InterpNum ℝ (Fin n → ℝ)} (ho : Spec.NumOk o) (hdist : o.dist = eDist) (hsqrt : o.sqrt = Real.sqrt)
    {l : List (String × Json ℝ)} (hd : (l.map Prod.fst).Nodup) (ht : ("type", Json.str "bscurve_interp") ∈ l) {mode : KnotsCalcMode}
    (hmode : Spec.ModeIs l mode) {L : List (List (Fin n → ℝ))} {r0 : List (Fin n → ℝ)} (hL : Spec.Rows L r0)
    (hc : ("constraints", Json.arr (L.map Json.ofPoints)) ∈ l) (hn : 2 ≤ r0.length) (hch : mode = .equallySpaced ∨ r0.IsChain (· ≠ ·)) :
    ∃ (c : Curve ℝ (Fin n → ℝ)) (u : List ℝ), (Json.obj l).readBscurve n o = .ok c ∧ c.deg = 2 * L.length - 1 ∧ u.length = r0.length ∧
      u.head? = some 0 ∧ some c.b0 = u.head? ∧ some c.b1 = u.getLast? ∧
      (∀ i a b, r0[i]? = some a → r0[i + 1]? = some b → ∃ t t', u[i]? = some t ∧ u[i + 1]? = some t' ∧ t' - t = Spec.segLen r0.length mode a b) ∧
      ∀ (d i : ℕ) (r : List (Fin n → ℝ)) (x : Fin n → ℝ) (t : ℝ), L[d]? = some r → r[i]? = some x → u[i]? = some t →
        ∀ junk, c.value o.eps junk t d = .ok x := by
  obtain ⟨h1, h2, h3⟩ := ho
  have hpos : 0 < L.length := (List.getElem?_eq_some_iff.mp hL.1).1
  obtain ⟨b1, b2, b3⟩ := rowCols_spec (n := n) (L := L) (nc := L.length) (m := r0.length)
  obtain ⟨c, u, ec, a1, a2, a3, a4, a5, a6, a7⟩ := C109_mode h1 h2 o.growth o.junk o.x0 (nc := L.length) hpos false
    (by have := hL.2.1; unfold stackMaxDegree; simp; omega) (by rw [b1]; exact hn) b2 (rowCols_points hL.1 hpos) hch h3
  refine ⟨c, u, ?_, by simpa using a1, by rw [a2, b1], a3, a4, a5, a6, ?_⟩
  · rw [read_interp hd ht]
    have hM : (Json.obj l).modeAndParams = .ok (mode, []) := by
      unfold Json.modeAndParams
      rcases hmode with hm | ⟨rfl, hm⟩
      · rw [has_of_mem hm, R_bind_ok, if_pos rfl, get_of_mem hd hm, R_bind_ok]
        dsimp only [Json.str?]
        rw [if_neg (by cases mode <;> decide), enumMode_name]
        rfl
      · rw [has_of_not_mem hm]
        rfl
    unfold Json.bscurveInterp
    rw [hM, R_bind_ok, readConstraints_rows hd hL hc, R_bind_ok]
    dsimp only
    rw [if_pos List.length_nil, hdist, hsqrt, ec]
  · intro d i r x t hr hx ht junk
    obtain ⟨q, e1, e2⟩ := b3 d i r x (List.getElem?_eq_some_iff.mp hr).1
      (by rw [← b1, ← a2]; exact (List.getElem?_eq_some_iff.mp ht).1) hr hx
    exact a7 i q t d x e1 ht e2 junk

end modes

/-! ## Samples -/

namespace Sample

/-- Two points, at a distance of 2. -/
def jiPts : List (Fin 1 → ℝ) := [![0], ![2]]

/-- A description of a curve through them at the parameters 0 and 1. -/
def jiDoc : List (String × Json ℝ) :=
  [("type", .str "bscurve_interp"), ("params", .ofVec [0, 1]), ("constraints", .arr ([jiPts].map Json.ofPoints))]

theorem jiDoc_nodup : (jiDoc.map Prod.fst).Nodup := by decide

theorem jiPts_rows : Spec.Rows [jiPts] jiPts := ⟨rfl, by decide, by simp⟩

theorem jiPts_chain : jiPts.IsChain (· ≠ ·) := by
  have h1 : (![0] : Fin 1 → ℝ) ≠ ![2] := fun h => by have := congrFun h 0; norm_num at this
  simp only [jiPts, List.isChain_cons_cons, List.isChain_singleton, and_true]
  exact h1

/-- **C124**: a description with parameters 0 and 1 that does not name its mode is read as a curve defined from 0 to 2. -/
theorem _root_.Gbs.C124_witness {o : InterpNum ℝ (Fin 1 → ℝ)} (ho : Spec.NumOk o) (hdist : o.dist = eDist) (hsqrt : o.sqrt = Real.sqrt) :
    ("params", Json.ofVec [0, 1]) ∈ jiDoc ∧ ∃ c, (Json.obj jiDoc).readBscurve 1 o = .ok c ∧ c.b1 = 2 := by
  refine ⟨by simp [jiDoc], ?_⟩
  obtain ⟨c, u, ec, -, a2, a3, -, a5, a6, -⟩ := C124_interp_mode ho hdist hsqrt jiDoc_nodup (by simp [jiDoc]) (mode := .chordLength)
    (Or.inr ⟨rfl, by simp [jiDoc]⟩) jiPts_rows (by simp [jiDoc]) (by decide) (Or.inr jiPts_chain)
  refine ⟨c, ec, ?_⟩
  obtain ⟨t, t', e1, e2, e3⟩ := a6 0 ![0] ![2] rfl rfl
  match u, a2, a3, a5, e1, e2 with
  | [x, y], _, a3, a5, e1, e2 =>
    obtain rfl : x = 0 := by simpa using a3
    obtain rfl : (0 : ℝ) = t := by simpa using e1
    obtain rfl : y = t' := by simpa using e2
    have h : c.b1 = y := by simpa using a5
    rw [h]
    have : y = eDist (![2] : Fin 1 → ℝ) ![0] := by simpa [Spec.segLen] using e3
    rw [this, eDist]
    simp

/-- The hypotheses of the theorems of C124 can be met. -/
example : ∃ o : InterpNum ℝ (Fin 1 → ℝ), Spec.NumOk o ∧ o.dist = eDist ∧ o.sqrt = Real.sqrt ∧
    ∃ c c' c'', (Json.obj [("deg", .int 1), ("points", .ofPoints jiPts), ("params", .ofVec [3, 4]), ("type", .str "bscurve_interp_cn")]).readBscurve 1 o
        = .ok c ∧ c.value o.eps 7 4 0 = .ok ![2] ∧
      (Json.obj [("type", .str "bscurve_interp"), ("params", .ofVec [3, 4]), ("param_calc_mode", .str "SPECIFIED"),
        ("constraints", .arr ([jiPts, [![5], ![6], ![7]]].map Json.ofPoints))]).readBscurve 1 o = .ok c' ∧ c'.value o.eps 7 4 1 = .ok ![6] ∧
      (Json.obj jiDoc).readBscurveAt 1 o [3, 4] = .ok c'' ∧ c''.value o.eps 7 3 0 = .ok ![0] ∧
      (Json.obj [("type", .str "bscurve_interp"), ("param_calc_mode", .str "chord_length")]).readBscurve 1 o = .error (.thrown .invalid) ∧
      (Json.obj [("type", .str "bscurve_interp"), ("constraints", .arr [.ofPoints jiPts, .ofPoints [![5]]])]).readBscurve 1 o = .error .null ∧
      (Json.obj [("type", .str "bscurve_interp"), ("constraints", .arr [])]).readBscurve 1 o = .error (.thrown .invalid) := by
  obtain ⟨sparse, hS⟩ := exists_solvesRegular (K := ℝ) (V := Fin 1 → ℝ)
  have ho : Spec.NumOk (⟨1/1000, 1/1000000, 10000, 7, ![0], sparse, eDist, Real.sqrt⟩ : InterpNum ℝ (Fin 1 → ℝ)) :=
    ⟨by norm_num, by norm_num, hS⟩
  have hs : ([3, 4] : List ℝ).Pairwise (· < ·) := by simp; norm_num
  obtain ⟨c, ec, -, -, -, -, h⟩ := C124_cn_params ho
    (l := [("deg", .int 1), ("points", .ofPoints jiPts), ("params", .ofVec [3, 4]), ("type", .str "bscurve_interp_cn")]) (by decide) (by simp)
    (u := [3, 4]) (by simp) (p := 1) (by simp) (Q := jiPts) (by simp) le_rfl (by decide) rfl (by decide) hs
  obtain ⟨c', ec', -, -, -, h'⟩ := C124_interp_params ho (l := [("type", .str "bscurve_interp"), ("params", .ofVec [3, 4]),
    ("param_calc_mode", .str "SPECIFIED"), ("constraints", .arr ([jiPts, [![5], ![6], ![7]]].map Json.ofPoints))]) (by decide) (by simp) (by simp)
    (u := [3, 4]) (by simp) (L := [jiPts, [![5], ![6], ![7]]]) (r0 := jiPts) ⟨rfl, by decide, by simp [jiPts]⟩ (by simp) rfl (by decide) hs
  obtain ⟨c'', ec'', -, -, -, h''⟩ := C124_interp_given ho jiDoc_nodup (by simp [jiDoc]) (u := [3, 4]) jiPts_rows (by simp [jiDoc]) rfl
    (by decide) hs
  exact ⟨_, ho, rfl, rfl, c, c', c'', ec, h 1 _ _ rfl rfl 7, ec', h' 1 1 _ _ _ rfl rfl rfl 7, ec'', h'' 0 0 _ _ _ rfl rfl rfl 7,
    C124_mode_refused _ (by decide) (by simp) (s := "chord_length") (by simp) (by decide),
    C124_short_row _ (by decide) (by simp) (by simp) (a := jiPts) (b := [![5]]) (by decide) (by simp),
    C124_refused _ (by decide) (by simp) (by simp) (Or.inr ⟨_, List.mem_cons_of_mem _ List.mem_cons_self, Or.inr (Or.inl rfl)⟩)⟩

/-- The same for the parameters that are ignored. -/
example (o : InterpNum ℝ (Fin 1 → ℝ)) :
    (Json.obj [("params", .ofVec [0, 1]), ("type", .str "bscurve_interp"), ("constraints", .arr ([jiPts].map Json.ofPoints))]).readBscurve 1 o
      = (Json.obj [("type", .str "bscurve_interp"), ("constraints", .arr ([jiPts].map Json.ofPoints))]).readBscurve 1 o :=
  C124_params_ignored o (by decide) (by simp) (by simp) _ (by simp)

end Sample

end Gbs
