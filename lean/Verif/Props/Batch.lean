import Verif.Model.Batch
import Verif.Props.Interp
import Verif.Lemmas.Tfi
import Verif.Props.SurfaceReparam

/-!
# C114: the poles of several columns of constraints
-/

set_option linter.unusedVariables false
set_option linter.unusedSectionVars false

namespace Gbs

variable {K : Type} [Field K] [LinearOrder K]
variable {V : Type} [AddCommGroup V] [Module K V]
variable {eps meps growth junk : K} {x0 : V} {sparse : ℕ → List (ℕ × ℕ × K) → List V → R (List V)} {nc : ℕ}

theorem batchRhs_eq (nc : ℕ) (Q : List (List V)) : batchRhs nc Q.length Q = interpRhs nc Q := rfl

/-- **C114**: when the columns have the same number of points, the poles are found exactly when they are for each column alone, and they are those of the
columns one after the other. -/
theorem C114_columns {Qs : List (List (List V))} {k u : List K} {deg m : ℕ} (hm : ∀ Q ∈ Qs, Q.length = m) (P : List V) :
    buildPolesBatch eps meps growth junk x0 sparse nc Qs k u deg = .ok P ↔
      ∃ Xs, Qs.mapM (fun Q => buildPoles eps meps growth junk x0 sparse nc Q k u deg) = .ok Xs ∧ P = Xs.flatten := by
  cases Qs with
  | nil =>
    constructor
    · intro h
      cases h
      exact ⟨[], rfl, rfl⟩
    · rintro ⟨Xs, h, rfl⟩
      cases h
      rfl
  | cons q0 Qs =>
    have h0 : q0.length = m := hm q0 (by simp)
    have inv : ∀ {α β : Type} {f g : α → R β} {h : β → R β} {l : List α}, (∀ a ∈ l, ∀ y, g a = .ok y ↔ ∃ b, f a = .ok b ∧ h b = .ok y) → ∀ r,
        l.mapM g = .ok r ↔ ∃ bs, l.mapM f = .ok bs ∧ bs.mapM h = .ok r := by
      intro α β f g h l
      induction l with
      | nil =>
        intro _ r
        constructor
        · intro h'
          cases h'
          exact ⟨[], rfl, rfl⟩
        · rintro ⟨bs, h1, h2⟩
          cases h1
          exact h2
      | cons a l ih =>
        intro hl r
        have ih' := ih fun b hb => hl b (by simp [hb])
        constructor
        · intro h1
          rw [List.mapM_cons] at h1
          obtain ⟨y, hy, h1⟩ := R_bind_eq_ok.mp h1
          obtain ⟨ys, hys, h1⟩ := R_bind_eq_ok.mp h1
          cases h1
          obtain ⟨b, hb, hb'⟩ := (hl a (by simp) y).mp hy
          obtain ⟨bs, h2, h3⟩ := (ih' ys).mp hys
          exact ⟨b :: bs, by rw [List.mapM_cons, hb, R_bind_ok, h2]; rfl, by rw [List.mapM_cons, hb', R_bind_ok, h3]; rfl⟩
        · rintro ⟨bs, h1, h2⟩
          rw [List.mapM_cons] at h1
          obtain ⟨b, hb, h1⟩ := R_bind_eq_ok.mp h1
          obtain ⟨bs', hbs, h1⟩ := R_bind_eq_ok.mp h1
          cases h1
          rw [List.mapM_cons] at h2
          obtain ⟨y, hy, h2⟩ := R_bind_eq_ok.mp h2
          obtain ⟨ys, hys, h2⟩ := R_bind_eq_ok.mp h2
          cases h2
          rw [List.mapM_cons, (hl a (by simp) y).mpr ⟨b, hb, hy⟩, R_bind_ok, (ih' ys).mpr ⟨bs', hbs, hys⟩]
          rfl
    have rhs : ∀ Q ∈ q0 :: Qs, batchRhs nc q0.length Q = interpRhs nc Q := by
      intro Q hQ
      rw [h0, ← hm Q hQ]
      rfl
    cases hf : assembleAndFactorize meps growth junk k u deg nc (m * nc) with
    | error e =>
      constructor
      · intro h
        unfold buildPolesBatch at h
        dsimp only at h
        rw [h0, hf] at h
        cases h
      · rintro ⟨Xs, h, -⟩
        rw [List.mapM_cons] at h
        obtain ⟨y, hy, -⟩ := R_bind_eq_ok.mp h
        unfold buildPoles at hy
        dsimp only at hy
        rw [h0, hf] at hy
        cases hy
    | ok f =>
      cases f with
      | some w =>
        obtain ⟨kl, ku, M⟩ := w
        have key := inv (f := batchRhs nc q0.length) (g := fun Q => buildPoles eps meps growth junk x0 sparse nc Q k u deg)
          (h := fun B => bandSolve (q0.length * nc) kl ku M B (List.replicate (q0.length * nc) x0)) (l := q0 :: Qs) (by
            intro Q hQ y
            unfold buildPoles
            dsimp only
            rw [hm Q hQ, hf, R_bind_ok, rhs Q hQ, h0]
            exact R_bind_eq_ok)
        constructor
        · intro h
          unfold buildPolesBatch at h
          dsimp only at h
          rw [h0, hf, R_bind_ok] at h
          dsimp only at h
          rw [R_pure, R_bind_ok] at h
          obtain ⟨Bs, hB, h⟩ := R_bind_eq_ok.mp h
          obtain ⟨Xs, hX, h⟩ := R_bind_eq_ok.mp h
          cases h
          exact ⟨Xs, (key Xs).mpr ⟨Bs, by rw [h0]; exact hB, by rw [h0]; exact hX⟩, rfl⟩
        · rintro ⟨Xs, h, rfl⟩
          obtain ⟨Bs, hB, hX⟩ := (key Xs).mp h
          unfold buildPolesBatch
          dsimp only
          rw [h0] at hB hX ⊢
          rw [hf, R_bind_ok]
          dsimp only
          rw [R_pure, R_bind_ok, hB, R_bind_ok, hX]
          rfl
      | none =>
        cases hT : assembleSparse eps junk k u deg nc with
        | error e =>
          constructor
          · intro h
            unfold buildPolesBatch at h
            dsimp only at h
            rw [h0, hf, R_bind_ok] at h
            dsimp only at h
            rw [hT] at h
            cases h
          · rintro ⟨Xs, h, -⟩
            rw [List.mapM_cons] at h
            obtain ⟨y, hy, -⟩ := R_bind_eq_ok.mp h
            unfold buildPoles at hy
            dsimp only at hy
            rw [h0, hf, R_bind_ok] at hy
            obtain ⟨B, -, hy⟩ := R_bind_eq_ok.mp hy
            dsimp only at hy
            rw [hT] at hy
            cases hy
        | ok T =>
          have key := inv (f := batchRhs nc q0.length) (g := fun Q => buildPoles eps meps growth junk x0 sparse nc Q k u deg)
            (h := fun B => sparse (q0.length * nc) T B) (l := q0 :: Qs) (by
              intro Q hQ y
              unfold buildPoles
              dsimp only
              rw [hm Q hQ, hf, R_bind_ok, rhs Q hQ, h0, hT]
              exact R_bind_eq_ok)
          constructor
          · intro h
            unfold buildPolesBatch at h
            dsimp only at h
            rw [h0, hf, R_bind_ok] at h
            dsimp only at h
            rw [hT, R_bind_ok] at h
            obtain ⟨Bs, hB, h⟩ := R_bind_eq_ok.mp h
            obtain ⟨Xs, hX, h⟩ := R_bind_eq_ok.mp h
            cases h
            exact ⟨Xs, (key Xs).mpr ⟨Bs, by rw [h0]; exact hB, by rw [h0]; exact hX⟩, rfl⟩
          · rintro ⟨Xs, h, rfl⟩
            obtain ⟨Bs, hB, hX⟩ := (key Xs).mp h
            unfold buildPolesBatch
            dsimp only
            rw [h0] at hB hX ⊢
            rw [hf, R_bind_ok]
            dsimp only
            rw [hT, R_bind_ok, hB, R_bind_ok, hX]
            rfl

/-- The block `i` of blocks of the same length of a flattened list. -/
theorem flatten_block {α : Type} {n : ℕ} : ∀ {Xs : List (List α)} {i : ℕ} {X : List α}, (∀ X ∈ Xs, X.length = n) → Xs[i]? = some X →
    (Xs.flatten.drop (i * n)).take n = X
  | [], i, X, _, h => by simp at h
  | Y :: Xs, 0, X, hl, h => by
    cases h
    have := hl Y (by simp)
    simp [← this]
  | Y :: Xs, i + 1, X, hl, h => by
    have hY := hl Y (by simp)
    have ih := flatten_block (fun Z hZ => hl Z (by simp [hZ])) (i := i) (X := X) (Xs := Xs) (by simpa using h)
    rw [List.flatten_cons, Nat.succ_mul, Nat.add_comm, ← List.drop_drop, ← hY, List.drop_left, hY, ih]

variable [IsStrictOrderedRing K]

/-- **C114**: for all admissible knots, degrees up to 24, parameters and data, no access leaves its array, and the poles of each column, which are consecutive,
give at each parameter the requested point and derivatives of that column. -/
theorem C114_interpolates (heps : 0 < eps) (hme : 0 ≤ meps) {p : ℕ} (hp : p ≤ stackMaxDegree) (hnc : 1 ≤ nc) {Qs : List (List (List V))} {U u : List K}
    (hU : KWf p U (u.length * nc)) (hl : ∀ Q ∈ Qs, Q.length = u.length) (hQ : ∀ Q ∈ Qs, ∀ q ∈ Q, q.length = nc)
    (hs : ∀ Q ∈ Qs, SparseOk eps meps growth junk sparse nc Q U u p) :
    ∃ P, buildPolesBatch eps meps growth junk x0 sparse nc Qs U u p = .ok P ∧ P.length = Qs.length * (u.length * nc) ∧
      ∀ (c i : ℕ) (Q : List (List V)) (q : List V) (t : K) (d : ℕ) (v : V), Qs[c]? = some Q → Q[i]? = some q → u[i]? = some t → kf U p ≤ t →
        t ≤ kf U (u.length * nc) → q[d]? = some v → ∀ junk', evalValue eps junk' t U ((P.drop (c * (u.length * nc))).take (u.length * nc)) p d = .ok v := by
  have one : ∀ Q ∈ Qs, ∃ P, buildPoles eps meps growth junk x0 sparse nc Q U u p = .ok P ∧ P.length = u.length * nc ∧
      ∀ (i : ℕ) (q : List V) (t : K) (d : ℕ) (v : V), Q[i]? = some q → u[i]? = some t → kf U p ≤ t → t ≤ kf U (u.length * nc) → q[d]? = some v →
        ∀ junk', evalValue eps junk' t U P p d = .ok v := by
    intro Q h
    have := C36_build_poles heps hme growth junk x0 hp hnc (Q := Q) (U := U) (u := u) (by rw [hl Q h]; exact hU) (hl Q h) (hQ Q h) (hs Q h)
    rw [hl Q h] at this
    exact this
  obtain ⟨Xs, hX⟩ := mapM_exists (f := fun Q => buildPoles eps meps growth junk x0 sparse nc Q U u p) Qs fun Q h => ⟨_, (one Q h).choose_spec.1⟩
  obtain ⟨h1, h2⟩ := mapM_inv hX
  have hlen : ∀ X ∈ Xs, X.length = u.length * nc := by
    intro X hm
    obtain ⟨i, hi⟩ := List.getElem?_of_mem hm
    have hlt : i < Qs.length := by
      rw [← h1]
      exact (List.getElem?_eq_some_iff.mp hi).1
    obtain ⟨y, h3, h4⟩ := h2 i _ (List.getElem?_eq_getElem hlt)
    rw [hi] at h4
    cases h4
    obtain ⟨P, e1, e2, -⟩ := one _ (List.getElem_mem hlt)
    rw [e1] at h3
    cases h3
    exact e2
  refine ⟨Xs.flatten, (C114_columns hl _).mpr ⟨Xs, hX, rfl⟩, ?_, ?_⟩
  · rw [List.length_flatten, List.eq_replicate_of_mem (a := u.length * nc) (l := Xs.map List.length) (by
      intro b hb
      obtain ⟨X, hX', rfl⟩ := List.mem_map.mp hb
      exact hlen X hX'), List.sum_replicate, List.length_map, h1]
    rfl
  · intro c i Q q t d v hc hi ht a b hv junk'
    obtain ⟨X, h3, h4⟩ := h2 c Q hc
    rw [flatten_block hlen h4]
    obtain ⟨P, e1, -, e3⟩ := one Q (List.mem_of_getElem? hc)
    rw [e1] at h3
    cases h3
    exact e3 i q t d v hi ht a b hv junk'

theorem rd_take {α : Type} {l : List α} {i m : ℕ} (h : i < m) : rd (l.take m) i = rd l i := by
  unfold rd
  rw [List.getElem?_take, if_pos h]

/-- **C114**: only the first points of the columns are read, as many as the first column has: what longer columns have more is ignored. -/
theorem C114_cut {q0 : List (List V)} {Qs : List (List (List V))} {k u : List K} {deg : ℕ} :
    buildPolesBatch eps meps growth junk x0 sparse nc (q0 :: Qs) k u deg =
      buildPolesBatch eps meps growth junk x0 sparse nc (q0 :: Qs.map (List.take q0.length)) k u deg := by
  have cut : ∀ Q : List (List V), batchRhs nc q0.length (Q.take q0.length) = batchRhs nc q0.length Q := by
    intro Q
    unfold batchRhs
    refine forLt_congr fun i s _ hi => forLt_congr fun d B _ _ => ?_
    rw [rd_take hi]
  have all : ∀ Qs : List (List (List V)), (Qs.map (List.take q0.length)).mapM (batchRhs nc q0.length) = Qs.mapM (batchRhs nc q0.length) := by
    intro Qs
    induction Qs with
    | nil => rfl
    | cons Q Qs ih => rw [List.map_cons, List.mapM_cons, List.mapM_cons, cut, ih]
  unfold buildPolesBatch
  dsimp only
  rw [List.mapM_cons, List.mapM_cons, all]

/-- **C114**: with a column shorter than the first, there is no result: an access leaves its array, whatever the knots and the parameters. -/
theorem C114_short {q0 : List (List V)} {Qs : List (List (List V))} {k u : List K} {deg : ℕ} (hnc : 1 ≤ nc) {Q : List (List V)} (hm : Q ∈ Qs)
    (hl : Q.length < q0.length) (P : List V) : buildPolesBatch eps meps growth junk x0 sparse nc (q0 :: Qs) k u deg ≠ .ok P := by
  intro h
  unfold buildPolesBatch at h
  dsimp only at h
  obtain ⟨f, -, h⟩ := R_bind_eq_ok.mp h
  obtain ⟨Bs, hB⟩ : ∃ Bs, (q0 :: Qs).mapM (batchRhs nc q0.length) = .ok Bs := by
    cases f with
    | some w =>
      dsimp only at h
      rw [R_pure, R_bind_ok] at h
      obtain ⟨Bs, hB, -⟩ := R_bind_eq_ok.mp h
      exact ⟨Bs, hB⟩
    | none =>
      dsimp only at h
      obtain ⟨T, -, h⟩ := R_bind_eq_ok.mp h
      obtain ⟨Bs, hB, -⟩ := R_bind_eq_ok.mp h
      exact ⟨Bs, hB⟩
  obtain ⟨i, hi⟩ := List.getElem?_of_mem (List.mem_cons_of_mem q0 hm)
  obtain ⟨B, h1, -⟩ := (mapM_inv hB).2 i Q hi
  unfold batchRhs at h1
  refine absurd (forLt_okI (fun i _ => i ≤ Q.length) (Nat.zero_le _) h1 (Nat.zero_le _) ?_) (not_le.mpr hl)
  intro i s s' _ _ h2 _
  have : forLt 0 nc (fun d B => do
      let q ← rd Q i
      let v ← rd q d
      wr B (nc * i + d) v) s = .ok s' → i + 1 ≤ Q.length := by
    intro h3
    have := forLt_okI (fun d _ => d = 0 ∨ i + 1 ≤ Q.length) (Nat.zero_le _) h3 (.inl rfl) (by
      intro d s s' _ _ h4 _
      obtain ⟨q, hq, -⟩ := R_bind_eq_ok.mp h4
      exact .inr (List.getElem?_eq_some_iff.mp (rd_eq_ok.mp hq)).1)
    omega
  exact this h2

/-! ## The hypotheses can be met -/

/-- Two columns of two points, of degree 1. -/
example : ∃ P, buildPolesBatch (1 / 1000000 : ℚ) (1 / 1000000) 1000000 0 (0 : ℚ) (fun _ _ _ => .error .oob) 1 [[[3], [5]], [[7], [11]]] [0, 0, 1, 1] [0, 1] 1 = .ok P ∧
    P = [3, 5, 7, 11] := by
  refine ⟨_, ?_, rfl⟩
  decide +kernel

example : ∃ P, buildPolesBatch (1 / 1000000 : ℚ) (1 / 1000000) 1000000 0 (0 : ℚ) (fun _ _ _ => .error .oob) 1 [[[3], [5]], [[7], [11]]] [0, 0, 1, 1] [0, 1] 1 = .ok P ∧
    P.length = 4 ∧ ∀ junk', evalValue (1 / 1000000 : ℚ) junk' 1 [0, 0, 1, 1] ((P.drop 2).take 2) 1 0 = .ok 11 := by
  have hs : ∀ Q ∈ ([[[3], [5]], [[7], [11]]] : List (List (List ℚ))),
      SparseOk (1 / 1000000 : ℚ) (1 / 1000000) 1000000 0 (fun _ _ _ => .error .oob) 1 Q [0, 0, 1, 1] [0, 1] 1 := by
    intro Q hQ T B h
    have hQ' : Q.length = 2 := by
      simp only [List.mem_cons, List.not_mem_nil, or_false] at hQ
      rcases hQ with rfl | rfl <;> rfl
    rw [hQ'] at h
    exact absurd h (by decide +kernel)
  obtain ⟨P, h1, h2, h3⟩ := C114_interpolates (eps := (1 / 1000000 : ℚ)) (meps := 1 / 1000000) (growth := 1000000) (junk := 0) (x0 := (0 : ℚ)) (nc := 1) (by norm_num) (by norm_num)
    (p := 1) (by decide) le_rfl (Qs := [[[3], [5]], [[7], [11]]]) (U := [0, 0, 1, 1]) (u := [0, 1]) ⟨by simp, rfl, by decide, by decide, by decide⟩ (by simp) (by simp) hs
  exact ⟨P, h1, h2, fun junk' => h3 1 1 _ _ 1 0 11 rfl rfl rfl (by decide) (by decide) rfl junk'⟩

end Gbs
