import Verif.Model.ValueLists
import Verif.Props.Parallel
import Verif.Props.Surface
import Verif.Props.SurfaceMisc

/-! # C131: evaluations of surfaces on lists of parameters -/

namespace Gbs

set_option linter.unusedSectionVars false

variable {α β γ : Type}

theorem serialTransform2_zip (f : α → β → Except Exc γ) : ∀ (us : List α) (vs : List β), us.length ≤ vs.length →
    serialTransform2 f us vs = serialTransform (fun x : α × β => f x.1 x.2) (us.zip vs)
  | [], _, _ => by simp [serialTransform2, serialTransform]
  | _ :: _, [], h => by simp at h
  | a :: l, b :: m, h => by
    rw [serialTransform2, List.zip_cons_cons, serialTransform, serialTransform2_zip f l m (by simpa using h)]
    cases f a b <;> rfl

theorem transformThreshold2_zip {minSize : ℕ} {dflt : γ} {f : α → β → Except Exc γ} {us : List α} {vs : List β} {sched : List ℕ}
    (hl : us.length ≤ vs.length) : transformThreshold2 minSize dflt f us vs sched =
      transformThreshold minSize dflt (fun x : α × β => f x.1 x.2) (us.zip vs) sched := by
  unfold transformThreshold2
  split
  · rw [if_neg (by omega)]
  · rename_i h
    have e : (us.zip vs).length = us.length := by rw [List.length_zip]; omega
    simp only [transformThreshold]
    rw [if_neg (by rw [e]; exact h), serialTransform2_zip f us vs hl]

/-- C131: with a second list at least as long as the first one, on both sides of the gate and whatever the schedule, the results are the ones of the pairs
of the same index, in their order, and the end of a longer second list is ignored; the first exception is thrown by the serial side, and
ends the program on the parallel side. -/
theorem C131_lists {minSize : ℕ} {dflt : γ} {f : α → β → Except Exc γ} {us : List α} {vs : List β} {sched : List ℕ} {r : R (List γ)}
    (hl : us.length ≤ vs.length) (h : transformThreshold2 minSize dflt f us vs sched = some r) :
    ((∀ (i : ℕ) (a : α) (b : β), us[i]? = some a → vs[i]? = some b → ∃ c, f a b = .ok c) → ∃ l, r = .ok l ∧ l.length = us.length ∧
      ∀ (i : ℕ) (a : α) (b : β) (c : γ), us[i]? = some a → vs[i]? = some b → f a b = .ok c → l[i]? = some c) ∧
    ∀ (k : ℕ) (a : α) (b : β) (e : Exc), us[k]? = some a → vs[k]? = some b → f a b = .error e →
      (∀ (i : ℕ) (a' : α) (b' : β), i < k → us[i]? = some a' → vs[i]? = some b' → ∃ c, f a' b' = .ok c) →
      r = .error (if minSize ≤ us.length then .terminated else .thrown e) := by
  rw [transformThreshold2_zip hl] at h
  have e : (us.zip vs).length = us.length := by rw [List.length_zip]; omega
  have hz : ∀ (i : ℕ) (x : α × β), (us.zip vs)[i]? = some x ↔ us[i]? = some x.1 ∧ vs[i]? = some x.2 := fun i x => List.getElem?_zip_eq_some
  obtain ⟨h1, h2⟩ := C32_values _ _ _ _ _ _ h
  rw [e] at h1 h2
  constructor
  · intro hok
    obtain ⟨l, l1, l2, l3⟩ := h1 (by
      intro x hx
      obtain ⟨i, hi⟩ := List.mem_iff_getElem?.mp hx
      obtain ⟨a1, a2⟩ := (hz i x).mp hi
      exact hok i _ _ a1 a2)
    exact ⟨l, l1, l2, fun i a b c ha hb hc => l3 i (a, b) c ((hz i (a, b)).mpr ⟨ha, hb⟩) hc⟩
  · intro k a b ex ha hb he hlt
    refine h2 k (a, b) ex ((hz k (a, b)).mpr ⟨ha, hb⟩) he ?_
    intro i x hi hx
    obtain ⟨a1, a2⟩ := (hz i x).mp hx
    exact hlt i _ _ hi a1 a2

/-- C131: a shorter second list is not refused: it is read past its end, unless an exception is thrown before. -/
theorem C131_short {minSize : ℕ} {dflt : γ} {f : α → β → Except Exc γ} {sched : List ℕ} : ∀ {us : List α} {vs : List β}, vs.length < us.length →
    (∀ (i : ℕ) (a : α) (b : β), us[i]? = some a → vs[i]? = some b → ∃ c, f a b = .ok c) →
    transformThreshold2 minSize dflt f us vs sched = some (.error .oob) := by
  have key : ∀ (us : List α) (vs : List β), vs.length < us.length →
      (∀ (i : ℕ) (a : α) (b : β), us[i]? = some a → vs[i]? = some b → ∃ c, f a b = .ok c) → serialTransform2 f us vs = .error .oob := by
    intro us
    induction us with
    | nil => intro vs h; simp at h
    | cons a l ih =>
      intro vs h hok
      cases vs with
      | nil => rfl
      | cons b m =>
        obtain ⟨c, hc⟩ := hok 0 a b rfl rfl
        rw [serialTransform2, hc]
        simp only [ih m (by simpa using h) fun i a' b' h1 h2 => hok (i + 1) a' b' (by simpa using h1) (by simpa using h2)]
        rfl
  intro us vs h hok
  unfold transformThreshold2
  split
  · rfl
  · rw [key us vs h hok]

variable {K : Type} [Field K] [LinearOrder K] [IsStrictOrderedRing K]
variable {V : Type} [AddCommGroup V] [Module K V]

/-- C131: the points and derivatives of a surface at two lists of parameters are the ones at the pairs of the same index. -/
theorem C131_surface {minSize : ℕ} {eps junk : K} (heps : 0 < eps) {s : Surface K V} (h : s.Wf) (hb : s.BigOk eps) {us vs : List K}
    (hl : us.length ≤ vs.length) (hin : ∀ (i : ℕ) (u v : K), us[i]? = some u → vs[i]? = some v → s.In u v) {du dv : ℕ} {sched : List ℕ} {r : R (List V)}
    (hr : s.values minSize eps junk us vs du dv sched = some r) :
    ∃ l, r = .ok l ∧ l.length = us.length ∧ ∀ (i : ℕ) (u v : K), us[i]? = some u → vs[i]? = some v →
      ∃ x, l[i]? = some x ∧ s.value eps junk u v du dv = .ok x := by
  have hv : ∀ (i : ℕ) (u v : K), us[i]? = some u → vs[i]? = some v → ∃ x, s.value eps junk u v du dv = .ok x := by
    intro i u v h1 h2
    obtain ⟨_, _, -, -, -, -, -, -, -, -, e⟩ := Surface.value_spec heps h hb (hin i u v h1 h2)
    exact ⟨_, e junk du dv⟩
  obtain ⟨l, l1, l2, l3⟩ := (C131_lists hl hr).1 (by
    intro i u v h1 h2
    obtain ⟨x, hx⟩ := hv i u v h1 h2
    exact ⟨x, by rw [hx]; rfl⟩)
  refine ⟨l, l1, l2, fun i u v h1 h2 => ?_⟩
  obtain ⟨x, hx⟩ := hv i u v h1 h2
  exact ⟨x, l3 i u v x h1 h2 (by rw [hx]; rfl), hx⟩

/-- C131: the list of pairs gives the same points as the two lists. -/
theorem C131_pairs {minSize : ℕ} {eps junk : K} {s : Surface K V} {us vs : List K} (hl : us.length ≤ vs.length) {du dv : ℕ} {sched : List ℕ} :
    s.values minSize eps junk us vs du dv sched = s.valuesAt minSize eps junk (us.zip vs) du dv sched :=
  transformThreshold2_zip hl

/-- C131: the exception of the first pair that has one is passed on, and ends the program when the algorithm is parallel. -/
theorem C131_thrown {minSize : ℕ} {eps junk : K} {s : Surface K V} {us vs : List K} (hl : us.length ≤ vs.length) {du dv : ℕ} {sched : List ℕ} {r : R (List V)}
    (hr : s.values minSize eps junk us vs du dv sched = some r) {k : ℕ} {u v : K} {e : Exc} (hu : us[k]? = some u) (hv : vs[k]? = some v)
    (he : s.value eps junk u v du dv = .error (.thrown e))
    (hok : ∀ (i : ℕ) (u' v' : K), i < k → us[i]? = some u' → vs[i]? = some v' → ∃ x, s.value eps junk u' v' du dv = .ok x) :
    r = .error (if minSize ≤ us.length then .terminated else .thrown e) := by
  refine (C131_lists hl hr).2 k u v e hu hv (by rw [he]; rfl) fun i u' v' hi h1 h2 => ?_
  obtain ⟨x, hx⟩ := hok i u' v' hi h1 h2
  exact ⟨x, by rw [hx]; rfl⟩

/-- The second pair is outside of the bounds. -/
example {r : R (List ℚ)} (hr : Surface.values 512 (1 / 1000) 0 Sample.net [0, 9, 1 / 2] [0, 2, 1] 0 0 [] = some r) :
    r = .error (.thrown .outOfBoundsEval) := by
  refine C131_thrown (by decide) hr (k := 1) (u := 9) (v := 2) rfl rfl (by decide +kernel) ?_
  intro i u v hi h1 h2
  obtain rfl : i = 0 := by omega
  cases h1
  cases h2
  exact ⟨0, by decide +kernel⟩

/-- It has such a result. -/
example : Surface.values 512 (1 / 1000) 0 Sample.net [0, 9, 1 / 2] [0, 2, 1] 0 0 [] = some (.error (.thrown .outOfBoundsEval)) := by decide +kernel

/-- C131: two parameters along U and one along V. -/
theorem C131_witness : Surface.values 512 (1 / 1000) 0 Sample.net [0, 1] [0] 0 0 [] = some (.error .oob) := by
  decide +kernel

/-- Three pairs of parameters, and one more parameter along V. -/
example : Surface.values 512 (1 / 1000) 0 Sample.net [0, 1, 1 / 2] [0, 2, 1, 7] 0 0 [] = some (.ok [0, 5, 5 / 2]) := by
  decide +kernel

/-- The same in parallel, the last pair before the first one. -/
example : Surface.values 2 (1 / 1000) 0 Sample.net [0, 1, 1 / 2] [0, 2, 1, 7] 0 0 [2, 1, 2, 0, 0, 1] = some (.ok [0, 5, 5 / 2]) := by
  decide +kernel

end Gbs
