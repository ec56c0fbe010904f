import Verif.Model.Parallel
import Verif.Lemmas.OkInv

/-!
# C32: the parallel loops do not depend on the schedule
-/

set_option linter.unusedSectionVars false

namespace Gbs

variable {α β : Type}

theorem replicate_some {γ : Type} {n i : ℕ} {a t : γ} (h : (List.replicate n a)[i]? = some t) : t = a := by
  rw [List.getElem?_replicate] at h
  split at h
  · exact (Option.some.inj h).symm
  · cases h

/-! ## `build_batch` -/

/-- A slot agrees with the progress of its task. -/
def SlotOk (f : ℕ → Except Exc β) (i : ℕ) (o : β) (e : Option Exc) : Task β → Prop
  | .todo => e = none
  | .got r => r = f i ∧ e = none
  | .done => (∀ b, f i = .ok b → o = b ∧ e = none) ∧ ∀ x, f i = .error x → e = some x

structure Batch.Inv (f : ℕ → Except Exc β) (n : ℕ) (s : Batch β) : Prop where
  lt : s.tasks.length = n
  lo : s.out.length = n
  le : s.errs.length = n
  slot : ∀ i t o e, s.tasks[i]? = some t → s.out[i]? = some o → s.errs[i]? = some e → SlotOk f i o e t

theorem Batch.init_inv (f : ℕ → Except Exc β) (n : ℕ) (dflt : β) : (Batch.init n dflt).Inv f n where
  lt := List.length_replicate
  lo := List.length_replicate
  le := List.length_replicate
  slot i t o e h1 h2 h3 := by
    obtain rfl := replicate_some h1
    obtain rfl := replicate_some h3
    rfl

theorem Batch.step_inv {f : ℕ → Except Exc β} {n : ℕ} {s : Batch β} (h : s.Inv f n) (i : ℕ) : (s.step f i).Inv f n := by
  unfold Batch.step
  have hl : ∀ t, s.tasks[i]? = some t → i < n := fun t ht => by
    rw [← h.lt]; exact (List.getElem?_eq_some_iff.mp ht).1
  split
  · rename_i ht
    have hi := hl _ ht
    refine ⟨by simp [h.lt], h.lo, h.le, fun j t o e h1 h2 h3 => ?_⟩
    rw [getElem?_set_of_lt (by rw [h.lt]; exact hi)] at h1
    by_cases hj : j = i
    · subst hj
      rw [if_pos rfl] at h1
      obtain rfl := Option.some.inj h1
      exact ⟨rfl, h.slot j _ o e ht h2 h3⟩
    · rw [if_neg hj] at h1
      exact h.slot j t o e h1 h2 h3
  · rename_i b ht
    have hi := hl _ ht
    refine ⟨by simp [h.lt], by simp [h.lo], h.le, fun j t o e h1 h2 h3 => ?_⟩
    rw [getElem?_set_of_lt (by rw [h.lt]; exact hi)] at h1
    rw [getElem?_set_of_lt (by rw [h.lo]; exact hi)] at h2
    by_cases hj : j = i
    · subst hj
      rw [if_pos rfl] at h1 h2
      obtain rfl := Option.some.inj h1
      obtain rfl := Option.some.inj h2
      have := h.slot j _ (s.out[j]'(by rw [h.lo]; exact hi)) e ht (List.getElem?_eq_getElem _) h3
      obtain ⟨ha, hb⟩ := this
      exact ⟨fun b' hb' => by rw [← ha] at hb'; exact ⟨(Except.ok.inj hb'), hb⟩, fun x hx => by rw [← ha] at hx; cases hx⟩
    · rw [if_neg hj] at h1 h2
      exact h.slot j t o e h1 h2 h3
  · rename_i x ht
    have hi := hl _ ht
    refine ⟨by simp [h.lt], h.lo, by simp [h.le], fun j t o e h1 h2 h3 => ?_⟩
    rw [getElem?_set_of_lt (by rw [h.lt]; exact hi)] at h1
    rw [getElem?_set_of_lt (by rw [h.le]; exact hi)] at h3
    by_cases hj : j = i
    · subst hj
      rw [if_pos rfl] at h1 h3
      obtain rfl := Option.some.inj h1
      obtain rfl := Option.some.inj h3
      have := h.slot j _ o (s.errs[j]'(by rw [h.le]; exact hi)) ht h2 (List.getElem?_eq_getElem _)
      obtain ⟨ha, hb⟩ := this
      exact ⟨(fun b' hb' => by rw [← ha] at hb'; cases hb'), fun x hx => by rw [← ha] at hx; rw [Except.error.inj hx]⟩
    · rw [if_neg hj] at h1 h3
      exact h.slot j t o e h1 h2 h3
  · exact h

theorem Batch.run_inv {f : ℕ → Except Exc β} {n : ℕ} : ∀ (sched : List ℕ) {s : Batch β}, s.Inv f n → (s.run f sched).Inv f n
  | [], _, h => h
  | i :: l, s, h => Batch.run_inv l (s := s.step f i) (Batch.step_inv h i)

theorem finishedB_iff {s : Batch β} : s.finishedB = true ↔ s.finished := by
  unfold Batch.finishedB Batch.finished
  rw [List.all_eq_true]
  refine forall₂_congr fun t _ => ?_
  cases t <;> simp

/-- The result after a finished region. -/
theorem Batch.result {f : ℕ → Except Exc β} {n : ℕ} {s : Batch β} (h : s.Inv f n) (hf : s.finished) :
    ((∀ i, i < n → ∃ b, f i = .ok b) → ∃ l, rethrowFirst s.errs s.out = .ok l ∧ l.length = n ∧ ∀ i b, i < n → f i = .ok b → l[i]? = some b) ∧
    ∀ k e, k < n → f k = .error e → (∀ i, i < k → ∃ b, f i = .ok b) → rethrowFirst s.errs s.out = .error (.thrown e) := by
  have hd : ∀ i (hi : i < n), SlotOk f i (s.out[i]'(by rw [h.lo]; exact hi)) (s.errs[i]'(by rw [h.le]; exact hi)) .done := by
    intro i hi
    have hlt : i < s.tasks.length := by rw [h.lt]; exact hi
    have h1 : s.tasks[i] = .done := hf _ (List.getElem_mem hlt)
    refine h.slot i .done _ _ ?_ (List.getElem?_eq_getElem _) (List.getElem?_eq_getElem _)
    rw [List.getElem?_eq_getElem hlt, h1]
  constructor
  · intro hok
    refine ⟨s.out, ?_, h.lo, ?_⟩
    · have : s.errs.findSome? id = none := by
        rw [List.findSome?_eq_none_iff]
        intro x hx
        obtain ⟨i, hi, rfl⟩ := List.getElem_of_mem hx
        have hi' : i < n := by rw [← h.le]; exact hi
        obtain ⟨b, hb⟩ := hok i hi'
        exact ((hd i hi').1 b hb).2
      simp only [rethrowFirst, this]
    · intro i b hi hb
      rw [List.getElem?_eq_getElem (by rw [h.lo]; exact hi), ((hd i hi).1 b hb).1]
  · intro k e hk he hbefore
    have : s.errs.findSome? id = some e := by
      have hk' : k < s.errs.length := by rw [h.le]; exact hk
      rw [List.findSome?_eq_some_iff]
      refine ⟨s.errs.take k, some e, s.errs.drop (k + 1), ?_, rfl, ?_⟩
      · have hke : s.errs[k] = some e := (hd k hk).2 e he
        rw [← hke, ← List.drop_eq_getElem_cons hk', List.take_append_drop]
      · intro x hx
        obtain ⟨i, hi, rfl⟩ := List.getElem_of_mem hx
        rw [List.length_take] at hi
        obtain ⟨b, hb⟩ := hbefore i (by omega)
        rw [List.getElem_take]
        exact ((hd i (by omega)).1 b hb).2
    simp only [rethrowFirst, this]

/-! ## Termination: a task stepped twice is finished -/

/-- Number of steps a task has left. -/
def Task.left : Task β → ℕ
  | .todo => 2
  | .got _ => 1
  | .done => 0

theorem Batch.step_left (f : ℕ → Except Exc β) (s : Batch β) (i j : ℕ) (t : Task β) (ht : s.tasks[j]? = some t) :
    ∃ t', (s.step f i).tasks[j]? = some t' ∧ t'.left = t.left - (if i = j then 1 else 0) := by
  unfold Batch.step
  by_cases hij : i = j
  · subst hij
    have hlt := (List.getElem?_eq_some_iff.mp ht).1
    rw [ht, if_pos rfl]
    match t with
    | .todo => exact ⟨.got (f i), by simp [getElem?_set_of_lt hlt], rfl⟩
    | .got (.ok b) => exact ⟨.done, by simp [getElem?_set_of_lt hlt], rfl⟩
    | .got (.error b) => exact ⟨.done, by simp [getElem?_set_of_lt hlt], rfl⟩
    | .done => exact ⟨_, ht, rfl⟩
  · rw [if_neg hij]
    refine ⟨t, ?_, by simp⟩
    split <;> first | exact ht | (simp only [List.getElem?_set_ne hij]; exact ht)

theorem Batch.run_left (f : ℕ → Except Exc β) : ∀ (sched : List ℕ) (s : Batch β) (j : ℕ) (t : Task β), s.tasks[j]? = some t →
    ∃ t', (s.run f sched).tasks[j]? = some t' ∧ t'.left = t.left - sched.count j
  | [], s, j, t, ht => ⟨t, ht, by simp⟩
  | i :: l, s, j, t, ht => by
    obtain ⟨t1, h1, h2⟩ := Batch.step_left f s i j t ht
    obtain ⟨t2, h3, h4⟩ := Batch.run_left f l (s.step f i) j t1 h1
    refine ⟨t2, h3, ?_⟩
    rw [h4, h2, List.count_cons]
    by_cases hij : i = j
    · simp [hij]; omega
    · simp [hij]

theorem Batch.finished_of_fair {f : ℕ → Except Exc β} {n : ℕ} {dflt : β} {sched : List ℕ} (h : ∀ j, j < n → 2 ≤ sched.count j) :
    ((Batch.init n dflt).run f sched).finished := by
  have hinv := Batch.run_inv (f := f) sched (Batch.init_inv f n dflt)
  intro t ht
  obtain ⟨j, hj, rfl⟩ := List.getElem_of_mem ht
  have hjn : j < n := by rw [← hinv.lt]; exact hj
  obtain ⟨t', h1, h2⟩ := Batch.run_left f sched (Batch.init n dflt) j .todo (by simp [Batch.init, hjn])
  rw [List.getElem?_eq_getElem hj] at h1
  obtain rfl := Option.some.inj h1
  have := h j hjn
  have h3 : (((Batch.init n dflt).run f sched).tasks[j]).left = 0 := by
    rw [h2]; simp only [Task.left]; omega
  cases hc : ((Batch.init n dflt).run f sched).tasks[j] with
  | todo => rw [hc] at h3; cases h3
  | got r => rw [hc] at h3; cases h3
  | done => rfl

theorem atIdx_some {build : α → Except Exc β} {inputs : List α} {i : ℕ} (a : α) (h : inputs[i]? = some a) : atIdx build inputs i = build a := by
  simp [atIdx, h]

/-- C32: whatever the order in which the library runs the tasks, `build_batch` returns the results of the builder in the order of the inputs
when no element throws, and otherwise throws the exception of the first element that throws, as the serial loop does. -/
theorem C32_build_batch (minSize : ℕ) (dflt : β) (build : α → Except Exc β) (inputs : List α) (sched : List ℕ) (r : R (List β))
    (h : buildBatch minSize dflt build inputs sched = some r) :
    ((∀ a ∈ inputs, ∃ b, build a = .ok b) → ∃ l, r = .ok l ∧ l.length = inputs.length ∧
      ∀ (i : ℕ) (a : α) (b : β), inputs[i]? = some a → build a = .ok b → l[i]? = some b) ∧
    ∀ (k : ℕ) (a : α) (e : Exc), inputs[k]? = some a → build a = .error e → (∀ (i : ℕ) (a' : α), i < k → inputs[i]? = some a' → ∃ b, build a' = .ok b) →
      r = .error (.thrown e) := by
  unfold buildBatch at h
  simp only [] at h
  by_cases hfin : (Batch.run (atIdx build inputs) (if minSize ≤ inputs.length then sched else (List.range inputs.length).flatMap (fun i => [i, i]))
      (Batch.init inputs.length dflt)).finishedB = true
  · rw [if_pos hfin] at h
    obtain rfl := Option.some.inj h
    have hinv := Batch.run_inv (f := atIdx build inputs) (if minSize ≤ inputs.length then sched else (List.range inputs.length).flatMap (fun i => [i, i]))
      (Batch.init_inv (atIdx build inputs) inputs.length dflt)
    obtain ⟨h1, h2⟩ := Batch.result hinv (finishedB_iff.mp hfin)
    constructor
    · intro hok
      obtain ⟨l, e1, e2, e3⟩ := h1 fun i hi => by
        rw [atIdx_some _ (List.getElem?_eq_getElem hi)]
        exact hok _ (List.getElem_mem hi)
      refine ⟨l, e1, e2, fun i a b ha hb => e3 i b (List.getElem?_eq_some_iff.mp ha).1 ?_⟩
      rw [atIdx_some _ ha, hb]
    · intro k a e ha he hbefore
      refine h2 k e (List.getElem?_eq_some_iff.mp ha).1 (by rw [atIdx_some _ ha, he]) fun i hi => ?_
      have hil : i < inputs.length := lt_trans hi (List.getElem?_eq_some_iff.mp ha).1
      rw [atIdx_some _ (List.getElem?_eq_getElem hil)]
      exact hbefore i _ hi (List.getElem?_eq_getElem hil)
  · rw [if_neg hfin] at h
    cases h

/-- C32: `build_batch` ends below the gate, and above it for every schedule that runs every task to its end. -/
theorem C32_build_batch_ends (minSize : ℕ) (dflt : β) (build : α → Except Exc β) (inputs : List α) (sched : List ℕ)
    (h : inputs.length < minSize ∨ ∀ j, j < inputs.length → 2 ≤ sched.count j) :
    ∃ r, buildBatch minSize dflt build inputs sched = some r := by
  have key : ∀ j, j < inputs.length → 2 ≤ (if minSize ≤ inputs.length then sched else (List.range inputs.length).flatMap (fun i => [i, i])).count j := by
    intro j hj
    by_cases hm : minSize ≤ inputs.length
    · rw [if_pos hm]
      rcases h with h | h
      · omega
      · exact h j hj
    · rw [if_neg hm, List.count_flatMap]
      have : ∀ l : List ℕ, j ∈ l → 2 ≤ (l.map (List.count j ∘ fun i => [i, i])).sum := by
        intro l hl
        have h1 : 2 ∈ l.map (List.count j ∘ fun i => [i, i]) := List.mem_map.mpr ⟨j, hl, by simp⟩
        exact List.le_sum_of_mem h1
      exact this _ (List.mem_range.mpr hj)
  unfold buildBatch
  simp only []
  rw [if_pos (finishedB_iff.mpr (Batch.finished_of_fair key))]
  exact ⟨_, rfl⟩

/-! ## `transform_threshold` -/

structure Trans.Inv (f : ℕ → Except Exc β) (n : ℕ) (s : Trans β) : Prop where
  lt : s.tasks.length = n
  lo : s.out.length = n
  got : ∀ (i : ℕ) (r : Except Exc β), s.tasks[i]? = some (.got r) → r = f i
  done : ∀ i : ℕ, s.tasks[i]? = some .done → ∃ b, f i = .ok b ∧ s.out[i]? = some b
  term : s.terminated = true → ∃ i e, i < n ∧ f i = .error e

theorem Trans.step_inv {f : ℕ → Except Exc β} {n : ℕ} {s : Trans β} (h : s.Inv f n) (i : ℕ) : (s.step f i).Inv f n := by
  unfold Trans.step
  have hl : ∀ t, s.tasks[i]? = some t → i < n := fun t ht => by
    rw [← h.lt]; exact (List.getElem?_eq_some_iff.mp ht).1
  split
  · exact h
  split
  · rename_i ht
    have hi := hl _ ht
    refine ⟨by simp [h.lt], h.lo, fun j r hj => ?_, fun j hj => ?_, h.term⟩
    · simp only [getElem?_set_of_lt (l := s.tasks) (by rw [h.lt]; exact hi)] at hj
      by_cases hji : j = i
      · rw [if_pos hji] at hj
        rw [hji]
        simpa using hj.symm
      · rw [if_neg hji] at hj
        exact h.got j r hj
    · simp only [getElem?_set_of_lt (l := s.tasks) (by rw [h.lt]; exact hi)] at hj
      by_cases hji : j = i
      · rw [if_pos hji] at hj; simp at hj
      · rw [if_neg hji] at hj
        exact h.done j hj
  · rename_i b ht
    have hi := hl _ ht
    refine ⟨by simp [h.lt], by simp [h.lo], fun j r hj => ?_, fun j hj => ?_, h.term⟩
    · simp only [getElem?_set_of_lt (l := s.tasks) (by rw [h.lt]; exact hi)] at hj
      by_cases hji : j = i
      · rw [if_pos hji] at hj; simp at hj
      · rw [if_neg hji] at hj
        exact h.got j r hj
    · simp only [getElem?_set_of_lt (l := s.tasks) (by rw [h.lt]; exact hi)] at hj
      simp only [getElem?_set_of_lt (l := s.out) (by rw [h.lo]; exact hi)]
      by_cases hji : j = i
      · subst hji
        exact ⟨b, (h.got j _ ht).symm, by simp⟩
      · rw [if_neg hji] at hj ⊢
        exact h.done j hj
  · rename_i e ht
    exact ⟨h.lt, h.lo, h.got, h.done, fun _ => ⟨i, e, hl _ ht, (h.got i _ ht).symm⟩⟩
  · exact h

theorem Trans.run_inv {f : ℕ → Except Exc β} {n : ℕ} : ∀ (sched : List ℕ) {s : Trans β}, s.Inv f n → (sched.foldl (Trans.step f) s).Inv f n
  | [], _, h => h
  | i :: l, s, h => Trans.run_inv l (s := s.step f i) (Trans.step_inv h i)

theorem serialTransform_ok {f : α → Except Exc β} : ∀ (l : List α), (∀ a ∈ l, ∃ b, f a = .ok b) →
    ∃ r, serialTransform f l = .ok r ∧ r.length = l.length ∧ ∀ (i : ℕ) (a : α) (b : β), l[i]? = some a → f a = .ok b → r[i]? = some b
  | [], _ => ⟨[], rfl, rfl, fun i a b h => by simp at h⟩
  | x :: l, h => by
    obtain ⟨b, hb⟩ := h x (by simp)
    obtain ⟨r, h1, h2, h3⟩ := serialTransform_ok l fun a ha => h a (by simp [ha])
    refine ⟨b :: r, by simp [serialTransform, hb, h1], by simp [h2], fun i a b' hi hb' => ?_⟩
    cases i with
    | zero =>
      obtain rfl : x = a := by simpa using hi
      rw [hb] at hb'
      simpa using hb'
    | succ i => exact h3 i a b' (by simpa using hi) hb'

theorem serialTransform_error {f : α → Except Exc β} : ∀ (l : List α) (k : ℕ) (a : α) (e : Exc), l[k]? = some a → f a = .error e →
    (∀ (i : ℕ) (a' : α), i < k → l[i]? = some a' → ∃ b, f a' = .ok b) → serialTransform f l = .error (.thrown e)
  | [], k, a, e, h, _, _ => by simp at h
  | x :: l, k, a, e, hk, he, hb => by
    cases k with
    | zero =>
      obtain rfl : x = a := by simpa using hk
      simp [serialTransform, he]
    | succ k =>
      obtain ⟨b, hb0⟩ := hb 0 x (by omega) rfl
      have := serialTransform_error l k a e (by simpa using hk) he fun i a' hi ha' => hb (i + 1) a' (by omega) (by simpa using ha')
      simp [serialTransform, hb0, this]

/-- C32: whatever the schedule, and on both sides of the gate, `values(u_list)` (`transform_threshold`) returns the results in the order of the
inputs when no element throws. When one does, the serial side throws the exception of the first such element, but the parallel side calls
`std::terminate`. -/
theorem C32_values (minSize : ℕ) (dflt : β) (f : α → Except Exc β) (inputs : List α) (sched : List ℕ) (r : R (List β))
    (h : transformThreshold minSize dflt f inputs sched = some r) :
    ((∀ a ∈ inputs, ∃ b, f a = .ok b) → ∃ l, r = .ok l ∧ l.length = inputs.length ∧
      ∀ (i : ℕ) (a : α) (b : β), inputs[i]? = some a → f a = .ok b → l[i]? = some b) ∧
    ∀ (k : ℕ) (a : α) (e : Exc), inputs[k]? = some a → f a = .error e → (∀ (i : ℕ) (a' : α), i < k → inputs[i]? = some a' → ∃ b, f a' = .ok b) →
      r = .error (if minSize ≤ inputs.length then .terminated else .thrown e) := by
  simp only [transformThreshold] at h
  by_cases hm : minSize ≤ inputs.length
  · rw [if_pos hm] at h
    set s := sched.foldl (Trans.step (atIdx f inputs)) ⟨List.replicate inputs.length .todo, List.replicate inputs.length dflt, false⟩ with hs
    have hinv : s.Inv (atIdx f inputs) inputs.length := by
      rw [hs]
      refine Trans.run_inv sched ⟨List.length_replicate, List.length_replicate, fun i r hi => ?_, fun i hi => ?_, fun hc => by cases hc⟩
      · cases replicate_some hi
      · cases replicate_some hi
    by_cases ht : s.terminated = true
    · rw [if_pos ht] at h
      obtain rfl := Option.some.inj h
      constructor
      · intro hok
        obtain ⟨i, e, hi, he⟩ := hinv.term ht
        rw [atIdx_some _ (List.getElem?_eq_getElem hi)] at he
        obtain ⟨b, hb⟩ := hok _ (List.getElem_mem hi)
        rw [hb] at he
        cases he
      · intro k a e _ _ _
        rw [if_pos hm]
    · rw [if_neg ht] at h
      split at h
      · rename_i hfin
        obtain rfl := Option.some.inj h
        have hfin' : ∀ t ∈ s.tasks, t = .done := finishedB_iff.mp hfin
        have hdone : ∀ i, i < inputs.length → s.tasks[i]? = some .done := fun i hi => by
          have hlt : i < s.tasks.length := by rw [hinv.lt]; exact hi
          rw [List.getElem?_eq_getElem hlt, hfin' _ (List.getElem_mem hlt)]
        constructor
        · intro _
          refine ⟨_, rfl, hinv.lo, fun i a b ha hb => ?_⟩
          obtain ⟨b', h1, h2⟩ := hinv.done i (hdone i (List.getElem?_eq_some_iff.mp ha).1)
          rw [atIdx_some _ ha, hb] at h1
          rw [h2, Except.ok.inj h1]
        · intro k a e ha he _
          obtain ⟨b', h1, h2⟩ := hinv.done k (hdone k (List.getElem?_eq_some_iff.mp ha).1)
          rw [atIdx_some _ ha, he] at h1
          cases h1
      · cases h
  · rw [if_neg hm] at h
    obtain rfl := Option.some.inj h
    constructor
    · intro hok
      obtain ⟨l, h1, h2, h3⟩ := serialTransform_ok inputs hok
      exact ⟨l, h1, h2, h3⟩
    · intro k a e ha he hb
      rw [if_neg hm]
      exact serialTransform_error inputs k a e ha he hb

/-- C32: on the parallel side of the gate an exception of one element ends the program, where the serial side lets it be caught. -/
theorem C32_terminate_witness : ∃ (f : ℕ → Except Exc ℕ) (inputs sched : List ℕ),
    transformThreshold 2 0 f inputs sched = some (.error .terminated) ∧
    transformThreshold 3 0 f inputs sched = some (.error (.thrown .outOfBoundsEval)) :=
  ⟨fun n => if n = 0 then .error .outOfBoundsEval else .ok n, [1, 0], [1, 1, 0], by decide, by decide⟩

/-- Two inputs, the second of which throws, in the reverse order. -/
example : buildBatch 2 0 (fun n : ℕ => if n = 0 then .error .domain else if n = 1 then .error .length else .ok n) [5, 1, 0] [2, 1, 2, 0, 0, 1] =
    some (.error (.thrown .length)) := by decide

example : transformThreshold 2 0 (fun n : ℕ => if n = 0 then .error .domain else .ok (n + 1)) [5, 1, 7] [2, 1, 2, 0, 0, 1] =
    some (.ok [6, 2, 8]) := by decide

end Gbs
