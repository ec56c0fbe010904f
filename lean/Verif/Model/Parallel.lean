import Verif.Model.Wrapped

/-!
# Model of the parallel loops, `gbs/execution.h`

The parallel algorithms of the standard library are a machine: every element of the range is a task, which first computes its result from
the (read-only) input into a local value, then stores it in its own slot. A schedule is any list of task numbers; a step of a finished task
does nothing. The region ends when all tasks are finished. What is evaluated for one element is pure and returns a value or an exception
(an undefined behaviour in one element is one of the whole program and is left out).
-/

namespace Gbs

variable {α β : Type}

/-- Progress of one element. -/
inductive Task (β : Type) where
  | todo
  | got (r : Except Exc β)
  | done

/-- Shared state of `build_batch`: progress, `out`, `errs`. -/
structure Batch (β : Type) where
  tasks : List (Task β)
  out : List β
  errs : List (Option Exc)

/-- One step of the task `i`: the lambda `run`, `gbs/execution.h:130-134`. -/
def Batch.step (f : ℕ → Except Exc β) (s : Batch β) (i : ℕ) : Batch β :=
  match s.tasks[i]? with
  | some .todo => { s with tasks := s.tasks.set i (.got (f i)) }
  | some (.got (.ok b)) => { s with tasks := s.tasks.set i .done, out := s.out.set i b }
  | some (.got (.error e)) => { s with tasks := s.tasks.set i .done, errs := s.errs.set i (some e) }
  | _ => s

/-- All the tasks are finished. -/
def Batch.finished (s : Batch β) : Prop := ∀ t ∈ s.tasks, t = .done

/-- The state before the loop, `gbs/execution.h:122-129`. -/
def Batch.init (n : ℕ) (dflt : β) : Batch β :=
  ⟨List.replicate n .todo, List.replicate n dflt, List.replicate n none⟩

/-- The elements in the order of the schedule. -/
def Batch.run (f : ℕ → Except Exc β) (sched : List ℕ) (s : Batch β) : Batch β := sched.foldl (Batch.step f) s

/-- The loop that rethrows, `gbs/execution.h:140-143`. -/
def rethrowFirst (errs : List (Option Exc)) (out : List β) : R (List β) :=
  match errs.findSome? id with
  | some e => .error (.thrown e)
  | none => .ok out

/-- The builder applied to the element `i`; only called for indices of the input. -/
def atIdx (build : α → Except Exc β) (inputs : List α) (i : ℕ) : Except Exc β :=
  match inputs[i]? with
  | some a => build a
  | none => .error .outOfRange

/-- Decides `Batch.finished`. -/
def Batch.finishedB (s : Batch β) : Bool := s.tasks.all (fun t => match t with | .done => true | _ => false)

/-- `build_batch`, `gbs/execution.h:117-144`: `sched` is the order in which the library runs the tasks when the batch has at least `minSize`
elements; below, they are run one after the other. `none`: the region has not ended. -/
def buildBatch (minSize : ℕ) (dflt : β) (build : α → Except Exc β) (inputs : List α) (sched : List ℕ) :
    Option (R (List β)) :=
  let n := inputs.length
  let order := if minSize ≤ n then sched else (List.range n).flatMap (fun i => [i, i])
  let s := Batch.run (atIdx build inputs) order (Batch.init n dflt)
  if s.finishedB then some (rethrowFirst s.errs s.out) else none

/-- State of a parallel `std::transform`: an exception that leaves an element calls `std::terminate`. -/
structure Trans (β : Type) where
  tasks : List (Task β)
  out : List β
  terminated : Bool

/-- One step of the element `i` of a parallel `std::transform`. -/
def Trans.step (f : ℕ → Except Exc β) (s : Trans β) (i : ℕ) : Trans β :=
  if s.terminated then s
  else
    match s.tasks[i]? with
    | some .todo => { s with tasks := s.tasks.set i (.got (f i)) }
    | some (.got (.ok b)) => { s with tasks := s.tasks.set i .done, out := s.out.set i b }
    | some (.got (.error _)) => { s with terminated := true }
    | _ => s

/-- Serial `std::transform`. -/
def serialTransform (f : α → Except Exc β) : List α → R (List β)
  | [] => .ok []
  | a :: l =>
    match f a with
    | .error e => .error (.thrown e)
    | .ok b => do
      let r ← serialTransform f l
      pure (b :: r)

/-- `transform_threshold` into a buffer of the size of the input, `gbs/execution.h:70-75`; `Curve::values`, `gbs/bscurve.h:65-74`, is this with
the evaluation of the curve. `none`: the region has not ended. -/
def transformThreshold (minSize : ℕ) (dflt : β) (f : α → Except Exc β) (inputs : List α) (sched : List ℕ) : Option (R (List β)) :=
  if minSize ≤ inputs.length then
    let s := sched.foldl (Trans.step (atIdx f inputs)) ⟨List.replicate inputs.length .todo, List.replicate inputs.length dflt, false⟩
    if s.terminated then some (.error .terminated)
    else if Batch.finishedB ⟨s.tasks, s.out, []⟩ then some (.ok s.out)
    else none
  else some (serialTransform f inputs)

end Gbs
