import Verif.Model.Evaluation
import Verif.Model.Deck

/-! Model of threads that share one evaluator, as in the documentation of src/lib.rs:41-75.

`Evaluator::evaluate` takes `&self` and the crate forbids `unsafe` (src/lib.rs:78), so a thread only
reads the shared tables.  A call is cut into steps: one step per iteration of each of its loops (the
uniqueness check and the loop over combinations).  The scheduler picks any thread at every step. -/

namespace Poker

/-- Where a thread is in its call of `evaluate` (src/evaluate/evaluation.rs:24-37). -/
inductive Job
  /-- about to call `evaluate` -/
  | ready (cards : List Card)
  /-- in the loop of `all_unique` (src/evaluate/utils.rs:130-137) with the cards still to look at -/
  | checking (cards rest : List Card) (card_flags : BitVec 64)
  /-- in the loop of `six_plus` (src/evaluate/evaluation.rs:58-63) -/
  | looping (combos : Combinations Card 5) (current_max : Eval)
  /-- returned or panicked -/
  | finished (outcome : Exec (Except EvalError Eval))

namespace Job

/-- src/evaluate/utils.rs:130-137, one iteration of the loop of `all_unique`: stop with a value, or
go on with new flags. -/
def checkCard (card_flags : BitVec 64) (card : Card) : Exec (Option (BitVec 64)) := do
  let i ← card_to_index card
  let card_flag ← shl (1 : BitVec 64) i.toNat
  if card_flags &&& card_flag ≠ 0 then return none
  else return some (card_flags ||| card_flag)

/-- src/evaluate/evaluation.rs:26-33: what follows a successful uniqueness check. -/
def dispatch (evaluator : Evaluation) (cards : List Card) : Job :=
  if cards.length < 5 then finished (.ok (.error (.InvalidHandSize cards.length)))
  else if cards.length = 5 then
    finished do
      let c0 ← idx cards 0
      let c1 ← idx cards 1
      let c2 ← idx cards 2
      let c3 ← idx cards 3
      let c4 ← idx cards 4
      return .ok (← five evaluator [c0, c1, c2, c3, c4])
  else
    match debugAssert (cards.length > 5) with
    | .error p => finished (.error p)
    | .ok () => looping (Combinations.new 5 cards) Eval.WORST

/-- One step of a thread, reading the shared evaluator. -/
def step (evaluator : Evaluation) : Job → Job
  | ready cards => checking cards cards 0
  | checking cards [] _ => dispatch evaluator cards
  | checking cards (card :: rest) card_flags =>
    match checkCard card_flags card with
    | .error p => finished (.error p)
    | .ok none => finished (.ok (.error (.CardsNotUnique cards)))
    | .ok (some card_flags) => checking cards rest card_flags
  | looping combos current_max =>
    match combos.next with
    | .error p => finished (.error p)
    | .ok (none, _) => finished (.ok (.ok current_max))
    | .ok (some combo, combos) =>
      match sixPlusBody evaluator current_max combo with
      | .error p => finished (.error p)
      | .ok current_max => looping combos current_max
  | finished outcome => finished outcome

end Job

/-- The shared evaluator and the threads. -/
structure Threads where
  shared : Evaluator
  jobs : List Job

namespace Threads

/-- The scheduler lets thread `i` take a step (nothing happens when there is no such thread). -/
def step (sys : Threads) (i : Nat) : Threads :=
  { sys with jobs := sys.jobs.modify i (Job.step sys.shared.toEvaluation) }

/-- A schedule is the sequence of threads that take a step. -/
def run (sys : Threads) (schedule : List Nat) : Threads := schedule.foldl step sys

/-- src/lib.rs:56-64: spawn one thread per hand. -/
def spawn (shared : Evaluator) (hands : List (List Card)) : Threads :=
  { shared := shared, jobs := hands.map Job.ready }

end Threads

/-- src/lib.rs:62, `evaluator.evaluate(hand).unwrap_or(Eval::WORST)`. -/
def unwrapOrWorst : Except EvalError Eval → Eval
  | .ok e => e
  | .error _ => Eval.WORST

/-- src/lib.rs:66-69: join the threads in the given order (`join().unwrap()` panics when the thread
panicked; joining waits until the thread has finished, so an unfinished one is stuck) and fold with
`cmp::max`. -/
def joinAll (acc : Eval) : List Job → Exec Eval
  | [] => .ok acc
  | .finished (.ok r) :: jobs => joinAll (acc.max (unwrapOrWorst r)) jobs
  | .finished (.error _) :: _ => .error .unwrapFailed
  | _ :: _ => .error .outOfFuel

end Poker
