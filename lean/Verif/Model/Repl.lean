import Verif.Model.Error

/-! Model of `examples/poker-repl.rs`.

The program blocks only in `rl.readline(PROMPT)`; one step is what it does with what `readline`
returns: `none` for `Err(_)`, `some line` for `Ok(line)`.

Left out here: terminal colours and the welcome text (see Model/Screen.lean), the prompt and the
history (see Model/Program.lean, where the program is written with its loop). -/

namespace Poker.Repl

/-- examples/poker-repl.rs:50-59 -/
def HELP : Str :=
  ("\nEnter a list of 5 or more space-separated cards to be evaluated as a hand.\n" ++
   "Cards are two character strings, where the first character represents\n" ++
   "the card rank, and the second character represents the card suit.\n" ++
   "\n" ++
   "Valid ranks: one of [23456789TJQKA]\n" ++
   "Valid suits: one of [chsd]\n" ++
   "\n" ++
   "Example: poker> Tc Jc Qc Kc Ac\n").toList

/-- What the outside supplies to a step: what `readline` returns, whether `add_history_entry`
returns `Ok`, and the iteration order of the hash map behind the error text. -/
structure Input where
  line : Option Str
  historyOk : Bool
  order : List (Card × Nat) → List (Card × Nat)

/-- Where the program is: in `readline`, or ended. -/
inductive State
  | reading
  | ended
  deriving DecidableEq

/-- examples/poker-repl.rs:18-42: what is printed for a line of cards. -/
def answer (eval : Evaluator) (order : List (Card × Nat) → List (Card × Nat)) (line : Str) :
    Exec Str :=
  match try_collect (cardsOfString line) with
  | .ok cards => do
    match ← eval.evaluate cards with
    | .ok result => return result.display
    | .error e => return e.display order
  | .error e => .ok e.display

/-- examples/poker-repl.rs:13-44, one turn of the loop: the texts printed. -/
def step (eval : Evaluator) (input : Input) : State → Exec (State × List Str)
  | .ended => .ok (.ended, [])
  | .reading =>
    match input.line with
    | none => .ok (.ended, [])
    | some line =>
      if input.historyOk then
        if line = "help".toList then .ok (.reading, [HELP])
        else if line = "quit".toList then .ok (.ended, [])
        else do return (.reading, [← answer eval input.order line])
      else .error .unwrapFailed

/-- The loop on a history of inputs. -/
def run (eval : Evaluator) : List Input → State → Exec (State × List Str)
  | [], s => .ok (s, [])
  | i :: is, s => do
    let (s, out) ← step eval i s
    let (s, out') ← run eval is s
    return (s, out ++ out')

/-- The whole program. -/
def main (inputs : List Input) : Exec (State × List Str) := do
  let eval ← Evaluator.new
  run eval inputs .reading

end Poker.Repl
