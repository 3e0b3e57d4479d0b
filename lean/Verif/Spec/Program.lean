import Verif.Model.Program
import Verif.Spec.Screen

/-! How a dialogue with the examples should go. -/

namespace Poker.Text
open Screen (Style Out)
open Program (Event World)

/-- Green, not bold: the prompts. -/
def promptStyle : Style := ⟨some .BrightGreen, false, false, false⟩

/-- The questions of the game are the bold green lines that start with "Enter". -/
def question : Out → Bool
  | .line style t => decide (style = ⟨some .BrightGreen, true, false, false⟩) && starts "Enter " t
  | .clear => false

/-- The dialogue of the game: a prompt after each question and nowhere else. -/
def asked (outs : List Out) : List Event :=
  outs.flatMap (fun o =>
    if question o then [.out o, .prompt promptStyle ">>> ".toList] else [.out o])

/-- The number of times a program waited for a line. -/
def prompts (events : List Event) : Nat :=
  (events.filter (fun e => match e with | .prompt _ _ => true | _ => false)).length

/-- The lines a program added to the history. -/
def remembered (events : List Event) : List Str :=
  events.filterMap (fun e => match e with | .remember l => some l | _ => none)

/-- The game has put a question. -/
def asking : Game.State → Bool
  | .wager _ _ _ | .swaps _ _ _ _ _ => true
  | .quit _ _ _ | .over _ _ _ => false

/-- The lines that the REPL should add to the history: all up to an error, and none after "quit". -/
def history : List (Option Str) → List Str
  | [] => []
  | none :: _ => []
  | some l :: ls => l :: if l = "quit".toList then [] else history ls

/-- A program about to start. -/
def fresh {ι : Type} (inputs : List ι) : World ι := ⟨inputs, none, []⟩

end Poker.Text
