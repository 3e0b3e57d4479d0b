import Verif.Model.Game
import Verif.Model.Repl

/-! Model of all that the examples put on the screen: styles of the texts, clearing, welcome texts.

`colored` (a dependency) wraps a text in control sequences, or leaves it alone if the output is not a
terminal; here a text is put out together with its style, and what `colored` makes of the style is not
modelled.  `bright_purple` of `colored` is another name of `bright_magenta`.  The prompts are
in Model/Program.lean. -/

namespace Poker.Screen

/-- The colours used. -/
inductive Color
  | BrightRed | BrightGreen | BrightYellow | BrightBlue | BrightMagenta | BrightCyan | BrightWhite
  deriving DecidableEq, Repr

/-- What the methods of `colored::Colorize` record. -/
structure Style where
  color : Option Color := none
  bold : Bool := false
  italic : Bool := false
  underline : Bool := false
  deriving DecidableEq, Repr

/-- One thing put on the screen: a line of text, or the control sequence of `clear_terminal!`
(examples/common/mod.rs:37-42). -/
inductive Out
  | line (style : Style) (text : Str)
  | clear
  deriving DecidableEq

/-- `.bright_green().bold()` -/
def good : Style := { color := some .BrightGreen, bold := true }

/-- `.bright_red().bold()` -/
def bad : Style := { color := some .BrightRed, bold := true }

/-- `println!` of a text without style. -/
def plain (text : Str) : Out := .line {} text

namespace Repl
open Poker.Repl (HELP Input State)

/-- examples/poker-repl.rs:47-48 -/
def WELCOME : Str :=
  ("Welcome to the poker hand REPL!\n" ++
   "For help, enter \"help\". To quit, enter \"quit\" or press CTRL+C.").toList

/-- examples/poker-repl.rs:25-36: the style of a result. -/
def style : EvalClass → Style
  | .HighCard _ => { color := some .BrightRed }
  | .Pair _ => { color := some .BrightMagenta }
  | .TwoPair _ _ => { color := some .BrightMagenta }
  | .ThreeOfAKind _ => { color := some .BrightYellow }
  | .Straight _ => { color := some .BrightCyan }
  | .Flush _ => { color := some .BrightBlue }
  | .FullHouse _ _ => { color := some .BrightWhite }
  | .FourOfAKind _ => { color := some .BrightWhite, italic := true }
  | .StraightFlush _ => { color := some .BrightWhite, underline := true }

/-- examples/poker-repl.rs:18-42 -/
def answer (eval : Evaluator) (order : List (Card × Nat) → List (Card × Nat)) (line : Str) :
    Exec Out :=
  match try_collect (cardsOfString line) with
  | .ok cards => do
    match ← eval.evaluate cards with
    | .ok result => return .line (style result.class') result.display
    | .error e => return plain (e.display order)
  | .error e => .ok (plain e.display)

/-- examples/poker-repl.rs:13-44, one turn of the loop. -/
def step (eval : Evaluator) (input : Input) : State → Exec (State × List Out)
  | .ended => .ok (.ended, [])
  | .reading =>
    match input.line with
    | none => .ok (.ended, [])
    | some line =>
      if input.historyOk then
        if line = "help".toList then .ok (.reading, [.line good HELP])
        else if line = "quit".toList then .ok (.ended, [])
        else do return (.reading, [← answer eval input.order line])
      else .error .unwrapFailed

/-- The loop on a history of inputs. -/
def run (eval : Evaluator) : List Input → State → Exec (State × List Out)
  | [], s => .ok (s, [])
  | i :: is, s => do
    let (s, out) ← step eval i s
    let (s, out') ← run eval is s
    return (s, out ++ out')

/-- examples/poker-repl.rs:6-44, the whole program; `editorOk` says whether `common::editor`
(examples/common/mod.rs:30-35) gets a terminal. -/
def main (editorOk : Bool) (inputs : List Input) : Exec (State × List Out) := do
  let eval ← Evaluator.new
  let out := [Out.line good WELCOME]
  if editorOk then do
    let (s, out') ← run eval inputs .reading
    return (s, out ++ out')
  else .error .unwrapFailed

end Repl

namespace Game
open Poker.Game hiding step run main start afterWager afterSwaps compared

/-- examples/jacks-or-better.rs:15-17 -/
def WELCOME : Str :=
  ("Welcome to Jacks or Better video poker!\n" ++
   "To quit, enter \"quit\" or press CTRL+C.\n").toList

/-- examples/jacks-or-better.rs:20-35: set up, and run to the first `readline`.  The welcome text is
put out before the terminal is set up, which may fail. -/
def start (editorOk : Bool) (draw : Nat → Nat) : Exec (Evaluator × State × List Out) := do
  let eval ← Evaluator.new
  if editorOk then do
    let deck ← Deck.shuffled_with draw
    return (eval, .wager STARTING_CREDITS deck [],
      [.clear, .line good WELCOME, .line good (wagerMessage STARTING_CREDITS)])
  else .error .unwrapFailed

/-- examples/jacks-or-better.rs:40-52 -/
def afterWager (eval : Evaluator) (credits wager : Nat) (deck hand : List Card) :
    Exec (State × List Out) := do
  let credits ← usizeSub credits wager
  let (drained, deck) ← drainFront 5 deck
  let hand := hand ++ drained
  let first_eval ← unwrap (← eval.evaluate hand)
  let line ← handLine hand first_eval
  return (.swaps credits wager first_eval deck hand,
    [.clear, plain line, plain numbersLine, .line good swapsMessage])

/-- examples/jacks-or-better.rs:70-78 -/
def compared (sec fir : EvalClass) : List Out :=
  match sec.cmp fir with
  | .gt => [.line good "You got a better hand!".toList]
  | .lt => [.line bad "You got a worse hand...".toList]
  | .eq => []

/-- examples/jacks-or-better.rs:82-90, `winnings_string` -/
def winningsLine (winnings : Nat) : Out :=
  .line (if winnings > 0 then good else bad) ("Winnings: ".toList ++ natStr winnings)

/-- examples/jacks-or-better.rs:57-102 -/
def afterSwaps (eval : Evaluator) (input : Input) (credits wager : Nat) (first_eval : Eval)
    (deck hand : List Card) (swaps : List Nat) : Exec (State × List Out) := do
  let (deck, hand) ← replace input.drawSwap swaps deck hand
  let second_eval ← unwrap (← eval.evaluate hand)
  let line ← handLine hand second_eval
  let winnings ← payout wager second_eval.class'
  let credits ← collect credits wager winnings
  let out := plain line :: compared second_eval.class' first_eval.class' ++ [winningsLine winnings]
  if credits = 0 then
    return (.over credits deck hand, out ++ [.line bad "Game over!".toList])
  else do
    let deck := deck ++ hand
    let deck ← Deck.shuffle input.drawRound deck
    return (.wager credits deck [], out ++ [plain [], .line good (wagerMessage credits)])

/-- One step, as `Poker.Game.step`. -/
def step (eval : Evaluator) (input : Input) : State → Exec (State × List Out)
  | .wager credits deck hand =>
    match get_wager credits input.line with
    | .quit => .ok (.quit credits deck hand, [])
    | .again message =>
      .ok (.wager credits deck hand, [plain message, .line good (wagerMessage credits)])
    | .accept wager => afterWager eval credits wager deck hand
  | .swaps credits wager first_eval deck hand => do
    match ← get_swaps input.order input.line with
    | .quit => .ok (.quit credits deck hand, [])
    | .again message =>
      .ok (.swaps credits wager first_eval deck hand, [plain message, .line good swapsMessage])
    | .accept swaps => afterSwaps eval input credits wager first_eval deck hand swaps
  | .quit credits deck hand => .ok (.quit credits deck hand, [])
  | .over credits deck hand => .ok (.over credits deck hand, [])

/-- The program on a history of inputs. -/
def run (eval : Evaluator) : List Input → State → Exec (State × List Out)
  | [], s => .ok (s, [])
  | i :: is, s => do
    let (s, out) ← step eval i s
    let (s, out') ← run eval is s
    return (s, out ++ out')

/-- examples/jacks-or-better.rs:19-103, the whole program. -/
def main (editorOk : Bool) (draw : Nat → Nat) (inputs : List Input) : Exec (State × List Out) := do
  let (eval, s, out) ← start editorOk draw
  let (s, out') ← run eval inputs s
  return (s, out ++ out')

end Game

end Poker.Screen
