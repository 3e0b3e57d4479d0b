import Verif.Model.Screen

/-! The examples once more, as programs with loops and input and output, statement by statement.

In Model/Game.lean, Model/Repl.lean and Model/Screen.lean the programs are state machines: what happens
between two calls of `readline` is one step.  Here they are written as in the source.  A program runs in
a world that holds what the outside will supply, one item for each call of `readline`, and records what
the program does, in order: texts put out, prompts, and lines added to the history.

An item holds the line and what the program will meet up to the next call: the draws of the shuffles,
the order of a hash map, and whether `add_history_entry` succeeds.  Loops have fuel; the theorems say
how much is enough, for any input.  `rustyline` itself is not modelled: `readline` shows the prompt,
coloured by `highlight_prompt`, and then returns a line or an error.  Hints, completion and validation
(`rustyline_derive`) are the defaults, which do nothing. -/

namespace Poker.Program
open Screen (Style Out good bad)

/-- Something the program does that can be seen or recalled. -/
inductive Event
  /-- a line put out, or the screen cleared -/
  | out (o : Out)
  /-- a call of `readline` with this prompt, as shown -/
  | prompt (style : Style) (text : Str)
  /-- the line was handed to `add_history_entry`, which returned `Ok` (`rustyline` may still leave out
  a line that repeats the one before) -/
  | remember (line : Str)
  deriving DecidableEq

/-- The world of a program that is supplied with items of `ι`. -/
structure World (ι : Type) where
  /-- what the coming calls of `readline` will get -/
  inputs : List ι
  /-- what the last call got -/
  last : Option ι
  /-- what the program did -/
  events : List Event

/-- How a run ends. -/
inductive Res (ι α : Type)
  | done (a : α) (w : World ι)
  | panic (p : Panic) (events : List Event)
  /-- in `readline`, with no more inputs -/
  | waiting (events : List Event)
  /-- out of fuel -/
  | spent

/-- A program that returns an `α`. -/
def M (ι α : Type) : Type := World ι → Res ι α

/-- One statement after another. -/
def M.bind {ι α β : Type} (m : M ι α) (f : α → M ι β) : M ι β := fun w =>
  match m w with
  | .done a w => f a w
  | .panic p ev => .panic p ev
  | .waiting ev => .waiting ev
  | .spent => .spent

instance {ι : Type} : Monad (M ι) where
  pure a := fun w => .done a w
  bind := M.bind

/-- A computation without input or output. -/
def lift {ι α : Type} : Exec α → M ι α
  | .ok a => fun w => .done a w
  | .error p => fun w => .panic p w.events

/-- Record an event. -/
def put {ι : Type} (e : Event) : M ι Unit := fun w => .done () { w with events := w.events ++ [e] }

/-- `println!` of a text in a style. -/
def println {ι : Type} (style : Style) (text : Str) : M ι Unit := put (.out (.line style text))

/-- examples/common/mod.rs:37-42, `clear_terminal!`. -/
def clear_terminal {ι : Type} : M ι Unit := put (.out .clear)

/-- examples/common/mod.rs:17-27, `ColorPrompt::highlight_prompt`. -/
def highlight_prompt (default : Bool) : Style :=
  if default then { color := some .BrightGreen } else {}

/-- examples/common/mod.rs:30-35, `editor`; `ok` says whether `with_history` succeeds. -/
def editor {ι : Type} (ok : Bool) : M ι Unit := lift (if ok then .ok () else .error .unwrapFailed)

/-- `rl.readline(prompt)`: shows the prompt, which is the default one, and waits for a line. -/
def readline {ι : Type} (line : ι → Option Str) (prompt : Str) : M ι (Option Str) := fun w =>
  let events := w.events ++ [.prompt (highlight_prompt true) prompt]
  match w.inputs with
  | [] => .waiting events
  | i :: is => .done (line i) { inputs := is, last := some i, events := events }

/-- What came with the last line. -/
def env {ι α : Type} (f : ι → α) : M ι α := fun w =>
  match w.last with
  | some i => .done (f i) w
  | none => .panic .unreachable w.events

/-- What a turn of a loop does: go on with new values of the variables, or leave the loop. -/
inductive Flow (σ β : Type)
  | go (s : σ)
  | leave (b : β)

/-- `loop { .. }` -/
def loop {ι σ β : Type} (body : σ → M ι (Flow σ β)) : Nat → σ → M ι β
  | 0, _ => fun _ => .spent
  | fuel + 1, s => do
    match ← body s with
    | .go s => loop body fuel s
    | .leave b => return b

namespace Repl
open Poker.Repl (HELP Input)

/-- examples/poker-repl.rs:47 -/
def PROMPT : Str := "poker> ".toList

/-- `rl.add_history_entry(&line)`: whether it is `Ok`. -/
def add_history_entry (line : Str) : M Input (Except Unit Unit) := do
  if ← env (·.historyOk) then
    put (.remember line)
    return .ok ()
  else return .error ()

/-- examples/poker-repl.rs:13-44, one turn of the loop. -/
def turn (eval : Evaluator) : Unit → M Input (Flow Unit Unit) := fun _ => do
  match ← readline (·.line) PROMPT with
  | none => return .leave ()
  | some line =>
    lift (Game.unwrap (← add_history_entry line))
    if line = "help".toList then
      println good HELP
      return .go ()
    else if line = "quit".toList then return .leave ()
    else
      match try_collect (cardsOfString line) with
      | .ok cards =>
        match ← lift (eval.evaluate cards) with
        | .ok result => println (Screen.Repl.style result.class') result.display
        | .error e => println {} (e.display (← env (·.order)))
      | .error e => println {} e.display
      return .go ()

/-- examples/poker-repl.rs:6-45 -/
def main (editorOk : Bool) (fuel : Nat) : M Input Unit := do
  let eval ← lift Evaluator.new
  println good Screen.Repl.WELCOME
  editor editorOk
  loop (turn eval) fuel ()

end Repl

namespace Game
open Poker.Game (Input STARTING_CREDITS MAX_WAGER USIZE usizeAdd parseUsize parseAll drainFront unwrap
  payout handLine numbersLine allInserted)

/-- examples/jacks-or-better.rs:14 -/
def PROMPT : Str := ">>> ".toList

/-- examples/jacks-or-better.rs:120-160, one turn of the loop of `get_wager`. -/
def wagerTurn (credits : Nat) (message : Str) : Unit → M Input (Flow Unit (Option Nat)) := fun _ => do
  println good message
  match ← readline (·.line) PROMPT with
  | none => return .leave none
  | some input =>
    if input = "quit".toList then return .leave none
    else
      match parseUsize input with
      | none =>
        println {} ("Invalid input '".toList ++ input ++ "'. Expected wager from 1 to ".toList
          ++ natStr MAX_WAGER ++ ".\n".toList)
        return .go ()
      | some x =>
        if x = 0 then
          println {} "Sorry, you can't bet 0 credits!\n".toList
          return .go ()
        else if x > MAX_WAGER then
          println {} ("Invalid wager amount '".toList ++ natStr x ++ "'. Expected amount from 1 to ".toList
            ++ natStr MAX_WAGER ++ ".\n".toList)
          return .go ()
        else if x > credits then
          println {} ("Not enough credits! Got ".toList ++ natStr x ++ " but you have ".toList
            ++ natStr credits ++ ".\n".toList)
          return .go ()
        else return .leave (some x)

/-- examples/jacks-or-better.rs:118-161, `get_wager`. -/
def get_wager (fuel credits : Nat) : M Input (Option Nat) :=
  let message := "Enter a wager. (Credits: ".toList ++ natStr credits ++ ", max: ".toList
    ++ natStr MAX_WAGER ++ ")".toList
  loop (wagerTurn credits message) fuel ()

/-- examples/jacks-or-better.rs:167-230, one turn of the loop of `get_swaps`. -/
def swapsTurn (message : Str) : Unit → M Input (Flow Unit (Option (List Nat))) := fun _ => do
  println good message
  match ← readline (·.line) PROMPT with
  | none => return .leave none
  | some input =>
    if input = "quit".toList then return .leave none
    else
      match parseAll (split_whitespace input) with
      | none =>
        println {} ("Error parsing input '".toList ++ input
          ++ "'. Expected space-separated list of card numbers to swap.\n".toList)
        return .go ()
      | some swaps =>
        if !swaps.all (fun num => decide (1 ≤ num ∧ num ≤ 5)) then
          println {} ("Error parsing input '".toList ++ input
            ++ "'. Not all listed numbers are between 1 and 5.\n".toList)
          return .go ()
        else if ¬ (swaps.length ≤ 5) then
          println {} ("Error parsing input '".toList ++ input
            ++ "'. Specified more than 5 cards to swap.\n".toList)
          return .go ()
        else if !allInserted [] swaps then
          let order ← env (·.order)
          let counts := (counts order swaps).filterMap
            (fun (swap, count) => if count > 1 then some (natStr swap) else none)
          println {} ("Cannot provide duplicate cards to swap: ".toList ++ joinSpace counts
            ++ ".\n".toList)
          return .go ()
        else return .leave (some (← lift (swaps.mapM (fun x => usizeSub x 1))))

/-- examples/jacks-or-better.rs:165-231, `get_swaps`. -/
def get_swaps (fuel : Nat) : M Input (Option (List Nat)) :=
  loop (swapsTurn "Enter the cards' numbers you wish to swap, if any.".toList) fuel ()

/-- The variables of the game loop. -/
structure Vars where
  deck : List Card
  credits : Nat
  hand : List Card

/-- examples/jacks-or-better.rs:34-103, one turn of the game loop. -/
def turn (fuel : Nat) (eval : Evaluator) : Vars → M Input (Flow Vars Unit) :=
  fun ⟨deck, credits, hand⟩ => do
  match ← get_wager fuel credits with
  | none => return .leave ()
  | some wager =>
    let credits ← lift (usizeSub credits wager)
    let (drained, deck) ← lift (drainFront 5 deck)
    let hand := hand ++ drained
    let first_eval ← lift (unwrap (← lift (eval.evaluate hand)))
    clear_terminal
    -- one `println!` with a line break in it
    println {} (← lift (handLine hand first_eval))
    println {} numbersLine
    match ← get_swaps fuel with
    | none => return .leave ()
    | some swaps =>
      let (deck, hand) ←
        if !swaps.isEmpty then do
          let draw ← env (·.drawSwap)
          lift (Poker.Game.swap_cards draw swaps deck hand)
        else pure (deck, hand)
      let second_eval ← lift (unwrap (← lift (eval.evaluate hand)))
      println {} (← lift (handLine hand second_eval))
      match second_eval.class'.cmp first_eval.class' with
      | .gt => println good "You got a better hand!".toList
      | .lt => println bad "You got a worse hand...".toList
      | .eq => pure ()
      let winnings ← lift (payout wager second_eval.class')
      let s := "Winnings: ".toList ++ natStr winnings
      let (credits, style) ←
        if winnings > 0 then do
          pure (← lift (do usizeAdd credits (← usizeAdd wager winnings)), good)
        else pure (credits, bad)
      println style s
      if credits = 0 then
        println bad "Game over!".toList
        return .leave ()
      else
        println {} []
        let deck := deck ++ hand
        let draw ← env (·.drawRound)
        return .go ⟨← lift (Deck.shuffle draw deck), credits, []⟩

/-- examples/jacks-or-better.rs:19-104; `draw` are the draws of `deck::shuffled`. -/
def main (editorOk : Bool) (draw : Nat → Nat) (fuel : Nat) : M Input Unit := do
  clear_terminal
  let eval ← lift Evaluator.new
  println good Screen.Game.WELCOME
  editor editorOk
  let deck ← lift (Deck.shuffled_with draw)
  loop (turn fuel eval) fuel ⟨deck, STARTING_CREDITS, []⟩

end Game

end Poker.Program
