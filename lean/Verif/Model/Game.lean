import Verif.Model.Error
import Verif.Model.Deck

/-! Model of `examples/jacks-or-better.rs`.

The program blocks only in `rl.readline(PROMPT)`.  So its state is where it blocks and the contents
of its variables there, and one step is everything it does between two calls of `readline`.  An
input is what `readline` returns: `none` for `Err(_)`, `some line` for `Ok(line)`.

Left out here: terminal colours, clearing the screen and the welcome text (see Model/Screen.lean),
and the prompt (see Model/Program.lean, where the program is written with its loops).  `Vec` capacities
are left out.  `usize` has 64 bits. -/

namespace Poker.Game

/-- One more than `usize::MAX`. -/
def USIZE : Nat := 2 ^ 64

/-- `a + b` on `usize`. -/
def usizeAdd (a b : Nat) : Exec Nat := if a + b < USIZE then .ok (a + b) else .error .arithOverflow

/-- `a * b` on `usize`. -/
def usizeMul (a b : Nat) : Exec Nat := if a * b < USIZE then .ok (a * b) else .error .arithOverflow

/-- The loop of `usize::from_str` over the digits: `checked_mul(10)`, then `checked_add`. -/
def parseDigits (acc : Nat) : Str → Option Nat
  | [] => some acc
  | c :: cs =>
    if '0' ≤ c ∧ c ≤ '9' then
      if 10 * acc < USIZE then
        if 10 * acc + (c.toNat - 48) < USIZE then parseDigits (10 * acc + (c.toNat - 48)) cs
        else none
      else none
    else none

/-- `str::parse::<usize>` of the standard library (called at examples/jacks-or-better.rs:129 and
178): an optional plus sign and at least one decimal digit; `none` on overflow. -/
def parseUsize : Str → Option Nat
  | [] => none
  | ['+'] => none
  | ['-'] => none
  | '+' :: cs => parseDigits 0 cs
  | cs => parseDigits 0 cs

/-- `iter.map(str::parse).collect::<Result<Vec<usize>, _>>()` (examples/jacks-or-better.rs:178). -/
def parseAll : List Str → Option (List Nat)
  | [] => some []
  | s :: rest =>
    match parseUsize s with
    | none => none
    | some n =>
      match parseAll rest with
      | none => none
      | some ns => some (n :: ns)

/-- `vec.drain(..n)`, read to the end: the drained items and what is left. -/
def drainFront {α : Type} (n : Nat) (l : List α) : Exec (List α × List α) :=
  if n ≤ l.length then .ok (l.take n, l.drop n) else .error .indexOutOfBounds

/-- `result.unwrap()`. -/
def unwrap {ε α : Type} : Except ε α → Exec α
  | .ok a => .ok a
  | .error _ => .error .unwrapFailed

/-- examples/jacks-or-better.rs:12 -/
def STARTING_CREDITS : Nat := 100
/-- examples/jacks-or-better.rs:13 -/
def MAX_WAGER : Nat := 5

/-- examples/jacks-or-better.rs:233-264, `payout`. -/
def payout (wager : Nat) : EvalClass → Exec Nat
  | .Pair .Jack | .Pair .Queen | .Pair .King | .Pair .Ace => .ok wager
  | .TwoPair _ _ => usizeMul 2 wager
  | .ThreeOfAKind _ => usizeMul 3 wager
  | .Straight _ => usizeMul 4 wager
  | .Flush _ => usizeMul 6 wager
  | .FullHouse _ _ => usizeMul 9 wager
  | .FourOfAKind _ => usizeMul 25 wager
  | .StraightFlush .Ace => if wager = MAX_WAGER then .ok 4000 else usizeMul 250 wager
  | .StraightFlush _ => usizeMul 50 wager
  | _ => .ok 0

/-- examples/jacks-or-better.rs:106-114, `swap_cards`: the new deck and the new hand. -/
def swap_cards (draw : Nat → Nat) (swaps : List Nat) (deck hand : List Card) :
    Exec (List Card × List Card) := do
  let deck ← swaps.foldlM (fun deck index => do return deck ++ [← idx hand index]) deck
  let deck ← Deck.shuffle draw deck
  let (dealt, deck) ← drainFront swaps.length deck
  let hand ← dealt.zipIdx.foldlM (fun hand p => do setIdx hand (← idx swaps p.2) p.1) hand
  return (deck, hand)

/-- What one turn of an input loop does: leave the game, print a message and ask again, or return. -/
inductive Answer (α : Type)
  | quit
  | again (message : Str)
  | accept (a : α)
  deriving DecidableEq

/-- examples/jacks-or-better.rs:119, the message of `get_wager`. -/
def wagerMessage (credits : Nat) : Str :=
  "Enter a wager. (Credits: ".toList ++ natStr credits ++ ", max: ".toList ++ natStr MAX_WAGER
    ++ ")".toList

/-- examples/jacks-or-better.rs:124-159, one turn of the loop of `get_wager`. -/
def get_wager (credits : Nat) : Option Str → Answer Nat
  | none => .quit
  | some input =>
    if input = "quit".toList then .quit
    else
      match parseUsize input with
      | none => .again ("Invalid input '".toList ++ input ++ "'. Expected wager from 1 to ".toList
          ++ natStr MAX_WAGER ++ ".\n".toList)
      | some wager =>
        if wager = 0 then .again "Sorry, you can't bet 0 credits!\n".toList
        else if wager > MAX_WAGER then
          .again ("Invalid wager amount '".toList ++ natStr wager
            ++ "'. Expected amount from 1 to ".toList ++ natStr MAX_WAGER ++ ".\n".toList)
        else if wager > credits then
          .again ("Not enough credits! Got ".toList ++ natStr wager ++ " but you have ".toList
            ++ natStr credits ++ ".\n".toList)
        else .accept wager

/-- examples/jacks-or-better.rs:166, the message of `get_swaps`. -/
def swapsMessage : Str := "Enter the cards' numbers you wish to swap, if any.".toList

/-- examples/jacks-or-better.rs:208, `swaps.iter().all(move |x| duplicates.insert(*x))`; the set is
a list of what has been inserted. -/
def allInserted (duplicates : List Nat) : List Nat → Bool
  | [] => true
  | x :: xs => if duplicates.contains x then false else allInserted (x :: duplicates) xs

/-- examples/jacks-or-better.rs:171-229, one turn of the loop of `get_swaps`.  `order` is the
unspecified iteration order of the hash map made by `counts`. -/
def get_swaps (order : List (Nat × Nat) → List (Nat × Nat)) :
    Option Str → Exec (Answer (List Nat))
  | none => .ok .quit
  | some input =>
    if input = "quit".toList then .ok .quit
    else
      match parseAll (split_whitespace input) with
      | none => .ok (.again ("Error parsing input '".toList ++ input
          ++ "'. Expected space-separated list of card numbers to swap.\n".toList))
      | some swaps =>
        if !swaps.all (fun num => decide (1 ≤ num ∧ num ≤ 5)) then
          .ok (.again ("Error parsing input '".toList ++ input
            ++ "'. Not all listed numbers are between 1 and 5.\n".toList))
        else if ¬ (swaps.length ≤ 5) then
          .ok (.again ("Error parsing input '".toList ++ input
            ++ "'. Specified more than 5 cards to swap.\n".toList))
        else if !allInserted [] swaps then
          let counts := (counts order swaps).filterMap
            (fun (swap, count) => if count > 1 then some (natStr swap) else none)
          .ok (.again ("Cannot provide duplicate cards to swap: ".toList ++ joinSpace counts
            ++ ".\n".toList))
        else do return .accept (← swaps.mapM (fun x => usizeSub x 1))

/-- Where the program is. -/
inductive State
  /-- in `get_wager`, waiting for a line (examples/jacks-or-better.rs:124) -/
  | wager (credits : Nat) (deck hand : List Card)
  /-- in `get_swaps`, waiting for a line (examples/jacks-or-better.rs:171) -/
  | swaps (credits wager : Nat) (first_eval : Eval) (deck hand : List Card)
  /-- left by `break 'game` at examples/jacks-or-better.rs:37 or 53 -/
  | quit (credits : Nat) (deck hand : List Card)
  /-- left by `break 'game` at examples/jacks-or-better.rs:94 -/
  | over (credits : Nat) (deck hand : List Card)

/-- What the outside supplies to a step: the line, the draws of the two shuffles the step may make,
and the iteration order of a hash map. -/
structure Input where
  line : Option Str
  drawSwap : Nat → Nat
  drawRound : Nat → Nat
  order : List (Nat × Nat) → List (Nat × Nat)

/-- The five cards and the result, as printed at examples/jacks-or-better.rs:46-49 and 64-67. -/
def handLine (hand : List Card) (e : Eval) : Exec Str := do
  let c0 ← idx hand 0
  let c1 ← idx hand 1
  let c2 ← idx hand 2
  let c3 ← idx hand 3
  let c4 ← idx hand 4
  return c0.display ++ ' ' :: c1.display ++ ' ' :: c2.display ++ ' ' :: c3.display
    ++ ' ' :: c4.display ++ " (".toList ++ e.display ++ ")".toList

/-- The second line of examples/jacks-or-better.rs:47. -/
def numbersLine : Str := " (1)    (2)    (3)    (4)    (5)".toList

/-- examples/jacks-or-better.rs:20-35: set up, and run to the first `readline`. -/
def start (draw : Nat → Nat) : Exec (Evaluator × State × List Str) := do
  let eval ← Evaluator.new
  let deck ← Deck.shuffled_with draw
  return (eval, .wager STARTING_CREDITS deck [], [wagerMessage STARTING_CREDITS])

/-- examples/jacks-or-better.rs:40-52: from an accepted wager to the `readline` of `get_swaps`. -/
def afterWager (eval : Evaluator) (credits wager : Nat) (deck hand : List Card) :
    Exec (State × List Str) := do
  let credits ← usizeSub credits wager
  let (drained, deck) ← drainFront 5 deck
  let hand := hand ++ drained
  let first_eval ← unwrap (← eval.evaluate hand)
  let line ← handLine hand first_eval
  return (.swaps credits wager first_eval deck hand, [line, numbersLine, swapsMessage])

/-- examples/jacks-or-better.rs:57-60: replace the swaps in the hand, if there are any. -/
def replace (draw : Nat → Nat) (swaps : List Nat) (deck hand : List Card) :
    Exec (List Card × List Card) :=
  if !swaps.isEmpty then swap_cards draw swaps deck hand else .ok (deck, hand)

/-- examples/jacks-or-better.rs:84-86: the credits after the winnings. -/
def collect (credits wager winnings : Nat) : Exec Nat :=
  if winnings > 0 then do usizeAdd credits (← usizeAdd wager winnings) else .ok credits

/-- examples/jacks-or-better.rs:70-78: compare the swapped hand to the first hand. -/
def compared (sec fir : EvalClass) : List Str :=
  match sec.cmp fir with
  | .gt => ["You got a better hand!".toList]
  | .lt => ["You got a worse hand...".toList]
  | .eq => []

/-- examples/jacks-or-better.rs:57-102: from accepted swaps to the next `readline` or to the end. -/
def afterSwaps (eval : Evaluator) (input : Input) (credits wager : Nat) (first_eval : Eval)
    (deck hand : List Card) (swaps : List Nat) : Exec (State × List Str) := do
  let (deck, hand) ← replace input.drawSwap swaps deck hand
  let second_eval ← unwrap (← eval.evaluate hand)
  let line ← handLine hand second_eval
  let winnings ← payout wager second_eval.class'
  let credits ← collect credits wager winnings
  let out := line :: compared second_eval.class' first_eval.class' ++ ["Winnings: ".toList ++ natStr winnings]
  if credits = 0 then
    return (.over credits deck hand, out ++ ["Game over!".toList])
  else do
    let deck := deck ++ hand
    let deck ← Deck.shuffle input.drawRound deck
    return (.wager credits deck [], out ++ [[], wagerMessage credits])

/-- One step: `readline` returns, and the program runs to the next `readline` or ends.  A program
that has ended does nothing more. -/
def step (eval : Evaluator) (input : Input) : State → Exec (State × List Str)
  | .wager credits deck hand =>
    match get_wager credits input.line with
    | .quit => .ok (.quit credits deck hand, [])
    | .again message => .ok (.wager credits deck hand, [message, wagerMessage credits])
    | .accept wager => afterWager eval credits wager deck hand
  | .swaps credits wager first_eval deck hand => do
    match ← get_swaps input.order input.line with
    | .quit => .ok (.quit credits deck hand, [])
    | .again message =>
      .ok (.swaps credits wager first_eval deck hand, [message, swapsMessage])
    | .accept swaps => afterSwaps eval input credits wager first_eval deck hand swaps
  | .quit credits deck hand => .ok (.quit credits deck hand, [])
  | .over credits deck hand => .ok (.over credits deck hand, [])

/-- The program on a history of inputs; the output of all steps is collected. -/
def run (eval : Evaluator) : List Input → State → Exec (State × List Str)
  | [], s => .ok (s, [])
  | i :: is, s => do
    let (s, out) ← step eval i s
    let (s, out') ← run eval is s
    return (s, out ++ out')

/-- The whole program: `draw` supplies the first shuffle. -/
def main (draw : Nat → Nat) (inputs : List Input) : Exec (State × List Str) := do
  let (eval, s, out) ← start draw
  let (s, out') ← run eval inputs s
  return (s, out ++ out')

end Poker.Game
