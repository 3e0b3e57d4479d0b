import Verif.Model.Evaluation

/-! Model of the `Display` impls of `src/error.rs`. -/

namespace Poker

/-- Decimal rendering of a `usize`. -/
def natStr (n : Nat) : Str := Nat.toDigits 10 n

/-- `str::len`: the length in bytes of the UTF-8 encoding. -/
def byteLen (s : Str) : Nat := (s.map Char.utf8Size).sum

/-- src/error.rs:100-129, `Display for ParseCardError`. -/
def ParseCardError.display : ParseCardError → Str
  | .InvalidLength original_input =>
    "Error parsing input '".toList ++ original_input
      ++ "' as a Card: Found input of length ".toList ++ natStr (byteLen original_input)
      ++ ", expected 2".toList
  | .InvalidRank original_input incorrect_char =>
    "Error parsing input '".toList ++ original_input
      ++ "' as a Card: Invalid rank character '".toList ++ [incorrect_char]
      ++ "', expected one of [23456789TJQKA]".toList
  | .InvalidSuit original_input incorrect_char =>
    "Error parsing input '".toList ++ original_input
      ++ "' as a Card: Invalid suit character '".toList ++ [incorrect_char]
      ++ "', expected one of [chsd]".toList

/-- `Itertools::counts` (called at src/error.rs:193): every distinct item with its number of
occurrences.  It returns a `HashMap`, whose iteration order is unspecified: `order` is an arbitrary
rearrangement applied to the list of entries. -/
def counts {α : Type} [BEq α] (order : List (α × Nat) → List (α × Nat)) (items : List α) :
    List (α × Nat) :=
  order (items.eraseDups.map (fun a => (a, items.count a)))

/-- `[String]::join(" ")`. -/
def joinSpace : List Str → Str
  | [] => []
  | [s] => s
  | s :: t :: rest => s ++ ' ' :: joinSpace (t :: rest)

/-- src/error.rs:191-203: the names of the duplicated cards. -/
def dupNames (order : List (Card × Nat) → List (Card × Nat)) (cards : List Card) : List Str :=
  (counts order cards).filterMap
    (fun (card, count) => if count > 1 then some card.rank_suit_string else none)

/-- src/error.rs:187-219, `Display for EvalError`. -/
def EvalError.display (order : List (Card × Nat) → List (Card × Nat)) : EvalError → Str
  | .CardsNotUnique cards =>
    "Cannot evaluate a poker hand with a set of cards that are not unique. Cards duplicated at least once: ".toList
      ++ joinSpace (dupNames order cards)
  | .InvalidHandSize size =>
    "Cannot evaluate a poker hand with a set of less than 5 cards. Number of cards received: ".toList
      ++ natStr size

end Poker
