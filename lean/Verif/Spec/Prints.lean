import Verif.Spec.Game
import Verif.Spec.Exact
import Mathlib.Data.List.Forall2

/-! What the jacks-or-better game prints, in terms of playing cards, lines and numbers. -/

namespace Poker.Text
open Rules

/-- `d` is the decimal numeral for `n` without needless zeros. -/
def Decimal (d : List Char) (n : Nat) : Prop := Numeral d n ∧ (d.head? = some '0' → d = ['0'])

/-- The text of a card: rank character and suit symbol in brackets. -/
def cardText (c : PCard) : List Char := ['[', ' ', rankChar c.1, suitSymbol c.2, ' ', ']']

/-- The text of a five-card hand: its cards and the description of its class. -/
def handText (p : List PCard) : List Char :=
  [' '].intercalate (p.map cardText) ++ " (".toList ++ describe (classOf p) ++ ")".toList

/-- What is said of the new hand `p'` after the hand `p`: better or worse as far as the names of the
hands tell, or nothing. -/
def verdict (p p' : List PCard) : List (List Char) :=
  match cmpWorth (told (strength p')) (told (strength p)) with
  | .gt => ["You got a better hand!".toList]
  | .lt => ["You got a worse hand...".toList]
  | .eq => []

/-- The request for a wager with `c` credits. -/
def WagerPrompt (c : Nat) (m : List Char) : Prop :=
  ∃ d, Decimal d c ∧ m = "Enter a wager. (Credits: ".toList ++ d ++ ", max: 5)".toList

/-- The request for cards to swap. -/
def swapsPrompt : List Char := "Enter the cards' numbers you wish to swap, if any.".toList

/-- The numbers under the cards. -/
def numbers : List Char := " (1)    (2)    (3)    (4)    (5)".toList

/-- The reasons to refuse the line `s` as a wager with `c` credits, and what is said. -/
inductive RefusesWager (s : List Char) (c : Nat) : List Char → Prop
  /-- not a number that fits a word -/
  | notNumber : (∀ n, Reads s n → 2 ^ 64 ≤ n) → RefusesWager s c
      ("Invalid input '".toList ++ s ++ "'. Expected wager from 1 to 5.\n".toList)
  | zero : Reads s 0 → RefusesWager s c "Sorry, you can't bet 0 credits!\n".toList
  | tooMuch (n : Nat) (d : List Char) : Reads s n → 5 < n → n < 2 ^ 64 → Decimal d n →
      RefusesWager s c ("Invalid wager amount '".toList ++ d
        ++ "'. Expected amount from 1 to 5.\n".toList)
  | notEnough (n : Nat) (d d' : List Char) : Reads s n → n ≤ 5 → c < n → Decimal d n →
      Decimal d' c → RefusesWager s c ("Not enough credits! Got ".toList ++ d
        ++ " but you have ".toList ++ d' ++ ".\n".toList)

/-- The reasons to refuse the line `s` as a choice of cards, and what is said. -/
inductive RefusesSwaps (s : List Char) : List Char → Prop
  /-- some word is not a number that fits a word -/
  | notNumbers (ws : List (List Char)) : Words ws s → (∃ w ∈ ws, ∀ n, Reads w n → 2 ^ 64 ≤ n) →
      RefusesSwaps s ("Error parsing input '".toList ++ s
        ++ "'. Expected space-separated list of card numbers to swap.\n".toList)
  | outOfRange (ws : List (List Char)) (ns : List Nat) : Words ws s → List.Forall₂ Reads ws ns →
      (∀ n ∈ ns, n < 2 ^ 64) → (∃ n ∈ ns, n = 0 ∨ 5 < n) →
      RefusesSwaps s ("Error parsing input '".toList ++ s
        ++ "'. Not all listed numbers are between 1 and 5.\n".toList)
  | tooMany (ws : List (List Char)) (ns : List Nat) : Words ws s → List.Forall₂ Reads ws ns →
      (∀ n ∈ ns, 1 ≤ n ∧ n ≤ 5) → 5 < ns.length →
      RefusesSwaps s ("Error parsing input '".toList ++ s
        ++ "'. Specified more than 5 cards to swap.\n".toList)
  /-- `dups` are the numbers given more than once, in some order -/
  | twice (ws : List (List Char)) (ns dups : List Nat) (ds : List (List Char)) : Words ws s →
      List.Forall₂ Reads ws ns → (∀ n ∈ ns, 1 ≤ n ∧ n ≤ 5) → ns.length ≤ 5 → dups ≠ [] →
      dups.Nodup → (∀ n, n ∈ dups ↔ 2 ≤ ns.count n) → List.Forall₂ Decimal ds dups →
      RefusesSwaps s ("Cannot provide duplicate cards to swap: ".toList ++ [' '].intercalate ds
        ++ ".\n".toList)

end Poker.Text
