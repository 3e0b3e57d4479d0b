import Verif.Spec.Categories
import Verif.Spec.Text

/-! Independent notions for the jacks-or-better game: which texts are numbers, and what hands pay. -/

namespace Poker.Text

/-- `s` reads as the number `n`: a decimal numeral, possibly with a plus sign in front. -/
def Reads (s : List Char) (n : Nat) : Prop := Numeral s n ∨ ∃ d, s = '+' :: d ∧ Numeral d n

end Poker.Text

namespace Poker.Rules

/-- Some value from jack to ace occurs at least twice. -/
def hasHighPair (h : List PCard) : Bool :=
  [11, 12, 13, 14].any (fun v => decide (2 ≤ (values h).count v))

/-- Ten, jack, queen, king and ace of one suit. -/
def hasRoyal (h : List PCard) : Bool :=
  suits.any (fun s => [Rank.Ten, .Jack, .Queen, .King, .Ace].all (fun r => h.contains (r, s)))

/-- What a hand pays per credit. -/
def odds (h : List PCard) : Nat :=
  if hasRoyal h then 250
  else match category h with
    | 8 => 50
    | 7 => 25
    | 6 => 9
    | 5 => 6
    | 4 => 4
    | 3 => 3
    | 2 => 2
    | 1 => if hasHighPair h then 1 else 0
    | _ => 0

/-- What a hand pays: proportional to the wager, but for a royal flush at the highest wager. -/
def prize (wager : Nat) (h : List PCard) : Nat :=
  if hasRoyal h ∧ wager = 5 then 4000 else odds h * wager

/-- The chart of the README (lines 70-80), per credit. -/
def chart (h : List PCard) : Nat :=
  if hasRoyal h then 4000
  else match category h with
    | 8 => 250
    | 7 => 25
    | 6 => 9
    | 5 => 6
    | 4 => 4
    | 3 => 3
    | 2 => 2
    | 1 => if hasHighPair h then 1 else 0
    | _ => 0

end Poker.Rules
