import Verif.Spec.Rules

/-! Independent notions for the text forms of cards: the documented characters, white space, and the
words of a string. -/

namespace Poker.Text

/-- The documented rank characters, two to ace. -/
def rankChars : List Char := ['2', '3', '4', '5', '6', '7', '8', '9', 'T', 'J', 'Q', 'K', 'A']

/-- The character of a rank. -/
def rankChar (r : Rank) : Char := rankChars.getD (Rules.pips r - 2) ' '

/-- The documented suit characters. -/
def suitChars : List Char := ['c', 'h', 's', 'd']

/-- The character of a suit: its initial in lower case. -/
def suitChar : Suit → Char
  | .Clubs => 'c'
  | .Hearts => 'h'
  | .Spades => 's'
  | .Diamonds => 'd'

/-- The symbol of a suit. -/
def suitSymbol : Suit → Char
  | .Clubs => '♣'
  | .Hearts => '♥'
  | .Spades => '♠'
  | .Diamonds => '♦'

/-- The English names of the ranks, two to ace. -/
def rankWords : List String :=
  ["two", "three", "four", "five", "six", "seven", "eight", "nine", "ten", "jack", "queen", "king",
    "ace"]

/-- The name of a rank. -/
def rankWord (r : Rank) : List Char := (rankWords.getD (Rules.pips r - 2) "").toList

/-- The English plural of a name: with "es" after an x and "s" otherwise. -/
def plural (w : List Char) : List Char := w ++ (if w.getLast? = some 'x' then ['e', 's'] else ['s'])

/-- The text of a class: its English name and the ranks that matter, in the plural where more than
one card is meant. -/
def describe : EvalClass → List Char
  | .HighCard r => "High card, ".toList ++ rankWord r
  | .Pair r => "Pair, ".toList ++ plural (rankWord r)
  | .TwoPair r q =>
    "Two pair, ".toList ++ plural (rankWord r) ++ " and ".toList ++ plural (rankWord q)
  | .ThreeOfAKind r => "Three of a kind, ".toList ++ plural (rankWord r)
  | .Straight r => "Straight, ".toList ++ rankWord r ++ "-high".toList
  | .Flush r => "Flush, ".toList ++ rankWord r ++ "-high".toList
  | .FullHouse r q =>
    "Full house, ".toList ++ plural (rankWord r) ++ " over ".toList ++ plural (rankWord q)
  | .FourOfAKind r => "Four of a kind, ".toList ++ plural (rankWord r)
  | .StraightFlush r =>
    if r = .Ace then "Royal flush".toList
    else "Straight flush, ".toList ++ rankWord r ++ "-high".toList

/-- The code points with the Unicode property `White_Space`. -/
def whiteCodes : List Nat :=
  [0x9, 0xA, 0xB, 0xC, 0xD, 0x20, 0x85, 0xA0, 0x1680, 0x2000, 0x2001, 0x2002, 0x2003, 0x2004,
    0x2005, 0x2006, 0x2007, 0x2008, 0x2009, 0x200A, 0x2028, 0x2029, 0x202F, 0x205F, 0x3000]

/-- `c` is white space. -/
def White (c : Char) : Prop := c.toNat ∈ whiteCodes

/-- `Words ws s`: the maximal runs of non-white characters of `s` are `ws`, in order. -/
inductive Words : List (List Char) → List Char → Prop
  /-- a string of white space has no words -/
  | nil (s : List Char) : (∀ c ∈ s, White c) → Words [] s
  /-- some white space, then a word that ends where the string ends or white space follows -/
  | cons (lead w s : List Char) (ws : List (List Char)) :
      (∀ c ∈ lead, White c) → w ≠ [] → (∀ c ∈ w, ¬ White c) →
      (∀ c, s.head? = some c → White c) → Words ws s → Words (w :: ws) (lead ++ w ++ s)

/-- `d` is a decimal numeral for `n`. -/
def Numeral (d : List Char) (n : Nat) : Prop :=
  d ≠ [] ∧ (∀ c ∈ d, '0' ≤ c ∧ c ≤ '9') ∧ d.foldl (fun a c => 10 * a + (c.toNat - 48)) 0 = n

end Poker.Text
