import Verif.Model.Types

/-!
# The rules of poker

An independent statement of what five-card hands are worth.  It uses only the names of the ranks and
suits and of the classes (`EvalClass`) from the model, and none of the model's functions: no
integer encoding, primes, bit patterns, rank numbers or tables.

A playing card is a pair of a rank and a suit; a hand is a list of playing cards.
-/

namespace Poker.Rules

/-- A playing card. -/
abbrev PCard := Rank × Suit

/-- The pip value of a rank: two is 2, ..., ten is 10, jack 11, queen 12, king 13, ace 14. -/
def pips : Rank → Nat
  | .Two => 2
  | .Three => 3
  | .Four => 4
  | .Five => 5
  | .Six => 6
  | .Seven => 7
  | .Eight => 8
  | .Nine => 9
  | .Ten => 10
  | .Jack => 11
  | .Queen => 12
  | .King => 13
  | .Ace => 14

/-- The pip values of a hand. -/
def values (h : List PCard) : List Nat := h.map (fun c => pips c.1)

/-- All cards are of one suit. -/
def flush (h : List PCard) : Bool :=
  [Suit.Clubs, Suit.Diamonds, Suit.Hearts, Suit.Spades].any (fun s => h.all (fun c => c.2 == s))

/-- `v` occurs among the values; the ace (14) also plays as 1. -/
def plays (vs : List Nat) (v : Nat) : Bool := vs.contains v || (v == 1 && vs.contains 14)

/-- The possible highest values of a straight, best first: ace-high down to five-high. -/
def straightTops : List Nat := [14, 13, 12, 11, 10, 9, 8, 7, 6, 5]

/-- The highest value of the best straight among the values, if there is one: five consecutive
values `t, t-1, t-2, t-3, t-4`. -/
def straightTop (vs : List Nat) : Option Nat :=
  straightTops.find? (fun t => [t, t - 1, t - 2, t - 3, t - 4].all (plays vs))

/-- All pip values, best first. -/
def allValues : List Nat := [14, 13, 12, 11, 10, 9, 8, 7, 6, 5, 4, 3, 2]

/-- The distinct values that occur, those that occur more often first, and higher values first among
those that occur equally often.  This is the order in which hands of one category are compared. -/
def grouped (vs : List Nat) : List Nat :=
  [4, 3, 2, 1].flatMap (fun m => allValues.filter (fun v => vs.count v == m))

/-- How often the values of `grouped` occur, e.g. `[3, 2]` for a full house. -/
def shape (vs : List Nat) : List Nat := (grouped vs).map (fun v => vs.count v)

/-- The worth of five values, given whether the cards are of one suit: the category (8 straight
flush, 7 four of a kind, 6 full house, 5 flush, 4 straight, 3 three of a kind, 2 two pair, 1 pair,
0 high card) and the values that decide among hands of the category, most important first. -/
def worth (fl : Bool) (vs : List Nat) : Nat × List Nat :=
  match straightTop vs, fl with
  | some t, true => (8, [t])
  | st, _ =>
    if shape vs = [4, 1] then (7, grouped vs)
    else if shape vs = [3, 2] then (6, grouped vs)
    else if fl then (5, grouped vs)
    else match st with
      | some t => (4, [t])
      | none =>
        if shape vs = [3, 1, 1] then (3, grouped vs)
        else if shape vs = [2, 2, 1] then (2, grouped vs)
        else if shape vs = [2, 1, 1, 1] then (1, grouped vs)
        else (0, grouped vs)

/-- The worth of a five-card hand. -/
def strength (h : List PCard) : Nat × List Nat := worth (flush h) (values h)

/-- Lexicographic comparison of tie-break values. -/
def cmpList : List Nat → List Nat → Ordering
  | [], [] => .eq
  | [], _ :: _ => .lt
  | _ :: _, [] => .gt
  | a :: as, b :: bs => (compare a b).then (cmpList as bs)

/-- Comparison of worths: category first, then the deciding values in turn. -/
def cmpWorth (a b : Nat × List Nat) : Ordering := (compare a.1 b.1).then (cmpList a.2 b.2)

/-- `a` beats (`gt`), ties with (`eq`) or loses to (`lt`) `b`. -/
def showdown (a b : List PCard) : Ordering := cmpWorth (strength a) (strength b)

/-- `a` beats `b`. -/
def Beats (a b : List PCard) : Prop := showdown a b = .gt

/-- The rank with a given pip value. -/
def rankOf (v : Nat) : Rank :=
  match v with
  | 2 => .Two
  | 3 => .Three
  | 4 => .Four
  | 5 => .Five
  | 6 => .Six
  | 7 => .Seven
  | 8 => .Eight
  | 9 => .Nine
  | 10 => .Ten
  | 11 => .Jack
  | 12 => .Queen
  | 13 => .King
  | _ => .Ace

/-- The name of the hand as an `EvalClass`: the category, with the most important ranks. -/
def className (w : Nat × List Nat) : EvalClass :=
  let r0 := rankOf (w.2.getD 0 0)
  let r1 := rankOf (w.2.getD 1 0)
  match w.1 with
  | 8 => .StraightFlush r0
  | 7 => .FourOfAKind r0
  | 6 => .FullHouse r0 r1
  | 5 => .Flush r0
  | 4 => .Straight r0
  | 3 => .ThreeOfAKind r0
  | 2 => .TwoPair r0 r1
  | 1 => .Pair r0
  | _ => .HighCard r0

/-- The class of a five-card hand under the rules. -/
def classOf (h : List PCard) : EvalClass := className (strength h)

end Poker.Rules
