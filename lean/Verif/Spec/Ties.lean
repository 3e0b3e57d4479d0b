import Verif.Model.Types

/-! How many five-card hands are worth the same, and how many less. -/

namespace Poker

/-- The number of five-card hands that are worth exactly as much as one with this class. -/
def tied : EvalClass → Nat
  | .HighCard _ => 1020
  | .Pair _ => 384
  | .TwoPair _ _ => 144
  | .ThreeOfAKind _ => 64
  | .Straight _ => 1020
  | .Flush _ => 4
  | .FullHouse _ _ => 24
  | .FourOfAKind _ => 4
  | .StraightFlush _ => 4

/-- The categories from the best down: how many different results each has, and how many hands each of
these. -/
def steps : List (Nat × Nat) :=
  [(10, 4), (156, 4), (156, 24), (1277, 4), (10, 1020), (858, 64), (858, 144), (2860, 384), (1277, 1020)]

/-- The number of hands with one of the first `n` results. -/
def upTo : List (Nat × Nat) → Nat → Nat
  | [], _ => 0
  | (k, m) :: rest, n => min k n * m + upTo rest (n - k)

end Poker
