import Verif.Spec.Rules

/-! How many different results hands of a given number of cards can have. -/

namespace Poker.Rules

/-- How many different results `n` cards can have, from 5 to 52 cards, for each category (high card,
pair, two pair, three of a kind, straight, flush, full house, four of a kind, straight flush).  Other
numbers of cards have no result. -/
def results (n : Nat) : List Nat :=
  match n with
  | 5 => [1277, 2860, 858, 858, 10, 1277, 156, 156, 10]
  | 6 => [770, 2135, 846, 715, 10, 1277, 156, 156, 10]
  | 7 => [407, 1470, 763, 575, 10, 1277, 156, 156, 10]
  | 8 => [156, 833, 726, 406, 10, 1277, 156, 155, 10]
  | 9 => [51, 453, 639, 273, 10, 1277, 156, 143, 10]
  | 10 => [14, 235, 589, 193, 10, 1277, 156, 143, 10]
  | 11 => [1, 74, 485, 108, 10, 1277, 156, 142, 10]
  | 12 => [0, 11, 423, 41, 10, 1277, 156, 141, 10]
  | 13 => [0, 0, 309, 11, 10, 1277, 156, 130, 10]
  | 14 => [0, 0, 240, 0, 10, 1277, 156, 129, 10]
  | 15 => [0, 0, 159, 0, 10, 1277, 156, 128, 10]
  | 16 => [0, 0, 113, 0, 10, 1277, 156, 127, 10]
  | 17 => [0, 0, 0, 0, 0, 1277, 155, 111, 10]
  | 18 => [0, 0, 0, 0, 0, 1277, 142, 111, 10]
  | 19 => [0, 0, 0, 0, 0, 1265, 140, 111, 10]
  | 20 => [0, 0, 0, 0, 0, 1251, 127, 106, 10]
  | 21 => [0, 0, 0, 0, 0, 1224, 124, 91, 10]
  | 22 => [0, 0, 0, 0, 0, 1185, 111, 91, 10]
  | 23 => [0, 0, 0, 0, 0, 1130, 107, 86, 10]
  | 24 => [0, 0, 0, 0, 0, 1032, 94, 85, 10]
  | 25 => [0, 0, 0, 0, 0, 838, 89, 78, 10]
  | 26 => [0, 0, 0, 0, 0, 519, 76, 73, 10]
  | 27 => [0, 0, 0, 0, 0, 0, 70, 72, 10]
  | 28 => [0, 0, 0, 0, 0, 0, 57, 71, 10]
  | 29 => [0, 0, 0, 0, 0, 0, 51, 60, 10]
  | 30 => [0, 0, 0, 0, 0, 0, 40, 59, 10]
  | 31 => [0, 0, 0, 0, 0, 0, 35, 58, 10]
  | 32 => [0, 0, 0, 0, 0, 0, 26, 52, 10]
  | 33 => [0, 0, 0, 0, 0, 0, 22, 41, 10]
  | 34 => [0, 0, 0, 0, 0, 0, 15, 41, 10]
  | 35 => [0, 0, 0, 0, 0, 0, 12, 36, 10]
  | 36 => [0, 0, 0, 0, 0, 0, 7, 31, 10]
  | 37 => [0, 0, 0, 0, 0, 0, 5, 26, 10]
  | 38 => [0, 0, 0, 0, 0, 0, 2, 21, 10]
  | 39 => [0, 0, 0, 0, 0, 0, 1, 16, 10]
  | 40 => [0, 0, 0, 0, 0, 0, 0, 15, 10]
  | 41 => [0, 0, 0, 0, 0, 0, 0, 7, 10]
  | 42 => [0, 0, 0, 0, 0, 0, 0, 3, 10]
  | 43 => [0, 0, 0, 0, 0, 0, 0, 2, 10]
  | 44 => [0, 0, 0, 0, 0, 0, 0, 1, 10]
  | 45 => [0, 0, 0, 0, 0, 0, 0, 0, 6]
  | 46 => [0, 0, 0, 0, 0, 0, 0, 0, 6]
  | 47 => [0, 0, 0, 0, 0, 0, 0, 0, 6]
  | 48 => [0, 0, 0, 0, 0, 0, 0, 0, 6]
  | 49 => [0, 0, 0, 0, 0, 0, 0, 0, 1]
  | 50 => [0, 0, 0, 0, 0, 0, 0, 0, 1]
  | 51 => [0, 0, 0, 0, 0, 0, 0, 0, 1]
  | 52 => [0, 0, 0, 0, 0, 0, 0, 0, 1]
  | _ => []

/-- How many different results 0, 1, 2, … cards can have: the sums of `results`. -/
def totals : List Nat :=
  [0, 0, 0, 0, 0, 7462, 6075, 4824, 3729, 3012, 2627, 2263, 2069, 1903, 1822, 1740, 1693, 1553, 1540,
    1526, 1494, 1449, 1397, 1333, 1221, 1015, 678, 152, 138, 121, 109, 103, 88, 73, 66, 58, 48, 41, 33,
    27, 25, 17, 13, 12, 11, 6, 6, 6, 6, 1, 1, 1, 1]

end Poker.Rules
