import Verif.Spec.Categories

/-! What a hand of any number of cards is worth, read off the cards themselves, with every value that
decides among hands of one category.  As in `Categories`, no choice of five cards is involved. -/

namespace Poker.Rules

/-- The values that occur at least `m` times, best first. -/
def atLeast (m : Nat) (vs : List Nat) : List Nat :=
  allValues.filter (fun v => decide (m ≤ vs.count v))

/-- The best `n` values that occur at least `m` times, then the best `n'` other values that occur at
least `m'` times. -/
def highest (m n m' n' : Nat) (vs : List Nat) : List Nat :=
  let a := (atLeast m vs).take n
  a ++ ((atLeast m' vs).filter (fun v => !a.contains v)).take n'

/-- The better of two lists of deciding values. -/
def better (a b : List Nat) : List Nat := if cmpList b a = .gt then b else a

/-- The category of a hand and the values that decide among hands of the category:
* straight flush: the highest top of a straight in one suit;
* four of a kind: the highest value held four times, the highest other value;
* full house: the highest value held three times, the highest other value held twice;
* flush: the best five values of a suit held five times, of the best such suit;
* straight: its top;
* three of a kind: the highest value held three times, the two highest other values;
* two pair: the two highest values held twice, the highest other value;
* pair: the highest value held twice, the three highest other values;
* high card: the five highest values. -/
def bestWorth (h : List PCard) : Nat × List Nat :=
  match category h with
  | 8 => (8, [(suits.filterMap (fun s => straightTop (values (ofSuit s h)))).foldl max 0])
  | 7 => (7, highest 4 1 1 1 (values h))
  | 6 => (6, highest 3 1 2 1 (values h))
  | 5 => (5, ((suits.filter (fun s => decide (5 ≤ (ofSuit s h).length))).map
      (fun s => highest 1 5 0 0 (values (ofSuit s h)))).foldl better [])
  | 4 => (4, [(straightTop (values h)).getD 0])
  | 3 => (3, highest 3 1 1 2 (values h))
  | 2 => (2, highest 2 2 1 1 (values h))
  | 1 => (1, highest 2 1 1 3 (values h))
  | _ => (0, highest 1 5 0 0 (values h))

/-- The part of a worth that the name of the hand tells: the category, with both values of a full house
or two pair and the first value of any other hand. -/
def told (w : Nat × List Nat) : Nat × List Nat :=
  (w.1, w.2.take (if w.1 = 6 ∨ w.1 = 2 then 2 else 1))

end Poker.Rules
