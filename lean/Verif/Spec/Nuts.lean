import Verif.Spec.Board
import Verif.Spec.Exact

/-! The best that two cards of one's own can make of a board ("the nuts"), read off the board. -/

namespace Poker.Rules

/-- The highest top of a straight of which three values are there. -/
def threeTop (vs : List Nat) : Option Nat :=
  straightTops.find? (fun t => decide (3 ≤ [t, t - 1, t - 2, t - 3, t - 4].countP (plays vs)))

/-- The highest value with a property. -/
def topValue (p : Nat → Bool) : Nat := (allValues.filter p).headD 0

/-- The two highest values that are not there. -/
def bestMissing (vs : List Nat) : List Nat := (allValues.filter (fun v => !vs.contains v)).take 2

/-- The category, and the values that decide within it, of the best hand:
* a straight flush if three cards of one suit lie within five consecutive values, with the highest top;
* else four of a kind if there is a pair, of the highest, with the highest other value of the board if both
  cards are needed, and the highest other value there is if not;
* else a flush if there are three cards of a suit, with the best two that are missing;
* else a straight if three values lie within five consecutive ones, with the highest top;
* else three of the highest value. -/
def nuts (b : List PCard) : Nat × List Nat :=
  if suits.any (fun s => threeToStraight (values (ofSuit s b))) then
    (8, [(suits.filterMap (fun s => threeTop (values (ofSuit s b)))).foldl max 0])
  else if hasPair b then
    let v := topValue (fun v => decide (2 ≤ (values b).count v))
    (7, [v, topValue (fun u => u != v && ((values b).count v != 2 || (values b).contains u))])
  else
    match suits.find? (fun s => decide (3 ≤ (ofSuit s b).length)) with
    | some s => (5, (allValues.filter (fun v => (values (ofSuit s b)).contains v ||
        (bestMissing (values (ofSuit s b))).contains v)).take 5)
    | none =>
      match threeTop (values b) with
      | some t => (4, [t])
      | none => (3, (allValues.filter (fun v => (values b).contains v)).take 3)

end Poker.Rules
