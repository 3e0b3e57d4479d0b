import Verif.Spec.Board
import Verif.Spec.Counts

/-! One more card: which categories a hand can turn into, and how many of the other cards ("outs") turn
it into a better one.  Only the cards at hand are looked at. -/

namespace Poker.Rules

/-- What a hand of `n` cards of a category can be after one more card. -/
def becomes (n : Nat) : Nat → List Nat
  | 0 => [0, 1, 4, 5, 8]
  | 1 => [1, 2, 3, 4, 5, 8]
  | 2 => if n ≤ 5 then [2, 6] else [2, 4, 5, 6, 8]
  | 3 => if n ≤ 5 then [3, 6, 7] else [3, 4, 5, 6, 7, 8]
  | 4 => if n ≤ 6 then [4, 5, 8] else [4, 5, 6, 7, 8]
  | 5 => if n ≤ 6 then [5, 8] else [5, 6, 7, 8]
  | 6 => if n ≤ 6 then [6, 7] else [6, 7, 8]
  | 7 => if n ≤ 6 then [7] else [7, 8]
  | 8 => [8]
  | _ => []

/-- How many values complete a straight. -/
def completing (vs : List Nat) : Nat := allValues.countP (fun v => (straightTop (v :: vs)).isSome)

/-- How many values occur exactly `m` times. -/
def times (m : Nat) (h : List PCard) : Nat := allValues.countP (fun v => (values h).count v == m)

/-- Four cards of one suit. -/
def flushDraw (h : List PCard) : Bool := suits.any (fun s => (ofSuit s h).length == 4)

/-- With four cards of one suit, how many values that occur exactly `m` times are missing in this suit: a
further card of the suit and of such a value makes a flush and nothing less. -/
def lost (m : Nat) (h : List PCard) : Nat :=
  (suits.map (fun s => if (ofSuit s h).length == 4 then
    allValues.countP (fun v => (values h).count v == m && !(values (ofSuit s h)).contains v) else 0)).sum

/-- How many further cards make a hand of five or six cards, of a lower category, one of the category. -/
def outs (h : List PCard) : Nat → Nat
  | 8 => (suits.map (fun s => completing (values (ofSuit s h)))).sum
  | 7 => times 3 h
  | 6 => if hasTrips h then 3 * times 1 h else if hasTwoPair h then 2 * times 2 h else 0
  | 5 => if flushDraw h then 9 - (suits.map (fun s => completing (values (ofSuit s h)))).sum else 0
  | 4 => (if flushDraw h then 3 else 4) * completing (values h)
  | 3 => if hasPair h && !hasTwoPair h then 2 - lost 2 h else 0
  | 2 => if hasPair h && !hasTwoPair h then 3 * (h.length - 2) - lost 1 h else 0
  | 1 => 3 * h.length - lost 1 h
  | _ => 0

end Poker.Rules

namespace Poker
open Rules

open Classical in
/-- The number of cards of the pack that make, with the cards of `h`, a hand whose result has the property `p`. -/
noncomputable def further (h : List PCard) (p : Eval → Prop) : Nat :=
  (pack.filter (fun c => ∃ e, evaluateHand (c :: h) = .ok (.ok e) ∧ p e)).card

end Poker
