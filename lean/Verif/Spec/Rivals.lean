import Verif.Spec.Counts
import Mathlib.Data.Finset.Prod

/-! Five cards against five other cards of the same pack. -/

namespace Poker
open Rules

/-- The number of different suits. -/
def suitsIn (h : List PCard) : Nat := (h.map (·.2)).dedup.length

open Classical in
/-- The number of hands of five of the cards that are not in `h`, whose result has the property `p`. -/
noncomputable def rivals (h : List PCard) (p : Eval → Prop) : Nat :=
  (((pack \ h.toFinset).powersetCard 5).filter (Gets p)).card

open Classical in
/-- The number of pairs of elements of `s` that are related. -/
noncomputable def pairsOf {α : Type} (s : Finset α) (R : α → α → Prop) : Nat :=
  ((s ×ˢ s).filter (fun q => R q.1 q.2)).card

/-- The number of pairs of hands of five cards, without a card in common, whose results have the property `p`. -/
noncomputable def pairsWith (p : Eval → Eval → Prop) : Nat :=
  pairsOf fiveCardHands (fun x y => Disjoint x y ∧ ∃ e, Gets (· = e) x ∧ Gets (p e) y)

/-- How many hands of five other cards are worth as much as one of this class with cards of `k` suits. -/
def rivalTies (k : Nat) : EvalClass → Nat
  | .HighCard _ => 239 + k
  | .Pair _ => 27
  | .TwoPair _ _ => 3
  | .ThreeOfAKind _ => 0
  | .Straight _ => 239 + k
  | .Flush _ => 3
  | .FullHouse _ _ => 0
  | .FourOfAKind _ => 0
  | .StraightFlush _ => 3

end Poker
