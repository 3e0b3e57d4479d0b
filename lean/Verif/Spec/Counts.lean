import Verif.Spec.Api
import Mathlib.Data.Finset.Powerset

/-! The hands that can be dealt, as sets of cards. -/

namespace Poker
open Rules

/-- The 52 cards. -/
def pack : Finset PCard :=
  ([Rank.Two, .Three, .Four, .Five, .Six, .Seven, .Eight, .Nine, .Ten, .Jack, .Queen, .King,
    .Ace].flatMap (fun r => [(r, Suit.Clubs), (r, .Diamonds), (r, .Hearts), (r, .Spades)])).toFinset

/-- The set of the five-card hands. -/
def fiveCardHands : Finset (Finset PCard) := pack.powersetCard 5

/-- Evaluating the cards of `x`, in some order, gives a result with the property `p`. -/
def Gets (p : Eval → Prop) (x : Finset PCard) : Prop :=
  ∃ h : List PCard, h.Nodup ∧ h.toFinset = x ∧ ∃ e, evaluateHand h = .ok (.ok e) ∧ p e

open Classical in
/-- The number of five-card hands whose result has the property `p`. -/
noncomputable def handsWith (p : Eval → Prop) : Nat := (fiveCardHands.filter (Gets p)).card

open Classical in
/-- The number of sets of `n` cards whose result has the property `p`. -/
noncomputable def handsOf (n : Nat) (p : Eval → Prop) : Nat :=
  ((pack.powersetCard n).filter (Gets p)).card

end Poker
