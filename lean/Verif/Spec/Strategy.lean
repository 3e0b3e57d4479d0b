import Verif.Spec.Game
import Verif.Spec.Counts
import Verif.Model.Game
import Verif.Spec.Odds
import Verif.Spec.Api

/-! Notions for one round of the game played by a rule. -/

namespace Poker

namespace Rules

/-- The cards of the hand that stay when those at the positions `s` (from zero) are changed. -/
def kept (h : List PCard) (s : List Nat) : Finset PCard :=
  pack.filter (fun c => ∃ i < h.length, i ∉ s ∧ h[i]? = some c)

/-- A rule to play by: change nothing if the hand pays; otherwise change every card whose value occurs
only once (all five, or the three beside a low pair). -/
def advice (h : List PCard) : List Nat :=
  if 0 < odds h then []
  else (List.range h.length).filter (fun i => (values h).count ((values h).getD i 0) == 1)

end Rules

namespace Game

/-- The credits in a state in which nothing is at stake. -/
def State.credits : State → Nat
  | .wager c _ _ => c
  | .swaps c _ _ _ _ => c
  | .quit c _ _ => c
  | .over c _ _ => c

end Game

open Rules Game

/-- The new hand after cards have been changed gets a result with the property `q`. -/
def Changes (ev : Evaluator) (s : List Nat) (h g : List PCard) (q : Eval → Prop) (d : Draws) : Prop :=
  ∃ deck hand e, swap_cards d.stream s (deal g) (deal h) = .ok (deck, hand) ∧
    ev.evaluate hand = .ok (.ok e) ∧ q e

/-- One round: the deck is shuffled by `d₁`, the line of `bet` makes the wager, and the line of the
choice for the hand that is dealt names the cards to change, for which the deck is shuffled by `d₂`.
Afterwards there are `c'` credits. -/
def Round (ev : Evaluator) (l : List Card) (c : Nat) (bet : Input) (choice : List PCard → Input)
    (d₁ d₂ : Draws) (c' : Nat) : Prop :=
  ∃ m s out h t out', Deck.shuffle d₁.stream l = .ok m ∧
    Game.step ev bet (.wager c m []) = .ok (s, out) ∧ deal h = m.take 5 ∧
    Game.step ev { choice h with drawSwap := d₂.stream } s = .ok (t, out') ∧ t.credits = c'

end Poker
