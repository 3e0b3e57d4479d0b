import Verif.Spec.Counts
import Verif.Model.Deck
import Mathlib.Data.Set.Card

/-! The random choices of one shuffle of 52 cards. -/

namespace Poker
open Rules

/-- What the random number generator may return in the 51 calls of one shuffle: a number from 0 to
`i + 1` in the call for position `i + 1`. -/
abbrev Draws := (i : Fin 51) → Fin (i.val + 2)

/-- The choices as a stream. -/
def Draws.stream (d : Draws) (i : Nat) : Nat :=
  if h : 1 ≤ i ∧ i ≤ 51 then (d ⟨i - 1, by omega⟩).val else 0

/-- The choices `d` shuffle the deck `l` so that the cards of `x`, in some order, are on top. -/
def OnTop (l : List Card) (x : Finset PCard) (d : Draws) : Prop :=
  ∃ m h, Deck.shuffle d.stream l = .ok m ∧ m.take x.card = deal h ∧ h.toFinset = x

/-- The choices `d` shuffle the deck `l` so that evaluating the first `n` cards gives a result with
the property `p`. -/
def Deals (n : Nat) (l : List Card) (p : Eval → Prop) (d : Draws) : Prop :=
  ∃ ev m e, Evaluator.new = .ok ev ∧ Deck.shuffle d.stream l = .ok m ∧
    ev.evaluate (m.take n) = .ok (.ok e) ∧ p e

/-- The number of choices with the property `q`. -/
noncomputable def ways (q : Draws → Prop) : Nat := {d | q d}.ncard

end Poker
