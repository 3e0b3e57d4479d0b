import Verif.Spec.Seats
import Verif.Spec.Outs

/-! Some cards from the top of a shuffled deck are known: what may the next ones bring? -/

namespace Poker
open Rules

/-- The cards on top of the deck are those of `h`, in this order. -/
def Begins (h : List PCard) (m : List Card) : Prop := m.take h.length = deal h

/-- The result of the first `n` cards of a deck has the property `p`. -/
def Top (n : Nat) (p : Eval → Prop) (m : List Card) : Prop :=
  ∃ e, (do let ev ← Evaluator.new; ev.evaluate (m.take n)) = .ok (.ok e) ∧ p e

/-- The number of ways to go on with `k` cards, one after the other, such that the result of all cards has the
property `p`. -/
noncomputable def continuations (h : List PCard) (k : Nat) (p : Eval → Prop) : Nat :=
  {r : List PCard | r.length = k ∧ ∃ e, evaluateHand (h ++ r) = .ok (.ok e) ∧ p e}.ncard

end Poker
