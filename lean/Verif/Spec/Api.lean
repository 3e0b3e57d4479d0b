import Verif.Spec.Deal
import Verif.Model.Evaluation

/-! The calls the property theorems speak about. -/

namespace Poker

/-- `Evaluator::new().evaluate(cards)` for the cards of `h`. -/
def evaluateHand (h : List Rules.PCard) : Exec (Except EvalError Eval) := do
  let ev ← Evaluator.new
  ev.evaluate (deal h)

/-- `d` is a choice of five different cards from `h`, in any order. -/
def FiveOf (d h : List Rules.PCard) : Prop := d.Nodup ∧ d.length = 5 ∧ ∀ c ∈ d, c ∈ h

end Poker
