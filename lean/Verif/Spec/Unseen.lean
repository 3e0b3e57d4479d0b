import Verif.Spec.Next

/-! One's own cards and the board are known; an opponent holds cards that are not seen. -/

namespace Poker
open Rules

/-- The result of the `k` cards after the first `n` of the deck, together with the board, has the property `p`. -/
def Opponent (n k : Nat) (board : List PCard) (p : Eval → Prop) (m : List Card) : Prop :=
  ∃ e, (do let ev ← Evaluator.new; ev.evaluate ((m.drop n).take k ++ deal board)) = .ok (.ok e) ∧ p e

/-- The number of ways to give an opponent `k` cards, one after the other, none of them seen, such that their
result with the board has the property `p`. -/
noncomputable def holdings (own board : List PCard) (k : Nat) (p : Eval → Prop) : Nat :=
  {r : List PCard | r.length = k ∧ (∀ c ∈ r, c ∉ own ∧ c ∉ board) ∧
    ∃ e, evaluateHand (r ++ board) = .ok (.ok e) ∧ p e}.ncard

end Poker
