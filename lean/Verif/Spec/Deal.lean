import Verif.Spec.Rules
import Verif.Model.Card

/-! Playing cards as values of `Card`. -/

namespace Poker

/-- The `Card` values of a list of playing cards, as made by the public constructor `Card::new`.
`Card`'s field is private, so every list of cards a caller can build is of this form. -/
def deal (h : List Rules.PCard) : List Card := h.map (fun p => Card.new p.1 p.2)

end Poker
