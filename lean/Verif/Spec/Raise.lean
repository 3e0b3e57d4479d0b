import Verif.Spec.Exact

/-! Raising every card of a hand by one rank. -/

namespace Poker.Rules

/-- The next higher rank; there is none above the ace. -/
def nextRank : Rank → Rank
  | .Two => .Three
  | .Three => .Four
  | .Four => .Five
  | .Five => .Six
  | .Six => .Seven
  | .Seven => .Eight
  | .Eight => .Nine
  | .Nine => .Ten
  | .Ten => .Jack
  | .Jack => .Queen
  | .Queen => .King
  | .King => .Ace
  | .Ace => .Ace

/-- Each card one rank higher, in the same suit. -/
def raised (h : List PCard) : List PCard := h.map (fun c => (nextRank c.1, c.2))

end Poker.Rules
