import Verif.Spec.Categories

/-! What shared cards allow: two cards of one's own are added to three, four or five cards on the board.
Only the cards on the board are looked at. -/

namespace Poker.Rules

/-- Three of five consecutive values are there (the ace also plays as one). -/
def threeToStraight (vs : List Nat) : Bool :=
  straightTops.any (fun t => decide (3 ≤ [t, t - 1, t - 2, t - 3, t - 4].countP (plays vs)))

/-- What has to be on the board so that some two further cards make a hand of the category. -/
def allows (b : List PCard) : Nat → Bool
  | 8 => suits.any (fun s => threeToStraight (values (ofSuit s b)))
  | 7 => hasPair b
  | 6 => hasPair b && !hasQuads b
  | 5 => suits.any (fun s => decide (3 ≤ (ofSuit s b).length)) && !hasStraightFlush b
  | 4 => threeToStraight (values b) && !hasFlush b
  | 3 => !hasQuads b && !hasTwoPair b && !hasFlush b && !hasStraight b
  | 2 => !hasTrips b && !hasFlush b && !hasStraight b
  | 1 => !hasTrips b && !hasTwoPair b && !hasFlush b && !hasStraight b
  | 0 => !hasPair b && !hasFlush b && !hasStraight b
  | _ => false

end Poker.Rules
