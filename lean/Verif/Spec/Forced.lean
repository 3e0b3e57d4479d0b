/-! With how many cards each category is possible. -/

namespace Poker.Rules

/-- The largest number of different cards whose best hand is of the category: 11 for high card, 12 for
a pair, 16 for two pair, 13 for three of a kind, 16 for a straight, 26 for a flush, 39 for a full house,
44 for four of a kind, 52 for a straight flush. -/
def mostCards (category : Nat) : Nat := [11, 12, 16, 13, 16, 26, 39, 44, 52].getD category 0

end Poker.Rules
