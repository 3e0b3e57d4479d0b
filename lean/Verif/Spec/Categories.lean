import Verif.Spec.Rules

/-! The category of a hand of any number of cards, read off the cards themselves: which suits, how
often each value occurs, and which values are consecutive.  No choice of five cards is involved. -/

namespace Poker.Rules

/-- The suits. -/
def suits : List Suit := [.Clubs, .Hearts, .Spades, .Diamonds]

/-- The cards of one suit. -/
def ofSuit (s : Suit) (h : List PCard) : List PCard := h.filter (fun c => c.2 == s)

/-- Five consecutive values (the ace also plays as one) in one suit. -/
def hasStraightFlush (h : List PCard) : Bool :=
  suits.any (fun s => (straightTop (values (ofSuit s h))).isSome)

/-- Some value occurs four times. -/
def hasQuads (h : List PCard) : Bool := allValues.any (fun v => decide (4 ≤ (values h).count v))

/-- One value occurs at least three times and another at least twice. -/
def hasFullHouse (h : List PCard) : Bool :=
  allValues.any (fun v => allValues.any (fun u =>
    decide (u ≠ v) && decide (3 ≤ (values h).count v) && decide (2 ≤ (values h).count u)))

/-- Five cards of one suit. -/
def hasFlush (h : List PCard) : Bool := suits.any (fun s => decide (5 ≤ (ofSuit s h).length))

/-- Five consecutive values (the ace also plays as one). -/
def hasStraight (h : List PCard) : Bool := (straightTop (values h)).isSome

/-- Some value occurs at least three times. -/
def hasTrips (h : List PCard) : Bool := allValues.any (fun v => decide (3 ≤ (values h).count v))

/-- Two values occur at least twice. -/
def hasTwoPair (h : List PCard) : Bool :=
  allValues.any (fun v => allValues.any (fun u =>
    decide (u ≠ v) && decide (2 ≤ (values h).count v) && decide (2 ≤ (values h).count u)))

/-- Some value occurs at least twice. -/
def hasPair (h : List PCard) : Bool := allValues.any (fun v => decide (2 ≤ (values h).count v))

/-- The category: the first of these that the cards have. -/
def category (h : List PCard) : Nat :=
  if hasStraightFlush h then 8
  else if hasQuads h then 7
  else if hasFullHouse h then 6
  else if hasFlush h then 5
  else if hasStraight h then 4
  else if hasTrips h then 3
  else if hasTwoPair h then 2
  else if hasPair h then 1
  else 0

end Poker.Rules
