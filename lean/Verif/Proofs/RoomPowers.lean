import Verif.Proofs.RoomDefs

/-! # How many worths leave room for how many cards (helper lemmas) -/

namespace Poker.Room
open Rules

/-- The rooms of the worths of a category, as the exponents of a sum of powers. -/
noncomputable def powers (s : Kinds.Segment) : Nat :=
  ((s.worths.map room).map (10000 ^ ·)).sum

/-- The number with given digits. -/
def number (ds : List Nat) : Nat := ds.foldr (fun a b => a + 10000 * b) 0

set_option maxRecDepth 100000

theorem powers_0 : Nat.beq (powers Kinds.sHigh) (number [0, 0, 0, 0, 0, 507, 363, 251, 105, 37, 13, 1, 0, 0, 0, 0, 0]) = true := by
  decide +kernel

theorem powers_1 : Nat.beq (powers Kinds.sPair) (number [0, 0, 0, 0, 0, 725, 665, 637, 380, 218, 161, 63, 11, 0, 0, 0, 0]) = true := by
  decide +kernel

theorem powers_2 : Nat.beq (powers Kinds.sTwoPair) (number [0, 0, 0, 0, 0, 12, 83, 37, 87, 50, 104, 62, 114, 69, 81, 46, 113]) = true := by
  decide +kernel

theorem powers_3 : Nat.beq (powers Kinds.sTrips) (number [0, 0, 0, 0, 0, 143, 140, 169, 133, 80, 85, 67, 30, 11, 0, 0, 0]) = true := by
  decide +kernel

theorem powers_4 : Nat.beq (powers Kinds.sStraight) (number [0, 0, 0, 0, 0, 0, 0, 0, 0, 0, 0, 0, 0, 0, 0, 0, 10]) = true := by
  decide +kernel

theorem powers_5 : Nat.beq (powers Kinds.sFlush) (number [0, 0, 0, 0, 0, 0, 0, 0, 0, 0, 0, 0, 0, 0, 0, 0, 1277]) = true := by
  decide +kernel

theorem powers_6 : Nat.beq (powers Kinds.sFullHouse) (number [0, 0, 0, 0, 0, 0, 0, 0, 0, 0, 0, 0, 0, 0, 0, 0, 156]) = true := by
  decide +kernel

theorem powers_7 : Nat.beq (powers Kinds.sQuads) (number [0, 0, 0, 0, 0, 0, 0, 1, 12, 0, 1, 1, 11, 1, 1, 1, 127]) = true := by
  decide +kernel

theorem powers_8 : Nat.beq (powers Kinds.sStraightFlush) (number [0, 0, 0, 0, 0, 0, 0, 0, 0, 0, 0, 0, 0, 0, 0, 0, 10]) = true := by
  decide +kernel

end Poker.Room
