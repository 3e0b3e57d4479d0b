import Verif.Spec.Rules
import Verif.Spec.Combos

/-! # The 7462 kinds of five-card hands in order of strength (helper lemmas)

A kind is a flag "all of one suit" and a list of five pip values.  This file does not depend on the
model's functions. -/

namespace Poker
open Rules

namespace Kinds

def straights : List (List Nat) :=
  straightTops.map (fun t => if t = 5 then [14, 5, 4, 3, 2] else [t, t - 1, t - 2, t - 3, t - 4])

def nonStraights : List (List Nat) :=
  (combos 5 allValues).filter (fun c => !(straights.contains c))

def quads : List (List Nat) :=
  allValues.flatMap (fun q => (allValues.filter (· != q)).map (fun k => [q, q, q, q, k]))

def fullHouses : List (List Nat) :=
  allValues.flatMap (fun t => (allValues.filter (· != t)).map (fun p => [t, t, t, p, p]))

def trips : List (List Nat) :=
  allValues.flatMap (fun t => (combos 2 (allValues.filter (· != t))).map (fun k => t :: t :: t :: k))

def twoPairs : List (List Nat) :=
  (combos 2 allValues).flatMap (fun p =>
    (allValues.filter (fun k => k != p.getD 0 0 && k != p.getD 1 0)).map
      (fun k => [p.getD 0 0, p.getD 0 0, p.getD 1 0, p.getD 1 0, k]))

def pairs : List (List Nat) :=
  allValues.flatMap (fun t => (combos 3 (allValues.filter (· != t))).map (fun k => t :: t :: k))

/-- The highest value of a straight kind. -/
def topOf (c : List Nat) : Nat := if c.getD 0 0 = 14 ∧ c.getD 1 0 = 5 then 5 else c.getD 0 0

/-- Strictly decreasing, by adjacent comparisons. -/
def desc : List (Nat × List Nat) → Bool
  | a :: b :: r => cmpWorth a b == .gt && desc (b :: r)
  | _ => true

/-- The kinds of one category, with the closed form of their worth. -/
structure Segment where
  fl : Bool
  cat : Nat
  seg : List (List Nat)
  key : List Nat → List Nat

def Segment.check (s : Segment) : Bool := s.seg.all (fun c => worth s.fl c == (s.cat, s.key c))

def sStraightFlush : Segment := ⟨true, 8, straights, fun c => [topOf c]⟩
def sQuads : Segment := ⟨false, 7, quads, fun c => [c.getD 0 0, c.getD 4 0]⟩
def sFullHouse : Segment := ⟨false, 6, fullHouses, fun c => [c.getD 0 0, c.getD 4 0]⟩
def sFlush : Segment := ⟨true, 5, nonStraights, id⟩
def sStraight : Segment := ⟨false, 4, straights, fun c => [topOf c]⟩
def sTrips : Segment := ⟨false, 3, trips, fun c => c.drop 2⟩
def sTwoPair : Segment := ⟨false, 2, twoPairs, fun c => [c.getD 0 0, c.getD 2 0, c.getD 4 0]⟩
def sPair : Segment := ⟨false, 1, pairs, fun c => c.drop 1⟩
def sHigh : Segment := ⟨false, 0, nonStraights, id⟩

set_option maxRecDepth 100000

theorem check_straightFlush : sStraightFlush.check = true := by decide +kernel
theorem check_quads : sQuads.check = true := by decide +kernel
theorem check_fullHouses : sFullHouse.check = true := by decide +kernel
theorem check_flush : sFlush.check = true := by decide +kernel
theorem check_straights : sStraight.check = true := by decide +kernel
theorem check_trips : sTrips.check = true := by decide +kernel
theorem check_twoPairs : sTwoPair.check = true := by decide +kernel
theorem check_pairs : sPair.check = true := by decide +kernel
theorem check_high : sHigh.check = true := by decide +kernel

end Kinds
end Poker
