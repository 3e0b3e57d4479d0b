import Verif.Proofs.SevenCounts
import Verif.Proofs.Order

/-! # With up to how many cards a worth can be that of the best five (helper definitions) -/

namespace Poker.Room
open Rules

/-- How often `v` may occur if the values `A` occur `m` times, the values `B` follow, other values
than `A` occur at most `k` times, and no value outside `A` and `B` is in place of one of them. -/
def hi (m k : Nat) (A B : List Nat) (v : Nat) : Nat :=
  bif A.any (Nat.beq v) then m
  else bif B.any (Nat.beq v) || B.all (Nat.blt v) then
    bif A.all (Nat.blt v) then k else min k (m - 1)
  else 0

/-- The suits in turn. -/
def suitAt (i : Nat) : Suit :=
  match i % 4 with
  | 0 => .Clubs
  | 1 => .Hearts
  | 2 => .Spades
  | _ => .Diamonds

/-- Cards of given values, `c v` of the value `v`, the suits in turn. -/
def lay (c : Nat → Nat) : List Nat → Nat → List PCard
  | [], _ => []
  | v :: T, off => (List.range (c v)).map (fun i => (rankOf v, suitAt (off + i))) ++ lay c T (off + c v)

/-- The best total of some of the values, with their numbers, that make no straight. -/
noncomputable def grow : List (Nat × Nat) → Nat → Nat → Nat
  | [], b, acc => bif Seven.inRow b then 0 else acc
  | x :: rs, b, acc => max (grow rs (b + 2 ^ x.1) (acc + x.2)) (grow rs b acc)

/-- The values that may join those of `w`, and how often. -/
def free (m k : Nat) (A B : List Nat) : List (Nat × Nat) :=
  (allValues.map (fun v => (v, bif (A ++ B).any (Nat.beq v) then 0 else hi m k A B v))).filter
    (fun x => Nat.blt 0 x.2)

/-- The most cards that a hand without straight or flush can have. -/
noncomputable def most (m k : Nat) (A B : List Nat) : Nat :=
  grow (free m k A B) ((A ++ B).map (2 ^ ·)).sum ((A ++ B).map (hi m k A B)).sum

/-- The values of a straight. -/
def run (t : Nat) : List Nat := [t, t - 1, t - 2, t - 3, if t = 5 then 14 else t - 4]

/-- How many cards of which value four of a kind leave room for. -/
def quadRoom (w : List Nat) : Nat := (allValues.map (hi 4 4 (w.take 1) (w.drop 1))).sum

/-- With up to how many cards, of sixteen, a worth can be that of the best five. -/
noncomputable def room (w : Nat × List Nat) : Nat :=
  match w.1 with
  | 0 => min 16 (most 1 1 (w.2.take 5) (w.2.drop 5))
  | 1 => min 16 (most 2 1 (w.2.take 1) (w.2.drop 1))
  | 2 => min 16 (most 2 2 (w.2.take 2) (w.2.drop 2))
  | 3 => min 16 (most 3 1 (w.2.take 1) (w.2.drop 1))
  | 7 => min 16 (quadRoom w.2)
  | _ => 16

end Poker.Room
