import Verif.Proofs.Order
import Verif.Model.Evaluation

/-! # Rank bits, prime products and the bit-permutation generator (helper lemmas) -/

namespace Poker
open Rules

namespace Tab

/-- The loop variable (`0..13`) of the value `v`. -/
def bv (v : Nat) : BitVec 16 := BitVec.ofNat 16 (v - 2)

/-- The prime of the value `v`. -/
def primeV (v : Nat) : Nat := [2, 3, 5, 7, 11, 13, 17, 19, 23, 29, 31, 37, 41].getD (v - 2) 0

/-- The prime product of a list of values. -/
def keyN (c : List Nat) : Nat := (c.map primeV).prod

def keyV (c : List Nat) : BitVec 32 := BitVec.ofNat 32 (keyN c)

/-- The rank bits of a list of distinct values. -/
def bitsOf (c : List Nat) : BitVec 16 := BitVec.ofNat 16 (c.map (fun v => 2 ^ (v - 2))).sum

def okIs {α : Type} [BEq α] (x : Exec α) (a : α) : Bool :=
  match x with
  | .ok b => b == a
  | .error _ => false

theorem eq_of_okIs {α : Type} [BEq α] [LawfulBEq α] {x : Exec α} {a : α} (h : okIs x a = true) :
    x = .ok a := by
  unfold okIs at h
  split at h
  · rw [eq_of_beq h]
  · cases h

/-- All lists of five distinct values, best first. -/
def five : List (List Nat) := combos 5 allValues

set_option maxRecDepth 100000

def notStraightBits (b : BitVec 16) : Bool := !(STRAIGHTS.any (fun s => b ^^^ s == 0))

theorem check_prime : five.all (fun c => okIs (prime_product_from_rank_bits (bitsOf c)) (keyV c))
    = true := by decide +kernel

theorem check_high_rank : five.all (fun c =>
    okIs (high_rank_from_rank_bits (bitsOf c)) (rankOf (Kinds.topOf c))) = true := by
  decide +kernel

theorem check_notStraight : five.all (fun c =>
    notStraightBits (bitsOf c) == !(Kinds.straights.contains c)) = true := by decide +kernel

theorem check_or : five.all (fun c =>
    (c.map (fun v => (1#16 <<< (v - 2)))).foldl (· ||| ·) 0#16 == bitsOf c) = true := by
  decide +kernel

/-- Following the generator from `a` gives the numbers of the list. -/
def chain (a : BitVec 16) : List (BitVec 16) → Bool
  | [] => true
  | b :: l =>
    (match (BitSequence.new a).get_next with
      | .ok (x, _) => x == b
      | .error _ => false) && chain b l

def chainOf : List (BitVec 16) → Bool
  | [] => false
  | a :: l => a == 0b11111 && (l.length == 1286 && chain a l)

theorem check_chain : chainOf (five.map bitsOf).reverse = true := by decide +kernel

end Tab
end Poker
