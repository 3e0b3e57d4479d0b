import Verif.Model.Card

/-! Model of `src/evaluate/utils.rs` (and of `STRAIGHTS` from `src/evaluate/lookup_table.rs`). -/

namespace Poker

/-- src/evaluate/lookup_table.rs:344-355, `constants::STRAIGHTS`. -/
def STRAIGHTS : List (BitVec 16) :=
  [ 0b1111100000000,
    0b0111110000000,
    0b0011111000000,
    0b0001111100000,
    0b0000111110000,
    0b0000011111000,
    0b0000001111100,
    0b0000000111110,
    0b0000000011111,
    0b1000000001111 ]

/-- src/evaluate/utils.rs:10-15, `struct Combinations<'a, T, const N: usize>`.  The array
`indices : [usize; N]` is a list. -/
structure Combinations (α : Type) (N : Nat) where
  data : List α
  indices : List Nat
  done : Bool
  deriving Repr, DecidableEq

namespace Combinations

/-- src/evaluate/utils.rs:18-25, `Combinations::new`: `indices[i] = i`. -/
def new {α : Type} (N : Nat) (data : List α) : Combinations α N :=
  { data := data, indices := List.range N, done := false }

/-- src/evaluate/utils.rs:45-47, the inner loop `for j in i + 1..N`. -/
def resetFrom (N i : Nat) (indices : List Nat) : Exec (List Nat) :=
  (List.range' (i + 1) (N - (i + 1))).foldlM
    (fun ind j => do
      let p ← usizeSub j 1
      let prev ← idx ind p
      setIdx ind j (prev + 1))
    indices

/-- src/evaluate/utils.rs:38-50, the loop `for i in (0..N).rev()` with its `break`.  The first
argument is the number of iterations left, so that the loop variable is `i`. -/
def advance (len N : Nat) : Nat → List Nat → Bool → Exec (List Nat × Bool)
  | 0, indices, done => .ok (indices, done)
  | i + 1, indices, done => do
    let room ← usizeSub len N
    let limit := room + i
    let xi ← idx indices i
    let done := if i = 0 ∧ xi = limit then true else done
    if xi < limit then do
      let indices ← setIdx indices i (xi + 1)
      let indices ← resetFrom N i indices
      return (indices, done)
    else
      advance len N i indices done

/-- src/evaluate/utils.rs:31-53, `Iterator::next for Combinations`. -/
def next {α : Type} {N : Nat} (self : Combinations α N) :
    Exec (Option (List α) × Combinations α N) :=
  if self.done then
    .ok (none, self)
  else do
    let result ← self.indices.mapM (fun i => idx self.data i)
    let (indices, done) ← advance self.data.length N N self.indices self.done
    return (some result, { self with indices := indices, done := done })

/-- A `for combo in combinations { body }` loop over the iterator, `fuel` bounding the number of
calls of `next`. -/
def forEach {α σ : Type} {N : Nat} (body : σ → List α → Exec σ) :
    Nat → Combinations α N → σ → Exec σ
  | 0, _, _ => .error .outOfFuel
  | fuel + 1, self, s => do
    let (item, self) ← self.next
    match item with
    | none => return s
    | some combo => do
      let s ← body s combo
      forEach body fuel self s

end Combinations

/-- src/evaluate/utils.rs:85-90, `const_combos`, consumed by a `for` loop with the given body.
There are at most `2 ^ len` combinations, so this fuel is never exhausted (proved in
`Verif/Proofs/Combinations.lean`). -/
def forCombos {α σ : Type} (N : Nat) (items : List α) (init : σ) (body : σ → List α → Exec σ) :
    Exec σ :=
  (Combinations.new N items).forEach body (2 ^ items.length + 1) init

/-- src/evaluate/utils.rs:59-64, `struct BitSequence`. -/
structure BitSequence where
  bits : BitVec 16
  t : BitVec 16
  next_bits : BitVec 16
  deriving Repr, DecidableEq

namespace BitSequence

/-- src/evaluate/utils.rs:67-73, `BitSequence::new`. -/
def new (bits : BitVec 16) : BitSequence := { bits := bits, t := 0, next_bits := 0 }

/-- src/evaluate/utils.rs:75-82, `BitSequence::get_next`.  `>>` is an arithmetic shift whose amount
`trailing_zeros + 1` (a `u32`, far from wrapping) must be below 16. -/
def get_next (self : BitSequence) : Exec (BitVec 16 × BitSequence) := do
  let t := self.bits ||| (self.bits - 1)
  let next_bits := t + 1
  let fill ← sar ((~~~t &&& -(~~~t)) - 1) (trailingZeros self.bits + 1)
  let next_bits := next_bits ||| fill
  return (next_bits, { bits := next_bits, t := t, next_bits := next_bits })

end BitSequence

/-- src/evaluate/utils.rs:93-103, `prime_product_from_rank_bits`. -/
def prime_product_from_rank_bits (rank_bits : BitVec 16) : Exec (BitVec 32) :=
  INT_RANKS.foldlM
    (fun product i => do
      let flag ← shl (1 : BitVec 16) i.toNat
      if rank_bits &&& flag ≠ 0 then do
        let p ← idx PRIMES (asUsize i)
        return product * p
      else
        return product)
    (1 : BitVec 32)

/-- src/evaluate/utils.rs:107-111, `prime_product_from_hand`. -/
def prime_product_from_hand (hand : List Card) : BitVec 32 :=
  (hand.map (fun card => card.unique_integer &&& 0xFF)).foldl (fun acc x => acc * x) 1

/-- src/evaluate/utils.rs:119-124, the loop `for i in INT_RANKS.rev()` with its early return. -/
def highRankLoop (rank_bits : BitVec 16) : List (BitVec 16) → Exec Rank
  | [] => .error .unreachable
  | i :: is => do
    let flag ← shl (1 : BitVec 16) i.toNat
    if rank_bits &&& flag ≠ 0 then idx Rank.ALL_VARIANTS (asUsize i)
    else highRankLoop rank_bits is

/-- src/evaluate/utils.rs:114-125, `high_rank_from_rank_bits`. -/
def high_rank_from_rank_bits (rank_bits : BitVec 16) : Exec Rank := do
  let wheel ← idx STRAIGHTS 9
  if rank_bits = wheel then return Rank.Five
  else highRankLoop rank_bits INT_RANKS.reverse

/-- src/evaluate/utils.rs:141-166, `card_to_index` (an `u8` addition). -/
def card_to_index (card : Card) : Exec (BitVec 8) :=
  let suit_shift : BitVec 8 :=
    match card.suit with
    | .Clubs => 0
    | .Diamonds => 13
    | .Hearts => 26
    | .Spades => 39
  let rank_shift : BitVec 8 :=
    match card.rank with
    | .Two => 0
    | .Three => 1
    | .Four => 2
    | .Five => 3
    | .Six => 4
    | .Seven => 5
    | .Eight => 6
    | .Nine => 7
    | .Ten => 8
    | .Jack => 9
    | .Queen => 10
    | .King => 11
    | .Ace => 12
  addUnsigned suit_shift rank_shift

/-- src/evaluate/utils.rs:130-137, the loop of `all_unique`, `card_flags` being the cards seen. -/
def allUniqueLoop (card_flags : BitVec 64) : List Card → Exec Bool
  | [] => .ok true
  | card :: rest => do
    let i ← card_to_index card
    let card_flag ← shl (1 : BitVec 64) i.toNat
    if card_flags &&& card_flag ≠ 0 then return false
    else allUniqueLoop (card_flags ||| card_flag) rest

/-- src/evaluate/utils.rs:128-138, `all_unique`. -/
def all_unique (hand : List Card) : Exec Bool := allUniqueLoop 0 hand

end Poker
