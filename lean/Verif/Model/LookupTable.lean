import Verif.Model.Eval

/-! Model of `src/evaluate/lookup_table.rs`. -/

namespace Poker

/-- `FxHashMap<i32, V>`: a finite map, kept as a list of entries with at most one entry per key. -/
structure FxHashMap (V : Type) where
  entries : List (BitVec 32 × V)
  deriving Repr, DecidableEq

namespace FxHashMap
variable {V : Type}

/-- An empty map (`HashMap::default`, `with_capacity_and_hasher`; the capacity is not observable). -/
def empty : FxHashMap V := ⟨[]⟩

/-- `HashMap::insert`: the previous value of the key, if any, is replaced. -/
def insert (m : FxHashMap V) (k : BitVec 32) (v : V) : FxHashMap V :=
  ⟨(k, v) :: m.entries.filter (fun e => e.1 != k)⟩

/-- `HashMap::get`. -/
def get? (m : FxHashMap V) (k : BitVec 32) : Option V :=
  (m.entries.find? (fun e => e.1 == k)).map (·.2)

/-- `map[&key]`: panics when the key is absent. -/
def index (m : FxHashMap V) (k : BitVec 32) : Exec V :=
  match m.get? k with
  | some v => .ok v
  | none => .error .missingKey

/-- `HashMap::len`. -/
def len (m : FxHashMap V) : Nat := m.entries.length

/-- `PartialEq for HashMap`: same length, and every entry of the first has an equal value under its
key in the second, equality of values being `veq`. -/
def eqBy (veq : V → V → Bool) (a b : FxHashMap V) : Bool :=
  a.len == b.len && a.entries.all (fun e =>
    match b.get? e.1 with
    | some v => veq e.2 v
    | none => false)

end FxHashMap

/-- src/evaluate/lookup_table.rs:22-25, `struct LookupTable`. -/
structure LookupTable where
  flush_lookup : FxHashMap Meta
  unsuited_lookup : FxHashMap Meta
  deriving Repr, DecidableEq

namespace LookupTable

/-- src/evaluate/lookup_table.rs:21, derived `Default`: both maps empty. -/
def default : LookupTable := { flush_lookup := .empty, unsuited_lookup := .empty }

/-- src/evaluate/lookup_table.rs:52-66: the loop collecting `not_straights`.  The inner loop over
`STRAIGHTS` with its `break` is `List.any`. -/
def collectNotStraights : Exec (List (BitVec 16)) := do
  let (_, not_straights) ← (List.range 1286).foldlM
    (fun (st : BitSequence × List (BitVec 16)) _ => do
      let (gen, not_straights) := st
      let (bits, gen) ← gen.get_next
      let not_straight := !(STRAIGHTS.any (fun straight => bits ^^^ straight == 0))
      return (gen, if not_straight then not_straights ++ [bits] else not_straights))
    (BitSequence.new 0b11111, [])
  return not_straights

/-- src/evaluate/lookup_table.rs:93-123: body of the loop over `STRAIGHTS`; the state is the table,
`rank_suited` and `rank_unsuited`. -/
def straightBody (st : LookupTable × BitVec 16 × BitVec 16) (straight : BitVec 16) :
    Exec (LookupTable × BitVec 16 × BitVec 16) := do
  let (table, rank_suited, rank_unsuited) := st
  let prime_product ← prime_product_from_rank_bits straight
  let high_rank ← high_rank_from_rank_bits straight
  let flush_lookup := table.flush_lookup.insert prime_product
    (.StraightFlush ⟨rank_suited⟩ high_rank)
  let unsuited_lookup := table.unsuited_lookup.insert prime_product
    (.Straight ⟨rank_unsuited⟩ high_rank)
  return ({ flush_lookup, unsuited_lookup }, rank_suited + 1, rank_unsuited + 1)

/-- src/evaluate/lookup_table.rs:137-165: body of the loop over the reversed `not_straights`. -/
def notStraightBody (st : LookupTable × BitVec 16 × BitVec 16) (bits : BitVec 16) :
    Exec (LookupTable × BitVec 16 × BitVec 16) := do
  let (table, rank_suited, rank_unsuited) := st
  let prime_product ← prime_product_from_rank_bits bits
  let high_rank ← high_rank_from_rank_bits bits
  let flush_lookup := table.flush_lookup.insert prime_product
    (.Flush ⟨rank_suited⟩ high_rank)
  let unsuited_lookup := table.unsuited_lookup.insert prime_product
    (.HighCard ⟨rank_unsuited⟩ high_rank)
  return ({ flush_lookup, unsuited_lookup }, rank_suited + 1, rank_unsuited + 1)

/-- src/evaluate/lookup_table.rs:40-166, `flushes_straights_high_cards`. -/
def flushes_straights_high_cards (self : LookupTable) : Exec LookupTable := do
  let not_straights ← collectNotStraights
  let rank_suited : BitVec 16 := 1
  let rank_unsuited ← addSigned WORST_FLUSH 1
  let (table, _, _) ← STRAIGHTS.foldlM straightBody (self, rank_suited, rank_unsuited)
  let rank_suited := WORST_FULL_HOUSE + 1
  let rank_unsuited := WORST_PAIR + 1
  let (table, _, _) ← not_straights.reverse.foldlM notStraightBody
    (table, rank_suited, rank_unsuited)
  return table

/-- `self.unsuited_lookup.insert(product, meta)`. -/
def insertUnsuited (t : LookupTable) (product : BitVec 32) (m : Meta) : LookupTable :=
  { t with unsuited_lookup := t.unsuited_lookup.insert product m }

/-- src/evaluate/lookup_table.rs:180-202: four of a kind. -/
def fourOfAKinds (self : LookupTable) : Exec LookupTable := do
  let rank := WORST_STRAIGHT_FLUSH + 1
  let (table, _) ← INT_RANKS.reverse.foldlM
    (fun st quad =>
      let kickers := INT_RANKS.reverse.filter (fun kicker => kicker != quad)
      kickers.foldlM
        (fun (st : LookupTable × BitVec 16) k => do
          let (table, rank) := st
          let pq ← idx PRIMES (asUsize quad)
          let pk ← idx PRIMES (asUsize k)
          let product := wrappingPow pq 4 * pk
          let quads ← idx Rank.ALL_VARIANTS (asUsize quad)
          return (table.insertUnsuited product (.FourOfAKind ⟨rank⟩ quads), rank + 1))
        st)
    (self, rank)
  return table

/-- src/evaluate/lookup_table.rs:206-226: full house. -/
def fullHouses (self : LookupTable) : Exec LookupTable := do
  let rank := WORST_FOUR_OF_A_KIND + 1
  let (table, _) ← INT_RANKS.reverse.foldlM
    (fun st trips =>
      let pair_ranks := INT_RANKS.reverse.filter (fun pr => pr != trips)
      pair_ranks.foldlM
        (fun (st : LookupTable × BitVec 16) pr => do
          let (table, rank) := st
          let pt ← idx PRIMES (asUsize trips)
          let pp ← idx PRIMES (asUsize pr)
          let product := wrappingPow pt 3 * wrappingPow pp 2
          let pair ← idx Rank.ALL_VARIANTS (asUsize pr)
          let trips ← idx Rank.ALL_VARIANTS (asUsize trips)
          return (table.insertUnsuited product (.FullHouse ⟨rank⟩ trips pair), rank + 1))
        st)
    (self, rank)
  return table

/-- src/evaluate/lookup_table.rs:230-258: three of a kind. -/
def threeOfAKinds (self : LookupTable) : Exec LookupTable := do
  let rank := WORST_STRAIGHT + 1
  let (table, _) ← INT_RANKS.reverse.foldlM
    (fun st trips =>
      let kickers := INT_RANKS.reverse.filter (fun kicker => kicker != trips)
      forCombos 2 kickers st
        (fun (st : LookupTable × BitVec 16) k => do
          let (table, rank) := st
          let c1 ← idx k 0
          let c2 ← idx k 1
          let pt ← idx PRIMES (asUsize trips)
          let p1 ← idx PRIMES (asUsize c1)
          let p2 ← idx PRIMES (asUsize c2)
          let product := wrappingPow pt 3 * p1 * p2
          let trips ← idx Rank.ALL_VARIANTS (asUsize trips)
          return (table.insertUnsuited product (.ThreeOfAKind ⟨rank⟩ trips), rank + 1)))
    (self, rank)
  return table

/-- src/evaluate/lookup_table.rs:262-289: two pair. -/
def twoPairs (self : LookupTable) : Exec LookupTable := do
  let rank := WORST_THREE_OF_A_KIND + 1
  let bw := INT_RANKS.reverse
  let (table, _) ← forCombos 2 bw (self, rank)
    (fun (st : LookupTable × BitVec 16) pairs => do
      let pair1 ← idx pairs 0
      let pair2 ← idx pairs 1
      let kickers := INT_RANKS.reverse.filter (fun kicker => kicker != pair1 && kicker != pair2)
      kickers.foldlM
        (fun (st : LookupTable × BitVec 16) kicker => do
          let (table, rank) := st
          let p1 ← idx PRIMES (asUsize pair1)
          let p2 ← idx PRIMES (asUsize pair2)
          let pk ← idx PRIMES (asUsize kicker)
          let product := wrappingPow p1 2 * wrappingPow p2 2 * pk
          let high_pair ← idx Rank.ALL_VARIANTS (asUsize pair1)
          let low_pair ← idx Rank.ALL_VARIANTS (asUsize pair2)
          return (table.insertUnsuited product (.TwoPair ⟨rank⟩ high_pair low_pair), rank + 1))
        st)
  return table

/-- src/evaluate/lookup_table.rs:293-323: pair. -/
def pairs (self : LookupTable) : Exec LookupTable := do
  let rank := WORST_TWO_PAIR + 1
  let (table, _) ← INT_RANKS.reverse.foldlM
    (fun st pair_rank =>
      let kickers := INT_RANKS.reverse.filter (fun kicker => kicker != pair_rank)
      forCombos 3 kickers st
        (fun (st : LookupTable × BitVec 16) kicker_combo => do
          let (table, rank) := st
          let k1 ← idx kicker_combo 0
          let k2 ← idx kicker_combo 1
          let k3 ← idx kicker_combo 2
          let pp ← idx PRIMES (asUsize pair_rank)
          let p1 ← idx PRIMES (asUsize k1)
          let p2 ← idx PRIMES (asUsize k2)
          let p3 ← idx PRIMES (asUsize k3)
          let product := wrappingPow pp 2 * p1 * p2 * p3
          let pair ← idx Rank.ALL_VARIANTS (asUsize pair_rank)
          return (table.insertUnsuited product (.Pair ⟨rank⟩ pair), rank + 1)))
    (self, rank)
  return table

/-- src/evaluate/lookup_table.rs:169-326, `multiples`. -/
def multiples (self : LookupTable) : Exec LookupTable := do
  let table ← self.fourOfAKinds
  let table ← table.fullHouses
  let table ← table.threeOfAKinds
  let table ← table.twoPairs
  table.pairs

/-- src/evaluate/lookup_table.rs:28-36, `LookupTable::new`. -/
def new : Exec LookupTable := do
  let table : LookupTable := { flush_lookup := .empty, unsuited_lookup := .empty }
  let table ← table.flushes_straights_high_cards
  table.multiples

/-- src/evaluate/lookup_table.rs:21, derived `PartialEq`. -/
def eq (a b : LookupTable) : Bool :=
  a.flush_lookup.eqBy Meta.eq b.flush_lookup && a.unsuited_lookup.eqBy Meta.eq b.unsuited_lookup

end LookupTable
end Poker
