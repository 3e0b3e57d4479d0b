import Verif.Model.Utils

/-! Model of `src/evaluate/hand_rank.rs`, `src/evaluate/meta.rs`, `src/evaluate/class.rs` and
`src/evaluate/eval.rs`. -/

namespace Poker

/-! ## Constants of `src/evaluate/lookup_table.rs` -/

/-- src/evaluate/lookup_table.rs:333 -/
def WORST_STRAIGHT_FLUSH : BitVec 16 := 10
/-- src/evaluate/lookup_table.rs:334 -/
def WORST_FOUR_OF_A_KIND : BitVec 16 := 166
/-- src/evaluate/lookup_table.rs:335 -/
def WORST_FULL_HOUSE : BitVec 16 := 322
/-- src/evaluate/lookup_table.rs:336 -/
def WORST_FLUSH : BitVec 16 := 1599
/-- src/evaluate/lookup_table.rs:337 -/
def WORST_STRAIGHT : BitVec 16 := 1609
/-- src/evaluate/lookup_table.rs:338 -/
def WORST_THREE_OF_A_KIND : BitVec 16 := 2467
/-- src/evaluate/lookup_table.rs:339 -/
def WORST_TWO_PAIR : BitVec 16 := 3325
/-- src/evaluate/lookup_table.rs:340 -/
def WORST_PAIR : BitVec 16 := 6185
/-- src/evaluate/lookup_table.rs:341 -/
def WORST_HIGH_CARD : BitVec 16 := 7462

/-! ## `src/evaluate/hand_rank.rs` -/

/-- src/evaluate/hand_rank.rs:7-8, `struct PokerHandRank(i16)` with derived `Eq`. -/
structure PokerHandRank where
  val : BitVec 16
  deriving DecidableEq, Repr

namespace PokerHandRank

/-- src/evaluate/hand_rank.rs:11 -/
def BEST : PokerHandRank := ⟨1⟩

/-- src/evaluate/hand_rank.rs:12 -/
def WORST : PokerHandRank := ⟨WORST_HIGH_CARD⟩

/-- src/evaluate/hand_rank.rs:15, `self.0 < other.0` on `i16`. -/
def is_better_than (self other : PokerHandRank) : Bool := self.val.slt other.val

/-- src/evaluate/hand_rank.rs:17, `self.0 > other.0` on `i16`. -/
def is_worse_than (self other : PokerHandRank) : Bool := other.val.slt self.val

/-- What the derived `Hash` (src/evaluate/hand_rank.rs:7) feeds to the hasher: the `i16`. -/
def hashInput (self : PokerHandRank) : BitVec 16 := self.val

end PokerHandRank

/-! ## `src/evaluate/class.rs` -/


namespace EvalClass

/-- The discriminant of the variant, in declaration order (src/evaluate/class.rs:29-81). -/
def discr : EvalClass → Nat
  | HighCard _ => 0
  | Pair _ => 1
  | TwoPair _ _ => 2
  | ThreeOfAKind _ => 3
  | Straight _ => 4
  | Flush _ => 5
  | FullHouse _ _ => 6
  | FourOfAKind _ => 7
  | StraightFlush _ => 8

/-- The fields of the variant in declaration order (src/evaluate/class.rs:29-81). -/
def fields : EvalClass → List Rank
  | HighCard r => [r]
  | Pair r => [r]
  | TwoPair r s => [r, s]
  | ThreeOfAKind r => [r]
  | Straight r => [r]
  | Flush r => [r]
  | FullHouse r s => [r, s]
  | FourOfAKind r => [r]
  | StraightFlush r => [r]

/-- Lexicographic comparison of fields, as in derived `Ord`. -/
def cmpFields : List Rank → List Rank → Ordering
  | [], [] => .eq
  | [], _ :: _ => .lt
  | _ :: _, [] => .gt
  | a :: as, b :: bs => (a.cmp b).then (cmpFields as bs)

/-- src/evaluate/class.rs:28, derived `Ord for EvalClass`: discriminants first, then the fields
lexicographically. -/
def cmp (a b : EvalClass) : Ordering :=
  (compare a.discr b.discr).then (cmpFields a.fields b.fields)

/-- src/evaluate/class.rs:83-120, `Display for EvalClass`. -/
def display : EvalClass → Str
  | HighCard high_rank => "High card, ".toList ++ high_rank.as_str_name
  | Pair pair => "Pair, ".toList ++ pair.as_str_name_plural
  | TwoPair high_pair low_pair =>
    "Two pair, ".toList ++ high_pair.as_str_name_plural ++ " and ".toList
      ++ low_pair.as_str_name_plural
  | ThreeOfAKind trips => "Three of a kind, ".toList ++ trips.as_str_name_plural
  | Straight high_rank => "Straight, ".toList ++ high_rank.as_str_name ++ "-high".toList
  | Flush high_rank => "Flush, ".toList ++ high_rank.as_str_name ++ "-high".toList
  | FullHouse trips pair =>
    "Full house, ".toList ++ trips.as_str_name_plural ++ " over ".toList ++ pair.as_str_name_plural
  | FourOfAKind quads => "Four of a kind, ".toList ++ quads.as_str_name_plural
  | StraightFlush high_rank =>
    match high_rank with
    | .Ace => "Royal flush".toList
    | high_rank => "Straight flush, ".toList ++ high_rank.as_str_name ++ "-high".toList

end EvalClass

/-! ## `src/evaluate/meta.rs` -/

/-- src/evaluate/meta.rs:12-51, `enum Meta`. -/
inductive Meta
  | HighCard (hand_rank : PokerHandRank) (high_rank : Rank)
  | Pair (hand_rank : PokerHandRank) (pair : Rank)
  | TwoPair (hand_rank : PokerHandRank) (high_pair low_pair : Rank)
  | ThreeOfAKind (hand_rank : PokerHandRank) (trips : Rank)
  | Straight (hand_rank : PokerHandRank) (high_rank : Rank)
  | Flush (hand_rank : PokerHandRank) (high_rank : Rank)
  | FullHouse (hand_rank : PokerHandRank) (trips pair : Rank)
  | FourOfAKind (hand_rank : PokerHandRank) (quads : Rank)
  | StraightFlush (hand_rank : PokerHandRank) (high_rank : Rank)
  deriving DecidableEq, Repr
-- `DecidableEq` above is equality of all the data, used only by proofs; Rust's `==` is `Meta.eq`.

namespace Meta

/-- src/evaluate/meta.rs:55-58, `Meta::BEST`. -/
def BEST : Meta := StraightFlush PokerHandRank.BEST Rank.Ace

/-- src/evaluate/meta.rs:60-63, `Meta::WORST`. -/
def WORST : Meta := HighCard PokerHandRank.WORST Rank.Seven

/-- src/evaluate/meta.rs:65-78, `Meta::hand_rank`. -/
def hand_rank : Meta → PokerHandRank
  | HighCard hand_rank _ => hand_rank
  | Pair hand_rank _ => hand_rank
  | TwoPair hand_rank _ _ => hand_rank
  | ThreeOfAKind hand_rank _ => hand_rank
  | Straight hand_rank _ => hand_rank
  | Flush hand_rank _ => hand_rank
  | FullHouse hand_rank _ _ => hand_rank
  | FourOfAKind hand_rank _ => hand_rank
  | StraightFlush hand_rank _ => hand_rank

/-- src/evaluate/meta.rs:80-99, `Meta::class`. -/
def class' : Meta → EvalClass
  | HighCard _ high_rank => .HighCard high_rank
  | Pair _ pair => .Pair pair
  | TwoPair _ high_pair low_pair => .TwoPair high_pair low_pair
  | ThreeOfAKind _ trips => .ThreeOfAKind trips
  | Straight _ high_rank => .Straight high_rank
  | Flush _ high_rank => .Flush high_rank
  | FullHouse _ trips pair => .FullHouse trips pair
  | FourOfAKind _ quads => .FourOfAKind quads
  | StraightFlush _ high_rank => .StraightFlush high_rank

/-- src/evaluate/meta.rs:101 -/
def is_high_card : Meta → Bool | HighCard .. => true | _ => false
/-- src/evaluate/meta.rs:103 -/
def is_pair : Meta → Bool | Pair .. => true | _ => false
/-- src/evaluate/meta.rs:105 -/
def is_two_pair : Meta → Bool | TwoPair .. => true | _ => false
/-- src/evaluate/meta.rs:107 -/
def is_three_of_a_kind : Meta → Bool | ThreeOfAKind .. => true | _ => false
/-- src/evaluate/meta.rs:109 -/
def is_straight : Meta → Bool | Straight .. => true | _ => false
/-- src/evaluate/meta.rs:111 -/
def is_flush : Meta → Bool | Flush .. => true | _ => false
/-- src/evaluate/meta.rs:113 -/
def is_full_house : Meta → Bool | FullHouse .. => true | _ => false
/-- src/evaluate/meta.rs:115 -/
def is_four_of_a_kind : Meta → Bool | FourOfAKind .. => true | _ => false
/-- src/evaluate/meta.rs:117 -/
def is_straight_flush : Meta → Bool | StraightFlush .. => true | _ => false

/-- src/evaluate/meta.rs:119-127: matches a straight flush whose `hand_rank` is `BEST`. -/
def is_royal_flush : Meta → Bool
  | StraightFlush hand_rank _ => decide (hand_rank = PokerHandRank.BEST)
  | _ => false

/-- src/evaluate/meta.rs:130-132, `PartialEq for Meta`. -/
def eq (self other : Meta) : Bool := decide (self.hand_rank = other.hand_rank)

/-- src/evaluate/meta.rs:136-148, `PartialOrd for Meta`. -/
def partial_cmp (self other : Meta) : Option Ordering :=
  let hand_rank_self := self.hand_rank
  let hand_rank_other := other.hand_rank
  if hand_rank_self.is_better_than hand_rank_other then some .gt
  else if hand_rank_self = hand_rank_other then some .eq
  else some .lt

/-- src/evaluate/meta.rs:150-162, `Ord for Meta`. -/
def cmp (self other : Meta) : Ordering :=
  let hand_rank_self := self.hand_rank
  let hand_rank_other := other.hand_rank
  if hand_rank_self.is_better_than hand_rank_other then .gt
  else if hand_rank_self = hand_rank_other then .eq
  else .lt

/-- src/evaluate/meta.rs:164-166, `Hash for Meta`: what is fed to the hasher. -/
def hashInput (self : Meta) : BitVec 16 := self.hand_rank.hashInput

/-- src/evaluate/meta.rs:168-170, `Display for Meta`. -/
def display (self : Meta) : Str := self.class'.display

end Meta

/-! ## `src/evaluate/eval.rs` -/

/-- src/evaluate/eval.rs:58-59, `struct Eval(Meta)`. -/
structure Eval where
  data : Meta
  deriving DecidableEq, Repr
-- Again, `DecidableEq` is equality of all the data; Rust's `==` is `Eval.eq`.

namespace Eval

/-- src/evaluate/eval.rs:63 -/
def BEST : Eval := ⟨Meta.BEST⟩
/-- src/evaluate/eval.rs:65 -/
def WORST : Eval := ⟨Meta.WORST⟩
/-- src/evaluate/eval.rs:67 -/
def hand_rank (self : Eval) : PokerHandRank := self.data.hand_rank
/-- src/evaluate/eval.rs:71 -/
def class' (self : Eval) : EvalClass := self.data.class'
/-- src/evaluate/eval.rs:76-78 -/
def is_better_than (self other : Eval) : Bool := self.hand_rank.is_better_than other.hand_rank
/-- src/evaluate/eval.rs:83-85 -/
def is_worse_than (self other : Eval) : Bool := self.hand_rank.is_worse_than other.hand_rank
/-- src/evaluate/eval.rs:91-93 -/
def is_equal_to (self other : Eval) : Bool := self.hand_rank.val == other.hand_rank.val
/-- src/evaluate/eval.rs:96 -/
def is_high_card (self : Eval) : Bool := self.data.is_high_card
/-- src/evaluate/eval.rs:99 -/
def is_pair (self : Eval) : Bool := self.data.is_pair
/-- src/evaluate/eval.rs:102 -/
def is_two_pair (self : Eval) : Bool := self.data.is_two_pair
/-- src/evaluate/eval.rs:105 -/
def is_three_of_a_kind (self : Eval) : Bool := self.data.is_three_of_a_kind
/-- src/evaluate/eval.rs:108 -/
def is_straight (self : Eval) : Bool := self.data.is_straight
/-- src/evaluate/eval.rs:111 -/
def is_flush (self : Eval) : Bool := self.data.is_flush
/-- src/evaluate/eval.rs:114 -/
def is_full_house (self : Eval) : Bool := self.data.is_full_house
/-- src/evaluate/eval.rs:117 -/
def is_four_of_a_kind (self : Eval) : Bool := self.data.is_four_of_a_kind
/-- src/evaluate/eval.rs:120 -/
def is_straight_flush (self : Eval) : Bool := self.data.is_straight_flush
/-- src/evaluate/eval.rs:123 -/
def is_royal_flush (self : Eval) : Bool := self.data.is_royal_flush

/-- src/evaluate/eval.rs:58, derived `PartialEq` of a one-field struct: that of the field. -/
def eq (self other : Eval) : Bool := self.data.eq other.data
/-- src/evaluate/eval.rs:58, derived `Ord`: that of the field. -/
def cmp (self other : Eval) : Ordering := self.data.cmp other.data
/-- src/evaluate/eval.rs:58, derived `PartialOrd`: that of the field. -/
def partial_cmp (self other : Eval) : Option Ordering := self.data.partial_cmp other.data
/-- The operator `self > other`, i.e. `partial_cmp` is `Some(Greater)`. -/
def gt (self other : Eval) : Bool := self.partial_cmp other == some .gt
/-- The operator `self < other`. -/
def lt (self other : Eval) : Bool := self.partial_cmp other == some .lt
/-- `std::cmp::max(a, b)` for `Eval` (used in src/lib.rs:69): the second argument unless the first
is greater. -/
def max (a b : Eval) : Eval := if a.cmp b = .gt then a else b
/-- src/evaluate/eval.rs:58, derived `Hash`: that of the field. -/
def hashInput (self : Eval) : BitVec 16 := self.data.hashInput
/-- src/evaluate/eval.rs:126-128, `Display for Eval`. -/
def display (self : Eval) : Str := self.data.display

end Eval
end Poker
