/-! The enumerations of `src/card/rank.rs`, `src/card/suit.rs` and `src/evaluate/class.rs`. -/

namespace Poker

/-- src/card/rank.rs:12-39, `enum Rank`. -/
inductive Rank
  | Two | Three | Four | Five | Six | Seven | Eight | Nine | Ten | Jack | Queen | King | Ace
  deriving DecidableEq, Repr

/-- src/card/suit.rs:8-17, `enum Suit`. -/
inductive Suit
  | Clubs | Hearts | Spades | Diamonds
  deriving DecidableEq, Repr

/-- src/evaluate/class.rs:28-81, `enum EvalClass`, with derived `PartialEq`/`Eq`. -/
inductive EvalClass
  | HighCard (high_rank : Rank)
  | Pair (pair : Rank)
  | TwoPair (first_pair second_pair : Rank)
  | ThreeOfAKind (trips : Rank)
  | Straight (high_rank : Rank)
  | Flush (high_rank : Rank)
  | FullHouse (trips pair : Rank)
  | FourOfAKind (quads : Rank)
  | StraightFlush (high_rank : Rank)
  deriving DecidableEq, Repr

end Poker
