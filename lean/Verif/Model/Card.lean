import Verif.Model.Rank
import Verif.Model.Suit

/-! Model of `src/card/mod.rs`, of the data type `ParseCardError` of `src/error.rs`, and of the
macros of `src/card/macros.rs`. -/

namespace Poker

/-- src/error.rs:65-98, `enum ParseCardError`. -/
inductive ParseCardError
  | InvalidLength (original_input : Str)
  | InvalidRank (original_input : Str) (incorrect_char : Char)
  | InvalidSuit (original_input : Str) (incorrect_char : Char)
  deriving DecidableEq, Repr

/-- src/card/mod.rs:95-98, `struct Card` with its derived `PartialEq`/`Eq`.  The field is private in
Rust; the only constructor is `Card::new`. -/
structure Card where
  unique_integer : BitVec 32
  deriving DecidableEq, Repr

namespace Card

/-- src/card/mod.rs:116-126, `Card::new`, with every index and shift checked. -/
def newChecked (rank : Rank) (suit : Suit) : Exec Card := do
  let rank_int := rank.as_i32
  let suit_int := suit.as_i32
  let rank_prime ← idx PRIMES (asUsize rank_int)
  let one_shifted ← shl (1 : BitVec 32) rank_int.toNat
  let bit_rank ← shl one_shifted 16
  let card_suit ← shl suit_int 12
  let card_rank ← shl rank_int 8
  return { unique_integer := bit_rank ||| card_suit ||| card_rank ||| rank_prime }

/-- src/card/mod.rs:116-126, `Card::new` as a plain function, for use by the callers.  The theorem
`Card.newChecked_eq` shows that the checked version always returns this value. -/
def new (rank : Rank) (suit : Suit) : Card :=
  let rank_int := rank.as_i32
  let suit_int := suit.as_i32
  let rank_prime := PRIMES.getD rank_int.toNat 0
  let bit_rank := ((1 : BitVec 32) <<< rank_int.toNat) <<< 16
  let card_suit := suit_int <<< 12
  let card_rank := rank_int <<< 8
  { unique_integer := bit_rank ||| card_suit ||| card_rank ||| rank_prime }

/-- src/card/mod.rs:146-160, `Card::try_from_chars`. -/
def try_from_chars (rank_char suit_char : Char) : Except ParseCardError Card :=
  match Rank.try_from rank_char with
  | .error incorrect_char => .error (.InvalidRank [rank_char] incorrect_char)
  | .ok rank =>
    match Suit.try_from suit_char with
    | .error incorrect_char => .error (.InvalidSuit [suit_char] incorrect_char)
    | .ok suit => .ok (new rank suit)

/-- src/card/mod.rs:173-176, `Card::rank`.  The shift amount 8 is a literal below 32. -/
def rank (self : Card) : Rank :=
  let rank_int := (self.unique_integer.sshiftRight 8) &&& 0xF
  Rank.from_i32 rank_int

/-- src/card/mod.rs:189-192, `Card::suit`. -/
def suit (self : Card) : Suit :=
  let suit_int := (self.unique_integer.sshiftRight 12) &&& 0xF
  Suit.from_i32 suit_int

/-- src/card/mod.rs:228-233, `Card::rank_suit_string`. -/
def rank_suit_string (self : Card) : Str :=
  [self.rank.as_char, self.suit.as_char]

/-- src/card/mod.rs:281-305, `FromStr for Card`. -/
def from_str (value : Str) : Except ParseCardError Card :=
  match value with
  | [rank, suit] =>
    match Rank.try_from rank with
    | .error incorrect_char => .error (.InvalidRank value incorrect_char)
    | .ok rank =>
      match Suit.try_from suit with
      | .error incorrect_char => .error (.InvalidSuit value incorrect_char)
      | .ok suit => .ok (new rank suit)
  | _ => .error (.InvalidLength value)

/-- src/card/mod.rs:270-278, `Card::parse_to_iter`: the items the returned iterator yields, one per
string, in order.  (The iterator is lazy; parsing has no effects, so only the items matter.) -/
def parse_to_iter (strings : List Str) : List (Except ParseCardError Card) :=
  strings.map from_str

/-- src/card/mod.rs:313-315, `Ord for Card`. -/
def cmp (self other : Card) : Ordering := self.rank.cmp other.rank

/-- src/card/mod.rs:307-311, `PartialOrd for Card`. -/
def partial_cmp (self other : Card) : Option Ordering := self.rank.partial_cmp other.rank

/-- src/card/mod.rs:327-331, `Display for Card`: `"[ {}{} ]"`. -/
def display (self : Card) : Str :=
  "[ ".toList ++ self.rank.display ++ self.suit.display ++ " ]".toList

end Card

/-- src/card/mod.rs:380, `ParseToIter::try_collect`, i.e. `Iterator::collect` into a `Result`: pull
items until the first `Err`, which is returned; otherwise all the `Ok` values in order. -/
def try_collect {ε α : Type} : List (Except ε α) → Except ε (List α)
  | [] => .ok []
  | .error e :: _ => .error e
  | .ok a :: rest =>
    match try_collect rest with
    | .error e => .error e
    | .ok as => .ok (a :: as)

/-- `char::is_whitespace` of Rust's standard library: the Unicode property `White_Space`, used by
`str::split_whitespace` (called at src/card/macros.rs:154). -/
def isWhitespace (c : Char) : Bool :=
  let n := c.toNat
  (9 ≤ n && n ≤ 13) || n == 0x20 || n == 0x85 || n == 0xA0 || n == 0x1680
    || (0x2000 ≤ n && n ≤ 0x200A) || n == 0x2028 || n == 0x2029 || n == 0x202F || n == 0x205F
    || n == 0x3000

/-- Worker of `split_whitespace`: `cur` is the word being read. -/
def splitWhitespaceAux : Str → Str → List Str
  | cur, [] => if cur.isEmpty then [] else [cur]
  | cur, c :: cs =>
    if isWhitespace c then
      if cur.isEmpty then splitWhitespaceAux [] cs else cur :: splitWhitespaceAux [] cs
    else splitWhitespaceAux (cur ++ [c]) cs

/-- `str::split_whitespace` (called at src/card/macros.rs:154): the words of a string. -/
def split_whitespace (s : Str) : List Str := splitWhitespaceAux [] s

/-- src/card/macros.rs:150-152, `cards!(s1, s2, ...)`. -/
def cardsOfStrings (strings : List Str) : List (Except ParseCardError Card) :=
  Card.parse_to_iter strings

/-- src/card/macros.rs:153-155, `cards!(s)`. -/
def cardsOfString (card_strings_together : Str) : List (Except ParseCardError Card) :=
  Card.parse_to_iter (split_whitespace card_strings_together)

/-- src/card/macros.rs:144-149, `cards!(R1, S1; R2, S2; ...)` and `cards!(R1 of S1, ...)`. -/
def cardsOfIdents (pairs : List (Rank × Suit)) : List Card :=
  pairs.map (fun p => Card.new p.1 p.2)

/-- src/card/macros.rs:164-172, `box_cards!(first, rest...)`: `first.iter().chain(rest₁)...`. -/
def box_cards (first : List Card) (rest : List (List Card)) : List Card :=
  rest.foldl (fun acc s => acc ++ s) first

end Poker
