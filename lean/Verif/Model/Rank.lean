import Verif.Model.Exec
import Verif.Model.Types

/-! Model of `src/card/rank.rs` and `src/constants.rs`. -/

namespace Poker


namespace Rank

/-- src/card/rank.rs:42-56, `Rank::ALL_VARIANTS`. -/
def ALL_VARIANTS : List Rank :=
  [Two, Three, Four, Five, Six, Seven, Eight, Nine, Ten, Jack, Queen, King, Ace]

/-- src/card/rank.rs:68-85, `Rank::as_char`. -/
def as_char : Rank → Char
  | Ace => 'A'
  | Two => '2'
  | Three => '3'
  | Four => '4'
  | Five => '5'
  | Six => '6'
  | Seven => '7'
  | Eight => '8'
  | Nine => '9'
  | Ten => 'T'
  | Jack => 'J'
  | Queen => 'Q'
  | King => 'K'

/-- src/card/rank.rs:89-106, `Rank::as_i32`. -/
def as_i32 : Rank → BitVec 32
  | Two => 0
  | Three => 1
  | Four => 2
  | Five => 3
  | Six => 4
  | Seven => 5
  | Eight => 6
  | Nine => 7
  | Ten => 8
  | Jack => 9
  | Queen => 10
  | King => 11
  | Ace => 12

/-- src/card/rank.rs:110-129, `Rank::from_i32` (any other value falls through to `Ace`). -/
def from_i32 (val : BitVec 32) : Rank :=
  if val = 0 then Two
  else if val = 1 then Three
  else if val = 2 then Four
  else if val = 3 then Five
  else if val = 4 then Six
  else if val = 5 then Seven
  else if val = 6 then Eight
  else if val = 7 then Nine
  else if val = 8 then Ten
  else if val = 9 then Jack
  else if val = 10 then Queen
  else if val = 11 then King
  else Ace

/-- src/card/rank.rs:133-150, `Rank::as_str_name`. -/
def as_str_name : Rank → Str
  | Two => "two".toList
  | Three => "three".toList
  | Four => "four".toList
  | Five => "five".toList
  | Six => "six".toList
  | Seven => "seven".toList
  | Eight => "eight".toList
  | Nine => "nine".toList
  | Ten => "ten".toList
  | Jack => "jack".toList
  | Queen => "queen".toList
  | King => "king".toList
  | Ace => "ace".toList

/-- src/card/rank.rs:154-171, `Rank::as_str_name_plural`. -/
def as_str_name_plural : Rank → Str
  | Two => "twos".toList
  | Three => "threes".toList
  | Four => "fours".toList
  | Five => "fives".toList
  | Six => "sixes".toList
  | Seven => "sevens".toList
  | Eight => "eights".toList
  | Nine => "nines".toList
  | Ten => "tens".toList
  | Jack => "jacks".toList
  | Queen => "queens".toList
  | King => "kings".toList
  | Ace => "aces".toList

/-- src/card/rank.rs:174-196, `TryFrom<char> for Rank`; the error is the offending character. -/
def try_from (value : Char) : Except Char Rank :=
  if value = 'A' then .ok Ace
  else if value = '2' then .ok Two
  else if value = '3' then .ok Three
  else if value = '4' then .ok Four
  else if value = '5' then .ok Five
  else if value = '6' then .ok Six
  else if value = '7' then .ok Seven
  else if value = '8' then .ok Eight
  else if value = '9' then .ok Nine
  else if value = 'T' then .ok Ten
  else if value = 'J' then .ok Jack
  else if value = 'Q' then .ok Queen
  else if value = 'K' then .ok King
  else .error value

/-- src/card/rank.rs:198-200, `Display for Rank`. -/
def display (r : Rank) : Str := [r.as_char]

/-- The discriminant of the variant in declaration order (src/card/rank.rs:12-39), which the
derived `PartialOrd`/`Ord` of line 6 compare. -/
def discr : Rank → Nat
  | Two => 0
  | Three => 1
  | Four => 2
  | Five => 3
  | Six => 4
  | Seven => 5
  | Eight => 6
  | Nine => 7
  | Ten => 8
  | Jack => 9
  | Queen => 10
  | King => 11
  | Ace => 12

/-- src/card/rank.rs:6, derived `Ord for Rank`: by discriminant. -/
def cmp (a b : Rank) : Ordering := compare a.discr b.discr

/-- src/card/rank.rs:6, derived `PartialOrd for Rank`. -/
def partial_cmp (a b : Rank) : Option Ordering := some (compare a.discr b.discr)

/-- The variant name, as printed by the derived `Debug` (src/card/rank.rs:6,12-39). -/
def debug : Rank → Str
  | Two => "Two".toList
  | Three => "Three".toList
  | Four => "Four".toList
  | Five => "Five".toList
  | Six => "Six".toList
  | Seven => "Seven".toList
  | Eight => "Eight".toList
  | Nine => "Nine".toList
  | Ten => "Ten".toList
  | Jack => "Jack".toList
  | Queen => "Queen".toList
  | King => "King".toList
  | Ace => "Ace".toList

end Rank

/-- src/constants.rs:4, `PRIMES`. -/
def PRIMES : List (BitVec 32) := [2, 3, 5, 7, 11, 13, 17, 19, 23, 29, 31, 37, 41]

/-- src/constants.rs:8, `INT_RANKS`, the range `0..13` of `i16`, as the list of its items. -/
def INT_RANKS : List (BitVec 16) := (List.range 13).map (BitVec.ofNat 16)

end Poker
