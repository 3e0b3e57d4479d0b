import Verif.Model.Exec
import Verif.Model.Types

/-! Model of `src/card/suit.rs`. -/

namespace Poker


namespace Suit

/-- src/card/suit.rs:20-21, `Suit::ALL_VARIANTS`. -/
def ALL_VARIANTS : List Suit := [Clubs, Hearts, Spades, Diamonds]

/-- src/card/suit.rs:34-42, `Suit::as_pretty_char`. -/
def as_pretty_char : Suit → Char
  | Spades => '♠'
  | Hearts => '♥'
  | Clubs => '♣'
  | Diamonds => '♦'

/-- src/card/suit.rs:56-64, `Suit::as_char`. -/
def as_char : Suit → Char
  | Clubs => 'c'
  | Hearts => 'h'
  | Spades => 's'
  | Diamonds => 'd'

/-- src/card/suit.rs:71-79, `Suit::as_i32`. -/
def as_i32 : Suit → BitVec 32
  | Clubs => 8
  | Hearts => 2
  | Spades => 1
  | Diamonds => 4

/-- src/card/suit.rs:84-94, `Suit::from_i32` (any other value falls through to `Spades`). -/
def from_i32 (val : BitVec 32) : Suit :=
  if val = 0b1000 then Clubs
  else if val = 0b0100 then Diamonds
  else if val = 0b0010 then Hearts
  else Spades

/-- src/card/suit.rs:97-110, `TryFrom<char> for Suit`; the error is the offending character. -/
def try_from (value : Char) : Except Char Suit :=
  if value = 's' then .ok Spades
  else if value = 'c' then .ok Clubs
  else if value = 'h' then .ok Hearts
  else if value = 'd' then .ok Diamonds
  else .error value

/-- src/card/suit.rs:112-114, `Display for Suit`. -/
def display (s : Suit) : Str := [s.as_pretty_char]

/-- The variant name, as printed by the derived `Debug` (src/card/suit.rs:7-17). -/
def debug : Suit → Str
  | Clubs => "Clubs".toList
  | Hearts => "Hearts".toList
  | Spades => "Spades".toList
  | Diamonds => "Diamonds".toList

end Suit
end Poker
