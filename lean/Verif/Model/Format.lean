import Verif.Model.Error

/-! Model of the `Display` impls as what they are: programs that write to a formatter, piece by piece.  The
other files model only the text that comes out.  A formatter is a set of options (`{:>10}`, `{:.2}`, ...) and
a writer that may refuse a piece.  `write!`, `Formatter::pad`, `write_str` and `write_char` are those of
`core::fmt`. -/

namespace Poker.Format

/-- `fmt::Write`: a writer takes a text or a character and says whether it could (`Ok(())` is `true`); its
state may change either way. -/
structure Sink (σ : Type) where
  write_str : Str → σ → Bool × σ
  write_char : Char → σ → Bool × σ

/-- `fmt::Alignment`. -/
inductive Alignment
  | Left
  | Right
  | Center
  deriving DecidableEq

/-- The options of a `fmt::Formatter`; `{}` stands for no option. -/
structure Options where
  fill : Char := ' '
  align : Option Alignment := none
  width : Option Nat := none
  precision : Option Nat := none
  plus : Bool := false
  alternate : Bool := false
  zeros : Bool := false

/-- `fn fmt(&self, f: &mut Formatter) -> fmt::Result` for a given `self`. -/
abbrev Fmt (σ : Type) := Options → Sink σ → σ → Bool × σ

/-- `a?; b`. -/
def andThen {σ : Type} (a b : σ → Bool × σ) (s : σ) : Bool × σ :=
  match a s with
  | (true, s) => b s
  | (false, s) => (false, s)

/-- A piece of a format string: literal text, or a placeholder `{}` with its argument. -/
inductive Piece (σ : Type)
  | text (t : Str)
  | arg (d : Fmt σ)

/-- `fmt::write`, called by `write!`: literal text is written as it is, if there is any; an argument gets a
formatter with the options of its placeholder, here always none. -/
def write {σ : Type} (w : Sink σ) : List (Piece σ) → σ → Bool × σ
  | [], s => (true, s)
  | .text t :: ps, s => if t = [] then write w ps s else andThen (w.write_str t) (write w ps) s
  | .arg d :: ps, s => andThen (d {} w) (write w ps) s

/-- `for _ in 0..n { write_char(c)?; }` -/
def writeMany {σ : Type} (w : Sink σ) (c : Char) : Nat → σ → Bool × σ
  | 0, s => (true, s)
  | n + 1, s => andThen (w.write_char c) (writeMany w c n) s

/-- `Formatter::padding`: how many fill characters go before and how many after. -/
def padding (o : Options) (n : Nat) (default : Alignment) : Nat × Nat :=
  match o.align.getD default with
  | .Left => (0, n)
  | .Right => (n, 0)
  | .Center => (n / 2, (n + 1) / 2)

/-- The part of `Formatter::pad` that cuts the text to the precision. -/
def truncated (o : Options) (t : Str) : Str :=
  match o.precision with
  | some max => t.take max
  | none => t

/-- `Formatter::pad`. -/
def pad {σ : Type} (t : Str) : Fmt σ := fun o w =>
  if o.width.isNone && o.precision.isNone then w.write_str t
  else
    let t := truncated o t
    match o.width with
    | none => w.write_str t
    | some width =>
      if width ≤ t.length then w.write_str t
      else
        let (pre, post) := padding o (width - t.length) .Left
        andThen (writeMany w o.fill pre) (andThen (w.write_str t) (writeMany w o.fill post))

/-- `Display for str` and for `String`. -/
def str {σ : Type} (t : Str) : Fmt σ := pad t

/-- `Display for char`. -/
def char {σ : Type} (c : Char) : Fmt σ := fun o w =>
  if o.width.isNone && o.precision.isNone then w.write_char c else pad [c] o w

/-- `Display for usize`, only as it is for `{}`, the one placeholder that the crate uses for numbers. -/
def usize {σ : Type} (n : Nat) : Fmt σ := fun _ w => w.write_str (natStr n)

/-- `fmt::Write for String`. -/
def string : Sink Str where
  write_str := fun t s => (true, s ++ t)
  write_char := fun c s => (true, s ++ [c])

/-- `format!("{:...}", x)` with these options; `x.to_string()` for none. -/
def format (o : Options) (x : Fmt Str) : Bool × Str := x o string []

end Poker.Format

namespace Poker

open Format

/-- src/card/rank.rs:198-200, `Display for Rank`. -/
def Rank.fmt {σ : Type} (self : Rank) : Fmt σ := fun _ w => w.write_char self.as_char

/-- src/card/suit.rs:112-114, `Display for Suit`. -/
def Suit.fmt {σ : Type} (self : Suit) : Fmt σ := fun _ w => w.write_char self.as_pretty_char

/-- src/card/mod.rs:327-331, `Display for Card`. -/
def Card.fmt {σ : Type} (self : Card) : Fmt σ := fun _ w =>
  write w [.text "[ ".toList, .arg self.rank.fmt, .arg self.suit.fmt, .text " ]".toList]

/-- src/evaluate/class.rs:83-120, `Display for EvalClass`. -/
def EvalClass.fmt {σ : Type} (self : EvalClass) : Fmt σ := fun _ w =>
  match self with
  | .HighCard high_rank => write w [.text "High card, ".toList, .arg (str high_rank.as_str_name)]
  | .Pair pair => write w [.text "Pair, ".toList, .arg (str pair.as_str_name_plural)]
  | .TwoPair high_pair low_pair =>
    write w [.text "Two pair, ".toList, .arg (str high_pair.as_str_name_plural), .text " and ".toList,
      .arg (str low_pair.as_str_name_plural)]
  | .ThreeOfAKind trips => write w [.text "Three of a kind, ".toList, .arg (str trips.as_str_name_plural)]
  | .Straight high_rank =>
    write w [.text "Straight, ".toList, .arg (str high_rank.as_str_name), .text "-high".toList]
  | .Flush high_rank =>
    write w [.text "Flush, ".toList, .arg (str high_rank.as_str_name), .text "-high".toList]
  | .FullHouse trips pair =>
    write w [.text "Full house, ".toList, .arg (str trips.as_str_name_plural), .text " over ".toList,
      .arg (str pair.as_str_name_plural)]
  | .FourOfAKind quads => write w [.text "Four of a kind, ".toList, .arg (str quads.as_str_name_plural)]
  | .StraightFlush high_rank =>
    match high_rank with
    | .Ace => write w [.text "Royal flush".toList]
    | high_rank =>
      write w [.text "Straight flush, ".toList, .arg (str high_rank.as_str_name), .text "-high".toList]

/-- src/evaluate/meta.rs:168-170, `Display for Meta`: with the same formatter. -/
def Meta.fmt {σ : Type} (self : Meta) : Fmt σ := fun o w => self.class'.fmt o w

/-- src/evaluate/eval.rs:126-128, `Display for Eval`: with the same formatter. -/
def Eval.fmt {σ : Type} (self : Eval) : Fmt σ := fun o w => self.data.fmt o w

/-- src/error.rs:100-129, `Display for ParseCardError`. -/
def ParseCardError.fmt {σ : Type} (self : ParseCardError) : Fmt σ := fun _ w =>
  match self with
  | .InvalidLength original_input =>
    write w [.text "Error parsing input '".toList, .arg (str original_input),
      .text "' as a Card: Found input of length ".toList, .arg (usize (byteLen original_input)),
      .text ", expected 2".toList]
  | .InvalidRank original_input incorrect_char =>
    write w [.text "Error parsing input '".toList, .arg (str original_input),
      .text "' as a Card: Invalid rank character '".toList, .arg (char incorrect_char),
      .text "', expected one of [23456789TJQKA]".toList]
  | .InvalidSuit original_input incorrect_char =>
    write w [.text "Error parsing input '".toList, .arg (str original_input),
      .text "' as a Card: Invalid suit character '".toList, .arg (char incorrect_char),
      .text "', expected one of [chsd]".toList]

/-- src/error.rs:187-219, `Display for EvalError`. -/
def EvalError.fmt {σ : Type} (order : List (Card × Nat) → List (Card × Nat)) (self : EvalError) : Fmt σ :=
  fun _ w =>
  match self with
  | .CardsNotUnique cards =>
    write w [.text
      "Cannot evaluate a poker hand with a set of cards that are not unique. Cards duplicated at least once: ".toList,
      .arg (str (joinSpace (dupNames order cards)))]
  | .InvalidHandSize size =>
    write w [.text
      "Cannot evaluate a poker hand with a set of less than 5 cards. Number of cards received: ".toList,
      .arg (usize size)]

end Poker
