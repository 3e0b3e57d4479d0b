import Verif.Model.Error

/-! Model of the `Debug` texts (`{:?}` and `{:#?}`) of the public types: derived for all but `Card`,
whose `Debug` uses `debug_struct` by hand (src/card/mod.rs:317-325).  `alt` says whether the alternate
form `{:#?}` is asked for.  The formatter's builders are those of `core::fmt::builders`. -/

namespace Poker

/-- `PadAdapter`: four spaces at the start of every line; `on` says whether a line is about to start. -/
def padFrom : Bool → Str → Str
  | _, [] => []
  | on, c :: cs => (if on then [' ', ' ', ' ', ' '] else []) ++ c :: padFrom (c == '\n') cs

/-- A text written through a new `PadAdapter`. -/
def pad (s : Str) : Str := padFrom true s

/-- Texts with `", "` between them. -/
def joinComma : List Str → Str
  | [] => []
  | [s] => s
  | s :: t :: rest => s ++ ',' :: ' ' :: joinComma (t :: rest)

/-- `Formatter::debug_struct` with these fields (at least one), their values already formatted. -/
def debugStruct (alt : Bool) (name : Str) (fields : List (Str × Str)) : Str :=
  if alt then
    name ++ " {\n".toList ++ fields.flatMap (fun (f, v) => pad (f ++ ": ".toList ++ v ++ ",\n".toList))
      ++ "}".toList
  else
    name ++ " { ".toList ++ joinComma (fields.map (fun (f, v) => f ++ ": ".toList ++ v)) ++ " }".toList

/-- `Formatter::debug_tuple` with one field. -/
def debugTuple (alt : Bool) (name : Str) (v : Str) : Str :=
  if alt then name ++ "(\n".toList ++ pad (v ++ ",\n".toList) ++ ")".toList
  else name ++ "(".toList ++ v ++ ")".toList

/-- `Formatter::debug_list`. -/
def debugList (alt : Bool) (items : List Str) : Str :=
  if alt then
    match items with
    | [] => "[]".toList
    | _ => "[\n".toList ++ items.flatMap (fun v => pad (v ++ ",\n".toList)) ++ "]".toList
  else "[".toList ++ joinComma items ++ "]".toList

/-- Decimal rendering of a signed integer. -/
def intStr (x : Int) : Str := if x < 0 then '-' :: natStr x.natAbs else natStr x.natAbs

/-- The letter after the backslash for the characters that `char::escape_debug` abbreviates; a quote only
if it is the one around the text. -/
def escapeLetter (quote c : Char) : Option Char :=
  if c = '\x00' then some '0'
  else if c = '\t' then some 't'
  else if c = '\r' then some 'r'
  else if c = '\n' then some 'n'
  else if c = quote then some quote
  else if c = '\\' then some '\\'
  else none

/-- `char::escape_debug` within a text between `quote`s.  `hexed` says which characters are written by
their code: those that are not printable or extend graphemes, by Unicode tables that are a parameter
here. -/
def escapeChar (hexed : Char → Bool) (quote c : Char) : Str :=
  match escapeLetter quote c with
  | some l => ['\\', l]
  | none => if hexed c then "\\u{".toList ++ Nat.toDigits 16 c.toNat ++ "}".toList else [c]

/-- `Debug for str`. -/
def debugStr (hexed : Char → Bool) (s : Str) : Str :=
  '"' :: s.flatMap (escapeChar hexed '"') ++ ['"']

/-- `Debug for char`. -/
def debugChar (hexed : Char → Bool) (c : Char) : Str := '\'' :: escapeChar hexed '\'' c ++ ['\'']

/-- src/card/mod.rs:317-325, `Debug for Card`. -/
def Card.debug (alt : Bool) (self : Card) : Str :=
  debugStruct alt "Card".toList
    [("unique_integer".toList, intStr self.unique_integer.toInt), ("rank".toList, self.rank.debug),
      ("suit".toList, self.suit.debug)]

/-- src/evaluate/hand_rank.rs:7-8, derived `Debug for PokerHandRank`. -/
def PokerHandRank.debug (alt : Bool) (self : PokerHandRank) : Str :=
  debugTuple alt "PokerHandRank".toList (intStr self.val.toInt)

/-- src/evaluate/meta.rs:11-51, derived `Debug for Meta`. -/
def Meta.debug (alt : Bool) : Meta → Str
  | .HighCard hand_rank high_rank => debugStruct alt "HighCard".toList
    [("hand_rank".toList, hand_rank.debug alt), ("high_rank".toList, high_rank.debug)]
  | .Pair hand_rank pair => debugStruct alt "Pair".toList
    [("hand_rank".toList, hand_rank.debug alt), ("pair".toList, pair.debug)]
  | .TwoPair hand_rank high_pair low_pair => debugStruct alt "TwoPair".toList
    [("hand_rank".toList, hand_rank.debug alt), ("high_pair".toList, high_pair.debug),
      ("low_pair".toList, low_pair.debug)]
  | .ThreeOfAKind hand_rank trips => debugStruct alt "ThreeOfAKind".toList
    [("hand_rank".toList, hand_rank.debug alt), ("trips".toList, trips.debug)]
  | .Straight hand_rank high_rank => debugStruct alt "Straight".toList
    [("hand_rank".toList, hand_rank.debug alt), ("high_rank".toList, high_rank.debug)]
  | .Flush hand_rank high_rank => debugStruct alt "Flush".toList
    [("hand_rank".toList, hand_rank.debug alt), ("high_rank".toList, high_rank.debug)]
  | .FullHouse hand_rank trips pair => debugStruct alt "FullHouse".toList
    [("hand_rank".toList, hand_rank.debug alt), ("trips".toList, trips.debug),
      ("pair".toList, pair.debug)]
  | .FourOfAKind hand_rank quads => debugStruct alt "FourOfAKind".toList
    [("hand_rank".toList, hand_rank.debug alt), ("quads".toList, quads.debug)]
  | .StraightFlush hand_rank high_rank => debugStruct alt "StraightFlush".toList
    [("hand_rank".toList, hand_rank.debug alt), ("high_rank".toList, high_rank.debug)]

/-- src/evaluate/eval.rs:58-59, derived `Debug for Eval`. -/
def Eval.debug (alt : Bool) (self : Eval) : Str := debugTuple alt "Eval".toList (self.data.debug alt)

/-- src/evaluate/class.rs:28-81, derived `Debug for EvalClass`. -/
def EvalClass.debug (alt : Bool) : EvalClass → Str
  | .HighCard high_rank => debugStruct alt "HighCard".toList [("high_rank".toList, high_rank.debug)]
  | .Pair pair => debugStruct alt "Pair".toList [("pair".toList, pair.debug)]
  | .TwoPair first_pair second_pair => debugStruct alt "TwoPair".toList
    [("first_pair".toList, first_pair.debug), ("second_pair".toList, second_pair.debug)]
  | .ThreeOfAKind trips => debugStruct alt "ThreeOfAKind".toList [("trips".toList, trips.debug)]
  | .Straight high_rank => debugStruct alt "Straight".toList [("high_rank".toList, high_rank.debug)]
  | .Flush high_rank => debugStruct alt "Flush".toList [("high_rank".toList, high_rank.debug)]
  | .FullHouse trips pair => debugStruct alt "FullHouse".toList
    [("trips".toList, trips.debug), ("pair".toList, pair.debug)]
  | .FourOfAKind quads => debugStruct alt "FourOfAKind".toList [("quads".toList, quads.debug)]
  | .StraightFlush high_rank =>
    debugStruct alt "StraightFlush".toList [("high_rank".toList, high_rank.debug)]

/-- src/error.rs:65-98, derived `Debug for ParseCardError`. -/
def ParseCardError.debug (hexed : Char → Bool) (alt : Bool) : ParseCardError → Str
  | .InvalidLength original_input => debugStruct alt "InvalidLength".toList
    [("original_input".toList, debugStr hexed original_input)]
  | .InvalidRank original_input incorrect_char => debugStruct alt "InvalidRank".toList
    [("original_input".toList, debugStr hexed original_input),
      ("incorrect_char".toList, debugChar hexed incorrect_char)]
  | .InvalidSuit original_input incorrect_char => debugStruct alt "InvalidSuit".toList
    [("original_input".toList, debugStr hexed original_input),
      ("incorrect_char".toList, debugChar hexed incorrect_char)]

/-- src/error.rs:177-185, derived `Debug for EvalError`. -/
def EvalError.debug (alt : Bool) : EvalError → Str
  | .CardsNotUnique cards =>
    debugTuple alt "CardsNotUnique".toList (debugList alt (cards.map (Card.debug alt)))
  | .InvalidHandSize size => debugTuple alt "InvalidHandSize".toList (natStr size)

/-- `Formatter::debug_map`, keys and values already formatted. -/
def debugMap (alt : Bool) (entries : List (Str × Str)) : Str :=
  if alt then
    match entries with
    | [] => "{}".toList
    | _ => "{\n".toList ++ entries.flatMap (fun (k, v) => pad (k ++ ": ".toList ++ v ++ ",\n".toList))
      ++ "}".toList
  else "{".toList ++ joinComma (entries.map (fun (k, v) => k ++ ": ".toList ++ v)) ++ "}".toList

/-- `Debug for HashMap<i32, Meta>`; `order` puts the entries in the order of the iteration. -/
def FxHashMap.debug (order : List (BitVec 32 × Meta) → List (BitVec 32 × Meta)) (alt : Bool)
    (self : FxHashMap Meta) : Str :=
  debugMap alt ((order self.entries).map (fun (k, m) => (intStr k.toInt, m.debug alt)))

/-- src/evaluate/lookup_table.rs:21-25, derived `Debug for LookupTable`. -/
def LookupTable.debug (order : List (BitVec 32 × Meta) → List (BitVec 32 × Meta)) (alt : Bool)
    (self : LookupTable) : Str :=
  debugStruct alt "LookupTable".toList
    [("flush_lookup".toList, self.flush_lookup.debug order alt),
      ("unsuited_lookup".toList, self.unsuited_lookup.debug order alt)]

/-- src/evaluate/mod.rs:76-77, derived `Debug for Evaluator`. -/
def Evaluator.debug (order : List (BitVec 32 × Meta) → List (BitVec 32 × Meta)) (alt : Bool)
    (self : Evaluator) : Str :=
  debugTuple alt "Evaluator".toList (self.table.debug order alt)

end Poker
