import Verif.Spec.Prints

/-! How `Debug` texts look: the names of the Rust declarations, on one line or spread over lines. -/

namespace Poker.Text

/-- The declared name of a rank: its English name, capitalised. -/
def rankName (r : Rank) : List Char := (rankWord r).modifyHead Char.toUpper

/-- The declared name of a suit. -/
def suitName : Suit → List Char
  | .Clubs => "Clubs".toList
  | .Hearts => "Hearts".toList
  | .Spades => "Spades".toList
  | .Diamonds => "Diamonds".toList

/-- `Name { label: value, label: value }` -/
def oneLine (name : List Char) (fields : List (List Char × List Char)) : List Char :=
  name ++ " { ".toList
    ++ ", ".toList.intercalate (fields.map (fun f => f.1 ++ ": ".toList ++ f.2)) ++ " }".toList

/-- The same with every field on a line of its own, all but the first line being indented by `d`. -/
def spread (d name : List Char) (fields : List (List Char × List Char)) : List Char :=
  name ++ " {\n".toList
    ++ fields.flatMap (fun f => d ++ "    ".toList ++ f.1 ++ ": ".toList ++ f.2 ++ ",\n".toList)
    ++ d ++ "}".toList

/-- Lines, each with its end. -/
def lines (l : List (List Char)) : List Char := l.flatMap (fun s => s ++ "\n".toList)

/-- Lines moved `n` columns to the right. -/
def inset (n : Nat) (l : List (List Char)) : List (List Char) := l.map (List.replicate n ' ' ++ ·)

/-- The declared name of the variant of a class. -/
def variantName : EvalClass → List Char
  | .HighCard _ => "HighCard".toList
  | .Pair _ => "Pair".toList
  | .TwoPair _ _ => "TwoPair".toList
  | .ThreeOfAKind _ => "ThreeOfAKind".toList
  | .Straight _ => "Straight".toList
  | .Flush _ => "Flush".toList
  | .FullHouse _ _ => "FullHouse".toList
  | .FourOfAKind _ => "FourOfAKind".toList
  | .StraightFlush _ => "StraightFlush".toList

/-- The declared fields of the variant; `a` and `b` are the names for the ranks of two pairs. -/
def variantFields (a b : String) : EvalClass → List (List Char × List Char)
  | .HighCard r => [("high_rank".toList, rankName r)]
  | .Pair r => [("pair".toList, rankName r)]
  | .TwoPair r q => [(a.toList, rankName r), (b.toList, rankName q)]
  | .ThreeOfAKind r => [("trips".toList, rankName r)]
  | .Straight r => [("high_rank".toList, rankName r)]
  | .Flush r => [("high_rank".toList, rankName r)]
  | .FullHouse r q => [("trips".toList, rankName r), ("pair".toList, rankName q)]
  | .FourOfAKind r => [("quads".toList, rankName r)]
  | .StraightFlush r => [("high_rank".toList, rankName r)]

/-- `d` is the numeral for `n` in base sixteen, with small letters and without needless zeros. -/
def Hexadecimal (d : List Char) (n : Nat) : Prop :=
  d ≠ [] ∧ (∀ c ∈ d, c ∈ "0123456789abcdef".toList) ∧
    d.foldl (fun a c => 16 * a + "0123456789abcdef".toList.idxOf c) 0 = n ∧
    (d.head? = some '0' → d = ['0'])

/-- How a character is written in a text between two `q`. -/
inductive Written (hexed : Char → Bool) (q : Char) : Char → List Char → Prop
  | nul : Written hexed q '\x00' "\\0".toList
  | tab : Written hexed q '\t' "\\t".toList
  | ret : Written hexed q '\r' "\\r".toList
  | newline : Written hexed q '\n' "\\n".toList
  | backslash : Written hexed q '\\' "\\\\".toList
  | quote : Written hexed q q ['\\', q]
  | code (c : Char) (d : List Char) : c ∉ ['\x00', '\t', '\r', '\n', '\\', q] → hexed c = true →
      Hexadecimal d c.toNat → Written hexed q c ("\\u{".toList ++ d ++ "}".toList)
  | itself (c : Char) : c ∉ ['\x00', '\t', '\r', '\n', '\\', q] → hexed c = false →
      Written hexed q c [c]

end Poker.Text
