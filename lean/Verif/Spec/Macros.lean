import Verif.Model.Macros
import Verif.Spec.Debug

/-! How calls of the macros may be written, said without the arms and the matcher. -/

namespace Poker.Written

open Poker.Macros

/-- The word `of`. -/
def ofWord : Tok := .ident "of".toList

/-- `r x s`, such as `King, Hearts` or `King of Hearts`. -/
def pair (x : Tok) (p : Str × Str) : List Tok := [.ident p.1, x, .ident p.2]

/-- Pairs with `sep` between them. -/
def pairs (x sep : Tok) (l : List (Str × Str)) : List Tok := [sep].intercalate (l.map (pair x))

/-- At least one pair, with `sep` between them and perhaps one after the last. -/
def Pairs (x sep : Tok) (ts : List Tok) (l : List (Str × Str)) : Prop :=
  l ≠ [] ∧ (ts = pairs x sep l ∨ ts = pairs x sep l ++ [sep])

/-- A list of pairs: `r, s; r, s; ...` or `r of s, r of s, ...`. -/
def Names (ts : List Tok) (l : List (Str × Str)) : Prop :=
  Pairs .comma .semi ts l ∨ Pairs ofWord .comma ts l

variable {E : Type}

/-- The tokens begin with an expression; `rest` is what follows it. -/
def Begins (P : Exprs E) (ts : List Tok) (e : E) (rest : List Tok) : Prop :=
  ∃ t u n, ts = t :: u ∧ P.begins t = true ∧ P.parse ts = some (e, n) ∧ rest = u.drop n

/-- Expressions with commas between them; the last says whether there is one more comma at the end. -/
inductive Listed (P : Exprs E) : List Tok → List E → Bool → Prop where
  | last {ts e} : Begins P ts e [] → Listed P ts [e] false
  | trail {ts e} : Begins P ts e [.comma] → Listed P ts [e] true
  | more {ts e rest es b} : Begins P ts e (.comma :: rest) → Listed P rest es b → Listed P ts (e :: es) b

/-- The names of the variants for a card. -/
def names (p : Rank × Suit) : Str × Str := (Text.rankName p.1, Text.suitName p.2)

end Poker.Written
