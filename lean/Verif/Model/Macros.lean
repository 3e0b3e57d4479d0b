import Verif.Model.Card

/-! Model of the macros of `src/card/macros.rs` as `macro_rules!` sees them: lists of tokens that are
matched against the arms, first arm first.

The matcher is that of the compiler: all positions in the pattern that the tokens so far allow are kept
at once; a token moves on those that wait for it; a fragment is read only if no position waits for the
token and just one can begin with it; there is no way back once a fragment is being read.  How
expressions are read is a parameter (`Exprs`). -/

namespace Poker.Macros

/-- A token (or a group in brackets) of a macro call.  `of` is an identifier for the compiler. -/
inductive Tok where
  | ident (name : Str)
  | comma
  | semi
  | other (n : Nat)
  deriving DecidableEq

/-- The word `of`. -/
def Tok.of : Tok := .ident ['o', 'f']

/-- How the compiler reads expressions: which tokens can begin one, and what is read, with the number of
tokens after the first that belong to it, or that there is a syntax error. -/
structure Exprs (E : Type) where
  begins : Tok → Bool
  parse : List Tok → Option (E × Nat)

/-- A simple part of a pattern: `$x:ident`, `$x:expr` or a token. -/
inductive Simple where
  | ident
  | expr
  | tok (t : Tok)

/-- A part of a pattern: a simple one, `$( ... )sep+`, the place after one round of it, or `$(t)?`. -/
inductive Pat where
  | one (s : Simple)
  | plus (body : List Simple) (sep : Tok)
  | again (body : List Simple) (sep : Tok)
  | opt (t : Tok)

/-- What a fragment stands for. -/
inductive Bound (E : Type) where
  | ident (name : Str)
  | expr (e : E)

/-- A position in a pattern: the fragments so far and what is still to come. -/
structure Pos (E : Type) where
  bound : List (Bound E)
  rest : List Pat

/-- The outcome of matching one arm; an error ends the whole call. -/
inductive Match (E : Type) where
  | matched (bound : List (Bound E))
  | no
  | error

/-- All ways to go on from a place: each begins with a simple part, or is the end. -/
def ways : List Pat → List (List Pat)
  | [] => [[]]
  | .one s :: r => [.one s :: r]
  | .plus body sep :: r => [body.map .one ++ .again body sep :: r]
  | .again body sep :: r => (.one (.tok sep) :: (body.map .one ++ .again body sep :: r)) :: ways r
  | .opt t :: r => (.one (.tok t) :: r) :: ways r

variable {E : Type}

/-- The positions from a place on. -/
def starts (bound : List (Bound E)) (rest : List Pat) : List (Pos E) := (ways rest).map (⟨bound, ·⟩)

/-- The positions after a token, from those that wait for it. -/
def passed (t : Tok) (p : Pos E) : List (Pos E) :=
  match p.rest with
  | .one (.tok u) :: r => if u = t then starts p.bound r else []
  | _ => []

/-- Whether a position is a fragment that can begin with the token. -/
def begun (P : Exprs E) (t : Tok) (p : Pos E) : Bool :=
  match p.rest with
  | .one .ident :: _ => match t with
    | .ident _ => true
    | _ => false
  | .one .expr :: _ => P.begins t
  | _ => false

/-- Whether a position is the end of the pattern. -/
def finished (p : Pos E) : Bool := p.rest.isEmpty

/-- Matching an arm. -/
def run (P : Exprs E) (ps : List (Pos E)) (ts : List Tok) : Match E :=
  match ts with
  | [] => match ps.filter finished with
    | [] => .no
    | [p] => .matched p.bound
    | _ => .error
  | t :: ts =>
    match ps.flatMap (passed t), ps.filter (begun P t) with
    | [], [] => .no
    | next, [] => run P next ts
    | [], [p] => match p.rest with
      | .one .ident :: r => match t with
        | .ident name => run P (starts (p.bound ++ [.ident name]) r) ts
        | _ => .error
      | .one .expr :: r => match P.parse (t :: ts) with
        | none => .error
        | some (e, n) => run P (starts (p.bound ++ [.expr e]) r) (ts.drop n)
      | _ => .error
    | _, _ => .error
  termination_by ts.length
  decreasing_by all_goals simp [List.length_drop]; try omega

/-- What a call of `card!` stands for: `Card::new(Rank::r, Suit::s)` or `e.parse::<Card>()`. -/
inductive CardExp (E : Type) where
  | new (r s : Str)
  | parse (e : E)

/-- What a call of `cards!` stands for: an array, `Card::parse_to_iter(&[e1, e2, ...])` or
`Card::parse_to_iter(e.split_whitespace())`. -/
inductive CardsExp (E : Type) where
  | array (l : List (CardExp E))
  | strings (es : List E)
  | words (e : E)

/-- The arms in turn: the first that matches is taken; `none` if the call does not compile. -/
def arms {X : Type} (P : Exprs E) (ts : List Tok) : List (List Pat × (List (Bound E) → Option X)) → Option X
  | [] => none
  | (pat, f) :: as =>
    match run P (starts [] pat) ts with
    | .matched b => f b
    | .no => arms P ts as
    | .error => none

/-- src/card/macros.rs:38-48, `card!`. The second arm calls the macro again. -/
def card (P : Exprs E) (ts : List Tok) : Option (CardExp E) :=
  let first : List Pat × (List (Bound E) → Option (CardExp E)) :=
    ([.one .ident, .one (.tok .comma), .one .ident], fun
      | [.ident r, .ident s] => some (.new r s)
      | _ => none)
  arms P ts [first,
    ([.one .ident, .one (.tok .of), .one .ident], fun
      | [.ident r, .ident s] => arms P [.ident r, .comma, .ident s] [first]
      | _ => none),
    ([.one .expr], fun
      | [.expr e] => some (.parse e)
      | _ => none)]

/-- The pairs of identifiers that a repetition stands for. -/
def pairs : List (Bound E) → Option (List (Str × Str))
  | [] => some []
  | .ident r :: .ident s :: b => (pairs b).map ((r, s) :: ·)
  | _ => none

/-- The expressions that a repetition stands for. -/
def exprs : List (Bound E) → Option (List E)
  | [] => some []
  | .expr e :: b => (exprs b).map (e :: ·)
  | _ => none

/-- The tokens `r1, s1; r2, s2; ...` that the second arm of `cards!` passes on. -/
def passOn : List (Str × Str) → List Tok
  | [] => []
  | [(r, s)] => [.ident r, .comma, .ident s]
  | (r, s) :: l => .ident r :: .comma :: .ident s :: .semi :: passOn l

/-- src/card/macros.rs:143-156, `cards!`.  The first arm makes an array of calls of `card!`, the second
calls the macro again. -/
def cards (P : Exprs E) (ts : List Tok) : Option (CardsExp E) :=
  let first : List Pat × (List (Bound E) → Option (CardsExp E)) :=
    ([.plus [.ident, .tok .comma, .ident] .semi, .opt .semi], fun b =>
      (pairs b).bind (fun l =>
        (l.mapM (fun p => card P [.ident p.1, .comma, .ident p.2])).map .array))
  arms P ts [first,
    ([.plus [.ident, .tok .of, .ident] .comma, .opt .comma], fun b =>
      (pairs b).bind (fun l => arms P (passOn l) [first])),
    ([.one .expr, .one (.tok .comma), .plus [.expr] .comma, .opt .comma], fun b =>
      (exprs b).map .strings),
    ([.one .expr], fun
      | [.expr e] => some (.words e)
      | _ => none)]

/-- src/card/macros.rs:163-172, `box_cards!`: the first slice and those chained to it. -/
def box (P : Exprs E) (ts : List Tok) : Option (E × List E) :=
  arms P ts [([.one .expr, .one (.tok .comma), .plus [.expr] .comma, .opt .comma], fun
    | .expr e :: b => (exprs b).map (e, ·)
    | _ => none)]

/-- src/card/rank.rs:12-39, the variants of `Rank` by name. -/
def rankNamed (name : Str) : Option Rank :=
  Rank.ALL_VARIANTS.find? (fun r => decide ((match r with
    | .Two => "Two"
    | .Three => "Three"
    | .Four => "Four"
    | .Five => "Five"
    | .Six => "Six"
    | .Seven => "Seven"
    | .Eight => "Eight"
    | .Nine => "Nine"
    | .Ten => "Ten"
    | .Jack => "Jack"
    | .Queen => "Queen"
    | .King => "King"
    | .Ace => "Ace").toList = name))

/-- src/card/suit.rs:8-17, the variants of `Suit` by name. -/
def suitNamed (name : Str) : Option Suit :=
  [Suit.Clubs, .Hearts, .Spades, .Diamonds].find? (fun s => decide ((match s with
    | .Clubs => "Clubs"
    | .Hearts => "Hearts"
    | .Spades => "Spades"
    | .Diamonds => "Diamonds").toList = name))

/-- What comes of a call of `card!`. -/
inductive CardValue where
  | card (c : Card)
  | result (r : Except ParseCardError Card)

/-- The value of what `card!` stands for, given those of the expressions; `none` if it does not compile
because there is no variant of the name. -/
def CardExp.value (str : E → Str) : CardExp E → Option CardValue
  | .new r s => do
    let r ← rankNamed r
    let s ← suitNamed s
    return .card (Card.new r s)
  | .parse e => some (.result (Card.from_str (str e)))

/-- What comes of a call of `cards!`: an array or the items of an iterator. -/
inductive CardsValue where
  | array (l : List Card)
  | iter (l : List (Except ParseCardError Card))

/-- The value of what `cards!` stands for.  An array needs elements of one type. -/
def CardsExp.value (str : E → Str) : CardsExp E → Option CardsValue
  | .array l => (l.mapM (fun (x : CardExp E) => (x.value str).bind (fun
      | .card c => some c
      | .result _ => none))).map .array
  | .strings es => some (.iter (cardsOfStrings (es.map str)))
  | .words e => some (.iter (cardsOfString (str e)))

end Poker.Macros
