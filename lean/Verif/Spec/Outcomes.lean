import Verif.Spec.Strategy

/-! How likely each prize is in one round. -/

namespace Poker

open Rules Game

/-- In how many ways the two shuffles of a round can end with `c'` credits. -/
noncomputable def endings (ev : Evaluator) (l : List Card) (c : Nat) (bet : Input)
    (choice : List PCard → Input) (c' : Nat) : Nat :=
  {d : Draws × Draws | Round ev l c bet choice d.1 d.2 c'}.ncard

/-- How many times the wager `w` comes back, and in how many of 2759229200 cases when the player stands
on every paying hand, keeps a low pair and otherwise changes all five cards. -/
def ruleTable (w : Nat) : List (Nat × Nat) :=
  [(0, 1677484145), (2, 538560000), (3, 327381912), (4, 174496608), (5, 16256250), (7, 8140875),
    (10, 13874328), (26, 2971332), (51, 57375), (if w = 5 then 801 else 251, 6375)]

/-- The same in 2598960 cases when the player never changes a card. -/
def standTable (w : Nat) : List (Nat × Nat) :=
  [(0, 2062860), (2, 337920), (3, 123552), (4, 54912), (5, 10200), (7, 5108), (10, 3744), (26, 624),
    (51, 36), (if w = 5 then 801 else 251, 4)]

end Poker
