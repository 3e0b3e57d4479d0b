import Verif.Spec.Odds
import Verif.Spec.Api

/-! Cards dealt to several players from a shuffled deck. -/

namespace Poker

/-- The choices `d` shuffle the deck `l` into one with the property `q`. -/
def Shuffled (l : List Card) (q : List Card → Prop) (d : Draws) : Prop :=
  ∃ m, Deck.shuffle d.stream l = .ok m ∧ q m

/-- The cards at the given places of a deck. -/
def cardsAt (m : List Card) (places : List (Fin 52)) : List Card := places.filterMap (fun i => m[i.val]?)

/-- A way to deal: places in the deck for `k` cards for each of `p` players, and for `b` cards that all of them
share.  No place is used twice; some may be left out. -/
structure Dealing (p k b : Nat) where
  own : Fin p → Fin k → Fin 52
  board : Fin b → Fin 52
  apart : Function.Injective (Sum.elim (fun x : Fin p × Fin k => own x.1 x.2) board)

/-- What `evaluate` returns for the own and the shared cards of player `i`. -/
def Dealing.result {p k b : Nat} (t : Dealing p k b) (m : List Card) (i : Fin p) : Exec (Except EvalError Eval) := do
  let ev ← Evaluator.new
  ev.evaluate (cardsAt m (List.ofFn (t.own i) ++ List.ofFn t.board))

/-- Player `i` has a result, and nobody has a better one. -/
def Dealing.Best {p k b : Nat} (t : Dealing p k b) (i : Fin p) (m : List Card) : Prop :=
  ∃ e, t.result m i = .ok (.ok e) ∧ ∀ j e', t.result m j = .ok (.ok e') → e.lt e' = false

/-- Player `i` has a result, and it is better than that of anybody else. -/
def Dealing.Alone {p k b : Nat} (t : Dealing p k b) (i : Fin p) (m : List Card) : Prop :=
  ∃ e, t.result m i = .ok (.ok e) ∧ ∀ j, j ≠ i → ∀ e', t.result m j = .ok (.ok e') → e.gt e' = true

end Poker
