import Verif.Model.Card

/-! Model of `src/deck.rs`. -/

namespace Poker.Deck

/-- src/deck.rs:26-31, `deck::generate` (`cartesian_product`: the first factor varies slowest). -/
def generate : List Card :=
  Rank.ALL_VARIANTS.flatMap (fun rank => Suit.ALL_VARIANTS.map (fun suit => Card.new rank suit))

/-- `slice::swap(i, j)`. -/
def swap {α : Type} (l : List α) (i j : Nat) : Exec (List α) := do
  let a ← idx l i
  let b ← idx l j
  let l ← setIdx l i b
  setIdx l j a

/-- `SliceRandom::shuffle` of rand 0.8 (called at src/deck.rs:47):
`for i in (1..self.len()).rev() { self.swap(i, gen_index(rng, i + 1)); }`.
The generator is an arbitrary function `draw`: `draw i` is what `gen_index(rng, i + 1)` returns in
the iteration for `i`.  Its contract `draw i ≤ i` is a hypothesis of the theorems. -/
def shuffleAux {α : Type} (draw : Nat → Nat) : Nat → List α → Exec (List α)
  | 0, l => .ok l
  | i + 1, l => do
    let l ← swap l (i + 1) (draw (i + 1))
    shuffleAux draw i l

/-- `deck.shuffle(rng)`: `i` runs from `len - 1` down to `1`. -/
def shuffle {α : Type} (draw : Nat → Nat) (l : List α) : Exec (List α) :=
  shuffleAux draw (l.length - 1) l

/-- src/deck.rs:41-49, `shuffled_with`; `shuffled` (src/deck.rs:36) is the same with the thread's
own generator. -/
def shuffled_with (draw : Nat → Nat) : Exec (List Card) :=
  shuffle draw generate

end Poker.Deck
