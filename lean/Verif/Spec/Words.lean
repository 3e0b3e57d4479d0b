import Verif.Model.Rand
import Mathlib.Data.Set.Card

/-! Counting sequences of random words. -/

namespace Poker

/-- How many of the `2^(32 n)` sequences of `n` words have the property. -/
noncomputable def sequences (n : Nat) (q : Rand.Words → Prop) : Nat :=
  {f : Fin n → BitVec 32 | q (List.ofFn f)}.ncard

/-- The words are enough to shuffle the deck, and the result has the property. -/
def ShufflesTo (l : List Card) (q : List Card → Prop) (words : Rand.Words) : Prop :=
  ∃ m rest, Rand.shuffle l words = .ok (some (m, rest)) ∧ q m

/-- The words are not enough to shuffle the deck. -/
def TooFew (l : List Card) (words : Rand.Words) : Prop := Rand.shuffle l words = .ok none

/-- Several shuffles with one stream of words.  What is shuffled next may depend on all that came out before: on
the cards dealt and on what a player made of them. -/
def shuffles {α : Type} (next : List (List α) → List α) :
    Nat → List (List α) → Rand.Words → Exec (Option (List (List α) × Rand.Words))
  | 0, before, words => .ok (some (before, words))
  | k + 1, before, words => do
    match ← Rand.shuffle (next before) words with
    | none => .ok none
    | some (m, words) => shuffles next k (before ++ [m]) words

/-- A possible course of several shuffles: each result is a rearrangement of what was shuffled. -/
def Course {α : Type} (next : List (List α) → List α) (h : List (List α)) : Prop :=
  ∀ (i : Nat) (m : List α), h[i]? = some m → m.Perm (next (h.take i))

end Poker
