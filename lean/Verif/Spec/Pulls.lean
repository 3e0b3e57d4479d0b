import Verif.Model.ParseIter

/-! What an iterator gives when it is pulled. -/

namespace Poker

/-- Pulling `it` from the state `s` once per item gives the items `l` in order, and leaves it in the
state `t`. -/
inductive Gives {σ ι : Type} (it : Iter σ ι) : σ → List ι → σ → Prop
  | nil (s : σ) : Gives it s [] s
  | cons (s t u : σ) (a : ι) (l : List ι) : it.next s = (some a, t) → Gives it t l u →
      Gives it s (a :: l) u

/-- One more pull gives nothing, and leaves the state `t`. -/
def Stops {σ ι : Type} (it : Iter σ ι) (s t : σ) : Prop := it.next s = (none, t)

/-- An iterator that can be pulled at both ends, over exactly the items that are left: `next` takes the
first, `next_back` the last, `len` counts them. -/
inductive TwoEnded {σ ι : Type} (next next_back : σ → Option ι × σ) (len : σ → Nat) : σ → List ι → Prop
  | nil (s t u : σ) : next s = (none, t) → next_back s = (none, u) → len s = 0 →
      TwoEnded next next_back len s []
  | some (s t u : σ) (a b : ι) (l : List ι) (hl : l.head? = Option.some a) (hb : l.getLast? = Option.some b) :
      next s = (Option.some a, t) → next_back s = (Option.some b, u) → len s = l.length →
      TwoEnded next next_back len t l.tail → TwoEnded next next_back len u l.dropLast →
      TwoEnded next next_back len s l

/-- However often pulled, the iterator never gives `None`. -/
def Endless {σ ι : Type} (it : Iter σ ι) (s : σ) : Prop :=
  ∀ l t, Gives it s l t → ∀ u, ¬ Stops it t u

/-- The contract of `size_hint`: bounds for the number of items left, if the iterator ends. -/
def HintHolds {σ ι : Type} (it : Iter σ ι) (hint : Nat × Option Nat) (s : σ) : Prop :=
  ∀ l t u, Gives it s l t → Stops it t u →
    hint.1 ≤ l.length ∧ ∀ m, hint.2 = some m → l.length ≤ m

end Poker
