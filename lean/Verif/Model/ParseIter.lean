import Verif.Model.Card

/-! Model of `Card::parse_to_iter` on an arbitrary iterator and of the adaptor `ParseToIter`, pull by
pull: the iterator given may be endless, may go on after `None`, and is left wherever the last pull
left it.

The only constructor of `ParseToIter` returns `ParseToIter<impl Iterator>`, so no caller can use the
`DoubleEndedIterator` and `ExactSizeIterator` implementations (src/card/mod.rs:357-365); they are modelled
as they would act on the iterator inside. -/

namespace Poker

/-- The part of Rust's trait `Iterator` in use: `next` changes the state `σ`. -/
structure Iter (σ ι : Type) where
  next : σ → Option ι × σ
  size_hint : σ → Nat × Option Nat

/-- `Iterator::map`: pull once, apply the function to the item. -/
def Iter.map {σ ι κ : Type} (self : Iter σ ι) (f : ι → κ) : Iter σ κ where
  next := fun s => match self.next s with
    | (some a, t) => (some (f a), t)
    | (none, t) => (none, t)
  size_hint := self.size_hint

/-- The traits `DoubleEndedIterator` and `ExactSizeIterator`. -/
structure Iter.Ends (σ ι : Type) where
  next_back : σ → Option ι × σ
  len : σ → Nat

/-- Both for `Iterator::map`: an item from the back is mapped, the length is that of what is mapped. -/
def Iter.Ends.map {σ ι κ : Type} (self : Iter.Ends σ ι) (f : ι → κ) : Iter.Ends σ κ where
  next_back := fun s => match self.next_back s with
    | (some a, t) => (some (f a), t)
    | (none, t) => (none, t)
  len := self.len

/-- `Iterator::fold` (src/card/mod.rs:348-354 passes it on): pull until `None`.  The fuel bounds the
number of pulls; `none` means more are needed. -/
def Iter.fold {σ ι β : Type} (self : Iter σ ι) : Nat → σ → β → (β → ι → β) → Option (β × σ)
  | 0, _, _, _ => none
  | fuel + 1, s, init, f => match self.next s with
    | (some a, t) => self.fold fuel t (f init a) f
    | (none, t) => some (init, t)

/-- `Iterator::collect` into `Result<Vec<_>, _>`: pull until `None` or the first `Err`, pushing the
`Ok` values. -/
def Iter.collectResult {σ ε α : Type} (self : Iter σ (Except ε α)) :
    Nat → σ → List α → Option (Except ε (List α) × σ)
  | 0, _, _ => none
  | fuel + 1, s, acc => match self.next s with
    | (none, t) => some (.ok acc, t)
    | (some (.error e), t) => some (.error e, t)
    | (some (.ok a), t) => self.collectResult fuel t (acc ++ [a])

/-- src/card/mod.rs:337-339, `ParseToIter`. -/
structure ParseToIter (σ ι : Type) where
  inner : Iter σ ι

namespace ParseToIter

/-- src/card/mod.rs:344. -/
def next {σ ι : Type} (self : ParseToIter σ ι) (s : σ) : Option ι × σ := self.inner.next s

/-- src/card/mod.rs:346. -/
def size_hint {σ ι : Type} (self : ParseToIter σ ι) (s : σ) : Nat × Option Nat :=
  self.inner.size_hint s

/-- src/card/mod.rs:348-354. -/
def fold {σ ι β : Type} (self : ParseToIter σ ι) (fuel : Nat) (s : σ) (init : β)
    (f : β → ι → β) : Option (β × σ) := self.inner.fold fuel s init f

/-- src/card/mod.rs:359-361, given the traits of the iterator inside. -/
def len {σ ι : Type} (_self : ParseToIter σ ι) (ends : Iter.Ends σ ι) (s : σ) : Nat := ends.len s

/-- src/card/mod.rs:363-365, given the traits of the iterator inside. -/
def next_back {σ ι : Type} (_self : ParseToIter σ ι) (ends : Iter.Ends σ ι) (s : σ) : Option ι × σ :=
  ends.next_back s

/-- src/card/mod.rs:380. -/
def try_collect {σ ε α : Type} (self : ParseToIter σ (Except ε α)) (fuel : Nat) (s : σ) :
    Option (Except ε (List α) × σ) := self.inner.collectResult fuel s []

end ParseToIter

/-- src/card/mod.rs:270-278, `Card::parse_to_iter` on any iterator over strings. -/
def Card.parse_iter {σ : Type} (strings : Iter σ Str) :
    ParseToIter σ (Except ParseCardError Card) := ⟨strings.map Card.from_str⟩

/-- The other traits of the iterator inside what `Card::parse_to_iter` returns. -/
def Card.parse_ends {σ : Type} (strings : Iter.Ends σ Str) :
    Iter.Ends σ (Except ParseCardError Card) := strings.map Card.from_str

/-- `std::slice::Iter`: the state is what is left of the slice. -/
def sliceIter (ι : Type) : Iter (List ι) ι where
  next := fun
    | [] => (none, [])
    | a :: l => (some a, l)
  size_hint := fun l => (l.length, some l.length)

/-- `std::slice::Iter` from the back. -/
def sliceEnds (ι : Type) : Iter.Ends (List ι) ι where
  next_back := fun l => (l.getLast?, l.dropLast)
  len := List.length

end Poker
