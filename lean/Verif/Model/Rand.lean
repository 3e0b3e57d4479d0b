import Verif.Model.Deck

/-! Model of the shuffle down to the random words: `Deck.shuffle` takes the numbers that `gen_index` returns as
given, here they are computed from 32-bit words as rand 0.8.5 (the version in Cargo.lock) does.  rand is not
part of /repo and its source was not at hand: the algorithm is written down, and the lines of code below are quoted,
from knowledge of the published crate, and nothing here checks that they agree with it
(`rand::seq::SliceRandom::shuffle`, `rand::seq::gen_index`, `rand::distributions::uniform::UniformInt::<u32>::sample_single_inclusive`). -/

namespace Poker.Rand

/-- What a generator returns: the words that `next_u32` gives one after the other.  Lists are finite, so a
computation may run out of words: the result is `none`, and more words would let it go on. -/
abbrev Words := List (BitVec 32)

/-- `u32::leading_zeros`. -/
def leading_zeros (x : BitVec 32) : Nat := if x = 0 then 32 else 31 - x.toNat.log2

/-- `u32::wmul`: the product in 64 bits, its upper and its lower half. -/
def wmul (a b : BitVec 32) : BitVec 32 × BitVec 32 :=
  let t : BitVec 64 := a.setWidth 64 * b.setWidth 64
  ((t >>> 32).setWidth 32, t.setWidth 32)

/-- `(range << range.leading_zeros()).wrapping_sub(1)` -/
def zone (range : BitVec 32) : BitVec 32 := (range <<< leading_zeros range) - 1

/-- `loop { let v = rng.gen(); let (hi, lo) = v.wmul(range); if lo <= zone { return low.wrapping_add(hi) } }`
with `low = 0`.  (`range == 0`, which stands for all numbers, does not occur: the caller has `range >= 2`.) -/
def sample (range : BitVec 32) : Words → Option (BitVec 32 × Words)
  | [] => none
  | v :: words =>
    let (hi, lo) := wmul v range
    if lo ≤ zone range then some (hi, words) else sample range words

/-- `gen_index(rng, ubound)` for `ubound <= u32::MAX`: `rng.gen_range(0..ubound as u32) as usize`. -/
def gen_index (ubound : Nat) (words : Words) : Option (Nat × Words) :=
  match sample (BitVec.ofNat 32 ubound) words with
  | none => none
  | some (i, words) => some (i.toNat, words)

/-- `for i in (1..self.len()).rev() { self.swap(i, gen_index(rng, i + 1)); }` -/
def shuffleAux {α : Type} : Nat → List α → Words → Exec (Option (List α × Words))
  | 0, l, words => .ok (some (l, words))
  | i + 1, l, words =>
    match gen_index (i + 2) words with
    | none => .ok none
    | some (j, words) => do
      let l ← Deck.swap l (i + 1) j
      shuffleAux i l words

/-- `deck.shuffle(rng)`, src/deck.rs:47 and examples/jacks-or-better.rs:100,110. -/
def shuffle {α : Type} (l : List α) (words : Words) : Exec (Option (List α × Words)) :=
  shuffleAux (l.length - 1) l words

/-- src/deck.rs:41-49, `shuffled_with`. -/
def shuffled_with (words : Words) : Exec (Option (List Card × Words)) := shuffle Deck.generate words

end Poker.Rand
