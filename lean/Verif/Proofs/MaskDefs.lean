import Verif.Proofs.RoomDefs

/-! # Many cards as sets of values, one for each suit (helper definitions)

A set of values is a number: the value `v` is the bit `2 ^ v`. -/

namespace Poker.Mask
open Rules

/-- How many of the bits of the values are set. -/
def pop (x : Nat) : Nat :=
  Nat.mod (Nat.land (Nat.mul (Nat.div x 4) 35185445863425) 76861433640456465) 15

/-- The values of a set. -/
def members (x : Nat) : List Nat := allValues.filter (fun v => x.testBit v)

/-- `X` without `L`. -/
def cut (X L : Nat) : Nat := Nat.xor X (Nat.land X L)

/-- The values of a straight. -/
def runMask (t : Nat) : Nat := ((Room.run t).map (2 ^ ·)).sum

/-- A bound for the number of values from `X` that contain none of the sets `Rs` of five. -/
def greedy : List Nat → Nat → Nat
  | [], X => pop X
  | R :: Rs, X => bif Nat.beq (Nat.land X R) R then Nat.add 4 (greedy Rs (Nat.xor X R)) else greedy Rs X

/-- The values of the straights. -/
def runMasks : List Nat := [31744, 15872, 7936, 3968, 1984, 992, 496, 248, 124, 16444]

/-! ## Flushes -/

/-- The values of a suit whose best five values are no better than `a > b > c > d > e` are in one of these
sets. -/
def typeMasks (a b c d e : Nat) : List Nat :=
  [2 ^ a - 1, 2 ^ a ||| (2 ^ b - 1), 2 ^ a ||| 2 ^ b ||| (2 ^ c - 1), 2 ^ a ||| 2 ^ b ||| 2 ^ c ||| (2 ^ d - 1),
    2 ^ a ||| 2 ^ b ||| 2 ^ c ||| 2 ^ d ||| 2 ^ e ||| (2 ^ e - 1)]

/-- The five values and the values below. -/
def lastMask (a b c d e : Nat) : Nat := 2 ^ a ||| 2 ^ b ||| 2 ^ c ||| 2 ^ d ||| 2 ^ e ||| (2 ^ e - 1)

/-- A bound for the number of values outside `L` of a suit of at most four cards. -/
def small (L : Nat) : Nat := min 4 (pop (cut 32764 L))

/-- Whatever the other three suits are, one of three sets shows that there are at most `r` cards: two of
each value of the set, and those of each suit outside the set. -/
def upFlush (a b c d e r L1 L2 L3 : Nat) : Bool :=
  let m (L : Nat) : Nat := Nat.add (Nat.mul 2 (pop L)) (greedy runMasks (cut (lastMask a b c d e) L))
  let fs : List (Nat × Nat × Nat) := (small L1, small L2, small L3) :: (typeMasks a b c d e).map (fun A =>
    (greedy runMasks (cut A L1), greedy runMasks (cut A L2), greedy runMasks (cut A L3)))
  fs.all (fun x => fs.all (fun y => fs.all (fun z =>
    Nat.ble (Nat.add (Nat.add (Nat.add (m L1) x.1) y.1) z.1) r ||
    (Nat.ble (Nat.add (Nat.add (Nat.add (m L2) x.2.1) y.2.1) z.2.1) r ||
    Nat.ble (Nat.add (Nat.add (Nat.add (m L3) x.2.2) y.2.2) z.2.2) r))))

/-- How many of four sets a value is in. -/
def tally (m0 m1 m2 m3 v : Nat) : Nat :=
  (m0.testBit v).toNat + (m1.testBit v).toNat + (m2.testBit v).toNat + (m3.testBit v).toNat

/-- None of four sets contains a straight. -/
noncomputable def noRow (m0 m1 m2 m3 : Nat) : Bool :=
  !Seven.inRow m0 && !Seven.inRow m1 && !Seven.inRow m2 && !Seven.inRow m3

/-- Four suits whose best five cards are a flush of the given values. -/
noncomputable def okFlush (a b c d e m0 m1 m2 m3 : Nat) : Bool :=
  noRow m0 m1 m2 m3 && allValues.all (fun v => Nat.ble (tally m0 m1 m2 m3 v) 2) &&
  Nat.beq (Nat.shiftRight m0 e) (Nat.shiftRight (2 ^ a ||| 2 ^ b ||| 2 ^ c ||| 2 ^ d ||| 2 ^ e) e) &&
  [m1, m2, m3].all (fun m => Nat.ble (pop m) 4 ||
    (typeMasks a b c d e).any (fun A => Nat.beq (Nat.land m A) m))

/-- One of the thirteen-bit digits of a row. -/
def col (row i : Nat) : Nat := Nat.mul 4 (Nat.mod (Nat.shiftRight row (Nat.mul 13 i)) 8192)

/-- The number of cards of the four suits of a row. -/
def rowRoom (row : Nat) : Nat := pop (col row 0) + pop (col row 1) + pop (col row 2) + pop (col row 3)

/-- The rows of a table. -/
def rows (width : Nat) : Nat → Nat → List Nat
  | 0, _ => []
  | n + 1, T => Nat.mod T (2 ^ width) :: rows width n (Nat.shiftRight T width)

noncomputable def flushRow (w : List Nat) (row : Nat) : Bool :=
  match w with
  | [a, b, c, d, e] => okFlush a b c d e (col row 0) (col row 1) (col row 2) (col row 3) &&
    upFlush a b c d e (rowRoom row) (col row 4) (col row 5) (col row 6)
  | _ => false

/-! ## Four of a kind and full houses -/

noncomputable def quadsRow (w : List Nat) (row : Nat) : Bool :=
  match w with
  | [q, k] =>
    let t := tally (col row 0) (col row 1) (col row 2) (col row 3)
    noRow (col row 0) (col row 1) (col row 2) (col row 3) && Nat.beq (t q) 4 && Nat.ble 1 (t k) && !Nat.beq k q &&
    allValues.all (fun v => Nat.beq v q || ((Nat.ble (t v) 3 || Nat.blt v q) && (Nat.beq (t v) 0 || Nat.ble v k))) &&
    ((Nat.beq q 10 && Nat.ble 40 (rowRoom row)) ||
    Nat.ble (Nat.add ((members (col row 4)).map (Room.hi 4 4 [q] [k])).sum
      (Nat.mul 4 (greedy runMasks (cut (2 ^ q ||| (2 ^ (k + 1) - 1)) (col row 4))))) (rowRoom row))
  | _ => false

/-- How often a value may occur with a full house of `t` and `p`. -/
def fullCap (t p v : Nat) : Nat :=
  bif Nat.beq v t then 3 else bif Nat.ble v p then bif Nat.blt v t then 3 else 2 else 1

noncomputable def fullRow (w : List Nat) (row : Nat) : Bool :=
  match w with
  | [t, p] =>
    let n := tally (col row 0) (col row 1) (col row 2) (col row 3)
    noRow (col row 0) (col row 1) (col row 2) (col row 3) && Nat.beq (n t) 3 && Nat.ble 2 (n p) && !Nat.beq p t &&
    allValues.all (fun v => Nat.ble (n v) 3 &&
      (Nat.beq v t || ((Nat.ble (n v) 2 || Nat.blt v t) && (Nat.ble (n v) 1 || Nat.ble v p)))) &&
    Nat.ble (Nat.add ((members (col row 4)).map (fullCap t p)).sum
      (Nat.mul 4 (greedy runMasks (cut 32764 (col row 4))))) (rowRoom row)
  | _ => false

end Poker.Mask
