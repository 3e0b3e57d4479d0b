import Verif.Proofs.HoldTables

/-! What the cards that are kept are worth, in a form that the kernel evaluates well.

A hand is given by its values from the highest to the lowest and by the set of the values of each suit,
which is a number with a bit for every value. -/

namespace Poker.Hold
open Rules Counts

/-- An entry of a table. -/
noncomputable def entry (t i : Nat) : Nat := Nat.mod (Nat.shiftRight t (Nat.mul 40 i)) 1099511627776

/-- Where the entry for some values is. -/
noncomputable def place1 (a : Nat) : Nat := Nat.sub a 2
noncomputable def place2 (a b : Nat) : Nat :=
  Nat.add (Nat.div (Nat.mul (Nat.sub a 2) (Nat.sub a 1)) 2) (place1 b)
noncomputable def place3 (a b c : Nat) : Nat :=
  Nat.add (Nat.div (Nat.mul (Nat.sub a 2) (Nat.mul (Nat.sub a 1) a)) 6) (place2 b c)
noncomputable def place4 (a b c d : Nat) : Nat :=
  Nat.add (Nat.div (Nat.mul (Nat.sub a 2) (Nat.mul (Nat.sub a 1) (Nat.mul a (Nat.succ a)))) 24)
    (place3 b c d)

/-- How many times the wager comes back for a kind of hand. -/
noncomputable def pay (royal k : Nat) : Nat :=
  cond (Nat.ble k 1) 0 (cond (Nat.beq k 10) 2 (cond (Nat.beq k 2) 3 (cond (Nat.beq k 3) 4
    (cond (Nat.beq k 4) 5 (cond (Nat.beq k 5) 7 (cond (Nat.beq k 6) 10 (cond (Nat.beq k 7) 26
    (cond (Nat.beq k 8) 51 royal))))))))

/-- The kind of a hand without pairs. -/
noncomputable def plain (fl : Bool) (a b e : Nat) : Nat :=
  cond ((Nat.beq a (Nat.add e 4)).or ((Nat.beq a 14).and (Nat.beq b 5)))
    (cond fl (cond (Nat.beq e 10) 9 8) 4) (cond fl 5 0)

noncomputable def paired (a : Nat) : Nat := cond (Nat.ble 11 a) 10 1

/-- The kind of the hand with these values, which fall. -/
noncomputable def quick (fl : Bool) (a b c d e : Nat) : Nat :=
  cond (Nat.beq a b)
    (cond (Nat.beq b c) (cond (Nat.beq c d) 7 (cond (Nat.beq d e) 6 3))
      (cond (Nat.beq c d) (cond (Nat.beq d e) 6 2) (cond (Nat.beq d e) 2 (paired a))))
    (cond (Nat.beq b c)
      (cond (Nat.beq c d) (cond (Nat.beq d e) 7 3) (cond (Nat.beq d e) 2 (paired b)))
      (cond (Nat.beq c d) (cond (Nat.beq d e) 3 (paired c))
        (cond (Nat.beq d e) (paired d) (plain fl a b e))))

/-- What comes back in all the ways to complete cards that are not of one suit. -/
noncomputable def mixed (t : Tabs) : List Nat → Nat
  | [a, b] => entry t.mixed2 (place2 a b)
  | [a, b, c] => entry t.mixed3 (place3 a b c)
  | [a, b, c, d] => entry t.mixed4 (place4 a b c d)
  | [a, b, c, d, e] => pay t.royal (quick false a b c d e)
  | _ => 0

/-- What comes back in all the ways to complete cards of one suit. -/
noncomputable def suited (t : Tabs) : List Nat → Nat
  | [] => t.suited0
  | [a] => entry t.suited1 (place1 a)
  | [a, b] => entry t.suited2 (place2 a b)
  | [a, b, c] => entry t.suited3 (place3 a b c)
  | [a, b, c, d] => entry t.suited4 (place4 a b c d)
  | [a, b, c, d, e] => pay t.royal (quick true a b c d e)
  | _ => 0

/-- A value put into a falling list. -/
noncomputable def ins (v : Nat) : List Nat → List Nat
  | [] => [v]
  | a :: l => cond (Nat.ble a v) (v :: a :: l) (a :: ins v l)

/-- The falling lists of `n` of the values. -/
def falling : Nat → List Nat → List (List Nat)
  | 0, _ => [[]]
  | n + 1, l => l.tails.flatMap (fun
    | [] => []
    | v :: vs => (falling n (v :: vs)).map (v :: ·))

/-- The sum of a function over a list. -/
noncomputable def addUp (f : Nat → Nat) (l : List Nat) : Nat :=
  List.rec 0 (fun v _ r => Nat.add (f v) r) l

noncomputable def mixedOk (t : Tabs) (n : Nat) (l : List Nat) : Bool :=
  Nat.beq (Nat.mul n (mixed t l))
    (addUp (fun v => Nat.mul (Nat.sub 4 (times v l)) (mixed t (ins v l))) allValues)

noncomputable def suitedOk (t : Tabs) (n : Nat) (l : List Nat) : Bool :=
  Nat.beq (Nat.mul n (suited t l))
    (addUp (fun v => Nat.add (cond (has l v) 0 (suited t (ins v l))) (Nat.mul 3 (mixed t (ins v l))))
      allValues)

/-- The largest value of a function on a list. -/
noncomputable def largest (f : List Nat → Nat) (L : List (List Nat)) : Nat :=
  List.rec 0 (fun l _ r => cond (Nat.ble r (f l)) (f l) r) L

noncomputable def quickOk (fl : Bool) : List Nat → Bool
  | [a, b, c, d, e] => (Nat.beq a e).or (Nat.beq (fast fl [a, b, c, d, e]) (quick fl a b c d e))
  | _ => true

/-- The number of hands that the worth of `k` cards is counted in, so that all worths are in parts of
12994800. -/
noncomputable def weight : Nat → Nat
  | 0 => 5
  | 1 => 52
  | 2 => 663
  | 3 => 11050
  | 4 => 270725
  | 5 => 12994800
  | _ => 0

/-- The bit of a value. -/
noncomputable def bit (v : Nat) : Nat := Nat.pow 2 (Nat.sub v 2)

/-- The set of some values. -/
noncomputable def mask (l : List Nat) : Nat := List.rec 0 (fun v _ r => Nat.add (bit v) r) l

noncomputable def worthSuited (t : Tabs) (l : List Nat) : Nat := Nat.mul (weight l.length) (suited t l)

noncomputable def worthMixed (t : Tabs) (l : List Nat) : Nat := Nat.mul (weight l.length) (mixed t l)

noncomputable def emptyOk (t : Tabs) : Bool :=
  Nat.beq (Nat.mul 5 (suited t [])) (addUp (fun v => Nat.mul 4 (suited t [v])) allValues)

noncomputable def lessOk (t : Tabs) (l : List Nat) : Bool := Nat.ble (mixed t l) (suited t l)

noncomputable def max2 (a b : Nat) : Nat := cond (Nat.ble a b) b a

/-- The lists with one value less. -/
def drops : List Nat → List (List Nat)
  | [] => []
  | v :: l => l :: (drops l).map (v :: ·)

noncomputable def bestOk (t : Tabs) (l : List Nat) : Bool :=
  Nat.beq (entry t.best (mask l))
    (max2 (worthSuited t l) (largest (fun r => entry t.best (mask r)) (drops l)))

/-- The worth of the best cards among five, if they are not of one suit. -/
noncomputable def held (t : Tabs) (a b c d e : Nat) : Nat :=
  max2 (Nat.mul 12994800 (pay t.royal (quick false a b c d e)))
  (max2 (Nat.mul 270725 (max2 (entry t.mixed4 (place4 a b c d)) (max2 (entry t.mixed4 (place4 a b c e)) (max2 (entry t.mixed4 (place4 a b d e)) (max2 (entry t.mixed4 (place4 a c d e)) (entry t.mixed4 (place4 b c d e)))))))
  (max2 (Nat.mul 11050 (max2 (entry t.mixed3 (place3 a b c)) (max2 (entry t.mixed3 (place3 a b d)) (max2 (entry t.mixed3 (place3 a b e)) (max2 (entry t.mixed3 (place3 a c d)) (max2 (entry t.mixed3 (place3 a c e)) (max2 (entry t.mixed3 (place3 a d e)) (max2 (entry t.mixed3 (place3 b c d)) (max2 (entry t.mixed3 (place3 b c e)) (max2 (entry t.mixed3 (place3 b d e)) (entry t.mixed3 (place3 c d e))))))))))))
   (Nat.mul 663 (max2 (entry t.mixed2 (place2 a b)) (max2 (entry t.mixed2 (place2 a c)) (max2 (entry t.mixed2 (place2 a d)) (max2 (entry t.mixed2 (place2 a e)) (max2 (entry t.mixed2 (place2 b c)) (max2 (entry t.mixed2 (place2 b d)) (max2 (entry t.mixed2 (place2 b e)) (max2 (entry t.mixed2 (place2 c d)) (max2 (entry t.mixed2 (place2 c e)) (entry t.mixed2 (place2 d e))))))))))))))

/-- The sum of a function over the ways to give `j` of the suits another value. -/
noncomputable def extendInto (b : Nat) (f : List Nat → Nat) (bs : List Nat) : Nat → List Nat → Nat :=
  List.rec (fun j pre => Nat.rec (f pre) (fun _ _ => 0) j)
    (fun x bs ih j pre => Nat.rec (f (List.append (x :: bs) pre))
      (fun j' _ => Nat.add (ih j' (Nat.add x b :: pre)) (ih (Nat.succ j') (x :: pre))) j) bs

/-- The worth of the best cards, when the suits that occur have the values `bs`. -/
noncomputable def leaf (t : Tabs) (m : Nat) (bs : List Nat) : Nat :=
  List.rec m (fun b _ r => max2 (entry t.best b) r) bs

noncomputable def binom (z i : Nat) : Nat :=
  Nat.mod (Nat.shiftRight (Nat.mod (Nat.shiftRight 0x1464101331001210001100001 (Nat.mul 20 z))
    0x100000) (Nat.mul 4 i)) 16

/-- The sum of `leaf` over the ways to give each value as many suits as it needs, while `z` suits have
no value yet. -/
noncomputable def spread (t : Tabs) (m : Nat) (G : List (Nat × Nat)) : Nat → List Nat → Nat :=
  List.rec (fun _ bs => leaf t m bs)
   (fun p _ ih z bs => Prod.rec (fun b j =>
     addUp (fun i => Nat.mul (binom z i)
      (extendInto b (fun bs' => ih (Nat.sub z i) bs') bs (Nat.sub j i) (List.replicate i b)))
      (List.range (Nat.succ (cond (Nat.ble j z) j z)))) p) G

/-- The bits of a falling list of values, and how often each occurs. -/
noncomputable def group : List Nat → List (Nat × Nat)
  | [] => []
  | v :: l => match group l with
    | [] => [(bit v, 1)]
    | (b, j) :: G => cond (Nat.beq b (bit v)) ((b, Nat.succ j) :: G) ((bit v, 1) :: (b, j) :: G)

/-- `f m`, with `m` evaluated first. -/
noncomputable def forced (m : Nat) (f : Nat → Nat) : Nat :=
  Nat.rec (f 0) (fun k _ => f (Nat.succ k)) m

/-- The sum of the worth of the best cards over all hands with these values. -/
noncomputable def hands (t : Tabs) : List Nat → Nat
  | [a, b, c, d, e] => forced (max2 (held t a b c d e) (entry t.best 0))
      (fun m => spread t m (group [a, b, c, d, e]) 4 [])
  | _ => 0

noncomputable def sumOver (f : List Nat → Nat) (L : List (List Nat)) : Nat :=
  List.rec 0 (fun l _ r => Nat.add (f l) r) L

/-- The part of the sum over all hands in which the highest value is `v`. -/
noncomputable def part (t : Tabs) (v : Nat) (rs : List Nat) : Nat :=
  sumOver (hands t) ((falling 4 (v :: rs)).map (List.cons v))

end Poker.Hold
