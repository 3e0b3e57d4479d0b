import Verif.Proofs.FreqShape
import Verif.Proofs.SevenSum
import Verif.Proofs.Categories
import Verif.Spec.Frequency

/-! How many hands of `n` cards have each category. -/

namespace Poker.Freq
open Rules Counts

/-- How many hands of `n` cards have the property `q`. -/
def total (q : List PCard → Bool) (n : Nat) : Nat := cards.sublists'.countP (fun h => q h && h.length == n)

theorem digit_of {x k : Nat} {l : List Nat} (hc : Nat.beq (Nat.mod x (Nat.pow base k)) (number l) = true)
    (hl : ∀ d ∈ l, d < base) {i : Nat} (hi : i < k) : x / base ^ i % base = l.getD i 0 := by
  have e : x % base ^ k = number l := Nat.eq_of_beq_eq_true hc
  rw [← digit_mod x i k hi, e, number_digit l hl]

/-- Counting by a digit. -/
theorem total_digit {xs : List (Option Nat)} {q p : List PCard → Bool} {x k : Nat} {l : List Nat} {i n : Nat}
    (hx : (cards.sublists'.map (fun h => wt (xs.map power) ranks h * (q h).toNat)).sum = x)
    (hc : Nat.beq (Nat.mod x (Nat.pow base k)) (number l) = true) (hl : ∀ d ∈ l, d < base) (hi : i < k)
    (hp : ∀ h ∈ cards.sublists', (p h && h.length == n) = (q h && fits xs ranks h && expo xs ranks h == i)) :
    total p n = l.getD i 0 := by
  rw [← digit_of hc hl hi, ← count_digit xs q hx i]
  exact List.countP_congr (fun h hh => by rw [hp h hh])

theorem total_any {n : Nat} (hn : n < 53) : total (fun h => !hasStraightFlush h) n = any.getD n 0 := by
  refine total_digit (sum_runs _) any_check (by decide) hn ?_
  intro h hh
  have s := shape_of hh
  rw [s.fits, s.expo, s.length]
  simp

theorem total_three {n : Nat} (hn : n < 53) :
    total (fun h => !hasStraightFlush h && !hasQuads h) n = three.getD n 0 := by
  refine total_digit (sum_runs _) three_check (by decide) hn ?_
  intro h hh
  have s := shape_of hh
  rw [s.fits, s.expo, s.length, s.quads]
  generalize group h 1 = a at *
  generalize group h 2 = b at *
  generalize group h 3 = c at *
  generalize group h 4 = d at *
  cases hasStraightFlush h
  · rw [Bool.eq_iff_iff]
    simp
    omega
  · rfl

/-- At most two of each rank. -/
theorem fits_two {h : List PCard} (hh : h ∈ cards.sublists') (q : Bool) (n : Nat) :
    (q && !hasTrips h && h.length == n)
      = (q && fits [some 0, some 1, some 2, none, none] ranks h
        && expo [some 0, some 1, some 2, none, none] ranks h == n) := by
  have s := shape_of hh
  rw [s.fits, s.expo, s.length, s.trips]
  generalize group h 1 = a at *
  generalize group h 2 = b at *
  generalize group h 3 = c at *
  generalize group h 4 = d at *
  cases q
  · rfl
  · rw [Bool.eq_iff_iff]
    simp
    omega

/-- One rank three times and the others at most once. -/
theorem fits_trips {h : List PCard} (hh : h ∈ cards.sublists') (q : Bool) {n : Nat} (h3 : 3 ≤ n) (hn : n < 23) :
    (q && (hasTrips h && !hasQuads h && !hasFullHouse h) && h.length == n)
      = (q && fits [some 0, some 1, none, some 20, none] ranks h
        && expo [some 0, some 1, none, some 20, none] ranks h == n + 17) := by
  have s := shape_of hh
  have hs := s.size
  rw [s.fits, s.expo, s.length, s.trips, s.quads, s.full]
  generalize group h 1 = a at *
  generalize group h 2 = b at *
  generalize group h 3 = c at *
  generalize group h 4 = d at *
  cases q
  · rfl
  · rw [Bool.eq_iff_iff]
    simp
    omega

/-- One rank twice and the others at most once. -/
theorem fits_pair {h : List PCard} (hh : h ∈ cards.sublists') (q : Bool) {n : Nat} (h2 : 2 ≤ n) (hn : n < 22) :
    (q && (hasPair h && !hasTwoPair h && !hasTrips h) && h.length == n)
      = (q && fits [some 0, some 1, some 20, none, none] ranks h
        && expo [some 0, some 1, some 20, none, none] ranks h == n + 18) := by
  have s := shape_of hh
  have hs := s.size
  rw [s.fits, s.expo, s.length, s.trips, s.twoPair, s.pair]
  generalize group h 1 = a at *
  generalize group h 2 = b at *
  generalize group h 3 = c at *
  generalize group h 4 = d at *
  cases q
  · rfl
  · rw [Bool.eq_iff_iff]
    simp
    omega

/-- Every rank at most once. -/
theorem fits_high {h : List PCard} (hh : h ∈ cards.sublists') (q : Bool) {n : Nat} (hn : n < 20) :
    (q && !hasPair h && h.length == n)
      = (q && fits [some 0, some 1, some 20, none, none] ranks h
        && expo [some 0, some 1, some 20, none, none] ranks h == n) := by
  have s := shape_of hh
  have hs := s.size
  rw [s.fits, s.expo, s.length, s.pair]
  generalize group h 1 = a at *
  generalize group h 2 = b at *
  generalize group h 3 = c at *
  generalize group h 4 = d at *
  cases q
  · rfl
  · rw [Bool.eq_iff_iff]
    simp
    omega

theorem total_two {n : Nat} (hn : n < 53) :
    total (fun h => !hasStraightFlush h && !hasTrips h) n = two.getD n 0 :=
  total_digit (sum_runs _) two_check (by decide) hn (fun h hh => fits_two hh (!hasStraightFlush h) n)

theorem total_trips {n : Nat} (h3 : 3 ≤ n) (hn : n < 23) :
    total (fun h => !hasStraightFlush h && (hasTrips h && !hasQuads h && !hasFullHouse h)) n
      = trips.getD (n + 17) 0 :=
  total_digit (sum_runs _) trips_check (by decide) (by omega)
    (fun h hh => fits_trips hh (!hasStraightFlush h) h3 hn)

theorem total_fewTwo {n : Nat} (hn : n < 53) : total (fun h => !hasFlush h && !hasTrips h) n = fewTwo.getD n 0 :=
  total_digit (sum_few _) fewTwo_check (by decide) hn (fun h hh => fits_two hh (!hasFlush h) n)

theorem total_fewTrips {n : Nat} (h3 : 3 ≤ n) (hn : n < 23) :
    total (fun h => !hasFlush h && (hasTrips h && !hasQuads h && !hasFullHouse h)) n = fewTrips.getD (n + 17) 0 :=
  total_digit (sum_few _) fewTrips_check (by decide) (by omega) (fun h hh => fits_trips hh (!hasFlush h) h3 hn)

theorem sum_rows' (ys : List (Option Nat)) :
    (cards.sublists'.map (fun h => wt ((some 0 :: ys).map power) ranks h
      * (!hasFlush h && !hasStraight h).toNat)).sum = rows (0 :: ys.map power) := sum_rows _

theorem total_rowTwo {n : Nat} (hn : n < 53) :
    total (fun h => (!hasFlush h && !hasStraight h) && !hasTrips h) n = rowTwo.getD n 0 :=
  total_digit (sum_rows' _) rowTwo_check (by decide) hn
    (fun h hh => fits_two hh (!hasFlush h && !hasStraight h) n)

theorem total_rowTrips {n : Nat} (h3 : 3 ≤ n) (hn : n < 23) :
    total (fun h => (!hasFlush h && !hasStraight h) && (hasTrips h && !hasQuads h && !hasFullHouse h)) n
      = rowTrips.getD (n + 17) 0 :=
  total_digit (sum_rows' _) rowTrips_check (by decide) (by omega)
    (fun h hh => fits_trips hh (!hasFlush h && !hasStraight h) h3 hn)

theorem total_rowPair {n : Nat} (h2 : 2 ≤ n) (hn : n < 22) :
    total (fun h => (!hasFlush h && !hasStraight h) && (hasPair h && !hasTwoPair h && !hasTrips h)) n
      = rowPair.getD (n + 18) 0 :=
  total_digit (sum_rows' _) rowPair_check (by decide) (by omega)
    (fun h hh => fits_pair hh (!hasFlush h && !hasStraight h) h2 hn)

theorem total_rowHigh {n : Nat} (hn : n < 20) :
    total (fun h => (!hasFlush h && !hasStraight h) && !hasPair h) n = rowPair.getD n 0 :=
  total_digit (sum_rows' _) rowPair_check (by decide) (by omega)
    (fun h hh => fits_high hh (!hasFlush h && !hasStraight h) hn)

/-! ## The categories -/

/-- The same in any list of hands. -/
def tally (L : List (List PCard)) (q : List PCard → Bool) (n : Nat) : Nat :=
  L.countP (fun h => q h && h.length == n)

theorem tally_sum (L : List (List PCard)) (ps qs : List (List PCard → Bool)) (n : Nat)
    (h : ∀ x ∈ L, (ps.map (fun p => (p x).toNat)).sum = (qs.map (fun q => (q x).toNat)).sum) :
    (ps.map (fun p => tally L p n)).sum = (qs.map (fun q => tally L q n)).sum := by
  have key : ∀ (L : List (List PCard)) (ps : List (List PCard → Bool)),
      (ps.map (fun p => L.countP (fun h => p h && h.length == n))).sum
        = (L.map (fun h => (ps.map (fun p => (p h).toNat)).sum * (h.length == n).toNat)).sum := by
    intro L ps
    induction L with
    | nil => simp
    | cons x L ih =>
      rw [List.map_cons, List.sum_cons, ← ih]
      clear ih
      induction ps with
      | nil => simp
      | cons p ps ih =>
        simp only [List.map_cons, List.sum_cons, List.countP_cons, Nat.add_mul] at ih ⊢
        rw [ih]
        cases p x <;> cases x.length == n <;> simp <;> omega
  simp only [tally, key]
  exact congrArg List.sum (List.map_congr_left (fun x hx => by rw [h x hx]))

theorem tally_one (L : List (List PCard)) (p q : List PCard → Bool) (n : Nat)
    (h : ∀ x ∈ L, (p x).toNat = (q x).toNat) : tally L p n = tally L q n := by
  simpa using tally_sum L [p] [q] n (by simpa using h)

theorem tally_two (L : List (List PCard)) (p q r : List PCard → Bool) (n : Nat)
    (h : ∀ x ∈ L, (p x).toNat = (q x).toNat + (r x).toNat) : tally L p n = tally L q n + tally L r n := by
  simpa using tally_sum L [p] [q, r] n (by simpa using h)

theorem tally_three (L : List (List PCard)) (p q r s : List PCard → Bool) (n : Nat)
    (h : ∀ x ∈ L, (p x).toNat = (q x).toNat + ((r x).toNat + (s x).toNat)) :
    tally L p n = tally L q n + (tally L r n + tally L s n) := by
  simpa using tally_sum L [p] [q, r, s] n (by simpa using h)

theorem tally_five (L : List (List PCard)) (p p' q r s : List PCard → Bool) (n : Nat)
    (h : ∀ x ∈ L, (p x).toNat + (p' x).toNat = (q x).toNat + ((r x).toNat + (s x).toNat)) :
    tally L p n + tally L p' n = tally L q n + (tally L r n + tally L s n) := by
  simpa using tally_sum L [p, p'] [q, r, s] n (by simpa using h)

theorem total_one (p q : List PCard → Bool) (n : Nat)
    (h : ∀ x ∈ cards.sublists', (p x).toNat = (q x).toNat) : total p n = total q n := tally_one _ p q n h

theorem total_pair (p q r : List PCard → Bool) (n : Nat)
    (h : ∀ x ∈ cards.sublists', (p x).toNat = (q x).toNat + (r x).toNat) :
    total p n = total q n + total r n := tally_two _ p q r n h

theorem total_triple (p q r s : List PCard → Bool) (n : Nat)
    (h : ∀ x ∈ cards.sublists', (p x).toNat = (q x).toNat + ((r x).toNat + (s x).toNat)) :
    total p n = total q n + (total r n + total s n) := tally_three _ p q r s n h

theorem total_both (p p' q r s : List PCard → Bool) (n : Nat)
    (h : ∀ x ∈ cards.sublists', (p x).toNat + (p' x).toNat = (q x).toNat + ((r x).toNat + (s x).toNat)) :
    total p n + total p' n = total q n + (total r n + total s n) := tally_five _ p p' q r s n h

theorem total_none {p : List PCard → Bool} {n : Nat}
    (h : ∀ x ∈ cards.sublists', p x = true → x.length ≠ n) : total p n = 0 := by
  rw [total, List.countP_eq_zero]
  intro x hx hp
  rw [Bool.and_eq_true, beq_iff_eq] at hp
  exact h x hx hp.1 hp.2

/-- The category from the features. -/
def named (sf q fu fl st tr tp pr : Bool) : Nat :=
  if sf then 8 else if q then 7 else if fu then 6 else if fl then 5 else if st then 4 else if tr then 3
  else if tp then 2 else if pr then 1 else 0

theorem category_named (h : List PCard) : category h = named (hasStraightFlush h) (hasQuads h) (hasFullHouse h)
    (hasFlush h) (hasStraight h) (hasTrips h) (hasTwoPair h) (hasPair h) := rfl

/-- The sums of the features that give the categories. -/
theorem split_named : ∀ sf q fu fl st tr tp pr : Bool, (fl || !sf) = true → (tr || !q) = true → (tr || !fu) = true →
    (tp || !fu) = true → (pr || !tp) = true → (pr || !tr) = true →
    true.toNat = (named sf q fu fl st tr tp pr == 8).toNat + (!sf).toNat ∧
    (!sf).toNat = (named sf q fu fl st tr tp pr == 7).toNat + (!sf && !q).toNat ∧
    (!sf && !q).toNat = (named sf q fu fl st tr tp pr == 6).toNat + ((!sf && !tr).toNat
      + (!sf && (tr && !q && !fu)).toNat) ∧
    (!sf && !tr).toNat + (!sf && (tr && !q && !fu)).toNat = (named sf q fu fl st tr tp pr == 5).toNat
      + ((!fl && !tr).toNat + (!fl && (tr && !q && !fu)).toNat) ∧
    (!fl && !tr).toNat + (!fl && (tr && !q && !fu)).toNat = (named sf q fu fl st tr tp pr == 4).toNat
      + (((!fl && !st) && !tr).toNat + ((!fl && !st) && (tr && !q && !fu)).toNat) ∧
    (named sf q fu fl st tr tp pr == 3).toNat = ((!fl && !st) && (tr && !q && !fu)).toNat ∧
    ((!fl && !st) && !tr).toNat = (named sf q fu fl st tr tp pr == 2).toNat
      + (((!fl && !st) && (pr && !tp && !tr)).toNat + ((!fl && !st) && !pr).toNat) ∧
    (named sf q fu fl st tr tp pr == 1).toNat = ((!fl && !st) && (pr && !tp && !tr)).toNat ∧
    (named sf q fu fl st tr tp pr == 0).toNat = ((!fl && !st) && !pr).toNat := by
  decide +kernel

theorem flush_of_row (h : List PCard) : (hasFlush h || !hasStraightFlush h) = true := by
  cases hr : hasStraightFlush h with
  | false => simp
  | true =>
    obtain ⟨s, hs, ht⟩ := List.any_eq_true.1 hr
    have h5 := Seven.run_length ht
    rw [values, List.length_map] at h5
    rw [show hasFlush h = true from List.any_eq_true.2 ⟨s, hs, by simpa using h5⟩]
    rfl

theorem total_len (q : List PCard → Bool) (l : List PCard) (n : Nat) :
    l.sublists'.countP (fun h => q h && h.length == n) = (List.sublistsLen n l).countP q := by
  induction l generalizing n q with
  | nil => cases n <;> cases h : q [] <;> simp [h]
  | cons c l ih =>
    rw [List.sublists'_cons, List.countP_append, ih]
    cases n with
    | zero =>
      have : List.countP ((fun h => q h && h.length == 0)) (l.sublists'.map (List.cons c)) = 0 :=
        List.countP_eq_zero.2 (by simp)
      rw [this]
      simp
    | succ n =>
      rw [List.sublistsLen_succ_cons, List.countP_append, List.countP_map, List.countP_map]
      congr 1
      rw [← ih (q ∘ List.cons c)]
      refine List.countP_congr (fun h _ => ?_)
      simp

theorem total_true (n : Nat) : total (fun _ => true) n = Nat.choose 52 n := by
  rw [total, total_len, List.countP_true, List.length_sublistsLen]
  rfl

/-- The hands with one rank three times and the others at most once, none of them with 23 cards or more. -/
theorem total_large {q : List PCard → Bool} {n : Nat} (hn : 23 ≤ n) :
    total (fun h => q h && (hasTrips h && !hasQuads h && !hasFullHouse h)) n = 0 := by
  refine total_none (fun x hx hp => ?_)
  have s := shape_of hx
  have hs := s.size
  rw [s.length]
  rw [s.trips, s.quads, s.full] at hp
  simp at hp
  omega

theorem total_largePair {q : List PCard → Bool} {n : Nat} (hn : 20 ≤ n) :
    total (fun h => q h && (hasPair h && !hasTwoPair h && !hasTrips h)) n = 0 ∧
    total (fun h => q h && !hasPair h) n = 0 := by
  constructor
  · refine total_none (fun x hx hp => ?_)
    have s := shape_of hx
    have hs := s.size
    rw [s.length]
    rw [s.trips, s.twoPair, s.pair] at hp
    simp at hp
    omega
  · refine total_none (fun x hx hp => ?_)
    have s := shape_of hx
    have hs := s.size
    rw [s.length]
    rw [s.pair] at hp
    simp at hp
    omega

/-- The same tables by the number of cards. -/
def tripsOf (l : List Nat) (n : Nat) : Nat := if n < 23 then l.getD (n + 17) 0 else 0

/-- The hands with one pair. -/
def pairOf (n : Nat) : Nat := if n < 20 then rowPair.getD (n + 18) 0 else 0

/-- The hands without a pair. -/
def highOf (n : Nat) : Nat := if n < 20 then rowPair.getD n 0 else 0

/-- The number of sets of `n` of 52 cards. -/
def chosen (n : Nat) : Nat := Nat.descFactorial 52 n / n.factorial

set_option maxRecDepth 1000000 in
/-- The counts of the categories solve the sums of the features. -/
theorem solve : ∀ n < 53, 5 ≤ n →
    chosen n = (frequencies n).getD 8 0 + any.getD n 0 ∧
    any.getD n 0 = (frequencies n).getD 7 0 + three.getD n 0 ∧
    three.getD n 0 = (frequencies n).getD 6 0 + (two.getD n 0 + tripsOf trips n) ∧
    two.getD n 0 + tripsOf trips n = (frequencies n).getD 5 0 + (fewTwo.getD n 0 + tripsOf fewTrips n) ∧
    fewTwo.getD n 0 + tripsOf fewTrips n = (frequencies n).getD 4 0 + (rowTwo.getD n 0 + tripsOf rowTrips n) ∧
    (frequencies n).getD 3 0 = tripsOf rowTrips n ∧
    rowTwo.getD n 0 = (frequencies n).getD 2 0 + (pairOf n
      + highOf n) ∧
    (frequencies n).getD 1 0 = pairOf n ∧
    (frequencies n).getD 0 0 = highOf n ∧
    (frequencies n).length = 9 := by
  decide +kernel

theorem equal {x T F : Nat} (h : T = x) (h' : F = x) : T = F := h.trans h'.symm

theorem same {x T F a : Nat} (h : x = T + a) (h' : x = F + a) : T = F := by omega

/-- How many sets of `n` cards have the category `k`. -/
theorem total_category {n : Nat} (h5 : 5 ≤ n) (hn : n < 53) (k : Nat) :
    total (fun h => category h == k) n = (frequencies n).getD k 0 := by
  have split := fun h (hh : h ∈ cards.sublists') =>
    have s := shape_of hh
    split_named (hasStraightFlush h) (hasQuads h) (hasFullHouse h) (hasFlush h) (hasStraight h) (hasTrips h)
      (hasTwoPair h) (hasPair h) (flush_of_row h)
      (by rw [s.trips, s.quads]; simp; omega) (by rw [s.trips, s.full]; simp; omega)
      (by rw [s.twoPair, s.full]; simp; omega) (by rw [s.pair, s.twoPair]; simp; omega)
      (by rw [s.pair, s.trips]; simp; omega)
  have e8 := total_pair (fun _ => true) (fun h => category h == 8) (fun h => !hasStraightFlush h) n
    (fun h hh => (split h hh).1)
  have e7 := total_pair (fun h => !hasStraightFlush h) (fun h => category h == 7)
    (fun h => !hasStraightFlush h && !hasQuads h) n (fun h hh => (split h hh).2.1)
  have e6 := total_triple (fun h => !hasStraightFlush h && !hasQuads h) (fun h => category h == 6)
    (fun h => !hasStraightFlush h && !hasTrips h)
    (fun h => !hasStraightFlush h && (hasTrips h && !hasQuads h && !hasFullHouse h)) n
    (fun h hh => (split h hh).2.2.1)
  have e5 := total_both (fun h => !hasStraightFlush h && !hasTrips h)
    (fun h => !hasStraightFlush h && (hasTrips h && !hasQuads h && !hasFullHouse h))
    (fun h => category h == 5) (fun h => !hasFlush h && !hasTrips h)
    (fun h => !hasFlush h && (hasTrips h && !hasQuads h && !hasFullHouse h)) n
    (fun h hh => (split h hh).2.2.2.1)
  have e4 := total_both (fun h => !hasFlush h && !hasTrips h)
    (fun h => !hasFlush h && (hasTrips h && !hasQuads h && !hasFullHouse h))
    (fun h => category h == 4) (fun h => (!hasFlush h && !hasStraight h) && !hasTrips h)
    (fun h => (!hasFlush h && !hasStraight h) && (hasTrips h && !hasQuads h && !hasFullHouse h)) n
    (fun h hh => (split h hh).2.2.2.2.1)
  have e3 := total_one (fun h => category h == 3)
    (fun h => (!hasFlush h && !hasStraight h) && (hasTrips h && !hasQuads h && !hasFullHouse h)) n
    (fun h hh => (split h hh).2.2.2.2.2.1)
  have e2 := total_triple (fun h => (!hasFlush h && !hasStraight h) && !hasTrips h) (fun h => category h == 2)
    (fun h => (!hasFlush h && !hasStraight h) && (hasPair h && !hasTwoPair h && !hasTrips h))
    (fun h => (!hasFlush h && !hasStraight h) && !hasPair h) n (fun h hh => (split h hh).2.2.2.2.2.2.1)
  have e1 := total_one (fun h => category h == 1)
    (fun h => (!hasFlush h && !hasStraight h) && (hasPair h && !hasTwoPair h && !hasTrips h)) n
    (fun h hh => (split h hh).2.2.2.2.2.2.2.1)
  have e0 := total_one (fun h => category h == 0) (fun h => (!hasFlush h && !hasStraight h) && !hasPair h) n
    (fun h hh => (split h hh).2.2.2.2.2.2.2.2)
  have tripsAt : ∀ (q : List PCard → Bool) (l : List Nat), (n < 23 →
      total (fun h => q h && (hasTrips h && !hasQuads h && !hasFullHouse h)) n = l.getD (n + 17) 0) →
      total (fun h => q h && (hasTrips h && !hasQuads h && !hasFullHouse h)) n = tripsOf l n := by
    intro q l h
    rw [tripsOf]
    by_cases hs : n < 23
    · rw [if_pos hs, h hs]
    · rw [if_neg hs, total_large (by omega)]
  have pairAt : total (fun h => (!hasFlush h && !hasStraight h) && (hasPair h && !hasTwoPair h && !hasTrips h)) n
      = pairOf n ∧
      total (fun h => (!hasFlush h && !hasStraight h) && !hasPair h) n
        = highOf n := by
    rw [pairOf, highOf]
    by_cases hs : n < 20
    · rw [if_pos hs, if_pos hs]
      exact ⟨total_rowPair (by omega) (by omega), total_rowHigh hs⟩
    · rw [if_neg hs, if_neg hs]
      exact total_largePair (by omega)
  have t1 := tripsAt (fun h => !hasStraightFlush h) trips (total_trips (by omega))
  have t2 := tripsAt (fun h => !hasFlush h) fewTrips (total_fewTrips (by omega))
  have t3 := tripsAt (fun h => !hasFlush h && !hasStraight h) rowTrips (total_rowTrips (by omega))
  simp only [total_true, total_any hn, total_three hn, total_two hn, total_fewTwo hn, total_rowTwo hn, t1, t2,
    t3, pairAt.1, pairAt.2] at e8 e7 e6 e5 e4 e3 e2 e1 e0
  obtain ⟨s8, s7, s6, s5, s4, s3, s2, s1, s0, sl⟩ := solve n hn h5
  have hch : Nat.choose 52 n = chosen n := Nat.choose_eq_descFactorial_div_factorial _ _
  rw [hch] at e8
  have r8 := same e8 s8
  have r7 := same e7 s7
  have r6 := same e6 s6
  have r5 := same e5 s5
  have r4 := same e4 s4
  have r3 := equal e3 s3
  have r2 := same e2 s2
  have r1 := equal e1 s1
  have r0 := equal e0 s0
  clear e8 e7 e6 e5 e4 e3 e2 e1 e0 s8 s7 s6 s5 s4 s3 s2 s1 s0 split t1 t2 t3 tripsAt pairAt hch
  match k with
  | 0 => exact r0
  | 1 => exact r1
  | 2 => exact r2
  | 3 => exact r3
  | 4 => exact r4
  | 5 => exact r5
  | 6 => exact r6
  | 7 => exact r7
  | 8 => exact r8
  | k + 9 =>
    rw [List.getD_eq_getElem?_getD, List.getElem?_eq_none (by rw [sl]; exact Nat.le_add_left 9 k)]
    exact total_none (fun x _ hx => absurd hx (by
      have := Cat.category_le x
      rw [beq_iff_eq]
      omega))

/-! ## Royal flushes -/

/-- The ranks of a royal flush. -/
def high : List Rank := [.Ace, .King, .Queen, .Jack, .Ten]

/-- The other ranks. -/
def low : List Rank := [.Nine, .Eight, .Seven, .Six, .Five, .Four, .Three, .Two]

theorem cards_high : cards = high.flatMap block ++ low.flatMap block := rfl

/-- The cards of a royal flush. -/
def hasRoyal (h : List PCard) : Bool := order.any (fun s => high.all (fun r => decide ((r, s) ∈ h)))

theorem sum_size (l : List PCard) : (l.sublists'.map (fun h => base ^ h.length)).sum = (1 + base) ^ l.length := by
  induction l with
  | nil => rfl
  | cons c l ih =>
    rw [List.sublists'_cons, List.map_append, List.sum_append, List.map_map, ih, List.length_cons]
    have : ((fun h => base ^ h.length) ∘ List.cons c) = fun h : List PCard => base * base ^ h.length := by
      funext h
      simp [Nat.pow_succ, Nat.mul_comm]
    rw [this, List.sum_map_mul_left, ih]
    ring

theorem no_royal (h k : List PCard) (hk : k ∈ (low.flatMap block).sublists') :
    (!hasRoyal (h ++ k)) = stay id (fun _ => []) high [0, 0, 0, 0] h := by
  have hm : ∀ r ∈ high, ∀ s, (r, s) ∉ k := by
    intro r hr s hc
    have := (List.mem_sublists'.1 hk).subset hc
    obtain ⟨r', hr', hb⟩ := List.mem_flatMap.1 this
    rw [block_eq] at hb
    obtain ⟨s', -, he⟩ := List.mem_map.1 hb
    injection he with he
    subst he
    revert hr hr'
    cases r' <;> decide
  have key : ∀ s, stays id 0 (bitsOf high h s ++ []) = !high.all (fun r => decide ((r, s) ∈ h ++ k)) := by
    intro s
    rw [List.append_nil, stays_id 0 _ (by decide)]
    have e : ∀ r ∈ high, decide ((r, s) ∈ h ++ k) = decide ((r, s) ∈ h) := fun r hr => by simp [hm r hr s]
    simp only [high, List.forall_mem_cons] at e
    obtain ⟨e1, e2, e3, e4, e5, -⟩ := e
    simp only [high, List.all_cons, List.all_nil, e1, e2, e3, e4, e5, bitsOf, List.map_cons, List.map_nil]
    generalize decide ((Rank.Ace, s) ∈ h) = b1
    generalize decide ((Rank.King, s) ∈ h) = b2
    generalize decide ((Rank.Queen, s) ∈ h) = b3
    generalize decide ((Rank.Jack, s) ∈ h) = b4
    generalize decide ((Rank.Ten, s) ∈ h) = b5
    revert b1 b2 b3 b4 b5
    decide
  simp only [stay, order, List.zip_cons_cons, List.zip_nil_right, List.all_cons, List.all_nil, key, hasRoyal,
    List.any_cons, List.any_nil, Bool.or_false, Bool.and_true, Bool.not_or]

theorem wt_size {h : List PCard} (hh : h ∈ cards.sublists') :
    wt ([some 0, some 1, some 2, some 3, some 4].map power) ranks h = base ^ h.length := by
  have s := shape_of hh
  rw [wt_power, s.fits, s.expo, s.length]
  simp

theorem wt_high {h : List PCard} (hh : h ∈ (high.flatMap block).sublists') :
    wt ([some 0, some 1, some 2, some 3, some 4].map power) high h = base ^ h.length := by
  have hc : ∀ r, cnt h r ≤ 4 := fun r =>
    count_values ((List.mem_sublists'.1 hh).trans (cards_high ▸ List.sublist_append_left _ _)) _
  have hm : ∀ c ∈ h, c.1 ∈ high := by
    intro c hc
    obtain ⟨r, hr, hb⟩ := List.mem_flatMap.1 ((List.mem_sublists'.1 hh).subset hc)
    rw [block_eq] at hb
    obtain ⟨s, -, rfl⟩ := List.mem_map.1 hb
    exact hr
  rw [wt_power, ← sum_cnt (rs := high) (by decide) hm]
  have hs : ∀ r, ([some 0, some 1, some 2, some 3, some 4] : List (Option Nat)).getD (cnt h r) none = some (cnt h r) := by
    intro r
    have := hc r
    generalize cnt h r = k at this
    interval_cases k <;> rfl
  simp only [fits, expo, hs, Option.isSome_some, Option.getD_some, List.all_eq_true.2 (fun _ _ => rfl)]
  exact Nat.one_mul _

theorem plain_form (x y : Nat) : Nat.mul x (Nat.pow (Nat.add 1 y) 32) = x * (1 + y) ^ 32 := rfl

/-- Hands without a royal flush. -/
theorem sum_plain : (cards.sublists'.map (fun h =>
    wt ([some 0, some 1, some 2, some 3, some 4].map power) ranks h * (!hasRoyal h).toNat)).sum
    = Nat.mul (few ([some 0, some 1, some 2, some 3, some 4].map power) 5) (Nat.pow (Nat.add 1 base) 32) := by
  rw [plain_form, List.map_congr_left (fun h hh => by rw [wt_size hh]), cards_high, sum_sublists_append]
  have e : ∀ h ∈ (high.flatMap block).sublists', ((low.flatMap block).sublists'.map (fun k =>
      base ^ (h ++ k).length * (!hasRoyal (h ++ k)).toNat)).sum
      = (wt ([some 0, some 1, some 2, some 3, some 4].map power) high h
        * (stay id (fun _ => []) high [0, 0, 0, 0] h).toNat) * (1 + base) ^ 32 := by
    intro h hh
    rw [wt_high hh, show 32 = (low.flatMap block).length from rfl, ← sum_size, ← List.sum_map_mul_left]
    refine congrArg List.sum (List.map_congr_left (fun k hk => ?_))
    rw [no_royal h k hk, List.length_append, Nat.pow_add]
    ring
  rw [List.map_congr_left e, List.sum_map_mul_right, sum_hands id _ (fun _ => []) high (by decide) rfl, few_eq]
  have : (fun σ => (stay id (fun _ => []) [] σ []).toNat) = fun _ => 1 := by
    funext σ
    simp [stay, bitsOf, stays]
  rw [this, show high.length = 5 from rfl]

theorem total_plain {n : Nat} (hn : n < 53) : total (fun h => !hasRoyal h) n = plain.getD n 0 := by
  refine total_digit sum_plain plain_check (by decide) hn ?_
  intro h hh
  have s := shape_of hh
  rw [s.fits, s.expo, s.length]
  simp

set_option maxRecDepth 1000000 in
theorem solve_royal : ∀ n < 53, chosen n = royals.getD n 0 + plain.getD n 0 := by decide +kernel

/-- How many sets of `n` cards have the cards of a royal flush. -/
theorem total_royal {n : Nat} (hn : n < 53) : total hasRoyal n = royals.getD n 0 := by
  have e := total_pair (fun _ => true) hasRoyal (fun h => !hasRoyal h) n (fun h _ => by cases hasRoyal h <;> rfl)
  rw [total_true, total_plain hn] at e
  rw [Nat.choose_eq_descFactorial_div_factorial] at e
  rw [← chosen, solve_royal n hn] at e
  exact (Nat.add_right_cancel e).symm

end Poker.Freq
