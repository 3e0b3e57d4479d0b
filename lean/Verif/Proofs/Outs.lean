import Verif.Spec.Outs
import Verif.Proofs.Board

/-! # One more card (helper lemmas) -/

namespace Poker
open Rules Tab

namespace Outs
open Board

theorem count_one (c : PCard) (h : List PCard) (v : Nat) :
    (values (c :: h)).count v = (values h).count v + (if pips c.1 = v then 1 else 0) := by
  simp only [values, List.map_cons, List.count_cons, beq_iff_eq]

theorem suit_one (c : PCard) (h : List PCard) (s : Suit) :
    (ofSuit s (c :: h)).length = (ofSuit s h).length + (if c.2 = s then 1 else 0) := by
  simp only [ofSuit, ← List.countP_eq_length_filter, List.countP_cons, beq_iff_eq]

theorem grow {k : Nat} {c : PCard} {h : List PCard} (hn : h.Nodup) (hh : Cat.has k h = true) :
    Cat.has k (c :: h) = true :=
  Cat.has_mono hn (fun _ hd => List.mem_cons_of_mem _ hd) hh

/-- Six cards with five different values repeat only one, and that once. -/
theorem spread6 {h : List PCard} {L : List Nat} (hL : L.Nodup) (h5 : 5 ≤ L.length)
    (hm : ∀ v ∈ L, v ∈ values h) (h6 : h.length ≤ 6) :
    hasTrips h = false ∧ hasTwoPair h = false := by
  have hlen : (values h).length ≤ 6 := by rw [values, List.length_map]; exact h6
  have hp := List.subperm_append_diff_self_of_count_le
    (l₁ := L) (l₂ := values h) (fun v _ => (hL.subperm hm).count_le v)
  have hl := hp.length_eq
  rw [List.length_append] at hl
  have hc : ∀ v, (values h).count v ≤ 1 + ((values h).diff L).count v := by
    intro v
    rw [← hp.count_eq, List.count_append]
    have := List.nodup_iff_count_le_one.1 hL v
    omega
  constructor
  · refine false_of fun hq => ?_
    obtain ⟨v, hv⟩ := trips_iff.1 hq
    have h1 := hc v
    have h2 := List.count_le_length (a := v) (l := (values h).diff L)
    omega
  · refine false_of fun hq => ?_
    obtain ⟨v, u, hne, hv, hu⟩ := twopair_iff.1 hq
    have h1 := hc v
    have h1' := hc u
    have h2 := two_counts hne ((values h).diff L)
    omega

theorem six_straight {h : List PCard} (hs : hasStraight h = true) (h6 : h.length ≤ 6) :
    hasTrips h = false ∧ hasTwoPair h = false := by
  obtain ⟨t, ht, hv⟩ := straight_iff.1 hs
  exact spread6 (Cat.run_props t ht).1 (Nat.le_of_eq (Cat.run_props t ht).2.1.symm) hv h6

theorem six_flush {h : List PCard} (hn : h.Nodup) (hs : hasFlush h = true) (h6 : h.length ≤ 6) :
    hasTrips h = false ∧ hasTwoPair h = false := by
  obtain ⟨s, hs⟩ := flush_iff.1 hs
  refine spread6 (suit_values hn s) (by rw [values, List.length_map]; exact hs) ?_ h6
  intro v hv
  obtain ⟨c, hc, rfl⟩ := List.mem_map.1 hv
  exact List.mem_map.2 ⟨c, (Cat.mem_ofSuit.1 hc).1, rfl⟩

theorem lt_of_not {n v : Nat} {h : List PCard} (hq : ¬ n ≤ (values h).count v) : (values h).count v < n := by
  omega

theorem no_pair {h : List PCard} (hp : hasPair h = false) (v : Nat) : (values h).count v ≤ 1 := by
  by_contra hc
  rw [pair_iff.2 ⟨v, by omega⟩] at hp
  exact absurd hp (by decide)

theorem no_trips' {h : List PCard} (hp : hasTrips h = false) (v : Nat) : (values h).count v ≤ 2 := by
  by_contra hc
  rw [trips_iff.2 ⟨v, by omega⟩] at hp
  exact absurd hp (by decide)

theorem no_two {h : List PCard} (hp : hasTwoPair h = false) {u v : Nat} (hne : u ≠ v)
    (hv : 2 ≤ (values h).count v) : (values h).count u ≤ 1 := by
  by_contra hc
  rw [twopair_iff.2 ⟨v, u, hne, hv, by omega⟩] at hp
  exact absurd hp (by decide)

/-- Without a pair, one more card makes at most one. -/
theorem from_none {c : PCard} {h : List PCard} (hp : hasPair h = false) :
    hasTwoPair (c :: h) = false ∧ hasTrips (c :: h) = false := by
  have h1 := no_pair hp
  constructor
  · refine false_of fun hq => ?_
    obtain ⟨v, u, hne, hv, hu⟩ := twopair_iff.1 hq
    rw [count_one] at hv hu
    have := h1 u
    have := h1 v
    split at hv <;> split at hu <;> omega
  · refine false_of fun hq => ?_
    obtain ⟨v, hv⟩ := trips_iff.1 hq
    rw [count_one] at hv
    have := h1 v
    split at hv <;> omega

/-- Without three of a value, one more card does not make four. -/
theorem from_two {c : PCard} {h : List PCard} (hp : hasTrips h = false) : hasQuads (c :: h) = false := by
  refine false_of fun hq => ?_
  obtain ⟨v, hv⟩ := quads_iff.1 hq
  rw [count_one] at hv
  have := no_trips' hp v
  split at hv <;> omega

/-- With at most one pair, one more card makes no full house. -/
theorem from_one {c : PCard} {h : List PCard} (ht : hasTrips h = false) (hp : hasTwoPair h = false) :
    hasFullHouse (c :: h) = false := by
  refine false_of fun hq => ?_
  obtain ⟨v, u, hne, hv, hu⟩ := full_iff.1 hq
  rw [count_one] at hv hu
  have h2 := no_trips' ht v
  by_cases e : pips c.1 = v
  · rw [if_pos e] at hv
    have h3 := no_two hp hne (show 2 ≤ (values h).count v by omega)
    rw [if_neg (by omega)] at hu
    omega
  · rw [if_neg e] at hv
    omega

/-- With two pairs, three of a value are a full house. -/
theorem two_to_full {c : PCard} {h : List PCard} (hp : hasTwoPair h = true)
    (hq : hasTrips (c :: h) = true) : hasFullHouse (c :: h) = true := by
  obtain ⟨v, u, hne, hv, hu⟩ := twopair_iff.1 hp
  obtain ⟨w, hw⟩ := trips_iff.1 hq
  refine full_iff.2 ?_
  by_cases e : v = w
  · refine ⟨w, u, e ▸ hne, hw, ?_⟩
    rw [count_one]; omega
  · refine ⟨w, v, e, hw, ?_⟩
    rw [count_one]; omega

theorem trips_of_full {h : List PCard} (hf : hasFullHouse h = true) : hasTrips h = true := by
  obtain ⟨v, _, _, hv, _⟩ := full_iff.1 hf
  exact trips_iff.2 ⟨v, hv⟩

theorem two_of_full {h : List PCard} (hf : hasFullHouse h = true) : hasTwoPair h = true := by
  obtain ⟨v, u, hne, hv, hu⟩ := full_iff.1 hf
  exact twopair_iff.2 ⟨v, u, hne, by omega, hu⟩

theorem trips_of_quads {h : List PCard} (hf : hasQuads h = true) : hasTrips h = true := by
  obtain ⟨v, hv⟩ := quads_iff.1 hf
  exact trips_iff.2 ⟨v, by omega⟩

theorem pair_of_two {h : List PCard} (hf : hasTwoPair h = true) : hasPair h = true := by
  obtain ⟨v, _, _, hv, _⟩ := twopair_iff.1 hf
  exact pair_iff.2 ⟨v, hv⟩

theorem pair_of_trips {h : List PCard} (hf : hasTrips h = true) : hasPair h = true := by
  obtain ⟨v, hv⟩ := trips_iff.1 hf
  exact pair_iff.2 ⟨v, by omega⟩

theorem mono {c : PCard} {h : List PCard} (hn : h.Nodup) : category h ≤ category (c :: h) :=
  Cat.le_category (Cat.category_le h) (grow hn (Cat.has_category h))

theorem step {c : PCard} {h : List PCard} (hn : (c :: h).Nodup) :
    category (c :: h) ∈ becomes h.length (category h) := by
  have hh : h.Nodup := (List.nodup_cons.1 hn).2
  have hlen : (c :: h).length = h.length + 1 := rfl
  have hm := mono (c := c) hh
  have h8 := Cat.category_le (c :: h)
  obtain ⟨a8, a7, a6, a5, a4, a3, a2, a1, a0⟩ := cat_iff h
  obtain ⟨b8, b7, b6, b5, b4, b3, b2, b1, b0⟩ := cat_iff (c :: h)
  have hk : category h ≤ 8 := Cat.category_le h
  generalize category h = k at *
  generalize category (c :: h) = k' at *
  interval_cases k
  · -- nothing
    have hp := (a0.1 rfl).2.2.2.2.2.2.2
    have hg := from_none (c := c) hp
    have n2 : k' ≠ 2 := fun e => absurd ((b2.1 e).2.2.2.2.2.2) (by rw [hg.1]; decide)
    have n3 : k' ≠ 3 := fun e => absurd ((b3.1 e).2.2.2.2.2) (by rw [hg.2]; decide)
    have n6 : k' ≠ 6 := fun e => absurd (trips_of_full (b6.1 e).2.2) (by rw [hg.2]; decide)
    have n7 : k' ≠ 7 := fun e => absurd (trips_of_quads (b7.1 e).2) (by rw [hg.2]; decide)
    simp only [becomes, List.mem_cons, List.not_mem_nil, or_false]
    omega
  · obtain ⟨_, _, _, _, _, ht, hp, _⟩ := a1.1 rfl
    have n6 : k' ≠ 6 := fun e => absurd (b6.1 e).2.2 (by rw [from_one ht hp]; decide)
    have n7 : k' ≠ 7 := fun e => absurd (b7.1 e).2 (by rw [from_two ht]; decide)
    simp only [becomes, List.mem_cons, List.not_mem_nil, or_false]
    omega
  · obtain ⟨_, _, _, _, _, ht, hp⟩ := a2.1 rfl
    have g : hasTwoPair (c :: h) = true := grow (k := 2) hh hp
    have n3 : k' ≠ 3 := fun e => absurd (two_to_full hp (b3.1 e).2.2.2.2.2)
      (by rw [(b3.1 e).2.2.1]; decide)
    have n7 : k' ≠ 7 := fun e => absurd (b7.1 e).2 (by rw [from_two ht]; decide)
    have n4 : h.length ≤ 5 → k' ≠ 4 := fun h5 e =>
      absurd g (by rw [(six_straight (b4.1 e).2.2.2.2 (by omega)).2]; decide)
    have n5 : h.length ≤ 5 → k' ≠ 5 := fun h5 e =>
      absurd g (by rw [(six_flush hn (b5.1 e).2.2.2 (by omega)).2]; decide)
    have n8 : h.length ≤ 5 → k' ≠ 8 := fun h5 e =>
      absurd g (by rw [(six_straight (straight_of_sf (b8.1 e)) (by omega)).2]; decide)
    rw [becomes]
    split <;> simp only [List.mem_cons, List.not_mem_nil, or_false] <;> omega
  · obtain ⟨_, _, _, _, _, ht⟩ := a3.1 rfl
    have g : hasTrips (c :: h) = true := grow (k := 3) hh ht
    have n4 : h.length ≤ 5 → k' ≠ 4 := fun h5 e =>
      absurd g (by rw [(six_straight (b4.1 e).2.2.2.2 (by omega)).1]; decide)
    have n5 : h.length ≤ 5 → k' ≠ 5 := fun h5 e =>
      absurd g (by rw [(six_flush hn (b5.1 e).2.2.2 (by omega)).1]; decide)
    have n8 : h.length ≤ 5 → k' ≠ 8 := fun h5 e =>
      absurd g (by rw [(six_straight (straight_of_sf (b8.1 e)) (by omega)).1]; decide)
    rw [becomes]
    split <;> simp only [List.mem_cons, List.not_mem_nil, or_false] <;> omega
  · obtain ⟨_, _, _, _, hs⟩ := a4.1 rfl
    have g : hasStraight (c :: h) = true := grow (k := 4) hh hs
    have n6 : h.length ≤ 6 → k' ≠ 6 := fun h6 e =>
      absurd (b6.1 e).2.2 (by rw [(spread_straight g (by omega)).2]; decide)
    have n7 : h.length ≤ 6 → k' ≠ 7 := fun h6 e =>
      absurd (b7.1 e).2 (by rw [(spread_straight g (by omega)).1]; decide)
    rw [becomes]
    split <;> simp only [List.mem_cons, List.not_mem_nil, or_false] <;> omega
  · obtain ⟨_, _, _, hs⟩ := a5.1 rfl
    have g : hasFlush (c :: h) = true := grow (k := 5) hh hs
    have n6 : h.length ≤ 6 → k' ≠ 6 := fun h6 e =>
      absurd (b6.1 e).2.2 (by rw [(spread_flush hn g (by omega)).2]; decide)
    have n7 : h.length ≤ 6 → k' ≠ 7 := fun h6 e =>
      absurd (b7.1 e).2 (by rw [(spread_flush hn g (by omega)).1]; decide)
    rw [becomes]
    split <;> simp only [List.mem_cons, List.not_mem_nil, or_false] <;> omega
  · obtain ⟨_, _, hs⟩ := a6.1 rfl
    have g : hasFullHouse (c :: h) = true := grow (k := 6) hh hs
    have n8 : h.length ≤ 6 → k' ≠ 8 := fun h6 e =>
      absurd (b8.1 e) (by rw [no_sf_groups (by omega) (.inr g)]; decide)
    rw [becomes]
    split <;> simp only [List.mem_cons, List.not_mem_nil, or_false] <;> omega
  · obtain ⟨_, hs⟩ := a7.1 rfl
    have g : hasQuads (c :: h) = true := grow (k := 7) hh hs
    have n8 : h.length ≤ 6 → k' ≠ 8 := fun h6 e =>
      absurd (b8.1 e) (by rw [no_sf_groups (by omega) (.inl g)]; decide)
    rw [becomes]
    split <;> simp only [List.mem_cons, List.not_mem_nil, or_false] <;> omega
  · simp only [becomes, List.mem_cons, List.not_mem_nil, or_false]
    omega

/-! ## Every step of five, six and seven cards happens -/

/-- A card by a number. -/
def card (n : Nat) : PCard :=
  (rankOf (n / 4), (if n % 4 = 0 then .Clubs else if n % 4 = 1 then .Hearts else if n % 4 = 2 then .Spades
    else .Diamonds))

/-- For a number of cards and two categories: a card, and a hand that it changes. -/
def witnesses : List (Nat × Nat × Nat × List Nat) := [
  (5, 0, 0, [8, 29, 24, 38, 54, 50]), (5, 0, 1, [25, 29, 24, 38, 54, 50]), (5, 0, 4, [24, 11, 21, 39, 15, 18]),
  (5, 0, 5, [8, 40, 52, 28, 24, 47]), (5, 0, 8, [31, 35, 23, 27, 41, 19]), (5, 1, 1, [12, 11, 49, 26, 53, 10]),
  (5, 1, 2, [24, 11, 49, 26, 53, 10]), (5, 1, 3, [8, 11, 49, 26, 53, 10]), (5, 1, 4, [28, 37, 35, 47, 41, 33]),
  (5, 1, 5, [8, 29, 52, 56, 36, 28]), (5, 1, 8, [37, 29, 33, 25, 42, 41]), (5, 2, 2, [12, 10, 8, 40, 46, 42]),
  (5, 2, 6, [9, 10, 8, 40, 46, 42]), (5, 3, 3, [8, 33, 50, 45, 35, 34]), (5, 3, 6, [44, 33, 50, 45, 35, 34]),
  (5, 3, 7, [32, 33, 50, 45, 35, 34]), (5, 4, 4, [8, 31, 34, 22, 19, 26]), (5, 4, 5, [30, 22, 10, 14, 57, 18]),
  (5, 4, 8, [26, 22, 10, 14, 57, 18]), (5, 5, 5, [8, 37, 21, 33, 45, 9]), (5, 5, 8, [32, 44, 12, 40, 48, 36]),
  (5, 6, 6, [8, 19, 49, 51, 48, 16]), (5, 6, 7, [50, 19, 49, 51, 48, 16]), (5, 7, 7, [8, 24, 26, 25, 23, 27]),
  (5, 8, 8, [8, 39, 23, 31, 27, 35]), (6, 0, 0, [12, 31, 25, 33, 8, 54, 43]), (6, 0, 1, [9, 31, 25, 33, 8, 54, 43]),
  (6, 0, 4, [36, 31, 25, 33, 8, 54, 43]), (6, 0, 5, [11, 23, 37, 55, 46, 15, 19]), (6, 0, 8, [22, 11, 18, 26, 34, 30, 13]),
  (6, 1, 1, [8, 12, 37, 18, 54, 31, 30]), (6, 1, 2, [13, 12, 37, 18, 54, 31, 30]), (6, 1, 3, [28, 12, 37, 18, 54, 31, 30]),
  (6, 1, 4, [16, 34, 21, 24, 25, 15, 8]), (6, 1, 5, [11, 43, 26, 50, 39, 15, 27]), (6, 1, 8, [50, 19, 38, 46, 17, 42, 54]),
  (6, 2, 2, [8, 31, 23, 47, 45, 28, 9]), (6, 2, 4, [24, 17, 15, 14, 21, 28, 31]), (6, 2, 5, [13, 17, 38, 37, 18, 9, 57]),
  (6, 2, 6, [29, 31, 23, 47, 45, 28, 9]), (6, 2, 8, [34, 42, 38, 46, 40, 31, 30]), (6, 3, 3, [12, 19, 18, 16, 58, 10, 30]),
  (6, 3, 4, [52, 40, 45, 59, 51, 56, 58]), (6, 3, 5, [14, 19, 18, 16, 58, 10, 30]), (6, 3, 6, [8, 19, 18, 16, 58, 10, 30]),
  (6, 3, 7, [17, 19, 18, 16, 58, 10, 30]), (6, 3, 8, [24, 36, 23, 32, 21, 20, 28]), (6, 4, 4, [8, 37, 27, 42, 50, 34, 31]),
  (6, 4, 5, [9, 55, 49, 41, 42, 45, 57]), (6, 4, 8, [53, 55, 49, 41, 42, 45, 57]), (6, 5, 5, [8, 14, 30, 55, 58, 42, 34]),
  (6, 5, 8, [15, 31, 27, 23, 19, 47, 59]), (6, 6, 6, [9, 47, 44, 53, 8, 55, 45]), (6, 6, 7, [46, 47, 44, 53, 8, 55, 45]),
  (6, 7, 7, [12, 35, 8, 9, 11, 10, 33]), (6, 8, 8, [8, 30, 26, 34, 39, 42, 38]), (7, 0, 0, [8, 48, 19, 55, 43, 29, 15, 32]),
  (7, 0, 1, [12, 48, 19, 55, 43, 29, 15, 32]), (7, 0, 4, [12, 10, 21, 30, 38, 58, 17, 35]), (7, 0, 5, [11, 48, 19, 55, 43, 29, 15, 32]),
  (7, 0, 8, [12, 20, 33, 56, 30, 16, 8, 41]), (7, 1, 1, [8, 12, 49, 33, 54, 19, 17, 46]), (7, 1, 2, [13, 12, 49, 33, 54, 19, 17, 46]),
  (7, 1, 3, [16, 12, 49, 33, 54, 19, 17, 46]), (7, 1, 4, [32, 28, 36, 17, 42, 27, 58, 26]), (7, 1, 5, [9, 57, 21, 50, 33, 17, 18, 54]),
  (7, 1, 8, [40, 52, 36, 44, 23, 59, 48, 51]), (7, 2, 2, [8, 46, 21, 54, 22, 47, 58, 15]), (7, 2, 4, [28, 38, 35, 46, 57, 45, 41, 58]),
  (7, 2, 5, [10, 46, 21, 54, 22, 47, 58, 15]), (7, 2, 6, [20, 46, 21, 54, 22, 47, 58, 15]), (7, 2, 8, [53, 41, 45, 57, 49, 47, 27, 59]),
  (7, 3, 3, [12, 48, 37, 8, 42, 29, 40, 43]), (7, 3, 4, [37, 28, 24, 42, 32, 26, 25, 52]), (7, 3, 5, [8, 28, 24, 42, 32, 26, 25, 52]),
  (7, 3, 6, [9, 48, 37, 8, 42, 29, 40, 43]), (7, 3, 7, [41, 48, 37, 8, 42, 29, 40, 43]), (7, 3, 8, [19, 12, 59, 11, 25, 23, 13, 15]),
  (7, 4, 4, [8, 42, 27, 32, 48, 31, 38, 37]), (7, 4, 5, [8, 36, 15, 11, 22, 16, 44, 56]), (7, 4, 6, [45, 48, 47, 52, 44, 50, 58, 41]),
  (7, 4, 7, [16, 17, 58, 18, 23, 10, 13, 19]), (7, 4, 8, [39, 51, 29, 43, 21, 37, 47, 55]), (7, 5, 5, [9, 35, 51, 39, 10, 43, 8, 23]),
  (7, 5, 6, [8, 41, 9, 17, 19, 21, 18, 33]), (7, 5, 7, [16, 41, 9, 17, 19, 21, 18, 33]), (7, 5, 8, [47, 35, 51, 39, 10, 43, 8, 23]),
  (7, 6, 6, [8, 36, 38, 33, 37, 56, 34, 16]), (7, 6, 7, [39, 36, 38, 33, 37, 56, 34, 16]), (7, 6, 8, [20, 16, 17, 12, 18, 25, 24, 28]),
  (7, 7, 7, [8, 25, 33, 32, 24, 44, 34, 35]), (7, 7, 8, [20, 36, 37, 38, 39, 32, 28, 24]), (7, 8, 8, [8, 33, 25, 37, 29, 35, 41, 31])]

theorem witnesses_ok : witnesses.all (fun w =>
    decide ((w.2.2.2.map card).Nodup) && ((w.2.2.2.map card).tail.length == w.1) &&
    (category (w.2.2.2.map card).tail == w.2.1) && (category (w.2.2.2.map card) == w.2.2.1)) = true := by
  decide +kernel

theorem witnesses_all : [5, 6, 7].all (fun n => (List.range 9).all (fun k => (becomes n k).all (fun k' =>
    witnesses.any (fun w => w.1 == n && w.2.1 == k && w.2.2.1 == k')))) = true := by
  decide +kernel

theorem attained {n k k' : Nat} (hn : n = 5 ∨ n = 6 ∨ n = 7) (hk : k' ∈ becomes n k) :
    ∃ (c : PCard) (h : List PCard), (c :: h).Nodup ∧ h.length = n ∧ category h = k ∧
      category (c :: h) = k' := by
  have hk8 : k < 9 := by
    by_contra hc
    obtain ⟨j, rfl⟩ : ∃ j, k = j + 9 := ⟨k - 9, by omega⟩
    simp [becomes] at hk
  have h1 := List.all_eq_true.1 witnesses_all n (by simp; omega)
  have h2 := List.all_eq_true.1 h1 k (List.mem_range.2 hk8)
  have h3 := List.all_eq_true.1 h2 k' hk
  obtain ⟨w, hw, he⟩ := List.any_eq_true.1 h3
  simp only [Bool.and_eq_true, beq_iff_eq] at he
  have h4 := List.all_eq_true.1 witnesses_ok w hw
  simp only [Bool.and_eq_true, beq_iff_eq, decide_eq_true_eq] at h4
  obtain ⟨⟨rfl, rfl⟩, rfl⟩ := he
  obtain ⟨⟨⟨h5, h6⟩, h7⟩, h8⟩ := h4
  generalize w.2.2.2.map card = l at *
  match l with
  | [] =>
    have h0 : 0 = w.1 := h6
    rw [← h0] at hn
    exact absurd hn (by decide)
  | c :: h => exact ⟨c, h, h5, h6, h7, h8⟩

/-! ## The cards that improve a hand -/

/-- The cards of a value that are not in the hand. -/
def left (v : Nat) (h : List PCard) : List PCard :=
  (suits.map (fun t => (rankOf v, t))).filter (fun c => !decide (c ∈ h))

theorem all_nodup (v : Nat) : (suits.map (fun t => (rankOf v, t))).Nodup := by
  refine List.Nodup.map ?_ (by decide)
  intro a c h
  exact (Prod.mk.inj h).2

theorem mem_all {v : Nat} {c : PCard} (hv : v ∈ allValues) :
    c ∈ suits.map (fun t => (rankOf v, t)) ↔ pips c.1 = v := by
  rw [List.mem_map]
  constructor
  · rintro ⟨t, _, rfl⟩; exact pips_rankOf hv
  · intro h
    exact ⟨c.2, Cat.suits_all _, Prod.ext (pips_inj (by rw [pips_rankOf hv, h])) rfl⟩

theorem mem_left {v : Nat} {h : List PCard} {c : PCard} (hv : v ∈ allValues) :
    c ∈ left v h ↔ pips c.1 = v ∧ c ∉ h := by
  rw [left, List.mem_filter, mem_all hv]
  simp

theorem left_nodup (v : Nat) (h : List PCard) : (left v h).Nodup := (all_nodup v).filter _

theorem left_length {v : Nat} {h : List PCard} (hv : v ∈ allValues) (hn : h.Nodup) :
    (left v h).length + (values h).count v = 4 := by
  have h1 := List.length_eq_length_filter_add (l := suits.map (fun t => (rankOf v, t)))
    (fun c => decide (c ∈ h))
  have h2 : ((suits.map (fun t => (rankOf v, t))).filter (fun c => decide (c ∈ h))).length =
      (values h).count v := by
    rw [Cat.count_values]
    refine List.Perm.length_eq ((List.perm_ext_iff_of_nodup ((all_nodup v).filter _) (hn.filter _)).2 ?_)
    intro c
    rw [List.mem_filter, List.mem_filter, mem_all hv, decide_eq_true_eq, beq_iff_eq]
    exact and_comm
  have h3 : (suits.map (fun t => (rankOf v, t))).length = 4 := by rw [List.length_map]; rfl
  rw [h3, h2] at h1
  have h4 : 4 = (values h).count v + (left v h).length := h1
  omega

theorem free_three {v : Nat} {h : List PCard} (hv : v ∈ allValues) (s : Suit) (h0 : v ∉ values h) :
    (free v s h).length = 3 := by
  have h1 := free_length hv s h
  rw [List.count_eq_zero_of_not_mem h0] at h1
  have h2 : (free v s h).length ≤ 3 := by
    refine (List.length_filter_le _ _).trans ?_
    rw [List.length_map]
    cases s <;> decide
  omega

/-- The cards of the values with a property, by a choice of cards of each value. -/
def some' (Q : Nat → Bool) (f : Nat → List PCard) : List PCard := (allValues.filter Q).flatMap f

theorem mem_some {Q : Nat → Bool} {f : Nat → List PCard} {P : PCard → Prop}
    (hf : ∀ v ∈ allValues, ∀ c, c ∈ f v ↔ pips c.1 = v ∧ P c) (c : PCard) :
    c ∈ some' Q f ↔ Q (pips c.1) = true ∧ P c := by
  rw [some', List.mem_flatMap]
  constructor
  · rintro ⟨v, hv, hc⟩
    obtain ⟨h1, h2⟩ := List.mem_filter.1 hv
    obtain ⟨h3, h4⟩ := (hf v h1 c).1 hc
    exact ⟨h3 ▸ h2, h4⟩
  · rintro ⟨h1, h2⟩
    exact ⟨pips c.1, List.mem_filter.2 ⟨pips_mem c.1, h1⟩, (hf _ (pips_mem c.1) c).2 ⟨rfl, h2⟩⟩

theorem some_nodup {Q : Nat → Bool} {f : Nat → List PCard} (hf : ∀ v ∈ allValues, (f v).Nodup)
    (hv : ∀ v ∈ allValues, ∀ c ∈ f v, pips c.1 = v) : (some' Q f).Nodup := by
  rw [some', List.nodup_flatMap]
  refine ⟨fun v h => hf v (List.mem_filter.1 h).1, ?_⟩
  refine List.Pairwise.imp_of_mem ?_ (Cat.allValues_nodup.filter Q)
  intro a b ha hb hne
  simp only [Function.onFun]
  intro c hc hd
  exact hne ((hv a (List.mem_filter.1 ha).1 c hc).symm.trans (hv b (List.mem_filter.1 hb).1 c hd))

theorem some_length {Q : Nat → Bool} {f : Nat → List PCard} {m : Nat}
    (hf : ∀ v ∈ allValues, Q v = true → (f v).length = m) :
    (some' Q f).length = m * allValues.countP Q := by
  rw [some', List.length_flatMap, List.countP_eq_length_filter]
  have : ∀ l : List Nat, (∀ v ∈ l, (f v).length = m) → (l.map (fun v => (f v).length)).sum = m * l.length := by
    intro l
    induction l with
    | nil => intro _; simp
    | cons a l ih =>
      intro hl
      rw [List.map_cons, List.sum_cons, ih (fun v hv => hl v (List.mem_cons_of_mem _ hv)),
        hl a List.mem_cons_self, List.length_cons, Nat.mul_succ, Nat.add_comm]
  exact this _ (fun v hv => hf v (List.mem_filter.1 hv).1 (List.mem_filter.1 hv).2)

/-- The further cards that make a hand of category `k` are as many as `n`. -/
def Count (h : List PCard) (k n : Nat) : Prop :=
  ∃ L : List PCard, L.Nodup ∧ L.length = n ∧ ∀ c, c ∈ L ↔ (c ∉ h ∧ category (c :: h) = k)

/-- The cards of values that occur `m` times. -/
theorem count_of {h : List PCard} {k m : Nat} (hn : h.Nodup) (hm : m ≤ 4)
    (hc : ∀ c, c ∉ h → (category (c :: h) = k ↔ (values h).count (pips c.1) = m)) :
    Count h k ((4 - m) * times m h) := by
  refine ⟨some' (fun v => (values h).count v == m) (left · h), some_nodup (fun v _ => left_nodup v h)
    (fun v hv c h => ((mem_left hv).1 h).1), some_length ?_, ?_⟩
  · intro v hv hq
    have := left_length hv hn
    rw [beq_iff_eq.1 hq] at this
    omega
  · intro c
    rw [mem_some (P := fun c => c ∉ h) (fun v hv c => mem_left hv), beq_iff_eq, and_comm]
    exact and_congr_right fun hh => (hc c hh).symm

theorem count_none {h : List PCard} {k : Nat} (hc : ∀ c, c ∉ h → category (c :: h) ≠ k) :
    Count h k 0 :=
  ⟨[], List.nodup_nil, rfl, fun c => ⟨fun h => absurd h List.not_mem_nil, fun ⟨h1, h2⟩ => absurd h2 (hc c h1)⟩⟩

theorem suit_cons (c : PCard) (h : List PCard) : ofSuit c.2 (c :: h) = c :: ofSuit c.2 h := by
  simp [ofSuit]

theorem suit_other {c : PCard} {h : List PCard} {s : Suit} (hs : c.2 ≠ s) :
    ofSuit s (c :: h) = ofSuit s h := by
  simp [ofSuit, hs]

theorem values_cons (c : PCard) (h : List PCard) : values (c :: h) = pips c.1 :: values h := rfl

theorem straight_same {v : Nat} {vs : List Nat} (hv : v ∈ vs) (hs : (straightTop vs).isSome = false) :
    (straightTop (v :: vs)).isSome = false := by
  refine false_of fun h => ?_
  rw [Cat.straight_mono (fun u hu => ?_) h] at hs
  · exact absurd hs (by decide)
  · rcases List.mem_cons.1 hu with rfl | hu
    · exact hv
    · exact hu

theorem sf_cons {c : PCard} {h : List PCard} (hs : hasStraightFlush h = false) :
    hasStraightFlush (c :: h) = true ↔ (straightTop (pips c.1 :: values (ofSuit c.2 h))).isSome = true := by
  rw [← values_cons, ← suit_cons, sf_iff]
  constructor
  · rintro ⟨s, h1⟩
    by_cases e : c.2 = s
    · rw [e]; exact h1
    · rw [suit_other e] at h1
      rw [sf_iff.2 ⟨s, h1⟩] at hs
      exact absurd hs (by decide)
  · exact fun h1 => ⟨_, h1⟩

theorem flush_cons {c : PCard} {h : List PCard} (hs : hasFlush h = false) :
    hasFlush (c :: h) = true ↔ (ofSuit c.2 h).length = 4 := by
  have hl : ∀ s, (ofSuit s h).length ≤ 4 := by
    intro s
    by_contra hc
    rw [Board.flush_iff.2 ⟨s, by omega⟩] at hs
    exact absurd hs (by decide)
  rw [Board.flush_iff]
  constructor
  · rintro ⟨s, h1⟩
    have := hl s
    rw [suit_one] at h1
    by_cases e : c.2 = s
    · rw [if_pos e] at h1
      rw [e]; omega
    · rw [if_neg e] at h1
      omega
  · intro h1
    refine ⟨c.2, ?_⟩
    rw [suit_one, if_pos rfl]
    omega

theorem eq_false_iff' {p : Bool} {q : Prop} (h : p = true ↔ q) : p = false ↔ ¬ q := by
  rw [← h, Bool.not_eq_true]

theorem low {h : List PCard} {k : Nat} (hk : category h < k) (h8 : k ≤ 8) : Cat.has k h = false := by
  refine false_of fun hh => ?_
  have := Cat.le_category h8 hh
  omega

theorem low' {h : List PCard} {k j : Nat} (hk : category h < k) (hj : k ≤ j) (h8 : j ≤ 8) :
    Cat.has j h = false := low (by omega) h8

theorem suits_nodup : suits.Nodup := by decide

/-- Straight flushes: for hands of any number of cards. -/
theorem count8 {h : List PCard} (hk : category h < 8) : Count h 8 (outs h 8) := by
  have hs : hasStraightFlush h = false := low (k := 8) hk (by omega)
  have hm : ∀ (s : Suit) (v : Nat), v ∈ values (ofSuit s h) →
      (straightTop (v :: values (ofSuit s h))).isSome = false := by
    intro s v hv
    refine straight_same hv (false_of fun h1 => ?_)
    rw [sf_iff.2 ⟨s, h1⟩] at hs
    exact absurd hs (by decide)
  refine ⟨suits.flatMap (fun s => (allValues.filter (fun v =>
    (straightTop (v :: values (ofSuit s h))).isSome)).map (fun v => (rankOf v, s))), ?_, ?_, ?_⟩
  · rw [List.nodup_flatMap]
    constructor
    · intro s _
      refine List.Nodup.map_on ?_ (Cat.allValues_nodup.filter _)
      intro a ha b hb e
      have e1 := congrArg pips (Prod.mk.inj e).1
      rwa [pips_rankOf (List.mem_filter.1 ha).1, pips_rankOf (List.mem_filter.1 hb).1] at e1
    · refine suits_nodup.imp ?_
      intro a b hne c hc hd
      obtain ⟨_, _, rfl⟩ := List.mem_map.1 hc
      obtain ⟨_, _, e⟩ := List.mem_map.1 hd
      exact hne (Prod.mk.inj e).2.symm
  · rw [List.length_flatMap, outs]
    congr 1
    refine List.map_congr_left fun s _ => ?_
    rw [List.length_map, completing, List.countP_eq_length_filter]
  · intro c
    rw [(cat_iff (c :: h)).1, sf_cons hs, List.mem_flatMap]
    constructor
    · rintro ⟨s, _, hc⟩
      obtain ⟨v, hv, rfl⟩ := List.mem_map.1 hc
      obtain ⟨h1, h2⟩ := List.mem_filter.1 hv
      refine ⟨fun hin => ?_, ?_⟩
      · rw [hm s v (List.mem_map.2 ⟨_, Cat.mem_ofSuit.2 ⟨hin, rfl⟩, pips_rankOf h1⟩)] at h2
        exact absurd h2 (by decide)
      · rw [pips_rankOf h1]; exact h2
    · rintro ⟨_, h2⟩
      refine ⟨c.2, Cat.suits_all _, List.mem_map.2 ⟨pips c.1, List.mem_filter.2 ⟨pips_mem _, h2⟩, ?_⟩⟩
      exact Prod.ext (pips_inj (pips_rankOf (pips_mem _))) rfl

theorem count7 {h : List PCard} (hn : h.Nodup) (h6 : h.length ≤ 6) (hk : category h < 7) :
    Count h 7 (outs h 7) := by
  have hq : hasQuads h = false := low (k := 7) hk (by omega)
  have hb : ∀ v, (values h).count v ≤ 3 := by
    intro v
    by_contra hc
    rw [quads_iff.2 ⟨v, by omega⟩] at hq
    exact absurd hq (by decide)
  have h1 := count_of (k := 7) (m := 3) hn (by omega) (h := h) ?_
  · rw [show (4 - 3) * times 3 h = outs h 7 by rw [outs]; omega] at h1
    exact h1
  intro c _
  rw [(cat_iff (c :: h)).2.1]
  constructor
  · rintro ⟨_, h2⟩
    obtain ⟨v, hv⟩ := quads_iff.1 h2
    have := hb v
    rw [count_one] at hv
    by_cases e : pips c.1 = v
    · rw [if_pos e] at hv
      rw [e]; omega
    · rw [if_neg e] at hv
      omega
  · intro h3
    have : hasQuads (c :: h) = true := quads_iff.2 ⟨pips c.1, by rw [count_one, if_pos rfl]; omega⟩
    exact ⟨no_sf_groups (by rw [List.length_cons]; omega) (.inl this), this⟩

theorem count6 {h : List PCard} (hn : h.Nodup) (h6 : h.length ≤ 6) (hk : category h < 6) :
    Count h 6 (outs h 6) := by
  have hq : hasQuads h = false := low' (j := 7) hk (by omega) (by omega)
  have hf : hasFullHouse h = false := low (k := 6) hk (by omega)
  have h7 : ∀ c : PCard, (c :: h).length ≤ 7 := fun c => by rw [List.length_cons]; omega
  have hb : ∀ v, (values h).count v ≤ 3 := by
    intro v
    by_contra hc
    rw [quads_iff.2 ⟨v, by omega⟩] at hq
    exact absurd hq (by decide)
  have hff : ∀ v u, u ≠ v → 3 ≤ (values h).count v → (values h).count u ≤ 1 := by
    intro v u hne hv
    by_contra hc
    rw [full_iff.2 ⟨v, u, hne, hv, by omega⟩] at hf
    exact absurd hf (by decide)
  rw [outs]
  by_cases ht : hasTrips h = true
  · rw [if_pos ht]
    obtain ⟨v, hv⟩ := trips_iff.1 ht
    refine count_of (m := 1) hn (by omega) ?_
    intro c _
    rw [(cat_iff (c :: h)).2.2.1]
    constructor
    · rintro ⟨_, h2, h3⟩
      obtain ⟨x, y, hne, hx, hy⟩ := full_iff.1 h3
      have h4 : (values (c :: h)).count (pips c.1) ≤ 3 := by
        by_contra hc
        rw [quads_iff.2 ⟨pips c.1, by omega⟩] at h2
        exact absurd h2 (by decide)
      rw [count_one, if_pos rfl] at h4
      rw [count_one] at hx hy
      by_cases ex : pips c.1 = x
      · rw [if_pos ex] at hx
        rw [if_neg (by omega)] at hy
        rw [ex] at h4 ⊢
        by_cases e1 : x = v
        · rw [e1] at h4; omega
        · have := hff v x e1 hv; omega
      · rw [if_neg ex] at hx
        have h5 := hff x (pips c.1) ex (by omega)
        by_cases ey : pips c.1 = y
        · rw [if_pos ey] at hy; rw [ey]
          have := hff x y hne (by omega)
          omega
        · rw [if_neg ey] at hy
          have := hff x y hne (by omega)
          omega
    · intro h1
      have hne : pips c.1 ≠ v := fun e => by rw [e] at h1; omega
      have h3 : hasFullHouse (c :: h) = true := full_iff.2 ⟨v, pips c.1, hne,
        by rw [count_one]; omega, by rw [count_one, if_pos rfl]; omega⟩
      refine ⟨no_sf_groups (h7 c) (.inr h3), false_of fun h4 => ?_, h3⟩
      obtain ⟨x, hx⟩ := quads_iff.1 h4
      rw [count_one] at hx
      have := hb x
      by_cases ex : pips c.1 = x
      · rw [if_pos ex, ← ex] at hx; omega
      · rw [if_neg ex] at hx; omega
  · rw [if_neg ht]
    rw [Bool.not_eq_true] at ht
    by_cases hp : hasTwoPair h = true
    · rw [if_pos hp]
      refine count_of (m := 2) hn (by omega) ?_
      intro c _
      rw [(cat_iff (c :: h)).2.2.1]
      constructor
      · rintro ⟨_, _, h3⟩
        obtain ⟨x, y, hne, hx, _⟩ := full_iff.1 h3
        rw [count_one] at hx
        have := no_trips' ht x
        by_cases ex : pips c.1 = x
        · rw [if_pos ex] at hx; rw [ex]; omega
        · rw [if_neg ex] at hx; omega
      · intro h2
        have h3 := two_to_full (c := c) hp (trips_iff.2 ⟨pips c.1, by rw [count_one, if_pos rfl]; omega⟩)
        exact ⟨no_sf_groups (h7 c) (.inr h3), from_two ht, h3⟩
    · rw [if_neg hp]
      rw [Bool.not_eq_true] at hp
      refine count_none fun c _ e => ?_
      have h3 := ((cat_iff (c :: h)).2.2.1.1 e).2.2
      rw [from_one ht hp] at h3
      exact absurd h3 (by decide)

/-- Of six cards no two suits have four. -/
theorem one_draw {h : List PCard} (h6 : h.length ≤ 6) {s t : Suit} (hs : (ofSuit s h).length = 4)
    (hne : s ≠ t) : (ofSuit t h).length ≤ 2 := by
  have := suits_sum h
  cases s <;> cases t <;> first | exact absurd rfl hne | omega

theorem sum_one {f : Suit → Nat} {s : Suit} (hf : ∀ t, s ≠ t → f t = 0) : (suits.map f).sum = f s := by
  simp only [suits, List.map_cons, List.map_nil, List.sum_cons, List.sum_nil]
  have h1 := hf .Clubs
  have h2 := hf .Hearts
  have h3 := hf .Spades
  have h4 := hf .Diamonds
  cases s <;> simp at h1 h2 h3 h4 <;> omega

theorem few {h : List PCard} (hl : h.length ≤ 3) : completing (values h) = 0 := by
  rw [completing, List.countP_eq_zero]
  intro v hv hs
  have h1 := straight_length (h := (rankOf v, Suit.Clubs) :: h) (by rw [values_cons, pips_rankOf hv]; exact hs)
  rw [List.length_cons] at h1
  omega

theorem draw_iff {h : List PCard} : flushDraw h = true ↔ ∃ s, (ofSuit s h).length = 4 := by
  simp only [flushDraw, List.any_eq_true, beq_iff_eq]
  exact ⟨fun ⟨s, _, h⟩ => ⟨s, h⟩, fun ⟨s, h⟩ => ⟨s, Cat.suits_all s, h⟩⟩

theorem count5 {h : List PCard} (hn : h.Nodup) (h6 : h.length ≤ 6) (hk : category h < 5) :
    Count h 5 (outs h 5) := by
  have hs : hasStraightFlush h = false := low' (j := 8) hk (by omega) (by omega)
  have hf : hasFlush h = false := low (k := 5) hk (by omega)
  have h7 : ∀ c : PCard, (c :: h).length ≤ 7 := fun c => by rw [List.length_cons]; omega
  have hcat : ∀ c, c ∉ h → (category (c :: h) = 5 ↔ (ofSuit c.2 h).length = 4 ∧
      (straightTop (pips c.1 :: values (ofSuit c.2 h))).isSome = false) := by
    intro c hc
    rw [(cat_iff (c :: h)).2.2.2.1, eq_false_iff' (sf_cons hs), Bool.not_eq_true, flush_cons hf]
    constructor
    · rintro ⟨a, _, _, b⟩; exact ⟨b, a⟩
    · rintro ⟨b, a⟩
      have := spread_flush (List.nodup_cons.2 ⟨hc, hn⟩) ((flush_cons hf).2 b) (h7 c)
      exact ⟨a, this.1, this.2, b⟩
  rw [outs]
  by_cases hd : flushDraw h = true
  · rw [if_pos hd]
    obtain ⟨s, h4⟩ := draw_iff.1 hd
    rw [sum_one (s := s) (fun t ht => few (by have := one_draw h6 h4 ht; omega))]
    have hm : ∀ v, v ∈ values (ofSuit s h) →
        (straightTop (v :: values (ofSuit s h))).isSome = false := by
      intro v hv
      refine straight_same hv (false_of fun h1 => ?_)
      rw [sf_iff.2 ⟨s, h1⟩] at hs
      exact absurd hs (by decide)
    refine ⟨(allValues.filter (fun v => !decide (v ∈ values (ofSuit s h)) &&
      !(straightTop (v :: values (ofSuit s h))).isSome)).map (fun v => (rankOf v, s)), ?_, ?_, ?_⟩
    · refine List.Nodup.map_on ?_ (Cat.allValues_nodup.filter _)
      intro a ha b hb e
      have e1 := congrArg pips (Prod.mk.inj e).1
      rwa [pips_rankOf (List.mem_filter.1 ha).1, pips_rankOf (List.mem_filter.1 hb).1] at e1
    · rw [List.length_map, completing, ← List.countP_eq_length_filter]
      have e1 : allValues.countP (fun v => decide (v ∈ values (ofSuit s h))) = 4 := by
        rw [List.countP_eq_length_filter, ← h4, ← values_length (ofSuit s h)]
        refine List.Perm.length_eq ((List.perm_ext_iff_of_nodup (Cat.allValues_nodup.filter _)
          (suit_values hn s)).2 fun v => ?_)
        rw [List.mem_filter, decide_eq_true_eq]
        exact ⟨fun h => h.2, fun h => ⟨values_mem _ v h, h⟩⟩
      have e2 : ∀ l : List Nat, l.countP (fun v => !decide (v ∈ values (ofSuit s h)) &&
          !(straightTop (v :: values (ofSuit s h))).isSome) +
          l.countP (fun v => (straightTop (v :: values (ofSuit s h))).isSome) +
          l.countP (fun v => decide (v ∈ values (ofSuit s h))) = l.length := by
        intro l
        induction l with
        | nil => rfl
        | cons a l ih =>
          simp only [List.countP_cons, List.length_cons]
          by_cases ha : a ∈ values (ofSuit s h)
          · rw [hm a ha]
            simp only [ha, decide_true, Bool.not_true, Bool.false_and, Bool.false_eq_true, if_false, if_true]
            omega
          · cases hb : (straightTop (a :: values (ofSuit s h))).isSome <;>
              simp only [ha, decide_false, Bool.not_false, Bool.not_true, Bool.and_false,
                Bool.and_true, Bool.false_eq_true, if_false, if_true] <;> omega
      have e3 := e2 allValues
      rw [e1] at e3
      have e4 : allValues.length = 13 := rfl
      omega
    · intro c
      rw [List.mem_map]
      constructor
      · rintro ⟨v, hv, rfl⟩
        rw [List.mem_filter, Bool.and_eq_true, Bool.not_eq_true', Bool.not_eq_true',
          decide_eq_false_iff_not] at hv
        have hin : (rankOf v, s) ∉ h := fun hin =>
          hv.2.1 (List.mem_map.2 ⟨_, Cat.mem_ofSuit.2 ⟨hin, rfl⟩, pips_rankOf hv.1⟩)
        refine ⟨hin, (hcat _ hin).2 ⟨h4, ?_⟩⟩
        rw [pips_rankOf hv.1]; exact hv.2.2
      · rintro ⟨hin, h5⟩
        obtain ⟨a, b⟩ := (hcat c hin).1 h5
        have e : c.2 = s := by
          by_contra hne
          have := one_draw h6 h4 (t := c.2) (fun h => hne h.symm)
          omega
        subst e
        refine ⟨pips c.1, ?_, Prod.ext (pips_inj (pips_rankOf (pips_mem _))) rfl⟩
        rw [List.mem_filter, Bool.and_eq_true, Bool.not_eq_true', Bool.not_eq_true',
          decide_eq_false_iff_not]
        refine ⟨pips_mem _, fun hv => ?_, b⟩
        obtain ⟨d, hd, e⟩ := List.mem_map.1 hv
        obtain ⟨d1, d2⟩ := Cat.mem_ofSuit.1 hd
        exact hin (by rw [← show d = c from Prod.ext (pips_inj e) d2]; exact d1)
  · rw [if_neg hd]
    refine count_none fun c hc e => hd (draw_iff.2 ⟨c.2, ((hcat c hc).1 e).1⟩)

theorem count4 {h : List PCard} (hn : h.Nodup) (h6 : h.length ≤ 6) (hk : category h < 4) :
    Count h 4 (outs h 4) := by
  have hf : hasFlush h = false := low' (j := 5) hk (by omega) (by omega)
  have hs : hasStraight h = false := low (k := 4) hk (by omega)
  have h7 : ∀ c : PCard, (c :: h).length ≤ 7 := fun c => by rw [List.length_cons]; omega
  have hm : ∀ v, (straightTop (v :: values h)).isSome = true → v ∉ values h := by
    intro v hv hin
    rw [straight_same hin hs] at hv
    exact absurd hv (by decide)
  have hcat : ∀ c, c ∉ h → (category (c :: h) = 4 ↔ (straightTop (pips c.1 :: values h)).isSome = true ∧
      (ofSuit c.2 h).length ≠ 4) := by
    intro c hc
    rw [(cat_iff (c :: h)).2.2.2.2.1, eq_false_iff' (flush_cons hf)]
    constructor
    · rintro ⟨_, _, _, a, b⟩; exact ⟨b, a⟩
    · rintro ⟨b, a⟩
      have := spread_straight (h := c :: h) b (h7 c)
      exact ⟨no_sf (.inl ((eq_false_iff' (flush_cons hf)).2 a)), this.1, this.2, a, b⟩
  rw [outs]
  by_cases hd : flushDraw h = true
  · rw [if_pos hd]
    obtain ⟨s, h4⟩ := draw_iff.1 hd
    refine ⟨some' (fun v => (straightTop (v :: values h)).isSome) (free · s h),
      some_nodup (fun v _ => free_nodup v s h) (fun v hv c h => ((mem_free hv).1 h).1),
      some_length (fun v hv hq => free_three hv s (hm v hq)), ?_⟩
    intro c
    rw [mem_some (P := fun c => c.2 ≠ s ∧ c ∉ h) (fun v hv c => mem_free hv)]
    constructor
    · rintro ⟨a, b, d⟩
      refine ⟨d, (hcat c d).2 ⟨a, ?_⟩⟩
      have := one_draw h6 h4 (t := c.2) (fun h => b h.symm)
      omega
    · rintro ⟨d, e⟩
      obtain ⟨a, b⟩ := (hcat c d).1 e
      exact ⟨a, fun e => b (e ▸ h4), d⟩
  · rw [if_neg hd]
    refine ⟨some' (fun v => (straightTop (v :: values h)).isSome) (left · h),
      some_nodup (fun v _ => left_nodup v h) (fun v hv c h => ((mem_left hv).1 h).1),
      some_length (fun v hv hq => ?_), ?_⟩
    · have := left_length hv hn
      rw [List.count_eq_zero_of_not_mem (hm v hq)] at this
      exact this
    · intro c
      rw [mem_some (P := fun c => c ∉ h) (fun v hv c => mem_left hv)]
      constructor
      · rintro ⟨a, d⟩
        exact ⟨d, (hcat c d).2 ⟨a, fun e => hd (draw_iff.2 ⟨_, e⟩)⟩⟩
      · rintro ⟨d, e⟩
        exact ⟨((hcat c d).1 e).1, d⟩

/-! ## Below a straight -/

theorem sum_counts (h : List PCard) : (allValues.map (fun v => (values h).count v)).sum = h.length := by
  induction h with
  | nil => decide
  | cons c h ih =>
    have hc : pips c.1 ∈ allValues := pips_mem c.1
    have e : allValues.map (fun v => (values (c :: h)).count v) =
        allValues.map (fun v => (values h).count v + (if pips c.1 = v then 1 else 0)) :=
      List.map_congr_left fun v _ => count_one c h v
    rw [e, List.sum_map_add, ih, List.length_cons]
    congr 1
    revert hc
    generalize pips c.1 = p
    revert p
    decide

theorem times_sum {f : Nat → Nat} (hf : ∀ v, f v ≤ 2) (l : List Nat) :
    l.countP (fun v => f v == 1) + 2 * l.countP (fun v => f v == 2) = (l.map f).sum := by
  induction l with
  | nil => rfl
  | cons a l ih =>
    rw [List.countP_cons, List.countP_cons, List.map_cons, List.sum_cons, ← ih]
    have := hf a
    obtain h0 | h0 | h0 : f a = 0 ∨ f a = 1 ∨ f a = 2 := by omega
    all_goals
      rw [h0]
      simp
      try omega

theorem one_pair {h : List PCard} (ht : hasTrips h = false) (hp : hasPair h = true)
    (hp2 : hasTwoPair h = false) : times 2 h = 1 := by
  obtain ⟨v, hv⟩ := pair_iff.1 hp
  have h2 := no_trips' ht v
  rw [times, List.countP_eq_length_filter]
  have e : (allValues.filter (fun u => (values h).count u == 2)).Perm [v] := by
    rw [List.perm_ext_iff_of_nodup (Cat.allValues_nodup.filter _) (List.nodup_singleton _)]
    intro u
    rw [List.mem_filter, beq_iff_eq, List.mem_singleton]
    constructor
    · rintro ⟨_, hu⟩
      by_contra hne
      have := no_two hp2 hne hv
      omega
    · rintro rfl
      exact ⟨value_of_count (by omega) hv, by omega⟩
  rw [e.length_eq, List.length_singleton]

theorem mem_of_count {h : List PCard} {v m : Nat} (hm : 0 < m) (hc : (values h).count v = m) :
    v ∈ values h := List.count_pos_iff.1 (by omega)

/-- The cards of values that occur `m` times, except those of a suit with four cards. -/
theorem count_but {h : List PCard} {k m : Nat} (hn : h.Nodup) (h6 : h.length ≤ 6) (hm : m ≤ 4)
    (hc : ∀ c, c ∉ h → (category (c :: h) = k ↔ (values h).count (pips c.1) = m ∧ (ofSuit c.2 h).length ≠ 4)) :
    Count h k ((4 - m) * times m h - lost m h) := by
  have hLn : (some' (fun v => (values h).count v == m) (left · h)).Nodup := some_nodup
    (fun v _ => left_nodup v h) (fun v hv c h => ((mem_left hv).1 h).1)
  have hLl : (some' (fun v => (values h).count v == m) (left · h)).length = (4 - m) * times m h := by
    refine some_length ?_
    intro v hv hq
    have := left_length hv hn
    rw [beq_iff_eq.1 hq] at this
    omega
  have hLm : ∀ c, c ∈ some' (fun v => (values h).count v == m) (left · h) ↔
      ((values h).count (pips c.1) = m ∧ c ∉ h) := by
    intro c
    rw [mem_some (P := fun c => c ∉ h) (fun v hv c => mem_left hv), beq_iff_eq]
  generalize some' (fun v => (values h).count v == m) (left · h) = L at hLn hLl hLm
  have hsplit : L.length = (L.filter (fun c => (ofSuit c.2 h).length != 4)).length +
      (L.filter (fun c => !((ofSuit c.2 h).length != 4))).length := List.length_eq_length_filter_add _
  have hlost : (L.filter (fun c => !((ofSuit c.2 h).length != 4))).length = lost m h := by
    by_cases hd : ∃ s, (ofSuit s h).length = 4
    · obtain ⟨s, hs⟩ := hd
      have e : lost m h =
          allValues.countP (fun v => (values h).count v == m && !(values (ofSuit s h)).contains v) := by
        rw [lost, sum_one (s := s)]
        · rw [if_pos (beq_iff_eq.2 hs)]
        · intro t hne
          have := one_draw h6 hs hne
          rw [if_neg]
          rw [beq_iff_eq]
          omega
      rw [e, List.countP_eq_length_filter, ← List.length_map (f := fun v => (rankOf v, s))]
      refine List.Perm.length_eq ((List.perm_ext_iff_of_nodup (hLn.filter _) ?_).2 ?_)
      · refine List.Nodup.map_on ?_ (Cat.allValues_nodup.filter _)
        intro a ha b hb hab
        rw [← pips_rankOf (List.mem_filter.1 ha).1, ← pips_rankOf (List.mem_filter.1 hb).1, (Prod.mk.inj hab).1]
      · intro c
        rw [List.mem_filter, hLm, List.mem_map]
        constructor
        · rintro ⟨⟨h1, h2⟩, h3⟩
          have h4 : (ofSuit c.2 h).length = 4 := by simpa using h3
          have h5 : c.2 = s := by
            by_contra hne
            have := one_draw h6 hs (fun e => hne e.symm)
            omega
          refine ⟨pips c.1, List.mem_filter.2 ⟨pips_mem c.1, ?_⟩, ?_⟩
          · rw [Bool.and_eq_true, beq_iff_eq, Bool.not_eq_true']
            refine ⟨h1, false_of fun h7 => h2 ?_⟩
            rw [List.contains_iff_mem] at h7
            obtain ⟨d, hd, e⟩ := List.mem_map.1 h7
            obtain ⟨hd1, hd2⟩ := Cat.mem_ofSuit.1 hd
            have : d = c := Prod.ext (pips_inj e) (hd2.trans h5.symm)
            exact this ▸ hd1
          · rw [rankOf_pips, ← h5]
        · rintro ⟨v, hv, rfl⟩
          obtain ⟨h1, h2⟩ := List.mem_filter.1 hv
          rw [Bool.and_eq_true, beq_iff_eq, Bool.not_eq_true'] at h2
          refine ⟨⟨by rw [pips_rankOf h1]; exact h2.1, fun hm => ?_⟩, by simp [hs]⟩
          have : v ∈ values (ofSuit s h) := List.mem_map.2 ⟨_, Cat.mem_ofSuit.2 ⟨hm, rfl⟩, pips_rankOf h1⟩
          rw [List.contains_iff_mem.2 this] at h2
          exact absurd h2.2 (by decide)
    · have e : lost m h = 0 := by
        rw [lost, sum_one (s := .Clubs)]
        · rw [if_neg]
          rw [beq_iff_eq]
          exact fun h => hd ⟨_, h⟩
        · intro t _
          rw [if_neg]
          rw [beq_iff_eq]
          exact fun h => hd ⟨_, h⟩
      rw [e, List.length_eq_zero_iff, List.filter_eq_nil_iff]
      intro c _ h3
      exact hd ⟨c.2, by simpa using h3⟩
  refine ⟨L.filter (fun c => (ofSuit c.2 h).length != 4), hLn.filter _, by omega, fun c => ?_⟩
  rw [List.mem_filter, hLm, bne_iff_ne]
  constructor
  · rintro ⟨⟨h1, h2⟩, h3⟩
    exact ⟨h2, (hc c h2).2 ⟨h1, h3⟩⟩
  · rintro ⟨h1, h2⟩
    have := (hc c h1).1 h2
    exact ⟨⟨this.1, h1⟩, this.2⟩

theorem no_draw {c : PCard} {h : List PCard} (hf : hasFlush h = false) (hc : hasFlush (c :: h) = false) :
    (ofSuit c.2 h).length ≠ 4 := fun h4 => by
  rw [(flush_cons hf).2 h4] at hc
  exact absurd hc (by decide)

/-- A card of a value that is there already makes no straight, and without four of its suit no flush. -/
theorem plain {c : PCard} {h : List PCard} (hs : hasStraight h = false) (hf : hasFlush h = false)
    (hd : (ofSuit c.2 h).length ≠ 4) (hv : pips c.1 ∈ values h) :
    hasStraight (c :: h) = false ∧ hasFlush (c :: h) = false ∧ hasStraightFlush (c :: h) = false := by
  have h1 : hasFlush (c :: h) = false := by
    rw [eq_false_iff' (flush_cons hf)]
    exact hd
  exact ⟨straight_same hv hs, h1, no_sf (.inl h1)⟩

theorem quads_to_trips {h : List PCard} (ht : hasTrips h = false) : hasQuads h = false ∧ hasFullHouse h = false :=
  ⟨false_of fun e => by rw [trips_of_quads e] at ht; exact absurd ht (by decide),
    false_of fun e => by rw [trips_of_full e] at ht; exact absurd ht (by decide)⟩

theorem count3 {h : List PCard} (hn : h.Nodup) (h6 : h.length ≤ 6) (hk : category h < 3) :
    Count h 3 (outs h 3) := by
  have hf : hasFlush h = false := low' (j := 5) hk (by omega) (by omega)
  have hs : hasStraight h = false := low' (j := 4) hk (by omega) (by omega)
  have ht : hasTrips h = false := low (k := 3) hk (by omega)
  rw [outs]
  by_cases hp : (hasPair h && !hasTwoPair h) = true
  · rw [if_pos hp]
    rw [Bool.and_eq_true, Bool.not_eq_true'] at hp
    have h1 := count_but (k := 3) (m := 2) hn h6 (by omega) (h := h) ?_
    · rw [one_pair ht hp.1 hp.2] at h1
      exact h1
    intro c _
    rw [(cat_iff (c :: h)).2.2.2.2.2.1]
    constructor
    · rintro ⟨_, _, _, hfc, _, h3⟩
      refine ⟨?_, no_draw hf hfc⟩
      obtain ⟨v, hv⟩ := trips_iff.1 h3
      have := no_trips' ht v
      rw [count_one] at hv
      by_cases e : pips c.1 = v
      · rw [if_pos e] at hv; rw [e]; omega
      · rw [if_neg e] at hv; omega
    · rintro ⟨h2, hd⟩
      obtain ⟨a, b, d⟩ := plain hs hf hd (mem_of_count (by omega) h2)
      exact ⟨d, from_two ht, from_one ht hp.2, b, a,
        trips_iff.2 ⟨pips c.1, by rw [count_one, if_pos rfl]; omega⟩⟩
  · rw [if_neg hp]
    refine count_none fun c _ e => ?_
    obtain ⟨_, _, h6, _, _, h3⟩ := (cat_iff (c :: h)).2.2.2.2.2.1.1 e
    cases hp1 : hasPair h with
    | false => rw [(from_none hp1).2] at h3; exact absurd h3 (by decide)
    | true =>
      cases hp2 : hasTwoPair h with
      | false => rw [hp1, hp2] at hp; exact hp rfl
      | true => rw [two_to_full hp2 h3] at h6; exact absurd h6 (by decide)

theorem count2 {h : List PCard} (hn : h.Nodup) (h6 : h.length ≤ 6) (hk : category h < 2) :
    Count h 2 (outs h 2) := by
  have hf : hasFlush h = false := low' (j := 5) hk (by omega) (by omega)
  have hs : hasStraight h = false := low' (j := 4) hk (by omega) (by omega)
  have ht : hasTrips h = false := low' (j := 3) hk (by omega) (by omega)
  have h2 : hasTwoPair h = false := low (k := 2) hk (by omega)
  rw [outs, h2]
  cases hp : hasPair h with
  | false =>
    refine count_none fun c _ e => ?_
    have h3 := ((cat_iff (c :: h)).2.2.2.2.2.2.1.1 e).2.2.2.2.2.2
    rw [(from_none hp).1] at h3
    exact absurd h3 (by decide)
  | true =>
    have h1 := count_but (k := 2) (m := 1) hn h6 (by omega) (h := h) ?_
    · have e1 := times_sum (f := fun v => (values h).count v) (no_trips' ht) allValues
      rw [sum_counts] at e1
      have e2 := one_pair ht hp h2
      rw [times] at e2
      rw [e2] at e1
      rw [show (4 - 1) * times 1 h = 3 * (h.length - 2) by rw [times]; omega] at h1
      exact h1
    intro c _
    obtain ⟨v, hv⟩ := pair_iff.1 hp
    rw [(cat_iff (c :: h)).2.2.2.2.2.2.1]
    constructor
    · rintro ⟨_, _, _, hfc, _, h3, h4⟩
      refine ⟨?_, no_draw hf hfc⟩
      have h5 : (values (c :: h)).count (pips c.1) ≤ 2 := no_trips' h3 _
      rw [count_one, if_pos rfl] at h5
      obtain ⟨x, y, hne, hx, hy⟩ := twopair_iff.1 h4
      rw [count_one] at hx hy
      by_cases ex : pips c.1 = x
      · rw [if_pos ex] at hx
        rw [ex] at h5 ⊢
        omega
      · rw [if_neg ex] at hx
        have h6 := no_two h2 hne (v := x) (by omega)
        by_cases ey : pips c.1 = y
        · rw [if_pos ey] at hy; rw [ey]; omega
        · rw [if_neg ey] at hy; omega
    · rintro ⟨h1, hd⟩
      obtain ⟨a, b, d⟩ := plain hs hf hd (mem_of_count (by omega) h1)
      have hne : pips c.1 ≠ v := fun e => by rw [e] at h1; omega
      refine ⟨d, from_two ht, from_one ht h2, b, a, false_of fun h3 => ?_, ?_⟩
      · obtain ⟨x, hx⟩ := trips_iff.1 h3
        have := no_trips' ht x
        rw [count_one] at hx
        by_cases ex : pips c.1 = x
        · rw [if_pos ex, ← ex] at hx; omega
        · rw [if_neg ex] at hx; omega
      · exact twopair_iff.2 ⟨v, pips c.1, hne, by rw [count_one]; omega, by rw [count_one, if_pos rfl]; omega⟩

theorem count1 {h : List PCard} (hn : h.Nodup) (h6 : h.length ≤ 6) (hk : category h < 1) :
    Count h 1 (outs h 1) := by
  have hf : hasFlush h = false := low' (j := 5) hk (by omega) (by omega)
  have hs : hasStraight h = false := low' (j := 4) hk (by omega) (by omega)
  have hp : hasPair h = false := low (k := 1) hk (by omega)
  have hb := no_pair hp
  have h1 := count_but (k := 1) (m := 1) hn h6 (by omega) (h := h) ?_
  · have e1 := times_sum (f := fun v => (values h).count v) (fun v => (hb v).trans (by omega)) allValues
    rw [sum_counts] at e1
    have e2 : allValues.countP (fun v => (values h).count v == 2) = 0 := by
      rw [List.countP_eq_zero]
      intro v _ hv
      rw [beq_iff_eq] at hv
      have := hb v
      omega
    rw [e2] at e1
    rw [show (4 - 1) * times 1 h = 3 * h.length by rw [times]; omega] at h1
    exact h1
  intro c _
  have h0 := from_none (c := c) hp
  rw [(cat_iff (c :: h)).2.2.2.2.2.2.2.1]
  constructor
  · rintro ⟨_, _, _, hfc, _, _, _, h3⟩
    refine ⟨?_, no_draw hf hfc⟩
    obtain ⟨v, hv⟩ := pair_iff.1 h3
    have := hb v
    rw [count_one] at hv
    by_cases e : pips c.1 = v
    · rw [if_pos e] at hv; rw [e]; omega
    · rw [if_neg e] at hv; omega
  · rintro ⟨h1, hd⟩
    obtain ⟨a, b, d⟩ := plain hs hf hd (mem_of_count (by omega) h1)
    exact ⟨d, (quads_to_trips h0.2).1, (quads_to_trips h0.2).2, b, a, h0.2, h0.1,
      pair_iff.2 ⟨pips c.1, by rw [count_one, if_pos rfl]; omega⟩⟩

end Outs
end Poker
