import Verif.Spec.Raise
import Verif.Proofs.Nuts

/-! # Raising every card by one rank (helper lemmas) -/

namespace Poker
open Rules Tab

namespace Raise
open Board

theorem pips_next {r : Rank} (h : r ≠ .Ace) : pips (nextRank r) = pips r + 1 := by
  cases r <;> first | rfl | exact absurd rfl h

/-- Hands without an ace. -/
def NoAce (h : List PCard) : Prop := ∀ c ∈ h, c.1 ≠ Rank.Ace

theorem values_raised {h : List PCard} (hA : NoAce h) : values (raised h) = (values h).map (· + 1) := by
  simp only [values, raised, List.map_map]
  refine List.map_congr_left fun c hc => ?_
  exact pips_next (hA c hc)

theorem suit_raised (s : Suit) (h : List PCard) : ofSuit s (raised h) = raised (ofSuit s h) := by
  simp only [ofSuit, raised, List.filter_map]
  rfl

theorem no_suit {h : List PCard} (hA : NoAce h) (s : Suit) : NoAce (ofSuit s h) :=
  fun c hc => hA c (Cat.mem_ofSuit.1 hc).1

/-- Values between two and thirteen. -/
theorem bounds {h : List PCard} (hA : NoAce h) : ∀ v ∈ values h, 2 ≤ v ∧ v ≤ 13 := by
  intro v hv
  obtain ⟨c, hc, rfl⟩ := List.mem_map.1 hv
  have := hA c hc
  cases hr : c.1 <;> first | exact absurd hr this | decide

theorem count_up (vs : List Nat) (v : Nat) : (vs.map (· + 1)).count (v + 1) = vs.count v :=
  List.count_map_of_injective vs (· + 1) (fun _ _ h => Nat.succ.inj h) v

theorem mem_up (vs : List Nat) (v : Nat) : (vs.map (· + 1)).contains (v + 1) = vs.contains v := by
  rw [Bool.eq_iff_iff, List.contains_iff_mem, List.contains_iff_mem, List.mem_map]
  exact ⟨fun ⟨u, h, e⟩ => Nat.succ.inj e ▸ h, fun h => ⟨v, h, rfl⟩⟩

theorem atLeast_up {vs : List Nat} (hv : ∀ v ∈ vs, 2 ≤ v ∧ v ≤ 13) {m : Nat} (hm : 1 ≤ m) :
    atLeast m (vs.map (· + 1)) = (atLeast m vs).map (· + 1) := by
  have h14 : ¬ m ≤ vs.count 14 := by
    have : vs.count 14 = 0 := List.count_eq_zero.2 fun h => by have := hv 14 h; omega
    omega
  have h1 : ¬ m ≤ vs.count 1 := by
    have : vs.count 1 = 0 := List.count_eq_zero.2 fun h => by have := hv 1 h; omega
    omega
  have e1 : allValues = ([13, 12, 11, 10, 9, 8, 7, 6, 5, 4, 3, 2, 1] : List Nat).map (· + 1) := rfl
  have e2 : ([13, 12, 11, 10, 9, 8, 7, 6, 5, 4, 3, 2, 1] : List Nat) =
      [13, 12, 11, 10, 9, 8, 7, 6, 5, 4, 3, 2] ++ [1] := rfl
  have e3 : allValues = 14 :: [13, 12, 11, 10, 9, 8, 7, 6, 5, 4, 3, 2] := rfl
  have l1 : atLeast m (vs.map (· + 1)) =
      (([13, 12, 11, 10, 9, 8, 7, 6, 5, 4, 3, 2] : List Nat).filter
        (fun v => decide (m ≤ vs.count v))).map (· + 1) := by
    rw [atLeast, e1, List.filter_map]
    congr 1
    rw [e2, List.filter_append]
    have : ([1] : List Nat).filter ((fun v => decide (m ≤ (vs.map (· + 1)).count v)) ∘ (· + 1)) = [] := by
      rw [List.filter_eq_nil_iff]
      intro a ha
      rw [List.mem_singleton.1 ha]
      simp only [Function.comp, count_up]
      rw [decide_eq_true_eq]
      exact h1
    rw [this, List.append_nil]
    refine List.filter_congr fun v _ => ?_
    simp only [Function.comp, count_up]
  have l2 : atLeast m vs = ([13, 12, 11, 10, 9, 8, 7, 6, 5, 4, 3, 2] : List Nat).filter
      (fun v => decide (m ≤ vs.count v)) := by
    rw [atLeast, e3, List.filter_cons, if_neg (by rw [decide_eq_true_eq]; exact h14)]
  rw [l1, l2]

theorem highest_up {vs : List Nat} (hv : ∀ v ∈ vs, 2 ≤ v ∧ v ≤ 13) {m n m' n' : Nat} (hm : 1 ≤ m)
    (hm' : 1 ≤ m' ∨ n' = 0) :
    highest m n m' n' (vs.map (· + 1)) = (highest m n m' n' vs).map (· + 1) := by
  rw [highest, highest, atLeast_up hv hm]
  simp only [List.map_append, List.map_take]
  congr 1
  rcases hm' with hm' | rfl
  · rw [atLeast_up hv hm', List.filter_map]
    conv => lhs; rw [← List.map_take (f := (· + 1)), ← List.map_take (f := (· + 1))]
    rw [← List.map_take (f := (· + 1))]
    congr 2
    refine List.filter_congr fun v _ => ?_
    simp only [Function.comp]
    rw [mem_up]
  · simp

theorem plays_up {vs : List Nat} (hv : ∀ v ∈ vs, 2 ≤ v ∧ v ≤ 13) {v : Nat} (h1 : 1 ≤ v) :
    plays (vs.map (· + 1)) (v + 1) = plays vs v := by
  have h14 : vs.contains 14 = false := false_of fun h => by
    have := hv 14 (List.contains_iff_mem.1 h); omega
  rw [plays, plays, mem_up, h14]
  have : (v + 1 == 1) = false := by rw [beq_eq_false_iff_ne]; omega
  rw [this, Bool.and_false, Bool.false_and]

theorem straight_up {vs : List Nat} (hv : ∀ v ∈ vs, 2 ≤ v ∧ v ≤ 13) :
    straightTop (vs.map (· + 1)) = (straightTop vs).map (· + 1) := by
  have no14 : plays vs 14 = false := by
    rw [plays]
    have : vs.contains 14 = false := false_of fun h => by
      have := hv 14 (List.contains_iff_mem.1 h); omega
    rw [this]; rfl
  have no1 : plays vs 1 = false := by
    rw [plays]
    have h14 : vs.contains 14 = false := false_of fun h => by
      have := hv 14 (List.contains_iff_mem.1 h); omega
    have h1 : vs.contains 1 = false := false_of fun h => by
      have := hv 1 (List.contains_iff_mem.1 h); omega
    rw [h1, h14]; rfl
  have p : ∀ v, 1 ≤ v → plays (vs.map (· + 1)) (v + 1) = plays vs v := fun v => plays_up hv
  have p14 := p 13 (by omega)
  have p13 := p 12 (by omega)
  have p12 := p 11 (by omega)
  have p11 := p 10 (by omega)
  have p10 := p 9 (by omega)
  have p9 := p 8 (by omega)
  have p8 := p 7 (by omega)
  have p7 := p 6 (by omega)
  have p6 := p 5 (by omega)
  have p5 := p 4 (by omega)
  have p4 := p 3 (by omega)
  have p3 := p 2 (by omega)
  have p2 := p 1 (by omega)
  simp only [Nat.reduceAdd] at p14 p13 p12 p11 p10 p9 p8 p7 p6 p5 p4 p3 p2
  simp only [straightTop, straightTops, List.find?_cons, List.find?_nil, List.all_cons, List.all_nil,
    Nat.reduceSub, p14, p13, p12, p11, p10, p9, p8, p7, p6, p5, p4, p3, p2, no14, no1, Bool.false_and,
    Bool.and_false, Bool.and_true]
  generalize plays vs 13 = a13
  generalize plays vs 12 = a12
  generalize plays vs 11 = a11
  generalize plays vs 10 = a10
  generalize plays vs 9 = a9
  generalize plays vs 8 = a8
  generalize plays vs 7 = a7
  generalize plays vs 6 = a6
  generalize plays vs 5 = a5
  generalize plays vs 4 = a4
  generalize plays vs 3 = a3
  generalize plays vs 2 = a2
  repeat' split
  all_goals rfl

/-! ## Categories and worths -/

theorem nodup_raised {h : List PCard} (hA : NoAce h) : (raised h).Nodup ↔ h.Nodup := by
  rw [raised]
  refine ⟨List.Nodup.of_map _, fun hn => hn.map_on ?_⟩
  intro a ha b hb e
  have h1 := congrArg pips (Prod.mk.inj e).1
  rw [pips_next (hA a ha), pips_next (hA b hb)] at h1
  exact Prod.ext (pips_inj (Nat.succ.inj h1)) (Prod.mk.inj e).2

theorem any_up {vs : List Nat} {m : Nat} (hm : 1 ≤ m) :
    (∃ v, m ≤ (vs.map (· + 1)).count v) ↔ ∃ v, m ≤ vs.count v := by
  constructor
  · rintro ⟨v, h⟩
    have : v ∈ vs.map (· + 1) := List.count_pos_iff.1 (by omega)
    obtain ⟨u, _, rfl⟩ := List.mem_map.1 this
    exact ⟨u, by rwa [count_up] at h⟩
  · rintro ⟨v, h⟩
    exact ⟨v + 1, by rwa [count_up]⟩

theorem two_up {vs : List Nat} {m m' : Nat} (hm : 1 ≤ m) (hm' : 1 ≤ m') :
    (∃ u v, v ≠ u ∧ m ≤ (vs.map (· + 1)).count u ∧ m' ≤ (vs.map (· + 1)).count v) ↔
      ∃ u v, v ≠ u ∧ m ≤ vs.count u ∧ m' ≤ vs.count v := by
  constructor
  · rintro ⟨u, v, hne, h, h'⟩
    have h1 : u ∈ vs.map (· + 1) := List.count_pos_iff.1 (by omega)
    have h2 : v ∈ vs.map (· + 1) := List.count_pos_iff.1 (by omega)
    obtain ⟨x, _, rfl⟩ := List.mem_map.1 h1
    obtain ⟨y, _, rfl⟩ := List.mem_map.1 h2
    rw [count_up] at h h'
    exact ⟨x, y, fun e => hne (by rw [e]), h, h'⟩
  · rintro ⟨u, v, hne, h, h'⟩
    exact ⟨u + 1, v + 1, fun e => hne (Nat.succ.inj e), by rwa [count_up], by rwa [count_up]⟩

theorem category_raised {h : List PCard} (hA : NoAce h) : category (raised h) = category h := by
  have hv := bounds hA
  have b : ∀ {p q : Bool}, (p = true ↔ q = true) → p = q := fun h => Bool.eq_iff_iff.2 h
  rw [category, category,
    show hasStraightFlush (raised h) = hasStraightFlush h by
      simp only [hasStraightFlush]
      congr 1
      funext s
      rw [suit_raised, values_raised (no_suit hA s), straight_up (bounds (no_suit hA s)), Option.isSome_map],
    show hasQuads (raised h) = hasQuads h by
      refine b ?_
      rw [quads_iff, quads_iff, values_raised hA, any_up (by omega)],
    show hasFullHouse (raised h) = hasFullHouse h by
      refine b ?_
      rw [full_iff, full_iff, values_raised hA, two_up (by omega) (by omega)],
    show hasFlush (raised h) = hasFlush h by
      refine b ?_
      rw [Board.flush_iff, Board.flush_iff]
      simp only [suit_raised]
      simp only [raised, List.length_map],
    show hasStraight (raised h) = hasStraight h by
      rw [hasStraight, hasStraight, values_raised hA, straight_up hv, Option.isSome_map],
    show hasTrips (raised h) = hasTrips h by
      refine b ?_
      rw [trips_iff, trips_iff, values_raised hA, any_up (by omega)],
    show hasTwoPair (raised h) = hasTwoPair h by
      refine b ?_
      rw [twopair_iff, twopair_iff, values_raised hA, two_up (by omega) (by omega)],
    show hasPair (raised h) = hasPair h by
      refine b ?_
      rw [pair_iff, pair_iff, values_raised hA, any_up (by omega)]]

theorem cmpList_up : ∀ a b : List Nat, cmpList (a.map (· + 1)) (b.map (· + 1)) = cmpList a b
  | [], [] => rfl
  | [], _ :: _ => rfl
  | _ :: _, [] => rfl
  | x :: a, y :: b => by
    rw [List.map_cons, List.map_cons, cmpList, cmpList, cmpList_up a b]
    congr 1
    rcases Nat.lt_trichotomy x y with h | h | h
    · rw [Nat.compare_eq_lt.2 h, Nat.compare_eq_lt.2 (by omega)]
    · rw [Nat.compare_eq_eq.2 h, Nat.compare_eq_eq.2 (by omega)]
    · rw [Nat.compare_eq_gt.2 h, Nat.compare_eq_gt.2 (by omega)]

theorem better_up (a b : List Nat) : better (a.map (· + 1)) (b.map (· + 1)) = (better a b).map (· + 1) := by
  rw [better, better, cmpList_up]
  split <;> rfl

theorem foldl_better_up : ∀ (l : List (List Nat)) (a : List Nat),
    (l.map (List.map (· + 1))).foldl better (a.map (· + 1)) = (l.foldl better a).map (· + 1)
  | [], _ => rfl
  | x :: l, a => by
    rw [List.map_cons, List.foldl_cons, List.foldl_cons, better_up, foldl_better_up l]

theorem foldl_max_up : ∀ (l : List Nat) (a : Nat), (l.map (· + 1)).foldl max (a + 1) = l.foldl max a + 1
  | [], _ => rfl
  | x :: l, a => by
    rw [List.map_cons, List.foldl_cons, List.foldl_cons, ← foldl_max_up l]
    congr 1
    omega

/-- The worth of the raised hand has the same category, and values one higher. -/
theorem worth_raised {h : List PCard} (hA : NoAce h) :
    bestWorth (raised h) = (category h, (bestWorth h).2.map (· + 1)) := by
  have hv := bounds hA
  have hle := Cat.category_le h
  have h8 : category h = 8 → (suits.filterMap (fun s => straightTop (values (ofSuit s h)))) ≠ [] := by
    intro e
    obtain ⟨s, hs, h1⟩ := List.any_eq_true.1 ((cat_iff h).1.1 e)
    obtain ⟨t, ht⟩ := Option.isSome_iff_exists.1 h1
    exact List.ne_nil_of_mem (List.mem_filterMap.2 ⟨s, hs, ht⟩)
  have h4 : category h = 4 → ∃ t, straightTop (values h) = some t := by
    intro e
    have h1 : hasStraight h = true := ((cat_iff h).2.2.2.2.1.1 e).2.2.2.2
    exact Option.isSome_iff_exists.1 h1
  obtain ⟨k, hk⟩ : ∃ k, category h = k := ⟨_, rfl⟩
  rw [bestWorth, bestWorth, category_raised hA, values_raised hA]
  rw [hk] at hle h8 h4 ⊢
  interval_cases k <;> simp only []
  · rw [highest_up hv (by omega) (.inr rfl)]
  · rw [highest_up hv (by omega) (.inl (by omega))]
  · rw [highest_up hv (by omega) (.inl (by omega))]
  · rw [highest_up hv (by omega) (.inl (by omega))]
  · obtain ⟨t, ht⟩ := h4 rfl
    rw [straight_up hv, ht]
    rfl
  · congr 1
    rw [← foldl_better_up _ []]
    congr 1
    rw [List.map_map]
    have e1 : suits.filter (fun s => decide (5 ≤ (ofSuit s (raised h)).length)) =
        suits.filter (fun s => decide (5 ≤ (ofSuit s h).length)) := by
      refine List.filter_congr fun s _ => ?_
      rw [suit_raised, raised, List.length_map]
    rw [e1]
    refine List.map_congr_left fun s _ => ?_
    simp only [Function.comp]
    rw [suit_raised, values_raised (no_suit hA s), highest_up (bounds (no_suit hA s)) (by omega) (.inr rfl)]
  · rw [highest_up hv (by omega) (.inl (by omega))]
  · rw [highest_up hv (by omega) (.inl (by omega))]
  · congr 1
    have e1 : suits.filterMap (fun s => straightTop (values (ofSuit s (raised h)))) =
        (suits.filterMap (fun s => straightTop (values (ofSuit s h)))).map (· + 1) := by
      rw [List.map_filterMap]
      refine List.filterMap_congr fun s _ => ?_
      rw [suit_raised, values_raised (no_suit hA s), straight_up (bounds (no_suit hA s))]
    rw [e1]
    have h9 := h8 rfl
    generalize suits.filterMap (fun s => straightTop (values (ofSuit s h))) = l at h9
    match l with
    | [] => exact absurd rfl h9
    | x :: l =>
      rw [List.map_cons, List.foldl_cons, List.foldl_cons, Nat.zero_max, Nat.zero_max, foldl_max_up]
      rfl

end Raise
end Poker
