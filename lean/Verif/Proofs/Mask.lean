import Verif.Proofs.MaskDefs
import Verif.Proofs.RoomCases

/-! # Many cards as sets of values, one for each suit (helper lemmas) -/

namespace Poker.Mask
open Rules Tab Exact Room

/-! ## Sets of values -/

set_option maxRecDepth 100000 in
theorem pop_check : ∀ a < 64, ∀ b < 128, pop (4 * (128 * a + b))
    = (allValues.filter (fun v => (4 * (128 * a + b)).testBit v)).length := by
  decide +kernel

theorem mem_members {x v : Nat} : v ∈ members x ↔ v ∈ allValues ∧ x.testBit v = true := by
  rw [members, List.mem_filter]

theorem members_nodup (x : Nat) : (members x).Nodup := Cat.allValues_nodup.filter _

theorem members_desc (x : Nat) : (members x).Pairwise (· > ·) := allValues_desc.filter _

theorem two_le {v : Nat} (hv : v ∈ allValues) : 2 ≤ v ∧ v ≤ 14 := by
  revert v; decide

theorem pop_members {x : Nat} (hx : x < 2 ^ 15) : pop x = (members x).length := by
  have h := pop_check (x / 4 / 128) (by omega) (x / 4 % 128) (by omega)
  have e : 128 * (x / 4 / 128) + x / 4 % 128 = x / 4 := by omega
  rw [e] at h
  have p : pop (4 * (x / 4)) = pop x := by
    have : 4 * (x / 4) / 4 = x / 4 := by omega
    unfold pop
    rw [show Nat.div (4 * (x / 4)) 4 = 4 * (x / 4) / 4 from rfl, this]
    rfl
  rw [← p, h, members]
  congr 1
  refine List.filter_congr (fun v hv => ?_)
  obtain ⟨u, rfl⟩ : ∃ u, v = u + 2 := ⟨v - 2, by have := two_le hv; omega⟩
  rw [show (4 * (x / 4)) = x / 2 ^ 2 * 2 ^ 2 by omega, Nat.testBit_mul_two_pow]
  rw [show x.testBit (u + 2) = (x / 2 ^ 2).testBit u from (Nat.testBit_div_two_pow ..).symm]
  simp

theorem testBit_cut (X L v : Nat) : (cut X L).testBit v = (X.testBit v && !L.testBit v) := by
  show (X ^^^ (X &&& L)).testBit v = _
  rw [Nat.testBit_xor, Nat.testBit_and]
  cases X.testBit v <;> cases L.testBit v <;> rfl

theorem cut_lt {X L : Nat} (h : X < 2 ^ 15) : cut X L < 2 ^ 15 := by
  show X ^^^ (X &&& L) < 2 ^ 15
  exact Nat.xor_lt_two_pow h (Nat.lt_of_le_of_lt Nat.and_le_left h)

theorem le_pop {V : List Nat} {X : Nat} (hX : X < 2 ^ 15) (hn : V.Nodup) (hv : ∀ v ∈ V, v ∈ allValues)
    (hb : ∀ v ∈ V, X.testBit v = true) : V.length ≤ pop X := by
  rw [pop_members hX]
  exact (hn.subperm (fun v h => mem_members.2 ⟨hv v h, hb v h⟩)).length_le

theorem runMask_bits : ∀ t ∈ straightTops, runMask t < 2 ^ 15 ∧
    ∀ v ∈ allValues, (runMask t).testBit v = (Room.run t).contains v := by decide

theorem runMasks_eq : runMasks = straightTops.map runMask := by decide

theorem run_five : ∀ t ∈ straightTops, (Room.run t).length = 5 := by decide

/-- Values without given straights are no more than the bound. -/
theorem greedy_le : ∀ (ts : List Nat), (∀ t ∈ ts, t ∈ straightTops) → ∀ {V : List Nat} {X : Nat}, X < 2 ^ 15 →
    V.Nodup → (∀ v ∈ V, v ∈ allValues) → (∀ v ∈ V, X.testBit v = true) →
    (∀ t ∈ ts, ¬ ∀ v ∈ Room.run t, v ∈ V) → V.length ≤ greedy (ts.map runMask) X
  | [], _, V, X, hX, hn, hv, hb, _ => le_pop hX hn hv hb
  | t :: ts, hts, V, X, hX, hn, hv, hb, hr => by
    obtain ⟨r1, r2⟩ := runMask_bits t (hts t (by simp))
    rw [List.map_cons, greedy]
    cases hc : Nat.beq (Nat.land X (runMask t)) (runMask t) with
    | false =>
      exact greedy_le ts (fun u hu => hts u (by simp [hu])) hX hn hv hb (fun u hu => hr u (by simp [hu]))
    | true =>
      rw [cond_true]
      have hlen := List.length_eq_length_filter_add (l := V) (fun v => (Room.run t).contains v)
      have h4 : (V.filter (fun v => (Room.run t).contains v)).length ≤ 4 := by
        by_contra h5
        have hs : (V.filter (fun v => (Room.run t).contains v)).Subperm (Room.run t) := by
          refine (hn.filter _).subperm (fun v h => ?_)
          simpa using (List.mem_filter.1 h).2
        have hp := hs.perm_of_length_le (by rw [run_five t (hts t (by simp))]; omega)
        refine hr t (by simp) (fun v h => ?_)
        exact (List.mem_filter.1 (hp.symm.subset h)).1
      have hrest : (V.filter (fun v => !(Room.run t).contains v)).length
          ≤ greedy (ts.map runMask) (Nat.xor X (runMask t)) := by
        refine greedy_le ts (fun u hu => hts u (by simp [hu])) (Nat.xor_lt_two_pow hX r1) (hn.filter _)
          (fun v h => hv v (List.mem_filter.1 h).1) ?_ ?_
        · intro v h
          obtain ⟨h1, h2⟩ := List.mem_filter.1 h
          show (X ^^^ runMask t).testBit v = true
          rw [Nat.testBit_xor, hb v h1, r2 v (hv v h1)]
          simpa using h2
        · intro u hu hall
          exact hr u (by simp [hu]) (fun v h => (List.mem_filter.1 (hall v h)).1)
      rw [hlen]
      exact Nat.add_le_add h4 hrest

theorem run_straight {V : List Nat} {t : Nat} (ht : t ∈ straightTops) (h : ∀ v ∈ Room.run t, v ∈ V) :
    ∃ u, straightTop V = some u ∧ t ≤ u := by
  have : ∀ t ∈ straightTops, straightTop (Room.run t) = some t := by decide
  exact straightTop_mono h (this t ht)

/-- Values without a straight are no more than the bound. -/
theorem greedy_runs {V : List Nat} {X : Nat} (hX : X < 2 ^ 15) (hn : V.Nodup) (hv : ∀ v ∈ V, v ∈ allValues)
    (hb : ∀ v ∈ V, X.testBit v = true) (hs : straightTop V = none) : V.length ≤ greedy runMasks X := by
  rw [runMasks_eq]
  refine greedy_le _ (fun t h => h) hX hn hv hb (fun t ht h => ?_)
  obtain ⟨u, hu, -⟩ := run_straight ht h
  rw [hs] at hu
  cases hu

/-! ## A bound for the number of cards -/

theorem filter_suits (p : PCard → Bool) : ∀ h : List PCard, (h.filter p).length
    = ((ofSuit .Clubs h).filter p).length + ((ofSuit .Hearts h).filter p).length
      + ((ofSuit .Spades h).filter p).length + ((ofSuit .Diamonds h).filter p).length
  | [] => rfl
  | (r, s) :: h => by
    have ih := filter_suits p h
    have hc : ∀ t : Suit, ofSuit t ((r, s) :: h) = if s = t then (r, s) :: ofSuit t h else ofSuit t h := by
      intro t
      simp only [ofSuit, List.filter_cons, beq_iff_eq]
    rw [hc, hc, hc, hc]
    by_cases hp : p (r, s) = true
    all_goals
      cases s <;> simp only [List.filter_cons, hp, if_true, reduceCtorEq, if_false, List.length_cons,
        Bool.false_eq_true] <;> omega

theorem length_suits (h : List PCard) : h.length = (ofSuit .Clubs h).length + (ofSuit .Hearts h).length
      + (ofSuit .Spades h).length + (ofSuit .Diamonds h).length := by
  have := filter_suits (fun _ => true) h
  simpa using this

/-- The cards with values in `L`, of which there are at most `c v` of each value, and the others of each
suit. -/
theorem length_le {h : List PCard} (L : Nat) {c : Nat → Nat} {M : Suit → Nat}
    (hc : ∀ v ∈ allValues, (values h).count v ≤ c v)
    (hM : ∀ s, ((values (ofSuit s h)).filter (fun v => !L.testBit v)).length ≤ M s) :
    h.length ≤ ((members L).map c).sum + (M .Clubs + M .Hearts + M .Spades + M .Diamonds) := by
  have h1 := List.length_eq_length_filter_add (l := values h) (fun v => L.testBit v)
  rw [Forced.length_values] at h1
  have h2 : ((values h).filter (fun v => L.testBit v)).length ≤ ((members L).map c).sum := by
    rw [length_count (members_nodup L) (l := (values h).filter (fun v => L.testBit v))]
    · refine sum_mono (fun v hv => ?_)
      exact Nat.le_trans (List.filter_sublist.count_le v) (hc v (mem_members.1 hv).1)
    · intro v hv
      obtain ⟨g1, g2⟩ := List.mem_filter.1 hv
      exact mem_members.2 ⟨Forced.values_all h v g1, g2⟩
  have h3 : ∀ g : List PCard, ((values g).filter (fun v => !L.testBit v)).length
      = (g.filter (fun x => !L.testBit (pips x.1))).length := by
    intro g
    rw [values, List.filter_map, List.length_map]
    rfl
  have h4 := filter_suits (fun x => !L.testBit (pips x.1)) h
  have k1 := hM .Clubs
  have k2 := hM .Hearts
  have k3 := hM .Spades
  have k4 := hM .Diamonds
  rw [h3] at k1 k2 k3 k4
  rw [h3] at h1
  omega

theorem values_nodup {h : List PCard} (hn : h.Nodup) (s : Suit) : (values (ofSuit s h)).Nodup := by
  refine List.Nodup.map_on ?_ (hn.filter _)
  intro x hx y hy e
  have h1 := (Cat.mem_ofSuit.1 hx).2
  have h2 := (Cat.mem_ofSuit.1 hy).2
  have : x.1 = y.1 := by
    revert e
    cases x.1 <;> cases y.1 <;> simp [pips]
  exact Prod.ext this (h1.trans h2.symm)

theorem values_ofSuit_all (h : List PCard) (s : Suit) : ∀ v ∈ values (ofSuit s h), v ∈ allValues :=
  Forced.values_all _

/-- What a suit without a straight has outside `L`. -/
theorem outside {h : List PCard} (hn : h.Nodup) {s : Suit} {A : Nat} (L : Nat) (hA : A < 2 ^ 15)
    (hs : straightTop (values (ofSuit s h)) = none) (hb : ∀ v ∈ values (ofSuit s h), A.testBit v = true) :
    ((values (ofSuit s h)).filter (fun v => !L.testBit v)).length ≤ greedy runMasks (cut A L) := by
  refine greedy_runs (cut_lt hA) ((values_nodup hn s).filter _)
    (fun v hv => values_ofSuit_all h s v (List.mem_filter.1 hv).1) ?_ ?_
  · intro v hv
    obtain ⟨h1, h2⟩ := List.mem_filter.1 hv
    rw [testBit_cut, hb v h1, Bool.true_and]
    exact h2
  · cases ht : straightTop ((values (ofSuit s h)).filter (fun v => !L.testBit v)) with
    | none => rfl
    | some t =>
      obtain ⟨u, hu, -⟩ := straightTop_mono (b := values (ofSuit s h))
        (fun v hv => (List.mem_filter.1 hv).1) ht
      rw [hs] at hu
      cases hu

/-- What a suit of at most four cards has outside `L`. -/
theorem outside_small {h : List PCard} (hn : h.Nodup) {s : Suit} (L : Nat)
    (h4 : (values (ofSuit s h)).length ≤ 4) :
    ((values (ofSuit s h)).filter (fun v => !L.testBit v)).length ≤ small L := by
  refine Nat.le_min.2 ⟨Nat.le_trans (List.length_filter_le _ _) h4, ?_⟩
  refine le_pop (cut_lt (by decide)) ((values_nodup hn s).filter _)
    (fun v hv => values_ofSuit_all h s v (List.mem_filter.1 hv).1) ?_
  intro v hv
  obtain ⟨h1, h2⟩ := List.mem_filter.1 hv
  have : ∀ v ∈ allValues, (32764 : Nat).testBit v = true := by decide
  rw [testBit_cut, this v (values_ofSuit_all h s v h1), Bool.true_and]
  exact h2

/-! ## Cards of given suits -/

/-- The cards of one suit. -/
def cards (s : Suit) (m : Nat) : List PCard := (members m).map (fun v => (rankOf v, s))

/-- The cards of four suits. -/
def deal (m0 m1 m2 m3 : Nat) : List PCard :=
  cards .Clubs m0 ++ cards .Hearts m1 ++ cards .Spades m2 ++ cards .Diamonds m3

theorem values_cards (s : Suit) (m : Nat) : values (cards s m) = members m := by
  rw [values, cards, List.map_map]
  conv_rhs => rw [← List.map_id (members m)]
  exact List.map_congr_left (fun v hv => Room.pips_rankOf (mem_members.1 hv).1)

theorem ofSuit_cards (s t : Suit) (m : Nat) : ofSuit s (cards t m) = if t = s then cards t m else [] := by
  rw [ofSuit]
  split
  · rename_i h
    rw [List.filter_eq_self]
    intro x hx
    obtain ⟨v, -, rfl⟩ := List.mem_map.1 hx
    simp [h]
  · rename_i h
    rw [List.filter_eq_nil_iff]
    intro x hx
    obtain ⟨v, -, rfl⟩ := List.mem_map.1 hx
    simpa using h

/-- The set of a suit. -/
def pick (m0 m1 m2 m3 : Nat) : Suit → Nat
  | .Clubs => m0
  | .Hearts => m1
  | .Spades => m2
  | .Diamonds => m3

theorem ofSuit_deal (m0 m1 m2 m3 : Nat) (s : Suit) :
    ofSuit s (deal m0 m1 m2 m3) = cards s (pick m0 m1 m2 m3 s) := by
  have app : ∀ a b : List PCard, ofSuit s (a ++ b) = ofSuit s a ++ ofSuit s b := fun a b => List.filter_append ..
  rw [deal, app, app, app, ofSuit_cards, ofSuit_cards, ofSuit_cards, ofSuit_cards]
  cases s <;> simp [pick]

theorem values_deal (m0 m1 m2 m3 : Nat) (s : Suit) :
    values (ofSuit s (deal m0 m1 m2 m3)) = members (pick m0 m1 m2 m3 s) := by
  rw [ofSuit_deal, values_cards]

theorem cards_nodup (s : Suit) (m : Nat) : (cards s m).Nodup := by
  refine List.Nodup.of_map (fun c : PCard => pips c.1) ?_
  have := values_cards s m
  rw [values] at this
  rw [this]
  exact members_nodup m

theorem mem_cards {s : Suit} {m : Nat} {x : PCard} (h : x ∈ cards s m) : x.2 = s := by
  obtain ⟨v, -, rfl⟩ := List.mem_map.1 h
  rfl

theorem deal_nodup (m0 m1 m2 m3 : Nat) : (deal m0 m1 m2 m3).Nodup := by
  rw [deal]
  refine List.nodup_append.2 ⟨List.nodup_append.2 ⟨List.nodup_append.2 ⟨cards_nodup .., cards_nodup .., ?_⟩,
    cards_nodup .., ?_⟩, cards_nodup .., ?_⟩
  all_goals
    rintro x hx y hy rfl
    have h1 := mem_cards hy
    try simp only [List.mem_append] at hx
    first
    | (rcases hx with (hx | hx) | hx <;> have := mem_cards hx <;> rw [h1] at this <;> cases this)
    | (rcases hx with hx | hx <;> have := mem_cards hx <;> rw [h1] at this <;> cases this)
    | (have := mem_cards hx; rw [h1] at this; cases this)

theorem length_cards {s : Suit} {m : Nat} (h : m < 2 ^ 15) : (cards s m).length = pop m := by
  rw [cards, List.length_map, pop_members h]

theorem count_members (m : Nat) {v : Nat} (hv : v ∈ allValues) : (members m).count v = (m.testBit v).toNat := by
  cases hb : m.testBit v with
  | true => exact List.count_eq_one_of_mem (members_nodup m) (mem_members.2 ⟨hv, hb⟩)
  | false =>
    rw [Bool.toNat_false, List.count_eq_zero]
    intro h
    have := (mem_members.1 h).2
    rw [hb] at this
    cases this

theorem count_deal (m0 m1 m2 m3 : Nat) {v : Nat} (hv : v ∈ allValues) :
    (values (deal m0 m1 m2 m3)).count v = tally m0 m1 m2 m3 v := by
  rw [deal, Cat.values_append, Cat.values_append, Cat.values_append, values_cards, values_cards, values_cards,
    values_cards, List.count_append, List.count_append, List.count_append, count_members _ hv, count_members _ hv,
    count_members _ hv, count_members _ hv]
  rfl

theorem inRow_any (m : Nat) : Seven.inRow m = runMasks.any (fun R => Nat.beq (Nat.land m R) R) := by
  simp only [Seven.inRow, runMasks, List.any_cons, List.any_nil, Bool.or_false]

theorem runMask_others : ∀ t ∈ straightTops, ∀ v < 15, v ∉ allValues → (runMask t).testBit v = false := by decide

theorem run_eq : ∀ t ∈ straightTops, Cat.run t = Room.run t := by decide

theorem not_inRow {m : Nat} (h : Seven.inRow m = false) : straightTop (members m) = none := by
  cases ht : straightTop (members m) with
  | none => rfl
  | some t =>
    exfalso
    rw [inRow_any, List.any_eq_false] at h
    obtain ⟨h1, h2⟩ := straightTop_some ht
    obtain ⟨r1, r2⟩ := runMask_bits t h1
    refine h (runMask t) (by rw [runMasks_eq]; exact List.mem_map_of_mem h1) ?_
    rw [Nat.beq_eq]
    refine Nat.eq_of_testBit_eq (fun v => ?_)
    show (m &&& runMask t).testBit v = _
    rw [Nat.testBit_and]
    by_cases hv : v ∈ allValues
    · rw [r2 v hv]
      cases hc : (Room.run t).contains v with
      | false => rw [Bool.and_false]
      | true =>
        have hr := Cat.plays_run h2 (fun h => by have := (mem_members.1 h).1; revert this; decide) v
          (by rw [run_eq t h1]; simpa using hc)
        rw [(mem_members.1 hr).2, Bool.and_true]
    · have : (runMask t).testBit v = false := by
        by_cases h15 : v < 15
        · exact runMask_others t h1 v h15 hv
        · exact Nat.testBit_lt_two_pow (Nat.lt_of_lt_of_le r1 (Nat.pow_le_pow_right (by decide) (by omega)))
      rw [this, Bool.and_false]

theorem bestWorth_isBest {w : Nat × List Nat} {h : List PCard} (hn : h.Nodup) (h5 : 5 ≤ h.length)
    (hw : bestWorth h = w) : IsBest w h := hw ▸ isBest_bestWorth hn h5

end Poker.Mask
