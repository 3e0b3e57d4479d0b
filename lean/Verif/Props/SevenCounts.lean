import Verif.Props.Counts
import Verif.Props.Odds
import Verif.Proofs.SevenSum

/-! # How many hands of six and seven cards give which result: C49 -/

namespace Poker
open Rules Tab Counts Seven
open scoped Nat

open Classical in
theorem countP_gets {n : Nat} (h5 : 5 ≤ n) (p : Eval → Prop) (q : List PCard → Bool)
    (hq : ∀ h e, evaluateHand h = .ok (.ok e) → (p e ↔ q h = true)) :
    handsOf n p = (List.sublistsLen n cards).countP q := by
  have hg : ∀ l : List PCard, l ∈ List.sublistsLen n cards →
      ∀ x : Finset PCard, x.val = (l : Multiset PCard) → (Gets p x ↔ q l = true) := by
    intro l hl x hx
    obtain ⟨hsub, hlen⟩ := List.mem_sublistsLen.1 hl
    have hn : l.Nodup := hsub.nodup cards_nodup
    constructor
    · rintro ⟨h, hhn, rfl, e, he, hp⟩
      have hperm : h.Perm l := by
        rw [List.toFinset_val, Multiset.coe_eq_coe, hhn.dedup] at hx
        exact hx
      exact (hq l e (((c05_perm h l hperm).1 e).1 he)).1 hp
    · intro hk
      obtain ⟨e, he⟩ := (c04_iff l).2.2.2 ⟨hn, hlen ▸ h5⟩
      refine ⟨l, hn, ?_, e, he, (hq l e he).2 hk⟩
      apply Finset.val_injective
      rw [List.toFinset_val, hn.dedup, hx]
  let P : Multiset PCard → Prop := fun m => ∃ x : Finset PCard, x.val = m ∧ Gets p x
  have hP : ∀ x : Finset PCard, P x.val ↔ Gets p x := by
    intro x
    constructor
    · rintro ⟨y, hy, h⟩
      rwa [← Finset.val_injective hy]
    · exact fun h => ⟨x, rfl, h⟩
  have h1 : ((pack.powersetCard n).filter (Gets p)).card
      = ((pack.powersetCard n).val.map Finset.val).countP P := by
    rw [Multiset.countP_map, Finset.card_def, Finset.filter_val]
    congr 1
    exact Multiset.filter_congr (fun x _ => (hP x).symm)
  rw [handsOf, h1, Finset.map_val_val_powersetCard, pack_eq, Multiset.powersetCard_coe,
    Multiset.coe_countP, List.countP_map]
  apply List.countP_congr
  intro l hl
  obtain ⟨hsub, -⟩ := List.mem_sublistsLen.1 hl
  have hn : l.Nodup := hsub.nodup cards_nodup
  simp only [Function.comp_apply, decide_eq_true_eq]
  rw [← hg l hl ⟨(l : Multiset PCard), hn⟩ rfl]
  exact hP ⟨(l : Multiset PCard), hn⟩

theorem suitCode_royal (s : Suit) (h : List PCard) :
    suitCode s h = 3 ↔ ∀ r ∈ [Rank.Ten, .Jack, .Queen, .King, .Ace], (r, s) ∈ h := by
  have hmem : ∀ r : Rank, (r, s) ∈ h ↔ pips r ∈ values (ofSuit s h) := by
    intro r
    constructor
    · intro hr
      exact List.mem_map.2 ⟨(r, s), List.mem_filter.2 ⟨hr, by simp⟩, rfl⟩
    · intro hr
      obtain ⟨⟨r', s'⟩, hc, hp⟩ := List.mem_map.1 hr
      obtain ⟨hc', hs⟩ := List.mem_filter.1 hc
      have : s' = s := by simpa using hs
      subst this
      rw [← Seven.pips_inj hp]
      exact hc'
  have htop : straightTop (values (ofSuit s h)) = some 14 ↔
      ∀ r ∈ [Rank.Ten, .Jack, .Queen, .King, .Ace], (r, s) ∈ h := by
    simp only [hmem, List.forall_mem_cons, List.not_mem_nil, false_implies, implies_true, and_true,
      pips]
    generalize values (ofSuit s h) = vs
    have e : [14, 14 - 1, 14 - 2, 14 - 3, 14 - 4].all (plays vs) = true ↔
        10 ∈ vs ∧ 11 ∈ vs ∧ 12 ∈ vs ∧ 13 ∈ vs ∧ 14 ∈ vs := by
      simp [plays]
      tauto
    rw [← e, straightTop, straightTops, List.find?_cons]
    cases hb : [14, 14 - 1, 14 - 2, 14 - 3, 14 - 4].all (plays vs) with
    | true => simp
    | false =>
      simp only [Bool.false_eq_true, iff_false]
      intro hf
      have := List.mem_of_find?_eq_some hf
      revert this
      decide
  rw [← htop, suitCode, code]
  constructor
  · intro hc
    split at hc
    · simp at hc
    · split at hc
      · simp at hc
      · split at hc
        · rename_i h14
          rw [← h14]
          assumption
        · simp at hc
  · intro ht
    have h5 := run_length (us := values (ofSuit s h)) (by rw [ht]; rfl)
    rw [if_neg (by omega), ht]
    rfl

/-- All counts, from the numbers by values and by suit. -/
theorem counts_of {n : Nat} (h5 : 5 ≤ n) (hn : n ≤ 7) (hc : Nat.choose 52 n < 2 ^ 32)
    {X Y : List Nat} (hX : X.length = 64) (hY : Y.length = 4) (hdX : ∀ d ∈ X, d < 2 ^ 32)
    (hdY : ∀ d ∈ Y, d < 2 ^ 32)
    (hx : Nat.beq (dpX (2 ^ 32) allValues n 0 0) (List.foldr (fun a b => a + 2 ^ 32 * b) 0 X) = true)
    (hy : Nat.beq (dpY (2 ^ 32) others allValues n []) (List.foldr (fun a b => a + 2 ^ 32 * b) 0 Y)
      = true)
    (h0 : X.getD 53 0 = 0 ∧ X.getD 54 0 = 0 ∧ X.getD 55 0 = 0 ∧ X.getD 61 0 = 0 ∧ X.getD 62 0 = 0 ∧
      X.getD 63 0 = 0) :
    (∀ p : Eval → Prop, ∀ k, (∀ h e, evaluateHand h = .ok (.ok e) → (p e ↔ category h = k)) →
      (k ≤ 4 → handsOf n p + 4 * (X.getD (8 * k + 5) 0 + X.getD (8 * k + 6) 0 + X.getD (8 * k + 7) 0)
        = ((List.range 8).map (fun j => X.getD (8 * k + j) 0)).sum) ∧
      (k = 5 → handsOf n p = 4 * Y.getD 1 0) ∧
      (k = 6 ∨ k = 7 → handsOf n p = ((List.range 8).map (fun j => X.getD (8 * k + j) 0)).sum) ∧
      (k = 8 → handsOf n p = 4 * (Y.getD 2 0 + Y.getD 3 0))) ∧
    handsOf n (fun e => e.is_royal_flush = true) = 4 * Y.getD 3 0 := by
  obtain ⟨c1, c2, c3, c4, c5⟩ := count_category hn (fun i => X.getD i 0) (fun i => Y.getD i 0)
    (fun s i hi => by
      rw [count_flat hn hc X hX hdX (Nat.eq_of_beq_eq_true hx) s i (by omega)]
      simp [List.getD, hX, hi])
    (fun s i hi => by
      rw [count_code hn hc Y hY hdY (Nat.eq_of_beq_eq_true hy) s i (by omega)]
      simp [List.getD, hY, hi]) h0
  refine ⟨fun p k hp => ?_, ?_⟩
  · have hcount := countP_gets h5 p (fun h => category h == k) (fun h e he => by
      rw [hp h e he, beq_iff_eq])
    rw [hcount]
    refine ⟨c1 k, ?_, c3 k, ?_⟩
    · rintro rfl
      exact c2
    · rintro rfl
      exact c4
  · rw [← c5]
    refine countP_gets h5 _ _ (fun h e he => ?_)
    rw [(c10_royal h e he).2.2]
    simp only [← suitCode_royal, List.any_eq_true, beq_iff_eq]
    constructor
    · rintro ⟨s, hs⟩
      exact ⟨s, by cases s <;> decide, hs⟩
    · rintro ⟨s, -, hs⟩
      exact ⟨s, hs⟩

theorem number_high_card (e : Eval) : e.is_high_card = true ↔ classNumber e.class' = 0 := by
  obtain ⟨m⟩ := e
  cases m <;> simp [Eval.is_high_card, Eval.class', Meta.is_high_card, Meta.class', classNumber]

theorem number_pair (e : Eval) : e.is_pair = true ↔ classNumber e.class' = 1 := by
  obtain ⟨m⟩ := e
  cases m <;> simp [Eval.is_pair, Eval.class', Meta.is_pair, Meta.class', classNumber]

theorem number_two_pair (e : Eval) : e.is_two_pair = true ↔ classNumber e.class' = 2 := by
  obtain ⟨m⟩ := e
  cases m <;> simp [Eval.is_two_pair, Eval.class', Meta.is_two_pair, Meta.class', classNumber]

theorem number_three_of_a_kind (e : Eval) : e.is_three_of_a_kind = true ↔ classNumber e.class' = 3 := by
  obtain ⟨m⟩ := e
  cases m <;> simp [Eval.is_three_of_a_kind, Eval.class', Meta.is_three_of_a_kind, Meta.class', classNumber]

theorem number_straight (e : Eval) : e.is_straight = true ↔ classNumber e.class' = 4 := by
  obtain ⟨m⟩ := e
  cases m <;> simp [Eval.is_straight, Eval.class', Meta.is_straight, Meta.class', classNumber]

theorem number_flush (e : Eval) : e.is_flush = true ↔ classNumber e.class' = 5 := by
  obtain ⟨m⟩ := e
  cases m <;> simp [Eval.is_flush, Eval.class', Meta.is_flush, Meta.class', classNumber]

theorem number_full_house (e : Eval) : e.is_full_house = true ↔ classNumber e.class' = 6 := by
  obtain ⟨m⟩ := e
  cases m <;> simp [Eval.is_full_house, Eval.class', Meta.is_full_house, Meta.class', classNumber]

theorem number_four_of_a_kind (e : Eval) : e.is_four_of_a_kind = true ↔ classNumber e.class' = 7 := by
  obtain ⟨m⟩ := e
  cases m <;> simp [Eval.is_four_of_a_kind, Eval.class', Meta.is_four_of_a_kind, Meta.class', classNumber]

theorem number_straight_flush (e : Eval) : e.is_straight_flush = true ↔ classNumber e.class' = 8 := by
  obtain ⟨m⟩ := e
  cases m <;> simp [Eval.is_straight_flush, Eval.class', Meta.is_straight_flush, Meta.class', classNumber]

theorem category_number (h : List PCard) (e : Eval) (he : evaluateHand h = .ok (.ok e)) :
    category h = classNumber e.class' := (c31_class h e he).symm

/-- C49: there are 20358520 hands of six cards; how many of them give which result. -/
theorem c49_six :
    (pack.powersetCard 6).card = 20358520 ∧
    handsOf 6 (fun e => e.is_high_card = true) = 6612900 ∧
    handsOf 6 (fun e => e.is_pair = true) = 9730740 ∧
    handsOf 6 (fun e => e.is_two_pair = true) = 2532816 ∧
    handsOf 6 (fun e => e.is_three_of_a_kind = true) = 732160 ∧
    handsOf 6 (fun e => e.is_straight = true) = 361620 ∧
    handsOf 6 (fun e => e.is_flush = true) = 205792 ∧
    handsOf 6 (fun e => e.is_full_house = true) = 165984 ∧
    handsOf 6 (fun e => e.is_four_of_a_kind = true) = 14664 ∧
    handsOf 6 (fun e => e.is_straight_flush = true) = 1844 ∧
    handsOf 6 (fun e => e.is_royal_flush = true) = 188 := by
  obtain ⟨key, royal⟩ := counts_of (n := 6) (X := sixX) (Y := [20306611, 51448, 414, 47]) (by decide) (by decide)
    (by rw [Nat.choose_eq_descFactorial_div_factorial]; decide +kernel) (by decide) (by decide)
    (by decide) (by decide) sixX_check sixY_check (by decide)
  refine ⟨?_, ?_, ?_, ?_, ?_, ?_, ?_, ?_, ?_, ?_, royal⟩
  · rw [Finset.card_powersetCard, show pack.card = 52 by decide,
      Nat.choose_eq_descFactorial_div_factorial]
    decide +kernel
  · have := (key (fun e => e.is_high_card = true) 0 (fun h e he => by
      rw [category_number h e he]; exact number_high_card e)).1 (by decide)
    exact Nat.add_right_cancel (this.trans (by decide))
  · have := (key (fun e => e.is_pair = true) 1 (fun h e he => by
      rw [category_number h e he]; exact number_pair e)).1 (by decide)
    exact Nat.add_right_cancel (this.trans (by decide))
  · have := (key (fun e => e.is_two_pair = true) 2 (fun h e he => by
      rw [category_number h e he]; exact number_two_pair e)).1 (by decide)
    exact Nat.add_right_cancel (this.trans (by decide))
  · have := (key (fun e => e.is_three_of_a_kind = true) 3 (fun h e he => by
      rw [category_number h e he]; exact number_three_of_a_kind e)).1 (by decide)
    exact Nat.add_right_cancel (this.trans (by decide))
  · have := (key (fun e => e.is_straight = true) 4 (fun h e he => by
      rw [category_number h e he]; exact number_straight e)).1 (by decide)
    exact Nat.add_right_cancel (this.trans (by decide))
  · exact (key _ 5 (fun h e he => by
      rw [category_number h e he]; exact number_flush e)).2.1 rfl
  · exact (key _ 6 (fun h e he => by
      rw [category_number h e he]; exact number_full_house e)).2.2.1 (.inl rfl)
  · exact (key _ 7 (fun h e he => by
      rw [category_number h e he]; exact number_four_of_a_kind e)).2.2.1 (.inr rfl)
  · exact (key _ 8 (fun h e he => by
      rw [category_number h e he]; exact number_straight_flush e)).2.2.2 rfl

/-- C49: there are 133784560 hands of seven cards; how many of them give which result. -/
theorem c49_seven :
    (pack.powersetCard 7).card = 133784560 ∧
    handsOf 7 (fun e => e.is_high_card = true) = 23294460 ∧
    handsOf 7 (fun e => e.is_pair = true) = 58627800 ∧
    handsOf 7 (fun e => e.is_two_pair = true) = 31433400 ∧
    handsOf 7 (fun e => e.is_three_of_a_kind = true) = 6461620 ∧
    handsOf 7 (fun e => e.is_straight = true) = 6180020 ∧
    handsOf 7 (fun e => e.is_flush = true) = 4047644 ∧
    handsOf 7 (fun e => e.is_full_house = true) = 3473184 ∧
    handsOf 7 (fun e => e.is_four_of_a_kind = true) = 224848 ∧
    handsOf 7 (fun e => e.is_straight_flush = true) = 41584 ∧
    handsOf 7 (fun e => e.is_royal_flush = true) = 4324 := by
  obtain ⟨key, royal⟩ := counts_of (n := 7) (X := sevenX) (Y := [132762253, 1011911, 9315, 1081]) (by decide) (by decide)
    (by rw [Nat.choose_eq_descFactorial_div_factorial]; decide +kernel) (by decide) (by decide)
    (by decide) (by decide) sevenX_check sevenY_check (by decide)
  refine ⟨?_, ?_, ?_, ?_, ?_, ?_, ?_, ?_, ?_, ?_, royal⟩
  · rw [Finset.card_powersetCard, show pack.card = 52 by decide,
      Nat.choose_eq_descFactorial_div_factorial]
    decide +kernel
  · have := (key (fun e => e.is_high_card = true) 0 (fun h e he => by
      rw [category_number h e he]; exact number_high_card e)).1 (by decide)
    exact Nat.add_right_cancel (this.trans (by decide))
  · have := (key (fun e => e.is_pair = true) 1 (fun h e he => by
      rw [category_number h e he]; exact number_pair e)).1 (by decide)
    exact Nat.add_right_cancel (this.trans (by decide))
  · have := (key (fun e => e.is_two_pair = true) 2 (fun h e he => by
      rw [category_number h e he]; exact number_two_pair e)).1 (by decide)
    exact Nat.add_right_cancel (this.trans (by decide))
  · have := (key (fun e => e.is_three_of_a_kind = true) 3 (fun h e he => by
      rw [category_number h e he]; exact number_three_of_a_kind e)).1 (by decide)
    exact Nat.add_right_cancel (this.trans (by decide))
  · have := (key (fun e => e.is_straight = true) 4 (fun h e he => by
      rw [category_number h e he]; exact number_straight e)).1 (by decide)
    exact Nat.add_right_cancel (this.trans (by decide))
  · exact (key _ 5 (fun h e he => by
      rw [category_number h e he]; exact number_flush e)).2.1 rfl
  · exact (key _ 6 (fun h e he => by
      rw [category_number h e he]; exact number_full_house e)).2.2.1 (.inl rfl)
  · exact (key _ 7 (fun h e he => by
      rw [category_number h e he]; exact number_four_of_a_kind e)).2.2.1 (.inr rfl)
  · exact (key _ 8 (fun h e he => by
      rw [category_number h e he]; exact number_straight_flush e)).2.2.2 rfl

/-- C49: the odds for the best hand of the first seven cards of a shuffled deck. -/
theorem c49_odds {l : List Card} (hl : l.Perm Deck.generate) (p : Eval → Prop) :
    ways (Deals 7 l p) * 133784560 = handsOf 7 p * ways (fun _ => True) := by
  have h : 52 ! = 7 ! * (52 - 7)! * 133784560 := by decide +kernel
  rw [c46_deals (by decide) hl, c46_draws, h, Nat.mul_assoc]

example : ways (Deals 7 Deck.generate (fun e => e.is_flush = true)) * 133784560
    = handsOf 7 (fun e => e.is_flush = true) * ways (fun _ => True) := c49_odds (.refl _) _

/-- C49: seven cards are more often a pair than nothing, and more often two pair than nothing. -/
theorem c49_no_pair_rarer :
    handsOf 7 (fun e => e.is_high_card = true) < handsOf 7 (fun e => e.is_two_pair = true) ∧
    handsOf 7 (fun e => e.is_two_pair = true) < handsOf 7 (fun e => e.is_pair = true) := by
  obtain ⟨-, h0, h1, h2, -⟩ := c49_seven
  rw [h0, h1, h2]
  decide

/-- Seven cards with a flush and, in other suits, a straight. -/
def sevenHand : List PCard := [(.Two, .Clubs), (.Three, .Clubs), (.Four, .Clubs), (.Five, .Hearts),
  (.Six, .Clubs), (.Jack, .Clubs), (.Six, .Hearts)]

/-- One of the sets that `c49_seven` counts as a flush. -/
example : sevenHand.toFinset ∈ pack.powersetCard 7 ∧
    Gets (fun e => e.is_flush = true) sevenHand.toFinset := by
  have h7 : sevenHand.length = 7 := by decide
  have hn : sevenHand.Nodup := by decide
  refine ⟨h7 ▸ (c45_order (fun _ => True) sevenHand hn).1, (c45_order _ sevenHand hn).2.2 ?_⟩
  obtain ⟨e, he⟩ := (c04_iff sevenHand).2.2.2 (by decide)
  exact ⟨e, he, by rw [(c31_predicates sevenHand e he).2.2.2.1]; decide⟩

end Poker
