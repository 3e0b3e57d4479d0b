import Verif.Proofs.FreqCount
import Verif.Props.SevenCounts

/-! # How many hands of any number of cards give which result: C66 -/

namespace Poker
open Rules Tab Counts Freq
open scoped Nat

theorem handsOf_small {n : Nat} (hn : n < 5) (p : Eval → Prop) : handsOf n p = 0 := by
  classical
  rw [handsOf, Finset.card_eq_zero, Finset.filter_eq_empty_iff]
  rintro x hx ⟨h, hd, rfl, e, he, -⟩
  have h5 := ((c04_iff h).2.2.1 ⟨e, he⟩).2
  have := (Finset.mem_powersetCard.1 hx).2
  rw [List.toFinset_card_of_nodup hd] at this
  omega

theorem handsOf_large {n : Nat} (hn : 52 < n) (p : Eval → Prop) : handsOf n p = 0 := by
  classical
  rw [handsOf, Finset.powersetCard_eq_empty.2 (by rw [show pack.card = 52 by decide]; exact hn)]
  rfl

theorem frequencies_out {n : Nat} (hn : n < 5 ∨ 52 < n) : frequencies n = [] := by
  unfold frequencies
  split <;> first | omega | rfl

/-- C66: of the sets of `n` cards, whatever `n`, as many have a result of each class as `frequencies` says;
for less than five cards, or more than there are, it is none. -/
theorem c66_category (n k : Nat) : handsOf n (fun e => classNumber e.class' = k) = (frequencies n).getD k 0 := by
  by_cases h5 : n < 5
  · rw [handsOf_small h5, frequencies_out (.inl h5)]
    rfl
  by_cases h52 : 52 < n
  · rw [handsOf_large h52, frequencies_out (.inr h52)]
    rfl
  rw [← total_category (by omega) (by omega) k, Freq.total, total_len]
  exact countP_gets (by omega) _ _ (fun h e he => by rw [beq_iff_eq, category_number h e he])

/-- C66: the same by the methods of a result. -/
theorem c66_methods (n : Nat) :
    handsOf n (fun e => e.is_high_card = true) = (frequencies n).getD 0 0 ∧
    handsOf n (fun e => e.is_pair = true) = (frequencies n).getD 1 0 ∧
    handsOf n (fun e => e.is_two_pair = true) = (frequencies n).getD 2 0 ∧
    handsOf n (fun e => e.is_three_of_a_kind = true) = (frequencies n).getD 3 0 ∧
    handsOf n (fun e => e.is_straight = true) = (frequencies n).getD 4 0 ∧
    handsOf n (fun e => e.is_flush = true) = (frequencies n).getD 5 0 ∧
    handsOf n (fun e => e.is_full_house = true) = (frequencies n).getD 6 0 ∧
    handsOf n (fun e => e.is_four_of_a_kind = true) = (frequencies n).getD 7 0 ∧
    handsOf n (fun e => e.is_straight_flush = true) = (frequencies n).getD 8 0 := by
  simp only [number_high_card, number_pair, number_two_pair, number_three_of_a_kind, number_straight,
    number_flush, number_full_house, number_four_of_a_kind, number_straight_flush, c66_category, and_self]

/-- C66: how many of the sets of `n` cards give a royal flush, whatever `n`. -/
theorem c66_royal (n : Nat) : handsOf n (fun e => e.is_royal_flush = true) = royals.getD n 0 := by
  by_cases h5 : n < 5
  · rw [handsOf_small h5]
    interval_cases n <;> rfl
  by_cases h52 : 52 < n
  · rw [handsOf_large h52, List.getD_eq_getElem?_getD, List.getElem?_eq_none (by
      rw [show royals.length = 53 from rfl]; omega)]
    rfl
  rw [← total_royal (by omega), Freq.total, total_len]
  refine countP_gets (by omega) _ _ (fun h e he => ?_)
  rw [(c10_royal h e he).2.2, Freq.hasRoyal, List.any_eq_true]
  refine exists_congr (fun s => ?_)
  rw [and_iff_right (mem_order s), List.all_eq_true]
  simp only [decide_eq_true_eq, high, List.forall_mem_cons]
  exact ⟨fun ⟨a, b, c, d, e, _⟩ => ⟨e, d, c, b, a, fun _ h => absurd h List.not_mem_nil⟩,
    fun ⟨a, b, c, d, e, _⟩ => ⟨e, d, c, b, a, fun _ h => absurd h List.not_mem_nil⟩⟩

/-- C66: no set of five to 52 cards is left out, and none is counted twice. -/
theorem c66_all {n : Nat} (h5 : 5 ≤ n) (hn : n ≤ 52) :
    (frequencies n).sum = (pack.powersetCard n).card ∧ (frequencies n).length = 9 := by
  obtain ⟨s8, s7, s6, s5, s4, s3, s2, s1, s0, sl⟩ := solve n (by omega) h5
  refine ⟨?_, sl⟩
  rw [Finset.card_powersetCard, show pack.card = 52 by decide, Nat.choose_eq_descFactorial_div_factorial, ← chosen]
  match hl : frequencies n, sl with
  | [a, b, c, d, e, f, g, i, j], _ =>
    rw [s8, s7, s6, s5, s4, s2, ← s3, ← s1, ← s0, hl]
    simp
    omega

example : (frequencies 13).sum = (pack.powersetCard 13).card := (c66_all (by decide) (by decide)).1

/-- C66: the odds for the best hand of the first `n` cards of a shuffled deck. -/
theorem c66_odds {n : Nat} (hn : n ≤ 52) {l : List Card} (hl : l.Perm Deck.generate) (k : Nat) :
    ways (Deals n l (fun e => classNumber e.class' = k)) * Nat.choose 52 n
      = (frequencies n).getD k 0 * ways (fun _ => True) := by
  rw [c46_deals hn hl, c46_draws, c66_category, ← Nat.choose_mul_factorial_mul_factorial hn]
  ring

example : ways (Deals 13 Deck.generate.reverse (fun e => classNumber e.class' = 6)) * Nat.choose 52 13
    = 281969044560 * ways (fun _ => True) := c66_odds (by decide) (List.reverse_perm _) 6

/-- C66: the better of two classes is the rarer one for hands of five cards, and for no other number of
cards. -/
theorem c66_order (n : Nat) :
    (∀ i j, i < j → j ≤ 8 → handsOf n (fun e => classNumber e.class' = j)
      < handsOf n (fun e => classNumber e.class' = i)) ↔ n = 5 := by
  simp only [c66_category]
  by_cases ho : n < 5 ∨ 52 < n
  · rw [frequencies_out ho]
    exact ⟨fun H => absurd (H 0 1 (by decide) (by decide)) (by simp), fun h => by omega⟩
  have h : ∀ n < 53, 5 ≤ n → ((∀ j < 9, ∀ i < j, (frequencies n).getD j 0 < (frequencies n).getD i 0) ↔ n = 5) := by
    decide +kernel
  rw [← h n (by omega) (by omega)]
  exact ⟨fun H j hj i hi => H i j hi (by omega), fun H i j hi hj => H j (by omega) i hi⟩

example : handsOf 9 (fun e => classNumber e.class' = 5) < handsOf 9 (fun e => classNumber e.class' = 4) ∧
    handsOf 10 (fun e => classNumber e.class' = 4) < handsOf 10 (fun e => classNumber e.class' = 5) := by
  simp only [c66_category]
  decide

/-- C66: the table for seven cards of C49 agrees. -/
theorem c66_seven : frequencies 7 = [handsOf 7 (fun e => e.is_high_card = true),
    handsOf 7 (fun e => e.is_pair = true), handsOf 7 (fun e => e.is_two_pair = true),
    handsOf 7 (fun e => e.is_three_of_a_kind = true), handsOf 7 (fun e => e.is_straight = true),
    handsOf 7 (fun e => e.is_flush = true), handsOf 7 (fun e => e.is_full_house = true),
    handsOf 7 (fun e => e.is_four_of_a_kind = true), handsOf 7 (fun e => e.is_straight_flush = true)] := by
  obtain ⟨-, h0, h1, h2, h3, h4, h5, h6, h7, h8, -⟩ := c49_seven
  rw [h0, h1, h2, h3, h4, h5, h6, h7, h8]
  rfl

/-- Thirteen cards without a flush, a straight and three of a kind: one of the sets that `c66_category` counts
as two pair. -/
def bridgeHand : List PCard := [(.Ace, .Clubs), (.Ace, .Hearts), (.King, .Spades), (.King, .Diamonds),
  (.Jack, .Clubs), (.Jack, .Hearts), (.Nine, .Spades), (.Nine, .Diamonds), (.Seven, .Clubs), (.Seven, .Hearts),
  (.Five, .Spades), (.Five, .Diamonds), (.Three, .Clubs)]

example : bridgeHand.toFinset ∈ pack.powersetCard 13 ∧
    Gets (fun e => classNumber e.class' = 2) bridgeHand.toFinset := by
  have h13 : bridgeHand.length = 13 := by decide
  have hn : bridgeHand.Nodup := by decide
  refine ⟨h13 ▸ (c45_order (fun _ => True) bridgeHand hn).1, (c45_order _ bridgeHand hn).2.2 ?_⟩
  obtain ⟨e, he⟩ := (c04_iff bridgeHand).2.2.2 (by decide)
  exact ⟨e, he, by rw [← category_number bridgeHand e he]; decide⟩

end Poker
