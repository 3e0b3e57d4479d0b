import Verif.Proofs.Board
import Verif.Proofs.Exact
import Verif.Proofs.Cover

/-! # When suits matter (helper lemmas) -/

namespace Poker
open Rules Tab

namespace Suited
open Board

/-- Without five cards of a suit the worth depends on the values only. -/
theorem by_values {h h' : List PCard} (hf : hasFlush h = false) (hf' : hasFlush h' = false)
    (hv : (values h).Perm (values h')) : bestWorth h = bestWorth h' := by
  have hc : ∀ v, (values h).count v = (values h').count v := fun v => hv.count_eq v
  have hs := straightTop_perm hv
  have ha : ∀ m, atLeast m (values h) = atLeast m (values h') := by
    intro m
    simp only [atLeast, hc]
  have hh : ∀ m n m' n', highest m n m' n' (values h) = highest m n m' n' (values h') := by
    intro m n m' n'
    simp only [highest, ha]
  have hk : category h = category h' := by
    rw [category, category, no_sf (.inl hf), no_sf (.inl hf'), hf, hf',
      show hasQuads h = hasQuads h' by simp only [hasQuads, hc],
      show hasFullHouse h = hasFullHouse h' by simp only [hasFullHouse, hc],
      show hasStraight h = hasStraight h' by simp only [hasStraight, hs],
      show hasTrips h = hasTrips h' by simp only [hasTrips, hc],
      show hasTwoPair h = hasTwoPair h' by simp only [hasTwoPair, hc],
      show hasPair h = hasPair h' by simp only [hasPair, hc]]
  have h8 : category h ≠ 8 := fun e => by
    have := (cat_iff h).1.1 e
    rw [no_sf (.inl hf)] at this
    exact absurd this (by decide)
  have h5 : category h ≠ 5 := fun e => by
    have := ((cat_iff h).2.2.2.1.1 e).2.2.2
    rw [hf] at this
    exact absurd this (by decide)
  rw [bestWorth, bestWorth, ← hk]
  have hle := Cat.category_le h
  obtain ⟨k, hk⟩ : ∃ k, category h = k := ⟨_, rfl⟩
  rw [hk] at hle h8 h5 ⊢
  interval_cases k <;> first | exact absurd rfl h8 | exact absurd rfl h5 | simp only [hh, hs]

/-- Of seven cards only one suit has more than two if one has five. -/
theorem other {h : List PCard} (h7 : h.length ≤ 7) {s t : Suit} (hs : 5 ≤ (ofSuit s h).length) (hne : t ≠ s) :
    (ofSuit t h).length ≤ 2 := by
  have := suits_sum h
  cases s <;> cases t <;> first | exact absurd rfl hne | omega

theorem again (s t : Suit) (h : List PCard) : ofSuit t (ofSuit s h) = if t = s then ofSuit s h else [] := by
  rw [ofSuit, ofSuit, List.filter_filter]
  split
  · rename_i e
    subst e
    simp
  · rename_i hne
    rw [List.filter_eq_nil_iff]
    intro c _ hc
    simp only [Bool.and_eq_true, beq_iff_eq] at hc
    exact hne (hc.1.symm.trans hc.2)

/-- Of seven cards with five of a suit only this suit counts. -/
theorem by_suit {h : List PCard} (hn : h.Nodup) (h7 : h.length ≤ 7) {s : Suit} (hs : 5 ≤ (ofSuit s h).length) :
    bestWorth h = bestWorth (ofSuit s h) := by
  have ho : ∀ t, t ≠ s → straightTop (values (ofSuit t h)) = none := by
    intro t hne
    have := other h7 hs hne
    cases e : straightTop (values (ofSuit t h)) with
    | none => rfl
    | some u =>
      have := straight_length (h := ofSuit t h) (by rw [e]; rfl)
      omega
  have hst : ∀ t, straightTop (values (ofSuit t (ofSuit s h))) = straightTop (values (ofSuit t h)) := by
    intro t
    rw [again]
    split
    · rename_i e; rw [e]
    · rename_i hne; rw [ho t hne]; decide
  have hln : ∀ t, decide (5 ≤ (ofSuit t (ofSuit s h)).length) = decide (5 ≤ (ofSuit t h).length) := by
    intro t
    rw [again]
    split
    · rename_i e; rw [e]
    · rename_i hne
      have := other h7 hs hne
      rw [decide_eq_false (by simp), decide_eq_false (by omega)]
  have hf : hasFlush h = true := Board.flush_iff.2 ⟨s, hs⟩
  have hf' : hasFlush (ofSuit s h) = true := Board.flush_iff.2 ⟨s, by rw [again, if_pos rfl]; exact hs⟩
  have hn' : (ofSuit s h).Nodup := hn.sublist List.filter_sublist
  have hl' : (ofSuit s h).length ≤ 7 := Nat.le_trans (List.length_filter_le _ _) h7
  have hsf : hasStraightFlush (ofSuit s h) = hasStraightFlush h := by
    simp only [hasStraightFlush, hst]
  obtain ⟨q, f⟩ := spread_flush hn hf h7
  obtain ⟨q', f'⟩ := spread_flush hn' hf' hl'
  have hk : category (ofSuit s h) = category h := by
    rw [category, category, hsf, q, f, hf, q', f', hf']
    simp
  have h58 : category h = 8 ∨ category h = 5 := by
    rw [category, q, f, hf]
    cases hasStraightFlush h <;> simp
  rw [bestWorth, bestWorth, hk]
  rcases h58 with e | e <;> rw [e]
  · simp only [hst]
  · simp only [hln]
    congr 2
    refine List.map_congr_left fun t ht => ?_
    have h1 := of_decide_eq_true (List.mem_filter.1 ht).2
    by_cases e : t = s
    · rw [e, again, if_pos rfl]
    · have := other h7 hs e
      omega

end Suited
end Poker
