import Verif.Props.Exact
import Verif.Proofs.Suited

/-! # When suits matter: C73 -/

namespace Poker
open Rules Tab

theorem same_result {h h' : List PCard} {e e' : Eval} (he : evaluateHand h = .ok (.ok e))
    (he' : evaluateHand h' = .ok (.ok e')) (hw : bestWorth h = bestWorth h') : e = e' :=
  (c12_equal h h' e e' he he' ((c42_compare h h' e e' he he').2.1.2 hw)).1

/-- C73: two hands of any number of cards with the same ranks, neither with five cards of a suit, have the
same result. -/
theorem c73_ranks (h h' : List PCard) (e e' : Eval) (he : evaluateHand h = .ok (.ok e))
    (he' : evaluateHand h' = .ok (.ok e')) (hf : ∀ s, (ofSuit s h).length < 5)
    (hf' : ∀ s, (h'.filter (·.2 = s)).length < 5) (hr : (h.map (·.1)).Perm (h'.map (·.1))) : e = e' := by
  have flush : ∀ g : List PCard, (∀ s, (ofSuit s g).length < 5) → hasFlush g = false := fun g hg =>
    Board.false_of fun hs => by
      obtain ⟨s, h5⟩ := Board.flush_iff.1 hs
      have := hg s
      omega
  refine same_result he he' (Suited.by_values (flush h hf) (flush h' hf') ?_)
  have := hr.map pips
  rwa [List.map_map, List.map_map] at this

/-- C73: so with a board on which no three cards share a suit, the suits of the board and of two cards of one's
own do not matter. -/
theorem c73_board (b b' : List PCard) (x y x' y' : PCard) (e e' : Eval)
    (he : evaluateHand (x :: y :: b) = .ok (.ok e)) (he' : evaluateHand (x' :: y' :: b') = .ok (.ok e'))
    (hb : ∀ s, (ofSuit s b).length < 3) (hb' : ∀ s, (b'.filter (·.2 = s)).length < 3)
    (hr : ((x :: y :: b).map (·.1)).Perm ((x' :: y' :: b').map (·.1))) : e = e' := by
  have two : ∀ (u v : PCard) (g : List PCard), (∀ s, (ofSuit s g).length < 3) →
      ∀ s, (ofSuit s (u :: v :: g)).length < 5 := by
    intro u v g hg s
    have := hg s
    rw [Board.suit_two]
    split <;> split <;> omega
  exact c73_ranks _ _ e e' he he' (two x y b hb) (two x' y' b' hb') hr

/-- C73: of up to seven cards with five or more of one suit, only those of this suit count. -/
theorem c73_suit (h : List PCard) (hn : h.Nodup) (h7 : h.length ≤ 7) (s : Suit)
    (hs : 5 ≤ (ofSuit s h).length) : evaluateHand h = evaluateHand (ofSuit s h) := by
  obtain ⟨e, he⟩ := (c04_iff h).2.2.2 ⟨hn, Nat.le_trans hs (List.length_filter_le _ _)⟩
  obtain ⟨e', he'⟩ := (c04_iff (ofSuit s h)).2.2.2 ⟨hn.sublist List.filter_sublist, hs⟩
  rw [he, he', same_result he he' (Suited.by_suit hn h7 hs)]

/-- C73: the bound is needed: with eight cards there may be four of a kind beside five of a suit. -/
theorem c73_eight : ∃ h : List PCard, ∃ s, h.Nodup ∧ h.length = 8 ∧ 5 ≤ (ofSuit s h).length ∧
    evaluateHand h ≠ evaluateHand (ofSuit s h) := by
  refine ⟨[(.Two, .Hearts), (.Nine, .Hearts), (.Jack, .Hearts), (.King, .Hearts), (.Seven, .Hearts),
    (.Seven, .Clubs), (.Seven, .Spades), (.Seven, .Diamonds)], .Hearts, by decide, by decide, by decide, ?_⟩
  generalize hh : [(Rank.Two, Suit.Hearts), (.Nine, .Hearts), (.Jack, .Hearts), (.King, .Hearts),
    (.Seven, .Hearts), (.Seven, .Clubs), (.Seven, .Spades), (.Seven, .Diamonds)] = h
  obtain ⟨e, he⟩ := (c04_iff h).2.2.2 (by subst hh; decide)
  obtain ⟨e', he'⟩ := (c04_iff (ofSuit .Hearts h)).2.2.2 (by subst hh; decide)
  rw [he, he']
  intro h1
  have h2 := (c42_class _ e he).symm.trans
    ((congrArg Eval.class' (Except.ok.inj (Except.ok.inj h1))).trans (c42_class _ e' he'))
  subst hh
  exact absurd h2 (by decide)

/-- Seven cards with five hearts. -/
example : evaluateHand [(.Two, .Hearts), (.Nine, .Hearts), (.Seven, .Clubs), (.Jack, .Hearts), (.King, .Hearts),
      (.Seven, .Hearts), (.Seven, .Spades)] =
    evaluateHand [(.Two, .Hearts), (.Nine, .Hearts), (.Jack, .Hearts), (.King, .Hearts), (.Seven, .Hearts)] :=
  c73_suit [(.Two, .Hearts), (.Nine, .Hearts), (.Seven, .Clubs), (.Jack, .Hearts), (.King, .Hearts),
    (.Seven, .Hearts), (.Seven, .Spades)] (by decide) (by decide) .Hearts (by decide)

/-- On two boards of the same ranks without three of a suit, a pair of nines is worth the same whatever the
suits. -/
example (e e' : Eval) (he : evaluateHand [(.Nine, .Hearts), (.Nine, .Clubs), (.Two, .Hearts), (.King, .Hearts),
      (.Ten, .Clubs), (.Jack, .Clubs), (.Seven, .Spades)] = .ok (.ok e))
    (he' : evaluateHand [(.Nine, .Spades), (.Nine, .Diamonds), (.King, .Clubs), (.Two, .Diamonds),
      (.Seven, .Diamonds), (.Ten, .Clubs), (.Jack, .Hearts)] = .ok (.ok e')) : e = e' :=
  c73_board _ _ _ _ _ _ e e' he he' (fun s => by cases s <;> decide) (fun s => by cases s <;> decide) (by decide)

end Poker
