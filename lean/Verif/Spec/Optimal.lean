import Verif.Spec.Strategy

/-! The best way to play a round. -/

namespace Poker

open Rules

namespace Rules

/-- What comes back for a wager when the second hand is `h`: the wager and the prize, or nothing. -/
def payback (w : Nat) (h : List PCard) : Nat := if prize w h = 0 then 0 else w + prize w h

/-- What comes back in all the ways to complete the cards of `K` to a hand. -/
noncomputable def paybacks (w : Nat) (K : Finset PCard) : Nat :=
  ∑ x ∈ (pack \ K).powersetCard (5 - K.card), payback w (K ∪ x).toList

/-- Positions that a line can name. -/
def Positions (s : List Nat) : Prop := s.Nodup ∧ ∀ i ∈ s, i < 5

/-- To change the cards at the positions `s` is best: the average over all the ways to complete the
cards that stay is not higher for any other choice. -/
def Best (w : Nat) (h : List PCard) (s : List Nat) : Prop :=
  Positions s ∧ ∀ s', Positions s' →
    paybacks w (kept h s') * (47 + s.length).choose s.length
      ≤ paybacks w (kept h s) * (47 + s'.length).choose s'.length

/-- What the best way to play brings back for a wager, in parts of 8443241352000. -/
def bestBack (w : Nat) : Nat := w * if w = 5 then 11915909340253 else 11824749450550

end Rules

end Poker
