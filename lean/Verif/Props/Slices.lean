import Verif.Props.Evaluation
import Mathlib.Data.List.Nodup

/-! # Any number of slices of cards: C30 -/

namespace Poker
open Rules Tab

/-- C30: evaluating any number of slices joined with `box_cards!` gives the same result whatever their
order, and fails with `CardsNotUnique` iff a slice repeats a card or two slices share one. -/
theorem c30_many (first : List PCard) (rest : List (List PCard)) :
    ∃ ev, Evaluator.new = .ok ev ∧
      (∀ first' rest' e, (first' :: rest').Perm (first :: rest) →
        (ev.evaluate (box_cards (deal first) (rest.map deal)) = .ok (.ok e) ↔
          ev.evaluate (box_cards (deal first') (rest'.map deal)) = .ok (.ok e))) ∧
      ((∃ cs, ev.evaluate (box_cards (deal first) (rest.map deal)) = .ok (.error (.CardsNotUnique cs))) ↔
        (∃ s ∈ first :: rest, ¬ s.Nodup) ∨
          ∃ (i j : Nat) (a b : List PCard) (c : PCard), i < j ∧ (first :: rest)[i]? = some a ∧ (first :: rest)[j]? = some b ∧
            c ∈ a ∧ c ∈ b) := by
  have e : ∀ (a : List PCard) (l : List (List PCard)),
      box_cards (deal a) (l.map deal) = deal (a :: l).flatten := by
    intro a l
    rw [c30_concat, ← List.map_cons, deal, List.map_flatten]
    rfl
  refine ⟨_, evaluator_new, ?_, ?_⟩
  · intro first' rest' r hp
    rw [e, e, ← evaluateHand_eq, ← evaluateHand_eq]
    exact (c05_perm _ _ hp.symm.flatten).1 r
  · rw [e, ← evaluateHand_eq, (c04_iff _).1, List.nodup_flatten, not_and_or]
    refine or_congr (by push Not; rfl) ?_
    rw [List.pairwise_iff_getElem]
    constructor
    · intro h
      by_contra hc
      refine h fun i j hi hj hij c h1 h2 => hc ⟨i, j, _, _, c, hij, List.getElem?_eq_getElem hi,
        List.getElem?_eq_getElem hj, h1, h2⟩
    · rintro ⟨i, j, a, b, c, hij, ha, hb, h1, h2⟩ h
      obtain ⟨hi, rfl⟩ := List.getElem?_eq_some_iff.1 ha
      obtain ⟨hj, rfl⟩ := List.getElem?_eq_some_iff.1 hb
      exact h i j hi hj hij h1 h2

/-- Three slices, where the last repeats a card of the first. -/
example : ∃ ev cs, Evaluator.new = .ok ev ∧
    ev.evaluate (box_cards (deal [(.Ace, .Clubs), (.Five, .Spades)])
        ([[(.Two, .Clubs)], [(.Nine, .Hearts), (.Five, .Spades)]].map deal))
      = .ok (.error (.CardsNotUnique cs)) :=
  have ⟨ev, hev, _, h⟩ := c30_many [(.Ace, .Clubs), (.Five, .Spades)]
    [[(.Two, .Clubs)], [(.Nine, .Hearts), (.Five, .Spades)]]
  have ⟨cs, hc⟩ := h.2 (.inr ⟨0, 2, _, _, (.Five, .Spades), by decide, rfl, rfl, by decide, by decide⟩)
  ⟨ev, cs, hev, hc⟩

/-- A hand dealt in three slices, and in another order. -/
example : ∃ ev, Evaluator.new = .ok ev ∧ ∀ e,
    ev.evaluate (box_cards (deal [(.Ace, .Clubs), (.Five, .Spades)])
      ([[(.Two, .Clubs)], [(.Nine, .Hearts), (.Five, .Hearts)]].map deal)) = .ok (.ok e) ↔
    ev.evaluate (box_cards (deal [(.Nine, .Hearts), (.Five, .Hearts)])
      ([[(.Two, .Clubs)], [(.Ace, .Clubs), (.Five, .Spades)]].map deal)) = .ok (.ok e) :=
  have ⟨ev, hev, h, _⟩ := c30_many [(.Ace, .Clubs), (.Five, .Spades)]
    [[(.Two, .Clubs)], [(.Nine, .Hearts), (.Five, .Hearts)]]
  ⟨ev, hev, fun e => h _ _ e (by decide)⟩

end Poker
