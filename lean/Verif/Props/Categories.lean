import Verif.Props.Range
import Verif.Proofs.Categories

/-! # Categories of hands of any size: C31 -/

namespace Poker
open Rules Tab

/-- The category number of a class: its place in the usual order of hands. -/
def classNumber : EvalClass → Nat
  | .StraightFlush _ => 8
  | .FourOfAKind _ => 7
  | .FullHouse _ _ => 6
  | .Flush _ => 5
  | .Straight _ => 4
  | .ThreeOfAKind _ => 3
  | .TwoPair _ _ => 2
  | .Pair _ => 1
  | .HighCard _ => 0

theorem classNumber_className {w : Nat × List Nat} (h : w.1 ≤ 8) :
    classNumber (className w) = w.1 := by
  obtain ⟨k, l⟩ := w
  simp only at h
  interval_cases k <;> rfl

/-- C31: the class of five or more distinct cards is of the category that can be read off the cards,
whatever their number. -/
theorem c31_class (h : List PCard) (e : Eval) (he : evaluateHand h = .ok (.ok e)) :
    classNumber e.class' = category h := by
  obtain ⟨hn, h5, w, hw, rfl⟩ := ok_iff.1 he
  rw [class_evalOf, classNumber_className, Cat.category_best hn h5 hw]
  rw [Cat.category_best hn h5 hw]
  exact Cat.category_le h

example : ∃ e, evaluateHand [(.Two, .Clubs), (.Three, .Clubs), (.Four, .Clubs), (.Five, .Hearts),
      (.Six, .Clubs), (.Jack, .Clubs), (.Six, .Hearts)] = .ok (.ok e) ∧ classNumber e.class' = 5 := by
  obtain ⟨e, he⟩ := (c04_iff [(.Two, .Clubs), (.Three, .Clubs), (.Four, .Clubs), (.Five, .Hearts),
      (.Six, .Clubs), (.Jack, .Clubs), (.Six, .Hearts)]).2.2.2 (by decide)
  exact ⟨e, he, by rw [c31_class _ e he]; decide⟩

/-- C31: so the predicates of the result say what the cards have, first come first. -/
theorem c31_predicates (h : List PCard) (e : Eval) (he : evaluateHand h = .ok (.ok e)) :
    e.is_straight_flush = hasStraightFlush h ∧
    e.is_four_of_a_kind = (!hasStraightFlush h && hasQuads h) ∧
    e.is_full_house = (!hasStraightFlush h && !hasQuads h && hasFullHouse h) ∧
    e.is_flush = (!hasStraightFlush h && !hasQuads h && !hasFullHouse h && hasFlush h) ∧
    e.is_straight = (!hasStraightFlush h && !hasQuads h && !hasFullHouse h && !hasFlush h
      && hasStraight h) ∧
    e.is_three_of_a_kind = (!hasStraightFlush h && !hasQuads h && !hasFullHouse h && !hasFlush h
      && !hasStraight h && hasTrips h) ∧
    e.is_two_pair = (!hasStraightFlush h && !hasQuads h && !hasFullHouse h && !hasFlush h
      && !hasStraight h && !hasTrips h && hasTwoPair h) ∧
    e.is_pair = (!hasStraightFlush h && !hasQuads h && !hasFullHouse h && !hasFlush h
      && !hasStraight h && !hasTrips h && !hasTwoPair h && hasPair h) ∧
    e.is_high_card = (!hasStraightFlush h && !hasQuads h && !hasFullHouse h && !hasFlush h
      && !hasStraight h && !hasTrips h && !hasTwoPair h && !hasPair h) := by
  have hc := c31_class h e he
  revert hc
  unfold category
  generalize hasStraightFlush h = b8
  generalize hasQuads h = b7
  generalize hasFullHouse h = b6
  generalize hasFlush h = b5
  generalize hasStraight h = b4
  generalize hasTrips h = b3
  generalize hasTwoPair h = b2
  generalize hasPair h = b1
  obtain ⟨m⟩ := e
  cases m <;>
    simp only [Eval.is_high_card, Eval.is_pair, Eval.is_two_pair, Eval.is_three_of_a_kind,
      Eval.is_straight, Eval.is_flush, Eval.is_full_house, Eval.is_four_of_a_kind,
      Eval.is_straight_flush, Eval.class', Meta.class', Meta.is_high_card, Meta.is_pair,
      Meta.is_two_pair, Meta.is_three_of_a_kind, Meta.is_straight, Meta.is_flush,
      Meta.is_full_house, Meta.is_four_of_a_kind, Meta.is_straight_flush, classNumber] <;>
    revert b8 b7 b6 b5 b4 b3 b2 b1 <;> decide

/-- Seven cards with a flush and, in other suits, a straight: the category is read off as flush. -/
example : ∃ e, evaluateHand [(.Two, .Clubs), (.Three, .Clubs), (.Four, .Clubs), (.Five, .Hearts),
      (.Six, .Clubs), (.Jack, .Clubs), (.Six, .Hearts)] = .ok (.ok e) ∧ e.is_flush = true := by
  obtain ⟨e, he⟩ := (c04_iff [(.Two, .Clubs), (.Three, .Clubs), (.Four, .Clubs), (.Five, .Hearts),
      (.Six, .Clubs), (.Jack, .Clubs), (.Six, .Hearts)]).2.2.2 (by decide)
  exact ⟨e, he, by rw [(c31_predicates _ e he).2.2.2.1]; decide⟩

end Poker
