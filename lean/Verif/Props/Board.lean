import Verif.Props.Categories
import Verif.Proofs.Board

/-! # What a board allows: C70 -/

namespace Poker
open Rules Tab

theorem predicate_number (e : Eval) :
    (e.is_straight_flush = true ↔ classNumber e.class' = 8) ∧
    (e.is_four_of_a_kind = true ↔ classNumber e.class' = 7) ∧
    (e.is_full_house = true ↔ classNumber e.class' = 6) ∧
    (e.is_flush = true ↔ classNumber e.class' = 5) ∧
    (e.is_straight = true ↔ classNumber e.class' = 4) ∧
    (e.is_three_of_a_kind = true ↔ classNumber e.class' = 3) ∧
    (e.is_two_pair = true ↔ classNumber e.class' = 2) ∧
    (e.is_pair = true ↔ classNumber e.class' = 1) ∧
    (e.is_high_card = true ↔ classNumber e.class' = 0) := by
  obtain ⟨m⟩ := e
  cases m <;>
    simp [Eval.is_high_card, Eval.is_pair, Eval.is_two_pair, Eval.is_three_of_a_kind,
      Eval.is_straight, Eval.is_flush, Eval.is_full_house, Eval.is_four_of_a_kind,
      Eval.is_straight_flush, Eval.class', Meta.class', Meta.is_high_card, Meta.is_pair,
      Meta.is_two_pair, Meta.is_three_of_a_kind, Meta.is_straight, Meta.is_flush,
      Meta.is_full_house, Meta.is_four_of_a_kind, Meta.is_straight_flush, classNumber]

theorem own_iff {b : List PCard} (h3 : 3 ≤ b.length) (k : Nat) :
    (∃ x y e, evaluateHand (x :: y :: b) = .ok (.ok e) ∧ classNumber e.class' = k) ↔ Board.Own b k := by
  constructor
  · rintro ⟨x, y, e, he, hk⟩
    refine ⟨x, y, (ok_iff.1 he).1, ?_⟩
    rw [← c31_class _ e he, hk]
  · rintro ⟨x, y, hd, hk⟩
    obtain ⟨e, he⟩ := (c04_iff (x :: y :: b)).2.2.2 ⟨hd, by simp only [List.length_cons]; omega⟩
    exact ⟨x, y, e, he, by rw [c31_class _ e he, hk]⟩

/-- C70: whether some two further cards make, with three, four or five distinct cards on the board, a
result of a category can be read off the board. -/
theorem c70_class (b : List PCard) (hn : b.Nodup) (h3 : 3 ≤ b.length) (h5 : b.length ≤ 5) (k : Nat) :
    (∃ x y e, evaluateHand (x :: y :: b) = .ok (.ok e) ∧ classNumber e.class' = k) ↔
      allows b k = true := by
  rw [own_iff h3]
  match k with
  | 0 => exact Board.own0 hn h5
  | 1 => exact Board.own1 hn h5
  | 2 => exact Board.own2 hn h3 h5
  | 3 => exact Board.own3 hn h3 h5
  | 4 => exact Board.own4 hn h5
  | 5 => exact Board.own5 hn h5
  | 6 => exact Board.own6 hn h3 h5
  | 7 => exact Board.own7 hn h5
  | 8 => exact Board.own8 hn h5
  | k + 9 =>
    refine ⟨?_, fun h => by simp [allows] at h⟩
    rintro ⟨x, y, _, hk⟩
    have := Cat.category_le (x :: y :: b)
    omega

/-- Two black sevens, the eight and the nine of hearts and a king: with two further cards everything
from two pair on can be had except a flush of any kind, and also a pair. -/
example : (List.range 9).filter (allows [(.Seven, .Clubs), (.Seven, .Spades), (.Eight, .Hearts),
    (.Nine, .Hearts), (.King, .Diamonds)]) = [1, 2, 3, 4, 6, 7] := by decide

/-- Four to a straight flush on the board: no four of a kind and no full house. -/
example : (List.range 9).filter (allows [(.Seven, .Clubs), (.Six, .Clubs), (.Eight, .Clubs),
    (.Nine, .Clubs), (.King, .Diamonds)]) = [0, 1, 2, 3, 4, 5, 8] := by decide

/-- A flush on the board, that can only be improved to a straight flush. -/
example : (List.range 9).filter (allows [(.Seven, .Clubs), (.Six, .Clubs), (.Eight, .Clubs),
    (.Two, .Clubs), (.King, .Clubs)]) = [5, 8] := by decide

/-- C70: the same by the predicates of the result. -/
theorem c70_board (b : List PCard) (hn : b.Nodup) (h3 : 3 ≤ b.length) (h5 : b.length ≤ 5) :
    let can (p : Eval → Bool) : Prop :=
      ∃ x y e, evaluateHand (x :: y :: b) = .ok (.ok e) ∧ p e = true
    -- a straight flush: three cards of one suit within five consecutive values
    (can Eval.is_straight_flush ↔ ∃ s ∈ suits, threeToStraight (values (ofSuit s b)) = true) ∧
    -- four of a kind: a pair
    (can Eval.is_four_of_a_kind ↔ hasPair b = true) ∧
    -- a full house: a pair, unless it is four of a kind
    (can Eval.is_full_house ↔ hasPair b = true ∧ hasQuads b = false) ∧
    -- a flush: three cards of one suit, unless the board is a straight flush
    (can Eval.is_flush ↔ (∃ s ∈ suits, 3 ≤ (ofSuit s b).length) ∧ hasStraightFlush b = false) ∧
    -- a straight: three cards within five consecutive values, unless the board is a flush
    (can Eval.is_straight ↔ threeToStraight (values b) = true ∧ hasFlush b = false) ∧
    (can Eval.is_three_of_a_kind ↔ hasQuads b = false ∧ hasTwoPair b = false ∧ hasFlush b = false ∧
      hasStraight b = false) ∧
    (can Eval.is_two_pair ↔ hasTrips b = false ∧ hasFlush b = false ∧ hasStraight b = false) ∧
    (can Eval.is_pair ↔ hasTrips b = false ∧ hasTwoPair b = false ∧ hasFlush b = false ∧
      hasStraight b = false) ∧
    (can Eval.is_high_card ↔ hasPair b = false ∧ hasFlush b = false ∧ hasStraight b = false) := by
  intro can
  have conv : ∀ (p : Eval → Bool) (k : Nat), (∀ e, p e = true ↔ classNumber e.class' = k) →
      (can p ↔ allows b k = true) := by
    intro p k hp
    rw [← c70_class b hn h3 h5 k]
    simp only [can, hp]
  refine ⟨?_, ?_, ?_, ?_, ?_, ?_, ?_, ?_, ?_⟩
  · rw [conv _ 8 (fun e => (predicate_number e).1)]
    simp only [allows, List.any_eq_true]
  · rw [conv _ 7 (fun e => (predicate_number e).2.1)]
    simp only [allows]
  · rw [conv _ 6 (fun e => (predicate_number e).2.2.1)]
    simp only [allows, Bool.and_eq_true, Bool.not_eq_true']
  · rw [conv _ 5 (fun e => (predicate_number e).2.2.2.1)]
    simp only [allows, Bool.and_eq_true, Bool.not_eq_true', List.any_eq_true, decide_eq_true_eq]
  · rw [conv _ 4 (fun e => (predicate_number e).2.2.2.2.1)]
    simp only [allows, Bool.and_eq_true, Bool.not_eq_true']
  · rw [conv _ 3 (fun e => (predicate_number e).2.2.2.2.2.1)]
    simp only [allows, Bool.and_eq_true, Bool.not_eq_true', and_assoc]
  · rw [conv _ 2 (fun e => (predicate_number e).2.2.2.2.2.2.1)]
    simp only [allows, Bool.and_eq_true, Bool.not_eq_true', and_assoc]
  · rw [conv _ 1 (fun e => (predicate_number e).2.2.2.2.2.2.2.1)]
    simp only [allows, Bool.and_eq_true, Bool.not_eq_true', and_assoc]
  · rw [conv _ 0 (fun e => (predicate_number e).2.2.2.2.2.2.2.2)]
    simp only [allows, Bool.and_eq_true, Bool.not_eq_true', and_assoc]

/-- On a flop of three suits without a pair nobody has a full house, four of a kind or a flush. -/
example (x y : PCard) (e : Eval) (he : evaluateHand [x, y, (.Ten, .Clubs), (.Jack, .Hearts),
    (.King, .Spades)] = .ok (.ok e)) :
    e.is_full_house = false ∧ e.is_four_of_a_kind = false ∧ e.is_flush = false := by
  have hb := c70_board [(.Ten, .Clubs), (.Jack, .Hearts), (.King, .Spades)] (by decide) (by decide)
    (by decide)
  refine ⟨?_, ?_, ?_⟩
  · exact Board.false_of fun h => absurd (hb.2.2.1.1 ⟨x, y, e, he, h⟩) (by decide)
  · exact Board.false_of fun h => absurd (hb.2.1.1 ⟨x, y, e, he, h⟩) (by decide)
  · exact Board.false_of fun h => absurd (hb.2.2.2.1.1 ⟨x, y, e, he, h⟩) (by decide)

/-- And somebody may have the straight. -/
example : ∃ x y e, evaluateHand [x, y, (.Ten, .Clubs), (.Jack, .Hearts), (.King, .Spades)] = .ok (.ok e) ∧
    e.is_straight = true :=
  (c70_board [(.Ten, .Clubs), (.Jack, .Hearts), (.King, .Spades)] (by decide) (by decide)
    (by decide)).2.2.2.2.1.2 (by decide)

end Poker
