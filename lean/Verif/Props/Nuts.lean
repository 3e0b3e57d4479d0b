import Verif.Props.Exact
import Verif.Props.Outs
import Verif.Proofs.Nuts

/-! # The best hand a board allows: C72 -/

namespace Poker
open Rules Tab

/-- C72: for three, four or five distinct cards on the board some two further cards get the result that is
read off the board, class and text, and no two cards get a better one. -/
theorem c72_nuts (b : List PCard) (hn : b.Nodup) (h3 : 3 ≤ b.length) (h5 : b.length ≤ 5) :
    ∃ x y e, evaluateHand (x :: y :: b) = .ok (.ok e) ∧ e.class' = className (nuts b) ∧
      e.display = Text.describe (className (nuts b)) ∧
      ∀ x' y' e', evaluateHand (x' :: y' :: b) = .ok (.ok e') → e'.is_better_than e = false := by
  obtain ⟨hmost, x, y, hd, hw⟩ := Nuts.nuts_spec hn h3 h5
  obtain ⟨e, he⟩ := (c04_iff (x :: y :: b)).2.2.2 ⟨hd, by simp only [List.length_cons]; omega⟩
  refine ⟨x, y, e, he, by rw [c42_class _ e he, hw], by rw [c42_text _ e he, hw], ?_⟩
  intro x' y' e' he'
  rw [← Bool.not_eq_true, (c42_compare _ _ e' e he' he).2.2.1, hw]
  exact hmost x' y' (ok_iff.1 he').1

theorem worth_antisymm {a b : Nat × List Nat} (h1 : cmpWorth a b ≠ .gt) (h2 : cmpWorth b a ≠ .gt) : a = b := by
  refine cmpWorth_eq_iff.1 ?_
  cases h : cmpWorth a b with
  | eq => rfl
  | lt => exact absurd (cmpWorth_lt_iff.1 h) h2
  | gt => exact absurd h h1

/-- C72: a result with two cards of one's own cannot be beaten by any two others exactly when it is the one
read off the board, and it has then this class. -/
theorem c72_iff (b : List PCard) (h3 : 3 ≤ b.length) (h5 : b.length ≤ 5) (x y : PCard) (e : Eval)
    (he : evaluateHand (x :: y :: b) = .ok (.ok e)) :
    ((∀ x' y' e', evaluateHand (x' :: y' :: b) = .ok (.ok e') → e'.is_better_than e = false) ↔
      bestWorth (x :: y :: b) = nuts b) ∧
    (bestWorth (x :: y :: b) = nuts b → e.class' = className (nuts b)) := by
  have hn : b.Nodup := (List.nodup_cons.1 (List.nodup_cons.1 (ok_iff.1 he).1).2).2
  obtain ⟨hmost, x₀, y₀, hd, hw⟩ := Nuts.nuts_spec hn h3 h5
  obtain ⟨e₀, he₀⟩ := (c04_iff (x₀ :: y₀ :: b)).2.2.2 ⟨hd, by simp only [List.length_cons]; omega⟩
  refine ⟨⟨fun h => ?_, fun h x' y' e' he' => ?_⟩, fun h => by rw [c42_class _ e he, h]⟩
  · have h1 := h x₀ y₀ e₀ he₀
    have h2 := hmost x y (ok_iff.1 he).1
    rw [← Bool.not_eq_true, (c42_compare _ _ e₀ e he₀ he).2.2.1, hw] at h1
    exact worth_antisymm h2 h1
  · rw [← Bool.not_eq_true, (c42_compare _ _ e' e he' he).2.2.1, h]
    exact hmost x' y' (ok_iff.1 he').1

/-- On a flop of ten, jack and king of three suits ace and queen cannot be beaten, three kings can. -/
example (e e' : Eval) (he : evaluateHand [(.Ace, .Hearts), (.Queen, .Clubs), (.Ten, .Clubs), (.Jack, .Hearts),
      (.King, .Spades)] = .ok (.ok e))
    (he' : evaluateHand [(.King, .Hearts), (.King, .Clubs), (.Ten, .Clubs), (.Jack, .Hearts),
      (.King, .Spades)] = .ok (.ok e')) :
    (∀ x y f, evaluateHand [x, y, (.Ten, .Clubs), (.Jack, .Hearts), (.King, .Spades)] = .ok (.ok f) →
      f.is_better_than e = false) ∧
    ¬ ∀ x y f, evaluateHand [x, y, (.Ten, .Clubs), (.Jack, .Hearts), (.King, .Spades)] = .ok (.ok f) →
      f.is_better_than e' = false :=
  ⟨(c72_iff _ (by decide) (by decide) _ _ e he).1.2 (by decide),
    fun h => absurd ((c72_iff _ (by decide) (by decide) _ _ e' he').1.1 h) (by decide)⟩

/-- C72: for a board of five cards nobody gets a better result than the board itself exactly when it is the
best that it allows. -/
theorem c72_plays (b : List PCard) (h5 : b.length = 5) (e : Eval) (he : evaluateHand b = .ok (.ok e)) :
    (∀ x y e', evaluateHand (x :: y :: b) = .ok (.ok e') → e'.eq e = true) ↔ bestWorth b = nuts b := by
  have hn := (ok_iff.1 he).1
  obtain ⟨hmost, x₀, y₀, hd, hw⟩ := Nuts.nuts_spec hn (by omega) (by omega)
  obtain ⟨e₀, he₀⟩ := (c04_iff (x₀ :: y₀ :: b)).2.2.2 ⟨hd, by simp only [List.length_cons]; omega⟩
  constructor
  · intro h
    have := h x₀ y₀ e₀ he₀
    rw [(c42_compare _ _ e₀ e he₀ he).2.1, hw] at this
    exact this.symm
  · intro h x y e' he'
    rw [(c42_compare _ _ e' e he' he).2.1]
    have h1 := hmost x y (ok_iff.1 he').1
    obtain ⟨e₂, he₂, h2⟩ := c07_board [x, y] b e he (ok_iff.1 he').1
    have : e₂ = e' := Except.ok.inj (Except.ok.inj (he₂.symm.trans he'))
    subst this
    rw [← (c11_methods _ _).2.1] at h2
    rw [← Bool.not_eq_true, (c42_compare _ _ _ e he' he).2.2.2.1, cmpWorth_lt_iff] at h2
    rw [h] at h2 ⊢
    exact worth_antisymm h1 h2

/-- The nine of hearts and two black sevens: four sevens, and with these two cards needed the nine decides. -/
example : nuts [(.Seven, .Clubs), (.Seven, .Spades), (.Nine, .Hearts)] = (7, [7, 9]) := by decide

/-- Three sevens: one card is enough, and the other is an ace. -/
example : nuts [(.Seven, .Clubs), (.Seven, .Spades), (.Seven, .Hearts)] = (7, [7, 14]) := by decide

/-- Three hearts far apart: the flush with the ace and the king. -/
example : nuts [(.Two, .Hearts), (.Seven, .Hearts), (.Queen, .Hearts), (.Nine, .Clubs)] =
    (5, [14, 13, 12, 7, 2]) := by decide

/-- A board on which the best hand is three kings. -/
example : nuts [(.Two, .Hearts), (.Seven, .Clubs), (.King, .Spades), (.Queen, .Diamonds), (.Eight, .Hearts)] =
    (3, [13, 12, 8]) := by decide

/-- The straight from ten to ace in three suits: the board plays, and everyone shares. -/
example (x y : PCard) (e : Eval) (he : evaluateHand [x, y, (.Ten, .Clubs), (.Jack, .Hearts), (.Queen, .Clubs),
    (.King, .Spades), (.Ace, .Hearts)] = .ok (.ok e)) : e.display = "Straight, ace-high".toList := by
  rw [c42_text _ e he]
  obtain ⟨e₀, he₀⟩ := (c04_iff [(.Ten, .Clubs), (.Jack, .Hearts), (.Queen, .Clubs), (.King, .Spades),
    (.Ace, .Hearts)]).2.2.2 ⟨by decide, by decide⟩
  have h := (c72_plays _ rfl e₀ he₀).2 (by decide) x y e he
  rw [(c42_compare _ _ e e₀ he he₀).2.1] at h
  rw [h]
  decide +kernel

/-- On a flop of ten, jack and king of three suits the best is the straight to the ace. -/
example : ∃ x y e, evaluateHand [x, y, (.Ten, .Clubs), (.Jack, .Hearts), (.King, .Spades)] = .ok (.ok e) ∧
    e.display = "Straight, ace-high".toList ∧ ∀ x' y' e', evaluateHand [x', y', (.Ten, .Clubs), (.Jack, .Hearts),
      (.King, .Spades)] = .ok (.ok e') → e'.is_better_than e = false := by
  obtain ⟨x, y, e, he, _, ht, hb⟩ := c72_nuts [(.Ten, .Clubs), (.Jack, .Hearts), (.King, .Spades)]
    (by decide) (by decide) (by decide)
  exact ⟨x, y, e, he, by rw [ht]; decide +kernel, hb⟩

end Poker
