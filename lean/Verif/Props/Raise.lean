import Verif.Props.Exact
import Verif.Props.Categories
import Verif.Proofs.Raise

/-! # Raising every card by one rank: C74 -/

namespace Poker
open Rules Tab

theorem ladder_cons {w : Nat × List Nat} (hw : w ∈ Kinds.ladder) : ∃ x l, w.2 = x :: l := by
  have h : Kinds.ladder.all (fun w => !w.2.isEmpty) = true := by decide +kernel
  have h1 := List.all_eq_true.1 h w hw
  match hl : w.2 with
  | [] => rw [hl] at h1; exact absurd h1 (by decide)
  | x :: l => exact ⟨x, l, rfl⟩

/-- C74: cards without an ace have a result exactly when the raised ones have one; then this one is of the same
category and better. -/
theorem c74_raise (h : List PCard) (hA : ∀ c ∈ h, c.1 ≠ .Ace) :
    ((∃ e, evaluateHand h = .ok (.ok e)) ↔ ∃ e', evaluateHand (raised h) = .ok (.ok e')) ∧
    ∀ e e', evaluateHand h = .ok (.ok e) → evaluateHand (raised h) = .ok (.ok e') →
      classNumber e'.class' = classNumber e.class' ∧ e'.is_better_than e = true := by
  refine ⟨?_, fun e e' he he' => ⟨?_, ?_⟩⟩
  · rw [(c04_iff h).2.2, (c04_iff (raised h)).2.2, Raise.nodup_raised hA, raised, List.length_map]
  · rw [c31_class _ e' he', c31_class _ e he, Raise.category_raised hA]
  · rw [(c42_compare _ _ e' e he' he).2.2.1, Raise.worth_raised hA, ← Nuts.worth_category]
    obtain ⟨hn, h5, _⟩ := ok_iff.1 he
    obtain ⟨x, l, hl⟩ := ladder_cons (Exact.isBest_bestWorth hn h5).mem_ladder
    rw [cmpWorth, hl, Nat.compare_eq_eq.2 rfl, List.map_cons, cmpList, Nat.compare_eq_gt.2 (Nat.lt_succ_self x)]
    rfl

/-- C74: and any two hands without an ace, of any sizes, compare as the raised ones. -/
theorem c74_order (h g : List PCard) (hA : ∀ c ∈ h, c.1 ≠ .Ace) (gA : ∀ c ∈ g, c.1 ≠ .Ace) (e f e' f' : Eval)
    (he : evaluateHand h = .ok (.ok e)) (hf : evaluateHand g = .ok (.ok f))
    (he' : evaluateHand (raised h) = .ok (.ok e')) (hf' : evaluateHand (raised g) = .ok (.ok f')) :
    e'.cmp f' = e.cmp f := by
  rw [(c42_compare _ _ e' f' he' hf').1, (c42_compare _ _ e f he hf).1, Raise.worth_raised hA,
    Raise.worth_raised gA, cmpWorth, cmpWorth, Raise.cmpList_up, Nuts.worth_category, Nuts.worth_category]

/-- Two hands without an ace, a straight and a full house, and the hands raised. -/
example : ∃ e f e' f', evaluateHand [(.Two, .Hearts), (.Three, .Clubs), (.Four, .Spades), (.Five, .Clubs),
      (.Six, .Hearts), (.Six, .Clubs)] = .ok (.ok e) ∧
    evaluateHand [(.King, .Hearts), (.King, .Clubs), (.King, .Spades), (.Five, .Clubs), (.Five, .Hearts)] =
      .ok (.ok f) ∧
    evaluateHand [(.Three, .Hearts), (.Four, .Clubs), (.Five, .Spades), (.Six, .Clubs), (.Seven, .Hearts),
      (.Seven, .Clubs)] = .ok (.ok e') ∧
    evaluateHand [(.Ace, .Hearts), (.Ace, .Clubs), (.Ace, .Spades), (.Six, .Clubs), (.Six, .Hearts)] =
      .ok (.ok f') ∧ e'.cmp f' = e.cmp f ∧ e'.is_better_than e = true := by
  obtain ⟨e, he⟩ := (c04_iff [(.Two, .Hearts), (.Three, .Clubs), (.Four, .Spades), (.Five, .Clubs),
      (.Six, .Hearts), (.Six, .Clubs)]).2.2.2 (by decide)
  obtain ⟨f, hf⟩ := (c04_iff [(.King, .Hearts), (.King, .Clubs), (.King, .Spades), (.Five, .Clubs),
    (.Five, .Hearts)]).2.2.2 (by decide)
  obtain ⟨e', he'⟩ := (c74_raise _ (by decide)).1.1 ⟨e, he⟩
  obtain ⟨f', hf'⟩ := (c74_raise _ (by decide)).1.1 ⟨f, hf⟩
  exact ⟨e, f, e', f', he, hf, he', hf', c74_order _ _ (by decide) (by decide) e f e' f' he hf he' hf',
    ((c74_raise _ (by decide)).2 e e' he he').2⟩

/-- An ace cannot be left out: five-high straights become six-high ones only if the ace becomes a two. -/
example : raised [(.Ace, .Hearts), (.Two, .Clubs), (.Three, .Spades), (.Four, .Clubs), (.Five, .Hearts)] =
    [(.Ace, .Hearts), (.Three, .Clubs), (.Four, .Spades), (.Five, .Clubs), (.Six, .Hearts)] ∧
    category [(.Ace, .Hearts), (.Two, .Clubs), (.Three, .Spades), (.Four, .Clubs), (.Five, .Hearts)] = 4 ∧
    category [(.Ace, .Hearts), (.Three, .Clubs), (.Four, .Spades), (.Five, .Clubs), (.Six, .Hearts)] = 0 := by
  decide

end Poker
