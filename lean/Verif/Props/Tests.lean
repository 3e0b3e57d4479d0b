import Verif.Model.Tests
import Verif.Props.Static
import Verif.Props.Categories
import Verif.Props.Exact
import Verif.Props.Errors
import Verif.Props.Deck
import Verif.Props.Iterators
import Verif.Props.Odds
import Verif.Props.Threads

/-! # The crate's own tests and documentation examples pass (C50) -/

namespace Poker
open Rules Tab Tests

theorem countEntry_keys {α : Type} [DecidableEq α] (m : List (α × Nat)) (key : α) :
    (countEntry m key).map (·.1) = if key ∈ m.map (·.1) then m.map (·.1) else m.map (·.1) ++ [key] := by
  induction m with
  | nil => rfl
  | cons p m ih =>
    obtain ⟨k, n⟩ := p
    rw [countEntry]
    by_cases h : k = key
    · rw [if_pos h, if_pos (by simp [h])]
      rfl
    · have h' : key ≠ k := fun e => h e.symm
      rw [if_neg h, List.map_cons, ih]
      simp only [List.map_cons, List.mem_cons, h', false_or]
      split_ifs <;> rfl

theorem countEntry_mem {α : Type} [DecidableEq α] (m : List (α × Nat)) (key : α) (hk : (m.map (·.1)).Nodup)
    (a : α) (n : Nat) : (a, n) ∈ countEntry m key ↔
      a ≠ key ∧ (a, n) ∈ m ∨ a = key ∧ ((∃ k, (key, k) ∈ m ∧ n = k + 1) ∨ key ∉ m.map (·.1) ∧ n = 1) := by
  induction m with
  | nil =>
    rw [countEntry, List.mem_singleton, Prod.mk.injEq]
    simp
  | cons p m ih =>
    obtain ⟨k, c⟩ := p
    rw [List.map_cons, List.nodup_cons] at hk
    rw [countEntry]
    by_cases h : k = key
    · subst h
      rw [if_pos rfl]
      have hm : ∀ x, (k, x) ∉ m := fun x hx => hk.1 (List.mem_map.2 ⟨(k, x), hx, rfl⟩)
      simp only [List.mem_cons, Prod.mk.injEq, List.map_cons, not_or]
      constructor
      · rintro (⟨rfl, rfl⟩ | h1)
        · exact .inr ⟨rfl, .inl ⟨c, .inl ⟨trivial, rfl⟩, rfl⟩⟩
        · exact .inl ⟨fun e => hm n (e ▸ h1), .inr h1⟩
      · rintro (⟨h1, ⟨h2, -⟩ | h2⟩ | ⟨rfl, ⟨x, ⟨-, rfl⟩ | h2, rfl⟩ | ⟨⟨h2, -⟩, -⟩⟩)
        · exact absurd h2 h1
        · exact .inr h2
        · exact .inl ⟨rfl, rfl⟩
        · exact absurd h2 (hm x)
        · exact absurd trivial h2
    · have h' : key ≠ k := fun e => h e.symm
      rw [if_neg h, List.mem_cons, ih hk.2]
      simp only [List.mem_cons, Prod.mk.injEq, List.map_cons, h', false_and, false_or]
      constructor
      · rintro (⟨rfl, rfl⟩ | ⟨h1, h2⟩ | h1)
        · exact .inl ⟨h, .inl ⟨rfl, rfl⟩⟩
        · exact .inl ⟨h1, .inr h2⟩
        · exact .inr h1
      · rintro (⟨h1, h2 | h2⟩ | h1)
        · exact .inl h2
        · exact .inr (.inl ⟨h1, h2⟩)
        · exact .inr (.inr h1)

theorem countEntry_all {α : Type} [DecidableEq α] (l : List α) :
    ((l.foldl countEntry []).map (·.1)).Nodup ∧
      ∀ a n, (a, n) ∈ l.foldl countEntry [] ↔ n = l.count a ∧ 0 < n := by
  induction l using List.reverseRecOn with
  | nil =>
    refine ⟨List.nodup_nil, fun a n => ?_⟩
    rw [List.foldl_nil, List.count_nil]
    constructor
    · intro h
      exact absurd h List.not_mem_nil
    · rintro ⟨rfl, h⟩
      exact absurd h (Nat.lt_irrefl 0)
  | append_singleton l x ih =>
    obtain ⟨h1, h2⟩ := ih
    have hx : x ∉ (l.foldl countEntry []).map (·.1) ↔ l.count x = 0 := by
      constructor
      · intro h
        by_contra h0
        exact h (List.mem_map.2 ⟨(x, l.count x), (h2 x _).2 ⟨rfl, by omega⟩, rfl⟩)
      · intro h hm
        obtain ⟨⟨y, n⟩, hp, rfl⟩ := List.mem_map.1 hm
        have h3 := (h2 _ _).1 hp
        have h4 : l.count y = 0 := h
        omega
    rw [List.foldl_append, List.foldl_cons, List.foldl_nil]
    refine ⟨?_, fun a n => ?_⟩
    · rw [countEntry_keys]
      split_ifs with h
      · exact h1
      · exact List.nodup_append.2 ⟨h1, List.nodup_singleton x, by
          intro y hy z hz
          rw [List.mem_singleton] at hz
          subst hz
          exact fun e => h (e ▸ hy)⟩
    · rw [countEntry_mem _ _ h1, hx, List.count_append, List.count_singleton]
      simp only [h2]
      by_cases ha : a = x
      · subst ha
        simp only [ne_eq, not_true_eq_false, false_and, true_and, false_or, beq_self_eq_true, if_true]
        constructor
        · rintro (⟨k, ⟨rfl, _⟩, rfl⟩ | ⟨h3, rfl⟩)
          · exact ⟨rfl, by omega⟩
          · exact ⟨by omega, by omega⟩
        · rintro ⟨rfl, _⟩
          by_cases h0 : l.count a = 0
          · exact .inr ⟨h0, by omega⟩
          · exact .inl ⟨l.count a, ⟨rfl, by omega⟩, rfl⟩
      · have ha' : (x == a) = false := beq_eq_false_iff_ne.2 (fun e => ha e.symm)
        simp [ha, ha']

/-- C50: the assertions mean what they say, so no test passes by itself: `assert!` and `assert_eq!` return only if
the condition holds, and the helpers tell errors and new items apart. -/
theorem c50_assertions :
    (∀ b, assert b = .ok () ↔ b = true) ∧
    (∀ (α : Type) [DecidableEq α] (a b : α), assert_eq a b = .ok () ↔ a = b) ∧
    (∀ (ε α : Type) (r : Except ε α) (e : ε), unwrap_err r = .ok e ↔ r = .error e) ∧
    (∀ (ε α : Type) (r : Except ε α), is_err r = true ↔ ∃ e, r = .error e) ∧
    (∀ (α : Type) (eq : α → α → Bool) (set : List α) (a : α),
      ((setInsert eq set a).1 = true ↔ ∀ x ∈ set, eq a x = false) ∧
      ∀ x, x ∈ (setInsert eq set a).2 ↔ x ∈ set ∨ (x = a ∧ ∀ y ∈ set, eq a y = false)) ∧
    ∀ (α : Type) [DecidableEq α] (l : List α) (a : α) (n : Nat),
      (a, n) ∈ l.foldl countEntry [] ↔ n = l.count a ∧ 0 < n := by
  have ha : ∀ b, assert b = .ok () ↔ b = true := by decide
  refine ⟨ha, fun α _ a b => ?_, fun ε α r e => ?_, fun ε α r => ?_, fun α eq set a => ?_,
    fun α _ l a n => (countEntry_all l).2 a n⟩
  · rw [assert_eq, ha, decide_eq_true_iff]
  · cases r <;> simp [unwrap_err]
  · cases r <;> simp [is_err]
  · have hi : set.any (eq a) = false ↔ ∀ x ∈ set, eq a x = false := by
      rw [List.any_eq_false]
      simp only [Bool.not_eq_true]
    rw [setInsert]
    cases hs : set.any (eq a) with
    | true =>
      have hn : ¬ ∀ x ∈ set, eq a x = false := fun h => by
        rw [hi.2 h] at hs
        exact Bool.noConfusion hs
      rw [if_pos rfl]
      exact ⟨⟨fun h => Bool.noConfusion h, fun h => absurd h hn⟩,
        fun x => ⟨.inl, fun h => h.elim id (fun h => absurd h.2 hn)⟩⟩
    | false =>
      have hn := hi.1 hs
      rw [if_neg Bool.false_ne_true]
      refine ⟨⟨fun _ => hn, fun _ => rfl⟩, fun x => ?_⟩
      rw [List.mem_cons]
      exact ⟨fun h => h.elim (fun h => .inr ⟨h, hn⟩) .inl, fun h => h.elim .inr (fun h => .inl h.1)⟩

/-- A test that expects something else fails. -/
example : assert_eq (Card.from_str "2x".toList) (.error (.InvalidLength "2x".toList)) = .error .assertFailed := by
  decide

/-- C50: the tests and documentation examples of src/card. -/
theorem c50_card : from_str_fails = .ok () ∧ try_from_works = .ok () ∧ box_cards_works = .ok () ∧
    card_docs = .ok () ∧ macro_docs = .ok () := by
  refine ⟨?_, ?_, ?_, ?_, ?_⟩ <;> decide +kernel

/-- C50: the tests and documentation examples of src/deck.rs. -/
theorem c50_deck : card_integers_unique = .ok () ∧ card_suit_and_rank_calculations = .ok () ∧
    generate_deck_is_52_cards = .ok () ∧
    ∀ draw : Nat → Nat, (∀ i, 1 ≤ i → i ≤ 51 → draw i ≤ i) →
      generate_shuffled_deck_is_52_cards draw = .ok () := by
  refine ⟨by decide +kernel, by decide +kernel, by decide +kernel, ?_⟩
  intro draw hd
  obtain ⟨l, hl, h52, -⟩ := c22_deck draw hd
  rw [generate_shuffled_deck_is_52_cards, hl, Comb.bind_ok, h52]
  rfl

/-- The hypothesis on the random numbers is met by every choice in range, as `i / 2`. -/
example : ∀ i : Nat, 1 ≤ i → i ≤ 51 → i / 2 ≤ i := fun i _ _ => Nat.div_le_self i 2

/-- The test fails if the shuffle picks outside of the deck: it is not passed by definition. -/
example : generate_shuffled_deck_is_52_cards (fun _ => 52) ≠ .ok () := by decide +kernel

/-- C50: the tests of src/evaluate/utils.rs and src/evaluate/class.rs. -/
theorem c50_utils : bit_sequence_generator_works = .ok () ∧ check_all_unique = .ok () ∧
    const_combos_works = .ok () ∧ eval_class_derived_ord_works = .ok () ∧
    eval_best_worst = .ok () := by
  refine ⟨?_, ?_, ?_, ?_, ?_⟩ <;> decide +kernel

theorem run_hand {ev : Evaluator} (hev : Evaluator.new = .ok ev) (h : List PCard) :
    ev.evaluate (deal h) = evaluateHand h := by
  rw [evaluateHand, hev, Comb.bind_ok]

theorem dealt_ok {ev : Evaluator} (hev : Evaluator.new = .ok ev) (h : List PCard) (hn : h.Nodup)
    (h5 : 5 ≤ h.length) :
    ∃ e, ev.evaluate (deal h) = .ok (.ok e) ∧ evaluateHand h = .ok (.ok e) := by
  obtain ⟨e, he⟩ := (c04_iff h).2.2.2 ⟨hn, h5⟩
  exact ⟨e, (run_hand hev h).trans he, he⟩

/-- The class of a result is of the kind that the `i`-th representative hand should have. -/
def kindOk (i : Nat) (c : EvalClass) : Bool :=
  match i, c with
  | 0, .HighCard _ => true
  | 1, .Pair _ => true
  | 2, .TwoPair _ _ => true
  | 3, .ThreeOfAKind _ => true
  | 4, .Straight _ => true
  | 5, .Flush _ => true
  | 6, .FullHouse _ _ => true
  | 7, .FourOfAKind _ => true
  | 8, .StraightFlush _ => true
  | 9, .StraightFlush .Ace => true
  | _, _ => false

/-- The card of the given name. -/
def cardNamed (s : Str) : PCard :=
  (((ranks.map (fun r => suits.map (fun u => (r, u)))).flatten).find?
    (fun c => (Card.new c.1 c.2).rank_suit_string == s)).getD (.Two, .Clubs)

/-- Every string names a card, the cards are different, and their best five are of the `i`-th kind. -/
def handOk (i : Nat) (strings : List Str) : Bool :=
  let h := strings.map cardNamed
  decide (try_collect (cardsOfStrings strings) = .ok (deal h)) && decide h.Nodup &&
    decide (5 ≤ h.length) && kindOk i (className (bestWorth h))

theorem strings_ok {ev : Evaluator} (hev : Evaluator.new = .ok ev) {i : Nat} {strings : List Str}
    (h : handOk i strings = true) :
    ∃ e, evaluateStrings ev.evaluate strings = .ok e ∧
      evaluateHand (strings.map cardNamed) = .ok (.ok e) ∧ kindOk i e.class' = true := by
  simp only [handOk, Bool.and_eq_true, decide_eq_true_eq] at h
  obtain ⟨⟨⟨hp, hn⟩, h5⟩, hk⟩ := h
  obtain ⟨e, he, he'⟩ := dealt_ok hev _ hn h5
  refine ⟨e, ?_, he', ?_⟩
  · rw [evaluateStrings, hp]
    show (ev.evaluate _ >>= fun r => Game.unwrap r) = _
    rw [he]
    rfl
  · rw [c42_class _ e he']
    exact hk

theorem kind_holds {i : Nat} {h : List PCard} {e : Eval} (he : evaluateHand h = .ok (.ok e))
    (hk : kindOk i e.class' = true) :
    (i = 0 → e.is_high_card = true) ∧ (i = 1 → e.is_pair = true) ∧ (i = 2 → e.is_two_pair = true) ∧
    (i = 3 → e.is_three_of_a_kind = true) ∧ (i = 4 → e.is_straight = true) ∧
    (i = 5 → e.is_flush = true) ∧ (i = 6 → e.is_full_house = true) ∧
    (i = 7 → e.is_four_of_a_kind = true) ∧ (i = 8 → e.is_straight_flush = true) ∧
    (i = 9 → e.is_royal_flush = true) := by
  have hr := (c10_royal h e he).1
  have ha := c09_agree e
  refine ⟨?_, ?_, ?_, ?_, ?_, ?_, ?_, ?_, ?_, ?_⟩ <;> rintro rfl
  · rw [ha.1]; revert hk; cases e.class' <;> simp [kindOk]
  · rw [ha.2.1]; revert hk; cases e.class' <;> simp [kindOk]
  · rw [ha.2.2.1]; revert hk; cases e.class' <;> simp [kindOk]
  · rw [ha.2.2.2.1]; revert hk; cases e.class' <;> simp [kindOk]
  · rw [ha.2.2.2.2.1]; revert hk; cases e.class' <;> simp [kindOk]
  · rw [ha.2.2.2.2.2.1]; revert hk; cases e.class' <;> simp [kindOk]
  · rw [ha.2.2.2.2.2.2.1]; revert hk; cases e.class' <;> simp [kindOk]
  · rw [ha.2.2.2.2.2.2.2.1]; revert hk; cases e.class' <;> simp [kindOk]
  · rw [ha.2.2.2.2.2.2.2.2]; revert hk; cases e.class' <;> simp [kindOk]
  · rw [hr]; revert hk; cases e.class' with
    | StraightFlush r => cases r <;> simp [kindOk]
    | _ => simp [kindOk]

theorem representative_ok {ev : Evaluator} (hev : Evaluator.new = .ok ev) (all : List (List Str))
    (h10 : all.length = 10)
    (hok : (List.range 10).all (fun i => handOk i (all.getD i [])) = true) :
    representative ev.evaluate all = .ok () := by
  rw [List.all_eq_true] at hok
  have key : ∀ i, i < 10 → ∃ strings e, all[i]? = some strings ∧
      evaluateStrings ev.evaluate strings = .ok e ∧
      evaluateHand (strings.map cardNamed) = .ok (.ok e) ∧ kindOk i e.class' = true := by
    intro i hi
    obtain ⟨e, h1, h2, h3⟩ := strings_ok hev (hok i (List.mem_range.2 hi))
    refine ⟨all.getD i [], e, ?_, h1, h2, h3⟩
    rw [List.getD_eq_getElem?_getD, List.getElem?_eq_getElem (by omega)]
    rfl
  unfold representative
  obtain ⟨s0, e0, a0, b0, c0, d0⟩ := key 0 (by decide)
  obtain ⟨s1, e1, a1, b1, c1, d1⟩ := key 1 (by decide)
  obtain ⟨s2, e2, a2, b2, c2, d2⟩ := key 2 (by decide)
  obtain ⟨s3, e3, a3, b3, c3, d3⟩ := key 3 (by decide)
  obtain ⟨s4, e4, a4, b4, c4, d4⟩ := key 4 (by decide)
  obtain ⟨s5, e5, a5, b5, c5, d5⟩ := key 5 (by decide)
  obtain ⟨s6, e6, a6, b6, c6, d6⟩ := key 6 (by decide)
  obtain ⟨s7, e7, a7, b7, c7, d7⟩ := key 7 (by decide)
  obtain ⟨s8, e8, a8, b8, c8, d8⟩ := key 8 (by decide)
  obtain ⟨s9, e9, a9, b9, c9, d9⟩ := key 9 (by decide)
  have hend : all[10]? = none := List.getElem?_eq_none (by omega)
  simp only [a0, a1, a2, a3, a4, a5, a6, a7, a8, a9, b0, b1, b2, b3, b4, b5, b6, b7, b8, b9,
    Comb.bind_ok, hend, (kind_holds c0 d0).1 rfl, (kind_holds c1 d1).2.1 rfl,
    (kind_holds c2 d2).2.2.1 rfl, (kind_holds c3 d3).2.2.2.1 rfl, (kind_holds c4 d4).2.2.2.2.1 rfl,
    (kind_holds c5 d5).2.2.2.2.2.1 rfl, (kind_holds c6 d6).2.2.2.2.2.2.1 rfl,
    (kind_holds c7 d7).2.2.2.2.2.2.2.1 rfl, (kind_holds c8 d8).2.2.2.2.2.2.2.2.1 rfl,
    (kind_holds c9 d9).2.2.2.2.2.2.2.2.2 rfl, assert, if_true, Option.isNone_none]

theorem hands_ok : (List.range 10).all (fun i => handOk i (FiveCardHand.getD i [])) = true ∧
    (List.range 10).all (fun i => handOk i (SixCardHand.getD i [])) = true ∧
    (List.range 10).all (fun i => handOk i (SevenCardHand.getD i [])) = true := by
  refine ⟨?_, ?_, ?_⟩ <;> decide +kernel

/-- Inserting the results of a list of hands into a set: no two are `==`, and it has a result `==` to
each. -/
theorem fold_set {ev : Evaluator} (hs : List (List Card)) (init : List Eval)
    (hok : ∀ h ∈ hs, ∃ e, ev.evaluate h = .ok (.ok e))
    (hd : init.Pairwise (fun a b => a.eq b = false)) :
    ∃ set : List Eval, hs.foldlM (fun (ints : List Eval) hand => (do
        let e ← Game.unwrap (← ev.evaluate hand)
        return (setInsert Eval.eq ints e).2 : Exec (List Eval))) init = .ok set ∧
      set.Pairwise (fun a b => a.eq b = false) ∧
      (∀ e ∈ set, e ∈ init ∨ ∃ h ∈ hs, ev.evaluate h = .ok (.ok e)) ∧
      (∀ e ∈ init, e ∈ set) ∧
      (∀ h ∈ hs, ∀ e, ev.evaluate h = .ok (.ok e) → ∃ x ∈ set, e.eq x = true) := by
  induction hs generalizing init with
  | nil => exact ⟨init, rfl, hd, fun e he => .inl he, fun e he => he, by simp⟩
  | cons h hs ih =>
    obtain ⟨e, he⟩ := hok h (by simp)
    have hd' : (setInsert Eval.eq init e).2.Pairwise (fun a b => a.eq b = false) := by
      unfold setInsert
      split
      · exact hd
      · rename_i hne
        refine List.pairwise_cons.2 ⟨fun x hx => ?_, hd⟩
        rw [Bool.eq_false_iff]
        intro hx'
        exact hne (List.any_eq_true.2 ⟨x, hx, hx'⟩)
    obtain ⟨set, h1, h2, h3, h4, h5⟩ := ih _ (fun h hh => hok h (by simp [hh])) hd'
    have hmem : ∀ x ∈ init, x ∈ (setInsert Eval.eq init e).2 := by
      intro x hx
      unfold setInsert
      split <;> simp [hx]
    refine ⟨set, ?_, h2, ?_, fun x hx => h4 x (hmem x hx), ?_⟩
    · rw [List.foldlM_cons, he, Comb.bind_ok]
      exact h1
    · intro x hx
      rcases h3 x hx with hx | ⟨h', hh', hx⟩
      · unfold setInsert at hx
        split at hx
        · exact .inl hx
        · rcases List.mem_cons.1 hx with rfl | hx
          · exact .inr ⟨h, by simp, he⟩
          · exact .inl hx
      · exact .inr ⟨h', by simp [hh'], hx⟩
    · intro h' hh' x hx
      rcases List.mem_cons.1 hh' with rfl | hh'
      · rw [he, Except.ok.injEq, Except.ok.injEq] at hx
        subst hx
        by_cases ha : init.any (e.eq ·) = true
        · obtain ⟨y, hy, hxy⟩ := List.any_eq_true.1 ha
          exact ⟨y, h4 y (hmem y hy), hxy⟩
        · refine ⟨e, h4 e ?_, ?_⟩
          · unfold setInsert
            rw [if_neg ha]
            simp
          · simp [Eval.eq, Meta.eq]
      · exact h5 h' hh' x hx

theorem combos_deal (n : Nat) (g : List PCard) : combos n (deal g) = (combos n g).map deal := by
  induction g generalizing n with
  | nil => cases n <;> rfl
  | cons c g ih =>
    cases n with
    | zero => rfl
    | succ n =>
      show (combos n (deal g)).map _ ++ combos (n + 1) (deal g) = _
      rw [ih, ih, combos, List.map_append, List.map_map, List.map_map]
      rfl

theorem eval_eq_rank (a b : Eval) : a.eq b = true ↔ a.hand_rank = b.hand_rank := by
  simp [Eval.eq, Meta.eq, Eval.hand_rank]

/-- All five-card combinations of the deck: 7462 different results, with the ranks 1 to 7462. -/
theorem all_five_ok {ev : Evaluator} (hev : Evaluator.new = .ok ev) :
    test_all_five_card_combos ev.evaluate = .ok () := by
  obtain ⟨g, hg, hgn, hgl, hgm⟩ := generate_deal
  have hloop := forCombos_eq 5 Deck.generate ([] : List Eval) (fun ints hand => (do
        let e ← Game.unwrap (← ev.evaluate hand)
        return (setInsert Eval.eq ints e).2 : Exec (List Eval))) (by decide)
        (by rw [c21_deck.1]; decide)
  obtain ⟨set, h1, h2, h3, -, h5⟩ := fold_set (ev := ev) (combos 5 Deck.generate) [] (by
    intro h hh
    rw [hg, combos_deal, List.mem_map] at hh
    obtain ⟨c, hc, rfl⟩ := hh
    obtain ⟨hcn, hc5⟩ := combos_props hgn hc
    obtain ⟨e, he, -⟩ := dealt_ok hev c hcn (by omega)
    exact ⟨e, he⟩) .nil
  have hset : ∀ e ∈ set, 1 ≤ e.hand_rank.val.toInt ∧ e.hand_rank.val.toInt ≤ 7462 := by
    intro e he
    rcases h3 e he with he | ⟨h, hh, he⟩
    · cases he
    · rw [hg, combos_deal, List.mem_map] at hh
      obtain ⟨c, hc, rfl⟩ := hh
      rw [run_hand hev] at he
      exact (c08_bounds c e he).2.2
  have hall : ∀ n : Nat, 1 ≤ n → n ≤ 7462 → ∃ e ∈ set, e.hand_rank.val.toInt = n := by
    intro n hn1 hn2
    obtain ⟨h, e, hn, hl, he, hr⟩ := c08_attained n hn1 hn2
    obtain ⟨c, hc, hp⟩ := fiveOf_combos (d := h) (h := g) ⟨hn, hl, fun c _ => hgm c⟩
    have he' : ev.evaluate (deal c) = .ok (.ok e) := by
      rw [run_hand hev]
      exact ((c05_perm c h hp).1 e).2 he
    obtain ⟨x, hx, hex⟩ := h5 (deal c) (by rw [hg, combos_deal]; exact List.mem_map_of_mem hc) e he'
    refine ⟨x, hx, ?_⟩
    rw [← (eval_eq_rank e x).1 hex, hr]
  have hlen : set.length = 7462 := by
    have hnd : (set.map (fun e => e.hand_rank.val.toInt)).Nodup := by
      rw [List.Nodup, List.pairwise_map]
      refine h2.imp ?_
      intro a b hab heq
      rw [Bool.eq_false_iff] at hab
      refine hab ((eval_eq_rank a b).2 ?_)
      rw [PokerHandRank.mk.injEq]
      exact BitVec.eq_of_toInt_eq heq
    have hperm : (set.map (fun e => e.hand_rank.val.toInt)).Perm
        ((List.range 7462).map (fun n => ((n + 1 : Nat) : Int))) := by
      refine (List.perm_ext_iff_of_nodup hnd ?_).2 ?_
      · refine List.Nodup.map ?_ List.nodup_range
        intro a b hab
        simp only at hab
        omega
      · intro z
        simp only [List.mem_map, List.mem_range]
        constructor
        · rintro ⟨e, he, rfl⟩
          obtain ⟨ha, hb⟩ := hset e he
          exact ⟨e.hand_rank.val.toInt.toNat - 1, by omega, by omega⟩
        · rintro ⟨n, hn, rfl⟩
          obtain ⟨e, he, hr⟩ := hall (n + 1) (by omega) (by omega)
          exact ⟨e, he, hr⟩
    have := hperm.length_eq
    rwa [List.length_map, List.length_map, List.length_range] at this
  unfold test_all_five_card_combos
  rw [hloop, h1, Comb.bind_ok, assert_eq, hlen, assert, if_pos (by decide), Comb.bind_ok]
  have hfor : ∀ l : List Nat, (∀ n ∈ l, 1 ≤ n ∧ n ≤ 7462) → (l.forM fun i =>
      assert (set.any (fun e => e.hand_rank == ⟨BitVec.ofNat 16 i⟩))) = .ok () := by
    intro l
    induction l with
    | nil => intro _; rfl
    | cons n l ih =>
      intro hl
      obtain ⟨ha, hb⟩ := hl n (by simp)
      obtain ⟨e, he, hr⟩ := hall n ha hb
      have hany : set.any (fun e => e.hand_rank == ⟨BitVec.ofNat 16 n⟩) = true := by
        refine List.any_eq_true.2 ⟨e, he, ?_⟩
        rw [beq_iff_eq, PokerHandRank.mk.injEq]
        refine BitVec.eq_of_toInt_eq ?_
        have h16 : (BitVec.ofNat 16 n).toNat = n := by
          rw [BitVec.toNat_ofNat]
          exact Nat.mod_eq_of_lt (by omega)
        rw [hr, BitVec.toInt_eq_toNat_of_lt (by rw [h16]; omega), h16]
      show (assert (set.any _) >>= fun _ => l.forM _) = _
      rw [hany, assert, if_pos rfl, Comb.bind_ok]
      exact ih (fun m hm => hl m (by simp [hm]))
  refine hfor _ ?_
  intro n hn
  simp only [List.mem_map, List.mem_range] at hn
  obtain ⟨m, hm, rfl⟩ := hn
  omega

/-- C50: the tests of src/evaluate/mod.rs. -/
theorem c50_evaluate : evaluate_tests = .ok () := by
  obtain ⟨ev, hev⟩ := c36_new_ok
  unfold evaluate_tests representative_sized
  rw [hev, Comb.bind_ok, all_five_ok hev, Comb.bind_ok,
    representative_ok hev _ (by decide) hands_ok.1, representative_ok hev _ (by decide) hands_ok.2.1,
    representative_ok hev _ (by decide) hands_ok.2.2]
  decide +kernel

theorem get?_perm {a b : FxHashMap Meta} (h : a.entries.Perm b.entries)
    (hn : (b.entries.map (·.1)).Nodup) (k : BitVec 32) : a.get? k = b.get? k := by
  have hn' : (a.entries.map (·.1)).Nodup := ((h.map _).nodup_iff).2 hn
  by_cases hk : ∃ v, (k, v) ∈ b.entries
  · obtain ⟨v, hv⟩ := hk
    rw [get?_of_mem hn' (h.mem_iff.2 hv), get?_of_mem hn hv]
  · have none : ∀ m : FxHashMap Meta, (¬ ∃ v, (k, v) ∈ m.entries) → m.get? k = none := by
      intro m hm
      unfold FxHashMap.get?
      rw [Option.map_eq_none_iff, List.find?_eq_none]
      rintro ⟨k', v⟩ hx
      simp only [beq_iff_eq]
      rintro rfl
      exact hm ⟨v, hx⟩
    rw [none b hk, none a (fun ⟨v, hv⟩ => hk ⟨v, h.mem_iff.1 hv⟩)]

/-- C50: the tests of src/evaluate/static_lookup.rs pass if the downloaded tables have the entries of
the generated ones, in any order. -/
theorem c50_static (s : StaticLookup.Statics) (ev : Evaluator) (hev : Evaluator.new = .ok ev)
    (hf : s.FLUSH_LOOKUP.entries.Perm ev.table.flush_lookup.entries)
    (hu : s.UNSUITED_LOOKUP.entries.Perm ev.table.unsuited_lookup.entries) :
    static_tests s = .ok () := by
  obtain ⟨-, -, hn, hn'⟩ := c32_sizes ev hev
  have hsame : StaticLookup.evaluate s = ev.evaluate := by
    funext cards
    exact c25_same_entries s ev hev (get?_perm hf hn) (get?_perm hu hn') cards
  have hident : ∀ a b : FxHashMap Meta, (b.entries.map (·.1)).Nodup → a.entries.Perm b.entries →
      StaticLookup.identicalTables b a = true := by
    intro a b hb hp
    rw [StaticLookup.identicalTables, Bool.and_eq_true, List.all_eq_true]
    refine ⟨?_, ?_⟩
    · intro e he
      have := get?_of_mem hb (hp.mem_iff.1 he)
      simp [this, Meta.eq]
    · simp [FxHashMap.len, hp.length_eq]
  unfold static_tests
  rw [hsame, all_five_ok hev, Comb.bind_ok, representative_ok hev _ (by decide) hands_ok.1,
    Comb.bind_ok, representative_ok hev _ (by decide) hands_ok.2.1, Comb.bind_ok,
    representative_ok hev _ (by decide) hands_ok.2.2, Comb.bind_ok, hev, Comb.bind_ok,
    StaticLookup.ensure_identical_tables, hident _ _ hn hf, hident _ _ hn' hu]
  rfl

/-- The generated tables meet the hypotheses of `c50_static`. -/
example : ∃ (s : StaticLookup.Statics) (ev : Evaluator), Evaluator.new = .ok ev ∧
    s.FLUSH_LOOKUP.entries.Perm ev.table.flush_lookup.entries ∧
    s.UNSUITED_LOOKUP.entries.Perm ev.table.unsuited_lookup.entries := by
  obtain ⟨ev, hev⟩ := c36_new_ok
  exact ⟨⟨ev.table.flush_lookup, ev.table.unsuited_lookup⟩, ev, hev, .refl _, .refl _⟩

/-- The first rank of two pair is the higher. -/
def inOrder (c : EvalClass) : Bool :=
  match c with
  | .TwoPair high_pair low_pair => high_pair.cmp low_pair == .gt
  | _ => true

theorem check_order : Kinds.ladder.all (fun w => inOrder (className w)) = true := by decide +kernel

theorem forM_ok {α : Type} (f : α → Exec Unit) : ∀ l : List α, (∀ x ∈ l, f x = .ok ()) →
    l.forM f = .ok ()
  | [], _ => rfl
  | x :: l, h => by
    show (f x >>= fun _ => l.forM f) = _
    rw [h x (by simp), Comb.bind_ok]
    exact forM_ok f l (fun y hy => h y (by simp [hy]))

/-- C50: the test of src/evaluate/lookup_table.rs passes whatever the order of the table. -/
theorem c50_table (order : List (BitVec 32 × Meta) → List (BitVec 32 × Meta))
    (ho : ∀ l, (order l).Perm l) : check_metadata_ordering order = .ok () := by
  unfold check_metadata_ordering
  rw [new_eq, Comb.bind_ok]
  have hall : ∀ e ∈ order unsuitedTable.entries, inOrder e.2.class' = true := by
    intro e he
    rw [(ho _).mem_iff, unsuited_entries, List.mem_reverse, entries, List.mem_map] at he
    obtain ⟨c, hc, rfl⟩ := he
    show inOrder (mkMeta _ _).class' = true
    rw [class_mkMeta]
    exact List.all_eq_true.1 check_order _ (unsuited_mem_ladder hc)
  refine forM_ok _ _ ?_
  rintro ⟨k, m⟩ he
  have hm := hall _ he
  cases m <;> first | rfl | skip
  show assert _ = _
  rw [assert, if_pos (by exact hm)]

example : check_metadata_ordering List.reverse = .ok () := c50_table _ List.reverse_perm

theorem idents_deal : cardsOfIdents = deal := by
  funext l
  rfl

/-- The cards named in one string. -/
theorem string_cards (h : List PCard) (s : Str)
    (hs : try_collect (cardsOfString s) = .ok (deal h)) :
    (Game.unwrap (try_collect (cardsOfString s)) : Exec (List Card)) = .ok (deal h) := by
  rw [hs]
  rfl

theorem dups_five (order : List (Card × Nat) → List (Card × Nat)) (ho : ∀ l, (order l).Perm l) :
    (dupNames order (deal [(.Five, .Clubs), (.Five, .Clubs), (.Ten, .Clubs), (.Jack, .Clubs),
      (.Queen, .Clubs)])) = ["5c".toList] := by
  rw [← List.perm_singleton, dupNames, counts]
  refine ((ho _).filterMap _).trans ?_
  rw [List.perm_singleton]
  decide +kernel

/-- C50: the test and the examples about errors, whatever the order of the map of duplicates. -/
theorem c50_errors : parse_card_error_format = .ok () ∧ error_docs = .ok () ∧
    ∀ order : List (Card × Nat) → List (Card × Nat), (∀ l, (order l).Perm l) →
      eval_error_format order = .ok () := by
  obtain ⟨ev, hev⟩ := c36_new_ok
  refine ⟨by decide +kernel, ?_, ?_⟩
  · have h1 := run_hand hev [(.Ten, .Clubs), (.Jack, .Clubs), (.Queen, .Clubs), (.King, .Clubs),
      (.King, .Clubs)]
    rw [evaluateHand_dup (by decide)] at h1
    have h2 := run_hand hev [(.Two, .Clubs), (.Ten, .Hearts), (.Seven, .Hearts), (.Eight, .Spades)]
    rw [((c04_iff _).2.1 4).2 (by decide)] at h2
    simp only [error_docs, hev, Comb.bind_ok, idents_deal, h1, h2]
    decide +kernel
  · intro order ho
    have h1 := run_hand hev [(.Five, .Clubs), (.Five, .Clubs), (.Ten, .Clubs), (.Jack, .Clubs),
      (.Queen, .Clubs)]
    rw [evaluateHand_dup (by decide)] at h1
    have h2 := run_hand hev [(.Ace, .Spades)]
    rw [((c04_iff _).2.1 1).2 (by decide)] at h2
    have t : ∀ l, EvalError.display order (.CardsNotUnique l) = _ ++ joinSpace (dupNames order l) :=
      fun _ => rfl
    unfold eval_error_format
    rw [hev, Comb.bind_ok, string_cards [(.Five, .Clubs), (.Five, .Clubs), (.Ten, .Clubs),
      (.Jack, .Clubs), (.Queen, .Clubs)] "5c 5c Tc Jc Qc".toList (by decide +kernel), Comb.bind_ok, h1]
    show (assert_eq (EvalError.display order (.CardsNotUnique _)) _ >>= fun _ => _) = _
    rw [t, dups_five order ho]
    rw [show ∀ a : Str, assert_eq (a ++ joinSpace ["5c".toList]) (a ++ "5c".toList) = .ok () from
      fun a => by rw [assert_eq, joinSpace, decide_eq_true rfl]; rfl, Comb.bind_ok]
    rw [idents_deal]
    simp only [h2, Comb.bind_ok, unwrap_err]
    rw [assert_eq, decide_eq_true]
    · rfl
    · rfl

/-- An order of iteration other than that of first occurrence. -/
example : ∀ l : List (Card × Nat), l.reverse.Perm l := fun l => List.reverse_perm l

/-- C50: the test of the comparisons in src/evaluate/eval.rs. -/
theorem c50_compare : eval_better_worse_tie = .ok () := by
  obtain ⟨ev, hev⟩ := c36_new_ok
  obtain ⟨e1, a1, b1, -⟩ := strings_ok hev (i := 1)
    (strings := ["2h", "2c", "5h", "Qd", "6s"].map String.toList) (by decide +kernel)
  obtain ⟨e2, a2, b2, -⟩ := strings_ok hev (i := 1)
    (strings := ["3h", "3d", "5c", "Qs", "6h"].map String.toList) (by decide +kernel)
  obtain ⟨e3, a3, b3, -⟩ := strings_ok hev (i := 0)
    (strings := ["Ac", "Kd", "Jd", "7h", "5d"].map String.toList) (by decide +kernel)
  obtain ⟨e4, a4, b4, -⟩ := strings_ok hev (i := 1)
    (strings := ["2s", "2d", "5s", "Qc", "6d"].map String.toList) (by decide +kernel)
  obtain ⟨-, -, p2, q2, r2⟩ := c42_compare _ _ e1 e2 b1 b2
  obtain ⟨-, -, p3, q3, r3⟩ := c42_compare _ _ e1 e3 b1 b3
  obtain ⟨-, -, p4, q4, r4⟩ := c42_compare _ _ e1 e4 b1 b4
  have x1 : e1.is_better_than e2 = false := by rw [Bool.eq_false_iff, Ne, p2]; decide +kernel
  have x2 : e1.is_better_than e3 = true := by rw [p3]; decide +kernel
  have x3 : e1.is_better_than e4 = false := by rw [Bool.eq_false_iff, Ne, p4]; decide +kernel
  have y1 : e1.is_worse_than e2 = true := by rw [q2]; decide +kernel
  have y2 : e1.is_worse_than e3 = false := by rw [Bool.eq_false_iff, Ne, q3]; decide +kernel
  have y3 : e1.is_worse_than e4 = false := by rw [Bool.eq_false_iff, Ne, q4]; decide +kernel
  have z1 : e1.is_equal_to e2 = false := by rw [Bool.eq_false_iff, Ne, r2]; decide +kernel
  have z2 : e1.is_equal_to e3 = false := by rw [Bool.eq_false_iff, Ne, r3]; decide +kernel
  have z3 : e1.is_equal_to e4 = true := by rw [r4]; decide +kernel
  simp only [eval_better_worse_tie, hev, Comb.bind_ok, a1, a2, a3, a4, x1, x2, x3, y1, y2, y3, z1, z2,
    z3, assert, Bool.not_false, if_true]

/-- C50: the examples in the documentation of src/lib.rs and src/evaluate. -/
theorem c50_docs : evaluate_docs = .ok () := by
  obtain ⟨ev, hev⟩ := c36_new_ok
  have run : ∀ h : List PCard, h.Nodup → 5 ≤ h.length → ∃ e, ev.evaluate (deal h) = .ok (.ok e) ∧
      evaluateHand h = .ok (.ok e) ∧ e.class' = className (bestWorth h) ∧
      e.display = Text.describe (className (bestWorth h)) := by
    intro h hn h5
    obtain ⟨e, he, he'⟩ := dealt_ok hev h hn h5
    exact ⟨e, he, he', c42_class h e he', c42_text h e he'⟩
  obtain ⟨e1, a1, -, c1, d1⟩ := run [(.Four, .Clubs), (.Four, .Spades), (.Jack, .Diamonds),
    (.Jack, .Clubs), (.Jack, .Hearts)] (by decide) (by decide)
  obtain ⟨e2, a2, b2, c2, -⟩ := run [(.Ten, .Clubs), (.Jack, .Clubs), (.Queen, .Clubs),
    (.King, .Clubs), (.Ace, .Clubs)] (by decide) (by decide)
  obtain ⟨e3, a3, -, c3, -⟩ := run [(.Three, .Clubs), (.Five, .Clubs), (.Ace, .Spades), (.Jack, .Clubs),
    (.Queen, .Hearts), (.Ten, .Clubs), (.Ace, .Clubs)] (by decide) (by decide)
  obtain ⟨e4, a4, -, c4, d4⟩ := run [(.Seven, .Clubs), (.Eight, .Diamonds), (.Three, .Spades),
    (.King, .Spades), (.Seven, .Hearts)] (by decide) (by decide)
  obtain ⟨e5, a5, b5, c5, -⟩ := run [(.Jack, .Hearts), (.Ten, .Hearts), (.Seven, .Hearts),
    (.Four, .Hearts), (.Three, .Hearts)] (by decide) (by decide)
  obtain ⟨e6, a6, b6, c6, -⟩ := run [(.Jack, .Clubs), (.Ten, .Clubs), (.Seven, .Clubs), (.Four, .Clubs),
    (.Two, .Clubs)] (by decide) (by decide)
  obtain ⟨e7, a7, -, c7, -⟩ := run [(.Ace, .Clubs), (.Two, .Spades), (.Three, .Diamonds),
    (.Four, .Diamonds), (.Five, .Clubs)] (by decide) (by decide)
  obtain ⟨e8, a8, b8, c8, -⟩ := run [(.King, .Spades), (.Jack, .Spades), (.Ten, .Spades),
    (.Queen, .Spades), (.Ace, .Spades)] (by decide) (by decide)
  obtain ⟨e9, a9, b9, -, -⟩ := run [(.Three, .Clubs), (.Four, .Hearts), (.Ten, .Diamonds),
    (.Three, .Hearts), (.King, .Diamonds)] (by decide) (by decide)
  have c1' : e1.class' = .FullHouse .Jack .Four := c1.trans (by decide +kernel)
  have d1' : e1.display = "Full house, jacks over fours".toList := d1.trans (by decide +kernel)
  have r2 : e2.is_royal_flush = true := (c10_royal _ e2 b2).1.2 (c2.trans (by decide +kernel))
  have c3' : e3.class' = .Flush .Ace := c3.trans (by decide +kernel)
  have d4' : e4.display = "Pair, sevens".toList := d4.trans (by decide +kernel)
  have p4 : e4.is_pair = true := (c09_agree e4).2.1.2 ⟨.Seven, c4.trans (by decide +kernel)⟩
  have c5' : e5.class' = .Flush .Jack := c5.trans (by decide +kernel)
  have c6' : e6.class' = .Flush .Jack := c6.trans (by decide +kernel)
  have b56 : e5.is_better_than e6 = true :=
    (c42_compare _ _ e5 e6 b5 b6).2.2.1.2 (by decide +kernel)
  have c7' : e7.class' = .Straight .Five := c7.trans (by decide +kernel)
  have c8' : e8.class' = .StraightFlush .Ace := c8.trans (by decide +kernel)
  have r8 : e8.is_royal_flush = true := (c10_royal _ e8 b8).1.2 c8'
  have b89 : e8.is_better_than e9 = true :=
    (c42_compare _ _ e8 e9 b8 b9).2.2.1.2 (by decide +kernel)
  have u : ∀ e : Eval, (Game.unwrap (.ok e : Except EvalError Eval) : Exec Eval) = .ok e := fun _ => rfl
  have hbox : box_cards (deal [(.Three, .Clubs), (.Five, .Clubs), (.Ace, .Spades), (.Jack, .Clubs),
      (.Queen, .Hearts)]) [deal [(.Ten, .Clubs), (.Ace, .Clubs)]] = deal [(.Three, .Clubs),
      (.Five, .Clubs), (.Ace, .Spades), (.Jack, .Clubs), (.Queen, .Hearts), (.Ten, .Clubs),
      (.Ace, .Clubs)] := by decide +kernel
  simp only [evaluate_docs, hev, Comb.bind_ok, idents_deal, a1, a2, u,
    string_cards [(.Three, .Clubs), (.Five, .Clubs), (.Ace, .Spades), (.Jack, .Clubs),
      (.Queen, .Hearts)] "3c 5c As Jc Qh".toList (by decide +kernel),
    string_cards [(.Ten, .Clubs), (.Ace, .Clubs)] "Tc Ac".toList (by decide +kernel), hbox, a3,
    string_cards [(.Seven, .Clubs), (.Eight, .Diamonds), (.Three, .Spades), (.King, .Spades),
      (.Seven, .Hearts)] "7c 8d 3s Ks 7h".toList (by decide +kernel), a4,
    string_cards [(.Jack, .Hearts), (.Ten, .Hearts), (.Seven, .Hearts), (.Four, .Hearts),
      (.Three, .Hearts)] "Jh Th 7h 4h 3h".toList (by decide +kernel), a5,
    string_cards [(.Jack, .Clubs), (.Ten, .Clubs), (.Seven, .Clubs), (.Four, .Clubs), (.Two, .Clubs)]
      "Jc Tc 7c 4c 2c".toList (by decide +kernel), a6, a7,
    string_cards [(.King, .Spades), (.Jack, .Spades), (.Ten, .Spades), (.Queen, .Spades),
      (.Ace, .Spades)] "Ks Js Ts Qs As".toList (by decide +kernel), a8,
    string_cards [(.Three, .Clubs), (.Four, .Hearts), (.Ten, .Diamonds), (.Three, .Hearts),
      (.King, .Diamonds)] "3c 4h Td 3h Kd".toList (by decide +kernel), a9,
    c1', d1', r2, c3', d4', p4, c5', c6', b56, c7', c8', r8, b89, assert_eq, assert, beq_self_eq_true,
    decide_true, if_true]

/-! ## Examples that print -/

/-- The first five cards of a shuffled deck. -/
theorem firstFive_ok (draw : Nat → Nat) (hd : ∀ i, 1 ≤ i → i ≤ 51 → draw i ≤ i) :
    ∃ L h : List PCard, Deck.shuffled_with draw = .ok (deal L) ∧ h = L.take 5 ∧ h.Nodup ∧
      h.length = 5 ∧ Game.drainFront 5 (deal L) = .ok (deal h, deal (L.drop 5)) := by
  obtain ⟨l, hl, hp⟩ := c22_perm draw hd
  obtain ⟨L, rfl, hn, hL⟩ := perm_generate.1 hp
  have h52 : L.length = 52 := by rw [← List.toFinset_card_of_nodup hn, hL, pack_card]
  refine ⟨L, L.take 5, hl, rfl, hn.sublist (List.take_sublist _ _), ?_, ?_⟩
  · rw [List.length_take, h52]; rfl
  · rw [Game.drainFront, if_pos (by rw [deal, List.length_map, h52]; decide), deal, deal, deal,
      List.map_take, List.map_drop]

/-- C50: the program of the README prints the description of the first five cards of the shuffled
deck, whatever the generator gives. -/
theorem c50_readme (draw : Nat → Nat) (hd : ∀ i, 1 ≤ i → i ≤ 51 → draw i ≤ i) :
    ∃ h : List PCard, h.Nodup ∧ h.length = 5 ∧
      (∃ l, Deck.shuffled_with draw = .ok l ∧ l.take 5 = deal h) ∧
      readme draw = .ok (Text.describe (className (strength h))) := by
  obtain ⟨ev, hev⟩ := c36_new_ok
  obtain ⟨L, h, hl, hh, hn, h5, hdr⟩ := firstFive_ok draw hd
  have he := (run_hand hev h).trans (evaluate_five_ok hn h5)
  refine ⟨h, hn, h5, ⟨_, hl, by rw [hh, deal, deal, List.map_take]⟩, ?_⟩
  rw [readme, hev, Comb.bind_ok, hl, Comb.bind_ok, hdr, Comb.bind_ok]
  show (ev.evaluate (deal h) >>= fun r => Game.unwrap r >>= fun r => .ok r.display) = _
  rw [he, Comb.bind_ok]
  show Except.ok (evalOf (strength h)).display = _
  rw [c28_exact_result, class_evalOf]

example : ∃ h : List PCard, h.Nodup ∧ readme (· / 2) = .ok (Text.describe (className (strength h))) :=
  have ⟨h, hn, _, _, hr⟩ := c50_readme (· / 2) (fun i _ _ => Nat.div_le_self i 2)
  ⟨h, hn, hr⟩

/-- The best of some results. -/
theorem foldl_max_best (l : List Eval) (a : Eval) :
    (l.foldl Eval.max a = a ∨ l.foldl Eval.max a ∈ l) ∧
      (l.foldl Eval.max a).rankInt ≤ a.rankInt ∧
      ∀ e ∈ l, (l.foldl Eval.max a).rankInt ≤ e.rankInt := by
  induction l generalizing a with
  | nil => exact ⟨.inl rfl, le_rfl, by simp⟩
  | cons e l ih =>
    obtain ⟨h1, h2, h3⟩ := ih (a.max e)
    rw [max_rank] at h2
    rw [List.foldl_cons]
    refine ⟨?_, by omega, ?_⟩
    · rcases h1 with h1 | h1
      · rw [h1]
        unfold Eval.max
        split
        · exact .inl rfl
        · exact .inr (by simp)
      · exact .inr (List.mem_cons_of_mem _ h1)
    · intro x hx
      rcases List.mem_cons.1 hx with rfl | hx
      · omega
      · exact h3 x hx

/-- C50: the program with threads in the documentation of src/lib.rs.  Each of the threads shuffles
its own deck; once each has had enough turns, in whatever order they come, what is printed is the
description of a hand among those dealt that none of the others beats. -/
theorem c50_threads (draws : List (Nat → Nat)) (hne : draws ≠ [])
    (hd : ∀ draw ∈ draws, ∀ i, 1 ≤ i → i ≤ 51 → draw i ≤ i) :
    ∃ hands : List (List PCard), draws.mapM firstFive = .ok (hands.map deal) ∧
      (∀ h ∈ hands, h.Nodup ∧ h.length = 5) ∧
      ∃ best ∈ hands, (∀ h ∈ hands, ¬ Beats h best) ∧
        ∃ n, ∀ schedule : List Nat, (∀ i < draws.length, n ≤ schedule.count i) →
          threads_docs draws schedule = .ok (Text.describe (className (strength best))) := by
  obtain ⟨ev, hev⟩ := c36_new_ok
  have hmap : ∃ hands : List (List PCard), draws.mapM firstFive = .ok (hands.map deal) ∧
      hands.length = draws.length ∧ ∀ h ∈ hands, h.Nodup ∧ h.length = 5 := by
    clear hne
    induction draws with
    | nil => exact ⟨[], rfl, rfl, by simp⟩
    | cons draw draws ih =>
      obtain ⟨hands, h1, h2, h3⟩ := ih (fun d hx => hd d (List.mem_cons_of_mem _ hx))
      obtain ⟨L, h, hl, -, hn, h5, hdr⟩ := firstFive_ok draw (hd draw (by simp))
      refine ⟨h :: hands, ?_, by rw [List.length_cons, List.length_cons, h2], ?_⟩
      · have hf : firstFive draw = .ok (deal h) := by
          rw [firstFive, hl, Comb.bind_ok, hdr]; rfl
        rw [List.mapM_cons, hf, Comb.bind_ok, h1]
        rfl
      · intro x hx
        rcases List.mem_cons.1 hx with rfl | hx
        · exact ⟨hn, h5⟩
        · exact h3 x hx
  obtain ⟨hands, hm, hlen, hok⟩ := hmap
  refine ⟨hands, hm, hok, ?_⟩
  have heval : ∀ h ∈ hands, ev.evaluate (deal h) = .ok (.ok (evalOf (strength h))) := fun h hh =>
    (run_hand hev h).trans (evaluate_five_ok (hok h hh).1 (hok h hh).2)
  have hmem : ∀ h ∈ hands, strength h ∈ Kinds.ladder := fun h hh => strength_mem (hok h hh).1 (hok h hh).2
  obtain ⟨hin, hw, hbest⟩ :=
    foldl_max_best (hands.map (fun h => evalOf (strength h))) Eval.WORST
  -- the fold gives the result of one of the hands
  have hhand : ∃ best ∈ hands, (hands.map (fun h => evalOf (strength h))).foldl Eval.max Eval.WORST
      = evalOf (strength best) := by
    rcases hin with hin | hin
    · obtain ⟨h, hh⟩ : ∃ h, h ∈ hands := by
        cases hands with
        | nil => exact absurd (List.length_eq_zero_iff.1 hlen.symm) hne
        | cons h hands => exact ⟨h, by simp⟩
      refine ⟨h, hh, ?_⟩
      have h1 := hbest _ (List.mem_map_of_mem hh)
      have h2 := (c08_bounds h _ (evaluate_five_ok (hok h hh).1 (hok h hh).2)).1
      rw [Bool.eq_false_iff, Ne, Eval.lt_iff, Eval.cmp_eq, Int.compare_eq_lt] at h2
      rw [hin] at h1 ⊢
      exact Legal.eq_of_rank legal_worst ⟨_, hmem h hh, rfl⟩ (by omega)
    · obtain ⟨h, hh, e⟩ := List.mem_map.1 hin
      exact ⟨h, hh, e.symm⟩
  obtain ⟨best, hb, he⟩ := hhand
  refine ⟨best, hb, ?_, ?_⟩
  · intro h hh hbeats
    have h1 := hbest _ (List.mem_map_of_mem hh)
    rw [he] at h1
    have h2 : (evalOf (strength h)).cmp (evalOf (strength best)) = .gt := by
      rw [cmp_evalOf (hmem h hh) (hmem best hb)]; exact hbeats
    rw [Eval.cmp_eq, Int.compare_eq_gt] at h2
    omega
  · -- enough turns for each thread
    have hturns : ∃ n, ∀ h ∈ hands, ∀ (schedule : List Nat) (i : Nat),
        (hands.map deal)[i]? = some (deal h) → n ≤ schedule.count i →
        ((Threads.spawn ev (hands.map deal)).run schedule).jobs[i]?
          = some (.finished (ev.evaluate (deal h))) := by
      have gen : ∀ l : List (List PCard), ∃ n, ∀ h ∈ l, ∀ (schedule : List Nat) (i : Nat),
          (hands.map deal)[i]? = some (deal h) → n ≤ schedule.count i →
          ((Threads.spawn ev (hands.map deal)).run schedule).jobs[i]?
            = some (.finished (ev.evaluate (deal h))) := by
        intro l
        induction l with
        | nil => exact ⟨0, by simp⟩
        | cons a l ih =>
          obtain ⟨n, hn⟩ := ih
          obtain ⟨m, hm⟩ := c24_finishes ev (deal a)
          refine ⟨n + m, ?_⟩
          intro h hh schedule i hi hc
          rcases List.mem_cons.1 hh with rfl | hh
          · exact hm _ schedule i hi (by omega)
          · exact hn h hh schedule i hi (by omega)
      exact gen hands
    obtain ⟨n, hn⟩ := hturns
    refine ⟨n, ?_⟩
    intro schedule hs
    have hjobs : ((Threads.spawn ev (hands.map deal)).run schedule).jobs
        = (hands.map (fun h => Except.ok (evalOf (strength h)))).map (fun r => .finished (.ok r)) := by
      refine List.ext_getElem? ?_
      intro i
      by_cases hi : i < hands.length
      · have hg : (hands.map deal)[i]? = some (deal hands[i]) := by
          rw [List.getElem?_map, List.getElem?_eq_getElem hi]; rfl
        rw [hn hands[i] (List.getElem_mem hi) schedule i hg (hs i (by omega)),
          heval _ (List.getElem_mem hi), List.getElem?_map, List.getElem?_map,
          List.getElem?_eq_getElem hi]
        rfl
      · rw [List.getElem?_eq_none (by
          rw [run_length]; simpa [Threads.spawn] using hi), List.getElem?_eq_none (by simpa using hi)]
    rw [threads_docs, hev, Comb.bind_ok, hm, Comb.bind_ok, hjobs, joinAll_eq, Comb.bind_ok, List.map_map]
    show Except.ok (((hands.map (fun h => evalOf (strength h))).foldl Eval.max Eval.WORST).display) = _
    rw [he, c28_exact_result, class_evalOf]

/-- Ten generators that meet the hypotheses of `c50_threads`, with different decks. -/
example : (List.range 10).map (fun k i => i / (k + 1)) ≠ [] ∧
    ∀ draw ∈ (List.range 10).map (fun k i => i / (k + 1)), ∀ i : Nat, 1 ≤ i → i ≤ 51 → draw i ≤ i := by
  refine ⟨by decide, ?_⟩
  intro draw hd i _ _
  obtain ⟨k, -, rfl⟩ := List.mem_map.1 hd
  exact Nat.div_le_self i (k + 1)

/-- A thread that has had no turn has no result: the hypothesis on the schedule is needed. -/
example : threads_docs [fun i => i] [] ≠ .ok (Text.describe (.Pair .Two)) := by
  obtain ⟨ev, hev⟩ := c36_new_ok
  obtain ⟨L, h, hl, -, hn, h5, hdr⟩ := firstFive_ok (fun i => i) (fun i _ _ => le_rfl)
  have hf : firstFive (fun i => i) = .ok (deal h) := by rw [firstFive, hl, Comb.bind_ok, hdr]; rfl
  rw [threads_docs, hev, Comb.bind_ok, List.mapM_cons, hf]
  exact fun h => nomatch h

/-- C50: the routines of the benches do not panic, for whatever hands the dependency deals out, if the
downloaded tables have the entries of the generated ones. -/
theorem c50_benches (s : StaticLookup.Statics) (ev : Evaluator) (hev : Evaluator.new = .ok ev)
    (hf : s.FLUSH_LOOKUP.entries.Perm ev.table.flush_lookup.entries)
    (hu : s.UNSUITED_LOOKUP.entries.Perm ev.table.unsuited_lookup.entries)
    (gen : List (List PCard)) : benches s (gen.map deal) = .ok () := by
  obtain ⟨-, -, hn, hn'⟩ := c32_sizes ev hev
  have hsame : StaticLookup.evaluate s = ev.evaluate := by
    funext cards
    exact c25_same_entries s ev hev (get?_perm hf hn) (get?_perm hu hn') cards
  have hall : ∀ h : List PCard, ∃ r, ev.evaluate (deal h) = .ok r := by
    intro h
    obtain ⟨r, hr⟩ := c04_no_panic h
    exact ⟨r, (run_hand hev h).trans hr⟩
  have hgen : ((gen.map deal).forM fun cards => do
      let _ ← ev.evaluate cards) = .ok () := by
    refine forM_ok _ _ ?_
    intro cards hc
    obtain ⟨h, -, rfl⟩ := List.mem_map.1 hc
    obtain ⟨r, hr⟩ := hall h
    show (ev.evaluate (deal h) >>= fun _ => .ok ()) = _
    rw [hr, Comb.bind_ok]
  obtain ⟨r5, h5⟩ := hall (["Th", "Jh", "Qh", "Kh", "Ah"].map (fun t => cardNamed t.toList))
  obtain ⟨r7, h7⟩ := hall
    (["8h", "9h", "Th", "Jh", "Qh", "Kh", "Ah"].map (fun t => cardNamed t.toList))
  have c5 : try_collect (cardsOfStrings (["Th", "Jh", "Qh", "Kh", "Ah"].map String.toList)) =
      .ok (deal (["Th", "Jh", "Qh", "Kh", "Ah"].map (fun t => cardNamed t.toList))) := by
    decide +kernel
  have c7 : try_collect (cardsOfStrings
      (["8h", "9h", "Th", "Jh", "Qh", "Kh", "Ah"].map String.toList)) =
      .ok (deal (["8h", "9h", "Th", "Jh", "Qh", "Kh", "Ah"].map (fun t => cardNamed t.toList))) := by
    decide +kernel
  have u : ∀ c : List Card, (Game.unwrap (.ok c : Except ParseCardError (List Card)) : Exec _) = .ok c :=
    fun _ => rfl
  rw [benches, hev, Comb.bind_ok, hsame, c5, u, Comb.bind_ok, h5, Comb.bind_ok, Comb.bind_ok, c7, u,
    Comb.bind_ok, h7, Comb.bind_ok, Comb.bind_ok, hgen, Comb.bind_ok]

example : ∃ ev, Evaluator.new = .ok ev ∧ benches ⟨ev.table.flush_lookup, ev.table.unsuited_lookup⟩
    ([fullHouseHand, sevenCards].map deal) = .ok () :=
  have ⟨ev, hev⟩ := c36_new_ok
  ⟨ev, hev, c50_benches _ ev hev (.refl _) (.refl _) _⟩

end Poker
