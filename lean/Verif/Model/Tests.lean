import Verif.Model.Evaluation
import Verif.Model.Deck
import Verif.Model.Error
import Verif.Model.Game
import Verif.Model.Threads

/-! Model of the crate's own unit tests and documentation examples, as programs over the modelled
functions.  A failing assertion is a panic, so a test passes when it returns `.ok ()`.  The two
examples that print a result give back the printed text. -/

namespace Poker
namespace Tests
open Game (unwrap drainFront)

/-- `assert!(b)`. -/
def assert (b : Bool) : Exec Unit := if b then .ok () else .error .assertFailed

/-- `assert_eq!(a, b)` for values whose `==` is equality of values. -/
def assert_eq {α : Type} [DecidableEq α] (a b : α) : Exec Unit := assert (decide (a = b))

/-- `result.unwrap_err()`. -/
def unwrap_err {ε α : Type} : Except ε α → Exec ε
  | .ok _ => .error .unwrapFailed
  | .error e => .ok e

/-- `result.is_err()`. -/
def is_err {ε α : Type} : Except ε α → Bool
  | .ok _ => false
  | .error _ => true

/-- `HashSet::insert`: whether the item is new, and the set with it.  A set is a list of items no two
of which are `==`. -/
def setInsert {α : Type} (eq : α → α → Bool) (set : List α) (a : α) : Bool × List α :=
  if set.any (eq a) then (false, set) else (true, a :: set)

/-- `*map.entry(key).or_insert(0) += 1`, with a map as a list of entries. -/
def countEntry {α : Type} [DecidableEq α] : List (α × Nat) → α → List (α × Nat)
  | [], key => [(key, 1)]
  | (k, n) :: rest, key => if k = key then (k, n + 1) :: rest else (k, n) :: countEntry rest key

/-! ## src/card -/

/-- src/card/mod.rs:388-418, `from_str_fails`. -/
def from_str_fails : Exec Unit := do
  let result := Card.from_str "2x".toList
  assert (is_err result)
  assert_eq (← unwrap_err result) (.InvalidSuit "2x".toList 'x')
  let result := Card.from_str "Rd".toList
  assert (is_err result)
  assert_eq (← unwrap_err result) (.InvalidRank "Rd".toList 'R')
  let result := Card.from_str "AsX".toList
  assert (is_err result)
  assert_eq (← unwrap_err result) (.InvalidLength "AsX".toList)

/-- src/card/mod.rs:420-435, `try_from_works`. -/
def try_from_works : Exec Unit :=
  (Rank.ALL_VARIANTS.map Rank.as_char).zipIdx.forM fun (rank, rank_index) =>
    (Suit.ALL_VARIANTS.map Suit.as_char).zipIdx.forM fun (suit, suit_index) => do
      let card_string := [rank] ++ [suit]
      let result := Card.from_str card_string
      assert_eq result
        (.ok (Card.new (← idx Rank.ALL_VARIANTS rank_index) (← idx Suit.ALL_VARIANTS suit_index)))

/-- src/card/macros.rs:177-191, `box_cards_works`. -/
def box_cards_works : Exec Unit := do
  let cards1 := cardsOfIdents [(.Ace, .Clubs)]
  let cards2 := cardsOfIdents [(.Two, .Clubs)]
  let cards3 := cardsOfIdents [(.Three, .Clubs)]
  let cards := box_cards cards1 [cards2, cards3]
  assert_eq cards [Card.new .Ace .Clubs, Card.new .Two .Clubs, Card.new .Three .Clubs]

/-- src/card/mod.rs:37-46, 85-92, 108-115, 139-145, 167-172, 183-188, 200-208, 219-227 and 254-266,
src/card/rank.rs:63-67, src/card/suit.rs:27-33 and 49-55: the examples in the documentation. -/
def card_docs : Exec Unit := do
  assert_eq (Card.new .Ace .Spades).unique_integer 0b0010000_00000000_0001_1100_00101001#32
  assert_eq (Card.new .Ace .Spades).display "[ A♠ ]".toList
  assert_eq (Card.new .Three .Clubs).display "[ 3♣ ]".toList
  assert_eq (Card.new .Eight .Diamonds) (← unwrap (Card.try_from_chars '8' 'd'))
  assert_eq (Card.new .Queen .Hearts).rank .Queen
  assert_eq (Card.new .King .Diamonds).suit .Diamonds
  assert_eq (Card.new .Ace .Spades).unique_integer 0b0010000_00000000_00011100_00101001#32
  let card_one := Card.new .Seven .Clubs
  let card_one_string := card_one.rank_suit_string
  assert_eq card_one_string "7c".toList
  let card_two ← unwrap (Card.from_str card_one_string)
  assert_eq card_one card_two
  let cards ← unwrap (try_collect (Card.parse_to_iter (split_whitespace "As Ad".toList)))
  assert_eq cards [Card.new .Ace .Spades, Card.new .Ace .Diamonds]
  assert_eq Rank.Ten.as_char 'T'
  assert_eq Suit.Hearts.as_pretty_char '♥'
  assert_eq Suit.Diamonds.as_pretty_char '♦'
  assert_eq Suit.Clubs.as_pretty_char '♣'
  assert_eq Suit.Spades.as_pretty_char '♠'
  assert_eq Suit.Diamonds.as_char 'd'
  assert_eq Suit.Clubs.as_char 'c'
  assert_eq Suit.Spades.as_char 's'
  assert_eq Suit.Hearts.as_char 'h'

/-- src/card/macros.rs:29-33, 60-74, 80-94, 102-118 and 124-136: the examples in the documentation. -/
def macro_docs : Exec Unit := do
  let ace_of_spades ← unwrap (Card.from_str "As".toList)
  assert_eq ace_of_spades (Card.new .Ace .Spades)
  let king_and_queen := cardsOfIdents [(.King, .Hearts), (.Queen, .Hearts)]
  assert_eq king_and_queen [Card.new .King .Hearts, Card.new .Queen .Hearts]
  let king_and_queen ← unwrap (try_collect (cardsOfStrings ["Kh".toList, "Qh".toList]))
  assert_eq king_and_queen [Card.new .King .Hearts, Card.new .Queen .Hearts]
  let king_and_queen ← unwrap (try_collect (cardsOfString "Kh Qh".toList))
  assert_eq king_and_queen [Card.new .King .Hearts, Card.new .Queen .Hearts]

/-! ## src/deck.rs -/

/-- src/deck.rs:57-65, `card_integers_unique`; the example at 13-25 is the same with cards in place of
their integers. -/
def card_integers_unique : Exec Unit := do
  let ints ← Deck.generate.foldlM (fun ints card => do
    let (new, ints) := setInsert (· == ·) ints card.unique_integer
    assert new
    return ints) []
  assert_eq ints.length 52

/-- src/deck.rs:67-80, `card_suit_and_rank_calculations`. -/
def card_suit_and_rank_calculations : Exec Unit := do
  let (suits, ranks) := Deck.generate.foldl (fun (suits, ranks) card =>
    (countEntry suits card.suit, countEntry ranks card.rank)) ([], [])
  assert (suits.all (fun (_, count) => count == 13))
  assert (ranks.all (fun (_, count) => count == 4))

/-- src/deck.rs:82-85, `generate_deck_is_52_cards`. -/
def generate_deck_is_52_cards : Exec Unit := assert_eq Deck.generate.length 52

/-- src/deck.rs:87-91, `generate_shuffled_deck_is_52_cards`, with the random numbers `draw`. -/
def generate_shuffled_deck_is_52_cards (draw : Nat → Nat) : Exec Unit := do
  assert_eq (← Deck.shuffled_with draw).length 52

/-! ## src/error.rs -/

/-- src/error.rs:228-258, `parse_card_error_format`. -/
def parse_card_error_format : Exec Unit := do
  let e ← unwrap_err (Card.from_str "5".toList)
  assert_eq e.display ("Error parsing input '".toList ++ "5".toList
    ++ "' as a Card: Found input of length ".toList ++ natStr 1 ++ ", expected 2".toList)
  let e ← unwrap_err (Card.from_str "ac".toList)
  assert_eq e.display ("Error parsing input '".toList ++ "ac".toList
    ++ "' as a Card: Invalid rank character '".toList ++ ['a']
    ++ "', expected one of [23456789TJQKA]".toList)
  let e ← unwrap_err (Card.from_str "TC".toList)
  assert_eq e.display ("Error parsing input '".toList ++ "TC".toList
    ++ "' as a Card: Invalid suit character '".toList ++ ['C']
    ++ "', expected one of [chsd]".toList)

/-- src/error.rs:260-289, `eval_error_format`; `order` is the iteration order of the map. -/
def eval_error_format (order : List (Card × Nat) → List (Card × Nat)) : Exec Unit := do
  let evaluator ← Evaluator.new
  let cards ← unwrap (try_collect (cardsOfString "5c 5c Tc Jc Qc".toList))
  let e ← unwrap_err (← evaluator.evaluate cards)
  assert_eq (e.display order) ("Cannot evaluate a poker hand with a set of cards that are not unique. \
    Cards duplicated at least once: ".toList ++ "5c".toList)
  let cards := cardsOfIdents [(.Ace, .Spades)]
  let e ← unwrap_err (← evaluator.evaluate cards)
  assert_eq (e.display order) ("Cannot evaluate a poker hand with a set of less than 5 cards. \
    Number of cards received: ".toList ++ natStr 1)

/-- src/error.rs:20-64 and 140-176: the examples in the documentation. -/
def error_docs : Exec Unit := do
  assert_eq (Card.from_str "10c".toList) (.error (.InvalidLength "10c".toList))
  assert_eq (Card.from_str "jc".toList) (.error (.InvalidRank "jc".toList 'j'))
  assert_eq (Card.from_str "2D".toList) (.error (.InvalidSuit "2D".toList 'D'))
  let eval ← Evaluator.new
  let hand := cardsOfIdents
    [(.Ten, .Clubs), (.Jack, .Clubs), (.Queen, .Clubs), (.King, .Clubs), (.King, .Clubs)]
  assert_eq (← eval.evaluate hand) (.error (.CardsNotUnique hand))
  let four_cards := cardsOfIdents
    [(.Two, .Clubs), (.Ten, .Hearts), (.Seven, .Hearts), (.Eight, .Spades)]
  assert_eq (← eval.evaluate four_cards) (.error (.InvalidHandSize 4))

/-! ## src/evaluate/utils.rs, lookup_table.rs, class.rs, eval.rs -/

/-- src/evaluate/utils.rs:173-189, `bit_sequence_generator_works`. -/
def bit_sequence_generator_works : Exec Unit := do
  let _ ← [0b00010101#16, 0b00010110, 0b00011001, 0b00011010, 0b00011100, 0b00100011].foldlM
    (fun xs bin => do
      let (next, xs) ← BitSequence.get_next xs
      assert_eq next bin
      return xs) (BitSequence.new 0b10011)

/-- src/evaluate/utils.rs:191-201, `check_all_unique`. -/
def check_all_unique : Exec Unit :=
  [["Th", "Td", "Th"], ["Th", "Th", "Td"], ["Th", "5c", "3d", "Th"], ["5c", "Th", "3d", "Th"]].forM
    fun strings => do
      let cards ← unwrap (try_collect (cardsOfStrings (strings.map String.toList)))
      assert (!(← all_unique cards))

/-- src/evaluate/utils.rs:203-212, `const_combos_works`. -/
def const_combos_works : Exec Unit := do
  let combos ← forCombos 2 ['c', 'a', 't'] [] (fun combos combo => .ok (combos ++ [combo]))
  let expected_combos := [['c', 'a'], ['c', 't'], ['a', 't']]
  assert_eq combos.length expected_combos.length
  expected_combos.forM fun combo => assert (combos.contains combo)

/-- src/evaluate/lookup_table.rs:362-377, `check_metadata_ordering`; `order` is the iteration order of
the map. -/
def check_metadata_ordering
    (order : List (BitVec 32 × Meta) → List (BitVec 32 × Meta)) : Exec Unit := do
  let table ← LookupTable.new
  (order table.unsuited_lookup.entries).forM fun (_, metadata) =>
    match metadata with
    | .TwoPair _ high_pair low_pair => assert (high_pair.cmp low_pair == .gt)
    | _ => .ok ()

/-- src/evaluate/class.rs:127-137, `eval_class_derived_ord_works`. -/
def eval_class_derived_ord_works : Exec Unit := do
  let class1 := EvalClass.HighCard .Ace
  let class2 := EvalClass.HighCard .King
  assert (class1.cmp class2 == .gt)
  let class3 := EvalClass.Pair .Two
  assert (class3.cmp class1 == .gt)

/-- src/evaluate/eval.rs:135-148, `eval_best` and `eval_worst`. -/
def eval_best_worst : Exec Unit := do
  assert Eval.BEST.is_straight_flush
  assert Eval.BEST.is_royal_flush
  assert_eq Eval.BEST.display "Royal flush".toList
  assert Eval.WORST.is_high_card
  assert_eq Eval.WORST.display "High card, seven".toList

/-- `EVALUATOR.evaluate(cards!(strings...).try_collect().unwrap()).unwrap()` -/
def evaluateStrings (evaluate : List Card → Exec (Except EvalError Eval)) (strings : List Str) :
    Exec Eval := do
  let cards ← unwrap (try_collect (cardsOfStrings strings))
  unwrap (← evaluate cards)

/-- src/evaluate/eval.rs:150-181, `eval_better_worse_tie`. -/
def eval_better_worse_tie : Exec Unit := do
  let evaluator ← Evaluator.new
  let hand ← evaluateStrings evaluator.evaluate (["2h", "2c", "5h", "Qd", "6s"].map String.toList)
  let better ← evaluateStrings evaluator.evaluate (["3h", "3d", "5c", "Qs", "6h"].map String.toList)
  let worse ← evaluateStrings evaluator.evaluate (["Ac", "Kd", "Jd", "7h", "5d"].map String.toList)
  let tie ← evaluateStrings evaluator.evaluate (["2s", "2d", "5s", "Qc", "6d"].map String.toList)
  assert (!hand.is_better_than better)
  assert (hand.is_better_than worse)
  assert (!hand.is_better_than tie)
  assert (hand.is_worse_than better)
  assert (!hand.is_worse_than worse)
  assert (!hand.is_worse_than tie)
  assert (!hand.is_equal_to better)
  assert (!hand.is_equal_to worse)
  assert (hand.is_equal_to tie)

/-! ## src/evaluate/mod.rs and static_lookup.rs -/

/-- src/evaluate/mod.rs:171-185, `test_all_five_card_combos` (and the same at static_lookup.rs:122-136), with the
`evaluate` that is tested. -/
def test_all_five_card_combos (evaluate : List Card → Exec (Except EvalError Eval)) : Exec Unit := do
  let evals ← forCombos 5 Deck.generate [] (fun ints hand => do
    let e ← unwrap (← evaluate hand)
    return (setInsert Eval.eq ints e).2)
  assert_eq evals.length 7462
  ((List.range 7462).map (· + 1)).forM fun i =>
    assert (evals.any (fun e => e.hand_rank == ⟨BitVec.ofNat 16 i⟩))

/-- src/evaluate/mod.rs:205-230 and static_lookup.rs:138-156, `representative_hand_evaluates_correctly`, after the
check of the sizes. -/
def representative (evaluate : List Card → Exec (Except EvalError Eval)) (all_hands : List (List Str)) :
    Exec Unit := do
  let next (i : Nat) (holds : Eval → Bool) : Exec Unit := do
    match all_hands[i]? with
    | none => .error .unwrapFailed
    | some hand => assert (holds (← evaluateStrings evaluate hand))
  next 0 Eval.is_high_card
  next 1 Eval.is_pair
  next 2 Eval.is_two_pair
  next 3 Eval.is_three_of_a_kind
  next 4 Eval.is_straight
  next 5 Eval.is_flush
  next 6 Eval.is_full_house
  next 7 Eval.is_four_of_a_kind
  next 8 Eval.is_straight_flush
  next 9 Eval.is_royal_flush
  assert (all_hands[10]?.isNone)

/-- src/evaluate/mod.rs:202-230, `representative_hand_evaluates_correctly`. -/
def representative_sized (evaluate : List Card → Exec (Except EvalError Eval))
    (all_hands : List (List Str)) (hand_size : Nat) : Exec Unit := do
  assert (all_hands.all (fun hand => hand.length == hand_size))
  representative evaluate all_hands

/-- src/evaluate/mod.rs:261-275, `FiveCardHand`. -/
def FiveCardHand : List (List Str) := [
  ["Ah", "8s", "6d", "4c", "2h"], ["Ac", "Ah", "9s", "8d", "7c"], ["Kd", "Kc", "Qh", "Qs", "Jd"],
  ["Ac", "Ah", "As", "2d", "7c"], ["5h", "6c", "7d", "8s", "9h"], ["Ac", "5c", "Tc", "Jc", "8c"],
  ["As", "Ad", "Ac", "Kh", "Ks"], ["Ac", "Ah", "As", "Ad", "2h"], ["5s", "6s", "7s", "8s", "9s"],
  ["Th", "Jh", "Qh", "Kh", "Ah"]].map (·.map String.toList)

/-- src/evaluate/mod.rs:277-291, `SixCardHand`. -/
def SixCardHand : List (List Str) := [
  ["Ah", "8s", "6d", "4c", "2h", "Jh"], ["Ac", "Ah", "9s", "8d", "7c", "6c"],
  ["Kd", "Kc", "Qh", "Qs", "Jd", "2c"], ["Ac", "Ah", "As", "2d", "7c", "3h"],
  ["5h", "6c", "7d", "8s", "9h", "2d"], ["Ac", "5c", "Tc", "Jc", "8c", "4h"],
  ["As", "Ad", "Ac", "Kh", "Ks", "2d"], ["Ac", "Ah", "As", "Ad", "2h", "3c"],
  ["5s", "6s", "7s", "8s", "9s", "Ts"], ["Th", "Jh", "Qh", "Kh", "Ah", "2c"]].map (·.map String.toList)

/-- src/evaluate/mod.rs:293-308, `SevenCardHand`. -/
def SevenCardHand : List (List Str) := [
  ["Ah", "8s", "6d", "4c", "2h", "Jh", "Ts"], ["Ac", "Ah", "9s", "8d", "7c", "6c", "2h"],
  ["Kd", "Kc", "Qh", "Qs", "Jd", "2c", "3s"], ["Ac", "Ah", "As", "2d", "7c", "3h", "5s"],
  ["5h", "6c", "7d", "8s", "9h", "2d", "Ac"], ["Ac", "5c", "Tc", "Jc", "8c", "4h", "As"],
  ["As", "Ad", "Ac", "Kh", "Ks", "2d", "3c"], ["Ac", "Ah", "As", "Ad", "2h", "3c", "4d"],
  ["5s", "6s", "7s", "8s", "9s", "Ts", "2c"], ["Th", "Jh", "Qh", "Kh", "Ah", "2c", "3s"]].map
    (·.map String.toList)

/-- src/evaluate/mod.rs:171-200, `test_all_five_card_combos` and the three tests of representative hands. -/
def evaluate_tests : Exec Unit := do
  let evaluator ← Evaluator.new
  test_all_five_card_combos evaluator.evaluate
  representative_sized evaluator.evaluate FiveCardHand 5
  representative_sized evaluator.evaluate SixCardHand 6
  representative_sized evaluator.evaluate SevenCardHand 7

/-- src/evaluate/static_lookup.rs:122-193, all its tests, over the downloaded tables `s`. -/
def static_tests (s : StaticLookup.Statics) : Exec Unit := do
  test_all_five_card_combos (StaticLookup.evaluate s)
  representative (StaticLookup.evaluate s) FiveCardHand
  representative (StaticLookup.evaluate s) SixCardHand
  representative (StaticLookup.evaluate s) SevenCardHand
  let evaluator ← Evaluator.new
  assert (StaticLookup.ensure_identical_tables evaluator.table s)

/-- src/evaluate/mod.rs:53-75, 108-145, src/evaluate/eval.rs:13-22 and 34-56, src/evaluate/class.rs:12-25
and src/lib.rs:7-38: the examples in the documentation. -/
def evaluate_docs : Exec Unit := do
  let eval ← Evaluator.new
  let hand := cardsOfIdents
    [(.Four, .Clubs), (.Four, .Spades), (.Jack, .Diamonds), (.Jack, .Clubs), (.Jack, .Hearts)]
  let result ← unwrap (← eval.evaluate hand)
  assert (result.class' == .FullHouse .Jack .Four)
  assert_eq result.display "Full house, jacks over fours".toList
  let royal_flush := cardsOfIdents
    [(.Ten, .Clubs), (.Jack, .Clubs), (.Queen, .Clubs), (.King, .Clubs), (.Ace, .Clubs)]
  assert (← unwrap (← eval.evaluate royal_flush)).is_royal_flush
  let board ← unwrap (try_collect (cardsOfString "3c 5c As Jc Qh".toList))
  let hand ← unwrap (try_collect (cardsOfString "Tc Ac".toList))
  let result ← unwrap (← eval.evaluate (box_cards board [hand]))
  assert (match result.class' with | .Flush .. => true | _ => false)
  let hand ← unwrap (try_collect (cardsOfString "7c 8d 3s Ks 7h".toList))
  let result ← unwrap (← eval.evaluate hand)
  assert_eq result.display "Pair, sevens".toList
  assert result.is_pair
  let better_flush_cards ← unwrap (try_collect (cardsOfString "Jh Th 7h 4h 3h".toList))
  let worse_flush_cards ← unwrap (try_collect (cardsOfString "Jc Tc 7c 4c 2c".toList))
  let better_flush_hand ← unwrap (← eval.evaluate better_flush_cards)
  let worse_flush_hand ← unwrap (← eval.evaluate worse_flush_cards)
  assert (better_flush_hand.class' == .Flush .Jack)
  assert (worse_flush_hand.class' == .Flush .Jack)
  assert (better_flush_hand.is_better_than worse_flush_hand)
  let hand := cardsOfIdents
    [(.Ace, .Clubs), (.Two, .Spades), (.Three, .Diamonds), (.Four, .Diamonds), (.Five, .Clubs)]
  let result ← unwrap (← eval.evaluate hand)
  assert (result.class' == .Straight .Five)
  let royal_flush_cards ← unwrap (try_collect (cardsOfString "Ks Js Ts Qs As".toList))
  let royal_flush_hand ← unwrap (← eval.evaluate royal_flush_cards)
  assert (royal_flush_hand.class' == .StraightFlush .Ace)
  assert royal_flush_hand.is_royal_flush
  let pair_cards ← unwrap (try_collect (cardsOfString "3c 4h Td 3h Kd".toList))
  let pair_hand ← unwrap (← eval.evaluate pair_cards)
  assert (royal_flush_hand.is_better_than pair_hand)

/-! ## Examples that print, and the benches -/

/-- README.md:15-30, `main`; `draw` is what the generator gives. -/
def readme (draw : Nat → Nat) : Exec Str := do
  let eval ← Evaluator.new
  let deck ← Deck.shuffled_with draw
  let (hand, _) ← drainFront 5 deck
  let result ← unwrap (← eval.evaluate hand)
  return result.display

/-- src/lib.rs:60-61, `&deck::shuffled()[..5]`. -/
def firstFive (draw : Nat → Nat) : Exec (List Card) := do
  let deck ← Deck.shuffled_with draw
  return (← drainFront 5 deck).1

/-- src/lib.rs:50-72, `run`: one thread for each of `draws` (there are ten), which take turns by
`schedule`.  A thread's own shuffle touches nothing shared; here all are done before the first turn. -/
def threads_docs (draws : List (Nat → Nat)) (schedule : List Nat) : Exec Str := do
  let shared_evaluator ← Evaluator.new
  let hands ← draws.mapM firstFive
  let max ← joinAll Eval.WORST ((Threads.spawn shared_evaluator hands).run schedule).jobs
  return max.display

/-- benches/evaluation.rs:5-78, each routine once; the results are dropped.  `gen` is what
`combinations` of the dependency `itertools` gives. -/
def benches (s : StaticLookup.Statics) (gen : List (List Card)) : Exec Unit := do
  let eval ← Evaluator.new
  let hand ← unwrap (try_collect (cardsOfStrings (["Th", "Jh", "Qh", "Kh", "Ah"].map String.toList)))
  let _ ← eval.evaluate hand
  let _ ← StaticLookup.evaluate s hand
  let hand ← unwrap (try_collect (cardsOfStrings
    (["8h", "9h", "Th", "Jh", "Qh", "Kh", "Ah"].map String.toList)))
  let _ ← eval.evaluate hand
  let _ ← StaticLookup.evaluate s hand
  gen.forM fun cards => do
    let _ ← eval.evaluate cards
  gen.forM fun cards => do
    let _ ← StaticLookup.evaluate s cards

end Tests
end Poker
