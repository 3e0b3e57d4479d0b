{"id": "C01", "title": "Five-card hands get the class the rules of poker give them", "statement": "For every five distinct cards, Evaluator::new().evaluate returns Ok(e) and e.class() is the class (variant and rank fields) that the rules of poker assign to the hand: straight flush, quads, full house, flush, straight, trips, two pair (higher pair first), pair or high card, with the wheel A-2-3-4-5 counting as five-high.", "quantifier": "all ordered five-card hands of distinct cards (311,875,200 of them)", "why_tests_cant": "Unit tests check representative hands, or that the number of distinct results is 7462; neither fixes which hand gets which class.", "anchors": ["src/evaluate/evaluation.rs: evaluate, five, six_plus", "src/evaluate/lookup_table.rs: LookupTable::new", "src/evaluate/meta.rs: Meta::class", "src/evaluate/class.rs: EvalClass"]}
{"id": "C02", "title": "Comparing two five-card results is comparing the hands by the rules of poker", "statement": "For any two five-card hands of distinct cards, the result of the first is greater than / equal to / less than the result of the second exactly when the first hand beats / ties with / loses to the second under the rules of poker, kickers included.", "quantifier": "all pairs of five-card hands", "why_tests_cant": "There are about 6.7e12 unordered pairs of hands; tests compare a handful.", "anchors": ["src/evaluate/evaluation.rs: evaluate, five, six_plus", "src/evaluate/meta.rs: Ord for Meta", "src/evaluate/eval.rs: is_better_than, is_worse_than, is_equal_to"]}
{"id": "C03", "title": "Six or more cards are evaluated as their best five-card hand", "statement": "For every list of at least five distinct cards, evaluate returns the result of some five of those cards, and no other five of those cards give a better result (neither by the library's order nor by the rules of poker).", "quantifier": "all card lists of length 5 and more, with all their five-card sub-hands", "why_tests_cant": "The number of inputs is astronomical from seven cards on (up to 52 cards are accepted); tests cover thirty of them.", "anchors": ["src/evaluate/evaluation.rs: evaluate, five, six_plus", "src/evaluate/utils.rs: Combinations, const_combos"]}
{"id": "C04", "title": "evaluate never panics and its outcome is decided by uniqueness and length", "statement": "On an evaluator made by Evaluator::new, evaluate terminates without panicking (no missing table key, index error, arithmetic overflow or oversized shift) for every slice of cards. It returns CardsNotUnique iff some card occurs twice (even when there are fewer than five cards), InvalidHandSize(n) iff the cards are distinct and n < 5, and Ok otherwise.", "quantifier": "all finite card slices of any length, with or without repeated cards", "why_tests_cant": "Absence of a panic over an unbounded set of inputs cannot be sampled; every prime product that can occur must have a table entry.", "anchors": ["src/evaluate/evaluation.rs: evaluate, five, six_plus", "src/evaluate/utils.rs: all_unique, card_to_index", "src/error.rs: EvalError"]}
{"id": "C05", "title": "The order of the cards does not matter", "statement": "If two card slices are permutations of each other, evaluate returns the same Ok result for both (same rank, same class, same text), or fails on both with the same kind of error.", "quantifier": "all card slices and all their permutations", "why_tests_cant": "n! orders for each of the exponentially many slices.", "anchors": ["src/evaluate/evaluation.rs: evaluate, five, six_plus", "src/evaluate/utils.rs: prime_product_from_hand, Combinations"]}
{"id": "C06", "title": "Suits are interchangeable", "statement": "Renaming the suits of all the cards by any injective map of the four suits leaves the result of evaluate unchanged.", "quantifier": "all card slices and all suit permutations", "why_tests_cant": "A relation between exponentially many pairs of inputs.", "anchors": ["src/evaluate/evaluation.rs: evaluate, five, six_plus", "src/card/suit.rs: Suit::as_i32"]}
{"id": "C07", "title": "Adding cards never makes a hand worse", "statement": "If evaluate succeeds on a list of cards, and distinct further cards are added anywhere, evaluate succeeds on the larger list and its result is at least as good. In particular a player's result is never below that of the board.", "quantifier": "all pairs of card lists, the first a sub-collection of the second", "why_tests_cant": "A relation between unboundedly many pairs of inputs.", "anchors": ["src/evaluate/evaluation.rs: evaluate, five, six_plus"]}
{"id": "C08", "title": "Results lie between Eval::WORST and Eval::BEST and both are attained", "statement": "Every Ok result r satisfies Eval::WORST <= r <= Eval::BEST, its rank number is between 1 and 7462, every number 1..7462 is the rank of some five-card hand, and the constants are the results (with the same class) of the worst hand 7-5-4-3-2 and of a royal flush. With six or more cards the result is always strictly better than Eval::WORST.", "quantifier": "all card slices of length at least 5; all rank numbers 1..7462", "why_tests_cant": "The bounds quantify over every evaluable slice of any length.", "anchors": ["src/evaluate/eval.rs: Eval::BEST, Eval::WORST", "src/evaluate/meta.rs: Meta::BEST, Meta::WORST", "src/evaluate/lookup_table.rs: LookupTable::new"]}
{"id": "C09", "title": "Exactly one category predicate holds and it agrees with class()", "statement": "For every Eval value, exactly one of is_high_card, is_pair, is_two_pair, is_three_of_a_kind, is_straight, is_flush, is_full_house, is_four_of_a_kind, is_straight_flush is true, and it is the one of the variant of class().", "quantifier": "all values of Eval", "why_tests_cant": "Tests look at ten results per hand size.", "anchors": ["src/evaluate/meta.rs: is_high_card .. is_straight_flush", "src/evaluate/eval.rs"]}
{"id": "C10", "title": "is_royal_flush means royal flush", "statement": "For every Ok result r: r.is_royal_flush() iff r.class() is StraightFlush with high rank Ace iff r == Eval::BEST iff the cards contain Ten, Jack, Queen, King and Ace of one suit.", "quantifier": "all card slices of length at least 5", "why_tests_cant": "Needs every other slice to be excluded.", "anchors": ["src/evaluate/meta.rs: is_royal_flush", "src/evaluate/hand_rank.rs: PokerHandRank::BEST"]}
{"id": "C11", "title": "Eval's ordering, equality and hash obey the Rust contracts", "statement": "On Eval, cmp is a total order up to ==: reflexive, antisymmetric with respect to ==, transitive, total; partial_cmp is Some(cmp); a == b iff cmp is Equal; a == b implies equal hash input; is_better_than, is_worse_than and is_equal_to agree with >, < and ==; exactly one of the three holds.", "quantifier": "all values, pairs and triples of values of Eval", "why_tests_cant": "Contracts over all triples of values; the hand-written impls could break them on one pair.", "anchors": ["src/evaluate/meta.rs: PartialEq, PartialOrd, Ord, Hash", "src/evaluate/hand_rank.rs"]}
{"id": "C12", "title": "Equal results are interchangeable", "statement": "Although == on Eval only compares rank numbers, any two results of evaluate (or the constants BEST and WORST) that are equal have the same class and print the same text.", "quantifier": "all pairs of evaluable card slices", "why_tests_cant": "Quantifies over all pairs of inputs.", "anchors": ["src/evaluate/meta.rs: PartialEq for Meta, Display for Meta", "src/evaluate/lookup_table.rs: LookupTable::new"]}
{"id": "C13", "title": "The order of EvalClass never contradicts the order of Eval", "statement": "For any two results, if the first is a worse or equal hand then its class is less than or equal to the other's in the derived order of EvalClass; hence a strictly greater class means a strictly better hand. Exactly: the order of two classes is that of the category and then of the ranks the name of the hand tells (both ranks of a full house or two pair, the highest deciding rank otherwise).", "quantifier": "all pairs of evaluable card slices", "why_tests_cant": "Depends on derived variant and field order against all 7462x7462 pairs of results.", "anchors": ["src/evaluate/class.rs: EvalClass (derived Ord)", "examples/jacks-or-better.rs: main"]}
{"id": "C14", "title": "Card encoding is faithful", "statement": "Card::new(r, s) never panics; rank() and suit() return r and s; unique_integer() has exactly the documented bit layout (one rank bit at 16+rank, one suit bit at 12..15, the rank number at 8..11, the rank's prime at 0..5, all else zero); different rank/suit pairs give different cards.", "quantifier": "all ranks and suits (every constructible card)", "why_tests_cant": "Holds of every value a card can take; tests check one integer.", "anchors": ["src/card/mod.rs: Card::new, rank, suit, unique_integer", "src/card/rank.rs: as_i32, from_i32", "src/card/suit.rs: as_i32, from_i32"]}
{"id": "C15", "title": "Parsing and printing cards are inverse", "statement": "Parsing rank_suit_string() of a card gives the card back; and if any string parses to a card, the string is that card's rank_suit_string(). So exactly 52 strings parse.", "quantifier": "all cards; all Unicode strings", "why_tests_cant": "The set of strings is infinite.", "anchors": ["src/card/mod.rs: FromStr for Card, rank_suit_string", "src/card/rank.rs: TryFrom<char>, as_char", "src/card/suit.rs: TryFrom<char>, as_char"]}
{"id": "C16", "title": "Parse errors say what is wrong", "statement": "Parsing a string fails with InvalidLength iff it does not have exactly two characters; else with InvalidRank carrying the first character iff that is not one of 23456789TJQKA; else with InvalidSuit carrying the second character iff that is not one of chsd. Every error carries the input unchanged.", "quantifier": "all Unicode strings", "why_tests_cant": "The set of strings is infinite.", "anchors": ["src/card/mod.rs: FromStr for Card", "src/error.rs: ParseCardError"]}
{"id": "C17", "title": "try_from_chars agrees with parsing the two-character string", "statement": "For any two characters a, b: Card::try_from_chars(a, b) is Ok(c) iff parsing the string ab is Ok(c); both fail with the same variant and offending character, and the error of try_from_chars carries only the offending character as input.", "quantifier": "all pairs of Unicode characters", "why_tests_cant": "About 1.2e12 pairs.", "anchors": ["src/card/mod.rs: Card::try_from_chars"]}
{"id": "C18", "title": "Collecting parsed cards returns all cards in order or the first error", "statement": "parse_to_iter yields one item per string, in order, without stopping at errors; try_collect returns Ok with all the cards in order iff every string parses, and otherwise the error of the first string that does not parse.", "quantifier": "all finite lists of strings", "why_tests_cant": "Unbounded lists.", "anchors": ["src/card/mod.rs: Card::parse_to_iter, ParseToIter, try_collect"]}
{"id": "C19", "title": "cards! on one string ignores the layout of whitespace", "statement": "For any list of cards, writing their two-character names separated by any non-empty runs of whitespace, with any leading and trailing whitespace, and parsing the string with cards!(s).try_collect() gives the list back; an all-whitespace string gives the empty list; the result is determined by the maximal runs of non-whitespace characters.", "quantifier": "all lists of cards, all strings, all whitespace separators", "why_tests_cant": "Unbounded strings.", "anchors": ["src/card/macros.rs: cards!", "src/card/mod.rs: Card::parse_to_iter"]}
{"id": "C20", "title": "Cards are ordered by rank", "statement": "cmp on cards compares ranks in the order 2<3<...<K<A and is a total preorder, partial_cmp is Some(cmp). The Rust contract that cmp is Equal iff == is NOT met: two cards of one rank and different suits compare Equal but are not ==.", "quantifier": "all pairs and triples of cards", "why_tests_cant": "A contract over all pairs; no test compares cards.", "anchors": ["src/card/mod.rs: PartialOrd for Card, Ord for Card", "src/card/rank.rs: Rank (derived Ord)"]}
{"id": "C21", "title": "The generated deck is every card exactly once", "statement": "deck::generate yields 52 cards, no card twice, and every card that can be constructed is in it.", "quantifier": "all constructible cards", "why_tests_cant": "Completeness ranges over every card value.", "anchors": ["src/deck.rs: generate"]}
{"id": "C22", "title": "Shuffling gives a permutation of the deck, and every permutation is possible", "statement": "For every behaviour of the random number generator, shuffled_with returns a permutation of the 52 cards; every order of the deck is returned for exactly one sequence of in-range index draws (so uniform independent draws give a uniform shuffle).", "quantifier": "all random number generators (sequences of draws); all 52! orders", "why_tests_cant": "The randomness and 52! orders cannot be enumerated.", "anchors": ["src/deck.rs: shuffled, shuffled_with"]}
{"id": "C23", "title": "Every five-card combination is examined exactly once and the search ends", "statement": "The combination iterator over a slice of n items, for any combination size N with 1 <= N <= n, yields exactly the N-element sub-sequences of the slice by position, each once, in lexicographic order of positions, then ends, and stays ended; it never panics.", "quantifier": "all slices, all combination sizes", "why_tests_cant": "The loop is checked on one three-element slice by the tests.", "anchors": ["src/evaluate/utils.rs: Combinations::new, Combinations::next, const_combos"]}
{"id": "C24", "title": "A shared evaluator gives the same answers under every thread schedule", "statement": "When any number of threads each run an evaluation against one shared evaluator, then under every interleaving of their steps each call that finishes returns what it would return alone, and folding the results with max gives the same winner in whatever order the threads are joined.", "quantifier": "all numbers of threads, all inputs, all interleavings, all join orders", "why_tests_cant": "Schedules cannot be enumerated.", "anchors": ["src/lib.rs: crate documentation", "src/evaluate/mod.rs: Evaluator::evaluate", "src/evaluate/evaluation.rs: six_plus"]}
{"id": "C25", "title": "The static lookup evaluates like the dynamic one", "statement": "If the downloaded static tables map every key to the same entry as the generated ones, static_lookup::evaluate returns the same value as Evaluator::evaluate on every slice. If they only pass the repository's ensure_identical_tables test, the results are == but their class may differ.", "quantifier": "all card slices, all static tables", "why_tests_cant": "Ranges over all slices and over all possible contents of a downloaded file.", "anchors": ["src/evaluate/static_lookup.rs: evaluate, ensure_identical_tables", "src/evaluate/evaluation.rs: Evaluation", "build.rs"]}
{"id": "C26", "title": "Evaluator::default() panics where Evaluator::new() evaluates", "statement": "One would expect an evaluator made with Evaluator::default() to evaluate hands like one made with Evaluator::new(). This is FALSE of the code, and the truth is: the derived Default has empty tables, so default() agrees with new() on exactly the slices that are an error, and panics on every slice of five or more distinct cards.", "quantifier": "all card slices", "why_tests_cant": "No test uses Default; the claim ranges over all inputs.", "anchors": ["src/evaluate/mod.rs: Evaluator (derive Default)", "src/evaluate/lookup_table.rs: LookupTable (derive Default)"]}
{"id": "C27", "title": "Error texts are accurate", "statement": "The text of an InvalidLength error states the number of characters in the input (FALSE for non-ASCII input: the code prints the number of bytes; true for ASCII). The text of CardsNotUnique lists exactly the cards that occur more than once, each once, in some order. The text of InvalidHandSize states the number of cards.", "quantifier": "all strings; all card lists; all hash iteration orders", "why_tests_cant": "Infinite inputs and an unspecified hash map iteration order.", "anchors": ["src/error.rs: Display for ParseCardError, Display for EvalError"]}
{"id": "C28", "title": "Different classes print different texts", "statement": "The Display text of EvalClass determines the class: two results print the same text iff they have the same class; Royal flush is printed exactly for the ace-high straight flush. The text itself is exactly the documented one: the name of the category with the names of its ranks, in the plural where the hand holds several.", "quantifier": "all pairs of EvalClass values", "why_tests_cant": "All pairs; tests check four texts.", "anchors": ["src/evaluate/class.rs: Display for EvalClass", "src/card/rank.rs: as_str_name, as_str_name_plural"]}
{"id": "C29", "title": "Ties are exactly hands with the same ranks and the same flushness", "statement": "Two five-card hands of distinct cards evaluate to equal results iff their ranks are the same up to order and both or neither are of a single suit. So no two different hands collide in the prime-product tables.", "quantifier": "all pairs of five-card hands", "why_tests_cant": "Collision-freedom of 32-bit wrapping products over all pairs.", "anchors": ["src/evaluate/utils.rs: prime_product_from_hand, prime_product_from_rank_bits", "src/constants.rs: PRIMES", "src/evaluate/lookup_table.rs: LookupTable::new"]}
{"id": "C30", "title": "Joining hand and board", "statement": "box_cards! of two or more slices is their concatenation in order; evaluating hand and board in either order gives the same result, CardsNotUnique is returned iff the slices overlap or repeat a card.", "quantifier": "all finite lists of card slices", "why_tests_cant": "Unbounded lists.", "anchors": ["src/card/macros.rs: box_cards!", "src/evaluate/mod.rs: Evaluator::evaluate"]}
{"id": "C31", "title": "Categories of hands of any size", "statement": "For every list of five or more distinct cards the category of the result can be read off the cards: straight flush iff five cards of one suit are consecutive (or a wheel); otherwise quads iff some rank occurs four times; otherwise full house iff one rank occurs three times and another at least twice; otherwise flush iff five cards share a suit; otherwise straight iff five consecutive ranks (or a wheel) occur; otherwise trips, two pair, pair, high card by multiplicities.", "quantifier": "all lists of five or more distinct cards", "why_tests_cant": "Exponentially many inputs of each size up to 52.", "anchors": ["src/evaluate/evaluation.rs: evaluate, five, six_plus"]}
{"id": "C32", "title": "Evaluators are deterministic and equal", "statement": "Any two evaluators made by Evaluator::new are == and give identical results on every slice; so does a clone. The tables have 1287 and 6175 entries.", "quantifier": "all card slices", "why_tests_cant": "Ranges over all inputs; equality is defined through a custom == that ignores class data.", "anchors": ["src/evaluate/mod.rs: Evaluator::new, derive Clone PartialEq", "src/evaluate/lookup_table.rs: LookupTable::new"]}
{"id": "C33", "title": "Jacks-or-better payouts", "statement": "The payout is zero exactly for high-card hands and pairs below jacks; for a fixed wager it never decreases when the hand gets better; it is proportional to the wager except for the royal flush at the maximum wager (4000). The README chart (straight flush 250x, royal 4000x) is NOT what the code pays (50x and 250x).", "quantifier": "all wagers and all classes / hands", "why_tests_cant": "Unbounded wagers.", "anchors": ["examples/jacks-or-better.rs: payout", "README.md"]}
{"id": "C34", "title": "The jacks-or-better game never loses cards or credits", "statement": "In every history of the game, for all inputs and shuffles: hand plus deck is always a permutation of the 52 cards, the hand evaluated always has five distinct cards so no unwrap fails, the wager accepted is between 1 and min(5, credits) so credits never underflow, and the game ends by itself exactly when credits reach zero. Line after line the credits, cards and printed texts are those of the rules: the wager is taken on a bet, comes back with the prize on a winning hand, and a refused line changes nothing.", "quantifier": "all input histories, all shuffles, any number of rounds", "why_tests_cant": "Unbounded histories.", "anchors": ["examples/jacks-or-better.rs: main, swap_cards, get_wager, get_swaps"]}
{"id": "C35", "title": "Rank and suit characters", "statement": "Rank::try_from and Suit::try_from succeed exactly on the thirteen and four documented characters, are inverse to as_char, are case sensitive, and return the offending character otherwise; Display of a card shows its rank character and suit symbol and determines the card.", "quantifier": "all Unicode characters; all ranks, suits and cards", "why_tests_cant": "Over a million characters.", "anchors": ["src/card/rank.rs: TryFrom<char>, as_char, Display", "src/card/suit.rs: TryFrom<char>, as_char, as_pretty_char, Display", "src/card/mod.rs: Display for Card"]}
{"id": "C36", "title": "Building the evaluator cannot fail", "statement": "Evaluator::new terminates without panic: no index, shift or arithmetic step in the table construction fails, the bit-permutation generator stays inside thirteen bits, and no table insertion overwrites another.", "quantifier": "all steps of the construction (1286 generator steps, 7462+ insertions)", "why_tests_cant": "Overwrites and overflow inside the construction are not observable by the unit tests except through the totals.", "anchors": ["src/evaluate/lookup_table.rs: LookupTable::new", "src/evaluate/utils.rs: BitSequence::get_next, high_rank_from_rank_bits"]}
{"id": "C37", "title": "The bit-permutation generator returns the next number with the same number of ones", "statement": "For every starting value whose successor fits, each call of the generator returns the least larger integer with the same number of one bits.", "quantifier": "all start values in i16 whose result does not overflow", "why_tests_cant": "Tests check six steps from one start value.", "anchors": ["src/evaluate/utils.rs: BitSequence"]}
{"id": "C38", "title": "Picking a winner", "statement": "For any list of players' card lists that evaluate, the players whose result is maximal are exactly those whose best five-card hand is not beaten by any other player's best hand under the rules of poker; folding cmp::max from Eval::WORST over the results gives that result.", "quantifier": "all numbers of players and all hands", "why_tests_cant": "Unbounded number of players.", "anchors": ["src/lib.rs: crate documentation", "src/evaluate/eval.rs: Eval (Ord)"]}
{"id": "C39", "title": "The poker REPL answers every line", "statement": "For every input line, the REPL either quits (line is quit), prints help (line is help), prints a parse error for the first bad word, prints an evaluation error, or prints the name of the best hand; it never panics. The help text gives exactly the rank and suit characters that are read, and the line in its example is answered with Royal flush; the welcome text names the two words that print the help and quit, and CTRL+C (a read error) quits.", "quantifier": "all input lines and input histories", "why_tests_cant": "Infinite inputs.", "anchors": ["examples/poker-repl.rs: main"]}
{"id": "C40", "title": "The prompts of the game accept exactly the valid inputs", "statement": "The wager prompt accepts a line iff it reads as a decimal number (optionally with a plus sign) from 1 to min(5, credits); the swap prompt accepts a line other than quit iff its words read as pairwise different numbers from 1 to 5, and returns them less one; both leave the game exactly on the line quit or a read error; the swap prompt never panics. The welcome text names this word and CTRL+C.", "quantifier": "all lines (all Unicode strings), all numbers of credits", "why_tests_cant": "Infinitely many lines.", "anchors": ["examples/jacks-or-better.rs: get_wager", "examples/jacks-or-better.rs: get_swaps"]}
{"id": "C41", "title": "Swapping replaces exactly the chosen cards", "statement": "For every hand, deck, set of chosen positions and shuffle, swapping does not panic, leaves the other cards in their places, keeps hand plus deck the same cards, and deals the new cards from the deck together with the discarded cards. In particular a discarded card may be dealt back (unlike in the casino game).", "quantifier": "all hands, decks, choices and shuffles", "why_tests_cant": "47! shuffles.", "anchors": ["examples/jacks-or-better.rs: swap_cards"]}
{"id": "C42", "title": "The worth of a hand of any size can be read off its cards", "statement": "For five or more distinct cards, in any number and order, the class, the text and every comparison of the result are those of a worth read off the cards without choosing five of them: four of a kind takes the highest rank held four times and the highest other rank, a full house the highest rank held three times and the highest other rank held at least twice, a flush the five highest ranks of the best suit held at least five times, a straight its highest top, and so on with all kickers.", "quantifier": "all lists of at least five distinct cards (any size up to 52), all pairs of them", "why_tests_cant": "Hands of 5 to 52 cards cannot be enumerated; tests try a few seven-card hands.", "anchors": ["src/evaluate/evaluation.rs: evaluate, five, six_plus", "src/evaluate/meta.rs: Ord for Meta, Meta::class", "src/evaluate/class.rs: Display for EvalClass"]}
{"id": "C43", "title": "What the jacks-or-better game says is true", "statement": "A hand is shown as its five cards and the description of its class; a refused wager or choice of cards is refused for exactly the reason printed (with the duplicates listed each once, in some order); after a swap 'better' is printed only if the new hand beats the old one, 'worse' only if it loses to it, and nothing exactly if both have the same class (so a better kicker is not mentioned).", "quantifier": "all lines, credits, pairs of five-card hands and hash iteration orders", "why_tests_cant": "Infinitely many lines; 2598960^2 pairs of hands; unspecified hash order.", "anchors": ["examples/jacks-or-better.rs: main, get_wager, get_swaps"]}
{"id": "C44", "title": "parse_to_iter is lazy and try_collect stops at the first bad card", "statement": "On any iterator over strings, finite or endless, each pull of parse_to_iter's iterator pulls the given one exactly once and yields the parsed string; size_hint stays correct; fold visits the parsed strings in order; try_collect returns the cards if all parse, and otherwise returns the error of the first bad string having pulled nothing beyond it, so it returns even on an endless iterator that contains a bad string. Pulled from both ends in any order, the iterator over a two-ended source yields the parsed strings of the respective end, and its len is the number left.", "quantifier": "all iterators (arbitrary state machines, finite or endless, fused or not), all states", "why_tests_cant": "Endless and stateful iterators; tests only use short slices.", "anchors": ["src/card/mod.rs: parse_to_iter, ParseToIter, try_collect"]}
{"id": "C45", "title": "Frequencies of the categories over all five-card hands", "statement": "Of the 2,598,960 sets of five cards, evaluate gives a high card for exactly 1,302,540, a pair for 1,098,240, two pairs for 123,552, three of a kind for 54,912, a straight for 10,200, a flush for 5,108, a full house for 3,744, four of a kind for 624, a straight flush for 40, of which 4 are royal; the order in which the cards of a set are passed does not matter. In the jacks-or-better example 2,062,860 of these hands pay nothing when kept, and per credit 337,920 pay 1, 123,552 pay 2, 54,912 pay 3, 10,200 pay 4, 5,108 pay 6, 3,744 pay 9, 624 pay 25, 36 pay 50 and 4 pay 250.", "quantifier": "for all sets of five cards of the 52-card pack, in every order", "why_tests_cant": "A test would have to evaluate 2.6 million sets in all 120 orders.", "anchors": ["src/evaluate/evaluation.rs: evaluate, five", "src/evaluate/meta.rs: Meta::class", "examples/jacks-or-better.rs: payout"]}
{"id": "C46", "title": "Shuffles and dealt hands are unbiased", "statement": "If the random number generator's 51 choices of a shuffle are equally likely, then so are all 52! orders of the deck (each comes from exactly one sequence of choices, whatever the order before), any two sets of the same number of cards are equally likely to be on top, and the first five cards evaluate to a result with any given property in the proportion handsWith/2598960 that C45 counts: e.g. one deal in 649740 is a royal flush. The same holds for the first hand of every round of the jacks-or-better game, and for the whole program from its start.", "quantifier": "for all orders of the deck before the shuffle, all sets of cards, all properties of results, all wager lines", "why_tests_cant": "52! sequences of choices; statistical tests only see gross bias.", "anchors": ["src/deck.rs: shuffled, shuffled_with", "examples/jacks-or-better.rs: main"]}
{"id": "C47", "title": "Every build gives the same results", "statement": "Card::new, Evaluator::new and Evaluator::evaluate return the same values in debug and in release builds (with and without overflow checks and debug assertions) and for every width of usize from 16 bits up: no operation of theirs relies on a check, wraps, shifts too far or truncates an index. The operations on machine integers that the model of the builds uses are those of Rust: the exact result if it fits, else a panic with checks and the wrapped result without; a shift too far panics with checks and takes the amount modulo the width without. Evaluation of any slice of Card by any evaluator, whatever its tables, is the same in every build, panics included. On 64-bit targets the jacks-or-better game prints the same output in both builds for any input short enough that credits cannot overflow; if they do, the checked build panics and the unchecked one silently goes on with the credits less 2^64.", "quantifier": "for all builds, ranks, suits, hands of any length, evaluators, sessions", "why_tests_cant": "cargo test runs one profile on one target; a difference shows only on the inputs that overflow.", "anchors": ["src/card/mod.rs: new", "src/evaluate/lookup_table.rs: new", "src/evaluate/utils.rs", "src/evaluate/evaluation.rs: five, six_plus", "examples/jacks-or-better.rs"]}
{"id": "C48", "title": "Debug texts tell values apart", "statement": "format!(\"{:?}\") and format!(\"{:#?}\") of a Card give its unique integer in decimal, its rank and its suit, on one line or spread over lines; of an Eval the variant, the hand rank and the ranks it is made of; of an EvalClass the variant and the ranks. The texts of evaluation errors quote the cards or the size, those of parsing errors the quoted and escaped input and character. In either form different cards, different evaluations (including every value the library can return), different classes, different parsing errors (for inputs with any characters, quotes and new lines included) and different evaluation errors have different texts; for evaluations with equal texts, == holds as well. Evaluators with equal texts hold the same entries, in whatever order their maps print them, so they answer and panic alike; Evaluator::new() prints, on one line or spread over lines, 1287 and 6175 entries, one of them for every hand of five cards, and never the same text as Evaluator::default().", "quantifier": "for all cards, evaluations, classes, error values, strings, characters, and whichever characters Unicode says are to be written by code", "why_tests_cant": "assertion messages rely on Debug texts, but no test compares them; ambiguity could show only for inputs with quotes or separators.", "anchors": ["src/card/mod.rs: Debug for Card", "src/evaluate/meta.rs: derive(Debug)", "src/evaluate/class.rs: derive(Debug)", "src/evaluate/eval.rs: derive(Debug)", "src/error.rs: derive(Debug)", "src/evaluate/evaluation.rs, lookup_table.rs: derive(Debug)"]}
{"id": "C49", "title": "Frequencies of the categories over all six- and seven-card hands", "statement": "Of the 20,358,520 sets of six cards, evaluate gives a high card for exactly 6,612,900, a pair for 9,730,740, two pairs for 2,532,816, three of a kind for 732,160, a straight for 361,620, a flush for 205,792, a full house for 165,984, four of a kind for 14,664 and a straight flush for 1,844, of which 188 are royal. Of the 133,784,560 sets of seven cards: 23,294,460; 58,627,800; 31,433,400; 6,461,620; 6,180,020; 4,047,644; 3,473,184; 224,848; 41,584, of which 4,324 are royal. With equally likely choices of the random number generator the first seven cards of a shuffled deck have these odds.", "quantifier": "for all sets of six and of seven cards of the 52-card pack, in every order; for the odds, all orders of the deck before the shuffle and all properties of results", "why_tests_cant": "A test would have to evaluate 134 million sets, each in 5040 orders.", "anchors": ["src/evaluate/evaluation.rs: evaluate, six_plus", "src/evaluate/meta.rs: Meta::class", "src/deck.rs: shuffled"]}
{"id": "C50", "title": "The crate's own tests and documentation examples pass", "statement": "Every unit test of src/ and every documentation example with an assertion, modelled as a program that panics where an assertion or an unwrap fails, ends without a panic: for every sequence of random numbers of the shuffle, every iteration order of the hash maps, and, for the tests of the static tables, every map whose entries are those of LookupTable::new. In particular the loop over all five-card hands counts each category as often as the test expects. The two examples that print (the README's program and the one with threads in src/lib.rs) print the description of the hand dealt, respectively of a hand among those dealt that no other beats, whatever the shuffles and the schedule, and the routines of the benches do not panic. The assertions in the model of the tests mean what they say: they return only if the asserted condition holds.", "quantifier": "for all random number choices, all hash iteration orders, all static tables with the right entries, all schedules that give each thread enough turns", "why_tests_cant": "A run of the tests sees one seed, one iteration order and one build; that no assertion can fail in any run is not observable from passing runs.", "anchors": ["src/card/mod.rs: tests, doc examples", "src/card/macros.rs: doc examples", "src/deck.rs: tests", "src/error.rs: tests, doc examples", "src/evaluate/*.rs: tests, doc examples", "src/lib.rs: doc examples", "README.md: example", "benches/evaluation.rs"]}
{"id": "C51", "title": "Odds of the second hand, and the average gain of a simple way to play", "statement": "When the game changes the k cards at the chosen positions, each set of k cards from all but the kept ones is equally likely to come in, the discarded ones included. So changing all five cards is a fresh deal, and whoever keeps a pair gets four of a kind in 48, a full house in 192, three of a kind in 2112, two pairs in 3168 and only the pair in 14080 of 19600 cases. Whoever stands on every paying hand, keeps low pairs and otherwise changes all five cards has, averaged over all choices in the two shuffles of a round, exactly c - w + w * 623208741/551845840 credits after a round with c credits and wager w (and 3506250/551845840 more for the wager 5): more than c + 0.129 w. Whoever never changes a card gets back 1409404/2598960 of the wager.", "quantifier": "for all hands and decks, all discarded positions, all result predicates, all credits that do not overflow, all wagers, all lines that make the wager and name the positions, all iteration orders", "why_tests_cant": "The averages are over (52!)^2 choices of the generator.", "anchors": ["examples/jacks-or-better.rs: swap_cards, payout, main loop", "src/deck.rs: shuffle"]}
{"id": "C52", "title": "What the examples put on the screen", "statement": "The screen of a whole game is, for every history of inputs, the terminal being cleared, then the welcome and the printed texts of the game in order, each in the style that its words call for (questions and good news bold green, bad news bold red, hands and complaints plain), and cleared again exactly where a newly dealt hand is shown. In the REPL the welcome and the help are bold green, complaints plain, and the style of a result tells its category, except that pairs and two pairs look the same.", "quantifier": "for all histories of inputs of any length, all random number choices, all hash iteration orders", "why_tests_cant": "No test looks at the examples' output, and the histories are unbounded.", "anchors": ["examples/jacks-or-better.rs: main", "examples/poker-repl.rs: main", "examples/common/mod.rs: clear_terminal!, editor"]}
{"id": "C53", "title": "How many cards each category can come from", "statement": "A result of evaluate for n different cards can be a high card exactly for 5 <= n <= 11, a pair for n up to 12, two pair up to 16, three of a kind up to 13, a straight up to 16, a flush up to 26, a full house up to 39, four of a kind up to 44, a straight flush up to 52. So from 12, 13, 17, 27, 40 and 45 cards on evaluate gives at least a pair, two pair, a flush, a full house, four of a kind and a straight flush. From 49 cards on is_royal_flush is true, with 48 it can still be false.", "quantifier": "for all numbers of cards, all categories and all hands of any size", "why_tests_cant": "The bounds are about all sets of up to 52 cards; no test evaluates more than seven cards.", "anchors": ["src/evaluate/mod.rs: Evaluator::evaluate", "src/evaluate/evaluation.rs: six_plus", "src/evaluate/meta.rs: is_straight_flush, is_royal_flush", "src/evaluate/class.rs: EvalClass"]}
{"id": "C54", "title": "The build script fetches the tables or says why not", "statement": "build.rs without the feature static_lookup, or with DOCS_RS=1, succeeds and touches nothing. Otherwise it sends at most one request, to the pinned address, and touches no file but codegen.rs in OUT_DIR, which is the file that static_lookup includes. It succeeds exactly if OUT_DIR is set, the file can be created, the server answers with a body and all of it can be written; then the file holds exactly the body, whatever the HTTP status. It panics exactly if there is no answer, with the advice to connect to the internet, and then codegen.rs is left empty. If the body that came compiles to the entries of LookupTable::new, static_lookup::evaluate gives what Evaluator::evaluate gives. With --cfg docsrs the static tables are empty, and evaluating five or more different cards panics; with DOCS_RS=1 but no --cfg docsrs, the file of an earlier build is used, or the crate does not compile. It fails without a panic exactly if OUT_DIR is not set or the file cannot be created (then nothing has changed), the body does not come (then the file is empty) or it cannot be written (then the file holds the part that was).", "quantifier": "for all environments, file systems, answers of the server, failures of reading and writing, and everything a compiler may make of the downloaded text", "why_tests_cant": "No test runs the build script, and the failures depend on the network and the file system.", "anchors": ["build.rs: main", "src/evaluate/static_lookup.rs: statics, evaluate"]}
{"id": "C55", "title": "How many different results a number of cards can have", "statement": "Over all hands of n different cards, evaluate gives 7462 results that differ under == for n = 5, 6075 for six cards, 4824 for seven, 3729 for eight, and so on: 1693 for sixteen, 678 for twenty-six (519 of them flushes), 152 for twenty-seven, where no flush is possible any more, 6 for forty-five to forty-eight and a single one for forty-nine to fifty-two; none for fewer than five or more than fifty-two. The table in Spec/Distinct.lean has the number for each category (so with eleven cards and no pair, straight or flush there is a single result).", "quantifier": "for all numbers of cards and all hands of that size", "why_tests_cant": "There are 133784560 hands of seven cards and over 10 million million of sixteen; whether two of them can ever tie or a result can never occur is not visible from samples.", "anchors": ["src/evaluate/mod.rs: Evaluator::evaluate", "src/evaluate/evaluation.rs: five, six_plus", "src/evaluate/eval.rs: PartialEq for Eval"]}
{"id": "C56", "title": "What the macros accept and what they mean", "statement": "card! takes `R, S` and `R of S`, for any two identifiers, as the names of a rank and a suit, else exactly one expression, which is parsed. cards! takes one or more such pairs (`R, S` with semicolons between, or `R of S` with commas between, and perhaps one more at the end) as an array of the cards named; else two or more expressions with commas between, and perhaps one at the end, as an iterator of their parses; else exactly one expression, as an iterator over the parses of its words. box_cards! takes two or more expressions with commas between, and perhaps one at the end. No other call compiles, nor does one with a name that is not that of a rank or suit. So cards!(a, b) with two variables never parses them, while cards!(a, b,) and cards!(a, b, c) do; and a comma after a single card or string is not allowed.", "quantifier": "for all lists of tokens and all ways in which the compiler may read expressions", "why_tests_cant": "Tests cannot contain calls that do not compile, and show only the forms that they use.", "anchors": ["src/card/macros.rs: card!, cards!, box_cards!"]}
{"id": "C57", "title": "The examples as written: loops, prompts, history", "statement": "The game and the REPL, transcribed statement by statement with their nested loops, early returns, prompts and history, do what the state machines of C34, C39 and C43 do, in the same order, and stop, wait or panic where they do. The screen of the game is the texts of C43 in the look of C52 with a green \">>> \" after every question and nowhere else; it keeps no history. The REPL shows a green \"poker> \" for every line, adds the line to the history before anything else (also \"help\" and \"quit\"), answers once, and ends at \"quit\" or an error; if the history refuses a line, it panics there. Both wait exactly once for each line they read, and once more if none comes. With a terminal and fair shuffles the game never panics; without a terminal both panic after their welcome.", "quantifier": "for all sequences of lines and read errors of any length, all shuffles, all hash orders, all failures of the history", "why_tests_cant": "The examples have no tests; the order of prompts, texts and history over arbitrarily long sessions can only be sampled.", "anchors": ["examples/jacks-or-better.rs: main, get_wager, get_swaps", "examples/poker-repl.rs: main", "examples/common/mod.rs: highlight_prompt, editor"]}
{"id": "C58", "title": "How many hands a hand ties with and beats", "statement": "Of the 2598960 hands of five cards, exactly 1020 are == to a given high card or straight, 384 to a pair, 144 to two pairs, 64 to three of a kind, 24 to a full house and 4 to a flush, four of a kind or straight flush (the hand itself included). For every result that evaluate can return, also for more than five cards, the numbers of five-card hands that are >, == and < than it are determined by its rank number (the one that Debug prints), by adding up the categories from the best. Exactly half of all hands are at least as good as ace, king, queen, jack and seven of several suits; a result is > at least half of all hands if and only if it is not < that one.", "quantifier": "for all five-card hands h and all results e of any hand", "why_tests_cant": "counting takes all 2598960 hands for each of the 7462 results.", "anchors": ["src/evaluate/evaluation.rs: evaluate", "src/evaluate/eval.rs: PartialEq, Ord for Eval"]}
{"id": "C59", "title": "Average gain over many rounds from the start of the program", "statement": "Start the game, make the wager w in each of n rounds with n*w <= 100, and in every round stand on a paying hand, keep a low pair and otherwise change all five cards. Then the game never ends before the last round, and the average of the credits afterwards, over all choices of the generator in all 2n+1 shuffles, is exactly 100 - n*w + n*w * 623208741/551845840 (and n * 3506250/551845840 more for the wager 5): at least 100 + 0.129*n*w. Whoever never changes a card is left with 100 - n*w + n*w * 1409404/2598960 (and n * 11000/2598960 more for the wager 5). These rounds are runs of the program on 2n lines. The shuffle at the end of a round is the one from which the next is dealt, so no round starts from a fresh deck.", "quantifier": "for all numbers of rounds and wagers with n*w <= 100, all players (functions from hands to lines) who follow the rule, all lines that make the wager, all iteration orders", "why_tests_cant": "The averages are over (52!)^(2n+1) choices of the generator, and each round depends on what the earlier ones left in the deck.", "anchors": ["examples/jacks-or-better.rs: main loop", "src/deck.rs: shuffle"]}
{"id": "C60", "title": "How soon the game can be over, and how soon the credits overflow", "statement": "In the jacks-or-better game every two lines of input add at most 4000 credits, and a history of fewer than 9223372036854776 lines never panics. The bound is reached: for every smaller number of rounds n some history of 2n lines ends with 100 + 4000n credits. Some history of 9223372036854776 lines overflows a 64-bit usize: a build with overflow checks panics, and one without goes on with 484 credits. Every two lines lose at most five credits (leaving with a wager at stake loses it), so the game is never over before forty lines, and some game is over after forty.", "quantifier": "for all histories of lines and choices of the generator; the histories that reach the bound exist for every number of rounds", "why_tests_cant": "The histories have up to nine thousand million million lines and need a royal flush in every round.", "anchors": ["examples/jacks-or-better.rs: main loop, payout"]}
{"id": "C61", "title": "How likely each prize is in one round", "statement": "A player who stands on every paying hand, keeps a low pair and otherwise changes all five cards gets back, over all choices in the two shuffles of a round, nothing in 1677484145 of 2759229200 cases, and 2, 3, 4, 5, 7, 10, 26, 51 times the wager in 538560000, 327381912, 174496608, 16256250, 8140875, 13874328, 2971332 and 57375 of them; in the remaining 6375 it is the royal flush, 251 times the wager, or 801 times if the wager is five. Nothing else can happen. A player who never changes a card gets back the same multiples in 2062860, 337920, 123552, 54912, 10200, 5108, 3744, 624, 36 and 4 of 2598960 cases.", "quantifier": "for all decks of the 52 cards, all credits that do not overflow, all wagers, all lines that make the wager and name the positions", "why_tests_cant": "The counts are over (52!)^2 choices of the generator.", "anchors": ["examples/jacks-or-better.rs: swap_cards, payout, main loop", "src/deck.rs: shuffle"]}
{"id": "C62", "title": "The best that can be made of a round", "statement": "However the player chooses the cards to change (any function from the hand dealt to a line, also lines that are refused or leave the game), the credits after a round with the wager w average, over all choices in the two shuffles, at most the credits before less w plus w * 11824749450550/8443241352000, or w * 11915909340253/8443241352000 for w = 5. A player who for every hand makes a choice that no other choice exceeds in its average over all ways to complete the cards that stay gets exactly this average, and for every wager there is such a player. So a round gains at most 0.412 and under best play at least 0.4 credits per credit at stake. The rule of C51 does not make the best choice for every hand.", "quantifier": "for all decks of the 52 cards, all credits that do not overflow, all wagers, all lines that make the wager, all functions from hands to lines", "why_tests_cant": "There are 32 choices for each of 2598960 hands, up to 1533939 ways to complete each, and (52!)^2 choices of the generator.", "anchors": ["examples/jacks-or-better.rs: swap_cards, payout, main loop", "src/deck.rs: shuffle"]}
{"id": "C63", "title": "No way to play does better than betting five and choosing best", "statement": "Let a player enter n lines into the jacks-or-better game, n < 9223372036854776, each line chosen in any way from everything the program has printed so far (any wagers, any cards, refused lines, leaving). The program does not panic, and the credits afterwards average, over all choices of the generator in all shuffles, at most 100 + floor(n/2) * 17363339941265/8443241352000, which is less than 2.057 credits for every two lines. For the first twenty rounds the bound is exact: the player who bets five credits in every round and makes the best choice for every hand (which can be read off what is printed) has on average exactly that much after each of them.", "quantifier": "for all numbers of lines below the overflow, all functions from the texts printed so far to the next line, all iteration orders of the hash map", "why_tests_cant": "The average is over (52!)^(2n+1) choices of the generator, and the claim is about every possible strategy.", "anchors": ["examples/jacks-or-better.rs: main loop, get_wager, get_swaps, swap_cards, payout", "src/deck.rs: shuffle"]}
{"id": "C64", "title": "The chance to run out of credits", "statement": "Let a player of the jacks-or-better game always bet w credits, with w dividing the 100 credits of the start, and play by the rule of C51 (stand on a paying hand, keep a low pair, otherwise change all five cards). The chance that the game is over after at most n rounds is exactly that of losing 100/w coins when each round costs a coin and brings back coins as the table of C61 says. However large n is, it is at most 0.9065^(100/w), and for n >= 5000 at least 0.9064^(100/w): less than one in 18300 for w = 1, between 14.0 and 14.1 percent for w = 5. Whoever never changes a card is broke within 5000 rounds in more than 9999 of 10000 cases.", "quantifier": "for all numbers of rounds (the exact chance up to the point where credits could overflow, the bounds without restriction), all wagers dividing 100, all lines that make them, all choices of the generator in all shuffles", "why_tests_cant": "The chance is over (52!)^(2n+1) choices of the generator for an unlimited number of rounds.", "anchors": ["examples/jacks-or-better.rs: main loop, get_wager, get_swaps, swap_cards, payout", "src/deck.rs: shuffle"]}
{"id": "C65", "title": "A game of any length: only the credits can overflow", "statement": "For every history of lines, however long, the jacks-or-better game started in a terminal either goes on by its rules to the end of the history, in a sound state and with fewer than 2^64 credits (wager at stake included), or panics with an arithmetic overflow; in that case it got by the rules to a line that chooses cards, and the hand drawn wins so much that credits, wager and prize come to 2^64 or more. No other panic is possible. When it panics, the screen shows the game up to that line and then the new hand and whether it is better or worse, but not the winnings. The 64-bit build with overflow checks does exactly this on every history; the one without never panics, is the same as long as the other does not panic, and goes on by the same rules with the credits counted modulo 2^64, being over if they come out at exactly 2^64.", "quantifier": "for all histories of lines of any length, all draws in range and all orders of hash map iteration", "why_tests_cant": "The shortest history that overflows has nine thousand million million lines; the histories are unbounded.", "anchors": ["examples/jacks-or-better.rs: main, payout, get_wager, get_swaps, swap_cards"]}
{"id": "C66", "title": "How many hands of any number of cards give which result", "statement": "For every number n of cards, as many of the sets of n cards get a result of each of the nine classes from Evaluator::evaluate (and from the is_* methods) as a fixed table says: for 13 cards, for example, 281969044560 of 635013559600 sets give a full house. For fewer than five or more than 52 cards there are none; from 5 to 52 the nine numbers add up to all sets. The number of royal flushes is given too. So the odds for the first n cards of a shuffled deck are known, for every n up to 52 and every class. A better class is rarer than a worse one for hands of five cards and for no other number of cards.", "quantifier": "for all numbers of cards n, all sets of n cards, in any order, and all classes", "why_tests_cant": "There are 2^52 sets of cards, 495918532948104 of them with 26 cards.", "anchors": ["src/evaluate/mod.rs: Evaluator::evaluate", "src/evaluate/evaluation.rs: evaluate, five, six_plus", "src/evaluate/eval.rs: class, is_high_card .. is_royal_flush", "src/evaluate/meta.rs: Meta::class", "src/deck.rs: shuffled"]}
{"id": "C67", "title": "Which cards a result depends on", "statement": "Whatever cards are evaluated, five of them decide: evaluating these together with any others of the cards, in any order, gives the same result. So of six or more cards at most five matter, in that the result differs when one is left out, and leaving one out never gives a better result. For each number k from five to the number of cards, the result is the best one among all choices of k of the cards. A further card leaves the result as it is, or makes it better; then it is among any five of the cards that have the new result.", "quantifier": "for all lists of five or more different cards, all choices of some of them, and all further cards", "why_tests_cant": "The choices of some of n cards grow like 2^n, for each of the 2^52 sets of cards.", "anchors": ["src/evaluate/mod.rs: Evaluator::evaluate", "src/evaluate/evaluation.rs: five, six_plus", "src/evaluate/eval.rs: PartialOrd for Eval"]}
{"id": "C68", "title": "No seat at the table is better than another", "statement": "Cards are dealt from a shuffled deck: some to each of any number of players, the same number to each, and some that all of them share; which places of the deck they come from is arbitrary, as long as no place is used twice. If the choices of the random number generator are equally likely, then the odds of anything that can be said about all players' results of evaluate do not depend on the order of the deck before the shuffle, on who sits where, or on the places the cards are taken from (one by one or all at once, with or without cards put aside). So all players are equally likely to have the best result, and to be the only one who has it: with p players at least, or at most, one deal in p. With five or more cards each, everybody has a result in every deal; of two players each wins equally often, and the remaining deals are ties.", "quantifier": "for all orders of the deck before the shuffle, all numbers of players, of own and of shared cards, all places in the deck, and all properties of the results", "why_tests_cant": "There are 52! orders of the deck; a bias of the shuffle towards a seat would only show in statistics.", "anchors": ["src/deck.rs: shuffled", "src/evaluate/mod.rs: Evaluator::evaluate", "src/evaluate/eval.rs: PartialOrd for Eval"]}
{"id": "C69", "title": "How often two players tie", "statement": "Of the 1533939 hands of five of the cards that a hand of five cards leaves, as many get the same result from evaluate as follows: 239 plus the number of suits in the hand for a high card or a straight, 27 for a pair, 3 for two pairs, a flush or a straight flush, none for three of a kind, a full house or four of a kind. So 347798880 of the 2598960 * 1533939 ordered pairs of hands without a card in common tie; in 1993149152280 the first one is better and in as many the second. When two players get five cards each from a shuffled deck, from any places of it, and the choices of the random number generator are equally likely, the odds of anything about their two results are those of such pairs of hands; about one deal in 11463 is a tie.", "quantifier": "for all hands of five cards, all orders of the deck before the shuffle, all places the two hands are taken from, and all relations between two results", "why_tests_cant": "There are almost four million million pairs of hands; a mistake in the comparison for a rare kind of tie would not show in a sample.", "anchors": ["src/evaluate/mod.rs: Evaluator::evaluate", "src/evaluate/eval.rs: PartialEq and PartialOrd for Eval", "src/deck.rs: shuffled"]}
{"id": "C70", "title": "What a board allows", "statement": "Three, four or five distinct cards lie on the board, and two further cards are added. Whether evaluate can give some result of a category can be read off the board alone. A straight flush: exactly when three cards of one suit lie within five consecutive values (the ace high or low). Four of a kind: exactly when two cards share a rank. A full house: exactly when two cards share a rank and not four do. A flush: exactly when three cards share a suit and the board is not itself a straight flush. A straight: exactly when three cards of different ranks lie within five consecutive values and the board is not itself a flush. Three of a kind: exactly when the board has no four of a kind, two pairs, flush or straight. Two pairs: no three of a kind, flush or straight. A pair: no three of a kind, two pairs, flush or straight. A high card: no pair, flush or straight. So, for instance, with no pair on the board nobody is told to have a full house, and with one there are two cards that get it.", "quantifier": "for all boards of three to five distinct cards, all pairs of further cards and all nine categories", "why_tests_cant": "There are nearly three million boards and about a thousand pairs of cards for each; that a category never occurs needs all of them, and that it can occur needs the right two cards for every board.", "anchors": ["src/evaluate/mod.rs: Evaluator::evaluate", "src/evaluate/eval.rs: Eval::is_straight_flush and the other predicates"]}
{"id": "C71", "title": "What one more card can do", "statement": "One card is added to the cards handed to evaluate. With cards of any number: a high card becomes a high card, pair, straight, flush or straight flush; a pair becomes a pair, two pairs, three of a kind, straight, flush or straight flush; two pairs never become three or four of a kind; a full house becomes four of a kind or a straight flush or stays; four of a kind stays or becomes a straight flush; a straight flush stays one. With five cards two pairs become at most a full house and three of a kind at most a full house or four of a kind; with up to six cards a straight or a flush never becomes a full house or four of a kind, and neither of these a straight flush. With five, six and seven cards every step that is not excluded happens. The number of the other cards that make five or six cards better is: for four of a kind the number of ranks that occur three times; for a full house three for each other rank beside three of a kind, two for each of two or three pairs; for a flush nine if four cards share a suit, less those that make a straight flush; for a straight four for each rank that completes one, or three if four cards share a suit; for a straight flush one for each rank that completes one in its suit; for three of a kind two if there is a pair, for two pairs three for each card beside the pair, for a pair three for each card, and of these three numbers, if four cards share a suit, one less for each such rank that is missing in this suit.", "quantifier": "for all hands of any number of distinct cards and every further card; the numbers for all hands of five or six distinct cards", "why_tests_cant": "A step that never happens needs all hands and all further cards, for hands of any size; the numbers are statements about each of more than twenty million hands.", "anchors": ["src/evaluate/mod.rs: Evaluator::evaluate", "src/evaluate/eval.rs: Eval::is_straight_flush and the other predicates"]}
{"id": "C72", "title": "The best hand a board allows", "statement": "Three, four or five distinct cards lie on the board, and two further cards are added. The best result evaluate can give is read off the board alone, with class and text. If three cards of one suit lie within five consecutive values it is a straight flush to the highest top for which three are there. Else, if two cards share a rank, it is four of the highest such rank, with the highest other card of the board if the rank occurs twice, and with the highest other rank there is if it occurs three or four times. Else, if three cards share a suit, a flush of them and the two highest ranks missing in the suit. Else, if three ranks lie within five consecutive values, a straight to the highest top for which three are there. Else three of the highest rank, with the next two of the board. Some two cards get this result and no two get one for which is_better_than says true; two cards get a result that no two cards can beat, also none that share a card with them, exactly when their result is this one (C76 has what holds for cards of others only). For five cards on the board every two further cards get a result equal to the board's own exactly when the board's own is the best it allows.", "quantifier": "for all boards of three to five distinct cards and all pairs of further cards", "why_tests_cant": "There are nearly three million boards with about a thousand pairs of cards each; that no pair is better needs them all.", "anchors": ["src/evaluate/mod.rs: Evaluator::evaluate", "src/evaluate/eval.rs: Eval::is_better_than, Eval::class", "src/evaluate/eval.rs: Display for Eval"]}
{"id": "C73", "title": "When suits matter", "statement": "Two hands of any number of cards that have the same ranks, each as often, and of which neither has five cards of one suit, get the same result from evaluate. So if no three cards of the board share a suit, the suits of the board and of two cards of one's own do not matter: other cards of the same ranks, again without three of a suit on the board, get the same result. Of up to seven distinct cards with five or more of one suit only those count: evaluate gives the same for them alone. With eight cards this is no longer so.", "quantifier": "for all hands of any number of cards; for all boards and all pairs of further cards; for all hands of up to seven cards and all suits", "why_tests_cant": "The same ranks can be had in many thousand ways by suits, for each of the millions of hands, and hands can be of any size up to the pack.", "anchors": ["src/evaluate/mod.rs: Evaluator::evaluate", "src/evaluate/eval.rs: PartialEq for Eval"]}
{"id": "C74", "title": "Raising every card by one rank", "statement": "Take cards without an ace and make each one rank higher in the same suit, the king an ace. evaluate has a result for the one exactly when it has one for the other; the raised cards then get a result of the same category, and is_better_than says that it is better. Any two such hands, of any sizes, compare the same way before and after, kickers and ties included.", "quantifier": "for all hands of any number of cards without an ace, and all pairs of such hands", "why_tests_cant": "It relates the results of all hands, and of all pairs of hands of all sizes, to those of others.", "anchors": ["src/evaluate/mod.rs: Evaluator::evaluate", "src/evaluate/eval.rs: Ord for Eval, Eval::is_better_than"]}
{"id": "C75", "title": "The odds that the next cards help", "statement": "Shuffle a deck and look at the first cards. Any n different cards lie on top, in a given order, for (52-n)! of the 52! choices of the random numbers. For given known cards on top, all ways to go on with k further different cards are equally likely; so the odds that the result of evaluate of the first n+k cards has any given property are the number of such ways with that property, of (52-n)(51-n)...(52-n-k+1). For one more card they are the number of cards that bring the property, of 52-n; for five or six known cards and each better category this number is the count of outs of C71 (for example 9 of 47 for a flush with four of a suit in five cards).", "quantifier": "for all decks before the shuffle, all known cards, all numbers of further cards up to 52, all properties of a result", "why_tests_cant": "It is a statement about all 52! orders of the deck, with equality of odds and not an estimate.", "anchors": ["src/deck.rs: Deck::shuffle", "src/evaluate/mod.rs: Evaluator::evaluate", "src/evaluate/eval.rs: Eval::is_flush and the like"]}
{"id": "C76", "title": "An opponent whose cards are not seen", "statement": "Shuffle a deck and lay out its cards in turn: one's own, then those of the board, then k cards for an opponent, who evaluates them together with the board. For given own cards and board all k cards that are not seen are equally likely for the opponent, so the odds that the opponent's result has any given property are the number of such ways with that property, of (52-n)(51-n)...(52-n-k+1), where n cards are seen. If the opponent's cards and the board are at least five, the ways to win, to share and to lose, told by is_worse_than, is_equal_to and is_better_than, add up to all of them. No shuffle lets the opponent win exactly when no k cards that are not seen do; so with two own cards whose result is the best the board allows (C72) one never loses. The converse is false: one may be safe with less than the best, if the cards that others need for it are one's own.", "quantifier": "for all decks before the shuffle, all own cards and boards, all numbers of cards of the opponent, all properties of a result", "why_tests_cant": "It is a statement about all 52! orders of the deck, with equality of odds and not an estimate.", "anchors": ["src/deck.rs: Deck::shuffle", "src/evaluate/mod.rs: Evaluator::evaluate", "src/evaluate/eval.rs: Eval::is_better_than, Eval::is_worse_than, Eval::is_equal_to"]}
{"id": "C77", "title": "Format options and writers that fail", "statement": "Display of a rank, a suit, a card, a class, an evaluation and the two errors writes the text of the value to the formatter in pieces. Whatever the writer does: if it accepts them all, the result is Ok and the accepted pieces make up the text; if it refuses one, the result is an error at once, nothing is written after that, and what was offered so far is a beginning of the text. The options of the formatter (width, fill, alignment, precision, sign, #, 0) have no effect: format!(\"{:>10}\", card) gives the same six characters as card.to_string(), and so for the names of hands and for the errors. A text, in contrast, is cut to the precision and filled up to the width, so card.to_string() must be taken first for columns. To a buffer with room for n characters the name of a hand is written without error exactly if it has at most n characters, and otherwise the buffer holds a beginning of it.", "quantifier": "for all values, all options, all writers and all their states", "why_tests_cant": "There are infinitely many writers, which may refuse at any point, and infinitely many widths.", "anchors": ["src/card/rank.rs: Display for Rank", "src/card/suit.rs: Display for Suit", "src/card/mod.rs: Display for Card", "src/evaluate/class.rs: Display for EvalClass", "src/evaluate/meta.rs: Display for Meta", "src/evaluate/eval.rs: Display for Eval", "src/error.rs: Display for ParseCardError, Display for EvalError"]}
{"id": "C78", "title": "Shuffling from random words", "statement": "shuffled_with takes 32-bit words from its generator. A number below b is made from words so that each number is below b and comes from equally many sequences of n words, for every n. So with words that are all equally likely every order of the deck comes from equally many sequences of n words, whatever its order before, and the sequences that give none of them are those too short for the shuffle to end: 52! times the number for one order plus the number of those is 2^(32n). Hence every statement about a part of all shuffles (C46, C68, C75, C76) holds for the same part of the sequences of words with which the shuffle ends; for instance how often the first five cards have a given result. Fewer than 51 words are never enough; n words fail to be enough with at most the chance of fewer than 51 heads in n throws of a coin, which tends to zero. With several shuffles in turn, where the cards shuffled next may depend on all results before (as in the game, where they depend on the player), any two possible courses of results in which as many cards are shuffled each time come from equally many sequences of words. As the number of words grows, the part of the sequences that give a certain order tends to 1/52!, the part for any property of the deck to the part of the orders that have it, and the part for a course of shuffles of n1, n2, ... cards to 1/(n1! n2! ...). Whatever the words, nothing panics and the result is a rearrangement of the deck.", "quantifier": "for all sequences of words of any length, all orders of the deck before, all properties of the deck after, all ways in which the next cards to shuffle depend on the results before", "why_tests_cant": "There are 2^32 values for each word and 52! orders; bias as small as that of a modulus (one part in 80 million) is beyond statistics.", "anchors": ["src/deck.rs: shuffled_with, shuffled", "examples/jacks-or-better.rs: the shuffles between rounds"]}
