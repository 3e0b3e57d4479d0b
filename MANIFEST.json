{
 "claims": [
  {
   "property": "C01",
   "status": "proved",
   "theorems": [
    "Poker.c01_class"
   ],
   "note": ""
  },
  {
   "property": "C02",
   "status": "proved",
   "theorems": [
    "Poker.c02_compare"
   ],
   "note": ""
  },
  {
   "property": "C03",
   "status": "proved",
   "theorems": [
    "Poker.c03_best_five"
   ],
   "note": ""
  },
  {
   "property": "C04",
   "status": "proved",
   "theorems": [
    "Poker.c04_outcome",
    "Poker.c04_no_panic",
    "Poker.c04_iff"
   ],
   "note": ""
  },
  {
   "property": "C05",
   "status": "proved",
   "theorems": [
    "Poker.c05_perm"
   ],
   "note": ""
  },
  {
   "property": "C06",
   "status": "proved",
   "theorems": [
    "Poker.c06_suits"
   ],
   "note": ""
  },
  {
   "property": "C07",
   "status": "proved",
   "theorems": [
    "Poker.c07_more_cards",
    "Poker.c07_board"
   ],
   "note": ""
  },
  {
   "property": "C08",
   "status": "proved",
   "theorems": [
    "Poker.c08_bounds",
    "Poker.c08_attained",
    "Poker.c08_best",
    "Poker.c08_worst",
    "Poker.c08_six"
   ],
   "note": ""
  },
  {
   "property": "C09",
   "status": "proved",
   "theorems": [
    "Poker.c09_exactly_one",
    "Poker.c09_agree",
    "Poker.c09_royal"
   ],
   "note": ""
  },
  {
   "property": "C10",
   "status": "proved",
   "theorems": [
    "Poker.c10_royal"
   ],
   "note": ""
  },
  {
   "property": "C11",
   "status": "proved",
   "theorems": [
    "Poker.c11_order",
    "Poker.c11_hash",
    "Poker.c11_methods"
   ],
   "note": ""
  },
  {
   "property": "C12",
   "status": "proved",
   "theorems": [
    "Poker.c12_equal",
    "Poker.c12_constants"
   ],
   "note": ""
  },
  {
   "property": "C13",
   "status": "proved",
   "theorems": [
    "Poker.c13_exact",
    "Poker.c13_class_order"
   ],
   "note": ""
  },
  {
   "property": "C14",
   "status": "proved",
   "theorems": [
    "Poker.c14_no_panic",
    "Poker.c14_fields",
    "Poker.c14_layout",
    "Poker.c14_bits",
    "Poker.c14_injective"
   ],
   "note": ""
  },
  {
   "property": "C15",
   "status": "proved",
   "theorems": [
    "Poker.c15_roundtrip",
    "Poker.c15_unique",
    "Poker.c15_count"
   ],
   "note": ""
  },
  {
   "property": "C16",
   "status": "proved",
   "theorems": [
    "Poker.c16_errors"
   ],
   "note": ""
  },
  {
   "property": "C17",
   "status": "proved",
   "theorems": [
    "Poker.c17_chars"
   ],
   "note": ""
  },
  {
   "property": "C18",
   "status": "proved",
   "theorems": [
    "Poker.c18_items",
    "Poker.c18_ok",
    "Poker.c18_error"
   ],
   "note": ""
  },
  {
   "property": "C19",
   "status": "proved",
   "theorems": [
    "Poker.c19_words",
    "Poker.c19_layout",
    "Poker.c19_blank",
    "Poker.c19_strings",
    "Poker.c19_idents"
   ],
   "note": ""
  },
  {
   "property": "C20",
   "status": "proved",
   "theorems": [
    "Poker.c20_by_rank",
    "Poker.c20_preorder",
    "Poker.c20_not_consistent"
   ],
   "note": "Finding: Ord is not consistent with Eq (same rank, different suit: Equal but not ==); proved with a witness for every rank and pair of suits."
  },
  {
   "property": "C21",
   "status": "proved",
   "theorems": [
    "Poker.c21_deck"
   ],
   "note": ""
  },
  {
   "property": "C22",
   "status": "proved",
   "theorems": [
    "Poker.c22_perm",
    "Poker.c22_deck",
    "Poker.c22_bijective"
   ],
   "note": ""
  },
  {
   "property": "C23",
   "status": "proved",
   "theorems": [
    "Poker.c23_combinations",
    "Poker.c23_loop",
    "Poker.c23_too_few",
    "Poker.c23_zero"
   ],
   "note": ""
  },
  {
   "property": "C24",
   "status": "proved",
   "theorems": [
    "Poker.c24_isolated",
    "Poker.c24_result",
    "Poker.c24_finishes",
    "Poker.c24_winner"
   ],
   "note": "Interleaving semantics of the evaluation loop over shared immutable tables. Not modelled: OS threads, Arc counting, weak memory (the tables are never written after construction)."
  },
  {
   "property": "C25",
   "status": "proved",
   "theorems": [
    "Poker.c25_same_entries",
    "Poker.c25_tested",
    "Poker.c25_class_may_differ"
   ],
   "note": "Also proves that the repository's ensure_identical_tables test is too weak to imply equal classes."
  },
  {
   "property": "C26",
   "status": "proved",
   "theorems": [
    "Poker.c26_default_panics",
    "Poker.c26_default_errors",
    "Poker.c26_refuted"
   ],
   "note": "The expectation is false of the code; the theorems prove the negation for every slice of at least five distinct cards and agreement on all others."
  },
  {
   "property": "C27",
   "status": "proved",
   "theorems": [
    "Poker.c27_length",
    "Poker.c27_length_false",
    "Poker.c27_chars",
    "Poker.c27_duplicates",
    "Poker.c27_size"
   ],
   "note": "For non-ASCII input the InvalidLength text is wrong (byte count); proved with a witness, and proved right for ASCII input."
  },
  {
   "property": "C28",
   "status": "proved",
   "theorems": [
    "Poker.c28_text",
    "Poker.c28_result",
    "Poker.c28_exact",
    "Poker.c28_exact_result",
    "Poker.c28_royal"
   ],
   "note": ""
  },
  {
   "property": "C29",
   "status": "proved",
   "theorems": [
    "Poker.c29_ties"
   ],
   "note": ""
  },
  {
   "property": "C30",
   "status": "proved",
   "theorems": [
    "Poker.c30_concat",
    "Poker.c30_join",
    "Poker.c30_many"
   ],
   "note": "c30_join for two slices, c30_many for any number"
  },
  {
   "property": "C31",
   "status": "proved",
   "theorems": [
    "Poker.c31_class",
    "Poker.c31_predicates"
   ],
   "note": ""
  },
  {
   "property": "C32",
   "status": "proved",
   "theorems": [
    "Poker.c32_eq",
    "Poker.c32_same",
    "Poker.c32_sizes"
   ],
   "note": ""
  },
  {
   "property": "C33",
   "status": "proved",
   "theorems": [
    "Poker.c33_payout",
    "Poker.c33_zero",
    "Poker.c33_monotone",
    "Poker.c33_proportional",
    "Poker.c33_chart"
   ],
   "note": "Finding: README chart differs from the code for straight flush and royal flush (c33_chart)."
  },
  {
   "property": "C34",
   "status": "proved",
   "theorems": [
    "Poker.c34_history",
    "Poker.c34_cards",
    "Poker.c34_over"
   ],
   "note": "usize overflow of credits is excluded by a bound on the number of lines read (more than 4*10^15 lines would be needed); C65 lifts the bound. Terminal I/O is a list of input events."
  },
  {
   "property": "C35",
   "status": "proved",
   "theorems": [
    "Poker.c35_rank",
    "Poker.c35_suit",
    "Poker.c35_case",
    "Poker.c35_display"
   ],
   "note": ""
  },
  {
   "property": "C36",
   "status": "proved",
   "theorems": [
    "Poker.c36_new_ok",
    "Poker.c36_no_overwrite",
    "Poker.c36_generator"
   ],
   "note": ""
  },
  {
   "property": "C37",
   "status": "proved",
   "theorems": [
    "Poker.c37_next"
   ],
   "note": ""
  },
  {
   "property": "C38",
   "status": "proved",
   "theorems": [
    "Poker.c38_winner",
    "Poker.c38_fold"
   ],
   "note": ""
  },
  {
   "property": "C39",
   "status": "proved",
   "theorems": [
    "Poker.c39_help",
    "Poker.c39_welcome",
    "Poker.c39_answer",
    "Poker.c39_unique",
    "Poker.c39_session"
   ],
   "note": "Colours and terminal effects are not modelled; a read error or end of input is an event."
  },
  {
   "property": "C40",
   "status": "proved",
   "theorems": [
    "Poker.c40_wager",
    "Poker.c40_swaps",
    "Poker.c40_welcome"
   ],
   "note": ""
  },
  {
   "property": "C41",
   "status": "proved",
   "theorems": [
    "Poker.c41_swap",
    "Poker.c41_may_return"
   ],
   "note": "Finding: the discarded cards go back to the deck before the new ones are dealt."
  },
  {
   "property": "C42",
   "status": "proved",
   "theorems": [
    "Poker.c42_class",
    "Poker.c42_compare",
    "Poker.c42_text"
   ],
   "note": ""
  },
  {
   "property": "C43",
   "status": "proved",
   "theorems": [
    "Poker.c43_hand",
    "Poker.c43_verdict",
    "Poker.c43_wager",
    "Poker.c43_swaps",
    "Poker.c43_verdict_true"
   ],
   "note": "Finding: the game compares classes, so a hand that wins only by a kicker gets no message. Colours and clearing the screen: C52."
  },
  {
   "property": "C44",
   "status": "proved",
   "theorems": [
    "Poker.c44_next",
    "Poker.c44_items",
    "Poker.c44_stops",
    "Poker.c44_size_hint",
    "Poker.c44_fold",
    "Poker.c44_collect_ok",
    "Poker.c44_collect_error",
    "Poker.c44_collect_endless",
    "Poker.c44_slice",
    "Poker.c44_next_back",
    "Poker.c44_ends",
    "Poker.c44_slice_ends"
   ],
   "note": "The only constructor returns ParseToIter<impl Iterator>, so callers cannot reach next_back and len. Non-termination is running out of any fuel."
  },
  {
   "property": "C45",
   "status": "proved",
   "theorems": [
    "Poker.c45_hands",
    "Poker.c45_categories",
    "Poker.c45_pays",
    "Poker.c45_order"
   ],
   "note": ""
  },
  {
   "property": "C46",
   "status": "proved",
   "theorems": [
    "Poker.c46_orders",
    "Poker.c46_draws",
    "Poker.c46_on_top",
    "Poker.c46_deals",
    "Poker.c46_odds",
    "Poker.c46_royal",
    "Poker.c46_round",
    "Poker.c46_first"
   ],
   "note": "The choices of the generator are an exhaustive finite type; probability is the proportion of choices. That the generator itself is uniform is not modelled."
  },
  {
   "property": "C47",
   "status": "proved",
   "theorems": [
    "Poker.c47_card",
    "Poker.c47_new",
    "Poker.c47_evaluate",
    "Poker.c47_hand",
    "Poker.c47_game",
    "Poker.c47_wrap",
    "Poker.c47_usize",
    "Poker.c47_sums",
    "Poker.c47_shifts"
   ],
   "note": "A second model of the same functions, parametric in the build (checks compiled in or not, width of usize); wrapped results as Rust defines them. The credits' overflow is the one place where builds differ. C65 has the game without a bound on the history."
  },
  {
   "property": "C48",
   "status": "proved",
   "theorems": [
    "Poker.c48_card",
    "Poker.c48_card_inj",
    "Poker.c48_eval_inj",
    "Poker.c48_eval_eq",
    "Poker.c48_class_inj",
    "Poker.c48_class",
    "Poker.c48_eval",
    "Poker.c48_parse_inj",
    "Poker.c48_parse",
    "Poker.c48_parse_all",
    "Poker.c48_error_inj",
    "Poker.c48_error",
    "Poker.c48_error_spread",
    "Poker.c48_evaluator_inj",
    "Poker.c48_evaluator_alike",
    "Poker.c48_evaluator_default",
    "Poker.c48_evaluator_new",
    "Poker.c48_evaluator_spread"
   ],
   "note": "The formatter's builders and the escaping of strings are modelled after the standard library; which characters are written by code and the order of the maps of an evaluator are parameters."
  },
  {
   "property": "C49",
   "status": "proved",
   "theorems": [
    "Poker.c49_six",
    "Poker.c49_seven",
    "Poker.c49_odds",
    "Poker.c49_no_pair_rarer"
   ],
   "note": ""
  },
  {
   "property": "C50",
   "status": "proved",
   "theorems": [
    "Poker.c50_assertions",
    "Poker.c50_card",
    "Poker.c50_deck",
    "Poker.c50_utils",
    "Poker.c50_evaluate",
    "Poker.c50_static",
    "Poker.c50_table",
    "Poker.c50_errors",
    "Poker.c50_compare",
    "Poker.c50_docs",
    "Poker.c50_readme",
    "Poker.c50_threads",
    "Poker.c50_benches"
   ],
   "note": "All #[test] functions of src/, all documentation examples, the README's program and the bench routines; macros are modelled by their expansion."
  },
  {
   "property": "C51",
   "status": "proved",
   "theorems": [
    "Poker.c51_swap",
    "Poker.c51_all",
    "Poker.c51_pair",
    "Poker.c51_average",
    "Poker.c51_stand",
    "Poker.c51_favourable"
   ],
   "note": "As in C46 the choices of the generator are an exhaustive finite type and an average is a sum over it. c51_average gives the exact value, c51_favourable the consequence."
  },
  {
   "property": "C52",
   "status": "proved",
   "theorems": [
    "Poker.c52_game",
    "Poker.c52_answer",
    "Poker.c52_alike",
    "Poker.c52_session"
   ],
   "note": "A text is put out with the style that colored records; the control sequences colored writes, and the prompt (written by rustyline), are not modelled. Finding: pairs and two pairs have one colour."
  },
  {
   "property": "C53",
   "status": "proved",
   "theorems": [
    "Poker.c53_possible",
    "Poker.c53_forced",
    "Poker.c53_royal"
   ],
   "note": "Both directions: the bounds are proved by counting cards by value and by suit, and reached by nine explicit hands whose first five cards have the category."
  },
  {
   "property": "C54",
   "status": "proved",
   "theorems": [
    "Poker.Script.c54_idle",
    "Poker.Script.c54_frame",
    "Poker.Script.c54_pinned",
    "Poker.Script.c54_success",
    "Poker.Script.c54_panic",
    "Poker.Script.c54_error",
    "Poker.Script.c54_join",
    "Poker.Script.c54_path",
    "Poker.Script.c54_download",
    "Poker.Script.c54_docs",
    "Poker.Script.c54_mismatch"
   ],
   "note": "The environment, the file system, the network and the compiler are parameters. Findings: the HTTP status is not checked, so an error page would be written to codegen.rs; the file is emptied before the download; script and library decide by different flags whether the build is for docs.rs."
  },
  {
   "property": "C55",
   "status": "proved",
   "theorems": [
    "Poker.c55_category",
    "Poker.c55_results",
    "Poker.c55_eq"
   ],
   "note": "The number of results that hands of any number of cards can have, in all and in each category, as the size of the set of values that evaluate returns. For 17 and more cards (a flush or better, by C53) the tables of Proofs/MaskTable.lean hold for each worth a largest hand and a proof by counting that no larger one exists; the kernel checks both."
  },
  {
   "property": "C56",
   "status": "proved",
   "theorems": [
    "Poker.Macros.c56_card",
    "Poker.Macros.c56_unique",
    "Poker.Macros.c56_cards",
    "Poker.Macros.c56_box",
    "Poker.Macros.c56_card_value",
    "Poker.Macros.c56_cards_value",
    "Poker.Macros.c56_trailing",
    "Poker.Macros.c56_two_variables"
   ],
   "note": "Which calls of card!, cards! and box_cards! compile, by which arm, and what they evaluate to, for every way of reading expressions. Types and lifetimes of the expansions are left to the compiler."
  },
  {
   "property": "C57",
   "status": "proved",
   "theorems": [
    "Poker.c57_game",
    "Poker.c57_fair",
    "Poker.c57_no_terminal",
    "Poker.c57_repl",
    "Poker.c57_history",
    "Poker.c57_prompts"
   ],
   "note": "Loops have fuel; more fuel than inputs is enough. rustyline is modelled as: show the prompt, then return a line or an error. Each input also holds the draws and the hash order that the program meets before the next one."
  },
  {
   "property": "C58",
   "status": "proved",
   "theorems": [
    "Poker.c58_ties",
    "Poker.c58_better",
    "Poker.c58_median"
   ],
   "note": "Hands are counted as sets of cards; the number of the rank is the private field that Debug prints."
  },
  {
   "property": "C59",
   "status": "proved",
   "theorems": [
    "Poker.c59_average",
    "Poker.c59_stand",
    "Poker.c59_favourable",
    "Poker.c59_run"
   ],
   "note": "As in C51 an average is a sum over all choices. n*w <= 100 is what the credits of the start surely suffice for. The last shuffle of the last round does not matter but is counted with the others."
  },
  {
   "property": "C60",
   "status": "proved",
   "theorems": [
    "Poker.c60_bound",
    "Poker.c60_attained",
    "Poker.c60_overflow",
    "Poker.c60_loss",
    "Poker.c60_ruin"
   ],
   "note": "Sharpens the limit in C34 and C47, which allow 4000 credits per line. The history is built by induction: after each round the generator puts the royal flush on top again."
  },
  {
   "property": "C61",
   "status": "proved",
   "theorems": [
    "Poker.c61_rule",
    "Poker.c61_stand",
    "Poker.c61_only"
   ],
   "note": "c61_rule and c61_stand count the choices of the two shuffles (52! each) that end a round with given credits, through two steps of the game's state machine; c61_only says that no other number of credits is possible. The choices are uniform ones: how near the generator comes to them is not modelled."
  },
  {
   "property": "C62",
   "status": "proved",
   "theorems": [
    "Poker.c62_bound",
    "Poker.c62_best",
    "Poker.c62_player",
    "Poker.c62_favourable",
    "Poker.c62_advice"
   ],
   "note": "c62_bound holds for any function from hands to lines; c62_best and c62_player show that the bound is attained; c62_favourable gives the consequence in rounded numbers. The value is a sum over all hands of the maximum over the 32 parts to keep, which the kernel computes from tables that it checks by recurrences over the values and suits (Proofs/Hold*)."
  },
  {
   "property": "C63",
   "status": "proved",
   "theorems": [
    "Poker.c63_bound",
    "Poker.c63_best",
    "Poker.c63_rounded",
    "Poker.c63_run"
   ],
   "note": "A player is any function from the texts printed so far to the next line; c63_bound is an induction over the lines with the bound of C62 inside, c63_best gives a player who reaches it for up to twenty rounds (after that the credits may have run out), c63_run says that these are runs of the program. The choices of the shuffles are uniform and independent of the player: how near the generator comes to that is not modelled."
  },
  {
   "property": "C64",
   "status": "proved",
   "theorems": [
    "Poker.c64_rule",
    "Poker.c64_stand",
    "Poker.c64_most",
    "Poker.c64_least",
    "Poker.c64_lost",
    "Poker.c64_chances"
   ],
   "note": "c64_rule and c64_stand are the exact chances, by recursion over the rounds (ruin in Spec/Broke.lean); c64_most, c64_least, c64_lost and c64_chances bound them. c64_most holds for every number of rounds: a run in which the credits overflow panics and is not counted as broke. The choices of the shuffles are uniform and independent: how near the generator comes to that is not modelled."
  },
  {
   "property": "C65",
   "status": "proved",
   "theorems": [
    "Poker.c65_checked",
    "Poker.c65_history",
    "Poker.c65_panic",
    "Poker.c65_unchecked",
    "Poker.c65_same",
    "Poker.c65_program"
   ],
   "note": "no bound on the history, unlike C34, C47 and C57; c65_history is exhaustive, and C60 shows that the overflow does occur"
  },
  {
   "property": "C66",
   "status": "proved",
   "theorems": [
    "Poker.c66_category",
    "Poker.c66_methods",
    "Poker.c66_royal",
    "Poker.c66_all",
    "Poker.c66_odds",
    "Poker.c66_order",
    "Poker.c66_seven"
   ],
   "note": "c66_category, c66_methods and c66_royal have no bounds on n; the table is frequencies in Spec/Frequency.lean"
  },
  {
   "property": "C67",
   "status": "proved",
   "theorems": [
    "Poker.c67_core",
    "Poker.c67_few",
    "Poker.c67_sizes",
    "Poker.c67_new"
   ],
   "note": "c67_core, c67_few, c67_sizes, c67_new"
  },
  {
   "property": "C68",
   "status": "proved",
   "theorems": [
    "Poker.c68_before",
    "Poker.c68_places",
    "Poker.c68_seats",
    "Poker.c68_dealings",
    "Poker.c68_fair",
    "Poker.c68_results",
    "Poker.c68_results_eq",
    "Poker.c68_share",
    "Poker.c68_two"
   ],
   "note": "counts of the choices of the generator, as in C46; a dealing is any injective choice of places (Spec/Seats.lean)"
  },
  {
   "property": "C69",
   "status": "proved",
   "theorems": [
    "Poker.c69_rivals",
    "Poker.c69_pairs",
    "Poker.c69_all",
    "Poker.c69_deals",
    "Poker.c69_ties",
    "Poker.c69_wins",
    "Poker.c69_better",
    "Poker.c69_chances"
   ],
   "note": "odds are counts of the choices of the generator, as in C46 and C68; hands are sets of cards"
  },
  {
   "property": "C70",
   "status": "proved",
   "theorems": [
    "Poker.c70_class",
    "Poker.c70_board"
   ],
   "note": "the two further cards come first in the list handed to the evaluator; by C05 their place does not matter"
  },
  {
   "property": "C71",
   "status": "proved",
   "theorems": [
    "Poker.c71_step",
    "Poker.c71_attained",
    "Poker.c71_outs"
   ],
   "note": "the further card comes first in the list handed to the evaluator; by C05 its place does not matter; that each step happens is said of five, six and seven cards"
  },
  {
   "property": "C72",
   "status": "proved",
   "theorems": [
    "Poker.c72_nuts",
    "Poker.c72_iff",
    "Poker.c72_plays"
   ],
   "note": "the two further cards come first in the list handed to the evaluator; by C05 their place does not matter"
  },
  {
   "property": "C73",
   "status": "proved",
   "theorems": [
    "Poker.c73_ranks",
    "Poker.c73_board",
    "Poker.c73_suit",
    "Poker.c73_eight"
   ],
   "note": "own cards come first in the list handed to the evaluator; by C05 their place does not matter"
  },
  {
   "property": "C74",
   "status": "proved",
   "theorems": [
    "Poker.c74_raise",
    "Poker.c74_order"
   ],
   "note": ""
  },
  {
   "property": "C75",
   "status": "proved",
   "theorems": [
    "Poker.c75_known",
    "Poker.c75_count",
    "Poker.c75_result",
    "Poker.c75_odds",
    "Poker.c75_next",
    "Poker.c75_outs"
   ],
   "note": "Odds are counts of choices of the random numbers, which C46 puts in one-to-one correspondence with the orders of the deck; that the generator makes all choices equally likely is not claimed."
  },
  {
   "property": "C76",
   "status": "proved",
   "theorems": [
    "Poker.c76_count",
    "Poker.c76_odds",
    "Poker.c76_safe",
    "Poker.c76_nuts",
    "Poker.c76_share",
    "Poker.c76_blocked"
   ],
   "note": "Exact counts over all choices of the random numbers, on top of C75 and C72."
  },
  {
   "property": "C77",
   "status": "proved",
   "theorems": [
    "Poker.Format.c77_rank",
    "Poker.Format.c77_suit",
    "Poker.Format.c77_card",
    "Poker.Format.c77_class",
    "Poker.Format.c77_eval",
    "Poker.Format.c77_parse_error",
    "Poker.Format.c77_eval_error",
    "Poker.Format.c77_format_card",
    "Poker.Format.c77_format_hand",
    "Poker.Format.c77_format_error",
    "Poker.Format.c77_room",
    "Poker.Format.c77_pad",
    "Poker.Format.c77_char",
    "Poker.Format.c77_columns"
   ],
   "note": "The formatter is modelled with its options and an arbitrary writer. `Display for usize` only for `{}`, as the crate uses it. Debug output is C48."
  },
  {
   "property": "C78",
   "status": "proved",
   "theorems": [
    "Poker.c78_chance",
    "Poker.c78_limit",
    "Poker.c78_each",
    "Poker.c78_rounds",
    "Poker.c78_again",
    "Poker.c78_index",
    "Poker.c78_safe",
    "Poker.c78_orders",
    "Poker.c78_odds",
    "Poker.c78_hands",
    "Poker.c78_enough",
    "Poker.c78_ends",
    "Poker.c78_fewest"
   ],
   "note": "rand 0.8.5, pinned in Cargo.lock, is not part of the repository: its source was not at hand, so its algorithm is modelled from knowledge of the published crate and was not compared with it. That the words of the thread's generator are equally likely and independent is not modelled."
  }
 ]
}