# Formal model of deus-x-mackina/poker in Lean 4: design

## 1. What is modelled, and how

Every definition in `lean/Verif/Model/` cites the file and lines of `/repo` it models. The model is
written function by function, as total computable Lean functions.

| Rust | Lean model |
| --- | --- |
| `i16`, `i32`, `u8`, `u64` | `BitVec 16/32/8/64`, with the signed operations where Rust's type is signed |
| `wrapping_*` | `BitVec` arithmetic (wraps) |
| plain `+ - <<` `>>`, `a[i]` | *checked* operations in the `Exec` monad: an overflow, an oversized shift or a bad index is an explicit `Panic` value. A theorem "never panics" therefore also says debug and release builds agree |
| `usize` | `Nat` with checked subtraction (lengths never come near 2^64) |
| `&str`, `String`, `char` | `List Char` (`Str`), `Char`: both are sequences of Unicode scalar values. Byte length = sum of UTF-8 sizes |
| `Result`, `Option` | `Except`, `Option` |
| `panic!`, `unreachable!`, `Index` on a missing key, `unwrap` on an error | `Except.error (p : Panic)` in `Exec` |
| `FxHashMap`, `phf::Map` | finite map as a list of entries with distinct keys; iteration order is never used by the modelled code, except in error texts, where it is an arbitrary parameter |
| `for` loops | `foldlM` over the list of items; `for` over an iterator object is a fuelled loop over its `next`, with `Panic.outOfFuel` for non-termination (proved unreachable) |
| `rand::Rng` + `shuffle` | Fisher–Yates of rand 0.8, the index draws being an arbitrary input stream; made from an arbitrary stream of words for C78 |

Specification files (`lean/Verif/Spec/`) state the rules of poker and other independent notions
without using the model's helper functions. Property theorems are in `lean/Verif/Props/`, one file
per group, apart from helper lemmas in `lean/Verif/Proofs/`.

Cards: `Card`'s field is private in Rust, so the constructible cards are the values of
`Card::new r s`. The model keeps `Card` as a raw 32-bit integer; theorems quantify over lists `h` of
rank/suit pairs and speak about `deal h`, the list of the `Card::new r s`.

## 2. Plan per property

* **C01, C02, C29** — spec `strength : hand -> category x tie-break list` (rules of poker). The table
  construction is shown to be the insertion of an explicit enumeration of 7462 hand kinds in
  decreasing strength (kernel evaluation over the whole finite table), keys are distinct by unique
  factorisation, every five-card hand is one of the kinds (case analysis). Hence rank number and
  strength are order-isomorphic.
* **C03, C07, C23** — the combination iterator is proved (induction, any size, any slice) to produce
  all N-element sublists in lexicographic order; `six_plus` is a fold of max over them.
* **C04, C36** — checked arithmetic in the model; theorems say the result is never `error`.
* **C05, C06, C10, C12, C13, C31, C38** — corollaries of C01–C03 with perm-invariance of the spec.
* **C08** — enumeration of the 7462 kinds gives attained ranks; bounds by the same.
* **C09, C11** — direct from the definitions of `Meta`'s impls for all values, i16 ordering.
* **C14, C15, C16, C17, C35** — bit-vector reasoning over all ranks/suits; strings by case analysis
  on the character list.
* **C18, C19** — induction over the list of strings / characters.
* **C20** — proved as preorder; the Eq/Ord contract violation proved with a witness.
* **C21, C22** — deck by computation; Fisher–Yates by induction on the number of swaps.
* **C24** — small-step model of threads running the combination loop over shared tables; induction
  over the schedule.
* **C25** — parametricity of `evaluate` in the lookup functions; counterexample for the weak test.
* **C26** — negation proved, for all slices with at least five distinct cards.
* **C27** — proved for ASCII; negation by a witness for non-ASCII.
* **C28** — computation over all 429 classes, lifted.
* **C30** — list lemma + C05, for any number of slices.
* **C32** — table contents determined; size by distinct keys.
* **C33, C34** — payout by cases; state machine of the game with arbitrary inputs and shuffles.
* **C37** — bit-level argument for the next-permutation trick.
* **C39, C40** — REPL step function over all lines; every session is a list of input events.
* **C41** — the swap of cards as a list operation, with the discards going back to the deck.
* **C42** — an independent definition of the best hand among any number of cards, by looking for each
  category in the whole set of cards (not by listing five-card subsets), and equality with C03.
* **C43** — the exact texts that the game prints, as an independent grammar.
* **C44** — iterators as arbitrary state machines, pulled from either end; induction over pulls; fuel for
  `try_collect`.
* **C45** — counting hands rank by rank: the number of cards taken of each rank, with the binomial
  weights, and a correction for the hands of one suit. The recurrence is proved equal to the sum over
  all 2598960 subsets; its value is computed by the kernel.
* **C46** — C22's bijection between choices and orders, restated as counts: the number of choices that
  put a given set on top is k!(52-k)!; summing over the hands of C45 gives the odds of each result.
* **C47** — the functions that compute with machine integers are modelled a second time
  (`Model/Build.lean`), over primitives that depend on the build: with checks they panic, without they
  wrap as Rust defines it; `usize` has any width from 16 bits. Each is shown to return the value of
  the checked model wherever that returns one, function by function.
* **C48** — the formatter's builders as functions on texts; a text is shown to be decodable (a prefix
  code) piece by piece: digits, names, quoted strings, records, lists, maps, and indentation. The
  order in which the maps of an evaluator are printed is any permutation of their entries.
* **C49** — as C45 for six and seven cards. The category without suits depends on how many cards there
  are of each rank; a flush is read off the cards of its one suit, and with at most seven cards excludes
  a full house and four of a kind. Both counts are recurrences over the ranks, proved equal to the sums
  over all sets of cards and evaluated by the kernel.
* **C50** — the tests and documentation examples as programs in `Exec` (`Model/Tests.lean`), run by the
  kernel where they are closed, by C01, C22, C25, C27, C42 and C46 where they loop over all hands or
  depend on random numbers or hash order. This is also a check of the model against the expectations
  written in `/repo`.
* **C51** — a shuffle of any list with at most 52 cards gives every order equally often (from C46 by a
  count of the choices that agree on the first places), so the first `k` cards are any `k`-set equally
  often. `swap_cards` is such a shuffle of the deck with the discards. What comes back for a wager
  depends on the kind of the hand only; the kinds of all completions of a pair are counted as in C45.
* **C52** — the examples' loops are modelled a second time with styled output (`Model/Screen.lean`);
  what is on the screen is shown to be a function of the texts of C43 alone, and the style of a result a
  function of the category of C09.
* **C53** — the cards are counted by value and by suit: without a straight two of the thirteen values
  are missing, without a flush there are at most four cards of a suit, and so on. Explicit hands, checked
  by the kernel, reach every bound, and with C31 this is about what `evaluate` returns.
* **C54** — the build script as a function of everything outside (environment, file system, server), which
  records files and requests (`Model/Script.lean`); by cases, and C25 and C26 for the tables.
* **C55** — by C42 a result is read off the counts of the values, so each of the 7462 worths bounds how
  often every value may occur. For hands without straight or flush the most cards are the best total over
  sets of values without a straight, found by the kernel for each worth; hands within the bounds are dealt
  with the suits in turn, so that sixteen cards have no five of a suit. Cards outside the best five may be
  left out, which gives all smaller numbers. From seventeen cards on every hand has a flush or better
  (C53). For each such worth `Proofs/MaskTable.lean` has a largest hand (four sets of values, one for a
  suit) and a few sets of values for the upper bound: values in the set are bounded by how often the worth
  allows them, the others suit by suit by how many values fit without a straight. The kernel checks every
  row; nothing about how the table was made is trusted.
* **C56** — the arms of the macros as data and the compiler's matcher over any way of reading expressions
  (`Model/Macros.lean`); induction over the tokens shows what each pattern accepts, and that an arm for
  names never ends the call with an error, so that the next one is tried.
* **C57** — the examples once more as programs in a small monad of input and output (`Model/Program.lean`),
  statement by statement; a simulation shows that a run agrees with the state machine at every call of
  `readline`, by induction over the inputs.
* **C58** — the sets with given numbers of cards of each rank are the choices of suits rank by rank, a
  product of binomial coefficients; by C29 the ties of a hand are these, without or only with those of
  one suit. Summing over the ladder of results gives how many hands are better or worse.
* **C59** — induction over the rounds for all decks still to be shuffled: the average after the remaining
  rounds depends on the credits alone, not on the order of the deck, so the sum over the choices of one
  round (as in C51) can be taken inside.
* **C60** — the credits at stake grow only when a round ends, which takes two lines; the bound of C34 is
  carried along for pairs of lines. A deck with a royal flush on top can be shuffled into itself, by C22.
* **C61** — the sums of C51 taken with the indicator of a prize instead of the prize.
* **C62** — the average over a round is the sum over all hands of the worth of the cards kept, so the
  best play takes for each hand the maximum over its 32 parts. The worth of a part depends only on its
  values and on whether it is of one suit; `HoldTables.lean` lists all worths, and the kernel checks
  that they satisfy the recurrence of adding one card (`HoldCheck251.lean` for the wagers 1 to 4 and
  `HoldCheck801.lean` for 5; the tables are generated, but nothing about how is trusted). The sum over all hands is then
  computed by multisets of values with all ways to distribute the suits.
* **C63** — induction over the lines with two bounds, from a request for a wager (over all shuffles of
  the deck, which the player has not seen) and from a request for cards (for each hand). What is printed
  does not depend on the shuffle at the end of a round. The player who reaches the bound reads the hand
  off the printed line, which determines it.
* **C64** — C61 gives the average over a round of any function of the number of wagers that come back;
  an induction over the rounds turns the chance to be broke into the recursion `ruin` of
  `Spec/Broke.lean`. For `x` with `mean x^m ≤ x` it is at most `x ^ k`, and for `x` with the opposite
  inequality at least `x ^ k` less a part that vanishes with the rounds (`Proofs/Broke.lean`).
* **C65** — the step of C34 without its bound: the two additions to the credits are the only place where
  a step can fail, in either build. A bound on the history is no longer needed, only the two cases.
  For the screen at a panic the program as written is followed from question to question
  (`Proofs/Burst.lean`).
* **C66** — the categories are separated by features: no straight flush, no flush, no straight, and how
  often the ranks may occur. Each feature is a sum over all sets of cards taken rank by rank, with four
  small numbers as the state (the length of the run, or the number of cards, in each suit); the sum is
  proved equal to that over the 2^52 sets and evaluated by the kernel (`Proofs/FreqSum.lean` to
  `FreqCount.lean`). All counts for one feature are the digits of one number. C31 says that the category
  is what `evaluate` returns.
* **C67** — from C03, C07 and C12: a list between the best five cards and all of them has a result between
  two equal ones.
* **C68** — by C46 the choices of the generator correspond to the orders of the deck, and moving the places of
  the deck around is a bijection of the orders. Any two ways to take cards from different places are
  related by such a move.
* **C69** — hands that tie have the same ranks and are both of one suit or both not (C29). The hands with given
  ranks among the cards that are left are chosen rank by rank; those of one suit correspond to the suits that do
  not occur. The pairs are counted by category with C66, without the pairs where exactly one hand is of one suit;
  those are counted from the side of that hand. An order of the deck is a pair of hands, an order of each, and an
  order of the rest.
* **C70** — at least three of the five cards that count come from the board, which gives one direction; for the
  other, the two cards are written down: the missing cards of the straight, the rank or the suit, filled up with
  cards that do no harm. That there always are two values that complete no straight is one search over the at
  most five values on a board (`sweep_all`, kernel evaluation over all 2380 sets); that there is a suit to
  spare is counting. The categories are those of C31.
* **C71** — excluded steps by how often values can repeat in six or seven cards with five different ones; the steps
  that happen by a table of 93 hands, checked by the kernel; the numbers by listing the cards that help, value by
  value or within one suit, less those that make a flush.
* **C72** — the cases of the board from the top (as in C70); within a straight flush or straight the highest top for
  which three values are there; for a flush, that in any beginning of the values from the ace down two cards of one's
  own count at most as the two best missing ones.
* **C73** — by C42 the result is what is read off the cards: without five of a suit this uses only how often each
  value occurs; with five of seven cards in a suit there is no four of a kind or full house, and no other suit counts.
* **C74** — the worth of C42 of the raised hand has the same category and each value one higher; without an ace no
  straight is lost or gained.
* **C75** — the orders of the deck that begin with given cards are these cards followed by any order of the others;
  for the next `k` cards they are a disjoint union over the ways to go on; with C46 (each order for one choice) and
  C71.
* **C76** — `Opponent` says what evaluating the opponent's cards of a deck with the board gives; `holdings` counts ways to
  give an opponent cards, with nothing about decks. Theorems about `ways` are exact counts of choices of the random
  numbers. `c76_blocked` shows a hand that is safe without being the best the board allows.
* **C77** — `Display` of ranks, suits, cards, classes, evaluations and errors, as programs that write to a
  writer that may refuse: `Writes` says what writing a text means, and holds for every writer, state and
  set of options. Hence the text from `format!` is the same for all options, and a full buffer holds a
  beginning of it. A text itself does obey width and precision (`c77_pad`).
* **C78** — the numbers that the shuffle draws, which C22 and C46 take as given, are made from 32-bit words
  as in rand 0.8.5 (widening multiplication and rejection). Each number below `b` comes from exactly
  `2^leading_zeros(b)` of the words; by induction over the words and the draws all orders come from equally
  many sequences, also those of several shuffles in turn (`c78_rounds`). The bound for the number of words
  is by Pascal's rule. The chances, as limits, follow from the recursion over the words (`c78_chance`).

No property is `not_applicable`; every claim in `MANIFEST.json` has the status `proved`.

## 3. Trusted base

* **Lean's kernel** (4.33.0) and its built-in arithmetic on `Nat` literals (GMP), which `decide +kernel`
  uses for the checks over whole finite tables. No `native_decide`, no `bv_decide`, no
  `implemented_by`, no `unsafe`, no compiler in the trusted base.
* **Axioms.** There are no axioms of our own and no `sorry`. `#print axioms` on the theorems of
  `MANIFEST.json` gives only Lean's standard three:
  * `c11_hash`: none;
  * `propext` only: `c09_exactly_one`, `c09_royal`, `c23_zero`, `c30_concat`, `c35_case`, `c35_rank`,
    `c35_suit`, `c77_char`, `c77_rank`, `c77_suit`;
  * `propext` and `Quot.sound`: `c09_agree`, all of C14 to C17 and C18, `c19_idents`, `c19_strings`, all of C20,
    `c21_deck`, `c22_deck`, `c22_perm`, `c23_too_few`, `c25_same_entries`, `c36_generator`,
    `c41_swap`, all of C44 but `c44_slice_ends`, `c47_wrap`, `c50_assertions`, `c50_deck`, `c52_alike`,
    `c56_box`;
  * `propext`, `Quot.sound` and `Classical.choice`: all others (they use Mathlib lemmas, `omega` or
    `simp`).
* **The model.** That `Verif/Model` says what the Rust code says is not machine-checked; it was written
  and re-read against `/repo` by hand. Each definition cites its lines.
* **The meaning of Rust.** The table in section 1 (integer types, panics, strings, `Result`), the
  documented behaviour of the standard library functions used (`char::is_whitespace`,
  `str::split_whitespace`, `str::parse::<usize>`, `sort`, `dedup`, `Iterator::max`, `format!`, `write!`, `Formatter::pad`), of
  `rand` 0.8's `shuffle` (Fisher-Yates from the back, numbers from words by multiplication and rejection), of `HashMap` (a finite map with an
  arbitrary iteration order), of `rustyline` (each call returns a line or an error), and of
  `macro_rules!` (all places in a pattern kept at once, a fragment read only if it is the one way on, no
  way back from there). The sources of the standard library and of these crates were not at hand: what they
  do is written down from knowledge of them, also where code of theirs is quoted (`Model/Rand.lean`,
  `Model/Format.lean`), and was neither compared with the sources nor run.

## 4. What is modelled and what is not

| File | Modelled |
| --- | --- |
| `src/constants.rs` | all |
| `src/card/rank.rs`, `suit.rs` | all; `Hash` as the value fed to the hasher |
| `src/card/mod.rs` | all |
| `src/card/macros.rs` | all: which calls match which arm, and what the expansions compute; how the compiler reads an expression is a parameter; types and lifetimes of the expansions are not modelled |
| `src/deck.rs` | all; the random numbers are an arbitrary stream `draw i <= i`; in `Model/Rand.lean` they are made from arbitrary 32-bit words as in rand 0.8.5 |
| `src/error.rs` | all; in `Debug`, which characters Unicode makes print as codes is a parameter |
| `src/evaluate/hand_rank.rs`, `meta.rs`, `class.rs`, `eval.rs` | all |
| `src/evaluate/lookup_table.rs` | all, with the table as a finite map; capacities (speed only) left out |
| `src/evaluate/utils.rs` | all |
| `src/evaluate/evaluation.rs`, `mod.rs` | all |
| `src/evaluate/static_lookup.rs` | `evaluate` over an arbitrary table, and the test that compares tables; the table itself is downloaded at build time and is not in the repository, so the theorems say what follows *if* its entries are those of `LookupTable::new` (C25) |
| `build.rs` | all; environment, file system and network are parameters |
| `examples/jacks-or-better.rs` | the whole game loop as a state machine over input events, with the printed text, colours, clearing of the screen and the welcome; and a second time as a program with its loops and prompts (`Model/Program.lean`) |
| `examples/poker-repl.rs` | the loop over input events, the printed text and its styles; and as a program, with prompts and history |
| `examples/common/mod.rs` | `clear_terminal!`, `highlight_prompt`, and `editor` as succeeding or not; the control sequences that `colored` makes of a style are not modelled |
| `benches/evaluation.rs` | the routines, once each; timing not |
| `README.md` | the example program |

The `#[test]` functions and documentation examples are modelled in `Model/Tests.lean`. `Display` is
modelled as the text, and in `Model/Format.lean` as a program that writes it to a formatter.

Threads (C24) are modelled as interleavings of the steps of the evaluation loop over tables that no
step can write; reference counting in `Arc`, the scheduler and weak memory are not modelled.

`usize` is a `Nat` (in `Model/Build.lean` a `Nat` below 2^width): sizes are lengths of slices in memory. Where a number that is not a length is a
`usize` (credits, wagers), the model checks for overflow at 2^64.

## 5. Findings

Behaviour of the code that its documentation or names do not suggest; each is proved.

* `Evaluator::default()` has empty tables and panics on every slice of at least five distinct cards
  (C26).
* `Card`'s `Ord` is not consistent with its `Eq`: cards of one rank compare `Equal` (C20).
* The text of `InvalidLength` prints the number of bytes, not of characters (C27).
* The README's payout chart differs from the code for straight and royal flushes (C33).
* `ensure_identical_tables` compares only rank numbers, so it would accept a table with wrong classes
  (C25).
* `Combinations` never ends for `N = 0` and panics for `N` above the length (C23); the crate only uses
  it where neither can happen (C36).
* `CardsNotUnique` is reported before `InvalidHandSize` (C04).
* In the game, discarded cards go back to the deck before new ones are dealt, so they may come back
  (C41). The wager is given back on top of the prize, so the chart favours the player: a simple rule
  gains 12.9 % of the wager per round (C51), and the best play 40 % (C62), but no strategy gains more
  than 2.057 credits per round (C63). By the simple rule, betting one credit at a time, the chance ever
  to be broke is one in about 18400 (C64). Better kickers are not mentioned (C43). Credits can overflow,
  after 9223372036854776 lines of input and no sooner (C60); then a debug build panics, a release build
  wraps to almost nothing (C47). Nothing else can panic (C65).
* The `DoubleEndedIterator`, `ExactSizeIterator` and `FusedIterator` implementations of `ParseToIter`
  cannot be reached by callers (C44).
* The REPL shows pairs and two pairs in one colour: bright magenta and bright purple are the same (C52).
* The build script does not look at the HTTP status, so the text of an error page would be written to
  `codegen.rs`; it empties the file before it has the new text; and it goes by `DOCS_RS=1` where the
  library goes by `--cfg docsrs` (C54).
* `cards!(a, b)` with two variables never parses them: they are taken as the names of a rank and a suit,
  and the call does not compile. `cards!(a, b,)`, `cards!(a, b, c)` and `cards!(&a, b)` do parse. A comma
  after a single card or string is not allowed, unlike after several (C56).
* Width, fill, alignment and precision have no effect on cards, ranks, suits, names of hands and errors:
  `{:>10}` makes no columns of them (C77).

Seen but outside the model: the capacities 6175 and 1287 of the two tables are swapped (speed only); a
comment in `card/mod.rs` calls the leftmost rank bit king, it is ace.

## 6. Testing the theorems

Realistic bugs are put into a copy of the model, one at a time, and the project is rebuilt; an executable
probe compares the changed model with the specification on samples, to see which claims the bug breaks.
`seeded/LOG.jsonl` has one line per attempt, with the theorems that failed and those that were
tightened because they did not.

How to read a line:

* `failed_declarations` are the ones in which Lean reported an error. The build does not go past a module
  that fails, so modules that import it were not checked at all.
* `theorems_failed` is derived: the theorems of the manifest that are, or use, a failed declaration. It is
  computed from the unchanged proofs.
* A failure only says that the proof no longer goes through. When it is in a lemma, that is not yet
  evidence that the claim became false, and an edit that changes nothing observable can break a proof too;
  such edits carry a `note`. `probe_found_false` lists the claims for which the probe found a counterexample.
* The attempts were made at different times, each against the model of that time.
