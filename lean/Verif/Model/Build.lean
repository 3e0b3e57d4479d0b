import Verif.Model.Game

/-! Model of the same code as compiled by any build: with or without overflow checks and debug
assertions (`cargo build` or `cargo build --release`, Cargo.toml:36-38 leaves `overflow-checks` and
`debug-assertions` at their defaults), and with a `usize` of any width.

The other files model a build with checks and take `usize` as `Nat` where it is a length or an index.
Here every `usize` operation is carried out at the width of the build, and what a build without checks
does instead of panicking is spelled out: plain arithmetic wraps, shift amounts are taken modulo the
width of the operand, `debug_assert!` does nothing.  Indexing, `unwrap` and `unreachable!` panic in
every build. -/

namespace Poker

/-- A build of the crate. -/
structure Build where
  /-- overflow checks and debug assertions are compiled in -/
  checks : Bool
  /-- the number of bits of `usize` -/
  width : Nat

namespace Build

/-- `debug_assert!(c)`. -/
def debugAssert (b : Build) (c : Bool) : Exec Unit :=
  if b.checks then (if c then .ok () else .error .assertFailed) else .ok ()

/-- What becomes of an operation that overflows, `wrapped` being the wrapped result. -/
def overflow {α : Type} (b : Build) (wrapped : α) : Exec α :=
  if b.checks then .error .arithOverflow else .ok wrapped

/-- `x + y` on `usize`. -/
def usizeAdd (b : Build) (x y : Nat) : Exec Nat :=
  if x + y < 2 ^ b.width then .ok (x + y) else b.overflow ((x + y) % 2 ^ b.width)

/-- `x - y` on `usize`. -/
def usizeSub (b : Build) (x y : Nat) : Exec Nat :=
  if y ≤ x then .ok (x - y) else b.overflow ((2 ^ b.width + x - y) % 2 ^ b.width)

/-- `x * y` on `usize`. -/
def usizeMul (b : Build) (x y : Nat) : Exec Nat :=
  if x * y < 2 ^ b.width then .ok (x * y) else b.overflow (x * y % 2 ^ b.width)

/-- `x << n`. -/
def shl {w : Nat} (b : Build) (x : BitVec w) (n : Nat) : Exec (BitVec w) :=
  if n < w then .ok (x <<< n) else b.overflow (x <<< (n % w))

/-- `x >> n` on a signed integer. -/
def sar {w : Nat} (b : Build) (x : BitVec w) (n : Nat) : Exec (BitVec w) :=
  if n < w then .ok (x.sshiftRight n) else b.overflow (x.sshiftRight (n % w))

/-- `x + y` on a signed integer. -/
def addSigned {w : Nat} (b : Build) (x y : BitVec w) : Exec (BitVec w) :=
  if x.saddOverflow y then b.overflow (x + y) else .ok (x + y)

/-- `x + y` on an unsigned integer. -/
def addUnsigned {w : Nat} (b : Build) (x y : BitVec w) : Exec (BitVec w) :=
  if x.uaddOverflow y then b.overflow (x + y) else .ok (x + y)

/-- `x as usize` for a signed `x`: sign extension or truncation to the width of `usize`. -/
def asUsize {w : Nat} (b : Build) (x : BitVec w) : Nat := (x.signExtend b.width).toNat

/-! ## `src/card/mod.rs`, `src/evaluate/utils.rs` -/

/-- src/card/mod.rs:116-126, `Card::new`. -/
def cardNew (b : Build) (rank : Rank) (suit : Suit) : Exec Card := do
  let rank_int := rank.as_i32
  let suit_int := suit.as_i32
  let rank_prime ← idx PRIMES (b.asUsize rank_int)
  let one_shifted ← b.shl (1 : BitVec 32) rank_int.toNat
  let bit_rank ← b.shl one_shifted 16
  let card_suit ← b.shl suit_int 12
  let card_rank ← b.shl rank_int 8
  return { unique_integer := bit_rank ||| card_suit ||| card_rank ||| rank_prime }

/-- src/evaluate/utils.rs:45-47, the inner loop `for j in i + 1..N`. -/
def resetFrom (b : Build) (N i : Nat) (indices : List Nat) : Exec (List Nat) := do
  let start ← b.usizeAdd i 1
  (List.range' start (N - start)).foldlM
    (fun ind j => do
      let p ← b.usizeSub j 1
      let prev ← idx ind p
      setIdx ind j (← b.usizeAdd prev 1))
    indices

/-- src/evaluate/utils.rs:38-50, the loop `for i in (0..N).rev()` with its `break`. -/
def advance (b : Build) (len N : Nat) : Nat → List Nat → Bool → Exec (List Nat × Bool)
  | 0, indices, done => .ok (indices, done)
  | i + 1, indices, done => do
    let room ← b.usizeSub len N
    let limit ← b.usizeAdd room i
    let xi ← idx indices i
    let done := if i = 0 ∧ xi = limit then true else done
    if xi < limit then do
      let indices ← setIdx indices i (← b.usizeAdd xi 1)
      let indices ← b.resetFrom N i indices
      return (indices, done)
    else
      b.advance len N i indices done

/-- src/evaluate/utils.rs:31-53, `Iterator::next for Combinations`. -/
def next {α : Type} {N : Nat} (b : Build) (self : Combinations α N) :
    Exec (Option (List α) × Combinations α N) :=
  if self.done then
    .ok (none, self)
  else do
    let result ← self.indices.mapM (fun i => idx self.data i)
    let (indices, done) ← b.advance self.data.length N N self.indices self.done
    return (some result, { self with indices := indices, done := done })

/-- A `for combo in combinations { body }` loop, `fuel` bounding the number of calls of `next`. -/
def forEach {α σ : Type} {N : Nat} (b : Build) (body : σ → List α → Exec σ) :
    Nat → Combinations α N → σ → Exec σ
  | 0, _, _ => .error .outOfFuel
  | fuel + 1, self, s => do
    let (item, self) ← b.next self
    match item with
    | none => return s
    | some combo => do
      let s ← body s combo
      b.forEach body fuel self s

/-- src/evaluate/utils.rs:85-90, `const_combos`, consumed by a `for` loop with the given body. -/
def forCombos {α σ : Type} (b : Build) (N : Nat) (items : List α) (init : σ)
    (body : σ → List α → Exec σ) : Exec σ :=
  b.forEach body (2 ^ items.length + 1) (Combinations.new N items) init

/-- src/evaluate/utils.rs:75-82, `BitSequence::get_next`. -/
def get_next (b : Build) (self : BitSequence) : Exec (BitVec 16 × BitSequence) := do
  let t := self.bits ||| (self.bits - 1)
  let next_bits := t + 1
  let fill ← b.sar ((~~~t &&& -(~~~t)) - 1) (trailingZeros self.bits + 1)
  let next_bits := next_bits ||| fill
  return (next_bits, { bits := next_bits, t := t, next_bits := next_bits })

/-- src/evaluate/utils.rs:93-103, `prime_product_from_rank_bits`. -/
def prime_product_from_rank_bits (b : Build) (rank_bits : BitVec 16) : Exec (BitVec 32) :=
  INT_RANKS.foldlM
    (fun product i => do
      let flag ← b.shl (1 : BitVec 16) i.toNat
      if rank_bits &&& flag ≠ 0 then do
        let p ← idx PRIMES (b.asUsize i)
        return product * p
      else
        return product)
    (1 : BitVec 32)

/-- src/evaluate/utils.rs:119-124, the loop `for i in INT_RANKS.rev()` with its early return. -/
def highRankLoop (b : Build) (rank_bits : BitVec 16) : List (BitVec 16) → Exec Rank
  | [] => .error .unreachable
  | i :: is => do
    let flag ← b.shl (1 : BitVec 16) i.toNat
    if rank_bits &&& flag ≠ 0 then idx Rank.ALL_VARIANTS (b.asUsize i)
    else b.highRankLoop rank_bits is

/-- src/evaluate/utils.rs:114-125, `high_rank_from_rank_bits`. -/
def high_rank_from_rank_bits (b : Build) (rank_bits : BitVec 16) : Exec Rank := do
  let wheel ← idx STRAIGHTS 9
  if rank_bits = wheel then return Rank.Five
  else b.highRankLoop rank_bits INT_RANKS.reverse

/-- src/evaluate/utils.rs:141-166, `card_to_index` (an `u8` addition). -/
def card_to_index (b : Build) (card : Card) : Exec (BitVec 8) :=
  let suit_shift : BitVec 8 :=
    match card.suit with
    | .Clubs => 0
    | .Diamonds => 13
    | .Hearts => 26
    | .Spades => 39
  let rank_shift : BitVec 8 :=
    match card.rank with
    | .Two => 0
    | .Three => 1
    | .Four => 2
    | .Five => 3
    | .Six => 4
    | .Seven => 5
    | .Eight => 6
    | .Nine => 7
    | .Ten => 8
    | .Jack => 9
    | .Queen => 10
    | .King => 11
    | .Ace => 12
  b.addUnsigned suit_shift rank_shift

/-- src/evaluate/utils.rs:130-137, the loop of `all_unique`. -/
def allUniqueLoop (b : Build) (card_flags : BitVec 64) : List Card → Exec Bool
  | [] => .ok true
  | card :: rest => do
    let i ← b.card_to_index card
    let card_flag ← b.shl (1 : BitVec 64) i.toNat
    if card_flags &&& card_flag ≠ 0 then return false
    else b.allUniqueLoop (card_flags ||| card_flag) rest

/-- src/evaluate/utils.rs:128-138, `all_unique`. -/
def all_unique (b : Build) (hand : List Card) : Exec Bool := b.allUniqueLoop 0 hand

/-! ## `src/evaluate/lookup_table.rs` -/

/-- src/evaluate/lookup_table.rs:52-66: the loop collecting `not_straights`. -/
def collectNotStraights (b : Build) : Exec (List (BitVec 16)) := do
  let (_, not_straights) ← (List.range 1286).foldlM
    (fun (st : BitSequence × List (BitVec 16)) _ => do
      let (gen, not_straights) := st
      let (bits, gen) ← b.get_next gen
      let not_straight := !(STRAIGHTS.any (fun straight => bits ^^^ straight == 0))
      return (gen, if not_straight then not_straights ++ [bits] else not_straights))
    (BitSequence.new 0b11111, [])
  return not_straights

/-- src/evaluate/lookup_table.rs:93-123: body of the loop over `STRAIGHTS`. -/
def straightBody (b : Build) (st : LookupTable × BitVec 16 × BitVec 16) (straight : BitVec 16) :
    Exec (LookupTable × BitVec 16 × BitVec 16) := do
  let (table, rank_suited, rank_unsuited) := st
  let prime_product ← b.prime_product_from_rank_bits straight
  let high_rank ← b.high_rank_from_rank_bits straight
  let flush_lookup := table.flush_lookup.insert prime_product
    (.StraightFlush ⟨rank_suited⟩ high_rank)
  let unsuited_lookup := table.unsuited_lookup.insert prime_product
    (.Straight ⟨rank_unsuited⟩ high_rank)
  return ({ flush_lookup, unsuited_lookup }, rank_suited + 1, rank_unsuited + 1)

/-- src/evaluate/lookup_table.rs:137-165: body of the loop over the reversed `not_straights`. -/
def notStraightBody (b : Build) (st : LookupTable × BitVec 16 × BitVec 16) (bits : BitVec 16) :
    Exec (LookupTable × BitVec 16 × BitVec 16) := do
  let (table, rank_suited, rank_unsuited) := st
  let prime_product ← b.prime_product_from_rank_bits bits
  let high_rank ← b.high_rank_from_rank_bits bits
  let flush_lookup := table.flush_lookup.insert prime_product
    (.Flush ⟨rank_suited⟩ high_rank)
  let unsuited_lookup := table.unsuited_lookup.insert prime_product
    (.HighCard ⟨rank_unsuited⟩ high_rank)
  return ({ flush_lookup, unsuited_lookup }, rank_suited + 1, rank_unsuited + 1)

/-- src/evaluate/lookup_table.rs:40-166, `flushes_straights_high_cards`. -/
def flushes_straights_high_cards (b : Build) (self : LookupTable) : Exec LookupTable := do
  let not_straights ← b.collectNotStraights
  let rank_suited : BitVec 16 := 1
  let rank_unsuited ← b.addSigned WORST_FLUSH 1
  let (table, _, _) ← STRAIGHTS.foldlM b.straightBody (self, rank_suited, rank_unsuited)
  let rank_suited := WORST_FULL_HOUSE + 1
  let rank_unsuited := WORST_PAIR + 1
  let (table, _, _) ← not_straights.reverse.foldlM b.notStraightBody
    (table, rank_suited, rank_unsuited)
  return table

/-- src/evaluate/lookup_table.rs:180-202: four of a kind. -/
def fourOfAKinds (b : Build) (self : LookupTable) : Exec LookupTable := do
  let rank := WORST_STRAIGHT_FLUSH + 1
  let (table, _) ← INT_RANKS.reverse.foldlM
    (fun st quad =>
      let kickers := INT_RANKS.reverse.filter (fun kicker => kicker != quad)
      kickers.foldlM
        (fun (st : LookupTable × BitVec 16) k => do
          let (table, rank) := st
          let pq ← idx PRIMES (b.asUsize quad)
          let pk ← idx PRIMES (b.asUsize k)
          let product := wrappingPow pq 4 * pk
          let quads ← idx Rank.ALL_VARIANTS (b.asUsize quad)
          return (table.insertUnsuited product (.FourOfAKind ⟨rank⟩ quads), rank + 1))
        st)
    (self, rank)
  return table

/-- src/evaluate/lookup_table.rs:206-226: full house. -/
def fullHouses (b : Build) (self : LookupTable) : Exec LookupTable := do
  let rank := WORST_FOUR_OF_A_KIND + 1
  let (table, _) ← INT_RANKS.reverse.foldlM
    (fun st trips =>
      let pair_ranks := INT_RANKS.reverse.filter (fun pr => pr != trips)
      pair_ranks.foldlM
        (fun (st : LookupTable × BitVec 16) pr => do
          let (table, rank) := st
          let pt ← idx PRIMES (b.asUsize trips)
          let pp ← idx PRIMES (b.asUsize pr)
          let product := wrappingPow pt 3 * wrappingPow pp 2
          let pair ← idx Rank.ALL_VARIANTS (b.asUsize pr)
          let trips ← idx Rank.ALL_VARIANTS (b.asUsize trips)
          return (table.insertUnsuited product (.FullHouse ⟨rank⟩ trips pair), rank + 1))
        st)
    (self, rank)
  return table

/-- src/evaluate/lookup_table.rs:230-258: three of a kind. -/
def threeOfAKinds (b : Build) (self : LookupTable) : Exec LookupTable := do
  let rank := WORST_STRAIGHT + 1
  let (table, _) ← INT_RANKS.reverse.foldlM
    (fun st trips =>
      let kickers := INT_RANKS.reverse.filter (fun kicker => kicker != trips)
      b.forCombos 2 kickers st
        (fun (st : LookupTable × BitVec 16) k => do
          let (table, rank) := st
          let c1 ← idx k 0
          let c2 ← idx k 1
          let pt ← idx PRIMES (b.asUsize trips)
          let p1 ← idx PRIMES (b.asUsize c1)
          let p2 ← idx PRIMES (b.asUsize c2)
          let product := wrappingPow pt 3 * p1 * p2
          let trips ← idx Rank.ALL_VARIANTS (b.asUsize trips)
          return (table.insertUnsuited product (.ThreeOfAKind ⟨rank⟩ trips), rank + 1)))
    (self, rank)
  return table

/-- src/evaluate/lookup_table.rs:262-289: two pair. -/
def twoPairs (b : Build) (self : LookupTable) : Exec LookupTable := do
  let rank := WORST_THREE_OF_A_KIND + 1
  let bw := INT_RANKS.reverse
  let (table, _) ← b.forCombos 2 bw (self, rank)
    (fun (st : LookupTable × BitVec 16) pairs => do
      let pair1 ← idx pairs 0
      let pair2 ← idx pairs 1
      let kickers := INT_RANKS.reverse.filter (fun kicker => kicker != pair1 && kicker != pair2)
      kickers.foldlM
        (fun (st : LookupTable × BitVec 16) kicker => do
          let (table, rank) := st
          let p1 ← idx PRIMES (b.asUsize pair1)
          let p2 ← idx PRIMES (b.asUsize pair2)
          let pk ← idx PRIMES (b.asUsize kicker)
          let product := wrappingPow p1 2 * wrappingPow p2 2 * pk
          let high_pair ← idx Rank.ALL_VARIANTS (b.asUsize pair1)
          let low_pair ← idx Rank.ALL_VARIANTS (b.asUsize pair2)
          return (table.insertUnsuited product (.TwoPair ⟨rank⟩ high_pair low_pair), rank + 1))
        st)
  return table

/-- src/evaluate/lookup_table.rs:293-323: pair. -/
def pairs (b : Build) (self : LookupTable) : Exec LookupTable := do
  let rank := WORST_TWO_PAIR + 1
  let (table, _) ← INT_RANKS.reverse.foldlM
    (fun st pair_rank =>
      let kickers := INT_RANKS.reverse.filter (fun kicker => kicker != pair_rank)
      b.forCombos 3 kickers st
        (fun (st : LookupTable × BitVec 16) kicker_combo => do
          let (table, rank) := st
          let k1 ← idx kicker_combo 0
          let k2 ← idx kicker_combo 1
          let k3 ← idx kicker_combo 2
          let pp ← idx PRIMES (b.asUsize pair_rank)
          let p1 ← idx PRIMES (b.asUsize k1)
          let p2 ← idx PRIMES (b.asUsize k2)
          let p3 ← idx PRIMES (b.asUsize k3)
          let product := wrappingPow pp 2 * p1 * p2 * p3
          let pair ← idx Rank.ALL_VARIANTS (b.asUsize pair_rank)
          return (table.insertUnsuited product (.Pair ⟨rank⟩ pair), rank + 1)))
    (self, rank)
  return table

/-- src/evaluate/lookup_table.rs:169-326, `multiples`. -/
def multiples (b : Build) (self : LookupTable) : Exec LookupTable := do
  let table ← b.fourOfAKinds self
  let table ← b.fullHouses table
  let table ← b.threeOfAKinds table
  let table ← b.twoPairs table
  b.pairs table

/-- src/evaluate/lookup_table.rs:28-36 and src/evaluate/mod.rs:82, `Evaluator::new`. -/
def new (b : Build) : Exec Evaluator := do
  let table : LookupTable := { flush_lookup := .empty, unsuited_lookup := .empty }
  let table ← b.flushes_straights_high_cards table
  return ⟨← b.multiples table⟩

/-! ## `src/evaluate/evaluation.rs` -/

/-- src/evaluate/evaluation.rs:39-52, `five`. -/
def five (b : Build) (evaluator : Evaluation) (cards : List Card) : Exec Eval := do
  let uniques := cards.map Card.unique_integer
  let detect_flush := uniques.foldl (fun acc x => acc &&& x) 0xF000#32 != 0
  if detect_flush then do
    let bit_rank_or ← b.sar (uniques.foldl (fun acc x => acc ||| x) 0#32) 16
    let prime ← b.prime_product_from_rank_bits (bit_rank_or.truncate 16)
    let m ← evaluator.flush_lookup prime
    return ⟨m⟩
  else do
    let prime := prime_product_from_hand cards
    let m ← evaluator.unsuited_lookup prime
    return ⟨m⟩

/-- src/evaluate/evaluation.rs:58-63: one iteration of the loop of `six_plus`. -/
def sixPlusBody (b : Build) (evaluator : Evaluation) (current_max : Eval) (combo : List Card) :
    Exec Eval := do
  let score ← b.five evaluator combo
  return if score.gt current_max then score else current_max

/-- src/evaluate/evaluation.rs:54-65, `six_plus`. -/
def six_plus (b : Build) (evaluator : Evaluation) (cards : List Card) : Exec Eval := do
  b.debugAssert (cards.length > 5)
  b.forCombos 5 cards Eval.WORST (b.sixPlusBody evaluator)

/-- src/evaluate/evaluation.rs:24-37, `evaluate`, as called by `Evaluator::evaluate`
(src/evaluate/mod.rs:148-151). -/
def evaluate (b : Build) (self : Evaluator) (cards : List Card) :
    Exec (Except EvalError Eval) := do
  if (← b.all_unique cards) then
    if cards.length < 5 then return .error (.InvalidHandSize cards.length)
    else if cards.length = 5 then do
      let c0 ← idx cards 0
      let c1 ← idx cards 1
      let c2 ← idx cards 2
      let c3 ← idx cards 3
      let c4 ← idx cards 4
      return .ok (← b.five self.toEvaluation [c0, c1, c2, c3, c4])
    else return .ok (← b.six_plus self.toEvaluation cards)
  else
    return .error (.CardsNotUnique cards)

/-! ## `examples/jacks-or-better.rs` -/

open Game (State Input Answer)

/-- examples/jacks-or-better.rs:233-264, `payout`. -/
def payout (b : Build) (wager : Nat) : EvalClass → Exec Nat
  | .Pair .Jack | .Pair .Queen | .Pair .King | .Pair .Ace => .ok wager
  | .TwoPair _ _ => b.usizeMul 2 wager
  | .ThreeOfAKind _ => b.usizeMul 3 wager
  | .Straight _ => b.usizeMul 4 wager
  | .Flush _ => b.usizeMul 6 wager
  | .FullHouse _ _ => b.usizeMul 9 wager
  | .FourOfAKind _ => b.usizeMul 25 wager
  | .StraightFlush .Ace => if wager = Game.MAX_WAGER then .ok 4000 else b.usizeMul 250 wager
  | .StraightFlush _ => b.usizeMul 50 wager
  | _ => .ok 0

/-- examples/jacks-or-better.rs:171-229, one turn of the loop of `get_swaps`. -/
def get_swaps (b : Build) (order : List (Nat × Nat) → List (Nat × Nat)) :
    Option Str → Exec (Answer (List Nat))
  | none => .ok .quit
  | some input =>
    if input = "quit".toList then .ok .quit
    else
      match Game.parseAll (split_whitespace input) with
      | none => .ok (.again ("Error parsing input '".toList ++ input
          ++ "'. Expected space-separated list of card numbers to swap.\n".toList))
      | some swaps =>
        if !swaps.all (fun num => decide (1 ≤ num ∧ num ≤ 5)) then
          .ok (.again ("Error parsing input '".toList ++ input
            ++ "'. Not all listed numbers are between 1 and 5.\n".toList))
        else if ¬ (swaps.length ≤ 5) then
          .ok (.again ("Error parsing input '".toList ++ input
            ++ "'. Specified more than 5 cards to swap.\n".toList))
        else if !Game.allInserted [] swaps then
          let counts := (counts order swaps).filterMap
            (fun (swap, count) => if count > 1 then some (natStr swap) else none)
          .ok (.again ("Cannot provide duplicate cards to swap: ".toList ++ joinSpace counts
            ++ ".\n".toList))
        else do return .accept (← swaps.mapM (fun x => b.usizeSub x 1))

/-- examples/jacks-or-better.rs:20-35: set up, and run to the first `readline`. -/
def start (b : Build) (draw : Nat → Nat) : Exec (Evaluator × State × List Str) := do
  let eval ← b.new
  let deck ← Deck.shuffled_with draw
  return (eval, .wager Game.STARTING_CREDITS deck [], [Game.wagerMessage Game.STARTING_CREDITS])

/-- examples/jacks-or-better.rs:40-52: from an accepted wager to the `readline` of `get_swaps`. -/
def afterWager (b : Build) (eval : Evaluator) (credits wager : Nat) (deck hand : List Card) :
    Exec (State × List Str) := do
  let credits ← b.usizeSub credits wager
  let (drained, deck) ← Game.drainFront 5 deck
  let hand := hand ++ drained
  let first_eval ← Game.unwrap (← b.evaluate eval hand)
  let line ← Game.handLine hand first_eval
  return (.swaps credits wager first_eval deck hand, [line, Game.numbersLine, Game.swapsMessage])

/-- examples/jacks-or-better.rs:84-86: the credits after the winnings. -/
def collect (b : Build) (credits wager winnings : Nat) : Exec Nat :=
  if winnings > 0 then do b.usizeAdd credits (← b.usizeAdd wager winnings) else .ok credits

/-- examples/jacks-or-better.rs:57-102: from accepted swaps to the next `readline` or to the end. -/
def afterSwaps (b : Build) (eval : Evaluator) (input : Input) (credits wager : Nat)
    (first_eval : Eval) (deck hand : List Card) (swaps : List Nat) : Exec (State × List Str) := do
  let (deck, hand) ← Game.replace input.drawSwap swaps deck hand
  let second_eval ← Game.unwrap (← b.evaluate eval hand)
  let line ← Game.handLine hand second_eval
  let winnings ← b.payout wager second_eval.class'
  let credits ← b.collect credits wager winnings
  let out := line :: Game.compared second_eval.class' first_eval.class'
    ++ ["Winnings: ".toList ++ natStr winnings]
  if credits = 0 then
    return (.over credits deck hand, out ++ ["Game over!".toList])
  else do
    let deck := deck ++ hand
    let deck ← Deck.shuffle input.drawRound deck
    return (.wager credits deck [], out ++ [[], Game.wagerMessage credits])

/-- One step of the game, as in `Game.step`. -/
def step (b : Build) (eval : Evaluator) (input : Input) : State → Exec (State × List Str)
  | .wager credits deck hand =>
    match Game.get_wager credits input.line with
    | .quit => .ok (.quit credits deck hand, [])
    | .again message => .ok (.wager credits deck hand, [message, Game.wagerMessage credits])
    | .accept wager => b.afterWager eval credits wager deck hand
  | .swaps credits wager first_eval deck hand => do
    match ← b.get_swaps input.order input.line with
    | .quit => .ok (.quit credits deck hand, [])
    | .again message =>
      .ok (.swaps credits wager first_eval deck hand, [message, Game.swapsMessage])
    | .accept swaps => b.afterSwaps eval input credits wager first_eval deck hand swaps
  | .quit credits deck hand => .ok (.quit credits deck hand, [])
  | .over credits deck hand => .ok (.over credits deck hand, [])

/-- The game on a history of inputs. -/
def run (b : Build) (eval : Evaluator) : List Input → State → Exec (State × List Str)
  | [], s => .ok (s, [])
  | i :: is, s => do
    let (s, out) ← b.step eval i s
    let (s, out') ← b.run eval is s
    return (s, out ++ out')

/-- The whole game. -/
def game (b : Build) (draw : Nat → Nat) (inputs : List Input) : Exec (State × List Str) := do
  let (eval, s, out) ← b.start draw
  let (s, out') ← b.run eval inputs s
  return (s, out ++ out')

end Build
end Poker
