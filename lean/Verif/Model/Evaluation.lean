import Verif.Model.LookupTable

/-! Model of `src/evaluate/evaluation.rs`, `src/evaluate/mod.rs`, `src/evaluate/static_lookup.rs`
and of the data type `EvalError` of `src/error.rs`. -/

namespace Poker

/-- src/error.rs:177-185, `enum EvalError`. -/
inductive EvalError
  | CardsNotUnique (cards : List Card)
  | InvalidHandSize (size : Nat)
  deriving DecidableEq, Repr

/-- src/evaluate/evaluation.rs:10-14, `trait Evaluation`: two tables that can be indexed by an `i32`,
indexing possibly panicking. -/
structure Evaluation where
  flush_lookup : BitVec 32 → Exec Meta
  unsuited_lookup : BitVec 32 → Exec Meta

/-- src/evaluate/evaluation.rs:39-52, `five`. -/
def five (evaluator : Evaluation) (cards : List Card) : Exec Eval := do
  let uniques := cards.map Card.unique_integer
  let detect_flush := uniques.foldl (fun acc x => acc &&& x) 0xF000#32 != 0
  if detect_flush then do
    let bit_rank_or ← sar (uniques.foldl (fun acc x => acc ||| x) 0#32) 16
    let prime ← prime_product_from_rank_bits (bit_rank_or.truncate 16)
    let m ← evaluator.flush_lookup prime
    return ⟨m⟩
  else do
    let prime := prime_product_from_hand cards
    let m ← evaluator.unsuited_lookup prime
    return ⟨m⟩

/-- src/evaluate/evaluation.rs:58-63: one iteration of the loop of `six_plus`. -/
def sixPlusBody (evaluator : Evaluation) (current_max : Eval) (combo : List Card) : Exec Eval := do
  let score ← five evaluator combo
  return if score.gt current_max then score else current_max

/-- src/evaluate/evaluation.rs:54-65, `six_plus`. -/
def six_plus (evaluator : Evaluation) (cards : List Card) : Exec Eval := do
  debugAssert (cards.length > 5)
  forCombos 5 cards Eval.WORST (sixPlusBody evaluator)

/-- src/evaluate/evaluation.rs:24-37, `evaluate`. -/
def evaluate (evaluator : Evaluation) (cards : List Card) : Exec (Except EvalError Eval) := do
  if (← all_unique cards) then
    if cards.length < 5 then return .error (.InvalidHandSize cards.length)
    else if cards.length = 5 then do
      let c0 ← idx cards 0
      let c1 ← idx cards 1
      let c2 ← idx cards 2
      let c3 ← idx cards 3
      let c4 ← idx cards 4
      return .ok (← five evaluator [c0, c1, c2, c3, c4])
    else return .ok (← six_plus evaluator cards)
  else
    return .error (.CardsNotUnique cards)

/-- src/evaluate/mod.rs:76-77, `struct Evaluator(LookupTable)`; a clone is the same value. -/
structure Evaluator where
  table : LookupTable
  deriving Repr, DecidableEq

namespace Evaluator

/-- src/evaluate/mod.rs:82, `Evaluator::new`. -/
def new : Exec Evaluator := do
  return ⟨← LookupTable.new⟩

/-- src/evaluate/mod.rs:76, derived `Default`. -/
def default : Evaluator := ⟨LookupTable.default⟩

/-- src/evaluate/mod.rs:76, derived `PartialEq`. -/
def eq (a b : Evaluator) : Bool := a.table.eq b.table

/-- src/evaluate/evaluation.rs:16-22, `impl Evaluation for Evaluator`. -/
def toEvaluation (self : Evaluator) : Evaluation where
  flush_lookup := self.table.flush_lookup.index
  unsuited_lookup := self.table.unsuited_lookup.index

/-- src/evaluate/mod.rs:148-151, `Evaluator::evaluate`. -/
def evaluate (self : Evaluator) (cards : List Card) : Exec (Except EvalError Eval) :=
  Poker.evaluate self.toEvaluation cards

end Evaluator

namespace StaticLookup

/-- src/evaluate/static_lookup.rs:22-43: the tables included from the downloaded `codegen.rs`
(empty on docs.rs).  Their contents are not in the repository, so they are a parameter. -/
structure Statics where
  FLUSH_LOOKUP : FxHashMap Meta
  UNSUITED_LOOKUP : FxHashMap Meta

/-- src/evaluate/static_lookup.rs:37-43, `impl Evaluation for StaticEvaluator`. -/
def toEvaluation (s : Statics) : Evaluation where
  flush_lookup := s.FLUSH_LOOKUP.index
  unsuited_lookup := s.UNSUITED_LOOKUP.index

/-- src/evaluate/static_lookup.rs:102-105, `static_lookup::evaluate`. -/
def evaluate (s : Statics) (cards : List Card) : Exec (Except EvalError Eval) :=
  Poker.evaluate (toEvaluation s) cards

/-- src/evaluate/static_lookup.rs:181-185 and 188-192: one half of `ensure_identical_tables`.
`&fl[key]` panics on a missing key, `assert_eq!` compares with `Meta`'s `==`. -/
def identicalTables (dynamic static : FxHashMap Meta) : Bool :=
  static.entries.all (fun e =>
    match dynamic.get? e.1 with
    | some v => v.eq e.2
    | none => false)
  && dynamic.len == static.len

/-- src/evaluate/static_lookup.rs:172-193, the test `ensure_identical_tables` passes. -/
def ensure_identical_tables (table : LookupTable) (s : Statics) : Bool :=
  identicalTables table.flush_lookup s.FLUSH_LOOKUP
    && identicalTables table.unsuited_lookup s.UNSUITED_LOOKUP

end StaticLookup
end Poker
