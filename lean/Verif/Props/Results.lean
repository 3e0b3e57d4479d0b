import Verif.Spec.Text
import Verif.Props.Evaluation

/-! # Properties of all `Eval` and `EvalClass` values: C09, C11, C28

These hold for every value of the types, not only for results of `evaluate`. -/

namespace Poker

/-! ## C09: category predicates -/

/-- The nine category predicates of `Eval`, weakest category first. -/
def predicates (e : Eval) : List Bool :=
  [e.is_high_card, e.is_pair, e.is_two_pair, e.is_three_of_a_kind, e.is_straight, e.is_flush,
    e.is_full_house, e.is_four_of_a_kind, e.is_straight_flush]

/-- C09: exactly one of the nine category predicates holds. -/
theorem c09_exactly_one (e : Eval) : (predicates e).count true = 1 := by
  obtain ⟨m⟩ := e
  cases m <;> rfl

example : (predicates Eval.BEST).count true = 1 := c09_exactly_one _

/-- C09: each category predicate agrees with the variant of `class()`. -/
theorem c09_agree (e : Eval) :
    (e.is_high_card = true ↔ ∃ r, e.class' = .HighCard r) ∧
    (e.is_pair = true ↔ ∃ r, e.class' = .Pair r) ∧
    (e.is_two_pair = true ↔ ∃ r s, e.class' = .TwoPair r s) ∧
    (e.is_three_of_a_kind = true ↔ ∃ r, e.class' = .ThreeOfAKind r) ∧
    (e.is_straight = true ↔ ∃ r, e.class' = .Straight r) ∧
    (e.is_flush = true ↔ ∃ r, e.class' = .Flush r) ∧
    (e.is_full_house = true ↔ ∃ r s, e.class' = .FullHouse r s) ∧
    (e.is_four_of_a_kind = true ↔ ∃ r, e.class' = .FourOfAKind r) ∧
    (e.is_straight_flush = true ↔ ∃ r, e.class' = .StraightFlush r) := by
  obtain ⟨m⟩ := e
  cases m <;>
    simp [Eval.is_high_card, Eval.is_pair, Eval.is_two_pair, Eval.is_three_of_a_kind,
      Eval.is_straight, Eval.is_flush, Eval.is_full_house, Eval.is_four_of_a_kind,
      Eval.is_straight_flush, Eval.class', Meta.class', Meta.is_high_card, Meta.is_pair,
      Meta.is_two_pair, Meta.is_three_of_a_kind, Meta.is_straight, Meta.is_flush,
      Meta.is_full_house, Meta.is_four_of_a_kind, Meta.is_straight_flush]

/-- C09: a royal flush is a straight flush. -/
theorem c09_royal (e : Eval) (h : e.is_royal_flush = true) : e.is_straight_flush = true := by
  obtain ⟨m⟩ := e
  cases m <;> simp_all [Eval.is_royal_flush, Meta.is_royal_flush, Eval.is_straight_flush,
    Meta.is_straight_flush]

example : Eval.BEST.is_royal_flush = true := by decide

/-! ## C11: ordering, equality and hashing -/

/-- C11: `cmp` is a total order up to `==`, and the other comparison methods agree with it. -/
theorem c11_order (a b c : Eval) :
    a.cmp a = .eq ∧
    b.cmp a = (a.cmp b).swap ∧
    (a.cmp b ≠ .gt → b.cmp c ≠ .gt → a.cmp c ≠ .gt) ∧
    (a.cmp b = .lt → b.cmp c = .lt → a.cmp c = .lt) ∧
    (a.cmp b = .eq → a.cmp c = b.cmp c) ∧
    (a.eq b = true ↔ a.cmp b = .eq) ∧
    a.partial_cmp b = some (a.cmp b) := by
  refine ⟨?_, (Eval.cmp_swap a b).symm, ?_, ?_, ?_, Eval.eq_iff_cmp a b, Eval.partial_cmp_eq a b⟩
  · rw [Eval.cmp_eq]; exact Int.compare_eq_eq.2 rfl
  · simp only [Eval.cmp_eq, Ne, Int.compare_eq_gt]; omega
  · simp only [Eval.cmp_eq, Int.compare_eq_lt]; omega
  · simp only [Eval.cmp_eq, Int.compare_eq_eq]; intro h; rw [h]

/-- C11: equal results feed equal data to a hasher. -/
theorem c11_hash (a b : Eval) (h : a.eq b = true) : a.hashInput = b.hashInput := by
  have : a.hand_rank = b.hand_rank := of_decide_eq_true h
  exact congrArg PokerHandRank.val this

example : (Eval.mk (.Pair ⟨3326⟩ .Ace)).hashInput = (Eval.mk (.Flush ⟨3326⟩ .Two)).hashInput :=
  c11_hash _ _ (by decide)

/-- C11: the named comparison methods are the operators, and exactly one of them holds. -/
theorem c11_methods (a b : Eval) :
    a.is_better_than b = a.gt b ∧ a.is_worse_than b = a.lt b ∧ a.is_equal_to b = a.eq b ∧
    ([a.is_better_than b, a.is_worse_than b, a.is_equal_to b].count true = 1) := by
  have h1 : a.is_better_than b = a.gt b := by
    rw [Bool.eq_iff_iff, Eval.gt_iff, Eval.cmp_eq, Int.compare_eq_gt]
    simp [Eval.is_better_than, PokerHandRank.is_better_than, BitVec.slt, Eval.rankInt]
  have h2 : a.is_worse_than b = a.lt b := by
    rw [Bool.eq_iff_iff, Eval.lt_iff, Eval.cmp_eq, Int.compare_eq_lt]
    simp [Eval.is_worse_than, PokerHandRank.is_worse_than, BitVec.slt, Eval.rankInt]
  have h3 : a.is_equal_to b = a.eq b := by
    rw [Bool.eq_iff_iff, Eval.eq_iff_cmp, Eval.cmp_eq, Int.compare_eq_eq]
    simp only [Eval.is_equal_to, Eval.rankInt, BitVec.toInt_inj, beq_iff_eq]
    exact eq_comm
  refine ⟨h1, h2, h3, ?_⟩
  rw [h1, h2, h3]
  have e1 := Eval.gt_iff a b
  have e2 := Eval.lt_iff a b
  have e3 := Eval.eq_iff_cmp a b
  cases hc : a.cmp b <;> rw [hc] at e1 e2 e3 <;> simp at e1 e2 e3 <;> rw [e1, e2, e3] <;> rfl

example : Eval.BEST.gt Eval.WORST = true ∧ Eval.WORST.lt Eval.BEST = true ∧
    Eval.BEST.eq Eval.BEST = true ∧ Eval.BEST.cmp Eval.WORST ≠ .lt := by decide

/-! ## C28: texts determine classes -/

/-- The ranks, for reading names back. -/
def ranks : List Rank :=
  [.Two, .Three, .Four, .Five, .Six, .Seven, .Eight, .Nine, .Ten, .Jack, .Queen, .King, .Ace]

/-- The rest of `s` after the prefix `p`. -/
def after (p s : Str) : Option Str := if p.isPrefixOf s then some (s.drop p.length) else none

/-- The rank of which `s` is the name followed by `t`. -/
def named (name : Rank → Str) (t s : Str) : Option Rank := ranks.find? (fun r => name r ++ t == s)

/-- The two ranks of which `s` contains the plurals, joined by `mid`. -/
def named2 (mid s : Str) : Option (Rank × Rank) :=
  ranks.findSome? (fun r =>
    match after (r.as_str_name_plural ++ mid) s with
    | some t => (named Rank.as_str_name_plural [] t).map (fun q => (r, q))
    | none => none)

/-- Reads the text of a class back. -/
def readClass (s : Str) : Option EvalClass :=
  if s = "Royal flush".toList then some (.StraightFlush .Ace) else
  match after "Straight flush, ".toList s with
  | some t => (named Rank.as_str_name "-high".toList t).map .StraightFlush
  | none =>
  match after "Four of a kind, ".toList s with
  | some t => (named Rank.as_str_name_plural [] t).map .FourOfAKind
  | none =>
  match after "Full house, ".toList s with
  | some t => (named2 " over ".toList t).map (fun p => .FullHouse p.1 p.2)
  | none =>
  match after "Flush, ".toList s with
  | some t => (named Rank.as_str_name "-high".toList t).map .Flush
  | none =>
  match after "Straight, ".toList s with
  | some t => (named Rank.as_str_name "-high".toList t).map .Straight
  | none =>
  match after "Three of a kind, ".toList s with
  | some t => (named Rank.as_str_name_plural [] t).map .ThreeOfAKind
  | none =>
  match after "Two pair, ".toList s with
  | some t => (named2 " and ".toList t).map (fun p => .TwoPair p.1 p.2)
  | none =>
  match after "Pair, ".toList s with
  | some t => (named Rank.as_str_name_plural [] t).map .Pair
  | none =>
  match after "High card, ".toList s with
  | some t => (named Rank.as_str_name [] t).map .HighCard
  | none => none

theorem mem_ranks (r : Rank) : r ∈ ranks := by cases r <;> decide

theorem check_read1 : ranks.all (fun r =>
    [EvalClass.HighCard r, .Pair r, .ThreeOfAKind r, .Straight r, .Flush r, .FourOfAKind r,
      .StraightFlush r].all (fun c => decide (readClass c.display = some c))) = true := by
  decide +kernel

theorem check_read2 : ranks.all (fun r => ranks.all (fun q =>
    [EvalClass.TwoPair r q, .FullHouse r q].all
      (fun c => decide (readClass c.display = some c)))) = true := by
  decide +kernel

theorem readClass_display (c : EvalClass) : readClass c.display = some c := by
  have h1 := fun r => List.all_eq_true.1 check_read1 r (mem_ranks r)
  have h2 := fun r q => List.all_eq_true.1 (List.all_eq_true.1 check_read2 r (mem_ranks r)) q
    (mem_ranks q)
  simp only [List.all_cons, List.all_nil, Bool.and_true, Bool.and_eq_true,
    decide_eq_true_eq] at h1 h2
  cases c <;> simp only [h1, h2]

/-- C28: two classes print the same text iff they are the same class. -/
theorem c28_text (a b : EvalClass) : a.display = b.display ↔ a = b := by
  constructor
  · intro h
    have := congrArg readClass h
    rwa [readClass_display, readClass_display, Option.some.injEq] at this
  · rintro rfl; rfl

example : (EvalClass.FullHouse .Six .Two).display ≠ (EvalClass.FullHouse .Two .Six).display :=
  fun h => absurd ((c28_text _ _).1 h) (by decide)

/-- C28: two results print the same text iff they have the same class. -/
theorem c28_result (a b : Eval) : a.display = b.display ↔ a.class' = b.class' := c28_text _ _

theorem check_words : ranks.all (fun r => decide (r.as_str_name = Text.rankWord r) &&
    decide (r.as_str_name_plural = Text.plural (Text.rankWord r)) &&
    decide ((EvalClass.StraightFlush r).display = Text.describe (.StraightFlush r))) = true := by
  decide +kernel

theorem rank_words (r : Rank) : r.as_str_name = Text.rankWord r ∧
    r.as_str_name_plural = Text.plural (Text.rankWord r) ∧
    (EvalClass.StraightFlush r).display = Text.describe (.StraightFlush r) := by
  have := List.all_eq_true.1 check_words r (mem_ranks r)
  simp only [Bool.and_eq_true, decide_eq_true_eq] at this
  exact ⟨this.1.1, this.1.2, this.2⟩

/-- C28: the text of a class is its English name with the ranks that matter. -/
theorem c28_exact (c : EvalClass) : c.display = Text.describe c := by
  cases c with
  | StraightFlush r => exact (rank_words r).2.2
  | _ =>
    unfold EvalClass.display Text.describe
    simp only [(rank_words _).1, (rank_words _).2.1]

/-- C28: the same for results. -/
theorem c28_exact_result (e : Eval) : e.display = Text.describe e.class' := c28_exact _

example : (EvalClass.FullHouse .Six .Two).display = "Full house, sixes over twos".toList ∧
    (EvalClass.StraightFlush .Five).display = "Straight flush, five-high".toList := by
  rw [c28_exact, c28_exact]; decide +kernel

/-- C28: the text "Royal flush" is printed exactly for the ace-high straight flush. -/
theorem c28_royal (c : EvalClass) :
    c.display = "Royal flush".toList ↔ c = .StraightFlush .Ace := by
  have : "Royal flush".toList = (EvalClass.StraightFlush .Ace).display := by decide
  rw [this, c28_text]

end Poker
