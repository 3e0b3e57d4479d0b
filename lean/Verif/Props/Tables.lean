import Verif.Props.Evaluation

/-! # Properties of the lookup tables: C32 and the rest of C36 -/

namespace Poker
open Rules Tab

/-! ## Inserting entries with different keys -/

theorem insertAll_entries (es : List (BitVec 32 × Meta)) (m : FxHashMap Meta)
    (hn : (es.map (·.1)).Nodup) (hd : ∀ e ∈ es, ∀ e' ∈ m.entries, e'.1 ≠ e.1) :
    (insertAll m es).entries = es.reverse ++ m.entries := by
  induction es generalizing m with
  | nil => simp [insertAll]
  | cons e es ih =>
    rw [List.map_cons, List.nodup_cons] at hn
    have hins : (m.insert e.1 e.2).entries = e :: m.entries := by
      simp only [FxHashMap.insert]
      rw [List.filter_eq_self.2]
      intro x hx
      simpa using hd e (by simp) x hx
    have := ih (m.insert e.1 e.2) hn.2 (by
      intro x hx y hy
      rw [hins] at hy
      rcases List.mem_cons.1 hy with rfl | hy
      · intro heq
        exact hn.1 (List.mem_map.2 ⟨x, hx, heq.symm⟩)
      · exact hd x (by simp [hx]) y hy)
    rw [hins] at this
    show (insertAll (m.insert e.1 e.2) es).entries = _
    rw [this]
    simp

theorem get?_of_mem {m : FxHashMap Meta} (hn : (m.entries.map (·.1)).Nodup) {e : BitVec 32 × Meta}
    (he : e ∈ m.entries) : m.get? e.1 = some e.2 := by
  unfold FxHashMap.get?
  generalize m.entries = l at hn he
  induction l with
  | nil => cases he
  | cons x l ih =>
    rw [List.map_cons, List.nodup_cons] at hn
    rcases List.mem_cons.1 he with rfl | he
    · simp
    · have hne : ¬ x.1 = e.1 := fun h => hn.1 (h ▸ List.mem_map.2 ⟨e, he, rfl⟩)
      rw [List.find?_cons_of_neg (by simpa using hne)]
      exact ih hn.2 he

/-! ## The keys are different -/

theorem nodup_reorder {α : Type} {SF Q FH FL ST TR TP PR HI : List α}
    (h : (SF ++ (Q ++ (FH ++ (FL ++ (ST ++ (TR ++ (TP ++ (PR ++ (HI ++ []))))))))).Nodup) :
    (SF ++ FL).Nodup ∧ (ST ++ HI ++ Q ++ FH ++ TR ++ TP ++ PR).Nodup := by
  simp only [List.append_nil, List.nodup_append, List.mem_append] at h ⊢
  grind

attribute [local irreducible] Kinds.straights Kinds.nonStraights Kinds.quads Kinds.fullHouses
  Kinds.trips Kinds.twoPairs Kinds.pairs

theorem seg_worths {s : Kinds.Segment} (hs : s ∈ Kinds.segments) :
    s.seg.map (worth s.fl) = s.worths := by
  refine List.map_congr_left ?_
  intro c hc
  rw [Kinds.worth_seg hs hc]

open Kinds in
theorem nodup_worths : (flushKinds.map (worth true)).Nodup ∧
    (unsuitedKinds.map (worth false)).Nodup := by
  have h := nodup_ladder
  unfold ladder segments at h
  simp only [List.flatMap_cons, List.flatMap_nil] at h
  have h2 := nodup_reorder h
  rw [← seg_worths (s := sStraightFlush) (by simp [segments]),
    ← seg_worths (s := sFlush) (by simp [segments]),
    ← seg_worths (s := sStraight) (by simp [segments]),
    ← seg_worths (s := sHigh) (by simp [segments]),
    ← seg_worths (s := sQuads) (by simp [segments]),
    ← seg_worths (s := sFullHouse) (by simp [segments]),
    ← seg_worths (s := sTrips) (by simp [segments]),
    ← seg_worths (s := sTwoPair) (by simp [segments]),
    ← seg_worths (s := sPair) (by simp [segments])] at h2
  refine ⟨?_, ?_⟩
  · rw [flushKinds, List.map_append]
    exact h2.1
  · rw [unsuitedKinds]
    simp only [List.map_append]
    exact h2.2

theorem keys_nodup (fl : Bool) (l : List (List Nat)) (hl : ∀ c ∈ l, c ∈ unsuitedKinds)
    (hw : (l.map (worth fl)).Nodup) : ((entries fl l).map (·.1)).Nodup := by
  rw [entries, List.map_map]
  rw [List.nodup_iff_pairwise_ne, List.pairwise_map] at hw ⊢
  refine hw.imp_of_mem ?_
  intro c d hc hd hne heq
  refine hne (worth_perm fl ?_)
  exact keyV_inj (kind_values (hl c hc)) (kind_values (hl d hd)) (kind_length (hl c hc))
    (kind_length (hl d hd)) heq

theorem flush_entries : flushTable.entries = (entries true flushKinds).reverse := by
  have := insertAll_entries (entries true flushKinds) .empty
    (keys_nodup true _ (fun _ h => flushKinds_sub h) nodup_worths.1) (by simp [FxHashMap.empty])
  simpa [FxHashMap.empty, flushTable] using this

theorem unsuited_entries : unsuitedTable.entries = (entries false unsuitedKinds).reverse := by
  have := insertAll_entries (entries false unsuitedKinds) .empty
    (keys_nodup false _ (fun _ h => h) nodup_worths.2) (by simp [FxHashMap.empty])
  simpa [FxHashMap.empty, unsuitedTable] using this

theorem flush_keys : (flushTable.entries.map (·.1)).Nodup := by
  rw [flush_entries, List.map_reverse, List.nodup_reverse]
  exact keys_nodup true _ (fun _ h => flushKinds_sub h) nodup_worths.1

theorem unsuited_keys : (unsuitedTable.entries.map (·.1)).Nodup := by
  rw [unsuited_entries, List.map_reverse, List.nodup_reverse]
  exact keys_nodup false _ (fun _ h => h) nodup_worths.2

open Kinds in
theorem kinds_length : flushKinds.length = 1287 ∧ unsuitedKinds.length = 6175 := by
  have hl := lengths
  simp only [segments, List.map_cons, List.map_nil, List.cons.injEq, and_true, sStraightFlush,
    sQuads, sFullHouse, sFlush, sStraight, sTrips, sTwoPair, sPair, sHigh] at hl
  obtain ⟨l1, l2, l3, l4, l5, l6, l7, l8, l9⟩ := hl
  simp only [flushKinds, unsuitedKinds, List.length_append, l1, l2, l3, l4, l6, l7, l8]
  exact ⟨trivial, trivial⟩

/-! ## The properties -/

/-- Inserting a list of entries one after another. -/
def insertEach (m : FxHashMap Meta) : List (BitVec 32 × Meta) → FxHashMap Meta
  | [] => m
  | e :: es => insertEach (m.insert e.1 e.2) es

theorem insertEach_eq (m : FxHashMap Meta) (es : List (BitVec 32 × Meta)) :
    insertEach m es = insertAll m es := by
  induction es generalizing m with
  | nil => rfl
  | cons e es ih => exact ih _

/-- C36: the construction fills the tables with 1287 and 6175 insertions, no two with the same key,
so none overwrites another. -/
theorem c36_no_overwrite : ∃ fl un : List (BitVec 32 × Meta),
    fl.length = 1287 ∧ un.length = 6175 ∧ (fl.map (·.1)).Nodup ∧ (un.map (·.1)).Nodup ∧
    LookupTable.new = .ok ⟨insertEach .empty fl, insertEach .empty un⟩ := by
  refine ⟨entries true flushKinds, entries false unsuitedKinds, ?_, ?_,
    keys_nodup true _ (fun _ h => flushKinds_sub h) nodup_worths.1,
    keys_nodup false _ (fun _ h => h) nodup_worths.2, ?_⟩
  · rw [entries, List.length_map, kinds_length.1]
  · rw [entries, List.length_map, kinds_length.2]
  · rw [insertEach_eq, insertEach_eq]
    exact new_eq

/-- The values the bit generator passes through when the tables are built. -/
def generatorRun : Nat → BitSequence → Exec (List (BitVec 16))
  | 0, _ => .ok []
  | n + 1, g => do
    let (b, g) ← g.get_next
    let bs ← generatorRun n g
    return b :: bs

theorem generatorRun_chain (l : List (BitVec 16)) (g : BitSequence) (h : chain g.bits l = true) :
    generatorRun l.length g = .ok l := by
  induction l generalizing g with
  | nil => rfl
  | cons b l ih =>
    simp only [chain, Bool.and_eq_true] at h
    obtain ⟨h1, h2⟩ := h
    have hst : (BitSequence.new g.bits).get_next = g.get_next := rfl
    rw [hst] at h1
    cases hg : g.get_next with
    | error _ => rw [hg] at h1; cases h1
    | ok r =>
      obtain ⟨x, g'⟩ := r
      rw [hg] at h1
      simp only [beq_iff_eq] at h1
      subst h1
      have hb : g'.bits = x := by
        unfold BitSequence.get_next at hg
        simp only at hg
        cases hf : sar ((~~~(g.bits ||| (g.bits - 1)) &&& -(~~~(g.bits ||| (g.bits - 1)))) - 1)
            (trailingZeros g.bits + 1) with
        | error _ => rw [hf] at hg; simp [Comb.bind_error] at hg
        | ok f =>
          rw [hf] at hg
          simp only [Comb.bind_ok, Comb.pure_eq_ok, Except.ok.injEq, Prod.mk.injEq] at hg
          rw [← hg.1, ← hg.2]
      rw [List.length_cons, generatorRun, hg, Comb.bind_ok]
      simp only
      rw [ih g' (by rw [hb]; exact h2)]
      rfl

set_option maxRecDepth 100000 in
theorem check_thirteen : Tab.five.all (fun c => decide ((bitsOf c).toNat < 2 ^ 13)) = true := by
  decide +kernel

/-- C36: the 1286 steps of the bit generator succeed and stay within thirteen bits. -/
theorem c36_generator : ∃ bs, generatorRun 1286 (BitSequence.new 0b11111) = .ok bs ∧
    bs.length = 1286 ∧ ∀ b ∈ bs, b.toNat < 2 ^ 13 := by
  have h := check_chain
  have hm : ∀ b ∈ (Tab.five.map bitsOf).reverse, b.toNat < 2 ^ 13 := by
    intro b hb
    rw [List.mem_reverse, List.mem_map] at hb
    obtain ⟨c, hc, rfl⟩ := hb
    exact of_decide_eq_true (List.all_eq_true.1 check_thirteen c hc)
  revert h hm
  generalize (Tab.five.map bitsOf).reverse = l
  intro h hm
  cases l with
  | nil => cases h
  | cons a l =>
    simp only [chainOf, Bool.and_eq_true, beq_iff_eq] at h
    obtain ⟨rfl, h1, h2⟩ := h
    refine ⟨l, ?_, h1, fun b hb => hm b (by simp [hb])⟩
    rw [← h1]
    exact generatorRun_chain l _ h2

theorem eqBy_self {m : FxHashMap Meta} (hn : (m.entries.map (·.1)).Nodup) :
    m.eqBy Meta.eq m = true := by
  simp only [FxHashMap.eqBy, beq_self_eq_true, Bool.true_and, List.all_eq_true]
  intro e he
  rw [get?_of_mem hn he]
  exact decide_eq_true rfl

/-- C32: any two evaluators made by `Evaluator::new` are `==` and give the same results. -/
theorem c32_same (a b : Evaluator) (ha : Evaluator.new = .ok a) (hb : Evaluator.new = .ok b) :
    a.eq b = true ∧ ∀ cards, a.evaluate cards = b.evaluate cards := by
  rw [evaluator_new, Except.ok.injEq] at ha hb
  subst ha hb
  refine ⟨?_, fun _ => rfl⟩
  simp only [Evaluator.eq, LookupTable.eq, theEvaluator, Bool.and_eq_true]
  exact ⟨eqBy_self flush_keys, eqBy_self unsuited_keys⟩

example : theEvaluator.eq theEvaluator = true := (c32_same _ _ evaluator_new evaluator_new).1

/-- C32: the tables have 1287 and 6175 entries, each key once. -/
theorem c32_sizes (a : Evaluator) (ha : Evaluator.new = .ok a) :
    a.table.flush_lookup.len = 1287 ∧ a.table.unsuited_lookup.len = 6175 ∧
    (a.table.flush_lookup.entries.map (·.1)).Nodup ∧
    (a.table.unsuited_lookup.entries.map (·.1)).Nodup := by
  rw [evaluator_new, Except.ok.injEq] at ha
  subst ha
  refine ⟨?_, ?_, flush_keys, unsuited_keys⟩
  · show flushTable.entries.length = 1287
    rw [flush_entries, List.length_reverse, entries, List.length_map, kinds_length.1]
  · show unsuitedTable.entries.length = 6175
    rw [unsuited_entries, List.length_reverse, entries, List.length_map, kinds_length.2]

example : ∃ a, Evaluator.new = .ok a := c36_new_ok

end Poker
