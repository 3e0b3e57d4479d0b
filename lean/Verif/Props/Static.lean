import Verif.Props.Tables
import Verif.Props.Range

/-! # Evaluators with other tables: C25, C26 and the meaning of `==` on evaluators (C32) -/

namespace Poker
open Rules Tab

/-! ## Related executions -/

/-- Both executions panic alike, or both return and the values are related. -/
def Related {α β : Type} (R : α → β → Prop) : Exec α → Exec β → Prop
  | .ok a, .ok b => R a b
  | .error e, .error f => e = f
  | _, _ => False

theorem Related.bind {α β γ δ : Type} {R : α → β → Prop} {S : γ → δ → Prop} {x : Exec α}
    {y : Exec β} {f : α → Exec γ} {g : β → Exec δ} (h : Related R x y)
    (hf : ∀ a b, R a b → Related S (f a) (g b)) : Related S (x >>= f) (y >>= g) := by
  cases x <;> cases y <;> simp only [Related] at h
  · exact h
  · exact hf _ _ h

theorem Related.refl {α : Type} {R : α → α → Prop} (hr : ∀ a, R a a) (x : Exec α) :
    Related R x x := by
  cases x <;> simp [Related, hr]

/-- The two results are `==`. -/
def Tied (a b : Eval) : Prop := a.eq b = true

theorem tied_iff {a b : Eval} : Tied a b ↔ a.rankInt = b.rankInt := by
  rw [Tied, Eval.eq_iff_cmp, Eval.cmp_eq, Std.LawfulEqCmp.compare_eq_iff_eq, eq_comm]

theorem Tied.refl (a : Eval) : Tied a a := tied_iff.2 rfl

theorem Tied.gt {a b a' b' : Eval} (ha : Tied a a') (hb : Tied b b') : a.gt b = a'.gt b' := by
  rw [tied_iff] at ha hb
  rw [Bool.eq_iff_iff, Eval.gt_iff, Eval.gt_iff, Eval.cmp_eq, Eval.cmp_eq, ha, hb]

/-- The same answer up to `==` of results: the same error, or results that are `==`. -/
def SameAnswer : Except EvalError Eval → Except EvalError Eval → Prop
  | .ok a, .ok b => a.eq b = true
  | .error e, .error f => e = f
  | _, _ => False

theorem SameAnswer.refl (a : Except EvalError Eval) : SameAnswer a a := by
  cases a
  · rfl
  · exact Tied.refl _

/-! ## Evaluation with related tables -/

theorem five_related {E F : Evaluation}
    (hf : ∀ k, Related (fun v w => v.eq w = true) (E.flush_lookup k) (F.flush_lookup k))
    (hu : ∀ k, Related (fun v w => v.eq w = true) (E.unsuited_lookup k) (F.unsuited_lookup k))
    (cards : List Card) : Related Tied (five E cards) (five F cards) := by
  unfold five
  simp only
  split
  · refine Related.bind (Related.refl (R := Eq) (fun _ => rfl) _) ?_
    rintro a _ rfl
    refine Related.bind (Related.refl (R := Eq) (fun _ => rfl) _) ?_
    rintro p _ rfl
    refine Related.bind (hf p) ?_
    intro v w h
    exact h
  · refine Related.bind (hu _) ?_
    intro v w h
    exact h

theorem forEach_related {α σ : Type} {N : Nat} {R : σ → σ → Prop} {f g : σ → List α → Exec σ}
    (h : ∀ s t c, R s t → Related R (f s c) (g t c)) (fuel : Nat) (it : Combinations α N) (s t : σ)
    (hst : R s t) : Related R (it.forEach f fuel s) (it.forEach g fuel t) := by
  induction fuel generalizing it s t with
  | zero => exact rfl
  | succ fuel ih =>
    unfold Combinations.forEach
    refine Related.bind (Related.refl (R := Eq) (fun _ => rfl) _) ?_
    rintro ⟨item, it'⟩ _ rfl
    cases item with
    | none => exact hst
    | some combo =>
      refine Related.bind (h s t combo hst) ?_
      intro s' t' hst'
      exact ih it' s' t' hst'

theorem evaluate_related {E F : Evaluation}
    (hf : ∀ k, Related (fun v w => v.eq w = true) (E.flush_lookup k) (F.flush_lookup k))
    (hu : ∀ k, Related (fun v w => v.eq w = true) (E.unsuited_lookup k) (F.unsuited_lookup k))
    (cards : List Card) : Related SameAnswer (evaluate E cards) (evaluate F cards) := by
  unfold evaluate
  refine Related.bind (Related.refl (R := Eq) (fun _ => rfl) _) ?_
  rintro u _ rfl
  split
  · split
    · exact rfl
    · split
      · iterate 5
          refine Related.bind (Related.refl (R := Eq) (fun _ => rfl) _) ?_
          rintro _ _ rfl
        refine Related.bind (five_related hf hu _) ?_
        intro a b h
        exact h
      · refine Related.bind (R := Tied) ?_ ?_
        · unfold six_plus
          refine Related.bind (Related.refl (R := Eq) (fun _ => rfl) _) ?_
          rintro _ _ rfl
          refine forEach_related ?_ _ _ _ _ (Tied.refl _)
          intro s t c hst
          unfold sixPlusBody
          refine Related.bind (five_related hf hu c) ?_
          intro a b hab
          rw [Tied.gt hab hst]
          show Tied _ _
          split
          · exact hab
          · exact hst
        · intro a b h
          exact h
  · exact rfl

/-! ## Tables that agree up to `==` -/

theorem get?_none_iff {m : FxHashMap Meta} {k : BitVec 32} :
    m.get? k = none ↔ k ∉ m.entries.map (·.1) := by
  simp only [FxHashMap.get?, Option.map_eq_none_iff, List.find?_eq_none, beq_iff_eq, List.mem_map,
    not_exists, not_and]

theorem get?_some_mem {m : FxHashMap Meta} {k : BitVec 32} {v : Meta} (h : m.get? k = some v) :
    (k, v) ∈ m.entries := by
  unfold FxHashMap.get? at h
  cases hf : m.entries.find? (fun e => e.1 == k) with
  | none => rw [hf] at h; cases h
  | some e =>
    rw [hf] at h
    have h1 := List.mem_of_find?_eq_some hf
    have h2 := List.find?_some hf
    simp only [beq_iff_eq] at h2
    simp only [Option.map_some, Option.some.injEq] at h
    obtain ⟨a, b⟩ := e
    simp only at h h2
    subst h h2
    exact h1

/-- When the entries of `a` all have equal entries in `b`, and both have equally many keys, the maps
agree everywhere. -/
theorem related_index {a b : FxHashMap Meta} (ha : (a.entries.map (·.1)).Nodup)
    (hlen : a.entries.length = b.entries.length)
    (hall : ∀ e ∈ a.entries, ∃ v, b.get? e.1 = some v ∧ e.2.eq v = true) (k : BitVec 32) :
    Related (fun v w => v.eq w = true) (a.index k) (b.index k) := by
  have hsub : a.entries.map (·.1) ⊆ b.entries.map (·.1) := by
    intro x hx
    obtain ⟨e, he, rfl⟩ := List.mem_map.1 hx
    obtain ⟨v, hv, _⟩ := hall e he
    exact List.mem_map.2 ⟨_, get?_some_mem hv, rfl⟩
  have hperm : (a.entries.map (·.1)).Perm (b.entries.map (·.1)) :=
    (ha.subperm hsub).perm_of_length_le (by simp [hlen])
  unfold FxHashMap.index
  cases hk : a.get? k with
  | none =>
    have : b.get? k = none := by
      rw [get?_none_iff] at hk ⊢
      rwa [← hperm.mem_iff]
    rw [this]
    exact rfl
  | some v =>
    obtain ⟨w, hw, he⟩ := hall _ (get?_some_mem hk)
    simp only at hw
    rw [hw]
    exact he

theorem Related.symm {α β : Type} {R : α → β → Prop} {S : β → α → Prop}
    (h : ∀ a b, R a b → S b a) {x : Exec α} {y : Exec β} (hr : Related R x y) : Related S y x := by
  cases x <;> cases y <;> simp only [Related] at hr ⊢
  · exact hr.symm
  · exact h _ _ hr

theorem meta_eq_symm {v w : Meta} (h : v.eq w = true) : w.eq v = true := by
  rw [Meta.eq, decide_eq_true_iff] at h ⊢
  exact h.symm

/-! ## C32: `==` on evaluators -/

/-- C32: evaluators that are `==`, whatever tables they hold, give the same answers up to `==` and
panic alike, on every slice. -/
theorem c32_eq (a b : Evaluator) (ha : (a.table.flush_lookup.entries.map (·.1)).Nodup)
    (ha' : (a.table.unsuited_lookup.entries.map (·.1)).Nodup) (h : a.eq b = true)
    (cards : List Card) : Related SameAnswer (a.evaluate cards) (b.evaluate cards) := by
  simp only [Evaluator.eq, LookupTable.eq, Bool.and_eq_true, FxHashMap.eqBy, FxHashMap.len,
    beq_iff_eq, List.all_eq_true] at h
  obtain ⟨⟨h1, h2⟩, h3, h4⟩ := h
  refine evaluate_related ?_ ?_ cards
  · refine related_index ha h1 ?_
    intro e he
    have := h2 e he
    cases hg : b.table.flush_lookup.get? e.1 with
    | none => rw [hg] at this; cases this
    | some v => rw [hg] at this; exact ⟨v, rfl, this⟩
  · refine related_index ha' h3 ?_
    intro e he
    have := h4 e he
    cases hg : b.table.unsuited_lookup.get? e.1 with
    | none => rw [hg] at this; cases this
    | some v => rw [hg] at this; exact ⟨v, rfl, this⟩

/-- Two evaluators from `Evaluator::new` meet the hypotheses of `c32_eq`. -/
example : ∃ a b : Evaluator, (a.table.flush_lookup.entries.map (·.1)).Nodup ∧
    (a.table.unsuited_lookup.entries.map (·.1)).Nodup ∧ a.eq b = true := by
  obtain ⟨ev, hev⟩ := c36_new_ok
  exact ⟨ev, ev, (c32_sizes ev hev).2.2.1, (c32_sizes ev hev).2.2.2, (c32_same ev ev hev hev).1⟩

/-! ## C25: static lookup -/

/-- C25: with static tables holding the same entries as the generated ones, `static_lookup::evaluate`
returns what `Evaluator::evaluate` returns, on every slice. -/
theorem c25_same_entries (s : StaticLookup.Statics) (ev : Evaluator)
    (_ : Evaluator.new = .ok ev)
    (hf : ∀ k, s.FLUSH_LOOKUP.get? k = ev.table.flush_lookup.get? k)
    (hu : ∀ k, s.UNSUITED_LOOKUP.get? k = ev.table.unsuited_lookup.get? k) (cards : List Card) :
    StaticLookup.evaluate s cards = ev.evaluate cards := by
  have : StaticLookup.toEvaluation s = ev.toEvaluation := by
    rw [StaticLookup.toEvaluation, Evaluator.toEvaluation, Evaluation.mk.injEq]
    constructor <;> funext k <;> simp only [FxHashMap.index, hf, hu]
  rw [StaticLookup.evaluate, this]
  rfl

/-- The generated tables meet the hypotheses of `c25_same_entries`. -/
example : ∃ (s : StaticLookup.Statics) (ev : Evaluator), Evaluator.new = .ok ev ∧
    (∀ k, s.FLUSH_LOOKUP.get? k = ev.table.flush_lookup.get? k) ∧
    ∀ k, s.UNSUITED_LOOKUP.get? k = ev.table.unsuited_lookup.get? k := by
  obtain ⟨ev, hev⟩ := c36_new_ok
  exact ⟨⟨ev.table.flush_lookup, ev.table.unsuited_lookup⟩, ev, hev, fun _ => rfl, fun _ => rfl⟩

/-- C25: with static tables that pass the test `ensure_identical_tables` (and hold each key once, as
`phf` maps do), the answers are the same up to `==`, on every slice. -/
theorem c25_tested (s : StaticLookup.Statics) (ev : Evaluator) (_ : Evaluator.new = .ok ev)
    (hn : (s.FLUSH_LOOKUP.entries.map (·.1)).Nodup)
    (hn' : (s.UNSUITED_LOOKUP.entries.map (·.1)).Nodup)
    (hp : StaticLookup.ensure_identical_tables ev.table s = true) (cards : List Card) :
    Related SameAnswer (StaticLookup.evaluate s cards) (ev.evaluate cards) := by
  simp only [StaticLookup.ensure_identical_tables, StaticLookup.identicalTables, Bool.and_eq_true,
    FxHashMap.len, beq_iff_eq, List.all_eq_true] at hp
  obtain ⟨⟨h1, h2⟩, h3, h4⟩ := hp
  refine evaluate_related ?_ ?_ cards
  · refine related_index hn h2.symm ?_
    intro e he
    have := h1 e he
    cases hg : ev.table.flush_lookup.get? e.1 with
    | none => rw [hg] at this; cases this
    | some v => rw [hg] at this; exact ⟨v, rfl, meta_eq_symm this⟩
  · refine related_index hn' h4.symm ?_
    intro e he
    have := h3 e he
    cases hg : ev.table.unsuited_lookup.get? e.1 with
    | none => rw [hg] at this; cases this
    | some v => rw [hg] at this; exact ⟨v, rfl, meta_eq_symm this⟩

/-- Static tables with the right rank numbers but the wrong classes. -/
def mislabelled (t : LookupTable) : StaticLookup.Statics where
  FLUSH_LOOKUP := ⟨t.flush_lookup.entries.map (fun e => (e.1, .HighCard e.2.hand_rank .Two))⟩
  UNSUITED_LOOKUP := ⟨t.unsuited_lookup.entries.map (fun e => (e.1, .HighCard e.2.hand_rank .Two))⟩

theorem mislabelled_keys (l : List (BitVec 32 × Meta)) :
    (l.map (fun e => ((e.1, .HighCard e.2.hand_rank .Two) : BitVec 32 × Meta))).map (·.1)
      = l.map (·.1) := by
  rw [List.map_map]; rfl

theorem mislabelled_nodup {t : LookupTable} (h : (t.flush_lookup.entries.map (·.1)).Nodup)
    (h' : (t.unsuited_lookup.entries.map (·.1)).Nodup) :
    ((mislabelled t).FLUSH_LOOKUP.entries.map (·.1)).Nodup ∧
      ((mislabelled t).UNSUITED_LOOKUP.entries.map (·.1)).Nodup := by
  simp only [mislabelled, mislabelled_keys]
  exact ⟨h, h'⟩

theorem mislabelled_identical {m : FxHashMap Meta} (hn : (m.entries.map (·.1)).Nodup) :
    StaticLookup.identicalTables m
      ⟨m.entries.map (fun e => (e.1, .HighCard e.2.hand_rank .Two))⟩ = true := by
  simp only [StaticLookup.identicalTables, FxHashMap.len, List.length_map, beq_self_eq_true,
    Bool.and_true, List.all_eq_true]
  intro e he
  obtain ⟨e', he', rfl⟩ := List.mem_map.1 he
  simp only
  rw [get?_of_mem hn he']
  exact decide_eq_true rfl

theorem mislabelled_passes {t : LookupTable} (h : (t.flush_lookup.entries.map (·.1)).Nodup)
    (h' : (t.unsuited_lookup.entries.map (·.1)).Nodup) :
    StaticLookup.ensure_identical_tables t (mislabelled t) = true := by
  simp only [StaticLookup.ensure_identical_tables, Bool.and_eq_true]
  exact ⟨mislabelled_identical h, mislabelled_identical h'⟩

theorem mislabelled_get? (m : FxHashMap Meta) (k : BitVec 32) :
    (FxHashMap.mk (m.entries.map (fun e => (e.1, Meta.HighCard e.2.hand_rank .Two)))).get? k
      = (m.get? k).map (fun v => Meta.HighCard v.hand_rank .Two) := by
  simp only [FxHashMap.get?, List.find?_map, Option.map_map]
  rfl

theorem mislabelled_index {m : FxHashMap Meta} {k : BitVec 32} {w : Meta}
    (h : (FxHashMap.mk (m.entries.map
      (fun e => (e.1, Meta.HighCard e.2.hand_rank .Two)))).index k = .ok w) :
    ∃ n, w = .HighCard n .Two := by
  simp only [FxHashMap.index, mislabelled_get?] at h
  cases hg : m.get? k with
  | none => rw [hg] at h; cases h
  | some v =>
    rw [hg] at h
    simp only [Option.map_some, Except.ok.injEq] at h
    exact ⟨_, h.symm⟩

theorem bind_eq_ok {α β : Type} {x : Exec α} {f : α → Exec β} {b : β} :
    x >>= f = .ok b ↔ ∃ a, x = .ok a ∧ f a = .ok b := by
  cases x with
  | error p => simp [Comb.bind_error]
  | ok a => simp [Comb.bind_ok]

theorem five_mislabelled {t : LookupTable} {cards : List Card} {e : Eval}
    (h : five (StaticLookup.toEvaluation (mislabelled t)) cards = .ok e) :
    e.class' = .HighCard .Two := by
  unfold five at h
  simp only [StaticLookup.toEvaluation, mislabelled] at h
  split at h
  · obtain ⟨_, _, h⟩ := bind_eq_ok.1 h
    obtain ⟨_, _, h⟩ := bind_eq_ok.1 h
    obtain ⟨w, hw, h⟩ := bind_eq_ok.1 h
    obtain ⟨n, rfl⟩ := mislabelled_index hw
    rw [Comb.pure_eq_ok, Except.ok.injEq] at h
    rw [← h]
    rfl
  · obtain ⟨w, hw, h⟩ := bind_eq_ok.1 h
    obtain ⟨n, rfl⟩ := mislabelled_index hw
    rw [Comb.pure_eq_ok, Except.ok.injEq] at h
    rw [← h]
    rfl

/-- C25: passing the test does not make the classes right.  There are static tables that pass it and a
hand whose class they get wrong. -/
theorem c25_class_may_differ : ∃ (s : StaticLookup.Statics) (ev : Evaluator),
    Evaluator.new = .ok ev ∧ (s.FLUSH_LOOKUP.entries.map (·.1)).Nodup ∧
    (s.UNSUITED_LOOKUP.entries.map (·.1)).Nodup ∧
    StaticLookup.ensure_identical_tables ev.table s = true ∧
    ∃ h a b, StaticLookup.evaluate s (deal h) = .ok (.ok a) ∧ ev.evaluate (deal h) = .ok (.ok b) ∧
      a.eq b = true ∧ a.class' ≠ b.class' := by
  obtain ⟨ev, hev⟩ := c36_new_ok
  obtain ⟨_, _, hf, hu⟩ := c32_sizes ev hev
  obtain ⟨hk1, hk2⟩ := mislabelled_nodup hf hu
  have hp := mislabelled_passes hf hu
  refine ⟨mislabelled ev.table, ev, hev, hk1, hk2, hp, royalHand, ?_⟩
  have hrel := c25_tested _ _ hev hk1 hk2 hp (deal royalHand)
  have hb : ev.evaluate (deal royalHand) = .ok (.ok Eval.BEST) := by
    have := c08_best
    rwa [evaluateHand, hev, Comb.bind_ok] at this
  rw [hb] at hrel
  have hs : StaticLookup.evaluate (mislabelled ev.table) (deal royalHand)
      = (do return .ok (← Poker.five (StaticLookup.toEvaluation (mislabelled ev.table))
          (deal royalHand))) := evaluate_five _ (by decide) (by decide)
  cases h5 : Poker.five (StaticLookup.toEvaluation (mislabelled ev.table)) (deal royalHand) with
  | error p => rw [hs, h5] at hrel; exact absurd hrel (by simp [Related, Comb.bind_error])
  | ok a =>
    rw [h5] at hs
    rw [hs] at hrel
    refine ⟨a, Eval.BEST, hs, hb, hrel, ?_⟩
    rw [five_mislabelled h5]
    decide

/-- The hypotheses of `c25_tested` are met by the generated tables themselves. -/
example : StaticLookup.ensure_identical_tables theEvaluator.table
    ⟨theEvaluator.table.flush_lookup, theEvaluator.table.unsuited_lookup⟩ = true := by
  have h : ∀ m : FxHashMap Meta, (m.entries.map (·.1)).Nodup →
      StaticLookup.identicalTables m m = true := by
    intro m hn
    simp only [StaticLookup.identicalTables, beq_self_eq_true, Bool.and_true, List.all_eq_true]
    intro e he
    rw [get?_of_mem hn he]
    exact decide_eq_true rfl
  simp only [StaticLookup.ensure_identical_tables, Bool.and_eq_true]
  exact ⟨h _ flush_keys, h _ unsuited_keys⟩

/-! ## C26: `Evaluator::default()` -/

theorem prime_product_ok (bits : BitVec 16) :
    ∃ p, prime_product_from_rank_bits bits = .ok p := by
  unfold prime_product_from_rank_bits
  have hall : ∀ i ∈ INT_RANKS, i.toNat < 16 ∧ ∃ p, idx PRIMES (asUsize i) = .ok p := by
    have : INT_RANKS.all (fun i => decide (i.toNat < 16) && (PRIMES[asUsize i]?).isSome) = true := by
      decide +kernel
    intro i hi
    have hi' := List.all_eq_true.1 this i hi
    simp only [Bool.and_eq_true, decide_eq_true_eq, Option.isSome_iff_exists] at hi'
    obtain ⟨h1, p, hp⟩ := hi'
    exact ⟨h1, p, by rw [idx, hp]⟩
  generalize INT_RANKS = l at hall
  generalize (1 : BitVec 32) = p0
  induction l generalizing p0 with
  | nil => exact ⟨p0, rfl⟩
  | cons i l ih =>
    obtain ⟨h16, p, hp⟩ := hall i (by simp)
    rw [List.foldlM_cons, shl, if_pos h16, Comb.bind_ok]
    have ih' := ih (fun j hj => hall j (by simp [hj]))
    split
    · rw [hp]
      exact ih' _
    · exact ih' _

theorem five_default (cards : List Card) :
    five Evaluator.default.toEvaluation cards = .error .missingKey := by
  unfold five
  have hs : ∀ x : BitVec 32, sar x 16 = .ok (x.sshiftRight 16) := fun x => by
    rw [sar, if_pos (by decide)]
  simp only [hs, Comb.bind_ok]
  split
  · obtain ⟨p, hp⟩ := prime_product_ok ((((cards.map Card.unique_integer).foldl
      (fun acc x => acc ||| x) 0#32).sshiftRight 16).truncate 16)
    rw [hp]
    rfl
  · rfl

/-- C26 is false: `Evaluator::default()` panics on every list of five or more distinct cards. -/
theorem c26_default_panics (h : List PCard) (hn : h.Nodup) (h5 : 5 ≤ h.length) :
    Evaluator.default.evaluate (deal h) = .error .missingKey := by
  unfold Evaluator.evaluate
  rcases Nat.lt_or_eq_of_le h5 with h5 | h5
  · rw [evaluate_many _ hn h5, six_plus_loop _ (by rw [deal_length]; exact h5)]
    have hne := combos_ne_nil (n := 5) (l := deal h) (by rw [deal_length]; omega)
    cases hc : combos 5 (deal h) with
    | nil => exact absurd hc hne
    | cons c l =>
      rw [List.foldlM_cons, sixPlusBody, five_default]
      rfl
  · rw [evaluate_five _ hn h5.symm, five_default]
    rfl

/-- C26: on the other lists it gives the error that `Evaluator::new()` gives. -/
theorem c26_default_errors (h : List PCard) (hh : ¬ (h.Nodup ∧ 5 ≤ h.length)) :
    Evaluator.default.evaluate (deal h) = evaluateHand h := by
  rw [evaluateHand, evaluator_new, Comb.bind_ok]
  unfold Evaluator.evaluate
  by_cases hn : h.Nodup
  · have h5 : h.length < 5 := by
      by_contra hc
      exact hh ⟨hn, by omega⟩
    rw [evaluate_short hn h5, evaluate_short hn h5]
  · rw [evaluate_dup hn, evaluate_dup hn]

example : Evaluator.default.evaluate (deal [(.Ace, .Clubs), (.King, .Spades)])
    = evaluateHand [(.Ace, .Clubs), (.King, .Spades)] := c26_default_errors _ (by decide)

/-- C26: so the claim that the two evaluators agree is refuted by a concrete hand. -/
theorem c26_refuted : ¬ ∀ h : List PCard, Evaluator.default.evaluate (deal h) = evaluateHand h := by
  intro hall
  have := hall royalHand
  rw [c26_default_panics royalHand (by decide) (by decide), c08_best] at this
  cases this

example : Evaluator.default.evaluate (deal sevenCards) = .error .missingKey :=
  c26_default_panics sevenCards (by decide) (by decide)

end Poker
