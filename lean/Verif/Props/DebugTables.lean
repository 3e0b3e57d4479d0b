import Verif.Props.Debug
import Verif.Props.Static

/-! # C48: `Debug` texts of evaluators -/

namespace Poker
open Rules Tab Text Dbg

theorem pad_free {d : Char} (hd : d ≠ ' ') (on : Bool) {s : Str} (h : ∀ c ∈ s, c ≠ d) :
    ∀ c ∈ padFrom on s, c ≠ d := by
  induction s generalizing on with
  | nil => simp [padFrom]
  | cons a s ih =>
    intro c hc
    simp only [padFrom, List.mem_append, List.mem_cons] at hc
    rcases hc with hc | rfl | hc
    · cases on
      · simp at hc
      · simp at hc
        exact hc ▸ hd.symm
    · exact h _ (by simp)
    · exact ih _ (fun c hc => h c (by simp [hc])) c hc

theorem join_free {d : Char} (h1 : d ≠ ',') (h2 : d ≠ ' ') {l : List Str} (h : ∀ s ∈ l, ∀ c ∈ s, c ≠ d) :
    ∀ c ∈ joinComma l, c ≠ d := by
  induction l with
  | nil => simp [joinComma]
  | cons s l ih =>
    cases l with
    | nil => exact h s (by simp)
    | cons t l =>
      intro c hc
      simp only [joinComma, List.mem_append, List.mem_cons] at hc
      rcases hc with hc | rfl | rfl | hc
      · exact h s (by simp) c hc
      · exact h1.symm
      · exact h2.symm
      · exact ih (fun s hs => h s (List.mem_cons_of_mem _ hs)) c hc

/-- A record without braces in it has one closing brace, at the end. -/
theorem struct_brace (alt : Bool) (name : Str) (fields : List (Str × Str)) (hn : ∀ c ∈ name, c ≠ '}')
    (h : ∀ f ∈ fields, (∀ c ∈ f.1, c ≠ '}') ∧ ∀ c ∈ f.2, c ≠ '}') :
    ∃ t, debugStruct alt name fields = t ++ ['}'] ∧ ∀ c ∈ t, c ≠ '}' := by
  cases alt with
  | true =>
    refine ⟨_, rfl, ?_⟩
    intro c hc
    simp only [List.mem_append, List.mem_flatMap] at hc
    rcases hc with (hc | hc) | ⟨f, hf, hc⟩
    · exact hn c hc
    · revert c
      decide
    · refine pad_free (by decide) true ?_ c hc
      intro c hc
      simp only [List.mem_append] at hc
      rcases hc with ((hc | hc) | hc) | hc
      · exact (h f hf).1 c hc
      · revert c
        decide
      · exact (h f hf).2 c hc
      · revert c
        decide
  | false =>
    refine ⟨name ++ " { ".toList ++ joinComma (fields.map (fun (f, v) => f ++ ": ".toList ++ v)) ++ [' '],
      by simp [debugStruct], ?_⟩
    intro c hc
    simp only [List.mem_append] at hc
    rcases hc with ((hc | hc) | hc) | hc
    · exact hn c hc
    · revert c
      decide
    · refine join_free (by decide) (by decide) ?_ c hc
      intro s hs c hc
      obtain ⟨f, hf, rfl⟩ := List.mem_map.1 hs
      simp only [List.mem_append] at hc
      rcases hc with (hc | hc) | hc
      · exact (h f hf).1 c hc
      · revert c
        decide
      · exact (h f hf).2 c hc
    · revert c
      decide

theorem int_brace (x : Int) : ∀ c ∈ intStr x, c ≠ '}' ∧ c ≠ ':' := by
  intro c hc
  rcases intStr_char hc with rfl | h
  · decide
  · constructor <;> rintro rfl <;> revert h <;> decide

theorem rank_brace (r : Rank) : ∀ c ∈ r.debug, c ≠ '}' := by cases r <;> decide

theorem handRank_brace (alt : Bool) (h : PokerHandRank) : ∀ c ∈ h.debug alt, c ≠ '}' := by
  intro c hc
  cases alt with
  | true =>
    simp only [PokerHandRank.debug, debugTuple, if_true, List.mem_append] at hc
    rcases hc with ((hc | hc) | hc) | hc
    · revert c; decide
    · revert c; decide
    · refine pad_free (by decide) true ?_ c hc
      intro c hc
      rcases List.mem_append.1 hc with hc | hc
      · exact (int_brace _ c hc).1
      · exact (by decide : ∀ c ∈ ",\n".toList, c ≠ '}') c hc
    · revert c; decide
  | false =>
    simp only [PokerHandRank.debug, debugTuple, Bool.false_eq_true, if_false, List.mem_append] at hc
    rcases hc with ((hc | hc) | hc) | hc
    · revert c; decide
    · revert c; decide
    · exact (int_brace _ c hc).1
    · revert c; decide

theorem meta_brace (alt : Bool) (m : Meta) : ∃ t, m.debug alt = t ++ ['}'] ∧ ∀ c ∈ t, c ≠ '}' := by
  cases m <;>
  · refine struct_brace alt _ _ (by decide) ?_
    intro f hf
    simp only [List.mem_cons, List.not_mem_nil, or_false] at hf
    rcases hf with rfl | rfl | rfl
    all_goals
      dsimp only
      first
        | exact ⟨by decide, handRank_brace alt _⟩
        | exact ⟨by decide, rank_brace _⟩

/-- A text that ends at its only closing brace, up to a fixed rest, can be read off. -/
theorem Code.braced {α : Type} {f : α → Str} (k : Str) (hi : ∀ a a', f a = f a' → a = a')
    (hb : ∀ a, ∃ t, f a = t ++ '}' :: k ∧ ∀ c ∈ t, c ≠ '}') : Code f := by
  intro a a' u u' h
  obtain ⟨t, ht, hn⟩ := hb a
  obtain ⟨t', ht', hn'⟩ := hb a'
  have h' := h
  rw [ht, ht', List.append_assoc, List.append_assoc, List.cons_append, List.cons_append] at h'
  obtain ⟨rfl, h2⟩ := split_at '}' _ _ _ _ hn hn' h'
  exact ⟨hi a a' (by rw [ht, ht']), List.append_cancel_left h2⟩

/-- An entry of a map, on a line. -/
def entryText (alt : Bool) (e : BitVec 32 × Meta) : Str := intStr e.1.toInt ++ ": ".toList ++ e.2.debug alt

theorem entry_inj (alt : Bool) (e e' : BitVec 32 × Meta) (h : entryText alt e = entryText alt e') :
    e = e' := by
  obtain ⟨k, m⟩ := e
  obtain ⟨k', m'⟩ := e'
  simp only [entryText, List.append_assoc] at h
  obtain ⟨h1, h2⟩ := split_at ':' _ _ _ _ (fun c hc => (int_brace _ c hc).2)
    (fun c hc => (int_brace _ c hc).2) h
  have h3 : k = k' := BitVec.eq_of_toInt_eq (intStr_inj h1)
  have h4 : m = m' := meta_inj alt (by simpa using h2)
  rw [h3, h4]

theorem entry_brace (alt : Bool) (e : BitVec 32 × Meta) :
    ∃ t, entryText alt e = t ++ ['}'] ∧ ∀ c ∈ t, c ≠ '}' := by
  obtain ⟨t, ht, hn⟩ := meta_brace alt e.2
  refine ⟨intStr e.1.toInt ++ ": ".toList ++ t, by simp [entryText, ht], ?_⟩
  intro c hc
  simp only [List.mem_append] at hc
  rcases hc with (hc | hc) | hc
  · exact (int_brace _ c hc).1
  · revert c; decide
  · exact hn c hc

theorem entry_code : Code (entryText false) :=
  Code.braced [] (entry_inj false) (entry_brace false)

/-- An entry of a map, spread over lines. -/
def entryLines (e : BitVec 32 × Meta) : Str := pad (entryText true e ++ ",\n".toList)

theorem padFrom_append (on : Bool) (s : Str) (c : Char) (t : Str) :
    ∃ on', padFrom on (s ++ c :: t) = padFrom on s ++ (padFrom on' [c] ++ padFrom (c == '\n') t) := by
  induction s generalizing on with
  | nil => exact ⟨on, by simp [padFrom]⟩
  | cons a s ih =>
    obtain ⟨on', h⟩ := ih (a == '\n')
    exact ⟨on', by simp only [List.cons_append, padFrom, h, List.append_assoc]⟩

theorem entry_lines_code : Code entryLines := by
  refine Code.braced ",\n".toList (fun a a' h => entry_inj true a a' ?_) ?_
  · exact List.append_cancel_right (padFrom_inj true _ _ h)
  · intro a
    obtain ⟨t, ht, hn⟩ := entry_brace true a
    have : entryText true a ++ ",\n".toList = t ++ '}' :: ",\n".toList := by rw [ht]; simp
    obtain ⟨on', h⟩ := padFrom_append true t '}' ",\n".toList
    refine ⟨padFrom true t ++ (if on' then "    ".toList else []), ?_, ?_⟩
    · rw [entryLines, pad, this, h]
      cases on' <;> simp [padFrom]
    · intro c hc
      rcases List.mem_append.1 hc with hc | hc
      · exact pad_free (by decide) true hn c hc
      · cases on'
        · cases hc
        · exact (by decide : ∀ c ∈ "    ".toList, c ≠ '}') c hc

theorem entry_head (e : BitVec 32 × Meta) (t : Str) : (entryText false e ++ t).head? ≠ some '}' := by
  obtain ⟨c, w, hw⟩ := List.exists_cons_of_ne_nil (intStr_ne e.1.toInt)
  have := (int_brace e.1.toInt c (by rw [hw]; simp)).1
  simp only [entryText, hw, List.cons_append, List.head?_cons, ne_eq, Option.some.injEq]
  exact this

/-- The text of a map, read off with what follows. -/
theorem items_code {α : Type} {f : α → Str} (hf : Code f) (hne : ∀ a t, (f a ++ t).head? ≠ some '}')
    (l l' : List α) (u u' : Str)
    (h : joinComma (l.map f) ++ '}' :: u = joinComma (l'.map f) ++ '}' :: u') : l = l' ∧ u = u' := by
  induction l generalizing l' with
  | nil =>
    rcases l' with _ | ⟨a, _ | ⟨b, l'⟩⟩
    · exact ⟨rfl, by simpa [joinComma] using h⟩
    · exact absurd (congrArg List.head? h.symm) (hne a _)
    · simp only [List.map_cons, joinComma, List.append_assoc] at h
      exact absurd (congrArg List.head? h.symm) (hne a _)
  | cons a l ih =>
    rcases l' with _ | ⟨a', l'⟩
    · rcases l with _ | ⟨b, l⟩
      · exact absurd (congrArg List.head? h) (hne a _)
      · simp only [List.map_cons, joinComma, List.append_assoc] at h
        exact absurd (congrArg List.head? h) (hne a _)
    · rcases l with _ | ⟨b, l⟩ <;> rcases l' with _ | ⟨b', l'⟩
      · simp only [List.map_cons, List.map_nil, joinComma] at h
        obtain ⟨rfl, h2⟩ := hf _ _ _ _ h
        exact ⟨rfl, by simpa using h2⟩
      · simp only [List.map_cons, List.map_nil, joinComma, List.append_assoc] at h
        have := (hf _ _ _ _ h).2
        simp at this
      · simp only [List.map_cons, List.map_nil, joinComma, List.append_assoc] at h
        have := (hf _ _ _ _ h).2
        simp at this
      · simp only [List.map_cons, joinComma, List.append_assoc] at h
        obtain ⟨rfl, h2⟩ := hf _ _ _ _ h
        simp only [List.cons_append, List.cons.injEq, true_and] at h2
        obtain ⟨h3, h4⟩ := ih (b' :: l') (by simpa using h2)
        exact ⟨by rw [h3], h4⟩

theorem lines_code {α : Type} {f : α → Str} (hf : Code f) (hne : ∀ a t, (f a ++ t).head? ≠ some '}')
    (l l' : List α) (u u' : Str)
    (h : l.flatMap f ++ '}' :: u = l'.flatMap f ++ '}' :: u') : l = l' ∧ u = u' := by
  induction l generalizing l' with
  | nil =>
    cases l' with
    | nil => exact ⟨rfl, by simpa using h⟩
    | cons a l' =>
      simp only [List.flatMap_cons, List.append_assoc] at h
      exact absurd (congrArg List.head? h.symm) (hne a _)
  | cons a l ih =>
    cases l' with
    | nil =>
      simp only [List.flatMap_cons, List.append_assoc] at h
      exact absurd (congrArg List.head? h) (hne a _)
    | cons a' l' =>
      simp only [List.flatMap_cons, List.append_assoc] at h
      obtain ⟨rfl, h2⟩ := hf _ _ _ _ h
      obtain ⟨h3, h4⟩ := ih l' h2
      exact ⟨by rw [h3], h4⟩

/-- The text of the entries of a map. -/
def entriesText (alt : Bool) (l : List (BitVec 32 × Meta)) : Str :=
  debugMap alt (l.map (fun (k, m) => (intStr k.toInt, m.debug alt)))

theorem map_code (alt : Bool) : Code (entriesText alt) := by
  intro l l' u u' h
  cases alt with
  | false =>
    have hl : ∀ l : List (BitVec 32 × Meta), entriesText false l
        = '{' :: (joinComma (l.map (entryText false)) ++ ['}']) := by
      intro l
      have : entryText false = fun x => intStr x.1.toInt ++ ':' :: ' ' :: x.2.debug false := by
        funext x
        simp [entryText]
      simp [entriesText, debugMap, this, Function.comp_def]
    simp only [hl, List.cons_append, List.append_assoc, List.cons.injEq, true_and, List.nil_append] at h
    exact items_code entry_code entry_head l l' u u' h
  | true =>
    have hl : ∀ e (l : List (BitVec 32 × Meta)), entriesText true (e :: l)
        = '{' :: '\n' :: ((e :: l).flatMap entryLines ++ ['}']) := by
      intro e l
      have : entryLines = fun x => pad (intStr x.1.toInt ++ ':' :: ' ' :: (x.2.debug true ++ [',', '\n'])) := by
        funext x
        simp [entryLines, entryText]
      simp [entriesText, debugMap, this, List.flatMap_map]
    have h0 : entriesText true [] = ['{', '}'] := rfl
    have hne : ∀ (e : BitVec 32 × Meta) t, (entryLines e ++ t).head? ≠ some '}' := by
      intro e t
      obtain ⟨c, w, hw⟩ := List.exists_cons_of_ne_nil (intStr_ne e.1.toInt)
      simp [entryLines, entryText, hw, pad, padFrom]
    rcases l with _ | ⟨e, l⟩ <;> rcases l' with _ | ⟨e', l'⟩
    · rw [h0] at h
      exact ⟨rfl, List.append_cancel_left h⟩
    · rw [h0, hl] at h
      simp at h
    · rw [h0, hl] at h
      simp at h
    · simp only [hl, List.cons_append, List.append_assoc, List.cons.injEq, true_and, List.nil_append] at h
      exact lines_code entry_lines_code hne _ _ u u' h

/-- C48: evaluators with the same `Debug` text, on one line or several, hold the same entries, whatever
order their maps go by; so they give the same answers (and panic alike) on every slice. -/
theorem c48_evaluator_inj (alt : Bool)
    (order order' : List (BitVec 32 × Meta) → List (BitVec 32 × Meta))
    (ho : ∀ l, (order l).Perm l) (ho' : ∀ l, (order' l).Perm l) (a b : Evaluator)
    (h : a.debug order alt = b.debug order' alt) :
    a.table.flush_lookup.entries.Perm b.table.flush_lookup.entries ∧
      a.table.unsuited_lookup.entries.Perm b.table.unsuited_lookup.entries := by
  have h1 := tuple_inj alt h
  have h2 := struct_inj alt "LookupTable".toList
    [("flush_lookup".toList, entriesText alt (order a.table.flush_lookup.entries),
        entriesText alt (order' b.table.flush_lookup.entries)),
      ("unsuited_lookup".toList, entriesText alt (order a.table.unsuited_lookup.entries),
        entriesText alt (order' b.table.unsuited_lookup.entries))]
    (by
      simp only [List.mem_cons, List.not_mem_nil, or_false]
      rintro f (rfl | rfl) <;> exact .code (map_code alt) _ _)
    h1
  simp only [List.map_cons, List.map_nil, List.cons.injEq, and_true] at h2
  have h3 := (map_code alt).inj h2.1
  have h4 := (map_code alt).inj h2.2
  exact ⟨(ho _).symm.trans (h3 ▸ ho' _), (ho _).symm.trans (h4 ▸ ho' _)⟩

example : Evaluator.default.debug id true = Evaluator.default.debug List.reverse true := by decide

theorem getq_same {a b : FxHashMap Meta} (hp : a.entries.Perm b.entries)
    (hn : (a.entries.map (·.1)).Nodup) (k : BitVec 32) : a.get? k = b.get? k := by
  have hn' : (b.entries.map (·.1)).Nodup := (hp.map _).nodup_iff.1 hn
  cases h : a.get? k with
  | some v => exact (get?_of_mem hn' (hp.mem_iff.1 (get?_some_mem h))).symm
  | none =>
    cases h' : b.get? k with
    | none => rfl
    | some v => rw [get?_of_mem hn (hp.mem_iff.2 (get?_some_mem h'))] at h; cases h

/-- C48: evaluators with the same `Debug` text give the same answers on every slice, and panic alike. -/
theorem c48_evaluator_alike (alt : Bool)
    (order order' : List (BitVec 32 × Meta) → List (BitVec 32 × Meta))
    (ho : ∀ l, (order l).Perm l) (ho' : ∀ l, (order' l).Perm l) (a b : Evaluator)
    (ha : (a.table.flush_lookup.entries.map (·.1)).Nodup)
    (ha' : (a.table.unsuited_lookup.entries.map (·.1)).Nodup)
    (h : a.debug order alt = b.debug order' alt) (cards : List Card) :
    a.evaluate cards = b.evaluate cards := by
  obtain ⟨h1, h2⟩ := c48_evaluator_inj alt order order' ho ho' a b h
  have : a.toEvaluation = b.toEvaluation := by
    rw [Evaluator.toEvaluation, Evaluator.toEvaluation, Evaluation.mk.injEq]
    constructor <;> funext k <;> simp only [FxHashMap.index, getq_same h1 ha, getq_same h2 ha']
  rw [Evaluator.evaluate, this]
  rfl

/-- Two evaluators from `Evaluator::new` meet the hypotheses, with maps that go by the entries as they
are. -/
example : ∃ a b : Evaluator, (a.table.flush_lookup.entries.map (·.1)).Nodup ∧
    (a.table.unsuited_lookup.entries.map (·.1)).Nodup ∧ (∀ l, (id l : List (BitVec 32 × Meta)).Perm l) ∧
    a.debug id true = b.debug id true := by
  obtain ⟨ev, hev⟩ := c36_new_ok
  exact ⟨ev, ev, (c32_sizes ev hev).2.2.1, (c32_sizes ev hev).2.2.2, fun l => .refl l, rfl⟩

/-- C48: the texts of `Evaluator::default()`, which differ from those of `Evaluator::new()`. -/
theorem c48_evaluator_default (order order' : List (BitVec 32 × Meta) → List (BitVec 32 × Meta))
    (ho : ∀ l, (order l).Perm l) (ho' : ∀ l, (order' l).Perm l) :
    Evaluator.default.debug order false
      = "Evaluator(LookupTable { flush_lookup: {}, unsuited_lookup: {} })".toList ∧
    Evaluator.default.debug order true
      = ("Evaluator(\n    LookupTable {\n        flush_lookup: {},\n        unsuited_lookup: {},\n"
          ++ "    },\n)").toList ∧
    ∀ alt ev, Evaluator.new = .ok ev → ev.debug order alt ≠ Evaluator.default.debug order' alt := by
  have hn : order [] = [] := List.perm_nil.1 (ho [])
  have hd : ∀ alt, Evaluator.default.debug order alt = Evaluator.default.debug id alt := by
    intro alt
    simp only [Evaluator.debug, LookupTable.debug, FxHashMap.debug, Evaluator.default,
      LookupTable.default, FxHashMap.empty, hn, id]
  refine ⟨?_, ?_, ?_⟩
  · rw [hd]; decide +kernel
  · rw [hd]; decide +kernel
  · intro alt ev hev h
    have hl := (c48_evaluator_inj alt order order' ho ho' _ _ h).1.length_eq
    have := (c32_sizes ev hev).1
    simp only [FxHashMap.len] at this
    rw [this] at hl
    cases hl

example : ∀ alt, theEvaluator.debug List.reverse alt ≠ Evaluator.default.debug id alt :=
  fun alt => (c48_evaluator_default List.reverse id List.reverse_perm .refl).2.2 alt _ evaluator_new

theorem table_text (order : List (BitVec 32 × Meta) → List (BitVec 32 × Meta)) (ev : Evaluator) :
    ev.debug order false = "Evaluator(".toList ++ oneLine "LookupTable".toList
      [("flush_lookup".toList, "{".toList ++ ", ".toList.intercalate
          ((order ev.table.flush_lookup.entries).map (entryText false)) ++ "}".toList),
        ("unsuited_lookup".toList, "{".toList ++ ", ".toList.intercalate
          ((order ev.table.unsuited_lookup.entries).map (entryText false)) ++ "}".toList)]
      ++ ")".toList := by
  simp only [Evaluator.debug, debugTuple, Bool.false_eq_true, if_false, LookupTable.debug,
    struct_one, FxHashMap.debug, debugMap, joinComma_eq, List.map_map, Function.comp_def]
  rfl

/-- The key of a hand, as a number. -/
theorem key_int {h : List PCard} (h5 : h.length = 5) :
    intStr (keyV (values h)).toInt = natStr (h.map (fun c => primeOf c.1)).prod := by
  have e : keyN (values h) = (h.map (fun c => primeOf c.1)).prod := by
    simp only [keyN, values, List.map_map]
    rfl
  have hb := keyN_le (values h) (values_mem h)
  rw [values_length, h5] at hb
  have ht : (keyV (values h)).toNat = keyN (values h) := by
    rw [keyV, BitVec.toNat_ofNat, Nat.mod_eq_of_lt (by omega)]
  rw [BitVec.toInt_eq_toNat_of_lt (by rw [ht]; omega), ht, e, intStr, if_neg (by omega)]
  rfl

/-- Every hand of five cards has its entry, with what its result has. -/
theorem hand_entry {ev : Evaluator} (hev : Evaluator.new = .ok ev) {h : List PCard} {e : Eval}
    (h5 : h.length = 5) (he : ev.evaluate (deal h) = .ok (.ok e)) :
    (keyV (values h), e.data) ∈
      (if Rules.flush h then ev.table.flush_lookup else ev.table.unsuited_lookup).entries := by
  have hn : h.Nodup := by
    by_contra hn
    rw [Evaluator.evaluate, evaluate_dup hn] at he
    cases he
  rw [evaluator_new, Except.ok.injEq] at hev
  subst hev
  rw [Evaluator.evaluate, evaluate_five _ hn h5, five_eq hn h5] at he
  cases he
  have key : ∀ m : FxHashMap Meta, m.index (keyV (values h)) = .ok (metaFor (strength h)) →
      (keyV (values h), metaFor (strength h)) ∈ m.entries := by
    intro m hm
    unfold FxHashMap.index at hm
    split at hm
    · rename_i v hv
      cases hm
      exact get?_some_mem hv
    · cases hm
  change (keyV (values h), metaFor (strength h)) ∈ _
  unfold strength at key ⊢
  cases hf : Rules.flush h with
  | true =>
    rw [hf] at key
    obtain ⟨c, hc, hp⟩ := cover_flush ((values_length h).trans h5) (values_mem h) (values_nodup hn hf)
    rw [if_pos rfl]
    exact key flushTable (lookup_flush hc hp)
  | false =>
    rw [hf] at key
    obtain ⟨c, hc, hp⟩ := cover_unsuited ((values_length h).trans h5) (values_mem h)
      (count_values_le hn)
    rw [if_neg (by simp)]
    exact key unsuitedTable (lookup_unsuited hc hp)

/-- C48: the text of `Evaluator::new()` on one line, in whatever order the maps go: 1287 entries for
flushes and 6175 for other hands, among them one for every hand of five cards, which has the product of
the primes of its ranks and what the text of its result has. -/
theorem c48_evaluator_new (order : List (BitVec 32 × Meta) → List (BitVec 32 × Meta))
    (ho : ∀ l, (order l).Perm l) (ev : Evaluator) (hev : Evaluator.new = .ok ev) :
    ∃ fs us : List Str, ev.debug order false = "Evaluator(".toList ++ oneLine "LookupTable".toList
        [("flush_lookup".toList, "{".toList ++ ", ".toList.intercalate fs ++ "}".toList),
          ("unsuited_lookup".toList, "{".toList ++ ", ".toList.intercalate us ++ "}".toList)]
        ++ ")".toList ∧
      fs.length = 1287 ∧ us.length = 6175 ∧
      ∀ (h : List PCard) (e : Eval), h.length = 5 → ev.evaluate (deal h) = .ok (.ok e) →
        ∃ d t, Decimal d (h.map (fun c => primeOf c.1)).prod ∧
          e.debug false = "Eval(".toList ++ t ++ ")".toList ∧
          d ++ ": ".toList ++ t ∈ if Rules.flush h then fs else us := by
  refine ⟨_, _, table_text order ev, ?_, ?_, ?_⟩
  · rw [List.length_map, (ho _).length_eq]
    exact (c32_sizes ev hev).1
  · rw [List.length_map, (ho _).length_eq]
    exact (c32_sizes ev hev).2.1
  · intro h e h5 he
    refine ⟨_, e.data.debug false, decimal_natStr _, rfl, ?_⟩
    rw [← key_int h5]
    have hm := hand_entry hev h5 he
    split at hm <;> rename_i hf
    · rw [if_pos hf]
      exact List.mem_map.2 ⟨_, (ho _).mem_iff.2 hm, rfl⟩
    · rw [if_neg hf]
      exact List.mem_map.2 ⟨_, (ho _).mem_iff.2 hm, rfl⟩

/-- There is an evaluator, and the royal flush has a result. -/
example : ∃ (ev : Evaluator) (e : Eval), Evaluator.new = .ok ev ∧ royalHand.length = 5 ∧
    ev.evaluate (deal royalHand) = .ok (.ok e) := by
  obtain ⟨e, _, _, he⟩ := evaluate_ok (h := royalHand) (by decide) (by decide)
  exact ⟨theEvaluator, _, evaluator_new, rfl, he⟩

/-! ## Spread over lines -/

/-- A line that is not empty. -/
def Line (s : Str) : Prop := s ≠ [] ∧ ∀ c ∈ s, c ≠ '\n'

theorem pad_lines (l : List Str) (h : ∀ s ∈ l, Line s) : pad (lines l) = lines (inset 4 l) := by
  induction l with
  | nil => rfl
  | cons s l ih =>
    have e : lines (s :: l) = s ++ '\n' :: lines l := by simp [lines]
    rw [e, pad_nl (h s (by simp)).1 (h s (by simp)).2, ih (fun s hs => h s (List.mem_cons_of_mem _ hs))]
    simp [lines, inset]

theorem lines_append (l m : List Str) : lines (l ++ m) = lines l ++ lines m := by simp [lines]

theorem inset_line {n : Nat} {l : List Str} (h : ∀ s ∈ l, Line s) : ∀ s ∈ inset n l, Line s := by
  intro s hs
  obtain ⟨t, ht, rfl⟩ := List.mem_map.1 hs
  refine ⟨by simp [(h t ht).1], ?_⟩
  intro c hc
  rcases List.mem_append.1 hc with hc | hc
  · rw [List.eq_of_mem_replicate hc]; decide
  · exact (h t ht).2 c hc

theorem inset_inset (m n : Nat) (l : List Str) : inset m (inset n l) = inset (m + n) l := by
  simp only [inset, List.map_map, List.map_inj_left, Function.comp_def]
  intro s _
  rw [← List.append_assoc, List.replicate_append_replicate]

theorem line_append {s t : Str} (hs : Line s) (ht : ∀ c ∈ t, c ≠ '\n') : Line (s ++ t) :=
  ⟨by simp [hs.1], fun c hc => (List.mem_append.1 hc).elim (hs.2 c) (ht c)⟩

/-- The lines of a record that starts with a hand rank, but for the end of the last. -/
theorem record_lines (name : Str) (hn : Line name) (r : PokerHandRank) (fs : List (Str × Str))
    (hf : ∀ f ∈ fs, Line f.1 ∧ ∀ c ∈ f.2, c ≠ '\n') :
    ∃ first rest, (∀ s ∈ first :: rest, Line s) ∧
      debugStruct true name (("hand_rank".toList, r.debug true) :: fs)
        = lines (first :: rest) ++ "}".toList := by
  have h1 : ∀ s ∈ ["hand_rank: PokerHandRank(".toList, "    ".toList ++ intStr r.val.toInt ++ ",".toList,
      "),".toList], Line s := by
    simp only [List.mem_cons, List.not_mem_nil, or_false]
    rintro s (rfl | rfl | rfl)
    · exact ⟨by decide, by decide⟩
    · exact line_append (s := "    ".toList ++ intStr r.val.toInt) (line_append ⟨by decide, by decide⟩
        (fun c hc => (int_chars _ c hc).2.2.1)) (by decide)
    · exact ⟨by decide, by decide⟩
  have h2 : ∀ s ∈ fs.map (fun f => f.1 ++ ": ".toList ++ f.2 ++ ",".toList), Line s := by
    intro s hs
    obtain ⟨f, hm, rfl⟩ := List.mem_map.1 hs
    exact line_append (line_append (line_append (hf f hm).1 (by decide)) (hf f hm).2) (by decide)
  have e1 : pad ("hand_rank".toList ++ ": ".toList ++ r.debug true ++ ",\n".toList)
      = lines (inset 4 ["hand_rank: PokerHandRank(".toList,
          "    ".toList ++ intStr r.val.toInt ++ ",".toList, "),".toList]) := by
    rw [← pad_lines _ h1, PokerHandRank.debug, debugTuple, if_pos rfl, pad_int]
    congr 1
    simp [lines]
  have e2 : fs.flatMap (fun f => pad (f.1 ++ ": ".toList ++ f.2 ++ ",\n".toList))
      = lines (inset 4 (fs.map (fun f => f.1 ++ ": ".toList ++ f.2 ++ ",".toList))) := by
    rw [← pad_lines _ h2, flatMap_pad]
    congr 1
    simp [lines, List.flatMap_map]
  refine ⟨name ++ " {".toList, inset 4 ["hand_rank: PokerHandRank(".toList,
    "    ".toList ++ intStr r.val.toInt ++ ",".toList, "),".toList]
      ++ inset 4 (fs.map (fun f => f.1 ++ ": ".toList ++ f.2 ++ ",".toList)), ?_, ?_⟩
  · intro s hs
    rcases List.mem_cons.1 hs with rfl | hs
    · exact line_append hn (by decide)
    · rcases List.mem_append.1 hs with hs | hs
      · exact inset_line h1 s hs
      · exact inset_line h2 s hs
  · rw [debugStruct, if_pos rfl, List.flatMap_cons, e2]
    dsimp only
    rw [e1]
    simp [lines, inset]

/-- The lines of a result, but for the end of the last. -/
theorem meta_lines (m : Meta) : ∃ first rest, (∀ s ∈ first :: rest, Line s) ∧
    m.debug true = lines (first :: rest) ++ "}".toList := by
  cases m <;>
  · refine record_lines _ ⟨by decide, by decide⟩ _ _ ?_
    simp only [List.mem_cons, List.not_mem_nil, or_false]
    intro f hf
    rcases hf with rfl | rfl
    all_goals
      dsimp only
      exact ⟨⟨by decide, by decide⟩, rank_line _⟩

/-- The lines of an entry. -/
theorem entry_lines (e : BitVec 32 × Meta) : ∃ first rest, (∀ s ∈ first :: rest, Line s) ∧
    (∀ s ∈ (intStr e.1.toInt ++ ": ".toList ++ first) :: rest, Line s) ∧
    e.2.debug true ++ ",\n".toList = lines (first :: rest) ∧
    entryText true e ++ ",\n".toList
      = lines ((intStr e.1.toInt ++ ": ".toList ++ first) :: rest) := by
  obtain ⟨first, rest, hl, hm⟩ := meta_lines e.2
  have hl' : ∀ s ∈ first :: (rest ++ ["},".toList]), Line s := by
    intro s hs
    rcases List.mem_append.1 (show s ∈ (first :: rest) ++ ["},".toList] by simpa using hs) with hs | hs
    · exact hl s hs
    · rw [List.mem_singleton.1 hs]
      exact ⟨by decide, by decide⟩
  refine ⟨first, rest ++ ["},".toList], hl', ?_, ?_, ?_⟩
  · intro s hs
    rcases List.mem_cons.1 hs with rfl | hs
    · refine line_append (line_append ⟨intStr_ne _, fun c hc => (int_chars _ c hc).2.2.1⟩ (by decide))
        (hl first (by simp)).2
    · exact hl' s (List.mem_cons_of_mem _ hs)
  · rw [hm]
    simp [lines]
  · rw [entryText, hm]
    simp [lines]

/-- The lines of the text of an entry. -/
noncomputable def linesOf (e : BitVec 32 × Meta) : List Str :=
  (intStr e.1.toInt ++ ": ".toList ++ (entry_lines e).choose) :: (entry_lines e).choose_spec.choose

theorem linesOf_line (e : BitVec 32 × Meta) : ∀ s ∈ linesOf e, Line s :=
  (entry_lines e).choose_spec.choose_spec.2.1

theorem linesOf_text (e : BitVec 32 × Meta) : entryText true e ++ ",\n".toList = lines (linesOf e) :=
  (entry_lines e).choose_spec.choose_spec.2.2.2

/-- The field of a map that is not empty, with its comma. -/
theorem map_lines (name : Str) (hn : Line name) (l : List (BitVec 32 × Meta)) (hne : l ≠ []) :
    name ++ ": ".toList ++ entriesText true l ++ ",\n".toList
      = lines ([name ++ ": {".toList] ++ inset 4 ((l.map linesOf).flatten) ++ ["},".toList]) ∧
    ∀ s ∈ [name ++ ": {".toList] ++ inset 4 ((l.map linesOf).flatten) ++ ["},".toList], Line s := by
  have hl : ∀ s ∈ (l.map linesOf).flatten, Line s := by
    intro s hs
    obtain ⟨t, ht, hs⟩ := List.mem_flatten.1 hs
    obtain ⟨e, -, rfl⟩ := List.mem_map.1 ht
    exact linesOf_line e s hs
  constructor
  · have e1 : entriesText true l = "{\n".toList ++ lines (inset 4 (l.map linesOf).flatten) ++ "}".toList := by
      rw [← pad_lines _ hl]
      have e2 : lines (l.map linesOf).flatten = l.flatMap (fun e => entryText true e ++ ",\n".toList) := by
        clear hl hne
        induction l with
        | nil => rfl
        | cons e l ih =>
          rw [List.map_cons, List.flatten_cons, lines_append, ih, List.flatMap_cons, linesOf_text]
      rw [e2, ← flatMap_pad]
      obtain ⟨e, l, rfl⟩ := List.exists_cons_of_ne_nil hne
      simp only [entriesText, debugMap, if_true, List.map_cons, List.flatMap_cons, List.flatMap_map]
      rfl
    rw [e1, lines_append, lines_append]
    simp [lines]
  · intro s hs
    simp only [List.mem_append, List.mem_singleton] at hs
    rcases hs with (rfl | hs) | rfl
    · exact line_append hn (by decide)
    · exact inset_line hl s hs
    · exact ⟨by decide, by decide⟩

/-- C48: the text of `Evaluator::new()` spread over lines, in whatever order the maps go: the lines of
1287 and 6175 entries, twelve columns in, among them those of every hand of five cards, which are the
lines of the text of its result (four columns in there) with the product of the primes of its ranks
before the first. -/
theorem c48_evaluator_spread (order : List (BitVec 32 × Meta) → List (BitVec 32 × Meta))
    (ho : ∀ l, (order l).Perm l) (ev : Evaluator) (hev : Evaluator.new = .ok ev) :
    ∃ fs us : List (List Str), ev.debug order true = lines (["Evaluator(".toList,
          "    LookupTable {".toList, "        flush_lookup: {".toList] ++ inset 12 fs.flatten
        ++ ["        },".toList, "        unsuited_lookup: {".toList] ++ inset 12 us.flatten
        ++ ["        },".toList, "    },".toList]) ++ ")".toList ∧
      fs.length = 1287 ∧ us.length = 6175 ∧
      ∀ (h : List PCard) (e : Eval), h.length = 5 → ev.evaluate (deal h) = .ok (.ok e) →
        ∃ d first rest, Decimal d (h.map (fun c => primeOf c.1)).prod ∧
          e.debug true = lines ("Eval(".toList :: inset 4 (first :: rest)) ++ ")".toList ∧
          (d ++ ": ".toList ++ first) :: rest ∈ if Rules.flush h then fs else us := by
  have hF := (c32_sizes ev hev).1
  have hU := (c32_sizes ev hev).2.1
  refine ⟨(order ev.table.flush_lookup.entries).map linesOf,
    (order ev.table.unsuited_lookup.entries).map linesOf, ?_, ?_, ?_, ?_⟩
  · have hf : order ev.table.flush_lookup.entries ≠ [] := by
      intro h
      have := (ho ev.table.flush_lookup.entries).length_eq
      rw [h] at this
      rw [FxHashMap.len, ← this] at hF
      cases hF
    have hu : order ev.table.unsuited_lookup.entries ≠ [] := by
      intro h
      have := (ho ev.table.unsuited_lookup.entries).length_eq
      rw [h] at this
      rw [FxHashMap.len, ← this] at hU
      cases hU
    obtain ⟨e1, l1⟩ := map_lines "flush_lookup".toList ⟨by decide, by decide⟩ _ hf
    obtain ⟨e2, l2⟩ := map_lines "unsuited_lookup".toList ⟨by decide, by decide⟩ _ hu
    have e3 : ev.table.debug order true ++ ",\n".toList = lines (["LookupTable {".toList]
        ++ inset 4 (["flush_lookup".toList ++ ": {".toList]
          ++ inset 4 (((order ev.table.flush_lookup.entries).map linesOf).flatten) ++ ["},".toList])
        ++ inset 4 (["unsuited_lookup".toList ++ ": {".toList]
          ++ inset 4 (((order ev.table.unsuited_lookup.entries).map linesOf).flatten) ++ ["},".toList])
        ++ ["},".toList]) := by
      rw [lines_append, lines_append, lines_append, ← pad_lines _ l1, ← pad_lines _ l2, ← e1, ← e2,
        LookupTable.debug, debugStruct, if_pos rfl]
      simp only [List.flatMap_cons, List.flatMap_nil, List.append_nil, List.append_assoc]
      simp [lines]
      rfl
    rw [Evaluator.debug, debugTuple, if_pos rfl, e3, pad_lines]
    · simp [inset, List.map_append, List.map_flatten, lines, List.flatMap_append,
        Function.comp_def, List.replicate]
    · intro s hs
      rcases List.mem_append.1 hs with hs | hs
      · rcases List.mem_append.1 hs with hs | hs
        · rcases List.mem_append.1 hs with hs | hs
          · rw [List.mem_singleton.1 hs]
            exact ⟨by decide, by decide⟩
          · exact inset_line l1 s hs
        · exact inset_line l2 s hs
      · rw [List.mem_singleton.1 hs]
        exact ⟨by decide, by decide⟩
  · rw [List.length_map, (ho _).length_eq]
    exact hF
  · rw [List.length_map, (ho _).length_eq]
    exact hU
  · intro h e h5 he
    have hs := (entry_lines (keyV (values h), e.data)).choose_spec.choose_spec
    refine ⟨_, (entry_lines (keyV (values h), e.data)).choose,
      (entry_lines (keyV (values h), e.data)).choose_spec.choose, decimal_natStr _, ?_, ?_⟩
    · have := congrArg pad hs.2.2.1
      rw [pad_lines _ hs.1] at this
      refine (congrArg (fun t => "Eval".toList ++ "(\n".toList ++ t ++ ")".toList) this).trans ?_
      simp [lines]
    · rw [← key_int h5]
      have hm := hand_entry hev h5 he
      split at hm <;> rename_i hf
      · rw [if_pos hf]
        exact List.mem_map.2 ⟨_, (ho _).mem_iff.2 hm, rfl⟩
      · rw [if_neg hf]
        exact List.mem_map.2 ⟨_, (ho _).mem_iff.2 hm, rfl⟩

/-- The hypotheses are those of `c48_evaluator_new`: an order, an evaluator and a hand with a result. -/
example : ∃ (order : List (BitVec 32 × Meta) → List (BitVec 32 × Meta)) (ev : Evaluator) (e : Eval),
    (∀ l, (order l).Perm l) ∧ Evaluator.new = .ok ev ∧ royalHand.length = 5 ∧
    ev.evaluate (deal royalHand) = .ok (.ok e) := by
  obtain ⟨e, _, _, he⟩ := evaluate_ok (h := royalHand) (by decide) (by decide)
  exact ⟨List.reverse, theEvaluator, _, List.reverse_perm, evaluator_new, rfl, he⟩

end Poker
