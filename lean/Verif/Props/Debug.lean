import Verif.Proofs.Debug
import Verif.Spec.Debug
import Verif.Props.Rounds
import Verif.Props.Range

/-! # C48: `Debug` texts -/

namespace Poker
open Rules Tab Text Dbg

/-! ## Reading the parts off a text -/

/-- A value can be told from another one where a comma or a space follows. -/
def Sep (v v' : Str) : Prop :=
  (∀ u u', v ++ ',' :: u = v' ++ ',' :: u' → v = v' ∧ u = u') ∧
  (∀ u u', v ++ ' ' :: u = v' ++ ' ' :: u' → v = v' ∧ u = u')

theorem Sep.word {v v' : Str} (h : ∀ c ∈ v, c ≠ ',' ∧ c ≠ ' ') (h' : ∀ c ∈ v', c ≠ ',' ∧ c ≠ ' ') :
    Sep v v' :=
  ⟨fun u u' e => split_at ',' _ _ _ _ (fun c hc => (h c hc).1) (fun c hc => (h' c hc).1) e,
    fun u u' e => split_at ' ' _ _ _ _ (fun c hc => (h c hc).2) (fun c hc => (h' c hc).2) e⟩

theorem Sep.code {α : Type} {f : α → Str} (hf : Code f) (a a' : α) : Sep (f a) (f a') := by
  constructor
  all_goals
    intro u u' e
    obtain ⟨rfl, h⟩ := hf _ _ _ _ e
    exact ⟨rfl, by simpa using h⟩

theorem line_inj (fields : List (Str × Str × Str)) (h : ∀ f ∈ fields, Sep f.2.1 f.2.2)
    (e : (fields.map (fun f => (f.1, f.2.1))).flatMap
        (fun f => f.1 ++ ": ".toList ++ f.2 ++ ",\n".toList)
      = (fields.map (fun f => (f.1, f.2.2))).flatMap
        (fun f => f.1 ++ ": ".toList ++ f.2 ++ ",\n".toList)) :
    fields.map (fun f => f.2.1) = fields.map (fun f => f.2.2) := by
  induction fields with
  | nil => rfl
  | cons f fields ih =>
    simp only [List.map_cons, List.flatMap_cons, List.append_assoc] at e
    have e' := List.append_cancel_left (List.append_cancel_left e)
    obtain ⟨h1, h2⟩ := (h f (by simp)).1 _ _ e'
    rw [List.map_cons, List.map_cons, h1, ih (fun g hg => h g (by simp [hg])) (by simpa using h2)]

theorem comma_inj (fields : List (Str × Str × Str)) (h : ∀ f ∈ fields, Sep f.2.1 f.2.2)
    (e : joinComma ((fields.map (fun f => (f.1, f.2.1))).map (fun f => f.1 ++ ": ".toList ++ f.2))
        ++ " }".toList
      = joinComma ((fields.map (fun f => (f.1, f.2.2))).map (fun f => f.1 ++ ": ".toList ++ f.2))
        ++ " }".toList) :
    fields.map (fun f => f.2.1) = fields.map (fun f => f.2.2) := by
  induction fields with
  | nil => rfl
  | cons f fields ih =>
    cases fields with
    | nil =>
      simp only [List.map_cons, List.map_nil, joinComma, List.append_assoc] at e
      have e' := List.append_cancel_left (List.append_cancel_left e)
      obtain ⟨h1, -⟩ := (h f (by simp)).2 _ _ e'
      rw [List.map_cons, List.map_cons, h1]
      rfl
    | cons g fields =>
      simp only [List.map_cons, joinComma, List.append_assoc, List.cons_append] at e
      have e' := List.append_cancel_left (List.append_cancel_left e)
      obtain ⟨h1, h2⟩ := (h f (by simp)).1 _ _ e'
      have h3 := ih (fun g hg => h g (List.mem_cons_of_mem _ hg)) (by simpa using h2)
      rw [List.map_cons, List.map_cons (l := g :: fields), h1, h3]

/-- The values of a record can be read off its text. -/
theorem struct_inj (alt : Bool) (name : Str) (fields : List (Str × Str × Str))
    (h : ∀ f ∈ fields, Sep f.2.1 f.2.2)
    (e : debugStruct alt name (fields.map (fun f => (f.1, f.2.1)))
      = debugStruct alt name (fields.map (fun f => (f.1, f.2.2)))) :
    fields.map (fun f => f.2.1) = fields.map (fun f => f.2.2) := by
  cases alt with
  | true =>
    simp only [debugStruct, if_true] at e
    have e2 := List.append_cancel_left (List.append_cancel_right e)
    rw [flatMap_pad _ (fun f : Str × Str => f.1 ++ ": ".toList ++ f.2),
      flatMap_pad _ (fun f : Str × Str => f.1 ++ ": ".toList ++ f.2)] at e2
    exact line_inj fields h (padFrom_inj true _ _ e2)
  | false =>
    simp only [debugStruct, Bool.false_eq_true, if_false, List.append_assoc] at e
    exact comma_inj fields h (by
      simpa only [List.append_assoc] using List.append_cancel_left (List.append_cancel_left e))

/-- The name of a record can be read off its text. -/
theorem struct_name (alt : Bool) {name name' : Str} {f f' : List (Str × Str)}
    (hn : ∀ c ∈ name, c ≠ ' ') (hn' : ∀ c ∈ name', c ≠ ' ')
    (e : debugStruct alt name f = debugStruct alt name' f') : name = name' := by
  cases alt <;>
  · simp only [debugStruct, if_true, Bool.false_eq_true, if_false, List.append_assoc] at e
    exact (split_at ' ' _ _ _ _ hn hn' e).1

theorem tuple_inj (alt : Bool) {name v v' : Str}
    (e : debugTuple alt name v = debugTuple alt name v') : v = v' := by
  cases alt with
  | true =>
    simp only [debugTuple, if_true] at e
    have e1 := List.append_cancel_left (List.append_cancel_right e)
    exact List.append_cancel_right (padFrom_inj true _ _ e1)
  | false =>
    simp only [debugTuple, Bool.false_eq_true, if_false] at e
    exact List.append_cancel_left (List.append_cancel_right e)

/-! ## Ranks, suits, numbers -/

theorem rank_debug (r : Rank) : r.debug = rankName r := by cases r <;> decide

theorem suit_debug (s : Suit) : s.debug = suitName s := by cases s <;> decide

theorem rank_debug_inj {r r' : Rank} (h : r.debug = r'.debug) : r = r' := by
  cases r <;> cases r' <;> first | rfl | exact absurd h (by decide)

theorem suit_debug_inj {s s' : Suit} (h : s.debug = s'.debug) : s = s' := by
  cases s <;> cases s' <;> first | rfl | exact absurd h (by decide)

theorem rank_word (r : Rank) : ∀ c ∈ r.debug, c ≠ ',' ∧ c ≠ ' ' := by cases r <;> decide

theorem suit_word (s : Suit) : ∀ c ∈ s.debug, c ≠ ',' ∧ c ≠ ' ' := by cases s <;> decide

theorem rank_line (r : Rank) : ∀ c ∈ r.debug, c ≠ '\n' := by cases r <;> decide

theorem int_chars (x : Int) : ∀ c ∈ intStr x, c ≠ ',' ∧ c ≠ ' ' ∧ c ≠ '\n' ∧ c ≠ ')' := by
  intro c hc
  refine ⟨?_, ?_, ?_, ?_⟩ <;>
  · rintro rfl
    have := intStr_char hc
    revert this
    decide

theorem intStr_ne (x : Int) : intStr x ≠ [] := by
  unfold intStr
  split
  · simp
  · exact Nat.toDigits_ne_nil

theorem pad_int (x : Int) : pad (intStr x ++ ",\n".toList) = "    ".toList ++ intStr x ++ ",\n".toList := by
  obtain ⟨c, w, hw⟩ := List.exists_cons_of_ne_nil (intStr_ne x)
  have hl : ∀ c ∈ intStr x, c ≠ '\n' := fun c hc => (int_chars x c hc).2.2.1
  rw [hw] at hl
  have hc : (c == '\n') = false := by simpa using hl c (by simp)
  rw [hw, pad, List.cons_append, padFrom, if_pos rfl, hc, padFrom_word w _ (fun c h => hl c (by simp [h]))]
  simp [padFrom]

theorem handRank_code (alt : Bool) : Code (PokerHandRank.debug alt) := by
  have hi : ∀ a a' : PokerHandRank, intStr a.val.toInt = intStr a'.val.toInt → a = a' := by
    rintro ⟨a⟩ ⟨a'⟩ h
    exact congrArg _ (BitVec.eq_of_toInt_eq (intStr_inj h))
  cases alt with
  | true =>
    have := Code.after ("PokerHandRank(\n    ".toList) (Code.word ',' hi
      (fun a c hc => (int_chars _ c hc).1) "\n)".toList)
    intro a a' u u' h
    refine this a a' u u' ?_
    simp only [PokerHandRank.debug, debugTuple, if_true, pad_int] at h
    simpa using h
  | false =>
    have := Code.after ("PokerHandRank(".toList) (Code.word ')' hi
      (fun a c hc => (int_chars _ c hc).2.2.2) [])
    intro a a' u u' h
    refine this a a' u u' ?_
    simp only [PokerHandRank.debug, debugTuple, Bool.false_eq_true, if_false] at h
    simpa using h

/-! ## Cards -/

/-- C48: the `Debug` texts of every card. -/
theorem c48_card (r : Rank) (s : Suit) :
    ∃ d, Decimal d (2 ^ (16 + (pips r - 2)) + 2 ^ suitBit s + 2 ^ 8 * (pips r - 2) + primeOf r) ∧
    (Card.new r s).debug false = oneLine "Card".toList [("unique_integer".toList, d),
      ("rank".toList, rankName r), ("suit".toList, suitName s)] ∧
    (Card.new r s).debug true = spread [] "Card".toList [("unique_integer".toList, d),
      ("rank".toList, rankName r), ("suit".toList, suitName s)] := by
  refine ⟨_, decimal_natStr _, ?_⟩
  cases r <;> cases s <;> decide +kernel

theorem card_brace (alt : Bool) (r : Rank) (s : Suit) :
    ∃ t, (Card.new r s).debug alt = t ++ ['}'] ∧ ∀ c ∈ t, c ≠ '}' := by
  refine ⟨((Card.new r s).debug alt).dropLast, ?_⟩
  cases alt <;> cases r <;> cases s <;> decide +kernel

theorem card_code (alt : Bool) : Code (fun p : PCard => (Card.new p.1 p.2).debug alt) := by
  rintro ⟨r, s⟩ ⟨r', s'⟩ u u' h
  obtain ⟨t, ht, hb⟩ := card_brace alt r s
  obtain ⟨t', ht', hb'⟩ := card_brace alt r' s'
  simp only [ht, ht', List.append_assoc, List.cons_append, List.nil_append] at h
  obtain ⟨h1, h2⟩ := split_at '}' _ _ _ _ hb hb' h
  refine ⟨?_, h2⟩
  have e : (Card.new r s).debug alt = (Card.new r' s').debug alt := by rw [ht, ht', h1]
  have := struct_inj alt "Card".toList
    [("unique_integer".toList, intStr (Card.new r s).unique_integer.toInt,
        intStr (Card.new r' s').unique_integer.toInt),
      ("rank".toList, (Card.new r s).rank.debug, (Card.new r' s').rank.debug),
      ("suit".toList, (Card.new r s).suit.debug, (Card.new r' s').suit.debug)]
    (by
      simp only [List.mem_cons, List.not_mem_nil, or_false]
      rintro f (rfl | rfl | rfl)
      · exact .word (fun c hc => ⟨(int_chars _ c hc).1, (int_chars _ c hc).2.1⟩)
          (fun c hc => ⟨(int_chars _ c hc).1, (int_chars _ c hc).2.1⟩)
      · exact .word (rank_word _) (rank_word _)
      · exact .word (suit_word _) (suit_word _))
    e
  simp only [List.map_cons, List.map_nil, List.cons.injEq, and_true, card_rank, card_suit] at this
  rw [rank_debug_inj this.2.1, suit_debug_inj this.2.2]

/-- C48: cards with the same `Debug` text are the same. -/
theorem c48_card_inj (alt : Bool) (p q : PCard)
    (h : (Card.new p.1 p.2).debug alt = (Card.new q.1 q.2).debug alt) : p = q :=
  (card_code alt).inj h

example : (Card.new .Ace .Spades).debug true ≠ (Card.new .Ace .Clubs).debug true :=
  fun h => absurd (c48_card_inj true (.Ace, .Spades) (.Ace, .Clubs) h) (by decide)

/-! ## Results -/

theorem meta_inj (alt : Bool) {m m' : Meta} (h : m.debug alt = m'.debug alt) : m = m' := by
  have hs := fun a a' => Sep.code (handRank_code alt) a a'
  have hr : ∀ r r' : Rank, Sep r.debug r'.debug := fun r r' => .word (rank_word r) (rank_word r')
  have hc : ∀ {a a' : PokerHandRank}, a.debug alt = a'.debug alt → a = a' := (handRank_code alt).inj
  cases m <;> cases m' <;> simp only [Meta.debug] at h <;>
  first
    | exact absurd (struct_name alt (by decide) (by decide) h) (by decide)
    | (rename_i a r a' r'
       have := struct_inj alt _ [(_, a.debug alt, a'.debug alt), (_, r.debug, r'.debug)]
         (by simpa using ⟨hs a a', hr r r'⟩) h
       simp only [List.map_cons, List.map_nil, List.cons.injEq, and_true] at this
       rw [hc this.1, rank_debug_inj this.2])
    | (rename_i a r q a' r' q'
       have := struct_inj alt _ [(_, a.debug alt, a'.debug alt), (_, r.debug, r'.debug),
         (_, q.debug, q'.debug)] (by simpa using ⟨hs a a', hr r r', hr q q'⟩) h
       simp only [List.map_cons, List.map_nil, List.cons.injEq, and_true] at this
       rw [hc this.1, rank_debug_inj this.2.1, rank_debug_inj this.2.2])

/-- C48: results with the same `Debug` text, on one line or several, are the same. -/
theorem c48_eval_inj (alt : Bool) (e e' : Eval) (h : e.debug alt = e'.debug alt) : e = e' := by
  obtain ⟨m⟩ := e
  obtain ⟨m'⟩ := e'
  have hm : m = m' := meta_inj alt (tuple_inj alt h)
  rw [hm]

example : Eval.BEST.debug false ≠ Eval.WORST.debug false :=
  fun h => absurd (c48_eval_inj _ _ _ h) (by decide)

/-- C48: results of hands print alike if and only if they compare equal. -/
theorem c48_eval_eq (alt : Bool) (h h' : List PCard) (e e' : Eval) (he : evaluateHand h = .ok (.ok e))
    (he' : evaluateHand h' = .ok (.ok e')) : e.debug alt = e'.debug alt ↔ e.eq e' = true := by
  obtain ⟨_, _, w, hw, rfl⟩ := ok_iff.1 he
  obtain ⟨_, _, w', hw', rfl⟩ := ok_iff.1 he'
  rw [Eval.eq_iff_cmp, cmp_evalOf hw.mem_ladder hw'.mem_ladder, cmpWorth_eq_iff]
  constructor
  · intro hd
    have := c48_eval_inj alt _ _ hd
    have hc := cmp_evalOf hw.mem_ladder hw'.mem_ladder
    rw [this] at hc
    rw [← cmpWorth_eq_iff, ← hc, Eval.cmp_eq]
    exact Int.compare_eq_eq.2 rfl
  · rintro rfl
    rfl

example : ∃ e e', evaluateHand royalHand = .ok (.ok e) ∧ evaluateHand worstHand = .ok (.ok e') ∧
    e.debug true ≠ e'.debug true :=
  ⟨.BEST, .WORST, c08_best, c08_worst, fun h =>
    have hb : Eval.BEST.eq .WORST = false := by decide
    absurd ((c48_eval_eq true _ _ _ _ c08_best c08_worst).1 h) (by rw [hb]; exact Bool.false_ne_true)⟩

/-- C48: classes with the same `Debug` text are the same. -/
theorem c48_class_inj (alt : Bool) (c c' : EvalClass) (h : c.debug alt = c'.debug alt) : c = c' := by
  have hr : ∀ r r' : Rank, Sep r.debug r'.debug := fun r r' => .word (rank_word r) (rank_word r')
  cases c <;> cases c' <;> simp only [EvalClass.debug] at h <;>
  first
    | exact absurd (struct_name alt (by decide) (by decide) h) (by decide)
    | (rename_i r r'
       have := struct_inj alt _ [(_, r.debug, r'.debug)] (by simpa using hr r r') h
       simp only [List.map_cons, List.map_nil, List.cons.injEq, and_true] at this
       rw [rank_debug_inj this])
    | (rename_i r q r' q'
       have := struct_inj alt _ [(_, r.debug, r'.debug), (_, q.debug, q'.debug)]
         (by simpa using ⟨hr r r', hr q q'⟩) h
       simp only [List.map_cons, List.map_nil, List.cons.injEq, and_true] at this
       rw [rank_debug_inj this.1, rank_debug_inj this.2])

example : (EvalClass.FullHouse .Six .Two).debug false ≠ (EvalClass.FullHouse .Two .Six).debug false :=
  fun h => absurd (c48_class_inj _ _ _ h) (by decide)

/-! ## Exact texts -/

theorem joinComma_eq (l : List Str) : joinComma l = ", ".toList.intercalate l := by
  induction l with
  | nil => rfl
  | cons a l ih =>
    cases l with
    | nil => simp [joinComma, List.intercalate]
    | cons b l => rw [joinComma, ih]; simp [List.intercalate, List.intersperse]

theorem struct_one (name : Str) (fields : List (Str × Str)) :
    debugStruct false name fields = oneLine name fields := by
  simp only [debugStruct, Bool.false_eq_true, if_false, joinComma_eq]
  rfl

theorem pad_line {w : Str} (hne : w ≠ []) (hl : ∀ c ∈ w, c ≠ '\n') (t : Str) :
    pad (w ++ t) = "    ".toList ++ w ++ padFrom false t := by
  obtain ⟨c, w, rfl⟩ := List.exists_cons_of_ne_nil hne
  have hc : (c == '\n') = false := by simpa using hl c (by simp)
  rw [pad, List.cons_append, padFrom, if_pos rfl, hc, padFrom_word w _ (fun c h => hl c (by simp [h]))]
  simp

theorem struct_spread (name : Str) (fields : List (Str × Str))
    (hf : ∀ f ∈ fields, (∀ c ∈ f.1, c ≠ '\n') ∧ ∀ c ∈ f.2, c ≠ '\n') :
    debugStruct true name fields = spread [] name fields := by
  simp only [debugStruct, if_true, spread, List.append_nil, List.nil_append]
  congr 2
  refine List.flatMap_congr ?_
  intro f hm
  obtain ⟨h1, h2⟩ := hf f hm
  have := pad_line (w := f.1 ++ ": ".toList ++ f.2) (by simp) (by
    intro c hc
    simp only [List.mem_append] at hc
    rcases hc with (hc | hc) | hc
    · exact h1 c hc
    · revert hc c; decide
    · exact h2 c hc) ",\n".toList
  rw [this]
  simp [padFrom]

theorem name_line (r : Rank) : ∀ c ∈ rankName r, c ≠ '\n' := by cases r <;> decide

/-- C48: the `Debug` texts of every class. -/
theorem c48_class (c : EvalClass) :
    c.debug false = oneLine (variantName c) (variantFields "first_pair" "second_pair" c) ∧
    c.debug true = spread [] (variantName c) (variantFields "first_pair" "second_pair" c) := by
  cases c <;>
  · simp only [EvalClass.debug, struct_one, rank_debug]
    refine ⟨rfl, struct_spread _ _ ?_⟩
    simp only [List.forall_mem_cons, List.not_mem_nil, false_implies, implies_true, and_true]
    first
      | exact ⟨by decide, name_line _⟩
      | exact ⟨⟨by decide, name_line _⟩, by decide, name_line _⟩

example : (EvalClass.TwoPair .King .Nine).debug false
    = "TwoPair { first_pair: King, second_pair: Nine }".toList :=
  (c48_class _).1.trans (by decide)

theorem pad_nl {w : Str} (hne : w ≠ []) (hl : ∀ c ∈ w, c ≠ '\n') (t : Str) :
    pad (w ++ '\n' :: t) = "    ".toList ++ (w ++ '\n' :: pad t) := by
  rw [pad_line hne hl, padFrom]
  simp [pad]

/-- A record that starts with a hand rank, indented. -/
theorem pad_record (d : Str) (hd : ∀ c ∈ d, c ≠ '\n') (name : Str) (hne : name ≠ [])
    (hl : ∀ c ∈ name, c ≠ '\n') (fs : List (Str × Str))
    (hf : ∀ f ∈ fs, (∀ c ∈ f.1, c ≠ '\n') ∧ ∀ c ∈ f.2, c ≠ '\n') :
    pad (debugStruct true name (("hand_rank".toList,
        "PokerHandRank".toList ++ "(\n".toList ++ ("    ".toList ++ d ++ ",\n".toList) ++ ")".toList) :: fs)
        ++ ",\n".toList)
      = "    ".toList ++ spread "    ".toList name (("hand_rank".toList,
        "PokerHandRank(\n            ".toList ++ d ++ ",\n        )".toList) :: fs) ++ ",\n".toList := by
  have hlit : ∀ l : Str, (l.all (· != '\n')) = true → ∀ c ∈ l, c ≠ '\n' := by
    intro l h c hc
    simpa using List.all_eq_true.1 h c hc
  -- the inner indentation
  have e1 : pad ("hand_rank".toList ++ ": ".toList ++ ("PokerHandRank".toList ++ "(\n".toList
      ++ ("    ".toList ++ d ++ ",\n".toList) ++ ")".toList) ++ ",\n".toList)
      = "    hand_rank: PokerHandRank(".toList ++ '\n' :: ("        ".toList ++ d ++ ",".toList
        ++ '\n' :: ("    ),".toList ++ '\n' :: [])) := by
    have h3 := pad_nl (w := "),".toList) (by decide) (by decide) []
    have h2 := pad_nl (w := "    ".toList ++ d ++ ",".toList) (by simp) (by
      intro c hc
      simp only [List.mem_append] at hc
      rcases hc with (hc | hc) | hc
      · exact hlit _ (by decide) c hc
      · exact hd c hc
      · exact hlit _ (by decide) c hc) ("),".toList ++ '\n' :: [])
    have h1 := pad_nl (w := "hand_rank: PokerHandRank(".toList) (by decide) (by decide)
      ("    ".toList ++ d ++ ",".toList ++ '\n' :: ("),".toList ++ '\n' :: []))
    rw [h2, h3] at h1
    simp only [List.append_assoc] at h1 ⊢
    exact h1
  have e2 : ∀ f ∈ fs, pad (f.1 ++ ": ".toList ++ f.2 ++ ",\n".toList)
      = "    ".toList ++ f.1 ++ ": ".toList ++ f.2 ++ ",".toList ++ '\n' :: [] := by
    intro f hm
    obtain ⟨h1, h2⟩ := hf f hm
    have := pad_nl (w := f.1 ++ ": ".toList ++ f.2 ++ ",".toList) (by simp) (by
      intro c hc
      simp only [List.mem_append] at hc
      rcases hc with ((hc | hc) | hc) | hc
      · exact h1 c hc
      · exact hlit _ (by decide) c hc
      · exact h2 c hc
      · exact hlit _ (by decide) c hc) []
    simp only [List.append_assoc] at this ⊢
    exact this
  have e3 : fs.flatMap (fun f => pad (f.1 ++ ": ".toList ++ f.2 ++ ",\n".toList))
      = fs.flatMap (fun f => "    ".toList ++ f.1 ++ ": ".toList ++ f.2 ++ ",".toList ++ '\n' :: []) :=
    List.flatMap_congr e2
  -- the outer one
  have e4 : pad (fs.flatMap (fun f => "    ".toList ++ f.1 ++ ": ".toList ++ f.2 ++ ",".toList ++ '\n' :: [])
      ++ ("},".toList ++ '\n' :: []))
      = fs.flatMap (fun f => "        ".toList ++ f.1 ++ ": ".toList ++ f.2 ++ ",".toList ++ '\n' :: [])
      ++ ("    },".toList ++ '\n' :: []) := by
    clear e2 e3
    induction fs with
    | nil => exact pad_nl (w := "},".toList) (by decide) (by decide) []
    | cons f fs ih =>
      have ih := ih (fun g hg => hf g (List.mem_cons_of_mem _ hg))
      obtain ⟨h1, h2⟩ := hf f (by simp)
      have := pad_nl (w := "    ".toList ++ f.1 ++ ": ".toList ++ f.2 ++ ",".toList) (by simp) (by
        intro c hc
        simp only [List.mem_append] at hc
        rcases hc with (((hc | hc) | hc) | hc) | hc
        · exact hlit _ (by decide) c hc
        · exact h1 c hc
        · exact hlit _ (by decide) c hc
        · exact h2 c hc
        · exact hlit _ (by decide) c hc) (fs.flatMap (fun f => "    ".toList ++ f.1 ++ ": ".toList
          ++ f.2 ++ ",".toList ++ '\n' :: []) ++ ("},".toList ++ '\n' :: []))
      rw [ih] at this
      simp only [List.flatMap_cons, List.append_assoc, List.cons_append, List.nil_append] at this ⊢
      exact this
  have h1 := pad_nl (w := name ++ " {".toList) (by simp) (by
    intro c hc
    rcases List.mem_append.1 hc with hc | hc
    · exact hl c hc
    · exact hlit _ (by decide) c hc)
    ("    hand_rank: PokerHandRank(".toList ++ '\n' :: ("        ".toList ++ d ++ ",".toList
        ++ '\n' :: ("    ),".toList ++ '\n' :: (fs.flatMap (fun f => "    ".toList ++ f.1 ++ ": ".toList
          ++ f.2 ++ ",".toList ++ '\n' :: []) ++ ("},".toList ++ '\n' :: [])))))
  rw [pad_nl (w := "    hand_rank: PokerHandRank(".toList) (by decide) (by decide),
    pad_nl (w := "        ".toList ++ d ++ ",".toList) (by simp) (by
      intro c hc
      simp only [List.mem_append] at hc
      rcases hc with (hc | hc) | hc
      · exact hlit _ (by decide) c hc
      · exact hd c hc
      · exact hlit _ (by decide) c hc),
    pad_nl (w := "    ),".toList) (by decide) (by decide), e4] at h1
  rw [debugStruct, if_pos rfl, List.flatMap_cons]
  simp only at e3 ⊢
  rw [e1, e3]
  simp only [spread, List.flatMap_cons, List.append_assoc, List.cons_append, List.nil_append] at h1 ⊢
  exact h1

/-- C48: the `Debug` texts of the result of every hand. -/
theorem c48_eval (h : List PCard) (e : Eval) (he : evaluateHand h = .ok (.ok e)) :
    ∃ n d, Decimal d n ∧ 1 ≤ n ∧ n ≤ 7462 ∧ e.hand_rank.val.toInt = n ∧
    e.debug false = "Eval(".toList ++ oneLine (variantName e.class')
      (("hand_rank".toList, "PokerHandRank(".toList ++ d ++ ")".toList)
        :: variantFields "high_pair" "low_pair" e.class') ++ ")".toList ∧
    e.debug true = "Eval(\n    ".toList ++ spread "    ".toList (variantName e.class')
      (("hand_rank".toList, "PokerHandRank(\n            ".toList ++ d ++ ",\n        )".toList)
        :: variantFields "high_pair" "low_pair" e.class') ++ ",\n)".toList := by
  obtain ⟨-, -, h1, h2⟩ := c08_bounds h e he
  obtain ⟨n, hn⟩ := Int.eq_ofNat_of_zero_le (Int.le_trans (by decide) h1)
  have hs : intStr e.hand_rank.val.toInt = natStr n := by
    rw [hn, intStr, if_neg (by omega)]
    rfl
  refine ⟨n, natStr n, decimal_natStr n, by omega, by omega, hn, ?_, ?_⟩
  · obtain ⟨m⟩ := e
    cases m <;>
    · simp only [Eval.debug, Meta.debug, debugTuple, PokerHandRank.debug, struct_one, rank_debug,
        Bool.false_eq_true, if_false]
      rw [← hs]
      rfl
  · have key := fun name hne hl fs hf => pad_record (natStr n) (fun c hc => (int_chars _ c (hs ▸ hc)).2.2.1)
      name hne hl fs hf
    have hp : pad (natStr n ++ ",\n".toList) = "    ".toList ++ natStr n ++ ",\n".toList := by
      rw [← hs, pad_int]
    obtain ⟨m⟩ := e
    cases m <;>
    · simp only [Eval.hand_rank, Meta.hand_rank] at hs
      simp only [Eval.debug, Meta.debug, debugTuple, PokerHandRank.debug, rank_debug, if_true, hs, hp]
      rw [key _ (by decide) (by decide) _ ?_]
      · simp only [List.append_assoc]
        rfl
      · simp only [List.forall_mem_cons, List.not_mem_nil, false_implies, implies_true, and_true]
        first
          | exact ⟨by decide, name_line _⟩
          | exact ⟨⟨by decide, name_line _⟩, by decide, name_line _⟩

example : ∃ (n : Nat) (d : Str), Decimal d n ∧ 1 ≤ n ∧ n ≤ 7462 ∧ Eval.WORST.hand_rank.val.toInt = n :=
  have ⟨n, d, hd, h1, h2, h3, _⟩ := c48_eval worstHand _ c08_worst
  ⟨n, d, hd, h1, h2, h3⟩

/-! ## Errors -/

/-- `c` stands for itself in a quoted text: it is neither a control character with a short escape nor a
quote nor a backslash, and prints. -/
def Plain (hexed : Char → Bool) (c : Char) : Prop :=
  c ∉ ['\x00', '\t', '\r', '\n', '"', '\'', '\\'] ∧ hexed c = false

theorem escape_plain {hexed : Char → Bool} {q c : Char} (hq : q = '"' ∨ q = '\'') (h : Plain hexed c) :
    escapeChar hexed q c = [c] := by
  obtain ⟨h1, h2⟩ := h
  simp only [List.mem_cons, List.not_mem_nil, or_false, not_or] at h1
  obtain ⟨a1, a2, a3, a4, a5, a6, a7⟩ := h1
  have : escapeLetter q c = none := by
    unfold escapeLetter
    rcases hq with rfl | rfl <;> simp [a1, a2, a3, a4, a5, a6, a7]
  rw [escapeChar, this]
  simp [h2]

theorem str_plain {hexed : Char → Bool} {s : Str} (h : ∀ c ∈ s, Plain hexed c) :
    debugStr hexed s = "\"".toList ++ s ++ "\"".toList := by
  have : s.flatMap (escapeChar hexed '"') = s := by
    induction s with
    | nil => rfl
    | cons c s ih =>
      rw [List.flatMap_cons, escape_plain (.inl rfl) (h c (by simp)), ih (fun c hc => h c (by simp [hc]))]
      rfl
  rw [debugStr, this]
  rfl

theorem char_plain {hexed : Char → Bool} {c : Char} (h : Plain hexed c) :
    debugChar hexed c = "'".toList ++ [c] ++ "'".toList := by
  rw [debugChar, escape_plain (.inr rfl) h]
  rfl

/-- C48: parsing errors with the same `Debug` text are the same, whatever the characters in them and
whichever characters are written by their code. -/
theorem c48_parse_inj (hexed : Char → Bool) (alt : Bool) (e e' : ParseCardError)
    (h : e.debug hexed alt = e'.debug hexed alt) : e = e' := by
  have hs := fun a a' => Sep.code (code_str hexed) a a'
  have hc := fun a a' => Sep.code (code_char hexed) a a'
  cases e <;> cases e' <;> simp only [ParseCardError.debug] at h <;>
  first
    | exact absurd (struct_name alt (by decide) (by decide) h) (by decide)
    | (rename_i a a'
       have := struct_inj alt _ [(_, debugStr hexed a, debugStr hexed a')] (by simpa using hs a a') h
       simp only [List.map_cons, List.map_nil, List.cons.injEq, and_true] at this
       rw [(code_str hexed).inj this])
    | (rename_i a c a' c'
       have := struct_inj alt _ [(_, debugStr hexed a, debugStr hexed a'),
         (_, debugChar hexed c, debugChar hexed c')] (by simpa using ⟨hs a a', hc c c'⟩) h
       simp only [List.map_cons, List.map_nil, List.cons.injEq, and_true] at this
       rw [(code_str hexed).inj this.1, (code_char hexed).inj this.2])

example : (ParseCardError.InvalidLength "10c".toList).debug (fun _ => false) true
    ≠ (ParseCardError.InvalidLength "10d".toList).debug (fun _ => false) true :=
  fun h => absurd (c48_parse_inj _ _ _ _ h) (by decide)

/-- C48: the `Debug` texts of parsing errors about plain text. -/
theorem c48_parse (hexed : Char → Bool) (s : Str) (c : Char) (hs : ∀ c ∈ s, Plain hexed c)
    (hc : Plain hexed c) :
    (let i := ("original_input".toList, "\"".toList ++ s ++ "\"".toList)
     let w := ("incorrect_char".toList, "'".toList ++ [c] ++ "'".toList)
     (ParseCardError.InvalidLength s).debug hexed false = oneLine "InvalidLength".toList [i] ∧
     (ParseCardError.InvalidLength s).debug hexed true = spread [] "InvalidLength".toList [i] ∧
     (ParseCardError.InvalidRank s c).debug hexed false = oneLine "InvalidRank".toList [i, w] ∧
     (ParseCardError.InvalidRank s c).debug hexed true = spread [] "InvalidRank".toList [i, w] ∧
     (ParseCardError.InvalidSuit s c).debug hexed false = oneLine "InvalidSuit".toList [i, w] ∧
     (ParseCardError.InvalidSuit s c).debug hexed true = spread [] "InvalidSuit".toList [i, w]) := by
  have h1 := str_line hexed s
  have h2 := char_line hexed c
  rw [str_plain hs] at h1
  rw [char_plain hc] at h2
  simp only [ParseCardError.debug, struct_one, str_plain hs, char_plain hc]
  refine ⟨trivial, struct_spread _ _ ?_, trivial, struct_spread _ _ ?_, trivial, struct_spread _ _ ?_⟩
  all_goals
    simp only [List.forall_mem_cons, List.not_mem_nil, false_implies, implies_true, and_true]
    first
      | exact ⟨by decide, h1⟩
      | exact ⟨⟨by decide, h1⟩, by decide, h2⟩

theorem hexadecimal_toDigits (n : Nat) : Hexadecimal (Nat.toDigits 16 n) n := by
  have hd : ∀ k, k < 16 → "0123456789abcdef".toList.idxOf (Nat.digitChar k) = k := by decide
  have hz : ∀ k, k < 16 → Nat.digitChar k = '0' → k = 0 := by decide
  refine ⟨Nat.toDigits_ne_nil, fun c hc => hex_mem hc, ?_⟩
  induction n using Nat.strongRecOn with
  | ind n ih =>
    by_cases hn : n < 16
    · rw [Nat.toDigits_of_lt_base hn]
      refine ⟨?_, fun h => by simpa using h⟩
      simp only [List.foldl_cons, List.foldl_nil]
      rw [hd n hn]
      omega
    · rw [Nat.toDigits_of_base_le (by decide) (by omega)]
      obtain ⟨h1, h2⟩ := ih (n / 16) (by omega)
      refine ⟨?_, ?_⟩
      · rw [List.foldl_append, h1]
        simp only [List.foldl_cons, List.foldl_nil]
        rw [hd _ (Nat.mod_lt _ (by decide))]
        omega
      · intro h
        rw [List.head?_append_of_ne_nil _ Nat.toDigits_ne_nil] at h
        have h0 := h2 h
        rw [h0] at h1
        have : n / 16 = 0 := h1.symm
        omega

theorem escape_written (hexed : Char → Bool) {q : Char} (hq : q = '"' ∨ q = '\'') (c : Char) :
    Written hexed q c (escapeChar hexed q c) := by
  by_cases h : c ∈ ['\x00', '\t', '\r', '\n', '\\', q]
  · simp only [List.mem_cons, List.not_mem_nil, or_false] at h
    rcases h with rfl | rfl | rfl | rfl | rfl | rfl
    · exact .nul
    · exact .tab
    · exact .ret
    · exact .newline
    · have : escapeChar hexed q '\\' = ['\\', '\\'] := by
        rcases hq with rfl | rfl <;> rfl
      rw [this]
      exact .backslash
    · have : escapeChar hexed c c = ['\\', c] := by
        rcases hq with rfl | rfl <;> rfl
      rw [this]
      exact .quote
  · have hl : escapeLetter q c = none := by
      have h' := h
      simp only [List.mem_cons, List.not_mem_nil, or_false, not_or] at h'
      obtain ⟨a1, a2, a3, a4, a5, a6⟩ := h'
      simp [escapeLetter, a1, a2, a3, a4, a5, a6]
    rw [escapeChar, hl]
    by_cases hx : hexed c = true
    · simp only [hx, if_true]
      exact .code c _ h hx (hexadecimal_toDigits _)
    · simp only [hx, Bool.false_eq_true, if_false]
      exact .itself c h (by simpa using hx)

/-- C48: the `Debug` texts of all parsing errors, whatever the characters in them: quoted, with every
character written as it should be. -/
theorem c48_parse_all (hexed : Char → Bool) (s : Str) (c : Char) :
    ∃ ts t, List.Forall₂ (Written hexed '"') s ts ∧ Written hexed '\'' c t ∧
    (let i := ("original_input".toList, "\"".toList ++ ts.flatten ++ "\"".toList)
     let w := ("incorrect_char".toList, "'".toList ++ t ++ "'".toList)
     (ParseCardError.InvalidLength s).debug hexed false = oneLine "InvalidLength".toList [i] ∧
     (ParseCardError.InvalidLength s).debug hexed true = spread [] "InvalidLength".toList [i] ∧
     (ParseCardError.InvalidRank s c).debug hexed false = oneLine "InvalidRank".toList [i, w] ∧
     (ParseCardError.InvalidRank s c).debug hexed true = spread [] "InvalidRank".toList [i, w] ∧
     (ParseCardError.InvalidSuit s c).debug hexed false = oneLine "InvalidSuit".toList [i, w] ∧
     (ParseCardError.InvalidSuit s c).debug hexed true = spread [] "InvalidSuit".toList [i, w]) := by
  refine ⟨s.map (escapeChar hexed '"'), escapeChar hexed '\'' c, ?_, escape_written hexed (.inr rfl) c, ?_⟩
  · induction s with
    | nil => exact .nil
    | cons x s ih => exact .cons (escape_written hexed (.inl rfl) x) ih
  · have e1 : "\"".toList ++ (s.map (escapeChar hexed '"')).flatten ++ "\"".toList
        = debugStr hexed s := by
      rw [debugStr, List.flatMap_def]; rfl
    have e2 : "'".toList ++ escapeChar hexed '\'' c ++ "'".toList = debugChar hexed c := rfl
    rw [e1, e2]
    have h1 := str_line hexed s
    have h2 := char_line hexed c
    simp only [ParseCardError.debug, struct_one]
    refine ⟨trivial, struct_spread _ _ ?_, trivial, struct_spread _ _ ?_, trivial, struct_spread _ _ ?_⟩
    all_goals
      simp only [List.forall_mem_cons, List.not_mem_nil, false_implies, implies_true, and_true]
      first
        | exact ⟨by decide, h1⟩
        | exact ⟨⟨by decide, h1⟩, by decide, h2⟩

/-- A combining accent is written by its code, a quote with a backslash. -/
example : (ParseCardError.InvalidLength "\"e\u0301".toList).debug (· == '\u0301') false
    = "InvalidLength { original_input: \"\\\"e\\u{301}\" }".toList := by
  decide +kernel

theorem items_inj {α : Type} {f : α → Str} (hf : Code f) (hne : ∀ a t, (f a ++ t).head? ≠ some ']')
    (l l' : List α)
    (h : joinComma (l.map f) ++ "]".toList = joinComma (l'.map f) ++ "]".toList) : l = l' := by
  induction l generalizing l' with
  | nil =>
    rcases l' with _ | ⟨a, _ | ⟨b, l'⟩⟩
    · rfl
    · exact absurd (congrArg List.head? h.symm) (hne a _)
    · simp only [List.map_cons, joinComma, List.append_assoc] at h
      exact absurd (congrArg List.head? h.symm) (hne a _)
  | cons a l ih =>
    rcases l' with _ | ⟨a', l'⟩
    · rcases l with _ | ⟨b, l⟩
      · exact absurd (congrArg List.head? h) (hne a _)
      · simp only [List.map_cons, joinComma, List.append_assoc] at h
        exact absurd (congrArg List.head? h) (hne a _)
    · rcases l with _ | ⟨b, l⟩ <;> rcases l' with _ | ⟨b', l'⟩
      · simp only [List.map_cons, List.map_nil, joinComma] at h
        rw [(hf _ _ _ _ h).1]
      · simp only [List.map_cons, List.map_nil, joinComma, List.append_assoc] at h
        have := (hf _ _ _ _ h).2
        simp at this
      · simp only [List.map_cons, List.map_nil, joinComma, List.append_assoc] at h
        have := (hf _ _ _ _ h).2
        simp at this
      · simp only [List.map_cons, joinComma, List.append_assoc] at h
        obtain ⟨rfl, h2⟩ := hf _ _ _ _ h
        simp only [List.cons_append, List.cons.injEq, true_and] at h2
        rw [ih (b' :: l') (by simpa using h2)]

theorem lines_inj {α : Type} {f : α → Str} (hf : Code f) (l l' : List α)
    (h : l.flatMap (fun a => f a ++ ",\n".toList) = l'.flatMap (fun a => f a ++ ",\n".toList)) :
    l = l' := by
  induction l generalizing l' with
  | nil =>
    cases l' with
    | nil => rfl
    | cons a l' => simp at h
  | cons a l ih =>
    cases l' with
    | nil => simp at h
    | cons a' l' =>
      simp only [List.flatMap_cons, List.append_assoc] at h
      obtain ⟨rfl, h2⟩ := hf _ _ _ _ h
      rw [ih l' (List.append_cancel_left h2)]

theorem deal_list_inj (alt : Bool) (h h' : List PCard)
    (e : debugList alt ((deal h).map (Card.debug alt)) = debugList alt ((deal h').map (Card.debug alt))) :
    h = h' := by
  have hm : ∀ h : List PCard, (deal h).map (Card.debug alt)
      = h.map (fun p => (Card.new p.1 p.2).debug alt) := fun h => by simp [deal]
  have hhead : ∀ (p : PCard) t, ((Card.new p.1 p.2).debug alt ++ t).head? ≠ some ']' := by
    intro p t
    cases alt <;> simp [Card.debug, debugStruct]
  rw [hm, hm] at e
  cases alt with
  | false =>
    simp only [debugList, Bool.false_eq_true, if_false, List.append_assoc] at e
    exact items_inj (card_code false) hhead h h' (List.append_cancel_left e)
  | true =>
    rcases h with _ | ⟨p, h⟩ <;> rcases h' with _ | ⟨p', h'⟩
    · rfl
    · simp [debugList] at e
    · simp [debugList] at e
    · simp only [debugList, if_true, List.map_cons] at e
      have e1 := List.append_cancel_left (List.append_cancel_right e)
      rw [flatMap_pad _ (fun v => v), flatMap_pad _ (fun v => v)] at e1
      have e2 := padFrom_inj true _ _ e1
      have e3 : ∀ (p : PCard) h, ((Card.new p.1 p.2).debug true
          :: List.map (fun p => (Card.new p.1 p.2).debug true) h).flatMap (fun v => v ++ ",\n".toList)
          = (p :: h).flatMap (fun p => (Card.new p.1 p.2).debug true ++ ",\n".toList) := by
        intro p h
        rw [List.flatMap_cons, List.flatMap_cons, List.flatMap_map]
      rw [e3, e3] at e2
      exact lines_inj (card_code true) _ _ e2

theorem tuple_name (alt : Bool) {name name' v v' : Str} (hn : ∀ c ∈ name, c ≠ '(')
    (hn' : ∀ c ∈ name', c ≠ '(') (e : debugTuple alt name v = debugTuple alt name' v') : name = name' := by
  cases alt <;>
  · simp only [debugTuple, if_true, Bool.false_eq_true, if_false, List.append_assoc] at e
    exact (split_at '(' _ _ _ _ hn hn' e).1

/-- C48: evaluation errors with the same `Debug` text are the same. -/
theorem c48_error_inj (alt : Bool) (h h' : List PCard) (n n' : Nat) :
    ((EvalError.CardsNotUnique (deal h)).debug alt = (EvalError.CardsNotUnique (deal h')).debug alt →
      h = h') ∧
    ((EvalError.InvalidHandSize n).debug alt = (EvalError.InvalidHandSize n').debug alt → n = n') ∧
    (EvalError.CardsNotUnique (deal h)).debug alt ≠ (EvalError.InvalidHandSize n).debug alt :=
  ⟨fun e => deal_list_inj alt h h' (tuple_inj alt e), fun e => natStr_inj (tuple_inj alt e),
    fun e => absurd (tuple_name alt (by decide) (by decide) e) (by decide)⟩

example : (EvalError.CardsNotUnique (deal [(.Ace, .Spades), (.Ace, .Spades)])).debug false
    ≠ (EvalError.CardsNotUnique (deal [(.Two, .Clubs), (.Two, .Clubs)])).debug false :=
  fun h => absurd ((c48_error_inj false _ _ 0 0).1 h) (by decide)

/-- What a card looks like on one line. -/
def cardLine (d : Str) (p : PCard) : Str := oneLine "Card".toList [("unique_integer".toList, d),
  ("rank".toList, rankName p.1), ("suit".toList, suitName p.2)]

/-- C48: the `Debug` texts of the errors of `evaluate` (see `c48_error_spread` for the remaining one). -/
theorem c48_error (n : Nat) (h : List PCard) :
    (∃ d, Decimal d n ∧
      (EvalError.InvalidHandSize n).debug false = "InvalidHandSize(".toList ++ d ++ ")".toList ∧
      (EvalError.InvalidHandSize n).debug true = "InvalidHandSize(\n    ".toList ++ d ++ ",\n)".toList) ∧
    ∃ ts, List.Forall₂ (fun p t => ∃ d, Decimal d (2 ^ (16 + (pips p.1 - 2)) + 2 ^ suitBit p.2
        + 2 ^ 8 * (pips p.1 - 2) + primeOf p.1) ∧ t = cardLine d p) h ts ∧
      (EvalError.CardsNotUnique (deal h)).debug false
        = "CardsNotUnique([".toList ++ ", ".toList.intercalate ts ++ "])".toList := by
  refine ⟨⟨natStr n, decimal_natStr n, rfl, ?_⟩, h.map (fun p => (Card.new p.1 p.2).debug false), ?_, ?_⟩
  · have : intStr (n : Int) = natStr n := by rw [intStr, if_neg (by omega)]; rfl
    have hp := pad_int n
    rw [this] at hp
    simp only [EvalError.debug, debugTuple, if_true, hp]
    simp
  · induction h with
    | nil => exact .nil
    | cons p h ih =>
      refine .cons ?_ ih
      obtain ⟨d, hd, h1, -⟩ := c48_card p.1 p.2
      exact ⟨d, hd, h1⟩
  · simp only [EvalError.debug, debugTuple, debugList, Bool.false_eq_true, if_false, joinComma_eq]
    simp [deal, Function.comp_def]

/-- What a card looks like over several lines, within a list within an error. -/
def cardLines (d : Str) (p : PCard) : Str := spread "        ".toList "Card".toList
  [("unique_integer".toList, d), ("rank".toList, rankName p.1), ("suit".toList, suitName p.2)]

theorem card_pad (p : PCard) : ∃ d, Decimal d (2 ^ (16 + (pips p.1 - 2)) + 2 ^ suitBit p.2
      + 2 ^ 8 * (pips p.1 - 2) + primeOf p.1) ∧
    pad (pad ((Card.new p.1 p.2).debug true ++ ",\n".toList))
      = "        ".toList ++ cardLines d p ++ ",\n".toList := by
  refine ⟨_, decimal_natStr _, ?_⟩
  obtain ⟨r, s⟩ := p
  cases r <;> cases s <;> decide +kernel

/-- C48: the spread `Debug` text of duplicate cards. -/
theorem c48_error_spread (h : List PCard) (hne : h ≠ []) :
    ∃ ts, List.Forall₂ (fun p t => ∃ d, Decimal d (2 ^ (16 + (pips p.1 - 2)) + 2 ^ suitBit p.2
        + 2 ^ 8 * (pips p.1 - 2) + primeOf p.1) ∧ t = "        ".toList ++ cardLines d p ++ ",\n".toList)
        h ts ∧
      (EvalError.CardsNotUnique (deal h)).debug true
        = "CardsNotUnique(\n    [\n".toList ++ ts.flatten ++ "    ],\n)".toList := by
  have hcat : ∀ (l : List PCard) (t : Str),
      pad (l.flatMap (fun p => pad ((Card.new p.1 p.2).debug true ++ ",\n".toList)) ++ t)
        = (l.map (fun p => pad (pad ((Card.new p.1 p.2).debug true ++ ",\n".toList)))).flatten ++ pad t := by
    intro l t
    induction l with
    | nil => rfl
    | cons p l ih =>
      obtain ⟨u, hu⟩ : ∃ u, pad ((Card.new p.1 p.2).debug true ++ ",\n".toList) = u ++ ['\n'] := by
        refine ⟨(pad ((Card.new p.1 p.2).debug true ++ ",\n".toList)).dropLast, ?_⟩
        obtain ⟨r, s⟩ := p
        cases r <;> cases s <;> decide +kernel
      have hl := padFrom_line true u (l.flatMap (fun p => pad ((Card.new p.1 p.2).debug true
        ++ ",\n".toList)) ++ t)
      rw [List.flatMap_cons, List.map_cons, List.flatten_cons, hu, List.append_assoc, List.append_assoc,
        List.append_assoc, ← ih]
      exact hl
  refine ⟨h.map (fun p => pad (pad ((Card.new p.1 p.2).debug true ++ ",\n".toList))), ?_, ?_⟩
  · clear hne
    induction h with
    | nil => exact .nil
    | cons p h ih => exact .cons (card_pad p) ih
  · have hlist : debugList true ((deal h).map (Card.debug true)) = "[\n".toList
        ++ h.flatMap (fun p => pad ((Card.new p.1 p.2).debug true ++ ",\n".toList)) ++ "]".toList := by
      cases h with
      | nil => exact absurd rfl hne
      | cons p h => simp [debugList, deal, List.flatMap_map, Function.comp_def]
    rw [EvalError.debug, debugTuple, if_pos rfl, hlist]
    have h1 := pad_nl (w := "[".toList) (by decide) (by decide)
      (h.flatMap (fun p => pad ((Card.new p.1 p.2).debug true ++ ",\n".toList)) ++ "],\n".toList)
    rw [hcat, show pad "],\n".toList = "    ],\n".toList from by decide] at h1
    have e : "[\n".toList ++ h.flatMap (fun p => pad ((Card.new p.1 p.2).debug true ++ ",\n".toList))
        ++ "]".toList ++ ",\n".toList = "[".toList ++ '\n' ::
        (h.flatMap (fun p => pad ((Card.new p.1 p.2).debug true ++ ",\n".toList)) ++ "],\n".toList) := by
      simp
    rw [e, h1]
    simp

/-! ## Examples -/

example : (Card.new .Ace .Spades).debug false
      = "Card { unique_integer: 268442665, rank: Ace, suit: Spades }".toList ∧
    (Card.new .Two .Clubs).debug true
      = "Card {\n    unique_integer: 98306,\n    rank: Two,\n    suit: Clubs,\n}".toList := by
  decide +kernel

example : ∃ e, evaluateHand royalHand = .ok (.ok e) ∧ e.debug false
    = "Eval(StraightFlush { hand_rank: PokerHandRank(1), high_rank: Ace })".toList :=
  ⟨_, c08_best, by decide +kernel⟩

example : (EvalError.CardsNotUnique (deal [(.Ace, .Spades), (.Ace, .Spades)])).debug false
    = ("CardsNotUnique([Card { unique_integer: 268442665, rank: Ace, suit: Spades }, "
      ++ "Card { unique_integer: 268442665, rank: Ace, suit: Spades }])").toList := by
  decide +kernel

example : (EvalError.CardsNotUnique (deal [(.Ace, .Spades), (.Ace, .Spades)])).debug true
    = ("CardsNotUnique(\n    [\n        Card {\n            unique_integer: 268442665,\n"
      ++ "            rank: Ace,\n            suit: Spades,\n        },\n        Card {\n"
      ++ "            unique_integer: 268442665,\n            rank: Ace,\n            suit: Spades,\n"
      ++ "        },\n    ],\n)").toList := by
  decide +kernel

/-- A new line in the input of a parsing error is escaped. -/
example : (ParseCardError.InvalidSuit "2\n".toList '\n').debug (fun _ => false) false
    = "InvalidSuit { original_input: \"2\\n\", incorrect_char: '\\n' }".toList := by
  decide +kernel

example : ∀ c ∈ "10c".toList, Plain (fun _ => false) c := by
  unfold Plain
  decide

end Poker
