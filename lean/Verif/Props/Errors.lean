import Verif.Props.Cards
import Verif.Props.Evaluation
import Verif.Model.Error

/-! # Properties of the error texts: C27 -/

namespace Poker
open Rules Tab Text

/-! ## Numerals and lengths -/

theorem numeral_natStr (n : Nat) : Numeral (natStr n) n := by
  refine ⟨Nat.toDigits_ne_nil, ?_, ?_⟩
  · intro c hc
    have := Nat.isDigit_of_mem_toDigits (by decide) (by decide) hc
    simp only [Char.isDigit, Bool.and_eq_true, decide_eq_true_eq] at this
    exact this
  · have := Nat.ofDigitChars_toDigits (b := 10) (n := n) (by decide) (by decide)
    rw [Nat.ofDigitChars_eq_foldl] at this
    exact this

/-- A numeral stands for one number. -/
theorem Numeral.unique {d : Str} {m n : Nat} (hm : Numeral d m) (hn : Numeral d n) : m = n :=
  hm.2.2.symm.trans hn.2.2

theorem utf8Size_one {c : Char} : c.utf8Size = 1 ↔ c.toNat < 128 := by
  have h : c.utf8Size = 1 ↔ c.val ≤ 127 := by
    unfold Char.utf8Size
    simp only
    split
    · rename_i h; exact ⟨fun _ => h, fun _ => rfl⟩
    · rename_i h
      constructor
      · intro h'; split at h'
        · cases h'
        · split at h' <;> cases h'
      · intro h'; exact absurd h' h
  rw [h, UInt32.le_iff_toNat_le]
  show c.val.toNat ≤ 127 ↔ c.val.toNat < 128
  omega

theorem byteLen_ge (s : Str) : s.length ≤ byteLen s := by
  induction s with
  | nil => exact Nat.zero_le _
  | cons c s ih =>
    have := c.utf8Size_pos
    simp only [byteLen, List.map_cons, List.sum_cons, List.length_cons] at ih ⊢
    omega

theorem byteLen_eq_iff (s : Str) : byteLen s = s.length ↔ ∀ c ∈ s, c.toNat < 128 := by
  induction s with
  | nil => simp [byteLen]
  | cons c s ih =>
    have h1 := c.utf8Size_pos
    have h2 := byteLen_ge s
    have h3 := utf8Size_one (c := c)
    have h4 : byteLen (c :: s) = c.utf8Size + byteLen s := by simp [byteLen]
    rw [h4, List.length_cons, List.forall_mem_cons, ← ih, ← h3]
    omega

/-! ## C27: parse errors -/

/-- C27: a string that is not two characters long is refused with a text that states its length in
bytes, and so states its number of characters exactly when it is ASCII. -/
theorem c27_length (t : Str) (h : t.length ≠ 2) : ∃ e d n, Card.from_str t = .error e ∧
    e.display = "Error parsing input '".toList ++ t
      ++ "' as a Card: Found input of length ".toList ++ d ++ ", expected 2".toList ∧
    Numeral d n ∧ (n = t.length ↔ ∀ c ∈ t, c.toNat < 128) ∧ t.length ≤ n := by
  refine ⟨.InvalidLength t, natStr (byteLen t), byteLen t, ((c16_errors t).1 t).2 ⟨rfl, h⟩, rfl,
    numeral_natStr _, byteLen_eq_iff t, byteLen_ge t⟩

example : ∃ e d n, Card.from_str "10c".toList = .error e ∧
    e.display = "Error parsing input '10c' as a Card: Found input of length ".toList ++ d
      ++ ", expected 2".toList ∧ Numeral d n ∧ n = 3 := by
  obtain ⟨e, d, n, h, hd, hn, hl, -⟩ := c27_length "10c".toList (by decide)
  exact ⟨e, d, n, h, hd, hn, hl.2 (by decide)⟩

/-- C27: the claim that the text states the number of characters is false: for the one-character
string `é` the text is that two were found while two were expected. -/
theorem c27_length_false : ∃ e, Card.from_str ['é'] = .error e ∧
    e.display = "Error parsing input 'é' as a Card: Found input of length 2, expected 2".toList := by
  refine ⟨.InvalidLength ['é'], rfl, ?_⟩
  decide

theorem rank_tail : "', expected one of [23456789TJQKA]".toList
    = "', expected one of [".toList ++ rankChars ++ "]".toList := by decide +kernel

theorem suit_tail : "', expected one of [chsd]".toList
    = "', expected one of [".toList ++ suitChars ++ "]".toList := by decide +kernel

theorem unique_text : ("Cannot evaluate a poker hand with a set of cards that are not unique. " ++
          "Cards duplicated at least once: ").toList
    = "Cannot evaluate a poker hand with a set of cards that are not unique. Cards duplicated at least once: ".toList := by
  decide +kernel

theorem size_text : ("Cannot evaluate a poker hand with a set of less than 5 cards. " ++
          "Number of cards received: ").toList
    = "Cannot evaluate a poker hand with a set of less than 5 cards. Number of cards received: ".toList := by
  decide +kernel

theorem append_tail {α : Type} (A B C D E T t c : List α) (h : T = C ++ D ++ E) :
    A ++ t ++ B ++ c ++ T = A ++ t ++ B ++ c ++ C ++ D ++ E := by
  rw [h]
  simp only [List.append_assoc]

/-- C27: a bad rank or suit character is named in the text. -/
theorem c27_chars (a b : Char) :
    (a ∉ rankChars → ∃ e, Card.from_str [a, b] = .error e ∧
      e.display = "Error parsing input '".toList ++ [a, b]
        ++ "' as a Card: Invalid rank character '".toList ++ [a]
        ++ "', expected one of [".toList ++ rankChars ++ "]".toList) ∧
    (a ∈ rankChars → b ∉ suitChars → ∃ e, Card.from_str [a, b] = .error e ∧
      e.display = "Error parsing input '".toList ++ [a, b]
        ++ "' as a Card: Invalid suit character '".toList ++ [b]
        ++ "', expected one of [".toList ++ suitChars ++ "]".toList) := by
  constructor
  · intro ha
    refine ⟨.InvalidRank [a, b] a, ((c16_errors _).2.1 _ _).2 ⟨rfl, b, rfl, ha⟩, ?_⟩
    unfold ParseCardError.display
    simp only
    exact append_tail _ _ _ _ _ _ _ _ rank_tail
  · intro ha hb
    refine ⟨.InvalidSuit [a, b] b, ((c16_errors _).2.2 _ _).2 ⟨rfl, a, rfl, ha, hb⟩, ?_⟩
    unfold ParseCardError.display
    simp only
    exact append_tail _ _ _ _ _ _ _ _ suit_tail

example : ∃ e, Card.from_str "2D".toList = .error e ∧ e.display
    = "Error parsing input '2D' as a Card: Invalid suit character 'D', expected one of [chsd]".toList :=
  (c27_chars '2' 'D').2 (by decide) (by decide)

/-! ## C27: evaluation errors -/

theorem eraseDups_props {α : Type} [BEq α] [LawfulBEq α] :
    ∀ (n : Nat) (l : List α), l.length ≤ n → l.eraseDups.Nodup ∧ ∀ a, a ∈ l.eraseDups ↔ a ∈ l
  | _, [], _ => by simp
  | 0, _ :: _, h => by simp at h
  | n + 1, a :: l, h => by
    rw [List.eraseDups_cons]
    have hl : (l.filter (fun b => !b == a)).length ≤ n :=
      Nat.le_trans (List.length_filter_le _ _) (by simpa using h)
    obtain ⟨h1, h2⟩ := eraseDups_props n _ hl
    refine ⟨List.nodup_cons.2 ⟨?_, h1⟩, ?_⟩
    · rw [h2]; simp
    · intro x
      rw [List.mem_cons, List.mem_cons, h2]
      by_cases hx : x = a
      · simp [hx]
      · simp [hx]

theorem joinSpace_eq (l : List Str) : joinSpace l = [' '].intercalate l := by
  induction l with
  | nil => rfl
  | cons a l ih =>
    cases l with
    | nil => simp [joinSpace, List.intercalate]
    | cons b l =>
      rw [joinSpace, ih]
      simp [List.intercalate, List.intersperse]

theorem count_deal (h : List PCard) (c : PCard) :
    (deal h).count (Card.new c.1 c.2) = h.count c := by
  induction h with
  | nil => rfl
  | cons d h ih =>
    have : deal (d :: h) = Card.new d.1 d.2 :: deal h := rfl
    rw [this, List.count_cons, List.count_cons, ih]
    by_cases hd : d = c
    · subst hd; simp
    · have : ¬ Card.new d.1 d.2 = Card.new c.1 c.2 := fun e => hd (card_inj e)
      simp [hd, this]

/-- The duplicated cards in the order in which the text lists them. -/
def dupCards (order : List (Card × Nat) → List (Card × Nat)) (h : List PCard) : List PCard :=
  ((counts order (deal h)).filter (fun e => e.2 > 1)).map (fun e => (e.1.rank, e.1.suit))

theorem mem_counts {order : List (Card × Nat) → List (Card × Nat)}
    (ho : ∀ l, (order l).Perm l) {h : List PCard} {e : Card × Nat} :
    e ∈ counts order (deal h) ↔ ∃ c ∈ h, e = (Card.new c.1 c.2, h.count c) := by
  rw [counts, (ho _).mem_iff, List.mem_map]
  constructor
  · rintro ⟨a, ha, rfl⟩
    rw [(eraseDups_props _ _ (Nat.le_refl _)).2, deal, List.mem_map] at ha
    obtain ⟨c, hc, rfl⟩ := ha
    exact ⟨c, hc, by rw [count_deal]⟩
  · rintro ⟨c, hc, rfl⟩
    refine ⟨Card.new c.1 c.2, ?_, by rw [count_deal]⟩
    rw [(eraseDups_props _ _ (Nat.le_refl _)).2, deal, List.mem_map]
    exact ⟨c, hc, rfl⟩

theorem counts_nodup {order : List (Card × Nat) → List (Card × Nat)}
    (ho : ∀ l, (order l).Perm l) (h : List PCard) : (counts order (deal h)).Nodup := by
  rw [counts, (ho _).nodup_iff]
  refine (eraseDups_props _ _ (Nat.le_refl _)).1.map ?_
  intro a b hab
  exact congrArg Prod.fst hab

theorem dupCards_nodup {order : List (Card × Nat) → List (Card × Nat)}
    (ho : ∀ l, (order l).Perm l) (h : List PCard) : (dupCards order h).Nodup := by
  unfold dupCards
  refine ((counts_nodup ho h).filter _).map_on ?_
  intro e he f hf hef
  obtain ⟨c, _, rfl⟩ := (mem_counts ho).1 (List.mem_of_mem_filter he)
  obtain ⟨d, _, rfl⟩ := (mem_counts ho).1 (List.mem_of_mem_filter hf)
  simp only [card_rank, card_suit] at hef
  have : c = d := hef
  rw [this]

theorem mem_dupCards {order : List (Card × Nat) → List (Card × Nat)}
    (ho : ∀ l, (order l).Perm l) {h : List PCard} {c : PCard} :
    c ∈ dupCards order h ↔ 2 ≤ h.count c := by
  unfold dupCards
  simp only [List.mem_map, List.mem_filter, decide_eq_true_eq, mem_counts ho]
  constructor
  · rintro ⟨e, ⟨⟨d, hd, rfl⟩, h1⟩, rfl⟩
    simp only [card_rank, card_suit]
    exact h1
  · intro h2
    refine ⟨_, ⟨⟨c, List.count_pos_iff.1 (by omega), rfl⟩, h2⟩, ?_⟩
    simp only [card_rank, card_suit]

theorem dupNames_eq {order : List (Card × Nat) → List (Card × Nat)}
    (ho : ∀ l, (order l).Perm l) (h : List PCard) :
    dupNames order (deal h) = (dupCards order h).map (fun c => [rankChar c.1, suitChar c.2]) := by
  unfold dupNames dupCards
  have hall : ∀ e ∈ counts order (deal h), ∃ c : PCard, e.1 = Card.new c.1 c.2 := by
    intro e he
    obtain ⟨c, _, rfl⟩ := (mem_counts ho).1 he
    exact ⟨c, rfl⟩
  generalize counts order (deal h) = l at hall
  induction l with
  | nil => rfl
  | cons e l ih =>
    obtain ⟨c, hc⟩ := hall e (by simp)
    have ih := ih (fun x hx => hall x (by simp [hx]))
    obtain ⟨a, n⟩ := e
    simp only at hc
    subst hc
    by_cases hn : n > 1
    · rw [List.filterMap_cons_some (b := (Card.new c.1 c.2).rank_suit_string) (by simp [hn]),
        List.filter_cons_of_pos (by simpa using hn), ih, rank_suit_string_eq]
      simp only [List.map_cons, card_rank, card_suit]
    · rw [List.filterMap_cons_none (by simp [hn]), List.filter_cons_of_neg (by simpa using hn), ih]

/-- C27: whatever the iteration order of the hash map, the text for cards that are not unique lists
exactly the cards that occur at least twice, each once, separated by single spaces. -/
theorem c27_duplicates (order : List (Card × Nat) → List (Card × Nat))
    (ho : ∀ l, (order l).Perm l) (h : List PCard) (hn : ¬ h.Nodup) :
    ∃ e, ∃ ds : List PCard, evaluateHand h = .ok (.error e) ∧
      ds.Nodup ∧ ds ≠ [] ∧ (∀ c, c ∈ ds ↔ 2 ≤ h.count c) ∧
      e.display order =
        ("Cannot evaluate a poker hand with a set of cards that are not unique. " ++
          "Cards duplicated at least once: ").toList
        ++ [' '].intercalate (ds.map (fun c => [rankChar c.1, suitChar c.2])) := by
  refine ⟨.CardsNotUnique (deal h), dupCards order h, evaluateHand_dup hn, dupCards_nodup ho h, ?_,
    fun c => mem_dupCards ho, ?_⟩
  · intro he
    apply hn
    rw [List.nodup_iff_count_le_one]
    intro c
    by_contra hc
    have : c ∈ dupCards order h := (mem_dupCards ho).2 (by omega)
    rw [he] at this
    cases this
  · unfold EvalError.display
    simp only
    rw [unique_text, joinSpace_eq, dupNames_eq ho]

example : ∃ e, ∃ ds : List PCard, evaluateHand [(.Five, .Clubs), (.Ten, .Hearts), (.Five, .Clubs)]
    = .ok (.error e) ∧ (∀ c, c ∈ ds ↔ 2 ≤ [(.Five, .Clubs), (.Ten, .Hearts), (.Five, .Clubs)].count c) :=
  have ⟨e, ds, h, _, _, hm, _⟩ := c27_duplicates List.reverse List.reverse_perm
    [(.Five, .Clubs), (.Ten, .Hearts), (.Five, .Clubs)] (by decide)
  ⟨e, ds, h, hm⟩

/-- C27: the text for too few cards states how many there were. -/
theorem c27_size (order : List (Card × Nat) → List (Card × Nat)) (h : List PCard) (hn : h.Nodup)
    (h5 : h.length < 5) : ∃ e d, evaluateHand h = .ok (.error e) ∧ Numeral d h.length ∧
      e.display order =
        ("Cannot evaluate a poker hand with a set of less than 5 cards. " ++
          "Number of cards received: ").toList ++ d := by
  refine ⟨.InvalidHandSize h.length, natStr h.length, evaluateHand_short hn h5, numeral_natStr _, ?_⟩
  unfold EvalError.display
  simp only
  rw [size_text]

/-- A list with two duplicated cards meets the hypotheses of `c27_duplicates`. -/
example : ¬ ([(.Five, .Clubs), (.Ten, .Hearts), (.Five, .Clubs), (.Ten, .Hearts), (.Two, .Spades)]
    : List PCard).Nodup := by decide

/-- Reversing is a possible order. -/
example : ∀ l : List (Card × Nat), l.reverse.Perm l := fun l => l.reverse_perm

example : ([(.Five, .Clubs), (.Ten, .Hearts)] : List PCard).Nodup ∧
    ([(.Five, .Clubs), (.Ten, .Hearts)] : List PCard).length < 5 := by decide

example : ("10c".toList : Str).length ≠ 2 := by decide
example : 'j' ∉ rankChars ∧ '2' ∈ rankChars ∧ 'D' ∉ suitChars := by decide

end Poker
