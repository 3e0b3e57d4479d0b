import Verif.Proofs.Evaluate
import Verif.Spec.Text

/-! # Properties of cards: encoding, parsing, printing, ordering: C14–C20, C35 -/

namespace Poker
open Rules Tab Text

/-! ## C14: encoding -/

/-- The prime number of a rank: two gets 2, three 3, four 5, ..., ace 41. -/
def primeOf (r : Rank) : Nat := [2, 3, 5, 7, 11, 13, 17, 19, 23, 29, 31, 37, 41].getD (pips r - 2) 0

/-- The bit of a suit in the documented layout `cdhsrrrr` of the second byte. -/
def suitBit : Suit → Nat
  | .Clubs => 15
  | .Diamonds => 14
  | .Hearts => 13
  | .Spades => 12

/-- The checked constructor never panics and returns what the plain one does. -/
theorem Card.newChecked_eq (r : Rank) (s : Suit) : Card.newChecked r s = .ok (Card.new r s) := by
  cases r <;> cases s <;> decide +kernel

/-- C14: `Card::new` never panics. -/
theorem c14_no_panic (r : Rank) (s : Suit) : ∃ c, Card.newChecked r s = .ok c :=
  ⟨_, Card.newChecked_eq r s⟩

example : ∃ c, Card.newChecked .Ten .Diamonds = .ok c := c14_no_panic _ _

/-- C14: `rank()` and `suit()` give back what the card was made from. -/
theorem c14_fields (r : Rank) (s : Suit) (c : Card) (h : Card.newChecked r s = .ok c) :
    c.rank = r ∧ c.suit = s := by
  rw [Card.newChecked_eq, Except.ok.injEq] at h
  subst h
  exact ⟨card_rank r s, card_suit r s⟩

example : ∃ c, Card.newChecked .Ten .Diamonds = .ok c ∧ c.rank = .Ten ∧ c.suit = .Diamonds :=
  have ⟨c, h⟩ := c14_no_panic .Ten .Diamonds
  ⟨c, h, c14_fields _ _ c h⟩

/-- C14: the integer has the documented layout: bit `16 + n` for the `n`-th rank, the suit's bit, the
number of the rank at bits 8–11, the prime at bits 0–5 and nothing else. -/
theorem c14_layout (r : Rank) (s : Suit) (c : Card) (h : Card.newChecked r s = .ok c) :
    c.unique_integer.toNat
      = 2 ^ (16 + (pips r - 2)) + 2 ^ suitBit s + 2 ^ 8 * (pips r - 2) + primeOf r ∧
    pips r - 2 < 13 ∧ primeOf r < 2 ^ 6 := by
  rw [Card.newChecked_eq, Except.ok.injEq] at h
  subst h
  cases r <;> cases s <;> decide +kernel

example : ∃ c, Card.newChecked .Ten .Diamonds = .ok c ∧
    c.unique_integer.toNat = 2 ^ 24 + 2 ^ 14 + 2 ^ 8 * 8 + 23 :=
  have ⟨c, h⟩ := c14_no_panic .Ten .Diamonds
  ⟨c, h, (c14_layout _ _ c h).1⟩

/-- C14: bit by bit. -/
theorem c14_bits (r : Rank) (s : Suit) (c : Card) (h : Card.newChecked r s = .ok c) :
    (∀ i, 16 ≤ i → (c.unique_integer.getLsbD i = true ↔ i = 16 + (pips r - 2))) ∧
    (∀ i, 12 ≤ i → i < 16 → (c.unique_integer.getLsbD i = true ↔ i = suitBit s)) ∧
    (c.unique_integer.toNat / 2 ^ 8) % 2 ^ 4 = pips r - 2 ∧
    c.unique_integer.toNat % 2 ^ 8 = primeOf r := by
  have hl := (c14_layout r s c h).1
  rw [Card.newChecked_eq, Except.ok.injEq] at h
  subst h
  have big : ∀ i, 32 ≤ i → (Card.new r s).unique_integer.getLsbD i = false := by
    intro i hi
    exact BitVec.getLsbD_of_ge _ _ hi
  refine ⟨?_, ?_, ?_⟩
  · intro i hi
    by_cases h32 : i < 32
    · have : ∀ i : Fin 32, 16 ≤ i.val →
          ((Card.new r s).unique_integer.getLsbD i = true ↔ i.val = 16 + (pips r - 2)) := by
        cases r <;> cases s <;> decide +kernel
      exact this ⟨i, h32⟩ hi
    · rw [big i (by omega)]
      have : pips r - 2 < 13 := by cases r <;> decide
      simp; omega
  · intro i hi hi'
    have : ∀ i : Fin 16, 12 ≤ i.val →
        ((Card.new r s).unique_integer.getLsbD i = true ↔ i.val = suitBit s) := by
      cases r <;> cases s <;> decide +kernel
    exact this ⟨i, hi'⟩ hi
  · rw [hl]
    cases r <;> cases s <;> decide +kernel

example : ∃ c, Card.newChecked .Ten .Diamonds = .ok c ∧ c.unique_integer.getLsbD 24 = true ∧
    c.unique_integer.getLsbD 25 = false ∧ c.unique_integer.getLsbD 14 = true := by
  obtain ⟨c, h⟩ := c14_no_panic .Ten .Diamonds
  obtain ⟨h1, h2, -⟩ := c14_bits _ _ c h
  refine ⟨c, h, (h1 24 (by decide)).2 rfl, ?_, (h2 14 (by decide) (by decide)).2 rfl⟩
  exact Bool.eq_false_iff.2 (fun hc => absurd ((h1 25 (by decide)).1 hc) (by decide))

/-- C14: different rank/suit pairs give different cards. -/
theorem c14_injective (r r' : Rank) (s s' : Suit)
    (h : Card.newChecked r s = Card.newChecked r' s') : r = r' ∧ s = s' := by
  rw [Card.newChecked_eq, Card.newChecked_eq, Except.ok.injEq] at h
  have := card_inj (p := (r, s)) (q := (r', s')) h
  exact ⟨congrArg Prod.fst this, congrArg Prod.snd this⟩

example : ∃ c, Card.newChecked .Ace .Spades = .ok c ∧ c.unique_integer = 268442665 :=
  ⟨_, Card.newChecked_eq _ _, by decide +kernel⟩

/-! ## C35: characters -/

theorem rankChar_mem (r : Rank) : rankChar r ∈ rankChars := by cases r <;> decide

theorem suitChar_mem (s : Suit) : suitChar s ∈ suitChars := by cases s <;> decide

theorem exists_rankChar {ch : Char} (h : ch ∈ rankChars) : ∃ r, ch = rankChar r := by
  simp only [rankChars, List.mem_cons, List.not_mem_nil, or_false] at h
  rcases h with h | h | h | h | h | h | h | h | h | h | h | h | h
  exacts [⟨.Two, h⟩, ⟨.Three, h⟩, ⟨.Four, h⟩, ⟨.Five, h⟩, ⟨.Six, h⟩, ⟨.Seven, h⟩, ⟨.Eight, h⟩,
    ⟨.Nine, h⟩, ⟨.Ten, h⟩, ⟨.Jack, h⟩, ⟨.Queen, h⟩, ⟨.King, h⟩, ⟨.Ace, h⟩]

theorem exists_suitChar {ch : Char} (h : ch ∈ suitChars) : ∃ s, ch = suitChar s := by
  simp only [suitChars, List.mem_cons, List.not_mem_nil, or_false] at h
  rcases h with h | h | h | h
  exacts [⟨.Clubs, h⟩, ⟨.Hearts, h⟩, ⟨.Spades, h⟩, ⟨.Diamonds, h⟩]

theorem rank_try_char (r : Rank) : Rank.try_from (rankChar r) = .ok r := by cases r <;> rfl

theorem suit_try_char (s : Suit) : Suit.try_from (suitChar s) = .ok s := by cases s <;> rfl

theorem rank_try_other {ch : Char} (hn : ch ∉ rankChars) : Rank.try_from ch = .error ch := by
  simp only [rankChars, List.mem_cons, List.not_mem_nil, or_false, not_or] at hn
  unfold Rank.try_from
  simp only [hn, if_false]

theorem suit_try_other {ch : Char} (hn : ch ∉ suitChars) : Suit.try_from ch = .error ch := by
  simp only [suitChars, List.mem_cons, List.not_mem_nil, or_false, not_or] at hn
  unfold Suit.try_from
  simp only [hn, if_false]

theorem rank_try_ok (ch : Char) (r : Rank) : Rank.try_from ch = .ok r ↔ ch = rankChar r := by
  by_cases hm : ch ∈ rankChars
  · obtain ⟨r', rfl⟩ := exists_rankChar hm
    rw [rank_try_char, Except.ok.injEq]
    refine ⟨fun h => by rw [h], fun h => ?_⟩
    have := rank_try_char r'
    rw [h, rank_try_char, Except.ok.injEq] at this
    exact this.symm
  · rw [rank_try_other hm]
    refine ⟨(fun h => by cases h), fun h => ?_⟩
    rw [h] at hm
    exact absurd (rankChar_mem r) hm

theorem suit_try_ok (ch : Char) (s : Suit) : Suit.try_from ch = .ok s ↔ ch = suitChar s := by
  by_cases hm : ch ∈ suitChars
  · obtain ⟨s', rfl⟩ := exists_suitChar hm
    rw [suit_try_char, Except.ok.injEq]
    refine ⟨fun h => by rw [h], fun h => ?_⟩
    have := suit_try_char s'
    rw [h, suit_try_char, Except.ok.injEq] at this
    exact this.symm
  · rw [suit_try_other hm]
    refine ⟨(fun h => by cases h), fun h => ?_⟩
    rw [h] at hm
    exact absurd (suitChar_mem s) hm

theorem rank_try_error (ch e : Char) :
    Rank.try_from ch = .error e ↔ e = ch ∧ ch ∉ rankChars := by
  by_cases hm : ch ∈ rankChars
  · obtain ⟨r', rfl⟩ := exists_rankChar hm
    rw [rank_try_char]
    exact ⟨(fun h => by cases h), fun h => absurd hm h.2⟩
  · rw [rank_try_other hm, Except.error.injEq]
    exact ⟨fun h => ⟨h.symm, hm⟩, fun h => h.1.symm⟩

theorem suit_try_error (ch e : Char) :
    Suit.try_from ch = .error e ↔ e = ch ∧ ch ∉ suitChars := by
  by_cases hm : ch ∈ suitChars
  · obtain ⟨r', rfl⟩ := exists_suitChar hm
    rw [suit_try_char]
    exact ⟨(fun h => by cases h), fun h => absurd hm h.2⟩
  · rw [suit_try_other hm, Except.error.injEq]
    exact ⟨fun h => ⟨h.symm, hm⟩, fun h => h.1.symm⟩

/-- C35: `Rank::try_from` succeeds exactly on the thirteen documented characters, is inverse to
`as_char`, and otherwise returns the offending character. -/
theorem c35_rank (ch : Char) :
    (∀ r : Rank, Rank.try_from ch = .ok r ↔ ch = rankChar r) ∧
    (∀ r : Rank, Rank.try_from ch = .ok r ↔ ch = r.as_char) ∧
    (∀ e, Rank.try_from ch = .error e ↔ e = ch ∧ ch ∉ rankChars) := by
  refine ⟨rank_try_ok ch, ?_, rank_try_error ch⟩
  intro r
  rw [rank_try_ok]
  cases r <;> rfl

example : Rank.try_from 'T' = .ok .Ten ∧ Rank.try_from 't' = .error 't' :=
  ⟨((c35_rank 'T').1 .Ten).2 rfl, ((c35_rank 't').2.2 't').2 ⟨rfl, by decide⟩⟩

/-- C35: `Suit::try_from` likewise, on four characters. -/
theorem c35_suit (ch : Char) :
    (∀ s : Suit, Suit.try_from ch = .ok s ↔ ch = suitChar s) ∧
    (∀ s : Suit, Suit.try_from ch = .ok s ↔ ch = s.as_char) ∧
    (∀ e, Suit.try_from ch = .error e ↔ e = ch ∧ ch ∉ suitChars) := by
  refine ⟨suit_try_ok ch, ?_, suit_try_error ch⟩
  intro s
  rw [suit_try_ok]
  cases s <;> rfl

example : Suit.try_from 's' = .ok .Spades ∧ Suit.try_from '♠' = .error '♠' :=
  ⟨((c35_suit 's').1 .Spades).2 rfl, ((c35_suit '♠').2.2 '♠').2 ⟨rfl, by decide⟩⟩

/-- C35: no rank or suit is read from a letter of the other case. -/
theorem c35_case (ch : Char) :
    ((∃ r, Rank.try_from ch = .ok r) → ch.isAlpha = true →
      ∀ r, Rank.try_from ch.toLower ≠ .ok r) ∧
    ((∃ s, Suit.try_from ch = .ok s) → ∀ s, Suit.try_from ch.toUpper ≠ .ok s) := by
  refine ⟨?_, ?_⟩
  · rintro ⟨r, hr⟩ ha r' hr'
    rw [rank_try_ok] at hr hr'
    subst hr
    revert ha hr'
    cases r <;> cases r' <;> decide
  · rintro ⟨s, hs⟩ s' hs'
    rw [suit_try_ok] at hs hs'
    subst hs
    revert hs'
    cases s <;> cases s' <;> decide

example : (∀ r, Rank.try_from 'k' ≠ .ok r) ∧ ∀ s, Suit.try_from 'H' ≠ .ok s :=
  ⟨(c35_case 'K').1 ⟨.King, rfl⟩ rfl, (c35_case 'h').2 ⟨.Hearts, rfl⟩⟩

/-- C35: a card is displayed as its rank character and suit symbol in brackets, and the text
determines the card. -/
theorem c35_display (p q : PCard) :
    (Card.new p.1 p.2).display = ['[', ' ', rankChar p.1, suitSymbol p.2, ' ', ']'] ∧
    ((Card.new p.1 p.2).display = (Card.new q.1 q.2).display → p = q) := by
  have h : ∀ p : PCard,
      (Card.new p.1 p.2).display = ['[', ' ', rankChar p.1, suitSymbol p.2, ' ', ']'] := by
    rintro ⟨r, s⟩
    simp only [Card.display, card_rank, card_suit]
    cases r <;> cases s <;> decide
  refine ⟨h p, ?_⟩
  rw [h, h]
  intro he
  simp only [List.cons.injEq, true_and, and_true] at he
  refine Prod.ext ?_ ?_
  · have h1 := (rank_try_ok _ p.1).2 rfl
    rw [he.1, (rank_try_ok _ q.1).2 rfl] at h1
    exact (Except.ok.inj h1).symm
  · have h2 := he.2
    revert h2
    cases p.2 <;> cases q.2 <;> decide

example : (Card.new .Ten .Hearts).display = ['[', ' ', 'T', suitSymbol .Hearts, ' ', ']'] :=
  (c35_display (.Ten, .Hearts) (.Ten, .Hearts)).1

/-! ## C15, C16: parsing -/

theorem rank_suit_string_eq (r : Rank) (s : Suit) :
    (Card.new r s).rank_suit_string = [rankChar r, suitChar s] := by
  simp only [Card.rank_suit_string, card_rank, card_suit]
  cases r <;> cases s <;> rfl

theorem from_str_pair (a b : Char) (c : Card) :
    Card.from_str [a, b] = .ok c ↔
      ∃ r s, a = rankChar r ∧ b = suitChar s ∧ c = Card.new r s := by
  unfold Card.from_str
  constructor
  · intro h
    simp only at h
    split at h
    · cases h
    · rename_i r hr
      split at h
      · cases h
      · rename_i s hs
        exact ⟨r, s, (rank_try_ok _ _).1 hr, (suit_try_ok _ _).1 hs, (Except.ok.inj h).symm⟩
  · rintro ⟨r, s, rfl, rfl, rfl⟩
    simp only [(rank_try_ok _ r).2 rfl, (suit_try_ok _ s).2 rfl]

theorem from_str_length {t : Str} (h : t.length ≠ 2) :
    Card.from_str t = .error (.InvalidLength t) := by
  unfold Card.from_str
  split
  · simp at h
  · rfl

theorem length_two {t : Str} (h : t.length = 2) : ∃ a b, t = [a, b] := by
  match t, h with
  | [a, b], _ => exact ⟨a, b, rfl⟩

/-- C15: parsing the two-character name of a card gives the card back, the name being its rank
character and its suit character. -/
theorem c15_roundtrip (r : Rank) (s : Suit) :
    Card.from_str (Card.new r s).rank_suit_string = .ok (Card.new r s) ∧
    (Card.new r s).rank_suit_string = [rankChar r, suitChar s] := by
  refine ⟨?_, rank_suit_string_eq r s⟩
  rw [rank_suit_string_eq, from_str_pair]
  exact ⟨r, s, rfl, rfl, rfl⟩

example : Card.from_str "Th".toList = .ok (Card.new .Ten .Hearts) := by
  have h := c15_roundtrip .Ten .Hearts
  rw [h.2] at h
  exact h.1

/-- C15: a string that parses is the name of the card it parses to, and that is a real card. -/
theorem c15_unique (t : Str) (c : Card) (h : Card.from_str t = .ok c) :
    t = c.rank_suit_string ∧ ∃ r s, c = Card.new r s := by
  by_cases hl : t.length = 2
  · obtain ⟨a, b, rfl⟩ := length_two hl
    obtain ⟨r, s, rfl, rfl, rfl⟩ := (from_str_pair _ _ _).1 h
    exact ⟨(rank_suit_string_eq r s).symm, r, s, rfl⟩
  · rw [from_str_length hl] at h
    cases h

example : (Card.new .Ten .Hearts).rank_suit_string = "Th".toList :=
  (c15_unique "Th".toList _ rfl).1.symm

/-- C15: exactly 52 strings parse. -/
theorem c15_count : ∃ l : List Str, l.Nodup ∧ l.length = 52 ∧
    ∀ t, (∃ c, Card.from_str t = .ok c) ↔ t ∈ l := by
  refine ⟨rankChars.flatMap (fun a => suitChars.map (fun b => [a, b])), by decide, by decide, ?_⟩
  intro t
  simp only [List.mem_flatMap, List.mem_map]
  constructor
  · rintro ⟨c, hc⟩
    obtain ⟨ht, r, s, rfl⟩ := c15_unique t c hc
    exact ⟨_, rankChar_mem r, _, suitChar_mem s, by rw [ht, rank_suit_string_eq]⟩
  · rintro ⟨a, ha, b, hb, rfl⟩
    obtain ⟨r, rfl⟩ := exists_rankChar ha
    obtain ⟨s, rfl⟩ := exists_suitChar hb
    exact ⟨_, (from_str_pair _ _ _).2 ⟨r, s, rfl, rfl, rfl⟩⟩

example : ∃ l : List Str, l.length = 52 ∧ "As".toList ∈ l ∧ "10s".toList ∉ l := by
  obtain ⟨l, -, hl, h⟩ := c15_count
  refine ⟨l, hl, (h _).1 ⟨Card.new .Ace .Spades, rfl⟩, fun h' => ?_⟩
  obtain ⟨c, hc⟩ := (h _).2 h'
  cases hc

/-- C16: which error a string gives. -/
theorem c16_errors (t : Str) :
    (∀ u, Card.from_str t = .error (.InvalidLength u) ↔ u = t ∧ t.length ≠ 2) ∧
    (∀ u ch, Card.from_str t = .error (.InvalidRank u ch) ↔
      u = t ∧ ∃ b, t = [ch, b] ∧ ch ∉ rankChars) ∧
    (∀ u ch, Card.from_str t = .error (.InvalidSuit u ch) ↔
      u = t ∧ ∃ a, t = [a, ch] ∧ a ∈ rankChars ∧ ch ∉ suitChars) := by
  by_cases hl : t.length = 2
  · obtain ⟨a, b, rfl⟩ := length_two hl
    have hcases : ((∃ r, a = rankChar r) ∧ (∃ s, b = suitChar s)) ∨
        ((∃ r, a = rankChar r) ∧ b ∉ suitChars) ∨ a ∉ rankChars := by
      by_cases ha : a ∈ rankChars
      · by_cases hb : b ∈ suitChars
        · exact .inl ⟨exists_rankChar ha, exists_suitChar hb⟩
        · exact .inr (.inl ⟨exists_rankChar ha, hb⟩)
      · exact .inr (.inr ha)
    rcases hcases with ⟨⟨r, rfl⟩, ⟨s, rfl⟩⟩ | ⟨⟨r, rfl⟩, hb⟩ | ha
    · rw [(from_str_pair _ _ _).2 ⟨r, s, rfl, rfl, rfl⟩]
      refine ⟨by simp, ?_, ?_⟩
      · intro u ch
        simp only [reduceCtorEq, false_iff, not_and, not_exists]
        rintro - x hx hn
        rw [← (List.cons.inj hx).1] at hn
        exact hn (rankChar_mem r)
      · intro u ch
        simp only [reduceCtorEq, false_iff, not_and, not_exists]
        rintro - x hx - hn
        rw [← (List.cons.inj (List.cons.inj hx).2).1] at hn
        exact hn (suitChar_mem s)
    · have : Card.from_str [rankChar r, b] = .error (.InvalidSuit [rankChar r, b] b) := by
        unfold Card.from_str
        simp only [(rank_try_ok _ r).2 rfl, (suit_try_error b b).2 ⟨rfl, hb⟩]
      rw [this]
      refine ⟨by simp, ?_, ?_⟩
      · intro u ch
        simp only [Except.error.injEq, reduceCtorEq, false_iff, not_and, not_exists]
        rintro - x hx hn
        rw [← (List.cons.inj hx).1] at hn
        exact hn (rankChar_mem r)
      · intro u ch
        simp only [Except.error.injEq, ParseCardError.InvalidSuit.injEq]
        constructor
        · rintro ⟨rfl, rfl⟩
          exact ⟨rfl, _, rfl, rankChar_mem r, hb⟩
        · rintro ⟨rfl, x, hx, -, -⟩
          exact ⟨rfl, (List.cons.inj (List.cons.inj hx).2).1⟩
    · have : Card.from_str [a, b] = .error (.InvalidRank [a, b] a) := by
        unfold Card.from_str
        simp only [(rank_try_error a a).2 ⟨rfl, ha⟩]
      rw [this]
      refine ⟨by simp, ?_, ?_⟩
      · intro u ch
        simp only [Except.error.injEq, ParseCardError.InvalidRank.injEq]
        constructor
        · rintro ⟨rfl, rfl⟩
          exact ⟨rfl, _, rfl, ha⟩
        · rintro ⟨rfl, x, hx, -⟩
          exact ⟨rfl, (List.cons.inj hx).1⟩
      · intro u ch
        simp only [Except.error.injEq, reduceCtorEq, false_iff, not_and, not_exists]
        rintro - x hx hm
        rw [← (List.cons.inj hx).1] at hm
        exact absurd hm ha
  · rw [from_str_length hl]
    refine ⟨?_, ?_, ?_⟩
    · intro u
      simp only [Except.error.injEq, ParseCardError.InvalidLength.injEq]
      exact ⟨fun h => ⟨h.symm, hl⟩, fun h => h.1.symm⟩
    · intro u ch
      simp only [Except.error.injEq, reduceCtorEq, false_iff, not_and, not_exists]
      rintro - b rfl
      exact absurd rfl hl
    · intro u ch
      simp only [Except.error.injEq, reduceCtorEq, false_iff, not_and, not_exists]
      rintro - b rfl
      exact absurd rfl hl

-- all three kinds of error occur
example : Card.from_str "10c".toList = .error (.InvalidLength "10c".toList) ∧
    Card.from_str "Xc".toList = .error (.InvalidRank "Xc".toList 'X') ∧
    Card.from_str "XX".toList = .error (.InvalidRank "XX".toList 'X') ∧
    Card.from_str "Tx".toList = .error (.InvalidSuit "Tx".toList 'x') := by decide

/-! ## C17: from two characters -/

/-- C17: `Card::try_from_chars(a, b)` agrees with parsing the string `ab`, except that its errors
carry only the offending character as input. -/
theorem c17_chars (a b : Char) :
    (∀ c, Card.try_from_chars a b = .ok c ↔ Card.from_str [a, b] = .ok c) ∧
    (∀ u ch, Card.try_from_chars a b = .error (.InvalidRank u ch) ↔
      u = [ch] ∧ Card.from_str [a, b] = .error (.InvalidRank [a, b] ch)) ∧
    (∀ u ch, Card.try_from_chars a b = .error (.InvalidSuit u ch) ↔
      u = [ch] ∧ Card.from_str [a, b] = .error (.InvalidSuit [a, b] ch)) ∧
    (∀ u, Card.try_from_chars a b ≠ .error (.InvalidLength u)) := by
  cases hr : Rank.try_from a with
  | error e =>
    obtain ⟨rfl, -⟩ := (rank_try_error a e).1 hr
    have h1 : Card.try_from_chars e b = .error (.InvalidRank [e] e) := by
      simp only [Card.try_from_chars, hr]
    have h2 : Card.from_str [e, b] = .error (.InvalidRank [e, b] e) := by
      simp only [Card.from_str, hr]
    rw [h1, h2]
    refine ⟨by simp, ?_, by simp, by simp⟩
    intro u ch
    simp only [Except.error.injEq, ParseCardError.InvalidRank.injEq, true_and]
    constructor
    · rintro ⟨rfl, rfl⟩; exact ⟨rfl, rfl⟩
    · rintro ⟨rfl, rfl⟩; exact ⟨rfl, rfl⟩
  | ok r =>
    cases hs : Suit.try_from b with
    | error e =>
      obtain ⟨rfl, -⟩ := (suit_try_error b e).1 hs
      have h1 : Card.try_from_chars a e = .error (.InvalidSuit [e] e) := by
        simp only [Card.try_from_chars, hr, hs]
      have h2 : Card.from_str [a, e] = .error (.InvalidSuit [a, e] e) := by
        simp only [Card.from_str, hr, hs]
      rw [h1, h2]
      refine ⟨by simp, by simp, ?_, by simp⟩
      intro u ch
      simp only [Except.error.injEq, ParseCardError.InvalidSuit.injEq, true_and]
      constructor
      · rintro ⟨rfl, rfl⟩; exact ⟨rfl, rfl⟩
      · rintro ⟨rfl, rfl⟩; exact ⟨rfl, rfl⟩
    | ok s =>
      have h1 : Card.try_from_chars a b = .ok (Card.new r s) := by
        simp only [Card.try_from_chars, hr, hs]
      have h2 : Card.from_str [a, b] = .ok (Card.new r s) := by
        simp only [Card.from_str, hr, hs]
      rw [h1, h2]
      simp

example : Card.try_from_chars 'A' 'x' = .error (.InvalidSuit ['x'] 'x') :=
  ((c17_chars 'A' 'x').2.2.1 _ _).2 ⟨rfl, rfl⟩

/-! ## C18: collecting -/

/-- C18: the iterator yields one item per string, in order, errors included. -/
theorem c18_items (ts : List Str) :
    (Card.parse_to_iter ts).length = ts.length ∧
    ∀ i (hi : i < (Card.parse_to_iter ts).length) (hi' : i < ts.length),
      (Card.parse_to_iter ts)[i] = Card.from_str ts[i] := by
  refine ⟨by simp [Card.parse_to_iter], ?_⟩
  intro i hi hi'
  simp [Card.parse_to_iter]

example : (Card.parse_to_iter ["As".toList, "??".toList]).length = 2 := (c18_items _).1

theorem try_collect_ok {ε α : Type} (l : List (Except ε α)) (as : List α) :
    try_collect l = .ok as ↔ l = as.map .ok := by
  induction l generalizing as with
  | nil => cases as <;> simp [try_collect]
  | cons x l ih =>
    cases x with
    | error e => cases as <;> simp [try_collect]
    | ok a =>
      simp only [try_collect]
      cases h : try_collect l with
      | error e =>
        simp only [reduceCtorEq, false_iff]
        cases as with
        | nil => simp
        | cons b bs =>
          intro hh
          rw [List.map_cons, List.cons.injEq] at hh
          rw [(ih bs).2 hh.2] at h
          cases h
      | ok bs =>
        have hb := (ih bs).1 h
        rw [Except.ok.injEq]
        constructor
        · rintro rfl; rw [hb]; rfl
        · intro hh
          cases as with
          | nil => simp at hh
          | cons c cs =>
            rw [List.map_cons, List.cons.injEq] at hh
            have h2 := (ih cs).2 hh.2
            rw [h, Except.ok.injEq] at h2
            rw [Except.ok.inj hh.1, h2]

theorem try_collect_error {ε α : Type} (l : List (Except ε α)) (e : ε) :
    try_collect l = .error e ↔ ∃ (as : List α) (post : List (Except ε α)),
      l = as.map .ok ++ .error e :: post := by
  induction l with
  | nil => simp [try_collect]
  | cons x l ih =>
    cases x with
    | error e' =>
      simp only [try_collect, Except.error.injEq]
      constructor
      · rintro rfl; exact ⟨[], l, rfl⟩
      · rintro ⟨as, post, h⟩
        cases as with
        | nil => simpa using (List.cons.inj h).1
        | cons b bs => simp at h
    | ok a =>
      simp only [try_collect]
      constructor
      · intro h
        cases h' : try_collect l with
        | ok bs => rw [h'] at h; simp at h
        | error e' =>
          rw [h'] at h
          simp only [Except.error.injEq] at h
          subst h
          obtain ⟨as, post, hl⟩ := ih.1 h'
          exact ⟨a :: as, post, by rw [hl]; rfl⟩
      · rintro ⟨as, post, h⟩
        cases as with
        | nil => simp at h
        | cons b bs =>
          rw [ih.2 ⟨bs, post, (List.cons.inj h).2⟩]

/-- C18: collecting gives all cards in order iff every string parses. -/
theorem c18_ok (ts : List Str) (cs : List Card) :
    try_collect (Card.parse_to_iter ts) = .ok cs ↔
      List.Forall₂ (fun t c => Card.from_str t = .ok c) ts cs := by
  rw [try_collect_ok, Card.parse_to_iter]
  induction ts generalizing cs with
  | nil => cases cs <;> simp
  | cons t ts ih => cases cs <;> simp [ih]

example : try_collect (Card.parse_to_iter ["As".toList, "Kd".toList])
    = .ok [Card.new .Ace .Spades, Card.new .King .Diamonds] :=
  (c18_ok _ _).2 (.cons rfl (.cons rfl .nil))

/-- C18: otherwise it gives the error of the first string that does not parse. -/
theorem c18_error (ts : List Str) (e : ParseCardError) :
    try_collect (Card.parse_to_iter ts) = .error e ↔
      ∃ pre t post, ts = pre ++ t :: post ∧ (∀ u ∈ pre, ∃ c, Card.from_str u = .ok c) ∧
        Card.from_str t = .error e := by
  rw [try_collect_error, Card.parse_to_iter]
  constructor
  · rintro ⟨as, post, h⟩
    rw [List.map_eq_append_iff] at h
    obtain ⟨l1, l2, rfl, h1, h2⟩ := h
    rw [List.map_eq_cons_iff] at h2
    obtain ⟨t, l3, rfl, h3, h4⟩ := h2
    refine ⟨l1, t, l3, rfl, ?_, h3⟩
    intro u hu
    have : Card.from_str u ∈ as.map Except.ok := by
      rw [← h1]; exact List.mem_map_of_mem hu
    obtain ⟨c, -, hc⟩ := List.mem_map.1 this
    exact ⟨c, hc.symm⟩
  · rintro ⟨pre, t, post, rfl, hp, ht⟩
    have : ∃ as : List Card, pre.map Card.from_str = as.map .ok := by
      clear ht
      induction pre with
      | nil => exact ⟨[], rfl⟩
      | cons u us ih =>
        obtain ⟨c, hc⟩ := hp u (by simp)
        obtain ⟨as, has⟩ := ih (fun v hv => hp v (by simp [hv]))
        exact ⟨c :: as, by simp [hc, has]⟩
    obtain ⟨as, has⟩ := this
    exact ⟨as, post.map Card.from_str, by simp [has, ht]⟩

example : try_collect (Card.parse_to_iter ["Ac".toList, "Kd".toList])
      = .ok [Card.new .Ace .Clubs, Card.new .King .Diamonds] ∧
    try_collect (Card.parse_to_iter ["Ac".toList, "Kx".toList, "".toList])
      = .error (.InvalidSuit "Kx".toList 'x') := by decide +kernel

/-! ## C19: one string of cards -/

theorem white_iff (c : Char) : isWhitespace c = true ↔ White c := by
  simp only [isWhitespace, White, whiteCodes, Bool.or_eq_true, Bool.and_eq_true,
    decide_eq_true_eq, beq_iff_eq, List.mem_cons, List.not_mem_nil, or_false]
  omega

theorem split_white (lead s : Str) (h : ∀ c ∈ lead, White c) :
    splitWhitespaceAux [] (lead ++ s) = splitWhitespaceAux [] s := by
  induction lead with
  | nil => rfl
  | cons c l ih =>
    rw [List.cons_append, splitWhitespaceAux, (white_iff c).2 (h c (by simp))]
    simpa using ih (fun x hx => h x (by simp [hx]))

theorem split_word (w s cur : Str) (h : ∀ c ∈ w, ¬ White c) :
    splitWhitespaceAux cur (w ++ s) = splitWhitespaceAux (cur ++ w) s := by
  induction w generalizing cur with
  | nil => simp
  | cons c l ih =>
    have hc : isWhitespace c = false := by
      rw [Bool.eq_false_iff, Ne, white_iff]; exact h c (by simp)
    rw [List.cons_append, splitWhitespaceAux, hc]
    rw [if_neg (by simp), ih _ (fun x hx => h x (by simp [hx]))]
    simp

theorem split_end (cur s : Str) (hne : cur ≠ []) (h : ∀ c, s.head? = some c → White c) :
    splitWhitespaceAux cur s = cur :: splitWhitespaceAux [] s := by
  have he : cur.isEmpty = false := by simpa using hne
  cases s with
  | nil => simp [splitWhitespaceAux, he]
  | cons c s =>
    have := (white_iff c).2 (h c rfl)
    simp [splitWhitespaceAux, this, he]

theorem split_of_words {ws : List Str} {s : Str} (h : Words ws s) : split_whitespace s = ws := by
  unfold split_whitespace
  induction h with
  | nil s hs =>
    have := split_white s [] hs
    rw [List.append_nil] at this
    rw [this]
    rfl
  | cons lead w s ws hl hne hw hs _ ih =>
    rw [List.append_assoc, split_white _ _ hl, split_word _ _ _ hw, List.nil_append,
      split_end _ _ hne hs, ih]

theorem mem_takeWhile {p : Char → Bool} {l : Str} {c : Char} (h : c ∈ l.takeWhile p) :
    p c = true := by
  induction l with
  | nil => simp at h
  | cons x l ih =>
    rw [List.takeWhile_cons] at h
    cases hx : p x with
    | false => simp [hx] at h
    | true =>
      rw [hx, if_pos rfl] at h
      rcases List.mem_cons.1 h with rfl | h
      · exact hx
      · exact ih h

theorem exists_words (s : Str) : ∃ ws, Words ws s := by
  induction hn : s.length using Nat.strongRecOn generalizing s with
  | ind n ih =>
    subst hn
    let lead := s.takeWhile isWhitespace
    let t := s.dropWhile isWhitespace
    let w := t.takeWhile (fun c => !isWhitespace c)
    let r := t.dropWhile (fun c => !isWhitespace c)
    have hs : s = lead ++ w ++ r := by
      rw [List.append_assoc, List.takeWhile_append_dropWhile, List.takeWhile_append_dropWhile]
    have hlead : ∀ c ∈ lead, White c := fun c hc =>
      (white_iff c).1 (mem_takeWhile hc)
    by_cases hw : w = []
    · have ht : t = [] := by
        cases h : t with
        | nil => rfl
        | cons c l =>
          have h1 : isWhitespace c = false := by
            have := List.head?_dropWhile_not isWhitespace s
            rw [show s.dropWhile isWhitespace = c :: l from h] at this
            simpa using this
          have : w = c :: l.takeWhile (fun c => !isWhitespace c) := by
            show t.takeWhile _ = _
            rw [h, List.takeWhile_cons, h1]; rfl
          rw [hw] at this
          cases this
      refine ⟨[], .nil s ?_⟩
      have : s = lead := by
        have h2 : lead ++ t = s := List.takeWhile_append_dropWhile
        rw [ht, List.append_nil] at h2
        exact h2.symm
      rw [this]
      exact hlead
    · have hlt : r.length < s.length := by
        have : 0 < w.length := List.length_pos_iff.2 hw
        rw [hs]; simp; omega
      obtain ⟨ws, hws⟩ := ih r.length hlt r rfl
      refine ⟨w :: ws, ?_⟩
      rw [hs]
      refine .cons lead w r ws hlead hw ?_ ?_ hws
      · intro c hc hwc
        have := mem_takeWhile hc
        rw [(white_iff c).2 hwc] at this
        cases this
      · intro c hc
        rw [← white_iff]
        have := List.head?_dropWhile_not (fun c => !isWhitespace c) t
        rw [show t.dropWhile _ = r from rfl, hc] at this
        simpa using this

/-- C19: the string is split into its maximal runs of non-white characters, which are unique; so the
items of `cards!(s)` are those words parsed in order. -/
theorem c19_words (s : Str) (ws : List Str) :
    (Words ws s ↔ split_whitespace s = ws) ∧
    (Words ws s → cardsOfString s = ws.map Card.from_str) := by
  have h : Words ws s ↔ split_whitespace s = ws := by
    constructor
    · exact split_of_words
    · intro h
      obtain ⟨ws', h'⟩ := exists_words s
      rw [← h, split_of_words h']
      exact h'
  refine ⟨h, fun hw => ?_⟩
  rw [cardsOfString, h.1 hw]
  rfl

example : cardsOfString "Kh\t\nQx".toList
    = [.ok (Card.new .King .Hearts), .error (.InvalidSuit "Qx".toList 'x')] :=
  (c19_words _ ["Kh".toList, "Qx".toList]).2 ((c19_words _ _).1.2 (by decide))

theorem rankChar_not_white (r : Rank) : ¬ White (rankChar r) := by
  unfold White; cases r <;> decide

theorem suitChar_not_white (s : Suit) : ¬ White (suitChar s) := by
  unfold White; cases s <;> decide

/-- The text with some white space `lead`, then the names of cards each followed by white space. -/
def spaced (lead : Str) (cs : List (PCard × Str)) : Str :=
  lead ++ (cs.map (fun p => [rankChar p.1.1, suitChar p.1.2] ++ p.2)).flatten

theorem words_spaced (lead : Str) (cs : List (PCard × Str)) (hl : ∀ c ∈ lead, White c)
    (hs : ∀ p ∈ cs, ∀ c ∈ p.2, White c) (hn : ∀ p ∈ cs.dropLast, p.2 ≠ []) :
    Words (cs.map (fun p => [rankChar p.1.1, suitChar p.1.2])) (spaced lead cs) := by
  induction cs generalizing lead with
  | nil => exact .nil _ (by simpa [spaced] using hl)
  | cons p cs ih =>
    have hrest : Words (cs.map (fun p => [rankChar p.1.1, suitChar p.1.2])) (spaced p.2 cs) := by
      refine ih p.2 (hs p (by simp)) (fun q hq => hs q (by simp [hq])) ?_
      intro q hq
      refine hn q ?_
      cases cs with
      | nil => simp at hq
      | cons a b => simp only [List.dropLast_cons_cons, List.mem_cons]; exact .inr hq
    have : spaced lead (p :: cs)
        = lead ++ [rankChar p.1.1, suitChar p.1.2] ++ spaced p.2 cs := by
      simp [spaced]
    rw [this]
    refine .cons _ _ _ _ hl (by simp) ?_ ?_ hrest
    · intro c hc
      simp only [List.mem_cons, List.not_mem_nil, or_false] at hc
      rcases hc with rfl | rfl
      · exact rankChar_not_white _
      · exact suitChar_not_white _
    · intro c hc
      cases cs with
      | nil =>
        simp only [spaced, List.map_nil, List.flatten_nil, List.append_nil] at hc
        exact hs p (by simp) c (List.mem_of_head? hc)
      | cons q cs =>
        have hp : p.2 ≠ [] := hn p (by simp)
        rw [spaced, List.head?_append] at hc
        obtain ⟨x, l, hx⟩ := List.exists_cons_of_ne_nil hp
        rw [hx] at hc
        have hxc : x = c := by simpa using hc
        exact hs p (by simp) c (by rw [hx, hxc]; simp)

/-- C19: cards written with any white space around them and some white space between them are read
back. -/
theorem c19_layout (lead : Str) (cs : List (PCard × Str)) (hl : ∀ c ∈ lead, White c)
    (hs : ∀ p ∈ cs, ∀ c ∈ p.2, White c) (hn : ∀ p ∈ cs.dropLast, p.2 ≠ []) :
    try_collect (cardsOfString (spaced lead cs)) = .ok (cs.map (fun p => Card.new p.1.1 p.1.2)) := by
  rw [(c19_words _ _).2 (words_spaced lead cs hl hs hn), try_collect_ok]
  simp only [List.map_map]
  refine List.map_congr_left ?_
  intro p _
  exact (from_str_pair _ _ _).2 ⟨_, _, rfl, rfl, rfl⟩

example : try_collect (cardsOfString " Kh\t\nQc".toList)
    = .ok [Card.new .King .Hearts, Card.new .Queen .Clubs] := by
  refine c19_layout " ".toList [((.King, .Hearts), "\t\n".toList), ((.Queen, .Clubs), [])] ?_ ?_
    (by decide) <;> unfold White <;> decide

/-- C19: white space alone gives no cards. -/
theorem c19_blank (s : Str) (h : ∀ c ∈ s, White c) : try_collect (cardsOfString s) = .ok [] := by
  have := c19_layout s [] h (by simp) (by simp)
  simpa [spaced] using this

example : spaced " ".toList [((.King, .Hearts), "\t\n".toList), ((.Queen, .Clubs), [])]
      = " Kh\t\nQc".toList ∧
    (∀ c ∈ "\t\n".toList, White c) := by
  refine ⟨by decide, ?_⟩
  unfold White
  decide

/-- C19: a list of two or more strings gives cards exactly if every string names one. -/
theorem c19_strings (ts : List Str) (cs : List Card) :
    try_collect (cardsOfStrings ts) = .ok cs ↔
      List.Forall₂ (fun t c => ∃ r s, t = [rankChar r, suitChar s] ∧ c = Card.new r s) ts cs := by
  have h : ∀ t c, Card.from_str t = .ok c ↔ ∃ r s, t = [rankChar r, suitChar s] ∧ c = Card.new r s := by
    intro t c
    constructor
    · intro h
      obtain ⟨ht, r, s, rfl⟩ := c15_unique t c h
      exact ⟨r, s, ht.trans (rank_suit_string_eq r s), rfl⟩
    · rintro ⟨r, s, rfl, rfl⟩
      rw [← rank_suit_string_eq]
      exact (c15_roundtrip r s).1
  simp only [cardsOfStrings, c18_ok, h]

/-- C19: cards written out as identifiers are the cards named, in order. -/
theorem c19_idents (l : List PCard) :
    (cardsOfIdents l).map (fun c => (c.rank, c.suit)) = l ∧
    ∀ c ∈ cardsOfIdents l, ∃ r s, c = Card.new r s := by
  constructor
  · simp [cardsOfIdents, card_rank, card_suit, Function.comp_def]
  · intro c hc
    obtain ⟨p, -, rfl⟩ := List.mem_map.1 hc
    exact ⟨_, _, rfl⟩

example : try_collect (cardsOfStrings ["Kh".toList, "2c".toList])
    = .ok [Card.new .King .Hearts, Card.new .Two .Clubs] :=
  (c19_strings _ _).2 (.cons ⟨.King, .Hearts, by decide, rfl⟩
    (.cons ⟨.Two, .Clubs, by decide, rfl⟩ .nil))

/-! ## C20: order of cards -/

theorem rank_cmp_pips (r r' : Rank) : r.cmp r' = compare (pips r) (pips r') := by
  have h : ∀ r : Rank, pips r = r.discr + 2 := by intro r; cases r <;> rfl
  rw [h, h, Rank.cmp]
  cases hc : compare r.discr r'.discr
  · rw [Nat.compare_eq_lt] at hc
    exact (Nat.compare_eq_lt.2 (by omega)).symm
  · rw [Nat.compare_eq_eq] at hc
    exact (Nat.compare_eq_eq.2 (by omega)).symm
  · rw [Nat.compare_eq_gt] at hc
    exact (Nat.compare_eq_gt.2 (by omega)).symm

/-- C20: cards compare as their ranks. -/
theorem c20_by_rank (p q : PCard) :
    (Card.new p.1 p.2).cmp (Card.new q.1 q.2) = compare (pips p.1) (pips q.1) ∧
    (Card.new p.1 p.2).partial_cmp (Card.new q.1 q.2)
      = some ((Card.new p.1 p.2).cmp (Card.new q.1 q.2)) := by
  simp only [Card.cmp, Card.partial_cmp, card_rank, rank_cmp_pips]
  exact ⟨trivial, by rw [← rank_cmp_pips]; rfl⟩

example : (Card.new .Ten .Spades).cmp (Card.new .Jack .Clubs) = .lt :=
  (c20_by_rank (.Ten, .Spades) (.Jack, .Clubs)).1

/-- C20: `cmp` on cards is a total preorder. -/
theorem c20_preorder (a b c : Card) :
    a.cmp a = .eq ∧ b.cmp a = (a.cmp b).swap ∧
    (a.cmp b ≠ .gt → b.cmp c ≠ .gt → a.cmp c ≠ .gt) ∧
    a.partial_cmp b = some (a.cmp b) := by
  refine ⟨?_, ?_, ?_, rfl⟩
  · exact Nat.compare_eq_eq.2 rfl
  · exact (Nat.compare_swap _ _).symm
  · simp only [Card.cmp, Rank.cmp, Ne, Nat.compare_eq_gt]; omega

example : (Card.new .Two .Spades).cmp (Card.new .King .Clubs) ≠ .gt :=
  (c20_preorder _ (Card.new .Two .Hearts) _).2.2.1 (by decide +kernel) (by decide +kernel)

/-- C20: two cards compare `Equal` iff they have the same rank, so the contract "`Equal` iff `==`"
fails: there are different cards that compare `Equal`. -/
theorem c20_not_consistent :
    (∀ p q : PCard, (Card.new p.1 p.2).cmp (Card.new q.1 q.2) = .eq ↔ p.1 = q.1) ∧
    ¬ ∀ p q : PCard, (Card.new p.1 p.2).cmp (Card.new q.1 q.2) = .eq ↔
      Card.new p.1 p.2 = Card.new q.1 q.2 := by
  have h : ∀ p q : PCard, (Card.new p.1 p.2).cmp (Card.new q.1 q.2) = .eq ↔ p.1 = q.1 := by
    intro p q
    rw [(c20_by_rank p q).1, Nat.compare_eq_eq]
    exact ⟨fun h => pips_inj h, fun h => by rw [h]⟩
  refine ⟨h, ?_⟩
  intro hall
  have h1 := (hall (.Ace, .Clubs) (.Ace, .Spades)).1 ((h _ _).2 rfl)
  have := card_inj (p := (Rank.Ace, Suit.Clubs)) (q := (Rank.Ace, Suit.Spades)) h1
  cases this

example : (Card.new .Ten .Spades).cmp (Card.new .Ten .Clubs) = .eq :=
  (c20_not_consistent.1 (.Ten, .Spades) (.Ten, .Clubs)).2 rfl

end Poker
