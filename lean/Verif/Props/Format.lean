import Verif.Spec.Format
import Verif.Props.Cards
import Verif.Props.Exact
import Mathlib.Data.List.Forall2

/-! C77: the texts of the crate under format options and for writers that fail. -/

namespace Poker.Format

open Rules Text

theorem accepts_append {σ : Type} {w : Sink σ} {s s' s'' : σ} {cs ds : List Call} (h : Accepts w s cs s')
    (h' : Accepts w s' ds s'') : Accepts w s (cs ++ ds) s'' := by
  induction h with
  | nil => exact h'
  | cons h _ ih => exact .cons h (ih h')

theorem said_append (cs ds : List Call) : said (cs ++ ds) = said cs ++ said ds := by
  simp [said]

theorem writes_call {σ : Type} (w : Sink σ) (s : σ) (c : Call) : Writes w s c.text (c.ask w s) := by
  rcases h : c.ask w s with ⟨_ | _, s'⟩
  · exact .inr ⟨[], c, s, s', rfl, .nil s, h, by simp [said]⟩
  · exact .inl ⟨[c], s', rfl, .cons h (.nil _), by simp [said]⟩

theorem writes_nil {σ : Type} (w : Sink σ) (s : σ) : Writes w s [] (true, s) :=
  .inl ⟨[], s, rfl, .nil s, rfl⟩

theorem writes_then {σ : Type} {w : Sink σ} {a b : σ → Bool × σ} {t u : Str}
    (ha : ∀ s, Writes w s t (a s)) (hb : ∀ s, Writes w s u (b s)) (s : σ) :
    Writes w s (t ++ u) (andThen a b s) := by
  rcases ha s with ⟨cs, s', h, hc, rfl⟩ | ⟨cs, c, s', s'', h, hc, hr, hp⟩
  · rcases hb s' with ⟨ds, s'', h', hd, rfl⟩ | ⟨ds, d, s'', s''', h', hd, hr, hp⟩
    · exact .inl ⟨cs ++ ds, s'', by simp [andThen, h, h'], accepts_append hc hd, said_append cs ds⟩
    · refine .inr ⟨cs ++ ds, d, s'', s''', by simp [andThen, h, h'], accepts_append hc hd, hr, ?_⟩
      rw [List.append_assoc, said_append]
      exact (List.prefix_append_right_inj _).2 hp
  · exact .inr ⟨cs, c, s', s'', by simp [andThen, h], hc, hr, hp.trans (List.prefix_append _ _)⟩

/-- The text of a piece, given the text of its argument. -/
inductive Means {σ : Type} (w : Sink σ) : Piece σ → Str → Prop
  | text (t : Str) : Means w (.text t) t
  | arg {d : Fmt σ} {t : Str} (h : ∀ s, Writes w s t (d {} w s)) : Means w (.arg d) t

theorem writes_write {σ : Type} {w : Sink σ} : ∀ {ps : List (Piece σ)} {ts : List Str},
    List.Forall₂ (Means w) ps ts → ∀ s, Writes w s ts.flatten (write w ps s)
  | [], _, .nil, s => writes_nil w s
  | .text t :: ps, _, .cons (.text _) hs, s => by
    unfold write
    split
    · rename_i h
      subst h
      exact writes_write hs s
    · exact writes_then (fun s => writes_call w s (.str t)) (writes_write hs) s
  | .arg d :: ps, _, .cons (.arg h) hs, s => writes_then h (writes_write hs) s

theorem means_str {σ : Type} (w : Sink σ) (t : Str) : Means w (.arg (str t)) t :=
  .arg fun s => writes_call w s (.str t)

theorem means_char {σ : Type} (w : Sink σ) (c : Char) : Means w (.arg (char c)) [c] :=
  .arg fun s => writes_call w s (.char c)

theorem means_usize {σ : Type} (w : Sink σ) (n : Nat) : Means w (.arg (usize n)) (natStr n) :=
  .arg fun s => writes_call w s (.str (natStr n))

/-- Writes a list of pieces with known texts. -/
theorem writes_pieces {σ : Type} {w : Sink σ} {ps : List (Piece σ)} {ts : List Str} {t : Str}
    (h : List.Forall₂ (Means w) ps ts) (ht : ts.flatten = t) (s : σ) : Writes w s t (write w ps s) :=
  ht ▸ writes_write h s

/-- C77: a rank is written as its text, piece by piece, whatever the options and the writer. -/
theorem c77_rank {σ : Type} (r : Rank) (o : Options) (w : Sink σ) (s : σ) :
    Writes w s r.display (r.fmt o w s) := writes_call w s (.char r.as_char)

/-- C77: so is a suit. -/
theorem c77_suit {σ : Type} (x : Suit) (o : Options) (w : Sink σ) (s : σ) :
    Writes w s x.display (x.fmt o w s) := writes_call w s (.char x.as_pretty_char)

/-- C77: so is a card. -/
theorem c77_card {σ : Type} (c : Card) (o : Options) (w : Sink σ) (s : σ) :
    Writes w s c.display (c.fmt o w s) :=
  writes_pieces (.cons (.text _) (.cons (.arg fun s => c77_rank c.rank {} w s)
    (.cons (.arg fun s => c77_suit c.suit {} w s) (.cons (.text _) .nil)))) (by simp [Card.display]) s

/-- C77: so is a class. -/
theorem c77_class {σ : Type} (c : EvalClass) (o : Options) (w : Sink σ) (s : σ) :
    Writes w s c.display (c.fmt o w s) := by
  have lone (a : Str) : Writes w s a (write w [.text a] s) :=
    writes_pieces (.cons (.text _) .nil) (by simp) s
  have one (a b : Str) : Writes w s (a ++ b) (write w [.text a, .arg (str b)] s) :=
    writes_pieces (.cons (.text _) (.cons (means_str w b) .nil)) (by simp) s
  have high (a b : Str) : Writes w s (a ++ b ++ "-high".toList)
      (write w [.text a, .arg (str b), .text "-high".toList] s) :=
    writes_pieces (.cons (.text _) (.cons (means_str w b) (.cons (.text _) .nil))) (by simp) s
  have two (a b c d : Str) : Writes w s (a ++ b ++ c ++ d)
      (write w [.text a, .arg (str b), .text c, .arg (str d)] s) :=
    writes_pieces (.cons (.text _) (.cons (means_str w b) (.cons (.text _) (.cons (means_str w d) .nil))))
      (by simp) s
  cases c with
  | HighCard r => exact one _ _
  | Pair r => exact one _ _
  | TwoPair r r' => exact two _ _ _ _
  | ThreeOfAKind r => exact one _ _
  | Straight r => exact high _ _
  | Flush r => exact high _ _
  | FullHouse r r' => exact two _ _ _ _
  | FourOfAKind r => exact one _ _
  | StraightFlush r =>
    cases r
    case Ace => exact lone _
    all_goals exact high _ _

/-- C77: so is an evaluation. -/
theorem c77_eval {σ : Type} (e : Eval) (o : Options) (w : Sink σ) (s : σ) :
    Writes w s e.display (e.fmt o w s) := c77_class _ o w s

/-- C77: so is the error of a text that is no card. -/
theorem c77_parse_error {σ : Type} (e : ParseCardError) (o : Options) (w : Sink σ) (s : σ) :
    Writes w s e.display (e.fmt o w s) := by
  have number (a b c d : Str) (n : Nat) : Writes w s (a ++ b ++ c ++ natStr n ++ d)
      (write w [.text a, .arg (str b), .text c, .arg (usize n), .text d] s) :=
    writes_pieces (.cons (.text _) (.cons (means_str w _) (.cons (.text _) (.cons (means_usize w _)
      (.cons (.text _) .nil))))) (by simp) s
  have letter (a b c d : Str) (x : Char) : Writes w s (a ++ b ++ c ++ [x] ++ d)
      (write w [.text a, .arg (str b), .text c, .arg (char x), .text d] s) :=
    writes_pieces (.cons (.text _) (.cons (means_str w _) (.cons (.text _) (.cons (means_char w _)
      (.cons (.text _) .nil))))) (by simp) s
  cases e with
  | InvalidLength i => exact number _ _ _ _ _
  | InvalidRank i c => exact letter _ _ _ _ _
  | InvalidSuit i c => exact letter _ _ _ _ _

/-- C77: so is the error of cards that are no hand. -/
theorem c77_eval_error {σ : Type} (order : List (Card × Nat) → List (Card × Nat)) (e : EvalError) (o : Options)
    (w : Sink σ) (s : σ) : Writes w s (e.display order) (e.fmt order o w s) := by
  have text (a b : Str) : Writes w s (a ++ b) (write w [.text a, .arg (str b)] s) :=
    writes_pieces (.cons (.text _) (.cons (means_str w b) .nil)) (by simp) s
  have number (a : Str) (n : Nat) : Writes w s (a ++ natStr n) (write w [.text a, .arg (usize n)] s) :=
    writes_pieces (.cons (.text _) (.cons (means_usize w n) .nil)) (by simp) s
  cases e with
  | CardsNotUnique cs => exact text _ _
  | InvalidHandSize n => exact number _ _

theorem accepts_string {s s' : Str} {cs : List Call} (h : Accepts string s cs s') : s' = s ++ said cs := by
  induction h with
  | nil => simp [said]
  | @cons s s' s'' c cs h _ ih =>
    cases c <;> simp [Call.ask, string] at h <;> subst h <;> simp [ih, said, Call.text]

/-- A `String` gets the whole text. -/
theorem string_of_writes {t : Str} {s : Str} {r : Bool × Str} (h : Writes string s t r) : r = (true, s ++ t) := by
  rcases h with ⟨cs, s', rfl, h, rfl⟩ | ⟨cs, c, s', s'', _, _, h, _⟩
  · rw [accepts_string h]
  · cases c <;> simp [Call.ask, string] at h

theorem accepts_room {n : Nat} {s s' : Str} {cs : List Call} (h : Accepts (room n) s cs s') :
    s' = s ++ said cs ∧ (s.length ≤ n → s'.length ≤ n) := by
  induction h with
  | nil => simp [said]
  | @cons s s' s'' c cs h _ ih =>
    cases c with
    | str t =>
      simp only [Call.ask, room] at h
      split at h
      · simp only [Prod.mk.injEq, true_and] at h
        subst h
        refine ⟨by simp [ih.1, said, Call.text], fun _ => ih.2 (by simpa using by assumption)⟩
      · simp at h
    | char x =>
      simp only [Call.ask, room] at h
      split at h
      · simp only [Prod.mk.injEq, true_and] at h
        subst h
        refine ⟨by simp [ih.1, said, Call.text], fun _ => ih.2 (by simpa using by assumption)⟩
      · simp at h

/-- A buffer with room for `n` characters gets the whole text if it fits, and a beginning of it if not. -/
theorem room_of_writes {n : Nat} {t : Str} {r : Bool × Str} (h : Writes (room n) [] t r) :
    (r.1 = true ↔ t.length ≤ n) ∧ r.2 <+: t ∧ r.2.length ≤ n ∧ (r.1 = true → r.2 = t) := by
  rcases h with ⟨cs, s', rfl, h, rfl⟩ | ⟨cs, c, s', s'', rfl, h, hc, hp⟩
  · have := accepts_room h
    have hl := this.2 (by simp)
    simp only [List.nil_append] at this
    rw [this.1] at hl ⊢
    simp [hl]
  · obtain ⟨rfl, hl⟩ := accepts_room h
    simp only [List.nil_append] at hc hl
    rw [said_append] at hp
    have : s'' = said cs ∧ n < (said cs ++ said [c]).length := by
      cases c with
      | str t =>
        simp only [Call.ask, room] at hc
        split at hc
        · simp at hc
        · simp only [Prod.mk.injEq, true_and] at hc
          exact ⟨hc.symm, by simp [said, Call.text] at *; omega⟩
      | char x =>
        simp only [Call.ask, room] at hc
        split at hc
        · simp at hc
        · simp only [Prod.mk.injEq, true_and] at hc
          exact ⟨hc.symm, by simp [said, Call.text] at *; omega⟩
    obtain ⟨rfl, hn⟩ := this
    refine ⟨by simpa using Nat.lt_of_lt_of_le hn hp.length_le, (List.prefix_append _ _).trans hp,
      hl (by simp), by simp⟩

/-- C77: `format!` of a rank, a suit or a card gives the same text for all options. -/
theorem c77_format_card (p : PCard) (o : Options) :
    format o p.1.fmt = (true, [rankChar p.1]) ∧ format o p.2.fmt = (true, [suitSymbol p.2]) ∧
      format o (Card.new p.1 p.2).fmt = (true, ['[', ' ', rankChar p.1, suitSymbol p.2, ' ', ']']) := by
  refine ⟨?_, ?_, ?_⟩
  · exact (string_of_writes (c77_rank p.1 o string [])).trans (by rcases p with ⟨r, x⟩; cases r <;> rfl)
  · exact (string_of_writes (c77_suit p.2 o string [])).trans (by rcases p with ⟨r, x⟩; cases x <;> rfl)
  · refine (string_of_writes (c77_card _ o string [])).trans ?_
    rw [(c35_display p p).1]
    rfl

/-- C77: and `format!` of the evaluation of a hand gives its name for all options. -/
theorem c77_format_hand (h : List PCard) (e : Eval) (he : evaluateHand h = .ok (.ok e)) (o : Options) :
    format o e.fmt = (true, Text.describe (className (bestWorth h))) := by
  rw [← c42_text h e he]
  exact string_of_writes (c77_eval e o string [])

/-- C77: and so for the errors. -/
theorem c77_format_error (o : Options) (e : ParseCardError) (order : List (Card × Nat) → List (Card × Nat))
    (e' : EvalError) :
    format o e.fmt = (true, e.display) ∧ format o (e'.fmt order) = (true, e'.display order) :=
  ⟨string_of_writes (c77_parse_error e o string []), string_of_writes (c77_eval_error order e' o string [])⟩

/-- C77: the name of a hand written to a buffer with room for `n` characters: no error exactly if it fits, and
otherwise the buffer holds the beginning. -/
theorem c77_room (h : List PCard) (e : Eval) (he : evaluateHand h = .ok (.ok e)) (o : Options) (n : Nat) :
    ((e.fmt o (room n) []).1 = true ↔ (Text.describe (className (bestWorth h))).length ≤ n) ∧
      (e.fmt o (room n) []).2 <+: Text.describe (className (bestWorth h)) ∧
      (e.fmt o (room n) []).2.length ≤ n ∧
      ((e.fmt o (room n) []).1 = true → (e.fmt o (room n) []).2 = Text.describe (className (bestWorth h))) := by
  rw [← c42_text h e he]
  exact room_of_writes (c77_eval e o (room n) [])

theorem writeMany_string (c : Char) : ∀ (n : Nat) (s : Str),
    writeMany string c n s = (true, s ++ List.replicate n c)
  | 0, s => by simp [writeMany]
  | n + 1, s => by
    simp only [writeMany, andThen, string]
    have := writeMany_string c n (s ++ [c])
    simp only [string] at this
    rw [this, List.append_assoc]
    rfl

/-- C77: texts, in contrast, are cut to the precision and filled up to the width, on the side that the
alignment leaves, by default on the right. -/
theorem c77_pad (t : Str) (o : Options) : ∃ a b,
    format o (str t) = (true, List.replicate a o.fill ++ t.take (o.precision.getD t.length) ++
      List.replicate b o.fill) ∧
    a + b = o.width.getD 0 - (t.take (o.precision.getD t.length)).length ∧
    (o.align = none ∨ o.align = some .Left → a = 0) ∧ (o.align = some .Right → b = 0) ∧
    (o.align = some .Center → a ≤ b ∧ b ≤ a + 1) := by
  have cut : truncated o t = t.take (o.precision.getD t.length) := by
    unfold truncated
    cases o.precision <;> simp
  by_cases h : (o.width.isNone && o.precision.isNone) = true
  · refine ⟨0, 0, ?_⟩
    simp only [Bool.and_eq_true, Option.isNone_iff_eq_none] at h
    simp [format, str, pad, h, string]
  · unfold format str pad
    rw [if_neg h]
    simp only [cut]
    generalize t.take (o.precision.getD t.length) = u
    cases hw : o.width with
    | none => exact ⟨0, 0, by simp [string]⟩
    | some n =>
      by_cases hn : n ≤ u.length
      · exact ⟨0, 0, by simp [hn, string]⟩
      · simp only [if_neg hn]
        have main (a b : Nat) : andThen (writeMany string o.fill a)
            (andThen (string.write_str u) (writeMany string o.fill b)) [] =
            (true, List.replicate a o.fill ++ u ++ List.replicate b o.fill) := by
          simp only [andThen, writeMany_string]
          simp only [string, List.nil_append]
        refine ⟨(padding o (n - u.length) .Left).1, (padding o (n - u.length) .Left).2, main _ _, ?_⟩
        unfold padding
        rcases ho : o.align with _ | _ | _ | _ <;> simp
        omega

/-- C77: a character is treated like the text that it makes. -/
theorem c77_char (c : Char) (o : Options) : format o (char c) = format o (str [c]) := by
  unfold format char str
  split
  · rename_i h
    simp only [pad, if_pos h, string]
  · rfl

/-- C77: so the column that `{:>n}` makes of texts it does not make of cards; it takes the text of the card
first. -/
theorem c77_columns (p : PCard) (n : Nat) (hn : 6 ≤ n) :
    ∃ t u, format { align := some .Right, width := some n } (Card.new p.1 p.2).fmt = (true, t) ∧
      t.length = 6 ∧
      format { align := some .Right, width := some n } (str t) = (true, u) ∧ u.length = n ∧ t <:+ u := by
  obtain ⟨a, b, h, hab, _, hb, _⟩ := c77_pad ['[', ' ', rankChar p.1, suitSymbol p.2, ' ', ']']
    { align := some .Right, width := some n }
  have hb := hb rfl
  subst hb
  refine ⟨_, _, (c77_format_card p _).2.2, rfl, h, ?_, ?_⟩
  · simp at hab ⊢
    omega
  · simp

/-- The name of the royal flush needs eleven characters. -/
example : ∃ e, evaluateHand royalHand = .ok (.ok e) ∧ (e.fmt {} (room 11) []).1 = true ∧
    (e.fmt {} (room 10) []).1 = false :=
  ⟨Eval.BEST, c08_best, by decide +kernel, by decide +kernel⟩

example : (Eval.WORST.fmt { width := some 40 } (room 15) []) = (false, "High card, ".toList) := by decide +kernel

example : format { align := some .Center, width := some 10, fill := '*' } (str "Ah".toList) =
    (true, "****Ah****".toList) := by decide +kernel

example : format { align := some .Center, width := some 10, fill := '*' } (Card.new .Ten .Clubs).fmt =
    (true, ['[', ' ', 'T', '♣', ' ', ']']) := by decide +kernel

end Poker.Format
