import Verif.Props.Cards
import Verif.Props.Errors
import Verif.Model.Repl

/-! # The REPL: C39 -/

namespace Poker
open Rules Tab Text

/-- The text of a card. -/
def cardText (c : PCard) : Str := [rankChar c.1, suitChar c.2]

/-- `Answers order line t`: the text `t` is the right answer to a line of cards.  The words of the line
are read from left to right; the first word that is not a card is complained about; otherwise the
cards are judged. -/
inductive Answers (order : List (Card × Nat) → List (Card × Nat)) (line : Str) : Str → Prop
  /-- a word is not a card, and all words before it are -/
  | badWord (good : List PCard) (w : Str) (rest : List Str) (e : ParseCardError) :
      Words (good.map cardText ++ w :: rest) line → (∀ c : PCard, w ≠ cardText c) →
      Card.from_str w = .error e → Answers order line e.display
  /-- all words are cards, but they cannot be judged -/
  | refused (h : List PCard) (e : EvalError) : Words (h.map cardText) line →
      (¬ h.Nodup ∨ h.length < 5) → evaluateHand h = .ok (.error e) →
      Answers order line (e.display order)
  /-- five or more different cards: the class of the best hand -/
  | judged (h : List PCard) (e : Eval) : Words (h.map cardText) line → h.Nodup → 5 ≤ h.length →
      evaluateHand h = .ok (.ok e) → Answers order line e.class'.display

theorem from_str_cardText (c : PCard) : Card.from_str (cardText c) = .ok (Card.new c.1 c.2) := by
  have := c15_roundtrip c.1 c.2
  rw [this.2] at this
  exact this.1

theorem parse_words (ws : List Str) :
    (∃ h : List PCard, ws = h.map cardText ∧ try_collect (ws.map Card.from_str) = .ok (deal h)) ∨
    ∃ (good : List PCard) (w : Str) (rest : List Str) (e : ParseCardError),
      ws = good.map cardText ++ w :: rest ∧ (∀ c : PCard, w ≠ cardText c) ∧
      Card.from_str w = .error e ∧ try_collect (ws.map Card.from_str) = .error e := by
  induction ws with
  | nil => exact .inl ⟨[], rfl, rfl⟩
  | cons w ws ih =>
    cases hw : Card.from_str w with
    | error e =>
      refine .inr ⟨[], w, ws, e, rfl, ?_, hw, ?_⟩
      · rintro c rfl
        rw [from_str_cardText] at hw
        exact absurd hw (by simp)
      · rw [List.map_cons, hw]
        rfl
    | ok c =>
      obtain ⟨ht, r, s, rfl⟩ := c15_unique w c hw
      have ht' : w = cardText (r, s) := by rw [ht, (c15_roundtrip r s).2]; rfl
      rcases ih with ⟨h, rfl, hc⟩ | ⟨good, v, rest, e, rfl, hv, he, hc⟩
      · refine .inl ⟨(r, s) :: h, by rw [ht']; rfl, ?_⟩
        rw [List.map_cons, hw]
        simp only [try_collect, hc]
        rfl
      · refine .inr ⟨(r, s) :: good, v, rest, e, by rw [ht']; rfl, hv, he, ?_⟩
        rw [List.map_cons, hw]
        simp only [try_collect, hc]

/-- C39: the answer to every line of cards is right, and there is one: nothing panics. -/
theorem c39_answer (ev : Evaluator) (hev : Evaluator.new = .ok ev)
    (order : List (Card × Nat) → List (Card × Nat)) (line : Str) :
    ∃ t, Repl.answer ev order line = .ok t ∧ Answers order line t := by
  have hw : Words (split_whitespace line) line := ((c19_words line _).1).2 rfl
  have hcs := (c19_words line _).2 hw
  have hevh : ∀ h, ev.evaluate (deal h) = evaluateHand h := by
    intro h
    rw [evaluateHand, hev, Comb.bind_ok]
  rw [Repl.answer, hcs]
  rcases parse_words (split_whitespace line) with ⟨h, hws, hc⟩ | ⟨good, w, rest, e, hws, hne, he, hc⟩
  · rw [hc]
    simp only [hevh]
    rw [hws] at hw
    rcases c04_outcome h with ⟨hn, ho⟩ | ⟨hn, h5, ho⟩ | ⟨hn, h5, e, ho⟩
    · rw [ho, Comb.bind_ok]
      exact ⟨_, rfl, .refused h _ hw (.inl hn) ho⟩
    · rw [ho, Comb.bind_ok]
      exact ⟨_, rfl, .refused h _ hw (.inr h5) ho⟩
    · rw [ho, Comb.bind_ok]
      exact ⟨_, rfl, .judged h e hw hn h5 ho⟩
  · rw [hc]
    rw [hws] at hw
    exact ⟨_, rfl, .badWord good w rest e hw hne he⟩

example : ∃ t, Repl.answer theEvaluator id "Ah x 5c".toList = .ok t ∧ Answers id "Ah x 5c".toList t :=
  c39_answer _ evaluator_new _ _

theorem words_unique {s : Str} {ws ws' : List Str} (h : Words ws s) (h' : Words ws' s) : ws = ws' :=
  ((c19_words s ws).1.1 h).symm.trans ((c19_words s ws').1.1 h')

theorem cardText_inj {a b : PCard} (h : cardText a = cardText b) : a = b := by
  have h1 := from_str_cardText a
  rw [h, from_str_cardText b, Except.ok.injEq] at h1
  exact (card_inj h1).symm

theorem map_cardText_inj {h h' : List PCard} (he : h.map cardText = h'.map cardText) : h = h' :=
  List.map_injective_iff.2 (fun _ _ h => cardText_inj h) he

theorem first_bad {good good' : List PCard} {w w' : Str} {rest rest' : List Str}
    (he : good.map cardText ++ w :: rest = good'.map cardText ++ w' :: rest')
    (hw : ∀ c : PCard, w ≠ cardText c) (hw' : ∀ c : PCard, w' ≠ cardText c) : w = w' := by
  induction good generalizing good' with
  | nil =>
    cases good' with
    | nil => exact (List.cons.inj he).1
    | cons c good' => exact absurd (List.cons.inj he).1 (hw c)
  | cons c good ih =>
    cases good' with
    | nil => exact absurd (List.cons.inj he).1.symm (hw' c)
    | cons c' good' => exact ih (List.cons.inj he).2

theorem bad_not_all {good h : List PCard} {w : Str} {rest : List Str}
    (he : good.map cardText ++ w :: rest = h.map cardText) (hw : ∀ c : PCard, w ≠ cardText c) :
    False := by
  have : w ∈ h.map cardText := by rw [← he]; simp
  obtain ⟨c, -, rfl⟩ := List.mem_map.1 this
  exact hw c rfl

/-- C39: a line has only one right answer. -/
theorem c39_unique (order : List (Card × Nat) → List (Card × Nat)) (line t t' : Str)
    (h : Answers order line t) (h' : Answers order line t') : t = t' := by
  cases h with
  | badWord good w rest e hw hne he =>
    cases h' with
    | badWord good' w' rest' e' hw' hne' he' =>
      have := first_bad (words_unique hw hw') hne hne'
      subst this
      rw [he, Except.error.injEq] at he'
      rw [he']
    | refused h e' hw' _ _ => exact (bad_not_all (words_unique hw hw') hne).elim
    | judged h e' hw' _ _ _ => exact (bad_not_all (words_unique hw hw') hne).elim
  | refused h e hw hb he =>
    cases h' with
    | badWord good' w' rest' e' hw' hne' he' =>
      exact (bad_not_all (words_unique hw' hw) hne').elim
    | refused h2 e' hw' _ he' =>
      have := map_cardText_inj (words_unique hw hw')
      subst this
      rw [he, Except.ok.injEq, Except.error.injEq] at he'
      rw [he']
    | judged h2 e' hw' _ _ he' =>
      have := map_cardText_inj (words_unique hw hw')
      subst this
      rw [he] at he'
      simp at he'
  | judged h e hw _ _ he =>
    cases h' with
    | badWord good' w' rest' e' hw' hne' he' =>
      exact (bad_not_all (words_unique hw' hw) hne').elim
    | refused h2 e' hw' _ he' =>
      have := map_cardText_inj (words_unique hw hw')
      subst this
      rw [he] at he'
      simp at he'
    | judged h2 e' hw' _ _ he' =>
      have := map_cardText_inj (words_unique hw hw')
      subst this
      rw [he, Except.ok.injEq, Except.ok.injEq] at he'
      rw [he']

example (t : Str) (h : Answers id "Ah x 5c".toList t) :
    Repl.answer theEvaluator id "Ah x 5c".toList = .ok t := by
  obtain ⟨t', ht, h'⟩ := c39_answer _ evaluator_new id "Ah x 5c".toList
  rw [ht, c39_unique _ _ _ _ h h']

/-- The transcript of a session: the texts printed for a history of inputs. -/
inductive Transcript : List Repl.Input → Repl.State → List Str → Prop
  /-- no more input so far -/
  | waiting : Transcript [] .reading []
  /-- reading fails: the session ends, whatever would follow -/
  | failed (i : Repl.Input) (is : List Repl.Input) : i.line = none → Transcript (i :: is) .ended []
  | quit (i : Repl.Input) (is : List Repl.Input) : i.line = some "quit".toList →
      Transcript (i :: is) .ended []
  | help (i : Repl.Input) (is : List Repl.Input) (s : Repl.State) (out : List Str) :
      i.line = some "help".toList → Transcript is s out → Transcript (i :: is) s (Repl.HELP :: out)
  | cards (i : Repl.Input) (is : List Repl.Input) (line t : Str) (s : Repl.State) (out : List Str) :
      i.line = some line → line ≠ "quit".toList → line ≠ "help".toList → Answers i.order line t →
      Transcript is s out → Transcript (i :: is) s (t :: out)

theorem run_ended (ev : Evaluator) (is : List Repl.Input) :
    Repl.run ev is .ended = .ok (.ended, []) := by
  induction is with
  | nil => rfl
  | cons i is ih =>
    rw [Repl.run, Repl.step, Comb.bind_ok]
    simp only
    rw [ih]
    rfl

/-- C39: every session runs by these rules, for any number of lines, and does not panic (adding to the
history in memory does not fail). -/
theorem c39_session (inputs : List Repl.Input) (hh : ∀ i ∈ inputs, i.historyOk = true) :
    ∃ s out, Repl.main inputs = .ok (s, out) ∧ Transcript inputs s out := by
  obtain ⟨ev, hev⟩ := c36_new_ok
  rw [Repl.main, hev, Comb.bind_ok]
  induction inputs with
  | nil => exact ⟨_, _, rfl, .waiting⟩
  | cons i is ih =>
    obtain ⟨s, out, hr, ht⟩ := ih (fun j hj => hh j (by simp [hj]))
    have hi := hh i (by simp)
    rw [Repl.run, Repl.step]
    cases hline : i.line with
    | none =>
      simp only [Comb.bind_ok]
      rw [run_ended]
      exact ⟨_, _, rfl, .failed i is hline⟩
    | some line =>
      simp only [hi, if_true]
      by_cases hhelp : line = "help".toList
      · rw [if_pos hhelp, Comb.bind_ok]
        simp only
        rw [hr]
        exact ⟨_, _, rfl, .help i is s out (by rw [hline, hhelp]) ht⟩
      · rw [if_neg hhelp]
        by_cases hquit : line = "quit".toList
        · rw [if_pos hquit, Comb.bind_ok]
          simp only
          rw [run_ended]
          exact ⟨_, _, rfl, .quit i is (by rw [hline, hquit])⟩
        · rw [if_neg hquit]
          obtain ⟨t, h1, h2⟩ := c39_answer ev hev i.order line
          rw [h1]
          simp only [Comb.bind_ok, Comb.pure_eq_ok]
          rw [hr]
          exact ⟨_, _, rfl, .cards i is line t s out hline hquit hhelp h2 ht⟩

/-- Each kind of answer occurs: a bad word after a good one, too few cards, a full house. -/
example : Words ([(.Ace, .Hearts)].map cardText ++ ['x'] :: [['5', 'c']]) "Ah x 5c".toList ∧
    Card.from_str ['x'] = .error (.InvalidLength ['x']) ∧
    Words ([(.Ace, .Hearts)].map cardText) " Ah".toList ∧
    Words (fullHouseHand.map cardText)
      ([' '].intercalate (fullHouseHand.map cardText)) := by
  refine ⟨((c19_words _ _).1).2 ?_, by decide, ((c19_words _ _).1).2 ?_, ((c19_words _ _).1).2 ?_⟩ <;>
    decide

end Poker
