import Verif.Props.Rounds
import Verif.Props.Repl
import Verif.Props.Categories
import Verif.Proofs.Debug
import Verif.Spec.Screen

/-! # What is seen on the screen: C52 -/

namespace Poker
open Rules Tab Text Screen

/-! ## The game -/

theorem look_enter (t : Str) : look ("Enter ".toList ++ t) = good := by
  have : cheerful ("Enter ".toList ++ t) = true := rfl
  rw [look, if_pos this]
  rfl

theorem look_wager (c : Nat) : look (Game.wagerMessage c) = good := look_enter _

theorem look_swaps : look Game.swapsMessage = good := look_enter _

theorem look_plain {t : Str} (h : ∀ c, t.head? = some c → c ∉ ['E', 'W', 'Y', 'G']) : look t = {} := by
  cases t with
  | nil => decide
  | cons c t =>
    have h1 := h c rfl
    simp only [List.mem_cons, List.not_mem_nil, or_false, not_or] at h1
    have hs : ∀ (a : Char) (l : List Char), a ≠ c → (a :: l).isPrefixOf (c :: t) = false := by
      intro a l hac
      rw [List.isPrefixOf, beq_false_of_ne hac]
      rfl
    have h2 : cheerful (c :: t) = false := by
      unfold cheerful starts
      rw [show "Enter ".toList = 'E' :: "nter ".toList from rfl,
        show "Welcome ".toList = 'W' :: "elcome ".toList from rfl,
        show "You got a better".toList = 'Y' :: "ou got a better".toList from rfl,
        show "Winnings: ".toList = 'W' :: "innings: ".toList from rfl,
        hs _ _ (Ne.symm h1.1), hs _ _ (Ne.symm h1.2.1), hs _ _ (Ne.symm h1.2.2.1),
        hs _ _ (Ne.symm h1.2.1)]
      rfl
    have h3 : gloomy (c :: t) = false := by
      unfold gloomy starts
      rw [show "You got a worse".toList = 'Y' :: "ou got a worse".toList from rfl,
        show "Game over".toList = 'G' :: "ame over".toList from rfl,
        show "Winnings: 0".toList = 'W' :: "innings: 0".toList from rfl,
        hs _ _ (Ne.symm h1.2.2.1), hs _ _ (Ne.symm h1.2.2.2)]
      simp [h1.2.1]
    rw [look, h2, h3]
    rfl

theorem look_error (t : Str) : look ("Error".toList ++ t) = {} := by
  have h1 : cheerful ("Error".toList ++ t) = false := by
    unfold cheerful starts
    rfl
  have h2 : gloomy ("Error".toList ++ t) = false := by
    unfold gloomy starts
    rfl
  rw [look, h1, h2]
  rfl

theorem look_winnings (n : Nat) :
    look ("Winnings: ".toList ++ natStr n) = if n > 0 then good else bad := by
  have h0 : "Winnings: ".toList ++ natStr n = "Winnings: 0".toList ↔ n = 0 := by
    constructor
    · intro h
      have h : "Winnings: ".toList ++ natStr n = "Winnings: ".toList ++ natStr 0 := h
      exact Dbg.natStr_inj (List.append_cancel_left h)
    · rintro rfl
      rfl
  by_cases hn : n = 0
  · subst hn
    decide
  · have : cheerful ("Winnings: ".toList ++ natStr n) = true := by
      unfold cheerful
      rw [show ("Winnings: ".toList ++ natStr n != "Winnings: 0".toList) = true from by
        rw [bne_iff_ne]; exact fun h => hn (h0.1 h)]
      rfl
    rw [look, if_pos this, if_pos (by omega)]
    rfl

theorem not_legend {t : Str} {c : Char} (h : t.head? = some c) (hc : c ≠ ' ') : t ≠ legend := by
  rintro rfl
  exact hc (Option.some.inj h).symm

theorem dress_cons {t : Str} {ts : List Str} (h : ts.head? ≠ some legend) :
    dress (t :: ts) = .line (look t) t :: dress ts := by
  rw [dress, if_neg h]
  rfl

theorem dress_append {a b : List Str} (h : b.head? ≠ some legend) :
    dress (a ++ b) = dress a ++ dress b := by
  induction a with
  | nil => rfl
  | cons t a ih =>
    rw [List.cons_append, dress, ih, dress]
    have : (a ++ b).head? = some legend ↔ a.head? = some legend := by
      cases a with
      | nil => simp [h]
      | cons x a => simp
    by_cases h' : a.head? = some legend
    · rw [if_pos h', if_pos (this.2 h')]
      simp
    · rw [if_neg h', if_neg (fun hc => h' (this.1 hc))]
      simp

theorem handLine_head {hand : List Card} {e : Eval} {t : Str} (h : Game.handLine hand e = .ok t) :
    t.head? = some '[' := by
  unfold Game.handLine at h
  cases h0 : idx hand 0 with
  | error x => rw [h0] at h; cases h
  | ok c0 =>
    rw [h0, Comb.bind_ok] at h
    cases h1 : idx hand 1 with
    | error x => rw [h1] at h; cases h
    | ok c1 =>
      rw [h1, Comb.bind_ok] at h
      cases h2 : idx hand 2 with
      | error x => rw [h2] at h; cases h
      | ok c2 =>
        rw [h2, Comb.bind_ok] at h
        cases h3 : idx hand 3 with
        | error x => rw [h3] at h; cases h
        | ok c3 =>
          rw [h3, Comb.bind_ok] at h
          cases h4 : idx hand 4 with
          | error x => rw [h4] at h; cases h
          | ok c4 =>
            rw [h4, Comb.bind_ok] at h
            cases h
            rfl

theorem again_wager {c : Nat} {line : Option Str} {m : Str} (h : Game.get_wager c line = .again m) :
    look m = {} ∧ m ≠ legend := by
  have fin : ∀ c, m.head? = some c → c ∉ ['E', 'W', 'Y', 'G'] → c ≠ ' ' → look m = {} ∧ m ≠ legend :=
    fun c h1 h2 h3 => ⟨look_plain (fun d hd => by rw [h1] at hd; cases hd; exact h2), not_legend h1 h3⟩
  unfold Game.get_wager at h
  split at h
  · cases h
  · split at h
    · cases h
    · split at h
      · cases h
        exact fin 'I' rfl (by decide) (by decide)
      · split at h
        · cases h
          exact fin 'S' rfl (by decide) (by decide)
        · split at h
          · cases h
            exact fin 'I' rfl (by decide) (by decide)
          · split at h
            · cases h
              exact fin 'N' rfl (by decide) (by decide)
            · cases h

theorem again_swaps {order : List (Nat × Nat) → List (Nat × Nat)} {line : Option Str} {m : Str}
    (h : Game.get_swaps order line = .ok (.again m)) : look m = {} ∧ m ≠ legend := by
  unfold Game.get_swaps at h
  split at h
  · cases h
  · split at h
    · cases h
    · split at h
      · cases h
        exact ⟨look_error _, not_legend (c := 'E') rfl (by decide)⟩
      · split at h
        · cases h
          exact ⟨look_error _, not_legend (c := 'E') rfl (by decide)⟩
        · split at h
          · cases h
            exact ⟨look_error _, not_legend (c := 'E') rfl (by decide)⟩
          · split at h
            · cases h
              exact ⟨look_plain (fun d hd => by cases hd; decide), not_legend (c := 'C') rfl (by decide)⟩
            · rename_i swaps _ _ _ _
              cases hm : swaps.mapM (fun x => usizeSub x 1) with
              | error x => rw [hm] at h; cases h
              | ok l => rw [hm] at h; cases h

/-- A result with the texts dressed. -/
def dressed (r : Exec (Poker.Game.State × List Str)) : Exec (Poker.Game.State × List Out) :=
  r.map (fun p => (p.1, dress p.2))

/-- The texts do not begin with the line of numbers. -/
def Apart (r : Exec (Poker.Game.State × List Str)) : Prop :=
  ∀ s out, r = .ok (s, out) → out.head? ≠ some legend

theorem afterWager_dressed (ev : Evaluator) (c w : Nat) (deck hand : List Card) :
    Screen.Game.afterWager ev c w deck hand = dressed (Poker.Game.afterWager ev c w deck hand) ∧
      Apart (Poker.Game.afterWager ev c w deck hand) := by
  unfold Screen.Game.afterWager Poker.Game.afterWager
  cases h1 : usizeSub c w with
  | error x => exact ⟨rfl, fun _ _ h => by cases h⟩
  | ok c' =>
    simp only [Comb.bind_ok]
    cases h2 : Poker.Game.drainFront 5 deck with
    | error x => exact ⟨rfl, fun _ _ h => by cases h⟩
    | ok p =>
      simp only [Comb.bind_ok]
      cases h3 : ev.evaluate (hand ++ p.1) with
      | error x => exact ⟨rfl, fun _ _ h => by cases h⟩
      | ok r =>
        simp only [Comb.bind_ok]
        cases h4 : Poker.Game.unwrap r with
        | error x => exact ⟨rfl, fun _ _ h => by cases h⟩
        | ok e =>
          simp only [Comb.bind_ok]
          cases h5 : Poker.Game.handLine (hand ++ p.1) e with
          | error x => exact ⟨rfl, fun _ _ h => by cases h⟩
          | ok t =>
            have ht := handLine_head h5
            constructor
            · show Except.ok _ = Except.ok _
              rw [Except.ok.injEq, Prod.mk.injEq]
              refine ⟨rfl, ?_⟩
              show _ = dress [t, legend, Poker.Game.swapsMessage]
              rw [dress, dress_cons (t := legend) (by decide), dress_cons (by decide),
                if_pos (show ([legend, Poker.Game.swapsMessage] : List Str).head? = some legend from rfl),
                look_plain (t := t) (fun d hd => by rw [ht] at hd; cases hd; decide), look_swaps]
              rfl
            · intro s out h
              cases h
              simpa using not_legend ht (by decide)

theorem afterSwaps_dressed (ev : Evaluator) (i : Poker.Game.Input) (c w : Nat) (e : Eval)
    (deck hand : List Card) (l : List Nat) :
    Screen.Game.afterSwaps ev i c w e deck hand l
        = dressed (Poker.Game.afterSwaps ev i c w e deck hand l) ∧
      Apart (Poker.Game.afterSwaps ev i c w e deck hand l) := by
  unfold Screen.Game.afterSwaps Poker.Game.afterSwaps
  cases h1 : Poker.Game.replace i.drawSwap l deck hand with
  | error x => exact ⟨rfl, fun _ _ h => by cases h⟩
  | ok p =>
    simp only [Comb.bind_ok]
    cases h3 : ev.evaluate p.2 with
    | error x => exact ⟨rfl, fun _ _ h => by cases h⟩
    | ok r =>
      simp only [Comb.bind_ok]
      cases h4 : Poker.Game.unwrap r with
      | error x => exact ⟨rfl, fun _ _ h => by cases h⟩
      | ok e' =>
        simp only [Comb.bind_ok]
        cases h5 : Poker.Game.handLine p.2 e' with
        | error x => exact ⟨rfl, fun _ _ h => by cases h⟩
        | ok t =>
          simp only [Comb.bind_ok]
          cases h6 : Poker.Game.payout w e'.class' with
          | error x => exact ⟨rfl, fun _ _ h => by cases h⟩
          | ok z =>
            simp only [Comb.bind_ok]
            cases h7 : Poker.Game.collect c w z with
            | error x => exact ⟨rfl, fun _ _ h => by cases h⟩
            | ok c' =>
              simp only [Comb.bind_ok]
              have ht := handLine_head h5
              have hlook := look_plain (t := t) (fun d hd => by rw [ht] at hd; cases hd; decide)
              have hw : ∀ u, (("Winnings: ".toList ++ natStr z) :: u).head? ≠ some legend := fun u => by
                rw [List.head?_cons, ne_eq, Option.some.injEq]
                exact not_legend (c := 'W') rfl (by decide)
              have hpre : ∀ u : List Str, u.head? ≠ some legend → dress (t :: Poker.Game.compared e'.class' e.class'
                    ++ ["Winnings: ".toList ++ natStr z] ++ u)
                  = Screen.plain t :: Screen.Game.compared e'.class' e.class' ++ [Screen.Game.winningsLine z]
                    ++ dress u := by
                intro u hu
                have hone : ∀ x : Str, dress [x] = [.line (look x) x] := fun x => rfl
                rw [dress_append hu, dress_append (hw []), hone, look_winnings]
                refine congrArg (· ++ _) (congrArg (· ++ _) ?_)
                unfold Poker.Game.compared Screen.Game.compared
                cases e'.class'.cmp e.class' with
                | lt => rw [dress_cons (by decide), hlook, hone]; rfl
                | eq => rw [hone, hlook]; rfl
                | gt => rw [dress_cons (by decide), hlook, hone]; rfl
              have hhead : ∀ u : List Str, (t :: Poker.Game.compared e'.class' e.class'
                    ++ ["Winnings: ".toList ++ natStr z] ++ u).head? ≠ some legend := fun u => by
                simpa using not_legend ht (by decide)
              by_cases hc : c' = 0
              · rw [if_pos hc, if_pos hc]
                refine ⟨?_, fun _ _ h => by cases h; exact hhead _⟩
                show Except.ok _ = Except.ok _
                dsimp only
                rw [hpre ["Game over!".toList] (by decide)]
                rfl
              · rw [if_neg hc, if_neg hc]
                cases h8 : Deck.shuffle i.drawRound (p.1 ++ p.2) with
                | error x => exact ⟨rfl, fun _ _ h => by cases h⟩
                | ok deck' =>
                  refine ⟨?_, fun _ _ h => by cases h; exact hhead _⟩
                  show Except.ok _ = Except.ok _
                  dsimp only
                  have hm : ([Poker.Game.wagerMessage c'] : List Str).head? ≠ some legend := by
                    rw [List.head?_cons, ne_eq, Option.some.injEq]
                    exact not_legend (c := 'E') rfl (by decide)
                  rw [hpre [[], Poker.Game.wagerMessage c'] (by rw [List.head?_cons]; decide),
                    dress_cons (ts := [_]) hm, dress_cons (by decide), look_wager]
                  rfl

theorem step_dressed (ev : Evaluator) (i : Poker.Game.Input) (s : Poker.Game.State) :
    Screen.Game.step ev i s = dressed (Poker.Game.step ev i s) ∧ Apart (Poker.Game.step ev i s) := by
  cases s with
  | quit c deck hand => exact ⟨rfl, fun _ _ h => by cases h; simp⟩
  | over c deck hand => exact ⟨rfl, fun _ _ h => by cases h; simp⟩
  | wager c deck hand =>
    rw [Screen.Game.step, Poker.Game.step]
    cases hg : Poker.Game.get_wager c i.line with
    | quit => exact ⟨rfl, fun _ _ h => by cases h; simp⟩
    | accept w => exact afterWager_dressed ev c w deck hand
    | again m =>
      obtain ⟨h1, h2⟩ := again_wager hg
      have hm : ([Poker.Game.wagerMessage c] : List Str).head? ≠ some legend := by
        rw [List.head?_cons, ne_eq, Option.some.injEq]
        exact not_legend (c := 'E') rfl (by decide)
      refine ⟨?_, fun _ _ h => by cases h; simpa using h2⟩
      show Except.ok _ = Except.ok _
      dsimp only
      rw [dress_cons hm, dress_cons (by decide), h1, look_wager]
      rfl
  | swaps c w e deck hand =>
    rw [Screen.Game.step, Poker.Game.step]
    cases hg : Poker.Game.get_swaps i.order i.line with
    | error x => exact ⟨rfl, fun _ _ h => by cases h⟩
    | ok a =>
      rw [Comb.bind_ok, Comb.bind_ok]
      cases a with
      | quit => exact ⟨rfl, fun _ _ h => by cases h; simp⟩
      | accept l => exact afterSwaps_dressed ev i c w e deck hand l
      | again m =>
        obtain ⟨h1, h2⟩ := again_swaps hg
        refine ⟨?_, fun _ _ h => by cases h; simpa using h2⟩
        show Except.ok _ = Except.ok _
        dsimp only
        have hm : ([Poker.Game.swapsMessage] : List Str).head? ≠ some legend := by decide
        rw [dress_cons hm, dress_cons (by decide), h1, look_swaps]
        rfl

theorem run_dressed (ev : Evaluator) (is : List Poker.Game.Input) (s : Poker.Game.State) :
    Screen.Game.run ev is s = dressed (Poker.Game.run ev is s) ∧ Apart (Poker.Game.run ev is s) := by
  induction is generalizing s with
  | nil => exact ⟨rfl, fun _ _ h => by cases h; simp⟩
  | cons i is ih =>
    obtain ⟨h1, h2⟩ := step_dressed ev i s
    rw [Screen.Game.run, Poker.Game.run, h1]
    cases hs : Poker.Game.step ev i s with
    | error x => exact ⟨rfl, fun _ _ h => by cases h⟩
    | ok p =>
      obtain ⟨t, out⟩ := p
      obtain ⟨h3, h4⟩ := ih t
      have e1 : dressed (.ok (t, out)) = .ok (t, dress out) := rfl
      rw [e1, Comb.bind_ok, Comb.bind_ok]
      simp only [h3]
      cases hr : Poker.Game.run ev is t with
      | error x => exact ⟨rfl, fun _ _ h => by cases h⟩
      | ok q =>
        obtain ⟨u, out'⟩ := q
        have ho' := h4 u out' hr
        constructor
        · show Except.ok _ = Except.ok _
          dsimp only
          rw [dress_append ho']
        · intro s' o h
          cases h
          cases out with
          | nil => exact ho'
          | cons x out => simpa using h2 t _ hs

/-- C52: the screen of a whole game, for every history: cleared at the start, then the welcome and the
texts of C43, each in its style and each new hand on a cleared screen. -/
theorem c52_game (draw : Nat → Nat) (inputs : List Poker.Game.Input) :
    Screen.Game.main true draw inputs = (Poker.Game.main draw inputs).map (fun p =>
      (p.1, Out.clear :: dress (Screen.Game.WELCOME :: p.2))) := by
  unfold Screen.Game.main Poker.Game.main Screen.Game.start Poker.Game.start
  cases hev : Evaluator.new with
  | error x => rfl
  | ok ev =>
    simp only [Comb.bind_ok, if_true]
    cases hd : Deck.shuffled_with draw with
    | error x => rfl
    | ok deck =>
      simp only [Comb.bind_ok]
      obtain ⟨h1, h2⟩ := run_dressed ev inputs (.wager Poker.Game.STARTING_CREDITS deck [])
      have e : ∀ (a : Evaluator) (b : Poker.Game.State) {γ : Type} (c : γ),
          (pure (a, b, c) : Exec (Evaluator × Poker.Game.State × γ)) = .ok (a, b, c) := fun _ _ _ _ => rfl
      rw [e, e, Comb.bind_ok, Comb.bind_ok]
      simp only [h1]
      cases hr : Poker.Game.run ev inputs (.wager Poker.Game.STARTING_CREDITS deck []) with
      | error x => rfl
      | ok p =>
        obtain ⟨s, out⟩ := p
        have ho := h2 s out hr
        have hm : ([Poker.Game.wagerMessage Poker.Game.STARTING_CREDITS] : List Str).head?
            ≠ some legend := by decide
        show Except.ok _ = Except.ok _
        simp only
        rw [dress_cons (t := Screen.Game.WELCOME) (by simpa using hm), dress_append ho,
          dress_cons (by simp), look_wager]
        rfl

/-- The first screens of a game: the welcome, and after a wager the hand on a cleared screen. -/
example : dress [Screen.Game.WELCOME, "Enter a wager. (Credits: 100, max: 5)".toList,
      "[ A♠ ] ...".toList, legend, Poker.Game.swapsMessage] =
    [.line good Screen.Game.WELCOME, .line good "Enter a wager. (Credits: 100, max: 5)".toList,
      .clear, Screen.plain "[ A♠ ] ...".toList, Screen.plain legend, .line good Poker.Game.swapsMessage] := by
  decide

example : dress ["Winnings: 10".toList, "Winnings: 0".toList, "Game over!".toList] =
    [.line good "Winnings: 10".toList, .line bad "Winnings: 0".toList, .line bad "Game over!".toList] := by
  decide

/-! ## The REPL -/

theorem style_number (c : EvalClass) : Screen.Repl.style c = resultStyle (classNumber c) := by
  cases c <;> rfl

/-- C52: the answer to a line of cards has the text of C39, and its style tells the category of the
best hand among the cards; complaints are plain. -/
theorem c52_answer (ev : Evaluator) (hev : Evaluator.new = .ok ev)
    (order : List (Card × Nat) → List (Card × Nat)) (line : Str) :
    ∃ st t, Screen.Repl.answer ev order line = .ok (.line st t) ∧ Answers order line t ∧
      (∀ h : List PCard, Words (h.map cardText) line → h.Nodup → 5 ≤ h.length →
        st = resultStyle (category h)) ∧
      ((∀ h : List PCard, Words (h.map cardText) line → h.Nodup → ¬ 5 ≤ h.length) → st = {}) := by
  obtain ⟨t, ht, ha⟩ := c39_answer ev hev order line
  have hw : Words (split_whitespace line) line := ((c19_words line _).1).2 rfl
  have hcs := (c19_words line _).2 hw
  rw [Poker.Repl.answer, hcs] at ht
  rw [Screen.Repl.answer, hcs]
  have hevh : ∀ h, ev.evaluate (deal h) = evaluateHand h := by
    intro h
    rw [evaluateHand, hev, Comb.bind_ok]
  rcases parse_words (split_whitespace line) with ⟨h, hws, hc⟩ | ⟨good, w, rest, e, hws, hne, he, hc⟩
  · rw [hc] at ht ⊢
    rw [hws] at hw
    have huniq : ∀ h' : List PCard, Words (h'.map cardText) line → h' = h := fun h' h1 =>
      map_cardText_inj (words_unique h1 hw)
    simp only [hevh] at ht ⊢
    rcases c04_outcome h with ⟨hn, ho⟩ | ⟨hn, h5, ho⟩ | ⟨hn, h5, e, ho⟩
    · rw [ho, Comb.bind_ok] at ht ⊢
      cases ht
      exact ⟨_, _, rfl, ha, fun h' h1 h2 _ => absurd (huniq h' h1 ▸ h2) hn, fun _ => rfl⟩
    · rw [ho, Comb.bind_ok] at ht ⊢
      cases ht
      refine ⟨_, _, rfl, ha, fun h' h1 _ h3 => ?_, fun _ => rfl⟩
      rw [huniq h' h1] at h3
      omega
    · rw [ho, Comb.bind_ok] at ht ⊢
      cases ht
      refine ⟨_, _, rfl, ha, fun h' h1 _ _ => ?_, fun h1 => absurd h5 (h1 h hw hn)⟩
      rw [style_number, c31_class h e ho, huniq h' h1]
  · rw [hc] at ht ⊢
    cases ht
    rw [hws] at hw
    exact ⟨_, _, rfl, ha, fun h h1 _ _ => (bad_not_all (words_unique hw h1) hne).elim, fun _ => rfl⟩

example : ∃ st t, Screen.Repl.answer theEvaluator id "As Ks Qs Js Ts".toList = .ok (.line st t) ∧
    st = resultStyle 8 :=
  have ⟨st, t, h, _, hs, _⟩ := c52_answer _ evaluator_new id "As Ks Qs Js Ts".toList
  ⟨st, t, h, hs [(.Ace, .Spades), (.King, .Spades), (.Queen, .Spades), (.Jack, .Spades), (.Ten, .Spades)]
    (((c19_words _ _).1).2 (by decide)) (by decide) (by decide)⟩

/-- C52: results of different categories look different, but for pairs and two pairs. -/
theorem c52_alike (h h' : List PCard) :
    resultStyle (category h) = resultStyle (category h') ↔
      category h = category h' ∨ category h = 1 ∧ category h' = 2 ∨ category h = 2 ∧ category h' = 1 := by
  have h1 := Cat.category_le h
  have h2 := Cat.category_le h'
  generalize category h = a at *
  generalize category h' = b at *
  have key : ∀ a < 9, ∀ b < 9, resultStyle a = resultStyle b ↔
      a = b ∨ a = 1 ∧ b = 2 ∨ a = 2 ∧ b = 1 := by decide
  exact key a (by omega) b (by omega)

example : resultStyle (category wheelHand) ≠ resultStyle (category fullHouseHand) :=
  fun h => absurd ((c52_alike _ _).1 h) (by decide)

/-- The transcript of a session on the screen. -/
inductive Display : List Poker.Repl.Input → Poker.Repl.State → List Out → Prop
  | waiting : Display [] .reading []
  | failed (i : Poker.Repl.Input) (is : List Poker.Repl.Input) : i.line = none →
      Display (i :: is) .ended []
  | quit (i : Poker.Repl.Input) (is : List Poker.Repl.Input) : i.line = some "quit".toList →
      Display (i :: is) .ended []
  | help (i : Poker.Repl.Input) (is : List Poker.Repl.Input) (s : Poker.Repl.State) (out : List Out) :
      i.line = some "help".toList → Display is s out →
      Display (i :: is) s (.line ⟨some .BrightGreen, true, false, false⟩ Poker.Repl.HELP :: out)
  | result (i : Poker.Repl.Input) (is : List Poker.Repl.Input) (line t : Str) (h : List PCard)
      (s : Poker.Repl.State) (out : List Out) :
      i.line = some line → line ≠ "quit".toList → line ≠ "help".toList → Answers i.order line t →
      Words (h.map cardText) line → h.Nodup → 5 ≤ h.length → Display is s out →
      Display (i :: is) s (.line (resultStyle (category h)) t :: out)
  | complaint (i : Poker.Repl.Input) (is : List Poker.Repl.Input) (line t : Str)
      (s : Poker.Repl.State) (out : List Out) :
      i.line = some line → line ≠ "quit".toList → line ≠ "help".toList → Answers i.order line t →
      (∀ h : List PCard, Words (h.map cardText) line → h.Nodup → ¬ 5 ≤ h.length) → Display is s out →
      Display (i :: is) s (.line ⟨none, false, false, false⟩ t :: out)

theorem display_ended (ev : Evaluator) (is : List Poker.Repl.Input) :
    Screen.Repl.run ev is .ended = .ok (.ended, []) := by
  induction is with
  | nil => rfl
  | cons i is ih =>
    rw [Screen.Repl.run, Screen.Repl.step, Comb.bind_ok]
    simp only
    rw [ih]
    rfl

/-- C52: every session looks like this, for any number of lines. -/
theorem c52_session (inputs : List Poker.Repl.Input) (hh : ∀ i ∈ inputs, i.historyOk = true) :
    ∃ s out, Screen.Repl.main true inputs
        = .ok (s, .line ⟨some .BrightGreen, true, false, false⟩ Screen.Repl.WELCOME :: out) ∧
      Display inputs s out := by
  obtain ⟨ev, hev⟩ := c36_new_ok
  have key : ∃ s out, Screen.Repl.run ev inputs .reading = .ok (s, out) ∧ Display inputs s out := by
    induction inputs with
    | nil => exact ⟨_, _, rfl, .waiting⟩
    | cons i is ih =>
      obtain ⟨s, out, hr, ht⟩ := ih (fun j hj => hh j (by simp [hj]))
      have hi := hh i (by simp)
      rw [Screen.Repl.run, Screen.Repl.step]
      cases hline : i.line with
      | none =>
        simp only [Comb.bind_ok]
        rw [display_ended]
        exact ⟨_, _, rfl, .failed i is hline⟩
      | some line =>
        simp only [if_pos hi]
        by_cases hhelp : line = "help".toList
        · rw [if_pos hhelp, Comb.bind_ok]
          simp only [hr]
          exact ⟨_, _, rfl, .help i is s out (hhelp ▸ hline) ht⟩
        · rw [if_neg hhelp]
          by_cases hquit : line = "quit".toList
          · rw [if_pos hquit, Comb.bind_ok]
            simp only [display_ended]
            exact ⟨_, _, rfl, .quit i is (hquit ▸ hline)⟩
          · rw [if_neg hquit]
            obtain ⟨st, t, ha, hans, h1, h2⟩ := c52_answer ev hev i.order line
            rw [ha]
            simp only [Comb.bind_ok]
            refine ⟨s, .line st t :: out, ?_, ?_⟩
            · show (Screen.Repl.run ev is .reading >>= _) = _
              rw [hr]
              rfl
            · by_cases hex : ∃ h : List PCard, Words (h.map cardText) line ∧ h.Nodup ∧ 5 ≤ h.length
              · obtain ⟨h, e1, e2, e3⟩ := hex
                rw [h1 h e1 e2 e3]
                exact .result i is line t h s out hline hquit hhelp hans e1 e2 e3 ht
              · have hall : ∀ h : List PCard, Words (h.map cardText) line → h.Nodup → ¬ 5 ≤ h.length :=
                  fun h e1 e2 e3 => hex ⟨h, e1, e2, e3⟩
                rw [h2 hall]
                exact .complaint i is line t s out hline hquit hhelp hans hall ht
  obtain ⟨s, out, h1, h2⟩ := key
  refine ⟨s, out, ?_, h2⟩
  rw [Screen.Repl.main, hev, Comb.bind_ok]
  simp only [if_true, h1, Comb.bind_ok]
  rfl

example : Words ([((.Ace, .Spades) : PCard), (.King, .Spades), (.Queen, .Spades), (.Jack, .Spades),
      (.Ten, .Spades)].map cardText) "As Ks Qs Js Ts".toList ∧
    category [(.Ace, .Spades), (.King, .Spades), (.Queen, .Spades), (.Jack, .Spades), (.Ten, .Spades)] = 8 :=
  ⟨((c19_words _ _).1).2 (by decide), by decide⟩

end Poker
