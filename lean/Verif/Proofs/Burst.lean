import Verif.Props.Program

/-! What the game has put out when it panics. -/

namespace Poker.Program.Game
open Poker.Game (Input State wagerMessage swapsMessage)
open Screen Text

/-- The question at which the game waits. -/
def questionOf : State → List Out
  | .wager credits _ _ => [.line good (wagerMessage credits)]
  | .swaps _ _ _ _ _ => [.line good swapsMessage]
  | _ => []

/-- The program from the question of a state on, with fuel for the inner and for the outer loop. -/
def conf (fuel : Nat) (eval : Evaluator) (f n : Nat) : State → M Input Unit
  | .wager credits deck hand => loop (wagerTurn credits (wagerMessage credits)) f () >>= fun r =>
      wagered fuel eval deck credits hand r >>= again fuel eval n
  | .swaps credits wager first_eval deck hand => loop (swapsTurn swapsMessage) f () >>= fun r =>
      swapped eval deck credits hand wager first_eval r >>= again fuel eval n
  | _ => pure ()

theorem ok_of_bind {α β : Type} {x : Exec α} {f : α → Exec β} {b : β} (h : x >>= f = .ok b) :
    ∃ a, x = .ok a ∧ f a = .ok b := by
  cases x with
  | error p => cases h
  | ok a => exact ⟨a, rfl, h⟩

/-- One line that leads from one question to another. -/
theorem conf_step {fuel : Nat} {eval : Evaluator} {f n : Nat} {s t : State} {i : Input} {rest : List Input}
    {last : Option Input} {ev : List Event} {out : List Out} (hs : asking s = true) (hu : asking t = true)
    (hf : rest.length + 1 < f) (hn : rest.length + 1 ≤ n) (hfuel : rest.length < fuel)
    (h : Screen.Game.step eval i s = .ok (t, out)) :
    ∃ f' n' ev', rest.length < f' ∧ rest.length ≤ n' ∧
      conf fuel eval f n s ⟨i :: rest, last, ev⟩ = conf fuel eval f' n' t ⟨rest, some i, ev'⟩ ∧
      ev' ++ asked (questionOf t) = ev ++ asked (questionOf s) ++ asked out := by
  obtain ⟨f, rfl⟩ : ∃ k, f = k + 1 := ⟨f - 1, by omega⟩
  cases s with
  | quit => cases hs
  | over => cases hs
  | wager credits deck hand =>
    have ht := wagerTurn_eq credits i rest last ev
    rw [conf, questionOf, loop_succ, bind_assoc']
    rw [Screen.Game.step] at h
    cases ha : Poker.Game.get_wager credits i.line with
    | quit =>
      rw [ha] at h
      cases h
      contradiction
    | again t =>
      rw [ha] at h ht
      cases h
      refine ⟨f, n, _, by omega, by omega, bind_done ht, ?_⟩
      simp only [questionOf, ← asked_append, List.append_assoc]
      rfl
    | accept a =>
      rw [ha] at h ht
      simp only [Screen.Game.afterWager] at h
      obtain ⟨c, hc, h⟩ := ok_of_bind h
      obtain ⟨⟨drained, deck'⟩, hd, h⟩ := ok_of_bind h
      obtain ⟨e, he, h⟩ := ok_of_bind h
      obtain ⟨e', he', h⟩ := ok_of_bind h
      obtain ⟨t, ht', h⟩ := ok_of_bind h
      cases h
      refine ⟨fuel, n, ev ++ asked [.line good (wagerMessage credits)] ++
          [.out .clear] ++ [.out (.line {} t)] ++ [.out (.line {} Poker.Game.numbersLine)], hfuel, by omega,
        ?_, ?_⟩
      · rw [bind_done ht]
        simp only [pure_bind', wagered, bind_assoc']
        rw [hc, ok_bind, hd, ok_bind]
        simp only
        rw [he, ok_bind, he', ok_bind]
        simp only [clear_bind]
        rw [ht', ok_bind]
        simp only [println_bind]
        rfl
      · simp only [List.append_assoc]
        rfl
  | swaps credits wager first_eval deck hand =>
    obtain ⟨n, rfl⟩ : ∃ k, n = k + 1 := ⟨n - 1, by omega⟩
    have ht := swapsTurn_eq i rest last ev
    rw [conf, questionOf, loop_succ, bind_assoc']
    rw [Screen.Game.step] at h
    obtain ⟨ans, ha, h⟩ := ok_of_bind h
    rw [ha] at ht
    cases ans with
    | quit =>
      cases h
      contradiction
    | again t =>
      cases h
      refine ⟨f, n + 1, _, by omega, by omega, bind_done ht, ?_⟩
      simp only [questionOf, ← asked_append, List.append_assoc]
      rfl
    | accept swaps =>
      simp only [Screen.Game.afterSwaps] at h
      obtain ⟨⟨deck', hand'⟩, hd, h⟩ := ok_of_bind h
      obtain ⟨e, he, h⟩ := ok_of_bind h
      obtain ⟨e', he', h⟩ := ok_of_bind h
      obtain ⟨t, ht', h⟩ := ok_of_bind h
      obtain ⟨winnings, hw, h⟩ := ok_of_bind h
      obtain ⟨credits', hc, h⟩ := ok_of_bind h
      by_cases h0 : credits' = 0
      · rw [if_pos h0] at h
        cases h
        contradiction
      · rw [if_neg h0] at h
        obtain ⟨d, hd', h⟩ := ok_of_bind h
        cases h
        refine ⟨fuel, n, ev ++ asked [.line good swapsMessage] ++ [.out (.line {} t)] ++
              asked (Screen.Game.compared e'.class' first_eval.class') ++
              [.out (.line (if winnings > 0 then good else bad) ("Winnings: ".toList ++ natStr winnings))] ++
            [.out (.line {} [])], hfuel, by omega, ?_, ?_⟩
        · rw [bind_done ht]
          simp only [pure_bind']
          rw [bind_at (swapped_eq ..)]
          simp only [bind_assoc', dealt]
          rw [hd, ok_bind]
          simp only
          rw [he, ok_bind, he', ok_bind, ht', ok_bind]
          simp only [println_bind, says_bind]
          rw [hw, ok_bind, hc, ok_bind]
          simp only [settled, println_bind, bind_assoc']
          simp only [if_neg h0, println_bind, bind_assoc', env_bind]
          rw [hd', ok_bind]
          simp only [pure_bind', again, loop_again, turn_eq]
          rw [bind_assoc']
          rfl
        · rw [asked_append, asked_append, asked_cons, asked_winnings, asked_cons]
          simp only [List.append_assoc, List.cons_append, List.nil_append]
          rfl

/-- Lines that lead from one question to another. -/
theorem conf_run {fuel : Nat} {eval : Evaluator} {rest : List Input} : ∀ {pre : List Input} {f n : Nat} {s t : State}
    {last : Option Input} {ev : List Event} {out : List Out}, asking s = true → asking t = true →
    (pre ++ rest).length < f → (pre ++ rest).length ≤ n → (pre ++ rest).length < fuel →
    Screen.Game.run eval pre s = .ok (t, out) →
    ∃ f' n' last' ev', rest.length < f' ∧ rest.length ≤ n' ∧
      conf fuel eval f n s ⟨pre ++ rest, last, ev⟩ = conf fuel eval f' n' t ⟨rest, last', ev'⟩ ∧
      ev' ++ asked (questionOf t) = ev ++ asked (questionOf s) ++ asked out := by
  intro pre
  induction pre with
  | nil =>
    intro f n s t last ev out hs ht hf hn hfuel h
    cases h
    exact ⟨f, n, last, ev, hf, hn, rfl, by simp [asked]⟩
  | cons i is ih =>
    intro f n s t last ev out hs ht hf hn hfuel h
    rw [run_cons] at h
    obtain ⟨⟨u, o⟩, h1, h⟩ := ok_of_bind h
    obtain ⟨⟨t', o'⟩, h2, h⟩ := ok_of_bind h
    cases h
    have hu : asking u = true := by
      cases u with
      | wager => rfl
      | swaps => rfl
      | quit =>
        rw [run_quit] at h2
        cases h2
        cases ht
      | over =>
        rw [run_over] at h2
        cases h2
        cases ht
    simp only [List.cons_append, List.length_cons] at hf hn hfuel ⊢
    obtain ⟨f', n', ev', h3, h4, h5, h6⟩ := conf_step (last := last) (ev := ev) (rest := is ++ rest) (fuel := fuel) hs hu
      hf hn (by omega) h1
    obtain ⟨f'', n'', last'', ev'', h7, h8, h9, h10⟩ := ih (last := some i) (ev := ev') hu ht h3 h4 (by omega) h2
    refine ⟨f'', n'', last'', ev'', h7, h8, h5.trans h9, ?_⟩
    rw [h10, h6, asked_append, List.append_assoc _ (asked o)]

/-- A draw whose winnings are more than fits. -/
theorem conf_burst {fuel : Nat} {eval : Evaluator} {f n : Nat} {i : Input} {rest : List Input}
    {last : Option Input} {ev : List Event} {c w winnings : Nat} {fe e : Eval} {deck hand deck' hand' : List Card}
    {swaps : List Nat} {t : Str} {p : Panic} (hf : 0 < f)
    (h1 : Poker.Game.get_swaps i.order i.line = .ok (.accept swaps))
    (h2 : Poker.Game.replace i.drawSwap swaps deck hand = .ok (deck', hand'))
    (h3 : eval.evaluate hand' = .ok (.ok e)) (h4 : Poker.Game.handLine hand' e = .ok t)
    (h5 : Poker.Game.payout w e.class' = .ok winnings)
    (h6 : Poker.Game.collect c w winnings = .error p) :
    conf fuel eval f n (.swaps c w fe deck hand) ⟨i :: rest, last, ev⟩
      = .panic p (ev ++ asked [.line good swapsMessage] ++
          asked (Screen.plain t :: Screen.Game.compared e.class' fe.class')) := by
  obtain ⟨f, rfl⟩ : ∃ k, f = k + 1 := ⟨f - 1, by omega⟩
  have ht := swapsTurn_eq i rest last ev
  simp only [conf]
  rw [loop_succ, bind_assoc']
  rw [h1] at ht
  rw [bind_done ht]
  simp only [pure_bind']
  rw [bind_at (swapped_eq ..)]
  simp only [bind_assoc', dealt]
  rw [h2, ok_bind]
  simp only
  rw [h3, ok_bind]
  simp only [Poker.Game.unwrap]
  rw [ok_bind, h4, ok_bind]
  simp only [println_bind, says_bind]
  rw [h5, ok_bind, h6, error_bind, asked_cons]
  simp only [List.append_assoc, List.cons_append, List.nil_append]

end Poker.Program.Game
