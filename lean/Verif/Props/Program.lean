import Verif.Props.Screen
import Verif.Proofs.Program

/-! # C57: the examples as written, with their loops, prompts and history -/

namespace Poker
open Rules Tab Text
open Screen (Style Out good)
open Program (Event World Res M)

/-! ## The game -/

theorem start_agrees (draw : Nat → Nat) (inputs : List Game.Input) (fuel : Nat)
    (hf : inputs.length < fuel) :
    Program.Game.Agrees [] (Program.Game.main true draw fuel (fresh inputs))
      (Screen.Game.main true draw inputs) := by
  unfold Screen.Game.main Program.Game.main Screen.Game.start fresh
  obtain ⟨ev, hev⟩ := c36_new_ok
  rw [Program.clear_bind, hev, Program.ok_bind, Program.println_bind]
  simp only [bind_assoc, if_true, Comb.bind_ok]
  rw [show (Program.editor true : M Game.Input Unit) = Program.lift (.ok ()) from rfl, Program.ok_bind]
  refine Program.Game.agrees_lift fun deck _ => ?_
  simp only [pure_bind]
  apply Program.Game.agrees_out
  obtain ⟨n, rfl⟩ : ∃ k, fuel = k + 1 := ⟨fuel - 1, by omega⟩
  rw [Program.Game.loop_again, Program.Game.turn_eq, Program.bind_assoc']
  exact (Program.Game.play ev (n + 1) inputs hf).1 (n + 1) n none
    [.out .clear, .out (.line good Screen.Game.WELCOME)] deck Game.STARTING_CREDITS [] hf (by omega)

/-- C57: the game as it is written, with its nested loops and early returns, does what the state machine
of C34 to C43 does, for any input.  The screen shows the texts of C43 dressed as in C52, with a green
prompt after every question and nowhere else; the game waits there, or ends, or panics, as the state
machine does; and it keeps no history. -/
theorem c57_game (draw : Nat → Nat) (inputs : List Game.Input) (fuel : Nat) (hf : inputs.length < fuel) :
    (∀ s texts, Game.main draw inputs = .ok (s, texts) →
      (asking s = true → Program.Game.main true draw fuel (fresh inputs)
        = .waiting (asked (.clear :: dress (Screen.Game.WELCOME :: texts)))) ∧
      (asking s = false → ∃ w, Program.Game.main true draw fuel (fresh inputs) = .done () w ∧
        w.events = asked (.clear :: dress (Screen.Game.WELCOME :: texts)))) ∧
    ∀ p, Game.main draw inputs = .error p →
      ∃ ev, Program.Game.main true draw fuel (fresh inputs) = .panic p ev := by
  have h := start_agrees draw inputs fuel hf
  rw [c52_game] at h
  constructor
  · intro s texts hm
    rw [hm] at h
    exact h.ok
  · intro p hm
    rw [hm] at h
    exact h.error

/-- C57: a game with fair shuffles never panics, however it is played; what it says is a game of C34. -/
theorem c57_fair (draw : Nat → Nat) (hd : ∀ k, draw k ≤ k) (inputs : List Game.Input)
    (hi : ∀ i ∈ inputs, Fair i) (hb : 100 + 4000 * inputs.length < 2 ^ 64) (fuel : Nat)
    (hf : inputs.length < fuel) :
    ∃ deck s m out, deck.Perm Deck.generate ∧ WagerPrompt 100 m ∧
      Plays (inputs.map Game.Input.line) (.wager 100 deck []) out s ∧
      (asking s = true → Program.Game.main true draw fuel (fresh inputs)
        = .waiting (asked (.clear :: dress (Screen.Game.WELCOME :: m :: out)))) ∧
      (asking s = false → ∃ w, Program.Game.main true draw fuel (fresh inputs) = .done () w ∧
        w.events = asked (.clear :: dress (Screen.Game.WELCOME :: m :: out))) := by
  obtain ⟨deck, s, m, out, h1, h2, h3, h4, -, -⟩ := c34_history draw hd inputs hi hb
  obtain ⟨h5, h6⟩ := (c57_game draw inputs fuel hf).1 s (m :: out) h1
  exact ⟨deck, s, m, out, h2, h3, h4, h5, h6⟩

/-- C57: without a terminal both programs end in a panic after their welcome. -/
theorem c57_no_terminal (draw : Nat → Nat) (inputs : List Game.Input) (inputs' : List Repl.Input)
    (fuel : Nat) :
    Program.Game.main false draw fuel (fresh inputs)
      = .panic .unwrapFailed [.out .clear, .out (.line good Screen.Game.WELCOME)] ∧
    Program.Repl.main false fuel (fresh inputs')
      = .panic .unwrapFailed [.out (.line good Screen.Repl.WELCOME)] := by
  obtain ⟨ev, hev⟩ := c36_new_ok
  constructor
  · unfold Program.Game.main
    rw [hev]
    rfl
  · unfold Program.Repl.main
    rw [hev]
    rfl

/-! ## The REPL -/

/-- How a program stands after its last input. -/
inductive Ending
  | waiting
  | ended
  | failed

/-- A run that did this and ended so. -/
def Ends {ι : Type} (r : Res ι Unit) (ev : List Event) : Ending → Prop
  | .waiting => r = .waiting ev
  | .ended => ∃ w, r = .done () w ∧ w.events = ev
  | .failed => r = .panic .unwrapFailed ev

/-- The prompt of the REPL. -/
def replPrompt : Event := .prompt promptStyle "poker> ".toList

/-- A dialogue with the REPL: a prompt for every line, which goes into the history before anything
else, and then one answer, unless the line is "quit". -/
inductive Dialogue : List Repl.Input → List Event → Ending → Prop
  | waiting : Dialogue [] [replPrompt] .waiting
  | failed (i : Repl.Input) (is : List Repl.Input) : i.line = none → Dialogue (i :: is) [replPrompt] .ended
  | full (i : Repl.Input) (is : List Repl.Input) (line : Str) : i.line = some line → i.historyOk = false →
      Dialogue (i :: is) [replPrompt] .failed
  | quit (i : Repl.Input) (is : List Repl.Input) : i.line = some "quit".toList → i.historyOk = true →
      Dialogue (i :: is) [replPrompt, .remember "quit".toList] .ended
  | help (i : Repl.Input) (is : List Repl.Input) (ev : List Event) (e : Ending) :
      i.line = some "help".toList → i.historyOk = true → Dialogue is ev e →
      Dialogue (i :: is) ([replPrompt, .remember "help".toList,
        .out (.line ⟨some .BrightGreen, true, false, false⟩ Repl.HELP)] ++ ev) e
  | answer (i : Repl.Input) (is : List Repl.Input) (line t : Str) (st : Style) (ev : List Event)
      (e : Ending) : i.line = some line → i.historyOk = true → line ≠ "quit".toList →
      line ≠ "help".toList → Answers i.order line t →
      (∀ h : List PCard, Words (h.map cardText) line → h.Nodup → 5 ≤ h.length →
        st = resultStyle (category h)) →
      ((∀ h : List PCard, Words (h.map cardText) line → h.Nodup → ¬ 5 ≤ h.length) →
        st = ⟨none, false, false, false⟩) →
      Dialogue is ev e →
      Dialogue (i :: is) ([replPrompt, .remember line, .out (.line st t)] ++ ev) e

theorem dialogue_loop (ev : Evaluator) (hev : Evaluator.new = .ok ev) (inputs : List Repl.Input) :
    ∀ fuel, inputs.length < fuel → ∀ last before, ∃ es e, Dialogue inputs es e ∧
      Ends (Program.loop (Program.Repl.turn ev) fuel () ⟨inputs, last, before⟩) (before ++ es) e := by
  induction inputs with
  | nil =>
    intro fuel hf last before
    obtain ⟨n, rfl⟩ : ∃ k, fuel = k + 1 := ⟨fuel - 1, by simp at hf; omega⟩
    refine ⟨_, _, .waiting, ?_⟩
    rw [Program.loop_succ]
    exact Program.Game.bind_waiting (Program.readline_nil ..)
  | cons i is ih =>
    intro fuel hf last before
    rw [List.length_cons] at hf
    obtain ⟨n, rfl⟩ : ∃ k, fuel = k + 1 := ⟨fuel - 1, by omega⟩
    rw [Program.loop_succ]
    have ht := Program.Repl.turn_eq ev i is last before
    cases hl : i.line with
    | none =>
      rw [hl] at ht
      refine ⟨_, _, .failed i is hl, ?_⟩
      rw [Program.Game.bind_done ht]
      exact ⟨_, rfl, rfl⟩
    | some line =>
      rw [hl] at ht
      simp only at ht
      cases hh : i.historyOk with
      | false =>
        simp only [hh, Bool.false_eq_true, if_false] at ht
        refine ⟨_, _, .full i is line hl hh, ?_⟩
        rw [Program.Game.bind_panic ht]
        rfl
      | true =>
        simp only [hh, if_true] at ht
        by_cases h1 : line = "help".toList
        · rw [if_pos h1] at ht
          subst h1
          obtain ⟨es, e, hd, he⟩ := ih n (by omega) (some i) (before ++ [replPrompt] ++
            [.remember "help".toList] ++ [.out (.line good Repl.HELP)])
          refine ⟨_, _, .help i is es e hl hh hd, ?_⟩
          rw [Program.Game.bind_done ht]
          simp only [List.append_assoc] at he ⊢
          exact he
        · rw [if_neg h1] at ht
          by_cases h2 : line = "quit".toList
          · rw [if_pos h2] at ht
            subst h2
            refine ⟨_, _, .quit i is hl hh, ?_⟩
            rw [Program.Game.bind_done ht]
            exact ⟨_, rfl, List.append_assoc ..⟩
          · rw [if_neg h2] at ht
            obtain ⟨st, t, ha, hans, g1, g2⟩ := c52_answer ev hev i.order line
            rw [ha] at ht
            obtain ⟨es, e, hd, he⟩ := ih n (by omega) (some i) (before ++ [replPrompt] ++
              [.remember line] ++ [.out (.line st t)])
            refine ⟨_, _, .answer i is line t st es e hl hh h2 h1 hans g1 g2 hd, ?_⟩
            rw [Program.Game.bind_done ht]
            simp only [List.append_assoc] at he ⊢
            exact he

/-- C57: every run of the REPL as it is written, with its loop, is a dialogue as above, for any number
of lines. -/
theorem c57_repl (inputs : List Repl.Input) (fuel : Nat) (hf : inputs.length < fuel) :
    ∃ es e, Dialogue inputs es e ∧ Ends (Program.Repl.main true fuel (fresh inputs))
      (.out (.line ⟨some .BrightGreen, true, false, false⟩ Screen.Repl.WELCOME) :: es) e := by
  obtain ⟨ev, hev⟩ := c36_new_ok
  obtain ⟨es, e, h1, h2⟩ := dialogue_loop ev hev inputs fuel hf none
    [.out (.line good Screen.Repl.WELCOME)]
  refine ⟨es, e, h1, ?_⟩
  unfold Program.Repl.main fresh
  rw [hev]
  exact h2

theorem remembered_append (a b : List Event) : remembered (a ++ b) = remembered a ++ remembered b :=
  List.filterMap_append

/-- C57: the history holds the lines in order, among them "help" and "quit", up to an error, and nothing
after "quit". -/
theorem c57_history (inputs : List Repl.Input) (hh : ∀ i ∈ inputs, i.historyOk = true) (es : List Event)
    (e : Ending) (h : Dialogue inputs es e) :
    remembered es = history (inputs.map Repl.Input.line) := by
  induction h with
  | waiting => rfl
  | failed i is hl => rw [List.map_cons, hl]; rfl
  | full i is line hl hf => rw [hh i (by simp)] at hf; cases hf
  | quit i is hl hk => rw [List.map_cons, hl, history, if_pos rfl]; rfl
  | help i is ev e hl hk hd ih =>
    rw [List.map_cons, hl, remembered_append, ih (fun j hj => hh j (by simp [hj])), history,
      if_neg (by decide)]
    rfl
  | answer i is line t st ev e hl hk hq hp ha h1 h2 hd ih =>
    rw [List.map_cons, hl, remembered_append, ih (fun j hj => hh j (by simp [hj])), history, if_neg hq]
    rfl

/-- C57: both programs wait once for each line they get, and once more if there is none; nothing is
waited for after the end. -/
theorem c57_prompts (ok : Bool) (draw : Nat → Nat) (fuel : Nat) (inputs : List Game.Input)
    (inputs' : List Repl.Input) :
    (∀ w, Program.Game.main ok draw fuel (fresh inputs) = .done () w →
      prompts w.events + w.inputs.length = inputs.length) ∧
    (∀ ev, Program.Game.main ok draw fuel (fresh inputs) = .waiting ev → prompts ev = inputs.length + 1) ∧
    (∀ w, Program.Repl.main ok fuel (fresh inputs') = .done () w →
      prompts w.events + w.inputs.length = inputs'.length) ∧
    (∀ ev, Program.Repl.main ok fuel (fresh inputs') = .waiting ev → prompts ev = inputs'.length + 1) := by
  obtain ⟨h1, h2, -⟩ := Program.Game.counted ok draw fuel (fresh inputs)
  obtain ⟨g1, g2, -⟩ := Program.Repl.counted ok fuel (fresh inputs')
  refine ⟨fun w hw => ?_, fun ev hw => ?_, fun w hw => ?_, fun ev hw => ?_⟩
  · exact (h1 () w hw).trans (Nat.zero_add _)
  · exact (h2 ev hw).trans (by rw [fresh]; simp [prompts])
  · exact (g1 () w hw).trans (Nat.zero_add _)
  · exact (g2 ev hw).trans (by rw [fresh]; simp [prompts])

/-- A player who quits at the first question has seen it and one prompt. -/
example : asked (.clear :: dress [Screen.Game.WELCOME, "Enter a wager. (Credits: 100, max: 5)".toList]) =
    [.out .clear, .out (.line ⟨some .BrightGreen, true, false, false⟩ Screen.Game.WELCOME),
      .out (.line ⟨some .BrightGreen, true, false, false⟩ "Enter a wager. (Credits: 100, max: 5)".toList),
      .prompt ⟨some .BrightGreen, false, false, false⟩ ">>> ".toList] := by
  decide

/-- Help, then quit. -/
example (order : List (Card × Nat) → List (Card × Nat)) :
    Dialogue [⟨some "help".toList, true, order⟩, ⟨some "quit".toList, true, order⟩]
      [replPrompt, .remember "help".toList,
        .out (.line ⟨some .BrightGreen, true, false, false⟩ Repl.HELP), replPrompt,
        .remember "quit".toList] .ended :=
  .help _ _ _ _ rfl rfl (.quit _ _ rfl rfl)

example : history [some "As".toList, some "quit".toList, some "help".toList]
    = ["As".toList, "quit".toList] := by
  decide

/-- Fair draws and inputs exist, for any lines. -/
example (lines : List (Option Str)) : ∃ inputs : List Game.Input, inputs.map Game.Input.line = lines ∧
    ∀ i ∈ inputs, Fair i :=
  ⟨lines.map (fun l => ⟨l, fun _ => 0, fun _ => 0, id⟩), by simp [Function.comp_def], by
    simp only [List.mem_map]
    rintro i ⟨l, -, rfl⟩
    exact ⟨fun _ => Nat.zero_le _, fun _ => Nat.zero_le _, fun _ => .refl _⟩⟩

end Poker
