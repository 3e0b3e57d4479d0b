import Verif.Props.Repl
import Verif.Props.Range
import Verif.Props.Results
import Verif.Props.Game
import Verif.Model.Screen

/-! # What the examples say about themselves: C39, C40 -/

namespace Poker
open Rules Tab Text

/-- The line of the example in the help. -/
def helpLine : Str := "Tc Jc Qc Kc Ac".toList

/-- The cards on it. -/
def helpHand : List PCard := [(.Ten, .Clubs), (.Jack, .Clubs), (.Queen, .Clubs), (.King, .Clubs), (.Ace, .Clubs)]

theorem helpWords : Words (helpHand.map cardText) helpLine := (c19_words _ _).1.2 (by decide +kernel)

theorem help_text : Repl.HELP
    = "\nEnter a list of 5 or more space-separated cards to be evaluated as a hand.\n".toList
      ++ "Cards are two character strings, where the first character represents\n".toList
      ++ "the card rank, and the second character represents the card suit.\n\n".toList
      ++ "Valid ranks: one of [".toList ++ rankChars ++ "]\nValid suits: one of [".toList ++ suitChars
      ++ "]\n\nExample: poker> ".toList ++ helpLine ++ "\n".toList := by
  decide +kernel

/-- C39: the help names the characters that are read, and the line in its example is answered. -/
theorem c39_help : ∃ line : Str,
    Repl.HELP = "\nEnter a list of 5 or more space-separated cards to be evaluated as a hand.\n".toList
      ++ "Cards are two character strings, where the first character represents\n".toList
      ++ "the card rank, and the second character represents the card suit.\n\n".toList
      ++ "Valid ranks: one of [".toList ++ rankChars ++ "]\nValid suits: one of [".toList ++ suitChars
      ++ "]\n\nExample: poker> ".toList ++ line ++ "\n".toList ∧
    ∀ ev, Evaluator.new = .ok ev → ∀ order, Repl.answer ev order line = .ok "Royal flush".toList := by
  refine ⟨helpLine, help_text, fun ev hev order => ?_⟩
  obtain ⟨e, he⟩ := (c04_iff helpHand).2.2.2 ⟨by decide, by decide⟩
  have h : Answers order helpLine e.class'.display := .judged helpHand e helpWords (by decide) (by decide) he
  obtain ⟨t, ht, h'⟩ := c39_answer ev hev order helpLine
  rw [ht, c39_unique _ _ _ _ h' h, (c28_royal _).2]
  exact ((c10_royal _ _ he).1.1 ((c10_royal _ _ he).2.2.2 ⟨.Clubs, by decide⟩))

/-- C39: the welcome of the REPL names the words for help and for leaving, and leaving by a read error
(`CTRL+C`). -/
theorem c39_welcome : ∃ help quit : Str,
    Screen.Repl.WELCOME = "Welcome to the poker hand REPL!\nFor help, enter \"".toList ++ help
      ++ "\". To quit, enter \"".toList ++ quit ++ "\" or press CTRL+C.".toList ∧
    ∀ (ev : Evaluator) (i : Repl.Input),
      (i.line = some help → i.historyOk = true → Repl.step ev i .reading = .ok (.reading, [Repl.HELP])) ∧
      (i.line = some quit → i.historyOk = true → Repl.step ev i .reading = .ok (.ended, [])) ∧
      (i.line = none → Repl.step ev i .reading = .ok (.ended, [])) := by
  refine ⟨"help".toList, "quit".toList, by decide +kernel, fun ev i => ⟨fun h hh => ?_, fun h hh => ?_, fun h => ?_⟩⟩
  · simp only [Repl.step, h, hh, if_true]
  · have : ¬ "quit".toList = "help".toList := by decide
    simp only [Repl.step, h, hh, if_true, if_neg this]
  · simp only [Repl.step, h]

/-- C40: the welcome of the game names the word that leaves both prompts, and leaving by a read error. -/
theorem c40_welcome : ∃ quit : Str,
    Screen.Game.WELCOME = "Welcome to Jacks or Better video poker!\nTo quit, enter \"".toList ++ quit
      ++ "\" or press CTRL+C.\n".toList ∧
    (∀ credits, Game.get_wager credits (some quit) = .quit ∧ Game.get_wager credits none = .quit) ∧
    ∀ order, Game.get_swaps order (some quit) = .ok .quit ∧ Game.get_swaps order none = .ok .quit := by
  refine ⟨"quit".toList, by decide +kernel, fun c => ⟨?_, ?_⟩, fun order => ⟨?_, ?_⟩⟩
  · exact ((c40_wager c).1 _).2 (.inr rfl)
  · exact ((c40_wager c).1 _).2 (.inl rfl)
  · exact ((c40_swaps order).2.1 _).2 (.inr rfl)
  · exact ((c40_swaps order).2.1 _).2 (.inl rfl)

/-- The first lines of the welcome. -/
example : Screen.Game.WELCOME.take 39 = "Welcome to Jacks or Better video poker!".toList ∧
    Screen.Repl.WELCOME.take 31 = "Welcome to the poker hand REPL!".toList := by
  decide +kernel

end Poker
