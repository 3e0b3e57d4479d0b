import Verif.Model.Screen

/-! How the texts of the examples should look. -/

namespace Poker.Text
open Screen

/-- The text starts with the given words. -/
def starts (p : String) (t : Str) : Bool := p.toList.isPrefixOf t

/-- Bold green: questions, the welcome, and good news. -/
def cheerful (t : Str) : Bool :=
  starts "Enter " t || starts "Welcome " t || starts "You got a better" t ||
    (starts "Winnings: " t && t != "Winnings: 0".toList)

/-- Bold red: bad news. -/
def gloomy (t : Str) : Bool :=
  starts "You got a worse" t || starts "Game over" t || t == "Winnings: 0".toList

/-- The style of a line of the game, by its words; all others are plain. -/
def look (t : Str) : Style :=
  if cheerful t then ⟨some .BrightGreen, true, false, false⟩
  else if gloomy t then ⟨some .BrightRed, true, false, false⟩
  else ⟨none, false, false, false⟩

/-- The line of numbers below a hand whose cards may be changed. -/
def legend : Str := " (1)    (2)    (3)    (4)    (5)".toList

/-- The texts of the game as they appear on the screen: each in its style, and on a cleared screen
where a new hand (above the line of numbers) begins. -/
def dress : List Str → List Out
  | [] => []
  | t :: ts => (if ts.head? = some legend then [Out.clear] else []) ++ .line (look t) t :: dress ts

/-- The style of a result in the REPL, by the category from high card to straight flush. -/
def resultStyle (category : Nat) : Style :=
  [⟨some .BrightRed, false, false, false⟩, ⟨some .BrightMagenta, false, false, false⟩,
    ⟨some .BrightMagenta, false, false, false⟩, ⟨some .BrightYellow, false, false, false⟩,
    ⟨some .BrightCyan, false, false, false⟩, ⟨some .BrightBlue, false, false, false⟩,
    ⟨some .BrightWhite, false, false, false⟩, ⟨some .BrightWhite, false, true, false⟩,
    ⟨some .BrightWhite, false, false, true⟩].getD category {}

end Poker.Text
