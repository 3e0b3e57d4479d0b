import Verif.Model.Format

/-! What writing a text piece by piece to a writer means, and what padding a text means. -/

namespace Poker.Format

/-- One request to a writer. -/
inductive Call
  | str (t : Str)
  | char (c : Char)

/-- The text of a request. -/
def Call.text : Call → Str
  | .str t => t
  | .char c => [c]

/-- The text of several requests. -/
def said (cs : List Call) : Str := (cs.map Call.text).flatten

/-- What the writer does with a request. -/
def Call.ask {σ : Type} (w : Sink σ) : Call → σ → Bool × σ
  | .str t => w.write_str t
  | .char c => w.write_char c

/-- The writer accepts these requests one after the other. -/
inductive Accepts {σ : Type} (w : Sink σ) : σ → List Call → σ → Prop
  | nil (s : σ) : Accepts w s [] s
  | cons {s s' s'' : σ} {c : Call} {cs : List Call} (h : c.ask w s = (true, s')) (hs : Accepts w s' cs s'') :
    Accepts w s (c :: cs) s''

/-- `r` is what comes of writing the text: the writer accepts requests that make up the text; or it accepts
some and refuses the next, all of it the beginning of the text, and there the writing ends with an error. -/
def Writes {σ : Type} (w : Sink σ) (s : σ) (text : Str) (r : Bool × σ) : Prop :=
  (∃ cs s', r = (true, s') ∧ Accepts w s cs s' ∧ said cs = text) ∨
  ∃ cs c s' s'', r = (false, s'') ∧ Accepts w s cs s' ∧ c.ask w s' = (false, s'') ∧ said (cs ++ [c]) <+: text

/-- A buffer with room for `n` characters: what does not fit is refused as a whole. -/
def room (n : Nat) : Sink Str where
  write_str := fun t s => if s.length + t.length ≤ n then (true, s ++ t) else (false, s)
  write_char := fun c s => if s.length + 1 ≤ n then (true, s ++ [c]) else (false, s)

end Poker.Format
