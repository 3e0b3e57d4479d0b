import Verif.Spec.Optimal

/-! Whoever plays the game, in any way. -/

namespace Poker

open Rules Game

/-- Whoever plays: to what has been printed after each line so far, the next line.  (The iteration order
of the hash map, which the input also has, may be anything; the shuffles are not chosen by the player.) -/
abbrev Player := List (List Str) → Input

/-- `n` lines of the player `P` that lead from the state `s` to the state `t`; `seen` has been printed
before.  The shuffles after line `i`, if any, are by `ds i`: that for the change of cards, and that at
the end of the round. -/
def Played (ev : Evaluator) (P : Player) :
    (n : Nat) → (Fin n → Draws × Draws) → List (List Str) → State → State → Prop
  | 0, _, _, s, t => t = s
  | n + 1, ds, seen, s, t => ∃ s₁ out,
      Game.step ev { P seen with drawSwap := (ds 0).1.stream, drawRound := (ds 0).2.stream } s
        = .ok (s₁, out) ∧
      Played ev P n (fun i => ds i.succ) (seen ++ [out]) s₁ t

/-- The program is started, the deck shuffled by `d`, and `P` enters `n` lines.  Afterwards there are `c`
credits, without what is at stake. -/
def LeftWith (P : Player) (n : Nat) (d : Draws) (ds : Fin n → Draws × Draws) (c : Nat) : Prop :=
  ∃ ev s out t, Game.start d.stream = .ok (ev, s, out) ∧ Played ev P n ds [out] s t ∧ t.credits = c

namespace Rules

/-- What a round with the highest wager gains under the best play, in parts of 8443241352000. -/
def bestGain : Nat := bestBack 5 - 5 * 8443241352000

end Rules

end Poker
