import Verif.Spec.Session
import Verif.Spec.Outcomes
import Mathlib.Data.Rat.Defs
import Mathlib.Algebra.Field.Rat

/-! Running out of credits. -/

namespace Poker

open Rules Game

/-- The program is started, the deck shuffled by `d`, and at most `n` rounds are played, the shuffles of
round `i` by `ds i`.  At the end of one of these rounds no credits are left, and the game is over. -/
def BrokeWithin (bet : Input) (choice : List PCard → Input) (n : Nat) (d : Draws)
    (ds : Fin n → Draws × Draws) : Prop :=
  ∃ (m : Nat) (h : m ≤ n), EndsWith bet choice m d (fun i => ds (i.castLE h)) 0

/-- In how many ways the `2 * n + 1` shuffles can make this happen. -/
noncomputable def brokeWays (bet : Input) (choice : List PCard → Input) (n : Nat) : Nat :=
  {p : Draws × (Fin n → Draws × Draws) | BrokeWithin bet choice n p.1 p.2}.ncard

/-- The chance that somebody with `k` coins has lost them all after at most `n` rounds, if every round
costs a coin, and `m` coins come back in `a` cases for each `(m, a)` in the table. -/
def ruin (t : List (Nat × Nat)) : (n k : Nat) → ℚ
  | _, 0 => 1
  | 0, _ + 1 => 0
  | n + 1, k + 1 => (t.map (fun p => (p.2 : ℚ) / ((t.map Prod.snd).sum : Nat) * ruin t n (k + p.1))).sum

end Poker
