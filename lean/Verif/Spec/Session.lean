import Verif.Spec.Strategy

/-! Several rounds of the game. -/

namespace Poker

open Rules Game

/-- `n` rounds that lead from the state `s` to the state `t`.  In every round the line of `bet` makes
the wager, and the line of the choice for the hand that is dealt names the cards to change.  The two
shuffles of round `i`, that for the change and that at the end of the round, are by `ds i`. -/
def Session (ev : Evaluator) (bet : Input) (choice : List PCard → Input) :
    (n : Nat) → (Fin n → Draws × Draws) → State → State → Prop
  | 0, _, s, t => t = s
  | n + 1, ds, s, t => ∃ s₁ out₁ c w e deck h s₂ out₂,
      Game.step ev bet s = .ok (s₁, out₁) ∧ s₁ = .swaps c w e deck (deal h) ∧
      Game.step ev { choice h with drawSwap := (ds 0).1.stream, drawRound := (ds 0).2.stream } s₁
        = .ok (s₂, out₂) ∧
      Session ev bet choice n (fun i => ds i.succ) s₂ t

/-- The program is started, the deck shuffled by `d`, and `n` rounds are played.  Afterwards there are
`c` credits. -/
def EndsWith (bet : Input) (choice : List PCard → Input) (n : Nat) (d : Draws) (ds : Fin n → Draws × Draws)
    (c : Nat) : Prop :=
  ∃ ev s out t, Game.start d.stream = .ok (ev, s, out) ∧ Session ev bet choice n ds s t ∧ t.credits = c

end Poker
