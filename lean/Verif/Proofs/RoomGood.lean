import Verif.Proofs.RoomDefs
import Verif.Spec.Exact

/-! # Many cards of a given worth (helper lemmas) -/

namespace Poker.Room
open Rules

/-- Eleven cards of three suits, four of a suit at most. -/
def others : List PCard :=
  [2, 3, 4, 5].map (fun v => (rankOf v, .Hearts)) ++ [6, 7, 8, 9].map (fun v => (rankOf v, .Spades))
    ++ [10, 11, 12].map (fun v => (rankOf v, .Diamonds))

/-- Many cards of a given worth. -/
def many (w : Nat × List Nat) : List PCard :=
  match w with
  | (8, [t]) => (run t).map (fun v => (rankOf v, .Clubs)) ++ others
  | (7, [q, k]) =>
    let r := allValues.filter (fun v => decide (v ≤ k) && decide (v ≠ q))
    if r.length ≤ 3 then lay (hi 4 4 [q] [k]) (q :: r) 0
    else lay (fun v => if v = q then 4 else 3) (q :: r.take 4) 0
  | (6, [t, p]) => lay (fun v => if v = t then 3 else if v = p then 2 else 1)
    (t :: p :: allValues.filter (fun v => decide (v ≠ t) && decide (v ≠ p))) 0
  | (4, [t]) => lay (fun _ => 2)
    (run t ++ ((allValues.filter (fun v => decide (v + 4 < t))) ++ [t + 2, t + 3, t + 4]).take 3) 0
  | _ => []

/-- `many` has `n` cards of the worth. -/
def Good (w : Nat × List Nat) (n : Nat) : Prop :=
  (many w).Nodup ∧ n ≤ (many w).length ∧ bestWorth (many w) = w

instance (w : Nat × List Nat) (n : Nat) : Decidable (Good w n) := by unfold Good; infer_instance

theorem good_straights : ∀ w ∈ Kinds.sStraight.worths, Good w 16 := by decide +kernel
theorem good_straightFlushes : ∀ w ∈ Kinds.sStraightFlush.worths, Good w 16 := by decide +kernel
theorem good_fullHouses : ∀ w ∈ Kinds.sFullHouse.worths, Good w 16 := by decide +kernel
theorem good_quads : ∀ w ∈ Kinds.sQuads.worths, Good w (min 16 (quadRoom w.2)) := by decide +kernel

end Poker.Room
