import Verif.Proofs.HoldBest
import Verif.Proofs.HoldCheck251
import Verif.Proofs.HoldCheck801

/-! The worth of the best cards to keep, over all hands. -/

namespace Poker.Hold
open Rules Counts Sets

theorem sum_split (t : Tabs) (v : Nat) (rs : List Nat) : sumOver (hands t) (falling 5 (v :: rs))
    = part t v rs + sumOver (hands t) (falling 5 rs) := by
  rw [falling_succ_cons, sumOver_eq, List.map_append, List.sum_append, part, sumOver_eq, sumOver_eq]

theorem sum_none' (t : Tabs) : sumOver (hands t) (falling 5 []) = 0 := rfl

theorem good251 : Good tabs251 :=
  ⟨empty251, mixed4_251, mixed3_251, mixed2_251, suited4_251, suited3_251, suited2_251, suited1_251,
    less2_251, less3_251, less4_251, less5_251, best0_251, best1_251, best2_251, best3_251, best4_251,
    best5_251⟩

theorem sum251 : sumOver (hands tabs251) (falling 5 allValues) = 47298997802200 := by
  simp only [allValues, sum_split, sum_none', Nat.eq_of_beq_eq_true part14_251,
    Nat.eq_of_beq_eq_true part13_251, Nat.eq_of_beq_eq_true part12_251,
    Nat.eq_of_beq_eq_true part11_251, Nat.eq_of_beq_eq_true part10_251,
    Nat.eq_of_beq_eq_true part9_251, Nat.eq_of_beq_eq_true part8_251,
    Nat.eq_of_beq_eq_true part7_251, Nat.eq_of_beq_eq_true part6_251,
    Nat.eq_of_beq_eq_true part5_251, Nat.eq_of_beq_eq_true part4_251,
    Nat.eq_of_beq_eq_true part3_251, Nat.eq_of_beq_eq_true part2_251]

/-- The sum over all hands of the worth of the best cards to keep. -/
theorem total251 : ∑ x ∈ fiveCardHands, bestOf (prizeOf tabs251) x = 47298997802200 :=
  bestOf_sum good251 sum251

theorem good801 : Good tabs801 :=
  ⟨empty801, mixed4_801, mixed3_801, mixed2_801, suited4_801, suited3_801, suited2_801, suited1_801,
    less2_801, less3_801, less4_801, less5_801, best0_801, best1_801, best2_801, best3_801, best4_801,
    best5_801⟩

theorem sum801 : sumOver (hands tabs801) (falling 5 allValues) = 47663637361012 := by
  simp only [allValues, sum_split, sum_none', Nat.eq_of_beq_eq_true part14_801,
    Nat.eq_of_beq_eq_true part13_801, Nat.eq_of_beq_eq_true part12_801,
    Nat.eq_of_beq_eq_true part11_801, Nat.eq_of_beq_eq_true part10_801,
    Nat.eq_of_beq_eq_true part9_801, Nat.eq_of_beq_eq_true part8_801,
    Nat.eq_of_beq_eq_true part7_801, Nat.eq_of_beq_eq_true part6_801,
    Nat.eq_of_beq_eq_true part5_801, Nat.eq_of_beq_eq_true part4_801,
    Nat.eq_of_beq_eq_true part3_801, Nat.eq_of_beq_eq_true part2_801]

/-- The sum over all hands of the worth of the best cards to keep. -/
theorem total801 : ∑ x ∈ fiveCardHands, bestOf (prizeOf tabs801) x = 47663637361012 :=
  bestOf_sum good801 sum801

end Poker.Hold
