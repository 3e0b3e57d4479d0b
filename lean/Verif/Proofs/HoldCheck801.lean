import Verif.Proofs.HoldCheck251

/-! The tables are right when a royal flush brings back 801 times the wager. -/

namespace Poker.Hold
open Rules Counts

theorem empty801 : emptyOk tabs801 = true := by decide +kernel
theorem mixed4_801 : (falling 4 allValues).all (mixedOk tabs801 1) = true := by decide +kernel
theorem mixed3_801 : (falling 3 allValues).all (mixedOk tabs801 2) = true := by decide +kernel
theorem mixed2_801 : (falling 2 allValues).all (mixedOk tabs801 3) = true := by decide +kernel
theorem suited4_801 : (List.sublistsLen 4 allValues).all (suitedOk tabs801 1) = true := by
  decide +kernel
theorem suited3_801 : (List.sublistsLen 3 allValues).all (suitedOk tabs801 2) = true := by
  decide +kernel
theorem suited2_801 : (List.sublistsLen 2 allValues).all (suitedOk tabs801 3) = true := by
  decide +kernel
theorem suited1_801 : (List.sublistsLen 1 allValues).all (suitedOk tabs801 4) = true := by
  decide +kernel
theorem less2_801 : (List.sublistsLen 2 allValues).all (lessOk tabs801) = true := by decide +kernel
theorem less3_801 : (List.sublistsLen 3 allValues).all (lessOk tabs801) = true := by decide +kernel
theorem less4_801 : (List.sublistsLen 4 allValues).all (lessOk tabs801) = true := by decide +kernel
theorem less5_801 : (List.sublistsLen 5 allValues).all (lessOk tabs801) = true := by decide +kernel
theorem best0_801 : (List.sublistsLen 0 allValues).all (bestOk tabs801) = true := by decide +kernel
theorem best1_801 : (List.sublistsLen 1 allValues).all (bestOk tabs801) = true := by decide +kernel
theorem best2_801 : (List.sublistsLen 2 allValues).all (bestOk tabs801) = true := by decide +kernel
theorem best3_801 : (List.sublistsLen 3 allValues).all (bestOk tabs801) = true := by decide +kernel
theorem best4_801 : (List.sublistsLen 4 allValues).all (bestOk tabs801) = true := by decide +kernel
theorem best5_801 : (List.sublistsLen 5 allValues).all (bestOk tabs801) = true := by decide +kernel
theorem part14_801 : Nat.beq (part tabs801 14 [13, 12, 11, 10, 9, 8, 7, 6, 5, 4, 3, 2])
    16067782463564 = true := by
  decide +kernel
theorem part13_801 : Nat.beq (part tabs801 13 [12, 11, 10, 9, 8, 7, 6, 5, 4, 3, 2])
    11347259541176 = true := by
  decide +kernel
theorem part12_801 : Nat.beq (part tabs801 12 [11, 10, 9, 8, 7, 6, 5, 4, 3, 2])
    7797629587800 = true := by
  decide +kernel
theorem part11_801 : Nat.beq (part tabs801 11 [10, 9, 8, 7, 6, 5, 4, 3, 2])
    5155797667332 = true := by
  decide +kernel
theorem part10_801 : Nat.beq (part tabs801 10 [9, 8, 7, 6, 5, 4, 3, 2]) 2891571224100 = true := by
  decide +kernel
theorem part9_801 : Nat.beq (part tabs801 9 [8, 7, 6, 5, 4, 3, 2]) 1898681104320 = true := by
  decide +kernel
theorem part8_801 : Nat.beq (part tabs801 8 [7, 6, 5, 4, 3, 2]) 1191839983440 = true := by
  decide +kernel
theorem part7_801 : Nat.beq (part tabs801 7 [6, 5, 4, 3, 2]) 708578909280 = true := by
  decide +kernel
theorem part6_801 : Nat.beq (part tabs801 6 [5, 4, 3, 2]) 394654887120 = true := by
  decide +kernel
theorem part5_801 : Nat.beq (part tabs801 5 [4, 3, 2]) 149767828080 = true := by
  decide +kernel
theorem part4_801 : Nat.beq (part tabs801 4 [3, 2]) 51133742400 = true := by
  decide +kernel
theorem part3_801 : Nat.beq (part tabs801 3 [2]) 8940422400 = true := by
  decide +kernel
theorem part2_801 : Nat.beq (part tabs801 2 []) 0 = true := by
  decide +kernel

end Poker.Hold
