import Verif.Proofs.HoldQuick

/-! The tables are right when a royal flush brings back 251 times the wager. -/

namespace Poker.Hold
open Rules Counts

theorem empty251 : emptyOk tabs251 = true := by decide +kernel
theorem mixed4_251 : (falling 4 allValues).all (mixedOk tabs251 1) = true := by decide +kernel
theorem mixed3_251 : (falling 3 allValues).all (mixedOk tabs251 2) = true := by decide +kernel
theorem mixed2_251 : (falling 2 allValues).all (mixedOk tabs251 3) = true := by decide +kernel
theorem suited4_251 : (List.sublistsLen 4 allValues).all (suitedOk tabs251 1) = true := by
  decide +kernel
theorem suited3_251 : (List.sublistsLen 3 allValues).all (suitedOk tabs251 2) = true := by
  decide +kernel
theorem suited2_251 : (List.sublistsLen 2 allValues).all (suitedOk tabs251 3) = true := by
  decide +kernel
theorem suited1_251 : (List.sublistsLen 1 allValues).all (suitedOk tabs251 4) = true := by
  decide +kernel
theorem less2_251 : (List.sublistsLen 2 allValues).all (lessOk tabs251) = true := by decide +kernel
theorem less3_251 : (List.sublistsLen 3 allValues).all (lessOk tabs251) = true := by decide +kernel
theorem less4_251 : (List.sublistsLen 4 allValues).all (lessOk tabs251) = true := by decide +kernel
theorem less5_251 : (List.sublistsLen 5 allValues).all (lessOk tabs251) = true := by decide +kernel
theorem best0_251 : (List.sublistsLen 0 allValues).all (bestOk tabs251) = true := by decide +kernel
theorem best1_251 : (List.sublistsLen 1 allValues).all (bestOk tabs251) = true := by decide +kernel
theorem best2_251 : (List.sublistsLen 2 allValues).all (bestOk tabs251) = true := by decide +kernel
theorem best3_251 : (List.sublistsLen 3 allValues).all (bestOk tabs251) = true := by decide +kernel
theorem best4_251 : (List.sublistsLen 4 allValues).all (bestOk tabs251) = true := by decide +kernel
theorem best5_251 : (List.sublistsLen 5 allValues).all (bestOk tabs251) = true := by decide +kernel
theorem part14_251 : Nat.beq (part tabs251 14 [13, 12, 11, 10, 9, 8, 7, 6, 5, 4, 3, 2])
    15805622762488 = true := by
  decide +kernel
theorem part13_251 : Nat.beq (part tabs251 13 [12, 11, 10, 9, 8, 7, 6, 5, 4, 3, 2])
    11267394417240 = true := by
  decide +kernel
theorem part12_251 : Nat.beq (part tabs251 12 [11, 10, 9, 8, 7, 6, 5, 4, 3, 2])
    7779129399600 = true := by
  decide +kernel
theorem part11_251 : Nat.beq (part tabs251 11 [10, 9, 8, 7, 6, 5, 4, 3, 2])
    5152685529732 = true := by
  decide +kernel
theorem part10_251 : Nat.beq (part tabs251 10 [9, 8, 7, 6, 5, 4, 3, 2]) 2890960328100 = true := by
  decide +kernel
theorem part9_251 : Nat.beq (part tabs251 9 [8, 7, 6, 5, 4, 3, 2]) 1898404828320 = true := by
  decide +kernel
theorem part8_251 : Nat.beq (part tabs251 8 [7, 6, 5, 4, 3, 2]) 1191743491440 = true := by
  decide +kernel
theorem part7_251 : Nat.beq (part tabs251 7 [6, 5, 4, 3, 2]) 708560165280 = true := by
  decide +kernel
theorem part6_251 : Nat.beq (part tabs251 6 [5, 4, 3, 2]) 394654887120 = true := by
  decide +kernel
theorem part5_251 : Nat.beq (part tabs251 5 [4, 3, 2]) 149767828080 = true := by
  decide +kernel
theorem part4_251 : Nat.beq (part tabs251 4 [3, 2]) 51133742400 = true := by
  decide +kernel
theorem part3_251 : Nat.beq (part tabs251 3 [2]) 8940422400 = true := by
  decide +kernel
theorem part2_251 : Nat.beq (part tabs251 2 []) 0 = true := by
  decide +kernel

end Poker.Hold
