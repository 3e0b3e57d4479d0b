import Verif.Proofs.HoldDefs

/-! The kind of a hand from its values: `quick` is `fast`. -/

namespace Poker.Hold
open Rules Counts

theorem quick_mixed : (falling 5 allValues).all (quickOk false) = true := by decide +kernel

theorem quick_suited : (List.sublistsLen 5 allValues).all (quickOk true) = true := by decide +kernel

end Poker.Hold
