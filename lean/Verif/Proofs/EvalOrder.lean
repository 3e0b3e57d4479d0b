import Verif.Proofs.Lookup

/-! # The order of results (helper lemmas) -/

namespace Poker
open Rules

/-- The rank number of a result as an integer. -/
def Eval.rankInt (e : Eval) : Int := e.hand_rank.val.toInt

theorem Eval.hand_rank_eq_iff {a b : Eval} : a.hand_rank = b.hand_rank ↔ a.rankInt = b.rankInt := by
  constructor
  · intro h; rw [rankInt, rankInt, h]
  · intro h
    have := BitVec.eq_of_toInt_eq h
    cases ha : a.hand_rank
    cases hb : b.hand_rank
    rw [ha, hb] at this
    exact congrArg _ this

theorem Eval.cmp_eq (a b : Eval) : a.cmp b = compare b.rankInt a.rankInt := by
  show (if a.hand_rank.is_better_than b.hand_rank then Ordering.gt
    else if a.hand_rank = b.hand_rank then .eq else .lt) = _
  rw [show a.hand_rank.is_better_than b.hand_rank = decide (a.rankInt < b.rankInt) from rfl]
  simp only [Eval.hand_rank_eq_iff, decide_eq_true_eq]
  rcases Int.lt_trichotomy a.rankInt b.rankInt with h | h | h
  · rw [if_pos h, Int.compare_eq_gt.2 h]
  · rw [if_neg (by omega), if_pos h, Int.compare_eq_eq.2 h.symm]
  · rw [if_neg (by omega), if_neg (by omega), Int.compare_eq_lt.2 h]

theorem Eval.partial_cmp_eq (a b : Eval) : a.partial_cmp b = some (a.cmp b) := by
  show (if a.hand_rank.is_better_than b.hand_rank then some Ordering.gt
    else if a.hand_rank = b.hand_rank then some .eq else some .lt)
    = some (if a.hand_rank.is_better_than b.hand_rank then Ordering.gt
    else if a.hand_rank = b.hand_rank then .eq else .lt)
  split
  · rfl
  · split <;> rfl

theorem Eval.gt_iff (a b : Eval) : a.gt b = true ↔ a.cmp b = .gt := by
  simp [Eval.gt, Eval.partial_cmp_eq]

theorem Eval.lt_iff (a b : Eval) : a.lt b = true ↔ a.cmp b = .lt := by
  simp [Eval.lt, Eval.partial_cmp_eq]

theorem Eval.cmp_swap (a b : Eval) : (a.cmp b).swap = b.cmp a := by
  rw [Eval.cmp_eq, Eval.cmp_eq, Std.OrientedCmp.eq_swap (cmp := compare), Ordering.swap_swap]

theorem Eval.eq_iff_cmp (a b : Eval) : a.eq b = true ↔ a.cmp b = .eq := by
  rw [Eval.cmp_eq, Std.LawfulEqCmp.compare_eq_iff_eq]
  have : (a.eq b = true) ↔ a.hand_rank = b.hand_rank := by
    show decide (a.hand_rank = b.hand_rank) = true ↔ _
    simp
  rw [this, Eval.hand_rank_eq_iff, eq_comm]

namespace Tab

/-- The result for a worth. -/
def evalOf (w : Nat × List Nat) : Eval := ⟨metaFor w⟩

theorem class_mkMeta (c : EvalClass) (n : BitVec 16) : (mkMeta c n).class' = c := by cases c <;> rfl

theorem rank_mkMeta (c : EvalClass) (n : BitVec 16) : (mkMeta c n).hand_rank = ⟨n⟩ := by
  cases c <;> rfl

theorem mkMeta_class (m : Meta) : mkMeta m.class' m.hand_rank.val = m := by cases m <;> rfl

theorem class_evalOf (w : Nat × List Nat) : (evalOf w).class' = className w := class_mkMeta ..

theorem hand_rank_evalOf (w : Nat × List Nat) :
    (evalOf w).hand_rank = ⟨BitVec.ofNat 16 (Kinds.rankNo w)⟩ := rank_mkMeta ..

theorem rankInt_evalOf {w : Nat × List Nat} (h : w ∈ Kinds.ladder) :
    (evalOf w).rankInt = Kinds.rankNo w := by
  have := Kinds.rankNo_le h
  rw [Eval.rankInt, hand_rank_evalOf]
  rw [BitVec.toInt_eq_toNat_of_lt]
  · rw [BitVec.toNat_ofNat, Nat.mod_eq_of_lt (by omega)]
  · rw [BitVec.toNat_ofNat, Nat.mod_eq_of_lt (by omega)]; omega

theorem cmp_evalOf {w v : Nat × List Nat} (hw : w ∈ Kinds.ladder) (hv : v ∈ Kinds.ladder) :
    (evalOf w).cmp (evalOf v) = cmpWorth w v := by
  rw [Eval.cmp_eq, rankInt_evalOf hw, rankInt_evalOf hv, ← Kinds.compare_rankNo hw hv]
  rcases Nat.lt_trichotomy (Kinds.rankNo v) (Kinds.rankNo w) with h | h | h
  · rw [Nat.compare_eq_lt.2 h, Int.compare_eq_lt]; omega
  · rw [h, Nat.compare_eq_eq.2 rfl, Std.LawfulEqCmp.compare_eq_iff_eq]
  · rw [Nat.compare_eq_gt.2 h, Int.compare_eq_gt]; omega

theorem evalOf_inj {w v : Nat × List Nat} (hw : w ∈ Kinds.ladder) (hv : v ∈ Kinds.ladder)
    (h : (evalOf w).eq (evalOf v) = true) : w = v := by
  rw [Eval.eq_iff_cmp, cmp_evalOf hw hv] at h
  exact cmpWorth_eq_iff.1 h

end Tab
end Poker
