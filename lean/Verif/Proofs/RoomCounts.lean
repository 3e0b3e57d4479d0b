import Verif.Proofs.RoomPowers
import Verif.Proofs.RoomCases
import Verif.Proofs.SevenSum
import Verif.Spec.Distinct

/-! # How many worths leave room for how many cards (helper lemmas) -/

namespace Poker.Room
open Rules

theorem count_step (l : List Nat) (n : Nat) :
    l.countP (fun e => decide (n ≤ e)) = l.count n + l.countP (fun e => decide (n + 1 ≤ e)) := by
  induction l with
  | nil => rfl
  | cons e l ih =>
    rw [List.countP_cons, ih, List.count_cons, List.countP_cons]
    by_cases h1 : n + 1 ≤ e
    · have h2 : n ≤ e := by omega
      have h3 : ¬ e = n := by omega
      simp [h1, h2, h3]
      omega
    · by_cases h2 : n ≤ e
      · have h3 : e = n := by omega
        subst h3
        simp
        omega
      · have h3 : ¬ e = n := by omega
        simp [h1, h2, h3]

theorem counts_from {s : Kinds.Segment} {ds : List Nat} (hl : s.worths.length < 10000) (hds : ds.length = 17)
    (hd : ∀ d ∈ ds, d < 10000) (h : Nat.beq (powers s) (number ds) = true) {n : Nat} (hn : n ≤ 17) :
    s.worths.countP (fun w => decide (n ≤ room w)) = (ds.drop n).sum := by
  have hc := Seven.count_digits 10000 ds (s.worths.map room) (by rw [List.length_map]; exact hl)
    (by
      intro e he
      obtain ⟨w, -, rfl⟩ := List.mem_map.1 he
      have := room_le w
      omega) hd (Nat.eq_of_beq_eq_true h)
  have e : s.worths.countP (fun w => decide (n ≤ room w))
      = (s.worths.map room).countP (fun e => decide (n ≤ e)) := by rw [List.countP_map]; rfl
  rw [e]
  obtain ⟨j, rfl⟩ : ∃ j, n = 17 - j := ⟨17 - n, by omega⟩
  clear e
  induction j with
  | zero =>
    rw [Nat.sub_zero, List.drop_of_length_le (by omega), List.sum_nil, List.countP_eq_zero]
    intro e he
    obtain ⟨w, -, rfl⟩ := List.mem_map.1 he
    have := room_le w
    simp only [decide_eq_true_eq]
    omega
  | succ j ih =>
    by_cases hj : j < 17
    · rw [count_step, show 17 - (j + 1) + 1 = 17 - j by omega, ih (by omega), hc _ (by omega)]
      rw [List.drop_eq_getElem_cons (i := 17 - (j + 1)) (by omega), List.sum_cons,
        show 17 - (j + 1) + 1 = 17 - j by omega]
    · rw [show 17 - (j + 1) = 17 - j by omega]
      exact ih (by omega)

theorem worths_length {s : Kinds.Segment} (hs : s ∈ Kinds.segments) : s.worths.length < 10000 := by
  have : ∀ x ∈ Kinds.segments.map (fun s => s.seg.length), x < 10000 := by
    rw [Kinds.lengths]; decide
  rw [Kinds.Segment.worths, List.length_map]
  exact this _ (List.mem_map_of_mem hs)

/-- The worths of each category, high card first. -/
def segment (k : Nat) : Kinds.Segment :=
  match k with
  | 0 => Kinds.sHigh
  | 1 => Kinds.sPair
  | 2 => Kinds.sTwoPair
  | 3 => Kinds.sTrips
  | 4 => Kinds.sStraight
  | 5 => Kinds.sFlush
  | 6 => Kinds.sFullHouse
  | 7 => Kinds.sQuads
  | _ => Kinds.sStraightFlush

theorem segment_mem (k : Nat) : segment k ∈ Kinds.segments := by
  unfold segment Kinds.segments
  split <;> simp

theorem segment_cat {k : Nat} (hk : k ≤ 8) : (segment k).cat = k := by
  interval_cases k <;> rfl

theorem counts {n k : Nat} (h5 : 5 ≤ n) (h16 : n ≤ 16) (hk : k ≤ 8) :
    (segment k).worths.countP (fun w => decide (n ≤ room w)) = (results n).getD k 0 := by
  have hl := worths_length (segment_mem k)
  interval_cases k <;> dsimp only [segment] at hl
  · show Kinds.sHigh.worths.countP _ = _
    rw [counts_from (s := Kinds.sHigh) hl rfl (by decide) powers_0 (by omega)]
    interval_cases n <;> rfl
  · show Kinds.sPair.worths.countP _ = _
    rw [counts_from (s := Kinds.sPair) hl rfl (by decide) powers_1 (by omega)]
    interval_cases n <;> rfl
  · show Kinds.sTwoPair.worths.countP _ = _
    rw [counts_from (s := Kinds.sTwoPair) hl rfl (by decide) powers_2 (by omega)]
    interval_cases n <;> rfl
  · show Kinds.sTrips.worths.countP _ = _
    rw [counts_from (s := Kinds.sTrips) hl rfl (by decide) powers_3 (by omega)]
    interval_cases n <;> rfl
  · show Kinds.sStraight.worths.countP _ = _
    rw [counts_from (s := Kinds.sStraight) hl rfl (by decide) powers_4 (by omega)]
    interval_cases n <;> rfl
  · show Kinds.sFlush.worths.countP _ = _
    rw [counts_from (s := Kinds.sFlush) hl rfl (by decide) powers_5 (by omega)]
    interval_cases n <;> rfl
  · show Kinds.sFullHouse.worths.countP _ = _
    rw [counts_from (s := Kinds.sFullHouse) hl rfl (by decide) powers_6 (by omega)]
    interval_cases n <;> rfl
  · show Kinds.sQuads.worths.countP _ = _
    rw [counts_from (s := Kinds.sQuads) hl rfl (by decide) powers_7 (by omega)]
    interval_cases n <;> rfl
  · show Kinds.sStraightFlush.worths.countP _ = _
    rw [counts_from (s := Kinds.sStraightFlush) hl rfl (by decide) powers_8 (by omega)]
    interval_cases n <;> rfl

end Poker.Room
