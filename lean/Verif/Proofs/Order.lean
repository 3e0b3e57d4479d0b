import Verif.Proofs.Kinds

/-! # The ladder of worths (helper lemmas)

`ladder` lists the 7462 worths of five-card hands, best first. -/

namespace Poker
open Rules

namespace Rules

theorem cmpList_eq_iff : ∀ {a b : List Nat}, cmpList a b = .eq ↔ a = b
  | [], [] => by simp [cmpList]
  | [], _ :: _ => by simp [cmpList]
  | _ :: _, [] => by simp [cmpList]
  | a :: as, b :: bs => by
    simp [cmpList, Ordering.then_eq_eq, cmpList_eq_iff]

theorem cmpList_swap : ∀ (a b : List Nat), (cmpList a b).swap = cmpList b a
  | [], [] => by simp [cmpList]
  | [], _ :: _ => by simp [cmpList]
  | _ :: _, [] => by simp [cmpList]
  | a :: as, b :: bs => by
    simp only [cmpList, Ordering.swap_then, cmpList_swap as bs, Nat.compare_swap]

theorem cmpList_gt_trans : ∀ {a b c : List Nat}, cmpList a b = .gt → cmpList b c = .gt →
    cmpList a c = .gt
  | [], [], _, h, _ => by simp [cmpList] at h
  | [], _ :: _, _, h, _ => by simp [cmpList] at h
  | _ :: _, [], [], _, h => by simp [cmpList] at h
  | _ :: _, [], _ :: _, _, h => by simp [cmpList] at h
  | _ :: _, _ :: _, [], _, _ => by simp [cmpList]
  | a :: as, b :: bs, c :: cs, h1, h2 => by
    simp only [cmpList, Ordering.then_eq_gt, Nat.compare_eq_gt, Nat.compare_eq_eq] at h1 h2 ⊢
    rcases h1 with h1 | ⟨h1, h1'⟩ <;> rcases h2 with h2 | ⟨h2, h2'⟩
    · left; omega
    · left; omega
    · left; omega
    · right; exact ⟨by omega, cmpList_gt_trans h1' h2'⟩

theorem cmpWorth_eq_iff {a b : Nat × List Nat} : cmpWorth a b = .eq ↔ a = b := by
  simp [cmpWorth, Ordering.then_eq_eq, cmpList_eq_iff, Prod.ext_iff]

theorem cmpWorth_swap (a b : Nat × List Nat) : (cmpWorth a b).swap = cmpWorth b a := by
  simp only [cmpWorth, Ordering.swap_then, cmpList_swap, Nat.compare_swap]

theorem cmpWorth_gt_trans {a b c : Nat × List Nat} (h1 : cmpWorth a b = .gt)
    (h2 : cmpWorth b c = .gt) : cmpWorth a c = .gt := by
  simp only [cmpWorth, Ordering.then_eq_gt, Nat.compare_eq_gt, Nat.compare_eq_eq] at h1 h2 ⊢
  rcases h1 with h1 | ⟨h1, h1'⟩ <;> rcases h2 with h2 | ⟨h2, h2'⟩
  · left; omega
  · left; omega
  · left; omega
  · right; exact ⟨by omega, cmpList_gt_trans h1' h2'⟩

theorem cmpWorth_lt_iff {a b : Nat × List Nat} : cmpWorth a b = .lt ↔ cmpWorth b a = .gt := by
  rw [← cmpWorth_swap b a]
  cases cmpWorth b a <;> simp [Ordering.swap]

theorem cmpWorth_self (a : Nat × List Nat) : cmpWorth a a = .eq := cmpWorth_eq_iff.2 rfl

end Rules

namespace Kinds

/-- Worth of the `c`-th kind of a segment, in closed form. -/
def Segment.worths (s : Segment) : List (Nat × List Nat) := s.seg.map (fun c => (s.cat, s.key c))

def segments : List Segment :=
  [sStraightFlush, sQuads, sFullHouse, sFlush, sStraight, sTrips, sTwoPair, sPair, sHigh]

/-- All worths, best first. -/
def ladder : List (Nat × List Nat) := segments.flatMap Segment.worths

set_option maxRecDepth 100000 in
theorem desc_ladder : desc ladder = true := by decide +kernel

set_option maxRecDepth 100000 in
theorem lengths :
    segments.map (fun s => s.seg.length) = [10, 156, 156, 1277, 10, 858, 858, 2860, 1277] := by
  decide +kernel

theorem length_ladder : ladder.length = 7462 := by
  have h := lengths
  simp only [segments, List.map_cons, List.map_nil, List.cons.injEq, and_true] at h
  simp only [ladder, segments, List.flatMap_cons, List.flatMap_nil, List.length_append,
    Segment.worths, List.length_map, List.length_nil]
  omega

theorem checks {s : Segment} (hs : s ∈ segments) : s.check = true := by
  simp only [segments, List.mem_cons, List.not_mem_nil, or_false] at hs
  rcases hs with rfl | rfl | rfl | rfl | rfl | rfl | rfl | rfl | rfl
  · exact check_straightFlush
  · exact check_quads
  · exact check_fullHouses
  · exact check_flush
  · exact check_straights
  · exact check_trips
  · exact check_twoPairs
  · exact check_pairs
  · exact check_high

theorem worth_seg {s : Segment} (hs : s ∈ segments) {c : List Nat} (hc : c ∈ s.seg) :
    worth s.fl c = (s.cat, s.key c) := by
  have h := checks hs
  unfold Segment.check at h
  rw [List.all_eq_true] at h
  exact eq_of_beq (h c hc)

theorem pairwise_of_desc : ∀ (l : List (Nat × List Nat)), desc l = true →
    l.Pairwise (fun a b => cmpWorth a b = .gt)
  | [], _ => .nil
  | [_], _ => by simp
  | a :: b :: r, h => by
    simp only [desc, Bool.and_eq_true, beq_iff_eq] at h
    have ih := pairwise_of_desc (b :: r) h.2
    refine List.pairwise_cons.2 ⟨?_, ih⟩
    intro x hx
    rcases List.mem_cons.1 hx with rfl | hx
    · exact h.1
    · exact cmpWorth_gt_trans h.1 ((List.pairwise_cons.1 ih).1 x hx)

theorem pairwise_ladder : ladder.Pairwise (fun a b => cmpWorth a b = .gt) :=
  pairwise_of_desc _ desc_ladder

theorem nodup_ladder : ladder.Nodup := by
  refine pairwise_ladder.imp ?_
  rintro a b h rfl
  rw [cmpWorth_self] at h
  cases h

/-- The rank number of a worth: its position on the ladder, counted from 1. -/
def rankNo (w : Nat × List Nat) : Nat := ladder.idxOf w + 1

theorem rankNo_le {w : Nat × List Nat} (h : w ∈ ladder) : rankNo w ≤ 7462 := by
  have := List.idxOf_lt_length_of_mem h
  rw [length_ladder] at this
  simp only [rankNo]
  omega

theorem rankNo_pos (w : Nat × List Nat) : 1 ≤ rankNo w := by simp [rankNo]

theorem getElem_rankNo {w : Nat × List Nat} (h : w ∈ ladder) :
    ladder[rankNo w - 1]? = some w := by
  simp only [rankNo, Nat.add_sub_cancel]
  have hlt := List.idxOf_lt_length_of_mem h
  rw [List.getElem?_eq_getElem hlt, List.getElem_idxOf hlt]

theorem rankNo_getElem {i : Nat} (h : i < ladder.length) : rankNo ladder[i] = i + 1 := by
  simp only [rankNo, nodup_ladder.idxOf_getElem i h]

theorem rankNo_inj {w w' : Nat × List Nat} (h : w ∈ ladder) (h' : w' ∈ ladder)
    (he : rankNo w = rankNo w') : w = w' := by
  have h1 := getElem_rankNo h
  rw [he, getElem_rankNo h'] at h1
  exact (Option.some.inj h1).symm

theorem rankNo_lt_of_gt {w w' : Nat × List Nat} (h : w ∈ ladder) (h' : w' ∈ ladder)
    (hlt : rankNo w < rankNo w') : cmpWorth w w' = .gt := by
  have i1 := List.idxOf_lt_length_of_mem h
  have i2 := List.idxOf_lt_length_of_mem h'
  have := List.pairwise_iff_getElem.1 pairwise_ladder _ _ i1 i2 (by simpa [rankNo] using hlt)
  rwa [List.getElem_idxOf i1, List.getElem_idxOf i2] at this

/-- Rank numbers are compared as worths, in the opposite direction. -/
theorem compare_rankNo {w w' : Nat × List Nat} (h : w ∈ ladder) (h' : w' ∈ ladder) :
    compare (rankNo w') (rankNo w) = cmpWorth w w' := by
  rcases Nat.lt_trichotomy (rankNo w) (rankNo w') with hlt | heq | hgt
  · rw [rankNo_lt_of_gt h h' hlt, Nat.compare_eq_gt]; exact hlt
  · rw [rankNo_inj h h' heq, cmpWorth_self, Nat.compare_eq_eq]
  · have := rankNo_lt_of_gt h' h hgt
    rw [cmpWorth_lt_iff.2 this, Nat.compare_eq_lt]; exact hgt

end Kinds
end Poker
