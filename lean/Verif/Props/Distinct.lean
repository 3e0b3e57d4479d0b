import Verif.Proofs.RoomCounts
import Verif.Proofs.Wide
import Verif.Props.Categories
import Mathlib.Data.Set.Card

/-! # How many different results a number of cards can have (C55) -/

namespace Poker
open Rules Tab

namespace Room

theorem mem_segment {k : Nat} (hk : k ≤ 8) {w : Nat × List Nat} :
    w ∈ (segment k).worths ↔ w ∈ Kinds.ladder ∧ w.1 = k := by
  constructor
  · intro h
    refine ⟨List.mem_flatMap.2 ⟨_, segment_mem k, h⟩, ?_⟩
    obtain ⟨c, -, rfl⟩ := List.mem_map.1 h
    exact segment_cat hk
  · rintro ⟨h, h1⟩
    obtain ⟨s, hs, hw⟩ := List.mem_flatMap.1 h
    have hc : s.cat = k := by
      obtain ⟨c, -, rfl⟩ := List.mem_map.1 hw
      exact h1
    subst hc
    simp only [Kinds.segments, List.mem_cons, List.not_mem_nil, or_false] at hs
    rcases hs with rfl | rfl | rfl | rfl | rfl | rfl | rfl | rfl | rfl <;> exact hw

theorem evalOf_injOn {w v : Nat × List Nat} (hw : w ∈ Kinds.ladder) (hv : v ∈ Kinds.ladder)
    (h : evalOf w = evalOf v) : w = v := by
  refine evalOf_inj hw hv ?_
  rw [h, Eval.eq_iff_cmp, cmp_evalOf hv hv, cmpWorth_self]

/-- The size of a set of results from the worths that lead to them. -/
theorem ncard_results {l : List (Nat × List Nat)} (hn : l.Nodup) (hl : ∀ w ∈ l, w ∈ Kinds.ladder)
    (p : Nat × List Nat → Bool) {S : Set Eval} (hS : ∀ e, e ∈ S ↔ ∃ w ∈ l, p w = true ∧ evalOf w = e) :
    S.ncard = l.countP p := by
  classical
  have hnd : ((l.filter p).map evalOf).Nodup := by
    refine List.Nodup.map_on ?_ (hn.filter _)
    intro w hw v hv h
    exact evalOf_injOn (hl w (List.mem_filter.1 hw).1) (hl v (List.mem_filter.1 hv).1) h
  have : S = (((l.filter p).map evalOf).toFinset : Set Eval) := by
    ext e
    rw [hS]
    simp [List.mem_filter, and_assoc]
  rw [this, Set.ncard_coe_finset, List.toFinset_card_of_nodup hnd, List.length_map,
    List.countP_eq_length_filter]

theorem segment_nodup (k : Nat) : (segment k).worths.Nodup := by
  have := Kinds.nodup_ladder
  rw [Kinds.ladder, List.nodup_flatMap] at this
  exact this.1 _ (segment_mem k)

theorem class_ladder {w : Nat × List Nat} (hw : w ∈ Kinds.ladder) : classNumber (evalOf w).class' = w.1 := by
  rw [class_evalOf]
  refine classNumber_className ?_
  obtain ⟨d, d1, d2, rfl⟩ := ladder_hand hw
  rw [Cat.category_five d1 d2]
  exact Cat.category_le d

/-- The number of results from the number of worths. -/
theorem category_ncard {n k : Nat} (h5 : 5 ≤ n) (hk : k ≤ 8) (p : Nat × List Nat → Bool)
    (hp : ∀ w ∈ Kinds.ladder, p w = true ↔ ∃ h : List PCard, h.Nodup ∧ h.length = n ∧ IsBest w h) :
    {e : Eval | ∃ h, evaluateHand h = .ok (.ok e) ∧ h.length = n ∧ classNumber e.class' = k}.ncard
      = (segment k).worths.countP p := by
  refine ncard_results (segment_nodup k) (fun w hw => ((mem_segment hk).1 hw).1) _ ?_
  intro e
  constructor
  · rintro ⟨h, he, hl, hc⟩
    obtain ⟨hn, -, w, hw, rfl⟩ := ok_iff.1 he
    have hwl := hw.mem_ladder
    rw [class_ladder hwl] at hc
    exact ⟨w, (mem_segment hk).2 ⟨hwl, hc⟩, (hp w hwl).2 ⟨h, hn, hl, hw⟩, rfl⟩
  · rintro ⟨w, hw, hr, rfl⟩
    obtain ⟨hw, hc⟩ := (mem_segment hk).1 hw
    obtain ⟨h, hn, hl, hb⟩ := (hp w hw).1 hr
    exact ⟨h, ok_iff.2 ⟨hn, by omega, w, hb, rfl⟩, hl, (class_ladder hw).trans hc⟩

theorem results_wide {n k : Nat} (h17 : 17 ≤ n) (h53 : n ≤ 53) (hk : k ≤ 8) :
    (if k ≤ 4 then 0 else ((Wide.wideCounts k).drop n).sum) = (results n).getD k 0 := by
  interval_cases k <;> interval_cases n <;> rfl

theorem results_none {n : Nat} (h : n < 5 ∨ 52 < n) : results n = [] := by
  unfold results
  split <;> first | omega | rfl

/-- A hand with a result has between five and fifty-two cards. -/
theorem length_ok {h : List PCard} {e : Eval} (he : evaluateHand h = .ok (.ok e)) :
    ¬(h.length < 5 ∨ 52 < h.length) := by
  obtain ⟨hn, h5, -⟩ := ok_iff.1 he
  have hp := (hn.subperm (l₂ := suits.flatMap (fun s => Forced.ranks.map (fun r => (r, s)))) (by
    intro c _
    obtain ⟨r, s⟩ := c
    cases r <;> cases s <;> decide)).length_le
  have h52 : (suits.flatMap (fun s => Forced.ranks.map (fun r => (r, s)))).length = 52 := by decide
  omega

/-- The number of worths of a category that `n` cards can have. -/
theorem counts_all {n k : Nat} (hr : ¬(n < 5 ∨ 52 < n)) (hk : k ≤ 8) (p : Nat × List Nat → Bool)
    (hp : ∀ w, p w = true ↔ ∃ h : List PCard, h.Nodup ∧ h.length = n ∧ IsBest w h) :
    (segment k).worths.countP p = (results n).getD k 0 := by
  by_cases h16 : n ≤ 16
  · rw [← counts (by omega) h16 hk]
    refine List.countP_congr (fun w hw => ?_)
    rw [hp, decide_eq_true_iff]
    exact room_iff ((mem_segment hk).1 hw).1 (by omega) h16
  · rw [Wide.countP_fits (Wide.wide_fits hk) (by omega) _ hp, Wide.wide_counts (by omega) (by omega) hk,
      results_wide (by omega) (by omega) hk]

theorem results_length (n : Nat) : (results n).length ≤ 9 := by
  unfold results
  split <;> decide

theorem results_totals (n : Nat) : (results n).sum = totals.getD n 0 := by
  by_cases hr : n ≤ 52
  · interval_cases n <;> rfl
  · have h53 : totals.length ≤ n := by
      show 53 ≤ n
      omega
    rw [results_none (Or.inr (by omega)), List.getD_eq_getElem?_getD, List.getElem?_eq_none h53]
    rfl

theorem results_sum {n : Nat} (hr : ¬(n < 5 ∨ 52 < n)) :
    (results n).getD 8 0 + ((results n).getD 7 0 + ((results n).getD 6 0 + ((results n).getD 5 0 +
      ((results n).getD 4 0 + ((results n).getD 3 0 + ((results n).getD 2 0 + ((results n).getD 1 0 +
      ((results n).getD 0 0 + 0)))))))) = (results n).sum := by
  have h1 : 5 ≤ n := by omega
  have h2 : n ≤ 52 := by omega
  clear hr
  interval_cases n <;> rfl

end Room

/-- C55: the number of different results of `evaluate` on `n` cards within each category, for every number of
cards. -/
theorem c55_category (n k : Nat) :
    {e : Eval | ∃ h, evaluateHand h = .ok (.ok e) ∧ h.length = n ∧ classNumber e.class' = k}.ncard
      = (results n).getD k 0 := by
  classical
  by_cases hr : n < 5 ∨ 52 < n
  · rw [Room.results_none hr, List.getD_nil]
    convert Set.ncard_empty Eval
    refine Set.eq_empty_of_forall_notMem ?_
    rintro e ⟨h, he, hl, -⟩
    exact Room.length_ok he (hl ▸ hr)
  by_cases hk : k ≤ 8
  · rw [Room.category_ncard (by omega) hk (fun w => decide (∃ h : List PCard, h.Nodup ∧ h.length = n ∧ IsBest w h))
      (fun w _ => decide_eq_true_iff), Room.counts_all hr hk _ (fun w => decide_eq_true_iff)]
  · have := Room.results_length n
    rw [List.getD_eq_getElem?_getD, List.getElem?_eq_none (by omega), Option.getD_none]
    convert Set.ncard_empty Eval
    refine Set.eq_empty_of_forall_notMem ?_
    rintro e ⟨h, -, -, hc⟩
    refine hk (hc ▸ ?_)
    cases e.class' <;> simp [classNumber]

/-- C55: the number of different results of `evaluate` on `n` cards: 7462 with five, 6075 with six, 4824
with seven, and only one from forty-nine cards on. -/
theorem c55_results (n : Nat) :
    {e : Eval | ∃ h, evaluateHand h = .ok (.ok e) ∧ h.length = n}.ncard = totals.getD n 0 := by
  classical
  rw [← Room.results_totals]
  by_cases hr : n < 5 ∨ 52 < n
  · rw [Room.results_none hr, List.sum_nil]
    convert Set.ncard_empty Eval
    refine Set.eq_empty_of_forall_notMem ?_
    rintro e ⟨h, he, hl⟩
    exact Room.length_ok he (hl ▸ hr)
  let p : Nat × List Nat → Bool := fun w => decide (∃ h : List PCard, h.Nodup ∧ h.length = n ∧ IsBest w h)
  have hp : ∀ w, p w = true ↔ ∃ h : List PCard, h.Nodup ∧ h.length = n ∧ IsBest w h :=
    fun w => decide_eq_true_iff
  have hc : {e : Eval | ∃ h, evaluateHand h = .ok (.ok e) ∧ h.length = n}.ncard = Kinds.ladder.countP p := by
    refine Room.ncard_results Kinds.nodup_ladder (fun _ h => h) _ ?_
    intro e
    constructor
    · rintro ⟨h, he, hl⟩
      obtain ⟨hn, -, w, hw, rfl⟩ := ok_iff.1 he
      exact ⟨w, hw.mem_ladder, (hp w).2 ⟨h, hn, hl, hw⟩, rfl⟩
    · rintro ⟨w, -, hw, rfl⟩
      obtain ⟨h, hn, hl, hb⟩ := (hp w).1 hw
      exact ⟨h, ok_iff.2 ⟨hn, by omega, w, hb, rfl⟩, hl⟩
  have hs := fun k (hk : k ≤ 8) => Room.counts_all hr hk p hp
  have h0 := hs 0 (by decide)
  have h1 := hs 1 (by decide)
  have h2 := hs 2 (by decide)
  have h3 := hs 3 (by decide)
  have h4 := hs 4 (by decide)
  have h5 := hs 5 (by decide)
  have h6 := hs 6 (by decide)
  have h7 := hs 7 (by decide)
  have h8 := hs 8 (by decide)
  simp only [Room.segment] at h0 h1 h2 h3 h4 h5 h6 h7 h8
  rw [hc, Kinds.ladder]
  simp only [Kinds.segments, List.flatMap_cons, List.flatMap_nil, List.countP_append, List.countP_nil,
    h0, h1, h2, h3, h4, h5, h6, h7, h8]
  exact Room.results_sum hr

/-- C55: results are different values exactly when the crate's `==` says so. -/
theorem c55_eq (a b : List PCard) (x y : Eval) (ha : evaluateHand a = .ok (.ok x))
    (hb : evaluateHand b = .ok (.ok y)) : x.eq y = true ↔ x = y := by
  obtain ⟨-, -, w, hw, rfl⟩ := ok_iff.1 ha
  obtain ⟨-, -, v, hv, rfl⟩ := ok_iff.1 hb
  constructor
  · intro h
    rw [evalOf_inj hw.mem_ladder hv.mem_ladder h]
  · intro h
    rw [h, Eval.eq_iff_cmp, cmp_evalOf hv.mem_ladder hv.mem_ladder, cmpWorth_self]

/-- Two hands to which `c55_eq` applies. -/
example : ∃ a b : List PCard, ∃ x y, evaluateHand a = .ok (.ok x) ∧ evaluateHand b = .ok (.ok y) ∧
    a.length = 7 ∧ b.length = 6 := by
  obtain ⟨x, hx⟩ := (c04_iff (Room.many (6, [14, 13]) |>.take 7)).2.2.2 (by decide)
  obtain ⟨y, hy⟩ := (c04_iff (Room.many (4, [9]) |>.take 6)).2.2.2 (by decide)
  exact ⟨_, _, x, y, hx, hy, by decide, by decide⟩

/-- Seven cards: 4824 different results, of which 407 are high cards. -/
example : {e : Eval | ∃ h, evaluateHand h = .ok (.ok e) ∧ h.length = 7}.ncard = 4824 ∧
    {e : Eval | ∃ h, evaluateHand h = .ok (.ok e) ∧ h.length = 7 ∧ classNumber e.class' = 0}.ncard = 407 :=
  ⟨c55_results 7, c55_category 7 0⟩

/-- Eleven cards without a pair, straight or flush all have the same result. -/
example : ∃ r : Eval, {e : Eval | ∃ h, evaluateHand h = .ok (.ok e) ∧ h.length = 11 ∧
    classNumber e.class' = 0} = {r} :=
  Set.ncard_eq_one.1 (c55_category 11 0)

/-- Twenty-six cards can have one of 678 results, of which 519 are flushes; twenty-seven cards are never a
flush. -/
example : {e : Eval | ∃ h, evaluateHand h = .ok (.ok e) ∧ h.length = 26}.ncard = 678 ∧
    {e : Eval | ∃ h, evaluateHand h = .ok (.ok e) ∧ h.length = 26 ∧ classNumber e.class' = 5}.ncard = 519 ∧
    {e : Eval | ∃ h, evaluateHand h = .ok (.ok e) ∧ h.length = 27 ∧ classNumber e.class' = 5}.ncard = 0 :=
  ⟨c55_results 26, c55_category 26 5, c55_category 27 5⟩

/-- All hands of forty-nine cards have the same result. -/
example : ∃ r : Eval, {e : Eval | ∃ h, evaluateHand h = .ok (.ok e) ∧ h.length = 49} = {r} :=
  Set.ncard_eq_one.1 (c55_results 49)

end Poker
