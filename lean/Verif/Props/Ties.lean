import Verif.Spec.Ties
import Verif.Proofs.Ties

/-! # How many hands are worth the same, more and less: C58 -/

namespace Poker
open Rules Tab Counts Ties

theorem count_ranks (x : Finset PCard) (r : Rank) :
    (x.toList.map (·.1)).count r = (x.filter (fun c => c.1 = r)).card := by
  rw [Finset.card_def, Finset.filter_val, ← Multiset.countP_eq_card_filter, ← Finset.coe_toList x,
    Multiset.coe_countP, List.count_eq_countP, List.countP_map]
  refine List.countP_congr (fun c _ => ?_)
  simp

theorem gets_tie {h : List PCard} {e : Eval} (hn : h.Nodup) (h5 : h.length = 5)
    (he : evaluateHand h = .ok (.ok e)) {x : Finset PCard} (hx : x.card = 5) :
    Gets (fun e' => e'.eq e = true) x ↔
      x ∈ withCounts (h.map (·.1)).count ∧ (OneSuit x ↔ ∃ s, ∀ c ∈ h, c.2 = s) := by
  have hl : x.toList.toFinset = x := Finset.toList_toFinset x
  have hln : x.toList.Nodup := Finset.nodup_toList x
  have h1 := (c45_order (fun e' => e'.eq e = true) x.toList hln).2
  rw [hl] at h1
  rw [h1]
  obtain ⟨a, b, ha, hb, hab⟩ := c29_ties x.toList h hln (by rw [Finset.length_toList, hx]) hn h5
  rw [he] at hb
  cases hb
  have h2 : (∃ e', evaluateHand x.toList = .ok (.ok e') ∧ e'.eq e = true) ↔ a.eq e = true := by
    rw [ha]
    constructor
    · rintro ⟨e', h, h'⟩
      cases h
      exact h'
    · exact fun h => ⟨a, rfl, h⟩
  rw [h2, hab, List.perm_iff_count, mem_withCounts]
  simp only [count_ranks, OneSuit, Finset.mem_toList]

theorem counts_sum (x : Finset PCard) : ∑ r, (x.filter (fun c => c.1 = r)).card = x.card :=
  (Finset.card_eq_sum_card_fiberwise (fun _ _ => Finset.mem_univ _)).symm

theorem card_of_counts {h : List PCard} (hn : h.Nodup) {x : Finset PCard}
    (hx : x ∈ withCounts (h.map (·.1)).count) : x.card = h.length := by
  rw [← counts_sum, ← List.toFinset_card_of_nodup hn, ← counts_sum]
  refine Finset.sum_congr rfl (fun r _ => ?_)
  rw [mem_withCounts.1 hx r, ← count_ranks]
  exact ((Sets.toFinset_perm hn).map _).count_eq r |>.symm

/-- The numbers of values that occur four, three, two times and once in hands of a category that are not
of one suit. -/
def repeats : Nat → Nat × Nat × Nat × Nat
  | 7 => (1, 0, 0, 1)
  | 6 => (0, 1, 1, 0)
  | 3 => (0, 1, 0, 2)
  | 2 => (0, 0, 2, 1)
  | 1 => (0, 0, 1, 3)
  | _ => (0, 0, 0, 5)

def code : Nat × Nat × Nat × Nat → Nat
  | (a, b, c, d) => 13 - (a + b + c + d) + 16 * d + 256 * c + 4096 * b + 65536 * a

set_option maxRecDepth 100000 in
theorem check_repeats : Kinds.segments.all (fun s => s.fl.or
    (s.seg.all (fun c => Nat.beq (digits c allValues) (code (repeats s.cat))))) = true := by
  decide +kernel

theorem prod_ways (c : Nat → Nat) (hc : ∀ v, c v ≤ 4) (l : List Nat) :
    (l.map (fun v => Nat.choose 4 (c v))).prod
      = 4 ^ howMany c 1 l * 6 ^ howMany c 2 l * 4 ^ howMany c 3 l := by
  induction l with
  | nil => rfl
  | cons v l ih =>
    rw [List.map_cons, List.prod_cons, ih]
    have h1 : ∀ m, howMany c m (v :: l) = (if c v = m then 1 else 0) + howMany c m l := by
      intro m
      simp only [howMany, List.filter_cons, beq_iff_eq]
      split <;> simp [Nat.add_comm]
    rw [h1, h1, h1]
    have := hc v
    generalize c v = k at this ⊢
    interval_cases k <;> simp [Nat.choose] <;> ring

theorem prod_ranks (f : Nat → Nat) : ∏ r : Rank, f (pips r) = (allValues.map f).prod := by
  show ((Finset.univ : Finset Rank).val.map (fun r => f (pips r))).prod = _
  rw [show (Finset.univ : Finset Rank).val = (([.Two, .Three, .Four, .Five, .Six, .Seven, .Eight, .Nine,
    .Ten, .Jack, .Queen, .King, .Ace] : List Rank) : Multiset Rank) from rfl, Multiset.map_coe,
    Multiset.prod_coe]
  simp only [List.map_cons, List.map_nil, List.prod_cons, List.prod_nil, pips, allValues]
  ring

theorem count_pips (h : List PCard) (r : Rank) : (h.map (·.1)).count r = (values h).count (pips r) := by
  simp only [values, List.count_eq_countP, List.countP_map]
  refine List.countP_congr (fun c _ => ?_)
  have : ∀ a b : Rank, pips a = pips b ↔ a = b := by decide
  simp [this]

/-- The kind of a five-card hand, with its segment. -/
theorem hand_segment {h : List PCard} (hn : h.Nodup) (h5 : h.length = 5) :
    ∃ s ∈ Kinds.segments, s.fl = Rules.flush h ∧ (strength h).1 = s.cat ∧
      (s.fl = false → shape (values h) = List.replicate (repeats s.cat).1 4
        ++ (List.replicate (repeats s.cat).2.1 3 ++ (List.replicate (repeats s.cat).2.2.1 2
        ++ (List.replicate (repeats s.cat).2.2.2 1 ++ [])))) := by
  obtain ⟨c, hc, hp⟩ := hand_kind hn h5
  obtain ⟨s, hs, hm⟩ := List.mem_flatMap.1 hc
  obtain ⟨c', hc', he⟩ := List.mem_map.1 hm
  rw [Prod.mk.injEq] at he
  obtain ⟨hf, rfl⟩ := he
  refine ⟨s, hs, hf, ?_, ?_⟩
  · rw [strength, ← hf, worth_perm _ hp, Kinds.worth_seg hs hc']
  · intro hfl
    have h1 := List.all_eq_true.1 check_repeats s hs
    rw [hfl, Bool.false_or, List.all_eq_true] at h1
    have h2 := h1 c' hc'
    have hcnt : ∀ v, c'.count v ≤ 4 := fun v => by
      rw [← hp.count_eq]
      exact count_values_le hn v
    have hlt : (repeats s.cat).1 + (repeats s.cat).2.1 + (repeats s.cat).2.2.1 + (repeats s.cat).2.2.2 ≤ 13 := by
      unfold repeats
      split <;> decide
    have h3 := digits_shape c' hcnt _ _ _ _ hlt
    rw [show shape (values h) = shape c' from ?_]
    · have := h3.symm.trans h2
      exact of_decide_eq_true this
    · exact shape_perm hp

theorem howMany_pos {c : Nat → Nat} {m : Nat} {l : List Nat} (h : howMany c m l ≠ 0) :
    ∃ v ∈ l, c v = m := by
  obtain ⟨v, hv⟩ := List.exists_mem_of_length_pos (Nat.pos_of_ne_zero h)
  rw [List.mem_filter, beq_iff_eq] at hv
  exact ⟨v, hv.1, hv.2⟩

theorem value_rank {v : Nat} (hv : v ∈ allValues) : ∃ r : Rank, pips r = v := ⟨rankOf v, pips_rankOf hv⟩

theorem counts_flush {h : List PCard} (hn : h.Nodup) (hf : ∃ s, ∀ c ∈ h, c.2 = s) (r : Rank) :
    (h.map (·.1)).count r ≤ 1 := by
  obtain ⟨s, hs⟩ := hf
  refine List.nodup_iff_count_le_one.1 ?_ r
  refine List.Nodup.map_on ?_ hn
  intro a ha b hb hab
  exact Prod.ext hab ((hs a ha).trans (hs b hb).symm)

/-- The category of a result, as the number of hands that tie. -/
theorem tied_class (w : Nat × List Nat) : tied (className w)
    = match w.1 with
      | 8 => 4 | 7 => 4 | 6 => 24 | 5 => 4 | 4 => 1020 | 3 => 64 | 2 => 144 | 1 => 384 | _ => 1020 := by
  obtain ⟨k, l⟩ := w
  simp only [className]
  split <;> simp_all [tied]

open Classical in
/-- C58: how many of the hands of five cards are worth exactly as much as a given one: 1020 for a high
card or a straight, 384 for a pair, 144 for two pairs, 64 for three of a kind, 24 for a full house and 4
for a flush, four of a kind or a straight flush. -/
theorem c58_ties (h : List PCard) (e : Eval) (h5 : h.length = 5) (he : evaluateHand h = .ok (.ok e)) :
    handsWith (fun e' => e'.eq e = true) = tied e.class' := by
  obtain ⟨hn, -, w, hw, hwe⟩ := ok_iff.1 he
  have hstr : strength h = w := (isBest_five hn h5).unique hw
  have hset : fiveCardHands.filter (Gets (fun e' => e'.eq e = true))
      = (withCounts (h.map (·.1)).count).filter (fun x => OneSuit x ↔ ∃ s, ∀ c ∈ h, c.2 = s) := by
    ext x
    rw [Finset.mem_filter, Finset.mem_filter]
    constructor
    · rintro ⟨hx, hg⟩
      exact (gets_tie hn h5 he (Finset.mem_powersetCard.1 hx).2).1 hg
    · intro hx
      have hc := (card_of_counts hn hx.1).trans h5
      exact ⟨Finset.mem_powersetCard.2 ⟨fun c _ => pack_complete c, hc⟩, (gets_tie hn h5 he hc).2 hx⟩
  obtain ⟨s, hs, hfl, hcat, hsh⟩ := hand_segment hn h5
  rw [handsWith, hset, hwe, class_evalOf, ← hstr, tied_class, hcat]
  by_cases hf : ∃ s, ∀ c ∈ h, c.2 = s
  · -- of one suit
    have hone : (withCounts (h.map (·.1)).count).filter (fun x => OneSuit x ↔ ∃ s, ∀ c ∈ h, c.2 = s)
        = (withCounts (h.map (·.1)).count).filter OneSuit :=
      Finset.filter_congr (fun x _ => by simp only [hf, iff_true])
    obtain ⟨c, hc⟩ := List.exists_mem_of_length_pos (by omega : 0 < h.length)
    have h1 := counts_flush hn hf
    have h2 : (h.map (·.1)).count c.1 = 1 :=
      Nat.le_antisymm (h1 _) (List.count_pos_iff.2 (List.mem_map_of_mem hc))
    have := oneSuit_card h1 c.1 h2
    rw [hone]
    have hflush : s.fl = true := by rw [hfl]; exact flush_iff.2 hf
    have hcats : s.cat = 8 ∨ s.cat = 5 := by
      simp only [Kinds.segments, List.mem_cons, List.not_mem_nil, or_false] at hs
      rcases hs with rfl | rfl | rfl | rfl | rfl | rfl | rfl | rfl | rfl
      all_goals first | (exact .inl rfl) | (exact .inr rfl) | cases hflush
    have e4 : ((withCounts (h.map (·.1)).count).filter OneSuit).card = 4 := by
      convert this using 2
    rcases hcats with h8 | h8
    · rw [h8, e4]; rfl
    · rw [h8, e4]; rfl
  · -- of several suits
    have hnot : (withCounts (h.map (·.1)).count).filter (fun x => OneSuit x ↔ ∃ s, ∀ c ∈ h, c.2 = s)
        = (withCounts (h.map (·.1)).count).filter (fun x => ¬ OneSuit x) :=
      Finset.filter_congr (fun x _ => by simp only [hf, iff_false])
    have hsum := Finset.card_filter_add_card_filter_not (s := withCounts (h.map (·.1)).count) OneSuit
    have hcnt : ∀ v, (values h).count v ≤ 4 := count_values_le hn
    have hflush : s.fl = false := by
      rw [hfl, Bool.eq_false_iff]
      exact fun h => hf (flush_iff.1 h)
    obtain ⟨h4, h3, h2, h1⟩ := (shape_iff _ _ _ _ _).1 (hsh hflush)
    have hall : (withCounts (h.map (·.1)).count).card = 4 ^ (repeats s.cat).2.2.2
        * 6 ^ (repeats s.cat).2.2.1 * 4 ^ (repeats s.cat).2.1 := by
      rw [withCounts_card, ← h1, ← h2, ← h3, ← prod_ways _ hcnt,
        ← prod_ranks (fun v => Nat.choose 4 ((values h).count v))]
      exact Finset.prod_congr rfl (fun r _ => by rw [count_pips])
    have hnone : ∀ m, 2 ≤ m → howMany (values h).count m allValues ≠ 0 →
        ((withCounts (h.map (·.1)).count).filter OneSuit).card = 0 := by
      intro m hm hne
      obtain ⟨v, hv, hc⟩ := howMany_pos hne
      obtain ⟨r, rfl⟩ := value_rank hv
      rw [Finset.card_eq_zero]
      convert oneSuit_none (m := (h.map (·.1)).count) (r := r) (by rw [count_pips, hc]; exact hm)
    have hfour : howMany (values h).count 4 allValues = 0 → howMany (values h).count 3 allValues = 0 →
        howMany (values h).count 2 allValues = 0 → 
        ((withCounts (h.map (·.1)).count).filter OneSuit).card = 4 := by
      intro z4 z3 z2
      have hle : ∀ r, (h.map (·.1)).count r ≤ 1 := by
        intro r
        rw [count_pips]
        have hz : ∀ m, howMany (values h).count m allValues = 0 → (values h).count (pips r) ≠ m := by
          intro m hm e
          have : pips r ∈ allValues.filter (fun v => (values h).count v == m) :=
            List.mem_filter.2 ⟨by cases r <;> decide, by simpa using e⟩
          rw [howMany, List.length_eq_zero_iff] at hm
          rw [hm] at this
          cases this
        have := hcnt (pips r)
        have := hz 4 z4
        have := hz 3 z3
        have := hz 2 z2
        omega
      obtain ⟨c, hc⟩ := List.exists_mem_of_length_pos (by omega : 0 < h.length)
      have := oneSuit_card hle c.1
        (Nat.le_antisymm (hle _) (List.count_pos_iff.2 (List.mem_map_of_mem hc)))
      convert this using 2
    rw [hnot]
    simp only [Kinds.segments, List.mem_cons, List.not_mem_nil, or_false] at hs
    rcases hs with rfl | rfl | rfl | rfl | rfl | rfl | rfl | rfl | rfl
    · cases hflush
    · have := hnone 4 (by decide) (by rw [h4]; decide)
      rw [this, hall, Nat.zero_add] at hsum
      exact hsum
    · have := hnone 3 (by decide) (by rw [h3]; decide)
      rw [this, hall, Nat.zero_add] at hsum
      exact hsum
    · cases hflush
    · rw [hfour h4 h3 h2, hall] at hsum
      exact Nat.add_left_cancel (hsum.trans (by decide : _ = 4 + 1020))
    · have := hnone 3 (by decide) (by rw [h3]; decide)
      rw [this, hall, Nat.zero_add] at hsum
      exact hsum
    · have := hnone 2 (by decide) (by rw [h2]; decide)
      rw [this, hall, Nat.zero_add] at hsum
      exact hsum
    · have := hnone 2 (by decide) (by rw [h2]; decide)
      rw [this, hall, Nat.zero_add] at hsum
      exact hsum
    · rw [hfour h4 h3 h2, hall] at hsum
      exact Nat.add_left_cancel (hsum.trans (by decide : _ = 4 + 1020))

/-- There is a hand as in the hypotheses. -/
example : wheelHand.length = 5 ∧ ∃ e, evaluateHand wheelHand = .ok (.ok e) ∧ tied e.class' = 1020 := by
  obtain ⟨e, he, hc⟩ := c01_class wheelHand (by decide) (by decide)
  exact ⟨rfl, e, he, by rw [hc]; decide⟩

theorem gets_iff {p : Eval → Prop} {x : Finset PCard} :
    Gets p x ↔ ∃ e, evaluateHand x.toList = .ok (.ok e) ∧ p e := by
  have := (c45_order p x.toList (Finset.nodup_toList x)).2
  rwa [Finset.toList_toFinset] at this

open Classical in
theorem handsWith_add (p q r : Eval → Prop) (h1 : ∀ e, r e ↔ p e ∨ q e) (h2 : ∀ e, p e → ¬ q e) :
    handsWith r = handsWith p + handsWith q := by
  rw [handsWith, handsWith, handsWith, ← Finset.card_union_of_disjoint, ← Finset.filter_or]
  · congr 1
    refine Finset.filter_congr (fun x _ => ?_)
    rw [gets_iff, gets_iff, gets_iff, ← exists_or]
    exact exists_congr (fun e => by rw [h1, and_or_left])
  · rw [Finset.disjoint_filter]
    intro x _ hp hq
    obtain ⟨e, he, hp⟩ := gets_iff.1 hp
    obtain ⟨e', he', hq⟩ := gets_iff.1 hq
    rw [he] at he'
    cases he'
    exact h2 e hp hq

open Classical in
theorem handsWith_congr {p q : Eval → Prop}
    (h : ∀ l e, evaluateHand l = .ok (.ok e) → (p e ↔ q e)) : handsWith p = handsWith q := by
  rw [handsWith, handsWith]
  congr 1
  refine Finset.filter_congr (fun x _ => ?_)
  rw [gets_iff, gets_iff]
  exact exists_congr (fun e => and_congr_right (fun he => h _ e he))

open Classical in
theorem handsWith_none {p : Eval → Prop} (h : ∀ l e, evaluateHand l = .ok (.ok e) → ¬ p e) :
    handsWith p = 0 := by
  rw [handsWith, Finset.card_eq_zero, Finset.filter_eq_empty_iff]
  intro x _ hg
  obtain ⟨e, he, hp⟩ := gets_iff.1 hg
  exact h _ e he hp

theorem upTo_take (l : List (Nat × Nat)) (n : Nat) :
    upTo l n = ((l.flatMap (fun p => List.replicate p.1 p.2)).take n).sum := by
  induction l generalizing n with
  | nil => simp [upTo]
  | cons p l ih =>
    obtain ⟨k, m⟩ := p
    rw [upTo, ih, List.flatMap_cons, List.take_append, List.sum_append, List.take_replicate,
      List.length_replicate, List.sum_replicate, Nat.min_comm]
    simp

theorem ladder_steps : Kinds.ladder.map (fun w => tied (className w))
    = steps.flatMap (fun p => List.replicate p.1 p.2) := by
  have hseg : ∀ s : Kinds.Segment, ∀ m, (∀ l, tied (className (s.cat, l)) = m) →
      s.worths.map (fun w => tied (className w)) = List.replicate s.seg.length m := by
    intro s m hm
    rw [Kinds.Segment.worths, List.map_map, List.eq_replicate_iff]
    refine ⟨by simp, ?_⟩
    intro b hb
    obtain ⟨c, -, rfl⟩ := List.mem_map.1 hb
    exact hm _
  have hl := Kinds.lengths
  simp only [Kinds.segments, List.map_cons, List.map_nil, List.cons.injEq, and_true] at hl
  obtain ⟨l1, l2, l3, l4, l5, l6, l7, l8, l9⟩ := hl
  rw [Kinds.ladder, List.map_flatMap]
  simp only [Kinds.segments, steps, List.flatMap_cons, List.flatMap_nil]
  rw [hseg _ 4 (fun _ => rfl), hseg Kinds.sQuads 4 (fun _ => rfl), hseg Kinds.sFullHouse 24 (fun _ => rfl),
    hseg Kinds.sFlush 4 (fun _ => rfl), hseg Kinds.sStraight 1020 (fun _ => rfl),
    hseg Kinds.sTrips 64 (fun _ => rfl), hseg Kinds.sTwoPair 144 (fun _ => rfl),
    hseg Kinds.sPair 384 (fun _ => rfl), hseg Kinds.sHigh 1020 (fun _ => rfl),
    l1, l2, l3, l4, l5, l6, l7, l8, l9]

theorem upTo_succ {i : Nat} (hi : i < Kinds.ladder.length) :
    upTo steps (i + 1) = upTo steps i + tied (className Kinds.ladder[i]) := by
  have hl : i < (Kinds.ladder.map (fun w => tied (className w))).length := by rwa [List.length_map]
  rw [upTo_take, upTo_take, ← ladder_steps, List.take_succ_eq_append_getElem hl, List.sum_append,
    List.getElem_map]
  simp

theorem hands_upTo (n : Nat) (hn : n ≤ 7462) :
    handsWith (fun e => e.hand_rank.val.toInt ≤ n) = upTo steps n := by
  induction n with
  | zero =>
    rw [show upTo steps 0 = 0 from rfl]
    refine handsWith_none (fun l e he h => ?_)
    have := (c08_bounds l e he).2.2.1
    omega
  | succ n ih =>
    have hlt : n < Kinds.ladder.length := by rw [Kinds.length_ladder]; omega
    obtain ⟨d, hdn, hd5, hds⟩ := ladder_hand (List.getElem_mem hlt)
    have he := evaluate_five_ok hdn hd5
    have hr : (evalOf (strength d)).hand_rank.val.toInt = ((n + 1 : Nat) : Int) := by
      have := rankInt_evalOf (strength_mem hdn hd5)
      rw [Eval.rankInt, hds, Kinds.rankNo_getElem hlt] at this
      rw [hds, this]
    have ht := c58_ties d _ hd5 he
    rw [class_evalOf, hds] at ht
    rw [upTo_succ hlt, ← ih (by omega), ← ht]
    refine handsWith_add _ _ _ (fun e => ?_) (fun e h1 h2 => ?_)
    · rw [Eval.eq_iff_cmp, Eval.cmp_eq, Std.LawfulEqCmp.compare_eq_iff_eq, ← hds]
      simp only [Eval.rankInt, hr]
      omega
    · rw [Eval.eq_iff_cmp, Eval.cmp_eq, Std.LawfulEqCmp.compare_eq_iff_eq, ← hds] at h2
      simp only [Eval.rankInt, hr] at h2
      omega

/-- C58: how many of the hands of five cards are worth more, as much, and less than a result (of five cards
or more), by the number of its rank. -/
theorem c58_better (h : List PCard) (e : Eval) (he : evaluateHand h = .ok (.ok e)) :
    ∃ n : Nat, 1 ≤ n ∧ n ≤ 7462 ∧ e.hand_rank.val.toInt = n ∧
      handsWith (fun e' => e'.gt e = true) = upTo steps (n - 1) ∧
      handsWith (fun e' => e'.eq e = true) = upTo steps n - upTo steps (n - 1) ∧
      handsWith (fun e' => e'.lt e = true) = 2598960 - upTo steps n := by
  obtain ⟨-, -, h1, h2⟩ := c08_bounds h e he
  obtain ⟨n, hn⟩ := Int.eq_ofNat_of_zero_le (Int.le_trans (by decide) h1)
  have n1 : 1 ≤ n := by omega
  have n2 : n ≤ 7462 := by omega
  have hle := hands_upTo n n2
  have hlt := hands_upTo (n - 1) (by omega)
  have hall := hands_upTo 7462 (Nat.le_refl _)
  rw [show upTo steps 7462 = 2598960 from by decide +kernel] at hall
  have hg : handsWith (fun e' => e'.gt e = true) = upTo steps (n - 1) := by
    rw [← hlt]
    refine handsWith_congr (fun l e' _ => ?_)
    rw [Eval.gt_iff, Eval.cmp_eq, Int.compare_eq_gt]
    simp only [Eval.rankInt, hn]
    omega
  have hge : upTo steps n = upTo steps (n - 1) + handsWith (fun e' => e'.eq e = true) := by
    rw [← hle, ← hg]
    refine handsWith_add _ _ _ (fun e' => ?_) (fun e' a b => ?_)
    · rw [Eval.gt_iff, Eval.eq_iff_cmp, Eval.cmp_eq, Int.compare_eq_gt,
        Std.LawfulEqCmp.compare_eq_iff_eq]
      simp only [Eval.rankInt, hn]
      omega
    · rw [Eval.gt_iff] at a
      rw [Eval.eq_iff_cmp, a] at b
      cases b
  have hsum : 2598960 = upTo steps n + handsWith (fun e' => e'.lt e = true) := by
    rw [← hall, ← hle]
    refine (handsWith_congr (q := fun e' => e'.hand_rank.val.toInt ≤ n ∨ e'.lt e = true)
      (fun l e' he' => ?_)).trans (handsWith_add _ _ _ (fun _ => Iff.rfl) (fun e' a b => ?_))
    · rw [Eval.lt_iff, Eval.cmp_eq, Int.compare_eq_lt]
      have := (c08_bounds l e' he').2.2.2
      simp only [Eval.rankInt, hn]
      omega
    · rw [Eval.lt_iff, Eval.cmp_eq, Int.compare_eq_lt] at b
      simp only [Eval.rankInt, hn] at b
      omega
  refine ⟨n, n1, n2, hn, hg, ?_, ?_⟩
  · rw [hge, Nat.add_sub_cancel_left]
  · exact (Nat.sub_eq_of_eq_add' hsum).symm

/-- Seven cards have a result as well. -/
example : ∃ (h : List PCard) (e : Eval), h.length = 7 ∧ evaluateHand h = .ok (.ok e) := by
  obtain ⟨e, he⟩ := (c04_iff (royalHand ++ [(.Two, .Hearts), (.Two, .Clubs)])).2.2.2
    ⟨by decide, by decide⟩
  exact ⟨_, e, rfl, he⟩

theorem upTo_mono {m n : Nat} (h : m < n) (hn : n ≤ 7462) : upTo steps m < upTo steps n := by
  induction n with
  | zero => omega
  | succ n ih =>
    have hlt : n < Kinds.ladder.length := by rw [Kinds.length_ladder]; omega
    have hp : 0 < tied (className Kinds.ladder[n]) := by
      cases className Kinds.ladder[n] <;> simp [tied]
    rw [upTo_succ hlt]
    rcases Nat.lt_or_eq_of_le (Nat.le_of_lt_succ h) with h | rfl
    · have := ih h (by omega)
      omega
    · omega

/-- Ace, king, queen, jack and seven, not all of one suit. -/
def medianHand : List PCard :=
  [(.Ace, .Clubs), (.King, .Diamonds), (.Queen, .Hearts), (.Jack, .Spades), (.Seven, .Clubs)]

set_option maxRecDepth 100000 in
theorem check_median : (Kinds.ladder[6187]? == some (strength medianHand)) = true := by decide +kernel

theorem median_rank {m : Eval} (hm : evaluateHand medianHand = .ok (.ok m)) :
    m.hand_rank.val.toInt = 6188 := by
  rw [evaluate_five_ok (by decide) (by decide)] at hm
  cases hm
  have hlt : 6187 < Kinds.ladder.length := by rw [Kinds.length_ladder]; decide
  have h := eq_of_beq check_median
  rw [List.getElem?_eq_getElem hlt, Option.some.injEq] at h
  have := rankInt_evalOf (strength_mem (h := medianHand) (by decide) (by decide))
  rw [← h, Kinds.rankNo_getElem hlt, h] at this
  exact this

/-- C58: exactly half of the hands of five cards are worth at least as much as ace, king, queen, jack and
seven; so a hand beats half of all hands or more if and only if it is not worth less. -/
theorem c58_median (m : Eval) (hm : evaluateHand medianHand = .ok (.ok m)) :
    2 * handsWith (fun e' => e'.lt m = false) = fiveCardHands.card ∧
    ∀ h e, evaluateHand h = .ok (.ok e) →
      (fiveCardHands.card ≤ 2 * handsWith (fun e' => e'.lt e = true) ↔ e.lt m = false) := by
  have hr := median_rank hm
  have half : upTo steps 6188 = 1299480 := by decide +kernel
  have low : ∀ e : Eval, e.lt m = false ↔ e.hand_rank.val.toInt ≤ (6188 : Nat) := by
    intro e
    rw [Bool.eq_false_iff, Ne, Eval.lt_iff, Eval.cmp_eq, Int.compare_eq_lt]
    simp only [Eval.rankInt, hr]
    omega
  rw [c45_hands]
  constructor
  · rw [handsWith_congr (fun _ e _ => low e), hands_upTo 6188 (by decide), half]
  · intro h e he
    obtain ⟨n, h1, h2, hn, -, -, hw⟩ := c58_better h e he
    rw [hw, low, hn]
    constructor
    · intro hh
      by_contra hk
      have := upTo_mono (m := 6188) (n := n) (by omega) h2
      rw [half] at this
      omega
    · intro hk
      have : upTo steps n ≤ 1299480 := by
        rcases Nat.lt_or_eq_of_le (Int.ofNat_le.1 hk) with h | h
        · rw [← half]
          exact Nat.le_of_lt (upTo_mono h (by decide))
        · rw [h, half]
      omega

example : ∃ m, evaluateHand medianHand = .ok (.ok m) :=
  ⟨_, evaluate_five_ok (by decide) (by decide)⟩

end Poker
