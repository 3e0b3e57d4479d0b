import Verif.Spec.Rivals
import Verif.Proofs.Rivals
import Verif.Props.Frequency
import Verif.Props.Seats

/-! # How often two players tie: C69 -/

namespace Poker
open Rules Tab Counts Ties

/-- How many hands of five other cards have the same ranks, by the category. -/
def freeOf : Nat → Nat
  | 7 => 0
  | 6 => 0
  | 3 => 0
  | 2 => 3
  | 1 => 27
  | _ => 243

theorem counts_self {h : List PCard} (hn : h.Nodup) : h.toFinset ∈ withCounts (h.map (·.1)).count := by
  rw [mem_withCounts]
  intro r
  rw [← count_ranks]
  exact ((Sets.toFinset_perm hn).map _).count_eq r

theorem prod_distinct {m : Rank → Nat} (hm : ∀ r, m r ≤ 1) :
    ∏ r, Nat.choose (4 - m r) (m r) = 3 ^ ∑ r, m r := by
  rw [← Finset.prod_pow_eq_pow_sum]
  refine Finset.prod_congr rfl (fun r _ => ?_)
  have := hm r
  interval_cases m r <;> rfl

theorem sum_counts {h : List PCard} (hn : h.Nodup) : ∑ r, (h.map (·.1)).count r = h.length := by
  rw [← List.toFinset_card_of_nodup hn, ← counts_sum]
  exact Finset.sum_congr rfl (fun r _ => (mem_withCounts.1 (counts_self hn) r).symm)

/-- The categories of hands with five different ranks, those of one suit, and the hands of five other cards with
the same ranks. -/
theorem free_hand {h : List PCard} (hn : h.Nodup) (h5 : h.length = 5) :
    ((withCounts (h.map (·.1)).count).filter (fun y => Disjoint h.toFinset y)).card = freeOf (strength h).1 ∧
    (strength h).1 ≤ 8 ∧
    ((∃ s, ∀ c ∈ h, c.2 = s) ↔ (strength h).1 = 8 ∨ (strength h).1 = 5) ∧
    ((∀ r, (h.map (·.1)).count r ≤ 1) ↔ (strength h).1 ∈ [0, 4, 5, 8]) := by
  obtain ⟨s, hs, hfl, hcat, hsh⟩ := hand_segment hn h5
  rw [hcat]
  have hcnt : ∀ v, (values h).count v ≤ 4 := count_values_le hn
  have dist : (∀ r, (h.map (·.1)).count r ≤ 1) →
      ((withCounts (h.map (·.1)).count).filter (fun y => Disjoint h.toFinset y)).card = 243 := by
    intro hd
    rw [free_card (counts_self hn), prod_distinct hd, sum_counts hn, h5]
    rfl
  by_cases hf : ∃ s, ∀ c ∈ h, c.2 = s
  · have hflush : s.fl = true := by rw [hfl]; exact flush_iff.2 hf
    have hd := counts_flush hn hf
    have hcats : s.cat = 8 ∨ s.cat = 5 := by
      simp only [Kinds.segments, List.mem_cons, List.not_mem_nil, or_false] at hs
      rcases hs with rfl | rfl | rfl | rfl | rfl | rfl | rfl | rfl | rfl
      all_goals first | (exact .inl rfl) | (exact .inr rfl) | cases hflush
    rw [dist hd]
    rcases hcats with e | e <;> rw [e] <;> exact ⟨rfl, by decide, iff_of_true hf (by decide), iff_of_true hd (by decide)⟩
  · have hflush : s.fl = false := by
      rw [hfl, Bool.eq_false_iff]
      exact fun h => hf (flush_iff.1 h)
    obtain ⟨h4, h3, h2, h1⟩ := (shape_iff _ _ _ _ _).1 (hsh hflush)
    have hall : ((withCounts (h.map (·.1)).count).filter (fun y => Disjoint h.toFinset y)).card
        = 3 ^ (repeats s.cat).2.2.2 * 0 ^ (repeats s.cat).2.1 * 0 ^ (repeats s.cat).1 := by
      rw [free_card (counts_self hn), ← h1, ← h3, ← h4, ← prod_free _ hcnt,
        ← prod_ranks (fun v => Nat.choose (4 - (values h).count v) ((values h).count v))]
      exact Finset.prod_congr rfl (fun r _ => by rw [count_pips])
    have hsome : ∀ m, 2 ≤ m → howMany (values h).count m allValues ≠ 0 → ¬ ∀ r, (h.map (·.1)).count r ≤ 1 := by
      intro m hm hne hd
      obtain ⟨v, hv, hc⟩ := howMany_pos hne
      obtain ⟨r, rfl⟩ := value_rank hv
      have := hd r
      rw [count_pips, hc] at this
      omega
    have hnone : howMany (values h).count 4 allValues = 0 → howMany (values h).count 3 allValues = 0 →
        howMany (values h).count 2 allValues = 0 → ∀ r, (h.map (·.1)).count r ≤ 1 := by
      intro z4 z3 z2 r
      rw [count_pips]
      have hz : ∀ m, howMany (values h).count m allValues = 0 → (values h).count (pips r) ≠ m := by
        intro m hm e
        have : pips r ∈ allValues.filter (fun v => (values h).count v == m) :=
          List.mem_filter.2 ⟨by cases r <;> decide, by simpa using e⟩
        rw [howMany, List.length_eq_zero_iff] at hm
        rw [hm] at this
        cases this
      have := hcnt (pips r)
      have := hz 4 z4
      have := hz 3 z3
      have := hz 2 z2
      omega
    rw [hall]
    simp only [Kinds.segments, List.mem_cons, List.not_mem_nil, or_false] at hs
    rcases hs with rfl | rfl | rfl | rfl | rfl | rfl | rfl | rfl | rfl
    · cases hflush
    · exact ⟨by decide, by decide, iff_of_false hf (by decide),
        iff_of_false (hsome 4 (by decide) (by rw [h4]; decide)) (by decide)⟩
    · exact ⟨by decide, by decide, iff_of_false hf (by decide),
        iff_of_false (hsome 3 (by decide) (by rw [h3]; decide)) (by decide)⟩
    · cases hflush
    · exact ⟨by decide, by decide, iff_of_false hf (by decide), iff_of_true (hnone h4 h3 h2) (by decide)⟩
    · exact ⟨by decide, by decide, iff_of_false hf (by decide),
        iff_of_false (hsome 3 (by decide) (by rw [h3]; decide)) (by decide)⟩
    · exact ⟨by decide, by decide, iff_of_false hf (by decide),
        iff_of_false (hsome 2 (by decide) (by rw [h2]; decide)) (by decide)⟩
    · exact ⟨by decide, by decide, iff_of_false hf (by decide),
        iff_of_false (hsome 2 (by decide) (by rw [h2]; decide)) (by decide)⟩
    · exact ⟨by decide, by decide, iff_of_false hf (by decide), iff_of_true (hnone h4 h3 h2) (by decide)⟩

theorem suits_image (h : List PCard) : (h.toFinset.image (·.2)).card = suitsIn h := by
  rw [suitsIn, ← List.card_toFinset]
  congr 1
  ext s
  simp

/-- The hands of one suit among those. -/
theorem free_flush {h : List PCard} (hn : h.Nodup) (h5 : h.length = 5) :
    (((withCounts (h.map (·.1)).count).filter (fun y => Disjoint h.toFinset y)).filter OneSuit).card
      = if (∀ r, (h.map (·.1)).count r ≤ 1) then 4 - suitsIn h else 0 := by
  split
  · rename_i hd
    obtain ⟨c, hc⟩ := List.exists_mem_of_length_pos (by omega : 0 < h.length)
    rw [free_oneSuit hd c.1 (Nat.le_antisymm (hd _) (List.count_pos_iff.2 (List.mem_map_of_mem hc)))
      (counts_self hn), suits_image]
  · rename_i hd
    obtain ⟨r, hr⟩ := not_forall.1 hd
    rw [Finset.card_eq_zero, Finset.filter_filter, Finset.filter_eq_empty_iff]
    intro x hx hh
    have := oneSuit_none (m := (h.map (·.1)).count) (r := r) (by omega)
    rw [Finset.filter_eq_empty_iff] at this
    exact this hx hh.2

theorem suitsIn_flush {h : List PCard} (h5 : h.length = 5) (hf : ∃ s, ∀ c ∈ h, c.2 = s) : suitsIn h = 1 := by
  obtain ⟨s, hs⟩ := hf
  rw [← suits_image, Finset.card_eq_one]
  refine ⟨s, ?_⟩
  obtain ⟨c, hc⟩ := List.exists_mem_of_length_pos (by omega : 0 < h.length)
  ext t
  rw [Finset.mem_singleton, Finset.mem_image]
  constructor
  · rintro ⟨d, hd, rfl⟩
    exact hs d (List.mem_toFinset.1 hd)
  · rintro rfl
    exact ⟨c, List.mem_toFinset.2 hc, hs c hc⟩

theorem suitsIn_le (h : List PCard) : suitsIn h ≤ 4 := by
  rw [← suits_image]
  exact Finset.card_le_univ _

theorem rivalTies_class (k : Nat) (w : Nat × List Nat) (hw : w.1 ≤ 8) : rivalTies k (className w)
    = match w.1 with
      | 8 => 3 | 7 => 0 | 6 => 0 | 5 => 3 | 4 => 239 + k | 3 => 0 | 2 => 3 | 1 => 27 | _ => 239 + k := by
  obtain ⟨c, l⟩ := w
  simp only [className]
  split <;> simp_all [rivalTies]

open Classical in
/-- C69: how many of the hands of five of the other 47 cards are worth exactly as much as a given hand. -/
theorem c69_rivals (h : List PCard) (e : Eval) (h5 : h.length = 5) (he : evaluateHand h = .ok (.ok e)) :
    rivals h (fun e' => e'.eq e = true) = rivalTies (suitsIn h) e.class' := by
  obtain ⟨hn, -, w, hw, hwe⟩ := ok_iff.1 he
  have hstr : strength h = w := (isBest_five hn h5).unique hw
  have hset : ((pack \ h.toFinset).powersetCard 5).filter (Gets (fun e' => e'.eq e = true))
      = ((withCounts (h.map (·.1)).count).filter (fun y => Disjoint h.toFinset y)).filter
        (fun x => OneSuit x ↔ ∃ s, ∀ c ∈ h, c.2 = s) := by
    ext x
    rw [Finset.mem_filter, Finset.mem_filter, Finset.mem_filter, Finset.mem_powersetCard, Finset.subset_sdiff]
    constructor
    · rintro ⟨⟨⟨-, hd⟩, hx⟩, hg⟩
      obtain ⟨a, b⟩ := (gets_tie hn h5 he hx).1 hg
      exact ⟨⟨a, hd.symm⟩, b⟩
    · rintro ⟨⟨hx, hd⟩, ho⟩
      have hc := (card_of_counts hn hx).trans h5
      exact ⟨⟨⟨fun c _ => pack_complete c, hd.symm⟩, hc⟩, (gets_tie hn h5 he hc).2 ⟨hx, ho⟩⟩
  obtain ⟨hfree, h8, hflush, hdist⟩ := free_hand hn h5
  have hone := free_flush hn h5
  have hsum := Finset.card_filter_add_card_filter_not
    (s := (withCounts (h.map (·.1)).count).filter (fun y => Disjoint h.toFinset y)) OneSuit
  rw [hfree] at hsum
  rw [rivals, hset, hwe, class_evalOf, ← hstr, rivalTies_class _ _ h8]
  have hs4 := suitsIn_le h
  by_cases hf : ∃ s, ∀ c ∈ h, c.2 = s
  · rw [if_pos (counts_flush hn hf), suitsIn_flush h5 hf] at hone
    rw [show Finset.filter (fun x => OneSuit x ↔ ∃ s, ∀ c ∈ h, c.2 = s)
      ((withCounts (h.map (·.1)).count).filter (fun y => Disjoint h.toFinset y))
      = Finset.filter OneSuit _ from Finset.filter_congr (fun x _ => by simp only [hf, iff_true])]
    have e3 : (Finset.filter OneSuit
      ((withCounts (h.map (·.1)).count).filter (fun y => Disjoint h.toFinset y))).card = 3 := by
      convert hone using 2
    rw [e3]
    rcases hflush.1 hf with h | h <;> rw [h] <;> rfl
  · rw [show Finset.filter (fun x => OneSuit x ↔ ∃ s, ∀ c ∈ h, c.2 = s)
      ((withCounts (h.map (·.1)).count).filter (fun y => Disjoint h.toFinset y))
      = Finset.filter (fun x => ¬ OneSuit x) _ from Finset.filter_congr (fun x _ => by simp only [hf, iff_false])]
    have e1 : (Finset.filter OneSuit
      ((withCounts (h.map (·.1)).count).filter (fun y => Disjoint h.toFinset y))).card
        = if (∀ r, (h.map (·.1)).count r ≤ 1) then 4 - suitsIn h else 0 := by
      rw [← hone]
    rw [e1] at hsum
    simp only [hdist] at hsum
    have hnf := (not_congr hflush).1 hf
    generalize (Finset.filter (fun x => ¬ OneSuit x)
      ((withCounts (h.map (·.1)).count).filter (fun y => Disjoint h.toFinset y))).card = n at hsum ⊢
    generalize (strength h).1 = k at *
    clear e1 hone
    generalize suitsIn h = q at *
    interval_cases k <;> simp [freeOf] at hsum hnf ⊢ <;> first | omega | (show n = 239 + q; omega)

/-- There is a hand as in the hypotheses. -/
example : wheelHand.length = 5 ∧ ∃ e, evaluateHand wheelHand = .ok (.ok e) ∧
    rivalTies (suitsIn wheelHand) e.class' = 239 + suitsIn wheelHand ∧ suitsIn wheelHand = 3 := by
  obtain ⟨e, he, hc⟩ := c01_class wheelHand (by decide) (by decide)
  exact ⟨rfl, e, he, by rw [hc]; decide, by decide⟩

/-! ## All pairs of hands -/

/-- The category of a set of five cards. -/
noncomputable def cat (x : Finset PCard) : Nat := (strength x.toList).1

theorem five_list {x : Finset PCard} (hx : x ∈ fiveCardHands) : x.toList.Nodup ∧ x.toList.length = 5 :=
  ⟨x.nodup_toList, by rw [Finset.length_toList, (Finset.mem_powersetCard.1 hx).2]⟩

theorem mem_five {x : Finset PCard} : x ∈ fiveCardHands ↔ x.card = 5 := by
  rw [fiveCardHands, Finset.mem_powersetCard]
  exact and_iff_right (fun c _ => pack_complete c)

theorem gets_five {p : Eval → Prop} {x : Finset PCard} (hx : x ∈ fiveCardHands) :
    Gets p x ↔ p (evalOf (strength x.toList)) := by
  obtain ⟨h1, h2⟩ := five_list hx
  rw [gets_iff, evaluate_five_ok h1 h2]
  constructor
  · rintro ⟨e, he, hp⟩
    cases he
    exact hp
  · exact fun h => ⟨_, rfl, h⟩

theorem cat_card (k : Nat) : (fiveCardHands.filter (fun x => cat x = k)).card = (frequencies 5).getD k 0 := by
  classical
  rw [← c66_category 5 k, handsOf]
  refine congrArg Finset.card (Finset.filter_congr (fun x hx => ?_))
  obtain ⟨h1, h2⟩ := five_list hx
  rw [gets_five hx, class_evalOf, classNumber_className (free_hand h1 h2).2.1]
  rfl

theorem sum_cat (f : Nat → Nat) : ∑ x ∈ fiveCardHands, f (cat x)
    = ∑ k ∈ Finset.range 9, (frequencies 5).getD k 0 * f k := by
  rw [← Finset.sum_fiberwise_of_maps_to (g := cat) (t := Finset.range 9)]
  · refine Finset.sum_congr rfl (fun k _ => ?_)
    rw [Finset.sum_congr rfl (g := fun _ => f k) (fun x hx => by rw [(Finset.mem_filter.1 hx).2]), Finset.sum_const,
      cat_card, smul_eq_mul]
  · intro x hx
    obtain ⟨h1, h2⟩ := five_list hx
    exact Finset.mem_range.2 (Nat.lt_succ_of_le (free_hand h1 h2).2.1)

/-- As many cards of each rank. -/
def SameRanks (x y : Finset PCard) : Prop :=
  ∀ r, (x.filter (fun c => c.1 = r)).card = (y.filter (fun c => c.1 = r)).card

theorem withCounts_same (x y : Finset PCard) :
    y ∈ withCounts (x.toList.map (·.1)).count ↔ SameRanks x y := by
  rw [mem_withCounts]
  refine forall_congr' (fun r => ?_)
  rw [count_ranks]
  exact eq_comm

theorem card_pairs {α : Type} (s : Finset α) (R : α → α → Prop) (f : α → Finset α)
    (h : ∀ x ∈ s, ∀ y, y ∈ f x ↔ y ∈ s ∧ R x y) : pairsOf s R = ∑ x ∈ s, (f x).card := by
  classical
  rw [pairsOf, Finset.card_filter, Finset.sum_product]
  refine Finset.sum_congr rfl (fun x hx => ?_)
  rw [← Finset.card_filter]
  refine congrArg Finset.card ?_
  ext y
  rw [h x hx, Finset.mem_filter]

theorem pairsOf_congr {α : Type} (s : Finset α) {R R' : α → α → Prop} (h : ∀ x ∈ s, ∀ y ∈ s, R x y ↔ R' x y) :
    pairsOf s R = pairsOf s R' := by
  classical
  rw [card_pairs s R (fun x => s.filter (R x)) (fun x _ y => Finset.mem_filter),
    card_pairs s R' (fun x => s.filter (R x)) (fun x hx y => by
      rw [Finset.mem_filter]; exact and_congr_right (fun hy => h x hx y hy))]

theorem free_five {x : Finset PCard} (hx : x ∈ fiveCardHands) (y : Finset PCard) :
    y ∈ (withCounts (x.toList.map (·.1)).count).filter (fun y => Disjoint x.toList.toFinset y)
      ↔ y ∈ fiveCardHands ∧ Disjoint x y ∧ SameRanks x y := by
  obtain ⟨h1, h2⟩ := five_list hx
  rw [Finset.mem_filter, withCounts_same, Finset.toList_toFinset]
  constructor
  · rintro ⟨hs, hd⟩
    refine ⟨mem_five.2 ?_, hd, hs⟩
    rw [card_of_counts h1 ((withCounts_same x y).2 hs), h2]
  · rintro ⟨-, h⟩
    exact h.symm

theorem oneSuit_toList (x : Finset PCard) : OneSuit x ↔ ∃ s, ∀ c ∈ x.toList, c.2 = s := by
  simp only [OneSuit, Finset.mem_toList]

theorem pairs_ranks : pairsOf fiveCardHands (fun x y => Disjoint x y ∧ SameRanks x y) = 350269920 := by
  rw [card_pairs _ _ _ (fun x hx y => free_five hx y),
    Finset.sum_congr rfl (g := fun x => freeOf (cat x)) (fun x hx => ?_), sum_cat]
  · decide +kernel
  · obtain ⟨h1, h2⟩ := five_list hx
    exact (free_hand h1 h2).1

theorem pairs_crossed : pairsOf fiveCardHands
    (fun x y => (Disjoint x y ∧ SameRanks x y) ∧ OneSuit x ∧ ¬ OneSuit y) = 1235520 := by
  rw [card_pairs _ _ (fun x => ((withCounts (x.toList.map (·.1)).count).filter
      (fun y => Disjoint x.toList.toFinset y)).filter (fun y => OneSuit x ∧ ¬ OneSuit y))
      (fun x hx y => by rw [Finset.mem_filter, free_five hx y, and_assoc]),
    Finset.sum_congr rfl (g := fun x => if cat x = 8 ∨ cat x = 5 then 240 else 0) (fun x hx => ?_),
    sum_cat (fun k => if k = 8 ∨ k = 5 then 240 else 0)]
  · decide +kernel
  · obtain ⟨h1, h2⟩ := five_list hx
    obtain ⟨hfree, -, hflush, -⟩ := free_hand h1 h2
    split
    · rename_i hc
      have hf := hflush.2 hc
      have hx1 : OneSuit x := (oneSuit_toList x).2 hf
      have hone := free_flush h1 h2
      rw [if_pos (counts_flush h1 hf), suitsIn_flush h2 hf] at hone
      have hsum := Finset.card_filter_add_card_filter_not
        (s := (withCounts (x.toList.map (·.1)).count).filter (fun y => Disjoint x.toList.toFinset y)) OneSuit
      rw [hfree, hone] at hsum
      simp only [hx1, true_and]
      have : freeOf (strength x.toList).1 = 243 := by
        rcases hc with h | h <;> rw [show (strength x.toList).1 = _ from h] <;> rfl
      omega
    · rename_i hc
      rw [Finset.card_eq_zero, Finset.filter_eq_empty_iff]
      rintro y - ⟨ho, -⟩
      exact hc (hflush.1 ((oneSuit_toList x).1 ho))

theorem sameRanks_symm {x y : Finset PCard} : SameRanks x y ↔ SameRanks y x :=
  forall_congr' (fun _ => eq_comm)

theorem tie_iff {x y : Finset PCard} (hx : x ∈ fiveCardHands) (hy : y ∈ fiveCardHands) :
    (∃ e, Gets (· = e) x ∧ Gets (fun e' => e.eq e' = true) y) ↔ SameRanks x y ∧ (OneSuit x ↔ OneSuit y) := by
  obtain ⟨h1, h2⟩ := five_list hx
  have he := evaluate_five_ok h1 h2
  have ht := gets_tie h1 h2 he (mem_five.1 hy)
  rw [withCounts_same, ← oneSuit_toList] at ht
  rw [iff_comm (a := OneSuit x), ← ht, gets_five hy]
  simp only [gets_five hx, gets_five hy, exists_eq_left']
  rw [Eval.eq_iff_cmp, Eval.eq_iff_cmp, Eval.cmp_eq, Eval.cmp_eq, Std.LawfulEqCmp.compare_eq_iff_eq,
    Std.LawfulEqCmp.compare_eq_iff_eq]
  exact eq_comm

open Classical in
theorem split_pairs {α : Type} (s : Finset α) (R : α → α → Prop) (O : α → Prop) (hR : ∀ x y, R x y → R y x) :
    pairsOf s (fun x y => R x y ∧ (O x ↔ O y)) + 2 * pairsOf s (fun x y => R x y ∧ O x ∧ ¬ O y) = pairsOf s R := by
  simp only [pairsOf]
  have hswap : ((s ×ˢ s).filter (fun q => R q.1 q.2 ∧ O q.2 ∧ ¬ O q.1)).card
      = ((s ×ˢ s).filter (fun q => R q.1 q.2 ∧ O q.1 ∧ ¬ O q.2)).card := by
    refine Finset.card_bij (fun q _ => q.swap) ?_ (fun _ _ _ _ h => Prod.swap_injective h) ?_
    · rintro ⟨x, y⟩ hq
      obtain ⟨h1, h2, h4⟩ := Finset.mem_filter.1 hq
      obtain ⟨a, b⟩ := Finset.mem_product.1 h1
      exact Finset.mem_filter.2 ⟨Finset.mem_product.2 ⟨b, a⟩, hR _ _ h2, h4⟩
    · rintro ⟨x, y⟩ hq
      obtain ⟨h1, h2, h4⟩ := Finset.mem_filter.1 hq
      obtain ⟨a, b⟩ := Finset.mem_product.1 h1
      exact ⟨(y, x), Finset.mem_filter.2 ⟨Finset.mem_product.2 ⟨b, a⟩, hR _ _ h2, h4⟩, rfl⟩
  have h1 := Finset.card_filter_add_card_filter_not (s := (s ×ˢ s).filter
    (fun q => R q.1 q.2)) (fun q => O q.1 ↔ O q.2)
  have h2 := Finset.card_filter_add_card_filter_not (s := ((s ×ˢ s).filter
    (fun q => R q.1 q.2)).filter (fun q => ¬ (O q.1 ↔ O q.2))) (fun q => O q.1)
  have e1 : (((s ×ˢ s).filter (fun q => R q.1 q.2)).filter (fun q => ¬ (O q.1 ↔ O q.2))).filter (fun q => O q.1)
      = (s ×ˢ s).filter (fun q => R q.1 q.2 ∧ O q.1 ∧ ¬ O q.2) := by
    rw [Finset.filter_filter, Finset.filter_filter]
    refine Finset.filter_congr (fun q _ => ?_)
    tauto
  have e2 : (((s ×ˢ s).filter (fun q => R q.1 q.2)).filter (fun q => ¬ (O q.1 ↔ O q.2))).filter (fun q => ¬ O q.1)
      = (s ×ˢ s).filter (fun q => R q.1 q.2 ∧ O q.2 ∧ ¬ O q.1) := by
    rw [Finset.filter_filter, Finset.filter_filter]
    refine Finset.filter_congr (fun q _ => ?_)
    tauto
  rw [e1, e2, hswap] at h2
  rw [← h2, Finset.filter_filter] at h1
  rw [two_mul]
  exact h1

theorem same_pairs {α : Type} {s : Finset α} {A B R : α → α → Prop} {O : α → Prop} {a b r : Nat}
    (hR : ∀ x y, R x y → R y x) (hA : ∀ x y, A x y = (R x y ∧ (O x ↔ O y))) (hB : ∀ x y, B x y = (R x y ∧ O x ∧ ¬ O y))
    (nR : pairsOf s R = r) (nB : pairsOf s B = b) (h : a + 2 * b = r) : pairsOf s A = a := by
  have h1 := split_pairs s R O hR
  rw [show A = _ from funext fun x => funext (hA x)]
  rw [show B = _ from funext fun x => funext (hB x)] at nB
  omega

theorem pairs_same : pairsOf fiveCardHands
    (fun x y => (Disjoint x y ∧ SameRanks x y) ∧ (OneSuit x ↔ OneSuit y)) = 347798880 :=
  same_pairs (fun _ _ h => ⟨h.1.symm, sameRanks_symm.1 h.2⟩) (fun _ _ => rfl) (fun _ _ => rfl) pairs_ranks
    pairs_crossed (by decide)

/-- C69: how many pairs of hands without a card in common are worth the same. -/
theorem c69_pairs : pairsWith (fun e e' => e.eq e' = true) = 347798880 := by
  refine Eq.trans ?_ pairs_same
  refine pairsOf_congr _ (fun x hx y hy => ?_)
  rw [tie_iff hx hy, ← and_assoc]

/-- C69: how many pairs of hands without a card in common there are. -/
theorem c69_all : pairsWith (fun _ _ => True) = 2598960 * 1533939 := by
  rw [pairsWith, pairsOf_congr _ (R' := fun x y => Disjoint x y) (fun x hx y hy => by
    simp only [gets_five hx, gets_five hy, and_true, exists_eq']),
    card_pairs _ _ (fun x => (pack \ x).powersetCard 5) (fun x _ y => by
      rw [mem_five, Finset.mem_powersetCard, Finset.subset_sdiff]
      exact ⟨fun ⟨⟨_, b⟩, a⟩ => ⟨a, b.symm⟩, fun ⟨a, b⟩ => ⟨⟨fun c _ => pack_complete c, b.symm⟩, a⟩⟩),
    Finset.sum_congr rfl (g := fun _ => 1533939) (fun x hx => ?_), Finset.sum_const, c45_hands, smul_eq_mul]
  rw [Finset.card_powersetCard, Finset.card_sdiff_of_subset (fun c _ => pack_complete c), pack_card,
    mem_five.1 hx, Nat.choose_eq_descFactorial_div_factorial]
  decide +kernel

/-! ## Two players -/

theorem pairs_set {α : Type} (s : Finset α) (R : α → α → Prop) :
    ∃ P : Finset (α × α), (∀ q, q ∈ P ↔ (q.1 ∈ s ∧ q.2 ∈ s) ∧ R q.1 q.2) ∧ P.card = pairsOf s R := by
  classical
  refine ⟨(s ×ˢ s).filter (fun q => R q.1 q.2), fun q => ?_, ?_⟩
  · rw [Finset.mem_filter, Finset.mem_product]
  · rw [pairsOf]

open scoped Nat in
/-- The orders of the deck, by the first and the next five cards. -/
theorem orders_two (Q : Finset PCard → Finset PCard → Prop) :
    {m : List Card | m.Perm Deck.generate ∧
      ∃ g, m = deal g ∧ Q (g.take 5).toFinset ((g.drop 5).take 5).toFinset}.ncard
      = pairsOf fiveCardHands (fun x y => Disjoint x y ∧ Q x y) * (5 ! * (5 ! * 42 !)) := by
  classical
  have hmem : ∀ {s : Finset PCard} {a : List PCard}, a ∈ s.toList.permutations.toFinset ↔
      a.Nodup ∧ a.toFinset = s := by
    intro s a
    rw [List.mem_toFinset, List.mem_permutations]
    constructor
    · intro h
      refine ⟨h.nodup_iff.2 s.nodup_toList, ?_⟩
      rw [List.toFinset_eq_of_perm _ _ h, Finset.toList_toFinset]
    · rintro ⟨hn, rfl⟩
      exact (List.perm_ext_iff_of_nodup hn (Finset.nodup_toList _)).2 (by simp)
  have hcard : ∀ s : Finset PCard, s.toList.permutations.toFinset.card = s.card ! := by
    intro s
    rw [List.toFinset_card_of_nodup (List.nodup_permutations _ s.nodup_toList), List.length_permutations,
      Finset.length_toList]
  obtain ⟨P, hPm, hPc⟩ := pairs_set fiveCardHands (fun x y => Disjoint x y ∧ Q x y)
  rw [← hPc]
  simp only [mem_five] at hPm
  clear hPc
  have hP : ∀ q ∈ P, (q.1.card = 5 ∧ q.2.card = 5) ∧ Disjoint q.1 q.2 ∧ Q q.1 q.2 := fun q hq => (hPm q).1 hq
  let T : Finset (Σ _ : Finset PCard × Finset PCard, List PCard × List PCard × List PCard) :=
    P.sigma (fun q => q.1.toList.permutations.toFinset ×ˢ
      (q.2.toList.permutations.toFinset ×ˢ (pack \ (q.1 ∪ q.2)).toList.permutations.toFinset))
  have hT : T.card = P.card * (5 ! * (5 ! * 42 !)) := by
    rw [Finset.card_sigma, Finset.sum_congr rfl (g := fun _ => 5 ! * (5 ! * 42 !)), Finset.sum_const, smul_eq_mul]
    intro q hq
    obtain ⟨⟨h1, h2⟩, h3, -⟩ := hP q hq
    rw [Finset.card_product, Finset.card_product, hcard, hcard, hcard, h1, h2,
      Finset.card_sdiff_of_subset (fun c _ => pack_complete c), pack_card, Finset.card_union_of_disjoint h3, h1, h2]
  have hall : ∀ t ∈ T, (t.2.1.Nodup ∧ t.2.1.toFinset = t.1.1 ∧ t.2.1.length = 5) ∧
      (t.2.2.1.Nodup ∧ t.2.2.1.toFinset = t.1.2 ∧ t.2.2.1.length = 5) ∧
      t.2.2.2.Nodup ∧ t.2.2.2.toFinset = pack \ (t.1.1 ∪ t.1.2) := by
    intro t ht
    obtain ⟨h1, h2⟩ := Finset.mem_sigma.1 ht
    obtain ⟨⟨c1, c2⟩, -⟩ := hP _ h1
    obtain ⟨a, bc⟩ := Finset.mem_product.1 h2
    obtain ⟨b, c⟩ := Finset.mem_product.1 bc
    obtain ⟨a1, a2⟩ := hmem.1 a
    obtain ⟨b1, b2⟩ := hmem.1 b
    exact ⟨⟨a1, a2, by rw [← c1, ← a2, List.toFinset_card_of_nodup a1]⟩,
      ⟨b1, b2, by rw [← c2, ← b2, List.toFinset_card_of_nodup b1]⟩, hmem.1 c⟩
  rw [← hT, ← Set.ncard_coe_finset]
  symm
  refine Set.ncard_congr (fun t _ => deal (t.2.1 ++ (t.2.2.1 ++ t.2.2.2))) ?_ ?_ ?_
  · intro t ht
    obtain ⟨⟨a1, a2, a3⟩, ⟨b1, b2, b3⟩, c1, c2⟩ := hall t ht
    obtain ⟨-, hd, hQ⟩ := hP _ (Finset.mem_sigma.1 ht).1
    have hc : ∀ c ∈ t.2.2.2, c ∉ t.1.1 ∧ c ∉ t.1.2 := by
      intro c hc
      have : c ∈ pack \ (t.1.1 ∪ t.1.2) := c2 ▸ List.mem_toFinset.2 hc
      have := (Finset.mem_sdiff.1 this).2
      rw [Finset.mem_union, not_or] at this
      exact this
    refine ⟨perm_generate.2 ⟨_, rfl, ?_, ?_⟩, _, rfl, ?_⟩
    · refine List.nodup_append'.2 ⟨a1, List.nodup_append'.2 ⟨b1, c1, ?_⟩, ?_⟩
      · intro c hb hc'
        exact (hc c hc').2 (b2 ▸ List.mem_toFinset.2 hb)
      · intro c ha hbc
        have hx : c ∈ t.1.1 := a2 ▸ List.mem_toFinset.2 ha
        rcases List.mem_append.1 hbc with hb | hc'
        · exact Finset.disjoint_left.1 hd hx (b2 ▸ List.mem_toFinset.2 hb)
        · exact (hc c hc').1 hx
    · rw [List.toFinset_append, List.toFinset_append, a2, b2, c2, ← Finset.union_assoc,
        Finset.union_sdiff_of_subset (fun c _ => pack_complete c)]
    · rw [List.take_left' a3, List.drop_left' a3, List.take_left' b3, a2, b2]
      exact hQ
  · intro t t' ht ht' h
    obtain ⟨⟨a1, a2, a3⟩, ⟨b1, b2, b3⟩, c1, c2⟩ := hall t ht
    obtain ⟨⟨a1', a2', a3'⟩, ⟨b1', b2', b3'⟩, c1', c2'⟩ := hall t' ht'
    obtain ⟨ha, hbc⟩ := List.append_inj (deal_injective h) (a3.trans a3'.symm)
    obtain ⟨hb, hc⟩ := List.append_inj hbc (b3.trans b3'.symm)
    have hx : t.1.1 = t'.1.1 := by rw [← a2, ← a2', ha]
    have hy : t.1.2 = t'.1.2 := by rw [← b2, ← b2', hb]
    obtain ⟨⟨x, y⟩, a, b, c⟩ := t
    obtain ⟨⟨x', y'⟩, a', b', c'⟩ := t'
    simp only at ha hb hc hx hy
    subst ha hb hc hx hy
    rfl
  · rintro m ⟨hm, g, rfl, hQ⟩
    obtain ⟨g', hg, hgn, hgp⟩ := perm_generate.1 hm
    obtain rfl := deal_injective hg
    have h52 : g.length = 52 := by rw [← List.toFinset_card_of_nodup hgn, hgp, pack_card]
    have hs : g.take 5 ++ ((g.drop 5).take 5 ++ (g.drop 5).drop 5) = g := by
      rw [List.take_append_drop, List.take_append_drop]
    have hn := hgn
    rw [← hs] at hn
    obtain ⟨n1, nbc, d1⟩ := List.nodup_append'.1 hn
    obtain ⟨n2, n3, d2⟩ := List.nodup_append'.1 nbc
    have hd : Disjoint (g.take 5).toFinset ((g.drop 5).take 5).toFinset := by
      rw [Finset.disjoint_left]
      intro c hc hc'
      exact d1 (List.mem_toFinset.1 hc) (List.mem_append_left _ (List.mem_toFinset.1 hc'))
    refine ⟨⟨((g.take 5).toFinset, ((g.drop 5).take 5).toFinset), g.take 5, (g.drop 5).take 5, (g.drop 5).drop 5⟩,
      ?_, congrArg deal hs⟩
    refine Finset.mem_sigma.2 ⟨(hPm _).2 ⟨⟨?_, ?_⟩, hd, hQ⟩, ?_⟩
    · rw [List.toFinset_card_of_nodup n1, List.length_take, h52]
      rfl
    · rw [List.toFinset_card_of_nodup n2, List.length_take, List.length_drop, h52]
      rfl
    · refine Finset.mem_product.2 ⟨hmem.2 ⟨n1, rfl⟩, Finset.mem_product.2 ⟨hmem.2 ⟨n2, rfl⟩, hmem.2 ⟨n3, ?_⟩⟩⟩
      ext c
      rw [Finset.mem_sdiff, Finset.mem_union, List.mem_toFinset, List.mem_toFinset, List.mem_toFinset, not_or]
      constructor
      · intro hc
        exact ⟨pack_complete c, fun h => d1 h (List.mem_append_right _ hc), fun h => d2 h hc⟩
      · rintro ⟨hc, h1, h2⟩
        have : c ∈ g := List.mem_toFinset.1 (hgp ▸ hc)
        rw [← hs, List.mem_append, List.mem_append] at this
        exact (this.resolve_left h1).resolve_left h2

theorem places_first {g : List PCard} (h52 : g.length = 52) :
    cardsAt (deal g) (List.ofFn (draw5.own 0) ++ List.ofFn draw5.board) = deal (g.take 5) ∧
    cardsAt (deal g) (List.ofFn (draw5.own 1) ++ List.ofFn draw5.board) = deal ((g.drop 5).take 5) := by
  obtain ⟨a, b, c, d, e, f, i, j, k, l, r, rfl⟩ : ∃ a b c d e f i j k l r,
      g = a :: b :: c :: d :: e :: f :: i :: j :: k :: l :: r := by
    match g, h52 with
    | a :: b :: c :: d :: e :: f :: i :: j :: k :: l :: r, _ => exact ⟨a, b, c, d, e, f, i, j, k, l, r, rfl⟩
  exact ⟨rfl, rfl⟩

open scoped Nat in
/-- C69: of the 52! sequences of choices, the part that deals two players five cards each with results that have
the property `p` is the part of such pairs among all pairs of hands. -/
theorem c69_deals {l : List Card} (hl : l.Perm Deck.generate) (t : Dealing 2 5 0) (p : Eval → Eval → Prop) :
    ways (Shuffled l (fun m => ∃ e e', t.result m 0 = .ok (.ok e) ∧ t.result m 1 = .ok (.ok e') ∧ p e e'))
      = pairsWith p * (5 ! * (5 ! * 42 !)) := by
  rw [c68_dealings hl t draw5 (fun r => ∃ e e', r 0 = .ok (.ok e) ∧ r 1 = .ok (.ok e') ∧ p e e'), ways_orders hl,
    pairsWith, ← orders_two]
  congr 1
  ext m
  refine and_congr_right (fun hm => ?_)
  obtain ⟨g, rfl, hgn, hgp⟩ := perm_generate.1 hm
  have h52 : g.length = 52 := by rw [← List.toFinset_card_of_nodup hgn, hgp, pack_card]
  obtain ⟨p0, p1⟩ := places_first h52
  have n1 : (g.take 5).Nodup := hgn.sublist (List.take_sublist _ _)
  have n2 : ((g.drop 5).take 5).Nodup := hgn.sublist ((List.take_sublist _ _).trans (List.drop_sublist _ _))
  have r0 : draw5.result (deal g) 0 = evaluateHand (g.take 5) := by
    rw [Dealing.result, p0]
    rfl
  have r1 : draw5.result (deal g) 1 = evaluateHand ((g.drop 5).take 5) := by
    rw [Dealing.result, p1]
    rfl
  rw [r0, r1]
  have key : (∃ e e', evaluateHand (g.take 5) = .ok (.ok e) ∧ evaluateHand ((g.drop 5).take 5) = .ok (.ok e') ∧ p e e')
      ↔ ∃ e, Gets (· = e) (g.take 5).toFinset ∧ Gets (p e) ((g.drop 5).take 5).toFinset := by
    refine exists_congr (fun e => ?_)
    rw [(c45_order (· = e) _ n1).2, (c45_order (p e) _ n2).2]
    constructor
    · rintro ⟨e', h1, h2, h3⟩
      exact ⟨⟨e, h1, rfl⟩, e', h2, h3⟩
    · rintro ⟨⟨_, h1, rfl⟩, e', h2, h3⟩
      exact ⟨e', h1, h2, h3⟩
  rw [key]
  constructor
  · exact fun h => ⟨g, rfl, h⟩
  · rintro ⟨g', hg, h⟩
    rw [deal_injective hg]
    exact h

theorem ways_decks {l : List Card} (hl : l.Perm Deck.generate) {q q' : List Card → Prop}
    (h : ∀ m, m.Perm Deck.generate → (q m ↔ q' m)) : ways (Shuffled l q) = ways (Shuffled l q') := by
  rw [ways_orders hl, ways_orders hl]
  congr 1
  ext m
  exact and_congr_right (h m)

open scoped Nat in
/-- C69: how often two players with five cards each have the same result. -/
theorem c69_ties {l : List Card} (hl : l.Perm Deck.generate) (t : Dealing 2 5 0) :
    ways (Shuffled l (fun m => t.result m 0 = t.result m 1)) = 347798880 * (5 ! * (5 ! * 42 !)) := by
  rw [← c69_pairs, ← c69_deals hl t]
  refine ways_decks hl (fun m hm => ?_)
  obtain ⟨e, he⟩ := c68_results hm t (by decide) 0
  obtain ⟨e', he'⟩ := c68_results hm t (by decide) 1
  constructor
  · intro h
    exact ⟨e, e, he, h ▸ he, (Eval.eq_iff_cmp _ _).2 (by rw [Eval.cmp_eq, Std.LawfulEqCmp.compare_eq_iff_eq])⟩
  · rintro ⟨a, b, ha, hb, hab⟩
    rw [ha, hb, c68_results_eq hm t ha hb hab]

theorem half_rest {w k n : Nat} (h : 2 * w + 347798880 * k = n) (hn : 2598960 * 1533939 * k = n) :
    w = 1993149152280 * k := by
  omega

open scoped Nat in
/-- The number of orders of the deck, by the hands of the two players. -/
theorem ways_pairs : 2598960 * 1533939 * (5 ! * (5 ! * 42 !)) = ways (fun _ => True) := by
  rw [← c69_all, ← c69_deals (.refl _) draw5]
  refine ways_congr (fun d => iff_of_true ?_ trivial)
  obtain ⟨m, hm, hp⟩ := shuffle_draws (.refl _) d
  obtain ⟨e, he⟩ := c68_results hp draw5 (by decide) 0
  obtain ⟨e', he'⟩ := c68_results hp draw5 (by decide) 1
  exact ⟨m, hm, e, e', he, he', trivial⟩

open scoped Nat in
/-- C69: how often each of them has the better result. -/
theorem c69_wins {l : List Card} (hl : l.Perm Deck.generate) (t : Dealing 2 5 0) (i : Fin 2) :
    ways (Shuffled l (t.Alone i)) = 1993149152280 * (5 ! * (5 ! * 42 !)) := by
  rw [(c68_fair hl t i 0).2]
  have h := c68_two hl t (by decide)
  rw [c69_ties hl t] at h
  exact half_rest h ways_pairs

theorem cancel_orders {a b k : Nat} (hk : 0 < k) (h : a * k = b * k) : a = b := Nat.eq_of_mul_eq_mul_right hk h

open scoped Nat in
theorem orders_pos : 0 < 5 ! * (5 ! * 42 !) :=
  Nat.mul_pos (Nat.factorial_pos _) (Nat.mul_pos (Nat.factorial_pos _) (Nat.factorial_pos _))

/-- C69: in how many pairs of hands without a card in common the first is better, and in how many the second. -/
theorem c69_better : pairsWith (fun e e' => e.gt e' = true) = 1993149152280 ∧
    pairsWith (fun e e' => e.lt e' = true) = 1993149152280 := by
  have only : ∀ (i j : Fin 2) {m : List Card} {e e' : Eval}, i ≠ j → m.Perm Deck.generate →
      draw5.result m i = .ok (.ok e) → draw5.result m j = .ok (.ok e') → (draw5.Alone i m ↔ e.gt e' = true) := by
    intro i j m e e' hij hm he he'
    constructor
    · rintro ⟨a, ha, h⟩
      rw [he] at ha
      cases ha
      exact h j hij.symm e' he'
    · intro h
      refine ⟨e, he, fun x hx b hb => ?_⟩
      obtain rfl : x = j := by omega
      rw [he'] at hb
      cases hb
      exact h
  constructor
  · refine cancel_orders orders_pos ?_
    rw [← c69_deals (.refl _) draw5, ← c69_wins (.refl _) draw5 0]
    refine ways_decks (.refl _) (fun m hm => ?_)
    obtain ⟨e, he⟩ := c68_results hm draw5 (by decide) 0
    obtain ⟨e', he'⟩ := c68_results hm draw5 (by decide) 1
    rw [only 0 1 (by decide) hm he he', he, he']
    constructor
    · rintro ⟨a, b, ha, hb, h⟩
      cases ha
      cases hb
      exact h
    · exact fun h => ⟨e, e', rfl, rfl, h⟩
  · refine cancel_orders orders_pos ?_
    rw [← c69_deals (.refl _) draw5, ← c69_wins (.refl _) draw5 1]
    refine ways_decks (.refl _) (fun m hm => ?_)
    obtain ⟨e, he⟩ := c68_results hm draw5 (by decide) 0
    obtain ⟨e', he'⟩ := c68_results hm draw5 (by decide) 1
    have flip : e'.gt e = true ↔ e.lt e' = true := by
      rw [Eval.gt_iff, Eval.lt_iff, Eval.cmp_eq, Eval.cmp_eq, Int.compare_eq_gt, Int.compare_eq_lt]
    rw [only 1 0 (by decide) hm he' he, he, he', flip]
    constructor
    · rintro ⟨a, b, ha, hb, h⟩
      cases ha
      cases hb
      exact h
    · exact fun h => ⟨e, e', rfl, rfl, h⟩

theorem as_part {w a k n : Nat} (h : w = a * k) (hn : 2598960 * 1533939 * k = n) : w * 3986646103440 = a * n := by
  subst h hn
  ring

/-- C69: the same as parts of all: one deal in about 11463 is a tie. -/
theorem c69_chances {l : List Card} (hl : l.Perm Deck.generate) (t : Dealing 2 5 0) (i : Fin 2) :
    ways (Shuffled l (fun m => t.result m 0 = t.result m 1)) * 3986646103440 = 347798880 * ways (fun _ => True) ∧
    ways (Shuffled l (t.Alone i)) * 3986646103440 = 1993149152280 * ways (fun _ => True) := by
  have h := ways_pairs
  exact ⟨as_part (c69_ties hl t) h, as_part (c69_wins hl t i) h⟩

example : ways (Shuffled Deck.generate.reverse (draw5.Alone 1)) * 3986646103440
    = 1993149152280 * ways (fun _ => True) := (c69_chances (List.reverse_perm _) draw5 1).2

end Poker
