import Verif.Spec.Nuts
import Verif.Proofs.Outs
import Verif.Proofs.Exact

/-! # The best hand a board allows (helper lemmas) -/

namespace Poker
open Rules Tab

namespace Nuts
open Board

/-! ## Highest values -/

theorem top_head {p : Nat → Bool} {v : Nat} {l : List Nat} (h : allValues.filter p = v :: l) :
    topValue p = v := by
  rw [topValue, h]; rfl

theorem top_spec {p : Nat → Bool} (h : ∃ v ∈ allValues, p v = true) :
    topValue p ∈ allValues ∧ p (topValue p) = true ∧ (∀ u ∈ allValues, p u = true → u ≤ topValue p) ∧
      (allValues.filter p).take 1 = [topValue p] := by
  obtain ⟨v, hv, hp⟩ := h
  have hm := List.mem_filter.2 ⟨hv, hp⟩
  match hl : allValues.filter p with
  | [] => rw [hl] at hm; exact absurd hm List.not_mem_nil
  | a :: l =>
    rw [top_head hl]
    have ha := List.mem_filter.1 (show a ∈ allValues.filter p by rw [hl]; exact List.mem_cons_self)
    refine ⟨ha.1, ha.2, ?_, rfl⟩
    intro u hu hpu
    have h1 : u ∈ a :: l := by rw [← hl]; exact List.mem_filter.2 ⟨hu, hpu⟩
    have h2 : (a :: l).Pairwise (· > ·) := by rw [← hl]; exact allValues_desc.filter _
    rcases List.mem_cons.1 h1 with rfl | h1
    · exact Nat.le_refl _
    · exact Nat.le_of_lt ((List.pairwise_cons.1 h2).1 u h1)

theorem top_le {p q : Nat → Bool} (hp : ∃ v ∈ allValues, p v = true)
    (h : ∀ v ∈ allValues, p v = true → q v = true) : topValue p ≤ topValue q := by
  obtain ⟨v, hv, hpv⟩ := hp
  obtain ⟨h1, h2, _⟩ := top_spec ⟨v, hv, hpv⟩
  exact (top_spec ⟨v, hv, h v hv hpv⟩).2.2.1 _ h1 (h _ h1 h2)

/-! ## Worths -/

theorem worth_category (h : List PCard) : (bestWorth h).1 = category h := by
  have hle := Cat.category_le h
  obtain ⟨k, hk⟩ : ∃ k, category h = k := ⟨_, rfl⟩
  rw [hk] at hle
  rw [bestWorth, hk]
  interval_cases k <;> rfl

/-- No two cards make more of the board. -/
def AtMost (b : List PCard) (w : Nat × List Nat) : Prop :=
  ∀ x y : PCard, (x :: y :: b).Nodup → cmpWorth (bestWorth (x :: y :: b)) w ≠ .gt

/-- Some two cards make this of the board. -/
def Made (b : List PCard) (w : Nat × List Nat) : Prop :=
  ∃ x y : PCard, (x :: y :: b).Nodup ∧ bestWorth (x :: y :: b) = w

theorem at_most {b : List PCard} {k : Nat} {X : List Nat}
    (hk : ∀ j, k < j → j ≤ 8 → ¬ Own b j)
    (hX : ∀ x y : PCard, (x :: y :: b).Nodup → category (x :: y :: b) = k →
      cmpList (bestWorth (x :: y :: b)).2 X ≠ .gt) : AtMost b (k, X) := by
  intro x y hd
  have h1 : category (x :: y :: b) ≤ k := by
    by_contra hc
    exact hk _ (by omega) (Cat.category_le _) ⟨x, y, hd, rfl⟩
  have hX' := hX x y hd
  rw [← worth_category] at h1 hX'
  rw [cmpWorth]
  rcases Nat.lt_or_eq_of_le h1 with h | h
  · rw [Nat.compare_eq_lt.2 h]; simp
  · rw [Nat.compare_eq_eq.2 h]
    exact hX' h

theorem cmpList_refl (a : List Nat) : cmpList a a ≠ .gt := by
  rw [cmpList_eq_iff.2 rfl]; simp

/-! ## Straights -/

theorem three_top_spec {h : List PCard} {t : Nat} (ht : threeTop (values h) = some t) :
    t ∈ straightTops ∧ 3 ≤ (Cat.run t).countP (fun v => decide (v ∈ values h)) := by
  rw [threeTop] at ht
  have h1 := List.find?_some
    (p := fun t => decide (3 ≤ [t, t - 1, t - 2, t - 3, t - 4].countP (plays (values h)))) ht
  rw [decide_eq_true_eq, three_key] at h1
  exact ⟨List.mem_of_find?_eq_some ht, h1⟩

theorem le_three_top {h : List PCard} {t : Nat} (ht : t ∈ straightTops)
    (h3 : 3 ≤ (Cat.run t).countP (fun v => decide (v ∈ values h))) :
    ∃ u, threeTop (values h) = some u ∧ t ≤ u := by
  refine Exact.find_max Exact.straightTops_desc ht ?_
  rw [decide_eq_true_eq, three_key]
  exact h3

theorem top_run {h : List PCard} {t : Nat} (ht : straightTop (values h) = some t) :
    t ∈ straightTops ∧ ∀ v ∈ Cat.run t, v ∈ values h := by
  obtain ⟨h1, h2⟩ := Exact.straightTop_some ht
  exact ⟨h1, Cat.plays_run h2 (Cat.one_not_value h)⟩

theorem run_top {h : List PCard} {t : Nat} (ht : t ∈ straightTops) (hv : ∀ v ∈ Cat.run t, v ∈ values h) :
    ∃ u, straightTop (values h) = some u ∧ t ≤ u :=
  Exact.straightTop_mono hv (Exact.straightTop_run t ht)

theorem case8 {b : List PCard} (hn : b.Nodup) (h5 : b.length ≤ 5)
    (h : suits.any (fun s => threeToStraight (values (ofSuit s b))) = true) :
    AtMost b (8, [(suits.filterMap (fun s => threeTop (values (ofSuit s b)))).foldl max 0]) ∧
    Made b (8, [(suits.filterMap (fun s => threeTop (values (ofSuit s b)))).foldl max 0]) := by
  have e8 : ∀ g : List PCard, category g = 8 → bestWorth g =
      (8, [(suits.filterMap (fun s => straightTop (values (ofSuit s g)))).foldl max 0]) := by
    intro g hg
    rw [bestWorth, hg]
    rfl
  have up : ∀ x y : PCard, (suits.filterMap (fun s => straightTop (values (ofSuit s (x :: y :: b))))).foldl max 0 ≤
      (suits.filterMap (fun s => threeTop (values (ofSuit s b)))).foldl max 0 := by
    intro x y
    rcases Exact.foldl_max_mem (suits.filterMap (fun s => straightTop (values (ofSuit s (x :: y :: b))))) 0 with
      e | e
    · rw [e]; exact Nat.zero_le _
    · obtain ⟨s, hs, ht⟩ := List.mem_filterMap.1 e
      obtain ⟨h1, h2⟩ := top_run ht
      obtain ⟨u, hu, hle⟩ := le_three_top h1 (three_of_top (own_sub s) h1 h2)
      exact hle.trans ((Exact.le_foldl_max _ 0).2 u (List.mem_filterMap.2 ⟨s, hs, hu⟩))
  refine ⟨at_most (fun j h1 h2 => by omega) ?_, ?_⟩
  · intro x y _ hc
    rw [e8 _ hc]
    exact Exact.cmp_one (up x y)
  · -- the suit and the top of the best
    have hmem : ∃ s, threeTop (values (ofSuit s b)) =
        some ((suits.filterMap (fun s => threeTop (values (ofSuit s b)))).foldl max 0) := by
      obtain ⟨s, hs, h1⟩ := List.any_eq_true.1 h
      obtain ⟨t, ht, h3⟩ := three_iff.1 h1
      obtain ⟨u, hu, hle⟩ := le_three_top ht h3
      have h2 := (Exact.le_foldl_max (suits.filterMap (fun s => threeTop (values (ofSuit s b)))) 0).2 u
        (List.mem_filterMap.2 ⟨s, hs, hu⟩)
      have h0 : 5 ≤ t := by
        have : ∀ t ∈ straightTops, 5 ≤ t := by decide
        exact this t ht
      rcases Exact.foldl_max_mem (suits.filterMap (fun s => threeTop (values (ofSuit s b)))) 0 with e | e
      · omega
      · obtain ⟨s, _, h⟩ := List.mem_filterMap.1 e
        exact ⟨s, h⟩
    generalize (suits.filterMap (fun s => threeTop (values (ofSuit s b)))).foldl max 0 = t at *
    obtain ⟨s, hs⟩ := hmem
    obtain ⟨ht, h3⟩ := three_top_spec hs
    obtain ⟨m, hm, h2, hmem, hst⟩ := missing_top ht h3 s
    obtain ⟨x, y, hxy, hx, hy, hall, _, _⟩ := complete h5 hm h2 (fun c hc hcb =>
      (hmem c hc).2 (List.mem_map.2 ⟨c, Cat.mem_ofSuit.2 ⟨hcb, (hmem c hc).1⟩, rfl⟩)) s
    have hv : ∀ v ∈ Cat.run t, v ∈ values (ofSuit s (x :: y :: b)) := by
      refine hst _ ?_ ?_
      · intro c hc
        rw [Cat.mem_ofSuit] at hc ⊢
        exact ⟨by simp [hc.1], hc.2⟩
      · intro c hc
        rw [Cat.mem_ofSuit]
        refine ⟨?_, (hmem c hc).1⟩
        rcases hall c hc with rfl | rfl <;> simp
    obtain ⟨u, hu, hle⟩ := run_top ht hv
    have hc : category (x :: y :: b) = 8 := (cat_iff _).1.2 (sf_iff.2 ⟨s, by rw [hu]; rfl⟩)
    refine ⟨x, y, nodup_two hn hxy hx hy, ?_⟩
    rw [e8 _ hc]
    have h6 := up x y
    have h7 := (Exact.le_foldl_max (suits.filterMap (fun s =>
      straightTop (values (ofSuit s (x :: y :: b))))) 0).2 u (List.mem_filterMap.2 ⟨s, Cat.suits_all s, hu⟩)
    rw [show (suits.filterMap (fun s => straightTop (values (ofSuit s (x :: y :: b))))).foldl max 0 = t by omega]

theorem case4 {b : List PCard} (hn : b.Nodup) (h5 : b.length ≤ 5) (hk : ∀ j, 4 < j → j ≤ 8 → ¬ Own b j)
    {t : Nat} (h : threeTop (values b) = some t) : AtMost b (4, [t]) ∧ Made b (4, [t]) := by
  have e4 : ∀ g : List PCard, category g = 4 → ∃ u, straightTop (values g) = some u ∧ bestWorth g = (4, [u]) := by
    intro g hg
    have hs := ((cat_iff g).2.2.2.2.1.1 hg).2.2.2.2
    obtain ⟨u, hu⟩ := Option.isSome_iff_exists.1 hs
    refine ⟨u, hu, ?_⟩
    rw [bestWorth, hg]
    show (4, [(straightTop (values g)).getD 0]) = _
    rw [hu]; rfl
  have up : ∀ (x y : PCard) (u : Nat), straightTop (values (x :: y :: b)) = some u → u ≤ t := by
    intro x y u hu
    obtain ⟨h1, h2⟩ := top_run hu
    obtain ⟨w, hw, hle⟩ := le_three_top h1 (three_of_top (x := x) (y := y) (g := b) (by simp) h1 h2)
    rw [h] at hw
    cases hw
    exact hle
  refine ⟨at_most hk ?_, ?_⟩
  · intro x y _ hc
    obtain ⟨u, hu, e⟩ := e4 _ hc
    rw [e]
    exact Exact.cmp_one (up x y u hu)
  · obtain ⟨ht, h3⟩ := three_top_spec h
    obtain ⟨m, hm, h2, hmem, hst⟩ := missing_top ht h3 .Clubs
    obtain ⟨x, y, hxy, hx, hy, hall, _, _⟩ := complete h5 hm h2 (fun c hc hcb =>
      (hmem c hc).2 (List.mem_map.2 ⟨c, hcb, rfl⟩)) .Clubs
    have hd := nodup_two hn hxy hx hy
    have hv : ∀ v ∈ Cat.run t, v ∈ values (x :: y :: b) := by
      refine hst _ (fun c hc => by simp [hc]) ?_
      intro c hc
      rcases hall c hc with rfl | rfl <;> simp
    obtain ⟨u, hu, hle⟩ := run_top ht hv
    have h4 : 4 ≤ category (x :: y :: b) := Cat.le_category (by omega) (show hasStraight _ = true by
      rw [hasStraight, hu]; rfl)
    have hc : category (x :: y :: b) = 4 := by
      by_contra hne
      exact hk _ (by omega) (Cat.category_le _) ⟨x, y, hd, rfl⟩
    obtain ⟨u', hu', e⟩ := e4 _ hc
    rw [hu] at hu'
    cases hu'
    refine ⟨x, y, hd, ?_⟩
    rw [e, show u = t from Nat.le_antisymm (up x y u hu) hle]

/-! ## Groups -/

theorem cmp_two {a b c d : Nat} (h : a < c ∨ a = c ∧ b ≤ d) : cmpList [a, b] [c, d] ≠ .gt := by
  simp only [cmpList]
  rcases h with h | ⟨rfl, h⟩
  · rw [Nat.compare_eq_lt.2 h]; simp
  · rw [Nat.compare_eq_eq.2 rfl]
    rcases Nat.lt_or_eq_of_le h with h | h
    · rw [Nat.compare_eq_lt.2 h]; simp
    · rw [Nat.compare_eq_eq.2 h]; simp

/-- The values that decide four of a kind. -/
theorem quads_values {g : List PCard} (hg : category g = 7) (hn : g.Nodup) (h5 : 5 ≤ g.length) :
    ∃ v k, bestWorth g = (7, [v, k]) ∧ v ∈ allValues ∧ 4 ≤ (values g).count v ∧
      (∀ u, 4 ≤ (values g).count u → u ≤ v) ∧ k ∈ values g ∧ k ≠ v ∧ ∀ u ∈ values g, u ≠ v → u ≤ k := by
  obtain ⟨w, hw⟩ := quads_iff.1 ((cat_iff g).2.1.1 hg).2
  have hex : ∃ v ∈ allValues, decide (4 ≤ (values g).count v) = true :=
    ⟨w, value_of_count (by omega) hw, decide_eq_true hw⟩
  obtain ⟨h1, h2, h3, h4⟩ := top_spec hex
  generalize hv : topValue (fun v => decide (4 ≤ (values g).count v)) = v at *
  rw [decide_eq_true_eq] at h2
  have hex2 : ∃ u ∈ allValues, (!List.contains [v] u && decide (1 ≤ (values g).count u)) = true := by
    obtain ⟨u, hu, hne⟩ : ∃ u ∈ values g, u ≠ v := by
      by_contra hc
      have hall : ∀ u ∈ values g, v = u := by
        intro u hu
        by_contra hne
        exact hc ⟨u, hu, fun e => hne e.symm⟩
      have e1 := List.count_eq_length.2 hall
      have e2 := count_values_le hn v
      rw [values, List.length_map] at e1
      rw [values] at e2
      omega
    refine ⟨u, values_mem g u hu, ?_⟩
    have := List.count_pos_iff.2 hu
    simp [hne]
    exact hu
  obtain ⟨k1, k2, k3, k4⟩ := top_spec hex2
  generalize topValue (fun u => !List.contains [v] u && decide (1 ≤ (values g).count u)) = k at *
  refine ⟨v, k, ?_, h1, h2, ?_, ?_, ?_, ?_⟩
  · rw [bestWorth, hg]
    show (7, highest 4 1 1 1 (values g)) = _
    rw [highest, atLeast, h4, atLeast, List.filter_filter, k4]
    rfl
  · intro u hu
    exact h3 u (value_of_count (by omega) hu) (decide_eq_true hu)
  · rw [Bool.and_eq_true, decide_eq_true_eq] at k2
    exact List.count_pos_iff.1 (by omega)
  · rw [Bool.and_eq_true] at k2
    simpa using k2.1
  · intro u hu hne
    refine k3 u (values_mem g u hu) ?_
    have := List.count_pos_iff.2 hu
    simp [hne]
    exact hu

theorem case7 {b : List PCard} (hn : b.Nodup) (h3 : 3 ≤ b.length) (h5 : b.length ≤ 5)
    (h8 : ¬ Own b 8) (hp : hasPair b = true) {v k : Nat}
    (hv : v = topValue (fun v => decide (2 ≤ (values b).count v)))
    (hk : k = topValue (fun u => u != v && ((values b).count v != 2 || (values b).contains u))) :
    AtMost b (7, [v, k]) ∧ Made b (7, [v, k]) := by
  obtain ⟨w, hw⟩ := pair_iff.1 hp
  have v0 := top_spec (p := fun v => decide (2 ≤ (values b).count v))
    ⟨w, value_of_count (by omega) hw, decide_eq_true hw⟩
  rw [← hv] at v0
  obtain ⟨v1, v2, v3, _⟩ := v0
  rw [decide_eq_true_eq] at v2
  have hlen : (values b).length = b.length := values_length b
  have k0 := top_spec (p := fun u => u != v && ((values b).count v != 2 || (values b).contains u)) (by
    by_cases h2 : (values b).count v = 2
    · obtain ⟨u, hu, hne⟩ : ∃ u ∈ values b, u ≠ v := by
        by_contra hc
        have hall : ∀ u ∈ values b, v = u := by
          intro u hu
          by_contra hne
          exact hc ⟨u, hu, fun e => hne e.symm⟩
        have e1 := List.count_eq_length.2 hall
        omega
      exact ⟨u, values_mem b u hu, by simp [hne, hu]⟩
    · by_cases e : v = 14
      · exact ⟨13, by decide, by subst e; simp [h2]⟩
      · exact ⟨14, by decide, by simp [h2]; omega⟩)
  rw [← hk] at k0
  obtain ⟨k1, k2, k3, _⟩ := k0
  have kne : k ≠ v := by
    rw [Bool.and_eq_true] at k2
    simpa using k2.1
  have kmem : (values b).count v = 2 → k ∈ values b := by
    intro h2
    rw [Bool.and_eq_true, Bool.or_eq_true] at k2
    rcases k2.2 with h | h
    · simp [h2] at h
    · simpa using h
  have hlg : ∀ x y : PCard, (x :: y :: b).length = b.length + 2 := fun x y => rfl
  -- what four of a kind can be
  have up : ∀ x y : PCard, (x :: y :: b).Nodup → ∀ v' k', 4 ≤ (values (x :: y :: b)).count v' →
      k' ∈ values (x :: y :: b) → k' ≠ v' → v' < v ∨ v' = v ∧ k' ≤ k := by
    intro x y hd v' k' h4 hk' hne
    rw [count_two] at h4
    have hb : 2 ≤ (values b).count v' := by
      split at h4 <;> split at h4 <;> omega
    have hle := v3 v' (value_of_count (by omega) hb) (decide_eq_true hb)
    rcases Nat.lt_or_eq_of_le hle with h | h
    · exact .inl h
    · subst h
      refine .inr ⟨rfl, k3 k' (values_mem _ k' hk') ?_⟩
      by_cases h2 : (values b).count v' = 2
      · have hx : pips x.1 = v' := by
          by_contra hx
          rw [if_neg hx] at h4
          split at h4 <;> omega
        have hy : pips y.1 = v' := by
          by_contra hy
          rw [if_neg hy] at h4
          split at h4 <;> omega
        have : k' ∈ values b := by
          rw [values, List.map_cons, List.map_cons, List.mem_cons, List.mem_cons, hx, hy] at hk'
          rcases hk' with h | h | h
          · exact absurd h hne
          · exact absurd h hne
          · exact h
        simp [hne, this]
      · simp [hne, h2]
  refine ⟨at_most (fun j h1 h2 => by rw [show j = 8 by omega]; exact h8) ?_, ?_⟩
  · intro x y hd hc
    obtain ⟨v', k', e, _, h4, _, hk', hne, _⟩ := quads_values hc hd (by rw [hlg]; omega)
    rw [e]
    exact cmp_two (up x y hd v' k' h4 hk' hne)
  · -- the cards
    have fin : ∀ x y : PCard, (x :: y :: b).Nodup → 4 ≤ (values (x :: y :: b)).count v →
        k ∈ values (x :: y :: b) → Made b (7, [v, k]) := by
      intro x y hd h4 hkm
      have hq : hasQuads (x :: y :: b) = true := quads_iff.2 ⟨v, h4⟩
      have hc : category (x :: y :: b) = 7 := (cat_iff _).2.1.2
        ⟨no_sf_groups (by rw [hlg]; omega) (.inl hq), hq⟩
      obtain ⟨v', k', e, _, h4', hmax, hk', hne, hkmax⟩ := quads_values hc hd (by rw [hlg]; omega)
      have h1 := hmax v h4
      rcases up x y hd v' k' h4' hk' hne with h | ⟨h, h2⟩
      · omega
      · subst h
        have h2' := hkmax k hkm kne
        refine ⟨x, y, hd, ?_⟩
        rw [e, show k' = k by omega]
    have hleft := Outs.left_length v1 hn
    have hc4 := count_values_le hn v
    obtain h2 | h2 | h2 : (values b).count v = 2 ∨ (values b).count v = 3 ∨ (values b).count v = 4 := by omega
    · -- both cards
      obtain ⟨x, y, hl⟩ : ∃ x y, Outs.left v b = [x, y] := by
        rw [← List.length_eq_two]; omega
      have hx := (Outs.mem_left v1).1 (show x ∈ Outs.left v b by rw [hl]; simp)
      have hy := (Outs.mem_left v1).1 (show y ∈ Outs.left v b by rw [hl]; simp)
      have hnd := Outs.left_nodup v b
      rw [hl] at hnd
      refine fin x y (nodup_two hn (by simpa using hnd) hx.2 hy.2) ?_ ?_
      · rw [count_two, if_pos hx.1, if_pos hy.1]; omega
      · obtain ⟨c, hc, e⟩ := List.mem_map.1 (kmem h2)
        exact List.mem_map.2 ⟨c, by simp [hc], e⟩
    · -- one card, and one to go with it
      obtain ⟨x, hl⟩ : ∃ x, Outs.left v b = [x] := by
        rw [← List.length_eq_one_iff]; omega
      have hx := (Outs.mem_left v1).1 (show x ∈ Outs.left v b by rw [hl]; simp)
      have hkc : (values b).count k ≤ 2 := by
        have := two_counts kne (values b)
        omega
      obtain ⟨y, hy, _, hyb⟩ := one_free k1 .Clubs hkc
      refine fin x y (nodup_two hn ?_ hx.2 hyb) ?_ ?_
      · rintro rfl
        exact kne (hy.symm.trans hx.1)
      · rw [count_two, if_pos hx.1]; omega
      · exact List.mem_map.2 ⟨y, by simp, hy⟩
    · -- two to go with it
      have hkc : (values b).count k ≤ 1 := by
        have := two_counts kne (values b)
        omega
      obtain ⟨x, y, hxy, hx, _, hxb, hy, _, hyb⟩ := two_free k1 .Clubs hkc
      refine fin x y (nodup_two hn hxy hxb hyb) ?_ ?_
      · rw [count_two]; omega
      · exact List.mem_map.2 ⟨y, by simp, hy⟩

/-! ## Three of a kind -/

theorem case3 {b : List PCard} (hn : b.Nodup) (h3 : 3 ≤ b.length)
    (hk : ∀ j, 3 < j → j ≤ 8 → ¬ Own b j) (hp : hasPair b = false) :
    AtMost b (3, (allValues.filter (fun v => (values b).contains v)).take 3) ∧
    Made b (3, (allValues.filter (fun v => (values b).contains v)).take 3) := by
  have hb := Outs.no_pair hp
  obtain ⟨D, hD⟩ : ∃ D, D = allValues.filter (fun v => (values b).contains v) := ⟨_, rfl⟩
  have hmem : ∀ v, v ∈ D ↔ v ∈ values b := by
    intro v
    rw [hD, List.mem_filter, List.contains_iff_mem]
    exact ⟨fun h => h.2, fun h => ⟨values_mem b v h, h⟩⟩
  have hdesc : D.Pairwise (· > ·) := by rw [hD]; exact allValues_desc.filter _
  rw [← hD]
  obtain ⟨v, D', rfl⟩ : ∃ v D', D = v :: D' := by
    match D, hmem with
    | [], hmem =>
      obtain ⟨c, hc⟩ := List.exists_mem_of_length_pos (l := b) (by omega)
      exact absurd ((hmem _).2 (List.mem_map.2 ⟨c, hc, rfl⟩)) List.not_mem_nil
    | v :: D', _ => exact ⟨v, D', rfl⟩
  have hvb : v ∈ values b := (hmem v).1 List.mem_cons_self
  have hmax : ∀ u ∈ values b, u ≤ v := by
    intro u hu
    rcases List.mem_cons.1 ((hmem u).2 hu) with rfl | h
    · exact Nat.le_refl _
    · exact Nat.le_of_lt ((List.pairwise_cons.1 hdesc).1 u h)
  -- what three of a kind are
  have key : ∀ x y : PCard, (x :: y :: b).Nodup → category (x :: y :: b) = 3 →
      ∃ v' l, (bestWorth (x :: y :: b)) = (3, v' :: l) ∧ v' ∈ values b ∧ pips x.1 = v' ∧ pips y.1 = v' ∧
        (v' = v → l = D'.take 2) := by
    intro x y hd hc
    have ht := ((cat_iff _).2.2.2.2.2.1.1 hc).2.2.2.2.2
    obtain ⟨w, hw⟩ := trips_iff.1 ht
    obtain ⟨t1, t2, t3, t4⟩ := top_spec (p := fun v => decide (3 ≤ (values (x :: y :: b)).count v))
      ⟨w, value_of_count (by omega) hw, decide_eq_true hw⟩
    generalize topValue (fun v => decide (3 ≤ (values (x :: y :: b)).count v)) = v' at *
    rw [decide_eq_true_eq, count_two] at t2
    have hb' := hb v'
    have hx : pips x.1 = v' := by
      by_contra hx
      rw [if_neg hx] at t2
      split at t2 <;> omega
    have hy : pips y.1 = v' := by
      by_contra hy
      rw [if_neg hy] at t2
      split at t2 <;> omega
    rw [if_pos hx, if_pos hy] at t2
    refine ⟨v', (((atLeast 1 (values (x :: y :: b))).filter (fun u => !List.contains [v'] u)).take 2), ?_,
      List.count_pos_iff.1 (by omega), hx, hy, ?_⟩
    · rw [bestWorth, hc]
      show (3, highest 3 1 1 2 (values (x :: y :: b))) = _
      rw [highest]
      have e : (atLeast 3 (values (x :: y :: b))).take 1 = [v'] := t4
      simp only [e]
      rfl
    · rintro rfl
      have e : atLeast 1 (values (x :: y :: b)) = v' :: D' := by
        rw [hD, atLeast]
        refine List.filter_congr fun u hu => ?_
        rw [count_two, hx, hy, Bool.eq_iff_iff, decide_eq_true_eq, List.contains_iff_mem]
        have h1 := List.count_pos_iff (l := values b) (a := u)
        by_cases e : v' = u
        · subst e
          exact ⟨fun _ => hvb, fun _ => by rw [if_pos rfl]; omega⟩
        · rw [if_neg e, ← h1]; omega
      rw [e, List.filter_cons]
      have hD' : ∀ u ∈ D', u ≠ v' := fun u hu => Nat.ne_of_lt ((List.pairwise_cons.1 hdesc).1 u hu)
      rw [if_neg (by simp)]
      rw [List.filter_eq_self.2 fun u hu => by simp [hD' u hu]]
  refine ⟨at_most hk ?_, ?_⟩
  · intro x y hd hc
    obtain ⟨v', l, e, hv', _, _, hl⟩ := key x y hd hc
    rw [e]
    show cmpList (v' :: l) (v :: D'.take 2) ≠ .gt
    rw [cmpList]
    rcases Nat.lt_or_eq_of_le (hmax v' hv') with h | h
    · rw [Nat.compare_eq_lt.2 h]; simp
    · rw [Nat.compare_eq_eq.2 h, hl h]
      exact cmpList_refl _
  · have hva := values_mem b v hvb
    obtain ⟨x, y, hxy, hx, _, hxb, hy, _, hyb⟩ := two_free hva .Clubs (hb v)
    have hd := nodup_two hn hxy hxb hyb
    have ht : hasTrips (x :: y :: b) = true := by
      refine trips_iff.2 ⟨v, ?_⟩
      have := List.count_pos_iff.2 hvb
      rw [count_two, if_pos hx, if_pos hy]
      omega
    have h4 : 3 ≤ category (x :: y :: b) := Cat.le_category (by omega) (show Cat.has 3 _ = true from ht)
    have hc : category (x :: y :: b) = 3 := by
      by_contra hne
      exact hk _ (by omega) (Cat.category_le _) ⟨x, y, hd, rfl⟩
    obtain ⟨v', l, e, _, hx', _, hl⟩ := key x y hd hc
    have e1 : v' = v := hx'.symm.trans hx
    refine ⟨x, y, hd, ?_⟩
    rw [e, hl e1, e1]
    rfl

/-! ## Flushes -/

/-- If the beginnings of a descending list always have at least as many values of one sort as of another,
the best values of this sort are better. -/
theorem prefix_le (X Y : Nat → Bool) : ∀ (l : List Nat) (n : Nat), l.Pairwise (· > ·) →
    (∀ m, (l.take m).countP X ≤ (l.take m).countP Y) →
    cmpList ((l.filter X).take n) ((l.filter Y).take n) ≠ .gt
  | [], n, _, _ => by simp [cmpList]
  | a :: l, n, hl, hm => by
    have hl' := List.pairwise_cons.1 hl
    have hm1 : ∀ m, (if X a = true then 1 else 0) + (l.take m).countP X ≤
        (if Y a = true then 1 else 0) + (l.take m).countP Y := by
      intro m
      have := hm (m + 1)
      rw [List.take_succ_cons, List.countP_cons, List.countP_cons] at this
      omega
    rw [List.filter_cons, List.filter_cons]
    match n with
    | 0 => simp [cmpList]
    | n + 1 =>
      by_cases hx : X a = true <;> by_cases hy : Y a = true
      · rw [if_pos hx, if_pos hy, List.take_succ_cons, List.take_succ_cons, cmpList, Nat.compare_eq_eq.2 rfl]
        refine prefix_le X Y l n hl'.2 fun m => ?_
        have := hm1 m
        rw [if_pos hx, if_pos hy] at this
        omega
      · have := hm1 0
        rw [if_pos hx, if_neg hy, List.take_zero, List.countP_nil, List.countP_nil] at this
        omega
      · rw [if_neg hx, if_pos hy, List.take_succ_cons]
        match hq : (l.filter X).take (n + 1) with
        | [] => simp [cmpList]
        | c :: q =>
          have hc : c ∈ l := by
            have : c ∈ (l.filter X).take (n + 1) := by rw [hq]; exact List.mem_cons_self
            exact (List.mem_filter.1 (List.mem_of_mem_take this)).1
          rw [cmpList, Nat.compare_eq_lt.2 (hl'.1 c hc)]
          simp
      · rw [if_neg hx, if_neg hy]
        refine prefix_le X Y l (n + 1) hl'.2 fun m => ?_
        have := hm1 m
        rw [if_neg hx, if_neg hy] at this
        omega

/-- Two values added to others count in any beginning at most as the best two that are missing. -/
theorem best_two (vs : List Nat) (p q m : Nat) :
    (allValues.take m).countP (fun v => (p :: q :: vs).contains v) ≤
      (allValues.take m).countP (fun v => vs.contains v || (bestMissing vs).contains v) := by
  have hP : (allValues.take m).Nodup := Cat.allValues_nodup.sublist (List.take_sublist _ _)
  -- those that are missing from the beginning
  have split : ∀ (Z : Nat → Bool) (l : List Nat), (∀ v ∈ l, vs.contains v = true → Z v = true) →
      l.countP Z = l.countP (fun v => vs.contains v) + l.countP (fun v => !vs.contains v && Z v) := by
    intro Z l
    induction l with
    | nil => intro _; rfl
    | cons a l ih =>
      intro hZ
      simp only [List.countP_cons]
      rw [ih fun v hv => hZ v (List.mem_cons_of_mem _ hv)]
      have := hZ a List.mem_cons_self
      cases h1 : vs.contains a <;> cases h2 : Z a <;> simp_all <;> omega
  rw [split (fun v => (p :: q :: vs).contains v) _ (by
      intro v _ h
      simp only [List.contains_iff_mem] at h ⊢
      simp [h]),
    split (fun v => vs.contains v || (bestMissing vs).contains v) _ (by intro v _ h; rw [h, Bool.true_or])]
  refine Nat.add_le_add_left ?_ _
  -- at most two, and at most all
  have hle2 : (allValues.take m).countP (fun v => !vs.contains v && (p :: q :: vs).contains v) ≤ 2 := by
    rw [List.countP_eq_length_filter]
    have : ((allValues.take m).filter (fun v => !vs.contains v && (p :: q :: vs).contains v)).length ≤
        [p, q].length := by
      refine ((hP.filter _).subperm ?_).length_le
      intro v hv
      have h2 := (List.mem_filter.1 hv).2
      simp only [Bool.and_eq_true, Bool.not_eq_true', List.contains_iff_mem, List.mem_cons] at h2
      rcases h2.2 with h | h | h
      · simp [h]
      · simp [h]
      · have h3 := h2.1
        rw [List.contains_iff_mem.2 h] at h3
        exact absurd h3 (by decide)
    exact this
  have hall : (allValues.take m).countP (fun v => !vs.contains v && (p :: q :: vs).contains v) ≤
      ((allValues.take m).filter (fun v => !vs.contains v)).length := by
    rw [← List.countP_eq_length_filter]
    refine List.countP_mono_left ?_
    intro v _ h
    exact (Bool.and_eq_true _ _ ▸ h).1
  have hge : (((allValues.take m).filter (fun v => !vs.contains v)).take 2).length ≤
      (allValues.take m).countP (fun v => !vs.contains v && (vs.contains v || (bestMissing vs).contains v)) := by
    rw [List.countP_eq_length_filter]
    refine List.Subperm.length_le ?_
    refine ((hP.filter _).sublist (List.take_sublist _ _)).subperm ?_
    intro v hv
    have h1 := List.mem_filter.1 (List.mem_of_mem_take hv)
    refine List.mem_filter.2 ⟨h1.1, ?_⟩
    have h2 : v ∈ bestMissing vs := by
      rw [bestMissing]
      conv => rw [← List.take_append_drop m allValues, List.filter_append, List.take_append]
      exact List.mem_append_left _ hv
    rw [h1.2, Bool.true_and, List.contains_iff_mem.2 h2, Bool.or_true]
  rw [List.length_take] at hge
  omega

theorem case5 {b : List PCard} (hn : b.Nodup) (h5 : b.length ≤ 5) (hk : ∀ j, 5 < j → j ≤ 8 → ¬ Own b j)
    {s : Suit} (h : 3 ≤ (ofSuit s b).length) :
    AtMost b (5, (allValues.filter (fun v => (values (ofSuit s b)).contains v ||
        (bestMissing (values (ofSuit s b))).contains v)).take 5) ∧
    Made b (5, (allValues.filter (fun v => (values (ofSuit s b)).contains v ||
        (bestMissing (values (ofSuit s b))).contains v)).take 5) := by
  have hsum := suits_sum b
  have hother : ∀ t, t ≠ s → (ofSuit t b).length ≤ 2 := by
    intro t hne
    cases s <;> cases t <;> first | exact absurd rfl hne | omega
  -- the values that decide a flush
  have key : ∀ x y : PCard, category (x :: y :: b) = 5 → bestWorth (x :: y :: b) =
      (5, (allValues.filter (fun v => (values (ofSuit s (x :: y :: b))).contains v)).take 5) ∧
      5 ≤ (ofSuit s (x :: y :: b)).length := by
    intro x y hc
    have hf := ((cat_iff _).2.2.2.1.1 hc).2.2.2
    have hno : ∀ t, t ≠ s → ¬ 5 ≤ (ofSuit t (x :: y :: b)).length := by
      intro t hne
      have := hother t hne
      rw [suit_two]
      split <;> split <;> omega
    have hs5 : 5 ≤ (ofSuit s (x :: y :: b)).length := by
      obtain ⟨t, ht⟩ := Board.flush_iff.1 hf
      by_cases e : t = s
      · subst e; exact ht
      · exact absurd ht (hno t e)
    have hone : suits.filter (fun t => decide (5 ≤ (ofSuit t (x :: y :: b)).length)) = [s] := by
      have e : suits.filter (fun t => decide (5 ≤ (ofSuit t (x :: y :: b)).length)) =
          suits.filter (fun t => decide (t = s)) := by
        refine List.filter_congr fun t _ => ?_
        by_cases e : t = s
        · subst e; simp [hs5]
        · rw [decide_eq_false (hno t e), decide_eq_false e]
      rw [e]
      cases s <;> decide
    refine ⟨?_, hs5⟩
    rw [bestWorth, hc]
    show (5, ((suits.filter (fun t => decide (5 ≤ (ofSuit t (x :: y :: b)).length))).map
      (fun t => highest 1 5 0 0 (values (ofSuit t (x :: y :: b))))).foldl better []) = _
    rw [hone]
    have e : ∀ vs : List Nat, highest 1 5 0 0 vs = (allValues.filter (fun v => vs.contains v)).take 5 := by
      intro vs
      rw [highest]
      simp only [List.take_zero, List.append_nil, atLeast]
      congr 1
      refine List.filter_congr fun v _ => ?_
      rw [Bool.eq_iff_iff, decide_eq_true_eq, List.contains_iff_mem, ← List.count_pos_iff]
      exact Iff.rfl
    simp only [List.map_cons, List.map_nil, List.foldl_cons, List.foldl_nil, e]
    congr 1
    rw [better]
    split
    · rfl
    · rename_i hlt
      match hq : (allValues.filter (fun v => (values (ofSuit s (x :: y :: b))).contains v)).take 5 with
      | [] => rfl
      | c :: q => rw [hq] at hlt; exact absurd rfl hlt
  have hsub : ∀ x y : PCard, ∀ v, (values (ofSuit s (x :: y :: b))).contains v = true →
      (pips x.1 :: pips y.1 :: values (ofSuit s b)).contains v = true := by
    intro x y v hv
    rw [List.contains_iff_mem] at hv ⊢
    obtain ⟨c, hc, rfl⟩ := List.mem_map.1 hv
    rcases own_sub s c hc with rfl | rfl | h
    · simp
    · simp
    · exact List.mem_cons_of_mem _ (List.mem_cons_of_mem _ (List.mem_map.2 ⟨c, h, rfl⟩))
  refine ⟨at_most hk ?_, ?_⟩
  · intro x y hd hc
    rw [(key x y hc).1]
    refine prefix_le _ _ allValues 5 allValues_desc fun m => ?_
    refine Nat.le_trans ?_ (best_two (values (ofSuit s b)) (pips x.1) (pips y.1) m)
    exact List.countP_mono_left fun v _ h => hsub x y v h
  · -- the two best cards that are missing
    have hlen : (bestMissing (values (ofSuit s b))).length = 2 := by
      rw [bestMissing, List.length_take]
      have h1 : allValues.length = (allValues.filter (fun v => (values (ofSuit s b)).contains v)).length +
          (allValues.filter (fun v => !(values (ofSuit s b)).contains v)).length :=
        List.length_eq_length_filter_add _
      have h2 : (allValues.filter (fun v => (values (ofSuit s b)).contains v)).length ≤
          (values (ofSuit s b)).length := by
        refine ((Cat.allValues_nodup.filter _).subperm ?_).length_le
        intro v hv
        exact List.contains_iff_mem.1 (List.mem_filter.1 hv).2
      have h3 : (values (ofSuit s b)).length ≤ 5 := by
        rw [values_length]; exact Nat.le_trans (List.length_filter_le _ _) h5
      have h4 : allValues.length = 13 := rfl
      omega
    obtain ⟨p, q, hpq⟩ := List.length_eq_two.1 hlen
    have hmem : ∀ v ∈ bestMissing (values (ofSuit s b)), v ∈ allValues ∧ v ∉ values (ofSuit s b) := by
      intro v hv
      have h1 := List.mem_filter.1 (List.mem_of_mem_take hv)
      refine ⟨h1.1, fun h => ?_⟩
      have h2 := h1.2
      rw [List.contains_iff_mem.2 h] at h2
      exact absurd h2 (by decide)
    have hnd : (bestMissing (values (ofSuit s b))).Nodup :=
      (Cat.allValues_nodup.filter _).sublist (List.take_sublist _ _)
    rw [hpq] at hnd hmem ⊢
    obtain ⟨hp, hpv⟩ := hmem p (by simp)
    obtain ⟨hq, hqv⟩ := hmem q (by simp)
    have nb : ∀ {v : Nat}, v ∈ allValues → v ∉ values (ofSuit s b) → (rankOf v, s) ∉ b :=
      fun hv hn hc => hn (List.mem_map.2 ⟨_, Cat.mem_ofSuit.2 ⟨hc, rfl⟩, pips_rankOf hv⟩)
    have hne : (rankOf p, s) ≠ (rankOf q, s) := by
      intro e
      have : p = q := by rw [← pips_rankOf hp, ← pips_rankOf hq, (Prod.mk.inj e).1]
      simp [this] at hnd
    have hd := nodup_two hn hne (nb hp hpv) (nb hq hqv)
    have hf : hasFlush ((rankOf p, s) :: (rankOf q, s) :: b) = true := by
      refine Board.flush_iff.2 ⟨s, ?_⟩
      rw [suit_two, if_pos rfl]
      omega
    have h5' : 5 ≤ category ((rankOf p, s) :: (rankOf q, s) :: b) :=
      Cat.le_category (by omega) (show Cat.has 5 _ = true from hf)
    have hc : category ((rankOf p, s) :: (rankOf q, s) :: b) = 5 := by
      by_contra hne
      exact hk _ (by omega) (Cat.category_le _) ⟨_, _, hd, rfl⟩
    refine ⟨_, _, hd, ?_⟩
    rw [(key _ _ hc).1]
    congr 2
    refine List.filter_congr fun v _ => ?_
    have e2 : values (ofSuit s ((rankOf p, s) :: (rankOf q, s) :: b)) = p :: q :: values (ofSuit s b) := by
      simp [ofSuit, values, pips_rankOf hp, pips_rankOf hq]
    rw [e2, Bool.eq_iff_iff, Bool.or_eq_true, List.contains_iff_mem, List.contains_iff_mem,
      List.contains_iff_mem]
    simp only [List.mem_cons, List.not_mem_nil, or_false]
    tauto

/-! ## All boards -/

theorem nuts_spec {b : List PCard} (hn : b.Nodup) (h3 : 3 ≤ b.length) (h5 : b.length ≤ 5) :
    AtMost b (nuts b) ∧ Made b (nuts b) := by
  rw [nuts]
  by_cases c8 : suits.any (fun s => threeToStraight (values (ofSuit s b))) = true
  · rw [if_pos c8]
    exact case8 hn h5 c8
  have n8 : ¬ Own b 8 := fun h => c8 ((own8 hn h5).1 h)
  rw [if_neg c8]
  by_cases c7 : hasPair b = true
  · rw [if_pos c7]
    exact case7 hn h3 h5 n8 c7 rfl rfl
  rw [if_neg c7]
  have n7 : ¬ Own b 7 := fun h => c7 ((own7 hn h5).1 h)
  have n6 : ¬ Own b 6 := fun h => c7 (by
    have := (own6 hn h3 h5).1 h
    rw [allows, Bool.and_eq_true] at this
    exact this.1)
  have up5 : ∀ j, 5 < j → j ≤ 8 → ¬ Own b j := by
    intro j h1 h2
    obtain rfl | rfl | rfl : j = 6 ∨ j = 7 ∨ j = 8 := by omega
    · exact n6
    · exact n7
    · exact n8
  split
  · rename_i s hs
    have := List.find?_some (p := fun s => decide (3 ≤ (ofSuit s b).length)) hs
    exact case5 hn h5 up5 (of_decide_eq_true this)
  · rename_i hs
    have n5 : ¬ Own b 5 := fun h => by
      have := (own5 hn h5).1 h
      rw [allows, Bool.and_eq_true, List.any_eq_true] at this
      obtain ⟨⟨s, h1, h2⟩, _⟩ := this
      exact List.find?_eq_none.1 hs s h1 h2
    have up4 : ∀ j, 4 < j → j ≤ 8 → ¬ Own b j := by
      intro j h1 h2
      rcases Nat.lt_or_eq_of_le (show 5 ≤ j from h1) with h | rfl
      · exact up5 j h h2
      · exact n5
    split
    · rename_i t ht
      exact case4 hn h5 up4 ht
    · rename_i ht
      have n4 : ¬ Own b 4 := fun h => by
        have := (own4 hn h5).1 h
        rw [allows, Bool.and_eq_true] at this
        obtain ⟨t, h1, h2⟩ := three_iff.1 this.1
        obtain ⟨u, hu, _⟩ := le_three_top h1 h2
        rw [hu] at ht
        exact absurd ht (by simp)
      refine case3 hn h3 (fun j h1 h2 => ?_) (by rw [Bool.not_eq_true] at c7; exact c7)
      rcases Nat.lt_or_eq_of_le (show 4 ≤ j from h1) with h | rfl
      · exact up4 j h h2
      · exact n4

end Nuts
end Poker
