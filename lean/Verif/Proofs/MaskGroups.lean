import Verif.Proofs.MaskFlush

/-! # Many cards whose best five are four of a kind, a full house or a straight flush (helper lemmas) -/

namespace Poker.Mask
open Rules Tab Exact Room

theorem suit_none {h : List PCard} (hc : category h ≠ 8) (s : Suit) : straightTop (values (ofSuit s h)) = none := by
  cases ht : straightTop (values (ofSuit s h)) with
  | none => rfl
  | some t =>
    have : hasStraightFlush h = true := by
      rw [hasStraightFlush, List.any_eq_true]
      exact ⟨s, Cat.suits_all s, by rw [ht]; rfl⟩
    have := Cat.le_category (k := 8) (by decide) this
    have := Cat.category_le h
    omega

/-- The cards with values in `L`, and the others of each suit. -/
theorem groups_le {h : List PCard} (hn : h.Nodup) (hc : category h ≠ 8) {A : Nat} (L : Nat) (hA : A < 2 ^ 15)
    {cap : Nat → Nat} (hcap : ∀ v ∈ allValues, (values h).count v ≤ cap v)
    (hb : ∀ v ∈ allValues, 0 < cap v → A.testBit v = true) :
    h.length ≤ ((members L).map cap).sum + 4 * greedy runMasks (cut A L) := by
  have := length_le L (M := fun _ => greedy runMasks (cut A L)) hcap (fun s => by
    refine outside hn L hA (suit_none hc s) (fun v hv => ?_)
    have hm : v ∈ values h := by
      obtain ⟨x, hx, rfl⟩ := List.mem_map.1 hv
      exact List.mem_map_of_mem (Cat.mem_ofSuit.1 hx).1
    have hva := Forced.values_all h v hm
    refine hb v hva ?_
    have := List.count_pos_iff.2 hm
    have := hcap v hva
    omega)
  omega

/-! ## Four of a kind -/

/-- Values with a ten and without a straight are at most ten. -/
theorem with_ten : grow ([14, 13, 12, 11, 9, 8, 7, 6, 5, 4, 3, 2].map (fun v => (v, 1))) (2 ^ 10) 1 = 10 := by
  decide +kernel

theorem ten_le {V : List Nat} (hn : V.Nodup) (hv : ∀ v ∈ V, v ∈ allValues) (ht : 10 ∈ V)
    (hs : straightTop V = none) : V.length ≤ 10 := by
  have hp : V.Perm (10 :: ([14, 13, 12, 11, 9, 8, 7, 6, 5, 4, 3, 2].filter (fun v => decide (v ∈ V)))) := by
    refine (List.perm_ext_iff_of_nodup hn ?_).2 (fun v => ?_)
    · rw [List.nodup_cons]
      refine ⟨?_, List.Nodup.filter _ (by decide)⟩
      intro h
      have := (List.mem_filter.1 h).1
      revert this
      decide
    · rw [List.mem_cons, List.mem_filter, decide_eq_true_eq]
      have hall : ∀ v ∈ allValues, v = 10 ∨ v ∈ [14, 13, 12, 11, 9, 8, 7, 6, 5, 4, 3, 2] := by decide
      constructor
      · intro h
        rcases hall v (hv v h) with h' | h'
        · exact .inl h'
        · exact .inr ⟨h', h⟩
      · rintro (rfl | h)
        · exact ht
        · exact h.2
  have hsub : (([14, 13, 12, 11, 9, 8, 7, 6, 5, 4, 3, 2].filter (fun v => decide (v ∈ V))).map
      (fun v => (v, 1))).Sublist ([14, 13, 12, 11, 9, 8, 7, 6, 5, 4, 3, 2].map (fun v => (v, 1))) :=
    List.filter_sublist.map _
  have hrow : Seven.inRow (2 ^ 10 + (((([14, 13, 12, 11, 9, 8, 7, 6, 5, 4, 3, 2].filter
      (fun v => decide (v ∈ V))).map (fun v => (v, 1))).map Prod.fst).map (2 ^ ·)).sum) = false := by
    rw [List.map_map, List.map_map, show (((2 ^ ·) ∘ Prod.fst) ∘ fun v : Nat => (v, 1)) = ((2 : Nat) ^ ·) from rfl]
    have := inRow_nodup (hp.nodup_iff.1 hn) (fun v h => hv v (hp.mem_iff.2 h))
    rw [List.map_cons, List.sum_cons] at this
    rw [this]
    cases ht : straightTop (10 :: ([14, 13, 12, 11, 9, 8, 7, 6, 5, 4, 3, 2].filter (fun v => decide (v ∈ V)))) with
    | none => rfl
    | some t =>
      obtain ⟨u, hu, -⟩ := straightTop_mono (b := V) (fun v h => hp.mem_iff.2 h) ht
      rw [hs] at hu
      cases hu
  have := le_grow (acc := 1) hsub hrow
  rw [with_ten, List.map_map] at this
  rw [hp.length_eq, List.length_cons]
  have e : ∀ l : List Nat, (l.map (Prod.snd ∘ fun v : Nat => (v, 1))).sum = l.length := by
    intro l
    induction l with
    | nil => rfl
    | cons x l ih =>
      rw [List.map_cons, List.sum_cons, ih, List.length_cons]
      show 1 + _ = _
      omega
  rw [e] at this
  omega

theorem four_suits {h : List PCard} (hn : h.Nodup) {v : Nat} (h4 : 4 ≤ (values h).count v) (s : Suit) :
    v ∈ values (ofSuit s h) := by
  have hs : ∀ s, (values (ofSuit s h)).count v ≤ 1 := fun s => List.nodup_iff_count_le_one.1 (values_nodup hn s) v
  have hsum : (values h).count v = (values (ofSuit .Clubs h)).count v + (values (ofSuit .Hearts h)).count v
      + (values (ofSuit .Spades h)).count v + (values (ofSuit .Diamonds h)).count v := by
    have := filter_suits (fun x => pips x.1 == v) h
    have e : ∀ g : List PCard, (values g).count v = (g.filter (fun x => pips x.1 == v)).length := by
      intro g
      rw [values, List.count, List.countP_map, List.countP_eq_length_filter]
      rfl
    rw [e, e, e, e, e]
    exact this
  have h1 := hs .Clubs
  have h2 := hs .Hearts
  have h3 := hs .Spades
  have h4' := hs .Diamonds
  have : 1 ≤ (values (ofSuit s h)).count v := by cases s <;> omega
  exact List.one_le_count_iff.1 this

theorem quads_facts {q k : Nat} {h : List PCard} (hn : h.Nodup) (h5 : 5 ≤ h.length) (hb : IsBest (7, [q, k]) h) :
    category h = 7 ∧ 4 ≤ (values h).count q ∧ ∀ v ∈ allValues, (values h).count v ≤ hi 4 4 [q] [k] v := by
  have hc : category h = 7 := (Cat.category_best hn h5 hb).symm
  have he := (isBest_bestWorth hn h5).unique hb
  rw [show bestWorth h = (7, highest 4 1 1 1 (values h)) by rw [bestWorth, hc]; rfl] at he
  have h4 : ∀ v, (values h).count v ≤ 4 := count_values_le hn
  have hh := (Prod.ext_iff.1 he).2
  refine ⟨hc, ?_, ?_⟩
  · exact ((of_highest hh rfl).2.1 q (by simp)).2
  · exact within (k := 4) hh rfl (.inl rfl) (fun v _ => h4 v) (fun v _ _ => h4 v)

theorem col_lt (row i : Nat) : col row i < 2 ^ 15 := by
  have : Nat.mod (Nat.shiftRight row (Nat.mul 13 i)) 8192 < 8192 := Nat.mod_lt _ (by decide)
  show 4 * (Nat.mod (Nat.shiftRight row (Nat.mul 13 i)) 8192) < 2 ^ 15
  omega

/-- The hand of a row. -/
def hand (row : Nat) : List PCard := deal (col row 0) (col row 1) (col row 2) (col row 3)

theorem hand_length (row : Nat) : (hand row).length = rowRoom row :=
  deal_length (col_lt ..) (col_lt ..) (col_lt ..) (col_lt ..)

theorem tens_le {h : List PCard} (hn : h.Nodup) (hc : category h = 7) (h4 : 4 ≤ (values h).count 10) :
    h.length ≤ 40 := by
  have one : ∀ s, (ofSuit s h).length ≤ 10 := by
    intro s
    have := ten_le (values_nodup hn s) (values_ofSuit_all h s) (four_suits hn h4 s)
      (suit_none (by omega) s)
    rwa [Forced.length_values] at this
  have := length_suits h
  have h1 := one .Clubs
  have h2 := one .Hearts
  have h3 := one .Spades
  have h4 := one .Diamonds
  omega

theorem hi_quads {q k v : Nat} (h : 0 < hi 4 4 [q] [k] v) : v = q ∨ v ≤ k := by
  by_contra hn
  have : hi 4 4 [q] [k] v = 0 := hi_C (by simp; omega) (by simp; omega) (by simp; omega)
  omega

theorem quadsRow_spec {q k row : Nat} (hq : q ∈ allValues) (hk : k ∈ allValues) (h : quadsRow [q, k] row = true) :
    (∀ h : List PCard, h.Nodup → 5 ≤ h.length → IsBest (7, [q, k]) h → h.length ≤ rowRoom row) ∧
      IsBest (7, [q, k]) (hand row) := by
  simp only [quadsRow, Bool.and_eq_true, Bool.not_eq_true', Nat.beq_eq, Nat.ble_eq] at h
  obtain ⟨⟨⟨⟨⟨h1, h2⟩, h3⟩, h4⟩, h5⟩, h6⟩ := h
  have hne : k ≠ q := fun e => by rw [e] at h4; simp at h4
  constructor
  · intro h hn hl hb
    obtain ⟨f1, f2, f3⟩ := quads_facts hn hl hb
    rw [Bool.or_eq_true, Bool.and_eq_true, Nat.beq_eq, Nat.ble_eq, Nat.ble_eq] at h6
    rcases h6 with ⟨rfl, h6⟩ | h6
    · exact Nat.le_trans (tens_le hn f1 f2) h6
    · refine Nat.le_trans ?_ h6
      have hq' := two_le hq
      have hk' := two_le hk
      refine groups_le hn (by omega) (col row 4) ?_ f3 (fun v hv hp => ?_)
      · have p : ∀ x, x ≤ 14 → 2 ^ x < 2 ^ 15 := fun x hx => Nat.pow_lt_pow_right (by decide) (by omega)
        refine Nat.or_lt_two_pow (p q hq'.2) ?_
        have : 2 ^ (k + 1) ≤ 2 ^ 15 := Nat.pow_le_pow_right (by decide) (by omega)
        have : 0 < 2 ^ (k + 1) := Nat.pow_pos (by decide)
        omega
      · rw [Nat.testBit_or, Nat.testBit_two_pow, Nat.testBit_two_pow_sub_one, Bool.or_eq_true, decide_eq_true_eq,
          decide_eq_true_eq]
        rcases hi_quads hp with h | h <;> omega
  · have hcnt : ∀ v ∈ allValues, (values (hand row)).count v
        = tally (col row 0) (col row 1) (col row 2) (col row 3) v := fun v hv => count_deal _ _ _ _ hv
    have hall : ∀ v ∈ allValues, v ≠ q → (4 ≤ (values (hand row)).count v → v < q) ∧
        (1 ≤ (values (hand row)).count v → v ≤ k) := by
      intro v hv hvq
      have := List.all_eq_true.1 h5 v hv
      rw [Bool.or_eq_true, Nat.beq_eq, Bool.and_eq_true, Bool.or_eq_true, Bool.or_eq_true, Nat.ble_eq, Nat.blt_eq,
        Nat.beq_eq, Nat.ble_eq, ← hcnt v hv] at this
      omega
    have hsf : hasStraightFlush (hand row) = false := noRow_spec h1
    have hq4 : (values (hand row)).count q = 4 := (hcnt q hq).trans h2
    have hk1 : 1 ≤ (values (hand row)).count k := by rw [hcnt k hk]; exact h3
    have g2 : hasQuads (hand row) = true := by
      rw [hasQuads, List.any_eq_true]
      exact ⟨q, hq, by simp [hq4]⟩
    have gc : category (hand row) = 7 := by simp [category, hsf, g2]
    have hl : 5 ≤ (hand row).length := by
      rw [← Forced.length_values, length_count Cat.allValues_nodup (Forced.values_all _)]
      have lo : ∀ v ∈ allValues, (if v = q then 4 else if v = k then 1 else 0) ≤ (values (hand row)).count v := by
        intro v _
        split
        · rename_i e; rw [e, hq4]
        · split
          · rename_i e; rw [e]; exact hk1
          · omega
      have := sum_mono lo
      have five : ∀ q ∈ allValues, ∀ k ∈ allValues, k ≠ q →
          (allValues.map (fun v => if v = q then 4 else if v = k then 1 else 0)).sum = 5 := by decide
      rw [five q hq k hk hne] at this
      exact this
    refine bestWorth_isBest (deal_nodup ..) hl ?_
    rw [bestWorth, gc]
    show (7, _) = _
    congr 1
    have := highest_of (m := 4) (n := 1) (m' := 1) (n' := 1) (vs := values (hand row)) (A := [q]) (B := [k])
      (List.pairwise_singleton ..) (List.pairwise_singleton ..) rfl rfl
      (by intro v hv; rw [List.mem_singleton] at hv; subst hv; exact ⟨hq, by omega⟩)
      (by intro v hv; rw [List.mem_singleton] at hv; subst hv; exact ⟨by simpa using hne, hk, hk1⟩)
      (by
        intro v hv hvq hc y hy
        rw [List.mem_singleton] at hy hvq
        subst hy
        exact (hall v hv hvq).1 hc)
      (by
        intro v hv hvq hvk hc y hy
        rw [List.mem_singleton] at hy hvq hvk
        subst hy
        have := (hall v hv hvq).2 hc
        omega)
    exact this

/-! ## Full houses -/

theorem full_facts {t p : Nat} {h : List PCard} (hn : h.Nodup) (h5 : 5 ≤ h.length) (hb : IsBest (6, [t, p]) h) :
    category h = 6 ∧ ∀ v ∈ allValues, (values h).count v ≤ fullCap t p v := by
  have hc : category h = 6 := (Cat.category_best hn h5 hb).symm
  have he := (isBest_bestWorth hn h5).unique hb
  rw [show bestWorth h = (6, highest 3 1 2 1 (values h)) by rw [bestWorth, hc]; rfl] at he
  have hh := (Prod.ext_iff.1 he).2
  obtain ⟨-, -, -, g1, g2⟩ := of_highest hh rfl
  refine ⟨hc, fun v hv => ?_⟩
  have hq : hasQuads h = false := by
    by_contra hq
    rw [Bool.not_eq_false] at hq
    have := Cat.le_category (k := 7) (by decide) hq
    omega
  rw [hasQuads, List.any_eq_false] at hq
  have h3 := hq v hv
  simp only [decide_eq_true_eq] at h3
  have g1' := g1 v hv
  have g2' := g2 v hv
  simp only [List.take_succ_cons, List.take_zero, List.drop_succ_cons, List.drop_zero, List.mem_singleton,
    forall_eq] at g1' g2'
  rw [fullCap]
  by_cases e1 : v = t
  · rw [show Nat.beq v t = true from Nat.beq_eq ▸ e1, cond_true]
    omega
  · rw [show Nat.beq v t = false by rw [← Bool.not_eq_true, Nat.beq_eq]; exact e1, cond_false]
    by_cases e2 : v ≤ p
    · rw [show Nat.ble v p = true from Nat.ble_eq ▸ e2, cond_true]
      by_cases e3 : v < t
      · rw [show Nat.blt v t = true from Nat.blt_eq ▸ e3, cond_true]
        omega
      · rw [show Nat.blt v t = false by rw [← Bool.not_eq_true, Nat.blt_eq]; exact e3, cond_false]
        by_contra hc
        exact e3 (g1' e1 (by omega))
    · rw [show Nat.ble v p = false by rw [← Bool.not_eq_true, Nat.ble_eq]; exact e2, cond_false]
      by_contra hc
      have := g2' e1 (by omega) (by omega)
      omega

theorem fullRow_spec {t p row : Nat} (ht : t ∈ allValues) (hp : p ∈ allValues) (h : fullRow [t, p] row = true) :
    (∀ h : List PCard, h.Nodup → 5 ≤ h.length → IsBest (6, [t, p]) h → h.length ≤ rowRoom row) ∧
      IsBest (6, [t, p]) (hand row) := by
  simp only [fullRow, Bool.and_eq_true, Bool.not_eq_true', Nat.beq_eq, Nat.ble_eq] at h
  obtain ⟨⟨⟨⟨⟨h1, h2⟩, h3⟩, h4⟩, h5⟩, h6⟩ := h
  have hne : p ≠ t := fun e => by rw [e] at h4; simp at h4
  constructor
  · intro h hn hl hb
    obtain ⟨f1, f3⟩ := full_facts hn hl hb
    refine Nat.le_trans ?_ h6
    refine groups_le hn (by omega) (col row 4) (by decide) f3 (fun v hv _ => ?_)
    have : ∀ v ∈ allValues, (32764 : Nat).testBit v = true := by decide
    exact this v hv
  · have hcnt : ∀ v ∈ allValues, (values (hand row)).count v
        = tally (col row 0) (col row 1) (col row 2) (col row 3) v := fun v hv => count_deal _ _ _ _ hv
    have hall : ∀ v ∈ allValues, (values (hand row)).count v ≤ 3 ∧ (v ≠ t →
        (3 ≤ (values (hand row)).count v → v < t) ∧ (2 ≤ (values (hand row)).count v → v ≤ p)) := by
      intro v hv
      have := List.all_eq_true.1 h5 v hv
      rw [Bool.and_eq_true, Nat.ble_eq, Bool.or_eq_true, Nat.beq_eq, Bool.and_eq_true, Bool.or_eq_true,
        Bool.or_eq_true, Nat.ble_eq, Nat.blt_eq, Nat.ble_eq, Nat.ble_eq, ← hcnt v hv] at this
      omega
    have hsf : hasStraightFlush (hand row) = false := noRow_spec h1
    have ht3 : (values (hand row)).count t = 3 := (hcnt t ht).trans h2
    have hp2 : 2 ≤ (values (hand row)).count p := by rw [hcnt p hp]; exact h3
    have g2 : hasQuads (hand row) = false := any_false (fun v hv => (hall v hv).1) 4 (by decide)
    have g3 : hasFullHouse (hand row) = true := by
      rw [hasFullHouse, List.any_eq_true]
      refine ⟨t, ht, ?_⟩
      rw [List.any_eq_true]
      refine ⟨p, hp, ?_⟩
      simp [ht3, hp2, hne]
    have gc : category (hand row) = 6 := by simp [category, hsf, g2, g3]
    have hl : 5 ≤ (hand row).length := by
      rw [← Forced.length_values, length_count Cat.allValues_nodup (Forced.values_all _)]
      have lo : ∀ v ∈ allValues, (if v = t then 3 else if v = p then 2 else 0) ≤ (values (hand row)).count v := by
        intro v _
        split
        · rename_i e; rw [e, ht3]
        · split
          · rename_i e; rw [e]; exact hp2
          · omega
      have := sum_mono lo
      have five : ∀ q ∈ allValues, ∀ k ∈ allValues, k ≠ q →
          (allValues.map (fun v => if v = q then 3 else if v = k then 2 else 0)).sum = 5 := by decide
      rw [five t ht p hp hne] at this
      exact this
    refine bestWorth_isBest (deal_nodup ..) hl ?_
    rw [bestWorth, gc]
    show (6, _) = _
    congr 1
    have := highest_of (m := 3) (n := 1) (m' := 2) (n' := 1) (vs := values (hand row)) (A := [t]) (B := [p])
      (List.pairwise_singleton ..) (List.pairwise_singleton ..) rfl rfl
      (by intro v hv; rw [List.mem_singleton] at hv; subst hv; exact ⟨ht, by omega⟩)
      (by intro v hv; rw [List.mem_singleton] at hv; subst hv; exact ⟨by simpa using hne, hp, hp2⟩)
      (by
        intro v hv hvq hc y hy
        rw [List.mem_singleton] at hy hvq
        subst hy
        exact ((hall v hv).2 hvq).1 hc)
      (by
        intro v hv hvq hvk hc y hy
        rw [List.mem_singleton] at hy hvq hvk
        subst hy
        have := ((hall v hv).2 hvq).2 hc
        omega)
    exact this

/-! ## Straight flushes -/

/-- How many cards of a suit leave no straight above `t`. -/
def suitRoom (t : Nat) : Nat := greedy ((straightTops.filter (fun u => Nat.blt t u)).map runMask) 32764

/-- The values of a suit without straights above `t`. -/
def suitMask (t : Nat) : Nat := cut 32764 (bif Nat.ble t 8 then 2 ^ (t + 1) + 2 ^ (t + 6) else 2 ^ (t + 1))

theorem straight_check : ∀ t ∈ straightTops,
    bestWorth (deal (suitMask t) (suitMask t) (suitMask t) (suitMask t)) = (8, [t]) ∧
    (deal (suitMask t) (suitMask t) (suitMask t) (suitMask t)).length = 4 * suitRoom t ∧ 17 ≤ 4 * suitRoom t := by
  decide +kernel

theorem straight_le {t : Nat} {h : List PCard} (hn : h.Nodup) (h5 : 5 ≤ h.length) (hb : IsBest (8, [t]) h) :
    h.length ≤ 4 * suitRoom t := by
  have hc : category h = 8 := (Cat.category_best hn h5 hb).symm
  have he := (isBest_bestWorth hn h5).unique hb
  rw [bestWorth, hc] at he
  replace he := (Prod.ext_iff.1 he).2
  simp only [List.cons.injEq, and_true] at he
  have hmax := (le_foldl_max (suits.filterMap (fun s => straightTop (values (ofSuit s h)))) 0).2
  rw [he] at hmax
  have one : ∀ s, (ofSuit s h).length ≤ suitRoom t := by
    intro s
    rw [← Forced.length_values, suitRoom]
    refine greedy_le _ (fun u hu => (List.mem_filter.1 hu).1) (by decide) (values_nodup hn s) (values_ofSuit_all h s) ?_ ?_
    · intro v hv
      have : ∀ v ∈ allValues, (32764 : Nat).testBit v = true := by decide
      exact this v (values_ofSuit_all h s v hv)
    · intro u hu hall
      rw [List.mem_filter, Nat.blt_eq] at hu
      obtain ⟨x, hx, hux⟩ := run_straight hu.1 hall
      have := hmax x (List.mem_filterMap.2 ⟨s, Cat.suits_all s, hx⟩)
      omega
  have := length_suits h
  have h1 := one .Clubs
  have h2 := one .Hearts
  have h3 := one .Spades
  have h4 := one .Diamonds
  omega

end Poker.Mask
