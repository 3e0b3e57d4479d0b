import Verif.Proofs.Mask

/-! # Many cards whose best five are a flush (helper lemmas) -/

namespace Poker.Mask
open Rules Tab Exact Room

/-! ## The best five values of a suit -/

theorem cmp_cons {x y : Nat} {xs ys : List Nat} : cmpList (x :: xs) (y :: ys) ≠ .gt ↔
    x < y ∨ x = y ∧ cmpList xs ys ≠ .gt := by
  rw [cmpList]
  rcases Nat.lt_trichotomy x y with h | h | h
  · have : compare x y = .lt := compare_lt_iff_lt.2 h
    simp [this, h, Nat.ne_of_lt h]
  · subst h
    simp
  · have : compare x y = .gt := compare_gt_iff_gt.2 h
    simp [this, Nat.ne_of_gt h, Nat.not_lt_of_gt h]

theorem cmp_five {u1 u2 u3 u4 u5 a b c d e : Nat} : cmpList [u1, u2, u3, u4, u5] [a, b, c, d, e] ≠ .gt ↔
    u1 < a ∨ u1 = a ∧ (u2 < b ∨ u2 = b ∧ (u3 < c ∨ u3 = c ∧ (u4 < d ∨ u4 = d ∧ (u5 < e ∨ u5 = e)))) := by
  simp only [cmp_cons]
  simp [cmpList]

theorem top_five {V : List Nat} (hn : V.Nodup) (hv : ∀ v ∈ V, v ∈ allValues) (h5 : 5 ≤ V.length) :
    ∃ u1 u2 u3 u4 u5, highest 1 5 0 0 V = [u1, u2, u3, u4, u5] ∧ (u2 < u1 ∧ u3 < u2 ∧ u4 < u3 ∧ u5 < u4) ∧
      (u1 ∈ V ∧ u2 ∈ V ∧ u3 ∈ V ∧ u4 ∈ V ∧ u5 ∈ V) ∧
      ∀ v ∈ V, v = u1 ∨ v = u2 ∨ v = u3 ∨ v = u4 ∨ v = u5 ∨ v < u5 := by
  have hp : (atLeast 1 V).Perm V := by
    refine (List.perm_ext_iff_of_nodup (Cat.allValues_nodup.filter _) hn).2 (fun v => ?_)
    show v ∈ atLeast 1 V ↔ v ∈ V
    rw [mem_atLeast, List.one_le_count_iff]
    exact ⟨fun h => h.2, fun h => ⟨hv v h, h⟩⟩
  have hd := atLeast_desc 1 V
  have hh : highest 1 5 0 0 V = (atLeast 1 V).take 5 := by
    simp [highest]
  rw [hh]
  have hl : 5 ≤ (atLeast 1 V).length := by rw [hp.length_eq]; exact h5
  have hm : ∀ v, v ∈ V ↔ v ∈ atLeast 1 V := fun v => hp.mem_iff.symm
  simp only [hm]
  clear hh hm hp hn hv h5
  match atLeast 1 V, hl, hd with
  | u1 :: u2 :: u3 :: u4 :: u5 :: R, _, hd =>
    refine ⟨u1, u2, u3, u4, u5, rfl, ?_, by simp, ?_⟩
    · simp only [List.pairwise_cons, List.mem_cons] at hd
      refine ⟨hd.1 _ (by simp), hd.2.1 _ (by simp), hd.2.2.1 _ (by simp), hd.2.2.2.1 _ (by simp)⟩
    · intro v h
      simp only [List.mem_cons] at h
      simp only [List.pairwise_cons] at hd
      rcases h with h | h | h | h | h | h
      all_goals first | (have := hd.2.2.2.2.1 v h; omega) | omega

theorem bits_types {a b c d e v : Nat} :
    ((2 ^ a - 1).testBit v = true ↔ v < a) ∧
    ((2 ^ a ||| (2 ^ b - 1)).testBit v = true ↔ v = a ∨ v < b) ∧
    ((2 ^ a ||| 2 ^ b ||| (2 ^ c - 1)).testBit v = true ↔ v = a ∨ v = b ∨ v < c) ∧
    ((2 ^ a ||| 2 ^ b ||| 2 ^ c ||| (2 ^ d - 1)).testBit v = true ↔ v = a ∨ v = b ∨ v = c ∨ v < d) ∧
    ((lastMask a b c d e).testBit v = true ↔ v = a ∨ v = b ∨ v = c ∨ v = d ∨ v = e ∨ v < e) := by
  simp only [lastMask, Nat.testBit_or, Nat.testBit_two_pow, Nat.testBit_two_pow_sub_one, Bool.or_eq_true,
    decide_eq_true_eq, or_assoc]
  refine ⟨trivial, ?_, ?_, ?_, ?_⟩ <;> omega

theorem typeMasks_lt {a b c d e : Nat} (h : a ≤ 14) (hd : b < a ∧ c < b ∧ d < c ∧ e < d) :
    ∀ A ∈ typeMasks a b c d e, A < 2 ^ 15 := by
  have p : ∀ x, x ≤ 14 → 2 ^ x < 2 ^ 15 := fun x hx => Nat.pow_lt_pow_right (by decide) (by omega)
  have p1 := p a h
  have p2 := p b (by omega)
  have p3 := p c (by omega)
  have p4 := p d (by omega)
  have p5 := p e (by omega)
  have q : ∀ x, x ≤ 14 → 2 ^ x - 1 < 2 ^ 15 := fun x hx => Nat.lt_of_le_of_lt (Nat.sub_le _ _) (p x hx)
  intro A hA
  simp only [typeMasks, List.mem_cons, List.not_mem_nil, or_false] at hA
  rcases hA with rfl | rfl | rfl | rfl | rfl
  · exact q a h
  · exact Nat.or_lt_two_pow p1 (q b (by omega))
  · exact Nat.or_lt_two_pow (Nat.or_lt_two_pow p1 p2) (q c (by omega))
  · exact Nat.or_lt_two_pow (Nat.or_lt_two_pow (Nat.or_lt_two_pow p1 p2) p3) (q d (by omega))
  · exact Nat.or_lt_two_pow (Nat.or_lt_two_pow (Nat.or_lt_two_pow (Nat.or_lt_two_pow (Nat.or_lt_two_pow p1 p2)
      p3) p4) p5) (q e (by omega))

theorem lastMask_mem (a b c d e : Nat) : lastMask a b c d e ∈ typeMasks a b c d e := by
  simp [typeMasks, lastMask]

/-- The values of a suit whose best five are no better are in one of the sets. -/
theorem type_of {V : List Nat} (hn : V.Nodup) (hv : ∀ v ∈ V, v ∈ allValues) (h5 : 5 ≤ V.length) {a b c d e : Nat}
    (hd : b < a ∧ c < b ∧ d < c ∧ e < d) (hc : cmpList (highest 1 5 0 0 V) [a, b, c, d, e] ≠ .gt) :
    ∃ A ∈ typeMasks a b c d e, ∀ v ∈ V, A.testBit v = true := by
  obtain ⟨u1, u2, u3, u4, u5, hu, hdu, -, hall⟩ := top_five hn hv h5
  rw [hu, cmp_five] at hc
  rcases hc with h | ⟨e1, h | ⟨e2, h | ⟨e3, h | ⟨e4, h⟩⟩⟩⟩
  · refine ⟨2 ^ a - 1, by simp [typeMasks], fun v hm => ?_⟩
    have := hall v hm
    exact (bits_types (b := b) (c := c) (d := d) (e := e)).1.2 (by omega)
  · refine ⟨2 ^ a ||| (2 ^ b - 1), by simp [typeMasks], fun v hm => ?_⟩
    have := hall v hm
    exact (bits_types (c := c) (d := d) (e := e)).2.1.2 (by omega)
  · refine ⟨2 ^ a ||| 2 ^ b ||| (2 ^ c - 1), by simp [typeMasks], fun v hm => ?_⟩
    have := hall v hm
    exact (bits_types (d := d) (e := e)).2.2.1.2 (by omega)
  · refine ⟨2 ^ a ||| 2 ^ b ||| 2 ^ c ||| (2 ^ d - 1), by simp [typeMasks], fun v hm => ?_⟩
    have := hall v hm
    exact (bits_types (e := e)).2.2.2.1.2 (by omega)
  · refine ⟨lastMask a b c d e, lastMask_mem .., fun v hm => ?_⟩
    have := hall v hm
    exact bits_types.2.2.2.2.2 (by omega)

/-- The best five values of a suit that is in one of the sets are no better. -/
theorem of_type {V : List Nat} (hn : V.Nodup) (hv : ∀ v ∈ V, v ∈ allValues) (h5 : 5 ≤ V.length) {a b c d e : Nat}
    (hd : b < a ∧ c < b ∧ d < c ∧ e < d) {A : Nat} (hA : A ∈ typeMasks a b c d e)
    (hb : ∀ v ∈ V, A.testBit v = true) : cmpList (highest 1 5 0 0 V) [a, b, c, d, e] ≠ .gt := by
  obtain ⟨u1, u2, u3, u4, u5, hu, hdu, ⟨m1, m2, m3, m4, m5⟩, -⟩ := top_five hn hv h5
  rw [hu, cmp_five]
  replace m1 := hb _ m1
  replace m2 := hb _ m2
  replace m3 := hb _ m3
  replace m4 := hb _ m4
  replace m5 := hb _ m5
  simp only [typeMasks, List.mem_cons, List.not_mem_nil, or_false] at hA
  have B := fun v => bits_types (a := a) (b := b) (c := c) (d := d) (e := e) (v := v)
  simp only [lastMask] at B
  rcases hA with rfl | rfl | rfl | rfl | rfl
  · rw [(B _).1] at m1
    exact .inl m1
  · rw [(B _).2.1] at m1 m2
    omega
  · rw [(B _).2.2.1] at m1 m2 m3
    omega
  · rw [(B _).2.2.2.1] at m1 m2 m3 m4
    have k1 : u1 ≤ a := by omega
    rcases Nat.lt_or_eq_of_le k1 with k1 | k1
    · exact .inl k1
    refine .inr ⟨k1, ?_⟩
    have k2 : u2 ≤ b := by omega
    rcases Nat.lt_or_eq_of_le k2 with k2 | k2
    · exact .inl k2
    refine .inr ⟨k2, ?_⟩
    clear m1 m2
    omega
  · rw [(B _).2.2.2.2] at m1 m2 m3 m4 m5
    have k1 : u1 ≤ a := by omega
    rcases Nat.lt_or_eq_of_le k1 with k1 | k1
    · exact .inl k1
    refine .inr ⟨k1, ?_⟩
    have k2 : u2 ≤ b := by clear m1; omega
    rcases Nat.lt_or_eq_of_le k2 with k2 | k2
    · exact .inl k2
    refine .inr ⟨k2, ?_⟩
    have k3 : u3 ≤ c := by clear m1 m2; omega
    rcases Nat.lt_or_eq_of_le k3 with k3 | k3
    · exact .inl k3
    refine .inr ⟨k3, ?_⟩
    have k4 : u4 ≤ d := by clear m1 m2 m3; omega
    rcases Nat.lt_or_eq_of_le k4 with k4 | k4
    · exact .inl k4
    refine .inr ⟨k4, ?_⟩
    clear m1 m2 m3 m4
    omega

/-! ## No more cards -/

/-- With seventeen cards whose best five are a flush there are at most two of each value. -/
theorem flush_counts {h : List PCard} (hc : category h = 5) (h17 : 17 ≤ h.length) :
    ∀ v ∈ allValues, (values h).count v ≤ 2 := by
  have hq : hasQuads h = false := by
    by_contra hq
    rw [Bool.not_eq_false] at hq
    have := Cat.le_category (k := 7) (by decide) hq
    omega
  have hf : hasFullHouse h = false := by
    by_contra hf
    rw [Bool.not_eq_false] at hf
    have := Cat.le_category (k := 6) (by decide) hf
    omega
  intro v hv
  by_contra h3
  have hone : ∀ u ∈ allValues, (values h).count u ≤ if u = v then 3 else 1 := by
    intro u hu
    split
    · rename_i e
      subst e
      rw [hasQuads, List.any_eq_false] at hq
      have := hq u hu
      simp only [decide_eq_true_eq] at this
      omega
    · rename_i hne
      by_contra h2
      have : hasFullHouse h = true := by
        rw [hasFullHouse, List.any_eq_true]
        refine ⟨v, hv, ?_⟩
        rw [List.any_eq_true]
        refine ⟨u, hu, ?_⟩
        simp only [Bool.and_eq_true, decide_eq_true_eq]
        omega
      rw [hf] at this
      cases this
  have hs := sum_mono hone
  rw [← length_count Cat.allValues_nodup (Forced.values_all h), Forced.length_values] at hs
  have : ∀ v ∈ allValues, (allValues.map (fun u => if u = v then 3 else 1)).sum = 15 := by decide
  rw [this v hv] at hs
  omega

theorem sum_const (l : List Nat) (k : Nat) : (l.map (fun _ => k)).sum = k * l.length := by
  simp [Nat.mul_comm]

/-- What `upFlush` says of three bounds for the other suits. -/
theorem upFlush_spec {a b c d e r L1 L2 L3 : Nat} (h : upFlush a b c d e r L1 L2 L3 = true)
    {f g k : Nat → Nat}
    (hf : f = small ∨ ∃ A ∈ typeMasks a b c d e, f = fun L => greedy runMasks (cut A L))
    (hg : g = small ∨ ∃ A ∈ typeMasks a b c d e, g = fun L => greedy runMasks (cut A L))
    (hk : k = small ∨ ∃ A ∈ typeMasks a b c d e, k = fun L => greedy runMasks (cut A L)) :
    ∃ L, (L = L1 ∨ L = L2 ∨ L = L3) ∧
      2 * pop L + greedy runMasks (cut (lastMask a b c d e) L) + f L + g L + k L ≤ r := by
  have mem : ∀ {f : Nat → Nat}, (f = small ∨ ∃ A ∈ typeMasks a b c d e, f = fun L => greedy runMasks (cut A L)) →
      (f L1, f L2, f L3) ∈ (small L1, small L2, small L3) :: (typeMasks a b c d e).map (fun A =>
        (greedy runMasks (cut A L1), greedy runMasks (cut A L2), greedy runMasks (cut A L3))) := by
    rintro f (rfl | ⟨A, hA, rfl⟩)
    · exact List.mem_cons_self
    · exact List.mem_cons_of_mem _ (List.mem_map.2 ⟨A, hA, rfl⟩)
  rw [upFlush, List.all_eq_true] at h
  have h1 := List.all_eq_true.1 (List.all_eq_true.1 (h _ (mem hf)) _ (mem hg)) _ (mem hk)
  simp only [Bool.or_eq_true, Nat.ble_eq] at h1
  rcases h1 with h1 | h1 | h1
  · exact ⟨L1, .inl rfl, h1⟩
  · exact ⟨L2, .inr (.inl rfl), h1⟩
  · exact ⟨L3, .inr (.inr rfl), h1⟩

theorem upFlush_le {a b c d e r L1 L2 L3 : Nat} (ha : a ≤ 14) (hd : b < a ∧ c < b ∧ d < c ∧ e < d)
    (hL : L1 < 2 ^ 15 ∧ L2 < 2 ^ 15 ∧ L3 < 2 ^ 15)
    (hup : upFlush a b c d e r L1 L2 L3 = true) {h : List PCard} (hn : h.Nodup) (h17 : 17 ≤ h.length)
    (hb : IsBest (5, [a, b, c, d, e]) h) : h.length ≤ r := by
  have h5 : 5 ≤ h.length := by omega
  have hc : category h = 5 := (Cat.category_best hn h5 hb).symm
  have h2 := flush_counts hc h17
  have hsf : ∀ s, straightTop (values (ofSuit s h)) = none := by
    intro s
    cases ht : straightTop (values (ofSuit s h)) with
    | none => rfl
    | some t =>
      have : hasStraightFlush h = true := by
        rw [hasStraightFlush, List.any_eq_true]
        exact ⟨s, Cat.suits_all s, by rw [ht]; rfl⟩
      have := Cat.le_category (k := 8) (by decide) this
      omega
  have he := (isBest_bestWorth hn h5).unique hb
  rw [bestWorth, hc] at he
  replace he := (Prod.ext_iff.1 he).2
  simp only at he
  have hle := (le_foldl_better ((suits.filter (fun s => decide (5 ≤ (ofSuit s h).length))).map
      (fun s => highest 1 5 0 0 (values (ofSuit s h)))) []).2
  have hmem := foldl_better_mem ((suits.filter (fun s => decide (5 ≤ (ofSuit s h).length))).map
      (fun s => highest 1 5 0 0 (values (ofSuit s h)))) []
  rw [he] at hle hmem
  replace hmem := hmem.resolve_left (by simp)
  obtain ⟨s0, hs0, e0⟩ := List.mem_map.1 hmem
  rw [List.mem_filter, decide_eq_true_eq] at hs0
  have hlen : ∀ s, (values (ofSuit s h)).length = (ofSuit s h).length := fun s => Forced.length_values _
  -- the bound of each suit
  have bound : ∀ s, ∃ f : Nat → Nat, (f = small ∨ ∃ A ∈ typeMasks a b c d e, f = fun L => greedy runMasks (cut A L)) ∧
      ∀ L, ((values (ofSuit s h)).filter (fun v => !L.testBit v)).length ≤ f L := by
    intro s
    by_cases hs : 5 ≤ (ofSuit s h).length
    · have := hle _ (List.mem_map.2 ⟨s, List.mem_filter.2 ⟨Cat.suits_all s, by simpa using hs⟩, rfl⟩)
      obtain ⟨A, hA, hAb⟩ := type_of (values_nodup hn s) (values_ofSuit_all h s) (by rw [hlen]; exact hs) hd this
      exact ⟨_, .inr ⟨A, hA, rfl⟩, fun L => outside hn L (typeMasks_lt ha hd A hA) (hsf s) hAb⟩
    · exact ⟨small, .inl rfl, fun L => outside_small hn L (by rw [hlen]; omega)⟩
  have bound0 : ∀ L, ((values (ofSuit s0 h)).filter (fun v => !L.testBit v)).length
      ≤ greedy runMasks (cut (lastMask a b c d e) L) := by
    intro L
    refine outside hn L (typeMasks_lt ha hd _ (lastMask_mem ..)) (hsf s0) (fun v hv => ?_)
    obtain ⟨u1, u2, u3, u4, u5, hu, -, -, hall⟩ := top_five (values_nodup hn s0) (values_ofSuit_all h s0)
      (by rw [hlen]; exact hs0.2)
    rw [hu] at e0
    simp only [List.cons.injEq, and_true] at e0
    have := hall v hv
    exact bits_types.2.2.2.2.2 (by omega)
  choose f hf hfb using bound
  have main : ∀ s1 s2 s3 : Suit, (∀ g : Suit → Nat, g .Clubs + g .Hearts + g .Spades + g .Diamonds
      = g s0 + g s1 + g s2 + g s3) → h.length ≤ r := by
    intro s1 s2 s3 hperm
    obtain ⟨L, hLL, hr⟩ := upFlush_spec hup (hf s1) (hf s2) (hf s3)
    have hL15 : L < 2 ^ 15 := by rcases hLL with rfl | rfl | rfl <;> omega
    have := length_le L (c := fun _ => 2)
      (M := fun s => ((values (ofSuit s h)).filter (fun v => !L.testBit v)).length) h2 (fun s => Nat.le_refl _)
    rw [sum_const, ← pop_members hL15, hperm (fun s => ((values (ofSuit s h)).filter (fun v => !L.testBit v)).length)]
      at this
    have b0 := bound0 L
    have b1 := hfb s1 L
    have b2 := hfb s2 L
    have b3 := hfb s3 L
    omega
  cases s0
  · exact main .Hearts .Spades .Diamonds (fun g => by omega)
  all_goals first
    | exact main .Hearts .Spades .Diamonds (fun g => by omega)
    | exact main .Clubs .Spades .Diamonds (fun g => by omega)
    | exact main .Clubs .Hearts .Diamonds (fun g => by omega)
    | exact main .Clubs .Hearts .Spades (fun g => by omega)

/-! ## As many cards -/

theorem noRow_spec {m0 m1 m2 m3 : Nat} (h : noRow m0 m1 m2 m3 = true) :
    hasStraightFlush (deal m0 m1 m2 m3) = false := by
  simp only [noRow, Bool.and_eq_true, Bool.not_eq_true'] at h
  obtain ⟨⟨⟨h0, h1⟩, h2⟩, h3⟩ := h
  rw [hasStraightFlush, List.any_eq_false]
  intro s _
  rw [values_deal]
  cases s
  all_goals
    simp only [pick]
    first
    | rw [not_inRow h0]
    | rw [not_inRow h1]
    | rw [not_inRow h2]
    | rw [not_inRow h3]
    simp

theorem deal_length {m0 m1 m2 m3 : Nat} (h0 : m0 < 2 ^ 15) (h1 : m1 < 2 ^ 15) (h2 : m2 < 2 ^ 15) (h3 : m3 < 2 ^ 15) :
    (deal m0 m1 m2 m3).length = pop m0 + pop m1 + pop m2 + pop m3 := by
  rw [deal, List.length_append, List.length_append, List.length_append, length_cards h0, length_cards h1,
    length_cards h2, length_cards h3]

theorem okFlush_best {a b c d e m0 m1 m2 m3 : Nat} (ha : a ≤ 14) (he : 2 ≤ e) (hd : b < a ∧ c < b ∧ d < c ∧ e < d)
    (hok : okFlush a b c d e m0 m1 m2 m3 = true) (h1 : m1 < 2 ^ 15) (h2 : m2 < 2 ^ 15) (h3 : m3 < 2 ^ 15) :
    IsBest (5, [a, b, c, d, e]) (deal m0 m1 m2 m3) ∧ 5 ≤ (deal m0 m1 m2 m3).length := by
  rw [okFlush, Bool.and_eq_true, Bool.and_eq_true, Bool.and_eq_true] at hok
  obtain ⟨⟨⟨k1, k2⟩, k3⟩, k4⟩ := hok
  have hsf := noRow_spec k1
  have hcnt : ∀ v ∈ allValues, (values (deal m0 m1 m2 m3)).count v ≤ 2 := by
    intro v hv
    rw [count_deal _ _ _ _ hv]
    exact Nat.le_of_ble_eq_true (List.all_eq_true.1 k2 v hv)
  have hw : ∀ v ∈ [a, b, c, d, e], v ∈ allValues := by
    intro v hv
    have : 2 ≤ v ∧ v ≤ 14 := by
      simp only [List.mem_cons, List.not_mem_nil, or_false] at hv
      omega
    have hall : ∀ v, v < 15 → 2 ≤ v → v ∈ allValues := by decide
    exact hall v (by omega) this.1
  have hbit : ∀ v, e ≤ v → (m0.testBit v = true ↔ v ∈ [a, b, c, d, e]) := by
    intro v hv
    have := Nat.eq_of_beq_eq_true k3
    have h' : m0.testBit v = (2 ^ a ||| 2 ^ b ||| 2 ^ c ||| 2 ^ d ||| 2 ^ e).testBit v := by
      have := congrArg (fun x => Nat.testBit x (v - e)) this
      rw [show ∀ x y, Nat.shiftRight x y = x >>> y from fun _ _ => rfl,
        show ∀ x y, Nat.shiftRight x y = x >>> y from fun _ _ => rfl,
        Nat.testBit_shiftRight, Nat.testBit_shiftRight, show e + (v - e) = v by omega] at this
      exact this
    rw [h']
    simp only [Nat.testBit_or, Nat.testBit_two_pow, Bool.or_eq_true, decide_eq_true_eq, List.mem_cons,
      List.not_mem_nil, or_false]
    omega
  have hmw : ∀ v ∈ [a, b, c, d, e], v ∈ members m0 := by
    intro v hv
    refine mem_members.2 ⟨hw v hv, (hbit v ?_).2 hv⟩
    simp only [List.mem_cons, List.not_mem_nil, or_false] at hv
    omega
  have hdw : [a, b, c, d, e].Pairwise (· > ·) := by
    simp only [List.pairwise_cons, List.mem_cons, List.not_mem_nil, or_false]
    refine ⟨?_, ?_, ?_, ?_, fun x hx => absurd hx (by simp), List.Pairwise.nil⟩ <;> intro x hx <;> omega
  have hl0 : 5 ≤ (members m0).length :=
    (List.Nodup.subperm (hdw.imp (fun h => Nat.ne_of_gt h)) hmw).length_le
  have hh0 : highest 1 5 0 0 (members m0) = [a, b, c, d, e] := by
    have := highest_of (m := 1) (m' := 0) (B := []) (vs := members m0) hdw List.Pairwise.nil rfl rfl
      (fun v hv => ⟨hw v hv, List.one_le_count_iff.2 (hmw v hv)⟩) (by simp)
      (fun v _ hn hc y hy => by
        have hm := List.one_le_count_iff.1 hc
        have : v < e := by
          by_contra hve
          exact hn ((hbit v (by omega)).1 (mem_members.1 hm).2)
        simp only [List.mem_cons, List.not_mem_nil, or_false] at hy
        omega) (by simp)
    rwa [List.append_nil] at this
  have hlen : ∀ s, (ofSuit s (deal m0 m1 m2 m3)).length = (members (pick m0 m1 m2 m3 s)).length := by
    intro s
    rw [← values_deal, Forced.length_values]
  have hothers : ∀ m ∈ [m1, m2, m3], 5 ≤ (members m).length →
      cmpList (highest 1 5 0 0 (members m)) [a, b, c, d, e] ≠ .gt := by
    intro m hm h5
    have := List.all_eq_true.1 k4 m hm
    have hm15 : m < 2 ^ 15 := by
      simp only [List.mem_cons, List.not_mem_nil, or_false] at hm
      rcases hm with rfl | rfl | rfl <;> assumption
    rw [Bool.or_eq_true, Nat.ble_eq, pop_members hm15] at this
    rcases this with h | h
    · omega
    · obtain ⟨A, hA, hb⟩ := List.any_eq_true.1 h
      refine of_type (members_nodup m) (fun v hv => (mem_members.1 hv).1) h5 hd hA (fun v hv => ?_)
      have hv' := (mem_members.1 hv).2
      rw [← Nat.eq_of_beq_eq_true hb, show Nat.land m A = m &&& A from rfl, Nat.testBit_and, Bool.and_eq_true] at hv'
      exact hv'.2
  have hall : ∀ s, 5 ≤ (ofSuit s (deal m0 m1 m2 m3)).length →
      cmpList (highest 1 5 0 0 (values (ofSuit s (deal m0 m1 m2 m3)))) [a, b, c, d, e] ≠ .gt := by
    intro s hs
    rw [hlen] at hs
    rw [values_deal]
    cases s <;> simp only [pick] at hs ⊢
    all_goals first
      | (rw [hh0, cmpList_eq_iff.2 rfl]; decide)
      | exact hothers _ (by simp) hs
  have g2 : hasQuads (deal m0 m1 m2 m3) = false := any_false hcnt 4 (by decide)
  have g3 : hasFullHouse (deal m0 m1 m2 m3) = false := by
    rw [hasFullHouse, List.any_eq_false]
    intro v hv hc
    rw [List.any_eq_true] at hc
    obtain ⟨u, hu, hc⟩ := hc
    simp only [Bool.and_eq_true, decide_eq_true_eq] at hc
    have := hcnt v hv
    omega
  have hcl : 5 ≤ (ofSuit .Clubs (deal m0 m1 m2 m3)).length := by rw [hlen]; exact hl0
  have g4 : hasFlush (deal m0 m1 m2 m3) = true := by
    rw [hasFlush, List.any_eq_true]
    exact ⟨.Clubs, by decide, by simpa using hcl⟩
  have gc : category (deal m0 m1 m2 m3) = 5 := by simp [category, hsf, g2, g3, g4]
  have h5 : 5 ≤ (deal m0 m1 m2 m3).length := Nat.le_trans hcl (List.length_filter_le _ _)
  refine ⟨bestWorth_isBest (deal_nodup ..) h5 ?_, h5⟩
  rw [bestWorth, gc]
  show (5, _) = _
  congr 1
  have hle := (le_foldl_better ((suits.filter (fun s => decide (5 ≤ (ofSuit s (deal m0 m1 m2 m3)).length))).map
      (fun s => highest 1 5 0 0 (values (ofSuit s (deal m0 m1 m2 m3))))) []).2
  have hmem := foldl_better_mem ((suits.filter (fun s => decide (5 ≤ (ofSuit s (deal m0 m1 m2 m3)).length))).map
      (fun s => highest 1 5 0 0 (values (ofSuit s (deal m0 m1 m2 m3))))) []
  have hclub := hle _ (List.mem_map.2 ⟨.Clubs, List.mem_filter.2 ⟨by decide, by simpa using hcl⟩, rfl⟩)
  rw [values_deal] at hclub
  simp only [pick] at hclub
  rw [hh0] at hclub
  rcases hmem with hmem | hmem
  · rw [hmem] at hclub
    simp [cmpList] at hclub
  · obtain ⟨s, hs, e'⟩ := List.mem_map.1 hmem
    rw [List.mem_filter, decide_eq_true_eq] at hs
    have := hall s hs.2
    rw [e'] at this
    generalize List.foldl better [] _ = X at *
    refine cmpList_eq_iff.1 ?_
    rw [← cmpList_swap] at hclub
    revert this hclub
    cases cmpList X [a, b, c, d, e] <;> simp

end Poker.Mask
