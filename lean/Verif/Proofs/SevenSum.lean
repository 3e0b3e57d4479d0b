import Verif.Proofs.SevenCounts
import Mathlib.Data.Multiset.Powerset

/-! From the numbers of `SevenCounts` to the numbers of hands of each category. -/

namespace Poker.Seven
open Rules Counts

/-! ## Sums and counts -/

theorem count_shift (l : List Nat) (i : Nat) :
    ((l.filter (fun e => decide (0 < e))).map (· - 1)).count i = l.count (i + 1) := by
  induction l with
  | nil => rfl
  | cons e l ih =>
    rw [List.filter_cons, List.count_cons]
    by_cases h : 0 < e
    · rw [if_pos (by simpa using h), List.map_cons, List.count_cons, ih]
      have : (e - 1 == i) = (e == i + 1) := by
        rw [Bool.eq_iff_iff, beq_iff_eq, beq_iff_eq]
        omega
      rw [this]
    · rw [if_neg (by simpa using h), ih]
      have : (e == i + 1) = false := by
        rw [Bool.eq_false_iff, ne_eq, beq_iff_eq]
        omega
      rw [this]
      simp

theorem sum_shift (B : Nat) (l : List Nat) : (l.map (B ^ ·)).sum
    = l.count 0 + B * (((l.filter (fun e => decide (0 < e))).map (· - 1)).map (B ^ ·)).sum := by
  induction l with
  | nil => simp
  | cons e l ih =>
    rw [List.map_cons, List.sum_cons, ih, List.filter_cons, List.count_cons]
    match e with
    | 0 => simp; omega
    | e + 1 =>
      simp [Nat.pow_succ]
      ring

/-- The digits of a sum of powers are how often each power occurs. -/
theorem count_digits (B : Nat) (ds l : List Nat) (hl : l.length < B) (he : ∀ e ∈ l, e < ds.length)
    (hd : ∀ d ∈ ds, d < B) (h : (l.map (B ^ ·)).sum = ds.foldr (fun a b => a + B * b) 0) (i : Nat)
    (hi : i < ds.length) : l.count i = ds[i] := by
  induction ds generalizing l i with
  | nil => simp at hi
  | cons d ds ih =>
    rw [sum_shift, List.foldr_cons] at h
    obtain ⟨h0, h1⟩ := digit h (lt_of_le_of_lt List.count_le_length hl) (hd d (by simp))
    match i with
    | 0 => simpa using h0
    | i + 1 =>
      rw [← count_shift, List.getElem_cons_succ]
      refine ih _ ?_ ?_ (fun d hd' => hd d (by simp [hd'])) h1 i (by simpa using hi)
      · rw [List.length_map]
        exact lt_of_le_of_lt (List.length_filter_le _ _) hl
      · intro e he'
        obtain ⟨x, hx, rfl⟩ := List.mem_map.1 he'
        have h2 := List.mem_filter.1 hx
        have h3 := he x h2.1
        simp only [List.length_cons, decide_eq_true_eq] at h2 h3
        omega

/-- The order of the pack does not matter for the sum over all hands. -/
theorem sum_order {g : List PCard → Nat} (hg : ∀ l l' : List PCard, l.Perm l' → g l = g l')
    {D D' : List PCard} (hD : D.Perm D') (n : Nat) :
    ((List.sublistsLen n D).map g).sum = ((List.sublistsLen n D').map g).sum := by
  have key : ∀ D : List PCard, ((List.sublistsLen n D).map g).sum
      = ((Multiset.powersetCard n (D : Multiset PCard)).map (fun m => g m.toList)).sum := by
    intro D
    rw [Multiset.powersetCard_coe, Multiset.map_coe, List.map_map, Multiset.sum_coe]
    refine congrArg List.sum (List.map_congr_left (fun l _ => hg _ _ ?_))
    rw [← Multiset.coe_eq_coe]
    simp
  rw [key, key, Multiset.coe_eq_coe.2 hD]

theorem countP_sum (l : List (List PCard)) (q : List PCard → Bool) :
    l.countP q = (l.map (fun h => (q h).toNat)).sum := by
  induction l with
  | nil => rfl
  | cons h l ih =>
    rw [List.countP_cons, List.map_cons, List.sum_cons, ih]
    cases q h <;> simp [Nat.add_comm]

/-- Where indicators add up to the same, so do counts. -/
theorem countP_add (l : List (List PCard)) (qs ps : List (List PCard → Bool))
    (h : ∀ x ∈ l, (qs.map (fun q => (q x).toNat)).sum = (ps.map (fun q => (q x).toNat)).sum) :
    (qs.map (fun q => l.countP q)).sum = (ps.map (fun q => l.countP q)).sum := by
  have key : ∀ qs : List (List PCard → Bool), (qs.map (fun q => l.countP q)).sum
      = (l.map (fun x => (qs.map (fun q => (q x).toNat)).sum)).sum := by
    intro qs
    induction qs with
    | nil => simp
    | cons q qs ih =>
      rw [List.map_cons, List.sum_cons, ih, countP_sum]
      simp only [List.map_cons, List.sum_cons, List.sum_map_add]
  rw [key, key]
  exact congrArg List.sum (List.map_congr_left h)

/-! ## One hand -/

theorem suited_sum (h : List PCard) :
    suited .Clubs h + suited .Hearts h + suited .Spades h + suited .Diamonds h = h.length := by
  induction h with
  | nil => rfl
  | cons c h ih =>
    obtain ⟨r, s⟩ := c
    simp only [suited, ofSuit, List.filter_cons, List.length_cons] at ih ⊢
    cases s <;> simp <;> omega

theorem run_length {us : List Nat} (h : (straightTop us).isSome = true) : 5 ≤ us.length := by
  obtain ⟨t, ht⟩ := Option.isSome_iff_exists.1 h
  have hm : t ∈ straightTops := List.mem_of_find?_eq_some ht
  have hp : [t, t - 1, t - 2, t - 3, t - 4].all (plays us) = true := by
    have := List.find?_some ht
    exact this
  simp only [List.all_cons, List.all_nil, Bool.and_true, Bool.and_eq_true] at hp
  obtain ⟨h0, h1, h2, h3, h4⟩ := hp
  have g : ∀ v, plays us v = true → v ≠ 1 → v ∈ us := by
    intro v hv hne
    simpa [plays, hne] using hv
  have key : ∀ l : List Nat, l.Nodup → (∀ v ∈ l, v ∈ us) → l.length = 5 → 5 ≤ us.length :=
    fun l hl hs h5 => h5 ▸ (hl.subperm hs).length_le
  by_cases h5 : t = 5
  · subst h5
    have h14 : 14 ∈ us ∨ 1 ∈ us := by
      simp only [plays, Nat.reduceSub, List.contains_iff_mem, Bool.or_eq_true, Bool.and_eq_true] at h4
      rcases h4 with h4 | h4
      · exact .inr h4
      · exact .inl h4.2
    rcases h14 with h14 | h14
    · refine key [5, 4, 3, 2, 14] (by decide) ?_ rfl
      simp only [List.forall_mem_cons, List.not_mem_nil, false_implies, implies_true, and_true]
      exact ⟨g 5 h0 (by decide), g 4 h1 (by decide), g 3 h2 (by decide), g 2 h3 (by decide), h14⟩
    · refine key [5, 4, 3, 2, 1] (by decide) ?_ rfl
      simp only [List.forall_mem_cons, List.not_mem_nil, false_implies, implies_true, and_true]
      exact ⟨g 5 h0 (by decide), g 4 h1 (by decide), g 3 h2 (by decide), g 2 h3 (by decide), h14⟩
  · have h6 : 6 ≤ t := by
      revert hm h5
      simp only [straightTops, List.mem_cons, List.not_mem_nil, or_false]
      omega
    refine key [t, t - 1, t - 2, t - 3, t - 4] ?_ ?_ rfl
    · simp only [List.nodup_cons, List.mem_cons, List.not_mem_nil, or_false, not_or, List.nodup_nil,
        not_false_eq_true, and_true]
      omega
    · simp only [List.forall_mem_cons, List.not_mem_nil, false_implies, implies_true, and_true]
      exact ⟨g _ h0 (by omega), g _ h1 (by omega), g _ h2 (by omega), g _ h3 (by omega),
        g _ h4 (by omega)⟩

/-- The code of the cards of a suit. -/
def suitCode (s : Suit) (h : List PCard) : Nat := code (values (ofSuit s h))

theorem values_length (h : List PCard) : (values h).length = h.length := by simp [values]

theorem suitCode_zero (s : Suit) (h : List PCard) : suitCode s h = 0 ↔ suited s h < 5 := by
  rw [suitCode, code, values_length]
  show _ ↔ (ofSuit s h).length < 5
  by_cases h5 : (ofSuit s h).length < 5
  · rw [if_pos h5]; simp [h5]
  · rw [if_neg h5]
    simp only [h5, iff_false]
    split
    · decide
    · split <;> decide

theorem suitCode_straight (s : Suit) (h : List PCard) :
    2 ≤ suitCode s h ↔ (straightTop (values (ofSuit s h))).isSome = true := by
  rw [suitCode, code]
  by_cases h5 : (values (ofSuit s h)).length < 5
  · rw [if_pos h5]
    have : ¬ (straightTop (values (ofSuit s h))).isSome = true := fun hs => by
      have := run_length hs
      omega
    simp [this]
  · rw [if_neg h5]
    cases straightTop (values (ofSuit s h)) with
    | none => simp
    | some t =>
      by_cases h14 : t = 14 <;> simp [h14]

theorem suitCode_le (s : Suit) (h : List PCard) : suitCode s h ≤ 3 := by
  rw [suitCode, code]
  split
  · decide
  · split
    · decide
    · split <;> decide

theorem flat_le (h : List PCard) : flat h ≤ 7 ∧ flat h ≠ 5 := by
  unfold flat
  repeat' split
  all_goals decide

theorem category_flat (h : List PCard) : category h =
    if suits.any (fun s => decide (2 ≤ suitCode s h)) then 8
    else if 6 ≤ flat h then flat h
    else if suits.any (fun s => decide (1 ≤ suitCode s h)) then 5
    else flat h := by
  have e8 : hasStraightFlush h = suits.any (fun s => decide (2 ≤ suitCode s h)) := by
    rw [hasStraightFlush]
    refine congrArg suits.any (funext fun s => ?_)
    rw [Bool.eq_iff_iff, decide_eq_true_eq, suitCode_straight]
  have e5 : hasFlush h = suits.any (fun s => decide (1 ≤ suitCode s h)) := by
    rw [hasFlush]
    refine congrArg suits.any (funext fun s => ?_)
    have := suitCode_zero s h
    rw [suited] at this
    rw [decide_eq_decide]
    omega
  rw [category, ← e8, ← e5]
  unfold flat
  by_cases h8 : hasStraightFlush h = true
  · simp [h8]
  by_cases h7 : hasQuads h = true
  · simp [h8, h7]
  by_cases h6 : hasFullHouse h = true
  · simp [h8, h7, h6]
  by_cases h5 : hasFlush h = true
  · simp only [h8, h7, h6, h5, if_true, if_false, Bool.false_eq_true]
    repeat' split
    all_goals simp_all
  simp only [h8, h7, h6, h5, if_false, Bool.false_eq_true]
  repeat' split
  all_goals simp_all

theorem place (f m j : Nat) : (8 * f + m == 8 * f + j) = (m == j) := by
  rw [Bool.eq_iff_iff, beq_iff_eq, beq_iff_eq]
  omega

theorem three (f k m : Nat) (hm : m ≤ 7) :
    (8 * f + m == 8 * k + 5).toNat + (8 * f + m == 8 * k + 6).toNat + (8 * f + m == 8 * k + 7).toNat
      = (decide (f = k) && decide (5 ≤ m)).toNat := by
  by_cases h : f = k
  · subst h
    simp only [place]
    interval_cases m <;> rfl
  · have : ∀ j < 8, (8 * f + m == 8 * k + j) = false := by
      intro j hj
      rw [Bool.eq_false_iff, ne_eq, beq_iff_eq]
      omega
    rw [this 5 (by decide), this 6 (by decide), this 7 (by decide)]
    simp [h]

theorem eight (f k m : Nat) (hm : m ≤ 7) :
    ((List.range 8).map (fun j => (8 * f + m == 8 * k + j).toNat)).sum = (decide (f = k)).toNat := by
  by_cases h : f = k
  · subst h
    simp only [place]
    interval_cases m <;> rfl
  · have : ∀ j < 8, (8 * f + m == 8 * k + j) = false := by
      intro j hj
      rw [Bool.eq_false_iff, ne_eq, beq_iff_eq]
      omega
    have e : (List.range 8).map (fun j => (8 * f + m == 8 * k + j).toNat)
        = (List.range 8).map (fun _ => 0) := by
      refine List.map_congr_left (fun j hj => ?_)
      rw [this j (List.mem_range.1 hj)]
      rfl
    rw [e]
    simp [h]

/-! ## All hands -/

/-- The ranks in the order of the pack. -/
def ranks : List Rank := [.Ace, .King, .Queen, .Jack, .Ten, .Nine, .Eight, .Seven, .Six, .Five, .Four,
  .Three, .Two]

theorem cards_order (s : Suit) :
    cards.Perm (ranks.map (fun r => (r, s)) ++ cards.filter (fun c => !(c.2 == s))) := by
  cases s <;> decide +kernel

theorem code_perm {us us' : List Nat} (h : us.Perm us') : code us = code us' := by
  rw [code, code, h.length_eq, straightTop_congr (fun v => h.mem_iff)]

theorem length_hands (n : Nat) : (List.sublistsLen n cards).length = Nat.choose 52 n := by
  rw [List.length_sublistsLen, show cards.length = 52 by decide]

/-- How many hands have which `flat` category and how many cards of the suit. -/
theorem count_flat {n : Nat} (hn : n ≤ 7) (hc : Nat.choose 52 n < 2 ^ 32) (X : List Nat)
    (hX : X.length = 64) (hd : ∀ d ∈ X, d < 2 ^ 32)
    (h : dpX (2 ^ 32) allValues n 0 0 = List.foldr (fun a b => a + 2 ^ 32 * b) 0 X)
    (s : Suit) (i : Nat) (hi : i < X.length) :
    (List.sublistsLen n cards).countP (fun h => 8 * flat h + suited s h == i) = X[i] := by
  have ht := totX_eq (2 ^ 32) s ranks n [] (by decide) (by simp)
  rw [show ranks.map pips = allValues from rfl, show ranks.flatMap block = cards from rfl,
    show pattern [] = 0 from rfl, show bits [] = 0 from rfl, h] at ht
  have hs : totX (2 ^ 32) s n cards [] = (((List.sublistsLen n cards).map
      (fun h => 8 * flat h + suited s h)).map ((2 ^ 32) ^ ·)).sum := by
    rw [totX, List.map_map]
    refine congrArg List.sum (List.map_congr_left (fun l hl => ?_))
    simp only [List.nil_append, Function.comp_apply]
    rw [flat_quick l (count_values (List.mem_sublistsLen.1 hl).1), Nat.add_comm, Nat.pow_add]
    rfl
  rw [hs] at ht
  have := count_digits (2 ^ 32) X _ ?_ ?_ hd ht i hi
  · rw [← this, List.count, List.countP_map]
    rfl
  · rw [List.length_map, length_hands]
    exact hc
  · intro e he
    obtain ⟨l, hl, rfl⟩ := List.mem_map.1 he
    have h1 := (flat_le l).1
    have h2 : suited s l ≤ l.length := List.length_filter_le _ _
    have h3 := (List.mem_sublistsLen.1 hl).2
    omega

/-- How many hands have which cards of the suit. -/
theorem count_code {n : Nat} (hn : n ≤ 7) (hc : Nat.choose 52 n < 2 ^ 32) (Y : List Nat)
    (hY : Y.length = 4) (hd : ∀ d ∈ Y, d < 2 ^ 32)
    (h : dpY (2 ^ 32) others allValues n [] = List.foldr (fun a b => a + 2 ^ 32 * b) 0 Y)
    (s : Suit) (i : Nat) (hi : i < Y.length) :
    (List.sublistsLen n cards).countP (fun h => suitCode s h == i) = Y[i] := by
  have hlen : (cards.filter (fun c => !(c.2 == s))).length = 39 := by cases s <;> decide
  have ht := totY_eq (2 ^ 32) others s ranks n (cards.filter (fun c => !(c.2 == s))) []
    (by
      intro c hc
      have := (List.mem_filter.1 hc).2
      simpa using this)
    (by
      rw [hlen]
      intro m hm
      have hm7 : m ≤ 7 := hm.trans hn
      rw [Nat.choose_eq_descFactorial_div_factorial]
      interval_cases m <;> decide +kernel)
  rw [show ranks.map pips = allValues from rfl, h] at ht
  have hs : totY (2 ^ 32) s n (ranks.map (fun r => (r, s)) ++ cards.filter (fun c => !(c.2 == s))) []
      = (((List.sublistsLen n cards).map (suitCode s)).map ((2 ^ 32) ^ ·)).sum := by
    rw [totY, ← sum_order (D := cards) _ (cards_order s), List.map_map]
    · rfl
    · intro l l' hp
      rw [code_perm]
      exact ((hp.filter _).map _).append_left []
  rw [hs] at ht
  have := count_digits (2 ^ 32) Y _ ?_ ?_ hd ht i hi
  · rw [← this, List.count, List.countP_map]
    rfl
  · rw [List.length_map, length_hands]
    exact hc
  · intro e he
    obtain ⟨l, hl, rfl⟩ := List.mem_map.1 he
    have := suitCode_le s l
    omega

/-- Indicators, for every possible `flat` category and codes of the suits of a hand. -/
theorem table : ∀ f < 8, ∀ a < 4, ∀ b < 4, ∀ c < 4, ∀ d < 4,
    ((b = 0 ∧ c = 0 ∧ d = 0) ∨ (a = 0 ∧ c = 0 ∧ d = 0) ∨ (a = 0 ∧ b = 0 ∧ d = 0) ∨
      (a = 0 ∧ b = 0 ∧ c = 0)) →
    (f ≠ 5 ∧ (a = 0 ∧ b = 0 ∧ c = 0 ∧ d = 0 ∨ f < 6)) →
    ((if 2 ≤ a ∨ 2 ≤ b ∨ 2 ≤ c ∨ 2 ≤ d then 8 else if 6 ≤ f then f
        else if 1 ≤ a ∨ 1 ≤ b ∨ 1 ≤ c ∨ 1 ≤ d then 5 else f) == 5).toNat + 0
      = (a == 1).toNat + ((b == 1).toNat + ((c == 1).toNat + ((d == 1).toNat + 0))) ∧
    ((if 2 ≤ a ∨ 2 ≤ b ∨ 2 ≤ c ∨ 2 ≤ d then 8 else if 6 ≤ f then f
        else if 1 ≤ a ∨ 1 ≤ b ∨ 1 ≤ c ∨ 1 ≤ d then 5 else f) == 8).toNat + 0
      = (a == 2).toNat + ((b == 2).toNat + ((c == 2).toNat + ((d == 2).toNat + 0)))
      + ((a == 3).toNat + ((b == 3).toNat + ((c == 3).toNat + ((d == 3).toNat + 0)))) ∧
    (a == 3 || (b == 3 || (c == 3 || (d == 3 || false)))).toNat + 0
      = (a == 3).toNat + ((b == 3).toNat + ((c == 3).toNat + ((d == 3).toNat + 0))) := by
  intro f hf a ha b hb c hc d hd one low
  rcases one with ⟨rfl, rfl, rfl⟩ | ⟨rfl, rfl, rfl⟩ | ⟨rfl, rfl, rfl⟩ | ⟨rfl, rfl, rfl⟩
  · clear hb hc hd
    interval_cases a <;> interval_cases f <;> first | rfl | (refine ⟨?_, ?_, ?_⟩ <;> rfl) | simp at low
  · clear ha hc hd
    interval_cases b <;> interval_cases f <;> first | rfl | (refine ⟨?_, ?_, ?_⟩ <;> rfl) | simp at low
  · clear ha hb hd
    interval_cases c <;> interval_cases f <;> first | rfl | (refine ⟨?_, ?_, ?_⟩ <;> rfl) | simp at low
  · clear ha hb hc
    interval_cases d <;> interval_cases f <;> first | rfl | (refine ⟨?_, ?_, ?_⟩ <;> rfl) | simp at low

/-- What is known about a hand, given that with five of a suit it has no full house or four of a kind. -/
def Facts (h : List PCard) : Prop := ∃ f a b c d ma mb mc md : Nat,
    flat h = f ∧ suitCode .Clubs h = a ∧ suitCode .Hearts h = b ∧ suitCode .Spades h = c ∧
    suitCode .Diamonds h = d ∧ suited .Clubs h = ma ∧ suited .Hearts h = mb ∧
    suited .Spades h = mc ∧ suited .Diamonds h = md ∧
    (f ≤ 7 ∧ f ≠ 5 ∧ a ≤ 3 ∧ b ≤ 3 ∧ c ≤ 3 ∧ d ≤ 3 ∧ ma + mb + mc + md ≤ 7) ∧
    (a = 0 ↔ ma < 5) ∧ (b = 0 ↔ mb < 5) ∧ (c = 0 ↔ mc < 5) ∧ (d = 0 ↔ md < 5) ∧
    (5 ≤ ma → f < 6) ∧ (5 ≤ mb → f < 6) ∧ (5 ≤ mc → f < 6) ∧ (5 ≤ md → f < 6) ∧
    category h = if 2 ≤ a ∨ 2 ≤ b ∨ 2 ≤ c ∨ 2 ≤ d then 8 else if 6 ≤ f then f
      else if 1 ≤ a ∨ 1 ≤ b ∨ 1 ≤ c ∨ 1 ≤ d then 5 else f

theorem facts_of {h : List PCard} (hl : h.length ≤ 7) (hno : ∀ s, 5 ≤ suited s h → flat h < 6) :
    Facts h := by
  have hs := suited_sum h
  refine ⟨_, _, _, _, _, _, _, _, _, rfl, rfl, rfl, rfl, rfl, rfl, rfl, rfl, rfl,
    ⟨(flat_le h).1, (flat_le h).2, suitCode_le _ _, suitCode_le _ _, suitCode_le _ _,
      suitCode_le _ _, by omega⟩,
    suitCode_zero _ _, suitCode_zero _ _, suitCode_zero _ _, suitCode_zero _ _,
    hno _, hno _, hno _, hno _, ?_⟩
  rw [category_flat]
  simp only [suits, List.any_cons, List.any_nil, Bool.or_false, Bool.or_eq_true, decide_eq_true_eq]

variable {L : List (List PCard)} {X Y : Nat → Nat}

theorem four_suits (q : Suit → List PCard → Bool) (v : Nat) (hq : ∀ s, L.countP (q s) = v) :
    (([q .Clubs, q .Hearts, q .Spades, q .Diamonds]).map (fun q => L.countP q)).sum = 4 * v := by
  simp only [List.map_cons, List.map_nil, List.sum_cons, List.sum_nil, hq]
  omega

theorem count_low (facts : ∀ h ∈ L, Facts h)
    (hx : ∀ s, ∀ i < 64, L.countP (fun h => 8 * flat h + suited s h == i) = X i) :
    ∀ k ≤ 4, L.countP (fun h => category h == k)
      + 4 * (X (8 * k + 5) + X (8 * k + 6) + X (8 * k + 7))
      = ((List.range 8).map (fun j => X (8 * k + j))).sum := by
  intro k hk
  have := countP_add L ([fun h => category h == k]
      ++ suits.flatMap (fun s => [fun h => 8 * flat h + suited s h == 8 * k + 5,
        fun h => 8 * flat h + suited s h == 8 * k + 6,
        fun h => 8 * flat h + suited s h == 8 * k + 7]))
    ((List.range 8).map (fun j h => 8 * flat h + suited .Clubs h == 8 * k + j)) ?_
  · have e : ((List.range 8).map (fun j => X (8 * k + j)))
        = (((List.range 8).map (fun j h => 8 * flat h + suited .Clubs h == 8 * k + j)).map
          (fun q => L.countP q)) := by
      rw [List.map_map]
      refine List.map_congr_left (fun j hj => ?_)
      have := List.mem_range.1 hj
      exact (hx .Clubs _ (by omega)).symm
    rw [e, ← this]
    simp only [suits, List.flatMap_cons, List.flatMap_nil, List.map_append, List.map_cons,
      List.map_nil, List.sum_append, List.sum_cons, List.sum_nil,
      hx _ (8 * k + 5) (by omega), hx _ (8 * k + 6) (by omega), hx _ (8 * k + 7) (by omega)]
    omega
  · intro h hh
    obtain ⟨f, a, b, c, d, ma, mb, mc, md, e1, e2, e3, e4, e5, e6, e7, e8, e9, hle, ha, hb, hc, hd,
      -, -, -, -, hcat⟩ := facts h hh
    simp only [List.map_append, List.sum_append, suits, List.flatMap_cons, List.flatMap_nil,
      List.map_cons, List.map_nil, List.sum_cons, List.sum_nil, List.map_map, Function.comp_def,
      e1, e6, e7, e8, e9, hcat]
    rw [eight f k ma (by omega)]
    have t1 := three f k ma (by omega)
    have t2 := three f k mb (by omega)
    have t3 := three f k mc (by omega)
    have t4 := three f k md (by omega)
    have key : ((if 2 ≤ a ∨ 2 ≤ b ∨ 2 ≤ c ∨ 2 ≤ d then 8 else if 6 ≤ f then f
        else if 1 ≤ a ∨ 1 ≤ b ∨ 1 ≤ c ∨ 1 ≤ d then 5 else f) == k).toNat
        + (decide (f = k) && decide (5 ≤ ma)).toNat + (decide (f = k) && decide (5 ≤ mb)).toNat
        + (decide (f = k) && decide (5 ≤ mc)).toNat + (decide (f = k) && decide (5 ≤ md)).toNat
        = (decide (f = k)).toNat := by
      have e : ((if 2 ≤ a ∨ 2 ≤ b ∨ 2 ≤ c ∨ 2 ≤ d then 8 else if 6 ≤ f then f
          else if 1 ≤ a ∨ 1 ≤ b ∨ 1 ≤ c ∨ 1 ≤ d then 5 else f) == k)
          = (decide (f = k) && decide (¬ (5 ≤ ma ∨ 5 ≤ mb ∨ 5 ≤ mc ∨ 5 ≤ md))) := by
        rw [Bool.eq_iff_iff, Bool.and_eq_true, decide_eq_true_eq, decide_eq_true_eq, beq_iff_eq]
        split
        · omega
        · split
          · omega
          · split <;> omega
      rw [e]
      by_cases hf : f = k
      · by_cases g1 : 5 ≤ ma
        · have g2 : ¬ 5 ≤ mb := by omega
          have g3 : ¬ 5 ≤ mc := by omega
          have g4 : ¬ 5 ≤ md := by omega
          simp [hf, g1, g2, g3, g4]
        by_cases g2 : 5 ≤ mb
        · have g3 : ¬ 5 ≤ mc := by omega
          have g4 : ¬ 5 ≤ md := by omega
          simp [hf, g1, g2, g3, g4]
        by_cases g3 : 5 ≤ mc
        · have g4 : ¬ 5 ≤ md := by omega
          simp [hf, g1, g2, g3, g4]
        by_cases g4 : 5 ≤ md <;> simp [hf, g1, g2, g3, g4]
      · simp [hf]
    omega

theorem count_flush (facts : ∀ h ∈ L, Facts h)
    (hy : ∀ s, ∀ i < 4, L.countP (fun h => suitCode s h == i) = Y i) :
    L.countP (fun h => category h == 5) = 4 * Y 1 := by
  rw [← four_suits (fun s h => suitCode s h == 1) (Y 1) (fun s => hy s 1 (by decide))]
  have := countP_add L [fun h => category h == 5] [fun h => suitCode .Clubs h == 1,
    fun h => suitCode .Hearts h == 1, fun h => suitCode .Spades h == 1,
    fun h => suitCode .Diamonds h == 1] ?_
  · simpa using this
  · intro h hh
    obtain ⟨f, a, b, c, d, ma, mb, mc, md, e1, e2, e3, e4, e5, e6, e7, e8, e9, hle, ha, hb, hc, hd,
      fa, fb, fc, fd, hcat⟩ := facts h hh
    simp only [List.map_cons, List.map_nil, List.sum_cons, List.sum_nil, e2, e3, e4, e5, hcat]
    exact (table f (by omega) a (by omega) b (by omega) c (by omega) d (by omega) (by omega)
      (by omega)).1

theorem count_high (facts : ∀ h ∈ L, Facts h)
    (hx : ∀ s, ∀ i < 64, L.countP (fun h => 8 * flat h + suited s h == i) = X i) :
    ∀ k, k = 6 ∨ k = 7 → L.countP (fun h => category h == k)
      = ((List.range 8).map (fun j => X (8 * k + j))).sum := by
  intro k hk
  have := countP_add L [fun h => category h == k]
    ((List.range 8).map (fun j h => 8 * flat h + suited .Clubs h == 8 * k + j)) ?_
  · have e : ((List.range 8).map (fun j => X (8 * k + j)))
        = (((List.range 8).map (fun j h => 8 * flat h + suited .Clubs h == 8 * k + j)).map
          (fun q => L.countP q)) := by
      rw [List.map_map]
      refine List.map_congr_left (fun j hj => ?_)
      have := List.mem_range.1 hj
      exact (hx .Clubs _ (by omega)).symm
    rw [e, ← this]
    simp
  · intro h hh
    obtain ⟨f, a, b, c, d, ma, mb, mc, md, e1, e2, e3, e4, e5, e6, e7, e8, e9, hle, ha, hb, hc, hd,
      fa, fb, fc, fd, hcat⟩ := facts h hh
    simp only [List.map_cons, List.map_nil, List.sum_cons, List.sum_nil, List.map_map,
      Function.comp_def, e1, e6, hcat]
    rw [eight f k ma (by omega), Nat.add_zero]
    refine congrArg Bool.toNat ?_
    rw [Bool.eq_iff_iff, decide_eq_true_eq, beq_iff_eq]
    split
    · omega
    · split
      · omega
      · split <;> omega

theorem count_straightFlush (facts : ∀ h ∈ L, Facts h)
    (hy : ∀ s, ∀ i < 4, L.countP (fun h => suitCode s h == i) = Y i) :
    L.countP (fun h => category h == 8) = 4 * (Y 2 + Y 3) := by
  have h2 := four_suits (fun s h => suitCode s h == 2) (Y 2) (fun s => hy s 2 (by decide))
  have h3 := four_suits (fun s h => suitCode s h == 3) (Y 3) (fun s => hy s 3 (by decide))
  have := countP_add L [fun h => category h == 8] ([fun h => suitCode .Clubs h == 2,
    fun h => suitCode .Hearts h == 2, fun h => suitCode .Spades h == 2,
    fun h => suitCode .Diamonds h == 2] ++ [fun h => suitCode .Clubs h == 3,
    fun h => suitCode .Hearts h == 3, fun h => suitCode .Spades h == 3,
    fun h => suitCode .Diamonds h == 3]) ?_
  · rw [List.map_append, List.sum_append, h2, h3] at this
    simp only [List.map_cons, List.map_nil, List.sum_cons, List.sum_nil] at this
    omega
  · intro h hh
    obtain ⟨f, a, b, c, d, ma, mb, mc, md, e1, e2, e3, e4, e5, e6, e7, e8, e9, hle, ha, hb, hc, hd,
      fa, fb, fc, fd, hcat⟩ := facts h hh
    simp only [List.map_append, List.sum_append, List.map_cons, List.map_nil, List.sum_cons,
      List.sum_nil, e2, e3, e4, e5, hcat]
    exact (table f (by omega) a (by omega) b (by omega) c (by omega) d (by omega) (by omega)
      (by omega)).2.1

theorem count_royal (facts : ∀ h ∈ L, Facts h)
    (hy : ∀ s, ∀ i < 4, L.countP (fun h => suitCode s h == i) = Y i) :
    L.countP (fun h => suits.any (fun s => suitCode s h == 3)) = 4 * Y 3 := by
  rw [← four_suits (fun s h => suitCode s h == 3) (Y 3) (fun s => hy s 3 (by decide))]
  have := countP_add L [fun h => suits.any (fun s => suitCode s h == 3)]
    [fun h => suitCode .Clubs h == 3,
    fun h => suitCode .Hearts h == 3, fun h => suitCode .Spades h == 3,
    fun h => suitCode .Diamonds h == 3] ?_
  · simpa using this
  · intro h hh
    obtain ⟨f, a, b, c, d, ma, mb, mc, md, e1, e2, e3, e4, e5, e6, e7, e8, e9, hle, ha, hb, hc, hd,
      fa, fb, fc, fd, hcat⟩ := facts h hh
    simp only [List.map_cons, List.map_nil, List.sum_cons, List.sum_nil, suits, List.any_cons,
      List.any_nil, e2, e3, e4, e5]
    exact (table f (by omega) a (by omega) b (by omega) c (by omega) d (by omega) (by omega)
      (by omega)).2.2

/-- The numbers of hands of each category, from the numbers by values and by suit. -/
theorem count_category {n : Nat} (hn : n ≤ 7) (X Y : Nat → Nat)
    (hx : ∀ s, ∀ i < 64,
      (List.sublistsLen n cards).countP (fun h => 8 * flat h + suited s h == i) = X i)
    (hy : ∀ s, ∀ i < 4, (List.sublistsLen n cards).countP (fun h => suitCode s h == i) = Y i)
    (h0 : X 53 = 0 ∧ X 54 = 0 ∧ X 55 = 0 ∧ X 61 = 0 ∧ X 62 = 0 ∧ X 63 = 0) :
    (∀ k ≤ 4, (List.sublistsLen n cards).countP (fun h => category h == k)
      + 4 * (X (8 * k + 5) + X (8 * k + 6) + X (8 * k + 7))
      = ((List.range 8).map (fun j => X (8 * k + j))).sum) ∧
    (List.sublistsLen n cards).countP (fun h => category h == 5) = 4 * Y 1 ∧
    (∀ k, k = 6 ∨ k = 7 → (List.sublistsLen n cards).countP (fun h => category h == k)
      = ((List.range 8).map (fun j => X (8 * k + j))).sum) ∧
    (List.sublistsLen n cards).countP (fun h => category h == 8) = 4 * (Y 2 + Y 3) ∧
    (List.sublistsLen n cards).countP (fun h => suits.any (fun s => suitCode s h == 3)) = 4 * Y 3 := by
  generalize hL : List.sublistsLen n cards = L at hx hy
  have hlen : ∀ h ∈ L, h.length ≤ 7 := by
    intro h hh
    rw [← hL] at hh
    rw [(List.mem_sublistsLen.1 hh).2]
    exact hn
  -- a hand with five of a suit has no full house or four of a kind
  have hno : ∀ h ∈ L, ∀ s, 5 ≤ suited s h → flat h < 6 := by
    intro h hh s h5
    by_contra h6
    have hf := (flat_le h).1
    have hm : suited s h ≤ 7 := (List.length_filter_le _ _).trans (hlen h hh)
    have : X (8 * flat h + suited s h) = 0 := by
      obtain ⟨a, b, c, d, e, f⟩ := h0
      generalize flat h = x at *
      generalize suited s h = y at *
      have hx : x = 6 ∨ x = 7 := by omega
      have hy : y = 5 ∨ y = 6 ∨ y = 7 := by omega
      rcases hx with rfl | rfl <;> rcases hy with rfl | rfl | rfl <;> assumption
    rw [← hx s _ (by omega), List.countP_eq_zero] at this
    exact this h hh (by simp)
  have facts : ∀ h ∈ L, Facts h := fun h hh => facts_of (hlen h hh) (hno h hh)
  exact ⟨count_low facts hx, count_flush facts hy, count_high facts hx, count_straightFlush facts hy,
    count_royal facts hy⟩

end Poker.Seven
