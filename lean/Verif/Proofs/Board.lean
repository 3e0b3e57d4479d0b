import Verif.Spec.Board
import Verif.Proofs.Categories
import Mathlib.Data.List.Count

/-! # Two cards added to a board (helper lemmas) -/

namespace Poker
open Rules Tab

namespace Board

/-! ## The conditions by counts -/

theorem value_of_count {n v : Nat} {h : List PCard} (hn : 0 < n) (hc : n ≤ (values h).count v) :
    v ∈ allValues :=
  values_mem h v (List.count_pos_iff.1 (by omega))

theorem quads_iff {h : List PCard} : hasQuads h = true ↔ ∃ v, 4 ≤ (values h).count v := by
  simp only [hasQuads, List.any_eq_true, decide_eq_true_eq]
  exact ⟨fun ⟨v, _, hv⟩ => ⟨v, hv⟩, fun ⟨v, hv⟩ => ⟨v, value_of_count (by omega) hv, hv⟩⟩

theorem trips_iff {h : List PCard} : hasTrips h = true ↔ ∃ v, 3 ≤ (values h).count v := by
  simp only [hasTrips, List.any_eq_true, decide_eq_true_eq]
  exact ⟨fun ⟨v, _, hv⟩ => ⟨v, hv⟩, fun ⟨v, hv⟩ => ⟨v, value_of_count (by omega) hv, hv⟩⟩

theorem pair_iff {h : List PCard} : hasPair h = true ↔ ∃ v, 2 ≤ (values h).count v := by
  simp only [hasPair, List.any_eq_true, decide_eq_true_eq]
  exact ⟨fun ⟨v, _, hv⟩ => ⟨v, hv⟩, fun ⟨v, hv⟩ => ⟨v, value_of_count (by omega) hv, hv⟩⟩

theorem full_iff {h : List PCard} : hasFullHouse h = true ↔
    ∃ v u, u ≠ v ∧ 3 ≤ (values h).count v ∧ 2 ≤ (values h).count u := by
  simp only [hasFullHouse, List.any_eq_true, decide_eq_true_eq, Bool.and_eq_true]
  constructor
  · rintro ⟨v, _, u, _, ⟨hne, hv⟩, hu⟩; exact ⟨v, u, hne, hv, hu⟩
  · rintro ⟨v, u, hne, hv, hu⟩
    exact ⟨v, value_of_count (by omega) hv, u, value_of_count (by omega) hu, ⟨hne, hv⟩, hu⟩

theorem twopair_iff {h : List PCard} : hasTwoPair h = true ↔
    ∃ v u, u ≠ v ∧ 2 ≤ (values h).count v ∧ 2 ≤ (values h).count u := by
  simp only [hasTwoPair, List.any_eq_true, decide_eq_true_eq, Bool.and_eq_true]
  constructor
  · rintro ⟨v, _, u, _, ⟨hne, hv⟩, hu⟩; exact ⟨v, u, hne, hv, hu⟩
  · rintro ⟨v, u, hne, hv, hu⟩
    exact ⟨v, value_of_count (by omega) hv, u, value_of_count (by omega) hu, ⟨hne, hv⟩, hu⟩

theorem flush_iff {h : List PCard} : hasFlush h = true ↔ ∃ s, 5 ≤ (ofSuit s h).length := by
  simp only [hasFlush, List.any_eq_true, decide_eq_true_eq]
  exact ⟨fun ⟨s, _, hs⟩ => ⟨s, hs⟩, fun ⟨s, hs⟩ => ⟨s, Cat.suits_all s, hs⟩⟩

theorem sf_iff {h : List PCard} :
    hasStraightFlush h = true ↔ ∃ s, (straightTop (values (ofSuit s h))).isSome = true := by
  simp only [hasStraightFlush, List.any_eq_true]
  exact ⟨fun ⟨s, _, hs⟩ => ⟨s, hs⟩, fun ⟨s, hs⟩ => ⟨s, Cat.suits_all s, hs⟩⟩

/-- Five of the values of a straight. -/
theorem straight_iff {h : List PCard} :
    (straightTop (values h)).isSome = true ↔ ∃ t ∈ straightTops, ∀ v ∈ Cat.run t, v ∈ values h := by
  constructor
  · intro hs
    rw [straightTop, List.find?_isSome] at hs
    obtain ⟨t, ht, hall⟩ := hs
    exact ⟨t, ht, Cat.plays_run hall (Cat.one_not_value h)⟩
  · rintro ⟨t, ht, hv⟩
    exact Cat.straight_mono hv (Cat.run_props t ht).2.2

/-- A straight takes five values. -/
theorem straight_length {h : List PCard} (hs : (straightTop (values h)).isSome = true) :
    5 ≤ h.length := by
  obtain ⟨t, ht, hv⟩ := straight_iff.1 hs
  have h1 := ((Cat.run_props t ht).1.subperm hv).length_le
  rw [(Cat.run_props t ht).2.1, values, List.length_map] at h1
  exact h1

theorem flush_of_sf {h : List PCard} (hs : hasStraightFlush h = true) : hasFlush h = true := by
  obtain ⟨s, hs⟩ := sf_iff.1 hs
  exact flush_iff.2 ⟨s, straight_length hs⟩

theorem straight_of_sf {h : List PCard} (hs : hasStraightFlush h = true) : hasStraight h = true := by
  obtain ⟨s, hs⟩ := sf_iff.1 hs
  refine Cat.straight_mono ?_ hs
  intro v hv
  obtain ⟨c, hc, rfl⟩ := List.mem_map.1 hv
  exact List.mem_map.2 ⟨c, (Cat.mem_ofSuit.1 hc).1, rfl⟩

theorem two_counts {u v : Nat} (hne : u ≠ v) (l : List Nat) : l.count v + l.count u ≤ l.length := by
  induction l with
  | nil => simp
  | cons a l ih =>
    rw [List.count_cons, List.count_cons, List.length_cons]
    by_cases h1 : a = v
    · have h2 : ¬ a = u := fun h => hne (h.symm.trans h1)
      simp only [h1, beq_self_eq_true, if_true]
      rw [if_neg (by rw [beq_iff_eq]; exact fun h => hne h.symm)]
      omega
    · rw [if_neg (by rw [beq_iff_eq]; exact h1)]
      split <;> omega

/-- Seven cards with five different values repeat none four times, and have no full house. -/
theorem spread {h : List PCard} {L : List Nat} (hL : L.Nodup) (h5 : 5 ≤ L.length)
    (hm : ∀ v ∈ L, v ∈ values h) (h7 : h.length ≤ 7) :
    hasQuads h = false ∧ hasFullHouse h = false := by
  have hlen : (values h).length ≤ 7 := by rw [values, List.length_map]; exact h7
  have hp := List.subperm_append_diff_self_of_count_le
    (l₁ := L) (l₂ := values h) (fun v _ => (hL.subperm hm).count_le v)
  have hl := hp.length_eq
  rw [List.length_append] at hl
  have hc : ∀ v, (values h).count v ≤ 1 + ((values h).diff L).count v := by
    intro v
    rw [← hp.count_eq, List.count_append]
    have := List.nodup_iff_count_le_one.1 hL v
    omega
  constructor
  · by_contra hq
    rw [Bool.not_eq_false] at hq
    obtain ⟨v, hv⟩ := quads_iff.1 hq
    have h1 := hc v
    have h2 := List.count_le_length (a := v) (l := (values h).diff L)
    omega
  · by_contra hq
    rw [Bool.not_eq_false] at hq
    obtain ⟨v, u, hne, hv, hu⟩ := full_iff.1 hq
    have h1 := hc v
    have h1' := hc u
    have h2 := two_counts hne ((values h).diff L)
    omega

theorem spread_straight {h : List PCard} (hs : hasStraight h = true) (h7 : h.length ≤ 7) :
    hasQuads h = false ∧ hasFullHouse h = false := by
  obtain ⟨t, ht, hv⟩ := straight_iff.1 hs
  exact spread (Cat.run_props t ht).1 (Nat.le_of_eq (Cat.run_props t ht).2.1.symm) hv h7

theorem suit_values {h : List PCard} (hn : h.Nodup) (s : Suit) : (values (ofSuit s h)).Nodup := by
  rw [values]
  refine List.Nodup.map_on ?_ (hn.filter _)
  intro c hc d hd e
  have h1 := (Cat.mem_ofSuit.1 hc).2
  have h2 := (Cat.mem_ofSuit.1 hd).2
  exact Prod.ext (pips_inj e) (h1.trans h2.symm)

theorem spread_flush {h : List PCard} (hn : h.Nodup) (hs : hasFlush h = true) (h7 : h.length ≤ 7) :
    hasQuads h = false ∧ hasFullHouse h = false := by
  obtain ⟨s, hs⟩ := flush_iff.1 hs
  refine spread (suit_values hn s) (by rw [values, List.length_map]; exact hs) ?_ h7
  intro v hv
  obtain ⟨c, hc, rfl⟩ := List.mem_map.1 hv
  exact List.mem_map.2 ⟨c, (Cat.mem_ofSuit.1 hc).1, rfl⟩

/-! ## Two more cards -/

theorem count_two (x y : PCard) (b : List PCard) (v : Nat) :
    (values (x :: y :: b)).count v =
      (values b).count v + (if pips y.1 = v then 1 else 0) + (if pips x.1 = v then 1 else 0) := by
  simp only [values, List.map_cons, List.count_cons, beq_iff_eq]

theorem suit_two (x y : PCard) (b : List PCard) (s : Suit) :
    (ofSuit s (x :: y :: b)).length =
      (ofSuit s b).length + (if y.2 = s then 1 else 0) + (if x.2 = s then 1 else 0) := by
  simp only [ofSuit, ← List.countP_eq_length_filter, List.countP_cons, beq_iff_eq]

/-- A set of values as a number. -/
def mask : List Nat → Nat
  | [] => 0
  | v :: l => 2 ^ v ||| mask l

theorem test_mask (l : List Nat) (v : Nat) : (mask l).testBit v = decide (v ∈ l) := by
  induction l with
  | nil => simp [mask]
  | cons a l ih =>
    rw [mask, Nat.testBit_or, ih, Nat.testBit_two_pow, ← Bool.decide_or]
    simp only [List.mem_cons, eq_comm]

theorem sub_mask (l : List Nat) (m : Nat) :
    (mask l &&& m == mask l) = true ↔ ∀ v ∈ l, m.testBit v = true := by
  rw [beq_iff_eq]
  constructor
  · intro h v hv
    have h1 := congrArg (fun n => Nat.testBit n v) h
    simp only [Nat.testBit_and, test_mask, hv, decide_true, Bool.true_and] at h1
    exact h1
  · intro h
    apply Nat.eq_of_testBit_eq
    intro i
    rw [Nat.testBit_and, test_mask]
    by_cases hi : i ∈ l
    · simp [hi, h i hi]
    · simp [hi]

/-- The straights as numbers. -/
def windows : List Nat := [31744, 15872, 7936, 3968, 1984, 992, 496, 248, 124, 16444]

theorem windows_eq : windows = straightTops.map (fun t => mask (Cat.run t)) := by decide +kernel

def straightM (m : Nat) : Bool := windows.any (fun w => w &&& m == w)

theorem straightM_iff {m : Nat} :
    straightM m = true ↔ ∃ t ∈ straightTops, ∀ v ∈ Cat.run t, m.testBit v = true := by
  rw [straightM, windows_eq, List.any_eq_true]
  simp only [List.mem_map, exists_exists_and_eq_and, sub_mask]

/-- The values two at a time. -/
def twos : List (Nat × Nat) := allValues.flatMap (fun p => allValues.map (fun q => (p, q)))

def roomM (m : Nat) : Bool :=
  straightM m || twos.any (fun w => !(w.1 == w.2) && !m.testBit w.1 && !m.testBit w.2 &&
    !straightM ((2 ^ w.1 ||| 2 ^ w.2) ||| m))

/-- All choices of at most `k` of the values. -/
def sweep : List Nat → Nat → Nat → Bool
  | [], _, m => roomM m
  | _ :: l, 0, m => sweep l 0 m && true
  | v :: l, k + 1, m => sweep l (k + 1) m && sweep l k (m ||| 2 ^ v)

theorem sweep_all : sweep allValues 5 0 = true := by decide +kernel

theorem sweep_sub : ∀ {l : List Nat} {k m : Nat}, sweep l k m = true →
    ∀ {V : List Nat}, V.Sublist l → V.length ≤ k → ∃ n, roomM n = true ∧
      ∀ v, n.testBit v = (m.testBit v || decide (v ∈ V))
  | [], k, m, h, V, hV, _ => by
    rw [List.sublist_nil] at hV
    subst hV
    exact ⟨m, h, fun v => by simp⟩
  | a :: l, 0, m, h, V, hV, hk => by
    rw [sweep, Bool.and_eq_true] at h
    rcases List.sublist_cons_iff.1 hV with hV | ⟨V', rfl, hV⟩
    · exact sweep_sub h.1 hV hk
    · simp at hk
  | a :: l, k + 1, m, h, V, hV, hk => by
    rw [sweep, Bool.and_eq_true] at h
    rcases List.sublist_cons_iff.1 hV with hV | ⟨V', rfl, hV'⟩
    · exact sweep_sub h.1 hV hk
    · obtain ⟨n, h1, h2⟩ := sweep_sub h.2 hV' (by simpa using hk)
      refine ⟨n, h1, fun v => ?_⟩
      rw [h2 v, Nat.testBit_or, Nat.testBit_two_pow, Bool.or_assoc, ← Bool.decide_or]
      simp only [List.mem_cons, eq_comm]

theorem straight_values {vs : List Nat} (hv : ∀ v ∈ vs, v ∈ allValues) {n : Nat}
    (hn : ∀ v, n.testBit v = decide (v ∈ vs)) : (straightTop vs).isSome = straightM n := by
  rw [Bool.eq_iff_iff, straightM_iff]
  simp only [hn, decide_eq_true_eq]
  constructor
  · intro hs
    rw [straightTop, List.find?_isSome] at hs
    obtain ⟨t, ht, hall⟩ := hs
    exact ⟨t, ht, Cat.plays_run hall (fun h => absurd (hv 1 h) (by decide))⟩
  · rintro ⟨t, ht, hv⟩
    exact Cat.straight_mono hv (Cat.run_props t ht).2.2

/-- Values that come to few and make no straight leave room for two more that make none either. -/
theorem fillers {vs : List Nat} (hv : ∀ v ∈ vs, v ∈ allValues) (h5 : vs.length ≤ 5)
    (hs : (straightTop vs).isSome = false) :
    ∃ p ∈ allValues, ∃ q ∈ allValues, p ≠ q ∧ p ∉ vs ∧ q ∉ vs ∧
      (straightTop (p :: q :: vs)).isSome = false := by
  have hmem : ∀ v, v ∈ allValues.filter (fun v => decide (v ∈ vs)) ↔ v ∈ vs := by
    intro v
    rw [List.mem_filter, decide_eq_true_eq]
    exact ⟨fun h => h.2, fun h => ⟨hv v h, h⟩⟩
  have hl : (allValues.filter (fun v => decide (v ∈ vs))).length ≤ 5 :=
    Nat.le_trans ((Cat.allValues_nodup.filter _).subperm (fun v h => (hmem v).1 h)).length_le h5
  obtain ⟨n, hr, hn⟩ := sweep_sub sweep_all (List.filter_sublist (l := allValues)) hl
  have hn' : ∀ v, n.testBit v = decide (v ∈ vs) := by
    intro v
    rw [hn v, Nat.zero_testBit, Bool.false_or]
    exact decide_eq_decide.2 (hmem v)
  rw [roomM, ← straight_values hv hn', hs, Bool.false_or, List.any_eq_true] at hr
  obtain ⟨⟨p, q⟩, hpq, h⟩ := hr
  simp only [Bool.and_eq_true, Bool.not_eq_true', beq_eq_false_iff_ne, hn',
    decide_eq_false_iff_not] at h
  obtain ⟨⟨⟨h1, h2⟩, h3⟩, h4⟩ := h
  simp only [twos, List.mem_flatMap, List.mem_map] at hpq
  obtain ⟨p', hp, q', hq, e⟩ := hpq
  obtain ⟨rfl, rfl⟩ := Prod.mk.inj e
  refine ⟨p', hp, q', hq, h1, h2, h3, ?_⟩
  rw [straight_values (n := (2 ^ p' ||| 2 ^ q') ||| n) ?_ ?_, h4]
  · intro v hm
    rcases List.mem_cons.1 hm with rfl | hm
    · exact hp
    rcases List.mem_cons.1 hm with rfl | hm
    · exact hq
    · exact hv v hm
  · intro v
    rw [Nat.testBit_or, Nat.testBit_or, Nat.testBit_two_pow, Nat.testBit_two_pow, hn',
      ← Bool.decide_or, ← Bool.decide_or]
    simp only [List.mem_cons, eq_comm, or_assoc]

theorem suits_sum (b : List PCard) : (ofSuit .Clubs b).length + (ofSuit .Hearts b).length +
    (ofSuit .Spades b).length + (ofSuit .Diamonds b).length = b.length := by
  simp only [ofSuit, ← List.countP_eq_length_filter]
  induction b with
  | nil => rfl
  | cons c b ih =>
    obtain ⟨r, s⟩ := c
    simp only [List.countP_cons, List.length_cons]
    cases s <;> simp <;> omega

/-- All but one suit are rare on the board. -/
theorem rare {b : List PCard} (h5 : b.length ≤ 5) :
    ∃ s : Suit, ∀ t, t ≠ s → (ofSuit t b).length ≤ 2 := by
  have hs := suits_sum b
  by_cases h1 : 3 ≤ (ofSuit .Clubs b).length
  · exact ⟨.Clubs, fun t ht => by cases t <;> first | (exact absurd rfl ht) | omega⟩
  by_cases h2 : 3 ≤ (ofSuit .Hearts b).length
  · exact ⟨.Hearts, fun t ht => by cases t <;> first | (exact absurd rfl ht) | omega⟩
  by_cases h3 : 3 ≤ (ofSuit .Spades b).length
  · exact ⟨.Spades, fun t ht => by cases t <;> first | (exact absurd rfl ht) | omega⟩
  · exact ⟨.Diamonds, fun t ht => by cases t <;> first | (exact absurd rfl ht) | omega⟩

/-- Cards of the rare suits make no flush. -/
theorem no_flush {b : List PCard} {x y : PCard} {s : Suit} (hf : hasFlush b = false)
    (hs : ∀ t, t ≠ s → (ofSuit t b).length ≤ 2) (hx : x.2 ≠ s) (hy : y.2 ≠ s) :
    hasFlush (x :: y :: b) = false := by
  by_contra h
  rw [Bool.not_eq_false] at h
  obtain ⟨t, ht⟩ := flush_iff.1 h
  rw [suit_two] at ht
  by_cases e : t = s
  · subst e
    rw [if_neg hx, if_neg hy] at ht
    rw [flush_iff.2 ⟨t, ht⟩] at hf
    exact absurd hf (by decide)
  · have := hs t e
    split at ht <;> split at ht <;> omega

/-- Cards of a value that are not on the board, none of suit `s`. -/
def free (v : Nat) (s : Suit) (b : List PCard) : List PCard :=
  (((suits.filter (fun t => !decide (t = s))).map (fun t => (rankOf v, t))).filter
    (fun c => !decide (c ∈ b)))

theorem mem_free {v : Nat} {s : Suit} {b : List PCard} {c : PCard} (hv : v ∈ allValues) :
    c ∈ free v s b ↔ pips c.1 = v ∧ c.2 ≠ s ∧ c ∉ b := by
  simp only [free, List.mem_filter, List.mem_map, Bool.not_eq_true', decide_eq_false_iff_not]
  constructor
  · rintro ⟨⟨t, ⟨_, ht⟩, rfl⟩, hb⟩
    exact ⟨pips_rankOf hv, ht, hb⟩
  · rintro ⟨h1, h2, h3⟩
    refine ⟨⟨c.2, ⟨Cat.suits_all _, h2⟩, Prod.ext (pips_inj ?_) rfl⟩, h3⟩
    rw [pips_rankOf hv, h1]

theorem free_nodup (v : Nat) (s : Suit) (b : List PCard) : (free v s b).Nodup := by
  refine List.Nodup.filter _ (List.Nodup.map ?_ (List.Nodup.filter _ (by decide)))
  intro a c h
  exact (Prod.mk.inj h).2

theorem free_length {v : Nat} (hv : v ∈ allValues) (s : Suit) (b : List PCard) :
    3 ≤ (free v s b).length + (values b).count v := by
  have hA : (((suits.filter (fun t => !decide (t = s))).map (fun t => (rankOf v, t)))).length = 3 := by
    rw [List.length_map]; cases s <;> decide
  have hN : (((suits.filter (fun t => !decide (t = s))).map (fun t => (rankOf v, t)))).Nodup := by
    refine List.Nodup.map ?_ (List.Nodup.filter _ (by decide))
    intro a c h
    exact (Prod.mk.inj h).2
  have h1 := List.length_eq_length_filter_add
    (l := (suits.filter (fun t => !decide (t = s))).map (fun t => (rankOf v, t)))
    (fun c => decide (c ∈ b))
  rw [hA] at h1
  have h2 : (((suits.filter (fun t => !decide (t = s))).map (fun t => (rankOf v, t))).filter
      (fun c => decide (c ∈ b))).length ≤ (values b).count v := by
    rw [Cat.count_values]
    refine ((hN.filter _).subperm ?_).length_le
    intro c hc
    rw [List.mem_filter, decide_eq_true_eq, List.mem_map] at hc
    obtain ⟨⟨t, _, rfl⟩, hb⟩ := hc
    rw [List.mem_filter, beq_iff_eq]
    exact ⟨hb, pips_rankOf hv⟩
  have h3 : 3 = (((suits.filter (fun t => !decide (t = s))).map (fun t => (rankOf v, t))).filter
      (fun c => decide (c ∈ b))).length + (free v s b).length := h1
  omega

/-- A card of a value. -/
theorem one_free {v : Nat} (hv : v ∈ allValues) (s : Suit) {b : List PCard}
    (hc : (values b).count v ≤ 2) : ∃ c : PCard, pips c.1 = v ∧ c.2 ≠ s ∧ c ∉ b := by
  have h1 := free_length hv s b
  obtain ⟨c, hc⟩ := List.exists_mem_of_length_pos (l := free v s b) (by omega)
  exact ⟨c, (mem_free hv).1 hc⟩

/-- Two cards of a value. -/
theorem two_free {v : Nat} (hv : v ∈ allValues) (s : Suit) {b : List PCard}
    (hc : (values b).count v ≤ 1) : ∃ c d : PCard, c ≠ d ∧ pips c.1 = v ∧ c.2 ≠ s ∧ c ∉ b ∧
      pips d.1 = v ∧ d.2 ≠ s ∧ d ∉ b := by
  have h1 := free_length hv s b
  obtain ⟨c, d, l, hl⟩ : ∃ c d l, free v s b = c :: d :: l := by
    match free v s b, h1 with
    | [], h => simp at h; omega
    | [a], h => simp at h; omega
    | a :: c :: l, _ => exact ⟨a, c, l, rfl⟩
  have hn := free_nodup v s b
  rw [hl] at hn
  refine ⟨c, d, ?_, ?_⟩
  · rintro rfl; simp at hn
  · have hc := (mem_free hv).1 (show c ∈ free v s b by rw [hl]; simp)
    have hd := (mem_free hv).1 (show d ∈ free v s b by rw [hl]; simp)
    exact ⟨hc.1, hc.2.1, hc.2.2, hd⟩

/-- A value that is not on the board, and not one of two others. -/
theorem new_value {vs : List Nat} (h : vs.length ≤ 12) : ∃ v ∈ allValues, v ∉ vs := by
  by_contra hc
  have hc' : ∀ v ∈ allValues, v ∈ vs := by
    intro v hv
    by_contra hn
    exact hc ⟨v, hv, hn⟩
  have := (Cat.allValues_nodup.subperm hc').length_le
  have e : allValues.length = 13 := rfl
  omega

/-- Up to two wanted cards can be completed to two. -/
theorem complete {b : List PCard} (h5 : b.length ≤ 5) {m : List PCard} (hn : m.Nodup)
    (h2 : m.length ≤ 2) (hm : ∀ c ∈ m, c ∉ b) (t : Suit) :
    ∃ x y : PCard, x ≠ y ∧ x ∉ b ∧ y ∉ b ∧ (∀ c ∈ m, c = x ∨ c = y) ∧
      (x ∈ m ∨ x.2 = t) ∧ (y ∈ m ∨ y.2 = t) := by
  have fresh : ∀ l : List PCard, l.length ≤ 12 → ∃ c : PCard, c.2 = t ∧ c ∉ l := by
    intro l hl
    obtain ⟨v, hv, hnv⟩ := new_value (vs := values l) (by rw [values, List.length_map]; exact hl)
    refine ⟨(rankOf v, t), rfl, fun hc => hnv (List.mem_map.2 ⟨_, hc, pips_rankOf hv⟩)⟩
  match m, h2 with
  | [], _ =>
    obtain ⟨x, hx, hxb⟩ := fresh b (by omega)
    obtain ⟨y, hy, hyb⟩ := fresh (x :: b) (by rw [List.length_cons]; omega)
    rw [List.mem_cons, not_or] at hyb
    exact ⟨x, y, fun e => hyb.1 e.symm, hxb, hyb.2, by simp, .inr hx, .inr hy⟩
  | [x], _ =>
    obtain ⟨y, hy, hyb⟩ := fresh (x :: b) (by rw [List.length_cons]; omega)
    rw [List.mem_cons, not_or] at hyb
    exact ⟨x, y, fun e => hyb.1 e.symm, hm x (by simp), hyb.2, by simp, .inl (by simp), .inr hy⟩
  | [x, y], _ =>
    refine ⟨x, y, ?_, hm x (by simp), hm y (by simp), by simp, .inl (by simp), .inl (by simp)⟩
    rintro rfl
    simp at hn
  | _ :: _ :: _ :: _, h => simp at h

/-! ## Towards a straight -/

theorem three_key (h : List PCard) (t : Nat) : [t, t - 1, t - 2, t - 3, t - 4].countP (plays (values h)) =
    (Cat.run t).countP (fun v => decide (v ∈ values h)) := by
  rw [Cat.run, List.countP_map]
  refine List.countP_congr ?_
  intro v _
  simp only [plays, Bool.or_eq_true, Bool.and_eq_true, List.contains_iff_mem, beq_iff_eq,
    Function.comp, decide_eq_true_eq]
  split
  · rename_i e
    subst e
    have := Cat.one_not_value h
    tauto
  · tauto

/-- Three of the five values of a straight. -/
theorem three_iff {h : List PCard} : threeToStraight (values h) = true ↔
    ∃ t ∈ straightTops, 3 ≤ (Cat.run t).countP (fun v => decide (v ∈ values h)) := by
  simp only [threeToStraight, List.any_eq_true, decide_eq_true_eq, three_key]

theorem countP_two {L : List Nat} (hL : L.Nodup) (p q : Nat) (vs : List Nat) :
    L.countP (fun v => decide (v ∈ p :: q :: vs)) ≤ L.countP (fun v => decide (v ∈ vs)) + 2 := by
  have h1 : L.countP (fun v => decide (v ∈ p :: q :: vs)) ≤
      L.countP (fun v => decide (v ∈ vs)) + (L.count p + L.count q) := by
    clear hL
    induction L with
    | nil => simp
    | cons a L ih =>
      simp only [List.countP_cons, List.count_cons, beq_iff_eq, decide_eq_true_eq,
        List.mem_cons] at ih ⊢
      by_cases h1 : a = p <;> by_cases h2 : a = q <;> by_cases h3 : a ∈ vs <;>
        simp only [h1, h2, h3, or_true, true_or, or_self, if_true, if_false] <;>
        (try split) <;> omega
  have h2 := List.nodup_iff_count_le_one.1 hL p
  have h3 := List.nodup_iff_count_le_one.1 hL q
  omega

/-- Of a straight with two more cards three values were there. -/
theorem three_of_top {x y : PCard} {g h : List PCard} (hg : ∀ c ∈ h, c = x ∨ c = y ∨ c ∈ g) {t : Nat}
    (ht : t ∈ straightTops) (hv : ∀ v ∈ Cat.run t, v ∈ values h) :
    3 ≤ (Cat.run t).countP (fun v => decide (v ∈ values g)) := by
  have h1 : (Cat.run t).countP (fun v => decide (v ∈ pips x.1 :: pips y.1 :: values g)) = 5 := by
    rw [← (Cat.run_props t ht).2.1, List.countP_eq_length]
    intro v hm
    obtain ⟨c, hc, rfl⟩ := List.mem_map.1 (hv v hm)
    rw [decide_eq_true_eq, List.mem_cons, List.mem_cons]
    rcases hg c hc with rfl | rfl | hc
    · exact .inl rfl
    · exact .inr (.inl rfl)
    · exact .inr (.inr (List.mem_map.2 ⟨c, hc, rfl⟩))
  have h2 := countP_two (Cat.run_props t ht).1 (pips x.1) (pips y.1) (values g)
  omega

/-- A straight with two more cards was three to a straight. -/
theorem three_of_straight {x y : PCard} {g h : List PCard} (hg : ∀ c ∈ h, c = x ∨ c = y ∨ c ∈ g)
    (hs : (straightTop (values h)).isSome = true) : threeToStraight (values g) = true := by
  obtain ⟨t, ht, hv⟩ := straight_iff.1 hs
  exact three_iff.2 ⟨t, ht, three_of_top hg ht hv⟩

theorem run_values : ∀ t ∈ straightTops, ∀ v ∈ Cat.run t, v ∈ allValues := by decide

/-- The cards of suit `s` that are missing to the straight to `t`. -/
theorem missing_top {g : List PCard} {t : Nat} (ht : t ∈ straightTops)
    (h3 : 3 ≤ (Cat.run t).countP (fun v => decide (v ∈ values g))) (s : Suit) :
    ∃ m : List PCard, m.Nodup ∧ m.length ≤ 2 ∧ (∀ c ∈ m, c.2 = s ∧ pips c.1 ∉ values g) ∧
      ∀ h : List PCard, (∀ c ∈ g, c ∈ h) → (∀ c ∈ m, c ∈ h) → ∀ v ∈ Cat.run t, v ∈ values h := by
  obtain ⟨hn, hl, _⟩ := Cat.run_props t ht
  refine ⟨((Cat.run t).filter (fun v => !decide (v ∈ values g))).map (fun v => (rankOf v, s)),
    ?_, ?_, ?_, ?_⟩
  · refine List.Nodup.map_on ?_ (hn.filter _)
    intro a ha c hc e
    have h1 := pips_rankOf (run_values t ht a (List.mem_filter.1 ha).1)
    have h2 := pips_rankOf (run_values t ht c (List.mem_filter.1 hc).1)
    rw [← h1, ← h2, (Prod.mk.inj e).1]
  · have := List.length_eq_length_filter_add (l := Cat.run t) (fun v => decide (v ∈ values g))
    rw [hl] at this
    rw [List.countP_eq_length_filter] at h3
    rw [List.length_map]
    omega
  · intro c hc
    obtain ⟨v, hv, rfl⟩ := List.mem_map.1 hc
    rw [List.mem_filter] at hv
    refine ⟨rfl, ?_⟩
    rw [pips_rankOf (run_values t ht v hv.1)]
    simpa using hv.2
  · intro h h1 h2 v hv
    by_cases e : v ∈ values g
    · obtain ⟨c, hc, rfl⟩ := List.mem_map.1 e
      exact List.mem_map.2 ⟨c, h1 c hc, rfl⟩
    · refine List.mem_map.2 ⟨(rankOf v, s), h2 _ ?_, pips_rankOf (run_values t ht v hv)⟩
      exact List.mem_map.2 ⟨v, List.mem_filter.2 ⟨hv, by simpa using e⟩, rfl⟩

/-- The cards of suit `s` that are missing to the straight. -/
theorem missing {g : List PCard} (hg : threeToStraight (values g) = true) (s : Suit) :
    ∃ m : List PCard, m.Nodup ∧ m.length ≤ 2 ∧ (∀ c ∈ m, c.2 = s ∧ pips c.1 ∉ values g) ∧
      ∀ h : List PCard, (∀ c ∈ g, c ∈ h) → (∀ c ∈ m, c ∈ h) →
        (straightTop (values h)).isSome = true := by
  obtain ⟨t, ht, h3⟩ := three_iff.1 hg
  obtain ⟨m, h4, h5, h6, h7⟩ := missing_top ht h3 s
  exact ⟨m, h4, h5, h6, fun h h1 h2 => straight_iff.2 ⟨t, ht, h7 h h1 h2⟩⟩

/-! ## What can be made -/

/-- Some two further cards make a hand of category `k`. -/
def Own (b : List PCard) (k : Nat) : Prop :=
  ∃ x y : PCard, (x :: y :: b).Nodup ∧ category (x :: y :: b) = k

theorem cat_iff (h : List PCard) :
    (category h = 8 ↔ hasStraightFlush h = true) ∧
    (category h = 7 ↔ hasStraightFlush h = false ∧ hasQuads h = true) ∧
    (category h = 6 ↔ hasStraightFlush h = false ∧ hasQuads h = false ∧ hasFullHouse h = true) ∧
    (category h = 5 ↔ hasStraightFlush h = false ∧ hasQuads h = false ∧ hasFullHouse h = false ∧
      hasFlush h = true) ∧
    (category h = 4 ↔ hasStraightFlush h = false ∧ hasQuads h = false ∧ hasFullHouse h = false ∧
      hasFlush h = false ∧ hasStraight h = true) ∧
    (category h = 3 ↔ hasStraightFlush h = false ∧ hasQuads h = false ∧ hasFullHouse h = false ∧
      hasFlush h = false ∧ hasStraight h = false ∧ hasTrips h = true) ∧
    (category h = 2 ↔ hasStraightFlush h = false ∧ hasQuads h = false ∧ hasFullHouse h = false ∧
      hasFlush h = false ∧ hasStraight h = false ∧ hasTrips h = false ∧ hasTwoPair h = true) ∧
    (category h = 1 ↔ hasStraightFlush h = false ∧ hasQuads h = false ∧ hasFullHouse h = false ∧
      hasFlush h = false ∧ hasStraight h = false ∧ hasTrips h = false ∧ hasTwoPair h = false ∧
      hasPair h = true) ∧
    (category h = 0 ↔ hasStraightFlush h = false ∧ hasQuads h = false ∧ hasFullHouse h = false ∧
      hasFlush h = false ∧ hasStraight h = false ∧ hasTrips h = false ∧ hasTwoPair h = false ∧
      hasPair h = false) := by
  unfold category
  repeat' split
  all_goals simp_all

theorem nodup_two {b : List PCard} {x y : PCard} (hn : b.Nodup) (h : x ≠ y) (hx : x ∉ b) (hy : y ∉ b) :
    (x :: y :: b).Nodup := by
  rw [List.nodup_cons, List.nodup_cons, List.mem_cons, not_or]
  exact ⟨⟨h, hx⟩, hy, hn⟩

theorem not_has {k : Nat} {x y : PCard} {b : List PCard} (hn : (x :: y :: b).Nodup)
    (h : Cat.has k (x :: y :: b) = false) : Cat.has k b = false := by
  by_contra hb
  rw [Bool.not_eq_false] at hb
  rw [Cat.has_mono (hn.sublist (by simp)) (fun c hc => by simp [hc]) hb] at h
  exact absurd h (by decide)

theorem false_of {p : Bool} (h : p = true → False) : p = false := by
  cases p
  · rfl
  · exact (h rfl).elim

theorem no_sf {h : List PCard} (hf : hasFlush h = false ∨ hasStraight h = false) :
    hasStraightFlush h = false := by
  refine false_of fun hs => ?_
  rcases hf with hf | hf
  · rw [flush_of_sf hs] at hf; exact absurd hf (by decide)
  · rw [straight_of_sf hs] at hf; exact absurd hf (by decide)

/-- Four of a kind, or a full house, of seven cards leave no room for a straight flush. -/
theorem no_sf_groups {h : List PCard} (h7 : h.length ≤ 7)
    (hg : hasQuads h = true ∨ hasFullHouse h = true) : hasStraightFlush h = false := by
  refine false_of fun hs => ?_
  have := spread_straight (straight_of_sf hs) h7
  rw [this.1, this.2] at hg
  simp at hg

theorem own_sub {x y : PCard} {b : List PCard} (s : Suit) :
    ∀ c ∈ ofSuit s (x :: y :: b), c = x ∨ c = y ∨ c ∈ ofSuit s b := by
  intro c hc
  rw [Cat.mem_ofSuit, List.mem_cons, List.mem_cons] at hc
  rcases hc with ⟨h | h | h, hs⟩
  · exact .inl h
  · exact .inr (.inl h)
  · exact .inr (.inr (Cat.mem_ofSuit.2 ⟨h, hs⟩))

theorem own8 {b : List PCard} (hn : b.Nodup) (h5 : b.length ≤ 5) : Own b 8 ↔ allows b 8 = true := by
  simp only [allows, List.any_eq_true]
  constructor
  · rintro ⟨x, y, _, hc⟩
    obtain ⟨s, hs⟩ := sf_iff.1 ((cat_iff _).1.1 hc)
    exact ⟨s, Cat.suits_all s, three_of_straight (own_sub s) hs⟩
  · rintro ⟨s, _, hs⟩
    obtain ⟨m, hm, h2, hmem, hst⟩ := missing hs s
    obtain ⟨x, y, hxy, hx, hy, hall, _, _⟩ := complete h5 hm h2 (fun c hc hcb =>
      (hmem c hc).2 (List.mem_map.2 ⟨c, Cat.mem_ofSuit.2 ⟨hcb, (hmem c hc).1⟩, rfl⟩)) s
    refine ⟨x, y, nodup_two hn hxy hx hy, (cat_iff _).1.2 (sf_iff.2 ⟨s, hst _ ?_ ?_⟩)⟩
    · intro c hc
      rw [Cat.mem_ofSuit] at hc ⊢
      exact ⟨by simp [hc.1], hc.2⟩
    · intro c hc
      rw [Cat.mem_ofSuit]
      refine ⟨?_, (hmem c hc).1⟩
      rcases hall c hc with rfl | rfl <;> simp

theorem own7 {b : List PCard} (hn : b.Nodup) (h5 : b.length ≤ 5) : Own b 7 ↔ allows b 7 = true := by
  simp only [allows]
  constructor
  · rintro ⟨x, y, _, hc⟩
    obtain ⟨v, hv⟩ := quads_iff.1 ((cat_iff _).2.1.1 hc).2
    refine pair_iff.2 ⟨v, ?_⟩
    rw [count_two] at hv
    split at hv <;> split at hv <;> omega
  · intro hp
    obtain ⟨v, hv⟩ := pair_iff.1 hp
    have hva := value_of_count (by omega) hv
    -- the other cards of this value
    have hN : (suits.map (fun t => (rankOf v, t))).Nodup := by
      refine List.Nodup.map ?_ (by decide)
      intro a c h
      exact (Prod.mk.inj h).2
    have hle : ((suits.map (fun t => (rankOf v, t))).filter (fun c => !decide (c ∈ b))).length ≤ 2 := by
      have h1 : (suits.map (fun t => (rankOf v, t))).length =
          ((suits.map (fun t => (rankOf v, t))).filter (fun c => decide (c ∈ b))).length +
          ((suits.map (fun t => (rankOf v, t))).filter (fun c => !decide (c ∈ b))).length :=
        List.length_eq_length_filter_add _
      have h2 : (b.filter (fun c => pips c.1 == v)).length ≤
          ((suits.map (fun t => (rankOf v, t))).filter (fun c => decide (c ∈ b))).length := by
        refine ((hn.filter _).subperm ?_).length_le
        intro c hc
        rw [List.mem_filter, beq_iff_eq] at hc
        rw [List.mem_filter, decide_eq_true_eq, List.mem_map]
        refine ⟨⟨c.2, Cat.suits_all _, Prod.ext (pips_inj ?_) rfl⟩, hc.1⟩
        rw [pips_rankOf hva, hc.2]
      rw [Cat.count_values] at hv
      rw [List.length_map] at h1
      have h4 : suits.length = 4 := rfl
      omega
    obtain ⟨x, y, hxy, hx, hy, hall, _, _⟩ := complete h5 (hN.filter _) hle (fun c hc => by
      rw [List.mem_filter] at hc
      simpa using hc.2) .Clubs
    have hd := nodup_two hn hxy hx hy
    have hq : hasQuads (x :: y :: b) = true := by
      refine quads_iff.2 ⟨v, ?_⟩
      rw [Cat.count_values]
      have : (suits.map (fun t => (rankOf v, t))).length ≤
          ((x :: y :: b).filter (fun c => pips c.1 == v)).length := by
        refine (hN.subperm ?_).length_le
        intro c hc
        rw [List.mem_filter, beq_iff_eq]
        constructor
        · by_cases hcb : c ∈ b
          · simp [hcb]
          · rcases hall c (List.mem_filter.2 ⟨hc, by simpa using hcb⟩) with rfl | rfl <;> simp
        · obtain ⟨t, _, rfl⟩ := List.mem_map.1 hc
          exact pips_rankOf hva
      rw [List.length_map] at this
      exact this
    exact ⟨x, y, hd, (cat_iff _).2.1.2 ⟨no_sf_groups (by simp only [List.length_cons]; omega) (.inl hq), hq⟩⟩

theorem own6 {b : List PCard} (hn : b.Nodup) (h3 : 3 ≤ b.length) (h5 : b.length ≤ 5) :
    Own b 6 ↔ allows b 6 = true := by
  simp only [allows, Bool.and_eq_true, Bool.not_eq_true']
  constructor
  · rintro ⟨x, y, hd, hc⟩
    obtain ⟨_, hq, hf⟩ := (cat_iff _).2.2.1.1 hc
    refine ⟨?_, not_has (k := 7) hd hq⟩
    obtain ⟨v, u, hne, hv, hu⟩ := full_iff.1 hf
    rw [count_two] at hv hu
    by_cases h2 : 2 ≤ (values b).count v
    · exact pair_iff.2 ⟨v, h2⟩
    · refine pair_iff.2 ⟨u, ?_⟩
      have h1 : pips x.1 = v := by
        by_contra hx
        rw [if_neg hx] at hv
        split at hv <;> omega
      have h1' : pips y.1 = v := by
        by_contra hx
        rw [if_neg hx] at hv
        split at hv <;> omega
      rw [h1, h1', if_neg hne.symm] at hu
      exact hu
  · rintro ⟨hp, hq⟩
    obtain ⟨v, hv⟩ := pair_iff.1 hp
    have hva := value_of_count (by omega) hv
    have hle : ∀ u, (values b).count u ≤ 3 := by
      intro u
      by_contra h
      rw [quads_iff.2 ⟨u, by omega⟩] at hq
      exact absurd hq (by decide)
    have hlen : (values b).length = b.length := by rw [values, List.length_map]
    by_cases ht : ∃ w, 3 ≤ (values b).count w
    · -- three of a kind on the board: any pair that is not there
      obtain ⟨w, hw⟩ := ht
      obtain ⟨u, hu, hnu⟩ := new_value (vs := values b) (by omega)
      have hu0 : (values b).count u = 0 := List.count_eq_zero.2 hnu
      obtain ⟨x, y, hxy, hx, _, hxb, hy, _, hyb⟩ := two_free hu .Clubs (b := b) (by omega)
      have hd := nodup_two hn hxy hxb hyb
      have hne : u ≠ w := by rintro rfl; omega
      have hf : hasFullHouse (x :: y :: b) = true := by
        refine full_iff.2 ⟨w, u, hne, ?_, ?_⟩
        · rw [count_two]; omega
        · rw [count_two, if_pos hx, if_pos hy]; omega
      have hq' : hasQuads (x :: y :: b) = false := by
        refine false_of fun h => ?_
        obtain ⟨z, hz⟩ := quads_iff.1 h
        rw [count_two, hx, hy] at hz
        have := hle z
        by_cases e : u = z
        · subst e; rw [if_pos rfl] at hz; omega
        · rw [if_neg e] at hz; omega
      exact ⟨x, y, hd, (cat_iff _).2.2.1.2
        ⟨no_sf_groups (by simp only [List.length_cons]; omega) (.inr hf), hq', hf⟩⟩
    · -- a pair and another card: one more of each
      have hle2 : ∀ u, (values b).count u ≤ 2 := by
        intro u
        by_contra h
        exact ht ⟨u, by omega⟩
      obtain ⟨u, hub, hne⟩ : ∃ u ∈ values b, u ≠ v := by
        by_contra h
        have hall : ∀ u ∈ values b, v = u := by
          intro u hu
          by_contra hne
          exact h ⟨u, hu, fun e => hne e.symm⟩
        have := List.count_eq_length.2 hall
        have := hle2 v
        omega
      have hu := values_mem b u hub
      have hu1 := List.count_pos_iff.2 hub
      obtain ⟨x, hx, _, hxb⟩ := one_free hva .Clubs (hle2 v)
      obtain ⟨y, hy, _, hyb⟩ := one_free hu .Clubs (hle2 u)
      have hxy : x ≠ y := by rintro rfl; exact hne (hy.symm.trans hx)
      have hd := nodup_two hn hxy hxb hyb
      have hf : hasFullHouse (x :: y :: b) = true := by
        refine full_iff.2 ⟨v, u, hne, ?_, ?_⟩
        · rw [count_two, if_pos hx]; omega
        · rw [count_two, if_pos hy]; omega
      have hq' : hasQuads (x :: y :: b) = false := by
        refine false_of fun h => ?_
        obtain ⟨z, hz⟩ := quads_iff.1 h
        rw [count_two, hx, hy] at hz
        have := hle2 z
        by_cases e : u = z
        · subst e; rw [if_pos rfl, if_neg hne.symm] at hz; omega
        · rw [if_neg e] at hz; split at hz <;> omega
      exact ⟨x, y, hd, (cat_iff _).2.2.1.2
        ⟨no_sf_groups (by simp only [List.length_cons]; omega) (.inr hf), hq', hf⟩⟩

theorem own5 {b : List PCard} (hn : b.Nodup) (h5 : b.length ≤ 5) : Own b 5 ↔ allows b 5 = true := by
  simp only [allows, Bool.and_eq_true, Bool.not_eq_true', List.any_eq_true, decide_eq_true_eq]
  constructor
  · rintro ⟨x, y, hd, hc⟩
    obtain ⟨h8, _, _, hf⟩ := (cat_iff _).2.2.2.1.1 hc
    refine ⟨?_, not_has (k := 8) hd h8⟩
    obtain ⟨s, hs⟩ := flush_iff.1 hf
    refine ⟨s, Cat.suits_all s, ?_⟩
    rw [suit_two] at hs
    split at hs <;> split at hs <;> omega
  · rintro ⟨⟨s, _, hs⟩, h8⟩
    have hsb : (ofSuit s b).length ≤ 5 := Nat.le_trans (List.length_filter_le _ _) h5
    obtain ⟨p, hp, q, hq, hpq, hpv, hqv, hst⟩ := fillers (vs := values (ofSuit s b))
      (values_mem _) (by rw [values, List.length_map]; exact hsb) (by
        refine false_of fun h => ?_
        rw [sf_iff.2 ⟨s, h⟩] at h8
        exact absurd h8 (by decide))
    have nb : ∀ {v : Nat}, v ∈ allValues → v ∉ values (ofSuit s b) → (rankOf v, s) ∉ b :=
      fun hv hn hc => hn (List.mem_map.2 ⟨_, Cat.mem_ofSuit.2 ⟨hc, rfl⟩, pips_rankOf hv⟩)
    have hne : (rankOf p, s) ≠ (rankOf q, s) := by
      intro e
      apply hpq
      rw [← pips_rankOf hp, ← pips_rankOf hq, (Prod.mk.inj e).1]
    have hd := nodup_two hn hne (nb hp hpv) (nb hq hqv)
    have hf : hasFlush ((rankOf p, s) :: (rankOf q, s) :: b) = true := by
      refine flush_iff.2 ⟨s, ?_⟩
      rw [suit_two, if_pos rfl]
      omega
    obtain ⟨g1, g2⟩ := spread_flush hd hf (by simp only [List.length_cons]; omega)
    refine ⟨_, _, hd, (cat_iff _).2.2.2.1.2 ⟨false_of fun h => ?_, g1, g2, hf⟩⟩
    obtain ⟨t, ht⟩ := sf_iff.1 h
    by_cases e : t = s
    · subst e
      have e2 : values (ofSuit t ((rankOf p, t) :: (rankOf q, t) :: b)) =
          p :: q :: values (ofSuit t b) := by
        simp [ofSuit, values, pips_rankOf hp, pips_rankOf hq]
      rw [e2, hst] at ht
      exact absurd ht (by decide)
    · have h6 := straight_length ht
      rw [suit_two, if_neg (fun h => e h.symm)] at h6
      have h7 := suits_sum b
      cases s <;> cases t <;> first | (exact absurd rfl e) | omega

theorem own4 {b : List PCard} (hn : b.Nodup) (h5 : b.length ≤ 5) : Own b 4 ↔ allows b 4 = true := by
  simp only [allows, Bool.and_eq_true, Bool.not_eq_true']
  constructor
  · rintro ⟨x, y, hd, hc⟩
    obtain ⟨_, _, _, hf, hs⟩ := (cat_iff _).2.2.2.2.1.1 hc
    refine ⟨three_of_straight (x := x) (y := y) ?_ hs, not_has (k := 5) hd hf⟩
    intro c hc
    simpa using hc
  · rintro ⟨hs, hf⟩
    obtain ⟨s, hr⟩ := rare h5
    obtain ⟨t, ht⟩ : ∃ t : Suit, t ≠ s := by
      cases s <;> first | exact ⟨.Clubs, by decide⟩ | exact ⟨.Hearts, by decide⟩
    obtain ⟨m, hm, h2, hmem, hst⟩ := missing hs t
    obtain ⟨x, y, hxy, hx, hy, hall, hx', hy'⟩ := complete h5 hm h2 (fun c hc hcb =>
      (hmem c hc).2 (List.mem_map.2 ⟨c, hcb, rfl⟩)) t
    have hd := nodup_two hn hxy hx hy
    have hsx : x.2 ≠ s := by
      rcases hx' with h | h
      · rw [(hmem x h).1]; exact ht
      · rw [h]; exact ht
    have hsy : y.2 ≠ s := by
      rcases hy' with h | h
      · rw [(hmem y h).1]; exact ht
      · rw [h]; exact ht
    have hf' := no_flush hf hr hsx hsy
    have hs' : hasStraight (x :: y :: b) = true := by
      refine hst _ (fun c hc => by simp [hc]) ?_
      intro c hc
      rcases hall c hc with rfl | rfl <;> simp
    obtain ⟨g1, g2⟩ := spread_straight hs' (by simp only [List.length_cons]; omega)
    exact ⟨x, y, hd, (cat_iff _).2.2.2.2.1.2 ⟨no_sf (.inl hf'), g1, g2, hf', hs'⟩⟩

/-- Two values that are not there, that make no straight. -/
theorem room {b : List PCard} (h5 : b.length ≤ 5) (hs : hasStraight b = false) :
    ∃ p ∈ allValues, ∃ q ∈ allValues, p ≠ q ∧ (values b).count p = 0 ∧ (values b).count q = 0 ∧
      ∀ x y : PCard, (pips x.1 = p ∨ pips x.1 = q ∨ pips x.1 ∈ values b) →
        (pips y.1 = p ∨ pips y.1 = q ∨ pips y.1 ∈ values b) → hasStraight (x :: y :: b) = false := by
  obtain ⟨p, hp, q, hq, hpq, hpv, hqv, hst⟩ := fillers (vs := values b) (values_mem b)
    (by rw [values, List.length_map]; exact h5) hs
  refine ⟨p, hp, q, hq, hpq, List.count_eq_zero.2 hpv, List.count_eq_zero.2 hqv, ?_⟩
  intro x y hx hy
  refine false_of fun h => ?_
  rw [Cat.straight_mono (b := p :: q :: values b) (fun v hv => ?_) h] at hst
  · exact absurd hst (by decide)
  · simp only [values, List.map_cons, List.mem_cons] at hv ⊢
    rcases hv with rfl | rfl | hv
    · exact hx
    · exact hy
    · exact .inr (.inr hv)

theorem no_quads {h : List PCard} (hc : ∀ v, (values h).count v ≤ 3) : hasQuads h = false :=
  false_of fun hq => by
    obtain ⟨v, hv⟩ := quads_iff.1 hq
    have := hc v
    omega

theorem no_trips {h : List PCard} (hc : ∀ v, (values h).count v ≤ 2) :
    hasQuads h = false ∧ hasFullHouse h = false ∧ hasTrips h = false := by
  refine ⟨no_quads fun v => Nat.le_succ_of_le (hc v), false_of fun hq => ?_, false_of fun hq => ?_⟩
  · obtain ⟨v, u, _, hv, _⟩ := full_iff.1 hq
    have := hc v
    omega
  · obtain ⟨v, hv⟩ := trips_iff.1 hq
    have := hc v
    omega

theorem own3 {b : List PCard} (hn : b.Nodup) (h3 : 3 ≤ b.length) (h5 : b.length ≤ 5) :
    Own b 3 ↔ allows b 3 = true := by
  simp only [allows, Bool.and_eq_true, Bool.not_eq_true']
  constructor
  · rintro ⟨x, y, hd, hc⟩
    obtain ⟨_, hq, hfh, hf, hs, ht⟩ := (cat_iff _).2.2.2.2.2.1.1 hc
    refine ⟨⟨⟨not_has (k := 7) hd hq, ?_⟩, not_has (k := 5) hd hf⟩, not_has (k := 4) hd hs⟩
    refine false_of fun h2 => ?_
    obtain ⟨v, u, hne, hv, hu⟩ := twopair_iff.1
      (Cat.has_mono (k := 2) hn (fun c hc => by simp [hc]) h2 : hasTwoPair (x :: y :: b) = true)
    obtain ⟨w, hw⟩ := trips_iff.1 ht
    have : hasFullHouse (x :: y :: b) = true := by
      by_cases e : v = w
      · subst e; exact full_iff.2 ⟨v, u, hne, hw, hu⟩
      · exact full_iff.2 ⟨w, v, e, hw, hv⟩
    rw [this] at hfh
    exact absurd hfh (by decide)
  · rintro ⟨⟨⟨hq, h2⟩, hf⟩, hs⟩
    obtain ⟨s, hr⟩ := rare h5
    obtain ⟨p, hp, q, hq', hpq, hp0, hq0, hroom⟩ := room h5 hs
    have hle : ∀ u, (values b).count u ≤ 3 := by
      intro u
      by_contra h
      rw [quads_iff.2 ⟨u, by omega⟩] at hq
      exact absurd hq (by decide)
    have hone : ∀ u v, u ≠ v → 2 ≤ (values b).count v → (values b).count u ≤ 1 := by
      intro u v hne hv
      by_contra h
      rw [twopair_iff.2 ⟨v, u, hne, hv, by omega⟩] at h2
      exact absurd h2 (by decide)
    -- it is enough to bring one value up to three
    have finish : ∀ x y : PCard, x ≠ y → x ∉ b → y ∉ b → x.2 ≠ s → y.2 ≠ s →
        hasStraight (x :: y :: b) = false → ∀ w, (values (x :: y :: b)).count w = 3 →
        (∀ u, u ≠ w → (values (x :: y :: b)).count u ≤ 1) → Own b 3 := by
      intro x y hxy hxb hyb hxs hys hst w hw hu
      have hf' := no_flush hf hr hxs hys
      refine ⟨x, y, nodup_two hn hxy hxb hyb, (cat_iff _).2.2.2.2.2.1.2
        ⟨no_sf (.inl hf'), no_quads ?_, false_of fun h => ?_, hf', hst, trips_iff.2 ⟨w, by omega⟩⟩⟩
      · intro v
        by_cases e : v = w
        · subst e; omega
        · have := hu v e; omega
      · obtain ⟨v, u, hne, hv, hu'⟩ := full_iff.1 h
        by_cases e : u = w
        · have := hu v (fun h => hne (e.trans h.symm)); omega
        · have := hu u e; omega
    by_cases ht : ∃ w, 2 ≤ (values b).count w
    · obtain ⟨w, hw⟩ := ht
      have hwa := value_of_count (by omega) hw
      have hwp : p ≠ w := by rintro rfl; omega
      have hwq : q ≠ w := by rintro rfl; omega
      obtain ⟨y, hy, hys, hyb⟩ := one_free hp s (b := b) (by omega)
      by_cases hw3 : (values b).count w = 3
      · obtain ⟨x, hx, hxs, hxb⟩ := one_free hq' s (b := b) (by omega)
        refine finish x y (by rintro rfl; exact hpq (hy.symm.trans hx)) hxb hyb hxs hys
          (hroom x y (.inr (.inl hx)) (.inl hy)) w ?_ ?_
        · rw [count_two, hx, hy, if_neg hwp, if_neg hwq]; omega
        · intro u hu
          have := hone u w hu hw
          rw [count_two, hx, hy]
          by_cases e1 : p = u
          · subst e1; rw [if_pos rfl, if_neg hpq.symm]; omega
          · by_cases e2 : q = u
            · subst e2; rw [if_pos rfl, if_neg hpq]; omega
            · rw [if_neg e1, if_neg e2]; omega
      · have hw2 : (values b).count w = 2 := by have := hle w; omega
        obtain ⟨x, hx, hxs, hxb⟩ := one_free hwa s (b := b) (by omega)
        refine finish x y (by rintro rfl; exact hwp (hy.symm.trans hx)) hxb hyb hxs hys
          (hroom x y (.inr (.inr (by rw [hx]; exact List.count_pos_iff.1 (by omega)))) (.inl hy)) w ?_ ?_
        · rw [count_two, hx, hy, if_neg hwp, if_pos rfl]; omega
        · intro u hu
          have := hone u w hu hw
          rw [count_two, hx, hy, if_neg hu.symm]
          by_cases e1 : p = u
          · subst e1; rw [if_pos rfl]; omega
          · rw [if_neg e1]; omega
    · -- no pair: two more of one of the cards
      have hle1 : ∀ u, (values b).count u ≤ 1 := by
        intro u
        by_contra h
        exact ht ⟨u, by omega⟩
      obtain ⟨c, hc⟩ := List.exists_mem_of_length_pos (l := b) (by omega)
      have hwb : pips c.1 ∈ values b := List.mem_map.2 ⟨c, hc, rfl⟩
      have hw1 := List.count_pos_iff.2 hwb
      obtain ⟨x, y, hxy, hx, hxs, hxb, hy, hys, hyb⟩ := two_free (values_mem b _ hwb) s (hle1 (pips c.1))
      refine finish x y hxy hxb hyb hxs hys (hroom x y (.inr (.inr (by rw [hx]; exact hwb)))
        (.inr (.inr (by rw [hy]; exact hwb)))) (pips c.1) ?_ ?_
      · have := hle1 (pips c.1)
        rw [count_two, if_pos hx, if_pos hy]; omega
      · intro u hu
        rw [count_two, hx, hy, if_neg hu.symm]
        exact hle1 u

theorem own2 {b : List PCard} (hn : b.Nodup) (h3 : 3 ≤ b.length) (h5 : b.length ≤ 5) :
    Own b 2 ↔ allows b 2 = true := by
  simp only [allows, Bool.and_eq_true, Bool.not_eq_true']
  constructor
  · rintro ⟨x, y, hd, hc⟩
    obtain ⟨_, _, _, hf, hs, ht, _⟩ := (cat_iff _).2.2.2.2.2.2.1.1 hc
    exact ⟨⟨not_has (k := 3) hd ht, not_has (k := 5) hd hf⟩, not_has (k := 4) hd hs⟩
  · rintro ⟨⟨ht, hf⟩, hs⟩
    obtain ⟨s, hr⟩ := rare h5
    obtain ⟨p, hp, q, hq', hpq, hp0, hq0, hroom⟩ := room h5 hs
    have hle : ∀ u, (values b).count u ≤ 2 := by
      intro u
      by_contra h
      rw [trips_iff.2 ⟨u, by omega⟩] at ht
      exact absurd ht (by decide)
    have finish : ∀ x y : PCard, x ≠ y → x ∉ b → y ∉ b → x.2 ≠ s → y.2 ≠ s →
        hasStraight (x :: y :: b) = false → (∀ u, (values (x :: y :: b)).count u ≤ 2) →
        ∀ v u, u ≠ v → 2 ≤ (values (x :: y :: b)).count v → 2 ≤ (values (x :: y :: b)).count u →
        Own b 2 := by
      intro x y hxy hxb hyb hxs hys hst hall v u hne hv hu
      have hf' := no_flush hf hr hxs hys
      obtain ⟨g1, g2, g3⟩ := no_trips hall
      exact ⟨x, y, nodup_two hn hxy hxb hyb, (cat_iff _).2.2.2.2.2.2.1.2
        ⟨no_sf (.inl hf'), g1, g2, hf', hst, g3, twopair_iff.2 ⟨v, u, hne, hv, hu⟩⟩⟩
    by_cases h2 : ∃ w, 2 ≤ (values b).count w
    · -- a pair on the board: another pair that is not there
      obtain ⟨w, hw⟩ := h2
      have hne : p ≠ w := by rintro rfl; omega
      obtain ⟨x, y, hxy, hx, hxs, hxb, hy, hys, hyb⟩ := two_free hp s (b := b) (by omega)
      refine finish x y hxy hxb hyb hxs hys (hroom x y (.inl hx) (.inl hy)) ?_ w p hne ?_ ?_
      · intro u
        rw [count_two, hx, hy]
        have := hle u
        by_cases e : p = u
        · subst e; rw [if_pos rfl]; omega
        · rw [if_neg e]; omega
      · rw [count_two]; omega
      · rw [count_two, if_pos hx, if_pos hy]; omega
    · -- no pair: one more of each of two of the cards
      have hle1 : ∀ u, (values b).count u ≤ 1 := by
        intro u
        by_contra h
        exact h2 ⟨u, by omega⟩
      obtain ⟨c, d, hcd, hcb, hdb⟩ : ∃ c d : Nat, c ≠ d ∧ c ∈ values b ∧ d ∈ values b := by
        have hnd : (values b).Nodup := List.nodup_iff_count_le_one.2 hle1
        have hl : 3 ≤ (values b).length := by rw [values, List.length_map]; exact h3
        match values b, hnd, hl with
        | c :: d :: _, h, _ =>
          refine ⟨c, d, ?_, by simp, by simp⟩
          rintro rfl
          simp at h
      obtain ⟨x, hx, hxs, hxb⟩ := one_free (values_mem b c hcb) s (b := b) (hle c)
      obtain ⟨y, hy, hys, hyb⟩ := one_free (values_mem b d hdb) s (b := b) (hle d)
      have h1 := List.count_pos_iff.2 hcb
      have h1' := List.count_pos_iff.2 hdb
      refine finish x y (by rintro rfl; exact hcd (hx.symm.trans hy)) hxb hyb hxs hys
        (hroom x y (.inr (.inr (by rw [hx]; exact hcb))) (.inr (.inr (by rw [hy]; exact hdb))))
        ?_ c d hcd.symm ?_ ?_
      · intro u
        rw [count_two, hx, hy]
        have := hle1 u
        by_cases e1 : c = u
        · subst e1; rw [if_pos rfl, if_neg hcd.symm]; omega
        · rw [if_neg e1]; split <;> omega
      · rw [count_two, if_pos hx]; omega
      · rw [count_two, if_pos hy]; omega

theorem own1 {b : List PCard} (hn : b.Nodup) (h5 : b.length ≤ 5) : Own b 1 ↔ allows b 1 = true := by
  simp only [allows, Bool.and_eq_true, Bool.not_eq_true']
  constructor
  · rintro ⟨x, y, hd, hc⟩
    obtain ⟨_, _, _, hf, hs, ht, h2, _⟩ := (cat_iff _).2.2.2.2.2.2.2.1.1 hc
    exact ⟨⟨⟨not_has (k := 3) hd ht, not_has (k := 2) hd h2⟩, not_has (k := 5) hd hf⟩,
      not_has (k := 4) hd hs⟩
  · rintro ⟨⟨⟨ht, h2⟩, hf⟩, hs⟩
    obtain ⟨s, hr⟩ := rare h5
    obtain ⟨p, hp, q, hq', hpq, hp0, hq0, hroom⟩ := room h5 hs
    have hle : ∀ u, (values b).count u ≤ 2 := by
      intro u
      by_contra h
      rw [trips_iff.2 ⟨u, by omega⟩] at ht
      exact absurd ht (by decide)
    have hone : ∀ u v, u ≠ v → 2 ≤ (values b).count v → (values b).count u ≤ 1 := by
      intro u v hne hv
      by_contra h
      rw [twopair_iff.2 ⟨v, u, hne, hv, by omega⟩] at h2
      exact absurd h2 (by decide)
    have finish : ∀ x y : PCard, x ≠ y → x ∉ b → y ∉ b → x.2 ≠ s → y.2 ≠ s →
        hasStraight (x :: y :: b) = false → ∀ w, (values (x :: y :: b)).count w = 2 →
        (∀ u, u ≠ w → (values (x :: y :: b)).count u ≤ 1) → Own b 1 := by
      intro x y hxy hxb hyb hxs hys hst w hw hu
      have hf' := no_flush hf hr hxs hys
      obtain ⟨g1, g2, g3⟩ := no_trips (h := x :: y :: b) (fun v => by
        by_cases e : v = w
        · subst e; omega
        · have := hu v e; omega)
      refine ⟨x, y, nodup_two hn hxy hxb hyb, (cat_iff _).2.2.2.2.2.2.2.1.2
        ⟨no_sf (.inl hf'), g1, g2, hf', hst, g3, false_of fun h => ?_, pair_iff.2 ⟨w, by omega⟩⟩⟩
      obtain ⟨v, u, hne, hv, hu'⟩ := twopair_iff.1 h
      by_cases e : u = w
      · have := hu v (fun h => hne (e.trans h.symm)); omega
      · have := hu u e; omega
    by_cases hw : ∃ w, 2 ≤ (values b).count w
    · obtain ⟨w, hw⟩ := hw
      have hwp : p ≠ w := by rintro rfl; omega
      have hwq : q ≠ w := by rintro rfl; omega
      have := hle w
      obtain ⟨x, hx, hxs, hxb⟩ := one_free hq' s (b := b) (by omega)
      obtain ⟨y, hy, hys, hyb⟩ := one_free hp s (b := b) (by omega)
      refine finish x y (by rintro rfl; exact hpq (hy.symm.trans hx)) hxb hyb hxs hys
        (hroom x y (.inr (.inl hx)) (.inl hy)) w ?_ ?_
      · rw [count_two, hx, hy, if_neg hwp, if_neg hwq]; omega
      · intro u hu
        have := hone u w hu hw
        rw [count_two, hx, hy]
        by_cases e1 : p = u
        · subst e1; rw [if_pos rfl, if_neg hpq.symm]; omega
        · by_cases e2 : q = u
          · subst e2; rw [if_pos rfl, if_neg hpq]; omega
          · rw [if_neg e1, if_neg e2]; omega
    · have hle1 : ∀ u, (values b).count u ≤ 1 := by
        intro u
        by_contra h
        exact hw ⟨u, by omega⟩
      obtain ⟨x, y, hxy, hx, hxs, hxb, hy, hys, hyb⟩ := two_free hp s (b := b) (by omega)
      refine finish x y hxy hxb hyb hxs hys (hroom x y (.inl hx) (.inl hy)) p ?_ ?_
      · rw [count_two, if_pos hx, if_pos hy]; omega
      · intro u hu
        rw [count_two, hx, hy, if_neg hu.symm]
        exact hle1 u

theorem own0 {b : List PCard} (hn : b.Nodup) (h5 : b.length ≤ 5) : Own b 0 ↔ allows b 0 = true := by
  simp only [allows, Bool.and_eq_true, Bool.not_eq_true']
  constructor
  · rintro ⟨x, y, hd, hc⟩
    obtain ⟨_, _, _, hf, hs, _, _, hp⟩ := (cat_iff _).2.2.2.2.2.2.2.2.1 hc
    exact ⟨⟨not_has (k := 1) hd hp, not_has (k := 5) hd hf⟩, not_has (k := 4) hd hs⟩
  · rintro ⟨⟨hpair, hf⟩, hs⟩
    obtain ⟨s, hr⟩ := rare h5
    obtain ⟨p, hp, q, hq', hpq, hp0, hq0, hroom⟩ := room h5 hs
    have hle1 : ∀ u, (values b).count u ≤ 1 := by
      intro u
      by_contra h
      rw [pair_iff.2 ⟨u, by omega⟩] at hpair
      exact absurd hpair (by decide)
    obtain ⟨x, hx, hxs, hxb⟩ := one_free hq' s (b := b) (by omega)
    obtain ⟨y, hy, hys, hyb⟩ := one_free hp s (b := b) (by omega)
    have hall : ∀ u, (values (x :: y :: b)).count u ≤ 1 := by
      intro u
      have := hle1 u
      rw [count_two, hx, hy]
      by_cases e1 : p = u
      · subst e1; rw [if_pos rfl, if_neg hpq.symm]; omega
      · by_cases e2 : q = u
        · subst e2; rw [if_pos rfl, if_neg hpq]; omega
        · rw [if_neg e1, if_neg e2]; omega
    have hf' := no_flush hf hr hxs hys
    obtain ⟨g1, g2, g3⟩ := no_trips (fun u => Nat.le_succ_of_le (hall u))
    refine ⟨x, y, nodup_two hn (by rintro rfl; exact hpq (hy.symm.trans hx)) hxb hyb,
      (cat_iff _).2.2.2.2.2.2.2.2.2 ⟨no_sf (.inl hf'), g1, g2, hf',
        hroom x y (.inr (.inl hx)) (.inl hy), g3, false_of fun h => ?_, false_of fun h => ?_⟩⟩
    · obtain ⟨v, u, _, hv, _⟩ := twopair_iff.1 h
      have := hall v
      omega
    · obtain ⟨v, hv⟩ := pair_iff.1 h
      have := hall v
      omega

end Board
end Poker
