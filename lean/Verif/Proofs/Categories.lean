import Verif.Proofs.Witness
import Mathlib.Tactic.IntervalCases
import Mathlib.Tactic.Push
import Verif.Spec.Categories

/-! # Categories of hands of any size (helper lemmas) -/

namespace Poker
open Rules Tab

namespace Cat

/-- The conditions by category number. -/
def has (k : Nat) (h : List PCard) : Bool :=
  match k with
  | 8 => hasStraightFlush h
  | 7 => hasQuads h
  | 6 => hasFullHouse h
  | 5 => hasFlush h
  | 4 => hasStraight h
  | 3 => hasTrips h
  | 2 => hasTwoPair h
  | 1 => hasPair h
  | _ => true

theorem category_le (h : List PCard) : category h ≤ 8 := by
  unfold category
  repeat' split
  all_goals decide

theorem has_category (h : List PCard) : has (category h) h = true := by
  unfold category
  repeat' split
  all_goals first | rfl | assumption

theorem le_category {k : Nat} {h : List PCard} (hk : k ≤ 8) (hh : has k h = true) :
    k ≤ category h := by
  unfold category
  repeat' split
  all_goals
    interval_cases k <;> first | decide | (exfalso; simp_all [has])

/-! ## Monotonicity -/

theorem values_subperm {s h : List PCard} (hs : s.Nodup) (hm : ∀ c ∈ s, c ∈ h) :
    (values s).Subperm (values h) := by
  obtain ⟨l, hp, hl⟩ := hs.subperm hm
  exact ⟨values l, hp.map _, hl.map _⟩

theorem ofSuit_sub {s h : List PCard} (hs : s.Nodup) (hm : ∀ c ∈ s, c ∈ h) (t : Suit) :
    (ofSuit t s).Nodup ∧ ∀ c ∈ ofSuit t s, c ∈ ofSuit t h := by
  refine ⟨hs.filter _, ?_⟩
  intro c hc
  rw [ofSuit, List.mem_filter] at hc ⊢
  exact ⟨hm c hc.1, hc.2⟩

theorem straight_mono {a b : List Nat} (h : ∀ v ∈ a, v ∈ b) (hs : (straightTop a).isSome = true) :
    (straightTop b).isSome = true := by
  rw [straightTop, List.find?_isSome] at hs ⊢
  obtain ⟨t, ht, hall⟩ := hs
  refine ⟨t, ht, ?_⟩
  rw [List.all_eq_true] at hall ⊢
  intro v hv
  have := hall v hv
  simp only [plays, Bool.or_eq_true, Bool.and_eq_true, List.contains_iff_mem] at this ⊢
  rcases this with h1 | ⟨h1, h2⟩
  · exact .inl (h v h1)
  · exact .inr ⟨h1, h 14 h2⟩

theorem has_mono {k : Nat} {s h : List PCard} (hs : s.Nodup) (hm : ∀ c ∈ s, c ∈ h)
    (hh : has k s = true) : has k h = true := by
  have hc : ∀ v, (values s).count v ≤ (values h).count v :=
    fun v => (values_subperm hs hm).count_le v
  have hmem : ∀ v ∈ values s, v ∈ values h := fun v hv => (values_subperm hs hm).subset hv
  unfold has at hh ⊢
  split
  · simp only [hasStraightFlush, List.any_eq_true] at hh ⊢
    obtain ⟨t, ht, hst⟩ := hh
    obtain ⟨h1, h2⟩ := ofSuit_sub hs hm t
    exact ⟨t, ht, straight_mono (fun v hv => (values_subperm h1 h2).subset hv) hst⟩
  · simp only [hasQuads, List.any_eq_true, decide_eq_true_eq] at hh ⊢
    obtain ⟨v, hv, h4⟩ := hh
    exact ⟨v, hv, Nat.le_trans h4 (hc v)⟩
  · simp only [hasFullHouse, List.any_eq_true, Bool.and_eq_true, decide_eq_true_eq] at hh ⊢
    obtain ⟨v, hv, u, hu, ⟨hne, h3⟩, h2⟩ := hh
    exact ⟨v, hv, u, hu, ⟨hne, Nat.le_trans h3 (hc v)⟩, Nat.le_trans h2 (hc u)⟩
  · simp only [hasFlush, List.any_eq_true, decide_eq_true_eq] at hh ⊢
    obtain ⟨t, ht, h5⟩ := hh
    obtain ⟨h1, h2⟩ := ofSuit_sub hs hm t
    exact ⟨t, ht, Nat.le_trans h5 (h1.subperm h2).length_le⟩
  · exact straight_mono hmem hh
  · simp only [hasTrips, List.any_eq_true, decide_eq_true_eq] at hh ⊢
    obtain ⟨v, hv, h4⟩ := hh
    exact ⟨v, hv, Nat.le_trans h4 (hc v)⟩
  · simp only [hasTwoPair, List.any_eq_true, Bool.and_eq_true, decide_eq_true_eq] at hh ⊢
    obtain ⟨v, hv, u, hu, ⟨hne, h3⟩, h2⟩ := hh
    exact ⟨v, hv, u, hu, ⟨hne, Nat.le_trans h3 (hc v)⟩, Nat.le_trans h2 (hc u)⟩
  · simp only [hasPair, List.any_eq_true, decide_eq_true_eq] at hh ⊢
    obtain ⟨v, hv, h4⟩ := hh
    exact ⟨v, hv, Nat.le_trans h4 (hc v)⟩
  · rfl

/-! ## Few cards suffice -/

/-- `n` cards of value `v`. -/
def some' (n v : Nat) (h : List PCard) : List PCard :=
  (h.filter (fun c => pips c.1 == v)).take n

theorem some_sub {n v : Nat} {h : List PCard} (hn : h.Nodup) :
    (some' n v h).Nodup ∧ ∀ c ∈ some' n v h, c ∈ h ∧ pips c.1 = v := by
  refine ⟨((hn.filter _).sublist (List.take_sublist _ _)), ?_⟩
  intro c hc
  have := (List.take_sublist _ _).subset hc
  rw [List.mem_filter, beq_iff_eq] at this
  exact this

theorem count_values (v : Nat) (h : List PCard) :
    (values h).count v = (h.filter (fun c => pips c.1 == v)).length := by
  rw [values, List.count_eq_countP, List.countP_map, List.countP_eq_length_filter]
  rfl

theorem some_count {n v : Nat} {h : List PCard} (hc : n ≤ (values h).count v) :
    (values (some' n v h)).count v = n ∧ (some' n v h).length = n := by
  rw [count_values] at hc
  have hl : (some' n v h).length = n := by rw [some', List.length_take]; omega
  refine ⟨?_, hl⟩
  rw [count_values, List.filter_eq_self.2, hl]
  intro c hc'
  have := (List.take_sublist _ _).subset hc'
  rw [List.mem_filter] at this
  exact this.2

theorem values_append (a b : List PCard) : values (a ++ b) = values a ++ values b := by
  rw [values, List.map_append]; rfl

/-- A card for each of some distinct values. -/
theorem pick (h : List PCard) : ∀ (L : List Nat), L.Nodup → (∀ v ∈ L, v ∈ values h) →
    ∃ s : List PCard, values s = L ∧ s.Nodup ∧ ∀ c ∈ s, c ∈ h
  | [], _, _ => ⟨[], rfl, List.nodup_nil, by simp⟩
  | v :: L, hn, hm => by
    rw [List.nodup_cons] at hn
    obtain ⟨s, h1, h2, h3⟩ := pick h L hn.2 (fun u hu => hm u (by simp [hu]))
    obtain ⟨c, hc, hv⟩ := List.mem_map.1 (hm v (by simp))
    refine ⟨c :: s, ?_, List.nodup_cons.2 ⟨?_, h2⟩, ?_⟩
    · rw [← h1, ← hv]; rfl
    · intro hcs
      apply hn.1
      rw [← h1, ← hv]
      exact List.mem_map.2 ⟨c, hcs, rfl⟩
    · intro d hd
      rcases List.mem_cons.1 hd with rfl | hd
      · exact hc
      · exact h3 d hd

/-- The values of the straight with a given top, the ace being 14. -/
def run (t : Nat) : List Nat := [t, t - 1, t - 2, t - 3, t - 4].map (fun v => if v = 1 then 14 else v)

theorem run_props : ∀ t ∈ straightTops, (run t).Nodup ∧ (run t).length = 5 ∧
    (straightTop (run t)).isSome = true := by decide

theorem plays_run {vs : List Nat} {t : Nat}
    (h : [t, t - 1, t - 2, t - 3, t - 4].all (plays vs) = true) (h1 : 1 ∉ vs) :
    ∀ v ∈ run t, v ∈ vs := by
  intro v hv
  rw [run, List.mem_map] at hv
  obtain ⟨u, hu, rfl⟩ := hv
  have := List.all_eq_true.1 h u hu
  simp only [plays, Bool.or_eq_true, Bool.and_eq_true, List.contains_iff_mem, beq_iff_eq] at this
  split
  · rename_i e
    subst e
    rcases this with h' | h'
    · exact absurd h' h1
    · exact h'.2
  · rename_i e
    rcases this with h' | h'
    · exact h'
    · exact absurd h'.1 e

theorem one_not_value (h : List PCard) : 1 ∉ values h := by
  intro hm
  have := values_mem h 1 hm
  revert this
  decide

theorem small_straight {h : List PCard} (hs : (straightTop (values h)).isSome = true) :
    ∃ s : List PCard, s.Nodup ∧ (∀ c ∈ s, c ∈ h) ∧ s.length = 5 ∧
      (values s).Nodup ∧ (straightTop (values s)).isSome = true := by
  rw [straightTop, List.find?_isSome] at hs
  obtain ⟨t, ht, hall⟩ := hs
  obtain ⟨h1, h2, h3⟩ := run_props t ht
  obtain ⟨s, hv, hn, hm⟩ := pick h (run t) h1 (plays_run hall (one_not_value h))
  refine ⟨s, hn, hm, ?_, by rw [hv]; exact h1, by rw [hv]; exact h3⟩
  rw [← h2, ← hv, values, List.length_map]

theorem suits_all (s : Suit) : s ∈ suits := by cases s <;> decide

theorem ofSuit_self {s : Suit} {h : List PCard} (hall : ∀ c ∈ h, c.2 = s) : ofSuit s h = h := by
  rw [ofSuit, List.filter_eq_self]
  intro c hc
  rw [beq_iff_eq]
  exact hall c hc

theorem mem_ofSuit {s : Suit} {h : List PCard} {c : PCard} : c ∈ ofSuit s h ↔ c ∈ h ∧ c.2 = s := by
  rw [ofSuit, List.mem_filter, beq_iff_eq]

theorem two_groups {m n u v : Nat} {h : List PCard} (hn : h.Nodup) (hne : u ≠ v)
    (hm : m ≤ (values h).count v) (hk : n ≤ (values h).count u) :
    ∃ s : List PCard, s.Nodup ∧ (∀ c ∈ s, c ∈ h) ∧ s.length = m + n ∧
      m ≤ (values s).count v ∧ n ≤ (values s).count u := by
  obtain ⟨a1, a2⟩ := some_sub (n := m) (v := v) hn
  obtain ⟨b1, b2⟩ := some_sub (n := n) (v := u) hn
  obtain ⟨a3, a4⟩ := some_count hm
  obtain ⟨b3, b4⟩ := some_count hk
  refine ⟨some' m v h ++ some' n u h, ?_, ?_, ?_, ?_, ?_⟩
  · rw [List.nodup_append]
    refine ⟨a1, b1, ?_⟩
    intro c hc d hd e
    have h1 := (a2 c hc).2
    have h2 := (b2 d hd).2
    rw [e] at h1
    exact hne (h2.symm.trans h1)
  · intro c hc
    rcases List.mem_append.1 hc with hc | hc
    · exact (a2 c hc).1
    · exact (b2 c hc).1
  · rw [List.length_append, a4, b4]
  · rw [values_append, List.count_append, a3]; omega
  · rw [values_append, List.count_append, b3]; omega

theorem one_group {m v : Nat} {h : List PCard} (hn : h.Nodup)
    (hm : m ≤ (values h).count v) :
    ∃ s : List PCard, s.Nodup ∧ (∀ c ∈ s, c ∈ h) ∧ s.length = m ∧ m ≤ (values s).count v := by
  obtain ⟨a1, a2⟩ := some_sub (n := m) (v := v) hn
  obtain ⟨a3, a4⟩ := some_count hm
  exact ⟨some' m v h, a1, fun c hc => (a2 c hc).1, a4, Nat.le_of_eq a3.symm⟩

theorem has_small {k : Nat} {h : List PCard} (hn : h.Nodup) (hh : has k h = true) :
    ∃ s : List PCard, s.Nodup ∧ (∀ c ∈ s, c ∈ h) ∧ s.length ≤ 5 ∧ has k s = true := by
  unfold has at hh
  split at hh
  · simp only [hasStraightFlush, List.any_eq_true] at hh
    obtain ⟨t, ht, hst⟩ := hh
    obtain ⟨s, h1, h2, h3, h4, h5⟩ := small_straight hst
    refine ⟨s, h1, fun c hc => (mem_ofSuit.1 (h2 c hc)).1, by omega, ?_⟩
    simp only [has, hasStraightFlush, List.any_eq_true]
    exact ⟨t, ht, by rw [ofSuit_self (fun c hc => (mem_ofSuit.1 (h2 c hc)).2)]; exact h5⟩
  · simp only [hasQuads, List.any_eq_true, decide_eq_true_eq] at hh
    obtain ⟨v, hv, h4⟩ := hh
    obtain ⟨s, s1, s2, s3, s4⟩ := one_group hn h4
    refine ⟨s, s1, s2, by omega, ?_⟩
    simp only [has, hasQuads, List.any_eq_true, decide_eq_true_eq]
    exact ⟨v, hv, s4⟩
  · simp only [hasFullHouse, List.any_eq_true, Bool.and_eq_true, decide_eq_true_eq] at hh
    obtain ⟨v, hv, u, hu, ⟨hne, h3⟩, h2⟩ := hh
    obtain ⟨s, s1, s2, s3, s4, s5⟩ := two_groups hn hne h3 h2
    refine ⟨s, s1, s2, by omega, ?_⟩
    simp only [has, hasFullHouse, List.any_eq_true, Bool.and_eq_true, decide_eq_true_eq]
    exact ⟨v, hv, u, hu, ⟨hne, s4⟩, s5⟩
  · simp only [hasFlush, List.any_eq_true, decide_eq_true_eq] at hh
    obtain ⟨t, ht, h5⟩ := hh
    have hsub : ∀ c ∈ (ofSuit t h).take 5, c ∈ h ∧ c.2 = t := fun c hc =>
      mem_ofSuit.1 ((List.take_sublist _ _).subset hc)
    refine ⟨(ofSuit t h).take 5, (hn.filter _).sublist (List.take_sublist _ _),
      fun c hc => (hsub c hc).1, by rw [List.length_take]; omega, ?_⟩
    simp only [has, hasFlush, List.any_eq_true, decide_eq_true_eq]
    refine ⟨t, ht, ?_⟩
    rw [ofSuit_self (fun c hc => (hsub c hc).2), List.length_take]
    omega
  · obtain ⟨s, h1, h2, h3, h4, h5⟩ := small_straight hh
    exact ⟨s, h1, h2, by omega, h5⟩
  · simp only [hasTrips, List.any_eq_true, decide_eq_true_eq] at hh
    obtain ⟨v, hv, h4⟩ := hh
    obtain ⟨s, s1, s2, s3, s4⟩ := one_group hn h4
    refine ⟨s, s1, s2, by omega, ?_⟩
    simp only [has, hasTrips, List.any_eq_true, decide_eq_true_eq]
    exact ⟨v, hv, s4⟩
  · simp only [hasTwoPair, List.any_eq_true, Bool.and_eq_true, decide_eq_true_eq] at hh
    obtain ⟨v, hv, u, hu, ⟨hne, h3⟩, h2⟩ := hh
    obtain ⟨s, s1, s2, s3, s4, s5⟩ := two_groups hn hne h3 h2
    refine ⟨s, s1, s2, by omega, ?_⟩
    simp only [has, hasTwoPair, List.any_eq_true, Bool.and_eq_true, decide_eq_true_eq]
    exact ⟨v, hv, u, hu, ⟨hne, s4⟩, s5⟩
  · simp only [hasPair, List.any_eq_true, decide_eq_true_eq] at hh
    obtain ⟨v, hv, h4⟩ := hh
    obtain ⟨s, s1, s2, s3, s4⟩ := one_group hn h4
    refine ⟨s, s1, s2, by omega, ?_⟩
    simp only [has, hasPair, List.any_eq_true, decide_eq_true_eq]
    exact ⟨v, hv, s4⟩
  · refine ⟨[], List.nodup_nil, by simp, by simp, ?_⟩
    unfold has
    split
    all_goals first | rfl | contradiction

theorem extend {s h : List PCard} (hn : h.Nodup) (hs : s.Nodup) (hm : ∀ c ∈ s, c ∈ h)
    (hl : s.length ≤ 5) (h5 : 5 ≤ h.length) : ∃ d, FiveOf d h ∧ ∀ c ∈ s, c ∈ d := by
  have hp : (s ++ h.diff s).Perm h := by
    refine List.subperm_append_diff_self_of_count_le ?_
    intro x hx
    exact (hs.subperm hm).count_le x
  have hnd : (s ++ h.diff s).Nodup := hp.nodup_iff.2 hn
  have hlen := hp.length_eq
  rw [List.length_append] at hlen
  refine ⟨s ++ (h.diff s).take (5 - s.length), ⟨?_, ?_, ?_⟩, fun c hc => List.mem_append_left _ hc⟩
  · exact hnd.sublist ((List.Sublist.refl s).append (List.take_sublist _ _))
  · rw [List.length_append, List.length_take]; omega
  · intro c hc
    rw [← hp.mem_iff]
    exact ((List.Sublist.refl s).append (List.take_sublist _ _)).subset hc

/-! ## Five cards -/

/-- The category by flushness and values. -/
def catV (fl : Bool) (vs : List Nat) : Nat :=
  if fl && (straightTop vs).isSome then 8
  else if allValues.any (fun v => decide (4 ≤ vs.count v)) then 7
  else if allValues.any (fun v => allValues.any (fun u =>
    decide (u ≠ v) && decide (3 ≤ vs.count v) && decide (2 ≤ vs.count u))) then 6
  else if fl then 5
  else if (straightTop vs).isSome then 4
  else if allValues.any (fun v => decide (3 ≤ vs.count v)) then 3
  else if allValues.any (fun v => allValues.any (fun u =>
    decide (u ≠ v) && decide (2 ≤ vs.count v) && decide (2 ≤ vs.count u))) then 2
  else if allValues.any (fun v => decide (2 ≤ vs.count v)) then 1
  else 0

/-- How often each value occurs. -/
def tally (vs : List Nat) : List Nat := allValues.map (fun v => vs.count v)

/-- The category by flushness, straightness and the tally. -/
def catT (fl st : Bool) (ns : List Nat) : Nat :=
  let n2 := ns.countP (Nat.ble 2)
  let n3 := ns.countP (Nat.ble 3)
  let n4 := ns.countP (Nat.ble 4)
  bif fl && st then 8
  else bif Nat.ble 1 n4 then 7
  else bif Nat.ble 1 n3 && Nat.ble 2 n2 then 6
  else bif fl then 5
  else bif st then 4
  else bif Nat.ble 1 n3 then 3
  else bif Nat.ble 2 n2 then 2
  else bif Nat.ble 1 n2 then 1
  else 0

theorem any_tally (n : Nat) (vs : List Nat) :
    allValues.any (fun v => decide (n ≤ vs.count v)) = Nat.ble 1 ((tally vs).countP (Nat.ble n)) := by
  rw [Bool.eq_iff_iff, Nat.ble_eq, Nat.one_le_iff_ne_zero, ← Nat.pos_iff_ne_zero, List.countP_pos_iff]
  simp only [List.any_eq_true, decide_eq_true_eq, tally, List.mem_map, Nat.ble_eq]
  constructor
  · rintro ⟨v, hv, h⟩
    exact ⟨_, ⟨v, hv, rfl⟩, h⟩
  · rintro ⟨_, ⟨v, hv, rfl⟩, h⟩
    exact ⟨v, hv, h⟩

theorem allValues_nodup : allValues.Nodup := by decide

theorem two_tally (n : Nat) (hn : 2 ≤ n) (vs : List Nat) :
    allValues.any (fun v => allValues.any (fun u =>
      decide (u ≠ v) && decide (n ≤ vs.count v) && decide (2 ≤ vs.count u)))
    = (Nat.ble 1 ((tally vs).countP (Nat.ble n)) && Nat.ble 2 ((tally vs).countP (Nat.ble 2))) := by
  rw [← any_tally, Bool.eq_iff_iff, Bool.and_eq_true, Nat.ble_eq]
  simp only [List.any_eq_true, Bool.and_eq_true, decide_eq_true_eq]
  have hc : (tally vs).countP (Nat.ble 2)
      = (allValues.filter (fun v => decide (2 ≤ vs.count v))).length := by
    rw [tally, List.countP_map, List.countP_eq_length_filter]
    congr 1
    refine List.filter_congr ?_
    intro v _
    rw [Bool.eq_iff_iff]
    simp
  rw [hc]
  have hnd : (allValues.filter (fun v => decide (2 ≤ vs.count v))).Nodup := allValues_nodup.filter _
  constructor
  · rintro ⟨v, hv, u, hu, ⟨hne, h3⟩, h2⟩
    refine ⟨⟨v, hv, h3⟩, ?_⟩
    have hp : [u, v].Nodup := by simp [hne]
    have : [u, v] ⊆ allValues.filter (fun v => decide (2 ≤ vs.count v)) := by
      intro x hx
      simp only [List.mem_cons, List.not_mem_nil, or_false] at hx
      rw [List.mem_filter, decide_eq_true_eq]
      rcases hx with rfl | rfl
      · exact ⟨hu, h2⟩
      · exact ⟨hv, by omega⟩
    exact (hp.subperm this).length_le
  · rintro ⟨⟨v, hv, h3⟩, h2⟩
    have hex : ∃ u ∈ allValues.filter (fun v => decide (2 ≤ vs.count v)), u ≠ v := by
      by_contra hno
      push Not at hno
      have hsub : allValues.filter (fun v => decide (2 ≤ vs.count v)) ⊆ [v] := by
        intro x hx
        rw [hno x hx]
        simp
      have := (hnd.subperm hsub).length_le
      simp only [List.length_singleton] at this
      omega
    obtain ⟨u, hu, hne⟩ := hex
    rw [List.mem_filter, decide_eq_true_eq] at hu
    exact ⟨v, hv, u, hu.1, ⟨hne, h3⟩, hu.2⟩

theorem catV_tally (fl : Bool) (vs : List Nat) :
    catV fl vs = catT fl (straightTop vs).isSome (tally vs) := by
  unfold catV catT
  rw [any_tally, any_tally, any_tally, two_tally 3 (by decide), two_tally 2 (by decide)]
  have h21 : (Nat.ble 1 ((tally vs).countP (Nat.ble 2)) && Nat.ble 2 ((tally vs).countP (Nat.ble 2)))
      = Nat.ble 2 ((tally vs).countP (Nat.ble 2)) := by
    rw [Bool.eq_iff_iff, Bool.and_eq_true, Nat.ble_eq, Nat.ble_eq]
    omega
  rw [h21]
  simp only [Bool.cond_eq_ite]

def checkSeg (s : Kinds.Segment) (st : Bool) : Bool :=
  s.seg.all (fun c => Nat.beq (catT s.fl st (tally c)) s.cat)

section
set_option maxRecDepth 100000
theorem check_1 : checkSeg Kinds.sStraightFlush true = true := by decide +kernel
theorem check_2 : checkSeg Kinds.sQuads true = true := by decide +kernel
theorem check_3 : checkSeg Kinds.sQuads false = true := by decide +kernel
theorem check_4 : checkSeg Kinds.sFullHouse true = true := by decide +kernel
theorem check_5 : checkSeg Kinds.sFullHouse false = true := by decide +kernel
theorem check_6 : checkSeg Kinds.sFlush false = true := by decide +kernel
theorem check_7 : checkSeg Kinds.sStraight true = true := by decide +kernel
theorem check_8 : checkSeg Kinds.sTrips false = true := by decide +kernel
theorem check_9 : checkSeg Kinds.sTwoPair false = true := by decide +kernel
theorem check_10 : checkSeg Kinds.sPair false = true := by decide +kernel
theorem check_11 : checkSeg Kinds.sHigh false = true := by decide +kernel
end

theorem of_check {s : Kinds.Segment} {st : Bool} (h : checkSeg s st = true) {c : List Nat}
    (hc : c ∈ s.seg) (hs : (straightTop c).isSome = st) : catV s.fl c = s.cat := by
  have := List.all_eq_true.1 h c hc
  rw [catV_tally, hs]
  exact Nat.eq_of_beq_eq_true this

theorem straight_of_worth {fl : Bool} {c : List Nat} {k : Nat} {l : List Nat}
    (h : worth fl c = (k, l)) :
    (k = 8 → (straightTop c).isSome = true) ∧ (k = 4 → (straightTop c).isSome = true) ∧
    (k = 5 → (straightTop c).isSome = false) ∧ (k ≤ 3 → (straightTop c).isSome = false) := by
  have h1 := congrArg Prod.fst h
  simp only at h1
  subst h1
  cases hs : straightTop c with
  | none =>
    simp only [Option.isSome_none, Bool.false_eq_true, imp_false, implies_true, and_true]
    unfold worth
    rw [hs]
    simp only
    constructor
    · repeat' split
      all_goals simp
    · repeat' split
      all_goals simp
  | some t =>
    simp only [Option.isSome_some, implies_true, true_and, Bool.true_eq_false, imp_false]
    unfold worth
    rw [hs]
    cases fl with
    | true => simp
    | false =>
      simp only
      constructor
      · repeat' split
        all_goals first | contradiction | simp
      · repeat' split
        all_goals first | contradiction | simp

attribute [local irreducible] Kinds.straights Kinds.nonStraights Kinds.quads Kinds.fullHouses
  Kinds.trips Kinds.twoPairs Kinds.pairs

theorem catV_kind {k : Bool × List Nat} (hk : k ∈ allKinds) :
    (worth k.1 k.2).1 = catV k.1 k.2 := by
  obtain ⟨s, hs, hk⟩ := List.mem_flatMap.1 hk
  obtain ⟨c, hc, rfl⟩ := List.mem_map.1 hk
  have hw := Kinds.worth_seg hs hc
  obtain ⟨a8, a4, a5, a3⟩ := straight_of_worth hw
  rw [hw]
  simp only [Kinds.segments, List.mem_cons, List.not_mem_nil, or_false] at hs
  symm
  rcases hs with rfl | rfl | rfl | rfl | rfl | rfl | rfl | rfl | rfl
  · exact of_check check_1 hc (a8 rfl)
  · cases hst : (straightTop c).isSome with
    | true => exact of_check check_2 hc hst
    | false => exact of_check check_3 hc hst
  · cases hst : (straightTop c).isSome with
    | true => exact of_check check_4 hc hst
    | false => exact of_check check_5 hc hst
  · exact of_check check_6 hc (a5 rfl)
  · exact of_check check_7 hc (a4 rfl)
  · exact of_check check_8 hc (a3 (by decide))
  · exact of_check check_9 hc (a3 (by decide))
  · exact of_check check_10 hc (a3 (by decide))
  · exact of_check check_11 hc (a3 (by decide))

theorem catV_perm (fl : Bool) {a b : List Nat} (h : a.Perm b) : catV fl a = catV fl b := by
  unfold catV
  simp only [straightTop_perm h, h.count_eq]

theorem flush_five {d : List PCard} (h5 : d.length = 5) : hasFlush d = Rules.flush d := by
  rw [Bool.eq_iff_iff, flush_iff]
  simp only [hasFlush, List.any_eq_true, decide_eq_true_eq]
  constructor
  · rintro ⟨s, _, hs⟩
    refine ⟨s, ?_⟩
    have : ofSuit s d = d := List.filter_sublist.eq_of_length_le (by
      show d.length ≤ (ofSuit s d).length
      omega)
    intro c hc
    rw [← this] at hc
    exact (mem_ofSuit.1 hc).2
  · rintro ⟨s, hs⟩
    exact ⟨s, suits_all s, by rw [ofSuit_self hs]; omega⟩

theorem straight_flush_five {d : List PCard} (h5 : d.length = 5) :
    hasStraightFlush d = (Rules.flush d && (straightTop (values d)).isSome) := by
  rw [Bool.eq_iff_iff, Bool.and_eq_true, flush_iff]
  simp only [hasStraightFlush, List.any_eq_true]
  constructor
  · rintro ⟨s, hs, hst⟩
    obtain ⟨e, e1, e2, e3, _⟩ := small_straight hst
    have hle : 5 ≤ (ofSuit s d).length := by
      have := (e1.subperm e2).length_le
      omega
    have : ofSuit s d = d := List.filter_sublist.eq_of_length_le (by
      show d.length ≤ (ofSuit s d).length
      omega)
    rw [this] at hst
    refine ⟨⟨s, ?_⟩, hst⟩
    intro c hc
    rw [← this] at hc
    exact (mem_ofSuit.1 hc).2
  · rintro ⟨⟨s, hs⟩, hst⟩
    exact ⟨s, suits_all s, by rw [ofSuit_self hs]; exact hst⟩

theorem category_five {d : List PCard} (hn : d.Nodup) (h5 : d.length = 5) :
    (strength d).1 = category d := by
  obtain ⟨c, hc, hp⟩ := hand_kind hn h5
  have h1 := catV_kind hc
  simp only at h1
  rw [strength, worth_perm _ hp, h1, ← catV_perm _ hp]
  unfold category
  rw [flush_five h5, straight_flush_five h5]
  rfl

/-! ## Any number of cards -/

theorem category_best {w : Nat × List Nat} {h : List PCard} (hn : h.Nodup) (h5 : 5 ≤ h.length)
    (hw : IsBest w h) : w.1 = category h := by
  obtain ⟨⟨c, hc, rfl⟩, hbest⟩ := hw
  refine Nat.le_antisymm ?_ ?_
  · rw [category_five hc.1 hc.2.1]
    exact le_category (category_le c) (has_mono hc.1 hc.2.2 (has_category c))
  · obtain ⟨s, s1, s2, s3, s4⟩ := has_small hn (has_category h)
    obtain ⟨d, hd, hsd⟩ := extend hn s1 s2 s3 h5
    have h1 : category h ≤ category d := le_category (category_le h) (has_mono s1 hsd s4)
    rw [← category_five hd.1 hd.2.1] at h1
    refine Nat.le_trans h1 ?_
    have h2 := hbest d hd
    by_contra hlt
    apply h2
    rw [cmpWorth, Nat.compare_eq_gt.2 (by omega)]
    rfl

end Cat

end Poker
