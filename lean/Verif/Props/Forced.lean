import Verif.Spec.Forced
import Verif.Spec.Text
import Verif.Props.Categories
import Verif.Props.Deck

/-! # How many cards force which category (C53) -/

namespace Poker
open Rules Tab

namespace Forced

/-- The thirteen ranks, from ace down. -/
def ranks : List Rank := allValues.map rankOf

/-! ## Counting -/

theorem length_counts (l : List Nat) (h : ∀ v ∈ l, v ∈ allValues) :
    l.length = l.count 14 + l.count 13 + l.count 12 + l.count 11 + l.count 10 + l.count 9 + l.count 8
      + l.count 7 + l.count 6 + l.count 5 + l.count 4 + l.count 3 + l.count 2 := by
  induction l with
  | nil => rfl
  | cons x l ih =>
    have ih := ih (fun v hv => h v (by simp [hv]))
    have hx := h x (by simp)
    simp only [allValues, List.mem_cons, List.not_mem_nil, or_false] at hx
    rcases hx with rfl | rfl | rfl | rfl | rfl | rfl | rfl | rfl | rfl | rfl | rfl | rfl | rfl <;>
    · simp only [List.count_cons, List.length_cons]
      simp
      omega

theorem values_all (h : List PCard) : ∀ v ∈ values h, v ∈ allValues := by
  intro v hv
  obtain ⟨c, -, rfl⟩ := List.mem_map.1 hv
  obtain ⟨r, s⟩ := c
  cases r <;> simp [pips, allValues]

theorem length_values (h : List PCard) : (values h).length = h.length := List.length_map _

/-- Without a straight two values are missing: one from ace to five and one from six to ten. -/
theorem no_straight {vs : List Nat} (h : (straightTop vs).isSome = false) :
    (vs.count 5 = 0 ∨ vs.count 4 = 0 ∨ vs.count 3 = 0 ∨ vs.count 2 = 0 ∨ vs.count 14 = 0) ∧
    (vs.count 10 = 0 ∨ vs.count 9 = 0 ∨ vs.count 8 = 0 ∨ vs.count 7 = 0 ∨ vs.count 6 = 0) := by
  rw [Option.isSome_eq_false_iff, Option.isNone_iff_eq_none, straightTop, List.find?_eq_none] at h
  have h5 := h 5 (by decide)
  have h10 := h 10 (by decide)
  simp only [plays, List.all_cons, List.all_nil, Bool.and_true, Bool.and_eq_true, Bool.or_eq_true,
    List.contains_iff_mem, not_and_or, not_or] at h5 h10
  simp at h5 h10
  simp only [List.count_eq_zero]
  tauto

/-- The cards by suit. -/
theorem length_suits (h : List PCard) : h.length = (ofSuit .Clubs h).length + (ofSuit .Hearts h).length
    + (ofSuit .Spades h).length + (ofSuit .Diamonds h).length := by
  induction h with
  | nil => rfl
  | cons c h ih =>
    obtain ⟨r, s⟩ := c
    simp only [ofSuit] at ih
    cases s <;> simp [ofSuit] <;> omega

theorem no_flush {h : List PCard} (hf : hasFlush h = false) : h.length ≤ 16 := by
  have hs := length_suits h
  rw [hasFlush, List.any_eq_false] at hf
  have h1 := hf .Clubs (by decide)
  have h2 := hf .Hearts (by decide)
  have h3 := hf .Spades (by decide)
  have h4 := hf .Diamonds (by decide)
  simp only [decide_eq_true_eq] at h1 h2 h3 h4
  omega

theorem no_straight_flush {h : List PCard} (hn : h.Nodup) (hf : hasStraightFlush h = false) :
    h.length ≤ 44 := by
  have hs := length_suits h
  rw [hasStraightFlush, List.any_eq_false] at hf
  have key : ∀ s ∈ suits, (ofSuit s h).length ≤ 11 := by
    intro s hm
    have hns := no_straight (by simpa using hf s hm)
    have hnd : (values (ofSuit s h)).Nodup := by
      refine List.Nodup.map_on ?_ (hn.filter _)
      intro a ha b hb hab
      have h1 := (Cat.mem_ofSuit.1 ha).2
      have h2 := (Cat.mem_ofSuit.1 hb).2
      obtain ⟨r, t⟩ := a
      obtain ⟨q, u⟩ := b
      simp only at h1 h2 hab
      subst h1 h2
      rw [show r = q from by revert hab; cases r <;> cases q <;> decide]
    have hl := length_counts _ (values_all (ofSuit s h))
    have hc := fun v => List.nodup_iff_count_le_one.1 hnd v
    rw [length_values] at hl
    have := hc 14; have := hc 13; have := hc 12; have := hc 11; have := hc 10; have := hc 9
    have := hc 8; have := hc 7; have := hc 6; have := hc 5; have := hc 4; have := hc 3
    have := hc 2
    omega
  have h1 := key .Clubs (by decide)
  have h2 := key .Hearts (by decide)
  have h3 := key .Spades (by decide)
  have h4 := key .Diamonds (by decide)
  omega

theorem no_tally {n : Nat} {vs : List Nat}
    (h : allValues.any (fun v => decide (n + 1 ≤ vs.count v)) = false) : ∀ v ∈ allValues, vs.count v ≤ n := by
  intro v hv
  rw [List.any_eq_false] at h
  have := h v hv
  simp only [decide_eq_true_eq] at this
  omega

/-- Not `m` of one value and `n` of another. -/
theorem no_two {m n : Nat} {vs : List Nat}
    (h : allValues.any (fun v => allValues.any (fun u =>
      decide (u ≠ v) && decide (m ≤ vs.count v) && decide (n ≤ vs.count u))) = false)
    {v u : Nat} (hv : v ∈ allValues) (hu : u ∈ allValues) (hne : u ≠ v) (hm : m ≤ vs.count v) :
    vs.count u < n := by
  rw [List.any_eq_false] at h
  have := h v hv
  rw [List.any_eq_true] at this
  by_contra hc
  exact this ⟨u, hu, by simp [hne, hm, Nat.not_lt.1 hc]⟩

/-- At most `a` of the value `v` and at most `b` of any other, from eleven values. -/
theorem few {vs : List Nat} (hall : ∀ v ∈ vs, v ∈ allValues) (hs : (straightTop vs).isSome = false)
    {v a b : Nat} (hv : v ∈ allValues) (ha : vs.count v ≤ a) (hb : ∀ u ∈ allValues, u ≠ v → vs.count u ≤ b)
    (hab : b ≤ a) : vs.length ≤ a + 10 * b := by
  obtain ⟨h1, h2⟩ := no_straight hs
  have hl := length_counts vs hall
  have c14 := hb 14 (by decide); have c13 := hb 13 (by decide); have c12 := hb 12 (by decide)
  have c11 := hb 11 (by decide); have c10 := hb 10 (by decide); have c9 := hb 9 (by decide)
  have c8 := hb 8 (by decide); have c7 := hb 7 (by decide); have c6 := hb 6 (by decide)
  have c5 := hb 5 (by decide); have c4 := hb 4 (by decide); have c3 := hb 3 (by decide)
  have c2 := hb 2 (by decide)
  simp only [allValues, List.mem_cons, List.not_mem_nil, or_false] at hv
  rcases hv with rfl | rfl | rfl | rfl | rfl | rfl | rfl | rfl | rfl | rfl | rfl | rfl | rfl <;>
  · simp at c14 c13 c12 c11 c10 c9 c8 c7 c6 c5 c4 c3 c2
    omega

/-- The same with all thirteen values. -/
theorem most {vs : List Nat} (hall : ∀ v ∈ vs, v ∈ allValues)
    {v a b : Nat} (hv : v ∈ allValues) (ha : vs.count v ≤ a)
    (hb : ∀ u ∈ allValues, u ≠ v → vs.count u ≤ b) : vs.length ≤ a + 12 * b := by
  have hl := length_counts vs hall
  have c14 := hb 14 (by decide); have c13 := hb 13 (by decide); have c12 := hb 12 (by decide)
  have c11 := hb 11 (by decide); have c10 := hb 10 (by decide); have c9 := hb 9 (by decide)
  have c8 := hb 8 (by decide); have c7 := hb 7 (by decide); have c6 := hb 6 (by decide)
  have c5 := hb 5 (by decide); have c4 := hb 4 (by decide); have c3 := hb 3 (by decide)
  have c2 := hb 2 (by decide)
  simp only [allValues, List.mem_cons, List.not_mem_nil, or_false] at hv
  rcases hv with rfl | rfl | rfl | rfl | rfl | rfl | rfl | rfl | rfl | rfl | rfl | rfl | rfl <;>
  · simp at c14 c13 c12 c11 c10 c9 c8 c7 c6 c5 c4 c3 c2
    omega

theorem not_has {h : List PCard} {k : Nat} (hk : k ≤ 8) (hlt : category h < k) : Cat.has k h = false := by
  rw [Bool.eq_false_iff]
  intro hh
  have := Cat.le_category hk hh
  omega

theorem length_le (h : List PCard) (hn : h.Nodup) : h.length ≤ mostCards (category h) := by
  have hle := Cat.category_le h
  have hall := values_all h
  have hlen := length_values h
  have hcat := Cat.has_category h
  have hnot := fun k hk => not_has (h := h) (k := k) hk
  generalize category h = k at *
  interval_cases k
  · have h1 := no_tally (n := 1) (hnot 1 (by decide) (by decide))
    have := few hall (hnot 4 (by decide) (by decide)) (v := 14) (by decide) (h1 14 (by decide))
      (fun u hu _ => h1 u hu) le_rfl
    show h.length ≤ 11
    omega
  · have h3 := no_tally (n := 2) (hnot 3 (by decide) (by decide))
    simp only [Cat.has, hasPair, List.any_eq_true, decide_eq_true_eq] at hcat
    obtain ⟨v, hv, h2⟩ := hcat
    have := few hall (hnot 4 (by decide) (by decide)) hv (h3 v hv)
      (fun u hu hne => Nat.lt_succ_iff.1 (no_two (hnot 2 (by decide) (by decide)) hv hu hne h2)) (by decide)
    show h.length ≤ 12
    omega
  · exact no_flush (hnot 5 (by decide) (by decide))
  · have h4 := no_tally (n := 3) (hnot 7 (by decide) (by decide))
    simp only [Cat.has, hasTrips, List.any_eq_true, decide_eq_true_eq] at hcat
    obtain ⟨v, hv, h3⟩ := hcat
    have := few hall (hnot 4 (by decide) (by decide)) hv (h4 v hv)
      (fun u hu hne => Nat.lt_succ_iff.1 (no_two (hnot 6 (by decide) (by decide)) hv hu hne h3)) (by decide)
    show h.length ≤ 13
    omega
  · exact no_flush (hnot 5 (by decide) (by decide))
  · have h4 := no_tally (n := 3) (hnot 7 (by decide) (by decide))
    show h.length ≤ 26
    by_cases h3 : ∃ v ∈ allValues, 3 ≤ (values h).count v
    · obtain ⟨v, hv, h3⟩ := h3
      have := most hall hv (h4 v hv)
        (fun u hu hne => Nat.lt_succ_iff.1 (no_two (hnot 6 (by decide) (by decide)) hv hu hne h3))
      omega
    · have h2 : ∀ u ∈ allValues, (values h).count u ≤ 2 := by
        intro u hu
        by_contra hc
        exact h3 ⟨u, hu, by omega⟩
      have := most hall (v := 14) (by decide) (h2 14 (by decide)) (fun u hu _ => h2 u hu)
      omega
  · have h4 := no_tally (n := 3) (hnot 7 (by decide) (by decide))
    have := most hall (v := 14) (by decide) (h4 14 (by decide)) (fun u hu _ => h4 u hu)
    show h.length ≤ 39
    omega
  · exact no_straight_flush hn (hnot 8 (by decide) (by decide))
  · show h.length ≤ 52
    have hp := (hn.subperm (l₂ := suits.flatMap (fun s => ranks.map (fun r => (r, s)))) (by
      intro c _
      obtain ⟨r, s⟩ := c
      cases r <;> cases s <;> decide)).length_le
    exact hp

/-! ## Hands that reach the bounds -/

/-- The card for a rank and a suit character. -/
def card (r s : Char) : PCard :=
  ((ranks.find? (fun q => Text.rankChar q == r)).getD .Two,
    (suits.find? (fun t => Text.suitChar t == s)).getD .Clubs)

/-- The cards of a text. -/
def cards : List Char → List PCard
  | r :: s :: ' ' :: rest => card r s :: cards rest
  | [r, s] => [card r s]
  | _ => []

/-- As many cards as possible of the category, the first five being of that category too. -/
def witness (k : Nat) : List PCard := cards (String.toList (match k with
  | 0 => "2c 3c 4d 6h 7d 8c 9h Jd Qd Kh As"
  | 1 => "2c 3d 4h Ah As 6d 7c 8h 9d Jd Qh Ks"
  | 2 => "2s 9c 9s Jc Jd 3c 4d 6s 7d 8h Qh Qc Kh Ks Ah Ad"
  | 3 => "2s 3d Ac Ad As 4c 6d 7c 8s 9d Jh Qh Kh"
  | 4 => "2h 3d 4h 5c 6s 2s 7c 8d 8c 9d Th Jh Qs Kc Ks Ad"
  | 5 => "2c 4c 6c 8c Tc 2h 3s 3d 4h 5s 5d 6h 7s 7d 8h 9s 9d Th Js Jd Qc Qh Ks Kd Ac Ah"
  | 6 => "2c 2h 2s 3c 3h 3d 4c 4s 4d 5h 5s 5d 6c 6h 6s 7c 7h 7s 8c 8h 8d 9c 9s 9d Th Ts Td Jc Jh " ++
    "Js Qc Qh Qs Kc Kh Kd Ac As Ad"
  | 7 => "2c 2h 2s 2d 3c 3h 3s 3d 4c 4h 4s 4d 6c 6h 6s 6d 7c 7h 7s 7d 8c 8h 8s 8d 9c 9h 9s 9d Jc " ++
    "Jh Js Jd Qc Qh Qs Qd Kc Kh Ks Kd Ac Ah As Ad"
  | 8 => "2c 3c 4c 5c 6c 2h 2s 2d 3h 3s 3d 4h 4s 4d 5h 5s 5d 6h 6s 6d 7c 7h 7s 7d 8c 8h 8s 8d 9c " ++
    "9h 9s 9d Tc Th Ts Td Jc Jh Js Jd Qc Qh Qs Qd Kc Kh Ks Kd Ac Ah As Ad"
  | _ => ""))

theorem witness_ok : ∀ k ≤ 8, (witness k).Nodup ∧ (witness k).length = mostCards k ∧
    Cat.has k ((witness k).take 5) = true ∧ category (witness k) = k := by
  decide +kernel

theorem witness_take {k n : Nat} (hk : k ≤ 8) (h5 : 5 ≤ n) (hn : n ≤ mostCards k) :
    ((witness k).take n).Nodup ∧ ((witness k).take n).length = n ∧ category ((witness k).take n) = k := by
  obtain ⟨hw, hl, hh, hc⟩ := witness_ok k hk
  have hnd : ((witness k).take n).Nodup := hw.sublist (List.take_sublist _ _)
  refine ⟨hnd, by rw [List.length_take, hl]; omega, Nat.le_antisymm ?_ ?_⟩
  · have hm := Cat.has_mono hnd (fun c hx => List.mem_of_mem_take hx) (Cat.has_category ((witness k).take n))
    have := Cat.le_category (Cat.category_le _) hm
    rwa [hc] at this
  · refine Cat.le_category hk (Cat.has_mono (s := (witness k).take 5)
      (hw.sublist (List.take_sublist _ _)) ?_ hh)
    intro c hx
    have : (witness k).take 5 = ((witness k).take n).take 5 := by rw [List.take_take, Nat.min_eq_left h5]
    rw [this] at hx
    exact List.mem_of_mem_take hx

end Forced

/-- C53: with `n` different cards `evaluate` can give a result of category `k` exactly if `n` is from 5
to the number in `mostCards`.  So from 12 cards on there is at least a pair, from 13 at least two
pair, from 17 at least a flush, from 27 at least a full house, from 40 at least four of a kind, and from 45 a
straight flush. -/
theorem c53_possible (k n : Nat) (hk : k ≤ 8) :
    (∃ h e, evaluateHand h = .ok (.ok e) ∧ h.length = n ∧ classNumber e.class' = k) ↔
      5 ≤ n ∧ n ≤ mostCards k := by
  constructor
  · rintro ⟨h, e, he, rfl, hc⟩
    obtain ⟨hn, h5⟩ := (c04_iff h).2.2.1 ⟨e, he⟩
    rw [c31_class h e he] at hc
    exact ⟨h5, hc ▸ Forced.length_le h hn⟩
  · rintro ⟨h5, hn⟩
    obtain ⟨hnd, hl, hc⟩ := Forced.witness_take hk h5 hn
    obtain ⟨e, he⟩ := (c04_iff ((Forced.witness k).take n)).2.2.2 ⟨hnd, by omega⟩
    exact ⟨_, e, he, hl, (c31_class _ e he).trans hc⟩

/-- C53: what the number of cards alone guarantees. -/
theorem c53_forced (h : List PCard) (e : Eval) (he : evaluateHand h = .ok (.ok e)) :
    (12 ≤ h.length → 1 ≤ classNumber e.class') ∧ (13 ≤ h.length → 2 ≤ classNumber e.class') ∧
    (17 ≤ h.length → 5 ≤ classNumber e.class') ∧ (27 ≤ h.length → 6 ≤ classNumber e.class') ∧
    (40 ≤ h.length → 7 ≤ classNumber e.class') ∧ (45 ≤ h.length → e.is_straight_flush = true) := by
  have hk : classNumber e.class' ≤ 8 := by rw [c31_class h e he]; exact Cat.category_le h
  obtain ⟨-, hn⟩ := (c53_possible (classNumber e.class') h.length hk).1 ⟨h, e, he, rfl, rfl⟩
  have h8 : classNumber e.class' = 8 → e.is_straight_flush = true := by
    intro h8
    rw [(c31_predicates h e he).1]
    rw [c31_class h e he] at h8
    have := Cat.has_category h
    rwa [h8] at this
  generalize classNumber e.class' = k at *
  interval_cases k <;> simp only [mostCards, List.getD_cons_zero, List.getD_cons_succ] at hn <;>
    refine ⟨?_, ?_, ?_, ?_, ?_, ?_⟩ <;> first | omega | (intro _; exact h8 rfl)

/-- Seventeen cards with a flush and no more, to which `c53_forced` applies and is sharp. -/
example : ∃ h e, evaluateHand h = .ok (.ok e) ∧ h.length = 17 ∧ classNumber e.class' = 5 :=
  (c53_possible 5 17 (by decide)).2 (by decide)

/-- Sixteen cards still may have just two pair, or a straight, but not three of a kind. -/
example : (∃ h e, evaluateHand h = .ok (.ok e) ∧ h.length = 16 ∧ classNumber e.class' = 2) ∧
    (∃ h e, evaluateHand h = .ok (.ok e) ∧ h.length = 16 ∧ classNumber e.class' = 4) ∧
    ¬ ∃ h e, evaluateHand h = .ok (.ok e) ∧ h.length = 16 ∧ classNumber e.class' = 3 :=
  ⟨(c53_possible 2 16 (by decide)).2 (by decide), (c53_possible 4 16 (by decide)).2 (by decide),
    fun h => absurd ((c53_possible 3 16 (by decide)).1 h) (by decide)⟩

/-- C53: every hand of at least 49 cards has a royal flush, and there is one of 48 without. -/
theorem c53_royal :
    (∀ h e, evaluateHand h = .ok (.ok e) → 49 ≤ h.length → e.is_royal_flush = true) ∧
    ∃ h e, evaluateHand h = .ok (.ok e) ∧ h.length = 48 ∧ e.is_royal_flush = false := by
  constructor
  · intro h e he hl
    rw [(c10_royal h e he).2.2]
    by_contra hc
    push Not at hc
    obtain ⟨hn, -⟩ := (c04_iff h).2.2.1 ⟨e, he⟩
    obtain ⟨a, -, ha⟩ := hc .Clubs
    obtain ⟨b, -, hb⟩ := hc .Hearts
    obtain ⟨c, -, hc'⟩ := hc .Spades
    obtain ⟨d, -, hd⟩ := hc .Diamonds
    have hnd : ((a, Suit.Clubs) :: (b, Suit.Hearts) :: (c, Suit.Spades) :: (d, Suit.Diamonds) :: h).Nodup := by
      simp [ha, hb, hc', hd, hn]
    have := (hnd.subperm (l₂ := suits.flatMap (fun s => Forced.ranks.map (fun r => (r, s)))) (by
      intro c _
      obtain ⟨r, s⟩ := c
      cases r <;> cases s <;> decide)).length_le
    have e52 : (suits.flatMap (fun s => Forced.ranks.map (fun r => (r, s)))).length = 52 := by decide
    simp only [List.length_cons] at this
    omega
  · let h : List PCard := suits.flatMap (fun s => (Forced.ranks.filter (· != .Ten)).map (fun r => (r, s)))
    have hn : h.Nodup := by decide +kernel
    have hl : h.length = 48 := by decide +kernel
    obtain ⟨e, he⟩ := (c04_iff h).2.2.2 ⟨hn, by omega⟩
    refine ⟨h, e, he, hl, ?_⟩
    rw [Bool.eq_false_iff, Ne, (c10_royal h e he).2.2]
    rintro ⟨s, hs⟩
    have := hs .Ten (by decide)
    revert this
    cases s <;> decide +kernel

/-- The whole pack is a hand of at least 49 cards. -/
example : ∃ h e, evaluateHand h = .ok (.ok e) ∧ h.length = 52 ∧ classNumber e.class' = 8 :=
  (c53_possible 8 52 (by decide)).2 (by decide)

/-- Eleven cards that make no more than a high card. -/
example : (Forced.witness 0).length = 11 ∧ (Forced.witness 0).Nodup ∧ category (Forced.witness 0) = 0 ∧
    (Forced.witness 6).length = 39 := by decide +kernel

end Poker
