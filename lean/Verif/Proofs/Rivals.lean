import Verif.Props.Ties

/-! Counting the hands with given numbers of cards of each rank among the cards that are left. -/

namespace Poker.Ties
open Rules Tab Counts Sets

theorem free_card {m : Rank → Nat} {x : Finset PCard} (hx : x ∈ withCounts m) :
    ((withCounts m).filter (fun y => Disjoint x y)).card = ∏ r, Nat.choose (4 - m r) (m r) := by
  have h1 : (Fintype.piFinset (fun r => (Finset.univ \ suits x r).powersetCard (m r))).card
      = ∏ r, Nat.choose (4 - m r) (m r) := by
    rw [Fintype.card_piFinset]
    refine Finset.prod_congr rfl (fun r _ => ?_)
    rw [Finset.card_powersetCard, Finset.card_sdiff_of_subset (Finset.subset_univ _), suits_card, mem_withCounts.1 hx r]
    rfl
  rw [← h1]
  refine Finset.card_bij (fun y _ => suits y) ?_ ?_ ?_
  · intro y hy
    obtain ⟨hy, hd⟩ := Finset.mem_filter.1 hy
    rw [Fintype.mem_piFinset]
    intro r
    rw [Finset.mem_powersetCard, suits_card]
    refine ⟨fun s hs => Finset.mem_sdiff.2 ⟨Finset.mem_univ _, fun hs' => ?_⟩, mem_withCounts.1 hy r⟩
    exact Finset.disjoint_left.1 hd (mem_suits.1 hs') (mem_suits.1 hs)
  · intro y _ z _ h
    ext ⟨r, s⟩
    rw [← mem_suits, ← mem_suits, show suits y = suits z from h]
  · intro f hf
    rw [Fintype.mem_piFinset] at hf
    have hs : ∀ r, suits (Finset.univ.filter (fun c : PCard => c.2 ∈ f c.1)) r = f r := by
      intro r
      ext s
      simp [mem_suits]
    refine ⟨Finset.univ.filter (fun c => c.2 ∈ f c.1), ?_, funext hs⟩
    rw [Finset.mem_filter, mem_withCounts]
    constructor
    · intro r
      rw [← suits_card, hs]
      exact (Finset.mem_powersetCard.1 (hf r)).2
    · rw [Finset.disjoint_left]
      rintro ⟨r, s⟩ hc hc'
      have h2 := (Finset.mem_powersetCard.1 (hf r)).1 (Finset.mem_filter.1 hc').2
      exact (Finset.mem_sdiff.1 h2).2 (mem_suits.2 hc)

theorem ofSuit_mem {m : Rank → Nat} (hm : ∀ r, m r ≤ 1) (s : Suit) : ofSuit m s ∈ (withCounts m).filter OneSuit := by
  rw [Finset.mem_filter, mem_withCounts]
  refine ⟨?_, s, fun c hc => (Finset.mem_filter.1 hc).2.1⟩
  intro q
  rw [← suits_card]
  have h1 := hm q
  by_cases hq : m q = 1
  · have : suits (ofSuit m s) q = {s} := by
      ext t
      simp [mem_suits, ofSuit, hq]
    rw [this, hq, Finset.card_singleton]
  · have : suits (ofSuit m s) q = ∅ := by
      ext t
      simp [mem_suits, ofSuit, hq]
    rw [this, Finset.card_empty]
    omega

theorem of_oneSuit {m : Rank → Nat} {x : Finset PCard} (hx : x ∈ withCounts m) {s : Suit}
    (hs : ∀ c ∈ x, c.2 = s) : x = ofSuit m s := by
  rw [mem_withCounts] at hx
  ext ⟨q, t⟩
  simp only [ofSuit, Finset.mem_filter, Finset.mem_univ, true_and]
  have hq : suits x q = if (q, s) ∈ x then {s} else ∅ := by
    ext u
    split
    · rename_i h
      rw [mem_suits, Finset.mem_singleton]
      exact ⟨fun h => hs _ h, fun e => e ▸ h⟩
    · rename_i h
      rw [mem_suits]
      constructor
      · intro hu
        have : u = s := hs _ hu
        exact absurd (this ▸ hu) h
      · intro h; cases h
  have hc := hx q
  rw [← suits_card, hq] at hc
  constructor
  · intro h
    have : t = s := hs _ h
    subst this
    rw [if_pos h, Finset.card_singleton] at hc
    exact ⟨rfl, hc.symm⟩
  · rintro ⟨rfl, h⟩
    by_contra hn
    rw [if_neg hn, Finset.card_empty] at hc
    omega

/-- The hands of one suit among the cards that are left: one for each suit that does not occur. -/
theorem free_oneSuit {m : Rank → Nat} (hm : ∀ r, m r ≤ 1) (r : Rank) (hr : m r = 1) {x : Finset PCard}
    (hx : x ∈ withCounts m) :
    (((withCounts m).filter (fun y => Disjoint x y)).filter OneSuit).card = 4 - (x.image (·.2)).card := by
  have h4 : (Finset.univ \ x.image (·.2)).card = 4 - (x.image (·.2)).card := by
    rw [Finset.card_sdiff_of_subset (Finset.subset_univ _)]
    rfl
  rw [← h4]
  symm
  refine Finset.card_bij (fun s _ => ofSuit m s) ?_ ?_ ?_
  · intro s hs
    obtain ⟨h1, h2⟩ := Finset.mem_filter.1 (ofSuit_mem hm s)
    refine Finset.mem_filter.2 ⟨Finset.mem_filter.2 ⟨h1, ?_⟩, h2⟩
    rw [Finset.disjoint_left]
    intro c hc hc'
    refine (Finset.mem_sdiff.1 hs).2 (Finset.mem_image.2 ⟨c, hc, ?_⟩)
    exact (Finset.mem_filter.1 hc').2.1
  · intro s _ t _ h
    have : (r, s) ∈ ofSuit m s := by simp [ofSuit, hr]
    rw [show ofSuit m s = ofSuit m t from h] at this
    simpa [ofSuit, hr] using this
  · intro y hy
    obtain ⟨hy, s, hs⟩ := Finset.mem_filter.1 hy
    obtain ⟨hy, hd⟩ := Finset.mem_filter.1 hy
    have he := of_oneSuit hy hs
    refine ⟨s, Finset.mem_sdiff.2 ⟨Finset.mem_univ _, fun hi => ?_⟩, he.symm⟩
    obtain ⟨c, hc, rfl⟩ := Finset.mem_image.1 hi
    refine Finset.disjoint_left.1 hd hc ?_
    rw [he]
    refine Finset.mem_filter.2 ⟨Finset.mem_univ _, rfl, ?_⟩
    have h1 := mem_withCounts.1 hx c.1
    have h2 : 0 < (x.filter (fun d => d.1 = c.1)).card := Finset.card_pos.2 ⟨c, Finset.mem_filter.2 ⟨hc, rfl⟩⟩
    have := hm c.1
    omega

theorem prod_free (c : Nat → Nat) (hc : ∀ v, c v ≤ 4) (l : List Nat) :
    (l.map (fun v => Nat.choose (4 - c v) (c v))).prod
      = 3 ^ howMany c 1 l * 0 ^ howMany c 3 l * 0 ^ howMany c 4 l := by
  induction l with
  | nil => rfl
  | cons v l ih =>
    rw [List.map_cons, List.prod_cons, ih]
    have h1 : ∀ m, howMany c m (v :: l) = (if c v = m then 1 else 0) + howMany c m l := by
      intro m
      simp only [howMany, List.filter_cons, beq_iff_eq]
      split <;> simp [Nat.add_comm]
    rw [h1, h1, h1]
    have := hc v
    generalize c v = k at this ⊢
    interval_cases k <;> simp [Nat.choose, pow_add]; ring

end Poker.Ties
