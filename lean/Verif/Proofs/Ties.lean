import Verif.Props.Counts
import Verif.Proofs.Sets
import Mathlib.Data.Fintype.Pi
import Mathlib.Data.Fintype.Prod
import Mathlib.Data.Fintype.BigOperators

/-! Counting the hands with given numbers of cards of each rank. -/

namespace Poker.Ties
open Rules Tab Counts Sets

instance : Fintype Rank :=
  ⟨{.Two, .Three, .Four, .Five, .Six, .Seven, .Eight, .Nine, .Ten, .Jack, .Queen, .King, .Ace},
    fun r => by cases r <;> decide⟩

/-- The sets with `m r` cards of every rank `r`. -/
def withCounts (m : Rank → Nat) : Finset (Finset PCard) :=
  pack.powerset.filter (fun x => ∀ r, (x.filter (fun c => c.1 = r)).card = m r)

theorem mem_withCounts {m : Rank → Nat} {x : Finset PCard} :
    x ∈ withCounts m ↔ ∀ r, (x.filter (fun c => c.1 = r)).card = m r := by
  rw [withCounts, Finset.mem_filter, Finset.mem_powerset]
  exact ⟨fun h => h.2, fun h => ⟨fun c _ => pack_complete c, h⟩⟩

/-- The suits of the cards of a rank. -/
def suits (x : Finset PCard) (r : Rank) : Finset Suit := Finset.univ.filter (fun s => (r, s) ∈ x)

theorem mem_suits {x : Finset PCard} {r : Rank} {s : Suit} : s ∈ suits x r ↔ (r, s) ∈ x := by
  simp [suits]

theorem suits_card (x : Finset PCard) (r : Rank) :
    (suits x r).card = (x.filter (fun c => c.1 = r)).card := by
  refine Finset.card_bij (fun s _ => (r, s)) ?_ ?_ ?_
  · intro s hs
    exact Finset.mem_filter.2 ⟨mem_suits.1 hs, rfl⟩
  · intro s _ t _ h
    exact congrArg Prod.snd h
  · rintro ⟨q, s⟩ h
    obtain ⟨h1, rfl⟩ := Finset.mem_filter.1 h
    exact ⟨s, mem_suits.2 h1, rfl⟩

theorem withCounts_card (m : Rank → Nat) : (withCounts m).card = ∏ r, Nat.choose 4 (m r) := by
  have h1 : (Fintype.piFinset (fun r => (Finset.univ : Finset Suit).powersetCard (m r))).card
      = ∏ r, Nat.choose 4 (m r) := by
    rw [Fintype.card_piFinset]
    refine Finset.prod_congr rfl (fun r _ => ?_)
    rw [Finset.card_powersetCard]
    rfl
  rw [← h1]
  refine Finset.card_bij (fun x _ => suits x) ?_ ?_ ?_
  · intro x hx
    rw [Fintype.mem_piFinset]
    intro r
    rw [Finset.mem_powersetCard, suits_card]
    exact ⟨Finset.subset_univ _, mem_withCounts.1 hx r⟩
  · intro x _ y _ h
    ext ⟨r, s⟩
    rw [← mem_suits, ← mem_suits, show suits x = suits y from h]
  · intro f hf
    rw [Fintype.mem_piFinset] at hf
    have hs : ∀ r, suits (Finset.univ.filter (fun c : PCard => c.2 ∈ f c.1)) r = f r := by
      intro r
      ext s
      simp [mem_suits]
    refine ⟨Finset.univ.filter (fun c => c.2 ∈ f c.1), ?_, funext hs⟩
    rw [mem_withCounts]
    intro r
    rw [← suits_card, hs]
    exact (Finset.mem_powersetCard.1 (hf r)).2

/-- All cards are of one suit. -/
def OneSuit (x : Finset PCard) : Prop := ∃ s, ∀ c ∈ x, c.2 = s

instance : DecidablePred OneSuit := fun x => inferInstanceAs (Decidable (∃ s, ∀ c ∈ x, c.2 = s))

theorem oneSuit_none {m : Rank → Nat} {r : Rank} (hr : 2 ≤ m r) :
    (withCounts m).filter OneSuit = ∅ := by
  rw [Finset.filter_eq_empty_iff]
  rintro x hx ⟨s, hs⟩
  have := mem_withCounts.1 hx r
  rw [← this] at hr
  obtain ⟨a, ha, b, hb, hab⟩ := Finset.one_lt_card.1 hr
  rw [Finset.mem_filter] at ha hb
  exact hab (Prod.ext (ha.2.trans hb.2.symm) ((hs a ha.1).trans (hs b hb.1).symm))

/-- The cards of a suit with the wanted ranks. -/
def ofSuit (m : Rank → Nat) (s : Suit) : Finset PCard :=
  Finset.univ.filter (fun c : PCard => c.2 = s ∧ m c.1 = 1)

theorem oneSuit_card {m : Rank → Nat} (hm : ∀ r, m r ≤ 1) (r : Rank) (hr : m r = 1) :
    ((withCounts m).filter OneSuit).card = 4 := by
  rw [show 4 = (Finset.univ : Finset Suit).card from rfl]
  symm
  refine Finset.card_bij (fun s _ => ofSuit m s) ?_ ?_ ?_
  · intro s _
    rw [Finset.mem_filter, mem_withCounts]
    refine ⟨?_, s, fun c hc => (Finset.mem_filter.1 hc).2.1⟩
    intro q
    rw [← suits_card]
    have h1 := hm q
    by_cases hq : m q = 1
    · have : suits (ofSuit m s) q = {s} := by
        ext t
        simp [mem_suits, ofSuit, hq]
      rw [this, hq, Finset.card_singleton]
    · have : suits (ofSuit m s) q = ∅ := by
        ext t
        simp [mem_suits, ofSuit, hq]
      rw [this, Finset.card_empty]
      omega
  · intro s _ t _ h
    have : (r, s) ∈ ofSuit m s := by simp [ofSuit, hr]
    rw [show ofSuit m s = ofSuit m t from h] at this
    simpa [ofSuit, hr] using this
  · intro x hx
    rw [Finset.mem_filter] at hx
    obtain ⟨hc, s, hs⟩ := hx
    rw [mem_withCounts] at hc
    refine ⟨s, Finset.mem_univ _, ?_⟩
    ext ⟨q, t⟩
    simp only [ofSuit, Finset.mem_filter, Finset.mem_univ, true_and]
    constructor
    · rintro ⟨rfl, hq⟩
      have := hc q
      rw [hq, Finset.card_eq_one] at this
      obtain ⟨⟨q', t'⟩, h⟩ := this
      have hm' : (q', t') ∈ x.filter (fun c => c.1 = q) := by rw [h]; simp
      rw [Finset.mem_filter] at hm'
      obtain ⟨h1, h2⟩ := hm'
      have h3 := hs _ h1
      simp only at h2 h3
      rw [h2, h3] at h1
      exact h1
    · intro hx
      refine ⟨hs _ hx, ?_⟩
      have h1 := hm q
      have : 0 < (x.filter (fun c => c.1 = q)).card :=
        Finset.card_pos.2 ⟨(q, t), Finset.mem_filter.2 ⟨hx, rfl⟩⟩
      rw [hc q] at this
      omega

end Poker.Ties
