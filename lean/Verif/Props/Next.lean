import Verif.Props.Seats
import Verif.Props.Outs
import Verif.Spec.Next
import Mathlib.Data.List.Permutation
import Mathlib.Data.Set.Finite.List
import Mathlib.Data.Nat.Factorial.Basic

/-! # The cards that are still to come: C75 -/

namespace Poker
open Rules Tab Nat

/-- The orders of a deck that begin with given cards. -/
theorem begins_finset {g q : List PCard} (hg : g.Nodup) (hq : q.Nodup) (hqg : ∀ c ∈ q, c ∈ g) :
    ∃ s : Finset (List PCard), s.card = (g.length - q.length)! ∧
      ∀ m, m ∈ s ↔ m.Perm g ∧ m.take q.length = q := by
  classical
  have hs : q.Subperm g := hq.subperm hqg
  have hp : (q ++ g.diff q).Perm g := List.subperm_append_diff_self_of_count_le
    (List.subperm_ext_iff.1 hs)
  have hl : (g.diff q).length = g.length - q.length := by
    have := hp.length_eq
    rw [List.length_append] at this
    omega
  have hn : (g.diff q).Nodup := ((hp.nodup_iff.2 hg).of_append_right)
  refine ⟨((g.diff q).permutations.map (q ++ ·)).toFinset, ?_, fun m => ?_⟩
  · rw [List.toFinset_card_of_nodup, List.length_map, List.length_permutations, hl]
    exact (List.nodup_permutations _ hn).map (List.append_right_injective q)
  · rw [List.mem_toFinset, List.mem_map]
    constructor
    · rintro ⟨r, hr, rfl⟩
      rw [List.mem_permutations] at hr
      exact ⟨(hr.append_left q).trans hp, List.take_left⟩
    · rintro ⟨h1, h2⟩
      refine ⟨m.drop q.length, ?_, ?_⟩
      · rw [List.mem_permutations]
        have h3 : (q ++ m.drop q.length).Perm (q ++ g.diff q) := by
          have : q ++ m.drop q.length = m := by
            conv_lhs => lhs; rw [← h2]
            exact List.take_append_drop _ _
          rw [this]
          exact h1.trans hp.symm
        exact (List.perm_append_left_iff q).1 h3
      · show q ++ m.drop q.length = m
        conv_lhs => lhs; rw [← h2]
        exact List.take_append_drop _ _

/-- As many choices as orders of the cards, seen as rank and suit. -/
theorem ways_pcards {l : List Card} (hl : l.Perm Deck.generate) {g : List PCard} (hg : Deck.generate = deal g)
    (q : List Card → Prop) : ways (Shuffled l q) = {m : List PCard | m.Perm g ∧ q (deal m)}.ncard := by
  rw [ways_orders hl, hg]
  symm
  refine Set.ncard_congr (fun m _ => deal m) ?_ ?_ ?_
  · rintro m ⟨hm, hq⟩
    exact ⟨hm.map _, hq⟩
  · rintro a b _ _ he
    exact deal_injective he
  · rintro m ⟨hm, hq⟩
    have hm' := hm
    rw [← hg] at hm'
    obtain ⟨h, rfl, -, -⟩ := perm_generate.1 hm'
    exact ⟨h, ⟨(List.map_perm_map_iff (fun _ _ => card_inj)).1 hm, hq⟩, rfl⟩

theorem begins_deal (h m : List PCard) : Begins h (deal m) ↔ m.take h.length = h := by
  rw [Begins, show (deal m).take h.length = deal (m.take h.length) from List.map_take.symm]
  exact ⟨fun he => deal_injective he, fun he => congrArg deal he⟩

/-- C75: so often are given different cards on top, whatever they are. -/
theorem c75_known {l : List Card} (hl : l.Perm Deck.generate) (h : List PCard) (hn : h.Nodup) :
    ways (Shuffled l (Begins h)) = (52 - h.length)! := by
  obtain ⟨g, hg, hgn, hg52, hgm⟩ := generate_deal
  obtain ⟨s, hs, hm⟩ := begins_finset hgn hn (fun c _ => hgm c)
  rw [ways_pcards hl hg, ← hg52, ← hs, ← Set.ncard_coe_finset]
  congr 1
  ext m
  rw [Finset.mem_coe, hm, Set.mem_ofPred_eq, begins_deal]

/-- C75: whatever is asked about the next `k` cards after the known ones: as often as there are ways to go on. -/
theorem c75_count {l : List Card} (hl : l.Perm Deck.generate) (h : List PCard) (k : Nat)
    (hk : h.length + k ≤ 52) (q : List PCard → Prop) :
    ways (Shuffled l (fun m => Begins h m ∧ ∃ r, q r ∧ m.take (h.length + k) = deal (h ++ r)))
      = {r : List PCard | r.length = k ∧ (h ++ r).Nodup ∧ q r}.ncard * (52 - h.length - k)! := by
  classical
  obtain ⟨g, hg, hgn, hg52, hgm⟩ := generate_deal
  have : Finite PCard := Finite.of_injective (fun c => (⟨c, pack_complete c⟩ : pack))
    (fun a b hab => congrArg Subtype.val hab)
  have hfin : {r : List PCard | r.length = k ∧ (h ++ r).Nodup ∧ q r}.Finite :=
    (List.finite_length_eq PCard k).subset (fun r hr => hr.1)
  have hfam : ∀ r : List PCard, ∃ s : Finset (List PCard), (h ++ r).Nodup → r.length = k →
      s.card = (52 - h.length - k)! ∧ ∀ m, m ∈ s ↔ m.Perm g ∧ m.take (h.length + k) = h ++ r := by
    intro r
    by_cases hr : (h ++ r).Nodup
    · obtain ⟨s, h1, h2⟩ := begins_finset hgn hr (fun c _ => hgm c)
      refine ⟨s, fun _ hl => ?_⟩
      rw [List.length_append, hl] at h1 h2
      exact ⟨by rw [h1, hg52, Nat.sub_sub], h2⟩
    · exact ⟨∅, fun h => absurd h hr⟩
  choose S hS using hfam
  rw [ways_pcards hl hg]
  rw [show {m : List PCard | m.Perm g ∧ Begins h (deal m) ∧ ∃ r, q r ∧
      (deal m).take (h.length + k) = deal (h ++ r)} = ↑(hfin.toFinset.biUnion S) from ?_]
  · rw [Set.ncard_coe_finset, Finset.card_biUnion, Finset.sum_congr rfl (g := fun _ => (52 - h.length - k)!),
      Finset.sum_const, smul_eq_mul, Set.ncard_eq_toFinset_card _ hfin]
    · intro r hr
      rw [Set.Finite.mem_toFinset] at hr
      exact (hS r hr.2.1 hr.1).1
    · intro a ha b hb hab
      rw [Finset.mem_coe, Set.Finite.mem_toFinset] at ha hb
      rw [Function.onFun, Finset.disjoint_left]
      intro m hma hmb
      rw [(hS a ha.2.1 ha.1).2] at hma
      rw [(hS b hb.2.1 hb.1).2] at hmb
      exact hab (List.append_cancel_left (hma.2.symm.trans hmb.2))
  · ext m
    rw [Finset.mem_coe, Finset.mem_biUnion, Set.mem_ofPred_eq]
    have ht : (deal m).take (h.length + k) = deal (m.take (h.length + k)) := List.map_take.symm
    constructor
    · rintro ⟨h1, h2, r, hq, h3⟩
      rw [ht] at h3
      have h4 := deal_injective h3
      have h5 : (h ++ r).Nodup := by
        rw [← h4]
        exact (h1.nodup_iff.2 hgn).sublist (List.take_sublist _ _)
      have h6 : r.length = k := by
        have := congrArg List.length h4
        rw [List.length_take, List.length_append, h1.length_eq, hg52] at this
        omega
      refine ⟨r, (Set.Finite.mem_toFinset _).2 ⟨h6, h5, hq⟩, ?_⟩
      rw [(hS r h5 h6).2]
      exact ⟨h1, h4⟩
    · rintro ⟨r, hr, h1⟩
      rw [Set.Finite.mem_toFinset] at hr
      rw [(hS r hr.2.1 hr.1).2] at h1
      refine ⟨h1.1, ?_, r, hr.2.2, ?_⟩
      · rw [begins_deal]
        have := congrArg (List.take h.length) h1.2
        rwa [List.take_take, Nat.min_eq_left (Nat.le_add_right _ _), List.take_left] at this
      · rw [ht, h1.2]

/-- C75: how often the known cards come first and the result after `k` more cards has a property: as often as
there are ways to go on, each with every order of the remaining cards. -/
theorem c75_result {l : List Card} (hl : l.Perm Deck.generate) (h : List PCard) (k : Nat)
    (hk : h.length + k ≤ 52) (p : Eval → Prop) :
    ways (Shuffled l (fun m => Begins h m ∧ Top (h.length + k) p m))
      = continuations h k p * (52 - h.length - k)! := by
  have hc := c75_count hl h k hk (fun r => ∃ e, evaluateHand (h ++ r) = .ok (.ok e) ∧ p e)
  have h1 : {r : List PCard | r.length = k ∧ (h ++ r).Nodup ∧ ∃ e, evaluateHand (h ++ r) = .ok (.ok e) ∧ p e}
      = {r : List PCard | r.length = k ∧ ∃ e, evaluateHand (h ++ r) = .ok (.ok e) ∧ p e} := by
    ext r
    constructor
    · rintro ⟨a, -, b⟩
      exact ⟨a, b⟩
    · rintro ⟨a, e, he, b⟩
      exact ⟨a, (ok_iff.1 he).1, e, he, b⟩
  rw [h1] at hc
  rw [continuations, ← hc, ways_orders hl, ways_orders hl]
  congr 1
  ext m
  refine and_congr_right (fun hm => and_congr_right (fun hb => ?_))
  obtain ⟨g, rfl, -, -⟩ := perm_generate.1 hm
  rw [begins_deal] at hb
  have ht : (deal g).take (h.length + k) = deal (g.take (h.length + k)) := List.map_take.symm
  have hr : g.take (h.length + k) = h ++ (g.drop h.length).take k := by
    rw [List.take_add, hb]
  rw [Top, ht]
  constructor
  · rintro ⟨e, he, hp⟩
    rw [hr] at he ⊢
    exact ⟨_, ⟨e, he, hp⟩, rfl⟩
  · rintro ⟨r, ⟨e, he, hp⟩, h3⟩
    rw [deal_injective h3]
    exact ⟨e, he, hp⟩

/-- C75: the odds: when the cards of `h` lie on top, of all ways to go on with `k` cards each is as likely as any
other. -/
theorem c75_odds {l : List Card} (hl : l.Perm Deck.generate) (h : List PCard) (hn : h.Nodup) (k : Nat)
    (hk : h.length + k ≤ 52) (p : Eval → Prop) :
    (52 - h.length).descFactorial k * ways (Shuffled l (fun m => Begins h m ∧ Top (h.length + k) p m))
      = continuations h k p * ways (Shuffled l (Begins h)) := by
  rw [c75_result hl h k hk p, c75_known hl h hn,
    ← Nat.factorial_mul_descFactorial (show k ≤ 52 - h.length by omega)]
  generalize (52 - h.length).descFactorial k = a
  generalize (52 - h.length - k)! = b
  generalize continuations h k p = c
  rw [Nat.mul_left_comm, Nat.mul_comm a b]

theorem continuations_one (h : List PCard) (p : Eval → Prop) : continuations h 1 p = further h p := by
  classical
  rw [continuations, further, ← Set.ncard_coe_finset]
  symm
  refine Set.ncard_congr (fun c _ => [c]) ?_ ?_ ?_
  · intro c hc
    rw [Finset.mem_coe, Finset.mem_filter] at hc
    obtain ⟨-, e, he, hp⟩ := hc
    exact ⟨rfl, e, ((c05_perm _ _ (List.perm_append_singleton c h)).1 e).2 he, hp⟩
  · intro a b _ _ he
    exact List.singleton_injective he
  · rintro r ⟨hr, e, he, hp⟩
    obtain ⟨c, rfl⟩ := List.length_eq_one_iff.1 hr
    refine ⟨c, ?_, rfl⟩
    rw [Finset.mem_coe, Finset.mem_filter]
    exact ⟨pack_complete c, e, ((c05_perm _ _ (List.perm_append_singleton c h)).1 e).1 he, hp⟩

/-- C75: the next card: the odds for a result are the cards that bring it, of those that are not known. -/
theorem c75_next {l : List Card} (hl : l.Perm Deck.generate) (h : List PCard) (hn : h.Nodup)
    (hk : h.length < 52) (p : Eval → Prop) :
    (52 - h.length) * ways (Shuffled l (fun m => Begins h m ∧ Top (h.length + 1) p m))
      = further h p * ways (Shuffled l (Begins h)) := by
  have := c75_odds hl h hn 1 hk p
  rwa [Nat.descFactorial_one, continuations_one] at this

/-- C75: so five or six cards become better with one more card of the shuffled deck. -/
theorem c75_outs {l : List Card} (hl : l.Perm Deck.generate) (h : List PCard) (e : Eval)
    (he : evaluateHand h = .ok (.ok e)) (h6 : h.length ≤ 6) :
    (classNumber e.class' < 8 →
      (52 - h.length) * ways (Shuffled l (fun m => Begins h m ∧ Top (h.length + 1) (·.is_straight_flush = true) m))
        = outs h 8 * ways (Shuffled l (Begins h))) ∧
    (classNumber e.class' < 7 →
      (52 - h.length) * ways (Shuffled l (fun m => Begins h m ∧ Top (h.length + 1) (·.is_four_of_a_kind = true) m))
        = outs h 7 * ways (Shuffled l (Begins h))) ∧
    (classNumber e.class' < 6 →
      (52 - h.length) * ways (Shuffled l (fun m => Begins h m ∧ Top (h.length + 1) (·.is_full_house = true) m))
        = outs h 6 * ways (Shuffled l (Begins h))) ∧
    (classNumber e.class' < 5 →
      (52 - h.length) * ways (Shuffled l (fun m => Begins h m ∧ Top (h.length + 1) (·.is_flush = true) m))
        = outs h 5 * ways (Shuffled l (Begins h))) ∧
    (classNumber e.class' < 4 →
      (52 - h.length) * ways (Shuffled l (fun m => Begins h m ∧ Top (h.length + 1) (·.is_straight = true) m))
        = outs h 4 * ways (Shuffled l (Begins h))) ∧
    (classNumber e.class' < 3 →
      (52 - h.length) * ways (Shuffled l (fun m => Begins h m ∧ Top (h.length + 1) (·.is_three_of_a_kind = true) m))
        = outs h 3 * ways (Shuffled l (Begins h))) ∧
    (classNumber e.class' < 2 →
      (52 - h.length) * ways (Shuffled l (fun m => Begins h m ∧ Top (h.length + 1) (·.is_two_pair = true) m))
        = outs h 2 * ways (Shuffled l (Begins h))) ∧
    (classNumber e.class' < 1 →
      (52 - h.length) * ways (Shuffled l (fun m => Begins h m ∧ Top (h.length + 1) (·.is_pair = true) m))
        = outs h 1 * ways (Shuffled l (Begins h))) := by
  have hn := fun p => c75_next hl h (ok_iff.1 he).1 (by omega) p
  obtain ⟨h8, h7, h6, h5, h4, h3, h2, h1⟩ := c71_outs h e he h6
  exact ⟨fun hc => (hn _).trans (by rw [h8 hc]), fun hc => (hn _).trans (by rw [h7 hc]),
    fun hc => (hn _).trans (by rw [h6 hc]), fun hc => (hn _).trans (by rw [h5 hc]),
    fun hc => (hn _).trans (by rw [h4 hc]), fun hc => (hn _).trans (by rw [h3 hc]),
    fun hc => (hn _).trans (by rw [h2 hc]), fun hc => (hn _).trans (by rw [h1 hc])⟩

/-- Four hearts of five cards: nine of 47 cards make the flush. -/
example {l : List Card} (hl : l.Perm Deck.generate) :
    47 * ways (Shuffled l (fun m => Begins [(.Two, .Hearts), (.Nine, .Hearts), (.Jack, .Hearts), (.King, .Hearts),
        (.Seven, .Clubs)] m ∧ Top 6 (·.is_flush = true) m))
      = 9 * ways (Shuffled l (Begins [(.Two, .Hearts), (.Nine, .Hearts), (.Jack, .Hearts), (.King, .Hearts),
        (.Seven, .Clubs)])) := by
  obtain ⟨e, he⟩ := (c04_iff [(.Two, .Hearts), (.Nine, .Hearts), (.Jack, .Hearts), (.King, .Hearts),
    (.Seven, .Clubs)]).2.2.2 ⟨by decide, by decide⟩
  refine (c75_outs hl _ e he (by decide)).2.2.2.1 ?_
  rw [c31_class _ e he]
  decide

end Poker
