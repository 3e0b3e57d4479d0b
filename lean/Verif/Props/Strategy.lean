import Verif.Proofs.Shuffles
import Verif.Proofs.Sets
import Verif.Spec.Strategy

/-! # What changing cards does to the odds, and a rule that wins: C51 -/

namespace Poker
open Rules Tab Counts Nat Shuffles Game Sets

/-- The cards at the positions `s`. -/
def discards (h : List PCard) (s : List Nat) : List PCard := s.filterMap (fun i => h[i]?)

theorem discards_length {h : List PCard} {s : List Nat} (hl : ∀ i ∈ s, i < h.length) :
    (discards h s).length = s.length := by
  induction s with
  | nil => rfl
  | cons i s ih =>
    rw [discards, List.filterMap_cons_some (List.getElem?_eq_getElem (hl i (by simp))),
      List.length_cons, List.length_cons, ← ih (fun j hj => hl j (by simp [hj]))]
    rfl

theorem mem_discards {h : List PCard} {s : List Nat} {c : PCard} :
    c ∈ discards h s ↔ ∃ i ∈ s, h[i]? = some c := List.mem_filterMap

theorem discards_nodup {h : List PCard} {s : List Nat} (hn : h.Nodup) (hs : s.Nodup) :
    (discards h s).Nodup := by
  refine hs.filterMap ?_
  intro i j c hi hj
  obtain ⟨h1, h2⟩ := List.getElem?_eq_some_iff.1 hi
  obtain ⟨h3, h4⟩ := List.getElem?_eq_some_iff.1 hj
  exact (hn.getElem_inj_iff).1 (h2.trans h4.symm)

theorem mem_kept {h : List PCard} {s : List Nat} {c : PCard} :
    c ∈ kept h s ↔ ∃ i, i ∉ s ∧ h[i]? = some c := by
  rw [kept, Finset.mem_filter]
  constructor
  · rintro ⟨-, i, -, h1, h2⟩
    exact ⟨i, h1, h2⟩
  · rintro ⟨i, h1, h2⟩
    exact ⟨pack_complete c, i, (List.getElem?_eq_some_iff.1 h2).1, h1, h2⟩

theorem kept_eq {h : List PCard} {s : List Nat} (hn : h.Nodup) :
    kept h s = h.toFinset \ (discards h s).toFinset := by
  ext c
  rw [mem_kept, Finset.mem_sdiff, List.mem_toFinset, List.mem_toFinset, mem_discards]
  constructor
  · rintro ⟨i, h1, h2⟩
    refine ⟨List.mem_of_getElem? h2, ?_⟩
    rintro ⟨j, h3, h4⟩
    obtain ⟨a, b⟩ := List.getElem?_eq_some_iff.1 h2
    obtain ⟨a', b'⟩ := List.getElem?_eq_some_iff.1 h4
    have := (hn.getElem_inj_iff).1 (b.trans b'.symm)
    exact h1 (this ▸ h3)
  · rintro ⟨h1, h2⟩
    obtain ⟨i, h3⟩ := List.mem_iff_getElem?.1 h1
    exact ⟨i, fun h4 => h2 ⟨i, h4, h3⟩, h3⟩

theorem discards_deal (h : List PCard) (s : List Nat) :
    s.filterMap (fun i => (deal h)[i]?) = deal (discards h s) := by
  rw [deal, discards, deal, List.map_filterMap]
  simp only [List.getElem?_map]

/-- What `swap_cards` deals. -/
theorem swap_result {h g : List PCard} (hn : (h ++ g).Nodup) {s : List Nat} (hs : s.Nodup)
    (hl : ∀ i ∈ s, i < h.length) (d : Draws) :
    ∃ h' g', swap_cards d.stream s (deal g) (deal h) = .ok (deal g', deal h') ∧ h'.Nodup ∧
      h'.length = h.length ∧ (h' ++ g').Perm (h ++ g) ∧
      h'.toFinset = kept h s ∪ ((result (g ++ discards h s) d).take s.length).toFinset := by
  have hll : ∀ i ∈ s, i < (deal h).length := by simpa [deal] using hl
  have hhn : h.Nodup := (List.nodup_append'.1 hn).1
  set m := result (g ++ discards h s) d with hm
  have hmp : m.Perm (g ++ discards h s) := (shuffle_result _ d).2
  have hsh : Deck.shuffle d.stream (deal g ++ s.filterMap (fun i => (deal h)[i]?)) = .ok (deal m) := by
    rw [discards_deal, deal, deal, deal, ← List.map_append, shuffle_map, (shuffle_result _ d).1]
    rfl
  have hml : m.length = g.length + s.length := by
    rw [hmp.length_eq, List.length_append, discards_length hl]
  have htake : (m.take s.length).length = s.length := by rw [List.length_take]; omega
  have hdm : (deal m).length = m.length := by simp [deal]
  let ps := s.zip (deal (m.take s.length))
  have hdt : (deal (m.take s.length)).length = s.length := by simpa [deal] using htake
  have hfst : ps.map (·.1) = s := List.map_fst_zip (by omega)
  have hsnd : ps.map (·.2) = deal (m.take s.length) := List.map_snd_zip (by omega)
  have hps : ∀ q ∈ ps, q.1 < (deal h).length := fun q hq => hll q.1 (by
    rw [← hfst]; exact List.mem_map.2 ⟨q, hq, rfl⟩)
  have hdtake : (deal m).take s.length = deal (m.take s.length) := by
    rw [deal, deal, List.map_take]
  have hddrop : (deal m).drop s.length = deal (m.drop s.length) := by
    rw [deal, deal, List.map_drop]
  have hrun : swap_cards d.stream s (deal g) (deal h)
      = .ok (deal (m.drop s.length), place (deal h) ps) := by
    unfold swap_cards
    rw [push_ok (deal h) s (deal g) hll, Comb.bind_ok, hsh, Comb.bind_ok, drain_ok (by omega),
      Comb.bind_ok]
    simp only
    rw [hdtake, hddrop, place_ok s _ 0 (deal h) (by omega) hll, Comb.bind_ok, List.drop_zero]
    rfl
  have h1 := place_perm (deal h) ps (by rw [hfst]; exact hs) hps
  rw [hfst, hsnd, discards_deal] at h1
  obtain ⟨h', hh'⟩ : ∃ h', place (deal h) ps = deal h' := by
    have hsub : ∀ c ∈ place (deal h) ps, ∃ p : PCard, Card.new p.1 p.2 = c := by
      intro c hc
      have := h1.mem_iff.1 (List.mem_append_right _ hc)
      rw [deal, deal, ← List.map_append] at this
      obtain ⟨p, -, hp⟩ := List.mem_map.1 this
      exact ⟨p, hp⟩
    generalize place (deal h) ps = l at hsub
    induction l with
    | nil => exact ⟨[], rfl⟩
    | cons c l ih =>
      obtain ⟨p, rfl⟩ := hsub c (by simp)
      obtain ⟨t, rfl⟩ := ih (fun c hc => hsub c (by simp [hc]))
      exact ⟨p :: t, rfl⟩
  rw [hh', deal, deal, deal, deal, ← List.map_append, ← List.map_append] at h1
  have h2 := (List.map_perm_map_iff (fun _ _ => card_inj)).1 h1
  have hperm : (h' ++ m.drop s.length).Perm (h ++ g) := by
    have h3 : (discards h s ++ (h' ++ m.drop s.length)).Perm (discards h s ++ (h ++ g)) := by
      rw [← List.append_assoc]
      refine (h2.append_right _).trans ?_
      refine (List.perm_append_comm.append_right _).trans ?_
      rw [List.append_assoc, List.take_append_drop]
      refine (hmp.append_left _).trans ?_
      rw [← List.append_assoc]
      exact List.perm_append_comm
    exact (List.perm_append_left_iff _).1 h3
  have hnd : (h' ++ m.drop s.length).Nodup := hperm.nodup_iff.2 hn
  have hh'n : h'.Nodup := (List.nodup_append'.1 hnd).1
  refine ⟨h', m.drop s.length, by rw [hrun, hh'], hh'n, ?_, hperm, ?_⟩
  · have := h2.length_eq
    rw [List.length_append, List.length_append, discards_length hl, htake] at this
    omega
  · have hgm : ∀ c ∈ m.take s.length, c ∈ g ∨ c ∈ discards h s := fun c hc =>
      List.mem_append.1 (hmp.mem_iff.1 (List.mem_of_mem_take hc))
    have hall : (discards h s ++ h').Perm (m.take s.length ++ h) := h2
    have hgh : ∀ c ∈ h, c ∉ g := fun c hc hc' => (List.nodup_append'.1 hn).2.2 hc hc'
    have hD : (discards h s).Nodup := discards_nodup hhn hs
    have hmn : m.Nodup := hmp.nodup_iff.2 (by
      refine List.nodup_append'.2 ⟨(List.nodup_append'.1 hn).2.1, hD, ?_⟩
      intro c hc hc'
      obtain ⟨i, -, hi⟩ := mem_discards.1 hc'
      exact hgh c (List.mem_of_getElem? hi) hc)
    have hmt : (m.take s.length).Nodup := hmn.sublist (List.take_sublist _ _)
    ext c
    rw [kept_eq hhn, Finset.mem_union, Finset.mem_sdiff]
    simp only [List.mem_toFinset]
    have hcount := hall.count_eq c
    rw [List.count_append, List.count_append] at hcount
    have hDh : c ∈ discards h s → c ∈ h := fun hc => by
      obtain ⟨i, -, hi⟩ := mem_discards.1 hc
      exact List.mem_of_getElem? hi
    have cnt : ∀ {l : List PCard}, l.Nodup → l.count c = if c ∈ l then 1 else 0 := by
      intro l hl
      exact hl.count
    rw [cnt hD, cnt hh'n, cnt hmt, cnt hhn] at hcount
    have hgm' := hgm c
    have hgh' := hgh c
    by_cases a : c ∈ discards h s <;> by_cases b : c ∈ h' <;> by_cases e : c ∈ m.take s.length <;>
      by_cases f : c ∈ h <;> simp_all


theorem rest_toFinset {h g : List PCard} (hn : (h ++ g).Nodup) (hp : (h ++ g).toFinset = pack)
    {s : List Nat} : (g ++ discards h s).toFinset = pack \ kept h s := by
  have hhn : h.Nodup := (List.nodup_append'.1 hn).1
  have hgh : ∀ c ∈ h, c ∉ g := fun c hc hc' => (List.nodup_append'.1 hn).2.2 hc hc'
  have hDh : ∀ c ∈ discards h s, c ∈ h := fun c hc => by
    obtain ⟨i, -, hi⟩ := mem_discards.1 hc
    exact List.mem_of_getElem? hi
  ext c
  have hc : c ∈ h ∨ c ∈ g := by
    rw [← List.mem_append, ← List.mem_toFinset, hp]
    exact pack_complete c
  rw [kept_eq hhn, Finset.mem_sdiff, Finset.mem_sdiff]
  simp only [List.mem_toFinset, List.mem_append, pack_complete, true_and, not_and, not_not]
  constructor
  · rintro (h1 | h1) h2
    · exact absurd h1 (hgh c h2)
    · exact h1
  · intro h1
    rcases hc with h2 | h2
    · exact .inr (h1 h2)
    · exact .inl h2

theorem rest_nodup {h g : List PCard} (hn : (h ++ g).Nodup) {s : List Nat} (hs : s.Nodup) :
    (g ++ discards h s).Nodup := by
  refine List.nodup_append'.2 ⟨(List.nodup_append'.1 hn).2.1,
    discards_nodup (List.nodup_append'.1 hn).1 hs, ?_⟩
  intro c hc hc'
  obtain ⟨i, -, hi⟩ := mem_discards.1 hc'
  exact (List.nodup_append'.1 hn).2.2 (List.mem_of_getElem? hi) hc

/-- A sum over the choices of the shuffle in `swap_cards` of what depends on the set of cards in the
new hand. -/
theorem swap_sum {h g : List PCard} (hn : (h ++ g).Nodup) (hp : (h ++ g).toFinset = pack)
    (h5 : h.length = 5) {s : List Nat} (hs : s.Nodup) (hl : ∀ i ∈ s, i < 5)
    (hand : Draws → List PCard)
    (hh : ∀ d, ∃ g', swap_cards d.stream s (deal g) (deal h) = .ok (g', deal (hand d)))
    (F : Finset PCard → Nat) :
    (∑ d, F (hand d).toFinset) * (47 + s.length).choose s.length
      = Fintype.card Draws * ∑ x ∈ (pack \ kept h s).powersetCard s.length, F (kept h s ∪ x) := by
  have hl' : ∀ i ∈ s, i < h.length := h5 ▸ hl
  have h47 : g.length = 47 := by
    have := List.toFinset_card_of_nodup hn
    rw [hp, pack_card, List.length_append] at this
    omega
  have hlen : (g ++ discards h s).length = 47 + s.length := by
    rw [List.length_append, discards_length hl', h47]
  have h5' : s.length ≤ 5 := by
    have := List.Nodup.subperm hs (l₂ := List.range 5) (fun i hi => List.mem_range.2 (hl i hi))
    simpa using this.length_le
  have key := sum_tops (rest_nodup hn hs) (by omega) (k := s.length) (by omega)
    (fun x => F (kept h s ∪ x))
  rw [hlen, rest_toFinset hn hp] at key
  rw [← key]
  have e : ∀ d, F (hand d).toFinset
      = F (kept h s ∪ ((result (g ++ discards h s) d).take s.length).toFinset) := fun d => by
    obtain ⟨h', g', h1, -, -, -, h2⟩ := swap_result hn hs hl' d
    obtain ⟨g'', h3⟩ := hh d
    rw [h1, Except.ok.injEq, Prod.mk.injEq] at h3
    rw [← deal_injective h3.2, h2]
  rw [Finset.sum_congr rfl (fun d _ => e d)]

open Classical in
theorem ncard_sum {ι : Type} [Fintype ι] (q : ι → Prop) :
    {i | q i}.ncard = ∑ i, if q i then 1 else 0 := by
  rw [Set.ncard_eq_toFinset_card', Finset.card_eq_sum_ones, Set.toFinset_ofPred, Finset.sum_filter]

open Classical in
theorem ways_sum (q : Draws → Prop) : ways q = ∑ d, if q d then 1 else 0 := ncard_sum q

theorem ncard_all {ι : Type} [Fintype ι] : {_i : ι | True}.ncard = Fintype.card ι := by
  rw [Set.ofPred_true, Set.ncard_univ, Nat.card_eq_fintype_card]

theorem ways_all : ways (fun _ => True) = Fintype.card Draws := ncard_all

open Classical in
/-- C51: when cards are changed, every set of new cards is equally likely, and it comes from all cards
but the ones that are kept: also from those that were put back. -/
theorem c51_swap {ev : Evaluator} (hev : Evaluator.new = .ok ev) {h g : List PCard}
    (hn : (h ++ g).Nodup) (hp : (h ++ g).toFinset = pack) (h5 : h.length = 5) {s : List Nat}
    (hs : s.Nodup) (hl : ∀ i ∈ s, i < 5) (q : Eval → Prop) :
    ways (Changes ev s h g q) * (47 + s.length).choose s.length
      = (((pack \ kept h s).powersetCard s.length).filter (fun x => Gets q (kept h s ∪ x))).card
        * ways (fun _ => True) := by
  choose hand g' h1 h2 h3 h4 h6 using swap_result hn hs (h5 ▸ hl)
  have e : ∀ d, (if Changes ev s h g q d then 1 else 0)
      = if Gets q (hand d).toFinset then 1 else 0 := by
    intro d
    refine if_congr ?_ rfl rfl
    rw [(c45_order q (hand d) (h2 d)).2, evaluateHand, hev, Comb.bind_ok]
    constructor
    · rintro ⟨_, _, e, ha, hb, hc⟩
      rw [h1 d, Except.ok.injEq, Prod.mk.injEq] at ha
      rw [← ha.2] at hb
      exact ⟨e, hb, hc⟩
    · rintro ⟨e, hb, hc⟩
      exact ⟨_, _, e, h1 d, hb, hc⟩
  rw [ways_sum, Finset.sum_congr rfl (fun d _ => e d),
    swap_sum hn hp h5 hs hl hand (fun d => ⟨_, h1 d⟩) (fun x => if Gets q x then 1 else 0), ways_all,
    Nat.mul_comm, ← Finset.sum_filter, Finset.card_eq_sum_ones]

/-- C51: changing all five cards is a fresh deal, whatever the hand was. -/
theorem c51_all {ev : Evaluator} (hev : Evaluator.new = .ok ev) {h g : List PCard}
    (hn : (h ++ g).Nodup) (hp : (h ++ g).toFinset = pack) (h5 : h.length = 5) {s : List Nat}
    (hs : s.Nodup) (hl : ∀ i ∈ s, i < 5) (hs5 : s.length = 5) (q : Eval → Prop) :
    ways (Changes ev s h g q) * 2598960 = handsWith q * ways (fun _ => True) := by
  have key := c51_swap hev hn hp h5 hs hl q
  have hk : kept h s = ∅ := by
    rw [Finset.eq_empty_iff_forall_notMem]
    intro c hc
    obtain ⟨i, h1, h2⟩ := mem_kept.1 hc
    have hi : i < 5 := h5 ▸ (List.getElem?_eq_some_iff.1 h2).1
    have hperm : s.Perm (List.range 5) :=
      (List.Nodup.subperm hs (l₂ := List.range 5) (fun i hi => List.mem_range.2 (hl i hi))).perm_of_length_le
        (by rw [hs5, List.length_range])
    exact h1 (hperm.mem_iff.2 (List.mem_range.2 hi))
  rw [hs5, hk, Finset.sdiff_empty] at key
  rw [show Nat.choose (47 + 5) 5 = 2598960 from by
    rw [Nat.choose_eq_descFactorial_div_factorial]; decide +kernel] at key
  rw [key, handsWith, fiveCardHands]
  refine congrArg (· * ways fun _ => True) (congrArg Finset.card ?_)
  classical
  ext x
  rw [Finset.mem_filter, Finset.mem_filter, Finset.empty_union]

/-- What a result says about the kind. -/
theorem gets_kind {x : Finset PCard} (hx : x.card = 5) {q : Eval → Prop} {Q : Nat → Bool}
    (hq : ∀ h e, h.length = 5 → evaluateHand h = .ok (.ok e) → (q e ↔ Q (classKind e.class') = true)) :
    Gets q x ↔ Q (setKind x) = true := by
  have hn : x.toList.Nodup := x.nodup_toList
  have h5 : x.toList.length = 5 := by rw [Finset.length_toList, hx]
  have h1 := (c45_order q x.toList hn).2
  rw [Finset.toList_toFinset] at h1
  rw [h1]
  obtain ⟨e, he, -⟩ := c01_class x.toList hn h5
  rw [setKind, kind_class h5 he, ← hq _ e h5 he]
  constructor
  · rintro ⟨e', he', h⟩
    rw [he, Except.ok.injEq, Except.ok.injEq] at he'
    exact he' ▸ h
  · exact fun h => ⟨e, he, h⟩

open Classical in
/-- C51: whoever keeps a pair and changes the other three cards gets four of a kind in 48 of 19600
cases, a full house in 192, three of a kind in 2112, two pairs in 3168, and just the pair in 14080. -/
theorem c51_pair {ev : Evaluator} (hev : Evaluator.new = .ok ev) {h g : List PCard}
    (hn : (h ++ g).Nodup) (hp : (h ++ g).toFinset = pack) (h5 : h.length = 5) {s : List Nat}
    (hs : s.Nodup) (hl : ∀ i ∈ s, i < 5) (hs3 : s.length = 3) {r : Rank} {a b : Suit} (hab : a ≠ b)
    (hk : kept h s = {(r, a), (r, b)}) :
    ways (Changes ev s h g (fun e => e.is_four_of_a_kind)) * 19600 = 48 * ways (fun _ => True) ∧
    ways (Changes ev s h g (fun e => e.is_full_house)) * 19600 = 192 * ways (fun _ => True) ∧
    ways (Changes ev s h g (fun e => e.is_three_of_a_kind)) * 19600 = 2112 * ways (fun _ => True) ∧
    ways (Changes ev s h g (fun e => e.is_two_pair)) * 19600 = 3168 * ways (fun _ => True) ∧
    ways (Changes ev s h g (fun e => e.is_pair)) * 19600 = 14080 * ways (fun _ => True) := by
  have key : ∀ (q : Eval → Prop) (Q : Nat → Bool) (n : Nat),
      (∀ h e, h.length = 5 → evaluateHand h = .ok (.ok e) → (q e ↔ Q (classKind e.class') = true)) →
      ((List.range 11).map (fun k => (completions r).getD k 0 * if Q k then 1 else 0)).sum = n →
      ways (Changes ev s h g q) * 19600 = n * ways (fun _ => True) := by
    intro q Q n hq hsum
    have h1 := c51_swap hev hn hp h5 hs hl q
    rw [hs3, show Nat.choose (47 + 3) 3 = 19600 from by
      rw [Nat.choose_eq_descFactorial_div_factorial]; decide +kernel, hk] at h1
    rw [h1]
    refine congrArg (· * ways fun _ => True) ?_
    rw [← hsum, ← pair_sum r a b hab (fun k => if Q k then 1 else 0), Finset.card_eq_sum_ones,
      Finset.sum_filter]
    refine Finset.sum_congr rfl (fun x hx => if_congr (gets_kind ?_ hq) rfl rfl)
    obtain ⟨hx1, hx2⟩ := Finset.mem_powersetCard.1 hx
    rw [Finset.card_union_of_disjoint, hx2, Finset.card_pair (by simpa using hab)]
    exact (Finset.subset_sdiff.1 hx1).2.symm
  have fin : ∀ (Q : Nat → Bool) (n : Nat),
      ((List.range 11).map (fun k => (completions .Two).getD k 0 * bif Q k then 1 else 0)).sum = n →
      ((List.range 11).map (fun k => (completions .Ace).getD k 0 * bif Q k then 1 else 0)).sum = n →
      ((List.range 11).map (fun k => (completions r).getD k 0 * if Q k then 1 else 0)).sum = n := by
    intro Q n h2 hA
    simp only [← Bool.cond_eq_ite]
    cases r <;> assumption
  refine ⟨key _ (· == 7) _ (fun h e _ _ => ?_) (fin _ _ (by decide) (by decide)),
    key _ (· == 6) _ (fun h e _ _ => ?_) (fin _ _ (by decide) (by decide)),
    key _ (· == 3) _ (fun h e _ _ => ?_) (fin _ _ (by decide) (by decide)),
    key _ (· == 2) _ (fun h e _ _ => ?_) (fin _ _ (by decide) (by decide)),
    key _ (fun k => k == 1 || k == 10) _ (fun h e _ _ => ?_) (fin _ _ (by decide) (by decide))⟩
  · rw [(c09_agree e).2.2.2.2.2.2.2.1]
    cases e.class' <;> simp [classKind]
    all_goals first | omega | (split <;> omega)
  · rw [(c09_agree e).2.2.2.2.2.2.1]
    cases e.class' <;> simp [classKind]
    all_goals first | omega | (split <;> omega)
  · rw [(c09_agree e).2.2.2.1]
    cases e.class' <;> simp [classKind]
    all_goals first | omega | (split <;> omega)
  · rw [(c09_agree e).2.2.1]
    cases e.class' <;> simp [classKind]
    all_goals first | omega | (split <;> omega)
  · rw [(c09_agree e).2.1]
    cases e.class' <;> simp [classKind]
    all_goals first | omega | (split <;> omega)

/-! ## What a round is worth -/

/-- What comes back for a wager, by the kind of the hand. -/
def back (w k : Nat) : Nat :=
  match k with
  | 0 => 0
  | 1 => 0
  | 2 => 3 * w
  | 3 => 4 * w
  | 4 => 5 * w
  | 5 => 7 * w
  | 6 => 10 * w
  | 7 => 26 * w
  | 8 => 51 * w
  | 9 => if w = 5 then 4005 else 251 * w
  | _ => 2 * w

theorem evaluate_deal {p : List PCard} (hn : p.Nodup) (h5 : p.length = 5) :
    ∃ e, Held p (deal p) e := by
  obtain ⟨e, he, -⟩ := c01_class p hn h5
  exact ⟨e, hn, h5, rfl, he⟩

theorem back_prize {p : List PCard} (hn : p.Nodup) (h5 : p.length = 5) {w : Nat} (h1 : 1 ≤ w)
    (hw : w ≤ 5) :
    back w (kind (strength p)) = if prize w p = 0 then 0 else w + prize w p := by
  obtain ⟨e, he⟩ := evaluate_deal hn h5
  have hp := payout_held he hw
  rw [kind_class h5 he.2.2.2]
  generalize prize w p = z at hp
  revert hp
  generalize e.class' = c
  intro hp
  have hmul : ∀ n, n ≤ 250 → usizeMul n w = .ok (n * w) := by
    intro n hn
    have : n * w ≤ 250 * 5 := Nat.mul_le_mul hn hw
    rw [usizeMul, USIZE, if_pos (by omega)]
  have fin : ∀ n m : Nat, payout w c = .ok n → back w (classKind c) = m →
      (n = 0 → m = 0) → (n ≠ 0 → m = w + n) →
      back w (classKind c) = if z = 0 then 0 else w + z := by
    intro n m h1 h2 h3 h4
    rw [hp, Except.ok.injEq] at h1
    subst h1
    rw [h2]
    split
    · exact h3 ‹_›
    · exact h4 ‹_›
  cases c with
  | Pair r =>
    cases r
    case Jack | Queen | King | Ace => exact fin w (2 * w) rfl rfl (by omega) (by omega)
    all_goals exact fin 0 0 rfl rfl (by omega) (by omega)
  | HighCard r => exact fin 0 0 rfl rfl (by omega) (by omega)
  | TwoPair a b => exact fin (2 * w) (3 * w) (hmul _ (by decide)) rfl (by omega) (by omega)
  | ThreeOfAKind a => exact fin (3 * w) (4 * w) (hmul _ (by decide)) rfl (by omega) (by omega)
  | Straight a => exact fin (4 * w) (5 * w) (hmul _ (by decide)) rfl (by omega) (by omega)
  | Flush a => exact fin (6 * w) (7 * w) (hmul _ (by decide)) rfl (by omega) (by omega)
  | FullHouse a b => exact fin (9 * w) (10 * w) (hmul _ (by decide)) rfl (by omega) (by omega)
  | FourOfAKind a => exact fin (25 * w) (26 * w) (hmul _ (by decide)) rfl (by omega) (by omega)
  | StraightFlush r =>
    cases r
    case Ace =>
      by_cases h : w = 5
      · subst h
        exact fin 4000 4005 rfl rfl (by omega) (by omega)
      · exact fin (250 * w) (251 * w) (by rw [payout, if_neg (show ¬ w = MAX_WAGER from h)]; exact hmul _ (by decide))
          (by simp [classKind, back, h]) (by omega) (by omega)
    all_goals exact fin (50 * w) (51 * w) (hmul _ (by decide)) rfl (by omega) (by omega)

theorem odds_prize (p : List PCard) : prize 1 p = odds p := by
  rw [prize, if_neg (by omega), Nat.mul_one]

theorem odds_pos {p : List PCard} (hn : p.Nodup) (h5 : p.length = 5) :
    0 < odds p ↔ kind (strength p) ≠ 0 ∧ kind (strength p) ≠ 1 := by
  have h1 := back_prize hn h5 (w := 1) (by decide) (by decide)
  rw [odds_prize] at h1
  have h2 : odds p = back 1 (kind (strength p)) - 1 := by
    split at h1 <;> omega
  rw [h2]
  generalize kind (strength p) = k at *
  match k with
  | 0 => simp [back]
  | 1 => simp [back]
  | 2 | 3 | 4 | 5 | 6 | 7 | 8 | 9 => simp [back]
  | n + 10 => simp [back]

/-- The rule, by the kind of the hand. -/
theorem advice_paid {h : List PCard} (hn : h.Nodup) (h5 : h.length = 5)
    (h0 : kind (strength h) ≠ 0) (h1 : kind (strength h) ≠ 1) : advice h = [] := by
  rw [advice, if_pos ((odds_pos hn h5).2 ⟨h0, h1⟩)]

theorem advice_filter {h : List PCard} (hn : h.Nodup) (h5 : h.length = 5)
    (hk : kind (strength h) = 0 ∨ kind (strength h) = 1) :
    advice h = (List.range 5).filter (fun i => (values h).count ((values h).getD i 0) == 1) := by
  rw [advice, if_neg (fun ho => by have := (odds_pos hn h5).1 ho; omega), h5]

theorem advice_spec {h : List PCard} (h5 : h.length = 5) :
    (advice h).Nodup ∧ ∀ i ∈ advice h, i < 5 := by
  rw [advice]
  split
  · exact ⟨List.nodup_nil, by simp⟩
  · exact ⟨List.nodup_range.filter _, fun i hi => h5 ▸ List.mem_range.1 (List.mem_of_mem_filter hi)⟩

theorem kind_low (k : Nat) (l : List Nat) :
    (kind (k, l) = 0 → k = 0) ∧ (kind (k, l) = 1 → k = 1 ∧ l.getD 0 0 < 11) := by
  match k, l with
  | 8, t :: l => simp only [kind]; split <;> simp
  | 8, [] => simp [kind]
  | 1, [] => simp [kind]
  | 1, p :: l =>
    simp only [kind]
    split
    · simp
    · simp; omega
  | 0, l => simp [kind]
  | 2, l | 3, l | 4, l | 5, l | 6, l | 7, l => simp [kind]
  | n + 9, l => simp [kind]

theorem value_getD {h : List PCard} {i : Nat} {c : PCard} (hi : h[i]? = some c) :
    (values h).getD i 0 = pips c.1 := by
  rw [List.getD, values, List.getElem?_map, hi]
  rfl

theorem kept_card {h : List PCard} (hn : h.Nodup) {s : List Nat} (hs : s.Nodup)
    (hl : ∀ i ∈ s, i < h.length) : (kept h s).card + s.length = h.length := by
  have hsub : (discards h s).toFinset ⊆ h.toFinset := by
    intro c hc
    obtain ⟨i, -, hi⟩ := mem_discards.1 (List.mem_toFinset.1 hc)
    exact List.mem_toFinset.2 (List.mem_of_getElem? hi)
  have h1 := Finset.card_sdiff_add_card_eq_card hsub
  rw [← kept_eq hn, List.toFinset_card_of_nodup (discards_nodup hn hs), discards_length hl,
    List.toFinset_card_of_nodup hn] at h1
  exact h1

/-- What the rule keeps of a hand that does not pay: the cards whose value occurs twice. -/
theorem kept_advice {h : List PCard} (hn : h.Nodup) (h5 : h.length = 5)
    (hk : kind (strength h) = 0 ∨ kind (strength h) = 1) (c : PCard) :
    c ∈ kept h (advice h) ↔ c ∈ h ∧ 2 ≤ (values h).count (pips c.1) := by
  have hone : ∀ c ∈ h, 1 ≤ (values h).count (pips c.1) := fun c hc =>
    List.one_le_count_iff.2 (List.mem_map.2 ⟨c, hc, rfl⟩)
  rw [mem_kept, advice_filter hn h5 hk]
  constructor
  · rintro ⟨i, h1, h2⟩
    have hc := List.mem_of_getElem? h2
    refine ⟨hc, ?_⟩
    have hi : i < 5 := h5 ▸ (List.getElem?_eq_some_iff.1 h2).1
    rw [List.mem_filter, value_getD h2] at h1
    have := hone c hc
    by_contra h3
    exact h1 ⟨List.mem_range.2 hi, by rw [beq_iff_eq]; omega⟩
  · rintro ⟨hc, h2⟩
    obtain ⟨i, hi⟩ := List.mem_iff_getElem?.1 hc
    refine ⟨i, fun h1 => ?_, hi⟩
    have := (List.mem_filter.1 h1).2
    rw [value_getD hi, beq_iff_eq] at this
    omega

theorem values_distinct {h : List PCard} (hn : h.Nodup) (h5 : h.length = 5)
    (h0 : (strength h).1 = 0) (v : Nat) : (values h).count v ≤ 1 := by
  rw [Cat.category_five hn h5] at h0
  by_contra hv
  have hv : 2 ≤ (values h).count v := by omega
  have hmem : v ∈ values h := List.one_le_count_iff.1 (by omega)
  have : hasPair h = true := by
    rw [hasPair, List.any_eq_true]
    exact ⟨v, values_mem h v hmem, by simpa using hv⟩
  have := Cat.le_category (k := 1) (h := h) (by decide) (by simpa [Cat.has] using this)
  omega

theorem advice_high {h : List PCard} (hn : h.Nodup) (h5 : h.length = 5)
    (hk : kind (strength h) = 0) : (advice h).length = 5 ∧ kept h (advice h) = ∅ := by
  have h1 : kept h (advice h) = ∅ := by
    rw [Finset.eq_empty_iff_forall_notMem]
    intro c hc
    have h2 := ((kept_advice hn h5 (.inl hk) c).1 hc).2
    have h3 := values_distinct hn h5 ((kind_low _ _).1 hk) (pips c.1)
    omega
  have h2 := kept_card hn (advice_spec h5).1 (h5 ▸ (advice_spec h5).2)
  rw [h1, Finset.card_empty] at h2
  exact ⟨by omega, h1⟩

theorem advice_pair {h : List PCard} (hn : h.Nodup) (h5 : h.length = 5)
    (hk : kind (strength h) = 1) : (advice h).length = 3 ∧ ∃ r a b, a ≠ b ∧ pips r < 11 ∧
      kept h (advice h) = {(r, a), (r, b)} := by
  obtain ⟨hs1, hs2⟩ := (kind_low _ _).2 hk
  obtain ⟨v, hv, h0, h2, huniq⟩ := pair_head (fl := Rules.flush h) (values_mem h)
    (count_le_four hn) hs1
  have hv11 : v < 11 := h0 ▸ hs2
  rw [Cat.count_values] at h2
  obtain ⟨x, y, hxy⟩ := List.length_eq_two.1 h2
  have hmem : ∀ c, c ∈ kept h (advice h) ↔ c ∈ [x, y] := by
    intro c
    rw [kept_advice hn h5 (.inr hk), ← hxy, List.mem_filter, beq_iff_eq]
    refine and_congr_right (fun hc => ⟨huniq _, fun hv => ?_⟩)
    rw [hv, Cat.count_values, h2]
  have hne : x ≠ y := by
    have := hn.filter (fun c => pips c.1 == v)
    rw [hxy] at this
    simpa using this
  have hx : pips x.1 = v := by
    have : x ∈ h.filter (fun c => pips c.1 == v) := by rw [hxy]; simp
    simpa using (List.mem_filter.1 this).2
  have hy : pips y.1 = v := by
    have : y ∈ h.filter (fun c => pips c.1 == v) := by rw [hxy]; simp
    simpa using (List.mem_filter.1 this).2
  have hr : x.1 = y.1 := pips_inj (hx.trans hy.symm)
  have hkept : kept h (advice h) = {(x.1, x.2), (x.1, y.2)} := by
    ext c
    rw [hmem, Finset.mem_insert, Finset.mem_singleton, hr, ← hr]
    simp only [List.mem_cons, List.not_mem_nil, or_false]
    rw [show ((x.1, y.2) : PCard) = y from by rw [hr]]
  have hs : x.2 ≠ y.2 := fun h => hne (Prod.ext hr h)
  refine ⟨?_, x.1, x.2, y.2, hs, hx ▸ hv11, hkept⟩
  have h3 := kept_card hn (advice_spec h5).1 (h5 ▸ (advice_spec h5).2)
  rw [hkept, Finset.card_pair (a := (x.1, x.2)) (b := (x.1, y.2)) 
    (fun h => hs (Prod.mk.inj h).2)] at h3
  omega

/-- All that comes back for a wager over all hands. -/
def allBack (w : Nat) : Nat := ((List.range 11).map (fun k => tally k * back w k)).sum

/-- What a hand of a kind is worth to whoever plays by the rule, in parts of 2598960 · 19600. -/
def worthBy (w k : Nat) : Nat :=
  match k with
  | 0 => allBack w * 19600
  | 1 => 21120 * w * 2598960
  | k => back w k * 50939616000

/-- The same for any worth `F` of the kinds of the second hand. -/
def worthOf (F : Nat → Nat) (k : Nat) : Nat :=
  match k with
  | 0 => ((List.range 11).map (fun k => tally k * F k)).sum * 19600
  | 1 => ((List.range 11).map
      (fun k => [0, 14080, 3168, 2112, 0, 0, 192, 48, 0, 0, 0].getD k 0 * F k)).sum * 2598960
  | k => F k * 50939616000

theorem sum_const {ι : Type} [Fintype ι] (c : Nat) : ∑ _i : ι, c = Fintype.card ι * c := by
  rw [Finset.sum_const, Finset.card_univ, smul_eq_mul]

theorem completions_low {r : Rank} (hr : pips r < 11) :
    completions r = [0, 14080, 3168, 2112, 0, 0, 192, 48, 0, 0, 0] := by
  rw [completions, if_neg (by omega)]

theorem worthOf_back (w k : Nat) : worthOf (back w) k = worthBy w k := by
  match k with
  | 0 => rfl
  | 1 =>
    rw [worthOf, worthBy]
    have : List.range 11 = [0, 1, 2, 3, 4, 5, 6, 7, 8, 9, 10] := by decide
    rw [this]
    simp [back]
    omega
  | k + 2 => rfl

/-- The second hand of whoever plays by the rule. -/
theorem second_kinds {h g : List PCard} (hn : (h ++ g).Nodup) (hp : (h ++ g).toFinset = pack)
    (h5 : h.length = 5) : ∃ hand : Draws → List PCard,
      (∀ d, ∃ g', replace d.stream (advice h) (deal g) (deal h) = .ok (deal g', deal (hand d)) ∧
        (hand d).Nodup ∧ (hand d).length = 5) ∧
      ∀ F : Nat → Nat, (∑ d, F (setKind (hand d).toFinset)) * 50939616000
        = Fintype.card Draws * worthOf F (kind (strength h)) := by
  have hhn := (List.nodup_append'.1 hn).1
  have hrep : ∀ (s : List Nat) (d : Draws), s.length ≠ 0 →
      replace d.stream s (deal g) (deal h) = swap_cards d.stream s (deal g) (deal h) := by
    intro s d hs
    rw [replace, if_pos]
    cases s with
    | nil => exact absurd rfl hs
    | cons a s => rfl
  by_cases h0 : kind (strength h) = 0
  · obtain ⟨ha, hk⟩ := advice_high hhn h5 h0
    choose hand g' h1 h2 h3 h4 h6 using
      swap_result hn (advice_spec h5).1 (h5 ▸ (advice_spec h5).2)
    refine ⟨hand, fun d => ⟨g' d, ?_, h2 d, (h3 d).trans h5⟩, fun F => ?_⟩
    · rw [hrep _ _ (by omega), h1 d]
    · have := swap_sum hn hp h5 (advice_spec h5).1 (advice_spec h5).2 hand (fun d => ⟨_, h1 d⟩)
        (fun x => F (setKind x))
      rw [hk, ha, Finset.sdiff_empty, show Nat.choose (47 + 5) 5 = 2598960 from by
        rw [Nat.choose_eq_descFactorial_div_factorial]; decide +kernel] at this
      simp only [Finset.empty_union] at this
      rw [show (50939616000 : Nat) = 2598960 * 19600 from rfl, ← Nat.mul_assoc, this, h0, worthOf,
        ← five_sum F, fiveCardHands, Nat.mul_assoc]
  · by_cases h1' : kind (strength h) = 1
    · obtain ⟨ha, r, a, b, hab, hr, hk⟩ := advice_pair hhn h5 h1'
      choose hand g' h1 h2 h3 h4 h6 using
        swap_result hn (advice_spec h5).1 (h5 ▸ (advice_spec h5).2)
      refine ⟨hand, fun d => ⟨g' d, ?_, h2 d, (h3 d).trans h5⟩, fun F => ?_⟩
      · rw [hrep _ _ (by omega), h1 d]
      · have := swap_sum hn hp h5 (advice_spec h5).1 (advice_spec h5).2 hand (fun d => ⟨_, h1 d⟩)
          (fun x => F (setKind x))
        rw [hk, ha, pair_sum r a b hab F, completions_low hr,
          show Nat.choose (47 + 3) 3 = 19600 from by
            rw [Nat.choose_eq_descFactorial_div_factorial]; decide +kernel] at this
        rw [show (50939616000 : Nat) = 19600 * 2598960 from rfl, ← Nat.mul_assoc, this, h1', worthOf,
          Nat.mul_assoc]
    · refine ⟨fun _ => h, fun d => ⟨g, ?_, hhn, h5⟩, fun F => ?_⟩
      · rw [advice_paid hhn h5 h0 h1']
        rfl
      · rw [sum_const, setKind_list hhn, Nat.mul_assoc]
        refine congrArg (Fintype.card Draws * ·) ?_
        generalize kind (strength h) = k at h0 h1'
        match k with
        | 0 => exact absurd rfl h0
        | 1 => exact absurd rfl h1'
        | k + 2 => rfl

theorem second_hand {h g : List PCard} (hn : (h ++ g).Nodup) (hp : (h ++ g).toFinset = pack)
    (h5 : h.length = 5) : ∃ hand : Draws → List PCard,
      (∀ d, ∃ g', replace d.stream (advice h) (deal g) (deal h) = .ok (deal g', deal (hand d)) ∧
        (hand d).Nodup ∧ (hand d).length = 5) ∧
      ∀ w, (∑ d, back w (setKind (hand d).toFinset)) * 50939616000
        = Fintype.card Draws * worthBy w (kind (strength h)) := by
  obtain ⟨hand, h1, h2⟩ := second_kinds hn hp h5
  exact ⟨hand, h1, fun w => (h2 (back w)).trans (by rw [worthOf_back])⟩

theorem swaps_step {ev : Evaluator} (hev : Evaluator.new = .ok ev) (i : Input) (hi : ∀ k, i.drawRound k ≤ k)
    {c w : Nat} {h g h' g' : List PCard} {e : Eval} {s : List Nat} (hc : Chooses i.line s)
    (hh : Held h (deal h) e) (hr : replace i.drawSwap s (deal g) (deal h) = .ok (deal g', deal h'))
    (hn : h'.Nodup) (h5 : h'.length = 5) (hw1 : 1 ≤ w) (hw : w ≤ 5) (hb : c + w + 4000 < 2 ^ 64) :
    ∃ t out, Game.step ev i (.swaps c w e (deal g) (deal h)) = .ok (t, out) ∧
      t.credits = c + back w (setKind h'.toFinset) := by
  obtain ⟨e', hh'⟩ := evaluate_deal hn h5
  have heval : ev.evaluate (deal h') = .ok (.ok e') := by
    have := hh'.2.2.2
    rwa [evaluateHand, hev, Comb.bind_ok] at this
  obtain ⟨ln, ws, ns, hln, hq, hrest⟩ := hc
  have hg : get_swaps i.order i.line = .ok (.accept s) := by
    rw [hln]
    exact ((c40_swaps i.order).2.2 ln s).2 ⟨hq, ws, ns, hrest⟩
  have hline := c43_hand hh'
  have hcmp := c43_verdict hh hh'
  have hpay := payout_held hh' hw
  have hle := prize_le hw h'
  obtain ⟨deck'', hsh, -⟩ := shuffle_ok i.drawRound hi (deal g' ++ deal h')
  rw [setKind_list hn, back_prize hn h5 hw1 hw]
  rw [Game.step, hg, Comb.bind_ok]
  simp only
  unfold afterSwaps
  rw [hr]
  simp only [Comb.bind_ok, heval, unwrap, hline, hpay]
  by_cases hz : prize w h' = 0
  · have hcol : collect c w (prize w h') = .ok c := by rw [collect, if_neg (by omega)]
    rw [hcol, Comb.bind_ok, if_pos hz]
    by_cases hc0 : c = 0
    · rw [if_pos hc0]
      exact ⟨_, _, rfl, rfl⟩
    · rw [if_neg hc0, hsh]
      exact ⟨_, _, rfl, rfl⟩
  · have h1 : usizeAdd w (prize w h') = .ok (w + prize w h') := by
      rw [usizeAdd, USIZE, if_pos (by omega)]
    have h2 : usizeAdd c (w + prize w h') = .ok (c + (w + prize w h')) := by
      rw [usizeAdd, USIZE, if_pos (by omega)]
    have hcol : collect c w (prize w h') = .ok (c + (w + prize w h')) := by
      rw [collect, if_pos (by omega), h1, Comb.bind_ok, h2]
    rw [hcol, Comb.bind_ok, if_neg (by omega), hsh, if_neg hz]
    exact ⟨_, _, rfl, rfl⟩

theorem sums {ι : Type} [Fintype ι] {D Q c X : Nat} (f : ι → ι → Nat) (g : ι → Nat)
    (h1 : ∀ i, (∑ j, f i j) * 50939616000 = Fintype.card ι * g i)
    (h2 : (∑ i, g i) * 2598960 = Fintype.card ι * (D * X)) (hD : D * Q = 2598960 * 50939616000)
    (hD0 : 0 < D) :
    (∑ i, ∑ j, (c + f i j)) * Q = Fintype.card ι ^ 2 * (c * Q + X) := by
  have h3 : (∑ i, ∑ j, f i j) * 50939616000 = Fintype.card ι * ∑ i, g i := by
    rw [Finset.sum_mul, Finset.mul_sum]
    exact Finset.sum_congr rfl (fun i _ => h1 i)
  have h4 : (∑ i, ∑ j, (c + f i j)) = Fintype.card ι ^ 2 * c + ∑ i, ∑ j, f i j := by
    simp only [Finset.sum_add_distrib, sum_const]
    rw [Nat.pow_two, Nat.mul_assoc]
  generalize (∑ i, ∑ j, f i j) = F at *
  generalize (∑ i, g i) = G at *
  generalize Fintype.card ι = N at *
  have h5 : F * Q = N ^ 2 * X := by
    refine Nat.eq_of_mul_eq_mul_left hD0 ?_
    calc D * (F * Q) = F * (D * Q) := by ring
      _ = (F * 50939616000) * 2598960 := by rw [hD]; ring
      _ = N * (G * 2598960) := by rw [h3]; ring
      _ = D * (N ^ 2 * X) := by rw [h2]; ring
  rw [h4, Nat.add_mul, h5]
  ring

theorem worthBy_sum {w : Nat} (hw1 : 1 ≤ w) (hw : w ≤ 5) :
    ((List.range 11).map (fun k => tally k * worthBy w k)).sum
      = 239904000 * (623208741 * w + if w = 5 then 3506250 else 0) := by
  have : w = 1 ∨ w = 2 ∨ w = 3 ∨ w = 4 ∨ w = 5 := by omega
  rcases this with rfl | rfl | rfl | rfl | rfl <;> decide +kernel

/-- The second hands of a round of whoever plays by a rule `adv`, and the average over all of them of a
worth `F` of their kinds. -/
theorem round_kinds {adv : List PCard → List Nat} {F value : Nat → Nat} {D Q X : Nat} {ev : Evaluator}
    (hev : Evaluator.new = .ok ev) {l : List Card}
    (hl : l.Perm Deck.generate) {c w : Nat} (hc : c + 4000 < 2 ^ 64) {bet : Input}
    (hb : Bets bet.line c w) {choice : List PCard → Input}
    (ha : ∀ h, h.Nodup → h.length = 5 → Chooses (choice h).line (adv h))
    (hr : ∀ h k, (choice h).drawRound k ≤ k)
    (second : ∀ h g : List PCard, (h ++ g).Nodup → (h ++ g).toFinset = pack → h.length = 5 →
      ∃ hand : Draws → List PCard,
      (∀ d, ∃ g', replace d.stream (adv h) (deal g) (deal h) = .ok (deal g', deal (hand d)) ∧
        (hand d).Nodup ∧ (hand d).length = 5) ∧
      (∑ d, F (setKind (hand d).toFinset)) * 50939616000
        = Fintype.card Draws * value (kind (strength h)))
    (hX : ((List.range 11).map (fun k => tally k * value k)).sum = D * X)
    (hD : D * Q = 2598960 * 50939616000) (hD0 : 0 < D) :
    ∃ last : Draws → Draws → List PCard,
      (∀ d₁ d₂ c', Round ev l c bet choice d₁ d₂ c' ↔ c' = c - w + back w (setKind (last d₁ d₂).toFinset)) ∧
      ∀ b, (∑ d₁, ∑ d₂, (b + F (setKind (last d₁ d₂).toFinset))) * Q
        = Fintype.card Draws ^ 2 * (b * Q + X) := by
  obtain ⟨-, -, -, hw1, hw5, hwc⟩ := id hb
  obtain ⟨L, rfl, hLn, hLp⟩ := perm_generate.1 hl
  have h52 : L.length = 52 := by rw [← List.toFinset_card_of_nodup hLn, hLp, pack_card]
  have hpm := fun d => (shuffle_result L d).2
  have hlen : ∀ d, (result L d).length = 52 := fun d => (hpm d).length_eq.trans h52
  have hsplit : ∀ d, (result L d).take 5 ++ (result L d).drop 5 = result L d :=
    fun d => List.take_append_drop _ _
  have hn : ∀ d, ((result L d).take 5 ++ (result L d).drop 5).Nodup := fun d => by
    rw [hsplit]; exact (hpm d).nodup_iff.2 hLn
  have hp : ∀ d, ((result L d).take 5 ++ (result L d).drop 5).toFinset = pack := fun d => by
    rw [hsplit, List.toFinset_eq_of_perm _ _ (hpm d), hLp]
  have h5 : ∀ d, ((result L d).take 5).length = 5 := fun d => by
    rw [List.length_take, hlen]; rfl
  have hhn : ∀ d, ((result L d).take 5).Nodup := fun d => (List.nodup_append'.1 (hn d)).1
  choose hand hsec hsum using fun d => second _ _ (hn d) (hp d) (h5 d)
  refine ⟨hand, ?_, fun b => ?_⟩
  · intro d₁ d₂ c'
    have hm : Deck.shuffle d₁.stream (deal L) = .ok (deal (result L d₁)) := by
      rw [(shuffle_result (deal L) d₁).1, deal, result_map]
      rfl
    have hmp : (deal (result L d₁)).Perm Deck.generate := ((hpm d₁).map _).trans hl
    obtain ⟨e, out, hstep, heval⟩ := wager_step hev bet hb hmp
    have htake : (deal (result L d₁)).take 5 = deal ((result L d₁).take 5) := by
      rw [deal, deal, List.map_take]
    have hdrop : (deal (result L d₁)).drop 5 = deal ((result L d₁).drop 5) := by
      rw [deal, deal, List.map_drop]
    rw [htake, hdrop] at hstep
    rw [htake] at heval
    have hheld : Held ((result L d₁).take 5) (deal ((result L d₁).take 5)) e := by
      refine ⟨hhn d₁, h5 d₁, rfl, ?_⟩
      rw [evaluateHand, hev, Comb.bind_ok, heval]
    obtain ⟨g', hrep, hn', h5'⟩ := hsec d₁ d₂
    obtain ⟨t, out', hstep', hcr⟩ := swaps_step hev
      { choice ((result L d₁).take 5) with drawSwap := d₂.stream } (hr _) (c := c - w)
      (ha _ (hhn d₁) (h5 d₁)) hheld hrep hn' h5' hw1 hw5 (by omega)
    constructor
    · rintro ⟨m, s, o, h, t', o', e1, e2, e3, e4, rfl⟩
      rw [hm, Except.ok.injEq] at e1
      subst e1
      rw [hstep, Except.ok.injEq, Prod.mk.injEq] at e2
      obtain ⟨rfl, -⟩ := e2
      rw [htake] at e3
      rw [deal_injective e3, hstep', Except.ok.injEq, Prod.mk.injEq] at e4
      rw [← e4.1, hcr]
    · rintro rfl
      exact ⟨_, _, _, _, _, _, hm, hstep, htake.symm, hstep', hcr⟩
  · refine sums (D := D) (fun d₁ d₂ => F (setKind (hand d₁ d₂).toFinset))
      (fun d₁ => value (kind (strength ((result L d₁).take 5)))) hsum ?_ hD hD0
    have := sum_tops hLn (by omega) (k := 5) (by omega) (fun x => value (setKind x))
    rw [hLp, h52, show Nat.choose 52 5 = 2598960 from by
      rw [Nat.choose_eq_descFactorial_div_factorial]; decide +kernel] at this
    rw [← hX, ← five_sum value, fiveCardHands, ← this]
    refine congrArg (· * 2598960) (Finset.sum_congr rfl (fun d _ => ?_))
    rw [setKind_list (hhn d)]

/-- The average over a round of whoever plays by a rule `adv`, from what the second hand is worth. -/
theorem round_average {adv : List PCard → List Nat} {value : Nat → Nat} {D Q X : Nat} {ev : Evaluator}
    (hev : Evaluator.new = .ok ev) {l : List Card}
    (hl : l.Perm Deck.generate) {c w : Nat} (hc : c + 4000 < 2 ^ 64) {bet : Input}
    (hb : Bets bet.line c w) {choice : List PCard → Input}
    (ha : ∀ h, h.Nodup → h.length = 5 → Chooses (choice h).line (adv h))
    (hr : ∀ h k, (choice h).drawRound k ≤ k)
    (second : ∀ h g : List PCard, (h ++ g).Nodup → (h ++ g).toFinset = pack → h.length = 5 →
      ∃ hand : Draws → List PCard,
      (∀ d, ∃ g', replace d.stream (adv h) (deal g) (deal h) = .ok (deal g', deal (hand d)) ∧
        (hand d).Nodup ∧ (hand d).length = 5) ∧
      (∑ d, back w (setKind (hand d).toFinset)) * 50939616000
        = Fintype.card Draws * value (kind (strength h)))
    (hX : ((List.range 11).map (fun k => tally k * value k)).sum = D * X)
    (hD : D * Q = 2598960 * 50939616000) (hD0 : 0 < D) :
    ∃ after : Draws → Draws → Nat, (∀ d₁ d₂ c', Round ev l c bet choice d₁ d₂ c' ↔ c' = after d₁ d₂) ∧
      (∑ d₁, ∑ d₂, after d₁ d₂) * Q = Fintype.card Draws ^ 2 * ((c - w) * Q + X) := by
  obtain ⟨last, h1, h2⟩ := round_kinds hev hl hc hb ha hr second hX hD hD0
  exact ⟨_, h1, h2 (c - w)⟩

/-- C51: playing by the rule, a round brings back 623208741 / 551845840 of the wager on average, and
a little more for the highest wager: the average is over all choices of the generator in the two
shuffles. -/
theorem c51_average {ev : Evaluator} (hev : Evaluator.new = .ok ev) {l : List Card}
    (hl : l.Perm Deck.generate) {c w : Nat} (hc : c + 4000 < 2 ^ 64) {bet : Input}
    (hb : Bets bet.line c w) {choice : List PCard → Input}
    (ha : ∀ h, h.Nodup → h.length = 5 → Chooses (choice h).line (advice h))
    (hr : ∀ h k, (choice h).drawRound k ≤ k) :
    ∃ after : Draws → Draws → Nat, (∀ d₁ d₂ c', Round ev l c bet choice d₁ d₂ c' ↔ c' = after d₁ d₂) ∧
      (∑ d₁, ∑ d₂, after d₁ d₂) * 551845840 = Fintype.card Draws ^ 2 *
        ((c - w) * 551845840 + (623208741 * w + if w = 5 then 3506250 else 0)) := by
  obtain ⟨-, -, -, hw1, hw5, hwc⟩ := id hb
  refine round_average hev hl hc hb ha hr (fun h g hn hp h5 => ?_) (worthBy_sum hw1 hw5) (by norm_num)
    (by norm_num)
  obtain ⟨hand, h1, h2⟩ := second_hand hn hp h5
  exact ⟨hand, h1, h2 w⟩

theorem stand_sum {w : Nat} (hw1 : 1 ≤ w) (hw : w ≤ 5) :
    ((List.range 11).map (fun k => tally k * (back w k * 50939616000))).sum
      = 50939616000 * (1409404 * w + if w = 5 then 11000 else 0) := by
  have : w = 1 ∨ w = 2 ∨ w = 3 ∨ w = 4 ∨ w = 5 := by omega
  rcases this with rfl | rfl | rfl | rfl | rfl <;> decide +kernel

/-- C51: whoever never changes a card gets back 1409404 / 2598960 of the wager on average. -/
theorem c51_stand {ev : Evaluator} (hev : Evaluator.new = .ok ev) {l : List Card}
    (hl : l.Perm Deck.generate) {c w : Nat} (hc : c + 4000 < 2 ^ 64) {bet : Input}
    (hb : Bets bet.line c w) {choice : List PCard → Input}
    (ha : ∀ h, h.Nodup → h.length = 5 → Chooses (choice h).line [])
    (hr : ∀ h k, (choice h).drawRound k ≤ k) :
    ∃ after : Draws → Draws → Nat, (∀ d₁ d₂ c', Round ev l c bet choice d₁ d₂ c' ↔ c' = after d₁ d₂) ∧
      (∑ d₁, ∑ d₂, after d₁ d₂) * 2598960 = Fintype.card Draws ^ 2 *
        ((c - w) * 2598960 + (1409404 * w + if w = 5 then 11000 else 0)) := by
  obtain ⟨-, -, -, hw1, hw5, hwc⟩ := id hb
  refine round_average (adv := fun _ => []) hev hl hc hb ha hr (fun h g hn hp h5 => ?_)
    (stand_sum hw1 hw5) (by norm_num) (by norm_num)
  have hhn := (List.nodup_append'.1 hn).1
  refine ⟨fun _ => h, fun d => ⟨g, rfl, hhn, h5⟩, ?_⟩
  rw [sum_const, setKind_list hhn, Nat.mul_assoc]

/-- C51: so whoever plays by the rule wins on average, more than 0.129 credits for each at stake: the
wager comes back together with the prize, which the usual game counts as a part of the prize. -/
theorem c51_favourable {ev : Evaluator} (hev : Evaluator.new = .ok ev) {l : List Card}
    (hl : l.Perm Deck.generate) {c w : Nat} (hc : c + 4000 < 2 ^ 64) {bet : Input}
    (hb : Bets bet.line c w) {choice : List PCard → Input}
    (ha : ∀ h, h.Nodup → h.length = 5 → Chooses (choice h).line (advice h))
    (hr : ∀ h k, (choice h).drawRound k ≤ k) :
    ∃ after : Draws → Draws → Nat, (∀ d₁ d₂ c', Round ev l c bet choice d₁ d₂ c' ↔ c' = after d₁ d₂) ∧
      (1000 * c + 129 * w) * Fintype.card Draws ^ 2 ≤ 1000 * ∑ d₁, ∑ d₂, after d₁ d₂ := by
  obtain ⟨-, -, -, hw1, hw5, hwc⟩ := id hb
  obtain ⟨after, h1, h2⟩ := c51_average hev hl hc hb ha hr
  refine ⟨after, h1, ?_⟩
  generalize (∑ d₁, ∑ d₂, after d₁ d₂) = S at *
  generalize Fintype.card Draws ^ 2 = N at *
  refine Nat.le_of_mul_le_mul_right (c := 551845840) ?_ (by norm_num)
  rw [Nat.mul_assoc 1000, h2]
  calc (1000 * c + 129 * w) * N * 551845840 = N * ((1000 * c + 129 * w) * 551845840) := by ring
    _ ≤ N * (1000 * ((c - w) * 551845840 + (623208741 * w + if w = 5 then 3506250 else 0))) :=
      Nat.mul_le_mul_left _ (by omega)
    _ = _ := by ring

/-- A line that names positions. -/
def positionsLine (s : List Nat) : Str := s.flatMap (fun i => ' ' :: natStr (i + 1))

theorem positions_ok : (List.range 5).sublists.all (fun s =>
    decide (positionsLine s ≠ "quit".toList) &&
    match get_swaps id (some (positionsLine s)) with
    | .ok (.accept l) => l == s
    | _ => false) = true := by
  decide +kernel

/-- There is a player who plays by the rule. -/
theorem player : ∃ choice : List PCard → Input,
    (∀ h, h.Nodup → h.length = 5 → Chooses (choice h).line (advice h)) ∧
    ∀ h k, (choice h).drawRound k ≤ k := by
  refine ⟨fun h => ⟨some (positionsLine (advice h)), id, id, id⟩, fun h _ h5 => ?_, fun _ k => le_rfl⟩
  have hs : (advice h).Sublist (List.range 5) := by
    rw [advice, h5]
    split
    · exact List.nil_sublist _
    · exact List.filter_sublist
  have h1 := List.all_eq_true.1 positions_ok _ (List.mem_sublists.2 hs)
  rw [Bool.and_eq_true, decide_eq_true_eq] at h1
  obtain ⟨h1, h2⟩ := h1
  split at h2
  · rename_i l hl
    rw [beq_iff_eq] at h2
    subst h2
    obtain ⟨hq, ws, ns, hrest⟩ := ((c40_swaps id).2.2 _ _).1 hl
    exact ⟨_, ws, ns, rfl, hq, hrest⟩
  · cases h2

/-- An empty line changes no card. -/
example : Chooses (some []) [] :=
  ⟨[], [], [], rfl, by decide, .nil _ (by simp), .nil, by simp, by simp, rfl⟩

/-- Hands the rule is about: one that pays, a low pair, and nothing. -/
def lowPairHand : List PCard :=
  [(.Nine, .Clubs), (.Four, .Hearts), (.Ace, .Spades), (.Four, .Spades), (.Two, .Hearts)]

example : lowPairHand.Nodup ∧ lowPairHand.length = 5 ∧ advice lowPairHand = [0, 2, 4] ∧
    kept lowPairHand [0, 2, 4] = {(.Four, .Hearts), (.Four, .Spades)} := by
  decide +kernel

example : advice [(.Nine, .Clubs), (.Jack, .Hearts), (.Ace, .Spades), (.Jack, .Spades), (.Two, .Hearts)]
    = [] := by decide +kernel

example : advice [(.Nine, .Clubs), (.Jack, .Hearts), (.Ace, .Spades), (.Ten, .Spades), (.Two, .Hearts)]
    = [0, 1, 2, 3, 4] := by decide +kernel

/-- Every hand has a rest of the deck. -/
example : ∃ g, (lowPairHand ++ g).Nodup ∧ (lowPairHand ++ g).toFinset = pack := by
  refine ⟨cards.filter (fun c => c ∉ lowPairHand), by decide +kernel, ?_⟩
  ext c
  simp only [List.mem_toFinset, pack_complete, iff_true]
  rcases c with ⟨r, s⟩
  cases r <;> cases s <;> decide +kernel

end Poker
