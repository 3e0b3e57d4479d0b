import Verif.Props.Deck
import Verif.Props.Counts
import Verif.Props.Rounds
import Verif.Spec.Odds
import Mathlib.Data.List.Permutation
import Mathlib.Algebra.BigOperators.Fin
import Mathlib.SetTheory.Cardinal.Finite
import Mathlib.Data.Nat.Factorial.BigOperators
import Mathlib.Algebra.Order.BigOperators.Group.Finset

/-! # How likely the shuffled decks and the dealt hands are: C46 -/

namespace Poker
open Rules Tab Counts Nat

theorem stream_le (d : Draws) (k : Nat) : InRange d.stream k := by
  intro i h1 _
  unfold Draws.stream
  split
  · rename_i h
    have := (d ⟨i - 1, by omega⟩).isLt
    simp only at this
    omega
  · omega

theorem stream_at (d : Draws) (i : Fin 51) : d.stream (i.val + 1) = (d i).val := by
  have h : 1 ≤ i.val + 1 ∧ i.val + 1 ≤ 51 := by omega
  rw [Draws.stream, dif_pos h]
  rfl

theorem shuffleAux_congr {α : Type} (d d' : Nat → Nat) (n : Nat) (m : List α)
    (h : ∀ i, 1 ≤ i → i ≤ n → d i = d' i) : Deck.shuffleAux d n m = Deck.shuffleAux d' n m := by
  induction n generalizing m with
  | zero => rfl
  | succ n ih =>
    rw [Deck.shuffleAux, Deck.shuffleAux, h (n + 1) (by omega) (by omega)]
    congr 1
    funext x
    exact ih x (fun i h1 h2 => h i h1 (by omega))

theorem shuffle_draws {l : List Card} (hl : l.Perm Deck.generate) (d : Draws) :
    ∃ m, Deck.shuffle d.stream l = .ok m ∧ m.Perm Deck.generate := by
  have h52 : l.length = 52 := hl.length_eq.trans c21_deck.1
  obtain ⟨m, h1, h2, -⟩ := shuffleAux_ok d.stream 51 l (by omega) (stream_le d 51)
  exact ⟨m, by rw [Deck.shuffle, h52]; exact h1, h2.trans hl⟩

/-- C46: whatever the order of the deck before, each order is the result of exactly one of the
sequences of choices. -/
theorem c46_orders {l : List Card} (hl : l.Perm Deck.generate) :
    (∀ d : Draws, ∃ m, Deck.shuffle d.stream l = .ok m ∧ m.Perm Deck.generate) ∧
    ∀ m, m.Perm Deck.generate → ∃! d : Draws, Deck.shuffle d.stream l = .ok m := by
  refine ⟨shuffle_draws hl, ?_⟩
  intro m hm
  have h52 : l.length = 52 := hl.length_eq.trans c21_deck.1
  have e : ∀ draw, Deck.shuffle draw l = Deck.shuffleAux draw 51 l := by
    intro draw
    rw [Deck.shuffle, h52]
  have hml : m.Perm l := hm.trans hl.symm
  obtain ⟨draw, h1, h2⟩ := shuffleAux_exists 51 l m (by omega) hml (by
    rw [List.drop_of_length_le (by rw [hml.length_eq, h52]), List.drop_of_length_le (by rw [h52])])
  have hd : ∀ i : Fin 51, draw (i.val + 1) < i.val + 2 := fun i =>
    Nat.lt_succ_of_le (h1 (i.val + 1) (by omega) (by omega))
  refine ⟨fun i => ⟨draw (i.val + 1), hd i⟩, ?_, ?_⟩
  · show Deck.shuffle _ l = .ok m
    rw [e, ← h2]
    apply shuffleAux_congr
    intro i a b
    obtain ⟨j, rfl⟩ : ∃ j, i = j + 1 := ⟨i - 1, by omega⟩
    exact stream_at _ ⟨j, by omega⟩
  · intro d' hd'
    rw [e] at hd'
    have := shuffleAux_unique 51 l m (by omega) (hl.nodup_iff.2 c21_deck.2.1) draw d'.stream h1
      (stream_le d' 51) h2 hd'
    funext i
    apply Fin.ext
    rw [← stream_at d' i, ← this (i.val + 1) (by omega) (by omega)]

example : ∃! d : Draws, Deck.shuffle d.stream Deck.generate = .ok Deck.generate.reverse :=
  (c46_orders (.refl _)).2 _ (List.reverse_perm _)

/-- C46: the number of sequences of choices. -/
theorem c46_draws : ways (fun _ => True) = 52 ! := by
  rw [ways, Set.ofPred_true, Set.ncard_univ, Nat.card_pi]
  simp only [Nat.card_fin]
  rw [Fin.prod_univ_eq_prod_range (fun i => i + 2) 51, ← Finset.prod_range_add_one_eq_factorial,
    Finset.prod_range_succ' _ 51]
  simp

theorem ways_congr {q q' : Draws → Prop} (h : ∀ d, q d ↔ q' d) : ways q = ways q' :=
  congrArg ways (funext (fun d => propext (h d)))

theorem deal_injective {a b : List PCard} (h : deal a = deal b) : a = b :=
  List.map_injective_iff.2 (fun _ _ => card_inj) h

theorem generate_deal : ∃ g : List PCard, Deck.generate = deal g ∧ g.Nodup ∧ g.length = 52 ∧
    ∀ c, c ∈ g := by
  refine ⟨Rank.ALL_VARIANTS.flatMap (fun r => Suit.ALL_VARIANTS.map (fun s => (r, s))), ?_, by decide,
    by decide, ?_⟩
  · simp [Deck.generate, deal, List.map_flatMap, Function.comp_def]
  · rintro ⟨r, s⟩
    cases r <;> cases s <;> decide

theorem perm_generate {m : List Card} :
    m.Perm Deck.generate ↔ ∃ h, m = deal h ∧ h.Nodup ∧ h.toFinset = pack := by
  obtain ⟨g, hg, hgn, -, hgm⟩ := generate_deal
  have hset : ∀ h : List PCard, h.toFinset = pack ↔ ∀ c, c ∈ h := by
    intro h
    rw [Finset.ext_iff]
    simp only [List.mem_toFinset, pack_complete, iff_true]
  constructor
  · intro hm
    rw [hg] at hm
    have he : m = deal (m.map (fun c => (c.rank, c.suit))) := by
      rw [deal, List.map_map]
      refine (List.map_id m).symm.trans (List.map_congr_left ?_)
      intro c hc
      obtain ⟨q, -, rfl⟩ := List.mem_map.1 (hm.mem_iff.1 hc)
      simp only [id, Function.comp_apply, card_rank, card_suit]
    generalize m.map (fun c => (c.rank, c.suit)) = h at he
    subst he
    have hh := (List.map_perm_map_iff (fun _ _ => card_inj)).1 hm
    exact ⟨h, rfl, hh.nodup_iff.2 hgn, (hset h).2 (fun c => hh.mem_iff.2 (hgm c))⟩
  · rintro ⟨h, rfl, hn, hh⟩
    rw [hg]
    refine List.Perm.map _ ((List.perm_ext_iff_of_nodup hn hgn).2 (fun c => ?_))
    simp only [hgm, (hset h).1 hh c]

theorem pack_card : pack.card = 52 := by decide

/-- C46: any two sets of the same number of cards are equally likely to be on top. -/
theorem c46_on_top {l : List Card} (hl : l.Perm Deck.generate) (x : Finset PCard) :
    ways (OnTop l x) = x.card ! * (52 - x.card)! := by
  classical
  have hxp : x ⊆ pack := fun c _ => pack_complete c
  have hx52 : x.card ≤ 52 := pack_card ▸ Finset.card_le_card hxp
  let P : Finset (List PCard × List PCard) :=
    x.toList.permutations.toFinset ×ˢ (pack \ x).toList.permutations.toFinset
  have hP : P.card = x.card ! * (52 - x.card)! := by
    rw [Finset.card_product, List.toFinset_card_of_nodup (List.nodup_permutations _ x.nodup_toList),
      List.toFinset_card_of_nodup (List.nodup_permutations _ (pack \ x).nodup_toList),
      List.length_permutations, List.length_permutations, Finset.length_toList,
      Finset.length_toList, Finset.card_sdiff_of_subset hxp, pack_card]
  have hmem : ∀ {s : Finset PCard} {a : List PCard}, a ∈ s.toList.permutations.toFinset ↔
      a.Nodup ∧ a.toFinset = s := by
    intro s a
    rw [List.mem_toFinset, List.mem_permutations]
    constructor
    · intro h
      refine ⟨h.nodup_iff.2 s.nodup_toList, ?_⟩
      rw [List.toFinset_eq_of_perm _ _ h, Finset.toList_toFinset]
    · rintro ⟨hn, rfl⟩
      exact (List.perm_ext_iff_of_nodup hn (Finset.nodup_toList _)).2 (by simp)
  have hall : ∀ q ∈ P, (deal (q.1 ++ q.2)).Perm Deck.generate ∧ q.1.length = x.card := by
    rintro ⟨a, b⟩ hq
    obtain ⟨ha, hb⟩ := Finset.mem_product.1 hq
    obtain ⟨han, hax⟩ := hmem.1 ha
    obtain ⟨hbn, hbx⟩ := hmem.1 hb
    refine ⟨perm_generate.2 ⟨_, rfl, ?_, ?_⟩, ?_⟩
    · refine List.nodup_append'.2 ⟨han, hbn, ?_⟩
      intro c hca hcb
      have h1 : c ∈ x := hax ▸ List.mem_toFinset.2 hca
      have h2 : c ∈ pack \ x := hbx ▸ List.mem_toFinset.2 hcb
      exact (Finset.mem_sdiff.1 h2).2 h1
    · rw [List.toFinset_append, hax, hbx, Finset.union_sdiff_of_subset hxp]
    · rw [← hax, List.toFinset_card_of_nodup han]
  rw [ways, ← hP, ← Set.ncard_coe_finset]
  symm
  refine Set.ncard_congr
    (fun q hq => ((c46_orders hl).2 _ (hall q hq).1).choose) ?_ ?_ ?_
  · intro q hq
    have h := ((c46_orders hl).2 _ (hall q hq).1).choose_spec.1
    refine ⟨_, q.1, h, ?_, ?_⟩
    · rw [deal, ← List.map_take, ← (hall q hq).2, List.take_left']
      · rfl
      · rfl
    · exact (hmem.1 (Finset.mem_product.1 hq).1).2
  · intro q q' hq hq' heq
    have h := ((c46_orders hl).2 _ (hall q hq).1).choose_spec.1
    have h' := ((c46_orders hl).2 _ (hall q' hq').1).choose_spec.1
    simp only at h h' heq
    rw [heq, h', Except.ok.injEq] at h
    obtain ⟨h1, h2⟩ := List.append_inj (deal_injective h)
      ((hall q' hq').2.trans (hall q hq).2.symm)
    exact (Prod.ext h1 h2).symm
  · intro d hd
    obtain ⟨m, h, hm, htop, hset⟩ := hd
    obtain ⟨m', hm', hperm⟩ := shuffle_draws hl d
    rw [hm, Except.ok.injEq] at hm'
    subst hm'
    obtain ⟨g, rfl, hgn, hgp⟩ := perm_generate.1 hperm
    rw [deal, ← List.map_take] at htop
    have hh : g.take x.card = h := deal_injective htop
    subst hh
    have hsplit := List.take_append_drop x.card g
    have hq : (g.take x.card, g.drop x.card) ∈ P := by
      refine Finset.mem_product.2 ⟨hmem.2 ⟨hgn.sublist (List.take_sublist _ _), hset⟩,
        hmem.2 ⟨hgn.sublist (List.drop_sublist _ _), ?_⟩⟩
      have hdis : Disjoint x (g.drop x.card).toFinset := by
        rw [← hsplit] at hgn
        rw [Finset.disjoint_left]
        intro c hc hc'
        rw [← hset, List.mem_toFinset] at hc
        exact (List.nodup_append'.1 hgn).2.2 hc (List.mem_toFinset.1 hc')
      rw [← hgp, ← hsplit, List.toFinset_append, hset, hsplit,
        Finset.union_sdiff_cancel_left hdis]
    refine ⟨_, hq, ?_⟩
    refine ((c46_orders hl).2 _ (hall _ hq).1).choose_spec.2 d ?_ |>.symm
    simp only [hsplit]
    exact hm

example : ways (OnTop Deck.generate.reverse {(.Ace, .Spades), (.King, .Hearts)}) = 2 ! * 50 ! :=
  c46_on_top (List.reverse_perm _) _

/-- C46: of the 52! sequences of choices, the part that deals `n` cards with the property `p` is
the part of such hands among all hands of `n` cards. -/
theorem c46_deals {n : Nat} (hn : n ≤ 52) {l : List Card} (hl : l.Perm Deck.generate)
    (p : Eval → Prop) : ways (Deals n l p) = handsOf n p * (n ! * (52 - n)!) := by
  classical
  have hfin : ∀ q : Draws → Prop, {d | q d}.Finite := fun q => Set.toFinite _
  have hin : ∀ q d, d ∈ (hfin q).toFinset ↔ q d := fun q d => Set.Finite.mem_toFinset _
  have hways : ∀ q : Draws → Prop, ways q = (hfin q).toFinset.card := fun q =>
    Set.ncard_eq_toFinset_card _ _
  have hsub : (hfin (Deals n l p)).toFinset = ((pack.powersetCard n).filter (Gets p)).biUnion
      (fun x => (hfin (OnTop l x)).toFinset) := by
    ext d
    simp only [hin, Finset.mem_filter, Finset.mem_biUnion]
    obtain ⟨m, hm, hperm⟩ := shuffle_draws hl d
    obtain ⟨g, rfl, hgn, hgp⟩ := perm_generate.1 hperm
    have h5 : (g.take n).length = n := by
      rw [List.length_take, ← List.toFinset_card_of_nodup hgn, hgp, pack_card]
      omega
    have hn5 : (g.take n).Nodup := hgn.sublist (List.take_sublist _ _)
    have htake : (deal g).take n = deal (g.take n) := by rw [deal, ← List.map_take]; rfl
    have hcard : (g.take n).toFinset.card = n := by rw [List.toFinset_card_of_nodup hn5, h5]
    have key := c45_order p (g.take n) hn5
    rw [h5] at key
    have hdeals : Deals n l p d ↔ ∃ e, evaluateHand (g.take n) = .ok (.ok e) ∧ p e := by
      obtain ⟨ev, hev⟩ := c36_new_ok
      have he : evaluateHand (g.take n) = ev.evaluate ((deal g).take n) := by
        rw [evaluateHand, hev, Comb.bind_ok, htake]
      rw [he]
      constructor
      · rintro ⟨ev', m, e, hev', hm', h, hp⟩
        rw [hev, Except.ok.injEq] at hev'
        rw [hm, Except.ok.injEq] at hm'
        subst hev' hm'
        exact ⟨e, h, hp⟩
      · rintro ⟨e, h, hp⟩
        exact ⟨ev, _, e, hev, hm, h, hp⟩
    rw [hdeals, ← key.2]
    constructor
    · intro hg
      exact ⟨_, ⟨key.1, hg⟩, _, g.take n, hm, by rw [hcard, htake], rfl⟩
    · rintro ⟨x, ⟨hx, hg⟩, m', h, hm', htop, rfl⟩
      rw [hm, Except.ok.injEq] at hm'
      subst hm'
      rw [(Finset.mem_powersetCard.1 hx).2, htake] at htop
      rw [deal_injective htop]
      exact hg
  rw [hways, hsub, Finset.card_biUnion]
  · rw [handsOf, Finset.card_eq_sum_ones, Finset.sum_mul]
    refine Finset.sum_congr rfl ?_
    intro x hx
    have h5 : x.card = n := (Finset.mem_powersetCard.1 (Finset.mem_filter.1 hx).1).2
    have := c46_on_top hl x
    rw [hways, h5] at this
    rw [Nat.one_mul]
    exact this
  · intro x hx y hy hxy
    rw [Function.onFun, Finset.disjoint_left]
    intro d hd hd'
    obtain ⟨m, h, hm, htop, hset⟩ := (hin _ d).1 hd
    obtain ⟨m', h', hm', htop', hset'⟩ := (hin _ d).1 hd'
    rw [hm, Except.ok.injEq] at hm'
    subst hm'
    have hx5 : x.card = n := (Finset.mem_powersetCard.1 (Finset.mem_filter.1 hx).1).2
    have hy5 : y.card = n := (Finset.mem_powersetCard.1 (Finset.mem_filter.1 hy).1).2
    rw [hx5] at htop
    rw [hy5, htop] at htop'
    rw [deal_injective htop', hset'] at hset
    exact hxy hset.symm

example : ways (Deals 7 Deck.generate (fun e => e.is_flush = true))
    = handsOf 7 (fun e => e.is_flush = true) * (7 ! * 45 !) := c46_deals (by decide) (.refl _) _

/-- C46: so the first five cards have a given result with the probability that the number of such
hands says. -/
theorem c46_odds {l : List Card} (hl : l.Perm Deck.generate) (p : Eval → Prop) :
    ways (Deals 5 l p) * 2598960 = handsWith p * ways (fun _ => True) := by
  have h : 52 ! = 5 ! * (52 - 5)! * 2598960 := by decide +kernel
  rw [c46_deals (by decide) hl, c46_draws, h, Nat.mul_assoc]
  rfl

example : ways (Deals 5 Deck.generate.reverse (fun e => e.is_pair = true)) * 2598960
    = handsWith (fun e => e.is_pair = true) * ways (fun _ => True) := c46_odds (List.reverse_perm _) _

/-- C46: one deal in 649740 is a royal flush. -/
theorem c46_royal {l : List Card} (hl : l.Perm Deck.generate) :
    ways (Deals 5 l (fun e => e.is_royal_flush = true)) * 649740 = ways (fun _ => True) := by
  have h : 52 ! = 4 * (5 ! * (52 - 5)!) * 649740 := by decide +kernel
  have h4 : handsOf 5 (fun e => e.is_royal_flush = true) = 4 :=
    c45_categories.2.2.2.2.2.2.2.2.2
  rw [c46_deals (by decide) hl, h4, c46_draws, h]

example : ways (Deals 5 Deck.generate (fun e => e.is_royal_flush = true)) * 649740 = ways (fun _ => True) :=
  c46_royal (.refl _)

namespace Game

theorem wager_step {ev : Evaluator} (hev : Evaluator.new = .ok ev) (i : Input) {c w : Nat}
    (hb : Bets i.line c w) {m : List Card} (hm : m.Perm Deck.generate) :
    ∃ e out, step ev i (.wager c m []) = .ok (.swaps (c - w) w e (m.drop 5) (m.take 5), out) ∧
      ev.evaluate (m.take 5) = .ok (.ok e) := by
  obtain ⟨s, hs, hr⟩ := hb
  have hl52 : m.length = 52 := by rw [hm.length_eq, c21_deck.1]
  have h5 : (m.take 5).length = 5 := by rw [List.length_take]; omega
  have hperm' : (m.take 5 ++ m.drop 5).Perm Deck.generate := by
    rw [List.take_append_drop]; exact hm
  obtain ⟨p, e, hheld, heval⟩ := held_of_perm hev hperm' h5
  have hline := c43_hand hheld
  have hsub : usizeSub c w = .ok (c - w) := by rw [usizeSub, if_pos hr.2.2.2]
  rw [step, hs, ((c40_wager c).2 s w).2 hr]
  simp only
  unfold afterWager
  rw [hsub, Comb.bind_ok, drain_ok (by omega), Comb.bind_ok]
  simp only [List.nil_append, heval, Comb.bind_ok, unwrap, hline]
  exact ⟨e, _, rfl, rfl⟩

/-- C46: in every round of the game, whatever was dealt before, the first hand has a given result
with that probability. -/
theorem _root_.Poker.c46_round {ev : Evaluator} (hev : Evaluator.new = .ok ev) (i : Input) {c w : Nat}
    (hb : Bets i.line c w) {l : List Card} (hl : l.Perm Deck.generate) (p : Eval → Prop) :
    ways (fun d => ∃ m e deck hand out, Deck.shuffle d.stream l = .ok m ∧
      step ev i (.wager c m []) = .ok (.swaps (c - w) w e deck hand, out) ∧ p e)
      = handsWith p * (5 ! * 47 !) := by
  rw [show handsWith p * (5 ! * 47 !) = handsOf 5 p * (5 ! * (52 - 5)!) from rfl,
    ← c46_deals (by decide) hl p]
  refine ways_congr (fun d => ?_)
  obtain ⟨m, hm, hperm⟩ := shuffle_draws hl d
  obtain ⟨e, out, hstep, heval⟩ := wager_step hev i hb hperm
  constructor
  · rintro ⟨m', e', deck, hand, out', hm', hstep', hp⟩
    rw [hm, Except.ok.injEq] at hm'
    subst hm'
    rw [hstep, Except.ok.injEq, Prod.mk.injEq, State.swaps.injEq] at hstep'
    obtain ⟨⟨-, -, rfl, -, -⟩, -⟩ := hstep'
    exact ⟨ev, m, e, hev, hm, heval, hp⟩
  · rintro ⟨ev', m', e', hev', hm', heval', hp⟩
    rw [hm, Except.ok.injEq] at hm'
    rw [hev, Except.ok.injEq] at hev'
    subst hm' hev'
    rw [heval, Except.ok.injEq, Except.ok.injEq] at heval'
    subst heval'
    exact ⟨m, e, _, _, out, hm, hstep, hp⟩

/-- C46: the same for the whole program up to the first hand. -/
theorem _root_.Poker.c46_first (i : Input) {w : Nat} (hb : Bets i.line 100 w) (p : Eval → Prop) :
    ways (fun d => ∃ e deck hand out,
      main d.stream [i] = .ok (.swaps (100 - w) w e deck hand, out) ∧ p e)
      = handsWith p * (5 ! * 47 !) := by
  obtain ⟨ev, hev⟩ := c36_new_ok
  rw [← c46_round hev i hb (.refl _) p]
  refine ways_congr (fun d => ?_)
  obtain ⟨m, hm, hperm⟩ := shuffle_draws (.refl _) d
  obtain ⟨e, out, hstep, heval⟩ := wager_step hev i hb hperm
  have hmain : main d.stream [i] = .ok (.swaps (100 - w) w e (m.drop 5) (m.take 5),
      [wagerMessage 100] ++ (out ++ [])) := by
    have hs : start d.stream = .ok (ev, .wager 100 m [], [wagerMessage 100]) := by
      rw [start, hev, Comb.bind_ok, Deck.shuffled_with, hm]
      rfl
    rw [main, hs, Comb.bind_ok]
    simp only [run, hstep, Comb.bind_ok]
    rfl
  constructor
  · rintro ⟨e', deck, hand, out', h, hp⟩
    rw [hmain, Except.ok.injEq, Prod.mk.injEq, State.swaps.injEq] at h
    obtain ⟨⟨-, -, rfl, rfl, rfl⟩, -⟩ := h
    exact ⟨m, e, _, _, out, hm, hstep, hp⟩
  · rintro ⟨m', e', deck, hand, out', hm', hstep', hp⟩
    rw [hm, Except.ok.injEq] at hm'
    subst hm'
    rw [hstep, Except.ok.injEq, Prod.mk.injEq, State.swaps.injEq] at hstep'
    obtain ⟨⟨-, -, rfl, rfl, rfl⟩, -⟩ := hstep'
    exact ⟨e, _, _, _, hmain, hp⟩

example : Bets (some "+3".toList) 100 3 :=
  ⟨_, rfl, .inr ⟨['3'], rfl, by decide, by decide⟩, by decide, by decide, by decide⟩

end Game

-- an order of the deck other than the first one
example : Deck.generate.reverse.Perm Deck.generate ∧ Deck.generate.reverse ≠ Deck.generate :=
  ⟨List.reverse_perm _, by decide +kernel⟩

end Poker
