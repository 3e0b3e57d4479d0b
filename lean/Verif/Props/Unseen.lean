import Verif.Props.Next
import Verif.Props.Nuts
import Verif.Spec.Unseen

/-! # An opponent whose cards are not seen: C76 -/

namespace Poker
open Rules Tab Nat

theorem holdings_set (own board : List PCard) (hn : (own ++ board).Nodup) (k : Nat) (p : Eval → Prop) :
    {r : List PCard | r.length = k ∧ (own ++ board ++ r).Nodup ∧ ∃ e, evaluateHand (r ++ board) = .ok (.ok e) ∧ p e}
      = {r : List PCard | r.length = k ∧ (∀ c ∈ r, c ∉ own ∧ c ∉ board) ∧
        ∃ e, evaluateHand (r ++ board) = .ok (.ok e) ∧ p e} := by
  ext r
  refine and_congr_right (fun _ => and_congr_left ?_)
  rintro ⟨e, he, -⟩
  have hr := (ok_iff.1 he).1
  rw [List.nodup_append] at hr
  rw [List.nodup_append]
  constructor
  · rintro ⟨-, -, h⟩ c hc
    exact ⟨fun h' => h c (List.mem_append_left _ h') c hc rfl, fun h' => h c (List.mem_append_right _ h') c hc rfl⟩
  · intro h
    refine ⟨hn, hr.1, fun a ha c hc hac => ?_⟩
    subst hac
    exact (List.mem_append.1 ha).elim (h a hc).1 (h a hc).2

/-- C76: how often the cards seen lie on top and an opponent gets a result with a property. -/
theorem c76_count {l : List Card} (hl : l.Perm Deck.generate) (own board : List PCard)
    (hn : (own ++ board).Nodup) (k : Nat) (hk : (own ++ board).length + k ≤ 52) (p : Eval → Prop) :
    ways (Shuffled l (fun m => Begins (own ++ board) m ∧ Opponent (own ++ board).length k board p m))
      = holdings own board k p * (52 - (own ++ board).length - k)! := by
  have hc := c75_count hl (own ++ board) k hk (fun r => ∃ e, evaluateHand (r ++ board) = .ok (.ok e) ∧ p e)
  rw [holdings_set own board hn] at hc
  rw [holdings, ← hc, ways_orders hl, ways_orders hl]
  congr 1
  ext m
  refine and_congr_right (fun hm => and_congr_right (fun hb => ?_))
  obtain ⟨g, rfl, -, -⟩ := perm_generate.1 hm
  rw [begins_deal] at hb
  generalize hh : own ++ board = h at *
  have ht : (deal g).take (h.length + k) = deal (g.take (h.length + k)) := List.map_take.symm
  have hr : g.take (h.length + k) = h ++ (g.drop h.length).take k := by
    rw [List.take_add, hb]
  have hd : ((deal g).drop h.length).take k ++ deal board = deal ((g.drop h.length).take k ++ board) := by
    rw [deal, deal, deal, List.map_append, List.map_take, List.map_drop]
  rw [Opponent, ht, hd]
  constructor
  · rintro ⟨e, he, hp⟩
    rw [hr]
    exact ⟨_, ⟨e, he, hp⟩, rfl⟩
  · rintro ⟨r, ⟨e, he, hp⟩, h3⟩
    have h4 := deal_injective h3
    rw [hr] at h4
    rw [List.append_cancel_left h4]
    exact ⟨e, he, hp⟩

/-- C76: all cards that are not seen are equally likely. -/
theorem c76_odds {l : List Card} (hl : l.Perm Deck.generate) (own board : List PCard)
    (hn : (own ++ board).Nodup) (k : Nat) (hk : (own ++ board).length + k ≤ 52) (p : Eval → Prop) :
    (52 - (own ++ board).length).descFactorial k *
      ways (Shuffled l (fun m => Begins (own ++ board) m ∧ Opponent (own ++ board).length k board p m))
      = holdings own board k p * ways (Shuffled l (Begins (own ++ board))) := by
  rw [c76_count hl own board hn k hk p, c75_known hl _ hn,
    ← Nat.factorial_mul_descFactorial (show k ≤ 52 - (own ++ board).length by omega)]
  generalize (52 - (own ++ board).length).descFactorial k = a
  generalize (52 - (own ++ board).length - k)! = b
  generalize holdings own board k p = c
  rw [Nat.mul_left_comm, Nat.mul_comm a b]

theorem holdings_zero (own board : List PCard) (k : Nat) (p : Eval → Prop) : holdings own board k p = 0 ↔
    ∀ r : List PCard, r.length = k → (∀ c ∈ r, c ∉ own ∧ c ∉ board) →
      ∀ e, evaluateHand (r ++ board) = .ok (.ok e) → ¬ p e := by
  have : Finite PCard := Finite.of_injective (fun c => (⟨c, pack_complete c⟩ : pack))
    (fun a b hab => congrArg Subtype.val hab)
  rw [holdings, Set.ncard_eq_zero ((List.finite_length_eq PCard k).subset (fun r hr => hr.1)),
    Set.eq_empty_iff_forall_notMem]
  constructor
  · intro h r h1 h2 e he hp
    exact h r ⟨h1, h2, e, he, hp⟩
  · rintro h r ⟨h1, h2, e, he, hp⟩
    exact h r h1 h2 e he hp

/-- C76: no shuffle lets the opponent win exactly when no cards that are not seen do. -/
theorem c76_safe {l : List Card} (hl : l.Perm Deck.generate) (own board : List PCard) (k : Nat)
    (hk : (own ++ board).length + k ≤ 52) (e : Eval) (he : evaluateHand (own ++ board) = .ok (.ok e)) :
    ways (Shuffled l (fun m => Begins (own ++ board) m ∧
      Opponent (own ++ board).length k board (·.is_better_than e = true) m)) = 0 ↔
    ∀ r : List PCard, r.length = k → (∀ c ∈ r, c ∉ own ∧ c ∉ board) →
      ∀ e', evaluateHand (r ++ board) = .ok (.ok e') → e'.is_better_than e = false := by
  rw [c76_count hl own board (ok_iff.1 he).1 k hk, Nat.mul_eq_zero, holdings_zero]
  simp only [Nat.factorial_ne_zero, or_false, Bool.not_eq_true]

/-- C76: with the best result a board allows no shuffle makes one lose. -/
theorem c76_nuts {l : List Card} (hl : l.Perm Deck.generate) (x y : PCard) (board : List PCard)
    (h3 : 3 ≤ board.length) (h5 : board.length ≤ 5) (e : Eval)
    (he : evaluateHand ([x, y] ++ board) = .ok (.ok e)) (hb : bestWorth (x :: y :: board) = nuts board) :
    ways (Shuffled l (fun m => Begins ([x, y] ++ board) m ∧
      Opponent ([x, y] ++ board).length 2 board (·.is_better_than e = true) m)) = 0 := by
  rw [c76_safe hl [x, y] board 2 (by simp; omega) e he]
  intro r hr _ e' he'
  obtain ⟨x', y', rfl⟩ := List.length_eq_two.1 hr
  exact (c72_iff board h3 h5 x y e he).1.2 hb x' y' e' he'

theorem unseen_ncard (h : List PCard) (hn : h.Nodup) (k : Nat) (hk : h.length + k ≤ 52) :
    {r : List PCard | r.length = k ∧ (h ++ r).Nodup}.ncard = (52 - h.length).descFactorial k := by
  have hl : Deck.generate.Perm Deck.generate := List.Perm.refl _
  have hc := c75_count hl h k hk (fun _ => True)
  have hw : ways (Shuffled Deck.generate (fun m => Begins h m ∧ ∃ r : List PCard, True ∧ m.take (h.length + k) = deal (h ++ r)))
      = ways (Shuffled Deck.generate (Begins h)) := by
    rw [ways_orders hl, ways_orders hl]
    congr 1
    ext m
    refine and_congr_right (fun hm => ⟨fun hb => hb.1, fun hb => ⟨hb, ?_⟩⟩)
    obtain ⟨g, rfl, -, -⟩ := perm_generate.1 hm
    rw [begins_deal] at hb
    refine ⟨(g.drop h.length).take k, trivial, ?_⟩
    have ht : (deal g).take (h.length + k) = deal (g.take (h.length + k)) := List.map_take.symm
    rw [ht, List.take_add, hb]
  rw [hw, c75_known hl h hn, ← Nat.factorial_mul_descFactorial (show k ≤ 52 - h.length by omega),
    Nat.mul_comm] at hc
  simp only [and_true] at hc
  exact (Nat.eq_of_mul_eq_mul_right (Nat.factorial_pos _) hc).symm

/-- C76: every deal is won, shared or lost. -/
theorem c76_share (own board : List PCard) (k : Nat)
    (hk : (own ++ board).length + k ≤ 52) (h5 : 5 ≤ k + board.length) (e : Eval)
    (he : evaluateHand (own ++ board) = .ok (.ok e)) :
    holdings own board k (·.is_worse_than e = true) + holdings own board k (·.is_equal_to e = true)
      + holdings own board k (·.is_better_than e = true) = (52 - (own ++ board).length).descFactorial k := by
  have hn := (ok_iff.1 he).1
  have : Finite PCard := Finite.of_injective (fun c => (⟨c, pack_complete c⟩ : pack))
    (fun a b hab => congrArg Subtype.val hab)
  have hf : ∀ q : List PCard → Prop, {r : List PCard | r.length = k ∧ q r}.Finite := fun q =>
    (List.finite_length_eq PCard k).subset (fun r hr => hr.1)
  have hone : ∀ a : Eval, [a.is_better_than e, a.is_worse_than e, a.is_equal_to e].count true = 1 :=
    fun a => (c11_methods a e).2.2.2
  rw [← unseen_ncard _ hn k hk, holdings, holdings, holdings,
    ← Set.ncard_union_eq ?_ (hf _) (hf _), ← Set.ncard_union_eq ?_ ((hf _).union (hf _)) (hf _)]
  · refine congrArg Set.ncard ?_
    rw [← holdings_set own board hn, ← holdings_set own board hn, ← holdings_set own board hn]
    ext r
    constructor
    · rintro ((hr | hr) | hr) <;> exact ⟨hr.1, hr.2.1⟩
    · rintro ⟨hr, hd⟩
      have hrb : (r ++ board).Nodup := by
        have := (List.perm_append_comm.nodup_iff.1 hd)
        rw [← List.append_assoc] at this
        exact this.sublist (by
          rw [List.append_assoc]
          exact (List.Sublist.refl r).append (List.sublist_append_right own board))
      obtain ⟨e', he'⟩ := (c04_iff (r ++ board)).2.2.2 ⟨hrb, by rw [List.length_append, hr]; exact h5⟩
      have h1 := hone e'
      cases hb : e'.is_better_than e <;> cases hw : e'.is_worse_than e <;> cases hq : e'.is_equal_to e <;>
        simp only [hb, hw, hq] at h1 <;> first
          | exact absurd h1 (by decide)
          | exact Or.inl (Or.inl ⟨hr, hd, e', he', hw⟩)
          | exact Or.inl (Or.inr ⟨hr, hd, e', he', hq⟩)
          | exact Or.inr ⟨hr, hd, e', he', hb⟩
  · rw [Set.disjoint_left]
    rintro r (⟨-, -, a, ha, h1⟩ | ⟨-, -, a, ha, h1⟩) ⟨-, -, b, hb, h2⟩ <;>
    · have hab : a = b := Except.ok.inj (Except.ok.inj (ha.symm.trans hb))
      subst hab
      have h3 := hone a
      rw [h1, h2] at h3
      revert h3
      generalize a.is_equal_to e = u
      generalize a.is_worse_than e = v
      revert u v
      decide
  · rw [Set.disjoint_left]
    rintro r ⟨-, -, a, ha, h1⟩ ⟨-, -, b, hb, h2⟩
    have hab : a = b := Except.ok.inj (Except.ok.inj (ha.symm.trans hb))
    subst hab
    have h3 := hone a
    rw [h1, h2] at h3
    revert h3
    generalize a.is_better_than e = u
    revert u
    decide

/-- Nine, ten and jack of clubs on the board, eight and queen of clubs in the hand. -/
def blockOwn : List PCard := [(.Eight, .Clubs), (.Queen, .Clubs)]
@[inherit_doc blockOwn] def blockBoard : List PCard := [(.Nine, .Clubs), (.Ten, .Clubs), (.Jack, .Clubs)]

theorem block_pair : ∀ r r' : Rank, r ≠ .Eight → r ≠ .Queen → r' ≠ .Eight → r' ≠ .Queen →
    straightTop [pips r, pips r', 9, 10, 11] = none := by
  intro r r'
  cases r <;> cases r' <;> decide

/-- Without the eight and the queen there is no straight flush. -/
theorem block_all {x y : PCard} (hx : x ∉ blockOwn) (hy : y ∉ blockOwn) :
    hasStraightFlush (x :: y :: blockBoard) = false := by
  rw [← Bool.not_eq_true]
  intro h
  have hf := Board.flush_of_sf h
  obtain ⟨r, s⟩ := x
  obtain ⟨r', s'⟩ := y
  have hs : s = .Clubs ∧ s' = .Clubs := by
    cases s <;> cases s' <;> first | exact ⟨rfl, rfl⟩ | exact absurd hf (by simp [hasFlush, suits, ofSuit, blockBoard])
  obtain ⟨rfl, rfl⟩ := hs
  simp only [blockOwn, List.mem_cons, Prod.mk.injEq, and_true, List.not_mem_nil, or_false, not_or] at hx hy
  have h1 := block_pair r r' hx.1 hx.2 hy.1 hy.2
  obtain ⟨s, h⟩ := Board.sf_iff.1 h
  cases s
  case Clubs =>
    change (straightTop [pips r, pips r', 9, 10, 11]).isSome = true at h
    rw [h1] at h
    cases h
  all_goals
    change (straightTop []).isSome = true at h
    revert h
    decide

/-- No two cards beat the hand of `blockOwn` without the eight and the queen. -/
theorem block_safe {e : Eval} (he : evaluateHand (blockOwn ++ blockBoard) = .ok (.ok e)) {x y : PCard}
    (hx : x ∉ blockOwn) (hy : y ∉ blockOwn) {e' : Eval}
    (he' : evaluateHand (x :: y :: blockBoard) = .ok (.ok e')) : e'.is_better_than e = false := by
  have hs := block_all hx hy
  have hc : category (x :: y :: blockBoard) < 8 := by
    rw [category, hs]
    simp only [Bool.false_eq_true, if_false]
    split_ifs <;> decide
  have h8 : bestWorth (blockOwn ++ blockBoard) = (8, [12]) := by decide +kernel
  rw [← Nuts.worth_category] at hc
  rw [← Bool.not_eq_true, (c42_compare _ _ e' e he' he).2.2.1, h8, cmpWorth, Nat.compare_eq_lt.2 hc]
  exact fun h => nomatch h

/-- C76: one may be safe without the best result the board allows, if one's own cards are missing for it. -/
theorem c76_blocked : ∃ own board e, evaluateHand (own ++ board) = .ok (.ok e) ∧
    bestWorth (own ++ board) ≠ nuts board ∧
    (∃ x y e', evaluateHand (x :: y :: board) = .ok (.ok e') ∧ e'.is_better_than e = true) ∧
    ∀ l : List Card, l.Perm Deck.generate → ways (Shuffled l (fun m => Begins (own ++ board) m ∧
      Opponent (own ++ board).length 2 board (·.is_better_than e = true) m)) = 0 := by
  obtain ⟨e, he⟩ := (c04_iff (blockOwn ++ blockBoard)).2.2.2 (by decide)
  have hw : bestWorth (blockOwn ++ blockBoard) ≠ nuts blockBoard := by decide +kernel
  obtain ⟨e', he'⟩ := (c04_iff ((.Queen, .Clubs) :: (.King, .Clubs) :: blockBoard)).2.2.2 (by decide)
  have hb := (c42_compare _ _ e' e he' he).2.2.1.2 (by decide +kernel)
  have hk : (blockOwn ++ blockBoard).length + 2 ≤ 52 := by decide
  have hr : ∀ r : List PCard, r.length = 2 → (∀ c ∈ r, c ∉ blockOwn ∧ c ∉ blockBoard) →
      ∀ e', evaluateHand (r ++ blockBoard) = .ok (.ok e') → e'.is_better_than e = false := by
    intro r hr hu e' he'
    obtain ⟨x, y, rfl⟩ := List.length_eq_two.1 hr
    exact block_safe he (hu x (by simp)).1 (hu y (by simp)).1 he'
  exact ⟨blockOwn, blockBoard, e, he, hw, ⟨_, _, e', he', hb⟩,
    fun l hl => (c76_safe hl blockOwn blockBoard 2 hk e he).2 hr⟩

/-- Two aces before a king, a seven and a two: the 2162 ways to give an opponent two cards. -/
example (e : Eval) (he : evaluateHand [(.Ace, .Spades), (.Ace, .Hearts), (.King, .Clubs), (.Seven, .Diamonds),
    (.Two, .Hearts)] = .ok (.ok e)) :
    holdings [(.Ace, .Spades), (.Ace, .Hearts)] [(.King, .Clubs), (.Seven, .Diamonds), (.Two, .Hearts)] 2
      (·.is_worse_than e = true) +
    holdings [(.Ace, .Spades), (.Ace, .Hearts)] [(.King, .Clubs), (.Seven, .Diamonds), (.Two, .Hearts)] 2
      (·.is_equal_to e = true) +
    holdings [(.Ace, .Spades), (.Ace, .Hearts)] [(.King, .Clubs), (.Seven, .Diamonds), (.Two, .Hearts)] 2
      (·.is_better_than e = true) = 2162 :=
  c76_share [(.Ace, .Spades), (.Ace, .Hearts)] [(.King, .Clubs), (.Seven, .Diamonds), (.Two, .Hearts)] 2
    (by decide) (by decide) e he

/-- Three kings do beat them, in at least one shuffle. -/
example (e : Eval) (he : evaluateHand [(.Ace, .Spades), (.Ace, .Hearts), (.King, .Clubs), (.Seven, .Diamonds),
    (.Two, .Hearts)] = .ok (.ok e)) {l : List Card} (hl : l.Perm Deck.generate) :
    ways (Shuffled l (fun m =>
      Begins ([(.Ace, .Spades), (.Ace, .Hearts)] ++ [(.King, .Clubs), (.Seven, .Diamonds), (.Two, .Hearts)]) m ∧
      Opponent 5 2 [(.King, .Clubs), (.Seven, .Diamonds), (.Two, .Hearts)] (·.is_better_than e = true) m)) ≠ 0 := by
  obtain ⟨e', he'⟩ := (c04_iff ([(.King, .Hearts), (.King, .Spades)] ++
    [(.King, .Clubs), (.Seven, .Diamonds), (.Two, .Hearts)])).2.2.2 (by decide)
  have hb := (c42_compare _ _ e' e he' he).2.2.1.2 (by decide +kernel)
  intro h
  have := (c76_safe hl [(.Ace, .Spades), (.Ace, .Hearts)] [(.King, .Clubs), (.Seven, .Diamonds), (.Two, .Hearts)] 2
    (by decide) e he).1 h [(.King, .Hearts), (.King, .Spades)] rfl (by decide) e' he'
  rw [hb] at this
  cases this

/-- The ace-high straight where no flush and no pair is possible: nobody wins against it. -/
example (e : Eval) (he : evaluateHand ([(.Ace, .Hearts), (.Queen, .Clubs)] ++ [(.Ten, .Clubs), (.Jack, .Hearts),
    (.King, .Spades)]) = .ok (.ok e)) {l : List Card} (hl : l.Perm Deck.generate) :
    ways (Shuffled l (fun m =>
      Begins ([(.Ace, .Hearts), (.Queen, .Clubs)] ++ [(.Ten, .Clubs), (.Jack, .Hearts), (.King, .Spades)]) m ∧
      Opponent 5 2 [(.Ten, .Clubs), (.Jack, .Hearts), (.King, .Spades)] (·.is_better_than e = true) m)) = 0 :=
  c76_nuts hl _ _ _ (by decide) (by decide) e he (by decide +kernel)

end Poker
