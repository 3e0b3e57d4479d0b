import Verif.Props.Evaluation
import Verif.Proofs.Witness

/-! # Properties of the range and the order of results: C08, C10, C12, C13, C29, C38 -/

namespace Poker
open Rules Tab

/-! ## C08: bounds -/

/-- The royal flush in clubs. -/
def royalHand : List PCard :=
  [(.Ace, .Clubs), (.King, .Clubs), (.Queen, .Clubs), (.Jack, .Clubs), (.Ten, .Clubs)]

/-- A worst hand: seven-high, not of one suit. -/
def worstHand : List PCard :=
  [(.Seven, .Clubs), (.Five, .Diamonds), (.Four, .Hearts), (.Three, .Spades), (.Two, .Clubs)]

/-- C08: every result lies between `Eval::WORST` and `Eval::BEST`, and its rank number between 1 and
7462. -/
theorem c08_bounds (h : List PCard) (e : Eval) (he : evaluateHand h = .ok (.ok e)) :
    e.lt Eval.WORST = false ∧ e.gt Eval.BEST = false ∧
      1 ≤ e.hand_rank.val.toInt ∧ e.hand_rank.val.toInt ≤ 7462 := by
  obtain ⟨_, _, w, hw, rfl⟩ := ok_iff.1 he
  have hl := hw.mem_ladder
  refine ⟨?_, ?_, ?_⟩
  · rw [Bool.eq_false_iff]
    intro hlt
    rw [Eval.lt_iff, worst_eval, cmp_evalOf hl worst_mem, cmpWorth_lt_iff] at hlt
    exact worst_le hl hlt
  · rw [Bool.eq_false_iff]
    intro hgt
    rw [Eval.gt_iff, best_eval, cmp_evalOf hl best_mem] at hgt
    exact le_best hl hgt
  · have h1 := Kinds.rankNo_pos w
    have h2 := Kinds.rankNo_le hl
    have h3 := rankInt_evalOf hl
    rw [Eval.rankInt] at h3
    omega

example : ∃ e, evaluateHand sevenCards = .ok (.ok e) ∧ e.lt Eval.WORST = false :=
  have ⟨e, he⟩ := (c04_iff sevenCards).2.2.2 (by decide)
  ⟨e, he, (c08_bounds _ e he).1⟩

/-- C08: every number from 1 to 7462 is the rank number of some five-card hand. -/
theorem c08_attained (n : Nat) (h1 : 1 ≤ n) (h2 : n ≤ 7462) :
    ∃ h e, h.Nodup ∧ h.length = 5 ∧ evaluateHand h = .ok (.ok e) ∧
      e.hand_rank.val.toInt = n := by
  have hlt : n - 1 < Kinds.ladder.length := by rw [Kinds.length_ladder]; omega
  have hr := Kinds.rankNo_getElem hlt
  obtain ⟨d, hn, h5, hs⟩ := ladder_hand (List.getElem_mem hlt)
  refine ⟨d, _, hn, h5, evaluate_five_ok hn h5, ?_⟩
  have := rankInt_evalOf (strength_mem hn h5)
  rw [Eval.rankInt] at this
  rw [this, hs, hr]
  omega

example : ∃ h e, h.Nodup ∧ h.length = 5 ∧ evaluateHand h = .ok (.ok e) ∧ e.hand_rank.val.toInt = 1610 :=
  c08_attained 1610 (by decide) (by decide)

/-- C08: `Eval::BEST` is the result (rank number and class) of a royal flush. -/
theorem c08_best : evaluateHand royalHand = .ok (.ok Eval.BEST) := by
  rw [evaluate_five_ok (by decide) (by decide), best_eval]
  rfl

/-- C08: `Eval::WORST` is the result (rank number and class) of 7-5-4-3-2. -/
theorem c08_worst : evaluateHand worstHand = .ok (.ok Eval.WORST) := by
  rw [evaluate_five_ok (by decide) (by decide), worst_eval]
  rfl

/-- Six different cards cannot make only 7-5-4-3-2 hands: exchanging one card changes the ranks. -/
theorem six_not_all_worst {h : List PCard} (hn : h.Nodup) (h6 : 6 ≤ h.length)
    (all : ∀ d, FiveOf d h → (values d).Perm [7, 5, 4, 3, 2]) : False := by
  have split : ∃ a b c d x y rest, h = a :: b :: c :: d :: x :: y :: rest := by
    rcases h with _ | ⟨a, _ | ⟨b, _ | ⟨c, _ | ⟨d, _ | ⟨x, _ | ⟨y, rest⟩⟩⟩⟩⟩⟩
    all_goals first | exact ⟨_, _, _, _, _, _, _, rfl⟩ | simp at h6
  obtain ⟨a, b, c, d, x, y, rest, rfl⟩ := split
  clear h6
  have p1 := all [a, b, c, d, x]
  have p2 := all [y, b, c, d, x]
  have p3 := all [a, y, c, d, x]
  clear all
  simp only [List.nodup_cons, List.mem_cons, not_or] at hn
  replace p1 := p1 ⟨by simp; tauto, rfl, by simp⟩
  replace p2 := p2 ⟨by simp; tauto, rfl, by simp⟩
  replace p3 := p3 ⟨by simp; tauto, rfl, by simp⟩
  have n1 : (values [a, b, c, d, x]).Nodup := p1.nodup_iff.2 (by decide)
  have q2 := p1.trans p2.symm
  have q3 := p1.trans p3.symm
  have cancel : ∀ (u v : Nat) (t : List Nat), (u :: t).Perm (v :: t) → u = v := by
    intro u v t hp
    have := (List.perm_append_right_iff (l₁ := [u]) (l₂ := [v]) t).1 hp
    simpa using this
  have e1 : pips a.1 = pips y.1 := cancel _ _ _ q2
  have e2 : pips b.1 = pips y.1 :=
    cancel _ _ (pips a.1 :: values [c, d, x])
      ((List.Perm.swap _ _ _).trans (q3.trans (List.Perm.swap _ _ _)))
  simp [values] at n1
  exact n1.1.1 (e1.trans e2.symm)

/-- C08: six or more cards always beat `Eval::WORST`. -/
theorem c08_six (h : List PCard) (e : Eval) (h6 : 6 ≤ h.length)
    (he : evaluateHand h = .ok (.ok e)) : e.gt Eval.WORST = true := by
  obtain ⟨hn, _, w, hw, rfl⟩ := ok_iff.1 he
  have hl := hw.mem_ladder
  rw [Eval.gt_iff, worst_eval, cmp_evalOf hl worst_mem]
  cases hc : cmpWorth w (0, [7, 5, 4, 3, 2]) with
  | gt => rfl
  | lt => exact absurd (cmpWorth_lt_iff.1 hc) (worst_le hl)
  | eq =>
    exfalso
    have hw0 := cmpWorth_eq_iff.1 hc
    have all : ∀ d, FiveOf d h → (values d).Perm [7, 5, 4, 3, 2] := by
      intro d hd
      have h1 := hw.2 d hd
      rw [hw0] at h1
      have h2 := worst_le (fiveOf_mem_ladder hd)
      have hs : strength d = strength worstHand := by
        have e0 : strength worstHand = (0, [7, 5, 4, 3, 2]) := by decide
        rw [e0, ← cmpWorth_eq_iff]
        cases hcmp : cmpWorth (strength d) (0, [7, 5, 4, 3, 2]) with
        | eq => rfl
        | gt => exact absurd hcmp h1
        | lt => exact absurd (cmpWorth_lt_iff.1 hcmp) h2
      exact ((strength_eq_iff hd.1 hd.2.1 (by decide) (by decide)).1 hs).1
    exact six_not_all_worst hn h6 all

example : 6 ≤ sevenCards.length ∧ ∃ e, evaluateHand sevenCards = .ok (.ok e) :=
  ⟨by decide, (c04_iff _).2.2.2 (by decide)⟩

/-! ## C10: royal flush -/

set_option maxRecDepth 100000 in
theorem check_royal : Kinds.ladder.all (fun w =>
    decide (className w = .StraightFlush .Ace) == (w == (8, [14]))) = true := by decide +kernel

theorem royal_strength_iff {d : List PCard} (hn : d.Nodup) (h5 : d.length = 5) :
    strength d = (8, [14]) ↔
      ∃ s, ∀ r ∈ [Rank.Ten, .Jack, .Queen, .King, .Ace], (r, s) ∈ d := by
  constructor
  · intro hs
    have e0 : strength royalHand = (8, [14]) := by decide
    rw [← e0, strength_eq_iff hn h5 (by decide) (by decide)] at hs
    obtain ⟨hp, hf⟩ := hs
    have : Rules.flush royalHand = true := by decide
    rw [this, flush_iff] at hf
    obtain ⟨s, hs⟩ := hf
    refine ⟨s, ?_⟩
    intro r hr
    have hm : pips r ∈ values royalHand := by
      revert hr r
      decide
    obtain ⟨c, hc, hpc⟩ := List.mem_map.1 (hp.mem_iff.2 hm)
    have h1 := pips_inj hpc
    have h2 := hs c hc
    rw [← h1, ← h2]
    exact hc
  · rintro ⟨s, hs⟩
    have hp : ([(.Ten, s), (.Jack, s), (.Queen, s), (.King, s), (.Ace, s)] : List PCard).Perm d := by
      refine List.Subperm.perm_of_length_le (List.Nodup.subperm ?_ ?_) (by rw [h5]; simp)
      · cases s <;> decide
      · intro c hc
        simp only [List.mem_cons, List.not_mem_nil, or_false] at hc
        rcases hc with rfl | rfl | rfl | rfl | rfl <;> exact hs _ (by decide)
    rw [← strength_perm hp]
    cases s <;> decide

/-- C10: `is_royal_flush` means ace-high straight flush, equality with `Eval::BEST`, and that the
cards contain ten, jack, queen, king and ace of one suit. -/
theorem c10_royal (h : List PCard) (e : Eval) (he : evaluateHand h = .ok (.ok e)) :
    (e.is_royal_flush = true ↔ e.class' = .StraightFlush .Ace) ∧
    (e.is_royal_flush = true ↔ e.eq Eval.BEST = true) ∧
    (e.is_royal_flush = true ↔
      ∃ s, ∀ r ∈ [Rank.Ten, .Jack, .Queen, .King, .Ace], (r, s) ∈ h) := by
  obtain ⟨_, _, w, hw, rfl⟩ := ok_iff.1 he
  have hl := hw.mem_ladder
  have hclass : (evalOf w).class' = .StraightFlush .Ace ↔ w = (8, [14]) := by
    have := List.all_eq_true.1 check_royal w hl
    rw [class_evalOf]
    simp only [beq_iff_eq] at this
    rw [← decide_eq_true_iff (p := className w = _), this, beq_iff_eq]
  have hbest : (evalOf w).eq Eval.BEST = true ↔ w = (8, [14]) := by
    rw [best_eval, Eval.eq_iff_cmp, cmp_evalOf hl best_mem, cmpWorth_eq_iff]
  have hroyal : (evalOf w).is_royal_flush = true ↔ w = (8, [14]) := by
    constructor
    · intro hr
      rw [← hbest]
      show decide ((evalOf w).hand_rank = _) = true
      rw [decide_eq_true_iff]
      have hr' : (metaFor w).is_royal_flush = true := hr
      show (metaFor w).hand_rank = PokerHandRank.BEST
      revert hr'
      cases metaFor w <;> simp [Meta.is_royal_flush, Meta.hand_rank]
    · rintro rfl
      rw [← best_eval]
      decide
  refine ⟨hroyal.trans hclass.symm, hroyal.trans hbest.symm, hroyal.trans ?_⟩
  constructor
  · rintro rfl
    obtain ⟨⟨c, hc, hs⟩, _⟩ := hw
    obtain ⟨s, hs⟩ := (royal_strength_iff hc.1 hc.2.1).1 hs
    exact ⟨s, fun r hr => hc.2.2 _ (hs r hr)⟩
  · rintro ⟨s, hs⟩
    have hf : FiveOf [(.Ten, s), (.Jack, s), (.Queen, s), (.King, s), (.Ace, s)] h := by
      refine ⟨by cases s <;> decide, rfl, ?_⟩
      intro c hc
      simp only [List.mem_cons, List.not_mem_nil, or_false] at hc
      rcases hc with rfl | rfl | rfl | rfl | rfl <;> exact hs _ (by decide)
    have hst := (royal_strength_iff hf.1 hf.2.1).2 ⟨s, by
      intro r hr
      simp only [List.mem_cons, List.not_mem_nil, or_false] at hr ⊢
      rcases hr with rfl | rfl | rfl | rfl | rfl <;> simp⟩
    have h1 := hw.2 _ hf
    rw [hst] at h1
    have h2 := le_best hl
    rw [← cmpWorth_eq_iff]
    cases hcmp : cmpWorth w (8, [14]) with
    | eq => rfl
    | gt => exact absurd hcmp h2
    | lt => exact absurd (cmpWorth_lt_iff.1 hcmp) h1

example : evaluateHand royalHand = .ok (.ok Eval.BEST) ∧ Eval.BEST.is_royal_flush = true :=
  ⟨c08_best, by decide⟩

/-! ## C12 for the constants -/

/-- C12: a result `==` to one of the constants is that constant, class and text included. -/
theorem c12_constants (h : List PCard) (e : Eval) (he : evaluateHand h = .ok (.ok e)) :
    (e.eq Eval.BEST = true → e = Eval.BEST) ∧ (e.eq Eval.WORST = true → e = Eval.WORST) :=
  ⟨fun hb => (c12_equal h royalHand e _ he c08_best hb).1,
    fun hb => (c12_equal h worstHand e _ he c08_worst hb).1⟩

example : ∃ e, evaluateHand royalHand = .ok (.ok e) ∧ e.eq Eval.BEST = true ∧ e = Eval.BEST :=
  ⟨_, c08_best, by decide, (c12_constants _ _ c08_best).1 (by decide)⟩

/-! ## C13: the order of classes -/

/-- The data the derived order of `EvalClass` compares, as numbers. -/
def classKey (c : EvalClass) : Nat × List Nat := (c.discr, c.fields.map Rank.discr)

theorem class_cmp_eq (a b : EvalClass) : a.cmp b = cmpWorth (classKey a) (classKey b) := by
  have h : ∀ l l' : List Rank, EvalClass.cmpFields l l'
      = cmpList (l.map Rank.discr) (l'.map Rank.discr) := by
    intro l
    induction l with
    | nil => intro l'; cases l' <;> rfl
    | cons a l ih =>
      intro l'
      cases l' with
      | nil => rfl
      | cons b l' =>
        simp only [EvalClass.cmpFields, List.map_cons, cmpList, ih]
        rfl
  simp only [EvalClass.cmp, h, cmpWorth, classKey]

/-- Adjacent entries never increase. -/
def nonInc : List (Nat × List Nat) → Bool
  | a :: b :: r => cmpWorth a b != .lt && nonInc (b :: r)
  | _ => true

theorem pairwise_of_nonInc : ∀ (l : List (Nat × List Nat)), nonInc l = true →
    l.Pairwise (fun a b => cmpWorth a b ≠ .lt)
  | [], _ => .nil
  | [_], _ => by simp
  | a :: b :: r, h => by
    simp only [nonInc, Bool.and_eq_true, bne_iff_ne] at h
    have ih := pairwise_of_nonInc (b :: r) h.2
    refine List.pairwise_cons.2 ⟨?_, ih⟩
    intro x hx
    rcases List.mem_cons.1 hx with rfl | hx
    · exact h.1
    · have h2 := (List.pairwise_cons.1 ih).1 x hx
      intro hlt
      rw [cmpWorth_lt_iff] at hlt
      cases hab : cmpWorth a b with
      | lt => exact h.1 hab
      | eq =>
        rw [cmpWorth_eq_iff.1 hab, ← cmpWorth_lt_iff] at hlt
        exact h2 hlt
      | gt =>
        have := cmpWorth_gt_trans hlt hab
        rw [← cmpWorth_lt_iff] at this
        exact h2 this

set_option maxRecDepth 100000 in
theorem check_classes : nonInc (Kinds.ladder.map (fun w => classKey (className w))) = true := by
  decide +kernel

theorem class_mono {w v : Nat × List Nat} (hw : w ∈ Kinds.ladder) (hv : v ∈ Kinds.ladder)
    (h : cmpWorth w v = .gt) : (className w).cmp (className v) ≠ .lt := by
  have hp := pairwise_of_nonInc _ check_classes
  rw [List.pairwise_map] at hp
  have hc := Kinds.compare_rankNo hw hv
  rw [h, Nat.compare_eq_gt] at hc
  have i1 := List.idxOf_lt_length_of_mem hw
  have i2 := List.idxOf_lt_length_of_mem hv
  have := List.pairwise_iff_getElem.1 hp _ _ i1 i2 (by
    simp only [Kinds.rankNo] at hc; omega)
  rw [List.getElem_idxOf i1, List.getElem_idxOf i2] at this
  rwa [class_cmp_eq]

/-- C13: a result that is not better has a class that is not greater; so a strictly greater class
means a strictly better hand. -/
theorem c13_class_order (h h' : List PCard) (e e' : Eval) (he : evaluateHand h = .ok (.ok e))
    (he' : evaluateHand h' = .ok (.ok e')) :
    (e.cmp e' ≠ .gt → e.class'.cmp e'.class' ≠ .gt) ∧
    (e.class'.cmp e'.class' = .gt → e.cmp e' = .gt) := by
  obtain ⟨_, _, w, hw, rfl⟩ := ok_iff.1 he
  obtain ⟨_, _, v, hv, rfl⟩ := ok_iff.1 he'
  have key : (evalOf w).cmp (evalOf v) ≠ .gt →
      (evalOf w).class'.cmp (evalOf v).class' ≠ .gt := by
    rw [cmp_evalOf hw.mem_ladder hv.mem_ladder, class_evalOf, class_evalOf]
    intro hc
    cases hcmp : cmpWorth w v with
    | gt => exact absurd hcmp hc
    | eq => rw [cmpWorth_eq_iff.1 hcmp, class_cmp_eq, cmpWorth_self]; simp
    | lt =>
      have := class_mono hv.mem_ladder hw.mem_ladder (cmpWorth_lt_iff.1 hcmp)
      rw [class_cmp_eq] at this ⊢
      rw [Ne, ← cmpWorth_lt_iff]
      exact this
  refine ⟨key, ?_⟩
  intro hg
  by_contra hne
  exact key hne hg

-- the two orders are not the same: classes can be equal while the hands differ in a kicker
example : ∃ h h' e e', evaluateHand h = .ok (.ok e) ∧ evaluateHand h' = .ok (.ok e') ∧
    e.cmp e' = .gt ∧ e.class'.cmp e'.class' = .eq := by
  let h : List PCard := [(.Seven, .Clubs), (.Six, .Diamonds), (.Four, .Hearts), (.Three, .Spades),
    (.Two, .Clubs)]
  obtain ⟨e, e', a, b, c, _⟩ := c02_compare h worstHand (by decide) (by decide) (by decide)
    (by decide)
  refine ⟨h, worstHand, e, e', a, b, by rw [c]; decide, ?_⟩
  obtain ⟨e2, a2, c2⟩ := c01_class h (by decide) (by decide)
  obtain ⟨e3, a3, c3⟩ := c01_class worstHand (by decide) (by decide)
  rw [a] at a2
  rw [b] at a3
  simp only [Except.ok.injEq] at a2 a3
  rw [a2, a3, c2, c3]
  decide

/-! ## C29: ties -/

/-- C29: two five-card hands tie iff their ranks are the same up to order and both or neither are of
a single suit. -/
theorem c29_ties (h h' : List PCard) (hn : h.Nodup) (h5 : h.length = 5) (hn' : h'.Nodup)
    (h5' : h'.length = 5) :
    ∃ e e', evaluateHand h = .ok (.ok e) ∧ evaluateHand h' = .ok (.ok e') ∧
      (e.eq e' = true ↔ (h.map (·.1)).Perm (h'.map (·.1)) ∧
        ((∃ s, ∀ c ∈ h, c.2 = s) ↔ ∃ s, ∀ c ∈ h', c.2 = s)) := by
  refine ⟨_, _, evaluate_five_ok hn h5, evaluate_five_ok hn' h5', ?_⟩
  rw [Eval.eq_iff_cmp, cmp_evalOf (strength_mem hn h5) (strength_mem hn' h5'), cmpWorth_eq_iff,
    strength_eq_iff hn h5 hn' h5', ← flush_iff, ← flush_iff, Bool.eq_iff_iff]
  have hv : (values h).Perm (values h') ↔ (h.map (·.1)).Perm (h'.map (·.1)) := by
    have e : ∀ h : List PCard, values h = (h.map (·.1)).map pips := by
      intro h; simp [values, Function.comp_def]
    constructor
    · intro hp
      have := hp.map rankOf
      have e2 : ∀ h : List PCard, (values h).map rankOf = h.map (·.1) := by
        intro h; simp [values, Function.comp_def, rankOf_pips]
      rwa [e2, e2] at this
    · intro hp
      rw [e, e]
      exact hp.map _
  rw [hv]

example : fullHouseHand.Nodup ∧ fullHouseHand.length = 5 ∧ wheelHand.Nodup ∧
    wheelHand.length = 5 := by decide

/-! ## C38: picking a winner -/

/-- `c` is a best five-card hand of the cards `h`. -/
def BestOf (c h : List PCard) : Prop := FiveOf c h ∧ ∀ d, FiveOf d h → ¬ Beats d c

/-- C38: a player's result is maximal among the players' results iff that player's best five-card
hand is not beaten by any other player's best five-card hand. -/
theorem c38_winner (players : List (List PCard)) (hp : ∀ h ∈ players, h.Nodup ∧ 5 ≤ h.length)
    (h : List PCard) (hh : h ∈ players) :
    (∃ e, evaluateHand h = .ok (.ok e) ∧
      ∀ h' ∈ players, ∃ e', evaluateHand h' = .ok (.ok e') ∧ e.lt e' = false) ↔
    ∃ c, BestOf c h ∧ ∀ h' ∈ players, ∀ c', BestOf c' h' → ¬ Beats c' c := by
  obtain ⟨w, hw, hew⟩ := evaluate_best (hp h hh).1 (hp h hh).2
  constructor
  · rintro ⟨e, he, hall⟩
    rw [hew, Except.ok.injEq, Except.ok.injEq] at he
    obtain ⟨⟨c, hc, hcw⟩, ht⟩ := id hw
    refine ⟨c, ⟨hc, fun d hd => by unfold Beats showdown; rw [hcw]; exact ht d hd⟩, ?_⟩
    intro h' hh' c' hc' hb
    obtain ⟨e', he', hlt⟩ := hall h' hh'
    obtain ⟨_, _, v, hv, rfl⟩ := ok_iff.1 he'
    have : cmpWorth v w ≠ .gt := by
      intro hg
      rw [← he, Bool.eq_false_iff] at hlt
      exact hlt ((Eval.lt_iff _ _).2 (by
        rw [cmp_evalOf hw.mem_ladder hv.mem_ladder]; exact cmpWorth_lt_iff.2 hg))
    have hb' : cmpWorth (strength c') w = .gt := by rw [← hcw]; exact hb
    have h1 := hv.2 c' hc'.1
    cases hcmp : cmpWorth (strength c') v with
    | gt => exact h1 hcmp
    | eq => rw [cmpWorth_eq_iff.1 hcmp] at hb'; exact this hb'
    | lt => exact this (cmpWorth_gt_trans (cmpWorth_lt_iff.1 hcmp) hb')
  · rintro ⟨c, hc, hall⟩
    refine ⟨_, hew, ?_⟩
    intro h' hh'
    obtain ⟨v, hv, hev⟩ := evaluate_best (hp h' hh').1 (hp h' hh').2
    refine ⟨_, hev, ?_⟩
    rw [Bool.eq_false_iff]
    intro hlt
    rw [Eval.lt_iff, cmp_evalOf hw.mem_ladder hv.mem_ladder, cmpWorth_lt_iff] at hlt
    obtain ⟨⟨c', hc', hcv⟩, ht⟩ := id hv
    have hcw : strength c = w := by
      refine IsBest.unique (h := h) ⟨⟨c, hc.1, rfl⟩, fun d hd => hc.2 d hd⟩ hw
    refine hall h' hh' c' ⟨hc', fun d hd => by unfold Beats showdown; rw [hcv]; exact ht d hd⟩ ?_
    unfold Beats showdown
    rw [hcv, hcw]
    exact hlt

theorem foldl_max_aux (es : List Eval) (acc : Eval) :
    (es.foldl Eval.max acc ∈ acc :: es) ∧ ∀ e ∈ acc :: es, (es.foldl Eval.max acc).lt e = false := by
  have not_lt : ∀ a b : Eval, a.lt b = false ↔ a.rankInt ≤ b.rankInt := by
    intro a b
    rw [Bool.eq_false_iff, Ne, Eval.lt_iff, Eval.cmp_eq, Int.compare_eq_lt]
    omega
  induction es generalizing acc with
  | nil =>
    refine ⟨by simp, ?_⟩
    intro e he
    simp only [List.mem_singleton] at he
    rw [he, not_lt]
    exact Int.le_refl _
  | cons a es ih =>
    obtain ⟨h1, h2⟩ := ih (acc.max a)
    rw [List.foldl_cons]
    have hm : (acc.max a = acc ∨ acc.max a = a) ∧ (acc.max a).rankInt ≤ acc.rankInt ∧
        (acc.max a).rankInt ≤ a.rankInt := by
      unfold Eval.max
      rw [Eval.cmp_eq]
      split
      · rename_i h
        rw [Int.compare_eq_gt] at h
        exact ⟨.inl rfl, Int.le_refl _, by omega⟩
      · rename_i h
        rw [Int.compare_eq_gt] at h
        exact ⟨.inr rfl, by omega, Int.le_refl _⟩
    have h3 := (not_lt _ _).1 (h2 (acc.max a) (by simp))
    refine ⟨?_, ?_⟩
    · rcases List.mem_cons.1 h1 with h | h
      · rw [h]
        rcases hm.1 with h | h <;> rw [h] <;> simp
      · exact List.mem_cons_of_mem _ (List.mem_cons_of_mem _ h)
    · intro e he
      rw [not_lt]
      rcases List.mem_cons.1 he with rfl | he
      · omega
      · rcases List.mem_cons.1 he with rfl | he
        · omega
        · exact (not_lt _ _).1 (h2 e (by simp [he]))

/-- C38: folding `cmp::max` from `Eval::WORST` over the players' results gives the result of some
player, and no player's result is better. -/
theorem c38_fold (players : List (List PCard)) (es : List Eval) (hne : players ≠ [])
    (hes : players.map evaluateHand = es.map (fun e => .ok (.ok e))) :
    (∃ h ∈ players, evaluateHand h = .ok (.ok (es.foldl Eval.max Eval.WORST))) ∧
    ∀ h ∈ players, ∀ e, evaluateHand h = .ok (.ok e) →
      (es.foldl Eval.max Eval.WORST).lt e = false := by
  obtain ⟨h1, h2⟩ := foldl_max_aux es Eval.WORST
  have back : ∀ e ∈ es, ∃ h ∈ players, evaluateHand h = .ok (.ok e) := by
    intro e he
    have : (.ok (.ok e) : Exec (Except EvalError Eval)) ∈ players.map evaluateHand := by
      rw [hes]; exact List.mem_map.2 ⟨e, he, rfl⟩
    obtain ⟨h, hh, heq⟩ := List.mem_map.1 this
    exact ⟨h, hh, heq⟩
  have fwd : ∀ h ∈ players, ∃ e ∈ es, evaluateHand h = .ok (.ok e) := by
    intro h hh
    have : evaluateHand h ∈ es.map (fun e => (.ok (.ok e) : Exec (Except EvalError Eval))) := by
      rw [← hes]; exact List.mem_map.2 ⟨h, hh, rfl⟩
    obtain ⟨e, he, heq⟩ := List.mem_map.1 this
    exact ⟨e, he, heq.symm⟩
  refine ⟨?_, ?_⟩
  · rcases List.mem_cons.1 h1 with h | h
    · -- the fold stayed at `WORST`: then every player has the worst result
      obtain ⟨p, hp⟩ := List.exists_mem_of_ne_nil _ hne
      obtain ⟨e, he, hpe⟩ := fwd p hp
      refine ⟨p, hp, ?_⟩
      have hlt := h2 e (by simp [he])
      rw [h] at hlt ⊢
      have hb := (c08_bounds p e hpe).1
      have heq : e.eq Eval.WORST = true := by
        rw [Eval.eq_iff_cmp]
        rw [Bool.eq_false_iff, Ne, Eval.lt_iff] at hlt hb
        cases hc : e.cmp Eval.WORST with
        | eq => rfl
        | lt => exact absurd hc hb
        | gt =>
          exfalso
          apply hlt
          rw [← Eval.cmp_swap, hc]
          rfl
      rw [hpe, (c12_constants p e hpe).2 heq]
    · exact back _ h
  · intro h hh e he
    obtain ⟨e', he', heq⟩ := fwd h hh
    rw [he, Except.ok.injEq, Except.ok.injEq] at heq
    rw [heq]
    exact h2 e' (by simp [he'])

example : (∀ h ∈ [fullHouseHand, wheelHand, sevenCards], h.Nodup ∧ 5 ≤ h.length) ∧
    ∃ es : List Eval, [fullHouseHand, wheelHand].map evaluateHand
      = es.map (fun e => .ok (.ok e)) := by
  refine ⟨by decide, ?_⟩
  obtain ⟨e, he, _⟩ := c01_class fullHouseHand (by decide) (by decide)
  obtain ⟨e', he', _⟩ := c01_class wheelHand (by decide) (by decide)
  exact ⟨[e, e'], by simp [he, he']⟩

end Poker
