import Verif.Proofs.Five

/-! # Evaluating any number of cards (helper lemmas) -/

namespace Poker
open Rules Comb

namespace Tab

/-! ## `all_unique` -/

def ix (p : PCard) : Nat :=
  (match p.2 with
    | .Clubs => 0
    | .Diamonds => 13
    | .Hearts => 26
    | .Spades => 39) + (pips p.1 - 2)

theorem ix_lt (p : PCard) : ix p < 52 := by
  obtain ⟨r, s⟩ := p
  cases r <;> cases s <;> decide

theorem ix_inj {p q : PCard} (h : ix p = ix q) : p = q := by
  obtain ⟨r, s⟩ := p
  obtain ⟨r', s'⟩ := q
  have h1 : ∀ r : Rank, pips r - 2 < 13 := by intro r; cases r <;> decide
  have a := h1 r
  have b := h1 r'
  have key : s = s' ∧ pips r - 2 = pips r' - 2 := by
    cases s <;> cases s' <;> simp only [ix] at h <;> first | exact ⟨rfl, by omega⟩ | (exfalso; omega)
  have e : r = r' := by
    have := key.2
    have hr : ∀ r : Rank, 2 ≤ pips r := by intro r; cases r <;> decide
    have := hr r
    have := hr r'
    exact pips_inj (by omega)
  rw [key.1, e]

theorem card_rank (r : Rank) (s : Suit) : (Card.new r s).rank = r := by
  cases r <;> cases s <;> decide +kernel

theorem card_suit (r : Rank) (s : Suit) : (Card.new r s).suit = s := by
  cases r <;> cases s <;> decide +kernel

theorem card_inj {p q : PCard} (h : Card.new p.1 p.2 = Card.new q.1 q.2) : p = q := by
  have h1 := congrArg Card.rank h
  have h2 := congrArg Card.suit h
  rw [card_rank, card_rank] at h1
  rw [card_suit, card_suit] at h2
  exact Prod.ext h1 h2

theorem card_index (p : PCard) :
    card_to_index (Card.new p.1 p.2) = .ok (BitVec.ofNat 8 (ix p)) := by
  obtain ⟨r, s⟩ := p
  cases r <;> cases s <;> decide +kernel

theorem flag_and (flags : BitVec 64) {i : Nat} (h : i < 64) :
    flags &&& ((1 : BitVec 64) <<< i) ≠ 0 ↔ flags.getLsbD i = true := by
  constructor
  · intro hne
    by_contra hf
    apply hne
    ext j hj
    by_cases hij : i = j
    · subst hij
      rw [BitVec.getLsbD_eq_getElem h] at hf
      simp [hf]
    · simp only [BitVec.ofNat_eq_ofNat, BitVec.getElem_and, BitVec.getElem_shiftLeft,
        BitVec.getElem_zero]
      by_cases hji : j < i
      · simp [hji]
      · have h0 : j - i ≠ 0 := by omega
        simp [hji, BitVec.getElem_one, h0]
  · intro hf hz
    have := congrArg (fun x => BitVec.getLsbD x i) hz
    rw [BitVec.getLsbD_eq_getElem h] at hf
    simp [hf, h] at this

theorem getLsbD_setFlag (flags : BitVec 64) {i j : Nat} (hi : i < 64) (hj : j < 64) :
    (flags ||| ((1 : BitVec 64) <<< i)).getLsbD j = (flags.getLsbD j || decide (i = j)) := by
  rw [BitVec.getLsbD_or]
  congr 1
  rw [BitVec.getLsbD_shiftLeft]
  by_cases hij : i = j
  · subst hij; simp [hi]
  · by_cases hji : j < i
    · simp [hji, hij]
    · have h0 : j - i ≠ 0 := by omega
      simp [hij, h0, BitVec.getLsbD_one]

theorem allUniqueLoop_eq (h : List PCard) (flags : BitVec 64) :
    allUniqueLoop flags (deal h)
      = .ok (decide (h.Nodup ∧ ∀ c ∈ h, flags.getLsbD (ix c) = false)) := by
  induction h generalizing flags with
  | nil => simp [deal, allUniqueLoop]
  | cons c h ih =>
    have e : deal (c :: h) = Card.new c.1 c.2 :: deal h := rfl
    have hlt := ix_lt c
    have ht : (BitVec.ofNat 8 (ix c)).toNat = ix c := by
      rw [BitVec.toNat_ofNat, Nat.mod_eq_of_lt (by omega)]
    have hs : shl (1 : BitVec 64) (ix c) = .ok ((1 : BitVec 64) <<< ix c) := by
      rw [shl, if_pos (by omega)]
    rw [e, allUniqueLoop, card_index, bind_ok, ht, hs, bind_ok]
    by_cases hf : flags.getLsbD (ix c) = true
    · rw [if_pos ((flag_and flags (by omega)).2 hf)]
      have : ¬ ((c :: h).Nodup ∧ ∀ c_1 ∈ c :: h, flags.getLsbD (ix c_1) = false) := by
        intro hh
        rw [hh.2 c (by simp)] at hf
        cases hf
      rw [decide_eq_false this]
      rfl
    · rw [if_neg (fun h' => hf ((flag_and flags (by omega)).1 h')), ih]
      congr 1
      rw [decide_eq_decide, List.nodup_cons]
      have hf' : flags.getLsbD (ix c) = false := by simpa using hf
      constructor
      · rintro ⟨hn, hall⟩
        have hall' : ∀ x ∈ h, flags.getLsbD (ix x) = false ∧ x ≠ c := by
          intro x hx
          have hx' := hall x hx
          have := ix_lt x
          rw [getLsbD_setFlag _ (by omega) (by omega), Bool.or_eq_false_iff] at hx'
          refine ⟨hx'.1, ?_⟩
          rintro rfl
          simp at hx'
        refine ⟨⟨fun hm => (hall' c hm).2 rfl, hn⟩, ?_⟩
        intro x hx
        rcases List.mem_cons.1 hx with rfl | hx
        · exact hf'
        · exact (hall' x hx).1
      · rintro ⟨⟨hnot, hn⟩, hall⟩
        refine ⟨hn, ?_⟩
        intro x hx
        have := ix_lt x
        rw [getLsbD_setFlag _ (by omega) (by omega), hall x (by simp [hx]), Bool.false_or,
          decide_eq_false_iff_not]
        intro he
        exact hnot (ix_inj he ▸ hx)

theorem all_unique_eq (h : List PCard) : all_unique (deal h) = .ok (decide h.Nodup) := by
  rw [all_unique, allUniqueLoop_eq]
  congr 1
  rw [decide_eq_decide]
  simp

/-! ## The worst hand -/

theorem worst_ladder : Kinds.ladder.getLast? = some (0, [7, 5, 4, 3, 2]) := by decide +kernel

theorem worst_getElem : Kinds.ladder[7461]? = some (0, [7, 5, 4, 3, 2]) := by
  have := worst_ladder
  rwa [List.getLast?_eq_getElem?, Kinds.length_ladder] at this

theorem worst_mem : (0, [7, 5, 4, 3, 2]) ∈ Kinds.ladder := List.mem_of_getElem? worst_getElem

theorem worst_rank : Kinds.rankNo (0, [7, 5, 4, 3, 2]) = 7462 := by
  obtain ⟨h, e⟩ := List.getElem?_eq_some_iff.1 worst_getElem
  have := Kinds.rankNo_getElem h
  rwa [e] at this

theorem worst_eval : Eval.WORST = evalOf (0, [7, 5, 4, 3, 2]) := by
  rw [evalOf, metaFor, worst_rank]
  decide

theorem worst_le {w : Nat × List Nat} (h : w ∈ Kinds.ladder) :
    cmpWorth (0, [7, 5, 4, 3, 2]) w ≠ .gt := by
  intro hg
  have := Kinds.compare_rankNo worst_mem h
  rw [hg, Nat.compare_eq_gt, worst_rank] at this
  have := Kinds.rankNo_le h
  omega

/-! ## `six_plus` -/

/-- `w` is at least as good as all worths of the list. -/
def Top (w : Nat × List Nat) (l : List (Nat × List Nat)) : Prop :=
  ∀ v ∈ l, cmpWorth v w ≠ .gt

theorem deal_combos (n : Nat) (h : List PCard) : combos n (deal h) = (combos n h).map deal :=
  combos_map _ n h

theorem not_gt_trans {a b c : Nat × List Nat} (h1 : cmpWorth a b ≠ .gt) (h2 : cmpWorth b c = .lt) :
    cmpWorth a c = .lt := by
  cases h : cmpWorth a b with
  | gt => exact absurd h h1
  | eq => rw [cmpWorth_eq_iff.1 h]; exact h2
  | lt =>
    rw [cmpWorth_lt_iff] at h h2 ⊢
    exact cmpWorth_gt_trans h2 h

theorem six_fold (l : List (List PCard)) (hl : ∀ c ∈ l, c.Nodup ∧ c.length = 5)
    (w : Nat × List Nat) (hw : w ∈ Kinds.ladder) :
    ∃ v ∈ w :: l.map strength, Top v (w :: l.map strength) ∧ v ∈ Kinds.ladder ∧
      (l.map deal).foldlM (sixPlusBody theEvaluator.toEvaluation) (evalOf w) = .ok (evalOf v) := by
  induction l generalizing w with
  | nil =>
    refine ⟨w, by simp, ?_, hw, rfl⟩
    intro v hv
    simp only [List.map_nil, List.mem_singleton] at hv
    rw [hv, cmpWorth_self]
    simp
  | cons c l ih =>
    obtain ⟨hn, h5⟩ := hl c (by simp)
    have hc := strength_mem hn h5
    simp only [List.map_cons, List.foldlM_cons, sixPlusBody, five_eq hn h5, bind_ok, pure_eq_ok]
    by_cases hg : cmpWorth (strength c) w = .gt
    · have : (evalOf (strength c)).gt (evalOf w) = true := by
        rw [Eval.gt_iff, cmp_evalOf hc hw, hg]
      rw [if_pos this]
      obtain ⟨v, hv, ht, hvl, e⟩ := ih (fun x hx => hl x (by simp [hx])) (strength c) hc
      refine ⟨v, ?_, ?_, hvl, e⟩
      · exact List.mem_cons_of_mem _ hv
      · intro u hu
        rcases List.mem_cons.1 hu with rfl | hu
        · have h1 := ht _ (by simp : strength c ∈ strength c :: l.map strength)
          intro hgt
          exact h1 (cmpWorth_gt_trans hg hgt)
        · exact ht u (by simpa using hu)
    · have : ¬ (evalOf (strength c)).gt (evalOf w) = true := by
        rw [Eval.gt_iff, cmp_evalOf hc hw]; exact hg
      rw [if_neg this]
      obtain ⟨v, hv, ht, hvl, e⟩ := ih (fun x hx => hl x (by simp [hx])) w hw
      refine ⟨v, ?_, ?_, hvl, e⟩
      · rcases List.mem_cons.1 hv with rfl | hv
        · simp
        · exact List.mem_cons_of_mem _ (List.mem_cons_of_mem _ hv)
      · intro u hu
        have hwv := ht w (by simp)
        rcases List.mem_cons.1 hu with rfl | hu
        · exact hwv
        · rcases List.mem_cons.1 hu with rfl | hu
          · intro hgt
            rw [← cmpWorth_lt_iff] at hgt
            have := not_gt_trans hwv hgt
            rw [cmpWorth_lt_iff] at this
            exact hg this
          · exact ht u (by simp [hu])

theorem combos_ne_nil {α : Type} {n : Nat} {l : List α} (h : n ≤ l.length) : combos n l ≠ [] := by
  have : l.take n ∈ combos n l :=
    mem_combos.2 ⟨List.take_sublist _ _, by rw [List.length_take]; omega⟩
  intro e
  rw [e] at this
  cases this

theorem combos_props {h c : List PCard} (hn : h.Nodup) (hc : c ∈ combos 5 h) :
    c.Nodup ∧ c.length = 5 :=
  ⟨(mem_combos.1 hc).1.nodup hn, (mem_combos.1 hc).2⟩

theorem six_plus_loop (ev : Evaluation) {cards : List Card} (h5 : 5 < cards.length) :
    six_plus ev cards = (combos 5 cards).foldlM (sixPlusBody ev) Eval.WORST := by
  have : debugAssert (cards.length > 5) = .ok () := by
    rw [debugAssert, if_pos (decide_eq_true h5)]
  rw [six_plus, this, bind_ok, forCombos_eq _ _ _ _ (by decide) (by omega)]

theorem six_plus_eq {h : List PCard} (hn : h.Nodup) (h5 : 5 < h.length) :
    ∃ c ∈ combos 5 h, (∀ d ∈ combos 5 h, cmpWorth (strength d) (strength c) ≠ .gt) ∧
      six_plus theEvaluator.toEvaluation (deal h) = .ok (evalOf (strength c)) := by
  rw [six_plus_loop _ (by rw [deal, List.length_map]; exact h5), deal_combos, worst_eval]
  obtain ⟨v, hv, ht, hvl, e⟩ := six_fold (combos 5 h) (fun c hc => combos_props hn hc) _ worst_mem
  rw [e]
  have htop : ∀ d ∈ combos 5 h, cmpWorth (strength d) v ≠ .gt := fun d hd =>
    ht _ (List.mem_cons_of_mem _ (List.mem_map.2 ⟨d, hd, rfl⟩))
  rcases List.mem_cons.1 hv with rfl | hv
  · obtain ⟨c, hc⟩ := List.exists_mem_of_ne_nil _ (combos_ne_nil (Nat.le_of_lt h5))
    have hl := strength_mem (combos_props hn hc).1 (combos_props hn hc).2
    have he : strength c = (0, [7, 5, 4, 3, 2]) := by
      have h1 := htop c hc
      have h2 := worst_le hl
      rw [← cmpWorth_eq_iff]
      cases hcmp : cmpWorth (strength c) (0, [7, 5, 4, 3, 2]) with
      | eq => rfl
      | gt => exact absurd hcmp h1
      | lt => exact absurd (cmpWorth_lt_iff.1 hcmp) h2
    exact ⟨c, hc, by rwa [he], by rw [he]⟩
  · obtain ⟨c, hc, rfl⟩ := List.mem_map.1 hv
    exact ⟨c, hc, htop, rfl⟩

/-! ## `evaluate` -/

theorem deal_length (h : List PCard) : (deal h).length = h.length := by simp [deal]

/-- Everything about `evaluate`: the error cases and the best five cards. -/
theorem evaluate_dup {ev : Evaluation} {h : List PCard} (hn : ¬ h.Nodup) :
    evaluate ev (deal h) = .ok (.error (.CardsNotUnique (deal h))) := by
  unfold evaluate
  rw [all_unique_eq, decide_eq_false hn]
  rfl

theorem evaluate_short {ev : Evaluation} {h : List PCard} (hn : h.Nodup) (h5 : h.length < 5) :
    evaluate ev (deal h) = .ok (.error (.InvalidHandSize h.length)) := by
  unfold evaluate
  rw [all_unique_eq, decide_eq_true hn]
  simp only [bind_ok, if_true, deal_length, h5, pure_eq_ok]

theorem combos_self {α : Type} : ∀ (l : List α), combos l.length l = [l]
  | [] => rfl
  | x :: l => by
    rw [List.length_cons, combos, combos_self l, Comb.combos_eq_nil (N := l.length + 1) (by omega)]
    rfl

theorem idx5 {α : Type} {l : List α} (h : l.length = 5) : ∃ a b c d e, l = [a, b, c, d, e] := by
  match l, h with
  | [a, b, c, d, e], _ => exact ⟨a, b, c, d, e, rfl⟩

theorem evaluate_five (ev : Evaluation) {h : List PCard} (hn : h.Nodup) (h5 : h.length = 5) :
    evaluate ev (deal h) = (do return .ok (← Poker.five ev (deal h))) := by
  unfold evaluate
  rw [all_unique_eq, decide_eq_true hn]
  have hl := deal_length h
  simp only [bind_ok, if_true, hl, h5, Nat.lt_irrefl, if_false]
  obtain ⟨a, b, c, d, e, he⟩ := idx5 (hl.trans h5)
  rw [he]
  rfl

theorem evaluate_many (ev : Evaluation) {h : List PCard} (hn : h.Nodup) (h5 : 5 < h.length) :
    evaluate ev (deal h) = (do return .ok (← six_plus ev (deal h))) := by
  unfold evaluate
  rw [all_unique_eq, decide_eq_true hn]
  have hl := deal_length h
  simp only [bind_ok, if_true, hl]
  rw [if_neg (by omega), if_neg (by omega)]

theorem evaluate_ok {h : List PCard} (hn : h.Nodup) (h5 : 5 ≤ h.length) :
    ∃ c ∈ combos 5 h, (∀ d ∈ combos 5 h, cmpWorth (strength d) (strength c) ≠ .gt) ∧
      theEvaluator.evaluate (deal h) = .ok (.ok (evalOf (strength c))) := by
  unfold Evaluator.evaluate
  rcases Nat.lt_or_eq_of_le h5 with h5 | h5
  · obtain ⟨c, hc, ht, e⟩ := six_plus_eq hn h5
    exact ⟨c, hc, ht, by rw [evaluate_many _ hn h5, e]; rfl⟩
  · have hc : combos 5 h = [h] := by rw [h5]; exact combos_self h
    refine ⟨h, by rw [hc]; simp, ?_, ?_⟩
    · intro d hd
      rw [hc, List.mem_singleton] at hd
      rw [hd, cmpWorth_self]; simp
    · rw [evaluate_five _ hn h5.symm, five_eq hn h5.symm]; rfl

end Tab
end Poker
