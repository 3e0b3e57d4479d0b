import Verif.Props.Strategy
import Verif.Proofs.HoldTotal
import Verif.Spec.Optimal

/-! # The best way to play: C62 -/

namespace Poker
open Rules Tab Counts Nat Shuffles Game Sets

/-- What comes back for one credit, by the tables for the wager. -/
noncomputable def tabsFor (w : Nat) : Hold.Tabs := if w = 5 then Hold.tabs801 else Hold.tabs251

theorem back_pay {w k : Nat} (hk : k ≤ 10) : back w k = w * Hold.pay (tabsFor w).royal k := by
  have : (tabsFor w).royal = if w = 5 then 801 else 251 := by
    rw [tabsFor]
    split <;> rfl
  rw [this]
  have : k = 0 ∨ k = 1 ∨ k = 2 ∨ k = 3 ∨ k = 4 ∨ k = 5 ∨ k = 6 ∨ k = 7 ∨ k = 8 ∨ k = 9 ∨ k = 10 := by omega
  rcases this with rfl | rfl | rfl | rfl | rfl | rfl | rfl | rfl | rfl | rfl | rfl
  case inr.inr.inr.inr.inr.inr.inr.inr.inr.inl =>
    by_cases h : w = 5
    · subst h
      rfl
    · rw [if_neg h]
      show (if w = 5 then 4005 else 251 * w) = w * 251
      rw [if_neg h, Nat.mul_comm]
  all_goals
    simp only [back, Hold.pay]
    first
    | rfl
    | exact Nat.mul_comm _ _

theorem payback_set {w : Nat} (hw1 : 1 ≤ w) (hw : w ≤ 5) {x : Finset PCard} (hx : x.card = 5) :
    payback w x.toList = w * Hold.prizeOf (tabsFor w) x := by
  rw [payback, ← back_prize (Finset.nodup_toList x) (by rw [Finset.length_toList, hx]) hw1 hw,
    Hold.prizeOf, setKind, back_pay (kind_le _)]

theorem paybacks_ways {w : Nat} (hw1 : 1 ≤ w) (hw : w ≤ 5) {K : Finset PCard} (hK : K.card ≤ 5) :
    paybacks w K = w * Hold.ways (Hold.prizeOf (tabsFor w)) K := by
  rw [paybacks, Hold.ways, Finset.mul_sum]
  refine Finset.sum_congr rfl (fun x hx => ?_)
  obtain ⟨h1, h2⟩ := Finset.mem_powersetCard.1 hx
  refine payback_set hw1 hw ?_
  rw [Finset.card_union_of_disjoint, h2]
  · omega
  · exact Finset.disjoint_left.2 (fun c hc hc' => (Finset.mem_sdiff.1 (h1 hc')).2 hc)

/-- In parts of 12994800. -/
theorem weight_choose {n : Nat} (hn : n ≤ 5) : (47 + n).choose n * Hold.weight (5 - n) = 12994800 := by
  have : n = 0 ∨ n = 1 ∨ n = 2 ∨ n = 3 ∨ n = 4 ∨ n = 5 := by omega
  rcases this with rfl | rfl | rfl | rfl | rfl | rfl <;>
    rw [Nat.choose_eq_descFactorial_div_factorial] <;> decide +kernel

theorem weight_pos {n : Nat} (hn : n ≤ 5) : 0 < Hold.weight n := by
  have : n = 0 ∨ n = 1 ∨ n = 2 ∨ n = 3 ∨ n = 4 ∨ n = 5 := by omega
  rcases this with rfl | rfl | rfl | rfl | rfl | rfl <;> decide +kernel

theorem positions_length {s : List Nat} (hs : Positions s) : s.length ≤ 5 := by
  have := List.Nodup.subperm hs.1 (l₂ := List.range 5) (fun i hi => List.mem_range.2 (hs.2 i hi))
  simpa using this.length_le

theorem chooses_positions {line : Option Str} {s : List Nat} (h : Chooses line s) : Positions s := by
  obtain ⟨ln, ws, ns, -, -, -, -, h1, h2, rfl⟩ := h
  refine ⟨(List.nodup_map_iff_inj_on h2).2 (fun a ha b hb e => ?_), fun i hi => ?_⟩
  · have := h1 a ha
    have := h1 b hb
    omega
  · obtain ⟨a, ha, rfl⟩ := List.mem_map.1 hi
    have := h1 a ha
    omega

theorem chooses_unique {line : Option Str} {s s' : List Nat} (h : Chooses line s) (h' : Chooses line s') :
    s = s' := by
  obtain ⟨ln, ws, ns, rfl, hq, hrest⟩ := h
  obtain ⟨ln', ws', ns', e, hq', hrest'⟩ := h'
  rw [Option.some.injEq] at e
  subst e
  have h1 := ((c40_swaps id).2.2 ln s).2 ⟨hq, ws, ns, hrest⟩
  have h2 := ((c40_swaps id).2.2 ln s').2 ⟨hq', ws', ns', hrest'⟩
  rw [h1, Except.ok.injEq, Answer.accept.injEq] at h2
  exact h2

theorem kept_subset (h : List PCard) (s : List Nat) : kept h s ⊆ h.toFinset := by
  intro c hc
  obtain ⟨-, i, -, -, hi⟩ := Finset.mem_filter.1 hc
  exact List.mem_toFinset.2 (List.mem_of_getElem? hi)

theorem kept_congr (h : List PCard) {s s' : List Nat} (e : ∀ i, i < h.length → (i ∈ s ↔ i ∈ s')) :
    kept h s = kept h s' := by
  refine Finset.filter_congr (fun c _ => ?_)
  constructor
  · rintro ⟨i, h1, h2, h3⟩
    exact ⟨i, h1, fun h => h2 ((e i h1).2 h), h3⟩
  · rintro ⟨i, h1, h2, h3⟩
    exact ⟨i, h1, fun h => h2 ((e i h1).1 h), h3⟩

/-- The worth of a choice, in parts of 12994800. -/
noncomputable def worthFor (w : Nat) (h : List PCard) (s : List Nat) : Nat :=
  paybacks w (kept h s) * Hold.weight (5 - s.length)

/-- The choice is best by its worth. -/
theorem best_iff {w : Nat} {h : List PCard} {s : List Nat} :
    Best w h s ↔ Positions s ∧ ∀ s', Positions s' → worthFor w h s' ≤ worthFor w h s := by
  rw [Best]
  refine and_congr_right (fun hs => forall_congr' (fun s' => forall_congr' (fun hs' => ?_)))
  have h1 := weight_choose (positions_length hs)
  have h2 := weight_choose (positions_length hs')
  have p1 := weight_pos (n := 5 - s.length) (by omega)
  have p2 := weight_pos (n := 5 - s'.length) (by omega)
  rw [worthFor, worthFor]
  generalize paybacks w (kept h s) = A
  generalize paybacks w (kept h s') = B
  generalize Hold.weight (5 - s.length) = v at *
  generalize Hold.weight (5 - s'.length) = v' at *
  generalize (47 + s.length).choose s.length = C at *
  generalize (47 + s'.length).choose s'.length = C' at *
  have e1 : B * C * (v * v') = B * v' * 12994800 := by rw [← h1]; ring
  have e2 : A * C' * (v * v') = A * v * 12994800 := by rw [← h2]; ring
  rw [← Nat.mul_le_mul_right_iff (Nat.mul_pos p1 p2), e1, e2, Nat.mul_le_mul_right_iff (by norm_num)]

theorem kept_len {h : List PCard} (hn : h.Nodup) (h5 : h.length = 5) {s : List Nat} (hs : Positions s) :
    (kept h s).card = 5 - s.length := by
  have := kept_card hn hs.1 (h5 ▸ hs.2)
  omega

theorem worth_ways {w : Nat} (hw1 : 1 ≤ w) (hw : w ≤ 5) {h : List PCard} (hn : h.Nodup) (h5 : h.length = 5)
    {s : List Nat} (hs : Positions s) : worthFor w h s
      = w * (Hold.weight (kept h s).card * Hold.ways (Hold.prizeOf (tabsFor w)) (kept h s)) := by
  have hk := kept_len hn h5 hs
  rw [worthFor, paybacks_ways hw1 hw (by omega), hk]
  ring

theorem worth_le {w : Nat} (hw1 : 1 ≤ w) (hw : w ≤ 5) {h : List PCard} (hn : h.Nodup) (h5 : h.length = 5)
    {s : List Nat} (hs : Positions s) :
    worthFor w h s ≤ w * Hold.bestOf (Hold.prizeOf (tabsFor w)) h.toFinset := by
  rw [worth_ways hw1 hw hn h5 hs]
  refine Nat.mul_le_mul_left _ ?_
  exact Finset.le_sup (f := fun K => Hold.weight K.card * Hold.ways (Hold.prizeOf (tabsFor w)) K)
    (Finset.mem_powerset.2 (kept_subset h s))

/-- Every part of the hand can be kept. -/
theorem kept_any {h : List PCard} (h5 : h.length = 5) {K : Finset PCard} (hK : K ⊆ h.toFinset) :
    ∃ s, Positions s ∧ kept h s = K := by
  refine ⟨(List.range 5).filter (fun i => decide (∃ c, h[i]? = some c ∧ c ∉ K)),
    ⟨List.nodup_range.filter _, fun i hi => List.mem_range.1 (List.mem_of_mem_filter hi)⟩, ?_⟩
  ext c
  rw [mem_kept]
  constructor
  · rintro ⟨i, h1, h2⟩
    by_contra hc
    have := (List.getElem?_eq_some_iff.1 h2).1
    refine h1 (List.mem_filter.2 ⟨List.mem_range.2 (by omega), ?_⟩)
    exact decide_eq_true ⟨c, h2, hc⟩
  · intro hc
    obtain ⟨i, hi⟩ := List.mem_iff_getElem?.1 (List.mem_toFinset.1 (hK hc))
    refine ⟨i, fun hm => ?_, hi⟩
    obtain ⟨c', h1, h2⟩ := of_decide_eq_true (List.mem_filter.1 hm).2
    rw [hi, Option.some.injEq] at h1
    exact h2 (h1 ▸ hc)

theorem worth_best {w : Nat} (hw1 : 1 ≤ w) (hw : w ≤ 5) {h : List PCard} (hn : h.Nodup) (h5 : h.length = 5)
    {s : List Nat} (hs : Best w h s) :
    worthFor w h s = w * Hold.bestOf (Hold.prizeOf (tabsFor w)) h.toFinset := by
  obtain ⟨hp, hb⟩ := best_iff.1 hs
  refine Nat.le_antisymm (worth_le hw1 hw hn h5 hp) ?_
  rw [worth_ways hw1 hw hn h5 hp] at *
  refine Nat.mul_le_mul_left _ (Finset.sup_le (fun K hK => ?_))
  obtain ⟨s', hs', rfl⟩ := kept_any h5 (Finset.mem_powerset.1 hK)
  have := hb s' hs'
  rw [worth_ways hw1 hw hn h5 hs'] at this
  exact Nat.le_of_mul_le_mul_left this (by omega)

/-- There is a best choice for every hand, and a line can name it. -/
theorem best_exists (w : Nat) (h : List PCard) :
    ∃ s, Best w h s ∧ s.Sublist (List.range 5) := by
  obtain ⟨s, hs, hm⟩ := Finset.exists_max_image (List.range 5).sublists.toFinset (worthFor w h)
    ⟨[], List.mem_toFinset.2 (List.mem_sublists.2 (List.nil_sublist _))⟩
  have hs' := List.mem_sublists.1 (List.mem_toFinset.1 hs)
  refine ⟨s, best_iff.2 ⟨⟨hs'.nodup List.nodup_range, fun i hi => List.mem_range.1 (hs'.mem hi)⟩,
    fun s₁ h₁ => ?_⟩, hs'⟩
  have hf : ((List.range 5).filter (fun i => decide (i ∈ s₁))).Perm s₁ := by
    refine (List.perm_ext_iff_of_nodup (List.nodup_range.filter _) h₁.1).2 (fun i => ?_)
    rw [List.mem_filter, decide_eq_true_eq, List.mem_range]
    exact ⟨fun h => h.2, fun h => ⟨h₁.2 i h, h⟩⟩
  have e : worthFor w h s₁ = worthFor w h ((List.range 5).filter (fun i => decide (i ∈ s₁))) := by
    rw [worthFor, worthFor, hf.length_eq, kept_congr h (fun i _ => hf.mem_iff.symm)]
  rw [e]
  exact hm _ (List.mem_toFinset.2 (List.mem_sublists.2 List.filter_sublist))

theorem best_total {w : Nat} : ∑ x ∈ fiveCardHands, w * Hold.bestOf (Hold.prizeOf (tabsFor w)) x
    = 4 * bestBack w := by
  rw [← Finset.mul_sum, bestBack, tabsFor]
  split
  · rw [Hold.total801]
    ring
  · rw [Hold.total251]
    ring

/-- The second hand after a choice, and what it brings back on average. -/
theorem second_any {h g : List PCard} (hn : (h ++ g).Nodup) (hp : (h ++ g).toFinset = pack)
    (h5 : h.length = 5) {s : List Nat} (hs : Positions s) : ∃ hand : Draws → List PCard,
      (∀ d, ∃ g', replace d.stream s (deal g) (deal h) = .ok (deal g', deal (hand d)) ∧
        (hand d).Nodup ∧ (hand d).length = 5) ∧
      ∀ w, 1 ≤ w → w ≤ 5 → (∑ d, back w (setKind (hand d).toFinset)) * 12994800
        = Fintype.card Draws * worthFor w h s := by
  have hhn := (List.nodup_append'.1 hn).1
  have hk := kept_len hhn h5 hs
  have hlen := positions_length hs
  have hF : ∀ w, 1 ≤ w → w ≤ 5 → ∀ x, x.card = 5 → back w (setKind x) = payback w x.toList :=
    fun w hw1 hw x hx => by
      rw [setKind, back_prize (Finset.nodup_toList x) (by rw [Finset.length_toList, hx]) hw1 hw, payback]
  cases hs0 : s with
  | nil =>
    subst hs0
    refine ⟨fun _ => h, fun d => ⟨g, rfl, hhn, h5⟩, fun w hw1 hw => ?_⟩
    have hc : h.toFinset.card = 5 := by rw [List.toFinset_card_of_nodup hhn, h5]
    have he : kept h [] = h.toFinset := Finset.eq_of_subset_of_card_le (kept_subset h [])
      (by rw [hk, hc]; exact le_rfl)
    rw [sum_const, Nat.mul_assoc, worthFor, he, paybacks, hc, Nat.sub_self, Finset.powersetCard_zero,
      Finset.sum_singleton, Finset.union_empty, hF w hw1 hw _ hc]
    rfl
  | cons a s' =>
    rw [← hs0]
    choose hand g' h1 h2 h3 h4 h6 using swap_result hn hs.1 (h5 ▸ hs.2)
    refine ⟨hand, fun d => ⟨g' d, ?_, h2 d, (h3 d).trans h5⟩, fun w hw1 hw => ?_⟩
    · rw [replace, if_pos (by rw [hs0]; rfl), h1 d]
    · have := swap_sum hn hp h5 hs.1 hs.2 hand (fun d => ⟨_, h1 d⟩) (fun x => back w (setKind x))
      rw [← weight_choose hlen, ← Nat.mul_assoc, this, worthFor, paybacks, hk, Nat.mul_assoc,
        show 5 - (5 - s.length) = s.length from by omega]
      refine congrArg (fun z => Fintype.card Draws * (z * Hold.weight (5 - s.length))) ?_
      refine Finset.sum_congr rfl (fun x hx => ?_)
      obtain ⟨h7, h8⟩ := Finset.mem_powersetCard.1 hx
      refine hF w hw1 hw _ ?_
      rw [Finset.card_union_of_disjoint, h8, hk]
      · omega
      · exact Finset.disjoint_left.2 (fun c hc hc' => (Finset.mem_sdiff.1 (h7 hc')).2 hc)

/-- A line that names no cards to change leaves the credits as they are. -/
theorem no_swaps (ev : Evaluator) (i : Input) (hc : ∀ s, ¬ Chooses i.line s) {c w : Nat} {e : Eval}
    {deck hand : List Card} :
    ∃ t out, Game.step ev i (.swaps c w e deck hand) = .ok (t, out) ∧ t.credits = c := by
  obtain ⟨a, ha⟩ := (c40_swaps i.order).1 i.line
  rw [Game.step, ha, Comb.bind_ok]
  cases a with
  | quit => exact ⟨_, _, rfl, rfl⟩
  | again m => exact ⟨_, _, rfl, rfl⟩
  | accept s =>
    cases hl : i.line with
    | none =>
      rw [hl] at ha
      cases ha
    | some ln =>
      rw [hl] at ha
      obtain ⟨hq, ws, ns, hrest⟩ := ((c40_swaps i.order).2.2 ln s).1 ha
      exact absurd ⟨ln, ws, ns, hl, hq, hrest⟩ (hc s)

/-- A round whatever the choice: what it brings back on average for each hand that is dealt. -/
theorem round_any {ev : Evaluator} (hev : Evaluator.new = .ok ev) {L : List PCard} (hLn : L.Nodup)
    (hLp : L.toFinset = pack) {c w : Nat} (hc : c + 4000 < 2 ^ 64) {bet : Input}
    (hb : Bets bet.line c w) (choice : List PCard → Input) (hr : ∀ h k, (choice h).drawRound k ≤ k) :
    ∃ won : Draws → Draws → Nat,
      (∀ d₁ d₂ c', Round ev (deal L) c bet choice d₁ d₂ c' ↔ c' = c - w + won d₁ d₂) ∧
      ∀ d₁, ((result L d₁).take 5).Nodup ∧ ((result L d₁).take 5).length = 5 ∧
        (((∀ s, ¬ Chooses (choice ((result L d₁).take 5)).line s) ∧ ∑ d₂, won d₁ d₂ = 0) ∨
        ∃ s, Chooses (choice ((result L d₁).take 5)).line s ∧
          (∑ d₂, won d₁ d₂) * 12994800 = Fintype.card Draws * worthFor w ((result L d₁).take 5) s) := by
  obtain ⟨-, -, -, hw1, hw5, hwc⟩ := id hb
  have hl : (deal L).Perm Deck.generate := perm_generate.2 ⟨L, rfl, hLn, hLp⟩
  have h52 : L.length = 52 := by rw [← List.toFinset_card_of_nodup hLn, hLp, pack_card]
  have hpm := fun d => (shuffle_result L d).2
  have hlen : ∀ d, (result L d).length = 52 := fun d => (hpm d).length_eq.trans h52
  have hsplit : ∀ d, (result L d).take 5 ++ (result L d).drop 5 = result L d :=
    fun d => List.take_append_drop _ _
  have hn : ∀ d, ((result L d).take 5 ++ (result L d).drop 5).Nodup := fun d => by
    rw [hsplit]; exact (hpm d).nodup_iff.2 hLn
  have hp : ∀ d, ((result L d).take 5 ++ (result L d).drop 5).toFinset = pack := fun d => by
    rw [hsplit, List.toFinset_eq_of_perm _ _ (hpm d), hLp]
  have h5 : ∀ d, ((result L d).take 5).length = 5 := fun d => by
    rw [List.length_take, hlen]; rfl
  have hhn : ∀ d, ((result L d).take 5).Nodup := fun d => (List.nodup_append'.1 (hn d)).1
  have key : ∀ d₁, ∃ won : Draws → Nat,
      (∀ d₂ c', Round ev (deal L) c bet choice d₁ d₂ c' ↔ c' = c - w + won d₂) ∧
        (((∀ s, ¬ Chooses (choice ((result L d₁).take 5)).line s) ∧ ∑ d₂, won d₂ = 0) ∨
        ∃ s, Chooses (choice ((result L d₁).take 5)).line s ∧
          (∑ d₂, won d₂) * 12994800 = Fintype.card Draws * worthFor w ((result L d₁).take 5) s) := by
    intro d₁
    have hm : Deck.shuffle d₁.stream (deal L) = .ok (deal (result L d₁)) := by
      rw [(shuffle_result (deal L) d₁).1, deal, result_map]
      rfl
    have hmp : (deal (result L d₁)).Perm Deck.generate := ((hpm d₁).map _).trans hl
    obtain ⟨e, out, hstep, heval⟩ := wager_step hev bet hb hmp
    have htake : (deal (result L d₁)).take 5 = deal ((result L d₁).take 5) := by
      rw [deal, deal, List.map_take]
    have hdrop : (deal (result L d₁)).drop 5 = deal ((result L d₁).drop 5) := by
      rw [deal, deal, List.map_drop]
    rw [htake, hdrop] at hstep
    rw [htake] at heval
    have hheld : Held ((result L d₁).take 5) (deal ((result L d₁).take 5)) e := by
      refine ⟨hhn d₁, h5 d₁, rfl, ?_⟩
      rw [evaluateHand, hev, Comb.bind_ok, heval]
    have fin : ∀ {d₂ : Draws} {v : Nat}, (∃ t out',
        Game.step ev { choice ((result L d₁).take 5) with drawSwap := d₂.stream }
          (.swaps (c - w) w e (deal ((result L d₁).drop 5)) (deal ((result L d₁).take 5)))
          = .ok (t, out') ∧ t.credits = v) →
        ∀ c', Round ev (deal L) c bet choice d₁ d₂ c' ↔ c' = v := by
      rintro d₂ v ⟨t, out', hstep', hcr⟩ c'
      constructor
      · rintro ⟨m, s, o, h, t', o', e1, e2, e3, e4, rfl⟩
        rw [hm, Except.ok.injEq] at e1
        subst e1
        rw [hstep, Except.ok.injEq, Prod.mk.injEq] at e2
        obtain ⟨rfl, -⟩ := e2
        rw [htake] at e3
        rw [deal_injective e3, hstep', Except.ok.injEq, Prod.mk.injEq] at e4
        rw [← e4.1, hcr]
      · rintro rfl
        exact ⟨_, _, _, _, _, _, hm, hstep, htake.symm, hstep', hcr⟩
    by_cases hch : ∃ s, Chooses (choice ((result L d₁).take 5)).line s
    · obtain ⟨s, hs⟩ := hch
      obtain ⟨hand, hsec, hsum⟩ := second_any (hn d₁) (hp d₁) (h5 d₁) (chooses_positions hs)
      refine ⟨fun d₂ => back w (setKind (hand d₂).toFinset), fun d₂ => fin ?_,
        .inr ⟨s, hs, hsum w hw1 hw5⟩⟩
      obtain ⟨g', hrep, hn', h5'⟩ := hsec d₂
      exact swaps_step hev { choice ((result L d₁).take 5) with drawSwap := d₂.stream } (hr _)
        (c := c - w) hs hheld hrep hn' h5' hw1 hw5 (by omega)
    · have hno : ∀ s, ¬ Chooses (choice ((result L d₁).take 5)).line s := fun s hs => hch ⟨s, hs⟩
      exact ⟨fun _ => 0, fun d₂ => fin (no_swaps ev
        { choice ((result L d₁).take 5) with drawSwap := d₂.stream } hno), .inl ⟨hno, Finset.sum_const_zero⟩⟩
  choose won h1 h2 using key
  exact ⟨won, h1, fun d₁ => ⟨hhn d₁, h5 d₁, h2 d₁⟩⟩

theorem sums_le {ι : Type} [Fintype ι] {c X : Nat} (f : ι → ι → Nat) (g : ι → Nat)
    (h1 : ∀ i, (∑ j, f i j) * 12994800 ≤ Fintype.card ι * g i)
    (h2 : (∑ i, g i) * 2598960 = Fintype.card ι * (4 * X)) :
    (∑ i, ∑ j, (c + f i j)) * 8443241352000 ≤ Fintype.card ι ^ 2 * (c * 8443241352000 + X) := by
  have h3 : (∑ i, ∑ j, f i j) * 12994800 ≤ Fintype.card ι * ∑ i, g i := by
    rw [Finset.sum_mul, Finset.mul_sum]
    exact Finset.sum_le_sum (fun i _ => h1 i)
  have h4 : (∑ i, ∑ j, (c + f i j)) = Fintype.card ι ^ 2 * c + ∑ i, ∑ j, f i j := by
    simp only [Finset.sum_add_distrib, sum_const]
    rw [Nat.pow_two, Nat.mul_assoc]
  generalize (∑ i, ∑ j, f i j) = F at *
  generalize (∑ i, g i) = G at *
  generalize Fintype.card ι = N at *
  have h5 : F * 8443241352000 ≤ N ^ 2 * X := by
    refine Nat.le_of_mul_le_mul_left (c := 4) ?_ (by norm_num)
    calc 4 * (F * 8443241352000) = F * 12994800 * 2598960 := by ring
      _ ≤ N * G * 2598960 := Nat.mul_le_mul_right _ h3
      _ = N * (G * 2598960) := by ring
      _ = 4 * (N ^ 2 * X) := by rw [h2]; ring
  calc _ = N ^ 2 * c * 8443241352000 + F * 8443241352000 := by rw [h4, Nat.add_mul]
    _ ≤ N ^ 2 * c * 8443241352000 + N ^ 2 * X := Nat.add_le_add_left h5 _
    _ = _ := by ring

theorem sums_eq {ι : Type} [Fintype ι] {c X : Nat} (f : ι → ι → Nat) (g : ι → Nat)
    (h1 : ∀ i, (∑ j, f i j) * 12994800 = Fintype.card ι * g i)
    (h2 : (∑ i, g i) * 2598960 = Fintype.card ι * (4 * X)) :
    (∑ i, ∑ j, (c + f i j)) * 8443241352000 = Fintype.card ι ^ 2 * (c * 8443241352000 + X) := by
  have h3 : (∑ i, ∑ j, f i j) * 12994800 = Fintype.card ι * ∑ i, g i := by
    rw [Finset.sum_mul, Finset.mul_sum]
    exact Finset.sum_congr rfl (fun i _ => h1 i)
  have h4 : (∑ i, ∑ j, (c + f i j)) = Fintype.card ι ^ 2 * c + ∑ i, ∑ j, f i j := by
    simp only [Finset.sum_add_distrib, sum_const]
    rw [Nat.pow_two, Nat.mul_assoc]
  generalize (∑ i, ∑ j, f i j) = F at *
  generalize (∑ i, g i) = G at *
  generalize Fintype.card ι = N at *
  have h5 : F * 8443241352000 = N ^ 2 * X := by
    refine Nat.eq_of_mul_eq_mul_left (n := 4) (by norm_num) ?_
    calc 4 * (F * 8443241352000) = F * 12994800 * 2598960 := by ring
      _ = N * (G * 2598960) := by rw [h3]; ring
      _ = 4 * (N ^ 2 * X) := by rw [h2]; ring
  rw [h4, Nat.add_mul, h5]
  ring

theorem best_sum {L : List PCard} (hLn : L.Nodup) (hLp : L.toFinset = pack) (w : Nat) :
    (∑ d, w * Hold.bestOf (Hold.prizeOf (tabsFor w)) ((result L d).take 5).toFinset) * 2598960
      = Fintype.card Draws * (4 * bestBack w) := by
  have h52 : L.length = 52 := by rw [← List.toFinset_card_of_nodup hLn, hLp, pack_card]
  have := sum_tops hLn (by omega) (k := 5) (by omega)
    (fun x => w * Hold.bestOf (Hold.prizeOf (tabsFor w)) x)
  rwa [hLp, h52, show Nat.choose 52 5 = 2598960 from by
    rw [Nat.choose_eq_descFactorial_div_factorial]; decide +kernel, ← fiveCardHands, best_total] at this

/-- C62: whatever the lines are by which the cards to change are chosen, a round brings back on average
at most what the best choices bring back: 11824749450550 / 8443241352000 of the wager, which is 1.4005,
and 11915909340253 / 8443241352000 of the highest, which is 1.4113. -/
theorem c62_bound {ev : Evaluator} (hev : Evaluator.new = .ok ev) {l : List Card}
    (hl : l.Perm Deck.generate) {c w : Nat} (hc : c + 4000 < 2 ^ 64) {bet : Input}
    (hb : Bets bet.line c w) {choice : List PCard → Input} (hr : ∀ h k, (choice h).drawRound k ≤ k) :
    ∃ after : Draws → Draws → Nat, (∀ d₁ d₂ c', Round ev l c bet choice d₁ d₂ c' ↔ c' = after d₁ d₂) ∧
      (∑ d₁, ∑ d₂, after d₁ d₂) * 8443241352000
        ≤ Fintype.card Draws ^ 2 * ((c - w) * 8443241352000 + bestBack w) := by
  obtain ⟨-, -, -, hw1, hw5, hwc⟩ := id hb
  obtain ⟨L, rfl, hLn, hLp⟩ := perm_generate.1 hl
  obtain ⟨won, h1, h2⟩ := round_any hev hLn hLp hc hb choice hr
  refine ⟨fun d₁ d₂ => c - w + won d₁ d₂, h1, sums_le won _ (fun d₁ => ?_) (best_sum hLn hLp w)⟩
  obtain ⟨hn, h5, h3⟩ := h2 d₁
  rcases h3 with ⟨-, h3⟩ | ⟨s, hs, h3⟩
  · rw [h3, Nat.zero_mul]
    exact Nat.zero_le _
  · rw [h3]
    exact Nat.mul_le_mul_left _ (worth_le hw1 hw5 hn h5 (chooses_positions hs))

/-- C62: and whoever makes the best choice for every hand gets exactly that. -/
theorem c62_best {ev : Evaluator} (hev : Evaluator.new = .ok ev) {l : List Card}
    (hl : l.Perm Deck.generate) {c w : Nat} (hc : c + 4000 < 2 ^ 64) {bet : Input}
    (hb : Bets bet.line c w) {choice : List PCard → Input}
    (ha : ∀ h, h.Nodup → h.length = 5 → ∃ s, Chooses (choice h).line s ∧ Best w h s)
    (hr : ∀ h k, (choice h).drawRound k ≤ k) :
    ∃ after : Draws → Draws → Nat, (∀ d₁ d₂ c', Round ev l c bet choice d₁ d₂ c' ↔ c' = after d₁ d₂) ∧
      (∑ d₁, ∑ d₂, after d₁ d₂) * 8443241352000
        = Fintype.card Draws ^ 2 * ((c - w) * 8443241352000 + bestBack w) := by
  obtain ⟨-, -, -, hw1, hw5, hwc⟩ := id hb
  obtain ⟨L, rfl, hLn, hLp⟩ := perm_generate.1 hl
  obtain ⟨won, h1, h2⟩ := round_any hev hLn hLp hc hb choice hr
  refine ⟨fun d₁ d₂ => c - w + won d₁ d₂, h1, sums_eq won _ (fun d₁ => ?_) (best_sum hLn hLp w)⟩
  obtain ⟨hn, h5, h3⟩ := h2 d₁
  obtain ⟨s', hs', hbest⟩ := ha _ hn h5
  rcases h3 with ⟨h3, -⟩ | ⟨s, hs, h3⟩
  · exact absurd hs' (h3 s')
  · obtain rfl := chooses_unique hs hs'
    rw [h3, worth_best hw1 hw5 hn h5 hbest]

/-- C62: there is such a player for every wager. -/
theorem c62_player (w : Nat) : ∃ choice : List PCard → Input,
    (∀ h, ∃ s, Chooses (choice h).line s ∧ Best w h s) ∧ ∀ h k, (choice h).drawRound k ≤ k := by
  choose best h1 h2 using best_exists w
  refine ⟨fun h => ⟨some (positionsLine (best h)), id, id, id⟩, fun h => ⟨best h, ?_, h1 h⟩,
    fun _ k => le_rfl⟩
  have h3 := List.all_eq_true.1 positions_ok _ (List.mem_sublists.2 (h2 h))
  rw [Bool.and_eq_true, decide_eq_true_eq] at h3
  obtain ⟨h3, h4⟩ := h3
  split at h4
  · rename_i l hl
    rw [beq_iff_eq] at h4
    subst h4
    obtain ⟨hq, ws, ns, hrest⟩ := ((c40_swaps id).2.2 _ _).1 hl
    exact ⟨_, ws, ns, rfl, hq, hrest⟩
  · cases h4

theorem best_most {c w : Nat} (h : w ≤ c) :
    1000 * ((c - w) * 8443241352000 + bestBack w) ≤ (1000 * c + 412 * w) * 8443241352000 := by
  rw [bestBack]
  split <;> omega

theorem best_least {c w : Nat} (h : w ≤ c) :
    (1000 * c + 400 * w) * 8443241352000 ≤ 1000 * ((c - w) * 8443241352000 + bestBack w) := by
  rw [bestBack]
  split <;> omega

/-- C62: so the game favours who plays well by more than 0.4 credits for each at stake, but nobody by
more than 0.412. -/
theorem c62_favourable {ev : Evaluator} (hev : Evaluator.new = .ok ev) {l : List Card}
    (hl : l.Perm Deck.generate) {c w : Nat} (hc : c + 4000 < 2 ^ 64) {bet : Input}
    (hb : Bets bet.line c w) {choice : List PCard → Input} (hr : ∀ h k, (choice h).drawRound k ≤ k) :
    ∃ after : Draws → Draws → Nat, (∀ d₁ d₂ c', Round ev l c bet choice d₁ d₂ c' ↔ c' = after d₁ d₂) ∧
      1000 * ∑ d₁, ∑ d₂, after d₁ d₂ ≤ (1000 * c + 412 * w) * Fintype.card Draws ^ 2 ∧
      ((∀ h, h.Nodup → h.length = 5 → ∃ s, Chooses (choice h).line s ∧ Best w h s) →
        (1000 * c + 400 * w) * Fintype.card Draws ^ 2 ≤ 1000 * ∑ d₁, ∑ d₂, after d₁ d₂) := by
  obtain ⟨-, -, -, hw1, hw5, hwc⟩ := id hb
  obtain ⟨after, h1, h2⟩ := c62_bound hev hl hc hb hr
  refine ⟨after, h1, ?_, fun ha => ?_⟩
  · generalize (∑ d₁, ∑ d₂, after d₁ d₂) = S at *
    generalize Fintype.card Draws ^ 2 = N at *
    refine Nat.le_of_mul_le_mul_right (c := 8443241352000) ?_ (by norm_num)
    rw [Nat.mul_assoc 1000]
    calc 1000 * (S * 8443241352000) ≤ 1000 * (N * ((c - w) * 8443241352000 + bestBack w)) :=
        Nat.mul_le_mul_left _ h2
      _ = N * (1000 * ((c - w) * 8443241352000 + bestBack w)) := by ring
      _ ≤ N * ((1000 * c + 412 * w) * 8443241352000) := Nat.mul_le_mul_left _ (best_most hwc)
      _ = _ := by ring
  · obtain ⟨after', h1', h2'⟩ := c62_best hev hl hc hb ha hr
    have e : after' = after := funext fun d₁ => funext fun d₂ => (h1 d₁ d₂ _).1 ((h1' d₁ d₂ _).2 rfl)
    subst e
    generalize (∑ d₁, ∑ d₂, after' d₁ d₂) = S at *
    generalize Fintype.card Draws ^ 2 = N at *
    refine Nat.le_of_mul_le_mul_right (c := 8443241352000) ?_ (by norm_num)
    rw [Nat.mul_assoc 1000, h2']
    calc (1000 * c + 400 * w) * N * 8443241352000 = N * ((1000 * c + 400 * w) * 8443241352000) := by ring
      _ ≤ N * (1000 * ((c - w) * 8443241352000 + bestBack w)) := Nat.mul_le_mul_left _ (best_least hwc)
      _ = _ := by ring

theorem rule_less {N S w : Nat} (hw1 : 1 ≤ w) (hw5 : w ≤ 5) (hN : 0 < N)
    (h1 : S * 551845840 = N * ((5 - w) * 551845840 + (623208741 * w + if w = 5 then 3506250 else 0)))
    (h2 : S * 8443241352000 = N * ((5 - w) * 8443241352000 + bestBack w)) : False := by
  have e : N * (((5 - w) * 551845840 + (623208741 * w + if w = 5 then 3506250 else 0)) * 8443241352000)
      = N * (((5 - w) * 8443241352000 + bestBack w) * 551845840) := by
    rw [← Nat.mul_assoc, ← h1, ← Nat.mul_assoc, ← h2]
    ring
  have e' := Nat.eq_of_mul_eq_mul_left hN e
  have : w = 1 ∨ w = 2 ∨ w = 3 ∨ w = 4 ∨ w = 5 := by omega
  rcases this with rfl | rfl | rfl | rfl | rfl <;> norm_num [bestBack] at e'

theorem card_sq_pos {ι : Type} [Fintype ι] (i : ι) : 0 < Fintype.card ι ^ 2 :=
  Nat.pow_pos (Fintype.card_pos_iff.2 ⟨i⟩)

theorem same_sum {ι : Type} [Fintype ι] {R : ι → ι → Nat → Prop} {f g : ι → ι → Nat}
    (hf : ∀ i j c, R i j c ↔ c = f i j) (hg : ∀ i j c, R i j c ↔ c = g i j) :
    ∑ i, ∑ j, f i j = ∑ i, ∑ j, g i j :=
  Finset.sum_congr rfl (fun i _ => Finset.sum_congr rfl (fun j _ => (hg i j _).1 ((hf i j _).2 rfl)))

/-- C62: the rule of C51 does not make the best choice for every hand. -/
theorem c62_advice {w : Nat} (hw1 : 1 ≤ w) (hw5 : w ≤ 5) :
    ∃ h : List PCard, h.Nodup ∧ h.length = 5 ∧ ¬ Best w h (advice h) := by
  by_contra hno
  have hbest : ∀ h : List PCard, h.Nodup → h.length = 5 → Best w h (advice h) := by
    intro h hn h5
    by_contra hb
    exact hno ⟨h, hn, h5, hb⟩
  obtain ⟨ev, hev⟩ := c36_new_ok
  obtain ⟨choice, ha, hr⟩ := player
  have hb : Bets (⟨some (natStr w), id, id, id⟩ : Input).line 5 w :=
    ⟨natStr w, rfl, .inl (numeral_natStr w), hw1, hw5, hw5⟩
  obtain ⟨after, h1, h2⟩ := c51_average hev (.refl _) (c := 5) (by norm_num) hb ha hr
  obtain ⟨after', h1', h2'⟩ := c62_best hev (.refl _) (c := 5) (by norm_num) hb
    (fun h hn h5 => ⟨_, ha h hn h5, hbest h hn h5⟩) hr
  rw [← same_sum h1 h1'] at h2'
  exact rule_less hw1 hw5 (card_sq_pos (ι := Draws) fun _ => 0) h2 h2'

/-! The hypotheses can be met. -/

/-- A wager, and a player who makes the best choice for every hand. -/
example : Bets (some "5".toList) 100 5 ∧ ∃ choice : List PCard → Input,
    (∀ h, ∃ s, Chooses (choice h).line s ∧ Best 5 h s) ∧ ∀ h k, (choice h).drawRound k ≤ k :=
  ⟨⟨_, rfl, .inl ⟨by decide, by decide⟩, by decide, by decide, by decide⟩, c62_player 5⟩

theorem payback_le {w : Nat} (hw1 : 1 ≤ w) (hw : w ≤ 5) {x : Finset PCard} (hx : x.card = 5) :
    payback w x.toList ≤ back w 9 := by
  rw [payback, ← back_prize (Finset.nodup_toList x) (by rw [Finset.length_toList, hx]) hw1 hw]
  have h1 := kind_le x.toList
  generalize kind (strength x.toList) = k at *
  have hw' : w = 1 ∨ w = 2 ∨ w = 3 ∨ w = 4 ∨ w = 5 := by omega
  have hk : k = 0 ∨ k = 1 ∨ k = 2 ∨ k = 3 ∨ k = 4 ∨ k = 5 ∨ k = 6 ∨ k = 7 ∨ k = 8 ∨ k = 9 ∨ k = 10 := by omega
  rcases hw' with rfl | rfl | rfl | rfl | rfl <;>
    rcases hk with rfl | rfl | rfl | rfl | rfl | rfl | rfl | rfl | rfl | rfl | rfl <;> decide

/-- It is best to keep a royal flush. -/
theorem best_royal {w : Nat} (hw1 : 1 ≤ w) (hw : w ≤ 5) {h : List PCard} (hn : h.Nodup) (h5 : h.length = 5)
    (hk : kind (strength h) = 9) : Best w h [] := by
  refine ⟨⟨List.nodup_nil, by simp⟩, fun s' hs' => ?_⟩
  have hc : h.toFinset.card = 5 := by rw [List.toFinset_card_of_nodup hn, h5]
  have h0 : kept h [] = h.toFinset := Finset.eq_of_subset_of_card_le (kept_subset h [])
    (by rw [kept_len hn h5 ⟨List.nodup_nil, by simp⟩, hc]; exact le_rfl)
  have hp : paybacks w (kept h []) = back w 9 := by
    rw [h0, paybacks, hc, Nat.sub_self, Finset.powersetCard_zero, Finset.sum_singleton,
      Finset.union_empty, payback, ← back_prize (Finset.nodup_toList _)
      (by rw [Finset.length_toList, hc]) hw1 hw, ← setKind, setKind_list hn, hk]
  rw [hp, List.length_nil, Nat.choose_zero_right, Nat.mul_one, paybacks, Nat.mul_comm]
  have hlen := kept_len hn h5 hs'
  have hl := positions_length hs'
  have hcard : ((pack \ kept h s').powersetCard (5 - (kept h s').card)).card
      = (47 + s'.length).choose s'.length := by
    rw [Finset.card_powersetCard, Finset.card_sdiff_of_subset (fun c _ => pack_complete c), pack_card,
      hlen]
    congr 1 <;> omega
  rw [← hcard, ← smul_eq_mul]
  refine Finset.sum_le_card_nsmul _ _ _ (fun x hx => payback_le hw1 hw ?_)
  obtain ⟨h7, h8⟩ := Finset.mem_powersetCard.1 hx
  rw [Finset.card_union_of_disjoint, h8]
  · omega
  · exact Finset.disjoint_left.2 (fun c hc hc' => (Finset.mem_sdiff.1 (h7 hc')).2 hc)

example : Best 5 [(.Ten, .Hearts), (.Jack, .Hearts), (.Queen, .Hearts), (.King, .Hearts),
    (.Ace, .Hearts)] [] :=
  best_royal (by decide) (by decide) (by decide) rfl (by decide +kernel)

end Poker
