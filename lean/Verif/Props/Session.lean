import Verif.Props.Strategy
import Verif.Spec.Session

/-! # Several rounds, played by a rule: C59 -/

namespace Poker
open Rules Tab Counts Nat Shuffles Game Sets

theorem exec_bind {α β : Type} {x : Exec α} {f : α → Exec β} {b : β} :
    x >>= f = .ok b ↔ ∃ a, x = .ok a ∧ f a = .ok b := by
  cases x with
  | error p => exact ⟨fun h => (by cases h), fun ⟨_, h, _⟩ => (by cases h)⟩
  | ok a => exact ⟨fun h => ⟨a, rfl, h⟩, fun ⟨_, h, h'⟩ => (by cases h; exact h')⟩

theorem stream_bound (d : Draws) (k : Nat) : d.stream k ≤ k := by
  unfold Draws.stream
  split
  · rename_i h
    have := (d ⟨k - 1, by omega⟩).isLt
    simp only at this
    omega
  · omega

/-- Where a round ends: what is left goes into the shuffle for the next one. -/
theorem swaps_end {ev : Evaluator} {i : Input} {c w : Nat} {deck hand deck' hand' : List Card} {e : Eval}
    {s : List Nat} (hc : Chooses i.line s) (hr : replace i.drawSwap s deck hand = .ok (deck', hand'))
    {t : State} {out : List Str} (h : Game.step ev i (.swaps c w e deck hand) = .ok (t, out))
    (h0 : t.credits ≠ 0) :
    ∃ m, Deck.shuffle i.drawRound (deck' ++ hand') = .ok m ∧ t = .wager t.credits m [] := by
  obtain ⟨ln, ws, ns, hln, hq, hrest⟩ := hc
  have hg : get_swaps i.order i.line = .ok (.accept s) := by
    rw [hln]
    exact ((c40_swaps i.order).2.2 ln s).2 ⟨hq, ws, ns, hrest⟩
  rw [Game.step, hg, Comb.bind_ok] at h
  simp only at h
  unfold afterSwaps at h
  rw [hr] at h
  simp only [Comb.bind_ok] at h
  obtain ⟨_, -, h⟩ := exec_bind.1 h
  obtain ⟨_, -, h⟩ := exec_bind.1 h
  obtain ⟨_, -, h⟩ := exec_bind.1 h
  obtain ⟨_, -, h⟩ := exec_bind.1 h
  obtain ⟨k, -, h⟩ := exec_bind.1 h
  split at h
  · rename_i hk
    cases h
    exact absurd hk h0
  · obtain ⟨m, hm, h⟩ := exec_bind.1 h
    cases h
    exact ⟨m, hm, rfl⟩

theorem replace_perm {h g h' g' : List PCard} (hn : (h ++ g).Nodup) {s : List Nat} (hs : s.Nodup)
    (hl : ∀ i ∈ s, i < h.length) {d : Draws}
    (hr : replace d.stream s (deal g) (deal h) = .ok (deal g', deal h')) :
    (g' ++ h').Perm (h ++ g) := by
  cases s with
  | nil =>
    rw [replace] at hr
    simp only [List.isEmpty_nil, Bool.not_true, Bool.false_eq_true, if_false, Except.ok.injEq,
      Prod.mk.injEq] at hr
    rw [← deal_injective hr.1, ← deal_injective hr.2]
    exact List.perm_append_comm
  | cons a s =>
    rw [replace, if_pos (by rfl)] at hr
    obtain ⟨h₂, g₂, h1, -, -, h2, -⟩ := swap_result hn hs hl d
    rw [hr, Except.ok.injEq, Prod.mk.injEq] at h1
    rw [deal_injective h1.1, deal_injective h1.2]
    exact List.perm_append_comm.trans h2

/-- The sum over the choices of `n + 1` rounds, the first round apart. -/
theorem sum_rounds {α : Type} [Fintype α] {n : Nat} (f : α × α → (Fin n → α × α) → Nat) :
    ∑ ds : Fin (n + 1) → α × α, f (ds 0) (fun i => ds i.succ) = ∑ a, ∑ b, ∑ ds, f (a, b) ds := by
  rw [← Fintype.sum_prod_type' (f := fun a b => ∑ ds, f (a, b) ds),
    ← Fintype.sum_prod_type' (f := fun (p : α × α) ds => f p ds)]
  exact (Fintype.sum_equiv (Fin.consEquiv (fun _ : Fin (n + 1) => α × α)) _ _ (fun p => rfl)).symm

theorem sum_none {α : Type} [Fintype α] {Q X : Nat} (c : Nat) :
    (∑ _d : α, ∑ _ds : Fin 0 → α × α, c) * Q = Fintype.card α ^ (2 * 0 + 1) * (c * Q + 0 * X) := by
  simp only [sum_const, Fintype.card_unique]
  ring

theorem sum_more {α : Type} [Fintype α] {n Q X k : Nat} (f : α → α → α → (Fin n → α × α) → Nat)
    (won : α → α → Nat)
    (h : ∀ d a, (∑ b, ∑ ds, f d a b ds) * Q
      = Fintype.card α ^ (2 * n + 1) * ((k + won d a) * Q + n * X))
    (hs : (∑ d, ∑ a, (k + won d a)) * Q = Fintype.card α ^ 2 * (k * Q + X)) :
    (∑ d, ∑ ds : Fin (n + 1) → α × α, f d (ds 0).1 (ds 0).2 (fun i => ds i.succ)) * Q
      = Fintype.card α ^ (2 * (n + 1) + 1) * (k * Q + (n + 1) * X) := by
  have hsw : ∀ d, ∑ ds : Fin (n + 1) → α × α, f d (ds 0).1 (ds 0).2 (fun i => ds i.succ)
      = ∑ a, ∑ b, ∑ ds, f d a b ds := fun d => sum_rounds (fun p ds => f d p.1 p.2 ds)
  simp only [hsw]
  calc (∑ d, ∑ a, ∑ b, ∑ ds, f d a b ds) * Q
      = ∑ d, ∑ a, Fintype.card α ^ (2 * n + 1) * ((k + won d a) * Q + n * X) := by
        rw [Finset.sum_mul]
        refine Finset.sum_congr rfl (fun d _ => ?_)
        rw [Finset.sum_mul]
        exact Finset.sum_congr rfl (fun a _ => h d a)
    _ = Fintype.card α ^ (2 * n + 1) * ((∑ d, ∑ a, (k + won d a)) * Q + Fintype.card α ^ 2 * (n * X)) := by
        simp only [← Finset.mul_sum, Finset.sum_add_distrib, ← Finset.sum_mul, sum_const]
        ring
    _ = _ := by
        rw [hs]
        ring

section Rule

variable {adv : List PCard → List Nat} {value : Nat → Nat} {D Q X w : Nat} {ev : Evaluator}
  {bet : Input} {choice : List PCard → Input}

/-- One round from a deck that is still to be shuffled. -/
theorem one_round {M : Nat} (hM : M = 2 ^ 64) (hev : Evaluator.new = .ok ev) (hw1 : 1 ≤ w) (hw5 : w ≤ 5)
    (hb : ∀ c, w ≤ c → Bets bet.line c w)
    (ha : ∀ h, h.Nodup → h.length = 5 → Chooses (choice h).line (adv h))
    (hadv : ∀ h, h.Nodup → h.length = 5 → (adv h).Nodup ∧ ∀ i ∈ adv h, i < 5)
    (second : ∀ h g : List PCard, (h ++ g).Nodup → (h ++ g).toFinset = pack → h.length = 5 →
      ∃ hand : Draws → List PCard,
      (∀ d, ∃ g', replace d.stream (adv h) (deal g) (deal h) = .ok (deal g', deal (hand d)) ∧
        (hand d).Nodup ∧ (hand d).length = 5) ∧
      (∑ d, back w (setKind (hand d).toFinset)) * 50939616000
        = Fintype.card Draws * value (kind (strength h)))
    (hX : ((List.range 11).map (fun k => tally k * value k)).sum = D * X)
    (hD : D * Q = 2598960 * 50939616000) (hD0 : 0 < D)
    {L : List PCard} (hLn : L.Nodup) (hLp : L.toFinset = pack) :
    ∃ (won : Draws → Draws → Nat) (rest : Draws → Draws → List PCard),
      (∀ d₁ d₂, won d₁ d₂ ≤ w + 4000 ∧ (rest d₁ d₂).Nodup ∧ (rest d₁ d₂).toFinset = pack) ∧
      (∀ c d₁ d₂ d₃, w ≤ c → c + 4000 < M → ∃ e out g h t out',
        Game.step ev bet (.wager c (deal (result L d₁)) []) = .ok (.swaps (c - w) w e g (deal h), out) ∧
        Game.step ev { choice h with drawSwap := d₂.stream, drawRound := d₃.stream }
          (.swaps (c - w) w e g (deal h)) = .ok (t, out') ∧
        t.credits = c - w + won d₁ d₂ ∧
        (t.credits ≠ 0 → t = .wager t.credits (deal (result (rest d₁ d₂) d₃)) [])) ∧
      ∀ k, (∑ d₁, ∑ d₂, (k + won d₁ d₂)) * Q = Fintype.card Draws ^ 2 * (k * Q + X) := by
  have hl : (deal L).Perm Deck.generate := perm_generate.2 ⟨L, rfl, hLn, hLp⟩
  have h52 : L.length = 52 := by rw [← List.toFinset_card_of_nodup hLn, hLp, pack_card]
  have hpm := fun d => (shuffle_result L d).2
  have hlen : ∀ d, (result L d).length = 52 := fun d => (hpm d).length_eq.trans h52
  have hsplit : ∀ d, (result L d).take 5 ++ (result L d).drop 5 = result L d :=
    fun d => List.take_append_drop _ _
  have hn : ∀ d, ((result L d).take 5 ++ (result L d).drop 5).Nodup := fun d => by
    rw [hsplit]; exact (hpm d).nodup_iff.2 hLn
  have hp : ∀ d, ((result L d).take 5 ++ (result L d).drop 5).toFinset = pack := fun d => by
    rw [hsplit, List.toFinset_eq_of_perm _ _ (hpm d), hLp]
  have h5 : ∀ d, ((result L d).take 5).length = 5 := fun d => by
    rw [List.length_take, hlen]; rfl
  have hhn : ∀ d, ((result L d).take 5).Nodup := fun d => (List.nodup_append'.1 (hn d)).1
  choose hand hsec hsum using fun d => second _ _ (hn d) (hp d) (h5 d)
  choose left hrep hn' h5' using hsec
  have hperm : ∀ d₁ d₂, (left d₁ d₂ ++ hand d₁ d₂).Perm
      ((result L d₁).take 5 ++ (result L d₁).drop 5) := fun d₁ d₂ =>
    replace_perm (hn d₁) (hadv _ (hhn d₁) (h5 d₁)).1
      (by rw [h5 d₁]; exact (hadv _ (hhn d₁) (h5 d₁)).2) (hrep d₁ d₂)
  refine ⟨fun d₁ d₂ => back w (setKind (hand d₁ d₂).toFinset), fun d₁ d₂ => left d₁ d₂ ++ hand d₁ d₂,
    ?_, ?_, ?_⟩
  · intro d₁ d₂
    refine ⟨?_, (hperm d₁ d₂).nodup_iff.2 (hn d₁), ?_⟩
    · have hle := prize_le hw5 (hand d₁ d₂)
      simp only
      rw [setKind_list (hn' d₁ d₂), back_prize (hn' d₁ d₂) (h5' d₁ d₂) hw1 hw5]
      split <;> omega
    · rw [List.toFinset_eq_of_perm _ _ (hperm d₁ d₂), hp]
  · intro c d₁ d₂ d₃ hwc hc
    subst hM
    have hmp : (deal (result L d₁)).Perm Deck.generate := ((hpm d₁).map _).trans hl
    obtain ⟨e, out, hstep, heval⟩ := wager_step hev bet (hb c hwc) hmp
    have htake : (deal (result L d₁)).take 5 = deal ((result L d₁).take 5) := by
      rw [deal, deal, List.map_take]
    have hdrop : (deal (result L d₁)).drop 5 = deal ((result L d₁).drop 5) := by
      rw [deal, deal, List.map_drop]
    rw [htake, hdrop] at hstep
    rw [htake] at heval
    have hheld : Held ((result L d₁).take 5) (deal ((result L d₁).take 5)) e := by
      refine ⟨hhn d₁, h5 d₁, rfl, ?_⟩
      rw [evaluateHand, hev, Comb.bind_ok, heval]
    obtain ⟨t, out', hstep', hcr⟩ := swaps_step hev
      { choice ((result L d₁).take 5) with drawSwap := d₂.stream, drawRound := d₃.stream }
      (fun k => stream_bound d₃ k) (c := c - w)
      (ha _ (hhn d₁) (h5 d₁)) hheld (hrep d₁ d₂) (hn' d₁ d₂) (h5' d₁ d₂) hw1 hw5 (by omega)
    refine ⟨e, out, _, _, t, out', hstep, hstep', hcr, fun h0 => ?_⟩
    obtain ⟨m, hm, ht⟩ := swaps_end
      (i := { choice ((result L d₁).take 5) with drawSwap := d₂.stream, drawRound := d₃.stream })
      (ha _ (hhn d₁) (h5 d₁)) (hrep d₁ d₂) hstep' h0
    rw [deal, deal, ← List.map_append, (shuffle_result _ d₃).1, result_map, Except.ok.injEq] at hm
    rw [ht, ← hm]
    rfl
  · intro k
    refine sums (D := D) (fun d₁ d₂ => back w (setKind (hand d₁ d₂).toFinset))
      (fun d₁ => value (kind (strength ((result L d₁).take 5)))) hsum ?_ hD hD0
    have := sum_tops hLn (by omega) (k := 5) (by omega) (fun x => value (setKind x))
    rw [hLp, h52, show Nat.choose 52 5 = 2598960 from by
      rw [Nat.choose_eq_descFactorial_div_factorial]; decide +kernel] at this
    rw [← hX, ← five_sum value, fiveCardHands, ← this]
    refine congrArg (· * 2598960) (Finset.sum_congr rfl (fun d _ => ?_))
    rw [setKind_list (hhn d)]

theorem left_over {n c v M : Nat} (h1 : n * w + w ≤ c) (h2 : c + (n * 4000 + 4000) < M)
    (h3 : v ≤ w + 4000) : n * w ≤ c - w + v ∧ c - w + v + n * 4000 < M :=
  ⟨by omega, by omega⟩

theorem left_same {n c v : Nat} (h1 : n * w + w ≤ c) :
    c - w + v - n * w = c - (n * w + w) + v := by
  omega

theorem enough {n c M : Nat} (h1 : n * w + w ≤ c) (h2 : c + (n * 4000 + 4000) < M) :
    w ≤ c ∧ c + 4000 < M :=
  ⟨(Nat.le_add_left _ _).trans h1, (Nat.add_le_add_left (Nat.le_add_left _ _) c).trans_lt h2⟩

theorem none_left {n c v : Nat} (h1 : n * w + w ≤ c) (hw : 1 ≤ w) (h2 : c - w + v = 0) : n = 0 := by
  have : n * w = 0 := by omega
  rcases Nat.mul_eq_zero.1 this with h | h
  · exact h
  · omega

/-- The average over several rounds of whoever plays by a rule. -/
theorem session_average {M : Nat} (hM : M = 2 ^ 64) (hev : Evaluator.new = .ok ev) (hw1 : 1 ≤ w) (hw5 : w ≤ 5)
    (hb : ∀ c, w ≤ c → Bets bet.line c w)
    (ha : ∀ h, h.Nodup → h.length = 5 → Chooses (choice h).line (adv h))
    (hadv : ∀ h, h.Nodup → h.length = 5 → (adv h).Nodup ∧ ∀ i ∈ adv h, i < 5)
    (second : ∀ h g : List PCard, (h ++ g).Nodup → (h ++ g).toFinset = pack → h.length = 5 →
      ∃ hand : Draws → List PCard,
      (∀ d, ∃ g', replace d.stream (adv h) (deal g) (deal h) = .ok (deal g', deal (hand d)) ∧
        (hand d).Nodup ∧ (hand d).length = 5) ∧
      (∑ d, back w (setKind (hand d).toFinset)) * 50939616000
        = Fintype.card Draws * value (kind (strength h)))
    (hX : ((List.range 11).map (fun k => tally k * value k)).sum = D * X)
    (hD : D * Q = 2598960 * 50939616000) (hD0 : 0 < D) (n : Nat) :
    ∀ {L : List PCard}, L.Nodup → L.toFinset = pack → ∀ {c : Nat}, n * w ≤ c →
      c + n * 4000 < M →
    ∃ after : Draws → (Fin n → Draws × Draws) → Nat,
      (∀ d ds, ∃ t, t.credits = after d ds ∧
        ∀ t', Session ev bet choice n ds (.wager c (deal (result L d)) []) t' ↔ t' = t) ∧
      (∑ d, ∑ ds, after d ds) * Q
        = Fintype.card Draws ^ (2 * n + 1) * ((c - n * w) * Q + n * X) := by
  induction n with
  | zero =>
    intro L _ _ c _ _
    refine ⟨fun _ _ => c, fun d ds => ⟨_, rfl, fun t' => Iff.rfl⟩, ?_⟩
    rw [Nat.zero_mul, Nat.sub_zero]
    exact sum_none c
  | succ n ih =>
    intro L hLn hLp c hnw hbig
    rw [Nat.add_mul, Nat.one_mul] at hnw hbig
    obtain ⟨won, rest, hrest, hsteps, hsum⟩ :=
      one_round hM hev hw1 hw5 hb ha hadv second hX hD hD0 hLn hLp
    clear hM hX hD hD0 second
    choose aft hone htot using fun d₁ d₂ => ih (hrest d₁ d₂).2.1 (hrest d₁ d₂).2.2
      (c := c - w + won d₁ d₂) (left_over hnw hbig (hrest d₁ d₂).1).1 (left_over hnw hbig (hrest d₁ d₂).1).2
    refine ⟨fun d ds => aft d (ds 0).1 (ds 0).2 (fun i => ds i.succ), ?_, ?_⟩
    · intro d ds
      obtain ⟨e, out, g, h, t, out', h1, h2, h3, h4⟩ :=
        hsteps c d (ds 0).1 (ds 0).2 (enough hnw hbig).1 (enough hnw hbig).2
      obtain ⟨u, hu, hall⟩ := hone d (ds 0).1 (ds 0).2 (fun i => ds i.succ)
      have hiff : ∀ t', Session ev bet choice (n + 1) ds (.wager c (deal (result L d)) []) t' ↔
          Session ev bet choice n (fun i => ds i.succ) t t' := by
        intro t'
        rw [Session]
        constructor
        · rintro ⟨s₁, o₁, c', w', e', deck, h', s₂, o₂, e1, e2, e3, e4⟩
          rw [h1, Except.ok.injEq, Prod.mk.injEq] at e1
          rw [← e1.1, State.swaps.injEq] at e2
          rw [← e1.1, ← deal_injective e2.2.2.2.2, h2, Except.ok.injEq, Prod.mk.injEq] at e3
          rw [e3.1]
          exact e4
        · intro e4
          exact ⟨_, _, _, _, _, _, _, _, _, h1, rfl, h2, e4⟩
      simp only [hiff]
      by_cases h0 : t.credits = 0
      · have hn0 : n = 0 := none_left hnw hw1 (h3 ▸ h0)
        subst hn0
        refine ⟨t, ?_, fun t' => Iff.rfl⟩
        rw [← hu, ← (hall _).1 rfl, h3]
        rfl
      · refine ⟨u, hu, fun t' => ?_⟩
        rw [h4 h0, h3]
        exact hall t'
    · rw [show c - (n + 1) * w = c - (n * w + w) by rw [Nat.add_mul, Nat.one_mul]]
      refine sum_more aft won (fun d a => ?_) (hsum _)
      rw [htot d a, left_same hnw]

end Rule

theorem starts {ev : Evaluator} (hev : Evaluator.new = .ok ev) (d : Draws) {L : List PCard}
    (hL : Deck.generate = deal L) :
    ∃ out, Game.start d.stream = .ok (ev, .wager 100 (deal (result L d)) [], out) := by
  have hm : Deck.shuffled_with d.stream = .ok (deal (result L d)) := by
    rw [Deck.shuffled_with, hL, (shuffle_result (deal L) d).1, deal, result_map]
    rfl
  rw [Game.start, hev, Comb.bind_ok, hm, Comb.bind_ok]
  exact ⟨_, rfl⟩

theorem ends_iff {ev : Evaluator} (hev : Evaluator.new = .ok ev) {L : List PCard}
    (hL : Deck.generate = deal L) {bet : Input} {choice : List PCard → Input} {n : Nat} {d : Draws}
    {ds : Fin n → Draws × Draws} {t : State}
    (h : ∀ t', Session ev bet choice n ds (.wager 100 (deal (result L d)) []) t' ↔ t' = t) (c : Nat) :
    EndsWith bet choice n d ds c ↔ c = t.credits := by
  obtain ⟨out, hs⟩ := starts hev d hL
  constructor
  · rintro ⟨ev', s, o, t', h1, h2, rfl⟩
    rw [hs, Except.ok.injEq, Prod.mk.injEq, Prod.mk.injEq] at h1
    obtain ⟨rfl, rfl, -⟩ := h1
    rw [(h t').1 h2]
  · rintro rfl
    exact ⟨_, _, _, t, hs, (h t).2 rfl, rfl⟩

theorem pack_generate : ∃ L, Deck.generate = deal L ∧ L.Nodup ∧ L.toFinset = pack := perm_generate.1 (.refl _)

/-- C59: over any number of rounds that the 100 credits of the start suffice for, the rule brings back
623208741 / 551845840 of all wagers on average, and a little more for the highest wager: the average is
over all choices of the generator in all shuffles. -/
theorem c59_average {n w : Nat} (hn : n * w ≤ 100) {bet : Input} (hb : ∀ c, w ≤ c → Bets bet.line c w)
    {choice : List PCard → Input}
    (ha : ∀ h, h.Nodup → h.length = 5 → Chooses (choice h).line (advice h)) :
    ∃ after : Draws → (Fin n → Draws × Draws) → Nat,
      (∀ d ds c, EndsWith bet choice n d ds c ↔ c = after d ds) ∧
      (∑ d, ∑ ds, after d ds) * 551845840 = Fintype.card Draws ^ (2 * n + 1) *
        ((100 - n * w) * 551845840 + n * (623208741 * w + if w = 5 then 3506250 else 0)) := by
  obtain ⟨-, -, -, hw1, hw5, -⟩ := hb w le_rfl
  obtain ⟨ev, hev⟩ := c36_new_ok
  obtain ⟨L, hL, hLn, hLp⟩ := pack_generate
  have hn' : n ≤ 100 := (Nat.le_mul_of_pos_right n (by omega)).trans hn
  obtain ⟨after, h1, h2⟩ := session_average (adv := advice) (Q := 551845840) rfl hev hw1 hw5 hb ha
    (fun h _ h5 => advice_spec h5) (fun h g hn hp h5 => by
      obtain ⟨hand, h1, h2⟩ := second_hand hn hp h5
      exact ⟨hand, h1, h2 w⟩) (worthBy_sum hw1 hw5) (by norm_num) (by norm_num) n hLn hLp hn (by omega)
  refine ⟨after, fun d ds c => ?_, h2⟩
  obtain ⟨t, ht, hall⟩ := h1 d ds
  rw [ends_iff hev hL hall, ht]

/-- C59: and 1409404 / 2598960 for whoever never changes a card. -/
theorem c59_stand {n w : Nat} (hn : n * w ≤ 100) {bet : Input} (hb : ∀ c, w ≤ c → Bets bet.line c w)
    {choice : List PCard → Input}
    (ha : ∀ h, h.Nodup → h.length = 5 → Chooses (choice h).line []) :
    ∃ after : Draws → (Fin n → Draws × Draws) → Nat,
      (∀ d ds c, EndsWith bet choice n d ds c ↔ c = after d ds) ∧
      (∑ d, ∑ ds, after d ds) * 2598960 = Fintype.card Draws ^ (2 * n + 1) *
        ((100 - n * w) * 2598960 + n * (1409404 * w + if w = 5 then 11000 else 0)) := by
  obtain ⟨-, -, -, hw1, hw5, -⟩ := hb w le_rfl
  obtain ⟨ev, hev⟩ := c36_new_ok
  obtain ⟨L, hL, hLn, hLp⟩ := pack_generate
  have hn' : n ≤ 100 := (Nat.le_mul_of_pos_right n (by omega)).trans hn
  obtain ⟨after, h1, h2⟩ := session_average (adv := fun _ => []) (Q := 2598960) rfl hev hw1 hw5 hb ha
    (fun h _ h5 => ⟨List.nodup_nil, by simp⟩) (fun h g hn hp h5 => by
      have hhn := (List.nodup_append'.1 hn).1
      refine ⟨fun _ => h, fun d => ⟨g, rfl, hhn, h5⟩, ?_⟩
      rw [sum_const, setKind_list hhn, Nat.mul_assoc])
    (stand_sum hw1 hw5) (by norm_num) (by norm_num) n hLn hLp hn (by omega)
  refine ⟨after, fun d ds c => ?_, h2⟩
  obtain ⟨t, ht, hall⟩ := h1 d ds
  rw [ends_iff hev hL hall, ht]

/-- C59: so that whoever plays by the rule wins on average, and the more the longer they play. -/
theorem c59_favourable {n w : Nat} (hn : n * w ≤ 100) {bet : Input}
    (hb : ∀ c, w ≤ c → Bets bet.line c w) {choice : List PCard → Input}
    (ha : ∀ h, h.Nodup → h.length = 5 → Chooses (choice h).line (advice h)) :
    ∃ after : Draws → (Fin n → Draws × Draws) → Nat,
      (∀ d ds c, EndsWith bet choice n d ds c ↔ c = after d ds) ∧
      (100000 + 129 * (n * w)) * Fintype.card Draws ^ (2 * n + 1) ≤ 1000 * ∑ d, ∑ ds, after d ds := by
  obtain ⟨after, h1, h2⟩ := c59_average hn hb ha
  refine ⟨after, h1, ?_⟩
  generalize (∑ d, ∑ ds, after d ds) = S at *
  generalize Fintype.card Draws ^ (2 * n + 1) = N at *
  refine Nat.le_of_mul_le_mul_right (c := 551845840) ?_ (by norm_num)
  rw [Nat.mul_assoc 1000, h2]
  have h3 : 623208741 * (n * w) ≤ n * (623208741 * w + if w = 5 then 3506250 else 0) := by
    rw [Nat.mul_left_comm]
    exact Nat.mul_le_mul_left _ (by omega)
  calc (100000 + 129 * (n * w)) * N * 551845840 = N * ((100000 + 129 * (n * w)) * 551845840) := by ring
    _ ≤ N * (1000 * ((100 - n * w) * 551845840 +
          n * (623208741 * w + if w = 5 then 3506250 else 0))) :=
      Nat.mul_le_mul_left _ (by omega)
    _ = _ := by ring

theorem session_run {ev : Evaluator} {bet : Input} {choice : List PCard → Input} : ∀ {n : Nat}
    {ds : Fin n → Draws × Draws} {s t : State}, Session ev bet choice n ds s t →
    ∃ inputs out, inputs.length = 2 * n ∧ Game.run ev inputs s = .ok (t, out) ∧
      ∀ i : Fin n, inputs[2 * i.val]? = some bet ∧ ∃ c w e deck h out',
        Game.run ev (inputs.take (2 * i.val + 1)) s = .ok (.swaps c w e deck (deal h), out') ∧
        inputs[2 * i.val + 1]? =
          some { choice h with drawSwap := (ds i).1.stream, drawRound := (ds i).2.stream }
  | 0, _, _, _, h => ⟨[], [], rfl, by rw [h]; rfl, fun i => i.elim0⟩
  | n + 1, ds, s, t, h => by
    obtain ⟨s₁, o₁, c, w, e, deck, h, s₂, o₂, h1, h2, h3, h4⟩ := h
    obtain ⟨inputs, out, h5, h6, h7⟩ := session_run h4
    have hstep : ∀ {is u o}, Game.run ev is s₂ = .ok (u, o) → Game.run ev (bet ::
        { choice h with drawSwap := (ds 0).1.stream, drawRound := (ds 0).2.stream } :: is) s
          = .ok (u, o₁ ++ (o₂ ++ o)) := by
      intro is u o hr
      rw [Game.run, h1, Comb.bind_ok]
      simp only
      rw [Game.run, h3, Comb.bind_ok]
      simp only
      rw [hr]
      rfl
    refine ⟨bet :: { choice h with drawSwap := (ds 0).1.stream, drawRound := (ds 0).2.stream } :: inputs,
      o₁ ++ (o₂ ++ out), by simp [h5, Nat.mul_add], hstep h6, fun i => ?_⟩
    refine Fin.cases ⟨rfl, c, w, e, deck, h, o₁, ?_, rfl⟩ (fun i => ?_) i
    · show Game.run ev [bet] s = _
      rw [Game.run, h1, Comb.bind_ok]
      simp only [Game.run]
      rw [h2, Comb.bind_ok]
      simp only [List.append_nil]
      rfl
    · have : 2 * i.succ.val = 2 * i.val + 1 + 1 := by rw [Fin.val_succ]; omega
      rw [this]
      obtain ⟨h8, c, w, e, deck, h, o, h9, h10⟩ := h7 i
      exact ⟨h8, c, w, e, deck, h, _, hstep h9, h10⟩

/-- C59: these rounds are a run of the program on `2 * n` lines, a wager and a choice for each round: that
for the hand which the program has dealt after the lines before. -/
theorem c59_run {bet : Input} {choice : List PCard → Input} {n : Nat} {d : Draws}
    {ds : Fin n → Draws × Draws} {c : Nat} (h : EndsWith bet choice n d ds c) :
    ∃ inputs t out, inputs.length = 2 * n ∧ Game.main d.stream inputs = .ok (t, out) ∧ t.credits = c ∧
      ∀ i : Fin n, inputs[2 * i.val]? = some bet ∧ ∃ c w e deck h out',
        Game.main d.stream (inputs.take (2 * i.val + 1)) = .ok (.swaps c w e deck (deal h), out') ∧
        inputs[2 * i.val + 1]? =
          some { choice h with drawSwap := (ds i).1.stream, drawRound := (ds i).2.stream } := by
  obtain ⟨ev, s, out, t, h1, h2, h3⟩ := h
  obtain ⟨inputs, out', h4, h5, h6⟩ := session_run h2
  have hmain : ∀ {is u o}, Game.run ev is s = .ok (u, o) → Game.main d.stream is = .ok (u, out ++ o) := by
    intro is u o hr
    rw [Game.main, h1, Comb.bind_ok]
    simp only
    rw [hr]
    rfl
  refine ⟨inputs, t, out ++ out', h4, hmain h5, h3, fun i => ⟨(h6 i).1, ?_⟩⟩
  obtain ⟨-, c, w, e, deck, h, o, h7, h8⟩ := h6 i
  exact ⟨c, w, e, deck, h, _, hmain h7, h8⟩

/-- Twenty rounds at five credits, or a hundred at one, by a player who exists (`player`). -/
example : (20 * 5 ≤ 100 ∧ 100 * 1 ≤ 100) ∧
    (∀ c, 5 ≤ c → Bets (some "5".toList) c 5) ∧ (∀ c, 1 ≤ c → Bets (some "1".toList) c 1) ∧
    ∃ choice : List PCard → Input,
      ∀ h, h.Nodup → h.length = 5 → Chooses (choice h).line (advice h) :=
  ⟨by decide, fun c hc => ⟨_, rfl, .inl ⟨by decide, by decide⟩, by decide, by decide, hc⟩,
    fun c hc => ⟨_, rfl, .inl ⟨by decide, by decide⟩, by decide, by decide, hc⟩, player.imp fun _ h => h.1⟩

/-- A player who never changes a card. -/
example : ∃ choice : List PCard → Input,
    ∀ h, h.Nodup → h.length = 5 → Chooses (choice h).line [] :=
  ⟨fun _ => ⟨some [], id, id, id⟩, fun _ _ _ =>
    ⟨[], [], [], rfl, by decide, .nil _ (by simp), .nil, by simp, by simp, rfl⟩⟩

/-- There are such rounds, two of them. -/
example : ∃ (bet : Input) (choice : List PCard → Input) (d : Draws) (ds : Fin 2 → Draws × Draws) (c : Nat),
    EndsWith bet choice 2 d ds c := by
  obtain ⟨choice, ha, -⟩ := player
  obtain ⟨after, h, -⟩ := c59_average (n := 2) (w := 5) (by decide)
    (bet := ⟨some "5".toList, id, id, id⟩)
    (fun c hc => ⟨_, rfl, .inl ⟨by decide, by decide⟩, by decide, by decide, hc⟩) ha
  exact ⟨_, _, fun _ => 0, fun _ => (fun _ => 0, fun _ => 0), _, (h _ _ _).2 rfl⟩

end Poker
