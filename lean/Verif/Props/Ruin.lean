import Verif.Props.Overflow

/-! # How soon the game can be over: C60 -/

namespace Poker
open Rules Tab Counts Nat Shuffles Game Sets

/-- At most five credits are at stake. -/
def smallStake : State → Prop
  | .swaps _ w _ _ _ => w ≤ 5
  | _ => True

theorem move_small {line : Option Str} {s t : State} {out : List Str} (h : Move line s out t)
    (hs : smallStake s) : smallStake t := by
  cases h with
  | bet c w deck p e hb _ =>
    obtain ⟨_, _, _, _, h, _⟩ := hb
    exact h
  | badSwaps => exact hs
  | _ => trivial

theorem move_loss {line : Option Str} {s t : State} {out : List Str} (h : Move line s out t)
    (hs : smallStake s) : total s ≤ total t ∨ started s = 1 ∧ started t = 0 ∧ total s ≤ total t + 5 := by
  cases h with
  | bet c w deck p e hb _ =>
    obtain ⟨_, _, _, _, _, h⟩ := hb
    left
    simp only [total]
    omega
  | leaveSwaps c w => exact .inr ⟨rfl, rfl, Nat.add_le_add_left hs _⟩
  | ruin w => exact .inr ⟨rfl, rfl, Nat.add_le_add_left hs _⟩
  | lose c w => exact .inr ⟨rfl, rfl, Nat.add_le_add_left hs _⟩
  | win c w => exact .inl (Nat.le_add_right _ _)
  | _ => exact .inl le_rfl

theorem plays_loss {lines : List (Option Str)} {s t : State} {out : List Str} (h : Plays lines s out t)
    (hs : smallStake s) : total s ≤ total t + 5 * ((lines.length + started s) / 2) := by
  induction h with
  | nil s => exact Nat.le_add_right _ _
  | cons line lines s t u out out' hm hp ih =>
    have h1 := ih (move_small hm hs)
    have h2 := move_loss hm hs
    have h3 : started s ≤ 1 ∧ started t ≤ 1 := by cases s <;> cases t <;> simp [started]
    rw [List.length_cons]
    omega

/-- C60: every two lines lose five credits at most, so the game is not over before forty lines. -/
theorem c60_loss (draw : Nat → Nat) (hd : ∀ k, draw k ≤ k) (inputs : List Input)
    (hi : ∀ i ∈ inputs, Fair i) {s : State} {out : List Str} (h : Game.main draw inputs = .ok (s, out)) :
    100 ≤ total s + 5 * (inputs.length / 2) ∧
    ∀ c deck hand, s = .over c deck hand → 40 ≤ inputs.length := by
  have hmain : 100 ≤ total s + 5 * (inputs.length / 2) := by
    by_cases hl : 40 ≤ inputs.length
    · have : 20 ≤ inputs.length / 2 := by omega
      omega
    · have hb : 100 + 4000 * inputs.length < 2 ^ 64 :=
        Nat.lt_of_le_of_lt (show _ ≤ 160100 by omega) (by decide)
      obtain ⟨deck, s', m, o, h1, -, -, h2, -⟩ := c34_history draw hd inputs hi hb
      rw [h, Except.ok.injEq, Prod.mk.injEq] at h1
      rw [h1.1]
      have := plays_loss h2 trivial
      rw [List.length_map] at this
      exact this
  refine ⟨hmain, ?_⟩
  rintro c deck hand rfl
  by_contra hl
  have hb : 100 + 4000 * inputs.length < 2 ^ 64 :=
    Nat.lt_of_le_of_lt (show _ ≤ 160100 by omega) (by decide)
  obtain ⟨deck', s', m, o, h1, -, -, -, h2, -⟩ := c34_history draw hd inputs hi hb
  rw [h, Except.ok.injEq, Prod.mk.injEq] at h1
  rw [← h1.1] at h2
  rw [h2.1, total] at hmain
  omega

/-! ## Nothing in every round -/

/-- A deck with a worst hand on top. -/
def badDeck : List PCard := worstHand ++ cards.filter (fun c => c ∉ worstHand)

/-- The rest of it. -/
def badRest : List PCard := cards.filter (fun c => c ∉ worstHand)

theorem bad_perm : (deal badDeck).Perm Deck.generate := by
  refine perm_generate.2 ⟨_, rfl, by decide +kernel, ?_⟩
  ext c
  simp only [List.mem_toFinset, pack_complete, iff_true]
  rcases c with ⟨r, s⟩
  cases r <;> cases s <;> decide +kernel

theorem bad_take : (deal badDeck).take 5 = deal worstHand ∧ (deal badDeck).drop 5 = deal badRest :=
  ⟨rfl, rfl⟩

theorem bad_draw : ∃ draw : Nat → Nat, (∀ k, draw k ≤ k) ∧
    Deck.shuffle draw (deal badRest ++ deal worstHand) = .ok (deal badDeck) := by
  refine shuffle_into (List.Perm.trans ?_ bad_perm) bad_perm
  rw [badDeck, deal, deal, deal, List.map_append]
  exact List.perm_append_comm

/-- A bad round. -/
theorem bad_round {ev : Evaluator} (hev : Evaluator.new = .ok ev) {draw : Nat → Nat}
    (hs : Deck.shuffle draw (deal badRest ++ deal worstHand) = .ok (deal badDeck)) {c : Nat} :
    ∃ t out, Game.run ev (luckyLines draw) (.wager (c + 5) (deal badDeck) []) = .ok (t, out) ∧
      (if c = 0 then t = .over 0 (deal badRest) (deal worstHand) else t = .wager c (deal badDeck) []) := by
  obtain ⟨e, out, h1, h2⟩ := wager_step hev ⟨some "5".toList, id, id, id⟩ (c := c + 5) (w := 5)
    ⟨_, rfl, .inl ⟨by decide, by decide⟩, by decide, by decide, Nat.le_add_left _ _⟩ bad_perm
  rw [bad_take.1, bad_take.2, Nat.add_sub_cancel] at h1
  rw [bad_take.1] at h2
  have he : Held worstHand (deal worstHand) e := by
    refine ⟨by decide, by decide, rfl, ?_⟩
    rw [evaluateHand, hev, Comb.bind_ok, h2]
  have hg : get_swaps id (some []) = .ok (.accept []) := by decide +kernel
  have hline := c43_hand he
  have hpay := payout_held he (w := 5) le_rfl
  rw [show prize 5 worstHand = 0 by decide +kernel] at hpay
  have hcol : collect c 5 0 = .ok c := rfl
  have hrep : replace id [] (deal badRest) (deal worstHand) = .ok (deal badRest, deal worstHand) := rfl
  have h3 : ∃ t o, Game.step ev ⟨some [], id, draw, id⟩ (.swaps c 5 e (deal badRest) (deal worstHand))
      = .ok (t, o) ∧
      (if c = 0 then t = .over 0 (deal badRest) (deal worstHand) else t = .wager c (deal badDeck) []) := by
    rw [Game.step, hg, Comb.bind_ok]
    simp only
    unfold afterSwaps
    rw [hrep]
    simp only [Comb.bind_ok, h2, unwrap, hline, hpay, hcol]
    by_cases h0 : c = 0
    · subst h0
      exact ⟨_, _, rfl, rfl⟩
    · simp only [if_neg h0, hs, Comb.bind_ok]
      exact ⟨_, _, rfl, rfl⟩
  obtain ⟨t, o, h3, h4⟩ := h3
  refine ⟨t, out ++ (o ++ []), ?_, h4⟩
  rw [luckyLines, Game.run, h1, Comb.bind_ok]
  simp only
  rw [Game.run, h3, Comb.bind_ok]
  rfl

theorem bad_rounds {ev : Evaluator} (hev : Evaluator.new = .ok ev) {draw : Nat → Nat}
    (hs : Deck.shuffle draw (deal badRest ++ deal worstHand) = .ok (deal badDeck)) (n : Nat) :
    ∃ out, Game.run ev (luckyHistory draw (n + 1)) (.wager (5 * n + 5) (deal badDeck) [])
      = .ok (.over 0 (deal badRest) (deal worstHand), out) := by
  induction n with
  | zero =>
    obtain ⟨t, out, h1, h2⟩ := bad_round hev hs (c := 0)
    rw [if_pos rfl] at h2
    rw [h2] at h1
    exact ⟨out, h1⟩
  | succ n ih =>
    obtain ⟨out, h⟩ := ih
    obtain ⟨t, o, h1, h2⟩ := bad_round hev hs (c := 5 * n + 5)
    rw [if_neg (by omega)] at h2
    rw [h2] at h1
    refine ⟨o ++ out, ?_⟩
    rw [luckyHistory, List.replicate_succ, List.flatten_cons, Nat.mul_succ, run_append _ _ h1]
    rw [luckyHistory] at h
    rw [h]
    rfl

/-- C60: some game is over after forty lines. -/
theorem c60_ruin : ∃ draw inputs deck hand out, (∀ k, draw k ≤ k) ∧ (∀ i ∈ inputs, Fair i) ∧
    inputs.length = 40 ∧ Game.main draw inputs = .ok (.over 0 deck hand, out) := by
  obtain ⟨ev, hev⟩ := c36_new_ok
  obtain ⟨d₀, h0, h0'⟩ : ∃ draw : Nat → Nat, (∀ k, draw k ≤ k) ∧
    Deck.shuffled_with draw = .ok (deal badDeck) := shuffle_into (.refl _) bad_perm
  obtain ⟨draw, hd, hs⟩ := bad_draw
  obtain ⟨out, h⟩ := bad_rounds hev hs 19
  refine ⟨d₀, luckyHistory draw 20, deal badRest, deal worstHand,
    wagerMessage STARTING_CREDITS :: out, h0, history_fair hd 20,
    lucky_length draw 20, ?_⟩
  rw [Game.main, start, hev, Comb.bind_ok, h0', Comb.bind_ok]
  simp only [Comb.pure_eq_ok, Comb.bind_ok]
  show (Game.run ev _ (.wager 100 (deal badDeck) []) >>= _) = _
  rw [h]
  rfl

/-- A run that the bound is about: one round. -/
example : ∃ draw inputs s out, (∀ k, draw k ≤ k) ∧ (∀ i ∈ inputs, Fair i) ∧ inputs.length = 2 ∧
    Game.main draw inputs = .ok (s, out) := by
  obtain ⟨draw, inputs, deck, out, h1, h2, h3, h4⟩ := c60_attained 1 (by decide)
  exact ⟨draw, inputs, _, out, h1, h2, h3, h4⟩

end Poker
