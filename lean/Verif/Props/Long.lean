import Verif.Props.Overflow
import Verif.Proofs.Burst

/-! # Histories of any length: C65 -/

namespace Poker
open Rules Tab Text Game

/-! ## What can go wrong -/

/-- The line chooses cards, and the draw wins more than fits: with the wager and the prize there would
be 2^64 credits or more. -/
def Bursts (line : Option Str) (s : State) : Prop :=
  ∃ c w e deck hand l deck' hand' p e', s = .swaps c w e deck hand ∧ Chooses line l ∧
    Held p hand' e' ∧ (hand' ++ deck').Perm (hand ++ deck) ∧ (∀ k, k ∉ l → hand'[k]? = hand[k]?) ∧
    0 < prize w p ∧ 2 ^ 64 ≤ c + w + prize w p

/-- The moves of a game whose credits are counted modulo 2^64. -/
inductive Turns (line : Option Str) : State → List Str → State → Prop
  /-- a move by the rules, as long as the credits fit -/
  | rule (s t : State) (out : List Str) : Move line s out t → total t < 2 ^ 64 → Turns line s out t
  /-- a draw that wins more than fits: 2^64 credits are lost -/
  | wrap (c w k : Nat) (e e' : Eval) (deck hand deck' hand' deck'' : List Card) (l : List Nat)
      (p p' : List PCard) (d m : Str) : Chooses line l → Held p hand e → Held p' hand' e' →
      (hand' ++ deck').Perm (hand ++ deck) →
      (∀ i, i ∉ l → hand'[i]? = hand[i]?) → 0 < prize w p' → c + w + prize w p' = 2 ^ 64 + k →
      0 < k → deck''.Perm (hand' ++ deck') → Decimal d (prize w p') → WagerPrompt k m →
      Turns line (.swaps c w e deck hand)
        (handText p' :: verdict p p' ++ ["Winnings: ".toList ++ d, [], m]) (.wager k deck'' [])
  /-- a draw that wins just so much that none are left -/
  | zero (c w : Nat) (e e' : Eval) (deck hand deck' hand' : List Card) (l : List Nat)
      (p p' : List PCard) (d : Str) : Chooses line l → Held p hand e → Held p' hand' e' →
      (hand' ++ deck').Perm (hand ++ deck) →
      (∀ i, i ∉ l → hand'[i]? = hand[i]?) → 0 < prize w p' → c + w + prize w p' = 2 ^ 64 →
      Decimal d (prize w p') →
      Turns line (.swaps c w e deck hand)
        (handText p' :: verdict p p' ++ ["Winnings: ".toList ++ d, "Game over!".toList])
        (.over 0 deck' hand')

/-- A history of such a game: one move per line. -/
inductive TurnsOn : List (Option Str) → State → List Str → State → Prop
  | nil (s : State) : TurnsOn [] s [] s
  | cons (line : Option Str) (lines : List (Option Str)) (s t u : State) (out out' : List Str) :
      Turns line s out t → TurnsOn lines t out' u → TurnsOn (line :: lines) s (out ++ out') u

/-! ## With overflow checks the two models of the game are one -/

theorem add_checked (x y : Nat) : Build.usizeAdd ⟨true, 64⟩ x y = usizeAdd x y := rfl

theorem mul_checked (x y : Nat) : Build.usizeMul ⟨true, 64⟩ x y = usizeMul x y := rfl

theorem sub_checked (x y : Nat) : Build.usizeSub ⟨true, 64⟩ x y = usizeSub x y := rfl

theorem payout_checked (w : Nat) (c : EvalClass) : Build.payout ⟨true, 64⟩ w c = payout w c := by
  cases c with
  | Pair r => cases r <;> rfl
  | StraightFlush r => cases r <;> rfl
  | _ => rfl

theorem evaluate_checked (checks : Bool) (ev : Evaluator) :
    Build.evaluate ⟨checks, 64⟩ ev = ev.evaluate :=
  funext fun cards => c47_evaluate _ (show 16 ≤ 64 by decide) ev cards

theorem step_checked (ev : Evaluator) (i : Input) (s : State) :
    Build.step ⟨true, 64⟩ ev i s = Game.step ev i s := by
  cases s with
  | wager c deck hand =>
    unfold Game.step Build.step
    simp only
    cases get_wager c i.line with
    | accept w =>
      simp only
      unfold afterWager Build.afterWager
      rw [evaluate_checked]
      rfl
    | _ => rfl
  | swaps c w e deck hand =>
    have h : Build.get_swaps ⟨true, 64⟩ i.order i.line = get_swaps i.order i.line := rfl
    unfold Game.step Build.step
    simp only [h]
    refine congrArg (Bind.bind (get_swaps i.order i.line)) (funext fun a => ?_)
    cases a with
    | accept l =>
      simp only
      unfold afterSwaps Build.afterSwaps
      simp only [evaluate_checked, payout_checked]
      rfl
    | _ => rfl
  | quit c deck hand => rfl
  | over c deck hand => rfl

theorem run_checked (ev : Evaluator) (is : List Input) (s : State) :
    Build.run ⟨true, 64⟩ ev is s = Game.run ev is s := by
  induction is generalizing s with
  | nil => rfl
  | cons i is ih =>
    unfold Game.run Build.run
    simp only [step_checked, ih]

/-- C65: with overflow checks the build of C47 is the game of C34 on every history, even where it
panics. -/
theorem c65_checked (draw : Nat → Nat) (inputs : List Input) :
    Build.game ⟨true, 64⟩ draw inputs = Game.main draw inputs := by
  have h : Build.start ⟨true, 64⟩ draw = start draw := by
    unfold start Build.start
    rw [c47_new _ (show 16 ≤ 64 by decide)]
  unfold Build.game Game.main
  simp only [h, run_checked]

/-! ## The rest of a round, in either build -/

theorem afterSwaps_parts {ev : Evaluator} (hev : Evaluator.new = .ok ev) (i : Input) (hi : Fair i)
    {c w : Nat} {e : Eval} {deck hand : List Card} {l : List Nat} (hc : Chooses i.line l)
    (hs : Sound (.swaps c w e deck hand)) :
    ∃ p0 p e' deck' hand', Held p0 hand e ∧ Held p hand' e' ∧
      (hand' ++ deck').Perm (hand ++ deck) ∧ (∀ k, k ∉ l → hand'[k]? = hand[k]?) ∧
      replace i.drawSwap l deck hand = .ok (deck', hand') ∧ ev.evaluate hand' = .ok (.ok e') ∧
      handLine hand' e' = .ok (handText p) ∧ payout w e'.class' = .ok (prize w p) ∧
      compared e'.class' e.class' = verdict p0 p := by
  obtain ⟨hperm, hw1, hw5, p0, hp0⟩ := hs
  have h5 : hand.length = 5 := by
    rw [← hp0.2.2.1, deal, List.length_map, hp0.2.1]
  have hl : l.Nodup ∧ ∀ k ∈ l, k < 5 := by
    obtain ⟨s, ws, ns, -, -, -, -, h15, hnd, rfl⟩ := hc
    refine ⟨hnd.map_on ?_, ?_⟩
    · intro a ha b hb hab
      have := h15 a ha
      have := h15 b hb
      omega
    · intro k hk
      obtain ⟨n, hn, rfl⟩ := List.mem_map.1 hk
      have := h15 n hn
      omega
  obtain ⟨deck', hand', hsw, hlen, hperm', hkeep⟩ : ∃ deck' hand',
      replace i.drawSwap l deck hand = .ok (deck', hand') ∧ hand'.length = 5 ∧
      (hand' ++ deck').Perm (hand ++ deck) ∧ ∀ k, k ∉ l → hand'[k]? = hand[k]? := by
    unfold replace
    by_cases hne : l.isEmpty = true
    · rw [if_neg (by rw [hne]; simp)]
      exact ⟨deck, hand, rfl, h5, .refl _, fun _ _ => rfl⟩
    · rw [if_pos (by simpa using hne)]
      obtain ⟨deck', hand', h1, h2, -, h3, h4, -⟩ :=
        c41_swap i.drawSwap hi.1 l deck hand hl.1 (fun k hk => by rw [h5]; exact hl.2 k hk)
      exact ⟨deck', hand', h1, h2.trans h5, h3, h4⟩
  obtain ⟨p, e', hheld, heval⟩ := held_of_perm hev (hperm'.trans hperm) hlen
  exact ⟨p0, p, e', deck', hand', hp0, hheld, hperm', hkeep, hsw, heval, c43_hand hheld,
    payout_held hheld hw5, c43_verdict hp0 hheld⟩

theorem afterSwaps_form {ev : Evaluator} (hev : Evaluator.new = .ok ev) (i : Input) (hi : Fair i)
    {c w : Nat} {e : Eval} {deck hand : List Card} {l : List Nat} (hc : Chooses i.line l)
    (hs : Sound (.swaps c w e deck hand)) :
    ∃ p0 p e' deck' hand' deck'', Held p0 hand e ∧ Held p hand' e' ∧
      (hand' ++ deck').Perm (hand ++ deck) ∧ (∀ k, k ∉ l → hand'[k]? = hand[k]?) ∧
      deck''.Perm (hand' ++ deck') ∧
      ∀ checks, Build.afterSwaps ⟨checks, 64⟩ ev i c w e deck hand l = (do
        let k ← Build.collect ⟨checks, 64⟩ c w (prize w p)
        let out := handText p :: verdict p0 p ++ ["Winnings: ".toList ++ natStr (prize w p)]
        if k = 0 then return (.over k deck' hand', out ++ ["Game over!".toList])
        else return (.wager k deck'' [], out ++ [[], wagerMessage k])) := by
  obtain ⟨p0, p, e', deck', hand', hp0, hheld, hperm', hkeep, hsw, heval, hline, hpay', hcmp⟩ :=
    afterSwaps_parts hev i hi hc hs
  obtain ⟨deck'', hsh, hshp⟩ := shuffle_ok i.drawRound hi.2.1 (deck' ++ hand')
  refine ⟨p0, p, e', deck', hand', deck'', hp0, hheld, hperm', hkeep,
    hshp.trans List.perm_append_comm, fun checks => ?_⟩
  have hpay := payout_refines ⟨checks, 64⟩ rfl _ _ _ hpay'
  unfold Build.afterSwaps
  rw [hsw]
  simp only [Comb.bind_ok, evaluate_checked, heval, unwrap, hline, hpay, hcmp, hsh]

/-- What becomes of the credits. -/
theorem collect_cases (checks : Bool) {c w p : Nat} (hw : w ≤ 5) (hp : p ≤ 4000) (hc : c < 2 ^ 64) :
    (p = 0 ∧ Build.collect ⟨checks, 64⟩ c w p = .ok c) ∨
    (0 < p ∧ c + w + p < 2 ^ 64 ∧ Build.collect ⟨checks, 64⟩ c w p = .ok (c + w + p)) ∨
    (0 < p ∧ 2 ^ 64 ≤ c + w + p ∧ Build.collect ⟨checks, 64⟩ c w p =
      if checks then .error .arithOverflow else .ok (c + w + p - 2 ^ 64)) := by
  rcases Nat.eq_zero_or_pos p with h0 | h0
  · subst h0
    exact .inl ⟨rfl, rfl⟩
  · by_cases hlt : c + w + p < 2 ^ 64
    · refine .inr (.inl ⟨h0, hlt, ?_⟩)
      have h1 : w + p < 2 ^ 64 := Nat.lt_of_le_of_lt (by omega) hlt
      unfold Build.collect
      rw [if_pos h0, Build.usizeAdd_eq _ h1, Comb.bind_ok, Build.usizeAdd_eq _ (by rw [← Nat.add_assoc]; exact hlt),
        Nat.add_assoc]
    · rw [Nat.not_lt] at hlt
      refine .inr (.inr ⟨h0, hlt, ?_⟩)
      rw [Nat.add_assoc] at hlt ⊢
      exact c47_wrap checks c w p hw h0 hp hlt hc

theorem step_chosen' {ev : Evaluator} (b : Build) (i : Input) {c w : Nat} {e : Eval}
    {deck hand : List Card} {l : List Nat} (hc : Chooses i.line l) :
    b.step ev i (.swaps c w e deck hand) = b.afterSwaps ev i c w e deck hand l := by
  obtain ⟨s, ws, ns, hline, hne, hrest⟩ := hc
  rw [Build.step, hline, get_swaps_refines b _ _ _
    (((c40_swaps i.order).2.2 s l).2 ⟨hne, ws, ns, hrest⟩), Comb.bind_ok]

/-- One line in either build: a move by the rules, or the credits do not fit. -/
theorem step_cases {ev : Evaluator} (hev : Evaluator.new = .ok ev) (i : Input) (hi : Fair i)
    (s : State) (hs : Sound s) (hb : total s < 2 ^ 64) :
    (∃ t out, Move i.line s out t ∧ Sound t ∧ total t < 2 ^ 64 ∧
      ∀ checks, Build.step ⟨checks, 64⟩ ev i s = .ok (t, out)) ∨
    (Bursts i.line s ∧ Build.step ⟨true, 64⟩ ev i s = .error .arithOverflow ∧
      ∃ t out, Build.step ⟨false, 64⟩ ev i s = .ok (t, out) ∧ Turns i.line s out t ∧ Sound t ∧
        total t < 2 ^ 64) := by
  by_cases hn : ∃ c w e deck hand l, s = .swaps c w e deck hand ∧ Chooses i.line l
  · obtain ⟨c, w, e, deck, hand, l, rfl, hc⟩ := hn
    have hs' := id hs
    obtain ⟨hperm, hw1, hw5, -⟩ := hs'
    obtain ⟨p0, p, e', deck', hand', deck'', h1, h2, h3, h4, h5, hf⟩ := afterSwaps_form hev i hi hc hs
    have hall : deck''.Perm Deck.generate := (h5.trans h3).trans hperm
    have hle := prize_le hw5 p
    have hcw : c + w < 2 ^ 64 := hb
    have hc64 : c < 2 ^ 64 := Nat.lt_of_le_of_lt (Nat.le_add_right _ _) hcw
    have hg := fun checks => collect_cases checks hw5 hle hc64
    by_cases hz : prize w p = 0
    · have hcol : ∀ checks, Build.collect ⟨checks, 64⟩ c w (prize w p) = .ok c := fun checks => by
        rw [hz]; rfl
      left
      by_cases hc0 : c = 0
      · subst hc0
        refine ⟨.over 0 deck' hand', _,
          .ruin w e e' deck hand deck' hand' l p0 p hc h1 h2 h3 h4 hz, ⟨rfl, h3.trans hperm⟩,
          Nat.two_pow_pos 64, fun checks => ?_⟩
        rw [step_chosen' _ i hc, hf, hcol, Comb.bind_ok, hz]
        simp only [List.append_assoc]
        rfl
      · refine ⟨.wager c deck'' [], _,
          .lose c w e e' deck hand deck' hand' deck'' l p0 p _ hc h1 h2 h3 h4 hz
            (Nat.pos_of_ne_zero hc0) h5 (wagerMessage_ok c), ⟨rfl, hall, Nat.pos_of_ne_zero hc0⟩,
          hc64, fun checks => ?_⟩
        rw [step_chosen' _ i hc, hf, hcol, Comb.bind_ok, hz]
        simp only [if_neg hc0, List.append_assoc]
        rfl
    · have hpos := Nat.pos_of_ne_zero hz
      by_cases hlt : c + w + prize w p < 2 ^ 64
      · left
        have hk : c + w + prize w p ≠ 0 := Nat.ne_of_gt (Nat.add_pos_right _ hpos)
        refine ⟨.wager (c + w + prize w p) deck'' [], _,
          .win c w e e' deck hand deck' hand' deck'' l p0 p _ _ hc h1 h2 h3 h4 hpos h5
            (decimal_natStr _) (wagerMessage_ok _), ⟨rfl, hall, Nat.pos_of_ne_zero hk⟩, hlt,
          fun checks => ?_⟩
        have hcol : Build.collect ⟨checks, 64⟩ c w (prize w p) = .ok (c + w + prize w p) := by
          rcases hg checks with h | h | h
          · exact absurd h.1 hz
          · exact h.2.2
          · exact absurd hlt (Nat.not_lt.2 h.2.1)
        rw [step_chosen' _ i hc, hf, hcol, Comb.bind_ok]
        simp only [if_neg hk, List.append_assoc]
        rfl
      · right
        rw [Nat.not_lt] at hlt
        have hcol : ∀ checks, Build.collect ⟨checks, 64⟩ c w (prize w p) =
            if checks then .error .arithOverflow else .ok (c + w + prize w p - 2 ^ 64) := fun checks => by
          rcases hg checks with h | h | h
          · exact absurd h.1 hz
          · exact absurd h.2.1 (Nat.not_lt.2 hlt)
          · exact h.2.2
        refine ⟨⟨c, w, e, deck, hand, l, deck', hand', p, e', rfl, hc, h2, h3, h4, hpos, hlt⟩, ?_, ?_⟩
        · rw [step_chosen' _ i hc, hf, hcol]
          rfl
        · obtain ⟨k, hk⟩ := Nat.exists_eq_add_of_le hlt
          have hk64 : k < 2 ^ 64 := by
            have h4000 : 4000 < 2 ^ 64 := by norm_num
            revert hk hcw h4000
            generalize 2 ^ 64 = M
            intro hcw hk h4000
            omega
          have hcol' : Build.collect ⟨false, 64⟩ c w (prize w p) = .ok k := by
            rw [hcol, if_neg Bool.false_ne_true, hk, Nat.add_sub_cancel_left]
          rw [step_chosen' _ i hc, hf, hcol', Comb.bind_ok]
          by_cases hk0 : k = 0
          · subst hk0
            refine ⟨_, _, rfl, ?_, ⟨rfl, h3.trans hperm⟩, Nat.two_pow_pos 64⟩
            have := Turns.zero c w e e' deck hand deck' hand' l p0 p _ hc h1 h2 h3 h4 hpos hk
              (decimal_natStr _)
            rw [List.append_assoc]
            exact this
          · simp only [if_neg hk0]
            refine ⟨_, _, rfl, ?_, ⟨rfl, hall, Nat.pos_of_ne_zero hk0⟩, hk64⟩
            have := Turns.wrap c w k e e' deck hand deck' hand' deck'' l p0 p _ _ hc h1 h2 h3 h4 hpos hk
              (Nat.pos_of_ne_zero hk0) h5 (decimal_natStr _) (wagerMessage_ok k)
            rw [List.append_assoc]
            exact this
  · left
    obtain ⟨t, out, h1, h2, h3, h4⟩ := step_calm hev i hi s hs
      fun c w e deck hand l hs hc => hn ⟨c, w, e, deck, hand, l, hs, hc⟩
    exact ⟨t, out, h2, h3, Nat.lt_of_le_of_lt h4 hb, fun checks => step_refines _ rfl _ _ _ _ h1⟩

/-! ## Whole histories -/

theorem run_cases {ev : Evaluator} (hev : Evaluator.new = .ok ev) (is : List Input)
    (hi : ∀ i ∈ is, Fair i) (s : State) (hs : Sound s) (hb : total s < 2 ^ 64) :
    (∃ t out, Game.run ev is s = .ok (t, out) ∧ Plays (is.map Input.line) s out t ∧ Sound t ∧
      total t < 2 ^ 64) ∨
    (Game.run ev is s = .error .arithOverflow ∧ ∃ pre i post t out, is = pre ++ i :: post ∧
      Game.run ev pre s = .ok (t, out) ∧ Plays (pre.map Input.line) s out t ∧ Sound t ∧
      total t < 2 ^ 64 ∧ Bursts i.line t ∧ Game.step ev i t = .error .arithOverflow) := by
  induction is generalizing s with
  | nil => exact .inl ⟨s, [], rfl, .nil s, hs, hb⟩
  | cons i is ih =>
    rcases step_cases hev i (hi i (by simp)) s hs hb with ⟨t, out, hm, hst, hbt, h⟩ | ⟨hbu, h, -⟩
    · have h1 := h true
      rw [step_checked] at h1
      rcases ih (fun j hj => hi j (by simp [hj])) t hst hbt with
        ⟨u, out', h2, hp, hsu, hbu⟩ | ⟨h2, pre, j, post, u, out', rfl, h3, hp, hsu, hbu, hx⟩
      · refine .inl ⟨u, out ++ out', ?_, .cons i.line _ s t u out out' hm hp, hsu, hbu⟩
        rw [Game.run, h1, Comb.bind_ok]
        simp only
        rw [h2]
        rfl
      · refine .inr ⟨?_, i :: pre, j, post, u, out ++ out', rfl, ?_,
          .cons i.line _ s t u out out' hm hp, hsu, hbu, hx⟩
        · rw [Game.run, h1, Comb.bind_ok]
          simp only
          rw [h2]
          rfl
        · rw [Game.run, h1, Comb.bind_ok]
          simp only
          rw [h3]
          rfl
    · rw [step_checked] at h
      refine .inr ⟨?_, [], i, is, s, [], rfl, rfl, .nil s, hs, hb, hbu, h⟩
      rw [Game.run, h]
      rfl

theorem run_unchecked {ev : Evaluator} (hev : Evaluator.new = .ok ev) (is : List Input)
    (hi : ∀ i ∈ is, Fair i) (s : State) (hs : Sound s) (hb : total s < 2 ^ 64) :
    ∃ t out, Build.run ⟨false, 64⟩ ev is s = .ok (t, out) ∧ TurnsOn (is.map Input.line) s out t ∧
      Sound t ∧ total t < 2 ^ 64 := by
  induction is generalizing s with
  | nil => exact ⟨s, [], rfl, .nil s, hs, hb⟩
  | cons i is ih =>
    obtain ⟨t, out, h1, ht, hst, hbt⟩ : ∃ t out, Build.step ⟨false, 64⟩ ev i s = .ok (t, out) ∧
        Turns i.line s out t ∧ Sound t ∧ total t < 2 ^ 64 := by
      rcases step_cases hev i (hi i (by simp)) s hs hb with ⟨t, out, hm, hst, hbt, h⟩ | ⟨-, -, h⟩
      · exact ⟨t, out, h false, .rule s t out hm hbt, hst, hbt⟩
      · exact h
    obtain ⟨u, out', h2, hg, hsu, hbu⟩ := ih (fun j hj => hi j (by simp [hj])) t hst hbt
    refine ⟨u, out ++ out', ?_, .cons i.line _ s t u out out' ht hg, hsu, hbu⟩
    rw [Build.run, h1, Comb.bind_ok]
    simp only
    rw [h2]
    rfl

theorem main_run {ev : Evaluator} (hev : Evaluator.new = .ok ev) {draw : Nat → Nat} {deck : List Card}
    (hd : Deck.shuffled_with draw = .ok deck) (inputs : List Input) :
    Game.main draw inputs = (do
      let (s, out) ← Game.run ev inputs (.wager 100 deck [])
      return (s, wagerMessage 100 :: out)) := by
  rw [Game.main, start, hev, Comb.bind_ok, hd, Comb.bind_ok]
  rfl

/-- C65: a history of any length goes on by the rules to its end, with the credits below 2^64; or the
game panics with an overflow, and it got by the rules to a draw that wins more than fits.  Nothing else
can happen. -/
theorem c65_history (draw : Nat → Nat) (hd : ∀ k, draw k ≤ k) (inputs : List Input)
    (hi : ∀ i ∈ inputs, Fair i) :
    ∃ deck m, deck.Perm Deck.generate ∧ WagerPrompt 100 m ∧
      ((∃ s out, Game.main draw inputs = .ok (s, m :: out) ∧
        Plays (inputs.map Input.line) (.wager 100 deck []) out s ∧ Sound s ∧ total s < 2 ^ 64) ∨
      (Game.main draw inputs = .error .arithOverflow ∧ ∃ pre i post s out,
        inputs = pre ++ i :: post ∧ Game.main draw pre = .ok (s, m :: out) ∧
        Plays (pre.map Input.line) (.wager 100 deck []) out s ∧ Sound s ∧ total s < 2 ^ 64 ∧
        Bursts i.line s)) := by
  obtain ⟨ev, hev⟩ := c36_new_ok
  obtain ⟨deck, h1, h2⟩ := c22_perm draw (fun i _ _ => hd i)
  refine ⟨deck, wagerMessage 100, h2, wagerMessage_ok 100, ?_⟩
  simp only [main_run hev h1]
  rcases run_cases hev inputs hi (.wager 100 deck []) ⟨rfl, h2, by decide⟩
    (show 100 < 2 ^ 64 by norm_num) with
    ⟨s, out, hr, hp, hs, hb⟩ | ⟨hr, pre, i, post, s, out, he, hr', hp, hs, hb, hx, -⟩
  · exact .inl ⟨s, out, by rw [hr]; rfl, hp, hs, hb⟩
  · exact .inr ⟨by rw [hr]; rfl, pre, i, post, s, out, he, by rw [hr']; rfl, hp, hs, hb, hx⟩

/-- C65: so the only panic of the game is the overflow, and every panic needs a win. -/
theorem c65_panic (draw : Nat → Nat) (hd : ∀ k, draw k ≤ k) (inputs : List Input)
    (hi : ∀ i ∈ inputs, Fair i) (p : Panic) (hp : Game.main draw inputs = .error p) :
    p = .arithOverflow ∧ ∃ pre i post c w e deck hand l out, inputs = pre ++ i :: post ∧
      Game.main draw pre = .ok (.swaps c w e deck hand, out) ∧ Chooses i.line l ∧
      2 ^ 64 ≤ c + w + 4000 := by
  obtain ⟨deck, m, -, -, ⟨s, out, h, -⟩ | ⟨h, pre, i, post, s, out, he, h1, -, hs, -, hx⟩⟩ :=
    c65_history draw hd inputs hi
  · rw [h] at hp
    cases hp
  · rw [h] at hp
    cases hp
    obtain ⟨c, w, e, deck, hand, l, -, -, p, -, rfl, hc, -, -, -, -, hb⟩ := hx
    have := prize_le hs.2.2.1 p
    exact ⟨rfl, pre, i, post, c, w, e, deck, hand, l, m :: out, he, h1, hc,
      hb.trans (Nat.add_le_add_left this _)⟩

/-- C65: a build without overflow checks never panics, and goes on by the rules with the credits
counted modulo 2^64; the game is over if they come out at just 2^64. -/
theorem c65_unchecked (draw : Nat → Nat) (hd : ∀ k, draw k ≤ k) (inputs : List Input)
    (hi : ∀ i ∈ inputs, Fair i) :
    ∃ deck s m out, Build.game ⟨false, 64⟩ draw inputs = .ok (s, m :: out) ∧
      deck.Perm Deck.generate ∧ WagerPrompt 100 m ∧
      TurnsOn (inputs.map Input.line) (.wager 100 deck []) out s ∧ Sound s ∧ total s < 2 ^ 64 := by
  obtain ⟨ev, hev⟩ := c36_new_ok
  obtain ⟨deck, h1, h2⟩ := c22_perm draw (fun i _ _ => hd i)
  obtain ⟨s, out, hr, hg, hs, hb⟩ := run_unchecked hev inputs hi (.wager 100 deck [])
    ⟨rfl, h2, by decide⟩ (show 100 < 2 ^ 64 by norm_num)
  refine ⟨deck, s, wagerMessage 100, out, ?_, h2, wagerMessage_ok 100, hg, hs, hb⟩
  have hst : Build.start ⟨false, 64⟩ draw = .ok (ev, .wager 100 deck [], [wagerMessage 100]) := by
    rw [Build.start, c47_new _ (show 16 ≤ 64 by decide), hev, Comb.bind_ok, h1]
    rfl
  rw [Build.game, hst, Comb.bind_ok]
  simp only
  rw [hr]
  rfl

/-- C65: where the checked build does not panic, the other does the same. -/
theorem c65_same (draw : Nat → Nat) (inputs : List Input) (r : State × List Str)
    (h : Game.main draw inputs = .ok r) (checks : Bool) :
    Build.game ⟨checks, 64⟩ draw inputs = .ok r := by
  refine Build.Refines.bind ?_ (fun _ => Build.Refines.bind (run_refines _ rfl _ _ _) fun _ => Build.Refines.refl _) r h
  unfold Game.start Build.start
  rw [c47_new _ (show 16 ≤ 64 by decide)]
  exact Build.Refines.refl _

theorem dress_verdict {hand : List Card} {e e' : EvalClass} {x : Eval} {t : Str} (h : handLine hand x = .ok t) :
    Screen.plain t :: Screen.Game.compared e e' = dress (t :: compared e e') := by
  have ht := handLine_head h
  have hlook := look_plain (t := t) (fun d hd => by rw [ht] at hd; cases hd; decide)
  unfold Screen.Game.compared compared
  cases e.cmp e' with
  | lt =>
    simp only
    rw [dress_cons (by decide), hlook]
    rfl
  | gt =>
    simp only
    rw [dress_cons (by decide), hlook]
    rfl
  | eq =>
    simp only
    rw [dress_cons (by decide), hlook]
    rfl

/-- The start of the program as written, up to the first question. -/
theorem main_conf {ev : Evaluator} (hev : Evaluator.new = .ok ev) {draw : Nat → Nat} {deck : List Card}
    (hd : Deck.shuffled_with draw = .ok deck) (inputs : List Input) (n : Nat) :
    Program.Game.main true draw (n + 1) (fresh inputs)
      = Program.Game.conf (n + 1) ev (n + 1) n (.wager 100 deck [])
        ⟨inputs, none, [.out .clear, .out (.line Screen.good Screen.Game.WELCOME)]⟩ := by
  unfold Program.Game.main fresh
  rw [Program.clear_bind, hev, Program.ok_bind, Program.println_bind]
  rw [show (Program.editor true : Program.M Input Unit) = Program.lift (.ok ()) from rfl, Program.ok_bind, hd,
    Program.ok_bind, Program.Game.loop_again, Program.Game.turn_eq, Program.bind_assoc']
  rfl

/-- C65: the same of the program as written, with its loops: it waits for the next line, or it is done,
or it panics with an overflow.  What is on the screen then is a game by the rules up to the draw that wins
more than fits; of that draw the new hand is shown, and whether it is better, but not what it wins. -/
theorem c65_program (draw : Nat → Nat) (hd : ∀ k, draw k ≤ k) (inputs : List Input)
    (hi : ∀ i ∈ inputs, Fair i) (fuel : Nat) (hf : inputs.length < fuel) :
    ∃ deck m, deck.Perm Deck.generate ∧ WagerPrompt 100 m ∧
    ((∃ s out, Plays (inputs.map Input.line) (.wager 100 deck []) out s ∧ total s < 2 ^ 64 ∧
      (asking s = true → Program.Game.main true draw fuel (fresh inputs)
        = .waiting (asked (.clear :: dress (Screen.Game.WELCOME :: m :: out)))) ∧
      (asking s = false → ∃ w, Program.Game.main true draw fuel (fresh inputs) = .done () w ∧
        w.events = asked (.clear :: dress (Screen.Game.WELCOME :: m :: out)))) ∨
    ∃ pre i post out c w e rest hand p p', inputs = pre ++ i :: post ∧
      Plays (pre.map Input.line) (.wager 100 deck []) out (.swaps c w e rest hand) ∧
      (∃ l, Chooses i.line l ∧ ∀ k, k ∉ l → p'[k]? = p[k]?) ∧ Held p hand e ∧
      p'.Nodup ∧ p'.length = 5 ∧ 2 ^ 64 ≤ c + w + prize w p' ∧
      Program.Game.main true draw fuel (fresh inputs) = .panic .arithOverflow
        (asked (.clear :: dress (Screen.Game.WELCOME :: m :: out ++ handText p' :: verdict p p')))) := by
  obtain ⟨ev, hev⟩ := c36_new_ok
  obtain ⟨deck, h1, h2⟩ := c22_perm draw (fun i _ _ => hd i)
  refine ⟨deck, wagerMessage 100, h2, wagerMessage_ok 100, ?_⟩
  rcases run_cases hev inputs hi (.wager 100 deck []) ⟨rfl, h2, by decide⟩
    (show 100 < 2 ^ 64 by norm_num) with
    ⟨s, out, hr, hp, hs, hb⟩ | ⟨hr, pre, i, post, s, out, he, hr', hp, hs, hb, hx, hst⟩
  · obtain ⟨h5, h6⟩ := (c57_game draw inputs fuel hf).1 s (wagerMessage 100 :: out) (by
      rw [main_run hev h1, hr]; rfl)
    exact .inl ⟨s, out, hp, hb, h5, h6⟩
  · obtain ⟨c, w, e, rest, hand, l, -, -, -, -, rfl, hc, -⟩ := hx
    obtain ⟨p, p', e', deck', hand', q1, q2, q3, q4, q5, q6, q7, q8, q9⟩ :=
      afterSwaps_parts hev i (hi i (by rw [he]; simp)) hc hs
    have hw5 : w ≤ 5 := hs.2.2.1
    have hg := collect_cases true hw5 (prize_le hw5 p') (Nat.lt_of_le_of_lt (Nat.le_add_right c w) hb)
    obtain ⟨d, hd', -⟩ := shuffle_ok i.drawRound (hi i (by rw [he]; simp)).2.1 (deck' ++ hand')
    have hcol : collect c w (prize w p') = .error .arithOverflow ∧ 2 ^ 64 ≤ c + w + prize w p' := by
      have hno : ∀ k, collect c w (prize w p') ≠ .ok k := by
        intro k hk
        rw [step_chosen i hc, afterSwaps, q5, Comb.bind_ok] at hst
        simp only [q6, q7, q8, hk, hd', unwrap, Comb.bind_ok] at hst
        split at hst <;> cases hst
      rcases hg with h | h | h
      · exact absurd h.2 (hno _)
      · exact absurd h.2.2 (hno _)
      · exact ⟨h.2.2, h.2.1⟩
    refine .inr ⟨pre, i, post, out, c, w, e, rest, hand, p, p', he, hp, ⟨l, hc, ?_⟩, q1, q2.1, q2.2.1, hcol.2, ?_⟩
    · intro k hk
      have hk' := q4 k hk
      rw [← q2.2.2.1, ← q1.2.2.1, deal, deal, List.getElem?_map, List.getElem?_map] at hk'
      exact Option.map_injective (fun _ _ => card_inj) hk'
    · obtain ⟨n, rfl⟩ : ∃ k, fuel = k + 1 := ⟨fuel - 1, by omega⟩
      rw [main_conf hev h1, he]
      rw [he] at hf
      have hsr : Screen.Game.run ev pre (.wager 100 deck []) = .ok (.swaps c w e rest hand, dress out) := by
        rw [(run_dressed ev pre _).1, hr']
        rfl
      obtain ⟨f', n', last', ev', r1, r2, r3, r4⟩ := Program.Game.conf_run (rest := i :: post) (fuel := n + 1)
        (f := n + 1) (n := n) (last := none)
        (ev := [.out .clear, .out (.line Screen.good Screen.Game.WELCOME)]) rfl rfl hf (by omega) hf hsr
      obtain ⟨t, ws, ns, hline, hne, hrest⟩ := hc
      rw [r3, Program.Game.conf_burst (by omega)
        (by rw [hline]; exact ((c40_swaps i.order).2.2 t l).2 ⟨hne, ws, ns, hrest⟩) q5 q6 q7 q8 hcol.1,
        dress_verdict q7, q9]
      have ho : out.head? ≠ some legend := (run_dressed ev pre _).2 _ _ hr'
      have hv : (handText p' :: verdict p p').head? ≠ some legend := by
        rw [List.head?_cons, ne_eq, Option.some.injEq]
        exact not_legend (handLine_head q7) (by decide)
      rw [show ev' ++ asked [.line Screen.good swapsMessage] = _ from r4, dress_append hv,
        show Screen.Game.WELCOME :: wagerMessage 100 :: out = [Screen.Game.WELCOME, wagerMessage 100] ++ out from rfl,
        dress_append ho, dress_cons (t := Screen.Game.WELCOME) (by decide),
        dress_cons (t := wagerMessage 100) (by simp), look_wager, ← List.cons_append, Program.asked_append,
        ← List.cons_append, Program.asked_append]
      simp only [List.append_assoc]
      rfl

/-! ## Concrete cases -/

/-- Both cases of `c65_history` occur: a session of four lines goes on, and the history of C60 that wins
a royal flush in each round ends in the second case. -/
example : (∃ s out, Game.main id (["1", "oops", "1 2 9", "1 5"].map plain) = .ok (s, out)) ∧
    ∃ draw inputs pre i post s out, (∀ k, draw k ≤ k) ∧ (∀ i ∈ inputs, Fair i) ∧
      inputs = pre ++ i :: post ∧ Game.main draw pre = .ok (s, out) ∧ Bursts i.line s := by
  constructor
  · obtain ⟨s, out, h, -⟩ := c60_bound id (fun _ => le_rfl) (["1", "oops", "1 2 9", "1 5"].map plain)
      (fun i hi => by obtain ⟨l, -, rfl⟩ := List.mem_map.1 hi; exact plain_fair l) (by decide)
    exact ⟨s, out, h⟩
  · obtain ⟨draw, inputs, -, -, hd, hi, -, h, -⟩ := c60_overflow
    obtain ⟨-, m, -, -, ⟨s, out, h', -⟩ | ⟨-, pre, i, post, s, out, he, h1, -, -, -, hx⟩⟩ :=
      c65_history draw hd inputs hi
    · rw [h] at h'
      cases h'
    · exact ⟨draw, inputs, pre, i, post, s, m :: out, hd, hi, he, h1, hx⟩

/-- So do the hypotheses of `c65_panic` and the second case of `c65_program`. -/
example : ∃ draw inputs ev, (∀ k, draw k ≤ k) ∧ (∀ i ∈ inputs, Fair i) ∧
    Program.Game.main true draw (inputs.length + 1) (fresh inputs) = .panic .arithOverflow ev := by
  obtain ⟨draw, inputs, -, -, hd, hi, -, h, -⟩ := c60_overflow
  obtain ⟨ev, hev⟩ := (c57_game draw inputs _ (Nat.lt_succ_self _)).2 _ h
  exact ⟨draw, inputs, ev, hd, hi, hev⟩

/-- A history that overflows goes on without checks: `TurnsOn` has more histories than `Plays`. -/
example : ∃ draw inputs deck s out, (∀ k, draw k ≤ k) ∧ (∀ i ∈ inputs, Fair i) ∧
    Game.main draw inputs = .error .arithOverflow ∧
    TurnsOn (inputs.map Input.line) (.wager 100 deck []) out s ∧ total s = 484 := by
  obtain ⟨draw, inputs, dk, o, hd, hi, -, h, -, h'⟩ := c60_overflow
  obtain ⟨deck, s, m, out, h1, -, -, hg, -, -⟩ := c65_unchecked draw hd inputs hi
  rw [h', Except.ok.injEq, Prod.mk.injEq] at h1
  refine ⟨draw, inputs, deck, s, out, hd, hi, h, hg, ?_⟩
  rw [← h1.1]
  rfl

/-- A release build on a short session. -/
example : ∃ s out, ∀ checks, Build.game ⟨checks, 64⟩ id (["2", "1 3"].map plain) = .ok (s, out) := by
  obtain ⟨s, out, h, -⟩ := c60_bound id (fun _ => le_rfl) (["2", "1 3"].map plain)
    (fun i hi => by obtain ⟨l, -, rfl⟩ := List.mem_map.1 hi; exact plain_fair l) (by decide)
  exact ⟨s, out, c65_same _ _ _ h⟩

/-- Draws out of range: both models of the checked build panic alike. -/
example : Build.game ⟨true, 64⟩ (fun _ => 60) [] = .error .indexOutOfBounds ∧
    Game.main (fun _ => 60) [] = .error .indexOutOfBounds := by
  have h : Game.main (fun _ => 60) [] = .error .indexOutOfBounds := by
    obtain ⟨ev, hev⟩ := c36_new_ok
    have hd : Deck.shuffled_with (fun _ => 60) = .error .indexOutOfBounds := by decide +kernel
    rw [Game.main, start, hev, Comb.bind_ok, hd]
    rfl
  exact ⟨(c65_checked _ _).trans h, h⟩

/-- The second case of `c65_program` occurs too: the history of C60 makes the program panic. -/
example : ∃ draw inputs ev, (∀ k, draw k ≤ k) ∧ (∀ i ∈ inputs, Fair i) ∧
    Program.Game.main true draw (inputs.length + 1) (fresh inputs) = .panic .arithOverflow ev := by
  obtain ⟨draw, inputs, -, -, hd, hi, -, h, -⟩ := c60_overflow
  obtain ⟨ev, hev⟩ := (c57_game draw inputs _ (Nat.lt_succ_self _)).2 _ h
  exact ⟨draw, inputs, ev, hd, hi, hev⟩

end Poker
