import Verif.Props.Session
import Verif.Props.Builds

/-! # How far the credits can go: C60 -/

namespace Poker
open Rules Tab Counts Nat Shuffles Game Sets

/-! ## No history shorter than this overflows -/

/-- One more line has been read than belongs to complete rounds. -/
def started : State → Nat
  | .swaps .. => 1
  | _ => 0

theorem move_total {line : Option Str} {s t : State} {out : List Str} (h : Move line s out t) :
    total t ≤ total s ∨ started s = 1 ∧ started t = 0 := by
  cases h with
  | bet c w deck p e hb _ =>
    obtain ⟨_, _, _, _, _, h⟩ := hb
    left
    simp only [total]
    omega
  | _ => first | exact .inl le_rfl | exact .inr ⟨rfl, rfl⟩

/-- One line from a state between rounds never overflows. -/
theorem last_line {ev : Evaluator} (hev : Evaluator.new = .ok ev) (i : Input) {c : Nat} {deck : List Card}
    (hp : deck.Perm Deck.generate) :
    ∃ t out, Game.step ev i (.wager c deck []) = .ok (t, out) ∧ total t ≤ c := by
  obtain ⟨hq, ha⟩ := c40_wager c
  cases hg : get_wager c i.line with
  | quit => exact ⟨_, _, by rw [Game.step, hg], le_rfl⟩
  | again m => exact ⟨_, _, by rw [Game.step, hg], le_rfl⟩
  | accept w =>
    cases hl : i.line with
    | none => rw [hl] at hg; cases hg
    | some s =>
      rw [hl] at hg
      have hb : Bets i.line c w := ⟨s, hl, (ha s w).1 hg⟩
      obtain ⟨e, out, h, -⟩ := wager_step hev i hb hp
      refine ⟨_, _, h, ?_⟩
      have := ((ha s w).1 hg).2.2.2
      simp only [total]
      omega

theorem half_next {M a b n x y : Nat} (h : a + 4000 * ((n + 1 + x) / 2) < M) (hx : x ≤ 1) (hy : y ≤ 1)
    (hab : b ≤ a + 4000) (hs : b ≤ a ∨ x = 1 ∧ y = 0) :
    b + 4000 * ((n + y) / 2) ≤ a + 4000 * ((n + 1 + x) / 2) := by
  rcases hs with hs | ⟨rfl, rfl⟩
  · have : (n + y) / 2 ≤ (n + 1 + x) / 2 := Nat.div_le_div_right (by omega)
    omega
  · have : (n + 1 + 1) / 2 = n / 2 + 1 := by omega
    rw [this]
    simp only [Nat.add_zero]
    omega

theorem run_half {ev : Evaluator} (hev : Evaluator.new = .ok ev) {M : Nat} (hM : M = 2 ^ 64)
    (is : List Input) (hi : ∀ i ∈ is, Fair i) (s : State) (hs : Sound s)
    (hb : total s + 4000 * ((is.length + started s) / 2) < M) :
    ∃ t out, Game.run ev is s = .ok (t, out) ∧
      total t ≤ total s + 4000 * ((is.length + started s) / 2) := by
  induction is generalizing s with
  | nil => exact ⟨s, [], rfl, Nat.le_add_right _ _⟩
  | cons i is ih =>
    rw [List.length_cons] at hb ⊢
    have h1 : ∀ s : State, started s ≤ 1 := fun s => by cases s <;> simp [started]
    by_cases hroom : total s + 4000 < M
    · obtain ⟨t, out, hst, hmove, hsound, hle⟩ := step_ok hev i (hi i (by simp)) s hs (hM ▸ hroom)
      have hn := half_next hb (h1 s) (h1 t) hle (move_total hmove)
      obtain ⟨u, out', h2, hle'⟩ := ih (fun j hj => hi j (by simp [hj])) t hsound (hn.trans_lt hb)
      refine ⟨u, out ++ out', ?_, hle'.trans hn⟩
      rw [Game.run, hst, Comb.bind_ok]
      simp only
      rw [h2]
      rfl
    · have hz : (is.length + 1 + started s) / 2 = 0 := by
        clear ih hs hi hM
        by_contra hne
        have : 1 ≤ (is.length + 1 + started s) / 2 := by omega
        omega
      have hnil : is.length = 0 ∧ started s = 0 := by omega
      obtain rfl := List.length_eq_zero_iff.1 hnil.1
      rw [hz]
      cases s with
      | swaps c w e deck hand => exact absurd hnil.2 (by simp [started])
      | quit c deck hand => exact ⟨_, _, rfl, le_rfl⟩
      | over c deck hand => exact ⟨_, _, rfl, le_rfl⟩
      | wager c deck hand =>
        obtain ⟨rfl, hp, -⟩ := hs
        obtain ⟨t, out, h, ht⟩ := last_line hev i (c := c) hp
        refine ⟨t, out ++ [], ?_, ht⟩
        rw [Game.run, h, Comb.bind_ok]
        rfl

/-- C60: a history of fewer than 9223372036854776 lines (two for each of 4611686018427388 rounds) never
panics, and every two lines add 4000 credits at most. -/
theorem c60_bound (draw : Nat → Nat) (hd : ∀ k, draw k ≤ k) (inputs : List Input)
    (hi : ∀ i ∈ inputs, Fair i) (hl : inputs.length < 9223372036854776) :
    ∃ s out, Game.main draw inputs = .ok (s, out) ∧ total s ≤ 100 + 4000 * (inputs.length / 2) := by
  obtain ⟨ev, hev⟩ := c36_new_ok
  obtain ⟨deck, h1, h2⟩ := c22_perm draw (fun i _ _ => hd i)
  have hb : 100 + 4000 * ((inputs.length + 0) / 2) < 2 ^ 64 := by
    have : inputs.length / 2 ≤ 4611686018427387 := by omega
    have h3 : 100 + 4000 * 4611686018427387 < 2 ^ 64 := by norm_num
    exact (Nat.add_le_add_left (Nat.mul_le_mul_left 4000 this) 100).trans_lt h3
  obtain ⟨s, out, hr, hle⟩ := run_half hev rfl inputs hi (.wager 100 deck []) ⟨rfl, h2, by decide⟩ hb
  refine ⟨s, wagerMessage STARTING_CREDITS :: out, ?_, hle⟩
  rw [Game.main, start, hev, Comb.bind_ok, h1, Comb.bind_ok]
  simp only [Comb.pure_eq_ok, Comb.bind_ok]
  show (Game.run ev inputs (.wager 100 deck []) >>= _) = _
  rw [hr]
  rfl

/-! ## A royal flush in every round -/

/-- A deck with a royal flush on top. -/
def luckyDeck : List PCard := royalHand ++ cards.filter (fun c => c ∉ royalHand)

theorem lucky_nodup : luckyDeck.Nodup := by decide +kernel

theorem lucky_pack : luckyDeck.toFinset = pack := by
  ext c
  simp only [List.mem_toFinset, pack_complete, iff_true]
  rcases c with ⟨r, s⟩
  cases r <;> cases s <;> decide +kernel

theorem lucky_perm : (deal luckyDeck).Perm Deck.generate :=
  perm_generate.2 ⟨_, rfl, lucky_nodup, lucky_pack⟩

/-- Any deck can be shuffled into any order. -/
theorem shuffle_into {l m : List Card} (hl : l.Perm Deck.generate) (hm : m.Perm Deck.generate) :
    ∃ draw : Nat → Nat, (∀ k, draw k ≤ k) ∧ Deck.shuffle draw l = .ok m := by
  have h52 : l.length = 52 := hl.length_eq.trans c21_deck.1
  have hml : m.length = 52 := hm.length_eq.trans c21_deck.1
  obtain ⟨draw, h1, h2⟩ := shuffleAux_exists 51 l m (by omega) (hm.trans hl.symm)
    (by rw [List.drop_of_length_le (by omega), List.drop_of_length_le (by omega)])
  obtain ⟨draw', h3, h4⟩ : ∃ draw' : Nat → Nat, (∀ k, draw' k ≤ k) ∧
      ∀ k, 1 ≤ k → k ≤ 51 → draw' k = draw k := by
    refine ⟨fun k => if 1 ≤ k ∧ k ≤ 51 then draw k else 0, fun k => ?_, fun k h h' => if_pos ⟨h, h'⟩⟩
    simp only
    split
    · rename_i h
      exact h1 k h.1 h.2
    · exact Nat.zero_le _
  refine ⟨draw', h3, ?_⟩
  rw [Deck.shuffle, h52]
  rw [shuffleAux_congr draw' draw 51 l h4]
  exact h2

/-- The lines of a lucky round. -/
def luckyLines (draw : Nat → Nat) : List Input :=
  [⟨some "5".toList, id, id, id⟩, ⟨some [], id, draw, id⟩]

theorem lucky_fair {draw : Nat → Nat} (hd : ∀ k, draw k ≤ k) : ∀ i ∈ luckyLines draw, Fair i := by
  intro i hi
  simp only [luckyLines, List.mem_cons, List.not_mem_nil, or_false] at hi
  rcases hi with rfl | rfl
  · exact ⟨fun _ => le_rfl, fun _ => le_rfl, fun _ => .refl _⟩
  · exact ⟨fun _ => le_rfl, hd, fun _ => .refl _⟩

/-- The rest of the lucky deck. -/
def luckyRest : List PCard := cards.filter (fun c => c ∉ royalHand)

theorem lucky_take : (deal luckyDeck).take 5 = deal royalHand ∧ (deal luckyDeck).drop 5 = deal luckyRest :=
  ⟨rfl, rfl⟩

theorem lucky_draw : ∃ draw : Nat → Nat, (∀ k, draw k ≤ k) ∧
    Deck.shuffle draw (deal luckyRest ++ deal royalHand) = .ok (deal luckyDeck) := by
  refine shuffle_into (List.Perm.trans ?_ lucky_perm) lucky_perm
  rw [luckyDeck, deal, deal, deal, List.map_append]
  exact List.perm_append_comm

theorem empty_line : Chooses (some []) [] :=
  ⟨[], [], [], rfl, by decide, .nil _ (by simp), .nil, by simp, by simp, rfl⟩

theorem lucky_bet {ev : Evaluator} (hev : Evaluator.new = .ok ev) {c : Nat} (hc : 5 ≤ c) :
    ∃ e out, Game.step ev ⟨some "5".toList, id, id, id⟩ (.wager c (deal luckyDeck) [])
        = .ok (.swaps (c - 5) 5 e (deal luckyRest) (deal royalHand), out) ∧
      Held royalHand (deal royalHand) e := by
  obtain ⟨e, out, h1, h2⟩ := wager_step hev ⟨some "5".toList, id, id, id⟩ (c := c) (w := 5)
    ⟨_, rfl, .inl ⟨by decide, by decide⟩, by decide, by decide, hc⟩ lucky_perm
  rw [lucky_take.1, lucky_take.2] at h1
  rw [lucky_take.1] at h2
  refine ⟨e, out, h1, by decide, by decide, rfl, ?_⟩
  rw [evaluateHand, hev, Comb.bind_ok, h2]

/-- A lucky round. -/
theorem lucky_round {ev : Evaluator} (hev : Evaluator.new = .ok ev) {draw : Nat → Nat}
    (hd : ∀ k, draw k ≤ k)
    (hs : Deck.shuffle draw (deal luckyRest ++ deal royalHand) = .ok (deal luckyDeck)) {c M : Nat}
    (hM : M = 2 ^ 64) (hc : 5 ≤ c) (hb : c + 4000 < M) :
    ∃ out, Game.run ev (luckyLines draw) (.wager c (deal luckyDeck) [])
      = .ok (.wager (c + 4000) (deal luckyDeck) [], out) := by
  obtain ⟨e, out, h1, h2⟩ := lucky_bet hev hc
  have hp : back 5 (setKind royalHand.toFinset) = 4005 := by
    rw [setKind_list (by decide), back_prize (by decide) (by decide) (by decide) (by decide)]
    decide +kernel
  have hb' : c - 5 + 5 + 4000 < 2 ^ 64 := by
    rw [Nat.sub_add_cancel hc, ← hM]
    exact hb
  obtain ⟨t, out', h3, h4⟩ := swaps_step hev ⟨some [], id, draw, id⟩ hd (c := c - 5) (w := 5) (h := royalHand)
    (g := luckyRest) (h' := royalHand) (g' := luckyRest) empty_line h2 rfl (by decide) (by decide)
    (by decide) (by decide) hb'
  rw [hp] at h4
  have h5 : t.credits = c + 4000 := by
    clear hM hb'
    omega
  obtain ⟨m, h6, h7⟩ := swaps_end (i := ⟨some [], id, draw, id⟩) empty_line rfl h3 (by
    rw [h5]; exact Nat.succ_ne_zero _)
  simp only at h6
  rw [hs, Except.ok.injEq] at h6
  rw [h5, ← h6] at h7
  refine ⟨out ++ (out' ++ []), ?_⟩
  rw [luckyLines, Game.run, h1, Comb.bind_ok]
  simp only
  rw [Game.run, h3, Comb.bind_ok, h7]
  rfl

theorem run_append {ev : Evaluator} (is js : List Input) {s t : State} {out : List Str}
    (h : Game.run ev is s = .ok (t, out)) :
    Game.run ev (is ++ js) s = (do
      let (u, out') ← Game.run ev js t
      return (u, out ++ out')) := by
  induction is generalizing s out with
  | nil =>
    rw [Game.run, Except.ok.injEq, Prod.mk.injEq] at h
    obtain ⟨rfl, rfl⟩ := h
    show Game.run ev js s = _
    cases Game.run ev js s with
    | error p => rfl
    | ok r => rfl
  | cons i is ih =>
    rw [Game.run] at h
    obtain ⟨⟨t', o⟩, h1, h⟩ := exec_bind.1 h
    obtain ⟨⟨u, o'⟩, h2, h⟩ := exec_bind.1 h
    cases h
    rw [List.cons_append, Game.run, h1, Comb.bind_ok]
    simp only
    rw [ih h2]
    cases Game.run ev js t with
    | error p => rfl
    | ok r => simp [Comb.bind_ok, Comb.pure_eq_ok, List.append_assoc]

/-- The lines of several lucky rounds. -/
def luckyHistory (draw : Nat → Nat) (n : Nat) : List Input := (List.replicate n (luckyLines draw)).flatten

theorem lucky_length (draw : Nat → Nat) (n : Nat) : (luckyHistory draw n).length = 2 * n := by
  rw [luckyHistory, List.length_flatten, List.map_replicate, List.sum_replicate, smul_eq_mul, Nat.mul_comm]
  rfl

theorem lucky_rounds {ev : Evaluator} (hev : Evaluator.new = .ok ev) {draw : Nat → Nat}
    (hd : ∀ k, draw k ≤ k)
    (hs : Deck.shuffle draw (deal luckyRest ++ deal royalHand) = .ok (deal luckyDeck)) {M : Nat}
    (hM : M = 2 ^ 64) (n : Nat) : ∀ {c : Nat}, 5 ≤ c → c + 4000 * n < M →
    ∃ out, Game.run ev (luckyHistory draw n) (.wager c (deal luckyDeck) [])
      = .ok (.wager (c + 4000 * n) (deal luckyDeck) [], out) := by
  induction n with
  | zero => exact fun _ _ => ⟨[], rfl⟩
  | succ n ih =>
    intro c hc hb
    have hb' : c + 4000 + 4000 * n < M := by
      rw [Nat.add_assoc, Nat.add_comm 4000, ← Nat.mul_succ]
      exact hb
    obtain ⟨o, h1⟩ := lucky_round hev hd hs hM hc (Nat.lt_of_le_of_lt (Nat.le_add_right _ _) hb')
    obtain ⟨o', h2⟩ := ih (hc.trans (Nat.le_add_right _ _)) hb'
    refine ⟨o ++ o', ?_⟩
    rw [luckyHistory, List.replicate_succ, List.flatten_cons, run_append _ _ h1]
    rw [luckyHistory] at h2
    rw [h2, Nat.add_assoc, Nat.add_comm 4000, ← Nat.mul_succ]
    rfl

/-- The round that is too much. -/
theorem lucky_last {ev : Evaluator} (hev : Evaluator.new = .ok ev) {draw : Nat → Nat} {e : Eval}
    (he : Held royalHand (deal royalHand) e) {c : Nat} (hb : 2 ^ 64 ≤ c + (5 + 4000)) :
    Game.step ev ⟨some [], id, draw, id⟩ (.swaps c 5 e (deal luckyRest) (deal royalHand))
      = .error .arithOverflow := by
  have hg : get_swaps id (some []) = .ok (.accept []) := by decide +kernel
  have heval : ev.evaluate (deal royalHand) = .ok (.ok e) := by
    have := he.2.2.2
    rwa [evaluateHand, hev, Comb.bind_ok] at this
  have hline := c43_hand he
  have hpay := payout_held he (w := 5) le_rfl
  rw [show prize 5 royalHand = 4000 by decide +kernel] at hpay
  have hcol : collect c 5 4000 = .error .arithOverflow := by
    rw [collect, if_pos (by decide), usizeAdd, USIZE, if_pos (by norm_num), Comb.bind_ok, usizeAdd, USIZE,
      if_neg (Nat.not_lt.2 hb)]
  have hrep : replace id [] (deal luckyRest) (deal royalHand) = .ok (deal luckyRest, deal royalHand) := rfl
  rw [Game.step, hg, Comb.bind_ok]
  simp only
  unfold afterSwaps
  rw [hrep]
  simp only [Comb.bind_ok, heval, unwrap, hline, hpay, hcol]
  rfl

theorem lucky_last_build (checks : Bool) {ev : Evaluator} (hev : Evaluator.new = .ok ev) {draw : Nat → Nat}
    (hs : Deck.shuffle draw (deal luckyRest ++ deal royalHand) = .ok (deal luckyDeck)) {e : Eval}
    (he : Held royalHand (deal royalHand) e) {c k : Nat} (hc : c < 2 ^ 64)
    (hk : c + (5 + 4000) = 2 ^ 64 + k) (hk0 : k ≠ 0) :
    ∃ out, Build.step ⟨checks, 64⟩ ev ⟨some [], id, draw, id⟩
        (.swaps c 5 e (deal luckyRest) (deal royalHand))
      = if checks then .error .arithOverflow else .ok (.wager k (deal luckyDeck) [], out) := by
  have hg : Build.get_swaps ⟨checks, 64⟩ id (some []) = .ok (.accept []) :=
    get_swaps_refines _ _ _ _ (by decide +kernel)
  have heval : Build.evaluate ⟨checks, 64⟩ ev (deal royalHand) = .ok (.ok e) := by
    have := he.2.2.2
    rw [evaluateHand, hev, Comb.bind_ok] at this
    rw [c47_evaluate ⟨checks, 64⟩ (show 16 ≤ 64 by decide), this]
  have hline := c43_hand he
  have hpay : Build.payout ⟨checks, 64⟩ 5 e.class' = .ok 4000 := by
    refine payout_refines _ rfl _ _ _ ?_
    rw [payout_held he (w := 5) le_rfl, show prize 5 royalHand = 4000 by decide +kernel]
  have hcol := c47_wrap checks c 5 4000 (by decide) (by decide) (by decide)
    (hk ▸ Nat.le_add_right _ _) hc
  rw [hk, Nat.add_sub_cancel_left] at hcol
  have hrep : replace id [] (deal luckyRest) (deal royalHand) = .ok (deal luckyRest, deal royalHand) := rfl
  rw [Build.step, hg, Comb.bind_ok]
  simp only
  unfold Build.afterSwaps
  rw [hrep]
  simp only [Comb.bind_ok, heval, unwrap, hline, hpay, hcol]
  cases checks with
  | true => exact ⟨[], rfl⟩
  | false =>
    simp only [Bool.false_eq_true, if_false, Comb.bind_ok, if_neg hk0, hs]
    exact ⟨_, rfl⟩

theorem build_append (b : Build) {ev : Evaluator} (is js : List Input) {s t : State} {out : List Str}
    (h : b.run ev is s = .ok (t, out)) :
    b.run ev (is ++ js) s = (do
      let (u, out') ← b.run ev js t
      return (u, out ++ out')) := by
  induction is generalizing s out with
  | nil =>
    rw [Build.run, Except.ok.injEq, Prod.mk.injEq] at h
    obtain ⟨rfl, rfl⟩ := h
    show b.run ev js s = _
    cases b.run ev js s with
    | error p => rfl
    | ok r => rfl
  | cons i is ih =>
    rw [Build.run] at h
    obtain ⟨⟨t', o⟩, h1, h⟩ := exec_bind.1 h
    obtain ⟨⟨u, o'⟩, h2, h⟩ := exec_bind.1 h
    cases h
    rw [List.cons_append, Build.run, h1, Comb.bind_ok]
    simp only
    rw [ih h2]
    cases b.run ev js t with
    | error p => rfl
    | ok r => simp [Comb.bind_ok, Comb.pure_eq_ok, List.append_assoc]

theorem lucky_start : ∃ draw : Nat → Nat, (∀ k, draw k ≤ k) ∧
    Deck.shuffled_with draw = .ok (deal luckyDeck) := shuffle_into (.refl _) lucky_perm

theorem history_fair {draw : Nat → Nat} (hd : ∀ k, draw k ≤ k) (n : Nat) :
    ∀ i ∈ luckyHistory draw n, Fair i := by
  intro i hi
  rw [luckyHistory, List.mem_flatten] at hi
  obtain ⟨l, hl, hi⟩ := hi
  rw [List.eq_of_mem_replicate hl] at hi
  exact lucky_fair hd i hi

/-- C60: the bound is reached: some history of `2 * n` lines ends with 4000 credits more for each two
of them. -/
theorem c60_attained (n : Nat) (hn : 2 * n < 9223372036854776) :
    ∃ draw inputs deck out, (∀ k, draw k ≤ k) ∧ (∀ i ∈ inputs, Fair i) ∧ inputs.length = 2 * n ∧
      Game.main draw inputs = .ok (.wager (100 + 4000 * n) deck [], out) := by
  obtain ⟨ev, hev⟩ := c36_new_ok
  obtain ⟨d₀, h0, h0'⟩ := lucky_start
  obtain ⟨draw, hd, hs⟩ := lucky_draw
  have hb : 100 + 4000 * n < 2 ^ 64 := by
    have : n ≤ 4611686018427387 := by omega
    have h3 : 100 + 4000 * 4611686018427387 < 2 ^ 64 := by norm_num
    exact (Nat.add_le_add_left (Nat.mul_le_mul_left 4000 this) 100).trans_lt h3
  obtain ⟨out, h⟩ := lucky_rounds hev hd hs rfl n (c := 100) (by decide) hb
  refine ⟨d₀, luckyHistory draw n, deal luckyDeck, wagerMessage STARTING_CREDITS :: out, h0,
    history_fair hd n, lucky_length draw n, ?_⟩
  rw [Game.main, start, hev, Comb.bind_ok, h0', Comb.bind_ok]
  simp only [Comb.pure_eq_ok, Comb.bind_ok]
  show (Game.run ev _ (.wager 100 (deal luckyDeck) []) >>= _) = _
  rw [h]
  rfl

/-- C60: and the limit is real: some history of 9223372036854776 lines panics if overflow is checked;
without the check it leaves 484 credits. -/
theorem c60_overflow : ∃ draw inputs deck out, (∀ k, draw k ≤ k) ∧ (∀ i ∈ inputs, Fair i) ∧
    inputs.length = 9223372036854776 ∧ Game.main draw inputs = .error .arithOverflow ∧
    Build.game ⟨true, 64⟩ draw inputs = .error .arithOverflow ∧
    Build.game ⟨false, 64⟩ draw inputs = .ok (.wager 484 deck [], out) := by
  obtain ⟨ev, hev⟩ := c36_new_ok
  obtain ⟨d₀, h0, h0'⟩ := lucky_start
  obtain ⟨draw, hd, hs⟩ := lucky_draw
  obtain ⟨n, hn⟩ : ∃ n, n = 4611686018427387 := ⟨_, rfl⟩
  have hb : 100 + 4000 * n < 2 ^ 64 := by rw [hn]; norm_num
  have h5 : 5 ≤ 100 + 4000 * n := (by decide : 5 ≤ 100).trans (Nat.le_add_right _ _)
  have hk : 100 + 4000 * n - 5 + (5 + 4000) = 2 ^ 64 + 484 := by rw [hn]; norm_num
  have hc : 100 + 4000 * n - 5 < 2 ^ 64 := (Nat.sub_le _ _).trans_lt hb
  obtain ⟨out, h⟩ := lucky_rounds hev hd hs rfl n (c := 100) (by decide) hb
  obtain ⟨e, o, h1, he⟩ := lucky_bet hev h5
  have h2 := lucky_last hev (draw := draw) he
    (c := 100 + 4000 * n - 5) (by rw [hk]; exact Nat.le_add_right _ _)
  have hrun : ∀ checks, Build.run ⟨checks, 64⟩ ev (luckyHistory draw n) (.wager 100 (deal luckyDeck) [])
      = .ok (.wager (100 + 4000 * n) (deal luckyDeck) [], out) :=
    fun checks => run_refines ⟨checks, 64⟩ rfl ev _ _ _ h
  have hstep : ∀ checks, Build.step ⟨checks, 64⟩ ev ⟨some "5".toList, id, id, id⟩
      (.wager (100 + 4000 * n) (deal luckyDeck) []) = _ :=
    fun checks => step_refines ⟨checks, 64⟩ rfl ev _ _ _ h1
  have hstart : ∀ checks, Build.start ⟨checks, 64⟩ d₀
      = .ok (ev, .wager 100 (deal luckyDeck) [], [wagerMessage STARTING_CREDITS]) := by
    intro checks
    rw [Build.start, c47_new ⟨checks, 64⟩ (show 16 ≤ 64 by decide), hev, Comb.bind_ok, h0', Comb.bind_ok]
    rfl
  obtain ⟨o₁, h3⟩ := lucky_last_build true hev hs he hc hk (by decide)
  obtain ⟨o₂, h4⟩ := lucky_last_build false hev hs he hc hk (by decide)
  refine ⟨d₀, luckyHistory draw n ++ luckyLines draw, deal luckyDeck,
    wagerMessage STARTING_CREDITS :: (out ++ (o ++ (o₂ ++ []))), h0, ?_, ?_, ?_, ?_, ?_⟩
  · intro i hi
    rcases List.mem_append.1 hi with hi | hi
    · exact history_fair hd n i hi
    · exact lucky_fair hd i hi
  · rw [List.length_append, lucky_length, hn]
    rfl
  · rw [Game.main, start, hev, Comb.bind_ok, h0', Comb.bind_ok]
    simp only [Comb.pure_eq_ok, Comb.bind_ok]
    show (Game.run ev _ (.wager 100 (deal luckyDeck) []) >>= _) = _
    rw [run_append _ _ h, luckyLines, Game.run, h1, Comb.bind_ok]
    simp only
    rw [Game.run, h2]
    rfl
  · rw [Build.game, hstart, Comb.bind_ok]
    simp only
    rw [build_append _ _ _ (hrun true), luckyLines, Build.run, hstep, Comb.bind_ok]
    simp only
    rw [Build.run, h3]
    rfl
  · rw [Build.game, hstart, Comb.bind_ok]
    simp only
    rw [build_append _ _ _ (hrun false), luckyLines, Build.run, hstep, Comb.bind_ok]
    simp only
    rw [Build.run, h4]
    rfl

/-- A history that the bound is about, and one that has two lucky rounds. -/
example : (∀ i ∈ [plain "5", plain "1 2 3", plain "quit"], Fair i) ∧
    [plain "5", plain "1 2 3", plain "quit"].length < 9223372036854776 := by
  refine ⟨?_, by decide⟩
  intro i hi
  simp only [List.mem_cons, List.not_mem_nil, or_false] at hi
  rcases hi with rfl | rfl | rfl <;> exact plain_fair _

example : ∃ draw inputs deck out, (∀ k, draw k ≤ k) ∧ (∀ i ∈ inputs, Fair i) ∧ inputs.length = 4 ∧
    Game.main draw inputs = .ok (.wager 8100 deck [], out) := c60_attained 2 (by decide)

end Poker
