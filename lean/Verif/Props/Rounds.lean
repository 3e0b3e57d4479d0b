import Verif.Props.Game
import Verif.Props.Exact
import Verif.Spec.Prints

/-! # Histories of the jacks-or-better game: C34, and what it prints: C43 -/

namespace Poker
open Rules Tab Text Game

/-! ## The rules of the game -/

/-- `e` is the result for the five cards `p`, held as the card values `l`. -/
def Held (p : List PCard) (l : List Card) (e : Eval) : Prop :=
  p.Nodup ∧ p.length = 5 ∧ deal p = l ∧ evaluateHand p = .ok (.ok e)

/-- The line leaves the game: reading failed, or the line is `quit`. -/
def Leaves (line : Option Str) : Prop := line = none ∨ line = some "quit".toList

/-- The line is a wager that can be made. -/
def Bets (line : Option Str) (credits w : Nat) : Prop :=
  ∃ s, line = some s ∧ Reads s w ∧ 1 ≤ w ∧ w ≤ 5 ∧ w ≤ credits

/-- The line names the positions `l` (from zero), all different. -/
def Chooses (line : Option Str) (l : List Nat) : Prop :=
  ∃ s ws ns, line = some s ∧ s ≠ "quit".toList ∧ Words ws s ∧ List.Forall₂ Reads ws ns ∧
    (∀ n ∈ ns, 1 ≤ n ∧ n ≤ 5) ∧ ns.Nodup ∧ l = ns.map (· - 1)

/-- What a line does to the state of the game, and what is printed. -/
inductive Move (line : Option Str) : State → List Str → State → Prop
  /-- leaving -/
  | leaveWager (c : Nat) (deck hand : List Card) : Leaves line →
      Move line (.wager c deck hand) [] (.quit c deck hand)
  | leaveSwaps (c w : Nat) (e : Eval) (deck hand : List Card) : Leaves line →
      Move line (.swaps c w e deck hand) [] (.quit c deck hand)
  /-- a refused line changes nothing; the reason is printed, and the request again -/
  | badWager (c : Nat) (deck hand : List Card) (s m m' : Str) : ¬ Leaves line →
      (¬ ∃ w, Bets line c w) → line = some s → RefusesWager s c m → WagerPrompt c m' →
      Move line (.wager c deck hand) [m, m'] (.wager c deck hand)
  | badSwaps (c w : Nat) (e : Eval) (deck hand : List Card) (s m : Str) : ¬ Leaves line →
      (¬ ∃ l, Chooses line l) → line = some s → RefusesSwaps s m →
      Move line (.swaps c w e deck hand) [m, swapsPrompt] (.swaps c w e deck hand)
  /-- a bet: the wager is taken and the first five cards of the deck are dealt and shown -/
  | bet (c w : Nat) (deck : List Card) (p : List PCard) (e : Eval) : Bets line c w →
      Held p (deck.take 5) e →
      Move line (.wager c deck []) [handText p, numbers, swapsPrompt]
        (.swaps (c - w) w e (deck.drop 5) (deck.take 5))
  /-- a draw that leaves no credits -/
  | ruin (w : Nat) (e e' : Eval) (deck hand deck' hand' : List Card) (l : List Nat)
      (p p' : List PCard) : Chooses line l → Held p hand e → Held p' hand' e' →
      (hand' ++ deck').Perm (hand ++ deck) →
      (∀ i, i ∉ l → hand'[i]? = hand[i]?) → prize w p' = 0 →
      Move line (.swaps 0 w e deck hand)
        (handText p' :: verdict p p' ++ ["Winnings: 0".toList, "Game over!".toList])
        (.over 0 deck' hand')
  /-- a draw that wins nothing but leaves credits -/
  | lose (c w : Nat) (e e' : Eval) (deck hand deck' hand' deck'' : List Card) (l : List Nat)
      (p p' : List PCard) (m : Str) : Chooses line l → Held p hand e → Held p' hand' e' →
      (hand' ++ deck').Perm (hand ++ deck) →
      (∀ i, i ∉ l → hand'[i]? = hand[i]?) → prize w p' = 0 → 0 < c → deck''.Perm (hand' ++ deck') →
      WagerPrompt c m →
      Move line (.swaps c w e deck hand)
        (handText p' :: verdict p p' ++ ["Winnings: 0".toList, [], m]) (.wager c deck'' [])
  /-- a draw that wins: the wager comes back with the prize -/
  | win (c w : Nat) (e e' : Eval) (deck hand deck' hand' deck'' : List Card) (l : List Nat)
      (p p' : List PCard) (d m : Str) : Chooses line l → Held p hand e → Held p' hand' e' →
      (hand' ++ deck').Perm (hand ++ deck) →
      (∀ i, i ∉ l → hand'[i]? = hand[i]?) → 0 < prize w p' → deck''.Perm (hand' ++ deck') →
      Decimal d (prize w p') → WagerPrompt (c + w + prize w p') m →
      Move line (.swaps c w e deck hand)
        (handText p' :: verdict p p' ++ ["Winnings: ".toList ++ d, [], m])
        (.wager (c + w + prize w p') deck'' [])
  /-- the game has ended -/
  | afterQuit (c : Nat) (deck hand : List Card) :
      Move line (.quit c deck hand) [] (.quit c deck hand)
  | afterOver (c : Nat) (deck hand : List Card) :
      Move line (.over c deck hand) [] (.over c deck hand)

/-- A history of the game: one move per line. -/
inductive Plays : List (Option Str) → State → List Str → State → Prop
  | nil (s : State) : Plays [] s [] s
  | cons (line : Option Str) (lines : List (Option Str)) (s t u : State) (out out' : List Str) :
      Move line s out t → Plays lines t out' u → Plays (line :: lines) s (out ++ out') u

/-- What holds between any two reads: no card is lost or duplicated; between rounds all cards are in
the deck and there are credits; in a round the hand is five different cards, its result is known, and
the wager is from one to five; a game that ended by itself left no credits. -/
def Sound : State → Prop
  | .wager c deck hand => hand = [] ∧ deck.Perm Deck.generate ∧ 0 < c
  | .swaps _ w e deck hand => (hand ++ deck).Perm Deck.generate ∧ 1 ≤ w ∧ w ≤ 5 ∧ ∃ p, Held p hand e
  | .quit _ deck hand => (hand ++ deck).Perm Deck.generate
  | .over c deck hand => c = 0 ∧ (hand ++ deck).Perm Deck.generate

/-- The credits, with the wager at stake. -/
def total : State → Nat
  | .wager c _ _ => c
  | .swaps c w _ _ _ => c + w
  | .quit c _ _ => c
  | .over c _ _ => c

/-- The contract of the outside: the generator draws in range, and iterating over a hash map visits
every entry once. -/
def Fair (i : Input) : Prop :=
  (∀ k, i.drawSwap k ≤ k) ∧ (∀ k, i.drawRound k ≤ k) ∧ ∀ l, (i.order l).Perm l

/-! ## Every step is a move -/

theorem exists_deal {l : List Card} (hm : ∀ c ∈ l, c ∈ Deck.generate) (hn : l.Nodup) :
    ∃ p : List PCard, p.Nodup ∧ deal p = l := by
  have hex : ∃ p : List PCard, deal p = l := by
    clear hn
    induction l with
    | nil => exact ⟨[], rfl⟩
    | cons c l ih =>
      obtain ⟨p, hp⟩ := ih (fun x hx => hm x (by simp [hx]))
      obtain ⟨r, s, rfl⟩ := c21_deck.2.2.2 c (hm c (by simp))
      exact ⟨(r, s) :: p, by rw [← hp]; rfl⟩
  obtain ⟨p, rfl⟩ := hex
  exact ⟨p, List.Nodup.of_map _ hn, rfl⟩

theorem held_of_perm {ev : Evaluator} (hev : Evaluator.new = .ok ev) {hand deck : List Card}
    (hp : (hand ++ deck).Perm Deck.generate) (h5 : hand.length = 5) :
    ∃ p e, Held p hand e ∧ ev.evaluate hand = .ok (.ok e) := by
  have hnd : (hand ++ deck).Nodup := hp.nodup_iff.2 c21_deck.2.1
  obtain ⟨p, hpn, rfl⟩ := exists_deal (l := hand)
    (fun c hc => hp.mem_iff.1 (List.mem_append_left _ hc)) (List.nodup_append.1 hnd).1
  have hp5 : p.length = 5 := by simpa [deal] using h5
  obtain ⟨e, he, -⟩ := c01_class p hpn hp5
  refine ⟨p, e, ⟨hpn, hp5, rfl, he⟩, ?_⟩
  rw [evaluateHand, hev, Comb.bind_ok] at he
  exact he

theorem toDigits_head (n : Nat) : (Nat.toDigits 10 n).head? = some '0' → Nat.toDigits 10 n = ['0'] := by
  induction n using Nat.strongRecOn with
  | ind n ih =>
    by_cases hn : n < 10
    · rw [Nat.toDigits_of_lt_base hn]
      intro h
      simpa using h
    · rw [Nat.toDigits_of_base_le (by decide) (by omega)]
      intro h
      have hne : Nat.toDigits 10 (n / 10) ≠ [] := Nat.toDigits_ne_nil
      rw [List.head?_append_of_ne_nil _ hne] at h
      have h0 := ih (n / 10) (by omega) h
      have h1 := (numeral_natStr (n / 10)).2.2
      rw [natStr, h0] at h1
      have : n / 10 = 0 := h1.symm
      omega

theorem decimal_natStr (n : Nat) : Decimal (natStr n) n := ⟨numeral_natStr n, toDigits_head n⟩

/-- C43: a hand is shown as its five cards in order and the description of its class. -/
theorem c43_hand {p : List PCard} {hand : List Card} {e : Eval} (h : Held p hand e) :
    handLine hand e = .ok (handText p) := by
  obtain ⟨hn, h5, rfl, he⟩ := h
  obtain ⟨e', he', hc⟩ := c01_class p hn h5
  rw [he, Except.ok.injEq, Except.ok.injEq] at he'
  subst he'
  obtain ⟨a, b, c, d, f, rfl⟩ := idx5 h5
  show Except.ok _ = Except.ok _
  rw [Except.ok.injEq, handText, c28_exact_result, hc]
  simp only [(c35_display _ a).1, List.map_cons, List.map_nil, List.intercalate, List.intersperse, cardText,
    List.flatten_cons, List.flatten_nil, List.cons_append, List.nil_append, List.append_nil,
    List.append_assoc]

example : ∃ e, handLine (deal wheelHand) e = .ok (handText wheelHand) :=
  have ⟨e, he, _⟩ := c01_class wheelHand (by decide) (by decide)
  ⟨e, c43_hand ⟨by decide, by decide, rfl, he⟩⟩

/-- C43: the game calls the new hand better or worse by what the names of the hands tell. -/
theorem c43_verdict {p p' : List PCard} {hand hand' : List Card} {e e' : Eval} (h : Held p hand e)
    (h' : Held p' hand' e') :
    compared e'.class' e.class' = verdict p p' := by
  obtain ⟨hn, h5, -, he⟩ := h
  obtain ⟨hn', h5', -, he'⟩ := h'
  obtain ⟨_, _, w, hw, rfl⟩ := ok_iff.1 he
  obtain ⟨_, _, w', hw', rfl⟩ := ok_iff.1 he'
  rw [hw.unique (isBest_five hn h5), hw'.unique (isBest_five hn' h5'), class_evalOf, class_evalOf]
  unfold compared verdict
  rw [class_cmp_told (isBest_five hn' h5').mem_ladder (isBest_five hn h5).mem_ladder]
  cases cmpWorth (told (strength p')) (told (strength p)) <;> rfl

example : ∃ e e' : Eval, compared e'.class' e.class' = verdict wheelHand fullHouseHand :=
  have ⟨e, he, _⟩ := c01_class wheelHand (by decide) (by decide)
  have ⟨e', he', _⟩ := c01_class fullHouseHand (by decide) (by decide)
  ⟨e, e', c43_verdict ⟨by decide, by decide, rfl, he⟩ ⟨by decide, by decide, rfl, he'⟩⟩

theorem wagerMessage_ok (c : Nat) : WagerPrompt c (wagerMessage c) := by
  have he : ", max: 5)".toList = ", max: ".toList ++ (natStr MAX_WAGER ++ ")".toList) := by
    decide +kernel
  unfold WagerPrompt
  refine ⟨natStr c, decimal_natStr c, ?_⟩
  unfold wagerMessage
  rw [he]
  simp only [List.append_assoc]

/-- C43: a refused wager is refused for the reason printed. -/
theorem c43_wager {c : Nat} {s m : Str} (h : get_wager c (some s) = .again m) :
    RefusesWager s c m := by
  simp only [get_wager] at h
  split_ifs at h with hq
  cases hp : parseUsize s with
  | none =>
    rw [hp] at h
    simp only [Answer.again.injEq] at h
    subst h
    have := RefusesWager.notNumber (s := s) (c := c) (fun n hn => by
      by_contra hlt
      rw [(parseUsize_iff s n).2 ⟨hn, by omega⟩] at hp
      cases hp)
    have he : "'. Expected wager from 1 to 5.\n".toList
        = "'. Expected wager from 1 to ".toList ++ (natStr MAX_WAGER ++ ".\n".toList) := by
      decide +kernel
    rw [he] at this
    simpa only [List.append_assoc] using this
  | some n =>
    rw [hp] at h
    obtain ⟨hr, hlt⟩ := (parseUsize_iff s n).1 hp
    simp only at h
    split_ifs at h with h0 h5 hc
    · subst h0
      rw [Answer.again.injEq] at h
      subst h
      exact .zero hr
    · rw [Answer.again.injEq] at h
      subst h
      have := RefusesWager.tooMuch (c := c) n _ hr h5 hlt (decimal_natStr n)
      have he : "'. Expected amount from 1 to 5.\n".toList
          = "'. Expected amount from 1 to ".toList ++ (natStr MAX_WAGER ++ ".\n".toList) := by
        decide +kernel
      rw [he] at this
      simpa only [List.append_assoc] using this
    · rw [Answer.again.injEq] at h
      subst h
      exact .notEnough n _ _ hr (by unfold MAX_WAGER at h5; omega) hc (decimal_natStr n)
        (decimal_natStr c)

theorem parseAll_none {ws : List Str} (h : parseAll ws = none) :
    ∃ w ∈ ws, ∀ n, Reads w n → 2 ^ 64 ≤ n := by
  induction ws with
  | nil => simp [parseAll] at h
  | cons w ws ih =>
    rw [parseAll] at h
    cases hw : parseUsize w with
    | none =>
      refine ⟨w, by simp, fun n hn => ?_⟩
      by_contra hlt
      rw [(parseUsize_iff w n).2 ⟨hn, by omega⟩] at hw
      cases hw
    | some n =>
      rw [hw] at h
      simp only at h
      cases hws : parseAll ws with
      | none =>
        obtain ⟨v, hv, hvn⟩ := ih hws
        exact ⟨v, by simp [hv], hvn⟩
      | some ns =>
        rw [hws] at h
        simp at h

/-- C43: a refused choice of cards is refused for the reason printed, whatever the order in which the
hash map yields the duplicates. -/
theorem c43_swaps {order : List (Nat × Nat) → List (Nat × Nat)} (ho : ∀ l, (order l).Perm l)
    {s m : Str} (h : get_swaps order (some s) = .ok (.again m)) : RefusesSwaps s m := by
  have hw : Words (split_whitespace s) s := ((c19_words s _).1).2 rfl
  simp only [get_swaps] at h
  split_ifs at h with hq
  · simp at h
  cases hp : parseAll (split_whitespace s) with
  | none =>
    rw [hp] at h
    simp only [Except.ok.injEq, Answer.again.injEq] at h
    subst h
    exact .notNumbers _ hw (parseAll_none hp)
  | some ns =>
    rw [hp] at h
    have hf := (parseAll_iff _ _).1 hp
    have hf' : List.Forall₂ Reads (split_whitespace s) ns := hf.imp (fun _ _ h => h.1)
    have hlt : ∀ n ∈ ns, n < 2 ^ 64 := by
      clear hp hf' h hq hw
      revert hf
      generalize split_whitespace s = ws
      intro hf
      induction hf with
      | nil => simp
      | cons h1 h2 ih =>
        intro n hn
        rcases List.mem_cons.1 hn with rfl | hn
        · exact h1.2
        · exact ih n hn
    simp only at h
    split_ifs at h with h1 h2 h3
    · simp only [Except.ok.injEq, Answer.again.injEq] at h
      subst h
      refine .outOfRange _ ns hw hf' hlt ?_
      simp only [Bool.not_eq_true', List.all_eq_false, decide_eq_true_eq, not_and, Nat.not_le] at h1
      obtain ⟨n, hn, h1⟩ := h1
      exact ⟨n, hn, by omega⟩
    · simp only [Except.ok.injEq, Answer.again.injEq] at h
      subst h
      have hall : ∀ n ∈ ns, 1 ≤ n ∧ n ≤ 5 := by simpa using h1
      have hnd : ¬ ns.Nodup := fun hn => by
        rw [(allInserted_iff [] ns).2 ⟨hn, by simp⟩] at h3
        simp at h3
      let dups := ((counts order ns).filter (fun e => decide (e.2 > 1))).map (·.1)
      have hdp : dups.Perm ((ns.eraseDups.map (fun a => (a, ns.count a))).filter
          (fun e => decide (e.2 > 1)) |>.map (·.1)) := ((ho _).filter _).map _
      have hdp' : ((ns.eraseDups.map (fun a => (a, ns.count a))).filter
          (fun e => decide (e.2 > 1)) |>.map (·.1)) = ns.eraseDups.filter (fun a => decide (ns.count a > 1)) := by
        rw [List.filter_map, List.map_map]
        exact List.map_id _
      rw [hdp'] at hdp
      have hmem : ∀ n, n ∈ dups ↔ 2 ≤ ns.count n := by
        intro n
        rw [hdp.mem_iff, List.mem_filter, List.mem_eraseDups, decide_eq_true_eq]
        constructor
        · exact fun h => h.2
        · exact fun h => ⟨List.one_le_count_iff.1 (by omega), h⟩
      have htext : (counts order ns).filterMap
          (fun (swap, count) => if count > 1 then some (natStr swap) else none)
          = dups.map natStr := by
        show _ = (((counts order ns).filter (fun e => decide (e.2 > 1))).map (·.1)).map natStr
        generalize counts order ns = l
        induction l with
        | nil => rfl
        | cons e l ih =>
          rw [List.filterMap_cons, List.filter_cons]
          by_cases he : e.2 > 1
          · simp only [he, if_true, decide_true, List.map_cons, ih]
          · simp only [he, if_false, decide_false, ih, Bool.false_eq_true]
      rw [htext, joinSpace_eq]
      refine .twice _ ns dups (dups.map natStr) hw hf' hall (by omega) ?_ ?_ hmem ?_
      · intro h0
        apply hnd
        rw [List.nodup_iff_count_le_one]
        intro n
        by_contra hn
        have := (hmem n).2 (by omega)
        rw [h0] at this
        cases this
      · exact hdp.nodup_iff.2 ((eraseDups_props _ _ (Nat.le_refl _)).1.filter _)
      · generalize dups = l
        induction l with
        | nil => exact .nil
        | cons a l ih => exact .cons (decimal_natStr a) ih
    · rw [mapM_sub ns (fun x hx => by
        have : ∀ n ∈ ns, 1 ≤ n ∧ n ≤ 5 := by simpa using h1
        exact (this x hx).1)] at h
      simp [Comb.bind_ok] at h
    · simp only [Except.ok.injEq, Answer.again.injEq] at h
      subst h
      refine .tooMany _ ns hw hf' ?_ (by omega)
      simpa using h1

theorem prize_le {w : Nat} (hw : w ≤ 5) (p : List PCard) : prize w p ≤ 4000 := by
  have ho : odds p ≤ 250 := by
    unfold odds
    repeat' split
    all_goals decide
  unfold prize
  split
  · exact le_rfl
  · calc odds p * w ≤ 250 * 5 := Nat.mul_le_mul ho hw
      _ ≤ 4000 := by decide

theorem payout_held {p : List PCard} {l : List Card} {e : Eval} {w : Nat} (h : Held p l e)
    (hw : w ≤ 5) : payout w e.class' = .ok (prize w p) := by
  obtain ⟨hn, h5, -, he⟩ := h
  obtain ⟨e', he', hp⟩ := c33_payout p hn h5 w (by omega)
  rw [he, Except.ok.injEq, Except.ok.injEq] at he'
  rw [he', hp]

theorem afterSwaps_ok {ev : Evaluator} (hev : Evaluator.new = .ok ev) (i : Input) (hi : Fair i)
    {c w : Nat} {e : Eval} {deck hand : List Card} {l : List Nat} (hc : Chooses i.line l)
    (hs : Sound (.swaps c w e deck hand)) (hb : c + w + 4000 < 2 ^ 64) :
    ∃ s out, afterSwaps ev i c w e deck hand l = .ok (s, out) ∧
      Move i.line (.swaps c w e deck hand) out s ∧ Sound s ∧ total s ≤ c + w + 4000 := by
  obtain ⟨hperm, hw1, hw5, p0, hp0⟩ := hs
  have h5 : hand.length = 5 := by
    rw [← hp0.2.2.1, deal, List.length_map, hp0.2.1]
  have hl : l.Nodup ∧ ∀ k ∈ l, k < 5 := by
    obtain ⟨s, ws, ns, -, -, -, -, h15, hnd, rfl⟩ := hc
    refine ⟨hnd.map_on ?_, ?_⟩
    · intro a ha b hb hab
      have := h15 a ha
      have := h15 b hb
      omega
    · intro k hk
      obtain ⟨n, hn, rfl⟩ := List.mem_map.1 hk
      have := h15 n hn
      omega
  obtain ⟨deck', hand', hsw, hlen, hperm', hkeep⟩ : ∃ deck' hand',
      replace i.drawSwap l deck hand = .ok (deck', hand') ∧ hand'.length = 5 ∧ (hand' ++ deck').Perm (hand ++ deck) ∧
      ∀ k, k ∉ l → hand'[k]? = hand[k]? := by
    unfold replace
    by_cases hne : l.isEmpty = true
    · rw [if_neg (by rw [hne]; simp)]
      exact ⟨deck, hand, rfl, h5, .refl _, fun _ _ => rfl⟩
    · rw [if_pos (by simpa using hne)]
      obtain ⟨deck', hand', h1, h2, -, h3, h4, -⟩ :=
        c41_swap i.drawSwap hi.1 l deck hand hl.1 (fun k hk => by rw [h5]; exact hl.2 k hk)
      exact ⟨deck', hand', h1, h2.trans h5, h3, h4⟩
  obtain ⟨p, e', hheld, heval⟩ := held_of_perm hev (hperm'.trans hperm) hlen
  have hline := c43_hand hheld
  have hcmp := c43_verdict hp0 hheld
  have hpay := payout_held hheld hw5
  have hle := prize_le hw5 p
  obtain ⟨deck'', hsh, hshp⟩ := shuffle_ok i.drawRound hi.2.1 (deck' ++ hand')
  have hshp : deck''.Perm (hand' ++ deck') := hshp.trans List.perm_append_comm
  have hall : deck''.Perm Deck.generate := (hshp.trans hperm').trans hperm
  unfold afterSwaps
  rw [hsw]
  simp only [Comb.bind_ok, heval, unwrap, hline, hpay, hcmp]
  by_cases hz : prize w p = 0
  · have hcol : collect c w (prize w p) = .ok c := by rw [collect, if_neg (by omega)]
    rw [hcol, Comb.bind_ok]
    by_cases hc0 : c = 0
    · rw [if_pos hc0]
      subst hc0
      refine ⟨_, _, rfl, ?_, ⟨rfl, hperm'.trans hperm⟩, by simp [total]⟩
      have := Move.ruin w e e' deck hand deck' hand' l p0 p hc hp0 hheld hperm' hkeep hz
      rw [hz, List.append_assoc]
      exact this
    · rw [if_neg hc0, hsh]
      refine ⟨_, _, rfl, ?_, ⟨rfl, hall, by omega⟩, by simp only [total]; omega⟩
      have := Move.lose c w e e' deck hand deck' hand' deck'' l p0 p _ hc hp0 hheld hperm' hkeep hz
        (by omega) hshp (wagerMessage_ok c)
      rw [hz, List.append_assoc]
      exact this
  · have h1 : usizeAdd w (prize w p) = .ok (w + prize w p) := by
      rw [usizeAdd, USIZE, if_pos (by omega)]
    have h2 : usizeAdd c (w + prize w p) = .ok (c + w + prize w p) := by
      rw [usizeAdd, USIZE, if_pos (by omega), Nat.add_assoc]
    have hcol : collect c w (prize w p) = .ok (c + w + prize w p) := by
      rw [collect, if_pos (by omega), h1, Comb.bind_ok, h2]
    rw [hcol, Comb.bind_ok, if_neg (by omega), hsh]
    refine ⟨_, _, rfl, ?_, ⟨rfl, hall, by omega⟩, by simp only [total]; omega⟩
    have := Move.win c w e e' deck hand deck' hand' deck'' l p0 p _ _ hc hp0 hheld hperm' hkeep
      (by omega) hshp (decimal_natStr _) (wagerMessage_ok _)
    rw [List.append_assoc]
    exact this

/-- Every line but a choice of cards makes a move, and wins nothing. -/
theorem step_calm {ev : Evaluator} (hev : Evaluator.new = .ok ev) (i : Input) (hi : Fair i)
    (s : State) (hs : Sound s)
    (hn : ∀ c w e deck hand l, s = .swaps c w e deck hand → ¬ Chooses i.line l) :
    ∃ t out, step ev i s = .ok (t, out) ∧ Move i.line s out t ∧ Sound t ∧ total t ≤ total s := by
  cases s with
  | quit c deck hand => exact ⟨_, _, rfl, .afterQuit c deck hand, hs, by simp [total]⟩
  | over c deck hand => exact ⟨_, _, rfl, .afterOver c deck hand, hs, by simp [total]⟩
  | wager c deck hand =>
    obtain ⟨rfl, hperm, hc⟩ := hs
    obtain ⟨hq, ha⟩ := c40_wager c
    rw [step]
    cases hg : get_wager c i.line with
    | quit =>
      exact ⟨_, _, rfl, .leaveWager c deck [] ((hq _).1 hg), hperm, by simp [total]⟩
    | again m =>
      obtain ⟨ln, hln⟩ : ∃ ln, i.line = some ln := by
        cases hline : i.line with
        | none => rw [hline] at hg; simp [get_wager] at hg
        | some ln => exact ⟨ln, rfl⟩
      refine ⟨_, _, rfl, .badWager c deck [] ln m _ ?_ ?_ hln (c43_wager (hln ▸ hg))
        (wagerMessage_ok c), ⟨rfl, hperm, hc⟩, by simp [total]⟩
      · intro hl
        rw [(hq _).2 hl] at hg
        exact absurd hg (by simp)
      · rintro ⟨w, s, hs, hr, h1, h5, hle⟩
        rw [hs, (ha s w).2 ⟨hr, h1, h5, hle⟩] at hg
        exact absurd hg (by simp)
    | accept w =>
      have hbets : Bets i.line c w := by
        cases hline : i.line with
        | none => rw [hline] at hg; simp [get_wager] at hg
        | some s => rw [hline] at hg; exact ⟨s, rfl, (ha s w).1 hg⟩
      obtain ⟨_, -, -, hw1, hw5, hwc⟩ := id hbets
      have hl52 : deck.length = 52 := by rw [hperm.length_eq, c21_deck.1]
      have h5 : (deck.take 5).length = 5 := by rw [List.length_take]; omega
      have hperm' : (deck.take 5 ++ deck.drop 5).Perm Deck.generate := by
        rw [List.take_append_drop]; exact hperm
      obtain ⟨p, e, hheld, heval⟩ := held_of_perm hev hperm' h5
      have hline := c43_hand hheld
      simp only
      unfold afterWager
      have hsub : usizeSub c w = .ok (c - w) := by rw [usizeSub, if_pos hwc]
      rw [hsub, Comb.bind_ok, drain_ok (by omega), Comb.bind_ok]
      simp only [List.nil_append, heval, Comb.bind_ok, unwrap, hline]
      exact ⟨_, _, rfl, .bet c w deck p e hbets hheld, ⟨hperm', hw1, hw5, p, hheld⟩, by
        simp only [total]; omega⟩
  | swaps c w e deck hand =>
    obtain ⟨-, hq, ha⟩ := c40_swaps i.order
    obtain ⟨a, hg⟩ := (c40_swaps i.order).1 i.line
    rw [step, hg, Comb.bind_ok]
    cases a with
    | quit =>
      exact ⟨_, _, rfl, .leaveSwaps c w e deck hand ((hq _).1 hg), hs.1, by
        simp only [total]; omega⟩
    | again m =>
      obtain ⟨ln, hln⟩ : ∃ ln, i.line = some ln := by
        cases hline : i.line with
        | none => rw [hline] at hg; simp [get_swaps] at hg
        | some ln => exact ⟨ln, rfl⟩
      refine ⟨_, _, rfl, .badSwaps c w e deck hand ln m ?_ ?_ hln
        (c43_swaps hi.2.2 (hln ▸ hg)), hs, by simp [total]⟩
      · intro hl
        rw [(hq _).2 hl] at hg
        exact absurd hg (by simp)
      · rintro ⟨l, s, ws, ns, hline, hne, hrest⟩
        rw [hline, (ha s l).2 ⟨hne, ws, ns, hrest⟩] at hg
        exact absurd hg (by simp)
    | accept l =>
      have hch : Chooses i.line l := by
        cases hline : i.line with
        | none => rw [hline] at hg; simp [get_swaps] at hg
        | some s =>
          rw [hline] at hg
          obtain ⟨hne, ws, ns, hrest⟩ := (ha s l).1 hg
          exact ⟨s, ws, ns, rfl, hne, hrest⟩
      exact absurd hch (hn c w e deck hand l rfl)

/-- A choice of cards goes on with the rest of the round. -/
theorem step_chosen {ev : Evaluator} (i : Input) {c w : Nat} {e : Eval} {deck hand : List Card}
    {l : List Nat} (hc : Chooses i.line l) :
    step ev i (.swaps c w e deck hand) = afterSwaps ev i c w e deck hand l := by
  obtain ⟨s, ws, ns, hline, hne, hrest⟩ := hc
  rw [step, hline, ((c40_swaps i.order).2.2 s l).2 ⟨hne, ws, ns, hrest⟩, Comb.bind_ok]

theorem step_ok {ev : Evaluator} (hev : Evaluator.new = .ok ev) (i : Input) (hi : Fair i)
    (s : State) (hs : Sound s) (hb : total s + 4000 < 2 ^ 64) :
    ∃ t out, step ev i s = .ok (t, out) ∧ Move i.line s out t ∧ Sound t ∧ total t ≤ total s + 4000 := by
  by_cases hn : ∃ c w e deck hand l, s = .swaps c w e deck hand ∧ Chooses i.line l
  · obtain ⟨c, w, e, deck, hand, l, rfl, hc⟩ := hn
    rw [step_chosen i hc]
    exact afterSwaps_ok hev i hi hc hs hb
  · obtain ⟨t, out, h1, h2, h3, h4⟩ := step_calm hev i hi s hs
      fun c w e deck hand l hs hc => hn ⟨c, w, e, deck, hand, l, hs, hc⟩
    exact ⟨t, out, h1, h2, h3, Nat.le_add_right_of_le h4⟩

theorem run_ok {ev : Evaluator} (hev : Evaluator.new = .ok ev) (is : List Input)
    (hi : ∀ i ∈ is, Fair i) (s : State) (hs : Sound s)
    (hb : total s + 4000 * is.length < 2 ^ 64) :
    ∃ t out, Game.run ev is s = .ok (t, out) ∧ Plays (is.map Input.line) s out t ∧ Sound t ∧
      total t ≤ total s + 4000 * is.length := by
  induction is generalizing s with
  | nil => exact ⟨s, [], rfl, .nil s, hs, by simp⟩
  | cons i is ih =>
    rw [List.length_cons, Nat.mul_succ] at hb
    have hle0 : total s + 4000 ≤ total s + (4000 * is.length + 4000) := by omega
    have hb0 := Nat.lt_of_le_of_lt hle0 hb
    obtain ⟨t, out, h1, hm, hst, hle⟩ := step_ok hev i (hi i (by simp)) s hs hb0
    have hle1 : total t + 4000 * is.length ≤ total s + (4000 * is.length + 4000) := by omega
    have hb1 := Nat.lt_of_le_of_lt hle1 hb
    obtain ⟨u, out', h2, hp, hsu, hle'⟩ := ih (fun j hj => hi j (by simp [hj])) t hst hb1
    refine ⟨u, out ++ out', ?_, .cons i.line _ s t u out out' hm hp, hsu, ?_⟩
    · rw [Game.run, h1, Comb.bind_ok]
      simp only
      rw [h2]
      rfl
    · rw [List.length_cons, Nat.mul_succ]
      omega

/-- C34: for every history of inputs and all draws in range, the game starts with 100 credits and a
full deck, goes on by the rules line after line, prints what the rules say and nothing else, and is in
a sound state; no unwrap, index or subtraction panics.  The only limit is that the credits stay below the largest `usize`: it takes more
than 4·10^15 lines to get there. -/
theorem c34_history (draw : Nat → Nat) (hd : ∀ k, draw k ≤ k) (inputs : List Input)
    (hi : ∀ i ∈ inputs, Fair i) (hb : 100 + 4000 * inputs.length < 2 ^ 64) :
    ∃ deck s m out, Game.main draw inputs = .ok (s, m :: out) ∧ deck.Perm Deck.generate ∧
      WagerPrompt 100 m ∧ Plays (inputs.map Input.line) (.wager 100 deck []) out s ∧ Sound s ∧
      total s ≤ 100 + 4000 * inputs.length := by
  obtain ⟨ev, hev⟩ := c36_new_ok
  obtain ⟨deck, h1, h2⟩ := c22_perm draw (fun i _ _ => hd i)
  obtain ⟨s, out, hr, hp, hs, hle⟩ := run_ok hev inputs hi (.wager 100 deck [])
    ⟨rfl, h2, by decide⟩ hb
  refine ⟨deck, s, wagerMessage STARTING_CREDITS, out, ?_, h2, wagerMessage_ok 100, hp, hs, hle⟩
  rw [Game.main, start, hev, Comb.bind_ok, h1, Comb.bind_ok]
  simp only [Comb.pure_eq_ok, Comb.bind_ok]
  show (Game.run ev inputs (.wager 100 deck []) >>= _) = _
  rw [hr]
  rfl

/-- An input of a line with draws that do not move cards. -/
def plain (line : String) : Input := ⟨some line.toList, id, id, id⟩

theorem plain_fair (line : String) : Fair (plain line) := ⟨fun _ => le_rfl, fun _ => le_rfl, fun _ => .refl _⟩

/-- C34: hand and deck together are always the 52 cards. -/
theorem c34_cards (draw : Nat → Nat) (hd : ∀ k, draw k ≤ k) (inputs : List Input)
    (hi : ∀ i ∈ inputs, Fair i) (hb : 100 + 4000 * inputs.length < 2 ^ 64) :
    ∃ s out, Game.main draw inputs = .ok (s, out) ∧ ∃ deck hand c,
      (hand ++ deck).Perm Deck.generate ∧
      (s = .wager c deck hand ∨ s = .quit c deck hand ∨ s = .over c deck hand ∨
        ∃ w e, s = .swaps c w e deck hand) := by
  obtain ⟨_, s, m, out, hm, -, -, -, hs, -⟩ := c34_history draw hd inputs hi hb
  refine ⟨s, m :: out, hm, ?_⟩
  cases s with
  | wager c deck hand =>
    obtain ⟨rfl, hp, -⟩ := hs
    exact ⟨deck, [], c, hp, .inl rfl⟩
  | swaps c w e deck hand => exact ⟨deck, hand, c, hs.1, .inr (.inr (.inr ⟨w, e, rfl⟩))⟩
  | quit c deck hand => exact ⟨deck, hand, c, hs, .inr (.inl rfl)⟩
  | over c deck hand => exact ⟨deck, hand, c, hs.2, .inr (.inr (.inl rfl))⟩

example : ∃ s out, Game.main id (["2", "1 3"].map plain) = .ok (s, out) ∧ ∃ deck hand c,
    (hand ++ deck).Perm Deck.generate ∧
    (s = .wager c deck hand ∨ s = .quit c deck hand ∨ s = .over c deck hand ∨
      ∃ w e, s = .swaps c w e deck hand) :=
  c34_cards id (fun _ => le_rfl) _ (by simp [plain_fair]) (by decide)

/-- C34: the game ends by itself exactly when the credits reach zero: it never asks for a wager
without credits, and when it is over there are none. -/
theorem c34_over (draw : Nat → Nat) (hd : ∀ k, draw k ≤ k) (inputs : List Input)
    (hi : ∀ i ∈ inputs, Fair i) (hb : 100 + 4000 * inputs.length < 2 ^ 64) :
    ∃ s out, Game.main draw inputs = .ok (s, out) ∧
      (∀ c deck hand, s = .wager c deck hand → 0 < c) ∧
      (∀ c deck hand, s = .over c deck hand → c = 0) := by
  obtain ⟨_, s, m, out, hm, -, -, -, hs, -⟩ := c34_history draw hd inputs hi hb
  refine ⟨s, m :: out, hm, ?_, ?_⟩
  · rintro c deck hand rfl
    exact hs.2.2
  · rintro c deck hand rfl
    exact hs.1

example : ∃ s out, Game.main id (["2", "1 3"].map plain) = .ok (s, out) ∧
    (∀ c deck hand, s = .wager c deck hand → 0 < c) ∧ ∀ c deck hand, s = .over c deck hand → c = 0 :=
  c34_over id (fun _ => le_rfl) _ (by simp [plain_fair]) (by decide)

/-! ## The verdict on the new hand -/

theorem cmpList_take (n : Nat) (a b : List Nat) (o : Ordering) (ho : o ≠ .eq)
    (h : cmpList (a.take n) (b.take n) = o) : cmpList a b = o := by
  induction n generalizing a b with
  | zero => exact absurd h.symm ho
  | succ n ih =>
    cases a with
    | nil => cases b with
      | nil => exact h
      | cons y b => exact h
    | cons x a => cases b with
      | nil => exact h
      | cons y b =>
        simp only [List.take_succ_cons, cmpList] at h ⊢
        cases hc : compare x y with
        | eq => rw [hc] at h; exact ih a b h
        | lt => rw [hc] at h; exact h
        | gt => rw [hc] at h; exact h

theorem cmpWorth_told {a b : Nat × List Nat} {o : Ordering} (ho : o ≠ .eq)
    (h : cmpWorth (told a) (told b) = o) : cmpWorth a b = o := by
  simp only [cmpWorth, told] at h ⊢
  cases hc : compare a.1 b.1 with
  | lt => rw [hc] at h; exact h
  | gt => rw [hc] at h; exact h
  | eq =>
    rw [hc] at h
    rw [Nat.compare_eq_eq.1 hc] at h
    exact cmpList_take _ _ _ _ ho h

theorem class_cmp_eq_iff {a b : EvalClass} : a.cmp b = .eq ↔ a = b := by
  have hinj : ∀ r r' : Rank, r.discr = r'.discr → r = r' := by
    intro r r'
    cases r <;> cases r' <;> decide
  constructor
  · intro h
    rw [class_cmp_eq, cmpWorth_eq_iff, classKey, classKey, Prod.mk.injEq] at h
    obtain ⟨h1, h2⟩ := h
    have h2 := (List.map_injective_iff.2 (fun r r' => hinj r r')) h2
    cases a <;> cases b <;> simp [EvalClass.discr, EvalClass.fields] at h1 h2 ⊢ <;> exact h2
  · rintro rfl
    rw [class_cmp_eq, cmpWorth_self]

/-- C43: a hand called better beats the old one, a hand called worse loses to it, and nothing is said
exactly when the two have the same class. -/
theorem c43_verdict_true (p p' : List PCard) (hn : p.Nodup) (h5 : p.length = 5) (hn' : p'.Nodup)
    (h5' : p'.length = 5) :
    ("You got a better hand!".toList ∈ verdict p p' → Beats p' p) ∧
    ("You got a worse hand...".toList ∈ verdict p p' → Beats p p') ∧
    (verdict p p' = [] ↔ classOf p' = classOf p) := by
  have m := (isBest_five hn h5).mem_ladder
  have m' := (isBest_five hn' h5').mem_ladder
  have hne : "You got a better hand!".toList ≠ "You got a worse hand...".toList := by decide
  unfold verdict
  refine ⟨?_, ?_, ?_⟩
  · intro h
    cases hc : cmpWorth (told (strength p')) (told (strength p)) with
    | gt => exact cmpWorth_told (by decide) hc
    | eq => rw [hc] at h; simp at h
    | lt => rw [hc] at h; exact absurd (List.mem_singleton.1 h) hne
  · intro h
    cases hc : cmpWorth (told (strength p')) (told (strength p)) with
    | gt => rw [hc] at h; exact absurd (List.mem_singleton.1 h).symm hne
    | eq => rw [hc] at h; simp at h
    | lt =>
      exact cmpWorth_told (by decide) (cmpWorth_lt_iff.1 hc)
  · rw [classOf, classOf, ← class_cmp_eq_iff, class_cmp_told m' m]
    cases cmpWorth (told (strength p')) (told (strength p)) <;> simp

/-- A pair of nines with a better third card beats one with a worse third card, and nothing is said. -/
example :
    let p : List PCard := [(.Nine, .Clubs), (.Nine, .Hearts), (.Two, .Clubs), (.Three, .Clubs),
      (.Four, .Clubs)]
    let p' : List PCard := [(.Nine, .Clubs), (.Nine, .Hearts), (.Ace, .Clubs), (.Three, .Clubs),
      (.Four, .Clubs)]
    verdict p p' = [] ∧ Beats p' p := by
  unfold Beats verdict
  decide +kernel

/-- The hypotheses of `c43_wager` and `c43_swaps` hold of such lines. -/
example : get_wager 3 (some "4".toList)
      = .again "Not enough credits! Got 4 but you have 3.\n".toList ∧
    get_wager 3 (some "+09".toList)
      = .again "Invalid wager amount '9'. Expected amount from 1 to 5.\n".toList ∧
    get_swaps id (some "2 3  2".toList)
      = .ok (.again "Cannot provide duplicate cards to swap: 2.\n".toList) ∧
    get_swaps id (some "1 2 3 4 5 1".toList)
      = .ok (.again "Error parsing input '1 2 3 4 5 1'. Specified more than 5 cards to swap.\n".toList)
    := by
  refine ⟨?_, ?_, ?_, ?_⟩ <;> decide +kernel

/-! ## Non-vacuity -/

/-- A line that bets five credits is accepted, and takes them. -/
example : ∃ e deck hand out, Game.main id [plain "many", plain "5"]
    = .ok (.swaps 95 5 e deck hand, out) := by
  obtain ⟨deck, s, m, out, hm, -, -, hp, -, -⟩ := c34_history id (fun _ => le_rfl)
    [plain "many", plain "5"] (by simp [plain_fair]) (by decide)
  have hb5 : Bets (some "5".toList) 100 5 :=
    ⟨_, rfl, .inl ⟨by decide, by decide, by decide⟩, by decide, by decide, by decide⟩
  have hno : ¬ ∃ w, Bets (some "many".toList) 100 w := by
    rintro ⟨w, s, h, hr, -⟩
    rw [Option.some.injEq] at h
    subst h
    rcases hr with hr | ⟨d, h, -⟩
    · exact absurd (hr.2.1 'm' (by decide)).2 (by decide)
    · revert h; simp
  have hl1 : ¬ Leaves (some "many".toList) := by unfold Leaves; decide
  have hl5 : ¬ Leaves (some "5".toList) := by unfold Leaves; decide
  cases hp with
  | cons _ _ _ t _ _ _ hm1 hp =>
    cases hm1 with
    | leaveWager _ _ _ h => exact absurd h hl1
    | bet _ w _ _ _ h => exact absurd ⟨w, h⟩ hno
    | badWager _ _ _ _ _ _ _ _ _ _ _ =>
      cases hp with
      | cons _ _ _ u _ _ _ hm2 hp =>
        cases hp
        cases hm2 with
        | leaveWager _ _ _ h => exact absurd h hl5
        | badWager _ _ _ _ _ _ _ h _ _ _ => exact absurd ⟨5, hb5⟩ h
        | bet _ w _ p e h _ =>
          have : w = 5 := by
            obtain ⟨s, hs, hr, -⟩ := h
            rw [show (plain "5").line = some "5".toList from rfl, Option.some.injEq] at hs
            subst hs
            rcases hr with hr | ⟨d, h, -⟩
            · exact hr.2.2.symm.trans (by decide)
            · revert h; simp
          subst this
          exact ⟨_, _, _, _, hm⟩

end Poker
