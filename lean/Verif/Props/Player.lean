import Verif.Props.Optimal
import Verif.Props.Session
import Verif.Props.Repl
import Verif.Spec.Player

/-! # The best way to play for any time: C63 -/

namespace Poker
open Rules Text Tab Counts Nat Shuffles Game Sets

/-- The credits after `n` lines. -/
noncomputable def final (ev : Evaluator) (P : Player) :
    (n : Nat) → (Fin n → Draws × Draws) → List (List Str) → State → Nat
  | 0, _, _, s => s.credits
  | n + 1, ds, seen, s =>
    match Game.step ev { P seen with drawSwap := (ds 0).1.stream, drawRound := (ds 0).2.stream } s with
    | .ok (s₁, out) => final ev P n (fun i => ds i.succ) (seen ++ [out]) s₁
    | .error _ => 0

/-- The lines can be entered without a panic. -/
def Goes (ev : Evaluator) (P : Player) (n : Nat) (ds : Fin n → Draws × Draws) (seen : List (List Str))
    (s : State) : Prop :=
  ∃ t, Played ev P n ds seen s t ∧ t.credits = final ev P n ds seen s

theorem final_step {ev : Evaluator} {P : Player} {n : Nat} {ds : Fin (n + 1) → Draws × Draws}
    {seen : List (List Str)} {s s₁ : State} {out : List Str}
    (h : Game.step ev { P seen with drawSwap := (ds 0).1.stream, drawRound := (ds 0).2.stream } s
      = .ok (s₁, out)) :
    final ev P (n + 1) ds seen s = final ev P n (fun i => ds i.succ) (seen ++ [out]) s₁ := by
  rw [final, h]

theorem goes_step {ev : Evaluator} {P : Player} {n : Nat} {ds : Fin (n + 1) → Draws × Draws}
    {seen : List (List Str)} {s s₁ : State} {out : List Str}
    (h : Game.step ev { P seen with drawSwap := (ds 0).1.stream, drawRound := (ds 0).2.stream } s
      = .ok (s₁, out)) (hg : Goes ev P n (fun i => ds i.succ) (seen ++ [out]) s₁) :
    Goes ev P (n + 1) ds seen s := by
  obtain ⟨t, h1, h2⟩ := hg
  exact ⟨t, ⟨s₁, out, h, h1⟩, by rw [h2, final_step h]⟩

theorem played_unique {ev : Evaluator} {P : Player} : ∀ {n : Nat} {ds : Fin n → Draws × Draws}
    {seen : List (List Str)} {s t t' : State}, Played ev P n ds seen s t → Played ev P n ds seen s t' →
    t = t'
  | 0, _, _, _, _, _, h, h' => h.trans h'.symm
  | n + 1, ds, seen, s, t, t', h, h' => by
    obtain ⟨s₁, out, h1, h2⟩ := h
    obtain ⟨s₁', out', h1', h2'⟩ := h'
    rw [h1, Except.ok.injEq, Prod.mk.injEq] at h1'
    obtain ⟨rfl, rfl⟩ := h1'
    exact played_unique h2 h2'

/-- Nothing happens any more. -/
def Ended : State → Prop
  | .quit _ _ _ => True
  | .over _ _ _ => True
  | _ => False

theorem ended_step {s : State} (h : Ended s) (ev : Evaluator) (i : Input) :
    Game.step ev i s = .ok (s, []) := by
  cases s with
  | quit => rfl
  | over => rfl
  | wager => cases h
  | swaps => cases h

theorem ended {ev : Evaluator} {P : Player} {s : State} (hs : Ended s) : ∀ (n : Nat)
    (ds : Fin n → Draws × Draws) (seen : List (List Str)),
    final ev P n ds seen s = s.credits ∧ Goes ev P n ds seen s
  | 0, _, _ => ⟨rfl, s, rfl, rfl⟩
  | n + 1, ds, seen => by
    have h := ended_step hs ev { P seen with drawSwap := (ds 0).1.stream, drawRound := (ds 0).2.stream }
    obtain ⟨h1, h2⟩ := ended hs n (fun i => ds i.succ) (seen ++ [[]])
    exact ⟨(final_step h).trans h1, goes_step h h2⟩

/-- From a choice of cards to the next wager, whatever the last shuffle. -/
theorem swaps_full {M : Nat} (hM : M = 2 ^ 64) {ev : Evaluator} (hev : Evaluator.new = .ok ev) (i : Input)
    {c w : Nat} {h g h' g' : List PCard} {e : Eval} {s : List Nat} (hc : Chooses i.line s)
    (hr : replace i.drawSwap s (deal g) (deal h) = .ok (deal g', deal h'))
    (hn : h'.Nodup) (h5 : h'.length = 5) (hw1 : 1 ≤ w) (hw : w ≤ 5) (hb : c + w + 4000 < M) :
    ∃ out, ∀ d : Draws, ∃ s, Game.step ev { i with drawRound := d.stream } (.swaps c w e (deal g) (deal h))
        = .ok (s, out) ∧ s = if c + back w (setKind h'.toFinset) = 0
          then .over (c + back w (setKind h'.toFinset)) (deal g') (deal h')
          else .wager (c + back w (setKind h'.toFinset)) (deal (result (g' ++ h') d)) [] := by
  obtain ⟨e', hh'⟩ := evaluate_deal hn h5
  have heval : ev.evaluate (deal h') = .ok (.ok e') := by
    have := hh'.2.2.2
    rwa [evaluateHand, hev, Comb.bind_ok] at this
  obtain ⟨ln, ws, ns, hln, hq, hrest⟩ := hc
  have hg : get_swaps i.order i.line = .ok (.accept s) := by
    rw [hln]
    exact ((c40_swaps i.order).2.2 ln s).2 ⟨hq, ws, ns, hrest⟩
  have hline := c43_hand hh'
  have hpay := payout_held hh' hw
  have hle := prize_le hw h'
  have hsh : ∀ d : Draws, Deck.shuffle d.stream (deal g' ++ deal h') = .ok (deal (result (g' ++ h') d)) := by
    intro d
    have : deal g' ++ deal h' = deal (g' ++ h') := by rw [deal, deal, deal, List.map_append]
    rw [this, (shuffle_result _ d).1, deal, result_map]
    rfl
  rw [setKind_list hn, back_prize hn h5 hw1 hw]
  have hcol : collect c w (prize w h') = .ok (c + if prize w h' = 0 then 0 else w + prize w h') := by
    by_cases hz : prize w h' = 0
    · rw [collect, if_neg (by omega), if_pos hz]
      rfl
    · have h1 : usizeAdd w (prize w h') = .ok (w + prize w h') := by
        rw [usizeAdd, USIZE, ← hM, if_pos (by omega)]
      have h2 : usizeAdd c (w + prize w h') = .ok (c + (w + prize w h')) := by
        rw [usizeAdd, USIZE, ← hM, if_pos (by omega)]
      rw [collect, if_pos (by omega), h1, Comb.bind_ok, h2, if_neg hz]
  generalize (if prize w h' = 0 then 0 else w + prize w h') = v at *
  by_cases hz : c + v = 0
  · refine ⟨?_, fun d => ⟨_, ?_, (if_pos hz).symm⟩⟩
    rotate_left
    · simp only [Game.step, hg, Comb.bind_ok]
      unfold afterSwaps
      simp only [hr, Comb.bind_ok, heval, unwrap, hline, hpay, hcol, hz, if_true]
      rfl
  · refine ⟨?_, fun d => ⟨_, ?_, (if_neg hz).symm⟩⟩
    rotate_left
    · simp only [Game.step, hg, Comb.bind_ok]
      unfold afterSwaps
      simp only [hr, Comb.bind_ok, heval, unwrap, hline, hpay, hcol, if_neg hz, hsh]
      rfl

/-- From a wager to the choice of cards. -/
theorem wager_full {ev : Evaluator} (hev : Evaluator.new = .ok ev) (i : Input) {c w : Nat}
    (hb : Bets i.line c w) {m : List PCard} (hn : m.Nodup) (hp : m.toFinset = pack) :
    ∃ e, Game.step ev i (.wager c (deal m) [])
      = .ok (.swaps (c - w) w e (deal (m.drop 5)) (deal (m.take 5)),
        [handText (m.take 5), numbersLine, swapsMessage]) ∧ Held (m.take 5) (deal (m.take 5)) e := by
  obtain ⟨ln, hs, hr⟩ := hb
  have h52 : m.length = 52 := by rw [← List.toFinset_card_of_nodup hn, hp, pack_card]
  have h5 : (m.take 5).length = 5 := by rw [List.length_take]; omega
  obtain ⟨e, hheld⟩ := evaluate_deal (hn.sublist (List.take_sublist 5 m)) h5
  have heval : ev.evaluate (deal (m.take 5)) = .ok (.ok e) := by
    have := hheld.2.2.2
    rwa [evaluateHand, hev, Comb.bind_ok] at this
  have hline := c43_hand hheld
  have hsub : usizeSub c w = .ok (c - w) := by rw [usizeSub, if_pos hr.2.2.2]
  have htake : (deal m).take 5 = deal (m.take 5) := by rw [deal, deal, List.map_take]
  have hdrop : (deal m).drop 5 = deal (m.drop 5) := by rw [deal, deal, List.map_drop]
  have hlen : (deal m).length = 52 := by rw [deal, List.length_map, h52]
  refine ⟨e, ?_, hheld⟩
  rw [Game.step, hs, ((c40_wager c).2 ln w).2 hr]
  simp only
  unfold afterWager
  rw [hsub, Comb.bind_ok, drain_ok (by omega), Comb.bind_ok]
  simp only [List.nil_append, htake, hdrop, heval, Comb.bind_ok, unwrap, hline]
  rfl

section
variable {α : Type} [Fintype α]

theorem sum_skip {n : Nat} (f : (Fin n → α × α) → Nat) :
    ∑ ds : Fin (n + 1) → α × α, f (fun i => ds i.succ) = Fintype.card α ^ 2 * ∑ ds, f ds := by
  rw [sum_rounds (fun _ ds => f ds)]
  simp only [sum_const]
  ring

theorem sum_same (n c : Nat) : ∑ _ds : Fin n → α × α, c = Fintype.card α ^ (2 * n) * c := by
  rw [sum_const, Fintype.card_fun, Fintype.card_prod, Fintype.card_fin, ← Nat.pow_two, ← Nat.pow_mul]

/-- The player leaves. -/
theorem le_quit {n c Q B : Nat} (h : c * Q ≤ B) :
    (∑ _d : α, ∑ _ds : Fin n → α × α, c) * Q ≤ Fintype.card α ^ (2 * n + 1) * B := by
  rw [sum_same, sum_const]
  calc _ = Fintype.card α ^ (2 * n + 1) * (c * Q) := by ring
    _ ≤ _ := Nat.mul_le_mul_left _ h

theorem le_quit' {n c Q B : Nat} (h : c * Q ≤ B) :
    (∑ _ds : Fin n → α × α, c) * Q ≤ Fintype.card α ^ (2 * n) * B := by
  rw [sum_same, Nat.mul_assoc]
  exact Nat.mul_le_mul_left _ h

/-- The line is refused. -/
theorem le_again {n Q A B : Nat} (f : α → (Fin n → α × α) → Nat)
    (h : (∑ d, ∑ ds, f d ds) * Q ≤ Fintype.card α ^ (2 * n + 1) * A) (hAB : A ≤ B) :
    (∑ d, ∑ ds : Fin (n + 1) → α × α, f d (fun i => ds i.succ)) * Q
      ≤ Fintype.card α ^ (2 * (n + 1) + 1) * B := by
  simp only [sum_skip, ← Finset.mul_sum]
  calc _ = Fintype.card α ^ 2 * ((∑ d, ∑ ds, f d ds) * Q) := by ring
    _ ≤ Fintype.card α ^ 2 * (Fintype.card α ^ (2 * n + 1) * B) :=
      Nat.mul_le_mul_left _ (h.trans (Nat.mul_le_mul_left _ hAB))
    _ = _ := by ring

theorem le_again' {n Q A B : Nat} (f : (Fin n → α × α) → Nat)
    (h : (∑ ds, f ds) * Q ≤ Fintype.card α ^ (2 * n) * A) (hAB : A ≤ B) :
    (∑ ds : Fin (n + 1) → α × α, f (fun i => ds i.succ)) * Q ≤ Fintype.card α ^ (2 * (n + 1)) * B := by
  rw [sum_skip]
  calc _ = Fintype.card α ^ 2 * ((∑ ds, f ds) * Q) := by ring
    _ ≤ Fintype.card α ^ 2 * (Fintype.card α ^ (2 * n) * B) :=
      Nat.mul_le_mul_left _ (h.trans (Nat.mul_le_mul_left _ hAB))
    _ = _ := by ring

/-- A wager is made. -/
theorem le_bet {n Q A B : Nat} (f : α → (Fin n → α × α) → Nat) (b : α → Nat)
    (h : ∀ d, (∑ ds, f d ds) * Q ≤ Fintype.card α ^ (2 * n) * b d)
    (hb : ∑ d, b d = Fintype.card α * A) (hAB : A ≤ B) :
    (∑ d, ∑ ds : Fin (n + 1) → α × α, f d (fun i => ds i.succ)) * Q
      ≤ Fintype.card α ^ (2 * (n + 1) + 1) * B := by
  refine le_again (A := A) f ?_ hAB
  calc _ = ∑ d, (∑ ds, f d ds) * Q := by rw [Finset.sum_mul]
    _ ≤ ∑ d, Fintype.card α ^ (2 * n) * b d := Finset.sum_le_sum (fun d _ => h d)
    _ = Fintype.card α ^ (2 * n) * (Fintype.card α * A) := by rw [← Finset.mul_sum, hb]
    _ = _ := by ring

/-- Cards are chosen. -/
theorem le_swap {n Q B : Nat} (f : α → α → (Fin n → α × α) → Nat) (b : α → Nat)
    (h : ∀ a, (∑ d, ∑ ds, f a d ds) * Q ≤ Fintype.card α ^ (2 * n + 1) * b a)
    (hb : ∑ a, b a ≤ Fintype.card α * B) :
    (∑ ds : Fin (n + 1) → α × α, f (ds 0).1 (ds 0).2 (fun i => ds i.succ)) * Q
      ≤ Fintype.card α ^ (2 * (n + 1)) * B := by
  rw [sum_rounds (fun p ds => f p.1 p.2 ds)]
  calc _ = ∑ a, (∑ d, ∑ ds, f a d ds) * Q := by rw [Finset.sum_mul]
    _ ≤ ∑ a, Fintype.card α ^ (2 * n + 1) * b a := Finset.sum_le_sum (fun d _ => h d)
    _ ≤ Fintype.card α ^ (2 * n + 1) * (Fintype.card α * B) := by
      rw [← Finset.mul_sum]
      exact Nat.mul_le_mul_left _ hb
    _ = _ := by ring

theorem sum_bet {n a X G : Nat} (g : α → Nat) (h : (∑ d, g d) * 2598960 = Fintype.card α * (4 * X)) :
    ∑ d, (a + if n = 0 then 0 else g d * 649740 + (n - 1) / 2 * G)
      = Fintype.card α * (a + if n = 0 then 0 else X + (n - 1) / 2 * G) := by
  rw [Finset.sum_add_distrib, sum_const, Nat.mul_add]
  refine congrArg (Fintype.card α * a + ·) ?_
  split
  · simp
  · rw [Finset.sum_add_distrib, sum_const, ← Finset.sum_mul, Nat.mul_add]
    refine congrArg (· + _) ?_
    generalize (∑ d, g d) = S at *
    generalize Fintype.card α = N at *
    refine Nat.eq_of_mul_eq_mul_left (n := 4) (by norm_num) ?_
    calc 4 * (S * 649740) = S * 2598960 := by ring
      _ = 4 * (N * X) := by rw [h]; ring

theorem sum_swap {c x y : Nat} (v : α → Nat) (h : (∑ d, v d) * 12994800 ≤ Fintype.card α * x) :
    ∑ d, ((c + v d) * 8443241352000 + y)
      ≤ Fintype.card α * (c * 8443241352000 + (x * 649740 + y)) := by
  have e : ∑ d, ((c + v d) * 8443241352000 + y)
      = Fintype.card α * (c * 8443241352000 + y) + (∑ d, v d) * 12994800 * 649740 := by
    simp only [Nat.add_mul, Finset.sum_add_distrib, sum_const, Finset.sum_mul]
    have : ∀ d, v d * 12994800 * 649740 = v d * 8443241352000 := fun d => by ring
    simp only [this]
    ring
  rw [e]
  calc _ ≤ Fintype.card α * (c * 8443241352000 + y) + Fintype.card α * x * 649740 :=
      Nat.add_le_add_left (Nat.mul_le_mul_right _ h) _
    _ = _ := by ring

end

theorem gain_bet {c w n : Nat} (hw : w ≤ 5) (hc : w ≤ c) :
    (c - w) * 8443241352000 + (if n = 0 then 0 else bestBack w + (n - 1) / 2 * bestGain)
      ≤ c * 8443241352000 + (n + 1) / 2 * bestGain := by
  have h1 : bestBack w ≤ w * 8443241352000 + bestGain := by
    have : w = 0 ∨ w = 1 ∨ w = 2 ∨ w = 3 ∨ w = 4 ∨ w = 5 := by omega
    rcases this with rfl | rfl | rfl | rfl | rfl | rfl <;> decide
  have h2 : (c - w) * 8443241352000 + w * 8443241352000 = c * 8443241352000 := by
    rw [← Nat.add_mul, Nat.sub_add_cancel hc]
  split
  · omega
  · have h3 : (n + 1) / 2 = (n - 1) / 2 + 1 := by omega
    rw [h3, Nat.add_mul, Nat.one_mul]
    generalize (n - 1) / 2 * bestGain = z
    generalize bestGain = g at *
    omega

theorem room_again {c n M : Nat} (h : c + 4000 * ((n + 1) / 2) < M) : c + 4000 * (n / 2) < M := by
  omega

theorem room_bet {c w n M : Nat} (hw : w ≤ c) (h : c + 4000 * ((n + 1) / 2) < M) :
    c - w + w + 4000 * ((n + 1) / 2) < M := by
  omega

theorem room_refused {c w n M : Nat} (h : c + w + 4000 * ((n + 1 + 1) / 2) < M) :
    c + w + 4000 * ((n + 1) / 2) < M := by
  omega

theorem room_swap {c w n M : Nat} (h : c + w + 4000 * ((n + 1 + 1) / 2) < M) : c + w + 4000 < M := by
  omega

theorem room_next {c w n v M : Nat} (h : c + w + 4000 * ((n + 1 + 1) / 2) < M) (hv : v ≤ w + 4000) :
    c + v + 4000 * (n / 2) < M := by
  omega

theorem back_most {w k : Nat} (hw : w ≤ 5) (hk : k ≤ 10) : back w k ≤ w + 4000 := by
  have hw' : w = 0 ∨ w = 1 ∨ w = 2 ∨ w = 3 ∨ w = 4 ∨ w = 5 := by omega
  have hk : k = 0 ∨ k = 1 ∨ k = 2 ∨ k = 3 ∨ k = 4 ∨ k = 5 ∨ k = 6 ∨ k = 7 ∨ k = 8 ∨ k = 9 ∨ k = 10 := by omega
  rcases hw' with rfl | rfl | rfl | rfl | rfl | rfl <;>
    rcases hk with rfl | rfl | rfl | rfl | rfl | rfl | rfl | rfl | rfl | rfl | rfl <;> decide

/-- The bounds after `n` lines, from a request for a wager and from a request for cards. -/
theorem bounds {M : Nat} (hM : M = 2 ^ 64) {ev : Evaluator} (hev : Evaluator.new = .ok ev) (P : Player)
    (n : Nat) :
    (∀ (seen : List (List Str)) (L : List PCard) (c : Nat), L.Nodup → L.toFinset = pack →
      c + 4000 * (n / 2) < M →
      (∀ d ds, Goes ev P n ds seen (.wager c (deal (result L d)) [])) ∧
      (∑ d, ∑ ds, final ev P n ds seen (.wager c (deal (result L d)) [])) * 8443241352000
        ≤ Fintype.card Draws ^ (2 * n + 1) * (c * 8443241352000 + n / 2 * bestGain)) ∧
    (∀ (seen : List (List Str)) (h g : List PCard) (c w : Nat) (e : Eval), (h ++ g).Nodup →
      (h ++ g).toFinset = pack → Held h (deal h) e → 1 ≤ w → w ≤ 5 → c + w + 4000 * ((n + 1) / 2) < M →
      (∀ ds, Goes ev P n ds seen (.swaps c w e (deal g) (deal h))) ∧
      (∑ ds, final ev P n ds seen (.swaps c w e (deal g) (deal h))) * 8443241352000
        ≤ Fintype.card Draws ^ (2 * n) * (c * 8443241352000 + if n = 0 then 0 else
          w * Hold.bestOf (Hold.prizeOf (tabsFor w)) h.toFinset * 649740 + (n - 1) / 2 * bestGain)) := by
  induction n with
  | zero =>
    refine ⟨fun seen L c _ _ _ => ⟨fun d ds => ⟨_, rfl, rfl⟩, ?_⟩,
      fun seen h g c w e _ _ _ _ _ _ => ⟨fun ds => ⟨_, rfl, rfl⟩, ?_⟩⟩
    · exact le_quit (c := c) (Nat.le_add_right _ _)
    · exact le_quit' (c := c) (Nat.le_add_right _ _)
  | succ n ih =>
    obtain ⟨ihw, ihs⟩ := ih
    constructor
    · intro seen L c hLn hLp hc
      have hrn : ∀ d, (result L d).Nodup := fun d => (shuffle_result L d).2.nodup_iff.2 hLn
      have hrp : ∀ d, (result L d).toFinset = pack := fun d => by
        rw [List.toFinset_eq_of_perm _ _ (shuffle_result L d).2, hLp]
      cases hg : get_wager c (P seen).line with
      | quit =>
        have hstep : ∀ (d : Draws) (ds : Fin (n + 1) → Draws × Draws), Game.step ev
            { P seen with drawSwap := (ds 0).1.stream, drawRound := (ds 0).2.stream }
            (.wager c (deal (result L d)) []) = .ok (.quit c (deal (result L d)) [], []) := by
          intro d ds
          rw [Game.step, hg]
        have hend := fun d (ds : Fin n → Draws × Draws) =>
          ended (ev := ev) (P := P) (s := .quit c (deal (result L d)) []) trivial n ds (seen ++ [[]])
        refine ⟨fun d ds => goes_step (hstep d ds) (hend d _).2, ?_⟩
        have e : ∀ (d : Draws) (ds : Fin (n + 1) → Draws × Draws),
            final ev P (n + 1) ds seen (.wager c (deal (result L d)) []) = c :=
          fun d ds => (final_step (hstep d ds)).trans (hend d _).1
        simp only [e]
        exact le_quit (Nat.le_add_right _ _)
      | again m =>
        have hstep : ∀ (d : Draws) (ds : Fin (n + 1) → Draws × Draws), Game.step ev
            { P seen with drawSwap := (ds 0).1.stream, drawRound := (ds 0).2.stream }
            (.wager c (deal (result L d)) [])
            = .ok (.wager c (deal (result L d)) [], [m, wagerMessage c]) := by
          intro d ds
          rw [Game.step, hg]
        obtain ⟨h1, h2⟩ := ihw (seen ++ [[m, wagerMessage c]]) L c hLn hLp (room_again hc)
        refine ⟨fun d ds => goes_step (hstep d ds) (h1 d _), ?_⟩
        simp only [fun d ds => final_step (hstep d ds)]
        exact le_again (fun d ds => final ev P n ds (seen ++ [[m, wagerMessage c]])
          (.wager c (deal (result L d)) [])) h2
          (Nat.add_le_add_left (Nat.mul_le_mul_right _ (Nat.div_le_div_right (Nat.le_succ n))) _)
      | accept w =>
        have hb : Bets (P seen).line c w := by
          cases hl : (P seen).line with
          | none =>
            rw [hl] at hg
            cases hg
          | some ln =>
            rw [hl] at hg
            exact ⟨ln, rfl, ((c40_wager c).2 ln w).1 hg⟩
        obtain ⟨-, -, -, hw1, hw5, hwc⟩ := id hb
        choose e hstep hheld using fun d => wager_full hev (P seen) hb (hrn d) (hrp d)
        have hstep' : ∀ (d : Draws) (ds : Fin (n + 1) → Draws × Draws), Game.step ev
            { P seen with drawSwap := (ds 0).1.stream, drawRound := (ds 0).2.stream }
            (.wager c (deal (result L d)) []) = _ := fun d ds => hstep d
        have key := fun d => ihs (seen ++ [[handText ((result L d).take 5), numbersLine, swapsMessage]])
          ((result L d).take 5) ((result L d).drop 5) (c - w) w (e d)
          (by rw [List.take_append_drop]; exact hrn d) (by rw [List.take_append_drop]; exact hrp d)
          (hheld d) hw1 hw5 (room_bet hwc hc)
        refine ⟨fun d ds => goes_step (hstep' d ds) ((key d).1 _), ?_⟩
        simp only [fun d ds => final_step (hstep' d ds)]
        exact le_bet (fun d ds => final ev P n ds
          (seen ++ [[handText ((result L d).take 5), numbersLine, swapsMessage]])
          (.swaps (c - w) w (e d) (deal ((result L d).drop 5)) (deal ((result L d).take 5)))) _
          (fun d => (key d).2) (sum_bet _ (best_sum hLn hLp w)) (gain_bet hw5 hwc)
    · intro seen h g c w e hn hp hheld hw1 hw5 hc
      cases hg : get_swaps (P seen).order (P seen).line with
      | error p =>
        obtain ⟨a, ha⟩ := (c40_swaps (P seen).order).1 (P seen).line
        rw [hg] at ha
        cases ha
      | ok a =>
        cases a with
        | quit =>
          have hstep : ∀ (ds : Fin (n + 1) → Draws × Draws), Game.step ev
              { P seen with drawSwap := (ds 0).1.stream, drawRound := (ds 0).2.stream }
              (.swaps c w e (deal g) (deal h)) = .ok (.quit c (deal g) (deal h), []) := by
            intro ds
            rw [Game.step, hg]
            rfl
          have hend := fun (ds : Fin n → Draws × Draws) =>
            ended (ev := ev) (P := P) (s := .quit c (deal g) (deal h)) trivial n ds (seen ++ [[]])
          refine ⟨fun ds => goes_step (hstep ds) (hend _).2, ?_⟩
          have e : ∀ (ds : Fin (n + 1) → Draws × Draws),
              final ev P (n + 1) ds seen (.swaps c w e (deal g) (deal h)) = c :=
            fun ds => (final_step (hstep ds)).trans (hend _).1
          simp only [e]
          exact le_quit' (Nat.le_add_right _ _)
        | again m =>
          have hstep : ∀ (ds : Fin (n + 1) → Draws × Draws), Game.step ev
              { P seen with drawSwap := (ds 0).1.stream, drawRound := (ds 0).2.stream }
              (.swaps c w e (deal g) (deal h))
              = .ok (.swaps c w e (deal g) (deal h), [m, swapsMessage]) := by
            intro ds
            rw [Game.step, hg]
            rfl
          obtain ⟨h1, h2⟩ := ihs (seen ++ [[m, swapsMessage]]) h g c w e hn hp hheld hw1 hw5
            (room_refused hc)
          refine ⟨fun ds => goes_step (hstep ds) (h1 _), ?_⟩
          simp only [fun ds => final_step (hstep ds)]
          refine le_again' _ h2 (Nat.add_le_add_left ?_ _)
          rw [if_neg (Nat.succ_ne_zero n)]
          split
          · exact Nat.zero_le _
          · exact Nat.add_le_add_left (Nat.mul_le_mul_right _ (Nat.div_le_div_right (by omega))) _
        | accept s =>
          have hch : Chooses (P seen).line s := by
            cases hl : (P seen).line with
            | none =>
              rw [hl] at hg
              cases hg
            | some ln =>
              rw [hl] at hg
              obtain ⟨hq, ws, ns, hrest⟩ := ((c40_swaps _).2.2 ln s).1 hg
              exact ⟨ln, ws, ns, rfl, hq, hrest⟩
          have h5 := hheld.2.1
          have hpos := chooses_positions hch
          obtain ⟨hand, hsec, hsum⟩ := second_any hn hp h5 hpos
          choose g' hrep hn' h5' using hsec
          choose out hstep using fun d₂ : Draws => swaps_full hM hev { P seen with drawSwap := d₂.stream }
            (e := e) hch (hrep d₂) (hn' d₂) (h5' d₂) hw1 hw5 (room_swap hc)
          choose s₁ hs₁ hs₂ using hstep
          have hperm := fun d₂ => replace_perm hn hpos.1 (h5 ▸ hpos.2) (hrep d₂)
          have key : ∀ d₂, (∀ d ds, Goes ev P n ds (seen ++ [out d₂]) (s₁ d₂ d)) ∧
              (∑ d, ∑ ds, final ev P n ds (seen ++ [out d₂]) (s₁ d₂ d)) * 8443241352000
                ≤ Fintype.card Draws ^ (2 * n + 1) *
                  ((c + back w (setKind (hand d₂).toFinset)) * 8443241352000 + n / 2 * bestGain) := by
            intro d₂
            have hle : back w (setKind (hand d₂).toFinset) ≤ w + 4000 := back_most hw5 (kind_le _)
            simp only [hs₂]
            generalize back w (setKind (hand d₂).toFinset) = v at *
            by_cases hz : c + v = 0
            · simp only [if_pos hz]
              have hend := fun (ds : Fin n → Draws × Draws) => ended (ev := ev) (P := P)
                (s := .over (c + v) (deal (g' d₂)) (deal (hand d₂))) trivial n ds (seen ++ [out d₂])
              refine ⟨fun d ds => (hend ds).2, ?_⟩
              simp only [fun ds => (hend ds).1]
              exact le_quit (Nat.le_add_right _ _)
            · simp only [if_neg hz]
              exact ihw _ (g' d₂ ++ hand d₂) (c + v) ((hperm d₂).nodup_iff.2 hn)
                (by rw [List.toFinset_eq_of_perm _ _ (hperm d₂), hp]) (room_next hc hle)
          have hstep' : ∀ (ds : Fin (n + 1) → Draws × Draws), Game.step ev
              { P seen with drawSwap := (ds 0).1.stream, drawRound := (ds 0).2.stream }
              (.swaps c w e (deal g) (deal h)) = .ok (s₁ (ds 0).1 (ds 0).2, out (ds 0).1) :=
            fun ds => hs₁ (ds 0).1 (ds 0).2
          refine ⟨fun ds => goes_step (hstep' ds) ((key _).1 _ _), ?_⟩
          simp only [fun ds => final_step (hstep' ds)]
          refine le_swap (fun a d ds => final ev P n ds (seen ++ [out a]) (s₁ a d)) _
            (fun d₂ => (key d₂).2) ?_
          rw [if_neg (Nat.succ_ne_zero n), Nat.add_sub_cancel]
          refine sum_swap (fun d₂ => back w (setKind (hand d₂).toFinset)) ?_
          rw [hsum w hw1 hw5]
          exact Nat.mul_le_mul_left _ (worth_le hw1 hw5 hheld.1 h5 hpos)

theorem starts_out {ev : Evaluator} (hev : Evaluator.new = .ok ev) (d : Draws) {L : List PCard}
    (hL : Deck.generate = deal L) :
    Game.start d.stream = .ok (ev, .wager 100 (deal (result L d)) [], [wagerMessage 100]) := by
  have hm : Deck.shuffled_with d.stream = .ok (deal (result L d)) := by
    rw [Deck.shuffled_with, hL, (shuffle_result (deal L) d).1, deal, result_map]
    rfl
  rw [Game.start, hev, Comb.bind_ok, hm, Comb.bind_ok]
  rfl

theorem left_iff {ev : Evaluator} (hev : Evaluator.new = .ok ev) {L : List PCard}
    (hL : Deck.generate = deal L) {P : Player} {n : Nat} {d : Draws} {ds : Fin n → Draws × Draws}
    (h : Goes ev P n ds [[wagerMessage 100]] (.wager 100 (deal (result L d)) [])) (c : Nat) :
    LeftWith P n d ds c
      ↔ c = final ev P n ds [[wagerMessage 100]] (.wager 100 (deal (result L d)) []) := by
  have hs := starts_out hev d hL
  obtain ⟨t, ht, hc⟩ := h
  constructor
  · rintro ⟨ev', s, out, t', h1, h2, rfl⟩
    rw [hs, Except.ok.injEq, Prod.mk.injEq, Prod.mk.injEq] at h1
    obtain ⟨rfl, rfl, rfl⟩ := h1
    rw [played_unique h2 ht, hc]
  · rintro rfl
    exact ⟨_, _, _, t, hs, ht, hc⟩

/-- C63: whatever lines are entered, each perhaps depending on all that has been printed before, the
credits after `n` lines are on average at most the 100 of the start and for every two lines what a round
with the highest wager gains under the best play, which is less than 2.0565.  Nor does any such history panic. -/
theorem c63_bound (P : Player) {n : Nat} (hn : n < 9223372036854776) :
    ∃ after : Draws → (Fin n → Draws × Draws) → Nat,
      (∀ d ds c, LeftWith P n d ds c ↔ c = after d ds) ∧
      (∑ d, ∑ ds, after d ds) * 8443241352000
        ≤ Fintype.card Draws ^ (2 * n + 1) * (100 * 8443241352000 + n / 2 * bestGain) := by
  obtain ⟨ev, hev⟩ := c36_new_ok
  obtain ⟨L, hL, hLn, hLp⟩ := pack_generate
  obtain ⟨h1, h2⟩ := (bounds rfl hev P n).1 [[wagerMessage 100]] L 100 hLn hLp (by omega)
  refine ⟨_, fun d ds c => ?_, h2⟩
  exact left_iff hev hL (h1 d ds) c

/-! ## A player who reaches the bound -/

theorem handText_inj {p q : List PCard} (hp : p.length = 5) (hq : q.length = 5)
    (h : handText p = handText q) : p = q := by
  obtain ⟨a, b, c, d, e, rfl⟩ := idx5 hp
  obtain ⟨a', b', c', d', e', rfl⟩ := idx5 hq
  have hr : ∀ x y : Rank, rankChar x = rankChar y → x = y := by
    intro x y h
    cases x <;> cases y <;> first | rfl | exact absurd h (by decide)
  have hs : ∀ x y : Suit, suitSymbol x = suitSymbol y → x = y := by
    intro x y h
    cases x <;> cases y <;> first | rfl | exact absurd h (by decide)
  have key : ∀ x y : PCard, ∀ l l' : List Char, Text.cardText x ++ l = Text.cardText y ++ l' →
      x = y ∧ l = l' := by
    intro x y l l' h
    simp only [Text.cardText, List.cons_append, List.nil_append, List.cons.injEq, true_and] at h
    exact ⟨Prod.ext (hr _ _ h.1) (hs _ _ h.2.1), h.2.2⟩
  have e : ∀ a b c d e : PCard, handText [a, b, c, d, e] = Text.cardText a ++ (' ' :: (Text.cardText b
      ++ (' ' :: (Text.cardText c ++ (' ' :: (Text.cardText d ++ (' ' :: (Text.cardText e
      ++ (" (".toList ++ describe (classOf [a, b, c, d, e]) ++ ")".toList))))))))) := fun _ _ _ _ _ => rfl
  rw [e, e] at h
  obtain ⟨rfl, h⟩ := key _ _ _ _ h
  obtain ⟨rfl, h⟩ := key _ _ _ _ (List.cons.inj h).2
  obtain ⟨rfl, h⟩ := key _ _ _ _ (List.cons.inj h).2
  obtain ⟨rfl, h⟩ := key _ _ _ _ (List.cons.inj h).2
  obtain ⟨rfl, -⟩ := key _ _ _ _ (List.cons.inj h).2
  rfl

open Classical in
/-- The hand that a text is of. -/
noncomputable def handOf (t : List Char) : List PCard :=
  if h : ∃ p : List PCard, p.length = 5 ∧ handText p = t then h.choose else []

theorem handOf_text {p : List PCard} (hp : p.length = 5) : handOf (handText p) = p := by
  have h : ∃ q : List PCard, q.length = 5 ∧ handText q = handText p := ⟨p, hp, rfl⟩
  rw [handOf, dif_pos h]
  exact handText_inj h.choose_spec.1 hp h.choose_spec.2

/-- A player who bets five credits and changes cards by the choice for the hand that was printed. -/
noncomputable def follower (choice : List PCard → Input) : Player := fun seen =>
  if seen.length % 2 = 1 then ⟨some "5".toList, id, id, id⟩
  else choice (handOf ((seen.getLastD []).headD []))

theorem follower_bet (choice : List PCard → Input) {seen : List (List Str)} (h : seen.length % 2 = 1) :
    follower choice seen = ⟨some "5".toList, id, id, id⟩ := if_pos h

theorem follower_choice (choice : List PCard → Input) {seen : List (List Str)} (h : seen.length % 2 = 1)
    {p : List PCard} (hp : p.length = 5) (rest : List Str) :
    follower choice (seen ++ [handText p :: rest]) = choice p := by
  rw [follower, if_neg (by rw [List.length_append, List.length_singleton]; omega),
    List.getLastD_concat, List.headD_cons, handOf_text hp]

section
variable {α : Type} [Fintype α]

theorem eq_bet {n Q A : Nat} (f : α → (Fin n → α × α) → Nat) (b : α → Nat)
    (h : ∀ d, (∑ ds, f d ds) * Q = Fintype.card α ^ (2 * n) * b d)
    (hb : ∑ d, b d = Fintype.card α * A) :
    (∑ d, ∑ ds : Fin (n + 1) → α × α, f d (fun i => ds i.succ)) * Q
      = Fintype.card α ^ (2 * (n + 1) + 1) * A := by
  simp only [sum_skip, ← Finset.mul_sum]
  calc _ = Fintype.card α ^ 2 * ∑ d, (∑ ds, f d ds) * Q := by rw [← Finset.sum_mul]; ring
    _ = Fintype.card α ^ 2 * ∑ d, Fintype.card α ^ (2 * n) * b d := by
      rw [Finset.sum_congr rfl (fun d _ => h d)]
    _ = Fintype.card α ^ 2 * (Fintype.card α ^ (2 * n) * (Fintype.card α * A)) := by
      rw [← Finset.mul_sum, hb]
    _ = _ := by ring

theorem eq_swap {n Q B : Nat} (f : α → α → (Fin n → α × α) → Nat) (b : α → Nat)
    (h : ∀ a, (∑ d, ∑ ds, f a d ds) * Q = Fintype.card α ^ (2 * n + 1) * b a)
    (hb : ∑ a, b a = Fintype.card α * B) :
    (∑ ds : Fin (n + 1) → α × α, f (ds 0).1 (ds 0).2 (fun i => ds i.succ)) * Q
      = Fintype.card α ^ (2 * (n + 1)) * B := by
  rw [sum_rounds (fun p ds => f p.1 p.2 ds)]
  calc _ = ∑ a, (∑ d, ∑ ds, f a d ds) * Q := by rw [Finset.sum_mul]
    _ = ∑ a, Fintype.card α ^ (2 * n + 1) * b a := Finset.sum_congr rfl (fun d _ => h d)
    _ = Fintype.card α ^ (2 * n + 1) * (Fintype.card α * B) := by rw [← Finset.mul_sum, hb]
    _ = _ := by ring

theorem eq_quit {n c Q B : Nat} {f : α → (Fin n → α × α) → Nat} (hf : ∀ d ds, f d ds = c)
    (hB : B = 0) : (∑ d, ∑ ds, f d ds) * Q = Fintype.card α ^ (2 * n + 1) * (c * Q + B) := by
  simp only [hf]
  rw [sum_same, sum_const, hB]
  ring

theorem sum_swap_eq {c x y : Nat} (v : α → Nat) (h : (∑ d, v d) * 12994800 = Fintype.card α * x) :
    ∑ d, ((c + v d) * 8443241352000 + y)
      = Fintype.card α * (c * 8443241352000 + (x * 649740 + y)) := by
  have e : ∑ d, ((c + v d) * 8443241352000 + y)
      = Fintype.card α * (c * 8443241352000 + y) + (∑ d, v d) * 12994800 * 649740 := by
    simp only [Nat.add_mul, Finset.sum_add_distrib, sum_const, Finset.sum_mul]
    have : ∀ d, v d * 12994800 * 649740 = v d * 8443241352000 := fun d => by ring
    simp only [this]
    ring
  rw [e, h]
  ring

theorem sum_bet_eq {a X y : Nat} (g : α → Nat) (h : (∑ d, g d) * 2598960 = Fintype.card α * (4 * X)) :
    ∑ d, (a + (g d * 649740 + y)) = Fintype.card α * (a + (X + y)) := by
  have := sum_bet (n := 3) (G := y) (a := a) g h
  rw [if_neg (by decide), show (3 - 1) / 2 * y = y from Nat.one_mul y] at this
  rw [← this]
  exact Finset.sum_congr rfl (fun d _ => by
    rw [if_neg (by decide)])

end

theorem gain_best {c k : Nat} (hc : 5 ≤ c) :
    (c - 5) * 8443241352000 + (bestBack 5 + k * bestGain)
      = c * 8443241352000 + (k + 1) * bestGain := by
  have h1 : bestBack 5 = 5 * 8443241352000 + bestGain := by decide
  have h2 : (c - 5) * 8443241352000 + 5 * 8443241352000 = c * 8443241352000 := by
    rw [← Nat.add_mul, Nat.sub_add_cancel hc]
  rw [h1, Nat.add_mul, Nat.one_mul]
  generalize k * bestGain = z
  generalize bestGain = g at *
  omega

theorem room_best {c k v M : Nat} (h5 : 5 * (k + 1) ≤ c) (h : c + 4000 * (k + 1) < M) (hv : v ≤ 5 + 4000) :
    5 ≤ c ∧ c - 5 + 5 + 4000 < M ∧ 5 * k ≤ c - 5 + v ∧ c - 5 + v + 4000 * k < M ∧
      (c - 5 + v = 0 → k = 0) := by
  omega

theorem reached {M : Nat} (hM : M = 2 ^ 64) {ev : Evaluator} (hev : Evaluator.new = .ok ev)
    {choice : List PCard → Input} (ha : ∀ h, ∃ s, Chooses (choice h).line s ∧ Best 5 h s) (k : Nat) :
    ∀ (seen : List (List Str)) (L : List PCard) (c : Nat), seen.length % 2 = 1 → L.Nodup →
      L.toFinset = pack → 5 * k ≤ c → c + 4000 * k < M →
      (∑ d, ∑ ds, final ev (follower choice) (2 * k) ds seen (.wager c (deal (result L d)) []))
        * 8443241352000 = Fintype.card Draws ^ (2 * (2 * k) + 1) * (c * 8443241352000 + k * bestGain) := by
  induction k with
  | zero =>
    intro seen L c _ _ _ _ _
    exact eq_quit (fun _ _ => rfl) (Nat.zero_mul _)
  | succ k ih =>
    intro seen L c hodd hLn hLp h5c hc
    have hrn : ∀ d, (result L d).Nodup := fun d => (shuffle_result L d).2.nodup_iff.2 hLn
    have hrp : ∀ d, (result L d).toFinset = pack := fun d => by
      rw [List.toFinset_eq_of_perm _ _ (shuffle_result L d).2, hLp]
    obtain ⟨h5, hroom, -⟩ := room_best (v := 0) h5c hc (Nat.zero_le _)
    have hb : Bets (follower choice seen).line c 5 := by
      rw [follower_bet choice hodd]
      exact ⟨_, rfl, .inl ⟨by decide, by decide⟩, by decide, by decide, h5⟩
    choose e hstep hheld using fun d => wager_full hev (follower choice seen) hb (hrn d) (hrp d)
    have hstep' : ∀ (d : Draws) (ds : Fin (2 * k + 1 + 1) → Draws × Draws), Game.step ev
        { follower choice seen with drawSwap := (ds 0).1.stream, drawRound := (ds 0).2.stream }
        (.wager c (deal (result L d)) []) = _ := fun d ds => hstep d
    have key : ∀ d, (∑ ds, final ev (follower choice) (2 * k + 1) ds
        (seen ++ [[handText ((result L d).take 5), numbersLine, swapsMessage]])
        (.swaps (c - 5) 5 (e d) (deal ((result L d).drop 5)) (deal ((result L d).take 5))))
          * 8443241352000 = Fintype.card Draws ^ (2 * (2 * k + 1)) * ((c - 5) * 8443241352000 +
          (5 * Hold.bestOf (Hold.prizeOf (tabsFor 5)) ((result L d).take 5).toFinset * 649740
            + k * bestGain)) := by
      intro d
      have hn : ((result L d).take 5 ++ (result L d).drop 5).Nodup := by
        rw [List.take_append_drop]; exact hrn d
      have hp : ((result L d).take 5 ++ (result L d).drop 5).toFinset = pack := by
        rw [List.take_append_drop]; exact hrp d
      have hl5 := (hheld d).2.1
      have hhn := (hheld d).1
      have hch := follower_choice choice hodd hl5 [numbersLine, swapsMessage]
      have hodd' : ∀ out : List Str, (seen ++ [[handText ((result L d).take 5), numbersLine,
          swapsMessage]] ++ [out]).length % 2 = 1 := by
        intro out
        rw [List.length_append, List.length_append, List.length_singleton, List.length_singleton]
        omega
      generalize seen ++ [[handText ((result L d).take 5), numbersLine, swapsMessage]] = seen' at *
      generalize (result L d).take 5 = h at *
      generalize (result L d).drop 5 = g at *
      generalize e d = e' at *
      obtain ⟨s, hs, hbest⟩ := ha h
      rw [← hch] at hs
      have hpos := hbest.1
      obtain ⟨hand, hsec, hsum⟩ := second_any hn hp hl5 hpos
      choose g' hrep hn' h5' using hsec
      choose out hst using fun d₂ : Draws => swaps_full hM hev
        { follower choice seen' with drawSwap := d₂.stream }
        (e := e') hs (hrep d₂) (hn' d₂) (h5' d₂) (by decide) le_rfl hroom
      choose s₁ hs₁ hs₂ using hst
      have hperm := fun d₂ => replace_perm hn hpos.1 (hl5 ▸ hpos.2) (hrep d₂)
      have key : ∀ d₂, (∑ d, ∑ ds, final ev (follower choice) (2 * k) ds (seen' ++ [out d₂]) (s₁ d₂ d))
            * 8443241352000 = Fintype.card Draws ^ (2 * (2 * k) + 1) *
              ((c - 5 + back 5 (setKind (hand d₂).toFinset)) * 8443241352000 + k * bestGain) := by
        intro d₂
        have hle : back 5 (setKind (hand d₂).toFinset) ≤ 5 + 4000 := back_most le_rfl (kind_le _)
        simp only [hs₂]
        generalize back 5 (setKind (hand d₂).toFinset) = v at *
        obtain ⟨-, -, r1, r2, r3⟩ := room_best h5c hc hle
        by_cases hz : c - 5 + v = 0
        · simp only [if_pos hz]
          have hend := fun (ds : Fin (2 * k) → Draws × Draws) => ended (ev := ev) (P := follower choice)
            (s := .over (c - 5 + v) (deal (g' d₂)) (deal (hand d₂))) trivial (2 * k) ds (seen' ++ [out d₂])
          exact eq_quit (fun _ ds => (hend ds).1) (by rw [r3 hz, Nat.zero_mul])
        · simp only [if_neg hz]
          exact ih _ (g' d₂ ++ hand d₂) (c - 5 + v) (hodd' _) ((hperm d₂).nodup_iff.2 hn)
            (by rw [List.toFinset_eq_of_perm _ _ (hperm d₂), hp]) r1 r2
      have hstep'' : ∀ (ds : Fin (2 * k + 1) → Draws × Draws), Game.step ev
          { follower choice seen' with drawSwap := (ds 0).1.stream, drawRound := (ds 0).2.stream }
          (.swaps (c - 5) 5 e' (deal g) (deal h)) = .ok (s₁ (ds 0).1 (ds 0).2, out (ds 0).1) :=
        fun ds => hs₁ (ds 0).1 (ds 0).2
      simp only [fun ds => final_step (hstep'' ds)]
      refine eq_swap (fun a d ds => final ev (follower choice) (2 * k) ds (seen' ++ [out a]) (s₁ a d)) _
        key ?_
      refine sum_swap_eq (fun d₂ => back 5 (setKind (hand d₂).toFinset)) ?_
      rw [hsum 5 (by decide) le_rfl, worth_best (by decide) le_rfl hhn hl5 hbest]
    show (∑ d, ∑ ds, final ev (follower choice) (2 * k + 1 + 1) ds seen (.wager c (deal (result L d)) []))
        * 8443241352000 = Fintype.card Draws ^ (2 * (2 * k + 1 + 1) + 1) * _
    simp only [fun d ds => final_step (hstep' d ds)]
    rw [← gain_best h5]
    exact eq_bet (fun d ds => final ev (follower choice) (2 * k + 1) ds
          (seen ++ [[handText ((result L d).take 5), numbersLine, swapsMessage]])
          (.swaps (c - 5) 5 (e d) (deal ((result L d).drop 5)) (deal ((result L d).take 5)))) _
          key (sum_bet_eq _ (best_sum hLn hLp 5))

/-- C63: and some player reaches the bound in each of the first twenty rounds: nobody can do better. -/
theorem c63_best : ∃ P : Player, ∀ k ≤ 20, ∃ after : Draws → (Fin (2 * k) → Draws × Draws) → Nat,
      (∀ d ds c, LeftWith P (2 * k) d ds c ↔ c = after d ds) ∧
      (∑ d, ∑ ds, after d ds) * 8443241352000
        = Fintype.card Draws ^ (2 * (2 * k) + 1) * (100 * 8443241352000 + k * bestGain) := by
  obtain ⟨choice, ha, -⟩ := c62_player 5
  obtain ⟨ev, hev⟩ := c36_new_ok
  obtain ⟨L, hL, hLn, hLp⟩ := pack_generate
  refine ⟨follower choice, fun k hk => ⟨_, fun d ds c => ?_,
    reached rfl hev ha k [[wagerMessage 100]] L 100 rfl hLn hLp (by omega) (by omega)⟩⟩
  exact left_iff hev hL (((bounds rfl hev (follower choice) (2 * k)).1 [[wagerMessage 100]] L 100 hLn hLp
    (by omega)).1 d ds) c

/-- C63: in rounded numbers: at most 2.057 credits for every two lines. -/
theorem c63_rounded (P : Player) {n : Nat} (hn : n < 9223372036854776) :
    ∃ after : Draws → (Fin n → Draws × Draws) → Nat,
      (∀ d ds c, LeftWith P n d ds c ↔ c = after d ds) ∧
      1000 * ∑ d, ∑ ds, after d ds ≤ Fintype.card Draws ^ (2 * n + 1) * (100000 + n / 2 * 2057) := by
  obtain ⟨after, h1, h2⟩ := c63_bound P hn
  refine ⟨after, h1, ?_⟩
  generalize (∑ d, ∑ ds, after d ds) = S at *
  generalize Fintype.card Draws ^ (2 * n + 1) = N at *
  clear hn h1
  generalize n / 2 = k at *
  refine Nat.le_of_mul_le_mul_right (c := 8443241352000) ?_ (by norm_num)
  calc 1000 * S * 8443241352000 = 1000 * (S * 8443241352000) := by ring
    _ ≤ 1000 * (N * (100 * 8443241352000 + k * bestGain)) := Nat.mul_le_mul_left _ h2
    _ = N * (100000 * 8443241352000 + k * (1000 * bestGain)) := by ring
    _ ≤ N * (100000 * 8443241352000 + k * (2057 * 8443241352000)) :=
      Nat.mul_le_mul_left _ (Nat.add_le_add_left (Nat.mul_le_mul_left _ (by decide)) _)
    _ = _ := by ring

theorem played_run {ev : Evaluator} {P : Player} : ∀ {n : Nat} {ds : Fin n → Draws × Draws}
    {seen : List (List Str)} {s t : State}, Played ev P n ds seen s t →
    ∃ inputs, ∃ outs : List (List Str), inputs.length = n ∧ outs.length = n ∧ Game.run ev inputs s = .ok (t, outs.flatten) ∧
      (∀ i : Fin n, inputs[i.val]? = some { P (seen ++ outs.take i.val) with
        drawSwap := (ds i).1.stream, drawRound := (ds i).2.stream }) ∧
      ∀ k ≤ n, ∃ u, Game.run ev (inputs.take k) s = .ok (u, (outs.take k).flatten)
  | 0, _, _, s, _, h => ⟨[], [], rfl, rfl, by rw [h]; rfl, fun i => i.elim0, fun k _ => ⟨s, by simp [Game.run]⟩⟩
  | n + 1, ds, seen, s, t, h => by
    obtain ⟨s₁, o₁, h1, h2⟩ := h
    obtain ⟨inputs, outs, h5, h6, h7, h8, h9⟩ := played_run h2
    have hstep : ∀ {is u o}, Game.run ev is s₁ = .ok (u, o) →
        Game.run ev ({ P seen with drawSwap := (ds 0).1.stream, drawRound := (ds 0).2.stream } :: is) s
          = .ok (u, o₁ ++ o) := by
      intro is u o hr
      rw [Game.run, h1, Comb.bind_ok]
      simp only
      rw [hr]
      rfl
    refine ⟨{ P seen with drawSwap := (ds 0).1.stream, drawRound := (ds 0).2.stream } :: inputs,
      o₁ :: outs, by rw [List.length_cons, h5], by rw [List.length_cons, h6], hstep h7, fun i => ?_,
      fun k hk => ?_⟩
    · refine Fin.cases ?_ (fun i => ?_) i
      · simp
      · have := h8 i
        simpa using this
    · cases k with
      | zero => exact ⟨s, by simp [Game.run]⟩
      | succ k =>
        obtain ⟨u, hu⟩ := h9 k (by omega)
        exact ⟨u, hstep hu⟩

/-- C63: these are runs of the program: `outs` are the texts printed at the start and after each line, and
each line is the player's answer to those before it. -/
theorem c63_run {P : Player} {n : Nat} {d : Draws} {ds : Fin n → Draws × Draws} {c : Nat}
    (h : LeftWith P n d ds c) :
    ∃ inputs, ∃ outs : List (List Str), ∃ t, inputs.length = n ∧ outs.length = n + 1 ∧
      Game.main d.stream inputs = .ok (t, outs.flatten) ∧ t.credits = c ∧
      (∀ i : Fin n, inputs[i.val]? = some { P (outs.take (i.val + 1)) with
        drawSwap := (ds i).1.stream, drawRound := (ds i).2.stream }) ∧
      ∀ k ≤ n, ∃ u, Game.main d.stream (inputs.take k) = .ok (u, (outs.take (k + 1)).flatten) := by
  obtain ⟨ev, s, out, t, h1, h2, h3⟩ := h
  obtain ⟨inputs, outs, h4, h5, h6, h7, h8⟩ := played_run h2
  have hmain : ∀ {is u o}, Game.run ev is s = .ok (u, o) → Game.main d.stream is = .ok (u, out ++ o) := by
    intro is u o hr
    rw [Game.main, h1, Comb.bind_ok]
    simp only
    rw [hr]
    rfl
  refine ⟨inputs, out :: outs, t, h4, by rw [List.length_cons, h5], hmain h6, h3, h7, fun k hk => ?_⟩
  obtain ⟨u, hu⟩ := h8 k hk
  exact ⟨u, hmain hu⟩

/-- A player who bets five credits, stands on every hand, and leaves after two rounds: there is a result
for all shuffles. -/
example : ∃ c, LeftWith (fun seen => if seen.length = 5 then ⟨none, id, id, id⟩
    else if seen.length % 2 = 1 then ⟨some "5".toList, id, id, id⟩ else ⟨some [], id, id, id⟩) 7
    (fun _ => 0) (fun _ => (fun _ => 0, fun _ => 0)) c := by
  obtain ⟨after, h, -⟩ := c63_bound (fun seen => if seen.length = 5 then ⟨none, id, id, id⟩
    else if seen.length % 2 = 1 then ⟨some "5".toList, id, id, id⟩ else ⟨some [], id, id, id⟩) (n := 7)
    (by decide)
  exact ⟨_, (h _ _ _).2 rfl⟩

end Poker
