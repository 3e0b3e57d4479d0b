import Verif.Props.Session
import Verif.Props.Outcomes
import Verif.Proofs.Broke

/-! # The chance to run out of credits: C64 -/

namespace Poker
open Rules Tab Counts Nat Shuffles Game Sets Broke

/-- Wherever a round ends. -/
theorem swaps_credits {ev : Evaluator} (hev : Evaluator.new = .ok ev) {i : Input}
    {c w : Nat} {h g h' g' : List PCard} {e : Eval} {s : List Nat} (hc : Chooses i.line s)
    (hr : replace i.drawSwap s (deal g) (deal h) = .ok (deal g', deal h'))
    (hn : h'.Nodup) (h5 : h'.length = 5) (hw1 : 1 ≤ w) (hw : w ≤ 5) {t : State} {out : List Str}
    (hs : Game.step ev i (.swaps c w e (deal g) (deal h)) = .ok (t, out)) :
    t.credits = c + back w (setKind h'.toFinset) := by
  obtain ⟨e', hh'⟩ := evaluate_deal hn h5
  have heval : ev.evaluate (deal h') = .ok (.ok e') := by
    have := hh'.2.2.2
    rwa [evaluateHand, hev, Comb.bind_ok] at this
  obtain ⟨ln, ws, ns, hln, hq, hrest⟩ := hc
  have hg : get_swaps i.order i.line = .ok (.accept s) := by
    rw [hln]
    exact ((c40_swaps i.order).2.2 ln s).2 ⟨hq, ws, ns, hrest⟩
  have hline := c43_hand hh'
  have hpay := payout_held hh' hw
  rw [setKind_list hn, back_prize hn h5 hw1 hw]
  rw [Game.step, hg, Comb.bind_ok] at hs
  simp only at hs
  unfold afterSwaps at hs
  rw [hr] at hs
  simp only [Comb.bind_ok, heval, unwrap, hline, hpay] at hs
  obtain ⟨k, hk, hs⟩ := exec_bind.1 hs
  have hkc : k = c + if prize w h' = 0 then 0 else w + prize w h' := by
    rw [collect] at hk
    split at hk
    · obtain ⟨v, hv, hk⟩ := exec_bind.1 hk
      rw [usizeAdd] at hv hk
      split at hv
      · cases hv
        split at hk
        · cases hk
          rw [if_neg (by omega)]
        · cases hk
      · cases hv
    · cases hk
      rw [if_pos (by omega), Nat.add_zero]
  rw [← hkc]
  split at hs
  · cases hs
    rfl
  · obtain ⟨m, -, hs⟩ := exec_bind.1 hs
    cases hs
    rfl

/-- How many times the wager comes back, by the kind of the hand. -/
def times (w k : Nat) : Nat :=
  match k with
  | 0 => 0
  | 1 => 0
  | 2 => 3
  | 3 => 4
  | 4 => 5
  | 5 => 7
  | 6 => 10
  | 7 => 26
  | 8 => 51
  | 9 => if w = 5 then 801 else 251
  | _ => 2

theorem back_times (w k : Nat) : back w k = times w k * w := by
  match k with
  | 0 | 1 => exact (Nat.zero_mul w).symm
  | 2 | 3 | 4 | 5 | 6 | 7 | 8 => rfl
  | 9 =>
    rw [back, times]
    split
    · subst_vars; rfl
    · rfl
  | k + 10 => rfl

theorem times_iff {w k m : Nat} (hw : 1 ≤ w) : back w k = m * w ↔ times w k = m := by
  rw [back_times]
  exact Nat.mul_left_inj (by omega)

theorem table_pick {t : List (Nat × Nat)} (hn : (t.map Prod.fst).Nodup) {v : Nat} (hv : v ∈ t.map Prod.fst)
    (f : Nat → ℚ) : (t.map (fun p => if v = p.1 then f p.1 else 0)).sum = f v := by
  induction t with
  | nil => cases hv
  | cons p t ih =>
    rw [List.map_cons, List.nodup_cons] at hn
    rw [List.map_cons, List.sum_cons]
    by_cases h : v = p.1
    · rw [if_pos h, ← h]
      have : (t.map (fun q => if v = q.1 then f q.1 else 0)) = t.map (fun _ => 0) := by
        refine List.map_congr_left (fun q hq => if_neg ?_)
        rintro rfl
        exact hn.1 (h ▸ List.mem_map_of_mem hq)
      rw [this, List.map_const', List.sum_replicate, nsmul_zero, add_zero]
    · rw [List.map_cons, List.mem_cons] at hv
      rw [if_neg h, zero_add]
      exact ih hn.2 (hv.resolve_left h)

theorem sum_list {ι : Type} [Fintype ι] {β : Type} (t : List β) (f : ι → β → ℚ) :
    ∑ i, (t.map (f i)).sum = (t.map (fun b => ∑ i, f i b)).sum := by
  induction t with
  | nil => simp
  | cons b t ih => simp only [List.map_cons, List.sum_cons, Finset.sum_add_distrib, ih]

/-- From how often each entry of a table comes up to the average of anything. -/
theorem law {ι : Type} [Fintype ι] {t : List (Nat × Nat)} {v : ι → ι → Nat}
    (hn : (t.map Prod.fst).Nodup) (hv : ∀ i j, v i j ∈ t.map Prod.fst) (ht : 0 < Broke.total t)
    (hc : ∀ p ∈ t, (∑ i, ∑ j, if v i j = p.1 then 1 else 0) * Broke.total t = Fintype.card ι ^ 2 * p.2)
    (f : Nat → ℚ) : ∑ i, ∑ j, f (v i j) = (Fintype.card ι : ℚ) ^ 2 * mean t f := by
  have ht' : (0 : ℚ) < Broke.total t := by exact_mod_cast ht
  have h1 : ∀ i j, f (v i j) = (t.map (fun p => if v i j = p.1 then f p.1 else 0)).sum :=
    fun i j => (table_pick hn (hv i j) f).symm
  simp only [h1, sum_list]
  rw [mean, ← List.sum_map_mul_left]
  refine congrArg List.sum (List.map_congr_left (fun p hp => ?_))
  have h2 : ∀ i j, (if v i j = p.1 then f p.1 else 0)
      = ((if v i j = p.1 then 1 else 0 : Nat) : ℚ) * f p.1 := by
    intro i j
    split <;> simp
  simp only [h2, ← Finset.sum_mul]
  have h3 : (∑ i, ∑ j, ((if v i j = p.1 then 1 else 0 : Nat) : ℚ)) * (Broke.total t : ℚ)
      = (Fintype.card ι : ℚ) ^ 2 * p.2 := by exact_mod_cast hc p hp
  rw [← mul_assoc, mul_div_assoc', ← h3, mul_div_cancel_right₀ _ ht'.ne']

theorem drop_zero {ι : Type} [Fintype ι] (f : ι → ι → Nat) {N T x : Nat}
    (h : (∑ i, ∑ j, (0 + f i j)) * T = N * (0 * T + x)) : (∑ i, ∑ j, f i j) * T = N * x := by
  simpa only [Nat.zero_add, Nat.zero_mul] using h

theorem sum_rounds' {α : Type} [Fintype α] {n : Nat} (f : α × α → (Fin n → α × α) → ℚ) :
    ∑ ds : Fin (n + 1) → α × α, f (ds 0) (fun i => ds i.succ) = ∑ a, ∑ b, ∑ ds, f (a, b) ds := by
  rw [← Fintype.sum_prod_type' (f := fun a b => ∑ ds, f (a, b) ds),
    ← Fintype.sum_prod_type' (f := fun (p : α × α) ds => f p ds)]
  exact (Fintype.sum_equiv (Fin.consEquiv (fun _ : Fin (n + 1) => α × α)) _ _ (fun p => rfl)).symm

theorem split_rounds {α : Type} [Fintype α] {n : Nat} (G : α → α → α → (Fin n → α × α) → ℚ) :
    ∑ d, ∑ ds : Fin (n + 1) → α × α, G d (ds 0).1 (ds 0).2 (fun i => ds i.succ)
      = ∑ d, ∑ a, ∑ b, ∑ ds, G d a b ds :=
  Finset.sum_congr rfl (fun d _ => sum_rounds' (fun p ds => G d p.1 p.2 ds))

theorem step_most {α : Type} [Fintype α] {n : Nat} {X : ℚ} (f : α → (Fin (n + 1) → α × α) → ℚ)
    (G : α → α → α → (Fin n → α × α) → ℚ) (R : α → α → ℚ)
    (h : ∀ d ds, f d ds ≤ G d (ds 0).1 (ds 0).2 (fun i => ds i.succ))
    (hG : ∀ d a, ∑ b, ∑ ds, G d a b ds ≤ (Fintype.card α : ℚ) ^ (2 * n + 1) * R d a)
    (hR : ∑ d, ∑ a, R d a = (Fintype.card α : ℚ) ^ 2 * X) :
    ∑ d, ∑ ds, f d ds ≤ (Fintype.card α : ℚ) ^ (2 * (n + 1) + 1) * X :=
  calc ∑ d, ∑ ds, f d ds
      ≤ ∑ d, ∑ ds : Fin (n + 1) → α × α, G d (ds 0).1 (ds 0).2 (fun i => ds i.succ) :=
        Finset.sum_le_sum (fun d _ => Finset.sum_le_sum (fun ds _ => h d ds))
    _ = ∑ d, ∑ a, ∑ b, ∑ ds, G d a b ds := split_rounds G
    _ ≤ ∑ d, ∑ a, (Fintype.card α : ℚ) ^ (2 * n + 1) * R d a :=
        Finset.sum_le_sum (fun d _ => Finset.sum_le_sum (fun a _ => hG d a))
    _ = (Fintype.card α : ℚ) ^ (2 * (n + 1) + 1) * X := by
        simp only [← Finset.mul_sum, hR]
        ring

theorem step_least {α : Type} [Fintype α] {n : Nat} {X : ℚ} (f : α → (Fin (n + 1) → α × α) → ℚ)
    (G : α → α → α → (Fin n → α × α) → ℚ) (R : α → α → ℚ)
    (h : ∀ d ds, G d (ds 0).1 (ds 0).2 (fun i => ds i.succ) ≤ f d ds)
    (hG : ∀ d a, (Fintype.card α : ℚ) ^ (2 * n + 1) * R d a ≤ ∑ b, ∑ ds, G d a b ds)
    (hR : ∑ d, ∑ a, R d a = (Fintype.card α : ℚ) ^ 2 * X) :
    (Fintype.card α : ℚ) ^ (2 * (n + 1) + 1) * X ≤ ∑ d, ∑ ds, f d ds :=
  calc (Fintype.card α : ℚ) ^ (2 * (n + 1) + 1) * X
      = ∑ d, ∑ a, (Fintype.card α : ℚ) ^ (2 * n + 1) * R d a := by
        simp only [← Finset.mul_sum, hR]
        ring
    _ ≤ ∑ d, ∑ a, ∑ b, ∑ ds, G d a b ds :=
        Finset.sum_le_sum (fun d _ => Finset.sum_le_sum (fun a _ => hG d a))
    _ = ∑ d, ∑ ds : Fin (n + 1) → α × α, G d (ds 0).1 (ds 0).2 (fun i => ds i.succ) := (split_rounds G).symm
    _ ≤ ∑ d, ∑ ds, f d ds := Finset.sum_le_sum (fun d _ => Finset.sum_le_sum (fun ds _ => h d ds))

/-- One or zero. -/
noncomputable def ind (p : Prop) : ℚ := by
  classical exact if p then 1 else 0

theorem ind_true {p : Prop} (h : p) : ind p = 1 := by rw [ind, if_pos h]
theorem ind_false {p : Prop} (h : ¬ p) : ind p = 0 := by rw [ind, if_neg h]
theorem ind_nonneg (p : Prop) : 0 ≤ ind p := by
  by_cases h : p
  · rw [ind_true h]; exact zero_le_one
  · rw [ind_false h]
theorem ind_mono {p q : Prop} (h : p → q) : ind p ≤ ind q := by
  by_cases hp : p
  · rw [ind_true hp, ind_true (h hp)]
  · rw [ind_false hp]
    exact ind_nonneg q

theorem sum_one {α : Type} [Fintype α] {n : Nat} :
    ∑ _b : α, ∑ _ds : Fin n → α × α, (1 : ℚ) = (Fintype.card α : ℚ) ^ (2 * n + 1) := by
  simp only [Finset.sum_const, Finset.card_univ, nsmul_eq_mul, mul_one, Fintype.card_fun,
    Fintype.card_prod, Fintype.card_fin, Nat.cast_pow, Nat.cast_mul]
  ring

/-- No credits are left after at most `n` rounds from the state `s`. -/
def Out (ev : Evaluator) (bet : Input) (choice : List PCard → Input) (n : Nat)
    (ds : Fin n → Draws × Draws) (s : State) : Prop :=
  ∃ (m : Nat) (h : m ≤ n) (t : State), Session ev bet choice m (fun i => ds (i.castLE h)) s t ∧ t.credits = 0

section Rule

variable {ev : Evaluator} {bet : Input} {choice : List PCard → Input}

theorem out_now {n : Nat} {ds : Fin n → Draws × Draws} {s : State} (h : s.credits = 0) :
    Out ev bet choice n ds s := ⟨0, Nat.zero_le _, s, rfl, h⟩

theorem out_none {ds : Fin 0 → Draws × Draws} {s : State} (h : s.credits ≠ 0) :
    ¬ Out ev bet choice 0 ds s := by
  rintro ⟨m, hm, t, ht, h0⟩
  obtain rfl := Nat.le_zero.1 hm
  rw [Session] at ht
  subst ht
  exact h h0

theorem out_later {n : Nat} {ds : Fin (n + 1) → Draws × Draws} {s : State} (h : s.credits ≠ 0) :
    Out ev bet choice (n + 1) ds s ↔ ∃ s₁ out₁ c w e deck h s₂ out₂,
      Game.step ev bet s = .ok (s₁, out₁) ∧ s₁ = .swaps c w e deck (deal h) ∧
      Game.step ev { choice h with drawSwap := (ds 0).1.stream, drawRound := (ds 0).2.stream } s₁
        = .ok (s₂, out₂) ∧
      Out ev bet choice n (fun i => ds i.succ) s₂ := by
  constructor
  · rintro ⟨m, hm, t, ht, h0⟩
    cases m with
    | zero =>
      rw [Session] at ht
      subst ht
      exact absurd h0 h
    | succ m =>
      rw [Session] at ht
      obtain ⟨s₁, out₁, c, w, e, deck, h', s₂, out₂, h1, h2, h3, h4⟩ := ht
      exact ⟨s₁, out₁, c, w, e, deck, h', s₂, out₂, h1, h2, h3, m, Nat.le_of_succ_le_succ hm, t, h4, h0⟩
  · rintro ⟨s₁, out₁, c, w, e, deck, h', s₂, out₂, h1, h2, h3, m, hm, t, h4, h0⟩
    exact ⟨m + 1, Nat.succ_le_succ hm, t, ⟨s₁, out₁, c, w, e, deck, h', s₂, out₂, h1, h2, h3, h4⟩, h0⟩

variable {adv : List PCard → List Nat} {value : (Nat → Nat) → Nat → Nat} {w D : Nat}
  {t : List (Nat × Nat)}

/-- A rule to play by, and what it brings: `t` says how often how many wagers come back. -/
structure Follows (choice : List PCard → Input) (adv : List PCard → List Nat)
    (value : (Nat → Nat) → Nat → Nat) (w D : Nat) (t : List (Nat × Nat)) : Prop where
  low : 1 ≤ w
  high : w ≤ 5
  chooses : ∀ h, h.Nodup → h.length = 5 → Chooses (choice h).line (adv h)
  fits : ∀ h : List PCard, h.Nodup → h.length = 5 → (adv h).Nodup ∧ ∀ i ∈ adv h, i < 5
  second : ∀ h g : List PCard, (h ++ g).Nodup → (h ++ g).toFinset = pack → h.length = 5 →
      ∃ hand : Draws → List PCard,
      (∀ d, ∃ g', replace d.stream (adv h) (deal g) (deal h) = .ok (deal g', deal (hand d)) ∧
        (hand d).Nodup ∧ (hand d).length = 5) ∧
      ∀ F : Nat → Nat, (∑ d, F (setKind (hand d).toFinset)) * 50939616000
        = Fintype.card Draws * value F (kind (strength h))
  counts : ∀ p ∈ t, over (value (brings w (p.1 * w))) = D * p.2
  cases : D * Broke.total t = 2598960 * 50939616000
  keys : (t.map Prod.fst).Nodup
  listed : ∀ k, times w k ∈ t.map Prod.fst

/-- One round from a deck that is still to be shuffled. -/
theorem round_law {M : Nat} (hM : M = 2 ^ 64) (hev : Evaluator.new = .ok ev)
    (P : Follows choice adv value w D t) (hb : ∀ c, w ≤ c → Bets bet.line c w)
    {L : List PCard} (hLn : L.Nodup) (hLp : L.toFinset = pack) :
    ∃ (won : Draws → Draws → Nat) (rest : Draws → Draws → List PCard),
      (∀ d₁ d₂, won d₁ d₂ * w ≤ w + 4000 ∧ (rest d₁ d₂).Nodup ∧ (rest d₁ d₂).toFinset = pack) ∧
      (∀ c d₁ d₂ d₃, w ≤ c → ∃ e out g h,
        Game.step ev bet (.wager c (deal (result L d₁)) []) = .ok (.swaps (c - w) w e g (deal h), out) ∧
        (∀ t out', Game.step ev { choice h with drawSwap := d₂.stream, drawRound := d₃.stream }
            (.swaps (c - w) w e g (deal h)) = .ok (t, out') →
          t.credits = c - w + won d₁ d₂ * w ∧
          (t.credits ≠ 0 → t = .wager t.credits (deal (result (rest d₁ d₂) d₃)) [])) ∧
        (c + 4000 < M → ∃ t out', Game.step ev
          { choice h with drawSwap := d₂.stream, drawRound := d₃.stream }
            (.swaps (c - w) w e g (deal h)) = .ok (t, out'))) ∧
      ∀ f : Nat → ℚ, ∑ d₁, ∑ d₂, f (won d₁ d₂) = (Fintype.card Draws : ℚ) ^ 2 * mean t f := by
  have hw1 := P.low
  have hw5 := P.high
  have hl : (deal L).Perm Deck.generate := perm_generate.2 ⟨L, rfl, hLn, hLp⟩
  have h52 : L.length = 52 := by rw [← List.toFinset_card_of_nodup hLn, hLp, pack_card]
  have hpm := fun d => (shuffle_result L d).2
  have hlen : ∀ d, (result L d).length = 52 := fun d => (hpm d).length_eq.trans h52
  have hsplit : ∀ d, (result L d).take 5 ++ (result L d).drop 5 = result L d :=
    fun d => List.take_append_drop _ _
  have hn : ∀ d, ((result L d).take 5 ++ (result L d).drop 5).Nodup := fun d => by
    rw [hsplit]; exact (hpm d).nodup_iff.2 hLn
  have hp : ∀ d, ((result L d).take 5 ++ (result L d).drop 5).toFinset = pack := fun d => by
    rw [hsplit, List.toFinset_eq_of_perm _ _ (hpm d), hLp]
  have h5 : ∀ d, ((result L d).take 5).length = 5 := fun d => by
    rw [List.length_take, hlen]; rfl
  have hhn : ∀ d, ((result L d).take 5).Nodup := fun d => (List.nodup_append'.1 (hn d)).1
  choose hand hsec hsum using fun d => P.second _ _ (hn d) (hp d) (h5 d)
  choose left hrep hn' h5' using hsec
  have hperm : ∀ d₁ d₂, (left d₁ d₂ ++ hand d₁ d₂).Perm
      ((result L d₁).take 5 ++ (result L d₁).drop 5) := fun d₁ d₂ =>
    replace_perm (hn d₁) (P.fits _ (hhn d₁) (h5 d₁)).1
      (by rw [h5 d₁]; exact (P.fits _ (hhn d₁) (h5 d₁)).2) (hrep d₁ d₂)
  refine ⟨fun d₁ d₂ => times w (setKind (hand d₁ d₂).toFinset), fun d₁ d₂ => left d₁ d₂ ++ hand d₁ d₂,
    ?_, ?_, ?_⟩
  · intro d₁ d₂
    refine ⟨?_, (hperm d₁ d₂).nodup_iff.2 (hn d₁), ?_⟩
    · have hle := prize_le hw5 (hand d₁ d₂)
      simp only
      rw [← back_times, setKind_list (hn' d₁ d₂), back_prize (hn' d₁ d₂) (h5' d₁ d₂) hw1 hw5]
      split <;> omega
    · rw [List.toFinset_eq_of_perm _ _ (hperm d₁ d₂), hp]
  · intro c d₁ d₂ d₃ hwc
    have hmp : (deal (result L d₁)).Perm Deck.generate := ((hpm d₁).map _).trans hl
    obtain ⟨e, out, hstep, heval⟩ := wager_step hev bet (hb c hwc) hmp
    have htake : (deal (result L d₁)).take 5 = deal ((result L d₁).take 5) := by
      rw [deal, deal, List.map_take]
    have hdrop : (deal (result L d₁)).drop 5 = deal ((result L d₁).drop 5) := by
      rw [deal, deal, List.map_drop]
    rw [htake, hdrop] at hstep
    rw [htake] at heval
    have hheld : Held ((result L d₁).take 5) (deal ((result L d₁).take 5)) e := by
      refine ⟨hhn d₁, h5 d₁, rfl, ?_⟩
      rw [evaluateHand, hev, Comb.bind_ok, heval]
    have hch := P.chooses _ (hhn d₁) (h5 d₁)
    refine ⟨e, out, _, _, hstep, fun t out' hs => ⟨?_, fun h0 => ?_⟩, fun hc => ?_⟩
    · rw [swaps_credits hev
        (i := { choice ((result L d₁).take 5) with drawSwap := d₂.stream, drawRound := d₃.stream })
        hch (hrep d₁ d₂) (hn' d₁ d₂) (h5' d₁ d₂) hw1 hw5 hs, back_times]
    · obtain ⟨m, hm, ht⟩ := swaps_end
        (i := { choice ((result L d₁).take 5) with drawSwap := d₂.stream, drawRound := d₃.stream })
        hch (hrep d₁ d₂) hs h0
      rw [deal, deal, ← List.map_append, (shuffle_result _ d₃).1, result_map, Except.ok.injEq] at hm
      rw [ht, ← hm]
      rfl
    · subst hM
      obtain ⟨t, out', hstep', -⟩ := swaps_step hev
        { choice ((result L d₁).take 5) with drawSwap := d₂.stream, drawRound := d₃.stream }
        (fun k => stream_bound d₃ k) (c := c - w)
        hch hheld (hrep d₁ d₂) (hn' d₁ d₂) (h5' d₁ d₂) hw1 hw5 (by omega)
      exact ⟨t, out', hstep'⟩
  · have hD0 : 0 < D ∧ 0 < Broke.total t := by
      have := P.cases
      constructor <;> (rw [Nat.pos_iff_ne_zero]; rintro h0; rw [h0] at this; simp at this)
    refine law P.keys (fun _ _ => P.listed _) hD0.2 (fun p hp' => ?_)
    have hF : brings w (p.1 * w) = fun k => if times w k = p.1 then 1 else 0 := by
      funext k
      rw [brings]
      simp only [times_iff hw1]
    have hcount := P.counts p hp'
    rw [hF] at hcount
    refine drop_zero _ (sums (D := D) (Q := Broke.total t) (c := 0) (X := p.2)
      (fun d₁ d₂ => if times w (setKind (hand d₁ d₂).toFinset) = p.1 then 1 else 0)
      (fun d₁ => value (fun k => if times w k = p.1 then 1 else 0)
        (kind (strength ((result L d₁).take 5))))
      (fun d => hsum d (fun k => if times w k = p.1 then 1 else 0)) ?_ P.cases hD0.1)
    have := sum_tops hLn (by omega) (k := 5) (by omega)
      (fun x => value (fun k => if times w k = p.1 then 1 else 0) (setKind x))
    rw [hLp, h52, show Nat.choose 52 5 = 2598960 from by
      rw [Nat.choose_eq_descFactorial_div_factorial]; decide +kernel] at this
    rw [← hcount, over, ← five_sum, fiveCardHands, ← this]
    refine congrArg (· * 2598960) (Finset.sum_congr rfl (fun d _ => ?_))
    rw [setKind_list (hhn d)]

theorem more_left {w k m : Nat} : (k + 1) * w - w + m * w = (k + m) * w := by
  rw [Nat.add_mul, Nat.one_mul, Nat.add_sub_cancel, ← Nat.add_mul]

theorem one_left {w k : Nat} : w ≤ (k + 1) * w := Nat.le_mul_of_pos_left w (Nat.succ_pos k)

theorem some_left {w k : Nat} (hw : 1 ≤ w) : (k + 1) * w ≠ 0 :=
  Nat.mul_ne_zero (Nat.succ_ne_zero k) (by omega)

/-- The state in which `k` wagers are left after a round. -/
def Left (ev : Evaluator) (bet : Input) (choice : List PCard → Input) (w n k : Nat) (L : List PCard)
    (d : Draws) (ds : Fin n → Draws × Draws) : Prop :=
  k = 0 ∨ Out ev bet choice n ds (.wager (k * w) (deal (result L d)) [])

theorem out_most (hev : Evaluator.new = .ok ev) (P : Follows choice adv value w D t)
    (hb : ∀ c, w ≤ c → Bets bet.line c w) (n : Nat) :
    ∀ {L : List PCard}, L.Nodup → L.toFinset = pack → ∀ k,
      ∑ d, ∑ ds, ind (Left ev bet choice w n k L d ds)
        ≤ (Fintype.card Draws : ℚ) ^ (2 * n + 1) * ruin t n k := by
  have hzero : ∀ (n : Nat) (L : List PCard),
      ∑ d, ∑ ds, ind (Left ev bet choice w n 0 L d ds)
        ≤ (Fintype.card Draws : ℚ) ^ (2 * n + 1) * ruin t n 0 := by
    intro n L
    rw [ruin_zero, mul_one, ← sum_one]
    exact Finset.sum_le_sum (fun d _ => Finset.sum_le_sum (fun ds _ => by rw [ind_true (.inl rfl)]))
  induction n with
  | zero =>
    intro L _ _ k
    cases k with
    | zero => exact hzero 0 L
    | succ k =>
      rw [ruin, mul_zero]
      refine Finset.sum_nonpos (fun d _ => Finset.sum_nonpos (fun ds _ => ?_))
      rw [ind_false]
      rintro (h | h)
      · cases h
      · exact out_none (some_left P.low) h
  | succ n ih =>
    intro L hLn hLp k
    cases k with
    | zero => exact hzero _ L
    | succ k =>
      obtain ⟨won, rest, hrest, hsteps, hlaw⟩ := round_law rfl hev P hb hLn hLp
      rw [ruin_succ]
      refine step_most _ (fun d a b ds => ind (Left ev bet choice w n (k + won d a) (rest d a) b ds))
        (fun d a => ruin t n (k + won d a)) (fun d ds => ind_mono ?_)
        (fun d a => ih (hrest d a).2.1 (hrest d a).2.2 _) (hlaw (fun m => ruin t n (k + m)))
      rintro (h | h)
      · cases h
      · rw [out_later (some_left P.low)] at h
        obtain ⟨s₁, o₁, c', w', e', deck, h', s₂, o₂, e1, e2, e3, e4⟩ := h
        obtain ⟨e, out, g, h, h1, h2, -⟩ := hsteps ((k + 1) * w) d (ds 0).1 (ds 0).2 one_left
        rw [h1, Except.ok.injEq, Prod.mk.injEq] at e1
        rw [← e1.1, State.swaps.injEq] at e2
        rw [← e1.1, ← deal_injective e2.2.2.2.2] at e3
        obtain ⟨h3, h4⟩ := h2 _ _ e3
        rw [more_left] at h3
        by_cases h0 : k + won d (ds 0).1 = 0
        · exact .inl h0
        · refine .inr ?_
          have hne : s₂.credits ≠ 0 := by
            rw [h3]
            exact Nat.mul_ne_zero h0 (by have := P.low; omega)
          rw [← h3, ← h4 hne]
          exact e4

theorem room_sums {n a b w c M : Nat} (h1 : a + w + (n + c) < M) (h2 : b ≤ w + c) :
    a + w + c < M ∧ a + b + n < M := ⟨by omega, by omega⟩

theorem room_left {n k w m M : Nat} (h1 : (k + 1) * w + (n + 1) * 4000 < M)
    (h2 : m * w ≤ w + 4000) : (k + 1) * w + 4000 < M ∧ (k + m) * w + n * 4000 < M := by
  rw [Nat.add_mul k 1, Nat.one_mul] at h1 ⊢
  rw [Nat.add_mul n 1, Nat.one_mul] at h1
  rw [Nat.add_mul k m]
  exact room_sums h1 h2

theorem out_least {M : Nat} (hM : M = 2 ^ 64) (hev : Evaluator.new = .ok ev)
    (P : Follows choice adv value w D t) (hb : ∀ c, w ≤ c → Bets bet.line c w) (n : Nat) :
    ∀ {n'}, n ≤ n' → ∀ {L : List PCard}, L.Nodup → L.toFinset = pack → ∀ k, k * w + n * 4000 < M →
      (Fintype.card Draws : ℚ) ^ (2 * n' + 1) * ruin t n k
        ≤ ∑ d, ∑ ds, ind (Left ev bet choice w n' k L d ds) := by
  have hzero : ∀ (n n' : Nat) (L : List PCard),
      (Fintype.card Draws : ℚ) ^ (2 * n' + 1) * ruin t n 0
        ≤ ∑ d, ∑ ds, ind (Left ev bet choice w n' 0 L d ds) := by
    intro n n' L
    rw [ruin_zero, mul_one, ← sum_one]
    exact Finset.sum_le_sum (fun d _ => Finset.sum_le_sum (fun ds _ => by rw [ind_true (.inl rfl)]))
  induction n with
  | zero =>
    intro n' _ L _ _ k _
    cases k with
    | zero => exact hzero 0 n' L
    | succ k =>
      rw [ruin, mul_zero]
      exact Finset.sum_nonneg (fun d _ => Finset.sum_nonneg (fun ds _ => ind_nonneg _))
  | succ n ih =>
    intro n' hn' L hLn hLp k hk
    cases k with
    | zero => exact hzero _ n' L
    | succ k =>
      obtain ⟨n', rfl⟩ : ∃ m, n' = m + 1 := ⟨n' - 1, by omega⟩
      obtain ⟨won, rest, hrest, hsteps, hlaw⟩ := round_law hM hev P hb hLn hLp
      rw [ruin_succ]
      refine step_least _ (fun d a b ds => ind (Left ev bet choice w n' (k + won d a) (rest d a) b ds))
        (fun d a => ruin t n (k + won d a)) (fun d ds => ind_mono ?_)
        (fun d a => ih (Nat.le_of_succ_le_succ hn') (hrest d a).2.1 (hrest d a).2.2 _
          (room_left hk (hrest d a).1).2)
        (hlaw (fun m => ruin t n (k + m)))
      intro h
      refine .inr ((out_later (some_left P.low)).2 ?_)
      obtain ⟨e, out, g, hand, h1, h2, h3⟩ := hsteps ((k + 1) * w) d (ds 0).1 (ds 0).2 one_left
      obtain ⟨s₂, o₂, h5⟩ := h3 (room_left hk (hrest d (ds 0).1).1).1
      obtain ⟨h6, h7⟩ := h2 _ _ h5
      rw [more_left] at h6
      refine ⟨_, _, _, _, _, _, hand, s₂, o₂, h1, rfl, h5, ?_⟩
      by_cases h0 : s₂.credits = 0
      · exact out_now h0
      · rw [h7 h0, h6]
        refine h.resolve_left (fun hz => h0 ?_)
        rw [h6, hz, Nat.zero_mul]

end Rule

theorem count_ind {α β : Type} [Fintype α] [Fintype β] (p : α × β → Prop) :
    ({x | p x}.ncard : ℚ) = ∑ a, ∑ b, ind (p (a, b)) := by
  classical
  rw [Set.ncard_eq_toFinset_card', Set.toFinset_ofPred, Finset.card_filter, Fintype.sum_prod_type]
  push_cast
  refine Finset.sum_congr rfl (fun i _ => Finset.sum_congr rfl (fun j _ => ?_))
  by_cases h : p (i, j)
  · rw [if_pos h, ind_true h]
  · rw [if_neg h, ind_false h]

theorem broke_iff {ev : Evaluator} (hev : Evaluator.new = .ok ev) {L : List PCard}
    (hL : Deck.generate = deal L) {bet : Input} {choice : List PCard → Input} {n : Nat} {d : Draws}
    {ds : Fin n → Draws × Draws} :
    BrokeWithin bet choice n d ds ↔ Out ev bet choice n ds (.wager 100 (deal (result L d)) []) := by
  obtain ⟨out, hs⟩ := starts hev d hL
  constructor
  · rintro ⟨m, hm, ev', s, o, t', h1, h2, h3⟩
    rw [hs, Except.ok.injEq, Prod.mk.injEq, Prod.mk.injEq] at h1
    obtain ⟨rfl, rfl, -⟩ := h1
    exact ⟨m, hm, t', h2, h3⟩
  · rintro ⟨m, hm, t, h2, h3⟩
    exact ⟨m, hm, ev, _, _, t, hs, h2, h3⟩

theorem broke_sum {ev : Evaluator} (hev : Evaluator.new = .ok ev) {L : List PCard}
    (hL : Deck.generate = deal L) {bet : Input} {choice : List PCard → Input} {w : Nat} (hw : w ∣ 100) (n : Nat) :
    (brokeWays bet choice n : ℚ) = ∑ d, ∑ ds, ind (Left ev bet choice w n (100 / w) L d ds) := by
  rw [brokeWays, count_ind]
  refine Finset.sum_congr rfl (fun d _ => Finset.sum_congr rfl (fun ds _ => ?_))
  refine congrArg ind (propext ?_)
  rw [broke_iff hev hL, Left, Nat.div_mul_cancel hw]
  refine ⟨.inr, fun h => h.resolve_left (fun h0 => ?_)⟩
  have := Nat.div_mul_cancel hw
  rw [h0, Nat.zero_mul] at this
  cases this

section Rule

variable {bet : Input} {choice : List PCard → Input} {adv : List PCard → List Nat}
  {value : (Nat → Nat) → Nat → Nat} {w D : Nat} {t : List (Nat × Nat)}

theorem ways_most (P : Follows choice adv value w D t) (hw : w ∣ 100)
    (hb : ∀ c, w ≤ c → Bets bet.line c w) (n : Nat) :
    (brokeWays bet choice n : ℚ) ≤ (Fintype.card Draws : ℚ) ^ (2 * n + 1) * ruin t n (100 / w) := by
  obtain ⟨ev, hev⟩ := c36_new_ok
  obtain ⟨L, hL, hLn, hLp⟩ := pack_generate
  rw [broke_sum hev hL hw]
  exact out_most hev P hb n hLn hLp _

theorem ways_least (P : Follows choice adv value w D t) (hw : w ∣ 100)
    (hb : ∀ c, w ≤ c → Bets bet.line c w) {m n : Nat} (hmn : m ≤ n) (hm : 100 + m * 4000 < 2 ^ 64) :
    (Fintype.card Draws : ℚ) ^ (2 * n + 1) * ruin t m (100 / w) ≤ brokeWays bet choice n := by
  obtain ⟨ev, hev⟩ := c36_new_ok
  obtain ⟨L, hL, hLn, hLp⟩ := pack_generate
  rw [broke_sum hev hL hw]
  refine out_least rfl hev P hb m hmn hLn hLp _ ?_
  rwa [Nat.div_mul_cancel hw]

end Rule

theorem follows_rule {w : Nat} (hw1 : 1 ≤ w) (hw5 : w ≤ 5) {choice : List PCard → Input}
    (ha : ∀ h, h.Nodup → h.length = 5 → Chooses (choice h).line (advice h)) :
    Follows choice advice worthOf w 47980800 (ruleTable w) where
  low := hw1
  high := hw5
  chooses := ha
  fits h _ h5 := advice_spec h5
  second h g hn hp h5 := second_kinds hn hp h5
  counts p hp := checked (f := fun w m => over (worthOf (brings w (m * w)))) rule_ok hw1 hw5 hp
  cases := by simp [Broke.total, ruleTable]
  keys := by
    rw [ruleTable]
    split <;> decide
  listed k := by
    obtain ⟨p, hp, he⟩ := back_listed w k
    rw [times_iff hw1] at he
    rw [he]
    exact List.mem_map_of_mem hp

theorem follows_stand {w : Nat} (hw1 : 1 ≤ w) (hw5 : w ≤ 5) {choice : List PCard → Input}
    (ha : ∀ h, h.Nodup → h.length = 5 → Chooses (choice h).line []) :
    Follows choice (fun _ => []) (fun F k => F k * 50939616000) w 50939616000 (standTable w) where
  low := hw1
  high := hw5
  chooses := ha
  fits h _ h5 := ⟨List.nodup_nil, by simp⟩
  second h g hn hp h5 := by
    have hhn := (List.nodup_append'.1 hn).1
    refine ⟨fun _ => h, fun d => ⟨g, rfl, hhn, h5⟩, fun F => ?_⟩
    rw [sum_const, setKind_list hhn, Nat.mul_assoc]
  counts p hp := checked (f := fun w m => over (fun k => brings w (m * w) k * 50939616000)) stand_ok hw1 hw5 hp
  cases := by simp [Broke.total, standTable]
  keys := by
    rw [standTable]
    split <;> decide
  listed k := by
    have := back_listed w k
    obtain ⟨p, hp, he⟩ := this
    rw [times_iff hw1] at he
    rw [he, show (standTable w).map Prod.fst = (ruleTable w).map Prod.fst from rfl]
    exact List.mem_map_of_mem hp

theorem whole_most {B N k n a b : Nat} (hb : 0 < b) {r : ℚ} (h1 : (B : ℚ) ≤ (N : ℚ) ^ n * r)
    (h2 : r ≤ ((a : ℚ) / b) ^ k) : B * b ^ k ≤ a ^ k * N ^ n := by
  have hb' : (0 : ℚ) < b := by exact_mod_cast hb
  have h3 : (B : ℚ) ≤ (N : ℚ) ^ n * ((a : ℚ) / b) ^ k :=
    h1.trans (mul_le_mul_of_nonneg_left h2 (by positivity))
  rw [div_pow, mul_div_assoc', le_div_iff₀ (by positivity), mul_comm ((N : ℚ) ^ n)] at h3
  exact_mod_cast h3

theorem whole_least {B N n a b : Nat} (hb : 0 < b) {r : ℚ} (h1 : (N : ℚ) ^ n * r ≤ B)
    (h2 : (a : ℚ) / b ≤ r) : a * N ^ n ≤ B * b := by
  have hb' : (0 : ℚ) < b := by exact_mod_cast hb
  have h3 : (N : ℚ) ^ n * ((a : ℚ) / b) ≤ B :=
    (mul_le_mul_of_nonneg_left h2 (by positivity)).trans h1
  rw [mul_div_assoc', div_le_iff₀ hb', mul_comm ((N : ℚ) ^ n)] at h3
  exact_mod_cast h3

theorem bet_range {bet : Input} {w : Nat} (hb : ∀ c, w ≤ c → Bets bet.line c w) : 1 ≤ w ∧ w ≤ 5 := by
  obtain ⟨-, -, -, hw1, hw5, -⟩ := hb w le_rfl
  exact ⟨hw1, hw5⟩

/-- C64: whoever always makes the same wager, one of which 100 credits are a multiple, and plays by the
rule is broke within `n` rounds in exactly the part `ruin` of all cases: the 100 credits are so many
wagers, and each round brings back as many as `ruleTable` says (C61). -/
theorem c64_rule {n w : Nat} (hw : w ∣ 100) (hn : 100 + n * 4000 < 2 ^ 64) {bet : Input}
    (hb : ∀ c, w ≤ c → Bets bet.line c w) {choice : List PCard → Input}
    (ha : ∀ h, h.Nodup → h.length = 5 → Chooses (choice h).line (advice h)) :
    (brokeWays bet choice n : ℚ)
      = (Fintype.card Draws : ℚ) ^ (2 * n + 1) * ruin (ruleTable w) n (100 / w) := by
  obtain ⟨hw1, hw5⟩ := bet_range hb
  exact le_antisymm (ways_most (follows_rule hw1 hw5 ha) hw hb n)
    (ways_least (follows_rule hw1 hw5 ha) hw hb le_rfl hn)

/-- C64: the same for whoever never changes a card. -/
theorem c64_stand {n w : Nat} (hw : w ∣ 100) (hn : 100 + n * 4000 < 2 ^ 64) {bet : Input}
    (hb : ∀ c, w ≤ c → Bets bet.line c w) {choice : List PCard → Input}
    (ha : ∀ h, h.Nodup → h.length = 5 → Chooses (choice h).line []) :
    (brokeWays bet choice n : ℚ)
      = (Fintype.card Draws : ℚ) ^ (2 * n + 1) * ruin (standTable w) n (100 / w) := by
  obtain ⟨hw1, hw5⟩ := bet_range hb
  exact le_antisymm (ways_most (follows_stand hw1 hw5 ha) hw hb n)
    (ways_least (follows_stand hw1 hw5 ha) hw hb le_rfl hn)

/-- C64: by the rule, the chance to be broke is at most `0.9065 ^ (100 / w)`, however long the play. -/
theorem c64_most {w : Nat} (hw : w ∣ 100) {bet : Input}
    (hb : ∀ c, w ≤ c → Bets bet.line c w) {choice : List PCard → Input}
    (ha : ∀ h, h.Nodup → h.length = 5 → Chooses (choice h).line (advice h)) (n : Nat) :
    brokeWays bet choice n * 10000 ^ (100 / w) ≤ 9065 ^ (100 / w) * Fintype.card Draws ^ (2 * n + 1) := by
  obtain ⟨hw1, hw5⟩ := bet_range hb
  exact whole_most (by decide) (ways_most (follows_rule hw1 hw5 ha) hw hb n) (rule_most hw hw5 n)

/-- C64: and in 5000 rounds or more, at least `0.9064 ^ (100 / w)`. -/
theorem c64_least {w : Nat} (hw : w ∣ 100) {bet : Input}
    (hb : ∀ c, w ≤ c → Bets bet.line c w) {choice : List PCard → Input}
    (ha : ∀ h, h.Nodup → h.length = 5 → Chooses (choice h).line (advice h)) {n : Nat} (hn : 5000 ≤ n) :
    9064 ^ (100 / w) * Fintype.card Draws ^ (2 * n + 1) ≤ brokeWays bet choice n * 10000 ^ (100 / w) := by
  obtain ⟨hw1, hw5⟩ := bet_range hb
  exact whole_least (Nat.pow_pos (by decide))
    (ways_least (follows_rule hw1 hw5 ha) hw hb hn (by decide)) (rule_least hw hw5)

/-- C64: whoever never changes a card is broke after 5000 rounds in at least 9999 of 10000 cases. -/
theorem c64_lost {w : Nat} (hw : w ∣ 100) {bet : Input}
    (hb : ∀ c, w ≤ c → Bets bet.line c w) {choice : List PCard → Input}
    (ha : ∀ h, h.Nodup → h.length = 5 → Chooses (choice h).line []) {n : Nat} (hn : 5000 ≤ n) :
    9999 * Fintype.card Draws ^ (2 * n + 1) ≤ brokeWays bet choice n * 10000 := by
  obtain ⟨hw1, hw5⟩ := bet_range hb
  exact whole_least (by decide) (ways_least (follows_stand hw1 hw5 ha) hw hb hn (by decide))
    (stand_least hw hw5)

theorem scale {B T a b c d : Nat} (h : B * b ≤ a * T) (hac : a * d ≤ c * b) (hb : 0 < b) :
    B * d ≤ c * T := by
  refine Nat.le_of_mul_le_mul_right ?_ hb
  calc B * d * b = B * b * d := by ring
    _ ≤ a * T * d := Nat.mul_le_mul_right _ h
    _ = a * d * T := by ring
    _ ≤ c * b * T := Nat.mul_le_mul_right _ hac
    _ = c * T * b := by ring

theorem scale' {B T a b c d : Nat} (h : a * T ≤ B * b) (hac : c * b ≤ a * d) (hb : 0 < b) :
    c * T ≤ B * d := by
  refine Nat.le_of_mul_le_mul_right ?_ hb
  calc c * T * b = c * b * T := by ring
    _ ≤ a * d * T := Nat.mul_le_mul_right _ hac
    _ = a * T * d := by ring
    _ ≤ B * b * d := Nat.mul_le_mul_right _ h
    _ = B * d * b := by ring

/-- C64: so whoever plays by the rule and bets one credit at a time is broke sooner or later in one of
about 18400 cases, and whoever bets five in about 14 of 100. -/
theorem c64_chances {bet₁ bet₅ : Input} (hb₁ : ∀ c, 1 ≤ c → Bets bet₁.line c 1)
    (hb₅ : ∀ c, 5 ≤ c → Bets bet₅.line c 5) {choice : List PCard → Input}
    (ha : ∀ h, h.Nodup → h.length = 5 → Chooses (choice h).line (advice h)) (n : Nat) :
    brokeWays bet₁ choice n * 18300 ≤ 1 * Fintype.card Draws ^ (2 * n + 1) ∧
      brokeWays bet₅ choice n * 1000 ≤ 141 * Fintype.card Draws ^ (2 * n + 1) ∧
      (5000 ≤ n → 1 * Fintype.card Draws ^ (2 * n + 1) ≤ brokeWays bet₁ choice n * 18600 ∧
        140 * Fintype.card Draws ^ (2 * n + 1) ≤ brokeWays bet₅ choice n * 1000) :=
  ⟨scale (c64_most (by decide) hb₁ ha n) (by decide +kernel) (Nat.pow_pos (by decide)),
    scale (c64_most (by decide) hb₅ ha n) (by decide +kernel) (Nat.pow_pos (by decide)), fun hn =>
    ⟨scale' (c64_least (by decide) hb₁ ha hn) (by decide +kernel) (Nat.pow_pos (by decide)),
      scale' (c64_least (by decide) hb₅ ha hn) (by decide +kernel) (Nat.pow_pos (by decide))⟩⟩

/-- There are such players, and wagers: one, two, four and five. -/
example : (1 ∣ 100 ∧ 2 ∣ 100 ∧ 4 ∣ 100 ∧ 5 ∣ 100) ∧
    (∀ c, 5 ≤ c → Bets (some "5".toList) c 5) ∧ (∀ c, 1 ≤ c → Bets (some "1".toList) c 1) ∧
    (∃ choice : List PCard → Input,
      ∀ h, h.Nodup → h.length = 5 → Chooses (choice h).line (advice h)) ∧
    ∃ choice : List PCard → Input, ∀ h, h.Nodup → h.length = 5 → Chooses (choice h).line [] :=
  ⟨by decide, fun c hc => ⟨_, rfl, .inl ⟨by decide, by decide⟩, by decide, by decide, hc⟩,
    fun c hc => ⟨_, rfl, .inl ⟨by decide, by decide⟩, by decide, by decide, hc⟩,
    player.imp fun _ h => h.1, fun _ => ⟨some [], id, id, id⟩, fun _ _ _ =>
      ⟨[], [], [], rfl, by decide, .nil _ (by simp), .nil, by simp, by simp, rfl⟩⟩

/-- One round cannot lose twenty wagers, and it loses the last one as often as C61 says. -/
example : ruin (ruleTable 5) 1 20 = 0 ∧ 0 < ruin (ruleTable 5) 1 1 ∧
    ruin (ruleTable 5) 1 1 = 1677484145 / 2759229200 := by
  refine ⟨?_, ?_, ?_⟩ <;> norm_num [ruin, ruleTable]

end Poker
