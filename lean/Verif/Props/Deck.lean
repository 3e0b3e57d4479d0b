import Verif.Proofs.Evaluate
import Verif.Model.Deck

/-! # Properties of the deck: C21, C22 -/

namespace Poker
open Rules Tab

/-! ## C21: the generated deck -/

/-- C21: the generated deck has 52 cards, no card twice, and every card that can be made. -/
theorem c21_deck : Deck.generate.length = 52 ∧ Deck.generate.Nodup ∧
    (∀ r s, Card.new r s ∈ Deck.generate) ∧
    ∀ c ∈ Deck.generate, ∃ r s, c = Card.new r s := by
  refine ⟨by decide, ?_, ?_, ?_⟩
  · have : Deck.generate = deal (Rank.ALL_VARIANTS.flatMap (fun r => Suit.ALL_VARIANTS.map
        (fun s => (r, s)))) := by
      simp [Deck.generate, deal, List.map_flatMap, Function.comp_def]
    rw [this]
    refine List.Nodup.map_on ?_ (by decide)
    intro p _ q _ h
    exact card_inj h
  · intro r s
    simp only [Deck.generate, List.mem_flatMap, List.mem_map]
    exact ⟨r, by cases r <;> decide, s, by cases s <;> decide, rfl⟩
  · intro c hc
    simp only [Deck.generate, List.mem_flatMap, List.mem_map] at hc
    obtain ⟨r, -, s, -, rfl⟩ := hc
    exact ⟨r, s, rfl⟩

example : Card.new .Ten .Diamonds ∈ Deck.generate := c21_deck.2.2.1 _ _

/-! ## C22: shuffling -/

section Shuffle
variable {α : Type}

/-- The list with the items at `i` and `j` exchanged. -/
def sw (l : List α) (i j : Nat) (hi : i < l.length) (hj : j < l.length) : List α :=
  (l.set i l[j]).set j l[i]

theorem length_sw (l : List α) (i j : Nat) (hi : i < l.length) (hj : j < l.length) :
    (sw l i j hi hj).length = l.length := by simp [sw]

theorem swap_eq (l : List α) (i j : Nat) (hi : i < l.length) (hj : j < l.length) :
    Deck.swap l i j = .ok (sw l i j hi hj) := by
  have h1 : idx l i = .ok l[i] := by simp [idx, hi]
  have h2 : idx l j = .ok l[j] := by simp [idx, hj]
  have h3 : setIdx l i l[j] = .ok (l.set i l[j]) := by simp [setIdx, hi]
  have h4 : setIdx (l.set i l[j]) j l[i] = .ok (sw l i j hi hj) := by simp [setIdx, hj, sw]
  unfold Deck.swap
  rw [h1, Comb.bind_ok, h2, Comb.bind_ok, h3, Comb.bind_ok, h4]

theorem sw_perm (l : List α) (i j : Nat) (hi : i < l.length) (hj : j < l.length) :
    (sw l i j hi hj).Perm l := List.set_set_perm hi hj

theorem sw_at (l : List α) (i j : Nat) (hi : i < l.length) (hj : j < l.length) :
    (sw l i j hi hj)[i]'(by rw [length_sw]; exact hi) = l[j] := by
  unfold sw
  rw [List.getElem_set]
  split
  · rename_i h; simp only [h]
  · rw [List.getElem_set_self]

theorem sw_other (l : List α) (i j k : Nat) (hi : i < l.length) (hj : j < l.length)
    (hk : k < l.length) (h1 : k ≠ i) (h2 : k ≠ j) :
    (sw l i j hi hj)[k]'(by rw [length_sw]; exact hk) = l[k] := by
  unfold sw
  rw [List.getElem_set, if_neg (Ne.symm h2), List.getElem_set, if_neg (Ne.symm h1)]

/-- All draws that the shuffle of a list of `k + 1` items makes are in range. -/
def InRange (draw : Nat → Nat) (k : Nat) : Prop := ∀ i, 1 ≤ i → i ≤ k → draw i ≤ i

theorem shuffleAux_ok (draw : Nat → Nat) (k : Nat) (l : List α) (hk : k < l.length)
    (hd : InRange draw k) : ∃ l', Deck.shuffleAux draw k l = .ok l' ∧ l'.Perm l ∧
      l'.drop (k + 1) = l.drop (k + 1) := by
  induction k generalizing l with
  | zero => exact ⟨l, rfl, .refl _, rfl⟩
  | succ k ih =>
    have hj : draw (k + 1) < l.length := by
      have := hd (k + 1) (by omega) (by omega); omega
    obtain ⟨l', h1, h2, h3⟩ := ih (sw l (k + 1) (draw (k + 1)) hk hj)
      (by rw [length_sw]; omega) (fun i a b => hd i a (by omega))
    refine ⟨l', ?_, h2.trans (sw_perm ..), ?_⟩
    · rw [Deck.shuffleAux, swap_eq l _ _ hk hj, Comb.bind_ok, h1]
    · have h4 : l'.drop (k + 1 + 1) = (sw l (k + 1) (draw (k + 1)) hk hj).drop (k + 1 + 1) := by
        have := congrArg (List.drop 1) h3
        simpa [List.drop_drop, Nat.add_comm] using this
      rw [h4]
      have := hd (k + 1) (by omega) (by omega)
      unfold sw
      rw [List.drop_set_of_lt (by omega), List.drop_set_of_lt (by omega)]

theorem shuffleAux_exists (k : Nat) (l l' : List α) (hk : k < l.length) (hp : l'.Perm l)
    (hd : l'.drop (k + 1) = l.drop (k + 1)) :
    ∃ draw, InRange draw k ∧ Deck.shuffleAux draw k l = .ok l' := by
  induction k generalizing l with
  | zero =>
    refine ⟨fun _ => 0, fun i _ _ => Nat.zero_le _, ?_⟩
    -- one item left: it has to be the same
    cases l with
    | nil => simp at hk
    | cons a l =>
      cases l' with
      | nil => exact absurd hp.length_eq (by simp)
      | cons b l' =>
        simp only [Nat.zero_add, List.drop_one, List.tail_cons] at hd
        subst hd
        have := (List.perm_append_right_iff (l₁ := [b]) (l₂ := [a]) l').1 hp
        have hab : b = a := by simpa using this
        rw [hab]
        rfl
  | succ k ih =>
    have hlen := hp.length_eq
    have hk' : k + 1 < l'.length := by omega
    -- the item wanted at `k + 1` is among the first `k + 2` items
    have hsplit : (l'.take (k + 2)).Perm (l.take (k + 2)) := by
      have h1 : (l'.take (k + 2) ++ l'.drop (k + 2)).Perm (l.take (k + 2) ++ l.drop (k + 2)) := by
        rw [List.take_append_drop, List.take_append_drop]; exact hp
      rw [hd] at h1
      exact (List.perm_append_right_iff _).1 h1
    have hmem : l'[k + 1] ∈ l.take (k + 2) := by
      rw [← hsplit.mem_iff]
      rw [List.mem_take_iff_getElem]
      exact ⟨k + 1, by omega, rfl⟩
    rw [List.mem_take_iff_getElem] at hmem
    obtain ⟨j, hj, hjeq⟩ := hmem
    have hj' : j < l.length := by omega
    have hsp := sw_perm l (k + 1) j hk hj'
    have hdrop : l'.drop (k + 1) = (sw l (k + 1) j hk hj').drop (k + 1) := by
      rw [List.drop_eq_getElem_cons hk',
        List.drop_eq_getElem_cons (l := sw l (k + 1) j hk hj') (by rw [length_sw]; exact hk),
        sw_at, hjeq, hd]
      congr 1
      unfold sw
      rw [List.drop_set_of_lt (by omega), List.drop_set_of_lt (by omega)]
    obtain ⟨draw, hr, hs⟩ := ih (sw l (k + 1) j hk hj') (by rw [length_sw]; omega)
      (hp.trans hsp.symm) hdrop
    refine ⟨fun i => if i = k + 1 then j else draw i, ?_, ?_⟩
    · intro i h1 h2
      by_cases h : i = k + 1
      · simp only [h, if_true]; omega
      · simp only [h, if_false]; exact hr i h1 (by omega)
    · rw [Deck.shuffleAux]
      simp only [if_true]
      rw [swap_eq l _ _ hk hj', Comb.bind_ok, ← hs]
      have congr : ∀ (d d' : Nat → Nat) (n : Nat) (m : List α), (∀ i, i ≤ n → d i = d' i) →
          Deck.shuffleAux d n m = Deck.shuffleAux d' n m := by
        intro d d' n
        induction n with
        | zero => intro m _; rfl
        | succ n ih =>
          intro m h
          rw [Deck.shuffleAux, Deck.shuffleAux, h (n + 1) (by omega)]
          congr 1
          funext x
          exact ih x (fun i hi => h i (by omega))
      refine congr _ _ k _ ?_
      intro i hi
      rw [if_neg (by omega)]

theorem shuffleAux_unique (k : Nat) (l l' : List α) (hk : k < l.length) (hn : l.Nodup)
    (d d' : Nat → Nat) (hd : InRange d k) (hd' : InRange d' k)
    (h : Deck.shuffleAux d k l = .ok l') (h' : Deck.shuffleAux d' k l = .ok l') :
    ∀ i, 1 ≤ i → i ≤ k → d i = d' i := by
  induction k generalizing l with
  | zero => intro i _ _; omega
  | succ k ih =>
    have b := hd (k + 1) (by omega) (by omega)
    have b' := hd' (k + 1) (by omega) (by omega)
    have r : InRange d k := fun i a c => hd i a (by omega)
    have r' : InRange d' k := fun i a c => hd' i a (by omega)
    rw [Deck.shuffleAux, swap_eq l _ _ hk (by omega), Comb.bind_ok] at h h'
    obtain ⟨m, hm, -, hdm⟩ := shuffleAux_ok d k (sw l (k + 1) (d (k + 1)) hk (by omega))
      (by rw [length_sw]; omega) r
    obtain ⟨m', hm', -, hdm'⟩ := shuffleAux_ok d' k (sw l (k + 1) (d' (k + 1)) hk (by omega))
      (by rw [length_sw]; omega) r'
    rw [h, Except.ok.injEq] at hm
    rw [h', Except.ok.injEq] at hm'
    rw [← hm] at hdm
    rw [← hm', hdm] at hdm'
    have e : ∀ j (hj : j < l.length), (sw l (k + 1) j hk hj).drop (k + 1)
        = l[j] :: (sw l (k + 1) j hk hj).drop (k + 1 + 1) := by
      intro j hj
      rw [List.drop_eq_getElem_cons (by rw [length_sw]; exact hk), sw_at]
    rw [e, e] at hdm'
    have hdd : d (k + 1) = d' (k + 1) :=
      (List.Nodup.getElem_inj_iff hn).1 (List.cons.inj hdm').1
    have hrest := ih (sw l (k + 1) (d (k + 1)) hk (by omega)) (by rw [length_sw]; omega)
      ((sw_perm ..).nodup_iff.2 hn) r r' h (by simpa only [hdd] using h')
    intro i h1 h2
    by_cases hi : i = k + 1
    · rw [hi]; exact hdd
    · exact hrest i h1 (by omega)

end Shuffle

/-- C22: whatever the random number generator returns (in range), the shuffled deck is a
rearrangement of the full deck. -/
theorem c22_perm (draw : Nat → Nat) (hd : ∀ i, 1 ≤ i → i ≤ 51 → draw i ≤ i) :
    ∃ l, Deck.shuffled_with draw = .ok l ∧ l.Perm Deck.generate := by
  obtain ⟨l, h1, h2, -⟩ := shuffleAux_ok draw 51 Deck.generate (by rw [c21_deck.1]; omega) hd
  refine ⟨l, ?_, h2⟩
  rw [Deck.shuffled_with, Deck.shuffle, c21_deck.1]
  exact h1

example : ∃ l, Deck.shuffled_with (· / 2) = .ok l ∧ l.Perm Deck.generate :=
  c22_perm _ (fun i _ _ => Nat.div_le_self i 2)

/-- C22: so the shuffled deck has 52 cards, each once. -/
theorem c22_deck (draw : Nat → Nat) (hd : ∀ i, 1 ≤ i → i ≤ 51 → draw i ≤ i) :
    ∃ l, Deck.shuffled_with draw = .ok l ∧ l.length = 52 ∧ l.Nodup ∧ ∀ r s, Card.new r s ∈ l := by
  obtain ⟨l, h1, h2⟩ := c22_perm draw hd
  exact ⟨l, h1, by rw [h2.length_eq, c21_deck.1], h2.nodup_iff.2 c21_deck.2.1,
    fun r s => h2.mem_iff.2 (c21_deck.2.2.1 r s)⟩

example : ∃ l, Deck.shuffled_with (· / 2) = .ok l ∧ Card.new .Ten .Diamonds ∈ l :=
  have ⟨l, h, _, _, hm⟩ := c22_deck (· / 2) (fun i _ _ => Nat.div_le_self i 2)
  ⟨l, h, hm _ _⟩

/-- C22: every order of the deck is the result of a sequence of draws in range, and of only one. -/
theorem c22_bijective (l : List Card) (hl : l.Perm Deck.generate) :
    ∃ draw, (∀ i, 1 ≤ i → i ≤ 51 → draw i ≤ i) ∧ Deck.shuffled_with draw = .ok l ∧
      ∀ draw', (∀ i, 1 ≤ i → i ≤ 51 → draw' i ≤ i) → Deck.shuffled_with draw' = .ok l →
        ∀ i, 1 ≤ i → i ≤ 51 → draw i = draw' i := by
  have e : ∀ draw, Deck.shuffled_with draw = Deck.shuffleAux draw 51 Deck.generate := by
    intro draw
    rw [Deck.shuffled_with, Deck.shuffle, c21_deck.1]
  have h51 : 51 < Deck.generate.length := by rw [c21_deck.1]; omega
  obtain ⟨draw, h1, h2⟩ := shuffleAux_exists 51 Deck.generate l h51 hl (by
    rw [List.drop_of_length_le (by rw [hl.length_eq, c21_deck.1]),
      List.drop_of_length_le (by rw [c21_deck.1])])
  refine ⟨draw, h1, by rw [e]; exact h2, ?_⟩
  intro draw' h1' h2'
  rw [e] at h2'
  exact shuffleAux_unique 51 Deck.generate l h51 c21_deck.2.1 draw draw' h1 h1' h2 h2'

-- draws in range exist, and the reversed deck is a rearrangement
example : (∀ i, 1 ≤ i → i ≤ 51 → (fun i => i / 2) i ≤ i) ∧
    Deck.generate.reverse.Perm Deck.generate ∧ Deck.generate.reverse ≠ Deck.generate :=
  ⟨fun i _ _ => Nat.div_le_self i 2, List.reverse_perm _, by decide +kernel⟩

end Poker
