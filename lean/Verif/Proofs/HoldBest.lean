import Verif.Proofs.HoldWorth

/-! The best cards to keep. -/

namespace Poker.Hold
open Rules Counts Sets Tab

/-- The worth of the best cards of `h` to keep, in parts of 12994800. -/
noncomputable def bestOf (F : Finset PCard → Nat) (h : Finset PCard) : Nat :=
  h.powerset.sup (fun K => weight K.card * ways F K)

theorem said_list (t : Tabs) {k : List PCard} (hs : k.Sublist cards) :
    said t (keyList k.toFinset) = said t k := by
  have h1 : flush (keyList k.toFinset) = flush k := by
    rw [Bool.eq_iff_iff, flush_keyList, flush_iff]
    simp only [List.mem_toFinset]
  rw [said, said, h1, show values (keyList k.toFinset) = values k from key_of_list hs]

theorem bestOf_le_iff {t : Tabs} (hg : Good t) {l : List PCard} (hl : l.Sublist cards)
    (h5 : l.length ≤ 5) (X : Nat) : bestOf (prizeOf t) l.toFinset ≤ X ↔
      ∀ k, k.Sublist l → weight k.length * said t k ≤ X := by
  have hK : ∀ k, k.Sublist l → weight k.toFinset.card * ways (prizeOf t) k.toFinset
      = weight k.length * said t k := by
    intro k hk
    have hkc := hk.trans hl
    have hc : k.toFinset.card = k.length := List.toFinset_card_of_nodup (hkc.nodup cards_nodup)
    have := hk.length_le
    rw [ways_said hg (5 - k.length) (by omega), said_list t hkc, hc]
  rw [bestOf, Finset.sup_le_iff]
  constructor
  · intro h k hk
    rw [← hK k hk]
    refine h _ (Finset.mem_powerset.2 (fun c hc => ?_))
    exact List.mem_toFinset.2 (hk.mem (List.mem_toFinset.1 hc))
  · intro h K hsub
    have e : (l.filter (fun c => decide (c ∈ K))).toFinset = K := by
      ext c
      rw [List.mem_toFinset, List.mem_filter, decide_eq_true_eq]
      exact ⟨fun h => h.2, fun h => ⟨List.mem_toFinset.1 (Finset.mem_powerset.1 hsub h), h⟩⟩
    have := hK _ (List.filter_sublist (p := fun c => decide (c ∈ K)) (l := l))
    rw [e] at this
    rw [this]
    exact h _ List.filter_sublist

theorem largest_le_iff (f : List Nat → Nat) (L : List (List Nat)) (X : Nat) :
    largest f L ≤ X ↔ ∀ l ∈ L, f l ≤ X := by
  induction L with
  | nil => exact ⟨fun _ l hl => absurd hl (by simp), fun _ => Nat.zero_le X⟩
  | cons a L ih =>
    have e : largest f (a :: L) = max2 (largest f L) (f a) := rfl
    rw [e, max2_eq, Nat.max_le, ih, List.forall_mem_cons, and_comm]

theorem sublist_drops {Q P : List Nat} (h : Q.Sublist P) : Q = P ∨ ∃ r ∈ drops P, Q.Sublist r := by
  induction P generalizing Q with
  | nil => exact .inl (List.sublist_nil.1 h)
  | cons v P ih =>
    cases h with
    | cons _ h => exact .inr ⟨P, by simp [drops], h⟩
    | cons_cons _ h =>
      rcases ih h with rfl | ⟨r, hr, h'⟩
      · exact .inl rfl
      · exact .inr ⟨v :: r, by simp [drops, hr], h'.cons_cons v⟩

theorem drops_sublist {r P : List Nat} (h : r ∈ drops P) : r.Sublist P ∧ r.length + 1 = P.length := by
  induction P generalizing r with
  | nil => cases h
  | cons v P ih =>
    rw [drops, List.mem_cons, List.mem_map] at h
    rcases h with rfl | ⟨r, h, rfl⟩
    · exact ⟨List.sublist_cons_self _ _, rfl⟩
    · obtain ⟨h1, h2⟩ := ih h
      exact ⟨h1.cons_cons v, by rw [List.length_cons, List.length_cons, h2]⟩

theorem best_le_iff {t : Tabs} (hg : Good t) {P : List Nat} (hP : P.Sublist allValues)
    (h5 : P.length ≤ 5) (X : Nat) :
    entry t.best (mask P) ≤ X ↔ ∀ Q, Q.Sublist P → worthSuited t Q ≤ X := by
  induction hn : P.length generalizing P with
  | zero | succ n ih =>
    have h : bestOk t P = true := by
      have hm := List.mem_sublistsLen.2 ⟨hP, rfl⟩
      have : P.length = 0 ∨ P.length = 1 ∨ P.length = 2 ∨ P.length = 3 ∨ P.length = 4
        ∨ P.length = 5 := by omega
      rcases this with e | e | e | e | e | e <;> rw [e] at hm
      · exact List.all_eq_true.1 hg.best0 _ hm
      · exact List.all_eq_true.1 hg.best1 _ hm
      · exact List.all_eq_true.1 hg.best2 _ hm
      · exact List.all_eq_true.1 hg.best3 _ hm
      · exact List.all_eq_true.1 hg.best4 _ hm
      · exact List.all_eq_true.1 hg.best5 _ hm
    rw [Nat.eq_of_beq_eq_true h, max2_eq, Nat.max_le, largest_le_iff]
    constructor
    · rintro ⟨h1, h2⟩ Q hQ
      rcases sublist_drops hQ with rfl | ⟨r, hr, hQr⟩
      · exact h1
      · obtain ⟨h3, h4⟩ := drops_sublist hr
        first
        | exact absurd h4 (by omega)
        | exact (ih (h3.trans hP) (by omega) (by omega)).1 (h2 r hr) Q hQr
    · intro h'
      refine ⟨h' P (List.Sublist.refl P), fun r hr => ?_⟩
      obtain ⟨h3, h4⟩ := drops_sublist hr
      first
      | exact absurd h4 (by omega)
      | exact (ih (h3.trans hP) (by omega) (by omega)).2 (fun Q hQ => h' Q (hQ.trans h3))

theorem mixed_le {t : Tabs} (hg : Good t) {P : List Nat} (hP : P.Sublist allValues)
    (h2 : 2 ≤ P.length) (h5 : P.length ≤ 5) : mixed t P ≤ suited t P := by
  have hm := List.mem_sublistsLen.2 ⟨hP, rfl⟩
  have : P.length = 2 ∨ P.length = 3 ∨ P.length = 4 ∨ P.length = 5 := by omega
  refine Nat.le_of_ble_eq_true ?_
  rcases this with e | e | e | e <;> rw [e] at hm
  · exact List.all_eq_true.1 hg.less2 _ hm
  · exact List.all_eq_true.1 hg.less3 _ hm
  · exact List.all_eq_true.1 hg.less4 _ hm
  · exact List.all_eq_true.1 hg.less5 _ hm

theorem held_le_iff (t : Tabs) (a b c d e X : Nat) : held t a b c d e ≤ X ↔
    ∀ Q, Q.Sublist [a, b, c, d, e] → 2 ≤ Q.length → worthMixed t Q ≤ X := by
  have hmul : ∀ k x y : Nat, Nat.mul k (max2 x y) = max2 (Nat.mul k x) (Nat.mul k y) := by
    intro k x y
    rw [max2_eq, max2_eq]
    exact Nat.mul_max_mul_left ..|>.symm
  have hall : (∀ Q, Q.Sublist [a, b, c, d, e] → 2 ≤ Q.length → worthMixed t Q ≤ X) ↔
      ∀ Q ∈ [a, b, c, d, e].sublists', 2 ≤ Q.length → worthMixed t Q ≤ X := by
    simp only [List.mem_sublists']
  rw [hall]
  simp only [held, hmul]
  simp only [max2_eq, Nat.max_le]
  simp only [List.sublists'_cons, List.sublists'_nil, List.map_cons, List.map_nil, List.cons_append,
    List.nil_append, List.forall_mem_cons, List.length_cons, List.length_nil, worthMixed, weight, mixed]
  simp
  tauto

theorem leaf_le_iff (t : Tabs) (m : Nat) (bs : List Nat) (X : Nat) :
    leaf t m bs ≤ X ↔ m ≤ X ∧ ∀ b ∈ bs, entry t.best b ≤ X := by
  induction bs with
  | nil => simp [leaf]
  | cons b bs ih => rw [leaf_cons, Nat.max_le, ih, List.forall_mem_cons]; tauto

theorem bestOf_full {t : Tabs} (hg : Good t) {l : List PCard} (hl : l.Sublist cards)
    (h5 : l.length = 5) : bestOf (prizeOf t) l.toFinset = full t (values l) (masks l) := by
  refine Nat.le_antisymm_iff.2 ?_
  have key : ∀ X, bestOf (prizeOf t) l.toFinset ≤ X ↔ full t (values l) (masks l) ≤ X := by
    intro X
    have hlen : (values l).length = 5 := by rw [values, List.length_map, h5]
    have hheld : heldAll t (values l) ≤ X ↔
        ∀ Q, Q.Sublist (values l) → 2 ≤ Q.length → worthMixed t Q ≤ X := by
      match values l, hlen with
      | [a, b, c, d, e], _ => exact held_le_iff t a b c d e X
    have hsuit : ∀ s : Suit, (values (l.filter (fun c => c.2 == s))).Sublist allValues ∧
        (values (l.filter (fun c => c.2 == s))).length ≤ 5 := by
      intro s
      refine ⟨suit_sublist (s := s) (List.filter_sublist.trans hl) (fun c hc => ?_), ?_⟩
      · have := (List.mem_filter.1 hc).2
        rwa [beq_iff_eq] at this
      · rw [values, List.length_map, ← h5]
        exact List.length_filter_le _ _
    have hzero := best_le_iff hg (P := []) (List.nil_sublist _) (by simp) X
    rw [show mask [] = 0 from rfl] at hzero
    rw [bestOf_le_iff hg hl (by omega), full, leaf_le_iff, Nat.max_le, hheld, hzero]
    constructor
    · intro h
      refine ⟨⟨?_, ?_⟩, ?_⟩
      · intro Q hQ h2
        obtain ⟨k, hk, rfl⟩ := List.sublist_map_iff.1 hQ
        have h' := h k hk
        have hk5 := hk.length_le
        rw [said] at h'
        change 2 ≤ (values k).length at h2
        change worthMixed t (values k) ≤ X
        have hvk : (values k).length = k.length := List.length_map _
        rw [worthMixed, hvk]
        refine Nat.le_trans (Nat.mul_le_mul_left _ ?_) h'
        cases hf : flush k with
        | true =>
          obtain ⟨s, hs⟩ := (flush_iff k).1 hf
          exact mixed_le hg (suit_sublist (hk.trans hl) hs) h2 (by omega)
        | false => exact Nat.le_refl _
      · intro Q hQ
        rw [List.sublist_nil.1 hQ]
        exact h [] (List.nil_sublist _)
      · intro b hb
        obtain ⟨s, -, rfl⟩ := List.mem_map.1 hb
        rw [best_le_iff hg (hsuit s).1 (hsuit s).2]
        intro Q hQ
        obtain ⟨k, hk, rfl⟩ := List.sublist_map_iff.1 hQ
        have h' := h k (hk.trans List.filter_sublist)
        have hf : flush k = true := by
          rw [flush_iff]
          refine ⟨s, fun c hc => ?_⟩
          have := (List.mem_filter.1 (hk.mem hc)).2
          rwa [beq_iff_eq] at this
        rw [said, hf, cond_true] at h'
        change worthSuited t (values k) ≤ X
        rw [worthSuited, show (values k).length = k.length from List.length_map _]
        exact h'
    · rintro ⟨⟨h1, h2⟩, h3⟩ k hk
      have hvk : (values k).length = k.length := List.length_map _
      rw [said]
      cases hf : flush k with
      | true =>
        obtain ⟨s, hs⟩ := (flush_iff k).1 hf
        have h4 := h3 (mask (values (l.filter (fun c => c.2 == s))))
          (List.mem_map.2 ⟨s, by cases s <;> simp, rfl⟩)
        rw [best_le_iff hg (hsuit s).1 (hsuit s).2] at h4
        have e : k = k.filter (fun c => c.2 == s) := by
          rw [List.filter_eq_self.2]
          intro c hc
          rw [beq_iff_eq]
          exact hs c hc
        have h6 := h4 (values k) (by
          rw [e]
          exact (hk.filter _).map _)
        rw [worthSuited, hvk] at h6
        exact h6
      | false =>
        have h2' : 2 ≤ k.length := by
          by_contra hlt
          rw [Bool.eq_false_iff, ne_eq, flush_iff] at hf
          match k, hlt with
          | [], _ => exact hf ⟨.Clubs, by simp⟩
          | [c], _ => exact hf ⟨c.2, by simp⟩
          | _ :: _ :: _, hlt => exact hlt (by simp)
        have h6 := h1 (values k) (hk.map _) (by omega)
        rw [worthMixed, hvk] at h6
        exact h6
  exact ⟨(key _).2 (Nat.le_refl _), (key _).1 (Nat.le_refl _)⟩

/-- The sum over all hands. -/
theorem bestOf_sum {t : Tabs} (hg : Good t) {N : Nat}
    (hN : sumOver (hands t) (falling 5 allValues) = N) :
    ∑ x ∈ fiveCardHands, bestOf (prizeOf t) x = N := by
  have hp : fiveCardHands = cards.toFinset.powersetCard 5 := by
    have : pack = cards.toFinset := by
      ext c
      rw [List.mem_toFinset]
      exact ⟨fun _ => mem_cards c, fun _ => pack_complete c⟩
    rw [fiveCardHands, this]
  rw [hp, sum_sets cards_nodup, ← hN, ← hands_sum]
  refine congrArg List.sum (List.map_congr_left (fun l hl => ?_))
  obtain ⟨h1, h2⟩ := List.mem_sublistsLen.1 hl
  exact bestOf_full hg h1 h2

end Poker.Hold
