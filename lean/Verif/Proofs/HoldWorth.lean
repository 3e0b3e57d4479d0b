import Verif.Proofs.HoldSum
import Verif.Proofs.HoldQuick
import Verif.Proofs.Sets
import Mathlib.Algebra.BigOperators.Ring.Finset
import Mathlib.Algebra.BigOperators.Group.Finset.Sigma
import Mathlib.Algebra.Group.Action.Defs

/-! What the cards that are kept are worth: the tables say it. -/

namespace Poker.Hold
open Rules Counts Sets Tab

/-! ## One more card -/

theorem sum_insert (S : Finset PCard) (m : Nat) (G : Finset PCard → Nat) :
    (m + 1) * ∑ y ∈ S.powersetCard (m + 1), G y
      = ∑ c ∈ S, ∑ z ∈ (S.erase c).powersetCard m, G (insert c z) := by
  have h1 : (m + 1) * ∑ y ∈ S.powersetCard (m + 1), G y = ∑ y ∈ S.powersetCard (m + 1), ∑ _c ∈ y, G y := by
    rw [Finset.mul_sum]
    refine Finset.sum_congr rfl (fun y hy => ?_)
    rw [Finset.sum_const, (Finset.mem_powersetCard.1 hy).2, smul_eq_mul]
  rw [h1, Finset.sum_comm' (t' := S) (s' := fun c => (S.powersetCard (m + 1)).filter (c ∈ ·))]
  · refine Finset.sum_congr rfl (fun c hc => ?_)
    refine Finset.sum_nbij' (fun y => y.erase c) (fun z => insert c z) ?_ ?_ ?_ ?_ ?_
    · intro y hy
      obtain ⟨h1, h2⟩ := Finset.mem_filter.1 hy
      obtain ⟨h3, h4⟩ := Finset.mem_powersetCard.1 h1
      rw [Finset.mem_powersetCard, Finset.card_erase_of_mem h2, h4]
      exact ⟨Finset.erase_subset_erase c h3, rfl⟩
    · intro z hz
      obtain ⟨h1, h2⟩ := Finset.mem_powersetCard.1 hz
      have hcz : c ∉ z := fun h => Finset.notMem_erase c S (h1 h)
      rw [Finset.mem_filter, Finset.mem_powersetCard, Finset.card_insert_of_notMem hcz, h2]
      exact ⟨⟨Finset.insert_subset hc (h1.trans (Finset.erase_subset c S)), rfl⟩,
        Finset.mem_insert_self c z⟩
    · intro y hy
      exact Finset.insert_erase (Finset.mem_filter.1 hy).2
    · intro z hz
      have hcz : c ∉ z := fun h => Finset.notMem_erase c S ((Finset.mem_powersetCard.1 hz).1 h)
      exact Finset.erase_insert hcz
    · intro y hy
      rw [Finset.insert_erase (Finset.mem_filter.1 hy).2]
  · intro y c
    rw [Finset.mem_filter]
    constructor
    · rintro ⟨h1, h2⟩
      exact ⟨⟨h1, h2⟩, (Finset.mem_powersetCard.1 h1).1 h2⟩
    · rintro ⟨⟨h1, h2⟩, -⟩
      exact ⟨h1, h2⟩

/-- What comes back in all the ways to complete the cards of `K`. -/
def ways (F : Finset PCard → Nat) (K : Finset PCard) : Nat :=
  ∑ y ∈ (pack \ K).powersetCard (5 - K.card), F (K ∪ y)

theorem ways_five (F : Finset PCard → Nat) {K : Finset PCard} (hK : K.card = 5) : ways F K = F K := by
  rw [ways, hK, Nat.sub_self, Finset.powersetCard_zero, Finset.sum_singleton, Finset.union_empty]

theorem ways_step (F : Finset PCard → Nat) {K : Finset PCard} {m : Nat} (hK : K.card + (m + 1) = 5) :
    (m + 1) * ways F K = ∑ c ∈ pack \ K, ways F (insert c K) := by
  rw [ways, show 5 - K.card = m + 1 from by omega, sum_insert]
  refine Finset.sum_congr rfl (fun c hc => ?_)
  have hcK : c ∉ K := (Finset.mem_sdiff.1 hc).2
  rw [ways, Finset.card_insert_of_notMem hcK, show 5 - (K.card + 1) = m from by omega,
    ← Finset.sdiff_insert]
  refine Finset.sum_congr rfl (fun z _ => ?_)
  rw [Finset.union_insert, Finset.insert_union]

/-! ## The values of a set of cards, from the highest to the lowest -/

/-- The cards of a set in the order of the pack. -/
def keyList (K : Finset PCard) : List PCard := cards.filter (fun c => decide (c ∈ K))

/-- Their values. -/
def key (K : Finset PCard) : List Nat := values (keyList K)

theorem mem_cards (c : PCard) : c ∈ cards := by
  have h := pack_complete c
  rwa [pack_eq] at h

theorem mem_keyList {K : Finset PCard} {c : PCard} : c ∈ keyList K ↔ c ∈ K := by
  rw [keyList, List.mem_filter, decide_eq_true_eq]
  exact ⟨fun h => h.2, fun h => ⟨mem_cards c, h⟩⟩

theorem keyList_sublist (K : Finset PCard) : (keyList K).Sublist cards := List.filter_sublist

theorem keyList_nodup (K : Finset PCard) : (keyList K).Nodup := (keyList_sublist K).nodup cards_nodup

theorem keyList_toFinset (K : Finset PCard) : (keyList K).toFinset = K := by
  ext c
  rw [List.mem_toFinset, mem_keyList]

theorem keyList_length (K : Finset PCard) : (keyList K).length = K.card := by
  rw [← List.toFinset_card_of_nodup (keyList_nodup K), keyList_toFinset]

theorem key_length (K : Finset PCard) : (key K).length = K.card := by
  rw [key, values, List.length_map, keyList_length]

theorem cards_falling : (values cards).Pairwise (· ≥ ·) := by decide

theorem sublist_falling {l : List PCard} (h : l.Sublist cards) : (values l).Pairwise (· ≥ ·) :=
  cards_falling.sublist (h.map _)

theorem key_falling (K : Finset PCard) : (key K).Pairwise (· ≥ ·) := sublist_falling (keyList_sublist K)

theorem falling_unique {l l' : List Nat} (hp : l.Perm l') (h : l.Pairwise (· ≥ ·))
    (h' : l'.Pairwise (· ≥ ·)) : l = l' := hp.eq_of_pairwise (fun _ _ _ _ h1 h2 => Nat.le_antisymm h2 h1) h h'

theorem key_of_list {l : List PCard} (hs : l.Sublist cards) : key l.toFinset = values l := by
  refine falling_unique ?_ (key_falling _) (sublist_falling hs)
  refine List.Perm.map _ ((List.perm_ext_iff_of_nodup (keyList_nodup _) (hs.nodup cards_nodup)).2 ?_)
  intro c
  rw [mem_keyList, List.mem_toFinset]

theorem ins_perm (v : Nat) (l : List Nat) : (ins v l).Perm (v :: l) := by
  induction l with
  | nil => exact .refl _
  | cons a l ih =>
    rw [ins]
    cases Nat.ble a v with
    | true => exact .refl _
    | false => exact (ih.cons a).trans (.swap v a l)

theorem ins_falling {v : Nat} {l : List Nat} (h : l.Pairwise (· ≥ ·)) : (ins v l).Pairwise (· ≥ ·) := by
  induction l with
  | nil => simp [ins]
  | cons a l ih =>
    rw [ins]
    rw [List.pairwise_cons] at h
    cases hb : Nat.ble a v with
    | true =>
      have := Nat.le_of_ble_eq_true hb
      rw [cond_true, List.pairwise_cons, List.pairwise_cons]
      refine ⟨fun x hx => ?_, h⟩
      rcases List.mem_cons.1 hx with rfl | hx
      · exact this
      · exact (h.1 x hx).trans this
    | false =>
      have := Nat.not_le_of_not_ble_eq_true (by rw [hb]; exact Bool.false_ne_true)
      rw [cond_false, List.pairwise_cons]
      refine ⟨fun x hx => ?_, ih h.2⟩
      rcases List.mem_cons.1 ((ins_perm v l).mem_iff.1 hx) with rfl | hx
      · omega
      · exact h.1 x hx

theorem key_insert {K : Finset PCard} {c : PCard} (hc : c ∉ K) :
    key (insert c K) = ins (pips c.1) (key K) := by
  refine falling_unique ?_ (key_falling _) (ins_falling (key_falling K))
  refine List.Perm.trans ?_ (ins_perm _ _).symm
  have : (keyList (insert c K)).Perm (c :: keyList K) := by
    refine (List.perm_ext_iff_of_nodup (keyList_nodup _) (List.nodup_cons.2 ⟨?_, keyList_nodup K⟩)).2 ?_
    · rwa [mem_keyList]
    · intro x
      rw [mem_keyList, List.mem_cons, mem_keyList, Finset.mem_insert]
  exact this.map _

theorem mem_falling_of {rs : List Nat} {n : Nat} {R : List Nat} (hR : R.Pairwise (· ≥ ·))
    (hl : R.length = n) (hm : ∀ x ∈ R, x ∈ rs) (hrs : rs.Pairwise (· > ·)) : R ∈ falling n rs := by
  induction n generalizing rs R with
  | zero => rw [List.length_eq_zero_iff.1 hl]; simp [falling]
  | succ n ihn =>
    induction rs with
    | nil =>
      match R, hl with
      | x :: R, _ => exact absurd (hm x (by simp)) (by simp)
    | cons v rs ih =>
      rw [List.pairwise_cons] at hrs
      rw [falling_succ_cons, List.mem_append, List.mem_map]
      match R, hl with
      | x :: R, hl =>
        rw [List.pairwise_cons] at hR
        by_cases hx : x = v
        · subst hx
          exact .inl ⟨R, ihn hR.2 (by simpa using hl) (fun y hy => hm y (by simp [hy]))
            (List.pairwise_cons.2 hrs), rfl⟩
        · refine .inr (ih (fun y hy => ?_) hrs.2)
          have hxm : x ∈ rs := by
            rcases List.mem_cons.1 (hm x (by simp)) with h | h
            · exact absurd h hx
            · exact h
          rcases List.mem_cons.1 (hm y hy) with rfl | h
          · exfalso
            have h1 := hrs.1 x hxm
            rcases List.mem_cons.1 hy with h | h
            · exact hx h.symm
            · have := hR.1 y h
              omega
          · exact h

theorem key_values (K : Finset PCard) : ∀ x ∈ key K, x ∈ allValues := by
  intro x hx
  obtain ⟨c, -, rfl⟩ := List.mem_map.1 hx
  cases c.1 <;> decide

theorem key_mem (K : Finset PCard) : key K ∈ falling K.card allValues :=
  mem_falling_of (key_falling K) (key_length K) (key_values K) (by decide)

theorem flush_iff (l : List PCard) : flush l = true ↔ ∃ s, ∀ c ∈ l, c.2 = s := by
  rw [flush, List.any_eq_true]
  constructor
  · rintro ⟨s, -, h⟩
    refine ⟨s, fun c hc => ?_⟩
    have := List.all_eq_true.1 h c hc
    rwa [beq_iff_eq] at this
  · rintro ⟨s, h⟩
    refine ⟨s, by cases s <;> simp, List.all_eq_true.2 (fun c hc => ?_)⟩
    rw [beq_iff_eq]
    exact h c hc

theorem suit_sublist {l : List PCard} (hs : l.Sublist cards) {s : Suit} (h : ∀ c ∈ l, c.2 = s) :
    (values l).Sublist allValues := by
  have h1 : l = l.filter (fun c => c.2 == s) := by
    rw [List.filter_eq_self.2]
    intro c hc
    rw [beq_iff_eq]
    exact h c hc
  have h2 : values (cards.filter (fun c => c.2 == s)) = allValues := by cases s <;> decide
  rw [h1, ← h2]
  exact (hs.filter _).map _

/-! ## The tables -/

/-- All checks of the tables. -/
structure Good (t : Tabs) : Prop where
  empty : emptyOk t = true
  mixed4 : (falling 4 allValues).all (mixedOk t 1) = true
  mixed3 : (falling 3 allValues).all (mixedOk t 2) = true
  mixed2 : (falling 2 allValues).all (mixedOk t 3) = true
  suited4 : (List.sublistsLen 4 allValues).all (suitedOk t 1) = true
  suited3 : (List.sublistsLen 3 allValues).all (suitedOk t 2) = true
  suited2 : (List.sublistsLen 2 allValues).all (suitedOk t 3) = true
  suited1 : (List.sublistsLen 1 allValues).all (suitedOk t 4) = true
  less2 : (List.sublistsLen 2 allValues).all (lessOk t) = true
  less3 : (List.sublistsLen 3 allValues).all (lessOk t) = true
  less4 : (List.sublistsLen 4 allValues).all (lessOk t) = true
  less5 : (List.sublistsLen 5 allValues).all (lessOk t) = true
  best0 : (List.sublistsLen 0 allValues).all (bestOk t) = true
  best1 : (List.sublistsLen 1 allValues).all (bestOk t) = true
  best2 : (List.sublistsLen 2 allValues).all (bestOk t) = true
  best3 : (List.sublistsLen 3 allValues).all (bestOk t) = true
  best4 : (List.sublistsLen 4 allValues).all (bestOk t) = true
  best5 : (List.sublistsLen 5 allValues).all (bestOk t) = true

/-- What the tables say about the cards of a list. -/
noncomputable def said (t : Tabs) (l : List PCard) : Nat :=
  cond (flush l) (suited t (values l)) (mixed t (values l))

/-- A sum over the cards that are left, value by value. -/
theorem sum_left (K : Finset PCard) (f : PCard → Nat) :
    ∑ c ∈ pack \ K, f c = (([Rank.Ace, .King, .Queen, .Jack, .Ten, .Nine, .Eight, .Seven, .Six,
      .Five, .Four, .Three, .Two].map (fun r =>
        ((block r).map (fun c => if c ∈ K then 0 else f c)).sum))).sum := by
  have h1 : pack \ K = (cards.filter (fun c => decide (c ∉ K))).toFinset := by
    ext c
    rw [Finset.mem_sdiff, List.mem_toFinset, List.mem_filter, decide_eq_true_eq]
    exact ⟨fun h => ⟨mem_cards c, h.2⟩, fun h => ⟨pack_complete c, h.2⟩⟩
  rw [h1, List.sum_toFinset f (cards_nodup.filter _)]
  have h2 : ∀ L : List PCard, ((L.filter (fun c => decide (c ∉ K))).map f).sum
      = (L.map (fun c => if c ∈ K then 0 else f c)).sum := by
    intro L
    induction L with
    | nil => rfl
    | cons c L ih =>
      rw [List.filter_cons, List.map_cons, List.sum_cons, ← ih]
      by_cases h : c ∈ K
      · simp [h]
      · simp [h]
  rw [h2, cards, List.map_flatMap, List.flatMap, List.sum_flatten, List.map_map]
  rfl

theorem count_key (K : Finset PCard) (r : Rank) :
    (key K).count (pips r) = ((block r).map (fun c => if c ∈ K then 1 else 0)).sum := by
  have h1 : (key K).count (pips r) = (keyList K).countP (fun c => c.1 == r) := by
    rw [key, values, List.count, List.countP_map]
    refine List.countP_congr (fun c _ => ?_)
    rw [Function.comp_apply, beq_iff_eq, beq_iff_eq]
    exact ⟨fun h => pips_inj h, fun h => by rw [h]⟩
  have h2 : ((keyList K).filter (fun c => c.1 == r)).Perm ((block r).filter (fun c => decide (c ∈ K))) := by
    refine (List.perm_ext_iff_of_nodup ((keyList_nodup K).filter _) ?_).2 ?_
    · exact List.Nodup.filter _ (by cases r <;> decide)
    · intro ⟨x, s⟩
      rw [List.mem_filter, List.mem_filter, mem_keyList, decide_eq_true_eq, beq_iff_eq]
      constructor
      · rintro ⟨h, rfl⟩
        exact ⟨by cases s <;> simp [block], h⟩
      · rintro ⟨h, h'⟩
        refine ⟨h', ?_⟩
        simp only [block, List.mem_cons, Prod.mk.injEq, List.not_mem_nil, or_false] at h
        tauto
  rw [h1, List.countP_eq_length_filter, h2.length_eq]
  induction block r with
  | nil => rfl
  | cons c L ih =>
    rw [List.filter_cons, List.map_cons, List.sum_cons, ← ih]
    by_cases h : c ∈ K
    · simp [h, Nat.add_comm]
    · simp [h]

theorem addUp_ranks (f : Nat → Nat) : addUp f allValues = ([Rank.Ace, .King, .Queen, .Jack, .Ten,
    .Nine, .Eight, .Seven, .Six, .Five, .Four, .Three, .Two].map (fun r => f (pips r))).sum := by
  rw [addUp_eq]
  rfl

/-- The sum of what depends on the value only. -/
theorem sum_left_values (K : Finset PCard) (f : Nat → Nat) :
    ∑ c ∈ pack \ K, f (pips c.1) = addUp (fun v => (4 - times v (key K)) * f v) allValues := by
  rw [sum_left, addUp_ranks]
  refine congrArg List.sum (List.map_congr_left (fun r _ => ?_))
  rw [times_eq, count_key]
  have : ∀ (L : List PCard), (∀ c ∈ L, pips c.1 = pips r) →
      (L.map (fun c => if c ∈ K then 0 else f (pips c.1))).sum
        + (L.map (fun c => if c ∈ K then 1 else 0)).sum * f (pips r) = L.length * f (pips r) := by
    intro L hL
    induction L with
    | nil => simp
    | cons c L ih =>
      have ih := ih (fun c hc => hL c (by simp [hc]))
      have hc := hL c (by simp)
      simp only [List.map_cons, List.sum_cons, List.length_cons]
      by_cases h : c ∈ K
      · simp only [h, if_true, Nat.add_mul, Nat.zero_add]; omega
      · simp only [h, if_false, Nat.add_mul, Nat.zero_add, hc]; omega
  have h := this (block r) (fun c hc => by
    simp only [block, List.mem_cons, List.not_mem_nil, or_false] at hc
    rcases hc with rfl | rfl | rfl | rfl <;> rfl)
  rw [show (block r).length = 4 from rfl] at h
  rw [Nat.sub_mul, ← h, Nat.add_sub_cancel_right]

/-- The sum of what depends on the value, and on whether the card is of the suit of all cards of `K`. -/
theorem sum_left_suited {K : Finset PCard} {s : Suit} (hK : ∀ c ∈ K, c.2 = s) (A B : Nat → Nat) :
    ∑ c ∈ pack \ K, (if c.2 = s then A (pips c.1) else B (pips c.1))
      = addUp (fun v => cond (has (key K) v) 0 (A v) + 3 * B v) allValues := by
  rw [sum_left, addUp_ranks]
  refine congrArg List.sum (List.map_congr_left (fun r _ => ?_))
  have h1 : has (key K) (pips r) = decide ((r, s) ∈ K) := by
    rw [has_eq, Bool.eq_iff_iff, List.contains_iff_mem, decide_eq_true_eq, key, values, List.mem_map]
    constructor
    · rintro ⟨⟨x, s'⟩, h1, h2⟩
      rw [mem_keyList] at h1
      have h3 := hK _ h1
      dsimp only at h2 h3
      rwa [← pips_inj h2, ← h3]
    · exact fun h => ⟨_, mem_keyList.2 h, rfl⟩
  have h2 : ∀ s', s' ≠ s → (r, s') ∉ K := fun s' hs h => hs (hK _ h)
  rw [h1]
  by_cases h : (r, s) ∈ K
  · cases s <;> simp [block, h, h2] <;> omega
  · cases s <;> simp [block, h, h2] <;> omega

theorem flush_keyList (K : Finset PCard) : flush (keyList K) = true ↔ ∃ s, ∀ c ∈ K, c.2 = s := by
  rw [flush_iff]
  simp only [mem_keyList]

/-- What comes back for five cards. -/
noncomputable def prizeOf (t : Tabs) (x : Finset PCard) : Nat := pay t.royal (setKind x)

theorem key_suited {K : Finset PCard} (h : flush (keyList K) = true) :
    key K ∈ List.sublistsLen K.card allValues := by
  obtain ⟨s, hs⟩ := (flush_iff _).1 h
  exact List.mem_sublistsLen.2 ⟨suit_sublist (keyList_sublist K) hs, key_length K⟩

theorem said_five (t : Tabs) {K : Finset PCard} (hK : K.card = 5) :
    prizeOf t K = said t (keyList K) := by
  have hc : ∀ v, (key K).count v ≤ 4 := fun v => count_values (keyList_sublist K) v
  have h1 : setKind K = fast (flush (keyList K)) (key K) := by
    rw [fast_eq _ _ hc]
    conv_lhs => rw [← keyList_toFinset K, setKind_list (keyList_nodup K)]
    rfl
  have hlen := key_length K
  rw [hK] at hlen
  rw [prizeOf, h1, said, show values (keyList K) = key K from rfl]
  cases hf : flush (keyList K) with
  | true =>
    have hm := key_suited hf
    rw [hK] at hm
    have h2 := List.all_eq_true.1 quick_suited _ hm
    have h3 : (key K).Pairwise (· > ·) :=
      List.Pairwise.sublist (List.mem_sublistsLen.1 hm).1 (by decide : allValues.Pairwise (· > ·))
    match hk : key K, hlen with
    | [a, b, c, d, e], _ =>
      rw [hk] at h2 h3
      have hae : Nat.beq a e = false := by
        rw [beq_dec]
        exact decide_eq_false (Nat.ne_of_gt ((List.pairwise_cons.1 h3).1 e (by simp)))
      rw [quickOk, hae, Bool.false_or] at h2
      rw [Nat.eq_of_beq_eq_true h2]
      rfl
  | false =>
    have hm := key_mem K
    rw [hK] at hm
    have h2 := List.all_eq_true.1 quick_mixed _ hm
    have h3 := key_falling K
    match hk : key K, hlen with
    | [a, b, c, d, e], _ =>
      rw [hk] at h2 h3 hc
      have hae : Nat.beq a e = false := by
        rw [beq_dec]
        refine decide_eq_false (fun h => ?_)
        subst h
        simp only [List.pairwise_cons, List.mem_cons, List.not_mem_nil, or_false, forall_eq_or_imp,
          forall_eq] at h3
        have hb : b = a := by omega
        have hcc : c = a := by omega
        have hd : d = a := by omega
        have := hc a
        rw [hb, hcc, hd] at this
        simp at this
      rw [quickOk, hae, Bool.false_or] at h2
      rw [Nat.eq_of_beq_eq_true h2]
      rfl

/-- The tables say what comes back in all the ways to complete some cards. -/
theorem ways_said {t : Tabs} (hg : Good t) (n : Nat) {K : Finset PCard} (hK : K.card + n = 5) :
    ways (prizeOf t) K = said t (keyList K) := by
  induction n generalizing K with
  | zero =>
    rw [ways_five _ hK, said_five t hK]
  | succ m ih =>
    have hstep := ways_step (prizeOf t) hK
    have h1 : ∑ c ∈ pack \ K, ways (prizeOf t) (insert c K)
        = ∑ c ∈ pack \ K, said t (keyList (insert c K)) :=
      Finset.sum_congr rfl (fun c hc => ih (by
        rw [Finset.card_insert_of_notMem (Finset.mem_sdiff.1 hc).2]; omega))
    rw [h1] at hstep
    refine Nat.eq_of_mul_eq_mul_left (Nat.succ_pos m) (hstep.trans ?_)
    have hsaid : ∀ c ∈ pack \ K, said t (keyList (insert c K))
        = cond (flush (keyList (insert c K))) (suited t (ins (pips c.1) (key K)))
          (mixed t (ins (pips c.1) (key K))) := by
      intro c hc
      rw [said, show values (keyList (insert c K)) = key (insert c K) from rfl,
        key_insert (Finset.mem_sdiff.1 hc).2]
    rw [Finset.sum_congr rfl hsaid, said, show values (keyList K) = key K from rfl]
    cases hf : flush (keyList K) with
    | false =>
      have hno : ∀ c, flush (keyList (insert c K)) = false := by
        intro c
        rw [Bool.eq_false_iff, ne_eq, flush_keyList] at hf ⊢
        rintro ⟨s, hs⟩
        exact hf ⟨s, fun x hx => hs x (Finset.mem_insert_of_mem hx)⟩
      simp only [hno, cond_false]
      rw [sum_left_values K (fun v => mixed t (ins v (key K)))]
      have hk := key_mem K
      have h2 : 2 ≤ K.card := by
        by_contra hlt
        rw [Bool.eq_false_iff, ne_eq, flush_keyList] at hf
        rcases Nat.lt_or_ge 0 K.card with h0 | h0
        · obtain ⟨c, hc⟩ := Finset.card_eq_one.1 (show K.card = 1 from by omega)
          exact hf ⟨c.2, by simp [hc]⟩
        · have h0 := Finset.card_eq_zero.1 (Nat.le_zero.1 h0)
          exact hf ⟨.Clubs, by simp [h0]⟩
      have hm : mixedOk t (m + 1) (key K) = true := by
        have : m = 0 ∨ m = 1 ∨ m = 2 := by omega
        rcases this with rfl | rfl | rfl
        · rw [show K.card = 4 from by omega] at hk
          exact List.all_eq_true.1 hg.mixed4 _ hk
        · rw [show K.card = 3 from by omega] at hk
          exact List.all_eq_true.1 hg.mixed3 _ hk
        · rw [show K.card = 2 from by omega] at hk
          exact List.all_eq_true.1 hg.mixed2 _ hk
      exact (Nat.eq_of_beq_eq_true hm).symm
    | true =>
      obtain ⟨s, hs⟩ := (flush_keyList K).1 hf
      rw [cond_true]
      by_cases h0 : K = ∅
      · subst h0
        have hy : ∀ c, flush (keyList (insert c ∅)) = true := by
          intro c
          rw [flush_keyList]
          exact ⟨c.2, by simp⟩
        simp only [hy, cond_true]
        rw [sum_left_values ∅ (fun v => suited t (ins v (key ∅)))]
        have hm : m = 4 := by simpa using hK
        subst hm
        exact (Nat.eq_of_beq_eq_true hg.empty).symm
      · have hfl : ∀ c, flush (keyList (insert c K)) = decide (c.2 = s) := by
          intro c
          rw [Bool.eq_iff_iff, flush_keyList, decide_eq_true_eq]
          constructor
          · rintro ⟨s', h'⟩
            obtain ⟨x, hx⟩ := Finset.nonempty_iff_ne_empty.2 h0
            rw [h' c (Finset.mem_insert_self c K), ← h' x (Finset.mem_insert_of_mem hx), hs x hx]
          · intro hc
            refine ⟨s, fun x hx => ?_⟩
            rcases Finset.mem_insert.1 hx with rfl | hx
            · exact hc
            · exact hs x hx
        have hc : ∀ c ∈ pack \ K, cond (flush (keyList (insert c K)))
            (suited t (ins (pips c.1) (key K))) (mixed t (ins (pips c.1) (key K)))
            = if c.2 = s then suited t (ins (pips c.1) (key K))
              else mixed t (ins (pips c.1) (key K)) := by
          intro c _
          rw [hfl]
          by_cases h : c.2 = s <;> simp [h]
        rw [Finset.sum_congr rfl hc, sum_left_suited hs (fun v => suited t (ins v (key K)))
          (fun v => mixed t (ins v (key K)))]
        have hk := key_suited hf
        have hpos : 0 < K.card := Finset.card_pos.2 (Finset.nonempty_iff_ne_empty.2 h0)
        have hm : suitedOk t (m + 1) (key K) = true := by
          have : m = 0 ∨ m = 1 ∨ m = 2 ∨ m = 3 := by omega
          rcases this with rfl | rfl | rfl | rfl
          · rw [show K.card = 4 from by omega] at hk
            exact List.all_eq_true.1 hg.suited4 _ hk
          · rw [show K.card = 3 from by omega] at hk
            exact List.all_eq_true.1 hg.suited3 _ hk
          · rw [show K.card = 2 from by omega] at hk
            exact List.all_eq_true.1 hg.suited2 _ hk
          · rw [show K.card = 1 from by omega] at hk
            exact List.all_eq_true.1 hg.suited1 _ hk
        exact (Nat.eq_of_beq_eq_true hm).symm

end Poker.Hold
