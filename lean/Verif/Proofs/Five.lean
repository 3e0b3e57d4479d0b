import Verif.Proofs.Cover
import Verif.Proofs.EvalOrder
import Verif.Spec.Deal

/-! # Evaluating five cards (helper lemmas) -/

namespace Poker
open Rules Comb

namespace Tab

attribute [local irreducible] Kinds.straights Kinds.nonStraights Kinds.quads Kinds.fullHouses
  Kinds.trips Kinds.twoPairs Kinds.pairs

/-! ## Kinds -/

set_option maxRecDepth 100000 in
theorem check_kinds : unsuitedKinds.all (fun c => c.length == 5 && c.all (allValues.contains ·))
    = true := by decide +kernel

theorem kind_length {c : List Nat} (h : c ∈ unsuitedKinds) : c.length = 5 := by
  have := List.all_eq_true.1 check_kinds c h
  simp only [Bool.and_eq_true, beq_iff_eq] at this
  exact this.1

theorem kind_values {c : List Nat} (h : c ∈ unsuitedKinds) : ∀ v ∈ c, v ∈ allValues := by
  have := List.all_eq_true.1 check_kinds c h
  simp only [Bool.and_eq_true, List.all_eq_true, List.contains_iff_mem] at this
  exact this.2

theorem flushKinds_sub {c : List Nat} (h : c ∈ flushKinds) : c ∈ unsuitedKinds := by
  simp only [flushKinds, unsuitedKinds, List.mem_append] at h ⊢
  tauto

theorem mem_flushKinds {c : List Nat} : c ∈ flushKinds ↔ c ∈ five := by
  rw [flushKinds, List.mem_append]
  constructor
  · rintro (h | h)
    · exact straights_sub c h
    · exact mem_five_nonStraights h
  · exact five_split

theorem mem_ladder {s : Kinds.Segment} (hs : s ∈ Kinds.segments) {c : List Nat} (hc : c ∈ s.seg) :
    worth s.fl c ∈ Kinds.ladder := by
  rw [Kinds.worth_seg hs hc, Kinds.ladder]
  exact List.mem_flatMap.2 ⟨s, hs, List.mem_map.2 ⟨c, hc, rfl⟩⟩

theorem flush_mem_ladder {c : List Nat} (h : c ∈ flushKinds) : worth true c ∈ Kinds.ladder := by
  rw [flushKinds, List.mem_append] at h
  rcases h with h | h
  · exact mem_ladder (s := Kinds.sStraightFlush) (by simp [Kinds.segments]) h
  · exact mem_ladder (s := Kinds.sFlush) (by simp [Kinds.segments]) h

theorem unsuited_mem_ladder {c : List Nat} (h : c ∈ unsuitedKinds) :
    worth false c ∈ Kinds.ladder := by
  simp only [unsuitedKinds, List.mem_append] at h
  rcases h with (((((h | h) | h) | h) | h) | h) | h
  · exact mem_ladder (s := Kinds.sStraight) (by simp [Kinds.segments]) h
  · exact mem_ladder (s := Kinds.sHigh) (by simp [Kinds.segments]) h
  · exact mem_ladder (s := Kinds.sQuads) (by simp [Kinds.segments]) h
  · exact mem_ladder (s := Kinds.sFullHouse) (by simp [Kinds.segments]) h
  · exact mem_ladder (s := Kinds.sTrips) (by simp [Kinds.segments]) h
  · exact mem_ladder (s := Kinds.sTwoPair) (by simp [Kinds.segments]) h
  · exact mem_ladder (s := Kinds.sPair) (by simp [Kinds.segments]) h

theorem lookup_entries (fl : Bool) (l : List (List Nat)) (hl : ∀ c ∈ l, c ∈ unsuitedKinds)
    {vs c : List Nat} (hc : c ∈ l) (hp : vs.Perm c) :
    (insertAll .empty (entries fl l)).index (keyV vs) = .ok (metaFor (worth fl vs)) := by
  have h : (insertAll .empty (entries fl l)).get? (keyV vs) = some (metaFor (worth fl vs)) := by
    refine get?_insertAll _ _ _ _ ?_ (.inl ⟨(keyV c, metaFor (worth fl c)), ?_, ?_⟩)
    · intro e he hk
      obtain ⟨d, hd, rfl⟩ := List.mem_map.1 he
      rw [keyV_perm hp] at hk
      have := keyV_inj (kind_values (hl d hd)) (kind_values (hl c hc)) (kind_length (hl d hd))
        (kind_length (hl c hc)) hk
      rw [worth_perm fl (this.trans hp.symm)]
    · exact List.mem_map.2 ⟨c, hc, rfl⟩
    · exact (keyV_perm hp).symm
  simp only [FxHashMap.index, h]

theorem lookup_flush {vs c : List Nat} (hc : c ∈ five) (hp : vs.Perm c) :
    flushTable.index (keyV vs) = .ok (metaFor (worth true vs)) :=
  lookup_entries true flushKinds (fun _ h => flushKinds_sub h) (mem_flushKinds.2 hc) hp

theorem lookup_unsuited {vs c : List Nat} (hc : c ∈ unsuitedKinds) (hp : vs.Perm c) :
    unsuitedTable.index (keyV vs) = .ok (metaFor (worth false vs)) :=
  lookup_entries false unsuitedKinds (fun _ h => h) hc hp

/-! ## The evaluator -/

def theEvaluator : Evaluator := ⟨⟨flushTable, unsuitedTable⟩⟩

theorem evaluator_new : Evaluator.new = .ok theEvaluator := by
  unfold Evaluator.new
  rw [new_eq]
  rfl

/-! ## Cards -/

theorem pips_mem (r : Rank) : pips r ∈ allValues := by cases r <;> decide

theorem pips_inj {r s : Rank} (h : pips r = pips s) : r = s := by
  revert h; cases r <;> cases s <;> decide

theorem rankOf_pips (r : Rank) : rankOf (pips r) = r := by cases r <;> rfl

theorem card_low (r : Rank) (s : Suit) :
    (Card.new r s).unique_integer &&& 0xFF = BitVec.ofNat 32 (primeV (pips r)) := by
  cases r <;> cases s <;> decide +kernel

def suitMask : Suit → BitVec 32
  | .Clubs => 0x8000
  | .Diamonds => 0x4000
  | .Hearts => 0x2000
  | .Spades => 0x1000

theorem mask_first (r : Rank) (s : Suit) :
    0xF000#32 &&& (Card.new r s).unique_integer = suitMask s := by
  cases r <;> cases s <;> decide +kernel

theorem mask_next (r : Rank) (s t : Suit) :
    suitMask t &&& (Card.new r s).unique_integer = if s = t then suitMask t else 0 := by
  cases r <;> cases s <;> cases t <;> decide +kernel

theorem suitMask_ne (s : Suit) : suitMask s ≠ 0 := by cases s <;> decide

theorem foldl_and_zero (l : List (BitVec 32)) : l.foldl (fun acc x => acc &&& x) 0 = 0 := by
  induction l with
  | nil => rfl
  | cons a l ih =>
    rw [List.foldl_cons]
    have : (0 : BitVec 32) &&& a = 0 := BitVec.zero_and
    rw [this, ih]

theorem foldl_mask (h : List PCard) (t : Suit) :
    ((deal h).map Card.unique_integer).foldl (fun acc x => acc &&& x) (suitMask t)
      = if h.all (fun c => c.2 == t) then suitMask t else 0 := by
  induction h with
  | nil => rfl
  | cons c h ih =>
    have : deal (c :: h) = Card.new c.1 c.2 :: deal h := rfl
    rw [this, List.map_cons, List.foldl_cons, mask_next, List.all_cons]
    by_cases hc : c.2 = t
    · subst hc
      rw [if_pos rfl, ih, beq_self_eq_true, Bool.true_and]
    · rw [if_neg hc, foldl_and_zero, beq_eq_false_iff_ne.2 hc, Bool.false_and]
      rfl

theorem flush_cons (c : PCard) (h : List PCard) :
    Rules.flush (c :: h) = h.all (fun d => d.2 == c.2) := by
  obtain ⟨r, s⟩ := c
  have e : ∀ s t : Suit, (s == t) = decide (s = t) := fun _ _ => rfl
  cases s <;> simp [Rules.flush, e]

theorem detect_flush {h : List PCard} (hne : h ≠ []) :
    (((deal h).map Card.unique_integer).foldl (fun acc x => acc &&& x) 0xF000#32 != 0)
      = Rules.flush h := by
  match h, hne with
  | c :: h, _ =>
    have : deal (c :: h) = Card.new c.1 c.2 :: deal h := rfl
    rw [this, List.map_cons, List.foldl_cons, mask_first, foldl_mask, flush_cons]
    cases h.all (fun d => d.2 == c.2)
    · rfl
    · simp only [if_true]
      have := suitMask_ne c.2
      simpa using this

/-! ### Rank bits -/

def bitV (v : Nat) : BitVec 16 := 1#16 <<< (v - 2)

def high16 (x : BitVec 32) : BitVec 16 := (x.sshiftRight 16).truncate 16

theorem high16_or (x y : BitVec 32) : high16 (x ||| y) = high16 x ||| high16 y := by
  unfold high16
  ext i hi
  simp only [BitVec.truncate_eq_setWidth, BitVec.getElem_setWidth, BitVec.getLsbD_sshiftRight,
    BitVec.getLsbD_or, BitVec.msb_or, BitVec.getElem_or]
  split <;> rw [Bool.and_or_distrib_left]

theorem high16_card (r : Rank) (s : Suit) :
    high16 (Card.new r s).unique_integer = bitV (pips r) := by
  cases r <;> cases s <;> decide +kernel

theorem foldl_or (h : List PCard) (acc : BitVec 32) :
    high16 (((deal h).map Card.unique_integer).foldl (fun acc x => acc ||| x) acc)
      = ((values h).map bitV).foldl (· ||| ·) (high16 acc) := by
  induction h generalizing acc with
  | nil => rfl
  | cons c h ih =>
    have e1 : deal (c :: h) = Card.new c.1 c.2 :: deal h := rfl
    have e2 : values (c :: h) = pips c.1 :: values h := rfl
    rw [e1, e2, List.map_cons, List.foldl_cons, ih, high16_or, high16_card, List.map_cons,
      List.foldl_cons]

theorem foldl_or_perm {a b : List (BitVec 16)} (h : a.Perm b) (acc : BitVec 16) :
    a.foldl (· ||| ·) acc = b.foldl (· ||| ·) acc := by
  have : RightCommutative (fun x y : BitVec 16 => x ||| y) :=
    ⟨fun x y z => by show x ||| y ||| z = x ||| z ||| y; rw [BitVec.or_assoc, BitVec.or_comm y z, BitVec.or_assoc]⟩
  exact h.foldl_eq acc

theorem bits_five {c : List Nat} (h : c ∈ five) :
    (c.map bitV).foldl (· ||| ·) 0#16 = bitsOf c :=
  eq_of_beq (List.all_eq_true.1 check_or c h)

/-! ### Prime products -/

theorem prime_hand_aux (h : List PCard) (n : Nat) :
    ((deal h).map (fun card => card.unique_integer &&& 0xFF)).foldl (fun acc x => acc * x)
      (BitVec.ofNat 32 n) = BitVec.ofNat 32 (n * keyN (values h)) := by
  induction h generalizing n with
  | nil => simp [deal, values, keyN]
  | cons c h ih =>
    have e1 : deal (c :: h) = Card.new c.1 c.2 :: deal h := rfl
    have e2 : keyN (values (c :: h)) = primeV (pips c.1) * keyN (values h) := by
      simp [values, keyN]
    rw [e1, e2, List.map_cons, List.foldl_cons, card_low, ← BitVec.ofNat_mul, ih, Nat.mul_assoc]

theorem prime_hand (h : List PCard) : prime_product_from_hand (deal h) = keyV (values h) := by
  have := prime_hand_aux h 1
  rw [Nat.one_mul] at this
  exact this

/-! ### Counting values -/

theorem values_mem (h : List PCard) : ∀ v ∈ values h, v ∈ allValues := by
  intro v hv
  obtain ⟨c, _, rfl⟩ := List.mem_map.1 hv
  exact pips_mem c.1

theorem values_length (h : List PCard) : (values h).length = h.length := by simp [values]

theorem count_values_le {h : List PCard} (hn : h.Nodup) (v : Nat) : (values h).count v ≤ 4 := by
  have e : (values h).count v = ((h.filter (fun c => pips c.1 == v)).map (·.2)).length := by
    rw [values, List.count_eq_countP, List.countP_map, List.countP_eq_length_filter,
      List.length_map]
    rfl
  rw [e]
  have hnd : ((h.filter (fun c => pips c.1 == v)).map (·.2)).Nodup := by
    refine List.Nodup.map_on ?_ (hn.filter _)
    intro x hx y hy hxy
    have h1 := (List.mem_filter.1 hx).2
    have h2 := (List.mem_filter.1 hy).2
    simp only [beq_iff_eq] at h1 h2
    exact Prod.ext (pips_inj (h1.trans h2.symm)) hxy
  have hsub : ((h.filter (fun c => pips c.1 == v)).map (·.2)) ⊆
      [Suit.Clubs, Suit.Hearts, Suit.Spades, Suit.Diamonds] := by
    intro s _
    cases s <;> simp
  exact (hnd.subperm hsub).length_le

theorem values_nodup {h : List PCard} (hn : h.Nodup) (hf : Rules.flush h = true) :
    (values h).Nodup := by
  refine List.Nodup.map_on ?_ hn
  intro x hx y hy hxy
  match h, hx with
  | c :: h, _ =>
    rw [flush_cons, List.all_eq_true] at hf
    have e : ∀ z ∈ c :: h, z.2 = c.2 := by
      intro z hz
      rcases List.mem_cons.1 hz with rfl | hz
      · rfl
      · exact eq_of_beq (hf z hz)
    exact Prod.ext (pips_inj hxy) ((e x (by assumption)).trans (e y hy).symm)

/-! ## `five` -/


theorem strength_mem {h : List PCard} (hn : h.Nodup) (h5 : h.length = 5) :
    strength h ∈ Kinds.ladder := by
  unfold strength
  cases hf : Rules.flush h with
  | true =>
    obtain ⟨c, hc, hp⟩ := cover_flush ((values_length h).trans h5) (values_mem h)
      (values_nodup hn hf)
    rw [worth_perm _ hp]
    exact flush_mem_ladder (mem_flushKinds.2 hc)
  | false =>
    obtain ⟨c, hc, hp⟩ := cover_unsuited ((values_length h).trans h5) (values_mem h)
      (count_values_le hn)
    rw [worth_perm _ hp]
    exact unsuited_mem_ladder hc

theorem five_eq {h : List PCard} (hn : h.Nodup) (h5 : h.length = 5) :
    Poker.five theEvaluator.toEvaluation (deal h) = .ok (evalOf (strength h)) := by
  have hne : h ≠ [] := by rintro rfl; cases h5
  unfold Poker.five
  dsimp only
  rw [detect_flush hne]
  unfold strength
  cases hf : Rules.flush h with
  | true =>
    obtain ⟨c, hc, hp⟩ := cover_flush ((values_length h).trans h5) (values_mem h)
      (values_nodup hn hf)
    have hsar : ∀ x : BitVec 32, sar x 16 = .ok (x.sshiftRight 16) := fun x => by simp [sar]
    have hbits := foldl_or h 0
    have h0 : high16 0 = 0#16 := by decide
    rw [h0, foldl_or_perm (hp.map bitV), bits_five hc] at hbits
    simp only [hsar, bind_ok, if_true]
    have hb : BitVec.truncate 16 ((((deal h).map Card.unique_integer).foldl
      (fun acc x => acc ||| x) 0#32).sshiftRight 16) = bitsOf c := hbits
    rw [hb, prime_five hc, bind_ok, ← keyV_perm hp]
    have : theEvaluator.toEvaluation.flush_lookup (keyV (values h)) = _ := lookup_flush hc hp
    rw [this]
    rfl
  | false =>
    obtain ⟨c, hc, hp⟩ := cover_unsuited ((values_length h).trans h5) (values_mem h)
      (count_values_le hn)
    rw [prime_hand]
    have : theEvaluator.toEvaluation.unsuited_lookup (keyV (values h)) = _ := lookup_unsuited hc hp
    rw [this]
    rfl

end Tab
end Poker
