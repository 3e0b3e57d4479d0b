import Verif.Model.Build
import Verif.Proofs.Combinations
import Verif.Proofs.Evaluate
import Verif.Props.Tables

/-! # Every build computes what the checked build computes (helper lemmas) -/

namespace Poker.Build
open Comb

/-- Whenever the first computation returns, the second returns the same. -/
def Refines {α : Type} (x y : Exec α) : Prop := ∀ v, x = .ok v → y = .ok v

namespace Refines

theorem refl {α : Type} (x : Exec α) : Refines x x := fun _ h => h

theorem of_eq {α : Type} {x y : Exec α} (h : y = x) : Refines x y := h ▸ refl x

theorem bind {α β : Type} {x y : Exec α} {f g : α → Exec β} (h : Refines x y)
    (hf : ∀ a, Refines (f a) (g a)) : Refines (x >>= f) (y >>= g) := by
  intro v hv
  cases hx : x with
  | error p => rw [hx] at hv; simp at hv
  | ok a =>
    rw [hx, bind_ok] at hv
    rw [h a hx, bind_ok]
    exact hf a v hv

theorem ite {α : Type} {c : Prop} [Decidable c] {x y x' y' : Exec α} (h : Refines x y)
    (h' : Refines x' y') : Refines (if c then x else x') (if c then y else y') := by
  split <;> assumption

theorem foldlM {α σ : Type} {f g : σ → α → Exec σ} (l : List α) (s : σ)
    (h : ∀ s a, a ∈ l → Refines (f s a) (g s a)) : Refines (l.foldlM f s) (l.foldlM g s) := by
  induction l generalizing s with
  | nil => exact refl _
  | cons a l ih =>
    simp only [List.foldlM_cons]
    exact bind (h s a (by simp)) (fun t => ih t (fun s a ha => h s a (by simp [ha])))

end Refines

theorem foldlM_congr {α σ : Type} {f g : σ → α → Exec σ} (l : List α) (s : σ)
    (h : ∀ s a, a ∈ l → f s a = g s a) : l.foldlM f s = l.foldlM g s := by
  induction l generalizing s with
  | nil => rfl
  | cons a l ih =>
    simp only [List.foldlM_cons]
    rw [h s a (by simp)]
    congr 1
    funext t
    exact ih t (fun s a ha => h s a (by simp [ha]))

variable (b : Build)

/-! ## Primitives -/

theorem shl_eq {w : Nat} (x : BitVec w) {n : Nat} (h : n < w) : b.shl x n = .ok (x <<< n) := by
  simp [shl, h]

theorem sar_eq {w : Nat} (x : BitVec w) {n : Nat} (h : n < w) :
    b.sar x n = .ok (x.sshiftRight n) := by
  simp [sar, h]

theorem shl_refines {w : Nat} (x : BitVec w) (n : Nat) : Refines (Poker.shl x n) (b.shl x n) := by
  intro v hv
  unfold Poker.shl at hv
  split at hv
  · rename_i h
    rw [shl_eq b x h, hv]
  · simp at hv

theorem sar_refines {w : Nat} (x : BitVec w) (n : Nat) : Refines (Poker.sar x n) (b.sar x n) := by
  intro v hv
  unfold Poker.sar at hv
  split at hv
  · rename_i h
    rw [sar_eq b x h, hv]
  · simp at hv

theorem addSigned_refines {w : Nat} (x y : BitVec w) :
    Refines (Poker.addSigned x y) (b.addSigned x y) := by
  intro v hv
  unfold Poker.addSigned at hv
  split at hv
  · simp at hv
  · rename_i h
    simpa [addSigned, h] using hv

theorem usizeAdd_eq {x y : Nat} (h : x + y < 2 ^ b.width) : b.usizeAdd x y = .ok (x + y) := by
  simp [usizeAdd, h]

theorem usizeSub_eq {x y : Nat} (h : y ≤ x) : b.usizeSub x y = .ok (x - y) := by
  simp [usizeSub, h]

theorem usizeMul_eq {x y : Nat} (h : x * y < 2 ^ b.width) : b.usizeMul x y = .ok (x * y) := by
  simp [usizeMul, h]

/-- A small non-negative integer is the same number as a `usize` of any width. -/
theorem asUsize_small {w n : Nat} (x : BitVec w) (hw : 16 ≤ w) (hn : 16 ≤ n)
    (hx : x.toNat < 2 ^ 15) : (x.signExtend n).toNat = x.toNat := by
  have hmsb : x.msb = false := by
    rw [BitVec.msb_eq_decide]
    have : 2 ^ 15 ≤ 2 ^ (w - 1) := Nat.pow_le_pow_right (by omega) (by omega)
    simpa using Nat.lt_of_lt_of_le hx this
  rw [BitVec.signExtend_eq_setWidth_of_msb_false hmsb, BitVec.toNat_setWidth]
  exact Nat.mod_eq_of_lt (Nat.lt_trans hx (Nat.pow_lt_pow_right (by omega) (by omega)))

theorem asUsize_eq (hb : 16 ≤ b.width) {w : Nat} (x : BitVec w) (hw : 16 ≤ w)
    (hx : x.toNat < 2 ^ 15) : b.asUsize x = Poker.asUsize x := by
  unfold asUsize Poker.asUsize
  rw [asUsize_small x hw hb hx, asUsize_small x hw (by omega) hx]

/-- Indexing a short slice with an `i16` that is in range as a 64-bit number. -/
theorem idx_refines {α : Type} (hb : 16 ≤ b.width) (l : List α) (hl : l.length ≤ 2 ^ 15)
    (x : BitVec 16) : Refines (idx l (Poker.asUsize x)) (idx l (b.asUsize x)) := by
  intro v hv
  have hlt : Poker.asUsize x < l.length := by
    unfold idx at hv
    split at hv
    · rename_i a ha
      exact (List.getElem?_eq_some_iff.1 ha).1
    · simp at hv
  have hx : x.toNat < 2 ^ 15 := by
    by_contra hge
    have hmsb : x.msb = true := by
      rw [BitVec.msb_eq_decide]
      simpa using Nat.not_lt.1 hge
    have : Poker.asUsize x = 2 ^ 64 - 2 ^ 16 + x.toNat := by
      unfold Poker.asUsize
      rw [BitVec.toNat_signExtend, hmsb]
      simp
      have := x.isLt
      omega
    omega
  rw [asUsize_eq b hb x (by omega) hx]
  exact hv

theorem ranks_small {i : BitVec 16} (h : i ∈ INT_RANKS) : i.toNat < 13 := by
  have hall : INT_RANKS.all (fun i => decide (i.toNat < 13)) = true := by decide +kernel
  exact of_decide_eq_true (List.all_eq_true.1 hall i h)

/-! ## Cards, uniqueness -/

theorem cardNew_eq (hb : 16 ≤ b.width) (r : Rank) (s : Suit) :
    b.cardNew r s = .ok (Card.new r s) := by
  have h13 : r.as_i32.toNat < 13 := by cases r <;> decide
  unfold cardNew
  simp only []
  rw [asUsize_eq b hb r.as_i32 (by omega) (by omega), shl_eq b _ (show r.as_i32.toNat < 32 by omega)]
  simp only [bind_ok, shl_eq b _ (show 16 < 32 by omega), shl_eq b _ (show 12 < 32 by omega),
    shl_eq b _ (show 8 < 32 by omega)]
  cases r <;> rfl

theorem card_to_index_eq (c : Card) :
    b.card_to_index c = Poker.card_to_index c ∧ ∃ i, Poker.card_to_index c = .ok i ∧ i.toNat < 52 := by
  unfold card_to_index Poker.card_to_index
  cases c.rank <;> cases c.suit <;> exact ⟨rfl, _, rfl, by decide⟩

theorem allUniqueLoop_eq' (flags : BitVec 64) (l : List Card) :
    b.allUniqueLoop flags l = Poker.allUniqueLoop flags l := by
  induction l generalizing flags with
  | nil => rfl
  | cons c l ih =>
    obtain ⟨h1, i, h2, h3⟩ := card_to_index_eq b c
    rw [allUniqueLoop, Poker.allUniqueLoop, h1, h2, bind_ok, bind_ok,
      shl_eq b _ (show i.toNat < 64 by omega)]
    simp only [Poker.shl, if_pos (show i.toNat < 64 by omega), bind_ok, ih]

theorem all_unique_eq' (l : List Card) : b.all_unique l = Poker.all_unique l :=
  allUniqueLoop_eq' b 0 l

/-- Cards that pass the uniqueness check, even ill-formed ones, have different indices below 52. -/
theorem indices_of_unique (flags : BitVec 64) (l : List Card)
    (h : Poker.allUniqueLoop flags l = .ok true) : ∃ js : List Nat, js.length = l.length ∧ js.Nodup ∧
      ∀ j ∈ js, j < 52 ∧ flags.getLsbD j = false := by
  induction l generalizing flags with
  | nil => exact ⟨[], rfl, List.nodup_nil, by simp⟩
  | cons c l ih =>
    obtain ⟨-, i, h2, h3⟩ := card_to_index_eq ⟨true, 64⟩ c
    rw [Poker.allUniqueLoop, h2, bind_ok, Poker.shl, if_pos (show i.toNat < 64 by omega), bind_ok] at h
    split at h
    · simp at h
    · rename_i hf
      rw [Tab.flag_and flags (show i.toNat < 64 by omega)] at hf
      obtain ⟨js, hl, hn, hj⟩ := ih _ h
      have hj' : ∀ j ∈ js, flags.getLsbD j = false ∧ i.toNat ≠ j := by
        intro j hjs
        have := hj j hjs
        rw [Tab.getLsbD_setFlag _ (by omega) (by omega), Bool.or_eq_false_iff,
          decide_eq_false_iff_not] at this
        exact this.2
      refine ⟨i.toNat :: js, by simp [hl], List.nodup_cons.2 ⟨fun hm => (hj' _ hm).2 rfl, hn⟩, ?_⟩
      intro j hjs
      rcases List.mem_cons.1 hjs with rfl | hjs
      · exact ⟨h3, by simpa using hf⟩
      · exact ⟨(hj j hjs).1, (hj' j hjs).1⟩

theorem length_of_unique {l : List Card} (h : Poker.all_unique l = .ok true) : l.length ≤ 52 := by
  obtain ⟨js, hl, hn, hj⟩ := indices_of_unique 0 l h
  have hs : js ⊆ List.range 52 := fun j hjs => List.mem_range.2 (hj j hjs).1
  have := (hn.subperm hs).length_le
  rw [List.length_range] at this
  omega

/-! ## Combinations -/

theorem resetFrom_aux' (pre : List Nat) (x : Nat) (m : Nat) (suf : List Nat) (hs : suf.length = m)
    (hx : x + m < 2 ^ b.width) :
    (List.range' (pre.length + 1) m).foldlM
      (fun ind j => do
        let p ← b.usizeSub j 1
        let prev ← idx ind p
        setIdx ind j (← b.usizeAdd prev 1))
      (pre ++ x :: suf) = (Except.ok (pre ++ List.range' x (m + 1)) : Exec (List Nat)) := by
  induction m generalizing pre x suf with
  | zero =>
    have : suf = [] := List.eq_nil_of_length_eq_zero hs
    subst this
    simp
  | succ m ih =>
    obtain ⟨y, suf', rfl⟩ : ∃ y suf', suf = y :: suf' := by
      cases suf with
      | nil => simp at hs
      | cons y s => exact ⟨y, s, rfl⟩
    rw [List.range'_succ, List.foldlM_cons]
    have e1 : b.usizeSub (pre.length + 1) 1 = .ok pre.length := by
      rw [usizeSub_eq b (by omega)]; rfl
    have e2 : idx (pre ++ x :: y :: suf') pre.length = .ok x := by simp [idx]
    have e3 : setIdx (pre ++ x :: y :: suf') (pre.length + 1) (x + 1)
        = .ok (pre ++ x :: (x + 1) :: suf') := by
      simp only [setIdx]
      rw [if_pos (by simp)]
      simp
    have e4 : b.usizeAdd x 1 = .ok (x + 1) := usizeAdd_eq b (by omega)
    simp only [e1, bind_ok, e2, e3, e4]
    have := ih (pre ++ [x]) (x + 1) suf' (by simpa using hs) (by omega)
    simp only [List.append_assoc, List.singleton_append, List.length_append, List.length_singleton] at this
    rw [this]
    simp [List.range'_succ]

theorem advance_eq' {n N : Nat} (hn : N ≤ n) (hw : n + N < 2 ^ b.width) (k : Nat) (hk : k ≤ N)
    (is : List Nat) (hN : is.length = N) (done : Bool) :
    b.advance n N k is done = Combinations.advance n N k is done := by
  induction k generalizing done with
  | zero => rfl
  | succ i ih =>
    have hi : i < is.length := by omega
    rw [advance, Combinations.advance, usizeSub_eq b hn]
    simp only [Poker.usizeSub, if_pos hn, bind_ok]
    rw [usizeAdd_eq b (show n - N + i < _ by omega)]
    have e : idx is i = .ok is[i] := by simp [idx, hi]
    simp only [bind_ok, e]
    split
    · rename_i hx
      rw [usizeAdd_eq b (show is[i] + 1 < _ by omega)]
      have e3 : setIdx is i (is[i] + 1) = .ok (is.take i ++ (is[i] + 1) :: is.drop (i + 1)) := by
        rw [setIdx, if_pos hi, List.set_eq_take_append_cons_drop, if_pos hi]
      have hl : (is.take i).length = i := by simp; omega
      have hd : (is.drop (i + 1)).length = N - (i + 1) := by simp [hN]
      have e4 : b.resetFrom N i (is.take i ++ (is[i] + 1) :: is.drop (i + 1))
          = Combinations.resetFrom N i (is.take i ++ (is[i] + 1) :: is.drop (i + 1)) := by
        have h1 := resetFrom_aux' b (is.take i) (is[i] + 1) (N - (i + 1)) (is.drop (i + 1)) hd
          (by omega)
        have h2 := resetFrom_aux (is.take i) (is[i] + 1) (N - (i + 1)) (is.drop (i + 1)) hd
        rw [hl] at h1 h2
        rw [resetFrom, Combinations.resetFrom, usizeAdd_eq b (show i + 1 < _ by omega), bind_ok, h1, h2]
      simp only [bind_ok, e3, e4]
    · exact ih (by omega) _

theorem next_eq' {α : Type} {N : Nat} (self : Combinations α N) (hn : N ≤ self.data.length)
    (hw : self.data.length + N < 2 ^ b.width) (hN : self.indices.length = N) :
    b.next self = self.next := by
  unfold next Combinations.next
  split
  · rfl
  · rw [advance_eq' b hn hw N (Nat.le_refl N) self.indices hN]

theorem forEach_eq' {α σ : Type} {N : Nat} (body : σ → List α → Exec σ) (data : List α)
    (h0 : 0 < N) (hn : N ≤ data.length) (hw : data.length + N < 2 ^ b.width) (fuel : Nat)
    (is : List Nat) (hN : is.length = N) (hok : OK data.length 0 is) (s : σ) :
    b.forEach body fuel (⟨data, is, false⟩ : Combinations α N) s =
      Combinations.forEach body fuel (⟨data, is, false⟩ : Combinations α N) s := by
  induction fuel generalizing is s with
  | zero => rfl
  | succ fuel ih =>
    rw [forEach, Combinations.forEach, next_eq' b _ hn hw hN, next_live data is hN h0 hn hok]
    simp only [bind_ok]
    cases hb : body s (is.filterMap (fun i => data[i]?)) with
    | error p => rfl
    | ok s' =>
      simp only [bind_ok]
      cases hs : succ data.length is with
      | some is' => exact ih is' (by rw [succ_length hs]; exact hN) (succ_OK hok hs) s'
      | none =>
        cases fuel with
        | zero => rfl
        | succ fuel => simp [forEach, Combinations.forEach, next, Combinations.next]

theorem forCombos_eq' {α σ : Type} (N : Nat) (items : List α) (init : σ)
    (body : σ → List α → Exec σ) (h0 : 0 < N) (hn : N ≤ items.length)
    (hw : items.length + N < 2 ^ b.width) :
    b.forCombos N items init body = Poker.forCombos N items init body := by
  have hok := OK_range' items.length N 0 (by omega)
  unfold forCombos Poker.forCombos Combinations.new
  rw [List.range_eq_range']
  exact forEach_eq' b body items h0 hn hw _ _ (by simp) hok init

/-- Loops over combinations with refined bodies. -/
theorem forCombos_refines {α σ : Type} (N : Nat) (items : List α) (init : σ)
    (f g : σ → List α → Exec σ) (h0 : 0 < N) (hn : N ≤ items.length)
    (hw : items.length + N < 2 ^ b.width) (h : ∀ s c, Refines (f s c) (g s c)) :
    Refines (Poker.forCombos N items init f) (b.forCombos N items init g) := by
  rw [forCombos_eq' b N items init g h0 hn hw, forCombos_eq N items init g h0 hn,
    forCombos_eq N items init f h0 hn]
  exact Refines.foldlM _ _ (fun s a _ => h s a)

/-! ## The tables -/

theorem pow16 (hb : 16 ≤ b.width) : 65536 ≤ 2 ^ b.width :=
  Nat.pow_le_pow_right (n := 2) (by omega) hb

theorem prime_product_eq' (hb : 16 ≤ b.width) (bits : BitVec 16) :
    b.prime_product_from_rank_bits bits = Poker.prime_product_from_rank_bits bits := by
  unfold prime_product_from_rank_bits Poker.prime_product_from_rank_bits
  refine foldlM_congr _ _ (fun s i hi => ?_)
  have h13 := ranks_small hi
  rw [shl_eq b _ (show i.toNat < 16 by omega), asUsize_eq b hb i (by omega) (by omega)]
  simp only [Poker.shl, if_pos (show i.toNat < 16 by omega)]

theorem highRankLoop_eq' (hb : 16 ≤ b.width) (bits : BitVec 16) (l : List (BitVec 16))
    (hl : ∀ i ∈ l, i ∈ INT_RANKS) : b.highRankLoop bits l = Poker.highRankLoop bits l := by
  induction l with
  | nil => rfl
  | cons i l ih =>
    have h13 := ranks_small (hl i (by simp))
    rw [highRankLoop, Poker.highRankLoop, shl_eq b _ (show i.toNat < 16 by omega),
      asUsize_eq b hb i (by omega) (by omega), ih (fun j hj => hl j (by simp [hj]))]
    simp only [Poker.shl, if_pos (show i.toNat < 16 by omega)]

theorem high_rank_eq' (hb : 16 ≤ b.width) (bits : BitVec 16) :
    b.high_rank_from_rank_bits bits = Poker.high_rank_from_rank_bits bits := by
  unfold high_rank_from_rank_bits Poker.high_rank_from_rank_bits
  rw [highRankLoop_eq' b hb bits _ (fun i hi => List.mem_reverse.1 hi)]

theorem straightBody_eq' (hb : 16 ≤ b.width) : b.straightBody = LookupTable.straightBody := by
  funext st s
  unfold straightBody LookupTable.straightBody
  simp only [prime_product_eq' b hb, high_rank_eq' b hb]

theorem notStraightBody_eq' (hb : 16 ≤ b.width) :
    b.notStraightBody = LookupTable.notStraightBody := by
  funext st s
  unfold notStraightBody LookupTable.notStraightBody
  simp only [prime_product_eq' b hb, high_rank_eq' b hb]

theorem get_next_refines (g : BitSequence) : Refines g.get_next (b.get_next g) :=
  Refines.bind (sar_refines b _ _) (fun _ => Refines.refl _)

theorem collect_refines : Refines LookupTable.collectNotStraights b.collectNotStraights := by
  unfold LookupTable.collectNotStraights collectNotStraights
  refine Refines.bind (Refines.foldlM _ _ ?_) (fun _ => Refines.refl _)
  rintro ⟨g, ns⟩ a -
  exact Refines.bind (get_next_refines b g) (fun _ => Refines.refl _)

theorem flushes_refines (hb : 16 ≤ b.width) (t : LookupTable) :
    Refines t.flushes_straights_high_cards (b.flushes_straights_high_cards t) := by
  unfold LookupTable.flushes_straights_high_cards flushes_straights_high_cards
  rw [straightBody_eq' b hb, notStraightBody_eq' b hb]
  exact Refines.bind (collect_refines b) (fun _ =>
    Refines.bind (addSigned_refines b _ _) (fun _ => Refines.refl _))

theorem kickers_length {x : BitVec 16} (hx : x ∈ INT_RANKS.reverse) :
    (INT_RANKS.reverse.filter (fun k => k != x)).length = 12 := by
  have hall : INT_RANKS.reverse.all (fun x =>
      decide ((INT_RANKS.reverse.filter (fun k => k != x)).length = 12)) = true := by decide +kernel
  exact of_decide_eq_true (List.all_eq_true.1 hall x hx)

section
variable (hb : 16 ≤ b.width)
include hb

theorem primes_refines (x : BitVec 16) :
    Refines (idx PRIMES (Poker.asUsize x)) (idx PRIMES (b.asUsize x)) :=
  idx_refines b hb _ (by decide) x

theorem variants_refines (x : BitVec 16) :
    Refines (idx Rank.ALL_VARIANTS (Poker.asUsize x)) (idx Rank.ALL_VARIANTS (b.asUsize x)) :=
  idx_refines b hb _ (by decide) x

theorem four_refines (t : LookupTable) : Refines t.fourOfAKinds (b.fourOfAKinds t) := by
  unfold LookupTable.fourOfAKinds fourOfAKinds
  refine Refines.bind (Refines.foldlM _ _ fun st q _ => ?_) (fun _ => Refines.refl _)
  refine Refines.foldlM _ _ fun st k _ => ?_
  obtain ⟨t, r⟩ := st
  exact Refines.bind (primes_refines b hb _) fun _ => Refines.bind (primes_refines b hb _) fun _ =>
    Refines.bind (variants_refines b hb _) fun _ => Refines.refl _

theorem full_refines (t : LookupTable) : Refines t.fullHouses (b.fullHouses t) := by
  unfold LookupTable.fullHouses fullHouses
  refine Refines.bind (Refines.foldlM _ _ fun st q _ => ?_) (fun _ => Refines.refl _)
  refine Refines.foldlM _ _ fun st k _ => ?_
  obtain ⟨t, r⟩ := st
  exact Refines.bind (primes_refines b hb _) fun _ => Refines.bind (primes_refines b hb _) fun _ =>
    Refines.bind (variants_refines b hb _) fun _ => Refines.bind (variants_refines b hb _) fun _ =>
    Refines.refl _

theorem three_refines (t : LookupTable) : Refines t.threeOfAKinds (b.threeOfAKinds t) := by
  have hp := pow16 b hb
  unfold LookupTable.threeOfAKinds threeOfAKinds
  refine Refines.bind (Refines.foldlM _ _ fun st q hq => ?_) (fun _ => Refines.refl _)
  have hl := kickers_length hq
  refine forCombos_refines b 2 _ _ _ _ (by omega) (by omega) (by omega) fun st k => ?_
  obtain ⟨t, r⟩ := st
  exact Refines.bind (Refines.refl _) fun _ => Refines.bind (Refines.refl _) fun _ =>
    Refines.bind (primes_refines b hb _) fun _ => Refines.bind (primes_refines b hb _) fun _ =>
    Refines.bind (primes_refines b hb _) fun _ => Refines.bind (variants_refines b hb _) fun _ =>
    Refines.refl _

theorem two_refines (t : LookupTable) : Refines t.twoPairs (b.twoPairs t) := by
  have hp := pow16 b hb
  unfold LookupTable.twoPairs twoPairs
  refine Refines.bind ?_ (fun _ => Refines.refl _)
  have hl : INT_RANKS.reverse.length = 13 := by decide
  refine forCombos_refines b 2 _ _ _ _ (by omega) (by omega) (by omega) fun st k => ?_
  refine Refines.bind (Refines.refl _) fun _ => Refines.bind (Refines.refl _) fun _ => ?_
  refine Refines.foldlM _ _ fun st k _ => ?_
  obtain ⟨t, r⟩ := st
  exact Refines.bind (primes_refines b hb _) fun _ => Refines.bind (primes_refines b hb _) fun _ =>
    Refines.bind (primes_refines b hb _) fun _ => Refines.bind (variants_refines b hb _) fun _ =>
    Refines.bind (variants_refines b hb _) fun _ => Refines.refl _

theorem pairs_refines (t : LookupTable) : Refines t.pairs (b.pairs t) := by
  have hp := pow16 b hb
  unfold LookupTable.pairs pairs
  refine Refines.bind (Refines.foldlM _ _ fun st q hq => ?_) (fun _ => Refines.refl _)
  have hl := kickers_length hq
  refine forCombos_refines b 3 _ _ _ _ (by omega) (by omega) (by omega) fun st k => ?_
  obtain ⟨t, r⟩ := st
  exact Refines.bind (Refines.refl _) fun _ => Refines.bind (Refines.refl _) fun _ =>
    Refines.bind (Refines.refl _) fun _ =>
    Refines.bind (primes_refines b hb _) fun _ => Refines.bind (primes_refines b hb _) fun _ =>
    Refines.bind (primes_refines b hb _) fun _ => Refines.bind (primes_refines b hb _) fun _ =>
    Refines.bind (variants_refines b hb _) fun _ => Refines.refl _

theorem multiples_refines (t : LookupTable) : Refines t.multiples (b.multiples t) :=
  Refines.bind (four_refines b hb t) fun t => Refines.bind (full_refines b hb t) fun t =>
    Refines.bind (three_refines b hb t) fun t => Refines.bind (two_refines b hb t) fun t =>
    pairs_refines b hb t

theorem new_refines : Refines Evaluator.new b.new := by
  intro v hv
  have h : Evaluator.new = (do
      let table : LookupTable := { flush_lookup := .empty, unsuited_lookup := .empty }
      let table ← table.flushes_straights_high_cards
      return ⟨← table.multiples⟩) := by
    simp only [Evaluator.new, LookupTable.new, bind_assoc]
  rw [h] at hv
  exact Refines.bind (flushes_refines b hb _) (fun t =>
    Refines.bind (multiples_refines b hb t) (fun _ => Refines.refl _)) v hv

/-! ## Evaluation -/

theorem five_eq' (ev : Evaluation) (cards : List Card) : b.five ev cards = Poker.five ev cards := by
  unfold five Poker.five
  simp only [sar_eq b _ (show 16 < 32 by omega), Poker.sar, if_pos (show 16 < 32 by omega), bind_ok,
    prime_product_eq' b hb]

theorem six_plus_eq' (ev : Evaluation) (cards : List Card) (h5 : 5 < cards.length)
    (hl : cards.length ≤ 52) : b.six_plus ev cards = Poker.six_plus ev cards := by
  have hp := pow16 b hb
  have hbody : b.sixPlusBody ev = Poker.sixPlusBody ev := by
    funext m c
    rw [sixPlusBody, Poker.sixPlusBody, five_eq' b hb]
  unfold six_plus Poker.six_plus
  rw [hbody, forCombos_eq' b 5 cards _ _ (by omega) (by omega) (by omega)]
  have e : b.debugAssert (cards.length > 5) = Poker.debugAssert (cards.length > 5) := by
    simp [debugAssert, Poker.debugAssert, h5]
  rw [e]

end
end Poker.Build
