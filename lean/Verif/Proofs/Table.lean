import Verif.Proofs.Bits
import Verif.Proofs.Combinations
import Mathlib.Tactic.Ring

/-! # The lookup tables are the insertion of the kinds in order of strength (helper lemmas) -/

namespace Poker
open Rules Comb

namespace Tab

/-- The `Meta` of a class and a rank number. -/
def mkMeta : EvalClass → BitVec 16 → Meta
  | .HighCard r, n => .HighCard ⟨n⟩ r
  | .Pair r, n => .Pair ⟨n⟩ r
  | .TwoPair r s, n => .TwoPair ⟨n⟩ r s
  | .ThreeOfAKind r, n => .ThreeOfAKind ⟨n⟩ r
  | .Straight r, n => .Straight ⟨n⟩ r
  | .Flush r, n => .Flush ⟨n⟩ r
  | .FullHouse r s, n => .FullHouse ⟨n⟩ r s
  | .FourOfAKind r, n => .FourOfAKind ⟨n⟩ r
  | .StraightFlush r, n => .StraightFlush ⟨n⟩ r

/-! ## Generic lemmas -/

theorem foldlM_flat {α β σ : Type} (ins : σ → β → Exec σ) (f : σ → α → Exec σ) (g : α → List β)
    (l : List α) (h : ∀ x ∈ l, ∀ s, f s x = (g x).foldlM ins s) (s : σ) :
    l.foldlM f s = (l.flatMap g).foldlM ins s := by
  induction l generalizing s with
  | nil => rfl
  | cons x l ih =>
    rw [List.foldlM_cons, h x (by simp), List.flatMap_cons, List.foldlM_append]
    congr 1
    funext s'
    exact ih (fun y hy => h y (by simp [hy])) s'

theorem foldlM_item {α β σ : Type} (ins : σ → β → Exec σ) (f : σ → α → Exec σ) (g : α → β)
    (l : List α) (h : ∀ x ∈ l, ∀ s, f s x = ins s (g x)) (s : σ) :
    l.foldlM f s = (l.map g).foldlM ins s := by
  induction l generalizing s with
  | nil => rfl
  | cons x l ih =>
    rw [List.foldlM_cons, h x (by simp), List.map_cons, List.foldlM_cons]
    congr 1
    funext s'
    exact ih (fun y hy => h y (by simp [hy])) s'

theorem combos_map {α β : Type} (f : α → β) : ∀ (n : Nat) (l : List α),
    combos n (l.map f) = (combos n l).map (List.map f)
  | 0, _ => by simp [combos]
  | n + 1, [] => by simp [combos]
  | n + 1, x :: xs => by
    simp only [List.map_cons, combos, List.map_append, combos_map f n xs,
      combos_map f (n + 1) xs, List.map_map]
    rfl

/-! ## Values and loop variables -/

theorem ranks_rev : INT_RANKS.reverse = allValues.map bv := by decide +kernel

theorem idx_primes {v : Nat} (h : v ∈ allValues) :
    idx PRIMES (asUsize (bv v)) = .ok (BitVec.ofNat 32 (primeV v)) := by
  have : ∀ v ∈ allValues, idx PRIMES (asUsize (bv v)) = .ok (BitVec.ofNat 32 (primeV v)) := by
    decide +kernel
  exact this v h

theorem idx_variants {v : Nat} (h : v ∈ allValues) :
    idx Rank.ALL_VARIANTS (asUsize (bv v)) = .ok (rankOf v) := by
  have : ∀ v ∈ allValues, idx Rank.ALL_VARIANTS (asUsize (bv v)) = .ok (rankOf v) := by
    decide +kernel
  exact this v h

theorem bv_inj {v w : Nat} (hv : v ∈ allValues) (hw : w ∈ allValues) :
    (bv v != bv w) = (v != w) := by
  have : ∀ v ∈ allValues, ∀ w ∈ allValues, (bv v != bv w) = (v != w) := by decide +kernel
  exact this v hv w hw

theorem filter_ranks {x : Nat} (hx : x ∈ allValues) :
    (allValues.map bv).filter (fun k => k != bv x) = (allValues.filter (· != x)).map bv := by
  rw [List.filter_map]
  congr 1
  refine List.filter_congr ?_
  intro y hy
  exact bv_inj hy hx

theorem filter_ranks2 {x y : Nat} (hx : x ∈ allValues) (hy : y ∈ allValues) :
    (allValues.map bv).filter (fun k => k != bv x && k != bv y)
      = (allValues.filter (fun k => k != x && k != y)).map bv := by
  rw [List.filter_map]
  congr 1
  refine List.filter_congr ?_
  intro z hz
  simp only [Function.comp, bv_inj hz hx, bv_inj hz hy]

theorem mem_filter_values {x y : Nat} (h : y ∈ allValues.filter (· != x)) : y ∈ allValues :=
  (List.mem_filter.1 h).1

/-! ## Inserting with a running rank -/

/-- Insert the next item of the unsuited table. -/
def ins (st : LookupTable × BitVec 16) (x : BitVec 32 × EvalClass) :
    Exec (LookupTable × BitVec 16) :=
  .ok (st.1.insertUnsuited x.1 (mkMeta x.2 st.2), st.2 + 1)

/-- The item of the kind `c` of segment `s`. -/
def item (s : Kinds.Segment) (c : List Nat) : BitVec 32 × EvalClass :=
  (keyV c, className (s.cat, s.key c))

def items (s : Kinds.Segment) : List (BitVec 32 × EvalClass) := s.seg.map (item s)

theorem product4 (p q : Nat) : wrappingPow (BitVec.ofNat 32 (primeV p)) 4 *
    BitVec.ofNat 32 (primeV q) = keyV [p, p, p, p, q] := by
  simp only [wrappingPow, keyV, keyN, List.map_cons, List.map_nil, List.prod_cons, List.prod_nil,
    ← BitVec.ofNat_mul]
  congr 1; ring

theorem fourOfAKinds_eq (t : LookupTable) :
    t.fourOfAKinds = (do
      let st ← (items Kinds.sQuads).foldlM ins (t, WORST_STRAIGHT_FLUSH + 1)
      return st.1) := by
  unfold LookupTable.fourOfAKinds
  simp only [ranks_rev, List.foldlM_map (f := bv)]
  rw [foldlM_flat ins _ (fun q => (allValues.filter (· != q)).map
    (fun k => item Kinds.sQuads [q, q, q, q, k]))]
  · simp only [items, Kinds.sQuads, Kinds.quads, List.map_flatMap, List.map_map]
    rfl
  · intro q hq s
    simp only [filter_ranks hq, List.foldlM_map]
    simp only [← List.foldlM_map (f := fun k => item Kinds.sQuads [q, q, q, q, k]) (g := ins)]
    refine foldlM_item _ _ _ _ ?_ _
    intro k hk s
    have hk := mem_filter_values hk
    simp only [idx_primes hq, idx_primes hk, idx_variants hq, bind_ok, product4]
    rfl

theorem product32 (p q : Nat) : wrappingPow (BitVec.ofNat 32 (primeV p)) 3 *
    wrappingPow (BitVec.ofNat 32 (primeV q)) 2 = keyV [p, p, p, q, q] := by
  simp only [wrappingPow, keyV, keyN, List.map_cons, List.map_nil, List.prod_cons, List.prod_nil,
    ← BitVec.ofNat_mul]
  congr 1; ring

theorem fullHouses_eq (t : LookupTable) :
    t.fullHouses = (do
      let st ← (items Kinds.sFullHouse).foldlM ins (t, WORST_FOUR_OF_A_KIND + 1)
      return st.1) := by
  unfold LookupTable.fullHouses
  simp only [ranks_rev, List.foldlM_map (f := bv)]
  rw [foldlM_flat ins _ (fun q => (allValues.filter (· != q)).map
    (fun k => item Kinds.sFullHouse [q, q, q, k, k]))]
  · simp only [items, Kinds.sFullHouse, Kinds.fullHouses, List.map_flatMap, List.map_map]
    rfl
  · intro q hq s
    simp only [filter_ranks hq, List.foldlM_map]
    simp only [← List.foldlM_map (f := fun k => item Kinds.sFullHouse [q, q, q, k, k]) (g := ins)]
    refine foldlM_item _ _ _ _ ?_ _
    intro k hk s
    have hk := mem_filter_values hk
    simp only [idx_primes hq, idx_primes hk, idx_variants hq, idx_variants hk, bind_ok, product32]
    rfl

theorem product311 (p q r : Nat) : wrappingPow (BitVec.ofNat 32 (primeV p)) 3 *
    BitVec.ofNat 32 (primeV q) * BitVec.ofNat 32 (primeV r) = keyV [p, p, p, q, r] := by
  simp only [wrappingPow, keyV, keyN, List.map_cons, List.map_nil, List.prod_cons, List.prod_nil,
    ← BitVec.ofNat_mul]
  congr 1; ring

theorem length_filter {x : Nat} (hx : x ∈ allValues) :
    (allValues.filter (· != x)).length = 12 := by
  have : ∀ x ∈ allValues, (allValues.filter (· != x)).length = 12 := by decide +kernel
  exact this x hx

theorem combos2_form {α : Type} {l c : List α} (h : c ∈ combos 2 l) :
    ∃ a b, c = [a, b] ∧ a ∈ l ∧ b ∈ l := by
  obtain ⟨hs, hl⟩ := mem_combos.1 h
  match c, hl with
  | [a, b], _ => exact ⟨a, b, rfl, hs.subset (by simp), hs.subset (by simp)⟩

theorem combos3_form {α : Type} {l c : List α} (h : c ∈ combos 3 l) :
    ∃ a b d, c = [a, b, d] ∧ a ∈ l ∧ b ∈ l ∧ d ∈ l := by
  obtain ⟨hs, hl⟩ := mem_combos.1 h
  match c, hl with
  | [a, b, d], _ =>
    exact ⟨a, b, d, rfl, hs.subset (by simp), hs.subset (by simp), hs.subset (by simp)⟩

theorem threeOfAKinds_eq (t : LookupTable) :
    t.threeOfAKinds = (do
      let st ← (items Kinds.sTrips).foldlM ins (t, WORST_STRAIGHT + 1)
      return st.1) := by
  unfold LookupTable.threeOfAKinds
  simp only [ranks_rev, List.foldlM_map (f := bv)]
  rw [foldlM_flat ins _ (fun q => (combos 2 (allValues.filter (· != q))).map
    (fun k => item Kinds.sTrips (q :: q :: q :: k)))]
  · simp only [items, Kinds.sTrips, Kinds.trips, List.map_flatMap, List.map_map]
    rfl
  · intro q hq s
    simp only [filter_ranks hq]
    rw [forCombos_eq _ _ _ _ (by decide) (by rw [List.length_map, length_filter hq]; decide),
      combos_map, List.foldlM_map]
    refine foldlM_item _ _ _ _ ?_ _
    intro k hk s
    obtain ⟨a, b, rfl, ha, hb⟩ := combos2_form hk
    have ha := mem_filter_values ha
    have hb := mem_filter_values hb
    have e0 : idx (List.map bv [a, b]) 0 = .ok (bv a) := rfl
    have e1 : idx (List.map bv [a, b]) 1 = .ok (bv b) := rfl
    simp only [e0, e1, idx_primes hq, idx_primes ha, idx_primes hb, idx_variants hq, bind_ok,
      product311]
    rfl

theorem product221 (p q r : Nat) : wrappingPow (BitVec.ofNat 32 (primeV p)) 2 *
    wrappingPow (BitVec.ofNat 32 (primeV q)) 2 * BitVec.ofNat 32 (primeV r)
      = keyV [p, p, q, q, r] := by
  simp only [wrappingPow, keyV, keyN, List.map_cons, List.map_nil, List.prod_cons, List.prod_nil,
    ← BitVec.ofNat_mul]
  congr 1; ring

theorem twoPairs_eq (t : LookupTable) :
    t.twoPairs = (do
      let st ← (items Kinds.sTwoPair).foldlM ins (t, WORST_THREE_OF_A_KIND + 1)
      return st.1) := by
  unfold LookupTable.twoPairs
  simp only [ranks_rev]
  rw [forCombos_eq _ _ _ _ (by decide) (by decide), combos_map, List.foldlM_map]
  rw [foldlM_flat ins _ (fun p => (allValues.filter
      (fun k => k != p.getD 0 0 && k != p.getD 1 0)).map (fun k => item Kinds.sTwoPair
        [p.getD 0 0, p.getD 0 0, p.getD 1 0, p.getD 1 0, k]))]
  · simp only [items, Kinds.sTwoPair, Kinds.twoPairs, List.map_flatMap, List.map_map]
    rfl
  · intro p hp s
    obtain ⟨a, b, rfl, ha, hb⟩ := combos2_form hp
    have e0 : idx (List.map bv [a, b]) 0 = .ok (bv a) := rfl
    have e1 : idx (List.map bv [a, b]) 1 = .ok (bv b) := rfl
    simp only [e0, e1, bind_ok, filter_ranks2 ha hb]
    rw [List.foldlM_map]
    refine foldlM_item _ _ _ _ ?_ _
    intro k hk s
    have hk := (List.mem_filter.1 hk).1
    simp only [idx_primes hk, idx_primes ha, idx_primes hb, idx_variants ha, idx_variants hb,
      bind_ok, product221]
    rfl

theorem product2111 (p q r u : Nat) : wrappingPow (BitVec.ofNat 32 (primeV p)) 2 *
    BitVec.ofNat 32 (primeV q) * BitVec.ofNat 32 (primeV r) * BitVec.ofNat 32 (primeV u)
      = keyV [p, p, q, r, u] := by
  simp only [wrappingPow, keyV, keyN, List.map_cons, List.map_nil, List.prod_cons, List.prod_nil,
    ← BitVec.ofNat_mul]
  congr 1; ring

theorem pairs_eq (t : LookupTable) :
    t.pairs = (do
      let st ← (items Kinds.sPair).foldlM ins (t, WORST_TWO_PAIR + 1)
      return st.1) := by
  unfold LookupTable.pairs
  simp only [ranks_rev, List.foldlM_map (f := bv)]
  rw [foldlM_flat ins _ (fun q => (combos 3 (allValues.filter (· != q))).map
    (fun k => item Kinds.sPair (q :: q :: k)))]
  · simp only [items, Kinds.sPair, Kinds.pairs, List.map_flatMap, List.map_map]
    rfl
  · intro q hq s
    simp only [filter_ranks hq]
    rw [forCombos_eq _ _ _ _ (by decide) (by rw [List.length_map, length_filter hq]; decide),
      combos_map, List.foldlM_map]
    refine foldlM_item _ _ _ _ ?_ _
    intro k hk s
    obtain ⟨a, b, d, rfl, ha, hb, hd⟩ := combos3_form hk
    have ha := mem_filter_values ha
    have hb := mem_filter_values hb
    have hd := mem_filter_values hd
    have e0 : idx (List.map bv [a, b, d]) 0 = .ok (bv a) := rfl
    have e1 : idx (List.map bv [a, b, d]) 1 = .ok (bv b) := rfl
    have e2 : idx (List.map bv [a, b, d]) 2 = .ok (bv d) := rfl
    simp only [e0, e1, e2, idx_primes hq, idx_primes ha, idx_primes hb, idx_primes hd,
      idx_variants hq, bind_ok, product2111]
    rfl

/-! ## Straights, flushes and high cards -/

theorem mem_five_nonStraights {c : List Nat} (h : c ∈ Kinds.nonStraights) : c ∈ five :=
  (List.mem_filter.1 h).1

set_option maxRecDepth 100000 in
theorem straights_sub : ∀ c ∈ Kinds.straights, c ∈ five := by
  have h : Kinds.straights.all (fun c => five.contains c) = true := by decide +kernel
  intro c hc
  have := List.all_eq_true.1 h c hc
  simpa using this

theorem prime_five {c : List Nat} (h : c ∈ five) :
    prime_product_from_rank_bits (bitsOf c) = .ok (keyV c) :=
  eq_of_okIs (List.all_eq_true.1 check_prime c h)

theorem high_five {c : List Nat} (h : c ∈ five) :
    high_rank_from_rank_bits (bitsOf c) = .ok (rankOf (Kinds.topOf c)) := by
  have := List.all_eq_true.1 check_high_rank c h
  unfold okIs at this
  split at this
  · rename_i h'
    rw [h', eq_of_beq this]
  · cases this

theorem get_next_bits {s g : BitSequence} {x : BitVec 16} (h : s.get_next = .ok (x, g)) :
    g.bits = x := by
  unfold BitSequence.get_next sar at h
  dsimp only at h
  split at h
  · simp only [bind_ok, pure_eq_ok, Except.ok.injEq, Prod.mk.injEq] at h
    rw [← h.1, ← h.2]
  · cases h

theorem chain_fold : ∀ (l : List (BitVec 16)) (a : BitVec 16) (gen : BitSequence)
    (acc : List (BitVec 16)) (_ : gen.bits = a) (_ : chain a l = true) (is : List Nat)
    (_ : is.length = l.length), ∃ gen',
    is.foldlM (fun (st : BitSequence × List (BitVec 16)) _ => (do
      let (gen, not_straights) := st
      let (bits, gen) ← gen.get_next
      let not_straight := !(STRAIGHTS.any (fun straight => bits ^^^ straight == 0))
      return (gen, if not_straight then not_straights ++ [bits] else not_straights) : Exec _))
      (gen, acc) = .ok (gen', acc ++ l.filter notStraightBits)
  | [], a, gen, acc, _, _, is, hlen => by
    obtain rfl : is = [] := List.length_eq_zero_iff.1 hlen
    exact ⟨gen, by simp⟩
  | b :: l, a, gen, acc, hb, hch, is, hlen => by
    match is, hlen with
    | i :: is, hlen =>
      have hlen : is.length = l.length := by simpa using hlen
      simp only [chain, Bool.and_eq_true] at hch
      obtain ⟨h1, h2⟩ := hch
      subst hb
      have hnext : ∃ g', gen.get_next = .ok (b, g') ∧ g'.bits = b := by
        have he : gen.get_next = (BitSequence.new gen.bits).get_next := rfl
        rw [he]
        revert h1
        cases hg : (BitSequence.new gen.bits).get_next with
        | error e => intro h1; cases h1
        | ok p =>
          intro h1
          obtain ⟨x, g'⟩ := p
          have hx : x = b := eq_of_beq h1
          subst hx
          exact ⟨g', rfl, get_next_bits hg⟩
      obtain ⟨g', hg, hgb⟩ := hnext
      obtain ⟨gen', ih⟩ := chain_fold l b g'
        (if notStraightBits b then acc ++ [b] else acc) hgb h2 is hlen
      refine ⟨gen', ?_⟩
      rw [List.foldlM_cons]
      simp only [hg, bind_ok, pure_eq_ok]
      refine ih.trans ?_
      cases hn : notStraightBits b <;> simp [hn]

theorem filter_notStraight :
    (five.map bitsOf).filter notStraightBits = Kinds.nonStraights.map bitsOf := by
  have h : five.filter (notStraightBits ∘ bitsOf) = Kinds.nonStraights :=
    List.filter_congr (fun c hc => eq_of_beq (List.all_eq_true.1 check_notStraight c hc))
  rw [List.filter_map, h]

theorem collect_eq :
    LookupTable.collectNotStraights = .ok (Kinds.nonStraights.map bitsOf).reverse := by
  have hc := check_chain
  unfold LookupTable.collectNotStraights
  rw [← filter_notStraight, ← List.filter_reverse]
  revert hc
  cases (five.map bitsOf).reverse with
  | nil => intro hc; cases hc
  | cons a l =>
    intro hc
    simp only [chainOf, Bool.and_eq_true, beq_iff_eq] at hc
    obtain ⟨ha, hlen, hc⟩ := hc
    obtain ⟨gen', h⟩ := chain_fold l a (BitSequence.new 0b11111) [] ha.symm hc (List.range 1286)
      (by simp [hlen])
    rw [h]
    simp only [bind_ok, pure_eq_ok, List.nil_append]
    have : notStraightBits a = false := by rw [ha]; decide +kernel
    simp [this]

/-- Insert the next item of both tables. -/
def ins2 (st : LookupTable × BitVec 16 × BitVec 16) (x : BitVec 32 × EvalClass × EvalClass) :
    Exec (LookupTable × BitVec 16 × BitVec 16) :=
  .ok (⟨st.1.flush_lookup.insert x.1 (mkMeta x.2.1 st.2.1),
    st.1.unsuited_lookup.insert x.1 (mkMeta x.2.2 st.2.2)⟩, st.2.1 + 1, st.2.2 + 1)

theorem straights_bits : STRAIGHTS = Kinds.straights.map bitsOf := by decide +kernel

theorem topOf_nonStraights {c : List Nat} (hc : c ∈ Kinds.nonStraights) :
    Kinds.topOf c = c.getD 0 0 := by
  unfold Kinds.topOf
  split
  · rename_i h
    obtain ⟨hm, hn⟩ := List.mem_filter.1 hc
    obtain ⟨hs, hl⟩ := mem_combos.1 hm
    exfalso
    match c, hl with
    | [a, b, x, y, z], _ =>
      simp only [List.getD_cons_zero, List.getD_cons_succ] at h
      obtain ⟨rfl, rfl⟩ := h
      have hs' : List.Sublist [5, x, y, z] [13, 12, 11, 10, 9, 8, 7, 6, 5, 4, 3, 2] :=
        List.cons_sublist_cons.1 hs
      have hs'' : List.Sublist [x, y, z] [4, 3, 2] := by
        have : ∀ (l l' : List Nat) (a : Nat), a ≠ 5 → List.Sublist (5 :: l) (a :: l') →
            List.Sublist (5 :: l) l' := by
          intro l l' a ha h
          cases h with
          | cons _ h => exact h
          | cons_cons _ h => exact absurd rfl ha
        exact List.cons_sublist_cons.1 (this _ _ 6 (by decide) (this _ _ 7 (by decide)
          (this _ _ 8 (by decide) (this _ _ 9 (by decide) (this _ _ 10 (by decide)
          (this _ _ 11 (by decide) (this _ _ 12 (by decide) (this _ _ 13 (by decide) hs'))))))))
      have := hs''.eq_of_length rfl
      simp only [List.cons.injEq, and_true] at this
      obtain ⟨rfl, rfl, rfl⟩ := this
      revert hn
      decide
  · rfl

theorem straightBody_eq {c : List Nat} (hc : c ∈ Kinds.straights)
    (s : LookupTable × BitVec 16 × BitVec 16) :
    LookupTable.straightBody s (bitsOf c)
      = ins2 s (keyV c, className (8, [Kinds.topOf c]), className (4, [Kinds.topOf c])) := by
  unfold LookupTable.straightBody
  simp only [prime_five (straights_sub c hc), high_five (straights_sub c hc), bind_ok]
  rfl

theorem notStraightBody_eq {c : List Nat} (hc : c ∈ Kinds.nonStraights)
    (s : LookupTable × BitVec 16 × BitVec 16) :
    LookupTable.notStraightBody s (bitsOf c)
      = ins2 s (keyV c, className (5, c), className (0, c)) := by
  unfold LookupTable.notStraightBody
  simp only [prime_five (mem_five_nonStraights hc), high_five (mem_five_nonStraights hc), bind_ok,
    topOf_nonStraights hc]
  rfl

theorem flushes_eq (t : LookupTable) :
    t.flushes_straights_high_cards = (do
      let st ← (Kinds.straights.map (fun c =>
        (keyV c, className (8, [Kinds.topOf c]), className (4, [Kinds.topOf c])))).foldlM ins2
          (t, 1#16, 1600#16)
      let st ← (Kinds.nonStraights.map (fun c =>
        (keyV c, className (5, c), className (0, c)))).foldlM ins2 (st.1, 323#16, 6186#16)
      return st.1) := by
  unfold LookupTable.flushes_straights_high_cards
  have ha : addSigned WORST_FLUSH 1 = .ok 1600#16 := by decide +kernel
  rw [collect_eq, ha]
  simp only [bind_ok]
  rw [List.reverse_reverse, straights_bits]
  simp only [List.foldlM_map (f := bitsOf)]
  rw [foldlM_item ins2 _ _ _ (fun c hc s => straightBody_eq hc s)]
  refine congrArg _ (funext fun st => ?_)
  rw [foldlM_item ins2 _ _ _ (fun c hc s => notStraightBody_eq hc s)]
  rfl

end Tab
end Poker
