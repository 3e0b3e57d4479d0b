import Verif.Proofs.Table
import Mathlib.Data.List.Basic

/-! # The contents of the lookup tables (helper lemmas) -/

namespace Poker
open Rules Comb

namespace Tab

/-- The table entry of a worth. -/
def metaFor (w : Nat × List Nat) : Meta := mkMeta (className w) (BitVec.ofNat 16 (Kinds.rankNo w))

def insertAll (m : FxHashMap Meta) (es : List (BitVec 32 × Meta)) : FxHashMap Meta :=
  es.foldl (fun m e => m.insert e.1 e.2) m

theorem insertAll_append (m : FxHashMap Meta) (a b : List (BitVec 32 × Meta)) :
    insertAll m (a ++ b) = insertAll (insertAll m a) b := List.foldl_append

def number (r : BitVec 16) : List (BitVec 32 × EvalClass) → List (BitVec 32 × Meta)
  | [] => []
  | x :: l => (x.1, mkMeta x.2 r) :: number (r + 1) l

theorem foldlM_ins (l : List (BitVec 32 × EvalClass)) (t : LookupTable) (r : BitVec 16) :
    ∃ r', l.foldlM ins (t, r)
      = .ok ({ t with unsuited_lookup := insertAll t.unsuited_lookup (number r l) }, r') := by
  induction l generalizing t r with
  | nil => exact ⟨r, rfl⟩
  | cons x l ih =>
    obtain ⟨r', h⟩ := ih (t.insertUnsuited x.1 (mkMeta x.2 r)) (r + 1)
    refine ⟨r', ?_⟩
    rw [List.foldlM_cons]
    exact h

theorem foldlM_ins2 (l : List (BitVec 32 × EvalClass × EvalClass)) (t : LookupTable)
    (r r2 : BitVec 16) :
    ∃ r' r2', l.foldlM ins2 (t, r, r2)
      = .ok (⟨insertAll t.flush_lookup (number r (l.map (fun x => (x.1, x.2.1)))),
          insertAll t.unsuited_lookup (number r2 (l.map (fun x => (x.1, x.2.2))))⟩, r', r2') := by
  induction l generalizing t r r2 with
  | nil => exact ⟨r, r2, rfl⟩
  | cons x l ih =>
    obtain ⟨r', r2', h⟩ := ih ⟨t.flush_lookup.insert x.1 (mkMeta x.2.1 r),
      t.unsuited_lookup.insert x.1 (mkMeta x.2.2 r2)⟩ (r + 1) (r2 + 1)
    refine ⟨r', r2', ?_⟩
    rw [List.foldlM_cons]
    exact h

theorem foldlM_all (A B : List (BitVec 32 × EvalClass × EvalClass))
    (Q F T W P : List (BitVec 32 × EvalClass)) (a1 a2 b1 b2 q f t w p : BitVec 16) :
    (do
      let table ← (do
        let st ← A.foldlM ins2 (⟨.empty, .empty⟩, a1, a2)
        let st ← B.foldlM ins2 (st.1, b1, b2)
        return st.1)
      let table ← (do
        let st ← Q.foldlM ins (table, q)
        return st.1)
      let table ← (do
        let st ← F.foldlM ins (table, f)
        return st.1)
      let table ← (do
        let st ← T.foldlM ins (table, t)
        return st.1)
      let table ← (do
        let st ← W.foldlM ins (table, w)
        return st.1)
      let st ← P.foldlM ins (table, p)
      return st.1 : Exec LookupTable)
    = .ok ⟨insertAll .empty (number a1 (A.map (fun x => (x.1, x.2.1)))
        ++ number b1 (B.map (fun x => (x.1, x.2.1)))),
      insertAll .empty (number a2 (A.map (fun x => (x.1, x.2.2)))
        ++ number b2 (B.map (fun x => (x.1, x.2.2)))
        ++ number q Q ++ number f F ++ number t T ++ number w W ++ number p P)⟩ := by
  obtain ⟨_, _, h⟩ := foldlM_ins2 A ⟨.empty, .empty⟩ a1 a2; rw [h]; clear h
  simp only [bind_ok, pure_eq_ok]
  obtain ⟨_, _, h⟩ := foldlM_ins2 B _ b1 b2; rw [h]; clear h
  simp only [bind_ok]
  obtain ⟨_, h⟩ := foldlM_ins Q _ q; rw [h]; clear h
  simp only [bind_ok]
  obtain ⟨_, h⟩ := foldlM_ins F _ f; rw [h]; clear h
  simp only [bind_ok]
  obtain ⟨_, h⟩ := foldlM_ins T _ t; rw [h]; clear h
  simp only [bind_ok]
  obtain ⟨_, h⟩ := foldlM_ins W _ w; rw [h]; clear h
  simp only [bind_ok]
  obtain ⟨_, h⟩ := foldlM_ins P _ p; rw [h]; clear h
  simp only [bind_ok, ← insertAll_append]

theorem number_ladder (g : List Nat → Nat × List Nat) (l : List (List Nat))
    (pre post : List (Nat × List Nat)) (h : Kinds.ladder = pre ++ l.map g ++ post) :
    number (BitVec.ofNat 16 (pre.length + 1)) (l.map (fun c => (keyV c, className (g c))))
      = l.map (fun c => (keyV c, metaFor (g c))) := by
  induction l generalizing pre with
  | nil => rfl
  | cons c l ih =>
    have hr : Kinds.rankNo (g c) = pre.length + 1 := by
      have hn := Kinds.nodup_ladder
      rw [h] at hn
      have hnot : g c ∉ pre := by
        intro hm
        rw [List.map_cons, List.append_assoc, List.cons_append] at hn
        exact (List.nodup_append.1 hn).2.2 _ hm _ (by simp) rfl
      rw [Kinds.rankNo, h, List.map_cons, List.append_assoc,
        List.idxOf_append_of_notMem hnot, List.cons_append, List.idxOf_cons_self]
    simp only [List.map_cons, number]
    have ih' := ih (pre ++ [g c]) (by rw [h]; simp)
    rw [List.length_append, List.length_singleton] at ih'
    have : (BitVec.ofNat 16 (pre.length + 1) + 1 : BitVec 16) = BitVec.ofNat 16 (pre.length + 1 + 1) := by
      exact (BitVec.ofNat_add (pre.length + 1) 1).symm
    rw [this, ih', metaFor, hr]

/-- The kinds of the flush table. -/
def flushKinds : List (List Nat) := Kinds.straights ++ Kinds.nonStraights

/-- The kinds of the unsuited table. -/
def unsuitedKinds : List (List Nat) :=
  Kinds.straights ++ Kinds.nonStraights ++ Kinds.quads ++ Kinds.fullHouses ++ Kinds.trips
    ++ Kinds.twoPairs ++ Kinds.pairs

def entries (fl : Bool) (l : List (List Nat)) : List (BitVec 32 × Meta) :=
  l.map (fun c => (keyV c, metaFor (worth fl c)))

theorem number_seg (s : Kinds.Segment) (pre post : List Kinds.Segment)
    (h : Kinds.segments = pre ++ s :: post) (n : Nat)
    (hn : (pre.map (fun s => s.seg.length)).sum + 1 = n) :
    number (BitVec.ofNat 16 n) (items s) = entries s.fl s.seg := by
  have hs : s ∈ Kinds.segments := by rw [h]; simp
  have hl : (pre.flatMap Kinds.Segment.worths).length
      = (pre.map (fun s => s.seg.length)).sum := by
    rw [List.length_flatMap]
    congr 1
    refine List.map_congr_left ?_
    intro x _
    simp [Kinds.Segment.worths]
  have := number_ladder (fun c => (s.cat, s.key c)) s.seg (pre.flatMap Kinds.Segment.worths)
    (post.flatMap Kinds.Segment.worths)
    (by rw [Kinds.ladder, h]; simp [Kinds.Segment.worths, List.flatMap_cons])
  rw [hl, hn] at this
  refine Eq.trans this ?_
  refine List.map_congr_left ?_
  intro c hc
  rw [Kinds.worth_seg hs hc]

def flushTable : FxHashMap Meta := insertAll .empty (entries true flushKinds)
def unsuitedTable : FxHashMap Meta := insertAll .empty (entries false unsuitedKinds)

attribute [local irreducible] Kinds.straights Kinds.nonStraights Kinds.quads Kinds.fullHouses
  Kinds.trips Kinds.twoPairs Kinds.pairs

open Kinds in
theorem new_eq : LookupTable.new = .ok ⟨flushTable, unsuitedTable⟩ := by
  have hl := lengths
  simp only [segments, List.map_cons, List.map_nil, List.cons.injEq, and_true] at hl
  obtain ⟨l1, l2, l3, l4, l5, l6, l7, l8, l9⟩ := hl
  have n1 := number_seg sStraightFlush [] _ rfl 1 rfl
  have n2 := number_seg sQuads [_] _ rfl 11 (by simp [l1])
  have n3 := number_seg sFullHouse [_, _] _ rfl 167 (by simp [l1, l2])
  have n4 := number_seg sFlush [_, _, _] _ rfl 323 (by simp [l1, l2, l3])
  have n5 := number_seg sStraight [_, _, _, _] _ rfl 1600 (by simp [l1, l2, l3, l4])
  have n6 := number_seg sTrips [_, _, _, _, _] _ rfl 1610 (by simp [l1, l2, l3, l4, l5])
  have n7 := number_seg sTwoPair [_, _, _, _, _, _] _ rfl 2468 (by simp [l1, l2, l3, l4, l5, l6])
  have n8 := number_seg sPair [_, _, _, _, _, _, _] _ rfl 3326
    (by simp [l1, l2, l3, l4, l5, l6, l7])
  have n9 := number_seg sHigh [_, _, _, _, _, _, _, _] _ rfl 6186
    (by simp [l1, l2, l3, l4, l5, l6, l7, l8])
  have m1 : (straights.map (fun c => (keyV c, className (8, [topOf c]),
      className (4, [topOf c])))).map (fun x => (x.1, x.2.1)) = items sStraightFlush := by
    rw [List.map_map]; rfl
  have m2 : (straights.map (fun c => (keyV c, className (8, [topOf c]),
      className (4, [topOf c])))).map (fun x => (x.1, x.2.2)) = items sStraight := by
    rw [List.map_map]; rfl
  have m3 : (nonStraights.map (fun c => (keyV c, className (5, c),
      className (0, c)))).map (fun x => (x.1, x.2.1)) = items sFlush := by
    rw [List.map_map]; rfl
  have m4 : (nonStraights.map (fun c => (keyV c, className (5, c),
      className (0, c)))).map (fun x => (x.1, x.2.2)) = items sHigh := by
    rw [List.map_map]; rfl
  have c1 : WORST_STRAIGHT_FLUSH + 1 = 11#16 := by decide
  have c2 : WORST_FOUR_OF_A_KIND + 1 = 167#16 := by decide
  have c3 : WORST_STRAIGHT + 1 = 1610#16 := by decide
  have c4 : WORST_THREE_OF_A_KIND + 1 = 2468#16 := by decide
  have c5 : WORST_TWO_PAIR + 1 = 3326#16 := by decide
  have f : flushTable = insertAll .empty (entries sStraightFlush.fl sStraightFlush.seg
      ++ entries sFlush.fl sFlush.seg) := by
    unfold flushTable flushKinds entries
    rw [List.map_append]
    rfl
  have u : unsuitedTable = insertAll .empty (entries sStraight.fl sStraight.seg
      ++ entries sHigh.fl sHigh.seg
      ++ entries sQuads.fl sQuads.seg ++ entries sFullHouse.fl sFullHouse.seg
      ++ entries sTrips.fl sTrips.seg
      ++ entries sTwoPair.fl sTwoPair.seg ++ entries sPair.fl sPair.seg) := by
    unfold unsuitedTable unsuitedKinds entries
    simp only [List.map_append]
    rfl
  unfold LookupTable.new LookupTable.multiples
  simp only [flushes_eq, fourOfAKinds_eq, fullHouses_eq, threeOfAKinds_eq, twoPairs_eq, pairs_eq]
  rw [f, u, c1, c2, c3, c4, c5, ← n1, ← n2, ← n3, ← n4, ← n5, ← n6, ← n7, ← n8, ← n9, ← m1, ← m2,
    ← m3, ← m4]
  exact foldlM_all ..

/-! ## Looking up -/

theorem get?_insert_self (m : FxHashMap Meta) (k : BitVec 32) (v : Meta) :
    (m.insert k v).get? k = some v := by
  simp [FxHashMap.insert, FxHashMap.get?]

theorem get?_insert_ne (m : FxHashMap Meta) {k k' : BitVec 32} (v : Meta) (h : k' ≠ k) :
    (m.insert k v).get? k' = m.get? k' := by
  have h' : ¬ k = k' := fun e => h e.symm
  simp only [FxHashMap.insert, FxHashMap.get?]
  rw [List.find?_cons_of_neg (by simpa using h')]
  congr 1
  induction m.entries with
  | nil => rfl
  | cons e es ih =>
    by_cases he : e.1 = k
    · rw [List.filter_cons_of_neg (by simp [he]), ih, List.find?_cons_of_neg (by simp [he, h'])]
    · rw [List.filter_cons_of_pos (by simp [he])]
      by_cases he' : e.1 = k'
      · rw [List.find?_cons_of_pos (by simp [he']), List.find?_cons_of_pos (by simp [he'])]
      · rw [List.find?_cons_of_neg (by simp [he']), List.find?_cons_of_neg (by simp [he']), ih]

theorem get?_insertAll (es : List (BitVec 32 × Meta)) (m : FxHashMap Meta) (k : BitVec 32) (v : Meta)
    (hv : ∀ e ∈ es, e.1 = k → e.2 = v) (hex : (∃ e ∈ es, e.1 = k) ∨ m.get? k = some v) :
    (insertAll m es).get? k = some v := by
  induction es generalizing m with
  | nil =>
    rcases hex with ⟨e, he, _⟩ | h
    · cases he
    · exact h
  | cons e es ih =>
    refine ih (m.insert e.1 e.2) (fun x hx => hv x (by simp [hx])) ?_
    by_cases he : e.1 = k
    · right
      have := hv e (by simp) he
      subst he; subst this
      exact get?_insert_self ..
    · rcases hex with ⟨x, hx, hk⟩ | h
      · rcases List.mem_cons.1 hx with rfl | hx
        · exact absurd hk he
        · exact .inl ⟨x, hx, hk⟩
      · right
        rw [get?_insert_ne _ _ (fun h' => he h'.symm), h]

theorem get?_insertAll_none (es : List (BitVec 32 × Meta)) (m : FxHashMap Meta) (k : BitVec 32)
    (hv : ∀ e ∈ es, e.1 ≠ k) (hm : m.get? k = none) :
    (insertAll m es).get? k = none := by
  induction es generalizing m with
  | nil => exact hm
  | cons e es ih =>
    refine ih (m.insert e.1 e.2) (fun x hx => hv x (by simp [hx])) ?_
    rw [get?_insert_ne _ _ (fun h' => hv e (by simp) h'.symm), hm]

end Tab
end Poker
