import Verif.Proofs.MaskGroups
import Verif.Proofs.MaskTable
import Verif.Proofs.RoomCounts

/-! # How many worths leave room for more than sixteen cards (helper lemmas) -/

namespace Poker.Wide
open Rules Tab Exact Room Mask

/-- Of seventeen or more cards, `w` is the worth of the best five of some `n` exactly if `n` is at most `e`. -/
def Fits (w : Nat × List Nat) (e : Nat) : Prop :=
  ∀ n, 17 ≤ n → ((∃ h : List PCard, h.Nodup ∧ h.length = n ∧ IsBest w h) ↔ n ≤ e)

theorem fits_of {w : Nat × List Nat} {h : List PCard} (hn : h.Nodup) (hb : IsBest w h)
    (hup : ∀ g : List PCard, g.Nodup → 17 ≤ g.length → IsBest w g → g.length ≤ h.length) : Fits w h.length := by
  intro n h17
  constructor
  · rintro ⟨g, g1, rfl, g2⟩
    exact hup g g1 h17 g2
  · intro hle
    exact shrink hn hb (by omega) hle

/-! ## The rows of a table -/

theorem rows_length (width : Nat) : ∀ n T, (rows width n T).length = n
  | 0, _ => rfl
  | n + 1, T => by rw [rows, List.length_cons, rows_length]

theorem rows_add (width : Nat) : ∀ n m T, rows width (n + m) T = rows width n T ++ rows width m (T >>> (width * n))
  | 0, m, T => by
    rw [rows, List.nil_append, Nat.zero_add, Nat.mul_zero, Nat.shiftRight_zero]
  | n + 1, m, T => by
    rw [show n + 1 + m = (n + m) + 1 by omega, rows, rows_add, rows, List.cons_append]
    congr 3
    show T >>> width >>> (width * n) = T >>> (width * (n + 1))
    rw [← Nat.shiftRight_add, Nat.mul_succ, Nat.add_comm]

theorem forall₂_all {α β : Type} {p : α → β → Bool} : ∀ {l : List α} {m : List β}, l.length = m.length →
    (l.zip m).all (fun x => p x.1 x.2) = true → List.Forall₂ (fun a b => p a b = true) l m
  | [], [], _, _ => .nil
  | a :: l, b :: m, hl, h => by
    rw [List.zip_cons_cons, List.all_cons, Bool.and_eq_true] at h
    exact .cons h.1 (forall₂_all (by simpa using hl) h.2)

/-- The rows of flushes from `i` on. -/
def From (i : Nat) : Prop := List.Forall₂ (fun w row => flushRow w row = true) (Kinds.nonStraights.drop i)
  (rows 91 (1277 - i) (flushHands >>> (91 * i)))

theorem zip_append {α β : Type} : ∀ {l l' : List α} {m : List β}, l.length = m.length → (l ++ l').zip m = l.zip m
  | [], l', [], _ => by cases l' <;> rfl
  | a :: l, l', b :: m, h => by
    rw [List.cons_append, List.zip_cons_cons, List.zip_cons_cons, zip_append (by simpa using h)]

theorem nonStraights_length : Kinds.nonStraights.length = 1277 := by
  have := Kinds.lengths
  simpa [Kinds.segments, Kinds.sFlush] using (congrArg (fun l => l.getD 3 0) this)

theorem from_step {i n : Nat} (hi : i + n ≤ 1277) (h : flushPart i n = true) (hf : From (i + n)) : From i := by
  unfold From at *
  have hd : Kinds.nonStraights.drop i = (Kinds.nonStraights.drop i).take n ++ Kinds.nonStraights.drop (i + n) := by
    rw [← List.drop_drop, List.take_append_drop]
  have hl : ((Kinds.nonStraights.drop i).take n).length = n := by
    rw [List.length_take, List.length_drop, nonStraights_length]
    omega
  rw [show 1277 - i = n + (1277 - (i + n)) by omega, rows_add, ← Nat.shiftRight_add, ← Nat.mul_add]
  rw [flushPart, hd, zip_append (by rw [hl, rows_length])] at h
  rw [hd]
  exact List.rel_append (forall₂_all (by rw [hl, rows_length]) h) hf

theorem from_zero : From 0 := by
  refine from_step (by decide) flush_rows_0 ?_
  refine from_step (by decide) flush_rows_1 ?_
  refine from_step (by decide) flush_rows_2 ?_
  refine from_step (by decide) flush_rows_3 ?_
  refine from_step (by decide) flush_rows_4 ?_
  refine from_step (by decide) flush_rows_5 ?_
  refine from_step (by decide) flush_rows_6 ?_
  refine from_step (by decide) flush_rows_7 ?_
  unfold From
  rw [List.drop_of_length_le (by rw [nonStraights_length])]
  exact .nil

/-! ## The numbers of cards -/

theorem flush_fits {w : List Nat} (hw : w ∈ Kinds.nonStraights) {row : Nat} (h : flushRow w row = true) :
    Fits (5, w) (rowRoom row) := by
  obtain ⟨hsub, hl⟩ := mem_combos.1 (List.mem_filter.1 hw).1
  have hd : w.Pairwise (· > ·) := allValues_desc.sublist hsub
  have hm : ∀ v ∈ w, v ∈ allValues := fun v hv => hsub.subset hv
  match w, hl, hd, hm, h with
  | [a, b, c, d, e], _, hd, hm, h =>
    rw [flushRow, Bool.and_eq_true] at h
    simp only [List.pairwise_cons, List.mem_cons] at hd
    have hd' : b < a ∧ c < b ∧ d < c ∧ e < d :=
      ⟨hd.1 _ (by simp), hd.2.1 _ (by simp), hd.2.2.1 _ (by simp), hd.2.2.2.1 _ (by simp)⟩
    have ha := (two_le (hm a (by simp))).2
    have he := (two_le (hm e (by simp))).1
    obtain ⟨h1, h2⟩ := okFlush_best ha he hd' h.1 (col_lt ..) (col_lt ..) (col_lt ..)
    rw [← hand_length]
    refine fits_of (deal_nodup ..) h1 (fun g g1 g2 g3 => ?_)
    rw [hand_length]
    exact upFlush_le ha hd' ⟨col_lt .., col_lt .., col_lt ..⟩ h.2 g1 g2 g3

theorem quads_pairs : ∀ w ∈ Kinds.sQuads.worths, ∃ q ∈ allValues, ∃ k ∈ allValues, w = (7, [q, k]) := by
  decide +kernel

theorem full_pairs : ∀ w ∈ Kinds.sFullHouse.worths, ∃ q ∈ allValues, ∃ k ∈ allValues, w = (6, [q, k]) := by
  decide +kernel

theorem quads_fits {w : Nat × List Nat} (hw : w ∈ Kinds.sQuads.worths) {row : Nat} (h : quadsRow w.2 row = true) :
    Fits w (rowRoom row) := by
  obtain ⟨q, hq, k, hk, rfl⟩ := quads_pairs w hw
  obtain ⟨h1, h2⟩ := quadsRow_spec hq hk h
  rw [← hand_length]
  refine fits_of (deal_nodup ..) h2 (fun g g1 g2 g3 => ?_)
  rw [hand_length]
  exact h1 g g1 (by omega) g3

theorem full_fits {w : Nat × List Nat} (hw : w ∈ Kinds.sFullHouse.worths) {row : Nat} (h : fullRow w.2 row = true) :
    Fits w (rowRoom row) := by
  obtain ⟨q, hq, k, hk, rfl⟩ := full_pairs w hw
  obtain ⟨h1, h2⟩ := fullRow_spec hq hk h
  rw [← hand_length]
  refine fits_of (deal_nodup ..) h2 (fun g g1 g2 g3 => ?_)
  rw [hand_length]
  exact h1 g g1 (by omega) g3

theorem straight_tops : ∀ w ∈ Kinds.sStraightFlush.worths, ∃ t ∈ straightTops, w = (8, [t]) := by decide

theorem straight_fits {w : Nat × List Nat} (hw : w ∈ Kinds.sStraightFlush.worths) :
    Fits w (4 * suitRoom (w.2.getD 0 0)) := by
  obtain ⟨t, ht, rfl⟩ := straight_tops w hw
  obtain ⟨h1, h2, h3⟩ := straight_check t ht
  show Fits _ (4 * suitRoom t)
  rw [← h2]
  refine fits_of (deal_nodup ..) (bestWorth_isBest (deal_nodup ..) (by rw [h2]; omega) h1) (fun g g1 g2 g3 => ?_)
  rw [h2]
  exact straight_le g1 (by omega) g3

/-- Seventeen cards are at least a flush. -/
theorem low_fits {w : Nat × List Nat} (hw : w.1 ≤ 4) : Fits w 0 := by
  intro n h17
  constructor
  · rintro ⟨h, hn, rfl, hb⟩
    exfalso
    have hc : category h = w.1 := (Cat.category_best hn (by omega) hb).symm
    have : hasFlush h = true := by
      by_contra hf
      rw [Bool.not_eq_true, hasFlush, List.any_eq_false] at hf
      have one : ∀ s, (ofSuit s h).length ≤ 4 := by
        intro s
        have := hf s (Cat.suits_all s)
        rw [decide_eq_true_eq] at this
        omega
      have := length_suits h
      have h1 := one .Clubs
      have h2 := one .Hearts
      have h3 := one .Spades
      have h4 := one .Diamonds
      omega
    have := Cat.le_category (k := 5) (by decide) this
    omega
  · intro h
    omega

/-! ## How many worths -/

/-- The numbers of cards of the worths of a category. -/
def wideRooms (k : Nat) : List Nat :=
  match k with
  | 5 => (rows 91 1277 flushHands).map rowRoom
  | 6 => (rows 65 156 fullHands).map rowRoom
  | 7 => (rows 65 156 quadsHands).map rowRoom
  | 8 => Kinds.sStraightFlush.worths.map (fun w => 4 * suitRoom (w.2.getD 0 0))
  | _ => (segment k).worths.map (fun _ => 0)

theorem forall₂_map_right {α β γ : Type} {R : α → γ → Prop} {f : β → γ} : ∀ {l : List α} {m : List β},
    List.Forall₂ (fun a b => R a (f b)) l m → List.Forall₂ R l (m.map f)
  | _, _, .nil => .nil
  | _, _, .cons h t => .cons h (forall₂_map_right t)

theorem forall₂_mem {α β : Type} {R S : α → β → Prop} : ∀ {l : List α} {m : List β}, List.Forall₂ R l m →
    (∀ a ∈ l, ∀ b, R a b → S a b) → List.Forall₂ S l m
  | _, _, .nil, _ => .nil
  | _, _, .cons h t, hs => .cons (hs _ (by simp) _ h) (forall₂_mem t (fun a ha => hs a (by simp [ha])))

theorem forall₂_self {α β : Type} {R : α → β → Prop} {f : α → β} : ∀ {l : List α}, (∀ a ∈ l, R a (f a)) →
    List.Forall₂ R l (l.map f)
  | [], _ => .nil
  | a :: _, h => .cons (h a (by simp)) (forall₂_self (fun x hx => h x (by simp [hx])))

theorem worths_lengths : Kinds.sQuads.worths.length = 156 ∧ Kinds.sFullHouse.worths.length = 156 ∧
    Kinds.sStraightFlush.worths.length = 10 := by
  simp only [Kinds.Segment.worths, List.length_map]
  have := Kinds.lengths
  refine ⟨?_, ?_, ?_⟩
  · simpa [Kinds.segments] using (congrArg (fun l => l.getD 1 0) this)
  · simpa [Kinds.segments] using (congrArg (fun l => l.getD 2 0) this)
  · simpa [Kinds.segments] using (congrArg (fun l => l.getD 0 0) this)

theorem wide_fits {k : Nat} (hk : k ≤ 8) : List.Forall₂ Fits (segment k).worths (wideRooms k) := by
  have low : ∀ k, k ≤ 4 → List.Forall₂ Fits (segment k).worths ((segment k).worths.map (fun _ => 0)) := by
    intro k hk
    refine forall₂_self (fun w hw => low_fits ?_)
    obtain ⟨c, -, rfl⟩ := List.mem_map.1 hw
    show (segment k).cat ≤ 4
    rw [segment_cat (by omega)]
    exact hk
  interval_cases k
  · exact low 0 (by decide)
  · exact low 1 (by decide)
  · exact low 2 (by decide)
  · exact low 3 (by decide)
  · exact low 4 (by decide)
  · show List.Forall₂ Fits (Kinds.nonStraights.map (fun c => (5, c))) _
    have h := from_zero
    rw [From, List.drop_zero, Nat.mul_zero, Nat.shiftRight_zero, Nat.sub_zero] at h
    rw [List.forall₂_map_left_iff]
    exact forall₂_map_right (forall₂_mem h (fun w hw row hr => flush_fits hw hr))
  · show List.Forall₂ Fits Kinds.sFullHouse.worths _
    have h := forall₂_all (by rw [List.length_map, worths_lengths.2.1, rows_length]) full_rows
    rw [List.forall₂_map_left_iff] at h
    exact forall₂_map_right (forall₂_mem h (fun w hw row hr => full_fits hw hr))
  · show List.Forall₂ Fits Kinds.sQuads.worths _
    have h := forall₂_all (by rw [List.length_map, worths_lengths.1, rows_length]) quads_rows
    rw [List.forall₂_map_left_iff] at h
    exact forall₂_map_right (forall₂_mem h (fun w hw row hr => quads_fits hw hr))
  · exact forall₂_self (fun w hw => straight_fits hw)

theorem counts_rooms {E ds : List Nat} {B : Nat} (hl : E.length < 10000) (hds : ds.length = B)
    (hE : ∀ e ∈ E, e < B) (hd : ∀ d ∈ ds, d < 10000) (h : (E.map (10000 ^ ·)).sum = number ds) {n : Nat} (hn : n ≤ B) :
    E.countP (fun e => decide (n ≤ e)) = (ds.drop n).sum := by
  subst hds
  have hc := Seven.count_digits 10000 ds E hl hE hd h
  obtain ⟨j, rfl⟩ : ∃ j, n = ds.length - j := ⟨ds.length - n, by omega⟩
  clear hn
  induction j with
  | zero =>
    rw [Nat.sub_zero, List.drop_of_length_le (by omega), List.sum_nil, List.countP_eq_zero]
    intro e he
    have := hE e he
    simp only [decide_eq_true_eq]
    omega
  | succ j ih =>
    by_cases hj : j < ds.length
    · rw [count_step, show ds.length - (j + 1) + 1 = ds.length - j by omega, ih, hc _ (by omega)]
      rw [List.drop_eq_getElem_cons (i := ds.length - (j + 1)) (by omega), List.sum_cons,
        show ds.length - (j + 1) + 1 = ds.length - j by omega]
    · rw [show ds.length - (j + 1) = ds.length - j by omega]
      exact ih

/-- How many worths of a category have room for exactly so many cards. -/
def wideCounts (k : Nat) : List Nat :=
  match k with
  | 5 => [0, 0, 0, 0, 0, 0, 0, 0, 0, 0, 0, 0, 0, 0, 0, 0, 0, 0, 12, 14, 27, 39, 55, 98, 194, 319, 519, 0, 0, 0, 0, 0, 0, 0, 0, 0, 0, 0, 0, 0, 0, 0, 0, 0, 0, 0, 0, 0, 0, 0, 0, 0, 0]
  | 6 => [0, 0, 0, 0, 0, 0, 0, 0, 0, 0, 0, 0, 0, 0, 0, 0, 1, 13, 2, 13, 3, 13, 4, 13, 5, 13, 6, 13, 6, 11, 5, 9, 4, 7, 3, 5, 2, 3, 1, 1, 0, 0, 0, 0, 0, 0, 0, 0, 0, 0, 0, 0, 0]
  | 7 => [0, 0, 0, 0, 0, 0, 0, 1, 12, 0, 1, 1, 11, 1, 1, 1, 16, 0, 0, 5, 15, 0, 5, 1, 7, 5, 1, 1, 11, 1, 1, 6, 11, 0, 5, 5, 5, 5, 5, 1, 8, 4, 1, 1, 1, 0, 0, 0, 0, 0, 0, 0, 0]
  | _ => [0, 0, 0, 0, 0, 0, 0, 0, 0, 0, 0, 0, 0, 0, 0, 0, 0, 0, 0, 0, 0, 0, 0, 0, 0, 0, 0, 0, 0, 0, 0, 0, 0, 0, 0, 0, 0, 0, 0, 0, 0, 0, 0, 0, 4, 0, 0, 0, 5, 0, 0, 0, 1]

theorem rooms_5 : (wideRooms 5).all (fun e => Nat.blt e 53) = true ∧
    Nat.beq ((wideRooms 5).map (10000 ^ ·)).sum (number (wideCounts 5)) = true := by
  decide +kernel
theorem rooms_6 : (wideRooms 6).all (fun e => Nat.blt e 53) = true ∧
    Nat.beq ((wideRooms 6).map (10000 ^ ·)).sum (number (wideCounts 6)) = true := by
  decide +kernel
theorem rooms_7 : (wideRooms 7).all (fun e => Nat.blt e 53) = true ∧
    Nat.beq ((wideRooms 7).map (10000 ^ ·)).sum (number (wideCounts 7)) = true := by
  decide +kernel
theorem rooms_8 : (wideRooms 8).all (fun e => Nat.blt e 53) = true ∧
    Nat.beq ((wideRooms 8).map (10000 ^ ·)).sum (number (wideCounts 8)) = true := by
  decide +kernel

theorem wide_counts {n k : Nat} (hn : 17 ≤ n) (h53 : n ≤ 53) (hk : k ≤ 8) :
    (wideRooms k).countP (fun e => decide (n ≤ e)) = if k ≤ 4 then 0 else ((wideCounts k).drop n).sum := by
  have high : ∀ k, (wideCounts k).length = 53 → (∀ d ∈ wideCounts k, d < 10000) → (wideRooms k).length < 10000 →
      (wideRooms k).all (fun e => Nat.blt e 53) = true ∧
        Nat.beq ((wideRooms k).map (10000 ^ ·)).sum (number (wideCounts k)) = true →
      (wideRooms k).countP (fun e => decide (n ≤ e)) = ((wideCounts k).drop n).sum := by
    intro k hl hd hlen hr
    refine counts_rooms hlen hl (fun e he => ?_) hd (Nat.eq_of_beq_eq_true hr.2) h53
    have := List.all_eq_true.1 hr.1 e he
    rwa [Nat.blt_eq] at this
  split
  · rename_i h4
    rw [List.countP_eq_zero]
    intro e he
    have : e = 0 := by
      have hw : wideRooms k = (segment k).worths.map (fun _ => 0) := by
        interval_cases k <;> rfl
      rw [hw] at he
      obtain ⟨w, -, rfl⟩ := List.mem_map.1 he
      rfl
    simp only [decide_eq_true_eq]
    omega
  · rename_i h4
    have l91 : ((rows 91 1277 flushHands).map rowRoom).length = 1277 := by rw [List.length_map, rows_length]
    have l6 : ((rows 65 156 fullHands).map rowRoom).length = 156 := by rw [List.length_map, rows_length]
    have l7 : ((rows 65 156 quadsHands).map rowRoom).length = 156 := by rw [List.length_map, rows_length]
    have hk' : k = 5 ∨ k = 6 ∨ k = 7 ∨ k = 8 := by omega
    rcases hk' with rfl | rfl | rfl | rfl
    · exact high 5 rfl (by decide) (Nat.lt_of_le_of_lt (Nat.le_of_eq l91) (by decide)) rooms_5
    · exact high 6 rfl (by decide) (Nat.lt_of_le_of_lt (Nat.le_of_eq l6) (by decide)) rooms_6
    · exact high 7 rfl (by decide) (Nat.lt_of_le_of_lt (Nat.le_of_eq l7) (by decide)) rooms_7
    · refine high 8 rfl (by decide) ?_ rooms_8
      show (Kinds.sStraightFlush.worths.map _).length < 10000
      rw [List.length_map, worths_lengths.2.2]
      decide

/-- How many worths of a category are those of some `n` cards. -/
theorem countP_fits {l : List (Nat × List Nat)} {E : List Nat} (h : List.Forall₂ Fits l E) {n : Nat} (hn : 17 ≤ n)
    (p : Nat × List Nat → Bool)
    (hp : ∀ w, p w = true ↔ ∃ h : List PCard, h.Nodup ∧ h.length = n ∧ IsBest w h) :
    l.countP p = E.countP (fun e => decide (n ≤ e)) := by
  induction h with
  | nil => rfl
  | @cons w e l E hf _ ih =>
    rw [List.countP_cons, List.countP_cons, ih]
    congr 1
    have : (p w = true) ↔ (decide (n ≤ e) = true) := by rw [hp, hf n hn, decide_eq_true_eq]
    simp only [this]

end Poker.Wide
