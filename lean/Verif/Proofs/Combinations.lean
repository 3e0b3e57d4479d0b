import Verif.Model.Utils
import Verif.Spec.Combos

/-! # The combination iterator produces all combinations (helper lemmas) -/

namespace Poker


namespace Comb

@[simp] theorem bind_ok {α β : Type} (a : α) (f : α → Exec β) :
    ((Except.ok a : Exec α) >>= f) = f a := rfl

@[simp] theorem bind_error {α β : Type} (p : Panic) (f : α → Exec β) :
    ((Except.error p : Exec α) >>= f) = Except.error p := rfl

@[simp] theorem pure_eq_ok {α : Type} (a : α) : (pure a : Exec α) = Except.ok a := rfl

/-- All increasing lists of `N` positions in `[lo, lo + room + N)`, lexicographically. -/
def C : (N room lo : Nat) → List (List Nat)
  | 0, _, _ => [[]]
  | N + 1, 0, lo => (C N 0 (lo + 1)).map (lo :: ·)
  | N + 1, room + 1, lo => (C N (room + 1) (lo + 1)).map (lo :: ·) ++ C (N + 1) room (lo + 1)

/-- Valid index vectors below `n`: increasing, starting at `lo` or later. -/
def OK (n : Nat) : Nat → List Nat → Prop
  | _, [] => True
  | lo, i :: is => lo ≤ i ∧ i + (is.length + 1) ≤ n ∧ OK n (i + 1) is

/-- The combinations from the given index vector on, inclusive. -/
def S (n : Nat) : List Nat → List (List Nat)
  | [] => [[]]
  | i :: is =>
    (S n is).map (i :: ·) ++
      if i + is.length + 2 ≤ n then C (is.length + 1) (n - (i + is.length + 2)) (i + 1) else []

/-- Lexicographic successor of an index vector. -/
def succ (n : Nat) : List Nat → Option (List Nat)
  | [] => none
  | i :: is =>
    match succ n is with
    | some is' => some (i :: is')
    | none => if i + is.length + 1 < n then some (List.range' (i + 1) (is.length + 1)) else none

theorem OK_range' (n N lo : Nat) (h : lo + N ≤ n) : OK n lo (List.range' lo N) := by
  induction N generalizing lo with
  | zero => simp [OK]
  | succ N ih =>
    simp only [List.range'_succ, OK, List.length_range']
    exact ⟨Nat.le_refl _, by omega, ih (lo + 1) (by omega)⟩

theorem S_range' (n N lo : Nat) (h : lo + N ≤ n) :
    S n (List.range' lo N) = C N (n - (lo + N)) lo := by
  induction N generalizing lo with
  | zero => simp [S, C]
  | succ N ih =>
    simp only [List.range'_succ, S, List.length_range']
    rw [ih (lo + 1) (by omega)]
    obtain ⟨room, hr⟩ : ∃ room, n = lo + (N + 1) + room := ⟨n - (lo + (N + 1)), by omega⟩
    subst hr
    cases room with
    | zero =>
      rw [if_neg (by omega)]
      simp only [show lo + (N + 1) + 0 - (lo + (N + 1)) = 0 by omega,
        show lo + (N + 1) + 0 - (lo + 1 + N) = 0 by omega]
      simp [C]
    | succ room =>
      rw [if_pos (by omega)]
      simp only [show lo + (N + 1) + (room + 1) - (lo + (N + 1)) = room + 1 by omega,
        show lo + (N + 1) + (room + 1) - (lo + 1 + N) = room + 1 by omega,
        show lo + (N + 1) + (room + 1) - (lo + N + 2) = room by omega]
      simp [C]

theorem succ_length {n : Nat} {is is' : List Nat} (h : succ n is = some is') :
    is'.length = is.length := by
  induction is generalizing is' with
  | nil => simp [succ] at h
  | cons i is ih =>
    rw [succ] at h
    split at h
    · rename_i is'' h'
      simp only [Option.some.injEq] at h
      subst h
      simp [ih h']
    · split at h
      · simp only [Option.some.injEq] at h
        subst h
        simp
      · simp at h

theorem succ_OK {n lo : Nat} {is is' : List Nat} (hok : OK n lo is) (h : succ n is = some is') :
    OK n lo is' := by
  induction is generalizing is' lo with
  | nil => simp [succ] at h
  | cons i is ih =>
    obtain ⟨h1, h2, h3⟩ := hok
    rw [succ] at h
    split at h
    · rename_i is'' h'
      simp only [Option.some.injEq] at h
      subst h
      exact ⟨h1, by rw [succ_length h']; exact h2, ih h3 h'⟩
    · split at h
      · simp only [Option.some.injEq] at h
        subst h
        have := OK_range' n (is.length + 1) (i + 1) (by omega)
        simp only [List.range'_succ, OK, List.length_range'] at this ⊢
        exact ⟨by omega, this.2.1, this.2.2⟩
      · simp at h

theorem S_succ {n lo : Nat} {is : List Nat} (hok : OK n lo is) :
    S n is = is :: (match succ n is with | some is' => S n is' | none => []) := by
  induction is generalizing lo with
  | nil => simp [S, succ]
  | cons i is ih =>
    obtain ⟨h1, h2, h3⟩ := hok
    rw [S, ih h3]
    cases hs : succ n is with
    | some is' =>
      simp only [succ, hs, List.map_cons, List.cons_append, List.cons.injEq, true_and]
      rw [S, succ_length hs]
    | none =>
      simp only [succ, hs, List.map_cons, List.map_nil, List.cons_append, List.nil_append,
        List.cons.injEq, true_and]
      split
      · rename_i hlt
        rw [if_pos (by omega)]
        simp only
        rw [S_range' n (is.length + 1) (i + 1) (by omega)]
        congr 1
        omega
      · rename_i hlt
        rw [if_neg (by omega)]

/-! ### The loops of `next` -/

theorem resetFrom_aux (pre : List Nat) (x : Nat) (m : Nat) (suf : List Nat) (hs : suf.length = m) :
    (List.range' (pre.length + 1) m).foldlM
      (fun ind j => do
        let p ← usizeSub j 1
        let prev ← idx ind p
        setIdx ind j (prev + 1))
      (pre ++ x :: suf) = (Except.ok (pre ++ List.range' x (m + 1)) : Exec (List Nat)) := by
  induction m generalizing pre x suf with
  | zero =>
    have : suf = [] := List.eq_nil_of_length_eq_zero hs
    subst this
    simp
  | succ m ih =>
    obtain ⟨y, suf', rfl⟩ : ∃ y suf', suf = y :: suf' := by
      cases suf with
      | nil => simp at hs
      | cons y s => exact ⟨y, s, rfl⟩
    rw [List.range'_succ, List.foldlM_cons]
    have e1 : usizeSub (pre.length + 1) 1 = .ok pre.length := by simp [usizeSub]
    have e2 : idx (pre ++ x :: y :: suf') pre.length = .ok x := by simp [idx]
    have e3 : setIdx (pre ++ x :: y :: suf') (pre.length + 1) (x + 1)
        = .ok (pre ++ x :: (x + 1) :: suf') := by
      simp only [setIdx]
      rw [if_pos (by simp)]
      simp
    simp only [e1, bind_ok, e2, e3]
    have := ih (pre ++ [x]) (x + 1) suf' (by simpa using hs)
    simp only [List.append_assoc, List.singleton_append, List.length_append, List.length_singleton] at this
    rw [this]
    simp [List.range'_succ]

theorem resetFrom_eq (N : Nat) (pre : List Nat) (x : Nat) (suf : List Nat)
    (hN : pre.length + 1 + suf.length = N) :
    Combinations.resetFrom N pre.length (pre ++ x :: suf)
      = .ok (pre ++ List.range' x (N - pre.length)) := by
  unfold Combinations.resetFrom
  rw [resetFrom_aux pre x (N - (pre.length + 1)) suf (by omega)]
  congr 3
  omega

theorem succ_append {n : Nat} (pre is is' : List Nat) (h : succ n is = some is') :
    succ n (pre ++ is) = some (pre ++ is') := by
  induction pre with
  | nil => simpa using h
  | cons p pre ih => simp [succ, ih]

theorem OK_append {n lo : Nat} {pre : List Nat} {x : Nat} {suf : List Nat}
    (h : OK n lo (pre ++ x :: suf)) : lo + pre.length ≤ x ∧ x + suf.length + 1 ≤ n := by
  induction pre generalizing lo with
  | nil => obtain ⟨h1, h2, _⟩ := h; simp; omega
  | cons p pre ih =>
    obtain ⟨h1, _, h3⟩ := h
    have := ih h3
    simp only [List.length_cons]
    omega

theorem advance_eq {n N : Nat} (hn : N ≤ n) (pre suf : List Nat) (hN : pre.length + suf.length = N)
    (hok : OK n 0 (pre ++ suf)) (hmax : succ n suf = none) (hpos : 0 < pre.length) :
    Combinations.advance n N pre.length (pre ++ suf) false =
      .ok (match succ n (pre ++ suf) with
        | some is' => (is', false)
        | none => (pre ++ suf, true)) := by
  induction hlen : pre.length generalizing pre suf with
  | zero => omega
  | succ k ih =>
    obtain ⟨pre', x, rfl⟩ : ∃ pre' x, pre = pre' ++ [x] := by
      rcases List.eq_nil_or_concat pre with h | ⟨l, b, h⟩
      · simp [h] at hlen
      · exact ⟨l, b, by simpa using h⟩
    have hk : pre'.length = k := by simpa using hlen
    subst hk
    simp only [List.append_assoc, List.singleton_append] at *
    simp only [List.length_append, List.length_singleton] at hN
    have hb := OK_append hok
    have e1 : usizeSub n N = .ok (n - N) := by simp [usizeSub, hn]
    have e2 : idx (pre' ++ x :: suf) pre'.length = .ok x := by simp [idx]
    rw [Combinations.advance]
    simp only [e1, bind_ok, e2]
    by_cases hx : x < n - N + pre'.length
    · rw [if_pos hx, if_neg (by omega)]
      have e3 : setIdx (pre' ++ x :: suf) pre'.length (x + 1) = .ok (pre' ++ (x + 1) :: suf) := by
        simp only [setIdx]
        rw [if_pos (by simp)]
        simp
      have e4 := resetFrom_eq N pre' (x + 1) suf (by omega)
      have e5 : succ n (x :: suf) = some (List.range' (x + 1) (suf.length + 1)) := by
        simp only [succ, hmax]
        rw [if_pos (by omega)]
      rw [succ_append pre' _ _ e5]
      simp only [e3, bind_ok, e4, pure_eq_ok]
      congr 4
      omega
    · rw [if_neg hx]
      have e5 : succ n (x :: suf) = none := by
        simp only [succ, hmax]
        rw [if_neg (by omega)]
      rcases Nat.eq_zero_or_pos pre'.length with h0 | h0
      · have hp : pre' = [] := List.eq_nil_of_length_eq_zero h0
        subst hp
        rw [if_pos ⟨rfl, by omega⟩]
        simp [Combinations.advance, e5]
      · rw [if_neg (by omega)]
        exact ih pre' (x :: suf) (by simp; omega) hok e5 h0 rfl

theorem mapM_idx {α : Type} (data : List α) (is : List Nat) (h : ∀ i ∈ is, i < data.length) :
    is.mapM (fun i => idx data i) = (Except.ok (is.filterMap (fun i => data[i]?)) : Exec (List α)) := by
  induction is with
  | nil => rfl
  | cons i is ih =>
    have hi := h i (by simp)
    rw [List.mapM_cons, ih (fun j hj => h j (by simp [hj]))]
    simp [idx, List.getElem?_eq_getElem hi]

theorem OK_lt {n lo : Nat} {is : List Nat} (h : OK n lo is) : ∀ i ∈ is, i < n := by
  induction is generalizing lo with
  | nil => simp
  | cons i is ih =>
    obtain ⟨_, h2, h3⟩ := h
    intro j hj
    rcases List.mem_cons.1 hj with rfl | hj
    · omega
    · exact ih h3 j hj

/-- One call of `next` on a live iterator. -/
theorem next_live {α : Type} {N : Nat} (data : List α) (is : List Nat) (hN : is.length = N)
    (h0 : 0 < N) (hn : N ≤ data.length) (hok : OK data.length 0 is) :
    (⟨data, is, false⟩ : Combinations α N).next =
      .ok (some (is.filterMap (fun i => data[i]?)),
        match succ data.length is with
        | some is' => ⟨data, is', false⟩
        | none => ⟨data, is, true⟩) := by
  have h := advance_eq hn is [] (by simpa using hN) (by simpa using hok) rfl (by omega)
  simp only [List.append_nil] at h
  rw [hN] at h
  unfold Combinations.next
  rw [if_neg (by simp)]
  simp only [mapM_idx data is (OK_lt hok), bind_ok, h]
  cases succ data.length is <;> rfl

/-- The rest of a `for` loop over a live iterator. -/
theorem forEach_eq {α σ : Type} {N : Nat} (body : σ → List α → Exec σ) (data : List α)
    (h0 : 0 < N) (hn : N ≤ data.length) (fuel : Nat) (is : List Nat) (hN : is.length = N)
    (hok : OK data.length 0 is) (hf : (S data.length is).length < fuel) (s : σ) :
    Combinations.forEach body fuel (⟨data, is, false⟩ : Combinations α N) s =
      ((S data.length is).map (fun l => l.filterMap (fun i => data[i]?))).foldlM body s := by
  induction fuel generalizing is s with
  | zero => omega
  | succ fuel ih =>
    rw [Combinations.forEach, next_live data is hN h0 hn hok]
    rw [S_succ hok] at hf ⊢
    simp only [bind_ok, List.map_cons, List.foldlM_cons]
    cases hb : body s (is.filterMap (fun i => data[i]?)) with
    | error p => simp
    | ok s' =>
      simp only [bind_ok]
      cases hs : succ data.length is with
      | some is' =>
        simp only [hs, List.length_cons] at hf
        simp only
        exact ih is' (by rw [succ_length hs]; exact hN) (succ_OK hok hs) (by omega) s'
      | none =>
        cases fuel with
        | zero => simp only [hs, List.length_cons, List.length_nil] at hf; omega
        | succ fuel => simp [Combinations.forEach, Combinations.next]

theorem length_C_le (N room lo : Nat) : (C N room lo).length ≤ 2 ^ (room + N) := by
  induction N generalizing room lo with
  | zero => simp [C, Nat.one_le_two_pow]
  | succ N ihN =>
    induction room generalizing lo with
    | zero =>
      simp only [C, List.length_map]
      exact Nat.le_trans (ihN 0 (lo + 1)) (Nat.pow_le_pow_right (by omega) (by omega))
    | succ room ihr =>
      simp only [C, List.length_append, List.length_map]
      have h1 := ihN (room + 1) (lo + 1)
      have h2 := ihr (lo + 1)
      have : 2 ^ (room + 1 + (N + 1)) = 2 ^ (room + 1 + N) + 2 ^ (room + (N + 1)) := by
        rw [show room + 1 + (N + 1) = (room + 1 + N) + 1 by omega,
          show room + (N + 1) = room + 1 + N by omega, Nat.pow_succ]
        omega
      omega

theorem combos_eq_nil {α : Type} {N : Nat} {l : List α} (h : l.length < N) : combos N l = [] := by
  induction l generalizing N with
  | nil => cases N with
    | zero => simp at h
    | succ N => rfl
  | cons x l ih =>
    cases N with
    | zero => simp at h
    | succ N =>
      simp only [List.length_cons] at h
      simp [combos, ih (show l.length < N by omega), ih (show l.length < N + 1 by omega)]

theorem C_combos {α : Type} (data : List α) (N room lo : Nat) (h : lo + N + room = data.length) :
    (C N room lo).map (fun l => l.filterMap (fun i => data[i]?)) = combos N (data.drop lo) := by
  induction N generalizing room lo with
  | zero => simp [C, combos]
  | succ N ihN =>
    induction room generalizing lo with
    | zero =>
      have hlt : lo < data.length := by omega
      have hd : data.drop lo = data[lo] :: data.drop (lo + 1) := List.drop_eq_getElem_cons hlt
      rw [hd, combos, combos_eq_nil (N := N + 1) (by simp; omega), ← ihN 0 (lo + 1) (by omega)]
      simp [C, hlt]
    | succ room ihr =>
      have hlt : lo < data.length := by omega
      have hd : data.drop lo = data[lo] :: data.drop (lo + 1) := List.drop_eq_getElem_cons hlt
      rw [hd, combos, ← ihN (room + 1) (lo + 1) (by omega), ← ihr (lo + 1) (by omega)]
      simp [C, hlt]

end Comb

/-- A `for` loop over `const_combos::<_, N>(items)` is a fold over all the combinations; in
particular the iterator ends. -/
theorem forCombos_eq {α σ : Type} (N : Nat) (items : List α) (init : σ)
    (body : σ → List α → Exec σ) (h0 : 0 < N) (hn : N ≤ items.length) :
    forCombos N items init body = (combos N items).foldlM body init := by
  have hS := Comb.S_range' items.length N 0 (by omega)
  have hok := Comb.OK_range' items.length N 0 (by omega)
  unfold forCombos Combinations.new
  rw [List.range_eq_range', Comb.forEach_eq body items h0 hn _ _ (by simp) hok, hS,
    Comb.C_combos items N _ 0 (by omega), List.drop_zero]
  rw [hS]
  refine Nat.lt_succ_of_le (Nat.le_trans (Comb.length_C_le _ _ _) ?_)
  exact Nat.pow_le_pow_right (by omega) (by omega)

theorem mem_combos {α : Type} {N : Nat} {l c : List α} :
    c ∈ combos N l ↔ c.Sublist l ∧ c.length = N := by
  induction l generalizing N c with
  | nil =>
    cases N with
    | zero => simp [combos]
    | succ N =>
      simp only [combos, List.not_mem_nil, List.sublist_nil, false_iff, not_and]
      rintro rfl
      simp
  | cons x l ih =>
    cases N with
    | zero =>
      simp only [combos, List.mem_singleton]
      constructor
      · rintro rfl
        simp
      · intro h
        exact List.eq_nil_of_length_eq_zero h.2
    | succ N =>
      simp only [combos, List.mem_append, List.mem_map, ih, List.sublist_cons_iff]
      constructor
      · rintro (⟨a, ⟨h1, h2⟩, rfl⟩ | ⟨h1, h2⟩)
        · exact ⟨Or.inr ⟨a, rfl, h1⟩, by simp [h2]⟩
        · exact ⟨Or.inl h1, h2⟩
      · rintro ⟨h1 | ⟨r, rfl, h1⟩, h2⟩
        · exact Or.inr ⟨h1, h2⟩
        · exact Or.inl ⟨r, ⟨h1, by simpa using h2⟩, rfl⟩

end Poker
