import Verif.Props.Payout
import Verif.Props.Deck
import Verif.Props.Cards
import Verif.Props.Errors

/-! # The jacks-or-better game: C34, C40, C41 -/

namespace Poker
open Rules Tab Text Game

/-! ## Numbers -/

/-- The value of digits read after `acc`. -/
def digitsFrom (acc : Nat) (d : List Char) : Nat :=
  d.foldl (fun a c => 10 * a + (c.toNat - 48)) acc

theorem digitsFrom_ge (acc : Nat) (d : List Char) : acc ≤ digitsFrom acc d := by
  induction d generalizing acc with
  | nil => exact le_rfl
  | cons c d ih =>
    refine le_trans ?_ (ih (10 * acc + (c.toNat - 48)))
    omega

theorem parseDigits_iff (acc : Nat) (d : List Char) (n : Nat) (ha : acc < 2 ^ 64) :
    parseDigits acc d = some n ↔
      (∀ c ∈ d, '0' ≤ c ∧ c ≤ '9') ∧ digitsFrom acc d = n ∧ n < 2 ^ 64 := by
  induction d generalizing acc with
  | nil =>
    simp only [parseDigits, digitsFrom, Option.some.injEq, List.foldl_nil]
    constructor
    · rintro rfl
      exact ⟨by simp, rfl, ha⟩
    · exact fun h => h.2.1
  | cons c d ih =>
    rw [parseDigits]
    have hge := digitsFrom_ge (10 * acc + (c.toNat - 48)) d
    have hdef : digitsFrom acc (c :: d) = digitsFrom (10 * acc + (c.toNat - 48)) d := rfl
    rw [hdef]
    by_cases hc : '0' ≤ c ∧ c ≤ '9'
    · rw [if_pos hc]
      by_cases hb : 10 * acc + (c.toNat - 48) < USIZE
      · rw [if_pos (by omega), if_pos hb, ih _ hb]
        simp only [List.forall_mem_cons, hc, true_and, and_self]
      · have : ¬ (digitsFrom (10 * acc + (c.toNat - 48)) d = n ∧ n < 2 ^ 64) := by
          unfold USIZE at hb
          omega
        simp only [this, and_false, iff_false]
        split_ifs <;> simp
    · rw [if_neg hc]
      simp only [List.forall_mem_cons, hc, false_and, reduceCtorEq]

theorem parseDigits_zero_iff (d : List Char) (hd : d ≠ []) (n : Nat) :
    parseDigits 0 d = some n ↔ Numeral d n ∧ n < 2 ^ 64 := by
  rw [parseDigits_iff 0 d n (by decide)]
  unfold Numeral digitsFrom
  tauto

theorem parseUsize_iff (s : List Char) (n : Nat) :
    parseUsize s = some n ↔ Reads s n ∧ n < 2 ^ 64 := by
  have hplus : ∀ d, ¬ Numeral ('+' :: d) n := fun d h => by
    have := (h.2.1 '+' (by simp)).1
    revert this
    decide
  have hminus : ∀ d, ¬ Numeral ('-' :: d) n := fun d h => by
    have := (h.2.1 '-' (by simp)).1
    revert this
    decide
  have hnil : ¬ Numeral [] n := fun h => h.1 rfl
  unfold parseUsize
  split
  · simp only [reduceCtorEq, false_iff, Reads]
    rintro ⟨h | ⟨d, h, -⟩, -⟩
    · exact hnil h
    · simp at h
  · simp only [reduceCtorEq, false_iff, Reads]
    rintro ⟨h | ⟨d, h, h'⟩, -⟩
    · exact hplus _ h
    · simp only [List.cons.injEq, true_and] at h
      subst h
      exact hnil h'
  · simp only [reduceCtorEq, false_iff, Reads]
    rintro ⟨h | ⟨d, h, h'⟩, -⟩
    · exact hminus _ h
    · simp at h
  · rename_i cs h1
    have hne : cs ≠ [] := by rintro rfl; exact h1 rfl
    rw [parseDigits_zero_iff cs hne, Reads]
    simp only [hplus, false_or, List.cons.injEq, true_and]
    constructor
    · rintro ⟨h, h'⟩
      exact ⟨⟨cs, rfl, h⟩, h'⟩
    · rintro ⟨⟨d, rfl, h⟩, h'⟩
      exact ⟨h, h'⟩
  · rename_i h0 h1 h2 h3
    rw [parseDigits_zero_iff _ (fun h => h0 h), Reads]
    constructor
    · rintro ⟨h, h'⟩
      exact ⟨.inl h, h'⟩
    · rintro ⟨h | ⟨d, rfl, h⟩, h'⟩
      · exact ⟨h, h'⟩
      · exact absurd rfl (h3 d)

theorem parseAll_iff (ws : List Str) (ns : List Nat) :
    parseAll ws = some ns ↔ List.Forall₂ (fun s n => Reads s n ∧ n < 2 ^ 64) ws ns := by
  induction ws generalizing ns with
  | nil => simp [parseAll, eq_comm]
  | cons w ws ih =>
    rw [parseAll]
    cases hw : parseUsize w with
    | none =>
      simp only [reduceCtorEq, false_iff]
      intro h
      cases h with
      | cons h1 h2 =>
        rw [(parseUsize_iff _ _).2 h1] at hw
        exact absurd hw (by simp)
    | some n =>
      have h0 := (parseUsize_iff _ _).1 hw
      cases hws : parseAll ws with
      | none =>
        simp only [reduceCtorEq, false_iff]
        intro h
        cases h with
        | cons h1 h2 =>
          rw [(ih _).2 h2] at hws
          exact absurd hws (by simp)
      | some ns' =>
        simp only [Option.some.injEq]
        constructor
        · rintro rfl
          exact .cons h0 ((ih _).1 hws)
        · intro h
          cases h with
          | cons h1 h2 =>
            have e1 := (parseUsize_iff _ _).2 h1
            have e2 := (ih _).2 h2
            rw [hw, Option.some.injEq] at e1
            rw [hws, Option.some.injEq] at e2
            rw [e1, e2]

/-! ## What the prompts accept -/

theorem quit_not_reads (n : Nat) : ¬ Reads "quit".toList n := by
  rintro (h | ⟨d, h, -⟩)
  · have := (h.2.1 'q' (by decide)).2
    revert this
    decide
  · revert h
    simp

/-- C40: the wager prompt leaves the game exactly on `quit` and when reading fails; it accepts exactly
the numbers from one to five that do not exceed the credits; it asks again in all other cases. -/
theorem c40_wager (credits : Nat) :
    (∀ line, get_wager credits line = .quit ↔ line = none ∨ line = some "quit".toList) ∧
    (∀ s w, get_wager credits (some s) = .accept w ↔ Reads s w ∧ 1 ≤ w ∧ w ≤ 5 ∧ w ≤ credits) := by
  constructor
  · intro line
    cases line with
    | none => simp [get_wager]
    | some s =>
      simp only [get_wager, reduceCtorEq, false_or, Option.some.injEq]
      constructor
      · intro h
        split_ifs at h with h1
        · exact h1
        · split at h
          · simp at h
          · split_ifs at h
      · intro h
        rw [if_pos h]
  · intro s w
    simp only [get_wager]
    by_cases hq : s = "quit".toList
    · rw [if_pos hq]
      simp only [reduceCtorEq, false_iff]
      rintro ⟨h, -⟩
      rw [hq] at h
      exact quit_not_reads w h
    · rw [if_neg hq]
      have hp := parseUsize_iff s
      cases hs : parseUsize s with
      | none =>
        simp only [reduceCtorEq, false_iff]
        rintro ⟨h, -, h5, -⟩
        rw [(hp w).2 ⟨h, by omega⟩] at hs
        exact absurd hs (by simp)
      | some n =>
        simp only
        have hr := (hp n).1 hs
        constructor
        · intro h
          unfold MAX_WAGER at h
          split_ifs at h with h1 h2 h3
          simp only [Answer.accept.injEq] at h
          subst h
          exact ⟨hr.1, by omega, by omega, by omega⟩
        · rintro ⟨h, h1, h5, hc⟩
          have : n = w := by
            have := (hp w).2 ⟨h, by omega⟩
            rw [hs, Option.some.injEq] at this
            exact this
          subst this
          unfold MAX_WAGER
          rw [if_neg (by omega), if_neg (by omega), if_neg (by omega)]

example : get_wager 100 (some "+03".toList) = .accept 3 :=
  ((c40_wager 100).2 _ 3).2 ⟨.inr ⟨"03".toList, rfl, by decide, by decide⟩, by decide, by decide, by decide⟩

theorem allInserted_iff (dup l : List Nat) :
    allInserted dup l = true ↔ l.Nodup ∧ ∀ x ∈ l, x ∉ dup := by
  induction l generalizing dup with
  | nil => simp [allInserted]
  | cons x l ih =>
    rw [allInserted]
    by_cases hx : x ∈ dup
    · rw [if_pos (by simpa using hx)]
      simp [hx]
    · rw [if_neg (by simpa using hx), ih]
      simp only [List.nodup_cons, List.mem_cons, not_or]
      constructor
      · rintro ⟨h1, h2⟩
        refine ⟨⟨fun h => (h2 x h).1 rfl, h1⟩, ?_⟩
        rintro y (rfl | hy)
        · exact hx
        · exact (h2 y hy).2
      · rintro ⟨⟨h1, h2⟩, h3⟩
        exact ⟨h2, fun y hy => ⟨fun e => h1 (e ▸ hy), h3 y (.inr hy)⟩⟩

theorem mapM_sub (l : List Nat) (h : ∀ x ∈ l, 1 ≤ x) :
    (l.mapM (fun x => usizeSub x 1) : Exec (List Nat)) = .ok (l.map (· - 1)) := by
  induction l with
  | nil => rfl
  | cons x l ih =>
    have hx : usizeSub x 1 = .ok (x - 1) := by rw [usizeSub, if_pos (h x (by simp))]
    rw [List.mapM_cons, hx, Comb.bind_ok, ih (fun y hy => h y (by simp [hy])), Comb.bind_ok]
    rfl

theorem length_le_five {l : List Nat} (hn : l.Nodup) (h : ∀ x ∈ l, 1 ≤ x ∧ x ≤ 5) :
    l.length ≤ 5 := by
  have : l.Subperm [1, 2, 3, 4, 5] := hn.subperm (by
    intro x hx
    have := h x hx
    simp only [List.mem_cons, List.not_mem_nil, or_false]
    omega)
  exact this.length_le

/-- C40: the swap prompt never panics; it leaves the game exactly on `quit` and when reading fails;
it accepts exactly the lines whose words are different numbers from one to five, and returns these
less one. -/
theorem c40_swaps (order : List (Nat × Nat) → List (Nat × Nat)) :
    (∀ line, ∃ a, get_swaps order line = .ok a) ∧
    (∀ line, get_swaps order line = .ok .quit ↔ line = none ∨ line = some "quit".toList) ∧
    (∀ s l, get_swaps order (some s) = .ok (.accept l) ↔
      s ≠ "quit".toList ∧ ∃ ws ns, Words ws s ∧ List.Forall₂ Reads ws ns ∧
        (∀ n ∈ ns, 1 ≤ n ∧ n ≤ 5) ∧ ns.Nodup ∧ l = ns.map (· - 1)) := by
  have hform : ∀ s, s ≠ "quit".toList →
      (∃ m, get_swaps order (some s) = .ok (.again m) ∧ ∀ ns,
        parseAll (split_whitespace s) = some ns → ¬ ((∀ n ∈ ns, 1 ≤ n ∧ n ≤ 5) ∧ ns.Nodup)) ∨
      ∃ ns, parseAll (split_whitespace s) = some ns ∧ (∀ n ∈ ns, 1 ≤ n ∧ n ≤ 5) ∧ ns.Nodup ∧
        get_swaps order (some s) = .ok (.accept (ns.map (· - 1))) := by
    intro s hq
    simp only [get_swaps, if_neg hq]
    cases hp : parseAll (split_whitespace s) with
    | none => exact .inl ⟨_, rfl, by simp⟩
    | some ns =>
      simp only
      by_cases h1 : ns.all (fun num => decide (1 ≤ num ∧ num ≤ 5)) = true
      · have hall : ∀ n ∈ ns, 1 ≤ n ∧ n ≤ 5 := fun n hn => by
          have := List.all_eq_true.1 h1 n hn
          simpa using this
        rw [if_neg (by rw [h1]; simp)]
        by_cases h3 : allInserted [] ns = true
        · have hnd := ((allInserted_iff [] ns).1 h3).1
          rw [if_neg (not_not.2 (length_le_five hnd hall)), if_neg (by rw [h3]; simp),
            mapM_sub ns (fun x hx => (hall x hx).1)]
          exact .inr ⟨ns, rfl, hall, hnd, rfl⟩
        · have hnd : ¬ ns.Nodup := fun h => h3 ((allInserted_iff [] ns).2 ⟨h, by simp⟩)
          left
          by_cases h2 : ns.length ≤ 5
          · rw [if_neg (not_not.2 h2), if_pos (by simpa using h3)]
            refine ⟨_, rfl, ?_⟩
            rintro ns' h ⟨-, h'⟩
            rw [Option.some.injEq] at h
            exact hnd (h ▸ h')
          · rw [if_pos h2]
            refine ⟨_, rfl, ?_⟩
            rintro ns' h ⟨-, h'⟩
            rw [Option.some.injEq] at h
            exact hnd (h ▸ h')
      · left
        rw [if_pos (by simpa using h1)]
        refine ⟨_, rfl, ?_⟩
        rintro ns' h ⟨h', -⟩
        rw [Option.some.injEq] at h
        subst h
        refine h1 (List.all_eq_true.2 ?_)
        intro n hn
        simpa using h' n hn
  have hquit : get_swaps order (some "quit".toList) = .ok .quit := by
    simp only [get_swaps, if_true]
  refine ⟨?_, ?_, ?_⟩
  · intro line
    cases line with
    | none => exact ⟨_, rfl⟩
    | some s =>
      by_cases hq : s = "quit".toList
      · subst hq
        exact ⟨_, hquit⟩
      · rcases hform s hq with ⟨m, h, -⟩ | ⟨ns, -, -, -, h⟩
        · exact ⟨_, h⟩
        · exact ⟨_, h⟩
  · intro line
    cases line with
    | none => simp [get_swaps]
    | some s =>
      simp only [reduceCtorEq, false_or, Option.some.injEq]
      constructor
      · intro h
        by_contra hq
        rcases hform s hq with ⟨m, h', -⟩ | ⟨ns, -, -, -, h'⟩ <;>
          · rw [h] at h'
            simp at h'
      · rintro rfl
        exact hquit
  · intro s l
    constructor
    · intro h
      have hq : s ≠ "quit".toList := by
        rintro rfl
        rw [hquit] at h
        simp at h
      refine ⟨hq, ?_⟩
      rcases hform s hq with ⟨m, h', -⟩ | ⟨ns, h1, h2, h3, h'⟩
      · rw [h] at h'
        simp at h'
      · rw [h, Except.ok.injEq, Answer.accept.injEq] at h'
        refine ⟨split_whitespace s, ns, ((c19_words s _).1).2 rfl, ?_, h2, h3, h'⟩
        exact ((parseAll_iff _ _).1 h1).imp (fun _ _ h => h.1)
    · rintro ⟨hq, ws, ns, hw, hf, h5, hn, rfl⟩
      have hsw := ((c19_words s ws).1).1 hw
      have hp : parseAll (split_whitespace s) = some ns := by
        rw [hsw, parseAll_iff]
        clear hsw hw hn
        induction hf with
        | nil => exact .nil
        | cons h1 h2 ih =>
          rename_i a b l1 l2
          refine .cons ⟨h1, ?_⟩ (ih (fun n hn => h5 n (by simp [hn])))
          have := h5 b (by simp)
          omega
      rcases hform s hq with ⟨m, -, h'⟩ | ⟨ns', h1, -, -, h'⟩
      · exact absurd ⟨h5, hn⟩ (h' ns hp)
      · rw [hp, Option.some.injEq] at h1
        rw [h', h1]

/-- Numbers the wager prompt takes and refuses, and lines the swap prompt takes and refuses. -/
example : get_wager 100 (some "+03".toList) = .accept 3 ∧
    get_wager 2 (some "3".toList) ≠ .accept 3 ∧
    get_swaps id (some " 5 1\t3 ".toList) = .ok (.accept [4, 0, 2]) ∧
    get_swaps id (some "".toList) = .ok (.accept []) ∧
    get_swaps id (some "1 1 2".toList)
      = .ok (.again "Cannot provide duplicate cards to swap: 1.\n".toList) := by
  decide +kernel

/-! ## Swapping cards -/

theorem shuffle_ok {α : Type} (draw : Nat → Nat) (hd : ∀ i, draw i ≤ i) (l : List α) :
    ∃ l', Deck.shuffle draw l = .ok l' ∧ l'.Perm l := by
  cases l with
  | nil => exact ⟨[], rfl, .refl _⟩
  | cons a l =>
    obtain ⟨l', h1, h2, -⟩ := shuffleAux_ok draw l.length (a :: l) (by simp) (fun i _ _ => hd i)
    exact ⟨l', h1, h2⟩

theorem push_ok (hand : List Card) (swaps : List Nat) (deck : List Card)
    (h : ∀ i ∈ swaps, i < hand.length) :
    (swaps.foldlM (fun deck index => do return deck ++ [← idx hand index]) deck : Exec _)
      = .ok (deck ++ swaps.filterMap (fun i => hand[i]?)) := by
  induction swaps generalizing deck with
  | nil => simp
  | cons i swaps ih =>
    have hi := h i (by simp)
    have he : hand[i]? = some hand[i] := List.getElem?_eq_getElem hi
    have h1 : idx hand i = .ok hand[i] := by rw [idx, he]
    rw [List.foldlM_cons, h1, Comb.bind_ok, Comb.pure_eq_ok, Comb.bind_ok,
      ih _ (fun j hj => h j (by simp [hj])), List.filterMap_cons_some he, List.append_assoc]
    rfl

/-- Cards put in their places. -/
def place (hand : List Card) (ps : List (Nat × Card)) : List Card :=
  ps.foldl (fun hand p => hand.set p.1 p.2) hand

theorem place_ok (swaps : List Nat) (dealt : List Card) (k : Nat) (hand : List Card)
    (hk : k + dealt.length ≤ swaps.length) (h : ∀ i ∈ swaps, i < hand.length) :
    ((dealt.zipIdx k).foldlM (fun hand p => do setIdx hand (← idx swaps p.2) p.1) hand : Exec _)
      = .ok (place hand ((swaps.drop k).zip dealt)) := by
  induction dealt generalizing k hand with
  | nil => simp [place]
  | cons c dealt ih =>
    simp only [List.length_cons] at hk
    have hk' : k < swaps.length := by omega
    have h1 : idx swaps k = .ok swaps[k] := by rw [idx, List.getElem?_eq_getElem hk']
    have h2 := h swaps[k] (List.getElem_mem hk')
    rw [List.zipIdx_cons, List.foldlM_cons]
    have h3 : setIdx hand swaps[k] c = .ok (hand.set swaps[k] c) := by rw [setIdx, if_pos h2]
    simp only [h1, Comb.bind_ok, h3]
    rw [ih (k + 1) _ (by omega) (by simpa using h), List.drop_eq_getElem_cons hk', List.zip_cons_cons]
    rfl

theorem place_length (hand : List Card) (ps : List (Nat × Card)) :
    (place hand ps).length = hand.length := by
  induction ps generalizing hand with
  | nil => rfl
  | cons p ps ih => exact (ih _).trans (by simp)

theorem place_other (hand : List Card) (ps : List (Nat × Card)) (i : Nat)
    (h : i ∉ ps.map (·.1)) : (place hand ps)[i]? = hand[i]? := by
  induction ps generalizing hand with
  | nil => rfl
  | cons p ps ih =>
    simp only [List.map_cons, List.mem_cons, not_or] at h
    refine (ih _ h.2).trans ?_
    rw [List.getElem?_set_ne (Ne.symm h.1)]

theorem place_at (hand : List Card) (ps : List (Nat × Card)) (p : Nat × Card) (hp : p ∈ ps)
    (hn : (ps.map (·.1)).Nodup) (h : ∀ q ∈ ps, q.1 < hand.length) :
    (place hand ps)[p.1]? = some p.2 := by
  induction ps generalizing hand with
  | nil => simp at hp
  | cons q ps ih =>
    rw [List.map_cons, List.nodup_cons] at hn
    rcases List.mem_cons.1 hp with rfl | hp
    · refine (place_other _ ps p.1 hn.1).trans ?_
      simp [h p (by simp)]
    · exact ih (hand.set q.1 q.2) hp hn.2 (fun r hr => by simpa using h r (by simp [hr]))

theorem set_perm (l : List Card) (i : Nat) (x : Card) (hi : i < l.length) :
    (l[i] :: l.set i x).Perm (x :: l) := by
  have h1 := List.set_perm_cons_eraseIdx hi x
  have h2 := List.getElem_cons_eraseIdx_perm hi
  exact ((h1.cons _).trans (.swap _ _ _)).trans (h2.cons _)

theorem place_perm (hand : List Card) (ps : List (Nat × Card)) (hn : (ps.map (·.1)).Nodup)
    (h : ∀ q ∈ ps, q.1 < hand.length) :
    ((ps.map (·.1)).filterMap (fun i => hand[i]?) ++ place hand ps).Perm
      (ps.map (·.2) ++ hand) := by
  induction ps generalizing hand with
  | nil => exact .refl _
  | cons q ps ih =>
    rw [List.map_cons, List.nodup_cons] at hn
    have hq := h q (by simp)
    have ih := ih (hand.set q.1 q.2) hn.2 (fun r hr => by simpa using h r (by simp [hr]))
    have hcongr : (ps.map (·.1)).filterMap (fun i => (hand.set q.1 q.2)[i]?)
        = (ps.map (·.1)).filterMap (fun i => hand[i]?) := by
      refine List.filterMap_congr ?_
      intro i hi
      rw [List.getElem?_set_ne]
      rintro rfl
      exact hn.1 hi
    rw [hcongr] at ih
    have he : hand[q.1]? = some hand[q.1] := List.getElem?_eq_getElem hq
    rw [List.map_cons, List.filterMap_cons_some he, List.map_cons, List.cons_append]
    refine (ih.cons hand[q.1]).trans ?_
    refine List.perm_middle.symm.trans ?_
    refine ((set_perm hand q.1 q.2 hq).append_left _).trans ?_
    exact List.perm_middle

theorem drain_ok {α : Type} {n : Nat} {l : List α} (h : n ≤ l.length) :
    drainFront n l = .ok (l.take n, l.drop n) := by rw [drainFront, if_pos h]

/-- C41: swapping chosen cards of a hand, at different places, never panics for draws in range; the
other cards stay where they are, the new cards come from the deck and the discarded cards, and no card
is lost or duplicated. -/
theorem c41_swap (draw : Nat → Nat) (hd : ∀ i, draw i ≤ i) (swaps : List Nat)
    (deck hand : List Card) (hs : swaps.Nodup) (hl : ∀ i ∈ swaps, i < hand.length) :
    ∃ deck' hand', swap_cards draw swaps deck hand = .ok (deck', hand') ∧
      hand'.length = hand.length ∧ deck'.length = deck.length ∧
      (hand' ++ deck').Perm (hand ++ deck) ∧
      (∀ i, i ∉ swaps → hand'[i]? = hand[i]?) ∧
      ∀ i ∈ swaps, ∃ c, hand'[i]? = some c ∧ (c ∈ deck ∨ ∃ j ∈ swaps, hand[j]? = some c) := by
  obtain ⟨d, hd1, hd2⟩ := shuffle_ok draw hd (deck ++ swaps.filterMap (fun i => hand[i]?))
  have hfl : (swaps.filterMap (fun i => hand[i]?)).length = swaps.length := by
    clear hd1 hd2 hs
    induction swaps with
    | nil => rfl
    | cons i swaps ih =>
      rw [List.filterMap_cons_some (List.getElem?_eq_getElem (hl i (by simp))), List.length_cons,
        List.length_cons, ih (fun j hj => hl j (by simp [hj]))]
  have hdl : d.length = deck.length + swaps.length := by
    rw [hd2.length_eq, List.length_append, hfl]
  have hle : swaps.length ≤ d.length := by omega
  let ps := swaps.zip (d.take swaps.length)
  have htake : (d.take swaps.length).length = swaps.length := by
    rw [List.length_take]; omega
  have hfst : ps.map (·.1) = swaps := List.map_fst_zip (by omega)
  have hsnd : ps.map (·.2) = d.take swaps.length := List.map_snd_zip (by omega)
  have hps : ∀ q ∈ ps, q.1 < hand.length := fun q hq => hl q.1 (by
    rw [← hfst]; exact List.mem_map.2 ⟨q, hq, rfl⟩)
  refine ⟨d.drop swaps.length, place hand ps, ?_, place_length _ _, ?_, ?_, ?_, ?_⟩
  · unfold swap_cards
    rw [push_ok hand swaps deck hl, Comb.bind_ok, hd1, Comb.bind_ok, drain_ok hle, Comb.bind_ok]
    simp only
    rw [place_ok swaps _ 0 hand (by omega) hl, Comb.bind_ok, List.drop_zero]
    rfl
  · rw [List.length_drop]; omega
  · have h1 := place_perm hand ps (by rw [hfst]; exact hs) hps
    rw [hfst, hsnd] at h1
    have h2 : (swaps.filterMap (fun i => hand[i]?) ++ (place hand ps ++ d.drop swaps.length)).Perm
        (swaps.filterMap (fun i => hand[i]?) ++ (hand ++ deck)) := by
      rw [← List.append_assoc]
      refine (h1.append_right _).trans ?_
      refine (List.perm_append_comm.append_right _).trans ?_
      rw [List.append_assoc, List.take_append_drop]
      refine (hd2.append_left _).trans ?_
      rw [← List.append_assoc]
      exact List.perm_append_comm
    exact (List.perm_append_left_iff _).1 h2
  · intro i hi
    exact place_other hand ps i (by rw [hfst]; exact hi)
  · intro i hi
    rw [← hfst] at hi
    obtain ⟨q, hq, rfl⟩ := List.mem_map.1 hi
    refine ⟨q.2, place_at hand ps q hq (by rw [hfst]; exact hs) hps, ?_⟩
    have hmem : q.2 ∈ d := by
      refine List.mem_of_mem_take (i := swaps.length) ?_
      rw [← hsnd]
      exact List.mem_map.2 ⟨q, hq, rfl⟩
    rcases List.mem_append.1 (hd2.mem_iff.1 hmem) with h | h
    · exact .inl h
    · right
      obtain ⟨j, hj, he⟩ := List.mem_filterMap.1 h
      exact ⟨j, hj, he⟩

example : ∃ deck' hand', swap_cards (· / 2) [4, 0, 2] (deal wheelHand) (deal fullHouseHand)
    = .ok (deck', hand') ∧ (hand' ++ deck').Perm (deal fullHouseHand ++ deal wheelHand) :=
  have ⟨d, h, hs, _, _, hp, _⟩ := c41_swap (· / 2) (fun i => Nat.div_le_self i 2) [4, 0, 2] (deal wheelHand)
    (deal fullHouseHand) (by decide) (by decide)
  ⟨d, h, hs, hp⟩

/-- C41: unlike in the casino game, a discarded card may come back: for every choice of cards there
are draws that deal the very same hand again. -/
theorem c41_may_return (swaps : List Nat) (deck hand : List Card)
    (hl : ∀ i ∈ swaps, i < hand.length) (hne : swaps ≠ []) :
    ∃ draw deck', (∀ i, 1 ≤ i → i < deck.length + swaps.length → draw i ≤ i) ∧
      swap_cards draw swaps deck hand = .ok (deck', hand) := by
  have hfl : (swaps.filterMap (fun i => hand[i]?)).length = swaps.length := by
    clear hne
    induction swaps with
    | nil => rfl
    | cons i swaps ih =>
      rw [List.filterMap_cons_some (List.getElem?_eq_getElem (hl i (by simp))), List.length_cons,
        List.length_cons, ih (fun j hj => hl j (by simp [hj]))]
  have hpos : 0 < swaps.length := List.length_pos_iff.2 hne
  have hlen : (deck ++ swaps.filterMap (fun i => hand[i]?)).length = deck.length + swaps.length := by
    rw [List.length_append, hfl]
  obtain ⟨draw, h1, h2⟩ := shuffleAux_exists (deck.length + swaps.length - 1)
    (deck ++ swaps.filterMap (fun i => hand[i]?)) (swaps.filterMap (fun i => hand[i]?) ++ deck)
    (by omega) List.perm_append_comm (by
      rw [List.drop_eq_nil_of_le, List.drop_eq_nil_of_le]
      · omega
      · rw [List.length_append, hfl]; omega)
  refine ⟨draw, deck, fun i hi1 hi2 => h1 i hi1 (by omega), ?_⟩
  unfold swap_cards
  rw [push_ok hand swaps deck hl, Comb.bind_ok, Deck.shuffle, hlen, h2, Comb.bind_ok,
    drain_ok (by rw [List.length_append, hfl]; omega), Comb.bind_ok]
  simp only
  rw [← hfl, List.take_left, List.drop_left, place_ok swaps _ 0 hand (by omega) hl, Comb.bind_ok,
    List.drop_zero]
  have hid : place hand (swaps.zip (swaps.filterMap (fun i => hand[i]?))) = hand := by
    clear h2 h1 hlen hfl hpos hne
    induction swaps with
    | nil => rfl
    | cons i swaps ih =>
      have hi := hl i (by simp)
      rw [List.filterMap_cons_some (List.getElem?_eq_getElem hi), List.zip_cons_cons]
      show place (hand.set i hand[i]) _ = hand
      rw [List.set_getElem_self]
      exact ih (fun j hj => hl j (by simp [hj]))
  rw [hid]
  rfl

/-- A choice of three cards of a five-card hand. -/
example : [4, 0, 2].Nodup ∧ (∀ i ∈ [4, 0, 2], i < (deal fullHouseHand).length) ∧
    (∀ i, (fun n => n / 2) i ≤ i) := by
  refine ⟨by decide, by decide, fun i => Nat.div_le_self i 2⟩

end Poker
