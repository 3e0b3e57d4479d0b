import Verif.Proofs.HoldDefs
import Mathlib.Data.Nat.Choose.Basic

/-! A sum over all hands, value by value and without regard to which suit is which. -/

namespace Poker.Hold
open Rules Counts

/-! ## The ways to give `j` of the suits another value -/

/-- The ways to add `b` to `j` of the numbers. -/
def ext (b : Nat) : Nat → List Nat → List (List Nat)
  | 0, l => [l]
  | _ + 1, [] => []
  | j + 1, x :: l => (ext b j l).map ((x + b) :: ·) ++ (ext b (j + 1) l).map (x :: ·)

/-- The sum of `g` over these ways. -/
def extSum (b : Nat) (g : List Nat → Nat) (j : Nat) (l : List Nat) : Nat := ((ext b j l).map g).sum

theorem extSum_zero (b : Nat) (g : List Nat → Nat) (l : List Nat) : extSum b g 0 l = g l := by
  simp [extSum, ext]

theorem extSum_nil (b : Nat) (g : List Nat → Nat) (j : Nat) : extSum b g (j + 1) [] = 0 := by
  simp [extSum, ext]

theorem extSum_cons (b : Nat) (g : List Nat → Nat) (j x : Nat) (l : List Nat) :
    extSum b g (j + 1) (x :: l)
      = extSum b (fun l => g ((x + b) :: l)) j l + extSum b (fun l => g (x :: l)) (j + 1) l := by
  simp [extSum, ext, Function.comp_def]

theorem extSum_congr {b : Nat} {g g' : List Nat → Nat} (h : ∀ l, g l = g' l) (j : Nat) (l : List Nat) :
    extSum b g j l = extSum b g' j l := by
  rw [show g = g' from funext h]

/-- `g` does not depend on the order. -/
def Symm (g : List Nat → Nat) : Prop := ∀ l l', l.Perm l' → g l = g l'

theorem Symm.cons {g : List Nat → Nat} (h : Symm g) (x : Nat) : Symm (fun l => g (x :: l)) :=
  fun _ _ hp => h _ _ (hp.cons x)

theorem extSum_symm {b : Nat} {g : List Nat → Nat} (hg : Symm g) (j : Nat) :
    Symm (extSum b g j) := by
  intro l l' hp
  induction hp generalizing g j with
  | nil => rfl
  | cons x hp ih =>
    match j with
    | 0 => rw [extSum_zero, extSum_zero]; exact hg _ _ (hp.cons x)
    | j + 1 => rw [extSum_cons, extSum_cons, ih (hg.cons _), ih (hg.cons _)]
  | swap x y l =>
    match j with
    | 0 => rw [extSum_zero, extSum_zero]; exact hg _ _ (.swap x y l)
    | 1 =>
      simp only [extSum_cons, extSum_zero]
      rw [hg ((y + b) :: x :: l) _ (.swap ..), hg (y :: (x + b) :: l) _ (.swap ..),
        extSum_congr (fun l => hg (y :: x :: l) _ (.swap ..))]
      omega
    | j + 2 =>
      simp only [extSum_cons]
      rw [extSum_congr (g := fun l => g ((y + b) :: (x + b) :: l)) (fun l => hg _ _ (.swap ..)),
        extSum_congr (g := fun l => g ((y + b) :: x :: l)) (fun l => hg _ _ (.swap ..)),
        extSum_congr (g := fun l => g (y :: (x + b) :: l)) (fun l => hg _ _ (.swap ..)),
        extSum_congr (g := fun l => g (y :: x :: l)) (fun l => hg _ _ (.swap ..))]
      omega
  | trans _ _ ih1 ih2 => rw [ih1 hg, ih2 hg]

theorem extendInto_zero (b : Nat) (f : List Nat → Nat) (bs pre : List Nat) :
    extendInto b f bs 0 pre = f (bs ++ pre) := by
  cases bs <;> rfl

theorem extendInto_nil (b : Nat) (f : List Nat → Nat) (j : Nat) (pre : List Nat) :
    extendInto b f [] (j + 1) pre = 0 := rfl

theorem extendInto_cons (b : Nat) (f : List Nat → Nat) (x : Nat) (bs : List Nat) (j : Nat)
    (pre : List Nat) : extendInto b f (x :: bs) (j + 1) pre
      = extendInto b f bs j ((x + b) :: pre) + extendInto b f bs (j + 1) (x :: pre) := rfl

theorem extendInto_eq {b : Nat} {f : List Nat → Nat} (hf : Symm f) (bs : List Nat) (j : Nat)
    (pre : List Nat) : extendInto b f bs j pre = extSum b (fun l => f (l ++ pre)) j bs := by
  induction bs generalizing j pre with
  | nil =>
    match j with
    | 0 => rw [extendInto_zero, extSum_zero]
    | j + 1 => rw [extendInto_nil, extSum_nil]
  | cons x bs ih =>
    match j with
    | 0 => rw [extendInto_zero, extSum_zero]
    | j + 1 =>
      rw [extendInto_cons, extSum_cons, ih, ih]
      rw [extSum_congr (g := fun l => f (l ++ (x + b) :: pre))
          (fun l => hf _ _ (List.perm_middle (a := x + b))),
        extSum_congr (g := fun l => f (l ++ x :: pre)) (fun l => hf _ _ (List.perm_middle (a := x)))]
      rfl

/-- The sum over the ways to add to `j` of the numbers of two lists. -/
theorem extSum_append (b : Nat) (g : List Nat → Nat) (j : Nat) (l m : List Nat) :
    extSum b g j (l ++ m) = ((List.range (j + 1)).map
      (fun i => extSum b (fun l' => extSum b (fun m' => g (l' ++ m')) i m) (j - i) l)).sum := by
  induction l generalizing g j with
  | nil =>
    rw [List.nil_append, List.range_succ, List.map_append, List.sum_append]
    simp only [List.map_cons, List.map_nil, List.sum_cons, List.sum_nil, Nat.sub_self, extSum_zero,
      List.nil_append, Nat.add_zero]
    rw [List.map_congr_left (g := fun _ => 0), List.map_const', List.sum_replicate]
    · simp
    · intro i hi
      rw [List.mem_range] at hi
      obtain ⟨k, hk⟩ : ∃ k, j - i = k + 1 := ⟨j - i - 1, by omega⟩
      rw [hk, extSum_nil]
  | cons x l ih =>
    match j with
    | 0 => simp [extSum_zero]
    | j + 1 =>
      rw [List.cons_append, extSum_cons, ih, ih, List.range_succ (n := j + 1), List.map_append,
        List.sum_append, List.map_append, List.sum_append, ← Nat.add_assoc, ← List.sum_map_add]
      simp only [List.map_cons, List.map_nil, List.sum_cons, List.sum_nil, Nat.sub_self, extSum_zero,
        Nat.add_zero, List.cons_append]
      congr 1
      refine congrArg List.sum (List.map_congr_left (fun i hi => ?_))
      rw [List.mem_range] at hi
      rw [show j + 1 - i = (j - i) + 1 from by omega, extSum_cons]
      rfl

/-- The sum over the ways to give the value to some of the suits that have no value yet. -/
theorem extSum_rep {b : Nat} {g : List Nat → Nat} (hg : Symm g) (i z : Nat) :
    extSum b g i (List.replicate z 0)
      = z.choose i * g (List.replicate i b ++ List.replicate (z - i) 0) := by
  induction z generalizing g i with
  | zero =>
    match i with
    | 0 => simp [extSum_zero]
    | i + 1 => simp [extSum_nil]
  | succ z ih =>
    match i with
    | 0 => simp [extSum_zero]
    | i + 1 =>
      rw [List.replicate_succ, extSum_cons, ih (hg.cons _), ih (hg.cons _), Nat.choose_succ_succ,
        Nat.add_mul]
      congr 1
      · rw [Nat.zero_add, Nat.add_sub_add_right, List.replicate_succ, List.cons_append]
      · by_cases h : i + 1 ≤ z
        · congr 1
          refine hg _ _ ?_
          rw [show z + 1 - (i + 1) = z - (i + 1) + 1 from by omega, List.replicate_succ (n := z - (i + 1))]
          exact List.perm_middle.symm
        · rw [Nat.choose_eq_zero_of_lt (by omega), Nat.zero_mul, Nat.zero_mul]

theorem extSum_const_mul (b k : Nat) (g : List Nat → Nat) (j : Nat) (l : List Nat) :
    extSum b (fun x => k * g x) j l = k * extSum b g j l := by
  rw [extSum, extSum]
  induction ext b j l with
  | nil => rfl
  | cons x L ih => rw [List.map_cons, List.sum_cons, ih, List.map_cons, List.sum_cons, Nat.mul_add]

/-! ## The values one after another -/

/-- The sum of `ψ` over the ways to give each value as many suits as it needs. -/
def spreadAll (ψ : List Nat → Nat) : List (Nat × Nat) → List Nat → Nat
  | [], ms => ψ ms
  | (b, j) :: G, ms => extSum b (spreadAll ψ G) j ms

theorem spreadAll_symm {ψ : List Nat → Nat} (hψ : Symm ψ) (G : List (Nat × Nat)) :
    Symm (spreadAll ψ G) := by
  induction G with
  | nil => exact hψ
  | cons p G ih => exact extSum_symm ih p.2

theorem addUp_eq (f : Nat → Nat) (l : List Nat) : addUp f l = (l.map f).sum := by
  induction l with
  | nil => rfl
  | cons v l ih => rw [List.map_cons, List.sum_cons, ← ih]; rfl

theorem binom_eq : ∀ z < 5, ∀ i < z + 1, binom z i = z.choose i := by decide +kernel

theorem spread_cons (t : Tabs) (m b j : Nat) (G : List (Nat × Nat)) (z : Nat) (bs : List Nat) :
    spread t m ((b, j) :: G) z bs = addUp (fun i => binom z i *
      extendInto b (fun bs' => spread t m G (z - i) bs') bs (j - i) (List.replicate i b))
      (List.range (cond (Nat.ble j z) j z + 1)) := rfl

theorem range_cut (f : Nat → Nat) (j n : Nat) (hn : n ≤ j) (h : ∀ i, n < i → i ≤ j → f i = 0) :
    ((List.range (j + 1)).map f).sum = ((List.range (n + 1)).map f).sum := by
  induction j with
  | zero => rw [Nat.le_zero.1 hn]
  | succ j ih =>
    by_cases h' : n = j + 1
    · rw [h']
    · rw [List.range_succ, List.map_append, List.sum_append,
        ih (by omega) (fun i h1 h2 => h i h1 (by omega)), List.map_cons, h _ (by omega) le_rfl]
      rfl

theorem spread_eq {t : Tabs} {m : Nat} {ψ : List Nat → Nat} (hψ : Symm ψ)
    (hl : ∀ bs z, ψ (bs ++ List.replicate z 0) = leaf t m bs) (G : List (Nat × Nat)) {z : Nat}
    (hz : z ≤ 4) (bs : List Nat) :
    spread t m G z bs = spreadAll ψ G (bs ++ List.replicate z 0) := by
  have hm := spreadAll_symm hψ
  induction G generalizing z bs with
  | nil => exact (hl bs z).symm
  | cons p G ih =>
    obtain ⟨b, j⟩ := p
    have hmin : cond (Nat.ble j z) j z = min j z := by
      cases h : Nat.ble j z with
      | true => exact (Nat.min_eq_left (Nat.le_of_ble_eq_true h)).symm
      | false =>
        have := Nat.not_le_of_not_ble_eq_true (by rw [h]; exact Bool.false_ne_true)
        rw [cond_false]
        exact (Nat.min_eq_right (by omega)).symm
    rw [spread_cons, addUp_eq, spreadAll, extSum_append, hmin, range_cut _ j (min j z) (by omega)]
    · refine congrArg List.sum (List.map_congr_left (fun i hi => ?_))
      rw [List.mem_range] at hi
      rw [binom_eq z (by omega) i (by omega)]
      have e1 : (fun bs' => spread t m G (z - i) bs')
          = fun bs' => spreadAll ψ G (bs' ++ List.replicate (z - i) 0) :=
        funext (fun bs' => ih (by omega) bs')
      have hs : Symm (fun bs' => spreadAll ψ G (bs' ++ List.replicate (z - i) 0)) :=
        fun l l' hp => hm G _ _ (hp.append_right _)
      rw [e1, extendInto_eq hs, ← extSum_const_mul]
      refine extSum_congr (fun l => ?_) _ _
      have hs' : Symm (fun m' => spreadAll ψ G (l ++ m')) := fun _ _ hp => hm G _ _ (hp.append_left _)
      rw [extSum_rep hs', List.append_assoc]
    · intro i hi hj
      have h : z < i := by omega
      rw [extSum_congr (g' := fun _ => 0 * 0), extSum_const_mul, Nat.zero_mul]
      intro l
      have hs' : Symm (fun m' => spreadAll ψ G (l ++ m')) := fun _ _ hp => hm G _ _ (hp.append_left _)
      rw [extSum_rep hs', Nat.choose_eq_zero_of_lt h, Nat.zero_mul]

/-! ## Falling lists of values -/

theorem falling_succ_cons (n v : Nat) (rs : List Nat) :
    falling (n + 1) (v :: rs) = (falling n (v :: rs)).map (v :: ·) ++ falling (n + 1) rs := by
  rw [falling, show (v :: rs).tails = (v :: rs) :: rs.tails from rfl, List.flatMap_cons]
  rfl

theorem falling_succ_nil (n : Nat) : falling (n + 1) [] = [] := rfl

theorem sumOver_eq (f : List Nat → Nat) (L : List (List Nat)) : sumOver f L = (L.map f).sum := by
  induction L with
  | nil => rfl
  | cons v l ih => rw [List.map_cons, List.sum_cons, ← ih]; rfl

/-- The falling lists, by how often they have the first value. -/
theorem falling_sum (f : List Nat → Nat) (n v : Nat) (rs : List Nat) :
    ((falling n (v :: rs)).map f).sum = ((List.range (n + 1)).map (fun j =>
      ((falling (n - j) rs).map (fun R => f (List.replicate j v ++ R))).sum)).sum := by
  induction n generalizing f with
  | zero => simp [falling]
  | succ n ih =>
    rw [falling_succ_cons, List.map_append, List.sum_append, List.map_map, ih,
      List.range_succ_eq_map (n := n + 1), List.map_cons, List.sum_cons, List.map_map, Nat.add_comm]
    refine congrArg (_ + ·) ?_
    refine congrArg List.sum (List.map_congr_left (fun j _ => ?_))
    simp [List.replicate_succ, Nat.add_sub_add_right]

theorem group_replicate (v j : Nat) (R : List Nat) (h : ∀ x ∈ R, bit x ≠ bit v) :
    group (List.replicate (j + 1) v ++ R) = (bit v, j + 1) :: group R := by
  induction j with
  | zero =>
    rw [List.replicate_one, List.singleton_append, group]
    have hb : ∀ x ∈ group R, x.1 ≠ bit v := by
      induction R with
      | nil => simp [group]
      | cons x R ih =>
        have ih := ih (fun y hy => h y (by simp [hy]))
        have hx := h x (by simp)
        rw [group]
        split
        · simpa using hx
        · rename_i b j G hG
          rw [hG] at ih
          cases Nat.beq b (bit x) with
          | true =>
            intro y hy
            rw [cond_true, List.mem_cons] at hy
            rcases hy with rfl | hy
            · exact ih (b, j) (by simp)
            · exact ih y (by simp [hy])
          | false =>
            intro y hy
            rw [cond_false, List.mem_cons] at hy
            rcases hy with rfl | hy
            · exact hx
            · exact ih y hy
    cases hG : group R with
    | nil => rfl
    | cons p G =>
      obtain ⟨b, j⟩ := p
      rw [hG] at hb
      have : Nat.beq b (bit v) = false := by
        rw [beq_dec]
        exact decide_eq_false (hb (b, j) (by simp))
      simp only [this, cond_false]
  | succ j ih =>
    rw [List.replicate_succ, List.cons_append, group, ih]
    simp only [beq_dec, decide_true, cond_true]

/-! ## The sum over all hands -/

/-- The sets of values of the four suits, when a card is added. -/
noncomputable def addCard (ms : List Nat) (c : PCard) : List Nat :=
  match ms, c.2 with
  | [p, q, r, s], .Clubs => [p + bit (pips c.1), q, r, s]
  | [p, q, r, s], .Diamonds => [p, q + bit (pips c.1), r, s]
  | [p, q, r, s], .Hearts => [p, q, r + bit (pips c.1), s]
  | [p, q, r, s], .Spades => [p, q, r, s + bit (pips c.1)]
  | ms, _ => ms

/-- The values, and the sets of values of the four suits. -/
noncomputable def stepCard (q : List Nat × List Nat) (c : PCard) : List Nat × List Nat :=
  (q.1 ++ [pips c.1], addCard q.2 c)

/-- The sum of `φ` over the `n`-card hands from `D`, after the cards of `q`. -/
noncomputable def handSum (φ : List Nat → List Nat → Nat) (n : Nat) (D : List PCard)
    (q : List Nat × List Nat) : Nat :=
  ((List.sublistsLen n D).map (fun h => φ (h.foldl stepCard q).1 (h.foldl stepCard q).2)).sum

theorem handSum_zero (φ : List Nat → List Nat → Nat) (D : List PCard) (q : List Nat × List Nat) :
    handSum φ 0 D q = φ q.1 q.2 := by
  simp [handSum]

theorem handSum_nil (φ : List Nat → List Nat → Nat) (n : Nat) (q : List Nat × List Nat) :
    handSum φ (n + 1) [] q = 0 := by
  simp [handSum]

theorem handSum_cons (φ : List Nat → List Nat → Nat) (n : Nat) (c : PCard) (D : List PCard)
    (q : List Nat × List Nat) :
    handSum φ (n + 1) (c :: D) q = handSum φ (n + 1) D q + handSum φ n D (stepCard q c) := by
  simp only [handSum, List.sublistsLen_succ_cons, List.map_append, List.sum_append, List.map_map]
  rfl

theorem handSum_block (φ : List Nat → List Nat → Nat) (n : Nat) (r : Rank) (D : List PCard)
    (vs : List Nat) (x y z w : Nat) :
    handSum φ n (block r ++ D) (vs, [x, y, z, w]) = ((List.range 5).map (fun j => if j ≤ n then
      extSum (bit (pips r)) (fun ms => handSum φ (n - j) D (vs ++ List.replicate j (pips r), ms)) j
        [x, y, z, w] else 0)).sum := by
  have hr : List.range 5 = [0, 1, 2, 3, 4] := by decide
  rw [block, hr]
  match n with
  | 0 => simp [handSum_zero, extSum_zero]
  | 1 | 2 | 3 | n + 4 =>
    simp only [List.cons_append, List.nil_append, handSum_cons, stepCard, addCard, List.append_assoc,
      handSum_zero, List.map_cons, List.map_nil, List.sum_cons, List.sum_nil, extSum_cons, extSum_zero,
      extSum_nil, List.replicate_succ, List.replicate_zero, List.append_nil, Nat.sub_zero,
      Nat.zero_le, if_true, Nat.add_zero]
    simp [handSum_zero, Nat.add_assoc]
    try omega

theorem ext_length {b j : Nat} {l x : List Nat} (hx : x ∈ ext b j l) : x.length = l.length := by
  induction l generalizing j x with
  | nil =>
    match j with
    | 0 => rw [List.mem_singleton.1 hx]
    | j + 1 => cases hx
  | cons a l ih =>
    match j with
    | 0 => rw [List.mem_singleton.1 hx]
    | j + 1 =>
      rcases List.mem_append.1 hx with h | h
      · obtain ⟨y, hy, rfl⟩ := List.mem_map.1 h
        simp [ih hy]
      · obtain ⟨y, hy, rfl⟩ := List.mem_map.1 h
        simp [ih hy]

theorem ext_long {b j : Nat} {l : List Nat} (h : l.length < j) : ext b j l = [] := by
  induction l generalizing j with
  | nil =>
    match j with
    | 0 => simp at h
    | j + 1 => rfl
  | cons a l ih =>
    match j with
    | 0 => simp at h
    | j + 1 =>
      rw [List.length_cons] at h
      rw [ext, ih (by omega), ih (by omega)]
      rfl

theorem extSum_congr_mem {b : Nat} {g g' : List Nat → Nat} {j : Nat} {l : List Nat}
    (h : ∀ x ∈ ext b j l, g x = g' x) : extSum b g j l = extSum b g' j l :=
  congrArg List.sum (List.map_congr_left h)

theorem extSum_sum {α : Type} (b : Nat) (g : α → List Nat → Nat) (L : List α) (j : Nat) (l : List Nat) :
    extSum b (fun ms => (L.map (fun R => g R ms)).sum) j l
      = (L.map (fun R => extSum b (g R) j l)).sum := by
  induction L with
  | nil => rw [extSum_congr (g' := fun _ => 0 * 0), extSum_const_mul, Nat.zero_mul]; · rfl
           · intro _; rfl
  | cons R L ih =>
    simp only [List.map_cons, List.sum_cons]
    rw [← ih, extSum, extSum, extSum, ← List.sum_map_add]

theorem range_five (f : Nat → Nat) (n : Nat) (h : ∀ j, 4 < j → f j = 0) :
    ((List.range (n + 1)).map f).sum
      = ((List.range 5).map (fun j => if j ≤ n then f j else 0)).sum := by
  match n with
  | 0 => simp [show List.range 5 = [0, 1, 2, 3, 4] from by decide]
  | 1 => simp [show List.range 5 = [0, 1, 2, 3, 4] from by decide,
      show List.range 2 = [0, 1] from by decide]
  | 2 => simp [show List.range 5 = [0, 1, 2, 3, 4] from by decide,
      show List.range 3 = [0, 1, 2] from by decide]
  | 3 => simp [show List.range 5 = [0, 1, 2, 3, 4] from by decide,
      show List.range 4 = [0, 1, 2, 3] from by decide]
  | n + 4 =>
    rw [range_cut f (n + 4) 4 (by omega) (fun i hi _ => h i hi)]
    refine congrArg List.sum (List.map_congr_left (fun j hj => ?_))
    rw [List.mem_range] at hj
    rw [if_pos (by omega)]

theorem mem_falling {n : Nat} {rs R : List Nat} (h : R ∈ falling n rs) :
    R.length = n ∧ ∀ x ∈ R, x ∈ rs := by
  induction n generalizing rs R with
  | zero =>
    rw [List.mem_singleton.1 h]
    simp
  | succ n ihn =>
    induction rs generalizing R with
    | nil => cases h
    | cons v rs ih =>
      rw [falling_succ_cons, List.mem_append, List.mem_map] at h
      rcases h with ⟨R', h, rfl⟩ | h
      · obtain ⟨h1, h2⟩ := ihn h
        refine ⟨by rw [List.length_cons, h1], fun x hx => ?_⟩
        rcases List.mem_cons.1 hx with rfl | hx
        · simp
        · exact h2 x hx
      · obtain ⟨h1, h2⟩ := ih h
        exact ⟨h1, fun x hx => List.mem_cons_of_mem _ (h2 x hx)⟩

theorem spreadAll_replicate (ψ : List Nat → Nat) (v j : Nat) (R : List Nat)
    (h : ∀ x ∈ R, bit x ≠ bit v) (ms : List Nat) :
    spreadAll ψ (group (List.replicate j v ++ R)) ms = extSum (bit v) (spreadAll ψ (group R)) j ms := by
  match j with
  | 0 => rw [extSum_zero]; rfl
  | j + 1 => rw [group_replicate v j R h, spreadAll]

theorem handSum_eq (φ : List Nat → List Nat → Nat) (rs : List Rank)
    (hd : rs.Pairwise (fun a b => bit (pips a) ≠ bit (pips b))) (n : Nat) (vs ms : List Nat)
    (hms : ms.length = 4) :
    handSum φ n (rs.flatMap block) (vs, ms) = ((falling n (rs.map pips)).map (fun R =>
      spreadAll (φ (vs ++ R)) (group R) ms)).sum := by
  induction rs generalizing n vs ms with
  | nil =>
    match n with
    | 0 => simp [handSum_zero, falling, group, spreadAll]
    | n + 1 => rw [List.flatMap_nil, handSum_nil]; rfl
  | cons r rs ih =>
    rw [List.pairwise_cons] at hd
    have hb : ∀ k, ∀ R ∈ falling k (rs.map pips), ∀ x ∈ R, bit x ≠ bit (pips r) := by
      intro k R hR x hx
      obtain ⟨a, ha, rfl⟩ := List.mem_map.1 ((mem_falling hR).2 x hx)
      exact (hd.1 a ha).symm
    rw [List.flatMap_cons, List.map_cons, falling_sum, range_five]
    · match ms, hms with
      | [x, y, z, w], _ =>
        rw [handSum_block]
        refine congrArg List.sum (List.map_congr_left (fun j _ => ?_))
        split
        · rw [extSum_congr_mem (fun m hm => ih hd.2 _ _ m (by rw [ext_length hm]; rfl)), extSum_sum]
          refine congrArg List.sum (List.map_congr_left (fun R hR => ?_))
          rw [spreadAll_replicate _ _ _ _ (hb _ R hR), List.append_assoc]
        · rfl
    · intro j hj
      rw [List.map_congr_left (g := fun _ => 0), List.map_const', List.sum_replicate]
      · simp
      · intro R hR
        rw [spreadAll_replicate _ _ _ _ (hb _ R hR), extSum, ext_long (by omega)]
        rfl

/-! ## The sum of the best worths -/

theorem max2_eq (a b : Nat) : max2 a b = max a b := by
  rw [max2]
  cases h : Nat.ble a b with
  | true => exact (Nat.max_eq_right (Nat.le_of_ble_eq_true h)).symm
  | false =>
    have := Nat.not_le_of_not_ble_eq_true (by rw [h]; exact Bool.false_ne_true)
    rw [cond_false]
    exact (Nat.max_eq_left (by omega)).symm

theorem leaf_cons (t : Tabs) (m b : Nat) (bs : List Nat) :
    leaf t m (b :: bs) = max (entry t.best b) (leaf t m bs) := max2_eq _ _

theorem leaf_symm (t : Tabs) (m : Nat) : Symm (leaf t m) := by
  intro l l' hp
  induction hp with
  | nil => rfl
  | cons x _ ih => rw [leaf_cons, leaf_cons, ih]
  | swap x y l => rw [leaf_cons, leaf_cons, leaf_cons, leaf_cons, Nat.max_left_comm]
  | trans _ _ h1 h2 => exact h1.trans h2

theorem le_leaf (t : Tabs) (m : Nat) (bs : List Nat) : m ≤ leaf t m bs := by
  induction bs with
  | nil => exact le_rfl
  | cons b bs ih => rw [leaf_cons]; exact ih.trans (Nat.le_max_right _ _)

theorem leaf_zeros {t : Tabs} {m : Nat} (hm : entry t.best 0 ≤ m) (bs : List Nat) (z : Nat) :
    leaf t m (bs ++ List.replicate z 0) = leaf t m bs := by
  rw [leaf_symm t m _ _ List.perm_append_comm]
  induction z with
  | zero => rfl
  | succ z ih =>
    rw [List.replicate_succ, List.cons_append, leaf_cons, ih]
    exact Nat.max_eq_right (hm.trans (le_leaf ..))

/-- The worth of the best cards of a hand that are not of one suit. -/
noncomputable def heldAll (t : Tabs) : List Nat → Nat
  | [a, b, c, d, e] => held t a b c d e
  | _ => 0

/-- The worth of the best cards of a hand, from its values and the sets of values of the suits. -/
noncomputable def full (t : Tabs) (vs ms : List Nat) : Nat :=
  leaf t (max (heldAll t vs) (entry t.best 0)) ms

theorem forced_eq (m : Nat) (f : Nat → Nat) : forced m f = f m := by
  cases m <;> rfl

/-- The sets of values of the four suits of a hand. -/
noncomputable def masks (l : List PCard) : List Nat :=
  [Suit.Clubs, .Diamonds, .Hearts, .Spades].map (fun s => mask (values (l.filter (fun c => c.2 == s))))

theorem mask_cons (v : Nat) (l : List Nat) : mask (v :: l) = bit v + mask l := rfl

theorem foldl_stepCard (l : List PCard) (vs : List Nat) (f : Suit → Nat) :
    l.foldl stepCard (vs, [Suit.Clubs, .Diamonds, .Hearts, .Spades].map f)
      = (vs ++ values l, [Suit.Clubs, .Diamonds, .Hearts, .Spades].map
        (fun s => f s + mask (values (l.filter (fun c => c.2 == s))))) := by
  induction l generalizing vs f with
  | nil => simp [values, mask]
  | cons c l ih =>
    have h1 : stepCard (vs, [Suit.Clubs, .Diamonds, .Hearts, .Spades].map f) c
        = (vs ++ [pips c.1], [Suit.Clubs, .Diamonds, .Hearts, .Spades].map
          (fun s => if c.2 = s then f s + bit (pips c.1) else f s)) := by
      obtain ⟨r, s⟩ := c
      cases s <;> simp [stepCard, addCard]
    rw [List.foldl_cons, h1, ih]
    refine Prod.ext (by simp [values]) ?_
    dsimp only
    refine List.map_congr_left (fun s _ => ?_)
    rw [List.filter_cons]
    by_cases h : c.2 = s
    · rw [if_pos h, if_pos (by rw [h]; exact beq_self_eq_true s), Nat.add_assoc]
      rfl
    · rw [if_neg h, if_neg]
      rwa [beq_iff_eq]

theorem hands_sum (t : Tabs) : ((List.sublistsLen 5 cards).map (fun l =>
    full t (values l) (masks l))).sum = sumOver (hands t) (falling 5 allValues) := by
  have h1 := handSum_eq (full t) [Rank.Ace, .King, .Queen, .Jack, .Ten, .Nine, .Eight, .Seven, .Six,
    .Five, .Four, .Three, .Two] (by decide +kernel) 5 [] [0, 0, 0, 0] rfl
  have h2 : ∀ l : List PCard, l.foldl stepCard ([], [0, 0, 0, 0]) = (values l, masks l) := by
    intro l
    have := foldl_stepCard l [] (fun _ => 0)
    simp only [List.nil_append, Nat.zero_add] at this
    exact this
  rw [handSum] at h1
  simp only [h2] at h1
  rw [sumOver_eq]
  refine h1.trans ?_
  refine congrArg List.sum (List.map_congr_left (fun R hR => ?_))
  obtain ⟨h5, -⟩ := mem_falling hR
  match R, h5 with
  | [a, b, c, d, e], _ =>
    rw [hands, forced_eq, spread_eq (leaf_symm t _) (fun bs z => leaf_zeros ?_ bs z) _ (by omega),
      max2_eq]
    · rfl
    · rw [max2_eq]
      exact Nat.le_max_right _ _

end Poker.Hold
