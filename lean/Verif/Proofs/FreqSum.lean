import Verif.Proofs.SevenCounts
import Mathlib.Data.List.Sublists

/-! Sums over all sets of cards, rank by rank.

Each rank adds four bits, one for each suit.  A state has a number below five for each suit; a card of
the suit adds one to it, and without a card it becomes `z` of it: 0 to measure runs, or itself to count
the cards.  A suit that reaches five ends it.  `T5` holds a number for every state, four levels deep, and
`op` and `tally` take it over one rank. -/

namespace Poker.Freq
open Rules Counts

/-! ## Bits -/

/-- All lists of `n` bits. -/
def allB : Nat → List (List Bool)
  | 0 => [[]]
  | n + 1 => (allB n).map (false :: ·) ++ (allB n).map (true :: ·)

/-- The members of a list where the bit is set. -/
def pick {α : Type} : List α → List Bool → List α
  | c :: l, true :: b => c :: pick l b
  | _ :: l, false :: b => pick l b
  | _, _ => []

theorem sublists_pick {α : Type} (l : List α) : l.sublists' = (allB l.length).map (pick l) := by
  induction l with
  | nil => rfl
  | cons c l ih =>
    rw [List.sublists'_cons, ih, List.length_cons, allB, List.map_append, List.map_map, List.map_map,
      List.map_map]
    rfl

theorem sum_sublists_append {α : Type} (l k : List α) (φ : List α → Nat) :
    ((l ++ k).sublists'.map φ).sum
      = (l.sublists'.map (fun a => (k.sublists'.map (fun b => φ (a ++ b))).sum)).sum := by
  induction l generalizing φ with
  | nil => simp
  | cons c l ih =>
    simp only [List.cons_append, List.sublists'_cons, List.map_append, List.sum_append, List.map_map]
    rw [ih]
    congr 1
    exact ih (fun h => φ (c :: h))

/-! ## One rank -/

/-- All ways to take cards of one rank from the state `ρ`, with `f` for the number of cards. -/
def adv (z : Nat → Nat) : List Nat → List Nat → (List Nat → Nat) → Nat
  | f, [], g => f.headD 0 * g []
  | f, r :: ρ, g => adv z f ρ (fun σ => g (z r :: σ))
      + if r < 4 then adv z f.tail ρ (fun σ => g ((r + 1) :: σ)) else 0

/-- No suit reaches five. -/
def alive : List Nat → List Bool → Bool
  | r :: ρ, b :: l => (!b || decide (r < 4)) && alive ρ l
  | _, _ => true

/-- The next state. -/
def next (z : Nat → Nat) : List Nat → List Bool → List Nat
  | r :: ρ, b :: l => (if b then r + 1 else z r) :: next z ρ l
  | _, _ => []

theorem adv_eq (z : Nat → Nat) (f ρ : List Nat) (g : List Nat → Nat) :
    adv z f ρ g = ((allB ρ.length).map (fun b =>
      f.getD (b.count true) 0 * ((alive ρ b).toNat * g (next z ρ b)))).sum := by
  induction ρ generalizing f g with
  | nil => cases f <;> simp [adv, allB, alive, next]
  | cons r ρ ih =>
    rw [adv, ih, List.length_cons, allB, List.map_append, List.sum_append, List.map_map, List.map_map]
    refine congrArg₂ (· + ·) ?_ ?_
    · refine congrArg List.sum (List.map_congr_left (fun b _ => ?_))
      simp [alive, next]
    · by_cases h : r < 4
      · rw [if_pos h, ih]
        refine congrArg List.sum (List.map_congr_left (fun b _ => ?_))
        have : f.tail.getD (b.count true) 0 = f.getD (b.count true + 1) 0 := by cases f <;> simp
        simp [alive, next, h]
      · rw [if_neg h]
        rw [List.map_congr_left (g := fun _ => 0) (fun b _ => by simp [alive, h])]
        simp

/-- All ways over `n` ranks. -/
def advs (z : Nat → Nat) (f : List Nat) (g : List Nat → Nat) : Nat → List Nat → Nat
  | 0, ρ => g ρ
  | n + 1, ρ => adv z f ρ (advs z f g n)

/-! ## Hands -/

/-- Whether the cards of one suit, given as bits from the highest rank down, stay below five. -/
def stays (z : Nat → Nat) : Nat → List Bool → Bool
  | _, [] => true
  | r, true :: l => decide (r < 4) && stays z (r + 1) l
  | r, false :: l => stays z (z r) l

/-- The suits in the order of `block`. -/
def order : List Suit := [.Clubs, .Diamonds, .Hearts, .Spades]

/-- The bits of a suit. -/
def bitsOf (rs : List Rank) (h : List PCard) (s : Suit) : List Bool := rs.map (fun r => decide ((r, s) ∈ h))

/-- All suits stay below five, from `ρ` on and with the bits `a` at the end. -/
def stay (z : Nat → Nat) (a : Suit → List Bool) (rs : List Rank) (ρ : List Nat) (h : List PCard) : Bool :=
  (order.zip ρ).all (fun p => stays z p.2 (bitsOf rs h p.1 ++ a p.1))

/-- How many cards of a rank. -/
def cnt (h : List PCard) (r : Rank) : Nat := (values h).count (pips r)

theorem block_eq (r : Rank) : block r = order.map (fun s => (r, s)) := rfl

theorem not_mem_rest {rs : List Rank} {r : Rank} (hr : r ∉ rs) {h : List PCard}
    (hh : h ∈ (rs.flatMap block).sublists') (s : Suit) : (r, s) ∉ h := by
  intro hm
  have := (List.mem_sublists'.1 hh).subset hm
  obtain ⟨r', hr', hb⟩ := List.mem_flatMap.1 this
  rw [block_eq] at hb
  obtain ⟨s', -, he⟩ := List.mem_map.1 hb
  injection he with he
  exact hr (he ▸ hr')

theorem cnt_append (a b : List PCard) (r : Rank) : cnt (a ++ b) r = cnt a r + cnt b r := by
  simp [cnt, values]

theorem cnt_zero {h : List PCard} {r : Rank} (hh : ∀ s, (r, s) ∉ h) : cnt h r = 0 := by
  rw [cnt, List.count_eq_zero]
  intro hm
  obtain ⟨⟨r', s⟩, hc, he⟩ := List.mem_map.1 hm
  have := Seven.pips_inj he
  subst this
  exact hh s hc

theorem pick_cnt (r : Rank) : ∀ b ∈ allB 4, cnt (pick (block r) b) r = b.count true := by
  cases r <;> decide

theorem pick_other {r r' : Rank} (h : r' ≠ r) (b : List Bool) (s : Suit) : (r', s) ∉ pick (block r) b := by
  intro hm
  have hsub : ∀ (l : List PCard) (b : List Bool), (r', s) ∈ pick l b → (r', s) ∈ l := by
    intro l
    induction l with
    | nil => intro b; cases b <;> simp [pick]
    | cons c l ih =>
      intro b
      match b with
      | [] => simp [pick]
      | true :: b =>
        intro h
        rcases List.mem_cons.1 h with h | h
        · simp [h]
        · exact List.mem_cons_of_mem _ (ih b h)
      | false :: b => exact fun h => List.mem_cons_of_mem _ (ih b h)
  have := hsub _ _ hm
  rw [block_eq] at this
  obtain ⟨s', -, he⟩ := List.mem_map.1 this
  injection he with he
  exact h he.symm

theorem allB_four {b : List Bool} (hb : b ∈ allB 4) : ∃ b0 b1 b2 b3, b = [b0, b1, b2, b3] := by
  have : ∀ b ∈ allB 4, b = [b[0]?.getD false, b[1]?.getD false, b[2]?.getD false, b[3]?.getD false] := by decide
  exact ⟨_, _, _, _, this b hb⟩

theorem pick_mem (r : Rank) (b0 b1 b2 b3 : Bool) :
    decide ((r, Suit.Clubs) ∈ pick (block r) [b0, b1, b2, b3]) = b0 ∧
    decide ((r, Suit.Diamonds) ∈ pick (block r) [b0, b1, b2, b3]) = b1 ∧
    decide ((r, Suit.Hearts) ∈ pick (block r) [b0, b1, b2, b3]) = b2 ∧
    decide ((r, Suit.Spades) ∈ pick (block r) [b0, b1, b2, b3]) = b3 := by
  cases r <;> cases b0 <;> cases b1 <;> cases b2 <;> cases b3 <;> decide

theorem bits_rest {rs : List Rank} {r : Rank} (hr : r ∉ rs) (b : List Bool) (h : List PCard) (s : Suit) :
    bitsOf rs (pick (block r) b ++ h) s = bitsOf rs h s := by
  refine List.map_congr_left (fun r' hr' => ?_)
  have := pick_other (r := r) (r' := r') (fun e => hr (e ▸ hr')) b s
  simp [this]

theorem stays_cons (z : Nat → Nat) (r : Nat) (b : Bool) (l : List Bool) :
    stays z r (b :: l) = ((!b || decide (r < 4)) && stays z (if b then r + 1 else z r) l) := by
  cases b <;> simp [stays]

theorem stay_cons (z : Nat → Nat) (a : Suit → List Bool) {rs : List Rank} {r : Rank} (hr : r ∉ rs)
    {ρ : List Nat} (hρ : ρ.length = 4) {b : List Bool} (hb : b ∈ allB 4) {h : List PCard} (hh : ∀ s, (r, s) ∉ h) :
    stay z a (r :: rs) ρ (pick (block r) b ++ h) = (alive ρ b && stay z a rs (next z ρ b) h) := by
  match ρ, hρ with
  | [r0, r1, r2, r3], _ =>
    obtain ⟨b0, b1, b2, b3, rfl⟩ := allB_four hb
    obtain ⟨m0, m1, m2, m3⟩ := pick_mem r b0 b1 b2 b3
    have key : ∀ s, bitsOf (r :: rs) (pick (block r) [b0, b1, b2, b3] ++ h) s
        = decide ((r, s) ∈ pick (block r) [b0, b1, b2, b3]) :: bitsOf rs h s := by
      intro s
      rw [← bits_rest hr [b0, b1, b2, b3] h s]
      simp [bitsOf, hh s]
    simp only [stay, order, List.zip_cons_cons, List.zip_nil_right, List.all_cons, List.all_nil, key, m0, m1,
      m2, m3, List.cons_append, stays_cons, alive, next, Bool.and_true]
    ac_rfl

theorem next_length (z : Nat → Nat) {ρ : List Nat} (hρ : ρ.length = 4) {b : List Bool} (hb : b ∈ allB 4) :
    (next z ρ b).length = 4 := by
  obtain ⟨b0, b1, b2, b3, rfl⟩ := allB_four hb
  match ρ, hρ with
  | [_, _, _, _], _ => rfl

/-- The product of the weights of the ranks. -/
def wt (f : List Nat) (rs : List Rank) (h : List PCard) : Nat := (rs.map (fun r => f.getD (cnt h r) 0)).prod

theorem wt_cons (f : List Nat) {rs : List Rank} {r : Rank} (hr : r ∉ rs) {b : List Bool} (hb : b ∈ allB 4)
    {h : List PCard} (hh : ∀ s, (r, s) ∉ h) :
    wt f (r :: rs) (pick (block r) b ++ h) = f.getD (b.count true) 0 * wt f rs h := by
  rw [wt, List.map_cons, List.prod_cons, cnt_append, pick_cnt r b hb, cnt_zero hh, Nat.add_zero, wt]
  congr 2
  refine List.map_congr_left (fun r' hr' => ?_)
  rw [cnt_append, cnt_zero (fun s => pick_other (r := r) (r' := r') (fun e => hr (e ▸ hr')) b s), Nat.zero_add]

/-- The sum over all sets of cards of some ranks. -/
theorem sum_hands (z : Nat → Nat) (f : List Nat) (a : Suit → List Bool) (rs : List Rank) (hn : rs.Nodup)
    {ρ : List Nat} (hρ : ρ.length = 4) :
    ((rs.flatMap block).sublists'.map (fun h => wt f rs h * (stay z a rs ρ h).toNat)).sum
      = advs z f (fun σ => (stay z a [] σ []).toNat) rs.length ρ := by
  induction rs generalizing ρ with
  | nil => simp [wt, advs]
  | cons r rs ih =>
    rw [List.nodup_cons] at hn
    rw [List.flatMap_cons, sum_sublists_append, sublists_pick (block r), List.map_map, List.length_cons, advs,
      adv_eq, hρ]
    refine congrArg List.sum (List.map_congr_left (fun b hb => ?_))
    have hs : ∀ h ∈ (rs.flatMap block).sublists', wt f (r :: rs) (pick (block r) b ++ h)
        * (stay z a (r :: rs) ρ (pick (block r) b ++ h)).toNat
        = f.getD (b.count true) 0 * (alive ρ b).toNat
          * (wt f rs h * (stay z a rs (next z ρ b) h).toNat) := by
      intro h hh
      have hm := not_mem_rest hn.1 hh
      rw [wt_cons f hn.1 hb hm, stay_cons z a hn.1 hρ hb hm]
      cases alive ρ b <;> cases stay z a rs (next z ρ b) h <;> simp
    rw [Function.comp_apply, List.map_congr_left hs, List.sum_map_mul_left, ih hn.2 (next_length z hρ hb),
      Nat.mul_assoc]

/-! ## A number for every state -/

/-- A value for each number below five. -/
inductive T5 (α : Type) where
  | mk : α → α → α → α → α → T5 α

/-- The sum over all states, with `g` for the state. -/
def T5.pair {α : Type} (pr : α → (List Nat → Nat) → Nat) : T5 α → (List Nat → Nat) → Nat
  | ⟨a, b, c, d, e⟩, g => pr a (fun σ => g (0 :: σ)) + (pr b (fun σ => g (1 :: σ))
      + (pr c (fun σ => g (2 :: σ)) + (pr d (fun σ => g (3 :: σ)) + pr e (fun σ => g (4 :: σ)))))

/-- Addition for every state. -/
def T5.add {α : Type} (p : α → α → α) : T5 α → T5 α → T5 α
  | ⟨a, b, c, d, e⟩, ⟨a', b', c', d', e'⟩ => ⟨p a a', p b b', p c c', p d d', p e e'⟩

/-- One rank, for runs. -/
def T5.run {α : Type} (p : α → α → α) (o : List Nat → α → α) (f : List Nat) : T5 α → T5 α
  | ⟨a, b, c, d, e⟩ => ⟨o f (p a (p b (p c (p d e)))), o f.tail a, o f.tail b, o f.tail c, o f.tail d⟩

/-- One rank, for the number of cards. -/
def T5.tally {α : Type} (p : α → α → α) (o : List Nat → α → α) (f : List Nat) : T5 α → T5 α
  | ⟨a, b, c, d, e⟩ => ⟨o f a, p (o f b) (o f.tail a), p (o f c) (o f.tail b), p (o f d) (o f.tail c),
      p (o f e) (o f.tail d)⟩

/-- The sum over the states that can take the bits. -/
def T5.fin {α : Type} (o : List Bool → α → Nat) : List Bool → T5 α → Nat
  | true :: l, ⟨a, b, c, d, _⟩ => Nat.add (o l a) (Nat.add (o l b) (Nat.add (o l c) (o l d)))
  | false :: l, ⟨a, b, c, d, e⟩ => Nat.add (o l a) (Nat.add (o l b) (Nat.add (o l c) (Nat.add (o l d) (o l e))))
  | [], _ => 0

/-- One state only, that of the bits. -/
def T5.one {α : Type} (z : α) (o : List Bool → α) : List Bool → T5 α
  | true :: l => ⟨z, o l, z, z, z⟩
  | false :: l => ⟨o l, z, z, z, z⟩
  | [] => ⟨z, z, z, z, z⟩

/-- What is needed of a level: sums are linear. -/
structure Level {α : Type} (p : α → α → α) (z : α) (pr : α → (List Nat → Nat) → Nat) : Prop where
  add : ∀ s t g, pr (p s t) g = pr s g + pr t g
  zero : ∀ g, pr z g = 0
  plus : ∀ t g g', pr t (fun σ => g σ + g' σ) = pr t g + pr t g'
  none : ∀ t, pr t (fun _ => 0) = 0

theorem Level.succ {α : Type} {p : α → α → α} {z : α} {pr : α → (List Nat → Nat) → Nat} (h : Level p z pr) :
    Level (T5.add p) ⟨z, z, z, z, z⟩ (T5.pair pr) where
  add := by
    rintro ⟨a, b, c, d, e⟩ ⟨a', b', c', d', e'⟩ g
    simp only [T5.add, T5.pair, h.add]
    omega
  zero := by
    intro g
    simp only [T5.pair, h.zero]
  plus := by
    rintro ⟨a, b, c, d, e⟩ g g'
    simp only [T5.pair, h.plus]
    omega
  none := by
    rintro ⟨a, b, c, d, e⟩
    simp only [T5.pair, h.none]

theorem run_pair {α : Type} {p : α → α → α} {z : α} {pr : α → (List Nat → Nat) → Nat} (h : Level p z pr)
    {o : List Nat → α → α} (ho : ∀ f t g, pr (o f t) g = pr t (fun σ => adv (fun _ => 0) f σ g))
    (f : List Nat) (t : T5 α) (g : List Nat → Nat) :
    T5.pair pr (T5.run p o f t) g = T5.pair pr t (fun σ => adv (fun _ => 0) f σ g) := by
  obtain ⟨a, b, c, d, e⟩ := t
  simp only [T5.run, T5.pair, ho, h.add, adv, h.plus, show (0 : Nat) < 4 from by decide,
    show (1 : Nat) < 4 from by decide, show (2 : Nat) < 4 from by decide, show (3 : Nat) < 4 from by decide,
    show ¬ (4 : Nat) < 4 from by decide, if_true, if_false, h.none, Nat.reduceAdd]
  omega

theorem tally_pair {α : Type} {p : α → α → α} {z : α} {pr : α → (List Nat → Nat) → Nat} (h : Level p z pr)
    {o : List Nat → α → α} (ho : ∀ f t g, pr (o f t) g = pr t (fun σ => adv id f σ g))
    (f : List Nat) (t : T5 α) (g : List Nat → Nat) :
    T5.pair pr (T5.tally p o f t) g = T5.pair pr t (fun σ => adv id f σ g) := by
  obtain ⟨a, b, c, d, e⟩ := t
  simp only [T5.tally, T5.pair, ho, h.add, adv, h.plus, show (0 : Nat) < 4 from by decide,
    show (1 : Nat) < 4 from by decide, show (2 : Nat) < 4 from by decide, show (3 : Nat) < 4 from by decide,
    show ¬ (4 : Nat) < 4 from by decide, if_true, if_false, h.none, Nat.reduceAdd, id]
  omega

theorem fin_pair {α : Type} {p : α → α → α} {z : α} {pr : α → (List Nat → Nat) → Nat} (h : Level p z pr)
    {o : List Bool → α → Nat} (l : List Bool) (ho : ∀ t, o l t = pr t (fun σ => (alive σ l).toNat))
    (b : Bool) (t : T5 α) : T5.fin o (b :: l) t = T5.pair pr t (fun σ => (alive σ (b :: l)).toNat) := by
  obtain ⟨a, b', c, d, e⟩ := t
  cases b
  · simp only [T5.fin, T5.pair, alive, Bool.not_false, Bool.true_or, Bool.true_and, ho, Nat.add_eq]
  · simp [T5.fin, T5.pair, alive, ho, h.none]

theorem one_pair {α : Type} {p : α → α → α} {z : α} {pr : α → (List Nat → Nat) → Nat} (h : Level p z pr)
    {o : List Bool → α} (l : List Bool) (ho : ∀ g, pr (o l) g = g (l.map Bool.toNat)) (b : Bool)
    (g : List Nat → Nat) : T5.pair pr (T5.one z o (b :: l)) g = g ((b :: l).map Bool.toNat) := by
  cases b <;> simp [T5.one, T5.pair, h.zero, ho]

/-- The states of one suit. -/
abbrev Q1 := T5 Nat
/-- The states of two suits. -/
abbrev Q2 := T5 Q1
/-- The states of three suits. -/
abbrev Q3 := T5 Q2
/-- The states of four suits. -/
abbrev Q4 := T5 Q3

def add1 : Q1 → Q1 → Q1 := T5.add Nat.add
def add2 : Q2 → Q2 → Q2 := T5.add add1
def add3 : Q3 → Q3 → Q3 := T5.add add2
def zero1 : Q1 := ⟨0, 0, 0, 0, 0⟩
def zero2 : Q2 := ⟨zero1, zero1, zero1, zero1, zero1⟩
def zero3 : Q3 := ⟨zero2, zero2, zero2, zero2, zero2⟩

/-- A number by itself. -/
def pair0 (w : Nat) (g : List Nat → Nat) : Nat := w * g []
def pair1 : Q1 → (List Nat → Nat) → Nat := T5.pair pair0
def pair2 : Q2 → (List Nat → Nat) → Nat := T5.pair pair1
def pair3 : Q3 → (List Nat → Nat) → Nat := T5.pair pair2
def pair4 : Q4 → (List Nat → Nat) → Nat := T5.pair pair3

theorem level0 : Level Nat.add 0 pair0 where
  add := fun s t _ => Nat.add_mul s t _
  zero := fun _ => Nat.zero_mul _
  plus := fun t _ _ => Nat.mul_add t _ _
  none := fun t => Nat.mul_zero t

theorem level1 : Level add1 zero1 pair1 := level0.succ
theorem level2 : Level add2 zero2 pair2 := level1.succ
theorem level3 : Level add3 zero3 pair3 := level2.succ

/-- The weight for the number of cards. -/
def scale (f : List Nat) (w : Nat) : Nat := Nat.mul (f.headD 0) w

theorem scale_pair (z : Nat → Nat) (f : List Nat) (t : Nat) (g : List Nat → Nat) :
    pair0 (scale f t) g = pair0 t (fun σ => adv z f σ g) := by
  simp only [pair0, scale, adv, Nat.mul_eq]
  rw [Nat.mul_comm _ t, Nat.mul_assoc]

/-- One rank, for runs, in four suits. -/
def run4 : List Nat → Q4 → Q4 := T5.run add3 (T5.run add2 (T5.run add1 (T5.run Nat.add scale)))

/-- One rank, for the number of cards, in four suits. -/
def tally4 : List Nat → Q4 → Q4 := T5.tally add3 (T5.tally add2 (T5.tally add1 (T5.tally Nat.add scale)))

theorem run4_pair (f : List Nat) (t : Q4) (g : List Nat → Nat) :
    pair4 (run4 f t) g = pair4 t (fun σ => adv (fun _ => 0) f σ g) :=
  run_pair level3 (run_pair level2 (run_pair level1 (run_pair level0 (scale_pair _)))) f t g

theorem tally4_pair (f : List Nat) (t : Q4) (g : List Nat → Nat) :
    pair4 (tally4 f t) g = pair4 t (fun σ => adv id f σ g) :=
  tally_pair level3 (tally_pair level2 (tally_pair level1 (tally_pair level0 (scale_pair _)))) f t g

/-- The end, in four suits. -/
def fin4 : List Bool → Q4 → Nat := T5.fin (T5.fin (T5.fin (T5.fin (fun _ w => w))))

/-- The start, in four suits. -/
def one4 : List Bool → Q4 := T5.one zero3 (T5.one zero2 (T5.one zero1 (T5.one 0 (fun _ => 1))))

theorem fin4_pair (b0 b1 b2 b3 : Bool) (t : Q4) :
    fin4 [b0, b1, b2, b3] t = pair4 t (fun σ => (alive σ [b0, b1, b2, b3]).toNat) :=
  fin_pair level3 _ (fin_pair level2 _ (fin_pair level1 _ (fin_pair level0 _ (fun t => by
    simp [pair0, alive]) b3) b2) b1) b0 t

theorem one4_pair (b0 b1 b2 b3 : Bool) (g : List Nat → Nat) :
    pair4 (one4 [b0, b1, b2, b3]) g = g ([b0, b1, b2, b3].map Bool.toNat) :=
  one_pair level3 _ (one_pair level2 _ (one_pair level1 _ (one_pair level0 _ (fun g => by
    simp [pair0]) b3) b2) b1) b0 g

/-- Many ranks. -/
def many (op : List Nat → Q4 → Q4) (f : List Nat) : Nat → Q4 → Q4
  | 0, t => t
  | n + 1, t => many op f n (op f t)

theorem many_pair {z : Nat → Nat} {op : List Nat → Q4 → Q4}
    (h : ∀ f t g, pair4 (op f t) g = pair4 t (fun σ => adv z f σ g)) (f : List Nat) (n : Nat) (t : Q4)
    (g : List Nat → Nat) : pair4 (many op f n t) g = pair4 t (advs z f g n) := by
  induction n generalizing t with
  | zero => rfl
  | succ n ih => rw [many, ih, h]; rfl

/-- Hands without a straight flush, with the bits of the aces given: the sum of the weights. -/
def runs (f : List Nat) (a : List Bool) : Nat := fin4 a (many run4 f 12 (one4 a))

/-- Hands without a flush, over `n` ranks: the sum of the weights. -/
def few (f : List Nat) (n : Nat) : Nat :=
  fin4 [false, false, false, false] (many tally4 f n (one4 [false, false, false, false]))

theorem runs_eq (f : List Nat) (b0 b1 b2 b3 : Bool) : runs f [b0, b1, b2, b3]
    = advs (fun _ => 0) f (fun σ => (alive σ [b0, b1, b2, b3]).toNat) 12 ([b0, b1, b2, b3].map Bool.toNat) := by
  rw [runs, fin4_pair, many_pair run4_pair, one4_pair]

theorem alive_none (σ : List Nat) : alive σ [false, false, false, false] = true := by
  match σ with
  | [] | [_] | [_, _] | [_, _, _] | _ :: _ :: _ :: _ :: _ => simp [alive]

theorem few_eq (f : List Nat) (n : Nat) : few f n = advs id f (fun _ => 1) n [0, 0, 0, 0] := by
  rw [few, fin4_pair, many_pair tally4_pair, one4_pair]
  simp only [alive_none]
  rfl

end Poker.Freq
