import Verif.Proofs.Builds
import Verif.Props.Rounds
import Verif.Props.Evaluation
import Verif.Props.Range

/-! # C47: every build of the crate gives the same results -/

namespace Poker
open Rules Build

/-- C47: `Card::new` returns the same card in every build. -/
theorem c47_card (b : Build) (hb : 16 ≤ b.width) (r : Rank) (s : Suit) :
    b.cardNew r s = .ok (Card.new r s) := cardNew_eq b hb r s

example : Build.cardNew ⟨false, 16⟩ .Ace .Spades = .ok (Card.new .Ace .Spades) :=
  c47_card _ (by decide) _ _

/-- C47: `Evaluator::new` builds the same tables in every build. -/
theorem c47_new (b : Build) (hb : 16 ≤ b.width) : b.new = Evaluator.new := by
  obtain ⟨ev, hev⟩ := c36_new_ok
  rw [hev]
  exact new_refines b hb ev hev

example : Build.new ⟨true, 16⟩ = Evaluator.new := c47_new _ (by decide)

/-- C47: `evaluate` returns the same value, or panics on the same missing key, in every build,
whatever the tables and the cards. -/
theorem c47_evaluate (b : Build) (hb : 16 ≤ b.width) (ev : Evaluator) (cards : List Card) :
    b.evaluate ev cards = ev.evaluate cards := by
  unfold Build.evaluate Evaluator.evaluate Poker.evaluate
  rw [all_unique_eq' b]
  cases hu : Poker.all_unique cards with
  | error p => simp only [Comb.bind_error]
  | ok u =>
    cases u with
    | false => simp only [Comb.bind_ok, Bool.false_eq_true, if_false]
    | true =>
      have hl := length_of_unique hu
      simp only [Comb.bind_ok, if_true, five_eq' b hb]
      split
      · rfl
      · split
        · rfl
        · rw [six_plus_eq' b hb _ _ (by omega) hl]

example : Build.evaluate ⟨false, 32⟩ Tab.theEvaluator (deal wheelHand)
    = Tab.theEvaluator.evaluate (deal wheelHand) :=
  c47_evaluate _ (by decide) _ _

/-- C47: in every build, an evaluator made by `Evaluator::new` gives every slice of cards the result
it gets in the build the other theorems speak about. -/
theorem c47_hand (b : Build) (hb : 16 ≤ b.width) (h : List PCard) :
    (do let ev ← b.new; b.evaluate ev (deal h)) = evaluateHand h := by
  rw [c47_new b hb, evaluateHand]
  congr 1
  funext ev
  exact c47_evaluate b hb ev (deal h)

/-! ## The game -/

theorem usizeAdd_refines (b : Build) (hb : b.width = 64) (x y : Nat) :
    Refines (Game.usizeAdd x y) (b.usizeAdd x y) := by
  intro v hv
  unfold Game.usizeAdd Game.USIZE at hv
  split at hv
  · rename_i h
    rw [usizeAdd_eq b (by rw [hb]; exact h), hv]
  · simp at hv

theorem usizeMul_refines (b : Build) (hb : b.width = 64) (x y : Nat) :
    Refines (Game.usizeMul x y) (b.usizeMul x y) := by
  intro v hv
  unfold Game.usizeMul Game.USIZE at hv
  split at hv
  · rename_i h
    rw [usizeMul_eq b (by rw [hb]; exact h), hv]
  · simp at hv

theorem usizeSub_refines (b : Build) (x y : Nat) : Refines (usizeSub x y) (b.usizeSub x y) := by
  intro v hv
  unfold Poker.usizeSub at hv
  split at hv
  · rename_i h
    rw [usizeSub_eq b h, hv]
  · simp at hv

theorem mapM_refines {α β : Type} {f g : α → Exec β} (h : ∀ a, Refines (f a) (g a)) (l : List α) :
    Refines (l.mapM f) (l.mapM g) := by
  induction l with
  | nil => exact Refines.refl _
  | cons a l ih =>
    rw [List.mapM_cons, List.mapM_cons]
    exact Refines.bind (h a) fun _ => Refines.bind ih fun _ => Refines.refl _

theorem payout_refines (b : Build) (hb : b.width = 64) (w : Nat) (c : EvalClass) :
    Refines (Game.payout w c) (b.payout w c) := by
  cases c with
  | Pair r => cases r <;> exact Refines.refl _
  | StraightFlush r =>
    cases r <;> first
      | exact usizeMul_refines b hb _ _
      | exact Refines.ite (c := w = Game.MAX_WAGER) (Refines.refl _) (usizeMul_refines b hb _ _)
  | HighCard r => exact Refines.refl _
  | _ => exact usizeMul_refines b hb _ _

theorem get_swaps_refines (b : Build) (order : List (Nat × Nat) → List (Nat × Nat))
    (line : Option Str) : Refines (Game.get_swaps order line) (b.get_swaps order line) := by
  cases line with
  | none => exact Refines.refl _
  | some s =>
    unfold Game.get_swaps Build.get_swaps
    refine Refines.ite (Refines.refl _) ?_
    cases Game.parseAll (split_whitespace s) with
    | none => exact Refines.refl _
    | some swaps =>
      refine Refines.ite (Refines.refl _) (Refines.ite (Refines.refl _) (Refines.ite (Refines.refl _) ?_))
      exact Refines.bind (mapM_refines (fun x => usizeSub_refines b x 1) _) fun _ => Refines.refl _

theorem step_refines (b : Build) (hb : b.width = 64) (ev : Evaluator) (i : Game.Input)
    (s : Game.State) : Refines (Game.step ev i s) (b.step ev i s) := by
  have hev : b.evaluate ev = ev.evaluate := funext fun cards => c47_evaluate b (by omega) ev cards
  cases s with
  | wager c deck hand =>
    unfold Game.step Build.step
    simp only
    cases Game.get_wager c i.line with
    | quit => exact Refines.refl _
    | again m => exact Refines.refl _
    | accept w =>
      simp only
      unfold Game.afterWager Build.afterWager
      rw [hev]
      exact Refines.bind (usizeSub_refines b _ _) fun _ => Refines.refl _
  | swaps c w e deck hand =>
    unfold Game.step Build.step
    refine Refines.bind (get_swaps_refines b _ _) fun a => ?_
    cases a with
    | quit => exact Refines.refl _
    | again m => exact Refines.refl _
    | accept l =>
      show Refines (Game.afterSwaps ev i c w e deck hand l) (b.afterSwaps ev i c w e deck hand l)
      unfold Game.afterSwaps Build.afterSwaps
      rw [hev]
      refine Refines.bind (Refines.refl _) fun _ => Refines.bind (Refines.refl _) fun _ =>
        Refines.bind (Refines.refl _) fun _ => Refines.bind (Refines.refl _) fun _ =>
        Refines.bind (payout_refines b hb _ _) fun _ => Refines.bind ?_ fun _ => Refines.refl _
      unfold Game.collect Build.collect
      exact Refines.ite (Refines.bind (usizeAdd_refines b hb _ _) fun _ => usizeAdd_refines b hb _ _)
        (Refines.refl _)
  | quit c deck hand => exact Refines.refl _
  | over c deck hand => exact Refines.refl _

theorem run_refines (b : Build) (hb : b.width = 64) (ev : Evaluator) (is : List Game.Input)
    (s : Game.State) : Refines (Game.run ev is s) (b.run ev is s) := by
  induction is generalizing s with
  | nil => exact Refines.refl _
  | cons i is ih =>
    unfold Game.run Build.run
    exact Refines.bind (step_refines b hb ev i s) fun _ => Refines.bind (ih _) fun _ => Refines.refl _

/-- C47: the game goes the same way, and prints the same, with and without overflow checks, for
every history too short for the credits to reach 2^64 (see C34). -/
theorem c47_game (b : Build) (hb : b.width = 64) (draw : Nat → Nat) (hd : ∀ k, draw k ≤ k)
    (inputs : List Game.Input) (hi : ∀ i ∈ inputs, Fair i)
    (hl : 100 + 4000 * inputs.length < 2 ^ 64) : b.game draw inputs = Game.main draw inputs := by
  obtain ⟨-, s, m, out, hm, -⟩ := c34_history draw hd inputs hi hl
  rw [hm]
  refine Refines.bind ?_ (fun _ => Refines.bind (run_refines b hb _ _ _) fun _ => Refines.refl _)
    _ hm
  unfold Game.start Build.start
  rw [c47_new b (by omega)]
  exact Refines.refl _

/-- C47: beyond that the builds part: where the credits would exceed the largest `usize`, the checked
build panics and the other goes on with what is left after taking away 2^64. -/
theorem c47_wrap (checks : Bool) (c w p : Nat) (hw : w ≤ 5) (hp : 0 < p) (hp' : p ≤ 4000)
    (hc : 2 ^ 64 ≤ c + (w + p)) (hc' : c < 2 ^ 64) :
    Build.collect ⟨checks, 64⟩ c w p =
      if checks then .error .arithOverflow else .ok (c + (w + p) - 2 ^ 64) := by
  have hM : 5000 ≤ 2 ^ 64 := by decide
  unfold Build.collect
  rw [if_pos hp, usizeAdd_eq _ (show w + p < 2 ^ 64 from Nat.lt_of_lt_of_le (by omega) hM),
    Comb.bind_ok, Build.usizeAdd, if_neg (Nat.not_lt.2 hc)]
  cases checks with
  | true => simp [Build.overflow]
  | false =>
    have h1 : c + (w + p) - 2 ^ 64 < 2 ^ 64 := by
      generalize 2 ^ 64 = M at *
      omega
    show (Except.ok ((c + (w + p)) % 2 ^ 64) : Exec Nat) = .ok _
    rw [Nat.mod_eq_sub_mod hc, Nat.mod_eq_of_lt h1]

/-- A 32-bit release build meets the hypotheses; it evaluates a royal flush among seven cards. -/
example : (do
    let ev ← Build.new ⟨false, 32⟩
    Build.evaluate ⟨false, 32⟩ ev (deal [(.Ten, .Hearts), (.Two, .Clubs), (.Jack, .Hearts),
      (.Queen, .Hearts), (.King, .Hearts), (.Two, .Spades), (.Ace, .Hearts)])) = .ok (.ok .BEST) := by
  rw [c47_hand ⟨false, 32⟩ (by decide)]
  generalize hh : [(Rank.Ten, Suit.Hearts), (.Two, .Clubs), (.Jack, .Hearts), (.Queen, .Hearts),
    (.King, .Hearts), (.Two, .Spades), (.Ace, .Hearts)] = h
  obtain ⟨e, he⟩ := (c04_iff h).2.2.2 (by subst hh; decide)
  obtain ⟨-, h2, h3⟩ := c10_royal _ e he
  have hr := h2.1 (h3.2 ⟨.Hearts, by subst hh; decide⟩)
  rw [he, (c12_constants _ e he).1 hr]

/-- A release build of the game on a session of four lines meets the hypotheses of `c47_game`. -/
example : Build.game ⟨false, 64⟩ id (["1", "oops", "1 2 9", "1 5"].map plain) =
    Game.main id (["1", "oops", "1 2 9", "1 5"].map plain) :=
  c47_game _ rfl id (fun _ => Nat.le_refl _) _
    (fun i hi => by obtain ⟨l, -, rfl⟩ := List.mem_map.1 hi; exact plain_fair l) (by decide)

/-- The builds do part: 2^64 - 1 credits and a straight on a wager of five. -/
example : Build.collect ⟨true, 64⟩ (2 ^ 64 - 1) 5 20 = .error .arithOverflow ∧
    Build.collect ⟨false, 64⟩ (2 ^ 64 - 1) 5 20 = .ok 24 := by decide

/-- What Rust says of an operation whose exact result is the integer `v`, of a type with the integers from `lo` up
to but not including `hi`: the exact result if it fits, else a panic with checks and the only number of the type
that differs from it by a multiple of `hi - lo` without. -/
def Rusty (b : Build) (lo hi v : Int) (r : Exec Int) : Prop :=
  (lo ≤ v ∧ v < hi → r = .ok v) ∧
  (¬ (lo ≤ v ∧ v < hi) → b.checks = true → r = .error .arithOverflow) ∧
  (¬ (lo ≤ v ∧ v < hi) → b.checks = false → ∃ k, lo ≤ k ∧ k < hi ∧ (hi - lo) ∣ v - k ∧ r = .ok k)

theorem rusty_nat {b : Build} {W : Nat} {v : Int} {r : Exec Nat} (hW : 0 < W)
    (h1 : 0 ≤ v ∧ v < W → r = .ok v.toNat) (h2 : ¬ (0 ≤ v ∧ v < W) → r = b.overflow (v % W).toNat) :
    Rusty b 0 W v (r.map Int.ofNat) := by
  have hW' : (0 : Int) < W := by exact_mod_cast hW
  refine ⟨fun h => ?_, fun h hc => ?_, fun h hc => ⟨v % W, Int.emod_nonneg _ (by omega), Int.emod_lt_of_pos _ hW', ?_, ?_⟩⟩
  · rw [h1 h]
    exact congrArg Except.ok (Int.toNat_of_nonneg h.1)
  · rw [h2 h, overflow, hc]
    rfl
  · rw [Int.sub_zero]
    exact Int.dvd_self_sub_emod
  · rw [h2 h, overflow, hc]
    exact congrArg Except.ok (Int.toNat_of_nonneg (Int.emod_nonneg _ (by omega)))

/-- C47: the operations on `usize` are those of Rust in every build. -/
theorem c47_usize (b : Build) (x y : Nat) (hx : x < 2 ^ b.width) (hy : y < 2 ^ b.width) :
    Rusty b 0 (2 ^ b.width : Nat) (x + y) ((b.usizeAdd x y).map Int.ofNat) ∧
    Rusty b 0 (2 ^ b.width : Nat) (x - y) ((b.usizeSub x y).map Int.ofNat) ∧
    Rusty b 0 (2 ^ b.width : Nat) (x * y) ((b.usizeMul x y).map Int.ofNat) := by
  have hW : 0 < 2 ^ b.width := Nat.two_pow_pos _
  rw [Build.usizeAdd, Build.usizeSub, Build.usizeMul]
  generalize 2 ^ b.width = W at *
  refine ⟨rusty_nat hW (fun h => ?_) (fun h => ?_), rusty_nat hW (fun h => ?_) (fun h => ?_),
    rusty_nat hW (fun h => ?_) (fun h => ?_)⟩
  · rw [if_pos (by omega)]; congr 1
  · rw [if_neg (by omega)]; congr 1
  · rw [if_pos (by omega)]; congr 1; omega
  · rw [if_neg (by omega)]; congr 1
    have : ((W + x - y : Nat) : Int) = W + (x - y) := by omega
    rw [← Int.add_emod_left, ← this]
    rfl
  · rw [if_pos (by exact_mod_cast h.2)]; congr 1
  · rw [if_neg (fun h' => h ⟨by positivity, by exact_mod_cast h'⟩)]; congr 1

/-- C47: the sums of signed and of unsigned integers are those of Rust in every build. -/
theorem c47_sums {w : Nat} (b : Build) (x y : BitVec (w + 1)) :
    Rusty b (-2 ^ w) (2 ^ w) (x.toInt + y.toInt) ((b.addSigned x y).map BitVec.toInt) ∧
    Rusty b 0 (2 ^ (w + 1)) (x.toNat + y.toNat) ((b.addUnsigned x y).map (fun z => Int.ofNat z.toNat)) := by
  have hs : x.saddOverflow y = true ↔ ¬ (-2 ^ w ≤ x.toInt + y.toInt ∧ x.toInt + y.toInt < 2 ^ w) := by
    simp only [BitVec.saddOverflow, Nat.add_one_sub_one, Bool.or_eq_true, decide_eq_true_eq]
    omega
  have hu : x.uaddOverflow y = true ↔ ¬ ((0 : Int) ≤ x.toNat + y.toNat ∧ (x.toNat + y.toNat : Int) < 2 ^ (w + 1)) := by
    rw [BitVec.uaddOverflow, decide_eq_true_eq, ge_iff_le, ← Int.ofNat_le, Int.natCast_pow, Int.natCast_add]
    generalize (2 : Int) ^ (w + 1) = W
    exact ⟨fun h h' => by omega, fun h => by omega⟩
  refine ⟨⟨fun h => ?_, fun h hc => ?_, fun h hc => ⟨(x + y).toInt, ?_, ?_, ?_, ?_⟩⟩,
    ⟨fun h => ?_, fun h hc => ?_, fun h hc => ⟨(x + y).toNat, ?_, ?_, ?_, ?_⟩⟩⟩
  · have h' : ¬ x.saddOverflow y = true := fun h' => hs.1 h' h
    rw [Build.addSigned, if_neg h', ← BitVec.toInt_add_of_not_saddOverflow h']
    rfl
  · rw [Build.addSigned, if_pos (hs.2 h), overflow, hc]
    rfl
  · exact BitVec.le_toInt (x + y)
  · exact BitVec.toInt_lt
  · have h2 : (2 : Int) ^ w - -2 ^ w = ((2 ^ (w + 1) : Nat) : Int) := by
      push_cast
      ring
    rw [h2, BitVec.toInt_add]
    exact Int.dvd_self_sub_bmod
  · rw [Build.addSigned, if_pos (hs.2 h), overflow, hc]
    rfl
  · have h' : ¬ x.uaddOverflow y = true := fun h' => hu.1 h' h
    rw [Build.addUnsigned, if_neg h', ← Int.natCast_add, ← BitVec.toNat_add_of_not_uaddOverflow h']
    rfl
  · rw [Build.addUnsigned, if_pos (hu.2 h), overflow, hc]
    rfl
  · exact Int.natCast_nonneg _
  · exact_mod_cast (x + y).isLt
  · rw [BitVec.toNat_add, Int.sub_zero, Int.natCast_emod, Int.natCast_add, Int.natCast_pow]
    exact Int.dvd_self_sub_emod
  · rw [Build.addUnsigned, if_pos (hu.2 h), overflow, hc]
    rfl

/-- C47: the shifts are those of Rust in every build: a panic with checks, and the amount modulo the width without. -/
theorem c47_shifts {w : Nat} (b : Build) (x : BitVec w) (n : Nat) :
    (b.checks = true → w ≤ n → b.shl x n = .error .arithOverflow ∧ b.sar x n = .error .arithOverflow) ∧
    (b.checks = false ∨ n < w → ∃ y z, b.shl x n = .ok y ∧ b.sar x n = .ok z ∧
      y.toNat = x.toNat * 2 ^ (n % w) % 2 ^ w ∧ z.toInt = x.toInt / 2 ^ (n % w)) := by
  refine ⟨fun hc hn => ?_, fun h => ?_⟩
  · rw [Build.shl, Build.sar, if_neg (by omega), if_neg (by omega), overflow, overflow, hc]
    exact ⟨rfl, rfl⟩
  · refine ⟨x <<< (n % w), x.sshiftRight (n % w), ?_, ?_, ?_, ?_⟩
    · by_cases hn : n < w
      · rw [Build.shl, if_pos hn, Nat.mod_eq_of_lt hn]
      · rw [Build.shl, if_neg hn, overflow, h.resolve_right hn]
        rfl
    · by_cases hn : n < w
      · rw [Build.sar, if_pos hn, Nat.mod_eq_of_lt hn]
      · rw [Build.sar, if_neg hn, overflow, h.resolve_right hn]
        rfl
    · rw [BitVec.toNat_shiftLeft, Nat.shiftLeft_eq]
    · rw [BitVec.toInt_sshiftRight, Int.shiftRight_eq_div_pow]
      norm_cast

/-- The primitives do differ between builds, so the theorems above say something: an oversized shift, a
subtraction below zero, a wrapped index. -/
example : Build.shl ⟨true, 64⟩ (1 : BitVec 32) 33 = .error .arithOverflow ∧
    Build.shl ⟨false, 64⟩ (1 : BitVec 32) 33 = .ok 2 ∧
    Build.usizeSub ⟨true, 16⟩ 2 3 = .error .arithOverflow ∧
    Build.usizeSub ⟨false, 16⟩ 2 3 = .ok 65535 ∧
    Build.asUsize ⟨true, 16⟩ (0x10005 : BitVec 32) = 5 ∧
    Build.asUsize ⟨true, 64⟩ (0x10005 : BitVec 32) = 65541 := by decide

end Poker
