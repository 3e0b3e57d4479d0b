import Verif.Spec.Program
import Verif.Proofs.Combinations

/-! The programs do what the state machines do. -/

namespace Poker.Program
open Screen Text

variable {ι α β γ σ : Type}

theorem bind_apply (m : M ι α) (f : α → M ι β) (w : World ι) :
    (m >>= f) w = M.bind m f w := rfl

theorem bind_assoc' (m : M ι α) (f : α → M ι β) (g : β → M ι γ) :
    (m >>= f) >>= g = m >>= fun a => f a >>= g := by
  funext w
  simp only [bind_apply, M.bind]
  cases m w <;> rfl

theorem pure_bind' (a : α) (f : α → M ι β) : (pure a : M ι α) >>= f = f a := rfl

theorem put_bind (e : Event) (f : Unit → M ι β) (w : World ι) :
    (put e >>= f) w = f () { w with events := w.events ++ [e] } := rfl

theorem println_bind (st : Style) (t : Str) (f : Unit → M ι β) (w : World ι) :
    (println st t >>= f) w = f () { w with events := w.events ++ [.out (.line st t)] } := rfl

theorem clear_bind (f : Unit → M ι β) (w : World ι) :
    (clear_terminal >>= f) w = f () { w with events := w.events ++ [.out .clear] } := rfl

theorem ok_bind (a : α) (f : α → M ι β) : (lift (.ok a) : M ι α) >>= f = f a := rfl

theorem error_bind (p : Panic) (f : α → M ι β) (w : World ι) :
    ((lift (.error p) : M ι α) >>= f) w = .panic p w.events := rfl

theorem env_bind {δ : Type} (g : ι → δ) (f : δ → M ι β) (is : List ι) (i : ι) (ev : List Event) :
    (env g >>= f) ⟨is, some i, ev⟩ = f (g i) ⟨is, some i, ev⟩ := rfl

theorem readline_nil (line : ι → Option Str) (p : Str) (f : Option Str → M ι β) (last : Option ι)
    (ev : List Event) :
    (readline line p >>= f) ⟨[], last, ev⟩ = .waiting (ev ++ [.prompt promptStyle p]) := rfl

theorem readline_cons (line : ι → Option Str) (p : Str) (f : Option Str → M ι β) (i : ι) (is : List ι)
    (last : Option ι) (ev : List Event) :
    (readline line p >>= f) ⟨i :: is, last, ev⟩
      = f (line i) ⟨is, some i, ev ++ [.prompt promptStyle p]⟩ := rfl

theorem loop_succ (body : σ → M ι (Flow σ β)) (n : Nat) (s : σ) :
    loop body (n + 1) s = body s >>= fun r => match r with
      | .go s => loop body n s
      | .leave b => pure b := by
  rw [loop]
  congr 1
  funext r
  cases r <;> rfl

theorem asked_append (a b : List Out) : asked (a ++ b) = asked a ++ asked b := by
  simp [asked]

/-! ## The game -/

namespace Game
open Poker.Game (Input Answer wagerMessage swapsMessage)

theorem asked_question (t : Str) : asked [.line good ("Enter ".toList ++ t)]
    = [.out (.line good ("Enter ".toList ++ t)), .prompt promptStyle PROMPT] := rfl

theorem asked_wager (credits : Nat) : asked [.line good (wagerMessage credits)]
    = [.out (.line good (wagerMessage credits)), .prompt promptStyle PROMPT] := rfl

theorem asked_swaps : asked [.line good swapsMessage]
    = [.out (.line good swapsMessage), .prompt promptStyle PROMPT] := rfl

theorem asked_plain (t : Str) : asked [plain t] = [.out (.line {} t)] := rfl

theorem said_append (ev : List Event) {a b : Event} {l : List Event} (h : l = [a, b]) :
    ev ++ [a] ++ [b] = ev ++ l := by
  rw [h, List.append_assoc]
  rfl

/-- One turn of `get_wager`, by the answer of the state machine. -/
theorem wagerTurn_eq (credits : Nat) (i : Input) (is : List Input) (last : Option Input)
    (ev : List Event) :
    wagerTurn credits (wagerMessage credits) () ⟨i :: is, last, ev⟩ =
      match Poker.Game.get_wager credits i.line with
      | .quit => .done (.leave none) ⟨is, some i, ev ++ asked [.line good (wagerMessage credits)]⟩
      | .again t =>
        .done (.go ()) ⟨is, some i, ev ++ asked [.line good (wagerMessage credits)] ++ asked [plain t]⟩
      | .accept a =>
        .done (.leave (some a)) ⟨is, some i, ev ++ asked [.line good (wagerMessage credits)]⟩ := by
  rw [wagerTurn, println_bind, readline_cons, said_append ev (asked_wager credits),
    Poker.Game.get_wager.eq_def]
  generalize ev ++ asked [.line good (wagerMessage credits)] = ev'
  cases i.line with
  | none => rfl
  | some input =>
    simp only
    by_cases h : input = "quit".toList
    · simp only [if_pos h]
      rfl
    · simp only [if_neg h]
      cases Poker.Game.parseUsize input with
      | none => rfl
      | some x =>
        simp only
        by_cases h1 : x = 0
        · simp only [if_pos h1]
          rfl
        · simp only [if_neg h1]
          by_cases h2 : x > Poker.Game.MAX_WAGER
          · simp only [if_pos h2]
            rfl
          · simp only [if_neg h2]
            by_cases h3 : x > credits
            · simp only [if_pos h3]
              rfl
            · simp only [if_neg h3]
              rfl

/-- One turn of `get_swaps`, by the answer of the state machine. -/
theorem swapsTurn_eq (i : Input) (is : List Input) (last : Option Input) (ev : List Event) :
    swapsTurn swapsMessage () ⟨i :: is, last, ev⟩ =
      match Poker.Game.get_swaps i.order i.line with
      | .error p => .panic p (ev ++ asked [.line good swapsMessage])
      | .ok .quit => .done (.leave none) ⟨is, some i, ev ++ asked [.line good swapsMessage]⟩
      | .ok (.again t) =>
        .done (.go ()) ⟨is, some i, ev ++ asked [.line good swapsMessage] ++ asked [plain t]⟩
      | .ok (.accept a) =>
        .done (.leave (some a)) ⟨is, some i, ev ++ asked [.line good swapsMessage]⟩ := by
  rw [swapsTurn, println_bind, readline_cons, said_append ev asked_swaps, Poker.Game.get_swaps.eq_def]
  generalize ev ++ asked [.line good swapsMessage] = ev'
  cases i.line with
  | none => rfl
  | some input =>
    simp only
    by_cases h : input = "quit".toList
    · simp only [if_pos h]
      rfl
    · simp only [if_neg h]
      cases Poker.Game.parseAll (split_whitespace input) with
      | none => rfl
      | some swaps =>
        simp only
        by_cases h1 : (!swaps.all (fun num => decide (1 ≤ num ∧ num ≤ 5))) = true
        · simp only [if_pos h1]
          rfl
        · simp only [if_neg h1]
          by_cases h2 : ¬ swaps.length ≤ 5
          · simp only [if_pos h2]
            rfl
          · simp only [if_neg h2]
            by_cases h3 : (!Poker.Game.allInserted [] swaps) = true
            · simp only [if_pos h3]
              rfl
            · simp only [if_neg h3]
              cases List.mapM (m := Exec) (fun x => usizeSub x 1) swaps with
              | error p => rfl
              | ok a => rfl

/-- What is left of a turn of the game when `get_swaps` has returned. -/
def swapped (eval : Evaluator) (deck : List Card) (credits : Nat) (hand : List Card) (wager : Nat)
    (first_eval : Eval) : Option (List Nat) → M Input (Flow Vars Unit)
  | none => return .leave ()
  | some swaps => do
    let (deck, hand) ←
      if !swaps.isEmpty then do
        let draw ← env (·.drawSwap)
        lift (Poker.Game.swap_cards draw swaps deck hand)
      else pure (deck, hand)
    let second_eval ← lift (Poker.Game.unwrap (← lift (eval.evaluate hand)))
    println {} (← lift (Poker.Game.handLine hand second_eval))
    match second_eval.class'.cmp first_eval.class' with
    | .gt => println good "You got a better hand!".toList
    | .lt => println bad "You got a worse hand...".toList
    | .eq => pure ()
    let winnings ← lift (Poker.Game.payout wager second_eval.class')
    let s := "Winnings: ".toList ++ natStr winnings
    let (credits, style) ←
      if winnings > 0 then do
        pure (← lift (do Poker.Game.usizeAdd credits (← Poker.Game.usizeAdd wager winnings)), good)
      else pure (credits, bad)
    println style s
    if credits = 0 then
      println bad "Game over!".toList
      return .leave ()
    else
      println {} []
      let deck := deck ++ hand
      let draw ← env (·.drawRound)
      return .go ⟨← lift (Deck.shuffle draw deck), credits, []⟩

/-- What is left of a turn of the game when `get_wager` has returned. -/
def wagered (fuel : Nat) (eval : Evaluator) (deck : List Card) (credits : Nat) (hand : List Card) :
    Option Nat → M Input (Flow Vars Unit)
  | none => return .leave ()
  | some wager => do
    let credits ← lift (usizeSub credits wager)
    let (drained, deck) ← lift (Poker.Game.drainFront 5 deck)
    let hand := hand ++ drained
    let first_eval ← lift (Poker.Game.unwrap (← lift (eval.evaluate hand)))
    clear_terminal
    println {} (← lift (Poker.Game.handLine hand first_eval))
    println {} Poker.Game.numbersLine
    get_swaps fuel >>= swapped eval deck credits hand wager first_eval

theorem turn_eq (fuel : Nat) (eval : Evaluator) (deck : List Card) (credits : Nat) (hand : List Card) :
    turn fuel eval ⟨deck, credits, hand⟩ = get_wager fuel credits >>= wagered fuel eval deck credits hand :=
  rfl

/-- The program does what the state machine does; `ev` is what it did before. -/
def Agrees (ev : List Event) (r : Res Input Unit) : Exec (Poker.Game.State × List Out) → Prop
  | .ok (.wager _ _ _, out) => r = .waiting (ev ++ asked out)
  | .ok (.swaps _ _ _ _ _, out) => r = .waiting (ev ++ asked out)
  | .ok (.quit _ _ _, out) => ∃ w, r = .done () w ∧ w.events = ev ++ asked out
  | .ok (.over _ _ _, out) => ∃ w, r = .done () w ∧ w.events = ev ++ asked out
  | .error p => ∃ e, r = .panic p e

theorem agrees_lift {α : Type} {ev : List Event} {x : Exec α} {f : α → M Input Unit} {w : World Input}
    {g : α → Exec (Poker.Game.State × List Out)} (h : ∀ a, x = .ok a → Agrees ev (f a w) (g a)) :
    Agrees ev ((lift x >>= f) w) (x >>= g) := by
  cases x with
  | error p => exact ⟨_, rfl⟩
  | ok a => exact h a rfl

/-- The output of the steps before goes in front. -/
theorem agrees_out {ev : List Event} {r : Res Input Unit} {out : List Out}
    {m : Exec (Poker.Game.State × List Out)} (h : Agrees (ev ++ asked out) r m) :
    Agrees ev r (m >>= fun p => pure (p.1, out ++ p.2)) := by
  rcases m with p | ⟨_ | _ | _ | _, out'⟩
  · exact h
  all_goals
    simpa only [Agrees, Comb.bind_ok, pure, Except.pure, asked_append, List.append_assoc] using h

/-- The game loop once more after a turn. -/
def again (fuel : Nat) (eval : Evaluator) (n : Nat) : Flow Vars Unit → M Input Unit
  | .go s => loop (turn fuel eval) n s
  | .leave b => pure b

theorem run_cons (eval : Evaluator) (i : Input) (is : List Input) (s : Poker.Game.State) :
    Screen.Game.run eval (i :: is) s = Screen.Game.step eval i s >>= fun p =>
      Screen.Game.run eval is p.1 >>= fun q => pure (q.1, p.2 ++ q.2) := rfl

theorem run_quit (eval : Evaluator) (is : List Input) (c : Nat) (d h : List Card) :
    Screen.Game.run eval is (.quit c d h) = .ok (.quit c d h, []) := by
  induction is with
  | nil => rfl
  | cons i is ih =>
    rw [run_cons]
    simp only [Screen.Game.step, Comb.bind_ok, ih]
    rfl

theorem run_over (eval : Evaluator) (is : List Input) (c : Nat) (d h : List Card) :
    Screen.Game.run eval is (.over c d h) = .ok (.over c d h, []) := by
  induction is with
  | nil => rfl
  | cons i is ih =>
    rw [run_cons]
    simp only [Screen.Game.step, Comb.bind_ok, ih]
    rfl

theorem bind_done {ι α β : Type} {m : M ι α} {f : α → M ι β} {w w' : World ι} {a : α}
    (h : m w = .done a w') : (m >>= f) w = f a w' := by
  rw [bind_apply, M.bind, h]

theorem bind_waiting {ι α β : Type} {m : M ι α} {f : α → M ι β} {w : World ι} {ev : List Event}
    (h : m w = .waiting ev) : (m >>= f) w = .waiting ev := by
  rw [bind_apply, M.bind, h]

theorem bind_panic {ι α β : Type} {m : M ι α} {f : α → M ι β} {w : World ι} {ev : List Event} {p : Panic}
    (h : m w = .panic p ev) : (m >>= f) w = .panic p ev := by
  rw [bind_apply, M.bind, h]

theorem loop_again (fuel : Nat) (eval : Evaluator) (n : Nat) (s : Vars) :
    loop (turn fuel eval) (n + 1) s = turn fuel eval s >>= again fuel eval n := by
  rw [loop_succ]
  congr 1
  funext r
  cases r <;> rfl

/-- The end of a turn of the game. -/
def settled (deck hand : List Card) (winnings credits : Nat) : M Input (Flow Vars Unit) := do
  println (if winnings > 0 then good else bad) ("Winnings: ".toList ++ natStr winnings)
  if credits = 0 then
    println bad "Game over!".toList
    return .leave ()
  else
    println {} []
    let draw ← env (·.drawRound)
    return .go ⟨← lift (Deck.shuffle draw (deck ++ hand)), credits, []⟩

/-- Some outputs. -/
def says (outs : List Out) : M Input Unit := fun w => .done () { w with events := w.events ++ asked outs }

/-- A turn of the game once cards are swapped. -/
def dealt (eval : Evaluator) (credits wager : Nat) (first_eval : Eval) (p : List Card × List Card) :
    M Input (Flow Vars Unit) := do
  let second_eval ← lift (Poker.Game.unwrap (← lift (eval.evaluate p.2)))
  println {} (← lift (Poker.Game.handLine p.2 second_eval))
  says (Screen.Game.compared second_eval.class' first_eval.class')
  let winnings ← lift (Poker.Game.payout wager second_eval.class')
  settled p.1 p.2 winnings (← lift (Poker.Game.collect credits wager winnings))

theorem swapped_eq (eval : Evaluator) (deck : List Card) (credits : Nat) (hand : List Card) (wager : Nat)
    (first_eval : Eval) (swaps : List Nat) (is : List Input) (i : Input) (ev : List Event) :
    swapped eval deck credits hand wager first_eval (some swaps) ⟨is, some i, ev⟩ =
      (lift (Poker.Game.replace i.drawSwap swaps deck hand) >>= dealt eval credits wager first_eval)
        ⟨is, some i, ev⟩ := by
  have key : ∀ p : List Card × List Card, (do
      let second_eval ← lift (Poker.Game.unwrap (← lift (eval.evaluate p.2)))
      println {} (← lift (Poker.Game.handLine p.2 second_eval))
      match second_eval.class'.cmp first_eval.class' with
      | .gt => println good "You got a better hand!".toList
      | .lt => println bad "You got a worse hand...".toList
      | .eq => pure ()
      let winnings ← lift (Poker.Game.payout wager second_eval.class')
      let s := "Winnings: ".toList ++ natStr winnings
      let (credits, style) ←
        if winnings > 0 then do
          pure (← lift (do Poker.Game.usizeAdd credits (← Poker.Game.usizeAdd wager winnings)), good)
        else pure (credits, bad)
      println style s
      if credits = 0 then
        println bad "Game over!".toList
        return .leave ()
      else
        println {} []
        let deck := p.1 ++ p.2
        let draw ← env (·.drawRound)
        return .go ⟨← lift (Deck.shuffle draw deck), credits, []⟩ : M Input (Flow Vars Unit))
        = dealt eval credits wager first_eval p := by
    intro p
    unfold dealt
    congr 1
    funext x
    congr 1
    funext e
    congr 1
    funext t
    congr 1
    funext _
    have pay : (do
        let winnings ← lift (Poker.Game.payout wager e.class')
        let s := "Winnings: ".toList ++ natStr winnings
        let (credits, style) ←
          if winnings > 0 then do
            pure (← lift (do Poker.Game.usizeAdd credits (← Poker.Game.usizeAdd wager winnings)), good)
          else pure (credits, bad)
        println style s
        if credits = 0 then
          println bad "Game over!".toList
          return .leave ()
        else
          println {} []
          let deck := p.1 ++ p.2
          let draw ← env (·.drawRound)
          return .go ⟨← lift (Deck.shuffle draw deck), credits, []⟩ : M Input (Flow Vars Unit))
        = (do
          let winnings ← lift (Poker.Game.payout wager e.class')
          settled p.1 p.2 winnings (← lift (Poker.Game.collect credits wager winnings))) := by
      congr 1
      funext winnings
      unfold Poker.Game.collect settled
      by_cases h : winnings > 0
      · simp only [if_pos h]
        rfl
      · simp only [if_neg h]
        rfl
    rw [← pay]
    unfold Screen.Game.compared
    cases e.class'.cmp first_eval.class' with
    | lt => rfl
    | gt => rfl
    | eq =>
      funext w
      show _ = (do
        let winnings ← lift (Poker.Game.payout wager e.class')
        let s := "Winnings: ".toList ++ natStr winnings
        let (credits, style) ←
          if winnings > 0 then do
            pure (← lift (do Poker.Game.usizeAdd credits (← Poker.Game.usizeAdd wager winnings)), good)
          else pure (credits, bad)
        println style s
        if credits = 0 then
          println bad "Game over!".toList
          return .leave ()
        else
          println {} []
          let deck := p.1 ++ p.2
          let draw ← env (·.drawRound)
          return .go ⟨← lift (Deck.shuffle draw deck), credits, []⟩ : M Input (Flow Vars Unit))
        { w with events := w.events ++ [] }
      rw [List.append_nil]
  rw [← funext key]
  unfold swapped Poker.Game.replace
  cases swaps <;> rfl

theorem says_bind {β : Type} (outs : List Out) (f : Unit → M Input β) (w : World Input) :
    (says outs >>= f) w = f () { w with events := w.events ++ asked outs } := rfl

theorem bind_at {ι α β : Type} {m m' : M ι α} {w : World ι} (h : m w = m' w) (f : α → M ι β) :
    (m >>= f) w = (m' >>= f) w := by
  rw [bind_apply, bind_apply, M.bind, M.bind, h]

theorem asked_winnings (n : Nat) : asked [Screen.Game.winningsLine n]
    = [.out (.line (if n > 0 then good else bad) ("Winnings: ".toList ++ natStr n))] := by
  unfold Screen.Game.winningsLine
  split <;> rfl

theorem asked_cons (t : Str) (l : List Out) : asked (plain t :: l) = .out (.line {} t) :: asked l := rfl

theorem asked_over : asked [.line bad "Game over!".toList]
    = [.out (.line bad "Game over!".toList)] := rfl

theorem play (eval : Evaluator) (fuel : Nat) : ∀ inputs : List Input, inputs.length < fuel →
    (∀ (f n : Nat) (last : Option Input) (ev : List Event) (deck : List Card) (credits : Nat)
      (hand : List Card), inputs.length < f → inputs.length ≤ n →
      Agrees (ev ++ asked [.line good (wagerMessage credits)])
        ((loop (wagerTurn credits (wagerMessage credits)) f () >>= fun r =>
          wagered fuel eval deck credits hand r >>= again fuel eval n) ⟨inputs, last, ev⟩)
        (Screen.Game.run eval inputs (.wager credits deck hand))) ∧
    (∀ (f n : Nat) (last : Option Input) (ev : List Event) (deck : List Card) (credits : Nat)
      (hand : List Card) (wager : Nat) (first_eval : Eval), inputs.length < f → inputs.length ≤ n →
      Agrees (ev ++ asked [.line good swapsMessage])
        ((loop (swapsTurn swapsMessage) f () >>= fun r =>
          swapped eval deck credits hand wager first_eval r >>= again fuel eval n) ⟨inputs, last, ev⟩)
        (Screen.Game.run eval inputs (.swaps credits wager first_eval deck hand))) := by
  intro inputs
  induction inputs with
  | nil =>
    intro hf
    constructor
    · intro f n last ev deck credits hand h1 h2
      obtain ⟨f, rfl⟩ : ∃ k, f = k + 1 := ⟨f - 1, by simp at h1; omega⟩
      rw [loop_succ, bind_assoc', bind_waiting (ev := ev ++ asked [.line good (wagerMessage credits)])]
      · simp only [Screen.Game.run, Agrees]
        simp [asked]
      · rw [wagerTurn, println_bind, readline_nil, said_append ev (asked_wager credits)]
    · intro f n last ev deck credits hand wager first_eval h1 h2
      obtain ⟨f, rfl⟩ : ∃ k, f = k + 1 := ⟨f - 1, by simp at h1; omega⟩
      rw [loop_succ, bind_assoc', bind_waiting (ev := ev ++ asked [.line good swapsMessage])]
      · simp only [Screen.Game.run, Agrees]
        simp [asked]
      · rw [swapsTurn, println_bind, readline_nil, said_append ev asked_swaps]
  | cons i is ih =>
    intro hf
    obtain ⟨ih1, ih2⟩ := ih (by simp at hf; omega)
    simp only [List.length_cons] at hf ⊢
    constructor
    · intro f n last ev deck credits hand h1 h2
      obtain ⟨f, rfl⟩ : ∃ k, f = k + 1 := ⟨f - 1, by omega⟩
      rw [loop_succ, bind_assoc', run_cons, Screen.Game.step]
      have ht := wagerTurn_eq credits i is last ev
      cases ha : Poker.Game.get_wager credits i.line with
      | quit =>
        rw [ha] at ht
        rw [bind_done ht]
        simp only [Comb.bind_ok, run_quit]
        exact ⟨_, rfl, by simp [asked]⟩
      | again t =>
        rw [ha] at ht
        rw [bind_done ht]
        simp only [Comb.bind_ok]
        apply agrees_out
        have := ih1 f n (some i) (ev ++ asked [.line good (wagerMessage credits)] ++ asked [plain t])
          deck credits hand (by omega) (by omega)
        rwa [List.append_assoc _ (asked [plain t]), ← asked_append] at this
      | accept a =>
        rw [ha] at ht
        rw [bind_done ht]
        simp only [pure_bind', wagered, Screen.Game.afterWager, bind_assoc, bind_assoc']
        refine agrees_lift fun c hc => agrees_lift ?_
        rintro ⟨drained, deck'⟩ hd
        refine agrees_lift fun e he => agrees_lift fun e' he' => ?_
        simp only [clear_bind]
        refine agrees_lift fun t ht => ?_
        simp only [println_bind, pure_bind]
        apply agrees_out
        have := ih2 fuel n (some i) (ev ++ asked [.line good (wagerMessage credits)] ++
          [.out .clear] ++ [.out (.line {} t)] ++ [.out (.line {} Poker.Game.numbersLine)])
          deck' c (hand ++ drained) a e' (by omega) (by omega)
        simp only [List.append_assoc] at this
        simp only [List.append_assoc]
        exact this
    · intro f n last ev deck credits hand wager first_eval h1 h2
      obtain ⟨f, rfl⟩ : ∃ k, f = k + 1 := ⟨f - 1, by omega⟩
      obtain ⟨n, rfl⟩ : ∃ k, n = k + 1 := ⟨n - 1, by omega⟩
      rw [loop_succ, bind_assoc', run_cons, Screen.Game.step]
      have ht := swapsTurn_eq i is last ev
      cases ha : Poker.Game.get_swaps i.order i.line with
      | error p =>
        rw [ha] at ht
        rw [bind_panic ht]
        exact ⟨_, rfl⟩
      | ok ans =>
      cases ans with
      | quit =>
        rw [ha] at ht
        rw [bind_done ht]
        simp only [Comb.bind_ok, run_quit]
        exact ⟨_, rfl, by simp [asked]⟩
      | again t =>
        rw [ha] at ht
        rw [bind_done ht]
        simp only [Comb.bind_ok]
        apply agrees_out
        have := ih2 f (n + 1) (some i) (ev ++ asked [.line good swapsMessage] ++ asked [plain t])
          deck credits hand wager first_eval (by omega) (by omega)
        rwa [List.append_assoc _ (asked [plain t]), ← asked_append] at this
      | accept swaps =>
        rw [ha] at ht
        rw [bind_done ht]
        simp only [Comb.bind_ok]
        generalize ev ++ asked [.line good swapsMessage] = ev'
        simp only [pure_bind']
        rw [bind_at (swapped_eq ..)]
        simp only [bind_assoc', dealt, Screen.Game.afterSwaps, bind_assoc]
        refine agrees_lift ?_
        rintro ⟨deck', hand'⟩ hd
        refine agrees_lift fun e he => agrees_lift fun e' he' => agrees_lift fun t ht => ?_
        simp only [println_bind, says_bind]
        refine agrees_lift fun winnings hw => agrees_lift fun credits' hc => ?_
        simp only [settled, println_bind, bind_assoc']
        by_cases h0 : credits' = 0
        · simp only [if_pos h0, pure_bind, run_over]
          refine ⟨_, rfl, ?_⟩
          show ev' ++ [.out (.line {} t)] ++ _ ++ [_] ++ [_] = _
          rw [List.append_nil, asked_append, asked_append, asked_cons, asked_winnings, asked_over]
          simp only [List.append_assoc, List.cons_append, List.nil_append]
        · simp only [if_neg h0, println_bind, bind_assoc', env_bind, bind_assoc]
          refine agrees_lift fun d hd => ?_
          simp only [pure_bind', pure_bind, again, loop_again, turn_eq]
          apply agrees_out
          have := ih1 fuel n (some i) (ev' ++ [.out (.line {} t)] ++
              asked (Screen.Game.compared e'.class' first_eval.class') ++
              [.out (.line (if winnings > 0 then good else bad) ("Winnings: ".toList ++ natStr winnings))] ++
            [.out (.line {} [])]) d credits' [] (by omega) (by omega)
          rw [asked_append, asked_append, asked_cons, asked_winnings, asked_cons]
          simp only [List.append_assoc, List.cons_append, List.nil_append] at this ⊢
          rw [bind_assoc']
          exact this

theorem Agrees.ok {ev : List Event} {r : Res Input Unit} {s : Poker.Game.State} {out : List Out}
    (h : Agrees ev r (.ok (s, out))) :
    (asking s = true → r = .waiting (ev ++ asked out)) ∧
      (asking s = false → ∃ w, r = .done () w ∧ w.events = ev ++ asked out) := by
  cases s with
  | wager => exact ⟨fun _ => h, fun h => by cases h⟩
  | swaps => exact ⟨fun _ => h, fun h => by cases h⟩
  | quit => exact ⟨(fun h => by cases h), fun _ => h⟩
  | over => exact ⟨(fun h => by cases h), fun _ => h⟩

theorem Agrees.error {ev : List Event} {r : Res Input Unit} {p : Panic} (h : Agrees ev r (.error p)) :
    ∃ e, r = .panic p e := h

attribute [irreducible] Agrees

end Game

/-! ## The REPL -/

namespace Repl
open Poker.Repl (Input HELP)

/-- One turn of the REPL. -/
theorem turn_eq (eval : Evaluator) (i : Input) (is : List Input) (last : Option Input) (ev : List Event) :
    turn eval () ⟨i :: is, last, ev⟩ =
      match i.line with
      | none => .done (.leave ()) ⟨is, some i, ev ++ [.prompt promptStyle PROMPT]⟩
      | some line =>
        if i.historyOk then
          if line = "help".toList then
            .done (.go ()) ⟨is, some i, ev ++ [.prompt promptStyle PROMPT] ++ [.remember line] ++
              [.out (.line good HELP)]⟩
          else if line = "quit".toList then
            .done (.leave ()) ⟨is, some i, ev ++ [.prompt promptStyle PROMPT] ++ [.remember line]⟩
          else
            match Screen.Repl.answer eval i.order line with
            | .error p => .panic p (ev ++ [.prompt promptStyle PROMPT] ++ [.remember line])
            | .ok o => .done (.go ()) ⟨is, some i, ev ++ [.prompt promptStyle PROMPT] ++
                [.remember line] ++ [.out o]⟩
        else .panic .unwrapFailed (ev ++ [.prompt promptStyle PROMPT]) := by
  rw [turn, readline_cons]
  generalize ev ++ [.prompt promptStyle PROMPT] = ev'
  cases i.line with
  | none => rfl
  | some line =>
    simp only [add_history_entry, bind_assoc', env_bind]
    cases i.historyOk with
    | false => rfl
    | true =>
      simp only [if_true, bind_assoc', put_bind, pure_bind', Game.unwrap, Poker.Game.unwrap, ok_bind]
      by_cases h1 : line = "help".toList
      · simp only [if_pos h1]
        rfl
      · simp only [if_neg h1]
        by_cases h2 : line = "quit".toList
        · simp only [if_pos h2]
          rfl
        · simp only [if_neg h2]
          unfold Screen.Repl.answer
          cases try_collect (cardsOfString line) with
          | error e => rfl
          | ok cards =>
            simp only
            cases eval.evaluate cards with
            | error p => rfl
            | ok r => cases r <;> rfl

end Repl

/-! ## Counting prompts -/

/-- A program waits once for every line it gets, and once more when there is none. -/
def Counted (m : M ι α) : Prop := ∀ w,
  (∀ a w', m w = .done a w' →
    prompts w'.events + w'.inputs.length = prompts w.events + w.inputs.length) ∧
  (∀ ev, m w = .waiting ev → prompts ev = prompts w.events + w.inputs.length + 1) ∧
  (∀ p ev, m w = .panic p ev → prompts ev ≤ prompts w.events + w.inputs.length)

theorem prompts_append (a b : List Event) : prompts (a ++ b) = prompts a + prompts b := by
  simp [prompts]

theorem Counted.bind {m : M ι α} {f : α → M ι β} (hm : Counted m) (hf : ∀ a, Counted (f a)) :
    Counted (m >>= f) := by
  intro w
  obtain ⟨h1, h2, h3⟩ := hm w
  rw [bind_apply, M.bind]
  cases h : m w with
  | done a w' =>
    obtain ⟨g1, g2, g3⟩ := hf a w'
    have e := h1 a w' h
    rw [e] at g1 g2 g3
    exact ⟨g1, g2, g3⟩
  | panic p ev => exact ⟨nofun, nofun, fun p' ev' he => by cases he; exact h3 _ _ h⟩
  | waiting ev => exact ⟨nofun, fun ev' he => by cases he; exact h2 _ h, nofun⟩
  | spent => exact ⟨nofun, nofun, nofun⟩

theorem Counted.pure (a : α) : Counted (pure a : M ι α) := by
  intro w
  exact ⟨fun a w' he => by cases he; rfl, nofun, nofun⟩

theorem Counted.lift (x : Exec α) : Counted (lift x : M ι α) := by
  intro w
  cases x with
  | ok a => exact ⟨fun a w' he => by cases he; rfl, nofun, nofun⟩
  | error p => exact ⟨nofun, nofun, fun p ev he => by cases he; exact Nat.le_add_right _ _⟩

theorem Counted.put {e : Event} (h : prompts [e] = 0) : Counted (put e : M ι Unit) := by
  intro w
  refine ⟨fun a w' he => ?_, nofun, nofun⟩
  cases he
  simp only [prompts_append, h]
  omega

theorem Counted.println (st : Style) (t : Str) : Counted (println st t : M ι Unit) := .put rfl

theorem Counted.clear : Counted (clear_terminal : M ι Unit) := .put rfl

theorem Counted.env (f : ι → α) : Counted (env f : M ι α) := by
  rintro ⟨is, last, ev⟩
  cases last with
  | none => exact ⟨nofun, nofun, fun p ev he => by cases he; exact Nat.le_add_right _ _⟩
  | some i => exact ⟨fun a w' he => by cases he; rfl, nofun, nofun⟩

theorem Counted.readline (line : ι → Option Str) (p : Str) : Counted (readline line p) := by
  rintro ⟨is, last, ev⟩
  have e : ∀ st, prompts (ev ++ [.prompt st p]) = prompts ev + 1 := fun st => prompts_append _ _
  cases is with
  | nil =>
    refine ⟨nofun, fun ev' he => ?_, nofun⟩
    cases he
    simp only [e]
    rfl
  | cons i is =>
    refine ⟨fun a w' he => ?_, nofun, nofun⟩
    cases he
    simp only [e, List.length_cons]
    omega

theorem Counted.loop {body : σ → M ι (Flow σ β)} (h : ∀ s, Counted (body s)) :
    ∀ n s, Counted (loop body n s)
  | 0, _ => fun _ => ⟨nofun, nofun, nofun⟩
  | n + 1, s => by
    rw [loop_succ]
    refine (h s).bind fun r => ?_
    cases r with
    | go s => exact Counted.loop h n s
    | leave b => exact .pure b

theorem Counted.ite {c : Prop} [Decidable c] {a b : M ι α} (ha : Counted a) (hb : Counted b) :
    Counted (if c then a else b) := by
  split
  · exact ha
  · exact hb

theorem Repl.counted (ok : Bool) (fuel : Nat) : Counted (Repl.main ok fuel) := by
  refine (Counted.lift _).bind fun eval => (Counted.println _ _).bind fun _ => (Counted.lift _).bind fun _ =>
    Counted.loop (fun _ => ?_) _ _
  refine (Counted.readline _ _).bind fun l => ?_
  cases l with
  | none => exact .pure _
  | some line =>
    refine (((Counted.env _).bind fun b => ?_ : Counted (Repl.add_history_entry line))).bind fun r =>
      (Counted.lift _).bind fun _ => .ite ((Counted.println _ _).bind fun _ => .pure _) (.ite (.pure _) ?_)
    · exact .ite ((Counted.put rfl).bind fun _ => .pure _) (.pure _)
    · cases try_collect (cardsOfString line) with
      | error e => exact (Counted.println _ _).bind fun _ => .pure _
      | ok cards =>
        refine (Counted.lift _).bind fun r => ?_
        cases r with
        | ok r => exact (Counted.println _ _).bind fun _ => .pure _
        | error e => exact (Counted.env _).bind fun _ => (Counted.println _ _).bind fun _ => .pure _

theorem Game.counted (ok : Bool) (draw : Nat → Nat) (fuel : Nat) : Counted (Game.main ok draw fuel) := by
  have say : ∀ (t : Str) {β : Type} (f : Flow Unit β),
      Counted (do println {} t; return f : M Poker.Game.Input (Flow Unit β)) := fun t _ f =>
    (Counted.println _ _).bind fun _ => .pure _
  refine Counted.clear.bind fun _ => (Counted.lift _).bind fun eval => (Counted.println _ _).bind fun _ =>
    (Counted.lift _).bind fun _ => (Counted.lift _).bind fun deck => Counted.loop ?_ _ _
  rintro ⟨deck, credits, hand⟩
  rw [Game.turn_eq]
  refine (Counted.loop (fun _ => ?_) _ _ : Counted (Game.get_wager _ _)).bind fun r => ?_
  · refine (Counted.println _ _).bind fun _ => (Counted.readline _ _).bind fun l => ?_
    cases l with
    | none => exact .pure _
    | some input =>
      refine .ite (.pure _) ?_
      cases Poker.Game.parseUsize input with
      | none => exact say _ _
      | some x => exact .ite (say _ _) (.ite (say _ _) (.ite (say _ _) (.pure _)))
  · cases r with
    | none => exact .pure _
    | some wager =>
      refine (Counted.lift _).bind fun c => (Counted.lift _).bind ?_
      rintro ⟨drained, deck⟩
      refine (Counted.lift _).bind fun _ => (Counted.lift _).bind fun e => Counted.clear.bind fun _ =>
        (Counted.lift _).bind fun _ => (Counted.println _ _).bind fun _ => (Counted.println _ _).bind fun _ =>
        (Counted.loop (fun _ => ?_) _ _ : Counted (Game.get_swaps _)).bind fun r => ?_
      · refine (Counted.println _ _).bind fun _ => (Counted.readline _ _).bind fun l => ?_
        cases l with
        | none => exact .pure _
        | some input =>
          refine .ite (.pure _) ?_
          cases Poker.Game.parseAll (split_whitespace input) with
          | none => exact say _ _
          | some swaps =>
            exact .ite (say _ _) (.ite (say _ _) (.ite ((Counted.env _).bind fun _ => say _ _)
              ((Counted.lift _).bind fun _ => .pure _)))
      · cases r with
        | none => exact .pure _
        | some swaps =>
          have fin : ∀ (st : Style) (s : Str) (c : Nat) (d h : List Card), Counted (do
              println st s
              if c = 0 then
                println bad "Game over!".toList
                return .leave ()
              else
                println {} []
                let draw ← Program.env (fun i : Poker.Game.Input => i.drawRound)
                return .go ⟨← Program.lift (Deck.shuffle draw (d ++ h)), c, []⟩ :
                M Poker.Game.Input (Flow Game.Vars Unit)) := fun st s c d h =>
            (Counted.println _ _).bind fun _ => .ite ((Counted.println _ _).bind fun _ => .pure _)
              ((Counted.println _ _).bind fun _ => (Counted.env _).bind fun _ =>
                (Counted.lift _).bind fun _ => .pure _)
          have pay : ∀ (sec : Eval) (d h : List Card), Counted (do
              let winnings ← Program.lift (Poker.Game.payout wager sec.class')
              let s := "Winnings: ".toList ++ natStr winnings
              let (credits, style) ←
                if winnings > 0 then do
                  pure (← Program.lift (do Poker.Game.usizeAdd c (← Poker.Game.usizeAdd wager winnings)), good)
                else pure (c, bad)
              println style s
              if credits = 0 then
                println bad "Game over!".toList
                return .leave ()
              else
                println {} []
                let draw ← Program.env (fun i : Poker.Game.Input => i.drawRound)
                return .go ⟨← Program.lift (Deck.shuffle draw (d ++ h)), credits, []⟩ :
                M Poker.Game.Input (Flow Game.Vars Unit)) := fun sec d h =>
            (Counted.lift _).bind fun _ => .ite ((Counted.lift _).bind fun _ => fin _ _ _ _ _) (fin _ _ _ _ _)
          have rest : ∀ d h : List Card, Counted (do
              let second_eval ← Program.lift (Poker.Game.unwrap (← Program.lift (eval.evaluate h)))
              println {} (← Program.lift (Poker.Game.handLine h second_eval))
              match second_eval.class'.cmp e.class' with
              | .gt => println good "You got a better hand!".toList
              | .lt => println bad "You got a worse hand...".toList
              | .eq => pure ()
              let winnings ← Program.lift (Poker.Game.payout wager second_eval.class')
              let s := "Winnings: ".toList ++ natStr winnings
              let (credits, style) ←
                if winnings > 0 then do
                  pure (← Program.lift (do Poker.Game.usizeAdd c (← Poker.Game.usizeAdd wager winnings)), good)
                else pure (c, bad)
              println style s
              if credits = 0 then
                println bad "Game over!".toList
                return .leave ()
              else
                println {} []
                let draw ← Program.env (fun i : Poker.Game.Input => i.drawRound)
                return .go ⟨← Program.lift (Deck.shuffle draw (d ++ h)), credits, []⟩ :
                M Poker.Game.Input (Flow Game.Vars Unit)) := by
            intro d h
            refine (Counted.lift _).bind fun _ => (Counted.lift _).bind fun sec =>
              (Counted.lift _).bind fun _ => (Counted.println _ _).bind fun _ => ?_
            cases sec.class'.cmp e.class' with
            | gt => exact (Counted.println _ _).bind fun _ => pay _ _ _
            | lt => exact (Counted.println _ _).bind fun _ => pay _ _ _
            | eq => exact (Counted.pure ()).bind fun _ => pay _ _ _
          exact .ite ((Counted.env _).bind fun _ => (Counted.lift _).bind fun p => rest p.1 p.2) (rest _ _)

end Poker.Program
