import Verif.Props.Static
import Verif.Props.Deck
import Verif.Model.Threads

/-! # Threads sharing an evaluator: C24 -/

namespace Poker
open Rules Tab

/-! ## One thread alone -/

theorem step_finished (E : Evaluation) (n : Nat) (r : Exec (Except EvalError Eval)) :
    (Job.step E)^[n] (.finished r) = .finished r := by
  induction n with
  | zero => rfl
  | succ n ih => rw [Function.iterate_succ_apply]; exact ih

theorem five_fuel (ev : Evaluator) (cards : List Card) :
    five ev.toEvaluation cards ≠ .error .outOfFuel := by
  unfold five
  have hs : ∀ x : BitVec 32, sar x 16 = .ok (x.sshiftRight 16) := fun x => by
    rw [sar, if_pos (by decide)]
  have hi : ∀ (m : FxHashMap Meta) k, m.index k ≠ .error .outOfFuel := by
    intro m k
    unfold FxHashMap.index
    split <;> simp
  simp only [hs, Comb.bind_ok]
  split
  · obtain ⟨p, hp⟩ := prime_product_ok ((((cards.map Card.unique_integer).foldl
      (fun acc x => acc ||| x) 0#32).sshiftRight 16).truncate 16)
    rw [hp, Comb.bind_ok]
    have := hi ev.table.flush_lookup p
    show (ev.table.flush_lookup.index p >>= _) ≠ _
    cases h : ev.table.flush_lookup.index p with
    | error q => rw [h] at this; simpa using this
    | ok m => simp
  · show (ev.table.unsuited_lookup.index _ >>= _) ≠ _
    have := hi ev.table.unsuited_lookup (prime_product_from_hand cards)
    cases h : ev.table.unsuited_lookup.index (prime_product_from_hand cards) with
    | error q => rw [h] at this; simpa using this
    | ok m => simp

theorem body_fuel (ev : Evaluator) (m : Eval) (cards : List Card) :
    sixPlusBody ev.toEvaluation m cards ≠ .error .outOfFuel := by
  unfold sixPlusBody
  have := five_fuel ev cards
  cases h : five ev.toEvaluation cards with
  | error q => rw [h] at this; simpa using this
  | ok m => simp

theorem foldlM_fuel (ev : Evaluator) (l : List (List Card)) (m : Eval) :
    l.foldlM (sixPlusBody ev.toEvaluation) m ≠ .error .outOfFuel := by
  induction l generalizing m with
  | nil => simp
  | cons c l ih =>
    rw [List.foldlM_cons]
    have := body_fuel ev m c
    cases h : sixPlusBody ev.toEvaluation m c with
    | error q => rw [h] at this; simpa using this
    | ok m => exact ih m

theorem loop_steps (E : Evaluation) (fuel : Nat) (it : Combinations Card 5) (m : Eval)
    (r : Exec Eval) (h : it.forEach (sixPlusBody E) fuel m = r) (hr : r ≠ .error .outOfFuel) :
    ∃ n, (Job.step E)^[n] (.looping it m) = .finished (do return .ok (← r)) := by
  induction fuel generalizing it m with
  | zero => exact absurd h.symm hr
  | succ fuel ih =>
    unfold Combinations.forEach at h
    cases hn : it.next with
    | error p =>
      rw [hn] at h
      refine ⟨1, ?_⟩
      rw [Function.iterate_one, Job.step, hn, ← h]
      rfl
    | ok x =>
      obtain ⟨item, it'⟩ := x
      rw [hn, Comb.bind_ok] at h
      cases item with
      | none =>
        refine ⟨1, ?_⟩
        rw [Function.iterate_one, Job.step, hn, ← h]
        rfl
      | some c =>
        simp only at h
        cases hb : sixPlusBody E m c with
        | error p =>
          rw [hb] at h
          refine ⟨1, ?_⟩
          rw [Function.iterate_one, Job.step, hn]
          simp only [hb]
          rw [← h]
          rfl
        | ok m' =>
          rw [hb, Comb.bind_ok] at h
          obtain ⟨n, hn'⟩ := ih it' m' h
          refine ⟨n + 1, ?_⟩
          rw [Function.iterate_succ_apply, Job.step, hn]
          simp only [hb]
          exact hn'

/-- What `evaluate` does after the uniqueness check. -/
def afterCheck (E : Evaluation) (cards : List Card) (unique : Bool) :
    Exec (Except EvalError Eval) := do
  if unique then
    if cards.length < 5 then return .error (.InvalidHandSize cards.length)
    else if cards.length = 5 then do
      let c0 ← idx cards 0
      let c1 ← idx cards 1
      let c2 ← idx cards 2
      let c3 ← idx cards 3
      let c4 ← idx cards 4
      return .ok (← five E [c0, c1, c2, c3, c4])
    else return .ok (← six_plus E cards)
  else
    return .error (.CardsNotUnique cards)

theorem dispatch_steps (ev : Evaluator) (cards : List Card) :
    ∃ n, (Job.step ev.toEvaluation)^[n] (Job.dispatch ev.toEvaluation cards)
      = .finished (afterCheck ev.toEvaluation cards true) := by
  unfold Job.dispatch afterCheck
  rw [if_pos rfl]
  by_cases h5 : cards.length < 5
  · rw [if_pos h5, if_pos h5]
    exact ⟨0, rfl⟩
  · rw [if_neg h5, if_neg h5]
    by_cases h5' : cards.length = 5
    · rw [if_pos h5', if_pos h5']
      exact ⟨0, rfl⟩
    · rw [if_neg h5', if_neg h5']
      have hlt : 5 < cards.length := by omega
      have ha : debugAssert (cards.length > 5) = .ok () := by
        rw [debugAssert, if_pos (decide_eq_true hlt)]
      rw [ha]
      simp only
      have hr : six_plus ev.toEvaluation cards ≠ .error .outOfFuel := by
        rw [six_plus_loop _ hlt]
        exact foldlM_fuel ev _ _
      refine loop_steps _ (2 ^ cards.length + 1) _ _ _ ?_ hr
      rw [six_plus, ha, Comb.bind_ok]
      rfl

theorem check_steps (ev : Evaluator) (cards rest : List Card) (flags : BitVec 64) :
    ∃ n, (Job.step ev.toEvaluation)^[n] (.checking cards rest flags)
      = .finished (allUniqueLoop flags rest >>= afterCheck ev.toEvaluation cards) := by
  induction rest generalizing flags with
  | nil =>
    obtain ⟨n, hn⟩ := dispatch_steps ev cards
    refine ⟨n + 1, ?_⟩
    rw [Function.iterate_succ_apply]
    exact hn
  | cons c rest ih =>
    cases hi : card_to_index c with
    | error p =>
      refine ⟨1, ?_⟩
      rw [Function.iterate_one, Job.step, Job.checkCard, allUniqueLoop, hi]
      rfl
    | ok i =>
      cases hs : shl (1 : BitVec 64) i.toNat with
      | error p =>
        refine ⟨1, ?_⟩
        rw [Function.iterate_one, Job.step, Job.checkCard, allUniqueLoop, hi, Comb.bind_ok,
          Comb.bind_ok, hs]
        rfl
      | ok fl =>
        by_cases hf : flags &&& fl ≠ 0
        · refine ⟨1, ?_⟩
          rw [Function.iterate_one, Job.step, Job.checkCard, allUniqueLoop, hi, Comb.bind_ok,
            Comb.bind_ok, hs, Comb.bind_ok, Comb.bind_ok, if_pos hf, if_pos hf]
          rfl
        · obtain ⟨n, hn⟩ := ih (flags ||| fl)
          refine ⟨n + 1, ?_⟩
          rw [Function.iterate_succ_apply, Job.step, Job.checkCard, allUniqueLoop, hi,
            Comb.bind_ok, Comb.bind_ok, hs, Comb.bind_ok, Comb.bind_ok, if_neg hf, if_neg hf]
          exact hn

/-- Alone, a thread finishes with what `evaluate` returns. -/
theorem alone (ev : Evaluator) (cards : List Card) :
    ∃ n, (Job.step ev.toEvaluation)^[n] (.ready cards) = .finished (ev.evaluate cards) := by
  obtain ⟨n, hn⟩ := check_steps ev cards cards 0
  refine ⟨n + 1, ?_⟩
  rw [Function.iterate_succ_apply]
  exact hn

/-! ## Many threads -/

theorem run_shared (sys : Threads) (schedule : List Nat) :
    (sys.run schedule).shared = sys.shared := by
  induction schedule generalizing sys with
  | nil => rfl
  | cons i schedule ih => exact ih (sys.step i)

/-- C24: under every schedule a thread is where it would be after as many steps alone. -/
theorem c24_isolated (sys : Threads) (schedule : List Nat) (i : Nat) :
    (sys.run schedule).jobs[i]? =
      (sys.jobs[i]?).map (Job.step sys.shared.toEvaluation)^[schedule.count i] := by
  induction schedule generalizing sys with
  | nil => simp [Threads.run]
  | cons j schedule ih =>
    have h := ih (sys.step j)
    have e : sys.run (j :: schedule) = (sys.step j).run schedule := rfl
    rw [e, h, List.count_cons]
    have hs : (sys.step j).shared = sys.shared := rfl
    rw [hs]
    simp only [Threads.step, List.getElem?_modify, beq_iff_eq]
    by_cases hij : j = i
    · subst hij
      simp only [if_true]
      rw [Function.iterate_succ]
      cases sys.jobs[j]? <;> rfl
    · simp only [hij, if_false, Nat.add_zero]
      cases sys.jobs[i]? <;> rfl

example : ((Threads.spawn Evaluator.default [deal fullHouseHand, deal wheelHand]).run [0, 1, 0]).jobs[1]?
    = ((Threads.spawn Evaluator.default [deal fullHouseHand, deal wheelHand]).jobs[1]?).map
      (Job.step Evaluator.default.toEvaluation)^[1] := c24_isolated _ _ _

theorem spawn_job {ev : Evaluator} {hands : List (List Card)} {i : Nat} {cards : List Card}
    (hi : hands[i]? = some cards) : (Threads.spawn ev hands).jobs[i]? = some (.ready cards) := by
  simp [Threads.spawn, hi]

/-- C24: whatever the schedule, a thread that has finished has the outcome its call has alone. -/
theorem c24_result (ev : Evaluator) (hands : List (List Card)) (schedule : List Nat) (i : Nat)
    (cards : List Card) (r : Exec (Except EvalError Eval)) (hi : hands[i]? = some cards)
    (hf : ((Threads.spawn ev hands).run schedule).jobs[i]? = some (.finished r)) :
    r = ev.evaluate cards := by
  rw [c24_isolated, spawn_job hi, Option.map_some, Option.some.injEq] at hf
  obtain ⟨n, hn⟩ := alone ev cards
  have hf : (Job.step ev.toEvaluation)^[schedule.count i] (.ready cards) = .finished r := hf
  have h1 : (Job.step ev.toEvaluation)^[n + schedule.count i] (.ready cards) = .finished r := by
    rw [Function.iterate_add_apply, hf, step_finished]
  have h2 : (Job.step ev.toEvaluation)^[n + schedule.count i] (.ready cards)
      = .finished (ev.evaluate cards) := by
    rw [Nat.add_comm, Function.iterate_add_apply, hn, step_finished]
  rw [h1] at h2
  exact Job.finished.inj h2

/-- C24: a thread finishes once it has been scheduled often enough, however the others are scheduled;
how often depends on its own call only. -/
theorem c24_finishes (ev : Evaluator) (cards : List Card) :
    ∃ n, ∀ (hands : List (List Card)) (schedule : List Nat) (i : Nat), hands[i]? = some cards →
      n ≤ schedule.count i →
      ((Threads.spawn ev hands).run schedule).jobs[i]? = some (.finished (ev.evaluate cards)) := by
  obtain ⟨n, hn⟩ := alone ev cards
  refine ⟨n, ?_⟩
  intro hands schedule i hi hle
  rw [c24_isolated, spawn_job hi, Option.map_some, Option.some.injEq]
  show (Job.step ev.toEvaluation)^[schedule.count i] (.ready cards) = _
  obtain ⟨k, hk⟩ := Nat.exists_eq_add_of_le hle
  rw [hk, Nat.add_comm, Function.iterate_add_apply, hn, step_finished]

example : ∃ n, ((Threads.spawn theEvaluator [deal fullHouseHand, deal wheelHand]).run
    (List.replicate n 1)).jobs[1]? = some (.finished (theEvaluator.evaluate (deal wheelHand))) :=
  have ⟨n, h⟩ := c24_finishes theEvaluator (deal wheelHand)
  ⟨n, h _ _ 1 rfl (by simp)⟩

/-! ## Folding the results -/

/-- The results of evaluations, and the worst result. -/
def Legal (e : Eval) : Prop := ∃ w ∈ Kinds.ladder, e = evalOf w

theorem Legal.max {a b : Eval} (ha : Legal a) (hb : Legal b) : Legal (a.max b) := by
  unfold Eval.max
  split
  · exact ha
  · exact hb

theorem Legal.eq_of_rank {a b : Eval} (ha : Legal a) (hb : Legal b) (h : a.rankInt = b.rankInt) :
    a = b := by
  obtain ⟨w, hw, rfl⟩ := ha
  obtain ⟨v, hv, rfl⟩ := hb
  rw [rankInt_evalOf hw, rankInt_evalOf hv] at h
  have : w = v := Kinds.rankNo_inj hw hv (by omega)
  rw [this]

theorem max_rank (a b : Eval) : (a.max b).rankInt = min a.rankInt b.rankInt := by
  unfold Eval.max
  rw [Eval.cmp_eq]
  split
  · rename_i h
    rw [Int.compare_eq_gt] at h
    omega
  · rename_i h
    rw [Int.compare_eq_gt] at h
    omega

theorem foldl_max_legal (l : List Eval) (a : Eval) (ha : Legal a) (hl : ∀ e ∈ l, Legal e) :
    Legal (l.foldl Eval.max a) := by
  induction l generalizing a with
  | nil => exact ha
  | cons e l ih => exact ih _ (ha.max (hl e (by simp))) (fun x hx => hl x (by simp [hx]))

theorem foldl_max_perm {l l' : List Eval} (hp : l.Perm l') (a : Eval) (ha : Legal a)
    (hl : ∀ e ∈ l, Legal e) : l.foldl Eval.max a = l'.foldl Eval.max a := by
  have hrank : ∀ (l : List Eval) (a : Eval), (l.foldl Eval.max a).rankInt
      = (l.map Eval.rankInt).foldl min a.rankInt := by
    intro l
    induction l with
    | nil => intro a; rfl
    | cons e l ih => intro a; rw [List.foldl_cons, ih, max_rank]; rfl
  refine Legal.eq_of_rank (foldl_max_legal _ _ ha hl)
    (foldl_max_legal _ _ ha (fun e he => hl e (hp.mem_iff.2 he))) ?_
  rw [hrank, hrank]
  exact (hp.map _).foldl_eq' (by intro a _ b _ c; omega) _

theorem legal_worst : Legal Eval.WORST := ⟨_, worst_mem, worst_eval⟩

theorem legal_evaluate {h : List PCard} {r : Except EvalError Eval} (hr : evaluateHand h = .ok r) :
    Legal (unwrapOrWorst r) := by
  cases r with
  | error e => exact legal_worst
  | ok e =>
    obtain ⟨_, _, w, hw, rfl⟩ := ok_iff.1 hr
    exact ⟨w, hw.mem_ladder, rfl⟩

theorem joinAll_eq (acc : Eval) (rs : List (Except EvalError Eval)) :
    joinAll acc (rs.map (fun r => .finished (.ok r)))
      = .ok ((rs.map unwrapOrWorst).foldl Eval.max acc) := by
  induction rs generalizing acc with
  | nil => rfl
  | cons r rs ih => exact ih _

/-- All threads have finished. -/
def AllDone (sys : Threads) : Prop := ∀ j ∈ sys.jobs, ∃ r, j = .finished r

theorem run_length (sys : Threads) (schedule : List Nat) :
    (sys.run schedule).jobs.length = sys.jobs.length := by
  induction schedule generalizing sys with
  | nil => rfl
  | cons i schedule ih =>
    have := ih (sys.step i)
    have e : sys.run (i :: schedule) = (sys.step i).run schedule := rfl
    rw [e, this, Threads.step, List.length_modify]

theorem done_jobs (ev : Evaluator) (hands : List (List Card)) (schedule : List Nat)
    (hd : AllDone ((Threads.spawn ev hands).run schedule)) :
    ((Threads.spawn ev hands).run schedule).jobs
      = hands.map (fun cards => .finished (ev.evaluate cards)) := by
  refine List.ext_getElem? ?_
  intro i
  rw [List.getElem?_map]
  cases hi : hands[i]? with
  | none =>
    rw [List.getElem?_eq_none_iff] at hi
    rw [Option.map_none, List.getElem?_eq_none_iff, run_length]
    simpa [Threads.spawn] using hi
  | some cards =>
    have hlt : i < ((Threads.spawn ev hands).run schedule).jobs.length := by
      rw [run_length]
      have := (List.getElem?_eq_some_iff.1 hi).1
      simpa [Threads.spawn] using this
    obtain ⟨r, hr⟩ := hd _ (List.getElem_mem hlt)
    have hf : ((Threads.spawn ev hands).run schedule).jobs[i]? = some (.finished r) := by
      rw [List.getElem?_eq_getElem hlt, hr]
    rw [hf, c24_result ev hands schedule i cards r hi hf]
    rfl

/-- C24: the documented program.  For any number of hands, under every schedule that lets all
threads finish, and for every order in which they are joined, the fold gives one and the same result:
that of the best hand (`Eval::WORST` standing for refused hands). -/
theorem c24_winner (ev : Evaluator) (hev : Evaluator.new = .ok ev) (hands : List (List PCard))
    (schedule : List Nat) (order : List Job)
    (hd : AllDone ((Threads.spawn ev (hands.map deal)).run schedule))
    (ho : order.Perm ((Threads.spawn ev (hands.map deal)).run schedule).jobs) :
    ∃ rs : List (Except EvalError Eval), hands.map evaluateHand = rs.map .ok ∧
      joinAll Eval.WORST order = .ok ((rs.map unwrapOrWorst).foldl Eval.max Eval.WORST) := by
  rw [done_jobs ev _ _ hd, List.map_map] at ho
  have heval : ∀ h : List PCard, ev.evaluate (deal h) = evaluateHand h := by
    intro h
    rw [evaluateHand, hev, Comb.bind_ok]
  have hex : ∃ rs : List (Except EvalError Eval), hands.map evaluateHand = rs.map .ok := by
    clear ho hd
    induction hands with
    | nil => exact ⟨[], rfl⟩
    | cons h hands ih =>
      obtain ⟨rs, hrs⟩ := ih
      obtain ⟨r, hr⟩ := c04_no_panic h
      exact ⟨r :: rs, by rw [List.map_cons, List.map_cons, hr, hrs]⟩
  obtain ⟨rs, hrs⟩ := hex
  refine ⟨rs, hrs, ?_⟩
  have hjobs : hands.map ((fun cards => Job.finished (ev.evaluate cards)) ∘ deal)
      = rs.map (fun r => .finished (.ok r)) := by
    have : hands.map ((fun cards => Job.finished (ev.evaluate cards)) ∘ deal)
        = (hands.map evaluateHand).map Job.finished := by
      rw [List.map_map]
      refine List.map_congr_left ?_
      intro h _
      simp only [Function.comp, heval]
    rw [this, hrs, List.map_map]
    rfl
  rw [hjobs] at ho
  obtain ⟨rs', hp, rfl⟩ : ∃ rs' : List (Except EvalError Eval), rs'.Perm rs ∧
      order = rs'.map (fun r => .finished (.ok r)) := by
    let g : Job → Except EvalError Eval := fun j =>
      match j with
      | .finished (.ok r) => r
      | _ => .ok Eval.WORST
    refine ⟨order.map g, ?_, ?_⟩
    · have := ho.map g
      rwa [List.map_map, show g ∘ (fun r => Job.finished (.ok r)) = id from rfl, List.map_id]
        at this
    · rw [List.map_map]
      refine (List.map_id _).symm.trans (List.map_congr_left ?_)
      intro j hj
      obtain ⟨r, _, rfl⟩ := List.mem_map.1 (ho.mem_iff.1 hj)
      rfl
  rw [joinAll_eq, Except.ok.injEq]
  refine foldl_max_perm (hp.map _) _ legal_worst ?_
  intro e he
  obtain ⟨r, hr, rfl⟩ := List.mem_map.1 he
  have hr' := hp.mem_iff.1 hr
  have : (Except.ok r : Exec (Except EvalError Eval)) ∈ hands.map evaluateHand := by
    rw [hrs]
    exact List.mem_map.2 ⟨r, hr', rfl⟩
  obtain ⟨h, _, hh⟩ := List.mem_map.1 this
  exact legal_evaluate hh

/-! ## Non-vacuity -/

theorem exists_schedule (ev : Evaluator) (hands : List (List Card)) :
    ∃ schedule, AllDone ((Threads.spawn ev hands).run schedule) := by
  have key : ∀ k ≤ hands.length, ∃ schedule : List Nat, ∀ i < k, ∀ cards, hands[i]? = some cards →
      ∀ more, ((Threads.spawn ev hands).run (schedule ++ more)).jobs[i]?
        = some (.finished (ev.evaluate cards)) := by
    intro k
    induction k with
    | zero => intro _; exact ⟨[], by simp⟩
    | succ k ih =>
      intro hk
      obtain ⟨s, hs⟩ := ih (by omega)
      obtain ⟨n, hn⟩ := c24_finishes ev (hands[k]'(by omega))
      refine ⟨s ++ List.replicate n k, ?_⟩
      intro i hi cards hc more
      by_cases hik : i = k
      · subst hik
        rw [List.getElem?_eq_getElem (by omega), Option.some.injEq] at hc
        subst hc
        refine hn hands _ i (List.getElem?_eq_getElem _) ?_
        simp only [List.count_append, List.count_replicate_self]
        omega
      · rw [List.append_assoc]
        exact hs i (by omega) cards hc _
  obtain ⟨s, hs⟩ := key hands.length le_rfl
  refine ⟨s, ?_⟩
  intro j hj
  obtain ⟨i, hi, rfl⟩ := List.mem_iff_getElem.1 hj
  have hlt : i < hands.length := by
    rw [run_length] at hi
    simpa [Threads.spawn] using hi
  have := hs i hlt _ (List.getElem?_eq_getElem hlt) []
  rw [List.append_nil, List.getElem?_eq_getElem hi, Option.some.injEq] at this
  exact ⟨_, this⟩

/-- For every set of hands some schedule lets all threads finish, so `c24_result` and `c24_winner`
speak about real executions: here with a full house, a wheel and seven cards. -/
example : ∃ ev, Evaluator.new = .ok ev ∧ ∃ schedule,
    AllDone ((Threads.spawn ev ([fullHouseHand, wheelHand, sevenCards].map deal)).run schedule) := by
  obtain ⟨ev, hev⟩ := c36_new_ok
  exact ⟨ev, hev, exists_schedule ev _⟩

example : ∃ schedule rs, [fullHouseHand, wheelHand, sevenCards].map evaluateHand = List.map .ok rs ∧
    joinAll Eval.WORST ((Threads.spawn theEvaluator ([fullHouseHand, wheelHand, sevenCards].map deal)).run
      schedule).jobs.reverse = .ok ((rs.map unwrapOrWorst).foldl Eval.max Eval.WORST) :=
  have ⟨schedule, hd⟩ := exists_schedule theEvaluator ([fullHouseHand, wheelHand, sevenCards].map deal)
  have ⟨rs, h⟩ := c24_winner _ evaluator_new _ schedule _ hd (List.reverse_perm _)
  ⟨schedule, rs, h⟩

/-- The steps of two threads do interleave: after this schedule both are in the middle of their
uniqueness checks, having looked at one and at two cards. -/
example : ((Threads.spawn Evaluator.default [deal fullHouseHand, deal wheelHand]).run
    [0, 1, 1, 0, 1]).jobs.map (fun j => match j with
      | .checking _ rest _ => rest.length
      | _ => 0) = [4, 3] := by
  decide +kernel

end Poker
