import Verif.Proof.MultiClient3
/-!
# C55 A service for several clients keeps between its least and its greatest number of threads
-/
set_option maxRecDepth 8000
namespace Verif.MultiClient
open Verif.Spec.MultiClient

/-- One change of the limits. -/
inductive SetEv where
  | max (v : Nat)
  | min (v : Nat)

/-- A history of changes of the limits. -/
def setAll (s : State) (h : List SetEv) : State :=
  h.foldl (fun s e => match e with | .max v => setMax s v | .min v => setMin s v) s

/-- **C55** (limits) The limits that are accepted from a configuration, and the limits after any history of changes of a
service that has acceptable ones, as the default 1 and 3: the least number is positive and below the greatest.  They do
not change while there are threads in the pool. -/
theorem c55_limits (mn mx : Nat) (h : List SetEv) :
    (initialise mn mx = true ↔ 0 < mn ∧ mn < mx) ∧
      (0 < mn ∧ mn < mx → 0 < (setAll (init mn mx) h).min ∧ (setAll (init mn mx) h).min < (setAll (init mn mx) h).max) ∧
      ∀ s : State, s.pool ≠ [] → setAll s h = s := by
  refine ⟨?_, ?_, ?_⟩
  · simp [initialise]; omega
  · have key : ∀ s : State, 0 < s.min ∧ s.min < s.max → 0 < (setAll s h).min ∧ (setAll s h).min < (setAll s h).max := by
      induction h with
      | nil => exact fun s hs => hs
      | cons e h ih =>
        intro s hs
        refine ih _ ?_
        cases e <;> simp only [setMax, setMin] <;> (repeat' split) <;> simp_all <;> omega
    exact fun hs => key _ hs
  · intro s hs
    have h0 : s.pool.length ≠ 0 := fun h => hs (List.length_eq_zero_iff.mp h)
    induction h with
    | nil => rfl
    | cons e h ih =>
      show setAll _ h = s
      cases e
      · simp only [setMax, if_neg h0]; exact ih
      · simp only [setMin, if_neg h0]; exact ih

/-- The greatest number can be set to the least acceptable value, and not below. -/
example : (setAll (init 1 3) [.max 2, .min 2, .max 1, .min 0]).min = 1 ∧
    (setAll (init 1 3) [.max 2, .min 2, .max 1, .min 0]).max = 2 ∧
    (setAll (init 1 3) [.min 2]).min = 2 := by decide

/-- **C55** (the calls of the callback) In every interleaving, whatever the callback answers, and with threads told to
stop at any time except between the tests of lines 63 and 66 of `MultiClientEmbeddedThread.cpp`: the calls of every thread
follow one another as the rules say. -/
theorem c55_stages_partial (mn mx : Nat) (es : List Ev)
    (hs : ∀ p i, p ++ [Ev.stop i] <+: es → ((run (init mn mx) p).ts i).pc ≠ .startTest) (i : Nat) :
    (life i (run (init mn mx) es).trace).isSome = true := by
  have h : Lives (run (init mn mx) es) :=
    run_ind es (lives_init mn mx) fun p e hp hi => lives_step hi e (fun i he => by subst he; exact hs p i hp)
  obtain ⟨l, hl, _⟩ := h.at_ i
  rw [hl]; rfl

/-- **C55** (the greatest number) When the accesses to the pool happen one after the other: there are never more threads
in the pool than the greatest number, no thread is in it twice, the threads in it have not ended, and every thread that
has not ended is in it or is just being added. -/
theorem c55_pool_partial (mn mx : Nat) (hm : mn < mx) (es : List Ev) (ho : oneByOne (init mn mx) es) :
    (run (init mn mx) es).pool.length ≤ (run (init mn mx) es).max ∧
      (run (init mn mx) es).pool.Nodup ∧
      (∀ i, i ∈ (run (init mn mx) es).pool → ((run (init mn mx) es).ts i).pc ≠ .gone) ∧
      (∀ i, ((run (init mn mx) es).ts i).pc ≠ .gone → i ∈ (run (init mn mx) es).pool ∨
        (run (init mn mx) es).own = .startInsert i ∨ ∃ j, ((run (init mn mx) es).ts j).pc = .addInsert i) ∧
      (run (init mn mx) es).crashed = false := by
  have h := inv_run (inv_init hm) es ho
  exact ⟨h.cap, h.nodup, fun i hi => (h.mem i hi).2, h.live, h.ok⟩

/-- **C55** (the least number) In the same situation, once `Start` has returned without error and as long as no thread is
told to stop: there are never fewer threads in the pool than the least number. -/
theorem c55_enough_partial (mn mx : Nat) (hm : mn < mx) (es : List Ev) (ho : oneByOne (init mn mx) es) (hn : noStop es)
    (hs : started (run (init mn mx) es).trace) :
    (run (init mn mx) es).min ≤ (run (init mn mx) es).pool.length :=
  (low_run (inv_init hm) (low_init mn mx) es ho hn).low hs

private theorem min_step (s : State) (e : Ev) : (step s e).min = s.min ∧ (step s e).max = s.max := by
  unfold step
  split
  · exact ⟨rfl, rfl⟩
  cases e with
  | callStart => simp only; split <;> exact ⟨rfl, rfl⟩
  | stop i => exact ⟨rfl, rfl⟩
  | own a =>
    show (ownStep s a).min = _ ∧ (ownStep s a).max = _
    unfold ownStep
    repeat' split
    all_goals exact ⟨rfl, rfl⟩
  | thread i a =>
    show (threadStep s i a).min = _ ∧ (threadStep s i a).max = _
    unfold threadStep
    cases hp : (s.ts i).pc <;> simp only [hp] <;> repeat' split
    all_goals first | exact ⟨rfl, rfl⟩ | exact ⟨trivial, trivial⟩

/-- The limits are those of the start. -/
theorem c55_limits_kept (mn mx : Nat) (es : List Ev) :
    (run (init mn mx) es).min = mn ∧ (run (init mn mx) es).max = mx := by
  refine run_ind (P := fun s => s.min = mn ∧ s.max = mx) es ⟨rfl, rfl⟩ fun p e _ hi => ?_
  rw [(min_step _ e).1, (min_step _ e).2]; exact hi

/-- **C55** (limits) While the pool is empty a limit is taken exactly if the least number stays positive and below the greatest. -/
theorem c55_setters (s : State) (h : s.pool = []) (v : Nat) :
    setMin s v = { s with min := if 0 < v ∧ v < s.max then v else s.min } ∧
      setMax s v = { s with max := if s.min < v then v else s.max } := by
  constructor
  · have h : s.pool.length = 0 := by simp [h]
    unfold setMin
    rw [if_pos h]
    by_cases h1 : v < s.max <;> by_cases h2 : 0 < v <;> simp [h1, h2]
  · have h : s.pool.length = 0 := by simp [h]
    unfold setMax
    rw [if_pos h]
    by_cases h1 : s.min < v <;> simp [h1]

/-- **C55** (start) `Start` of a service that has threads answers an illegal operation and changes nothing. -/
theorem c55_start_refused (s : State) (hc : s.crashed = false) (hi : s.own = .idle) (hp : s.pool ≠ []) (a : Nat) :
    run s [.callStart, .own a] = { s with trace := s.trace ++ [.startRet 32] } := by
  have : s.pool.length > 0 := List.length_pos_iff.mpr hp
  simp [run, step, hc, hi, ownStep, this, State.log, illegalOperation]

private theorem start_loop (k : Nat) : ∀ s : State, s.crashed = false → s.own = .startLoop → s.pool.length + k = s.min →
    (run s (List.replicate (3 * k + 1) (.own 0))).pool = s.pool ++ List.range' s.n k ∧
    (run s (List.replicate (3 * k + 1) (.own 0))).n = s.n + k ∧
    (run s (List.replicate (3 * k + 1) (.own 0))).own = .idle ∧
    (run s (List.replicate (3 * k + 1) (.own 0))).trace = s.trace ++ [.startRet 0] ∧
    (∀ i, i < s.n → (run s (List.replicate (3 * k + 1) (.own 0))).ts i = s.ts i) ∧
    (∀ i, s.n ≤ i → i < s.n + k → ((run s (List.replicate (3 * k + 1) (.own 0))).ts i).pc = .created) := by
  induction k with
  | zero =>
    intro s hc ho hk
    have h1 : ¬ s.pool.length < s.min := by omega
    have : run s (List.replicate (3 * 0 + 1) (.own 0)) = { s.log (.startRet 0) with own := .idle } := by
      simp [run, step, hc, ownStep, ho, h1]
    rw [this]
    exact ⟨by simp [State.log], by simp [State.log], rfl, rfl, fun i _ => rfl, fun i h2 h3 => by omega⟩
  | succ k ih =>
    intro s hc ho hk
    have h1 : s.pool.length < s.min := by omega
    have e : List.replicate (3 * (k + 1) + 1) (Ev.own 0) = .own 0 :: .own 0 :: .own 0 :: List.replicate (3 * k + 1) (.own 0) := by
      rw [show 3 * (k + 1) + 1 = (3 * k + 1) + 1 + 1 + 1 by omega]; rfl
    have e3 : run s [.own 0, .own 0, .own 0] = { s.newThread.insert s.n with own := .startLoop } := by
      simp [run, step, hc, ownStep, ho, h1, State.newThread, State.setT, State.insert]
    have e4 : run s (List.replicate (3 * (k + 1) + 1) (.own 0)) =
        run { s.newThread.insert s.n with own := .startLoop } (List.replicate (3 * k + 1) (.own 0)) := by
      rw [e, ← e3]; rfl
    rw [e4]
    obtain ⟨i1, i2, i3, i4, i5, i6⟩ := ih { s.newThread.insert s.n with own := .startLoop }
      (by simpa [State.newThread, State.setT, State.insert] using hc) rfl
      (by simp [State.newThread, State.setT, State.insert]; omega)
    have hn : ({ s.newThread.insert s.n with own := .startLoop } : State).n = s.n + 1 := rfl
    refine ⟨?_, ?_, i3, ?_, ?_, ?_⟩
    · rw [i1, hn]; simp [State.newThread, State.setT, State.insert, List.range'_succ]
    · rw [i2, hn]; omega
    · rw [i4]; rfl
    · intro i hi
      rw [i5 i (by rw [hn]; omega)]
      have : ¬ i = s.n := by omega
      simp [State.newThread, State.setT, State.insert, this]
    · intro i h2 h3
      by_cases h4 : i = s.n
      · rw [i5 i (by rw [hn]; omega)]
        simp [State.newThread, State.setT, State.insert, h4]
      · exact i6 i (by rw [hn]; omega) (by rw [hn]; omega)

/-- **C55** (start) `Start` of a service without threads, when the threads can be created: it answers no error after it has put the least
number of new threads into the pool; each is about to begin. -/
theorem c55_start (s : State) (hc : s.crashed = false) (hi : s.own = .idle) (hp : s.pool = []) :
    (run s (.callStart :: .own 0 :: List.replicate (3 * s.min + 1) (.own 0))).pool = List.range' s.n s.min ∧
    (run s (.callStart :: .own 0 :: List.replicate (3 * s.min + 1) (.own 0))).trace = s.trace ++ [.startRet 0] ∧
    (run s (.callStart :: .own 0 :: List.replicate (3 * s.min + 1) (.own 0))).own = .idle ∧
    ∀ i, s.n ≤ i → i < s.n + s.min → ((run s (.callStart :: .own 0 :: List.replicate (3 * s.min + 1) (.own 0))).ts i).pc = .created := by
  have e : run s (.callStart :: .own 0 :: List.replicate (3 * s.min + 1) (.own 0)) =
      run { s with own := .startLoop } (List.replicate (3 * s.min + 1) (.own 0)) := by
    have : run s [.callStart, .own 0] = { s with own := .startLoop } := by simp [run, step, hc, hi, ownStep, hp]
    rw [← this]; rfl
  rw [e]
  obtain ⟨h1, _, h3, h4, _, h6⟩ := start_loop s.min { s with own := .startLoop } hc rfl (by simp [hp])
  exact ⟨by simpa [hp] using h1, h4, h3, h6⟩

/-- **C55** (start) When a thread cannot be created, `Start` and `AddThread` answer a fatal error; the threads that exist stay. -/
theorem c55_start_error (s : State) (hc : s.crashed = false) (a : Nat) (ha : a ≠ 0) :
    (s.own = .startBegin → step s (.own a) = { s with own := .idle, trace := s.trace ++ [.startRet 1] }) ∧
    (∀ i, (s.ts i).pc = .addStart → (step s (.thread i a)).trace = s.trace ++ [.addRet i 1] ∧ (step s (.thread i a)).pool = s.pool) := by
  constructor
  · intro h
    simp [step, hc, ownStep, h, ha, State.log, fatalError]
  · intro i h
    simp [step, hc, threadStep, h, ha, State.log, State.setT, fatalError]

/-- **C55** (somebody waits) In the same situation, as long as threads start up without error, waiting for a request only
ever times out and `AddThread` never fails: there is always a thread in the pool whose last call is not to serve a
request. -/
theorem c55_somebody_waits_partial (mn mx : Nat) (h0 : 0 < mn) (hm : mn < mx) (es : List Ev)
    (ho : oneByOne (init mn mx) es) (hn : noStop es) (hs : started (run (init mn mx) es).trace)
    (hsm : smooth (run (init mn mx) es).trace) :
    ∃ i, i ∈ (run (init mn mx) es).pool ∧ lastCall i (run (init mn mx) es).trace ≠ some .serviceRequest := by
  have hl := c55_enough_partial mn mx hm es ho hn hs
  rw [(c55_limits_kept mn mx es).1] at hl
  have h := fr_run (inv_init hm) (low_init mn mx) (fr_init mn mx) es ho hn hsm
  obtain ⟨i, h1, h2⟩ := h.some_ (by intro e; rw [e] at hl; simp at hl; omega)
  exact ⟨i, h1, h.las i (calm_of h2)⟩

/-- **C55** (a stop ends the thread) A thread that has begun to run (it has passed line 54) is told to stop.  Then it
calls the callback at most once more, and has left its loop after nine steps of its own, the time that the callback takes
to return counting as one. -/
theorem c55_stop_ends_partial (mn mx : Nat) (es0 : List Ev) (i : Nat) (es : List Ev)
    (hi : i < (run (init mn mx) es0).n) (hc : ((run (init mn mx) es0).ts i).pc ≠ .created)
    (hok : (run (init mn mx) (es0 ++ .stop i :: es)).crashed = false) :
    callsOf i (run (init mn mx) (es0 ++ .stop i :: es)).trace ≤ callsOf i (run (init mn mx) es0).trace + 1 ∧
      (9 ≤ es.countP (stepOf i) → hasLeft ((run (init mn mx) (es0 ++ .stop i :: es)).ts i).pc = true) := by
  have he : run (init mn mx) (es0 ++ .stop i :: es) = run (step (run (init mn mx) es0) (.stop i)) es := by
    simp [run, List.foldl_append]
  rw [he] at hok ⊢
  generalize run (init mn mx) es0 = s at *
  have hcr : s.crashed = false := by
    cases hx : s.crashed
    · rfl
    · rw [crashed_step _ hx, crashed_run es hx, hx] at hok; exact hok
  have hst : step s (.stop i) = s.setT i { s.ts i with cmd := .stop } := by simp [step, hcr]
  have ht : Told (step s (.stop i)) i := by
    rw [hst]; exact ⟨hi, by rw [setT_same], by rw [setT_same]; exact hc⟩
  obtain ⟨h1, h2⟩ := told_run ht es
  have htr : (step s (.stop i)).trace = s.trace := by rw [hst]; rfl
  rw [htr] at h1
  refine ⟨?_, fun h9 => ?_⟩
  · have := left_le ((step s (.stop i)).ts i).pc; omega
  · rcases h2 with h2 | h2
    · rw [h2] at hok; simp at hok
    · apply rank_zero
      have := rank_le ((step s (.stop i)).ts i).pc
      omega

/-! ## A check that the accesses come one by one -/

private def aloneB (s : State) : Bool :=
  ((List.range s.n).all fun i => (List.range s.n).all fun j => !(inside (s.ts i).pc && inside (s.ts j).pc) || i == j) &&
    (!(ownInside s.own) || (List.range s.n).all fun i => !(inside (s.ts i).pc))

private def allAlone : State → List Ev → Bool
  | s, [] => aloneB s
  | s, e :: es => aloneB s && allAlone (step s e) es

private theorem alone_of {s : State} (hl : Lives s) (h : aloneB s = true) : alone s := by
  have hout : ∀ i, inside (s.ts i).pc = true → i < s.n := by
    intro i hi
    apply Nat.lt_of_not_le; intro hh
    rw [hl.new i hh] at hi; simp [inside] at hi
  simp only [aloneB, Bool.and_eq_true, List.all_eq_true, List.mem_range, Bool.or_eq_true, Bool.not_eq_true'] at h
  refine ⟨fun i j hi hj => ?_, fun ho i => ?_⟩
  · rcases h.1 i (hout i hi) j (hout j hj) with h1 | h1
    · rw [hi, hj] at h1; simp at h1
    · simpa using h1
  · rcases h.2 with h1 | h1
    · rw [ho] at h1; simp at h1
    · cases hi : inside (s.ts i).pc
      · rfl
      · have := h1 i (hout i hi); rw [hi] at this; simp at this

private theorem oneByOne_of {s : State} (hl : Lives s) (es : List Ev) (hn : noStop es) (h : allAlone s es = true) :
    oneByOne s es := by
  induction es generalizing s with
  | nil =>
    intro p hp
    rw [List.prefix_nil] at hp; subst hp
    exact alone_of hl h
  | cons e es ih =>
    simp only [allAlone, Bool.and_eq_true] at h
    intro p hp
    cases p with
    | nil => exact alone_of hl h.1
    | cons e' p =>
      rw [List.cons_prefix_cons] at hp
      obtain ⟨rfl, hp⟩ := hp
      have hl' : Lives (step s e') := lives_step hl e' (fun i he => by subst he; exact absurd (by simp) (hn i))
      exact ih hl' (fun i hi => hn i (by simp [hi])) h.2 p hp

/-! ## Histories -/

private instance (tr : List Obs) : Decidable (started tr) := inferInstanceAs (Decidable (_ ∈ _))

private def th (i n : Nat) : List Ev := List.replicate n (.thread i 0)

/-- `Start` with a least number of one. -/
private def begun : List Ev := .callStart :: List.replicate 5 (.own 0)

/-- A client is served by thread 0, thread 1 waits for the next one. -/
private def serving : List Ev := begun ++ th 0 13 ++ th 1 6

private theorem no_stop_th (i n : Nat) : noStop (th i n) := by intro j; simp [th]

/-- The hypotheses of the theorems are met: two threads, one serves and one waits. -/
example : oneByOne (init 1 2) serving ∧ noStop serving ∧ started (run (init 1 2) serving).trace ∧
    (run (init 1 2) serving).pool = [0, 1] ∧ lastCall 0 (run (init 1 2) serving).trace = some .serviceRequest ∧
    lastCall 1 (run (init 1 2) serving).trace = some .waitRequest := by
  have hn : noStop serving := by intro i; simp [serving, begun, th]
  exact ⟨oneByOne_of (lives_init 1 2) _ hn (by decide), hn, by decide, by decide, by decide, by decide⟩

example : (run (init 1 2) serving).trace =
    [.startRet 0, .called 0 .startup, .returned 0 0, .called 0 .waitRequest, .returned 0 0, .addRet 0 0,
      .called 0 .serviceRequest, .called 1 .startup, .returned 1 0, .called 1 .waitRequest] := by decide

/-- That history is smooth. -/
example : smooth (run (init 1 2) serving).trace := by
  have he : (run (init 1 2) serving).trace =
    [.startRet 0, .called 0 .startup, .returned 0 0, .called 0 .waitRequest, .returned 0 0, .addRet 0 0,
      .called 0 .serviceRequest, .called 1 .startup, .returned 1 0, .called 1 .waitRequest] := by decide
  rw [he]
  have hz : ∀ i a, Obs.returned i a ∈ ([.startRet 0, .called 0 .startup, .returned 0 0, .called 0 .waitRequest, .returned 0 0,
      .addRet 0 0, .called 0 .serviceRequest, .called 1 .startup, .returned 1 0, .called 1 .waitRequest] : List Obs) → a = 0 := by
    intro i a h; simp at h; omega
  refine ⟨fun p i a hp => ?_, fun i e h => by simp at h; exact h.2⟩
  have := hz i a (hp.subset (by simp))
  exact ⟨fun _ => this, fun _ => .inl this⟩

/-! ## What does not hold -/

/-- **C55 is not true of every interleaving**: `AddThread` tests the size of the pool and inserts later.  Two threads that
pass the test together bring the pool above its greatest number. -/
theorem c55_above_max_fails :
    ∃ es, noStop es ∧ (run (init 1 2) es).pool = [0, 1, 2] ∧ (run (init 1 2) es).max = 2 :=
  ⟨begun ++ th 0 11 ++ th 1 10 ++ th 0 1 ++ th 1 2, by intro i; simp [begun, th], by decide, by decide⟩

/-- Both threads of the pool have served, and found that there are more threads than needed. -/
private def bothLeave : List Ev :=
  begun ++ th 0 13 ++ th 1 11 ++ [.thread 0 1] ++ th 0 5 ++ [.thread 1 1] ++ th 1 5

/-- **C55**: `MoreThanEnoughThreads` and `RemoveThread` are not one critical section.  Two threads that end together both
find one thread too many: both leave, and nobody is left to serve a client although the service runs and the least number
is one. -/
theorem c55_below_min_fails :
    ∃ es, noStop es ∧ started (run (init 1 2) es).trace ∧ (run (init 1 2) es).pool = [] ∧
      (run (init 1 2) es).n = 2 ∧ ((run (init 1 2) es).ts 0).pc = .gone ∧ ((run (init 1 2) es).ts 1).pc = .gone :=
  ⟨bothLeave ++ th 0 4 ++ th 1 4, by intro i; simp [bothLeave, begun, th], by decide, by decide, by decide, by decide,
    by decide⟩

/-- **C55**: `RemoveThread` walks through the pool by index.  If another thread removes itself meanwhile, the reference that
is used may be invalid. -/
theorem c55_remove_crashes_fails : ∃ es, noStop es ∧ (run (init 1 2) es).crashed = true :=
  ⟨bothLeave ++ th 1 4 ++ th 0 4 ++ th 1 1, by intro i; simp [bothLeave, begun, th], by decide⟩

/-- **C55**: or the thread does not find itself: it ends, and stays in the pool for ever. -/
theorem c55_remove_misses_fails :
    ∃ es, noStop es ∧ (run (init 1 2) es).pool = [1] ∧ ((run (init 1 2) es).ts 1).pc = .gone ∧
      ((run (init 1 2) es).ts 0).pc = .gone :=
  ⟨bothLeave ++ th 1 3 ++ th 0 4 ++ th 1 1, by intro i; simp [bothLeave, begun, th], by decide, by decide, by decide⟩

/-- **C55** (somebody waits) is not true once the pool has been full, even one by one: a thread that ends while there are
more threads than the least number leaves, although all the others are serving.  Here one of two possible clients is
served, and nobody waits for another one. -/
theorem c55_nobody_waits_fails :
    ∃ es, oneByOne (init 1 2) es ∧ noStop es ∧ started (run (init 1 2) es).trace ∧
      (run (init 1 2) es).pool = [1] ∧ (run (init 1 2) es).max = 2 ∧
      lastCall 1 (run (init 1 2) es).trace = some .serviceRequest ∧ ((run (init 1 2) es).ts 1).pc = .serviceIn := by
  have hn : noStop (begun ++ th 0 13 ++ th 1 11 ++ [.thread 0 1] ++ th 0 9) := by intro i; simp [begun, th]
  exact ⟨_, oneByOne_of (lives_init 1 2) _ hn (by decide), hn, by decide, by decide, by decide, by decide, by decide⟩

/-- **C55**: a thread sets its command to run without looking at it (line 54).  A stop given before is lost. -/
theorem c55_stop_lost_fails :
    ∃ es, (run (init 1 2) (begun ++ [.stop 0] ++ es)).trace =
      [.startRet 0, .called 0 .startup, .returned 0 0, .called 0 .waitRequest, .returned 0 0, .addRet 0 0,
        .called 0 .serviceRequest] :=
  ⟨th 0 13, by decide⟩

/-- **C55**: a stop between the tests of lines 63 and 66: the end phase is called although there was no startup. -/
theorem c55_end_without_startup_fails :
    ∃ es, (run (init 1 2) es).trace = [.startRet 0, .called 0 .badTermination] ∧
      life 0 (run (init 1 2) es).trace = none :=
  ⟨begun ++ th 0 2 ++ [.stop 0] ++ th 0 3, by decide, by decide⟩

end Verif.MultiClient
