import Verif.Proof.EmbeddedThread4
/-!
# C54 A service thread is started and stopped as asked
-/
set_option maxRecDepth 8000
namespace Verif.EmbeddedThread
open Verif.Spec.EmbeddedThread

private theorem init_lim (c : Nat) : ∀ t, (init c).timeoutHRT = some t → t < 2147483648 := by simp [init]

/-- **C54** (the calls of the callback) In every history of calls of `Start`, `Stop`, `GetStatus` and `SetTimeout`,
however they interleave with the threads, whatever the callback answers, as long as no thread is killed: the calls follow
one another as the rules say.  Startup once, main as long as the answers report no error, the end stage that the last
answer asks for; never two calls at the same time, never two threads. -/
theorem c54_stages (c : Nat) (es : List Ev) (hk : noKill (run (init c) es).trace) :
    (life (run (init c) es).trace).isSome = true := by
  obtain ⟨l, hl, _⟩ := (run_inv (inv_init c) es hk).life
  rw [hl]; rfl

/-- **C54** (off is off) Once `Stop` has answered without error, or `GetStatus` has said that the service is off, the
callback is not called until the next `Start`. -/
theorem c54_off_is_off (c : Nat) (es : List Ev) (hk : noKill (run (init c) es).trace) :
    (quiet (run (init c) es).trace).isSome = true := by
  obtain ⟨b, hb, _⟩ := (run_inv (inv_init c) es hk).quiet
  rw [hb]; rfl

private theorem told_of {c : Nat} {es0 : List Ev} (hk0 : noKill (run (init c) es0).trace) (a : Nat)
    (hc : (run (init c) es0).ctl = .stopCmd) (hw : ∀ i, ((run (init c) es0).ws i).pc ≠ .willSet) :
    Told (step (run (init c) es0) (.ctl a)) ∧
      Waiting (run (init c) es0).clock (run (init c) es0).timeoutHRT (step (run (init c) es0) (.ctl a)) := by
  have hi := run_inv (inv_init c) es0 hk0
  have hl := run_lim (init_lim c) es0
  generalize run (init c) es0 = s at *
  have he : step s (.ctl a) = { s with commands := .stop }.goto .stopTime := by
    unfold step; rw [if_neg (by rw [hi.ok]; simp)]; simp only [ctlStep, hc]
  have hi' : Inv (step s (.ctl a)) := step_inv hi _ (by rw [he]; exact hk0)
  rw [he] at hi' ⊢
  exact ⟨⟨hi', .inl rfl, hw, rfl⟩, ⟨hi', rfl, hw, rfl, hl, Nat.le_refl _, trivial⟩⟩

/-- **C54** (a stop ends the thread) `Stop` is about to give the command to stop, and no thread is between the test of
line 58 and the command of line 61 of `EmbeddedThread.cpp`.  Then, until the next `Start`, the callback is called at most
twice more, and every thread has ended after eight of its own steps, the time that the callback takes to return
counting as one. -/
theorem c54_stop_ends_partial (c : Nat) (es0 : List Ev) (a : Nat) (es : List Ev)
    (hc : (run (init c) es0).ctl = .stopCmd) (hw : ∀ i, ((run (init c) es0).ws i).pc ≠ .willSet)
    (hs : .callStart ∉ es) (hk : noKill (run (init c) (es0 ++ .ctl a :: es)).trace) :
    calls (run (init c) (es0 ++ .ctl a :: es)).trace ≤ calls (run (init c) es0).trace + 2 ∧
      ∀ i, 8 ≤ es.countP (stepOf i) → ((run (init c) (es0 ++ .ctl a :: es)).ws i).pc = .gone := by
  have hr : run (init c) (es0 ++ .ctl a :: es) = run (step (run (init c) es0) (.ctl a)) es := by
    simp [run, List.foldl_append]
  have hk0 : noKill (run (init c) es0).trace := by
    obtain ⟨t, ht⟩ := run_trace (step (run (init c) es0) (.ctl a)) es
    obtain ⟨t', ht'⟩ := step_trace (run (init c) es0) (.ctl a)
    rw [hr, ht, ht', List.append_assoc] at hk
    exact noKill_left hk
  obtain ⟨ht, -⟩ := told_of hk0 a hc hw
  rw [hr] at hk ⊢
  obtain ⟨_, _, r3, r4⟩ := told_run ht es hs hk
  have hcalls : calls (step (run (init c) es0) (.ctl a)).trace = calls (run (init c) es0).trace := by
    have hi := run_inv (inv_init c) es0 hk0
    unfold step; rw [if_neg (by rw [hi.ok]; simp)]; simp only [ctlStep, hc]; rfl
  have hpend : ∀ p, pend p ≤ 2 := by intro p; cases p <;> simp [pend]
  have hrank : ∀ p, rank p ≤ 8 := by intro p; cases p <;> simp [rank]
  refine ⟨?_, ?_⟩
  · rw [← hcalls]
    have := hpend ((step (run (init c) es0) (.ctl a)).ws ((step (run (init c) es0) (.ctl a)).n - 1)).pc
    omega
  · intro i hi
    have h1 := r3 i
    have h2 := hrank ((step (run (init c) es0) (.ctl a)).ws i).pc
    have h0 : rank ((run (step (run (init c) es0) (.ctl a)) es).ws i).pc = 0 := by omega
    cases hp : ((run (step (run (init c) es0) (.ctl a)) es).ws i).pc <;> rw [hp] at h0 <;> simp [rank] at h0
    
/-- **C54** (the answer of `Stop`) In the same situation, `Stop` answers without error, or that the time allowed has
passed: then a timeout was set and more than that time has passed since the command.  With an infinite timeout it always
answers without error. -/
theorem c54_stop_answers_partial (c : Nat) (es0 : List Ev) (a : Nat) (es : List Ev) (t : List Obs) (r : Nat)
    (hk : noKill (run (init c) es0).trace)
    (hc : (run (init c) es0).ctl = .stopCmd) (hw : ∀ i, ((run (init c) es0).ws i).pc ≠ .willSet)
    (ht : (run (init c) (es0 ++ .ctl a :: es)).trace = (run (init c) es0).trace ++ t) (hr : firstStop t = some r) :
    r = 0 ∨ r = 512 ∧ ∃ T, (run (init c) es0).timeoutHRT = some T ∧
      (run (init c) es0).clock + T < (run (init c) (es0 ++ .ctl a :: es)).clock := by
  have he : run (init c) (es0 ++ .ctl a :: es) = run (step (run (init c) es0) (.ctl a)) es := by
    simp [run, List.foldl_append]
  obtain ⟨-, hwt⟩ := told_of hk a hc hw
  have htr : (step (run (init c) es0) (.ctl a)).trace = (run (init c) es0).trace := by
    have hi := run_inv (inv_init c) es0 hk
    unfold step; rw [if_neg (by rw [hi.ok]; simp)]; simp only [ctlStep, hc]; rfl
  obtain ⟨t', ht', hres⟩ := waiting_run hwt es
  rw [he, ht', htr, List.append_cancel_left_eq] at ht
  subst ht
  rw [he]
  rcases hres with ⟨hn, _⟩ | ⟨r', hr', hg⟩
  · rw [hn] at hr; simp at hr
  · rw [hr'] at hr
    simp at hr; subst hr
    exact hg

/-- **C54** (`Stop` returns) In the same situation: once the thread has made eight steps, `Stop` returns within twelve
steps of its own. -/
theorem c54_stop_returns_partial (c : Nat) (es0 : List Ev) (a : Nat) (es1 es2 : List Ev)
    (hc : (run (init c) es0).ctl = .stopCmd) (hw : ∀ i, ((run (init c) es0).ws i).pc ≠ .willSet)
    (hk : noKill (run (init c) (es0 ++ .ctl a :: es1)).trace) (hs : .callStart ∉ es1)
    (h1 : 8 ≤ es1.countP (stepOf ((run (init c) es0).n - 1))) (h2 : 12 ≤ es2.countP ownStep) :
    ∃ t r, (run (init c) (es0 ++ .ctl a :: (es1 ++ es2))).trace = (run (init c) es0).trace ++ t ∧ firstStop t = some r := by
  have he : run (init c) (es0 ++ .ctl a :: (es1 ++ es2)) = run (run (step (run (init c) es0) (.ctl a)) es1) es2 := by
    simp [run, List.foldl_append]
  have he1 : run (init c) (es0 ++ .ctl a :: es1) = run (step (run (init c) es0) (.ctl a)) es1 := by
    simp [run, List.foldl_append]
  have hk0 : noKill (run (init c) es0).trace := by
    obtain ⟨t, ht⟩ := run_trace (step (run (init c) es0) (.ctl a)) es1
    obtain ⟨t', ht'⟩ := step_trace (run (init c) es0) (.ctl a)
    rw [he1, ht, ht', List.append_assoc] at hk
    exact noKill_left hk
  obtain ⟨hends, hgone⟩ := c54_stop_ends_partial c es0 a es1 hc hw hs hk
  obtain ⟨htold, hwt⟩ := told_of hk0 a hc hw
  have htr : (step (run (init c) es0) (.ctl a)).trace = (run (init c) es0).trace ∧
      (step (run (init c) es0) (.ctl a)).n = (run (init c) es0).n := by
    have hi := run_inv (inv_init c) es0 hk0
    unfold step; rw [if_neg (by rw [hi.ok]; simp)]; simp only [ctlStep, hc]; exact ⟨rfl, rfl⟩
  rw [he1] at hk
  obtain ⟨r1, r2, _, _⟩ := told_run htold es1 hs hk
  obtain ⟨t', ht', hres⟩ := waiting_run hwt es1
  rw [he]
  rcases hres with ⟨hn, hwt'⟩ | ⟨r', hr', _⟩
  · have hall : ∀ i, ((run (step (run (init c) es0) (.ctl a)) es1).ws i).pc = .gone := by
      intro i
      by_cases hi : i + 1 = (run (step (run (init c) es0) (.ctl a)) es1).n
      · have hin : i = (run (init c) es0).n - 1 := by rw [r2, htr.2] at hi; omega
        have := hgone i (by rw [hin]; exact h1)
        rw [he1] at this; exact this
      · exact r1.inv.old i hi
    have hcr : ∀ p, crank p ≤ 12 := by
      intro p
      cases p with
      | gId y => cases y <;> simp [crank]
      | gAlive y => cases y <;> simp [crank]
      | gReset y => cases y <;> simp [crank]
      | gCmd y => cases y <;> simp [crank]
      | gTime y c => cases y <;> simp [crank]
      | _ => simp [crank]
    obtain ⟨t, r, h3, h4⟩ := gone_run hwt' hall es2 (Nat.le_trans (hcr _) h2)
    exact ⟨t' ++ t, r, by rw [h3, ht', htr.1, List.append_assoc], by rw [firstStop_append, hn, h4]⟩
  · obtain ⟨t, ht⟩ := run_trace (run (step (run (init c) es0) (.ctl a)) es1) es2
    exact ⟨t' ++ t, r', by rw [ht, ht', htr.1, List.append_assoc], by rw [firstStop_append, hr']⟩

/-- **C54** (the answers of `Start`) In every history: `Start` answers without error exactly as many times as a thread was
created (one more while it is just returning); its other answers are a fatal error (1) and an illegal operation (32). -/
theorem c54_start_answers (c : Nat) (es : List Ev) :
    (run (init c) es).trace.count (.startRet 0) +
        (match (run (init c) es).ctl with | .startId (some _) => 1 | _ => 0) = (run (init c) es).n ∧
      ∀ e, .startRet e ∈ (run (init c) es).trace → e = 0 ∨ e = 1 ∨ e = 32 := by
  have h := counted_run (counted_init c) es
  exact ⟨h.cnt, h.val⟩

/-- **C54** (`Stop` of a service that is off) After any history without a kill, if no thread is left, `Stop` answers without
error. -/
theorem c54_stop_when_off (c : Nat) (es : List Ev) (hk : noKill (run (init c) es).trace)
    (hc : (run (init c) es).ctl = .idle) (hg : ∀ i, ((run (init c) es).ws i).pc = .gone) (a b d : Nat) :
    (run (init c) (es ++ [.callStop, .ctl a, .ctl b, .ctl d])).trace = (run (init c) es).trace ++ [.stopCall, .stopRet 0] := by
  have := stop_off (run_inv (inv_init c) es hk) hc hg a b d
  rw [← this]; simp [run, List.foldl_append]

/-- **C54** (the answer of a second `Stop`) It has given the command to kill and no longer waits; if no thread is left then,
it kills nothing, calls the callback once and answers what the callback answers. -/
theorem c54_second_stop_answer (c : Nat) (es : List Ev) (hk : noKill (run (init c) es).trace)
    (hc : (run (init c) es).ctl = .gId .killEnd) (hg : ∀ i, ((run (init c) es).ws i).pc = .gone) (a : Nat) :
    (run (init c) (es ++ List.replicate 6 (.ctl a))).trace = (run (init c) es).trace ++ [.asyncCalled, .stopRet a] := by
  have := kill_off (run_inv (inv_init c) es hk) hc hg a
  rw [← this]; simp [run, List.foldl_append]

/-! ## What does not hold -/

/-- `n` steps of the owner. -/
private def own (n : Nat) : List Ev := List.replicate n (.ctl 0)

/-- `n` steps of a thread, the callback answering 0. -/
private def thr (i n : Nat) : List Ev := List.replicate n (.worker i 0)

/-- The hypotheses of `c54_stop_ends_partial` and the others are met: a thread in its main stage is told to stop. -/
private def busy : List Ev := [.callStart] ++ own 6 ++ thr 0 9 ++ [.callStop] ++ own 3

example : (run (init 0) busy).ctl = .stopCmd ∧ ((run (init 0) busy).ws 0).pc = .mainIn ∧
    noKill (run (init 0) busy).trace ∧ calls (run (init 0) busy).trace = 2 := by
  refine ⟨by decide, by decide, ?_, by decide⟩
  intro w
  have : (run (init 0) busy).trace =
    [.startCall, .startRet 0, .called 0 .startup, .returned 0 0, .called 0 .main, .stopCall] := by decide
  rw [this]; simp

example : (run (init 0) (busy ++ own 1 ++ thr 0 8 ++ own 12)).trace =
    [.startCall, .startRet 0, .called 0 .startup, .returned 0 0, .called 0 .main, .stopCall, .returned 0 0,
      .called 0 .badTermination, .returned 0 0, .stopRet 0] := by decide

/-- **C54 is not true of every stop**: the test of line 58 and the command of line 61 of `EmbeddedThread.cpp` are not one
critical section.  A stop given in between is overwritten: `Stop` answers `Timeout` although the timeout is infinite, and
the thread runs on. -/
theorem c54_stop_lost_fails :
    ∃ es, (∀ t, Ev.setTimeout t ∉ es) ∧ (run (init 0) es).trace =
      [.startCall, .startRet 0, .stopCall, .stopRet 512, .called 0 .startup, .returned 0 0, .called 0 .main] ∧
      (run (init 0) es).timeoutHRT = none :=
  ⟨[.callStart] ++ own 6 ++ thr 0 1 ++ [.callStop] ++ own 5 ++ thr 0 1 ++ own 7 ++ thr 0 7, by simp [own, thr], by decide,
    by decide⟩

/-- **C54 is not true once a thread is killed**: `Threads::Kill` only asks for the cancellation.  `Stop` answers without
error and `GetStatus` says that the service is off while the callback is still running; after the next `Start` two
threads are in the callback at the same time. -/
theorem c54_killed_runs_on_fails :
    ∃ es, (run (init 0) es).trace =
      [.startCall, .startRet 0, .called 0 .startup, .stopCall, .stopRet 512, .stopCall, .killed 0, .asyncCalled, .stopRet 0,
        .statusRet .off, .startCall, .startRet 0, .called 1 .startup, .returned 0 0, .called 0 .main] :=
  ⟨[.setTimeout (some 10), .callStart] ++ own 6 ++ thr 0 5 ++ [.callStop] ++ own 5 ++ [.tick 20] ++ own 8 ++
    [.callStop] ++ own 6 ++ [.tick 20] ++ own 12 ++ [.callStatus] ++ own 1 ++ [.callStart] ++ own 6 ++ thr 1 5 ++ thr 0 4,
    by decide⟩

/-- **C54**: the killed thread, when the callback returns, leaves the loop and deletes its description for the second
time (`Threads.cpp:70` and `264`). -/
theorem c54_killed_deletes_twice_fails :
    ∃ es, (run (init 0) es).crashed = true ∧ Obs.stopRet 0 ∈ (run (init 0) es).trace :=
  ⟨[.setTimeout (some 10), .callStart] ++ own 6 ++ thr 0 5 ++ [.callStop] ++ own 5 ++ [.tick 20] ++ own 8 ++
    [.callStop] ++ own 6 ++ [.tick 20] ++ own 12 ++ thr 0 6, by decide, by decide⟩

/-- **C54**: a timeout of more than 2^31 - 1 ticks (less than a second with a counter of some gigahertz) is shortened:
`Stop` answers `Timeout` after 2^31 ticks although more than four times that was asked for. -/
theorem c54_long_timeout_fails :
    ∃ es, .setTimeout (some 10000000000) ∈ es ∧ (run (init 0) es).clock = 2147483648 ∧
      (run (init 0) es).trace = [.startCall, .startRet 0, .called 0 .startup, .stopCall, .stopRet 512] :=
  ⟨[.setTimeout (some 10000000000), .callStart] ++ own 6 ++ thr 0 5 ++ [.callStop] ++ own 5 ++ [.tick 2147483648] ++ own 8,
    by decide, by decide, by decide⟩

/-- **C54**: once a stop has timed out, the status goes back to stopping when the 32 bit counter has gone half way round. -/
theorem c54_timeout_forgotten_fails :
    ∃ es, (run (init 0) es).trace =
      [.startCall, .startRet 0, .called 0 .startup, .stopCall, .stopRet 512, .statusRet .timeoutStopping,
        .statusRet .stopping] :=
  ⟨[.setTimeout (some 10), .callStart] ++ own 6 ++ thr 0 5 ++ [.callStop] ++ own 5 ++ [.tick 20] ++ own 8 ++
    [.callStatus] ++ own 4 ++ [.tick 2147483648, .callStatus] ++ own 4, by decide⟩

/-- The hypotheses of `c54_stop_when_off` and `c54_second_stop_answer` are met: a stop times out, a second one is given, and
the thread ends meanwhile. -/
private def twice : List Ev :=
  [.setTimeout (some 10), .callStart] ++ own 6 ++ thr 0 5 ++ [.callStop] ++ own 5 ++ [.tick 20] ++ own 8 ++
    [.callStop] ++ own 6 ++ thr 0 7 ++ own 3

example : (run (init 0) twice).ctl = .gId .killEnd ∧ (run (init 0) twice).n = 1 ∧ ((run (init 0) twice).ws 0).pc = .gone ∧
    (run (init 0) (twice ++ own 6)).trace = (run (init 0) twice).trace ++ [.asyncCalled, .stopRet 0] ∧
    (run (init 0) (twice ++ own 6)).ctl = .idle := by decide

end Verif.EmbeddedThread
