import Verif.Proof.ThreadPool
/-!
# C77: the settings of a pool of threads

Property: `MultiThreadService`.  What the service reports as the settings of a running thread is what the thread was started with; a setting
is refused while a thread that it concerns runs, and changes nothing else; the tables of the configuration reach the threads they name;
`Start` starts all the threads, and `Stop` ends them all.

The tables, the guards of the settings and the agreement hold.  The stack size of the service does not reach its threads, a `Start` that
fails leaves threads running, `Stop` may answer that all is well while a thread runs, and a `Stop` forgets the settings of the threads: the
`_fails` theorems.
-/
namespace Verif.Props.ThreadPool
open Verif.ThreadPool Verif.Spec.ThreadPool

/-- **C77**: in every history of a service that begins with no threads, a thread that runs was started with the settings that are reported for it
(but for the timeout, that can be changed while it runs); the pool is empty or has as many threads as the service says, numbered in order
(as 16 bits). -/
theorem c77_history_partial (stack0 : Nat) (conf : Conf) (count : Nat) (ops : List Op) :
    let s := run stack0 ⟨conf, count, []⟩ ops
    (∀ t c, t ∈ s.pool → t.running = some c → SameButTimeout t.conf c) ∧ (s.pool = [] ∨ s.pool.length = s.count) ∧
    (∀ (i : Nat) (t : Thr), s.pool[i]? = some t → t.number = i % 65536) := by
  have h := run_ok stack0 ops ⟨conf, count, []⟩ ⟨Or.inl rfl, fun i t h => by simp at h, fun t c h => by simp at h⟩
  exact ⟨h.agree, h.size, h.number⟩

/-- **C77**: `Start` of a service without threads answers that all is well exactly when every thread starts; there are then as many threads as asked,
each running with the settings of the service (but for the stack size: `c77_stack_fails`). -/
theorem c77_start_new (stack0 : Nat) (answers : List Bool) (conf : Conf) (count : Nat) :
    ((start stack0 answers ⟨conf, count, []⟩).1 = true ↔ ∀ i, i < count → answers[i]? ≠ some false) ∧
    ((start stack0 answers ⟨conf, count, []⟩).1 = true → ∀ s, s = (start stack0 answers ⟨conf, count, []⟩).2 → s.conf = conf ∧ s.count = count ∧
      s.pool.length = count ∧ ∀ t, t ∈ s.pool → t.running = some t.conf ∧ t.conf.cls = conf.cls ∧ t.conf.level = conf.level ∧ t.conf.cpu = conf.cpu ∧
        t.conf.timeout = conf.timeout ∧ t.conf.stack = stack0) := by
  have e : start stack0 answers ⟨conf, count, []⟩ = ((startLoop answers (createThreads stack0 ⟨conf, count, []⟩)).1,
      ⟨conf, count, (startLoop answers (createThreads stack0 ⟨conf, count, []⟩)).2⟩) := rfl
  obtain ⟨h1, h2⟩ := startLoop_ok answers (createThreads stack0 ⟨conf, count, []⟩)
  rw [create_length] at h1
  rw [e]
  refine ⟨h1, fun hok s hs => ?_⟩
  subst hs
  refine ⟨rfl, rfl, by rw [startLoop_length, create_length], fun t ht => ?_⟩
  simp only at ht
  rw [h2 hok, List.mem_map] at ht
  obtain ⟨t0, h0, rfl⟩ := ht
  obtain ⟨i, hi⟩ := List.getElem?_of_mem h0
  rw [create_get] at hi
  rw [hi.2]
  exact ⟨rfl, rfl, rfl, rfl, rfl, rfl⟩

/-- **C77**: `Start` of a service with threads is refused, and does nothing, when one of them runs; otherwise it answers that all is well exactly
when every thread starts, and each thread then runs with its own settings. -/
theorem c77_start (stack0 : Nat) (answers : List Bool) (s : Svc) (hp : s.pool ≠ []) :
    (¬ Quiet s.pool → start stack0 answers s = (false, s)) ∧
    (Quiet s.pool → ((start stack0 answers s).1 = true ↔ ∀ i, i < s.pool.length → answers[i]? ≠ some false) ∧
      ((start stack0 answers s).1 = true →
        (start stack0 answers s).2 = { s with pool := s.pool.map fun t => { t with running := some t.conf } })) := by
  have hl : ¬ s.pool.length = 0 := fun h => hp (List.eq_nil_of_length_eq_zero h)
  unfold start
  rw [if_neg hl]
  refine ⟨fun hq => ?_, fun hq => ?_⟩
  · rw [if_neg (by rw [allOff_iff]; exact hq)]
  · rw [if_pos (by rw [allOff_iff]; exact hq)]
    obtain ⟨h1, h2⟩ := startLoop_ok answers s.pool
    exact ⟨h1, fun h => by simp only at h ⊢; rw [h2 h]⟩

/-- **C77**: a setting of the service is refused, and nothing changes, while a thread runs; otherwise the service and all its threads have it, and
nothing else changes. -/
theorem c77_set_all (v : Setting) (s : Svc) :
    (¬ Quiet s.pool → setAll v s = s) ∧
    (Quiet s.pool → Changed s.conf (setAll v s).conf v ∧ (setAll v s).count = s.count ∧ (setAll v s).pool.length = s.pool.length ∧
      ∀ (i : Nat) (t t' : Thr), s.pool[i]? = some t → (setAll v s).pool[i]? = some t' →
        Changed t.conf t'.conf v ∧ t'.number = t.number ∧ t'.running = t.running) := by
  unfold setAll
  refine ⟨fun hq => if_neg (by rw [allOff_iff]; exact hq), fun hq => ?_⟩
  rw [if_pos (by rw [allOff_iff]; exact hq)]
  refine ⟨set_changed _ v, rfl, by simp, fun i t t' h h' => ?_⟩
  rw [List.getElem?_map, h] at h'
  simp at h'
  subst h'
  exact ⟨set_changed _ v, rfl, rfl⟩

/-- **C77**: a setting of one thread is refused, and nothing changes, while that thread runs; otherwise that thread has it, and nothing else
changes. -/
theorem c77_set_one (i : Nat) (v : Setting) (s : Svc) (t : Thr) (h : s.pool[i]? = some t) :
    (t.running ≠ none → setOne i v s = s) ∧
    (t.running = none → (setOne i v s).conf = s.conf ∧ (setOne i v s).count = s.count ∧
      (∃ t', (setOne i v s).pool[i]? = some t' ∧ Changed t.conf t'.conf v ∧ t'.number = t.number ∧ t'.running = none) ∧
      ∀ j, j ≠ i → (setOne i v s).pool[j]? = s.pool[j]?) := by
  unfold setOne
  refine ⟨fun hr => if_neg (by rw [off_iff]; exact fun hh => hr (hh t h)), fun hr => ?_⟩
  rw [if_pos (by rw [off_iff]; intro t0 h0; rw [h] at h0; simp at h0; rw [← h0]; exact hr)]
  refine ⟨rfl, rfl, ⟨⟨t.conf.set v, t.number, t.running⟩, ?_, set_changed _ v, rfl, hr⟩, fun j hj => ?_⟩
  · simp only
    rw [modify_get, if_pos rfl, h]
    rfl
  · simp only
    rw [modify_get, if_neg (fun e => hj e.symm)]

/-- **C77**: a configuration is accepted exactly when its tables name threads of the service.  Each thread then has what the last row that names it
says, and otherwise what the service has (the stack size: the default one); levels are below 256. -/
theorem c77_configured (stack0 : Nat) (conf : Conf) (count : Nat) (classes levels stacks cpus : List (Nat × Nat))
    (hl : ∀ r, r ∈ levels → r.2 < 256) :
    ((initialise stack0 conf count classes levels stacks cpus).1 = true ↔
      ∀ r, r ∈ classes ++ levels ++ stacks ++ cpus → r.1 < count) ∧
    ((initialise stack0 conf count classes levels stacks cpus).1 = true → ∀ (i : Nat), i < count →
      (initialise stack0 conf count classes levels stacks cpus).2.pool[i]? = some ⟨⟨given classes i conf.cls, given levels i conf.level,
        given cpus i conf.cpu, given stacks i stack0, conf.timeout⟩, i % 65536, none⟩) := by
  have hget : ∀ i, i < count → (createThreads stack0 ⟨conf, count, []⟩)[i]? = some ⟨{ conf with stack := stack0 }, i % 2 ^ 16, none⟩ :=
    fun i hi => (create_get stack0 ⟨conf, count, []⟩ i _).2 ⟨hi, rfl⟩
  have hq0 : Quiet (createThreads stack0 ⟨conf, count, []⟩) := by
    intro t ht
    obtain ⟨i, hi⟩ := List.getElem?_of_mem ht
    rw [create_get] at hi
    rw [hi.2]
  unfold initialise
  simp only
  obtain ⟨a1, a2, a3, a4, a5⟩ := applyRows_spec .cls classes ⟨conf, count, createThreads stack0 ⟨conf, count, []⟩⟩ hq0 (create_length ..)
  by_cases c1 : (applyRows .cls classes ⟨conf, count, createThreads stack0 ⟨conf, count, []⟩⟩).1 = true
  · rw [if_pos c1]
    generalize applyRows .cls classes ⟨conf, count, createThreads stack0 ⟨conf, count, []⟩⟩ = r1 at *
    obtain ⟨b1, b2, b3, b4, b5⟩ := applyRows_spec mkLevel levels r1.2 a2 (by rw [a4, a3])
    by_cases c2 : (applyRows mkLevel levels r1.2).1 = true
    · rw [if_pos c2]
      generalize applyRows mkLevel levels r1.2 = r2 at *
      obtain ⟨d1, d2, d3, d4, d5⟩ := applyRows_spec .stack stacks r2.2 b2 (by rw [b4, b3])
      by_cases c3 : (applyRows .stack stacks r2.2).1 = true
      · rw [if_pos c3]
        generalize applyRows .stack stacks r2.2 = r3 at *
        obtain ⟨e1, e2, e3, e4, e5⟩ := applyRows_spec .cpu cpus r3.2 d2 (by rw [d4, d3])
        have k1 := a1.1 c1
        have k2 := b1.1 c2
        have k3 := d1.1 c3
        rw [a3] at k2 b3
        rw [b3] at k3 d3
        rw [d3] at e1
        simp only at k1 k2 k3 e1
        refine ⟨?_, fun c4 i hi => ?_⟩
        · rw [e1]
          simp only [List.mem_append]
          constructor
          · rintro h r (((hr | hr) | hr) | hr)
            · exact k1 r hr
            · exact k2 r hr
            · exact k3 r hr
            · exact h r hr
          · exact fun h r hr => h r (Or.inr hr)
        · rw [e5 c4 i _ (d5 c3 i _ (b5 c2 i _ (a5 c1 i _ (hget i hi))))]
          simp only [withConf, foldl_cls, foldl_stack, foldl_cpu, foldl_level _ _ _ hl]
      · rw [if_neg c3]
        refine ⟨⟨fun h => absurd h c3, fun h => absurd (d1.2 fun r hr => ?_) c3⟩, fun h => absurd h c3⟩
        rw [b3, a3]
        exact h r (by simp [hr])
    · rw [if_neg c2]
      refine ⟨⟨fun h => absurd h c2, fun h => absurd (b1.2 fun r hr => ?_) c2⟩, fun h => absurd h c2⟩
      rw [a3]
      exact h r (by simp [hr])
  · rw [if_neg c1]
    exact ⟨⟨fun h => absurd h c1, fun h => absurd (a1.2 fun r hr => h r (by simp [hr])) c1⟩, fun h => absurd h c1⟩

/-- **C77**: when every thread does stop at the first request, `Stop` answers that all is well, every thread has stopped, and the service has no threads;
its own settings are as they were. -/
theorem c77_stop (first second : List StopAnswer) (s : Svc) (h : ∀ i, i < s.pool.length → (first[i]?).getD ⟨true, true⟩ = ⟨true, true⟩) :
    stop first second s = (true, s.pool.map (fun t => { t with running := none }), { s with pool := [] }) := by
  unfold stop
  rw [stopLoop_good first s.pool h]
  simp only
  rw [stopLoop_quiet]
  intro t ht
  rw [List.mem_map] at ht
  obtain ⟨t0, _, rfl⟩ := ht
  rfl

/-- **C77 fails**: the stack size that is set on the service before its threads exist is not the one they run with. -/
theorem c77_stack_fails (stack0 v : Nat) (conf : Conf) (count : Nat) (hc : 0 < count) (hv : v ≠ stack0) :
    ∃ t, t ∈ (start stack0 [] (setAll (.stack v) ⟨conf, count, []⟩)).2.pool ∧ (setAll (.stack v) ⟨conf, count, []⟩).conf.stack = v ∧
      t.conf.stack ≠ v := by
  have e : setAll (.stack v) ⟨conf, count, []⟩ = ⟨{ conf with stack := v }, count, []⟩ := rfl
  rw [e]
  have h := c77_start_new stack0 [] { conf with stack := v } count
  have hok := h.1.2 (by simp)
  obtain ⟨_, _, hl, hall⟩ := h.2 hok _ rfl
  generalize (start stack0 [] ⟨{ conf with stack := v }, count, []⟩).2 = s at *
  cases hp : s.pool with
  | nil => rw [hp] at hl; simp at hl; omega
  | cons t p => exact ⟨t, by simp, rfl, by rw [(hall t (by rw [hp]; simp)).2.2.2.2.2]; exact fun h => hv h.symm⟩

/-- **C77 fails**: when the second thread cannot start, `Start` answers so and the first one runs on; a further `Start` is refused. -/
theorem c77_start_failed_fails : ∃ s, start 1 [true, false] ⟨⟨1, 2, 3, 1, 5⟩, 2, []⟩ = (false, s) ∧ ¬ Quiet s.pool ∧ start 1 [] s = (false, s) := by
  refine ⟨⟨⟨1, 2, 3, 1, 5⟩, 2, [⟨⟨1, 2, 3, 1, 5⟩, 0, some ⟨1, 2, 3, 1, 5⟩⟩, ⟨⟨1, 2, 3, 1, 5⟩, 1, none⟩]⟩, rfl, ?_, rfl⟩
  intro h
  exact absurd (h _ (List.mem_cons_self ..)) (by simp)

/-- **C77 fails**: when the first thread fails to stop, twice, and the second stops, twice asked, the answer is that of the last request: all is well,
although a thread, that the service no longer knows, runs. -/
theorem c77_stop_fails : ∃ p : List Thr,
    stop [⟨false, false⟩, ⟨true, false⟩] [⟨false, false⟩, ⟨true, true⟩]
      ⟨⟨1, 2, 3, 1, 5⟩, 2, [⟨⟨1, 2, 3, 1, 5⟩, 0, some ⟨1, 2, 3, 1, 5⟩⟩, ⟨⟨1, 2, 3, 1, 5⟩, 1, some ⟨1, 2, 3, 1, 5⟩⟩]⟩
      = (true, p, ⟨⟨1, 2, 3, 1, 5⟩, 2, []⟩) ∧ ¬ Quiet p := by
  refine ⟨[⟨⟨1, 2, 3, 1, 5⟩, 0, some ⟨1, 2, 3, 1, 5⟩⟩, ⟨⟨1, 2, 3, 1, 5⟩, 1, none⟩], rfl, ?_⟩
  intro h
  exact absurd (h _ (List.mem_cons_self ..)) (by simp)

/-- **C77 fails**: after a `Stop`, a thread that the configuration had given its own processor runs with the one of the service. -/
theorem c77_restart_fails : ∃ s, initialise 1 ⟨1, 2, 3, 1, 5⟩ 2 [] [] [] [(1, 9)] = (true, s) ∧
    (s.pool.map fun t => t.conf.cpu) = [3, 9] ∧ ((start 1 [] (stop [] [] (start 1 [] s).2).2.2).2.pool.map fun t => t.conf.cpu) = [3, 3] :=
  ⟨_, rfl, rfl, rfl⟩

/-- **C77 fails**: in a pool of more than 65536 threads, two threads have the number 0. -/
theorem c77_number_fails (stack0 : Nat) (conf : Conf) (count : Nat) (h : 65536 < count) :
    ∃ t t', (createThreads stack0 ⟨conf, count, []⟩)[0]? = some t ∧ (createThreads stack0 ⟨conf, count, []⟩)[65536]? = some t' ∧ t.number = t'.number :=
  ⟨_, _, (create_get stack0 ⟨conf, count, []⟩ 0 _).2 ⟨by simp only; omega, rfl⟩, (create_get stack0 ⟨conf, count, []⟩ 65536 _).2 ⟨h, rfl⟩, rfl⟩

/-- **C77 fails**: a level of 256 or more in the table is accepted, and is another level. -/
theorem c77_level_fails : ∃ s, initialise 1 ⟨1, 2, 3, 1, 5⟩ 1 [] [(0, 256)] [] [] = (true, s) ∧ (s.pool.map fun t => t.conf.level) = [0] :=
  ⟨_, rfl, rfl⟩

/-- A history: a service with two threads, the second with its own level, that is started; a setting is then refused. -/
example : (run 1 (initialise 1 ⟨1, 2, 3, 1, 5⟩ 2 [] [(1, 7), (1, 8)] [] []).2 [.start [], .setAll (.cpu 4), .setOne 1 (.level 9), .ends 1, .setOne 1 (.level 9)]).pool
    = [⟨⟨1, 2, 3, 1, 5⟩, 0, some ⟨1, 2, 3, 1, 5⟩⟩, ⟨⟨1, 9, 3, 1, 5⟩, 1, none⟩] := by decide

end Verif.Props.ThreadPool
