import Verif.Proof.EmbeddedThread
set_option maxRecDepth 8000
set_option linter.unusedSimpArgs false
namespace Verif.EmbeddedThread
open Verif.Spec.EmbeddedThread

theorem reset_trace (s : State) : s.resetThreadId.trace = s.trace := by
  unfold State.resetThreadId; split <;> rfl

theorem finish_trace (s : State) (y : Why) (st : Status) : s.trace <+: (finish s y st).trace := by
  cases y <;> simp only [finish] <;> (try split) <;> simp [State.goto, State.log]

theorem ctl_trace (s : State) (a : Nat) : s.trace <+: (ctlStep s a).trace := by
  unfold ctlStep
  cases hc : s.ctl with
  | gReset y => simpa [reset_trace] using finish_trace s.resetThreadId y .off
  | gId y => simp only; split; exact finish_trace _ _ _; simp [State.goto]
  | gAlive y => simp only; split <;> simp [State.goto]
  | gCmd y => simp only; split; exact finish_trace _ _ _; simp [State.goto]
  | gTime y => exact finish_trace _ _ _
  | killThread => simp only [killThread]; (repeat' split) <;> simp [State.goto, State.log, State.setW]
  | startAlive => simp only; split <;> simp [State.goto, State.log]
  | startBegin => simp only; split <;> simp [State.goto, State.log, State.setW]
  | _ => simp [State.goto, State.log, reset_trace]

theorem worker_trace (s : State) (i a : Nat) : s.trace <+: (workerStep s i a).trace := by
  unfold workerStep
  cases hp : (s.ws i).pc <;> simp only [hp] <;> (try split) <;> simp [State.goto, State.log, State.setW]

theorem step_trace (s : State) (e : Ev) : ∃ t, (step s e).trace = s.trace ++ t := by
  suffices h : s.trace <+: (step s e).trace by
    obtain ⟨t, ht⟩ := h
    exact ⟨t, ht.symm⟩
  unfold step
  split
  · simp
  · cases e with
    | ctl a => exact ctl_trace s a
    | worker i a => exact worker_trace s i a
    | tick n => simp
    | _ => simp only; split <;> simp [State.goto, State.log, State.setW]

theorem run_trace (s : State) (es : List Ev) : ∃ t, (run s es).trace = s.trace ++ t := by
  induction es generalizing s with
  | nil => exact ⟨[], by simp [run]⟩
  | cons e es ih =>
    obtain ⟨t, ht⟩ := step_trace s e
    obtain ⟨t', ht'⟩ := ih (step s e)
    exact ⟨t ++ t', by simp only [run, List.foldl_cons] at ht' ⊢; rw [ht', ht, List.append_assoc]⟩

theorem noKill_left {a b : List Obs} (h : noKill (a ++ b)) : noKill a := fun w hw => h w (by simp [hw])

theorem run_snoc (s : State) (es : List Ev) (e : Ev) : run s (es ++ [e]) = step (run s es) e := by
  simp [run]

theorem run_cons (s : State) (es : List Ev) (e : Ev) : run s (e :: es) = run (step s e) es := rfl

theorem run_inv {s : State} (h : Inv s) (es : List Ev) (hk : noKill (run s es).trace) : Inv (run s es) := by
  induction es generalizing s with
  | nil => exact h
  | cons e es ih =>
    rw [run_cons] at hk ⊢
    refine ih (step_inv h e ?_) hk
    obtain ⟨t, ht⟩ := run_trace (step s e) es
    rw [ht] at hk
    exact noKill_left hk

/-! ## After the stop command -/

/-- Steps left to a thread that is told to stop. -/
def rank : WPc → Nat
  | .gone => 0
  | .exiting => 1
  | .outer => 2
  | .endIn => 3
  | .created => 3
  | .willSet => 3
  | .endCall => 4
  | .mainWhile _ => 5
  | .mainIf => 5
  | .mainIn => 6
  | .startupIn => 6
  | .mainCall => 7
  | .startupCall => 7
  | .setId => 8

/-- Calls left to it. -/
def pend : WPc → Nat
  | .endCall | .mainWhile _ | .mainIf | .mainIn | .startupIn => 1
  | .mainCall | .startupCall | .setId => 2
  | _ => 0

/-- The threads were told to stop. -/
structure Told (s : State) : Prop where
  inv : Inv s
  cmd : s.commands = .stop ∨ s.commands = .kill
  set : ∀ i, (s.ws i).pc ≠ .willSet
  ctl : starting s.ctl = false

theorem calls_snoc (tr : List Obs) (o : Obs) :
    calls (tr ++ [o]) = calls tr + (match o with | .called _ _ => 1 | _ => 0) := by
  simp only [calls, List.countP_append]
  cases o <;> rfl

/-- The owner leaves the threads alone, unless it kills. -/
theorem finish_same (s : State) (y : Why) (st : Status) :
    (finish s y st).ws = s.ws ∧ (finish s y st).n = s.n ∧ (finish s y st).commands = s.commands ∧
      (finish s y st).clock = s.clock ∧ (finish s y st).timeoutHRT = s.timeoutHRT ∧
      (finish s y st).maxHRT = s.maxHRT ∧ (finish s y st).threadId = s.threadId ∧
      calls (finish s y st).trace = calls s.trace ∧
      (starting (finish s y st).ctl = true → y = .start) := by
  cases y <;> simp only [finish] <;> (try split) <;> simp [State.goto, State.log, calls_snoc, starting]

theorem reset_same (s : State) : s.resetThreadId.ws = s.ws ∧ s.resetThreadId.n = s.n ∧
    s.resetThreadId.commands = s.commands ∧ s.resetThreadId.ctl = s.ctl ∧ s.resetThreadId.trace = s.trace ∧
    s.resetThreadId.clock = s.clock ∧ s.resetThreadId.timeoutHRT = s.timeoutHRT ∧
    s.resetThreadId.maxHRT = s.maxHRT := by
  unfold State.resetThreadId; split <;> simp

theorem ctl_same {s : State} (hs : starting s.ctl = false) (a : Nat) (hk : noKill (ctlStep s a).trace)
    (hcmd : s.commands = .stop ∨ s.commands = .kill) :
    (ctlStep s a).ws = s.ws ∧ (ctlStep s a).n = s.n ∧
      ((ctlStep s a).commands = .stop ∨ (ctlStep s a).commands = .kill) ∧
      calls (ctlStep s a).trace = calls s.trace ∧ starting (ctlStep s a).ctl = false := by
  have hf : ∀ (s' : State) (y : Why) st, s'.ws = s.ws → s'.n = s.n → s'.commands = s.commands → s'.trace = s.trace →
      y ≠ .start →
      (finish s' y st).ws = s.ws ∧ (finish s' y st).n = s.n ∧
      ((finish s' y st).commands = .stop ∨ (finish s' y st).commands = .kill) ∧
      calls (finish s' y st).trace = calls s.trace ∧ starting (finish s' y st).ctl = false := by
    intro s' y st h1 h2 h3 h4 h5
    obtain ⟨f1, f2, f3, _, _, _, _, f4, f5⟩ := finish_same s' y st
    refine ⟨by rw [f1, h1], by rw [f2, h2], by rw [f3, h3]; exact hcmd, by rw [f4, h4], ?_⟩
    cases hst : starting (finish s' y st).ctl with
    | false => rfl
    | true => exact absurd (f5 hst) h5
  unfold ctlStep at hk ⊢
  cases hc : s.ctl with
  | idle => exact ⟨rfl, rfl, hcmd, rfl, by rw [hc]; rfl⟩
  | gId y =>
    have hy : y ≠ .start := by rintro rfl; rw [hc] at hs; simp [starting] at hs
    simp only
    split
    · exact hf s y _ rfl rfl rfl rfl hy
    · exact ⟨rfl, rfl, hcmd, rfl, by cases y <;> simp [State.goto, starting] at hy ⊢⟩
  | gAlive y =>
    have hy : y ≠ .start := by rintro rfl; rw [hc] at hs; simp [starting] at hs
    simp only
    split
    · exact ⟨rfl, rfl, hcmd, rfl, by cases y <;> simp [State.goto, starting] at hy ⊢⟩
    · exact ⟨rfl, rfl, hcmd, rfl, by cases y <;> simp [State.goto, starting] at hy ⊢⟩
  | gReset y =>
    have hy : y ≠ .start := by rintro rfl; rw [hc] at hs; simp [starting] at hs
    obtain ⟨r1, r2, r3, r4, r5, _⟩ := reset_same s
    exact hf _ y _ r1 r2 r3 r5 hy
  | gCmd y =>
    have hy : y ≠ .start := by rintro rfl; rw [hc] at hs; simp [starting] at hs
    simp only
    split
    · exact hf s y _ rfl rfl rfl rfl hy
    · exact ⟨rfl, rfl, hcmd, rfl, by cases y <;> simp [State.goto, starting] at hy ⊢⟩
  | gTime y c =>
    have hy : y ≠ .start := by rintro rfl; rw [hc] at hs; simp [starting] at hs
    exact hf s y _ rfl rfl rfl rfl hy
  | startAlive => rw [hc] at hs; simp [starting] at hs
  | startCmd => rw [hc] at hs; simp [starting] at hs
  | startTime => rw [hc] at hs; simp [starting] at hs
  | startBegin => rw [hc] at hs; simp [starting] at hs
  | startId w => rw [hc] at hs; simp [starting] at hs
  | stopCmd => exact ⟨rfl, rfl, .inl rfl, rfl, rfl⟩
  | stopTime => exact ⟨rfl, rfl, hcmd, rfl, rfl⟩
  | stopReset =>
    obtain ⟨r1, r2, r3, r4, r5, _⟩ := reset_same s
    exact ⟨r1, r2, by simp only [State.goto, State.log, r3]; exact hcmd, by simp [State.goto, State.log, calls_snoc, r5], rfl⟩
  | killCmd => exact ⟨rfl, rfl, .inr rfl, rfl, rfl⟩
  | killTime => exact ⟨rfl, rfl, hcmd, rfl, rfl⟩
  | killThread =>
    simp only [hc] at hk
    simp only [killThread] at hk ⊢
    cases ht : s.threadId with
    | none => exact ⟨rfl, rfl, hcmd, rfl, rfl⟩
    | some j =>
      simp only [ht] at hk ⊢
      split
      · rename_i hd
        rw [if_pos hd] at hk
        exact absurd (by simp [State.goto, State.log]) (hk j)
      · exact ⟨rfl, rfl, hcmd, rfl, rfl⟩
  | asyncCall e => exact ⟨rfl, rfl, hcmd, by simp [State.goto, State.log, calls_snoc], rfl⟩
  | asyncIn e => exact ⟨rfl, rfl, hcmd, rfl, rfl⟩
  | killReset e =>
    obtain ⟨r1, r2, r3, r4, r5, _⟩ := reset_same s
    exact ⟨r1, r2, by simp only [State.goto, State.log, r3]; exact hcmd, by simp [State.goto, State.log, calls_snoc, r5], rfl⟩

/-- One step of a thread that was told to stop. -/
theorem told_worker {s : State} (h : Told s) (i a : Nat) :
    (workerStep s i a).commands = s.commands ∧ (workerStep s i a).ctl = s.ctl ∧ (workerStep s i a).n = s.n ∧
      (∀ j, j ≠ i → (workerStep s i a).ws j = s.ws j) ∧
      rank ((workerStep s i a).ws i).pc ≤ rank (s.ws i).pc - 1 ∧ ((workerStep s i a).ws i).pc ≠ .willSet ∧
      calls (workerStep s i a).trace + pend ((workerStep s i a).ws i).pc ≤ calls s.trace + pend (s.ws i).pc := by
  have hk : s.commands ≠ .keepRunning := by rcases h.cmd with h | h <;> rw [h] <;> simp
  have hs : s.commands ≠ .start := by rcases h.cmd with h | h <;> rw [h] <;> simp
  have hw := h.set i
  unfold workerStep
  cases hp : (s.ws i).pc <;>
    simp_all [State.setW, State.log, calls_snoc, rank, pend]

theorem told_step {s : State} (h : Told s) (e : Ev) (he : e ≠ .callStart) (hk : noKill (step s e).trace) :
    Told (step s e) ∧ (∀ i, rank ((step s e).ws i).pc ≤ rank (s.ws i).pc) ∧
      (∀ i a, e = .worker i a → rank ((step s e).ws i).pc ≤ rank (s.ws i).pc - 1) ∧
      (step s e).n = s.n ∧
      calls (step s e).trace + pend ((step s e).ws (s.n - 1)).pc ≤ calls s.trace + pend (s.ws (s.n - 1)).pc := by
  have hi := step_inv h.inv e hk
  have hkeep : ∀ s' : State, step s e = s' → Inv s' → s'.ws = s.ws → s'.n = s.n → 
      (s'.commands = .stop ∨ s'.commands = .kill) → calls s'.trace = calls s.trace → starting s'.ctl = false →
      (∀ i a, e ≠ .worker i a) →
      Told (step s e) ∧ (∀ i, rank ((step s e).ws i).pc ≤ rank (s.ws i).pc) ∧
      (∀ i a, e = .worker i a → rank ((step s e).ws i).pc ≤ rank (s.ws i).pc - 1) ∧
      (step s e).n = s.n ∧
      calls (step s e).trace + pend ((step s e).ws (s.n - 1)).pc ≤ calls s.trace + pend (s.ws (s.n - 1)).pc := by
    intro s' hs' h1 h2 h3 h4 h5 h6 h7
    rw [hs']
    exact ⟨⟨h1, h4, by rw [h2]; exact h.set, h6⟩, by rw [h2]; simp, fun i a hx => absurd hx (h7 i a), h3, by rw [h2, h5]; simp⟩
  have hst : step s e = (match e with
    | .tick n => { s with clock := s.clock + n }
    | .callStart => if s.ctl = .idle then (s.log .startCall).goto (.gId .start) else s
    | .callStop => if s.ctl = .idle then (s.log .stopCall).goto (.gId .stop) else s
    | .callStatus => if s.ctl = .idle then s.goto (.gId .user) else s
    | .setTimeout t => if s.ctl = .idle then { s with timeoutHRT := clip t } else s
    | .ctl a => ctlStep s a
    | .worker i a => workerStep s i a
    | .cancel i => if (s.ws i).cancelled then s.setW i { s.ws i with pc := .gone } else s) := by
    unfold step; rw [if_neg (by rw [h.inv.ok]; simp)]
    cases e <;> rfl
  cases e with
  | tick n => exact hkeep _ rfl hi (by rw [hst]) (by rw [hst]) (by rw [hst]; exact h.cmd) (by rw [hst]) (by rw [hst]; exact h.ctl) (by simp)
  | callStart => exact absurd rfl he
  | callStop =>
    simp only at hst
    refine hkeep _ rfl hi ?_ ?_ ?_ ?_ ?_ (by simp) <;> rw [hst] <;> split <;>
      first | rfl | exact h.cmd | exact h.ctl | simp [State.goto, State.log, calls_snoc]
  | callStatus =>
    simp only at hst
    refine hkeep _ rfl hi ?_ ?_ ?_ ?_ ?_ (by simp) <;> rw [hst] <;> split <;>
      first | rfl | exact h.cmd | exact h.ctl | simp [State.goto, State.log, calls_snoc]
  | setTimeout t =>
    simp only at hst
    refine hkeep _ rfl hi ?_ ?_ ?_ ?_ ?_ (by simp) <;> rw [hst] <;> split <;>
      first | rfl | exact h.cmd | exact h.ctl | simp [State.goto, State.log, calls_snoc]
  | ctl a =>
    simp only at hst
    rw [hst] at hk
    obtain ⟨c1, c2, c3, c4, c5⟩ := ctl_same h.ctl a hk h.cmd
    exact hkeep _ rfl hi (by rw [hst]; exact c1) (by rw [hst]; exact c2) (by rw [hst]; exact c3) (by rw [hst]; exact c4)
      (by rw [hst]; exact c5) (by simp)
  | cancel i =>
    simp only [h.inv.canc i] at hst
    refine hkeep _ rfl hi ?_ ?_ ?_ ?_ ?_ (by simp) <;> rw [hst] <;>
      first | rfl | exact h.cmd | exact h.ctl
  | worker i a =>
    simp only at hst
    obtain ⟨w1, w2, w3, w4, w5, w6, w7⟩ := told_worker h i a
    rw [← hst] at w1 w2 w3 w4 w5 w6 w7
    refine ⟨⟨hi, by rw [w1]; exact h.cmd, ?_, by rw [w2]; exact h.ctl⟩, ?_, ?_, w3, ?_⟩
    · intro j
      by_cases hj : j = i
      · subst hj; exact w6
      · rw [w4 j hj]; exact h.set j
    · intro j
      by_cases hj : j = i
      · subst hj; omega
      · rw [w4 j hj]; simp
    · intro j b hj
      simp at hj
      rw [← hj.1]; exact w5
    · by_cases hj : s.n - 1 = i
      · rw [hj]; exact w7
      · rw [w4 _ hj]
        have hg : (s.ws i).pc = .gone := h.inv.old i (by omega)
        have : calls (step s (.worker i a)).trace = calls s.trace := by
          rw [hst]; unfold workerStep; simp only [hg]
        omega

/-- A thread that was told to stop makes at most two more calls, and ends in at most eight steps. -/
theorem told_run {s : State} (h : Told s) (es : List Ev) (he : .callStart ∉ es) (hk : noKill (run s es).trace) :
    Told (run s es) ∧ (run s es).n = s.n ∧
      (∀ i, rank ((run s es).ws i).pc ≤ rank (s.ws i).pc - es.countP (stepOf i)) ∧
      calls (run s es).trace + pend ((run s es).ws (s.n - 1)).pc ≤ calls s.trace + pend (s.ws (s.n - 1)).pc := by
  induction es generalizing s with
  | nil => exact ⟨h, rfl, by simp [run], by simp [run]⟩
  | cons e es ih =>
    rw [run_cons] at hk ⊢
    have hk' : noKill (step s e).trace := by
      obtain ⟨t, ht⟩ := run_trace (step s e) es
      rw [ht] at hk
      exact noKill_left hk
    simp only [List.mem_cons, not_or] at he
    obtain ⟨t1, t2, t3, t4, t5⟩ := told_step h e (fun hx => he.1 hx.symm) hk'
    obtain ⟨r1, r2, r3, r4⟩ := ih t1 he.2 hk
    refine ⟨r1, by rw [r2, t4], ?_, by rw [t4] at r4; omega⟩
    intro i
    have h3 := r3 i
    have h2 := t2 i
    rw [List.countP_cons]
    cases e with
    | worker j b =>
      by_cases hj : j = i
      · subst hj
        have := t3 j b rfl
        simp only [stepOf, beq_self_eq_true, if_true]
        omega
      · simp only [stepOf, beq_iff_eq, hj, if_false]
        omega
    | _ => simp only [stepOf, Bool.false_eq_true, if_false]; omega

end Verif.EmbeddedThread
