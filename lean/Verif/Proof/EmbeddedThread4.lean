import Verif.Proof.EmbeddedThread3
set_option maxRecDepth 8000
set_option linter.unusedSimpArgs false
namespace Verif.EmbeddedThread
open Verif.Spec.EmbeddedThread

/-- A thread was created and `Start` has not yet returned. -/
def pendingStart : CPc → Nat
  | .startId (some _) => 1
  | _ => 0

/-- Threads and answers of `Start`. -/
structure Counted (s : State) : Prop where
  cnt : s.trace.count (.startRet 0) + pendingStart s.ctl = s.n
  val : ∀ e, .startRet e ∈ s.trace → e = 0 ∨ e = 1 ∨ e = 32

theorem counted_note {s s' : State} (h : Counted s) (hn : s'.n = s.n) (hc : pendingStart s'.ctl = pendingStart s.ctl)
    (ht : s'.trace = s.trace ∨ ∃ o, s'.trace = s.trace ++ [o] ∧ (∀ e, o = .startRet e → e = 1 ∨ e = 32)) : Counted s' := by
  rcases ht with ht | ⟨o, ht, ho⟩
  · exact ⟨by rw [ht, hn, hc]; exact h.cnt, by rw [ht]; exact h.val⟩
  · refine ⟨?_, fun e he => ?_⟩
    · rw [ht, hn, hc, List.count_append]
      have : List.count (Obs.startRet 0) [o] = 0 := by
        rw [List.count_singleton]
        split
        · next e =>
          rcases ho 0 (by simpa using e) with h | h <;> simp at h
        · rfl
      rw [this]; exact h.cnt
    · rw [ht, List.mem_append, List.mem_singleton] at he
      rcases he with he | he
      · exact h.val e he
      · exact .inr (ho e he.symm)

theorem counted_finish {s : State} (h : Counted s) (y : Why) (st : Status) (hp : pendingStart s.ctl = 0) :
    Counted (finish s y st) := by
  unfold finish
  split <;> (try split) <;> (try split)
  all_goals
    refine counted_note h rfl (by rw [hp]; rfl) ?_
    first
      | exact .inl rfl
      | exact .inr ⟨_, rfl, by simp [illegalOperation]⟩

theorem counted_step {s : State} (h : Counted s) (e : Ev) : Counted (step s e) := by
  unfold step
  split
  · exact h
  cases e with
  | tick n => exact counted_note h rfl rfl (.inl rfl)
  | callStart =>
    simp only; split
    · next hi => exact counted_note h rfl (by rw [hi]; rfl) (.inr ⟨_, rfl, by simp⟩)
    · exact h
  | callStop =>
    simp only; split
    · next hi => exact counted_note h rfl (by rw [hi]; rfl) (.inr ⟨_, rfl, by simp⟩)
    · exact h
  | callStatus =>
    simp only; split
    · next hi => exact counted_note h rfl (by rw [hi]; rfl) (.inl rfl)
    · exact h
  | setTimeout t => simp only; split; exact counted_note h rfl rfl (.inl rfl); exact h
  | cancel i => simp only; split; exact counted_note h rfl rfl (.inl rfl); exact h
  | worker i a =>
    simp only [workerStep]
    cases hp : (s.ws i).pc <;> simp only
    all_goals try split
    all_goals
      first
        | exact h
        | exact counted_note h rfl rfl (.inl rfl)
        | exact counted_note h rfl rfl (.inr ⟨_, rfl, by simp⟩)
  | ctl a =>
    simp only [ctlStep]
    cases hp : s.ctl <;> simp only
    case idle => exact h
    case gId y =>
      split
      · exact counted_finish h y _ (by rw [hp]; rfl)
      · exact counted_note h rfl (by rw [hp]; rfl) (.inl rfl)
    case gAlive y => split <;> exact counted_note h rfl (by rw [hp]; rfl) (.inl rfl)
    case gReset y =>
      have hr : Counted s.resetThreadId := counted_note h (reset_same s).2.1 (by unfold State.resetThreadId; split <;> rfl)
        (.inl (reset_trace s))
      exact counted_finish hr y _ (by unfold State.resetThreadId; split <;> simp [hp, pendingStart])
    case gCmd y =>
      split
      · exact counted_finish h y _ (by rw [hp]; rfl)
      · exact counted_note h rfl (by rw [hp]; rfl) (.inl rfl)
    case gTime y c => exact counted_finish h y _ (by rw [hp]; rfl)
    case startAlive =>
      split
      · exact counted_note h rfl (by rw [hp]; rfl) (.inr ⟨_, rfl, by simp [illegalOperation]⟩)
      · exact counted_note h rfl (by rw [hp]; rfl) (.inl rfl)
    case startBegin =>
      have hc := h.cnt
      rw [hp] at hc
      split
      · refine ⟨?_, h.val⟩
        show s.trace.count _ + 1 = s.n + 1
        simp [pendingStart] at hc; omega
      · exact counted_note h rfl (by rw [hp]; rfl) (.inl rfl)
    case startId w =>
      have hc := h.cnt
      rw [hp] at hc
      cases w with
      | none => exact counted_note h rfl (by rw [hp]; rfl) (.inr ⟨_, rfl, by simp [fatalError]⟩)
      | some w =>
        refine ⟨?_, fun e he => ?_⟩
        · show (s.trace ++ [_]).count _ + 0 = s.n
          simp only [pendingStart] at hc
          rw [List.count_append]; simp; exact hc
        · have he : Obs.startRet e ∈ s.trace ++ [.startRet 0] := by simpa [State.log, State.goto] using he
          rw [List.mem_append, List.mem_singleton] at he
          rcases he with he | he
          · exact h.val e he
          · left; injection he
    case stopReset =>
      refine counted_note h ?_ (by rw [hp]; rfl) (.inr ⟨.stopRet 0, ?_, by simp⟩)
      · exact (reset_same s).2.1
      · show s.resetThreadId.trace ++ _ = _; rw [reset_trace]
    case killReset e =>
      refine counted_note h ?_ (by rw [hp]; rfl) (.inr ⟨.stopRet e, ?_, by simp⟩)
      · exact (reset_same s).2.1
      · show s.resetThreadId.trace ++ _ = _; rw [reset_trace]
    case killThread =>
      unfold killThread
      split
      · exact counted_note h rfl (by rw [hp]; rfl) (.inl rfl)
      · split
        · exact counted_note h rfl (by rw [hp]; rfl) (.inr ⟨_, rfl, by simp⟩)
        · exact counted_note h rfl (by rw [hp]; rfl) (.inl rfl)
    case asyncCall e => exact counted_note h rfl (by rw [hp]; rfl) (.inr ⟨_, rfl, by simp⟩)
    all_goals exact counted_note h rfl (by rw [hp]; rfl) (.inl rfl)

theorem counted_run {s : State} (h : Counted s) (es : List Ev) : Counted (run s es) := by
  induction es generalizing s with
  | nil => exact h
  | cons e es ih => exact ih (counted_step h e)

theorem counted_init (c : Nat) : Counted (init c) := ⟨rfl, by simp [init]⟩

/-- `Stop` of a service none of whose threads is alive. -/
theorem stop_off {s : State} (hi : Inv s) (hc : s.ctl = .idle) (hg : ∀ i, (s.ws i).pc = .gone) (a b c : Nat) :
    (run s [.callStop, .ctl a, .ctl b, .ctl c]).trace = s.trace ++ [.stopCall, .stopRet 0] := by
  have hcr := hi.ok
  have hdb : ∀ i, (s.ws i).inDb = false := by
    intro i
    cases h : (s.ws i).inDb
    · rfl
    · exact absurd (hg i) ((hi.db i).mp h)
  cases ht : s.threadId with
  | none => simp [run, step, ctlStep, finish, State.log, State.goto, hc, hcr, ht]
  | some j => simp [run, step, ctlStep, finish, State.log, State.goto, hc, hcr, ht, State.isAlive, hdb, State.resetThreadId]

/-- The end of a second `Stop`, when the thread has ended meanwhile. -/
theorem kill_off {s : State} (hi : Inv s) (hc : s.ctl = .gId .killEnd) (hg : ∀ i, (s.ws i).pc = .gone) (a : Nat) :
    (run s (List.replicate 6 (.ctl a))).trace = s.trace ++ [.asyncCalled, .stopRet a] := by
  have hcr := hi.ok
  have hdb : ∀ i, (s.ws i).inDb = false := by
    intro i
    cases h : (s.ws i).inDb
    · rfl
    · exact absurd (hg i) ((hi.db i).mp h)
  have ha : (if errorsCleared a = true then 0 else a) = a := by
    unfold errorsCleared
    split
    · next h => simp at h; exact h.symm
    · rfl
  cases ht : s.threadId with
  | none =>
    simp [run, step, ctlStep, finish, State.log, State.goto, hc, hcr, ht, State.resetThreadId, State.isAlive, List.replicate, ha]
  | some j =>
    simp [run, step, ctlStep, finish, State.log, State.goto, hc, hcr, ht, State.isAlive, hdb, State.resetThreadId,
      List.replicate, ha]

end Verif.EmbeddedThread
