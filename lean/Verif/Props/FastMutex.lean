import Verif.Model.FastMutex

namespace Verif.Spec.FastMutex
open Verif.FastMutex

/-- What an observed event does to the set of holders. -/
def upd (h : List Nat) : Obs → List Nat
  | .acquired t => t :: h
  | .released t => h.erase t
  | _ => h

/-- The threads that hold the lock after the observed events: acquired and not released since. -/
def holders (trace : List Obs) : List Nat := trace.foldl upd []

end Verif.Spec.FastMutex

namespace Verif.FastMutex
open Verif.Spec.FastMutex

theorem holders_snoc (tr : List Obs) (o : Obs) : holders (tr ++ [o]) = upd (holders tr) o := by
  simp [holders]

/-- The rule the callers follow: only a thread that holds the lock unlocks it. -/
def ok (s : State) : Ev → Prop
  | .unlock t => t ∈ holders s.trace
  | _ => True

instance (s : State) (e : Ev) : Decidable (ok s e) := by cases e <;> unfold ok <;> infer_instance

/-- Every call of the schedule follows the rule. -/
def Legal : State → List Ev → Prop
  | _, [] => True
  | s, e :: es => ok s e ∧ Legal (step s e) es

instance : (s : State) → (es : List Ev) → Decidable (Legal s es)
  | _, [] => inferInstanceAs (Decidable True)
  | s, e :: es => @instDecidableAnd _ _ _ (instDecidableLegal (step s e) es)

/-- Running a schedule. -/
def run (s : State) (es : List Ev) : State := es.foldl step s

structure Inv (s : State) : Prop where
  one : (holders s.trace).length = if s.flag then 1 else 0
  pcs : ∀ t, match s.pc t with
    | .idle => True
    | .poll to st sp | .check to st sp => sp = (to.getD 0 + st) % 2 ^ 64
  outs : ∀ t st ti nw, .timedOut t st ti nw ∈ s.trace → st + ti < 2 ^ 64 → st + ti < nw

theorem inv_step {s : State} (h : Inv s) (e : Ev) (hl : ok s e) :
    Inv (step s e) := by
  obtain ⟨h1, h2, h3⟩ := h
  cases e with
  | tick n => exact ⟨h1, h2, h3⟩
  | lock t timeout =>
    simp only [step]
    split
    · refine ⟨h1, ?_, h3⟩
      intro u
      simp only [State.goto]
      by_cases hu : u = t
      · simp [hu]
      · simp only [hu, if_false]; exact h2 u
    · exact ⟨h1, h2, h3⟩
  | tryLock t =>
    simp only [step]
    split
    · cases hf : s.flag with
      | false =>
        simp only [Bool.not_false, if_true]
        refine ⟨?_, h2, ?_⟩
        · simp only [holders_snoc, upd, List.length_cons, h1, hf]; simp
        · intro t' st ti nw hm; simp at hm; exact h3 t' st ti nw hm
      | true =>
        simp only [Bool.not_true, Bool.false_eq_true, if_false]
        refine ⟨?_, h2, ?_⟩
        · simp only [holders_snoc, upd, h1, hf]
        · intro t' st ti nw hm; simp at hm; exact h3 t' st ti nw hm
    · exact ⟨h1, h2, h3⟩
  | unlock t =>
    simp only [step]
    split
    · refine ⟨?_, h2, ?_⟩
      · simp only [holders_snoc, upd, Bool.false_eq_true, if_false]
        rw [List.length_erase_of_mem hl, h1]
        split <;> rfl
      · intro t' st ti nw hm; simp at hm; exact h3 t' st ti nw hm
    · exact ⟨h1, h2, h3⟩
  | run t =>
    have h2t := h2 t
    simp only [step]
    cases hp : s.pc t with
    | idle => exact ⟨h1, h2, h3⟩
    | poll timeout start stop =>
      simp only [hp] at h2t ⊢
      have hpcs : ∀ p : PC, (match p with
          | .idle => True
          | .poll to st sp | .check to st sp => sp = (to.getD 0 + st) % 2 ^ 64) →
          ∀ u, match (s.goto t p).pc u with
            | .idle => True
            | .poll to st sp | .check to st sp => sp = (to.getD 0 + st) % 2 ^ 64 := by
        intro p hp u
        simp only [State.goto]
        by_cases hu : u = t
        · simp only [hu, if_true]; exact hp
        · simp only [hu, if_false]; exact h2 u
      cases hf : s.flag with
      | false =>
        simp only [Bool.not_false, if_true]
        refine ⟨?_, hpcs .idle trivial, ?_⟩
        · simp only [holders_snoc, upd, List.length_cons, h1, hf]; simp
        · intro t' st ti nw hm; simp at hm; exact h3 t' st ti nw hm
      | true =>
        simp only [Bool.not_true, Bool.false_eq_true, if_false]
        exact ⟨h1, hpcs (.check timeout start stop) h2t, h3⟩
    | check timeout start stop =>
      simp only [hp] at h2t ⊢
      have hpcs : ∀ p : PC, (match p with
          | .idle => True
          | .poll to st sp | .check to st sp => sp = (to.getD 0 + st) % 2 ^ 64) →
          ∀ u, match (s.goto t p).pc u with
            | .idle => True
            | .poll to st sp | .check to st sp => sp = (to.getD 0 + st) % 2 ^ 64 := by
        intro p hp u
        simp only [State.goto]
        by_cases hu : u = t
        · simp only [hu, if_true]; exact hp
        · simp only [hu, if_false]; exact h2 u
      cases timeout with
      | none => exact ⟨h1, hpcs (.poll none start stop) h2t, h3⟩
      | some ticks =>
        simp only
        split
        · next hc =>
          refine ⟨?_, hpcs .idle trivial, ?_⟩
          · simp only [holders_snoc, upd]; exact h1
          · intro t' st ti nw hm hlt
            simp only [List.mem_append, List.mem_singleton] at hm
            rcases hm with hm | hm
            · exact h3 t' st ti nw hm hlt
            · cases hm
              simp only [Option.getD_some] at h2t
              rw [Nat.mod_eq_of_lt (by omega)] at h2t
              omega
        · exact ⟨h1, hpcs (.poll (some ticks) start stop) h2t, h3⟩

theorem inv_run (clock : Nat) (es : List Ev) (h : Legal (init clock) es) : Inv (run (init clock) es) := by
  have : ∀ es s, Inv s → Legal s es → Inv (run s es) := by
    intro es
    induction es with
    | nil => intro s hs _; exact hs
    | cons e es ih => intro s hs hl; exact ih (step s e) (inv_step hs e hl.1) hl.2
  exact this es _ ⟨rfl, fun _ => trivial, fun _ _ _ _ h => by cases h⟩ h

/-- **C22.**  For any number of threads and any interleaving in which only holders unlock, at no time do two threads
hold the lock (in particular a call that timed out or reported busy does not hold it). -/
theorem c22_mutual_exclusion (clock : Nat) (es : List Ev) (h : Legal (init clock) es) :
    (holders (run (init clock) es).trace).length ≤ 1 := by
  rw [(inv_run clock es h).one]; split <;> omega

/-- **C22 progress.**  A thread that polls while nobody holds the lock gets it. -/
theorem c22_free_lock_is_taken (clock : Nat) (es : List Ev) (h : Legal (init clock) es) (t : Nat)
    (hfree : holders (run (init clock) es).trace = []) (timeout : Option Nat) (start stop : Nat)
    (hpoll : (run (init clock) es).pc t = .poll timeout start stop) :
    holders (step (run (init clock) es) (.run t)).trace = [t] := by
  have hi := inv_run clock es h
  have hf : (run (init clock) es).flag = false := by
    have := hi.one
    rw [hfree] at this
    cases hh : (run (init clock) es).flag with
    | false => rfl
    | true => rw [hh] at this; simp at this
  simp only [step, hpoll, hf, Bool.not_false, if_true, holders_snoc, hfree, upd]

/-- **C22 timeout.**  `FastLock` reports a timeout only after the timeout has elapsed (as long as the deadline fits the
64-bit counter). -/
theorem c22_timeout_elapsed (clock : Nat) (es : List Ev) (h : Legal (init clock) es) (t start ticks now : Nat)
    (ht : .timedOut t start ticks now ∈ (run (init clock) es).trace) (hfit : start + ticks < 2 ^ 64) :
    start + ticks < now := (inv_run clock es h).outs t start ticks now ht hfit

/-- A legal run with contention: thread 1 waits for thread 0 and gets the lock after it, thread 2 times out. -/
example : Legal (init 5) [.lock 0 none, .run 0, .lock 1 none, .lock 2 (some 3), .run 1, .run 2, .tick 4, .run 2, .unlock 0,
      .run 1, .run 1] ∧
    (run (init 5) [.lock 0 none, .run 0, .lock 1 none, .lock 2 (some 3), .run 1, .run 2, .tick 4, .run 2, .unlock 0,
      .run 1, .run 1]).trace = [.acquired 0, .timedOut 2 5 3 9, .released 0, .acquired 1] := by
  decide

end Verif.FastMutex
