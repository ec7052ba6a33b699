import Verif.Spec.PollEvent
/-! ## C110: the polling event semaphore -/
set_option linter.unusedSimpArgs false
set_option maxRecDepth 8000
namespace Verif.PollEvent
open Verif.Spec.PollEvent

private theorem up_snoc (tr : List Obs) (o : Obs) : isUp (tr ++ [o]) = next (isUp tr) o := by simp [isUp]

private def cond (up : Bool) : Obs → Prop
  | .passed _ => up = true
  | .timedOut _ start ticks now => start + ticks < 2 ^ 64 → start + ticks < now
  | _ => True

private theorem ok_cons (up : Bool) (o : Obs) (os : List Obs) : Ok up (o :: os) ↔ cond up o ∧ Ok (next up o) os := by
  cases o <;> rfl

private theorem ok_snoc : ∀ (tr : List Obs) (up : Bool) (o : Obs), Ok up tr → cond (tr.foldl next up) o → Ok up (tr ++ [o])
  | [], up, o, _, h => by rw [List.nil_append, ok_cons]; exact ⟨h, trivial⟩
  | x :: tr, up, o, hx, h => by
    rw [ok_cons] at hx
    rw [List.cons_append, ok_cons]
    exact ⟨hx.1, ok_snoc tr (next up x) o hx.2 h⟩

private structure Inv (s : State) : Prop where
  ok : Ok false s.trace
  up : isUp s.trace = s.flag
  pcs : ∀ t, match s.pc t with
    | .poll to st sp | .check to st sp => sp = (to.getD 0 + st) % 2 ^ 64
    | _ => True

private theorem inv_emit {s : State} (h : Inv s) (o : Obs) (f : Bool) (hc : cond (isUp s.trace) o) (hf : next (isUp s.trace) o = f) (pc : Nat → PC)
    (hp : ∀ t, match pc t with
      | .poll to st sp | .check to st sp => sp = (to.getD 0 + st) % 2 ^ 64
      | _ => True) (c : Nat) : Inv ⟨f, c, pc, s.trace ++ [o]⟩ :=
  ⟨ok_snoc _ _ _ h.ok hc, by rw [up_snoc, hf], hp⟩

private theorem pcs_goto {s : State} (h : Inv s) (t : Nat) (p : PC)
    (hp : match p with
      | .poll to st sp | .check to st sp => sp = (to.getD 0 + st) % 2 ^ 64
      | _ => True) : ∀ u, match (if u = t then p else s.pc u) with
      | .poll to st sp | .check to st sp => sp = (to.getD 0 + st) % 2 ^ 64
      | _ => True := by
  intro u
  by_cases hu : u = t
  · simp only [hu, if_true]; exact hp
  · simp only [hu, if_false]; exact h.pcs u

private theorem inv_step {s : State} (h : Inv s) (e : Ev) : Inv (step s e) := by
  have hbegin : ∀ t timeout, Inv (begin s t timeout) := fun t timeout => ⟨h.ok, h.up, pcs_goto h t _ rfl⟩
  cases e with
  | create w => exact inv_emit h (.created w) (!w) trivial rfl s.pc h.pcs _
  | wait t timeout =>
    simp only [step]
    split
    · exact hbegin t timeout
    · exact h
  | resetWait t timeout =>
    simp only [step]
    split
    · exact inv_emit h (.lowered t) false trivial rfl _ (pcs_goto h t (.start timeout) trivial) _
    · exact h
  | post t =>
    simp only [step]
    split
    · exact inv_emit h (.posted t) true trivial rfl s.pc h.pcs _
    · exact h
  | reset t =>
    simp only [step]
    split
    · exact inv_emit h (.lowered t) false trivial rfl s.pc h.pcs _
    · exact h
  | run t =>
    simp only [step]
    have hpc := h.pcs t
    cases hp : s.pc t with
    | idle => exact h
    | start timeout => exact hbegin t timeout
    | poll timeout st sp =>
      rw [hp] at hpc
      simp only
      split
      · rename_i hf
        exact inv_emit h (.passed t) s.flag (by rw [h.up]; exact hf) h.up _ (pcs_goto h t .idle trivial) _
      · exact ⟨h.ok, h.up, pcs_goto h t (.check timeout st sp) hpc⟩
    | check timeout st sp =>
      rw [hp] at hpc
      cases timeout with
      | none => exact ⟨h.ok, h.up, pcs_goto h t (.poll none st sp) hpc⟩
      | some ticks =>
        simp only
        split
        · rename_i hc
          refine inv_emit h (.timedOut t st ticks s.clock) s.flag ?_ h.up _ (pcs_goto h t .idle trivial) _
          intro hfit
          simp only at hpc
          rw [hpc, Option.getD_some, Nat.mod_eq_of_lt (by omega)] at hc
          omega
        · exact ⟨h.ok, h.up, pcs_goto h t (.poll (some ticks) st sp) hpc⟩
  | tick n => exact ⟨h.ok, h.up, h.pcs⟩

private theorem inv_run : ∀ (es : List Ev) (s : State), Inv s → Inv (run s es)
  | [], _, h => h
  | e :: es, s, h => inv_run es (step s e) (inv_step h e)

private theorem inv_init (clock : Nat) : Inv (init clock) := ⟨trivial, rfl, fun _ => trivial⟩

/-- **C110.** In every schedule a wait is passed only while the barrier is up, and times out only after its time (if this is within
the counter of 64 bits). -/
theorem c110_passes (clock : Nat) (es : List Ev) : Ok false (run (init clock) es).trace := (inv_run es _ (inv_init clock)).ok

/-- Progress: a thread that polls while the barrier is up passes. -/
theorem c110_up_passes (clock : Nat) (es : List Ev) (t : Nat) (timeout : Option Nat) (st sp : Nat) (hup : isUp (run (init clock) es).trace = true)
    (hp : (run (init clock) es).pc t = .poll timeout st sp) :
    (step (run (init clock) es) (.run t)).trace = (run (init clock) es).trace ++ [.passed t] := by
  have := (inv_run es _ (inv_init clock)).up
  rw [hup] at this
  simp only [step, hp, ← this, if_true, State.emit, State.goto]

/-! ### A wait with a timeout ends -/

private theorem trace_grows (s : State) (e : Ev) : ∃ l, (step s e).trace = s.trace ++ l := by
  cases e <;> simp only [step]
  case create w => exact ⟨_, rfl⟩
  case wait t to => split <;> exact ⟨[], by simp [begin, State.goto]⟩
  case resetWait t to => split; exact ⟨_, rfl⟩; exact ⟨[], by simp⟩
  case post t => split; exact ⟨_, rfl⟩; exact ⟨[], by simp⟩
  case reset t => split; exact ⟨_, rfl⟩; exact ⟨[], by simp⟩
  case run t =>
    cases s.pc t with
    | idle => exact ⟨[], by simp⟩
    | start to => exact ⟨[], by simp [begin, State.goto]⟩
    | poll a b c => simp only; split; exact ⟨_, rfl⟩; exact ⟨[], by simp [State.goto]⟩
    | check a b c =>
      cases a with
      | none => exact ⟨[], by simp [State.goto]⟩
      | some k => simp only; split; exact ⟨_, rfl⟩; exact ⟨[], by simp [State.goto]⟩
  case tick n => exact ⟨[], by simp⟩

private theorem run_grows : ∀ (es : List Ev) (s : State), ∃ l, (run s es).trace = s.trace ++ l
  | [], s => ⟨[], by simp [run]⟩
  | e :: es, s => by
    obtain ⟨a, ha⟩ := trace_grows s e
    obtain ⟨b, hb⟩ := run_grows es (step s e)
    exact ⟨a ++ b, by show (run (step s e) es).trace = _; rw [hb, ha, List.append_assoc]⟩

/-- What other events do to a thread that is in a call: nothing. -/
private theorem step_other (s : State) (t : Nat) (hp : s.pc t ≠ .idle) (e : Ev) (he : e ≠ .run t) : (step s e).pc t = s.pc t ∧ s.clock ≤ (step s e).clock := by
  have hne : ∀ u, s.pc u = .idle → u ≠ t := fun u hu hut => hp (hut ▸ hu)
  cases e <;> simp only [step]
  case create w => exact ⟨rfl, Nat.le_refl _⟩
  case wait u to => split; rename_i hu; exact ⟨by simp [begin, State.goto, Ne.symm (hne u hu)], Nat.le_refl _⟩; exact ⟨rfl, Nat.le_refl _⟩
  case resetWait u to => split; rename_i hu; exact ⟨by simp [State.emit, State.goto, Ne.symm (hne u hu)], Nat.le_refl _⟩; exact ⟨rfl, Nat.le_refl _⟩
  case post u => split <;> exact ⟨rfl, Nat.le_refl _⟩
  case reset u => split <;> exact ⟨rfl, Nat.le_refl _⟩
  case run u =>
    have hut : t ≠ u := fun h => he (by rw [h])
    cases s.pc u with
    | idle => exact ⟨rfl, Nat.le_refl _⟩
    | start to => exact ⟨by simp [begin, State.goto, hut], Nat.le_refl _⟩
    | poll a b c => simp only; split <;> exact ⟨by simp [State.emit, State.goto, hut], Nat.le_refl _⟩
    | check a b c =>
      cases a with
      | none => exact ⟨by simp [State.emit, State.goto, hut], Nat.le_refl _⟩
      | some k => simp only; split <;> exact ⟨by simp [State.emit, State.goto, hut], Nat.le_refl _⟩
  case tick n => exact ⟨trivial, by simp⟩

/-- The call of the thread has ended in these events. -/
def Ended (t : Nat) (l : List Obs) : Prop := .passed t ∈ l ∨ ∃ a b c, .timedOut t a b c ∈ l

private theorem ended_of (s s' : State) (es : List Ev) (t : Nat) (o : Obs) (ho : Ended t [o]) (h : s'.trace = s.trace ++ [o]) :
    ∃ l, (run s' es).trace = s.trace ++ l ∧ Ended t l := by
  obtain ⟨b, hb⟩ := run_grows es s'
  refine ⟨o :: b, by rw [hb, h, List.append_assoc]; rfl, ?_⟩
  rcases ho with ho | ⟨x, y, z, ho⟩
  · left; simp at ho; simp [ho]
  · right; exact ⟨x, y, z, by simp at ho; simp [ho]⟩

private theorem check_ends (t ticks st sp : Nat) : ∀ (es : List Ev) (s : State), s.pc t = .check (some ticks) st sp → sp < s.clock → .run t ∈ es →
    ∃ l, (run s es).trace = s.trace ++ l ∧ Ended t l
  | e :: es, s, hp, hc, hm => by
    by_cases he : e = .run t
    · subst he
      refine ended_of s _ es t (.timedOut t st ticks s.clock) (.inr ⟨st, ticks, s.clock, by simp⟩) ?_
      simp only [step, hp, if_pos (show s.clock > sp from hc), State.emit, State.goto]
    · obtain ⟨h1, h2⟩ := step_other s t (by rw [hp]; simp) e he
      obtain ⟨l, h3, h4⟩ := check_ends t ticks st sp es (step s e) (h1.trans hp) (by omega) (by simpa [Ne.symm he] using hm)
      obtain ⟨a, ha⟩ := trace_grows s e
      refine ⟨a ++ l, by show (run (step s e) es).trace = _; rw [h3, ha, List.append_assoc], ?_⟩
      rcases h4 with h4 | ⟨x, y, z, h4⟩
      · exact .inl (by simp [h4])
      · exact .inr ⟨x, y, z, by simp [h4]⟩

/-- Once its time is over a wait ends, passed or timed out, within two of its own steps, whatever the other threads do in between. -/
theorem c110_ends (t ticks st sp : Nat) : ∀ (es : List Ev) (s : State), s.pc t = .poll (some ticks) st sp → sp < s.clock → 2 ≤ es.count (.run t) →
    ∃ l, (run s es).trace = s.trace ++ l ∧ Ended t l
  | [], _, _, _, h => absurd h (by simp)
  | e :: es, s, hp, hc, hm => by
    by_cases he : e = .run t
    · subst he
      cases hf : s.flag with
      | true =>
        refine ended_of s _ es t (.passed t) (.inl (by simp)) ?_
        simp only [step, hp, hf, if_true, State.emit, State.goto]
      | false =>
        have hs : step s (.run t) = s.goto t (.check (some ticks) st sp) := by simp [step, hp, hf]
        have hmem : Ev.run t ∈ es := by
          rw [List.count_cons_self] at hm
          exact List.count_pos_iff.mp (by omega)
        obtain ⟨l, h3, h4⟩ := check_ends t ticks st sp es (s.goto t (.check (some ticks) st sp)) (by simp [State.goto]) hc hmem
        exact ⟨l, by show (run (step s (.run t)) es).trace = _; rw [hs]; exact h3, h4⟩
    · obtain ⟨h1, h2⟩ := step_other s t (by rw [hp]; simp) e he
      have hcnt : 2 ≤ es.count (.run t) := by rw [List.count_cons_of_ne he] at hm; exact hm
      obtain ⟨l, h3, h4⟩ := c110_ends t ticks st sp es (step s e) (h1.trans hp) (by omega) hcnt
      obtain ⟨a, ha⟩ := trace_grows s e
      refine ⟨a ++ l, by show (run (step s e) es).trace = _; rw [h3, ha, List.append_assoc], ?_⟩
      rcases h4 with h4 | ⟨x, y, z, h4⟩
      · exact .inl (by simp [h4])
      · exact .inr ⟨x, y, z, by simp [h4]⟩

/-- A wait without a timeout never times out. -/
theorem c110_infinite (s : State) (t st sp : Nat) (h : s.pc t = .poll none st sp ∨ s.pc t = .check none st sp) :
    (step s (.run t)).trace = s.trace ++ [.passed t] ∨
    ((step s (.run t)).trace = s.trace ∧ ((step s (.run t)).pc t = .poll none st sp ∨ (step s (.run t)).pc t = .check none st sp)) := by
  rcases h with h | h
  · cases hf : s.flag <;> simp [step, h, hf, State.goto, State.emit]
  · simp [step, h, State.goto]

/-! ### What does not hold -/

/-- The constructor is said to leave the semaphore unlocked, but a wait on it does not pass. -/
theorem c110_constructor_fails (clock t : Nat) (timeout : Option Nat) :
    isUp (init clock).trace = false ∧
    (run (init clock) [.wait t timeout, .run t]).trace = [] := by
  simp [run, step, init, begin, State.goto, isUp]

/-- A waiting thread does not see that the barrier is raised if it is lowered again before it polls. -/
theorem c110_pulse_fails (clock t u : Nat) (h : t ≠ u) :
    ∀ n, (run (init clock) (.wait t none :: .run t :: .post u :: .reset u :: List.replicate n (.run t))).trace = [.posted u, .lowered u] := by
  intro n
  have h0 : (run (init clock) [.wait t none, .run t, .post u, .reset u]).flag = false ∧
      (run (init clock) [.wait t none, .run t, .post u, .reset u]).trace = [.posted u, .lowered u] ∧
      ∃ st sp, (run (init clock) [.wait t none, .run t, .post u, .reset u]).pc t = .check none st sp := by
    simp [run, step, init, begin, State.goto, State.emit, h, Ne.symm h]
  have gen : ∀ (n : Nat) (s : State), s.flag = false → (∃ st sp, s.pc t = .check none st sp ∨ s.pc t = .poll none st sp) →
      (run s (List.replicate n (.run t))).trace = s.trace := by
    intro n
    induction n with
    | zero => intro s _ _; rfl
    | succ n ih =>
      intro s hf ⟨st, sp, hp⟩
      rw [List.replicate_succ]
      show (run (step s (.run t)) _).trace = _
      have hs : (step s (.run t)).flag = false ∧ (step s (.run t)).trace = s.trace ∧
          ∃ st sp, (step s (.run t)).pc t = .check none st sp ∨ (step s (.run t)).pc t = .poll none st sp := by
        rcases hp with hp | hp
        · refine ⟨by simp [step, hp, State.goto, hf], by simp [step, hp, State.goto], st, sp, .inr (by simp [step, hp, State.goto])⟩
        · refine ⟨by simp [step, hp, State.goto, hf], by simp [step, hp, State.goto, hf], st, sp, .inl (by simp [step, hp, State.goto, hf])⟩
      rw [ih _ hs.1 hs.2.2, hs.2.1]
  obtain ⟨st, sp, hp⟩ := h0.2.2
  have := gen n _ h0.1 ⟨st, sp, .inl hp⟩
  rw [h0.2.1] at this
  exact this

/-- A timeout that ends beyond the counter of 64 bits expires at once. -/
theorem c110_wrap_fails (t : Nat) :
    (run (init (2 ^ 64 - 10)) [.wait t (some 1000), .run t, .run t]).trace = [.timedOut t (2 ^ 64 - 10) 1000 (2 ^ 64 - 10)] := by
  simp [run, step, init, begin, State.goto, State.emit]

/-- Two waiters, one with a timeout that ends, one that passes; the barrier is lowered by a third that waits. -/
example : (run (init 5) [.wait 0 none, .run 0, .wait 1 (some 3), .run 1, .tick 4, .run 1, .post 2, .run 0, .run 0, .resetWait 2 none, .run 2, .run 2]).trace =
    [.timedOut 1 5 3 9, .posted 2, .passed 0, .lowered 2] := by decide

end Verif.PollEvent
