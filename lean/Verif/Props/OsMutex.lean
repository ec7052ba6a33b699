import Verif.Spec.OsMutex
import Verif.Props.FloatPrint
/-! ## C109: the mutual exclusion semaphore of the system -/
set_option linter.unusedSimpArgs false
set_option maxRecDepth 8000
namespace Verif.OsMutex
open Verif.Spec.OsMutex

/-- How the semaphore has to be used: it is created when it is closed and the system lets it; it is closed, or its last object
destroyed, when no thread has it or is calling it; only a thread that has it unlocks it, unless it is recursive. -/
def rule (s : State) : Ev → Prop
  | .create _ ok => ok = true ∧ (view s.trace).isOpen = false
  | .close => (view s.trace).holder = none ∧ ∀ t, s.pc t = .idle
  | .destroy => s.references = 1 → (view s.trace).holder = none ∧ ∀ t, s.pc t = .idle
  | .unlock t => (view s.trace).isOpen = true → (view s.trace).recursive = false → Holds s.trace t
  | _ => True

/-- Every event follows the rule, until the last object is destroyed. -/
def Legal : State → List Ev → Prop
  | _, [] => True
  | s, e :: es => s.deleted = false ∧ rule s e ∧ ∀ s', step s e = some s' → Legal s' es

private theorem view_snoc (tr : List Obs) (o : Obs) : view (tr ++ [o]) = (view tr).next o := by simp [view]

private theorem excl_snoc : ∀ (tr : List Obs) (v : View) (o : Obs), Exclusive v tr → (tr.foldl View.next v).allows o → Exclusive v (tr ++ [o])
  | [], _, _, _, h => ⟨h, trivial⟩
  | x :: tr, v, o, hx, h => ⟨hx.1, excl_snoc tr (v.next x) o hx.2 h⟩

/-- The owner of the mutex in the words of the view. -/
private def Mutex.holder (m : Mutex) : Option (Nat × Nat) := m.owner.map fun t => (t, m.count)

structure Inv (s : State) : Prop where
  excl : Exclusive {} s.trace
  isOpen : (view s.trace).isOpen = !s.closed
  mtx : s.mutex.isSome = !s.closed
  kind : ∀ m, s.mutex = some m → m.recursive = (view s.trace).recursive
  hold : ∀ m, s.mutex = some m → (view s.trace).holder = m.holder
  free : s.mutex = none → (view s.trace).holder = none
  pos : ∀ m, s.mutex = some m → (m.owner = none ∨ 0 < m.count)
  calls : s.closed = true → ∀ t, s.pc t = .idle
  leave : ∀ t, s.pc t = .leave → (view s.trace).recursive = true ∨ Holds s.trace t
  refs : 0 < s.references

private theorem inv_init : Inv init :=
  ⟨trivial, rfl, rfl, fun _ h => (by cases h), fun _ h => (by cases h), fun _ => rfl, fun _ h => (by cases h), fun _ _ => rfl, fun _ h => (by cases h), by decide⟩


/-- Nothing observable happens to the semaphore: only where threads are and their cancellation change. -/
private theorem inv_pc {s s' : State} (h : Inv s) (h1 : s'.trace = s.trace) (h2 : s'.closed = s.closed) (h3 : s'.mutex = s.mutex)
    (h4 : s'.closed = true → ∀ t, s'.pc t = .idle)
    (h5 : ∀ t, s'.pc t = .leave → (view s.trace).recursive = true ∨ Holds s.trace t) (h6 : 0 < s'.references) : Inv s' := by
  obtain ⟨a, b, c, d, e, f, g, i, j, k⟩ := h
  refine ⟨?_, ?_, ?_, ?_, ?_, ?_, ?_, h4, ?_, h6⟩
  · rw [h1]; exact a
  · rw [h1, h2]; exact b
  · rw [h2, h3]; exact c
  · rw [h1, h3]; exact d
  · rw [h1, h3]; exact e
  · rw [h1, h3]; exact f
  · rw [h3]; exact g
  · rw [h1]; exact h5

/-- An answer that changes nothing of the view. -/
private theorem inv_same {s s' : State} (h : Inv s) (o : Obs) (ho : (view s.trace).next o = view s.trace) (ha : (view s.trace).allows o)
    (h1 : s'.trace = s.trace ++ [o]) (h2 : s'.closed = s.closed) (h3 : s'.mutex = s.mutex)
    (h4 : s'.closed = true → ∀ t, s'.pc t = .idle)
    (h5 : ∀ t, s'.pc t = .leave → (view s.trace).recursive = true ∨ Holds s.trace t) (h6 : 0 < s'.references) : Inv s' := by
  obtain ⟨a, b, c, d, e, f, g, i, j, k⟩ := h
  have hv : view s'.trace = view s.trace := by rw [h1, view_snoc, ho]
  refine ⟨?_, ?_, ?_, ?_, ?_, ?_, ?_, h4, ?_, h6⟩
  · rw [h1]; exact excl_snoc _ _ _ a ha
  · rw [hv, h2]; exact b
  · rw [h2, h3]; exact c
  · rw [hv, h3]; exact d
  · rw [hv, h3]; exact e
  · rw [hv, h3]; exact f
  · rw [h3]; exact g
  · simp only [Holds, hv]; exact h5

private theorem mutex_some {s : State} (h : Inv s) {t : Nat} (hp : s.pc t ≠ .idle) : s.closed = false ∧ ∃ m, s.mutex = some m := by
  have hc : s.closed = false := by
    cases hc : s.closed with
    | false => rfl
    | true => exact absurd (h.calls hc t) hp
  have := h.mtx
  rw [hc] at this
  exact ⟨hc, Option.isSome_iff_exists.mp this⟩

private theorem inv_tryLock {s : State} (h : Inv s) (t : Nat) (timed : Bool) (hp : s.pc t = .enter timed ∨ s.pc t = .blocked timed) :
    ∃ s', tryLock s t timed = some s' ∧ Inv s' := by
  obtain ⟨hc, m, hm⟩ := mutex_some h (t := t) (by rcases hp with hp | hp <;> rw [hp] <;> simp)
  have hp' : s.pc t ≠ .leave := by rcases hp with hp | hp <;> rw [hp] <;> simp
  simp only [tryLock, hm]
  have hh := h.hold m hm
  have hopen : (view s.trace).isOpen = true := by rw [h.isOpen, hc]; rfl
  have hr := h.kind m hm
  cases ha : m.acquire t with
  | none =>
    refine ⟨_, rfl, inv_pc h rfl rfl rfl ?_ ?_ h.refs⟩
    · intro hcl; simp only [State.goto] at hcl; rw [hc] at hcl; cases hcl
    · intro u hu
      simp only [State.goto] at hu
      split at hu
      · cases hu
      · exact h.leave u hu
  | some m' =>
    refine ⟨_, rfl, ?_⟩
    -- the view after the lock
    have key : m'.recursive = m.recursive ∧ ((view s.trace).allows (.locked t)) ∧ ((view s.trace).next (.locked t)).holder = m'.holder ∧ 0 < m'.count := by
      simp only [Mutex.acquire] at ha
      cases ho : m.owner with
      | none =>
        rw [ho] at ha
        simp only [Option.some.injEq] at ha
        subst ha
        have hn : (view s.trace).holder = none := by rw [hh, Mutex.holder, ho]; rfl
        refine ⟨rfl, ⟨hopen, .inl hn⟩, ?_, by simp⟩
        simp only [View.next, hn, Mutex.holder]
        rfl
      | some o =>
        rw [ho] at ha
        simp only at ha
        split at ha
        · rename_i hor
          simp only [Option.some.injEq] at ha
          subst ha
          obtain ⟨rfl, hrec⟩ := hor
          have hn : (view s.trace).holder = some (o, m.count) := by rw [hh, Mutex.holder, ho]; rfl
          refine ⟨rfl, ⟨hopen, .inr ⟨by rw [← hr]; exact hrec, _, hn⟩⟩, ?_, by simp⟩
          simp only [View.next, hn, Mutex.holder, ho]
          rfl
        · cases ha
    obtain ⟨k1, k2, k3, k4⟩ := key
    have hv : view (((({ s with mutex := some m' } : State).goto t .idle).emit (.locked t)).trace) = (view s.trace).next (.locked t) := view_snoc _ _
    have hvo : ((view s.trace).next (.locked t)).isOpen = (view s.trace).isOpen := by simp only [View.next]; split <;> rfl
    have hvr : ((view s.trace).next (.locked t)).recursive = (view s.trace).recursive := by simp only [View.next]; split <;> rfl
    refine ⟨?_, ?_, ?_, ?_, ?_, ?_, ?_, ?_, ?_, h.refs⟩
    · exact excl_snoc _ _ _ h.excl k2
    · rw [hv, hvo]; exact h.isOpen
    · simp only [State.emit, State.goto, Option.isSome_some, hc]; rfl
    · intro m2 h2
      simp only [State.emit, State.goto, Option.some.injEq] at h2
      subst h2
      rw [hv, hvr, k1, hr]
    · intro m2 h2
      simp only [State.emit, State.goto, Option.some.injEq] at h2
      subst h2
      rw [hv, k3]
    · intro h2; cases h2
    · intro m2 h2
      simp only [State.emit, State.goto, Option.some.injEq] at h2
      subst h2
      exact .inr k4
    · intro hcl
      simp only [State.emit, State.goto] at hcl
      rw [hc] at hcl; cases hcl
    · intro u hu
      simp only [State.emit, State.goto] at hu
      split at hu
      · cases hu
      · rename_i hut
        rcases h.leave u hu with h1 | ⟨n, h1⟩
        · left; rw [hv, hvr]; exact h1
        · rcases k2.2 with h2 | ⟨h2, n', h3⟩
          · rw [h2] at h1; cases h1
          · rw [h3] at h1; cases h1; exact absurd rfl hut

private theorem inv_close {s : State} (h : Inv s) (hr : (view s.trace).holder = none ∧ ∀ t, s.pc t = .idle) : ∃ s', close s = some s' ∧ Inv s' := by
  rw [close]
  cases hc : s.closed with
  | true =>
    refine ⟨_, rfl, inv_same h .closed ?_ trivial rfl rfl rfl (fun _ => hr.2) (fun t ht => ?_) h.refs⟩
    · have := h.isOpen; rw [hc] at this
      simp only [View.next]
      generalize view s.trace = v at *
      cases v; simp_all
    · have := hr.2 t; simp only [State.emit] at ht; rw [this] at ht; cases ht
  | false =>
    have := h.mtx
    rw [hc] at this
    obtain ⟨m, hm⟩ := Option.isSome_iff_exists.mp this
    have hh := h.hold m hm
    rw [hr.1, Mutex.holder] at hh
    have ho : m.owner = none := by cases ho : m.owner with
      | none => rfl
      | some o => rw [ho] at hh; cases hh
    simp only [Bool.false_eq_true, if_false, hm, ho, if_true]
    refine ⟨_, rfl, ?_⟩
    have hv : view (({ s with closed := true, mutex := none } : State).emit .closed).trace = (view s.trace).next .closed := view_snoc _ _
    refine ⟨excl_snoc _ _ _ h.excl trivial, by rw [hv]; rfl, rfl, fun _ h2 => (by cases h2), fun _ h2 => (by cases h2), fun _ => by rw [hv]; exact hr.1,
      fun _ h2 => (by cases h2), fun _ => hr.2, fun t ht => ?_, h.refs⟩
    have := hr.2 t; simp only [State.emit] at ht; rw [this] at ht; cases ht

private theorem inv_step {s : State} (h : Inv s) (e : Ev) (hd : s.deleted = false) (hl : rule s e) : ∃ s', step s e = some s' ∧ Inv s' := by
  unfold step
  rw [if_neg (by rw [hd]; simp)]
  cases e with
  | create r ok =>
    obtain ⟨rfl, ho⟩ := hl
    have hc : s.closed = true := by have := h.isOpen; rw [ho] at this; simpa using this.symm
    have hm : s.mutex = none := by have := h.mtx; rw [hc] at this; simpa using this
    simp only [if_true, hm, Option.isSome_none, Bool.false_eq_true, if_false]
    refine ⟨_, rfl, ?_⟩
    have hv : view (({ s with closed := false, recursive := r, mutex := some ⟨none, 0, r⟩ } : State).emit (.created r true)).trace = { isOpen := true, recursive := r, holder := none } := view_snoc _ _
    refine ⟨excl_snoc _ _ _ h.excl trivial, by rw [hv]; rfl, rfl, fun m h2 => ?_, fun m h2 => ?_, fun h2 => (by cases h2), fun m h2 => ?_, fun h2 => (by cases h2), fun t ht => ?_, h.refs⟩
    · cases h2; rw [hv]
    · cases h2; rw [hv]; rfl
    · cases h2; exact .inl rfl
    · have := h.calls hc t; simp only [State.emit] at ht; rw [this] at ht; cases ht
  | close => exact inv_close h hl
  | copy => exact ⟨_, rfl, inv_pc h rfl rfl rfl h.calls h.leave (Nat.succ_pos _)⟩
  | destroy =>
    simp only
    split
    · rename_i hr
      split
      · exact ⟨_, rfl, inv_pc h rfl rfl rfl h.calls h.leave h.refs⟩
      · obtain ⟨s', h1, h2⟩ := inv_close h (hl hr)
        rw [h1]
        exact ⟨_, rfl, inv_pc h2 rfl rfl rfl h2.calls h2.leave h2.refs⟩
    · rename_i hr
      exact ⟨_, rfl, inv_pc h rfl rfl rfl h.calls h.leave (by have := h.refs; simp only; omega)⟩
  | lock t timed =>
    simp only
    split
    · rename_i hp
      cases hc : s.closed with
      | true =>
        exact ⟨_, rfl, inv_same h (.refused t) rfl (by simp only [View.allows]; rw [h.isOpen, hc]; rfl) rfl rfl rfl h.calls h.leave h.refs⟩
      | false =>
        refine ⟨_, rfl, ?_⟩
        cases timed <;> refine inv_pc h rfl rfl rfl (fun h2 => ?_) (fun u hu => ?_) h.refs
        · simp only [State.goto, State.cancel, Bool.false_eq_true, if_false] at h2; rw [hc] at h2; cases h2
        · simp only [State.goto, State.cancel, Bool.false_eq_true, if_false] at hu
          split at hu
          · cases hu
          · exact h.leave u hu
        · simp only [State.goto, State.cancel, if_true] at h2; rw [hc] at h2; cases h2
        · simp only [State.goto, State.cancel, if_true] at hu
          split at hu
          · cases hu
          · exact h.leave u hu
    · exact ⟨_, rfl, h⟩
  | unlock t =>
    simp only
    split
    · rename_i hp
      cases hc : s.closed with
      | true =>
        exact ⟨_, rfl, inv_same h (.notUnlocked t) rfl (.inl (by rw [h.isOpen, hc]; rfl)) rfl rfl rfl h.calls h.leave h.refs⟩
      | false =>
        refine ⟨_, rfl, inv_pc h rfl rfl rfl (fun h2 => ?_) (fun u hu => ?_) h.refs⟩
        · simp only [State.goto, Bool.false_eq_true, if_false] at h2; rw [hc] at h2; cases h2
        · simp only [State.goto, Bool.false_eq_true, if_false] at hu
          split at hu
          · rename_i hut
            subst hut
            have ho : (view s.trace).isOpen = true := by rw [h.isOpen, hc]; rfl
            cases hrec : (view s.trace).recursive with
            | true => exact .inl rfl
            | false => exact .inr (hl ho hrec)
          · exact h.leave u hu
    · exact ⟨_, rfl, h⟩
  | run t =>
    cases hp : s.pc t with
    | idle => simp only [hp]; exact ⟨_, rfl, h⟩
    | enter timed => simp only [hp]; exact inv_tryLock h t timed (.inl hp)
    | blocked timed => simp only [hp]; exact inv_tryLock h t timed (.inr hp)
    | leave =>
      obtain ⟨hc, m, hm⟩ := mutex_some h (t := t) (by rw [hp]; simp)
      have hh := h.hold m hm
      have hr := h.kind m hm
      have hopen : (view s.trace).isOpen = true := by rw [h.isOpen, hc]; rfl
      simp only [hp, hm, Mutex.release]
      by_cases ho : m.owner = some t
      · simp only [ho, if_true]
        refine ⟨_, rfl, ?_⟩
        have hn : (view s.trace).holder = some (t, m.count) := by rw [hh, Mutex.holder, ho]; rfl
        have hpos : 0 < m.count := by rcases h.pos m hm with h1 | h1
                                      · rw [ho] at h1; cases h1
                                      · exact h1
        generalize hm' : (if m.count ≤ 1 then ({ m with owner := none, count := 0 } : Mutex) else { m with owner := some t, count := m.count - 1 }) = m'
        have key : m'.recursive = m.recursive ∧ ((view s.trace).next (.unlocked t)).holder = m'.holder ∧ (m'.owner = none ∨ 0 < m'.count) := by
          subst hm'
          split
          · have : m.count = 1 := by omega
            rw [this] at hn
            simp only [View.next, hn, Mutex.holder]
            exact ⟨trivial, rfl, .inl trivial⟩
          · obtain ⟨k, hk⟩ : ∃ k, m.count = k + 2 := ⟨m.count - 2, by omega⟩
            rw [hk] at hn
            simp only [View.next, hn, Mutex.holder, hk, ho]
            exact ⟨trivial, rfl, .inr (by omega)⟩
        obtain ⟨k1, k3, k4⟩ := key
        have hv : view (((({ s with mutex := some m' } : State).cancel t true).goto t .idle).emit (.unlocked t)).trace = (view s.trace).next (.unlocked t) := view_snoc _ _
        have hvo : ((view s.trace).next (.unlocked t)).isOpen = (view s.trace).isOpen := by simp only [View.next]; split <;> rfl
        have hvr : ((view s.trace).next (.unlocked t)).recursive = (view s.trace).recursive := by simp only [View.next]; split <;> rfl
        refine ⟨?_, ?_, ?_, ?_, ?_, ?_, ?_, ?_, ?_, h.refs⟩
        · exact excl_snoc _ _ _ h.excl ⟨hopen, _, hn⟩
        · rw [hv, hvo]; exact h.isOpen
        · simp only [State.emit, State.goto, State.cancel, Option.isSome_some, hc]; rfl
        · intro m2 h2
          simp only [State.emit, State.goto, State.cancel, Option.some.injEq] at h2
          subst h2
          rw [hv, hvr, k1, hr]
        · intro m2 h2
          simp only [State.emit, State.goto, State.cancel, Option.some.injEq] at h2
          subst h2
          rw [hv, k3]
        · intro h2; cases h2
        · intro m2 h2
          simp only [State.emit, State.goto, State.cancel, Option.some.injEq] at h2
          subst h2
          exact k4
        · intro hcl
          simp only [State.emit, State.goto, State.cancel] at hcl
          rw [hc] at hcl; cases hcl
        · intro u hu
          simp only [State.emit, State.goto, State.cancel] at hu
          split at hu
          · cases hu
          · rename_i hut
            rcases h.leave u hu with h1 | ⟨n, h1⟩
            · left; rw [hv, hvr]; exact h1
            · rw [hn] at h1; cases h1; exact absurd rfl hut
      · have hnh : ∀ n, (view s.trace).holder ≠ some (t, n) := by
          intro n h1
          rw [hh, Mutex.holder] at h1
          cases ho2 : m.owner with
          | none => rw [ho2] at h1; cases h1
          | some o => rw [ho2] at h1; cases h1; exact ho ho2
        have hrec : (view s.trace).recursive = true := by
          rcases h.leave t hp with h1 | ⟨n, h1⟩
          · exact h1
          · exact absurd h1 (hnh n)
        simp only [ho, if_false, hr, hrec, if_true]
        refine ⟨_, rfl, inv_same h (.notUnlocked t) rfl (.inr ⟨hrec, hnh⟩) rfl rfl rfl (fun h2 => ?_) (fun u hu => ?_) h.refs⟩
        · simp only [State.goto, State.emit] at h2; rw [hc] at h2; cases h2
        · simp only [State.goto, State.emit] at hu
          split at hu
          · cases hu
          · exact h.leave u hu
  | expire t =>
    simp only
    split
    · rename_i hp
      refine ⟨_, rfl, inv_same h (.timedOut t) rfl trivial rfl rfl rfl (fun h2 => ?_) (fun u hu => ?_) h.refs⟩
      · have := (mutex_some h (t := t) (by rw [hp]; simp)).1
        simp only [State.goto, State.emit] at h2; rw [this] at h2; cases h2
      · simp only [State.goto, State.emit] at hu
        split at hu
        · cases hu
        · exact h.leave u hu
    · exact ⟨_, rfl, h⟩

private theorem inv_run : ∀ (es : List Ev) (s : State), Inv s → Legal s es → ∃ s', run s es = some s' ∧ Inv s'
  | [], s, h, _ => ⟨s, rfl, h⟩
  | e :: es, s, h, hl => by
    obtain ⟨s', h1, h2⟩ := inv_step h e hl.1 hl.2.1
    obtain ⟨s'', h3, h4⟩ := inv_run es s' h2 (hl.2.2 s' h1)
    exact ⟨s'', by rw [run, h1]; exact h3, h4⟩

/-- **C109 (partial).** For every schedule of any number of threads that use the semaphore as the rule says, nothing undefined
happens and every answer is that of a mutual exclusion semaphore: it is locked by a thread only if nobody has it (or, recursive,
the same thread), refused only if it is closed, and unlocked by the one that has it.

Missing: the uses that the rule leaves out; see the theorems that follow for what happens then. -/
theorem c109_exclusive_partial (es : List Ev) (h : Legal init es) : ∃ s, run init es = some s ∧ Exclusive {} s.trace := by
  obtain ⟨s, h1, h2⟩ := inv_run es init inv_init h
  exact ⟨s, h1, h2.excl⟩

/-- Progress: a thread that is locking gets the semaphore with its next step if nobody has it, or if it is recursive and this
thread has it. Otherwise it waits, and it does not get it. -/
theorem c109_progress_partial (es : List Ev) (h : Legal init es) (s : State) (hs : run init es = some s) (hd : s.deleted = false) (t : Nat) (timed : Bool)
    (hp : s.pc t = .enter timed ∨ s.pc t = .blocked timed) :
    ∃ s', step s (.run t) = some s' ∧
      (((view s.trace).holder = none ∨ ((view s.trace).recursive = true ∧ Holds s.trace t)) → s'.trace = s.trace ++ [.locked t] ∧ s'.pc t = .idle) ∧
      (¬ ((view s.trace).holder = none ∨ ((view s.trace).recursive = true ∧ Holds s.trace t)) → s'.trace = s.trace ∧ s'.pc t = .blocked timed) := by
  obtain ⟨s2, h1, h2⟩ := inv_run es init inv_init h
  rw [hs] at h1
  cases h1
  obtain ⟨hc, m, hm⟩ := mutex_some h2 (t := t) (by rcases hp with hp | hp <;> rw [hp] <;> simp)
  have hstep : step s (.run t) = tryLock s t timed := by
    unfold step
    rw [if_neg (by rw [hd]; simp)]
    rcases hp with hp | hp <;> simp only [hp]
  have hh := h2.hold m hm
  have hr := h2.kind m hm
  rw [hstep, tryLock]
  simp only [hm, Mutex.acquire]
  cases ho : m.owner with
  | none =>
    have hn : (view s.trace).holder = none := by rw [hh, Mutex.holder, ho]; rfl
    exact ⟨_, rfl, fun _ => ⟨rfl, by simp [State.goto, State.emit]⟩, fun hno => absurd (.inl hn) hno⟩
  | some o =>
    have hn : (view s.trace).holder = some (o, m.count) := by rw [hh, Mutex.holder, ho]; rfl
    simp only
    by_cases hor : o = t ∧ m.recursive = true
    · simp only [hor, and_self, if_true]
      refine ⟨_, rfl, fun _ => ⟨rfl, by simp [State.goto, State.emit]⟩, fun hno => absurd (.inr ⟨by rw [← hr]; exact hor.2, m.count, ?_⟩) hno⟩
      rw [hn, hor.1]
    · rw [if_neg hor]
      refine ⟨_, rfl, ?_, fun _ => ⟨rfl, by simp [State.goto]⟩⟩
      rintro (h3 | ⟨h3, n, h4⟩)
      · rw [hn] at h3; cases h3
      · rw [hn] at h4; cases h4; exact absurd ⟨rfl, hr.trans h3⟩ hor

/-- A closed semaphore refuses at once, and nothing else happens. -/
theorem c109_closed (s : State) (hd : s.deleted = false) (hc : s.closed = true) (t : Nat) (timed : Bool) (hp : s.pc t = .idle) :
    step s (.lock t timed) = some (s.emit (.refused t)) ∧ step s (.unlock t) = some (s.emit (.notUnlocked t)) := by
  simp [step, hd, hc, hp]

/-- The objects that share the handle: one at first, one more for each copy and one less for each that is destroyed; the handle is
deleted with the last. -/
def objects : Nat → List Ev → Option Nat
  | n, [] => some n
  | n, .copy :: es => if n = 0 then none else objects (n + 1) es
  | n, .destroy :: es => if n = 0 then none else objects (n - 1) es
  | n, _ :: es => if n = 0 then none else objects n es

private theorem close_frame {s s' : State} (h : close s = some s') : s'.deleted = s.deleted ∧ s'.references = s.references := by
  simp only [close] at h
  split at h
  · cases h; exact ⟨rfl, rfl⟩
  · split at h
    · cases h
    · split at h
      · cases h; exact ⟨rfl, rfl⟩
      · cases h

private theorem tryLock_frame {s s' : State} {t : Nat} {b : Bool} (h : tryLock s t b = some s') : s'.deleted = s.deleted ∧ s'.references = s.references := by
  simp only [tryLock] at h
  split at h
  · cases h
  · split at h <;> cases h <;> exact ⟨rfl, rfl⟩

private theorem step_refs {s s' : State} {e : Ev} (hd : s.deleted = false) (h : step s e = some s') (h1 : e ≠ .copy) (h2 : e ≠ .destroy) :
    s'.deleted = false ∧ s'.references = s.references := by
  unfold step at h
  rw [if_neg (by rw [hd]; simp)] at h
  rw [← hd]
  cases e with
  | create r ok =>
    simp only at h
    split at h
    · split at h <;> cases h; exact ⟨rfl, rfl⟩
    · cases h; exact ⟨rfl, rfl⟩
  | close => exact close_frame h
  | copy => exact absurd rfl h1
  | destroy => exact absurd rfl h2
  | lock t timed =>
    simp only at h
    split at h
    · split at h
      · cases h; exact ⟨rfl, rfl⟩
      · cases timed <;> cases h <;> exact ⟨rfl, rfl⟩
    · cases h; exact ⟨rfl, rfl⟩
  | unlock t =>
    simp only at h
    split at h
    · split at h <;> cases h <;> exact ⟨rfl, rfl⟩
    · cases h; exact ⟨rfl, rfl⟩
  | run t =>
    simp only at h
    split at h
    · cases h; exact ⟨rfl, rfl⟩
    · exact tryLock_frame h
    · exact tryLock_frame h
    · split at h
      · cases h
      · split at h <;> cases h <;> exact ⟨rfl, rfl⟩
  | expire t =>
    simp only at h
    split at h <;> cases h <;> exact ⟨rfl, rfl⟩

/-- The handle is deleted exactly when there are no objects left, whatever the schedule. -/
theorem c109_shared (es : List Ev) (s : State) (h : run init es = some s) :
    ∃ n, objects 1 es = some n ∧ (s.deleted = true ↔ n = 0) ∧ (s.deleted = false → s.references = n) := by
  have gen : ∀ (es : List Ev) (s s' : State), s.deleted = false → 0 < s.references → run s es = some s' →
      ∃ n, objects s.references es = some n ∧ (s'.deleted = true ↔ n = 0) ∧ (s'.deleted = false → s'.references = n) := by
    intro es
    induction es with
    | nil =>
      intro s s' hd hp h
      cases h
      refine ⟨s.references, rfl, ?_, fun _ => rfl⟩
      rw [hd]
      constructor
      · intro h; cases h
      · intro h; omega
    | cons e es ih =>
      intro s s' hd hp h
      rw [run] at h
      cases hs : step s e with
      | none => rw [hs] at h; cases h
      | some s2 =>
        rw [hs] at h
        have h' : run s2 es = some s' := h
        by_cases h1 : e = .copy
        · subst h1
          have : s2 = { s with references := s.references + 1 } := by
            unfold step at hs
            rw [if_neg (by rw [hd]; simp)] at hs
            cases hs; rfl
          subst this
          have := ih { s with references := s.references + 1 } s' hd (Nat.succ_pos _) h'
          simpa [objects, Nat.ne_of_gt hp] using this
        · by_cases h2 : e = .destroy
          · subst h2
            have : (s.references = 1 ∧ s2.deleted = true) ∨ (s.references ≠ 1 ∧ s2 = { s with references := s.references - 1 }) := by
              unfold step at hs
              rw [if_neg (by rw [hd]; simp)] at hs
              simp only at hs
              split at hs
              · rename_i hr
                left
                refine ⟨hr, ?_⟩
                split at hs
                · cases hs; rfl
                · cases hc : close s with
                  | none => rw [hc] at hs; cases hs
                  | some x => rw [hc] at hs; cases hs; rfl
              · rename_i hr
                right
                cases hs
                exact ⟨hr, rfl⟩
            rcases this with ⟨hr, hdel⟩ | ⟨hr, rfl⟩
            · cases es with
              | nil =>
                cases h'
                refine ⟨0, by simp [objects, hr], by simp [hdel], ?_⟩
                intro hx; rw [hdel] at hx; cases hx
              | cons e2 es2 =>
                rw [run] at h'
                simp [step, hdel] at h'
            · have := ih { s with references := s.references - 1 } s' hd (by simp only; omega) h'
              simpa [objects, Nat.ne_of_gt hp] using this
          · obtain ⟨a, b⟩ := step_refs hd hs h1 h2
            have := ih s2 s' a (by omega) h'
            rw [b] at this
            obtain ⟨n, hn, rest⟩ := this
            refine ⟨n, ?_, rest⟩
            cases e <;> first | exact absurd rfl h1 | exact absurd rfl h2 | (simp only [objects, Nat.ne_of_gt hp, if_false]; exact hn)
  exact gen es init s rfl (by decide) h

/-! ### Outside of the rule -/

/-- If the system refuses to create the mutex `Create` answers no, but the semaphore is not closed: locking, unlocking, closing and
destroying it use a mutex that does not exist. -/
theorem c109_create_fails (recursive timed : Bool) (t : Nat) :
    run init [.create recursive false, .lock t timed, .run t] = none ∧ run init [.create recursive false, .unlock t, .run t] = none ∧
    run init [.create recursive false, .close] = none ∧ run init [.create recursive false, .destroy] = none := by
  cases timed <;> simp [run, step, init, State.emit, State.goto, State.cancel, close, tryLock]

/-- Creating again a semaphore that is not closed initialises a mutex twice, although threads may have it. -/
theorem c109_twice_fails (r r' : Bool) (t : Nat) (timed : Bool) : run init [.create r true, .lock t timed, .run t, .create r' true] = none := by
  cases timed <;> simp [run, step, init, State.emit, State.goto, State.cancel, tryLock, Mutex.acquire]

/-- `Close` is not protected against the threads that are calling: one that has seen the semaphore open uses it afterwards. -/
theorem c109_close_race (r timed : Bool) (t : Nat) : run init [.create r true, .lock t timed, .close, .run t] = none := by
  cases timed <;> simp [run, step, init, State.emit, State.goto, State.cancel, close, tryLock]

/-- A normal semaphore unlocked by a thread that does not have it. -/
theorem c109_stranger_fails (t u : Nat) (h : t ≠ u) (timed : Bool) : run init [.create false true, .lock t timed, .run t, .unlock u, .run u] = none := by
  cases timed <;> simp [run, step, init, State.emit, State.goto, State.cancel, tryLock, Mutex.acquire, Mutex.release, h, Ne.symm h]

/-- A thread that locks a normal semaphore that it has itself waits, although nobody else has it. -/
theorem c109_self (t : Nat) :
    (run init [.create false true, .lock t false, .run t, .lock t false, .run t, .run t]).map (fun s => (s.pc t, s.trace)) =
      some (.blocked false, [.created false true, .locked t]) := by
  simp [run, step, init, State.emit, State.goto, State.cancel, tryLock, Mutex.acquire]

/-- Cancellation: a thread that has the semaphore can be cancelled if it was locked with a timeout, or if it is recursive and was
unlocked once; a thread without a timeout cannot. -/
theorem c109_cancel_fails (t : Nat) :
    (run init [.create false true, .lock t true, .run t]).map (fun s => (view s.trace).holder = some (t, 1) ∧ s.cancellable t = true) = some True ∧
    (run init [.create true true, .lock t false, .run t, .lock t false, .run t, .unlock t, .run t]).map
      (fun s => (view s.trace).holder = some (t, 1) ∧ s.cancellable t = true) = some True ∧
    (run init [.create false true, .lock t false, .run t]).map (fun s => (view s.trace).holder = some (t, 1) ∧ s.cancellable t = false) = some True := by
  refine ⟨?_, ?_, ?_⟩ <;>
    simp [run, step, init, State.emit, State.goto, State.cancel, tryLock, Mutex.acquire, Mutex.release, view, View.next]

/-! ### The deadline -/

/-- In exact arithmetic the deadline is the time of the call plus the timeout, to the nanosecond, if it is before 2038. -/
theorem c109_deadline_partial (usec sec us : Nat) (h : (sec * 1000000 + us + usec) / 1000000 < 2 ^ 31) :
    ∃ a b : Nat, deadline id usec (sec, us) = some ((a : Int), (b : Int)) ∧ b < 1000000000 ∧ a * 1000000000 + b = (sec * 1000000 + us + usec) * 1000 := by
  generalize hN : sec * 1000000 + us + usec = N at *
  have hsec : ((usec : Rat) + us) * (1 / 1000000) + sec = (N : Rat) / 1000000 := by
    rw [← hN]; push_cast; grind
  have hdm : N = 1000000 * (N / 1000000) + N % 1000000 := (Nat.div_add_mod N 1000000).symm
  have hr : (N : Rat) = 1000000 * ((N / 1000000 : Nat) : Rat) + ((N % 1000000 : Nat) : Rat) := by
    have := congrArg (Nat.cast (R := Rat)) hdm
    push_cast at this
    exact this
  have hm : N % 1000000 < 1000000 := Nat.mod_lt _ (by decide)
  generalize N / 1000000 = q at *
  generalize N % 1000000 = m at *
  have hf : ((N : Rat) / 1000000).floor = (q : Int) := by
    have h1 : ((q : Int) : Rat) ≤ (N : Rat) / 1000000 := by
      show ((q : Nat) : Rat) ≤ _
      have : (0 : Rat) ≤ (m : Rat) := by exact_mod_cast Nat.zero_le m
      grind
    have h2 : (N : Rat) / 1000000 < ((q : Int) + 1 : Int) := by
      have : (m : Rat) < 1000000 := by exact_mod_cast hm
      have e : (((q : Int) + 1 : Int) : Rat) = (q : Rat) + 1 := by push_cast; rfl
      rw [e]
      grind
    have a1 := Rat.le_floor_iff.mpr h1
    have a2 := Rat.floor_lt_iff.mpr h2
    omega
  refine ⟨q, m * 1000, ?_, by omega, by rw [hdm]; clear hf hr hsec hN h; omega⟩
  simp only [deadline, id]
  rw [hsec, hf, if_pos (by omega)]
  have e : ((N : Rat) / 1000000 - ((q : Int) : Rat)) * 1000000000 = (((m * 1000 : Nat) : Int) : Rat) := by
    show ((N : Rat) / 1000000 - ((q : Nat) : Rat)) * 1000000000 = ((m * 1000 : Nat) : Rat)
    push_cast
    grind
  rw [e, Rat.floor_intCast]

/-- From 2038 on the conversion is undefined, and with the arithmetic of `float64` the deadline can be before the timeout: a wait of
one microsecond ends 47 nanoseconds too early. -/
theorem c109_deadline_fails :
    (∀ usec sec us : Nat, 2 ^ 31 ≤ sec → deadline id usec (sec, us) = none) ∧
    deadline (FloatPrint.ieee FloatNum.f64) 1 (1700000000, 0) = some (1700000000, 953) := by
  refine ⟨?_, by decide +kernel⟩
  intro usec sec us h
  simp only [deadline, id]
  rw [if_neg]
  intro hlt
  have h1 : ((2147483648 : Int) : Rat) ≤ ((usec : Rat) + us) * (1 / 1000000) + sec := by
    have a : (0 : Rat) ≤ (usec : Rat) := by exact_mod_cast Nat.zero_le _
    have b : (0 : Rat) ≤ (us : Rat) := by exact_mod_cast Nat.zero_le _
    have c : ((2147483648 : Nat) : Rat) ≤ (sec : Rat) := Rat.natCast_le_natCast.mpr h
    have d : ((2147483648 : Int) : Rat) = 2147483648 := rfl
    have e : ((2147483648 : Nat) : Rat) = 2147483648 := rfl
    grind
  have := Rat.le_floor_iff.mpr h1
  omega

/-- A run that meets the rule: two objects, three threads, contention, a timeout, the end. -/
example : (run init [.create false true, .copy, .lock 0 false, .run 0, .lock 1 true, .run 1, .lock 2 false, .run 2, .expire 1, .unlock 0, .run 0, .run 2,
      .unlock 2, .run 2, .destroy, .destroy]).map (fun s => (s.trace, s.deleted)) =
    some ([.created false true, .locked 0, .timedOut 1, .unlocked 0, .locked 2, .unlocked 2, .closed], true) := by decide

/-- … and the hypotheses. -/
example : Legal init [.create false true, .lock 0 false, .run 0, .unlock 0, .run 0, .close] := by
  have h0 : ∀ t : Nat, (if t = 0 then PC.idle else if t = 0 then .leave else if t = 0 then .idle else if t = 0 then .enter false else .idle) = .idle := by
    intro t; by_cases h : t = 0 <;> simp [h]
  simp [Legal, rule, step, init, State.emit, State.goto, State.cancel, tryLock, Mutex.acquire, Mutex.release, view, View.next, Holds, h0]

end Verif.OsMutex
