import Verif.Model.MessageQueue

/-!
# C25: queued messages are delivered once, in order, and never left sleeping
-/

namespace Verif.Spec.MsgQ
open Verif.MsgQ

/-- The messages that have entered the queue, in order. -/
def acceptedOf : List Obs → List Nat
  | [] => []
  | .accepted m :: os => m :: acceptedOf os
  | _ :: os => acceptedOf os

/-- The messages that `GetMessage` has returned, in order. -/
def deliveredOf : List Obs → List Nat
  | [] => []
  | .delivered _ m :: os => m :: deliveredOf os
  | _ :: os => deliveredOf os

/-- Only thread `c` ever calls `GetMessage`, and the event semaphore never wakes up spuriously. -/
def SingleConsumer (c : Nat) (es : List Ev) : Prop :=
  ∀ e ∈ es, (∀ t, e = .get t → t = c) ∧ (∀ t, e ≠ .spurious t)

end Verif.Spec.MsgQ

namespace Verif.MsgQ
open Verif.Spec.MsgQ

def inCS : PC → Bool
  | .idle | .pLock _ | .cLock | .cWait | .cLock2 => false
  | _ => true

/-- The message that the lock holder has taken out and not returned yet. -/
def heldBy : PC → List Nat
  | .cUnlockOk m => [m]
  | _ => []

def held (s : State) : List Nat :=
  match s.lock with
  | some t => heldBy (s.pc t)
  | none => []

/-- What the lock holder knows. -/
def knows (q : List Nat) (posted : Bool) : PC → Prop
  | .pSize => q ≠ [] ∧ (q.length ≠ 1 → posted = true)
  | .pPost => q ≠ []
  | .cReset => q = []
  | .cUnlockW => q = [] ∧ posted = false
  | .cDelete m => q[0]? = some m ∧ posted = true
  | _ => q ≠ [] → posted = true

structure Inv (s : State) (h : List Obs) : Prop where
  lock : ∀ t, inCS (s.pc t) = true ↔ s.lock = some t
  know : ∀ t, s.lock = some t → knows s.queue s.posted (s.pc t)
  free : s.lock = none → s.queue ≠ [] → s.posted = true
  fifo : acceptedOf h = deliveredOf h ++ held s ++ s.queue

theorem acceptedOf_append (a b : List Obs) : acceptedOf (a ++ b) = acceptedOf a ++ acceptedOf b := by
  induction a with
  | nil => rfl
  | cons o os ih => cases o <;> simp [acceptedOf, ih]

theorem deliveredOf_append (a b : List Obs) : deliveredOf (a ++ b) = deliveredOf a ++ deliveredOf b := by
  induction a with
  | nil => rfl
  | cons o os ih => cases o <;> simp [deliveredOf, ih]

theorem inv_init : Inv init [] := ⟨by simp [init, inCS], by simp [init], by simp [init], by simp [init, held, acceptedOf, deliveredOf]⟩

/-- A step outside the critical section that only moves one thread. -/
theorem inv_outside {s : State} {h : List Obs} (i : Inv s h) (t : Nat) (p : PC) (h1 : inCS (s.pc t) = false) (h2 : inCS p = false)
    (o : List Obs) (ha : acceptedOf o = []) (hd : deliveredOf o = []) : Inv (s.goto t p) (h ++ o) := by
  have hl : s.lock ≠ some t := fun e => by have := (i.lock t).mpr e; simp [h1] at this
  refine ⟨fun u => ?_, fun u hu => ?_, i.free, ?_⟩
  · by_cases hut : u = t
    · subst hut; simp [State.goto, h2, hl]
    · simp only [State.goto, hut, if_false]; exact i.lock u
  · have hut : u ≠ t := fun e => hl (e ▸ hu)
    simp only [State.goto, hut, if_false]; exact i.know u hu
  · have : held (s.goto t p) = held s := by
      unfold held State.goto
      cases hk : s.lock with
      | none => rfl
      | some u =>
        have : u ≠ t := fun e => hl (by rw [hk, e])
        simp [this]
    rw [acceptedOf_append, deliveredOf_append, ha, hd, this, List.append_nil, List.append_nil]
    exact i.fifo

/-- The lock is taken. -/
theorem inv_take {s : State} {h : List Obs} (i : Inv s h) (t : Nat) (p : PC) (hn : s.lock = none) (h2 : inCS p = true)
    (hh : heldBy p = []) (hk : (s.queue ≠ [] → s.posted = true) → knows s.queue s.posted p) :
    Inv { s.goto t p with lock := some t } (h ++ []) := by
  refine ⟨fun u => ?_, fun u hu => ?_, fun h => by simp at h, ?_⟩
  · by_cases hut : u = t
    · subst hut; simp [State.goto, h2]
    · have := i.lock u
      simp only [hn] at this
      simp only [State.goto, hut, if_false, this]
      constructor
      · intro h; exact absurd h (by simp)
      · intro h; injection h with h; exact absurd h.symm hut
  · simp at hu; subst hu
    simp only [State.goto, if_true]
    exact hk (i.free hn)
  · have := i.fifo
    simp only [held, hn] at this
    simp [held, State.goto, hh, this]

/-- The lock holder makes a step inside the critical section. -/
theorem inv_inside {s : State} {h : List Obs} (i : Inv s h) (t : Nat) (p : PC) (q : List Nat) (b : Bool) (hl : s.lock = some t)
    (h2 : inCS p = true) (hk : knows q b p) (o : List Obs)
    (hf : acceptedOf (h ++ o) = deliveredOf (h ++ o) ++ heldBy p ++ q) :
    Inv { s.goto t p with queue := q, posted := b } (h ++ o) := by
  refine ⟨fun u => ?_, fun u hu => ?_, fun h => by simp [State.goto, hl] at h, ?_⟩
  · by_cases hut : u = t
    · subst hut; simp [State.goto, h2, hl]
    · simp only [State.goto, hut, if_false]; exact i.lock u
  · have : u = t := by simp only [State.goto, hl] at hu; injection hu with hu; exact hu.symm
    subst this
    simp only [State.goto, if_true]; exact hk
  · simp only [held, State.goto, hl, if_true]; exact hf

/-- The lock is released. -/
theorem inv_release {s : State} {h : List Obs} (i : Inv s h) (t : Nat) (p : PC) (hl : s.lock = some t)
    (h2 : inCS p = false) (hk : s.queue ≠ [] → s.posted = true) (o : List Obs)
    (hf : acceptedOf (h ++ o) = deliveredOf (h ++ o) ++ s.queue) :
    Inv { s.goto t p with lock := none } (h ++ o) := by
  refine ⟨fun u => ?_, fun u hu => by simp at hu, fun _ => hk, ?_⟩
  · by_cases hut : u = t
    · subst hut; simp [State.goto, h2]
    · have := i.lock u
      simp only [hl] at this
      simp only [State.goto, hut, if_false, this]
      constructor
      · intro h; injection h with h; exact absurd h.symm hut
      · intro h; exact absurd h (by simp)
  · simp only [held]; simpa [State.goto] using hf

theorem inv_step {s s' : State} {h : List Obs} {o : List Obs} (i : Inv s h) (e : Ev) (hs : step s e = some (s', o)) :
    Inv s' (h ++ o) := by
  cases e with
  | consume t m =>
    simp only [step] at hs
    split at hs <;> simp at hs
    obtain ⟨rfl, rfl⟩ := hs
    rename_i hp
    exact inv_outside i t _ (by rw [hp]; rfl) rfl _ rfl rfl
  | get t =>
    simp only [step] at hs
    split at hs <;> simp at hs
    obtain ⟨rfl, rfl⟩ := hs
    rename_i hp
    exact inv_outside i t _ (by rw [hp]; rfl) rfl _ rfl rfl
  | timeout t =>
    simp only [step] at hs
    split at hs <;> simp at hs
    obtain ⟨rfl, rfl⟩ := hs
    rename_i hp
    exact inv_outside i t _ (by rw [hp]; rfl) rfl _ rfl rfl
  | spurious t =>
    simp only [step] at hs
    split at hs <;> simp at hs
    obtain ⟨rfl, rfl⟩ := hs
    rename_i hp
    exact inv_outside i t _ (by rw [hp]; rfl) rfl _ rfl rfl
  | step t =>
    simp only [step, stepT] at hs
    have hlk : ∀ p, s.pc t = p → inCS p = true → s.lock = some t := fun p hp hc => (i.lock t).mp (by rw [hp]; exact hc)
    have hfi : ∀ p, s.pc t = p → s.lock = some t →
        acceptedOf h = deliveredOf h ++ heldBy p ++ s.queue ∧ knows s.queue s.posted p := by
      intro p hp hl
      have h1 := i.fifo
      have h2 := i.know t hl
      simp only [held, hl, hp] at h1
      rw [hp] at h2
      exact ⟨h1, h2⟩
    cases hp : s.pc t with
    | idle => simp [hp] at hs
    | pLock m =>
      simp only [hp] at hs
      split at hs <;> simp at hs
      obtain ⟨rfl, rfl⟩ := hs
      rename_i hn
      exact inv_take i t _ hn rfl rfl (fun h => h)
    | pInsert m =>
      simp only [hp] at hs; simp at hs
      obtain ⟨rfl, rfl⟩ := hs
      have hl := hlk _ hp rfl
      have ⟨h1, h2⟩ := hfi _ hp hl
      refine inv_inside i t _ _ s.posted hl rfl ?_ _ ?_
      · refine ⟨by simp, fun hq => h2 ?_⟩
        intro hq0; rw [hq0] at hq; simp at hq
      · rw [acceptedOf_append, deliveredOf_append, h1]; simp [acceptedOf, deliveredOf, heldBy]
    | pSize =>
      simp only [hp] at hs; simp at hs
      obtain ⟨rfl, rfl⟩ := hs
      have hl := hlk _ hp rfl
      have ⟨h1, h2⟩ := hfi _ hp hl
      by_cases hz : s.queue.length = 1
      · simp only [hz, if_true]
        exact inv_inside i t .pPost s.queue s.posted hl rfl h2.1 [] (by simpa [heldBy] using h1)
      · simp only [hz, if_false]
        exact inv_inside i t .pUnlock s.queue s.posted hl rfl (fun _ => h2.2 hz) [] (by simpa [heldBy] using h1)
    | pPost =>
      simp only [hp] at hs; simp at hs
      obtain ⟨rfl, rfl⟩ := hs
      have hl := hlk _ hp rfl
      have ⟨h1, h2⟩ := hfi _ hp hl
      exact inv_inside i t .pUnlock s.queue true hl rfl (fun _ => rfl) [] (by simpa [heldBy] using h1)
    | pUnlock =>
      simp only [hp] at hs; simp at hs
      obtain ⟨rfl, rfl⟩ := hs
      have hl := hlk _ hp rfl
      have ⟨h1, h2⟩ := hfi _ hp hl
      exact inv_release i t _ hl rfl h2 [] (by simpa [heldBy] using h1)
    | cLock =>
      simp only [hp] at hs
      split at hs <;> simp at hs
      obtain ⟨rfl, rfl⟩ := hs
      rename_i hn
      exact inv_take i t _ hn rfl rfl (fun h => h)
    | cSize =>
      simp only [hp] at hs; simp at hs
      obtain ⟨rfl, rfl⟩ := hs
      have hl := hlk _ hp rfl
      have ⟨h1, h2⟩ := hfi _ hp hl
      by_cases hz : s.queue = []
      · simp only [hz, if_true]
        exact inv_inside i t .cReset s.queue s.posted hl rfl hz [] (by simpa [heldBy] using h1)
      · simp only [hz, if_false]
        exact inv_inside i t .cGet s.queue s.posted hl rfl h2 [] (by simpa [heldBy] using h1)
    | cReset =>
      simp only [hp] at hs; simp at hs
      obtain ⟨rfl, rfl⟩ := hs
      have hl := hlk _ hp rfl
      have ⟨h1, h2⟩ := hfi _ hp hl
      exact inv_inside i t .cUnlockW s.queue false hl rfl ⟨h2, rfl⟩ [] (by simpa [heldBy] using h1)
    | cUnlockW =>
      simp only [hp] at hs; simp at hs
      obtain ⟨rfl, rfl⟩ := hs
      have hl := hlk _ hp rfl
      have ⟨h1, h2⟩ := hfi _ hp hl
      exact inv_release i t _ hl rfl (fun h => absurd h2.1 h) [] (by simpa [heldBy] using h1)
    | cWait =>
      simp only [hp] at hs
      split at hs <;> simp at hs
      obtain ⟨rfl, rfl⟩ := hs
      exact inv_outside i t _ (by rw [hp]; rfl) rfl _ rfl rfl
    | cLock2 =>
      simp only [hp] at hs
      split at hs <;> simp at hs
      obtain ⟨rfl, rfl⟩ := hs
      rename_i hn
      exact inv_take i t _ hn rfl rfl (fun h => h)
    | cGet =>
      simp only [hp] at hs; simp at hs
      obtain ⟨rfl, rfl⟩ := hs
      have hl := hlk _ hp rfl
      have ⟨h1, h2⟩ := hfi _ hp hl
      cases hq : s.queue[0]? with
      | none =>
        exact inv_inside i t .cUnlockFail s.queue s.posted hl rfl h2 [] (by simpa [heldBy] using h1)
      | some m =>
        refine inv_inside i t (.cDelete m) s.queue s.posted hl rfl ⟨hq, h2 ?_⟩ [] (by simpa [heldBy] using h1)
        intro h0; simp [h0] at hq
    | cDelete m =>
      simp only [hp] at hs; simp at hs
      obtain ⟨rfl, rfl⟩ := hs
      have hl := hlk _ hp rfl
      have ⟨h1, h2⟩ := hfi _ hp hl
      refine inv_inside i t (.cUnlockOk m) (s.queue.erase m) s.posted hl rfl (fun _ => h2.2) [] ?_
      cases hq : s.queue with
      | nil => rw [hq] at h2; simp [knows] at h2
      | cons x xs =>
        rw [hq] at h2 h1
        simp [knows] at h2
        rw [h2.1] at h1 ⊢
        simpa [heldBy] using h1
    | cUnlockOk m =>
      simp only [hp] at hs; simp at hs
      obtain ⟨rfl, rfl⟩ := hs
      have hl := hlk _ hp rfl
      have ⟨h1, h2⟩ := hfi _ hp hl
      refine inv_release i t _ hl rfl h2 _ ?_
      rw [acceptedOf_append, deliveredOf_append, h1]; simp [acceptedOf, deliveredOf, heldBy]
    | cUnlockFail =>
      simp only [hp] at hs; simp at hs
      obtain ⟨rfl, rfl⟩ := hs
      have hl := hlk _ hp rfl
      have ⟨h1, h2⟩ := hfi _ hp hl
      refine inv_release i t _ hl rfl h2 _ ?_
      rw [acceptedOf_append, deliveredOf_append, h1]; simp [acceptedOf, deliveredOf, heldBy]

theorem inv_run (es : List Ev) : ∀ (s s' : State) (h o : List Obs), Inv s h → run s es = some (s', o) → Inv s' (h ++ o) := by
  induction es with
  | nil =>
    intro s s' h o i hr
    simp [run] at hr
    obtain ⟨rfl, rfl⟩ := hr
    simpa using i
  | cons e es ih =>
    intro s s' h o i hr
    simp only [run, Option.bind_eq_some_iff, Option.map_eq_some_iff] at hr
    obtain ⟨⟨s1, o1⟩, h1, ⟨s2, o2⟩, h2, h3⟩ := hr
    simp at h3
    obtain ⟨rfl, rfl⟩ := h3
    rw [← List.append_assoc]
    exact ih s1 s2 (h ++ o1) o2 (inv_step i e h1) h2

/-- **C25.** With any number of producers and consumers, any interleaving, timeouts and spurious wakeups: what has been
delivered is a prefix of what has been accepted, so every message is delivered at most once and in order. -/
theorem c25_fifo (es : List Ev) (s : State) (o : List Obs) (hr : run init es = some (s, o)) :
    deliveredOf o <+: acceptedOf o := by
  have := (inv_run es init s [] o inv_init hr).fifo
  simp only [List.nil_append] at this
  rw [this, List.append_assoc]
  exact List.prefix_append _ _

/-- **C25.** Nothing is lost: when no call is inside the critical section, the messages accepted are those delivered
followed by those still in the queue. -/
theorem c25_nothing_lost (es : List Ev) (s : State) (o : List Obs) (hr : run init es = some (s, o)) (hl : s.lock = none) :
    acceptedOf o = deliveredOf o ++ s.queue := by
  have := (inv_run es init s [] o inv_init hr).fifo
  simpa [held, hl] using this

/-- **C25.** No lost wake-up: whenever the lock is free and a message is in the queue, the event is posted, so no consumer
that waits, or is about to wait, is blocked. -/
theorem c25_no_lost_wakeup (es : List Ev) (s : State) (o : List Obs) (hr : run init es = some (s, o)) (hl : s.lock = none)
    (hq : s.queue ≠ []) : s.posted = true := (inv_run es init s [] o inv_init hr).free hl hq

/-- **C25.** The same with the lock held: if a consumer waits while a message is in the queue and the event is not
posted, a producer is about to post it: its next step, or the next but one, is the post. -/
theorem c25_wakeup_pending (es : List Ev) (s : State) (o : List Obs) (hr : run init es = some (s, o)) (t : Nat)
    (hw : s.pc t = .cWait) (hq : s.queue ≠ []) :
    s.posted = true ∨ ∃ u, u ≠ t ∧ s.lock = some u ∧ ∃ es' s' o', (es' = [.step u] ∨ es' = [.step u, .step u]) ∧
      run s es' = some (s', o') ∧ s'.posted = true := by
  have i := inv_run es init s [] o inv_init hr
  cases hl : s.lock with
  | none => exact Or.inl (i.free hl hq)
  | some u =>
    have hk := i.know u hl
    have hc := (i.lock u).mpr hl
    by_cases hp : s.posted = true
    · exact Or.inl hp
    refine Or.inr ⟨u, ?_, rfl, ?_⟩
    · intro e; subst e; rw [hw] at hc; simp [inCS] at hc
    cases hpc : s.pc u <;> simp only [hpc, knows] at hk <;> simp only [hpc, inCS] at hc <;>
      first | contradiction | exact absurd (hk hq) hp | exact absurd hk.2 hp | exact absurd hk.1 hq | exact absurd hk hq | skip
    · have h1 : s.queue.length = 1 := by
        by_cases h : s.queue.length = 1
        · exact h
        · exact absurd (hk.2 h) hp
      refine ⟨[.step u, .step u], { (s.goto u .pPost).goto u .pUnlock with posted := true }, [], Or.inr rfl, ?_, rfl⟩
      simp [run, step, stepT, hpc, h1, State.goto]
    · refine ⟨[.step u], { s.goto u .pUnlock with posted := true }, [], Or.inl rfl, ?_, rfl⟩
      simp [run, step, stepT, hpc]

/-- **C25.** A consumer that waits while a message is in the queue and nobody is in the critical section gets the oldest
message by its own steps. -/
theorem c25_waiting_consumer_served (es : List Ev) (s : State) (o : List Obs) (hr : run init es = some (s, o)) (t m : Nat)
    (q : List Nat) (hl : s.lock = none) (hw : s.pc t = .cWait) (hq : s.queue = m :: q) :
    ∃ s', run s [.step t, .step t, .step t, .step t, .step t] = some (s', [.delivered t m]) ∧ s'.queue = q ∧ s'.pc t = .idle := by
  have hp := c25_no_lost_wakeup es s o hr hl (by simp [hq])
  refine ⟨⟨none, q, true, fun u => if u = t then .idle else s.pc u⟩, ?_, rfl, by simp⟩
  simp only [run, step, stepT, hw, hp, if_true, Option.bind_some, State.goto, hl, hq, List.getElem?_cons_zero,
    List.erase_cons_head, Option.map_some, List.nil_append, List.append_nil]
  congr 3
  funext u
  by_cases hu : u = t <;> simp [hu]

/-! ### One consumer: no failure -/

/-- With a single consumer, what the consumer knows about the queue. -/
def cKnows (q : List Nat) (posted : Bool) : PC → Prop
  | .cWait => posted = true → q ≠ []
  | .cLock2 | .cGet => q ≠ []
  | .cUnlockFail => False
  | _ => True

def isC : PC → Bool
  | .idle | .pLock _ | .pInsert _ | .pSize | .pPost | .pUnlock => false
  | _ => true

structure Inv1 (c : Nat) (s : State) : Prop where
  only : ∀ t, isC (s.pc t) = true → t = c
  know : cKnows s.queue s.posted (s.pc c)

theorem inv1_goto {c : Nat} {s : State} (j : Inv1 c s) (t : Nat) (p : PC) (q : List Nat) (b : Bool) (l : Option Nat)
    (h1 : isC p = true → t = c) (h2 : t = c → cKnows q b p) (h3 : t ≠ c → cKnows q b (s.pc c)) :
    Inv1 c { s.goto t p with lock := l, queue := q, posted := b } := by
  refine ⟨fun u hu => ?_, ?_⟩
  · by_cases hut : u = t
    · subst hut; simp [State.goto] at hu; exact h1 hu
    · simp [State.goto, hut] at hu; exact j.only u hu
  · by_cases hct : c = t
    · subst hct; simp [State.goto]; exact h2 rfl
    · simp [State.goto, hct]; exact h3 (Ne.symm hct)

theorem inv1_step {c : Nat} {s s' : State} {h : List Obs} {o : List Obs} (i : Inv s h) (j : Inv1 c s) (e : Ev)
    (he1 : ∀ t, e = .get t → t = c) (he2 : ∀ t, e ≠ .spurious t) (hs : step s e = some (s', o)) :
    Inv1 c s' ∧ ∀ t, Obs.failed t ∉ o := by
  cases e with
  | consume t m =>
    simp only [step] at hs
    split at hs <;> simp at hs
    obtain ⟨rfl, rfl⟩ := hs
    exact ⟨inv1_goto j t _ s.queue s.posted s.lock (by simp [isC]) (by simp [cKnows]) (fun _ => j.know), by simp⟩
  | get t =>
    simp only [step] at hs
    split at hs <;> simp at hs
    obtain ⟨rfl, rfl⟩ := hs
    exact ⟨inv1_goto j t _ s.queue s.posted s.lock (fun _ => he1 t rfl) (by simp [cKnows]) (fun _ => j.know), by simp⟩
  | timeout t =>
    simp only [step] at hs
    split at hs <;> simp at hs
    obtain ⟨rfl, rfl⟩ := hs
    exact ⟨inv1_goto j t _ s.queue s.posted s.lock (by simp [isC]) (by simp [cKnows]) (fun _ => j.know), by simp⟩
  | spurious t => exact absurd rfl (he2 t)
  | step t =>
    simp only [step, stepT] at hs
    have hcon : ∀ p, s.pc t = p → isC p = true → t = c ∧ cKnows s.queue s.posted p := by
      intro p hp hc
      have : t = c := j.only t (by rw [hp]; exact hc)
      refine ⟨this, ?_⟩
      have hk := j.know
      rw [← this, hp] at hk
      exact hk
    have hlk : ∀ p, s.pc t = p → inCS p = true → knows s.queue s.posted p := fun p hp hc => by
      have := i.know t ((i.lock t).mp (by rw [hp]; exact hc))
      rwa [hp] at this
    -- what the consumer knows survives an insertion and a post
    have hins : ∀ (q : List Nat) (p : PC), q ≠ [] → cKnows s.queue s.posted p → cKnows q s.posted p := by
      intro q p hq hk
      cases p <;> simp_all [cKnows]
    have hpost : ∀ (p : PC), s.queue ≠ [] → cKnows s.queue s.posted p → cKnows s.queue true p := by
      intro p hq hk
      cases p <;> simp_all [cKnows]
    cases hp : s.pc t with
    | idle => simp [hp] at hs
    | pLock m =>
      simp only [hp] at hs
      split at hs <;> simp at hs
      obtain ⟨rfl, rfl⟩ := hs
      exact ⟨inv1_goto j t _ s.queue s.posted _ (by simp [isC]) (by simp [cKnows]) (fun _ => j.know), by simp⟩
    | pInsert m =>
      simp only [hp] at hs; simp at hs
      obtain ⟨rfl, rfl⟩ := hs
      exact ⟨inv1_goto j t _ _ s.posted s.lock (by simp [isC]) (by simp [cKnows]) (fun _ => hins _ _ (by simp) j.know), by simp⟩
    | pSize =>
      simp only [hp] at hs; simp at hs
      obtain ⟨rfl, rfl⟩ := hs
      by_cases hz : s.queue.length = 1
      · simp only [hz, if_true]
        exact ⟨inv1_goto j t _ s.queue s.posted s.lock (by simp [isC]) (by simp [cKnows]) (fun _ => j.know), by simp⟩
      · simp only [hz, if_false]
        exact ⟨inv1_goto j t _ s.queue s.posted s.lock (by simp [isC]) (by simp [cKnows]) (fun _ => j.know), by simp⟩
    | pPost =>
      simp only [hp] at hs; simp at hs
      obtain ⟨rfl, rfl⟩ := hs
      have hk := hlk _ hp rfl
      exact ⟨inv1_goto j t _ s.queue true s.lock (by simp [isC]) (by simp [cKnows]) (fun _ => hpost _ hk j.know), by simp⟩
    | pUnlock =>
      simp only [hp] at hs; simp at hs
      obtain ⟨rfl, rfl⟩ := hs
      exact ⟨inv1_goto j t _ s.queue s.posted _ (by simp [isC]) (by simp [cKnows]) (fun _ => j.know), by simp⟩
    | cLock =>
      simp only [hp] at hs
      split at hs <;> simp at hs
      obtain ⟨rfl, rfl⟩ := hs
      have hc := hcon _ hp rfl
      exact ⟨inv1_goto j t _ s.queue s.posted _ (fun _ => hc.1) (by simp [cKnows]) (fun h => absurd hc.1 h), by simp⟩
    | cSize =>
      simp only [hp] at hs; simp at hs
      obtain ⟨rfl, rfl⟩ := hs
      have hc := hcon _ hp rfl
      by_cases hz : s.queue = []
      · simp only [hz, if_true]
        exact ⟨inv1_goto j t _ s.queue s.posted s.lock (fun _ => hc.1) (by simp [cKnows]) (fun h => absurd hc.1 h), by simp⟩
      · simp only [hz, if_false]
        exact ⟨inv1_goto j t _ s.queue s.posted s.lock (fun _ => hc.1) (fun _ => hz) (fun h => absurd hc.1 h), by simp⟩
    | cReset =>
      simp only [hp] at hs; simp at hs
      obtain ⟨rfl, rfl⟩ := hs
      have hc := hcon _ hp rfl
      exact ⟨inv1_goto j t _ s.queue false s.lock (fun _ => hc.1) (by simp [cKnows]) (fun h => absurd hc.1 h), by simp⟩
    | cUnlockW =>
      simp only [hp] at hs; simp at hs
      obtain ⟨rfl, rfl⟩ := hs
      have hc := hcon _ hp rfl
      have hk := hlk _ hp rfl
      exact ⟨inv1_goto j t _ s.queue s.posted _ (fun _ => hc.1) (fun _ h => by rw [hk.2] at h; simp at h) (fun h => absurd hc.1 h), by simp⟩
    | cWait =>
      simp only [hp] at hs
      split at hs <;> simp at hs
      obtain ⟨rfl, rfl⟩ := hs
      rename_i hpo
      have hc := hcon _ hp rfl
      exact ⟨inv1_goto j t _ s.queue s.posted s.lock (fun _ => hc.1) (fun _ => hc.2 hpo) (fun h => absurd hc.1 h), by simp⟩
    | cLock2 =>
      simp only [hp] at hs
      split at hs <;> simp at hs
      obtain ⟨rfl, rfl⟩ := hs
      have hc := hcon _ hp rfl
      exact ⟨inv1_goto j t _ s.queue s.posted _ (fun _ => hc.1) (fun _ => hc.2) (fun h => absurd hc.1 h), by simp⟩
    | cGet =>
      simp only [hp] at hs; simp at hs
      obtain ⟨rfl, rfl⟩ := hs
      have hc := hcon _ hp rfl
      cases hq : s.queue[0]? with
      | none => exact absurd (by simpa using hq) hc.2
      | some m => exact ⟨inv1_goto j t _ s.queue s.posted s.lock (fun _ => hc.1) (by simp [cKnows]) (fun h => absurd hc.1 h), by simp⟩
    | cDelete m =>
      simp only [hp] at hs; simp at hs
      obtain ⟨rfl, rfl⟩ := hs
      have hc := hcon _ hp rfl
      exact ⟨inv1_goto j t _ _ s.posted s.lock (fun _ => hc.1) (by simp [cKnows]) (fun h => absurd hc.1 h), by simp⟩
    | cUnlockOk m =>
      simp only [hp] at hs; simp at hs
      obtain ⟨rfl, rfl⟩ := hs
      have hc := hcon _ hp rfl
      exact ⟨inv1_goto j t _ s.queue s.posted _ (fun _ => hc.1) (by simp [cKnows]) (fun h => absurd hc.1 h), by simp⟩
    | cUnlockFail =>
      exact absurd (hcon _ hp rfl).2 (by simp [cKnows])

/-- **C25.** With one consumer (as in `QueuedMessageI`) and no spurious wakeup, `GetMessage` returns the oldest message
or times out; it never fails. -/
theorem c25_single_consumer_never_fails (c : Nat) (es : List Ev) (hc : SingleConsumer c es) (s : State) (o : List Obs)
    (hr : run init es = some (s, o)) (t : Nat) : Obs.failed t ∉ o := by
  have gen : ∀ (es : List Ev) (s s' : State) (h o : List Obs), Inv s h → Inv1 c s → SingleConsumer c es →
      run s es = some (s', o) → Obs.failed t ∉ o := by
    intro es
    induction es with
    | nil => intro s s' h o _ _ _ hr; simp [run] at hr; obtain ⟨_, rfl⟩ := hr; simp
    | cons e es ih =>
      intro s s' h o i j hc hr
      simp only [run, Option.bind_eq_some_iff, Option.map_eq_some_iff] at hr
      obtain ⟨⟨s1, o1⟩, h1, ⟨s2, o2⟩, h2, h3⟩ := hr
      simp at h3
      obtain ⟨rfl, rfl⟩ := h3
      have he := hc e (by simp)
      have hj := inv1_step i j e he.1 he.2 h1
      have := ih s1 s2 (h ++ o1) o2 (inv_step i e h1) hj.1 (fun e he => hc e (by simp [he])) h2
      simp [hj.2 t, this]
  exact gen es init s [] o inv_init ⟨by simp [init, isC], by simp [init, cKnows]⟩ hc hr

/-- **C25.** With two consumers the same call can fail with a fatal error although nothing is wrong: both are woken by
one message. -/
theorem c25_two_consumers_can_fail : ∃ es s o, run init es = some (s, o) ∧ (∀ t, Ev.spurious t ∉ es) ∧ Obs.failed 1 ∈ o := by
  refine ⟨[.get 0, .step 0, .step 0, .step 0, .step 0, .get 1, .step 1, .step 1, .step 1, .step 1,
    .consume 2 7, .step 2, .step 2, .step 2, .step 2, .step 2,
    .step 0, .step 0, .step 0, .step 0, .step 0, .step 1, .step 1, .step 1, .step 1], _, _, rfl, fun t h => by simp at h, by decide⟩

/-- **C25.** A spurious wakeup of the event semaphore makes `GetMessage` fail with a fatal error. -/
theorem c25_spurious_wakeup_fails : ∃ es s o, run init es = some (s, o) ∧ Obs.failed 0 ∈ o := by
  refine ⟨[.get 0, .step 0, .step 0, .step 0, .step 0, .spurious 0, .step 0, .step 0, .step 0], _, _, rfl, by decide⟩

/-- Two producers and a consumer that is already waiting. -/
example : ((run init [.get 0, .step 0, .step 0, .step 0, .step 0, .consume 1 7, .consume 2 8, .step 1, .step 1, .step 1, .step 1, .step 1,
    .step 0, .step 2, .step 2, .step 2, .step 2, .step 0, .step 0, .step 0, .step 0]).map (fun r => (deliveredOf r.2, acceptedOf r.2, r.1.queue))) =
    some ([7], [7, 8], [8]) := by decide

end Verif.MsgQ
