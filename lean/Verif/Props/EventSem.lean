import Verif.Model.EventSem

namespace Verif.Spec.EventSem
open Verif.EventSem

/-- The barrier, as seen in the observed events: how many calls of `WaitForAll` were made since the last reset and
whether the barrier was forced open since. -/
structure Round where
  arrivals : Nat := 0
  forced : Bool := false

def Round.next (r : Round) : Obs → Round
  | .arrived _ => { r with arrivals := r.arrivals + 1 }
  | .forced _ => { r with forced := true }
  | .resetDone _ => {}
  | _ => r

/-- The barrier of this round may be passed. -/
def Round.isOpen (n : Nat) (r : Round) : Prop := n ≤ r.arrivals ∨ r.forced = true

/-- Every successful return happens in a round in which all the actors have arrived. -/
def Barrier (n : Nat) : Round → List Obs → Prop
  | _, [] => True
  | r, o :: rest => (match o with | .waitOk _ => r.isOpen n | _ => True) ∧ Barrier n (r.next o) rest

/-- The round the semaphore is in after the observed events. -/
def round (tr : List Obs) : Round := tr.foldl Round.next {}

/-- An ideal event semaphore: `isOpen` from the call of `Post` to the next `Reset`; `passed` are the threads during
whose call of `Wait` it was open at some moment, `waiting` those inside a call. -/
structure Gate where
  isOpen : Bool := false
  waiting : List Nat := []
  passed : List Nat := []

def Gate.next (g : Gate) : Obs → Gate
  | .waitBegin t => { g with waiting := t :: g.waiting, passed := if g.isOpen then t :: g.passed else g.passed.filter (· ≠ t) }
  | .postBegin _ => { g with isOpen := true, passed := g.waiting ++ g.passed }
  | .resetDone _ => { g with isOpen := false }
  | .waitOk t => { g with waiting := g.waiting.filter (· ≠ t) }
  | .waitTimeout t => { g with waiting := g.waiting.filter (· ≠ t) }
  | _ => g

/-- Every successful `Wait` was in progress at some moment at which the semaphore was open. -/
def GateOk : Gate → List Obs → Prop
  | _, [] => True
  | g, o :: rest => (match o with | .waitOk t => t ∈ g.passed | _ => True) ∧ GateOk (g.next o) rest

def gate (tr : List Obs) : Gate := tr.foldl Gate.next {}

end Verif.Spec.EventSem

namespace Verif.EventSem
open Verif.Spec.EventSem

/-- Rule for the counting semaphore: it is reset only while no other call is in progress, and no call starts before the
reset is over; the operating system makes no spurious wakeup and no lock times out. -/
def Rule24 (s : State) : Ev → Prop
  | .csReset _ | .forceReset _ => ∀ p ∈ s.pcs, p = .idle
  | .waitForAll .. | .forcePass _ => ∀ p ∈ s.pcs, p ≠ .resetting
  | .run _ | .expire _ => True
  | _ => False

instance (s : State) (e : Ev) : Decidable (Rule24 s e) := by cases e <;> unfold Rule24 <;> infer_instance

/-- Every event of a schedule follows a rule. -/
def Legal (rule : State → Ev → Prop) : State → List Ev → Prop
  | _, [] => True
  | s, e :: es => rule s e ∧ Legal rule (step s e) es

instance (rule : State → Ev → Prop) [h : ∀ s e, Decidable (rule s e)] :
    (s : State) → (es : List Ev) → Decidable (Legal rule s es)
  | _, [] => inferInstanceAs (Decidable True)
  | s, e :: es => @instDecidableAnd _ _ (h s e) (instDecidableLegal rule (step s e) es)

theorem barrier_snoc (n : Nat) (r : Round) (tr : List Obs) (o : Obs) :
    Barrier n r (tr ++ [o]) ↔
      Barrier n r tr ∧ (match o with | .waitOk _ => (tr.foldl Round.next r).isOpen n | _ => True) := by
  induction tr generalizing r with
  | nil => simp [Barrier]
  | cons a tr ih => simp only [List.cons_append, Barrier, ih, List.foldl_cons]; exact ⟨fun h => ⟨⟨h.1, h.2.1⟩, h.2.2⟩, fun h => ⟨h.1.1, h.1.2, h.2⟩⟩

theorem round_snoc (tr : List Obs) (o : Obs) : round (tr ++ [o]) = (round tr).next o := by simp [round]

/-- Thread `u` is at `p`. -/
abbrev At (s : State) (u : Nat) (p : PC) : Prop := s.pcs[u]? = some p

structure Normal (s : State) : Prop where
  nr : ∀ u, ¬ At s u .resetting
  cnt : s.counter = if (round s.trace).forced then s.actors else min (round s.trace).arrivals s.actors
  i1 : s.stop = false → (round s.trace).isOpen s.actors
  i2w : ∀ u, At s u .woken → (round s.trace).isOpen s.actors
  i2p : ∀ u a, At s u (.post a) → (round s.trace).isOpen s.actors
  i2b : ∀ u a, At s u (.broadcast a) → (round s.trace).isOpen s.actors
  i4 : (round s.trace).isOpen s.actors → s.stop = false ∨ ∃ u a, At s u (.post a)
  i5 : ∀ u tm, s.stop = false → At s u (.asleep tm) → ∃ u a, At s u (.broadcast a)

structure Resetting (s : State) : Prop where
  t : ∃ t, At s t .resetting ∧ ∀ u, u ≠ t → ∀ p, At s u p → p = .idle
  cnt : s.counter = 0

structure Inv (s : State) : Prop where
  bar : Barrier s.actors {} s.trace
  pos : 0 < s.actors
  st : Normal s ∨ Resetting s

theorem getElem?_set' (l : List PC) (t : Nat) (p : PC) (u : Nat) (q : PC) (ht : l[t]? = some q) :
    (l.set t p)[u]? = if u = t then some p else l[u]? := by
  rw [List.getElem?_set]
  have : t < l.length := by
    rcases Nat.lt_or_ge t l.length with h | h
    · exact h
    · rw [List.getElem?_eq_none h] at ht; cases ht
  by_cases h : u = t
  · simp [h, this]
  · have : ¬ t = u := fun e => h e.symm
    simp [h, this]

theorem wakeAll_get (l : List PC) (u : Nat) (p : PC) :
    (wakeAll l)[u]? = some p ↔ (p = .woken ∧ ∃ tm, l[u]? = some (.asleep tm)) ∨ (l[u]? = some p ∧ ∀ tm, p ≠ .asleep tm) := by
  unfold wakeAll
  rw [List.getElem?_map]
  cases h : l[u]? with
  | none => simp
  | some q =>
    simp only [Option.map_some, Option.some.injEq]
    constructor
    · rintro rfl
      cases q <;> simp
    · rintro (⟨rfl, tm, rfl⟩ | ⟨rfl, h2⟩)
      · rfl
      · cases q <;> first | rfl | exact absurd rfl (h2 _)

theorem wakeAll_some (l : List PC) (u : Nat) (q : PC) (h : l[u]? = some q) : ∃ q', (wakeAll l)[u]? = some q' := by
  unfold wakeAll; rw [List.getElem?_map, h]; exact ⟨_, rfl⟩

theorem open_arrived {r : Round} {n t : Nat} (h : r.isOpen n) : (r.next (.arrived t)).isOpen n := by
  rcases h with h | h
  · exact Or.inl (by simp [Round.next]; omega)
  · exact Or.inr (by simpa [Round.next] using h)

theorem at_goto {s : State} {t : Nat} {q : PC} (ht : At s t q) (p : PC) (u : Nat) (r : PC) :
    (s.pcs.set t p)[u]? = some r ↔ (u = t ∧ r = p) ∨ (u ≠ t ∧ At s u r) := by
  rw [getElem?_set' _ _ _ _ _ ht]
  by_cases h : u = t
  · simp [h, eq_comm]
  · simp [h]

theorem inv24_step {s : State} (h : Inv s) (e : Ev) (hr : Rule24 s e) : Inv (step s e) := by
  obtain ⟨hb, hpos, hst⟩ := h
  cases e with
  | wait => cases hr
  | post => cases hr
  | reset => cases hr
  | spurious => cases hr
  | lockExpired => cases hr
  | waitForAll t timed =>
    simp only [step]
    split
    · next hi =>
      have hn : Normal s := by
        rcases hst with h | h
        · exact h
        · obtain ⟨t', h1, -⟩ := h.t
          exact absurd rfl (hr _ (List.mem_of_getElem? h1))
      refine ⟨?_, hpos, Or.inl ?_⟩
      · simp only [State.emit, State.goto, barrier_snoc, and_true]; exact hb
      · have hat := at_goto hi
        obtain ⟨nr, cnt, i1, i2w, i2p, i2b, i4, i5⟩ := hn
        by_cases hc : s.counter + 1 = s.actors
        · have hnf : (round s.trace).forced = false := by
            cases hf : (round s.trace).forced with
            | false => rfl
            | true => rw [hf] at cnt; simp at cnt; omega
          rw [hnf] at cnt
          simp only [Bool.false_eq_true, if_false] at cnt
          have hnow : ((round s.trace).next (.arrived t)).isOpen s.actors := Or.inl (by simp [Round.next]; omega)
          constructor <;> simp only [At, State.emit, State.goto, round_snoc, hc, if_true, hat]
          · grind
          · simp [Round.next, hnf]; omega
          · grind
          · grind
          · grind
          · grind
          · grind
          · grind
        · constructor <;> simp only [At, State.emit, State.goto, round_snoc, hc, if_false, hat]
          · grind
          · rw [cnt]
            cases hf : (round s.trace).forced with
            | true => simp [Round.next, hf]
            | false =>
              rw [hf] at cnt
              simp only [Bool.false_eq_true, if_false] at cnt
              simp only [Round.next, hf, Bool.false_eq_true, if_false]
              split <;> omega
          · exact fun h => open_arrived (i1 h)
          · rintro u (⟨-, h⟩ | ⟨-, h⟩)
            · cases h
            · exact open_arrived (i2w u h)
          · rintro u a (⟨-, h⟩ | ⟨-, h⟩)
            · cases h
            · exact open_arrived (i2p u a h)
          · rintro u a (⟨-, h⟩ | ⟨-, h⟩)
            · cases h
            · exact open_arrived (i2b u a h)
          · intro h
            have hold : (round s.trace).isOpen s.actors := by
              rcases h with h | h
              · cases hf : (round s.trace).forced with
                | true => exact Or.inr hf
                | false =>
                  rw [hf] at cnt
                  simp only [Bool.false_eq_true, if_false] at cnt
                  refine Or.inl ?_
                  simp [Round.next] at h; omega
              · exact Or.inr (by simpa [Round.next] using h)
            grind
          · grind
    · exact ⟨hb, hpos, hst⟩
  | csReset t =>
    simp only [step]
    split
    · split
      · next hi hc =>
        refine ⟨?_, hpos, Or.inl ?_⟩
        · simp only [State.emit, barrier_snoc, and_true]; exact hb
        · have hidle : ∀ u p, At s u p → p = .idle := fun u p h => hr p (List.mem_of_getElem? h)
          constructor <;> simp only [At, State.emit, round_snoc, Round.next] <;> try grind
          · rintro (h | h)
            · simp at h; omega
            · cases h
      · exact ⟨hb, hpos, hst⟩
    · exact ⟨hb, hpos, hst⟩
  | forceReset t =>
    simp only [step]
    split
    · next hi =>
      refine ⟨hb, hpos, Or.inr ⟨⟨t, ?_, ?_⟩, rfl⟩⟩
      · simp only [At, State.goto, at_goto hi]; simp
      · intro u hu p
        simp only [At, State.goto, at_goto hi]
        rintro (⟨h1, -⟩ | ⟨-, h1⟩)
        · exact absurd h1 hu
        · exact hr p (List.mem_of_getElem? h1)
    · exact ⟨hb, hpos, hst⟩
  | forcePass t =>
    simp only [step]
    split
    · next hi =>
      have hn : Normal s := by
        rcases hst with h | h
        · exact h
        · obtain ⟨t', h1, -⟩ := h.t
          exact absurd rfl (hr _ (List.mem_of_getElem? h1))
      refine ⟨?_, hpos, Or.inl ?_⟩
      · simp only [State.emit, State.goto, barrier_snoc, and_true]; exact hb
      · have hat := at_goto hi
        obtain ⟨nr, cnt, i1, i2w, i2p, i2b, i4, i5⟩ := hn
        have hnow : ((round s.trace).next (.forced t)).isOpen s.actors := Or.inr rfl
        constructor <;> simp only [At, State.emit, State.goto, round_snoc, hat]
        · grind
        · simp [Round.next]
        all_goals grind
    · exact ⟨hb, hpos, hst⟩
  | expire t =>
    simp only [step]
    split
    · next hi =>
      have hn : Normal s := by
        rcases hst with h | h
        · exact h
        · obtain ⟨t', h1, h2⟩ := h.t
          by_cases e : t = t'
          · subst e; rw [At, hi] at h1; cases h1
          · cases h2 t e _ hi
      refine ⟨?_, hpos, Or.inl ?_⟩
      · simp only [State.emit, State.goto, barrier_snoc, and_true]; exact hb
      · have hat := at_goto hi
        obtain ⟨nr, cnt, i1, i2w, i2p, i2b, i4, i5⟩ := hn
        constructor <;> simp only [At, State.emit, State.goto, round_snoc, hat, Round.next] <;> grind
    · exact ⟨hb, hpos, hst⟩
  | run t =>
    have hnorm : ∀ q, At s t q → q ≠ .resetting → q ≠ .idle → Normal s := by
      intro q hi h1 h2
      rcases hst with h | h
      · exact h
      · obtain ⟨t', h3, h4⟩ := h.t
        by_cases e : t = t'
        · subst e; rw [At, hi] at h3; cases h3; exact absurd rfl h1
        · exact absurd (h4 t e _ hi) h2
    simp only [step]
    split
    · next timed hi =>
      have hat := at_goto hi
      obtain ⟨nr, cnt, i1, i2w, i2p, i2b, i4, i5⟩ := hnorm _ hi (by simp) (by simp)
      split
      · next hs =>
        refine ⟨hb, hpos, Or.inl ?_⟩
        constructor <;> simp only [At, State.goto, hat] <;> grind
      · next hs =>
        have hs' : s.stop = false := by simpa using hs
        refine ⟨?_, hpos, Or.inl ?_⟩
        · simp only [State.emit, State.goto, barrier_snoc]; exact ⟨hb, i1 hs'⟩
        · constructor <;> simp only [At, State.emit, State.goto, round_snoc, hat, Round.next] <;> grind
    · next hi =>
      have hat := at_goto hi
      obtain ⟨nr, cnt, i1, i2w, i2p, i2b, i4, i5⟩ := hnorm _ hi (by simp) (by simp)
      refine ⟨?_, hpos, Or.inl ?_⟩
      · simp only [State.emit, State.goto, barrier_snoc]; exact ⟨hb, i2w t hi⟩
      · constructor <;> simp only [At, State.emit, State.goto, round_snoc, hat, Round.next] <;> grind
    · next all hi =>
      have hat := at_goto hi
      obtain ⟨nr, cnt, i1, i2w, i2p, i2b, i4, i5⟩ := hnorm _ hi (by simp) (by simp)
      have hnow := i2p t all hi
      refine ⟨hb, hpos, Or.inl ?_⟩
      constructor <;> simp only [At, State.goto, hat] <;> grind
    · next all hi =>
      obtain ⟨nr, cnt, i1, i2w, i2p, i2b, i4, i5⟩ := hnorm _ hi (by simp) (by simp)
      have hnow := i2b t all hi
      have hat : ∀ u r, ((wakeAll s.pcs).set t PC.idle)[u]? = some r ↔
          (u = t ∧ r = .idle) ∨ (u ≠ t ∧ ((r = .woken ∧ ∃ tm, At s u (.asleep tm)) ∨ (At s u r ∧ ∀ tm, r ≠ .asleep tm))) := by
        intro u r
        obtain ⟨q', hq'⟩ := wakeAll_some s.pcs t _ hi
        rw [getElem?_set' _ _ _ _ _ hq']
        by_cases h : u = t
        · simp [h, eq_comm]
        · simp only [h, if_false, false_and, false_or, ne_eq, not_false_iff, true_and]
          exact wakeAll_get s.pcs u r
      refine ⟨?_, hpos, Or.inl ?_⟩
      · simp only [State.emit, State.goto, barrier_snoc]
        refine ⟨hb, ?_⟩
        cases all
        · trivial
        · exact hnow
      · have hround : ∀ o, (o = .waitOk t ∨ o = .postEnd t) → (round s.trace).next o = round s.trace := by
          rintro o (rfl | rfl) <;> rfl
        have ho : (round s.trace).next (if all then .waitOk t else .postEnd t) = round s.trace := by
          cases all <;> rfl
        constructor <;> simp only [At, State.emit, State.goto, round_snoc, hat, ho]
        · grind
        · grind
        · grind
        · grind
        · grind
        · grind
        · intro _
          rcases i4 hnow with h | ⟨u, a, h⟩
          · exact Or.inl h
          · refine Or.inr ⟨u, a, Or.inr ⟨?_, Or.inr ⟨h, by simp⟩⟩⟩
            rintro rfl; rw [At, hi] at h; cases h
        · grind
    · next hi =>
      rcases hst with h | h
      · exact absurd hi (h.nr t)
      · obtain ⟨t', h3, h4⟩ := h.t
        have e : t = t' := by
          by_cases e : t = t'
          · exact e
          · cases h4 t e _ hi
        subst e
        have hat := at_goto hi
        have hcnt := h.cnt
        refine ⟨?_, hpos, Or.inl ?_⟩
        · simp only [State.emit, State.goto, barrier_snoc, and_true]; exact hb
        · constructor <;> simp only [At, State.emit, State.goto, round_snoc, hat, Round.next] <;> try grind
          · rintro (h | h)
            · simp at h; omega
            · cases h
    · exact ⟨hb, hpos, hst⟩

theorem inv24_run (threads actors : Nat) (hpos : 0 < actors) (es : List Ev)
    (h : Legal Rule24 (init threads actors) es) :
    Inv (run (init threads actors) es) ∧ (run (init threads actors) es).actors = actors := by
  have hact : ∀ s e, (step s e).actors = s.actors := by
    intro s e
    cases e <;> simp only [step, State.goto, State.emit] <;> (repeat' split) <;> rfl
  have key : ∀ es s, Inv s → Legal Rule24 s es → Inv (run s es) ∧ (run s es).actors = s.actors := by
    intro es
    induction es with
    | nil => intro s hs _; exact ⟨hs, rfl⟩
    | cons e es ih =>
      intro s hs hl
      have := ih (step s e) (inv24_step hs e hl.1) hl.2
      exact ⟨this.1, this.2.trans (hact s e)⟩
  refine key es _ ⟨trivial, hpos, Or.inl ?_⟩ h
  have hidle : ∀ u p, At (init threads actors) u p → p = .idle := by
    intro u p h
    simp only [At, init, List.getElem?_replicate] at h
    split at h
    · cases h; rfl
    · cases h
  constructor
  · intro u h; cases hidle u _ h
  · simp [init, round]
  · intro h; simp [init] at h
  · intro u h; cases hidle u _ h
  · intro u a h; cases hidle u _ h
  · intro u a h; cases hidle u _ h
  · rintro (h | h)
    · simp [init, round] at h; omega
    · simp [init, round] at h
  · intro u a _ h; cases hidle u _ h

/-- **C24 safety** (partial: resets only while no other call is in progress, no spurious wakeups).  For any number of
threads, actors and any interleaving, nobody returns successfully from `WaitForAll` before as many calls have been made
since the last reset as there are actors, unless the barrier was forced. -/
theorem c24_barrier_partial (threads actors : Nat) (hpos : 0 < actors) (es : List Ev)
    (h : Legal Rule24 (init threads actors) es) :
    Barrier actors {} (run (init threads actors) es).trace := by
  obtain ⟨h1, h2⟩ := inv24_run threads actors hpos es h
  have := h1.bar
  rwa [h2] at this

/-- **C24 progress** (same conditions).  Once the barrier is open and nobody is still executing `Post`, no caller sleeps
and every caller returns successfully with its next step. -/
theorem c24_all_proceed_partial (threads actors : Nat) (hpos : 0 < actors) (es : List Ev)
    (h : Legal Rule24 (init threads actors) es)
    (hopen : (round (run (init threads actors) es).trace).isOpen actors)
    (hdone : ∀ p ∈ (run (init threads actors) es).pcs, (∀ a, p ≠ .post a) ∧ (∀ a, p ≠ .broadcast a) ∧ p ≠ .resetting)
    (t : Nat) (p : PC) (hp : (run (init threads actors) es).pcs[t]? = some p) (hcall : p ≠ .idle) :
    (step (run (init threads actors) es) (.run t)).trace = (run (init threads actors) es).trace ++ [.waitOk t] := by
  obtain ⟨h1, h2⟩ := inv24_run threads actors hpos es h
  generalize run (init threads actors) es = s at *
  have hd : ∀ u p, At s u p → (∀ a, p ≠ .post a) ∧ (∀ a, p ≠ .broadcast a) ∧ p ≠ .resetting :=
    fun u p h => hdone p (List.mem_of_getElem? h)
  rcases h1.st with hn | hr
  · have hs : s.stop = false := by
      rcases hn.i4 (h2 ▸ hopen) with h | ⟨u, a, h⟩
      · exact h
      · exact absurd rfl ((hd u _ h).1 a)
    cases p with
    | idle => exact absurd rfl hcall
    | wait tm => simp [step, hp, hs, State.goto, State.emit]
    | asleep tm =>
      obtain ⟨v, a, hv⟩ := hn.i5 t tm hs hp
      exact absurd rfl ((hd v _ hv).2.1 a)
    | woken => simp [step, hp, State.goto, State.emit]
    | post a => exact absurd rfl ((hd t _ hp).1 a)
    | broadcast a => exact absurd rfl ((hd t _ hp).2.1 a)
    | resetting => exact absurd rfl ((hd t _ hp).2.2)
  · obtain ⟨u, hu, -⟩ := hr.t
    exact absurd rfl ((hd u _ hu).2.2)

/-- **C24 refuted with a concurrent `Reset`, safety.**  A `Reset` between the last arrival and its `Post` lets the first
caller of the next round through alone. -/
theorem c24_delayed_post_opens_next_round :
    ¬ Barrier 2 {} (run (init 4 2) [.waitForAll 0 false, .waitForAll 1 false, .csReset 2, .run 1, .waitForAll 3 false,
      .run 3]).trace := by
  simp only [run, init, List.foldl, step, List.replicate, State.goto, State.emit]
  simp [Barrier, Round.next, Round.isOpen]

/-- **C24 refuted with a concurrent `Reset`, progress.**  All the actors have arrived and the last one has returned;
`Reset`, accepted because the counter is complete, leaves the other one asleep, and nobody is left to wake it up. -/
theorem c24_reset_strands_actor :
    let s := run (init 2 2) [.waitForAll 0 false, .waitForAll 1 false, .run 1, .run 1, .csReset 1, .run 0]
    s.trace = [.arrived 0, .arrived 1, .waitOk 1, .resetDone 1] ∧ s.pcs = [.asleep false, .idle] := by decide

/-- **C24 refuted by a spurious wakeup**, which POSIX allows: the flag is not checked again. -/
theorem c24_spurious_wakeup_passes :
    (run (init 2 2) [.waitForAll 0 false, .run 0, .spurious 0, .run 0]).trace = [.arrived 0, .waitOk 0] := by decide

/-- **C24 refuted by contention**: a timed wait that cannot lock the mutex in time reports success. -/
theorem c24_lock_timeout_passes :
    (run (init 2 2) [.waitForAll 0 true, .lockExpired 0]).trace = [.arrived 0, .waitOk 0] := by decide

/-- A run of two rounds meets the hypotheses. -/
example : Legal Rule24 (init 2 2) [.waitForAll 0 false, .run 0, .waitForAll 1 true, .run 1, .run 1, .run 0, .csReset 1,
      .waitForAll 1 false, .waitForAll 0 false, .run 0, .run 1, .run 0] ∧
    (run (init 2 2) [.waitForAll 0 false, .run 0, .waitForAll 1 true, .run 1, .run 1, .run 0, .csReset 1,
      .waitForAll 1 false, .waitForAll 0 false, .run 0, .run 1, .run 0]).trace =
      [.arrived 0, .arrived 1, .waitOk 1, .waitOk 0, .resetDone 1, .arrived 1, .arrived 0, .waitOk 1, .waitOk 0] := by
  decide

/-! ### The event semaphore alone -/

/-- `Reset` is called only while no `Post` is in progress; the operating system makes no spurious wakeup and no lock
times out. -/
def Rule42 (s : State) : Ev → Prop
  | .reset _ => ∀ p ∈ s.pcs, p ≠ .post false ∧ p ≠ .broadcast false
  | .wait .. | .post _ | .run _ | .expire _ => True
  | _ => False

instance (s : State) (e : Ev) : Decidable (Rule42 s e) := by cases e <;> unfold Rule42 <;> infer_instance

theorem gateOk_snoc (g : Gate) (tr : List Obs) (o : Obs) :
    GateOk g (tr ++ [o]) ↔
      GateOk g tr ∧ (match o with | .waitOk t => t ∈ (tr.foldl Gate.next g).passed | _ => True) := by
  induction tr generalizing g with
  | nil => simp [GateOk]
  | cons a tr ih => simp only [List.cons_append, GateOk, ih, List.foldl_cons]; exact ⟨fun h => ⟨⟨h.1, h.2.1⟩, h.2.2⟩, fun h => ⟨h.1.1, h.1.2, h.2⟩⟩

theorem gate_snoc (tr : List Obs) (o : Obs) : gate (tr ++ [o]) = (gate tr).next o := by simp [gate]

structure Inv42 (s : State) : Prop where
  ok : GateOk {} s.trace
  nr : ∀ u, ¬ At s u .resetting
  np : ∀ u, ¬ At s u (.post true)
  nb : ∀ u, ¬ At s u (.broadcast true)
  i1 : s.stop = false → (gate s.trace).isOpen = true
  ip : ∀ u, At s u (.post false) → (gate s.trace).isOpen = true
  ib : ∀ u, At s u (.broadcast false) → (gate s.trace).isOpen = true
  iw : ∀ u, At s u .woken → u ∈ (gate s.trace).passed
  ww : ∀ u tm, At s u (.wait tm) → u ∈ (gate s.trace).waiting
  wa : ∀ u tm, At s u (.asleep tm) → u ∈ (gate s.trace).waiting
  op : (gate s.trace).isOpen = true → ∀ u ∈ (gate s.trace).waiting, u ∈ (gate s.trace).passed
  i4 : (gate s.trace).isOpen = true → s.stop = false ∨ ∃ u, At s u (.post false)
  i5 : ∀ u tm, s.stop = false → At s u (.asleep tm) → ∃ v, At s v (.broadcast false)

theorem inv42_step {s : State} (h : Inv42 s) (e : Ev) (hr : Rule42 s e) : Inv42 (step s e) := by
  have h0 := h
  obtain ⟨hok, nr, np, nb, i1, ip, ib, iw, ww, wa, op, i4, i5⟩ := h
  cases e with
  | spurious => cases hr
  | lockExpired => cases hr
  | waitForAll => cases hr
  | csReset => cases hr
  | forceReset => cases hr
  | forcePass => cases hr
  | wait t timed =>
    simp only [step]
    split
    · next hi =>
      have hat := at_goto hi
      constructor <;> simp only [At, State.emit, State.goto, gateOk_snoc, gate_snoc, hat, Gate.next] <;> try grind
    · exact h0
  | post t =>
    simp only [step]
    split
    · next hi =>
      have hat := at_goto hi
      constructor <;> simp only [At, State.emit, State.goto, gateOk_snoc, gate_snoc, hat, Gate.next] <;> try grind
    · exact h0
  | reset t =>
    simp only [step]
    split
    · next hi =>
      have h1 : ∀ u p, At s u p → p ≠ .post false ∧ p ≠ .broadcast false := fun u p h => hr p (List.mem_of_getElem? h)
      constructor <;> simp only [At, State.emit, gateOk_snoc, gate_snoc, Gate.next] <;> try grind
    · exact h0
  | expire t =>
    simp only [step]
    split
    · next hi =>
      have hat := at_goto hi
      constructor <;> simp only [At, State.emit, State.goto, gateOk_snoc, gate_snoc, hat, Gate.next] <;> try grind
    · exact h0
  | run t =>
    simp only [step]
    split
    · next timed hi =>
      have hat := at_goto hi
      split
      · next hs =>
        constructor <;> simp only [At, State.goto, hat] <;> try grind
      · next hs =>
        have hs' : s.stop = false := by simpa using hs
        have hpass : t ∈ (gate s.trace).passed := op (i1 hs') t (ww t timed hi)
        have hpass' : t ∈ (s.trace.foldl Gate.next {}).passed := hpass
        constructor <;> simp only [At, State.emit, State.goto, gateOk_snoc, gate_snoc, hat, Gate.next] <;> try grind
    · next hi =>
      have hat := at_goto hi
      have hpass' : t ∈ (s.trace.foldl Gate.next {}).passed := iw t hi
      constructor <;> simp only [At, State.emit, State.goto, gateOk_snoc, gate_snoc, hat, Gate.next] <;> try grind
    · next all hi =>
      have hat := at_goto hi
      cases all with
      | true => exact absurd hi (np t)
      | false =>
        have := ip t hi
        constructor <;> simp only [At, State.goto, hat] <;> try grind
    · next all hi =>
      have hat : ∀ u r, ((wakeAll s.pcs).set t PC.idle)[u]? = some r ↔
          (u = t ∧ r = .idle) ∨ (u ≠ t ∧ ((r = .woken ∧ ∃ tm, At s u (.asleep tm)) ∨ (At s u r ∧ ∀ tm, r ≠ .asleep tm))) := by
        intro u r
        obtain ⟨q', hq'⟩ := wakeAll_some s.pcs t _ hi
        rw [getElem?_set' _ _ _ _ _ hq']
        by_cases h : u = t
        · simp [h, eq_comm]
        · simp only [h, if_false, false_and, false_or, ne_eq, not_false_iff, true_and]
          exact wakeAll_get s.pcs u r
      cases all with
      | true => exact absurd hi (nb t)
      | false =>
        have hnow := ib t hi
        constructor <;> simp only [At, State.emit, State.goto, gateOk_snoc, gate_snoc, hat, Gate.next, Bool.false_eq_true, if_false] <;> try grind
    · next hi => exact absurd hi (nr t)
    · exact h0

theorem inv42_run (threads actors : Nat) (es : List Ev) (h : Legal Rule42 (init threads actors) es) :
    Inv42 (run (init threads actors) es) := by
  have key : ∀ es s, Inv42 s → Legal Rule42 s es → Inv42 (run s es) := by
    intro es
    induction es with
    | nil => intro s hs _; exact hs
    | cons e es ih => intro s hs hl; exact ih (step s e) (inv42_step hs e hl.1) hl.2
  refine key es _ ?_ h
  have hidle : ∀ u p, At (init threads actors) u p → p = .idle := by
    intro u p h
    simp only [At, init, List.getElem?_replicate] at h
    split at h
    · cases h; rfl
    · cases h
  have hg : gate (init threads actors).trace = {} := rfl
  have hs : (init threads actors).stop = true := rfl
  have ht : (init threads actors).trace = [] := rfl
  constructor <;> try grind
  · rw [ht]; trivial

/-- **C42 safety** (partial: `Reset` not concurrent with `Post`, no spurious wakeups).  For any number of threads and
any interleaving, every `Wait` that succeeds was in progress at some moment at which the semaphore was open. -/
theorem c42_wait_needs_post_partial (threads actors : Nat) (es : List Ev) (h : Legal Rule42 (init threads actors) es) :
    GateOk {} (run (init threads actors) es).trace := (inv42_run threads actors es h).ok

/-- **C42 progress** (same conditions).  While the semaphore is open and every `Post` has returned, no caller of `Wait`
sleeps: each returns successfully with its next step. -/
theorem c42_open_lets_pass_partial (threads actors : Nat) (es : List Ev) (h : Legal Rule42 (init threads actors) es)
    (hopen : (gate (run (init threads actors) es).trace).isOpen = true)
    (hdone : ∀ p ∈ (run (init threads actors) es).pcs, (∀ a, p ≠ .post a) ∧ (∀ a, p ≠ .broadcast a))
    (t : Nat) (p : PC) (hp : (run (init threads actors) es).pcs[t]? = some p) (hcall : p ≠ .idle) :
    (step (run (init threads actors) es) (.run t)).trace = (run (init threads actors) es).trace ++ [.waitOk t] := by
  have hn := inv42_run threads actors es h
  generalize run (init threads actors) es = s at *
  have hd : ∀ u p, At s u p → (∀ a, p ≠ .post a) ∧ (∀ a, p ≠ .broadcast a) :=
    fun u p h => hdone p (List.mem_of_getElem? h)
  have hs : s.stop = false := by
    rcases hn.i4 hopen with h | ⟨u, h⟩
    · exact h
    · exact absurd rfl ((hd u _ h).1 false)
  cases p with
  | idle => exact absurd rfl hcall
  | wait tm => simp [step, hp, hs, State.goto, State.emit]
  | asleep tm =>
    obtain ⟨v, hv⟩ := hn.i5 t tm hs hp
    exact absurd rfl ((hd v _ hv).2 false)
  | woken => simp [step, hp, State.goto, State.emit]
  | post a => exact absurd rfl ((hd t _ hp).1 a)
  | broadcast a => exact absurd rfl ((hd t _ hp).2 a)
  | resetting => exact absurd hp (hn.nr t)

/-- **C42 refuted by a spurious wakeup**: a `Wait` succeeds although nobody ever called `Post`. -/
theorem c42_spurious_wakeup_passes :
    (run (init 1 1) [.wait 0 false, .run 0, .spurious 0, .run 0]).trace = [.waitBegin 0, .waitOk 0] := by decide

/-- **C42 refuted by contention**: a timed `Wait` that cannot lock the mutex in time succeeds although nobody ever called
`Post`. -/
theorem c42_lock_timeout_passes :
    (run (init 1 1) [.wait 0 true, .lockExpired 0]).trace = [.waitBegin 0, .waitOk 0] := by decide

/-- Two waiters, one already asleep, are released; a third comes before the reset, a fourth after it times out. -/
example : Legal Rule42 (init 4 1) [.wait 0 false, .run 0, .wait 1 true, .post 2, .run 2, .run 1, .run 2, .run 0,
      .wait 3 false, .run 3, .reset 2, .wait 1 true, .run 1, .expire 1] ∧
    (run (init 4 1) [.wait 0 false, .run 0, .wait 1 true, .post 2, .run 2, .run 1, .run 2, .run 0, .wait 3 false,
      .run 3, .reset 2, .wait 1 true, .run 1, .expire 1]).trace =
      [.waitBegin 0, .waitBegin 1, .postBegin 2, .waitOk 1, .postEnd 2, .waitOk 0, .waitBegin 3, .waitOk 3, .resetDone 2,
       .waitBegin 1, .waitTimeout 1] := by decide

end Verif.EventSem
