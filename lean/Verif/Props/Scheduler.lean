import Verif.Model.Scheduler

/-!
# C34: the real-time cycle; C35: state switching
-/

namespace Verif.Spec.Scheduler

open Verif.Scheduler (Gam StateDecl Op Ev)

/-- The executables of a thread in execution order: for each GAM its input brokers, itself, its output brokers. -/
def order (gs : List Gam) : List Nat := gs.flatMap fun g => g.inputs.filterMap id ++ [g.self] ++ g.outputs.filterMap id

/-- Everything the configuration needs is there. -/
def Complete (gs : List Gam) : Prop :=
  ∀ g ∈ gs, none ∉ g.inputs ∧ none ∉ g.outputs ∧ g.readTime = true ∧ g.execTime = true ∧ g.writeTime = true

/-- The ideal state machine of the application: the state prepared since the last start, and the one running. -/
structure Ideal where
  prepared : Option Nat
  running : Option Nat
  /-- Number of the starts requested with nothing prepared. -/
  blindStarts : Nat

/-- The position of the first state with that name. -/
def lookup : List StateDecl → Nat → Option Nat
  | [], _ => none
  | d :: ds, n => if d.name = n then some 0 else (lookup ds n).map (· + 1)

def Ideal.prepare (ds : List StateDecl) (i : Ideal) (name : Nat) (others : Bool) : Ideal :=
  match others, lookup ds name with
  | true, some k => { i with prepared := some k }
  | _, _ => i

def Ideal.start (i : Ideal) : Ideal :=
  match i.prepared with
  | some k => { i with prepared := none, running := some k }
  | none => { i with blindStarts := i.blindStarts + 1 }

def idealOps (ds : List StateDecl) (ops : List Op) : Ideal :=
  ops.foldl (fun i o => match o with | .prepare n ok => i.prepare ds n ok | .start => i.start) ⟨none, none, 0⟩

/-- The same for the events of the scheduler with threads, also counting the starts requested without stopping the running state. -/
structure Discipline where
  ideal : Ideal
  stopped : Bool
  bad : Nat

def Discipline.step (ds : List StateDecl) (d : Discipline) : Ev → Discipline
  | .prepare n ok => { d with ideal := d.ideal.prepare ds n ok }
  | .start => ⟨d.ideal.start, false, if d.stopped ∧ d.ideal.prepared.isSome then d.bad else d.bad + 1⟩
  | .stop => { d with stopped := true }
  | .pass _ => d
  | .cycle _ => d

def discipline (ds : List StateDecl) (evs : List Ev) : Discipline := evs.foldl (Discipline.step ds) ⟨⟨none, none, 0⟩, true, 0⟩

end Verif.Spec.Scheduler

namespace Verif.Props

open Verif.Scheduler
open Verif.Spec.Scheduler

/-! ## C34 -/

private theorem store_next (done : List Nat) (k e : Nat) :
    store (done.map some ++ List.replicate (k + 1) none) done.length e = some ((done ++ [e]).map some ++ List.replicate k none) := by
  unfold store
  rw [if_pos (by simp)]
  rw [List.set_append_right _ _ (by simp)]
  simp [List.replicate_succ]

private theorem insertBrokers_spec : ∀ (bs : List (Option Nat)) (done : List Nat) (k : Nat),
    ∃ r, insertBrokers bs (done.map some ++ List.replicate (bs.length + k) none) done.length = some r ∧
      (r.1 = true ↔ none ∉ bs) ∧
      (r.1 = true → r.2 = ((done ++ bs.filterMap id).map some ++ List.replicate k none, done.length + bs.length)) := by
  intro bs
  induction bs with
  | nil => intro done k; exact ⟨_, rfl, by simp, by simp⟩
  | cons b bs ih =>
    intro done k
    cases b with
    | none => exact ⟨_, rfl, by simp, by simp⟩
    | some b =>
      have e : (some b :: bs).length + k = (bs.length + k) + 1 := by simp; omega
      obtain ⟨r, h1, h2, h3⟩ := ih (done ++ [b]) k
      refine ⟨r, ?_, ?_, ?_⟩
      · rw [insertBrokers, e, store_next]
        simp only [Option.bind_some]
        have : done.length + 1 = (done ++ [b]).length := by simp
        rw [this, h1]
      · rw [h2]; simp
      · intro h; rw [h3 h]; simp; omega

private def need (g : Gam) : Nat := g.inputs.length + g.outputs.length + 1

private theorem insertGam_spec (g : Gam) (done : List Nat) (k : Nat) :
    ∃ r, insertGam g (done.map some ++ List.replicate (need g + k) none) done.length = some r ∧
      (r.1 = true ↔ none ∉ g.inputs ∧ none ∉ g.outputs ∧ g.readTime = true ∧ g.execTime = true ∧ g.writeTime = true) ∧
      (r.1 = true → r.2 = ((done ++ order [g]).map some ++ List.replicate k none, done.length + need g)) := by
  have lenIn : none ∉ g.inputs → (g.inputs.filterMap id).length = g.inputs.length := by
    generalize g.inputs = l
    intro h
    induction l with
    | nil => rfl
    | cons a l ih => cases a with
      | none => simp at h
      | some a => simp at h; simp [ih h]
  by_cases hr : g.readTime = true
  · obtain ⟨r, h1, h2, h3⟩ := insertBrokers_spec g.inputs done (g.outputs.length + 1 + k)
    have e1 : need g + k = g.inputs.length + (g.outputs.length + 1 + k) := by unfold need; omega
    rw [insertGam, if_pos hr, e1, h1]
    simp only [Option.bind_some]
    by_cases hin : none ∉ g.inputs
    · have ht := h2.mpr hin
      rw [if_pos ht, h3 ht]
      by_cases he : g.execTime = true
      · have hl : done.length + g.inputs.length = (done ++ g.inputs.filterMap id).length := by simp [lenIn hin]
        have e2 : g.outputs.length + 1 + k = (g.outputs.length + k) + 1 := by omega
        rw [if_pos he, e2, hl, store_next]
        simp only [Option.bind_some]
        by_cases hw : g.writeTime = true
        · obtain ⟨q, q1, q2, q3⟩ := insertBrokers_spec g.outputs (done ++ g.inputs.filterMap id ++ [g.self]) k
          rw [if_pos hw]
          have e3 : (done ++ g.inputs.filterMap id).length + 1 = (done ++ g.inputs.filterMap id ++ [g.self]).length := by
            rw [List.length_append (bs := [g.self])]; rfl
          rw [e3, q1]
          refine ⟨q, rfl, ?_, ?_⟩
          · rw [q2]; simp [hin, hr, he, hw]
          · intro h
            rw [q3 h]
            refine Prod.ext ?_ ?_
            · simp [order]
            · simp [lenIn hin, need]; omega
        · rw [if_neg hw]; exact ⟨_, rfl, by simp [hw], by simp⟩
      · rw [if_neg he]; exact ⟨_, rfl, by simp [he], by simp⟩
    · have hf : ¬ r.1 = true := fun h => hin (h2.mp h)
      rw [if_neg hf]
      exact ⟨r, rfl, by simp [hf, hin], fun h => absurd h hf⟩
  · rw [insertGam, if_neg hr]; exact ⟨_, rfl, by simp [hr], by simp⟩

private theorem insertGams_spec : ∀ (gs : List Gam) (done : List Nat) (k : Nat),
    ∃ r, insertGams gs (done.map some ++ List.replicate ((gs.map need).sum + k) none) done.length = some r ∧
      (r.1 = true ↔ Complete gs) ∧
      (r.1 = true → r.2.1 = (done ++ order gs).map some ++ List.replicate k none) := by
  intro gs
  induction gs with
  | nil => intro done k; exact ⟨_, rfl, by simp [Complete], by simp [order]⟩
  | cons g gs ih =>
    intro done k
    have e : ((g :: gs).map need).sum + k = need g + ((gs.map need).sum + k) := by simp; omega
    obtain ⟨r, h1, h2, h3⟩ := insertGam_spec g done ((gs.map need).sum + k)
    rw [insertGams, e, h1]
    simp only [Option.bind_some]
    by_cases ht : r.1 = true
    · have hl : (order [g]).length = need g := by
        have hc := h2.mp ht
        have aux : ∀ l : List (Option Nat), none ∉ l → (l.filterMap id).length = l.length := by
          intro l h
          induction l with
          | nil => rfl
          | cons a l ih => cases a with
            | none => simp at h
            | some a => simp at h; simp [ih h]
        simp [order, need, aux _ hc.1, aux _ hc.2.1]; omega
      obtain ⟨q, q1, q2, q3⟩ := ih (done ++ order [g]) k
      have e2 : done.length + need g = (done ++ order [g]).length := by simp [hl]
      rw [if_pos ht, h3 ht]
      simp only
      rw [e2, q1]
      refine ⟨q, rfl, ?_, ?_⟩
      · rw [q2]
        constructor
        · intro h x hx
          rcases List.mem_cons.mp hx with rfl | hx
          · exact h2.mp ht
          · exact h x hx
        · intro h x hx; exact h x (by simp [hx])
      · intro h; rw [q3 h]; simp [order]
    · rw [if_neg ht]
      refine ⟨r, rfl, ?_, fun h => absurd h ht⟩
      constructor
      · intro h; exact absurd h ht
      · intro h; exact h2.mpr (h g (by simp))

/-- C34: building the execution list never writes outside the allocated array, succeeds exactly when everything needed is present, and
then the list is, in order, the input brokers, the function and the output brokers of each function, with no slot left unset. -/
theorem c34_execution_list (gs : List Gam) :
    ∃ ok arr, configureThread gs = some (ok, arr) ∧ (ok = true ↔ Complete gs) ∧ (ok = true → arr = (order gs).map some) := by
  obtain ⟨r, h1, h2, h3⟩ := insertGams_spec gs [] 0
  have hn : ∀ (gs : List Gam) (n : Nat), gs.foldl (fun n g => n + g.inputs.length + g.outputs.length) n + gs.length = n + (gs.map need).sum := by
    intro gs
    induction gs with
    | nil => intro n; simp
    | cons g gs ih =>
      intro n
      have := ih (n + g.inputs.length + g.outputs.length)
      simp only [List.foldl_cons, List.length_cons, List.map_cons, List.sum_cons]
      unfold need at *; omega
  have hnum : numberOfExecutables gs = (gs.map need).sum + 0 := by
    have := hn gs gs.length
    unfold numberOfExecutables; omega
  simp only [List.map_nil, List.nil_append, List.length_nil] at h1 h3
  refine ⟨r.1, r.2.1, ?_, h2, ?_⟩
  · unfold configureThread; rw [hnum, h1]; rfl
  · intro h; rw [h3 h]; simp

/-- C34: a cycle without failures executes every enabled executable, in order. -/
theorem c34_cycle_success (ss : List Slot) (ht : ∀ s ∈ ss, s.timed = true) :
    ((cycle ss).2 = true ↔ ∀ s ∈ ss, s.enabled = true → s.ok = true) ∧
    ((cycle ss).2 = true → (cycle ss).1 = (ss.filter (·.enabled)).map (·.id)) := by
  induction ss with
  | nil => simp [cycle]
  | cons s ss ih =>
    have i := ih (fun x hx => ht x (by simp [hx]))
    have hs := ht s (by simp)
    simp only [cycle, hs, if_true]
    cases he : s.enabled with
    | false => simp [he]; exact i
    | true =>
      cases ho : s.ok with
      | false => simp [he, ho]
      | true =>
        simp [he, ho]
        simpa using i

/-- C34: the first failure ends the cycle: what was enabled before it and itself were executed, nothing after it, and the failure is
reported. -/
theorem c34_cycle_failure (pre post : List Slot) (f : Slot) (ht : ∀ s ∈ pre, s.timed = true)
    (hpre : ∀ s ∈ pre, s.enabled = true → s.ok = true) (he : f.enabled = true) (ho : f.ok = false) :
    cycle (pre ++ f :: post) = ((pre.filter (·.enabled)).map (·.id) ++ [f.id], false) := by
  induction pre with
  | nil => simp [cycle, he, ho]
  | cons s ss ih =>
    have i := ih (fun x hx => ht x (by simp [hx])) (fun x hx => hpre x (by simp [hx]))
    have hs := ht s (by simp)
    have h1 := hpre s (by simp)
    rw [List.cons_append, cycle, i]
    cases hen : s.enabled with
    | false => simp [hs, hen]
    | true => simp [hs, hen, h1 hen]

/-- C34: the cycle reports success exactly when every enabled executable succeeded and every execution time could be written. -/
theorem c34_cycle_result (ss : List Slot) :
    (cycle ss).2 = true ↔ ∀ s ∈ ss, s.timed = true ∧ (s.enabled = true → s.ok = true) := by
  induction ss with
  | nil => simp [cycle]
  | cons s ss ih =>
    simp only [cycle, List.forall_mem_cons]
    cases he : s.enabled <;> cases ho : s.ok <;> cases ht : s.timed <;> simp [ih]

/-- Two GAMs, the first with two input brokers and one output broker. -/
example : configureThread [⟨[some 1, some 2], 3, [some 4], true, true, true⟩, ⟨[], 5, [some 6], true, true, true⟩] =
    some (true, [some 1, some 2, some 3, some 4, some 5, some 6]) := by decide

example : cycle [⟨1, true, true, true⟩, ⟨2, false, false, true⟩, ⟨3, true, false, true⟩, ⟨4, true, true, true⟩] = ([1, 3], false) := by decide

/-! ## C35 -/

private theorem lookup_eq (ds : List StateDecl) (n : Nat) : findState ds n = lookup ds n := by
  unfold findState
  induction ds with
  | nil => rfl
  | cons d ds ih =>
    rw [List.findIdx?_cons, ih, lookup]
    by_cases h : d.name = n
    · simp [h]
    · simp [h]

/-- C35: a request to prepare a state, successful or not, changes nothing of what is running. -/
theorem c35_prepare_keeps_running (ds : List StateDecl) (a : App) (name : Nat) (others : Bool) :
    (prepare ds a name others).2.index = a.index ∧ (prepare ds a name others).2.running = a.running ∧
    (prepare ds a name others).2.currentId = a.currentId ∧ (prepare ds a name others).2.scheduled a.index = a.scheduled a.index ∧
    (prepare ds a name others).2.holder a.index = a.holder a.index := by
  cases others with
  | false => simp [prepare, setB, App.running]
  | true =>
    simp only [prepare, schedulerPrepare, if_true]
    cases findState ds name <;> simp [setB, App.running]

/-- C35: after a successful preparation, starting makes that state the running one, with its identifier and name. -/
theorem c35_start_prepared (ds : List StateDecl) (a : App) (name : Nat) (others : Bool) (h : (prepare ds a name others).1 = true) :
    ∃ k, lookup ds name = some k ∧ (start (prepare ds a name others).2).1 = true ∧
      (start (prepare ds a name others).2).2.running = some k ∧ (start (prepare ds a name others).2).2.currentId = k ∧
      (start (prepare ds a name others).2).2.holder (start (prepare ds a name others).2).2.index = name := by
  cases others with
  | false => simp [prepare] at h
  | true =>
    rw [← lookup_eq]
    simp only [prepare, schedulerPrepare, if_true] at h ⊢
    cases hf : findState ds name with
    | none => simp [hf] at h
    | some k => exact ⟨k, rfl, by simp [start, setB, App.running]⟩

/-- C35: a preparation succeeds exactly when the state exists and everybody else accepted. -/
theorem c35_prepare_result (ds : List StateDecl) (a : App) (name : Nat) (others : Bool) :
    (prepare ds a name others).1 = (others && (lookup ds name).isSome) := by
  rw [← lookup_eq]
  cases others with
  | false => simp [prepare]
  | true =>
    simp only [prepare, schedulerPrepare, if_true]
    cases findState ds name <;> simp

private def Rel (a : App) (i : Ideal) : Prop :=
  a.running = i.running ∧ (∀ k, i.prepared = some k → a.info (!a.index) = some k ∧ a.scheduled (!a.index) = some k ∧ a.bound = true)

private theorem rel_prepare (ds : List StateDecl) (a : App) (i : Ideal) (n : Nat) (o : Bool) (h : Rel a i) :
    Rel (prepare ds a n o).2 (i.prepare ds n o) := by
  refine ⟨(c35_prepare_keeps_running ds a n o).2.1.trans (h.1.trans ?_), ?_⟩
  · unfold Ideal.prepare; split <;> rfl
  · unfold Ideal.prepare
    rw [← lookup_eq]
    cases o with
    | false => simpa [prepare] using h.2
    | true =>
      simp only [prepare, schedulerPrepare, if_true]
      cases hf : findState ds n with
      | none => simpa using h.2
      | some k => intro j hj; simp at hj; subst hj; simp [setB]

private theorem rel_start (a : App) (i : Ideal) (h : Rel a i) (hp : i.prepared.isSome = true) : Rel (start a).2 i.start ∧ (start a).1 = true := by
  cases hi : i.prepared with
  | none => simp [hi] at hp
  | some k =>
    obtain ⟨h1, h2, h3⟩ := h.2 k hi
    unfold start Ideal.start
    simp only [h3, if_true, h2, hi]
    exact ⟨⟨by simp [App.running, h1], by simp⟩, trivial⟩

/-- C35: after any history of prepare and start requests (failed preparations included) in which no start is requested without a state
prepared since the previous one, the running state is the last one started. -/
theorem c35_running_is_last_started (ds : List StateDecl) (ops : List Op) (h : (idealOps ds ops).blindStarts = 0) :
    (runOps ds App.initial ops).running = (idealOps ds ops).running := by
  have mono : ∀ (ops : List Op) (i : Ideal), i.blindStarts ≤
      (ops.foldl (fun i o => match o with | .prepare n ok => i.prepare ds n ok | .start => i.start) i).blindStarts := by
    intro ops
    induction ops with
    | nil => intro i; exact Nat.le_refl _
    | cons o ops ih =>
      intro i
      rw [List.foldl_cons]
      refine Nat.le_trans ?_ (ih _)
      cases o with
      | prepare n ok => simp only [Ideal.prepare]; split <;> exact Nat.le_refl _
      | start => simp only [Ideal.start]; split <;> simp
  have key : ∀ (ops : List Op) (a : App) (i : Ideal), Rel a i →
      (ops.foldl (fun i o => match o with | .prepare n ok => i.prepare ds n ok | .start => i.start) i).blindStarts = 0 →
      Rel (runOps ds a ops) (ops.foldl (fun i o => match o with | .prepare n ok => i.prepare ds n ok | .start => i.start) i) := by
    intro ops
    induction ops with
    | nil => intro a i hr _; exact hr
    | cons o ops ih =>
      intro a i hr hb
      rw [List.foldl_cons] at hb ⊢
      rw [runOps]
      cases o with
      | prepare n ok => exact ih _ _ (rel_prepare ds a i n ok hr) hb
      | start =>
        refine ih _ _ (rel_start a i hr ?_).1 hb
        have hz := mono ops i.start
        rw [hb] at hz
        cases hp : i.prepared with
        | some k => rfl
        | none => simp [Ideal.start, hp] at hz
  exact (key ops App.initial ⟨none, none, 0⟩ ⟨rfl, by simp⟩ h).1

/-- C35, disagreement: a start requested after a failed preparation is accepted and brings back the state that was running before
the current one, while the reported identifier is not that of any state. -/
theorem c35_blind_start_goes_back :
    let ds : List StateDecl := [⟨10, 1⟩, ⟨20, 1⟩]
    let a := runOps ds App.initial [.prepare 10 true, .start, .prepare 20 true, .start, .prepare 30 true]
    a.running = some 1 ∧ (start a).1 = true ∧ (start a).2.running = some 0 ∧ (start a).2.currentId = 2 := by decide

/-- C35, disagreement: a failed preparation after a successful one leaves the first one to be started, under the name of the failed one. -/
theorem c35_failed_prepare_renames :
    let ds : List StateDecl := [⟨10, 1⟩, ⟨20, 1⟩]
    let a := (start (runOps ds App.initial [.prepare 10 true, .prepare 30 true])).2
    a.running = some 0 ∧ a.holder a.index = 30 ∧ a.currentId = 2 := by decide

/-! ### With threads -/

private structure Inv (ds : List StateDecl) (s : Sys) (d : Discipline) : Prop where
  rel : Rel s.app d.ideal
  cur : ∀ t ∈ s.threads, t.buffer = s.app.index → ∃ r, d.ideal.running = some r ∧ t.number < threadCount ds r
  nxt : ∀ t ∈ s.threads, t.buffer = (!s.app.index) → t.phase = .waiting ∧ ∃ r, d.ideal.prepared = some r ∧ t.number < threadCount ds r
  sem : s.sem = true → ∀ t ∈ s.threads, t.buffer = s.app.index
  stp : d.stopped = true → ∀ t ∈ s.threads, t.buffer = (!s.app.index)

private theorem bnot_eq_iff (a b : Bool) : a ≠ b ↔ a = !b := by cases a <;> cases b <;> simp

private theorem sys_inv (ds : List StateDecl) (s s' : Sys) (d : Discipline) (e : Ev) (o : List Obs) (hi : Inv ds s d)
    (hs : sysStep ds s e = some (s', o)) (hb : (d.step ds e).bad = d.bad) : Inv ds s' (d.step ds e) := by
  cases e with
  | prepare n ok =>
    have hk := c35_prepare_keeps_running ds s.app n ok
    have hrun : (d.ideal.prepare ds n ok).running = d.ideal.running := by unfold Ideal.prepare; split <;> rfl
    simp only [sysStep] at hs
    cases hp : (prepare ds s.app n ok).1 with
    | false =>
      simp only [hp, Option.some.injEq, Prod.mk.injEq] at hs
      obtain ⟨rfl, _⟩ := hs
      have hsame : d.ideal.prepare ds n ok = d.ideal := by
        rw [c35_prepare_result] at hp
        unfold Ideal.prepare
        cases ok with
        | false => rfl
        | true => simp at hp; simp [hp]
      refine ⟨rel_prepare ds s.app d.ideal n ok hi.rel, ?_, ?_, ?_, ?_⟩ <;> simp only [Discipline.step, hk.1, hsame]
      · exact hi.cur
      · exact hi.nxt
      · exact hi.sem
      · exact hi.stp
    | true =>
      simp only [hp, Option.some.injEq, Prod.mk.injEq] at hs
      obtain ⟨rfl, _⟩ := hs
      have hres := hp
      rw [c35_prepare_result] at hres
      simp only [Bool.and_eq_true] at hres
      obtain ⟨rfl, hlk⟩ := hres
      obtain ⟨k, hlk⟩ := Option.isSome_iff_exists.mp hlk
      have hnid : (prepare ds s.app n true).2.nextId = k := by
        rw [← lookup_eq] at hlk
        simp [prepare, schedulerPrepare, hlk]
      have hprep : (d.ideal.prepare ds n true).prepared = some k := by simp [Ideal.prepare, hlk]
      refine ⟨rel_prepare ds s.app d.ideal n true hi.rel, ?_, ?_, by simp, ?_⟩
      · intro t ht hbuf
        simp only [Discipline.step, hrun]
        rcases List.mem_append.mp ht with ht | ht
        · simp only [List.mem_filter] at ht
          exact hi.cur t ht.1 (by simpa [hk.1] using hbuf)
        · simp only [List.mem_map, List.mem_range] at ht
          obtain ⟨x, _, rfl⟩ := ht
          simp [hk.1] at hbuf
      · intro t ht hbuf
        simp only [Discipline.step, hprep]
        rcases List.mem_append.mp ht with ht | ht
        · simp only [List.mem_filter] at ht
          rw [hk.1] at hbuf
          simp [hbuf] at ht
        · simp only [List.mem_map, List.mem_range] at ht
          obtain ⟨x, hx, rfl⟩ := ht
          rw [hnid] at hx
          exact ⟨rfl, k, rfl, hx⟩
      · intro hst t ht
        simp only [Discipline.step] at hst
        rcases List.mem_append.mp ht with ht | ht
        · simp only [List.mem_filter] at ht
          rw [hk.1]; exact hi.stp hst t ht.1
        · simp only [List.mem_map, List.mem_range] at ht
          obtain ⟨x, _, rfl⟩ := ht
          simp [hk.1]
  | start =>
    simp only [sysStep, Option.some.injEq, Prod.mk.injEq] at hs
    obtain ⟨rfl, _⟩ := hs
    simp only [Discipline.step] at hb
    have hgood : d.stopped = true ∧ d.ideal.prepared.isSome = true := by
      by_cases h : d.stopped = true ∧ d.ideal.prepared.isSome = true
      · exact h
      · rw [if_neg h] at hb; omega
    obtain ⟨hr, hok⟩ := rel_start s.app d.ideal hi.rel hgood.2
    have hidx : (start s.app).2.index = !s.app.index := by
      unfold start; simp only; split
      · split <;> rfl
      · rfl
    obtain ⟨k, hk⟩ := Option.isSome_iff_exists.mp hgood.2
    have hst : d.ideal.start.running = some k := by simp [Ideal.start, hk]
    have hall := hi.stp hgood.1
    refine ⟨hr, ?_, ?_, ?_, ?_⟩
    · intro t ht _
      obtain ⟨_, r, h1, h2⟩ := hi.nxt t ht (hall t ht)
      rw [hk] at h1; cases h1
      exact ⟨k, hst, h2⟩
    · intro t ht hbuf
      simp only [hidx] at hbuf
      have := hall t ht
      rw [this] at hbuf; simp at hbuf
    · intro _ t ht
      simp only [hidx]; exact hall t ht
    · intro h; simp [Discipline.step] at h
  | stop =>
    simp only [sysStep, Option.some.injEq, Prod.mk.injEq] at hs
    obtain ⟨rfl, _⟩ := hs
    refine ⟨hi.rel, ?_, ?_, ?_, ?_⟩
    · intro t ht; exact hi.cur t (List.mem_filter.mp ht).1
    · intro t ht; exact hi.nxt t (List.mem_filter.mp ht).1
    · intro h t ht; exact hi.sem h t (List.mem_filter.mp ht).1
    · intro _ t ht
      have := (List.mem_filter.mp ht).2
      simp only [bne_iff_ne] at this
      exact (bnot_eq_iff _ _).mp this
  | pass i =>
    simp only [sysStep] at hs
    split at hs
    · rename_i t hti
      split at hs
      · rename_i hc
        simp only [Option.some.injEq, Prod.mk.injEq] at hs
        obtain ⟨rfl, _⟩ := hs
        have hmem : t ∈ s.threads := List.mem_of_getElem? hti
        have hbuf : t.buffer = s.app.index := hi.sem hc.1 t hmem
        have hset : ∀ x ∈ s.threads.set i { t with phase := .looping }, x ∈ s.threads ∨ x = { t with phase := .looping } := fun x hx =>
          List.mem_or_eq_of_mem_set hx
        refine ⟨hi.rel, ?_, ?_, ?_, ?_⟩
        · intro x hx hb'
          rcases hset x hx with h | rfl
          · exact hi.cur x h hb'
          · exact hi.cur t hmem hbuf
        · intro x hx hb'
          rcases hset x hx with h | rfl
          · exact hi.nxt x h hb'
          · simp only [hbuf] at hb'; simp at hb'
        · intro h x hx
          rcases hset x hx with h' | rfl
          · exact hi.sem h x h'
          · exact hbuf
        · intro h x hx
          have := hi.stp h t hmem
          rw [hbuf] at this; simp at this
      · simp at hs
    · simp at hs
  | cycle i =>
    simp only [sysStep] at hs
    split at hs
    · split at hs
      · simp only [Option.some.injEq, Prod.mk.injEq] at hs
        obtain ⟨rfl, _⟩ := hs
        exact ⟨hi.rel, hi.cur, hi.nxt, hi.sem, hi.stp⟩
      · simp at hs
    · simp at hs

private theorem bad_mono (ds : List StateDecl) (e : Ev) (d : Discipline) : d.bad ≤ (d.step ds e).bad := by
  cases e <;> simp only [Discipline.step, Nat.le_refl]
  split <;> omega

private theorem bad_mono_list (ds : List StateDecl) (es : List Ev) : ∀ d : Discipline, d.bad ≤ (es.foldl (Discipline.step ds) d).bad := by
  induction es with
  | nil => intro d; exact Nat.le_refl _
  | cons e es ih => intro d; exact Nat.le_trans (bad_mono ds e d) (ih _)

private theorem sys_inv_run (ds : List StateDecl) (es : List Ev) : ∀ (s s' : Sys) (d : Discipline) (o : List Obs), Inv ds s d →
    sysRun ds s es = some (s', o) → (es.foldl (Discipline.step ds) d).bad = d.bad → Inv ds s' (es.foldl (Discipline.step ds) d) := by
  induction es with
  | nil => intro s s' d o hi hs _; simp [sysRun] at hs; obtain ⟨rfl, _⟩ := hs; exact hi
  | cons e es ih =>
    intro s s' d o hi hs hb
    rw [sysRun] at hs
    cases h1 : sysStep ds s e with
    | none => simp [h1] at hs
    | some r =>
      cases h2 : sysRun ds r.1 es with
      | none => simp [h1, h2] at hs
      | some q =>
        simp [h1, h2] at hs
        obtain ⟨rfl, _⟩ := hs
        rw [List.foldl_cons] at hb ⊢
        have m1 := bad_mono ds e d
        have m2 := bad_mono_list ds es (d.step ds e)
        refine ih r.1 q.1 _ q.2 (sys_inv ds s r.1 d e r.2 hi (by rw [h1]) (by omega)) h2 (by omega)

/-- C35: for every interleaving of requests and thread cycles in which each start comes after a successful preparation and after stopping
the running state, every cycle of every thread executes the executables of one of the threads of the last started state. -/
theorem c35_threads_run_current (ds : List StateDecl) (es : List Ev) (s s' : Sys) (o o' : List Obs) (i : Nat)
    (hrun : sysRun ds ⟨App.initial, false, []⟩ es = some (s, o)) (hgood : (discipline ds es).bad = 0)
    (hc : sysStep ds s (.cycle i) = some (s', o')) :
    ∃ b n r, o' = [.exec b n (some r)] ∧ (discipline ds es).ideal.running = some r ∧ n < threadCount ds r := by
  have hi := sys_inv_run ds es _ s ⟨⟨none, none, 0⟩, true, 0⟩ o
    ⟨⟨rfl, by simp⟩, by simp, by simp, by simp, by simp⟩ hrun hgood
  simp only [sysStep] at hc
  split at hc
  · rename_i t ht
    split at hc
    · rename_i hl
      simp only [Option.some.injEq, Prod.mk.injEq] at hc
      obtain ⟨_, rfl⟩ := hc
      have hmem : t ∈ s.threads := List.mem_of_getElem? ht
      have hbuf : t.buffer = s.app.index := by
        by_cases h : t.buffer = s.app.index
        · exact h
        · have := (hi.nxt t hmem ((bnot_eq_iff _ _).mp h)).1
          rw [hl] at this; cases this
      obtain ⟨r, h1, h2⟩ := hi.cur t hmem hbuf
      have := hi.rel.1
      refine ⟨t.buffer, t.number, r, ?_, h1, h2⟩
      unfold App.running at this
      rw [this, h1]
    · simp at hc
  · simp at hc

/-- C35, disagreement: without stopping the running state first, its threads go on with the tables of the new state: thread 1 of a state with
two threads reads beyond the table of a state with one thread. -/
theorem c35_start_without_stop_overruns :
    let ds : List StateDecl := [⟨10, 2⟩, ⟨20, 1⟩]
    (sysRun ds ⟨App.initial, false, []⟩ [.prepare 10 true, .start, .pass 0, .pass 1, .prepare 20 true, .start, .cycle 1]).map (·.2) =
      some [.exec true 1 (some 1)] ∧ threadCount ds 1 = 1 := by decide

/-- C35, disagreement: preparing the next state before a thread of the started state got through the semaphore closes it again: that thread
stays out until the next start. -/
theorem c35_prepare_can_hold_back_started :
    let ds : List StateDecl := [⟨10, 1⟩, ⟨20, 1⟩]
    (sysRun ds ⟨App.initial, false, []⟩ [.prepare 10 true, .start, .prepare 20 true]).bind (fun r => sysStep ds r.1 (.pass 0)) = none ∧
    (sysRun ds ⟨App.initial, false, []⟩ [.prepare 10 true, .start, .pass 0, .cycle 0]).map (·.2) = some [.exec true 0 (some 0)] := by
  refine ⟨?_, ?_⟩
  · rfl
  · decide

/-- A disciplined history with two switches. -/
example : (discipline [⟨10, 2⟩, ⟨20, 1⟩] [.prepare 10 true, .start, .pass 0, .prepare 20 true, .stop, .start, .pass 0, .cycle 0]).bad = 0 ∧
    (sysRun [⟨10, 2⟩, ⟨20, 1⟩] ⟨App.initial, false, []⟩
      [.prepare 10 true, .start, .pass 0, .prepare 20 true, .stop, .start, .pass 0, .cycle 0]).map (·.2) = some [.exec false 0 (some 1)] := by
  decide

end Verif.Props
