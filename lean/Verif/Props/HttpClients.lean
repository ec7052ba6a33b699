import Verif.Model.HttpClients
import Verif.Spec.HttpClients
/-!
# C127: the connections of the HTTP service
-/
set_option linter.unusedSimpArgs false
namespace Verif.HttpClients
open Spec

private theorem life_append (c : Nat) (t u : List (Nat × Act)) : lifeOf c (t ++ u) = lifeOf c t ++ lifeOf c u := by
  simp [lifeOf]

private theorem life_same (c : Nat) (l : List Act) : lifeOf c (l.map fun a => (c, a)) = l := by
  induction l with
  | nil => rfl
  | cons a l ih => simp [lifeOf] at ih ⊢; exact ih

private theorem life_other {c d : Nat} (h : d ≠ c) (l : List Act) : lifeOf c (l.map fun a => (d, a)) = [] := by
  induction l with
  | nil => rfl
  | cons a l ih => simp [lifeOf, h] at ih ⊢

/-- The invariant of every history. -/
private structure Inv (t : Thread) : Prop where
  fresh : ∀ c, t.next ≤ c → lifeOf c t.trace = []
  any : ∀ c, Over (lifeOf c t.trace) ∨ Open (lifeOf c t.trace)
  serving : ∀ c, t.mode = .serving c → c < t.next ∧ ∃ n, lifeOf c t.trace = [.new, .accept] ++ List.replicate n .use

private theorem use_more (n : Nat) : [Act.new, .accept] ++ List.replicate n .use ++ [.use] = [Act.new, .accept] ++ List.replicate (n + 1) .use := by
  rw [List.append_assoc, ← List.replicate_succ']

private theorem use_close (n : Nat) : [Act.new, .accept] ++ List.replicate n .use ++ [.use, .close, .free] =
    [Act.new, .accept] ++ List.replicate (n + 1) .use ++ [.close, .free] := by
  rw [← use_more]
  simp

/-- The answers of a wait. -/
private theorem wait_cases (o : WaitOut) :
    (o.buffer = false ∧ waitRequest o = ([.new], .other)) ∨ (waitRequest o = ([.new, .free], .timeout)) ∨
    (waitRequest o = ([.new, .accept, .use, .close, .free], .timeout)) ∨ (waitRequest o = ([.new, .accept], .none)) := by
  unfold waitRequest
  cases o.buffer <;> cases o.connected <;> cases o.tooMany <;> simp

/-- The answers of a service. -/
private theorem serve_cases (o : ServeOut) :
    ((o.blocking = false ∨ o.select = false) ∧ clientService o = ([.use], .other)) ∨
    (∃ e, e ≠ .none ∧ clientService o = ([.use, .close, .free], e)) ∨ clientService o = ([.use], .none) := by
  unfold clientService
  cases hb : o.blocking
  · exact Or.inl ⟨Or.inl rfl, rfl⟩
  · cases hs : o.select
    · exact Or.inl ⟨Or.inr rfl, rfl⟩
    · right
      simp only [Bool.not_true, Bool.false_eq_true, if_false]
      by_cases h : (o.ready && !(o.header && o.options && o.flushed && o.final)) = true
      · rw [if_pos h]
        exact Or.inl ⟨.other, by simp, rfl⟩
      · rw [if_neg h]
        cases o.keep
        · cases o.closed
          · exact Or.inl ⟨.other, by simp, rfl⟩
          · exact Or.inl ⟨.completed, by simp, rfl⟩
        · exact Or.inr rfl

private theorem inv_wait {t : Thread} (h : Inv t) (acts : List Act) (m : Mode) (hl : Over acts ∨ Open acts)
    (hm : ∀ c, m = .serving c → c = t.next ∧ ∃ n, acts = [.new, .accept] ++ List.replicate n .use) :
    Inv ⟨m, t.next + 1, t.trace ++ acts.map fun a => (t.next, a)⟩ := by
  refine ⟨?_, ?_, ?_⟩
  · intro c hc
    have hc : t.next + 1 ≤ c := hc
    simp only [life_append]
    rw [h.fresh c (by omega), life_other (by omega)]
    rfl
  · intro c
    simp only [life_append]
    by_cases hc : t.next = c
    · subst hc
      rw [h.fresh _ (Nat.le_refl _), life_same]
      exact hl
    · rw [life_other hc, List.append_nil]
      exact h.any c
  · intro c hc
    obtain ⟨rfl, n, hn⟩ := hm c hc
    refine ⟨by simp, n, ?_⟩
    simp only [life_append]
    rw [h.fresh _ (Nat.le_refl _), life_same]
    exact hn

private theorem inv_serve {t : Thread} (h : Inv t) {c : Nat} (hc : t.mode = .serving c) (acts : List Act) (m : Mode)
    (ha : acts = [.use] ∨ acts = [.use, .close, .free]) (hm : m = .idle ∨ (m = .serving c ∧ acts = [.use])) :
    Inv ⟨m, t.next, t.trace ++ acts.map fun a => (c, a)⟩ := by
  obtain ⟨hlt, n, hn⟩ := h.serving c hc
  refine ⟨?_, ?_, ?_⟩
  · intro d hd
    simp only [life_append]
    have hd' : t.next ≤ d := hd
    rw [h.fresh d hd', life_other (by omega)]
    rfl
  · intro d
    simp only [life_append]
    by_cases hd : c = d
    · subst hd
      rw [life_same, hn]
      rcases ha with rfl | rfl
      · rw [use_more]; exact Or.inr (Or.inr ⟨_, rfl⟩)
      · rw [use_close]; exact Or.inl (Or.inr (Or.inr ⟨_, rfl⟩))
    · rw [life_other hd, List.append_nil]
      exact h.any d
  · intro d hd
    rcases hm with rfl | ⟨rfl, rfl⟩
    · simp at hd
    · simp at hd
      subst hd
      refine ⟨hlt, n + 1, ?_⟩
      simp only [life_append]
      rw [life_same, hn, use_more]

private theorem inv_mode {t : Thread} (h : Inv t) (m : Mode) (hm : ∀ c, m ≠ .serving c) : Inv { t with mode := m } :=
  ⟨h.fresh, h.any, fun c hc => absurd hc (hm c)⟩

private theorem inv_step {t : Thread} (h : Inv t) (i : In) : Inv (step t i) := by
  unfold step
  cases hm : t.mode with
  | ended => exact h
  | idle => dsimp only; split <;> exact inv_mode h _ (by simp)
  | waiting =>
    dsimp only
    split
    · exact inv_mode h _ (by simp)
    · rcases wait_cases i.wait with ⟨_, hw⟩ | hw | hw | hw <;> rw [hw]
      · exact inv_wait h _ _ (Or.inr (Or.inl rfl)) (by simp)
      · exact inv_wait h _ _ (Or.inl (Or.inr (Or.inl rfl))) (by simp)
      · exact inv_wait h _ _ (Or.inl (Or.inr (Or.inr ⟨1, rfl⟩))) (by simp)
      · exact inv_wait h _ _ (Or.inr (Or.inr ⟨0, rfl⟩)) (fun c hc => by simp at hc; exact ⟨hc.symm, 0, rfl⟩)
  | serving c =>
    dsimp only
    split
    · exact inv_mode h _ (by simp)
    · rcases serve_cases i.serve with ⟨_, hs⟩ | ⟨e, he, hs⟩ | hs <;> rw [hs]
      · exact inv_serve h hm _ _ (Or.inl rfl) (Or.inl rfl)
      · exact inv_serve h hm _ _ (Or.inr rfl) (Or.inl (by cases e <;> simp_all))
      · exact inv_serve h hm _ _ (Or.inl rfl) (Or.inr ⟨rfl, rfl⟩)

private theorem inv_start : Inv start :=
  ⟨fun _ _ => rfl, fun _ => Or.inl (Or.inl rfl), fun c hc => by simp [start] at hc⟩

private theorem inv_run (is : List In) : Inv (run start is) := by
  unfold run
  have : ∀ (is : List In) (t : Thread), Inv t → Inv (is.foldl step t) := by
    intro is
    induction is with
    | nil => intro t h; exact h
    | cons i is ih => intro t h; exact ih _ (inv_step h i)
  exact this is _ inv_start

/-- **C127.** In every history, whatever is answered and whenever the thread is stopped: no stream is used before its connection is accepted, none is closed
or freed twice, none is freed with its connection open, and none is touched after it was freed. -/
theorem c127_safe (is : List In) (c : Nat) : Over (lifeOf c (run start is).trace) ∨ Open (lifeOf c (run start is).trace) :=
  (inv_run is).any c

/-- An input that does not lose a stream: no answer of the operating system that the service takes as an error of the stream itself, and no stop while a
connection is served. -/
private def Kept (t : Thread) (i : In) : Prop :=
  i.wait.buffer = true ∧ i.serve.blocking = true ∧ i.serve.select = true ∧ (i.stop = true → ∀ c, t.mode ≠ .serving c)

private theorem kept_step {t : Thread} {i : In} (h : Inv t) (hk : Kept t i)
    (ho : ∀ c, Over (lifeOf c t.trace) ∨ t.mode = .serving c) : ∀ c, Over (lifeOf c (step t i).trace) ∨ (step t i).mode = .serving c := by
  obtain ⟨k1, k2, k3, k4⟩ := hk
  intro c
  unfold step
  cases hm : t.mode with
  | ended => rw [hm] at ho; simpa [hm] using ho c
  | idle =>
    have hc := ho c
    rw [hm] at hc
    dsimp only
    split <;> simpa using hc
  | waiting =>
    have hc := ho c
    rw [hm] at hc
    dsimp only
    split
    · simpa using hc
    · have hc' : Over (lifeOf c t.trace) := by simpa using hc
      rcases wait_cases i.wait with ⟨hb, hw⟩ | hw | hw | hw
      · rw [k1] at hb; simp at hb
      all_goals
        rw [hw]
        simp only [life_append]
        by_cases he : t.next = c
        · subst he
          rw [h.fresh _ (Nat.le_refl _), life_same]
          first
            | exact Or.inl (Or.inr (Or.inl rfl))
            | exact Or.inl (Or.inr (Or.inr ⟨1, rfl⟩))
            | exact Or.inr rfl
        · rw [life_other he, List.append_nil]
          exact Or.inl hc'
  | serving d =>
    have hc := ho c
    rw [hm] at hc
    have hs : i.stop = false := by
      cases hs : i.stop
      · rfl
      · exact absurd hm (k4 hs d)
    dsimp only
    rw [hs]
    simp only [Bool.false_eq_true, if_false]
    obtain ⟨_, n, hn⟩ := h.serving d hm
    rcases serve_cases i.serve with ⟨hb, _⟩ | ⟨e, he, hv⟩ | hv
    · simp [k2, k3] at hb
    all_goals
      rw [hv]
      simp only [life_append]
      by_cases hd : d = c
      · subst hd
        rw [life_same, hn]
        first
          | exact Or.inr rfl
          | (rw [use_close]; exact Or.inl (Or.inr (Or.inr ⟨_, rfl⟩)))
      · rw [life_other hd, List.append_nil]
        rcases hc with hc | hc
        · exact Or.inl hc
        · simp at hc; exact absurd hc hd

/-- **C127.** When every stream has its buffer, can be made blocking and can be waited on, and the thread is not stopped while it serves a connection: every
connection that is not the one being served was closed once and freed once. -/
theorem c127_closed_partial (is : List In)
    (hk : ∀ (n : Nat) (i : In), is[n]? = some i → i.wait.buffer = true ∧ i.serve.blocking = true ∧ i.serve.select = true ∧
      (i.stop = true → ∀ c, (run start (is.take n)).mode ≠ .serving c)) (c : Nat) :
    Over (lifeOf c (run start is).trace) ∨ (run start is).mode = .serving c := by
  have key : ∀ (n : Nat), n ≤ is.length → ∀ c, Over (lifeOf c (run start (is.take n)).trace) ∨ (run start (is.take n)).mode = .serving c := by
    intro n
    induction n with
    | zero => intro _ c; exact Or.inl (Or.inl rfl)
    | succ n ih =>
      intro hn
      obtain ⟨i, hi⟩ : ∃ i, is[n]? = some i := ⟨is[n], List.getElem?_eq_getElem (by omega)⟩
      have ht : is.take (n + 1) = is.take n ++ [i] := by rw [List.take_add_one, hi]; rfl
      have hr : run start (is.take (n + 1)) = step (run start (is.take n)) i := by rw [ht]; simp [run]
      rw [hr]
      exact kept_step (inv_run _) (hk n i hi) (ih (by omega))
  have := key is.length (Nat.le_refl _) c
  rwa [List.take_length] at this

/-- Answers without a failure, of a connection that is kept. -/
def good : In := ⟨false, false, ⟨true, true, false⟩, ⟨true, true, true, true, true, true, true, true, true⟩⟩

/-- **C127 fails when the service is stopped while a client keeps its connection**, however often it was served: the connection is not closed and its stream
is not freed. -/
theorem c127_stop_fails (n : Nat) (i : In) (hi : i.stop = true) :
    (run start ([good, good] ++ List.replicate n good ++ [i])).mode = .ended ∧
    lifeOf 0 (run start ([good, good] ++ List.replicate n good ++ [i])).trace = [.new, .accept] ++ List.replicate n .use := by
  have h0 : run start ([good, good] ++ List.replicate n good) = ⟨.serving 0, 1, ([Act.new, .accept] ++ List.replicate n Act.use).map fun a => (0, a)⟩ := by
    induction n with
    | zero => decide
    | succ n ih =>
      rw [List.replicate_succ', ← List.append_assoc]
      have : run start ([good, good] ++ List.replicate n good ++ [good]) = step (run start ([good, good] ++ List.replicate n good)) good := by simp [run]
      rw [this, ih]
      simp [step, good, clientService, List.replicate_succ']
  have h1 : run start ([good, good] ++ List.replicate n good ++ [i]) = step (run start ([good, good] ++ List.replicate n good)) i := by simp [run]
  rw [h1, h0]
  simp only [step, hi, if_true]
  exact ⟨trivial, life_same 0 _⟩

/-- **C127 fails when a stream cannot be made blocking, or cannot be waited on**: the thread leaves it open and takes the next. -/
theorem c127_blocking_fails (i : In) (hi : i.stop = false) (hb : i.serve.blocking = false ∨ i.serve.select = false) :
    (run start [good, good, i, good]).mode = .waiting ∧ lifeOf 0 (run start [good, good, i, good]).trace = [.new, .accept, .use] := by
  have h1 : run start [good, good] = ⟨.serving 0, 1, [(0, .new), (0, .accept)]⟩ := by decide
  have h2 : clientService i.serve = ([.use], .other) := by
    unfold clientService
    rcases hb with hb | hb
    · simp [hb]
    · cases hc : i.serve.blocking <;> simp [hb]
  have h3 : run start [good, good, i, good] = step (step (run start [good, good]) i) good := rfl
  rw [h3, h1]
  simp [step, hi, h2, good, lifeOf]

/-- **C127.** A thread that was told to stop is at its end after the call it is in, wherever it is; so is one that is free when there are more than enough.
A thread that is free otherwise waits for a connection, and one at its end does nothing more. -/
theorem c127_ends (t : Thread) (i : In) :
    (i.stop = true → (step t i).mode = .ended) ∧ (t.mode = .idle → i.more = true → (step t i).mode = .ended) ∧
    (t.mode = .idle → i.stop = false → i.more = false → step t i = { t with mode := .waiting }) ∧ (t.mode = .ended → step t i = t) := by
  refine ⟨fun h => ?_, fun h h2 => ?_, fun h h2 h3 => ?_, fun h => ?_⟩
  · unfold step
    cases hm : t.mode <;> simp [h, hm]
  · simp [step, h, h2]
  · simp [step, h, h2, h3]
  · simp [step, h]

/-- The hypotheses of `c127_closed_partial` are met: a client is served twice and leaves, the next one is being served. -/
example : let bye : In := { good with serve := { good.serve with keep := false } }
    (∀ i ∈ [good, good, good, bye, good, good], i.wait.buffer = true ∧ i.serve.blocking = true ∧ i.serve.select = true ∧ i.stop = false) ∧
    (run start [good, good, good, bye, good, good]).mode = .serving 1 ∧
    lifeOf 0 (run start [good, good, good, bye, good, good]).trace = [.new, .accept, .use, .use, .close, .free] := by decide

end Verif.HttpClients
