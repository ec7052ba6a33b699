import Verif.Spec.PlainLogger
/-! # C103: the registration of plain loggers and what they are given -/
namespace Verif.PlainLogger
open Verif.Spec.PlainLogger
set_option linter.unusedSimpArgs false

/-! ## One thread -/

private theorem removeFirst_erase (l : Nat) (xs : List Nat) :
    removeFirst l xs = if l ∈ xs then some (xs.erase l) else none := by
  induction xs with
  | nil => rfl
  | cons x t ih =>
    simp only [removeFirst, ih, List.mem_cons, List.erase_cons]
    by_cases h : x = l
    · simp [h]
    · have h' : ¬ l = x := fun hh => h hh.symm
      by_cases hm : l ∈ t <;> simp [h, h', hm]

private theorem log_quiet (e : Env) (hq : ∀ c, e.noisy c = false) (m : Nat) (cs : List Nat) :
    log e m cs = (false, cs.map fun c => (c, m)) := by
  induction cs with
  | nil => rfl
  | cons c t ih => simp [log, hq, ih]

private theorem propagate_quiet (e : Env) (hq : ∀ c, e.noisy c = false) (m t : Nat) (ms : List Nat) : ∀ (ls : List Nat) (s : St),
    (∀ l ∈ ls, l ∉ s.dead) →
    propagate e m t ms s ls = setPc { s with taken := s.taken ++ ls.flatMap fun l => (e.children l).map fun c => (c, m) } t (.reports ms) := by
  intro ls
  induction ls with
  | nil => intro s _; simp [propagate]
  | cons l ls ih =>
    intro s hd
    have h1 : s.dead.contains l = false := by simpa using hd l (by simp)
    simp only [propagate, h1, Bool.false_eq_true, if_false, log_quiet e hq]
    have := ih { s with taken := s.taken ++ (e.children l).map fun c => (c, m) } (fun l hl => hd l (by simp [hl]))
    rw [this]
    simp

/-- The states between two things done by a single thread. -/
private def Idle (h : Nat) (w : World) (s : St) : Prop :=
  s.list = w.registered ∧ s.locked = false ∧ s.handler = (if w.registered = [] then .other h else .plain) ∧
  (s.original = some (.other h) ∨ s.original = none ∧ w.registered = []) ∧ (∀ t, s.pc t = .idle) ∧
  s.taken = w.taken ∧ s.others = w.others ∧ s.dead = [] ∧ s.crashed = false

/-- The same with messages to report. -/
private def Saying (h : Nat) (w : World) (ms : List Nat) (s : St) : Prop :=
  s.list = w.registered ∧ s.locked = false ∧ s.handler = (if w.registered = [] then .other h else .plain) ∧
  (s.original = some (.other h) ∨ s.original = none ∧ w.registered = []) ∧ s.pc 0 = .reports ms ∧ (∀ t, t ≠ 0 → s.pc t = .idle) ∧
  s.taken = w.taken ∧ s.others = w.others ∧ s.dead = [] ∧ s.crashed = false

theorem run_append (e : Env) (s : St) (a b : List Ev) : run e s (a ++ b) = run e (run e s a) b := by
  induction a generalizing s with
  | nil => rfl
  | cons v t ih => exact ih _

private theorem saying_one (e : Env) (hq : ∀ c, e.noisy c = false) (h : Nat) (w : World) (m : Nat) (ms : List Nat) (s : St)
    (hs : Saying h w (m :: ms) s) : Saying h (deliver e h w m) ms (run e s [.go 0, .go 0]) := by
  obtain ⟨h1, h2, h3, h4, h5, h6, h7, h8, h9, h10⟩ := hs
  obtain ⟨list, locked, handler, original, pc, taken, others, dead, crashed⟩ := s
  simp only at h1 h2 h3 h4 h5 h6 h7 h8 h9 h10
  subst h1 h2 h3 h7 h8 h9 h10
  by_cases hr : w.registered = []
  · simp only [run, step, advance, h5, hr, if_true, setPc, deliver, Bool.false_eq_true, if_false]
    refine ⟨by simp [hr], rfl, by simp [hr], by simpa [hr] using h4, by simp, ?_, rfl, rfl, rfl, rfl⟩
    intro t ht
    simp [ht, h6 t ht]
  · have ho : original = some (.other h) := by
      rcases h4 with h4 | h4
      · exact h4
      · exact absurd h4.2 hr
    subst ho
    simp only [run, step, advance, h5, hr, if_false, setPc, deliver, Bool.false_eq_true]
    simp only [if_pos, instance_, Bool.false_eq_true, if_false]
    rw [propagate_quiet e hq _ _ _ _ _ (by simp)]
    refine ⟨rfl, rfl, by simp [hr, setPc], Or.inl rfl, by simp [setPc], ?_, rfl, rfl, rfl, rfl⟩
    intro t ht
    simp [ht, h6 t ht, setPc]

private theorem saying_all (e : Env) (hq : ∀ c, e.noisy c = false) (h : Nat) : ∀ (ms : List Nat) (w : World) (s : St),
    Saying h w ms s → Idle h (ms.foldl (deliver e h) w) (run e s (List.replicate (2 * ms.length + 1) (.go 0))) := by
  intro ms
  induction ms with
  | nil =>
    intro w s hs
    obtain ⟨h1, h2, h3, h4, h5, h6, h7, h8, h9, h10⟩ := hs
    simp only [List.length_nil, List.replicate, run, step, h10, advance, h5, List.foldl_nil, Bool.false_eq_true, if_false]
    refine ⟨h1, h2, h3, h4, ?_, h7, h8, h9, h10⟩
    intro t
    by_cases ht : t = 0
    · simp [setPc, ht]
    · simp [setPc, ht, h6 t ht]
  | cons m ms ih =>
    intro w s hs
    have := ih _ _ (saying_one e hq h w m ms s hs)
    rw [show 2 * (m :: ms).length + 1 = 2 + (2 * ms.length + 1) by simp; omega, ← List.replicate_append_replicate, run_append]
    exact this

private theorem idle_go (e : Env) (h : Nat) (w : World) (s : St) (hs : Idle h w s) (n : Nat) : run e s (List.replicate n (.go 0)) = s := by
  induction n with
  | zero => rfl
  | succ n ih =>
    obtain ⟨_, _, _, _, h5, _, _, _, h10⟩ := hs
    simp only [List.replicate_succ, run, step, h10, advance, h5 0, Bool.false_eq_true, if_false]
    exact ih

private theorem say_from (e : Env) (hq : ∀ c, e.noisy c = false) (h : Nat) (w : World) (s : St) (hs : Idle h w s) (ms : List Nat) (n : Nat)
    (hn : 2 * ms.length + 1 ≤ n) : Idle h (ms.foldl (deliver e h) w) (run e (setPc s 0 (.reports ms)) (List.replicate n (.go 0))) := by
  obtain ⟨h1, h2, h3, h4, h5, h7, h8, h9, h10⟩ := hs
  have := saying_all e hq h ms w (setPc s 0 (.reports ms)) ⟨h1, h2, h3, h4, by simp [setPc], by
    intro t ht; simp [setPc, ht, h5 t], h7, h8, h9, h10⟩
  rw [show n = (2 * ms.length + 1) + (n - (2 * ms.length + 1)) by omega, ← List.replicate_append_replicate, run_append,
    idle_go e h _ _ this]
  exact this

private theorem alone_one (e : Env) (hq : ∀ c, e.noisy c = false) (h : Nat) (w : World) (s : St) (hs : Idle h w s) (o : Op) :
    Idle h (act e h w o) (run e s (alone o)) := by
  have hs' := hs
  obtain ⟨h1, h2, h3, h4, h5, h7, h8, h9, h10⟩ := hs
  cases o with
  | say m =>
    simp only [alone, run, step, h10, h5 0, if_true, act, Bool.false_eq_true, if_false]
    exact say_from e hq h w s hs' [m] 3 (by simp)
  | remove l =>
    obtain ⟨list, locked, handler, original, pc, taken, others, dead, crashed⟩ := s
    simp only at h1 h2 h3 h4 h5 h7 h8 h9 h10
    subst h1 h2 h3 h7 h8 h9 h10
    have hi : instance_ ⟨w.registered, false, if w.registered = [] then .other h else .plain, original, pc, w.taken, w.others, [], false⟩ =
        ⟨w.registered, false, if w.registered = [] then .other h else .plain, some (.other h), pc, w.taken, w.others, [], false⟩ := by
      rcases h4 with h4 | ⟨h4, h4'⟩
      · simp [instance_, h4]
      · simp [instance_, h4, h4']
    have e0 : run e ⟨w.registered, false, if w.registered = [] then .other h else .plain, original, pc, w.taken, w.others, [], false⟩
        (alone (.remove l)) = run e (purge ⟨w.registered, false, if w.registered = [] then .other h else .plain, original, pc, w.taken,
          w.others, [], false⟩ 0 l) [.go 0, .go 0] := by
      simp only [alone, run, step, h5 0, if_true, Bool.false_eq_true, if_false, List.replicate]
    rw [e0]
    simp only [purge, hi, Bool.false_eq_true, if_false, removeFirst_erase, act]
    by_cases hm : l ∈ w.registered
    · have hne : w.registered ≠ [] := List.ne_nil_of_mem hm
      rw [if_pos hm]
      simp only [hne, if_false]
      by_cases he : w.registered.erase l = []
      · simp only [run, step, advance, setPc, if_true, Bool.false_eq_true, if_false, he, List.length_nil, Option.getD_some]
        refine ⟨rfl, rfl, by simp, Or.inl rfl, ?_, rfl, rfl, rfl, rfl⟩
        intro t
        by_cases ht : t = 0 <;> simp [ht, h5 t]
      · have hl : ¬ (w.registered.erase l).length = 0 := fun hh => he (List.eq_nil_of_length_eq_zero hh)
        simp only [run, step, advance, setPc, if_true, Bool.false_eq_true, if_false, hl]
        refine ⟨rfl, rfl, by simp [he], Or.inl rfl, ?_, rfl, rfl, rfl, rfl⟩
        intro t
        by_cases ht : t = 0 <;> simp [ht, h5 t]
    · rw [if_neg hm, List.erase_of_not_mem hm]
      simp only [run, step, advance, h5 0, if_true, Bool.false_eq_true, if_false]
      exact ⟨rfl, rfl, rfl, Or.inl rfl, h5, rfl, rfl, rfl, rfl⟩
  | add l =>
    simp only [alone, run, step, h10, h5 0, if_true, act, Bool.false_eq_true, if_false, initialise]
    by_cases hc : e.children l = []
    · have hr : refusal e w.registered l = [0] := by simp [refusal, hc]
      rw [if_pos hc, hr, if_neg (by simp)]
      exact say_from e hq h w s hs' [0] 5 (by simp)
    · rw [if_neg hc]
      by_cases ha : (e.children l).all e.consumer = true
      · rw [if_pos ha]
        have hn : ((e.children l).any fun c => !e.consumer c) = false := by
          rw [Bool.eq_false_iff]
          intro hh
          obtain ⟨c, hc1, hc2⟩ := List.any_eq_true.mp hh
          rw [List.all_eq_true.mp ha c hc1] at hc2
          cases hc2
        have hidle : Idle h w (instance_ s) := by
          unfold instance_
          rcases h4 with h4 | ⟨h4, h4'⟩
          · rw [h4]; exact hs'
          · rw [h4]
            exact ⟨h1, h2, h3, Or.inl (by rw [h3, if_pos h4']), h5, h7, h8, h9, h10⟩
        have ho : (instance_ s).original = some (.other h) := by
          unfold instance_
          rcases h4 with h4 | ⟨h4, h4'⟩
          · rw [h4]; exact h4
          · simp [h4, h3, h4']
        generalize instance_ s = s1 at hidle ho
        have hid := hidle
        obtain ⟨g1, g2, g3, g4, g5, g7, g8, g9, g10⟩ := hidle
        have hmax : maxLoggers = 4 := rfl
        simp only [register, g2, Bool.false_eq_true, if_false]
        by_cases hl : s1.list.length < maxLoggers
        · have hr : refusal e w.registered l = [] := by
            simp only [refusal, if_neg hc, hn, Bool.false_eq_true, if_false]
            rw [if_neg (by rw [← g1]; omega)]
          rw [if_pos hl, if_pos hr]
          have hi : Idle h { w with registered := w.registered ++ [l] } { s1 with list := s1.list ++ [l], handler := if (s1.list ++ [l]).length = 1 then .plain else s1.handler } := by
            refine ⟨by simp [g1], g2, ?_, Or.inl ho, g5, g7, g8, g9, g10⟩
            simp only [g1, g3]
            by_cases he : w.registered = [] <;> simp [he]
          have := idle_go e h _ _ hi 5
          simp only [g2] at this hi ⊢
          rw [this]
          exact hi
        · have hr : refusal e w.registered l = [2, 3] := by
            simp only [refusal, if_neg hc, hn, Bool.false_eq_true, if_false]
            rw [if_pos (by rw [← g1]; omega)]
          rw [if_neg hl, hr, if_neg (by simp)]
          exact say_from e hq h w s1 hid [2, 3] 5 (by simp)
      · rw [if_neg ha]
        have hn : ((e.children l).any fun c => !e.consumer c) = true := by
          apply Decidable.byContradiction
          intro hh
          apply ha
          rw [List.all_eq_true]
          intro c hc1
          cases hx : e.consumer c with
          | true => rfl
          | false => exact absurd (List.any_eq_true.mpr ⟨c, hc1, by simp [hx]⟩) hh
        have hr : refusal e w.registered l = [1] := by simp only [refusal, if_neg hc, hn, if_true]
        rw [hr, if_neg (by simp)]
        exact say_from e hq h w s hs' [1] 5 (by simp)

/-- **C103.** When one thread does all, the loggers that are registered are those that could be initialised and were not removed,
at most four; every message is taken once by each of their consumers, in the order in which they were registered, and by nobody
else; when there is none, by the routine that was there at the beginning, which is the one that is left. -/
theorem c103_sequential_partial (e : Env) (hq : ∀ c, e.noisy c = false) (h : Nat) (ops : List Op) :
    (run e (start h) (ops.flatMap alone)).list = (world e h ops).registered ∧
    (run e (start h) (ops.flatMap alone)).taken = (world e h ops).taken ∧
    (run e (start h) (ops.flatMap alone)).others = (world e h ops).others ∧
    (run e (start h) (ops.flatMap alone)).handler = (if (world e h ops).registered = [] then .other h else .plain) ∧
    (run e (start h) (ops.flatMap alone)).crashed = false ∧ ∀ t, (run e (start h) (ops.flatMap alone)).pc t = .idle := by
  have gen : ∀ (ops : List Op) (w : World) (s : St), Idle h w s → Idle h (ops.foldl (act e h) w) (run e s (ops.flatMap alone)) := by
    intro ops
    induction ops with
    | nil => intro w s hs; exact hs
    | cons o t ih =>
      intro w s hs
      rw [List.flatMap_cons, run_append, List.foldl_cons]
      exact ih _ _ (alone_one e hq h w s hs o)
  have := gen ops ⟨[], [], []⟩ (start h) ⟨rfl, rfl, rfl, Or.inr ⟨rfl, rfl⟩, fun _ => rfl, rfl, rfl, rfl, rfl⟩
  obtain ⟨h1, _, h3, _, h5, h7, h8, _, h10⟩ := this
  exact ⟨h1, h7, h8, h3, h10, h5⟩

private def env : Env := ⟨fun l => [10 * l, 10 * l + 1], fun c => c < 100, fun c => c == 71⟩

example : world env 5 [.say 50, .add 1, .add 2, .say 51, .remove 1, .say 52, .remove 2, .say 53] =
    ⟨[], [(10, 51), (11, 51), (20, 51), (21, 51), (20, 52), (21, 52)], [(5, 50), (5, 53)]⟩ := by decide

/-! ## Any schedule -/

private def Busy (p : Pc) : Prop := p = .removed ∨ p = .restore

private structure Inv (h : Nat) (s : St) : Prop where
  orig : s.original = some (.other h) ∨ s.original = none ∧ s.handler = .other h ∧ s.list = []
  hand : s.handler = .plain ∨ s.handler = .other h ∧ s.list = []
  empty : s.list = [] → s.handler = .plain → ∃ t, Busy (s.pc t)
  rest : ∀ t, s.pc t = .restore → s.list = []
  busy : ∀ t, Busy (s.pc t) → s.original = some (.other h)
  limit : s.list.length ≤ 4

/-- Nothing that matters has changed. -/
private theorem Inv.keep {h : Nat} {s s' : St} (hi : Inv h s) (t : Nat) (h1 : s'.list = s.list) (h2 : s'.handler = s.handler)
    (h3 : s'.original = s.original) (h4 : ∀ u, u ≠ t → s'.pc u = s.pc u) (h5 : ¬ Busy (s.pc t)) (h6 : ¬ Busy (s'.pc t)) : Inv h s' where
  orig := by rw [h1, h2, h3]; exact hi.orig
  hand := by rw [h1, h2]; exact hi.hand
  empty := by
    rw [h1, h2]
    intro a b
    obtain ⟨u, hu⟩ := hi.empty a b
    by_cases hut : u = t
    · subst hut; exact absurd hu h5
    · exact ⟨u, by rw [h4 u hut]; exact hu⟩
  rest := by
    intro u hu
    rw [h1]
    by_cases hut : u = t
    · subst hut; exact absurd (Or.inr hu) h6
    · rw [h4 u hut] at hu; exact hi.rest u hu
  busy := by
    intro u hu
    rw [h3]
    by_cases hut : u = t
    · subst hut; exact absurd hu h6
    · rw [h4 u hut] at hu; exact hi.busy u hu
  limit := by rw [h1]; exact hi.limit

private theorem Inv.inst {h : Nat} {s : St} (hi : Inv h s) : Inv h (instance_ s) := by
  unfold instance_
  rcases hi.orig with ho | ⟨ho, hh, hl⟩
  · rw [ho]; exact hi
  · rw [ho]
    exact ⟨Or.inl (by rw [hh]), hi.hand, hi.empty, hi.rest, fun t _ => by rw [hh], hi.limit⟩

private theorem inst_pc (s : St) : (instance_ s).pc = s.pc := by unfold instance_; split <;> rfl
private theorem inst_list (s : St) : (instance_ s).list = s.list := by unfold instance_; split <;> rfl

private theorem propagate_keep (e : Env) (m t : Nat) (ms : List Nat) : ∀ (ls : List Nat) (s : St), ¬ Busy (s.pc t) →
    (propagate e m t ms s ls).list = s.list ∧ (propagate e m t ms s ls).handler = s.handler ∧
    (propagate e m t ms s ls).original = s.original ∧ (∀ u, u ≠ t → (propagate e m t ms s ls).pc u = s.pc u) ∧
    ¬ Busy ((propagate e m t ms s ls).pc t) := by
  intro ls
  induction ls with
  | nil =>
    intro s hb
    refine ⟨rfl, rfl, rfl, ?_, ?_⟩
    · intro u hu; simp [propagate, setPc, hu]
    · simp [propagate, setPc, Busy]
  | cons l ls ih =>
    intro s hb
    simp only [propagate]
    split
    · exact ⟨rfl, rfl, rfl, fun _ _ => rfl, hb⟩
    · split
      · refine ⟨rfl, rfl, rfl, ?_, ?_⟩
        · intro u hu; simp [setPc, hu]
        · simp [setPc, Busy]
      · exact ih { s with taken := s.taken ++ (log e m (e.children l)).2 } hb

private theorem removeFirst_len (l : Nat) (xs ys : List Nat) (h : removeFirst l xs = some ys) : ys.length ≤ xs.length := by
  rw [removeFirst_erase] at h
  split at h
  · injection h with h
    subst h
    exact List.erase_sublist.length_le
  · cases h

private theorem inv_step (e : Env) (h : Nat) (s : St) (hi : Inv h s) (v : Ev) (hset : ∀ t g, v ≠ .set t g)
    (hc : ∀ t l, v = .initialise t l → Settled s) : Inv h (step e s v) := by
  unfold step
  split
  · exact hi
  cases v with
  | set t g => exact absurd rfl (hset t g)
  | destroy l => exact ⟨hi.orig, hi.hand, hi.empty, hi.rest, hi.busy, hi.limit⟩
  | report t m =>
    simp only
    split
    · rename_i hp
      exact hi.keep t rfl rfl rfl (by intro u hu; simp [setPc, hu]) (by rw [hp]; simp [Busy]) (by simp [setPc, Busy])
    · exact hi
  | purge t l =>
    simp only
    split
    · rename_i hp
      have h1 := hi.inst
      have hp1 : (instance_ s).pc t = .idle := by rw [inst_pc]; exact hp
      have ho : (instance_ s).original = some (.other h) := by
        rcases hi.orig with h' | ⟨h', hh, _⟩
        · simp [instance_, h']
        · simp [instance_, h', hh]
      unfold purge
      simp only
      split
      · exact h1.keep t rfl rfl rfl (by intro u hu; simp [setPc, hu]) (by rw [hp1]; simp [Busy]) (by simp [setPc, Busy])
      · split
        · rename_i list hr
          have hlen := removeFirst_len l _ _ hr
          have hne : (instance_ s).list ≠ [] := by intro h0; rw [h0] at hr; cases hr
          have hplain : (instance_ s).handler = .plain := by
            rcases h1.hand with h' | ⟨_, h'⟩
            · exact h'
            · exact absurd h' hne
          refine ⟨Or.inl ho, Or.inl hplain, fun _ _ => ⟨t, by simp [setPc, Busy]⟩, ?_, fun _ _ => ho, Nat.le_trans hlen h1.limit⟩
          intro u hu
          by_cases hut : u = t
          · subst hut; simp [setPc] at hu
          · simp only [setPc, if_neg hut] at hu
            exact absurd (h1.rest u hu) hne
        · exact h1
    · exact hi
  | initialise t l =>
    simp only
    split
    · rename_i hp
      have hst := hc t l rfl
      unfold initialise
      split
      · exact hi.keep t rfl rfl rfl (by intro u hu; simp [setPc, hu]) (by rw [hp]; simp [Busy]) (by simp [setPc, Busy])
      · split
        · have h1 := hi.inst
          have hp1 : (instance_ s).pc t = .idle := by rw [inst_pc]; exact hp
          have hst1 : Settled (instance_ s) := by intro u; rw [inst_pc]; exact hst u
          have ho : (instance_ s).original = some (.other h) := by
            rcases hi.orig with h' | ⟨h', hh, _⟩
            · simp [instance_, h']
            · simp [instance_, h', hh]
          unfold register
          split
          · exact h1.keep t rfl rfl rfl (by intro u hu; simp [setPc, hu]) (by rw [hp1]; simp [Busy]) (by simp [setPc, Busy])
          · split
            · rename_i hlt
              refine ⟨Or.inl ho, Or.inl ?_, by simp, ?_, fun _ _ => ho, by simp only [List.length_append, List.length_singleton]; have : maxLoggers = 4 := rfl; omega⟩
              · simp only
                split
                · rfl
                · rename_i hne
                  rcases h1.hand with h' | ⟨_, h'⟩
                  · exact h'
                  · rw [h'] at hne; simp at hne
              · intro u hu
                exact absurd hu (hst1 u).2
            · exact h1.keep t rfl rfl rfl (by intro u hu; simp [setPc, hu]) (by rw [hp1]; simp [Busy]) (by simp [setPc, Busy])
        · exact hi.keep t rfl rfl rfl (by intro u hu; simp [setPc, hu]) (by rw [hp]; simp [Busy]) (by simp [setPc, Busy])
    · exact hi
  | go t =>
    simp only
    unfold advance
    split
    · exact hi
    · exact hi
    · rename_i hp
      have ho := hi.busy t (Or.inl hp)
      split
      · rename_i hl
        have hl' : s.list = [] := List.eq_nil_of_length_eq_zero hl
        refine ⟨hi.orig, hi.hand, fun _ _ => ⟨t, by simp [setPc, Busy]⟩, fun _ _ => hl', fun _ _ => ho, hi.limit⟩
      · rename_i hl
        have hne : s.list ≠ [] := fun h0 => hl (by simp [h0])
        refine ⟨hi.orig, hi.hand, fun h0 => absurd h0 hne, ?_, fun _ _ => ho, hi.limit⟩
        intro u hu
        by_cases hut : u = t
        · subst hut; simp [setPc] at hu
        · simp only [setPc, if_neg hut] at hu; exact hi.rest u hu
    · rename_i hp
      have ho := hi.busy t (Or.inr hp)
      have hl := hi.rest t hp
      refine ⟨hi.orig.elim Or.inl (fun h' => Or.inl ho), Or.inr ⟨by simp [setPc, ho], hl⟩, ?_, fun _ _ => hl, fun _ _ => ho, hi.limit⟩
      intro _ hh
      simp [setPc, ho] at hh
    · rename_i hp
      exact hi.keep t rfl rfl rfl (by intro u hu; simp [setPc, hu]) (by rw [hp]; simp [Busy]) (by simp [setPc, Busy])
    · rename_i hp
      exact hi.keep t rfl rfl rfl (by intro u hu; simp [setPc, hu]) (by rw [hp]; simp [Busy]) (by simp [setPc, Busy])
    · rename_i hp
      exact hi.keep t rfl rfl rfl (by intro u hu; simp [setPc, hu]) (by rw [hp]; simp [Busy]) (by simp [setPc, Busy])
    · rename_i hp
      have h1 := hi.inst
      have hb : ¬ Busy ((instance_ s).pc t) := by rw [inst_pc, hp]; simp [Busy]
      simp only
      split
      · exact h1.keep t rfl rfl rfl (by intro u hu; simp [setPc, hu]) hb (by simp [setPc, Busy])
      · obtain ⟨a1, a2, a3, a4, a5⟩ := propagate_keep e _ t _ (instance_ s).list (instance_ s) hb
        exact h1.keep t a1 a2 a3 a4 hb a5

private theorem inv_run (e : Env) (h : Nat) : ∀ (vs : List Ev) (s : St), Inv h s → Calm (run e s) vs → Inv h (run e s vs) := by
  intro vs
  induction vs with
  | nil => intro s hi _; exact hi
  | cons v t ih =>
    intro s hi hc
    refine ih _ (inv_step e h s hi v ?_ ?_) ⟨?_, ?_⟩
    · rintro u g rfl; exact hc.1 u g (by simp)
    · rintro u l rfl; exact hc.2 [] u l t rfl
    · intro u g hm; exact hc.1 u g (by simp [hm])
    · intro pre u l post he
      exact hc.2 (v :: pre) u l post (by rw [he]; rfl)

private theorem inv_start (h : Nat) : Inv h (start h) :=
  ⟨Or.inr ⟨rfl, rfl, rfl⟩, Or.inr ⟨rfl, rfl⟩, (fun _ hh => by cases hh), (fun _ _ => rfl), (fun t hb => by rcases hb with hb | hb <;> cases hb),
    by simp [start]⟩

/-- **C103.** Whatever threads do, as long as nobody else sets the routine and no logger is initialised while another one is being
removed: there are never more than four loggers, and when no removal is going on messages go to the loggers exactly when there
are some, and to the routine that was there at the beginning when there are none. -/
theorem c103_settled_partial (e : Env) (h : Nat) (vs : List Ev) (hc : Calm (run e (start h)) vs) :
    (run e (start h) vs).list.length ≤ 4 ∧
    (Settled (run e (start h) vs) → (run e (start h) vs).handler = if (run e (start h) vs).list = [] then .other h else .plain) := by
  have hi := inv_run e h vs _ (inv_start h) hc
  refine ⟨hi.limit, ?_⟩
  intro hs
  split
  · rename_i hl
    rcases hi.hand with hh | hh
    · obtain ⟨t, ht⟩ := hi.empty hl hh
      rcases ht with ht | ht
      · exact absurd ht (hs t).1
      · exact absurd ht (hs t).2
    · exact hh.1
  · rename_i hl
    rcases hi.hand with hh | hh
    · exact hh
    · exact absurd hh.2 hl

/-- Two removals at the same time. -/
example : Calm (run env (start 5)) [.initialise 0 1, .initialise 1 2, .purge 0 1, .purge 1 2, .go 0, .go 1, .go 1, .go 0] ∧
    (run env (start 5) [.initialise 0 1, .initialise 1 2, .purge 0 1, .purge 1 2, .go 0, .go 1, .go 1, .go 0]).handler = .other 5 := by
  refine ⟨⟨by simp, ?_⟩, by decide⟩
  intro pre t l post he u
  rcases pre with _ | ⟨a, _ | ⟨b, pre⟩⟩
  · exact ⟨by simp [run, start], by simp [run, start]⟩
  · simp only [List.cons_append, List.nil_append, List.cons.injEq] at he
    obtain ⟨rfl, _⟩ := he
    have : (run env (start 5) [.initialise 0 1]).pc u = .idle := rfl
    rw [this]
    exact ⟨by decide, by decide⟩
  · exfalso
    simp only [List.cons_append, List.cons.injEq] at he
    obtain ⟨_, _, he⟩ := he
    have : Ev.initialise t l ∈ [Ev.purge 0 1, .purge 1 2, .go 0, .go 1, .go 1, .go 0] := by rw [he]; simp
    simp at this

/-- **C103.** In every state, whatever happened before, a thread that calls the loggers with a message gives it once to each
consumer of each logger that is registered at that moment, in their order, if they still exist and report nothing themselves. -/
theorem c103_delivered (e : Env) (h : Nat) (vs : List Ev) (t m : Nat) (ms : List Nat) (hq : ∀ c, e.noisy c = false)
    (hp : (run e (start h) vs).pc t = .calls .plain m ms) (hl : (run e (start h) vs).locked = false)
    (hcr : (run e (start h) vs).crashed = false) (hd : ∀ l ∈ (run e (start h) vs).list, l ∉ (run e (start h) vs).dead) :
    (run e (start h) (vs ++ [.go t])).taken = (run e (start h) vs).taken ++
      (run e (start h) vs).list.flatMap (fun l => (e.children l).map fun c => (c, m)) ∧
    (run e (start h) (vs ++ [.go t])).others = (run e (start h) vs).others ∧
    (run e (start h) (vs ++ [.go t])).pc t = .reports ms := by
  rw [run_append]
  generalize run e (start h) vs = s at *
  have hi : ∀ s : St, (instance_ s).locked = s.locked ∧ (instance_ s).dead = s.dead ∧ (instance_ s).taken = s.taken ∧
      (instance_ s).others = s.others := by
    intro s; unfold instance_; split <;> exact ⟨rfl, rfl, rfl, rfl⟩
  obtain ⟨i1, i2, i3, i4⟩ := hi s
  simp only [run, step, hcr, Bool.false_eq_true, if_false, advance, hp, i1, hl]
  rw [propagate_quiet e hq _ _ _ _ _ (by rw [inst_list, i2]; exact hd)]
  simp [setPc, inst_list, i3, i4]

/-! ## What goes wrong -/

/-- **C103.** A logger that is initialised while the last other one is being removed is registered but gets no message at all:
they go to the routine that was there before. -/
theorem c103_race_fails (e : Env) (a b h : Nat) (ha : good e a) (hb : good e b) (ms : List Nat) :
    (run e (start h) ([.initialise 0 a, .purge 0 a, .go 0, .initialise 1 b, .go 0] ++
      ms.flatMap fun m => [.report 1 m, .go 1, .go 1, .go 1])).list = [b] ∧
    (run e (start h) ([.initialise 0 a, .purge 0 a, .go 0, .initialise 1 b, .go 0] ++
      ms.flatMap fun m => [.report 1 m, .go 1, .go 1, .go 1])).taken = [] ∧
    (run e (start h) ([.initialise 0 a, .purge 0 a, .go 0, .initialise 1 b, .go 0] ++
      ms.flatMap fun m => [.report 1 m, .go 1, .go 1, .go 1])).others = ms.map fun m => (h, m) := by
  have hall : ∀ l, good e l → (e.children l).all e.consumer = true := fun l hl => List.all_eq_true.mpr hl.2
  have h1 : ∃ pc, run e (start h) [.initialise 0 a, .purge 0 a, .go 0, .initialise 1 b, .go 0] =
      ⟨[b], false, .other h, some (.other h), pc, [], [], [], false⟩ ∧ ∀ t, pc t = .idle := by
    refine ⟨fun _ => .idle, ?_, fun _ => rfl⟩
    simp [run, step, start, initialise, ha.1, hb.1, hall a ha, hall b hb, instance_, register, purge, removeFirst, setPc, advance, maxLoggers]
    funext u
    by_cases hu : u = 0 <;> simp [hu]
  obtain ⟨pc, h1, hpc⟩ := h1
  rw [run_append, h1]
  have gen : ∀ (ms : List Nat) (pc : Nat → Pc) (o : List (Nat × Nat)), (∀ t, pc t = .idle) → ∃ pc',
      run e ⟨[b], false, .other h, some (.other h), pc, [], o, [], false⟩ (ms.flatMap fun m => [.report 1 m, .go 1, .go 1, .go 1]) =
      ⟨[b], false, .other h, some (.other h), pc', [], o ++ ms.map fun m => (h, m), [], false⟩ := by
    intro ms
    induction ms with
    | nil => intro pc o _; exact ⟨pc, by simp [run]⟩
    | cons m t ih =>
      intro pc o hp
      rw [List.flatMap_cons, run_append]
      have : run e ⟨[b], false, .other h, some (.other h), pc, [], o, [], false⟩ [.report 1 m, .go 1, .go 1, .go 1] =
          ⟨[b], false, .other h, some (.other h), pc, [], o ++ [(h, m)], [], false⟩ := by
        simp [run, step, hp, setPc, advance]
        funext u
        by_cases hu : u = 1 <;> simp [hu, hp]
      rw [this]
      obtain ⟨pc', hh⟩ := ih pc (o ++ [(h, m)]) hp
      exact ⟨pc', by rw [hh]; simp⟩
  obtain ⟨pc', hh⟩ := gen ms pc [] hpc
  rw [hh]
  exact ⟨rfl, rfl, by simp⟩

/-- **C103.** A message that is reported while the last logger is being removed is given to nobody. -/
theorem c103_lost_fails (e : Env) (a h m : Nat) (ha : good e a) :
    (run e (start h) [.initialise 0 a, .purge 0 a, .report 1 m, .go 1, .go 1, .go 1, .go 0, .go 0]).taken = [] ∧
    (run e (start h) [.initialise 0 a, .purge 0 a, .report 1 m, .go 1, .go 1, .go 1, .go 0, .go 0]).others = [] ∧
    (run e (start h) [.initialise 0 a, .purge 0 a, .report 1 m, .go 1, .go 1, .go 1, .go 0, .go 0]).pc 1 = .idle := by
  have hall : (e.children a).all e.consumer = true := List.all_eq_true.mpr ha.2
  simp [run, step, start, initialise, ha.1, hall, instance_, register, purge, removeFirst, setPc, advance, maxLoggers, propagate]

/-- **C103.** The routine that is put back is not the one that was there when the logger was initialised, but the one that was
there when the first of all loggers was. -/
theorem c103_stale_fails (e : Env) (a b h g : Nat) (ha : good e a) (hb : good e b) :
    (run e (start h) (alone (.add a) ++ alone (.remove a) ++ [.set 0 g] ++ alone (.add b) ++ alone (.remove b))).handler = .other h := by
  have hall : ∀ l, good e l → (e.children l).all e.consumer = true := fun l hl => List.all_eq_true.mpr hl.2
  simp [alone, List.replicate, run, step, start, initialise, ha.1, hb.1, hall a ha, hall b hb, instance_, register, purge, removeFirst, setPc,
    advance, maxLoggers]

/-- **C103.** A logger that is initialised twice gets every message twice; once removed it is still registered, and when it is
destroyed the next message uses its memory. -/
theorem c103_twice_fails (e : Env) (a h m : Nat) (ha : good e a) (hq : ∀ c, e.noisy c = false) :
    (run e (start h) (alone (.add a) ++ alone (.add a) ++ alone (.say m))).taken =
      (e.children a).map (fun c => (c, m)) ++ (e.children a).map (fun c => (c, m)) ∧
    (run e (start h) (alone (.add a) ++ alone (.add a) ++ alone (.remove a) ++ [.destroy a] ++ alone (.say m))).crashed = true := by
  have hall : (e.children a).all e.consumer = true := List.all_eq_true.mpr ha.2
  constructor
  · have := (c103_sequential_partial e hq h [.add a, .add a, .say m]).2.1
    simp only [List.flatMap_cons, List.flatMap_nil, List.append_nil, ← List.append_assoc] at this
    rw [this]
    have hn : ((e.children a).any fun c => !e.consumer c) = false := by
      rw [Bool.eq_false_iff]
      intro hh
      obtain ⟨c, hc1, hc2⟩ := List.any_eq_true.mp hh
      rw [ha.2 c hc1] at hc2
      cases hc2
    have r1 : ∀ reg : List Nat, reg.length < 4 → refusal e reg a = [] := by
      intro reg hr
      simp only [refusal, ha.1, hn, if_false, Bool.false_eq_true]
      rw [if_neg (by omega)]
    simp [world, act, r1, deliver]
  · simp [alone, List.replicate, run, step, start, initialise, ha.1, hall, instance_, register, purge, removeFirst, setPc,
      advance, maxLoggers, propagate]

/-- **C103.** A logger that is destroyed without a call of `Purge` stays registered: the next message uses its memory. -/
theorem c103_destroyed_fails (e : Env) (a h m : Nat) (ha : good e a) :
    (run e (start h) (alone (.add a) ++ [.destroy a] ++ alone (.say m))).crashed = true := by
  have hall : (e.children a).all e.consumer = true := List.all_eq_true.mpr ha.2
  simp [alone, List.replicate, run, step, start, initialise, ha.1, hall, instance_, register, setPc, advance, maxLoggers, propagate]

/-- **C103.** A consumer that reports an error while it takes a message waits for ever, and so does every thread that reports a
message afterwards. -/
theorem c103_noisy_fails (e : Env) (a h m n : Nat) (ha : good e a) (hn : ∃ c ∈ e.children a, e.noisy c = true) :
    (run e (start h) (alone (.add a) ++ [.report 1 m, .go 1, .go 1] ++ [.report 2 n, .go 2, .go 2])).pc 1 = .blocked ∧
    (run e (start h) (alone (.add a) ++ [.report 1 m, .go 1, .go 1] ++ [.report 2 n, .go 2, .go 2])).pc 2 = .blocked := by
  have hall : (e.children a).all e.consumer = true := List.all_eq_true.mpr ha.2
  have hlog : (log e m (e.children a)).1 = true := by
    obtain ⟨c, hc, hc2⟩ := hn
    revert hc
    generalize e.children a = cs
    intro hc
    induction cs with
    | nil => cases hc
    | cons x t ih =>
      simp only [log]
      by_cases hx : e.noisy x = true
      · simp [hx]
      · simp only [hx, if_false, Bool.false_eq_true]
        rcases List.mem_cons.mp hc with rfl | hc
        · exact absurd hc2 hx
        · exact ih hc
  simp [alone, List.replicate, run, step, start, initialise, ha.1, hall, instance_, register, setPc, advance, maxLoggers, propagate, hlog]

example : good env 1 ∧ good env 7 ∧ (∃ c ∈ env.children 7, env.noisy c = true) ∧ ¬ good env 10 :=
  ⟨⟨by decide, by decide⟩, ⟨by decide, by decide⟩, by decide, fun h => absurd h.2 (by decide)⟩

end Verif.PlainLogger
