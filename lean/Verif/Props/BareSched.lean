import Verif.Model.BareSched

/-! # C89: the execution of a state without an operating system -/
namespace Verif.BareSched

set_option linter.unusedSimpArgs false

private theorem own_run (s : S) (k : Nat) : run s (List.replicate (k + 1) .own) = own (run s (List.replicate k .own)) := by
  rw [List.replicate_succ', run, List.foldl_append]; rfl

/-- **C89.** Without a limit, and until somebody stops it, the execution goes on for ever: after `k` steps it has executed
`k / 3` cycles. -/
theorem c89_forever (k : Nat) : (run (init 0) (List.replicate k .own)).cycles = k / 3 ∧ (run (init 0) (List.replicate k .own)).pc ≠ .done := by
  have h : (run (init 0) (List.replicate k .own)).max = 0 ∧ (run (init 0) (List.replicate k .own)).cycles = k / 3 ∧
      ((k = 0 ∧ (run (init 0) (List.replicate k .own)).pc = .start) ∨
       (k ≠ 0 ∧ (run (init 0) (List.replicate k .own)).alive = true ∧
        (run (init 0) (List.replicate k .own)).pc = if k % 3 = 1 then .test else if k % 3 = 2 then .cycle else .count)) := by
    induction k with
    | zero => exact ⟨rfl, rfl, .inl ⟨rfl, rfl⟩⟩
    | succ k ih =>
      rw [own_run]
      generalize run (init 0) (List.replicate k .own) = s at *
      obtain ⟨h1, h2, h3⟩ := ih
      rcases h3 with ⟨rfl, h3⟩ | ⟨hk, h3, h4⟩
      · simp only [own, h3]; exact ⟨h1, h2, .inr ⟨by omega, trivial, rfl⟩⟩
      · by_cases c1 : k % 3 = 1
        · rw [if_pos c1] at h4
          simp only [own, h4, h3, if_true]
          exact ⟨h1, by omega, .inr ⟨by omega, trivial, by rw [if_neg (by omega), if_pos (by omega)]⟩⟩
        · rw [if_neg c1] at h4
          by_cases c2 : k % 3 = 2
          · rw [if_pos c2] at h4
            simp only [own, h4, h3]
            exact ⟨h1, by omega, .inr ⟨by omega, trivial, by rw [if_neg (by omega), if_neg (by omega)]⟩⟩
          · rw [if_neg c2] at h4
            simp only [own, h4, h3, h1, ne_eq, not_true_eq_false, if_false]
            exact ⟨trivial, by omega, .inr ⟨by omega, trivial, by rw [if_pos (by omega)]⟩⟩
  refine ⟨h.2.1, ?_⟩
  rcases h.2.2 with ⟨_, h3⟩ | ⟨_, _, h3⟩
  · rw [h3]; simp
  · rw [h3]; split <;> (try split) <;> simp

/-- **C89, disagreement.** With `MaxCycles = max` the execution does end, but after `max + 1` cycles: its cycles after `k` steps, and
when it is at its end. -/
theorem c89_one_more_fails (max k : Nat) (h0 : max ≠ 0) (hm : max < 2 ^ 32) :
    (run (init max) (List.replicate k .own)).cycles = min (k / 3) (max + 1) ∧
    ((run (init max) (List.replicate k .own)).pc = .done ↔ 3 * (max + 1) + 2 ≤ k) := by
  have h : (run (init max) (List.replicate k .own)).max = max ∧
      ((k = 0 ∧ run (init max) (List.replicate k .own) = init max) ∨
       (k ≠ 0 ∧ k ≤ 3 * max + 3 ∧ (run (init max) (List.replicate k .own)).cycles = k / 3 ∧ (run (init max) (List.replicate k .own)).alive = true ∧
        (run (init max) (List.replicate k .own)).n = (k - 1) / 3 ∧
        (run (init max) (List.replicate k .own)).pc = if k % 3 = 1 then .test else if k % 3 = 2 then .cycle else .count) ∨
       (k = 3 * max + 4 ∧ (run (init max) (List.replicate k .own)).cycles = max + 1 ∧ (run (init max) (List.replicate k .own)).alive = false ∧
        (run (init max) (List.replicate k .own)).pc = .test) ∨
       (3 * max + 5 ≤ k ∧ (run (init max) (List.replicate k .own)).cycles = max + 1 ∧ (run (init max) (List.replicate k .own)).pc = .done)) := by
    induction k with
    | zero => exact ⟨rfl, .inl ⟨rfl, rfl⟩⟩
    | succ k ih =>
      rw [own_run]
      generalize run (init max) (List.replicate k .own) = s at *
      obtain ⟨h1, h2⟩ := ih
      rcases h2 with ⟨rfl, rfl⟩ | ⟨hk, hle, hc, ha, hn, hp⟩ | ⟨hk, hc, ha, hp⟩ | ⟨hk, hc, hp⟩
      · exact ⟨rfl, .inr (.inl ⟨by omega, by omega, rfl, rfl, rfl, rfl⟩)⟩
      · by_cases c1 : k % 3 = 1
        · rw [if_pos c1] at hp
          simp only [own, hp, ha, if_true]
          exact ⟨h1, .inr (.inl ⟨by omega, by omega, by omega, trivial, by omega, by rw [if_neg (by omega), if_pos (by omega)]⟩)⟩
        · rw [if_neg c1] at hp
          by_cases c2 : k % 3 = 2
          · rw [if_pos c2] at hp
            simp only [own, hp, ha]
            exact ⟨h1, .inr (.inl ⟨by omega, by omega, by omega, trivial, by omega, by rw [if_neg (by omega), if_neg (by omega)]⟩)⟩
          · rw [if_neg c2] at hp
            simp only [own, hp, h1, ne_eq, h0, not_false_eq_true, if_true]
            by_cases hlast : k = 3 * max + 3
            · refine ⟨trivial, .inr (.inr (.inl ⟨by omega, by omega, ?_, trivial⟩))⟩
              simp only [decide_eq_false_iff_not]; omega
            · refine ⟨trivial, .inr (.inl ⟨by omega, by omega, by omega, ?_, ?_, by rw [if_pos (by omega)]⟩)⟩
              · simp only [decide_eq_true_eq]; omega
              · rw [Nat.mod_eq_of_lt (by omega)]; omega
      · simp only [own, hp, ha, Bool.false_eq_true, if_false]
        exact ⟨h1, .inr (.inr (.inr ⟨by omega, hc, trivial⟩))⟩
      · simp only [own, hp]
        exact ⟨h1, .inr (.inr (.inr ⟨by omega, hc, trivial⟩))⟩
  rcases h.2 with ⟨rfl, e⟩ | ⟨hk, hle, hc, ha, hn, hp⟩ | ⟨hk, hc, ha, hp⟩ | ⟨hk, hc, hp⟩
  · rw [e]; exact ⟨by simp [init], by simp [init]⟩
  · refine ⟨by rw [hc]; omega, ?_⟩
    rw [hp]
    constructor
    · intro h; split at h <;> (try split at h) <;> simp at h
    · intro h; omega
  · refine ⟨by rw [hc]; omega, ?_⟩
    rw [hp]
    exact ⟨by simp, by omega⟩
  · exact ⟨by rw [hc]; omega, by rw [hp]; exact ⟨fun _ => by omega, fun _ => rfl⟩⟩

/-- **C89 (stop).** Without a limit, `StopCurrentStateExecution` ends the execution: whatever happened before and whatever the
others do afterwards, at most the cycle that is being executed is completed, and the execution is at its end after three
steps of its own. -/
theorem c89_stop_partial (before after : List Ev) (hin : (run (init 0) before).pc ≠ .start) :
    (run (init 0) (before ++ .stop :: after)).cycles ≤ (run (init 0) before).cycles + 1 ∧
    (3 ≤ after.count .own → (run (init 0) (before ++ .stop :: after)).pc = .done) := by
  have hmax : (run (init 0) before).max = 0 := by
    have : ∀ (es : List Ev) (s : S), s.max = 0 → (run s es).max = 0 := by
      intro es
      induction es with
      | nil => intro s h; exact h
      | cons e es ih =>
        intro s h
        refine ih (step s e) ?_
        cases e <;> simp only [step, own] <;> (try split) <;> (try split) <;> exact h
    exact this before _ rfl
  rw [run, List.foldl_append, List.foldl_cons]
  change (run (step (run (init 0) before) .stop) after).cycles ≤ _ ∧ (_ → (run (step (run (init 0) before) .stop) after).pc = _)
  generalize run (init 0) before = s at *
  have key : ∀ (es : List Ev) (t : S), t.max = 0 → t.alive = false →
      (t.pc = .cycle → (run t es).cycles ≤ t.cycles + 1 ∧ (3 ≤ es.count .own → (run t es).pc = .done)) ∧
      (t.pc = .count → (run t es).cycles = t.cycles ∧ (2 ≤ es.count .own → (run t es).pc = .done)) ∧
      (t.pc = .test → (run t es).cycles = t.cycles ∧ (1 ≤ es.count .own → (run t es).pc = .done)) ∧
      (t.pc = .done → (run t es).cycles = t.cycles ∧ (run t es).pc = .done) := by
    intro es
    induction es with
    | nil =>
      intro t h1 h2
      exact ⟨fun _ => ⟨by simp [run], by simp⟩, fun _ => ⟨rfl, by simp⟩, fun _ => ⟨rfl, by simp⟩, fun h => ⟨rfl, h⟩⟩
    | cons e es ih =>
      intro t h1 h2
      have hcons : run t (e :: es) = run (step t e) es := rfl
      rw [hcons]
      cases e with
      | own =>
        have hc : (Ev.own :: es).count .own = es.count .own + 1 := by simp
        rw [hc]
        refine ⟨fun hp => ?_, fun hp => ?_, fun hp => ?_, fun hp => ?_⟩
        · obtain ⟨_, b, _, _⟩ := ih { t with cycles := t.cycles + 1, pc := .count } h1 h2
          have := b rfl
          simp only [step, own, hp]
          exact ⟨by rw [this.1]; exact Nat.le_refl _, fun h => this.2 (by omega)⟩
        · obtain ⟨_, _, c, _⟩ := ih { t with pc := .test } h1 h2
          have := c rfl
          simp only [step, own, hp, h1, ne_eq, not_true_eq_false, if_false]
          rw [h1] at this
          exact ⟨this.1, fun h => this.2 (by omega)⟩
        · obtain ⟨_, _, _, d⟩ := ih { t with pc := .done } h1 h2
          have := d rfl
          simp only [step, own, hp, h2, Bool.false_eq_true, if_false]
          rw [h2] at this
          exact ⟨this.1, fun _ => this.2⟩
        · obtain ⟨_, _, _, d⟩ := ih t h1 h2
          simp only [step, own, hp]
          exact d hp
      | stop =>
        have hc : (Ev.stop :: es).count .own = es.count .own := by simp
        rw [hc]
        exact ih { t with alive := false } h1 rfl
      | prepare =>
        have hc : (Ev.prepare :: es).count .own = es.count .own := by simp
        rw [hc]
        exact ih { t with n := 0 } h1 h2
  obtain ⟨a, b, c, d⟩ := key after { s with alive := false } hmax rfl
  change (run { s with alive := false } after).cycles ≤ _ ∧ (_ → (run { s with alive := false } after).pc = _)
  have hcases : s.pc = .cycle ∨ s.pc = .count ∨ s.pc = .test ∨ s.pc = .done := by
    revert hin
    cases s.pc <;> simp
  rcases hcases with hp | hp | hp | hp
  · exact a hp
  · have := b hp; exact ⟨by rw [this.1]; exact Nat.le_succ _, fun h => this.2 (by omega)⟩
  · have := c hp; exact ⟨by rw [this.1]; exact Nat.le_succ _, fun h => this.2 (by omega)⟩
  · have := d hp; exact ⟨by rw [this.1]; exact Nat.le_succ _, fun _ => this.2⟩

/-- **C89, disagreement.** With a limit, a stop that comes at the end of a cycle is lost: the execution goes on as if
nobody had called `StopCurrentStateExecution`. -/
theorem c89_stop_lost_fails (max : Nat) (before after : List Ev) (h0 : max ≠ 0) (hpc : (run (init max) before).pc = .count) :
    run (init max) (before ++ .stop :: .own :: after) = run (init max) (before ++ .own :: after) := by
  have hmax : ∀ (es : List Ev) (s : S), (run s es).max = s.max := by
    intro es
    induction es with
    | nil => intro s; rfl
    | cons e es ih =>
      intro s
      rw [show run s (e :: es) = run (step s e) es from rfl, ih (step s e)]
      cases e <;> simp only [step, own] <;> (try split) <;> (try split) <;> rfl
  have hm := hmax before (init max)
  rw [run, run, List.foldl_append, List.foldl_append, List.foldl_cons, List.foldl_cons, List.foldl_cons]
  change run (step (step (run (init max) before) .stop) .own) after = run (step (run (init max) before) .own) after
  generalize run (init max) before = s at *
  congr 1
  simp only [step, own, hpc]
  rw [if_pos (by rw [hm]; exact h0), if_pos (by rw [hm]; exact h0)]

/-- The state of the example is reached: in the first cycle. -/
example : (run (init 5) [.own, .own, .own]).pc = .count := by decide

/-- **C89, disagreement.** A stop that comes before the execution has started is lost. -/
theorem c89_early_stop_fails (max : Nat) (es : List Ev) : run (init max) (.stop :: es) = run (init max) es := rfl

/-- **C89, disagreement.** `PrepareNextState` of the next state starts the count of the running one again: with a limit the number of
cycles has no bound. -/
theorem c89_prepare_fails (max k : Nat) (h0 : max ≠ 0) :
    ∃ es, .stop ∉ es ∧ (run (init max) es).cycles = k ∧ (run (init max) es).pc = .test := by
  have h : ∃ es, Ev.stop ∉ es ∧ (run (init max) es).cycles = k ∧ (run (init max) es).pc = .test ∧ (run (init max) es).alive = true ∧
      (run (init max) es).max = max := by
    induction k with
    | zero => exact ⟨[.own], by simp, rfl, rfl, rfl, rfl⟩
    | succ k ih =>
      obtain ⟨es, h1, h2, h3, h4, h5⟩ := ih
      refine ⟨es ++ [.own, .own, .prepare, .own], by simp [h1], ?_⟩
      have e : run (init max) (es ++ [.own, .own, .prepare, .own]) =
          step (step (step (step (run (init max) es) .own) .own) .prepare) .own := by
        rw [run, List.foldl_append]; rfl
      rw [e]
      generalize run (init max) es = s at *
      simp only [step, own, h3, h4, if_true, h5, ne_eq, h0, not_false_eq_true, h2]
      refine ⟨trivial, trivial, ?_, trivial⟩
      simp only [decide_eq_true_eq]; omega
  obtain ⟨es, a, b, c, _⟩ := h
  exact ⟨es, a, b, c⟩

/-- The hypothesis of `c89_stop_partial` is met in the second cycle. -/
example : (run (init 0) (List.replicate 5 .own)).pc = .cycle ∧ (run (init 0) (List.replicate 5 .own)).cycles = 1 ∧
    (run (init 0) (List.replicate 5 .own ++ .stop :: List.replicate 3 .own)).cycles = 2 := by decide

end Verif.BareSched
