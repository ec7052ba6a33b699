import Verif.Spec.MultiClient
set_option maxRecDepth 8000
set_option linter.unusedSimpArgs false
set_option linter.unusedVariables false
namespace Verif.MultiClient
open Verif.Spec.MultiClient

theorem run_snoc (s : State) (p : List Ev) (e : Ev) : run s (p ++ [e]) = step (run s p) e := by
  simp [run, List.foldl_append]

/-- Induction over the prefixes of a history. -/
theorem run_ind {P : State → Prop} {s : State} (es : List Ev) (h0 : P s)
    (hs : ∀ p e, p ++ [e] <+: es → P (run s p) → P (step (run s p) e)) : P (run s es) := by
  have key : ∀ (q p : List Ev), p ++ q = es → P (run s p) → P (run s es) := by
    intro q
    induction q with
    | nil => intro p hp h; simp at hp; subst hp; exact h
    | cons e q ih =>
      intro p hp h
      refine ih (p ++ [e]) (by rw [← hp]; simp) ?_
      rw [run_snoc]
      exact hs p e ⟨q, by rw [← hp]; simp⟩ h
  exact key es [] rfl h0

/-! ## The trace of one thread -/

theorem life_log_ne {j : Nat} {tr : List Obs} {o : Obs} (h : who o ≠ some j) : life j (tr ++ [o]) = life j tr := by
  simp [life, ofThread, List.filter_append, h]

theorem life_log_eq {j : Nat} {tr : List Obs} {o : Obs} (h : who o = some j) :
    life j (tr ++ [o]) = (life j tr).bind (fun l => next l o) := by
  simp [life, ofThread, List.filter_append, h, List.foldlM_append]

theorem lastCall_log (i : Nat) (tr : List Obs) (o : Obs) :
    lastCall i (tr ++ [o]) = match o with | .called w p => if w = i then some p else lastCall i tr | _ => lastCall i tr := by
  cases o <;> simp [lastCall, List.foldl_append]

/-! ## The stages -/

/-- The answer a life between two calls ends with. -/
def Done (l : Life) (a : Nat) : Prop := l = .startupDone a ∨ l = .waitDone a ∨ l = .serviceDone a

def At (t : T) (l : Life) : Prop :=
  match t.pc with
  | .created | .outer _ | .enough | .removeTop _ | .removeGet _ | .removeDel | .gone => l = .off
  | .startTest => l = .off ∧ t.cmd = .keepRunning
  | .startupIn => l = .startupIn
  | .loop => l = .startupDone t.err ∨
      ∃ a, Done l a ∧ completed a = completed t.err ∧ ¬ (t.cmd = .keepRunning ∧ t.err = 0)
  | .waitLoop => l = .waitDone t.err ∨ (t.err = 512 ∧ l = .startupDone 0)
  | .waitIn => l = .waitIn
  | .afterWait => l = .waitDone t.err ∨ (t.err = 512 ∧ l = .startupDone 0)
  | .addSize | .addStart | .addInsert _ => t.err = 0 ∧ l = .waitDone 0
  | .service => (t.err = 0 ∧ l = .waitDone 0) ∨ l = .serviceDone t.err
  | .serviceIn => l = .serviceIn
  | .endCall => ∃ a, Done l a ∧ completed a = completed t.err
  | .endIn => l = .endIn

theorem isCompleted_eq (a : Nat) : isCompleted a = completed a := by
  simp only [isCompleted, completed, Nat.testBit, Nat.shiftRight_eq_div_pow]
  rw [show (1 &&& a / 2 ^ 17) = (a / 2^17) % 2 by rw [Nat.and_comm]; exact Nat.and_one_is_mod _]
  rcases Nat.mod_two_eq_zero_or_one (a / 2^17) with h | h <;> rw [h] <;> rfl

structure Lives (s : State) : Prop where
  new : ∀ i, s.n ≤ i → (s.ts i).pc = .gone
  at_ : ∀ i, ∃ l, life i s.trace = some l ∧ At (s.ts i) l

theorem lives_init (mn mx : Nat) : Lives (init mn mx) := by
  refine ⟨fun i _ => rfl, fun i => ⟨.off, rfl, rfl⟩⟩

theorem setT_same (s : State) (i : Nat) (t : T) : (s.setT i t).ts i = t := by simp [State.setT]
theorem setT_ne (s : State) {i j : Nat} (t : T) (h : j ≠ i) : (s.setT i t).ts j = s.ts j := by simp [State.setT, h]

/-- A step of thread `i` that does not touch the trace. -/
theorem lives_set {s : State} (h : Lives s) {i : Nat} (hi : (s.ts i).pc ≠ .gone) {t : T}
    (ht : ∀ l, At (s.ts i) l → At t l) : Lives (s.setT i t) := by
  refine ⟨fun j hj => ?_, fun j => ?_⟩
  · by_cases e : j = i
    · subst e; exact absurd (h.new j hj) hi
    · rw [setT_ne _ _ e]; exact h.new j hj
  · obtain ⟨l, hl, ha⟩ := h.at_ j
    by_cases e : j = i
    · subst e; exact ⟨l, hl, by rw [setT_same]; exact ht l ha⟩
    · exact ⟨l, hl, by rw [setT_ne _ _ e]; exact ha⟩

/-- A step of thread `i` that calls the callback or returns from it. -/
theorem lives_log {s : State} (h : Lives s) {i : Nat} (hi : (s.ts i).pc ≠ .gone) {t : T} {o : Obs}
    (ho : who o = some i) (ht : ∀ l, At (s.ts i) l → ∃ l', next l o = some l' ∧ At t l') : Lives ((s.setT i t).log o) := by
  refine ⟨fun j hj => ?_, fun j => ?_⟩
  · by_cases e : j = i
    · subst e; exact absurd (h.new j hj) hi
    · simp only [State.log]; rw [setT_ne _ _ e]; exact h.new j hj
  · obtain ⟨l, hl, ha⟩ := h.at_ j
    by_cases e : j = i
    · subst e
      obtain ⟨l', hn, ha'⟩ := ht l ha
      refine ⟨l', ?_, by simp only [State.log]; rw [setT_same]; exact ha'⟩
      simp only [State.log]; rw [life_log_eq ho]
      show ((life j s.trace).bind _) = _
      rw [hl]; exact hn
    · refine ⟨l, ?_, by simp only [State.log]; rw [setT_ne _ _ e]; exact ha⟩
      simp only [State.log]; rw [life_log_ne (by rw [ho]; simp; exact fun h => e h.symm)]; exact hl

theorem lives_note {s : State} (h : Lives s) {o : Obs} (ho : who o = none) : Lives (s.log o) :=
  ⟨h.new, fun j => by
    obtain ⟨l, hl, ha⟩ := h.at_ j
    exact ⟨l, by simp only [State.log]; rw [life_log_ne (by rw [ho]; simp)]; exact hl, ha⟩⟩

/-- Only the parts of a state that matter here. -/
theorem lives_congr {s s' : State} (h : Lives s) (hn : s'.n = s.n) (ht : s'.ts = s.ts) (htr : s'.trace = s.trace) :
    Lives s' :=
  ⟨by rw [hn, ht]; exact h.new, by rw [ht, htr]; exact h.at_⟩

theorem lives_newThread {s : State} (h : Lives s) : Lives s.newThread := by
  refine ⟨fun j hj => ?_, fun j => ?_⟩
  · simp only [State.newThread, State.setT] at hj ⊢
    rw [if_neg (by omega)]; exact h.new j (by omega)
  · obtain ⟨l, hl, ha⟩ := h.at_ j
    refine ⟨l, hl, ?_⟩
    simp only [State.newThread, State.setT]
    split
    · next e => subst e; have hg := h.new s.n (Nat.le_refl _); simp only [At, hg] at ha ⊢; exact ha
    · exact ha

theorem lives_own {s : State} (h : Lives s) (a : Nat) : Lives (ownStep s a) := by
  unfold ownStep
  split
  · exact h
  · split
    · exact lives_congr (lives_note h (o := .startRet illegalOperation) rfl) rfl rfl rfl
    · exact lives_congr h rfl rfl rfl
  · split
    · exact lives_congr h rfl rfl rfl
    · exact lives_congr (lives_note h (o := .startRet 0) rfl) rfl rfl rfl
  · split
    · exact lives_congr (lives_newThread h) rfl rfl rfl
    · exact lives_congr (lives_note h (o := .startRet fatalError) rfl) rfl rfl rfl
  · exact lives_congr h rfl rfl rfl

theorem lives_thread {s : State} (h : Lives s) (i a : Nat) : Lives (threadStep s i a) := by
  by_cases hg : (s.ts i).pc = .gone
  · unfold threadStep; simp only [hg]; exact h
  have hi : i < s.n := by
    apply Nat.lt_of_not_le; intro hh; exact hg (h.new i hh)
  unfold threadStep
  cases hp : (s.ts i).pc <;> simp only [hp]
  case gone => exact h
  case created => exact lives_set h hg (fun l ha => by simp only [At, hp] at ha ⊢; exact ha)
  case outer b =>
    refine lives_set h hg (fun l ha => ?_)
    simp only [At, hp] at ha
    by_cases hc : (decide ((s.ts i).cmd = .keepRunning) && !b) = true
    · rw [if_pos hc]; simp at hc; exact ⟨ha, hc.1⟩
    · rw [if_neg hc]; exact ha
  case startTest =>
    split
    · exact lives_log h hg rfl (fun l ha => by
        simp only [At, hp] at ha; rw [ha.1]; exact ⟨_, rfl, rfl⟩)
    · next hc => exact lives_set h hg (fun l ha => by simp only [At, hp] at ha; exact absurd ha.2 hc)
  case startupIn =>
    exact lives_log h hg rfl (fun l ha => by
      simp only [At, hp] at ha; rw [ha]; exact ⟨_, rfl, .inl rfl⟩)
  case loop =>
    split
    · next hc =>
      simp at hc
      refine lives_set h hg (fun l ha => ?_)
      simp only [At, hp] at ha
      rcases ha with ha | ⟨b, _, _, hb⟩
      · exact .inr ⟨rfl, by rw [ha, hc.2]⟩
      · exact absurd hc hb
    · refine lives_set h hg (fun l ha => ?_)
      simp only [At, hp] at ha
      rcases ha with ha | ⟨b, h1, h2, _⟩
      · exact ⟨_, .inl ha, rfl⟩
      · exact ⟨b, h1, h2⟩
  case waitLoop =>
    split
    · next hc =>
      simp at hc
      refine lives_log h hg rfl (fun l ha => ?_)
      simp only [At, hp] at ha
      rcases ha with ha | ⟨_, ha⟩
      · rw [ha, hc.2]; exact ⟨_, by simp [next, timeout], rfl⟩
      · rw [ha]; exact ⟨_, by simp [next], rfl⟩
    · exact lives_set h hg (fun l ha => by simp only [At, hp] at ha ⊢; exact ha)
  case waitIn =>
    exact lives_log h hg rfl (fun l ha => by simp only [At, hp] at ha; rw [ha]; exact ⟨_, rfl, .inl rfl⟩)
  case afterWait =>
    refine lives_set h hg (fun l ha => ?_)
    simp only [At, hp] at ha
    by_cases hc : (decide ((s.ts i).cmd = .keepRunning) && (s.ts i).err == 0) = true
    · rw [if_pos hc]; simp at hc
      rcases ha with ha | ⟨ha, _⟩
      · exact ⟨hc.2, by rw [ha, hc.2]⟩
      · rw [hc.2] at ha; simp at ha
    · rw [if_neg hc]; simp at hc
      right
      rcases ha with ha | ⟨h5, ha⟩
      · exact ⟨_, .inr (.inl ha), rfl, fun hh => hc hh.1 hh.2⟩
      · exact ⟨0, .inl ha, by simp only; rw [h5]; decide, fun hh => hc hh.1 hh.2⟩
  case addSize =>
    split
    · exact lives_note (lives_set h hg (fun l ha => by simp only [At, hp] at ha; exact .inl ha)) rfl
    · exact lives_set h hg (fun l ha => by simp only [At, hp] at ha ⊢; exact ha)
  case addStart =>
    split
    · have hn := lives_newThread h
      have hts : s.newThread.ts i = s.ts i := by
        simp only [State.newThread, State.setT]; rw [if_neg (by omega)]
      refine lives_set hn (by rw [hts]; exact hg) (fun l ha => ?_)
      rw [hts] at ha; simp only [At, hp] at ha ⊢; exact ha
    · exact lives_note (lives_set h hg (fun l ha => by simp only [At, hp] at ha; exact .inl ha)) rfl
  case addInsert k =>
    have h' : Lives (s.insert k) := lives_congr h rfl rfl rfl
    exact lives_note (lives_set h' hg (fun l ha => by
      have ha : At (s.ts i) l := ha
      simp only [At, hp] at ha; exact .inl ha)) rfl
  case service =>
    split
    · next hc =>
      simp at hc
      refine lives_log h hg rfl (fun l ha => ?_)
      simp only [At, hp] at ha
      rcases ha with ⟨_, ha⟩ | ha
      · rw [ha]; exact ⟨_, by simp [next], rfl⟩
      · rw [ha, hc.2]; exact ⟨_, by simp [next], rfl⟩
    · next hc =>
      simp at hc
      refine lives_set h hg (fun l ha => ?_)
      simp only [At, hp] at ha
      right
      rcases ha with ⟨h0, ha⟩ | ha
      · exact ⟨0, .inr (.inl ha), by simp only; rw [h0], fun hh => hc hh.1 hh.2⟩
      · exact ⟨_, .inr (.inr ha), rfl, fun hh => hc hh.1 hh.2⟩
  case serviceIn =>
    exact lives_log h hg rfl (fun l ha => by simp only [At, hp] at ha; rw [ha]; exact ⟨_, rfl, .inr rfl⟩)
  case endCall =>
    refine lives_log h hg rfl (fun l ha => ?_)
    simp only [At, hp] at ha
    obtain ⟨b, hb, hc⟩ := ha
    have he : (if completed (s.ts i).err = true then Phase.termination else Phase.badTermination) = endPhase b := by
      rw [← hc]; simp only [endPhase, isCompleted_eq]
    rw [he]
    have hne : endPhase b ≠ .waitRequest ∧ endPhase b ≠ .serviceRequest := by
      unfold endPhase; split <;> simp
    rcases hb with hb | hb | hb <;> subst hb <;> exact ⟨.endIn, by simp [next, hne], rfl⟩
  case endIn =>
    exact lives_log h hg rfl (fun l ha => by simp only [At, hp] at ha; rw [ha]; exact ⟨_, rfl, rfl⟩)
  case enough => exact lives_set h hg (fun l ha => by simp only [At, hp] at ha ⊢; exact ha)
  case removeTop k =>
    refine lives_set h hg (fun l ha => ?_)
    simp only [At, hp] at ha
    by_cases hk : k < s.pool.length
    · rw [if_pos hk]; exact ha
    · rw [if_neg hk]; exact ha
  case removeGet k =>
    split
    · exact lives_congr h rfl rfl rfl
    · next j _ =>
      refine lives_set h hg (fun l ha => ?_)
      simp only [At, hp] at ha
      by_cases hk : j = i
      · rw [if_pos hk]; exact ha
      · rw [if_neg hk]; exact ha
  case removeDel =>
    have h' : Lives { s with pool := s.pool.erase i } := lives_congr h rfl rfl rfl
    exact lives_set h' hg (fun l ha => by
      have ha : At (s.ts i) l := ha
      simp only [At, hp] at ha ⊢; exact ha)

theorem lives_step {s : State} (h : Lives s) (e : Ev) (he : ∀ i, e = .stop i → (s.ts i).pc ≠ .startTest) :
    Lives (step s e) := by
  unfold step
  split
  · exact h
  cases e with
  | callStart => simp only; split <;> exact lives_congr h rfl rfl rfl
  | own a => exact lives_own h a
  | thread i a => exact lives_thread h i a
  | stop i =>
    have hs := he i rfl
    simp only
    refine ⟨fun j hj => ?_, fun j => ?_⟩
    · by_cases e : j = i
      · subst e; rw [setT_same]; exact h.new j hj
      · rw [setT_ne _ _ e]; exact h.new j hj
    · obtain ⟨l, hl, ha⟩ := h.at_ j
      refine ⟨l, hl, ?_⟩
      by_cases e : j = i
      · subst e
        rw [setT_same]
        cases hp : (s.ts j).pc <;> simp only [At, hp] at ha ⊢ <;> try exact ha
        case startTest => exact absurd hp hs
        case loop =>
          rcases ha with ha | ⟨b, h1, h2, _⟩
          · exact .inl ha
          · exact .inr ⟨b, h1, h2, by simp⟩
      · rw [setT_ne _ _ e]; exact ha

end Verif.MultiClient
