import Verif.Proof.MultiClient2
set_option maxRecDepth 8000
set_option linter.unusedSimpArgs false
set_option linter.unusedVariables false
namespace Verif.MultiClient
open Verif.Spec.MultiClient

/-! ## The lower limit, when no thread is told to stop -/

/-- The thread has found that there are more threads than needed. -/
def leaving : Pc → Bool
  | .outer true | .removeTop _ | .removeGet _ | .removeDel => true
  | _ => false

structure Low (s : State) : Prop where
  cmd : ∀ i, (s.ts i).pc ≠ .gone → (s.ts i).pc = .created ∨ (s.ts i).cmd = .keepRunning
  low : started s.trace → s.min ≤ s.pool.length
  rem : ∀ i, leaving (s.ts i).pc = true → s.min < s.pool.length

theorem low_init (mn mx : Nat) : Low (init mn mx) :=
  ⟨fun i hi => absurd rfl hi, fun h => by simp [started, init] at h, fun i hi => by simp [init, T.none, leaving] at hi⟩

theorem low_set {s : State} (h : Low s) {i : Nat} {t : T} (hc : t.cmd = .keepRunning)
    (hl : leaving t.pc = true → s.min < s.pool.length) : Low (s.setT i t) := by
  refine ⟨fun j hj => ?_, h.low, fun j hj => ?_⟩
  · by_cases e : j = i
    · subst e; rw [setT_same]; exact .inr hc
    · rw [setT_ne _ _ e] at hj ⊢; exact h.cmd j hj
  · by_cases e : j = i
    · subst e; rw [setT_same] at hj; exact hl hj
    · rw [setT_ne _ _ e] at hj; exact h.rem j hj

theorem low_log {s : State} (h : Low s) {o : Obs} (ho : o ≠ .startRet 0) : Low (s.log o) := by
  refine ⟨h.cmd, fun hs => h.low ?_, h.rem⟩
  simp only [started, State.log, List.mem_append, List.mem_singleton] at hs ⊢
  rcases hs with hs | hs
  · exact hs
  · exact absurd hs.symm ho

theorem low_new {s : State} (h : Low s) : Low s.newThread := by
  refine ⟨fun j hj => ?_, h.low, fun j hj => ?_⟩
  · simp only [State.newThread, State.setT] at hj ⊢
    split
    · exact .inl rfl
    · next e => rw [if_neg e] at hj; exact h.cmd j hj
  · simp only [State.newThread, State.setT] at hj
    split at hj
    · simp [leaving] at hj
    · exact h.rem j hj

theorem low_insert {s : State} (h : Low s) (k : Nat) : Low (s.insert k) := by
  refine ⟨h.cmd, fun hs => ?_, fun j hj => ?_⟩
  · have := h.low hs; simp only [State.insert, List.length_append]; omega
  · have := h.rem j hj; simp only [State.insert, List.length_append]; omega

theorem low_owner {s : State} (h : Low s) (o : OPc) : Low { s with own := o } := ⟨h.cmd, h.low, h.rem⟩

theorem low_step {s : State} (hv : Inv s) (h : Low s) (ha : alone s) (e : Ev) (he : ∀ i, e ≠ .stop i) : Low (step s e) := by
  unfold step
  rw [if_neg (by rw [hv.ok]; simp)]
  cases e with
  | callStart => simp only; split <;> first | exact low_owner h _ | exact h
  | stop i => exact absurd rfl (he i)
  | own a =>
    simp only [ownStep]
    split
    · exact h
    · split
      · exact low_owner (low_log h (by simp [illegalOperation])) _
      · exact low_owner h _
    · split
      · exact low_owner h _
      · next hlt =>
        exact ⟨h.cmd, fun _ => Nat.le_of_not_lt hlt, h.rem⟩
    · split
      · exact low_owner (low_new h) _
      · exact low_owner (low_log h (by simp [fatalError])) _
    · exact low_owner (low_insert h _) _
  | thread i a =>
    by_cases hg : (s.ts i).pc = .gone
    · simp only [threadStep, hg]; exact h
    have hc : (s.ts i).pc ≠ .created → (s.ts i).cmd = .keepRunning := by
      intro hh; rcases h.cmd i hg with h1 | h1
      · exact absurd h1 hh
      · exact h1
    simp only [threadStep]
    cases hp : (s.ts i).pc <;> simp only [hp]
    case gone => exact h
    case created => exact low_set h rfl (by simp [leaving])
    case outer b =>
      have hk := hc (by simp [hp])
      cases b
      · exact low_set h hk (by simp [hk, leaving])
      · exact low_set h hk (fun _ => h.rem i (by rw [hp]; rfl))
    case startTest =>
      have hk := hc (by simp [hp])
      rw [if_pos hk]
      refine low_log (low_set h ?_ ?_) ?_ <;> first | exact hk | simp [leaving]
    case startupIn => refine low_log (low_set h ?_ ?_) ?_ <;> first | exact hc (by simp [hp]) | simp [leaving]
    case loop => split <;> (refine low_set h ?_ ?_ <;> first | exact hc (by simp [hp]) | simp [leaving])
    case waitLoop =>
      have hk := hc (by simp [hp])
      split
      · refine low_log (low_set h ?_ ?_) ?_ <;> first | exact hk | simp [leaving]
      · refine low_set h ?_ ?_ <;> first | exact hk | simp [leaving]
    case waitIn => refine low_log (low_set h ?_ ?_) ?_ <;> first | exact hc (by simp [hp]) | simp [leaving]
    case afterWait =>
      have hk := hc (by simp [hp])
      refine low_set h hk ?_
      by_cases hc : (decide ((s.ts i).cmd = .keepRunning) && (s.ts i).err == 0) = true
      · rw [if_pos hc]; simp [leaving]
      · rw [if_neg hc]; simp [leaving]
    case addSize =>
      have hk := hc (by simp [hp])
      split
      · refine low_log (low_set h ?_ ?_) ?_ <;> first | exact hk | simp [leaving]
      · refine low_set h ?_ ?_ <;> first | exact hk | simp [leaving]
    case addStart =>
      have hk := hc (by simp [hp])
      split
      · refine low_set (low_new h) ?_ ?_ <;> first | exact hk | simp [leaving]
      · refine low_log (low_set h ?_ ?_) ?_ <;> first | exact hk | simp [leaving]
    case addInsert k => refine low_log (low_set (low_insert h k) ?_ ?_) ?_ <;> first | exact hc (by simp [hp]) | simp [leaving]
    case service =>
      have hk := hc (by simp [hp])
      split
      · refine low_log (low_set h ?_ ?_) ?_ <;> first | exact hk | simp [leaving]
      · refine low_set h ?_ ?_ <;> first | exact hk | simp [leaving]
    case serviceIn => refine low_log (low_set h ?_ ?_) ?_ <;> first | exact hc (by simp [hp]) | simp [leaving]
    case endCall => refine low_log (low_set h ?_ ?_) ?_ <;> first | exact hc (by simp [hp]) | simp [leaving]
    case endIn => refine low_log (low_set h ?_ ?_) ?_ <;> first | exact hc (by simp [hp]) | simp [leaving]
    case enough =>
      refine low_set h (hc (by simp [hp])) ?_
      cases hm : s.moreThanEnough
      · simp [leaving]
      · intro _; simpa [State.moreThanEnough] using hm
    case removeTop k =>
      refine low_set h (hc (by simp [hp])) (fun _ => h.rem i (by rw [hp]; rfl))
    case removeGet k =>
      have hl := hv.loc i
      unfold Loc at hl; rw [hp] at hl
      cases hj : s.pool[k]? with
      | none => rw [List.getElem?_eq_none_iff] at hj; omega
      | some j => exact low_set h (hc (by simp [hp])) (fun _ => h.rem i (by rw [hp]; rfl))
    case removeDel =>
      obtain ⟨h1, _⟩ := others_out ha (i := i) (by rw [hp]; rfl)
      have hlen := h.rem i (by rw [hp]; rfl)
      have hm := in_pool hv ha hg (by rw [hp]; rfl)
      refine ⟨fun j hj => ?_, fun hs => ?_, fun j hj => ?_⟩
      · by_cases e : j = i
        · subst e; rw [setT_same] at hj; simp at hj
        · rw [setT_ne _ _ e] at hj ⊢; exact h.cmd j hj
      · show s.min ≤ (s.pool.erase i).length
        rw [List.length_erase_of_mem hm]; omega
      · exfalso
        by_cases e : j = i
        · subst e; rw [setT_same] at hj; simp [leaving] at hj
        · rw [setT_ne _ _ e] at hj
          have hj : leaving (s.ts j).pc = true := hj
          have := h1 j e
          cases hq : (s.ts j).pc <;> rw [hq] at hj this <;> simp [leaving, inside] at hj this
          case outer b => cases b <;> simp [leaving, inside] at hj this

theorem low_run {s : State} (hv : Inv s) (h : Low s) (es : List Ev) (ho : oneByOne s es) (hn : noStop es) :
    Low (run s es) := by
  refine run_ind (P := Low) es h fun p e hp hi => ?_
  have hpre : p <+: es := ⟨e :: hp.choose, by have := hp.choose_spec; simpa using this⟩
  refine low_step (inv_run hv p fun q hq => ho q (hq.trans hpre)) hi (ho p hpre) e ?_
  intro i hh; subst hh
  exact hn i (hp.subset (by simp))

/-! ## Somebody waits for the next client -/

/-- The thread has not yet begun to serve. -/
def fresh (t : T) : Bool :=
  match t.pc with
  | .created | .outer false | .startTest | .startupIn | .waitLoop | .waitIn | .afterWait | .addSize | .addStart
  | .addInsert _ => true
  | .loop => t.err == 0
  | _ => false

/-- The last call of the thread was not to serve. -/
def calm (t : T) : Bool := fresh t || t.pc == .endIn || t.pc == .enough

theorem calm_of {t : T} (h : fresh t = true) : calm t = true := by simp [calm, h]

structure Fr (s : State) : Prop where
  some_ : s.pool ≠ [] → ∃ i, i ∈ s.pool ∧ fresh (s.ts i) = true
  own : ∀ t, s.own = .startInsert t → fresh (s.ts t) = true
  thr : ∀ j t, (s.ts j).pc = .addInsert t → fresh (s.ts t) = true
  aft : ∀ i, (s.ts i).pc = .afterWait → (s.ts i).err = 0
  wai : ∀ i, (s.ts i).pc = .waitLoop → (s.ts i).err = 0 ∨ (s.ts i).err = 512
  sin : ∀ i, (s.ts i).pc = .startupIn → lastCall i s.trace = some .startup
  win : ∀ i, (s.ts i).pc = .waitIn → lastCall i s.trace = some .waitRequest
  las : ∀ i, calm (s.ts i) = true → lastCall i s.trace ≠ some .serviceRequest
  new : ∀ i, s.n ≤ i → lastCall i s.trace = none

theorem fr_init (mn mx : Nat) : Fr (init mn mx) := by
  constructor <;> simp [init, T.none, calm, fresh, lastCall]

theorem step_trace (s : State) (e : Ev) : s.trace <+: (step s e).trace := by
  unfold step
  split
  · exact List.prefix_refl _
  cases e with
  | callStart => simp only; split <;> exact List.prefix_refl _
  | stop i => exact List.prefix_refl _
  | own a =>
    simp only [ownStep]
    cases s.own <;> simp only <;> repeat' split
    all_goals first | exact List.prefix_refl _ | exact List.prefix_append _ _
  | thread i a =>
    simp only [threadStep]
    cases (s.ts i).pc <;> simp only <;> repeat' split
    all_goals first | exact List.prefix_refl _ | exact List.prefix_append _ _

theorem run_trace (s : State) (p q : List Ev) : (run s p).trace <+: (run s (p ++ q)).trace := by
  induction q generalizing p with
  | nil => simp
  | cons e q ih =>
    have := ih (p ++ [e])
    rw [run_snoc, List.append_assoc] at this
    exact (step_trace _ e).trans this

theorem smooth_prefix {a b : List Obs} (h : smooth b) (hp : a <+: b) : smooth a :=
  ⟨fun p i x hx => h.1 p i x (hx.trans hp), fun i e he => h.2 i e (hp.subset he)⟩

/-- Thread `i` moves from one fresh place to another, or was not fresh. -/
theorem fr_set {s : State} (h : Fr s) {i : Nat} {t : T}
    (hf : fresh (s.ts i) = true → fresh t = true)
    (hadd : ∀ k, t.pc ≠ .addInsert k)
    (haft : t.pc = .afterWait → t.err = 0) (hwai : t.pc = .waitLoop → t.err = 0 ∨ t.err = 512)
    (hsin : t.pc ≠ .startupIn) (hwin : t.pc ≠ .waitIn)
    (hlas : calm t = true → lastCall i s.trace ≠ some .serviceRequest) : Fr (s.setT i t) := by
  have hm : ∀ j, fresh (s.ts j) = true → fresh ((s.setT i t).ts j) = true := by
    intro j hj
    by_cases e : j = i
    · subst e; rw [setT_same]; exact hf hj
    · rw [setT_ne _ _ e]; exact hj
  refine ⟨fun hp => ?_, fun k hk => hm _ (h.own k hk), fun j k hk => ?_, fun j hj => ?_, fun j hj => ?_, fun j hj => ?_,
    fun j hj => ?_, fun j hj => ?_, h.new⟩
  · obtain ⟨j, h1, h2⟩ := h.some_ hp; exact ⟨j, h1, hm j h2⟩
  all_goals
    by_cases e : j = i
    · subst e; rw [setT_same] at *
      first
        | exact absurd hk (hadd _) | exact haft hj | exact hwai hj | exact absurd hj hsin | exact absurd hj hwin
        | exact hlas hj
    · rw [setT_ne _ _ e] at *
      first
        | exact hm _ (h.thr _ _ hk) | exact h.aft _ hj | exact h.wai _ hj | exact h.sin _ hj | exact h.win _ hj
        | exact h.las _ hj

/-- What is not a call does not matter. -/
theorem fr_note {s : State} (h : Fr s) {o : Obs} (ho : ∀ w p, o ≠ .called w p) : Fr (s.log o) := by
  have hl : ∀ i, lastCall i (s.trace ++ [o]) = lastCall i s.trace := by
    intro i; rw [lastCall_log]; cases o <;> first | rfl | exact absurd rfl (ho _ _)
  refine ⟨h.some_, h.own, h.thr, h.aft, h.wai, fun i hi => ?_, fun i hi => ?_, fun i hi => ?_, fun i hi => ?_⟩
  all_goals simp only [State.log]; rw [hl]
  · exact h.sin i hi
  · exact h.win i hi
  · exact h.las i hi
  · exact h.new i hi

/-- Thread `i` calls the callback. -/
theorem fr_call {s : State} (h : Fr s) {i : Nat} {t : T} {p : Phase} (hi : i < s.n)
    (hf : fresh (s.ts i) = true → fresh t = true)
    (hadd : ∀ k, t.pc ≠ .addInsert k) (haft : t.pc ≠ .afterWait) (hwai : t.pc ≠ .waitLoop)
    (hsin : t.pc = .startupIn → p = .startup) (hwin : t.pc = .waitIn → p = .waitRequest)
    (hlas : calm t = true → p ≠ .serviceRequest) : Fr ((s.setT i t).log (.called i p)) := by
  have hm : ∀ j, fresh (s.ts j) = true → fresh ((s.setT i t).ts j) = true := by
    intro j hj
    by_cases e : j = i
    · subst e; rw [setT_same]; exact hf hj
    · rw [setT_ne _ _ e]; exact hj
  have hl : ∀ j, lastCall j (s.trace ++ [Obs.called i p]) = if i = j then some p else lastCall j s.trace := by
    intro j; rw [lastCall_log]
  refine ⟨fun hp => ?_, fun k hk => hm _ (h.own k hk), fun j k hk => ?_, fun j hj => ?_, fun j hj => ?_, fun j hj => ?_,
    fun j hj => ?_, fun j hj => ?_, fun j hj => ?_⟩
  · obtain ⟨j, h1, h2⟩ := h.some_ hp; exact ⟨j, h1, hm j h2⟩
  case refine_8 =>
    have hj : s.n ≤ j := hj
    simp only [State.log]
    show lastCall j (s.trace ++ [_]) = none
    rw [hl, if_neg (by omega)]; exact h.new j hj
  all_goals
    simp only [State.log] at *
    by_cases e : j = i
    · subst e; rw [setT_same] at *
      first
        | exact absurd hk (hadd _) | exact absurd hj haft | exact absurd hj hwai
        | (show lastCall j (s.trace ++ [_]) = _; rw [hl, if_pos rfl, hsin hj])
        | (show lastCall j (s.trace ++ [_]) = _; rw [hl, if_pos rfl, hwin hj])
        | (show lastCall j (s.trace ++ [_]) ≠ _; rw [hl, if_pos rfl]; simp; exact hlas hj)
    · rw [setT_ne _ _ e] at *
      first
        | exact hm _ (h.thr _ _ hk) | exact h.aft _ hj | exact h.wai _ hj
        | (show lastCall j (s.trace ++ [_]) = _; rw [hl, if_neg (fun h => e h.symm)]; first | exact h.sin _ hj | exact h.win _ hj)
        | (show lastCall j (s.trace ++ [_]) ≠ _; rw [hl, if_neg (fun h => e h.symm)]; exact h.las _ hj)

theorem fr_owner {s : State} (h : Fr s) (o : OPc) (ho : ∀ k, o ≠ .startInsert k) : Fr { s with own := o } :=
  ⟨h.some_, fun t ht => absurd ht (ho t), h.thr, h.aft, h.wai, h.sin, h.win, h.las, h.new⟩

theorem fr_new {s : State} (hv : Inv s) (h : Fr s) : Fr s.newThread ∧ fresh (s.newThread.ts s.n) = true := by
  have hm : ∀ j, fresh (s.ts j) = true → fresh (s.newThread.ts j) = true := by
    intro j hj
    simp only [State.newThread, State.setT]
    split
    · rfl
    · exact hj
  refine ⟨⟨fun hp => ?_, fun k hk => hm _ (h.own k hk), fun j k hk => ?_, fun j hj => ?_, fun j hj => ?_, fun j hj => ?_,
    fun j hj => ?_, fun j hj => ?_, fun j hj => ?_⟩, by simp [State.newThread, State.setT, fresh]⟩
  · obtain ⟨j, h1, h2⟩ := h.some_ hp; exact ⟨j, h1, hm j h2⟩
  · simp only [State.newThread, State.setT] at hk
    split at hk
    · simp at hk
    · exact hm _ (h.thr j k hk)
  · simp only [State.newThread, State.setT] at hj ⊢
    split at hj
    · simp at hj
    · next e => rw [if_neg e]; exact h.aft j hj
  · simp only [State.newThread, State.setT] at hj ⊢
    split at hj
    · simp at hj
    · next e => rw [if_neg e]; exact h.wai j hj
  · simp only [State.newThread, State.setT] at hj ⊢
    split at hj
    · simp at hj
    · exact h.sin j hj
  · simp only [State.newThread, State.setT] at hj ⊢
    split at hj
    · simp at hj
    · exact h.win j hj
  · simp only [State.newThread, State.setT] at hj ⊢
    split at hj
    · next e => subst e; rw [h.new _ (Nat.le_refl _)]; simp
    · exact h.las j hj
  · simp only [State.newThread, State.setT] at hj ⊢
    exact h.new j (by omega)

theorem fr_insert {s : State} (h : Fr s) {k : Nat} (hk : fresh (s.ts k) = true) : Fr (s.insert k) :=
  ⟨fun _ => ⟨k, by simp [State.insert], hk⟩, h.own, h.thr, h.aft, h.wai, h.sin, h.win, h.las, h.new⟩

theorem fr_step {s : State} (hv : Inv s) (hl : Low s) (h : Fr s) (ha : alone s) (e : Ev) (ha' : alone (step s e))
    (he : ∀ i, e ≠ .stop i) (hs : smooth (step s e).trace) : Fr (step s e) := by
  unfold step at ha' hs ⊢
  rw [if_neg (by rw [hv.ok]; simp)] at ha' hs ⊢
  cases e with
  | callStart =>
    simp only
    split
    · exact fr_owner h _ (by simp)
    · exact h
  | stop i => exact absurd rfl (he i)
  | own a =>
    simp only [ownStep]
    cases ho : s.own <;> simp only
    · exact h
    · split
      · exact fr_owner (fr_note h (by simp)) _ (by simp)
      · exact fr_owner h _ (by simp)
    · split
      · exact fr_owner h _ (by simp)
      · exact fr_owner (fr_note h (by simp)) _ (by simp)
    · split
      · obtain ⟨h1, h2⟩ := fr_new hv h
        exact ⟨h1.some_, fun t ht => by simp at ht; subst ht; exact h2, h1.thr, h1.aft, h1.wai, h1.sin, h1.win, h1.las,
          h1.new⟩
      · exact fr_owner (fr_note h (by simp)) _ (by simp)
    · exact fr_owner (fr_insert h (h.own _ ho)) _ (by simp)
  | thread i a =>
    by_cases hg : (s.ts i).pc = .gone
    · simp only [threadStep, hg]; exact h
    have hi : i < s.n := by
      apply Nat.lt_of_not_le; intro hh; exact hg (hv.new i hh)
    have hc : (s.ts i).pc ≠ .created → (s.ts i).cmd = .keepRunning := by
      intro hh; rcases hl.cmd i hg with h1 | h1
      · exact absurd h1 hh
      · exact h1
    simp only [threadStep] at ha' hs ⊢
    have hlas := h.las i
    cases hp : (s.ts i).pc <;> simp only [hp] at ha' hs ⊢
    case gone => exact h
    case created =>
      exact fr_set h (fun _ => rfl) (by simp) (by simp) (by simp) (by simp) (by simp) (fun _ => hlas (by simp [calm, fresh, hp]))
    case outer b =>
      have hk := hc (by simp [hp])
      cases b
      · simp only [hk, decide_true, Bool.not_false, Bool.and_self, if_true]
        exact fr_set h (fun _ => rfl) (by simp) (by simp) (by simp) (by simp) (by simp) (fun _ => hlas (by simp [calm, fresh, hp]))
      · simp only [Bool.not_true, Bool.and_false, Bool.false_eq_true, if_false]
        exact fr_set h (by simp [fresh, hp]) (by simp) (by simp) (by simp) (by simp) (by simp) (by simp [calm, fresh])
    case startTest =>
      rw [if_pos (hc (by simp [hp]))]
      exact fr_call h hi (fun _ => rfl) (by simp) (by simp) (by simp) (by simp) (by simp) (by simp)
    case startupIn =>
      have h0 : a = 0 := (hs.1 s.trace i a (List.prefix_refl _)).1 (h.sin i hp)
      subst h0
      refine fr_note (fr_set h (fun _ => rfl) (by simp) (by simp) (by simp) (by simp) (by simp) (fun _ => ?_)) (by simp)
      rw [h.sin i hp]; simp
    case loop =>
      split
      · next hh =>
        simp at hh
        exact fr_set h (fun _ => rfl) (by simp) (by simp) (by simp [timeout]) (by simp) (by simp)
          (fun _ => hlas (by simp [calm, fresh, hp, hh]))
      · next hh =>
        simp [hc (by simp [hp])] at hh
        exact fr_set h (by simp [fresh, hp, hh]) (by simp) (by simp) (by simp) (by simp) (by simp) (by simp [calm, fresh])
    case waitLoop =>
      split
      · exact fr_call h hi (fun _ => rfl) (by simp) (by simp) (by simp) (by simp) (by simp) (by simp)
      · next hh =>
        simp [hc (by simp [hp])] at hh
        refine fr_set h (fun _ => rfl) (by simp) (fun _ => ?_) (by simp) (by simp) (by simp)
          (fun _ => hlas (by simp [calm, fresh, hp]))
        rcases h.wai i hp with h1 | h1
        · exact h1
        · exact absurd h1 hh
    case waitIn =>
      have h0 := (hs.1 s.trace i a (List.prefix_refl _)).2 (h.win i hp)
      refine fr_note (fr_set h (fun _ => rfl) (by simp) (by simp) (fun _ => h0) (by simp) (by simp) (fun _ => ?_)) (by simp)
      rw [h.win i hp]; simp
    case afterWait =>
      simp only [hc (by simp [hp]), h.aft i hp]
      exact fr_set h (fun _ => rfl) (by simp) (by simp) (by simp) (by simp) (by simp) (fun _ => hlas (by simp [calm, fresh, hp]))
    case addSize =>
      split
      · next hh =>
        rw [if_pos hh] at hs
        have := hs.2 i illegalOperation (by simp [State.log])
        simp [illegalOperation] at this
      · exact fr_set h (fun _ => rfl) (by simp) (by simp) (by simp) (by simp) (by simp) (fun _ => hlas (by simp [calm, fresh, hp]))
    case addStart =>
      split
      · obtain ⟨h1, h2⟩ := fr_new hv h
        have hts : s.newThread.ts i = s.ts i := newThread_ts hi
        have hm : ∀ j, fresh (s.newThread.ts j) = true →
            fresh ((s.newThread.setT i { s.ts i with pc := .addInsert s.n }).ts j) = true := by
          intro j hj
          by_cases e : j = i
          · subst e; rw [setT_same]; rfl
          · rw [setT_ne _ _ e]; exact hj
        refine ⟨fun hp => ?_, fun k hk => hm _ (h1.own k hk), fun j k hk => ?_, fun j hj => ?_, fun j hj => ?_,
          fun j hj => ?_, fun j hj => ?_, fun j hj => ?_, h1.new⟩
        · obtain ⟨j, h3, h4⟩ := h1.some_ hp; exact ⟨j, h3, hm j h4⟩
        all_goals by_cases e : j = i
        · subst e; rw [setT_same] at hk; simp at hk; subst hk; exact hm _ h2
        · rw [setT_ne _ _ e] at hk; exact hm _ (h1.thr j k hk)
        · subst e; rw [setT_same] at hj; simp at hj
        · rw [setT_ne _ _ e] at hj ⊢; exact h1.aft j hj
        · subst e; rw [setT_same] at hj; simp at hj
        · rw [setT_ne _ _ e] at hj ⊢; exact h1.wai j hj
        · subst e; rw [setT_same] at hj; simp at hj
        · rw [setT_ne _ _ e] at hj; exact h1.sin j hj
        · subst e; rw [setT_same] at hj; simp at hj
        · rw [setT_ne _ _ e] at hj; exact h1.win j hj
        · subst e; exact hlas (by simp [calm, fresh, hp])
        · rw [setT_ne _ _ e] at hj; exact h1.las j hj
      · next hh =>
        rw [if_neg hh] at hs
        have := hs.2 i fatalError (by simp [State.log])
        simp [fatalError] at this
    case addInsert k =>
      have hk := h.thr i k hp
      have hne : k ≠ i := by
        have hl := hv.loc i
        unfold Loc at hl; rw [hp] at hl; exact hl.2.2.2.2
      obtain ⟨h1, h2⟩ := others_out ha (i := i) (by rw [hp]; rfl)
      refine fr_note ?_ (by simp)
      refine ⟨fun _ => ⟨k, by simp [State.insert, State.setT], by rw [setT_ne _ _ hne]; exact hk⟩, fun t ht => ?_,
        fun j t hj => ?_, fun j hj => ?_, fun j hj => ?_, fun j hj => ?_, fun j hj => ?_, fun j hj => ?_, h.new⟩
      · have ht : s.own = .startInsert t := ht
        rw [ht] at h2; simp [ownInside] at h2
      · by_cases e : j = i
        · subst e; rw [setT_same] at hj; simp at hj
        · rw [setT_ne _ _ e] at hj
          have hj : (s.ts j).pc = .addInsert t := hj
          have := h1 j e; rw [hj] at this; simp [inside] at this
      all_goals by_cases e : j = i
      · subst e; rw [setT_same] at hj; simp at hj
      · rw [setT_ne _ _ e] at hj ⊢; exact h.aft j hj
      · subst e; rw [setT_same] at hj; simp at hj
      · rw [setT_ne _ _ e] at hj ⊢; exact h.wai j hj
      · subst e; rw [setT_same] at hj; simp at hj
      · rw [setT_ne _ _ e] at hj; exact h.sin j hj
      · subst e; rw [setT_same] at hj; simp at hj
      · rw [setT_ne _ _ e] at hj; exact h.win j hj
      · subst e; rw [setT_same] at hj; simp [calm, fresh] at hj
      · rw [setT_ne _ _ e] at hj; exact h.las j hj
    case service =>
      split
      · exact fr_call h hi (by simp [fresh, hp]) (by simp) (by simp) (by simp) (by simp) (by simp) (by simp [calm, fresh])
      · next hh =>
        simp [hc (by simp [hp])] at hh
        exact fr_set h (by simp [fresh, hp]) (by simp) (by simp) (by simp) (by simp) (by simp) (by simp [calm, fresh, hh])
    case serviceIn =>
      exact fr_note (fr_set h (by simp [fresh, hp]) (by simp) (by simp) (by simp) (by simp) (by simp) (by simp [calm, fresh]))
        (by simp)
    case endCall =>
      exact fr_call h hi (by simp [fresh, hp]) (by simp) (by simp) (by simp) (by simp) (by simp) (by split <;> simp)
    case endIn =>
      exact fr_note (fr_set h (by simp [fresh, hp]) (by simp) (by simp) (by simp) (by simp) (by simp)
        (fun _ => hlas (by simp [calm, hp]))) (by simp)
    case enough =>
      exact fr_set h (by simp [fresh, hp]) (by simp) (by simp) (by simp) (by simp) (by simp)
        (fun _ => hlas (by simp [calm, hp]))
    case removeTop k =>
      by_cases hk : k < s.pool.length
      · rw [if_pos hk]
        exact fr_set h (by simp [fresh, hp]) (by simp) (by simp) (by simp) (by simp) (by simp) (by simp [calm, fresh])
      · rw [if_neg hk]
        exact fr_set h (by simp [fresh, hp]) (by simp) (by simp) (by simp) (by simp) (by simp) (by simp [calm, fresh])
    case removeGet k =>
      have hl := hv.loc i
      unfold Loc at hl; rw [hp] at hl
      cases hj : s.pool[k]? with
      | none => rw [List.getElem?_eq_none_iff] at hj; omega
      | some j =>
        simp only
        by_cases e : j = i
        · rw [if_pos e]
          exact fr_set h (by simp [fresh, hp]) (by simp) (by simp) (by simp) (by simp) (by simp) (by simp [calm, fresh])
        · rw [if_neg e]
          exact fr_set h (by simp [fresh, hp]) (by simp) (by simp) (by simp) (by simp) (by simp) (by simp [calm, fresh])
    case removeDel =>
      have hs := fr_set (i := i) (t := { s.ts i with pc := .gone }) h (by simp [fresh, hp]) (by simp) (by simp) (by simp)
        (by simp) (by simp) (by simp [calm, fresh])
      refine ⟨fun hne => ?_, hs.own, hs.thr, hs.aft, hs.wai, hs.sin, hs.win, hs.las, hs.new⟩
      have hm := in_pool hv ha hg (by rw [hp]; rfl)
      obtain ⟨j, h1, h2⟩ := h.some_ (List.ne_nil_of_mem hm)
      have e : j ≠ i := by intro e; subst e; simp [fresh, hp] at h2
      refine ⟨j, ?_, by rw [setT_ne _ _ e]; exact h2⟩
      show j ∈ s.pool.erase i
      rw [hv.nodup.mem_erase_iff]; exact ⟨e, h1⟩

theorem fr_run {s : State} (hv : Inv s) (hl : Low s) (h : Fr s) (es : List Ev) (ho : oneByOne s es) (hn : noStop es)
    (hs : smooth (run s es).trace) : Fr (run s es) := by
  refine run_ind (P := Fr) es h fun p e hp hi => ?_
  have hpre : p <+: es := ⟨e :: hp.choose, by have := hp.choose_spec; simpa using this⟩
  have hop : oneByOne s p := fun q hq => ho q (hq.trans hpre)
  have hnp : noStop p := fun i hi => hn i (hpre.subset hi)
  refine fr_step (inv_run hv p hop) (low_run hv hl p hop hnp) hi (ho p hpre) e ?_ ?_ ?_
  · rw [← run_snoc]; exact ho _ hp
  · intro i hh; subst hh
    exact hn i (hp.subset (by simp))
  · rw [← run_snoc]
    obtain ⟨q, hq⟩ := hp
    have := run_trace s (p ++ [e]) q
    rw [hq] at this
    exact smooth_prefix hs this

/-! ## A thread that is told to stop -/

/-- The calls that are left. -/
def left : Pc → Nat
  | .outer _ | .endIn | .enough | .removeTop _ | .removeGet _ | .removeDel | .gone => 0
  | _ => 1

/-- The steps that are left before `RemoveThread`. -/
def rank : Pc → Nat
  | .removeTop _ | .removeGet _ | .removeDel | .gone => 0
  | .outer _ => 1
  | .enough => 2
  | .endIn => 3
  | .endCall => 4
  | .loop => 5
  | .startTest | .startupIn | .service | .afterWait => 6
  | .waitLoop | .serviceIn | .addInsert _ => 7
  | .waitIn | .addStart => 8
  | .addSize => 9
  | .created => 9

structure Told (s : State) (i : Nat) : Prop where
  lt : i < s.n
  cmd : (s.ts i).cmd = .stop
  pc : (s.ts i).pc ≠ .created

theorem callsOf_append (i : Nat) (a b : List Obs) : callsOf i (a ++ b) = callsOf i a + callsOf i b := by
  simp [callsOf, List.countP_append]

theorem told_step {s : State} {i : Nat} (h : Told s i) (e : Ev) :
    Told (step s e) i ∧ callsOf i (step s e).trace + left ((step s e).ts i).pc ≤ callsOf i s.trace + left (s.ts i).pc ∧
      ((step s e).crashed = true ∨
        rank ((step s e).ts i).pc ≤ rank (s.ts i).pc - (stepOf i e).toNat) := by
  unfold step
  split
  · next hcr => exact ⟨h, Nat.le_refl _, .inl hcr⟩
  cases e with
  | callStart => simp only; split <;> exact ⟨⟨h.lt, h.cmd, h.pc⟩, Nat.le_refl _, .inr (by simp [stepOf])⟩
  | stop j =>
    simp only
    by_cases e : i = j
    · subst e
      refine ⟨⟨h.lt, by rw [setT_same], by rw [setT_same]; exact h.pc⟩, ?_, .inr ?_⟩ <;> rw [setT_same]
      · exact Nat.le_refl _
      · simp [stepOf]
    · refine ⟨⟨h.lt, by rw [setT_ne _ _ e]; exact h.cmd, by rw [setT_ne _ _ e]; exact h.pc⟩, ?_, .inr ?_⟩ <;>
        rw [setT_ne _ _ e]
      · exact Nat.le_refl _
      · simp [stepOf]
  | own a =>
    have hts := newThread_ts h.lt
    have hn : i < s.newThread.n := by simp only [State.newThread, State.setT]; have := h.lt; omega
    have key : ∀ s' : State, i < s'.n → s'.ts i = s.ts i → callsOf i s'.trace = callsOf i s.trace →
        Told s' i ∧ callsOf i s'.trace + left (s'.ts i).pc ≤ callsOf i s.trace + left (s.ts i).pc ∧
        (s'.crashed = true ∨ rank (s'.ts i).pc ≤ rank (s.ts i).pc - (stepOf i (.own a)).toNat) := by
      intro s' h1 h2 h3
      exact ⟨⟨h1, by rw [h2]; exact h.cmd, by rw [h2]; exact h.pc⟩, by rw [h2, h3]; exact Nat.le_refl _,
        .inr (by rw [h2]; simp [stepOf])⟩
    have hcs : ∀ p, callsOf i (s.trace ++ [Obs.startRet p]) = callsOf i s.trace := by
      intro p; simp [callsOf_append, callsOf]
    simp only [ownStep]
    split <;> try split
    all_goals apply key
    all_goals first
      | exact h.lt
      | exact hn
      | rfl
      | exact hts
      | exact hcs _
  | thread j a =>
    simp only
    by_cases e : i = j
    · subst e
      have hc := h.cmd
      have hs1 : stepOf i (.thread i a) = true := by simp [stepOf]
      simp only [hs1, Bool.toNat_true]
      have hts := newThread_ts h.lt
      have hn : i < s.newThread.n := by simp only [State.newThread, State.setT]; have := h.lt; omega
      simp only [threadStep]
      cases hp : (s.ts i).pc <;> simp only [hc, decide_false, Bool.false_and, Bool.false_eq_true, if_false, reduceCtorEq]
      case created => exact absurd hp h.pc
      case gone => exact ⟨h, by rw [hp]; exact Nat.le_refl _, .inr (by simp [hp, rank])⟩
      case addStart =>
        split
        · refine ⟨⟨hn, by rw [setT_same], by rw [setT_same]; simp⟩, ?_, .inr ?_⟩ <;> rw [setT_same]
          · exact Nat.le_refl _
          · simp [rank]
        · refine ⟨⟨h.lt, by simp only [State.log]; rw [setT_same], by simp only [State.log]; rw [setT_same]; simp⟩, ?_, .inr ?_⟩ <;> simp only [State.log] <;> rw [setT_same]
          · simp [callsOf_append, callsOf, left, State.setT]
          · simp [rank]
      case removeGet k =>
        split
        · exact ⟨⟨h.lt, h.cmd, h.pc⟩, by simp [hp], .inl rfl⟩
        · refine ⟨⟨h.lt, by rw [setT_same], by rw [setT_same]; simp only; split <;> simp⟩, ?_, .inr ?_⟩ <;> rw [setT_same]
          · simp only; split <;> exact Nat.le_refl _
          · simp only; split <;> simp [rank]
      case removeTop k =>
        refine ⟨⟨h.lt, by rw [setT_same], by rw [setT_same]; simp only; split <;> simp⟩, ?_, .inr ?_⟩ <;> rw [setT_same]
        · simp only; split <;> exact Nat.le_refl _
        · simp only; split <;> simp [rank]
      case addSize =>
        split
        · refine ⟨⟨h.lt, by simp only [State.log]; rw [setT_same], by simp only [State.log]; rw [setT_same]; simp⟩, ?_, .inr ?_⟩ <;> simp only [State.log] <;> rw [setT_same]
          · simp [callsOf_append, callsOf, left, State.setT]
          · simp [rank]
        · refine ⟨⟨h.lt, by rw [setT_same], by rw [setT_same]; simp⟩, ?_, .inr ?_⟩ <;> rw [setT_same]
          · exact Nat.le_refl _
          · simp [rank]
      all_goals
        refine ⟨⟨h.lt, ?_, ?_⟩, ?_, .inr ?_⟩
      all_goals
        try simp only [State.log]
        rw [setT_same]
      all_goals
        simp [callsOf_append, callsOf, left, State.setT, rank, State.insert]
    · have hs0 : stepOf i (.thread j a) = false := by simp [stepOf]; exact fun h => e h.symm
      simp only [hs0]
      have hts := newThread_ts h.lt
      have hn : i < s.newThread.n := by simp only [State.newThread, State.setT]; have := h.lt; omega
      simp only [threadStep]
      have key : ∀ s' : State, i < s'.n → s'.ts i = s.ts i → callsOf i s'.trace = callsOf i s.trace →
          Told s' i ∧ callsOf i s'.trace + left (s'.ts i).pc ≤ callsOf i s.trace + left (s.ts i).pc ∧
          (s'.crashed = true ∨ rank (s'.ts i).pc ≤ rank (s.ts i).pc - false.toNat) := by
        intro s' h1 h2 h3
        exact ⟨⟨h1, by rw [h2]; exact h.cmd, by rw [h2]; exact h.pc⟩, by rw [h2, h3]; exact Nat.le_refl _,
          .inr (by rw [h2]; simp)⟩
      have hce : ∀ p, callsOf i (s.trace ++ [Obs.called j p]) = callsOf i s.trace := by
        intro p; simp [callsOf_append, callsOf]; exact fun h => e h.symm
      have hcr : ∀ p, callsOf i (s.trace ++ [Obs.returned j p]) = callsOf i s.trace := by
        intro p; simp [callsOf_append, callsOf]
      have hca : ∀ p, callsOf i (s.trace ++ [Obs.addRet j p]) = callsOf i s.trace := by
        intro p; simp [callsOf_append, callsOf]
      cases hp : (s.ts j).pc <;> simp only <;> repeat' split
      all_goals apply key
      all_goals first
        | exact h.lt
        | exact hn
        | rfl
        | exact setT_ne _ _ e
        | (rw [setT_ne _ _ e]; exact hts)
        | exact hce _
        | exact hcr _
        | exact hca _

theorem crashed_step {s : State} (e : Ev) (h : s.crashed = true) : step s e = s := by simp [step, h]

theorem crashed_run {s : State} (es : List Ev) (h : s.crashed = true) : run s es = s := by
  induction es with
  | nil => rfl
  | cons e es ih => simp only [run, List.foldl_cons] at ih ⊢; rw [crashed_step e h]; exact ih

theorem told_run {s : State} {i : Nat} (h : Told s i) (es : List Ev) :
    callsOf i (run s es).trace + left ((run s es).ts i).pc ≤ callsOf i s.trace + left (s.ts i).pc ∧
      ((run s es).crashed = true ∨ rank ((run s es).ts i).pc ≤ rank (s.ts i).pc - es.countP (stepOf i)) := by
  induction es generalizing s with
  | nil => exact ⟨Nat.le_refl _, .inr (Nat.le_refl _)⟩
  | cons e es ih =>
    obtain ⟨h1, h2, h3⟩ := told_step h e
    obtain ⟨h4, h5⟩ := ih h1
    refine ⟨Nat.le_trans h4 h2, ?_⟩
    show (run (step s e) es).crashed = true ∨ rank ((run (step s e) es).ts i).pc ≤ _
    rcases h3 with h3 | h3
    · left; rw [crashed_run es h3]; exact h3
    · rcases h5 with h5 | h5
      · exact .inl h5
      · right
        rw [List.countP_cons]
        cases hb : stepOf i e <;> simp [hb] at h3 ⊢ <;> omega

theorem rank_zero {p : Pc} (h : rank p = 0) : hasLeft p = true := by cases p <;> simp [rank] at h <;> rfl

theorem rank_le (p : Pc) : rank p ≤ 9 := by cases p <;> simp [rank]

theorem left_le (p : Pc) : left p ≤ 1 := by cases p <;> simp [left]

end Verif.MultiClient
