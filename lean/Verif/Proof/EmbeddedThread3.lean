import Verif.Proof.EmbeddedThread2
set_option maxRecDepth 8000
set_option linter.unusedSimpArgs false
namespace Verif.EmbeddedThread
open Verif.Spec.EmbeddedThread

/-! ## What `Stop` answers -/

theorem late_passed (d t now : Nat) (ht : t < 2147483648) (hd : d ≤ now)
    (h : (0 : BitVec 32).slt (BitVec.ofNat 32 now - BitVec.ofNat 32 (d + t)) = true) : d + t < now := by
  rw [BitVec.slt_eq_decide] at h
  have h := of_decide_eq_true h
  simp only [BitVec.ofNat_eq_ofNat, BitVec.toInt_zero, BitVec.toInt_eq_toNat_cond, BitVec.toNat_sub, BitVec.toNat_ofNat,
    Nat.reducePow] at h
  apply Decidable.byContradiction
  intro hn
  have h2 : now ≤ d + t := by omega
  obtain ⟨k, hk⟩ : ∃ k, d + t = now + k := ⟨d + t - now, by omega⟩
  rw [hk] at h
  have hk2 : k < 2147483648 := by omega
  split at h <;> omega

/-- The deadline of a stop that was asked not before `c0`. -/
def Dl (c0 : Nat) (s : State) : Prop :=
  ∀ t, s.timeoutHRT = some t → ∃ d, c0 ≤ d ∧ d ≤ s.clock ∧ s.maxHRT = BitVec.ofNat 32 (d + t)

/-- The wait is over: the threads have ended or the time has passed. -/
def Over (c0 : Nat) (s : State) : Prop :=
  (∀ i, (s.ws i).pc = .gone) ∨ ∃ t, s.timeoutHRT = some t ∧ c0 + t < s.clock

def WaitAt (c0 : Nat) (s : State) : Prop :=
  match s.ctl with
  | .stopTime => True
  | .gId .stopWait | .gAlive .stopWait | .gReset .stopWait | .gCmd .stopWait => Dl c0 s
  | .gTime .stopWait c => c = .stop ∧ Dl c0 s
  | .gId .stopEnd | .gAlive .stopEnd | .gReset .stopEnd => Over c0 s
  | .gCmd .stopEnd | .gTime .stopEnd _ => ∃ t, s.timeoutHRT = some t ∧ c0 + t < s.clock
  | .stopReset => True
  | _ => False

structure Waiting (c0 : Nat) (T : Option Nat) (s : State) : Prop where
  inv : Inv s
  cmd : s.commands = .stop
  set : ∀ i, (s.ws i).pc ≠ .willSet
  tmo : s.timeoutHRT = T
  lim : ∀ t, s.timeoutHRT = some t → t < 2147483648
  now : c0 ≤ s.clock
  wat : WaitAt c0 s

/-- The answers allowed. -/
def Good (c0 : Nat) (T : Option Nat) (clock r : Nat) : Prop :=
  r = 0 ∨ r = 512 ∧ ∃ t, T = some t ∧ c0 + t < clock

def StopRes (c0 : Nat) (T : Option Nat) (s s' : State) : Prop :=
  ∃ t, s'.trace = s.trace ++ t ∧
    (firstStop t = none ∧ Waiting c0 T s' ∨ ∃ r, firstStop t = some r ∧ Good c0 T s'.clock r)

theorem waiting_worker {c0 : Nat} {T : Option Nat} {s : State} (h : Waiting c0 T s) (i a : Nat) :
    StopRes c0 T s (workerStep s i a) := by
  have hinv := worker_inv h.inv i a
  have ht : Told s := ⟨h.inv, .inl h.cmd, h.set, by
    have := h.wat
    unfold WaitAt at this
    split at this <;> simp_all [starting]⟩
  obtain ⟨w1, w2, w3, w4, w5, w6, w7⟩ := told_worker ht i a
  have hsame : (workerStep s i a).timeoutHRT = s.timeoutHRT ∧ (workerStep s i a).clock = s.clock ∧
      (workerStep s i a).maxHRT = s.maxHRT := by
    unfold workerStep
    cases hp : (s.ws i).pc <;> simp only [hp] <;> (try split) <;> simp [State.setW, State.log]
  obtain ⟨t1, t2, t3⟩ := hsame
  have htr : ∃ t, (workerStep s i a).trace = s.trace ++ t ∧ firstStop t = none := by
    unfold workerStep
    cases hp : (s.ws i).pc <;> simp only [hp, State.log, State.setW]
    case mainIf => split <;> exact ⟨[], by simp, rfl⟩
    all_goals first
      | exact ⟨_, rfl, rfl⟩
      | exact ⟨[], (List.append_nil _).symm, rfl⟩
  obtain ⟨t, ht1, ht2⟩ := htr
  refine ⟨t, ht1, .inl ⟨ht2, hinv, by rw [w1]; exact h.cmd, ?_, by rw [t1]; exact h.tmo, by rw [t1]; exact h.lim,
    by rw [t2]; exact h.now, ?_⟩⟩
  · intro j
    by_cases hj : j = i
    · subst hj; exact w6
    · rw [w4 j hj]; exact h.set j
  · have hwa := h.wat
    have hover : Over c0 s → Over c0 (workerStep s i a) := by
      rintro (hg | hx)
      · left
        intro j
        by_cases hj : j = i
        · subst hj
          have : rank ((workerStep s j a).ws j).pc ≤ 0 := by have := hg j; rw [this] at w5; simpa [rank] using w5
          cases hp : ((workerStep s j a).ws j).pc <;> rw [hp] at this <;> simp [rank] at this
        · rw [w4 j hj]; exact hg j
      · right; rw [t1, t2]; exact hx
    have hdl : Dl c0 s → Dl c0 (workerStep s i a) := by
      intro hd; unfold Dl; rw [t1, t2, t3]; exact hd
    unfold WaitAt at hwa ⊢
    rw [w2]
    split <;> simp_all

theorem finish_wait {c0 : Nat} {T : Option Nat} {s s' : State} (h : Waiting c0 T s) (st : Status)
    (hi : Inv (finish s' .stopWait st)) (hd : Dl c0 s)
    (e1 : s'.ws = s.ws) (e2 : s'.commands = s.commands) (e3 : s'.trace = s.trace) (e4 : s'.clock = s.clock)
    (e5 : s'.timeoutHRT = s.timeoutHRT) (e6 : s'.maxHRT = s.maxHRT)
    (hst : st = .stopping ∨ Over c0 s) : StopRes c0 T s (finish s' .stopWait st) := by
  obtain ⟨f1, f2, f3, f4, f5, f6, f7, f8, f9⟩ := finish_same s' .stopWait st
  have htr : (finish s' .stopWait st).trace = s.trace := by
    simp only [finish]; split <;> simp [State.goto, e3]
  refine ⟨[], by rw [htr]; simp, .inl ⟨rfl, hi, by rw [f3, e2]; exact h.cmd, by rw [f1, e1]; exact h.set,
    by rw [f5, e5]; exact h.tmo, by rw [f5, e5]; exact h.lim, by rw [f4, e4]; exact h.now, ?_⟩⟩
  by_cases hs : st = .stopping
  · simp only [finish, hs, if_true, WaitAt, State.goto, Dl, e4, e5, e6]; exact hd
  · have ho : Over c0 s := by rcases hst with h | h; exact absurd h hs; exact h
    simp only [finish, hs, if_false, WaitAt, State.goto, Over, e1, e4, e5]; exact ho

theorem finish_end {c0 : Nat} {T : Option Nat} {s s' : State} (h : Waiting c0 T s) (st : Status)
    (hi : Inv (finish s' .stopEnd st))
    (e1 : s'.ws = s.ws) (e2 : s'.commands = s.commands) (e3 : s'.trace = s.trace) (e4 : s'.clock = s.clock)
    (e5 : s'.timeoutHRT = s.timeoutHRT)
    (hst : st ≠ .off → ∃ t, s.timeoutHRT = some t ∧ c0 + t < s.clock) : StopRes c0 T s (finish s' .stopEnd st) := by
  obtain ⟨f1, f2, f3, f4, f5, f6, f7, f8, f9⟩ := finish_same s' .stopEnd st
  by_cases hs : st = .off
  · have htr : (finish s' .stopEnd st).trace = s.trace := by
      simp [finish, hs, State.goto, e3]
    refine ⟨[], by rw [htr]; simp, .inl ⟨rfl, hi, by rw [f3, e2]; exact h.cmd, by rw [f1, e1]; exact h.set,
      by rw [f5, e5]; exact h.tmo, by rw [f5, e5]; exact h.lim, by rw [f4, e4]; exact h.now, ?_⟩⟩
    simp [finish, hs, WaitAt, State.goto]
  · have htr : (finish s' .stopEnd st).trace = s.trace ++ [.stopRet 512] := by
      simp [finish, hs, State.goto, State.log, e3, timeout]
    refine ⟨[.stopRet 512], htr, .inr ⟨512, rfl, .inr ⟨rfl, ?_⟩⟩⟩
    rw [f4, e4, ← h.tmo]; exact hst hs

theorem waiting_ctl {c0 : Nat} {T : Option Nat} {s : State} (h : Waiting c0 T s) (a : Nat) :
    StopRes c0 T s (ctlStep s a) := by
  have hinv : Inv (ctlStep s a) := by
    refine ctl_inv h.inv a ?_
    intro j hj
    have hwa := h.wat
    unfold ctlStep at hj
    unfold WaitAt at hwa
    have hfin : ∀ (s' : State) y st, s'.trace = s.trace → (finish s' y st).trace ≠ s.trace ++ [.killed j] := by
      intro s' y st hs'
      cases y <;> simp only [finish] <;> (try split) <;> simp [State.goto, State.log, hs']
    cases hc : s.ctl with
    | gReset y => rw [hc] at hj; exact hfin _ _ _ (reset_trace s) hj
    | gId y =>
      simp only [hc] at hj
      split at hj
      · exact hfin _ _ _ rfl hj
      · simp [State.goto] at hj
    | gAlive y => simp only [hc] at hj; split at hj <;> simp [State.goto] at hj
    | gCmd y =>
      simp only [hc] at hj
      split at hj
      · exact hfin _ _ _ rfl hj
      · simp [State.goto] at hj
    | gTime y c => rw [hc] at hj; exact hfin _ _ _ rfl hj
    | stopTime => rw [hc] at hj; simp [State.goto] at hj
    | stopReset => rw [hc] at hj; simp [State.goto, State.log, reset_trace] at hj
    | _ => rw [hc] at hwa; exact hwa
  have hwa := h.wat
  have hstay : ∀ (c : CPc), ctlStep s a = s.goto c → WaitAt c0 (s.goto c) → StopRes c0 T s (ctlStep s a) := by
    intro c he hw
    rw [he] at hinv ⊢
    exact ⟨[], by simp [State.goto], .inl ⟨rfl, hinv, h.cmd, h.set, h.tmo, h.lim, h.now, hw⟩⟩
  cases hc : s.ctl with
  | stopTime =>
    have he : ctlStep s a = { s with maxHRT := s.deadline }.goto (.gId .stopWait) := by simp [ctlStep, hc]
    rw [he] at hinv ⊢
    refine ⟨[], by simp [State.goto], .inl ⟨rfl, hinv, h.cmd, h.set, h.tmo, h.lim, h.now, ?_⟩⟩
    show Dl c0 _
    intro t ht
    refine ⟨s.clock, h.now, Nat.le_refl _, ?_⟩
    have ht' : s.timeoutHRT = some t := ht
    simp only [State.goto, State.deadline, ht', State.counter, BitVec.ofNat_add]
  | stopReset =>
    have he : ctlStep s a = (s.resetThreadId.log (.stopRet 0)).goto .idle := by simp [ctlStep, hc]
    rw [he]
    exact ⟨[.stopRet 0], by simp [State.goto, State.log, reset_trace], .inr ⟨0, rfl, .inl rfl⟩⟩
  | gId y =>
    cases y <;> (unfold WaitAt at hwa; rw [hc] at hwa; simp only at hwa)
    · by_cases ht : s.threadId = none
      · have he : ctlStep s a = finish s .stopWait .off := by simp [ctlStep, hc, ht]
        rw [he] at hinv ⊢
        exact finish_wait h _ hinv hwa rfl rfl rfl rfl rfl rfl
          (.inr (.inl (none_of_tid h.inv (by rw [hc]; rfl) ht)))
      · exact hstay (.gAlive .stopWait) (by simp [ctlStep, hc, ht]) hwa
    · by_cases ht : s.threadId = none
      · have he : ctlStep s a = finish s .stopEnd .off := by simp [ctlStep, hc, ht]
        rw [he] at hinv ⊢
        exact finish_end h _ hinv rfl rfl rfl rfl rfl (by simp)
      · exact hstay (.gAlive .stopEnd) (by simp [ctlStep, hc, ht]) hwa
  | gAlive y =>
    cases y <;> (unfold WaitAt at hwa; rw [hc] at hwa; simp only at hwa)
    · by_cases ht : s.isAlive s.threadId = true
      · exact hstay (.gCmd .stopWait) (by simp [ctlStep, hc, ht]) hwa
      · exact hstay (.gReset .stopWait) (by simp [ctlStep, hc, ht]) hwa
    · by_cases ht : s.isAlive s.threadId = true
      · refine hstay (.gCmd .stopEnd) (by simp [ctlStep, hc, ht]) ?_
        rcases hwa with hg | hx
        · have := (alive_iff h.inv (by rw [hc]; rfl)).2 hg
          rw [this] at ht; simp at ht
        · exact hx
      · exact hstay (.gReset .stopEnd) (by simp [ctlStep, hc, ht]) hwa
  | gReset y =>
    have hg := h.inv.none (by rw [hc]; rfl)
    obtain ⟨r1, r2, r3, r4, r5, r6, r7, r8⟩ := reset_same s
    cases y <;> (unfold WaitAt at hwa; rw [hc] at hwa; simp only at hwa)
    · have he : ctlStep s a = finish s.resetThreadId .stopWait .off := by simp [ctlStep, hc]
      rw [he] at hinv ⊢
      exact finish_wait h _ hinv hwa r1 r3 r5 r6 r7 r8 (.inr (.inl hg))
    · have he : ctlStep s a = finish s.resetThreadId .stopEnd .off := by simp [ctlStep, hc]
      rw [he] at hinv ⊢
      exact finish_end h _ hinv r1 r3 r5 r6 r7 (by simp)
  | gCmd y =>
    have hcmd := h.cmd
    cases y <;> (unfold WaitAt at hwa; rw [hc] at hwa; simp only at hwa)
    · exact hstay (.gTime .stopWait .stop) (by simp [ctlStep, hc, hcmd]) ⟨rfl, hwa⟩
    · exact hstay (.gTime .stopEnd .stop) (by simp [ctlStep, hc, hcmd]) hwa
  | gTime y c =>
    cases y <;> (unfold WaitAt at hwa; rw [hc] at hwa; simp only at hwa)
    · obtain ⟨rfl, hd⟩ := hwa
      cases hl : s.late with
      | false =>
        have he : ctlStep s a = finish s .stopWait .stopping := by simp [ctlStep, hc, hl]
        rw [he] at hinv ⊢
        exact finish_wait h _ hinv hd rfl rfl rfl rfl rfl rfl (.inl rfl)
      | true =>
        have he : ctlStep s a = finish s .stopWait .timeoutStopping := by simp [ctlStep, hc, hl]
        rw [he] at hinv ⊢
        refine finish_wait h _ hinv hd rfl rfl rfl rfl rfl rfl (.inr (.inr ?_))
        unfold State.late at hl
        simp only [Bool.and_eq_true] at hl
        obtain ⟨hl1, hl2⟩ := hl
        obtain ⟨t, ht⟩ := Option.isSome_iff_exists.1 hl2
        obtain ⟨d, hd1, hd2, hd3⟩ := hd t ht
        rw [hd3, State.counter] at hl1
        have := late_passed d t s.clock (h.lim t ht) hd2 hl1
        exact ⟨t, ht, by omega⟩
    · have he : ∃ st, ctlStep s a = finish s .stopEnd st := ⟨_, by simp only [ctlStep, hc]; rfl⟩
      obtain ⟨st, he⟩ := he
      rw [he] at hinv ⊢
      refine finish_end h _ hinv rfl rfl rfl rfl rfl (fun _ => hwa)
  | _ => unfold WaitAt at hwa; rw [hc] at hwa; exact hwa.elim

theorem firstStop_append (a b : List Obs) :
    firstStop (a ++ b) = match firstStop a with | none => firstStop b | some r => some r := by
  simp only [firstStop, List.findSome?_append]
  generalize List.findSome? _ a = x
  cases x <;> rfl

theorem step_clock (s : State) (e : Ev) : s.clock ≤ (step s e).clock := by
  unfold step
  split
  · exact Nat.le_refl _
  · cases e with
    | tick n => simp
    | ctl a =>
      simp only
      unfold ctlStep
      have hf : ∀ (s' : State) y st, (finish s' y st).clock = s'.clock := fun s' y st => (finish_same s' y st).2.2.2.1
      have hr : s.resetThreadId.clock = s.clock := (reset_same s).2.2.2.2.2.1
      cases hc : s.ctl <;> simp only [killThread] <;> (repeat' split) <;>
        simp [State.goto, State.log, State.setW, hf, hr]
    | worker i a =>
      simp only
      unfold workerStep
      cases hp : (s.ws i).pc <;> simp only [hp] <;> (try split) <;> simp [State.setW, State.log]
    | _ => simp only; split <;> simp [State.goto, State.log, State.setW]

theorem run_clock (s : State) (es : List Ev) : s.clock ≤ (run s es).clock := by
  induction es generalizing s with
  | nil => exact Nat.le_refl _
  | cons e es ih => exact Nat.le_trans (step_clock s e) (ih (step s e))

theorem waiting_step {c0 : Nat} {T : Option Nat} {s : State} (h : Waiting c0 T s) (e : Ev) :
    StopRes c0 T s (step s e) := by
  have hc : s.ctl ≠ .idle := by
    intro hc
    have := h.wat
    unfold WaitAt at this
    rw [hc] at this
    exact this
  have hsame : StopRes c0 T s s := ⟨[], by simp, .inl ⟨rfl, h⟩⟩
  unfold step
  rw [if_neg (by rw [h.inv.ok]; simp)]
  cases e with
  | tick n =>
    refine ⟨[], by simp, .inl ⟨rfl, ?_⟩⟩
    obtain ⟨h1, h2, h3, h4, h5, h6, h7⟩ := h
    refine ⟨?_, h2, h3, h4, h5, by simp; omega, ?_⟩
    · obtain ⟨h1, h2, h3, h4, h5, h6, h7, h8, h9⟩ := h1
      exact ⟨h1, h2, h3, h4, h5, h6, h7, h8, h9⟩
    · have hd : Dl c0 s → Dl c0 { s with clock := s.clock + n } := by
        intro hd t ht
        obtain ⟨d, d1, d2, d3⟩ := hd t ht
        exact ⟨d, d1, by simp; omega, d3⟩
      have hp : (∃ t, s.timeoutHRT = some t ∧ c0 + t < s.clock) → ∃ t, s.timeoutHRT = some t ∧ c0 + t < s.clock + n := by
        rintro ⟨t, t1, t2⟩; exact ⟨t, t1, by omega⟩
      have ho : Over c0 s → Over c0 { s with clock := s.clock + n } := by
        rintro (hg | hx)
        · exact .inl hg
        · exact .inr (hp hx)
      unfold WaitAt at h7 ⊢
      simp only
      split <;> simp_all
  | ctl a => exact waiting_ctl h a
  | worker i a => exact waiting_worker h i a
  | cancel i => simp only [h.inv.canc i]; exact hsame
  | _ => simp only [if_neg hc]; exact hsame

theorem waiting_run {c0 : Nat} {T : Option Nat} {s : State} (h : Waiting c0 T s) (es : List Ev) :
    StopRes c0 T s (run s es) := by
  induction es generalizing s with
  | nil => exact ⟨[], by simp [run], .inl ⟨rfl, h⟩⟩
  | cons e es ih =>
    rw [run_cons]
    obtain ⟨t, ht, hr⟩ := waiting_step h e
    rcases hr with ⟨hn, hw⟩ | ⟨r, hr, hg⟩
    · obtain ⟨t', ht', hr'⟩ := ih hw
      refine ⟨t ++ t', by rw [ht', ht, List.append_assoc], ?_⟩
      rw [firstStop_append, hn]
      exact hr'
    · obtain ⟨t', ht'⟩ := run_trace (step s e) es
      refine ⟨t ++ t', by rw [ht', ht, List.append_assoc], .inr ⟨r, by rw [firstStop_append, hr], ?_⟩⟩
      rcases hg with h0 | ⟨h1, t, h2, h3⟩
      · exact .inl h0
      · exact .inr ⟨h1, t, h2, Nat.lt_of_lt_of_le h3 (run_clock _ _)⟩

/-! ## `Stop` returns -/

/-- Steps left to the owner when the threads have ended. -/
def crank : CPc → Nat
  | .stopTime => 12
  | .gCmd .stopWait => 11
  | .gTime .stopWait _ => 10
  | .gId .stopWait => 9
  | .gAlive .stopWait => 8
  | .gReset .stopWait => 7
  | .gId .stopEnd => 6
  | .gAlive .stopEnd => 5
  | .gReset .stopEnd => 4
  | .gCmd .stopEnd => 3
  | .gTime .stopEnd _ => 2
  | .stopReset => 1
  | _ => 0

theorem crank_pos {c0 : Nat} {T : Option Nat} {s : State} (h : Waiting c0 T s) : 0 < crank s.ctl := by
  have := h.wat
  unfold WaitAt at this
  cases hc : s.ctl with
  | gId y => cases y <;> simp_all [crank]
  | gAlive y => cases y <;> simp_all [crank]
  | gReset y => cases y <;> simp_all [crank]
  | gCmd y => cases y <;> simp_all [crank]
  | gTime y c => cases y <;> simp_all [crank]
  | stopTime => simp [crank]
  | stopReset => simp [crank]
  | _ => rw [hc] at this; exact this.elim

theorem gone_step {c0 : Nat} {T : Option Nat} {s : State} (h : Waiting c0 T s) (hg : ∀ i, (s.ws i).pc = .gone) (e : Ev) :
    (∀ i, ((step s e).ws i).pc = .gone) ∧
      ((∃ t r, (step s e).trace = s.trace ++ t ∧ firstStop t = some r) ∨
        crank (step s e).ctl + (if ownStep e then 1 else 0) ≤ crank s.ctl) := by
  have hwa := h.wat
  have hidle : s.ctl ≠ .idle := by
    intro hc
    unfold WaitAt at hwa
    rw [hc] at hwa
    exact hwa
  unfold step
  rw [if_neg (by rw [h.inv.ok]; simp)]
  cases e with
  | tick n => exact ⟨hg, .inr (by simp [ownStep])⟩
  | cancel i => simp only [h.inv.canc i]; exact ⟨hg, .inr (by simp [ownStep])⟩
  | worker i a =>
    have : workerStep s i a = s := by unfold workerStep; simp only [hg i]
    simp only [this]
    exact ⟨hg, .inr (by simp [ownStep])⟩
  | ctl a =>
    simp only [ownStep, if_true]
    obtain ⟨r1, r2, r3, r4, r5, r6, r7, r8⟩ := reset_same s
    unfold WaitAt at hwa
    unfold ctlStep
    cases hc : s.ctl with
    | stopTime => exact ⟨hg, .inr (by simp [State.goto, crank])⟩
    | stopReset =>
      exact ⟨by simp only [State.goto, State.log, r1]; exact hg, .inl ⟨[.stopRet 0], 0, by simp [State.goto, State.log, r5], rfl⟩⟩
    | gId y =>
      cases y <;> (rw [hc] at hwa; simp only at hwa)
      · simp only
        split <;> exact ⟨hg, .inr (by simp [State.goto, crank, finish])⟩
      · simp only
        split <;> exact ⟨hg, .inr (by simp [State.goto, crank, finish])⟩
    | gAlive y =>
      have ha := (alive_iff h.inv (by rw [hc]; rfl)).2 hg
      cases y <;> (rw [hc] at hwa; simp only at hwa)
      · simp only [ha]
        exact ⟨hg, .inr (by simp [State.goto, crank, finish])⟩
      · simp only [ha]
        exact ⟨hg, .inr (by simp [State.goto, crank, finish])⟩
    | gReset y =>
      cases y <;> (rw [hc] at hwa; simp only at hwa)
      · exact ⟨by simp [finish, State.goto, r1, hg], .inr (by simp [State.goto, crank, finish])⟩
      · exact ⟨by simp [finish, State.goto, r1, hg], .inr (by simp [State.goto, crank, finish])⟩
    | gCmd y =>
      cases y <;> (rw [hc] at hwa; simp only at hwa)
      · simp only [h.cmd]
        exact ⟨hg, .inr (by simp [State.goto, crank, finish])⟩
      · simp only [h.cmd]
        exact ⟨hg, .inr (by simp [State.goto, crank, finish])⟩
    | gTime y c =>
      cases y <;> (rw [hc] at hwa; simp only at hwa)
      · simp only [finish]
        split <;> exact ⟨hg, .inr (by simp [State.goto, crank])⟩
      · have key : ∀ st, (∀ i, ((finish s .stopEnd st).ws i).pc = .gone) ∧
            ((∃ t r, (finish s .stopEnd st).trace = s.trace ++ t ∧ firstStop t = some r) ∨
              crank (finish s .stopEnd st).ctl + 1 ≤ crank (CPc.gTime .stopEnd c)) := by
          intro st
          simp only [finish]
          split
          · exact ⟨hg, .inl ⟨[.stopRet 512], 512, by simp [State.goto, State.log, timeout], rfl⟩⟩
          · exact ⟨hg, .inr (by simp [State.goto, crank])⟩
        exact key _
    | _ => rw [hc] at hwa; exact hwa.elim
  | _ => simp only [if_neg hidle]; exact ⟨hg, .inr (by simp [ownStep])⟩

theorem gone_run {c0 : Nat} {T : Option Nat} {s : State} (h : Waiting c0 T s) (hg : ∀ i, (s.ws i).pc = .gone)
    (es : List Ev) (hn : crank s.ctl ≤ es.countP ownStep) :
    ∃ t r, (run s es).trace = s.trace ++ t ∧ firstStop t = some r := by
  induction es generalizing s with
  | nil => have := crank_pos h; simp at hn; omega
  | cons e es ih =>
    rw [run_cons]
    obtain ⟨g1, g2⟩ := gone_step h hg e
    have hdone : (∃ t r, (step s e).trace = s.trace ++ t ∧ firstStop t = some r) →
        ∃ t r, (run (step s e) es).trace = s.trace ++ t ∧ firstStop t = some r := by
      rintro ⟨t, r, h1, h2⟩
      obtain ⟨t', ht'⟩ := run_trace (step s e) es
      exact ⟨t ++ t', r, by rw [ht', h1, List.append_assoc], by rw [firstStop_append, h2]⟩
    rcases g2 with g2 | g2
    · exact hdone g2
    · obtain ⟨t, ht, hr⟩ := waiting_step h e
      rcases hr with ⟨hn', hw⟩ | ⟨r, hr, _⟩
      · rw [List.countP_cons] at hn
        obtain ⟨t', r, h1, h2⟩ := ih hw g1 (by omega)
        exact ⟨t ++ t', r, by rw [h1, ht, List.append_assoc], by rw [firstStop_append, hn', h2]⟩
      · exact hdone ⟨t, r, ht, hr⟩

/-! ## Timeouts are limited -/

theorem step_tmo (s : State) (e : Ev) : (step s e).timeoutHRT = s.timeoutHRT ∨ ∃ t, (step s e).timeoutHRT = clip t := by
  unfold step
  split
  · exact .inl rfl
  · cases e with
    | ctl a =>
      left
      simp only
      unfold ctlStep
      have hf : ∀ (s' : State) y st, (finish s' y st).timeoutHRT = s'.timeoutHRT := fun s' y st => (finish_same s' y st).2.2.2.2.1
      have hr : s.resetThreadId.timeoutHRT = s.timeoutHRT := (reset_same s).2.2.2.2.2.2.1
      cases hc : s.ctl <;> simp only [killThread] <;> (repeat' split) <;>
        simp [State.goto, State.log, State.setW, hf, hr]
    | worker i a =>
      left
      simp only
      unfold workerStep
      cases hp : (s.ws i).pc <;> simp only [hp] <;> (try split) <;> simp [State.setW, State.log]
    | tick n => exact .inl rfl
    | setTimeout t =>
      simp only
      split
      · exact .inr ⟨t, rfl⟩
      · exact .inl rfl
    | _ => left; simp only; split <;> rfl

theorem run_lim {s : State} (h : ∀ t, s.timeoutHRT = some t → t < 2147483648) (es : List Ev) :
    ∀ t, (run s es).timeoutHRT = some t → t < 2147483648 := by
  induction es generalizing s with
  | nil => exact h
  | cons e es ih =>
    rw [run_cons]
    refine ih ?_
    intro t ht
    rcases step_tmo s e with hs | ⟨t', hs⟩
    · exact h t (by rw [← hs]; exact ht)
    · rw [hs] at ht
      cases t' with
      | none => simp [clip] at ht
      | some x =>
        simp only [clip, Option.map_some, Option.some.injEq] at ht
        split at ht <;> omega

end Verif.EmbeddedThread
