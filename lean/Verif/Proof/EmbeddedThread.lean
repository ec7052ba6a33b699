import Verif.Model.EmbeddedThread
import Verif.Spec.EmbeddedThread
set_option maxRecDepth 8000
set_option linter.unusedSimpArgs false
namespace Verif.EmbeddedThread
open Verif.Spec.EmbeddedThread

theorem completed_iff (a : Nat) : completed a = isCompleted a := by
  simp [completed, isCompleted, Nat.testBit_eq_decide_div_mod_eq]

/-- What the place of the last thread says about the life of the callback. -/
def At (i : Nat) (w : W) (stage : Stage) (l : Life) : Prop :=
  match w.pc with
  | .gone | .created | .willSet | .outer | .setId | .startupCall | .exiting => l = .off
  | .startupIn => l = .startupIn i
  | .mainIf => l = .startupDone i w.err
  | .mainWhile ok => stage = .main ∧ ((l = .startupDone i w.err ∧ ok = true) ∨ (l = .mainDone i w.err ∧ ok = (w.err == 0)))
  | .mainCall => stage = .main ∧ (l = .startupDone i w.err ∨ (l = .mainDone i w.err ∧ w.err = 0))
  | .mainIn => stage = .main ∧ l = .mainIn i
  | .endCall => l = .startupDone i w.err ∨ l = .mainDone i w.err
  | .endIn => l = .endIn i

/-- The places of the owner where no thread can be alive. -/
def noneLive : CPc → Bool
  | .gReset _ | .startAlive | .startCmd | .startTime | .startBegin | .startId none | .stopReset
  | .asyncCall _ | .asyncIn _ | .killReset _ => true
  | _ => false

/-- The places of the owner inside `Start`. -/
def starting : CPc → Bool
  | .gId .start | .gAlive .start | .gReset .start | .gCmd .start | .gTime .start _
  | .startAlive | .startCmd | .startTime | .startBegin | .startId _ => true
  | _ => false

def assigning : CPc → Bool
  | .startId (some _) => true
  | _ => false

structure Inv (s : State) : Prop where
  ok : s.crashed = false
  old : ∀ i, i + 1 ≠ s.n → (s.ws i).pc = .gone
  canc : ∀ i, (s.ws i).cancelled = false
  db : ∀ i, (s.ws i).inDb = true ↔ (s.ws i).pc ≠ .gone
  tid : assigning s.ctl = false → ∀ i, (s.ws i).pc ≠ .gone → s.threadId = some i
  sid : ∀ w, s.ctl = .startId (some w) → w + 1 = s.n
  none : noneLive s.ctl = true → ∀ i, (s.ws i).pc = .gone
  life : ∃ l, life s.trace = some l ∧ (s.n = 0 → l = .off) ∧ ∀ i, i + 1 = s.n → At i (s.ws i) s.stage l
  quiet : ∃ b, quiet s.trace = some b ∧
    (b = true → starting s.ctl = false ∧ ∀ i, (s.ws i).pc = .gone)

theorem inv_init (c : Nat) : Inv (init c) := by
  refine ⟨rfl, ?_, ?_, ?_, ?_, ?_, ?_, ⟨.off, rfl, fun _ => rfl, ?_⟩, ⟨false, rfl, by simp⟩⟩ <;> simp [init, W.none, At]

theorem life_snoc (tr : List Obs) (o : Obs) : life (tr ++ [o]) = (life tr).bind (next · o) := by
  simp [life, List.foldlM_append]

theorem quiet_snoc (tr : List Obs) (o : Obs) : quiet (tr ++ [o]) = (quiet tr).bind (quietNext · o) := by
  simp [quiet, List.foldlM_append]

/-- An observation that is neither a call nor a return. -/
def silent : Obs → Bool
  | .called _ _ | .returned _ _ => false
  | _ => true

theorem next_silent (l : Life) (o : Obs) (h : silent o = true) : next l o = some l := by
  cases o <;> simp [silent] at h <;> cases l <;> rfl

/-- What an observation says about being off. -/
def setq : Obs → Option Bool
  | .stopRet 0 => some true
  | .statusRet .off => some true
  | .startCall => some false
  | _ => none

theorem quietNext_silent (b : Bool) (o : Obs) (h : silent o = true) : quietNext b o = some ((setq o).getD b) := by
  unfold setq
  split <;> simp_all [quietNext, silent]
  cases o <;> simp at h <;> cases b <;> simp_all [quietNext]

/-- Steps of the owner that do not touch the threads. -/
theorem inv_ctl {s s' : State} (h : Inv s) (hc : s'.crashed = s.crashed) (hn : s'.n = s.n) (hw : s'.ws = s.ws)
    (hst : s'.stage = s.stage) (ht : assigning s'.ctl = false)
    (htid : ∀ i, (s.ws i).pc ≠ .gone → s'.threadId = some i)
    (hnone : noneLive s'.ctl = true → ∀ i, (s.ws i).pc = .gone)
    (htr : s'.trace = s.trace ∧ (starting s'.ctl = true → starting s.ctl = true) ∨
      ∃ o, s'.trace = s.trace ++ [o] ∧ silent o = true ∧ (starting s'.ctl = true → setq o = some false) ∧
         (setq o = some true → ∀ i, (s.ws i).pc = .gone)) : Inv s' := by
  obtain ⟨h1, h2, h3, h4, h5, h6, h7, ⟨l, hl, hl0, hl1⟩, ⟨b, hb, hb1⟩⟩ := h
  refine ⟨by rw [hc, h1], by rw [hn, hw]; exact h2, by rw [hw]; exact h3, by rw [hw]; exact h4, ?_, ?_, by rw [hw]; exact hnone,
    ?_, ?_⟩
  · intro _; rw [hw]; exact htid
  · intro w hw'; rw [hw'] at ht; simp [assigning] at ht
  · rcases htr with ⟨htr, _⟩ | ⟨o, htr, ho, _⟩
    · exact ⟨l, by rw [htr]; exact hl, by rw [hn]; exact hl0, by rw [hn, hw, hst]; exact hl1⟩
    · exact ⟨l, by rw [htr, life_snoc, hl]; exact next_silent l o ho, by rw [hn]; exact hl0, by rw [hn, hw, hst]; exact hl1⟩
  · rcases htr with ⟨htr, h8⟩ | ⟨o, htr, ho, h9, h10⟩
    · refine ⟨b, by rw [htr]; exact hb, fun hbt => ?_⟩
      obtain ⟨hx, hy⟩ := hb1 hbt
      refine ⟨?_, by rw [hw]; exact hy⟩
      cases hs : starting s'.ctl with
      | false => rfl
      | true => rw [h8 hs] at hx; simp at hx
    · refine ⟨(setq o).getD b, by rw [htr, quiet_snoc, hb]; exact quietNext_silent b o ho, fun hbt => ?_⟩
      have h11 : ∀ i, (s.ws i).pc = .gone := by
        cases hq : setq o with
        | none => rw [hq] at hbt; exact (hb1 hbt).2
        | some v => rw [hq] at hbt; simp at hbt; exact h10 (by rw [hq, hbt])
      refine ⟨?_, by rw [hw]; exact h11⟩
      cases hs : starting s'.ctl with
      | false => rfl
      | true => rw [h9 hs] at hbt; simp at hbt

/-- The reason of a call of `GetStatus`. -/
def whyOf : CPc → Option Why
  | .gId y | .gAlive y | .gReset y | .gCmd y | .gTime y _ => some y
  | _ => none

theorem finish_inv {s : State} (h : Inv s) (y : Why) (st : Status) (hy : whyOf s.ctl = some y)
    (hoff : st = .off → ∀ i, (s.ws i).pc = .gone) : Inv (finish s y st) := by
  have ha : assigning s.ctl = false := by
    cases hc : s.ctl <;> rw [hc] at hy <;> simp [whyOf] at hy <;> rfl
  have hstart : y = .start → starting s.ctl = true := by
    intro hy'; subst hy'
    cases hc : s.ctl <;> rw [hc] at hy <;> simp [whyOf] at hy <;> subst hy <;> rfl
  have ht := h.tid ha
  cases y <;> simp only [finish]
  · exact inv_ctl h rfl rfl rfl rfl rfl ht (by simp [State.goto, State.log, noneLive])
      (.inr ⟨_, rfl, rfl, by simp [State.goto, starting], by cases st <;> simp [setq]; exact hoff rfl⟩)
  · split
    · exact inv_ctl h rfl rfl rfl rfl rfl ht (by simp [State.goto, State.log, noneLive])
        (.inr ⟨_, rfl, rfl, by simp [State.goto, starting], by simp [setq, illegalOperation]⟩)
    · rename_i h'
      exact inv_ctl h rfl rfl rfl rfl rfl ht (fun _ => hoff (by simpa using h')) (.inl ⟨rfl, fun _ => hstart rfl⟩)
  · cases st <;> simp only
    · exact inv_ctl h rfl rfl rfl rfl rfl ht (by simp [State.goto, State.log, noneLive])
        (.inr ⟨_, rfl, rfl, by simp [State.goto, starting], fun _ => hoff rfl⟩)
    all_goals first
      | exact inv_ctl h rfl rfl rfl rfl rfl ht (by simp [State.goto, State.log, noneLive])
          (.inr ⟨_, rfl, rfl, by simp [State.goto, starting], by simp [setq, illegalOperation]⟩)
      | exact inv_ctl h rfl rfl rfl rfl rfl ht (by simp [State.goto, State.log, noneLive])
          (.inl ⟨rfl, by simp [State.goto, starting]⟩)
  · split <;> exact inv_ctl h rfl rfl rfl rfl rfl ht (by simp [State.goto, State.log, noneLive])
          (.inl ⟨rfl, by simp [State.goto, starting]⟩)
  · split
    · exact inv_ctl h rfl rfl rfl rfl rfl ht (by simp [State.goto, State.log, noneLive])
        (.inr ⟨_, rfl, rfl, by simp [State.goto, starting], by simp [setq, timeout]⟩)
    · rename_i h'
      exact inv_ctl h rfl rfl rfl rfl rfl ht (fun _ => hoff (by simpa using h'))
          (.inl ⟨rfl, by simp [State.goto, starting]⟩)
  · split <;> exact inv_ctl h rfl rfl rfl rfl rfl ht (by simp [State.goto, State.log, noneLive])
          (.inl ⟨rfl, by simp [State.goto, starting]⟩)
  · split
    · exact inv_ctl h rfl rfl rfl rfl rfl ht (by simp [State.goto, State.log, noneLive])
          (.inl ⟨rfl, by simp [State.goto, starting]⟩)
    · rename_i h'
      exact inv_ctl h rfl rfl rfl rfl rfl ht (fun _ => hoff (by simpa using h'))
          (.inl ⟨rfl, by simp [State.goto, starting]⟩)

theorem alive_iff {s : State} (h : Inv s) (ha : assigning s.ctl = false) :
    s.isAlive s.threadId = false ↔ ∀ i, (s.ws i).pc = .gone := by
  constructor
  · intro hf i
    cases hp : decide ((s.ws i).pc = .gone) with
    | true => exact of_decide_eq_true hp
    | false =>
      have hp := of_decide_eq_false hp
      rw [h.tid ha i hp] at hf
      simp only [State.isAlive] at hf
      have := (h.db i).2 hp
      rw [hf] at this; simp at this
  · intro hg
    cases ht : s.threadId with
    | none => rfl
    | some j =>
      simp only [State.isAlive]
      cases hd : (s.ws j).inDb with
      | false => rfl
      | true => exact absurd (hg j) ((h.db j).1 hd)

theorem none_of_tid {s : State} (h : Inv s) (ha : assigning s.ctl = false) (ht : s.threadId = none) :
    ∀ i, (s.ws i).pc = .gone := (alive_iff h ha).1 (by rw [ht]; rfl)

theorem reset_inv {s : State} (h : Inv s) (ha : assigning s.ctl = false) : Inv s.resetThreadId := by
  unfold State.resetThreadId
  split
  · exact h
  · rename_i hf
    have hg := (alive_iff h ha).1 (by simpa using hf)
    exact inv_ctl h rfl rfl rfl rfl ha (fun i hi => absurd (hg i) hi) (fun _ => hg) (.inl ⟨rfl, fun h => h⟩)

theorem ctl_inv {s : State} (h : Inv s) (a : Nat) (hk : ∀ j, (ctlStep s a).trace ≠ s.trace ++ [.killed j]) : Inv (ctlStep s a) := by
  unfold ctlStep at hk ⊢
  cases hc : s.ctl with
  | idle => simpa [hc] using h
  | gId y =>
    simp only
    have ha : assigning s.ctl = false := by rw [hc]; rfl
    split
    · exact finish_inv h y _ (by rw [hc]; rfl) (fun _ => none_of_tid h ha (by assumption))
    · exact inv_ctl h rfl rfl rfl rfl rfl (h.tid ha) (by simp [State.goto, noneLive])
        (.inl ⟨rfl, by rw [hc]; cases y <;> simp [State.goto, starting]⟩)
  | gAlive y =>
    simp only
    have ha : assigning s.ctl = false := by rw [hc]; rfl
    split
    · exact inv_ctl h rfl rfl rfl rfl rfl (h.tid ha) (by simp [State.goto, noneLive])
        (.inl ⟨rfl, by rw [hc]; cases y <;> simp [State.goto, starting]⟩)
    · rename_i hf
      exact inv_ctl h rfl rfl rfl rfl rfl (h.tid ha) (fun _ => (alive_iff h ha).1 (by simpa using hf))
        (.inl ⟨rfl, by rw [hc]; cases y <;> simp [State.goto, starting]⟩)
  | gReset y =>
    simp only
    have ha : assigning s.ctl = false := by rw [hc]; rfl
    have hr := reset_inv h ha
    have hc' : s.resetThreadId.ctl = s.ctl := by unfold State.resetThreadId; split <;> rfl
    exact finish_inv hr y _ (by rw [hc', hc]; rfl) (fun _ => hr.none (by rw [hc', hc]; rfl))
  | gCmd y =>
    simp only
    have ha : assigning s.ctl = false := by rw [hc]; rfl
    split
    · exact finish_inv h y _ (by rw [hc]; rfl) (by simp)
    · exact inv_ctl h rfl rfl rfl rfl rfl (h.tid ha) (by simp [State.goto, noneLive])
        (.inl ⟨rfl, by rw [hc]; cases y <;> simp [State.goto, starting]⟩)
  | gTime y c =>
    simp only
    refine finish_inv h y _ (by rw [hc]; rfl) ?_
    split <;> simp
  | startAlive =>
    simp only
    have ha : assigning s.ctl = false := by rw [hc]; rfl
    have hg := h.none (by rw [hc]; rfl)
    split
    · exact inv_ctl h rfl rfl rfl rfl rfl (h.tid ha) (by simp [State.goto, noneLive])
        (.inr ⟨_, rfl, rfl, by simp [State.goto, starting], by simp [setq, illegalOperation]⟩)
    · exact inv_ctl h rfl rfl rfl rfl rfl (h.tid ha) (fun _ => hg)
        (.inl ⟨rfl, by rw [hc]; simp [State.goto, starting]⟩)
  | startCmd =>
    have ha : assigning s.ctl = false := by rw [hc]; rfl
    exact inv_ctl h rfl rfl rfl rfl rfl (h.tid ha) (fun _ => h.none (by rw [hc]; rfl))
        (.inl ⟨rfl, by rw [hc]; simp [State.goto, starting]⟩)
  | startTime =>
    have ha : assigning s.ctl = false := by rw [hc]; rfl
    exact inv_ctl h rfl rfl rfl rfl rfl (h.tid ha) (fun _ => h.none (by rw [hc]; rfl))
        (.inl ⟨rfl, by rw [hc]; simp [State.goto, starting]⟩)
  | startBegin =>
    simp only
    have ha : assigning s.ctl = false := by rw [hc]; rfl
    have hg := h.none (by rw [hc]; rfl)
    split
    · obtain ⟨h1, h2, h3, h4, h5, h6, h7, ⟨l, hl, hl0, hl1⟩, ⟨b, hb, hb1⟩⟩ := h
      have hoff : l = .off := by
        rcases Nat.eq_zero_or_pos s.n with h0 | h0
        · exact hl0 h0
        · have := hl1 (s.n - 1) (by omega)
          simpa [At, hg (s.n - 1)] using this
      refine ⟨h1, ?_, ?_, ?_, ?_, ?_, ?_, ⟨l, hl, ?_, ?_⟩, ⟨b, hb, ?_⟩⟩
      · intro i hi
        simp only [State.goto, State.setW] at hi ⊢
        rw [if_neg (by omega)]; exact hg i
      · intro i
        simp only [State.goto, State.setW]
        split
        · rfl
        · exact h3 i
      · intro i
        simp only [State.goto, State.setW]
        split
        · simp
        · exact h4 i
      · simp [State.goto, assigning]
      · intro w hw
        simp only [State.goto, State.setW, CPc.startId.injEq, Option.some.injEq] at hw ⊢
        omega
      · simp [State.goto, noneLive]
      · intro h0; simp [State.goto, State.setW] at h0
      · intro i hi
        simp only [State.goto, State.setW] at hi ⊢
        rw [if_pos (by omega)]; exact hoff
      · intro hbt
        have := (hb1 hbt).1
        rw [hc] at this; simp [starting] at this
    · exact inv_ctl h rfl rfl rfl rfl rfl (h.tid ha) (fun _ => hg)
        (.inl ⟨rfl, by rw [hc]; simp [State.goto, starting]⟩)
  | startId w =>
    refine inv_ctl h rfl rfl rfl rfl rfl ?_ (by simp [State.goto, noneLive])
        (.inr ⟨_, rfl, rfl, by simp [State.goto, starting], by simp [setq]⟩)
    intro i hi
    cases w with
    | none => exact absurd (h.none (by rw [hc]; rfl) i) hi
    | some w =>
      have hw := h.sid w hc
      have : i + 1 = s.n := Decidable.byContradiction fun hx => hi (h.old i hx)
      simp only [State.goto, State.log, Option.some.injEq]; omega
  | stopCmd =>
    have ha : assigning s.ctl = false := by rw [hc]; rfl
    exact inv_ctl h rfl rfl rfl rfl rfl (h.tid ha) (by simp [State.goto, noneLive])
        (.inl ⟨rfl, by simp [State.goto, starting]⟩)
  | stopTime =>
    have ha : assigning s.ctl = false := by rw [hc]; rfl
    exact inv_ctl h rfl rfl rfl rfl rfl (h.tid ha) (by simp [State.goto, noneLive])
        (.inl ⟨rfl, by simp [State.goto, starting]⟩)
  | stopReset =>
    have ha : assigning s.ctl = false := by rw [hc]; rfl
    have hg := h.none (by rw [hc]; rfl)
    have hr := reset_inv h ha
    have hc' : s.resetThreadId.ctl = s.ctl := by unfold State.resetThreadId; split <;> rfl
    have hg' : ∀ i, (s.resetThreadId.ws i).pc = .gone := hr.none (by rw [hc', hc]; rfl)
    exact inv_ctl hr rfl rfl rfl rfl rfl (fun i hi => absurd (hg' i) hi) (by simp [State.goto, noneLive])
        (.inr ⟨_, rfl, rfl, by simp [State.goto, starting], fun _ => hg'⟩)
  | killCmd =>
    have ha : assigning s.ctl = false := by rw [hc]; rfl
    exact inv_ctl h rfl rfl rfl rfl rfl (h.tid ha) (by simp [State.goto, noneLive])
        (.inl ⟨rfl, by simp [State.goto, starting]⟩)
  | killTime =>
    have ha : assigning s.ctl = false := by rw [hc]; rfl
    exact inv_ctl h rfl rfl rfl rfl rfl (h.tid ha) (by simp [State.goto, noneLive])
        (.inl ⟨rfl, by simp [State.goto, starting]⟩)
  | killThread =>
    have ha : assigning s.ctl = false := by rw [hc]; rfl
    simp only [hc] at hk
    simp only [killThread] at hk ⊢
    cases ht : s.threadId with
    | none =>
      exact inv_ctl h rfl rfl rfl rfl rfl (h.tid ha) (fun _ => none_of_tid h ha ht)
        (.inl ⟨rfl, by simp [State.goto, starting]⟩)
    | some j =>
      simp only [ht] at hk ⊢
      split
      · rename_i hd
        rw [if_pos hd] at hk
        exact absurd (by simp [State.goto, State.log, State.setW]) (hk j)
      · rename_i hd
        exact inv_ctl h rfl rfl rfl rfl rfl (h.tid ha)
          (fun _ => (alive_iff h ha).1 (by rw [ht]; simpa [State.isAlive] using hd))
          (.inl ⟨rfl, by simp [State.goto, starting]⟩)
  | asyncCall e =>
    have ha : assigning s.ctl = false := by rw [hc]; rfl
    exact inv_ctl h rfl rfl rfl rfl rfl (h.tid ha) (fun _ => h.none (by rw [hc]; rfl))
        (.inr ⟨_, rfl, rfl, by simp [State.goto, starting], by simp [setq]⟩)
  | asyncIn e =>
    have ha : assigning s.ctl = false := by rw [hc]; rfl
    exact inv_ctl h rfl rfl rfl rfl rfl (h.tid ha) (fun _ => h.none (by rw [hc]; rfl))
        (.inl ⟨rfl, by simp [State.goto, starting]⟩)
  | killReset e =>
    have ha : assigning s.ctl = false := by rw [hc]; rfl
    have hr := reset_inv h ha
    have hc' : s.resetThreadId.ctl = s.ctl := by unfold State.resetThreadId; split <;> rfl
    have hg' : ∀ i, (s.resetThreadId.ws i).pc = .gone := hr.none (by rw [hc', hc]; rfl)
    exact inv_ctl hr rfl rfl rfl rfl rfl (fun i hi => absurd (hg' i) hi) (by simp [State.goto, noneLive])
        (.inr ⟨_, rfl, rfl, by simp [State.goto, starting], fun _ => hg'⟩)

/-- Steps of a thread. -/
theorem inv_worker {s s' : State} (h : Inv s) (i : Nat) (w : W) (hi : (s.ws i).pc ≠ .gone)
    (hc : s'.crashed = s.crashed) (hn : s'.n = s.n) (hctl : s'.ctl = s.ctl)
    (hw : s'.ws = fun j => if j = i then w else s.ws j)
    (hcan : w.cancelled = (s.ws i).cancelled) (hdb : w.inDb = true ↔ w.pc ≠ .gone)
    (htid : s'.threadId = s.threadId ∨ s'.threadId = some i)
    (htr : ∀ l, At i (s.ws i) s.stage l →
      (s'.trace = s.trace ∧ At i w s'.stage l) ∨
      ∃ o l', s'.trace = s.trace ++ [o] ∧ silent o = false ∧ next l o = some l' ∧ At i w s'.stage l') : Inv s' := by
  obtain ⟨h1, h2, h3, h4, h5, h6, h7, ⟨l, hl, hl0, hl1⟩, ⟨b, hb, hb1⟩⟩ := h
  have hin : i + 1 = s.n := Decidable.byContradiction fun hx => hi (h2 i hx)
  have hbf : b = false := by
    cases b with
    | false => rfl
    | true => exact absurd ((hb1 rfl).2 i) hi
  subst hbf
  refine ⟨by rw [hc, h1], ?_, ?_, ?_, ?_, by rw [hctl, hn]; exact h6, ?_, ?_, ?_⟩
  · intro j hj
    rw [hw]; rw [hn] at hj
    simp only
    rw [if_neg (by omega)]; exact h2 j hj
  · intro j
    rw [hw]; simp only
    split
    · rw [hcan]; exact h3 i
    · exact h3 j
  · intro j
    rw [hw]; simp only
    split
    · exact hdb
    · exact h4 j
  · intro ha j hj
    rw [hctl] at ha
    rw [hw] at hj; simp only at hj
    have hj' : j = i := by
      by_cases hji : j = i
      · exact hji
      · rw [if_neg hji] at hj
        exact absurd (h2 j (by omega)) hj
    subst hj'
    rcases htid with ht | ht
    · rw [ht]; exact h5 ha j hi
    · exact ht
  · intro hnl
    rw [hctl] at hnl
    exact absurd (h7 hnl i) hi
  · rcases htr l (hl1 i hin) with ⟨htr, hat⟩ | ⟨o, l', htr, ho, hnx, hat⟩
    · refine ⟨l, by rw [htr]; exact hl, by rw [hn]; exact hl0, ?_⟩
      intro j hj
      have : j = i := by omega
      subst this
      rw [hw]; simpa using hat
    · refine ⟨l', by rw [htr, life_snoc, hl]; exact hnx, by omega, ?_⟩
      intro j hj
      have : j = i := by omega
      subst this
      rw [hw]; simpa using hat
  · refine ⟨false, ?_, by simp⟩
    rcases htr l (hl1 i hin) with ⟨htr, hat⟩ | ⟨o, l', htr, ho, hnx, hat⟩
    · rw [htr]; exact hb
    · rw [htr, quiet_snoc, hb]
      cases o <;> simp [silent] at ho <;> rfl

theorem worker_inv {s : State} (h : Inv s) (i a : Nat) : Inv (workerStep s i a) := by
  unfold workerStep
  have hd := (h.db i)
  have hd' : (s.ws i).pc ≠ .gone → (s.ws i).inDb = true := hd.2
  cases hp : (s.ws i).pc with
  | gone => simpa [hp] using h
  | created =>
    simp only [hp]
    refine inv_worker h i _ (by rw [hp]; simp) rfl rfl rfl rfl rfl ?_ (.inl rfl) ?_
    · simp only [hd' (by rw [hp]; simp), true_iff]; split <;> simp
    · intro l hl
      simp only [At, hp] at hl
      refine .inl ⟨rfl, ?_⟩
      by_cases hx : s.commands = .start
      · simp only [At, if_pos hx]; exact hl
      · simp only [At, if_neg hx]; exact hl
  | willSet =>
    simp only [hp]
    refine inv_worker h i _ (by rw [hp]; simp) rfl rfl rfl rfl rfl ?_ (.inl rfl) ?_
    · simp [hd' (by rw [hp]; simp)]
    · intro l hl
      simp only [At, hp] at hl
      exact .inl ⟨rfl, hl⟩
  | outer =>
    simp only [hp]
    refine inv_worker h i _ (by rw [hp]; simp) rfl rfl rfl rfl rfl ?_ (.inl rfl) ?_
    · simp only [hd' (by rw [hp]; simp), true_iff]; split <;> simp
    · intro l hl
      simp only [At, hp] at hl
      refine .inl ⟨rfl, ?_⟩
      by_cases hx : s.commands = .keepRunning
      · simp only [At, if_pos hx]; exact hl
      · simp only [At, if_neg hx]; exact hl
  | setId =>
    simp only [hp]
    refine inv_worker h i _ (by rw [hp]; simp) rfl rfl rfl rfl rfl ?_ (.inr rfl) ?_
    · simp [hd' (by rw [hp]; simp)]
    · intro l hl
      simp only [At, hp] at hl
      exact .inl ⟨rfl, hl⟩
  | startupCall =>
    simp only [hp]
    refine inv_worker h i _ (by rw [hp]; simp) rfl rfl rfl rfl rfl ?_ (.inl rfl) ?_
    · simp [hd' (by rw [hp]; simp)]
    · intro l hl
      simp only [At, hp] at hl
      subst hl
      exact .inr ⟨_, _, rfl, rfl, rfl, rfl⟩
  | startupIn =>
    simp only [hp]
    refine inv_worker h i _ (by rw [hp]; simp) rfl rfl rfl rfl rfl ?_ (.inl rfl) ?_
    · simp [hd' (by rw [hp]; simp)]
    · intro l hl
      simp only [At, hp] at hl
      subst hl
      exact .inr ⟨_, _, rfl, rfl, by simp only [next, if_true], rfl⟩
  | mainIf =>
    simp only [hp]
    split
    · refine inv_worker h i _ (by rw [hp]; simp) rfl rfl rfl rfl rfl ?_ (.inl rfl) ?_
      · simp [hd' (by rw [hp]; simp)]
      · intro l hl
        simp only [At, hp] at hl
        exact .inl ⟨rfl, rfl, .inl ⟨hl, rfl⟩⟩
    · refine inv_worker h i _ (by rw [hp]; simp) rfl rfl rfl rfl rfl ?_ (.inl rfl) ?_
      · simp [hd' (by rw [hp]; simp)]
      · intro l hl
        simp only [At, hp] at hl
        exact .inl ⟨rfl, .inl hl⟩
  | mainWhile ok =>
    simp only [hp]
    refine inv_worker h i _ (by rw [hp]; simp) rfl rfl rfl rfl rfl ?_ (.inl rfl) ?_
    · simp only [hd' (by rw [hp]; simp), true_iff]; split <;> simp
    · intro l hl
      simp only [At, hp] at hl
      obtain ⟨hs, hl⟩ := hl
      refine .inl ⟨rfl, ?_⟩
      cases hcond : (decide (s.commands = .keepRunning) && ok) with
      | true =>
        simp only [At, if_true]
        refine ⟨hs, ?_⟩
        simp at hcond
        rcases hl with ⟨hl, _⟩ | ⟨hl, hok⟩
        · exact .inl hl
        · rw [hcond.2] at hok
          exact .inr ⟨hl, by simpa using hok.symm⟩
      | false =>
        simp only [At, Bool.false_eq_true, if_false]
        rcases hl with ⟨hl, _⟩ | ⟨hl, hok⟩
        · exact .inl hl
        · exact .inr hl
  | mainCall =>
    simp only [hp]
    refine inv_worker h i _ (by rw [hp]; simp) rfl rfl rfl rfl rfl ?_ (.inl rfl) ?_
    · simp [hd' (by rw [hp]; simp)]
    · intro l hl
      simp only [At, hp] at hl
      obtain ⟨hs, hl⟩ := hl
      refine .inr ⟨_, .mainIn i, rfl, rfl, ?_, hs, rfl⟩
      rcases hl with rfl | ⟨rfl, h0⟩ <;> simp [next, hs]
      exact h0
  | mainIn =>
    simp only [hp]
    refine inv_worker h i _ (by rw [hp]; simp) rfl rfl rfl rfl rfl ?_ (.inl rfl) ?_
    · simp [hd' (by rw [hp]; simp)]
    · intro l hl
      simp only [At, hp] at hl
      obtain ⟨hs, rfl⟩ := hl
      exact .inr ⟨_, _, rfl, rfl, by simp only [next, if_true], hs, .inr ⟨rfl, rfl⟩⟩
  | endCall =>
    simp only [hp]
    refine inv_worker h i _ (by rw [hp]; simp) rfl rfl rfl rfl rfl ?_ (.inl rfl) ?_
    · simp [hd' (by rw [hp]; simp)]
    · intro l hl
      simp only [At, hp] at hl
      refine .inr ⟨_, .endIn i, rfl, rfl, ?_, rfl⟩
      rcases hl with rfl | rfl <;> simp only [next, endStage, completed_iff, if_true] <;> cases isCompleted (s.ws i).err <;> simp
  | endIn =>
    simp only [hp]
    refine inv_worker h i _ (by rw [hp]; simp) rfl rfl rfl rfl rfl ?_ (.inl rfl) ?_
    · simp [hd' (by rw [hp]; simp)]
    · intro l hl
      simp only [At, hp] at hl
      subst hl
      exact .inr ⟨_, _, rfl, rfl, by simp only [next, if_true], rfl⟩
  | exiting =>
    have hdb := hd' (by rw [hp]; simp)
    simp only [hp]
    refine inv_worker h i _ (by rw [hp]; simp) ?_ rfl rfl rfl rfl ?_ (.inl rfl) ?_
    · simp [State.setW, hdb, h.ok]
    · simp
    · intro l hl
      simp only [At, hp] at hl
      exact .inl ⟨rfl, hl⟩

theorem step_inv {s : State} (h : Inv s) (e : Ev) (hk : noKill (step s e).trace) : Inv (step s e) := by
  unfold step at hk ⊢
  rw [if_neg (by rw [h.ok]; simp)] at hk ⊢
  cases e with
  | tick n => 
    obtain ⟨h1, h2, h3, h4, h5, h6, h7, h8, h9⟩ := h
    exact ⟨h1, h2, h3, h4, h5, h6, h7, h8, h9⟩
  | callStart =>
    simp only
    split
    · rename_i hc
      exact inv_ctl h rfl rfl rfl rfl rfl (h.tid (by rw [hc]; rfl)) (by simp [State.goto, State.log, noneLive])
        (.inr ⟨_, rfl, rfl, by simp [setq], by simp [setq]⟩)
    · exact h
  | callStop =>
    simp only
    split
    · rename_i hc
      exact inv_ctl h rfl rfl rfl rfl rfl (h.tid (by rw [hc]; rfl)) (by simp [State.goto, State.log, noneLive])
        (.inr ⟨_, rfl, rfl, by simp [State.goto, starting], by simp [setq]⟩)
    · exact h
  | callStatus =>
    simp only
    split
    · rename_i hc
      exact inv_ctl h rfl rfl rfl rfl rfl (h.tid (by rw [hc]; rfl)) (by simp [State.goto, State.log, noneLive])
        (.inl ⟨rfl, by simp [State.goto, starting]⟩)
    · exact h
  | setTimeout t =>
    simp only
    split
    · rename_i hc
      obtain ⟨h1, h2, h3, h4, h5, h6, h7, h8, h9⟩ := h
      exact ⟨h1, h2, h3, h4, h5, h6, h7, h8, h9⟩
    · exact h
  | ctl a => exact ctl_inv h a (fun j hj => hk j (by simp only [hj]; simp))
  | worker i a => exact worker_inv h i a
  | cancel i =>
    simp only
    split
    · rename_i hc
      rw [h.canc i] at hc; simp at hc
    · exact h

end Verif.EmbeddedThread
