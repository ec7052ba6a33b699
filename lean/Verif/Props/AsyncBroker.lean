import Verif.Model.AsyncBroker

/-!
# C32: MemoryMapAsyncOutputBroker

The specification only looks at the trace of observations: what was written by `Execute`, what was delivered to the data source.
-/

namespace Verif.Spec.AsyncBroker

open Verif.AsyncBroker (Obs)

variable {α : Type}

def written : List (Obs α) → List α
  | [] => []
  | .written d :: t => d :: written t
  | _ :: t => written t

def delivered : List (Obs α) → List (Option α)
  | [] => []
  | .delivered d :: t => d :: delivered t
  | _ :: t => delivered t

/-- Whenever `Execute` is called, at most `n - 2` records are waiting. -/
def Roomy (n : Nat) (t : List (Obs α)) : Prop :=
  ∀ pre d post, t = pre ++ .called d :: post → (written pre).length + 2 ≤ n + (delivered pre).length

end Verif.Spec.AsyncBroker

namespace Verif.Props

open Verif.AsyncBroker
open Verif.Spec.AsyncBroker (written delivered Roomy)

variable {α : Type}

private theorem written_append (a b : List (Obs α)) : written (a ++ b) = written a ++ written b := by
  induction a with
  | nil => rfl
  | cons x a ih => cases x <;> simp [written, ih]

private theorem delivered_append (a b : List (Obs α)) : delivered (a ++ b) = delivered a ++ delivered b := by
  induction a with
  | nil => rfl
  | cons x a ih => cases x <;> simp [delivered, ih]

/-- The states of a schedule, with the trace so far. -/
private inductive Reach (s0 : St α) : St α → List (Obs α) → Prop where
  | start : Reach s0 s0 []
  | step {s t e s' o} : Reach s0 s t → step s e = some (s', o) → Reach s0 s' (t ++ o)

private theorem reach_run_aux (s0 : St α) (es : List (Ev α)) : ∀ (s : St α) (t : List (Obs α)) (s' : St α) (o : List (Obs α)),
    Reach s0 s t → run s es = some (s', o) → Reach s0 s' (t ++ o) := by
  induction es with
  | nil => intro s t s' o hr h; simp [run] at h; obtain ⟨rfl, rfl⟩ := h; simpa using hr
  | cons e es ih =>
    intro s t s' o hr h
    rw [run] at h
    cases hs : step s e with
    | none => simp [hs] at h
    | some p =>
      obtain ⟨s1, o1⟩ := p
      simp only [hs, Option.bind_some] at h
      cases hrun : run s1 es with
      | none => simp [hrun] at h
      | some q =>
        obtain ⟨s2, o2⟩ := q
        simp [hrun] at h
        obtain ⟨rfl, rfl⟩ := h
        rw [← List.append_assoc]
        exact ih s1 (t ++ o1) s2 o2 (.step hr hs) hrun

private theorem reach_run {s0 : St α} {es : List (Ev α)} {s' : St α} {o : List (Obs α)} (h : run s0 es = some (s', o)) : Reach s0 s' o := by
  simpa using reach_run_aux s0 es s0 [] s' o .start h

private theorem roomy_prefix {n : Nat} {t u : List (Obs α)} (h : Roomy n (t ++ u)) : Roomy n t := by
  intro pre d post e
  exact h pre d (post ++ u) (by rw [e]; simp)

/-! ### Several buffers -/

/-- Delivered but not yet skipped. -/
private def lag : Cons → Nat
  | .clearing _ => 1
  | .advance _ => 1
  | _ => 0

/-- Delivered but still marked. -/
private def lagF : Cons → Nat
  | .clearing _ => 1
  | _ => 0

private def open? : Prod α → Nat
  | .closing _ => 1
  | _ => 0

private structure Inv (n : Nat) (s : St α) (ws : List α) (D : Nat) : Prop where
  hn : s.n = n
  le : D ≤ ws.length - open? s.prod
  lag_le : lag s.cons ≤ D
  room : ws.length + 1 ≤ n + D
  open_le : open? s.prod ≤ ws.length
  noOver : s.prod ≠ .marking none ∧ s.prod ≠ .closing false
  busy : (∃ d, s.prod = .copying d) ∨ (∃ d, s.prod = .marking (some d)) → ws.length + 2 ≤ n + D
  w : s.w = (ws.length - open? s.prod) % n
  r : s.r = (D - lag s.cons) % n
  mem : ∀ k (h : k < ws.length), D ≤ k → s.mem (k % n) = some ws[k]
  memW : ∀ d, s.prod = .marking (some d) → s.mem (ws.length % n) = some d
  flagT : ∀ k, D - lagF s.cons ≤ k → k < ws.length → s.flag (k % n) = true
  flagF : ∀ k, ws.length ≤ k → k < n + (D - lagF s.cons) → s.flag (k % n) = false
  stop : ∀ stop, s.cons = .scan stop ∨ s.cons = .copying stop ∨ s.cons = .clearing stop ∨ s.cons = .advance stop →
    ∃ S, stop = S % n ∧ D ≤ S ∧ S ≤ ws.length - open? s.prod ∧ (s.cons = .copying stop → D < S) ∧ (S ≠ ws.length - open? s.prod → s.sem = true)
  idleWake : s.cons = .finish ∨ s.cons = .waiting → D ≠ ws.length - open? s.prod → s.sem = true

private theorem mod_ne {n a b : Nat} (h : a < b) (h' : b < a + n) : a % n ≠ b % n := by
  intro e
  have hn : 0 < n := by omega
  have h1 := Nat.div_add_mod a n
  have h2 := Nat.div_add_mod b n
  have hab : a / n < b / n ∨ b / n ≤ a / n := by omega
  rcases hab with hab | hab
  · have : n * (a / n + 1) ≤ n * (b / n) := Nat.mul_le_mul_left n hab
    rw [Nat.mul_add] at this
    omega
  · have : n * (b / n) ≤ n * (a / n) := Nat.mul_le_mul_left n hab
    omega

private theorem incr_mod {n k : Nat} (hn : 0 < n) : incr n (k % n) = (k + 1) % n := by
  unfold incr
  have hlt := Nat.mod_lt k hn
  split
  · rename_i h
    rw [Nat.add_mod]
    by_cases h1 : n = 1
    · subst h1; omega
    · rw [Nat.mod_eq_of_lt (show 1 < n by omega), h, Nat.mod_self]
  · rename_i h
    rw [Nat.add_mod, Nat.mod_eq_of_lt (show 1 < n by omega), Nat.mod_eq_of_lt (show k % n + 1 < n by omega)]

private theorem upd_self {β : Type} (f : Nat → β) (i : Nat) (v : β) : upd f i v i = v := by simp [upd]

private theorem upd_ne {β : Type} (f : Nat → β) {i j : Nat} (v : β) (h : j ≠ i) : upd f i v j = f j := by simp [upd, h]

private theorem started_inv (n : Nat) (hn : 2 ≤ n) (ig : Bool) : Inv n (started n ig : St α) [] 0 := by
  constructor <;> simp [started, lag, lagF, open?]
  omega

private theorem inv_exec {n : Nat} {s : St α} {ws : List α} {D : Nat} {d : α} (hi : Inv n s ws D) (hr : ws.length + 2 ≤ n + D)
    {s' : St α} {o : List (Obs α)} (h : step s (.exec d) = some (s', o)) : o = [.called d] ∧ Inv n s' ws D := by
  obtain ⟨n', ig, mem, flag, w, r, sem, posted, flushed, prod, cons⟩ := s
  cases prod with
  | idle =>
    have hf : flag w = false := by
      have := hi.flagF ws.length (Nat.le_refl _) (by cases cons <;> simp [lagF] <;> omega)
      have hw := hi.w
      simp [open?] at hw
      simp at this
      rw [hw]; exact this
    simp [step, hf] at h
    obtain ⟨rfl, rfl⟩ := h
    refine ⟨rfl, ?_⟩
    exact ⟨hi.hn, hi.le, hi.lag_le, hi.room, by simp [open?], by simp, fun _ => hr, hi.w, hi.r, hi.mem, by simp, hi.flagT, hi.flagF, hi.stop, hi.idleWake⟩
  | copying d => simp [step] at h
  | marking d => simp [step] at h
  | closing b => simp [step] at h

private theorem inv_prod {n : Nat} (hn2 : 2 ≤ n) {s : St α} {ws : List α} {D : Nat} (hi : Inv n s ws D)
    {s' : St α} {o : List (Obs α)} (h : step s .prod = some (s', o)) :
    Inv n s' (ws ++ written o) D ∧ delivered o = [] ∧ .overrun ∉ o ∧ (∀ d, .called d ∉ o) := by
  obtain ⟨n', ig, mem, flag, w, r, sem, posted, flushed, prod, cons⟩ := s
  cases prod with
  | idle => simp [step, prodStep] at h
  | copying d =>
    simp [step, prodStep] at h
    obtain ⟨rfl, rfl⟩ := h
    have hb := hi.busy (Or.inl ⟨d, rfl⟩)
    have hw : w = ws.length % n := by simpa [open?] using hi.w
    refine ⟨?_, rfl, by simp, by simp⟩
    simp only [written, List.append_nil]
    refine ⟨hi.hn, hi.le, hi.lag_le, hi.room, by simp [open?], by simp, fun _ => hb, by simpa [open?] using hi.w, hi.r, ?_, ?_, hi.flagT, hi.flagF, hi.stop, hi.idleWake⟩
    · intro k hk hD
      simp only
      rw [upd_ne _ _ (by rw [hw]; exact mod_ne hk (by omega))]
      exact hi.mem k hk hD
    · intro d' hd'
      simp at hd'
      subst hd'
      simp only
      rw [hw, upd_self]
  | marking d =>
    cases d with
    | none => exact absurd rfl hi.noOver.1
    | some d =>
      simp [step, prodStep] at h
      obtain ⟨rfl, rfl⟩ := h
      have hb := hi.busy (Or.inr ⟨d, rfl⟩)
      have hw : w = ws.length % n := by simpa [open?] using hi.w
      have hm := hi.memW d rfl
      have hlag := hi.lag_le
      have hstop := hi.stop
      have hidle := hi.idleWake
      simp only [open?, Nat.sub_zero] at hstop hidle
      have hlF : lagF cons ≤ D := by cases cons <;> simp [lag, lagF] at hlag ⊢ <;> omega
      have hlF1 : lagF cons ≤ 1 := by cases cons <;> simp [lagF]
      refine ⟨?_, by simp [delivered], by simp, by simp⟩
      simp only [written]
      have hle := hi.le
      refine ⟨hi.hn, by simp [open?] at hle ⊢; omega, hi.lag_le, by simp; omega, by simp [open?], by simp, by simp, by simp [open?, hw], hi.r, ?_, by simp, ?_, ?_, ?_, ?_⟩
      · intro k hk hD
        simp at hk
        simp only
        by_cases hkl : k < ws.length
        · rw [List.getElem_append_left hkl]; exact hi.mem k hkl hD
        · have : k = ws.length := by omega
          subst this
          simp; exact hm
      · intro k h1 h2
        simp at h1 h2
        simp only
        by_cases hkl : k < ws.length
        · rw [upd_ne _ _ (by rw [hw]; exact mod_ne hkl (by omega))]
          exact hi.flagT k (by simp only; omega) hkl
        · have : k = ws.length := by omega
          subst this
          rw [hw, upd_self]
      · intro k h1 h2
        simp at h1 h2
        simp only
        rw [upd_ne _ _ (by rw [hw]; exact (mod_ne (by omega) (by omega)).symm)]
        exact hi.flagF k (by omega) h2
      · simpa [open?] using hstop
      · simpa [open?] using hidle
  | closing b =>
    cases b with
    | false => exact absurd rfl hi.noOver.2
    | true =>
      simp [step, prodStep] at h
      obtain ⟨rfl, rfl⟩ := h
      refine ⟨?_, by simp [delivered], by simp, by simp⟩
      simp only [written, List.append_nil]
      have hop := hi.open_le
      have hw := hi.w
      simp only [open?] at hop hw
      have hnn := hi.hn
      simp only at hnn
      have hle := hi.le
      refine ⟨hi.hn, by simp [open?] at hle ⊢; omega, hi.lag_le, hi.room, by simp [open?], by simp, by simp, ?_, hi.r, hi.mem, by simp, hi.flagT, hi.flagF, ?_, by simp⟩
      · simp only [open?, hnn, hw]
        rw [incr_mod (by omega)]
        congr 1; omega
      · intro st hst
        obtain ⟨S, h1, h2, h3, h4, h5⟩ := hi.stop st hst
        refine ⟨S, h1, h2, ?_, h4, fun _ => rfl⟩
        simp [open?] at h3 ⊢; omega

private theorem inv_cons {n : Nat} (hn2 : 2 ≤ n) {s : St α} {ws : List α} {D : Nat} (hi : Inv n s ws D)
    {s' : St α} {o : List (Obs α)} (h : step s .cons = some (s', o)) :
    ∃ k, Inv n s' ws (D + k) ∧ delivered o = ((ws.drop D).take k).map some ∧ written o = [] ∧ .overrun ∉ o ∧ (∀ d, .called d ∉ o) := by
  obtain ⟨n', ig, mem, flag, w, r, sem, posted, flushed, prod, cons⟩ := s
  have hnn : n' = n := hi.hn
  have hle := hi.le
  have hroom := hi.room
  have hw : w = (ws.length - open? prod) % n := hi.w
  cases cons with
  | begin =>
    simp [step, consStep, hnn, show n ≠ 1 by omega] at h
    obtain ⟨rfl, rfl⟩ := h
    refine ⟨0, ?_, by simp [delivered], rfl, by simp, by simp⟩
    refine ⟨rfl, hle, by simp [lag], hroom, hi.open_le, hi.noOver, hi.busy, hw, hi.r, hi.mem, hi.memW, hi.flagT, hi.flagF, ?_, by simp⟩
    intro st hst
    simp at hst
    subst hst
    exact ⟨ws.length - open? prod, hw, hle, Nat.le_refl _, by simp, by simp⟩
  | scan st =>
    obtain ⟨S, h1, h2, h3, h4, h5⟩ := hi.stop st (Or.inl rfl)
    have hr : r = D % n := hi.r
    have hwl : ws.length - open? prod ≤ ws.length := Nat.sub_le _ _
    by_cases hrs : r = st
    · have hDS : D = S := by
        rcases Nat.lt_or_ge D S with hlt | hge
        · exact absurd (by rw [← hr, ← h1]; exact hrs) (mod_ne (n := n) hlt (by omega))
        · omega
      simp [step, consStep, hrs] at h
      obtain ⟨rfl, rfl⟩ := h
      refine ⟨0, ?_, by simp [delivered], rfl, by simp, by simp⟩
      refine ⟨hi.hn, hle, by simp [lag], hroom, hi.open_le, hi.noOver, hi.busy, hw, hrs ▸ hi.r, hi.mem, hi.memW, hi.flagT, hi.flagF, by simp, ?_⟩
      intro _ hne
      exact h5 (by rw [← hDS]; exact hne)
    · have hDS : D < S := by
        rcases Nat.lt_or_eq_of_le h2 with h | h
        · exact h
        · exact absurd (by rw [hr, h1, h]) hrs
      have hf : flag r = true := by
        rw [hr]; exact hi.flagT D (by simp [lagF]) (by omega)
      simp [step, consStep, hrs, hf] at h
      obtain ⟨rfl, rfl⟩ := h
      refine ⟨0, ?_, by simp [delivered], rfl, by simp, by simp⟩
      refine ⟨hi.hn, hle, by simp [lag], hroom, hi.open_le, hi.noOver, hi.busy, hw, hi.r, hi.mem, hi.memW, hi.flagT, hi.flagF, ?_, by simp⟩
      intro st' hst'
      simp at hst'
      subst hst'
      exact ⟨S, h1, h2, h3, fun _ => hDS, h5⟩
  | copying st =>
    obtain ⟨S, h1, h2, h3, h4, h5⟩ := hi.stop st (Or.inr (Or.inl rfl))
    have hDS : D < S := h4 rfl
    have hr : r = D % n := hi.r
    have hwl : ws.length - open? prod ≤ ws.length := Nat.sub_le _ _
    have hlt : D < ws.length := by omega
    have hm : mem r = some ws[D] := by rw [hr]; exact hi.mem D hlt (Nat.le_refl _)
    simp only [step, consStep, Option.some.injEq, Prod.mk.injEq] at h
    obtain ⟨rfl, rfl⟩ := h
    refine ⟨1, ?_, ?_, rfl, by simp, by simp⟩
    · refine ⟨hi.hn, by simp only at h3 ⊢; omega, by simp [lag], by omega, hi.open_le, hi.noOver, ?_, hw, ?_, ?_, hi.memW, ?_, ?_, ?_, by simp⟩
      · intro hb
        have := hi.busy hb
        omega
      · simpa [lag] using hr
      · intro k hk hD; exact hi.mem k hk (by omega)
      · intro k hk1 hk2; exact hi.flagT k (by simp [lagF] at hk1 ⊢; omega) hk2
      · intro k hk1 hk2; exact hi.flagF k hk1 (by simp [lagF] at hk2 ⊢; omega)
      · intro st' hst'
        simp at hst'
        subst hst'
        exact ⟨S, h1, by omega, h3, by simp, h5⟩
    · rw [List.drop_eq_getElem_cons hlt]
      simp only [delivered, List.take_succ_cons, List.take_zero, List.map_cons, List.map_nil, hm]
  | clearing st =>
    have hl := hi.lag_le
    have hr : r = (D - 1) % n := hi.r
    simp only [lag] at hl
    have hwl : ws.length - open? prod ≤ ws.length := Nat.sub_le _ _
    simp only [step, consStep, Option.some.injEq, Prod.mk.injEq] at h
    obtain ⟨rfl, rfl⟩ := h
    refine ⟨0, ?_, by simp [delivered], rfl, by simp, by simp⟩
    refine ⟨hi.hn, hle, by simpa [lag] using hl, hroom, hi.open_le, hi.noOver, hi.busy, hw, hi.r, hi.mem, hi.memW, ?_, ?_, ?_, by simp⟩
    · intro k hk1 hk2
      simp only [lagF] at hk1
      simp only
      rw [upd_ne _ _ (by rw [hr]; exact (mod_ne (by omega) (by omega)).symm)]
      exact hi.flagT k (by simp [lagF]; omega) hk2
    · intro k hk1 hk2
      simp only [lagF] at hk2
      simp only
      by_cases hkk : k = n + (D - 1)
      · subst hkk
        rw [hr, Nat.add_mod_left, upd_self]
      · by_cases hkw : k % n = r
        · rw [hkw, upd_self]
        · rw [upd_ne _ _ hkw]
          exact hi.flagF k hk1 (by simp [lagF]; omega)
    · intro st' hst'
      simp at hst'
      subst hst'
      obtain ⟨S, h1, h2, h3, h4, h5⟩ := hi.stop st (Or.inr (Or.inr (Or.inl rfl)))
      exact ⟨S, h1, h2, h3, by simp, h5⟩
  | advance st =>
    have hl := hi.lag_le
    have hr : r = (D - 1) % n := hi.r
    simp only [lag] at hl
    simp [step, consStep, hnn, show 1 < n by omega] at h
    obtain ⟨rfl, rfl⟩ := h
    refine ⟨0, ?_, by simp [delivered], rfl, by simp, by simp⟩
    refine ⟨rfl, hle, by simp [lag], hroom, hi.open_le, hi.noOver, hi.busy, hw, ?_, hi.mem, hi.memW, hi.flagT, hi.flagF, ?_, by simp⟩
    · simp only [lag, hr]
      rw [incr_mod (by omega)]
      congr 1; omega
    · intro st' hst'
      simp at hst'
      subst hst'
      obtain ⟨S, h1, h2, h3, h4, h5⟩ := hi.stop st (Or.inr (Or.inr (Or.inr rfl)))
      exact ⟨S, h1, h2, h3, by simp, h5⟩
  | finish =>
    simp only [step, consStep, Option.some.injEq, Prod.mk.injEq] at h
    obtain ⟨rfl, rfl⟩ := h
    refine ⟨0, ?_, by simp [delivered], rfl, by simp, by simp⟩
    exact ⟨hi.hn, hle, by simp [lag], hroom, hi.open_le, hi.noOver, hi.busy, hw, hi.r, hi.mem, hi.memW, hi.flagT, hi.flagF, by simp,
      fun _ => hi.idleWake (Or.inl rfl)⟩
  | waiting =>
    simp only [step, consStep] at h
    split at h
    · simp only [Option.some.injEq, Prod.mk.injEq] at h
      obtain ⟨rfl, rfl⟩ := h
      refine ⟨0, ?_, by simp [delivered], rfl, by simp, by simp⟩
      exact ⟨hi.hn, hle, by simp [lag], hroom, hi.open_le, hi.noOver, hi.busy, hw, hi.r, hi.mem, hi.memW, hi.flagT, hi.flagF, by simp, by simp⟩
    · simp at h
  | reset =>
    simp only [step, consStep, Option.some.injEq, Prod.mk.injEq] at h
    obtain ⟨rfl, rfl⟩ := h
    refine ⟨0, ?_, by simp [delivered], rfl, by simp, by simp⟩
    exact ⟨hi.hn, hle, by simp [lag], hroom, hi.open_le, hi.noOver, hi.busy, hw, hi.r, hi.mem, hi.memW, hi.flagT, hi.flagF, by simp, by simp⟩

private theorem inv_flush {n : Nat} {s : St α} {ws : List α} {D : Nat} (hi : Inv n s ws D)
    {s' : St α} {o : List (Obs α)} (h : step s .flush = some (s', o)) : o = [] ∧ Inv n s' ws D := by
  simp only [step, Option.some.injEq, Prod.mk.injEq] at h
  obtain ⟨rfl, rfl⟩ := h
  refine ⟨rfl, hi.hn, hi.le, hi.lag_le, hi.room, hi.open_le, hi.noOver, hi.busy, hi.w, hi.r, hi.mem, hi.memW, hi.flagT, hi.flagF, ?_, fun _ _ => rfl⟩
  intro st hst
  obtain ⟨S, h1, h2, h3, h4, _⟩ := hi.stop st hst
  exact ⟨S, h1, h2, h3, h4, fun _ => rfl⟩

/-- The invariant, in terms of the trace. -/
private def Good (n : Nat) (s : St α) (t : List (Obs α)) : Prop :=
  Inv n s (written t) (delivered t).length ∧ delivered t = ((written t).take (delivered t).length).map some ∧ .overrun ∉ t

private theorem good_step {n : Nat} (hn2 : 2 ≤ n) {s : St α} {t : List (Obs α)} {e : Ev α} {s' : St α} {o : List (Obs α)} (hg : Good n s t)
    (h : step s e = some (s', o)) (hr : Roomy n (t ++ o)) : Good n s' (t ++ o) := by
  obtain ⟨hi, hd, ho⟩ := hg
  have hlen : (delivered t).length ≤ (written t).length := by
    have := hi.le; omega
  unfold Good
  rw [written_append, delivered_append]
  cases e with
  | exec d =>
    have hcall : o = .called d :: o.drop 1 := by
      simp only [step] at h
      split at h
      · split at h
        · simp at h; obtain ⟨_, rfl⟩ := h; rfl
        · simp at h; obtain ⟨_, rfl⟩ := h; rfl
      · simp at h
    have hroom := hr t d (o.drop 1) (by rw [← hcall])
    obtain ⟨rfl, hi'⟩ := inv_exec hi hroom h
    simp only [written, delivered, List.append_nil]
    exact ⟨hi', hd, by simpa using ho⟩
  | prod =>
    obtain ⟨hi', h1, h2, _⟩ := inv_prod hn2 hi h
    rw [h1, List.append_nil]
    refine ⟨hi', ?_, ?_⟩
    · rw [List.take_append_of_le_length hlen]; exact hd
    · intro hm; rcases List.mem_append.mp hm with hm | hm
      · exact ho hm
      · exact h2 hm
  | cons =>
    obtain ⟨k, hi', h1, h2, h3, _⟩ := inv_cons hn2 hi h
    have hk : k ≤ (written t).length - (delivered t).length := by have := hi'.le; omega
    have hl : (delivered t ++ delivered o).length = (delivered t).length + k := by
      rw [List.length_append, h1]; simp; omega
    rw [h2, List.append_nil, hl]
    refine ⟨hi', ?_, ?_⟩
    · rw [List.take_add, List.map_append, ← h1, ← hd]
    · intro hm; rcases List.mem_append.mp hm with hm | hm
      · exact ho hm
      · exact h3 hm
  | flush =>
    obtain ⟨rfl, hi'⟩ := inv_flush hi h
    simp only [written, delivered, List.append_nil]
    exact ⟨hi', hd, ho⟩

private theorem good_reach {n : Nat} (hn2 : 2 ≤ n) {s0 : St α} {t0 : List (Obs α)} (h0 : Good n s0 t0) {s : St α} {t : List (Obs α)}
    (h : Reach s0 s t) (hr : Roomy n (t0 ++ t)) : Good n s (t0 ++ t) := by
  induction h with
  | start => simpa using h0
  | step hreach hs ih =>
    rw [← List.append_assoc] at hr ⊢
    exact good_step hn2 (ih (roomy_prefix hr)) hs hr

private theorem good_run {n : Nat} (hn2 : 2 ≤ n) (ig : Bool) {es : List (Ev α)} {s : St α} {t : List (Obs α)} (h : run (started n ig) es = some (s, t))
    (hr : Roomy n t) : Good n s t := by
  have h0 : Good n (started n ig : St α) [] := ⟨started_inv n hn2 ig, rfl, by simp⟩
  simpa using good_reach hn2 h0 (reach_run h) (by simpa using hr)

/-- C32: with at least two buffers, in every schedule of the three threads during which `Execute` is never called with more than `n - 2` records waiting,
the data handed to the data source are the first records written, in order, each once and with the right content, and no overrun is reported. -/
theorem c32_fifo_partial (n : Nat) (hn : 2 ≤ n) (ig : Bool) (es : List (Ev α)) (s : St α) (t : List (Obs α))
    (h : run (started n ig) es = some (s, t)) (hr : Roomy n t) :
    (∃ rest, (written t).map some = delivered t ++ rest) ∧ .overrun ∉ t := by
  obtain ⟨_, hd, ho⟩ := good_run hn ig h hr
  refine ⟨⟨((written t).drop (delivered t).length).map some, ?_⟩, ho⟩
  conv => rhs; lhs; rw [hd]
  rw [← List.map_append, List.take_append_drop]

/-- C32: in those schedules, no wake-up is lost: when the consuming thread is blocked and `Execute` is not running, every record has been
delivered. -/
theorem c32_no_lost_wakeup_partial (n : Nat) (hn : 2 ≤ n) (ig : Bool) (es : List (Ev α)) (s : St α) (t : List (Obs α))
    (h : run (started n ig) es = some (s, t)) (hr : Roomy n t) (hidle : s.prod = .idle) (hb : s.cons = .waiting) (hblocked : step s .cons = none) :
    delivered t = (written t).map some := by
  obtain ⟨hi, hd, _⟩ := good_run hn ig h hr
  have hsem : s.sem = false := by
    simp only [step, consStep, hb] at hblocked
    split at hblocked
    · simp at hblocked
    · rename_i h; simpa using h
  have := hi.idleWake (Or.inr hb)
  simp only [hidle, open?, Nat.sub_zero, hsem] at this
  have hD : (delivered t).length = (written t).length := by
    apply Decidable.byContradiction
    intro hne; exact absurd (this hne) (by simp)
  rw [hd, hD, List.take_length]

/-- C32: in those schedules the two threads never access the same buffer at the same time. -/
theorem c32_no_simultaneous_access_partial (n : Nat) (hn : 2 ≤ n) (ig : Bool) (es : List (Ev α)) (s : St α) (t : List (Obs α))
    (h : run (started n ig) es = some (s, t)) (hr : Roomy n t) (d : α) (hp : s.prod = .copying d) (stop : Nat) (hc : s.cons = .copying stop) :
    s.w ≠ s.r := by
  obtain ⟨hi, _, _⟩ := good_run hn ig h hr
  obtain ⟨S, _, _, h3, h4, _⟩ := hi.stop stop (Or.inr (Or.inl hc))
  have hlt := h4 hc
  have hb := hi.busy (Or.inl ⟨d, hp⟩)
  rw [hi.w, hi.r, hp, hc]
  simp only [open?, lag, hp] at h3 ⊢
  exact (mod_ne (by omega) (by omega)).symm

/-! ### Flush -/

private def inLoop (c : Cons) (st : Nat) : Prop := c = .scan st ∨ c = .copying st ∨ c = .clearing st ∨ c = .advance st

private def Flushing (n F : Nat) (s : St α) (ws : List α) (D : Nat) : Prop :=
  F ≤ D ∨ (s.flushed = false ∧ F ≤ ws.length - open? s.prod ∧
    (s.cons = .begin ∨ s.cons = .reset ∨ s.cons = .waiting ∨
      ∃ st S, inLoop s.cons st ∧ st = S % n ∧ F ≤ S ∧ D ≤ S ∧ S ≤ ws.length - open? s.prod))

private theorem mod_unique {n a b D : Nat} (ha : D ≤ a) (hb : D ≤ b) (ha' : a < D + n) (hb' : b < D + n) (h : a % n = b % n) : a = b := by
  rcases Nat.lt_trichotomy a b with hl | hl | hl
  · exact absurd h (mod_ne hl (by omega))
  · exact hl
  · exact absurd h.symm (mod_ne hl (by omega))

private theorem flushing_step {n F : Nat} (hn2 : 2 ≤ n) {s : St α} {t : List (Obs α)} {e : Ev α} {s' : St α} {o : List (Obs α)} (hg : Good n s t)
    (h : step s e = some (s', o)) (hg' : Good n s' (t ++ o)) (hf : Flushing n F s (written t) (delivered t).length) :
    Flushing n F s' (written (t ++ o)) (delivered (t ++ o)).length := by
  obtain ⟨hi, _, _⟩ := hg
  rw [written_append, delivered_append, List.length_append]
  rcases hf with hf | ⟨hfl, hF, hc⟩
  · exact Or.inl (by omega)
  · cases e with
    | exec d =>
      have : s'.cons = s.cons ∧ s'.flushed = s.flushed ∧ open? s'.prod = 0 ∧ open? s.prod = 0 ∧ written o = [] ∧ delivered o = [] := by
        simp only [step] at h
        split at h
        · rename_i hp
          split at h <;> (simp at h; obtain ⟨rfl, rfl⟩ := h; simp [open?, hp, written, delivered])
        · simp at h
      obtain ⟨h1, h2, h3, h4, h5, h6⟩ := this
      rw [h4] at hF hc
      unfold Flushing
      rw [h1, h2, h3, h5, h6]
      simp only [List.append_nil, List.length_nil, Nat.add_zero]
      exact Or.inr ⟨hfl, hF, hc⟩
    | prod =>
      have : s'.cons = s.cons ∧ s'.flushed = s.flushed ∧ delivered o = [] ∧
          (written t).length - open? s.prod ≤ (written t ++ written o).length - open? s'.prod := by
        simp only [step, prodStep] at h
        have hno := hi.noOver
        split at h
        · simp at h
        all_goals
          rename_i hp
          first
            | exact absurd hp hno.1
            | exact absurd hp hno.2
            | (simp at h
               obtain ⟨rfl, rfl⟩ := h
               simp [open?, hp, written, delivered])
      obtain ⟨h1, h2, h3, h4⟩ := this
      unfold Flushing
      rw [h1, h2, h3]
      simp only [List.length_nil, Nat.add_zero]
      refine Or.inr ⟨hfl, by omega, ?_⟩
      rcases hc with hc | hc | hc | ⟨st, S, ha, hb, hc, hd, he⟩
      · exact Or.inl hc
      · exact Or.inr (Or.inl hc)
      · exact Or.inr (Or.inr (Or.inl hc))
      · exact Or.inr (Or.inr (Or.inr ⟨st, S, ha, hb, hc, hd, by omega⟩))
    | flush =>
      simp only [step, Option.some.injEq, Prod.mk.injEq] at h
      obtain ⟨rfl, rfl⟩ := h
      simp only [written, delivered, List.append_nil, List.length_nil, Nat.add_zero]
      exact Or.inr ⟨rfl, hF, hc⟩
    | cons =>
      have hi' := hg'.1
      rw [written_append, delivered_append, List.length_append] at hi'
      have hroom := hi.room
      have hle := hi.le
      obtain ⟨n', ig, mem, flag, w, r, sem, posted, flushed, prod, cons⟩ := s
      have hnn : n' = n := hi.hn
      have hw : w = ((written t).length - open? prod) % n := hi.w
      simp only at hfl hF hc hle
      subst hfl
      rcases hc with hc | hc | hc | ⟨st, S, ha, hb, hc, hd, he⟩
      · subst hc
        simp [step, consStep, hnn, show n ≠ 1 by omega] at h
        obtain ⟨rfl, rfl⟩ := h
        simp only [written, delivered, List.append_nil, List.length_nil, Nat.add_zero]
        exact Or.inr ⟨rfl, hF, Or.inr (Or.inr (Or.inr ⟨w, _, Or.inl rfl, hw, hF, hle, Nat.le_refl _⟩))⟩
      · subst hc
        simp only [step, consStep, Option.some.injEq, Prod.mk.injEq] at h
        obtain ⟨rfl, rfl⟩ := h
        simp only [written, delivered, List.append_nil, List.length_nil, Nat.add_zero]
        exact Or.inr ⟨rfl, hF, Or.inl rfl⟩
      · subst hc
        simp only [step, consStep] at h
        split at h
        · simp only [Option.some.injEq, Prod.mk.injEq] at h
          obtain ⟨rfl, rfl⟩ := h
          simp only [written, delivered, List.append_nil, List.length_nil, Nat.add_zero]
          exact Or.inr ⟨rfl, hF, Or.inr (Or.inl rfl)⟩
        · simp at h
      · rcases ha with ha | ha | ha | ha <;> subst ha
        · have hr : r = (delivered t).length % n := hi.r
          simp only [step, consStep] at h
          split at h
          · split at h <;>
              (simp only [Option.some.injEq, Prod.mk.injEq] at h
               obtain ⟨rfl, rfl⟩ := h
               simp only [written, delivered, List.append_nil, List.length_nil, Nat.add_zero]
               refine Or.inr ⟨rfl, hF, Or.inr (Or.inr (Or.inr ⟨st, S, ?_, hb, hc, hd, he⟩))⟩
               simp [inLoop])
          · rename_i hrs
            have hrs : r = st := Decidable.byContradiction hrs
            have : (delivered t).length = S :=
              mod_unique (D := (delivered t).length) (n := n) (Nat.le_refl _) hd (by omega) (by omega) (by rw [← hr, ← hb]; exact hrs)
            exact Or.inl (by omega)
        · obtain ⟨S', h1, h2, h3, h4, _⟩ := hi.stop st (Or.inr (Or.inl rfl))
          have hlt := h4 rfl
          simp only at h3
          have : S = S' := mod_unique (D := (delivered t).length) (n := n) hd h2 (by omega) (by omega) (by rw [← hb, ← h1])
          simp only [step, consStep, Option.some.injEq, Prod.mk.injEq] at h
          obtain ⟨rfl, rfl⟩ := h
          simp only [written, delivered, List.append_nil, List.length_cons, List.length_nil, Nat.zero_add]
          exact Or.inr ⟨rfl, hF, Or.inr (Or.inr (Or.inr ⟨st, S, Or.inr (Or.inr (Or.inl rfl)), hb, hc, by omega, he⟩))⟩
        · simp only [step, consStep, Option.some.injEq, Prod.mk.injEq] at h
          obtain ⟨rfl, rfl⟩ := h
          simp only [written, delivered, List.append_nil, List.length_nil, Nat.add_zero]
          exact Or.inr ⟨rfl, hF, Or.inr (Or.inr (Or.inr ⟨st, S, Or.inr (Or.inr (Or.inr rfl)), hb, hc, hd, he⟩))⟩
        · simp only [step, consStep, Option.some.injEq, Prod.mk.injEq] at h
          obtain ⟨rfl, rfl⟩ := h
          simp only [written, delivered, List.append_nil, List.length_nil, Nat.add_zero]
          exact Or.inr ⟨rfl, hF, Or.inr (Or.inr (Or.inr ⟨st, S, Or.inl rfl, hb, hc, hd, he⟩))⟩

/-- C32: a `Flush` called while the consuming thread is waiting, or between its wait and its next reading of the write index, returns (`flushed` holds) only
when every record written before it has been delivered. Missing: a `Flush` called while the consuming thread is in its loop, for which the property is
false (`c32_flush_returns_early`). -/
theorem c32_flush_partial (n : Nat) (hn : 2 ≤ n) (ig : Bool) (es es' : List (Ev α)) (s s1 s2 : St α) (t t2 : List (Obs α))
    (h : run (started n ig) es = some (s, t)) (hidle : s.prod = .idle) (hc : s.cons = .waiting ∨ s.cons = .reset ∨ s.cons = .begin)
    (hf : step s .flush = some (s1, [])) (h2 : run s1 es' = some (s2, t2)) (hr : Roomy n (t ++ t2)) (hret : s2.flushed = true) :
    ∃ rest, delivered (t ++ t2) = (written t).map some ++ rest := by
  have hg := good_run hn ig h (roomy_prefix hr)
  have hg1 : Good n s1 t := by simpa using good_step hn hg hf (by simpa using roomy_prefix hr)
  have hf1 : Flushing n (written t).length s1 (written t) (delivered t).length := by
    simp only [step, Option.some.injEq, Prod.mk.injEq] at hf
    obtain ⟨rfl, _⟩ := hf
    refine Or.inr ⟨rfl, by simp [hidle, open?], ?_⟩
    rcases hc with hc | hc | hc
    · exact Or.inr (Or.inr (Or.inl hc))
    · exact Or.inr (Or.inl hc)
    · exact Or.inl hc
  have key : ∀ {s2 : St α} {t2 : List (Obs α)}, Reach s1 s2 t2 → Roomy n (t ++ t2) →
      Good n s2 (t ++ t2) ∧ Flushing n (written t).length s2 (written (t ++ t2)) (delivered (t ++ t2)).length := by
    intro s2 t2 hreach
    induction hreach with
    | start => intro _; simpa using ⟨hg1, hf1⟩
    | step hreach hs ih =>
      intro hr
      rw [← List.append_assoc] at hr ⊢
      obtain ⟨ha, hb⟩ := ih (roomy_prefix hr)
      have hg' := good_step hn ha hs hr
      exact ⟨hg', flushing_step hn ha hs hg' hb⟩
  obtain ⟨hg2, hfl⟩ := key (reach_run h2) hr
  rcases hfl with hle | ⟨hfalse, _⟩
  · refine ⟨((delivered (t ++ t2)).drop (written t).length), ?_⟩
    have hd := hg2.2.1
    have htake : (written t).map some = (delivered (t ++ t2)).take (written t).length := by
      rw [hd, ← List.map_take, List.take_take, Nat.min_eq_left hle, written_append, List.take_left]
    rw [htake, List.take_append_drop]
  · rw [hret] at hfalse; simp at hfalse

/-! ### Disagreements -/

/-- One complete call of `Execute`. -/
private def call (d : α) : List (Ev α) := [.exec d, .prod, .prod, .prod]

/-- Every buffer is marked and the consuming thread is blocked. -/
private def Stuck (s : St α) : Prop :=
  s.ignore = false ∧ (∀ i, i < s.n → s.flag i = true) ∧ s.w < s.n ∧ s.prod = .idle ∧ s.cons = .waiting ∧ s.sem = false

/-- Defect: with three buffers, three calls of `Execute` succeed; when the consuming thread then runs, the full ring looks empty to it: it delivers nothing,
declares everything flushed and blocks. -/
theorem c32_full_ring_looks_empty :
    ∃ (s : St Nat) (t : List (Obs Nat)),
      run (started 3 false) (call 1 ++ call 2 ++ call 3 ++ [.cons, .cons, .cons, .cons, .cons, .cons, .cons, .cons, .cons, .cons]) = some (s, t) ∧
      .overrun ∉ t ∧ written t = [1, 2, 3] ∧ delivered t = [] ∧ s.flushed = true ∧ step s .cons = none ∧
      (s.ignore = false ∧ (∀ i, i < s.n → s.flag i = true) ∧ s.w < s.n ∧ s.prod = .idle ∧ s.cons = .waiting ∧ s.sem = false) := by
  refine ⟨_, _, rfl, by decide, by decide, by decide, rfl, rfl, rfl, ?_, by decide, rfl, rfl, rfl⟩
  show ∀ i, i < 3 → _
  decide

/-- Defect: from such a state, whatever the number of further calls of `Execute`, each of them reports an overrun and the consuming thread stays blocked. -/
theorem c32_stuck_for_ever (ds : List α) (s : St α)
    (hs : s.ignore = false ∧ (∀ i, i < s.n → s.flag i = true) ∧ s.w < s.n ∧ s.prod = .idle ∧ s.cons = .waiting ∧ s.sem = false) :
    ∃ s', run s (ds.flatMap fun d => [.exec d, .prod, .prod]) = some (s', ds.flatMap fun d => [.called d, .overrun, .returned false]) ∧
      step s' .cons = none := by
  have key : ∀ (ds : List α) (s : St α), Stuck s → ∃ s', run s (ds.flatMap fun d => [.exec d, .prod, .prod]) =
      some (s', ds.flatMap fun d => [.called d, .overrun, .returned false]) ∧ Stuck s' := by
    intro ds
    induction ds with
    | nil => intro s hs; exact ⟨s, rfl, hs⟩
    | cons d ds ih =>
      intro s hs
      obtain ⟨h1, h2, h3, h4, h5, h6⟩ := hs
      obtain ⟨s', hr, hs'⟩ := ih { s with flag := upd s.flag s.w true, w := incr s.n s.w, prod := .idle } (by
        refine ⟨h1, ?_, ?_, rfl, h5, h6⟩
        · intro i hi
          simp only [upd]
          split
          · rfl
          · exact h2 i hi
        · simp only [incr]; split <;> omega)
      refine ⟨s', ?_, hs'⟩
      simp [run, step, prodStep, h1, h2 s.w h3, h4] at hr ⊢
      rw [hr]
  obtain ⟨s', h, h1⟩ := key ds s hs
  refine ⟨s', h, ?_⟩
  obtain ⟨_, _, _, _, h5, h6⟩ := h1
  simp [step, consStep, h5, h6]

/-- Defect: right after initialisation the read index is the last buffer. If the thread first runs after two calls of `Execute` (three buffers), it misses them,
and then delivers the third record first. -/
theorem c32_first_pass_out_of_order :
    ((run (init 3 false) (call 1 ++ call 2 ++ [.cons, .cons, .cons] ++ call 3 ++ [.cons, .cons, .cons, .cons, .cons])).map
      fun p => (delivered p.2, written p.2, decide (.overrun ∈ p.2))) = some ([some 3], [1, 2, 3], false) := by decide

/-- From initialisation, the thread alone reaches the waiting state from which the theorems above start. -/
theorem c32_started_reached (n : Nat) (hn : 2 ≤ n) (ig : Bool) :
    ∃ s, run (init n ig : St α) [.cons, .cons, .cons, .cons, .cons] = some (s, []) ∧ s = started n ig := by
  refine ⟨started n ig, ?_, rfl⟩
  have h1 : n ≠ 1 := by omega
  have h2 : n - 1 ≠ 0 := by omega
  have h3 : 1 < n := by omega
  have h4 : n - 1 + 1 = n := by omega
  simp [run, step, consStep, init, started, h1, h2, h3, h4, incr]

/-- Defect: a `Flush` called while the thread is in its loop returns although a record written before is still waiting. -/
theorem c32_flush_returns_early :
    ((run (started 4 false) (call 1 ++ [.cons, .cons, .cons] ++ call 2 ++ [.flush, .cons, .cons, .cons, .cons, .cons, .cons])).map
      fun p => (delivered p.2, written p.2, p.1.flushed)) = some ([some 1], [1, 2], true) := by decide

/-- Defect: an `Execute` that reports an overrun can make an old record be delivered twice. -/
theorem c32_overrun_repeats_record :
    ((run (started 1 false) (call 1 ++ [.cons, .cons, .cons, .cons, .exec 2, .cons, .cons, .prod, .prod, .cons, .cons, .cons, .cons, .cons, .cons, .cons, .cons, .cons])).map
      fun p => (delivered p.2, written p.2)) = some ([some 1, some 1], [1]) := by decide

private def roomyFrom (n w d : Nat) : List (Obs α) → Bool
  | [] => true
  | .called _ :: t => decide (w + 2 ≤ n + d) && roomyFrom n w d t
  | .written _ :: t => roomyFrom n (w + 1) d t
  | .delivered _ :: t => roomyFrom n w (d + 1) t
  | _ :: t => roomyFrom n w d t

private theorem roomyFrom_sound (n : Nat) : ∀ (t : List (Obs α)) (w d : Nat), roomyFrom n w d t = true →
    ∀ pre c post, t = pre ++ .called c :: post → w + (written pre).length + 2 ≤ n + (d + (delivered pre).length) := by
  intro t
  induction t with
  | nil => intro w d _ pre c post e; simp at e
  | cons x t ih =>
    intro w d h pre c post e
    cases pre with
    | nil =>
      simp at e
      obtain ⟨rfl, rfl⟩ := e
      simp [roomyFrom] at h
      simp [written, delivered]; omega
    | cons y pre =>
      simp at e
      obtain ⟨rfl, rfl⟩ := e
      cases x with
      | called c' => simp [roomyFrom] at h; simpa [written, delivered] using ih w d h.2 pre c post rfl
      | written c' => simp [roomyFrom] at h; have := ih (w + 1) d h pre c post rfl; simp [written, delivered]; omega
      | delivered c' => simp [roomyFrom] at h; have := ih w (d + 1) h pre c post rfl; simp [written, delivered]; omega
      | overrun => simp [roomyFrom] at h; simpa [written, delivered] using ih w d h pre c post rfl
      | returned b => simp [roomyFrom] at h; simpa [written, delivered] using ih w d h pre c post rfl

/-- Non-vacuity: a roomy schedule with four buffers, in which the threads interleave. -/
example : ∃ (s : St Nat) (t : List (Obs Nat)),
    run (started 4 false) [.exec 1, .prod, .prod, .prod, .cons, .cons, .cons, .exec 2, .cons, .prod, .cons, .prod, .prod, .flush, .cons, .cons, .cons, .cons] =
      some (s, t) ∧ Roomy 4 t ∧ delivered t = [some 1] ∧ written t = [1, 2] := by
  refine ⟨_, _, rfl, ?_, by decide, by decide⟩
  intro pre c post e
  simpa using roomyFrom_sound 4 _ 0 0 (by decide) pre c post e

/-! ### A single buffer -/

private structure Inv1 (s : St α) (ws : List α) (D : Nat) : Prop where
  hn : s.n = 1
  w : s.w = 0
  ig : s.ignore = false
  noOver : s.prod ≠ .marking none ∧ s.prod ≠ .closing false
  busy : (∃ d, s.prod = .copying d) ∨ (∃ d, s.prod = .marking (some d)) → s.flag 0 = false
  memW : ∀ d, s.prod = .marking (some d) → s.mem 0 = some d
  full : s.flag 0 = true → (∀ st, s.cons ≠ .clearing st) → ws.length = D + 1 ∧ ∀ h : D < ws.length, s.mem 0 = some ws[D]
  empty : s.flag 0 = false → ws.length = D
  clear : ∀ st, s.cons = .clearing st → ws.length = D
  copy : ∀ st, s.cons = .copying st → s.flag 0 = true
  r0 : ∀ st, (s.cons = .copying st ∨ s.cons = .clearing st ∨ s.cons = .advance st) → s.r = 0 ∧ st = 1
  r1 : ∀ st, s.cons = .scan st → s.r ≤ 1 ∧ st = 1
  clr : ∀ st, s.cons = .clearing st → s.flag 0 = true
  wake : (s.cons = .finish ∨ s.cons = .waiting ∨ (∃ st, s.cons = .advance st) ∨ (∃ st, s.cons = .scan st) ∧ s.r = 1) → open? s.prod = 0 →
    ws.length ≠ D → s.sem = true

private theorem inv1_step {s : St α} {ws : List α} {D : Nat} {e : Ev α} {s' : St α} {o : List (Obs α)} (hi : Inv1 s ws D)
    (h : step s e = some (s', o)) (ho : .overrun ∉ o) :
    Inv1 s' (ws ++ written o) (D + (delivered o).length) ∧ delivered o = (((ws ++ written o).drop D).take (delivered o).length).map some := by
  obtain ⟨n', ig, mem, flag, w, r, sem, posted, flushed, prod, cons⟩ := s
  obtain ⟨hn, hw, hig, hno, hbusy, hmW, hfull, hempty, hclear, hcopy, hr0, hr1, hclr, hwake⟩ := hi
  simp only at hn hw hig hno hbusy hmW hfull hempty hclear hcopy hr0 hr1 hclr hwake
  subst hn hw hig
  cases e with
  | exec d =>
    cases prod with
    | idle =>
      simp only [step] at h
      split at h
      · simp at h; obtain ⟨_, rfl⟩ := h; simp at ho
      · rename_i hf
        simp at hf
        simp at h; obtain ⟨rfl, rfl⟩ := h
        simp only [written, delivered, List.append_nil, List.length_nil, Nat.add_zero, List.take_zero, List.map_nil, and_true]
        exact ⟨rfl, rfl, rfl, by simp, fun _ => hf, by simp, hfull, hempty, hclear, hcopy, hr0, hr1, hclr, hwake⟩
    | copying d => simp [step] at h
    | marking d => simp [step] at h
    | closing b => simp [step] at h
  | prod =>
    cases prod with
    | idle => simp [step, prodStep] at h
    | copying d =>
      simp [step, prodStep] at h
      obtain ⟨rfl, rfl⟩ := h
      have hf := hbusy (Or.inl ⟨d, rfl⟩)
      simp only [written, delivered, List.append_nil, List.length_nil, Nat.add_zero, List.take_zero, List.map_nil, and_true]
      refine ⟨rfl, rfl, rfl, by simp, fun _ => hf, ?_, ?_, hempty, hclear, hcopy, hr0, hr1, hclr, hwake⟩
      · intro d' hd'; simp at hd'; simp [upd, hd']
      · intro h; simp [hf] at h
    | marking d =>
      cases d with
      | none => exact absurd rfl hno.1
      | some d =>
        simp [step, prodStep] at h
        obtain ⟨rfl, rfl⟩ := h
        have hf := hbusy (Or.inr ⟨d, rfl⟩)
        have hm := hmW d rfl
        have hl := hempty hf
        simp only [written, delivered, List.length_nil, Nat.add_zero, List.take_zero, List.map_nil, and_true]
        refine ⟨rfl, rfl, rfl, by simp, by simp, by simp, ?_, by simp [upd], ?_, ?_, hr0, hr1, ?_, by simp [open?]⟩
        · intro _ _
          refine ⟨by simp [hl], ?_⟩
          intro _
          simp [← hl, hm]
        · intro st hst; have := hclr st hst; simp [hf] at this
        · intro st hst; simp [upd]
        · intro st hst; simp [upd]
    | closing b =>
      cases b with
      | false => exact absurd rfl hno.2
      | true =>
        simp [step, prodStep] at h
        obtain ⟨rfl, rfl⟩ := h
        simp only [written, delivered, List.append_nil, List.length_nil, Nat.add_zero, List.take_zero, List.map_nil, and_true]
        exact ⟨rfl, by simp [incr], rfl, by simp, by simp, by simp, hfull, hempty, hclear, hcopy, hr0, hr1, hclr, by simp⟩
  | flush =>
    simp only [step, Option.some.injEq, Prod.mk.injEq] at h
    obtain ⟨rfl, rfl⟩ := h
    simp only [written, delivered, List.append_nil, List.length_nil, Nat.add_zero, List.take_zero, List.map_nil, and_true]
    exact ⟨rfl, rfl, rfl, hno, hbusy, hmW, hfull, hempty, hclear, hcopy, hr0, hr1, hclr, by simp⟩
  | cons =>
    cases cons with
    | begin =>
      simp [step, consStep] at h
      obtain ⟨rfl, rfl⟩ := h
      simp only [written, delivered, List.append_nil, List.length_nil, Nat.add_zero, List.take_zero, List.map_nil, and_true]
      exact ⟨rfl, rfl, rfl, hno, hbusy, hmW, fun h _ => hfull h (by simp), hempty, by simp, by simp, by simp, by simp, by simp, by simp⟩
    | scan st =>
      obtain ⟨h1, h2⟩ := hr1 st rfl
      subst h2
      by_cases hr : r = 1
      · subst hr
        simp [step, consStep] at h
        obtain ⟨rfl, rfl⟩ := h
        simp only [written, delivered, List.append_nil, List.length_nil, Nat.add_zero, List.take_zero, List.map_nil, and_true]
        exact ⟨rfl, rfl, rfl, hno, hbusy, hmW, fun h _ => hfull h (by simp), hempty, by simp, by simp, by simp, by simp, by simp,
          fun _ => hwake (by simp)⟩
      · have hr' : r = 0 := by omega
        subst hr'
        cases hf : flag 0 with
        | true =>
          simp [step, consStep, hf] at h
          obtain ⟨rfl, rfl⟩ := h
          simp only [written, delivered, List.append_nil, List.length_nil, Nat.add_zero, List.take_zero, List.map_nil, and_true]
          exact ⟨rfl, rfl, rfl, hno, hbusy, hmW, fun h _ => hfull h (by simp), hempty, by simp, fun _ _ => hf, by simp, by simp, by simp, by simp⟩
        | false =>
          simp [step, consStep, hf] at h
          obtain ⟨rfl, rfl⟩ := h
          simp only [written, delivered, List.append_nil, List.length_nil, Nat.add_zero, List.take_zero, List.map_nil, and_true]
          exact ⟨rfl, rfl, rfl, hno, hbusy, hmW, fun h _ => hfull h (by simp), hempty, by simp, by simp, by simp, by simp, by simp,
            fun _ _ hne => absurd (hempty hf) hne⟩
    | copying st =>
      obtain ⟨h1, h2⟩ := hr0 st (Or.inl rfl)
      have hf := hcopy st rfl
      subst h1 h2
      obtain ⟨hl, hm⟩ := hfull hf (by simp)
      have hlt : D < ws.length := by omega
      simp only [step, consStep, Option.some.injEq, Prod.mk.injEq] at h
      obtain ⟨rfl, rfl⟩ := h
      simp only [written, delivered, List.append_nil, List.length_cons, List.length_nil, Nat.zero_add]
      refine ⟨⟨rfl, rfl, rfl, hno, hbusy, hmW, by simp, ?_, ?_, by simp, by simp, by simp, fun _ _ => hf, by simp⟩, ?_⟩
      · intro h; simp [hf] at h
      · intro _ _; exact hl
      · rw [List.drop_eq_getElem_cons hlt]
        simp only [List.take_succ_cons, List.take_zero, List.map_cons, List.map_nil, hm hlt]
    | clearing st =>
      obtain ⟨h1, h2⟩ := hr0 st (Or.inr (Or.inl rfl))
      have hf := hclr st rfl
      have hl := hclear st rfl
      subst h1 h2
      simp only [step, consStep, Option.some.injEq, Prod.mk.injEq] at h
      obtain ⟨rfl, rfl⟩ := h
      simp only [written, delivered, List.append_nil, List.length_nil, Nat.add_zero, List.take_zero, List.map_nil, and_true]
      exact ⟨rfl, rfl, rfl, hno, fun _ => by simp [upd], hmW, by simp [upd], fun _ => hl, by simp, by simp, by simp, by simp, by simp,
        fun _ _ hne => absurd hl hne⟩
    | advance st =>
      obtain ⟨h1, h2⟩ := hr0 st (Or.inr (Or.inr rfl))
      subst h1 h2
      simp [step, consStep] at h
      obtain ⟨rfl, rfl⟩ := h
      simp only [written, delivered, List.append_nil, List.length_nil, Nat.add_zero, List.take_zero, List.map_nil, and_true]
      exact ⟨rfl, rfl, rfl, hno, hbusy, hmW, fun h _ => hfull h (by simp), hempty, by simp, by simp, by simp, by simp, by simp,
        fun _ => hwake (by simp)⟩
    | finish =>
      simp [step, consStep] at h
      obtain ⟨rfl, rfl⟩ := h
      simp only [written, delivered, List.append_nil, List.length_nil, Nat.add_zero, List.take_zero, List.map_nil, and_true]
      exact ⟨rfl, rfl, rfl, hno, hbusy, hmW, fun h _ => hfull h (by simp), hempty, by simp, by simp, by simp, by simp, by simp,
        fun _ => hwake (by simp)⟩
    | waiting =>
      simp only [step, consStep] at h
      split at h
      · simp at h
        obtain ⟨rfl, rfl⟩ := h
        simp only [written, delivered, List.append_nil, List.length_nil, Nat.add_zero, List.take_zero, List.map_nil, and_true]
        exact ⟨rfl, rfl, rfl, hno, hbusy, hmW, fun h _ => hfull h (by simp), hempty, by simp, by simp, by simp, by simp, by simp, by simp⟩
      · simp at h
    | reset =>
      simp [step, consStep] at h
      obtain ⟨rfl, rfl⟩ := h
      simp only [written, delivered, List.append_nil, List.length_nil, Nat.add_zero, List.take_zero, List.map_nil, and_true]
      exact ⟨rfl, rfl, rfl, hno, hbusy, hmW, fun h _ => hfull h (by simp), hempty, by simp, by simp, by simp, by simp, by simp, by simp⟩

private theorem inv1_reach {s : St α} {t : List (Obs α)} (h : Reach (init 1 false) s t) (ho : .overrun ∉ t) :
    Inv1 s (written t) (delivered t).length ∧ delivered t = ((written t).take (delivered t).length).map some := by
  induction h with
  | start =>
    refine ⟨?_, rfl⟩
    constructor <;> simp [init, written, delivered]
  | step hr hs ih =>
    rename_i s1 t1 e s2 o
    have ho1 : .overrun ∉ t1 := fun h => ho (List.mem_append.mpr (Or.inl h))
    have ho2 : .overrun ∉ o := fun h => ho (List.mem_append.mpr (Or.inr h))
    obtain ⟨hi, hd⟩ := ih ho1
    obtain ⟨hi', hd'⟩ := inv1_step hi hs ho2
    rw [written_append, delivered_append, List.length_append]
    refine ⟨hi', ?_⟩
    have hlen : (delivered t1).length ≤ (written t1).length := by
      cases hf : s1.flag 0 with
      | false => have := hi.empty hf; omega
      | true =>
        by_cases hc : ∃ st, s1.cons = .clearing st
        · obtain ⟨st, hc⟩ := hc
          have := hi.clear st hc; omega
        · have := hi.full hf (fun st h => hc ⟨st, h⟩); omega
    rw [List.take_add, List.map_append, ← hd', List.take_append_of_le_length hlen, ← hd]

/-- C32: with a single buffer, from the end of the initialisation and in every schedule in which no overrun has been reported, the data handed to the data
source are the first records written, in order, each once, with the right content; at most one is waiting; and when the consuming thread is blocked and
`Execute` is not running, all have been delivered. -/
theorem c32_single_buffer (es : List (Ev α)) (s : St α) (t : List (Obs α)) (h : run (init 1 false) es = some (s, t)) (ho : .overrun ∉ t) :
    (∃ rest, (written t).map some = delivered t ++ rest ∧ rest.length ≤ 1) ∧
    (s.prod = .idle → s.cons = .waiting → step s .cons = none → delivered t = (written t).map some) := by
  obtain ⟨hi, hd⟩ := inv1_reach (reach_run h) ho
  have hcases : (written t).length = (delivered t).length ∨ (written t).length = (delivered t).length + 1 := by
    cases hf : s.flag 0 with
    | false => exact Or.inl (hi.empty hf)
    | true =>
      by_cases hc : ∃ st, s.cons = .clearing st
      · obtain ⟨st, hc⟩ := hc
        exact Or.inl (hi.clear st hc)
      · exact Or.inr (hi.full hf (fun st h => hc ⟨st, h⟩)).1
  refine ⟨⟨((written t).drop (delivered t).length).map some, ?_, ?_⟩, ?_⟩
  · conv => rhs; lhs; rw [hd]
    rw [← List.map_append, List.take_append_drop]
  · simp; omega
  · intro hp hc hb
    have hsem : s.sem = false := by
      simp only [step, consStep, hc] at hb
      split at hb
      · simp at hb
      · rename_i h; simpa using h
    have hw := hi.wake (Or.inr (Or.inl hc)) (by simp [hp, open?])
    have hD : (written t).length = (delivered t).length := by
      apply Decidable.byContradiction
      intro hne; rw [hsem] at hw; exact absurd (hw hne) (by simp)
    rw [hd, ← hD, List.take_length]

/-- Non-vacuity. -/
example : ((run (init 1 false) (call 1 ++ [.cons, .cons, .cons, .cons, .cons, .cons, .exec 2, .prod, .cons, .prod, .cons, .cons, .prod, .cons, .cons, .cons, .cons])).map
    fun p => (delivered p.2, written p.2, decide (.overrun ∈ p.2))) = some ([some 1, some 2], [1, 2], false) := by decide

end Verif.Props
