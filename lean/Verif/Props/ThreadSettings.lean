import Verif.Spec.ThreadSettings
/-!
# C137: the settings of a service with one thread
-/
set_option linter.unusedSimpArgs false
namespace Verif.ThreadSettings
open Spec

private theorem step_inv (perMsec cpu stack : Nat) (h : List Op) (op : Op) {s : Service}
    (h1 : s.own = inForce perMsec cpu stack h) (h2 : s.thread = { s.own with timeout := ticks s.own.timeout }) (h3 : s.alive = running h) :
    (step perMsec s op).own = inForce perMsec cpu stack (op :: h) ∧
      (step perMsec s op).thread = { (step perMsec s op).own with timeout := ticks (step perMsec s op).own.timeout } ∧
      (step perMsec s op).alive = running (op :: h) := by
  obtain ⟨o, t, a⟩ := s
  dsimp only at h1 h2 h3
  subst h1 h2 h3
  cases op with
  | start ok => cases hr : running h <;> cases ok <;> simp [step, start, off, running, hr, inForce, last, givesTimeout, givesClass, givesLevel, givesCpu, givesStack]
  | stop e => cases hr : running h <;> cases e <;> simp [step, running, hr, inForce, last, givesTimeout, givesClass, givesLevel, givesCpu, givesStack]
  | ends => simp [step, running, inForce, last, givesTimeout, givesClass, givesLevel, givesCpu, givesStack]
  | setTimeout t => simp [step, setTimeout, running, inForce, last, givesTimeout, givesClass, givesLevel, givesCpu, givesStack]
  | setClass x => cases hr : running h <;> simp [step, setClass, off, running, hr, inForce, last, givesTimeout, givesClass, givesLevel, givesCpu, givesStack]
  | setLevel x => cases hr : running h <;> simp [step, setLevel, off, running, hr, inForce, last, givesTimeout, givesClass, givesLevel, givesCpu, givesStack]
  | setStack x => cases hr : running h <;> simp [step, setStack, off, running, hr, inForce, last, givesTimeout, givesClass, givesLevel, givesCpu, givesStack]
  | setCpu x => cases hr : running h <;> simp [step, setCpu, off, running, hr, inForce, last, givesTimeout, givesClass, givesLevel, givesCpu, givesStack]
  | initialise c =>
    obtain ⟨ct, cl, cc, cs, ck⟩ := c
    have hk : ∀ x : String, named x = if x = "IdlePriorityClass" then some .idle else if x = "NormalPriorityClass" then some .normal
        else if x = "RealTimePriorityClass" then some .realTime else none := fun _ => rfl
    cases hr : running h <;> cases ct <;> cases cl <;> cases cc <;> cases cs <;> cases ck <;>
      simp only [step, initialise, Option.isSome, running, hr] <;> (repeat' split) <;>
      simp_all [setTimeout, setClass, setLevel, setStack, setCpu, off, running, inForce, last, givesTimeout, givesClass, givesLevel, givesCpu, givesStack, named]

private theorem run_inv (perMsec cpu stack : Nat) : ∀ h : List Op,
    (run perMsec (new cpu stack) h.reverse).own = inForce perMsec cpu stack h ∧
      (run perMsec (new cpu stack) h.reverse).thread =
        { (run perMsec (new cpu stack) h.reverse).own with timeout := ticks (run perMsec (new cpu stack) h.reverse).own.timeout } ∧
      (run perMsec (new cpu stack) h.reverse).alive = running h
  | [] => ⟨rfl, rfl, rfl⟩
  | op :: h => by
    obtain ⟨h1, h2, h3⟩ := run_inv perMsec cpu stack h
    have e : run perMsec (new cpu stack) (op :: h).reverse = step perMsec (run perMsec (new cpu stack) h.reverse) op := by
      simp [run, List.foldl_append]
    rw [e]
    exact step_inv perMsec cpu stack h op h1 h2 h3

/-- **C137.** After every history, the service tells the settings that were given last while the thread was not running, and the timeout that was given last. -/
theorem c137_told (perMsec cpu stack : Nat) (ops : List Op) :
    (run perMsec (new cpu stack) ops).own = inForce perMsec cpu stack ops.reverse := by
  have := (run_inv perMsec cpu stack ops.reverse).1
  rwa [List.reverse_reverse] at this

/-- **C137.** After every history, a thread is begun exactly when none is running and the system begins it, and `Start` tells it; it is begun with the settings
that the service tells, when the timeout is short. -/
theorem c137_started_partial (perMsec cpu stack : Nat) (ops : List Op) (ok : Bool) (ht : Short (inForce perMsec cpu stack ops.reverse).timeout) :
    (start ok (run perMsec (new cpu stack) ops)).2 =
      if running ops.reverse = false ∧ ok = true then (true, some (inForce perMsec cpu stack ops.reverse)) else (false, none) := by
  obtain ⟨h1, h2, h3⟩ := run_inv perMsec cpu stack ops.reverse
  rw [List.reverse_reverse] at h1 h2 h3
  have e : ticks (inForce perMsec cpu stack ops.reverse).timeout = (inForce perMsec cpu stack ops.reverse).timeout := by
    generalize (inForce perMsec cpu stack ops.reverse).timeout = t at ht
    cases t with
    | none => rfl
    | some x =>
      have := ht x rfl
      show (if x < 0x7FFFFFFF then some x else some 0x7FFFFFFF) = some x
      split
      · rfl
      · have : x = 0x7FFFFFFF := by omega
        rw [this]
  rw [h1, e] at h2
  unfold start off
  rw [h3]
  cases running ops.reverse <;> cases ok <;> simp [h2]

/-- **C137.** A configuration is accepted exactly when it has a timeout and, if it has a class, a known one. -/
theorem c137_accepted (perMsec : Nat) (c : Config) (s : Service) :
    (initialise perMsec c s).2 = true ↔ c.timeout.isSome = true ∧ ∀ x, c.cls = some x → (named x).isSome = true := by
  obtain ⟨ct, cl, cc, cs, ck⟩ := c
  cases ck with
  | none => simp [initialise]
  | some x =>
    simp only [initialise, named]
    (repeat' split) <;> simp_all

/-- **C137 fails for long timeouts**: the thread has another timeout than the service tells, of 2³¹ - 1 ticks (about one second of a timer with 2 GHz). -/
theorem c137_long_fails (perMsec cpu stack t : Nat) (h : t ≥ 2 ^ 31) :
    let s := run perMsec (new cpu stack) [.setTimeout (some t)]
    s.own.timeout = some t ∧ (start true s).2.2.map (·.timeout) = some (some (2 ^ 31 - 1)) := by
  have : ¬ t < 0x7FFFFFFF := by omega
  simp [run, step, setTimeout, new, start, off, ticks]
  omega

/-- **C137 fails for configurations that are refused**: the settings in it are in force. -/
theorem c137_refused_fails (perMsec x : Nat) (s : Service) (h : s.alive = false) :
    let r := initialise perMsec ⟨none, some x, none, none, none⟩ s
    r.2 = false ∧ r.1.own.level = x ∧ r.1.thread.level = x := by
  simp [initialise, setLevel, off, h]

/-- **C137 fails for configurations of a running service**: it is accepted, and what is in it is not in force, but for the timeout. -/
theorem c137_running_fails (perMsec x t : Nat) (s : Service) (h : s.alive = true) :
    let r := initialise perMsec ⟨some t, some x, none, none, none⟩ s
    r.2 = true ∧ r.1.own.level = s.own.level := by
  simp only [initialise]
  split <;> simp [setTimeout, setLevel, off, h]

/-- A history with a setting that is given to a running thread, and again after it ended. -/
example : inForce 1000 1 100 [.setLevel 7, .ends, .setLevel 9, .start true, .initialise ⟨some 5, some 3, none, some 50, some "IdlePriorityClass"⟩] =
    ⟨some 5000, .idle, 7, 1, 50⟩ := by decide

end Verif.ThreadSettings
