import Verif.Spec.SdHelper
/-!
# C98: reading a configuration with one error flag
-/
set_option linter.unusedSimpArgs false
namespace Verif.Props.SdHelper
open Verif.SdHelper Verif.Spec.SdHelper

variable {S V W : Type}

private theorem call_stuck (c : Call S) (s : S) : call c ⟨true, s⟩ = (false, ⟨true, s⟩) := by
  cases c <;> simp [call, pass, readValue, readEnum, readValidated]

/-- After a failure nothing is done, whatever is called: every answer is no and neither the configuration nor a destination changes. -/
theorem c98_stuck (cs : List (Call S)) (s : S) : run cs ⟨true, s⟩ = (cs.map fun _ => false, ⟨true, s⟩) := by
  induction cs with
  | nil => rfl
  | cons c cs ih => simp only [run, call_stuck, ih, List.map_cons]

private theorem search_eq (o : Text) : ∀ (options values : List Text) (i : Nat) (pre : List Text), pre.length = i → options.length = values.length →
    (searchOption o i options).bind (fun j => (pre ++ values)[j]?) = (options.zip values).lookup o := by
  intro options
  induction options with
  | nil => intro values i pre _ _; simp [searchOption]
  | cons x xs ih =>
    intro values i pre hi hl
    cases values with
    | nil => simp at hl
    | cons v vs =>
      simp only [searchOption, List.zip_cons_cons, List.lookup_cons]
      by_cases h : x = o
      · have hb : (o == x) = true := by simp [h]
        rw [if_pos h, hb]
        simp [← hi]
      · have hb : (o == x) = false := by simpa using fun e => h e.symm
        rw [if_neg h, hb]
        have := ih vs (i + 1) (pre ++ [v]) (by simp [hi]) (by simpa using hl)
        simpa using this

private theorem search_some (o : Text) : ∀ (options : List Text) (i j : Nat), searchOption o i options = some j → j < i + options.length := by
  intro options
  induction options with
  | nil => intro i j h; simp [searchOption] at h
  | cons x xs ih =>
    intro i j h
    simp only [searchOption] at h
    by_cases hx : x = o
    · rw [if_pos hx] at h; injection h with h; subst h; simp
    · rw [if_neg hx] at h; have := ih _ _ h; simp; omega

private theorem call_does (c : Call S) (s : S) : ∃ s', call c ⟨false, s⟩ = ((call c ⟨false, s⟩).1, ⟨!(call c ⟨false, s⟩).1, s'⟩) ∧
    Does c s (call c ⟨false, s⟩).1 s' := by
  cases c with
  | pass f =>
    refine ⟨(f s).2, ?_, ?_⟩
    · simp [call, pass]
    · simp only [call, pass, Bool.false_eq_true, if_false, Bool.not_not]; exact Does.pass f s
  | read g d =>
    cases hg : (g s).1 with
    | true =>
      refine ⟨(g s).2, ?_, ?_⟩
      · simp [call, readValue, hg]
      · simp only [call, readValue, hg, Bool.false_eq_true, if_false, if_true]; exact Does.read g d s hg
    | false =>
      cases d with
      | none =>
        refine ⟨(g s).2, ?_, ?_⟩
        · simp [call, readValue, hg]
        · simp only [call, readValue, hg, Bool.false_eq_true, if_false]; exact Does.missing g s hg
      | some f =>
        refine ⟨(f (g s).2).2, ?_, ?_⟩
        · simp [call, readValue, hg]
        · simp only [call, readValue, hg, Bool.false_eq_true, if_false, Bool.not_not]; exact Does.byDefault g f s hg
  | validated g e =>
    refine ⟨(g s).2, ?_, ?_⟩
    · cases hg : (g s).1 with
      | false => simp [call, readValidated, readValue, hg]
      | true =>
        cases he : e (g s).2 with
        | none => simp [call, readValidated, readValue, hg, he]
        | some v => by_cases hv : v = 1 <;> simp [call, readValidated, readValue, hg, he, hv]
    · cases hg : (g s).1 with
      | false =>
        have : (call (.validated g e) ⟨false, s⟩).1 = false := by simp [call, readValidated, readValue, hg]
        rw [this]; exact Does.validatedNot g e s (fun h => by rw [hg] at h; cases h)
      | true =>
        by_cases he : e (g s).2 = some 1
        · have : (call (.validated g e) ⟨false, s⟩).1 = true := by simp [call, readValidated, readValue, hg, he]
          rw [this]; exact Does.validated g e s hg he
        · have : (call (.validated g e) ⟨false, s⟩).1 = false := by
            cases hv : e (g s).2 with
            | none => simp [call, readValidated, readValue, hg, hv]
            | some v =>
              have : v ≠ 1 := fun h => he (by rw [hv, h])
              simp [call, readValidated, readValue, hg, hv, this]
          rw [this]; exact Does.validatedNot g e s (fun _ => he)
  | enum g options values d set =>
    by_cases hl : options.length = values.length
    · -- the option that is looked for
      have hsel : ∀ o : Option Text, optionText (g s) d = o → (∀ x, o = some x ↔ (g s = some x ∨ g s = none ∧ d = some x)) := by
        intro o ho x
        subst ho
        cases hgs : g s <;> simp [optionText]
      cases ho : optionText (g s) d with
      | none =>
        refine ⟨s, ?_, ?_⟩
        · by_cases h0 : options.length = 0 <;> simp [call, readEnum, hl, ho, h0]
        · have : (call (.enum g options values d set) ⟨false, s⟩).1 = false := by
            by_cases h0 : options.length = 0 <;> simp [call, readEnum, hl, ho, h0]
          rw [this]
          refine Does.enumNot _ _ _ _ _ _ (fun o v s' _ h _ _ => ?_)
          have := ((hsel none ho) o).mpr h
          cases this
      | some o =>
        have hlk := search_eq o options values 0 [] rfl hl
        simp only [List.nil_append] at hlk
        by_cases h0 : options.length = 0
        · have hnil : options = [] := List.length_eq_zero_iff.mp h0
          refine ⟨s, by simp [call, readEnum, h0], ?_⟩
          have : (call (.enum g options values d set) ⟨false, s⟩).1 = false := by simp [call, readEnum, h0]
          rw [this]
          refine Does.enumNot _ _ _ _ _ _ (fun o v s' _ _ h _ => ?_)
          rw [hnil] at h; simp at h
        · cases hs : searchOption o 0 options with
          | none =>
            rw [hs] at hlk
            have hcall : call (.enum g options values d set) ⟨false, s⟩ = (false, ⟨true, s⟩) := by
              simp only [call, readEnum, Bool.false_eq_true, if_false, h0, hl, ne_eq, not_true_eq_false, ho, hs]
              rw [if_neg (by omega)]
            refine ⟨s, by rw [hcall]; rfl, ?_⟩
            rw [hcall]
            refine Does.enumNot _ _ _ _ _ _ (fun o' v s' _ h hz _ => ?_)
            have : o = o' := by have := ((hsel (some o) ho) o').mpr h; injection this
            subst this
            rw [← hlk] at hz; simp at hz
          | some i =>
            rw [hs] at hlk
            simp only [Option.bind_some] at hlk
            have hi : i < values.length := by have := search_some o options 0 i hs; omega
            have hv : values[i]? = some values[i] := List.getElem?_eq_getElem hi
            cases hset : set values[i] s with
            | none =>
              have hcall : call (.enum g options values d set) ⟨false, s⟩ = (false, ⟨true, s⟩) := by
                simp only [call, readEnum, Bool.false_eq_true, if_false, h0, hl, ne_eq, not_true_eq_false, ho, hs, hv, hset]
                rw [if_neg (by omega)]
              refine ⟨s, by rw [hcall]; rfl, ?_⟩
              rw [hcall]
              refine Does.enumNot _ _ _ _ _ _ (fun o' v s' _ h hz hss => ?_)
              have : o = o' := by have := ((hsel (some o) ho) o').mpr h; injection this
              subst this
              rw [← hlk, hv] at hz; injection hz with hz; subst hz
              rw [hset] at hss; cases hss
            | some s' =>
              have hcall : call (.enum g options values d set) ⟨false, s⟩ = (true, ⟨false, s'⟩) := by
                simp only [call, readEnum, Bool.false_eq_true, if_false, h0, hl, ne_eq, not_true_eq_false, ho, hs, hv, hset]
                rw [if_neg (by omega)]
              refine ⟨s', by rw [hcall]; rfl, ?_⟩
              rw [hcall]
              exact Does.enum _ _ _ _ _ _ o values[i] s' hl (((hsel (some o) ho) o).mp rfl) (by rw [← hlk, hv]) hset
    · refine ⟨s, ?_, ?_⟩
      · by_cases h0 : options.length = 0 <;> simp [call, readEnum, hl, h0]
      · have : (call (.enum g options values d set) ⟨false, s⟩).1 = false := by
          by_cases h0 : options.length = 0 <;> simp [call, readEnum, hl, h0]
        rw [this]
        exact Does.enumNot _ _ _ _ _ _ (fun o v s' h _ _ _ => absurd h hl)

/-- **C98.** Whatever the calls: they are made, one after the other, until one fails; that one and all after it answer no and the later ones do
nothing; the flag is set exactly when one has failed. -/
theorem c98_run (cs : List (Call S)) (s : S) : ∃ bs s' e, run cs ⟨false, s⟩ = (bs, ⟨e, s'⟩) ∧ Runs cs s bs s' e := by
  induction cs generalizing s with
  | nil => exact ⟨[], s, false, rfl, Runs.nil s⟩
  | cons c cs ih =>
    obtain ⟨s1, e1, hd⟩ := call_does c s
    cases hb : (call c ⟨false, s⟩).1 with
    | true =>
      rw [hb] at e1 hd
      obtain ⟨bs, s', e, hr, hR⟩ := ih s1
      refine ⟨true :: bs, s', e, ?_, Runs.ok c cs s s1 bs s' e hd hR⟩
      simp only [run, e1, Bool.not_true, hr]
    | false =>
      rw [hb] at e1 hd
      refine ⟨_, s1, true, ?_, Runs.fail c cs s s1 hd⟩
      simp only [run, e1, Bool.not_false, c98_stuck]

/-- **C98.** Asking once, at the end, is enough: there are no errors exactly when every call answered yes. -/
theorem c98_once (cs : List (Call S)) (s : S) : (run cs ⟨false, s⟩).2.hasErrors = false ↔ ∀ b ∈ (run cs ⟨false, s⟩).1, b = true := by
  obtain ⟨bs, s', e, hr, hR⟩ := c98_run cs s
  rw [hr]
  clear hr
  induction hR with
  | nil s => simp
  | ok c cs s s1 bs s2 e _ _ ih => simpa using ih
  | fail c cs s s1 _ => simp

/-- **C98.** Without an owner everything fails, until the errors are reset; then the calls are made. -/
theorem c98_owner (cs : List (Call S)) (s : S) : run cs (construct false s) = (cs.map fun _ => false, ⟨true, s⟩) ∧
    run cs (resetErrors (construct false s)) = run cs (construct true s) := ⟨c98_stuck cs s, rfl⟩

/-- **C98.** A value that is there and can be converted is readValue, with a default or without. -/
theorem c98_value (db : Text → Option V) (conv : V → Option W) (name : Text) (dest w : W) (d : Option (W → Bool × W)) (v : V)
    (hv : db name = some v) (hw : conv v = some w) : readValue (getValue db conv name) d ⟨false, dest⟩ = (true, ⟨false, w⟩) := by
  simp [readValue, getValue, hv, hw]

/-- **C98.** A value that is not there is the default, if there is one. -/
theorem c98_default (db : Text → Option V) (conv : V → Option W) (name : Text) (dest w : W) (hv : db name = none) :
    readValue (getValue db conv name) (some fun _ => (true, w)) ⟨false, dest⟩ = (true, ⟨false, w⟩) ∧
    readValue (getValue db conv name) none ⟨false, dest⟩ = (false, ⟨true, dest⟩) := by
  simp [readValue, getValue, hv]

/-- **Disagreement.** A value that is there and cannot be converted is the default, too, with success: a wrong value in the configuration is taken
as a missing one. -/
theorem c98_wrong_fails (db : Text → Option V) (conv : V → Option W) (name : Text) (dest w : W) (v : V) (_hv : db name = some v)
    (hw : conv v = none) : readValue (getValue db conv name) (some fun _ => (true, w)) ⟨false, dest⟩ = (true, ⟨false, w⟩) := by
  simp [readValue, getValue, _hv, hw]

/-- **Disagreement.** A value that is refused by its validation has been written to the destination. -/
theorem c98_refused_written_fails (db : Text → Option V) (conv : V → Option W) (name : Text) (dest w : W) (v : V) (hv : db name = some v)
    (hw : conv v = some w) (eval : W → Option Nat) (he : eval w ≠ some 1) :
    readValidated (getValue db conv name) eval ⟨false, dest⟩ = (false, ⟨true, w⟩) := by
  cases h : eval w with
  | none => simp [readValidated, readValue, getValue, hv, hw, h]
  | some n =>
    have : n ≠ 1 := fun e => he (by rw [h, e])
    simp [readValidated, readValue, getValue, hv, hw, h, this]

example : run [.pass (fun s => (true, s + 1)), .read (fun s => (false, s)) none, .pass (fun s => (true, s + 1))] (construct true 0) =
    ([true, false, false], ⟨true, 1⟩) := rfl

example : (readEnum (fun _ : Nat => some ['B']) [['A'], ['B']] [['1'], ['2']] none (fun v _ => if v = ['2'] then some 2 else none) ⟨false, 0⟩) =
    (true, ⟨false, 2⟩) := rfl

end Verif.Props.SdHelper
