import Verif.Spec.MethodCall
/-! ## C104: messages that call registered methods -/
set_option linter.unusedSimpArgs false
namespace Verif.MethodCall
open Verif.Msg (Err Err.put Err.cleared fatalErrorBit parametersErrorBit unsupportedFeatureBit)
open Verif.Spec.MethodCall

variable {O P A S : Type} (d : Data P A)

private theorem read_eq (p : P) : ∀ n i, readAll d p i n = (List.range' i n).mapM fun i => d.read i p
  | 0, _ => rfl
  | n + 1, i => by
    rw [readAll, List.range'_succ, List.mapM_cons, read_eq p n (i + 1)]
    cases d.read i p with
    | none => rfl
    | some a => cases (List.range' (i + 1) n).mapM fun i => d.read i p <;> rfl

private theorem read_inputs (p : P) (n : Nat) : readAll d p 0 n = inputs d p n := by
  rw [read_eq, inputs, List.range_eq_range']

private theorem put_ne (e : Err) (h : e.cleared = true) : (e.put parametersErrorBit true) = error parametersErrorBit := by
  have : e = 0 := by simpa [Err.cleared] using h
  subst this
  decide

private theorem writeAll_stop (m : Nat) : ∀ (as : List A) (i : Nat) (e : Err) (p : P), e.cleared = false → writeAll d m i as (e, p) = (e, p)
  | [], _, _, _, _ => rfl
  | a :: as, i, e, p, h => by
    rw [writeAll, h]
    simp only [Bool.false_eq_true, if_false]
    exact writeAll_stop m as _ e p h

private theorem param_not_cleared : Err.cleared (error parametersErrorBit) = false := by decide

private theorem writeAll_eq (m : Nat) : ∀ (as : List A) (i : Nat) (p : P),
    writeAll d m i as (0, p) =
      ((if (writes d (((List.range' i as.length).zip as).filter fun x => decide (m &&& bit x.1 = bit x.1)) p).1 then 0 else error parametersErrorBit),
        (writes d (((List.range' i as.length).zip as).filter fun x => decide (m &&& bit x.1 = bit x.1)) p).2)
  | [], i, p => by simp [writeAll, writes]
  | a :: as, i, p => by
    have h0 : Err.cleared (0 : Err) = true := by decide
    rw [writeAll, h0, List.length_cons, List.range'_succ, List.zip_cons_cons]
    simp only [if_true]
    by_cases hm : m &&& bit i = bit i
    · rw [if_pos hm, List.filter_cons_of_pos (by simp [hm]), writes]
      cases hw : (d.write i a p).1 with
      | true =>
        simp only [if_true]
        exact writeAll_eq m as (i + 1) _
      | false =>
        simp only [Bool.false_eq_true, if_false]
        rw [put_ne 0 h0, writeAll_stop d m as _ _ _ param_not_cleared]
    · rw [if_neg hm, List.filter_cons_of_neg (by simp [hm])]
      exact writeAll_eq m as (i + 1) p

/-- A bit of the mask is set exactly if the parameter is declared `T &`. -/
private theorem mask_bit (modes : List Mode) (h : modes.length ≤ 4) (i : Nat) (hi : i < modes.length) :
    decide (mask 0 modes &&& bit i = bit i) = decide (modes[i]? = some .ref) := by
  match modes, h with
  | [], _ => cases hi
  | [a], _ =>
    have : i = 0 := by simp at hi; omega
    subst this
    cases a <;> decide
  | [a, b], _ =>
    have : i = 0 ∨ i = 1 := by simp at hi; omega
    rcases this with rfl | rfl <;> cases a <;> cases b <;> decide
  | [a, b, c], _ =>
    have : i = 0 ∨ i = 1 ∨ i = 2 := by simp at hi; omega
    rcases this with rfl | rfl | rfl <;> cases a <;> cases b <;> cases c <;> decide
  | [a, b, c, e], _ =>
    have : i = 0 ∨ i = 1 ∨ i = 2 ∨ i = 3 := by simp at hi; omega
    rcases this with rfl | rfl | rfl | rfl <;> cases a <;> cases b <;> cases c <;> cases e <;> decide
  | _ :: _ :: _ :: _ :: _ :: _, h => exact absurd h (by simp)

private theorem outputs_eq (modes : List Mode) (h : modes.length ≤ 4) (as : List A) (hl : as.length = modes.length) :
    ((List.range' 0 as.length).zip as).filter (fun x => decide (mask 0 modes &&& bit x.1 = bit x.1)) = outputs modes as := by
  rw [outputs, List.range_eq_range']
  apply List.filter_congr
  intro x hx
  have := (List.of_mem_zip hx).1
  rw [List.mem_range'_1] at this
  exact mask_bit modes h x.1 (by omega)

/-- What a call with values answers, and what it leaves. -/
private theorem params_eq (modes : List Mode) (hu : usual modes = true) (f : O → List A → Err × List A × O) (hf : Sized modes f) (o : O) (p : P) :
    callParams d modes f o p =
      match inputs d p modes.length with
      | none => (error parametersErrorBit, p, o)
      | some as =>
        if (f o as).1 = 0 then
          ((if (writes d (outputs modes (f o as).2.1) p).1 then 0 else error parametersErrorBit), (writes d (outputs modes (f o as).2.1) p).2, (f o as).2.2)
        else ((f o as).1, p, (f o as).2.2) := by
  have hlen : ∀ as, inputs d p modes.length = some as → as.length = modes.length := by
    intro as h
    have h2 : ∀ n i as, readAll d p i n = some as → as.length = n := by
      intro n
      induction n with
      | zero => intro i as h; simp [readAll] at h; subst h; rfl
      | succ n ih =>
        intro i as h
        rw [readAll] at h
        split at h
        · cases h
        · rw [Option.map_eq_some_iff] at h
          obtain ⟨b, hb, rfl⟩ := h
          simp [ih _ _ hb]
    rw [← read_inputs] at h
    exact h2 _ _ _ h
  have hc : ∀ e : Err, e.cleared = decide (e = 0) := by intro e; simp [Err.cleared]; rfl
  by_cases h1 : modes.length = 1
  · rw [callParams, if_pos h1, callOne, read_inputs]
    cases hi : inputs d p modes.length with
    | none => rfl
    | some as =>
      have hm : modes = [.value] ∨ modes = [.constRef] := by
        simp only [usual, Bool.or_eq_true, decide_eq_true_eq] at hu
        rcases hu with (h | h) | h
        · exact .inl h
        · exact .inr h
        · omega
      have hz : mask 0 modes = 0 := by rcases hm with rfl | rfl <;> rfl
      have ho : outputs modes (f o as).2.1 = [] := by
        rw [outputs, List.filter_eq_nil_iff]
        intro x hx
        have hx2 := (List.of_mem_zip hx).1
        rw [List.mem_range, hf o as (hlen as hi)] at hx2
        have hx3 : x.1 = 0 := by omega
        rw [hx3]
        rcases hm with rfl | rfl <;> simp
      simp only [hz, hc, ho, writes]
      cases hg : (f o as).2.1 with
      | nil => by_cases h0 : (f o as).1 = 0 <;> simp [h0]
      | cons b bs => by_cases h0 : (f o as).1 = 0 <;> simp [h0]
  · have h4 : modes.length ≤ 4 := by
      simp only [usual, Bool.or_eq_true, decide_eq_true_eq] at hu
      rcases hu with (h | h) | h
      · subst h; exact absurd rfl h1
      · subst h; exact absurd rfl h1
      · omega
    rw [callParams, if_neg h1, callValues, read_inputs]
    cases hi : inputs d p modes.length with
    | none => rfl
    | some as =>
      simp only
      by_cases h0 : (f o as).1 = 0
      · rw [if_pos h0, h0, writeAll_eq, outputs_eq modes h4 _ (hf o as (hlen as hi))]
      · rw [if_neg h0, writeAll_stop d _ _ _ _ _ (by rw [hc]; simpa using h0)]

private theorem find_eq {cls : Class O P A S} {name : List Char} {m : Method O P A S} (h : Registered cls name m) : findMethod name cls = some m := by
  obtain ⟨b, a, rfl, hb⟩ := h
  induction b with
  | nil => simp [findMethod]
  | cons x b ih =>
    rw [List.cons_append, findMethod, if_neg (hb x (by simp))]
    exact ih fun y hy => hb y (by simp [hy])

private theorem find_none {cls : Class O P A S} {name : List Char} (h : ∀ x ∈ cls, x.1 ≠ name) : findMethod name cls = none := by
  induction cls with
  | nil => rfl
  | cons x b ih =>
    rw [findMethod, if_neg (h x (by simp))]
    exact ih fun y hy => h y (by simp [hy])

section calls
variable (send : Message P S → Err) (cls : Class O P A S) (name : List Char) (o : O)

/-- **C104.** A message with the parameters of a method calls this method once with the values of the parameters; if it
answers no error, the parameters declared `T &` are written back, and only they; the message becomes a reply if one is
expected, and is sent back if the reply is indirect. -/
theorem c104_message (modes : List Mode) (f : O → List A → Err × List A × O) (hreg : Registered cls name (.values modes f)) (hu : usual modes = true)
    (hf : Sized modes f) (p p' : P) (rest : List (Entry P S)) (expects indirect : Bool) (as : List A) (hin : inputs d p modes.length = some as)
    (hok : (f o as).1 = 0) (hw : writes d (outputs modes (f o as).2.1) p = (true, p')) :
    ∃ r, consume d send true (some cls) o (some ⟨name, false, expects, indirect, .sdata p :: rest⟩) = some r ∧
      r.obj = (f o as).2.2 ∧ r.msg = ⟨name, expects, expects, indirect, .sdata p' :: rest⟩ ∧
      r.sent = (expects && indirect) ∧ r.err = (if expects && indirect then send r.msg else 0) := by
  have hc : Err.cleared (0 : Err) = true := by decide
  have hp := params_eq d modes hu f hf o p
  rw [hin] at hp
  simp only [hok, if_true, hw] at hp
  simp only [consume, callRegistered, find_eq hreg, call, callContainer, firstData, hp, Option.map_some, setFirst, Bool.not_false, Bool.and_self, if_true, hc]
  cases expects <;> cases indirect <;> exact ⟨_, rfl, rfl, rfl, rfl, rfl⟩

/-- If the method answers an error, this is the answer, no parameter is written back, and there is no reply. -/
theorem c104_error (modes : List Mode) (f : O → List A → Err × List A × O) (hreg : Registered cls name (.values modes f)) (hu : usual modes = true)
    (hf : Sized modes f) (p : P) (rest : List (Entry P S)) (expects indirect : Bool) (as : List A) (hin : inputs d p modes.length = some as)
    (hok : (f o as).1 ≠ 0) :
    consume d send true (some cls) o (some ⟨name, false, expects, indirect, .sdata p :: rest⟩) =
      some ⟨(f o as).1, ⟨name, false, expects, indirect, .sdata p :: rest⟩, (f o as).2.2, false⟩ := by
  have hp := params_eq d modes hu f hf o p
  rw [hin] at hp
  simp only [if_neg hok] at hp
  have hc : Err.cleared (f o as).1 = false := by simpa [Err.cleared] using hok
  simp only [consume, callRegistered, find_eq hreg, call, callContainer, firstData, hp, Option.map_some, setFirst, Bool.not_false, Bool.and_self, if_true, hc,
    Bool.false_eq_true, if_false]

/-- If a parameter is missing, or has not the type of the method, the method is not called: the object and the message do not
change. -/
theorem c104_missing (modes : List Mode) (f : O → List A → Err × List A × O) (hreg : Registered cls name (.values modes f)) (hu : usual modes = true)
    (hf : Sized modes f) (p : P) (rest : List (Entry P S)) (expects indirect : Bool) (hin : inputs d p modes.length = none) :
    consume d send true (some cls) o (some ⟨name, false, expects, indirect, .sdata p :: rest⟩) =
      some ⟨error parametersErrorBit, ⟨name, false, expects, indirect, .sdata p :: rest⟩, o, false⟩ := by
  have hp := params_eq d modes hu f hf o p
  rw [hin] at hp
  simp only [consume, callRegistered, find_eq hreg, call, callContainer, firstData, hp, Option.map_some, setFirst, Bool.not_false, Bool.and_self, if_true,
    param_not_cleared, Bool.false_eq_true, if_false]

/-- If a parameter cannot be written back, the answer is an error, and there is no reply, although the method was called. -/
theorem c104_unwritten (modes : List Mode) (f : O → List A → Err × List A × O) (hreg : Registered cls name (.values modes f)) (hu : usual modes = true)
    (hf : Sized modes f) (p p' : P) (rest : List (Entry P S)) (expects indirect : Bool) (as : List A) (hin : inputs d p modes.length = some as)
    (hok : (f o as).1 = 0) (hw : writes d (outputs modes (f o as).2.1) p = (false, p')) :
    consume d send true (some cls) o (some ⟨name, false, expects, indirect, .sdata p :: rest⟩) =
      some ⟨error parametersErrorBit, ⟨name, false, expects, indirect, .sdata p' :: rest⟩, (f o as).2.2, false⟩ := by
  have hp := params_eq d modes hu f hf o p
  rw [hin] at hp
  simp only [hok, if_true, hw, Bool.false_eq_true, if_false] at hp
  simp only [consume, callRegistered, find_eq hreg, call, callContainer, firstData, hp, Option.map_some, setFirst, Bool.not_false, Bool.and_self, if_true,
    param_not_cleared, Bool.false_eq_true, if_false]

/-- A reply, a message for no object, and one with a function that is not registered are refused: nothing changes. -/
theorem c104_refused (isSet : Bool) (m : Message P S) (h : isSet = false ∨ m.isReply = true ∨ ∀ x ∈ cls, x.1 ≠ m.function) :
    consume d send isSet (some cls) o (some m) = some ⟨error unsupportedFeatureBit, m, o, false⟩ := by
  have hc : Err.cleared (error unsupportedFeatureBit) = false := by decide
  cases isSet with
  | false => rfl
  | true =>
    cases hr : m.isReply with
    | true => simp [consume, hr]
    | false =>
      rcases h with h | h | h
      · cases h
      · rw [hr] at h; cases h
      · obtain ⟨a, b, c, e, g⟩ := m
        subst hr
        simp [consume, callRegistered, find_none h, hc]

/-- The same method called with the structured data itself, without a message. -/
theorem c104_direct (modes : List Mode) (f : O → List A → Err × List A × O) (hreg : Registered cls name (.values modes f)) (hu : usual modes = true)
    (hf : Sized modes f) (p : P) (isObject : Bool) (refs : Nat) (as : List A) (hin : inputs d p modes.length = some as) :
    callRegistered d (some cls) name o (.sdata p isObject refs) = some (
      if (f o as).1 = 0 then
        (if (writes d (outputs modes (f o as).2.1) p).1 then 0 else error parametersErrorBit,
          .sdata (writes d (outputs modes (f o as).2.1) p).2 isObject refs, (f o as).2.2)
      else ((f o as).1, .sdata p isObject refs, (f o as).2.2)) := by
  have hp := params_eq d modes hu f hf o p
  rw [hin] at hp
  simp only at hp
  simp only [callRegistered, find_eq hreg, call, hp]
  by_cases h0 : (f o as).1 = 0
  · simp only [if_pos h0]
  · simp only [if_neg h0]

/-- A method without parameters is called by every message and by every kind of call. -/
theorem c104_void (f : O → Err × O) (hreg : Registered cls name (.void f)) (a : Arg P S) :
    callRegistered d (some cls) name o a = some ((f o).1, a, (f o).2) := by
  simp only [callRegistered, find_eq hreg]
  cases a <;> rfl

/-- A method that takes a structured data is called with the first object of the message. -/
theorem c104_data (f : O → P → Err × P × O) (hreg : Registered cls name (.sdata f)) (p : P) (rest : List (Entry P S)) :
    callRegistered d (some cls) name o (.container (.sdata p :: rest)) =
      some ((f o p).1, .container (.sdata (f o p).2.1 :: rest), (f o p).2.2) := by
  simp only [callRegistered, find_eq hreg]
  rfl

/-- A method that takes a container is called with the message. -/
theorem c104_container (f : O → List (Entry P S) → Err × List (Entry P S) × O) (hreg : Registered cls name (.container f)) (c : List (Entry P S)) :
    callRegistered d (some cls) name o (.container c) = some ((f o c).1, .container (f o c).2.1, (f o c).2.2) := by
  simp only [callRegistered, find_eq hreg]
  rfl

/-- A message whose first object is no structured data does not call a method with parameters. -/
theorem c104_no_data (m : Method O P A S) (hm : (∃ f, m = .sdata f) ∨ ∃ modes f, m = .values modes f) (hreg : Registered cls name m)
    (c : List (Entry P S)) (h : ∀ p, c.head? ≠ some (.sdata p)) :
    callRegistered d (some cls) name o (.container c) = some (error parametersErrorBit, .container c, o) := by
  have hn : firstData c = none := by
    cases c with
    | nil => rfl
    | cons e c =>
      cases e with
      | sdata p => exact absurd rfl (h p)
      | stream s => rfl
      | other => rfl
  simp only [callRegistered, find_eq hreg, call]
  rcases hm with ⟨f, rfl⟩ | ⟨ms, f, rfl⟩ <;> simp [callContainer, hn]

/-- A method that takes a structured data, a stream, or a container, called with one. -/
theorem c104_direct_data (f : O → P → Err × P × O) (hreg : Registered cls name (.sdata f)) (p : P) (isObject : Bool) (refs : Nat) :
    callRegistered d (some cls) name o (.sdata p isObject refs : Arg P S) = some ((f o p).1, .sdata (f o p).2.1 isObject refs, (f o p).2.2) := by
  simp only [callRegistered, find_eq hreg]
  rfl

theorem c104_direct_stream (f : O → S → Err × S × O) (hreg : Registered cls name (.stream f)) (s : S) (rest : List (Entry P S)) :
    callRegistered d (some cls) name o (.stream s) = some ((f o s).1, .stream (f o s).2.1, (f o s).2.2) ∧
    callRegistered d (some cls) name o (.container (.stream s :: rest)) =
      some ((f o s).1, .container (.stream (f o s).2.1 :: rest), (f o s).2.2) := by
  simp only [callRegistered, find_eq hreg]
  exact ⟨rfl, rfl⟩

/-- A method that takes a container, called with a structured data that is an object with a reference: it gets a container
with this object. -/
theorem c104_wrapped (f : O → List (Entry P S) → Err × List (Entry P S) × O) (hreg : Registered cls name (.container f)) (p p' : P) (refs : Nat)
    (hr : refs ≠ 0) (rest : List (Entry P S)) (hp : (f o [.sdata p]).2.1 = .sdata p' :: rest) :
    callRegistered d (some cls) name o (.sdata p true refs) = some ((f o [.sdata p]).1, .sdata p' true refs, (f o [.sdata p]).2.2) := by
  simp only [callRegistered, find_eq hreg, call, if_true, if_neg hr, hp, firstData, Option.getD_some]

/-- A call with something that the method does not take is refused: nothing changes. -/
theorem c104_wrong_kind (m : Method O P A S) (hreg : Registered cls name m) (a : Arg P S)
    (h : match m, a with
      | .values .., .nothing | .values .., .stream _ | .sdata _, .nothing | .sdata _, .stream _ | .container _, .nothing | .container _, .stream _
      | .stream _, .nothing | .stream _, .sdata .. | .container _, .sdata _ false _ => True
      | _, _ => False) :
    callRegistered d (some cls) name o a = some (error parametersErrorBit, a, o) := by
  simp only [callRegistered, find_eq hreg]
  cases m <;> cases a <;> first | rfl | cases h | skip
  rename_i f p b r
  cases b with
  | false => rfl
  | true => cases h

/-- An object without a class, and a name that is not registered: nothing is called. -/
theorem c104_unknown (a : Arg P S) (h : ∀ x ∈ cls, x.1 ≠ name) :
    callRegistered d (none : Option (Class O P A S)) name o a = some (error fatalErrorBit, a, o) ∧
    callRegistered d (some cls) name o a = some (error unsupportedFeatureBit, a, o) := by
  simp only [callRegistered, find_none h]
  trivial

/-- **C104 (disagreement).** A method with one parameter declared `T &`: after it has been called and the parameter has been
written back, the answer is a fatal error, and there is no reply; if the parameter cannot be written back, the answer is no
error. -/
theorem c104_one_fails (f : O → List A → Err × List A × O) (hreg : Registered cls name (.values [.ref] f)) (p : P) (rest : List (Entry P S))
    (expects : Bool) (a b : A) (hin : d.read 0 p = some a) (o' : O) (hok : f o [a] = (0, [b], o')) :
    consume d send true (some cls) o (some ⟨name, false, expects, false, .sdata p :: rest⟩) =
      if (d.write 0 b p).1 then some ⟨error fatalErrorBit, ⟨name, false, expects, false, .sdata (d.write 0 b p).2 :: rest⟩, o', false⟩
      else some ⟨0, ⟨name, expects, expects, false, .sdata (d.write 0 b p).2 :: rest⟩, o', false⟩ := by
  have h0 : Err.cleared (0 : Err) = true := by decide
  have h1 : Err.cleared (error fatalErrorBit) = false := by decide
  have hm : mask 0 [Mode.ref] ≠ 0 := by decide
  have hp : callParams d [.ref] f o p = (if !(d.write 0 b p).1 then 0 else error fatalErrorBit, (d.write 0 b p).2, o') := by
    rw [callParams, if_pos (by rfl), callOne]
    simp only [List.length_singleton, readAll, hin, Option.map_some, hok, h0, if_true, hm, ne_eq, not_false_eq_true]
  simp only [consume, callRegistered, find_eq hreg, call, callContainer, firstData, hp, Option.map_some, setFirst, Bool.not_false, Bool.and_self, if_true]
  cases hw : (d.write 0 b p).1 <;> cases expects <;>
    simp only [h0, h1, Bool.not_false, Bool.not_true, Bool.false_eq_true, if_true, if_false]

/-- **C104 (disagreement).** A message whose first object is no stream, or without any, sent to a method that takes a
stream: a null pointer is used. -/
theorem c104_stream_fails (f : O → S → Err × S × O) (hreg : Registered cls name (.stream f)) (expects indirect : Bool) (c : List (Entry P S))
    (h : ∀ s, c.head? ≠ some (.stream s)) : consume d send true (some cls) o (some ⟨name, false, expects, indirect, c⟩) = none := by
  have : callContainer d (.stream f : Method O P A S) o c = none := by
    cases c with
    | nil => rfl
    | cons e c =>
      cases e with
      | stream s => exact absurd rfl (h s)
      | sdata s => rfl
      | other => rfl
  simp [consume, callRegistered, find_eq hreg, call, this]

/-- **C104 (disagreement).** A method that takes a container, called with a structured data to which nothing refers (one on
the stack): it is deleted. -/
theorem c104_stack_fails (f : O → List (Entry P S) → Err × List (Entry P S) × O) (hreg : Registered cls name (.container f)) (p : P) :
    callRegistered d (some cls) name o (.sdata p true 0) = none := by
  simp only [callRegistered, find_eq hreg]
  rfl

end calls

/-! ### Concrete cases -/

/-- A structured data with numbers: the list of `param1`, `param2`, ... -/
def numbers : Data (List (Option Nat)) Nat := ⟨fun i p => (p[i]?).join, fun i a p => (decide (i < p.length), p.set i (some a))⟩

/-- `Add(a, b, sum &)`; an odd sum is an error. The object counts the calls. -/
def add (o : Nat) (as : List Nat) : Err × List Nat × Nat :=
  match as with
  | [a, b, _] => (if (a + b) % 2 = 1 then error unsupportedFeatureBit else 0, [0, 7, a + b], o + 1)
  | as => (0, as, o)

/-- The hypotheses of `c104_message` and of `c104_error` hold. -/
example : Sized [.value, .constRef, .ref] add ∧ usual [.value, .constRef, .ref] = true ∧ inputs numbers [some 3, some 5, some 0] 3 = some [3, 5, 0] ∧
    writes numbers (outputs [.value, .constRef, .ref] (add 0 [3, 5, 0]).2.1) [some 3, some 5, some 0] = (true, [some 3, some 5, some 8]) ∧
    (add 0 [3, 4, 0]).1 ≠ 0 ∧ inputs numbers [some 3, none, some 0] 3 = none := by
  refine ⟨?_, by decide, by decide, by decide, by decide, by decide⟩
  intro o as h
  match as, h with
  | [a, b, c], _ => rfl

example : (consume (S := Unit) numbers (fun _ => 0) true (some [("Sub".toList, .void fun o => (0, o)), ("Add".toList, .values [.value, .constRef, .ref] add)]) 0
    (some ⟨"Add".toList, false, true, true, [.sdata [some 3, some 5, some 0]]⟩)).map (fun r => (r.err, r.msg, r.obj, r.sent)) =
    some (0, ⟨"Add".toList, true, true, true, [.sdata [some 3, some 5, some 8]]⟩, 1, true) := by decide +kernel

end Verif.MethodCall
