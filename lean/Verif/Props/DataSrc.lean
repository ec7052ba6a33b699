import Verif.Spec.DataSrc
/-! # C95: what a data source answers -/
set_option linter.unusedSimpArgs false
namespace Verif.DataSrc
open Verif.Spec.DataSrc

/-- **C95.** Without a node `Signals`, an option that is neither `true` nor `false`, or contents that cannot be built, are refused. -/
theorem c95_initialise_partial (old container : Bool) (optim : Option Text) :
    (initialise old container optim none).1 = true ↔
      container = true ∧ (∀ t, optim = some t → t = "true".toList ∨ t = "false".toList) := by
  unfold initialise
  generalize "true".toList = a
  generalize "false".toList = b
  cases container <;> cases optim with
  | none => simp
  | some t =>
    by_cases h1 : t = a
    · simp [h1]
    · by_cases h2 : t = b
      · by_cases h3 : b = a <;> simp [h2, h3]
      · simp [h1, h2]

/-- **C95.** The option that is accepted is the one that is used. -/
theorem c95_option (old container : Bool) (signals : Option Bool) (h : container = true) :
    (initialise old container (some "true".toList) signals).2 = true ∧ (initialise old container (some "false".toList) signals).2 = false ∧
    (initialise old container none signals).2 = old := by
  have hne : ¬ "false".toList = "true".toList := by decide
  unfold initialise
  generalize "true".toList = a at hne ⊢
  generalize "false".toList = b at hne ⊢
  subst h
  cases signals <;> simp [hne]

/-- **C95 (disagreement).** With a node `Signals` both are accepted: the result of the copy of the signals takes the place of the earlier one. -/
theorem c95_initialise_fails (old : Bool) (t : Text) : (initialise old true (some t) (some true)).1 = true ∧
    (initialise old false (some t) (some true)).1 = true := by
  simp [initialise]

private theorem fill_ok (names : List Text) : ∀ (n : Nat) (c : List (Text × Nat)), (∀ t ∈ names, t ≠ []) → names.Nodup →
    (∀ p ∈ c, p.1 ∉ names) → fillCache n (names.map some) c = (true, c ++ names.zipIdx n) := by
  induction names with
  | nil => intro n c _ _ _; simp [fillCache]
  | cons t ts ih =>
    intro n c hne hd hc
    rw [List.nodup_cons] at hd
    have hl : t.length > 0 := List.length_pos_iff.mpr (hne t (by simp))
    have hfil : c.filter (fun p => p.1 != t) = c := by
      rw [List.filter_eq_self]
      intro p hp
      have := hc p hp
      simp only [List.mem_cons, not_or] at this
      simpa using this.1
    simp only [List.map_cons, fillCache, cacheWrite, hl, if_true, hfil]
    rw [ih (n + 1) (c ++ [(t, n)]) (fun x hx => hne x (List.mem_cons_of_mem _ hx)) hd.2]
    · simp [List.zipIdx_cons]
    · intro p hp
      rcases List.mem_append.mp hp with hp | hp
      · have := hc p hp
        simp only [List.mem_cons, not_or] at this
        exact this.2
      · simp only [List.mem_singleton] at hp; subst hp; exact hd.1

private theorem find_zip (t : Text) (names : List Text) (hd : names.Nodup) : ∀ n i,
    ((names.zipIdx n).find? (fun p => p.1 == t)).map (·.2) = some (n + i) ↔ names[i]? = some t := by
  induction names with
  | nil => intro n i; simp
  | cons x xs ih =>
    intro n i
    rw [List.nodup_cons] at hd
    rw [List.zipIdx_cons, List.find?_cons]
    by_cases e : x = t
    · subst e
      simp only [beq_self_eq_true, Option.map_some, Option.some.injEq]
      cases i with
      | zero => simp
      | succ i =>
        simp only [List.getElem?_cons_succ]
        constructor
        · intro h; omega
        · intro h; exact absurd (List.mem_of_getElem? h) hd.1
    · have e' : (x == t) = false := by simpa using e
      simp only [e']
      cases i with
      | zero =>
        simp only [List.getElem?_cons_zero, Option.some.injEq, Nat.add_zero]
        constructor
        · intro h
          obtain ⟨p, hp, hq⟩ := Option.map_eq_some_iff.mp h
          have hm := List.mem_of_find?_eq_some hp
          have := List.le_snd_of_mem_zipIdx hm
          omega
        · intro h; exact absurd h e
      | succ i =>
        rw [List.getElem?_cons_succ, ← ih hd.2 (n + 1) i]
        rw [show n + (i + 1) = n + 1 + i by omega]

/-- **C95.** After `SetConfiguredDatabase` of a new data source with signals of different names, the index of a name is the place of the
signal with that name, and the name at an index is that of the signal there. -/
theorem c95_index_partial (names : List Text) (hne : ∀ t ∈ names, t ≠ []) (hd : names.Nodup) (fns : List Fn) :
    ∃ d, setConfigured ⟨[], [], []⟩ (names.map some) fns = (true, d) ∧ d.fns = fns ∧
      (∀ i, signalName d i = names[i]?) ∧ ∀ t i, signalIndex d t = some i ↔ names[i]? = some t := by
  have h := fill_ok names 0 [] hne hd (by simp)
  refine ⟨⟨names.map some, fns, names.zipIdx 0⟩, by simp [setConfigured, h], rfl, ?_, ?_⟩
  · intro i
    simp only [signalName, List.getElem?_map]
    cases names[i]? <;> rfl
  · intro t i
    have := find_zip t names hd 0 i
    rw [Nat.zero_add] at this
    exact this

/-- **C95.** A signal without a name, or with an empty one, is refused. -/
theorem c95_nameless (d : DS) (fns : List Fn) (pre post : List (Option Text)) (x : Option Text) (hx : x = none ∨ x = some []) :
    (setConfigured d (pre ++ x :: post) fns).1 = false := by
  have : ∀ (pre : List (Option Text)) (n : Nat) (c : List (Text × Nat)), (fillCache n (pre ++ x :: post) c).1 = false := by
    intro pre
    induction pre with
    | nil => intro n c; rcases hx with rfl | rfl <;> simp [fillCache, cacheWrite]
    | cons y ys ih =>
      intro n c
      cases y with
      | none => simp [fillCache]
      | some t =>
        simp only [List.cons_append, fillCache]
        split
        · exact ih _ _
        · rfl
  simpa [setConfigured] using this pre 0 d.cache

/-- **C95 (disagreement).** Configured a second time, a data source still has an index for every name of the first time that is not there any more. -/
theorem c95_again_fails (old names : List Text) (h1 : ∀ t ∈ old, t ≠ []) (h2 : ∀ t ∈ names, t ≠ []) (d1 : old.Nodup) (d2 : names.Nodup)
    (hdis : ∀ t ∈ old, t ∉ names) (f1 f2 : List Fn) :
    ∃ a b, setConfigured ⟨[], [], []⟩ (old.map some) f1 = (true, a) ∧ setConfigured a (names.map some) f2 = (true, b) ∧
      ∀ i t, old[i]? = some t → signalIndex b t = some i := by
  have e1 := fill_ok old 0 [] h1 d1 (by simp)
  have e2 := fill_ok names 0 (old.zipIdx 0) h2 d2 (by
    intro p hp
    exact hdis _ (List.fst_mem_of_mem_zipIdx hp))
  refine ⟨⟨old.map some, f1, old.zipIdx 0⟩, ⟨names.map some, f2, old.zipIdx 0 ++ names.zipIdx 0⟩, by simp [setConfigured, e1], by simp [setConfigured, e2], ?_⟩
  intro i t ht
  have := (find_zip t old d1 0 i).mpr ht
  rw [Nat.zero_add] at this
  unfold signalIndex
  simp only [List.find?_append]
  cases hf : (old.zipIdx 0).find? (fun p => p.1 == t) with
  | none => rw [hf] at this; simp at this
  | some p => rw [hf] at this; simpa using this

private theorem scan_eq (n : Text) : ∀ l : List FSig, (∀ s ∈ l, s.name.isSome ∧ s.alias_.isSome) →
    scan n l = (true, l.find? fun s => s.name == some n || s.alias_ == some n)
  | [], _ => rfl
  | s :: ss, h => by
    obtain ⟨h1, h2⟩ := h s (by simp)
    obtain ⟨a, ha⟩ := Option.isSome_iff_exists.mp h1
    obtain ⟨b, hb⟩ := Option.isSome_iff_exists.mp h2
    simp only [scan, ha, hb, List.find?_cons, scan_eq n ss (fun s hs => h s (List.mem_cons_of_mem _ hs))]
    by_cases e1 : n = a
    · simp [e1, ha, hb]
    · by_cases e2 : n = b
      · simp [e1, e2, ha, hb]
      · have e3 : ¬ a = n := fun e => e1 e.symm
        have e4 : ¬ b = n := fun e => e2 e.symm
        have e5 : (a == n) = false := by simpa using e3
        have e6 : (b == n) = false := by simpa using e4
        simp [e1, e2, e5, e6, ha, hb]

private theorem scanDir_eq (n : Text) (dir : Option (List FSig)) (h0 : dir ≠ some []) (h : ∀ s ∈ dir.getD [], s.name.isSome ∧ s.alias_.isSome) :
    scanDir n dir = (true, (dir.getD []).find? fun s => s.name == some n || s.alias_ == some n) := by
  cases dir with
  | none => rfl
  | some l =>
    cases l with
    | nil => exact absurd rfl h0
    | cons s l => simpa [scanDir, numberOfSignals] using scan_eq n (s :: l) h

private theorem scanFns_eq (n : Text) : ∀ fns : List Fn, Complete fns →
    scanFns n fns = (true, (connections fns).find? fun s => s.name == some n || s.alias_ == some n)
  | [], _ => rfl
  | f :: fs, hc => by
    obtain ⟨h1, h2⟩ := hc
    have hcs : connections (f :: fs) = (f.outs.getD [] ++ f.ins.getD []) ++ connections fs := rfl
    rw [hcs] at h2 ⊢
    have ho := scanDir_eq n f.outs (h1 f (by simp)).1 (fun s hs => h2 s (by simp [hs]))
    have hi := scanDir_eq n f.ins (h1 f (by simp)).2 (fun s hs => h2 s (by simp [hs]))
    have ih := scanFns_eq n fs ⟨fun g hg => h1 g (List.mem_cons_of_mem _ hg), fun s hs => h2 s (by simp [hs])⟩
    simp only [scanFns, ho, hi, ih, if_true, List.find?_append]
    cases (f.outs.getD []).find? (fun s => s.name == some n || s.alias_ == some n) with
    | some s => simp
    | none => cases (f.ins.getD []).find? (fun s => s.name == some n || s.alias_ == some n) <;> simp

/-- **C95.** The number of samples of a signal is that of the first signal of a function that is connected to it (one, if it is not given),
and false if there is none; provided that no function calls another signal by that name. -/
theorem c95_samples_partial (d : DS) (n : Text) (hc : Complete d.fns) (hn : ∀ s ∈ connections d.fns, s.name = some n → s.alias_ = some n) :
    numberOfSamples d n = ((connections d.fns).find? (fun s => s.alias_ == some n)).map (fun s => s.samples.getD 1) := by
  unfold numberOfSamples
  rw [scanFns_eq n d.fns hc]
  have : (connections d.fns).find? (fun s => s.name == some n || s.alias_ == some n) = (connections d.fns).find? (fun s => s.alias_ == some n) := by
    have hh : ∀ l : List FSig, (∀ s ∈ l, s.name = some n → s.alias_ = some n) →
        l.find? (fun s => s.name == some n || s.alias_ == some n) = l.find? (fun s => s.alias_ == some n) := by
      intro l
      induction l with
      | nil => intro _; rfl
      | cons s l ih =>
        intro h
        have h1 := h s (by simp)
        have h2 := ih (fun x hx => h x (List.mem_cons_of_mem _ hx))
        by_cases e : s.alias_ = some n
        · simp [List.find?_cons, e]
        · have e' : ¬ s.name = some n := fun x => e (h1 x)
          simp only [List.find?_cons]
          have e1 : (s.alias_ == some n) = false := by simpa using e
          have e2 : (s.name == some n) = false := by simpa using e'
          rw [e1, e2, h2]; rfl
    exact hh _ hn
  rw [this]
  simp only [if_true]
  congr 1
  funext s
  cases s.samples <;> rfl

/-- **C95 (disagreement).** A function may call signal `c` of the data source `b` (with an alias): the number of samples of the signal `b` is then that of `c`. -/
theorem c95_samples_fails : ∃ d : DS, Complete d.fns ∧ numberOfSamples d ['b'] = some 10 ∧
    ((connections d.fns).find? (fun s => s.alias_ == some ['b'])).map (fun s => s.samples.getD 1) = some 1 := by
  refine ⟨⟨[some ['b'], some ['c']], [⟨some ['F'], none, some [⟨some ['b'], some ['c'], some 10, none, none, none⟩, ⟨some ['x'], some ['b'], none, none, none, none⟩]⟩], []⟩, ?_, by decide, by decide⟩
  unfold Complete; decide

private theorem fidx (n : Text) : ∀ (fs : List Fn) (names : List Text) (i : Nat), fs.map Fn.name = names.map some →
    functionIndex n i fs = (names.findIdx? (fun t => t == n)).map (i + ·)
  | [], [], _, _ => rfl
  | [], _ :: _, _, h => by simp at h
  | _ :: _, [], _, h => by simp at h
  | f :: fs, t :: ts, i, h => by
    simp only [List.map_cons, List.cons.injEq] at h
    simp only [functionIndex, h.1, List.findIdx?_cons]
    by_cases e : n = t
    · simp [e]
    · have e' : (t == n) = false := by simpa using fun x : t = n => e x.symm
      rw [if_neg e, fidx n fs ts (i + 1) h.2, e']
      cases ts.findIdx? (fun t => t == n) with
      | none => rfl
      | some k => simp; omega

/-- **C95.** The index of a function is the first place where its name is. -/
theorem c95_function (names : List Text) (fs : List Fn) (h : fs.map Fn.name = names.map some) (n : Text) :
    functionIndex n 0 fs = names.findIdx? (fun t => t == n) := by
  rw [fidx n fs names 0 h]
  cases names.findIdx? (fun t => t == n) <;> simp

private theorem brokers_eq (d : DS) (works : Text → Bool) (front : FSig → Bool) (cls : FSig → Text) (F : Text → Bool) :
    ∀ (l : List FSig) (bs : List Text), (∀ s ∈ l, s.broker = some (cls s) ∧ front s = F (cls s) ∧ works (cls s) = true ∧
        ∃ a i, s.alias_ = some a ∧ signalIndex d a = some i) →
      brokers d works front l bs = (true,
        ((((firstSeen (l.map cls)).filter (fun b => !bs.contains b)).filter F).reverse ++ bs ++
          ((firstSeen (l.map cls)).filter (fun b => !bs.contains b)).filter (fun b => !F b)))
  | [], bs, _ => by simp [brokers, firstSeen]
  | s :: l, bs, h => by
    obtain ⟨h1, h2, h3, a, i, h4, h5⟩ := h s (by simp)
    have hl : ∀ x ∈ l, _ := fun x hx => h x (List.mem_cons_of_mem _ hx)
    simp only [brokers, h1, List.map_cons, firstSeen]
    by_cases hb : bs.contains (cls s) = true
    · rw [if_pos hb, brokers_eq d works front cls F l bs hl]
      have : ((cls s :: (firstSeen (l.map cls)).filter (fun c => c != cls s)).filter (fun b => !bs.contains b)) =
          (firstSeen (l.map cls)).filter (fun b => !bs.contains b) := by
        rw [List.filter_cons_of_neg (by rw [hb]; simp), List.filter_filter]
        apply List.filter_congr
        intro x _
        by_cases e : x = cls s
        · subst e; rw [hb]; rfl
        · simp [e]
      rw [this]
    · rw [if_neg hb]
      simp only [h4, h5, h3, if_true, h2]
      have hb' : bs.contains (cls s) = false := by simpa using hb
      rw [brokers_eq d works front cls F l _ hl]
      have hq : ∀ (q : List Text), (∀ x, q.contains x = (bs.contains x || x == cls s)) →
          (firstSeen (l.map cls)).filter (fun b => !q.contains b) =
          ((firstSeen (l.map cls)).filter (fun c => c != cls s)).filter (fun b => !bs.contains b) := by
        intro q hq
        rw [List.filter_filter]
        apply List.filter_congr
        intro x _
        rw [hq]
        cases bs.contains x <;> simp [bne]
      rw [List.filter_cons_of_pos (by rw [hb']; rfl)]
      cases hF : F (cls s) with
      | true =>
        rw [if_pos rfl, hq (cls s :: bs) (by intro x; rw [List.contains_cons, Bool.or_comm]), List.filter_cons_of_pos hF,
          List.filter_cons_of_neg (by simp [hF])]
        simp
      | false =>
        rw [if_neg (by simp), hq (bs ++ [cls s]) (by intro x; rw [Bool.eq_iff_iff]; simp), List.filter_cons_of_neg (by simp [hF]),
          List.filter_cons_of_pos (by simp [hF])]
        simp

/-- **C95.** The brokers of the inputs of a function: one for each class, those that synchronise or trigger first and then the others in the order of
the signals; provided that the signals of one class agree. -/
theorem c95_inputs_partial (d : DS) (works : Text → Bool) (fn : Text) (i : Nat) (f : Fn) (l : List FSig) (cls : FSig → Text) (waits : Text → Bool)
    (hi : functionIndex fn 0 d.fns = some i) (hf : d.fns[i]? = some f) (hl : f.ins = some l) (h0 : l ≠ [])
    (h : ∀ s ∈ l, s.broker = some (cls s) ∧ (waits (cls s) = true ↔ s.frequency.getD (-1) ≥ 0 ∨ s.trigger.getD 0 > 0) ∧ works (cls s) = true ∧
        ∃ a k, s.alias_ = some a ∧ signalIndex d a = some k) :
    inputBrokers d works fn = (true, ((firstSeen (l.map cls)).filter waits).reverse ++ (firstSeen (l.map cls)).filter (fun b => !waits b)) := by
  have hlen : l.length + 1 > 1 := by have := List.length_pos_iff.mpr h0; omega
  unfold inputBrokers
  simp only [hi, hf, hl, numberOfSignals, hlen, if_true, Option.getD_some]
  rw [brokers_eq d works syncIn cls waits l [] (fun s hs => by
    obtain ⟨h1, h2, h3, h4⟩ := h s hs
    refine ⟨h1, ?_, h3, h4⟩
    rw [Bool.eq_iff_iff, h2]
    unfold syncIn
    cases s.frequency <;> cases s.trigger <;> simp)]
  simp

/-- **C95.** Of the outputs: those that synchronise or trigger come last. -/
theorem c95_outputs_partial (d : DS) (works : Text → Bool) (fn : Text) (i : Nat) (f : Fn) (l : List FSig) (cls : FSig → Text) (waits : Text → Bool)
    (hi : functionIndex fn 0 d.fns = some i) (hf : d.fns[i]? = some f) (hl : f.outs = some l) (h0 : l ≠ [])
    (h : ∀ s ∈ l, s.broker = some (cls s) ∧ (waits (cls s) = true ↔ s.frequency.getD (-1) > 0 ∨ s.trigger.getD 0 > 0) ∧ works (cls s) = true ∧
        ∃ a k, s.alias_ = some a ∧ signalIndex d a = some k) :
    outputBrokers d works fn = (true, ((firstSeen (l.map cls)).filter (fun b => !waits b)).reverse ++ (firstSeen (l.map cls)).filter waits) := by
  have hlen : l.length + 1 > 1 := by have := List.length_pos_iff.mpr h0; omega
  unfold outputBrokers
  simp only [hi, hf, hl, numberOfSignals, hlen, if_true, Option.getD_some]
  rw [brokers_eq d works (fun s => !syncOut s) cls (fun b => !waits b) l [] (fun s hs => by
    obtain ⟨h1, h2, h3, h4⟩ := h s hs
    refine ⟨h1, ?_, h3, h4⟩
    have : syncOut s = waits (cls s) := by
      rw [Bool.eq_iff_iff, h2]
      unfold syncOut
      cases s.frequency <;> cases s.trigger <;> simp
    rw [this])]
  simp

private def source (l : List FSig) : DS := ⟨[some ['a'], some ['b'], some ['c']], [⟨some ['F'], none, some l⟩], [(['a'], 0), (['b'], 1), (['c'], 2)]⟩
private def sig (a : Char) (freq : Option Int) (b : Char) : FSig := ⟨some [a], some [a], none, freq, none, some [b]⟩

/-- **C95 (disagreement).** Only the first signal of a class of brokers counts: if the second one synchronises, its broker runs after the others. -/
theorem c95_order_fails :
    inputBrokers (source [sig 'a' none 'X', sig 'b' none 'Y', sig 'c' (some 1000) 'Y']) (fun _ => true) ['F'] = (true, [['X'], ['Y']]) ∧
    inputBrokers (source [sig 'a' none 'X', sig 'c' (some 1000) 'Y', sig 'b' none 'Y']) (fun _ => true) ['F'] = (true, [['Y'], ['X']]) := by decide

/-- **C95.** A broker that cannot be made, or whose signal is not in the data source, is an error. -/
theorem c95_broken (d : DS) (works : Text → Bool) (fn : Text) (i : Nat) (f : Fn) (s : FSig) (l : List FSig) (b : Text)
    (hi : functionIndex fn 0 d.fns = some i) (hf : d.fns[i]? = some f) (hl : f.ins = some (s :: l)) (hb : s.broker = some b)
    (h : works b = false ∨ signalIndex d (s.alias_.getD []) = none) : (inputBrokers d works fn).1 = false := by
  unfold inputBrokers
  have hlen : (s :: l).length + 1 > 1 := by simp
  simp only [hi, hf, hl, numberOfSignals, hlen, if_true, Option.getD_some, brokers, hb]
  cases ha : s.alias_ with
  | none =>
    rw [ha] at h
    simp only [Option.getD_none] at h
    cases hs : signalIndex d [] with
    | none => simp [hs]
    | some k =>
      rw [hs] at h
      simp only [reduceCtorEq, or_false] at h
      simp [hs, h]
  | some a =>
    rw [ha] at h
    simp only [Option.getD_some] at h
    cases hs : signalIndex d a with
    | none => simp [hs]
    | some k =>
      rw [hs] at h
      simp only [reduceCtorEq, or_false] at h
      simp [hs, h]

/-- **C95.** The number of signals of a function is the number of nodes; none if the direction is not there, and an error if it is empty. -/
theorem c95_count (l : List FSig) (h : l ≠ []) :
    numberOfSignals (some l) = (true, l.length) ∧ numberOfSignals none = (true, 0) ∧ numberOfSignals (some []) = (false, 0) := by
  have : l.length + 1 > 1 := by have := List.length_pos_iff.mpr h; omega
  exact ⟨by simp [numberOfSignals, this], rfl, by simp [numberOfSignals]⟩

/-- **C95.** If a function has an empty direction, and no function before it is connected to the signal, the number of samples is not answered. -/
theorem c95_samples_empty (d : DS) (n : Text) (pre post : List Fn) (f : Fn) (hd : d.fns = pre ++ f :: post) (hc : Complete pre)
    (hn : ∀ s ∈ connections pre, s.name ≠ some n ∧ s.alias_ ≠ some n) (hf : f.outs = some [] ∨ f.outs = none ∧ f.ins = some []) :
    numberOfSamples d n = none := by
  have key : ∀ pre : List Fn, Complete pre → (∀ s ∈ connections pre, s.name ≠ some n ∧ s.alias_ ≠ some n) →
      (scanFns n (pre ++ f :: post)).1 = false := by
    intro pre
    induction pre with
    | nil =>
      intro _ _
      rcases hf with h | ⟨h1, h2⟩
      · simp [scanFns, scanDir, numberOfSignals, h]
      · simp [scanFns, scanDir, numberOfSignals, h1, h2]
    | cons g gs ih =>
      intro hc hn
      have hcs : connections (g :: gs) = (g.outs.getD [] ++ g.ins.getD []) ++ connections gs := rfl
      obtain ⟨h1, h2⟩ := hc
      rw [hcs] at h2 hn
      have fn : ∀ l : List FSig, (∀ s ∈ l, s.name ≠ some n ∧ s.alias_ ≠ some n) →
          l.find? (fun s => s.name == some n || s.alias_ == some n) = none := by
        intro l hl
        rw [List.find?_eq_none]
        intro s hs
        simp [hl s hs]
      have ho := scanDir_eq n g.outs (h1 g (by simp)).1 (fun s hs => h2 s (by simp [hs]))
      have hi := scanDir_eq n g.ins (h1 g (by simp)).2 (fun s hs => h2 s (by simp [hs]))
      rw [fn _ (fun s hs => hn s (by simp [hs]))] at ho hi
      have := ih ⟨fun x hx => h1 x (List.mem_cons_of_mem _ hx), fun s hs => h2 s (by simp [hs])⟩ (fun s hs => hn s (by simp [hs]))
      simpa [scanFns, ho, hi] using this
  unfold numberOfSamples
  rw [hd]
  simp [key pre hc hn]

/-- **C95.** A signal whose node does not say the broker is an error. -/
theorem c95_no_broker (d : DS) (works : Text → Bool) (fn : Text) (i : Nat) (f : Fn) (s : FSig) (l : List FSig)
    (hi : functionIndex fn 0 d.fns = some i) (hf : d.fns[i]? = some f) (hl : f.ins = some (s :: l)) (hb : s.broker = none) :
    inputBrokers d works fn = (false, []) := by
  unfold inputBrokers
  have hlen : (s :: l).length + 1 > 1 := by simp
  simp only [hi, hf, hl, numberOfSignals, hlen, if_true, Option.getD_some, brokers, hb]

example : inputBrokers (source [sig 'a' none 'X', sig 'b' (some 0) 'Y', sig 'c' none 'X']) (fun _ => true) ['F'] = (true, [['Y'], ['X']]) := by decide
example : numberOfSamples (source [sig 'a' none 'X']) ['a'] = some 1 := by decide
example : Complete (source [sig 'a' none 'X', sig 'b' (some 0) 'Y']).fns := by unfold Complete; decide

end Verif.DataSrc
