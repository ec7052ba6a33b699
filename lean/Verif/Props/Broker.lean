import Verif.Proof.Broker

/-!
# C30, C43, C44: memory map brokers

Specification. A broker is configured with a list of signals. Signal `sg` asks, for each of its ranges `j` (an offset and a size in
bytes of the data source signal, in order) and each of its samples `h`, for the bytes of the range; in the function memory the
ranges follow each other, each with all its samples. `Configured` relates a byte of the function memory to the data source byte
it corresponds to; `A` gives the address of each data source signal in the current state buffer.
-/

namespace Verif.Spec.Broker

open Verif.Broker (Signal Mem)

/-- Byte `g` of the function memory belongs with byte `s` of the data source memory. -/
def Configured (gam : Nat) (A : Nat → Nat) (ss : List Signal) (g s : Nat) : Prop :=
  ∃ sg ∈ ss, sg.supported = true ∧
    ∃ (j : Nat) (r : Nat × Nat) (h k : Nat), sg.ranges[j]? = some r ∧ h < sg.samples ∧ k < r.2 ∧
      g = gam + sg.gamOffset + sg.samples * ((sg.ranges.take j).map (·.2)).sum + h * r.2 + k ∧
      s = A sg.idx + r.1 + h * sg.byteSize + k

/-- Some signal goes through the broker; each has at least a sample and a range. -/
def Valid (ss : List Signal) : Prop :=
  (∃ sg ∈ ss, sg.supported = true) ∧ ∀ sg ∈ ss, sg.supported = true → sg.samples ≥ 1 ∧ sg.ranges ≠ []

/-- No signal has several samples of a single range that is not the whole signal. -/
def NoPartialSamples (ss : List Signal) : Prop :=
  ∀ sg ∈ ss, sg.supported = true → sg.ranges.length = 1 → (∃ o, sg.ranges = [(o, sg.byteSize)]) ∨ sg.samples = 1

/-- Destinations are disjoint from each other and from the sources. -/
def Disjoint (R : Nat → Nat → Prop) : Prop :=
  (∀ d s s', R d s → R d s' → s = s') ∧ ∀ d s d' s', R d s → R d' s' → d ≠ s'

/-- Every destination gets the value its source had, nothing else changes. -/
def Moved (R : Nat → Nat → Prop) (m m' : Mem) : Prop :=
  (∀ d s, R d s → m' d = m s) ∧ ∀ a, (∀ s, ¬ R a s) → m' a = m a

/-- The data source gives every signal used a non-null address in every state buffer. -/
def Addressed (addr : Nat → Nat → Option Nat) (A : Nat → Nat → Nat) (ss : List Signal) (nBuf : Nat) : Prop :=
  ∀ sg ∈ ss, sg.supported = true → ∀ b, b < nBuf → addr sg.idx b = some (A b sg.idx) ∧ A b sg.idx ≠ 0

end Verif.Spec.Broker

namespace Verif.Props

open Verif.Broker
open Verif.Spec.Broker (Configured Valid NoPartialSamples Moved Addressed)

/-- C30: after `Init`, executing the input broker in state buffer `buf` gives every configured byte of the function memory the
value of its data source byte, and changes nothing else. -/
theorem c30_input_moves (addr : Nat → Nat → Option Nat) (A : Nat → Nat → Nat) (gam nBuf buf : Nat) (ss : List Signal)
    (hgam : gam ≠ 0) (hbuf : buf < nBuf) (hv : Valid ss) (hp : NoPartialSamples ss) (ha : Addressed addr A ss nBuf)
    (hd : Spec.Broker.Disjoint (Configured gam (A buf) ss)) :
    ∃ n t, init false addr gam ss nBuf = some (n, t) ∧
      ∀ m, ∃ m', inputExecute t n buf m = some (true, m') ∧ Moved (Configured gam (A buf) ss) m m' := by
  obtain ⟨is, hi, hb⟩ := plain_built gam A ss hgam
    (fun sg hs hsup => ⟨(hv.2 sg hs hsup).1, (hv.2 sg hs hsup).2, fun h1 => (hp sg hs hsup h1).imp (noRanges_iff sg).mpr id⟩) hv.1
  obtain ⟨t, ht, hin, _, hn, _⟩ := built_exec addr A gam nBuf buf ss is hb hgam hbuf ha
  refine ⟨is.length, t, by simp [init, hi, ht], fun m => ?_⟩
  have hmv : ∀ d s, Moves (inCopies (A buf) is) d s ↔ Configured gam (A buf) ss d s := fun d s =>
    (moves_in _ _ _ _).trans (hb.pairs buf d s)
  obtain ⟨r1, r2, r3⟩ := runAll_spec (inCopies (A buf) is) m hn
    (fun d s s' h h' => hd.1 d s s' ((hmv d s).mp h) ((hmv d s').mp h'))
    (fun d s d' s' h h' => hd.2 d s d' s' ((hmv d s).mp h) ((hmv d' s').mp h'))
  refine ⟨(runAll (inCopies (A buf) is) m).2, ?_, fun d s h => r2 d s ((hmv d s).mpr h), fun a h => r3 a (fun s h' => h s ((hmv a s).mp h'))⟩
  rw [hin, ← r1]

/-- C30: the output broker does the converse. -/
theorem c30_output_moves (addr : Nat → Nat → Option Nat) (A : Nat → Nat → Nat) (gam nBuf buf : Nat) (ss : List Signal)
    (hgam : gam ≠ 0) (hbuf : buf < nBuf) (hv : Valid ss) (hp : NoPartialSamples ss) (ha : Addressed addr A ss nBuf)
    (hd : Spec.Broker.Disjoint (fun d s => Configured gam (A buf) ss s d)) :
    ∃ n t, init false addr gam ss nBuf = some (n, t) ∧
      ∀ m, ∃ m', outputExecute t n buf m = some (true, m') ∧ Moved (fun d s => Configured gam (A buf) ss s d) m m' := by
  obtain ⟨is, hi, hb⟩ := plain_built gam A ss hgam
    (fun sg hs hsup => ⟨(hv.2 sg hs hsup).1, (hv.2 sg hs hsup).2, fun h1 => (hp sg hs hsup h1).imp (noRanges_iff sg).mpr id⟩) hv.1
  obtain ⟨t, ht, _, hout, _, hn⟩ := built_exec addr A gam nBuf buf ss is hb hgam hbuf ha
  refine ⟨is.length, t, by simp [init, hi, ht], fun m => ?_⟩
  have hmv : ∀ d s, Moves (outCopies (A buf) is) d s ↔ Configured gam (A buf) ss s d := fun d s =>
    (moves_out _ _ _ _).trans (hb.pairs buf s d)
  obtain ⟨r1, r2, r3⟩ := runAll_spec (outCopies (A buf) is) m hn
    (fun d s s' h h' => hd.1 d s s' ((hmv d s).mp h) ((hmv d s').mp h'))
    (fun d s d' s' h h' => hd.2 d s d' s' ((hmv d s).mp h) ((hmv d' s').mp h'))
  refine ⟨(runAll (outCopies (A buf) is) m).2, ?_, fun d s h => r2 d s ((hmv d s).mpr h), fun a h => r3 a (fun s h' => h s ((hmv a s).mp h'))⟩
  rw [hout, ← r1]

/-- C30: the synchronised input broker copies only after a successful `Synchronise`, and reports success only when
`Synchronise`, every copy and `BrokerCopyTerminated` succeeded. -/
theorem c30_synchronised (syn term : Bool) (t : List Entry) (n buf : Nat) (m m' : Mem) (ok : Bool)
    (h : synchronisedExecute syn term t n buf m = some (ok, m')) :
    (syn = false → ok = false ∧ m' = m) ∧
    (ok = true → syn = true ∧ term = true ∧ inputExecute t n buf m = some (true, m')) := by
  unfold synchronisedExecute at h
  cases syn with
  | false => simp at h; simp [h]
  | true =>
    simp only [if_true] at h
    cases hx : inputExecute t n buf m with
    | none => rw [hx] at h; simp at h
    | some r =>
      obtain ⟨b, m1⟩ := r
      rw [hx] at h
      simp only [Option.map_some, Option.some.injEq] at h
      refine ⟨fun e => by simp at e, fun e => ?_⟩
      cases b with
      | true => simp at h; obtain ⟨rfl, rfl⟩ := h; exact ⟨rfl, e, rfl⟩
      | false => simp at h; obtain ⟨rfl, rfl⟩ := h; simp at e

/-- C44: the optimised table moves the same bytes as the configuration asks for, in any state buffer, when the state buffers of all
signals are the same distance apart (`MemoryDataSourceI` and the single buffer `GAMDataSource`). No restriction on the samples of
partial ranges is needed. -/
theorem c44_optimised_input_moves (addr : Nat → Nat → Option Nat) (A : Nat → Nat → Nat) (D : Nat → Nat) (gam nBuf buf : Nat) (ss : List Signal)
    (hgam : gam ≠ 0) (hbuf : buf < nBuf) (hv : Valid ss) (ha : Addressed addr A ss nBuf)
    (hD : ∀ b sg, sg ∈ ss → sg.supported = true → A b sg.idx = A 0 sg.idx + D b)
    (hd : Spec.Broker.Disjoint (Configured gam (A buf) ss)) :
    ∃ n t, init true addr gam ss nBuf = some (n, t) ∧
      ∀ m, ∃ m', inputExecute t n buf m = some (true, m') ∧ Moved (Configured gam (A buf) ss) m m' := by
  obtain ⟨is, hi, hb⟩ := optim_built gam addr A D ss hgam hv.2 (fun sg hs hsup => (ha sg hs hsup 0 (by omega)).1)
    (fun b sg hs hsup => (hD b sg hs hsup).symm) hv.1
  obtain ⟨t, ht, hin, _, hn, _⟩ := built_exec addr A gam nBuf buf ss is hb hgam hbuf ha
  refine ⟨is.length, t, by simp [init, hi, ht], fun m => ?_⟩
  have hmv : ∀ d s, Moves (inCopies (A buf) is) d s ↔ Configured gam (A buf) ss d s := fun d s =>
    (moves_in _ _ _ _).trans (hb.pairs buf d s)
  obtain ⟨r1, r2, r3⟩ := runAll_spec (inCopies (A buf) is) m hn
    (fun d s s' h h' => hd.1 d s s' ((hmv d s).mp h) ((hmv d s').mp h'))
    (fun d s d' s' h h' => hd.2 d s d' s' ((hmv d s).mp h) ((hmv d' s').mp h'))
  refine ⟨(runAll (inCopies (A buf) is) m).2, ?_, fun d s h => r2 d s ((hmv d s).mpr h), fun a h => r3 a (fun s h' => h s ((hmv a s).mp h'))⟩
  rw [hin, ← r1]

theorem c44_optimised_output_moves (addr : Nat → Nat → Option Nat) (A : Nat → Nat → Nat) (D : Nat → Nat) (gam nBuf buf : Nat) (ss : List Signal)
    (hgam : gam ≠ 0) (hbuf : buf < nBuf) (hv : Valid ss) (ha : Addressed addr A ss nBuf)
    (hD : ∀ b sg, sg ∈ ss → sg.supported = true → A b sg.idx = A 0 sg.idx + D b)
    (hd : Spec.Broker.Disjoint (fun d s => Configured gam (A buf) ss s d)) :
    ∃ n t, init true addr gam ss nBuf = some (n, t) ∧
      ∀ m, ∃ m', outputExecute t n buf m = some (true, m') ∧ Moved (fun d s => Configured gam (A buf) ss s d) m m' := by
  obtain ⟨is, hi, hb⟩ := optim_built gam addr A D ss hgam hv.2 (fun sg hs hsup => (ha sg hs hsup 0 (by omega)).1)
    (fun b sg hs hsup => (hD b sg hs hsup).symm) hv.1
  obtain ⟨t, ht, _, hout, _, hn⟩ := built_exec addr A gam nBuf buf ss is hb hgam hbuf ha
  refine ⟨is.length, t, by simp [init, hi, ht], fun m => ?_⟩
  have hmv : ∀ d s, Moves (outCopies (A buf) is) d s ↔ Configured gam (A buf) ss s d := fun d s =>
    (moves_out _ _ _ _).trans (hb.pairs buf s d)
  obtain ⟨r1, r2, r3⟩ := runAll_spec (outCopies (A buf) is) m hn
    (fun d s s' h h' => hd.1 d s s' ((hmv d s).mp h) ((hmv d s').mp h'))
    (fun d s d' s' h h' => hd.2 d s d' s' ((hmv d s).mp h) ((hmv d' s').mp h'))
  refine ⟨(runAll (outCopies (A buf) is) m).2, ?_, fun d s h => r2 d s ((hmv d s).mpr h), fun a h => r3 a (fun s h' => h s ((hmv a s).mp h'))⟩
  rw [hout, ← r1]

/-- C44: so both tables leave the same memory behind. -/
theorem c44_same_effect (addr : Nat → Nat → Option Nat) (A : Nat → Nat → Nat) (D : Nat → Nat) (gam nBuf buf : Nat) (ss : List Signal)
    (hgam : gam ≠ 0) (hbuf : buf < nBuf) (hv : Valid ss) (hp : NoPartialSamples ss) (ha : Addressed addr A ss nBuf)
    (hD : ∀ b sg, sg ∈ ss → sg.supported = true → A b sg.idx = A 0 sg.idx + D b)
    (hd : Spec.Broker.Disjoint (Configured gam (A buf) ss)) :
    ∃ n t n' t', init false addr gam ss nBuf = some (n, t) ∧ init true addr gam ss nBuf = some (n', t') ∧
      ∀ m, inputExecute t n buf m = inputExecute t' n' buf m := by
  obtain ⟨n, t, h1, h2⟩ := c30_input_moves addr A gam nBuf buf ss hgam hbuf hv hp ha hd
  obtain ⟨n', t', h1', h2'⟩ := c44_optimised_input_moves addr A D gam nBuf buf ss hgam hbuf hv ha hD hd
  refine ⟨n, t, n', t', h1, h1', fun m => ?_⟩
  obtain ⟨m1, e1, mv1⟩ := h2 m
  obtain ⟨m2, e2, mv2⟩ := h2' m
  rw [e1, e2]
  have : m1 = m2 := by
    funext a
    by_cases h : ∃ s, Configured gam (A buf) ss a s
    · obtain ⟨s, hs⟩ := h
      rw [mv1.1 a s hs, mv2.1 a s hs]
    · rw [mv1.2 a (fun s hs => h ⟨s, hs⟩), mv2.2 a (fun s hs => h ⟨s, hs⟩)]
  rw [this]

/-- C44: sorting keeps exactly the same copies... -/
theorem c44_sort_permutes (bcp : List Raw) : ∃ l : List Raw, sortByGAM bcp = l.map some ∧ l.Perm bcp := sort_perm bcp

/-- ... but does not sort: every pass merges the unsorted input again instead of the result of the previous pass. -/
theorem c44_sort_does_not_sort :
    sortByGAM [⟨1, 0, 0, 100, 40⟩, ⟨1, 0, 1, 101, 30⟩, ⟨1, 0, 2, 102, 20⟩, ⟨1, 0, 3, 103, 10⟩] =
      [some ⟨1, 0, 2, 102, 20⟩, some ⟨1, 0, 3, 103, 10⟩, some ⟨1, 0, 0, 100, 40⟩, some ⟨1, 0, 1, 101, 30⟩] := by decide +kernel

/-- C43: with at least one sample and one range per signal, and no multi-sample partial single range, the copy table is filled
exactly: as many entries as were allocated. -/
theorem c43_table_exact (gam : Nat) (ss : List Signal) (hgam : gam ≠ 0) (hv : Valid ss) (hp : NoPartialSamples ss) :
    ∃ is, initFunctionPointers gam ss = .ok is.length is ∧ is.length = count ss := by
  have h : ∀ sg ∈ ss, sg.supported = true → sg.samples ≥ 1 ∧ sg.ranges ≠ [] ∧
      (sg.ranges.length = 1 → sg.noRanges = true ∨ sg.samples = 1) := fun sg hs hsup =>
    ⟨(hv.2 sg hs hsup).1, (hv.2 sg hs hsup).2, fun h1 => (hp sg hs hsup h1).imp (noRanges_iff sg).mpr id⟩
  have hl := fill_length gam ss h
  refine ⟨(fill gam ss).1, ?_, hl⟩
  unfold initFunctionPointers
  rw [if_pos (count_pos ss hv.2 hv.1).1, if_neg hgam, if_neg (by omega), (fill_spec gam (fun _ => 0) ss hv.2).1, if_pos rfl, hl]

/-- C43: the optimised path never writes beyond the table it allocates. -/
theorem c43_optimised_table_fits (addr : Nat → Option Nat) (A : Nat → Nat) (gam : Nat) (ss : List Signal) (hv : Valid ss)
    (ha : ∀ sg ∈ ss, sg.supported = true → addr sg.idx = some (A sg.idx)) : initOptim addr gam ss ≠ .overflow := by
  obtain ⟨raw, h1, h2, _, _⟩ := fillRaw_spec addr A A 0 gam ss (fun sg hs hsup => ⟨ha sg hs hsup, rfl, (hv.2 sg hs hsup).1⟩)
  unfold initOptim
  split
  · split
    · simp
    · rw [h1]; simp only; rw [if_neg (by omega)]; simp
  · simp

/-- C43, disagreement: for every signal with more than one sample whose only range is a part of the signal, one entry is allocated
and as many entries as samples are written. -/
theorem c43_partial_range_overflows (gam : Nat) (sg : Signal) (o z : Nat) (hgam : gam ≠ 0) (hsup : sg.supported = true)
    (hr : sg.ranges = [(o, z)]) (hz : z ≠ sg.byteSize) (hs : sg.samples > 1) :
    initFunctionPointers gam [sg] = .overflow := by
  have hno : sg.noRanges = false := by
    cases h : sg.noRanges with
    | false => rfl
    | true => obtain ⟨o', ho⟩ := (noRanges_iff sg).mp h; rw [hr] at ho; simp at ho; exact absurd ho.2 hz
  obtain ⟨l, hl, _, hlen⟩ := signalCopies_spec gam (fun _ => 0) sg (by omega) (by rw [hr]; simp)
  rw [hno, hr] at hlen
  simp at hlen
  have hc : count [sg] = 1 := by simp [count, hsup, hr]
  have hf : (fill gam [sg]).1 = l := by simp [fill, hsup, hl]
  unfold initFunctionPointers
  rw [hc, if_pos (by omega), if_neg hgam, hf, hlen, if_pos (by omega)]

/-- C43, disagreement: several ranges with the number of samples left at zero overflow too when another signal makes the table non-empty. -/
theorem c43_zero_samples_overflows :
    initFunctionPointers 1000 [⟨true, 0, 0, 4, 1, [(0, 4)]⟩, ⟨true, 4, 1, 4, 0, [(0, 1), (2, 1)]⟩] = .overflow := by decide

/-! Two signals: a 3 element array of which the elements 0 and 2 are read (4 bytes each), and a scalar with 2 samples. -/
def brokerExample : List Signal := [⟨true, 0, 0, 12, 1, [(0, 4), (8, 4)]⟩, ⟨true, 8, 1, 4, 2, [(0, 4)]⟩]

example : Valid brokerExample ∧ NoPartialSamples brokerExample := by
  refine ⟨⟨⟨_, List.mem_cons_self, rfl⟩, ?_⟩, ?_⟩
  · intro sg hs; simp [brokerExample] at hs; rcases hs with rfl | rfl <;> simp
  · intro sg hs; simp [brokerExample] at hs; rcases hs with rfl | rfl <;> simp

example : initFunctionPointers 1000 brokerExample = .ok 3 [⟨4, 0, 1000, 0⟩, ⟨4, 8, 1004, 0⟩, ⟨8, 0, 1008, 1⟩] := by decide

/-- The optimised table merges the last two copies when the signals are contiguous in the data source. -/
example : initOptim (fun i => if i = 0 then some 2000 else some 2012) 1000 brokerExample =
    .ok 2 [⟨4, 0, 1000, 0⟩, ⟨12, 8, 1004, 0⟩] := by decide +kernel

example : Spec.Broker.Disjoint (Configured 1000 (fun i => if i = 0 then 2000 else 2012) brokerExample) := by
  have key : ∀ g s, Configured 1000 (fun i => if i = 0 then 2000 else 2012) brokerExample g s →
      (1000 ≤ g ∧ g < 1016 ∧ (g < 1004 ∧ s = g + 1000 ∨ 1004 ≤ g ∧ s = g + 1004)) := by
    rintro g s ⟨sg, hs, _, j, r, h, k, hj, hh, hk, e1, e2⟩
    simp [brokerExample] at hs
    rcases hs with rfl | rfl
    · rcases j with _ | _ | j
      · simp at hj; subst hj; simp at hh hk e1 e2; subst hh; omega
      · simp at hj; subst hj; simp at hh hk e1 e2; subst hh; simp at e1 e2; omega
      · simp at hj
    · rcases j with _ | j
      · simp at hj; subst hj; simp at hh hk e1 e2; omega
      · simp at hj
  refine ⟨fun d s s' h h' => ?_, fun d s d' s' h h' => ?_⟩
  · have := key d s h; have := key d s' h'; omega
  · have := key d s h; have := key d' s' h'; omega

end Verif.Props
