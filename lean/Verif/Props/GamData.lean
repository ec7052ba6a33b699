import Verif.Proof.GamData
/-!
# C75: the memory of the signals exchanged between functions, and the change of state
-/
namespace Verif.Props.GamData
open Verif.GamData Verif.Spec.GamData

private theorem alloc_cases (ds : Ds) (h32 : (ds.sigs.map (room ds.multiple)).sum < 2 ^ 32) :
    (allocate ds = none ∧ (ds.sigs = [] ∨ ∃ s, s ∈ ds.sigs ∧ room ds.multiple s = 0)) ∨
    (ds.sigs ≠ [] ∧ (∀ s, s ∈ ds.sigs → 0 < room ds.multiple s) ∧
      allocate ds = some { ds with
        offsets := (List.range ds.sigs.length).map (fun k => start ds.multiple ds.sigs k),
        mem := List.replicate (ds.sigs.map (room ds.multiple)).sum 0 }) := by
  unfold allocate
  by_cases h0 : ds.sigs.length > 0
  · rw [if_pos h0]
    rcases layout_spec ds.multiple ds.sigs 0 (by omega) with ⟨h1, h2⟩ | ⟨h1, h2⟩
    · exact Or.inl ⟨by rw [h2]; rfl, Or.inr h1⟩
    · refine Or.inr ⟨by intro e; rw [e] at h0; simp at h0, h1, ?_⟩
      rw [h2]
      simp
  · rw [if_neg h0]
    exact Or.inl ⟨rfl, Or.inl (List.eq_nil_of_length_eq_zero (by omega))⟩

private theorem alloc_laid {ds ds' : Ds} (h32 : (ds.sigs.map (room ds.multiple)).sum < 2 ^ 32) (h : allocate ds = some ds') : Laid ds' := by
  rcases alloc_cases ds h32 with ⟨e, -⟩ | ⟨-, hp, e⟩
  · rw [e] at h; simp at h
  · rw [e] at h
    simp only [Option.some.injEq] at h
    subst h
    refine ⟨fun k hk => ?_, by simp, fun hm s hs => ?_⟩
    · simp only at hk ⊢
      rw [List.getElem?_map, List.getElem?_range hk]; rfl
    · have := hp s hs
      simp only at hm
      unfold room at this
      rw [if_pos hm] at this
      exact Nat.pos_of_mul_pos_left this

/-- **C75** (memory).  With less than `2^32` bytes in all: the allocation is refused exactly when there are no signals or one of
them has no bytes; the memory of each signal begins where that of the one before ends, inside of the block, and is zero. -/
theorem c75_allocate (ds : Ds) (h32 : (ds.sigs.map (room ds.multiple)).sum < 2 ^ 32) :
    (allocate ds = none ↔ ds.sigs = [] ∨ ∃ s, s ∈ ds.sigs ∧ room ds.multiple s = 0) ∧
    ∀ ds', allocate ds = some ds' →
      (∀ k s, ds.sigs[k]? = some s → buffer ds' k 0 = some (start ds.multiple ds.sigs k) ∧
        start ds.multiple ds.sigs k + room ds.multiple s = start ds.multiple ds.sigs (k + 1) ∧
        start ds.multiple ds.sigs (k + 1) ≤ ds'.mem.length ∧
        content ds.multiple ds.sigs ds'.mem k = List.replicate (room ds.multiple s) 0) ∧
      (∀ k b, (ds.sigs.length ≤ k ∨ 0 < b) → buffer ds' k b = none) := by
  rcases alloc_cases ds h32 with ⟨e, hn⟩ | ⟨hne, hp, e⟩
  · exact ⟨⟨fun _ => hn, fun _ => e⟩, fun ds' h => by rw [e] at h; simp at h⟩
  · refine ⟨⟨fun h => by rw [e] at h; simp at h, ?_⟩, fun ds' h => ?_⟩
    · rintro (h | ⟨s, hs, h⟩)
      · exact absurd h hne
      · exact absurd (hp s hs) (by omega)
    · have hl := alloc_laid h32 h
      rw [e] at h
      simp only [Option.some.injEq] at h
      subst h
      refine ⟨fun k s hs => ?_, fun k b hb => ?_⟩
      · have hlt : k < ds.sigs.length := by
          rcases Nat.lt_or_ge k ds.sigs.length with h | h
          · exact h
          · rw [List.getElem?_eq_none h] at hs; exact absurd hs (by simp)
        have hss := start_succ ds.multiple ds.sigs k s hs
        have hse := start_all ds.multiple ds.sigs (show k + 1 ≤ ds.sigs.length from hlt)
        refine ⟨?_, hss.symm, by simpa using hse, ?_⟩
        · have := hl.off k hlt
          simp only at this
          simp only [buffer, hlt, List.getD]
          rw [this]; simp
        · unfold content
          rw [hs]
          simp only [Option.map_some, Option.getD_some, List.drop_replicate, List.take_replicate]
          congr 1; omega
      · unfold buffer
        rw [if_neg]
        simp only
        omega

/-- **C75** (change of state).  Leaving a state, when the reset is configured or it is the first change: every signal that some
function reads and that nobody produces in that state gets its default, or zero, in its first sample; all the rest of the memory is
as it was.  Without the reset nothing changes.  It is refused exactly when a function reads a signal that is not there or that has a
default of another shape. -/
theorem c75_prepare (ds0 ds ds' : Ds) (h32 : (ds0.sigs.map (room ds0.multiple)).sum < 2 ^ 32) (ha : allocate ds0 = some ds)
    (hd : DefaultsFit ds.sigs) (mem : List Nat) (hm : mem.length = ds.mem.length) (current : Nat) (first : Bool) (ok : Bool)
    (h : prepare current { ds with mem := mem, force := first } = some (ok, ds')) :
    (ok = true ↔ (ds.reset = true ∨ first = true) →
      ∀ k, Read ds.inputs k → ∃ s, ds.sigs[k]? = some s ∧ (s.producers current = 0 → s.default ≠ some none)) ∧
    ds'.mem.length = mem.length ∧
    (ok = true → ds'.force = false ∧ ds'.sigs = ds.sigs ∧ ds'.inputs = ds.inputs ∧ ds'.reset = ds.reset ∧
      ∀ k s, ds.sigs[k]? = some s →
        ((ds.reset = true ∨ first = true) ∧ Read ds.inputs k ∧ s.producers current = 0 →
          content ds.multiple ds.sigs ds'.mem k = initial s ++ (content ds.multiple ds.sigs mem k).drop s.bytes) ∧
        (¬ ((ds.reset = true ∨ first = true) ∧ Read ds.inputs k ∧ s.producers current = 0) →
          content ds.multiple ds.sigs ds'.mem k = content ds.multiple ds.sigs mem k)) := by
  have hl0 := alloc_laid h32 ha
  have hl : Laid { ds with mem := mem, force := false } := ⟨hl0.off, by rw [← hl0.len]; exact hm, hl0.samples⟩
  have hread : ∀ k, k ∈ ds.inputs.flatten ↔ Read ds.inputs k := fun k => List.mem_flatten
  unfold prepare at h
  by_cases hr : ds.reset = true ∨ first = true
  · rw [if_pos (by simpa using hr)] at h
    obtain ⟨ok', d, h1, ⟨m, h2⟩, h3, h4, h5⟩ := prepareFunctions_spec current ds.inputs { ds with mem := mem, force := false } hl hd
    rw [h1] at h
    simp only [Option.some.injEq, Prod.mk.injEq] at h
    obtain ⟨rfl, rfl⟩ := h
    refine ⟨?_, ?_, fun hok => ?_⟩
    · rw [h4]
      unfold Able
      constructor
      · intro h _ k hk
        obtain ⟨a, b⟩ := h k ((hread k).mpr hk)
        refine ⟨ds.sigs[k], List.getElem?_eq_getElem a, b _ (List.getElem?_eq_getElem a)⟩
      · intro h k hk
        obtain ⟨s, a, b⟩ := h hr k ((hread k).mp hk)
        refine ⟨?_, fun x hx => ?_⟩
        · rcases Nat.lt_or_ge k ds.sigs.length with h | h
          · exact h
          · rw [List.getElem?_eq_none h] at a; exact absurd a (by simp)
        · simp only at hx
          rw [a] at hx; cases hx; exact b
    · have e1 := h3.len
      have e2 := hl.len
      subst h2
      exact e1.trans e2.symm
    · subst h2
      refine ⟨rfl, rfl, rfl, rfl, fun k s hs => ?_⟩
      have := h5 hok k s hs
      constructor
      · rintro ⟨-, b, c⟩
        rw [this, if_pos ⟨(hread k).mpr b, c⟩]; rfl
      · intro hn
        rw [this, if_neg fun h => hn ⟨hr, (hread k).mp h.1, h.2⟩]
  · rw [if_neg (by simpa using hr)] at h
    simp only [Option.some.injEq, Prod.mk.injEq] at h
    obtain ⟨rfl, rfl⟩ := h
    refine ⟨⟨fun _ h => absurd h hr, fun _ => rfl⟩, rfl, fun _ => ⟨?_, rfl, rfl, rfl, fun k s _ => ⟨fun h => absurd h.1 hr, fun _ => rfl⟩⟩⟩
    have : first ≠ true := fun h => hr (Or.inr h)
    simpa using this

/-- **C75** (no memory fault).  The preparation of a state, of any signals that are read, writes nothing outside of the block. -/
theorem c75_prepare_defined (ds0 ds : Ds) (h32 : (ds0.sigs.map (room ds0.multiple)).sum < 2 ^ 32) (ha : allocate ds0 = some ds)
    (hd : DefaultsFit ds.sigs) (mem : List Nat) (hm : mem.length = ds.mem.length) (current : Nat) (first : Bool) :
    ∃ ok ds', prepare current { ds with mem := mem, force := first } = some (ok, ds') ∧ ds'.mem.length = mem.length := by
  have hl0 := alloc_laid h32 ha
  have hl : Laid { ds with mem := mem, force := false } := ⟨hl0.off, by rw [← hl0.len]; exact hm, hl0.samples⟩
  have he : ∃ ok ds', prepare current { ds with mem := mem, force := first } = some (ok, ds') := by
    unfold prepare
    by_cases hr : ds.reset = true ∨ first = true
    · obtain ⟨ok', d, h1, -⟩ := prepareFunctions_spec current ds.inputs { ds with mem := mem, force := false } hl hd
      exact ⟨ok', d, by rw [if_pos (by simpa using hr)]; exact h1⟩
    · exact ⟨true, _, by rw [if_neg (by simpa using hr)]⟩
  obtain ⟨ok, ds', h⟩ := he
  exact ⟨ok, ds', h, (c75_prepare ds0 ds ds' h32 ha hd mem hm current first ok h).2.1⟩

/-- **C75** (signals of one sample).  Such a signal is exactly its default, or zero. -/
theorem c75_one_sample (ds0 ds ds' : Ds) (h32 : (ds0.sigs.map (room ds0.multiple)).sum < 2 ^ 32) (ha : allocate ds0 = some ds)
    (hd : DefaultsFit ds.sigs) (mem : List Nat) (hm : mem.length = ds.mem.length) (current : Nat) (first : Bool)
    (h : prepare current { ds with mem := mem, force := first } = some (true, ds')) (hr : ds.reset = true ∨ first = true)
    (k : Nat) (s : Sig) (hs : ds.sigs[k]? = some s) (hone : ds.multiple = false ∨ s.samples = 1) (hread : Read ds.inputs k)
    (hp : s.producers current = 0) : content ds.multiple ds.sigs ds'.mem k = initial s := by
  obtain ⟨-, -, h3⟩ := c75_prepare ds0 ds ds' h32 ha hd mem hm current first true h
  obtain ⟨-, -, -, -, h4⟩ := h3 rfl
  rw [(h4 k s hs).1 ⟨hr, hread, hp⟩, List.drop_eq_nil_of_le, List.append_nil]
  unfold content
  rw [hs, List.length_take]
  have : room ds.multiple s = s.bytes := by
    unfold room
    rcases hone with e | e
    · rw [e]; rfl
    · rw [e, Nat.mul_one]; split <;> rfl
  simp only [Option.map_some, Option.getD_some, this]
  omega

/-- **C75** (connection).  Signals with a frequency, without samples, or with more than one when that is not allowed, have no broker;
the others have the broker of their direction. -/
theorem c75_broker (multiple negative input : Bool) (samples : Nat) :
    brokerName multiple negative samples input =
      if negative = true ∧ 0 < samples ∧ (samples = 1 ∨ multiple = true) then
        some (if input then "MemoryMapInputBroker" else "MemoryMapOutputBroker")
      else none := by
  unfold brokerName
  cases negative
  · simp
  · simp only [if_true, true_and]
    by_cases h1 : samples = 1
    · simp [h1]
    · have : (samples ≥ 1 ∧ multiple = true) ↔ (0 < samples ∧ multiple = true) := Iff.rfl
      simp only [h1, false_or, this]

/-- **C75** (producers).  A configuration is accepted exactly when each signal has a producer in each of its states, or signals
without producers are allowed. -/
theorem c75_producers (allow : Bool) (sigs : List (List Nat)) :
    producersOk allow sigs = true ↔ allow = true ∨ ∀ states, states ∈ sigs → ∀ n, n ∈ states → 0 < n := by
  induction sigs with
  | nil => simp [producersOk]
  | cons a l ih =>
    unfold producersOk
    cases allow
    · simp only [Bool.false_eq_true, false_or, Bool.and_eq_true, List.all_eq_true, Bool.or_false, decide_eq_true_eq, List.mem_cons, forall_eq_or_imp] at ih ⊢
      rw [ih]
    · simp [ih]

/-- A signal with three samples of one byte, read by a function and produced in state 1 only. -/
private def three : Sig := ⟨1, 3, some (some [7]), fun st => if st = 1 then 1 else 0⟩
private def dsThree : Ds := ⟨[three], [[0]], true, true, true, [], []⟩

/-- **C75** fails (more than one sample).  Only the first sample gets the default. -/
theorem c75_samples_fails :
    ((allocate dsThree).bind fun d => (prepare 2 { d with mem := [4, 5, 6] }).map fun r => (r.1, r.2.mem)) = some (true, [7, 5, 6]) := by
  decide

/-- **C75** fails (large signals).  The size of a signal wraps around: with `2^31` bytes and 3 samples the block has `2^31`
bytes, less than the signal. -/
theorem c75_large_fails :
    (layout true [⟨2 ^ 31, 3, none, fun _ => 0⟩] 0).map (·.2) = some (2 ^ 31) ∧ room true ⟨2 ^ 31, 3, none, fun _ => 0⟩ = 3 * 2 ^ 31 := by
  decide

/-- Two signals: `a` is produced in state 1, `b` never; both are read. -/
private def dsTwo : Ds :=
  ⟨[⟨2, 1, some (some [1, 2]), fun st => if st = 1 then 1 else 0⟩, ⟨1, 1, none, fun _ => 0⟩], [[0], [1, 0]], false, true, true, [], []⟩

-- Leaving state 1 keeps `a` and clears `b`; leaving state 2 gives `a` its default.
example : (dsTwo.sigs.map (room dsTwo.multiple)).sum < 2 ^ 32 ∧
    ((allocate dsTwo).bind fun d => (prepare 1 { d with mem := [8, 9, 5] }).bind fun r => (prepare 2 r.2).map fun q => (d.mem, r.1, r.2.mem, q.1, q.2.mem)) =
      some ([0, 0, 0], true, [8, 9, 0], true, [1, 2, 0]) := by decide

example : DefaultsFit dsTwo.sigs := by
  intro s hs b hb
  simp only [dsTwo, List.mem_cons, List.not_mem_nil, or_false] at hs
  rcases hs with rfl | rfl
  · simp at hb; subst hb; rfl
  · simp at hb

end Verif.Props.GamData
