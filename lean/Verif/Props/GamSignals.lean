import Verif.Spec.GamSignals
/-!
# C96: the memory of the signals of a function, and the order of its brokers
-/
set_option linter.unusedSimpArgs false
namespace Verif.Props.GamSignals
open Verif.GamSignals Verif.Spec.GamSignals

/-! ## Memory -/

private theorem loop_eq (sz : List (Nat × Nat)) : ∀ off, off + need sz < 4294967296 →
    (pointerLoop off (sz.map (fun p => ⟨some p.1, (true, p.2)⟩))).1 = true ∧
    ∀ i, i < sz.length →
      (pointerLoop off (sz.map (fun p => ⟨some p.1, (true, p.2)⟩))).2[i]? = some (off + need (sz.take i)) := by
  induction sz with
  | nil => intro off _; exact ⟨rfl, fun i hi => absurd hi (Nat.not_lt_zero i)⟩
  | cons p t ih =>
    intro off h
    have hn : need (p :: t) = p.1 * p.2 + need t := by simp [need]
    rw [hn] at h
    have h1 : (p.1 * p.2) % 4294967296 = p.1 * p.2 := Nat.mod_eq_of_lt (by omega)
    have h2 : (off + p.1 * p.2) % 4294967296 = off + p.1 * p.2 := Nat.mod_eq_of_lt (by omega)
    obtain ⟨r1, r2⟩ := ih (off + p.1 * p.2) (by omega)
    simp only [List.map_cons, pointerLoop, if_true, h1, h2]
    refine ⟨r1, fun i hi => ?_⟩
    cases i with
    | zero => simp [need]
    | succ i =>
      simp only [List.getElem?_cons_succ, List.take_succ_cons]
      rw [r2 i (by simpa using hi)]
      simp [need]; omega

/-- Whatever the sizes and samples of the signals, when the node gives their sum and it fits in 32 bits, the memory is the sum, zeroed;
the signals lie one after the other in it, in order and without a gap: each begins where the earlier ones end. -/
theorem c96_memory_partial (sz : List (Nat × Nat)) (hne : sz ≠ []) (h : need sz < 4294967296) :
    ∃ m, allocate (some (need sz)) true (sz.map (fun p => ⟨some p.1, (true, p.2)⟩)) ⟨none, none⟩ = (true, m) ∧
      m.block = some (List.replicate (need sz) 0) ∧
      (∀ i, i < sz.length → signalMemory sz.length m i = some (some (need (sz.take i)))) ∧
      (∀ i, sz.length ≤ i → signalMemory sz.length m i = none) := by
  obtain ⟨r1, r2⟩ := loop_eq sz 0 (by omega)
  refine ⟨⟨some (List.replicate (need sz) 0), some (pointerLoop 0 (sz.map (fun p => ⟨some p.1, (true, p.2)⟩))).2⟩,
    ?_, ?_, ?_, ?_⟩
  · have : 0 < sz.length := List.length_pos_iff.mpr hne
    simp [allocate, this, r1]
  · rfl
  · intro i hi
    simp only [signalMemory, hi, if_true, r2 i hi, Nat.zero_add]
  · intro i hi
    simp [signalMemory, Nat.not_lt.mpr hi]

private theorem need_take_succ (sz : List (Nat × Nat)) (i : Nat) (p : Nat × Nat) (h : sz[i]? = some p) :
    need (sz.take (i + 1)) = need (sz.take i) + p.1 * p.2 := by
  induction sz generalizing i with
  | nil => simp at h
  | cons q t ih =>
    cases i with
    | zero => simp at h; subst h; simp [need]
    | succ i =>
      have := ih i (by simpa using h)
      simp [need] at this ⊢; omega

private theorem need_take_le (sz : List (Nat × Nat)) : ∀ i j, i ≤ j → need (sz.take i) ≤ need (sz.take j) := by
  induction sz with
  | nil => intro i j _; simp
  | cons q t ih =>
    intro i j h
    cases i with
    | zero => simp [need]
    | succ i =>
      cases j with
      | zero => omega
      | succ j => have := ih i j (by omega); simp [need] at this ⊢; omega

/-- The memories of two signals do not overlap, and each is inside the block. -/
theorem c96_apart_partial (sz : List (Nat × Nat)) (h : need sz < 4294967296) (m : Mem)
    (hm : allocate (some (need sz)) true (sz.map (fun p => ⟨some p.1, (true, p.2)⟩)) ⟨none, none⟩ = (true, m))
    (i : Nat) (p : Nat × Nat) (hi : sz[i]? = some p) :
    ∃ a, signalMemory sz.length m i = some (some a) ∧ a + p.1 * p.2 ≤ need sz ∧
      ∀ j, i < j → j < sz.length → ∃ b, signalMemory sz.length m j = some (some b) ∧ a + p.1 * p.2 ≤ b := by
  have hlt : i < sz.length := (List.getElem?_eq_some_iff.mp hi).1
  obtain ⟨m', e, _, e2, _⟩ := c96_memory_partial sz (by intro hc; rw [hc] at hlt; simp at hlt) h
  have : m = m' := by rw [e] at hm; exact ((Prod.mk.injEq ..).mp hm).2.symm
  subst this
  have hs := need_take_succ sz i p hi
  refine ⟨_, e2 i hlt, ?_, fun j hj hjl => ⟨_, e2 j hjl, ?_⟩⟩
  · have := need_take_le sz (i + 1) sz.length (by omega)
    rw [List.take_length] at this; omega
  · have := need_take_le sz (i + 1) j (by omega)
    omega

/-- Memory that is there is not allocated again: the answer is no and nothing changes.  Nor is it when the size is not in the node, or there
is no room. -/
theorem c96_refused (bs : Option Nat) (room : Bool) (sigs : List Sig) (m : Mem) :
    (m.block ≠ none → allocate bs room sigs m = (false, m)) ∧
    (m.block = none → sigs ≠ [] → (bs = none ∨ room = false) → allocate bs room sigs m = (false, m)) ∧
    (m.block = none → sigs = [] → allocate bs room sigs m = (true, m)) := by
  refine ⟨fun h => ?_, fun h hs hb => ?_, fun h hs => ?_⟩
  · cases hb : m.block with
    | none => exact absurd hb h
    | some b => simp [allocate, hb]
  · have : 0 < sigs.length := List.length_pos_iff.mpr hs
    rcases hb with hb | hb
    · simp [allocate, h, this, hb]
    · cases bs <;> simp [allocate, h, this, hb]
  · simp [allocate, h, hs]

/-- A signal whose samples are not known counts once; a signal whose size is not known is refused, and the pointers after it are never
written, so that asking for them gives a value nobody chose. -/
theorem c96_unwritten_fails :
    ∃ m, allocate (some 8) true [⟨some 4, (false, 1)⟩, ⟨none, (true, 1)⟩, ⟨some 4, (true, 1)⟩] ⟨none, none⟩ = (false, m) ∧
      signalMemory 3 m 1 = some (some 4) ∧ signalMemory 3 m 2 = some none :=
  ⟨⟨some (List.replicate 8 0), some [0, 4]⟩, by decide, by decide, by decide⟩

/-- With more than 32 bits of memory, the sum kept in the node wraps: the block is 8 bytes, the second signal is outside it, and the third on
top of the first. -/
theorem c96_wrap_fails :
    ∃ m, allocate (some (need [(2147483648, 1), (2147483648, 1), (8, 1)] % 4294967296)) true
        [⟨some 2147483648, (true, 1)⟩, ⟨some 2147483648, (true, 1)⟩, ⟨some 8, (true, 1)⟩] ⟨none, none⟩ = (true, m) ∧
      m.block = some (List.replicate 8 0) ∧ signalMemory 3 m 0 = some (some 0) ∧ signalMemory 3 m 1 = some (some 2147483648) ∧
      signalMemory 3 m 2 = some (some 0) :=
  ⟨⟨some (List.replicate 8 0), some [0, 2147483648, 0]⟩, by decide, rfl, by decide, by decide, by decide⟩

example : need [(4, 1), (8, 3), (2, 5)] = 38 ∧ ∃ m,
    allocate (some 38) true [⟨some 4, (true, 1)⟩, ⟨some 8, (true, 3)⟩, ⟨some 2, (true, 5)⟩] ⟨none, none⟩ = (true, m) ∧
    signalMemory 3 m 2 = some (some 28) := ⟨by decide, ⟨some (List.replicate 38 0), some [0, 4, 28]⟩, by decide, by decide⟩

/-! ## Counts, samples, initialisation -/

/-- The node has a child for each signal, and `ByteSize`. -/
theorem c96_count_partial (n : Nat) (h : n < 4294967296) : numberOfSignals (n + 1) = n := by
  rw [numberOfSignals]; omega

/-- A node with no children counts as 4294967295 signals. -/
theorem c96_count_fails : numberOfSignals 0 = 4294967295 := by decide

/-- The samples of a signal are those of its index in the first node of its data source. -/
theorem c96_samples_partial (ds : Text) (idx old k : Nat) (pre post : List MemNode) (sigs : List (Nat × Option Nat))
    (hpre : ∀ m ∈ pre, ∃ t, m.dataSource = some t ∧ t ≠ ds)
    (a b : List (Nat × Option Nat)) (hs : sigs = a ++ (idx, some k) :: b) (ha : ∀ p ∈ a, p.1 ≠ idx) :
    numberOfSamples (some ds) idx old (some (pre ++ ⟨some ds, sigs⟩ :: post)) = (true, k) := by
  simp only [numberOfSamples]
  induction pre with
  | nil =>
    have hf : sigs.find? (fun p => p.1 == idx) = some (idx, some k) := by
      rw [hs, List.find?_append, List.find?_eq_none.mpr (fun p hp => by simpa using ha p hp)]
      simp
    simp [samplesLoop, hf]
  | cons m t ih =>
    obtain ⟨x, hx, hne⟩ := hpre m (by simp)
    simp only [List.cons_append, samplesLoop, hx, hne, if_false]
    exact ih (fun m hm => hpre m (by simp [hm]))

/-- A signal that is not in the node of its data source has no samples: the answer is no and the variable stays. -/
theorem c96_samples_none (ds : Text) (idx old : Nat) (pre post : List MemNode) (sigs : List (Nat × Option Nat))
    (hpre : ∀ m ∈ pre, ∃ t, m.dataSource = some t ∧ t ≠ ds) (hs : ∀ p ∈ sigs, p.1 ≠ idx) :
    numberOfSamples (some ds) idx old (some (pre ++ ⟨some ds, sigs⟩ :: post)) = (false, old) := by
  simp only [numberOfSamples]
  induction pre with
  | nil =>
    have hf : sigs.find? (fun p => p.1 == idx) = none :=
      List.find?_eq_none.mpr (fun p hp => by simpa using hs p hp)
    simp [samplesLoop, hf]
  | cons m t ih =>
    obtain ⟨x, hx, hne⟩ := hpre m (by simp)
    simp only [List.cons_append, samplesLoop, hx, hne, if_false]
    exact ih (fun m hm => hpre m (by simp [hm]))

/-- Whenever no node has the data source of the signal, the answer is yes although nothing was read: the variable stays. -/
theorem c96_samples_fails (ds : Text) (idx old : Nat) (nodes : List MemNode)
    (h : ∀ m ∈ nodes, ∃ t, m.dataSource = some t ∧ t ≠ ds) : numberOfSamples (some ds) idx old (some nodes) = (true, old) := by
  simp only [numberOfSamples]
  induction nodes with
  | nil => rfl
  | cons m t ih =>
    obtain ⟨x, hx, hne⟩ := h m (by simp)
    simp only [samplesLoop, hx, hne, if_false]
    exact ih (fun m hm => h m (by simp [hm]))

/-- Before the memory is there, a signal has none. -/
theorem c96_no_memory (n : Nat) (b : Option (List Nat)) (i : Nat) : signalMemory n ⟨b, none⟩ i = none := by
  simp [signalMemory]

/-- Without the signal, without the memory, or with a node in the memory that has no data source before one of the data source, the answer is no
and the variable is not touched. -/
theorem c96_samples_unknown (ds : Option Text) (idx old : Nat) (memory : Option (List MemNode))
    (h : ds = none ∨ memory = none ∨ ∃ pre m post d, ds = some d ∧ memory = some (pre ++ m :: post) ∧ m.dataSource = none ∧
      ∀ x ∈ pre, ∃ t, x.dataSource = some t ∧ t ≠ d) :
    numberOfSamples ds idx old memory = (false, old) := by
  rcases h with h | h | ⟨pre, m, post, d, h1, h2, h3, h4⟩
  · subst h; cases memory <;> rfl
  · subst h; cases ds <;> rfl
  · subst h1; subst h2
    simp only [numberOfSamples]
    induction pre with
    | nil => simp only [List.nil_append, samplesLoop, h3]
    | cons x t ih =>
      obtain ⟨y, hy, hne⟩ := h4 x (by simp)
      simp only [List.cons_append, samplesLoop, hy, hne, if_false]
      exact ih (fun z hz => h4 z (by simp [hz]))

/-- A function without input signals is initialised when its container is and its output signals are copied. -/
theorem c96_initialise_partial (container : Bool) (outs : Option Bool) :
    initialise container none outs = true ↔ container = true ∧ (∀ w, outs = some w → w = true) := by
  cases container <;> cases outs <;> simp [initialise]

/-- With input signals the failure of the container is forgotten. -/
theorem c96_initialise_fails : initialise false (some true) none = true := by decide

/-- Signals that are not copied are told. -/
theorem c96_initialise_copy (container : Bool) (ins outs : Option Bool) (h : ins = some false ∨ outs = some false) :
    initialise container ins outs = false := by
  rcases h with h | h <;> subst h
  · rfl
  · cases ins <;> simp [initialise]

example : numberOfSamples (some ['D']) 2 1 (some [⟨some ['E'], [(0, some 5)]⟩, ⟨some ['D'], [(1, some 7), (2, some 9)]⟩]) = (true, 9) := by
  decide

/-! ## Brokers -/

private theorem delete_mid (a b : List Broker) (x : Broker) (h : ∀ y ∈ a, y.id ≠ x.id) : delete (a ++ x :: b) x = a ++ b := by
  induction a with
  | nil => simp [delete]
  | cons y t ih =>
    have hy : (y.id == x.id) = false := by simpa using h y (by simp)
    have := ih (fun z hz => h z (by simp [hz]))
    simp only [delete] at this
    simp [delete, List.eraseP_cons, hy, this]

private theorem insertAt_len (a b : List Broker) (x : Broker) : insertAt (a ++ b) x a.length = a ++ x :: b := by
  simp [insertAt]

private theorem inner_eq (ds : Text) : ∀ (rest pre unm : List Broker), ((pre ++ unm ++ rest).map (·.id)).Nodup →
    sortInner ds rest.length (pre.length + unm.length) pre.length (pre ++ unm ++ rest) =
      (pre.length + (rest.filter (fun b => b.ds == ds)).length,
        pre ++ rest.filter (fun b => b.ds == ds) ++ (unm ++ rest.filter (fun b => !(b.ds == ds)))) := by
  intro rest
  induction rest with
  | nil => intro pre unm _; simp [sortInner]
  | cons b t ih =>
    intro pre unm hnd
    have hget : (pre ++ unm ++ b :: t)[pre.length + unm.length]? = some b := by
      rw [List.getElem?_append_right (by simp)]; simp
    simp only [List.length_cons, sortInner, hget]
    by_cases hb : b.ds = ds
    · have hm : (if pre.length ≠ pre.length + unm.length then insertAt (delete (pre ++ unm ++ b :: t) b) b pre.length
          else pre ++ unm ++ b :: t) = (pre ++ [b]) ++ unm ++ t := by
        by_cases hu : unm = []
        · subst hu; simp
        · have : 0 < unm.length := List.length_pos_iff.mpr hu
          rw [if_pos (by omega)]
          have hne : ∀ y ∈ pre ++ unm, y.id ≠ b.id := by
            intro y hy
            rw [List.map_append] at hnd
            have := (List.nodup_append.mp hnd).2.2 y.id (List.mem_map.mpr ⟨y, hy, rfl⟩) b.id (by simp)
            exact this
          rw [delete_mid _ _ _ hne, List.append_assoc, insertAt_len]; simp
      have hperm : ((pre ++ [b] ++ unm ++ t).map (·.id)).Nodup := by
        refine List.Perm.nodup (List.Perm.map _ ?_) hnd
        simp only [List.append_assoc, List.singleton_append]
        exact List.Perm.append_left _ (List.perm_middle)
      have := ih (pre ++ [b]) unm hperm
      simp only [List.length_append, List.length_cons, List.length_nil, Nat.zero_add] at this
      rw [if_pos hb, hm, show pre.length + unm.length + 1 = pre.length + 1 + unm.length from by omega, this]
      simp [hb]; omega
    · have := ih pre (unm ++ [b]) (by simpa using hnd)
      simp only [List.length_append, List.length_cons, List.length_nil, Nat.zero_add] at this
      rw [if_neg hb, show pre.length + unm.length + 1 = pre.length + (unm.length + 1) from by omega]
      rw [show pre ++ unm ++ b :: t = pre ++ (unm ++ [b]) ++ t from by simp, this]
      have hb' : (b.ds == ds) = false := by simpa using hb
      simp [hb, hb']

/-- The brokers, group by group. -/
private def grouped : List Text → List Broker → List Broker
  | [], l => l
  | d :: ds, l => l.filter (fun b => b.ds == d) ++ grouped ds (l.filter (fun b => !(b.ds == d)))

private theorem grouped_nil (order : List Text) : grouped order [] = [] := by
  induction order with
  | nil => rfl
  | cons d t ih => simp [grouped, ih]

private theorem grouped_perm (order : List Text) : ∀ l, (grouped order l).Perm l := by
  induction order with
  | nil => intro l; exact List.Perm.refl l
  | cons d t ih =>
    intro l
    simp only [grouped]
    exact (List.Perm.append_left _ (ih _)).trans (List.filter_append_perm (fun b => b.ds == d) l)

private theorem sort_eq (order : List Text) : ∀ (pre todo : List Broker), ((pre ++ todo).map (·.id)).Nodup →
    sortLoop (order.map some) pre.length (pre ++ todo) = (true, pre ++ grouped order todo) := by
  induction order with
  | nil => intro pre todo _; rfl
  | cons d t ih =>
    intro pre todo hnd
    have hi := inner_eq d todo pre [] (by simpa using hnd)
    simp only [List.append_nil, List.length_nil, Nat.add_zero, List.nil_append] at hi
    simp only [List.map_cons, sortLoop, List.length_append, Nat.add_sub_cancel_left, hi]
    have hlen := (List.filter_append_perm (fun b : Broker => b.ds == d) todo).length_eq
    simp only [List.length_append] at hlen
    by_cases hc : pre.length + (todo.filter (fun b => b.ds == d)).length =
        pre.length + (todo.filter (fun b => b.ds == d)).length + (todo.filter (fun b => !(b.ds == d))).length
    · rw [if_pos hc]
      have h0 : todo.filter (fun b => !(b.ds == d)) = [] := List.length_eq_zero_iff.mp (by omega)
      simp only [grouped, h0, grouped_nil, List.append_nil]
    · rw [if_neg hc]
      have hp : ((pre ++ todo.filter (fun b => b.ds == d) ++ todo.filter (fun b => !(b.ds == d))).map (·.id)).Nodup := by
        refine List.Perm.nodup (List.Perm.map _ ?_) hnd
        rw [List.append_assoc]
        exact List.Perm.append_left _ (List.filter_append_perm (fun b => b.ds == d) todo).symm
      have := ih (pre ++ todo.filter (fun b => b.ds == d)) (todo.filter (fun b => !(b.ds == d))) hp
      simp only [List.length_append] at this
      rw [this]; simp [grouped]

private theorem rank_hit (d : Text) (t : List Text) (b : Broker) (h : (b.ds == d) = true) : rank (d :: t) b = 0 := by
  have : (d == b.ds) = true := by rw [beq_iff_eq] at h ⊢; exact h.symm
  simp [rank, List.findIdx_cons, this]

private theorem rank_miss (d : Text) (t : List Text) (b : Broker) (h : (b.ds == d) = false) : rank (d :: t) b = rank t b + 1 := by
  have : (d == b.ds) = false := by
    rw [beq_eq_false_iff_ne] at h ⊢; exact fun e => h e.symm
  simp [rank, List.findIdx_cons, this]

private theorem grouped_sorted (order : List Text) : ∀ l, SortedBy order l (grouped order l) := by
  induction order with
  | nil =>
    intro l
    refine ⟨List.Perm.refl l, ?_, fun _ => rfl⟩
    simp only [grouped]
    exact List.pairwise_of_forall (fun a b => by simp [rank])
  | cons d t ih =>
    intro l
    have hg := ih (l.filter (fun b => !(b.ds == d)))
    have hmem : ∀ b ∈ grouped t (l.filter (fun b => !(b.ds == d))), (b.ds == d) = false := by
      intro b hb
      have := (grouped_perm t _).mem_iff.mp hb
      have := (List.mem_filter.mp this).2
      simpa using this
    refine ⟨grouped_perm (d :: t) l, ?_, ?_⟩
    · simp only [grouped]
      rw [List.pairwise_append]
      refine ⟨?_, ?_, ?_⟩
      · refine List.Pairwise.imp_of_mem (R := fun _ _ => True) ?_ (List.pairwise_of_forall (fun _ _ => trivial))
        intro a b ha _ _
        rw [rank_hit d t a (List.mem_filter.mp ha).2]; exact Nat.zero_le _
      · refine List.Pairwise.imp_of_mem ?_ hg.sorted
        intro a b ha hb h
        rw [rank_miss d t a (hmem a ha), rank_miss d t b (hmem b hb)]; omega
      · intro a ha b _
        rw [rank_hit d t a (List.mem_filter.mp ha).2]; exact Nat.zero_le _
    · intro k
      simp only [grouped, List.filter_append]
      cases k with
      | zero =>
        have h1 : (grouped t (l.filter (fun b => !(b.ds == d)))).filter (fun b => rank (d :: t) b == 0) = [] := by
          rw [List.filter_eq_nil_iff]
          intro b hb
          rw [rank_miss d t b (hmem b hb)]; simp
        rw [h1, List.append_nil, List.filter_filter]
        apply List.filter_congr
        intro b _
        cases h : (b.ds == d)
        · rw [rank_miss d t b h]; simp
        · rw [rank_hit d t b h]; rfl
      | succ k =>
        have h0 : (l.filter (fun b => b.ds == d)).filter (fun b => rank (d :: t) b == k + 1) = [] := by
          rw [List.filter_eq_nil_iff]
          intro b hb
          rw [rank_hit d t b (List.mem_filter.mp hb).2]; simp
        have h1 : (grouped t (l.filter (fun b => !(b.ds == d)))).filter (fun b => rank (d :: t) b == k + 1) =
            (grouped t (l.filter (fun b => !(b.ds == d)))).filter (fun b => rank t b == k) := by
          apply List.filter_congr
          intro b hb
          rw [rank_miss d t b (hmem b hb)]; simp
        rw [h0, List.nil_append, h1, hg.stable k, List.filter_filter]
        apply List.filter_congr
        intro b _
        cases h : (b.ds == d)
        · rw [rank_miss d t b h]; simp
        · rw [rank_hit d t b h]; simp

/-- Whatever the signals and the brokers, no broker twice: afterwards the brokers are the same ones, sorted by the first signal their data
source has; those of the same data source keep their order, and those of no signal's come last, in theirs. -/
theorem c96_brokers (order : List Text) (l : List Broker) (h : (l.map (·.id)).Nodup) :
    ∃ l', sortBrokers (order.map some) l = (true, l') ∧ SortedBy order l l' :=
  ⟨grouped order l, by simpa [sortBrokers] using sort_eq order [] l (by simpa using h), grouped_sorted order l⟩

/-- A signal with no data source is told, and what was sorted for the signals before it stays. -/
theorem c96_brokers_refused (l : List Broker) (post : List (Option Text)) : sortBrokers (none :: post) l = (false, l) := rfl

example : sortBrokers [some ['B'], some ['A'], some ['B']] [⟨1, ['A']⟩, ⟨2, ['B']⟩, ⟨3, ['C']⟩, ⟨4, ['A']⟩, ⟨5, ['B']⟩] =
    (true, [⟨2, ['B']⟩, ⟨5, ['B']⟩, ⟨1, ['A']⟩, ⟨4, ['A']⟩, ⟨3, ['C']⟩]) := by decide

end Verif.Props.GamSignals
