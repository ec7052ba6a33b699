import Verif.Spec.GamLookup
/-!
# C141: questions on the signals of a GAM
-/
namespace Verif.GamLookup
open Spec

private theorem loop_true (sigs : List Sig) (name : String) : ∀ fuel i idx k, fuel + i = sigs.length →
    (∀ j < i, ∃ s n, sigs[j]? = some s ∧ s.name = some n ∧ n ≠ name) →
    (indexLoop sigs name fuel i idx = (true, k) ↔ First sigs name k) := by
  intro fuel
  induction fuel with
  | zero =>
    intro i idx k hl hb
    refine ⟨fun h => by simp [indexLoop] at h, fun ⟨⟨s, hs, hn⟩, _⟩ => ?_⟩
    have hk : k < sigs.length := (List.getElem?_eq_some_iff.1 hs).1
    obtain ⟨s', n, h1, h2, h3⟩ := hb k (by omega)
    rw [hs] at h1; cases h1; rw [hn] at h2; cases h2; exact absurd rfl h3
  | succ fuel ih =>
    intro i idx k hl hb
    have hi : i < sigs.length := by omega
    have hs : sigs[i]? = some sigs[i] := List.getElem?_eq_getElem hi
    have low : First sigs name k → i ≤ k := by
      rintro ⟨⟨s, h0, hn⟩, _⟩
      rcases Nat.lt_or_ge k i with h | h
      · obtain ⟨s', n, h1, h2, h3⟩ := hb k h
        rw [h0] at h1; cases h1; rw [hn] at h2; cases h2; exact absurd rfl h3
      · exact h
    cases hn : sigs[i].name with
    | none =>
      have e : indexLoop sigs name (fuel + 1) i idx = (false, idx) := by simp only [indexLoop, getName, moveTo, hs, hn]
      rw [e]
      refine ⟨fun h => by simp at h, fun h => ?_⟩
      rcases Nat.lt_or_ge i k with h' | h'
      · obtain ⟨s, n, h1, h2, _⟩ := h.2 i h'
        rw [hs] at h1; cases h1; rw [hn] at h2; cases h2
      · have : k = i := Nat.le_antisymm h' (low h)
        subst this
        obtain ⟨⟨s, h1, h2⟩, _⟩ := h
        rw [hs] at h1; cases h1; rw [hn] at h2; cases h2
    | some n =>
      by_cases he : name = n
      · subst he
        have e : indexLoop sigs name (fuel + 1) i idx = (true, i) := by simp only [indexLoop, getName, moveTo, hs, hn, if_true]
        rw [e]
        refine ⟨fun h => ?_, fun h => ?_⟩
        · cases h; exact ⟨⟨_, hs, hn⟩, hb⟩
        · rcases Nat.lt_or_ge i k with h' | h'
          · obtain ⟨s, n, h1, h2, h3⟩ := h.2 i h'
            rw [hs] at h1; cases h1; rw [hn] at h2; cases h2; exact absurd rfl h3
          · rw [Nat.le_antisymm h' (low h)]
      · have e : indexLoop sigs name (fuel + 1) i idx = indexLoop sigs name fuel (i + 1) i := by
          simp only [indexLoop, getName, moveTo, hs, hn, if_neg he]
        rw [e]
        refine ih (i + 1) i k (by omega) (fun j hj => ?_)
        rcases Nat.lt_or_ge j i with h' | h'
        · exact hb j h'
        · have : j = i := by omega
          subst this
          exact ⟨_, n, hs, hn, fun h => he h.symm⟩

/-- The index given for a name is that of the first signal with the name, and one is given whenever there is such a signal. -/
theorem c141_index (sigs : List Sig) (name : String) (idx k : Nat) :
    getIndex sigs name idx = (true, k) ↔ First sigs name k :=
  loop_true sigs name _ 0 idx k (by omega) (fun j hj => absurd hj (Nat.not_lt_zero j))

/-- The name of the signal whose index was given is the name that was asked for. -/
theorem c141_index_name (sigs : List Sig) (name : String) (idx k : Nat) (h : getIndex sigs name idx = (true, k)) :
    getName sigs k = some name := by
  obtain ⟨⟨s, h1, h2⟩, _⟩ := (c141_index sigs name idx k).1 h
  simp only [getName, moveTo, h1, h2]

/-- A name that is refused can change the variable of the caller, to the index of a signal that has another name. -/
theorem c141_refused_index_fails : ∃ (sigs : List Sig) (name : String) (idx : Nat),
    (getIndex sigs name idx).1 = false ∧ (getIndex sigs name idx).2 ≠ idx ∧ (getIndex sigs name idx).2 < sigs.length :=
  ⟨[⟨some "A", none, [], []⟩, ⟨some "B", none, [], []⟩], "C", 7, by decide, by decide, by decide⟩

private theorem row (table : Sig → List (Nat × Nat)) (sigs : List Sig) (i r : Nat) (out : Nat × Nat) :
    (∀ s row, sigs[i]? = some s → (table s)[r]? = some row → rowOf table sigs i r out = (true, row)) ∧
    ((∀ s row, sigs[i]? = some s → (table s)[r]? ≠ some row) → rowOf table sigs i r out = (false, out)) := by
  constructor
  · intro s row hs hr
    have hl : r < (table s).length := (List.getElem?_eq_some_iff.1 hr).1
    simp [rowOf, numberOf, moveTo, hs, hl, Nat.lt_of_le_of_lt (Nat.zero_le r) hl]
    exact (List.getElem?_eq_some_iff.1 hr).2
  · intro h
    cases hs : sigs[i]? with
    | none => simp [rowOf, numberOf, moveTo, hs]
    | some s =>
      have hl : ¬ r < (table s).length := fun hl => h s _ hs (List.getElem?_eq_getElem hl)
      simp [rowOf, numberOf, moveTo, hs, hl]

/-- A range of a signal is the one configured; a signal or a range that is not there is refused and changes nothing. -/
theorem c141_range (sigs : List Sig) (i r : Nat) (out : Nat × Nat) :
    (∀ s row, sigs[i]? = some s → s.ranges[r]? = some row → getRange sigs i r out = (true, row)) ∧
    ((∀ s row, sigs[i]? = some s → s.ranges[r]? ≠ some row) → getRange sigs i r out = (false, out)) :=
  row Sig.ranges sigs i r out

/-- The same for the byte offsets. -/
theorem c141_offset (sigs : List Sig) (i r : Nat) (out : Nat × Nat) :
    (∀ s row, sigs[i]? = some s → s.offsets[r]? = some row → getOffset sigs i r out = (true, row)) ∧
    ((∀ s row, sigs[i]? = some s → s.offsets[r]? ≠ some row) → getOffset sigs i r out = (false, out)) :=
  row Sig.offsets sigs i r out

private theorem freq {F : Type} (src : String) (i : Nat) (f v : F) : ∀ l : List (Mem F), Freq l src i v → freqLoop src i f l = (true, v) := by
  rintro l ⟨before, m, after, rfl, h1, h2, h3⟩
  induction before with
  | nil => simp [freqLoop, h1, h2]
  | cons x b ih =>
    obtain ⟨d, hd, hne⟩ := h3 x (by simp)
    simp only [List.cons_append, freqLoop, hd, if_neg hne]
    exact ih (fun y hy => h3 y (by simp [hy]))

private theorem freq_back {F : Type} (src : String) (i : Nat) (f v : F) : ∀ l : List (Mem F), (∃ m ∈ l, m.source = some src) →
    freqLoop src i f l = (true, v) → Freq l src i v := by
  intro l
  induction l with
  | nil => rintro ⟨m, hm, _⟩; cases hm
  | cons x r ih =>
    rintro ⟨m, hm, hs⟩ h
    cases hd : x.source with
    | none => simp [freqLoop, hd] at h
    | some d =>
      by_cases he : d = src
      · subst he
        cases hf : x.frequency i with
        | none => simp [freqLoop, hd, hf] at h
        | some w =>
          simp [freqLoop, hd, hf] at h
          subst h
          exact ⟨[], x, r, rfl, hd, hf, by simp⟩
      · simp only [freqLoop, hd, if_neg he] at h
        have hm' : m ∈ r := by
          rcases List.mem_cons.1 hm with rfl | h'
          · rw [hd] at hs; cases hs; exact absurd rfl he
          · exact h'
        obtain ⟨b, m', a, rfl, h1, h2, h3⟩ := ih ⟨m, hm', hs⟩ h
        refine ⟨x :: b, m', a, rfl, h1, h2, ?_⟩
        intro y hy
        rcases List.mem_cons.1 hy with rfl | hy
        · exact ⟨d, hd, he⟩
        · exact h3 y hy

/-- The frequency given is the one configured, when the memory of the function has the data source of the signal.  Missing: that
nothing is given otherwise. -/
theorem c141_frequency_partial {F : Type} (sigs : List Sig) (l : List (Mem F)) (i : Nat) (f v : F) (s : Sig) (src : String)
    (hs : sigs[i]? = some s) (hd : s.source = some src) (hm : ∃ m ∈ l, m.source = some src) :
    getFrequency sigs (some l) i f = (true, v) ↔ Freq l src i v := by
  have e : getFrequency sigs (some l) i f = freqLoop src i f l := by simp only [getFrequency, moveTo, hs, hd]
  rw [e]
  exact ⟨freq_back src i f v l hm, freq src i f v l⟩

/-- A signal that is not there, one without a data source, and any signal when there is no memory node, have no frequency: this is told, and
nothing is changed. -/
theorem c141_frequency_refused {F : Type} (sigs : List Sig) (mem : Option (List (Mem F))) (i : Nat) (f : F)
    (h : mem = none ∨ ∀ s, sigs[i]? = some s → s.source = none) : getFrequency sigs mem i f = (false, f) := by
  cases hs : sigs[i]? with
  | none => simp only [getFrequency, moveTo, hs]
  | some s =>
    rcases h with rfl | h
    · cases hd : s.source <;> simp only [getFrequency, moveTo, hs, hd]
    · simp only [getFrequency, moveTo, hs, h s hs]

private theorem freq_same {F : Type} (src : String) (i : Nat) (f : F) : ∀ l : List (Mem F), (freqLoop src i f l).1 = false → (freqLoop src i f l).2 = f
  | [], h => rfl
  | m :: r, h => by
    cases hd : m.source with
    | none => simp only [freqLoop, hd]
    | some d =>
      by_cases he : d = src
      · cases hf : m.frequency i with
        | none => simp only [freqLoop, hd, if_pos he, hf]
        | some v => simp [freqLoop, hd, he, hf] at h
      · simp only [freqLoop, hd, if_neg he] at h ⊢
        exact freq_same src i f r h

/-- A refused question on a frequency changes nothing. -/
theorem c141_frequency_same {F : Type} (sigs : List Sig) (mem : Option (List (Mem F))) (i : Nat) (f : F)
    (h : (getFrequency sigs mem i f).1 = false) : (getFrequency sigs mem i f).2 = f := by
  cases hs : sigs[i]? with
  | none => simp only [getFrequency, moveTo, hs]
  | some s =>
    cases hd : s.source with
    | none => simp only [getFrequency, moveTo, hs, hd]
    | some d =>
      cases mem with
      | none => simp only [getFrequency, moveTo, hs, hd]
      | some l =>
        simp only [getFrequency, moveTo, hs, hd] at h ⊢
        exact freq_same d i f l h

/-- The name of a signal is the one configured, and a signal that is not there has none. -/
theorem c141_name (sigs : List Sig) (i : Nat) (n : String) : getName sigs i = some n ↔ ∃ s, sigs[i]? = some s ∧ s.name = some n := by
  cases hs : sigs[i]? with
  | none => simp [getName, moveTo, hs]
  | some s => simp [getName, moveTo, hs]

/-- The numbers of ranges and of byte offsets are those configured, and a signal that is not there has none. -/
theorem c141_number (sigs : List Sig) (i n : Nat) :
    (numberOf Sig.ranges sigs i = some n ↔ ∃ s, sigs[i]? = some s ∧ s.ranges.length = n) ∧
    (numberOf Sig.offsets sigs i = some n ↔ ∃ s, sigs[i]? = some s ∧ s.offsets.length = n) := by
  cases hs : sigs[i]? with
  | none => simp [numberOf, moveTo, hs]
  | some s => simp [numberOf, moveTo, hs]

/-- A signal whose data source is not in the memory of the function is answered with success, whatever the variable had before. -/
theorem c141_frequency_fails {F : Type} (f : F) : ∃ (sigs : List Sig) (l : List (Mem F)) (i : Nat),
    getFrequency sigs (some l) i f = (true, f) ∧ ∀ src v, ¬ Freq l src i v :=
  ⟨[⟨some "A", some "D", [], []⟩], [], 0, by simp [getFrequency, moveTo, freqLoop], by
    rintro src v ⟨b, m, a, h, _⟩
    simp at h⟩

/-- Two signals with the same name: the first is given. -/
example : getIndex [⟨some "X", none, [], []⟩, ⟨some "A", none, [(1, 2)], []⟩, ⟨some "A", none, [], []⟩] "A" 9 = (true, 1) := by decide

example : First [⟨some "X", none, [], []⟩, ⟨some "A", none, [(1, 2)], []⟩] "A" 1 :=
  (c141_index _ _ 9 _).1 (by decide)

example : getRange [⟨some "X", none, [(0, 1), (4, 5)], []⟩] 0 1 (8, 8) = (true, (4, 5)) := by decide

example : getFrequency [⟨some "X", some "D", [], []⟩] (some [⟨some "E", fun _ => none⟩, ⟨some "D", fun _ => some 50⟩]) 0 0 = (true, 50) := by
  simp [getFrequency, moveTo, freqLoop]

end Verif.GamLookup
