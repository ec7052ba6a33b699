import Verif.Model.Broker

namespace Verif.Broker

/-! ### Running a list of copies -/

structure Cp where
  dst : Nat
  src : Nat
  size : Nat

def runAll : List Cp → Mem → Bool × Mem
  | [], m => (true, m)
  | c :: cs, m => if (copy m c.dst c.src c.size).1 then runAll cs (copy m c.dst c.src c.size).2 else (false, (copy m c.dst c.src c.size).2)

/-- The byte at `s` is copied to `d`. -/
def Moves (cs : List Cp) (d s : Nat) : Prop := ∃ c ∈ cs, ∃ k, k < c.size ∧ d = c.dst + k ∧ s = c.src + k

theorem moves_cons (c : Cp) (cs : List Cp) (d s : Nat) :
    Moves (c :: cs) d s ↔ (∃ k, k < c.size ∧ d = c.dst + k ∧ s = c.src + k) ∨ Moves cs d s := by
  simp [Moves]

theorem moves_append (a b : List Cp) (d s : Nat) : Moves (a ++ b) d s ↔ Moves a d s ∨ Moves b d s := by
  induction a with
  | nil => simp [Moves]
  | cons c cs ih => rw [List.cons_append, moves_cons, moves_cons, ih, or_assoc]

theorem copy_at (m : Mem) (c : Cp) (h1 : c.dst ≠ 0) (h2 : c.src ≠ 0) :
    (copy m c.dst c.src c.size).1 = true ∧
    (∀ k, k < c.size → (copy m c.dst c.src c.size).2 (c.dst + k) = m (c.src + k)) ∧
    (∀ a, (∀ k, k < c.size → a ≠ c.dst + k) → (copy m c.dst c.src c.size).2 a = m a) := by
  unfold copy
  rw [if_pos ⟨h2, h1⟩]
  refine ⟨rfl, fun k hk => ?_, fun a ha => ?_⟩
  · have : c.dst ≤ c.dst + k ∧ c.dst + k < c.dst + c.size := by omega
    simp only [this, and_self, if_true]
    congr 1; omega
  · have : ¬ (c.dst ≤ a ∧ a < c.dst + c.size) := by
      rintro ⟨h3, h4⟩
      exact ha (a - c.dst) (by omega) (by omega)
    simp only [this, if_false]

theorem runAll_spec (cs : List Cp) : ∀ (m : Mem), (∀ c ∈ cs, c.dst ≠ 0 ∧ c.src ≠ 0) →
    (∀ d s s', Moves cs d s → Moves cs d s' → s = s') → (∀ d s d' s', Moves cs d s → Moves cs d' s' → d ≠ s') →
    (runAll cs m).1 = true ∧ (∀ d s, Moves cs d s → (runAll cs m).2 d = m s) ∧
    (∀ a, (∀ s, ¬ Moves cs a s) → (runAll cs m).2 a = m a) := by
  induction cs with
  | nil => intro m _ _ _; simp [runAll, Moves]
  | cons c cs ih =>
    intro m hn hf ho
    have hc := copy_at m c (hn c (by simp)).1 (hn c (by simp)).2
    have i := ih (copy m c.dst c.src c.size).2 (fun x hx => hn x (by simp [hx]))
      (fun d s s' h h' => hf d s s' ((moves_cons c cs d s).mpr (Or.inr h)) ((moves_cons c cs d s').mpr (Or.inr h')))
      (fun d s d' s' h h' => ho d s d' s' ((moves_cons c cs d s).mpr (Or.inr h)) ((moves_cons c cs d' s').mpr (Or.inr h')))
    simp only [runAll, hc.1, if_true]
    -- the sources are not touched by the first copy
    have hsrc : ∀ d s, Moves (c :: cs) d s → (copy m c.dst c.src c.size).2 s = m s := by
      intro d s h
      apply hc.2.2
      intro k hk e
      exact ho (c.dst + k) (c.src + k) d s ((moves_cons _ _ _ _).mpr (Or.inl ⟨k, hk, rfl, rfl⟩)) h e.symm
    refine ⟨i.1, fun d s h => ?_, fun a ha => ?_⟩
    · by_cases hm : ∃ s', Moves cs d s'
      · obtain ⟨s', hs'⟩ := hm
        have e := hf d s s' h ((moves_cons _ _ _ _).mpr (Or.inr hs'))
        rw [i.2.1 d s' hs', ← e, hsrc d s h]
      · rw [i.2.2 d (fun s' h' => hm ⟨s', h'⟩)]
        rcases (moves_cons _ _ _ _).mp h with ⟨k, hk, rfl, rfl⟩ | h'
        · exact hc.2.1 k hk
        · exact absurd ⟨s, h'⟩ hm
    · rw [i.2.2 a (fun s h => ha s ((moves_cons _ _ _ _).mpr (Or.inr h)))]
      apply hc.2.2
      intro k hk e
      exact ha (c.src + k) ((moves_cons _ _ _ _).mpr (Or.inl ⟨k, hk, e, rfl⟩))

/-! ### From the table to the copies -/

def inCopies (A : Nat → Nat) (is : List Info) : List Cp := is.map fun i => ⟨i.gam, A i.idx + i.offset, i.size⟩
def outCopies (A : Nat → Nat) (is : List Info) : List Cp := is.map fun i => ⟨A i.idx + i.offset, i.gam, i.size⟩

def entries (A : Nat → Nat) (is : List Info) : List Entry := is.map fun i => ⟨i.size, i.gam, A i.idx + i.offset⟩

theorem row_eq (addr : Nat → Nat → Option Nat) (A : Nat → Nat) (c0 : Nat) (is : List Info)
    (h : ∀ i ∈ is, addr i.idx c0 = some (A i.idx)) : row addr c0 is = some (entries A is) := by
  induction is with
  | nil => rfl
  | cons i is ih =>
    simp only [row, h i (by simp), Option.bind_some, ih (fun x hx => h x (by simp [hx])), Option.map_some]
    rfl

theorem table_get (addr : Nat → Nat → Option Nat) (A : Nat → Nat → Nat) (is : List Info) :
    ∀ (n c0 : Nat), (∀ i ∈ is, ∀ b, c0 ≤ b → b < c0 + n → addr i.idx b = some (A b i.idx)) →
    ∃ t, table addr is n c0 = some t ∧
      ∀ b k, b < n → k < is.length → t[b * is.length + k]? = (entries (A (c0 + b)) is)[k]? := by
  intro n
  induction n with
  | zero => intro c0 _; exact ⟨[], rfl, fun b k h => by omega⟩
  | succ n ih =>
    intro c0 h
    obtain ⟨t, ht, hg⟩ := ih (c0 + 1) (fun i hi b h1 h2 => h i hi b (by omega) (by omega))
    have hr := row_eq addr (A c0) c0 is (fun i hi => h i hi c0 (Nat.le_refl _) (by omega))
    refine ⟨entries (A c0) is ++ t, by simp [table, hr, ht], fun b k hb hk => ?_⟩
    have hl : (entries (A c0) is).length = is.length := by simp [entries]
    cases b with
    | zero => rw [List.getElem?_append_left (by simp [hl, hk])]; simp
    | succ b =>
      rw [List.getElem?_append_right (by rw [hl, Nat.succ_mul]; omega)]
      have := hg b k (by omega) hk
      rw [hl]
      have e : (b + 1) * is.length + k - is.length = b * is.length + k := by rw [Nat.succ_mul]; omega
      rw [e, this]
      congr 2
      exact congrArg A (by omega)

theorem execIn_eq (t : List Entry) (is : List Info) (A0 A : Nat → Nat) (buf : Nat)
    (h0 : ∀ k, k < is.length → t[k]? = (entries A0 is)[k]?)
    (h1 : ∀ k, k < is.length → t[buf * is.length + k]? = (entries A is)[k]?) :
    ∀ (k n : Nat) (m : Mem), n + k = is.length → execIn t is.length buf k n m = some (runAll (inCopies A (is.drop n)) m) := by
  intro k
  induction k with
  | zero =>
    intro n m hn
    have : is.drop n = [] := List.drop_eq_nil_of_le (by omega)
    simp [execIn, this, inCopies, runAll]
  | succ k ih =>
    intro n m hn
    have hlt : n < is.length := by omega
    have e0 : t[n]? = some ⟨is[n].size, is[n].gam, A0 is[n].idx + is[n].offset⟩ := by
      rw [h0 n hlt]; simp [entries, hlt]
    have e1 : t[buf * is.length + n]? = some ⟨is[n].size, is[n].gam, A is[n].idx + is[n].offset⟩ := by
      rw [h1 n hlt]; simp [entries, hlt]
    have hd : is.drop n = is[n] :: is.drop (n + 1) := (List.drop_eq_getElem_cons hlt)
    rw [hd]
    simp only [execIn, e0, e1, Option.bind_some, inCopies, List.map_cons, runAll]
    split
    · exact ih (n + 1) _ (by omega)
    · rfl

theorem execOut_eq (t : List Entry) (is : List Info) (A0 A : Nat → Nat) (buf : Nat)
    (h0 : ∀ k, k < is.length → t[k]? = (entries A0 is)[k]?)
    (h1 : ∀ k, k < is.length → t[buf * is.length + k]? = (entries A is)[k]?) :
    ∀ (k n : Nat) (m : Mem), n + k = is.length → execOut t is.length buf k n m = some (runAll (outCopies A (is.drop n)) m) := by
  intro k
  induction k with
  | zero =>
    intro n m hn
    have : is.drop n = [] := List.drop_eq_nil_of_le (by omega)
    simp [execOut, this, outCopies, runAll]
  | succ k ih =>
    intro n m hn
    have hlt : n < is.length := by omega
    have e0 : t[n]? = some ⟨is[n].size, is[n].gam, A0 is[n].idx + is[n].offset⟩ := by
      rw [h0 n hlt]; simp [entries, hlt]
    have e1 : t[buf * is.length + n]? = some ⟨is[n].size, is[n].gam, A is[n].idx + is[n].offset⟩ := by
      rw [h1 n hlt]; simp [entries, hlt]
    have hd : is.drop n = is[n] :: is.drop (n + 1) := (List.drop_eq_getElem_cons hlt)
    rw [hd]
    simp only [execOut, e0, e1, Option.bind_some, outCopies, List.map_cons, runAll]
    split
    · exact ih (n + 1) _ (by omega)
    · rfl

/-- Byte `s` of the data source goes with byte `g` of the function memory. -/
def Pairs (A : Nat → Nat) (is : List Info) (g s : Nat) : Prop :=
  ∃ i ∈ is, ∃ k, k < i.size ∧ g = i.gam + k ∧ s = A i.idx + i.offset + k

theorem moves_in (A : Nat → Nat) (is : List Info) (d s : Nat) : Moves (inCopies A is) d s ↔ Pairs A is d s := by
  simp only [Moves, inCopies, Pairs, List.mem_map]
  constructor
  · rintro ⟨c, ⟨i, hi, rfl⟩, k, hk, h1, h2⟩
    exact ⟨i, hi, k, hk, h1, h2⟩
  · rintro ⟨i, hi, k, hk, h1, h2⟩
    exact ⟨_, ⟨i, hi, rfl⟩, k, hk, h1, h2⟩

theorem moves_out (A : Nat → Nat) (is : List Info) (d s : Nat) : Moves (outCopies A is) d s ↔ Pairs A is s d := by
  simp only [Moves, outCopies, Pairs, List.mem_map]
  constructor
  · rintro ⟨c, ⟨i, hi, rfl⟩, k, hk, h1, h2⟩
    exact ⟨i, hi, k, hk, h2, h1⟩
  · rintro ⟨i, hi, k, hk, h1, h2⟩
    exact ⟨_, ⟨i, hi, rfl⟩, k, hk, h2, h1⟩

theorem pairs_append (A : Nat → Nat) (a b : List Info) (g s : Nat) : Pairs A (a ++ b) g s ↔ Pairs A a g s ∨ Pairs A b g s := by
  unfold Pairs
  constructor
  · rintro ⟨i, hi, h⟩
    rcases List.mem_append.mp hi with h' | h'
    · exact Or.inl ⟨i, h', h⟩
    · exact Or.inr ⟨i, h', h⟩
  · rintro (⟨i, hi, h⟩ | ⟨i, hi, h⟩)
    · exact ⟨i, List.mem_append.mpr (Or.inl hi), h⟩
    · exact ⟨i, List.mem_append.mpr (Or.inr hi), h⟩

/-! ### The copies of a signal -/

theorem rangeCopies_eq (gam idx bs size : Nat) : ∀ (h start mo : Nat),
    rangeCopies gam idx bs size h start mo =
      ((List.range h).map fun x => ⟨size, start + x * bs, gam + mo + x * size, idx⟩, mo + h * size) := by
  intro h
  induction h with
  | zero => intro start mo; simp [rangeCopies]
  | succ h ih =>
    intro start mo
    simp only [rangeCopies, ih, List.range_succ_eq_map, List.map_cons, List.map_map]
    refine Prod.ext ?_ ?_
    · simp only [Nat.zero_mul, Nat.add_zero, List.cons.injEq, true_and]
      apply List.map_congr_left
      intro x _
      simp [Nat.succ_mul]; omega
    · simp [Nat.succ_mul]; omega

theorem rangesCopies_pairs (gam : Nat) (sg : Signal) (n : Nat) (A : Nat → Nat) (g s : Nat) : ∀ (rs : List (Nat × Nat)) (mo : Nat),
    Pairs A (rangesCopies gam sg n rs mo) g s ↔
      ∃ (j : Nat) (r : Nat × Nat) (h k : Nat), rs[j]? = some r ∧ h < n ∧ k < r.2 ∧
        g = gam + mo + n * ((rs.take j).map (·.2)).sum + h * r.2 + k ∧
        s = A sg.idx + r.1 + h * sg.byteSize + k := by
  intro rs
  induction rs with
  | nil => intro mo; simp [rangesCopies, Pairs]
  | cons r rs ih =>
    intro mo
    simp only [rangesCopies, pairs_append, ih, rangeCopies_eq]
    constructor
    · rintro (⟨i, hi, k, hk, h1, h2⟩ | ⟨j, r', h, k, hr, hh, hk, h1, h2⟩)
      · simp only [List.mem_map, List.mem_range] at hi
        obtain ⟨x, hx, rfl⟩ := hi
        exact ⟨0, r, x, k, rfl, hx, hk, by simp at h1 ⊢; omega, by simp at h2 ⊢; omega⟩
      · refine ⟨j + 1, r', h, k, by simpa using hr, hh, hk, ?_, h2⟩
        simp only [List.take_succ_cons, List.map_cons, List.sum_cons, Nat.mul_add]
        omega
    · rintro ⟨j, r', h, k, hr, hh, hk, h1, h2⟩
      cases j with
      | zero =>
        simp at hr; subst hr
        left
        refine ⟨⟨r.2, r.1 + h * sg.byteSize, gam + mo + h * r.2, sg.idx⟩, ?_, k, hk, ?_, ?_⟩
        · simp only [List.mem_map, List.mem_range]; exact ⟨h, hh, rfl⟩
        · simp at h1; simp; omega
        · simp; omega
      | succ j =>
        right
        refine ⟨j, r', h, k, by simpa using hr, hh, hk, ?_, h2⟩
        simp only [List.take_succ_cons, List.map_cons, List.sum_cons, Nat.mul_add] at h1
        omega

theorem rangesCopies_length (gam : Nat) (sg : Signal) (n : Nat) : ∀ (rs : List (Nat × Nat)) (mo : Nat),
    (rangesCopies gam sg n rs mo).length = rs.length * n := by
  intro rs
  induction rs with
  | nil => intro mo; simp [rangesCopies]
  | cons r rs ih => intro mo; simp [rangesCopies, ih, rangeCopies_eq, Nat.succ_mul]; omega

/-- What is configured for one signal: byte `k` of range `j` of sample `h`. -/
def SigPairs (gam : Nat) (A : Nat → Nat) (sg : Signal) (g s : Nat) : Prop :=
  ∃ (j : Nat) (r : Nat × Nat) (h k : Nat), sg.ranges[j]? = some r ∧ h < sg.samples ∧ k < r.2 ∧
    g = gam + sg.gamOffset + sg.samples * ((sg.ranges.take j).map (·.2)).sum + h * r.2 + k ∧
    s = A sg.idx + r.1 + h * sg.byteSize + k

theorem signalCopies_ranges (gam : Nat) (A : Nat → Nat) (sg : Signal) (hs : sg.samples ≥ 1) (g s : Nat) :
    Pairs A (rangesCopies gam sg sg.nSamples sg.ranges sg.gamOffset) g s ↔ SigPairs gam A sg g s := by
  have : sg.nSamples = sg.samples := by unfold Signal.nSamples; rw [if_neg (by omega)]
  rw [rangesCopies_pairs, this]
  rfl

theorem noRanges_iff (sg : Signal) : sg.noRanges = true ↔ ∃ o, sg.ranges = [(o, sg.byteSize)] := by
  unfold Signal.noRanges
  cases h : sg.ranges with
  | nil => simp
  | cons r rs =>
    obtain ⟨o, z⟩ := r
    cases rs with
    | nil => simp
    | cons a b => simp

theorem signalCopies_spec (gam : Nat) (A : Nat → Nat) (sg : Signal) (hs : sg.samples ≥ 1) (hr : sg.ranges ≠ []) :
    ∃ l, signalCopies gam sg = some l ∧ (∀ g s, Pairs A l g s ↔ SigPairs gam A sg g s) ∧
      (l.length = if sg.noRanges then 1 else sg.ranges.length * sg.samples) := by
  have hn : sg.nSamples = sg.samples := by unfold Signal.nSamples; rw [if_neg (by omega)]
  unfold signalCopies
  cases hrs : sg.ranges with
  | nil => exact absurd hrs hr
  | cons r rs =>
    by_cases h : sg.noRanges = true
    · obtain ⟨o, ho⟩ := (noRanges_iff sg).mp h
      have hro : r = (o, sg.byteSize) ∧ rs = [] := by rw [hrs] at ho; simpa using ho
      obtain ⟨rfl, rfl⟩ := hro
      simp only [h, if_true]
      refine ⟨_, rfl, fun g s => ?_, rfl⟩
      simp only [Pairs, List.mem_singleton, exists_eq_left, SigPairs, hrs, hn]
      constructor
      · rintro ⟨k, hk, h1, h2⟩
        by_cases hz : sg.byteSize = 0
        · simp [hz] at hk
        · have hpos : 0 < sg.byteSize := Nat.pos_of_ne_zero hz
          refine ⟨0, (o, sg.byteSize), k / sg.byteSize, k % sg.byteSize, rfl,
            Nat.div_lt_of_lt_mul hk, Nat.mod_lt _ hpos, ?_, ?_⟩
          · have := Nat.div_add_mod k sg.byteSize
            have e : k / sg.byteSize * sg.byteSize = sg.byteSize * (k / sg.byteSize) := Nat.mul_comm _ _
            simp; omega
          · have := Nat.div_add_mod k sg.byteSize
            have e : k / sg.byteSize * sg.byteSize = sg.byteSize * (k / sg.byteSize) := Nat.mul_comm _ _
            simp; omega
      · rintro ⟨j, r, x, k, hj, hx, hk, h1, h2⟩
        cases j with
        | zero =>
          simp at hj; subst hj
          refine ⟨x * sg.byteSize + k, ?_, by simp at h1; omega, by simp at h2; omega⟩
          have : (x + 1) * sg.byteSize ≤ sg.samples * sg.byteSize := Nat.mul_le_mul_right _ hx
          rw [Nat.succ_mul] at this
          have e : sg.byteSize * sg.samples = sg.samples * sg.byteSize := Nat.mul_comm _ _
          simp only at hk; omega
        | succ j => simp at hj
    · simp only [h]
      rw [← hrs]
      refine ⟨_, rfl, fun g s => signalCopies_ranges gam A sg hs g s, ?_⟩
      rw [rangesCopies_length, hn]; rfl

/-- The table of all signals. -/
def AllPairs (gam : Nat) (A : Nat → Nat) (ss : List Signal) (g s : Nat) : Prop :=
  ∃ sg ∈ ss, sg.supported = true ∧ SigPairs gam A sg g s

theorem allPairs_cons (gam : Nat) (A : Nat → Nat) (sg : Signal) (ss : List Signal) (g s : Nat) :
    AllPairs gam A (sg :: ss) g s ↔ (sg.supported = true ∧ SigPairs gam A sg g s) ∨ AllPairs gam A ss g s := by
  simp [AllPairs]

theorem fill_spec (gam : Nat) (A : Nat → Nat) (ss : List Signal)
    (h : ∀ sg ∈ ss, sg.supported = true → sg.samples ≥ 1 ∧ sg.ranges ≠ []) :
    (fill gam ss).2 = true ∧ (∀ g s, Pairs A (fill gam ss).1 g s ↔ AllPairs gam A ss g s) := by
  induction ss with
  | nil => simp [fill, Pairs, AllPairs]
  | cons sg ss ih =>
    have i := ih (fun x hx => h x (by simp [hx]))
    by_cases hsup : sg.supported = true
    · have hs := h sg (by simp) hsup
      obtain ⟨l, hl, hp, _⟩ := signalCopies_spec gam A sg hs.1 hs.2
      simp only [fill, hsup, if_true, hl]
      refine ⟨i.1, fun g s => ?_⟩
      rw [pairs_append, hp, i.2, allPairs_cons, hsup]; simp
    · simp only [fill, hsup]
      refine ⟨i.1, fun g s => ?_⟩
      rw [allPairs_cons]; simp [hsup]; exact i.2 g s

theorem fill_length (gam : Nat) (ss : List Signal)
    (h : ∀ sg ∈ ss, sg.supported = true → sg.samples ≥ 1 ∧ sg.ranges ≠ [] ∧
      (sg.ranges.length = 1 → sg.noRanges = true ∨ sg.samples = 1)) :
    (fill gam ss).1.length = count ss := by
  induction ss with
  | nil => rfl
  | cons sg ss ih =>
    have i := ih (fun x hx => h x (by simp [hx]))
    by_cases hsup : sg.supported = true
    · have hs := h sg (by simp) hsup
      obtain ⟨l, hl, _, hlen⟩ := signalCopies_spec gam (fun _ => 0) sg hs.1 hs.2.1
      simp only [fill, hsup, if_true, hl, count, List.length_append, i, hlen]
      congr 1
      have hpos : 0 < sg.ranges.length := List.length_pos_iff.mpr hs.2.1
      by_cases h1 : sg.ranges.length > 1
      · have : sg.noRanges = false := by simp [Signal.noRanges]; omega
        simp [this, h1]
      · have h1' : sg.ranges.length = 1 := by omega
        rcases hs.2.2 h1' with h2 | h2
        · simp [h2, h1']
        · simp [h2, h1']
    · simp only [fill, hsup, count]; exact i

/-! ### Sorting and coalescing -/

theorem merge_perm (l r : List Raw) : (merge l r).Perm (l ++ r) := by
  fun_induction merge l r with
  | case1 r => simp
  | case2 l _ => simp
  | case3 a l b r h ih => exact List.Perm.cons a ih
  | case4 a l b r h ih => exact (List.Perm.cons b ih).trans List.perm_middle.symm

theorem mergeStep_length (bcp : List Raw) (cs left : Nat) (sbcp : List (Option Raw)) (hl : sbcp.length = bcp.length)
    (hleft : left < bcp.length) (hcs : 1 ≤ cs) : (mergeStep bcp cs left sbcp).length = bcp.length := by
  have key : ∀ a b : Nat, left ≤ a → a ≤ b → b < bcp.length →
      (if a - left + 1 > 0 ∧ b - a > 0 then
        sbcp.take left ++ (merge ((bcp.drop left).take (a - left + 1)) ((bcp.drop (a + 1)).take (b - a))).map some ++ sbcp.drop (b + 1)
      else sbcp).length = bcp.length := by
    intro a b h1 h2 h3
    split
    · rw [List.length_append, List.length_append, List.length_map, (merge_perm _ _).length_eq]
      simp only [List.length_append, List.length_take, List.length_drop, hl]
      omega
    · exact hl
  unfold mergeStep
  apply key
  · split <;> omega
  · split <;> split <;> omega
  · split <;> omega

theorem pass_length (bcp : List Raw) (cs : Nat) (hcs : 1 ≤ cs) : ∀ (fuel left : Nat) (sbcp : List (Option Raw)),
    sbcp.length = bcp.length → (pass bcp cs fuel left sbcp).length = bcp.length := by
  intro fuel
  induction fuel with
  | zero => intro left sbcp h; exact h
  | succ f ih =>
    intro left sbcp h
    simp only [pass]
    split
    · exact ih _ _ (mergeStep_length bcp cs left sbcp h (by omega) hcs)
    · exact h

theorem last_pass (bcp : List Raw) (cs : Nat) (h1 : cs < bcp.length) (h2 : bcp.length ≤ 2 * cs) (sbcp : List (Option Raw))
    (hl : sbcp.length = bcp.length) :
    pass bcp cs bcp.length 0 sbcp = (merge (bcp.take cs) (bcp.drop cs)).map some := by
  have hpos : 0 < cs := by omega
  obtain ⟨n, hn⟩ : ∃ n, bcp.length = n + 2 := ⟨bcp.length - 2, by omega⟩
  rw [hn]
  have hstep : mergeStep bcp cs 0 sbcp = (merge (bcp.take cs) (bcp.drop cs)).map some := by
    unfold mergeStep
    simp only [Nat.zero_add]
    rw [if_pos (by omega : cs - 1 < bcp.length - 1), if_neg (by omega : ¬ 2 * cs - 1 < bcp.length - 1)]
    rw [if_pos (by omega)]
    have e1 : cs - 1 - 0 + 1 = cs := by omega
    have e2 : cs - 1 + 1 = cs := by omega
    have e3 : bcp.length - 1 + 1 = bcp.length := by omega
    have e4 : (bcp.drop cs).take (bcp.length - 1 - (cs - 1)) = bcp.drop cs := by
      apply List.take_of_length_le; rw [List.length_drop]; omega
    rw [e1, e2, e3, List.drop_zero, e4]
    have e5 : sbcp.drop bcp.length = [] := List.drop_eq_nil_of_le (by omega)
    rw [e5]; simp
  simp only [pass]
  rw [if_pos (by omega), hstep, Nat.zero_add, if_neg (by omega)]

theorem passes_perm (bcp : List Raw) : ∀ (fuel cs : Nat) (sbcp : List (Option Raw)), 1 ≤ cs → cs < bcp.length →
    bcp.length ≤ cs * 2 ^ fuel → sbcp.length = bcp.length →
    ∃ l : List Raw, passes bcp fuel cs sbcp = l.map some ∧ l.Perm bcp := by
  intro fuel
  induction fuel with
  | zero => intro cs sbcp h1 h2 h3; simp at h3; omega
  | succ f ih =>
    intro cs sbcp h1 h2 h3 h4
    simp only [passes, h2, if_true]
    by_cases hlast : bcp.length ≤ 2 * cs
    · rw [last_pass bcp cs h2 hlast sbcp h4]
      refine ⟨merge (bcp.take cs) (bcp.drop cs), ?_, ?_⟩
      · cases f with
        | zero => rfl
        | succ f => simp only [passes]; rw [if_neg (by omega)]
      · have := merge_perm (bcp.take cs) (bcp.drop cs)
        rwa [List.take_append_drop] at this
    · refine ih (2 * cs) _ (by omega) (by omega) ?_ (pass_length bcp cs h1 _ _ _ h4)
      rw [Nat.pow_succ] at h3
      have : cs * (2 ^ f * 2) = 2 * cs * 2 ^ f := by rw [Nat.mul_comm (2 ^ f) 2, ← Nat.mul_assoc, Nat.mul_comm cs 2]
      omega

theorem sort_perm (bcp : List Raw) : ∃ l : List Raw, sortByGAM bcp = l.map some ∧ l.Perm bcp := by
  cases bcp with
  | nil => exact ⟨[], rfl, List.Perm.refl _⟩
  | cons b bs =>
    unfold sortByGAM
    by_cases hb : bs = []
    · subst hb; exact ⟨[b], rfl, List.Perm.refl _⟩
    · have hpos : 0 < bs.length := List.length_pos_iff.mpr hb
      refine passes_perm (b :: bs) _ 1 _ (Nat.le_refl _) (by simp; omega) ?_ (by simp)
      rw [Nat.one_mul]
      exact Nat.le_of_lt Nat.lt_two_pow_self

theorem sort_filterMap (bcp : List Raw) : ((sortByGAM bcp).filterMap id).Perm bcp := by
  obtain ⟨l, hl, hp⟩ := sort_perm bcp
  rw [hl]
  have : (l.map some).filterMap id = l := by simp [List.filterMap_map]
  rwa [this]

def RawPairs (d : Nat) (rs : List Raw) (g s : Nat) : Prop := ∃ r ∈ rs, ∃ k, k < r.size ∧ g = r.gam + k ∧ s = r.ds + d + k

theorem coalesceFrom_pairs (A : Nat → Nat) (d : Nat) (g s : Nat) : ∀ (rs : List Raw) (prev start : Raw) (accum : Nat),
    prev.gam + prev.size = start.gam + accum → prev.ds + prev.size = start.ds + accum →
    start.ds + d = A start.idx + start.offset → (∀ r ∈ rs, r.ds + d = A r.idx + r.offset) →
    (Pairs A (coalesceFrom prev start accum rs) g s ↔
      (∃ k, k < accum ∧ g = start.gam + k ∧ s = start.ds + d + k) ∨ RawPairs d rs g s) := by
  intro rs
  induction rs with
  | nil =>
    intro prev start accum h1 h2 h3 h4
    simp only [coalesceFrom, Pairs, List.mem_singleton, exists_eq_left, RawPairs, List.not_mem_nil, false_and, exists_false, or_false]
    rw [h3]
  | cons r rs ih =>
    intro prev start accum h1 h2 h3 h4
    have hr := h4 r (by simp)
    have hrs : ∀ x ∈ rs, x.ds + d = A x.idx + x.offset := fun x hx => h4 x (by simp [hx])
    have hcons : RawPairs d (r :: rs) g s ↔ (∃ k, k < r.size ∧ g = r.gam + k ∧ s = r.ds + d + k) ∨ RawPairs d rs g s := by
      simp [RawPairs]
    simp only [coalesceFrom]
    split
    · rename_i hc
      rw [ih r start (accum + r.size) (by omega) (by omega) h3 hrs, hcons, ← or_assoc]
      refine or_congr ?_ Iff.rfl
      constructor
      · rintro ⟨k, hk, e1, e2⟩
        by_cases hk' : k < accum
        · exact Or.inl ⟨k, hk', e1, e2⟩
        · exact Or.inr ⟨k - accum, by omega, by omega, by omega⟩
      · rintro (⟨k, hk, e1, e2⟩ | ⟨k, hk, e1, e2⟩)
        · exact ⟨k, by omega, e1, e2⟩
        · exact ⟨accum + k, by omega, by omega, by omega⟩
    · have e : Pairs A (⟨accum, start.offset, start.gam, start.idx⟩ :: coalesceFrom r r r.size rs) g s ↔
          (∃ k, k < accum ∧ g = start.gam + k ∧ s = A start.idx + start.offset + k) ∨ Pairs A (coalesceFrom r r r.size rs) g s := by
        simp [Pairs]
      rw [e, ih r r r.size rfl rfl hr hrs, hcons, h3]

theorem coalesce_pairs (A : Nat → Nat) (d : Nat) (rs : List Raw) (h : ∀ r ∈ rs, r.ds + d = A r.idx + r.offset) (g s : Nat) :
    Pairs A (coalesce rs) g s ↔ RawPairs d rs g s := by
  cases rs with
  | nil => simp [coalesce, Pairs, RawPairs]
  | cons r rs =>
    rw [coalesce, coalesceFrom_pairs A d g s rs r r r.size rfl rfl (h r (by simp)) (fun x hx => h x (by simp [hx]))]
    simp [RawPairs]

theorem rawPairs_perm (d : Nat) {a b : List Raw} (h : a.Perm b) (g s : Nat) : RawPairs d a g s ↔ RawPairs d b g s := by
  unfold RawPairs
  constructor
  · rintro ⟨r, hr, x⟩; exact ⟨r, h.mem_iff.mp hr, x⟩
  · rintro ⟨r, hr, x⟩; exact ⟨r, h.mem_iff.mpr hr, x⟩

theorem fillRaw_spec (addr : Nat → Option Nat) (A0 A : Nat → Nat) (d gam : Nat) (ss : List Signal)
    (ha : ∀ sg ∈ ss, sg.supported = true → addr sg.idx = some (A0 sg.idx) ∧ A0 sg.idx + d = A sg.idx ∧ sg.samples ≥ 1) :
    ∃ raw, fillRaw addr gam ss = some raw ∧ raw.length = rawCount ss ∧
      (∀ r ∈ raw, r.ds + d = A r.idx + r.offset) ∧ (∀ g s, RawPairs d raw g s ↔ AllPairs gam A ss g s) := by
  induction ss with
  | nil => exact ⟨[], rfl, rfl, by simp, fun g s => by simp [RawPairs, AllPairs]⟩
  | cons sg ss ih =>
    obtain ⟨raw, h1, h2, h3, h4⟩ := ih (fun x hx => ha x (by simp [hx]))
    by_cases hsup : sg.supported = true
    · obtain ⟨hadr, hd, hsm⟩ := ha sg (by simp) hsup
      have hn : sg.nSamples = sg.samples := by unfold Signal.nSamples; rw [if_neg (by omega)]
      have hidx : ∀ (rs : List (Nat × Nat)) (n mo : Nat) (i : Info), i ∈ rangesCopies gam sg n rs mo → i.idx = sg.idx := by
        intro rs
        induction rs with
        | nil => intro n mo i h; simp [rangesCopies] at h
        | cons r rs ih =>
          intro n mo i h
          simp only [rangesCopies, rangeCopies_eq, List.mem_append, List.mem_map] at h
          rcases h with ⟨x, _, rfl⟩ | h
          · rfl
          · exact ih n _ i h
      refine ⟨rawSignal gam (A0 sg.idx) sg ++ raw, by simp [fillRaw, hsup, hadr, h1], ?_, ?_, ?_⟩
      · simp [rawSignal, rangesCopies_length, hn, rawCount, hsup, h2]
      · intro r hr
        rcases List.mem_append.mp hr with hr | hr
        · simp only [rawSignal, List.mem_map] at hr
          obtain ⟨i, hi, rfl⟩ := hr
          have := hidx _ _ _ _ hi
          simp only [this]; omega
        · exact h3 r hr
      · intro g s
        have e : RawPairs d (rawSignal gam (A0 sg.idx) sg ++ raw) g s ↔ RawPairs d (rawSignal gam (A0 sg.idx) sg) g s ∨ RawPairs d raw g s := by
          unfold RawPairs
          simp only [List.mem_append, or_and_right, exists_or]
        rw [e, h4, allPairs_cons, ← signalCopies_ranges gam A sg hsm]
        simp only [hsup, true_and]
        refine or_congr ?_ Iff.rfl
        unfold RawPairs Pairs rawSignal
        constructor
        · rintro ⟨r, hr, k, hk, e1, e2⟩
          simp only [List.mem_map] at hr
          obtain ⟨i, hi, rfl⟩ := hr
          have := hidx _ _ _ _ hi
          exact ⟨i, hi, k, hk, e1, by simp only [this]; simp only at e2; omega⟩
        · rintro ⟨i, hi, k, hk, e1, e2⟩
          have := hidx _ _ _ _ hi
          refine ⟨_, List.mem_map.mpr ⟨i, hi, rfl⟩, k, hk, e1, ?_⟩
          rw [this] at e2; simp only; omega
    · refine ⟨raw, by simp [fillRaw, hsup, h1], by simp [rawCount, hsup, h2], h3, fun g s => ?_⟩
      rw [h4, allPairs_cons]; simp [hsup]

/-! ### No null pointers -/

/-- The entry belongs to a declared signal and is above the function memory base. -/
def Sound (gam : Nat) (ss : List Signal) (g idx : Nat) : Prop := gam ≤ g ∧ ∃ sg ∈ ss, sg.supported = true ∧ idx = sg.idx

theorem rangesCopies_sound (gam : Nat) (sg : Signal) : ∀ (rs : List (Nat × Nat)) (n mo : Nat) (i : Info), i ∈ rangesCopies gam sg n rs mo →
    gam ≤ i.gam ∧ i.idx = sg.idx := by
  intro rs
  induction rs with
  | nil => intro n mo i h; simp [rangesCopies] at h
  | cons r rs ih =>
    intro n mo i h
    simp only [rangesCopies, rangeCopies_eq, List.mem_append, List.mem_map] at h
    rcases h with ⟨x, _, rfl⟩ | h
    · exact ⟨by simp only; omega, rfl⟩
    · exact ih n _ i h

theorem fill_sound (gam : Nat) (ss : List Signal) : ∀ i ∈ (fill gam ss).1, Sound gam ss i.gam i.idx := by
  induction ss with
  | nil => simp [fill]
  | cons sg ss ih =>
    have lift : ∀ i ∈ (fill gam ss).1, Sound gam (sg :: ss) i.gam i.idx := fun i hi =>
      ⟨(ih i hi).1, (ih i hi).2.elim fun x hx => ⟨x, by simp [hx.1], hx.2⟩⟩
    by_cases hsup : sg.supported = true
    · simp only [fill, hsup, if_true]
      cases hsc : signalCopies gam sg with
      | none => simp
      | some l =>
        intro i hi
        rcases List.mem_append.mp hi with hi | hi
        · have : gam ≤ i.gam ∧ i.idx = sg.idx := by
            unfold signalCopies at hsc
            split at hsc
            · simp at hsc
            · split at hsc
              · simp at hsc; subst hsc
                simp at hi; subst hi
                exact ⟨by simp, rfl⟩
              · simp at hsc; subst hsc
                exact rangesCopies_sound _ _ _ _ _ _ hi
          exact ⟨this.1, sg, by simp, hsup, this.2⟩
        · exact lift i hi
    · simp only [fill, hsup]; exact lift

theorem fillRaw_sound (addr : Nat → Option Nat) (gam : Nat) (ss : List Signal) : ∀ raw, fillRaw addr gam ss = some raw →
    ∀ r ∈ raw, Sound gam ss r.gam r.idx := by
  induction ss with
  | nil => intro raw h; simp [fillRaw] at h; subst h; simp
  | cons sg ss ih =>
    intro raw h
    have lift : ∀ raw, fillRaw addr gam ss = some raw → ∀ i ∈ raw, Sound gam (sg :: ss) i.gam i.idx := fun raw hr i hi =>
      ⟨(ih raw hr i hi).1, (ih raw hr i hi).2.elim fun x hx => ⟨x, by simp [hx.1], hx.2⟩⟩
    by_cases hsup : sg.supported = true
    · cases ha : addr sg.idx with
      | none => simp [fillRaw, hsup, ha] at h
      | some a =>
        cases hr : fillRaw addr gam ss with
        | none => simp [fillRaw, hsup, ha, hr] at h
        | some raw' =>
          simp [fillRaw, hsup, ha, hr] at h
          subst h
          intro r hr'
          rcases List.mem_append.mp hr' with hr' | hr'
          · simp only [rawSignal, List.mem_map] at hr'
            obtain ⟨i, hi, rfl⟩ := hr'
            have := rangesCopies_sound _ _ _ _ _ _ hi
            exact ⟨this.1, sg, by simp, hsup, this.2⟩
          · exact lift raw' hr r hr'
    · simp [fillRaw, hsup] at h; exact lift raw h

theorem coalesceFrom_sound (P : Nat → Nat → Prop) : ∀ (rs : List Raw) (prev start : Raw) (accum : Nat),
    P start.gam start.idx → (∀ r ∈ rs, P r.gam r.idx) → ∀ i ∈ coalesceFrom prev start accum rs, P i.gam i.idx := by
  intro rs
  induction rs with
  | nil => intro prev start accum h _ i hi; simp [coalesceFrom] at hi; subst hi; exact h
  | cons r rs ih =>
    intro prev start accum h hr i hi
    simp only [coalesceFrom] at hi
    split at hi
    · exact ih r start _ h (fun x hx => hr x (by simp [hx])) i hi
    · rcases List.mem_cons.mp hi with rfl | hi
      · exact h
      · exact ih r r _ (hr r (by simp)) (fun x hx => hr x (by simp [hx])) i hi

theorem coalesce_sound (P : Nat → Nat → Prop) (rs : List Raw) (hr : ∀ r ∈ rs, P r.gam r.idx) :
    ∀ i ∈ coalesce rs, P i.gam i.idx := by
  cases rs with
  | nil => simp [coalesce]
  | cons r rs => exact coalesceFrom_sound P rs r r r.size (hr r (by simp)) (fun x hx => hr x (by simp [hx]))

theorem coalesceFrom_ne_nil : ∀ (rs : List Raw) (prev start : Raw) (accum : Nat), coalesceFrom prev start accum rs ≠ [] := by
  intro rs
  induction rs with
  | nil => intro prev start accum; simp [coalesceFrom]
  | cons r rs ih =>
    intro prev start accum
    simp only [coalesceFrom]
    split
    · exact ih _ _ _
    · simp

/-- The table of copies, whichever way it is built. -/
structure Built (gam : Nat) (A : Nat → Nat → Nat) (ss : List Signal) (is : List Info) : Prop where
  ne : is ≠ []
  pairs : ∀ b g s, Pairs (A b) is g s ↔ AllPairs gam (A b) ss g s
  sound : ∀ i ∈ is, Sound gam ss i.gam i.idx

/-- From a built table to the effect of `Execute`. -/
theorem built_exec (addr : Nat → Nat → Option Nat) (A : Nat → Nat → Nat) (gam nBuf buf : Nat) (ss : List Signal) (is : List Info)
    (hb : Built gam A ss is) (hgam : gam ≠ 0) (hbuf : buf < nBuf)
    (ha : ∀ sg ∈ ss, sg.supported = true → ∀ b, b < nBuf → addr sg.idx b = some (A b sg.idx) ∧ A b sg.idx ≠ 0) :
    ∃ t, initTable addr is nBuf = some t ∧
      (∀ m, inputExecute t is.length buf m = some (runAll (inCopies (A buf) is) m)) ∧
      (∀ m, outputExecute t is.length buf m = some (runAll (outCopies (A buf) is) m)) ∧
      (∀ c ∈ inCopies (A buf) is, c.dst ≠ 0 ∧ c.src ≠ 0) ∧ (∀ c ∈ outCopies (A buf) is, c.dst ≠ 0 ∧ c.src ≠ 0) := by
  have hpos : is.length > 0 := List.length_pos_iff.mpr hb.ne
  obtain ⟨t, ht, hg⟩ := table_get addr A is nBuf 0 (by
    intro i hi b _ h2
    obtain ⟨_, sg, hsg, hsup, he⟩ := hb.sound i hi
    rw [he]; exact (ha sg hsg hsup b (by omega)).1)
  have h0 : ∀ k, k < is.length → t[k]? = (entries (A 0) is)[k]? := fun k hk => by
    have := hg 0 k (by omega) hk; simpa using this
  have h1 : ∀ k, k < is.length → t[buf * is.length + k]? = (entries (A buf) is)[k]? := fun k hk => by
    have := hg buf k hbuf hk; simpa using this
  refine ⟨t, by simp [initTable, hpos, ht], fun m => ?_, fun m => ?_, fun c hc => ?_, fun c hc => ?_⟩
  · have := execIn_eq t is (A 0) (A buf) buf h0 h1 is.length 0 m (by omega)
    simpa [inputExecute] using this
  · have := execOut_eq t is (A 0) (A buf) buf h0 h1 is.length 0 m (by omega)
    simpa [outputExecute] using this
  · simp only [inCopies, List.mem_map] at hc
    obtain ⟨i, hi, rfl⟩ := hc
    obtain ⟨hge, sg, hsg, hsup, he⟩ := hb.sound i hi
    have := (ha sg hsg hsup buf hbuf).2
    simp only [he]; omega
  · simp only [outCopies, List.mem_map] at hc
    obtain ⟨i, hi, rfl⟩ := hc
    obtain ⟨hge, sg, hsg, hsup, he⟩ := hb.sound i hi
    have := (ha sg hsg hsup buf hbuf).2
    simp only [he]; omega

theorem count_pos (ss : List Signal) (h : ∀ sg ∈ ss, sg.supported = true → sg.samples ≥ 1 ∧ sg.ranges ≠ [])
    (hex : ∃ sg ∈ ss, sg.supported = true) : 0 < count ss ∧ 0 < rawCount ss := by
  induction ss with
  | nil => simp at hex
  | cons sg ss ih =>
    by_cases hsup : sg.supported = true
    · have hs := h sg (by simp) hsup
      have hp : 0 < sg.ranges.length := List.length_pos_iff.mpr hs.2
      have hm : 0 < sg.ranges.length * sg.samples := Nat.mul_pos hp hs.1
      simp only [count, rawCount, hsup, if_true]
      refine ⟨?_, by omega⟩
      split <;> omega
    · have := ih (fun x hx => h x (by simp [hx])) (by
        obtain ⟨x, hx, hs⟩ := hex
        rcases List.mem_cons.mp hx with rfl | hx
        · exact absurd hs hsup
        · exact ⟨x, hx, hs⟩)
      simp only [count, rawCount, hsup]
      exact this

theorem plain_built (gam : Nat) (A : Nat → Nat → Nat) (ss : List Signal) (hgam : gam ≠ 0)
    (h : ∀ sg ∈ ss, sg.supported = true → sg.samples ≥ 1 ∧ sg.ranges ≠ [] ∧
      (sg.ranges.length = 1 → sg.noRanges = true ∨ sg.samples = 1))
    (hex : ∃ sg ∈ ss, sg.supported = true) :
    ∃ is, initFunctionPointers gam ss = .ok is.length is ∧ Built gam A ss is := by
  have h' : ∀ sg ∈ ss, sg.supported = true → sg.samples ≥ 1 ∧ sg.ranges ≠ [] := fun sg hs hp => ⟨(h sg hs hp).1, (h sg hs hp).2.1⟩
  have hc := (count_pos ss h' hex).1
  have hl := fill_length gam ss h
  refine ⟨(fill gam ss).1, ?_, ?_, ?_, fill_sound gam ss⟩
  · unfold initFunctionPointers
    rw [if_pos hc, if_neg hgam, if_neg (by omega), (fill_spec gam (A 0) ss h').1, if_pos rfl, hl]
  · intro e; rw [e] at hl; simp at hl; omega
  · intro b g s; exact (fill_spec gam (A b) ss h').2 g s

theorem optim_built (gam : Nat) (addr : Nat → Nat → Option Nat) (A : Nat → Nat → Nat) (D : Nat → Nat) (ss : List Signal) (hgam : gam ≠ 0)
    (h : ∀ sg ∈ ss, sg.supported = true → sg.samples ≥ 1 ∧ sg.ranges ≠ [])
    (ha : ∀ sg ∈ ss, sg.supported = true → addr sg.idx 0 = some (A 0 sg.idx))
    (hD : ∀ b sg, sg ∈ ss → sg.supported = true → A 0 sg.idx + D b = A b sg.idx)
    (hex : ∃ sg ∈ ss, sg.supported = true) :
    ∃ is, initOptim (fun i => addr i 0) gam ss = .ok is.length is ∧ Built gam A ss is := by
  have hc := (count_pos ss h hex).2
  have spec : ∀ b, ∃ raw, fillRaw (fun i => addr i 0) gam ss = some raw ∧ raw.length = rawCount ss ∧
      (∀ r ∈ raw, r.ds + D b = A b r.idx + r.offset) ∧ (∀ g s, RawPairs (D b) raw g s ↔ AllPairs gam (A b) ss g s) := fun b =>
    fillRaw_spec (fun i => addr i 0) (A 0) (A b) (D b) gam ss (fun sg hs hp => ⟨ha sg hs hp, hD b sg hs hp, (h sg hs hp).1⟩)
  obtain ⟨raw, hr, hlen, _, _⟩ := spec 0
  have hperm := sort_filterMap raw
  refine ⟨coalesce ((sortByGAM raw).filterMap id), ?_, ?_, ?_, ?_⟩
  · unfold initOptim
    rw [if_pos hc, if_neg hgam, hr]
    simp only
    rw [if_neg (by omega)]
  · have hl := hperm.length_eq
    cases hx : (sortByGAM raw).filterMap id with
    | nil => rw [hx] at hl; simp at hl; omega
    | cons r rs => exact coalesceFrom_ne_nil _ _ _ _
  · intro b g s
    obtain ⟨raw', hr', _, hds, hp⟩ := spec b
    rw [hr] at hr'; cases hr'
    rw [coalesce_pairs (A b) (D b) _ (fun r hr => hds r (hperm.mem_iff.mp hr)), rawPairs_perm (D b) hperm, hp]
  · exact coalesce_sound (Sound gam ss) _ (fun r hr' => fillRaw_sound _ _ _ raw hr r (hperm.mem_iff.mp hr'))

end Verif.Broker
