import Verif.Model.Layout

/-!
# C45: data source memory layout; C46: interleaved and flat sample memory
-/

namespace Verif.Spec.Layout

/-- Bytes of the first `i` members. -/
def before (members : List Nat) (i : Nat) : Nat := (members.take i).sum

/-- Where the byte `j` of the member `i` of the sample `k` is, in each representation. -/
def interleavedPos (members : List Nat) (packet k i j : Nat) : Nat := k * packet + before members i + j
def flatPos (members : List Nat) (n c k i j : Nat) : Nat := n * before members i + k * c + j

end Verif.Spec.Layout

namespace Verif.Props

open Verif.Layout
open Verif.Spec.Layout

/-! ## C45 -/

private theorem allocLoop_spec (nb : Nat) : ∀ (zs : List Nat) (acc : Nat), (∀ z ∈ zs, z > 0) → acc + zs.sum * nb < 4294967296 →
    ∃ os, allocLoop nb zs acc = some (os, acc + zs.sum * nb) ∧ os.length = zs.length ∧
      ∀ (i : Nat) (o : Nat), os[i]? = some o → o = acc + (zs.take i).sum * nb := by
  intro zs
  induction zs with
  | nil => intro acc _ _; exact ⟨[], by simp [allocLoop], rfl, by simp⟩
  | cons z zs ih =>
    intro acc hz hfit
    simp only [List.sum_cons, Nat.add_mul] at hfit
    have e1 : u32 (acc + u32 (z * nb)) = acc + z * nb := by
      unfold u32
      rw [Nat.mod_eq_of_lt (by omega : z * nb < 4294967296), Nat.mod_eq_of_lt (by omega)]
    obtain ⟨os, h1, h2, h3⟩ := ih (acc + z * nb) (fun x hx => hz x (by simp [hx])) (by omega)
    refine ⟨acc :: os, ?_, by simp [h2], ?_⟩
    · rw [allocLoop, if_pos (hz z (by simp)), e1, h1]
      simp only [Option.map_some, List.sum_cons, Nat.add_mul]
      congr 2; omega
    · intro i o hi
      cases i with
      | zero => simp at hi; simp [hi]
      | succ i =>
        simp only [List.getElem?_cons_succ] at hi
        rw [h3 i o hi]
        simp only [List.take_succ_cons, List.sum_cons, Nat.add_mul]; omega

private theorem sum_take_succ (zs : List Nat) (i : Nat) (z : Nat) (h : zs[i]? = some z) : (zs.take (i + 1)).sum = (zs.take i).sum + z := by
  induction zs generalizing i with
  | nil => simp at h
  | cons x xs ih =>
    cases i with
    | zero => simp at h; simp [h]
    | succ i => simp at h; simp [ih i h]; omega

private theorem sum_take_le (zs : List Nat) (i j : Nat) (h : i ≤ j) : (zs.take i).sum ≤ (zs.take j).sum := by
  induction zs generalizing i j with
  | nil => simp
  | cons x xs ih =>
    cases i with
    | zero => simp
    | succ i =>
      cases j with
      | zero => omega
      | succ j => simp; exact ih i j (by omega)

private theorem sum_take_le_sum (zs : List Nat) (i : Nat) : (zs.take i).sum ≤ zs.sum := by
  have := sum_take_le zs i (max i zs.length) (by omega)
  rwa [List.take_of_length_le (by omega : zs.length ≤ max i zs.length)] at this

/-- C45: when the total fits in 32 bits, `AllocateMemory` succeeds, every signal has room for its `nb` buffers inside the memory in
every state buffer, and the areas of two different (signal, state buffer) pairs are disjoint. -/
theorem c45_areas (sizes : List Nat) (nb nState : Nat) (hz : ∀ z ∈ sizes, z > 0) (hs : nState > 0)
    (hfit : sizes.sum * nb * nState < 4294967296) :
    ∃ l, allocate sizes nb nState = some l ∧ l.totalMemorySize = sizes.sum * nb * nState ∧
      (∀ s b z, sizes[s]? = some z → b < nState → ∃ a, signalBuffer l nState s b = some a ∧ a + z * nb ≤ l.totalMemorySize) ∧
      (∀ s b z a s' b' z' a', sizes[s]? = some z → sizes[s']? = some z' → signalBuffer l nState s b = some a →
        signalBuffer l nState s' b' = some a' → (s, b) ≠ (s', b') → a + z * nb ≤ a' ∨ a' + z' * nb ≤ a) := by
  have hle : sizes.sum * nb ≤ sizes.sum * nb * nState := Nat.le_mul_of_pos_right _ hs
  obtain ⟨os, h1, h2, h3⟩ := allocLoop_spec nb sizes 0 hz (by omega)
  rw [Nat.zero_add] at h1
  have htot : u32 (sizes.sum * nb * nState) = sizes.sum * nb * nState := Nat.mod_eq_of_lt hfit
  have hst : ∀ b, b < nState → sizes.sum * nb * b + sizes.sum * nb ≤ sizes.sum * nb * nState := fun b hb => by
    have := Nat.mul_le_mul_left (sizes.sum * nb) (show b + 1 ≤ nState by omega)
    rw [Nat.mul_add, Nat.mul_one] at this; exact this
  have hbuf : ∀ s b z, sizes[s]? = some z → b < nState →
      signalBuffer ⟨os, sizes.sum * nb, u32 (sizes.sum * nb * nState)⟩ nState s b = some (sizes.sum * nb * b + (sizes.take s).sum * nb) := by
    intro s b z hsz hb
    have hslt : s < os.length := by rw [h2]; exact (List.getElem?_eq_some_iff.mp hsz).1
    have ho : os[s]? = some os[s] := List.getElem?_eq_getElem hslt
    have := h3 s _ ho
    unfold signalBuffer
    rw [if_pos hb]
    simp only [ho, Option.map_some]
    rw [this, Nat.zero_add]
    have e : u32 (sizes.sum * nb * b) = sizes.sum * nb * b := Nat.mod_eq_of_lt (by have := hst b hb; omega)
    rw [e]
  have hend : ∀ s z, sizes[s]? = some z → (sizes.take s).sum * nb + z * nb ≤ sizes.sum * nb := fun s z h => by
    rw [← Nat.add_mul, ← sum_take_succ sizes s z h]
    exact Nat.mul_le_mul_right _ (sum_take_le_sum _ _)
  refine ⟨⟨os, sizes.sum * nb, u32 (sizes.sum * nb * nState)⟩, ?_, htot, ?_, ?_⟩
  · simp [allocate, h1, hs]
  · intro s b z hsz hb
    refine ⟨_, hbuf s b z hsz hb, ?_⟩
    simp only [htot]
    have := hst b hb; have := hend s z hsz; omega
  · intro s b z a s' b' z' a' hsz hsz' ha ha' hne
    have hb : b < nState := by unfold signalBuffer at ha; split at ha; assumption; simp at ha
    have hb' : b' < nState := by unfold signalBuffer at ha'; split at ha'; assumption; simp at ha'
    rw [hbuf s b z hsz hb] at ha
    rw [hbuf s' b' z' hsz' hb'] at ha'
    simp only [Option.some.injEq] at ha ha'
    subst ha; subst ha'
    have h1 := hend s z hsz
    have h2 := hend s' z' hsz'
    rcases Nat.lt_trichotomy b b' with hlt | heq | hgt
    · left
      have := Nat.mul_le_mul_left (sizes.sum * nb) (show b + 1 ≤ b' by omega)
      rw [Nat.mul_add, Nat.mul_one] at this; omega
    · subst heq
      have hss : s ≠ s' := fun e => hne (by rw [e])
      rcases Nat.lt_or_gt_of_ne hss with hlt | hgt
      · left
        have := Nat.mul_le_mul_right nb (sum_take_le sizes (s + 1) s' (by omega))
        rw [sum_take_succ sizes s z hsz, Nat.add_mul] at this; omega
      · right
        have := Nat.mul_le_mul_right nb (sum_take_le sizes (s' + 1) s (by omega))
        rw [sum_take_succ sizes s' z' hsz', Nat.add_mul] at this; omega
    · right
      have := Nat.mul_le_mul_left (sizes.sum * nb) (show b' + 1 ≤ b by omega)
      rw [Nat.mul_add, Nat.mul_one] at this; omega

/-- C45: the state buffers of all the signals are the same distance apart (the hypothesis of the optimised brokers, C44). -/
theorem c45_same_distance (l : Layout) (nState s b o a : Nat) (hfit : l.stateMemorySize * nState < 4294967296) (ho : l.offsets[s]? = some o)
    (ha : signalBuffer l nState s b = some a) : signalBuffer l nState s 0 = some o ∧ a = o + l.stateMemorySize * b := by
  unfold signalBuffer at ha ⊢
  split at ha
  · rename_i hb
    rw [if_pos (by omega)]
    simp only [ho, Option.map_some, Option.some.injEq] at ha ⊢
    have := Nat.mul_le_mul_left l.stateMemorySize (Nat.le_of_lt hb)
    have e : u32 (l.stateMemorySize * b) = l.stateMemorySize * b := Nat.mod_eq_of_lt (by omega)
    rw [e] at ha
    simp [u32]; omega
  · simp at ha

/-- C45, disagreement: the sizes are accumulated in 32 bits without a check. Two signals of 2 GiB give a successful allocation of zero
bytes. -/
theorem c45_total_wraps : allocate [2147483648, 2147483648] 1 1 = some ⟨[0, 2147483648], 0, 0⟩ := by decide +kernel

/-- C45: a signal of size zero makes the allocation fail. -/
theorem c45_empty_signal_refused (sizes : List Nat) (nb nState : Nat) (h : 0 ∈ sizes) : allocate sizes nb nState = none := by
  have : ∀ acc, allocLoop nb sizes acc = none := by
    induction sizes with
    | nil => simp at h
    | cons z zs ih =>
      intro acc
      rw [allocLoop]
      split
      · rename_i hz
        rw [ih (by rcases List.mem_cons.mp h with e | h; omega; exact h)]; rfl
      · rfl
  simp [allocate, this]

example : allocate [4, 8, 1] 3 2 = some ⟨[0, 12, 36], 39, 78⟩ := by decide

/-! ## C46 -/

/-- Sequential assignments whose destinations are assigned once and are not sources. -/
private theorem assign_spec (ps : List (Nat × Nat)) : ∀ m : Mem, (∀ d s s', (d, s) ∈ ps → (d, s') ∈ ps → s = s') →
    (∀ d s d' s', (d, s) ∈ ps → (d', s') ∈ ps → d ≠ s') →
    (∀ d s, (d, s) ∈ ps → assign ps m d = m s) ∧ (∀ a, (∀ s, (a, s) ∉ ps) → assign ps m a = m a) := by
  induction ps with
  | nil => intro m _ _; simp [assign]
  | cons p ps ih =>
    obtain ⟨pd, psrc⟩ := p
    intro m hf ho
    obtain ⟨i1, i2⟩ := ih (fun a => if a = pd then m psrc else m a)
      (fun d s s' h h' => hf d s s' (by simp [h]) (by simp [h'])) (fun d s d' s' h h' => ho d s d' s' (by simp [h]) (by simp [h']))
    refine ⟨fun d s h => ?_, fun a ha => ?_⟩
    · simp only [assign]
      have hs : s ≠ pd := fun e => ho pd psrc d s (by simp) h e.symm
      by_cases hm : ∃ s', (d, s') ∈ ps
      · obtain ⟨s', hs'⟩ := hm
        have e := hf d s s' h (by simp [hs'])
        subst e
        rw [i1 d s hs', if_neg hs]
      · rw [i2 d (fun s' h' => hm ⟨s', h'⟩)]
        rcases List.mem_cons.mp h with e | h'
        · simp only [Prod.mk.injEq] at e; rw [if_pos e.1, e.2]
        · exact absurd ⟨s, h'⟩ hm
    · simp only [assign]
      rw [i2 a (fun s h => ha s (by simp [h]))]
      rw [if_neg]
      intro e; exact ha psrc (by simp [e])

private theorem toFlat_mem (n k : Nat) (hk : k < n) (d s : Nat) : ∀ (cs : List Nat) (dest source : Nat),
    (d, s) ∈ toFlatMembers n k cs dest source ↔
      ∃ (i c j : Nat), cs[i]? = some c ∧ j < c ∧ d = dest + flatPos cs n c k i j ∧ s = source + before cs i + j := by
  intro cs
  induction cs with
  | nil => intro dest source; simp [toFlatMembers]
  | cons c cs ih =>
    intro dest source
    simp only [toFlatMembers, List.mem_append, List.mem_map, List.mem_range, ih, Prod.mk.injEq]
    have hn : k * c + (n - k) * c = n * c := by rw [← Nat.add_mul]; congr 1; omega
    constructor
    · rintro (⟨j, hj, rfl, rfl⟩ | ⟨i, c', j, hc, hj, e1, e2⟩)
      · exact ⟨0, c, j, rfl, hj, by simp [flatPos, before]; omega, by simp [before]⟩
      · refine ⟨i + 1, c', j, by simpa using hc, hj, ?_, ?_⟩
        · simp only [flatPos, before, List.take_succ_cons, List.sum_cons, Nat.mul_add] at e1 ⊢
          omega
        · simp only [before, List.take_succ_cons, List.sum_cons] at e2 ⊢; omega
    · rintro ⟨i, c', j, hc, hj, e1, e2⟩
      cases i with
      | zero =>
        simp at hc; subst hc
        exact Or.inl ⟨j, hj, by simp [flatPos, before] at e1; omega, by simp [before] at e2; omega⟩
      | succ i =>
        refine Or.inr ⟨i, c', j, by simpa using hc, hj, ?_, ?_⟩
        · simp only [flatPos, before, List.take_succ_cons, List.sum_cons, Nat.mul_add] at e1 ⊢
          omega
        · simp only [before, List.take_succ_cons, List.sum_cons] at e2 ⊢; omega

private theorem toInter_mem (n k : Nat) (hk : k < n) (d s : Nat) : ∀ (cs : List Nat) (source dest : Nat),
    (d, s) ∈ toInterMembers n k cs source dest ↔
      ∃ (i c j : Nat), cs[i]? = some c ∧ j < c ∧ s = source + flatPos cs n c k i j ∧ d = dest + before cs i + j := by
  intro cs
  induction cs with
  | nil => intro source dest; simp [toInterMembers]
  | cons c cs ih =>
    intro source dest
    simp only [toInterMembers, List.mem_append, List.mem_map, List.mem_range, ih, Prod.mk.injEq]
    have hn : k * c + (n - k) * c = n * c := by rw [← Nat.add_mul]; congr 1; omega
    constructor
    · rintro (⟨j, hj, rfl, rfl⟩ | ⟨i, c', j, hc, hj, e1, e2⟩)
      · exact ⟨0, c, j, rfl, hj, by simp [flatPos, before]; omega, by simp [before]⟩
      · refine ⟨i + 1, c', j, by simpa using hc, hj, ?_, ?_⟩
        · simp only [flatPos, before, List.take_succ_cons, List.sum_cons, Nat.mul_add] at e1 ⊢
          omega
        · simp only [before, List.take_succ_cons, List.sum_cons] at e2 ⊢; omega
    · rintro ⟨i, c', j, hc, hj, e1, e2⟩
      cases i with
      | zero =>
        simp at hc; subst hc
        exact Or.inl ⟨j, hj, by simp [before] at e2; omega, by simp [flatPos, before] at e1; omega⟩
      | succ i =>
        refine Or.inr ⟨i, c', j, by simpa using hc, hj, ?_, ?_⟩
        · simp only [flatPos, before, List.take_succ_cons, List.sum_cons, Nat.mul_add] at e1 ⊢
          omega
        · simp only [before, List.take_succ_cons, List.sum_cons] at e2 ⊢; omega

/-- The pairs of both conversions. -/
private theorem itf_mem (src dst : Nat) (ms : List Nat) (p n d s : Nat) : (d, s) ∈ interleavedToFlat src dst ms p n ↔
    ∃ (k i c j : Nat), k < n ∧ ms[i]? = some c ∧ j < c ∧ d = dst + flatPos ms n c k i j ∧ s = src + interleavedPos ms p k i j := by
  simp only [interleavedToFlat, List.mem_flatMap, List.mem_range]
  constructor
  · rintro ⟨k, hk, h⟩
    obtain ⟨i, c, j, h1, h2, h3, h4⟩ := (toFlat_mem n k hk d s ms dst _).mp h
    exact ⟨k, i, c, j, hk, h1, h2, h3, by unfold interleavedPos; omega⟩
  · rintro ⟨k, i, c, j, hk, h1, h2, h3, h4⟩
    exact ⟨k, hk, (toFlat_mem n k hk d s ms dst _).mpr ⟨i, c, j, h1, h2, h3, by unfold interleavedPos at h4; omega⟩⟩

private theorem fti_mem (src dst : Nat) (ms : List Nat) (p n d s : Nat) : (d, s) ∈ flatToInterleaved src dst ms p n ↔
    ∃ (k i c j : Nat), k < n ∧ ms[i]? = some c ∧ j < c ∧ s = src + flatPos ms n c k i j ∧ d = dst + interleavedPos ms p k i j := by
  simp only [flatToInterleaved, List.mem_flatMap, List.mem_range]
  constructor
  · rintro ⟨k, hk, h⟩
    obtain ⟨i, c, j, h1, h2, h3, h4⟩ := (toInter_mem n k hk d s ms src _).mp h
    exact ⟨k, i, c, j, hk, h1, h2, h3, by unfold interleavedPos; omega⟩
  · rintro ⟨k, i, c, j, hk, h1, h2, h3, h4⟩
    exact ⟨k, hk, (toInter_mem n k hk d s ms src _).mpr ⟨i, c, j, h1, h2, h3, by unfold interleavedPos at h4; omega⟩⟩

private theorem flat_lt (ms : List Nat) (n c k i j : Nat) (hk : k < n) (hc : ms[i]? = some c) (hj : j < c) :
    n * before ms i ≤ flatPos ms n c k i j ∧ flatPos ms n c k i j < n * before ms (i + 1) ∧ n * before ms (i + 1) ≤ n * ms.sum := by
  have h1 : before ms (i + 1) = before ms i + c := sum_take_succ ms i c hc
  have h2 := Nat.mul_le_mul_right c (show k + 1 ≤ n by omega)
  rw [Nat.add_mul, Nat.one_mul] at h2
  refine ⟨by unfold flatPos; omega, ?_, Nat.mul_le_mul_left _ (sum_take_le_sum _ _)⟩
  rw [h1, Nat.mul_add]; unfold flatPos; omega

/-- Flat positions identify the byte. -/
private theorem flat_inj (ms : List Nat) (n c k i j c' k' i' j' : Nat) (hk : k < n) (hc : ms[i]? = some c) (hj : j < c)
    (hk' : k' < n) (hc' : ms[i']? = some c') (hj' : j' < c') (h : flatPos ms n c k i j = flatPos ms n c' k' i' j') :
    i = i' ∧ k = k' ∧ j = j' := by
  have hii : i = i' := by
    have a := flat_lt ms n c k i j hk hc hj
    have b := flat_lt ms n c' k' i' j' hk' hc' hj'
    rcases Nat.lt_trichotomy i i' with hlt | e | hgt
    · have := Nat.mul_le_mul_left n (sum_take_le ms (i + 1) i' (by omega))
      unfold before at *; omega
    · exact e
    · have := Nat.mul_le_mul_left n (sum_take_le ms (i' + 1) i (by omega))
      unfold before at *; omega
  subst hii
  rw [hc] at hc'; cases hc'
  have e : k * c + j = k' * c + j' := by unfold flatPos at h; omega
  have hkk : k = k' := by
    rcases Nat.lt_trichotomy k k' with hlt | e' | hgt
    · have := Nat.mul_le_mul_right c (show k + 1 ≤ k' by omega)
      rw [Nat.add_mul, Nat.one_mul] at this; omega
    · exact e'
    · have := Nat.mul_le_mul_right c (show k' + 1 ≤ k by omega)
      rw [Nat.add_mul, Nat.one_mul] at this; omega
  subst hkk
  exact ⟨rfl, rfl, by omega⟩

private theorem inter_lt (ms : List Nat) (p n c k i j : Nat) (hp : ms.sum ≤ p) (hk : k < n) (hc : ms[i]? = some c) (hj : j < c) :
    before ms i + j < p ∧ interleavedPos ms p k i j < n * p := by
  have h1 : before ms (i + 1) = before ms i + c := sum_take_succ ms i c hc
  have h2 : before ms (i + 1) ≤ ms.sum := sum_take_le_sum _ _
  have h3 := Nat.mul_le_mul_right p (show k + 1 ≤ n by omega)
  rw [Nat.add_mul, Nat.one_mul] at h3
  unfold interleavedPos; omega

private theorem inter_inj (ms : List Nat) (p n c k i j c' k' i' j' : Nat) (hp : ms.sum ≤ p) (hk : k < n) (hc : ms[i]? = some c) (hj : j < c)
    (hk' : k' < n) (hc' : ms[i']? = some c') (hj' : j' < c') (h : interleavedPos ms p k i j = interleavedPos ms p k' i' j') :
    i = i' ∧ k = k' ∧ j = j' := by
  have a := (inter_lt ms p n c k i j hp hk hc hj).1
  have b := (inter_lt ms p n c' k' i' j' hp hk' hc' hj').1
  have hkk : k = k' := by
    unfold interleavedPos at h
    rcases Nat.lt_trichotomy k k' with hlt | e' | hgt
    · have := Nat.mul_le_mul_right p (show k + 1 ≤ k' by omega)
      rw [Nat.add_mul, Nat.one_mul] at this; omega
    · exact e'
    · have := Nat.mul_le_mul_right p (show k' + 1 ≤ k by omega)
      rw [Nat.add_mul, Nat.one_mul] at this; omega
  subst hkk
  have e : before ms i + j = before ms i' + j' := by unfold interleavedPos at h; omega
  have s1 : before ms (i + 1) = before ms i + c := sum_take_succ ms i c hc
  have s2 : before ms (i' + 1) = before ms i' + c' := sum_take_succ ms i' c' hc'
  have hii : i = i' := by
    rcases Nat.lt_trichotomy i i' with hlt | e' | hgt
    · have := sum_take_le ms (i + 1) i' (by omega)
      unfold before at *; omega
    · exact e'
    · have := sum_take_le ms (i' + 1) i (by omega)
      unfold before at *; omega
  subst hii
  exact ⟨rfl, rfl, by omega⟩

/-- C46: with disjoint areas, `InterleavedToFlat` puts every byte of every member of every sample at its flat position, and changes nothing
outside the destination area. -/
theorem c46_to_flat (m : Mem) (src dst : Nat) (ms : List Nat) (p n : Nat) (hp : ms.sum ≤ p)
    (hdis : src + n * p ≤ dst ∨ dst + n * ms.sum ≤ src) :
    (∀ (k i c j : Nat), k < n → ms[i]? = some c → j < c →
      assign (interleavedToFlat src dst ms p n) m (dst + flatPos ms n c k i j) = m (src + interleavedPos ms p k i j)) ∧
    (∀ a, a < dst ∨ dst + n * ms.sum ≤ a → assign (interleavedToFlat src dst ms p n) m a = m a) := by
  obtain ⟨h1, h2⟩ := assign_spec (interleavedToFlat src dst ms p n) m
    (by
      intro d s s' h h'
      obtain ⟨k, i, c, j, a1, a2, a3, a4, a5⟩ := (itf_mem src dst ms p n d s).mp h
      obtain ⟨k', i', c', j', b1, b2, b3, b4, b5⟩ := (itf_mem src dst ms p n d s').mp h'
      obtain ⟨rfl, rfl, rfl⟩ := flat_inj ms n c k i j c' k' i' j' a1 a2 a3 b1 b2 b3 (by omega)
      omega)
    (by
      intro d s d' s' h h'
      obtain ⟨k, i, c, j, a1, a2, a3, a4, a5⟩ := (itf_mem src dst ms p n d s).mp h
      obtain ⟨k', i', c', j', b1, b2, b3, b4, b5⟩ := (itf_mem src dst ms p n d' s').mp h'
      have := flat_lt ms n c k i j a1 a2 a3
      have := inter_lt ms p n c' k' i' j' hp b1 b2 b3
      omega)
  refine ⟨fun k i c j hk hc hj => h1 _ _ ((itf_mem src dst ms p n _ _).mpr ⟨k, i, c, j, hk, hc, hj, rfl, rfl⟩), fun a ha => h2 a ?_⟩
  intro s h
  obtain ⟨k, i, c, j, a1, a2, a3, a4, a5⟩ := (itf_mem src dst ms p n a s).mp h
  have := flat_lt ms n c k i j a1 a2 a3
  omega

/-- C46: `FlatToInterleaved` does the converse. -/
theorem c46_to_interleaved (m : Mem) (src dst : Nat) (ms : List Nat) (p n : Nat) (hp : ms.sum ≤ p)
    (hdis : src + n * ms.sum ≤ dst ∨ dst + n * p ≤ src) :
    (∀ (k i c j : Nat), k < n → ms[i]? = some c → j < c →
      assign (flatToInterleaved src dst ms p n) m (dst + interleavedPos ms p k i j) = m (src + flatPos ms n c k i j)) ∧
    (∀ a, a < dst ∨ dst + n * p ≤ a → assign (flatToInterleaved src dst ms p n) m a = m a) := by
  obtain ⟨h1, h2⟩ := assign_spec (flatToInterleaved src dst ms p n) m
    (by
      intro d s s' h h'
      obtain ⟨k, i, c, j, a1, a2, a3, a4, a5⟩ := (fti_mem src dst ms p n d s).mp h
      obtain ⟨k', i', c', j', b1, b2, b3, b4, b5⟩ := (fti_mem src dst ms p n d s').mp h'
      obtain ⟨rfl, rfl, rfl⟩ := inter_inj ms p n c k i j c' k' i' j' hp a1 a2 a3 b1 b2 b3 (by omega)
      rw [a2] at b2; cases b2
      omega)
    (by
      intro d s d' s' h h'
      obtain ⟨k, i, c, j, a1, a2, a3, a4, a5⟩ := (fti_mem src dst ms p n d s).mp h
      obtain ⟨k', i', c', j', b1, b2, b3, b4, b5⟩ := (fti_mem src dst ms p n d' s').mp h'
      have := flat_lt ms n c' k' i' j' b1 b2 b3
      have := inter_lt ms p n c k i j hp a1 a2 a3
      omega)
  refine ⟨fun k i c j hk hc hj => h1 _ _ ((fti_mem src dst ms p n _ _).mpr ⟨k, i, c, j, hk, hc, hj, rfl, rfl⟩), fun a ha => h2 a ?_⟩
  intro s h
  obtain ⟨k, i, c, j, a1, a2, a3, a4, a5⟩ := (fti_mem src dst ms p n a s).mp h
  have := inter_lt ms p n c k i j hp a1 a2 a3
  omega

/-- Every position of a packed interleaved area is some byte of some member of some sample. -/
private theorem inter_surj (ms : List Nat) (n a : Nat) (h : a < n * ms.sum) :
    ∃ (k i c j : Nat), k < n ∧ ms[i]? = some c ∧ j < c ∧ a = interleavedPos ms ms.sum k i j := by
  have hpos : 0 < ms.sum := by
    cases hs : ms.sum with
    | zero => rw [hs] at h; simp at h
    | succ x => omega
  have key : ∀ (ms : List Nat) (r : Nat), r < ms.sum → ∃ (i c j : Nat), ms[i]? = some c ∧ j < c ∧ r = before ms i + j := by
    intro ms
    induction ms with
    | nil => intro r h; simp at h
    | cons c cs ih =>
      intro r h
      simp only [List.sum_cons] at h
      by_cases hr : r < c
      · exact ⟨0, c, r, rfl, hr, by simp [before]⟩
      · obtain ⟨i, c', j, h1, h2, h3⟩ := ih (r - c) (by omega)
        exact ⟨i + 1, c', j, by simpa using h1, h2, by simp only [before, List.take_succ_cons, List.sum_cons] at h3 ⊢; omega⟩
  obtain ⟨i, c, j, h1, h2, h3⟩ := key ms (a % ms.sum) (Nat.mod_lt _ hpos)
  refine ⟨a / ms.sum, i, c, j, Nat.div_lt_of_lt_mul (by rw [Nat.mul_comm]; exact h), h1, h2, ?_⟩
  have := Nat.div_add_mod a ms.sum
  unfold interleavedPos
  rw [Nat.mul_comm (a / ms.sum)]; omega

/-- C46: converting to flat and back gives the original samples, byte for byte. -/
theorem c46_round_trip (m : Mem) (src flat dst : Nat) (ms : List Nat) (n : Nat)
    (h1 : src + n * ms.sum ≤ flat ∨ flat + n * ms.sum ≤ src) (h2 : flat + n * ms.sum ≤ dst ∨ dst + n * ms.sum ≤ flat) :
    ∀ a, a < n * ms.sum →
      assign (flatToInterleaved flat dst ms ms.sum n) (assign (interleavedToFlat src flat ms ms.sum n) m) (dst + a) = m (src + a) := by
  intro a ha
  obtain ⟨k, i, c, j, hk, hc, hj, rfl⟩ := inter_surj ms n a ha
  rw [(c46_to_interleaved _ flat dst ms ms.sum n (Nat.le_refl _) h2).1 k i c j hk hc hj,
    (c46_to_flat m src flat ms ms.sum n (Nat.le_refl _) h1).1 k i c j hk hc hj]

/-- The documented example: members of 4, 2 and 1 bytes, 2 samples. -/
example : interleavedToFlat 0 100 [4, 2, 1] 7 2 =
    [(100, 0), (101, 1), (102, 2), (103, 3), (108, 4), (109, 5), (112, 6), (104, 7), (105, 8), (106, 9), (107, 10), (110, 11), (111, 12), (113, 13)] := by
  decide

end Verif.Props
