import Verif.Model.BitSet
namespace Verif.BitSet

theorem word_bit (w : Word) (i : Nat) (h : i < 32) : ((w &&& ((1 : Word) <<< i)) != 0) = w.getLsbD i := by
  have h1 : ((1 : Word) <<< i) = BitVec.twoPow 32 i := by
    rw [BitVec.twoPow_eq]; rfl
  rw [h1, BitVec.and_twoPow]
  cases hb : w.getLsbD i with
  | false => simp
  | true =>
    simp only [if_true, bne_iff_ne, ne_eq]
    intro h0
    have := congrArg (fun x : Word => x.getLsbD i) h0
    simp [BitVec.getLsbD_twoPow, h] at this

/-- `Bit` reads the bits of the words in order. -/
theorem bit_eq (a : Bits) (i : Nat) : bit a i = (a.getD (i / 32) 0).getLsbD (i % 32) := by
  unfold bit
  have : i - 32 * (i / 32) = i % 32 := by omega
  simp only [this]
  cases h : a[i / 32]? with
  | none => simp [List.getD, h]
  | some w =>
    simp only [List.getD, h, Option.getD_some]
    exact word_bit w _ (Nat.mod_lt i (by decide))

theorem bits_ext {a b : Bits} (h : a.length = b.length) : (∀ i, bit a i = bit b i) → a = b := by
  intro hb
  apply List.ext_getElem h
  intro k h1 h2
  apply BitVec.eq_of_getLsbD_eq
  intro j hj
  have := hb (32 * k + j)
  rw [bit_eq, bit_eq] at this
  have e1 : (32 * k + j) / 32 = k := by omega
  have e2 : (32 * k + j) % 32 = j := by omega
  rw [e1, e2] at this
  simpa [List.getD, h1, h2] using this

theorem getD_take_append (a : Bits) (n k i : Nat) (hn : n ≤ a.length) :
    (a.take n ++ List.replicate k 0).getD i 0 = if i < n then a.getD i 0 else 0 := by
  simp only [List.getD, List.getElem?_append, List.length_take, Nat.min_eq_left hn]
  by_cases h : i < n
  · simp [h]
  · simp only [h, if_false, List.getElem?_replicate]
    split <;> rfl

/-- **C09 Resize.**  Growing keeps all the bits, shrinking keeps those that remain. -/
theorem c09_resize (a : Bits) (size i : Nat) :
    (resize a size).length = size ∧ bit (resize a size) i = (decide (i < 32 * size) && bit a i) := by
  constructor
  · simp [resize]; omega
  · rw [bit_eq, bit_eq, resize, getD_take_append _ _ _ _ (Nat.min_le_right ..)]
    by_cases h : i / 32 < min size a.length
    · rw [if_pos h]
      have : i < 32 * size := by omega
      simp [this]
    · rw [if_neg h]
      by_cases h2 : i < 32 * size
      · have : a.length ≤ i / 32 := by omega
        simp [List.getD, List.getElem?_eq_none this]
      · simp [h2]

theorem getD_modify (a : Bits) (k i : Nat) (f : Word → Word) :
    (a.modify k f).getD i 0 = if i = k ∧ k < a.length then f (a.getD i 0) else a.getD i 0 := by
  simp only [List.getD, List.getElem?_modify]
  by_cases h : k = i
  · subst h
    by_cases h2 : k < a.length
    · simp [h2]
    · simp [h2, List.getElem?_eq_none (Nat.le_of_not_lt h2)]
  · have : ¬ i = k := fun e => h e.symm
    cases h3 : a[i]? <;> simp [h, this]

theorem mask_bit (k j : Nat) (hk : k < 32) (hj : j < 32) : ((1 : Word) <<< k).getLsbD j = decide (j = k) := by
  have h1 : ((1 : Word) <<< k) = BitVec.twoPow 32 k := by
    rw [BitVec.twoPow_eq]; rfl
  rw [h1, BitVec.getLsbD_twoPow]
  by_cases h : j = k
  · subst h; simp [hj]
  · have : ¬ k = j := fun e => h e.symm
    simp [h, this]

/-- **C09 Set.**  After `Set(i, b)`, `Bit(i)` is `b` and every other bit is unchanged, for every index a `uint32` can
hold. -/
theorem c09_set (a : Bits) (index : Nat) (hi : index < 2 ^ 32) (value : Bool) (j : Nat) :
    bit (set a index value) j = if j = index then value else bit a j := by
  unfold set
  have hu : u32 (index / 32 + 1) = index / 32 + 1 := by unfold u32; omega
  simp only [hu]
  have hloc : index - 32 * (index / 32) = index % 32 := by omega
  have hgrow : ∀ j, bit (if index / 32 ≥ a.length then resize a (index / 32 + 1) else a) j = bit a j := by
    intro j
    split
    · next h =>
      rw [(c09_resize a _ j).2]
      by_cases h2 : j < 32 * (index / 32 + 1)
      · simp [h2]
      · simp only [h2, decide_false, Bool.false_and]
        rw [bit_eq, List.getD_eq_getElem?_getD, List.getElem?_eq_none (by omega)]; simp
    · rfl
  have hlen : index / 32 < (if index / 32 ≥ a.length then resize a (index / 32 + 1) else a).length := by
    split
    · rw [(c09_resize a _ 0).1]; omega
    · omega
  generalize hA : (if index / 32 ≥ a.length then resize a (index / 32 + 1) else a) = A at *
  rw [hloc, ← hgrow j]
  have hm := mask_bit (index % 32) (j % 32) (Nat.mod_lt _ (by decide)) (Nat.mod_lt _ (by decide))
  cases value with
  | true =>
    simp only [if_true, put]
    rw [bit_eq, bit_eq, getD_modify]
    by_cases h1 : j / 32 = index / 32
    · rw [if_pos ⟨h1, hlen⟩, BitVec.getLsbD_or, hm]
      by_cases h2 : j = index
      · subst h2; simp
      · have : ¬ j % 32 = index % 32 := by omega
        simp [h2, this]
    · rw [if_neg (fun h => h1 h.1)]
      have : ¬ j = index := by rintro rfl; exact h1 rfl
      simp [this]
  | false =>
    simp only [Bool.false_eq_true, if_false, put]
    rw [bit_eq, bit_eq, getD_modify]
    by_cases h1 : j / 32 = index / 32
    · rw [if_pos ⟨h1, hlen⟩, BitVec.getLsbD_and, BitVec.getLsbD_not, hm]
      by_cases h2 : j = index
      · subst h2; simp
      · have h3 : ¬ j % 32 = index % 32 := by omega
        have h4 : j % 32 < 32 := Nat.mod_lt _ (by decide)
        simp [h2, h3, h4]
    · rw [if_neg (fun h => h1 h.1)]
      have : ¬ j = index := by rintro rfl; exact h1 rfl
      simp [this]

theorem getD_binop (a b : Bits) (f : Word → Word → Word) (r : Bits) (i : Nat) :
    ((List.range (min a.length b.length)).map (fun i => f (a.getD i 0) (b.getD i 0)) ++ r).getD i 0 =
      if i < min a.length b.length then f (a.getD i 0) (b.getD i 0) else r.getD (i - min a.length b.length) 0 := by
  simp only [List.getD, List.getElem?_append, List.length_map, List.length_range, List.getElem?_map]
  by_cases h : i < min a.length b.length
  · simp [h, List.getElem?_range h]
  · simp [h]

theorem getD_longer (a b : Bits) (i : Nat) (h : min a.length b.length ≤ i) :
    ((longer a b).drop (min a.length b.length)).getD (i - min a.length b.length) 0 =
      if i < b.length then b.getD i 0 else a.getD i 0 := by
  simp only [List.getD, List.getElem?_drop]
  rw [show min a.length b.length + (i - min a.length b.length) = i by omega]
  unfold longer
  split
  · next h1 =>
    split
    · rfl
    · next h2 => rw [List.getElem?_eq_none (by omega), List.getElem?_eq_none (by omega)]
  · next h1 =>
    split
    · omega
    · rfl

/-- **C09 bitwise operators.**  `&`, `|`, `^` act bit by bit on operands of any sizes (missing bits count as zero),
`~` on the bits the set has. -/
theorem c09_and (a b : Bits) (i : Nat) : bit (and a b) i = (bit a i && bit b i) := by
  rw [bit_eq, bit_eq, bit_eq, and, getD_binop a b (· &&& ·)]
  split
  · rw [BitVec.getLsbD_and]
  · next h =>
    have h0 : (List.replicate (max a.length b.length - min a.length b.length) (0 : Word)).getD
        (i / 32 - min a.length b.length) 0 = 0 := by
      simp only [List.getD, List.getElem?_replicate]; split <;> rfl
    rw [h0]
    rcases Nat.lt_or_ge (i / 32) a.length with h1 | h1
    · simp [List.getD, List.getElem?_eq_none (l := b) (i := i / 32) (by omega)]
    · simp [List.getD, List.getElem?_eq_none (l := a) (i := i / 32) h1]

theorem c09_or (a b : Bits) (i : Nat) : bit (or a b) i = (bit a i || bit b i) := by
  rw [bit_eq, bit_eq, bit_eq, or, getD_binop a b (· ||| ·)]
  split
  · rw [BitVec.getLsbD_or]
  · next h =>
    rw [getD_longer a b _ (by omega)]
    split
    · simp [List.getD, List.getElem?_eq_none (l := a) (i := i / 32) (by omega)]
    · simp [List.getD, List.getElem?_eq_none (l := b) (i := i / 32) (by omega)]

theorem c09_xor (a b : Bits) (i : Nat) : bit (xor a b) i = (bit a i ^^ bit b i) := by
  rw [bit_eq, bit_eq, bit_eq, xor, getD_binop a b (· ^^^ ·)]
  split
  · rw [BitVec.getLsbD_xor]
  · next h =>
    rw [getD_longer a b _ (by omega)]
    split
    · simp [List.getD, List.getElem?_eq_none (l := a) (i := i / 32) (by omega)]
    · simp [List.getD, List.getElem?_eq_none (l := b) (i := i / 32) (by omega)]

theorem c09_not (a : Bits) (i : Nat) : bit (not a) i = (decide (i < 32 * a.length) && !bit a i) := by
  rw [bit_eq, bit_eq, not]
  simp only [List.getD, List.getElem?_map]
  by_cases h : i / 32 < a.length
  · have h2 : i < 32 * a.length := by omega
    have h3 : i % 32 < 32 := Nat.mod_lt _ (by decide)
    simp [h, h2, h3]
  · have h2 : ¬ i < 32 * a.length := by omega
    simp [List.getElem?_eq_none (l := a) (i := i / 32) (by omega), h2]

theorem raise_length (n : Bits) (k : Nat) : (raise n k).length = n.length := by
  unfold raise put; simp only; split <;> simp

theorem bit_raise (n : Bits) (k j : Nat) : bit (raise n k) j = (bit n j || (decide (j = k) && decide (k < 32 * n.length))) := by
  unfold raise
  have hloc : k - k / 32 * 32 = k % 32 := by omega
  simp only [hloc]
  split
  · next h =>
    unfold put
    rw [bit_eq, bit_eq, getD_modify]
    have hm := mask_bit (k % 32) (j % 32) (Nat.mod_lt _ (by decide)) (Nat.mod_lt _ (by decide))
    have hk : k < 32 * n.length := by omega
    by_cases h1 : j / 32 = k / 32
    · rw [if_pos ⟨h1, h⟩, BitVec.getLsbD_or, hm]
      by_cases h2 : j = k
      · subst h2; simp [hk]
      · have : ¬ j % 32 = k % 32 := by omega
        simp [h2, this]
    · rw [if_neg (fun h => h1 h.1)]
      have : ¬ j = k := by rintro rfl; exact h1 rfl
      simp [this]
  · next h =>
    have hk : ¬ k < 32 * n.length := by omega
    simp [hk]

theorem foldl_raise (a : Bits) (g : Nat → Nat) (l : List Nat) (n : Bits) (j : Nat) :
    bit (l.foldl (fun n i => if bit a i then raise n (g i) else n) n) j =
      (bit n j || l.any (fun i => bit a i && (decide (j = g i) && decide (g i < 32 * n.length)))) ∧
    (l.foldl (fun n i => if bit a i then raise n (g i) else n) n).length = n.length := by
  induction l generalizing n with
  | nil => simp
  | cons i l ih =>
    simp only [List.foldl_cons, List.any_cons]
    cases hb : bit a i with
    | false => simpa using ih n
    | true =>
      simp only [if_true, Bool.true_and]
      obtain ⟨h1, h2⟩ := ih (raise n (g i))
      rw [raise_length] at h1 h2
      refine ⟨?_, h2⟩
      rw [h1, bit_raise, Bool.or_assoc]

theorem bit_replicate (k j : Nat) : bit (List.replicate k 0) j = false := by
  rw [bit_eq]
  have : (List.replicate k (0 : Word)).getD (j / 32) 0 = 0 := by
    simp only [List.getD, List.getElem?_replicate]; split <;> rfl
  rw [this]; simp

theorem bit_out (a : Bits) (i : Nat) (h : 32 * a.length ≤ i) : bit a i = false := by
  rw [bit_eq, List.getD_eq_getElem?_getD, List.getElem?_eq_none (by omega)]; simp

/-- **C09 shift left.**  Bit `i` moves to `i + n`, zeros come in, no bit is lost, as long as the bit positions fit the
`uint32` index. -/
theorem c09_shl (a : Bits) (rhm : Nat) (h : 32 * a.length + rhm + 32 < 2 ^ 32) (j : Nat) :
    bit (shl a rhm) j = (decide (rhm ≤ j) && bit a (j - rhm)) := by
  unfold shl
  have hs : u32 (a.length + rhm / 32 + 1) = a.length + rhm / 32 + 1 := by unfold u32; omega
  have hn : u32 (32 * a.length) = 32 * a.length := by unfold u32; omega
  simp only [hs, hn]
  rw [(foldl_raise a (fun i => u32 (i + rhm)) _ _ j).1, bit_replicate, Bool.false_or, List.length_replicate]
  rw [Bool.eq_iff_iff]
  simp only [List.any_eq_true, List.mem_range, Bool.and_eq_true, decide_eq_true_eq]
  constructor
  · rintro ⟨i, hi, hb, rfl, -⟩
    have : u32 (i + rhm) = i + rhm := by unfold u32; omega
    rw [this]
    refine ⟨by omega, ?_⟩
    rw [Nat.add_sub_cancel]; exact hb
  · rintro ⟨h1, h2⟩
    have hlt : j - rhm < 32 * a.length := by
      rcases Nat.lt_or_ge (j - rhm) (32 * a.length) with h3 | h3
      · exact h3
      · rw [bit_out a _ h3] at h2; cases h2
    have : u32 (j - rhm + rhm) = j := by unfold u32; omega
    exact ⟨j - rhm, hlt, h2, this.symm, by rw [this]; omega⟩

/-- **C09 shift right.**  Bit `i` moves to `i - n`, zeros come in. -/
theorem c09_shr (a : Bits) (rhm : Nat) (h : 32 * a.length < 2 ^ 32) (j : Nat) :
    bit (shr a rhm) j = bit a (j + rhm) := by
  unfold shr
  have hn : u32 (32 * a.length) = 32 * a.length := by unfold u32; omega
  rw [hn, (foldl_raise a (fun i => i - rhm) _ _ j).1, bit_replicate, Bool.false_or, List.length_replicate]
  rw [Bool.eq_iff_iff]
  have hmem : ∀ i, i ∈ (List.range (32 * a.length)).drop rhm ↔ rhm ≤ i ∧ i < 32 * a.length := by
    intro i
    rw [List.range_eq_range', List.drop_range', List.mem_range'_1]
    omega
  simp only [List.any_eq_true, hmem, Bool.and_eq_true, decide_eq_true_eq]
  constructor
  · rintro ⟨i, ⟨h1, h2⟩, hb, rfl, -⟩
    rw [Nat.sub_add_cancel h1]; exact hb
  · intro hb
    have hlt : j + rhm < 32 * a.length := by
      rcases Nat.lt_or_ge (j + rhm) (32 * a.length) with h3 | h3
      · exact h3
      · rw [bit_out a _ h3] at hb; cases hb
    exact ⟨j + rhm, ⟨by omega, hlt⟩, hb, by omega, by omega⟩

theorem bits_eq_iff (a b : Bits) : (∀ i, bit a i = bit b i) ↔ ∀ k, a.getD k 0 = b.getD k 0 := by
  constructor
  · intro h k
    apply BitVec.eq_of_getLsbD_eq
    intro j hj
    have := h (32 * k + j)
    rw [bit_eq, bit_eq] at this
    have e1 : (32 * k + j) / 32 = k := by omega
    have e2 : (32 * k + j) % 32 = j := by omega
    rwa [e1, e2] at this
  · intro h i
    rw [bit_eq, bit_eq, h]

/-- **C09 equality.**  Two bit sets of any sizes are equal iff all their bits agree. -/
theorem c09_eq (a b : Bits) : eq a b = true ↔ ∀ i, bit a i = bit b i := by
  rw [bits_eq_iff]
  unfold eq
  have hmem : ∀ i, i ∈ (List.range (max a.length b.length)).drop (min a.length b.length) ↔
      min a.length b.length ≤ i ∧ i < max a.length b.length := by
    intro i
    rw [List.range_eq_range', List.drop_range', List.mem_range'_1]
    omega
  have hout : ∀ k (l : Bits), l.length ≤ k → l.getD k 0 = 0 := by
    intro k l h; simp [List.getD, List.getElem?_eq_none h]
  simp only
  constructor
  · intro h k
    have hall : ∀ i < min a.length b.length, a.getD i 0 = b.getD i 0 := by
      intro i hi
      split at h
      · next h1 =>
        simp only [Bool.and_eq_true, List.all_eq_true, List.mem_range, beq_iff_eq] at h1
        exact (h1.1 i hi).symm
      · simp only [List.all_eq_true, List.mem_range, beq_iff_eq] at h
        exact (h i hi).symm
    by_cases hk : k < min a.length b.length
    · exact hall k hk
    · by_cases hk2 : k < max a.length b.length
      · have hres : (List.range (min a.length b.length)).all (fun i => b.getD i 0 == a.getD i 0) = true := by
          simp only [List.all_eq_true, List.mem_range, beq_iff_eq]
          exact fun i hi => (hall i hi).symm
        rw [if_pos (by simp only [hres, Bool.true_and, decide_eq_true_eq]; omega)] at h
        simp only [List.all_eq_true, hmem, beq_iff_eq] at h
        have h0 := h k ⟨by omega, hk2⟩
        unfold longer at h0
        split at h0
        · rw [h0, hout k a (by omega)]
        · rw [h0, hout k b (by omega)]
      · rw [hout k a (by omega), hout k b (by omega)]
  · intro h
    have hres : (List.range (min a.length b.length)).all (fun i => b.getD i 0 == a.getD i 0) = true := by
      simp only [List.all_eq_true, List.mem_range, beq_iff_eq]
      exact fun i _ => (h i).symm
    split
    · simp only [List.all_eq_true, hmem, beq_iff_eq]
      rintro i ⟨h1, h2⟩
      unfold longer
      split
      · rw [← h i, hout i a (by omega)]
      · rw [h i, hout i b (by omega)]
    · exact hres

/-- **C09 integers.**  A set built from an integer has its bits; comparing with a `uint32` compares all the bits. -/
theorem c09_ofU32 (v : BitVec 32) (i : Nat) : bit (ofU32 v) i = v.getLsbD i := by
  rw [bit_eq, ofU32]
  by_cases h : i < 32
  · have h1 : i / 32 = 0 := by omega
    have h2 : i % 32 = i := by omega
    simp [h1, h2]
  · have h1 : 0 < i / 32 := by omega
    rw [List.getD_eq_getElem?_getD, List.getElem?_eq_none (by simp; omega), BitVec.getLsbD_of_ge v i (by omega)]
    simp

theorem c09_ofU64 (v : BitVec 64) (i : Nat) : bit (ofU64 v) i = v.getLsbD i := by
  rw [bit_eq, ofU64]
  by_cases h : i < 32
  · have h1 : i / 32 = 0 := by omega
    have h2 : i % 32 = i := by omega
    simp [h1, h2, h]
  · by_cases h' : i < 64
    · have h1 : i / 32 = 1 := by omega
      have h2 : i % 32 < 32 := by omega
      have h3 : 32 + i % 32 = i := by omega
      simp [h1, h2, h3]
    · rw [List.getD_eq_getElem?_getD, List.getElem?_eq_none (by simp; omega), BitVec.getLsbD_of_ge v i (by omega)]
      simp

theorem c09_eqU32 (a : Bits) (v : BitVec 32) : eqU32 a v = true ↔ ∀ i, bit a i = v.getLsbD i := by
  have : (∀ i, bit a i = v.getLsbD i) ↔ ∀ i, bit a i = bit (ofU32 v) i := by simp only [c09_ofU32]
  rw [this, bits_eq_iff]
  cases a with
  | nil =>
    simp only [eqU32, beq_iff_eq]
    constructor
    · rintro rfl k; cases k <;> simp [ofU32, List.getD]
    · intro h; simpa [ofU32, List.getD] using (h 0).symm
  | cons w rest =>
    simp only [eqU32, ofU32]
    constructor
    · intro h k
      split at h
      · cases h
      · next hw =>
        simp only [List.all_eq_true, beq_iff_eq] at h
        cases k with
        | zero => simpa [List.getD] using hw
        | succ k =>
          simp only [List.getD, List.getElem?_cons_succ, List.getElem?_nil, Option.getD_none]
          cases hk : rest[k]? with
          | none => rfl
          | some x => exact h x (List.mem_of_getElem? hk)
    · intro h
      have h0 := h 0
      simp [List.getD] at h0
      subst h0
      simp only [bne_self_eq_false, Bool.false_eq_true, if_false, List.all_eq_true, beq_iff_eq]
      intro x hx
      obtain ⟨k, hk, rfl⟩ := List.getElem_of_mem hx
      have := h (k + 1)
      simpa [List.getD, hk] using this

/-- **C09 refuted, conversion to 64 bits**: the upper half is dropped unless the set has exactly two words. -/
theorem c09_toU64_drops_upper : bit [0, 1, 0] 32 = true ∧ (toU64 [0, 1, 0]).getLsbD 32 = false := by decide

theorem c09_toU64_partial (a : Bits) (h : a.length ≤ 2) (i : Nat) (hi : i < 64) : (toU64 a).getLsbD i = bit a i := by
  match a, h with
  | [], _ =>
    rw [bit_out [] i (by simp)]; simp [toU64]
  | [w], _ =>
    rw [show ([w] : Bits) = ofU32 w from rfl, c09_ofU32]
    simp [toU64, ofU32, hi]
  | [w0, w1], _ =>
    have hadd : (w0.setWidth 64 + (w1.setWidth 64) <<< 32 : BitVec 64) = w0.setWidth 64 ||| (w1.setWidth 64) <<< 32 := by
      apply BitVec.add_eq_or_of_and_eq_zero
      apply BitVec.eq_of_getLsbD_eq
      intro j hj
      simp only [BitVec.getLsbD_and, BitVec.getLsbD_setWidth, BitVec.getLsbD_shiftLeft, hj, decide_true, Bool.true_and]
      by_cases h32 : j < 32
      · simp [h32]
      · rw [BitVec.getLsbD_of_ge w0 j (by omega)]; simp
    simp only [toU64, List.length_cons, List.length_nil, List.getD_cons_zero, List.getD_cons_succ]
    rw [if_pos (by decide), if_pos (by decide), hadd, bit_eq]
    simp only [BitVec.getLsbD_or, BitVec.getLsbD_setWidth, BitVec.getLsbD_shiftLeft, hi, decide_true, Bool.true_and]
    by_cases h32 : i < 32
    · have h1 : i / 32 = 0 := by omega
      have h2 : i % 32 = i := by omega
      simp [h1, h2, h32]
    · have h1 : i / 32 = 1 := by omega
      have h2 : i % 32 = i - 32 := by omega
      have h3 : i - 32 < 64 := by omega
      rw [BitVec.getLsbD_of_ge w0 i (by omega)]
      simp [h1, h2, h32, h3]

/-- Comparing with a `uint64` compares all the bits, except on a set of one word. -/
theorem c09_eqU64_partial (a : Bits) (h : a.length ≠ 1) (v : BitVec 64) :
    ∃ r, eqU64 a v = some r ∧ (r = true ↔ ∀ i, bit a i = v.getLsbD i) := by
  have key : (∀ i, bit a i = v.getLsbD i) ↔ ∀ i, bit a i = bit (ofU64 v) i := by simp only [c09_ofU64]
  rw [key, bits_eq_iff]
  have hlo : ∀ w : Word, w.setWidth 64 = v &&& 0xffffffff ↔ w = v.setWidth 32 := by
    intro w
    constructor
    · intro h
      apply BitVec.eq_of_toNat_eq
      have := congrArg BitVec.toNat h
      have e : BitVec.toNat (0xffffffff : BitVec 64) = 2 ^ 32 - 1 := rfl
      rw [BitVec.toNat_and, e, Nat.and_two_pow_sub_one_eq_mod, BitVec.toNat_setWidth] at this
      rw [BitVec.toNat_setWidth]
      have := w.isLt
      omega
    · rintro rfl
      apply BitVec.eq_of_toNat_eq
      have e : BitVec.toNat (0xffffffff : BitVec 64) = 2 ^ 32 - 1 := rfl
      rw [BitVec.toNat_and, e, Nat.and_two_pow_sub_one_eq_mod, BitVec.toNat_setWidth, BitVec.toNat_setWidth]
      omega
  have hhi : ∀ w : Word, w.setWidth 64 = v >>> 32 ↔ w = (v >>> 32).setWidth 32 := by
    intro w
    have h1 : (v >>> 32).toNat < 2 ^ 32 := by
      rw [BitVec.toNat_ushiftRight, Nat.shiftRight_eq_div_pow]; have := v.isLt; omega
    constructor
    · intro h
      rw [← h]
      apply BitVec.eq_of_toNat_eq
      rw [BitVec.toNat_setWidth, BitVec.toNat_setWidth]
      have := w.isLt
      omega
    · rintro rfl
      apply BitVec.eq_of_toNat_eq
      rw [BitVec.toNat_setWidth, BitVec.toNat_setWidth]
      omega
  match a, h with
  | [], _ =>
    refine ⟨_, rfl, ?_⟩
    rw [beq_iff_eq]
    constructor
    · rintro rfl k
      match k with
      | 0 => rfl
      | 1 => rfl
      | k + 2 => rfl
    · intro hk
      have h0 := (hlo 0).mpr (by simpa [ofU64] using hk 0)
      have h1 := (hhi 0).mpr (by simpa [ofU64] using hk 1)
      have e0 := congrArg BitVec.toNat h0
      have e1 := congrArg BitVec.toNat h1
      have e : BitVec.toNat (0xffffffff : BitVec 64) = 2 ^ 32 - 1 := rfl
      rw [BitVec.toNat_and, e, Nat.and_two_pow_sub_one_eq_mod] at e0
      rw [BitVec.toNat_ushiftRight, Nat.shiftRight_eq_div_pow] at e1
      apply BitVec.eq_of_toNat_eq
      simp at e0 e1 ⊢
      omega
  | w0 :: w1 :: rest, _ =>
    simp only [eqU64, List.length_cons, List.getElem?_cons_zero, List.getElem?_cons_succ, Option.bind_some]
    rw [if_neg (by omega), if_neg (by omega)]
    by_cases c0 : w0.setWidth 64 = v &&& 0xffffffff
    · rw [if_neg (fun h => h c0)]
      by_cases c1 : w1.setWidth 64 = v >>> 32
      · rw [if_neg (fun h => h c1)]
        refine ⟨_, rfl, ?_⟩
        simp only [List.drop_succ_cons, List.drop_zero, List.all_eq_true, beq_iff_eq]
        constructor
        · intro hr k
          match k with
          | 0 => simpa [ofU64] using (hlo w0).mp c0
          | 1 => simpa [ofU64] using (hhi w1).mp c1
          | k + 2 =>
            simp only [ofU64, List.getD, List.getElem?_cons_succ, List.getElem?_nil, Option.getD_none]
            cases hk : rest[k]? with
            | none => rfl
            | some x => exact hr x (List.mem_of_getElem? hk)
        · intro hk x hx
          obtain ⟨k, hlt, rfl⟩ := List.getElem_of_mem hx
          have := hk (k + 2)
          simpa [ofU64, List.getD, hlt] using this
      · rw [if_pos c1]
        refine ⟨_, rfl, ?_⟩
        constructor
        · intro h; cases h
        · intro hk
          exact absurd ((hhi w1).mpr (by simpa [ofU64] using hk 1)) c1
    · rw [if_pos c0]
      refine ⟨_, rfl, ?_⟩
      constructor
      · intro h; cases h
      · intro hk
        exact absurd ((hlo w0).mpr (by simpa [ofU64] using hk 0)) c0

/-- **C09 refuted, comparison with a 64-bit integer**: on a set of one word it reads outside of the array. -/
theorem c09_eqU64_out_of_bounds : eqU64 [5] 5 = none := by decide

example : bit (shl (set (set empty 3 true) 70 true) 33) 103 = true := by decide
example : 32 * (set (set empty 3 true) 70 true).length + 33 + 32 < 2 ^ 32 := by decide

/-- **C09.** The number of words of every result, on which `~` and the conversion to 64 bits depend, and the new
set, which is empty. -/
theorem c09_sizes (a b : Bits) (index size rhm : Nat) (value : Bool) (hi : index < 2 ^ 32)
    (hs : 32 * a.length + rhm + 32 < 2 ^ 32) :
    (and a b).length = max a.length b.length ∧ (or a b).length = max a.length b.length ∧
    (xor a b).length = max a.length b.length ∧ (not a).length = a.length ∧
    (shl a rhm).length = a.length + rhm / 32 + 1 ∧ (shr a rhm).length = a.length ∧
    (set a index value).length = max a.length (index / 32 + 1) ∧ (resize a size).length = size := by
  have hlong : (longer a b).length = max a.length b.length := by unfold longer; split <;> omega
  refine ⟨?_, ?_, ?_, ?_, ?_, ?_, ?_, (c09_resize a size 0).1⟩
  · simp [and]; omega
  · simp [or, hlong]; omega
  · simp [xor, hlong]; omega
  · simp [not]
  · unfold shl
    rw [(foldl_raise a _ _ _ 0).2, List.length_replicate]; unfold u32; omega
  · unfold shr
    rw [(foldl_raise a _ _ _ 0).2, List.length_replicate]
  · unfold set
    have hu : u32 (index / 32 + 1) = index / 32 + 1 := by unfold u32; omega
    simp only [hu]
    have : (if index / 32 ≥ a.length then resize a (index / 32 + 1) else a).length
        = max a.length (index / 32 + 1) := by
      split
      · rw [(c09_resize a _ 0).1]; omega
      · omega
    cases value <;> simp [put, this]

/-- **C09.** A new set has no bit set; converting to 32 bits keeps the first 32 bits. -/
theorem c09_empty_and_toU32 (a : Bits) (i : Nat) :
    bit empty i = false ∧ (i < 32 → (toU32 a).getLsbD i = bit a i) := by
  refine ⟨bit_replicate 1 i, fun hi => ?_⟩
  have h1 : i / 32 = 0 := by omega
  have h2 : i % 32 = i := by omega
  rw [bit_eq, h1, h2, toU32]
  cases a with
  | nil => simp
  | cons w r => simp

example : (shl [0x80000000] 1).length = 2 ∧ (set empty 70 true).length = 3 := by decide

end Verif.BitSet
