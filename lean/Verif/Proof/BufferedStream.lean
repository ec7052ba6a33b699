import Verif.Model.BufferedStream
import Verif.Spec.BufferedStream
namespace Verif.Proof.BufferedStream
open Verif.Model.IOBuffer Verif.Model.BufferedStream

theorem sub32_eq {a b : Nat} (h : b ≤ a) : sub32 a b = a - b := by
  unfold sub32; rw [if_pos h]

attribute [local irreducible] sub32 add32

/-- The buffer holds `bytes` and its cursor is at `pos`. -/
structure View (b : Buf) (bytes : List Byte) (p : Nat) : Prop where
  gran : b.gran = 1
  size : b.maxU ≤ b.size
  small : b.maxU < 2 ^ 32
  fl : b.fillLeft ≤ b.amountLeft
  pos : b.maxU = b.amountLeft + p
  len : b.maxU = b.fillLeft + bytes.length
  ptr : b.ptr = p
  mem : ∀ i, i < bytes.length → b.mem i = bytes[i]?

section
variable {b : Buf} {bytes : List Byte} {pos : Nat}

theorem View.used (h : View b bytes pos) : b.usedSize = bytes.length := by
  have := h.len
  unfold Buf.usedSize; rw [sub32_eq (by omega)]; omega

theorem View.posn (h : View b bytes pos) : b.position = pos := by
  have := h.pos
  unfold Buf.position; rw [sub32_eq (by omega)]; omega

theorem View.left (h : View b bytes pos) : b.usedAmountLeft = bytes.length - pos := by
  have := h.fl; have := h.pos; have := h.len
  unfold Buf.usedAmountLeft; rw [sub32_eq (by omega)]; omega

theorem View.pos_le (h : View b bytes pos) : pos ≤ bytes.length := by
  have := h.fl; have := h.pos; have := h.len
  omega

theorem View.len_le (h : View b bytes pos) : bytes.length ≤ b.maxU := by
  have := h.len; omega

theorem load_eq (b : Buf) (bs : List Byte) (hs : bs.length ≤ b.size)
    (hm : ∀ i, i < bs.length → b.mem i = bs[i]?) :
    ∀ (n i : Nat), i + n ≤ bs.length → b.load i n = some ((bs.drop i).take n)
  | 0, i, _ => by simp [Buf.load]
  | n + 1, i, h => by
    have hi : i < bs.length := by omega
    have := load_eq b bs hs hm n (i + 1) (by omega)
    rw [Buf.load, if_pos (by omega), hm i hi, List.getElem?_eq_getElem hi]
    simp only [this]
    rw [List.drop_eq_getElem_cons hi, List.take_succ_cons]

theorem View.load (h : View b bytes pos) {i n : Nat} (hin : i + n ≤ bytes.length) :
    b.load i n = some ((bytes.drop i).take n) := by
  have := h.size; have := h.len
  exact load_eq b bytes (by omega) h.mem n i hin

theorem View.loadAll (h : View b bytes pos) : b.load 0 bytes.length = some bytes := by
  rw [h.load (by omega)]; simp

theorem View.empty (h : View b bytes pos) : View b.empty [] 0 := by
  constructor
  · exact h.gran
  · exact h.size
  · exact h.small
  · exact Nat.le_refl _
  · exact rfl
  · exact rfl
  · exact rfl
  · intro i hi; simp at hi

theorem View.read (h : View b bytes pos) (n : Nat) :
    ∃ b', b.read n = some ((bytes.drop pos).take n, b') ∧
      View b' bytes (pos + ((bytes.drop pos).take n).length) ∧ b'.maxU = b.maxU := by
  have hfl := h.fl; have hpos := h.pos
  have hlen := h.len; have hptr := h.ptr; have hple := h.pos_le
  have hmin : (if n > bytes.length - pos then bytes.length - pos else n)
      = min n (bytes.length - pos) := by split <;> omega
  have hl : ((bytes.drop pos).take n).length = min n (bytes.length - pos) := by simp
  unfold Buf.read
  simp only [h.left, hmin]
  by_cases h0 : min n (bytes.length - pos) > 0
  · rw [if_pos h0, hptr, h.load (by omega)]
    have hsub : sub32 b.amountLeft (min n (bytes.length - pos))
        = b.amountLeft - min n (bytes.length - pos) := sub32_eq (by omega)
    have htk : (bytes.drop pos).take (min n (bytes.length - pos))
        = (bytes.drop pos).take n := by
      rw [← List.take_take, List.take_of_length_le (l := bytes.drop pos) (by simp)]
    rw [htk]
    refine ⟨_, rfl, ?_, rfl⟩
    constructor
    · exact h.gran
    · exact h.size
    · exact h.small
    · simp only [hsub]; omega
    · simp only [hsub, hl]; omega
    · exact hlen
    · simp only [hl]
    · exact h.mem
  · rw [if_neg h0]
    have : (bytes.drop pos).take n = [] := List.length_eq_zero_iff.mp (by omega)
    rw [this]
    exact ⟨_, rfl, by simpa using h, rfl⟩

/-- Writing behind the data of the buffer. -/
theorem View.write (h : View b bytes bytes.length) (bs : List Byte) :
    ∃ b', b.write bs = some (min bs.length (b.maxU - bytes.length), b') ∧
      View b' (bytes ++ bs.take (min bs.length (b.maxU - bytes.length)))
        (bytes ++ bs.take (min bs.length (b.maxU - bytes.length))).length ∧
      b'.maxU = b.maxU := by
  have hs := h.size; have hfl := h.fl; have hpos := h.pos
  have hlen := h.len; have hptr := h.ptr; have hll := h.len_le
  have hmin : (if bs.length > b.amountLeft then b.amountLeft else bs.length)
      = min bs.length (b.maxU - bytes.length) := by split <;> omega
  unfold Buf.write
  simp only [hmin]
  generalize hk : min bs.length (b.maxU - bytes.length) = k
  have hkl : (bs.take k).length = k := by simp; omega
  by_cases h0 : k > 0
  · rw [if_pos h0]
    simp only [Buf.store, hkl]
    rw [if_pos (by omega)]
    have hsub : sub32 b.amountLeft k = b.amountLeft - k := sub32_eq (by omega)
    refine ⟨_, rfl, ?_, rfl⟩
    constructor
    · exact h.gran
    · exact hs
    · exact h.small
    · simp only [hsub]; split <;> omega
    · simp only [hsub, List.length_append, hkl]; omega
    · simp only [hsub, List.length_append, hkl]; split <;> omega
    · simp only [List.length_append, hkl]; omega
    · intro i hi
      simp only [List.length_append, hkl] at hi
      simp only [hptr]
      by_cases hb : i < bytes.length
      · rw [if_neg (by omega), List.getElem?_append_left hb, h.mem i hb]
      · rw [if_pos (by omega), List.getElem?_append_right (by omega)]
  · rw [if_neg h0]
    have : k = 0 := by omega
    subst this
    exact ⟨_, rfl, by simpa using h, rfl⟩

end

/-! ### The device -/

theorem osRead_spec (d : Dev) (n : Nat) :
    ∃ ok bs d', osRead d n = (ok, bs, d') ∧ d'.data = d.data ∧ d'.pos = d.pos + bs.length ∧
      bs = (d.data.drop d.pos).take bs.length ∧ bs.length ≤ n ∧ d'.wplan = d.wplan ∧
      (ok = false → bs = []) ∧
      (d.rplan = [] → ok = true ∧ d'.rplan = [] ∧ bs.length = min n (d.data.length - d.pos)) := by
  unfold osRead
  cases hr : d.rplan with
  | nil =>
    refine ⟨_, _, _, rfl, rfl, rfl, ?_, ?_, rfl, ?_, ?_⟩
    · rw [List.take_eq_take_iff]; simp
    · simp; omega
    · simp
    · intro _; simp
  | cons e p =>
    cases e with
    | none => exact ⟨_, _, _, rfl, rfl, rfl, by simp, by simp, rfl, by simp, by simp⟩
    | some k =>
      refine ⟨_, _, _, rfl, rfl, rfl, ?_, ?_, rfl, ?_, ?_⟩
      · rw [List.take_eq_take_iff]; simp
      · simp; omega
      · simp
      · simp

/-- The device has delivered exactly `X` from offset `p0` of `data`. -/
def Tr (data : List Byte) (p0 : Nat) (d : Dev) (X : List Byte) : Prop :=
  d.data = data ∧ d.pos = p0 + X.length ∧ (data.drop p0).take X.length = X

theorem Tr.step {data p0 d X} (h : Tr data p0 d X) {d' : Dev} {bs : List Byte}
    (h1 : d'.data = d.data) (h2 : d'.pos = d.pos + bs.length)
    (h3 : bs = (d.data.drop d.pos).take bs.length) : Tr data p0 d' (X ++ bs) := by
  obtain ⟨a1, a2, a3⟩ := h
  refine ⟨by rw [h1, a1], by rw [h2, a2, List.length_append]; omega, ?_⟩
  rw [List.length_append, List.take_add, a3, List.drop_drop, ← a2, ← a1, ← h3]

theorem Tr.prefix {data p0 d X} (h : Tr data p0 d X) : X <+: data.drop p0 :=
  ⟨_, by conv => lhs; rw [← h.2.2, List.take_append_drop]⟩

/-- Refilling the buffer. -/
theorem refill_spec {b bytes pos} (h : View b bytes pos) (d : Dev) :
    ∃ ok b' d' bs, refill b d = some (ok, b', d') ∧ View b' bs 0 ∧ b'.maxU = b.maxU ∧
      (ok = true ↔ bs ≠ []) ∧ d'.data = d.data ∧ d'.pos = d.pos + bs.length ∧
      bs = (d.data.drop d.pos).take bs.length ∧ d'.wplan = d.wplan ∧
      (d.rplan = [] → d'.rplan = [] ∧ bs.length = min b.maxU (d.data.length - d.pos)) := by
  obtain ⟨ok, bs, d', e, e1, e2, e3, e4, e5, e6, e7⟩ := osRead_spec d b.maxU
  have he := h.empty
  unfold refill
  have e' : osRead d b.empty.maxU = (ok, bs, d') := e
  simp only [e']
  cases ok with
  | false =>
    have : bs = [] := e6 rfl
    subst this
    simp only [if_neg Bool.false_ne_true]
    exact ⟨_, _, _, [], rfl, he.empty, rfl, by simp, e1, e2, e3, e5, fun hh => absurd (e7 hh).1 (by simp)⟩
  | true =>
    simp only [if_true]
    have hsz := h.size
    have hst : b.empty.store 0 bs = some { b.empty with mem := fun k => if 0 ≤ k ∧ k < 0 + bs.length then bs[k - 0]? else b.empty.mem k } :=
      if_pos (show 0 + bs.length ≤ b.size by omega)
    rw [hst]
    refine ⟨_, _, _, bs, rfl, ?_, rfl, ?_, e1, e2, e3, e5, fun hh => ⟨(e7 hh).2.1, (e7 hh).2.2⟩⟩
    · have hss : sub32 b.maxU (if bs.length > b.maxU then b.maxU else bs.length) = b.maxU - bs.length := by
        rw [if_neg (by omega), sub32_eq e4]
      constructor
      · exact h.gran
      · exact h.size
      · exact h.small
      · show sub32 b.maxU (if bs.length > b.maxU then b.maxU else bs.length) ≤ b.maxU
        rw [hss]; omega
      · show b.maxU = b.maxU + 0; omega
      · show b.maxU = sub32 b.maxU (if bs.length > b.maxU then b.maxU else bs.length) + bs.length
        rw [hss]; omega
      · rfl
      · intro i hi
        simp only [Buf.setUsedSize, Buf.empty]
        rw [if_pos (by omega)]; simp
    · rw [decide_eq_true_iff, ← List.length_pos_iff]

/-- The loop of Read. -/
theorem readLoop_spec (data : List Byte) (p0 : Nat) (R0 : List Byte) :
    ∀ (fuel : Nat) (b : Buf) (d : Dev) (toRead : Nat) (acc pre bytes : List Byte) (pos : Nat),
    View b bytes pos → Tr data p0 d (pre ++ bytes) → R0 ++ acc = pre ++ bytes.take pos →
    toRead < fuel → (toRead = 0 ∨ pos < bytes.length) →
    ∃ ok out b' d' pre' bytes' pos', readLoop fuel b d toRead acc = some (ok, out, b', d') ∧
      View b' bytes' pos' ∧ Tr data p0 d' (pre' ++ bytes') ∧ b'.maxU = b.maxU ∧
      d'.wplan = d.wplan ∧ (ok = true → R0 ++ out = pre' ++ bytes'.take pos') ∧
      (R0 ++ out) <+: data.drop p0 ∧
      (ok = true → out.length = acc.length + toRead) ∧
      (d.rplan = [] → toRead ≤ bytes.length - pos + (data.length - d.pos) →
        ok = true ∧ d'.rplan = []) := by
  intro fuel
  induction fuel with
  | zero => intro b d toRead acc pre bytes pos _ _ _ hf; omega
  | succ fuel ih =>
    intro b d toRead acc pre bytes pos hv ht hR hf hne
    have hpre : (R0 ++ acc) <+: data.drop p0 := by
      rw [hR]
      refine List.IsPrefix.trans ?_ ht.prefix
      exact (List.prefix_append_right_inj _).mpr (List.take_prefix _ _)
    unfold readLoop
    by_cases h0 : toRead = 0
    · rw [if_pos h0]
      exact ⟨true, acc, b, d, pre, bytes, pos, rfl, hv, ht, rfl, rfl, fun _ => hR, hpre,
        fun _ => by omega, fun hh _ => ⟨rfl, hh⟩⟩
    · rw [if_neg h0]
      obtain ⟨b1, e1, hv1, hm1⟩ := hv.read toRead
      simp only [e1]
      generalize hbs : (bytes.drop pos).take toRead = bs at *
      have hbl : bs.length = min toRead (bytes.length - pos) := by rw [← hbs]; simp
      have hR1 : R0 ++ (acc ++ bs) = pre ++ bytes.take (pos + bs.length) := by
        rw [← List.append_assoc, hR, List.append_assoc, List.take_add]
        congr 2
        rw [← hbs, List.take_eq_take_iff]; simp
      by_cases hfull : bs.length = toRead
      · rw [if_neg (by simpa using hfull)]
        obtain ⟨ok, out, b', d', pre', bytes', pos', c1, c2, c3, c4, c5, c6, c7, c8, c9⟩ :=
          ih b1 d (toRead - bs.length) (acc ++ bs) pre bytes (pos + bs.length) hv1 ht hR1
            (by omega) (by omega)
        refine ⟨ok, out, b', d', pre', bytes', pos', c1, c2, c3, by rw [c4, hm1], c5, c6, c7, ?_, ?_⟩
        · intro hok; have := c8 hok; rw [List.length_append] at this; omega
        · intro hh hle; exact c9 hh (by omega)
      · rw [if_pos (by simpa using hfull)]
        obtain ⟨ok2, b2, d2, bs2, f1, f2, f3, f4, f5, f6, f7, f8, f9⟩ := refill_spec hv1 d
        simp only [f1]
        have ht2 : Tr data p0 d2 ((pre ++ bytes) ++ bs2) := ht.step f5 f6 f7
        have hend : bytes.take (pos + bs.length) = bytes :=
          List.take_of_length_le (by omega)
        cases ok2 with
        | false =>
          simp only [if_neg Bool.false_ne_true]
          refine ⟨false, acc, b2, d2, pre ++ bytes, bs2, 0, rfl, f2, ht2, by rw [f3, hm1], f8,
            by simp, hpre, by simp, ?_⟩
          intro hh hle
          exfalso
          have h9 := f9 hh
          have hb2 : ¬ bs2 ≠ [] := by intro hc; have := f4.mpr hc; simp at this
          have hl2 : bs2.length = 0 := by
            cases bs2 with
            | nil => rfl
            | cons x xs => exact absurd (by simp) hb2
          rw [← ht.1] at hle
          have := hv1.len_le
          omega
        | true =>
          simp only [if_true]
          have hb2 : bs2.length > 0 := List.length_pos_iff.mpr (f4.mp rfl)
          have hR2 : R0 ++ (acc ++ bs) = (pre ++ bytes) ++ bs2.take 0 := by
            rw [hR1, hend]; simp
          obtain ⟨ok, out, b', d', pre', bytes', pos', c1, c2, c3, c4, c5, c6, c7, c8, c9⟩ :=
            ih b2 d2 (toRead - bs.length) (acc ++ bs) (pre ++ bytes) bs2 0 f2 ht2 hR2
              (by omega) (by omega)
          refine ⟨ok, out, b', d', pre', bytes', pos', c1, c2, c3, by rw [c4, f3, hm1],
            by rw [c5, f8], c6, c7, ?_, ?_⟩
          · intro hok; have := c8 hok; rw [List.length_append] at this; omega
          · intro hh hle
            have h9 := f9 hh
            have hd := ht.1
            refine c9 h9.1 ?_
            rw [← hd] at hle ⊢
            omega

/-- Read. -/
theorem bufRead_spec (calib : Nat) (data : List Byte) (p0 : Nat) (R0 : List Byte) (b : Buf)
    (d : Dev) (n : Nat) (pre bytes : List Byte) (pos : Nat) (stale : List Byte)
    (hv : View b bytes pos) (hst : stale = [] ∨ pos = bytes.length)
    (ht : Tr data p0 d (pre ++ bytes ++ stale)) (hR : R0 = pre ++ bytes.take pos ++ stale) :
    ∃ ok out b' d' pre' bytes' pos' stale', bufRead calib b d n = some (ok, out, b', d') ∧
      View b' bytes' pos' ∧ (stale' = [] ∨ pos' = bytes'.length) ∧
      Tr data p0 d' (pre' ++ bytes' ++ stale') ∧ b'.maxU = b.maxU ∧
      d'.wplan = d.wplan ∧ (ok = true → R0 ++ out = pre' ++ bytes'.take pos' ++ stale') ∧
      (R0 ++ out) <+: data.drop p0 ∧
      (d.rplan = [] → n ≤ bytes.length - pos + (data.length - d.pos) →
        ok = true ∧ out.length = n ∧ d'.rplan = []) ∧
      (ok = true → stale = [] → n * calib < b.maxU → b.maxU < 2 ^ 32 → stale' = []) := by
  obtain ⟨b1, e1, hv1, hm1⟩ := hv.read n
  have hpl := hv.pos_le
  unfold bufRead
  simp only [e1]
  generalize hbs : (bytes.drop pos).take n = bs at *
  have hbl : bs.length = min n (bytes.length - pos) := by rw [← hbs]; simp
  have hR1 : stale = [] → R0 ++ bs = pre ++ bytes.take (pos + bs.length) ++ stale := by
    intro hs
    rw [hR, hs, List.append_nil, List.append_nil, List.append_assoc, List.take_add]
    congr 2
    rw [← hbs, List.take_eq_take_iff]; simp
  have hR2 : R0 ++ bs = pre ++ bytes.take (pos + bs.length) ++ stale := by
    rcases hst with hs | hs
    · exact hR1 hs
    · have : bs = [] := List.length_eq_zero_iff.mp (by omega)
      rw [this, hR]; simp
  have hpre : (R0 ++ bs) <+: data.drop p0 := by
    rcases hst with hs | hs
    · rw [hR2, hs, List.append_nil]
      refine List.IsPrefix.trans ?_ ht.prefix
      rw [hs, List.append_nil]
      exact (List.prefix_append_right_inj _).mpr (List.take_prefix _ _)
    · have : bytes.take (pos + bs.length) = bytes := List.take_of_length_le (by omega)
      rw [hR2, this]; exact ht.prefix
  have hst1 : stale = [] ∨ pos + bs.length = bytes.length := by
    rcases hst with hs | hs
    · exact .inl hs
    · right; omega
  by_cases hfull : bs.length = n
  · rw [if_neg (by simpa using hfull)]
    exact ⟨true, bs, b1, d, pre, bytes, _, stale, rfl, hv1, hst1, ht, hm1, rfl, fun _ => hR2, hpre,
      fun hh _ => ⟨rfl, hfull, hh⟩, fun _ hs _ _ => hs⟩
  · rw [if_pos (by simpa using hfull)]
    have hend : bytes.take (pos + bs.length) = bytes := List.take_of_length_le (by omega)
    have hend' : pos + bs.length = bytes.length := by omega
    rw [hend] at hR2
    by_cases hsm : (n - bs.length) * calib % 2 ^ 32 < b1.maxU
    · rw [if_pos hsm]
      obtain ⟨ok2, b2, d2, bs2, f1, f2, f3, f4, f5, f6, f7, f8, f9⟩ := refill_spec hv1 d
      simp only [f1]
      have ht2 : Tr data p0 d2 ((pre ++ bytes ++ stale) ++ bs2) := ht.step f5 f6 f7
      cases ok2 with
      | false =>
        simp only [if_neg Bool.false_ne_true]
        refine ⟨false, bs, b2, d2, pre ++ bytes ++ stale, bs2, 0, [], rfl, f2, .inl rfl,
          by simpa using ht2, by rw [f3, hm1], f8, by simp, hpre, ?_, by simp⟩
        intro hh hle
        exfalso
        have h9 := f9 hh
        have hb2 : ¬ bs2 ≠ [] := by intro hc; have := f4.mpr hc; simp at this
        have hl2 : bs2.length = 0 := by
          cases bs2 with
          | nil => rfl
          | cons x xs => exact absurd (by simp) hb2
        rw [← ht.1] at hle
        omega
      | true =>
        simp only [if_true]
        have hb2 : bs2.length > 0 := List.length_pos_iff.mpr (f4.mp rfl)
        obtain ⟨ok, out, b', d', pre', bytes', pos', c1, c2, c3, c4, c5, c6, c7, c8, c9⟩ :=
          readLoop_spec data p0 R0 (n - bs.length + 1) b2 d2 (n - bs.length) bs
            (pre ++ bytes ++ stale) bs2 0 f2 ht2 (by rw [hR2]; simp) (by omega) (by omega)
        refine ⟨ok, out, b', d', pre', bytes', pos', [], c1, c2, .inl rfl, by simpa using c3,
          by rw [c4, f3, hm1], by rw [c5, f8], by simpa using c6, c7, ?_, fun _ _ _ _ => rfl⟩
        intro hh hle
        have h9 := f9 hh
        have hd := ht.1
        have := c9 h9.1 (by rw [← hd] at hle ⊢; omega)
        exact ⟨this.1, by have := c8 this.1; omega, this.2⟩
    · rw [if_neg hsm]
      obtain ⟨ok2, bs2, d2, f1, f5, f6, f7, f8, f9, f10, f11⟩ := osRead_spec d (n - bs.length)
      simp only [f1]
      have ht2 : Tr data p0 d2 (pre ++ bytes ++ (stale ++ bs2)) := by
        have := ht.step f5 f6 f7
        simpa [List.append_assoc] using this
      have hR3 : R0 ++ (bs ++ bs2) = pre ++ bytes ++ (stale ++ bs2) := by
        rw [← List.append_assoc, hR2]; simp
      cases ok2 with
      | false =>
        simp only [if_neg Bool.false_ne_true]
        have : bs2 = [] := f10 rfl
        subst this
        refine ⟨false, bs, b1, d2, pre, bytes, _, stale, rfl, hv1, hst1, by simpa using ht2,
          hm1, f9, by simp, hpre, ?_, by simp⟩
        intro hh; have := (f11 hh).1; simp at this
      | true =>
        simp only [if_true]
        refine ⟨true, bs ++ bs2, b1, d2, pre, bytes, _, stale ++ bs2, rfl, hv1, .inr hend',
          ht2, hm1, f9, fun _ => by rw [hend]; exact hR3, ?_, ?_, ?_⟩
        · rw [hR3]; exact ht2.prefix
        · intro hh hle
          have h11 := f11 hh
          refine ⟨rfl, ?_, h11.2.1⟩
          rw [List.length_append]
          rw [← ht.1] at hle
          omega
        · intro _ _ hlt h32
          exfalso
          apply hsm
          have : (n - bs.length) * calib ≤ n * calib := Nat.mul_le_mul_right _ (by omega)
          rw [Nat.mod_eq_of_lt (by omega), hm1]
          omega

/-! ### Writing -/

theorem putAt_len (data : List Byte) (p : Nat) (bs : List Byte) (h : bs ≠ []) :
    (putAt data p bs).length = max data.length (p + bs.length) := by
  unfold putAt; rw [if_neg h]; simp; omega

theorem putAt_get (data : List Byte) (p : Nat) (bs : List Byte) (h : bs ≠ []) (i : Nat) :
    (putAt data p bs)[i]? =
      if i < p then (if i < data.length then data[i]? else some 0)
      else if i < p + bs.length then bs[i - p]? else data[i]? := by
  unfold putAt; rw [if_neg h]
  by_cases h1 : i < p
  · rw [if_pos h1, List.append_assoc, List.append_assoc]
    by_cases h2 : i < data.length
    · rw [if_pos h2, List.getElem?_append_left (by simp; omega), List.getElem?_take_of_lt h1]
    · rw [if_neg h2, List.getElem?_append_right (by simp; omega),
        List.getElem?_append_left (by simp; omega), List.getElem?_replicate]
      rw [if_pos (by simp; omega)]
  · rw [if_neg h1]
    have hl : (data.take p ++ List.replicate (p - data.length) 0 : List Byte).length = p := by
      simp; omega
    by_cases h2 : i < p + bs.length
    · rw [if_pos h2, List.append_assoc, List.getElem?_append_right (by omega), hl,
        List.getElem?_append_left (by omega)]
    · rw [if_neg h2, List.getElem?_append_right (by rw [List.length_append, hl]; omega),
        List.length_append, hl, List.getElem?_drop]
      congr 1; omega

theorem putAt_nil (data : List Byte) (p : Nat) : putAt data p [] = data := by simp [putAt]

theorem putAt_append (data : List Byte) (p : Nat) (xs ys : List Byte) :
    putAt (putAt data p xs) (p + xs.length) ys = putAt data p (xs ++ ys) := by
  by_cases hx : xs = []
  · subst hx; rw [putAt_nil]; simp
  by_cases hy : ys = []
  · subst hy; rw [putAt_nil]; simp
  have hxl := List.length_pos_iff.mpr hx
  apply List.ext_getElem?
  intro i
  rw [putAt_get _ _ _ hy, putAt_get _ _ _ hx, putAt_get _ _ _ (by simp [hx]), putAt_len _ _ _ hx,
    List.length_append]
  by_cases h1 : i < p
  · rw [if_pos (by omega), if_pos (by omega), if_pos h1, if_pos h1]
  · rw [if_neg h1, if_neg h1]
    by_cases h2 : i < p + xs.length
    · rw [if_pos h2, if_pos (by omega), if_pos h2, if_pos (by omega),
        List.getElem?_append_left (by omega)]
    · rw [if_neg h2, if_neg h2]
      by_cases h3 : i < p + xs.length + ys.length
      · rw [if_pos h3, if_pos (by omega), List.getElem?_append_right (by omega)]
        congr 1; omega
      · rw [if_neg h3, if_neg (by omega)]

theorem putAt_end (data bs : List Byte) : putAt data data.length bs = data ++ bs := by
  unfold putAt
  by_cases h : bs = []
  · simp [h]
  · rw [if_neg h]; simp

open Verif.Spec.BufferedStream (AllOrNothing)

theorem osWrite_spec (d : Dev) (bs : List Byte) (hl : bs.length < 2 ^ 32) :
    ∃ ok k d', osWrite d bs = (ok, k, d') ∧ d'.rplan = d.rplan ∧
      (AllOrNothing d → AllOrNothing d') ∧ (d.wplan = [] → ok = true ∧ d'.wplan = []) ∧
      (AllOrNothing d → ok = true → k = bs.length ∧ d'.data = putAt d.data d.pos bs ∧
        d'.pos = d.pos + bs.length) := by
  unfold osWrite
  cases hw : d.wplan with
  | nil =>
    refine ⟨_, _, _, rfl, rfl, ?_, fun _ => ⟨rfl, by simpa using hw⟩, fun _ _ => ⟨rfl, rfl, rfl⟩⟩
    intro h k hk
    exact h k (by simpa [hw] using hk)
  | cons e p =>
    cases e with
    | none =>
      refine ⟨_, _, _, rfl, rfl, ?_, by simp, by simp⟩
      intro h k hk
      exact h k (by rw [hw]; exact List.mem_cons_of_mem _ hk)
    | some k =>
      refine ⟨_, _, _, rfl, rfl, ?_, by simp, ?_⟩
      · intro h k' hk
        exact h k' (by rw [hw]; exact List.mem_cons_of_mem _ hk)
      · intro h _
        have := h k (by rw [hw]; exact List.mem_cons_self)
        have ht : bs.take k = bs := List.take_of_length_le (by omega)
        simp only [ht, and_self]

theorem flushBuf_spec {b bytes} (h : View b bytes bytes.length) (d : Dev) :
    ∃ ok b' d' bytes', flushBuf b d = some (ok, b', d') ∧ View b' bytes' bytes'.length ∧
      b'.maxU = b.maxU ∧ d'.rplan = d.rplan ∧ (AllOrNothing d → AllOrNothing d') ∧
      (d.wplan = [] → ok = true ∧ d'.wplan = []) ∧
      (ok = true → bytes' = []) ∧
      (AllOrNothing d → ok = true → d'.data = putAt d.data d.pos bytes ∧
        d'.pos = d.pos + bytes.length) := by
  unfold flushBuf
  rw [h.used]
  by_cases h0 : bytes.length = 0
  · have : bytes = [] := List.length_eq_zero_iff.mp h0
    subst this
    rw [if_pos h0]
    exact ⟨true, b, d, [], rfl, h, rfl, rfl, id, fun hh => ⟨rfl, hh⟩, fun _ => rfl,
      fun _ _ => ⟨by rw [putAt_nil], rfl⟩⟩
  · rw [if_neg h0, h.loadAll]
    have hs := h.small; have hll := h.len_le
    obtain ⟨ok, k, d', e, e1, e2, e3, e4⟩ := osWrite_spec d bytes (by omega)
    simp only [e]
    cases ok with
    | true =>
      simp only [if_true]
      exact ⟨true, _, d', [], rfl, h.empty, rfl, e1, e2, e3, fun _ => rfl, fun ha ho => (e4 ha ho).2⟩
    | false =>
      simp only [if_neg Bool.false_ne_true]
      exact ⟨false, _, d', bytes, rfl, h, rfl, e1, e2, e3, by simp, by simp⟩

/-- The loop of Write. -/
theorem writeLoop_spec : ∀ (fuel : Nat) (b : Buf) (d : Dev) (bs : List Byte) (writed : Nat)
    (bytes : List Byte), View b bytes bytes.length → 0 < b.maxU →
    2 * bs.length + (if bytes.length = b.maxU then 1 else 0) < fuel →
    ∃ ok k b' d' bytes', writeLoop fuel b d bs writed = some (ok, k, b', d') ∧
      View b' bytes' bytes'.length ∧ b'.maxU = b.maxU ∧ d'.rplan = d.rplan ∧
      (AllOrNothing d → AllOrNothing d') ∧ (d.wplan = [] → ok = true ∧ d'.wplan = []) ∧
      (ok = true → k = writed + bs.length) ∧
      (AllOrNothing d → ok = true →
        putAt d'.data d'.pos bytes' = putAt d.data d.pos (bytes ++ bs) ∧
        d'.pos + bytes'.length = d.pos + bytes.length + bs.length) := by
  intro fuel
  induction fuel with
  | zero => intro b d bs writed bytes _ _ hf; omega
  | succ fuel ih =>
    intro b d bs writed bytes hv hmax hf
    unfold writeLoop
    by_cases h0 : bs.length = 0
    · rw [if_pos h0]
      have : bs = [] := List.length_eq_zero_iff.mp h0
      subst this
      exact ⟨true, writed, b, d, bytes, rfl, hv, rfl, rfl, id, fun hh => ⟨rfl, hh⟩, fun _ => rfl,
        fun _ _ => ⟨by simp, by simp⟩⟩
    · rw [if_neg h0]
      obtain ⟨b1, e1, hv1, hm1⟩ := hv.write bs
      simp only [e1]
      have hll := hv.len_le
      generalize hn : min bs.length (b.maxU - bytes.length) = n at *
      have htl : (bs.take n).length = n := by simp; omega
      have hdl : (bs.drop n).length = bs.length - n := by simp
      by_cases hfull : n = bs.length
      · rw [if_neg (by simpa using hfull)]
        have hd0 : bs.drop n = [] := List.length_eq_zero_iff.mp (by omega)
        have ht0 : bs.take n = bs := List.take_of_length_le (by omega)
        obtain ⟨ok, k, b', d', bytes', c1, c2, c3, c4, c5, c6, c7, c8⟩ :=
          ih b1 d (bs.drop n) (writed + n) _ hv1 (by omega) (by
            rw [hdl]; split <;> split at hf <;> omega)
        refine ⟨ok, k, b', d', bytes', c1, c2, by rw [c3, hm1], c4, c5, c6, ?_, ?_⟩
        · intro ho; rw [c7 ho, hdl]; omega
        · intro ha ho
          have := c8 ha ho
          rw [hd0, ht0, List.append_nil] at this
          refine ⟨this.1, ?_⟩
          have h2 := this.2
          simp only [List.length_append, List.length_nil] at h2
          omega
      · rw [if_pos (by simpa using hfull)]
        obtain ⟨ok2, b2, d2, bytes2, f1, f2, f3, f4, f5, f6, f7, f8⟩ := flushBuf_spec hv1 d
        simp only [f1]
        cases ok2 with
        | false =>
          simp only [if_neg Bool.false_ne_true]
          refine ⟨false, writed, b2, d2, bytes2, rfl, f2, by rw [f3, hm1], f4, f5, ?_, by simp, by simp⟩
          intro hh; have := (f6 hh).1; simp at this
        | true =>
          simp only [if_true]
          have hb2 : bytes2 = [] := f7 rfl
          subst hb2
          obtain ⟨ok, k, b', d', bytes', c1, c2, c3, c4, c5, c6, c7, c8⟩ :=
            ih b2 d2 (bs.drop n) (writed + n) [] f2 (by omega) (by
              rw [hdl, if_neg (by simp; omega)]; split at hf <;> omega)
          refine ⟨ok, k, b', d', bytes', c1, c2, by rw [c3, f3, hm1], by rw [c4, f4],
            fun ha => c5 (f5 ha), fun hh => c6 (f6 hh).2, ?_, ?_⟩
          · intro ho; rw [c7 ho, hdl]; omega
          · intro ha ho
            have h8 := c8 (f5 ha) ho
            have g8 := f8 ha rfl
            constructor
            · rw [h8.1, g8.1, g8.2, List.nil_append, putAt_append, List.append_assoc,
                List.take_append_drop]
            · have h2 := h8.2
              rw [g8.2] at h2
              simp only [List.length_append, List.length_nil, htl, hdl] at h2
              omega

/-- Write. -/
theorem bufWrite_spec (calib : Nat) (b : Buf) (d : Dev) (bs bytes : List Byte)
    (hv : View b bytes bytes.length) (hmax : 0 < b.maxU) (hl : bs.length < 2 ^ 32) :
    ∃ ok k b' d' bytes', bufWrite calib b d bs = some (ok, k, b', d') ∧
      View b' bytes' bytes'.length ∧ b'.maxU = b.maxU ∧ d'.rplan = d.rplan ∧
      (AllOrNothing d → AllOrNothing d') ∧ (d.wplan = [] → ok = true ∧ d'.wplan = []) ∧
      (AllOrNothing d → ok = true → k = bs.length ∧
        putAt d'.data d'.pos bytes' = putAt d.data d.pos (bytes ++ bs) ∧
        d'.pos + bytes'.length = d.pos + bytes.length + bs.length) := by
  unfold bufWrite
  by_cases hc : b.maxU > calib * bs.length % 2 ^ 32
  · rw [if_pos hc]
    obtain ⟨ok, k, b', d', bytes', c1, c2, c3, c4, c5, c6, c7, c8⟩ :=
      writeLoop_spec (2 * bs.length + 2) b d bs 0 bytes hv hmax (by split <;> omega)
    exact ⟨ok, k, b', d', bytes', c1, c2, c3, c4, c5, c6,
      fun ha ho => ⟨by rw [c7 ho]; omega, c8 ha ho⟩⟩
  · rw [if_neg hc]
    obtain ⟨ok2, b2, d2, bytes2, f1, f2, f3, f4, f5, f6, f7, f8⟩ := flushBuf_spec hv d
    simp only [f1]
    cases ok2 with
    | false =>
      simp only [if_neg Bool.false_ne_true]
      refine ⟨false, _, b2, d2, bytes2, rfl, f2, f3, f4, f5, ?_, by simp⟩
      intro hh; have := (f6 hh).1; simp at this
    | true =>
      simp only [if_true]
      have hb2 : bytes2 = [] := f7 rfl
      subst hb2
      obtain ⟨ok, k, d', e, e1, e2, e3, e4⟩ := osWrite_spec d2 bs hl
      simp only [e]
      refine ⟨ok, k, b2, d', [], rfl, f2, f3, by rw [e1, f4], fun ha => e2 (f5 ha),
        fun hh => e3 (f6 hh).2, ?_⟩
      intro ha ho
      have g8 := f8 ha rfl
      have h4 := e4 (f5 ha) ho
      refine ⟨h4.1, ?_, ?_⟩
      · rw [putAt_nil, h4.2.1, g8.1, g8.2, putAt_append]
      · rw [h4.2.2, g8.2]; simp

/-! ### Creating buffers -/

theorem setBufferSize_spec {b : Buf} (hv : View b [] 0) (n : Nat) (hn : n < 2 ^ 32) :
    ∃ b', setBufferSize b n = some (true, b') ∧ View b' [] 0 ∧
      b'.maxU = (if n < 8 then 8 else n) := by
  unfold setBufferSize
  generalize hm : (if n < 8 then 8 else n) = m
  have hm8 : 8 ≤ m ∧ m < 2 ^ 32 := by rw [← hm]; split <;> omega
  have hneed : sub32 (add32 m 1) 1 / 1 * 1 = m := by
    unfold sub32 add32
    by_cases h : m + 1 < 2 ^ 32
    · rw [if_pos h, if_pos (by omega)]; omega
    · rw [if_neg h, if_neg (by omega)]; omega
  have hset : b.setBufferSize m = some (true,
      { b with
        mem := fun k => if b.null = false ∧ k < b.size ∧ k < m then b.mem k else none,
        size := m, null := false }) := by
    unfold Buf.setBufferSize
    rw [hv.gran, if_neg (by omega)]
    simp only [hneed]
    rw [if_neg (by omega)]
  have h1 : ¬ m < 0 := by omega
  have h2 : ¬ m ≤ 0 := by omega
  have h3 : sub32 m 0 = m := by rw [sub32_eq (by omega)]; omega
  have h5 : ¬ (0 : Nat) > 0 := by omega
  unfold Buf.setBufferHeapMemory
  have hu : b.usedSize = 0 := hv.used
  simp only [h1, if_false, hu, h3, hv.posn, hset, h2, Nat.sub_zero, h5]
  refine ⟨_, rfl, ?_, rfl⟩
  constructor
  · exact hv.gran
  · exact Nat.le_refl _
  · exact hm8.2
  · exact Nat.le_refl _
  · exact rfl
  · exact rfl
  · exact rfl
  · intro i hi; simp at hi

theorem newBuf_spec (n : Nat) (hn : n < 2 ^ 32) :
    ∃ b, newBuf n = some b ∧ View b [] 0 ∧ b.maxU = (if n < 8 then 8 else n) := by
  have h0 : View (empty0 1) [] 0 := by
    constructor
    · exact rfl
    · exact Nat.le_refl _
    · show 0 < _; omega
    · exact Nat.le_refl _
    · exact rfl
    · exact rfl
    · exact rfl
    · intro i hi; simp at hi
  obtain ⟨b, e, h, hm⟩ := setBufferSize_spec h0 n hn
  exact ⟨b, by simp [newBuf, e], h, hm⟩

/-! ### Histories of a stream with two buffers -/

open Verif.Spec.BufferedStream

/-- The device has delivered the bytes `pre ++ bytes ++ stale` from offset `p0` of `data`,
of which `bytes` are in the buffer. -/
def RState (data : List Byte) (p0 : Nat) (b : Buf) (d : Dev) (pre bytes : List Byte) (pos : Nat)
    (stale : List Byte) : Prop :=
  View b bytes pos ∧ (stale = [] ∨ pos = bytes.length) ∧ Tr data p0 d (pre ++ bytes ++ stale)

/-- The parts of the state that every call maintains. -/
structure DSafe (data : List Byte) (p0 : Nat) (s : Double) : Prop where
  r : ∃ pre bytes pos stale, RState data p0 s.rbuf s.rdev pre bytes pos stale
  w : ∃ bytes, View s.wbuf bytes bytes.length
  wmax : 0 < s.wbuf.maxU

/-- Everything reported as read so far is `R`. -/
def DRead (data : List Byte) (p0 : Nat) (R : List Byte) (s : Double) : Prop :=
  ∃ pre bytes pos stale, RState data p0 s.rbuf s.rdev pre bytes pos stale ∧
    R = pre ++ bytes.take pos ++ stale

/-- The device with what is still in the buffer is the original device with `W` written. -/
def DWrite (D0 : List Byte) (P0 : Nat) (W : List Byte) (s : Double) : Prop :=
  ∃ bytes, View s.wbuf bytes bytes.length ∧ AllOrNothing s.wdev ∧
    putAt s.wdev.data s.wdev.pos bytes = putAt D0 P0 W ∧
    s.wdev.pos + bytes.length = P0 + W.length

theorem step_safe {data p0} (s : Double) (op : DOp) (hs : DSafe data p0 s) (hf : FitsOp op) :
    ∃ o s', s.step op = some (o, s') ∧ DSafe data p0 s' := by
  cases op with
  | read n =>
    obtain ⟨pre, bytes, pos, stale, h1, h2, h3⟩ := hs.r
    obtain ⟨ok, out, b', d', pre', bytes', pos', stale', e, g1, g2, g3, _⟩ :=
      bufRead_spec s.calR data p0 _ s.rbuf s.rdev n pre bytes pos stale h1 h2 h3 rfl
    exact ⟨⟨ok, out, 0⟩, { s with rbuf := b', rdev := d' }, by simp only [Double.step, e],
      ⟨⟨_, _, _, _, g1, g2, g3⟩, hs.w, hs.wmax⟩⟩
  | write bs =>
    obtain ⟨bytes, hv⟩ := hs.w
    obtain ⟨ok, k, b', d', bytes', e, h1, h2, _⟩ :=
      bufWrite_spec s.calW s.wbuf s.wdev bs bytes hv hs.wmax hf
    exact ⟨⟨ok, [], k⟩, { s with wbuf := b', wdev := d' }, by simp only [Double.step, e],
      ⟨hs.r, ⟨_, h1⟩, by show 0 < b'.maxU; rw [h2]; exact hs.wmax⟩⟩
  | flush =>
    obtain ⟨bytes, hv⟩ := hs.w
    obtain ⟨ok, b', d', bytes', e, h1, h2, _⟩ := flushBuf_spec hv s.wdev
    exact ⟨⟨ok, [], 0⟩, { s with wbuf := b', wdev := d' }, by simp only [Double.step, e],
      ⟨hs.r, ⟨_, h1⟩, by show 0 < b'.maxU; rw [h2]; exact hs.wmax⟩⟩

theorem run_safe {data p0} : ∀ (ops : List DOp) (s : Double), DSafe data p0 s →
    (∀ op ∈ ops, FitsOp op) → ∃ os s', s.run ops = some (os, s') ∧ DSafe data p0 s'
  | [], s, hs, _ => ⟨[], s, rfl, hs⟩
  | op :: ops, s, hs, hf => by
    obtain ⟨o, s1, e1, h1⟩ := step_safe s op hs (hf op List.mem_cons_self)
    obtain ⟨os, s2, e2, h2⟩ := run_safe ops s1 h1 (fun x hx => hf x (List.mem_cons_of_mem _ hx))
    exact ⟨o :: os, s2, by simp only [Double.run, e1, e2], h2⟩

theorem new_safe (rsize wsize calR calW : Nat) (rdev wdev : Dev) (hr : rsize < 2 ^ 32)
    (hw : wsize < 2 ^ 32) :
    ∃ s, Double.new rsize wsize calR calW rdev wdev = some s ∧
      DSafe rdev.data rdev.pos s ∧ DRead rdev.data rdev.pos [] s ∧
      (AllOrNothing wdev → DWrite wdev.data wdev.pos [] s) := by
  obtain ⟨r, er, vr, _⟩ := newBuf_spec rsize hr
  obtain ⟨w, ew, vw, mw⟩ := newBuf_spec wsize hw
  have ht : Tr rdev.data rdev.pos rdev ([] ++ [] ++ []) := ⟨rfl, rfl, by simp⟩
  refine ⟨⟨r, w, rdev, wdev, calR, calW⟩, by simp only [Double.new, er, ew], ?_, ?_, ?_⟩
  · exact ⟨⟨[], [], 0, [], vr, .inl rfl, ht⟩, ⟨[], vw⟩, by show 0 < w.maxU; rw [mw]; split <;> omega⟩
  · exact ⟨[], [], 0, [], ⟨vr, .inl rfl, ht⟩, rfl⟩
  · intro ha
    exact ⟨[], vw, ha, rfl, rfl⟩

/-- One call keeps track of what was read. -/
theorem step_read {data p0 R} (s : Double) (op : DOp) (hs : DRead data p0 R s) {o s'}
    (e : s.step op = some (o, s')) :
    (∀ n, op = .read n → (R ++ o.bytes) <+: data.drop p0 ∧
      (o.ok = true → DRead data p0 (R ++ o.bytes) s')) ∧
    ((∀ n, op ≠ .read n) → o.bytes = [] ∧ DRead data p0 R s') := by
  cases op with
  | read n =>
    refine ⟨fun m _ => ?_, fun h => absurd rfl (h n)⟩
    obtain ⟨pre, bytes, pos, stale, ⟨h1, h2, h3⟩, h4⟩ := hs
    obtain ⟨ok, out, b', d', pre', bytes', pos', stale', e', g1, g2, g3, g4, g5, g6, g7, _⟩ :=
      bufRead_spec s.calR data p0 R s.rbuf s.rdev n pre bytes pos stale h1 h2 h3 h4
    simp only [Double.step, e', Option.some.injEq, Prod.mk.injEq] at e
    obtain ⟨rfl, rfl⟩ := e
    exact ⟨g7, fun ho => ⟨_, _, _, _, ⟨g1, g2, g3⟩, g6 ho⟩⟩
  | write bs =>
    refine ⟨by simp, fun _ => ?_⟩
    simp only [Double.step] at e
    split at e
    · simp at e
    · simp only [Option.some.injEq, Prod.mk.injEq] at e
      obtain ⟨rfl, rfl⟩ := e
      exact ⟨rfl, hs⟩
  | flush =>
    refine ⟨by simp, fun _ => ?_⟩
    simp only [Double.step] at e
    split at e
    · simp at e
    · simp only [Option.some.injEq, Prod.mk.injEq] at e
      obtain ⟨rfl, rfl⟩ := e
      exact ⟨rfl, hs⟩

theorem run_read {data p0} : ∀ (ops : List DOp) (s : Double) (R : List Byte) (os : List DOut)
    (s' : Double), DRead data p0 R s → s.run ops = some (os, s') → ReadsSucceed ops os →
    DRead data p0 (R ++ bytesRead os) s'
  | [], s, R, os, s', hs, e, _ => by
    simp only [Double.run, Option.some.injEq, Prod.mk.injEq] at e
    obtain ⟨rfl, rfl⟩ := e
    simpa [bytesRead] using hs
  | op :: ops, s, R, os, s', hs, e, hok => by
    simp only [Double.run] at e
    cases h1 : s.step op with
    | none => rw [h1] at e; simp at e
    | some r =>
      obtain ⟨o, s1⟩ := r
      simp only [h1] at e
      cases h2 : s1.run ops with
      | none => rw [h2] at e; simp at e
      | some r2 =>
        obtain ⟨os2, s2⟩ := r2
        simp only [h2, Option.some.injEq, Prod.mk.injEq] at e
        obtain ⟨rfl, rfl⟩ := e
        have hst := step_read s op hs h1
        have hb : bytesRead (o :: os2) = o.bytes ++ bytesRead os2 := by simp [bytesRead]
        rw [hb, ← List.append_assoc]
        cases op with
        | read n =>
          have := (hst.1 n rfl).2 hok.1
          exact run_read ops s1 _ os2 _ this h2 hok.2
        | write bs =>
          have := hst.2 (by simp)
          rw [this.1, List.append_nil]
          exact run_read ops s1 _ os2 _ this.2 h2 hok
        | flush =>
          have := hst.2 (by simp)
          rw [this.1, List.append_nil]
          exact run_read ops s1 _ os2 _ this.2 h2 hok

theorem DRead.prefix {data p0 R s} (h : DRead data p0 R s) : R <+: data.drop p0 := by
  obtain ⟨pre, bytes, pos, stale, ⟨h1, h2, h3⟩, rfl⟩ := h
  refine List.IsPrefix.trans ?_ h3.prefix
  rcases h2 with h2 | h2
  · rw [h2, List.append_nil, List.append_nil]
    exact (List.prefix_append_right_inj _).mpr (List.take_prefix _ _)
  · rw [h2, List.take_length]; exact List.prefix_refl _

/-- One call keeps track of what was written. -/
theorem step_write {D0 P0 W} (s : Double) (op : DOp) (hs : DWrite D0 P0 W s)
    (hm : 0 < s.wbuf.maxU) (hf : FitsOp op) {o s'} (e : s.step op = some (o, s')) :
    s'.wbuf.maxU = s.wbuf.maxU ∧
    (∀ n, op = .read n → DWrite D0 P0 W s') ∧
    (∀ bs, op = .write bs → o.ok = true → o.num = bs.length ∧ DWrite D0 P0 (W ++ bs) s') ∧
    (op = .flush → o.ok = true → DWrite D0 P0 W s' ∧ s'.wdev.data = putAt D0 P0 W) := by
  obtain ⟨bytes, h1, h2, h3, h4⟩ := hs
  cases op with
  | read n =>
    simp only [Double.step] at e
    split at e
    · simp at e
    · simp only [Option.some.injEq, Prod.mk.injEq] at e
      obtain ⟨rfl, rfl⟩ := e
      exact ⟨rfl, fun _ _ => ⟨bytes, h1, h2, h3, h4⟩, by simp, by simp⟩
  | write bs =>
    obtain ⟨ok, k, b', d', bytes', e', g1, g2, g3, g4, g5, g6⟩ :=
      bufWrite_spec s.calW s.wbuf s.wdev bs bytes h1 hm hf
    simp only [Double.step, e', Option.some.injEq, Prod.mk.injEq] at e
    obtain ⟨rfl, rfl⟩ := e
    refine ⟨g2, by simp, fun bs' hb ho => ?_, by simp⟩
    obtain rfl : bs = bs' := by simpa using hb
    obtain ⟨i1, i2, i3⟩ := g6 h2 ho
    refine ⟨i1, bytes', g1, g4 h2, ?_, ?_⟩
    · show putAt d'.data d'.pos bytes' = _
      rw [i2, ← putAt_append, h3, h4, putAt_append]
    · show d'.pos + bytes'.length = _
      rw [i3, List.length_append]; omega
  | flush =>
    obtain ⟨ok, b', d', bytes', e', g1, g2, g3, g4, g5, g6, g7⟩ := flushBuf_spec h1 s.wdev
    simp only [Double.step, e', Option.some.injEq, Prod.mk.injEq] at e
    obtain ⟨rfl, rfl⟩ := e
    refine ⟨g2, by simp, by simp, fun _ ho => ?_⟩
    obtain ⟨i1, i2⟩ := g7 h2 ho
    have hb := g6 ho
    subst hb
    refine ⟨⟨[], g1, g4 h2, ?_, ?_⟩, ?_⟩
    · show putAt d'.data d'.pos [] = _
      rw [putAt_nil, i1, h3]
    · show d'.pos + 0 = _
      omega
    · show d'.data = _
      rw [i1, h3]

theorem run_write {D0 P0} : ∀ (ops : List DOp) (s : Double) (W : List Byte) (os : List DOut)
    (s' : Double), DWrite D0 P0 W s → 0 < s.wbuf.maxU → (∀ op ∈ ops, FitsOp op) →
    s.run ops = some (os, s') → WritesSucceed ops os →
    DWrite D0 P0 (W ++ bytesWritten ops) s' ∧ 0 < s'.wbuf.maxU ∧
    (∀ pre, ops = pre ++ [.flush] → s'.wdev.data = putAt D0 P0 (W ++ bytesWritten ops))
  | [], s, W, os, s', hs, hm, _, e, _ => by
    simp only [Double.run, Option.some.injEq, Prod.mk.injEq] at e
    obtain ⟨rfl, rfl⟩ := e
    exact ⟨by simpa [bytesWritten] using hs, hm, by simp⟩
  | op :: ops, s, W, os, s', hs, hm, hf, e, hok => by
    simp only [Double.run] at e
    cases h1 : s.step op with
    | none => rw [h1] at e; simp at e
    | some r =>
      obtain ⟨o, s1⟩ := r
      simp only [h1] at e
      cases h2 : s1.run ops with
      | none => rw [h2] at e; simp at e
      | some r2 =>
        obtain ⟨os2, s2⟩ := r2
        simp only [h2, Option.some.injEq, Prod.mk.injEq] at e
        obtain ⟨rfl, rfl⟩ := e
        obtain ⟨hm1, hst⟩ := step_write s op hs hm (hf op List.mem_cons_self) h1
        have hf2 : ∀ op ∈ ops, FitsOp op := fun x hx => hf x (List.mem_cons_of_mem _ hx)
        have hm1' : 0 < s1.wbuf.maxU := by rw [hm1]; exact hm
        cases op with
        | read n =>
          have := run_write ops s1 W os2 _ (hst.1 n rfl) hm1' hf2 h2 hok
          refine ⟨this.1, this.2.1, fun pre hp => ?_⟩
          cases pre with
          | nil => simp at hp
          | cons x pre => exact this.2.2 pre (by simpa using (List.cons.inj hp).2)
        | write bs =>
          have := run_write ops s1 _ os2 _ (hst.2.1 bs rfl hok.1).2 hm1' hf2 h2 hok.2
          rw [List.append_assoc] at this
          refine ⟨this.1, this.2.1, fun pre hp => ?_⟩
          cases pre with
          | nil => simp at hp
          | cons x pre => exact this.2.2 pre (by simpa using (List.cons.inj hp).2)
        | flush =>
          have hfl := hst.2.2 rfl hok.1
          have := run_write ops s1 _ os2 _ hfl.1 hm1' hf2 h2 hok.2
          refine ⟨this.1, this.2.1, fun pre hp => ?_⟩
          cases pre with
          | nil =>
            have : ops = [] := by simpa using hp
            subst this
            simp only [Double.run, Option.some.injEq, Prod.mk.injEq] at h2
            obtain ⟨rfl, rfl⟩ := h2
            simpa [bytesWritten] using hfl.2
          | cons x pre => exact this.2.2 pre (by simpa using (List.cons.inj hp).2)

end Verif.Proof.BufferedStream
