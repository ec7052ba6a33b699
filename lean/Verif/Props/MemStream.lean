import Verif.Model.MemStream
import Verif.Spec.MemStream
/-!
# C111: streams over the memory of the caller
-/
set_option linter.unusedSimpArgs false
set_option linter.unusedVariables false
namespace Verif.Props.MemStream
open Verif.Model.IOBuffer Verif.Model.MemStream
open Verif.Spec.MemStream (File place Allowed AllAllowed)

private theorem sub32_eq {a b : Nat} (h : b ≤ a) : sub32 a b = a - b := by unfold sub32; rw [if_pos h]
private theorem add32_eq {a b : Nat} (h : a + b < 2 ^ 32) : add32 a b = a + b := by unfold add32; rw [if_pos h]

private structure Holds (s : Stream) (f : File) : Prop where
  cw : s.canWrite = f.canWrite
  size : s.buf.size = f.memory.length
  maxU : s.buf.maxU = f.memory.length
  small : f.memory.length < 2 ^ 32
  used : f.used ≤ f.memory.length
  pos : f.pos ≤ f.used
  al : s.buf.amountLeft = f.memory.length - f.pos
  fl : s.buf.fillLeft = f.memory.length - f.used
  ptr : s.buf.ptr = f.pos
  mem : ∀ i, s.buf.mem i = f.memory[i]?

private theorem Holds.usedSize {s f} (h : Holds s f) : s.buf.usedSize = f.used := by
  have := h.used; unfold Buf.usedSize; rw [h.maxU, h.fl, sub32_eq (by omega)]; omega

private theorem Holds.position {s f} (h : Holds s f) : s.buf.position = f.pos := by
  have := h.used; have := h.pos; unfold Buf.position; rw [h.maxU, h.al, sub32_eq (by omega)]; omega

private theorem Holds.left {s f} (h : Holds s f) : s.buf.usedAmountLeft = f.used - f.pos := by
  have := h.used; have := h.pos; unfold Buf.usedAmountLeft; rw [h.al, h.fl, sub32_eq (by omega)]; omega

private theorem load_eq (b : Buf) (bs : List Byte) (hs : b.size = bs.length) (hm : ∀ i, b.mem i = bs[i]?) :
    ∀ (n i : Nat), i + n ≤ bs.length → b.load i n = some ((bs.drop i).take n)
  | 0, i, _ => by simp [Buf.load]
  | n + 1, i, h => by
    have hi : i < bs.length := by omega
    have := load_eq b bs hs hm n (i + 1) (by omega)
    rw [Buf.load, if_pos (by omega), hm i, List.getElem?_eq_getElem hi]
    simp only [this]
    rw [List.drop_eq_getElem_cons hi, List.take_succ_cons]

private theorem place_len (m : List UInt8) (p : Nat) (bs : List UInt8) (h : p + bs.length ≤ m.length) :
    (place m p bs).length = m.length := by
  simp only [place, List.length_append, List.length_take, List.length_drop]; omega

private theorem place_get (m : List UInt8) (p : Nat) (bs : List UInt8) (h : p + bs.length ≤ m.length) (i : Nat) :
    (place m p bs)[i]? = if p ≤ i ∧ i < p + bs.length then bs[i - p]? else m[i]? := by
  have hp : (m.take p).length = p := by rw [List.length_take]; omega
  have hp2 : (m.take p ++ bs).length = p + bs.length := by rw [List.length_append, hp]
  unfold place
  by_cases h1 : i < p
  · rw [if_neg (by omega), List.getElem?_append_left (by omega), List.getElem?_append_left (by omega),
      List.getElem?_take_of_lt h1]
  · by_cases h2 : i < p + bs.length
    · rw [if_pos ⟨by omega, h2⟩, List.getElem?_append_left (by omega), List.getElem?_append_right (by omega), hp]
    · rw [if_neg (by omega), List.getElem?_append_right (by omega), hp2, List.getElem?_drop]
      congr 1; omega

private theorem read_ok {s f} (h : Holds s f) (n : Nat) : ∃ s', step s (.read n) = some ((Spec.MemStream.step f (.read n)).1, s') ∧
    Holds s' (Spec.MemStream.step f (.read n)).2 := by
  have hl := h.left; have hu := h.used; have hp := h.pos
  have hlen : (((f.memory.take f.used).drop f.pos).take n).length = min n (f.used - f.pos) := by
    simp only [List.length_take, List.length_drop]; omega
  simp only [step, Spec.MemStream.step, Buf.read, hl]
  rw [hlen]
  have e : (if n > f.used - f.pos then f.used - f.pos else n) = min n (f.used - f.pos) := by split <;> omega
  rw [e]
  by_cases h0 : min n (f.used - f.pos) > 0
  · rw [if_pos h0]
    rw [load_eq s.buf f.memory h.size h.mem _ _ (by rw [h.ptr]; omega), h.ptr]
    simp only [Option.some.injEq, Prod.mk.injEq]
    have e2 : (f.memory.drop f.pos).take (min n (f.used - f.pos)) = ((f.memory.take f.used).drop f.pos).take n := by
      rw [List.drop_take, List.take_take]
    refine ⟨_, ⟨by rw [e2, hlen], rfl⟩, ?_⟩
    refine ⟨h.cw, h.size, h.maxU, h.small, hu, by show f.pos + _ ≤ f.used; omega, ?_, h.fl, ?_, h.mem⟩
    · show sub32 s.buf.amountLeft _ = _
      rw [h.al, sub32_eq (by omega)]; show _ = f.memory.length - (f.pos + _); omega
    · rfl
  · rw [if_neg h0]
    have h00 : min n (f.used - f.pos) = 0 := by omega
    have hnil : ((f.memory.take f.used).drop f.pos).take n = [] := List.length_eq_zero_iff.mp (by rw [hlen, h00])
    refine ⟨s, by rw [hnil, h00]; rfl, ?_⟩
    rw [h00]; exact h

private theorem write_ok {s f} (h : Holds s f) (bs : List Byte) :
    ∃ s', step s (.write bs) = some ((Spec.MemStream.step f (.write bs)).1, s') ∧ Holds s' (Spec.MemStream.step f (.write bs)).2 := by
  have hu := h.used; have hp := h.pos
  simp only [step, Spec.MemStream.step]
  by_cases hc : f.canWrite = true
  · rw [if_pos (h.cw.trans hc), if_pos hc]
    simp only [Buf.write, h.al]
    have e : (if bs.length > f.memory.length - f.pos then f.memory.length - f.pos else bs.length) =
        (bs.take (f.memory.length - f.pos)).length := by rw [List.length_take]; split <;> omega
    have e3 : bs.take (bs.take (f.memory.length - f.pos)).length = bs.take (f.memory.length - f.pos) := by
      rw [List.length_take, List.take_eq_take_iff]; omega
    rw [e, e3]
    have hle : f.pos + (bs.take (f.memory.length - f.pos)).length ≤ f.memory.length := by rw [List.length_take]; omega
    generalize bs.take (f.memory.length - f.pos) = cs at *
    by_cases h0 : cs.length > 0
    · rw [if_pos h0, Buf.store, if_pos (by rw [h.ptr, h.size]; omega)]
      refine ⟨_, rfl, ?_⟩
      have hpl := place_len f.memory f.pos cs hle
      have hsub : sub32 (f.memory.length - f.pos) cs.length = f.memory.length - f.pos - cs.length := sub32_eq (by omega)
      refine ⟨h.cw, ?_, ?_, ?_, ?_, ?_, ?_, ?_, ?_, ?_⟩
      · show s.buf.size = (place _ _ _).length; rw [hpl]; exact h.size
      · show s.buf.maxU = (place _ _ _).length; rw [hpl]; exact h.maxU
      · show (place _ _ _).length < _; rw [hpl]; exact h.small
      · show max _ _ ≤ (place _ _ _).length; rw [hpl]; omega
      · show f.pos + cs.length ≤ max _ _; omega
      · show sub32 _ _ = (place _ _ _).length - (f.pos + cs.length); rw [hpl, h.al, hsub]; omega
      · show (if s.buf.fillLeft > sub32 _ _ then sub32 _ _ else s.buf.fillLeft) = (place _ _ _).length - max _ _
        rw [hpl, h.fl, h.al, hsub]; split <;> omega
      · show s.buf.ptr + _ = _; rw [h.ptr]
      · intro i
        show (if _ then _ else _) = (place _ _ _)[i]?
        rw [place_get f.memory f.pos cs hle i, h.ptr, h.mem i]
    · rw [if_neg h0]
      have hnil : cs = [] := List.length_eq_zero_iff.mp (by omega)
      subst hnil
      refine ⟨_, rfl, ?_⟩
      have hpl : place f.memory f.pos [] = f.memory := by simp [place]
      have : max f.used (f.pos + ([] : List UInt8).length) = f.used := by simp only [List.length_nil]; omega
      rw [hpl, this]; exact h
  · rw [if_neg (by rw [h.cw]; exact hc), if_neg hc]
    exact ⟨s, rfl, h⟩

private theorem seek_holds {s f} (h : Holds s f) (p : Nat) (hp : p ≤ f.used) :
    (s.buf.seek p).1 = true ∧ Holds { s with buf := (s.buf.seek p).2 } { f with pos := p } := by
  have hu := h.used
  unfold Buf.seek
  rw [h.usedSize, if_pos hp]
  refine ⟨rfl, h.cw, h.size, h.maxU, h.small, hu, hp, ?_, h.fl, rfl, h.mem⟩
  show sub32 _ _ = _
  rw [h.maxU, sub32_eq (by omega)]

private theorem step_ok {s f} (h : Holds s f) (op : Op) (ha : Allowed f op) :
    ∃ s', step s op = some ((Spec.MemStream.step f op).1, s') ∧ Holds s' (Spec.MemStream.step f op).2 := by
  have hu := h.used; have hp := h.pos; have hsm := h.small
  cases op with
  | read n => exact read_ok h n
  | write bs => exact write_ok h bs
  | size => exact ⟨s, by simp only [step, Spec.MemStream.step, h.usedSize], h⟩
  | position => exact ⟨s, by simp only [step, Spec.MemStream.step, h.position], h⟩
  | canWrite => exact ⟨s, by simp only [step, Spec.MemStream.step, h.cw], h⟩
  | setSize n =>
    obtain ⟨ha1, ha2⟩ := ha
    simp only [step, Spec.MemStream.step, Nat.mod_eq_of_lt ha2]
    have e : (if n > f.memory.length then f.memory.length else n) = min n f.memory.length := by split <;> omega
    have hH : Holds { s with buf := s.buf.setUsedSize n } { f with used := min n f.memory.length, pos := min f.pos n } := by
      have hmin : min f.pos n = f.pos := by omega
      rw [hmin]
      refine ⟨h.cw, h.size, h.maxU, hsm, by show min n f.memory.length ≤ f.memory.length; omega, by show f.pos ≤ min n f.memory.length; omega, h.al, ?_, h.ptr, h.mem⟩
      show sub32 s.buf.maxU _ = f.memory.length - min _ _
      rw [h.maxU, e, sub32_eq (by omega)]
    refine ⟨_, ?_, hH⟩
    have := hH.usedSize
    simp only at this
    rw [this]
    simp only [Option.some.injEq, Prod.mk.injEq, Out.mk.injEq, and_true]
    by_cases hn : n ≤ f.memory.length
    · rw [decide_eq_true hn, decide_eq_true (by omega)]
    · rw [decide_eq_false hn, decide_eq_false (by omega)]
  | seek p =>
    simp only [step, Spec.MemStream.step, h.usedSize]
    by_cases hgt : p > f.used
    · rw [if_pos hgt]
      have := (seek_holds h f.used (Nat.le_refl _)).2
      have hmin : min p f.used = f.used := by omega
      exact ⟨_, by rw [decide_eq_false (by omega)], by rw [hmin]; exact this⟩
    · rw [if_neg hgt]
      rw [Nat.mod_eq_of_lt (by omega)]
      have hmin : min p f.used = p := by omega
      have := seek_holds h p (by omega)
      exact ⟨_, by rw [this.1, decide_eq_true (by omega)], by rw [hmin]; exact this.2⟩
  | relativeSeek d =>
    simp only [step, Spec.MemStream.step]
    by_cases hr : -2147483648 ≤ d ∧ d ≤ 2147483647
    · rw [if_neg (by omega), if_pos hr]
      by_cases hd : 0 ≤ d
      · have e : sub32 s.buf.amountLeft s.buf.fillLeft = f.used - f.pos := h.left
        simp only [Buf.relativeSeek, if_pos (show d ≥ 0 from hd), e]
        have e1 : (!decide (d.toNat > f.used - f.pos)) = decide (0 ≤ (f.pos : Int) + d ∧ (f.pos : Int) + d ≤ f.used) := by
          by_cases hg : d.toNat > f.used - f.pos
          · rw [decide_eq_true hg, decide_eq_false (by omega)]; rfl
          · rw [decide_eq_false hg, decide_eq_true (by omega)]; rfl
        rw [e1]
        refine ⟨_, rfl, ?_⟩
        · have e2 : (min ((f.pos : Int) + d) f.used).toNat = f.pos + (if d.toNat > f.used - f.pos then f.used - f.pos else d.toNat) := by
            split <;> omega
          rw [e2]
          have hle : (if d.toNat > f.used - f.pos then f.used - f.pos else d.toNat) ≤ f.used - f.pos := by split <;> omega
          generalize (if d.toNat > f.used - f.pos then f.used - f.pos else d.toNat) = g at *
          refine ⟨h.cw, h.size, h.maxU, hsm, hu, by show f.pos + g ≤ f.used; omega, ?_, h.fl, ?_, h.mem⟩
          · show sub32 _ _ = f.memory.length - (f.pos + g)
            rw [h.al, sub32_eq (by omega)]; omega
          · show s.buf.ptr + g = _; rw [h.ptr]
      · have hp0 : f.pos = 0 := by rcases ha with a | a | a <;> omega
        simp only [Buf.relativeSeek, if_neg (show ¬ d ≥ 0 from hd), h.position, hp0]
        have hg : (-d).toNat > 0 := by omega
        rw [decide_eq_true hg, if_pos hg]
        have e1 : (!true) = decide (0 ≤ ((0 : Nat) : Int) + d ∧ ((0 : Nat) : Int) + d ≤ f.used) := by
          rw [decide_eq_false (by omega)]; rfl
        rw [e1]
        refine ⟨_, rfl, ?_⟩
        · have e2 : (min (((0 : Nat) : Int) + d) f.used).toNat = f.pos := by omega
          rw [e2]
          have ea : add32 s.buf.amountLeft 0 = s.buf.amountLeft := by
            rw [h.al, add32_eq (by omega)]; rfl
          refine ⟨h.cw, h.size, h.maxU, hsm, hu, hp, ?_, h.fl, ?_, h.mem⟩
          · show add32 _ _ = _; rw [ea]; exact h.al
          · show sub32 (sub32 s.buf.maxU (add32 s.buf.amountLeft 0)) 0 = f.pos
            rw [ea, h.maxU, h.al, hp0, sub32_eq (Nat.zero_le _), sub32_eq (by omega)]; omega
    · rw [if_pos (by omega), if_neg hr]
      exact ⟨s, rfl, h⟩

private theorem run_ok : ∀ (ops : List Op) {s f}, Holds s f → AllAllowed f ops →
    ∃ s', run s ops = some ((Spec.MemStream.run f ops).1, s') ∧ Holds s' (Spec.MemStream.run f ops).2
  | [], s, f, h, _ => ⟨s, rfl, h⟩
  | op :: ops, s, f, h, ha => by
    obtain ⟨s1, h1, h2⟩ := step_ok h op ha.1
    obtain ⟨s2, h3, h4⟩ := run_ok ops h2 ha.2
    exact ⟨s2, by simp only [run, h1, h3, Spec.MemStream.run], h4⟩

private theorem memory_eq {s f} (h : Holds s f) : s.memory = f.memory.map some := by
  unfold Stream.memory
  rw [h.size]
  apply List.ext_getElem?
  intro i
  rw [List.getElem?_map, List.getElem?_map]
  by_cases hi : i < f.memory.length
  · rw [List.getElem?_range hi, List.getElem?_eq_getElem hi]; simp [h.mem, hi]
  · rw [List.getElem?_eq_none (by simpa using hi), List.getElem?_eq_none (by simpa using hi)]; rfl

/-- **C111 (partial).** Over memory of the caller, all calls give what a file that begins empty and cannot grow beyond the memory
should give, never use other memory, and leave in the memory exactly the bytes that were written.  Not for moves back and sizes
below the cursor: see the theorems below. -/
theorem c111_writable_partial (memory : List UInt8) (hm : memory.length < 2 ^ 32) (ops : List Op)
    (ha : AllAllowed ⟨memory, 0, 0, true⟩ ops) :
    ∃ s, run (create memory) ops = some ((Spec.MemStream.run ⟨memory, 0, 0, true⟩ ops).1, s) ∧
      s.memory = (Spec.MemStream.run ⟨memory, 0, 0, true⟩ ops).2.memory.map some := by
  have h : Holds (create memory) ⟨memory, 0, 0, true⟩ :=
    ⟨rfl, rfl, rfl, hm, Nat.zero_le _, Nat.le_refl _, rfl, rfl, rfl, fun _ => rfl⟩
  obtain ⟨s, h1, h2⟩ := run_ok ops h ha
  exact ⟨s, h1, memory_eq h2⟩

private theorem const_memory (f : File) (hc : f.canWrite = false) : ∀ ops, (Spec.MemStream.run f ops).2.memory = f.memory := by
  intro ops
  induction ops generalizing f with
  | nil => rfl
  | cons op ops ih =>
    have key : (Spec.MemStream.step f op).2.memory = f.memory ∧ (Spec.MemStream.step f op).2.canWrite = false := by
      cases op <;> simp only [Spec.MemStream.step, hc, Bool.false_eq_true, if_false, and_self]
      case relativeSeek d => split <;> simp [hc]
    rw [Spec.MemStream.run, ih _ key.2, key.1]

/-- **C111 (partial).** Over constant memory, all calls give what a file with the memory as content that refuses writes should
give, and the memory is left as it was. -/
theorem c111_constant_partial (memory : List UInt8) (hm : memory.length < 2 ^ 32) (ops : List Op)
    (ha : AllAllowed ⟨memory, memory.length, 0, false⟩ ops) :
    ∃ s, run (createConst memory) ops = some ((Spec.MemStream.run ⟨memory, memory.length, 0, false⟩ ops).1, s) ∧
      s.memory = memory.map some := by
  have h : Holds (createConst memory) ⟨memory, memory.length, 0, false⟩ := by
    refine ⟨rfl, rfl, rfl, hm, Nat.le_refl _, Nat.zero_le _, rfl, ?_, rfl, fun _ => rfl⟩
    show sub32 memory.length (if memory.length > memory.length then _ else _) = memory.length - memory.length
    rw [if_neg (Nat.lt_irrefl _), sub32_eq (Nat.le_refl _)]
  obtain ⟨s, h1, h2⟩ := run_ok ops h ha
  exact ⟨s, h1, by rw [memory_eq h2, const_memory _ rfl]⟩

/-- What is written is what is read: from the beginning again, as much as had place. -/
theorem c111_write_read (memory bs : List UInt8) (hm : memory.length < 2 ^ 32) :
    ∃ s, run (create memory) [.write bs, .seek 0, .read memory.length] =
      some ([⟨true, [], min bs.length memory.length⟩, ⟨true, [], 0⟩,
        ⟨true, bs.take memory.length, min bs.length memory.length⟩], s) ∧
      s.memory = (bs.take memory.length ++ memory.drop bs.length).map some := by
  obtain ⟨s, h1, h2⟩ := c111_writable_partial memory hm [.write bs, .seek 0, .read memory.length] (by simp [AllAllowed, Allowed])
  have hd : bs.take memory.length ++ memory.drop (min memory.length bs.length) = bs.take memory.length ++ memory.drop bs.length := by
    by_cases h : memory.length ≤ bs.length
    · rw [Nat.min_eq_left h, List.drop_of_length_le (Nat.le_refl _), List.drop_of_length_le h]
    · rw [Nat.min_eq_right (by omega)]
  refine ⟨s, ?_, ?_⟩
  · rw [h1]
    simp only [Spec.MemStream.run, Spec.MemStream.step, place, if_true, List.take_zero, List.nil_append, Nat.zero_add,
      Nat.sub_zero, List.length_take, List.drop_zero, Nat.zero_le, decide_true, Nat.zero_min, Nat.zero_max]
    have : ((bs.take memory.length ++ memory.drop (min memory.length bs.length)).take (min memory.length bs.length)).take memory.length
        = bs.take memory.length := by
      rw [List.take_take]
      have e : min memory.length (min memory.length bs.length) = (bs.take memory.length).length := by
        rw [List.length_take]; omega
      rw [e, List.take_left']
      rfl
    rw [this]
    have e4 : min memory.length (min (min memory.length bs.length)
        (bs.take memory.length ++ memory.drop (min memory.length bs.length)).length) = min bs.length memory.length := by
      rw [List.length_append, List.length_take, List.length_drop]; omega
    rw [e4, Nat.min_comm bs.length]
  · rw [h2]
    simp only [Spec.MemStream.run, Spec.MemStream.step, place, if_true, List.take_zero, List.nil_append, Nat.zero_add,
      Nat.sub_zero, List.length_take, hd]

/-- A size below the cursor leaves the cursor: the next read takes what is not content, and beyond the memory. -/
theorem c111_shrink_fails :
    (run (create [1, 2, 3, 4, 5, 6]) [.write [7, 8, 9, 10], .setSize 2, .read 2]).map (·.1) =
      some [⟨true, [], 4⟩, ⟨true, [], 0⟩, ⟨true, [5, 6], 2⟩] ∧
    run (create [1, 2, 3, 4, 5, 6]) [.write [7, 8, 9, 10], .setSize 2, .read 3] = none := by
  refine ⟨by decide +kernel, ?_⟩
  have : (run (create [1, 2, 3, 4, 5, 6]) [.write [7, 8, 9, 10], .setSize 2, .read 3]).isNone = true := by decide +kernel
  exact Option.isNone_iff_eq_none.mp this

/-- A move back moves the cursor of the bytes twice as far as the position that is given. -/
theorem c111_back_fails : (run (createConst [1, 2, 3, 4, 5, 6]) [.seek 4, .relativeSeek (-1), .position, .read 1]).map (·.1) =
    some [⟨true, [], 0⟩, ⟨true, [], 0⟩, ⟨true, [], 3⟩, ⟨true, [3], 1⟩] := by decide +kernel

/-- A size of 2^32 is taken as zero, and accepted. -/
theorem c111_large_size_fails : (run (createConst [1, 2, 3]) [.setSize (2 ^ 32), .size]).map (·.1) =
    some [⟨true, [], 0⟩, ⟨true, [], 0⟩] := by decide +kernel

/-- Writing more than there is place for, a size that reveals what was in the memory, reading to the end. -/
example : AllAllowed ⟨[1, 2, 3, 4], 0, 0, true⟩ [.write [9], .setSize 3, .read 5, .write [8, 7], .size, .relativeSeek 1, .seek 9] ∧
    (run (create [1, 2, 3, 4]) [.write [9], .setSize 3, .read 5, .write [8, 7], .size, .relativeSeek 1, .seek 9]).map (·.1) =
      some [⟨true, [], 1⟩, ⟨true, [], 0⟩, ⟨true, [2, 3], 2⟩, ⟨true, [], 1⟩, ⟨true, [], 4⟩, ⟨false, [], 0⟩, ⟨false, [], 0⟩] := by
  refine ⟨?_, by decide +kernel⟩
  simp [AllAllowed, Allowed, Spec.MemStream.step]

end Verif.Props.MemStream
