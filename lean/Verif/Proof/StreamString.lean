import Verif.Model.StreamString
import Verif.Spec.StreamString
namespace Verif.Proof.StreamString
open Verif.Model.IOBuffer Verif.Model.StreamString
open Verif.Spec.StreamString (Text overwrite added replaced)

theorem sub32_eq {a b : Nat} (h : b ≤ a) (_ : a < 2 ^ 32) : sub32 a b = a - b := by
  unfold sub32; rw [if_pos h]

theorem add32_eq {a b : Nat} (h : a + b < 2 ^ 32) : add32 a b = a + b := by
  unfold add32; rw [if_pos h]

attribute [local irreducible] sub32 add32

/-- The buffer holds `t`. -/
structure Holds (b : Buf) (t : Text) : Prop where
  gran : b.gran = 64
  null : b.null = false
  size : b.size = b.maxU + 1
  small : b.size ≤ 2 ^ 31 + 128
  al : b.amountLeft ≤ b.maxU
  fl : b.fillLeft ≤ b.amountLeft
  pos : b.maxU = b.amountLeft + t.pos
  len : b.maxU = b.fillLeft + t.bytes.length
  ptr : b.ptr = t.pos
  mem : ∀ i, i < t.bytes.length → b.mem i = t.bytes[i]?

theorem Holds.used {b t} (h : Holds b t) : b.usedSize = t.bytes.length := by
  have := h.size; have := h.small; have := h.al; have := h.fl; have := h.len
  unfold Buf.usedSize; rw [sub32_eq (by omega) (by omega)]; omega

theorem Holds.posn {b t} (h : Holds b t) : b.position = t.pos := by
  have := h.size; have := h.small; have := h.al; have := h.fl; have := h.pos
  unfold Buf.position; rw [sub32_eq (by omega) (by omega)]; omega

theorem Holds.left {b t} (h : Holds b t) : b.usedAmountLeft = t.bytes.length - t.pos := by
  have := h.size; have := h.small; have := h.al; have := h.fl; have := h.pos; have := h.len
  unfold Buf.usedAmountLeft; rw [sub32_eq (by omega) (by omega)]; omega

theorem Holds.pos_le {b t} (h : Holds b t) : t.pos ≤ t.bytes.length := by
  have := h.fl; have := h.pos; have := h.len
  omega

theorem load_eq (b : Buf) (bs : List Byte) (hs : bs.length ≤ b.size)
    (hm : ∀ i, i < bs.length → b.mem i = bs[i]?) :
    ∀ (n i : Nat), i + n ≤ bs.length → b.load i n = some ((bs.drop i).take n)
  | 0, i, _ => by simp [Buf.load]
  | n + 1, i, h => by
    have hi : i < bs.length := by omega
    have := load_eq b bs hs hm n (i + 1) (by omega)
    rw [Buf.load, if_pos (by omega), hm i hi, List.getElem?_eq_getElem hi]
    simp only [this]
    rw [List.drop_eq_getElem_cons hi, List.take_succ_cons]

theorem take_one {i : Nat} {l : List Byte} (h : i < l.length) : (l.drop i).take 1 = [l[i]] := by
  rw [List.drop_eq_getElem_cons h]; rfl

theorem Holds.load {b t} (h : Holds b t) {i n : Nat} (hin : i + n ≤ t.bytes.length) :
    b.load i n = some ((t.bytes.drop i).take n) := by
  have := h.size; have := h.small; have := h.al; have := h.fl; have := h.len
  exact load_eq b t.bytes (by omega) h.mem n i hin

/-- Bytes of an overwritten text. -/
theorem overwrite_get (t : Text) (bs : List Byte) (hp : t.pos ≤ t.bytes.length) (i : Nat)
    :
    (overwrite t bs).bytes[i]? =
      if t.pos ≤ i ∧ i < t.pos + bs.length then bs[i - t.pos]? else t.bytes[i]? := by
  have hlen : (t.bytes.take t.pos).length = t.pos := by simp; omega
  unfold overwrite
  simp only
  by_cases h1 : i < t.pos
  · rw [if_neg (by omega), List.append_assoc, List.getElem?_append_left (by omega),
      List.getElem?_take_of_lt h1]
  · by_cases h2 : i < t.pos + bs.length
    · rw [if_pos (by omega), List.append_assoc, List.getElem?_append_right (by omega), hlen,
        List.getElem?_append_left (by omega)]
    · rw [if_neg (by omega), List.getElem?_append_right (by simp; omega), List.getElem?_drop]
      congr 1
      simp; omega

theorem overwrite_len (t : Text) (bs : List Byte) (hp : t.pos ≤ t.bytes.length) :
    (overwrite t bs).bytes.length = max t.bytes.length (t.pos + bs.length) := by
  unfold overwrite; simp; omega

/-- IOBuffer::Write of data that fits. -/
theorem write_fits {b t} (h : Holds b t) (bs : List Byte) (hf : bs.length ≤ b.amountLeft) :
    ∃ b', b.write bs = some (bs.length, b') ∧ Holds b' (overwrite t bs) := by
  have hs := h.size; have hsm := h.small; have hal := h.al; have hfl := h.fl; have hpos := h.pos
  have hlen := h.len; have hptr := h.ptr; have hple := h.pos_le
  have hno : ¬ bs.length > b.amountLeft := by omega
  unfold Buf.write
  simp only [hno, if_false]
  by_cases h0 : bs.length > 0
  · rw [if_pos h0]
    simp only [List.take_length, Buf.store]
    rw [if_pos (by omega)]
    refine ⟨_, rfl, ?_⟩
    have hol := overwrite_len t bs hple
    have hsub : sub32 b.amountLeft bs.length = b.amountLeft - bs.length :=
      sub32_eq (by omega) (by omega)
    constructor
    · exact h.gran
    · exact h.null
    · exact hs
    · exact hsm
    · simp only [hsub]; omega
    · simp only [hsub]; split <;> omega
    · simp only [hsub, overwrite]; omega
    · simp only [hsub, hol]; split <;> omega
    · simp only [overwrite]; omega
    · intro i hi
      rw [overwrite_get t bs hple i]
      simp only [hptr]
      split
      · rfl
      · rename_i hn
        exact h.mem i (by omega)
  · rw [if_neg h0]
    have hb : bs = [] := List.length_eq_zero_iff.mp (by omega)
    subst hb
    refine ⟨_, rfl, ?_⟩
    have : overwrite t [] = t := by
      cases t; simp [overwrite]
    rw [this]; exact h

/-- What SetBufferHeapMemory does. -/
theorem heap_eq (b : Buf) (t : Text) (n : Nat) (hn : n ≤ 2 ^ 31 + 64)
    (hg : b.gran = 64) (hu : b.usedSize = t.bytes.length) (hp : b.position = t.pos)
    (hple : t.pos ≤ t.bytes.length) :
    ∃ N, n + 1 ≤ N ∧ N ≤ n + 64 ∧ b.setBufferHeapMemory (n + 1) 1 = some (true,
      { mem := fun k => if b.null = false ∧ k < b.size ∧ k < N then b.mem k else none,
        size := N, maxU := N - 1, amountLeft := N - 1 - min t.pos n,
        fillLeft := N - 1 - min n t.bytes.length, ptr := min t.pos n, gran := b.gran,
        null := false }) := by
  have ha2 : sub32 (add32 (n + 1) 64) 1 = n + 64 := by
    rw [add32_eq (by omega), sub32_eq (by omega) (by omega)]; omega
  have ha3 : sub32 (n + 1) 1 = n := sub32_eq (by omega) (by omega)
  have hused : (if n < t.bytes.length then n else t.bytes.length) = min n t.bytes.length := by
    split <;> omega
  have hposn : (if t.pos > min n t.bytes.length then min n t.bytes.length else t.pos)
      = min t.pos n := by split <;> omega
  have hN : n + 1 ≤ (n + 64) / 64 * 64 ∧ (n + 64) / 64 * 64 ≤ n + 64 := by omega
  generalize hNd : (n + 64) / 64 * 64 = N at hN
  refine ⟨N, hN.1, hN.2, ?_⟩
  have hset : b.setBufferSize (n + 1) = some (true,
      { b with
        mem := fun k => if b.null = false ∧ k < b.size ∧ k < N then b.mem k else none,
        size := N, null := false }) := by
    unfold Buf.setBufferSize
    rw [hg, if_neg (by omega)]
    simp only [ha2, hNd]
    rw [if_neg (by omega)]
  have hs1 : sub32 (N - 1) (min n t.bytes.length) = N - 1 - min n t.bytes.length :=
    sub32_eq (by omega) (by omega)
  have hs2 : sub32 (N - 1) (min t.pos n) = N - 1 - min t.pos n :=
    sub32_eq (by omega) (by omega)
  have hm : (if N ≤ 1 then 0 else N - 1) = N - 1 := by rw [if_neg (by omega)]
  have h1 : ¬ n + 1 < 1 := by omega
  unfold Buf.setBufferHeapMemory
  simp only [h1, if_false, ha3, hu, hp, hset, hused, hposn, hm, hs1, hs2]

/-- What Terminate does. -/
theorem terminate_eq (b : Buf) (u : Nat) (hu : b.usedSize = u) (h : u + 1 ≤ b.size) :
    terminate b = some { b with mem := fun k =>
      if u ≤ k ∧ k < u + ([0] : List Byte).length then ([0] : List Byte)[k - u]? else b.mem k } := by
  subst hu; exact if_pos h

/-- What SetBufferAllocationSize does. -/
theorem setAlloc_aux (b : Buf) (t : Text) (n : Nat) (hn : n ≤ 2 ^ 31 + 64)
    (hg : b.gran = 64) (hu : b.usedSize = t.bytes.length) (hp : b.position = t.pos)
    (hple : t.pos ≤ t.bytes.length)
    (hm : ∀ i, i < t.bytes.length → i < n → b.null = false ∧ i < b.size ∧ b.mem i = t.bytes[i]?) :
    ∃ b', setBufferAllocationSize b n = some (true, b') ∧
      Holds b' ⟨t.bytes.take n, min t.pos n⟩ ∧ n ≤ b'.maxU := by
  have ha1 : add32 n 1 = n + 1 := add32_eq (by omega)
  obtain ⟨N, hN1, hN2, hh⟩ := heap_eq b t n hn hg hu hp hple
  unfold setBufferAllocationSize
  simp only [ha1, hh, if_true]
  generalize hb : Buf.mk _ N _ _ _ _ _ _ = b'
  have e1 : b'.size = N := by rw [← hb]
  have e2 : b'.maxU = N - 1 := by rw [← hb]
  have e3 : b'.amountLeft = N - 1 - min t.pos n := by rw [← hb]
  have e4 : b'.fillLeft = N - 1 - min n t.bytes.length := by rw [← hb]
  have e5 : b'.ptr = min t.pos n := by rw [← hb]
  have e6 : b'.gran = b.gran := by rw [← hb]
  have e7 : b'.null = false := by rw [← hb]
  have e8 : b'.mem = fun k => if b.null = false ∧ k < b.size ∧ k < N then b.mem k else none := by
    rw [← hb]
  have hu' : b'.usedSize = min n t.bytes.length := by
    unfold Buf.usedSize; rw [e2, e4, sub32_eq (by omega) (by omega)]; omega
  rw [hu', if_neg (show ¬ n < min n t.bytes.length by omega)]
  rw [terminate_eq b' _ hu' (by omega)]
  refine ⟨_, rfl, ?_, ?_⟩
  · constructor
    · simp only [e6, hg]
    · simp only [e7]
    · simp only [e1, e2]; omega
    · simp only [e1]; omega
    · simp only [e2, e3]; omega
    · simp only [e3, e4]; omega
    · simp only [e2, e3]; omega
    · simp only [e2, e4, List.length_take]; omega
    · simp only [e5]
    · intro i hi
      simp only [List.length_take] at hi
      simp only [e8, List.length_cons, List.length_nil]
      obtain ⟨h1, h2, h3⟩ := hm i (by omega) (by omega)
      rw [if_neg (by omega), if_pos ⟨h1, h2, by omega⟩, h3, List.getElem?_take_of_lt (by omega)]
  · simp only [e2]; omega

theorem setAlloc {b t} (h : Holds b t) (n : Nat) (hn : n ≤ 2 ^ 31 + 64) :
    ∃ b', setBufferAllocationSize b n = some (true, b') ∧
      Holds b' ⟨t.bytes.take n, min t.pos n⟩ ∧ n ≤ b'.maxU := by
  refine setAlloc_aux b t n hn h.gran h.used h.posn h.pos_le (fun i hi _ => ⟨h.null, ?_, h.mem i hi⟩)
  have := h.size; have := h.small; have := h.al; have := h.fl; have := h.len
  omega

theorem create_holds : ∃ b, create = some b ∧ Holds b ⟨[], 0⟩ := by
  obtain ⟨b, h1, h2, _⟩ := setAlloc_aux (empty0 64) ⟨[], 0⟩ 0 (by omega) rfl (by rw [show (empty0 64).usedSize = sub32 0 0 from rfl, sub32_eq (by omega) (by omega)]; rfl)
    (by rw [show (empty0 64).position = sub32 0 0 from rfl, sub32_eq (by omega) (by omega)])
    (by simp) (by simp)
  refine ⟨b, ?_, by simpa using h2⟩
  simp [create, h1]

theorem take_of_ge {t : Text} {n : Nat} (h1 : t.bytes.length ≤ n) (h2 : t.pos ≤ n) :
    (⟨t.bytes.take n, min t.pos n⟩ : Text) = t := by
  cases t
  simp only at h1 h2
  rw [List.take_of_length_le h1, Nat.min_eq_left h2]

/-- StreamStringIOBuffer::Write. -/
theorem bufWrite_ok {b t} (h : Holds b t) (bs : List Byte)
    (hb : (overwrite t bs).bytes.length < 2 ^ 31) :
    ∃ b', bufWrite b bs = some (true, bs.length, b') ∧ Holds b' (overwrite t bs) := by
  have hs := h.size; have hsm := h.small; have hal := h.al; have hfl := h.fl; have hpos := h.pos
  have hlen := h.len; have hptr := h.ptr; have hple := h.pos_le
  have hol := overwrite_len t bs hple
  unfold bufWrite
  by_cases hg : bs.length > b.amountLeft
  · rw [if_pos hg]
    have ha : add32 b.position bs.length = t.pos + bs.length := by
      rw [h.posn]; exact add32_eq (by omega)
    obtain ⟨b1, e1, h1, hm1⟩ := setAlloc h (t.pos + bs.length) (by omega)
    rw [take_of_ge (by omega) (by omega)] at h1
    have hp1 := h1.pos
    obtain ⟨b2, e2, h2⟩ := write_fits h1 bs (by omega)
    exact ⟨b2, by simp only [ha, e1, e2, if_true], h2⟩
  · rw [if_neg hg]
    obtain ⟨b2, e2, h2⟩ := write_fits h bs (by omega)
    exact ⟨b2, by simp only [e2, if_true], h2⟩

theorem putRaw_ok {b t} (h : Holds b t) (c : Byte) (hl : b.amountLeft ≠ 0) :
    ∃ b', b.putRaw c = some b' ∧ Holds b' (overwrite t [c]) := by
  obtain ⟨b', e, h'⟩ := write_fits h [c] (by simp; omega)
  refine ⟨b', ?_, h'⟩
  unfold Buf.write at e
  unfold Buf.putRaw
  simp only [List.length_cons, List.length_nil] at e
  have h1 : ¬ 0 + 1 > b.amountLeft := by omega
  simp only [h1, if_false, Nat.zero_add, Nat.lt_add_one, if_true, gt_iff_lt, Nat.zero_lt_one,
    List.take_succ_cons, List.take_zero] at e
  cases hst : b.store b.ptr [c] with
  | none => rw [hst] at e; simp at e
  | some b1 =>
    rw [hst] at e
    simpa using e

theorem putC_ok {b t} (h : Holds b t) (c : Byte) (hb : (overwrite t [c]).bytes.length < 2 ^ 31) :
    ∃ b', putC b c = some (true, b') ∧ Holds b' (overwrite t [c]) := by
  have hs := h.size; have hsm := h.small; have hal := h.al; have hfl := h.fl; have hpos := h.pos
  have hlen := h.len; have hptr := h.ptr; have hple := h.pos_le
  have hol := overwrite_len t [c] hple
  simp only [List.length_cons, List.length_nil] at hol
  unfold putC
  by_cases h0 : b.amountLeft = 0
  · rw [if_pos h0]
    have ha : add32 b.size 1 = b.size + 1 := add32_eq (by omega)
    obtain ⟨b1, e1, h1, hm1⟩ := setAlloc h (b.size + 1) (by omega)
    rw [take_of_ge (by omega) (by omega)] at h1
    simp only [ha, e1]
    have hp1 := h1.pos
    have hl1 : b1.amountLeft ≠ 0 := by omega
    obtain ⟨b2, e2, h2⟩ := putRaw_ok h1 c hl1
    rw [if_pos ⟨trivial, hl1⟩]
    exact ⟨b2, by simp only [e2], h2⟩
  · rw [if_neg h0]
    obtain ⟨b2, e2, h2⟩ := putRaw_ok h c h0
    exact ⟨b2, by simp only [e2], h2⟩

theorem seek_ok {b t} (h : Holds b t) {p : Nat} (hp : p ≤ t.bytes.length) :
    (b.seek p).1 = true ∧ Holds (b.seek p).2 ⟨t.bytes, p⟩ := by
  have hs := h.size; have hsm := h.small; have hal := h.al; have hfl := h.fl; have hpos := h.pos
  have hlen := h.len; have hptr := h.ptr; have hple := h.pos_le
  have hsub : sub32 b.maxU p = b.maxU - p := sub32_eq (by omega) (by omega)
  unfold Buf.seek
  rw [h.used, if_pos hp]
  refine ⟨rfl, ?_⟩
  constructor
  · exact h.gran
  · exact h.null
  · exact hs
  · exact hsm
  · simp only [hsub]; omega
  · simp only [hsub]; omega
  · simp only [hsub]; omega
  · exact hlen
  · rfl
  · exact h.mem

theorem seekEnd_ok {b t} (h : Holds b t) : Holds (seekEnd b) ⟨t.bytes, t.bytes.length⟩ := by
  unfold seekEnd; rw [h.used]; exact (seek_ok h (Nat.le_refl _)).2

theorem empty_ok {b t} (h : Holds b t) : Holds b.empty ⟨[], 0⟩ := by
  constructor
  · exact h.gran
  · exact h.null
  · exact h.size
  · exact h.small
  · exact Nat.le_refl _
  · exact Nat.le_refl _
  · exact rfl
  · exact rfl
  · exact rfl
  · intro i hi; simp at hi

theorem overwrite_end (bs cs : List Byte) :
    overwrite ⟨bs, bs.length⟩ cs = ⟨bs ++ cs, bs.length + cs.length⟩ := by
  simp [overwrite]

theorem overwrite_nil (cs : List Byte) : overwrite ⟨[], 0⟩ cs = ⟨cs, cs.length⟩ := by
  simp [overwrite]

theorem read_ok {b t} (h : Holds b t) (n : Nat) :
    ∃ b', b.read n = some ((t.bytes.drop t.pos).take n, b') ∧
      Holds b' ⟨t.bytes, t.pos + ((t.bytes.drop t.pos).take n).length⟩ := by
  have hs := h.size; have hsm := h.small; have hal := h.al; have hfl := h.fl; have hpos := h.pos
  have hlen := h.len; have hptr := h.ptr; have hple := h.pos_le
  have hmin : (if n > t.bytes.length - t.pos then t.bytes.length - t.pos else n)
      = min n (t.bytes.length - t.pos) := by split <;> omega
  have hl : ((t.bytes.drop t.pos).take n).length = min n (t.bytes.length - t.pos) := by simp
  unfold Buf.read
  simp only [h.left, hmin]
  by_cases h0 : min n (t.bytes.length - t.pos) > 0
  · rw [if_pos h0, hptr, h.load (by omega)]
    have hsub : sub32 b.amountLeft (min n (t.bytes.length - t.pos))
        = b.amountLeft - min n (t.bytes.length - t.pos) := sub32_eq (by omega) (by omega)
    have htk : (t.bytes.drop t.pos).take (min n (t.bytes.length - t.pos))
        = (t.bytes.drop t.pos).take n := by
      rw [← List.take_take, List.take_of_length_le (l := t.bytes.drop t.pos) (by simp)]
    refine ⟨_, by rw [htk], ?_⟩
    constructor
    · exact h.gran
    · exact h.null
    · exact hs
    · exact hsm
    · simp only [hsub]; omega
    · simp only [hsub]; omega
    · simp only [hsub, hl]; omega
    · exact hlen
    · simp only [hl]
    · exact h.mem
  · rw [if_neg h0]
    have : (t.bytes.drop t.pos).take n = [] := List.length_eq_zero_iff.mp (by omega)
    rw [this]
    exact ⟨_, rfl, by simpa using h⟩

theorem relSeek_ok {b t} (h : Holds b t) (d : Int) (h0 : 0 ≤ d) :
    (b.relativeSeek d).1 = decide (0 ≤ t.pos + d ∧ t.pos + d ≤ t.bytes.length) ∧
      Holds (b.relativeSeek d).2 ⟨t.bytes, (min (t.pos + d) t.bytes.length).toNat⟩ := by
  have hs := h.size; have hsm := h.small; have hal := h.al; have hfl := h.fl; have hpos := h.pos
  have hlen := h.len; have hptr := h.ptr; have hple := h.pos_le
  have hleft : sub32 b.amountLeft b.fillLeft = t.bytes.length - t.pos := h.left
  obtain ⟨k, rfl⟩ := Int.eq_ofNat_of_zero_le h0
  have hgap : (if k > t.bytes.length - t.pos then t.bytes.length - t.pos else k)
      = min k (t.bytes.length - t.pos) := by split <;> omega
  have hsub : sub32 b.amountLeft (min k (t.bytes.length - t.pos))
      = b.amountLeft - min k (t.bytes.length - t.pos) := sub32_eq (by omega) (by omega)
  unfold Buf.relativeSeek
  rw [if_pos h0]
  simp only [Int.toNat_natCast, hleft, hgap, hsub]
  refine ⟨?_, ?_⟩
  · by_cases hk : k > t.bytes.length - t.pos
    · rw [decide_eq_true hk, decide_eq_false (by omega)]; rfl
    · rw [decide_eq_false hk, decide_eq_true (by omega)]; rfl
  · constructor
    · exact h.gran
    · exact h.null
    · exact hs
    · exact hsm
    · simp only; omega
    · simp only; omega
    · simp only; omega
    · exact hlen
    · simp only; omega
    · exact h.mem

theorem locateFrom_eq (c : Byte) : ∀ (bs : List Byte) (i : Nat),
    locateFrom c bs i = (bs.findIdx? (· == c)).map (· + i)
  | [], i => by simp [locateFrom]
  | x :: xs, i => by
    rw [locateFrom, List.findIdx?_cons]
    by_cases h : x = c
    · simp [h]
    · simp only [h, if_false, beq_iff_eq]
      rw [locateFrom_eq c xs (i + 1)]
      simp only [Option.map_map]
      congr 1
      funext k; simp; omega

theorem segMatches_eq : ∀ (pat s : List Byte), segMatches s pat = pat.isPrefixOf s
  | [], s => by simp [segMatches]
  | p :: ps, [] => by simp [segMatches, List.isPrefixOf]
  | p :: ps, x :: xs => by
    rw [segMatches, List.isPrefixOf]
    by_cases h : x = p
    · simp [h, segMatches_eq ps xs]
    · have : (p == x) = false := by simpa using fun e : p = x => h e.symm
      simp [h, this]

theorem locateStrFrom_eq (pat s : List Byte) : ∀ (k i : Nat),
    locateStrFrom pat (s.drop i) i k = (List.range' i k).find? fun j => pat.isPrefixOf (s.drop j)
  | 0, i => by cases h : s.drop i <;> simp [locateStrFrom]
  | k + 1, i => by
    rw [List.range'_succ, List.find?_cons]
    have e : locateStrFrom pat (s.drop i) i (k + 1)
        = if segMatches (s.drop i) pat then some i
          else locateStrFrom pat ((s.drop i).drop 1) (i + 1) k := by
      cases s.drop i <;> rw [locateStrFrom]
    rw [e, segMatches_eq, List.drop_drop, locateStrFrom_eq pat s k (i + 1)]
    by_cases h : pat.isPrefixOf (s.drop i)
    · simp [h]
    · simp [h]

theorem firstMatch_eq (pat s : List Byte) (h0 : pat ≠ []) (hl : pat.length ≤ s.length) :
    Verif.Spec.StreamString.firstMatch pat s
      = (List.range' 0 (1 + s.length - pat.length)).find? fun j => pat.isPrefixOf (s.drop j) := by
  unfold Verif.Spec.StreamString.firstMatch
  have hp : pat.length > 0 := List.length_pos_iff.mpr h0
  have e : List.range s.length = List.range' 0 (1 + s.length - pat.length)
      ++ List.range' (1 + s.length - pat.length) (pat.length - 1) := by
    rw [List.range_eq_range', List.range'_eq_append_iff.2 ⟨1 + s.length - pat.length, by omega, rfl, by congr 1 <;> omega⟩]
    congr 2 <;> omega
  rw [e, List.find?_append]
  have : (List.range' (1 + s.length - pat.length) (pat.length - 1)).find?
      (fun j => pat.isPrefixOf (s.drop j)) = none := by
    rw [List.find?_eq_none]
    intro j hj
    rw [List.mem_range'_1] at hj
    intro hpre
    have := (List.isPrefixOf_iff_prefix.mp hpre).length_le
    simp at this; omega
  rw [this]; simp

theorem firstMatch_long (pat s : List Byte) (hl : s.length < pat.length) :
    Verif.Spec.StreamString.firstMatch pat s = none := by
  unfold Verif.Spec.StreamString.firstMatch
  rw [List.find?_eq_none]
  intro j hj hpre
  have := (List.isPrefixOf_iff_prefix.mp hpre).length_le
  simp at this; omega

theorem idxOut_eq (r : Option Nat) (h : ∀ i, r = some i → i < 2 ^ 31) :
    idxOut r = ⟨true, [], Verif.Spec.StreamString.orMinusOne r⟩ := by
  cases r with
  | none => rfl
  | some i => simp only [idxOut, Verif.Spec.StreamString.orMinusOne]; rw [if_pos (h i rfl)]

open Verif.Spec.StreamString (Allowed AllAllowed) in
/-- Every allowed call does what the ideal does. -/
theorem step_ok {b t} (h : Holds b t) (op : Op) (ha : Allowed t op) :
    ∃ b', step b op = some ((Verif.Spec.StreamString.step t op).1, b') ∧
      Holds b' (Verif.Spec.StreamString.step t op).2 := by
  have hs := h.size; have hsm := h.small; have hal := h.al; have hfl := h.fl; have hpos := h.pos
  have hlen := h.len; have hptr := h.ptr; have hple := h.pos_le
  cases op with
  | write bs =>
    obtain ⟨b', e, h'⟩ := bufWrite_ok h bs ha
    exact ⟨b', by simp [step, e, wOut, Verif.Spec.StreamString.step], h'⟩
  | append c =>
    have hh := seekEnd_ok h
    obtain ⟨b', e, h'⟩ := putC_ok hh c (by rw [overwrite_end]; exact ha)
    rw [overwrite_end] at h'
    exact ⟨b', by simp [step, e, Verif.Spec.StreamString.step], h'⟩
  | set c =>
    obtain ⟨b', e, h'⟩ := putC_ok (empty_ok h) c (by rw [overwrite_nil]; exact ha)
    rw [overwrite_nil] at h'
    exact ⟨b', by simp [step, e, Verif.Spec.StreamString.step], h'⟩
  | appendStr s =>
    obtain ⟨b', e, h'⟩ := bufWrite_ok (seekEnd_ok h) (cstr s) (by rw [overwrite_end]; exact ha)
    rw [overwrite_end] at h'
    exact ⟨b', by simp [step, e, wOut, Verif.Spec.StreamString.step], h'⟩
  | setStr s =>
    obtain ⟨b', e, h'⟩ := bufWrite_ok (empty_ok h) (cstr s) (by rw [overwrite_nil]; exact ha)
    rw [overwrite_nil] at h'
    exact ⟨b', by simp [step, e, wOut, Verif.Spec.StreamString.step], h'⟩
  | appendOther s =>
    obtain ⟨b', e, h'⟩ := bufWrite_ok (seekEnd_ok h) s (by rw [overwrite_end]; exact ha)
    rw [overwrite_end] at h'
    exact ⟨b', by simp [step, e, wOut, Verif.Spec.StreamString.step], h'⟩
  | setOther s =>
    obtain ⟨b', e, h'⟩ := bufWrite_ok (empty_ok h) s (by rw [overwrite_nil]; exact ha)
    rw [overwrite_nil] at h'
    exact ⟨b', by simp [step, e, wOut, Verif.Spec.StreamString.step], h'⟩
  | appendSelf => exact absurd ha id
  | assignSelf => exact ⟨b, rfl, h⟩
  | read n =>
    obtain ⟨b', e, h'⟩ := read_ok h n
    exact ⟨b', by simp [step, e, Verif.Spec.StreamString.step], h'⟩
  | seek p =>
    by_cases hp : p ≤ t.bytes.length
    · have := seek_ok h hp
      refine ⟨(b.seek p).2, ?_, ?_⟩
      · simp only [step, h.used]
        rw [if_neg (by omega)]
        simp [Verif.Spec.StreamString.step, hp, this.1]
      · simpa [Verif.Spec.StreamString.step, hp] using this.2
    · refine ⟨(b.seek t.bytes.length).2, ?_, ?_⟩
      · simp only [step, h.used]
        rw [if_pos (by omega)]
        simp [Verif.Spec.StreamString.step, hp]
      · simpa [Verif.Spec.StreamString.step, hp] using (seek_ok h (Nat.le_refl _)).2
  | relativeSeek d =>
    have hd : 0 ≤ d := ha
    by_cases hr : d < 2 ^ 31
    · have := relSeek_ok h d hd
      refine ⟨(b.relativeSeek d).2, ?_, ?_⟩
      · simp only [step]
        rw [if_neg (by omega)]
        simp only [Verif.Spec.StreamString.step]
        rw [if_pos (by omega), this.1]
      · simp only [Verif.Spec.StreamString.step]
        rw [if_pos (by omega)]
        exact this.2
    · refine ⟨b, ?_, ?_⟩
      · simp only [step]
        rw [if_pos (by omega)]
        simp only [Verif.Spec.StreamString.step]
        rw [if_neg (by omega)]
      · simp only [Verif.Spec.StreamString.step]
        rw [if_neg (by omega)]
        exact h
  | setSize n =>
    have hn : n < 2 ^ 31 := ha
    obtain ⟨b', e, h', _⟩ := setAlloc h n (by omega)
    have : n % 2 ^ 32 = n := Nat.mod_eq_of_lt (by omega)
    exact ⟨b', by simp [step, this, e, Verif.Spec.StreamString.step], h'⟩
  | size => exact ⟨b, by simp [step, h.used, Verif.Spec.StreamString.step], h⟩
  | position => exact ⟨b, by simp [step, h.posn, Verif.Spec.StreamString.step], h⟩
  | buffer =>
    have hst : terminate b = some { b with mem := fun k => if t.bytes.length ≤ k ∧ k < t.bytes.length + 1 then ([0] : List Byte)[k - t.bytes.length]? else b.mem k } := by
      exact terminate_eq b _ h.used (by omega)
    have hh : Holds { b with mem := fun k => if t.bytes.length ≤ k ∧ k < t.bytes.length + 1 then ([0] : List Byte)[k - t.bytes.length]? else b.mem k } t := by
      constructor
      · exact h.gran
      · exact h.null
      · exact hs
      · exact hsm
      · exact hal
      · exact hfl
      · exact hpos
      · exact hlen
      · exact hptr
      · intro i hi
        simp only
        rw [if_neg (by omega)]
        exact h.mem i hi
    refine ⟨_, ?_, hh⟩
    simp only [step, hst, hh.used]
    rw [load_eq _ (t.bytes ++ [0]) (by simp; omega) ?_ _ _ (by simp)]
    · simp [Verif.Spec.StreamString.step, List.take_of_length_le]
    · intro i hi
      simp only [List.length_append, List.length_cons, List.length_nil] at hi
      simp only
      by_cases hb : i < t.bytes.length
      · rw [if_neg (by omega), h.mem i hb, List.getElem?_append_left hb]
      · have : i = t.bytes.length := by omega
        subst this
        simp
  | index i =>
    refine ⟨b, ?_, h⟩
    simp only [step, h.used, Verif.Spec.StreamString.step]
    by_cases hi : i < t.bytes.length
    · rw [if_pos hi, h.load (by omega), take_one hi]
      simp [hi]
    · rw [if_neg hi]
      simp [show t.bytes.length ≤ i by omega]
  | tail i =>
    obtain ⟨hne, hi32⟩ : t.bytes ≠ [] ∧ i < 2 ^ 32 := ha
    have hl0 : t.bytes.length > 0 := List.length_pos_iff.mpr hne
    refine ⟨b, ?_, by simp only [Verif.Spec.StreamString.step]; split <;> exact h⟩
    simp only [step, h.used, Verif.Spec.StreamString.step]
    rw [sub32_eq (show 1 ≤ t.bytes.length by omega) (by omega)]
    by_cases hi : i < t.bytes.length
    · rw [if_pos (by omega), if_pos hi, sub32_eq (show i ≤ t.bytes.length by omega) (by omega),
        sub32_eq (by omega) (by omega), h.load (by omega)]
      rw [take_one (by omega)]
      have : t.bytes.reverse[i]? = some (t.bytes[t.bytes.length - i - 1]'(by omega)) := by
        rw [List.getElem?_reverse hi, List.getElem?_eq_getElem (by omega)]
        congr 2; omega
      simp [this]
    · rw [if_neg (by omega), if_neg hi]
  | locate c =>
    have hb : t.bytes.length < 2 ^ 31 := ha
    refine ⟨b, ?_, h⟩
    simp only [step, h.used, Verif.Spec.StreamString.step]
    rw [h.load (by omega)]
    simp only [List.drop_zero, List.take_length, Option.map_some, locateFrom_eq, Nat.add_zero,
      Option.map_id']
    rw [idxOut_eq]
    intro i hi
    have := (List.findIdx?_eq_some_iff_getElem.mp hi).1
    omega
  | locateStr pat =>
    have hb : t.bytes.length < 2 ^ 31 := ha
    refine ⟨b, ?_, h⟩
    simp only [step, h.used, Verif.Spec.StreamString.step]
    by_cases hp : pat = []
    · subst hp
      simp [idxOut, Verif.Spec.StreamString.orMinusOne]
    · have hpl : pat.length > 0 := List.length_pos_iff.mpr hp
      rw [if_neg hp]
      by_cases hl : pat.length ≤ t.bytes.length
      · rw [if_pos (by omega), h.load (by omega)]
        simp only [List.drop_zero, List.take_length, Option.map_some]
        have he := locateStrFrom_eq pat t.bytes (1 + t.bytes.length - pat.length) 0
        rw [List.drop_zero] at he
        rw [add32_eq (by omega), sub32_eq (by omega) (by omega), he, firstMatch_eq pat t.bytes hp hl,
          idxOut_eq]
        intro i hi
        have := List.mem_of_find?_eq_some hi
        rw [List.mem_range'_1] at this
        omega
      · rw [if_neg (by omega), firstMatch_long pat t.bytes (by omega)]
        rfl

open Verif.Spec.StreamString (Allowed AllAllowed) in
theorem run_ok : ∀ (ops : List Op) {b t}, Holds b t → AllAllowed t ops →
    ∃ b', run b ops = some ((Verif.Spec.StreamString.run t ops).1, b') ∧
      Holds b' (Verif.Spec.StreamString.run t ops).2
  | [], b, t, h, _ => ⟨b, rfl, h⟩
  | op :: ops, b, t, h, ha => by
    obtain ⟨b1, e1, h1⟩ := step_ok h op ha.1
    obtain ⟨b2, e2, h2⟩ := run_ok ops h1 ha.2
    exact ⟨b2, by simp only [run, e1, e2]; rfl, h2⟩

end Verif.Proof.StreamString
