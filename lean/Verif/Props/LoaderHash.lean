import Verif.Model.LoaderHash
import Verif.Spec.LoaderHash
/-!
# C112: configurations protected by a hash
-/
set_option linter.unusedVariables false
namespace Verif.LoaderHash
open Verif.Spec.LoaderHash Verif.Spec.CRC

private theorem memoryOf_eq (x : BitVec 32) : memoryOf x = littleEndian x := by
  have key : ∀ i, x.extractLsb' (8 * i) 8 = BitVec.ofNat 8 (x.toNat / 256 ^ i) := by
    intro i
    apply BitVec.eq_of_toNat_eq
    rw [BitVec.extractLsb'_toNat, BitVec.toNat_ofNat, Nat.shiftRight_eq_div_pow, Nat.pow_mul]
  simp only [memoryOf, littleEndian, List.range, List.range.loop, List.map_cons, List.map_nil]
  rw [← key 0, ← key 1, ← key 2, ← key 3]

private theorem map_getD (l : List (BitVec 8)) : (List.range l.length).map (fun b : Nat => l.getD ((b : Int).toNat) 0) = l := by
  apply List.ext_getElem
  · simp
  · intro i h1 h2
    simp [List.getD_eq_getElem?_getD, h2]

private theorem len4 (x : BitVec 32) : (littleEndian x).length = 4 := rfl

/-- **C112.** The hash of a text (below 2 GB) is the remainder of the division by the key of the seed and the text. -/
theorem c112_hash (h : Hash) (text : List (BitVec 8)) (ht : text.length < 2147483644) :
    computeHash h text = hashOf h.key h.lastSeed text := by
  unfold computeHash hashOf
  have hn : (littleEndian h.lastSeed ++ text).length < 2147483648 := by rw [List.length_append, len4]; omega
  have hn' : loopSize (littleEndian h.lastSeed ++ text).length = (littleEndian h.lastSeed ++ text).length := if_pos hn
  rw [memoryOf_eq]
  simp only
  rw [hn', CRC.c12_crc_table_is_division (by decide)]
  simp only [Bool.false_eq_true, if_false]
  rw [map_getD]

private theorem run_append (h : Hash) (a b : List Op) : (run h (a ++ b)).1 = (run h a).1 ++ (run (run h a).2 b).1 := by
  induction a generalizing h with
  | nil => rfl
  | cons op a ih => simp only [List.cons_append, run, ih]

private theorem run_length (h : Hash) (a : List Op) : (run h a).1.length = a.length := by
  induction a generalizing h with
  | nil => rfl
  | cons op a ih => simp only [run, List.length_cons, ih]

private theorem key_kept (h : Hash) (a : List Op) : (run h a).2.key = h.key := by
  induction a generalizing h with
  | nil => rfl
  | cons op a ih => rw [run]; simp only; rw [ih]; cases op <;> rfl

private theorem seed_kept (h : Hash) (a : List Op) (ho : ∀ op ∈ a, ∃ t x, op = .offer t x) : (run h a).2 = h := by
  induction a generalizing h with
  | nil => rfl
  | cons op a ih =>
    obtain ⟨t, x, rfl⟩ := ho op List.mem_cons_self
    rw [run]; simp only [step]
    exact ih h (fun o ho' => ho o (List.mem_cons_of_mem _ ho'))

/-- **C112.** In every sequence of calls a configuration is accepted if and only if the hash that is offered with it is the one of
its text with the last seed that was given, whatever was called before and offered in between. -/
theorem c112_accepted_iff (h : Hash) (before tries : List Op) (c : BitVec 64) (text : List (BitVec 8)) (x : BitVec 32) (after : List Op)
    (ho : ∀ op ∈ tries, ∃ t y, op = .offer t y) (ht : text.length < 2147483644) :
    (run h (before ++ [.seed c] ++ tries ++ [.offer text x] ++ after)).1[before.length]? = some (.seed (c.setWidth 32)) ∧
    ((run h (before ++ [.seed c] ++ tries ++ [.offer text x] ++ after)).1[before.length + 1 + tries.length]? = some (.reply .goesOn) ↔
      x = hashOf h.key (c.setWidth 32) text) := by
  have e : before ++ [Op.seed c] ++ tries ++ [Op.offer text x] ++ after = before ++ (Op.seed c :: (tries ++ (Op.offer text x :: after))) := by
    simp
  rw [e, run_append]
  generalize hh : (run h before).2 = h1
  have hk : h1.key = h.key := by rw [← hh]; exact key_kept h before
  have hs := seed_kept (step h1 (.seed c)).2 tries ho
  constructor
  · rw [List.getElem?_append_right (by rw [run_length]; omega), run_length]
    simp [run, step, getSeed]
  · rw [List.getElem?_append_right (by rw [run_length]; omega), run_length]
    have e2 : before.length + 1 + tries.length - before.length = tries.length + 1 := by omega
    rw [e2, run]
    simp only [List.getElem?_cons_succ]
    rw [run_append, List.getElem?_append_right (by rw [run_length]; omega), run_length, Nat.sub_self, hs, run]
    have hH : computeHash (step h1 (.seed c)).2 text = hashOf h.key (c.setWidth 32) text := by
      rw [c112_hash _ _ ht, ← hk]; rfl
    have hstep : ∀ g : Hash, (step g (.offer text x)).1 = .reply .goesOn ↔ computeHash g text = x := by
      intro g
      by_cases hx : computeHash g text = x <;> simp [step, offer, hx]
    simp only [List.getElem?_cons_zero, Option.some.injEq]
    rw [hstep, hH]
    exact ⟨Eq.symm, Eq.symm⟩

/-! ## What the hash protects from -/

private def Agree {w : Nat} (m : Nat) (a b : BitVec w) : Prop := ∀ i, i < m → a.getLsbD i = b.getLsbD i

/-- One step back: the registers agree in one bit less, and what is fed back is the same. -/
private theorem step_back {w : Nat} (hw : 1 ≤ w) (pol a b : BitVec w) (x y : Bool) (hp : pol.getLsbD 0 = true) (m : Nat)
    (hm : m + 1 ≤ w) (h : Agree (m + 1) (bitStep pol a x) (bitStep pol b y)) :
    Agree m a b ∧ (a.msb ^^ x) = (b.msb ^^ y) := by
  have bit : ∀ (r : BitVec w) (z : Bool) (i : Nat), (bitStep pol r z).getLsbD i =
      ((decide (i < w) && !decide (i < 1) && r.getLsbD (i - 1)) ^^ ((r.msb ^^ z) && pol.getLsbD i)) := by
    intro r z i
    unfold bitStep
    rw [BitVec.getLsbD_xor, BitVec.getLsbD_shiftLeft]
    cases r.msb ^^ z <;> simp
  have h0 : (a.msb ^^ x) = (b.msb ^^ y) := by
    have := h 0 (by omega)
    rw [bit, bit, hp] at this
    simpa using this
  refine ⟨?_, h0⟩
  intro i hi
  have := h (i + 1) (by omega)
  rw [bit, bit, h0] at this
  have e1 : decide (i + 1 < w) = true := decide_eq_true (by omega)
  have e2 : decide (i + 1 < 1) = false := decide_eq_false (by omega)
  rw [e1, e2] at this
  simp only [Bool.not_false, Bool.and_self, Bool.true_and, Nat.add_sub_cancel] at this
  revert this
  generalize ((b.msb ^^ y) && pol.getLsbD (i + 1)) = q
  cases a.getLsbD i <;> cases b.getLsbD i <;> cases q <;> simp

private theorem back {w : Nat} (hw : 1 ≤ w) (pol : BitVec w) (hp : pol.getLsbD 0 = true) : ∀ (d d' : List Bool) (a b : BitVec w) (m : Nat),
    d.length = d'.length → d.length + m ≤ w → Agree (d.length + m) (d.foldl (bitStep pol) a) (d'.foldl (bitStep pol) b) → Agree m a b
  | [], [], a, b, m, _, _, h => by simpa using h
  | x :: d, y :: d', a, b, m, hl, hm, h => by
    simp only [List.length_cons] at hl hm h
    have := back hw pol hp d d' (bitStep pol a x) (bitStep pol b y) (m + 1) (by omega) (by omega)
      (by rw [show d.length + (m + 1) = d.length + 1 + m by omega]; exact h)
    exact (step_back hw pol a b x y hp m (by omega) this).1

/-- As many bits as the register has can be recovered. -/
private theorem bits_of_register {w : Nat} (hw : 1 ≤ w) (pol : BitVec w) (hp : pol.getLsbD 0 = true) : ∀ (d d' : List Bool) (a : BitVec w),
    d.length = d'.length → d.length ≤ w → d.foldl (bitStep pol) a = d'.foldl (bitStep pol) a → d = d'
  | [], [], _, _, _, _ => rfl
  | x :: d, y :: d', a, hl, hm, h => by
    simp only [List.length_cons] at hl hm
    have h1 : Agree 1 (bitStep pol a x) (bitStep pol a y) :=
      back hw pol hp d d' _ _ 1 (by omega) hm (by
        intro i _
        show (List.foldl _ (bitStep pol a x) d).getLsbD i = (List.foldl _ (bitStep pol a y) d').getLsbD i
        rw [List.foldl_cons, List.foldl_cons] at h; rw [h])
    have hx : (a.msb ^^ x) = (a.msb ^^ y) := (step_back hw pol a a x y hp 0 (by omega) h1).2
    have hxy : x = y := by revert hx; cases a.msb <;> cases x <;> cases y <;> simp
    subst hxy
    rw [bits_of_register hw pol hp d d' (bitStep pol a x) (by omega) (by omega) h]

private theorem register_of_end {w : Nat} (hw : 1 ≤ w) (pol : BitVec w) (hp : pol.getLsbD 0 = true) : ∀ (d : List Bool) (a b : BitVec w),
    d.foldl (bitStep pol) a = d.foldl (bitStep pol) b → a = b
  | [], _, _, h => h
  | x :: d, a, b, h => by
    have h1 := register_of_end hw pol hp d (bitStep pol a x) (bitStep pol b x) h
    obtain ⟨m, rfl⟩ : ∃ m, w = m + 1 := ⟨w - 1, by omega⟩
    obtain ⟨h2, h3⟩ := step_back hw pol a b x x hp m (Nat.le_refl _) (fun i _ => by rw [h1])
    have h4 : a.msb = b.msb := by revert h3; cases a.msb <;> cases b.msb <;> cases x <;> simp
    apply BitVec.eq_of_getLsbD_eq
    intro i hi
    by_cases him : i < m
    · exact h2 i him
    · have : i = m := by omega
      subst this
      rw [BitVec.msb_eq_getLsbD_last, BitVec.msb_eq_getLsbD_last] at h4
      exact h4

private theorem bits_inj (a b : BitVec 8) (h : bitsMsbFirst a = bitsMsbFirst b) : a = b := by
  simp only [bitsMsbFirst, List.cons.injEq, and_true] at h
  obtain ⟨h7, h6, h5, h4, h3, h2, h1, h0⟩ := h
  apply BitVec.eq_of_getLsbD_eq
  intro i hi
  have : i = 0 ∨ i = 1 ∨ i = 2 ∨ i = 3 ∨ i = 4 ∨ i = 5 ∨ i = 6 ∨ i = 7 := by omega
  rcases this with rfl | rfl | rfl | rfl | rfl | rfl | rfl | rfl <;> assumption

private theorem flat_len (l : List (BitVec 8)) : (l.flatMap bitsMsbFirst).length = 8 * l.length := by
  induction l with
  | nil => rfl
  | cons a l ih => rw [List.flatMap_cons, List.length_append, ih, List.length_cons]; show 8 + _ = _; omega

private theorem flat_inj : ∀ (a b : List (BitVec 8)), a.length = b.length → a.flatMap bitsMsbFirst = b.flatMap bitsMsbFirst → a = b
  | [], [], _, _ => rfl
  | x :: a, y :: b, hl, h => by
    rw [List.flatMap_cons, List.flatMap_cons] at h
    obtain ⟨h1, h2⟩ := List.append_inj h rfl
    rw [bits_inj x y h1, flat_inj a b (by simpa using hl) h2]

private theorem burst (key init : BitVec 32) (hk : key.getLsbD 0 = true) (t t' : List (BitVec 8)) (h : ChangedInFour t t') :
    crc key init t ≠ crc key init t' := by
  obtain ⟨pre, a, a', post, rfl, rfl, hl, h4, hne⟩ := h
  intro he
  unfold crc at he
  simp only [List.flatMap_append, List.foldl_append] at he
  have h1 := register_of_end (by decide) key hk _ _ _ he
  exact hne (flat_inj a a' hl (bits_of_register (by decide) key hk _ _ _ (by rw [flat_len, flat_len, hl])
    (by rw [flat_len]; omega) h1))

/-- **C112.** With an odd key, a text that was changed in four bytes that follow each other, or fewer, has another hash: with
the hash of the text as it was it is refused. -/
theorem c112_changed (h : Hash) (hk : h.key.getLsbD 0 = true) (t t' : List (BitVec 8)) (hc : ChangedInFour t t')
    (hl : t.length < 2147483644) : ∃ y, offer h t' (computeHash h t) = .refused y (computeHash h t) := by
  have hl' : t'.length < 2147483644 := by
    obtain ⟨pre, a, a', post, rfl, rfl, e, -⟩ := hc
    simp only [List.length_append] at hl ⊢; omega
  refine ⟨computeHash h t', ?_⟩
  unfold offer
  rw [if_pos]
  rw [c112_hash h t hl, c112_hash h t' hl']
  refine (burst h.key 0 hk _ _ ?_).symm
  obtain ⟨pre, a, a', post, rfl, rfl, e⟩ := hc
  exact ⟨littleEndian h.lastSeed ++ pre, a, a', post, by simp, by simp, e⟩

private theorem le_inj (s s' : BitVec 32) (h : littleEndian s = littleEndian s') : s = s' := by
  have hb : ∀ i, i < 4 → s.toNat / 256 ^ i % 256 = s'.toNat / 256 ^ i % 256 := by
    intro i hi
    have := congrArg (fun l => (l.getD i 0).toNat) h
    simp only [littleEndian] at this
    have e : i = 0 ∨ i = 1 ∨ i = 2 ∨ i = 3 := by omega
    rcases e with rfl | rfl | rfl | rfl <;>
      simpa [List.range, List.range.loop, List.getD_eq_getElem?_getD, BitVec.toNat_ofNat] using this
  have h0 := hb 0 (by omega); have h1 := hb 1 (by omega); have h2 := hb 2 (by omega); have h3 := hb 3 (by omega)
  simp only [Nat.reducePow] at h0 h1 h2 h3
  have := s.isLt; have := s'.isLt
  apply BitVec.eq_of_toNat_eq
  omega

/-- **C112.** With an odd key, the hash for a seed is refused for the same text with any other seed. -/
theorem c112_fresh (key s s' : BitVec 32) (hk : key.getLsbD 0 = true) (hs : s ≠ s') (t : List (BitVec 8)) (hl : t.length < 2147483644) :
    ∃ y, offer ⟨key, s'⟩ t (computeHash ⟨key, s⟩ t) = .refused y (computeHash ⟨key, s⟩ t) := by
  refine ⟨computeHash ⟨key, s'⟩ t, ?_⟩
  unfold offer
  rw [if_pos]
  rw [c112_hash ⟨key, s⟩ t hl, c112_hash ⟨key, s'⟩ t hl]
  exact burst key 0 hk _ _ ⟨[], littleEndian s', littleEndian s, t, rfl, rfl, rfl, Nat.le_refl _, fun h => hs (le_inj _ _ h).symm⟩

/-! ## What it does not protect from -/

private theorem xor_swap {w : Nat} (a b c d : BitVec w) : (a ^^^ b) ^^^ (c ^^^ d) = (a ^^^ c) ^^^ (b ^^^ d) := by
  apply BitVec.eq_of_getLsbD_eq
  intro i _
  simp only [BitVec.getLsbD_xor]
  cases a.getLsbD i <;> cases b.getLsbD i <;> cases c.getLsbD i <;> cases d.getLsbD i <;> rfl

private theorem bitStep_xor {w : Nat} (pol a b : BitVec w) (x y : Bool) :
    bitStep pol (a ^^^ b) (x ^^ y) = bitStep pol a x ^^^ bitStep pol b y := by
  unfold bitStep
  rw [BitVec.shiftLeft_xor_distrib, BitVec.msb_xor, xor_swap]
  congr 1
  cases a.msb <;> cases b.msb <;> cases x <;> cases y <;> simp

private theorem fold_xor {w : Nat} (pol : BitVec w) : ∀ (d e : List Bool) (a b : BitVec w), d.length = e.length →
    (d.zipWith (· ^^ ·) e).foldl (bitStep pol) (a ^^^ b) = d.foldl (bitStep pol) a ^^^ e.foldl (bitStep pol) b
  | [], [], _, _, _ => rfl
  | x :: d, y :: e, a, b, h => by
    simp only [List.zipWith_cons_cons, List.foldl_cons]
    rw [bitStep_xor]
    exact fold_xor pol d e _ _ (by simpa using h)

/-- The difference of two remainders for the same data does not depend on where the register begins. -/
private theorem diff {w : Nat} (pol : BitVec w) (d e : List Bool) (h : d.length = e.length) (a b : BitVec w) :
    d.foldl (bitStep pol) a ^^^ e.foldl (bitStep pol) a = d.foldl (bitStep pol) b ^^^ e.foldl (bitStep pol) b := by
  rw [← fold_xor pol d e a a h, ← fold_xor pol d e b b h, BitVec.xor_self, BitVec.xor_self]

/-- **C112 (refuted).** Who does not know the key can have a text accepted for a new seed: it is enough to have seen the hashes of
two texts of the same length for one seed, and that of one of them for the new seed. -/
theorem c112_forgery_fails (key s s' : BitVec 32) (t t' : List (BitVec 8)) (hl : t.length = t'.length) (ht : t.length < 2147483644) :
    offer ⟨key, s'⟩ t' (computeHash ⟨key, s⟩ t ^^^ computeHash ⟨key, s⟩ t' ^^^ computeHash ⟨key, s'⟩ t) = .goesOn := by
  unfold offer
  rw [if_neg]
  rw [Decidable.not_not]
  rw [c112_hash _ t ht, c112_hash _ t ht, c112_hash _ t' (by omega), c112_hash _ t' (by omega)]
  simp only [hashOf, crc, List.flatMap_append, List.foldl_append]
  generalize (List.foldl (bitStep key) 0#32 ((littleEndian s).flatMap bitsMsbFirst)) = a
  generalize (List.foldl (bitStep key) 0#32 ((littleEndian s').flatMap bitsMsbFirst)) = b
  rw [diff key (t.flatMap bitsMsbFirst) (t'.flatMap bitsMsbFirst) (by rw [flat_len, flat_len, hl]) a b]
  generalize (List.foldl (bitStep key) b (t.flatMap bitsMsbFirst)) = p
  generalize (List.foldl (bitStep key) b (t'.flatMap bitsMsbFirst)) = q
  apply BitVec.eq_of_getLsbD_eq
  intro i _
  simp only [BitVec.getLsbD_xor]
  cases p.getLsbD i <;> cases q.getLsbD i <;> rfl

/-- **C112 (refuted).** A refusal tells the hash that would have been accepted; offered next, it is. -/
theorem c112_disclosed_fails (h : Hash) (t : List (BitVec 8)) (x : BitVec 32) : offer h t x = .goesOn ∨
    ∃ y, offer h t x = .refused y x ∧ (run h [.offer t x, .offer t y]).1 = [.reply (.refused y x), .reply .goesOn] := by
  by_cases hx : computeHash h t = x
  · exact .inl (by simp [offer, hx])
  · exact .inr ⟨computeHash h t, by simp [offer, hx], by simp [run, step, offer, hx]⟩

/-- **C112 (refuted).** A hash is accepted again and again until another seed is asked for, and from the beginning for the seed
zero, which nobody was given. -/
theorem c112_replay_fails (h : Hash) (t : List (BitVec 8)) (n : Nat) :
    (run h (List.replicate n (.offer t (computeHash h t)))).1 = List.replicate n (.reply .goesOn) := by
  induction n with
  | zero => rfl
  | succ n ih =>
    rw [List.replicate_succ, run]
    simp only [step, offer, ne_eq, not_true_eq_false, if_false]
    rw [ih, List.replicate_succ]

private theorem zero_fold {w : Nat} : ∀ (d : List Bool), d.foldl (bitStep (0 : BitVec w)) 0 = 0
  | [] => rfl
  | x :: d => by
    rw [List.foldl_cons]
    have : bitStep (0 : BitVec w) 0 x = 0 := by unfold bitStep; simp
    rw [this, zero_fold d]

/-- **C112 (refuted).** With the key zero, which is accepted as any other, all texts have the hash zero. -/
theorem c112_zero_key_fails (s : BitVec 32) (t : List (BitVec 8)) (ht : t.length < 2147483644) :
    create (some 0) = some ⟨0, 0⟩ ∧ offer ⟨0, s⟩ t 0 = .goesOn := by
  refine ⟨rfl, ?_⟩
  unfold offer
  rw [c112_hash _ t ht]
  have : hashOf 0 s t = 0 := zero_fold _
  rw [this]
  simp

/-- A key, a seed and a text: the hash, and its refusal when a byte is changed. -/
example : ((0x04C11DB7 : BitVec 32).getLsbD 0 = true) ∧ ChangedInFour [65#8, 66#8, 67#8] [65#8, 68#8, 67#8] ∧
    hashOf 0x04C11DB7 0x12345678 [65#8] ≠ hashOf 0x04C11DB7 0x12345678 [66#8] := by
  refine ⟨by decide, ⟨[65#8], [66#8], [68#8], [67#8], rfl, rfl, rfl, by decide, by decide⟩, ?_⟩
  exact burst 0x04C11DB7 0 (by decide) _ _ ⟨littleEndian 0x12345678, [65#8], [66#8], [], rfl, rfl, rfl, by decide, by decide⟩

/-- **C112 fails for large texts**: the size is cast to a signed 32-bit number, so a text of 2 GB or more is not read at all, and
all of them have the same hash, whatever the key and the seed. -/
theorem c112_large_fails (h : Hash) (text : List (BitVec 8)) (ht : 2147483644 ≤ text.length) : computeHash h text = 0 := by
  unfold computeHash
  have hn : ¬ (memoryOf h.lastSeed ++ text).length < 2147483648 := by
    rw [memoryOf_eq, List.length_append, len4]; omega
  have hn' : loopSize (memoryOf h.lastSeed ++ text).length = 0 := if_neg hn
  simp only
  rw [hn']
  rfl

end Verif.LoaderHash
