import Verif.Model.MultiBuffer

/-!
# C31: multi-buffer brokers

Specification: reading (or writing) `size` bytes from a ring of `max` bytes starting at position `start` pairs the byte `k` of the
function memory with the position `(start + k) mod max` of the ring.
-/

namespace Verif.Spec.MultiBuffer

def walk (max start : Int) (size : Nat) : List (Nat × Int) := (List.range size).map fun k => (k, (start + (k : Int)) % max)

/-- Some access is outside the ring. -/
def OutOfRing (max : Int) (l : List (Nat × Int)) : Prop := ∃ p ∈ l, p.2 < 0 ∨ max ≤ p.2

end Verif.Spec.MultiBuffer

namespace Verif.Props

open Verif.MultiBuffer
open Verif.Spec.MultiBuffer (walk OutOfRing)

private def ring (max : Int) (g : Nat) (start : Int) (n : Nat) : List (Nat × Int) :=
  (List.range n).map fun k => (g + k, (start + (k : Int)) % max)

private theorem ring_append (max : Int) (g : Nat) (start : Int) (a b : Nat) :
    ring max g start (a + b) = ring max g start a ++ ring max (g + a) (start + a) b := by
  unfold ring
  rw [List.range_add, List.map_append, List.map_map]
  congr 1
  apply List.map_congr_left
  intro k _
  simp only [Function.comp, Prod.mk.injEq]
  exact ⟨by omega, by rw [Int.natCast_add, Int.add_assoc]⟩

private theorem ring_shift (max : Int) (g : Nat) (start : Int) (j : Int) (n : Nat) :
    ring max g (start + j * max) n = ring max g start n := by
  unfold ring
  apply List.map_congr_left
  intro k _
  simp only [Prod.mk.injEq, true_and]
  have : start + j * max + (k : Int) = (start + k) + max * j := by rw [Int.mul_comm]; omega
  rw [this, Int.add_mul_emod_self_left]

private theorem chunk_ring (max : Int) (g : Nat) (p : Int) (n : Nat) (h0 : 0 ≤ p) (h1 : p + n ≤ max) :
    accesses [⟨g, p, n⟩] = ring max g p n := by
  simp only [accesses, List.flatMap_cons, List.flatMap_nil, List.append_nil, ring]
  apply List.map_congr_left
  intro k hk
  have := List.mem_range.mp hk
  rw [Int.emod_eq_of_lt (by omega) (by omega)]

private theorem accesses_append (a b : List Chunk) : accesses (a ++ b) = accesses a ++ accesses b := by simp [accesses]
private theorem accesses_cons (a : Chunk) (b : List Chunk) : accesses (a :: b) = accesses [a] ++ accesses b := by simp [accesses]

private theorem full_ring (max : Int) (hm : 0 < max) : ∀ (z g : Nat), accesses (fullCopies max 0 z g) = ring max g 0 (z * max.toNat) := by
  intro z
  induction z with
  | zero => intro g; simp [fullCopies, accesses, ring]
  | succ z ih =>
    intro g
    rw [fullCopies, accesses_cons, ih, chunk_ring max g 0 max.toNat (by omega) (by omega)]
    have e : (z + 1) * max.toNat = max.toNat + z * max.toNat := by rw [Nat.succ_mul]; omega
    rw [e, ring_append]
    congr 1
    have := ring_shift max (g + max.toNat) 0 1 (z * max.toNat)
    rw [← this]; congr 1; omega

private theorem walk_eq (max start : Int) (n : Nat) : walk max start n = ring max 0 start n := by simp [walk, ring]

/-- The reduced offset. -/
private theorem wrapDown_spec (max co : Int) (hm : 0 < max) : ∀ (f : Nat) (off : Int), 0 ≤ co + off → (co + off).toNat < f →
    (wrapDown max co f off).1 = (co + off) % max - co ∧ (wrapDown max co f off).2 = decide (max ≤ co + off) := by
  intro f
  induction f with
  | zero => intro off _ h; omega
  | succ f ih =>
    intro off h0 h1
    simp only [wrapDown]
    split
    · rename_i h
      have := (ih (off - max) (by omega) (by omega)).1
      refine ⟨?_, by simp; omega⟩
      simp only
      rw [this]
      have e : co + (off - max) = (co + off) - max := by omega
      rw [e, Int.sub_emod_right]
    · refine ⟨?_, by simp; omega⟩
      simp only
      rw [Int.emod_eq_of_lt h0 (by omega)]; omega

private theorem copyChunks_eq (max co size off : Int) (hm : 0 < max) (h : 0 ≤ co + off) :
    copyChunks max co size off = pieces max co size ((co + off) % max - co) (decide (max ≤ co + off)) := by
  have := wrapDown_spec max co hm ((co + off).toNat + 1) off h (by omega)
  unfold copyChunks
  rw [this.1, this.2]

/-- The sizes computed in terms of quotient and remainder. -/
private theorem sizes (max size : Int) (hm : 0 < max) (hs : 0 ≤ size) :
    (size < max → overSize max size = size ∧ numberOfFullCopies max size = 0) ∧
    (max ≤ size → overSize max size = size % max + max ∧ numberOfFullCopies max size = size / max - 1 ∧ 1 ≤ size / max) := by
  have hdm : size - size % max = max * (size / max) := by have := Int.mul_ediv_add_emod size max; omega
  have hzero : (size - overSize0 max size) % max = 0 := by unfold overSize0; rw [hdm]; exact Int.mul_emod_right _ _
  have hq : (size - overSize0 max size) / max = size / max := by
    unfold overSize0; rw [hdm]; exact Int.mul_ediv_cancel_left _ (by omega)
  have hmod := Int.emod_lt_of_pos size hm
  have hmod0 := Int.emod_nonneg size (show max ≠ 0 by omega)
  refine ⟨fun h => ?_, fun h => ?_⟩
  · have e : size % max = size := Int.emod_eq_of_lt hs h
    have hi : isMultiple max size = false := by simp [isMultiple, overSize0, e]
    have hd : size / max = 0 := Int.ediv_eq_zero_of_lt hs h
    unfold overSize numberOfFullCopies
    rw [hi, hq, hd]; simp [overSize0, e]
  · have hi : isMultiple max size = true := by
      unfold isMultiple; rw [hzero]; simp [overSize0]; omega
    have h1 : 1 ≤ size / max := by
      have := (Int.le_ediv_iff_mul_le (a := 1) (b := size) hm).mpr (by omega)
      exact this
    unfold overSize numberOfFullCopies
    rw [hi, hq]; simp only [if_true, overSize0]; simp; exact h1

/-- C31: for a whole signal (no copy offset), starting at any offset inside the ring, for copies not larger than the ring, and for larger
ones as long as the offset and the remainder fit in the ring: the bytes moved are exactly those met walking the ring. -/
theorem c31_ring_walk_partial (max size off : Int) (hm : 0 < max) (hs : 0 ≤ size) (ho : 0 ≤ off) (hlt : off < max)
    (hfit : size ≤ max ∨ off + size % max ≤ max) :
    accesses (copyChunks max 0 size off) = walk max off size.toNat := by
  have hm0 := Int.emod_nonneg size (show max ≠ 0 by omega)
  rw [copyChunks_eq max 0 size off hm (by omega), walk_eq]
  simp only [Int.zero_add, Int.sub_zero, Int.emod_eq_of_lt ho hlt]
  have hd : decide (max ≤ off) = false := by simp; omega
  rw [hd]
  unfold pieces
  simp only [Int.zero_add, Bool.false_eq_true, not_false_eq_true, true_and]
  by_cases hc : size > max - off
  · rw [if_pos hc]
    by_cases hlt' : size < max
    · obtain ⟨e1, e2⟩ := (sizes max size hm hs).1 hlt'
      rw [e1, e2, if_pos hc]
      simp only [Int.toNat_zero, fullCopies, List.nil_append, Nat.zero_mul, Nat.add_zero, Int.mul_zero, Int.sub_zero]
      rw [accesses_cons, chunk_ring max 0 off _ ho (by omega), chunk_ring max _ 0 _ (by omega) (by omega)]
      have e : size.toNat = (max - off).toNat + (size - (max - off)).toNat := by omega
      rw [e, ring_append]
      congr 1
      have := ring_shift max (max - off).toNat 0 1 (size - (max - off)).toNat
      rw [Nat.zero_add, ← this]; congr 1; omega
    · obtain ⟨e1, e2, e3⟩ := (sizes max size hm hs).2 (by omega)
      have hdm := Int.mul_ediv_add_emod size max
      generalize hq : size / max = q at *
      obtain ⟨z, rfl⟩ : ∃ z : Nat, q = (z : Int) + 1 := ⟨(q - 1).toNat, by omega⟩
      have hz : ((z : Int) + 1 - 1).toNat = z := by omega
      have hz' : ((z : Int) + 1 - 1) = z := by omega
      have hexp : max * ((z : Int) + 1) = max * z + max := by rw [Int.mul_add, Int.mul_one]
      have hcast : ((z * max.toNat : Nat) : Int) = max * z := by
        rw [Int.natCast_mul, Int.mul_comm, Int.toNat_of_nonneg (by omega)]
      have hzm : 0 ≤ max * (z : Int) := Int.mul_nonneg (by omega) (by omega)
      rw [e1, e2, hz, hz']
      by_cases hp : size % max + max > max - off
      · rw [if_pos hp]
        have hr : off + size % max ≤ max := by
          rcases hfit with h | h
          · have hsz : size = max := by omega
            rw [hsz, Int.emod_self]; omega
          · exact h
        rw [accesses_cons, accesses_append, chunk_ring max 0 off _ ho (by omega), full_ring max hm,
          chunk_ring max _ 0 _ (by omega) (by omega)]
        have e : size.toNat = (max - off).toNat + (z * max.toNat + (size - max * z - (max - off)).toNat) := by omega
        rw [e, ring_append, ring_append]
        congr 1
        have s1 : ∀ g n, ring max g (off + ((max - off).toNat : Int)) n = ring max g 0 n := fun g n => by
          have := ring_shift max g 0 1 n
          rw [← this]; congr 1; omega
        have s2 : ∀ g n, ring max g (off + ((max - off).toNat : Int) + ((z * max.toNat : Nat) : Int)) n = ring max g 0 n := fun g n => by
          have := ring_shift max g 0 (1 + z) n
          rw [← this]; congr 1
          rw [hcast, Int.add_mul, Int.mul_comm (z : Int) max]; omega
        rw [s1, s2, Nat.zero_add]
      · rw [if_neg hp]
        have h0 : off = 0 := by omega
        subst h0
        rw [accesses_append, full_ring max hm, chunk_ring max _ 0 _ (by omega) (by omega)]
        have e : size.toNat = z * max.toNat + (size - max * z).toNat := by omega
        rw [e, ring_append]
        congr 1
        have := ring_shift max (0 + z * max.toNat) 0 z (size - max * z).toNat
        rw [Nat.zero_add] at *
        rw [← this, Int.zero_add]
        congr 1
        rw [hcast, Int.mul_comm, Int.zero_add]
  · rw [if_neg hc, chunk_ring max 0 off _ ho (by omega)]

/-- C31: a copy at any copy offset, for any offset of the data source, that does not cross the end of the ring (the copies of part of an
element of the signal never do: `c31_element_does_not_cross`) moves exactly the bytes of the ring. -/
theorem c31_inside_ring_partial (max co size off : Int) (hm : 0 < max) (hs : 0 ≤ size) (hc : 0 ≤ co) (ho : 0 ≤ off)
    (hfit : (co + off) % max + size ≤ max) :
    accesses (copyChunks max co size off) = walk max (co + off) size.toNat := by
  have hm0 := Int.emod_nonneg (co + off) (show max ≠ 0 by omega)
  rw [copyChunks_eq max co size off hm (by omega), walk_eq]
  unfold pieces
  rw [if_neg (by omega)]
  have e : co + ((co + off) % max - co) = (co + off) % max := by omega
  rw [e, chunk_ring max 0 _ _ hm0 (by omega)]
  have := ring_shift max 0 ((co + off) % max) ((co + off) / max) size.toNat
  rw [← this]
  congr 1
  have := Int.mul_ediv_add_emod (co + off) max
  rw [Int.mul_comm]; omega

/-- C31: ranges that stay inside an element never cross the end: an element of `es` bytes, a ring of `nb` elements, a range
`[start, start + size)` of an element, sample `h`, and an offset that is a whole number of elements. -/
theorem c31_element_does_not_cross (es nb h o start size : Int) (he : 0 < es) (hnb : 0 < nb) (hst : 0 ≤ start) (hs : 0 ≤ size)
    (hin : start + size ≤ es) :
    (start + h * es + o * es) % (nb * es) + size ≤ nb * es := by
  have hpos : 0 < nb * es := Int.mul_pos hnb he
  have e1 : start + h * es + o * es = start + es * (h + o) := by rw [Int.mul_add, Int.mul_comm es h, Int.mul_comm es o]; omega
  by_cases hsz : start = es
  · have : size = 0 := by omega
    subst this
    have := Int.emod_lt_of_pos (start + h * es + o * es) hpos
    omega
  · have hlt : start < es := by omega
    have hkey : (start + es * (h + o)) % (nb * es) = start + es * ((h + o) % nb) := by
      have hdm := Int.mul_ediv_add_emod (h + o) nb
      have h1 := Int.emod_nonneg (h + o) (show nb ≠ 0 by omega)
      have h2 := Int.emod_lt_of_pos (h + o) hnb
      have e : start + es * (h + o) = (start + es * ((h + o) % nb)) + (nb * es) * ((h + o) / nb) := by
        have : es * (h + o) = es * (nb * ((h + o) / nb) + (h + o) % nb) := by rw [hdm]
        rw [this, Int.mul_add, ← Int.mul_assoc, Int.mul_comm es nb]; omega
      rw [e, Int.add_mul_emod_self_left]
      apply Int.emod_eq_of_lt
      · have := Int.mul_nonneg (Int.le_of_lt he) h1; omega
      · have h3 : es * ((h + o) % nb + 1) ≤ es * nb := Int.mul_le_mul_of_nonneg_left (by omega) (by omega)
        rw [Int.mul_add, Int.mul_one, Int.mul_comm es nb] at h3
        omega
    have h1 := Int.emod_nonneg (h + o) (show nb ≠ 0 by omega)
    have h2 := Int.emod_lt_of_pos (h + o) hnb
    have h3 : es * ((h + o) % nb + 1) ≤ es * nb := Int.mul_le_mul_of_nonneg_left (by omega) (by omega)
    rw [Int.mul_add, Int.mul_one, Int.mul_comm es nb] at h3
    rw [e1, hkey]; omega

/-- Both theorems above give accesses inside the ring. -/
theorem c31_walk_in_ring (max start : Int) (n : Nat) (hm : 0 < max) : ¬ OutOfRing max (walk max start n) := by
  rintro ⟨p, hp, h⟩
  simp only [walk, List.mem_map] at hp
  obtain ⟨k, _, rfl⟩ := hp
  have h1 := Int.emod_nonneg (start + k) (show max ≠ 0 by omega)
  have h2 := Int.emod_lt_of_pos (start + k) hm
  simp only at h; omega

private theorem last_out (max : Int) (l : List Chunk) (c : Chunk) (hc : c ∈ l) (hs : 0 < c.size) (h : max < c.ds + c.size) :
    OutOfRing max (accesses l) := by
  refine ⟨(c.gam + (c.size - 1), c.ds + ((c.size - 1 : Nat) : Int)), ?_, Or.inr ?_⟩
  · simp only [accesses, List.mem_flatMap, List.mem_map, List.mem_range]
    exact ⟨c, hc, c.size - 1, by omega, rfl⟩
  · simp only; omega

/-- C31, disagreement: a copy larger than the ring whose offset and remainder do not fit leaves the ring (the condition of
`c31_ring_walk_partial` is necessary). -/
theorem c31_large_copy_leaves_ring (max size off : Int) (hm : 0 < max) (ho : 0 ≤ off) (hlt : off < max) (hs : max < size)
    (hnofit : max < off + size % max) : OutOfRing max (accesses (copyChunks max 0 size off)) := by
  obtain ⟨e1, e2, e3⟩ := (sizes max size hm (by omega)).2 (by omega)
  have hmod := Int.emod_lt_of_pos size hm
  rw [copyChunks_eq max 0 size off hm (by omega)]
  simp only [Int.zero_add, Int.sub_zero, Int.emod_eq_of_lt ho hlt]
  have hd : decide (max ≤ off) = false := by simp; omega
  rw [hd]
  unfold pieces
  simp only [Int.zero_add, Bool.false_eq_true, not_false_eq_true, true_and]
  rw [if_pos (by omega), e1, if_pos (by omega)]
  have hdm := Int.mul_ediv_add_emod size max
  have hq : max * (size / max - 1) = max * (size / max) - max := by rw [Int.mul_sub, Int.mul_one]
  refine last_out max _ ⟨(max - off).toNat + (numberOfFullCopies max size).toNat * max.toNat, 0, (size - max * numberOfFullCopies max size - (max - off)).toNat⟩
    (by simp) ?_ ?_
  · simp only [e2]; omega
  · simp only [e2]; omega

/-- C31, disagreement: with a copy offset, a copy that crosses the end of the ring leaves it. -/
theorem c31_copy_offset_leaves_ring (max co size off : Int) (hm : 0 < max) (hco : 0 < co) (ho : 0 ≤ off) (hlt : co + off < max)
    (hcross : max < co + off + size) : OutOfRing max (accesses (copyChunks max co size off)) := by
  have hmod0 := Int.emod_nonneg size (show max ≠ 0 by omega)
  have hover : overSize max size > max - (co + off) := by
    by_cases h : size < max
    · rw [((sizes max size hm (by omega)).1 h).1]; omega
    · rw [((sizes max size hm (by omega)).2 (by omega)).1]; omega
  rw [copyChunks_eq max co size off hm (by omega), Int.emod_eq_of_lt (by omega) hlt]
  have hd : decide (max ≤ co + off) = false := by simp; omega
  have ho' : co + off - co = off := by omega
  rw [hd, ho']
  unfold pieces
  simp only [Bool.false_eq_true, not_false_eq_true, true_and]
  rw [if_pos (by omega), if_pos hover]
  refine last_out max _ ⟨0, co + off, (max - off).toNat⟩ (by simp) ?_ ?_ <;> simp only <;> omega

/-- C31, disagreement: when the data source gives an offset beyond the end of the ring, crossing the end is not handled at all. -/
theorem c31_wrapped_offset_leaves_ring (max size off : Int) (hm : 0 < max) (ho : max ≤ off) (hcross : max < off % max + size) :
    OutOfRing max (accesses (copyChunks max 0 size off)) := by
  have h0 := Int.emod_nonneg off (show max ≠ 0 by omega)
  have h1 := Int.emod_lt_of_pos off hm
  rw [copyChunks_eq max 0 size off hm (by omega)]
  simp only [Int.zero_add, Int.sub_zero]
  have hd : decide (max ≤ off) = true := by simp; omega
  rw [hd]
  unfold pieces
  simp only [not_true_eq_false, false_and, if_false, Int.zero_add]
  refine last_out max _ ⟨0, off % max, size.toNat⟩ (by simp) ?_ ?_ <;> simp only <;> omega

/-! A ring of 10 bytes read from offset 7: 6 bytes are 7 8 9 0 1 2; 25 bytes from 5 wrap twice; 18 bytes from 5 fail. -/
example : copyChunks 10 0 6 7 = [⟨0, 7, 3⟩, ⟨3, 0, 3⟩] := by decide
example : copyChunks 10 0 25 5 = [⟨0, 5, 5⟩, ⟨5, 0, 10⟩, ⟨15, 0, 10⟩] := by decide
example : copyChunks 10 0 18 5 = [⟨0, 5, 5⟩, ⟨5, 0, 13⟩] := by decide
example : accesses (copyChunks 10 0 6 7) = walk 10 7 6 := by decide

end Verif.Props
