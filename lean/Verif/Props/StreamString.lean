import Verif.Proof.StreamString
/-
C18: a StreamString is a byte sequence with a cursor.
-/
namespace Verif.Props.StreamString
open Verif.Model.StreamString Verif.Spec.StreamString

/-- Every history of allowed calls on a new StreamString stays inside its memory (the
model would give `none` otherwise) and returns exactly the results of the ideal byte
sequence with a cursor; in particular Buffer() always gives the bytes followed by a zero.
Allowed: no backwards relative seek, no `s += s`, no Tail of an empty text, and sizes
below 2^31.  Missing: those calls, for which the claim fails (theorems below). -/
theorem c18_history_partial (ops : List Op) (h : AllAllowed ⟨[], 0⟩ ops) :
    runNew ops = some (Verif.Spec.StreamString.run ⟨[], 0⟩ ops).1 := by
  obtain ⟨b, e, hb⟩ := Verif.Proof.StreamString.create_holds
  obtain ⟨b', e', _⟩ := Verif.Proof.StreamString.run_ok ops hb h
  simp only [runNew, e, e', Option.map_some]

/-- A history crossing a reallocation, with overwriting, truncation and searching. -/
def demo : List Op :=
  [.setStr [65, 66, 67, 0, 9], .append 68, .seek 1, .write [97, 98], .position, .buffer,
   .appendOther (List.replicate 70 90), .size, .setSize 6, .seek 2, .read 10, .position,
   .locate 90, .locateStr [98, 68], .tail 0, .index 3, .relativeSeek 4, .seek 50, .position]

example : AllAllowed ⟨[], 0⟩ demo ∧
    runNew demo = some
      [⟨true, [], 0⟩, ⟨true, [], 0⟩, ⟨true, [], 0⟩, ⟨true, [], 2⟩, ⟨true, [], 3⟩,
       ⟨true, [65, 97, 98, 68, 0], 0⟩, ⟨true, [], 0⟩, ⟨true, [], 74⟩, ⟨true, [], 0⟩,
       ⟨true, [], 0⟩, ⟨true, [98, 68, 90, 90], 4⟩, ⟨true, [], 6⟩, ⟨true, [], 4⟩,
       ⟨true, [], 2⟩, ⟨true, [90], 0⟩, ⟨true, [68], 0⟩, ⟨false, [], 0⟩, ⟨false, [], 0⟩,
       ⟨true, [], 6⟩] := by
  refine ⟨?_, ?_⟩
  · simp [demo, AllAllowed, Allowed, Verif.Spec.StreamString.step, overwrite, added, replaced,
      upToZero]
  · decide +kernel

/-- The position reported after a backwards relative seek is right, but the next read
returns other bytes: the internal pointer is moved back twice.  Text "abcdef", cursor at
4, RelativeSeek(-1), Read(1): the cursor is at 3 and the ideal result is "d"; the code
returns "c". -/
theorem c18_backward_seek_reads_wrong_byte :
    runNew [.setStr [97, 98, 99, 100, 101, 102], .seek 4, .relativeSeek (-1), .position, .read 1]
      = some [⟨true, [], 0⟩, ⟨true, [], 0⟩, ⟨true, [], 0⟩, ⟨true, [], 3⟩, ⟨true, [99], 1⟩] ∧
    (Verif.Spec.StreamString.run ⟨[], 0⟩
      [.setStr [97, 98, 99, 100, 101, 102], .seek 4, .relativeSeek (-1), .position, .read 1]).1
      = [⟨true, [], 0⟩, ⟨true, [], 0⟩, ⟨true, [], 0⟩, ⟨true, [], 3⟩, ⟨true, [100], 1⟩] := by
  decide +kernel

/-- A backwards relative seek by more than half the position makes the next read leave
the allocated memory. -/
theorem c18_backward_seek_leaves_memory :
    runNew [.setStr [97, 98, 99], .relativeSeek (-2), .read 1] = none := by decide +kernel

/-- `s += s` copies from the block that the growth has just released. -/
theorem c18_self_append_use_after_free :
    runNew [.setOther (List.replicate 40 65), .appendSelf] = none := by decide +kernel

/-- Tail(0) of an empty StreamString is a pointer outside the memory, not NULL. -/
theorem c18_tail_of_empty_leaves_memory : runNew [.tail 0] = none := by decide +kernel

/-- SetSize(2^32) empties the text and reports success: the 64 bit size is truncated. -/
theorem c18_setSize_truncates :
    runNew [.setStr [65, 66], .setSize (2 ^ 32), .size]
      = some [⟨true, [], 0⟩, ⟨true, [], 0⟩, ⟨true, [], 0⟩] := by decide +kernel

/-- operator== of texts without zero bytes is equality of the byte sequences. -/
theorem c18_equality_partial (a b : List UInt8) (ha : 0 ∉ a) : opEq a b = true ↔ a = b := by
  have h : ∀ (a b : List UInt8), 0 ∉ a → a.length = b.length → (strncmpEq a b = true ↔ a = b) := by
    intro a
    induction a with
    | nil => intro b _ hl; cases b <;> simp_all [strncmpEq]
    | cons x xs ih =>
      intro b h0 hl
      cases b with
      | nil => simp at hl
      | cons y ys =>
        simp only [List.mem_cons, not_or] at h0
        rw [strncmpEq]
        by_cases hxy : x = y
        · subst hxy
          rw [if_pos rfl, if_neg (fun e => h0.1 e.symm), ih ys h0.2 (by simpa using hl)]
          simp
        · simp [hxy]
  unfold opEq
  rw [Bool.and_eq_true, decide_eq_true_iff]
  constructor
  · rintro ⟨h1, h2⟩; exact (h a b ha h1).mp h2
  · rintro rfl; exact ⟨rfl, (h a a ha rfl).mpr rfl⟩

/-- With a zero byte inside, different texts compare equal: only the part before the zero
is compared. -/
theorem c18_equality_ignores_after_zero : opEq [65, 0, 66] [65, 0, 67] = true := by decide

example : opEq [65, 66] [65, 66] = true ∧ opEq [65, 66] [65, 67] = false := by decide

end Verif.Props.StreamString
