import Verif.Model.StreamCopy
import Verif.Spec.StreamCopy
/-!
# C125: copying a stream to another
-/
namespace Verif.StreamCopy
open Spec

private theorem write_all {ws : List Act} (hw : ∀ w ∈ ws, w.ok = true ∧ bufferSize ≤ w.k) {bytes : List (Option Byte)} (hl : bytes.length ≤ bufferSize) :
    (write ws bytes).1 = true ∧ (write ws bytes).2.1 = bytes ∧ ∀ w ∈ (write ws bytes).2.2, w.ok = true ∧ bufferSize ≤ w.k := by
  cases ws with
  | nil => exact ⟨rfl, rfl, by simp [write]⟩
  | cons w ws =>
    have h := hw w (by simp)
    refine ⟨h.1, ?_, fun x hx => hw x (List.mem_cons_of_mem _ hx)⟩
    show bytes.take w.k = bytes
    exact List.take_of_length_le (by omega)

private theorem take_piece (piece : List Byte) (tail : List (Option Byte)) : (piece.map some ++ tail).take piece.length = piece.map some := by
  have h := List.take_left (l₁ := piece.map some) (l₂ := tail)
  rwa [List.length_map] at h

private theorem read_eq (r : Act) (buf : List (Option Byte)) (data : List Byte) : read true r buf data =
    (r.ok, (data.take (min r.k bufferSize)).length, (data.take (min r.k bufferSize)).map some ++ buf.drop (data.take (min r.k bufferSize)).length, data.drop (min r.k bufferSize)) := by
  simp [read]

private theorem loop_inv : ∀ (rs ws : List Act) (ret : Bool) (piece : List Byte) (tail : List (Option Byte)) (data : List Byte) (out : List (Option Byte))
    (res : Bool) (o : List (Option Byte)) (rest : List Byte), piece.length ≤ bufferSize → (∀ w ∈ ws, w.ok = true ∧ bufferSize ≤ w.k) →
    loop true rs ws ret piece.length (piece.map some ++ tail) data out = some (res, o, rest) →
    (∃ taken, piece ++ data = taken ++ rest ∧ o = out ++ taken.map some) ∧
    (res = true → (∀ r ∈ rs, 0 < r.k) → (piece = [] → data = []) → rest = []) ∧
    (ret = true → (∀ r ∈ rs, r.ok = true) → res = true) ∧ (ret = false → res = false) := by
  intro rs
  induction rs with
  | nil =>
    intro ws ret piece tail data out res o rest hp hw h
    unfold loop at h
    rw [take_piece] at h
    obtain ⟨w1, w2, _⟩ := write_all hw (bytes := piece.map some) (by simpa using hp)
    by_cases hc : ret = true ∧ piece.length > 0
    · rw [if_pos hc] at h
      simp [w1] at h
    · rw [if_neg hc] at h
      by_cases hs : piece.length > 0
      · rw [if_pos hs] at h
        dsimp only at h
        rw [w1, w2] at h
        simp at h
        obtain ⟨rfl, rfl, rfl⟩ := h
        have hr : ret = false := by cases hrr : ret <;> simp_all
        exact ⟨⟨piece, rfl, rfl⟩, by simp [hr], by simp [hr], by simp [hr]⟩
      · rw [if_neg hs] at h
        simp at h
        obtain ⟨rfl, rfl, rfl⟩ := h
        have hz : piece = [] := List.length_eq_zero_iff.mp (by omega)
        exact ⟨⟨[], by simp [hz], by simp⟩, fun _ _ hd => hd hz, fun hr _ => hr, fun hr => hr⟩
  | cons r rs ih =>
    intro ws ret piece tail data out res o rest hp hw h
    unfold loop at h
    rw [take_piece] at h
    obtain ⟨w1, w2, w3⟩ := write_all hw (bytes := piece.map some) (by simpa using hp)
    by_cases hc : ret = true ∧ piece.length > 0
    · rw [if_pos hc] at h
      simp only [w1, w2, if_true, read_eq] at h
      obtain ⟨⟨taken, e1, e2⟩, e3, e4, e5⟩ := ih _ _ _ _ _ _ _ _ _ (by simp; omega) w3 h
      rw [List.take_append_drop] at e1
      refine ⟨⟨piece ++ taken, by rw [e1, List.append_assoc], by rw [e2]; simp⟩, ?_, ?_, ?_⟩
      · intro hres hk _
        refine e3 hres (fun x hx => hk x (List.mem_cons_of_mem _ hx)) ?_
        intro hz
        have h1 := congrArg List.length hz
        have h2 := hk r (by simp)
        simp only [List.length_take, List.length_nil] at h1
        have h3 : data = [] := List.length_eq_zero_iff.mp (by omega)
        simp [h3]
      · intro _ hok
        exact e4 (hok r (by simp)) (fun x hx => hok x (List.mem_cons_of_mem _ hx))
      · intro hr
        rw [hr] at hc
        exact absurd hc.1 (by simp)
    · rw [if_neg hc] at h
      by_cases hs : piece.length > 0
      · rw [if_pos hs] at h
        dsimp only at h
        rw [w1, w2] at h
        simp at h
        obtain ⟨rfl, rfl, rfl⟩ := h
        have hr : ret = false := by cases hrr : ret <;> simp_all
        exact ⟨⟨piece, rfl, rfl⟩, by simp [hr], by simp [hr], by simp [hr]⟩
      · rw [if_neg hs] at h
        simp at h
        obtain ⟨rfl, rfl, rfl⟩ := h
        have hz : piece = [] := List.length_eq_zero_iff.mp (by omega)
        exact ⟨⟨[], by simp [hz], by simp⟩, fun _ _ hd => hd hz, fun hr _ => hr, fun hr => hr⟩

/-- **C125.** From a stream that can be read to one that takes what it is given: whatever each read delivers or fails to deliver, the bytes that left the
source are the bytes written, in their order; a copy that answers true left nothing in the source; and it answers true when no read fails. -/
theorem c125_copy_partial {rs ws : List Act} {data : List Byte} {res : Bool} {out : List (Option Byte)} {rest : List Byte}
    (hw : ∀ w ∈ ws, w.ok = true ∧ bufferSize ≤ w.k) (h : copy true rs ws data = some (res, out, rest)) :
    Moved data out rest ∧ (res = true → (∀ r ∈ rs, 0 < r.k) → rest = [] ∧ out = data.map some) ∧ ((∀ r ∈ rs, r.ok = true) → res = true) ∧
    ((∃ r, rs.head? = some r ∧ r.ok = false) → res = false) := by
  cases rs with
  | nil => simp [copy] at h
  | cons r rs =>
    unfold copy at h
    simp only [read_eq] at h
    obtain ⟨⟨taken, e1, e2⟩, e3, e4, e5⟩ := loop_inv _ _ _ _ _ _ _ _ _ _ (by simp; omega) hw h
    rw [List.take_append_drop] at e1
    simp only [List.nil_append] at e2
    refine ⟨⟨taken, e1, e2⟩, ?_, ?_, ?_⟩
    · intro hres hk
      have hz : rest = [] := by
        refine e3 hres (fun x hx => hk x (List.mem_cons_of_mem _ hx)) ?_
        intro hz
        have h1 := congrArg List.length hz
        have h2 := hk r (by simp)
        simp only [List.length_take, List.length_nil] at h1
        have hb : 0 < bufferSize := by decide
        have h3 : data = [] := List.length_eq_zero_iff.mp (by omega)
        simp [h3]
      refine ⟨hz, ?_⟩
      rw [e2, e1, hz, List.append_nil]
    · intro hok
      exact e4 (hok r (by simp)) (fun x hx => hok x (List.mem_cons_of_mem _ hx))
    · rintro ⟨q, hq, hf⟩
      simp at hq
      subst hq
      exact e5 hf

private theorem loop_defined : ∀ (rs ws : List Act) (ret : Bool) (piece : List Byte) (tail : List (Option Byte)) (data : List Byte)
    (out : List (Option Byte)), piece.length ≤ bufferSize → (∀ r ∈ rs, 0 < r.k) → (piece ++ data).length ≤ rs.length → 
    (loop true rs ws ret piece.length (piece.map some ++ tail) data out).isSome = true := by
  intro rs
  induction rs with
  | nil =>
    intro ws ret piece tail data out hp hk hl
    simp at hl
    unfold loop
    simp [hl.1]
  | cons r rs ih =>
    intro ws ret piece tail data out hp hk hl
    unfold loop
    by_cases hc : ret = true ∧ piece.length > 0
    · rw [if_pos hc]
      dsimp only
      split
      · rw [read_eq]
        dsimp only
        refine ih _ _ _ _ _ _ (by simp; omega) (fun x hx => hk x (List.mem_cons_of_mem _ hx)) ?_
        rw [List.take_append_drop]
        rw [List.length_append, List.length_cons] at hl
        omega
      · rfl
    · rw [if_neg hc]
      split <;> rfl

/-- **C125.** A copy ends, when every read delivers something while there is something. -/
theorem c125_ends {rs : List Act} (ws : List Act) {data : List Byte} (hk : ∀ r ∈ rs, 0 < r.k) (hl : data.length < rs.length) :
    ∃ x, copy true rs ws data = some x := by
  cases rs with
  | nil => simp at hl
  | cons r rs =>
    unfold copy
    dsimp only
    rw [read_eq]
    dsimp only
    refine Option.isSome_iff_exists.mp (loop_defined _ _ _ _ _ _ _ (by simp; omega) (fun x hx => hk x (List.mem_cons_of_mem _ hx)) ?_)
    rw [List.take_append_drop]
    simpa [Nat.lt_succ_iff] using hl

/-- **C125 fails for a stream that cannot be read**: 256 bytes that were never set are written. -/
theorem c125_unreadable_fails (r : Act) (rs : List Act) (data : List Byte) :
    copy false (r :: rs) [] data = some (false, List.replicate bufferSize none, data) ∧ ¬ Moved data (List.replicate bufferSize none) data := by
  constructor
  · have hb : bufferSize > 0 := by decide
    unfold copy read loop
    simp [write, hb, List.take_of_length_le]
  · rintro ⟨taken, _, h⟩
    have hb : 0 < bufferSize := by decide
    have h0 : (List.replicate bufferSize (none : Option Nat))[0]? = (taken.map some)[0]? := by rw [h]
    cases taken with
    | nil => simp [hb] at h0
    | cons a t => simp [hb] at h0

/-- **C125 fails for a destination that takes part of what it is given and answers true** (memory of the caller that is full, C111): the copy answers true
and bytes are lost. -/
theorem c125_room_fails (data : List Byte) (k : Nat) (hk : k < data.length) (hd : data.length ≤ bufferSize) (r q : Act) (rs : List Act)
    (hr : r.ok = true ∧ bufferSize ≤ r.k) (hq : q.ok = true) :
    copy true (r :: q :: rs) [⟨true, k⟩] data = some (true, (data.take k).map some, []) ∧ ¬ Moved data ((data.take k).map some) [] := by
  have h1 : data.take (min r.k bufferSize) = data := List.take_of_length_le (by omega)
  have h2 : data.drop (min r.k bufferSize) = [] := List.drop_of_length_le (by omega)
  constructor
  · unfold copy
    dsimp only
    rw [read_eq]
    dsimp only
    rw [h1, h2, hr.1]
    unfold loop
    rw [if_pos ⟨rfl, by omega⟩, take_piece]
    simp only [write, if_true, read_eq, List.take_nil, List.drop_nil, hq]
    unfold loop
    simp [List.map_take]
  · rintro ⟨taken, h3, h4⟩
    have h5 := congrArg List.length h3
    have h6 := congrArg List.length h4
    simp at h5 h6
    omega

/-- A copy in three reads, the last of nothing. -/
example : copy true [⟨true, 2⟩, ⟨true, 9⟩, ⟨true, 9⟩] [⟨true, bufferSize⟩] [7, 8, 9] = some (true, [some 7, some 8, some 9], []) := by
  simp [copy, loop, read, write, show min 2 bufferSize = 2 by decide, show min 9 bufferSize = 9 by decide]
  rfl

end Verif.StreamCopy
