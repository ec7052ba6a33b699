import Verif.Proof.HttpChunk
/-!
# C59: content of HTTP messages
-/
set_option linter.unusedSimpArgs false
set_option linter.unusedVariables false
set_option maxRecDepth 8000
namespace Verif.HttpChunk
open Verif.Model.IOBuffer Verif.Model.BufferedStream Verif.Proof.BufferedStream
open Verif.Spec.BufferedStream (AllOrNothing)
open Verif.Spec.HttpChunk (decode)

variable (lit : List Char → Nat)

private theorem setGood {s : Stream} {a m : Bool} {data : List Byte} (h : Good a s [] data) : Good m (s.setChunkMode m) [] data :=
  ⟨h.view, h.max, rfl, h.calib, h.all, h.atEnd, h.data⟩

private theorem page_sound (data : List Byte) (s : Stream) (a : Bool) (h : Good a s [] data) (ops : List Op)
    (hs : ∀ op ∈ ops, op.small) (os : List Bool) (s' : Stream) (hr : s.page lit ops = some (os, s')) (hos : ∀ o ∈ os, o = true) :
    ∃ wire, s'.dev.data = data ++ wire ∧
      ∀ more, decode (wire.length + 1) (wire ++ more) = some ((ops.map Op.bytes).flatten, more) := by
  unfold Stream.page at hr
  cases h1 : (s.setChunkMode true).run lit (ops ++ [.flush]) with
  | none => rw [h1] at hr; simp at hr
  | some r =>
    obtain ⟨os1, s1⟩ := r
    rw [h1] at hr
    unfold Stream.final at hr
    dsimp only at hr
    have hsm : ∀ op ∈ ops ++ [Op.flush], op.small := by
      intro op hop
      rcases List.mem_append.mp hop with h | h
      · exact hs op h
      · rw [List.mem_singleton.mp h]; trivial
    have hg : Good true (s.setChunkMode true) [] (data ++ []) := by rw [List.append_nil]; exact setGood h
    simp only [Option.some.injEq, Prod.mk.injEq] at hr
    obtain ⟨hr1, hr2⟩ := hr
    obtain ⟨bytes', c', w', q1, q2, q3, q4⟩ := run_sound lit data (ops ++ [.flush]) (s.setChunkMode true) [] [] [] hsm hg .nil os1 s1 h1
      (fun o ho => hos o (by rw [← hr1]; simp [ho]))
    have hb := q4 (by simp)
    subst hb
    obtain ⟨ok, k, d', e, a', p', w''⟩ := osWrite_end s1.dev [48, 13, 10, 13, 10] (by decide) q1.all q1.atEnd
    rw [e] at hr1 hr2
    have hok : ok = true := hos ok (by rw [← hr1]; simp)
    obtain ⟨hd, _⟩ := w'' hok
    have hc' : c' = (ops.map Op.bytes).flatten := by
      simp only [List.append_nil, List.nil_append] at q3
      rw [q3]
      simp [Op.bytes]
    refine ⟨w' ++ [48, 13, 10, 13, 10], ?_, ?_⟩
    · rw [← hr2]
      show d'.data = _
      rw [hd, q1.data, List.append_assoc]
    · intro more
      obtain ⟨k, hk, hkl⟩ := decode_chunks c' w' q2 ([48, 13, 10, 13, 10] ++ more) 1 [] more (decode_last more)
      have := decode_mono _ _ _ hk (w'.length + 5 - k)
      rw [List.length_append, show w'.length + ([48, 13, 10, 13, 10] : List Byte).length + 1 = 1 + k + (w'.length + 5 - k) by
        simp only [List.length_cons, List.length_nil]; omega, List.append_assoc, this, List.append_nil, hc']

private theorem new_good (size : Nat) (hn : size < 2 ^ 32) (dev : Dev) (ha : AllOrNothing dev) (he : dev.pos = dev.data.length) :
    ∃ s, Stream.new size dev = some s ∧ Good false s [] dev.data ∧ s.dev = dev := by
  obtain ⟨b, e, hv, hm⟩ := newBuf_spec size hn
  unfold Stream.new
  rw [e]
  exact ⟨_, rfl, ⟨hv, by show 0 < b.maxU; rw [hm]; split <;> omega, rfl, rfl, ha, he, rfl⟩, rfl⟩

/-- **C59.** A reply in chunks: on a stream with a buffer of any size, over a socket that takes all or nothing of what is written
(and may fail at any moment), the header is written by any calls, then the page by any calls.  When all the calls have answered
success, the socket has got the header and a message in the chunked coding; a receiver that decodes it gets exactly the bytes that
were written, and finds the end of the message whatever follows (`more`). -/
theorem c59_reply (size : Nat) (hn : size < 2 ^ 32) (dev : Dev) (ha : AllOrNothing dev) (he : dev.pos = dev.data.length)
    (s : Stream) (hs : Stream.new size dev = some s) (header ops : List Op) (hh : ∀ op ∈ header, op.small) (ho : ∀ op ∈ ops, op.small)
    (os : List Bool) (s' : Stream) (hr : s.reply lit header ops = some (os, s')) (hos : ∀ o ∈ os, o = true) :
    ∃ wire, s'.dev.data = dev.data ++ (header.map Op.bytes).flatten ++ wire ∧
      ∀ more, decode (wire.length + 1) (wire ++ more) = some ((ops.map Op.bytes).flatten, more) := by
  obtain ⟨s0, e0, g0, _⟩ := new_good size hn dev ha he
  rw [hs] at e0
  injection e0 with e0
  subst e0
  unfold Stream.reply at hr
  cases h1 : (s.setChunkMode false).run lit (header ++ [.flush]) with
  | none => rw [h1] at hr; simp at hr
  | some r =>
    obtain ⟨os1, s1⟩ := r
    rw [h1] at hr
    dsimp only at hr
    cases h2 : s1.page lit ops with
    | none => rw [h2] at hr; simp at hr
    | some r2 =>
      obtain ⟨os2, s2⟩ := r2
      rw [h2] at hr
      simp only [Option.some.injEq, Prod.mk.injEq] at hr
      obtain ⟨hr1, hr2⟩ := hr
      subst hr2
      have hsm : ∀ op ∈ header ++ [Op.flush], op.small := by
        intro op hop
        rcases List.mem_append.mp hop with h | h
        · exact hh op h
        · rw [List.mem_singleton.mp h]; trivial
      have hg : Good false (s.setChunkMode false) [] (dev.data ++ []) := by rw [List.append_nil]; exact setGood g0
      obtain ⟨bytes', c', w', q1, q2, q3, q4⟩ := run_sound lit dev.data (header ++ [.flush]) (s.setChunkMode false) [] [] [] hsm hg .nil os1 s1 h1
        (fun o ho => hos o (by rw [← hr1]; simp [ho]))
      have hb := q4 (by simp)
      subst hb
      have hw := chunks_plain c' w' q2
      have hc' : c' = (header.map Op.bytes).flatten := by
        simp only [List.append_nil, List.nil_append] at q3
        rw [q3]
        simp [Op.bytes]
      rw [hw, hc'] at q1
      exact page_sound lit _ s1 false q1 ops ho os2 s2 h2 (fun o ho => hos o (by rw [← hr1]; simp [ho]))

/-- **C59.** When the socket does not fail, all the calls of a reply answer success. -/
theorem c59_reply_succeeds (size : Nat) (hn : size < 2 ^ 32) (dev : Dev) (hw : dev.wplan = []) (he : dev.pos = dev.data.length)
    (header ops : List Op) (hh : ∀ op ∈ header, op.small) (ho : ∀ op ∈ ops, op.small) :
    ∃ s os s', Stream.new size dev = some s ∧ s.reply lit header ops = some (os, s') ∧ ∀ o ∈ os, o = true := by
  obtain ⟨s, e0, g0, hdev⟩ := new_good size hn dev (by intro k hk; rw [hw] at hk; simp at hk) he
  have hsm : ∀ (l : List Op), (∀ op ∈ l, op.small) → ∀ op ∈ l ++ [Op.flush], op.small := by
    intro l hl op hop
    rcases List.mem_append.mp hop with h | h
    · exact hl op h
    · rw [List.mem_singleton.mp h]; trivial
  have hg : Good false (s.setChunkMode false) [] (dev.data ++ []) := by rw [List.append_nil]; exact setGood g0
  obtain ⟨os1, s1, r1, r2, r3⟩ := run_total lit dev.data (header ++ [.flush]) (s.setChunkMode false) [] [] [] (hsm _ hh) hg .nil
    (by show s.dev.wplan = []; rw [hdev]; exact hw)
  obtain ⟨bytes', c', w', q1, q2, q3, q4⟩ := run_sound lit dev.data (header ++ [.flush]) (s.setChunkMode false) [] [] [] (hsm _ hh) hg .nil os1 s1 r1 r2
  have hb := q4 (by simp)
  subst hb
  have hg2 : Good true (s1.setChunkMode true) [] (dev.data ++ w' ++ []) := by rw [List.append_nil]; exact setGood q1
  obtain ⟨os2, s2, t1, t2, t3⟩ := run_total lit (dev.data ++ w') (ops ++ [.flush]) (s1.setChunkMode true) [] [] [] (hsm _ ho) hg2 .nil r3
  obtain ⟨ok, k, d', hfin, _, _, e3, _⟩ := osWrite_spec s2.dev [48, 13, 10, 13, 10] (by decide)
  have hok := (e3 t3).1
  subst hok
  refine ⟨s, os1 ++ (os2 ++ [true]), { s2 with dev := d' }, e0, ?_, ?_⟩
  · unfold Stream.reply
    rw [r1]
    dsimp only
    unfold Stream.page
    rw [t1]
    dsimp only
    unfold Stream.final
    rw [hfin]
  · intro o ho
    simp only [List.mem_append, List.mem_singleton] at ho
    rcases ho with h | h | h
    · exact r2 o h
    · exact t2 o h
    · exact h

/-- A buffer of 8 bytes: a page of 11 bytes leaves in two chunks. -/
example : ((Stream.new 8 ⟨[], 0, [], []⟩).bind fun s =>
    (s.reply (fun _ => 0) [.write [72, 13, 10]] [.write [1, 2, 3, 4, 5, 6, 7, 8, 9], .put 10, .put 11]).map fun r => r.2.dev.data) =
    some ([72, 13, 10] ++ [56, 13, 10, 1, 2, 3, 4, 5, 6, 7, 8, 13, 10] ++ [51, 13, 10, 9, 10, 11, 13, 10] ++ [48, 13, 10, 13, 10]) := by
  decide +kernel

/-- **C59 fails on a socket that takes part of the bytes**: the number of bytes that were sent is not looked at, all the calls
answer success and the message cannot be decoded. -/
theorem c59_short_write_fails : ((Stream.new 8 ⟨[], 0, [], [some 100, some 2, some 100, some 100]⟩).bind fun s =>
    (s.reply (fun _ => 0) [] [.write [1, 2, 3, 4]]).map fun r =>
      (r.1, decode (r.2.dev.data.length + 1) r.2.dev.data)) = some ([true, true, true, true], none) := by
  decide +kernel

/-- **C59 fails with a calibration of the buffer** (`SetCalibWriteParam`): large blocks go to the socket without the size in front. -/
theorem c59_calibration_fails : ((Stream.new 8 ⟨[], 0, [], []⟩).bind fun s =>
    (({ s with calib := 1 } : Stream).reply (fun _ => 0) [] [.write [1, 2, 3, 4, 5, 6, 7, 8]]).map fun r =>
      (r.1, r.2.dev.data, decode (r.2.dev.data.length + 1) r.2.dev.data)) =
    some ([true, true, true, true], [1, 2, 3, 4, 5, 6, 7, 8] ++ [48, 13, 10, 13, 10], none) := by
  decide +kernel

/-! ## Receiving -/

/-- **C59.** A message with `Content-Length`: when `CompleteReadOperation` answers success, the output stream has got exactly the
content, and what follows it has not been read; whatever the sizes of the pieces in which it arrives. -/
theorem c59_content_length (bufferSize : Nat) (hb : 0 < bufferSize) (plan : List Reading) (n : Nat) (data out rest : List Byte)
    (h : completeRead bufferSize false plan n data = some (true, out, rest)) :
    out = data.take n ∧ rest = data.drop n := by
  unfold completeRead at h
  dsimp only at h
  rw [if_pos (by omega), Int.toNat_natCast] at h
  cases hr : readLoop bufferSize false plan n (min n bufferSize) data [] with
  | none => rw [hr] at h; simp at h
  | some r =>
    obtain ⟨u, o, rs⟩ := r
    rw [hr] at h
    simp only [Option.map_some, Option.some.injEq, Prod.mk.injEq, decide_eq_true_eq] at h
    obtain ⟨h1, h2, h3⟩ := h
    obtain ⟨k, k1, k2, k3, k4⟩ := readLoop_length bufferSize hb plan n data [] u o rs hr
    have hk : k = n := by omega
    subst hk
    rw [← h2, ← h3, k3, k4]
    exact ⟨rfl, rfl⟩

/-- Five bytes of seven, in pieces of two. -/
example : completeRead 2 false [⟨true, 2⟩, ⟨true, 1⟩, ⟨true, 2⟩] 5 [1, 2, 3, 4, 5, 6, 7] = some (true, [1, 2, 3, 4, 5], [6, 7]) := by
  decide +kernel

/-- **C59 fails for chunked messages**: the chunks are not decoded, the sizes and ends of lines are part of the output. -/
theorem c59_receive_chunks_fails :
    decode 3 [51, 13, 10, 97, 98, 99, 13, 10, 48, 13, 10, 13, 10] = some ([97, 98, 99], []) ∧
    completeRead 1024 true [⟨true, 1024⟩] (-2) [51, 13, 10, 97, 98, 99, 13, 10, 48, 13, 10, 13, 10] =
      some (true, [51, 13, 10, 97, 98, 99, 13, 10, 48, 13, 10, 13, 10], []) := by
  decide +kernel

/-- **C59 fails for chunked messages**: a content that ends a piece with the bytes of the last chunk ends the reading, and the rest
of the message is taken for the next one.  Here the content is `0`, CR, LF, `x`, in two chunks. -/
theorem c59_receive_end_fails :
    decode 3 [51, 13, 10, 48, 13, 10, 13, 10, 49, 13, 10, 120, 13, 10, 48, 13, 10, 13, 10] = some ([48, 13, 10, 120], []) ∧
    completeRead 1024 true [⟨true, 8⟩, ⟨true, 1024⟩] (-2) [51, 13, 10, 48, 13, 10, 13, 10, 49, 13, 10, 120, 13, 10, 48, 13, 10, 13, 10] =
      some (true, [51, 13, 10, 48, 13, 10, 13, 10], [49, 13, 10, 120, 13, 10, 48, 13, 10, 13, 10]) := by
  decide +kernel

end Verif.HttpChunk
