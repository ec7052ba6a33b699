import Verif.Proof.BufferedFile
/-
C20, C21 and C47: transfers through buffered streams, for every history of calls, every
size of the buffers, every behaviour of the device and every calibration parameter.
-/
namespace Verif.Props.BufferedStream
open Verif.Model.IOBuffer Verif.Model.BufferedStream Verif.Spec.BufferedStream
open Verif.Proof.BufferedStream Verif.Proof.BufferedFile

/-! ### C20: writing -/

/-- C20 (part).  No history of calls on a DoubleBufferedStream touches memory outside the
buffers or goes on for ever, whatever the device does.  If the device accepts all or
nothing of a block, every Write and Flush of the history succeeded and the last call was
Flush, then the device contains exactly what was handed to Write, in order.  Missing:
devices that accept a part of a block (see `c20_partial_os_write_loses_data`). -/
theorem c20_history_partial (rsize wsize calR calW : Nat) (rdev wdev : Dev) (ops : List DOp)
    (hr : rsize < 2 ^ 32) (hw : wsize < 2 ^ 32) (hf : ∀ op ∈ ops, FitsOp op) :
    ∃ s os s', Double.new rsize wsize calR calW rdev wdev = some s ∧ s.run ops = some (os, s') ∧
      (AllOrNothing wdev → WritesSucceed ops os → (∃ pre, ops = pre ++ [.flush]) →
        s'.wdev.data = (fileWrite ⟨wdev.data, wdev.pos⟩ (bytesWritten ops)).data) := by
  obtain ⟨s, e, h1, h2, h3⟩ := new_safe rsize wsize calR calW rdev wdev hr hw
  obtain ⟨os, s', e', _⟩ := run_safe ops s h1 hf
  refine ⟨s, os, s', e, e', fun ha hok hl => ?_⟩
  obtain ⟨pre, hp⟩ := hl
  have := (run_write ops s [] os s' (h3 ha) h1.wmax hf e' hok).2.2 pre hp
  rw [this, fileWrite_eq, List.nil_append]

/-- On a device that is written at its end (a socket, a log file) this is the
concatenation. -/
theorem c20_appended (data bs : List UInt8) :
    (fileWrite ⟨data, data.length⟩ bs).data = data ++ bs := by
  rw [fileWrite_eq]; exact putAt_end data bs

private theorem reports : ∀ (ops : List DOp) {data : List UInt8} {p0 : Nat} (s : Double) (os : List DOut)
    (s' : Double), DSafe data p0 s → AllOrNothing s.wdev → (∀ op ∈ ops, FitsOp op) →
    s.run ops = some (os, s') → ∀ (i : Nat) (bs : List UInt8) (o : DOut), ops[i]? = some (.write bs) →
    os[i]? = some o → o.ok = true → o.num = bs.length
  | [], _, _, _, _, _, _, _, _, _, i, bs, o, h, _, _ => by simp at h
  | op :: ops, data, p0, s, os, s', hs, ha, hf, e, i, bs, o, hi, ho, hok => by
    have hf2 : ∀ op ∈ ops, FitsOp op := fun x hx => hf x (List.mem_cons_of_mem _ hx)
    obtain ⟨o1, s1, e1, h1⟩ := step_safe s op hs (hf op List.mem_cons_self)
    obtain ⟨os2, s2, e2, h2⟩ := run_safe ops s1 h1 hf2
    simp only [Double.run, e1, e2, Option.some.injEq, Prod.mk.injEq] at e
    obtain ⟨rfl, rfl⟩ := e
    have hall : AllOrNothing s1.wdev ∧
        (∀ bs, op = .write bs → o1.ok = true → o1.num = bs.length) := by
      obtain ⟨bytes, hv⟩ := hs.w
      cases op with
      | read n =>
        simp only [Double.step] at e1
        split at e1
        · simp at e1
        · simp only [Option.some.injEq, Prod.mk.injEq] at e1
          obtain ⟨rfl, rfl⟩ := e1
          exact ⟨ha, by simp⟩
      | write bs =>
        obtain ⟨ok, k, b', d', bytes', e', g1, g2, g3, g4, g5, g6⟩ :=
          bufWrite_spec s.calW s.wbuf s.wdev bs bytes hv hs.wmax (hf _ List.mem_cons_self)
        simp only [Double.step, e', Option.some.injEq, Prod.mk.injEq] at e1
        obtain ⟨rfl, rfl⟩ := e1
        refine ⟨g4 ha, fun bs' hb hok => ?_⟩
        obtain rfl : bs = bs' := by simpa using hb
        exact (g6 ha hok).1
      | flush =>
        obtain ⟨ok, b', d', bytes', e', g1, g2, g3, g4, g5⟩ := flushBuf_spec hv s.wdev
        simp only [Double.step, e', Option.some.injEq, Prod.mk.injEq] at e1
        obtain ⟨rfl, rfl⟩ := e1
        exact ⟨g4 ha, by simp⟩
    cases i with
    | zero =>
      simp only [List.getElem?_cons_zero, Option.some.injEq] at hi ho
      subst hi; subst ho
      exact hall.2 bs rfl hok
    | succ i =>
      simp only [List.getElem?_cons_succ] at hi ho
      exact reports ops s1 os2 _ h1 hall.1 hf2 e2 i bs o hi ho hok

/-- A Write that succeeds reports that everything was written. -/
theorem c20_success_reports_all (rsize wsize calR calW : Nat) (rdev wdev : Dev)
    (ops : List DOp) (hr : rsize < 2 ^ 32) (hw : wsize < 2 ^ 32) (hf : ∀ op ∈ ops, FitsOp op)
    (ha : AllOrNothing wdev) {s os s'} (hn : Double.new rsize wsize calR calW rdev wdev = some s)
    (e : s.run ops = some (os, s')) (i : Nat) (bs : List UInt8) (o : DOut)
    (hi : ops[i]? = some (.write bs)) (ho : os[i]? = some o) (hok : o.ok = true) :
    o.num = bs.length := by
  obtain ⟨s0, e0, h1, h2, h3⟩ := new_safe rsize wsize calR calW rdev wdev hr hw
  rw [hn] at e0
  obtain rfl : s = s0 := by simpa using e0
  obtain ⟨_, _, ha', _⟩ := h3 ha
  exact reports ops s os s' h1 ha' hf e i bs o hi ho hok

/-- The outcomes of a history on a new stream, and the bytes written to the device. -/
def doubleTrace (rsize wsize calR calW : Nat) (rdev wdev : Dev) (ops : List DOp) :
    Option (List DOut × List UInt8) :=
  match Double.new rsize wsize calR calW rdev wdev with
  | none => none
  | some s =>
    match s.run ops with
    | none => none
    | some (os, s') => some (os, s'.wdev.data)

/-- C20 fails for a device that accepts a part of a block, as write(2) on a socket may:
Write and Flush report success, yet the device has received 2 of 6 bytes. -/
theorem c20_partial_os_write_loses_data :
    doubleTrace 32 32 4 4 ⟨[], 0, [], []⟩ ⟨[], 0, [], [some 2]⟩
      [.write [1, 2, 3, 4, 5, 6], .flush]
      = some ([⟨true, [], 6⟩, ⟨true, [], 0⟩], [1, 2]) := by decide +kernel

/-- A Write that fails because the full buffer could not be flushed reports that nothing
was written, although a part of the block stays in the buffer: after the retry the device
has received that part twice. -/
theorem c20_failed_write_repeats_data :
    doubleTrace 8 8 1 1 ⟨[], 0, [], []⟩ ⟨[], 0, [], [none]⟩
      [.write [1, 2, 3, 4, 5], .write [6, 7, 8, 9, 10], .write [6, 7, 8, 9, 10], .flush]
      = some ([⟨true, [], 5⟩, ⟨false, [], 0⟩, ⟨true, [], 5⟩, ⟨true, [], 0⟩],
          [1, 2, 3, 4, 5, 6, 7, 8, 6, 7, 8, 9, 10]) := by decide +kernel

example : ∃ s os s', Double.new 16 16 4 4 ⟨[], 0, [], []⟩ ⟨[], 0, [], []⟩ = some s ∧
    s.run [.write [1, 2, 3], .write [4], .flush] = some (os, s') ∧
    (AllOrNothing ⟨[], 0, [], []⟩ → WritesSucceed [.write [1, 2, 3], .write [4], .flush] os →
      (∃ pre, [DOp.write [1, 2, 3], .write [4], .flush] = pre ++ [.flush]) →
      s'.wdev.data = (fileWrite ⟨[], 0⟩ [1, 2, 3, 4]).data) :=
  c20_history_partial 16 16 4 4 _ _ _ (by decide) (by decide)
    (by intro op h; simp only [List.mem_cons, List.not_mem_nil, or_false] at h
        rcases h with rfl | rfl | rfl <;> simp [FitsOp])

/-! ### C21: reading -/

/-- C21 (part).  As long as the reads succeed, what they reported is, in order, a prefix of
the data of the device, with nothing skipped or repeated; this includes the bytes reported
by a last read that fails.  Every pattern of short reads and failures of the device is
covered.  Missing: histories that go on after a failed read (see
`c21_failed_read_skips_data`). -/
theorem c21_history_partial (rsize wsize calR calW : Nat) (rdev wdev : Dev)
    (ops : List DOp) (n : Nat) (hr : rsize < 2 ^ 32) (hw : wsize < 2 ^ 32)
    {s os s' o s''} (hn : Double.new rsize wsize calR calW rdev wdev = some s)
    (e : s.run ops = some (os, s')) (hok : ReadsSucceed ops os)
    (el : s'.step (.read n) = some (o, s'')) :
    (bytesRead os ++ o.bytes) <+: rdev.data.drop rdev.pos := by
  obtain ⟨s0, e0, h1, h2, h3⟩ := new_safe rsize wsize calR calW rdev wdev hr hw
  rw [hn] at e0
  obtain rfl : s = s0 := by simpa using e0
  have := run_read ops s [] os s' h2 e hok
  exact ((step_read s' (.read n) this el).1 n rfl).1

/-- On a device that delivers everything it has, a read of bytes that exist succeeds and
delivers all of them, at any moment of a history whose reads succeeded. -/
theorem c21_existing_data_is_read (rsize wsize calR calW : Nat) (rdev wdev : Dev)
    (ops : List DOp) (n : Nat) (hr : rsize < 2 ^ 32) (hw : wsize < 2 ^ 32)
    {s os s'} (hn : Double.new rsize wsize calR calW rdev wdev = some s)
    (e : s.run ops = some (os, s')) (hok : ReadsSucceed ops os)
    (hplan : s'.rdev.rplan = [])
    (hroom : rdev.pos + (bytesRead os).length + n ≤ rdev.data.length) :
    ∃ s'', s'.step (.read n)
      = some (⟨true, (rdev.data.drop (rdev.pos + (bytesRead os).length)).take n, 0⟩, s'') := by
  obtain ⟨s0, e0, h1, h2, h3⟩ := new_safe rsize wsize calR calW rdev wdev hr hw
  rw [hn] at e0
  obtain rfl : s = s0 := by simpa using e0
  obtain ⟨pre, bytes, pos, stale, ⟨hv, hst, ht⟩, hR⟩ := run_read ops s [] os s' h2 e hok
  rw [List.nil_append] at hR
  have hpl := hv.pos_le
  obtain ⟨ok, out, b', d', pre', bytes', pos', stale', e', g1, g2, g3, g4, g5, g6, g7, g8, _⟩ :=
    bufRead_spec s'.calR rdev.data rdev.pos _ s'.rbuf s'.rdev n pre bytes pos stale hv hst ht hR
  have hc := congrArg List.length hR
  have hroom' : n ≤ bytes.length - pos + (rdev.data.length - s'.rdev.pos) := by
    have t2 := ht.2.1
    have t3 := congrArg List.length ht.2.2
    simp only [List.length_append, List.length_take, List.length_drop] at hc t2 t3
    rcases hst with hs | hs
    · simp only [hs, List.length_nil] at hc t2 t3; omega
    · omega
  obtain ⟨rfl, hol, _⟩ := g8 hplan hroom'
  refine ⟨{ s' with rbuf := b', rdev := d' }, ?_⟩
  have hout : out = (rdev.data.drop (rdev.pos + (bytesRead os).length)).take n := by
    obtain ⟨tl, htl⟩ := g7
    rw [← List.drop_drop, ← htl, List.append_assoc _ out tl, List.drop_left, ← hol, List.take_left]
  simp only [Double.step, e', hout]

/-- C21 fails after a failed read: the device delivers 3 bytes and then fails once (a
timeout); the read reports failure and no bytes, and the following read continues behind
the 3 bytes, which are never reported. -/
theorem c21_failed_read_skips_data :
    doubleTrace 32 32 4 4 ⟨[1, 2, 3, 4, 5, 6], 0, [some 3, none], []⟩ ⟨[], 0, [], []⟩
      [.read 4, .read 2] = some ([⟨false, [], 0⟩, ⟨true, [4, 5], 0⟩], []) := by decide +kernel

/-- The same happens at the end of the data: three bytes are there, five are asked for,
none is ever reported. -/
theorem c21_end_of_data_is_lost :
    doubleTrace 32 32 4 4 ⟨[1, 2, 3], 0, [], []⟩ ⟨[], 0, [], []⟩ [.read 5, .read 1]
      = some ([⟨false, [], 0⟩, ⟨false, [], 0⟩], []) := by decide +kernel

example : doubleTrace 8 8 1 1 ⟨[1, 2, 3, 4, 5, 6, 7, 8, 9, 10], 0, [some 3, some 1], []⟩
    ⟨[], 0, [], []⟩ [.read 2, .read 4, .read 3]
      = some ([⟨true, [1, 2], 0⟩, ⟨true, [3, 4, 5, 6], 0⟩, ⟨true, [7, 8, 9], 0⟩], []) := by
  decide +kernel

/-! ### Failures of the device are reported -/

/-- `pre` is what the call used of the plan of the device; a success means that no call of the device failed. -/
private def Rep (plan plan' : List (Option Nat)) (ok : Bool) : Prop :=
  ∃ pre, plan = pre ++ plan' ∧ (ok = true → none ∉ pre)

private theorem Rep.refl (p : List (Option Nat)) (ok : Bool) : Rep p p ok := ⟨[], rfl, by simp⟩

private theorem Rep.trans {p q r : List (Option Nat)} {ok : Bool} (h : Rep p q true) (h' : Rep q r ok) : Rep p r ok := by
  obtain ⟨a, rfl, ha⟩ := h
  obtain ⟨b, rfl, hb⟩ := h'
  refine ⟨a ++ b, by simp, fun h => ?_⟩
  simp only [List.mem_append, not_or]
  exact ⟨ha rfl, hb h⟩

private theorem osRead_rep {d d' : Dev} {n : Nat} {ok : Bool} {bs : List Byte} (h : osRead d n = (ok, bs, d')) :
    Rep d.rplan d'.rplan ok := by
  unfold osRead at h
  split at h
  · rename_i hp; injection h with h1 h; injection h with h2 h; subst h; exact .refl _ _
  · rename_i p hp
    injection h with h1 h; injection h with h2 h; subst h
    exact ⟨[none], by rw [hp]; rfl, by intro h; rw [h] at h1; cases h1⟩
  · rename_i k p hp
    injection h with h1 h; injection h with h2 h; subst h
    exact ⟨[some k], by rw [hp]; rfl, by simp⟩

private theorem osWrite_rep {d d' : Dev} {bs : List Byte} {ok : Bool} {k : Nat} (h : osWrite d bs = (ok, k, d')) :
    Rep d.wplan d'.wplan ok := by
  unfold osWrite at h
  split at h
  · rename_i hp; injection h with h1 h; injection h with h2 h; subst h; exact .refl _ _
  · rename_i p hp
    injection h with h1 h; injection h with h2 h; subst h
    exact ⟨[none], by rw [hp]; rfl, by intro h; rw [h] at h1; cases h1⟩
  · rename_i k p hp
    injection h with h1 h; injection h with h2 h; subst h
    exact ⟨[some k], by rw [hp]; rfl, by simp⟩

private theorem refill_rep {b b' : Buf} {d d' : Dev} {ok : Bool} (h : refill b d = some (ok, b', d')) :
    Rep d.rplan d'.rplan ok := by
  unfold refill at h
  rcases ho : osRead d b.empty.maxU with ⟨o, bs, d1⟩
  have hr := osRead_rep ho
  simp only [ho] at h
  cases o with
  | false =>
    simp only [Bool.false_eq_true, if_false, Option.some.injEq, Prod.mk.injEq] at h
    rw [← h.2.2, ← h.1]; exact hr
  | true =>
    simp only [if_true] at h
    split at h
    · cases h
    · simp only [Option.some.injEq, Prod.mk.injEq] at h
      rw [← h.2.2]
      obtain ⟨a, e, q⟩ := hr
      exact ⟨a, e, fun _ => q rfl⟩

private theorem readLoop_rep : ∀ (fuel : Nat) {b b' : Buf} {d d' : Dev} {n : Nat} {acc bs : List Byte} {ok : Bool},
    readLoop fuel b d n acc = some (ok, bs, b', d') → Rep d.rplan d'.rplan ok
  | 0, _, _, _, _, _, _, _, _, h => by cases h
  | fuel + 1, b, b', d, d', n, acc, bs, ok, h => by
    unfold readLoop at h
    split at h
    · simp only [Option.some.injEq, Prod.mk.injEq] at h
      rw [← h.2.2.2]; exact .refl _ _
    · split at h
      · cases h
      · split at h
        · split at h
          · cases h
          · rename_i ok1 b1 d1 hrf
            have hr := refill_rep hrf
            cases ok1 with
            | true => simp only [if_true] at h; exact hr.trans (readLoop_rep fuel h)
            | false =>
              simp only [Bool.false_eq_true, if_false, Option.some.injEq, Prod.mk.injEq] at h
              rw [← h.2.2.2, ← h.1]; exact hr
        · exact readLoop_rep fuel h

private theorem bufRead_rep {c : Nat} {b b' : Buf} {d d' : Dev} {n : Nat} {bs : List Byte} {ok : Bool}
    (h : bufRead c b d n = some (ok, bs, b', d')) : Rep d.rplan d'.rplan ok := by
  unfold bufRead at h
  split at h
  · cases h
  · rename_i bs0 b1 hb
    split at h
    · simp only at h
      split at h
      · split at h
        · cases h
        · rename_i ok1 b2 d1 hrf
          have hr := refill_rep hrf
          cases ok1 with
          | true => simp only [if_true] at h; exact hr.trans (readLoop_rep _ h)
          | false =>
            simp only [Bool.false_eq_true, if_false, Option.some.injEq, Prod.mk.injEq] at h
            rw [← h.2.2.2, ← h.1]; exact hr
      · rcases ho : osRead d (n - bs0.length) with ⟨o, bs1, d1⟩
        have hr := osRead_rep ho
        simp only [ho] at h
        cases o with
        | true => simp only [if_true, Option.some.injEq, Prod.mk.injEq] at h; rw [← h.2.2.2, ← h.1]; exact hr
        | false =>
          simp only [Bool.false_eq_true, if_false, Option.some.injEq, Prod.mk.injEq] at h
          rw [← h.2.2.2, ← h.1]; exact hr
    · simp only [Option.some.injEq, Prod.mk.injEq] at h
      rw [← h.2.2.2]; exact .refl _ _

private theorem flushBuf_rep {b b' : Buf} {d d' : Dev} {ok : Bool} (h : flushBuf b d = some (ok, b', d')) :
    Rep d.wplan d'.wplan ok := by
  unfold flushBuf at h
  split at h
  · simp only [Option.some.injEq, Prod.mk.injEq] at h
    rw [← h.2.2]; exact .refl _ _
  · split at h
    · cases h
    · rename_i bs hb
      rcases ho : osWrite d bs with ⟨o, k, d1⟩
      have hr := osWrite_rep ho
      simp only [ho] at h
      cases o with
      | true => simp only [if_true, Option.some.injEq, Prod.mk.injEq] at h; rw [← h.2.2, ← h.1]; exact hr
      | false =>
        simp only [Bool.false_eq_true, if_false, Option.some.injEq, Prod.mk.injEq] at h
        rw [← h.2.2, ← h.1]; exact hr

private theorem writeLoop_rep : ∀ (fuel : Nat) {b b' : Buf} {d d' : Dev} {bs : List Byte} {w k : Nat} {ok : Bool},
    writeLoop fuel b d bs w = some (ok, k, b', d') → Rep d.wplan d'.wplan ok
  | 0, _, _, _, _, _, _, _, _, h => by cases h
  | fuel + 1, b, b', d, d', bs, w, k, ok, h => by
    unfold writeLoop at h
    split at h
    · simp only [Option.some.injEq, Prod.mk.injEq] at h
      rw [← h.2.2.2]; exact .refl _ _
    · split at h
      · cases h
      · split at h
        · split at h
          · cases h
          · rename_i ok1 b1 d1 hrf
            have hr := flushBuf_rep hrf
            cases ok1 with
            | true => simp only [if_true] at h; exact hr.trans (writeLoop_rep fuel h)
            | false =>
              simp only [Bool.false_eq_true, if_false, Option.some.injEq, Prod.mk.injEq] at h
              rw [← h.2.2.2, ← h.1]; exact hr
        · exact writeLoop_rep fuel h

private theorem bufWrite_rep {c : Nat} {b b' : Buf} {d d' : Dev} {bs : List Byte} {k : Nat} {ok : Bool}
    (h : bufWrite c b d bs = some (ok, k, b', d')) : Rep d.wplan d'.wplan ok := by
  unfold bufWrite at h
  split at h
  · exact writeLoop_rep _ h
  · split at h
    · cases h
    · rename_i ok1 b1 d1 hf
      have hr := flushBuf_rep hf
      cases ok1 with
      | true =>
        simp only [if_true] at h
        rcases ho : osWrite d1 bs with ⟨o, k1, d2⟩
        have hr2 := osWrite_rep ho
        simp only [ho, Option.some.injEq, Prod.mk.injEq] at h
        rw [← h.2.2.2, ← h.1]
        exact hr.trans hr2
      | false =>
        simp only [Bool.false_eq_true, if_false, Option.some.injEq, Prod.mk.injEq] at h
        rw [← h.2.2.2, ← h.1]; exact hr

/-- C21.  When one of the calls of the device made by a Read fails (`none` in the part `used` of its plan), the Read
fails. -/
theorem c21_failure_reported {s s' : Double} {n : Nat} {o : DOut} (h : s.step (.read n) = some (o, s')) :
    ∃ used, s.rdev.rplan = used ++ s'.rdev.rplan ∧ (none ∈ used → o.ok = false) := by
  simp only [Double.step] at h
  split at h
  · cases h
  · rename_i ok bs b d hb
    obtain ⟨pre, e, hp⟩ := bufRead_rep hb
    simp only [Option.some.injEq, Prod.mk.injEq] at h
    obtain ⟨rfl, rfl⟩ := h
    refine ⟨pre, e, fun hn => ?_⟩
    cases ok with
    | false => rfl
    | true => exact absurd hn (hp rfl)

/-- C20.  When one of the calls of the device made by a Write or a Flush fails, the Write or Flush fails. -/
theorem c20_failure_reported {s s' : Double} {op : DOp} (hop : op = .flush ∨ ∃ bs, op = .write bs) {o : DOut}
    (h : s.step op = some (o, s')) :
    ∃ used, s.wdev.wplan = used ++ s'.wdev.wplan ∧ (none ∈ used → o.ok = false) := by
  have key : Rep s.wdev.wplan s'.wdev.wplan o.ok := by
    rcases hop with rfl | ⟨bs, rfl⟩
    · simp only [Double.step] at h
      split at h
      · cases h
      · rename_i ok b d hb
        simp only [Option.some.injEq, Prod.mk.injEq] at h
        obtain ⟨rfl, rfl⟩ := h
        exact flushBuf_rep hb
    · simp only [Double.step] at h
      split at h
      · cases h
      · rename_i ok k b d hb
        simp only [Option.some.injEq, Prod.mk.injEq] at h
        obtain ⟨rfl, rfl⟩ := h
        exact bufWrite_rep hb
  obtain ⟨pre, e, hp⟩ := key
  refine ⟨pre, e, fun hn => ?_⟩
  cases ho : o.ok with
  | false => rfl
  | true => exact absurd hn (hp ho)

/-- The hypothesis is met: the second call of the device fails, and so does the Read. -/
example : doubleTrace 32 32 4 4 ⟨[1, 2, 3, 4, 5, 6], 0, [some 3, none], []⟩ ⟨[], 0, [], []⟩ [.read 4] =
    some ([⟨false, [], 0⟩], []) := by decide +kernel

/-! ### C47: a buffered file is a file with a cursor -/

/-- C47 (part).  Every history of reads, writes, seeks, size changes and changes of the
buffer size on a SingleBufferedStream over a file gives the results of a file with a
cursor, call by call, and a Flush at the end leaves the file of the ideal history.
Missing: reads beyond the end of the data, RelativeSeek while reading, Seek backwards
after a large read (see the theorems below). -/
theorem c47_history_partial (data : List UInt8) (cur : Nat) (ops : List SOp)
    (ha : AllFileAllowed ⟨false, true, 32⟩ ⟨data, cur⟩ ops) :
    ∃ s s' s'', Single.new ⟨data, cur, [], []⟩ = some s ∧
      s.run ops = some ((fileRun ⟨data, cur⟩ ops).1, s') ∧
      s'.flush = some (true, s'') ∧ s''.dev.data = (fileRun ⟨data, cur⟩ ops).2.data := by
  obtain ⟨s, e, h⟩ := new_file data cur
  obtain ⟨s', e', c', h'⟩ := run_file ops h ha
  obtain ⟨s'', e'', h''⟩ := h'.flushed
  exact ⟨s, s', s'', e, e', e'', h''⟩

/-- The outcomes of a history on a new file stream. -/
def fileTrace (data : List UInt8) (ops : List SOp) : Option (List DOut) :=
  match Single.new ⟨data, 0, [], []⟩ with
  | none => none
  | some s =>
    match s.run ops with
    | none => none
    | some (os, _) => some os

/-- A file of 64 bytes, each holding its offset. -/
def counting : List UInt8 := (List.range 64).map UInt8.ofNat

/-- RelativeSeek forward, beyond what is in the buffer, while reading: from offset 2, forty
bytes forward should be offset 42; the stream goes to offset 102. -/
theorem c47_relative_seek_forward_wrong :
    fileTrace counting [.read 2, .relativeSeek 40, .position]
      = some [⟨true, [0, 1], 0⟩, ⟨true, [], 0⟩, ⟨true, [], 102⟩] ∧
    (fileRun ⟨counting, 0⟩ [.read 2, .relativeSeek 40, .position]).1
      = [⟨true, [0, 1], 0⟩, ⟨true, [], 0⟩, ⟨true, [], 42⟩] := by decide +kernel

/-- RelativeSeek backwards while reading, within the buffer: from offset 5, one byte back is
offset 4, which Position reports; the byte read is the one at offset 3. -/
theorem c47_relative_seek_back_reads_wrong_byte :
    fileTrace counting [.read 5, .relativeSeek (-1), .position, .read 1]
      = some [⟨true, [0, 1, 2, 3, 4], 0⟩, ⟨true, [], 0⟩, ⟨true, [], 4⟩, ⟨true, [3], 0⟩] ∧
    (fileRun ⟨counting, 0⟩ [.read 5, .relativeSeek (-1), .position, .read 1]).1
      = [⟨true, [0, 1, 2, 3, 4], 0⟩, ⟨true, [], 0⟩, ⟨true, [], 4⟩, ⟨true, [4], 0⟩] := by
  decide +kernel

/-- Seek backwards after a read that by-passed the buffer: the stream answers from the old
content of the buffer.  Offset 50 is sought, the byte at offset 18 is delivered. -/
theorem c47_seek_after_large_read_wrong_byte :
    fileTrace counting [.read 1, .read 63, .seek 50, .read 1]
      = some [⟨true, [0], 0⟩, ⟨true, counting.drop 1, 0⟩, ⟨true, [], 0⟩, ⟨true, [18], 0⟩] ∧
    (fileRun ⟨counting, 0⟩ [.read 1, .read 63, .seek 50, .read 1]).1
      = [⟨true, [0], 0⟩, ⟨true, counting.drop 1, 0⟩, ⟨true, [], 0⟩, ⟨true, [50], 0⟩] := by
  decide +kernel

/-- A read that reaches beyond the end of the file reports nothing, instead of the bytes
that are there. -/
theorem c47_read_at_end_loses_bytes :
    fileTrace [7, 8, 9] [.read 5, .position]
      = some [⟨false, [], 0⟩, ⟨true, [], 3⟩] ∧
    (fileRun ⟨[7, 8, 9], 0⟩ [.read 5, .position]).1
      = [⟨true, [7, 8, 9], 0⟩, ⟨true, [], 3⟩] := by decide +kernel

example : AllFileAllowed ⟨false, true, 32⟩ ⟨[1, 2, 3, 4, 5, 6, 7, 8, 9], 0⟩
    [.read 3, .write [10, 11], .relativeSeek (-4), .position, .read 2, .seek 0, .setBufferSize 16,
      .read 9, .size] := by
  simp [AllFileAllowed, FileAllowed, ctxStep, fileStep, fileWrite]

end Verif.Props.BufferedStream
