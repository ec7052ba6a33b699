import Verif.Model.TcpSocket
import Verif.Spec.TcpSocket
/-!
# C130: the TCP socket
-/
set_option linter.unusedSimpArgs false
namespace Verif.TcpSocket
open Spec

private theorem step_bytes {s : Sock} {o : Os} (ho : s.os = some o) (op : Op) :
    ∃ o', (step s op).sock.os = some o' ∧ ((step s op).answer = true ↔ (step s op).value ≠ []) ∧
      (match op with
       | .peek _ _ => o'.pending = o.pending ∧ o'.sent = o.sent ∧ (step s op).value <+: o.pending
       | .read _ _ | .readFor _ _ _ => (step s op).value ++ o'.pending = o.pending ∧ o'.sent = o.sent
       | .write data _ | .writeFor data _ _ => o'.pending = o.pending ∧ o'.sent = o.sent ++ (step s op).value ∧ (step s op).value <+: data) := by
  have hne : ∀ (n : Nat) (l : List Byte), (decide (n > 0) = true) → n ≤ l.length → l.take n ≠ [] := by
    intro n l h1 h2 h3
    have := congrArg List.length h3
    simp at this h1
    rcases this with h | h
    · omega
    · subst h; simp at h2; omega
  have hle : ∀ (o : Os) size k, taken o size k ≤ o.pending.length := by intro o size k; unfold taken; omega
  cases op with
  | peek size ready =>
    cases ready with
    | none => exact ⟨o, by simp [step, peek, ho], by simp [step, peek, ho], rfl, rfl, by simp [step, peek, ho]⟩
    | some k =>
      refine ⟨o, by simp [step, peek, ho], ?_, rfl, rfl, by simp [step, peek, ho, List.take_prefix]⟩
      simp only [step, peek, ho]
      refine ⟨fun h => hne _ _ h (hle o size k), fun h => ?_⟩
      rcases Nat.eq_zero_or_pos (taken o size k) with h0 | h0
      · rw [h0] at h; simp at h
      · simpa using h0
  | read size ready =>
    cases ready with
    | none => exact ⟨o, by simp [step, read, ho], by simp [step, read, ho], by simp [step, read, ho], rfl⟩
    | some k =>
      refine ⟨{ o with pending := o.pending.drop (taken o size k) }, by simp [step, read, ho], ?_, by simp [step, read, ho], rfl⟩
      simp only [step, read, ho]
      refine ⟨fun h => hne _ _ h (hle o size k), fun h => ?_⟩
      rcases Nat.eq_zero_or_pos (taken o size k) with h0 | h0
      · rw [h0] at h; simp at h
      · simpa using h0
  | write data ready =>
    cases ready with
    | none => exact ⟨o, by simp [step, write, ho], by simp [step, write, ho], rfl, by simp [step, write, ho], by simp [step, write, ho]⟩
    | some k =>
      refine ⟨{ o with sent := o.sent ++ data.take k }, by simp [step, write, ho], ?_, rfl, by simp [step, write, ho], by simp [step, write, ho, List.take_prefix]⟩
      simp only [step, write, ho, decide_eq_true_eq, gt_iff_lt, List.length_pos_iff]
  | readFor size t io =>
    obtain ⟨setOk, ready, resetOk⟩ := io
    cases t with
    | none =>
      have hs : ∃ o1, (setRcv 0 resetOk s).os = some o1 ∧ o1.pending = o.pending ∧ o1.sent = o.sent := by
        cases resetOk <;> simp [setRcv, ho]
      obtain ⟨o1, e1, p1, p2⟩ := hs
      cases ready with
      | none => exact ⟨o1, by simp [step, readFor, read, ho, e1], by simp [step, readFor, read, ho, e1], by simp [step, readFor, read, ho, e1, p1], p2⟩
      | some k =>
        by_cases h0 : taken o1 size k = 0
        · exact ⟨o1, by simp [step, readFor, read, ho, e1, h0], by simp [step, readFor, read, ho, e1, h0],
            by simp [step, readFor, read, ho, e1, h0, p1], p2⟩
        · have hpos : taken o1 size k > 0 := by omega
          refine ⟨{ o1 with pending := o1.pending.drop (taken o1 size k) }, by simp [step, readFor, read, ho, e1], ?_, ?_, p2⟩
          · have := hne _ _ (by simpa using hpos) (hle o1 size k)
            simp [step, readFor, read, ho, e1, hpos, -List.take_eq_nil_iff, this]
          · simp [step, readFor, read, ho, e1, hpos, p1.symm]
    | some t =>
      cases setOk with
      | false =>
        cases resetOk <;> simp [step, readFor, setRcv, ho]
      | true =>
        have hs : ∃ o1, (setRcv (limitOf t) true s).os = some o1 ∧ o1.pending = o.pending ∧ o1.sent = o.sent := by simp [setRcv, ho]
        obtain ⟨o1, e1, p1, p2⟩ := hs
        cases ready with
        | none => cases resetOk <;> simp [step, readFor, read, ho, e1, setRcv, p1, p2] <;> simp [setRcv, ho] at e1 <;> simp [← e1]
        | some k =>
          by_cases h0 : taken o1 size k = 0
          · cases resetOk <;> simp [step, readFor, read, ho, e1, h0, setRcv, p1, p2] <;> simp [setRcv, ho] at e1 <;> simp [← e1] at h0 ⊢ <;> simp [h0]
          · have hpos : taken o1 size k > 0 := by omega
            have := hne _ _ (by simpa using hpos) (hle o1 size k)
            simp only [step, readFor, read, ho, e1, hpos, if_true, decide_true]
            cases resetOk <;> simp [setRcv, -List.take_eq_nil_iff, this, p1.symm, p2] 
  | writeFor data t io =>
    obtain ⟨setOk, ready, resetOk⟩ := io
    cases t with
    | none =>
      cases ready with
      | none => simp [step, writeFor, write, ho]
      | some k =>
        simp only [step, writeFor, write, ho]
        by_cases h0 : (data.take k).length > 0
        · simp [h0, List.take_prefix, -List.take_eq_nil_iff, List.length_pos_iff.1 h0, -List.length_take]
        · have : data.take k = [] := by
            cases h : data.take k with
            | nil => rfl
            | cons a l => rw [h] at h0; simp at h0
          simp [this]
    | some t =>
      cases setOk with
      | false => cases resetOk <;> simp [step, writeFor, setSnd, ho]
      | true =>
        cases ready with
        | none => cases resetOk <;> simp [step, writeFor, write, setSnd, ho]
        | some k =>
          simp only [step, writeFor, write, setSnd, ho, Option.map_some, if_true]
          by_cases h0 : (data.take k).length > 0
          · cases resetOk <;> simp [h0, List.take_prefix, -List.take_eq_nil_iff, List.length_pos_iff.1 h0, -List.length_take]
          · have : data.take k = [] := by
              cases h : data.take k with
              | nil => rfl
              | cons a l => rw [h] at h0; simp at h0
            cases resetOk <;> simp [this]

/-- **C130.** In any history the bytes that the program got, followed by those not read yet, are the bytes that arrived, and the bytes that were sent are those
of which it was told. -/
theorem c130_bytes : ∀ (ops : List Op) {s : Sock} {o : Os}, s.os = some o →
    ∃ o', (run s ops).1.os = some o' ∧ (run s ops).2.1 ++ o'.pending = o.pending ∧ o'.sent = o.sent ++ (run s ops).2.2
  | [], s, o, h => ⟨o, h, rfl, by simp [run]⟩
  | op :: ops, s, o, h => by
    obtain ⟨o1, e1, _, p⟩ := step_bytes h op
    obtain ⟨o2, e2, q1, q2⟩ := c130_bytes ops e1
    cases op with
    | peek size ready => exact ⟨o2, e2, by rw [← p.1]; exact q1, by rw [← p.2.1]; exact q2⟩
    | read size ready => exact ⟨o2, e2, by rw [← p.1, ← q1]; simp [run], by rw [← p.2]; exact q2⟩
    | write data ready => exact ⟨o2, e2, by rw [← p.1]; exact q1, by rw [q2, p.2.1]; simp [run]⟩
    | readFor size t io => exact ⟨o2, e2, by rw [← p.1, ← q1]; simp [run], by rw [← p.2]; exact q2⟩
    | writeFor data t io => exact ⟨o2, e2, by rw [← p.1]; exact q1, by rw [q2, p.2.1]; simp [run]⟩

/-- **C130.** An operation answers true exactly when it moved bytes; what it sends are the first bytes it was given, and what it shows without reading are the
first ones that arrived. -/
theorem c130_answer {s : Sock} {o : Os} (ho : s.os = some o) (op : Op) :
    ((step s op).answer = true ↔ (step s op).value ≠ []) ∧
    (∀ data ready, op = .write data ready → (step s op).value <+: data) ∧ (∀ data t io, op = .writeFor data t io → (step s op).value <+: data) ∧
    (∀ size ready, op = .peek size ready → (step s op).value <+: o.pending) := by
  obtain ⟨o', _, h, p⟩ := step_bytes ho op
  refine ⟨h, ?_, ?_, ?_⟩
  · rintro data ready rfl; exact p.2.2
  · rintro data t io rfl; exact p.2.2
  · rintro size ready rfl; exact p.2.2

/-- **C130.** When the operating system accepts to remove the limits, an operation leaves the socket in its mode and without a limit. -/
theorem c130_mode_partial {s : Sock} (hh : honest s) (hu : unlimited s) (op : Op) (ha : accepts op) :
    honest (step s op).sock ∧ unlimited (step s op).sock ∧ (step s op).sock.isBlocking = s.isBlocking := by
  obtain ⟨os, b⟩ := s
  cases os with
  | none => cases op <;> simp [step, peek, read, write, readFor, writeFor, honest, unlimited]
  | some o =>
    have h1 : o.blocking = b := hh o rfl
    have h2 := hu o rfl
    cases op with
    | peek size ready => cases ready <;> simp [step, peek, honest, unlimited, h1, h2]
    | read size ready => cases ready <;> simp [step, read, honest, unlimited, h1, h2]
    | write data ready => cases ready <;> simp [step, write, honest, unlimited, h1, h2]
    | readFor size t io =>
      obtain ⟨setOk, ready, resetOk⟩ := io
      simp only [accepts] at ha
      subst ha
      cases t <;> cases ready <;> cases setOk <;> simp [step, readFor, read, setRcv, honest, unlimited, h1, h2]
    | writeFor data t io =>
      obtain ⟨setOk, ready, resetOk⟩ := io
      simp only [accepts] at ha
      subst ha
      cases t <;> cases ready <;> cases setOk <;> simp [step, writeFor, write, setSnd, honest, unlimited, h1, h2]

private theorem limitOf_eq (t : Nat) : limitOf t = t / 1000 * 1000 := by unfold limitOf; omega

/-- **C130.** An operation with a finite timeout of at least one millisecond waits at most for it. -/
theorem c130_limit_partial {s : Sock} {t : Nat} (ht : 1000 ≤ t) (io : Io) (size : Nat) (data : List Byte) :
    within t (readFor size (some t) io s).waits ∧ within t (writeFor data (some t) io s).waits := by
  obtain ⟨os, b⟩ := s
  obtain ⟨setOk, ready, resetOk⟩ := io
  have h0 : ¬ limitOf t = 0 := by rw [limitOf_eq]; omega
  have h1 : limitOf t ≤ t := by rw [limitOf_eq]; omega
  cases os with
  | none => simp [readFor, writeFor, within]
  | some o =>
    cases hb : o.blocking <;> cases setOk <;> cases ready <;> simp [readFor, writeFor, read, write, setRcv, setSnd, limit, hb, h0, within, h1]

/-- **C130.** A wait for a connection, or a connection, with a finite timeout leaves the socket in its mode, when the operating system accepts to change it back. -/
theorem c130_connect_mode_partial {s : Sock} (hh : honest s) (t : Timeout) (addressOk setOk : Bool) (conn : Conn) (first second : Try) :
    honest (connect t addressOk setOk conn true s).sock ∧ (connect t addressOk setOk conn true s).sock.isBlocking = s.isBlocking ∧
    honest (waitConnection t setOk first second true s).sock ∧ (waitConnection t setOk first second true s).sock.isBlocking = s.isBlocking := by
  obtain ⟨os, b⟩ := s
  cases os with
  | none => simp [connect, waitConnection, honest]
  | some o =>
    have h1 : o.blocking = b := hh o rfl
    cases t <;> cases addressOk <;> cases setOk <;> cases b <;> simp [connect, waitConnection, setBlocking, honest, h1]

/-- **C130.** A connection with a finite timeout waits at most for it, and so does the wait for a connection whose second try, if there is one, is accepted. -/
theorem c130_connect_limit_partial {s : Sock} (hh : honest s) (t : Nat) (addressOk setOk resetOk : Bool) (conn : Conn) (first : Try) :
    within t (connect (some t) addressOk setOk conn resetOk s).waits ∧ within t (waitConnection (some t) setOk first .accepted resetOk s).waits := by
  obtain ⟨os, b⟩ := s
  cases os with
  | none => simp [connect, waitConnection, within]
  | some o =>
    have h1 : o.blocking = b := hh o rfl
    constructor
    · cases addressOk <;> cases setOk <;> cases b <;> cases conn <;> simp [connect, setBlocking, within, h1]
    · cases setOk <;> cases b <;> rcases first with _ | ⟨_ | _, _ | _⟩ <;> simp [waitConnection, acceptRound, setBlocking, within, h1]

/-- **C130 fails for timeouts below one millisecond**, among them the one of zero: the limit that is given is zero, which is none, and a blocking socket waits
for ever. -/
theorem c130_nowait_fails {o : Os} (hb : o.blocking = true) {t : Nat} (ht : t < 1000) (size : Nat) (data : List Byte) (ready : Option Nat) (resetOk b : Bool) :
    (readFor size (some t) ⟨true, ready, resetOk⟩ ⟨some o, b⟩).waits = [none] ∧
    (writeFor data (some t) ⟨true, ready, resetOk⟩ ⟨some o, b⟩).waits = [none] := by
  have h0 : limitOf t = 0 := by rw [limitOf_eq]; omega
  cases ready <;> simp [readFor, writeFor, read, write, setRcv, setSnd, limit, hb, h0]

/-- **C130 fails for the wait for a connection** that goes away: the wait is made twice. -/
theorem c130_accept_fails {o : Os} (t : Nat) (ht : 0 < t) (ready : Bool) :
    ¬ within t (waitConnection (some t) true (.failed true true) (.failed true ready) true ⟨some o, true⟩).waits := by
  simp [waitConnection, acceptRound, setBlocking, within]
  omega

/-- **C130 fails for a socket that is opened again**: it tells the mode of the one that was closed. -/
theorem c130_open_fails {o : Os} : ¬ honest (openSocket (close (setBlocking false true ⟨some o, true⟩).1)) := by
  simp [openSocket, close, setBlocking, honest]

/-- **C130.** A socket that is opened for the first time tells its mode, has no limit of time left, and nothing was received or sent. -/
theorem c130_opened : honest (openSocket ⟨none, true⟩) ∧ ∀ s : Sock, unlimited (openSocket s) ∧ ∀ o ∈ (openSocket s).os, o.pending = [] ∧ o.sent = [] := by
  refine ⟨?_, fun s => ⟨?_, ?_⟩⟩
  · simp [honest, openSocket]
  · simp [unlimited, openSocket]
  · simp [openSocket]

/-- **C130.** `Connect` answers true exactly when the connection was made, at once or while it waited, and the mode of the socket could be changed for it and
changed back. -/
theorem c130_connected (s : Sock) (t : Timeout) (addressOk setOk resetOk : Bool) (conn : Conn) :
    (connect t addressOk setOk conn resetOk s).answer = true ↔
      s.os.isSome = true ∧ addressOk = true ∧ (t.isSome = true → s.isBlocking = true → setOk = true ∧ resetOk = true) ∧
      (conn = .done ∨ (conn = .progress true true ∧ (t.isSome = true ∨ s.isBlocking = false))) := by
  obtain ⟨os, b⟩ := s
  cases os <;> cases t <;> cases b <;> cases addressOk <;> cases setOk <;> cases resetOk <;> rcases conn with _ | _ | ⟨_ | _, _ | _⟩ <;>
    simp [connect, setBlocking]

/-- **C130.** `WaitConnection` returns a client exactly when one was accepted, at once or after a wait, and the mode of the socket could be changed for it and
changed back. -/
theorem c130_accepted (s : Sock) (t : Timeout) (setOk resetOk : Bool) (first second : Try) :
    (waitConnection t setOk first second resetOk s).answer = true ↔
      s.os.isSome = true ∧ (t.isSome = true → s.isBlocking = true → setOk = true ∧ resetOk = true) ∧
      (first = .accepted ∨ (first = .failed true true ∧ t.isSome = true ∧ s.isBlocking = true ∧ second = .accepted)) := by
  obtain ⟨os, b⟩ := s
  cases os <;> cases t <;> cases b <;> cases setOk <;> cases resetOk <;> rcases first with _ | ⟨_ | _, _ | _⟩ <;> rcases second with _ | ⟨_ | _, _ | _⟩ <;>
    simp [waitConnection, setBlocking, acceptRound]

private theorem read_len (size : Nat) (ready : Option Nat) (s : Sock) : (read size ready s).value.length ≤ size := by
  obtain ⟨os, b⟩ := s
  cases os <;> cases ready <;> simp [read, taken] <;> omega

/-- **C130.** No more bytes are given than were asked for. -/
theorem c130_asked (s : Sock) (op : Op) (size : Nat)
    (h : (∃ ready, op = .peek size ready) ∨ (∃ ready, op = .read size ready) ∨ (∃ t io, op = .readFor size t io)) : (step s op).value.length ≤ size := by
  have key : ∀ (c : Bool) (ready : Option Nat) (s : Sock), (if c = true then (read size ready s).value else []).length ≤ size := by
    intro c ready s
    have := read_len size ready s
    cases c <;> simp [this]
  rcases h with ⟨ready, rfl⟩ | ⟨ready, rfl⟩ | ⟨t, io, rfl⟩
  · obtain ⟨os, b⟩ := s
    cases os <;> cases ready <;> simp [step, peek, taken] <;> omega
  · exact read_len size ready s
  · unfold step readFor
    dsimp only
    split
    · simp
    · split
      · split
        · exact key _ _ _
        · simp
      · exact key _ _ _

/-- A read with a timeout of one second takes what arrived. -/
example : ((readFor 10 (some 1000000) ⟨true, some 5, true⟩ ⟨some ⟨true, 0, 0, [1, 2, 3], []⟩, true⟩).value,
    (readFor 10 (some 1000000) ⟨true, some 5, true⟩ ⟨some ⟨true, 0, 0, [1, 2, 3], []⟩, true⟩).waits) = ([1, 2, 3], [some 1000000]) := by decide

end Verif.TcpSocket
