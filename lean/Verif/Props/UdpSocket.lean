import Verif.Spec.UdpSocket
/-!
# C133: the datagrams of a UDP socket
-/
set_option linter.unusedSimpArgs false
namespace Verif.UdpSocket
open Spec

/-- A read takes the next datagram, or nothing and then it answers false. -/
private theorem read_step {size : Nat} {ok : Bool} {s : Sock} {o : Os} (h : s.os = some o) (hs : 0 < size) (hne : ∀ d ∈ o.incoming, d.2 ≠ []) :
    ∃ o', (read size ok s).sock.os = some o' ∧ o'.sent = o.sent ∧ (read size ok s).sock.destination = s.destination ∧
      (((read size ok s).answer = false ∧ o'.incoming = o.incoming) ∨
       ((read size ok s).answer = true ∧ ∃ d, o.incoming = ((read size ok s).sock.source, d) :: o'.incoming ∧ (read size ok s).value = d.take size)) := by
  obtain ⟨os, src, dst⟩ := s
  cases h
  obtain ⟨bl, r, w, inc, snt⟩ := o
  cases ok with
  | false => exact ⟨_, rfl, rfl, rfl, Or.inl ⟨rfl, rfl⟩⟩
  | true =>
    cases inc with
    | nil => exact ⟨_, rfl, rfl, rfl, Or.inl ⟨rfl, rfl⟩⟩
    | cons x rest =>
      obtain ⟨g, d⟩ := x
      have hd : d ≠ [] := hne (g, d) List.mem_cons_self
      have hl : 0 < d.length := List.length_pos_iff.2 hd
      refine ⟨_, rfl, rfl, rfl, Or.inr ⟨?_, d, rfl, rfl⟩⟩
      show decide (0 < (d.take size).length) = true
      simp only [List.length_take, decide_eq_true_eq]
      omega

private theorem set_rcv {s : Sock} {o : Os} (v : Nat) (ok : Bool) (h : s.os = some o) :
    ∃ o', (setRcv v ok s).os = some o' ∧ o'.incoming = o.incoming ∧ o'.sent = o.sent ∧ (setRcv v ok s).destination = s.destination ∧
      (setRcv v ok s).source = s.source := by
  unfold setRcv
  cases ok <;> simp [h]

private theorem set_snd {s : Sock} {o : Os} (v : Nat) (ok : Bool) (h : s.os = some o) :
    ∃ o', (setSnd v ok s).os = some o' ∧ o'.incoming = o.incoming ∧ o'.sent = o.sent ∧ (setSnd v ok s).destination = s.destination ∧
      (setSnd v ok s).source = s.source := by
  unfold setSnd
  cases ok <;> simp [h]

private theorem readFor_step {size : Nat} {t : Timeout} {io : Io} {s : Sock} {o : Os} (h : s.os = some o) (hs : 0 < size)
    (hne : ∀ d ∈ o.incoming, d.2 ≠ []) :
    ∃ o', (readFor size t io s).sock.os = some o' ∧ o'.sent = o.sent ∧ (readFor size t io s).sock.destination = s.destination ∧
      (((readFor size t io s).answer = false ∧ o'.incoming = o.incoming) ∨
       ((readFor size t io s).answer = true ∧
        ∃ d, o.incoming = ((readFor size t io s).sock.source, d) :: o'.incoming ∧ (readFor size t io s).value = d.take size)) := by
  unfold readFor
  rw [h]
  dsimp only
  cases t with
  | none => exact read_step h hs hne
  | some t =>
    dsimp only
    by_cases hk : io.setOk = true
    · rw [if_pos hk]
      obtain ⟨o1, e1, i1, s1, d1, _⟩ := set_rcv (limitOf t) true h
      obtain ⟨o2, e2, s2, d2, r2⟩ := read_step (ok := io.ok) e1 hs (by rw [i1]; exact hne)
      obtain ⟨o3, e3, i3, s3, d3, c3⟩ := set_rcv 0 io.resetOk e2
      refine ⟨o3, e3, by rw [s3, s2, s1], by rw [d3, d2, d1], ?_⟩
      rcases r2 with ⟨a, b⟩ | ⟨a, d, b, c⟩
      · exact Or.inl ⟨a, by rw [i3, b, i1]⟩
      · refine Or.inr ⟨a, d, ?_, ?_⟩
        · rw [c3, i3, ← b, i1]
        · rw [if_pos a]; exact c
    · rw [if_neg hk]
      obtain ⟨o3, e3, i3, s3, d3, c3⟩ := set_rcv 0 io.resetOk h
      exact ⟨o3, e3, s3, d3, Or.inl ⟨rfl, i3⟩⟩

/-- The other operations leave what arrived. -/
private theorem write_step (data : List Byte) (ok : Bool) {s : Sock} {o : Os} (h : s.os = some o) :
    ∃ o', (write data ok s).sock.os = some o' ∧ o'.incoming = o.incoming ∧ (write data ok s).sock.destination = s.destination ∧
      o'.sent = o.sent ++ (if ok then [(s.destination, data)] else []) ∧
      (write data ok s).value = (if ok then data else []) ∧ ((write data ok s).answer = true ↔ ok = true ∧ data ≠ []) := by
  obtain ⟨os, src, dst⟩ := s
  cases h
  unfold write
  cases ok <;> simp [List.length_pos_iff]

private theorem writeFor_step (data : List Byte) (t : Timeout) (io : Io) {s : Sock} {o : Os} (h : s.os = some o) :
    ∃ o', (writeFor data t io s).sock.os = some o' ∧ o'.incoming = o.incoming ∧ (writeFor data t io s).sock.destination = s.destination ∧
      o'.sent = o.sent ++ (if (t = none ∨ io.setOk = true) ∧ io.ok = true then [(s.destination, data)] else []) ∧
      ((writeFor data t io s).answer = true ↔ (t = none ∨ io.setOk = true) ∧ io.ok = true ∧ data ≠ []) := by
  unfold writeFor
  rw [h]
  dsimp only
  cases t with
  | none =>
    obtain ⟨o', a, b, c, d, _, e⟩ := write_step data io.ok h
    exact ⟨o', a, b, c, by simpa using d, by simpa using e⟩
  | some t =>
    dsimp only
    by_cases hk : io.setOk = true
    · rw [if_pos hk]
      obtain ⟨o1, e1, i1, s1, d1, _⟩ := set_snd (limitOf t) true h
      obtain ⟨o2, e2, i2, d2, s2, _, r2⟩ := write_step data io.ok e1
      obtain ⟨o3, e3, i3, s3, d3, c3⟩ := set_snd 0 io.resetOk e2
      refine ⟨o3, e3, by rw [i3, i2, i1], by rw [d3, d2, d1], ?_, ?_⟩
      · rw [s3, s2, s1, d1]; simp [hk]
      · simpa [hk] using r2
    · rw [if_neg hk]
      obtain ⟨o3, e3, i3, s3, d3, c3⟩ := set_snd 0 io.resetOk h
      exact ⟨o3, e3, i3, d3, by simp [hk, s3], by simp [hk]⟩

private theorem peek_step (size : Nat) (ok : Bool) {s : Sock} {o : Os} (h : s.os = some o) :
    (peek size ok s).sock.os = some o ∧ (peek size ok s).sock.destination = s.destination := by
  obtain ⟨os, src, dst⟩ := s
  cases h
  unfold peek
  dsimp only
  split <;> exact ⟨rfl, rfl⟩

private theorem connect_step (numeric byName : Option Nat) (port : Nat) {s : Sock} {o : Os} (h : s.os = some o) :
    (connect numeric byName port s).1.os = some o := by
  obtain ⟨os, src, dst⟩ := s
  cases h
  cases numeric <;> cases byName <;> rfl

/-- **C133.** In every history, when no empty datagram arrives, the reads that succeed give the datagrams that arrived, one each and in order, with their
senders, cut at the size asked for; peeks, writes and reads that fail take none. -/
theorem c133_received_partial : ∀ (ops : List Op) {s : Sock} {o : Os}, s.os = some o → (∀ d ∈ o.incoming, d.2 ≠ []) → (∀ op ∈ ops, asks op) →
    ∃ taken o', (run s ops).1.os = some o' ∧ o.incoming = taken ++ o'.incoming ∧ Received (run s ops).2 taken
  | [], s, o, h, _, _ => ⟨[], o, h, rfl, .nil⟩
  | op :: ops, s, o, h, hne, ha => by
    have ha' : ∀ op ∈ ops, asks op := fun x hx => ha x (List.mem_cons_of_mem _ hx)
    have same : ∀ {s1 : Sock} {o1 : Os}, s1.os = some o1 → o1.incoming = o.incoming →
        ∃ taken o', (run s1 ops).1.os = some o' ∧ o.incoming = taken ++ o'.incoming ∧ Received (run s1 ops).2 taken := by
      intro s1 o1 h1 e
      have := c133_received_partial ops h1 (by rw [e]; exact hne) ha'
      rwa [e] at this
    have one : ∀ {s1 : Sock} {o1 : Os} {a : Bool} {v : List Byte} {size : Nat}, s1.os = some o1 →
        ((a = false ∧ o1.incoming = o.incoming) ∨ (a = true ∧ ∃ d, o.incoming = (s1.source, d) :: o1.incoming ∧ v = d.take size)) →
        ∃ taken o', (run s1 ops).1.os = some o' ∧ o.incoming = taken ++ o'.incoming ∧
          Received (if a then (size, s1.source, v) :: (run s1 ops).2 else (run s1 ops).2) taken := by
      intro s1 o1 a v size h1 e
      rcases e with ⟨rfl, e⟩ | ⟨rfl, d, e, rfl⟩
      · exact same h1 e
      · obtain ⟨taken, o', x, y, z⟩ := c133_received_partial ops h1
          (fun d hd => hne d (by rw [e]; exact List.mem_cons_of_mem _ hd)) ha'
        exact ⟨_ :: taken, o', x, by rw [e, y]; rfl, .cons _ _ _ _ _ z⟩
    have h0 := ha op List.mem_cons_self
    cases op with
    | peek size ok => exact same (peek_step size ok h).1 rfl
    | read size ok =>
      obtain ⟨o', x, _, _, y⟩ := read_step (ok := ok) h h0 hne
      exact one x y
    | write data ok =>
      obtain ⟨o', x, y, _⟩ := write_step data ok h
      exact same x y
    | readFor size t io =>
      obtain ⟨o', x, _, _, y⟩ := readFor_step (t := t) (io := io) h h0 hne
      exact one x y
    | writeFor data t io =>
      obtain ⟨o', x, y, _⟩ := writeFor_step data t io h
      exact same x y
    | connect numeric byName port => exact same (connect_step numeric byName port h) rfl
    | setDestination g => exact same (s1 := { s with destination := g }) h rfl

private theorem read_sent (size : Nat) (ok : Bool) {s : Sock} {o : Os} (h : s.os = some o) :
    ∃ o', (read size ok s).sock.os = some o' ∧ o'.sent = o.sent ∧ (read size ok s).sock.destination = s.destination := by
  obtain ⟨os, src, dst⟩ := s
  cases h
  unfold read
  dsimp only
  split <;> exact ⟨_, rfl, rfl, rfl⟩

private theorem readFor_sent (size : Nat) (t : Timeout) (io : Io) {s : Sock} {o : Os} (h : s.os = some o) :
    ∃ o', (readFor size t io s).sock.os = some o' ∧ o'.sent = o.sent ∧ (readFor size t io s).sock.destination = s.destination := by
  unfold readFor
  rw [h]
  dsimp only
  cases t with
  | none => exact read_sent size io.ok h
  | some t =>
    dsimp only
    by_cases hk : io.setOk = true
    · rw [if_pos hk]
      obtain ⟨o1, e1, _, s1, d1, _⟩ := set_rcv (limitOf t) true h
      obtain ⟨o2, e2, s2, d2⟩ := read_sent size io.ok e1
      obtain ⟨o3, e3, _, s3, d3, _⟩ := set_rcv 0 io.resetOk e2
      exact ⟨o3, e3, by rw [s3, s2, s1], by rw [d3, d2, d1]⟩
    · rw [if_neg hk]
      obtain ⟨o3, e3, _, s3, d3, _⟩ := set_rcv 0 io.resetOk h
      exact ⟨o3, e3, s3, d3⟩

/-- **C133.** In every history in which the addresses of the connections are found, what is sent is one datagram for each write, whole, to the host of the last
connection or to the one that was set. -/
theorem c133_sent_partial : ∀ (ops : List Op) {s : Sock} {o : Os}, s.os = some o → (∀ op ∈ ops, found op) →
    ∃ o', (run s ops).1.os = some o' ∧ o'.sent = o.sent ++ sends s.destination ops
  | [], s, o, h, _ => ⟨o, h, by simp [sends]⟩
  | op :: ops, s, o, h, hf => by
    have hf' : ∀ op ∈ ops, found op := fun x hx => hf x (List.mem_cons_of_mem _ hx)
    have go : ∀ {s1 : Sock} {o1 : Os} {more : List Datagram}, s1.os = some o1 → o1.sent = o.sent ++ more →
        ∃ o', (run s1 ops).1.os = some o' ∧ o'.sent = o.sent ++ (more ++ sends s1.destination ops) := by
      intro s1 o1 more h1 e
      obtain ⟨o', x, y⟩ := c133_sent_partial ops h1 hf'
      exact ⟨o', x, by rw [y, e, List.append_assoc]⟩
    have h0 := hf op List.mem_cons_self
    cases op with
    | peek size ok =>
      obtain ⟨x, y⟩ := peek_step size ok h
      have := go (more := []) x (by simp)
      rw [y] at this; exact this
    | read size ok =>
      obtain ⟨o1, x, y, z⟩ := read_sent size ok h
      have := go (more := []) x (by simp [y])
      rw [z] at this; exact this
    | write data ok =>
      obtain ⟨o1, x, _, z, y, _⟩ := write_step data ok h
      have := go x y
      rw [z] at this; exact this
    | readFor size t io =>
      obtain ⟨o1, x, y, z⟩ := readFor_sent size t io h
      have := go (more := []) x (by simp [y])
      rw [z] at this; exact this
    | writeFor data t io =>
      obtain ⟨o1, x, _, z, y, _⟩ := writeFor_step data t io h
      have := go x y
      rw [z] at this; exact this
    | connect numeric byName port =>
      have e : (connect numeric byName port s).1.os = some o := connect_step numeric byName port h
      have := go (more := []) e (by simp)
      obtain ⟨o', x, y⟩ := this
      refine ⟨o', x, ?_⟩
      rw [y]
      cases numeric with
      | some a => simp [sends, connect, h]
      | none =>
        cases byName with
        | some a => simp [sends, connect, h]
        | none => simp [found] at h0
    | setDestination g =>
      exact go (s1 := { s with destination := g }) (more := []) h (by simp)

/-- **C133.** The answers: a write is told to have been done exactly when the operating system sends a datagram with something in it; a peek gives what the next
read would give, and takes nothing; a connection is told to be made exactly when its address is found. -/
theorem c133_answers {s : Sock} {o : Os} (h : s.os = some o) :
    (∀ data ok, (step s (.write data ok)).answer = true ↔ ok = true ∧ data ≠ []) ∧
    (∀ data t io, (step s (.writeFor data t io)).answer = true ↔ (t = none ∨ io.setOk = true) ∧ io.ok = true ∧ data ≠ []) ∧
    (∀ size ok, (step s (.peek size ok)).answer = (step s (.read size ok)).answer ∧ (step s (.peek size ok)).value = (step s (.read size ok)).value ∧
      (step s (.peek size ok)).sock.source = (step s (.read size ok)).sock.source ∧ (step s (.peek size ok)).sock.os = s.os) ∧
    (∀ numeric byName port, (step s (.connect numeric byName port)).answer = true ↔ numeric ≠ none ∨ byName ≠ none) := by
  refine ⟨fun data ok => ?_, fun data t io => ?_, fun size ok => ?_, fun numeric byName port => ?_⟩
  · obtain ⟨_, _, _, _, _, _, e⟩ := write_step data ok h; exact e
  · obtain ⟨_, _, _, _, _, e⟩ := writeFor_step data t io h; exact e
  · obtain ⟨os, src, dst⟩ := s
    cases h
    unfold step peek read
    dsimp only
    cases ok with
    | false => simp
    | true => cases hi : o.incoming <;> simp
  · cases numeric <;> cases byName <;> simp [step, connect, h]

private theorem limitOf_eq (t : Nat) : limitOf t = t := by unfold limitOf; omega

/-- **C133.** A read or a write with a timeout of some microseconds waits no longer than it, and leaves no limit for the next one if the operating system accepts
that. -/
theorem c133_limit_partial {s : Sock} {t : Nat} (ht : 0 < t) (io : Io) (size : Nat) (data : List Byte) :
    within t (readFor size (some t) io s).waits ∧ within t (writeFor data (some t) io s).waits ∧
    (io.resetOk = true → (∀ o ∈ (readFor size (some t) io s).sock.os, o.rcv = 0) ∧ (∀ o ∈ (writeFor data (some t) io s).sock.os, o.snd = 0)) := by
  obtain ⟨os, src, dst⟩ := s
  obtain ⟨setOk, ok, resetOk⟩ := io
  have h0 : ¬ t = 0 := by omega
  cases os with
  | none => simp [readFor, writeFor, within]
  | some o =>
    obtain ⟨b, r, w, inc, sent⟩ := o
    cases setOk <;> cases ok <;> cases resetOk <;> cases b <;> cases inc <;>
      simp [readFor, writeFor, read, write, setRcv, setSnd, limit, within, limitOf_eq, h0]

/-- **C133 fails for a timeout of zero**: it is no limit, and a socket that blocks waits until something arrives. -/
theorem c133_nowait_fails {o : Os} (hb : o.blocking = true) (src dst : Host) (size : Nat) (data : List Byte) (ok resetOk : Bool) :
    (readFor size (some 0) ⟨true, ok, resetOk⟩ ⟨some o, src, dst⟩).waits = [none] ∧
    (writeFor data (some 0) ⟨true, ok, resetOk⟩ ⟨some o, src, dst⟩).waits = [none] := by
  obtain ⟨b, r, w, inc, sent⟩ := o
  cases hb
  cases ok <;> cases inc <;> simp [readFor, writeFor, read, write, setRcv, setSnd, limit, limitOf_eq]

/-- **C133.** A socket that is not open refuses everything but a destination, and nothing changes. -/
theorem c133_closed {s : Sock} (h : s.os = none) (op : Op) (hd : ∀ d, op ≠ .setDestination d) : step s op = ⟨s, [], false, []⟩ := by
  obtain ⟨os, src, dst⟩ := s
  cases h
  cases op <;> first | rfl | exact absurd rfl (hd _)

/-- **C133.** A read succeeds exactly when the operating system does it and there is something in the next datagram to read; a write tells all of what was sent. -/
theorem c133_done {s : Sock} {o : Os} (h : s.os = some o) :
    (∀ size ok, (step s (.read size ok)).answer = true ↔ ok = true ∧ 0 < size ∧ ∃ d rest, o.incoming = d :: rest ∧ d.2 ≠ []) ∧
    (∀ size t io, (step s (.readFor size t io)).answer = true ↔
      (t = none ∨ io.setOk = true) ∧ io.ok = true ∧ 0 < size ∧ ∃ d rest, o.incoming = d :: rest ∧ d.2 ≠ []) ∧
    (∀ data ok, (step s (.write data ok)).value = if ok then data else []) ∧
    (∀ data t io, (step s (.writeFor data t io)).value = if (t = none ∨ io.setOk = true) ∧ io.ok = true then data else []) := by
  obtain ⟨os, src, dst⟩ := s
  cases h
  obtain ⟨b, r, w, inc, sent⟩ := o
  have key : ∀ (size : Nat) (ok : Bool) (r : Nat), (read size ok ⟨some ⟨b, r, w, inc, sent⟩, src, dst⟩).answer = true ↔
      ok = true ∧ 0 < size ∧ ∃ d rest, inc = d :: rest ∧ d.2 ≠ [] := by
    intro size ok r
    cases ok with
    | false => simp [read]
    | true =>
      cases inc with
      | nil => simp [read]
      | cons d rest =>
        obtain ⟨hst, bytes⟩ := d
        have : 0 < bytes.length ↔ bytes ≠ [] := List.length_pos_iff
        simp [read, List.length_take, ← this]
        try omega
  refine ⟨fun size ok => key size ok r, ?_, ?_, ?_⟩
  · intro size t io
    obtain ⟨s1, s2, s3⟩ := io
    cases t with
    | none => simpa [step, readFor] using key size s2 r
    | some t =>
      cases s1 with
      | false => simp [step, readFor]
      | true => simpa [step, readFor, setRcv] using key size s2 (limitOf t)
  · intro data ok; cases ok <;> rfl
  · intro data t io
    obtain ⟨s1, s2, s3⟩ := io
    cases t <;> cases s1 <;> cases s2 <;> simp [step, writeFor, write, setSnd]

/-- **C133 fails for a datagram that is longer than the read**: what does not fit is lost, the next read gives the next datagram. -/
theorem c133_cut_fails (o : Os) (src dst a b : Host) (d e : List Byte) (size : Nat) (hs : 0 < size) (hd : size < d.length) (he : e ≠ [])
    (hi : o.incoming = [(a, d), (b, e)]) :
    (run ⟨some o, src, dst⟩ [.read size true, .read size true]).2 = [(size, a, d.take size), (size, b, e.take size)] ∧ d.take size ≠ d := by
  have h1 : 0 < e.length := List.length_pos_iff.2 he
  have h2 : 0 < (d.take size).length := by rw [List.length_take]; omega
  have h3 : 0 < (e.take size).length := by rw [List.length_take]; omega
  refine ⟨?_, ?_⟩
  · simp only [run, step, read, hi, h2, h3, decide_true, if_true]
  · intro h
    have := congrArg List.length h
    rw [List.length_take] at this
    omega

/-- **C133 fails for an empty datagram**: it is taken, and the answer is that of a read that fails; so is that of a write that sends it. -/
theorem c133_empty_fails (o : Os) (src dst a : Host) (rest : List Datagram) (size : Nat) (hi : o.incoming = (a, []) :: rest) :
    read size true ⟨some o, src, dst⟩ = ⟨⟨some { o with incoming := rest }, a, dst⟩, [], false, [limit o o.rcv]⟩ ∧
    (write [] true ⟨some o, src, dst⟩).answer = false ∧ ((write [] true ⟨some o, src, dst⟩).sock.os.map (·.sent)) = some (o.sent ++ [(dst, [])]) := by
  refine ⟨?_, rfl, rfl⟩
  simp [read, hi]

/-- **C133 fails for a connection that is refused**: the destination is not the one from before, but the port of the refused one on the address zero, and the
next write is sent there. -/
theorem c133_refused_fails (o : Os) (src dst : Host) (port : Nat) (data : List Byte) :
    (connect none none port ⟨some o, src, dst⟩).2 = false ∧
    ((run ⟨some o, src, dst⟩ [.connect none none port, .write data true]).1.os.map (·.sent)) = some (o.sent ++ [(⟨0, port⟩, data)]) := ⟨rfl, rfl⟩

/-- Two datagrams arrive; the first one is looked at and read, an answer is sent to a host that is set, then to one that is found by its name. -/
example : let s : Sock := ⟨some ⟨true, 0, 0, [(⟨1, 10⟩, [5, 6]), (⟨2, 20⟩, [7])], []⟩, ⟨0, 0⟩, ⟨0, 0⟩⟩
    let ops : List Op := [.peek 1 true, .readFor 8 (some 100) ⟨true, true, true⟩, .setDestination ⟨1, 10⟩, .write [9] true, .connect none (some 3) 30,
      .writeFor [8, 8] none ⟨false, true, true⟩]
    (∀ d ∈ [((⟨1, 10⟩ : Host), [5, 6]), (⟨2, 20⟩, [7])], d.2 ≠ []) ∧ (run s ops).2 = [(8, ⟨1, 10⟩, [5, 6])] ∧
    ((run s ops).1.os.map (·.sent)) = some [(⟨1, 10⟩, [9]), (⟨3, 30⟩, [8, 8])] := by
  refine ⟨by decide, rfl, rfl⟩

end Verif.UdpSocket
