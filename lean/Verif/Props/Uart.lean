import Verif.Spec.Uart
/-!
# C135: a serial port
-/
set_option linter.unusedSimpArgs false
namespace Verif.Uart
open Spec

private theorem pick_mem : ∀ (l : List Nat) (v : Nat), l ≠ [] → pick l v ∈ l
  | [], _, h => absurd rfl h
  | [x], _, _ => by simp [pick]
  | x :: y :: r, v, _ => by
    unfold pick
    split
    · exact List.mem_cons_of_mem _ (pick_mem (y :: r) v (by simp))
    · exact List.mem_cons_self

private theorem pick_self : ∀ (l : List Nat) (v : Nat), l.Pairwise (· < ·) → v ∈ l → pick l v = v
  | [], _, _, h => absurd h (by simp)
  | [x], v, _, h => by rw [List.mem_singleton] at h; simp [pick, h]
  | x :: y :: r, v, hp, h => by
    unfold pick
    rw [List.pairwise_cons] at hp
    rcases List.mem_cons.1 h with rfl | h
    · rw [if_neg (by omega)]
    · rw [if_pos (hp.1 v h)]
      exact pick_self (y :: r) v hp.2 h

private theorem sorted : speeds.Pairwise (· < ·) := by decide

private theorem mem_speeds (v : Nat) : v ∈ speeds ↔ Standard v := by
  have : speeds = [0, 50, 75, 110, 134, 150, 200, 300, 600, 1200, 1800, 2400, 4800, 9600, 19200, 38400, 57600, 115200] ++
    [230400, 460800, 500000, 576000, 921600, 1000000, 1152000, 1500000, 2000000, 2500000, 3000000, 3500000, 4000000] := rfl
  rw [this, List.mem_append]
  rfl

/-- **C135.** A speed is accepted exactly when the port is closed and the speed is one of the speeds of serial lines; it is the speed of the port then.  The speed
of a port that is open does not change. -/
theorem c135_speed_partial (v : Nat) (p : Port) :
    ((setSpeed v p).2 = true ↔ p.fd = none ∧ Standard v) ∧ ((setSpeed v p).2 = true → (setSpeed v p).1 = { p with speed := v }) ∧
    (p.fd ≠ none → (setSpeed v p).1 = p) := by
  obtain ⟨fd, sp, rs, ws⟩ := p
  cases fd with
  | some n => simp [setSpeed]
  | none =>
    have key : v = pick speeds v ↔ Standard v := by
      rw [← mem_speeds]
      constructor
      · intro h; rw [h]; exact pick_mem speeds v (by decide)
      · intro h; exact (pick_self speeds v sorted h).symm
    refine ⟨?_, ?_, ?_⟩
    · simp only [setSpeed, decide_eq_true_eq, true_and]
      exact key
    · intro h
      simp only [setSpeed, decide_eq_true_eq] at h
      simp only [setSpeed]
      rw [← h]
    · intro h; exact absurd rfl h

/-- **C135 fails for a speed that is refused**: the speed of the port is changed to another one, for every speed of the port before. -/
theorem c135_speed_fails (p : Port) (hp : p.fd = none) : (setSpeed 9601 p).2 = false ∧ (setSpeed 9601 p).1.speed = 19200 ∧
    (setSpeed 5000000 p).2 = false ∧ (setSpeed 5000000 p).1.speed = 4000000 := by
  obtain ⟨fd, sp, rs, ws⟩ := p
  cases hp
  exact ⟨by simp [setSpeed, pick, speeds], by simp [setSpeed, pick, speeds], by simp [setSpeed, pick, speeds], by simp [setSpeed, pick, speeds]⟩

private theorem run_sets (n : Nat) : ∀ (ops : List Op) {p q : Port}, (∀ op ∈ ops, Always n op) → (∀ d ∈ p.readSet, d = n) → (∀ d ∈ p.writeSet, d = n) →
    (∀ m, p.fd = some m → m = n ∧ n ∈ p.readSet ∧ n ∈ p.writeSet) → run p ops = some q →
    (∀ d ∈ q.readSet, d = n) ∧ (∀ d ∈ q.writeSet, d = n) ∧ (∀ m, q.fd = some m → m = n ∧ n ∈ q.readSet ∧ n ∈ q.writeSet)
  | [], p, q, _, h1, h2, h3, h => by cases h; exact ⟨h1, h2, h3⟩
  | op :: ops, p, q, ha, h1, h2, h3, h => by
    have ha' : ∀ op ∈ ops, Always n op := fun x hx => ha x (List.mem_cons_of_mem _ hx)
    have h0 := ha op List.mem_cons_self
    cases op with
    | setSpeed v =>
      refine run_sets n ops (p := (setSpeed v p).1) ha' ?_ ?_ ?_ h <;> unfold setSpeed <;> split
      · exact h1
      · exact h1
      · exact h2
      · exact h2
      · exact h3
      · exact h3
    | close => exact run_sets n ops (p := close p) ha' h1 h2 (fun m hm => by simp [close] at hm) h
    | «open» fd settings =>
      cases h0
      rw [run, Option.bind_eq_some_iff] at h
      obtain ⟨r, e, h⟩ := h
      unfold openPort at e
      split at e
      · cases e; exact run_sets n ops ha' h1 h2 h3 h
      · dsimp only at e
        split at e
        · cases e
          refine run_sets n ops ha' ?_ ?_ ?_ h
          · intro d hd; rcases List.mem_cons.1 hd with hd | hd
            · exact hd
            · exact h1 d hd
          · intro d hd; rcases List.mem_cons.1 hd with hd | hd
            · exact hd
            · exact h2 d hd
          · intro m hm; cases hm; exact ⟨rfl, List.mem_cons_self, List.mem_cons_self⟩
        · cases e

private theorem select_one {opened ready : Nat → Bool} {n : Nat} {set : List Nat} (h : ∀ d ∈ set, d = n) (hm : n ∈ set) :
    select opened ready (n + 1) set = (opened n && ready n) := by
  have e : (set.filter fun d => d < n + 1) = set := by
    rw [List.filter_eq_self]; intro d hd; rw [h d hd]; simp
  unfold select
  rw [e]
  have h1 : set.all opened = opened n := by
    rw [Bool.eq_iff_iff, List.all_eq_true]
    exact ⟨fun x => x n hm, fun x d hd => by rw [h d hd]; exact x⟩
  have h2 : set.any ready = ready n := by
    rw [Bool.eq_iff_iff, List.any_eq_true]
    exact ⟨fun ⟨d, hd, x⟩ => by rw [← h d hd]; exact x, fun x => ⟨n, hm, x⟩⟩
  rw [h1, h2]

/-- The history does not write outside of the sets. -/
private theorem run_defined (n : Nat) (hn : n < 1024) : ∀ (ops : List Op) (p : Port), (∀ op ∈ ops, Always n op) → ∃ q, run p ops = some q
  | [], p, _ => ⟨p, rfl⟩
  | op :: ops, p, ha => by
    have ha' : ∀ op ∈ ops, Always n op := fun x hx => ha x (List.mem_cons_of_mem _ hx)
    have h0 := ha op List.mem_cons_self
    cases op with
    | setSpeed v => exact run_defined n hn ops _ ha'
    | close => exact run_defined n hn ops _ ha'
    | «open» fd settings =>
      cases h0
      obtain ⟨fd, sp, rs, ws⟩ := p
      cases fd with
      | some m => exact run_defined n hn ops _ ha'
      | none =>
        rw [run]
        have : openPort (some n) settings ⟨none, sp, rs, ws⟩ = some (⟨some n, sp, n :: rs, n :: ws⟩, settings) := by
          simp [openPort, setSize, hn]
        rw [this]
        exact run_defined n hn ops _ ha'

/-- **C135.** In every history in which the operating system gives the same descriptor at every opening, waiting on an open port answers whether this port is
ready, and waiting on a closed one answers no. -/
theorem c135_wait_partial {n : Nat} (hn : n < 1024) (ops : List Op) (ha : ∀ op ∈ ops, Always n op) :
    ∃ p, run new ops = some p ∧ ∀ (opened ready : Nat → Bool),
      (p.fd = some n ∨ p.fd = none) ∧
      (p.fd = some n → opened n = true → waitRead opened ready p = ready n ∧ waitWrite opened ready p = ready n) ∧
      (p.fd = none → waitRead opened ready p = false ∧ waitWrite opened ready p = false) := by
  obtain ⟨p, hp⟩ := run_defined n hn ops new ha
  obtain ⟨h1, h2, h3⟩ := run_sets n ops (p := new) ha (by simp [new]) (by simp [new]) (by simp [new]) hp
  refine ⟨p, hp, fun opened ready => ⟨?_, ?_, ?_⟩⟩
  · cases hf : p.fd with
    | none => exact Or.inr rfl
    | some m => rw [(h3 m hf).1]; exact Or.inl rfl
  · intro hf ho
    obtain ⟨_, hr, hw⟩ := h3 n hf
    unfold waitRead waitWrite
    rw [hf]
    dsimp only
    rw [select_one h1 hr, select_one h2 hw, ho]
    exact ⟨rfl, rfl⟩
  · intro hf
    unfold waitRead waitWrite select
    rw [hf]
    simp

/-- **C135 fails for a port that is opened again with a higher descriptor**: the old one stays in the sets, and when it is not open every wait fails, although the
port is ready. -/
theorem c135_again_fails (m n : Nat) (hm : m < n) (hn : n < 1024) (opened ready : Nat → Bool) (ho : opened m = false) :
    ∃ p, run new [.open (some m) true, .close, .open (some n) true] = some p ∧ p.fd = some n ∧ waitRead opened ready p = false ∧
      waitWrite opened ready p = false := by
  have h1 : m < 1024 := by omega
  refine ⟨⟨some n, 19200, [n, m], [n, m]⟩, by simp [run, openPort, new, close, setSize, h1, hn], rfl, ?_, ?_⟩ <;>
  · have : m < n + 1 := by omega
    simp [waitRead, waitWrite, select, ho, this]

/-- **C135 fails for a port that does not exist**: the sets are written outside of their memory. -/
theorem c135_open_fails (settings : Bool) (p : Port) (hp : p.fd = none) : openPort none settings p = none := by
  obtain ⟨fd, sp, rs, ws⟩ := p
  cases hp
  rfl

/-- **C135.** Opening, when it does not write outside of the sets: it is accepted exactly when the port is closed and its settings are accepted, and the port has
the new descriptor and the speed that was set. -/
theorem c135_open_partial (n : Nat) (hn : n < 1024) (settings : Bool) (p : Port) :
    ∃ q, openPort (some n) settings p = some (q, decide (p.fd = none) && settings) ∧ q.speed = p.speed ∧
      (p.fd = none → q.fd = some n) ∧ (p.fd ≠ none → q = p) := by
  obtain ⟨fd, sp, rs, ws⟩ := p
  cases fd with
  | some m => exact ⟨_, by simp [openPort], rfl, by simp, by simp⟩
  | none => exact ⟨⟨some n, sp, n :: rs, n :: ws⟩, by simp [openPort, setSize, hn], rfl, by simp, by simp⟩

/-- **C135.** A read with a timeout gives the bytes that arrived, in order, no more than were asked for, and leaves the others; it answers true exactly when it
gives all those asked for. -/
theorem c135_read (timeout : Nat) : ∀ (rs : List Round) (size : Nat) (pending : List Byte),
    (readFor timeout rs size pending).value ++ (readFor timeout rs size pending).pending = pending ∧
    (readFor timeout rs size pending).value.length ≤ size ∧
    ((readFor timeout rs size pending).answer = true ↔ (readFor timeout rs size pending).value.length = size)
  | [], 0, _ => by simp [readFor]
  | _ :: _, 0, _ => by simp [readFor]
  | [], _ + 1, _ => by simp [readFor]
  | r :: rs, left + 1, pending => by
    unfold readFor
    split
    · split
      · simp
      · rename_i k hk
        dsimp only
        split
        · rename_i hn
          obtain ⟨h1, h2, h3⟩ := c135_read timeout rs (left + 1 - min k (min (left + 1) pending.length)) (pending.drop (min k (min (left + 1) pending.length)))
          have hl : (pending.take (min k (min (left + 1) pending.length))).length = min k (min (left + 1) pending.length) := by
            rw [List.length_take]; omega
          refine ⟨?_, ?_, ?_⟩
          · rw [List.append_assoc, h1, List.take_append_drop]
          · rw [List.length_append, hl]; omega
          · rw [h3, List.length_append, hl]; omega
        · simp
    · simp

/-- **C135.** A read with a timeout waits at most the timeout for each byte. -/
theorem c135_time_partial (timeout : Nat) : ∀ (rs : List Round) (size : Nat) (pending : List Byte),
    total (readFor timeout rs size pending).waits ≤ size * timeout
  | [], 0, _ => by simp [readFor, total]
  | _ :: _, 0, _ => by simp [readFor, total]
  | [], n + 1, _ => by simp only [readFor, total]; rw [Nat.succ_mul]; omega
  | r :: rs, left + 1, pending => by
    have h0 : timeout ≤ (left + 1) * timeout := by rw [Nat.succ_mul]; omega
    unfold readFor
    split
    · split
      · simp only [total]; omega
      · rename_i k hk
        dsimp only
        split
        · rename_i hn
          have ih := c135_time_partial timeout rs (left + 1 - min k (min (left + 1) pending.length)) (pending.drop (min k (min (left + 1) pending.length)))
          have hle : (left + 1 - min k (min (left + 1) pending.length)) * timeout ≤ left * timeout := Nat.mul_le_mul_right _ (by omega)
          rw [total, Nat.succ_mul]
          omega
        · simp only [total]; omega
    · simp only [total]; omega

/-- **C135 fails for the timeout of a read**: when the bytes come one by one, it is that of each byte, and the read takes as many times longer. -/
theorem c135_time_fails (timeout : Nat) : ∀ (n : Nat) (pending : List Byte), n ≤ pending.length →
    (readFor timeout (List.replicate n ⟨true, timeout, some 1⟩) n pending).answer = true ∧
    total (readFor timeout (List.replicate n ⟨true, timeout, some 1⟩) n pending).waits = n * timeout
  | 0, _, _ => by simp [readFor, total]
  | n + 1, pending, h => by
    have e : min 1 (min (n + 1) pending.length) = 1 := by omega
    have ih := c135_time_fails timeout n (pending.drop 1) (by rw [List.length_drop]; omega)
    rw [List.replicate_succ]
    unfold readFor
    simp only [if_true, e, Nat.min_self, Nat.add_sub_cancel, Nat.lt_one_iff, Nat.zero_lt_one]
    refine ⟨ih.1, ?_⟩
    rw [total, ih.2, Nat.succ_mul]
    omega

/-- **C135.** A read without timeout answers false exactly when the operating system does; otherwise it gives the next bytes, no more than were asked for, and their
number.  A write that answers true sent everything. -/
theorem c135_plain (size : Nat) (k : Option Nat) (pending data : List Byte) :
    ((read size k pending).2.2.2 = true ↔ k ≠ none) ∧ (read size k pending).1 ++ (read size k pending).2.1 = pending ∧ (read size k pending).1.length ≤ size ∧
    ((read size k pending).2.2.2 = true → (read size k pending).2.2.1 = (read size k pending).1.length) ∧
    (write data k).1 <+: data ∧ ((write data k).2 = true → (write data k).1 = data) ∧ ((write data k).2 = false → k = none ∨ (write data k).1 ≠ data) := by
  cases k with
  | none => simp [read, write]
  | some k =>
    refine ⟨by simp [read], by simp [read], ?_, ?_, List.take_prefix _ _, ?_, ?_⟩
    · simp only [read, List.length_take]; omega
    · intro _; simp only [read, List.length_take]; omega
    · intro h
      simp only [write, decide_eq_true_eq] at h
      exact List.take_of_length_le (by rw [List.length_take] at h; omega)
    · intro h
      simp only [write, decide_eq_false_iff_not] at h
      exact Or.inr fun e => h (congrArg List.length e)

/-- **C135 fails for a read without timeout that fails**: the size that is told is 4294967295 bytes. -/
theorem c135_size_fails (size : Nat) (pending : List Byte) : (read size none pending).2.2.1 = 4294967295 := rfl

/-- A read of three bytes in two parts; then one that ends before it has all. -/
example : readFor 100 [⟨true, 30, some 2⟩, ⟨true, 50, some 9⟩] 3 [1, 2, 3, 4] = ⟨[1, 2, 3], [4], true, [30, 50]⟩ ∧
    readFor 100 [⟨true, 30, some 2⟩] 3 [1, 2] = ⟨[1, 2], [], false, [30, 100]⟩ ∧ Standard 115200 ∧
    (∀ op ∈ [Op.setSpeed 9600, .open (some 3) true, .close, .open (some 3) true], Always 3 op) := by
  refine ⟨by decide, by decide, by simp [Standard], by simp [Always]⟩

end Verif.Uart
