import Verif.Proof.Messages

/-!
# C26, C27, C28: message dispatch, waiting for a reply, the multi-reply catcher
-/

namespace Verif.Spec.Msg
open Verif.Msg

/-- A filter accepts a message if it consumes it, completely (no error) or as one of several (`NotCompleted`). -/
def Accepts (f : Filter) : Prop := f.isFilter = true ∧ (f.answer = 0 ∨ f.answer = notCompleted)

instance (f : Filter) : Decidable (Accepts f) := by unfold Accepts; infer_instance

/-- The first accepting filter. -/
def first (pool : List Filter) : Option Filter := pool.find? (fun f => decide (Accepts f))

/-- The filters the message is offered to: those before the first accepting one, and that one. -/
def offeredTo (pool : List Filter) : List Nat :=
  ((pool.filter (·.isFilter)).takeWhile (fun f => !decide (Accepts f))).map (·.id) ++ ((first pool).map (·.id)).toList

/-- The pool afterwards: the accepting filter is gone if it has consumed the message completely and is not permanent. -/
def poolAfter (pool : List Filter) : List Filter :=
  match first pool with
  | none => pool
  | some f => if f.answer = 0 ∧ f.permanent = false then pool.erase f else pool

/-- The timeline is ordered: counter, first look, then for each poll counter and look. -/
def Ordered (tl : Timeline) : Prop :=
  tl.start ≤ tl.look0 ∧ tl.look0 ≤ tl.clock 0 ∧ (∀ i, tl.clock i ≤ tl.look i) ∧ (∀ i, tl.look i ≤ tl.clock (i + 1))

/-- The reply is there at time `t`. -/
def Arrived (tl : Timeline) (t : Nat) : Prop := ∃ a, tl.arrival = some a ∧ a ≤ t

/-- All expected replies have arrived: each message of the list as often as it is in the list. Only replies count. -/
def AllArrived (expected : List Nat) (arrivals : List (Nat × Bool)) : Prop :=
  ∀ m, expected.count m ≤ arrivals.count (m, true)

end Verif.Spec.Msg

namespace Verif.Msg
open Verif.Spec.Msg

/-! ## C26 -/

theorem acc_eq : acc = fun f => decide (Accepts f) := by
  funext f; rw [Bool.eq_iff_iff, decide_eq_true_iff]; simp [acc, Accepts]

/-- **C26.** Dispatch never fails to produce a result (no NULL dereference), calls the filters in order up to the first
that accepts, and answers without error iff somebody accepted. -/
theorem c26_first_accepting (pool : List Filter) :
    ∃ e pool', receive pool = some (e, pool', offeredTo pool) ∧
      (e = 0 ↔ ∃ f ∈ pool, Accepts f) ∧ pool'.map (·.id) =
        (match first pool with
          | none => pool.map (·.id)
          | some f => if f.answer = 0 ∧ f.permanent = false then (pool.map (·.id)).erase f.id else pool.map (·.id)) := by
  have h := loop_spec pool ⟨0, none, false, false, []⟩ rfl rfl
  rw [acc_eq] at h
  simp only [List.nil_append] at h
  have hoff : (loop pool ⟨0, none, false, false, []⟩).offered = offeredTo pool := h.1
  have h2 := h.2
  unfold receive first
  cases hf : pool.find? (fun f => decide (Accepts f)) with
  | none =>
    simp only [hf] at h2
    simp only [h2.1, h2.2]
    refine ⟨_, _, by rw [hoff]; rfl, ?_, rfl⟩
    have hne := put_zero_ne unsupportedFeatureBit (by decide) (loop pool ⟨0, none, false, false, []⟩).err
    simp only [hne, false_iff]
    rintro ⟨f, hm, ha⟩
    have := List.find?_eq_none.mp hf f hm
    simp [ha] at this
  | some f =>
    simp only [hf] at h2
    obtain ⟨hl, he, hm, hp⟩ := h2
    have hacc : Accepts f := by simpa using List.find?_some hf
    have hmem : f ∈ pool := List.mem_of_find?_eq_some hf
    have hex : ∃ f ∈ pool, Accepts f := ⟨f, hmem, hacc⟩
    simp only [hex, iff_true]
    by_cases h0 : f.answer = 0
    · have hdel := deleteRef_mem f.id pool ⟨f, hmem, rfl⟩
      simp only [hm, h0, hl, Option.bind_some, beq_self_eq_true, if_true, true_and, hoff, he, hdel]
      by_cases hpm : f.permanent = true
      · simp only [hpm, Bool.not_true, Bool.false_eq_true, if_false, Bool.true_eq_false]
        exact ⟨_, _, rfl, by simp, rfl⟩
      · simp only [Bool.not_eq_true] at hpm
        simp only [hpm, Bool.not_false, if_true]
        exact ⟨_, _, rfl, by decide, deleteRef_ids f.id pool⟩
    · have hn : f.answer = notCompleted := by
        rcases hacc.2 with h | h
        · exact absurd h h0
        · exact h
      have hm' : (loop pool ⟨0, none, false, false, []⟩).matched = false := by rw [hm, hn]; decide
      have hp' : (loop pool ⟨0, none, false, false, []⟩).part = true := by rw [hp, hn]; decide
      simp only [hm', hp', hoff, he, if_true]
      refine ⟨_, _, rfl, ?_, ?_⟩
      · rw [hn]; decide
      · simp only [h0, false_and, if_false]

/-- **C26.** When no filter is installed twice, exactly the accepting filter is removed, and only if it is not permanent
and has consumed the message completely; all others stay, in order. -/
theorem c26_only_acceptor_removed (pool : List Filter) (hn : (pool.map (·.id)).Nodup) :
    ∃ e off, receive pool = some (e, poolAfter pool, off) := by
  have h := loop_spec pool ⟨0, none, false, false, []⟩ rfl rfl
  rw [acc_eq] at h
  have h2 := h.2
  unfold receive poolAfter first
  cases hf : pool.find? (fun f => decide (Accepts f)) with
  | none =>
    simp only [hf] at h2
    simp only [h2.1, h2.2]
    exact ⟨_, _, rfl⟩
  | some f =>
    simp only [hf] at h2
    obtain ⟨hl, he, hm, hp⟩ := h2
    have hacc : Accepts f := by simpa using List.find?_some hf
    have hmem : f ∈ pool := List.mem_of_find?_eq_some hf
    by_cases h0 : f.answer = 0
    · simp only [hm, h0, hl, Option.bind_some, beq_self_eq_true, if_true, true_and]
      by_cases hpm : f.permanent = true
      · simp [hpm]
      · simp only [Bool.not_eq_true] at hpm
        simp only [hpm, Bool.not_false, if_true, deleteRef_nodup f pool hmem hn]
        exact ⟨_, _, rfl⟩
    · have hn : f.answer = notCompleted := by
        rcases hacc.2 with h | h
        · exact absurd h h0
        · exact h
      have hm' : (loop pool ⟨0, none, false, false, []⟩).matched = false := by rw [hm, hn]; decide
      have hp' : (loop pool ⟨0, none, false, false, []⟩).part = true := by rw [hp, hn]; decide
      simp only [hm', hp', if_true, h0, false_and, if_false]
      exact ⟨_, _, rfl⟩

/-- A pool of four entries: one refuses, one is no filter, one accepts and is not permanent, one would accept. -/
example : receive [⟨1, true, true, Err.put 0 unsupportedFeatureBit true⟩, ⟨2, false, true, 0⟩, ⟨3, true, false, 0⟩, ⟨4, true, true, 0⟩] =
    some (0, [⟨1, true, true, Err.put 0 unsupportedFeatureBit true⟩, ⟨2, false, true, 0⟩, ⟨4, true, true, 0⟩], [1, 3]) := by decide

/-! ## C27 -/

theorem seen_iff (tl : Timeline) (t : Nat) : tl.seen t = true ↔ Arrived tl t := by
  unfold Timeline.seen Arrived
  cases tl.arrival <;> simp

theorem seen_false_iff (tl : Timeline) (t : Nat) : tl.seen t = false ↔ ¬ Arrived tl t := by
  rw [← seen_iff]; simp

/-- **C27**, the property is false of the code: `WaitForReply` (hence `SendMessageAndWaitReply`) gives up with a timeout
error at the first poll that happens *before* the timeout, whatever the timeout and whenever the reply arrives later. -/
theorem c27_gives_up_before_timeout (tl : Timeline) (n fuel : Nat) (hclock : tl.clock 0 - tl.start < n)
    (harr : ¬ Arrived tl tl.look0) :
    waitForReply true true tl (some n) (fuel + 1) = some (Err.put 0 timeoutBit true, 1) := by
  have hs := (seen_false_iff tl _).mpr harr
  have hd : decide (n > tl.clock 0 - tl.start) = true := by simp; omega
  have hne := put_zero_ne timeoutBit (by decide) 0
  have hcl : (Err.put 0 timeoutBit true).cleared = false := by simpa [Err.cleared] using hne
  unfold waitForReply
  simp only [if_true, Bool.not_true, Bool.and_false, Bool.false_eq_true, if_false, hs]
  unfold replyLoop
  simp only [Err.cleared, beq_self_eq_true, Bool.not_false, Bool.and_self, if_true, hd]
  unfold replyLoop
  simp only [hcl, Bool.false_and, Bool.false_eq_true, if_false]

/-- **C27**, the property is false of the code: once the timeout has elapsed at the first poll, `WaitForReply` never
returns if there is no reply, however long it runs. -/
theorem c27_never_times_out (tl : Timeline) (n : Nat) (ho : Ordered tl) (hclock : n ≤ tl.clock 0 - tl.start)
    (harr : tl.arrival = none) : ∀ fuel, waitForReply true true tl (some n) fuel = none := by
  intro fuel
  have hs : ∀ t, tl.seen t = false := fun t => by simp [Timeline.seen, harr]
  have hc : ∀ i, n ≤ tl.clock i - tl.start := by
    intro i
    induction i with
    | zero => exact hclock
    | succ i ih => have h1 := ho.2.2.1 i; have h2 := ho.2.2.2 i; omega
  unfold waitForReply
  simp only [if_true, Bool.not_true, Bool.and_false, Bool.false_eq_true, if_false, hs]
  exact replyLoop_stuck tl n hc (fun i => hs _) fuel 0

/-- A reply that arrives before the timeout and is not reported; a timeout of 1000 ticks that is reported after 10. -/
example : Arrived ⟨0, 0, fun i => 10 * (i + 1), fun i => 10 * (i + 1), some 500⟩ 1000 ∧
    waitForReply true true ⟨0, 0, fun i => 10 * (i + 1), fun i => 10 * (i + 1), some 500⟩ (some 1000) 1000 =
      some (Err.put 0 timeoutBit true, 1) := by
  refine ⟨⟨500, rfl, by decide⟩, ?_⟩
  apply c27_gives_up_before_timeout
  · decide
  · rintro ⟨a, h, h'⟩; simp at h; subst h; simp at h'

/-- **C27** (what holds of `WaitForReply`): with an infinite timeout, it returns success, and does so at the first look
at which the reply is there. -/
theorem c27_infinite_wait_partial (tl : Timeline) (k fuel : Nat) (hk : k ≤ fuel)
    (hbefore : ∀ j, j < k → ¬ Arrived tl (tl.lookAt j)) (hat : Arrived tl (tl.lookAt k)) :
    waitForReply true true tl none fuel = some (0, k) := by
  have := replyLoop_infinite tl fuel 0 k (Nat.zero_le _) (by omega)
    (fun j _ h => (seen_false_iff tl _).mpr (hbefore j h)) ((seen_iff tl _).mpr hat)
  unfold waitForReply
  simpa [Err.cleared, Timeline.lookAt] using this

/-- **C27** (what holds of the wait of `SendMessageAndWaitIndirectReply`): when it returns, it returns success with the
reply there, or a timeout error after more than the timeout has elapsed and with no reply there at the previous look. -/
theorem c27_indirect_wait_result (tl : Timeline) (n fuel k : Nat) (e : Err) (h : catcherWait tl (some n) fuel = some (e, k)) :
    (e = 0 ∧ Arrived tl (tl.lookAt k)) ∨
    (e = Err.put 0 timeoutBit true ∧ 0 < k ∧ tl.clock (k - 1) - tl.start > n ∧ ¬ Arrived tl (tl.lookAt (k - 1))) := by
  have hs := catchLoop_spec tl n fuel 0 k e h
  rcases hs.2.2 with ⟨h1, h2, _⟩ | ⟨h1, h2, h3⟩
  · exact Or.inl ⟨h1, (seen_iff _ _).mp h2⟩
  · exact Or.inr ⟨h1, h2, h3, (seen_false_iff _ _).mp (hs.1 (k - 1) (Nat.zero_le _) (by omega))⟩

/-- **C27** (wait of `SendMessageAndWaitIndirectReply`): if the reply is there at some look of a poll whose clock reading
is not past the timeout, the wait returns success, at that poll or before. -/
theorem c27_indirect_wait_success_partial (tl : Timeline) (n k fuel : Nat) (hk : k ≤ fuel)
    (hin : ∀ j, j < k → tl.clock j - tl.start ≤ n) (hat : Arrived tl (tl.lookAt k)) :
    ∃ k', catcherWait tl (some n) fuel = some (0, k') ∧ k' ≤ k := by
  obtain ⟨⟨e, k'⟩, hr, hle⟩ := catchLoop_returns tl n fuel 0 k (Nat.zero_le _) (by omega)
    (Or.inl ((seen_iff _ _).mpr hat))
  rcases c27_indirect_wait_result tl n fuel k' e hr with ⟨rfl, _⟩ | ⟨_, h2, h3, _⟩
  · exact ⟨k', hr, hle⟩
  · have := hin (k' - 1) (by simp at hle; omega)
    omega

/-- **C27** (wait of `SendMessageAndWaitIndirectReply`): it returns at the first poll past the timeout at the latest. -/
theorem c27_indirect_wait_returns (tl : Timeline) (n k fuel : Nat) (hk : k < fuel) (hp : tl.clock k - tl.start > n) :
    ∃ e k', catcherWait tl (some n) fuel = some (e, k') ∧ k' ≤ k + 1 := by
  obtain ⟨⟨e, k'⟩, hr, hle⟩ := catchLoop_returns tl n fuel 0 (k + 1) (Nat.zero_le _) (by omega)
    (Or.inr ⟨by omega, by simpa using hp⟩)
  exact ⟨e, k', hr, hle⟩

/-- **C27**: the full property is false of the indirect wait as well: a reply that arrives before the timeout, between
the last two polls, is reported as a timeout. Timeout 100, reply at 99, polls every 80. -/
theorem c27_indirect_wait_reply_lost :
    Arrived ⟨0, 0, fun i => 80 * (i + 1), fun i => 80 * (i + 1), some 99⟩ 99 ∧
    catcherWait ⟨0, 0, fun i => 80 * (i + 1), fun i => 80 * (i + 1), some 99⟩ (some 100) 5 =
      some (Err.put 0 timeoutBit true, 2) := ⟨⟨99, rfl, by decide⟩, by decide⟩

/-- **C27**: the catcher is released by its message even when that is not a reply yet (for instance when it is sent back
unanswered): it answers a warning, but the wait ends with success. -/
theorem c27_catcher_released_by_non_reply (m : Nat) (c : Bool) :
    (catcherConsume m c m false).2 = true ∧ (catcherConsume m c m false).1 ≠ 0 := by
  simp [catcherConsume]; decide

/-- **C27**: the reply waited for is answered without error, anything else with an error that says so: `warning` (bit
16) for a message that is no reply, `unsupportedFeature` (bit 12) for a foreign one. -/
theorem c27_catcher_answers (m m' : Nat) (c b : Bool) (h : m' ≠ m) :
    catcherConsume m c m true = (0, true) ∧ (catcherConsume m c m false).1 = (0x10000 : Err) ∧
    catcherConsume m c m' b = ((0x1000 : Err), c) := by
  simp [catcherConsume, h]; decide

/-- **C27**: no other message releases the catcher. -/
theorem c27_catcher_ignores_others (m m' : Nat) (b : Bool) (h : m' ≠ m) : (catcherConsume m false m' b).2 = false := by
  simp [catcherConsume, h]

example : catcherWait ⟨0, 0, fun i => 30 * (i + 1), fun i => 30 * (i + 1), some 70⟩ (some 100) 5 = some (0, 3) := by decide

/-! ## C28 -/

/-- **C28.** The semaphore is posted by the arrival at which the last expected reply is in, and by no other. -/
theorem c28_released_at_last_reply (expected : List Nat) (hne : expected ≠ []) (arrivals : List (Nat × Bool)) (k : Nat)
    (r : Err × Nat) (h : (multiRun (some ⟨expected.map some, true⟩) arrivals).1[k]? = some r) :
    (r.2 = 1 ↔ AllArrived expected (arrivals.take (k + 1)) ∧ ¬ AllArrived expected (arrivals.take k)) ∧ r.2 ≤ 1 := by
  rcases (multiRun_spec arrivals expected hne).1 k r h with ⟨h1, h2, h3⟩ | ⟨h1, h2⟩
  · exact ⟨by simp only [h1, true_iff]; exact ⟨h2, h3⟩, by omega⟩
  · refine ⟨⟨fun h => by omega, fun h => absurd (h2 h.1) h.2⟩, by omega⟩

theorem allArrived_mono (expected : List Nat) (arrivals : List (Nat × Bool)) (j k : Nat) (h : j ≤ k)
    (ha : AllArrived expected (arrivals.take j)) : AllArrived expected (arrivals.take k) := by
  intro m
  refine Nat.le_trans (ha m) ?_
  exact List.Sublist.count_le _ (List.take_sublist_take_left h)

/-- **C28.** The waiting caller is released at most once. -/
theorem c28_released_once (expected : List Nat) (hne : expected ≠ []) (arrivals : List (Nat × Bool)) (j k : Nat)
    (rj rk : Err × Nat) (hj : (multiRun (some ⟨expected.map some, true⟩) arrivals).1[j]? = some rj)
    (hk : (multiRun (some ⟨expected.map some, true⟩) arrivals).1[k]? = some rk) (h1 : rj.2 = 1) (h2 : rk.2 = 1) : j = k := by
  have a := (c28_released_at_last_reply expected hne arrivals j rj hj).1.mp h1
  have b := (c28_released_at_last_reply expected hne arrivals k rk hk).1.mp h2
  rcases Nat.lt_trichotomy j k with h | h | h
  · exact absurd (allArrived_mono expected arrivals (j + 1) k h a.1) b.2
  · exact h
  · exact absurd (allArrived_mono expected arrivals (k + 1) j h b.1) a.2

/-- **C28.** If all replies arrive, in any order and with anything in between, the caller is released; and the catcher is
removed from the pool if and only if they all have arrived. -/
theorem c28_released (expected : List Nat) (hne : expected ≠ []) (arrivals : List (Nat × Bool)) :
    ((multiRun (some ⟨expected.map some, true⟩) arrivals).2 = none ↔ AllArrived expected arrivals) ∧
    (AllArrived expected arrivals → ∃ (k : Nat) (r : Err × Nat),
      (multiRun (some ⟨expected.map some, true⟩) arrivals).1[k]? = some r ∧ r.2 = 1) := by
  refine ⟨(multiRun_spec arrivals expected hne).2, fun hall => ?_⟩
  have hlen := multiRun_length (some ⟨expected.map some, true⟩) arrivals
  -- the first prefix that is complete
  have key : ∀ n, n ≤ arrivals.length → AllArrived expected (arrivals.take n) →
      ∃ k, k < n ∧ AllArrived expected (arrivals.take (k + 1)) ∧ ¬ AllArrived expected (arrivals.take k) := by
    intro n
    induction n with
    | zero => intro _ h; exact absurd ((done_nil expected).mp h) hne
    | succ n ih =>
      intro hn h
      by_cases hp : AllArrived expected (arrivals.take n)
      · obtain ⟨k, hk, h1⟩ := ih (by omega) hp
        exact ⟨k, by omega, h1⟩
      · exact ⟨n, by omega, h, hp⟩
  obtain ⟨k, hk, h1, h2⟩ := key arrivals.length (Nat.le_refl _) (by rw [List.take_length]; exact hall)
  have hk' : k < (multiRun (some ⟨expected.map some, true⟩) arrivals).1.length := by omega
  refine ⟨k, _, List.getElem?_eq_getElem hk', ?_⟩
  exact (c28_released_at_last_reply expected hne arrivals k _ (List.getElem?_eq_getElem hk')).1.mpr ⟨h1, h2⟩

/-- **C28.** Foreign messages, and messages that are not replies, are refused and change nothing. -/
theorem c28_foreign_refused (expected : List Nat) (msg : Nat) (isReply : Bool) (h : msg ∉ expected ∨ isReply = false) :
    (multiConsume ⟨expected.map some, true⟩ msg isReply).1 ≠ 0 ∧
    (multiConsume ⟨expected.map some, true⟩ msg isReply).1 ≠ notCompleted ∧
    (multiConsume ⟨expected.map some, true⟩ msg isReply).2.2 = ⟨expected.map some, true⟩ := by
  have := multiConsume_miss expected msg isReply h
  exact ⟨this.1, this.2.2.2, this.2.2.1⟩

/-- Three expected replies, arriving out of order with a foreign message and a non-reply in between. -/
example : (multiRun (some ⟨[some 1, some 2, some 3], true⟩) [(2, true), (9, true), (1, false), (3, true), (1, true), (1, true)]).1.map (·.2)
    = [0, 0, 0, 0, 1, 0] := by decide

end Verif.Msg
