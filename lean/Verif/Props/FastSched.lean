import Verif.Proof.FastSched
set_option linter.unusedSimpArgs false
/-!
# C82: the threads of the fast scheduler
-/
namespace Verif.FastSched
open Verif.Spec.FastSched

/-- **C82 (pool).** The number of threads of the pool is the sum, over the masks, of the most threads with that mask in one
state. -/
theorem c82_pool (states : List (List Nat)) (cpus : List Nat) (hm : Masks cpus states) :
    computeMax states 0 = (cpus.map fun c => most c states).sum := by
  rw [computeMax_eq states cpus hm 0]; omega

private theorem masks_exist (states : List (List Nat)) : ∃ cpus, Masks cpus states := by
  have h : ∀ l : List Nat, ∃ l' : List Nat, l'.Nodup ∧ ∀ c, c ∈ l' ↔ c ∈ l := by
    intro l
    induction l with
    | nil => exact ⟨[], by simp, by simp⟩
    | cons x l ih =>
      obtain ⟨l', h1, h2⟩ := ih
      by_cases hx : x ∈ l
      · refine ⟨l', h1, fun c => ?_⟩
        rw [h2, List.mem_cons]
        exact ⟨Or.inr, fun h => h.elim (fun e => e ▸ hx) id⟩
      · exact ⟨x :: l', List.nodup_cons.2 ⟨fun h => hx ((h2 x).1 h), h1⟩, fun c => by simp [h2]⟩
  obtain ⟨l, h1, h2⟩ := h states.flatten
  exact ⟨l, h1, fun c => by rw [h2, List.mem_flatten]⟩

/-- **C82 (own threads).** Whenever the map is made, each thread of a state has a thread of the pool for itself, for any
states of threads that are not bound to all the 64 processors. -/
theorem c82_own (states : List (List Nat)) (pool : Nat) (m : Map) (hno : ∀ st ∈ states, ∀ c ∈ st, c ≠ 18446744073709551615)
    (h : setup states 0 = some (pool, m)) : Own pool states m.slot := by
  unfold setup at h
  cases h1 : setupStates (computeMax states 0) states 0 empty with
  | none => rw [h1] at h; simp at h
  | some m1 =>
    rw [h1] at h
    simp only [Option.map_some, Option.some.injEq, Prod.mk.injEq] at h
    obtain ⟨rfl, rfl⟩ := h
    intro s st hst
    have := own_states _ states [] empty m1 hno (by simp) h1 s st (by simpa using hst)
    exact ⟨fun i hi => (this.1 i st[i] (List.getElem?_eq_getElem hi)).1, this.2⟩

private theorem inv_empty (n : Nat) : Inv n 0 [] [] empty := by
  refine ⟨fun k h hh => absurd rfl hh, fun h c hh => by simp [empty] at hh, fun c hc => ?_, fun c hc => ?_⟩
  · rw [show tally n (fun h => decide (empty.rows 0 h = c)) = tally n (fun _ => false) from
      tally_congr _ _ _ fun x _ => by simp [empty, Ne.symm hc]]
    simp [tally]
  · rw [show tally n (fun h => decide (empty.mask h = some c)) = tally n (fun _ => false) from
      tally_congr _ _ _ fun x _ => by simp [empty]]
    simp [tally, most]

/-- **C82 (masks).** When each mask has its most threads in one of the first two states, the map can be made and each
thread of the pool has the mask of every thread that it executes. -/
theorem c82_bound_partial (states : List (List Nat)) (hno : ∀ st ∈ states, ∀ c ∈ st, c ≠ 18446744073709551615) (h2 : FirstTwo states) :
    ∃ pool m, setup states 0 = some (pool, m) ∧ Own pool states m.slot ∧ Bound states m.slot m.mask := by
  obtain ⟨cpus, hm⟩ := masks_exist states
  obtain ⟨m, h, s', past', hi⟩ := inv_states (computeMax states 0) states h2 cpus hm (by rw [c82_pool states cpus hm]; exact Nat.le_refl _) hno
    states [] empty rfl (inv_empty _)
  have hs : setup states 0 = some (computeMax states 0, m) := by
    unfold setup
    rw [show setupStates (computeMax states 0) states 0 empty = some m from h]; rfl
  refine ⟨_, m, hs, c82_own states _ m hno hs, ?_⟩
  intro s st i c hst hi'
  have ho := own_states _ states [] empty m hno (by simp) h s st (by simpa using hst)
  have hr := (ho.1 i c hi').2
  have := (hi.rows s (m.slot s i) (by
    rw [hr]; exact hno st (List.mem_of_getElem? hst) c (List.mem_of_getElem? hi'))).2.2
  rw [this, hr]

-- Three states with the same threads, in another order, and one with fewer.
example : FirstTwo [[1, 1, 2], [4, 2], [2, 1, 4, 1], [4]] ∧ ∀ st ∈ [[1, 1, 2], [4, 2], [2, 1, 4, 1], [4]], ∀ c ∈ st, c ≠ 18446744073709551615 := by
  constructor
  · intro c st h
    simp only [List.mem_cons, List.not_mem_nil, or_false] at h
    by_cases h1 : c = 1
    · subst h1; rcases h with rfl | rfl | rfl | rfl <;> decide
    by_cases h2 : c = 2
    · subst h2; rcases h with rfl | rfl | rfl | rfl <;> decide
    by_cases h4 : c = 4
    · subst h4; rcases h with rfl | rfl | rfl | rfl <;> decide
    rw [List.count_eq_zero.2]
    · exact Nat.zero_le _
    · rcases h with rfl | rfl | rfl | rfl <;> simp [h1, h2, h4]
  · decide

/-- **C82 (preparation).** After a state is prepared each thread of it is executed by its thread of the pool, and the other
threads of the pool execute nothing. -/
theorem c82_prepare {α : Type} (states : List (List Nat)) (pool : Nat) (slot : Nat → Nat → Nat) (ho : Own pool states slot) (s : Nat)
    (st : List Nat) (hs : states[s]? = some st) (threads : List α) (hl : threads.length = st.length) :
    (∀ i t, threads[i]? = some t → prepare (slot s) threads 0 noThreads (slot s i) = some t) ∧
    ∀ j, (∀ i, i < threads.length → slot s i ≠ j) → prepare (slot s) threads 0 noThreads j = none := by
  have h := prepare_spec (slot s) threads 0 noThreads (by
    intro a b _ ha _ hb e
    exact (ho s st hs).2 a b (by omega) (by omega) e)
  refine ⟨fun i t hi => ?_, fun j hj => ?_⟩
  · have := h.1 i t hi; rwa [Nat.zero_add] at this
  · exact h.2 j (by intro k hk; rw [Nat.zero_add]; exact hj k hk)

example : ∃ pool m, setup [[1, 1, 2], [2, 2, 4]] 0 = some (pool, m) ∧ pool = 5 ∧ m.slot 1 0 = 2 ∧ m.slot 1 1 = 3 ∧ m.slot 1 2 = 4 ∧
    prepare (m.slot 1) ['a', 'b', 'c'] 0 noThreads 3 = some 'b' ∧ prepare (m.slot 1) ['a', 'b', 'c'] 0 noThreads 0 = none :=
  ⟨_, _, rfl, by decide +kernel⟩

/-- **C82 fails** (masks, three states).  With three states of one thread each, on three processors, the first and the third
thread share a thread of the pool, which is bound to the processor of the third. -/
theorem c82_bound_fails : (setup [[1], [2], [4]] 0).map (fun r => (r.1, r.2.slot 0 0, r.2.slot 2 0, r.2.mask 0, r.2.mask 2)) =
    some (3, 0, 0, some 4, none) := by decide +kernel

/-- **C82 fails** (memory).  With four states, on three processors, there is no place left for the last thread: the map is
written outside of its memory. -/
theorem c82_memory_fails : setup [[1], [2], [4, 1, 2], [1, 2, 4]] 0 = none := by
  have : (setup [[1], [2], [4, 1, 2], [1, 2, 4]] 0).isNone = true := by decide +kernel
  simpa using this

/-- **C82 fails** (all processors).  Two threads that are bound to all the 64 processors get the same thread of the pool: only
the second one is executed. -/
theorem c82_all_fails : (setup [[18446744073709551615, 18446744073709551615]] 0).map (fun r => (r.1, r.2.slot 0 0, r.2.slot 0 1)) = some (2, 0, 0) ∧
    prepare (fun _ => 0) ['a', 'b'] 0 noThreads 0 = some 'b' ∧ prepare (fun _ => 0) ['a', 'b'] 0 noThreads 1 = none := by decide +kernel

/-- **C82 fails** (a state prepared twice before the start).  The number of threads is added again: the pool is twice as
large. -/
theorem c82_twice_fails (states : List (List Nat)) : computeMax states (computeMax states 0) = 2 * computeMax states 0 := by
  obtain ⟨cpus, hm⟩ := masks_exist states
  rw [computeMax_eq states _ hm, computeMax_eq states _ hm]; omega

end Verif.FastSched
