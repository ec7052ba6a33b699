import Verif.Model.Timeout

namespace Verif.Timeout

/-- The relation a user expects between the two views of a timeout. -/
@[reducible] def Consistent (t : TimeoutType) : Prop :=
  t.usec < 2 ^ 64 ∧ t.msec = min (t.usec / 1000) 0xFFFFFFFF

/-- How a timeout can be obtained through the API (argument ranges are those of the C++ types). -/
inductive Built : TimeoutType → Prop
  | int32 (m : Int) (h : -(2 ^ 31 : Int) ≤ m ∧ m < 2 ^ 31) : Built (ofInt32 m)
  | uint32 (m : Nat) (h : m < 2 ^ 32) : Built (ofUInt32 m)
  | uint64 (u : Nat) (h : u < 2 ^ 64) : Built (ofUInt64 u)
  | subUsec (t : TimeoutType) (u : Nat) (h : u < 2 ^ 64) (ht : Built t) : Built (subUsec t u)
  | subMsec (t : TimeoutType) (m : Nat) (h : m < 2 ^ 32) (ht : Built t)
      (hsmall : t.usec / 1000 ≤ 0xFFFFFFFF) : Built (subMsec t m)

/-- **C17 (partial).** Every timeout built and decreased through the API has consistent views, provided
the millisecond decrement is applied only to timeouts below 2^32 ms.
Missing: millisecond decrements of larger timeouts, for which the code is wrong (`c17_subMsec_breaks`). -/
theorem c17_views_consistent_partial (t : TimeoutType) (h : Built t) : Consistent t := by
  induction h with
  | int32 m h =>
    unfold ofInt32 Consistent; split
    · simp
    · simp only
      rw [Nat.mod_eq_of_lt (by omega : m.toNat < 2 ^ 32), Nat.mod_eq_of_lt (by omega)]; omega
  | uint32 m h =>
    unfold ofUInt32 Consistent; simp only; rw [Nat.mod_eq_of_lt (by omega)]; omega
  | uint64 u h => unfold ofUInt64 Consistent; simp only; split <;> omega
  | subUsec t u h ht ih =>
    unfold subUsec Consistent at *; split
    · simp only; split <;> omega
    · simp
  | subMsec t m h ht hs ih =>
    unfold subMsec Consistent at *; simp only; split
    · simp only; omega
    · simp

/-- A decreased timeout reached through the constructors and both decrements. -/
example : Built (subMsec (subUsec (ofUInt64 5000500) 499) 2) :=
  .subMsec _ _ (by decide) (.subUsec _ _ (by decide) (.uint64 _ (by decide))) (by decide)

/-- **C17.** Decrementing never underflows: the new microsecond value is the truncated difference. -/
theorem c17_decrement_saturates (t : TimeoutType) :
    (∀ u, u < 2 ^ 64 → (subUsec t u).usec = t.usec - u) ∧
    (∀ m, m < 2 ^ 32 → (subMsec t m).usec = t.usec - m * 1000) := by
  constructor
  · intro u hu; unfold subUsec; split <;> simp <;> omega
  · intro m hm; unfold subMsec; simp only
    rw [Nat.mod_eq_of_lt (by omega)]; split <;> simp <;> omega

example : (subMsec (ofUInt32 10) 20).usec = 0 := by decide

/-- The unrestricted claim of C17 is false: subtracting zero milliseconds from the infinite 64-bit timeout
breaks the relation and makes it finite. -/
theorem c17_subMsec_breaks :
    isFinite ttInfiniteWait64 = false ∧ isFinite (subMsec ttInfiniteWait64 0) = true ∧
    ¬ Consistent (subMsec ttInfiniteWait64 0) := by
  refine ⟨by decide, by decide, ?_⟩
  intro h; exact absurd h.2 (by decide)

/-- **C17.** A microsecond decrement of zero keeps every consistent non-zero timeout exactly as it is, so an
infinite timeout stays infinite. -/
theorem c17_zero_usec_decrement_identity (t : TimeoutType) (h : Consistent t) : subUsec t 0 = t := by
  obtain ⟨m, u⟩ := t
  unfold subUsec Consistent at *
  simp only at *
  split
  · simp only [Nat.sub_zero, TimeoutType.mk.injEq, and_true]; split <;> omega
  · simp only [TimeoutType.mk.injEq]; omega

example : Consistent ttInfiniteWait64 := by decide

/-- **C17.** Each constructor gives the duration it is asked for; a negative number of milliseconds is
no wait at all. -/
theorem c17_constructors (m : Int) (hm : -(2 ^ 31 : Int) ≤ m ∧ m < 2 ^ 31) (k : Nat) (hk : k < 2 ^ 32)
    (u : Nat) :
    ((ofInt32 m).usec : Int) = 1000 * max m 0 ∧ (ofUInt32 k).usec = 1000 * k ∧ (ofUInt64 u).usec = u := by
  refine ⟨?_, ?_, rfl⟩
  · unfold ofInt32
    by_cases h : m < 0
    · rw [if_pos h]; simp; omega
    · rw [if_neg h]
      simp only
      rw [Nat.mod_eq_of_lt (by omega : m.toNat < 2 ^ 32), Nat.mod_eq_of_lt (by omega)]; omega
  · unfold ofUInt32; simp only; rw [Nat.mod_eq_of_lt (by omega)]; omega

/-- **C17.** Exactly the timeouts below `TTDefault` (4294967294 ms) are finite. -/
theorem c17_finite_iff (t : TimeoutType) (h : Consistent t) :
    isFinite t = true ↔ t.usec < 4294967294 * 1000 := by
  unfold isFinite Consistent at *
  simp only [decide_eq_true_eq]
  omega

/-- **C17.** Two timeouts built through the API compare equal exactly when both views agree. -/
theorem c17_equal_iff (a b : TimeoutType) (ha : Consistent a) (hb : Consistent b) :
    eq a b = true ↔ a = b := by
  obtain ⟨am, au⟩ := a
  obtain ⟨bm, bu⟩ := b
  unfold eq Consistent at *
  simp only [beq_iff_eq, TimeoutType.mk.injEq] at *
  omega

/-- **C17.** The named timeouts: no wait is zero, the infinite ones and the default are not finite. -/
theorem c17_named : ttNoWait = ⟨0, 0⟩ ∧ isFinite ttNoWait = true ∧ isFinite ttInfiniteWait = false ∧
    isFinite ttDefault = false ∧ isFinite ttInfiniteWait64 = false ∧
    ttInfiniteWait.usec = 4294967295 * 1000 ∧ ttDefault.usec = 4294967294 * 1000 := by decide

example : isFinite (ofUInt32 4294967293) = true ∧ isFinite (subMsec (ofUInt32 4294967294) 1) = true := by
  decide

end Verif.Timeout
