import Verif.Model.Messages

namespace Verif.Msg

theorem cleared_iff (e : Err) : e.cleared = true ↔ e = 0 := by simp [Err.cleared]

theorem put_zero_ne (k : Nat) (hk : k < 32) (e : Err) : e.put k true ≠ 0 := by
  intro h
  have := congrArg (fun v => v.getLsbD k) h
  simp [Err.put, hk] at this

theorem put_zero_false (k : Nat) : Err.put 0 k false = 0 := by simp [Err.put]

theorem notCompleted_ne : notCompleted ≠ (0 : Err) := by decide

/-- A filter that accepts the message. -/
def acc (f : Filter) : Bool := f.isFilter && (f.answer == 0 || f.answer == notCompleted)

theorem loop_done (fs : List Filter) (l : Loop) (h : l.matched = true ∨ l.part = true) : loop fs l = l := by
  cases fs with
  | nil => rfl
  | cons f fs => rcases h with h | h <;> simp [loop, h]

/-- Filters offered, and which filter takes the message. -/
theorem loop_spec (fs : List Filter) : ∀ l : Loop, l.matched = false → l.part = false →
    (loop fs l).offered = l.offered ++ (((fs.filter (·.isFilter)).takeWhile (fun f => !acc f)).map (·.id)
      ++ ((fs.find? acc).map (·.id)).toList) ∧
    (match fs.find? acc with
      | some f => (loop fs l).last = some f ∧ (loop fs l).err = f.answer ∧
          (loop fs l).matched = (f.answer == 0) ∧ (loop fs l).part = (f.answer == notCompleted)
      | none => (loop fs l).matched = false ∧ (loop fs l).part = false) := by
  induction fs with
  | nil => intro l h1 h2; simp [loop, h1, h2]
  | cons f fs ih =>
    intro l h1 h2
    simp only [loop, h1, h2, Bool.not_false, Bool.and_self, if_true]
    by_cases hf : f.isFilter = true
    · simp only [hf, if_true]
      by_cases ha : acc f = true
      · have hd : (f.answer.cleared = true) ∨ (f.answer == notCompleted) = true := by
          simpa [acc, hf, Err.cleared] using ha
        rw [loop_done _ _ hd]
        simp [ha, hf, Err.cleared]
      · have hn : f.answer.cleared = false ∧ (f.answer == notCompleted) = false := by
          simpa [acc, hf, Err.cleared] using ha
        have := ih ⟨f.answer, some f, f.answer.cleared, f.answer == notCompleted, l.offered ++ [f.id]⟩ hn.1 hn.2
        simp only [Bool.not_eq_true] at ha
        simp only [List.find?_cons, ha, List.filter_cons, hf, if_true, List.takeWhile_cons, Bool.not_false]
        refine ⟨?_, this.2⟩
        rw [this.1]; simp
    · have ha : acc f = false := by simp [acc, hf]
      simp only [Bool.not_eq_true] at hf
      simp only [hf, List.find?_cons, ha, List.filter_cons, Bool.false_eq_true, if_false]
      exact ih ⟨l.err, none, false, false, l.offered⟩ rfl rfl

theorem deleteRef_mem (id : Nat) (fs : List Filter) (h : ∃ f ∈ fs, f.id = id) : (deleteRef id fs).1 = true := by
  induction fs with
  | nil => simp at h
  | cons g fs ih =>
    simp only [deleteRef]
    by_cases hg : g.id = id
    · simp [hg]
    · simp only [hg, if_false]
      apply ih
      obtain ⟨f, hf, he⟩ := h
      simp only [List.mem_cons] at hf
      rcases hf with rfl | hf
      · exact absurd he hg
      · exact ⟨f, hf, he⟩

theorem deleteRef_ids (id : Nat) (fs : List Filter) : (deleteRef id fs).2.map (·.id) = (fs.map (·.id)).erase id := by
  induction fs with
  | nil => rfl
  | cons g fs ih =>
    simp only [deleteRef, List.map_cons, List.erase_cons]
    by_cases hg : g.id = id
    · simp [hg]
    · simp [hg, ih]

theorem deleteRef_nodup (f : Filter) (fs : List Filter) (hm : f ∈ fs) (hn : (fs.map (·.id)).Nodup) :
    (deleteRef f.id fs).2 = fs.erase f := by
  induction fs with
  | nil => rfl
  | cons g fs ih =>
    simp only [deleteRef, List.erase_cons]
    simp only [List.map_cons, List.nodup_cons] at hn
    by_cases hg : g = f
    · subst hg; simp
    · have : f ∈ fs := by
        simp only [List.mem_cons] at hm
        rcases hm with rfl | h
        · exact absurd rfl hg
        · exact h
      have hid : g.id ≠ f.id := fun e => hn.1 (by rw [e]; exact List.mem_map_of_mem this)
      simp [hg, hid, ih this hn.2]

/-! ### Waiting -/

theorem catchLoop_mono (tl : Timeline) (ticks : Option Nat) : ∀ (fuel i : Nat) (err : Err) (la : Nat) (r : Err × Nat),
    catchLoop tl ticks fuel i err la = some r → i ≤ r.2 ∧ r.2 ≤ i + fuel := by
  intro fuel
  induction fuel with
  | zero =>
    intro i err la r h
    unfold catchLoop at h
    split at h <;> simp_all
    subst h; simp
  | succ n ih =>
    intro i err la r h
    unfold catchLoop at h
    split at h
    · have := ih _ _ _ _ h; omega
    · simp at h; subst h; simp

/-- The time of the look at the flag after `i` polls. -/
def Timeline.lookAt (tl : Timeline) : Nat → Nat
  | 0 => tl.look0
  | i + 1 => tl.look i

theorem catchLoop_spec (tl : Timeline) (n : Nat) : ∀ (fuel i : Nat) (k : Nat) (e : Err),
    catchLoop tl (some n) fuel i 0 (tl.lookAt i) = some (e, k) →
    (∀ j, i ≤ j → j < k → tl.seen (tl.lookAt j) = false) ∧ (∀ j, i ≤ j → j + 1 < k → tl.clock j - tl.start ≤ n) ∧
    ((e = 0 ∧ tl.seen (tl.lookAt k) = true ∧ (i < k → tl.clock (k - 1) - tl.start ≤ n)) ∨
     (e = Err.put 0 timeoutBit true ∧ i < k ∧ tl.clock (k - 1) - tl.start > n)) := by
  intro fuel
  induction fuel with
  | zero =>
    intro i k e h
    unfold catchLoop at h
    split at h
    · simp at h
    · rename_i hc
      simp [Err.cleared] at hc h
      obtain ⟨rfl, rfl⟩ := h
      exact ⟨fun j h1 h2 => by omega, fun j h1 h2 => by omega, Or.inl ⟨rfl, hc, fun h => by omega⟩⟩
  | succ f ih =>
    intro i k e h
    unfold catchLoop at h
    split at h
    · rename_i hc
      simp [Err.cleared] at hc
      by_cases ht : tl.clock i - tl.start > n
      · simp only [ht, decide_true] at h
        unfold catchLoop at h
        have hne := put_zero_ne timeoutBit (by decide) 0
        have hcl : (Err.put 0 timeoutBit true).cleared = false := by
          simpa [Err.cleared] using hne
        simp only [hcl, Bool.false_and] at h
        simp at h
        obtain ⟨rfl, rfl⟩ := h
        refine ⟨fun j h1 h2 => ?_, fun j h1 h2 => by omega, Or.inr ⟨rfl, by omega, by simpa using ht⟩⟩
        have : j = i := by omega
        subst this; exact hc
      · simp only [ht, decide_false, put_zero_false] at h
        have hm := catchLoop_mono _ _ _ _ _ _ _ h
        have hi := ih (i + 1) k e h
        refine ⟨fun j h1 h2 => ?_, fun j h1 h2 => ?_, ?_⟩
        · by_cases hj : j = i
          · subst hj; exact hc
          · exact hi.1 j (by omega) h2
        · by_cases hj : j = i
          · subst hj; omega
          · exact hi.2.1 j (by omega) h2
        · rcases hi.2.2 with ⟨h1, h2, h3⟩ | ⟨h1, h2, h3⟩
          · refine Or.inl ⟨h1, h2, fun _ => ?_⟩
            by_cases hk : i + 1 < k
            · exact h3 hk
            · have : k = i + 1 := by simp at hm; omega
              subst this; simp; omega
          · exact Or.inr ⟨h1, by omega, h3⟩
    · rename_i hc
      simp [Err.cleared] at hc h
      obtain ⟨rfl, rfl⟩ := h
      exact ⟨fun j h1 h2 => by omega, fun j h1 h2 => by omega, Or.inl ⟨rfl, hc, fun h => by omega⟩⟩

theorem catchLoop_returns (tl : Timeline) (n : Nat) : ∀ (fuel i : Nat) (k : Nat), i ≤ k → k ≤ i + fuel →
    (tl.seen (tl.lookAt k) = true ∨ (i < k ∧ tl.clock (k - 1) - tl.start > n)) →
    ∃ r, catchLoop tl (some n) fuel i 0 (tl.lookAt i) = some r ∧ r.2 ≤ k := by
  intro fuel
  induction fuel with
  | zero =>
    intro i k h1 h2 h3
    have : k = i := by omega
    subst this
    unfold catchLoop
    rcases h3 with h3 | h3
    · simp [h3]
    · omega
  | succ f ih =>
    intro i k h1 h2 h3
    unfold catchLoop
    by_cases hs : tl.seen (tl.lookAt i) = true
    · simp [hs, h1]
    · simp only [Bool.not_eq_true] at hs
      have hik : i < k := by
        rcases h3 with h3 | h3
        · rcases Nat.lt_or_eq_of_le h1 with h | h
          · exact h
          · subst h; simp [h3] at hs
        · exact h3.1
      simp only [hs, Err.cleared, beq_self_eq_true, Bool.not_false, Bool.and_self, if_true]
      by_cases ht : tl.clock i - tl.start > n
      · simp only [ht, decide_true]
        unfold catchLoop
        have hne := put_zero_ne timeoutBit (by decide) 0
        have hcl : (Err.put 0 timeoutBit true).cleared = false := by simpa [Err.cleared] using hne
        simp only [hcl, Bool.false_and, Bool.false_eq_true, if_false]
        exact ⟨_, rfl, hik⟩
      · simp only [ht, decide_false, put_zero_false]
        refine ih (i + 1) k hik (by omega) ?_
        rcases h3 with h3 | h3
        · exact Or.inl h3
        · by_cases hk : i + 1 < k
          · exact Or.inr ⟨hk, h3.2⟩
          · have : k = i + 1 := by omega
            subst this; simp at h3; omega

theorem replyLoop_infinite (tl : Timeline) : ∀ (fuel i k : Nat), i ≤ k → k ≤ i + fuel →
    (∀ j, i ≤ j → j < k → tl.seen (tl.lookAt j) = false) → tl.seen (tl.lookAt k) = true →
    replyLoop tl none fuel i 0 (tl.seen (tl.lookAt i)) = some (0, k) := by
  intro fuel
  induction fuel with
  | zero =>
    intro i k h1 h2 h3 h4
    have : k = i := by omega
    subst this
    unfold replyLoop; simp [h4]
  | succ f ih =>
    intro i k h1 h2 h3 h4
    unfold replyLoop
    by_cases hik : i = k
    · subst hik; simp [h4]
    · have := h3 i (Nat.le_refl _) (by omega)
      simp only [this, Err.cleared, beq_self_eq_true, Bool.not_false, Bool.and_self, if_true]
      exact ih (i + 1) k (by omega) (by omega) (fun j a b => h3 j (by omega) b) h4

theorem replyLoop_stuck (tl : Timeline) (n : Nat) (hc : ∀ i, n ≤ tl.clock i - tl.start)
    (hs : ∀ i, tl.seen (tl.look i) = false) : ∀ (fuel i : Nat), replyLoop tl (some n) fuel i 0 false = none := by
  intro fuel
  induction fuel with
  | zero => intro i; unfold replyLoop; simp [Err.cleared]
  | succ f ih =>
    intro i
    unfold replyLoop
    have : decide (n > tl.clock i - tl.start) = false := by have := hc i; simp; omega
    simp only [Err.cleared, beq_self_eq_true, Bool.not_false, Bool.and_self, if_true, this, put_zero_false, hs i]
    exact ih (i + 1)

/-! ### The multi-reply catcher -/

theorem searchLoop_map (msg : Nat) (l : List Nat) : searchLoop msg (l.map some) = (l.contains msg, false) := by
  induction l with
  | nil => rfl
  | cons m ms ih =>
    simp only [List.map_cons, searchLoop, ih, List.contains_cons]
    by_cases h : m = msg
    · simp [h]
    · simp [h, Ne.symm h]

theorem erase_map_some (msg : Nat) (l : List Nat) : (l.map some).erase (some msg) = (l.erase msg).map some := by
  induction l with
  | nil => rfl
  | cons m ms ih =>
    simp only [List.map_cons, List.erase_cons]
    by_cases h : m = msg
    · simp [h]
    · simp [h, ih]

theorem multiConsume_hit (l : List Nat) (msg : Nat) (h : msg ∈ l) :
    multiConsume ⟨l.map some, true⟩ msg true =
      if (l.erase msg).length = 0 then (0, 1, ⟨(l.erase msg).map some, true⟩)
      else (Err.put 0 notCompletedBit true, 0, ⟨(l.erase msg).map some, true⟩) := by
  simp [multiConsume, searchLoop_map, h, erase_map_some]

theorem multiConsume_miss (l : List Nat) (msg : Nat) (b : Bool) (h : msg ∉ l ∨ b = false) :
    (multiConsume ⟨l.map some, true⟩ msg b).1 ≠ 0 ∧ (multiConsume ⟨l.map some, true⟩ msg b).2.1 = 0 ∧
    (multiConsume ⟨l.map some, true⟩ msg b).2.2 = ⟨l.map some, true⟩ ∧
    (multiConsume ⟨l.map some, true⟩ msg b).1 ≠ notCompleted := by
  cases b with
  | false => simp [multiConsume]; decide
  | true =>
    have h : msg ∉ l := by simpa using h
    simp [multiConsume, searchLoop_map, h]; decide

theorem multiRun_none (as : List (Nat × Bool)) : (multiRun none as).2 = none ∧
    ∀ (k : Nat) (r : Err × Nat), (multiRun none as).1[k]? = some r → r.2 = 0 := by
  induction as with
  | nil => simp [multiRun]
  | cons a as ih =>
    refine ⟨by simp [multiRun, ih.1], fun k r h => ?_⟩
    cases k with
    | zero => simp [multiRun] at h; rw [← h]
    | succ k => simp [multiRun] at h; exact ih.2 k r h

theorem multiRun_length (c : Option Multi) (as : List (Nat × Bool)) : (multiRun c as).1.length = as.length := by
  induction as generalizing c with
  | nil => cases c <;> rfl
  | cons a as ih => cases c <;> simp [multiRun, ih]

/-- Every expected reply has arrived, as often as it is expected. -/
def done (l : List Nat) (as : List (Nat × Bool)) : Prop := ∀ m, l.count m ≤ as.count (m, true)

theorem done_nil (l : List Nat) : done l [] ↔ l = [] := by
  constructor
  · intro h
    cases l with
    | nil => rfl
    | cons m ms => have := h m; simp at this
  · rintro rfl; intro m; simp

theorem done_hit (l : List Nat) (m : Nat) (h : m ∈ l) (as : List (Nat × Bool)) :
    done l ((m, true) :: as) ↔ done (l.erase m) as := by
  unfold done
  have hp : 0 < l.count m := List.count_pos_iff.mpr h
  constructor
  · intro hd x
    have := hd x
    by_cases hx : x = m
    · subst hx; simp at this ⊢; omega
    · rw [List.count_erase_of_ne hx]
      have h1 : ((m, true) :: as).count (x, true) = as.count (x, true) := by
        rw [List.count_cons_of_ne]; simp [Ne.symm hx]
      omega
  · intro hd x
    have := hd x
    by_cases hx : x = m
    · subst hx; simp at this ⊢; omega
    · rw [List.count_erase_of_ne hx] at this
      have h1 : ((m, true) :: as).count (x, true) = as.count (x, true) := by
        rw [List.count_cons_of_ne]; simp [Ne.symm hx]
      omega

theorem done_miss (l : List Nat) (a : Nat × Bool) (h : a.1 ∉ l ∨ a.2 = false) (as : List (Nat × Bool)) :
    done l (a :: as) ↔ done l as := by
  unfold done
  have key : ∀ x, l.count x ≤ (a :: as).count (x, true) ↔ l.count x ≤ as.count (x, true) := by
    intro x
    by_cases hx : a = (x, true)
    · have hz : l.count x = 0 := by
        rcases h with h | h
        · rw [hx] at h; exact List.count_eq_zero.mpr h
        · rw [hx] at h; simp at h
      omega
    · rw [List.count_cons_of_ne hx]
  exact ⟨fun h x => (key x).mp (h x), fun h x => (key x).mpr (h x)⟩

theorem multiRun_spec (as : List (Nat × Bool)) : ∀ (l : List Nat), l ≠ [] →
    (∀ (k : Nat) (r : Err × Nat), (multiRun (some ⟨l.map some, true⟩) as).1[k]? = some r →
      (r.2 = 1 ∧ done l (as.take (k + 1)) ∧ ¬ done l (as.take k)) ∨
      (r.2 = 0 ∧ (done l (as.take (k + 1)) → done l (as.take k)))) ∧
    ((multiRun (some ⟨l.map some, true⟩) as).2 = none ↔ done l as) := by
  induction as with
  | nil =>
    intro l hl
    refine ⟨fun k r h => by simp [multiRun] at h, ?_⟩
    simp [multiRun, done_nil, hl]
  | cons a as ih =>
    intro l hl
    by_cases hit : a.1 ∈ l ∧ a.2 = true
    · obtain ⟨m, b⟩ := a
      obtain ⟨hm, hb⟩ := hit
      simp only at hm hb
      subst hb
      have e := multiConsume_hit l m hm
      by_cases hz : l.erase m = []
      · simp only [hz, List.length_nil, if_true, List.map_nil] at e
        have hr : multiRun (some ⟨l.map some, true⟩) ((m, true) :: as) =
            ((0, 1) :: (multiRun none as).1, (multiRun none as).2) := by simp [multiRun, e, Err.cleared]
        rw [hr]
        have hd : ∀ k, done l (((m, true) :: as).take (k + 1)) := by
          intro k
          rw [List.take_succ_cons, done_hit l m hm, hz]
          intro x; simp
        refine ⟨fun k r h => ?_, ?_⟩
        · cases k with
          | zero =>
            simp at h; subst h
            exact Or.inl ⟨rfl, hd 0, by rw [List.take_zero, done_nil]; exact hl⟩
          | succ k =>
            simp at h
            exact Or.inr ⟨(multiRun_none as).2 k r h, fun _ => hd k⟩
        · refine ⟨fun _ => ?_, fun _ => (multiRun_none as).1⟩
          rw [done_hit l m hm, hz]; intro x; simp
      · have hz' : ¬ (l.erase m).length = 0 := by simpa using hz
        simp only [hz', if_false] at e
        have hr : multiRun (some ⟨l.map some, true⟩) ((m, true) :: as) =
            ((Err.put 0 notCompletedBit true, 0) :: (multiRun (some ⟨(l.erase m).map some, true⟩) as).1,
             (multiRun (some ⟨(l.erase m).map some, true⟩) as).2) := by
          have hc : (Err.put 0 notCompletedBit true).cleared = false := by decide
          simp only [multiRun, e, hc]; simp
        rw [hr]
        have hi := ih (l.erase m) hz
        refine ⟨fun k r h => ?_, ?_⟩
        · cases k with
          | zero =>
            simp at h; subst h
            refine Or.inr ⟨rfl, fun hd => ?_⟩
            rw [List.take_succ_cons, done_hit l m hm, List.take_zero, done_nil] at hd
            exact absurd hd hz
          | succ k =>
            simp at h
            have := hi.1 k r h
            simp only [List.take_succ_cons, done_hit l m hm]
            exact this
        · rw [done_hit l m hm]; exact hi.2
    · have hm : a.1 ∉ l ∨ a.2 = false := by
        by_cases h1 : a.1 ∈ l
        · right; by_cases h2 : a.2 = true
          · exact absurd ⟨h1, h2⟩ hit
          · simpa using h2
        · exact Or.inl h1
      have e := multiConsume_miss l a.1 a.2 hm
      have hc : (multiConsume ⟨l.map some, true⟩ a.1 a.2).1.cleared = false := by
        simpa [Err.cleared] using e.1
      have hr : multiRun (some ⟨l.map some, true⟩) (a :: as) =
          (((multiConsume ⟨l.map some, true⟩ a.1 a.2).1, 0) :: (multiRun (some ⟨l.map some, true⟩) as).1,
           (multiRun (some ⟨l.map some, true⟩) as).2) := by
        simp only [multiRun, hc, e.2.1, e.2.2.1]; simp
      rw [hr]
      have hi := ih l hl
      refine ⟨fun k r h => ?_, ?_⟩
      · cases k with
        | zero =>
          simp at h; subst h
          refine Or.inr ⟨rfl, fun hd => ?_⟩
          rw [List.take_succ_cons, done_miss l a hm] at hd
          exact hd
        | succ k =>
          simp at h
          have := hi.1 k r h
          simp only [List.take_succ_cons, done_miss l a hm]
          exact this
      · rw [done_miss l a hm]; exact hi.2

end Verif.Msg
