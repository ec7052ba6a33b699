import Verif.Model.Heaps
import Verif.Spec.Heaps
import Verif.Proof.Heaps
/-! # C91: the heaps -/
set_option maxRecDepth 8000
set_option linter.unusedSimpArgs false
namespace Verif.Heaps
open Verif.Spec.Heaps (Op Inside NotLarger)

/-- A call on the database of heaps. -/
def call (slots : List (Option Nat)) : Op → Bool × List (Option Nat)
  | .add h => addHeap slots (some h)
  | .addNull => addHeap slots none
  | .remove h => removeHeap (some h) slots

/-- A history of calls: the answers and the database. -/
def calls (slots : List (Option Nat)) : List Op → List Bool × List (Option Nat)
  | [] => ([], slots)
  | op :: ops => ((call slots op).1 :: (calls (call slots op).2 ops).1, (calls (call slots op).2 ops).2)

private theorem sim (ops : List Op) : ∀ (slots : List (Option Nat)) (s : List Nat), slots.length = 16 →
    (slots.filterMap id).Perm s → (calls slots ops).1 = (Spec.Heaps.run s ops).1 ∧
    ((calls slots ops).2.filterMap id).Perm (Spec.Heaps.run s ops).2 := by
  induction ops with
  | nil => intro slots s _ h; exact ⟨rfl, h⟩
  | cons op ops ih =>
    intro slots s hl hp
    have hmem : ∀ h, some h ∈ slots ↔ h ∈ s := fun h => by rw [← mem_reg, hp.mem_iff]
    have step : (call slots op).1 = (Spec.Heaps.step s op).1 ∧ (call slots op).2.length = 16 ∧
        ((call slots op).2.filterMap id).Perm (Spec.Heaps.step s op).2 := by
      cases op with
      | add h =>
        simp only [call, addHeap, Spec.Heaps.step, hmem]
        by_cases hin : h ∈ s
        · simp [hin, hl, hp]
        · simp only [hin, if_false, not_false_eq_true, true_and]
          cases hs : setFirst h slots with
          | none =>
            have := setFirst_none h slots hs
            rw [hp.length_eq, hl] at this
            rw [if_neg (by omega)]
            exact ⟨rfl, hl, hp⟩
          | some t =>
            obtain ⟨h1, h2, h3⟩ := setFirst_some h slots t hs
            rw [hp.length_eq, hl] at h3
            rw [if_pos h3]
            exact ⟨rfl, by rw [h2, hl], h1.trans (hp.cons h)⟩
      | addNull => exact ⟨rfl, hl, hp⟩
      | remove h =>
        obtain ⟨h1, h2, h3⟩ := remove_some h slots
        simp only [call, Spec.Heaps.step, h1, h2, h3, hl, hmem]
        by_cases hin : h ∈ s
        · simp only [hin, decide_true, if_true]; exact ⟨trivial, trivial, hp.erase h⟩
        · have : h ∉ slots.filterMap id := by rw [hp.mem_iff]; exact hin
          simp only [hin, decide_false, if_false, List.erase_of_not_mem this]; exact ⟨trivial, trivial, hp⟩
    obtain ⟨e1, e2, e3⟩ := step
    obtain ⟨g1, g2⟩ := ih _ _ e2 e3
    exact ⟨by simp only [calls, Spec.Heaps.run, e1, g1], g2⟩

/-- **C91.** The database of heaps is a set of at most sixteen heaps: for every history of additions and removals the answers are those of
such a set, and the heaps that are registered are its elements. -/
theorem c91_database (ops : List Op) :
    (calls empty ops).1 = (Spec.Heaps.run [] ops).1 ∧
    ∀ h, some h ∈ (calls empty ops).2 ↔ h ∈ (Spec.Heaps.run [] ops).2 := by
  obtain ⟨h1, h2⟩ := sim ops empty [] rfl (by decide)
  exact ⟨h1, fun h => by rw [← mem_reg, h2.mem_iff]⟩

/-- **C91.** The search of an address finds a registered heap that contains it, and no registered heap that contains it is smaller: of
nested heaps the innermost one.  The standard heap is found only if no registered heap contains the address. -/
theorem c91_find_address (info : Nat → Heap) (std : Std) (slots : List (Option Nat)) (address : Nat)
    (hl : ∀ h, some h ∈ slots → (info h).last < 18446744073709551616) :
    (∀ h, findAddress info std slots address = some (.user h) →
      some h ∈ slots ∧ Inside (info h) address ∧
      ∀ g, some g ∈ slots → Inside (info g) address → NotLarger (info h) (info g)) ∧
    (findAddress info std slots address = some .standard ↔
      (∀ g, some g ∈ slots → ¬ Inside (info g) address) ∧ std.first ≤ address ∧ address ≤ std.last) ∧
    (findAddress info std slots address = none ↔
      (∀ g, some g ∈ slots → ¬ Inside (info g) address) ∧ ¬ (std.first ≤ address ∧ address ≤ std.last)) := by
  unfold findAddress
  rcases findLoop_none info address slots hl 0 with ⟨e, h⟩ | ⟨r, e, h1, h2, h3⟩
  · rw [e]
    simp only
    by_cases ho : std.owns address = true
    · rw [if_pos ho]
      simp only [Std.owns, Bool.and_eq_true, decide_eq_true_eq, ge_iff_le] at ho
      exact ⟨by simp, by simp; exact ⟨h, ho⟩, by simp; intro _; exact ho⟩
    · rw [if_neg ho]
      simp only [Std.owns, Bool.and_eq_true, decide_eq_true_eq, ge_iff_le] at ho
      exact ⟨by simp, by simp; intro _ h1; have := fun h2 => ho ⟨h1, h2⟩; omega, ⟨fun _ => ⟨h, ho⟩, fun _ => rfl⟩⟩
  · rw [e]
    simp only
    refine ⟨?_, ?_, ?_⟩
    · intro h hh
      simp only [Option.some.injEq, Which.user.injEq] at hh
      subst hh; exact ⟨h1, h2, h3⟩
    · simp; intro h; exact absurd h2 (h r h1)
    · simp; intro h; exact absurd h2 (h r h1)

/-- **C91.** The search of a name finds a registered heap of that name, if there is one. -/
theorem c91_find_name (info : Nat → Heap) (name : List Char) (slots : List (Option Nat)) :
    (∀ h, findName info name slots = some h → some h ∈ slots ∧ (info h).name = name) ∧
    (findName info name slots = none ↔ ∀ h, some h ∈ slots → (info h).name ≠ name) := by
  induction slots with
  | nil => simp [findName]
  | cons x s ih =>
    cases x with
    | none => simpa [findName] using ih
    | some g =>
      rw [findName]
      by_cases hg : (info g).name = name
      · rw [if_pos hg]
        refine ⟨?_, ?_⟩
        · intro h hh; simp only [Option.some.injEq] at hh; subst hh; exact ⟨by simp, hg⟩
        · simp only [reduceCtorEq, false_iff]; intro h; exact h g (by simp) hg
      · rw [if_neg hg]
        refine ⟨fun h hh => ⟨by simp [(ih.1 h hh).1], (ih.1 h hh).2⟩, ?_⟩
        rw [ih.2]
        constructor
        · intro h k hk
          simp only [List.mem_cons, Option.some.injEq] at hk
          rcases hk with rfl | hk
          · exact hg
          · exact h k hk
        · intro h k hk; exact h k (by simp [hk])

/-- **C91.** A block goes back to the heap it came from: if it was asked by the name of a heap and is in the range of that heap, which
is still registered, and the other registered heaps with that address are larger, it is freed, reallocated and duplicated there. -/
theorem c91_back (info : Nat → Heap) (std : Std) (slots slots' : List (Option Nat)) (name : List Char) (h address : Nat)
    (hm : mallocFrom info slots (some name) = some (.user h)) (hin : Inside (info h) address) (hs : some h ∈ slots')
    (hl : ∀ g, some g ∈ slots' → (info g).last < 18446744073709551616)
    (hother : ∀ g, some g ∈ slots' → g ≠ h → Inside (info g) address → ¬ NotLarger (info g) (info h)) :
    (info h).name = name ∧ freeTo info std slots' address = some (.user h) ∧
    reallocFrom info std slots' address = .user h ∧ duplicateFrom info std slots' address none = .user h := by
  have hname : (info h).name = name := by
    simp only [mallocFrom, Option.map_eq_some_iff] at hm
    obtain ⟨k, e1, e2⟩ := hm
    simp only [Which.user.injEq] at e2
    subst e2
    exact ((c91_find_name info name slots).1 _ e1).2
  have key : findAddress info std slots' address = some (.user h) := by
    unfold findAddress
    rcases findLoop_none info address slots' hl 0 with ⟨e, hn⟩ | ⟨r, e, h1, h2, h3⟩
    · exact absurd hin (hn h hs)
    · have : r = h := by
        by_cases hr : r = h
        · exact hr
        · exact absurd (h3 h hs hin) (hother r h1 hr h2)
      rw [e, this]
  exact ⟨hname, key, by simp [reallocFrom, key], by simp [duplicateFrom, key]⟩

/-- The answers of the C library: a block is not at the null address and ends inside the address space. -/
def Sane : Call → Prop
  | .malloc n (some a) => a ≠ 0 ∧ a + n < 18446744073709551616
  | .realloc _ n (some a) => a ≠ 0 ∧ a + n < 18446744073709551616
  | .duplicate _ n t (some a) => a ≠ 0 ∧ a + n < 18446744073709551616 ∧ a + t + 1 < 18446744073709551616
  | _ => True

/-- The size of the block that the call asks for. -/
def sizeOf : Call → Nat
  | .malloc n _ => n
  | .free _ => 0
  | .realloc _ n _ => n
  | .duplicate _ n t _ => if n = 0 then t + 1 else n

private theorem step_spec (s : Std) (c : Call) (hc : Sane c) : Wider s (s.step c).2 ∧
    ∀ a, (s.step c).1 = some a → a ≠ 0 ∧ (s.step c).2.first ≠ 0 ∧ (s.step c).2.first ≤ a ∧ a + sizeOf c ≤ (s.step c).2.last := by
  have hmalloc : ∀ (n : Nat) (ans : Option Nat), (∀ a, ans = some a → a ≠ 0 ∧ a + n < 18446744073709551616) →
      Wider s (s.malloc n ans).2 ∧ ∀ a, (s.malloc n ans).1 = some a → ans = some a ∧ a ≠ 0 ∧ a + n < 18446744073709551616 ∧
        (s.malloc n ans).2.first ≠ 0 ∧ (s.malloc n ans).2.first ≤ a ∧ a + n ≤ (s.malloc n ans).2.last := by
    intro n ans h
    unfold Std.malloc
    by_cases hn : n ≠ 0
    · rw [if_pos hn]
      cases ans with
      | none => exact ⟨Wider.refl s, by simp⟩
      | some a =>
        obtain ⟨h1, h2⟩ := h a rfl
        obtain ⟨w, g1, g2, g3⟩ := take_spec s a n h1 h2
        refine ⟨(take_live s _ a n).mpr w, ?_⟩
        intro b hb
        simp only [Option.some.injEq] at hb
        subst hb
        exact ⟨rfl, h1, h2, g1, g2, g3⟩
    · rw [if_neg hn]; exact ⟨Wider.refl s, by simp⟩
  have hfree : ∀ d, Wider s (s.free d) := by
    intro d; cases d <;> exact ⟨fun h => ⟨h, Nat.le_refl _⟩, Nat.le_refl _⟩
  cases c with
  | malloc n ans =>
    have := hmalloc n ans (by rintro a rfl; exact hc)
    exact ⟨this.1, fun a ha => ⟨(this.2 a ha).2.1, (this.2 a ha).2.2.2⟩⟩
  | free d => exact ⟨hfree d, by simp [Std.step]⟩
  | realloc d n ans =>
    cases d with
    | none =>
      have := hmalloc n ans (by rintro a rfl; exact hc)
      exact ⟨this.1, fun a ha => ⟨(this.2 a ha).2.1, (this.2 a ha).2.2.2⟩⟩
    | some d =>
      simp only [Std.step]
      by_cases hn : n = 0
      · rw [if_pos hn]; exact ⟨hfree _, by simp⟩
      · rw [if_neg hn]
        cases ans with
        | none => exact ⟨Wider.refl s, by simp⟩
        | some a =>
          obtain ⟨h1, h2⟩ := hc
          obtain ⟨w, g1, g2, g3⟩ := take_spec s a n h1 h2
          refine ⟨(take_live s _ a n).mpr w, ?_⟩
          intro b hb
          simp only [Option.some.injEq] at hb
          subst hb
          exact ⟨h1, g1, g2, g3⟩
  | duplicate d n t ans =>
    cases d with
    | none => exact ⟨Wider.refl s, by simp [Std.step]⟩
    | some d =>
      simp only [Std.step, sizeOf]
      by_cases hn : n = 0
      · rw [if_pos hn, if_pos hn]
        cases ans with
        | none => exact ⟨Wider.refl s, by simp⟩
        | some a =>
          obtain ⟨h1, -, h2⟩ := hc
          obtain ⟨w, g1, g2, g3⟩ := take_spec s a (t + 1) h1 h2
          refine ⟨(take_live s _ a _).mpr w, ?_⟩
          intro b hb
          simp only [Option.some.injEq] at hb
          subst hb
          exact ⟨h1, g1, g2, g3⟩
      · rw [if_neg hn, if_neg hn]
        have hm := hmalloc n ans (by rintro a rfl; exact ⟨hc.1, hc.2.1⟩)
        cases hr : (s.malloc n ans).1 with
        | none => exact ⟨hm.1, by simp⟩
        | some a =>
          obtain ⟨-, h1, h2, -⟩ := hm.2 a hr
          obtain ⟨w, g1, g2, g3⟩ := take_spec (s.malloc n ans).2 a n h1 h2
          refine ⟨hm.1.trans w, ?_⟩
          intro b hb
          simp only [Option.some.injEq] at hb
          subst hb
          exact ⟨h1, g1, g2, g3⟩

private theorem run_wider (cs : List Call) : ∀ s, (∀ c ∈ cs, Sane c) → Wider s (s.run cs) := by
  induction cs with
  | nil => intro s _; exact Wider.refl s
  | cons c cs ih => intro s h; exact (step_spec s c (h c (by simp))).1.trans (ih _ fun x hx => h x (by simp [hx]))

private theorem run_append (a b : List Call) : ∀ s : Std, s.run (a ++ b) = (s.run a).run b := by
  induction a with
  | nil => intro s; rfl
  | cons c a ih => intro s; exact ih _

/-- **C91.** A block of the standard heap can always be given back: after every history of requests, whatever follows, every address in a
block that was returned is owned by the standard heap, so that it is freed there unless a registered heap contains the address. -/
theorem c91_standard (before after : List Call) (c : Call) (hb : ∀ x ∈ before ++ c :: after, Sane x) (a : Nat)
    (ha : ((Std.run ⟨0, 0, []⟩ before).step c).1 = some a) (info : Nat → Heap) (slots : List (Option Nat))
    (hl : ∀ h, some h ∈ slots → (info h).last < 18446744073709551616)
    (x : Nat) (hx : a ≤ x ∧ x < a + sizeOf c) (hout : ∀ g, some g ∈ slots → ¬ Inside (info g) x) :
    freeTo info (Std.run ⟨0, 0, []⟩ (before ++ c :: after)) slots x = some .standard := by
  have h1 := step_spec (Std.run ⟨0, 0, []⟩ before) c (hb c (by simp))
  have h2 := run_wider after ((Std.run ⟨0, 0, []⟩ before).step c).2 (fun y hy => hb y (by simp [hy]))
  obtain ⟨_, g1, g2, g3⟩ := h1.2 a ha
  rw [run_append]
  refine ((c91_find_address info _ slots x hl).2.1).mpr ⟨hout, ?_, ?_⟩
  · have := (h2.1 g1).2
    show (((Std.run ⟨0, 0, []⟩ before).step c).2.run after).first ≤ x
    omega
  · have := h2.2
    show x ≤ (((Std.run ⟨0, 0, []⟩ before).step c).2.run after).last
    omega

/-- **C91 (disagreement).** `RemoveHeap(NULL)` is accepted whenever there is a free slot; nothing is removed. -/
theorem c91_null_fails (ops : List Op) (h : (Spec.Heaps.run [] ops).2.length < 16) :
    removeHeap none (calls empty ops).2 = (true, (calls empty ops).2) := by
  have hlen : ∀ (ops : List Op) (s : List (Option Nat)), (calls s ops).2.length = s.length := by
    intro ops
    induction ops with
    | nil => intro s; rfl
    | cons op ops ih =>
      intro s
      simp only [calls, ih]
      cases op with
      | add h =>
        simp only [call, addHeap]
        split
        · rfl
        · split
          · rename_i t ht; exact (setFirst_some h s t ht).2.1
          · rfl
      | addNull => rfl
      | remove h => exact (remove_some h s).2.1
  have hp := (sim ops empty [] rfl (by decide)).2
  rw [remove_none]
  have : none ∈ (calls empty ops).2 := by
    by_cases hn : none ∈ (calls empty ops).2
    · exact hn
    · have hall : ∀ (l : List (Option Nat)), none ∉ l → (l.filterMap id).length = l.length := by
        intro l
        induction l with
        | nil => simp
        | cons y l ih =>
          intro hy
          simp only [List.mem_cons, not_or] at hy
          cases y with
          | none => exact absurd rfl hy.1
          | some y => simpa using ih hy.2
      have h1 := hall _ hn
      rw [hp.length_eq, hlen] at h1
      have : (empty).length = 16 := rfl
      omega
  simp [this]

/-- **C91 (disagreement).** A reallocation that fails returns null and the pointer of the caller becomes null (`data = realloc(...)`), but
the block is still there: nobody can free it. -/
theorem c91_leak_fails (s : Std) (d n : Nat) (hn : n ≠ 0) (hd : d ∈ s.live) :
    (s.step (.realloc (some d) n none)).1 = none ∧ d ∈ (s.step (.realloc (some d) n none)).2.live := by
  simp [Std.step, hn, hd]

/-- **C91 (disagreement).** The last address should be the last one of the heap; it is the one after: the first address after a block
is owned too. -/
theorem c91_end_fails (a n : Nat) (hn : n ≠ 0) (ha : a ≠ 0 ∧ a + n < 18446744073709551616) :
    (Std.run ⟨0, 0, []⟩ [.malloc n (some a)]).owns (a + n) = true := by
  simp [Std.run, Std.step, Std.malloc, hn, Std.take, Std.owns, Nat.mod_eq_of_lt ha.2]

/-- **C91.** A thread that gets a block while no other thread does leaves the range that `c91_standard` is about. -/
theorem c91_alone (a n : Nat) (s : Std) (ha : a + n < 18446744073709551616) (b : Taker) (k : Nat) :
    ∃ w, (∀ x ∈ w, x = true) ∧ (race ⟨a, n, .testFirst⟩ b s (w ++ List.replicate k true)).1.pc = .done ∧
      (race ⟨a, n, .testFirst⟩ b s (w ++ List.replicate k true)).2.2 = s.take a n := by
  refine ⟨[true, true, true, true], by simp, ?_⟩
  have hdone : ∀ (t : Taker) (s : Std), t.pc = .done → ∀ k, race t b s (List.replicate k true) = (t, b, s) := by
    intro t s h k
    induction k with
    | zero => rfl
    | succ k ih => simp only [List.replicate_succ, race, Taker.step, h]; exact ih
  by_cases h1 : s.first > a ∨ s.first = 0 <;> by_cases h2 : s.last < a + n ∨ s.last = 0 <;>
    simp [race, Taker.step, h1, h2, hdone, Std.take, Nat.mod_eq_of_lt ha]

/-- **C91 (disagreement).** The range of the standard heap is updated without a lock: two threads that get their blocks at the same time
can leave it without one of the blocks, which can then not be freed. -/
theorem c91_race_fails : ∃ (a b : Taker) (w : List Bool), a.pc = .testFirst ∧ b.pc = .testFirst ∧
    (race a b ⟨0, 0, []⟩ w).1.pc = .done ∧ (race a b ⟨0, 0, []⟩ w).2.1.pc = .done ∧
    ∀ info slots, (∀ h, some h ∈ slots → (info h : Heap).last < 18446744073709551616 ∧ ¬ Inside (info h) b.address) →
      freeTo info (race a b ⟨0, 0, []⟩ w).2.2 slots b.address = none := by
  refine ⟨⟨100, 8, .testFirst⟩, ⟨50, 8, .testFirst⟩, [false, true, false, true, false, false, true, true], rfl, rfl, by decide, by decide, ?_⟩
  intro info slots h
  refine ((c91_find_address info _ slots 50 fun k hk => (h k hk).1).2.2).mpr ⟨fun k hk => (h k hk).2, ?_⟩
  decide

/-! ## Concrete cases -/

private def heaps : Nat → Heap
  | 0 => ⟨"big".toList, 1000, 2000⟩
  | 1 => ⟨"small".toList, 1200, 1300⟩
  | _ => ⟨"other".toList, 5000, 6000⟩

private def reg : List (Option Nat) := (calls empty [.add 0, .add 2, .remove 2, .add 1]).2

example : (calls empty [.add 0, .add 2, .add 0, .remove 2, .remove 2, .add 1]).1 = [true, true, false, true, false, true] := by decide
example : mallocFrom heaps reg (some "small".toList) = some (.user 1) := by decide
example : freeTo heaps ⟨1, 9999, []⟩ reg 1250 = some (.user 1) := by decide
example : freeTo heaps ⟨1, 9999, []⟩ reg 1350 = some (.user 0) := by decide
example : freeTo heaps ⟨1, 9999, []⟩ reg 5500 = some .standard := by decide
example : freeTo heaps ⟨1, 99, []⟩ reg 5500 = none := by decide
-- the hypotheses of c91_back hold for the inner heap
example : Inside (heaps 1) 1250 ∧ some 1 ∈ reg ∧ (∀ g, some g ∈ reg → (heaps g).last < 18446744073709551616) ∧
    ∀ g, some g ∈ reg → g ≠ 1 → Inside (heaps g) 1250 → ¬ NotLarger (heaps g) (heaps 1) := by
  have : ∀ g, some g ∈ reg → g = 0 ∨ g = 1 := by intro g hg; simp [reg, calls, call, addHeap, removeHeap, empty, setFirst] at hg; simpa [eq_comm] using hg
  refine ⟨by simp [Inside, heaps], by decide, ?_, ?_⟩
  · intro g hg; rcases this g hg with rfl | rfl <;> decide
  · intro g hg h1 _; rcases this g hg with rfl | rfl
    · simp [NotLarger, heaps]
    · exact absurd rfl h1
example : ((Std.run ⟨0, 0, []⟩ [.malloc 8 (some 500)]).step (.realloc (some 500) 16 (some 300))).1 = some 300 := by decide

end Verif.Heaps
