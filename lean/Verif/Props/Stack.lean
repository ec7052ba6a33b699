import Verif.Model.Stack
import Verif.Props.StaticList

/-! ## Specification: a stack, and a window on the last elements pushed -/
namespace Verif.Spec.Stack
open Verif.Stack (Op Res COp)

/-- A stack, top first, of at most `limit` elements: `push` may be refused only if the memory is refused or the stack is
full. -/
inductive Ideal (limit : Nat) : List (List UInt8) → Op → Res → List (List UInt8) → Prop
  | pushed {xs v a} (h : xs.length < limit) : Ideal limit xs (.push v a) ⟨true, none, 0⟩ (v :: xs)
  | refused {xs v a} (h : a = false ∨ limit ≤ xs.length) : Ideal limit xs (.push v a) ⟨false, none, 0⟩ xs
  | pop {x xs} : Ideal limit (x :: xs) .pop ⟨true, some x, 0⟩ xs
  | popEmpty : Ideal limit [] .pop ⟨false, none, 0⟩ []
  | peek {xs p} : Ideal limit xs (.peek p) ⟨xs[p]?.isSome, xs[p]?, 0⟩ xs
  | clean {xs} : Ideal limit xs .clean ⟨true, none, 0⟩ []
  | size {xs} : Ideal limit xs .getSize ⟨true, none, xs.length⟩ xs

inductive IdealRun (limit : Nat) : List (List UInt8) → List Op → List Res → List (List UInt8) → Prop
  | nil (xs) : IdealRun limit xs [] [] xs
  | cons {xs op o xs' ops os xs''} (h : Ideal limit xs op o xs') (t : IdealRun limit xs' ops os xs'') :
      IdealRun limit xs (op :: ops) (o :: os) xs''

/-- Element sizes and `uint32` positions. -/
def OpOk (es : Nat) : Op → Prop
  | .push v _ => v.length = es
  | .peek p => p < 2 ^ 32
  | _ => True

/-- A window of fixed length, oldest element first, and the number of elements pushed so far. -/
structure Window where
  elems : List (List UInt8)
  pushed : Nat

/-- Pushing drops the oldest element. -/
def Window.push (w : Window) (v : List UInt8) : Window := ⟨w.elems.drop 1 ++ [v], w.pushed + 1⟩

def cstep (w : Window) : COp → Res × Window
  | .push v => (⟨true, none, 0⟩, w.push v)
  | .pushOut v => (⟨true, w.elems.head?, 0⟩, w.push v)
  | .getLast => (⟨true, w.elems.getLast?, 0⟩, w)
  | .getIndex => (⟨true, none, w.pushed % w.elems.length⟩, w)

def crun (w : Window) : List COp → List Res × Window
  | [] => ([], w)
  | op :: ops =>
    let r := cstep w op
    let q := crun r.2 ops
    (r.1 :: q.1, q.2)

def COpOk (es : Nat) : COp → Prop
  | .push v => v.length = es
  | .pushOut v => v.length = es
  | _ => True

end Verif.Spec.Stack

namespace Verif.Stack
open Verif.StaticList (Holder Inv Room new maxCap_new inv_new add_spec peek_spec)
open Verif.Spec.Stack

private theorem sub32_of_le {a b : Nat} (h : b ≤ a) (ha : a < 2 ^ 32) : sub32 a b = a - b := by
  unfold sub32; omega

private theorem extract_spec {es gran maxCap : Nat} {h : Holder} {xs} (inv : Inv es gran maxCap h xs)
    (hw : Room gran maxCap xs) (p : Nat) :
    ∃ h', StaticList.extract h p = some (xs[p]?, h') ∧ Inv es gran maxCap h' (xs.eraseIdx p) := by
  obtain ⟨o, h', xs', e, hi, i⟩ := StaticList.step_spec inv hw (.extract p) trivial
  simp only [StaticList.step, Option.map_eq_some_iff] at e
  obtain ⟨⟨r1, r2⟩, e1, e2⟩ := e
  simp only [Prod.mk.injEq] at e2
  obtain ⟨rfl, rfl⟩ := e2
  simp only [Spec.StaticList.Ideal] at hi
  obtain ⟨_, h2, rfl⟩ := hi
  exact ⟨r2, by rw [e1, ← h2], i⟩

theorem step_spec {es gran maxCap : Nat} {h : Holder} {xs} (inv : Inv es gran maxCap h xs.reverse)
    (hw : Room gran maxCap xs.reverse) (op : Op) (hop : OpOk es op) :
    ∃ o h' xs', step h op = some (o, h') ∧ Ideal maxCap xs op o xs' ∧ Inv es gran maxCap h' xs'.reverse := by
  have hsz : h.size = xs.length := by rw [inv.size, List.length_reverse]
  have hlt : h.size < 2 ^ 32 := by
    have := inv.size_le; have := inv.cap_le; have := inv.max_lt
    rw [List.length_reverse] at *; omega
  cases op with
  | push v a =>
    obtain ⟨ok, h', e, hc⟩ := add_spec inv hw v hop a
    simp only [step, e, Option.map_some]
    rcases hc with ⟨rfl, i, hlt⟩ | ⟨rfl, rfl, hr⟩
    · refine ⟨_, _, v :: xs, rfl, .pushed (by simpa using hlt), by simpa using i⟩
    · refine ⟨_, _, xs, rfl, .refused ?_, inv⟩
      rcases hr with h | h
      · exact .inl h
      · right; simp at h; omega
  | pop =>
    obtain ⟨h', e, i⟩ := extract_spec inv hw (sub32 h.size 1)
    simp only [step, e, Option.map_some]
    cases xs with
    | nil =>
      refine ⟨_, _, [], rfl, by simpa using Ideal.popEmpty, by simpa using i⟩
    | cons x xs =>
      have h1 : sub32 h.size 1 = xs.reverse.length := by
        rw [sub32_of_le (by rw [hsz]; simp) hlt, hsz]; simp
      rw [h1] at i ⊢
      have h2 : (x :: xs).reverse[xs.reverse.length]? = some x := by simp
      have h3 : (x :: xs).reverse.eraseIdx xs.reverse.length = xs.reverse := by
        rw [List.reverse_cons, List.eraseIdx_append_of_length_le (Nat.le_refl _)]; simp
      rw [h3] at i
      rw [h2]
      exact ⟨_, _, xs, rfl, .pop, i⟩
  | peek p =>
    have hp : p < 2 ^ 32 := hop
    simp only [step, peek_spec inv, Option.map_some]
    have hv : xs.reverse[sub32 (sub32 h.size p) 1]? = xs[p]? := by
      by_cases hpl : p < xs.length
      · rw [sub32_of_le (by omega) hlt, sub32_of_le (by omega) (by omega), hsz]
        rw [List.getElem?_reverse (by omega)]
        congr 1; omega
      · rw [List.getElem?_eq_none (by omega : xs.length ≤ p), List.getElem?_eq_none]
        rw [List.length_reverse]; unfold sub32; rw [hsz] at *; omega
    rw [hv]
    exact ⟨_, _, xs, rfl, .peek, inv⟩
  | clean =>
    obtain ⟨o, h', xs', e, hi, i⟩ := StaticList.step_spec inv hw .clean trivial
    simp only [StaticList.step, Option.some.injEq, Prod.mk.injEq] at e
    obtain ⟨rfl, rfl⟩ := e
    simp only [Spec.StaticList.Ideal] at hi
    rw [hi.2] at i
    exact ⟨_, _, [], rfl, .clean, by simpa using i⟩
  | getSize =>
    simp only [step, hsz]
    exact ⟨_, _, xs, rfl, .size, inv⟩

private theorem ideal_length {limit xs op o xs'} (h : Ideal limit xs op o xs') : xs'.length ≤ xs.length + 1 := by
  cases h <;> simp <;> omega

theorem run_spec {es gran maxCap : Nat} (ops : List Op) {h : Holder} {xs} (inv : Inv es gran maxCap h xs.reverse)
    (hw : maxCap + gran < 2 ^ 32 ∨ xs.length + ops.length ≤ maxCap) (hops : ∀ op ∈ ops, OpOk es op) :
    ∃ os h' xs', run h ops = some (os, h') ∧ IdealRun maxCap xs ops os xs' ∧ Inv es gran maxCap h' xs'.reverse := by
  induction ops generalizing h xs with
  | nil => exact ⟨[], h, xs, rfl, .nil xs, inv⟩
  | cons op ops ih =>
    have hw1 : Room gran maxCap xs.reverse := hw.imp id (by simp; omega)
    obtain ⟨o, h1, xs1, e1, i1, inv1⟩ := step_spec inv hw1 op (hops op (by simp))
    have hl := ideal_length i1
    obtain ⟨os, h2, xs2, e2, i2, inv2⟩ := ih inv1 (hw.imp id (by simp only [List.length_cons]; omega))
      (fun x hx => hops x (by simp [hx]))
    exact ⟨o :: os, h2, xs2, by simp [run, e1, e2], .cons i1 i2, inv2⟩

/-- **C48.** Every history of `Push`, `Pop`, `Peek` and `Clean` on a new `StaticStack` gives the results of a stack:
last in, first out; `Peek(p)` shows the element `p` below the top; `Pop` of an empty stack and `Peek` below the bottom
fail; memory outside of the stack is never touched.  As for C01 the elements have at least two bytes or the history
is shorter than the maximum capacity. -/
theorem c48_stack (es gran : Nat) (hes : 1 ≤ es) (hgran : 1 ≤ gran) (ops : List Op)
    (hw : (new es gran).maxCap + gran < 2 ^ 32 ∨ ops.length ≤ (new es gran).maxCap)
    (hops : ∀ op ∈ ops, OpOk es op) :
    ∃ os h xs, run (new es gran) ops = some (os, h) ∧ IdealRun (new es gran).maxCap [] ops os xs := by
  obtain ⟨os, h, xs, e, hi, _⟩ := run_spec (xs := []) ops (inv_new es gran hes hgran) (by simpa using hw) hops
  exact ⟨os, h, xs, e, hi⟩

example : (run (new 1 4) [.push [7] true, .push [8] true, .peek 1, .peek 2, .pop, .pop, .pop, .getSize]).map (·.1) =
    some [⟨true, none, 0⟩, ⟨true, none, 0⟩, ⟨true, some [7], 0⟩, ⟨false, none, 0⟩, ⟨true, some [8], 0⟩,
      ⟨true, some [7], 0⟩, ⟨false, none, 0⟩, ⟨true, none, 0⟩] := by decide

/-! ### The circular list -/

/-- The window is the list read from the index on, and round. -/
structure CInv (es gran maxCap : Nat) (c : Circ) (w : Window) : Prop where
  ex : ∃ xs, Inv es gran maxCap c.list xs ∧ Room gran maxCap xs ∧ c.index < xs.length ∧
    w.elems = xs.drop c.index ++ xs.take c.index ∧ w.pushed % w.elems.length = c.index

theorem push_spec {es gran maxCap : Nat} {c : Circ} {w : Window} (h : CInv es gran maxCap c w) (v : List UInt8)
    (hv : v.length = es) : ∃ c', pushData c v = some (true, c') ∧ CInv es gran maxCap c' (w.push v) := by
  obtain ⟨xs, inv, hr, hi, hw, hp⟩ := h
  obtain ⟨o, h', xs', e, hid, i⟩ := StaticList.step_spec inv hr (.set c.index v) hv
  simp only [StaticList.step, Option.map_eq_some_iff] at e
  obtain ⟨⟨r1, r2⟩, e1, e2⟩ := e
  simp only [Prod.mk.injEq] at e2
  obtain ⟨rfl, rfl⟩ := e2
  simp only [Spec.StaticList.Ideal, hi, if_true] at hid
  obtain ⟨hr1, rfl⟩ := hid
  subst hr1
  have hlt : xs.length < 2 ^ 32 := by
    have h1 := inv.size_le; have h2 := inv.cap_le; have h3 := inv.max_lt
    omega
  have hsz : r2.size = xs.length := by rw [i.size, List.length_set]
  have hlen : w.elems.length = xs.length := by rw [hw]; simp; omega
  have hdrop : xs.drop c.index = xs[c.index] :: xs.drop (c.index + 1) := List.drop_eq_getElem_cons hi
  have hw2 : w.elems.drop 1 ++ [v] = xs.drop (c.index + 1) ++ (xs.take c.index ++ [v]) := by
    rw [hw, hdrop, List.cons_append, List.drop_succ_cons, List.drop_zero, List.append_assoc]
  have htake : (xs.set c.index v).take (c.index + 1) = xs.take c.index ++ [v] := by
    rw [List.take_add_one, List.take_set_of_le (Nat.le_refl _), List.getElem?_set_self hi]; rfl
  have hdset : (xs.set c.index v).drop (c.index + 1) = xs.drop (c.index + 1) :=
    List.drop_set_of_lt (by omega)
  have hmod : (c.index + 1) % 2 ^ 32 = c.index + 1 := Nat.mod_eq_of_lt (by omega)
  simp only [pushData, e1, Option.map_some, hmod, if_true, hsz]
  refine ⟨_, rfl, ⟨xs.set c.index v, i, ?_, ?_, ?_, ?_⟩⟩
  · exact hr.imp id (by simp)
  · rw [List.length_set]
    by_cases hend : c.index + 1 = xs.length
    · simp only [hend, if_true]; omega
    · simp only [hend, if_false]; exact Nat.lt_of_le_of_ne hi hend
  · show w.elems.drop 1 ++ [v] = _
    rw [hw2]
    by_cases hend : c.index + 1 = xs.length
    · simp only [hend, if_true, List.drop_zero, List.take_zero, List.append_nil]
      rw [← hend, ← htake, ← hdset]
      have h1 : (xs.set c.index v).length = c.index + 1 := by simp [hend]
      rw [List.drop_of_length_le (by omega), List.take_of_length_le (by omega), List.nil_append]
    · simp only [hend, if_false]
      rw [hdset, htake]
  · show (w.pushed + 1) % (w.elems.drop 1 ++ [v]).length = _
    have h1 : (w.elems.drop 1 ++ [v]).length = xs.length := by
      rw [List.length_append, List.length_drop, List.length_singleton]; omega
    rw [h1]
    rw [hlen] at hp
    by_cases hend : c.index + 1 = xs.length
    · simp only [hend, if_true]
      rw [Nat.add_mod, hp]
      rcases Nat.lt_or_ge 1 xs.length with h | h
      · rw [Nat.mod_eq_of_lt h, hend, Nat.mod_self]
      · have : xs.length = 1 := by omega
        rw [this]; omega
    · simp only [hend, if_false]
      rw [Nat.add_mod, hp, Nat.mod_eq_of_lt (by omega : 1 < xs.length), Nat.mod_eq_of_lt (by omega)]

theorem cstep_spec {es gran maxCap : Nat} {c : Circ} {w : Window} (h : CInv es gran maxCap c w) (op : COp)
    (hop : COpOk es op) :
    ∃ c', cstep c op = some ((Spec.Stack.cstep w op).1, c') ∧ CInv es gran maxCap c' (Spec.Stack.cstep w op).2 := by
  obtain ⟨xs, inv, hr, hi, hw, hp⟩ := h
  have hlt : xs.length < 2 ^ 32 := by
    have h1 := inv.size_le; have h2 := inv.cap_le; have h3 := inv.max_lt
    omega
  have hsz := inv.size
  cases op with
  | push v =>
    obtain ⟨c', e, h'⟩ := push_spec ⟨xs, inv, hr, hi, hw, hp⟩ v hop
    exact ⟨c', by simp [cstep, e, Spec.Stack.cstep], h'⟩
  | pushOut v =>
    obtain ⟨c', e, h'⟩ := push_spec ⟨xs, inv, hr, hi, hw, hp⟩ v hop
    refine ⟨c', ?_, h'⟩
    have hh : w.elems.head? = some xs[c.index] := by
      rw [hw, List.drop_eq_getElem_cons hi]; rfl
    simp only [cstep, peek_spec inv, List.getElem?_eq_getElem hi, Option.bind_some, e, Option.map_some,
      Spec.Stack.cstep, hh]
  | getLast =>
    refine ⟨c, ?_, ⟨xs, inv, hr, hi, hw, hp⟩⟩
    have hv : xs[if c.index > 0 then c.index - 1 else sub32 c.list.size 1]? = w.elems.getLast? := by
      rw [hw]
      by_cases h0 : c.index > 0
      · rw [if_pos h0, List.getLast?_append, List.getLast?_eq_getElem? (l := xs.take c.index), List.length_take,
          Nat.min_eq_left (by omega), List.getElem?_take_of_lt (by omega),
          List.getElem?_eq_getElem (by omega)]
        rfl
      · have h1 : c.index = 0 := by omega
        rw [if_neg h0, sub32_of_le (by omega) (by omega), hsz, h1]
        simp [List.getLast?_eq_getElem?]
    have hsome : (w.elems.getLast?).isSome = true := by
      rw [← hv, List.getElem?_eq_getElem (by
        by_cases h0 : c.index > 0
        · rw [if_pos h0]; omega
        · rw [if_neg h0, sub32_of_le (by omega) (by omega)]; omega)]
      rfl
    simp only [cstep, peek_spec inv, Option.map_some, hv, hsome, Spec.Stack.cstep]
  | getIndex =>
    exact ⟨c, by simp [cstep, Spec.Stack.cstep, hp], ⟨xs, inv, hr, hi, hw, hp⟩⟩

private theorem adds {es gran maxCap : Nat} : ∀ (init : List (List UInt8)) (h : Holder) (xs : List (List UInt8)),
    Inv es gran maxCap h xs → xs.length + init.length ≤ maxCap → (∀ v ∈ init, v.length = es) →
    ∃ os h', StaticList.run h (init.map fun v => .add v true) = some (os, h') ∧ Inv es gran maxCap h' (xs ++ init)
  | [], h, xs, inv, _, _ => ⟨[], h, rfl, by simpa using inv⟩
  | v :: init, h, xs, inv, hl, hv => by
    simp only [List.length_cons] at hl
    obtain ⟨ok, h', e, hc⟩ := add_spec inv (.inr (by omega)) v (hv v (by simp)) true
    rcases hc with ⟨rfl, i, _⟩ | ⟨rfl, rfl, hr⟩
    · obtain ⟨os, h2, e2, i2⟩ := adds init h' (xs ++ [v]) i (by simp; omega) (fun x hx => hv x (by simp [hx]))
      refine ⟨{ ok := true } :: os, h2, ?_, by simpa using i2⟩
      simp [StaticList.run, StaticList.step, e, e2]
    · rcases hr with h | h
      · cases h
      · omega

/-- **C48.** A `CircularStaticList` of `n ≥ 1` elements is a window on the last `n` elements pushed: every history of
`PushData` (in both forms), `GetLast` and `GetIndex` after construction gives the results of a window that starts with
the unknown initial elements; no push fails and no memory outside of the list is touched. -/
theorem c48_circular (es gran : Nat) (hes : 1 ≤ es) (hgran : 1 ≤ gran) (init : List (List UInt8)) (hn : init ≠ [])
    (hmax : init.length < (new es gran).maxCap) (hel : ∀ v ∈ init, v.length = es) (ops : List COp)
    (hops : ∀ op ∈ ops, COpOk es op) :
    ∃ c c', newCirc es gran init = some c ∧ crun c ops = some ((Spec.Stack.crun ⟨init, 0⟩ ops).1, c') := by
  obtain ⟨os, h, e, inv⟩ := adds init (new es gran) [] (inv_new es gran hes hgran) (by simp; omega) hel
  rw [List.nil_append] at inv
  refine ⟨⟨h, 0⟩, ?_⟩
  have hc : CInv es gran (new es gran).maxCap ⟨h, 0⟩ ⟨init, 0⟩ :=
    ⟨init, inv, .inr hmax, List.length_pos_iff.mpr hn, by simp, by simp⟩
  suffices hs : ∀ (ops : List COp) (c : Circ) (w : Window), CInv es gran (new es gran).maxCap c w →
      (∀ op ∈ ops, COpOk es op) → ∃ c', crun c ops = some ((Spec.Stack.crun w ops).1, c') by
    obtain ⟨c', hc'⟩ := hs ops _ _ hc hops
    exact ⟨c', by simp [newCirc, e], hc'⟩
  intro ops
  induction ops with
  | nil => intro c w _ _; exact ⟨c, rfl⟩
  | cons op ops ih =>
    intro c w hc hops
    obtain ⟨c1, e1, h1⟩ := cstep_spec hc op (hops op (by simp))
    obtain ⟨c2, e2⟩ := ih c1 _ h1 (fun x hx => hops x (by simp [hx]))
    exact ⟨c2, by simp [crun, Spec.Stack.crun, e1, e2]⟩

example : ((newCirc 1 4 [[0], [0], [0]]).bind fun c => (crun c [.push [1], .push [2], .getLast, .push [3],
    .pushOut [4], .getIndex]).map (·.1)) = some [⟨true, none, 0⟩, ⟨true, none, 0⟩, ⟨true, some [2], 0⟩, ⟨true, none, 0⟩,
      ⟨true, some [1], 0⟩, ⟨true, none, 1⟩] := by decide

end Verif.Stack
