import Verif.Proof.RefSearch
import Verif.Props.RefContainer
/-!
# C61: searching a container
-/
set_option linter.unusedVariables false
set_option maxRecDepth 8000
namespace Verif.RefC
open Verif.Spec.RefSearch
open Verif.Spec.RefC (sizeObj sizeObjs)

private theorem nameFilter_single (w : List Char) (hw : Words [w]) (hlen : w.length < 2 ^ 32) (n : Int) (deep back path rem : Bool) :
    nameFilter n deep back path rem w = Filter.setMode ⟨.byName [w], n, n, deep, back, path, rem⟩ := by
  have ha : setAddress w = [w] := setAddress_join [w] hw hlen
  unfold nameFilter; rw [ha]; simp

private theorem setMode_pos (kind : Kind) (n : Nat) (deep back path rem : Bool) :
    Filter.setMode ⟨kind, n, n, deep, back, path, rem⟩ = fn kind n (deep || path) back path rem n := by
  have : ¬ ((n : Int) = -1) := by omega
  cases path <;> simp [Filter.setMode, Filter.searchAll, this]

private theorem nth_search (kind : Kind) (p : Obj → Bool) (hs : Simple kind p) (kids res : List Obj) (fuel : Nat) (hf : sizeObjs kids ≤ fuel)
    (n : Nat) (hn : 1 ≤ n) (deep back path rem : Bool) :
    (find fuel (Filter.setMode ⟨kind, n, n, deep, back, path, rem⟩) res kids).map (fun r => (r.1.finished, r.2)) = some
      (match (found p (deep || path) back kids)[n - 1]? with
        | some v => (true, res ++ (if path then v.chain else v.chain.getLast?.toList), if rem then v.without else kids)
        | none => (false, res, kids)) := by
  have ho : ((n : Nat) : Int) ≠ -1 := by omega
  rw [setMode_pos, (nth_loop kind n (deep || path) back path rem p hs ho fuel).1 kids hf n hn res]
  unfold answer
  cases h : (found p (deep || path) back kids)[n - 1]? with
  | some v => simp [Filter.finished, stored]
  | none =>
    have : (found p (deep || path) back kids).length ≤ n - 1 := by simpa using h
    have h2 : ((n - (found p (deep || path) back kids).length : Nat) : Int) ≠ 0 := by omega
    simp only [Option.map_some, Option.some.injEq, Prod.mk.injEq, and_true, Filter.finished, beq_eq_false_iff_ne, ne_eq]
    exact h2

/-- **C61.** A search by name for the `n`-th occurrence adds to the result exactly that object, or with `PATH` the objects from the top down
to it; objects come in the order of the container (each before those in it, these only with `RECURSIVE` or `PATH`), or backwards with
`REVERSE`. With `REMOVE` the object is taken out of the container where it was found and nothing else changes. When there are fewer
occurrences nothing changes and the filter is not finished. -/
theorem c61_nth_name (w : List Char) (hw : w ≠ [] ∧ '.' ∉ w) (hlen : w.length < 2 ^ 32) (kids res : List Obj) (fuel : Nat)
    (hf : sizeObjs kids ≤ fuel) (n : Nat) (hn : 1 ≤ n) (deep backwards path remove : Bool) :
    (find fuel (nameFilter n deep backwards path remove w) res kids).map (fun r => (r.1.finished, r.2)) = some
      (match (found (hasName w) (deep || path) backwards kids)[n - 1]? with
        | some v => (true, res ++ (if path then v.chain else v.chain.getLast?.toList), if remove then v.without else kids)
        | none => (false, res, kids)) := by
  rw [nameFilter_single w ⟨by simp, by simpa using hw⟩ hlen]
  exact nth_search _ _ (simple_name w) kids res fuel hf n hn deep backwards path remove

/-- **C61.** The same for a search of an object by reference. -/
theorem c61_nth_reference (i : Nat) (kids res : List Obj) (fuel : Nat)
    (hf : sizeObjs kids ≤ fuel) (n : Nat) (hn : 1 ≤ n) (deep backwards path remove : Bool) :
    (find fuel (refFilter n deep backwards path remove (some i)) res kids).map (fun r => (r.1.finished, r.2)) = some
      (match (found (isObject i) (deep || path) backwards kids)[n - 1]? with
        | some v => (true, res ++ (if path then v.chain else v.chain.getLast?.toList), if remove then v.without else kids)
        | none => (false, res, kids)) :=
  nth_search _ _ (simple_ref i) kids res fuel hf n hn deep backwards path remove

/-- **C61 (partial).** A search by name for all the occurrences adds to the result exactly the objects of that name, in order, and changes
nothing else. Missing: with `PATH` nothing is found (`c61_all_paths_fails`), with `REMOVE` freed memory is used (`c61_remove_all_fails`). -/
theorem c61_all_name_partial (w : List Char) (hw : w ≠ [] ∧ '.' ∉ w) (hlen : w.length < 2 ^ 32) (kids res : List Obj) (fuel : Nat)
    (hf : sizeObjs kids ≤ fuel) (deep backwards : Bool) :
    (find fuel (nameFilter (-1) deep backwards false false w) res kids).map (fun r => r.2) = some
      (res ++ (found (hasName w) deep backwards kids).flatMap (fun v => v.chain.getLast?.toList), kids) := by
  rw [nameFilter_single w ⟨by simp, by simpa using hw⟩ hlen]
  have h : Filter.setMode ⟨.byName [w], -1, -1, deep, backwards, false, false⟩ = fa (.byName [w]) deep backwards := by simp [Filter.setMode]
  rw [h, (all_loop _ deep backwards _ (simple_name w) fuel).1 kids hf res]
  rfl

/-- **C61 (partial).** The same for a search by reference. -/
theorem c61_all_reference_partial (i : Nat) (kids res : List Obj) (fuel : Nat) (hf : sizeObjs kids ≤ fuel) (deep backwards : Bool) :
    (find fuel (refFilter (-1) deep backwards false false (some i)) res kids).map (fun r => r.2) = some
      (res ++ (found (isObject i) deep backwards kids).flatMap (fun v => v.chain.getLast?.toList), kids) := by
  have h : refFilter (-1) deep backwards false false (some i) = fa (.byRef (some i)) deep backwards := by simp [refFilter, Filter.setMode]
  rw [h, (all_loop _ deep backwards _ (simple_ref i) fuel).1 kids hf res]
  rfl

private theorem shallow_first (p : Obj → Bool) : ∀ kids : List Obj,
    (match (found p false false kids)[0]? with | some v => (true, v.without) | none => (false, kids)) = (kids.any p, kids.eraseP p)
  | [] => rfl
  | o :: os => by
    have ih := shallow_first p os
    have h : found p false false (o :: os) = (if p o then [⟨[o], os⟩] else []) ++ (found p false false os).map fun v => ⟨v.chain, o :: v.without⟩ := by
      have := found_cons p false [] os o
      simp only [List.nil_append] at this
      rw [show (fun v : Place (List Obj) => (⟨v.chain, v.without⟩ : Place (List Obj))) = id from rfl, List.map_id] at this
      rw [this, here_eq]
      simp [below]
    rw [h]
    cases hp : p o with
    | true => simp [hp]
    | false =>
      simp only [Bool.false_eq_true, if_false, List.nil_append, List.getElem?_map, List.any_cons, hp, Bool.false_or, List.eraseP_cons]
      cases hf : (found p false false os)[0]? with
      | some v => rw [hf] at ih; simp only [Option.map_some, Prod.mk.injEq] at ih ⊢; simp [← ih.1, ← ih.2]
      | none => rw [hf] at ih; simp only [Option.map_none, Prod.mk.injEq] at ih ⊢; simp [← ih.1, ← ih.2]

/-- **C61.** `Delete(name)` removes the first object of that name of the container itself, and answers whether there was one. -/
theorem c61_delete_name (w : List Char) (hw : w ≠ [] ∧ '.' ∉ w) (hlen : w.length < 2 ^ 32) (kids : List Obj) (fuel : Nat)
    (hf : sizeObjs kids ≤ fuel) :
    deletePath fuel w kids = some (kids.any (hasName w), kids.eraseP (hasName w)) := by
  have h := c61_nth_name w hw hlen kids [] fuel hf 1 (Nat.le_refl 1) false false false true
  unfold deletePath
  simp only [Int.natCast_one, Bool.or_false, Bool.false_eq_true, if_false, if_true, List.nil_append, Nat.sub_self] at h
  have hs := shallow_first (hasName w) kids
  cases hfi : find fuel (nameFilter 1 false false false true w) [] kids with
  | none => rw [hfi] at h; simp at h
  | some r =>
    rw [hfi] at h
    simp only [Option.map_some, Option.some.injEq] at h ⊢
    cases hg : (found (hasName w) false false kids)[0]? with
    | none =>
      rw [hg] at h hs
      simp only [Prod.mk.injEq] at h hs ⊢
      rw [h.2, ← hs.1, ← hs.2]
      simp
    | some v =>
      rw [hg] at h hs
      have hne := found_ne _ _ _ _ v (List.mem_of_getElem? hg)
      simp only [Prod.mk.injEq] at h hs ⊢
      rw [h.2, ← hs.1, ← hs.2]
      obtain ⟨z, hz⟩ : ∃ z, v.chain.getLast? = some z := ⟨_, List.getLast?_eq_some_getLast hne⟩
      simp [hz]

/-- **C61.** A dot before a path changes nothing. -/
theorem c61_leading_dot (ws : List (List Char)) (hw : Words ws) (hlen : (joinPath ws).length + 1 < 2 ^ 32) (fuel : Nat) (deep : Bool)
    (kids : List Obj) : findPath fuel ('.' :: joinPath ws) deep kids = findPath fuel (joinPath ws) deep kids := by
  have h : setAddress ('.' :: joinPath ws) = setAddress (joinPath ws) := by
    rw [setAddress_join ws hw (by omega)]
    obtain ⟨d, h3, h4⟩ := join_last ws hw
    have h6 : ('.' :: joinPath ws)[('.' :: joinPath ws).length - 1]? ≠ some '.' := by
      rw [← List.getLast?_eq_getElem?, List.getLast?_cons, h3]; simpa using h4
    unfold setAddress
    simp only [h6, if_false]
    rw [if_pos (by simp)]
    simp only [List.getElem?_cons_zero, if_true, List.drop_succ_cons, List.drop_zero]
    rw [count_join ws hw 1 _ 1 rfl (by omega), show 1 + ws.length - 1 = ws.length by omega]
    exact tokens_join ws (fun w h => (hw.2 w h).2)
  unfold findPath nameFilter
  rw [h]

private theorem count_dots (a b : List Char) : ∀ i l n, countNodes (a ++ '.' :: '.' :: b) i l n = 0 := by
  induction a with
  | nil =>
    intro i l n
    have h1 : (i + 1 + 2 ^ 32 - i) % 2 ^ 32 = 1 := by omega
    simp only [List.nil_append, countNodes, if_true, h1, ite_self]
  | cons c a ih =>
    intro i l n
    simp only [List.cons_append, countNodes, ih, ite_self]

private theorem dots_address (a b : List Char) : setAddress (a ++ '.' :: '.' :: b) = [] := by
  have hc : countNodes ((a ++ '.' :: '.' :: b).drop (if (a ++ '.' :: '.' :: b)[0]? = some '.' then 1 else 0))
      (if (a ++ '.' :: '.' :: b)[0]? = some '.' then 1 else 0)
      (((if (a ++ '.' :: '.' :: b)[0]? = some '.' then 1 else 0) + 2 ^ 32 - 1) % 2 ^ 32) 1 = 0 := by
    by_cases h : (a ++ '.' :: '.' :: b)[0]? = some '.'
    · simp only [h, if_true]
      cases a with
      | nil => simp [countNodes]
      | cons c a =>
        simp only [List.cons_append, List.drop_succ_cons, List.drop_zero]
        exact count_dots a b _ _ _
    · simp only [h, if_false, List.drop_zero]
      exact count_dots a b _ _ _
  unfold setAddress
  rw [if_pos (by rw [List.length_append, List.length_cons]; omega)]
  simp only [hc, Nat.lt_irrefl, gt_iff_lt, ite_self]
  rfl

/-- **C61.** Nothing has a path with two dots in a row. -/
theorem c61_double_dot (a b : List Char) (fuel : Nat) (deep : Bool) (kids : List Obj) (hf : sizeObjs kids ≤ fuel) :
    findPath fuel (a ++ '.' :: '.' :: b) deep kids = some none := by
  have hs : Simple (.byName []) (fun _ => false) := by
    intro n orig rec rev path rem prev o
    simp [Filter.test, testName]
  have h := nth_search _ _ hs kids [] fuel hf 1 (Nat.le_refl 1) deep false false false
  have hz : found (fun _ => false) (deep || false) false kids = [] := by
    simp only [found, List.filter_eq_nil_iff]
    intro v _
    simp only [Wanted]
    split <;> simp
  rw [hz] at h
  unfold findPath nameFilter
  rw [dots_address]
  simp only [List.length_nil, gt_iff_lt, Nat.not_lt_zero, if_false]
  have e : find fuel (Filter.setMode ⟨.byName [], 1, 1, deep, false, false, false⟩) [] kids =
      find fuel (Filter.setMode ⟨.byName [], ((1 : Nat) : Int), ((1 : Nat) : Int), deep, false, false, false⟩) [] kids := rfl
  rw [e]
  cases hr : find fuel (Filter.setMode ⟨.byName [], ((1 : Nat) : Int), ((1 : Nat) : Int), deep, false, false, false⟩) [] kids with
  | none => rw [hr] at h; simp at h
  | some r =>
    rw [hr] at h
    simp only [Option.map_some, List.getElem?_nil, Option.some.injEq, Prod.mk.injEq] at h
    simp [h.2]

/-! ## A case -/

private def L (i : Nat) (s : String) : Obj := .leaf i (some s.toList)
private def N (i : Nat) (s : String) (k : List Obj) : Obj := .cont i (some s.toList) k
private def tree : List Obj := [L 1 "X", N 2 "A" [L 3 "X", N 4 "B" [L 5 "X", L 6 "C"]], L 7 "X"]

example : sizeObjs tree ≤ 20 := by decide
/-- Four places are wanted … -/
example : (found (hasName "X".toList) true false tree).map (fun v => v.chain.map Obj.id) = [[1], [2, 3], [2, 4, 5], [7]] := by decide
example : (found (hasName "X".toList) true true tree).map (fun v => v.chain.map Obj.id) = [[7], [2, 4, 5], [2, 3], [1]] := by decide
/-- … and the third is found and removed. -/
example : (find 20 (nameFilter 3 false false true true "X".toList) [] tree).map (fun r => (r.2.1.map Obj.id, r.2.2)) =
    some ([2, 4, 5], [L 1 "X", N 2 "A" [L 3 "X", N 4 "B" [L 6 "C"]], L 7 "X"]) := rfl

/-! ## Where it fails -/

/-- A search for all the occurrences with their paths finds nothing, although there is one. -/
theorem c61_all_paths_fails :
    (found (hasName "C".toList) true false tree).length = 1 ∧
    (find 20 (nameFilter (-1) true false true false "C".toList) [] tree).map (fun r => r.2.1.map Obj.id) = some [] := by decide

/-- A search that removes all the occurrences uses the memory of the node that it has freed. -/
theorem c61_remove_all_fails : find 20 (nameFilter (-1) false false false true "X".toList) [] tree = none := by decide

end Verif.RefC
