import Verif.Proof.RefContainer
namespace Verif.RefC
open Verif.Spec.RefC

/-- **C06.**  For every history of calls on a container (of fewer than `2^31` references in total): `Insert` appends or
places at the given position and refuses invalid references, `Delete` removes the first occurrence of exactly that
reference, `Get` and `Size` report the resulting sequence. -/
theorem c06_history (fuel : Nat) (ops : List Op) (kids : List Obj) (hlen : kids.length + ops.length < 2 ^ 31)
    (hfuel : kids.length + ops.length < fuel)
    (hpos : ∀ r p, Op.insert r p ∈ ops → -2 ^ 31 ≤ p ∧ p < 2 ^ 31) :
    ∃ kids', run fuel kids ops = some (Spec.RefC.run kids ops, kids') := by
  induction ops generalizing kids with
  | nil => exact ⟨kids, rfl⟩
  | cons op ops ih =>
    simp only [List.length_cons] at hlen hfuel
    have hstep : step fuel kids op = some ((Spec.RefC.step kids op).1, (Spec.RefC.step kids op).2) := by
      cases op with
      | insert r p =>
        have hp := hpos r p (List.mem_cons_self ..)
        cases r with
        | none => rfl
        | some o =>
          simp only [step, insert, Spec.RefC.step]
          by_cases h1 : p = -1
          · subst h1; rfl
          · rw [if_neg h1]
            by_cases h2 : 0 ≤ p
            · rw [if_pos h2, Int.emod_eq_of_lt h2 (by omega)]
            · rw [if_neg h2]
              have h3 : kids.length ≤ (p % 2 ^ 32).toNat := by omega
              rw [List.take_of_length_le h3, List.drop_of_length_le h3, List.append_nil]
      | delete r =>
        simp only [step, delete_spec fuel kids r (by omega)]
        cases r <;> rfl
      | get i =>
        simp only [step, get, Spec.RefC.step]
        by_cases h : i < kids.length
        · rw [if_pos h]
        · rw [if_neg h, List.getElem?_eq_none (by omega)]
      | size => rfl
    have hgrow : (Spec.RefC.step kids op).2.length ≤ kids.length + 1 := by
      cases op with
      | insert r p =>
        cases r with
        | none => simp [Spec.RefC.step]
        | some o =>
          simp only [Spec.RefC.step]
          split <;> simp <;> omega
      | delete r =>
        cases r with
        | none => simp [Spec.RefC.step]
        | some i =>
          have := (List.eraseP_sublist (p := fun o => o.id == i) (l := kids)).length_le
          simp only [Spec.RefC.step]; omega
      | get i => simp [Spec.RefC.step]
      | size => simp [Spec.RefC.step]
    obtain ⟨k', e⟩ := ih (Spec.RefC.step kids op).2 (by omega) (by omega)
      (fun r p h => hpos r p (List.mem_cons_of_mem _ h))
    exact ⟨k', by simp [run, Spec.RefC.run, hstep, e]⟩

example : (run 20 [] [.insert (some (.leaf 1 none)) (-1), .insert (some (.leaf 2 none)) 0, .insert none 0,
    .insert (some (.leaf 1 none)) 1, .delete (some 1), .delete (some 9), .size]).map (fun r => r.2.map Obj.id) =
    some [2, 1] := by decide

/-! ## Find by path -/

/-- The text `w1.w2. ... .wn`. -/
def joinPath : List (List Char) → List Char
  | [] => []
  | [w] => w
  | w :: ws => w ++ '.' :: joinPath ws

/-- The components of a path: not empty and without dots. -/
def Words (ws : List (List Char)) : Prop := ws ≠ [] ∧ ∀ w ∈ ws, w ≠ [] ∧ '.' ∉ w

theorem tokenize_last (w : List Char) (h : '.' ∉ w) : tokenize w = (w, []) := by
  induction w with
  | nil => rfl
  | cons c w ih =>
    simp only [List.mem_cons, not_or] at h
    have : ¬ c = '.' := fun e => h.1 e.symm
    simp [tokenize, this, ih h.2]

theorem tokenize_dot (w r : List Char) (h : '.' ∉ w) : tokenize (w ++ '.' :: r) = (w, r) := by
  induction w with
  | nil => simp [tokenize]
  | cons c w ih =>
    simp only [List.mem_cons, not_or] at h
    have : ¬ c = '.' := fun e => h.1 e.symm
    simp [tokenize, this, ih h.2]

theorem tokens_join (ws : List (List Char)) (h : ∀ w ∈ ws, '.' ∉ w) : tokens ws.length (joinPath ws) = ws := by
  induction ws with
  | nil => rfl
  | cons w ws ih =>
    cases ws with
    | nil => simp [tokens, joinPath, tokenize_last w (h w (by simp))]
    | cons x xs =>
      have e : joinPath (w :: x :: xs) = w ++ '.' :: joinPath (x :: xs) := rfl
      rw [e]
      have ih' := ih (fun y hy => h y (List.mem_cons_of_mem _ hy))
      show tokens ((x :: xs).length + 1) _ = _
      rw [tokens, tokenize_dot w _ (h w (by simp)), ih']

theorem count_word (w r : List Char) (i l n : Nat) (h : '.' ∉ w) :
    countNodes (w ++ r) i l n = countNodes r (i + w.length) l n := by
  induction w generalizing i with
  | nil => rfl
  | cons c w ih =>
    simp only [List.mem_cons, not_or] at h
    have : ¬ c = '.' := fun e => h.1 e.symm
    simp only [List.cons_append, countNodes, this, if_false, ih (i + 1) h.2, List.length_cons]
    congr 1; omega

theorem count_join (ws : List (List Char)) (hw : Words ws) (i l n : Nat) (hl : l = (i + 2 ^ 32 - 1) % 2 ^ 32)
    (hlen : i + (joinPath ws).length < 2 ^ 32) : countNodes (joinPath ws) i l n = n + ws.length - 1 := by
  induction ws generalizing i l n with
  | nil => exact absurd rfl hw.1
  | cons w ws ih =>
    obtain ⟨hw1, hw2⟩ := hw.2 w (by simp)
    have hpos : 0 < w.length := List.length_pos_iff.mpr hw1
    cases ws with
    | nil =>
      have := count_word w [] i l n hw2
      rw [List.append_nil] at this
      simp [joinPath, this, countNodes]
    | cons x xs =>
      have e : joinPath (w :: x :: xs) = w ++ '.' :: joinPath (x :: xs) := rfl
      rw [e, List.length_append, List.length_cons] at hlen
      rw [e, count_word w _ i l n hw2]
      simp only [countNodes, if_true]
      rw [if_neg (by omega), ih ⟨by simp, fun y hy => hw.2 y (List.mem_cons_of_mem _ hy)⟩ _ _ _ (by omega) (by omega)]
      simp only [List.length_cons]; omega

theorem join_head (ws : List (List Char)) (hw : Words ws) : ∃ c r, joinPath ws = c :: r ∧ c ≠ '.' := by
  cases ws with
  | nil => exact absurd rfl hw.1
  | cons w ws =>
    obtain ⟨h1, h2⟩ := hw.2 w (by simp)
    cases w with
    | nil => exact absurd rfl h1
    | cons c w =>
      refine ⟨c, ?_⟩
      have : c ≠ '.' := by rintro rfl; simp at h2
      cases ws with
      | nil => exact ⟨w, rfl, this⟩
      | cons x xs => exact ⟨_, rfl, this⟩

theorem join_last (ws : List (List Char)) (hw : Words ws) : ∃ c, (joinPath ws).getLast? = some c ∧ c ≠ '.' := by
  induction ws with
  | nil => exact absurd rfl hw.1
  | cons w ws ih =>
    cases ws with
    | nil =>
      obtain ⟨h1, h2⟩ := hw.2 w (by simp)
      refine ⟨w.getLast h1, List.getLast?_eq_some_getLast h1, ?_⟩
      intro h; exact h2 (h ▸ List.getLast_mem h1)
    | cons x xs =>
      obtain ⟨c, h1, h2⟩ := ih ⟨by simp, fun y hy => hw.2 y (List.mem_cons_of_mem _ hy)⟩
      refine ⟨c, ?_, h2⟩
      show (w ++ '.' :: joinPath (x :: xs)).getLast? = some c
      rw [List.getLast?_append, List.getLast?_cons, h1]
      rfl

theorem setAddress_join (ws : List (List Char)) (hw : Words ws) (hlen : (joinPath ws).length < 2 ^ 32) :
    setAddress (joinPath ws) = ws := by
  obtain ⟨c, r, h1, h2⟩ := join_head ws hw
  obtain ⟨d, h3, h4⟩ := join_last ws hw
  have hpos : (joinPath ws).length > 0 := by rw [h1]; simp
  have h5 : (joinPath ws)[0]? ≠ some '.' := by rw [h1]; simpa using h2
  have h6 : (joinPath ws)[(joinPath ws).length - 1]? ≠ some '.' := by
    rw [← List.getLast?_eq_getElem?, h3]; simpa using h4
  unfold setAddress
  rw [if_pos hpos]
  simp only [h5, h6, if_false, List.drop_zero]
  rw [count_join ws hw 0 _ 1 (by rfl) (by omega)]
  have : 1 + ws.length - 1 = ws.length := by omega
  rw [this]
  exact tokens_join ws (fun w h => (hw.2 w h).2)

theorem find_eq_loop (m : Nat) (f : Filter) (kids : List Obj) (hr : f.reverse = false) :
    find (m + 1) f [] kids = findLoop (m + 1) 0 f [] kids := by
  unfold find startIndex
  by_cases h : kids.length > 0
  · rw [if_pos h]; simp [hr]
  · rw [if_neg h]
    have : kids = [] := List.eq_nil_of_length_eq_zero (by omega)
    subst this
    exact (loop_end (pre := []) hr).symm

theorem findPath_eq (fuel : Nat) (ws : List (List Char)) (hw : Words ws) (h2 : 1 < ws.length)
    (hlen : (joinPath ws).length < 2 ^ 32) (rec : Bool) (kids : List Obj) (hf : 1 ≤ fuel) :
    findPath fuel (joinPath ws) rec kids = (findLoop fuel 0 (pf ws 1 true) [] kids).map fun r => r.2.1.getLast? := by
  obtain ⟨m, rfl⟩ : ∃ m, fuel = m + 1 := ⟨fuel - 1, by omega⟩
  unfold findPath nameFilter
  rw [setAddress_join ws hw hlen]
  have : 1 < ws.length := h2
  simp only [gt_iff_lt, this, if_true]
  rw [← find_eq_loop (m := m) (f := pf ws 1 true) (kids := kids) rfl]
  rfl

/-- **C07, single name.**  `Find("w")` returns the first child named `w`; `Find("w", true)` the first descendant named
`w` in depth first order; or an invalid reference if there is none. -/
theorem c07_single_name (fuel : Nat) (w : List Char) (hw : Words [w]) (hlen : w.length < 2 ^ 32) (kids : List Obj)
    (hf : sizeObjs kids ≤ fuel) :
    findPath fuel w false kids = some (kids.find? (fun o => o.name == some w)) ∧
    findPath fuel w true kids = some ((preorders kids).find? (fun o => o.name == some w)) := by
  have h1 := sizeObjs_pos kids
  obtain ⟨m, rfl⟩ : ∃ m, fuel = m + 1 := ⟨fuel - 1, by omega⟩
  have key : ∀ rec, findPath (m + 1) w rec kids = some ((scope rec kids).find? (fun o => o.name == some w)) := by
    intro rec
    have ha : setAddress w = [w] := setAddress_join [w] hw hlen
    have hnf : nameFilter 1 rec false false false w = sf w 1 rec := by
      unfold nameFilter; rw [ha]; simp [Filter.setMode, sf]
    unfold findPath
    rw [hnf, find_eq_loop m _ _ rfl]
    have := single_loop w rec (m + 1) kids [] [] hf
    simp only [List.length_nil, List.nil_append, Int.natCast_zero] at this
    rw [this]
    cases (scope rec kids).find? (fun o => o.name == some w) <;> rfl
  exact ⟨key false, key true⟩

/-- **C07 (partial).**  On a tree of named objects, for a path of two or more components: the search is defined and
terminates; if taking the first child of each name leads to an object, that object is returned; whatever is returned
is at that path below *some* container of the tree.  Missing: that container may not be the one searched, and when
names repeat the existing object may be missed, see `c07_wrong_object` and `c07_missed_object`. -/
theorem c07_find_path_partial (fuel : Nat) (ws : List (List Char)) (hw : Words ws) (h2 : 1 < ws.length)
    (hlen : (joinPath ws).length < 2 ^ 32) (rec : Bool) (kids : List Obj) (hN : Named kids)
    (hf : sizeObjs kids ≤ fuel) :
    ∃ r, findPath fuel (joinPath ws) rec kids = some r ∧
      (∀ o, follow kids ws = some o → r = some o) ∧
      (∀ o, r = some o → ∃ k, Below kids k ∧ At k ws o) := by
  have hp := sizeObjs_pos kids
  rw [findPath_eq fuel ws hw h2 hlen rec kids (by omega)]
  have hs := sound_loop kids ws h2 fuel kids [] [] true (.base .self) hf hN
  simp only [List.length_nil, List.nil_append, Int.natCast_zero] at hs
  have hc : ∀ o, follow kids ws = some o → ∃ ext, findLoop fuel 0 (pf ws 1 true) [] kids =
      some (pf ws 0 true, [] ++ ext ++ [o], kids) := by
    intro o ho
    have := complete_loop ws h2 o fuel kids [] [] true rfl (by simp; omega) hf hN (by simpa using ho)
    simpa only [List.length_nil, List.nil_append, Int.natCast_zero] using this
  rcases hs with ⟨b', res', hr, e⟩ | ⟨init, o, e, hil, hat⟩
  · refine ⟨none, ?_, ?_, by simp⟩
    · rw [e]
      have : res' = [] := by rcases hr with h | h <;> exact h
      simp [this]
    · intro o ho
      obtain ⟨ext, e2⟩ := hc o ho
      rw [e2] at e
      have : pf ws 0 true = pf ws 1 b' := by simpa using congrArg (fun x => x.map (·.1)) e
      exact absurd (congrArg Filter.occurrence this) (by simp [pf])
  · refine ⟨some o, ?_, ?_, ?_⟩
    · rw [e]; simp
    · intro o' ho
      obtain ⟨ext, e2⟩ := hc o' ho
      rw [e2] at e
      have : [] ++ ext ++ [o'] = init ++ [o] := by simpa using congrArg (fun x => x.map (fun y => y.2.1)) e
      have := congrArg List.getLast? this
      simpa using this.symm
    · rintro _ ⟨rfl⟩; exact hat

theorem at_follow {kids : List Obj} {ws : List (List Char)} {o : Obj}
    (hu : ∀ k, Below kids k → UniqueNames k) (h : At kids ws o) : follow kids ws = some o := by
  induction ws generalizing kids with
  | nil => exact h.elim
  | cons w ws ih =>
    by_cases hws : ws = []
    · subst hws
      obtain ⟨hm, hn⟩ := h
      have hs : (kids.find? (fun x => x.name == some w)).isSome := by
        rw [List.find?_isSome]; exact ⟨o, hm, by simp [hn]⟩
      obtain ⟨y, hy⟩ := Option.isSome_iff_exists.mp hs
      have hyn : y.name = some w := by simpa using List.find?_some (p := fun x : Obj => x.name == some w) hy
      have := hu kids .self y (List.mem_of_find?_eq_some hy) o hm (by rw [hyn, hn])
      simp [follow, hy, this]
    · rw [At_cons hws] at h
      obtain ⟨c, hm, ck, hn, hk, hat⟩ := h
      rw [follow_cons hws]
      have hs : (kids.find? (fun x => x.name == some w && x.kids?.isSome)).isSome := by
        rw [List.find?_isSome]; exact ⟨c, hm, by simp [hn, hk]⟩
      obtain ⟨y, hy⟩ := Option.isSome_iff_exists.mp hs
      have hyp := List.find?_some (p := fun x : Obj => x.name == some w && x.kids?.isSome) hy
      simp only [Bool.and_eq_true, beq_iff_eq] at hyp
      have := hu kids .self y (List.mem_of_find?_eq_some hy) c hm (by rw [hyp.1, hn])
      subst this
      rw [hy, Option.bind_some, hk, Option.bind_some]
      apply ih _ hat
      intro k hkb
      apply hu
      clear hat ih
      induction hkb with
      | self => exact .child .self hm hk
      | child _ h1 h2 ih => exact .child ih h1 h2

/-- **C07, exact case.**  If the objects are named, the children of each container have different names and the first
name of the path is only used for children of the searched container, then the result is exactly the object at the
path, or an invalid reference when there is none. -/
theorem c07_find_path_exact (fuel : Nat) (ws : List (List Char)) (hw : Words ws) (h2 : 1 < ws.length)
    (hlen : (joinPath ws).length < 2 ^ 32) (rec : Bool) (kids : List Obj) (hN : Named kids)
    (hf : sizeObjs kids ≤ fuel) (hu : ∀ k, Below kids k → UniqueNames k)
    (hfirst : ∀ k, Below kids k → ∀ c ∈ k, c.name = ws.head? → k = kids) (o : Obj) :
    findPath fuel (joinPath ws) rec kids = some (some o) ↔ At kids ws o := by
  obtain ⟨r, e, h3, h4⟩ := c07_find_path_partial fuel ws hw h2 hlen rec kids hN hf
  rw [e]
  constructor
  · intro h
    obtain ⟨k, hk, hat⟩ := h4 o (by simpa using h)
    have : k = kids := by
      cases ws with
      | nil => exact hat.elim
      | cons w ws =>
        have hne : ws ≠ [] := by rintro rfl; simp at h2
        rw [At_cons hne] at hat
        obtain ⟨c, hm, ck, hn, -⟩ := hat
        exact hfirst k hk c hm hn
    exact this ▸ hat
  · intro h
    rw [h3 o (at_follow hu h)]

private def L (i : Nat) (s : String) : Obj := .leaf i (some s.toList)
private def N (i : Nat) (s : String) (k : List Obj) : Obj := .cont i (some s.toList) k

/-- The hypotheses of the theorems above are met and the answer is the expected one. -/
example : (findPath 30 "A.B.C".toList false [L 1 "X", N 2 "A" [L 3 "Y", N 4 "B" [L 5 "Z", L 6 "C"]]]).map
    (·.map Obj.id) = some (some 6) := by decide
example : setAddress "A.B.C".toList = ["A".toList, "B".toList, "C".toList] := by decide
example : (findPath 30 "C".toList true [L 1 "X", N 2 "A" [L 3 "Y", N 4 "B" [L 5 "Z", L 6 "C"]]]).map
    (·.map Obj.id) = some (some 6) := by decide

/-- **C07 refuted: a wrong object is returned.**  There is no object at `A.B.C` (the names in every container are
different), the search returns the one at `A.A.B.C`. -/
theorem c07_wrong_object :
    ∃ kids : List Obj, (∀ o, ¬ At kids ["A".toList, "B".toList, "C".toList] o) ∧
      (findPath 40 "A.B.C".toList false kids).map (·.map Obj.id) = some (some 6) := by
  refine ⟨[N 1 "A" [N 2 "B" [L 3 "X"], N 4 "A" [N 5 "B" [L 6 "C"]]]], ?_, by decide⟩
  intro o h
  simp only [At] at h
  obtain ⟨c, hc, ck, -, hk, d, hd, dk, hdn, hdk, hx, hxn⟩ := h
  simp only [List.mem_singleton] at hc; subst hc
  simp only [N, Obj.kids?, Option.some.injEq] at hk; subst hk
  simp only [List.mem_cons, List.not_mem_nil, or_false] at hd
  rcases hd with rfl | rfl
  · simp only [Obj.kids?, Option.some.injEq] at hdk; subst hdk
    simp only [List.mem_singleton] at hx; subst hx
    revert hxn; decide
  · revert hdn; decide

/-- **C07 refuted: an object is missed.**  With two containers named `B`, the object at `A.B.C` is in the second. -/
theorem c07_missed_object :
    ∃ (kids : List Obj) (o : Obj), At kids ["A".toList, "B".toList, "C".toList] o ∧
      (findPath 40 "A.B.C".toList false kids).map (·.map Obj.id) = some none := by
  refine ⟨[N 1 "A" [N 2 "B" [L 3 "X"], N 4 "B" [L 5 "C"]]], L 5 "C", ?_, by decide⟩
  simp only [At]
  exact ⟨_, List.mem_singleton.mpr rfl, _, rfl, rfl, N 4 "B" [L 5 "C"], by simp, _, rfl, rfl, by simp, rfl⟩

/-- A search for all the occurrences that removes them uses a freed node (`ReferenceContainer.cpp:277,300`). -/
theorem c07_remove_all_use_after_free :
    find 40 ⟨.byRef (some 1), -1, -1, false, false, false, true⟩ [] [L 1 "A"] = none := by decide

end Verif.RefC
