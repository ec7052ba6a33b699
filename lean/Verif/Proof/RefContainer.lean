import Verif.Spec.RefContainer
namespace Verif.RefC
open Verif.Spec.RefC

/-! ## Delete -/

/-- The filter of `Delete(ref)`. -/
def delFilter (id : Option Nat) : Filter := ⟨.byRef id, 1, 1, false, false, false, true⟩

theorem delLoop (i : Nat) (rest : List Obj) (fuel : Nat) (pre : List Obj) (hf : rest.length < fuel) :
    ∃ f', findLoop fuel (pre.length : Int) (delFilter (some i)) [] (pre ++ rest) =
      some (f', (rest.find? (fun o => o.id == i)).toList, pre ++ rest.eraseP (fun o => o.id == i)) := by
  induction rest generalizing fuel pre with
  | nil =>
    obtain ⟨n, rfl⟩ : ∃ n, fuel = n + 1 := ⟨fuel - 1, by simp at hf; omega⟩
    refine ⟨delFilter (some i), ?_⟩
    simp [findLoop, delFilter, Filter.finished]
  | cons o os ih =>
    obtain ⟨n, rfl⟩ : ∃ n, fuel = n + 1 := ⟨fuel - 1, by simp at hf; omega⟩
    unfold findLoop
    rw [if_pos (by simp [delFilter, Filter.finished]; omega)]
    have hget : (pre ++ o :: os)[(pre.length : Int).toNat]? = some o := by simp
    rw [hget]
    simp only [Option.bind_some]
    by_cases h : o.id = i
    · have ht : (delFilter (some i)).test [] o = (true, { delFilter (some i) with occurrence := 0 }) := by
        simp [Filter.test, delFilter, testRef, h, Filter.incrementFound]
      rw [ht]
      refine ⟨{ delFilter (some i) with occurrence := 0 }, ?_⟩
      simp [Filter.finished, delFilter, h, List.eraseIdx_append_of_length_le]
    · have ht : (delFilter (some i)).test [] o = (false, delFilter (some i)) := by
        simp [Filter.test, delFilter, testRef]; omega
      rw [ht]
      obtain ⟨f', e⟩ := ih n (pre ++ [o]) (by simp at hf; omega)
      refine ⟨f', ?_⟩
      simp only [List.append_assoc, List.singleton_append, List.length_append, List.length_singleton] at e
      simp [delFilter, Filter.finished, h] at e ⊢
      exact e

theorem delLoop_none (fuel : Nat) (pre rest : List Obj) (hf : rest.length < fuel) :
    ∃ f', findLoop fuel (pre.length : Int) (delFilter none) [] (pre ++ rest) = some (f', [], pre ++ rest) := by
  induction rest generalizing fuel pre with
  | nil =>
    obtain ⟨n, rfl⟩ : ∃ n, fuel = n + 1 := ⟨fuel - 1, by simp at hf; omega⟩
    refine ⟨delFilter none, ?_⟩
    simp [findLoop, delFilter, Filter.finished]
  | cons o os ih =>
    obtain ⟨n, rfl⟩ : ∃ n, fuel = n + 1 := ⟨fuel - 1, by simp at hf; omega⟩
    unfold findLoop
    rw [if_pos (by simp [delFilter, Filter.finished]; omega)]
    have hget : (pre ++ o :: os)[(pre.length : Int).toNat]? = some o := by simp
    rw [hget]
    simp only [Option.bind_some]
    have ht : (delFilter none).test [] o = (false, delFilter none) := by simp [Filter.test, delFilter, testRef]
    rw [ht]
    obtain ⟨f', e⟩ := ih n (pre ++ [o]) (by simp at hf; omega)
    refine ⟨f', ?_⟩
    simp only [List.append_assoc, List.singleton_append, List.length_append, List.length_singleton] at e
    simp [delFilter, Filter.finished] at e ⊢
    exact e

theorem delete_spec (fuel : Nat) (kids : List Obj) (id : Option Nat) (hf : kids.length < fuel) :
    delete fuel kids id = some (match id with
      | none => (false, kids)
      | some i => (kids.any (fun o => o.id == i), kids.eraseP (fun o => o.id == i))) := by
  unfold delete find
  by_cases h0 : kids.length > 0
  · simp only [startIndex, h0, if_true, Bool.false_eq_true, if_false]
    change Option.map _ (findLoop fuel 0 (delFilter id) [] kids) = _
    cases id with
    | none =>
      obtain ⟨f', e⟩ := delLoop_none fuel [] kids hf
      rw [show findLoop fuel 0 (delFilter none) [] kids = some (f', [], kids) by simpa using e]
      rfl
    | some i =>
      obtain ⟨f', e⟩ := delLoop i kids fuel [] hf
      have e' : findLoop fuel 0 (delFilter (some i)) [] kids =
        some (f', (kids.find? (fun o => o.id == i)).toList, kids.eraseP (fun o => o.id == i)) := by
        exact e
      rw [e']
      simp only [Option.map_some, Option.some.injEq, Prod.mk.injEq, and_true]
      cases hfi : kids.find? (fun o => o.id == i) with
      | none =>
        rw [List.find?_eq_none] at hfi
        simp only [Option.toList_none, List.length_nil, Nat.lt_irrefl, gt_iff_lt, decide_false]
        symm
        rw [List.any_eq_false]; exact hfi
      | some x =>
        simp only [Option.toList_some, List.length_singleton, gt_iff_lt, Nat.zero_lt_one, decide_true]
        symm
        rw [List.any_eq_true]
        exact ⟨x, List.mem_of_find?_eq_some hfi, List.find?_some (p := fun o : Obj => o.id == i) hfi⟩
  · have : kids = [] := List.eq_nil_of_length_eq_zero (by omega)
    subst this
    cases id <;> simp [startIndex]

/-! ## Find by path -/

/-- Filter of a path with at least two components: `b` is the common value of the two mode bits. -/
def pf (addr : List (List Char)) (occ : Int) (b : Bool) : Filter := ⟨.byName addr, occ, 1, b, false, b, false⟩

theorem sizeObjs_pos (l : List Obj) : 1 ≤ sizeObjs l := by
  cases l with
  | nil => simp [sizeObjs]
  | cons a l => cases a <;> simp [sizeObjs, sizeObj] <;> omega

theorem withKids_self {c : Obj} {ck : List Obj} (h : c.kids? = some ck) : c.withKids ck = c := by
  cases c with
  | leaf i n => simp [Obj.kids?] at h
  | cont i n k => simp [Obj.kids?] at h; subst h; rfl

theorem sizeObj_kids {c : Obj} {ck : List Obj} (h : c.kids? = some ck) : sizeObj c = 1 + sizeObjs ck := by
  cases c with
  | leaf i n => simp [Obj.kids?] at h
  | cont i n k => simp [Obj.kids?] at h; subst h; simp [sizeObj]

theorem sizeObj_pos (c : Obj) : 1 ≤ sizeObj c := by cases c <;> simp [sizeObj]

/-- Whether the names of the path so far and of the tested object agree with the address. -/
def agrees (addr : List (List Char)) (prev : List Obj) (n : List Char) : Bool :=
  prev.length < addr.length && addr[prev.length]? == some n && testPath addr prev 0

theorem test_pf_unnamed {addr b prev o} (hn : o.name = none) :
    (pf addr 1 b).test prev o = (false, pf addr 1 b) := by
  simp [Filter.test, pf, testName, hn]

theorem test_pf {addr b prev o n} (h2 : 1 < addr.length) (hn : o.name = some n) :
    (pf addr 1 b).test prev o =
      (agrees addr prev n && prev.length == addr.length - 1,
        pf addr (if agrees addr prev n && prev.length == addr.length - 1 then 0 else 1) (agrees addr prev n)) := by
  have h0 : 0 < addr.length := by omega
  simp only [Filter.test, pf, testName, hn, gt_iff_lt, h0, h2, if_true, decide_true, Bool.not_true, Bool.false_or]
  cases h : agrees addr prev n with
  | true =>
    unfold agrees at h
    rw [h]
    cases hl : (prev.length == addr.length - 1) <;> simp [Filter.setMode, Filter.incrementFound, Filter.searchAll]
  | false =>
    unfold agrees at h
    rw [h]
    simp [Filter.setMode]

/-- The result of the search is the chain of containers leading to `kids`, up to some container below `top`. -/
inductive Linked (top : List Obj) : List Obj → List Obj → Prop
  | base {kids} : Below top kids → Linked top [] kids
  | snoc {init kids' c kids} : Linked top init kids' → c ∈ kids' → c.kids? = some kids → Linked top (init ++ [c]) kids

theorem Linked.isBelow {top res kids} (h : Linked top res kids) : Below top kids := by
  induction h with
  | base h => exact h
  | snoc _ hc hk ih => exact .child ih hc hk

theorem testPath_append (addr : List (List Char)) (a b : List Obj) (i : Nat) :
    testPath addr (a ++ b) i = (testPath addr a i && testPath addr b (i + a.length)) := by
  induction a generalizing i with
  | nil => simp [testPath]
  | cons x a ih =>
    simp only [List.cons_append, testPath, ih, List.length_cons, Bool.and_assoc]
    rw [show i + 1 + a.length = i + (a.length + 1) by omega]

theorem At_cons {kids : List Obj} {w ws o} (h : ws ≠ []) :
    At kids (w :: ws) o ↔ ∃ c ∈ kids, ∃ ck, c.name = some w ∧ c.kids? = some ck ∧ At ck ws o := by
  cases ws with
  | nil => exact absurd rfl h
  | cons x xs => simp [At]

theorem at_ne_nil {kids : List Obj} {ws o} (h : At kids ws o) : ws ≠ [] := by
  rintro rfl; exact h

theorem linked_at {top res kids} (h : Linked top res kids) (addr : List (List Char)) (ht : testPath addr res 0 = true)
    (o : Obj) (ha : At kids (addr.drop res.length) o) : ∃ k, Below top k ∧ At k addr o := by
  induction h with
  | base h => exact ⟨_, h, by simpa using ha⟩
  | @snoc init kids' c kids _ hc hk ih =>
    rw [testPath_append, Bool.and_eq_true] at ht
    apply ih ht.1
    have hlt : init.length < addr.length := by
      have h1 := at_ne_nil ha
      have : (addr.drop (init ++ [c]).length).length ≠ 0 := fun h => h1 (List.eq_nil_of_length_eq_zero h)
      simp at this; omega
    rw [List.drop_eq_getElem_cons hlt]
    rw [List.length_append, List.length_singleton] at ha
    rw [At_cons (at_ne_nil ha)]
    refine ⟨c, hc, kids, ?_, hk, ha⟩
    have h2 := ht.2
    simp only [testPath, Bool.and_true, Nat.zero_add] at h2
    cases hn : c.name with
    | none => rw [hn] at h2; cases h2
    | some n =>
      rw [hn] at h2
      simp only [beq_iff_eq] at h2
      rw [List.getElem?_eq_getElem hlt] at h2
      simpa using h2.symm

/-- The iteration on the element at position `i`, the filter not being finished, nothing being removed. -/
theorem loop_pf {addr : List (List Char)} {fuel : Nat} {b : Bool} {res pre rest : List Obj} {c : Obj} :
    findLoop (fuel + 1) (pre.length : Int) (pf addr 1 b) res (pre ++ c :: rest) =
      (let t := (pf addr 1 b).test res c
      let f := t.2
      let store := t.1 && (f.searchAll || f.finished)
      let res := if store then res ++ [c] else res
      let removed := store && f.remove
      let kids := if removed then (pre ++ c :: rest).eraseIdx pre.length else pre ++ c :: rest
      if f.finished then some (f, res, kids)
      else if removed then none
      else
        match (if f.recursive then c.kids? else none) with
        | none => findLoop fuel (if f.reverse then (pre.length : Int) - 1 else (pre.length : Int) + 1) f res kids
        | some ck =>
          let res := if f.path then res ++ [c] else res
          let sizeBefore := res.length
          (match startIndex f ck with
            | none => some (f, res, ck)
            | some i => findLoop fuel i f res ck).bind fun r =>
          let f := r.1
          let res := if !f.recursive then []
            else if sizeBefore = r.2.1.length then (if f.path then r.2.1.dropLast else r.2.1) else r.2.1
          findLoop fuel (if f.reverse then (pre.length : Int) - 1 else (pre.length : Int) + 1) f res
            (kids.set pre.length (c.withKids r.2.2))) := by
  conv => lhs; unfold findLoop
  rw [if_pos (by simp [pf, Filter.finished]; omega)]
  have hget : (pre ++ c :: rest)[(pre.length : Int).toNat]? = some c := by simp
  rw [hget]
  rfl

theorem loop_end {fuel : Nat} {f : Filter} {res pre : List Obj} (hr : f.reverse = false) :
    findLoop (fuel + 1) (pre.length : Int) f res pre = some (f, res, pre) := by
  unfold findLoop
  rw [if_neg (by simp [hr])]

theorem loop_finished {fuel : Nat} {i : Int} {f : Filter} {res kids : List Obj} (hf : f.finished = true) :
    findLoop (fuel + 1) i f res kids = some (f, res, kids) := by
  unfold findLoop
  rw [if_neg (by simp [hf])]

theorem pf_found {addr fuel b res pre rest c} (ht : (pf addr 1 b).test res c = (true, pf addr 0 true)) :
    findLoop (fuel + 1) (pre.length : Int) (pf addr 1 b) res (pre ++ c :: rest) =
      some (pf addr 0 true, res ++ [c], pre ++ c :: rest) := by
  rw [loop_pf, ht]; simp [pf, Filter.finished]

theorem pf_skip {addr fuel b b' res pre rest c} (ht : (pf addr 1 b).test res c = (false, pf addr 1 b'))
    (hc : b' = false ∨ c.kids? = none) :
    findLoop (fuel + 1) (pre.length : Int) (pf addr 1 b) res (pre ++ c :: rest) =
      findLoop fuel ((pre ++ [c]).length : Int) (pf addr 1 b') res ((pre ++ [c]) ++ rest) := by
  rw [loop_pf, ht]
  rcases hc with rfl | h
  · simp [pf, Filter.finished]
  · cases b' <;> simp [pf, Filter.finished, h]

theorem pf_branch {addr fuel b res pre rest c ck} (ht : (pf addr 1 b).test res c = (false, pf addr 1 true))
    (hk : c.kids? = some ck) :
    findLoop (fuel + 1 + 1) (pre.length : Int) (pf addr 1 b) res (pre ++ c :: rest) =
      (findLoop (fuel + 1) 0 (pf addr 1 true) (res ++ [c]) ck).bind fun r =>
        findLoop (fuel + 1) (if r.1.reverse then (pre.length : Int) - 1 else (pre.length : Int) + 1) r.1
          (if !r.1.recursive then []
            else if (res ++ [c]).length = r.2.1.length then (if r.1.path then r.2.1.dropLast else r.2.1) else r.2.1)
          ((pre ++ c :: rest).set pre.length (c.withKids r.2.2)) := by
  rw [loop_pf, ht]
  have h1 : (match startIndex (pf addr 1 true) ck with
            | none => some (pf addr 1 true, res ++ [c], ck)
            | some i => findLoop (fuel + 1) i (pf addr 1 true) (res ++ [c]) ck) =
      findLoop (fuel + 1) 0 (pf addr 1 true) (res ++ [c]) ck := by
    unfold startIndex
    by_cases h : ck.length > 0
    · rw [if_pos h]; rfl
    · rw [if_neg h]
      have : ck = [] := List.eq_nil_of_length_eq_zero (by omega)
      subst this
      exact (loop_end (pre := []) rfl).symm
  rw [← h1]
  simp [pf, Filter.finished, hk]

theorem set_self {pre rest : List Obj} {c : Obj} {ck : List Obj} (hk : c.kids? = some ck) :
    (pre ++ c :: rest).set pre.length (c.withKids ck) = (pre ++ [c]) ++ rest := by
  rw [withKids_self hk]; simp

theorem pf_branch_lost {addr fuel b res pre rest c ck res'} (ht : (pf addr 1 b).test res c = (false, pf addr 1 true))
    (hk : c.kids? = some ck)
    (hn : findLoop (fuel + 1) 0 (pf addr 1 true) (res ++ [c]) ck = some (pf addr 1 false, res', ck)) :
    findLoop (fuel + 1 + 1) (pre.length : Int) (pf addr 1 b) res (pre ++ c :: rest) =
      findLoop (fuel + 1) ((pre ++ [c]).length : Int) (pf addr 1 false) [] ((pre ++ [c]) ++ rest) := by
  rw [pf_branch ht hk, hn]
  simp only [Option.bind_some, set_self hk]
  simp [pf]

theorem pf_branch_none {addr fuel b res pre rest c ck} (ht : (pf addr 1 b).test res c = (false, pf addr 1 true))
    (hk : c.kids? = some ck)
    (hn : findLoop (fuel + 1) 0 (pf addr 1 true) (res ++ [c]) ck = some (pf addr 1 true, res ++ [c], ck)) :
    findLoop (fuel + 1 + 1) (pre.length : Int) (pf addr 1 b) res (pre ++ c :: rest) =
      findLoop (fuel + 1) ((pre ++ [c]).length : Int) (pf addr 1 true) res ((pre ++ [c]) ++ rest) := by
  rw [pf_branch ht hk, hn]
  simp only [Option.bind_some, set_self hk]
  simp [pf]

theorem pf_branch_nil {addr fuel b res pre rest c ck} (ht : (pf addr 1 b).test res c = (false, pf addr 1 true))
    (hk : c.kids? = some ck)
    (hn : findLoop (fuel + 1) 0 (pf addr 1 true) (res ++ [c]) ck = some (pf addr 1 true, [], ck)) :
    findLoop (fuel + 1 + 1) (pre.length : Int) (pf addr 1 b) res (pre ++ c :: rest) =
      findLoop (fuel + 1) ((pre ++ [c]).length : Int) (pf addr 1 true) [] ((pre ++ [c]) ++ rest) := by
  rw [pf_branch ht hk, hn]
  simp only [Option.bind_some, set_self hk]
  simp [pf]

theorem pf_branch_found {addr fuel b res pre rest c ck res'} (ht : (pf addr 1 b).test res c = (false, pf addr 1 true))
    (hk : c.kids? = some ck)
    (hn : findLoop (fuel + 1) 0 (pf addr 1 true) (res ++ [c]) ck = some (pf addr 0 true, res', ck))
    (hl : (res ++ [c]).length ≠ res'.length) :
    findLoop (fuel + 1 + 1) (pre.length : Int) (pf addr 1 b) res (pre ++ c :: rest) =
      some (pf addr 0 true, res', pre ++ c :: rest) := by
  rw [pf_branch ht hk, hn]
  simp only [Option.bind_some, set_self hk]
  rw [loop_finished rfl, if_neg hl]
  simp [pf]

/-- Every object of the tree has a name. -/
def Named (kids : List Obj) : Prop := ∀ o ∈ preorders kids, o.name.isSome

theorem Named.cons {c : Obj} {rest : List Obj} (h : Named (c :: rest)) :
    (∃ n, c.name = some n) ∧ Named rest ∧ ∀ ck, c.kids? = some ck → Named ck := by
  unfold Named at *
  simp only [preorders, List.mem_append] at h
  refine ⟨Option.isSome_iff_exists.mp (h c (.inl ?_)), fun o ho => h o (.inr ho), ?_⟩
  · cases c <;> simp [preorder]
  · intro ck hk o ho
    apply h o (.inl ?_)
    cases c with
    | leaf i n => simp [Obj.kids?] at hk
    | cont i n k =>
      simp [Obj.kids?] at hk; subst hk
      simp [preorder, ho]

/-- Whatever is found is reached by the address from some container. -/
theorem sound_loop (top : List Obj) (addr : List (List Char)) (h2 : 1 < addr.length) (fuel : Nat) :
    ∀ (rest pre res : List Obj) (b : Bool), Linked top res (pre ++ rest) → sizeObjs rest ≤ fuel → Named rest →
    (∃ b' res', (res' = res ∨ res' = []) ∧
        findLoop fuel pre.length (pf addr 1 b) res (pre ++ rest) = some (pf addr 1 b', res', pre ++ rest)) ∨
      (∃ init o, findLoop fuel pre.length (pf addr 1 b) res (pre ++ rest) =
          some (pf addr 0 true, init ++ [o], pre ++ rest) ∧ init.length = addr.length - 1 ∧
        ∃ k, Below top k ∧ At k addr o) := by
  induction fuel with
  | zero => intro rest pre res b _ hf _; have := sizeObjs_pos rest; omega
  | succ fuel ih =>
    intro rest pre res b hL hf hN
    cases rest with
    | nil =>
      rw [List.append_nil] at hL ⊢
      exact .inl ⟨b, res, .inl rfl, loop_end rfl⟩
    | cons c rest =>
      have hsz : sizeObj c + sizeObjs rest ≤ fuel + 1 := hf
      have hpos := sizeObj_pos c
      have hrp := sizeObjs_pos rest
      obtain ⟨⟨n, hn⟩, hNr, hNk⟩ := hN.cons
      have happ : pre ++ c :: rest = (pre ++ [c]) ++ rest := by simp
      -- continuation after this element
      have cont : ∀ (b : Bool) (res' : List Obj), (res' = res ∨ res' = []) →
          (∃ b' res'', (res'' = res ∨ res'' = []) ∧
            findLoop fuel ((pre ++ [c]).length : Int) (pf addr 1 b) res' ((pre ++ [c]) ++ rest) =
              some (pf addr 1 b', res'', pre ++ c :: rest)) ∨
          (∃ init o, findLoop fuel ((pre ++ [c]).length : Int) (pf addr 1 b) res' ((pre ++ [c]) ++ rest) =
              some (pf addr 0 true, init ++ [o], pre ++ c :: rest) ∧ init.length = addr.length - 1 ∧
              ∃ k, Below top k ∧ At k addr o) := by
        intro b res' hr
        have hL' : Linked top res' ((pre ++ [c]) ++ rest) := by
          rcases hr with rfl | rfl
          · simpa using hL
          · exact .base (by simpa using hL.isBelow)
        rw [happ]
        rcases ih rest (pre ++ [c]) res' b hL' (by omega) hNr with ⟨b', res'', hr'', h⟩ | h
        · refine .inl ⟨b', res'', ?_, h⟩
          rcases hr'' with rfl | rfl
          · exact hr
          · exact .inr rfl
        · exact .inr h
      have ht := test_pf (b := b) (prev := res) h2 hn
      cases hag : agrees addr res n with
      | false =>
        rw [hag] at ht
        simp only [Bool.false_and, Bool.false_eq_true, if_false] at ht
        rw [pf_skip ht (.inl rfl)]
        exact cont false res (.inl rfl)
      | true =>
        have hag' := hag
        unfold agrees at hag'
        simp only [Bool.and_eq_true, decide_eq_true_eq, beq_iff_eq] at hag'
        rw [hag] at ht
        by_cases hlen : res.length = addr.length - 1
        · simp only [Bool.true_and, hlen, beq_self_eq_true, if_true] at ht
          rw [pf_found ht]
          refine .inr ⟨res, c, rfl, hlen, linked_at hL addr hag'.2 c ?_⟩
          rw [List.drop_eq_getElem_cons hag'.1.1]
          have : addr.drop (res.length + 1) = [] := by rw [List.drop_eq_nil_iff]; omega
          rw [this]
          refine ⟨by simp, ?_⟩
          have h5 := hag'.1.2
          rw [List.getElem?_eq_getElem hag'.1.1] at h5
          rw [hn]; exact h5.symm
        · have hl' : (res.length == addr.length - 1) = false := by simpa using hlen
          simp only [Bool.true_and, hl', Bool.false_eq_true, if_false] at ht
          cases hk : c.kids? with
          | none =>
            rw [pf_skip ht (.inr hk)]
            exact cont true res (.inl rfl)
          | some ck =>
            have hcs := sizeObj_kids hk
            have hckp := sizeObjs_pos ck
            obtain ⟨m, rfl⟩ : ∃ m, fuel = m + 1 := ⟨fuel - 1, by omega⟩
            have hckL : Linked top (res ++ [c]) ([] ++ ck) := .snoc hL (by simp) hk
            rcases ih ck [] (res ++ [c]) true hckL (by omega) (hNk ck hk) with ⟨b', res', hr, e⟩ | ⟨init, o, e, hil, hat⟩
            · replace e : findLoop (m + 1) 0 (pf addr 1 true) (res ++ [c]) ck = some (pf addr 1 b', res', ck) := e
              cases b' with
              | false => rw [pf_branch_lost ht hk e]; exact cont false [] (.inr rfl)
              | true =>
                rcases hr with rfl | rfl
                · rw [pf_branch_none ht hk e]; exact cont true res (.inl rfl)
                · rw [pf_branch_nil ht hk e]; exact cont true [] (.inr rfl)
            · replace e : findLoop (m + 1) 0 (pf addr 1 true) (res ++ [c]) ck = some (pf addr 0 true, init ++ [o], ck) := e
              rw [pf_branch_found ht hk e (by simp; omega)]
              exact .inr ⟨init, o, rfl, hil, hat⟩

theorem follow_cons {kids : List Obj} {w ws} (h : ws ≠ []) :
    follow kids (w :: ws) = (kids.find? (fun o => o.name == some w && o.kids?.isSome)).bind
      fun c => c.kids?.bind fun ck => follow ck ws := by
  cases ws with
  | nil => exact absurd rfl h
  | cons x xs => rfl

/-- The first match in order is found. -/
theorem complete_loop (addr : List (List Char)) (h2 : 1 < addr.length) (o : Obj) (fuel : Nat) :
    ∀ (rest pre res : List Obj) (b : Bool), testPath addr res 0 = true → res.length < addr.length →
    sizeObjs rest ≤ fuel → Named rest → follow rest (addr.drop res.length) = some o →
    ∃ ext, findLoop fuel pre.length (pf addr 1 b) res (pre ++ rest) =
      some (pf addr 0 true, res ++ ext ++ [o], pre ++ rest) := by
  induction fuel with
  | zero => intro rest pre res b _ _ hf _; have := sizeObjs_pos rest; omega
  | succ fuel ih =>
    intro rest pre res b htp hlt hf hN hfo
    have hdrop := List.drop_eq_getElem_cons hlt
    cases rest with
    | nil =>
      rw [hdrop] at hfo
      exfalso
      cases hd : addr.drop (res.length + 1) with
      | nil => rw [hd] at hfo; simp [follow] at hfo
      | cons x xs => rw [hd] at hfo; simp [follow] at hfo
    | cons c rest =>
      have hsz : sizeObj c + sizeObjs rest ≤ fuel + 1 := hf
      have hpos := sizeObj_pos c
      have hrp := sizeObjs_pos rest
      obtain ⟨⟨n, hn⟩, hNr, hNk⟩ := hN.cons
      have happ : pre ++ c :: rest = (pre ++ [c]) ++ rest := by simp
      have ht := test_pf (b := b) (prev := res) h2 hn
      have hagr : agrees addr res n = decide (addr[res.length] = n) := by
        unfold agrees
        rw [htp, List.getElem?_eq_getElem hlt]
        rw [Bool.eq_iff_iff]
        simp [hlt]
      rw [hagr] at ht
      by_cases hnm : addr[res.length] = n
      · simp only [hnm, decide_true, Bool.true_and] at ht
        by_cases hlen : res.length = addr.length - 1
        · simp only [hlen, beq_self_eq_true, if_true] at ht
          rw [pf_found ht]
          have hd : addr.drop (res.length + 1) = [] := by rw [List.drop_eq_nil_iff]; omega
          rw [hdrop, hd, hnm] at hfo
          simp only [follow, List.find?_cons, hn, beq_self_eq_true, Option.some.injEq] at hfo
          exact ⟨[], by simp [hfo]⟩
        · have hl' : (res.length == addr.length - 1) = false := by simpa using hlen
          simp only [hl', Bool.false_eq_true, if_false] at ht
          have hdne : addr.drop (res.length + 1) ≠ [] := by
            intro h; rw [List.drop_eq_nil_iff] at h; omega
          rw [hdrop, follow_cons hdne] at hfo
          cases hk : c.kids? with
          | none =>
            rw [pf_skip ht (.inr hk), happ]
            apply ih rest (pre ++ [c]) res true htp hlt (by omega) hNr
            rw [hdrop, follow_cons hdne]
            simpa [List.find?_cons, hk] using hfo
          | some ck =>
            have hcs := sizeObj_kids hk
            have hckp := sizeObjs_pos ck
            obtain ⟨m, rfl⟩ : ∃ m, fuel = m + 1 := ⟨fuel - 1, by omega⟩
            simp only [List.find?_cons, hn, hnm, beq_self_eq_true, hk, Option.isSome_some, Bool.and_self,
              Option.bind_some] at hfo
            obtain ⟨ext, e⟩ := ih ck [] (res ++ [c]) true (by
                rw [testPath_append, htp]
                simp [testPath, hn, List.getElem?_eq_getElem hlt, hnm]) (by simp; omega) (by omega) (hNk ck hk) (by
                simpa using hfo)
            replace e : findLoop (m + 1) 0 (pf addr 1 true) (res ++ [c]) ck =
              some (pf addr 0 true, (res ++ [c]) ++ ext ++ [o], ck) := e
            rw [pf_branch_found ht hk e (by simp)]
            exact ⟨c :: ext, by simp⟩
      · simp only [hnm, decide_false, Bool.false_and, Bool.false_eq_true, if_false] at ht
        rw [pf_skip ht (.inl rfl), happ]
        apply ih rest (pre ++ [c]) res false htp hlt (by omega) hNr
        rw [hdrop] at hfo ⊢
        have hne : (c.name == some addr[res.length]) = false := by
          rw [hn]; simpa using fun h => hnm h.symm
        by_cases hdn : addr.drop (res.length + 1) = []
        · rw [hdn] at hfo ⊢
          simpa [follow, List.find?_cons, hne] using hfo
        · rw [follow_cons hdn] at hfo ⊢
          simpa [List.find?_cons, hne] using hfo

/-! ## Find by a single name -/

def sf (w : List Char) (occ : Int) (rec : Bool) : Filter := ⟨.byName [w], occ, 1, rec, false, false, false⟩

theorem test_sf {w rec prev o} :
    (sf w 1 rec).test prev o = if o.name = some w then (true, sf w 0 rec) else (false, sf w 1 rec) := by
  cases hn : o.name with
  | none => simp [Filter.test, sf, testName, hn]
  | some n =>
    by_cases h : n = w
    · subst h; simp [Filter.test, sf, testName, hn, Filter.incrementFound]
    · have : ¬ w = n := fun h' => h h'.symm
      simp [Filter.test, sf, testName, hn, h, this]

/-- The objects searched: the children, or all the descendants in depth first order. -/
def scope (rec : Bool) (kids : List Obj) : List Obj := if rec then preorders kids else kids

theorem single_loop (w : List Char) (rec : Bool) (fuel : Nat) :
    ∀ (rest pre res : List Obj), sizeObjs rest ≤ fuel →
    findLoop fuel pre.length (sf w 1 rec) res (pre ++ rest) =
      match (scope rec rest).find? (fun o => o.name == some w) with
      | some o => some (sf w 0 rec, res ++ [o], pre ++ rest)
      | none => some (sf w 1 rec, res, pre ++ rest) := by
  induction fuel with
  | zero => intro rest pre res hf; have := sizeObjs_pos rest; omega
  | succ fuel ih =>
    intro rest pre res hf
    cases rest with
    | nil =>
      have : scope rec [] = [] := by cases rec <;> simp [scope, preorders]
      rw [this, List.append_nil]
      exact loop_end rfl
    | cons c rest =>
      have hsz : sizeObj c + sizeObjs rest ≤ fuel + 1 := hf
      have hpos := sizeObj_pos c
      have hrp := sizeObjs_pos rest
      have happ : pre ++ c :: rest = (pre ++ [c]) ++ rest := by simp
      have hcont := ih rest (pre ++ [c]) res (by omega)
      rw [← happ] at hcont
      simp only [List.length_append, List.length_singleton, Int.natCast_add, Int.natCast_one] at hcont
      unfold findLoop
      rw [if_pos (by simp [sf, Filter.finished]; omega)]
      have hget : (pre ++ c :: rest)[(pre.length : Int).toNat]? = some c := by simp
      rw [hget]
      simp only [Option.bind_some, test_sf]
      by_cases hn : c.name = some w
      · have hsc : (scope rec (c :: rest)).find? (fun o => o.name == some w) = some c := by
          cases rec with
          | false => simp [scope, hn]
          | true => cases c <;> simp_all [scope, preorders, preorder, Obj.name]
        rw [if_pos hn, hsc]
        simp [sf, Filter.finished]
      · rw [if_neg hn]
        have hnb : (c.name == some w) = false := by simpa using hn
        cases rec with
        | false =>
          have hsc : (scope false (c :: rest)).find? (fun o => o.name == some w) =
              (scope false rest).find? (fun o => o.name == some w) := by
            simp [scope, hnb]
          rw [hsc, ← hcont]
          simp [sf, Filter.finished]
        | true =>
          cases c with
          | leaf i n =>
            have hsc : (scope true (.leaf i n :: rest)).find? (fun o => o.name == some w) =
                (scope true rest).find? (fun o => o.name == some w) := by
              simp only [scope, if_true, preorders, preorder, List.singleton_append, List.find?_cons, hnb]
            rw [hsc, ← hcont]
            simp [sf, Filter.finished, Obj.kids?]
          | cont i n ck =>
            have hcs : sizeObj (.cont i n ck) = 1 + sizeObjs ck := rfl
            have hckp := sizeObjs_pos ck
            have hsc : (scope true (.cont i n ck :: rest)).find? (fun o => o.name == some w) =
                ((scope true ck).find? (fun o => o.name == some w)).or
                ((scope true rest).find? (fun o => o.name == some w)) := by
              simp only [scope, if_true, preorders, preorder, List.cons_append, List.find?_cons, hnb,
                List.find?_append]
            rw [hsc]
            obtain ⟨m, rfl⟩ : ∃ m, fuel = m + 1 := ⟨fuel - 1, by omega⟩
            have hin := ih ck [] res (by omega)
            simp only [List.length_nil, List.nil_append, Int.natCast_zero] at hin
            have hst : (match startIndex (sf w 1 true) ck with
                | none => some (sf w 1 true, res, ck)
                | some i => findLoop (m + 1) i (sf w 1 true) res ck) =
                findLoop (m + 1) 0 (sf w 1 true) res ck := by
              unfold startIndex
              by_cases h : ck.length > 0
              · rw [if_pos h]; rfl
              · rw [if_neg h]
                have : ck = [] := List.eq_nil_of_length_eq_zero (by omega)
                subst this
                exact (loop_end (pre := []) rfl).symm
            have hset : ∀ k, (Obj.cont i n ck).withKids k = .cont i n k := fun _ => rfl
            have step : ∀ (x : Option (Filter × List Obj × List Obj)), x = findLoop (m + 1) 0 (sf w 1 true) res ck →
                (x.bind fun r =>
                findLoop (m + 1) (if r.1.reverse = true then (pre.length : Int) - 1 else (pre.length : Int) + 1) r.1
                  (if (!r.1.recursive) = true then [] else
                    if res.length = r.2.1.length then (if r.1.path = true then r.2.1.dropLast else r.2.1) else r.2.1)
                  ((pre ++ .cont i n ck :: rest).set pre.length ((Obj.cont i n ck).withKids r.2.2))) =
                match (((scope true ck).find? (fun o => o.name == some w)).or
                  ((scope true rest).find? (fun o => o.name == some w))) with
                | some o => some (sf w 0 true, res ++ [o], pre ++ .cont i n ck :: rest)
                | none => some (sf w 1 true, res, pre ++ .cont i n ck :: rest) := by
              intro x hx
              rw [hx, hin]
              cases hfk : (scope true ck).find? (fun o => o.name == some w) with
              | some o =>
                simp only [Option.bind_some, Option.some_or, hset]
                rw [loop_finished rfl]
                simp [sf]
              | none =>
                simp only [Option.bind_some, Option.none_or, hset]
                rw [← hcont]
                simp [sf]
            rw [← hst] at step
            exact step _ rfl

end Verif.RefC
