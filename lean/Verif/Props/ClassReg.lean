import Verif.Proof.ClassReg
set_option linter.unusedSimpArgs false
/-!
# C83: the database of classes

Property: every class that is registered gets an identifier of its own, with which `Peek` gives it back; a class is found by its name as soon as it is registered,
by the program or by the library that the name asks for, and from then on the same name gives the same class with the same identifier, whatever is registered
or looked for later; a search that fails changes nothing but the classes of the library that it opened.

It holds as long as there are not more than 2^14 classes.
-/
namespace Verif.Props.ClassReg
open Verif.ClassReg Verif.Spec.ClassReg

/-- **C83**: the identifiers are the positions: for every history, `Peek` of an identifier gives the class that has it. -/
theorem c83_identifiers_partial (env : Env) (ops : List Op) (hl : size (run env ops empty) ≤ 2 ^ 14) :
    (∀ k, k < size (run env ops empty) → ∃ i, peek k (run env ops empty) = some i ∧ i.uid = k) ∧
    (∀ k, size (run env ops empty) ≤ k → peek k (run env ops empty) = none) := by
  have h := ((run_spec env ops empty next_empty).2.2 (by simpa [size] using hl)).1 (by simp [empty])
  refine ⟨fun k hk => ?_, fun k hk => List.getElem?_eq_none hk⟩
  exact ⟨(run env ops empty).items[k], List.getElem?_eq_getElem hk, h k _ (List.getElem?_eq_getElem hk)⟩

/-- **C83**: a class that is registered gets the next identifier, and the others keep theirs. -/
theorem c83_add_partial (env : Env) (ops : List Op) (c : Class) (hl : size (run env ops empty) < 2 ^ 14) :
    size (add c (run env ops empty)) = size (run env ops empty) + 1 ∧
    peek (size (run env ops empty)) (add c (run env ops empty)) = some ⟨c, size (run env ops empty), none⟩ ∧
    ∀ k, k < size (run env ops empty) → peek k (add c (run env ops empty)) = peek k (run env ops empty) := by
  unfold size peek at *
  rw [add_items c _ (run_spec env ops empty next_empty).1 (by simpa using hl)]
  refine ⟨by simp, by simp, fun k hk => List.getElem?_append_left hk⟩

/-- **C83**: a class that is registered is found by its name, with or without the name of a library; nothing changes. -/
theorem c83_registered (env : Env) (s : St) (name lib cls : Text) (i : Item) (hn : Names name lib cls) (hi : FirstNamed cls s.items i) :
    find env name s = (some i, s) := by
  unfold find
  rw [(parts hn).1, search_first.1 hi]

/-- **C83**: the first of the type is found by the name of its type. -/
theorem c83_type (s : St) (t : Text) :
    (findTypeId t s.items = none ↔ ∀ i, i ∈ s.items → i.cls.typeId ≠ t) ∧
    ∀ i, findTypeId t s.items = some i ↔ ∃ n : Nat, s.items[n]? = some i ∧ i.cls.typeId = t ∧ ∀ (m : Nat) j, m < n → s.items[m]? = some j → j.cls.typeId ≠ t := by
  rw [findTypeId_eq]
  refine ⟨by simp [List.find?_eq_none], fun i => ?_⟩
  rw [List.find?_eq_some_iff_getElem]
  constructor
  · rintro ⟨h1, n, hn, h2, h3⟩
    refine ⟨n, by rw [List.getElem?_eq_getElem hn, h2], by simpa using h1, fun m j hm hj => ?_⟩
    have := h3 m hm
    rw [List.getElem?_eq_getElem (by omega)] at hj
    cases hj
    simpa using this
  · rintro ⟨n, h1, h2, h3⟩
    obtain ⟨hn, h1⟩ := List.getElem?_eq_some_iff.1 h1
    exact ⟨by simpa using h2, n, hn, h1, fun m hm => by simpa using h3 m _ hm (List.getElem?_eq_getElem (by omega))⟩

/-- **C83**: what is found once is found for ever: after any history, the same name gives the same item. -/
theorem c83_stable_partial (env : Env) (before after : List Op) (name : Text) (i : Item)
    (hf : (find env name (run env before empty)).1 = some i)
    (hl : size (run env (before ++ .find name :: after) empty) ≤ 2 ^ 14) :
    find env name (run env (before ++ .find name :: after) empty) = (some i, run env (before ++ .find name :: after) empty) := by
  have hb := (run_spec env before empty next_empty).1
  have hs : search (classPart name) (step env (run env before empty) (.find name)).items = some i := by
    show search (classPart name) (find env name (run env before empty)).2.items = some i
    revert hf
    unfold find
    cases h1 : search (classPart name) (run env before empty).items with
    | some j => intro e; cases e; exact h1
    | none =>
      simp only
      cases h2 : openFirst env (libraryPart name) extensions (run env before empty) with
      | none => intro e; cases e
      | some r =>
        obtain ⟨file, s'⟩ := r
        simp only
        cases h5 : search (classPart name) s'.items with
        | none => intro e; cases e
        | some j => intro e; cases e; exact search_mark h5
  have e : run env (before ++ .find name :: after) empty = run env after (step env (run env before empty) (.find name)) := by
    rw [run_append]
    rfl
  rw [e] at hl ⊢
  have h := ((run_spec env after _ (step_spec env _ (.find name) hb).1).2.2 (by simpa [size] using hl)).2 _ _ hs
  unfold find
  rw [h]

/-- **C83**: a class that is not registered, of a library that is not open: all the classes of the library are registered, in their order, with the next
identifiers, and the class is found if it is one of them. -/
theorem c83_library_partial (env : Env) (ops : List Op) (name lib cls file : Text) (cs : List Class) (hn : Names name lib cls) (hlib : lib.length ≤ 128)
    (h0 : NoneNamed cls (run env ops empty).items) (hf : LibraryFile env lib file cs) (ho : file ∉ (run env ops empty).opened)
    (hl : size (run env ops empty) + cs.length ≤ 2 ^ 14) :
    (∀ k, k < size (run env ops empty) → peek k (find env name (run env ops empty)).2 = peek k (run env ops empty)) ∧
    (∀ k, (peek (size (run env ops empty) + k) (find env name (run env ops empty)).2).map (fun i => (i.cls, i.uid)) =
      (cs[k]?).map fun c => (c, size (run env ops empty) + k)) ∧
    (∀ (n : Nat) c, cs[n]? = some c → c.name = cls → (∀ (m : Nat) d, m < n → cs[m]? = some d → d.name ≠ cls) →
      (find env name (run env ops empty)).1 = some ⟨c, size (run env ops empty) + n, some file⟩) ∧
    ((∀ c, c ∈ cs → c.name ≠ cls) → (find env name (run env ops empty)).1 = none) := by
  have hnx := (run_spec env ops empty next_empty).1
  generalize run env ops empty = s at *
  obtain ⟨p1, p2⟩ := parts hn
  rw [List.take_of_length_le hlib] at p2
  have h1 := search_none.1 h0
  obtain ⟨s', hs', ho'⟩ := openFirst_some s hf
  obtain ⟨cs', hc, hn', hcase⟩ := openLibrary_spec hnx hs'
  rw [hf.1] at hc
  cases hc
  rcases hcase with ⟨h, _⟩ | ⟨_, _, h3, h4⟩
  · exact absurd h ho
  have h4 := h4 (by simpa [size] using hl)
  have hfind : find env name s = match search cls s'.items with
      | some i => (some { i with loader := some file }, { s' with items := mark cls file s'.items })
      | none => (none, s') := by
    unfold find
    rw [p1, h1, p2, ho']
    cases h9 : search cls s'.items <;> simp only [h9]
  have hsearch : search cls s'.items = search cls (newItems cs s.items.length) := by rw [h4, search_append_none _ h1]
  unfold size peek at *
  refine ⟨fun k hk => ?_, fun k => ?_, fun n c hc hcn hfirst => ?_, fun hno => ?_⟩
  · rw [hfind]
    have hmark : ∀ (l r : List Item) (k : Nat), search cls l = none → k < l.length → (mark cls file (l ++ r))[k]? = l[k]? := by
      intro l
      induction l with
      | nil => intro r k _ hk; simp at hk
      | cons x l ih =>
        intro r k hx hk
        unfold search at hx
        split at hx
        · cases hx
        · rename_i hne
          rw [List.cons_append, mark, if_neg hne]
          cases k with
          | zero => rfl
          | succ k => simpa using ih r k hx (by simpa using hk)
    cases h5 : search cls s'.items with
    | none => simp only [h4]; exact List.getElem?_append_left hk
    | some i => simp only [h4]; exact hmark _ _ _ h1 hk
  · rw [hfind]
    have hget : (s'.items[s.items.length + k]?).map (fun i => (i.cls, i.uid)) = (cs[k]?).map fun c => (c, s.items.length + k) := by
      rw [h4, List.getElem?_append_right (by omega), show s.items.length + k - s.items.length = k by omega, newItems_get]
      cases cs[k]? <;> rfl
    cases h5 : search cls s'.items with
    | none => exact hget
    | some i => simp only [mark_get]; exact hget
  · have : search cls (newItems cs s.items.length) = some ⟨c, s.items.length + n, none⟩ := by
      rw [← search_first]
      refine ⟨n, by rw [newItems_get, hc]; rfl, hcn, fun m j hm hj => ?_⟩
      rw [newItems_get] at hj
      cases hd : cs[m]? with
      | none => rw [hd] at hj; cases hj
      | some d =>
        rw [hd] at hj
        cases hj
        exact hfirst m d hm hd
    rw [hfind, hsearch, this]
  · have : search cls (newItems cs s.items.length) = none := by
      rw [← search_none]
      intro i hi
      obtain ⟨m, hm⟩ := List.mem_iff_getElem?.1 hi
      rw [newItems_get] at hm
      cases hd : cs[m]? with
      | none => rw [hd] at hm; cases hm
      | some d =>
        rw [hd] at hm
        cases hm
        exact hno d (List.mem_of_getElem? hd)
    rw [hfind, hsearch, this]

/-- **C83**: a class that is not registered is not found, and nothing changes, when there is no such library or when it is open already. -/
theorem c83_missing (env : Env) (s : St) (name lib cls : Text) (hn : Names name lib cls) (hlib : lib.length ≤ 128) (h0 : NoneNamed cls s.items)
    (h : NoLibrary env lib ∨ ∃ file cs, LibraryFile env lib file cs ∧ file ∈ s.opened) : find env name s = (none, s) := by
  obtain ⟨p1, p2⟩ := parts hn
  rw [List.take_of_length_le hlib] at p2
  have h1 := search_none.1 h0
  unfold find
  rw [p1, h1, p2]
  rcases h with h | ⟨file, cs, hf, ho⟩
  · rw [openFirst_none s h]
  · obtain ⟨s', hs', ho'⟩ := openFirst_some s hf
    have : s' = s := by
      unfold openLibrary at hs'
      rw [hf.1] at hs'
      simp only at hs'
      rw [if_pos (by simpa using ho)] at hs'
      cases hs'
      rfl
    subst this
    rw [ho']
    simp only [h1]

/-- **C83 fails**: with 2^14 classes, one more gets the identifier of the last one, and `Peek` no longer gives the class that had it. -/
theorem c83_unique_fails (env : Env) (ops : List Op) (c : Class) (hl : size (run env ops empty) = 2 ^ 14) :
    peek 16383 (add c (run env ops empty)) = some ⟨c, 16383, none⟩ ∧
    ∃ old, peek 16383 (run env ops empty) = some old ∧ old.uid = 16383 ∧ peek 16384 (add c (run env ops empty)) = some old := by
  have hnx := (run_spec env ops empty next_empty).1
  obtain ⟨old, ho, hu⟩ := (c83_identifiers_partial env ops (by omega)).1 16383 (by omega)
  have hlen : (run env ops empty).items.length = 16384 := by simpa [size] using hl
  have hnext : (run env ops empty).next = 16383 := by rw [hnx, if_neg (by omega)]
  have hins : ∀ (l : List Item) (n : Nat) (x : Item), n < l.length → (insertAt l n x)[n]? = some x ∧ (insertAt l n x)[n + 1]? = l[n]? := by
    intro l
    induction l with
    | nil => intro n x h; simp at h
    | cons y l ih =>
      intro n x h
      cases n with
      | zero => simp [insertAt]
      | succ n =>
        obtain ⟨h1, h2⟩ := ih n x (by simpa using h)
        exact ⟨by simpa [insertAt] using h1, by simpa [insertAt] using h2⟩
  obtain ⟨h1, h2⟩ := hins (run env ops empty).items 16383 ⟨c, 16383, none⟩ (by omega)
  refine ⟨?_, old, ho, hu, ?_⟩
  · show (insertAt (run env ops empty).items (run env ops empty).next ⟨c, (run env ops empty).next, none⟩)[16383]? = _
    rw [hnext]
    exact h1
  · show (insertAt (run env ops empty).items (run env ops empty).next ⟨c, (run env ops empty).next, none⟩)[16384]? = _
    rw [hnext]
    exact h2.trans ho

/-- There are such histories. -/
theorem c83_unique_reached (env : Env) (c : Class) : size (run env (List.replicate (2 ^ 14) (.add c)) empty) = 2 ^ 14 := by
  have : ∀ (n : Nat) (s : St), size (run env (List.replicate n (.add c)) s) = size s + n := by
    intro n
    induction n with
    | zero => intro s; rfl
    | succ n ih =>
      intro s
      rw [List.replicate_succ]
      show size (run env (List.replicate n (.add c)) (add c s)) = _
      rw [ih]
      unfold size
      rw [add_length]
      omega
  rw [this]
  rfl

/-- **C83 fails**: the name of the library counts for nothing when a class of that name is registered: whatever the two libraries are, the same item is found
for both. -/
theorem c83_prefix_fails (env : Env) (s : St) (a b cls : Text) (i : Item) (ha : Names (a ++ ':' :: ':' :: cls) a cls)
    (hb : Names (b ++ ':' :: ':' :: cls) b cls) (hi : FirstNamed cls s.items i) :
    (find env (a ++ ':' :: ':' :: cls) s).1 = (find env (b ++ ':' :: ':' :: cls) s).1 := by
  rw [c83_registered env s _ _ _ i ha hi, c83_registered env s _ _ _ i hb hi]

/-- **C83 fails**: the class of a library whose name has more than 128 characters is not found, although the file is there and has the class. -/
theorem c83_long_fails (lib cls t : Text) (hn : Names (lib ++ ':' :: ':' :: cls) lib cls) (hlib : 128 < lib.length) :
    (find (fun f => if f = lib ++ ".so".toList then some [(⟨cls, t⟩ : Class)] else none) (lib ++ ':' :: ':' :: cls) empty).1 = none := by
  obtain ⟨p1, p2⟩ := parts hn
  have hne : ∀ e : Text, e.length ≤ 4 → (e.length = 4 → e.getLast? ≠ some 'o') → lib.take 128 ++ e ≠ lib ++ ".so".toList := fun e he hlast h => by
    have := congrArg List.length h
    rw [List.length_append, List.length_append, List.length_take] at this
    have e2 : ".so".toList.length = 3 := rfl
    have h4 : e.length = 4 := by omega
    have h5 := congrArg List.getLast? h
    have e3 : ".so".toList = ['.', 's', 'o'] := rfl
    rw [e3, List.getLast?_append, List.getLast?_append] at h5
    cases hl : e.getLast? with
    | none => rw [List.getLast?_eq_none_iff] at hl; rw [hl] at h4; cases h4
    | some c =>
      rw [hl] at h5
      simp at h5
      exact hlast h4 (by rw [hl, h5])
  unfold find
  rw [p1, p2]
  have hno : NoLibrary (fun f => if f = lib ++ ".so".toList then some [(⟨cls, t⟩ : Class)] else none) (lib.take 128) :=
    ⟨if_neg (hne _ (by decide) (by decide)), if_neg (hne _ (by decide) (by decide)), if_neg (hne _ (by decide) (by decide))⟩
  rw [openFirst_none _ hno]
  rfl

private def lib1 : Env := fun f => if f = "gams.gam".toList then some [⟨"G".toList, "1G".toList⟩, ⟨"H".toList, "1H".toList⟩] else none

example : (find lib1 "gams::H".toList (add ⟨"A".toList, "1A".toList⟩ empty)).1 = some ⟨⟨"H".toList, "1H".toList⟩, 2, some "gams.gam".toList⟩ ∧
    (find lib1 "G".toList (find lib1 "gams::H".toList (add ⟨"A".toList, "1A".toList⟩ empty)).2).1 = some ⟨⟨"G".toList, "1G".toList⟩, 1, none⟩ := by
  decide

example : Names "gams::H".toList "gams".toList "H".toList := by
  refine Or.inl ⟨rfl, fun p' q' h => ?_⟩
  have h : ['g', 'a', 'm', 's', ':', ':', 'H'] = p' ++ ':' :: ':' :: q' := h
  match p' with
  | [] => simp at h
  | [_] => simp at h
  | [_, _] => simp at h
  | [_, _, _] => simp at h
  | _ :: _ :: _ :: _ :: _ => simp [String.length]

example : LibraryFile lib1 "gams".toList "gams.gam".toList [⟨"G".toList, "1G".toList⟩, ⟨"H".toList, "1H".toList⟩] := by
  refine ⟨by decide, Or.inr (Or.inl ⟨by decide, by decide⟩)⟩

end Verif.Props.ClassReg
