import Verif.Spec.ClassReg
set_option linter.unusedSimpArgs false
namespace Verif.ClassReg
open Verif.Spec.ClassReg

/-! ## Names -/

theorem split_cons (c : Char) (l : Text) (h : ¬ (c = ':' ∧ ∃ r, l = ':' :: r)) : split (c :: l) = (split l).map fun r => (c :: r.1, r.2) := by
  rw [split]
  intro rest h1 h2
  exact h ⟨h1, rest, h2⟩

/-- The first `::`. -/
theorem split_append : ∀ (p q : Text), (∀ p' q', p ++ ':' :: ':' :: q = p' ++ ':' :: ':' :: q' → p.length ≤ p'.length) →
    split (p ++ ':' :: ':' :: q) = some (p, q)
  | [], q, _ => by rw [List.nil_append, split]
  | c :: p, q, h => by
    have hn : ¬ (c = ':' ∧ ∃ r, p ++ ':' :: ':' :: q = ':' :: r) := by
      rintro ⟨rfl, r, hr⟩
      have := h [] r (by rw [List.cons_append, hr]; rfl)
      simp at this
    rw [List.cons_append, split_cons _ _ hn, split_append p q]
    · rfl
    · intro p' q' e
      have := h (c :: p') q' (by rw [List.cons_append, e]; rfl)
      simpa using this

theorem split_plain : ∀ (l : Text), (∀ p q, l ≠ p ++ ':' :: ':' :: q) → split l = none
  | [], _ => rfl
  | c :: l, h => by
    have hn : ¬ (c = ':' ∧ ∃ r, l = ':' :: r) := by
      rintro ⟨rfl, r, rfl⟩
      exact h [] r rfl
    rw [split_cons _ _ hn, split_plain l fun p q e => h (c :: p) q (by rw [e]; rfl)]
    rfl

theorem parts {name lib cls : Text} (h : Names name lib cls) : classPart name = cls ∧ libraryPart name = lib.take 128 := by
  unfold classPart libraryPart
  rcases h with ⟨rfl, h⟩ | ⟨h, rfl, rfl⟩
  · rw [split_append _ _ h]
    exact ⟨rfl, rfl⟩
  · rw [split_plain _ h]
    exact ⟨rfl, rfl⟩

/-! ## The search -/

theorem search_first {cls : Text} : ∀ {l : List Item} {i : Item}, FirstNamed cls l i ↔ search cls l = some i
  | [], i => by simp [FirstNamed, search]
  | x :: l, i => by
    unfold search
    by_cases hx : x.cls.name = cls
    · rw [if_pos hx]
      constructor
      · rintro ⟨n, h1, h2, h3⟩
        cases n with
        | zero => simpa using h1
        | succ n => exact absurd hx (h3 0 x (by omega) rfl)
      · intro e
        cases e
        exact ⟨0, rfl, hx, fun m j hm => by omega⟩
    · rw [if_neg hx, ← search_first (l := l)]
      constructor
      · rintro ⟨n, h1, h2, h3⟩
        cases n with
        | zero => simp at h1; subst h1; exact absurd h2 hx
        | succ n => exact ⟨n, by simpa using h1, h2, fun m j hm hj => h3 (m + 1) j (by omega) (by simpa using hj)⟩
      · rintro ⟨n, h1, h2, h3⟩
        refine ⟨n + 1, by simpa using h1, h2, fun m j hm hj => ?_⟩
        cases m with
        | zero => simp at hj; subst hj; exact hx
        | succ m => exact h3 m j (by omega) (by simpa using hj)

theorem search_none {cls : Text} : ∀ {l : List Item}, NoneNamed cls l ↔ search cls l = none
  | [] => by simp [NoneNamed, search]
  | x :: l => by
    unfold search
    by_cases hx : x.cls.name = cls
    · rw [if_pos hx]
      simp [NoneNamed, hx]
    · rw [if_neg hx, ← search_none (l := l)]
      simp [NoneNamed, hx]

theorem search_name {cls : Text} : ∀ {l : List Item} {i : Item}, search cls l = some i → i.cls.name = cls
  | x :: l, i, h => by
    unfold search at h
    split at h
    · cases h; assumption
    · exact search_name h

theorem search_append_some {cls : Text} : ∀ {l : List Item} {i : Item} (r : List Item), search cls l = some i → search cls (l ++ r) = some i
  | x :: l, i, r, h => by
    unfold search at h
    rw [List.cons_append, search]
    split at h
    · rw [if_pos (by assumption)]; exact h
    · rw [if_neg (by assumption)]; exact search_append_some r h

theorem search_append_none {cls : Text} : ∀ {l : List Item} (r : List Item), search cls l = none → search cls (l ++ r) = search cls r
  | [], _, _ => rfl
  | x :: l, r, h => by
    unfold search at h
    rw [List.cons_append, search]
    split at h
    · cases h
    · rw [if_neg (by assumption)]; exact search_append_none r h

theorem search_mark_ne {cls n f : Text} (h : n ≠ cls) : ∀ (l : List Item), search cls (mark n f l) = search cls l
  | [] => rfl
  | x :: l => by
    unfold mark
    by_cases hx : x.cls.name = n
    · rw [if_pos hx, search, search, if_neg (by rw [hx]; exact h), if_neg (by rw [hx]; exact h)]
    · rw [if_neg hx, search, search, search_mark_ne h l]

theorem search_mark {n f : Text} : ∀ {l : List Item} {i : Item}, search n l = some i → search n (mark n f l) = some { i with loader := some f }
  | x :: l, i, h => by
    unfold search at h
    unfold mark
    split at h
    · rename_i hx
      cases h
      rw [if_pos hx, search, if_pos hx]
    · rename_i hx
      rw [if_neg hx, search, if_neg hx]
      exact search_mark h

/-- Marking changes only the loader. -/
theorem mark_get (n f : Text) : ∀ (l : List Item) (k : Nat), ((mark n f l)[k]?).map (fun i => (i.cls, i.uid)) = (l[k]?).map fun i => (i.cls, i.uid)
  | [], _ => rfl
  | x :: l, k => by
    unfold mark
    split
    · cases k <;> rfl
    · cases k with
      | zero => rfl
      | succ k => simpa using mark_get n f l k

theorem mark_length (n f : Text) : ∀ (l : List Item), (mark n f l).length = l.length
  | [] => rfl
  | x :: l => by
    unfold mark
    split
    · rfl
    · simp [mark_length n f l]

/-! ## Additions -/

/-- The identifiers that are given out. -/
def Next (s : St) : Prop := s.next = if s.items.length < 16383 then s.items.length else 16383

theorem insertAt_length : ∀ (l : List α) (n : Nat) (x : α), (insertAt l n x).length = l.length + 1
  | [], _, _ => rfl
  | y :: l, 0, x => rfl
  | y :: l, n + 1, x => by simp [insertAt, insertAt_length l n x]

theorem insertAt_end : ∀ (l : List α) (x : α), insertAt l l.length x = l ++ [x]
  | [], _ => rfl
  | y :: l, x => by simp [insertAt, insertAt_end l x]

theorem add_length (c : Class) (s : St) : (add c s).items.length = s.items.length + 1 := insertAt_length _ _ _

theorem add_next (c : Class) (s : St) (h : Next s) : Next (add c s) := by
  unfold Next at *
  rw [add_length]
  show succ14 s.next = _
  rw [h]
  unfold succ14
  split <;> split <;> split <;> omega

/-- What `addAll` puts in the list. -/
def newItems : List Class → Nat → List Item
  | [], _ => []
  | c :: cs, n => ⟨c, n, none⟩ :: newItems cs (n + 1)

theorem newItems_length : ∀ (cs : List Class) (n : Nat), (newItems cs n).length = cs.length
  | [], _ => rfl
  | _ :: cs, n => by simp [newItems, newItems_length cs]

theorem newItems_get : ∀ (cs : List Class) (n k : Nat), (newItems cs n)[k]? = (cs[k]?).map fun c => ⟨c, n + k, none⟩
  | [], _, _ => by simp [newItems]
  | c :: cs, n, 0 => by simp [newItems]
  | c :: cs, n, k + 1 => by
    simp only [newItems, List.getElem?_cons_succ, newItems_get cs (n + 1) k]
    cases cs[k]? <;> simp <;> omega

theorem add_items (c : Class) (s : St) (h : Next s) (hl : s.items.length < 16384) : (add c s).items = s.items ++ [⟨c, s.items.length, none⟩] := by
  have : s.next = s.items.length := by rw [h]; split <;> omega
  show insertAt s.items s.next ⟨c, s.next, none⟩ = _
  rw [this, insertAt_end]

theorem addAll_spec : ∀ (cs : List Class) (s : St), Next s →
    Next (addAll cs s) ∧ (addAll cs s).items.length = s.items.length + cs.length ∧ (addAll cs s).opened = s.opened ∧
    (s.items.length + cs.length ≤ 16384 → (addAll cs s).items = s.items ++ newItems cs s.items.length)
  | [], s, h => ⟨h, by simp [addAll], rfl, fun _ => by simp [addAll, newItems]⟩
  | c :: cs, s, h => by
    obtain ⟨h1, h2, h3, h4⟩ := addAll_spec cs (add c s) (add_next c s h)
    rw [add_length] at h2 h4
    refine ⟨h1, by rw [addAll, h2, List.length_cons]; omega, h3, fun hl => ?_⟩
    rw [List.length_cons] at hl
    rw [addAll, h4 (by omega), add_items c s h (by omega), newItems, List.append_assoc]
    rfl

/-! ## Libraries -/

theorem openLibrary_spec {env : Env} {file : Text} {s s' : St} (hn : Next s) (h : openLibrary env file s = some s') :
    ∃ cs, env file = some cs ∧ Next s' ∧
      ((file ∈ s.opened ∧ s' = s) ∨
       (file ∉ s.opened ∧ s'.opened = file :: s.opened ∧ s'.items.length = s.items.length + cs.length ∧
        (s.items.length + cs.length ≤ 16384 → s'.items = s.items ++ newItems cs s.items.length))) := by
  unfold openLibrary at h
  split at h
  · cases h
  · rename_i cs hc
    refine ⟨cs, hc, ?_⟩
    by_cases ho : file ∈ s.opened
    · rw [if_pos (by simpa using ho)] at h
      cases h
      exact ⟨hn, Or.inl ⟨ho, rfl⟩⟩
    · rw [if_neg (by simpa using ho)] at h
      cases h
      obtain ⟨h1, h2, h3, h4⟩ := addAll_spec cs { s with opened := file :: s.opened } hn
      exact ⟨h1, Or.inr ⟨ho, h3, h2, h4⟩⟩

theorem openFirst_some {env : Env} {lib file : Text} {cs : List Class} (s : St) (h : LibraryFile env lib file cs) :
    ∃ s', openLibrary env file s = some s' ∧ openFirst env lib extensions s = some (file, s') := by
  obtain ⟨hc, h⟩ := h
  have hopen : ∃ s', openLibrary env file s = some s' := by
    unfold openLibrary
    rw [hc]
    by_cases ho : s.opened.contains file = true
    · exact ⟨s, if_pos ho⟩
    · exact ⟨_, if_neg ho⟩
  have hnone : ∀ f, env f = none → openLibrary env f s = none := fun f hf => by unfold openLibrary; rw [hf]
  obtain ⟨s', hs⟩ := hopen
  refine ⟨s', hs, ?_⟩
  have e1 : ".so".toList = ['.', 's', 'o'] := rfl
  have e2 : ".gam".toList = ['.', 'g', 'a', 'm'] := rfl
  have e3 : ".drv".toList = ['.', 'd', 'r', 'v'] := rfl
  rw [e1, e2, e3] at h
  rcases h with rfl | ⟨rfl, h1⟩ | ⟨rfl, h1, h2⟩
  · simp only [extensions, openFirst, hs]
  · simp only [extensions, openFirst, hs, hnone _ h1]
  · simp only [extensions, openFirst, hs, hnone _ h1, hnone _ h2]

theorem openFirst_none {env : Env} {lib : Text} (s : St) (h : NoLibrary env lib) : openFirst env lib extensions s = none := by
  have hnone : ∀ f, env f = none → openLibrary env f s = none := fun f hf => by unfold openLibrary; rw [hf]
  obtain ⟨h1, h2, h3⟩ := h
  have e1 := hnone _ h1
  have e2 := hnone _ h2
  have e3 := hnone _ h3
  have e1 : openLibrary env (lib ++ ['.', 's', 'o']) s = none := e1
  have e2 : openLibrary env (lib ++ ['.', 'g', 'a', 'm']) s = none := e2
  have e3 : openLibrary env (lib ++ ['.', 'd', 'r', 'v']) s = none := e3
  simp only [extensions, openFirst, e1, e2, e3]

theorem openFirst_file {env : Env} {lib : Text} : ∀ {es : List Text} {s s' : St} {file : Text}, openFirst env lib es s = some (file, s') →
    openLibrary env file s = some s'
  | e :: es, s, s', file, h => by
    unfold openFirst at h
    split at h
    · cases h; assumption
    · exact openFirst_file h

/-! ## One call -/

/-- What a call leaves: the items that were there, with new ones after them, up to the loader of one new item. -/
theorem step_spec (env : Env) (s : St) (op : Op) (hn : Next s) :
    Next (step env s op) ∧ s.items.length ≤ (step env s op).items.length ∧
    ((step env s op).items.length ≤ 16384 →
      ((∀ (k : Nat) i, s.items[k]? = some i → i.uid = k) → ∀ (k : Nat) i, (step env s op).items[k]? = some i → i.uid = k) ∧
      ∀ cls i, search cls s.items = some i → search cls (step env s op).items = some i) := by
  cases op with
  | add c =>
    simp only [step]
    refine ⟨add_next c s hn, by rw [add_length]; omega, fun hl => ?_⟩
    rw [add_length] at hl
    rw [add_items c s hn (by omega)]
    refine ⟨fun hu k i hk => ?_, fun cls i h => search_append_some _ h⟩
    by_cases h : k < s.items.length
    · rw [List.getElem?_append_left h] at hk
      exact hu k i hk
    · rw [List.getElem?_append_right (by omega)] at hk
      have : k - s.items.length = 0 := by
        by_cases h0 : k - s.items.length = 0
        · exact h0
        · rw [List.getElem?_eq_none (by simp; omega)] at hk; cases hk
      rw [this] at hk
      simp at hk
      subst hk
      show s.items.length = k
      omega
  | find name =>
    simp only [step]
    unfold find
    cases h1 : search (classPart name) s.items with
    | some i => exact ⟨hn, Nat.le_refl _, fun _ => ⟨fun h => h, fun _ _ h => h⟩⟩
    | none =>
      simp only
      cases h2 : openFirst env (libraryPart name) extensions s with
      | none => exact ⟨hn, Nat.le_refl _, fun _ => ⟨fun h => h, fun _ _ h => h⟩⟩
      | some r =>
        obtain ⟨file, s'⟩ := r
        simp only
        obtain ⟨cs, _, hn', hs'⟩ := openLibrary_spec hn (openFirst_file h2)
        have key : s.items.length ≤ s'.items.length ∧ (s'.items.length ≤ 16384 →
            ((∀ (k : Nat) i, s.items[k]? = some i → i.uid = k) → ∀ (k : Nat) i, s'.items[k]? = some i → i.uid = k) ∧
            ∀ cls i, search cls s.items = some i → search cls s'.items = some i) := by
          rcases hs' with ⟨_, rfl⟩ | ⟨_, _, h3, h4⟩
          · exact ⟨Nat.le_refl _, fun _ => ⟨fun h => h, fun _ _ h => h⟩⟩
          · refine ⟨by omega, fun hl => ?_⟩
            rw [h4 (by omega)]
            refine ⟨fun hu k i hk => ?_, fun cls i h => search_append_some _ h⟩
            by_cases h : k < s.items.length
            · rw [List.getElem?_append_left h] at hk
              exact hu k i hk
            · rw [List.getElem?_append_right (by omega), newItems_get] at hk
              cases hc : cs[k - s.items.length]? with
              | none => rw [hc] at hk; cases hk
              | some c =>
                rw [hc] at hk
                cases hk
                show s.items.length + (k - s.items.length) = k
                omega
        cases h5 : search (classPart name) s'.items with
        | none => exact ⟨hn', key.1, key.2⟩
        | some i =>
          simp only
          refine ⟨?_, by rw [mark_length]; exact key.1, fun hl => ?_⟩
          · unfold Next at *
            rw [mark_length]
            exact hn'
          · rw [mark_length] at hl
            obtain ⟨k1, k2⟩ := key.2 hl
            refine ⟨fun hu k j hj => ?_, fun cls j hj => ?_⟩
            · have := mark_get (classPart name) file s'.items k
              rw [hj] at this
              cases hc : s'.items[k]? with
              | none => rw [hc] at this; simp at this
              | some x =>
                rw [hc] at this
                simp at this
                rw [this.2]
                exact k1 hu k x hc
            · have hne : classPart name ≠ cls := fun e => by
                rw [e, hj] at h1
                cases h1
              rw [search_mark_ne hne]
              exact k2 cls j hj

theorem run_spec (env : Env) : ∀ (ops : List Op) (s : St), Next s →
    Next (run env ops s) ∧ s.items.length ≤ (run env ops s).items.length ∧
    ((run env ops s).items.length ≤ 16384 →
      ((∀ (k : Nat) i, s.items[k]? = some i → i.uid = k) → ∀ (k : Nat) i, (run env ops s).items[k]? = some i → i.uid = k) ∧
      ∀ cls i, search cls s.items = some i → search cls (run env ops s).items = some i)
  | [], s, h => ⟨h, Nat.le_refl _, fun _ => ⟨fun h => h, fun _ _ h => h⟩⟩
  | op :: ops, s, h => by
    obtain ⟨a1, a2, a3⟩ := step_spec env s op h
    obtain ⟨b1, b2, b3⟩ := run_spec env ops (step env s op) a1
    have e : run env (op :: ops) s = run env ops (step env s op) := rfl
    rw [e]
    refine ⟨b1, by omega, fun hl => ?_⟩
    obtain ⟨c1, c2⟩ := b3 hl
    obtain ⟨d1, d2⟩ := a3 (by omega)
    exact ⟨fun hu => c1 (d1 hu), fun cls i hi => c2 cls i (d2 cls i hi)⟩

theorem next_empty : Next empty := rfl

theorem run_append (env : Env) (a b : List Op) (s : St) : run env (a ++ b) s = run env b (run env a s) := List.foldl_append

/-- The items that have a type, in order. -/
theorem findTypeId_eq (t : Text) : ∀ (l : List Item), findTypeId t l = l.find? fun i => decide (i.cls.typeId = t)
  | [] => rfl
  | x :: l => by
    unfold findTypeId
    by_cases h : x.cls.typeId = t
    · rw [if_pos h, List.find?_cons_of_pos (by simpa using h)]
    · rw [if_neg h, List.find?_cons_of_neg (by simpa using h), findTypeId_eq t l]

end Verif.ClassReg
