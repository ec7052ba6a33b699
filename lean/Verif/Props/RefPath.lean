import Verif.Proof.RefPath
/-!
# C69: insertion of an object at a path.  C70: search from a domain
-/
set_option linter.unusedVariables false
set_option maxRecDepth 8000
namespace Verif.RefC
open Verif.Spec.RefPath
open Verif.Spec.RefSearch (found isObject)
open Verif.Spec.RefC (At follow sizeObjs preorders UniqueNames Below)

private theorem join_ne (ws : List (List Char)) (hw : Words ws) : joinPath ws ≠ [] := by
  match ws with
  | [] => exact absurd rfl hw.1
  | [w] => exact (hw.2 w (by simp)).1
  | w :: v :: ws =>
    have := (hw.2 w (by simp)).1
    simp [joinPath]

private theorem join_length (ws : List (List Char)) (h : ∀ w ∈ ws, w ≠ [] ∧ '.' ∉ w) : ws.length ≤ (joinPath ws).length := by
  induction ws with
  | nil => simp
  | cons w ws ih =>
    have h1 := (h w (by simp)).1
    have h2 : 0 < w.length := List.length_pos_iff.2 h1
    have h3 := ih (fun v hv => h v (by simp [hv]))
    cases ws with
    | nil => simp [joinPath]; omega
    | cons v ws =>
      simp only [joinPath, List.length_append, List.length_cons] at h3 ⊢
      omega

/-- **C69.** `Insert("a.b.c", reference)` puts the object at the path, makes the containers that are missing and changes
nothing else; when that is not possible it answers `false` and changes nothing. -/
theorem c69_insert (ws : List (List Char)) (hw : Words ws) (o : Obj) (fresh : Nat) (kids : List Obj) :
    insertPath (joinPath ws) (some o) fresh kids =
      some (match place o fresh ws kids with | some kids' => (true, kids') | none => (false, kids)) := by
  have hne := join_ne ws hw
  have hl : 0 < (joinPath ws).length := List.length_pos_iff.2 hne
  unfold insertPath
  simp only
  rw [if_neg (by omega), tokenize_path ws hw.2]
  obtain ⟨r, h1, h2⟩ := insert_loop o ws hw.2 ((joinPath ws).length + 1) fresh kids
    (by have := join_length ws hw.2; omega)
  rw [h1]
  cases hp : place o fresh ws kids with
  | none =>
    rw [hp] at h2
    simp only [outcome] at h2
    simp [h2.1, h2.2]
  | some k =>
    rw [hp] at h2
    simp only [outcome] at h2
    simp [h2]

/-- **C69.** It succeeds exactly when no object is at the path and no object on the way is something else than a
container, when the objects in each container have different names. -/
theorem c69_refused (ws : List (List Char)) (hw : Words ws) (o : Obj) (fresh : Nat) (kids : List Obj)
    (hu : ∀ k, Below kids k → UniqueNames k) :
    insertPath (joinPath ws) (some o) fresh kids = some (false, kids) ↔
      ∃ p x, p <+: ws ∧ At kids p x ∧ (p = ws ∨ x.kids? = none) := by
  rw [c69_insert ws hw]
  constructor
  · intro h
    cases hp : place o fresh ws kids with
    | none => exact place_none o ws fresh kids hw.1 hp
    | some k => rw [hp] at h; simp at h
  · rintro ⟨p, x, h1, h2, h3⟩
    rw [place_occupied o ws fresh kids hu p x h1 h2 h3]

/-- **C69.** After a success `Find` with the same path gives the object, under its new name. -/
theorem c69_found (ws : List (List Char)) (hw : Words ws) (hlen : (joinPath ws).length < 2 ^ 32) (o : Obj) (fresh : Nat)
    (kids kids' : List Obj) (hN : Named kids) (ho : ∀ ck, o.kids? = some ck → Named ck)
    (h : insertPath (joinPath ws) (some o) fresh kids = some (true, kids')) (fuel : Nat) (hf : sizeObjs kids' ≤ fuel) :
    findPath fuel (joinPath ws) false kids' = some (some (named o (ws.getLastD []))) := by
  rw [c69_insert ws hw] at h
  cases hp : place o fresh ws kids with
  | none => rw [hp] at h; simp at h
  | some k =>
    rw [hp] at h
    simp only [Option.some.injEq, Prod.mk.injEq, true_and] at h
    subst h
    have hfo := follow_place o ws fresh kids k hw.1 hp
    have hNk := named_place o ho ws fresh kids k hN hp
    match ws, hw, hlen, hfo with
    | [w], hw, hlen, hfo =>
      have := (c07_single_name fuel w hw hlen k hf).1
      simp only [joinPath]
      rw [this]
      exact congrArg some hfo
    | w :: v :: ws, hw, hlen, hfo =>
      obtain ⟨r, h1, h2, _⟩ := c07_find_path_partial fuel (w :: v :: ws) hw (by simp) hlen false k hNk hf
      rw [h1, h2 _ hfo]

/-- **C69.** Every object that was in the tree is still at its path, and a new path either leads to the object inserted
or below it, or is the one of a container that leads to it. -/
theorem c69_kept (ws : List (List Char)) (hw : Words ws) (o : Obj) (fresh : Nat) (kids kids' : List Obj)
    (h : insertPath (joinPath ws) (some o) fresh kids = some (true, kids')) :
    (∀ p x, At kids p x → ∃ x', At kids' p x' ∧ x'.id = x.id ∧ (x.kids? = none → x' = x)) ∧
    (∀ p x', At kids' p x' → (∃ x, At kids p x ∧ x'.id = x.id) ∨ p <+: ws ∨ ws <+: p) := by
  rw [c69_insert ws hw] at h
  cases hp : place o fresh ws kids with
  | none => rw [hp] at h; simp at h
  | some k =>
    rw [hp] at h
    simp only [Option.some.injEq, Prod.mk.injEq, true_and] at h
    subst h
    exact ⟨fun p x => at_kept o p fresh ws kids k x hp, fun p x => at_new o p fresh ws kids k x hp⟩

/-- **C69.** An invalid reference is refused; without a path the object is added at the end, with the name it has. -/
theorem c69_no_path (path : List Char) (o : Obj) (fresh : Nat) (kids : List Obj) :
    insertPath path none fresh kids = some (false, kids) ∧ insertPath [] (some o) fresh kids = some (true, kids ++ [o]) :=
  ⟨rfl, rfl⟩

private def L (i : Nat) (s : String) : Obj := .leaf i (some s.toList)
private def N (i : Nat) (s : String) (k : List Obj) : Obj := .cont i (some s.toList) k

/-- **C69 refuted** for paths with two dots in a row: the object is inserted at what is before them, with the answer
`true`. -/
theorem c69_double_dot_fails :
    ((insertPath "A..B".toList (some (L 1 "X")) 9 []).map fun r => (r.1, r.2.map fun o => (o.id, o.name))) =
      some (true, [(1, some "A".toList)]) := by decide

/-- A path that begins with a dot is refused, although a search accepts it (`c61_leading_dot`). -/
theorem c69_leading_dot_fails (path : List Char) (o : Obj) (fresh : Nat) (kids : List Obj) :
    insertPath ('.' :: path) (some o) fresh kids = some (false, kids) := rfl

/-- The hypotheses are met: two containers are made in an existing one. -/
example : ((insertPath "A.B.C.D".toList (some (L 1 "X")) 90 [L 2 "Y", N 3 "A" [L 4 "Z"]]).map fun r =>
      (r.1, (preorders r.2).map fun o => (o.id, o.name))) =
    some (true, [(2, some "Y".toList), (3, some "A".toList), (4, some "Z".toList), (90, some "B".toList),
      (91, some "C".toList), (1, some "D".toList)]) := by decide
example : ((insertPath "A.Z.C".toList (some (L 1 "X")) 90 [L 2 "Y", N 3 "A" [L 4 "Z"]]).map fun r => r.1) = some false := by
  decide

/-! ## The search from a domain -/

/-- **C70.** A path that begins with `n` colons is searched in the `n`-th domain at or above the object where the search
begins (its first place in the registry), and in the registry when there are not so many domains or no object; a domain
that is not a container gives nothing. -/
theorem c70_domain (fuel : Nat) (isDomain : Obj → Bool) (n : Nat) (hn : 0 < n) (name : List Char)
    (hc : name.head? ≠ some ':') (i : Nat) (kids : List Obj) (hf : sizeObjs kids ≤ fuel) :
    registryFind fuel isDomain (List.replicate n ':' ++ name) (some i) kids =
      (match (found (isObject i) true false kids)[0]? with
       | none => findPath fuel name false kids
       | some v =>
         match domain isDomain v.chain n with
         | none => findPath fuel name false kids
         | some d => match d.kids? with | some ck => findPath fuel name false ck | none => some none) := by
  have hb : backSteps (List.replicate n ':' ++ name) = n := by
    clear hn
    induction n with
    | zero =>
      cases name with
      | nil => rfl
      | cons c cs =>
        simp only [List.head?_cons, ne_eq, Option.some.injEq] at hc
        simp [backSteps, hc]
    | succ n ih => simp [List.replicate_succ, backSteps, ih]
  have hdr : (List.replicate n ':' ++ name).drop n = name := by
    rw [List.drop_append_of_le_length (by simp)]; simp
  have hr := c61_nth_reference i kids [] fuel hf 1 (Nat.le_refl 1) false false true false
  simp only [Int.natCast_one, Bool.or_true, Bool.false_eq_true, if_false, if_true, List.nil_append, Nat.sub_self] at hr
  unfold registryFind
  simp only [hb, hdr]
  rw [if_pos hn]
  cases hfi : find fuel (refFilter 1 false false true false (some i)) [] kids with
  | none => rw [hfi] at hr; simp at hr
  | some r =>
    rw [hfi] at hr
    simp only [Option.map_some, Option.some.injEq] at hr
    simp only [Option.bind_some]
    cases hg : (found (isObject i) true false kids)[0]? with
    | none =>
      rw [hg] at hr
      simp only [Prod.mk.injEq] at hr
      rw [hr.2]
      simp only [List.reverse_nil, climb]
      rw [if_pos hn]
    | some v =>
      rw [hg] at hr
      simp only [Prod.mk.injEq] at hr
      rw [hr.2]
      simp only [domain]
      have hcl := climb_eq isDomain v.chain.reverse none n
      rw [if_neg (show ¬ n = 0 by omega)] at hcl
      by_cases hle : n ≤ (v.chain.reverse.filter isDomain).length
      · rw [if_pos hle, List.getElem?_eq_getElem (by omega)] at hcl
        rw [hcl, List.getElem?_eq_getElem (by omega)]
        simp only [gt_iff_lt, Nat.lt_irrefl, if_false, Option.bind_some]
        cases ((v.chain.reverse.filter isDomain)[n - 1]'(by omega)).kids? <;> rfl
      · rw [if_neg hle] at hcl
        rw [hcl, List.getElem?_eq_none (by omega)]
        simp only
        rw [if_pos (by omega)]

/-- **C70.** Without colons, or without an object where the search begins, the path is searched in the registry. -/
theorem c70_root (fuel : Nat) (isDomain : Obj → Bool) (path : List Char) (i : Nat) (kids : List Obj) :
    registryFind fuel isDomain path none kids = findPath fuel path false kids ∧
    (path.head? ≠ some ':' → registryFind fuel isDomain path (some i) kids = findPath fuel path false kids) := by
  refine ⟨rfl, ?_⟩
  intro h
  have : backSteps path = 0 := by
    cases path with
    | nil => rfl
    | cons c cs =>
      simp only [List.head?_cons, ne_eq, Option.some.injEq] at h
      simp [backSteps, h]
  unfold registryFind
  simp [this]

private def sample : List Obj := [N 1 "App" [N 2 "Functions" [N 3 "GAM" [L 4 "Sig"]], N 5 "Data" [L 6 "DDB"]], L 7 "DDB"]

/-- The hypotheses are met: from the signal 4 the domains are 3 and 1. -/
example : (registryFind 99 (fun o => o.id == 1 || o.id == 3) ":Sig".toList (some 4) sample).map (·.map Obj.id) = some (some 4) ∧
    (registryFind 99 (fun o => o.id == 1 || o.id == 3) "::Data.DDB".toList (some 4) sample).map (·.map Obj.id) = some (some 6) ∧
    (registryFind 99 (fun o => o.id == 1 || o.id == 3) ":::DDB".toList (some 4) sample).map (·.map Obj.id) = some (some 7) ∧
    (registryFind 99 (fun o => o.id == 1 || o.id == 3) "::DDB".toList (some 4) sample).map (·.map Obj.id) = some none := by
  decide

end Verif.RefC
