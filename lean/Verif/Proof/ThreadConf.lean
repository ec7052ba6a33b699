import Verif.Model.ThreadConf
import Verif.Spec.ThreadConf
import Verif.Props.RefSearch
import Verif.Proof.WebTree
set_option maxRecDepth 8000
set_option linter.unusedSimpArgs false
namespace Verif.ThreadConf
open Verif.RefC Verif.Spec.RefC Verif.Spec.RefSearch Verif.Spec.ThreadConf Verif.Spec.Web

theorem findAll_eq (is : Nat → Bool) (fuel : Nat) : ∀ (rest pre res : List Obj), sizeObjs rest ≤ fuel →
    findAll is fuel pre.length res (pre ++ rest) = some (res ++ (preorders rest).filter fun x => is x.id) := by
  induction fuel with
  | zero => intro rest pre res hf; have := sizeObjs_pos rest; omega
  | succ fuel ih =>
    intro rest pre res hf
    cases rest with
    | nil => simp [findAll, preorders]
    | cons o os =>
      have hnext : ∀ res', findAll is fuel (pre.length + 1) res' (pre ++ o :: os) =
          some (res' ++ (preorders os).filter fun x => is x.id) := by
        intro res'
        have h := ih os (pre ++ [o]) res' (by
          have : 1 ≤ sizeObj o := by cases o <;> simp [sizeObj]
          simp only [sizeObjs] at hf; omega)
        simpa using h
      have hlt : pre.length < (pre ++ o :: os).length := by simp
      have hget : (pre ++ o :: os)[pre.length]? = some o := by simp
      simp only [findAll, if_pos hlt, hget, Option.bind_some]
      cases o with
      | leaf i n =>
        simp only [Obj.kids?, hnext, preorders, preorder]
        by_cases h : is (Obj.leaf i n).id = true <;> simp [h]
      | cont i n ks =>
        have hin : ∀ res', (if ks.length > 0 then findAll is fuel 0 res' ks else some res') =
            some (res' ++ (preorders ks).filter fun x => is x.id) := by
          intro res'
          split
          · have h := ih ks [] res' (by
              have := sizeObjs_pos os
              simp only [sizeObjs, sizeObj] at hf; omega)
            simpa using h
          · have : ks = [] := by cases ks with | nil => rfl | cons => simp at *
            subst this; simp [preorders]
        simp only [Obj.kids?, hin, Option.bind_some, hnext, preorders, preorder]
        by_cases h : is (Obj.cont i n ks).id = true <;> simp [h]

theorem findClass_eq (is : Nat → Bool) (fuel : Nat) (o : Obj) (kids res : List Obj) (hk : o.kids? = some kids)
    (hf : sizeObjs kids ≤ fuel) :
    findClass is fuel (if is o.id then res ++ [o] else res) kids = some (res ++ (preorder o).filter fun x => is x.id) := by
  have hpre : preorder o = o :: preorders kids := by
    cases o with
    | leaf => simp [Obj.kids?] at hk
    | cont i n k => simp only [Obj.kids?, Option.some.injEq] at hk; subst hk; simp [preorder]
  have h2 : ∀ res', findClass is fuel res' kids = some (res' ++ (preorders kids).filter fun x => is x.id) := by
    intro res'
    unfold findClass
    split
    · simpa using findAll_eq is fuel kids [] res' hf
    · have : kids = [] := by cases kids with | nil => rfl | cons => simp at *
      subst this; simp [preorders]
  rw [h2, hpre]
  by_cases h : is o.id = true <;> simp [h]

theorem mem_addStatefuls (os : List Obj) : ∀ (st : List Nat) (i : Nat), i ∈ addStatefuls st os ↔ i ∈ st ∨ ∃ o ∈ os, o.id = i := by
  induction os with
  | nil => simp [addStatefuls]
  | cons o os ih =>
    intro st i
    rw [addStatefuls, ih]
    split <;> rename_i h
    · constructor
      · rintro (h' | ⟨x, hx, rfl⟩)
        · exact Or.inl h'
        · exact Or.inr ⟨x, by simp [hx], rfl⟩
      · rintro (h' | ⟨x, hx, rfl⟩)
        · exact Or.inl h'
        · rcases List.mem_cons.mp hx with rfl | hx
          · exact Or.inl h
          · exact Or.inr ⟨x, hx, rfl⟩
    · simp only [List.mem_append, List.mem_singleton, List.mem_cons, exists_eq_or_imp]
      grind

theorem nodup_addStatefuls (os : List Obj) : ∀ (st : List Nat), st.Nodup → (addStatefuls st os).Nodup := by
  induction os with
  | nil => exact fun _ h => h
  | cons o os ih =>
    intro st h
    rw [addStatefuls]
    apply ih
    split
    · exact h
    · rename_i hn
      rw [List.nodup_append]
      exact ⟨h, by simp, by simp; rintro a ha rfl; exact hn ha⟩

/-- Keeps the ones that are there at the front, in their order. -/
theorem prefix_addStatefuls (os : List Obj) : ∀ (st : List Nat), st <+: addStatefuls st os := by
  induction os with
  | nil => exact fun st => List.prefix_refl st
  | cons o os ih =>
    intro st
    rw [addStatefuls]
    refine List.IsPrefix.trans ?_ (ih _)
    split
    · exact List.prefix_refl _
    · exact List.prefix_append _ _

/-! ## Paths -/

theorem dotted_eq (ws : List (List Char)) : dotted ws = joinPath ws := by
  induction ws with
  | nil => rfl
  | cons w ws ih =>
    cases ws with
    | nil => rfl
    | cons v ws => simp [dotted, joinPath, ih]

theorem dotted_append (a b : List (List Char)) (hb : b ≠ []) :
    dotted (a ++ b) = (a.flatMap fun w => w ++ ['.']) ++ dotted b := by
  induction a with
  | nil => simp
  | cons w a ih =>
    cases hab : a ++ b with
    | nil => simp at hab; exact absurd hab.2 hb
    | cons v vs =>
      rw [List.cons_append, hab, dotted, ← hab, ih]
      simp

theorem seekApp_eq (c : Classes) (up : List Obj) (app : Obj) (rest : List Obj) (h1 : ∀ o ∈ up, c.app o.id = false)
    (h2 : c.app app.id = true) : ∀ p, seekApp c (up ++ app :: rest) p =
      some (p ++ ((up ++ [app]).map fun o => o.name.getD []).flatMap (fun w => w ++ ['.']), rest) := by
  induction up with
  | nil => intro p; simp [seekApp, h2]
  | cons o up ih =>
    intro p
    rw [List.cons_append, seekApp, h1 o (by simp)]
    simp [ih (fun x hx => h1 x (by simp [hx]))]

theorem seekState_eq (c : Classes) (mid : List Obj) (st : Obj) (low : List Obj) (h1 : ∀ o ∈ mid, c.state o.id = false)
    (h2 : c.state st.id = true) : seekState c (mid ++ st :: low) = some st.id := by
  induction mid with
  | nil => simp [seekState, h2]
  | cons o mid ih =>
    rw [List.cons_append, seekState, h1 o (by simp)]
    simpa using ih (fun x hx => h1 x (by simp [hx]))

theorem find_path (fuel : Nat) (root : List Obj) (self : Nat) (hf : sizeObjs root ≤ fuel) :
    ∃ f ch, find fuel (refFilter 1 false false true false (some self)) [] root = some (f, ch, root) ∧
      (∀ v r, found (isObject self) true false root = v :: r → ch = v.chain) ∧
      (found (isObject self) true false root = [] → ch = []) := by
  have h := Verif.RefC.c61_nth_reference self root [] fuel hf 1 (by omega) false false true false
  simp only [Option.map_eq_some_iff] at h
  obtain ⟨⟨f, res, ks⟩, e1, e2⟩ := h
  have e1' : find fuel (refFilter 1 false false true false (some self)) [] root = some (f, res, ks) := by simpa using e1
  simp only [Bool.false_or] at e2
  cases hF : found (isObject self) true false root with
  | nil => rw [hF] at e2; simp at e2; exact ⟨f, res, by rw [e1', e2.2.2], by simp, fun _ => e2.2.1⟩
  | cons v r =>
    rw [hF] at e2; simp at e2
    refine ⟨f, res, by rw [e1', e2.2.2], ?_, by simp⟩
    intro v' r' h; simp only [List.cons.injEq] at h; rw [← h.1]; exact e2.2.1

theorem home_find (c : Classes) (fuel : Nat) (root : List Obj) (self : Nat) (hf : sizeObjs root ≤ fuel)
    (names : List (List Char)) (state : Nat) (h : Home c root self names state) :
    ∃ r, find fuel (refFilter 1 false false true false (some self)) [] root = some r ∧
      ((seekApp c r.2.1 []).bind fun a => (seekState c a.2).map fun s => (a.1, s)) =
        some (names.flatMap (fun w => w ++ ['.']), state) := by
  obtain ⟨v, rest, up, app, mid, st, low, hfd, hch, h1, h2, h3, h4, h5, h6⟩ := h
  obtain ⟨f, ch, e, hch', -⟩ := find_path fuel root self hf
  refine ⟨_, e, ?_⟩
  simp only [hch' v rest hfd, hch, seekApp_eq c up app _ h1 h2, Option.bind_some, seekState_eq c mid st low h3 h4, Option.map_some, h6]
  have : ((up ++ [app]).map fun o => o.name.getD []) = names := by
    have := congrArg (List.map fun n : Option (List Char) => n.getD []) h5
    simpa [List.map_map, Function.comp_def] using this
  rw [this]
  simp

theorem at_words {root : List Obj} {ws : List (List Char)} {o : Obj} (h : At root ws o) : ws ≠ [] := by
  rintro rfl; exact h

theorem path_eq (names ws : List (List Char)) (f : List Char) (h : FunctionPath names f ws) :
    names.flatMap (fun w => w ++ ['.']) ++ "Functions.".toList ++ f = joinPath (names ++ ["Functions".toList] ++ ws) := by
  rw [← dotted_eq, dotted_append _ _ h.1, h.2.2.1]
  simp

theorem look (fuel : Nat) (root : List Obj) (hc : Clear root) (hf : sizeObjs root ≤ fuel) (names ws : List (List Char))
    (hn : ∀ w ∈ names, w ≠ [] ∧ '.' ∉ w) (f : List Char) (h : FunctionPath names f ws) :
    ∃ r, findPath fuel (names.flatMap (fun w => w ++ ['.']) ++ "Functions.".toList ++ f) false root = some r ∧
      ∀ o, r = some o ↔ At root (names ++ ["Functions".toList] ++ ws) o := by
  rw [path_eq names ws f h]
  refine Verif.Web.lookup fuel root hc hf _ ⟨by simp, ?_⟩ ?_
  · intro w hw
    simp only [List.mem_append, List.mem_singleton] at hw
    rcases hw with (hw | rfl) | hw
    · exact hn w hw
    · decide
    · exact h.2.1 w hw
  · rw [← dotted_eq]; exact h.2.2.2

theorem at_size {root : List Obj} : ∀ {ws : List (List Char)} {o : Obj}, At root ws o → sizeObj o ≤ sizeObjs root := by
  have hmem : ∀ (l : List Obj) (o : Obj), o ∈ l → sizeObj o ≤ sizeObjs l := by
    intro l
    induction l with
    | nil => simp
    | cons x l ih =>
      intro o ho
      rw [sizeObjs]
      rcases List.mem_cons.mp ho with rfl | ho
      · omega
      · have := ih o ho; omega
  intro ws
  induction ws generalizing root with
  | nil => intro o h; exact h.elim
  | cons w ws ih =>
    intro o h
    by_cases h0 : ws = []
    · subst h0; exact hmem _ _ h.1
    · rw [At_cons h0] at h
      obtain ⟨x, hx, ck, -, hk, ha⟩ := h
      have h1 := ih ha
      have h2 := hmem _ _ hx
      cases x with
      | leaf => simp [Obj.kids?] at hk
      | cont i n k => simp only [Obj.kids?, Option.some.injEq] at hk; subst hk; simp only [sizeObj] at h2; omega

/-- The statefuls of a state after those of some functions have been added. -/
def addAll (c : Classes) (st : List Nat) : List Obj → List Nat
  | [] => st
  | o :: os => addAll c (addStatefuls st ((preorder o).filter fun x => c.stateful x.id)) os

theorem loop_some (c : Classes) (fuel : Nat) (root : List Obj) (hc : Clear root) (hf : sizeObjs root ≤ fuel)
    (names : List (List Char)) (hn : ∀ w ∈ names, w ≠ [] ∧ '.' ∉ w) (fs : List (List Char)) (os : List Obj)
    (h : Functions root names fs os) (tail : List (List Char)) : ∀ (gams : List Obj) (n : Nat) (st : List Nat), n = gams.length →
    functionsLoop c fuel root (names.flatMap (fun w => w ++ ['.']) ++ "Functions.".toList) (fs ++ tail) gams n st =
      functionsLoop c fuel root (names.flatMap (fun w => w ++ ['.']) ++ "Functions.".toList) tail
        (gams ++ members c.gam os) (gams ++ members c.gam os).length (addAll c st os) := by
  induction h with
  | nil => intro gams n st hl; simp [members, addAll, hl]
  | @cons f o fs os hfn _ ih =>
    intro gams n st hl
    obtain ⟨ws, hp, hat, hk⟩ := hfn
    obtain ⟨r, e, hr⟩ := look fuel root hc hf names ws hn f hp
    have hr' := (hr o).mpr hat
    subst hr'
    obtain ⟨kids, hk⟩ := Option.isSome_iff_exists.mp hk
    have hsz : sizeObjs kids ≤ fuel := by
      have := at_size hat
      cases o with
      | leaf => simp [Obj.kids?] at hk
      | cont i n k => simp only [Obj.kids?, Option.some.injEq] at hk; subst hk; simp only [sizeObj] at this; omega
    have hg := findClass_eq c.gam fuel o kids gams hk hsz
    have hs := findClass_eq c.stateful fuel o kids [] hk hsz
    rw [List.cons_append, functionsLoop, e]
    simp only [List.nil_append] at hs
    simp only [Option.bind_some, hk, Option.map_some, hg, hs]
    rw [ih _ _ _ rfl]
    simp [members, addAll]

theorem loop_none (c : Classes) (fuel : Nat) (root : List Obj) (hc : Clear root) (hf : sizeObjs root ≤ fuel)
    (names : List (List Char)) (hn : ∀ w ∈ names, w ≠ [] ∧ '.' ∉ w) (f : List Char) (h : NoFunction root names f)
    (tail : List (List Char)) (gams : List Obj) (n : Nat) (st : List Nat) :
    functionsLoop c fuel root (names.flatMap (fun w => w ++ ['.']) ++ "Functions.".toList) (f :: tail) gams n st =
      some (false, gams, n, st) := by
  obtain ⟨ws, hp, hno⟩ := h
  obtain ⟨r, e, hr⟩ := look fuel root hc hf names ws hn f hp
  rw [functionsLoop, e]
  simp only [Option.bind_some]
  cases r with
  | none => rfl
  | some o => simp [hno o ((hr o).mp rfl)]

theorem mem_addAll (c : Classes) (os : List Obj) : ∀ (st : List Nat) (i : Nat),
    i ∈ addAll c st os ↔ i ∈ st ∨ ∃ o ∈ members c.stateful os, o.id = i := by
  induction os with
  | nil => simp [addAll, members]
  | cons o os ih =>
    intro st i
    rw [addAll, ih, mem_addStatefuls]
    have : members c.stateful (o :: os) = ((preorder o).filter fun x => c.stateful x.id) ++ members c.stateful os := by simp [members]
    rw [this]
    simp only [List.mem_append]
    grind

theorem nodup_addAll (c : Classes) (os : List Obj) : ∀ (st : List Nat), st.Nodup → (addAll c st os).Nodup := by
  induction os with
  | nil => exact fun _ h => h
  | cons o os ih => intro st h; exact ih _ (nodup_addStatefuls _ _ h)

end Verif.ThreadConf
