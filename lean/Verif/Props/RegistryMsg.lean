import Verif.Model.RegistryMsg
import Verif.Proof.RegistryMsg
import Verif.Props.RefContainer
import Verif.Props.RefSearch
/-! # C94: messages to the registry of the objects -/
set_option linter.unusedSimpArgs false
namespace Verif.RefC
open Verif.Spec.RefC Verif.Spec.RegistryMsg Verif.RegistryMsg

private theorem put_self {kids o w p} (h : Place kids o w p) : p o = kids := by
  induction h with
  | here => rfl
  | under pre i n post _ ih => simp [ih]

private theorem size_append (a b : List Obj) : sizeObjs (a ++ b) + 1 = sizeObjs a + sizeObjs b := by
  induction a with
  | nil => simp [sizeObjs]; omega
  | cons o a ih => simp only [List.cons_append, sizeObjs]; omega

private theorem put_size {kids o w p} (h : Place kids o w p) (o' : Obj) (hs : sizeObj o' ≤ sizeObj o) : sizeObjs (p o') ≤ sizeObjs kids := by
  induction h with
  | here pre o post =>
    have h1 := size_append pre (o' :: post); have h2 := size_append pre (o :: post)
    simp only [sizeObjs] at h1 h2 ⊢; omega
  | under pre i n post hP ih =>
    rename_i ck o1 w1 p1
    have h1 := size_append pre (.cont i n (p1 o') :: post); have h2 := size_append pre (.cont i n ck :: post)
    have := ih hs
    simp only [sizeObjs, sizeObj] at h1 h2 ⊢; omega

/-- A path leads to an object at a place, which `Delete` removes, also if the object has meanwhile other contents. -/
private theorem del_path (fuel : Nat) (ws : List (List Char)) (hw : Words ws) (hlen : (joinPath ws).length < 2 ^ 32) (kids : List Obj)
    (hN : Named kids) (hf : sizeObjs kids ≤ fuel) :
    ∃ r, findPath fuel (joinPath ws) false kids = some r ∧
      (r = none → deletePath fuel (joinPath ws) kids = some (false, kids)) ∧
      ∀ o, r = some o → ∃ w p, Place kids o w p ∧
        ∀ o', o'.name = o.name → sizeObj o' ≤ sizeObj o → deletePath fuel (joinPath ws) (p o') = some (true, w) := by
  have hp := sizeObjs_pos kids
  by_cases h2 : 1 < ws.length
  · rw [findPath_eq fuel ws hw h2 hlen false kids (by omega)]
    obtain ⟨m, rfl⟩ : ∃ m, fuel = m + 1 := ⟨fuel - 1, by omega⟩
    have hdel : ∀ k, deletePath (m + 1) (joinPath ws) k =
        (findLoop (m + 1) 0 (pfr ws 1 true) [] k).map fun r => (decide (r.2.1.length > 0), r.2.2) := by
      intro k
      unfold deletePath nameFilter
      rw [setAddress_join ws hw hlen]
      simp only [gt_iff_lt, h2, if_true]
      rw [find_eq_loop m _ k (by simp [Filter.setMode])]
      rfl
    rcases rm_loop ws h2 (m + 1) kids [] [] true hf hN with ⟨b', r', hr, e, eE⟩ | ⟨init, o, w, p, e, hi, hP, eE⟩
    · have hr' : r' = [] := by rcases hr with h | h <;> exact h
      subst hr'
      obtain ⟨rE, hx, eE⟩ := eE [] rfl
      have : rE = [] := by rcases hx with ⟨_, h⟩ | ⟨_, h⟩ <;> exact h
      subst this
      simp only [List.length_nil, List.nil_append] at e eE
      refine ⟨none, ?_, ?_, by intro o h; simp at h⟩
      · rw [show (0 : Int) = ((0 : Nat) : Int) from rfl, e]; rfl
      · intro _; rw [hdel, show (0 : Int) = ((0 : Nat) : Int) from rfl, eE]; rfl
    · simp only [List.length_nil, List.nil_append] at e eE
      refine ⟨some o, ?_, by intro h; simp at h, ?_⟩
      · rw [show (0 : Int) = ((0 : Nat) : Int) from rfl, e]; simp
      · intro o1 ho1
        simp only [Option.some.injEq] at ho1; subst ho1
        refine ⟨w, p, hP, ?_⟩
        intro o' hn _
        obtain ⟨rE, hl, e'⟩ := eE o' [] hn rfl
        rw [hdel, show (0 : Int) = ((0 : Nat) : Int) from rfl, e']
        simp [hl]; omega
  · obtain ⟨w, rfl⟩ : ∃ w, ws = [w] := by
      match ws with
      | [] => exact absurd rfl hw.1
      | [w] => exact ⟨w, rfl⟩
      | _ :: _ :: _ => simp at h2
    have hw' : w ≠ [] ∧ '.' ∉ w := hw.2 w (by simp)
    have hj : joinPath [w] = w := rfl
    rw [hj] at hlen ⊢
    have hq : ∀ o : Obj, Verif.Spec.RefSearch.hasName w o = (o.name == some w) := by
      intro o; cases o <;> rfl
    refine ⟨_, (c07_single_name fuel w hw hlen kids hf).1, ?_, ?_⟩
    · intro h
      rw [c61_delete_name w hw' hlen kids fuel hf]
      rw [List.find?_eq_none] at h
      have h1 : kids.any (Verif.Spec.RefSearch.hasName w) = false := by
        rw [List.any_eq_false]; intro x hx; rw [hq]; exact h x hx
      rw [h1, List.eraseP_of_forall_not (fun x hx => by rw [hq]; exact h x hx)]
    · intro o ho
      obtain ⟨hpo, pre, post, rfl, hpre⟩ := List.find?_eq_some_iff_append.mp ho
      refine ⟨_, _, Place.here pre o post, ?_⟩
      intro o' hn hs
      have hs' := put_size (Place.here pre o post) o' hs
      rw [c61_delete_name w hw' hlen _ fuel (Nat.le_trans hs' hf)]
      have ho' : Verif.Spec.RefSearch.hasName w o' = true := by rw [hq, hn]; exact hpo
      have hpre' : ∀ x ∈ pre, ¬ Verif.Spec.RefSearch.hasName w x = true := by
        intro x hx; rw [hq]; have := hpre x hx; simpa using this
      rw [List.eraseP_append_right _ hpre']
      simp [ho']

/-- **C94** (and C61: `Delete` with a path). `Delete(path)` removes from the tree exactly the object that `Find(path)` finds, at one
place, and nothing else; if nothing is found it answers false and changes nothing. -/
theorem c94_delete (fuel : Nat) (ws : List (List Char)) (hw : Words ws) (hlen : (joinPath ws).length < 2 ^ 32) (kids : List Obj)
    (hN : Named kids) (hf : sizeObjs kids ≤ fuel) :
    (findPath fuel (joinPath ws) false kids = some none ∧ deletePath fuel (joinPath ws) kids = some (false, kids)) ∨
    ∃ o w p, findPath fuel (joinPath ws) false kids = some (some o) ∧ Place kids o w p ∧ deletePath fuel (joinPath ws) kids = some (true, w) := by
  obtain ⟨r, e, h1, h2⟩ := del_path fuel ws hw hlen kids hN hf
  cases r with
  | none => exact .inl ⟨e, h1 rfl⟩
  | some o =>
    obtain ⟨w, p, hP, h3⟩ := h2 o rfl
    refine .inr ⟨o, w, p, e, hP, ?_⟩
    have := h3 o rfl (Nat.le_refl _)
    rwa [put_self hP] at this

private theorem ids_append (a b : List Obj) : ids (a ++ b) = ids a ++ ids b := by
  induction a with
  | nil => rfl
  | cons o a ih => simp [ids, ih]

mutual
private theorem updObj_absent (i : Nat) (g : List Obj → List Obj) : ∀ o : Obj, i ∉ idsOf o → updObj i g o = o
  | .leaf _ _, _ => rfl
  | .cont j n k, h => by
    simp only [idsOf, List.mem_cons, not_or] at h
    rw [updObj, if_neg (fun e => h.1 e.symm), upd_absent i g k h.2]
private theorem upd_absent (i : Nat) (g : List Obj → List Obj) : ∀ l : List Obj, i ∉ ids l → upd i g l = l
  | [], _ => rfl
  | o :: os, h => by
    simp only [ids, List.mem_append, not_or] at h
    rw [upd, updObj_absent i g o h.1, upd_absent i g os h.2]
end

private theorem upd_append (i : Nat) (g : List Obj → List Obj) (a b : List Obj) : upd i g (a ++ b) = upd i g a ++ upd i g b := by
  induction a with
  | nil => rfl
  | cons o a ih => simp [upd, ih]

private theorem id_mem (o : Obj) : o.id ∈ idsOf o := by cases o <;> simp [Obj.id, idsOf]

private theorem place_id {kids o w p} (h : Place kids o w p) : o.id ∈ ids kids := by
  induction h with
  | here pre o post => rw [ids_append]; simp [ids, id_mem]
  | under pre i n post _ ih => rw [ids_append]; simp [ids, idsOf, ih]

private theorem upd_place {kids o w p} (g : List Obj → List Obj) (h : Place kids o w p) (hd : (ids kids).Nodup) (ck : List Obj)
    (hk : o.kids? = some ck) : upd o.id g kids = p (o.withKids (g ck)) := by
  induction h with
  | here pre o post =>
    rw [ids_append, ids, List.nodup_append] at hd
    obtain ⟨_, hd2, hd3⟩ := hd
    rw [List.nodup_append] at hd2
    rw [upd_append, upd, upd_absent _ _ pre (fun hm => hd3 _ hm _ (by simp [id_mem]) rfl),
      upd_absent _ _ post (fun hm => hd2.2.2 _ (id_mem o) _ hm rfl)]
    cases o with
    | leaf i n => simp [Obj.kids?] at hk
    | cont i n k =>
      simp only [Obj.kids?, Option.some.injEq] at hk; subst hk
      simp [updObj, Obj.id, Obj.withKids]
  | under pre i n post hP ih =>
    rename_i ck1 o1 w1 p1
    have hm1 := place_id hP
    rw [ids_append, ids, List.nodup_append] at hd
    obtain ⟨_, hd2, hd3⟩ := hd
    rw [List.nodup_append] at hd2
    obtain ⟨hd4, _, hd5⟩ := hd2
    have hin : o1.id ∈ idsOf (.cont i n ck1) := by simp [idsOf, hm1]
    rw [upd_append, upd, upd_absent _ _ pre (fun hm => hd3 _ hm _ (by simp [hin]) rfl),
      upd_absent _ _ post (fun hm => hd5 _ hin _ hm rfl)]
    rw [idsOf, List.nodup_cons] at hd4
    rw [updObj, if_neg (fun e => hd4.1 (by rw [e]; exact hm1)), ih hd4.2 hk]

private theorem join_pos (ws : List (List Char)) (hw : Words ws) : (joinPath ws).length ≠ 0 := by
  obtain ⟨c, r, h, _⟩ := join_head ws hw
  rw [h]; simp

/-- **C94.** `purge` with the path of an object removes that object, with all it contains, and nothing else; a path that leads to
nothing is an error of the parameters and changes nothing. -/
theorem c94_purge_partial (fuel : Nat) (ws : List (List Char)) (hw : Words ws) (hlen : (joinPath ws).length < 2 ^ 32) (kids : List Obj)
    (hN : Named kids) (hd : (ids kids).Nodup) (hf : sizeObjs kids ≤ fuel) (built : Option (Bool × List Obj)) :
    (findPath fuel (joinPath ws) false kids = some none ∧
      consume fuel ⟨"purge".toList, joinPath ws, built⟩ kids = some (.parametersError, kids)) ∨
    ∃ o w p, findPath fuel (joinPath ws) false kids = some (some o) ∧ Place kids o w p ∧
      consume fuel ⟨"purge".toList, joinPath ws, built⟩ kids = some (.none, w) := by
  have hpos := join_pos ws hw
  obtain ⟨r, e, h1, h2⟩ := del_path fuel ws hw hlen kids hN hf
  generalize hg : "purge".toList = g
  unfold consume
  simp only [hpos, if_false, e, Option.bind_some]
  cases r with
  | none => exact .inl ⟨rfl, rfl⟩
  | some o =>
    obtain ⟨w, p, hP, h3⟩ := h2 o rfl
    refine .inr ⟨o, w, p, rfl, hP, ?_⟩
    simp only [consume.act, hg, if_true, purge]
    cases hk : o.kids? with
    | none =>
      have := h3 o rfl (Nat.le_refl _)
      rw [put_self hP] at this
      simp [this]
    | some ck =>
      have hx : (o.withKids []).name = o.name := by cases o <;> rfl
      have hy : sizeObj (o.withKids []) ≤ sizeObj o := by
        cases o with
        | leaf i n => simp [Obj.withKids]
        | cont i n k => have := sizeObjs_pos k; simp [Obj.withKids, sizeObj, sizeObjs]; omega
      simp only [upd_place (fun _ => []) hP hd ck hk, h3 _ hx hy, Option.map_some]
      rfl

/-- **C94.** `purge` without a path empties the registry. -/
theorem c94_purge_all (fuel : Nat) (kids : List Obj) (built : Option (Bool × List Obj)) :
    consume fuel ⟨"purge".toList, [], built⟩ kids = some (.none, []) := by
  generalize hg : "purge".toList = g
  simp [consume, consume.act, hg, purge]

private theorem insertAll_eq (built kids : List Obj) : insertAll built kids = kids ++ built := by
  induction built generalizing kids with
  | nil => simp [insertAll]
  | cons o b ih =>
    have : insertAll (o :: b) kids = insertAll b (kids ++ [o]) := rfl
    rw [this, ih]; simp

/-- **C94.** `load` without a path adds the objects of the configuration after those of the registry, in order; if one of them cannot be
built (or there is no configuration) nothing is added. -/
theorem c94_load_root (fuel : Nat) (kids : List Obj) :
    (∀ objs, consume fuel ⟨"load".toList, [], some (true, objs)⟩ kids = some (.none, kids ++ objs)) ∧
    (∀ objs, consume fuel ⟨"load".toList, [], some (false, objs)⟩ kids = some (.parametersError, kids)) ∧
    consume fuel ⟨"load".toList, [], none⟩ kids = some (.parametersError, kids) := by
  have hne : ¬ "load".toList = "purge".toList := by decide
  generalize hg : "load".toList = g at hne ⊢
  generalize hh : "purge".toList = h at hne ⊢
  refine ⟨fun objs => ?_, fun objs => ?_, ?_⟩ <;> simp [consume, consume.act, hg, hh, hne, load, insertAll_eq]

/-- **C94.** `load` with the path of a container adds the objects at its end, and changes nothing else; all or nothing, as above; if the path leads to
nothing, or to an object that is no container, it is an error of the parameters. -/
theorem c94_load_partial (fuel : Nat) (ws : List (List Char)) (hw : Words ws) (hlen : (joinPath ws).length < 2 ^ 32) (kids : List Obj)
    (hN : Named kids) (hd : (ids kids).Nodup) (hf : sizeObjs kids ≤ fuel) (objs : List Obj) (ok : Bool) :
    (findPath fuel (joinPath ws) false kids = some none ∧
      consume fuel ⟨"load".toList, joinPath ws, some (ok, objs)⟩ kids = some (.parametersError, kids)) ∨
    ∃ o w p, findPath fuel (joinPath ws) false kids = some (some o) ∧ Place kids o w p ∧
      ((o.kids? = none ∨ ok = false) → consume fuel ⟨"load".toList, joinPath ws, some (ok, objs)⟩ kids = some (.parametersError, kids)) ∧
      ∀ ck, o.kids? = some ck → ok = true →
        consume fuel ⟨"load".toList, joinPath ws, some (ok, objs)⟩ kids = some (.none, p (o.withKids (ck ++ objs))) := by
  have hne : ¬ "load".toList = "purge".toList := by decide
  have hpos := join_pos ws hw
  obtain ⟨r, e, h1, h2⟩ := del_path fuel ws hw hlen kids hN hf
  generalize hg : "load".toList = g at hne ⊢
  unfold consume
  simp only [hpos, if_false, e, Option.bind_some]
  cases r with
  | none => exact .inl ⟨rfl, rfl⟩
  | some o =>
    obtain ⟨w, p, hP, h3⟩ := h2 o rfl
    refine .inr ⟨o, w, p, rfl, hP, ?_, ?_⟩
    · intro h
      simp only [consume.act, hg, hne, if_false, if_true, load]
      rcases h with h | h
      · simp [h]
      · subst h; cases o.kids? <;> simp
    · intro ck hk hok
      subst hok
      simp only [consume.act, hg, hne, if_false, if_true, load, hk, Option.isSome_some]
      rw [upd_place (insertAll objs) hP hd ck hk, insertAll_eq]

/-- **C94.** Another function is an error of the parameters, and changes nothing. -/
theorem c94_unknown (fuel : Nat) (f : List Char) (hf : f ≠ "purge".toList ∧ f ≠ "load".toList) (kids : List Obj) (built : Option (Bool × List Obj))
    (root : List Char) (hN : Named kids) (hs : sizeObjs kids ≤ fuel)
    (hr : root = [] ∨ ∃ ws, Words ws ∧ (joinPath ws).length < 2 ^ 32 ∧ root = joinPath ws) :
    consume fuel ⟨f, root, built⟩ kids = some (.parametersError, kids) := by
  obtain ⟨h1, h2⟩ := hf
  have hact : ∀ node, consume.act fuel kids ⟨f, root, built⟩ node = some (.parametersError, kids) := by
    intro node
    unfold consume.act
    rw [if_neg h1, if_neg h2]
  unfold consume
  rcases hr with rfl | ⟨ws, hw, hlen, rfl⟩
  · simp [hact]
  · have hpos := join_pos ws hw
    obtain ⟨r, e, _⟩ := del_path fuel ws hw hlen kids hN hs
    simp only [hpos, if_false, e, Option.bind_some]
    cases r with
    | none => rfl
    | some o => exact hact _

/-- **C94 (disagreement).** The names are not compared: loaded twice, a configuration is there twice, and of two objects with the same name only
the first is ever found. -/
theorem c94_twice_fails (fuel : Nat) (kids : List Obj) (w : List Char) (hw : Words [w]) (hlen : w.length < 2 ^ 32) (i j : Nat)
    (hf : sizeObjs kids + 2 ≤ fuel) (hno : ∀ o ∈ kids, o.name ≠ some w) :
    ∃ k, consume fuel ⟨"load".toList, [], some (true, [.leaf i (some w)])⟩ kids = some (.none, kids ++ [.leaf i (some w)]) ∧
      consume fuel ⟨"load".toList, [], some (true, [.leaf j (some w)])⟩ (kids ++ [.leaf i (some w)]) = some (.none, k) ∧
      k = kids ++ [.leaf i (some w), .leaf j (some w)] ∧ findPath fuel w false k = some (some (.leaf i (some w))) := by
  refine ⟨_, (c94_load_root fuel kids).1 _, (c94_load_root fuel _).1 _, by simp, ?_⟩
  have hs : sizeObjs (kids ++ [.leaf i (some w)] ++ [.leaf j (some w)]) ≤ fuel := by
    have h1 := size_append (kids ++ [.leaf i (some w)]) [.leaf j (some w)]
    have h2 := size_append kids [.leaf i (some w)]
    simp only [sizeObjs, sizeObj] at h1 h2
    omega
  rw [(c07_single_name fuel w hw hlen _ hs).1]
  have : kids.find? (fun o => o.name == some w) = none := by
    rw [List.find?_eq_none]; intro x hx; simpa using hno x hx
  have hl : ∀ m, (Obj.leaf m (some w)).name = some w := fun _ => rfl
  rw [List.find?_append, List.find?_append, this]
  simp [hl]

private def tree : List Obj :=
  [.cont 1 (some ['A']) [.cont 2 (some ['B']) [.leaf 3 (some ['X'])], .cont 4 (some ['A']) [.cont 5 (some ['B']) [.leaf 6 (some ['C'])]]]]

/-- **C94 (disagreement).** There is nothing at `A.B.C`; `purge` of it is done, and destroys `A.A.B.C` (the search of C07). -/
theorem c94_wrong_fails : (∀ o, ¬ At tree ["A".toList, "B".toList, "C".toList] o) ∧
    ∃ k, consume 40 ⟨"purge".toList, "A.B.C".toList, none⟩ tree = some (.none, k) ∧ ids tree = [1, 2, 3, 4, 5, 6] ∧ ids k = [1, 2, 3, 4, 5] := by
  constructor
  · intro o h
    simp only [At] at h
    obtain ⟨c, hc, ck, -, hk, d, hd, dk, hdn, hdk, hx, hxn⟩ := h
    simp only [tree, List.mem_singleton] at hc; subst hc
    simp only [Obj.kids?, Option.some.injEq] at hk; subst hk
    simp only [List.mem_cons, List.not_mem_nil, or_false] at hd
    rcases hd with rfl | rfl
    · simp only [Obj.kids?, Option.some.injEq] at hdk; subst hdk
      simp only [List.mem_singleton] at hx; subst hx
      simp [Obj.name] at hxn
    · simp [Obj.name] at hdn
  · have h : (consume 40 ⟨"purge".toList, "A.B.C".toList, none⟩ tree).map (fun r => (r.1, ids r.2)) = some (.none, [1, 2, 3, 4, 5]) := by decide +kernel
    cases hc : consume 40 ⟨"purge".toList, "A.B.C".toList, none⟩ tree with
    | none => rw [hc] at h; simp at h
    | some r =>
      rw [hc] at h
      simp only [Option.map_some, Option.some.injEq, Prod.mk.injEq] at h
      exact ⟨r.2, by rw [← h.1], by decide, h.2⟩

example : Named tree ∧ (ids tree).Nodup ∧ sizeObjs tree ≤ 40 ∧ Words ["A".toList, "B".toList] := by
  refine ⟨?_, by decide, by decide, by unfold Words; decide⟩
  unfold Named; decide
example : (consume 40 ⟨"purge".toList, "A.B".toList, none⟩ tree).map (fun r => (r.1, ids r.2)) = some (.none, [1, 4, 5, 6]) := by decide +kernel
example : (consume 40 ⟨"load".toList, "A.B".toList, some (true, [.leaf 9 (some ['Z'])])⟩ tree).map (fun r => (r.1, ids r.2)) =
    some (.none, [1, 2, 3, 9, 4, 5, 6]) := by decide +kernel

end Verif.RefC
