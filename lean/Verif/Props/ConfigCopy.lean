import Verif.Proof.ConfigCopy
import Verif.Props.ConfigDb

namespace Verif.ConfigDb
open Verif.Spec.ConfigDb

variable {V : Type}

/-- Two new databases, the source after the calls `opsS` and the destination after the calls `opsD`; then
`source.Copy(destination)`: the flag returned, and the results of the calls made afterwards on the two databases. -/
def copied (fuel : Nat) (opsS opsD restS restD : List (Op V)) : Option (Bool × List (Out V) × List (Out V)) :=
  (run (init : St V) opsS).bind fun s =>
  (run (init : St V) opsD).bind fun d =>
  (copy fuel s.2 d.2).bind fun r =>
  (run r.2.1 restS).bind fun rs =>
  (run r.2.2 restD).bind fun rd =>
  some (r.1, rs.1, rd.1)

private theorem start (ops : List (Op V)) (ha : allAllowed (empty : Db V) ops = true) :
    ∃ s, run (init : St V) ops = some ((Spec.ConfigDb.run empty ops).1, s) ∧ Sim s (tree ops) ∧ RootName s :=
  sim_run sim_init ⟨rfl, Nat.zero_lt_one⟩ ops ha

private theorem tame_tree (ops : List (Op V)) (ha : allAllowed (empty : Db V) ops = true) : Tame (tree ops).item :=
  tame_run sim_init ⟨rfl, Nat.zero_lt_one⟩ tame_empty ops ha

private theorem finish {fuel : Nat} {opsS opsD restS restD : List (Op V)} {s d s' d' : St V} {oS oD : List (Out V)} {b : Bool}
    {x y : Db V} (h1 : run (init : St V) opsS = some (oS, s)) (h2 : run (init : St V) opsD = some (oD, d))
    (h3 : copy fuel s d = some (b, s', d')) (S : Sim s' x) (hr : RootName s') (S2 : Sim d' y) (hr2 : RootName d')
    (ha : allAllowed x restS = true) (hb : allAllowed y restD = true) :
    copied fuel opsS opsD restS restD = some (b, (Spec.ConfigDb.run x restS).1, (Spec.ConfigDb.run y restD).1) := by
  obtain ⟨_, e1, _⟩ := sim_run S hr restS ha
  obtain ⟨_, e2, _⟩ := sim_run S2 hr2 restD hb
  simp only [copied, h1, h2, h3, e1, e2, Option.bind_some]

private theorem deep_from {item : List Name → Option (Item V)} (T : Tame item) (p : List Name) :
    ∃ D, ∀ q, item q ≠ none → q.length ≤ p.length + D := by
  obtain ⟨D, hD⟩ := T.deep
  exact ⟨D, fun q h => by have := hD q h; omega⟩

private theorem at_end {s d : St V} {sdb : Db V} (S : Sim s sdb) (fuel : Nat) :
    copyFrom (fuel + 1) s d (children sdb.item sdb.cur).length = some (true, s, d) := by
  obtain ⟨c, hcur, hc⟩ := S.cur
  simp only [copyFrom, hcur, Option.bind_some, get]
  rw [S.rr.children hc, List.length_map, List.getElem?_eq_none (Nat.le_refl _)]

/-- **C88.** `Copy` puts below the current node of the destination everything that is below the current node of the source: values
and nodes, at every depth, in the same order.  Values that were there under the same name are replaced, everything else
in the destination stays, the source and the two current nodes are the same as before.  This holds for every history of the two
databases (with the paths of C36) in which no node of the source meets something of the same name in the destination. -/
theorem c88_copy_partial (opsS opsD : List (Op V)) (hs : allAllowed (empty : Db V) opsS = true)
    (hd : allAllowed (empty : Db V) opsD = true) (hcl : ∀ n, ¬ Clash (tree opsD) (tree opsS) n) :
    ∃ N, ∀ fuel, N ≤ fuel → ∀ restS restD, allAllowed (tree opsS) restS = true →
      allAllowed (overlay (tree opsD) (tree opsS) (children (tree opsS).item (tree opsS).cur)) restD = true →
      copied fuel opsS opsD restS restD = some (true, (Spec.ConfigDb.run (tree opsS) restS).1,
        (Spec.ConfigDb.run (overlay (tree opsD) (tree opsS) (children (tree opsS).item (tree opsS).cur)) restD).1) := by
  obtain ⟨s, e1, S, hr⟩ := start opsS hs
  obtain ⟨d, e2, Sd, hrd⟩ := start opsD hd
  have T := tame_tree opsS hs
  obtain ⟨D, hD⟩ := deep_from T (tree opsS).cur
  obtain ⟨N, s', d', hN, S', hr', Sd', hrd'⟩ := copy_prefix D s d (tree opsS) (tree opsD) 0
    (children (tree opsS).item (tree opsS).cur) [] S hr Sd hrd T hD (by simp) (fun n _ => hcl n)
  refine ⟨N + (children (tree opsS).item (tree opsS).cur).length + 1, fun fuel hf restS restD ha hb => ?_⟩
  refine finish e1 e2 ?_ S' hr' Sd' hrd' ha hb
  unfold copy
  obtain ⟨f, rfl⟩ : ∃ f, fuel = f + 1 + (children (tree opsS).item (tree opsS).cur).length :=
    ⟨fuel - 1 - (children (tree opsS).item (tree opsS).cur).length, by omega⟩
  rw [hN (f + 1) (by omega), Nat.zero_add, at_end S']

/-- **C88.** A node of the source whose name is already in the destination makes `Copy` fail there: the children before it have
been copied, it and those after it have not, the source is as before, and the current node of the destination is the
parent of what it was (the root stays the root). -/
theorem c88_clash (opsS opsD : List (Op V)) (hs : allAllowed (empty : Db V) opsS = true)
    (hd : allAllowed (empty : Db V) opsD = true) (pre post : List Name) (n : Name)
    (hch : children (tree opsS).item (tree opsS).cur = pre ++ n :: post)
    (hpre : ∀ m ∈ pre, ¬ Clash (tree opsD) (tree opsS) m) (hn : Clash (tree opsD) (tree opsS) n) :
    ∃ N, ∀ fuel, N ≤ fuel → ∀ restS restD, allAllowed (tree opsS) restS = true →
      allAllowed { overlay (tree opsD) (tree opsS) pre with cur := (tree opsD).cur.dropLast } restD = true →
      copied fuel opsS opsD restS restD = some (false, (Spec.ConfigDb.run (tree opsS) restS).1,
        (Spec.ConfigDb.run { overlay (tree opsD) (tree opsS) pre with cur := (tree opsD).cur.dropLast } restD).1) := by
  obtain ⟨s, e1, S, hr⟩ := start opsS hs
  obtain ⟨d, e2, Sd, hrd⟩ := start opsD hd
  have T := tame_tree opsS hs
  obtain ⟨D, hD⟩ := deep_from T (tree opsS).cur
  obtain ⟨N, s', d', hN, S', hr', Sd', hrd'⟩ := copy_prefix D s d (tree opsS) (tree opsD) 0
    pre (n :: post) S hr Sd hrd T hD (by simpa using hch) hpre
  obtain ⟨c, hcur, hc⟩ := S'.cur
  have ok := S'.rr.inv.ok _ _ hc
  have hchs := S'.rr.children hc
  have hi : ((s'.heap c).ents.map (entName s'.heap))[pre.length]? = some n := by rw [← hchs, hch]; simp
  have hnpre : n ∉ pre := by
    have h0 : (pre ++ n :: post).Nodup := by rw [← hch, hchs]; exact nodup_of_mapOk ok.map
    intro h
    rw [List.nodup_append] at h0
    exact h0.2.2 n h n (by simp) rfl
  rw [List.getElem?_map] at hi
  cases hx : (s'.heap c).ents[pre.length]? with
  | none => rw [hx] at hi; simp at hi
  | some e =>
  rw [hx] at hi
  simp only [Option.map_some, Option.some.injEq] at hi
  have hce : child s'.heap c n = some e := by rw [← hi]; exact find_of_idx ok.map hx
  have hitem : (tree opsS).item ((tree opsS).cur ++ [n]) = some (content s'.heap e) := by rw [S'.rr.item_child hc, hce]; rfl
  cases e with
  | leaf m v => have := hn.1; rw [hitem] at this; simp [content, isNode] at this
  | node j =>
    simp only [entName] at hi
    have hg : Good n := T.node _ _ hn.1
    have hov : (overlay (tree opsD) (tree opsS) pre).item ((tree opsD).cur ++ [n]) ≠ none := by
      rw [overlay_below, if_neg hnpre]; exact hn.2
    obtain ⟨d1, c1, S1, hr1⟩ := call_sim Sd' hrd' (.createRelative n) (by
      simp only [allowed, hg.path, hg.names, through_one, Bool.not_false, Bool.and_true])
    have est : Spec.ConfigDb.step (overlay (tree opsD) (tree opsS) pre) (.createRelative n) =
        (.flag false, overlay (tree opsD) (tree opsS) pre) := by
      simp only [Spec.ConfigDb.step, create, hg.names]
      rw [if_neg (fun h => hov h.2)]
    rw [est] at c1 S1
    obtain ⟨s1, c2, S2, hr2⟩ := call_sim S' hr' (.moveRelative n) hg.path
    have est2 : Spec.ConfigDb.step (tree opsS) (.moveRelative n) =
        (.flag true, { tree opsS with cur := (tree opsS).cur ++ [n] }) := by
      simp only [Spec.ConfigDb.step, moveTo, hg.names]
      rw [if_pos ⟨by simp, hn.1⟩]
    rw [est2] at c2 S2
    obtain ⟨s3, c4, S5, hr5⟩ := call_sim S2 hr2 (.moveToAncestor 1) rfl
    rw [back _ (tree opsS).cur n rfl] at c4 S5
    obtain ⟨d3, c5, S6, hr6⟩ := call_sim S1 hr1 (.moveToAncestor 1) rfl
    have est5 : (Spec.ConfigDb.step (overlay (tree opsD) (tree opsS) pre) (.moveToAncestor 1)).2 =
        { overlay (tree opsD) (tree opsS) pre with cur := (tree opsD).cur.dropLast } := by
      simp only [Spec.ConfigDb.step]
      split
      · simp [overlay, List.dropLast_eq_take]
      · rename_i h
        have : (tree opsD).cur = [] := by
          cases h0 : (tree opsD).cur with
          | nil => rfl
          | cons a b => exfalso; apply h; simp [overlay, h0]
        refine db_eq ?_ (fun _ => rfl)
        simp [overlay, this]
    rw [est5] at S6
    refine ⟨N + pre.length + 1, fun fuel hf restS restD ha hb => ?_⟩
    refine finish e1 e2 ?_ S5 hr5 S6 hr6 ha hb
    unfold copy
    obtain ⟨f, rfl⟩ : ∃ f, fuel = f + 1 + pre.length := ⟨fuel - 1 - pre.length, by omega⟩
    rw [hN (f + 1) (by omega), Nat.zero_add]
    simp only [flagOf] at c1 c2 c4
    rw [round_node f hcur hx (by rw [hi]; exact c1) (by rw [hi]; exact c2) (b3 := false) (s2 := s1) (d2 := d1)
      (by simp) c4 c5]
    simp

/-- **C88.** A whole database copied into a new one: every further history of calls has the same results on the copy as on
the original. -/
theorem c88_clone (ops rest : List (Op V)) (hs : allAllowed (empty : Db V) ops = true) (hroot : (tree ops).cur = [])
    (ha : allAllowed (tree ops) rest = true) :
    ∃ N, ∀ fuel, N ≤ fuel → copied fuel ops [] rest rest =
      some (true, (Spec.ConfigDb.run (tree ops) rest).1, (Spec.ConfigDb.run (tree ops) rest).1) := by
  obtain ⟨s, e1, S, hr⟩ := start ops hs
  have heq : overlay (tree ([] : List (Op V))) (tree ops) (children (tree ops).item (tree ops).cur) = tree ops := by
    have hte : tree ([] : List (Op V)) = empty := rfl
    have hce : children (empty : Db V).item [] = [] := rfl
    refine db_eq (by rw [hroot]; rfl) fun q => ?_
    rw [hte]
    cases q with
    | nil =>
      have := overlay_at (empty : Db V) (tree ops) (children (tree ops).item (tree ops).cur)
      simp only [show (empty : Db V).cur = [] from rfl, hce] at this
      rw [this, hroot]
      obtain ⟨c, _, hc⟩ := S.cur
      rw [hroot] at hc
      rw [S.rr.children hc, ← S.rr.view, view, hc]
      simp [content]
    | cons n r =>
      have := overlay_below (empty : Db V) (tree ops) (children (tree ops).item (tree ops).cur) n r
      simp only [show (empty : Db V).cur = [] from rfl, hroot, List.nil_append] at this
      rw [hroot, this]
      split
      · rfl
      · rename_i hn
        have hnode : ∃ ch, (tree ops).item [] = some (.node ch) := by
          have := S.isNode
          rw [hroot] at this
          cases h : (tree ops).item [] with
          | none => rw [h] at this; simp [isNode] at this
          | some x =>
            cases x with
            | leaf v => rw [h] at this; simp [isNode] at this
            | node ch => exact ⟨ch, rfl⟩
        obtain ⟨ch, hch⟩ := hnode
        have h1 := S.rr.child_none hch (m := n) (by simpa [children, hch] using hn)
        have h2 := S.rr.none_below h1 r
        rw [show [] ++ [n] ++ r = n :: r by simp] at h2
        rw [h2]
        simp [empty]
  obtain ⟨N, hN⟩ := c88_copy_partial ops [] hs rfl (by
    intro n h
    apply h.2
    simp [tree, Spec.ConfigDb.run, empty])
  refine ⟨N, fun fuel hf => ?_⟩
  have := hN fuel hf rest rest ha (by rw [heq]; exact ha)
  rw [this, heq]

/-- The source of the examples: a value, and a node with a node with a value. -/
private def src : List (Op Nat) :=
  [.write ['v'] 1, .createAbsolute ['a', '.', 'b'], .write ['w'] 2, .moveToRoot, .write ['z'] 4]

/-- The hypotheses are met: a copy of two levels below a node that has a value of the same name and another node. -/
example : copied 40 src [.createAbsolute ['d'], .write ['v'] 7, .createRelative ['e'], .moveToAncestor 1]
    [.getNumberOfChildren] [.getName, .getNumberOfChildren, .getChildName 0, .getChildName 1, .getChildName 2, .read ['v'],
      .moveRelative ['a', '.', 'b'], .read ['w']] =
    some (true, [.size 3], [.name (some ['d']), .size 4, .name (some ['v']), .name (some ['e']), .name (some ['a']), .value (some 1),
      .flag true, .value (some 2)]) := by decide +kernel

/-- **C88, disagreement.** A `Copy` that fails does not leave the destination where it was: its current node is now the parent, and
the value `v` that had been copied is not found from there. -/
theorem c88_lost_place_fails :
    copied 40 src [.createAbsolute ['d', '.', 'a'], .moveToAncestor 1] [] [.getName, .read ['v'], .moveRelative ['d'], .read ['v'], .read ['z']] =
      some (false, [], [.name (some []), .value none, .flag true, .value (some 1), .value none]) := by decide +kernel

end Verif.ConfigDb
