import Verif.Proof.StructData2
/-! # Structures in a configuration: reading -/
namespace Verif.ConfigDb
open Verif.Spec.ConfigDb

variable {V : Type}

/-- The next members are `D`, with the children `C`. -/
def Along (mode : Mode) (i k : Nat) (L D C : List Name) : Prop :=
  match mode with
  | .byName names => names.drop i = D
  | .byPosition b => ∃ pre, L = pre ++ C ∧ pre.length = k + b

theorem Along.next {mode : Mode} {i k : Nat} {L D C ms : List Name} {n : Name} (h : Along mode i k L (n :: D) (ms ++ C)) :
    Along mode (i + 1) (k + ms.length) L D C := by
  cases mode with
  | byName names =>
    simp only [Along] at h ⊢
    rw [← List.drop_drop, h]; rfl
  | byPosition b =>
    obtain ⟨pre, h1, h2⟩ := h
    exact ⟨pre ++ ms, by rw [h1, List.append_assoc], by simp [h2]; omega⟩

theorem Along.child {mode : Mode} {i k : Nat} {L D C : List Name} {n m : Name} (h : Along mode i k L (n :: D) (m :: C))
    {s : St V} {db : Db V} (S : Sim s db) (hr : RootName s) (hL : db.item db.cur = some (.node L)) :
    ∃ w, (w = n ∨ w = m) ∧ childFor mode s i k = some (some w) := by
  cases mode with
  | byName names =>
    simp only [Along] at h
    refine ⟨n, .inl rfl, ?_⟩
    have h1 : names[i]? = some n := by
      have := congrArg (fun l => l[0]?) h
      simpa using this
    have h2 : i < names.length := by
      have := congrArg List.length h
      simp at this; omega
    simp only [childFor, if_pos h2, h1]
  | byPosition b =>
    obtain ⟨pre, h1, h2⟩ := h
    refine ⟨m, .inr rfl, ?_⟩
    simp only [childFor]
    rw [child_name_at S hr]
    simp only [children, hL, h1, ← h2]
    simp

theorem shows_node {text : Name → V} {named : Bool} {item : List Name → Option (Item V)} {p : List Name} {x : Rec V}
    (h : Shows text named item p x) : isNode (item p) = true := by
  cases x with
  | mk c ms => simp only [Shows] at h; rw [h.1]; rfl

theorem value_node {s : St V} {db : Db V} (S : Sim s db) (hr : RootName s) {n : Name} (h : Spec.ConfigDb.isLeaf (db.item (db.cur ++ [n])) = false) :
    valueAt s (some n) = some none := by
  rw [value_at S hr]
  cases hi : db.item (db.cur ++ [n]) with
  | none => rfl
  | some y => cases y with
    | leaf v => rw [hi] at h; simp [isLeaf] at h
    | node ch => rfl

theorem leaf_of_node {y : Option (Item V)} (h : isNode y = true) : isLeaf y = false := by
  cases y with
  | none => rfl
  | some z => cases z with
    | leaf v => simp [Spec.ConfigDb.isNode] at h
    | node ch => rfl

/-- Nothing has changed but the current node, which is where it was. -/
def Same (s s' : St V) (db : Db V) : Prop := Sim s' db ∧ RootName s' ∧ Grow s s'

variable {reg : Name → Option (List Name)} {asText : V → Option Name} {conv : V → V → Option V} {text : Name → V} {named : Bool}

theorem read_child {dest x : Rec V} {n : Name} (hn : Good n)
    (ih : ∀ (s : St V) (db : Db V), Sim s db → RootName s → Shows text named db.item db.cur x →
      ∃ s', fromRec reg asText conv dest s = some (some x, s') ∧ Same s s' db)
    (s : St V) (db : Db V) (S : Sim s db) (hr : RootName s) (h : Shows text named db.item (db.cur ++ [n]) x) :
    ∃ s1 s2 s3, call s (.moveRelative n) = some (true, s1) ∧ fromRec reg asText conv dest s1 = some (some x, s2) ∧
      call s2 (.moveToAncestor 1) = some (true, s3) ∧ Same s s3 db := by
  obtain ⟨s1, e1, S1, R1, G1⟩ := do_move S hr hn (shows_node h)
  obtain ⟨s2, e2, S2, R2, G2⟩ := ih s1 _ S1 R1 h
  obtain ⟨s3, e3, S3, R3, G3⟩ := do_back S2 R2 (p := db.cur) (n := n) rfl
  exact ⟨s1, s2, s3, e1, e2, e3, S3, R3, (G1.trans G2).trans G3⟩

mutual
theorem fromRec_spec (ht : ∀ c, asText (text c) = some c) (x dest : Rec V) (hp : Proper x) (hf : Fits conv dest x) (hk : Known reg x)
    (s : St V) (db : Db V) (S : Sim s db) (hr : RootName s) (h : Shows text named db.item db.cur x) :
    ∃ s', fromRec reg asText conv dest s = some (some x, s') ∧ Same s s' db := by
  cases x with
  | mk cls ms =>
    cases dest with
    | mk cls' old =>
      simp only [Fits] at hf
      obtain ⟨rfl, hf⟩ := hf
      simp only [Proper] at hp
      obtain ⟨hnd, hcl, hok, hpm⟩ := hp
      simp only [Known] at hk
      simp only [Shows] at h
      obtain ⟨h1, h2, h3⟩ := h
      have run : ∀ mode, Along mode 0 0 ((if named then ["Class".toList] else []) ++ childNames ms) (memberNames ms) (childNames ms) →
          ∃ s', fromMems reg asText conv mode 0 0 old s = some (some ms, s') ∧ Same s s' db := by
        intro mode hal
        exact fromMems_spec ht ms old mode 0 0 _ _ hpm (by
          intro n g1 g2 hm
          rw [List.mem_append] at hm
          rcases hm with hm | hm
          · cases named
            · simp at hm
            · simp only [if_true, List.mem_singleton] at hm; exact g2 hm
          · exact g1 hm) hok hf hk.2 s db S hr h1 hal h3
      have fin : ∀ mode c, valueAt s (some "Class".toList) = some c → modeOf reg (c.bind asText) = mode →
          Along mode 0 0 ((if named then ["Class".toList] else []) ++ childNames ms) (memberNames ms) (childNames ms) →
          ∃ s', fromRec reg asText conv (.mk cls' old) s = some (some (.mk cls' ms), s') ∧ Same s s' db := by
        intro mode c hv hm hal
        obtain ⟨s', e, hs⟩ := run mode hal
        refine ⟨s', ?_, hs⟩
        simp only [fromRec, hv, Option.bind_some, hm, e, Option.map_some]
      cases named with
      | false =>
        refine fin (.byPosition 0) none ?_ rfl ⟨[], by simp, rfl⟩
        refine value_node S hr ?_
        rw [S.rr.child_none h1 (by simpa using hcl)]; rfl
      | true =>
        have hv : valueAt s (some "Class".toList) = some (some (text cls')) := by
          rw [value_at S hr, h2 rfl]
        rcases hk.1 with hk1 | hk1
        · exact fin (.byName (memberNames ms)) _ hv (by simp only [modeOf, Option.bind_some, ht, hk1]) (by simp [Along])
        · exact fin (.byPosition 1) _ hv (by simp only [modeOf, Option.bind_some, ht, hk1]) ⟨["Class".toList], by simp, rfl⟩

theorem fromMems_spec (ht : ∀ c, asText (text c) = some c) (ms old : Mems V) (mode : Mode) (i k : Nat) (L all : List Name)
    (hm : ProperMembers all ms) (hL : ∀ n, n ∉ all → n ≠ "Class".toList → n ∉ L)
    (hok : ∀ n ∈ childNames ms, NameOk n) (hf : FitsMembers conv old ms) (hk : KnownMembers reg ms)
    (s : St V) (db : Db V) (S : Sim s db) (hr : RootName s) (hc : db.item db.cur = some (.node L))
    (ha : Along mode i k L (memberNames ms) (childNames ms)) (h : ShowsMembers text named db.item db.cur ms) :
    ∃ s', fromMems reg asText conv mode i k old s = some (some ms, s') ∧ Same s s' db := by
  cases ms with
  | nil =>
    cases old <;> simp only [FitsMembers] at hf
    exact ⟨s, rfl, S, hr, Grow.refl s⟩
  | basic n v rest =>
    cases old <;> simp only [FitsMembers] at hf
    rename_i n' old orest
    obtain ⟨rfl, hv, hf⟩ := hf
    simp only [ProperMembers] at hm
    simp only [KnownMembers] at hk
    simp only [ShowsMembers] at h
    simp only [childNames, List.mem_cons, forall_eq_or_imp] at hok
    simp only [memberNames, childNames] at ha
    obtain ⟨w, hw, e1⟩ := ha.child S hr hc
    have : w = n' := by simpa using hw
    subst this
    obtain ⟨s', e2, hs⟩ := fromMems_spec ht rest orest mode (i + 1) (k + 1) L all hm hL hok.2 hf hk s db S hr hc
      (ha.next (ms := [w])) h.2
    refine ⟨s', ?_, hs⟩
    simp only [fromMems, e1, Option.bind_some, value_at S hr, h.1, hv, e2, Option.map_some]
  | one n x rest =>
    cases old <;> simp only [FitsMembers] at hf
    rename_i n' old orest
    obtain ⟨rfl, hv, hf⟩ := hf
    simp only [ProperMembers] at hm
    simp only [KnownMembers] at hk
    simp only [ShowsMembers] at h
    simp only [childNames, List.mem_cons, forall_eq_or_imp] at hok
    simp only [memberNames, childNames] at ha
    obtain ⟨w, hw, e1⟩ := ha.child S hr hc
    have : w = n' := by simpa using hw
    subst this
    obtain ⟨s1, s2, s3, a1, a2, a3, S3, R3, G3⟩ := read_child (n := w) hok.1 (fromRec_spec ht x old hm.1 hv hk.1) s db S hr h.1
    obtain ⟨s', e2, S4, R4, G4⟩ := fromMems_spec ht rest orest mode (i + 1) (k + 1) L all hm.2 hL hok.2 hf hk.2 s3 db S3 R3 hc
      (ha.next (ms := [w])) h.2
    refine ⟨s', ?_, S4, R4, G3.trans G4⟩
    simp only [fromMems, e1, Option.bind_some, value_node S hr (leaf_of_node (shows_node h.1)), Option.isSome_none, Bool.false_eq_true, if_false,
      moveRel, Option.getD_some, a1, if_true, a2, a3, e2, Option.map_some]
  | many n dims xs rest =>
    cases old <;> simp only [FitsMembers] at hf
    rename_i n' dims' old orest
    obtain ⟨rfl, rfl, hv, hf⟩ := hf
    simp only [ProperMembers] at hm
    simp only [KnownMembers] at hk
    simp only [ShowsMembers] at h
    simp only [childNames, List.mem_append] at hok
    simp only [memberNames, childNames] at ha
    have hne : (tuples dims').map (element n') ≠ [] := by simpa using hm.2.2.2.2.1
    have hlen : (indexNames n' dims').length = ((tuples dims').map (element n')).length := by rw [indexNames_eq]
    have hel := hm.2.2.2.2.2.1
    obtain ⟨s1, a1, S1, R1, G1⟩ := fromRecs_spec ht xs old (tuples dims') ((tuples dims').map (element n')) (by simp) hel
      (fun m hm => hok m (.inl hm)) hv hk.1 s db S hr h.1
    have hno : n' ∉ L := hL n' hm.1 hm.2.1
    have hfirst : ∃ m ns, (tuples dims').map (element n') = m :: ns := List.exists_cons_of_ne_nil hne
    obtain ⟨m, ns, hmn⟩ := hfirst
    have hnode : isLeaf (db.item (db.cur ++ [m])) = false := by
      have h1 := h.1
      rw [hmn] at h1
      cases xs with
      | nil => simp [ShowsElements] at h1
      | cons x xs => simp only [ShowsElements] at h1; exact leaf_of_node (shows_node h1.1)
    obtain ⟨w, hw, e1⟩ := (by rw [hmn] at ha; exact ha : Along mode i k L (n' :: memberNames rest) (m :: ns ++ childNames rest)).child S hr hc
    have hval : valueAt s (some w) = some none := by
      refine value_node S hr ?_
      rcases hw with rfl | rfl
      · rw [S.rr.child_none hc hno]; rfl
      · exact hnode
    obtain ⟨s', e2, S4, R4, G4⟩ := fromMems_spec ht rest orest mode (i + 1) (k + ((tuples dims').map (element n')).length) L all
      hm.2.2.2.2.2.2 hL (fun m hm => hok m (.inr hm)) hf hk.2 s1 db S1 R1 hc ha.next h.2
    refine ⟨s', ?_, S4, R4, G1.trans G4⟩
    rw [← indexNames_eq] at a1
    simp only [fromMems, e1, Option.bind_some, hval, Option.isSome_none, Bool.false_eq_true, if_false, a1, hlen, e2, Option.map_some]

theorem fromRecs_spec (ht : ∀ c, asText (text c) = some c) (xs old : Recs V) (ts : List (List Nat)) (ns : List Name)
    (hl : ns.length = ts.length) (hm : ProperElements ts xs)
    (hok : ∀ n ∈ ns, NameOk n) (hf : FitsElements conv old xs) (hk : KnownElements reg xs)
    (s : St V) (db : Db V) (S : Sim s db) (hr : RootName s) (h : ShowsElements text named db.item db.cur ns xs) :
    ∃ s', fromRecs reg asText conv ns old s = some (some xs, s') ∧ Same s s' db := by
  cases xs with
  | nil =>
    cases old <;> simp only [FitsElements] at hf
    exact ⟨s, by cases ns <;> rfl, S, hr, Grow.refl s⟩
  | cons x xs =>
    cases old <;> simp only [FitsElements] at hf
    rename_i old olds
    cases ts with
    | nil => simp [ProperElements] at hm
    | cons t ts =>
      cases ns with
      | nil => simp at hl
      | cons n ns =>
        simp only [ProperElements] at hm
        simp only [KnownElements] at hk
        simp only [ShowsElements] at h
        simp only [List.mem_cons, forall_eq_or_imp] at hok
        obtain ⟨s1, s2, s3, a1, a2, a3, S3, R3, G3⟩ := read_child (n := n) hok.1 (fromRec_spec ht x old hm.1 hf.1 hk.1) s db S hr h.1
        obtain ⟨s', e2, S4, R4, G4⟩ := fromRecs_spec ht xs olds ts ns (by simpa using hl) hm.2 hok.2 hf.2 hk.2 s3 db S3 R3 h.2
        refine ⟨s', ?_, S4, R4, G3.trans G4⟩
        simp only [fromRecs, a1, Option.bind_some, if_true, a2, a3, e2, Option.map_some]
end

end Verif.ConfigDb
