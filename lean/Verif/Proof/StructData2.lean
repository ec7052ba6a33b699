import Verif.Proof.StructData
/-! # Structures in a configuration: writing -/
namespace Verif.ConfigDb
open Verif.Spec.ConfigDb

variable {V : Type}

theorem not_below_other {p : List Name} {n m : Name} (h : n ≠ m) (r : List Name) : ¬ (p ++ [n]) <+: (p ++ m :: r) := by
  intro hp
  rw [List.prefix_append_right_inj] at hp
  obtain ⟨t, ht⟩ := hp
  simp at ht
  exact h ht.1

theorem not_below_self {p : List Name} {n : Name} : ¬ (p ++ [n]) <+: p := by
  intro h; have := h.length_le; simp at this; omega

theorem below_eq {p : List Name} {n : Name} {q : List Name} (h : (p ++ [n]) <+: q) : ∃ r, q = p ++ n :: r := by
  obtain ⟨r, rfl⟩ := h; exact ⟨r, by simp⟩

/-- Children have been added to the node at `p`; the rest is as it was. -/
structure Added (item item' : List Name → Option (Item V)) (p : List Name) (ns : List Name) : Prop where
  node : item' p = some (.node (children item p ++ ns))
  rest : ∀ q, q ≠ p → (∀ n ∈ ns, ¬ (p ++ [n]) <+: q) → item' q = item q

theorem Added.children {item item' : List Name → Option (Item V)} {p ns} (A : Added item item' p ns) :
    children item' p = children item p ++ ns := by
  conv => lhs; unfold Spec.ConfigDb.children
  rw [A.node]

theorem Added.trans {a b c : List Name → Option (Item V)} {p ns ms} (A : Added a b p ns) (B : Added b c p ms) :
    Added a c p (ns ++ ms) := by
  refine ⟨by rw [B.node, A.children, List.append_assoc], fun q hq h => ?_⟩
  rw [B.rest q hq (fun n hn => h n (List.mem_append_right _ hn)), A.rest q hq (fun n hn => h n (List.mem_append_left _ hn))]

theorem Added.other {a b : List Name → Option (Item V)} {p ns} (A : Added a b p ns) {m : Name} (hm : m ∉ ns) (r : List Name) :
    b (p ++ m :: r) = a (p ++ m :: r) := by
  refine A.rest _ (by intro h; have := congrArg List.length h; simp at this) (fun n hn => not_below_other ?_ r)
  rintro rfl; exact hm hn

theorem added_leaf {item : List Name → Option (Item V)} {p : List Name} {n : Name} (v : V) (h : n ∉ children item p) :
    Added item (setLeaf item p n v) p [n] := by
  refine ⟨?_, fun q hq hb => ?_⟩
  · unfold setLeaf
    rw [if_neg (by intro h; have := congrArg List.length h; simp at this),
      if_neg (by rw [List.isPrefixOf_iff_prefix]; exact not_below_self), if_pos rfl, if_neg h]
  · have := hb n (by simp)
    unfold setLeaf
    rw [if_neg (by rintro rfl; exact this (List.prefix_refl _)), if_neg (by rw [List.isPrefixOf_iff_prefix]; exact this), if_neg hq]

theorem fresh_not_child {s : St V} {db : Db V} (S : Sim s db) {n : Name} (hn : db.item (db.cur ++ [n]) = none) :
    n ∉ children db.item db.cur := by
  obtain ⟨c, _, hw⟩ := S.cur
  have h := fresh_child S hw hn
  rw [S.rr.children hw]
  intro hm
  rw [List.mem_map] at hm
  obtain ⟨e, he, hen⟩ := hm
  unfold child at h
  rw [List.find?_eq_none] at h
  exact absurd (by simpa using hen) (h e he)

mutual
theorem Shows.congr (text : Name → V) (named : Bool) {item item' : List Name → Option (Item V)} {p : List Name} (r : Rec V)
    (h : ∀ q, p <+: q → item' q = item q) : Shows text named item p r → Shows text named item' p r := by
  cases r with
  | mk cls ms =>
    intro hs
    simp only [Shows] at hs ⊢
    refine ⟨?_, ?_, ?_⟩
    · rw [h p (List.prefix_refl _)]; exact hs.1
    · intro hn; rw [h _ (List.prefix_append _ _)]; exact hs.2.1 hn
    · exact ShowsMembers.congr text named ms (fun n _ q hq => h q ((List.prefix_append _ _).trans hq)) hs.2.2

theorem ShowsMembers.congr (text : Name → V) (named : Bool) {item item' : List Name → Option (Item V)} {p : List Name} (ms : Mems V)
    (h : ∀ n ∈ childNames ms, ∀ q, (p ++ [n]) <+: q → item' q = item q) :
    ShowsMembers text named item p ms → ShowsMembers text named item' p ms := by
  cases ms with
  | nil => intro _; trivial
  | basic n v rest =>
    intro hs
    simp only [ShowsMembers] at hs ⊢
    simp only [childNames, List.mem_cons, forall_eq_or_imp] at h
    exact ⟨by rw [h.1 _ (List.prefix_refl _)]; exact hs.1, ShowsMembers.congr text named rest h.2 hs.2⟩
  | one n x rest =>
    intro hs
    simp only [ShowsMembers] at hs ⊢
    simp only [childNames, List.mem_cons, forall_eq_or_imp] at h
    exact ⟨Shows.congr text named x h.1 hs.1, ShowsMembers.congr text named rest h.2 hs.2⟩
  | many n dims xs rest =>
    intro hs
    simp only [ShowsMembers] at hs ⊢
    simp only [childNames, List.mem_append] at h
    exact ⟨ShowsElements.congr text named _ xs (fun n hn => h n (.inl hn)) hs.1,
      ShowsMembers.congr text named rest (fun n hn => h n (.inr hn)) hs.2⟩

theorem ShowsElements.congr (text : Name → V) (named : Bool) {item item' : List Name → Option (Item V)} {p : List Name} (ns : List Name)
    (xs : Recs V) (h : ∀ n ∈ ns, ∀ q, (p ++ [n]) <+: q → item' q = item q) :
    ShowsElements text named item p ns xs → ShowsElements text named item' p ns xs := by
  cases xs with
  | nil => cases ns <;> simp [ShowsElements]
  | cons x xs =>
    cases ns with
    | nil => simp [ShowsElements]
    | cons n ns =>
      intro hs
      simp only [ShowsElements] at hs ⊢
      simp only [List.mem_cons, forall_eq_or_imp] at h
      exact ⟨Shows.congr text named x h.1 hs.1, ShowsElements.congr text named ns xs h.2 hs.2⟩
end

/-- What writing does, at a node. -/
def Wrote (s s' : St V) (db db' : Db V) (ns : List Name) : Prop :=
  Sim s' db' ∧ RootName s' ∧ Grow s s' ∧ db'.cur = db.cur ∧ Added db.item db'.item db.cur ns

/-- Writing a structure in a new child. -/
theorem write_child (text : Name → V) {x : Rec V} {n : Name} (hn : Good n)
    (ih : ∀ (s : St V) (db : Db V), Sim s db → RootName s → db.item db.cur = some (.node []) →
      (∀ m r, db.item (db.cur ++ m :: r) = none) →
      ∃ s' db', toRec text x s = some (true, s') ∧ Sim s' db' ∧ RootName s' ∧ Grow s s' ∧ db'.cur = db.cur ∧
        Shows text true db'.item db.cur x ∧ ∀ q, ¬ db.cur <+: q → db'.item q = db.item q)
    (s : St V) (db : Db V) (S : Sim s db) (hr : RootName s) (hf : db.item (db.cur ++ [n]) = none) :
    ∃ s1 s2 s3 db', call s (.createRelative n) = some (true, s1) ∧ toRec text x s1 = some (true, s2) ∧
      call s2 (.moveToAncestor 1) = some (true, s3) ∧ Wrote s s3 db db' [n] ∧ Shows text true db'.item (db.cur ++ [n]) x := by
  obtain ⟨s1, e1, S1, R1, G1⟩ := do_create S hr hn hf
  have hat : addNode db.item db.cur n (db.cur ++ [n]) = some (.node []) := by unfold addNode; rw [if_pos rfl]
  have hbelow : ∀ m r, addNode db.item db.cur n (db.cur ++ [n] ++ m :: r) = none := by
    intro m r
    rw [addNode_below (by simp)]
    exact S.rr.none_below hf _
  obtain ⟨s2, db2, e2, S2, R2, G2, c2, sh2, out2⟩ := ih s1 _ S1 R1 hat hbelow
  obtain ⟨s3, e3, S3, R3, G3⟩ := do_back S2 R2 (p := db.cur) (n := n) c2
  refine ⟨s1, s2, s3, _, e1, e2, e3, ⟨S3, R3, (G1.trans G2).trans G3, rfl, ?_, ?_⟩, sh2⟩
  · show db2.item db.cur = _
    rw [out2 _ not_below_self]
    show addNode db.item db.cur n db.cur = _
    unfold addNode
    rw [if_neg (by intro h; have := congrArg List.length h; simp at this), if_pos rfl]
  · intro q hq hb
    show db2.item q = _
    have := hb n (by simp)
    rw [out2 q this]
    show addNode db.item db.cur n q = _
    unfold addNode
    rw [if_neg (by rintro rfl; exact this (List.prefix_refl _)), if_neg hq]

mutual
theorem toRec_spec (text : Name → V) (x : Rec V) (hx : Proper x) (s : St V) (db : Db V) (S : Sim s db) (hr : RootName s)
    (he : db.item db.cur = some (.node [])) (hb : ∀ m r, db.item (db.cur ++ m :: r) = none) :
    ∃ s' db', toRec text x s = some (true, s') ∧ Sim s' db' ∧ RootName s' ∧ Grow s s' ∧ db'.cur = db.cur ∧
      Shows text true db'.item db.cur x ∧ ∀ q, ¬ db.cur <+: q → db'.item q = db.item q := by
  cases x with
  | mk cls ms =>
    simp only [Proper] at hx
    obtain ⟨hnd, hcl, hok, hpm⟩ := hx
    generalize hC : "Class".toList = C at hcl hpm
    have hCne : C ≠ [] := by rw [← hC]; decide
    obtain ⟨s1, e1, S1, R1, G1⟩ := do_write S hr (n := C) (text cls) hCne (hb C [])
    have hnc : C ∉ children db.item db.cur := by unfold children; rw [he]; simp
    have A1 := added_leaf (text cls) hnc
    obtain ⟨s2, db2, e2, ⟨S2, R2, G2, c2, A2⟩, sh2⟩ := toMems_spec text ms (childNames ms) hpm hnd hok s1 _ S1 R1 (by
      intro n hn r
      show setLeaf _ _ _ _ _ = _
      rw [A1.other (by simp; rintro rfl; exact hcl hn)]
      exact hb n r)
    refine ⟨s2, db2, ?_, S2, R2, G1.trans G2, c2, ?_, ?_⟩
    · simp only [toRec, hC, e1, Option.bind_some, if_true, e2]
    · simp only [Shows, hC, if_true]
      refine ⟨?_, fun _ => ?_, sh2⟩
      · have := (A1.trans A2).node
        rw [this]
        simp [children, he]
      · have := A2.other (m := C) hcl []
        rw [this]
        show setLeaf _ _ _ _ _ = _
        unfold setLeaf; rw [if_pos rfl]
    · intro q hq
      rw [(A1.trans A2).rest q (by rintro rfl; exact hq (List.prefix_refl _))
        (fun n _ hp => hq ((List.prefix_append _ _).trans hp))]

theorem toMems_spec (text : Name → V) (ms : Mems V) (all : List Name) (hm : ProperMembers all ms) (hnd : (childNames ms).Nodup)
    (hok : ∀ n ∈ childNames ms, NameOk n) (s : St V) (db : Db V) (S : Sim s db) (hr : RootName s)
    (hb : ∀ n ∈ childNames ms, ∀ r, db.item (db.cur ++ n :: r) = none) :
    ∃ s' db', toMems text ms s = some (true, s') ∧ Wrote s s' db db' (childNames ms) ∧ ShowsMembers text true db'.item db.cur ms := by
  cases ms with
  | nil =>
    refine ⟨s, db, rfl, ⟨S, hr, Grow.refl s, rfl, ?_, fun _ _ _ => rfl⟩, trivial⟩
    have := S.isNode
    unfold children
    cases hi : db.item db.cur with
    | none => rw [hi] at this; simp [isNode] at this
    | some y => cases y with
      | leaf v => rw [hi] at this; simp [isNode] at this
      | node ch => simp [childNames]
  | basic n v rest =>
    simp only [childNames, List.nodup_cons, List.mem_cons, forall_eq_or_imp] at hnd hok hb
    simp only [ProperMembers] at hm
    obtain ⟨s1, e1, S1, R1, G1⟩ := do_write S hr v hok.1.1 (hb.1 [])
    have A1 := added_leaf v (fresh_not_child S (hb.1 []))
    obtain ⟨s2, db2, e2, ⟨S2, R2, G2, c2, A2⟩, sh2⟩ := toMems_spec text rest all hm hnd.2 hok.2 s1 _ S1 R1 (by
      intro m hm r
      show setLeaf _ _ _ _ _ = _
      rw [A1.other (by simp; rintro rfl; exact hnd.1 hm)]
      exact hb.2 m hm r)
    refine ⟨s2, db2, by simp only [toMems, e1, Option.bind_some, if_true, e2], ⟨S2, R2, G1.trans G2, c2, A1.trans A2⟩, ?_, sh2⟩
    rw [A2.other hnd.1 []]
    show setLeaf _ _ _ _ _ = _
    unfold setLeaf; rw [if_pos rfl]
  | one n x rest =>
    simp only [childNames, List.nodup_cons, List.mem_cons, forall_eq_or_imp] at hnd hok hb
    simp only [ProperMembers] at hm
    obtain ⟨s1, s2, s3, db1, e1, e2, e3, ⟨S3, R3, G3, c3, A3⟩, sh⟩ := write_child text (n := n) hok.1 (toRec_spec text x hm.1) s db S hr (hb.1 [])
    obtain ⟨s4, db4, e4, ⟨S4, R4, G4, c4, A4⟩, sh4⟩ := toMems_spec text rest all hm.2 hnd.2 hok.2 s3 db1 S3 R3 (by
      intro m hm r
      rw [c3, A3.other (by simp; rintro rfl; exact hnd.1 hm)]
      exact hb.2 m hm r)
    rw [c3] at A4 sh4
    refine ⟨s4, db4, by simp only [toMems, e1, e2, e3, Option.bind_some, if_true, Bool.and_self, e4],
      ⟨S4, R4, G3.trans G4, c4.trans c3, A3.trans A4⟩, ?_, sh4⟩
    refine Shows.congr text true x (fun q hq => ?_) sh
    obtain ⟨r, rfl⟩ := below_eq hq
    exact A4.other hnd.1 r
  | many n dims xs rest =>
    simp only [childNames, List.mem_append, List.nodup_append] at hnd hok hb
    simp only [ProperMembers] at hm
    obtain ⟨s1, db1, e1, ⟨S1, R1, G1, c1, A1⟩, sh1⟩ := toRecs_spec text xs (tuples dims) ((tuples dims).map (element n)) (by simp)
      hm.2.2.2.2.2.1 hnd.1 (fun m h => hok m (.inl h)) s db S hr (fun m h => hb m (.inl h))
    obtain ⟨s2, db2, e2, ⟨S2, R2, G2, c2, A2⟩, sh2⟩ := toMems_spec text rest all hm.2.2.2.2.2.2 hnd.2.1 (fun m h => hok m (.inr h)) s1 db1 S1 R1 (by
      intro m hm r
      rw [c1, A1.other (fun h => hnd.2.2 m h m hm rfl)]
      exact hb m (.inr hm) r)
    rw [c1] at A2 sh2
    refine ⟨s2, db2, by simp only [toMems, indexNames_eq, e1, Option.bind_some, if_true, e2],
      ⟨S2, R2, G1.trans G2, c2.trans c1, A1.trans A2⟩, ?_, sh2⟩
    refine ShowsElements.congr text true _ xs (fun m hm q hq => ?_) sh1
    obtain ⟨r, rfl⟩ := below_eq hq
    exact A2.other (fun h => hnd.2.2 m hm m h rfl) r

theorem toRecs_spec (text : Name → V) (xs : Recs V) (ts : List (List Nat)) (ns : List Name) (hl : ns.length = ts.length)
    (hm : ProperElements ts xs) (hnd : ns.Nodup)
    (hok : ∀ n ∈ ns, NameOk n) (s : St V) (db : Db V) (S : Sim s db) (hr : RootName s)
    (hb : ∀ n ∈ ns, ∀ r, db.item (db.cur ++ n :: r) = none) :
    ∃ s' db', toRecs text ns xs s = some (true, s') ∧ Wrote s s' db db' ns ∧ ShowsElements text true db'.item db.cur ns xs := by
  cases xs with
  | nil =>
    cases ts with
    | cons => simp [ProperElements] at hm
    | nil =>
      have : ns = [] := List.eq_nil_of_length_eq_zero hl
      subst this
      refine ⟨s, db, rfl, ⟨S, hr, Grow.refl s, rfl, ?_, fun _ _ _ => rfl⟩, trivial⟩
      have := S.isNode
      unfold children
      cases hi : db.item db.cur with
      | none => rw [hi] at this; simp [isNode] at this
      | some y => cases y with
        | leaf v => rw [hi] at this; simp [isNode] at this
        | node ch => simp
  | cons x xs =>
    cases ts with
    | nil => simp [ProperElements] at hm
    | cons t ts =>
      cases ns with
      | nil => simp at hl
      | cons n ns =>
        simp only [List.nodup_cons, List.mem_cons, forall_eq_or_imp] at hnd hok hb
        simp only [ProperElements] at hm
        obtain ⟨s1, s2, s3, db1, e1, e2, e3, ⟨S3, R3, G3, c3, A3⟩, sh⟩ := write_child text (n := n) hok.1 (toRec_spec text x hm.1) s db S hr (hb.1 [])
        obtain ⟨s4, db4, e4, ⟨S4, R4, G4, c4, A4⟩, sh4⟩ := toRecs_spec text xs ts ns (by simpa using hl) hm.2 hnd.2 hok.2 s3 db1 S3 R3 (by
          intro m hm r
          rw [c3, A3.other (by simp; rintro rfl; exact hnd.1 hm)]
          exact hb.2 m hm r)
        rw [c3] at A4 sh4
        refine ⟨s4, db4, by simp only [toRecs, e1, e2, e3, Option.bind_some, if_true, Bool.and_self, e4],
          ⟨S4, R4, G3.trans G4, c4.trans c3, A3.trans A4⟩, ?_, sh4⟩
        refine Shows.congr text true x (fun q hq => ?_) sh
        obtain ⟨r, rfl⟩ := below_eq hq
        exact A4.other hnd.1 r
end

end Verif.ConfigDb
