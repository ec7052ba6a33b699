import Verif.Spec.SendMsg
import Verif.Proof.WebTree
import Verif.Props.RefSearch
set_option linter.unusedSimpArgs false
set_option linter.unusedVariables false
set_option maxRecDepth 8000
/-! # C87: a message reaches its destination and the reply its sender -/
namespace Verif.SendMsg
open Verif.RefC Verif.Spec.RefC Verif.Spec.Web Verif.Spec.SendMsg Verif.Spec.RefSearch

private theorem dest (w : World) (hc : Clear w.db) (hf : sizeObjs w.db ≤ w.fuel) (ws : List (List Char)) (hw : Words ws)
    (hlen : (joinPath ws).length < 4294967296) :
    (∀ o, At w.db ws o → findDestination w (joinPath ws) = some (some o)) ∧
    ((∀ o, ¬ At w.db ws o) → findDestination w (joinPath ws) = some none) := by
  obtain ⟨r, e, h⟩ := Web.lookup w.fuel w.db hc hf ws hw hlen
  refine ⟨fun o ho => by rw [findDestination, e, (h o).mpr ho], fun hn => ?_⟩
  cases r with
  | none => exact e
  | some o => exact absurd ((h o).mp rfl) (hn o)

/-- **C87 (partial).**  A message which is not a reply is delivered to the object at its destination, with its sender in
it, and to nobody else.  Missing: names that are not clear, see C07. -/
theorem c87_request_partial (w : World) (hc : Clear w.db) (hf : sizeObjs w.db ≤ w.fuel) (ws : List (List Char)) (hw : Words ws)
    (hlen : (joinPath ws).length < 4294967296) (o : Obj) (ho : At w.db ws o) (hm : w.isMsg o.id = true) (m : Msg)
    (hd : m.dest = joinPath ws) (hr : m.isReply = false) :
    (∀ s, send w (some m) (some s) = some ⟨.delivered o.id, some { m with sender := some s }, none⟩) ∧
    (m.expectsReply = false → send w (some m) none = some ⟨.delivered o.id, some m, none⟩) := by
  have e := (dest w hc hf ws hw hlen).1 o ho
  rw [← hd] at e
  refine ⟨fun s => ?_, fun he => ?_⟩
  · simp only [send, hr, Bool.false_eq_true, if_false, e, Option.map_some, deliver, hm, if_true]
  · simp only [send, hr, Bool.false_eq_true, if_false, e, Option.map_some, deliver, hm, if_true, he]

mutual
private theorem placesIn_last (x : Obj) : ∀ o, x ∈ preorder o → ∃ v ∈ placesIn true false o, v.chain.getLast? = some x
  | .leaf i n, h => ⟨⟨[.leaf i n], none⟩, by simp [placesIn], by simp [preorder] at h; simp [h]⟩
  | .cont i n k, h => by
    simp only [preorder, List.mem_cons] at h
    rcases h with rfl | h
    · exact ⟨⟨[.cont i n k], none⟩, by simp [placesIn], rfl⟩
    · obtain ⟨v, hv, e⟩ := places_last x k h
      refine ⟨⟨.cont i n k :: v.chain, some (.cont i n v.without)⟩, ?_, ?_⟩
      · simp only [placesIn, if_true, List.mem_cons]
        exact Or.inr (List.mem_map.mpr ⟨v, hv, rfl⟩)
      · show (Obj.cont i n k :: v.chain).getLast? = some x
        rw [List.getLast?_cons, e]; rfl
private theorem places_last (x : Obj) : ∀ ks, x ∈ preorders ks → ∃ v ∈ places true false ks, v.chain.getLast? = some x
  | [], h => by simp [preorders] at h
  | o :: os, h => by
    simp only [preorders, List.mem_append] at h
    simp only [places, Bool.false_eq_true, if_false, List.mem_append, List.mem_map]
    rcases h with h | h
    · obtain ⟨v, hv, e⟩ := placesIn_last x o h
      exact ⟨_, Or.inl ⟨v, hv, rfl⟩, e⟩
    · obtain ⟨v, hv, e⟩ := places_last x os h
      exact ⟨_, Or.inr ⟨v, hv, rfl⟩, e⟩
end

private theorem mem_preorders (o : Obj) : ∀ ks, o ∈ ks → o ∈ preorders ks := by
  intro ks
  induction ks with
  | nil => intro h; simp at h
  | cons k ks ih =>
    intro h
    simp only [preorders, List.mem_append]
    rcases List.mem_cons.mp h with rfl | h
    · left; cases o <;> simp [preorder]
    · exact Or.inr (ih h)

private theorem kids_preorders (x c : Obj) (ck : List Obj) (hk : c.kids? = some ck) (hx : x ∈ preorders ck) : x ∈ preorder c := by
  cases c with
  | leaf i n => simp [Obj.kids?] at hk
  | cont i n k => simp only [Obj.kids?, Option.some.injEq] at hk; subst hk; simp [preorder, hx]

private theorem sub_preorders (x c : Obj) : ∀ ks, c ∈ ks → x ∈ preorder c → x ∈ preorders ks := by
  intro ks
  induction ks with
  | nil => intro h; simp at h
  | cons k ks ih =>
    intro h hx
    simp only [preorders, List.mem_append]
    rcases List.mem_cons.mp h with rfl | h
    · exact Or.inl hx
    · exact Or.inr (ih h hx)

mutual
private theorem preorder_trans (x y : Obj) : ∀ z, y ∈ preorder z → x ∈ preorder y → x ∈ preorder z
  | .leaf i n, h, hx => by simp [preorder] at h; subst h; exact hx
  | .cont i n k, h, hx => by
    simp only [preorder, List.mem_cons] at h
    rcases h with rfl | h
    · exact hx
    · simp only [preorder, List.mem_cons]; exact Or.inr (preorders_trans x y k h hx)
private theorem preorders_trans (x y : Obj) : ∀ ks, y ∈ preorders ks → x ∈ preorder y → x ∈ preorders ks
  | [], h, _ => by simp [preorders] at h
  | o :: os, h, hx => by
    simp only [preorders, List.mem_append] at h ⊢
    rcases h with h | h
    · exact Or.inl (preorder_trans x y o h hx)
    · exact Or.inr (preorders_trans x y os h hx)
end

private theorem below_preorders (db kids : List Obj) (h : Below db kids) : ∀ o ∈ kids, o ∈ preorders db := by
  induction h with
  | self => exact fun o ho => mem_preorders o _ ho
  | child _ hm hk ih =>
    intro o ho
    exact preorders_trans o _ db (ih _ hm) (kids_preorders o _ _ hk (mem_preorders o _ ho))

private theorem sender_found (w : World) (hf : sizeObjs w.db ≤ w.fuel) (s : Nat) :
    (Registered w.db s → ∃ o, findSender w (some s) = some (some o) ∧ o.id = s) ∧
    (¬ Registered w.db s → findSender w (some s) = some none) := by
  have h := c61_nth_reference s w.db [] w.fuel hf 1 (Nat.le_refl _) true false false false
  simp only [Int.natCast_one, Bool.true_or, Nat.sub_self, List.nil_append, Bool.false_eq_true, if_false] at h
  have last : ∀ v ∈ found (isObject s) true false w.db, ∃ o, v.chain.getLast? = some o ∧ o.id = s := by
    intro v hv
    have := (List.mem_filter.mp hv).2
    unfold Wanted at this
    cases hl : v.chain.getLast? with
    | none => rw [hl] at this; simp at this
    | some o =>
      rw [hl] at this
      refine ⟨o, rfl, ?_⟩
      cases o <;> simp [isObject] at this <;> exact this.symm
  cases hfd : (found (isObject s) true false w.db)[0]? with
  | some v =>
    rw [hfd] at h
    simp only at h
    obtain ⟨o, ho, hid⟩ := last v (List.mem_of_getElem? hfd)
    have e : findSender w (some s) = some (some o) := by
      unfold findSender
      cases hx : find w.fuel (refFilter 1 true false false false (some s)) [] w.db with
      | none => rw [hx] at h; simp at h
      | some r =>
        rw [hx] at h
        simp only [Option.map_some, Option.some.injEq, Prod.mk.injEq, ho, Option.toList_some] at h
        have h2 : r.2.1 = [o] := by rw [h.2]
        simp [h2]
    refine ⟨fun _ => ⟨o, e, hid⟩, fun hn => ?_⟩
    exfalso
    apply hn
    obtain ⟨f', res', eq, -, -, hP⟩ := Web.quiet_loop (fun o => o ∈ preorders w.db) w.fuel w.db [] [] (refFilter 1 true false false false (some s)) hf rfl rfl
      (fun o ho => ho) (by simp)
    have hp := sizeObjs_pos w.db
    obtain ⟨m, hm⟩ : ∃ m, w.fuel = m + 1 := ⟨w.fuel - 1, by omega⟩
    have hx := find_eq_loop m (refFilter 1 true false false false (some s)) w.db rfl
    rw [← hm] at hx
    simp only [List.length_nil, List.nil_append, Int.natCast_zero] at eq
    rw [eq] at hx
    have hmem : o ∈ preorders w.db := by
      unfold findSender at e
      rw [hx] at e
      simp only [Option.map_some, Option.some.injEq] at e
      exact hP o (List.mem_of_getElem? e)
    obtain ⟨k, hk, hmk⟩ := Web.preorders_below w.db o hmem
    exact ⟨k, o, hk, hmk, hid⟩
  | none =>
    rw [hfd] at h
    have e : findSender w (some s) = some none := by
      unfold findSender
      cases hx : find w.fuel (refFilter 1 true false false false (some s)) [] w.db with
      | none => rw [hx] at h; simp at h
      | some r =>
        rw [hx] at h
        simp only [Option.map_some, Option.some.injEq, Prod.mk.injEq] at h
        have h2 : r.2.1 = [] := by rw [h.2]
        simp [h2]
    refine ⟨fun hr => ?_, fun _ => e⟩
    exfalso
    obtain ⟨kids, o, hb, ho, hid⟩ := hr
    obtain ⟨v, hv, hl⟩ := places_last o w.db (below_preorders w.db kids hb o ho)
    have : v ∈ found (isObject s) true false w.db := by
      refine List.mem_filter.mpr ⟨hv, ?_⟩
      unfold Wanted
      rw [hl]
      cases o <;> simp [isObject] <;> exact hid.symm
    rw [List.getElem?_eq_none_iff] at hfd
    have : found (isObject s) true false w.db = [] := List.eq_nil_of_length_eq_zero (by omega)
    simp_all

private theorem none_sender (w : World) (hf : sizeObjs w.db ≤ w.fuel) : findSender w none = some none := by
  have hp := sizeObjs_pos w.db
  obtain ⟨m, hm⟩ : ∃ m, w.fuel = m + 1 := ⟨w.fuel - 1, by omega⟩
  have key : ∀ (fuel : Nat) (rest pre : List Obj), sizeObjs rest ≤ fuel →
      findLoop fuel pre.length (refFilter 1 true false false false none) [] (pre ++ rest) =
        some (refFilter 1 true false false false none, [], pre ++ rest) := by
    intro fuel
    induction fuel with
    | zero => intro rest pre h; have := sizeObjs_pos rest; omega
    | succ fuel ih =>
      intro rest pre h
      cases rest with
      | nil => rw [List.append_nil]; exact loop_end rfl
      | cons c rest =>
        have hsz : sizeObj c + sizeObjs rest ≤ fuel + 1 := h
        have hpos := sizeObj_pos c
        have hrp := sizeObjs_pos rest
        have happ : pre ++ c :: rest = (pre ++ [c]) ++ rest := by simp
        have hcont := ih rest (pre ++ [c]) (by omega)
        rw [← happ] at hcont
        simp only [List.length_append, List.length_singleton, Int.natCast_add, Int.natCast_one] at hcont
        unfold findLoop
        rw [if_pos (by simp [refFilter, Filter.setMode, Filter.finished]; omega)]
        have hget : (pre ++ c :: rest)[(pre.length : Int).toNat]? = some c := by simp
        rw [hget]
        have ht : (refFilter 1 true false false false none).test [] c = (false, refFilter 1 true false false false none) := rfl
        simp only [Option.bind_some, ht, Bool.false_and, Bool.false_eq_true, if_false]
        rw [if_neg (by simp [refFilter, Filter.setMode, Filter.finished])]
        have hrec : (refFilter 1 true false false false none).recursive = true := rfl
        have hrev : (refFilter 1 true false false false none).reverse = false := rfl
        have hpath : (refFilter 1 true false false false none).path = false := rfl
        simp only [hrec, hrev, hpath, if_true, Bool.false_eq_true, if_false]
        cases hk : c.kids? with
        | none => exact hcont
        | some ck =>
          have hcs := sizeObj_kids hk
          have hst : startIndex (refFilter 1 true false false false none) ck = none ∨
              startIndex (refFilter 1 true false false false none) ck = some 0 := by
            unfold startIndex
            by_cases h : ck.length > 0
            · right; rw [if_pos h]; rfl
            · left; rw [if_neg h]
          have hin := ih ck [] (by omega)
          simp only [List.length_nil, List.nil_append, Int.natCast_zero] at hin
          have hset : (pre ++ c :: rest).set (pre.length : Int).toNat (c.withKids ck) = pre ++ c :: rest := by
            rw [withKids_self hk]; simp
          rcases hst with h1 | h1
          · simp only [h1, Option.bind_some, hrec, hrev, hpath, Bool.not_true, Bool.false_eq_true, if_false, if_true, ite_self, hset]
            exact hcont
          · simp only [h1, hin, Option.bind_some, hrec, hrev, hpath, Bool.not_true, Bool.false_eq_true, if_false, if_true, ite_self, hset]
            exact hcont
  have hx := find_eq_loop m (refFilter 1 true false false false none) w.db rfl
  rw [← hm] at hx
  have := key w.fuel w.db [] hf
  simp only [List.length_nil, List.nil_append, Int.natCast_zero] at this
  rw [this] at hx
  unfold findSender
  rw [hx]; rfl

/-- **C87.**  An indirect reply is delivered to the object that sent the message, if it is in the registry and can receive
messages; a message is not delivered to anybody when it is no message, when it is a direct reply, when a reply is
expected but there is no sender, when the sender of an indirect reply is not in the registry or not a `MessageI`. -/
theorem c87_reply (w : World) (hf : sizeObjs w.db ≤ w.fuel) (m : Msg) (hr : m.isReply = true) (from_ : Option Nat) :
    (∀ s n, m.indirect = true → m.sender = some s → w.refs s = some (n + 1) → Registered w.db s → w.isMsg s = true →
      send w (some m) from_ = some ⟨.delivered s, some m, none⟩) ∧
    (∀ s n, m.indirect = true → m.sender = some s → w.refs s = some (n + 1) → ¬ (Registered w.db s ∧ w.isMsg s = true) →
      send w (some m) from_ = some ⟨.unsupportedFeature, some m, none⟩) ∧
    (m.indirect = true → m.sender = none → send w (some m) from_ = some ⟨.unsupportedFeature, some m, none⟩) ∧
    (m.indirect = false → send w (some m) from_ = some ⟨.communicationError, some m, none⟩) := by
  refine ⟨fun s n hi hs hn hreg hm => ?_, fun s n hi hs hn hreg => ?_, fun hi hs => ?_, fun hi => ?_⟩
  · obtain ⟨o, e, rfl⟩ := (sender_found w hf s).1 hreg
    simp only [send, hr, hi, hs, if_true, Bool.not_true, Bool.false_eq_true, if_false, borrowed, hn, Option.map_some,
      Option.bind_some, e, deliver, hm]
    rfl
  · by_cases hg : Registered w.db s
    · obtain ⟨o, e, rfl⟩ := (sender_found w hf s).1 hg
      have hm : w.isMsg o.id = false := by
        cases h : w.isMsg o.id with
        | false => rfl
        | true => exact absurd ⟨hg, h⟩ hreg
      simp only [send, hr, hi, hs, if_true, Bool.not_true, Bool.false_eq_true, if_false, borrowed, hn, Option.map_some,
        Option.bind_some, e, deliver, hm]
      rfl
    · have e := (sender_found w hf s).2 hg
      simp only [send, hr, hi, hs, if_true, Bool.not_true, Bool.false_eq_true, if_false, borrowed, hn, Option.map_some,
        Option.bind_some, e, deliver]
      rfl
  · have e2 : findSender w none = some none := none_sender w hf
    simp only [send, hr, hi, hs, if_true, Bool.not_true, Bool.false_eq_true, if_false, borrowed, Option.bind_some, e2,
      Option.map_some, deliver]
  · simp only [send, hr, hi, if_true, Bool.not_false]

/-- **C87.**  What else is refused, and that nobody gets it. -/
theorem c87_refused (w : World) (hc : Clear w.db) (hf : sizeObjs w.db ≤ w.fuel) (ws : List (List Char)) (hw : Words ws)
    (hlen : (joinPath ws).length < 4294967296) (m : Msg) (hd : m.dest = joinPath ws) (hr : m.isReply = false) :
    (∀ from_, send w none from_ = some ⟨.parametersError, none, none⟩) ∧
    (m.expectsReply = true → send w (some m) none = some ⟨.parametersError, some m, none⟩) ∧
    ((∀ o, At w.db ws o → w.isMsg o.id = false) → ∀ s,
      send w (some m) (some s) = some ⟨.unsupportedFeature, some { m with sender := some s }, none⟩) := by
  have hdef : ∃ r, findDestination w m.dest = some r ∧ ∀ o, r = some o ↔ At w.db ws o := by
    rw [hd]; exact Web.lookup w.fuel w.db hc hf ws hw hlen
  obtain ⟨r, e, h⟩ := hdef
  refine ⟨fun _ => rfl, fun he => ?_, fun hn s => ?_⟩
  · simp only [send, hr, Bool.false_eq_true, if_false, e, Option.map_some, he, if_true]
  · cases r with
    | none => simp only [send, hr, Bool.false_eq_true, if_false, e, Option.map_some, deliver]
    | some o =>
      have := hn o ((h o).mp rfl)
      simp only [send, hr, Bool.false_eq_true, if_false, e, Option.map_some, deliver, this]

/-- **C87 (partial).**  There and back: a message that expects an indirect reply goes to its destination, and when the
destination sends it back as a reply, it comes to the object that sent it.  Missing: senders that nothing refers to, see
`c87_sender_fails`. -/
theorem c87_back_partial (w : World) (hc : Clear w.db) (hf : sizeObjs w.db ≤ w.fuel) (ws : List (List Char)) (hw : Words ws)
    (hlen : (joinPath ws).length < 4294967296) (o : Obj) (ho : At w.db ws o) (hm : w.isMsg o.id = true) (m : Msg)
    (hd : m.dest = joinPath ws) (hr : m.isReply = false) (hi : m.indirect = true) (s n : Nat) (hreg : Registered w.db s)
    (hs : w.isMsg s = true) (hn : w.refs s = some (n + 1)) (from_ : Option Nat) :
    ∃ m', send w (some m) (some s) = some ⟨.delivered o.id, some m', none⟩ ∧
      send w (some { m' with isReply := true }) from_ = some ⟨.delivered s, some { m' with isReply := true }, none⟩ := by
  refine ⟨_, (c87_request_partial w hc hf ws hw hlen o ho hm m hd hr).1 s, ?_⟩
  exact (c87_reply w hf { { m with sender := some s } with isReply := true } rfl from_).1 s n hi rfl hn hreg hs

/-- **C87.**  The flags: only the two texts set any; an indirect reply is a reply. -/
theorem c87_mode (m : Msg) (mode : List Char) :
    ((flags (some mode) m).expectsReply = true ↔ mode = "ExpectsReply".toList ∨ mode = "ExpectsIndirectReply".toList) ∧
    ((flags (some mode) m).indirect = true ↔ mode = "ExpectsIndirectReply".toList) ∧
    (flags (some mode) m).isReply = false ∧ (flags none m).expectsReply = false ∧ (flags none m).indirect = false ∧
    (flags none m).isReply = false := by
  refine ⟨?_, ?_, rfl, rfl, rfl, rfl⟩
  · unfold flags
    generalize "ExpectsReply".toList = a
    generalize "ExpectsIndirectReply".toList = b
    by_cases h : mode = b <;> simp [h]
  · unfold flags
    generalize "ExpectsReply".toList = a
    generalize "ExpectsIndirectReply".toList = b
    simp only [decide_eq_true_eq]

/-- **C87, a message that was answered cannot be sent again.**  Whatever its destination and its new sender: the message of
which the direct reply came is refused, and the one of which the indirect reply came is delivered to its first sender. -/
theorem c87_again_fails (w : World) (hf : sizeObjs w.db ≤ w.fuel) (m : Msg) (hr : m.isReply = true) (s n : Nat)
    (hs : m.sender = some s) (hn : w.refs s = some (n + 1)) (hreg : Registered w.db s) (hm : w.isMsg s = true) (other : Nat) :
    send w (some m) (some other) =
      some ⟨if m.indirect then .delivered s else .communicationError, some m, none⟩ := by
  cases hi : m.indirect with
  | true => simpa using (c87_reply w hf m hr (some other)).1 s n hi hs hn hreg hm
  | false => simpa using (c87_reply w hf m hr (some other)).2.2.2 hi

/-- **C87, a sender that nothing refers to is destroyed by the reply,** and if it was destroyed before, the reply uses its
memory. -/
theorem c87_sender_fails (w : World) (hf : sizeObjs w.db ≤ w.fuel) (m : Msg) (hr : m.isReply = true) (hi : m.indirect = true)
    (s : Nat) (hs : m.sender = some s) (from_ : Option Nat) :
    (w.refs s = some 0 → ¬ Registered w.db s →
      send w (some m) from_ = some ⟨.unsupportedFeature, some m, some s⟩) ∧
    (w.refs s = none → send w (some m) from_ = none) := by
  refine ⟨fun h0 hg => ?_, fun h0 => ?_⟩
  · have e := (sender_found w hf s).2 hg
    simp only [send, hr, hi, hs, if_true, Bool.not_true, Bool.false_eq_true, if_false, borrowed, h0, Option.map_some,
      Option.bind_some, e, deliver]
  · simp only [send, hr, hi, hs, if_true, Bool.not_true, Bool.false_eq_true, if_false, borrowed, h0, Option.map_none,
      Option.bind_none]

/-! A registry with a controller 1 with a child 2, and a plain object 3. -/

private def db : List Obj := [.cont 1 (some ['C']) [.leaf 2 (some ['A'])], .leaf 3 (some ['B'])]
private def world : World := { db := db, isMsg := fun i => i == 1 || i == 2, refs := fun i => if i < 4 then some 1 else none, fuel := 20 }
private def msg (d : String) : Msg := ⟨d.toList, none, true, true, false⟩

private theorem below_db (k : List Obj) (h : Below db k) : k = db ∨ k = [.leaf 2 (some ['A'])] := by
  induction h with
  | self => exact Or.inl rfl
  | child _ hm hk ih =>
    rcases ih with rfl | rfl
    · simp only [db, List.mem_cons, List.not_mem_nil, or_false] at hm
      rcases hm with rfl | rfl <;> simp [Obj.kids?] at hk
      exact Or.inr hk.symm
    · simp only [List.mem_cons, List.not_mem_nil, or_false] at hm
      subst hm; simp [Obj.kids?] at hk

example : Clear db := by
  refine ⟨?_, ?_, ?_⟩
  · intro k hk o ho
    rcases below_db k hk with rfl | rfl <;> simp only [db, List.mem_cons, List.not_mem_nil, or_false] at ho
    · rcases ho with rfl | rfl <;> rfl
    · subst ho; rfl
  · intro k hk a ha b hb e
    rcases below_db k hk with rfl | rfl <;> simp only [db, List.mem_cons, List.not_mem_nil, or_false] at ha hb
    · rcases ha with rfl | rfl <;> rcases hb with rfl | rfl <;> simp [Obj.name] at e ⊢
    · rw [ha, hb]
  · intro k hk c hc d hd e
    rcases below_db k hk with rfl | rfl
    · rfl
    · simp only [db, List.mem_cons, List.not_mem_nil, or_false] at hc hd
      subst hc
      rcases hd with rfl | rfl <;> simp [Obj.name] at e

example : Registered db 2 := ⟨[.leaf 2 (some ['A'])], .leaf 2 (some ['A']), .child .self (by simp [db]; left; rfl) rfl, by simp, rfl⟩
example : send world (some (msg "C.A")) (some 1) = some ⟨.delivered 2, some { msg "C.A" with sender := some 1 }, none⟩ := by decide +kernel
example : send world (some { msg "C.A" with sender := some 1, isReply := true }) (some 2) =
    some ⟨.delivered 1, some { msg "C.A" with sender := some 1, isReply := true }, none⟩ := by decide +kernel
example : send world (some { msg "C.A" with sender := some 9, isReply := true }) (some 2) = none := by decide +kernel

end Verif.SendMsg
