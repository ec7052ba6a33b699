import Verif.Proof.WebTree
import Verif.Props.RefSearch
set_option linter.unusedSimpArgs false
set_option linter.unusedVariables false
set_option maxRecDepth 8000
/-! # C85: who answers an HTTP request, and the realms -/
namespace Verif.Web
open Verif.RefC Verif.Spec.RefC Verif.Spec.Web

/-- The realm, if there is one, accepts the credentials of the request. -/
def Allowed (w : World) (realm : Option Nat) : Prop := ∀ r, realm = some r → w.allow r = true

private theorem serve_allowed (w : World) (n me : Nat) (kids : List Obj) (realm : Option Nat) (root : List Obj) (path : List Char)
    (h : Allowed w realm) : serve w (n + 1) me kids realm root path =
      (findTarget w.fuel root (path.length + 1) path []).bind fun t =>
      match t.1 with
      | none => some .notFound
      | some (.inl ()) => some (if w.text then directories w kids else .list me)
      | some (.inr o) =>
        match w.kind o.id with
        | .browser realm' root' =>
          if o.id = me then some (if w.text then directories w kids else .list me)
          else serve w n o.id (o.kids?.getD []) realm' root' t.2
        | .directory => some (.object o.id t.2)
        | .exported => some (.object o.id t.2)
        | .plain => some (if w.text then .notFound else .dump o.id) := by
  cases realm with
  | none => rfl
  | some r =>
    have := h r rfl
    simp only [serve, this, if_true]
    rfl

/-- **C85.**  When the realm of a browser refuses the request, nothing it shows is answered, whatever the path. -/
theorem c85_denied (w : World) (n me r : Nat) (kids root : List Obj) (path : List Char) (h : w.allow r = false) :
    serve w (n + 1) me kids (some r) root path = some (.denied me) := by
  simp only [serve, h, Bool.false_eq_true, if_false]

/-- Every path leads to a longest object or to none. -/
theorem c85_cases (root : List Obj) (ws : List (List Char)) : (∃ o rest, Longest root ws o rest) ∨ Nowhere root ws := by
  have key : ∀ k, k ≤ ws.length → (∃ o rest, Longest root ws o rest) ∨
      ∀ p q o, ws = p ++ q → At root p o → p.length ≤ ws.length - k := by
    intro k
    induction k with
    | zero =>
      intro _
      refine Or.inr fun p q o e _ => ?_
      rw [e]; simp
    | succ k ih =>
      intro hk
      rcases ih (by omega) with h | h
      · exact Or.inl h
      · by_cases hx : ∃ p q o, ws = p ++ q ∧ At root p o ∧ p.length = ws.length - k
        · obtain ⟨p, q, o, e, ha, hl⟩ := hx
          exact Or.inl ⟨o, q, p, e, ha, fun p' q' o' e' ha' => by rw [hl]; exact h p' q' o' e' ha'⟩
        · refine Or.inr fun p q o e ha => ?_
          have h1 := h p q o e ha
          have h2 : p.length ≠ ws.length - k := fun e' => hx ⟨p, q, o, e, ha, e'⟩
          omega
  rcases key ws.length (Nat.le_refl _) with h | h
  · exact Or.inl h
  · refine Or.inr fun p q o e ha => ?_
    have := h p q o e ha
    exact at_ne_nil ha (List.eq_nil_of_length_eq_zero (by omega))

private theorem target (w : World) (root : List Obj) (hc : Clear root) (hf : sizeObjs root ≤ w.fuel) (ws : List (List Char))
    (hw : Words ws) (hlen : (joinPath ws).length < 4294967296) :
    (∀ o rest, Longest root ws o rest →
      findTarget w.fuel root ((joinPath ws).length + 1) (joinPath ws) [] = some (some (.inr o), joinPath rest)) ∧
    (Nowhere root ws → ∃ r, findTarget w.fuel root ((joinPath ws).length + 1) (joinPath ws) [] = some (none, r)) := by
  have hl : ws.length ≤ (joinPath ws).length := by
    have : ∀ l : List (List Char), (∀ x ∈ l, x ≠ [] ∧ '.' ∉ x) → l.length ≤ (joinPath l).length := by
      intro l
      induction l with
      | nil => intro _; simp
      | cons x l ih =>
        intro h
        have hx := List.length_pos_iff.mpr (h x (by simp)).1
        by_cases h0 : l = []
        · subst h0; simp [joinPath]; omega
        · rw [join_cons x l h0]
          have := ih (fun y hy => h y (by simp [hy]))
          simp; omega
    exact this ws hw.2
  have := target_words w.fuel root hc hf ws.length ((joinPath ws).length + 1) ws [] rfl hw hlen (by omega) (by simp)
  simpa [joinPath] using this

/-- **C85 (partial).**  The object at the longest part of the path that leads to one answers, with the words that are
left; when it exports nothing its data are shown, and a text is not found.  Missing: names that are not clear, for which
the search of C07 may return an object that is elsewhere. -/
theorem c85_object_partial (w : World) (n me : Nat) (kids : List Obj) (realm : Option Nat) (root : List Obj)
    (ws rest : List (List Char)) (o : Obj) (ha : Allowed w realm) (hc : Clear root) (hf : sizeObjs root ≤ w.fuel)
    (hw : Words ws) (hlen : (joinPath ws).length < 4294967296) (ho : Longest root ws o rest) :
    (w.kind o.id = .exported ∨ w.kind o.id = .directory →
      serve w (n + 1) me kids realm root (joinPath ws) = some (.object o.id (joinPath rest))) ∧
    (w.kind o.id = .plain →
      serve w (n + 1) me kids realm root (joinPath ws) = some (if w.text then .notFound else .dump o.id)) := by
  have := (target w root hc hf ws hw hlen).1 o rest ho
  rw [serve_allowed _ _ _ _ _ _ _ ha, this]
  constructor
  · rintro (h | h) <;> simp only [Option.bind_some, h]
  · intro h; simp only [Option.bind_some, h]

/-- **C85 (partial).**  A path of which no part leads to an object is not found. -/
theorem c85_not_found_partial (w : World) (n me : Nat) (kids : List Obj) (realm : Option Nat) (root : List Obj)
    (ws : List (List Char)) (ha : Allowed w realm) (hc : Clear root) (hf : sizeObjs root ≤ w.fuel) (hw : Words ws)
    (hlen : (joinPath ws).length < 4294967296) (ho : Nowhere root ws) :
    serve w (n + 1) me kids realm root (joinPath ws) = some .notFound := by
  obtain ⟨r, e⟩ := (target w root hc hf ws hw hlen).2 ho
  rw [serve_allowed _ _ _ _ _ _ _ ha, e]
  simp only [Option.bind_some]

/-- **C85 (partial).**  When that object is another browser, the answer is the one of that browser, with its own realm, to
the words that are left. -/
theorem c85_nested_partial (w : World) (n me : Nat) (kids : List Obj) (realm realm' : Option Nat) (root root' : List Obj)
    (ws rest : List (List Char)) (o : Obj) (ha : Allowed w realm) (hc : Clear root) (hf : sizeObjs root ≤ w.fuel)
    (hw : Words ws) (hlen : (joinPath ws).length < 4294967296) (ho : Longest root ws o rest)
    (hk : w.kind o.id = .browser realm' root') (hme : o.id ≠ me) :
    serve w (n + 1) me kids realm root (joinPath ws) = serve w n o.id (o.kids?.getD []) realm' root' (joinPath rest) := by
  have := (target w root hc hf ws hw hlen).1 o rest ho
  rw [serve_allowed _ _ _ _ _ _ _ ha, this]
  simp only [Option.bind_some, hk, if_neg hme]

/-- **C85 (partial).**  The realm of an inner browser is asked when the path leads to that browser and no further in the
tree of the outer one. -/
theorem c85_inner_realm_partial (w : World) (n me r : Nat) (kids : List Obj) (realm : Option Nat) (root root' : List Obj)
    (ws rest : List (List Char)) (o : Obj) (ha : Allowed w realm) (hc : Clear root) (hf : sizeObjs root ≤ w.fuel)
    (hw : Words ws) (hlen : (joinPath ws).length < 4294967296) (ho : Longest root ws o rest)
    (hk : w.kind o.id = .browser (some r) root') (hme : o.id ≠ me) (hr : w.allow r = false) :
    serve w (n + 2) me kids realm root (joinPath ws) = some (.denied o.id) := by
  rw [c85_nested_partial w (n + 1) me kids realm (some r) root root' ws rest o ha hc hf hw hlen ho hk hme]
  exact c85_denied w n o.id r _ root' _ hr

/-- **C85, the realm of an inner browser does not protect what is in it.**  Whatever its realm says, an object inside a
browser is answered to every request that the outer browser accepts, because the search goes through the inner one as
through any container. -/
theorem c85_inner_realm_fails (w : World) (n me r : Nat) (kids : List Obj) (realm : Option Nat) (root root' : List Obj)
    (b x : List Char) (inner o : Obj) (ha : Allowed w realm) (hc : Clear root) (hf : sizeObjs root ≤ w.fuel)
    (hw : Words [b, x]) (hlen : (joinPath [b, x]).length < 4294967296)
    (_ : w.kind inner.id = .browser (some r) root') (_ : w.allow r = false)
    (hi : At root [b] inner) (hin : inner.kids? = some root') (ho : At root' [x] o) (hx : w.kind o.id = .exported) :
    serve w (n + 1) me kids realm root (joinPath [b, x]) = some (.object o.id []) := by
  have hl : Longest root [b, x] o [] :=
    ⟨[b, x], by simp, ⟨inner, hi.1, root', hi.2, hin, ho⟩, fun p q _ e _ => by rw [e]; simp⟩
  exact (c85_object_partial w n me kids realm root [b, x] [] o ha hc hf hw hlen hl).1 (Or.inl hx)

/-- **C85.**  The address of the browser itself: the list of its objects or, for a text, the first directory among its
children that has the file. -/
theorem c85_page (w : World) (n me : Nat) (kids : List Obj) (realm : Option Nat) (root : List Obj) (ha : Allowed w realm) :
    (w.text = false → serve w (n + 1) me kids realm root [] = some (.list me)) ∧
    (w.text = true → ∀ pre d post, kids = pre ++ d :: post → w.kind d.id = .directory → w.hasFile d.id = true →
      (∀ c ∈ pre, w.kind c.id = .directory → w.hasFile c.id = false) →
      serve w (n + 1) me kids realm root [] = some (.object d.id [])) ∧
    (w.text = true → (∀ c ∈ kids, w.kind c.id = .directory → w.hasFile c.id = false) →
      serve w (n + 1) me kids realm root [] = some .notFound) := by
  have e : serve w (n + 1) me kids realm root [] = some (if w.text then directories w kids else .list me) := by
    rw [serve_allowed _ _ _ _ _ _ _ ha]; rfl
  have skip : ∀ (pre rest : List Obj), (∀ c ∈ pre, w.kind c.id = .directory → w.hasFile c.id = false) →
      directories w (pre ++ rest) = directories w rest := by
    intro pre rest h
    induction pre with
    | nil => rfl
    | cons c pre ih =>
      rw [List.cons_append, directories]
      have h2 := ih (fun d hd => h d (by simp [hd]))
      cases hk : w.kind c.id with
      | directory => simp only [h c (by simp) hk, Bool.false_eq_true, if_false, h2]
      | browser _ _ => exact h2
      | exported => exact h2
      | plain => exact h2
  rw [e]
  refine ⟨fun h => by simp [h], fun h pre d post ek hk hh hp => ?_, fun h hp => ?_⟩
  · rw [ek, skip pre _ hp, directories, hk]; simp [h, hh]
  · have := skip kids [] hp
    rw [List.append_nil] at this
    rw [this]; simp [h, directories]

/-- **C85, a name which is not there, after a dot, is the page of the browser.**  Not 404. -/
theorem c85_dot_fails (w : World) (n me : Nat) (kids : List Obj) (realm : Option Nat) (root : List Obj) (x : List Char)
    (ha : Allowed w realm) (hf : sizeObjs root ≤ w.fuel) (hx : Words [x]) (hlen : x.length + 1 < 4294967296)
    (hno : ∀ o ∈ root, o.name ≠ some x) (ht : w.text = false) :
    serve w (n + 1) me kids realm root ('.' :: x) = some (.list me) := by
  have e1 : findPath w.fuel ('.' :: x) false root = some none := by
    have h1 := c61_leading_dot [x] hx hlen w.fuel false root
    have h2 := (c07_single_name w.fuel x hx (by omega) root hf).1
    have h3 : root.find? (fun o => o.name == some x) = none := by
      rw [List.find?_eq_none]; intro o ho; simpa using hno o ho
    rw [h3] at h2
    exact h1.trans h2
  have e2 : cutLast ('.' :: x) = some ([], x) := cutLast_dot [] x (hx.2 x (by simp)).2
  rw [serve_allowed _ _ _ _ _ _ _ ha]
  have e3 : findTarget w.fuel root (('.' :: x).length + 1) ('.' :: x) [] = some (some (.inl ()), x) := by
    simp only [findTarget, findReference, List.length_cons, Nat.zero_lt_succ, gt_iff_lt, if_true, e1, Option.map_some, Option.map_none,
      Option.bind_some, e2, List.length_nil, if_false, Nat.lt_irrefl]
  rw [e3]; simp [ht]

private theorem serve_any (w : World) (hb : ∀ i realm root, w.kind i = .browser realm root → sizeObjs root ≤ w.fuel) : ∀ (n me : Nat)
    (kids : List Obj) (realm : Option Nat) (root : List Obj) (path : List Char), sizeObjs root ≤ w.fuel → path.length < n →
    ∃ a, serve w n me kids realm root path = some a ∧
      (∀ i rest, a = .object i rest → ∃ o, o.id = i ∧ (Shown w.kind root o ∨ o ∈ kids)) ∧
      (∀ i, a = .dump i → ∃ o, o.id = i ∧ Shown w.kind root o) ∧
      (∀ i, a = .list i → i = me ∨ ∃ o, o.id = i ∧ Shown w.kind root o) ∧
      (∀ i, a = .denied i → (i = me ∧ ¬ Allowed w realm) ∨
        ∃ o realm' root', o.id = i ∧ Shown w.kind root o ∧ w.kind i = .browser realm' root' ∧ ¬ Allowed w realm') := by
  have dirs : ∀ (kids : List Obj), (∃ o ∈ kids, directories w kids = .object o.id []) ∨ directories w kids = .notFound := by
    intro kids
    induction kids with
    | nil => exact Or.inr rfl
    | cons c kids ih =>
      have ih' : (∃ o ∈ c :: kids, directories w kids = .object o.id []) ∨ directories w kids = .notFound := by
        rcases ih with ⟨o, h1, h2⟩ | h
        · exact Or.inl ⟨o, by simp [h1], h2⟩
        · exact Or.inr h
      rw [directories]
      cases hk : w.kind c.id with
      | directory =>
        cases hh : w.hasFile c.id with
        | true => exact Or.inl ⟨c, by simp, by simp⟩
        | false => simpa using ih'
      | browser _ _ => exact ih'
      | exported => exact ih'
      | plain => exact ih'
  intro n
  induction n with
  | zero => intro _ _ _ _ path _ h; omega
  | succ n ih =>
    intro me kids realm root path hf hn
    by_cases ha : Allowed w realm
    · rw [serve_allowed _ _ _ _ _ _ _ ha]
      obtain ⟨t, r, e, h⟩ := target_any (Shown w.kind root) w.fuel root hf (fun o ho => by
        obtain ⟨k, hk, hm⟩ := preorders_below root o ho
        exact .here hk hm) (path.length + 1) path [] (by omega)
      rw [e]
      simp only [Option.bind_some]
      have self : ∃ a, some (if w.text then directories w kids else .list me) = some a ∧
          (∀ i rest, a = .object i rest → ∃ o, o.id = i ∧ (Shown w.kind root o ∨ o ∈ kids)) ∧
          (∀ i, a = .dump i → ∃ o, o.id = i ∧ Shown w.kind root o) ∧
          (∀ i, a = .list i → i = me ∨ ∃ o, o.id = i ∧ Shown w.kind root o) ∧
          (∀ i, a = .denied i → (i = me ∧ ¬ Allowed w realm) ∨
            ∃ o realm' root', o.id = i ∧ Shown w.kind root o ∧ w.kind i = .browser realm' root' ∧ ¬ Allowed w realm') := by
        refine ⟨_, rfl, ?_⟩
        cases w.text with
        | false =>
          simp only [Bool.false_eq_true, if_false]
          exact ⟨fun _ _ h => by simp at h, fun _ h => by simp at h, fun i h => Or.inl (by simpa using h.symm),
            fun _ h => by simp at h⟩
        | true =>
          simp only [if_true]
          rcases dirs kids with ⟨o, h1, h2⟩ | h2 <;> rw [h2]
          · exact ⟨fun i rest h => ⟨o, by simp at h; exact h.1, Or.inr h1⟩, fun _ h => by simp at h, fun _ h => by simp at h,
              fun _ h => by simp at h⟩
          · exact ⟨fun _ _ h => by simp at h, fun _ h => by simp at h, fun _ h => by simp at h, fun _ h => by simp at h⟩
      match t, h with
      | none, _ =>
        exact ⟨_, rfl, fun _ _ h => by simp at h, fun _ h => by simp at h, fun _ h => by simp at h, fun _ h => by simp at h⟩
      | some (.inl ()), _ => exact self
      | some (.inr o), h =>
        obtain ⟨hs, hl⟩ := h o rfl
        simp only [List.length_nil, if_true, Nat.add_zero] at hl
        simp only
        cases hk : w.kind o.id with
        | exported =>
          exact ⟨_, rfl, fun i rest h => ⟨o, by simp at h; exact h.1, Or.inl hs⟩, fun _ h => by simp at h, fun _ h => by simp at h,
            fun _ h => by simp at h⟩
        | directory =>
          exact ⟨_, rfl, fun i rest h => ⟨o, by simp at h; exact h.1, Or.inl hs⟩, fun _ h => by simp at h, fun _ h => by simp at h,
            fun _ h => by simp at h⟩
        | plain =>
          refine ⟨_, rfl, ?_⟩
          cases w.text with
          | true => simp only [if_true]
                    exact ⟨fun _ _ h => by simp at h, fun _ h => by simp at h, fun _ h => by simp at h, fun _ h => by simp at h⟩
          | false =>
            simp only [Bool.false_eq_true, if_false]
            exact ⟨fun _ _ h => by simp at h, fun i h => ⟨o, by simp at h; exact h, hs⟩, fun _ h => by simp at h, fun _ h => by simp at h⟩
        | browser realm' root' =>
          simp only
          by_cases hme : o.id = me
          · rw [if_pos hme]; exact self
          · rw [if_neg hme]
            obtain ⟨a, ea, h1, h2, h3, h4⟩ := ih o.id (o.kids?.getD []) realm' root' r (hb _ _ _ hk) (by omega)
            refine ⟨a, ea, ?_, ?_, ?_, ?_⟩
            · intro i rest e
              obtain ⟨x, hx, hy⟩ := h1 i rest e
              refine ⟨x, hx, Or.inl ?_⟩
              rcases hy with hy | hy
              · exact .through hs hk hy
              · cases hkk : o.kids? with
                | none => rw [hkk] at hy; simp at hy
                | some ks => rw [hkk] at hy; exact .inside hs hkk hy
            · intro i e
              obtain ⟨x, hx, hy⟩ := h2 i e
              exact ⟨x, hx, .through hs hk hy⟩
            · intro i e
              rcases h3 i e with h | ⟨x, hx, hy⟩
              · exact Or.inr ⟨o, h.symm, hs⟩
              · exact Or.inr ⟨x, hx, .through hs hk hy⟩
            · intro i e
              rcases h4 i e with ⟨h, hna⟩ | ⟨x, r2, t2, hx, hy, hz, hna⟩
              · exact Or.inr ⟨o, realm', root', h.symm, hs, by rw [h]; exact hk, hna⟩
              · exact Or.inr ⟨x, r2, t2, hx, .through hs hk hy, hz, hna⟩
    · cases realm with
      | none => exact absurd (fun r h => by simp at h) ha
      | some r =>
        have hr : w.allow r = false := by
          cases h : w.allow r with
          | false => rfl
          | true => exact absurd (fun r' h' => by cases h'; exact h) ha
        rw [c85_denied w n me r kids root path hr]
        exact ⟨_, rfl, fun _ _ h => by simp at h, fun _ h => by simp at h, fun _ h => by simp at h,
          fun i h => Or.inl ⟨by simpa using h.symm, ha⟩⟩

/-- **C85.**  For every path, with any dots and letters, and even when browsers show each other or themselves, a request
is answered after finitely many steps; an object that answers is one that the browser shows or one of its children, and
a request is only refused by a realm, of the browser or of one it shows, that refuses it. -/
theorem c85_confined (w : World) (hb : ∀ i realm root, w.kind i = .browser realm root → sizeObjs root ≤ w.fuel) (n me : Nat)
    (kids : List Obj) (realm : Option Nat) (root : List Obj) (path : List Char) (hf : sizeObjs root ≤ w.fuel) (hn : path.length < n) :
    ∃ a, serve w n me kids realm root path = some a ∧
      (∀ i rest, a = .object i rest → ∃ o, o.id = i ∧ (Shown w.kind root o ∨ o ∈ kids)) ∧
      (∀ i, a = .dump i → ∃ o, o.id = i ∧ Shown w.kind root o) ∧
      (∀ i, a = .list i → i = me ∨ ∃ o, o.id = i ∧ Shown w.kind root o) ∧
      (∀ i, a = .denied i → (i = me ∧ ¬ Allowed w realm) ∨
        ∃ o realm' root', o.id = i ∧ Shown w.kind root o ∧ w.kind i = .browser realm' root' ∧ ¬ Allowed w realm') :=
  serve_any w hb n me kids realm root path hf hn

/-! A web root 0 with a page 1, a browser 2 protected by the realm 7, which holds the page 3 and a plain object 4. -/

private def inner : List Obj := [.leaf 3 (some ['S']), .leaf 4 (some ['Q'])]
private def web : List Obj := [.leaf 1 (some ['A']), .cont 2 (some ['P']) inner]
private def world (text allowed : Bool) : World :=
  { kind := fun i => if i = 2 then .browser (some 7) inner else if i = 1 ∨ i = 3 then .exported else .plain
    allow := fun _ => allowed, hasFile := fun _ => false, text := text, fuel := 20 }

private theorem below_web (k : List Obj) (h : Below web k) : k = web ∨ k = inner := by
  induction h with
  | self => exact Or.inl rfl
  | child _ hm hk ih =>
    rcases ih with rfl | rfl
    · simp only [web, List.mem_cons, List.not_mem_nil, or_false] at hm
      rcases hm with rfl | rfl <;> simp [Obj.kids?] at hk
      exact Or.inr hk.symm
    · simp only [inner, List.mem_cons, List.not_mem_nil, or_false] at hm
      rcases hm with rfl | rfl <;> simp [Obj.kids?] at hk

/-- The hypotheses are met. -/
example : Clear web := by
  refine ⟨?_, ?_, ?_⟩
  · intro k hk o ho
    rcases below_web k hk with rfl | rfl <;> simp only [web, inner, List.mem_cons, List.not_mem_nil, or_false] at ho <;>
      rcases ho with rfl | rfl <;> rfl
  · intro k hk a ha b hb e
    rcases below_web k hk with rfl | rfl <;> simp only [web, inner, List.mem_cons, List.not_mem_nil, or_false] at ha hb <;>
      rcases ha with rfl | rfl <;> rcases hb with rfl | rfl <;> simp [Obj.name] at e ⊢
  · intro k hk c hc d hd e
    rcases below_web k hk with rfl | rfl
    · rfl
    · simp only [web, inner, List.mem_cons, List.not_mem_nil, or_false] at hc hd
      rcases hc with rfl | rfl <;> rcases hd with rfl | rfl <;> simp [Obj.name] at e

example : sizeObjs web ≤ (world true false).fuel := by decide
example : serve (world true false) 9 0 web none web "P".toList = some (.denied 2) := by decide +kernel
example : serve (world true false) 9 0 web none web "P.S.x.y".toList = some (.object 3 "x.y".toList) := by decide +kernel
example : serve (world false true) 9 0 web none web "P.Q.x".toList = some (.dump 4) := by decide +kernel
example : serve (world true true) 9 0 web none web "P.zz".toList = some .notFound := by decide +kernel
example : serve (world false true) 9 0 web none web ".zz".toList = some (.list 0) := by decide +kernel

end Verif.Web
