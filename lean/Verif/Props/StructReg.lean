import Verif.Spec.StructReg
import Verif.Proof.StructDecl
/-!
# C113: types registered from data
-/
set_option linter.unusedSimpArgs false
set_option linter.unusedVariables false
namespace Verif.StructReg
open Verif.Spec.StructReg Verif.Token

/-! ## Names -/

private theorem loop_word (term : List Char) : ∀ (w rest out : List Char) (k : Nat), (∀ c ∈ w, c ∉ term) → '\x00' ∉ w →
    k + w.length < 2 ^ 32 → getTokenLoop term term (w ++ rest) k out = getTokenLoop term term rest (k + w.length) (out ++ w)
  | [], rest, out, k, _, _, _ => by simp
  | c :: w, rest, out, k, h, h0, hk => by
    have hc : c ∉ term := h c List.mem_cons_self
    have hz : c ≠ '\x00' := fun e => h0 (e ▸ List.mem_cons_self)
    have hs : searchChar term c = false := by
      unfold searchChar
      simp [hc, hz]
    have hz' : (c == '\x00') = false := by simp [hz]
    simp only [List.length_cons] at hk
    rw [List.cons_append, getTokenLoop, hs, hz']
    simp only [Bool.or_self, Bool.false_eq_true, if_false, Bool.not_false, if_true]
    rw [Nat.mod_eq_of_lt (by omega), loop_word term w rest (out ++ [c]) (k + 1) (fun x hx => h x (List.mem_cons_of_mem _ hx))
      (fun hx => h0 (List.mem_cons_of_mem _ hx)) (by omega)]
    simp only [List.append_assoc, List.singleton_append, List.length_cons]
    congr 1; omega

private theorem tok_end (t : Char) (w : List Char) (hw : w ≠ []) (h : t ∉ w) (h0 : '\x00' ∉ w) (hl : w.length < 2 ^ 31) :
    getToken [t] none w = ⟨true, w, '\x00', []⟩ := by
  have := loop_word [t] w [] [] 0 (fun c hc => by simp; rintro rfl; exact h hc) h0 (by omega)
  rw [List.append_nil] at this
  rw [getToken, Option.getD_none, this, getTokenLoop]
  have : 0 < w.length := List.length_pos_iff.mpr hw
  have e : (0 + w.length != 0) = true := by simp; exact hw
  rw [e]; simp

private theorem tok_stop (t : Char) (w rest : List Char) (hw : w ≠ []) (h : t ∉ w) (h0 : '\x00' ∉ w) (hl : w.length < 2 ^ 31) :
    getToken [t] none (w ++ t :: rest) = ⟨true, w, t, rest⟩ := by
  have := loop_word [t] w (t :: rest) [] 0 (fun c hc => by simp; rintro rfl; exact h hc) h0 (by omega)
  rw [getToken, Option.getD_none, this, getTokenLoop]
  have e : (0 + w.length != 0) = true := by simp; exact hw
  have e2 : searchChar [t] t = true := by simp [searchChar]
  rw [e, e2]; simp

private theorem base_clean (n : Text) (h : Clean n) : baseOf n = n ∧ (getToken ['['] none n).ok = true := by
  obtain ⟨h1, h2, h3, h4, h5⟩ := h
  have := tok_end '[' n h1 h2 h4 h5
  simp [baseOf, this]

private theorem elem_shape (n d : List Char) : n ++ ['['] ++ d ++ [']'] = n ++ '[' :: (d ++ [']']) := by simp

private theorem base_elem (n d : Text) (h : Clean n) : baseOf (n ++ ['['] ++ d ++ [']']) = n ∧
    (getToken ['['] none (n ++ ['['] ++ d ++ [']'])).ok = true := by
  obtain ⟨h1, h2, h3, h4, h5⟩ := h
  rw [elem_shape]
  have := tok_stop '[' n (d ++ [']']) h1 h2 h4 h5
  simp [baseOf, this]

private theorem typeName_eq (n tid x : Text) (h : baseOf x = n) : typeName x tid = nameOfType n tid := by
  unfold typeName nameOfType
  rw [h]

private theorem digits_value (t : List Char) (ht : ∀ c ∈ t, 48 ≤ c.toNat ∧ c.toNat ≤ 57) : ∀ (a : Nat),
    Spec.IntText.digitsValue (a : Int) (bytes t) = ((t.foldl (fun a c => 10 * a + (c.toNat - 48)) a : Nat) : Int) := by
  induction t with
  | nil => intro a; rfl
  | cons c t ih =>
    intro a
    have hc := ht c List.mem_cons_self
    have e : (UInt8.ofNat c.toNat).toNat = c.toNat := by rw [UInt8.toNat_ofNat']; exact Nat.mod_eq_of_lt (by omega)
    have := ih (fun x hx => ht x (List.mem_cons_of_mem _ hx)) (10 * a + (c.toNat - 48))
    rw [List.foldl_cons, ← this]
    show Spec.IntText.digitsValue (10 * (a : Int) + (((UInt8.ofNat c.toNat).toNat : Int) - 48)) (bytes t) = _
    rw [e]
    congr 1
    omega

private theorem numeral_read (n : Nat) (hn : n < 2 ^ 32) (t : List Char) (h : IsNumeral n t) : StructDecl.readNat (bytes t) = some n := by
  obtain ⟨h1, h2, h3, h4⟩ := h
  apply StructDecl.readNat_decimal n hn
  refine ⟨bytes t, ?_, ?_, ?_, ?_, ?_⟩
  · rw [if_neg (by omega)]; rfl
  · intro c hc
    obtain ⟨d, hd, rfl⟩ := List.mem_map.mp hc
    have := h2 d hd
    unfold Spec.IntText.IsDigit
    have e : (UInt8.ofNat d.toNat).toNat = d.toNat := by rw [UInt8.toNat_ofNat']; exact Nat.mod_eq_of_lt (by omega)
    rw [e]; exact this
  · simpa [bytes] using h1
  · have := digits_value t h2 0
    rw [h3] at this
    rw [show (0 : Int) = ((0 : Nat) : Int) from rfl, this]; simp
  · intro hh
    cases t with
    | nil => exact absurd rfl h1
    | cons c t =>
      have hc := h2 c List.mem_cons_self
      simp only [bytes, List.map_cons, List.head?_cons, Option.some.injEq] at hh
      have e : (UInt8.ofNat c.toNat).toNat = c.toNat := by rw [UInt8.toNat_ofNat']; exact Nat.mod_eq_of_lt (by omega)
      have e2 : c.toNat = 48 := by rw [← e, hh]; rfl
      have e3 : c = '0' := by apply Char.toNat_inj.mp; rw [e2]; rfl
      have := h4 (by rw [e3]; rfl)
      rw [this]; rfl

variable {num : Nat → List Char}

private theorem scan_elem (hnum : ∀ k, k < 2 ^ 31 → IsNumeral k (num k) ∧ (num k).length < 2 ^ 31) (n : Text) (h : Clean n) (k : Nat)
    (hk : k < 2 ^ 31) : scanOne n (n ++ ['['] ++ num k ++ [']']) = some (some k) := by
  obtain ⟨h1, h2, h3, h4, h5⟩ := h
  obtain ⟨hd, hl⟩ := hnum k hk
  have hch : ∀ c ∈ num k, c ≠ ']' ∧ c ≠ '\x00' := by
    intro c hc
    have := hd.2.1 c hc
    constructor <;> (rintro rfl; revert this; decide)
  rw [elem_shape, scanOne, tok_stop '[' n (num k ++ [']']) h1 h2 h4 h5]
  simp only [decide_true, Bool.and_self, if_true]
  rw [tok_stop ']' (num k) [] hd.1 (fun hx => (hch _ hx).1 rfl) (fun hx => (hch _ hx).2 rfl) hl]
  simp only [if_true]
  rw [numeral_read k (by omega) _ hd]
  rfl

private theorem scan_elems (hnum : ∀ k, k < 2 ^ 31 → IsNumeral k (num k) ∧ (num k).length < 2 ^ 31) (n : Text) (h : Clean n) :
    ∀ (others : List (Text × Kids)) (i : Nat), i + others.length < 2 ^ 31 + 1 →
      scan n (elementsFrom num n i others .nil) i = some (i + others.length, others.length)
  | [], i, _ => by simp [elementsFrom, scan]
  | (tid, k) :: others, i, hi => by
    simp only [List.length_cons] at hi
    rw [elementsFrom, scan, scan_elem hnum n h i (by omega)]
    simp only
    rw [Nat.mod_eq_of_lt (by omega), scan_elems hnum n h others (i + 1) (by omega)]
    simp only [Option.map_some, List.length_cons, Option.some.injEq, Prod.mk.injEq, and_true]
    omega

private theorem reg_skip (tn : Text) (n : Text) (after : Kids) (tbl : Table) : ∀ (others : List (Text × Kids)) (i : Nat),
    regKids tn (elementsFrom num n i others after) others.length tbl = regKids tn after 0 tbl
  | [], i => rfl
  | (tid, k) :: others, i => by rw [elementsFrom, List.length_cons, regKids, reg_skip tn n after tbl others]

/-! ## Types -/

private theorem addEntry_at (tn : Text) (e : Entry) : ∀ (pre : Table) (es : List Entry) (post : Table), tn ∉ pre.map (·.1) →
    e.name ∉ es.map (·.name) → addEntry tn e (pre ++ (tn, es) :: post) = some (pre ++ (tn, es ++ [e]) :: post)
  | [], es, post, _, h => by rw [List.nil_append, addEntry, if_pos rfl, if_neg h]; rfl
  | (n, xs) :: pre, es, post, hp, h => by
    simp only [List.map_cons, List.mem_cons, not_or] at hp
    rw [List.cons_append, addEntry, if_neg (fun e => hp.1 e.symm), addEntry_at tn e pre es post hp.2 h]
    rfl

private def namesOf (t : Table) : List Text := t.map (·.1)

private theorem namesOf_append (a b : Table) : namesOf (a ++ b) = namesOf a ++ namesOf b := List.map_append

private theorem names_mid (pre : Table) (tn : Text) (es es' : List Entry) (mid : Table) :
    namesOf (pre ++ (tn, es) :: mid) = namesOf (pre ++ (tn, es') :: mid) := by simp [namesOf]

private theorem reg_ok (hnum : ∀ k, k < 2 ^ 31 → IsNumeral k (num k) ∧ (num k).length < 2 ^ 31) : ∀ (ms : Members) (tn : Text) (pre : Table) (es : List Entry) (mid : Table),
    StructLast ms → WellNamed ms → (∀ e ∈ es, e.name ∉ (entries ms).map (·.name)) → (namesOf (pre ++ (tn, es) :: mid)).Nodup →
    regKids tn (data num ms) 0 (pre ++ (tn, es) :: mid) =
      if (namesOf (pre ++ (tn, es) :: mid) ++ namesOf (inner ms)).Nodup then some (pre ++ (tn, es ++ entries ms) :: (mid ++ inner ms)) else none := by
  have notin : ∀ (pre : Table) (tn : Text) (es : List Entry) (mid : Table), (namesOf (pre ++ (tn, es) :: mid)).Nodup → tn ∉ pre.map (·.1) := by
    intro pre tn es mid h
    rw [namesOf_append, List.nodup_append] at h
    intro hx
    exact h.2.2 tn hx tn (by simp [namesOf]) rfl
  -- a structure of type `ty` with the members `body`, as the last member
  have struct : ∀ (body : Members) (n ty : Text) (cnt : Nat),
      (∀ (tn : Text) (pre : Table) (es : List Entry) (mid : Table),
        StructLast body → WellNamed body → (∀ e ∈ es, e.name ∉ (entries body).map (·.name)) → (namesOf (pre ++ (tn, es) :: mid)).Nodup →
        regKids tn (data num body) 0 (pre ++ (tn, es) :: mid) =
          if (namesOf (pre ++ (tn, es) :: mid) ++ namesOf (inner body)).Nodup then some (pre ++ (tn, es ++ entries body) :: (mid ++ inner body)) else none) →
      StructLast body → WellNamed body → ∀ (tn : Text) (pre : Table) (es : List Entry) (mid : Table), n ∉ es.map (·.name) →
      (namesOf (pre ++ (tn, es) :: mid)).Nodup →
      (match create ty (pre ++ (tn, es) :: mid) with
        | none => none
        | some tbl =>
          match regKids ty (data num body) 0 tbl with
          | none => none
          | some tbl =>
            match addEntry tn ⟨n, ty, [cnt]⟩ tbl with
            | none => none
            | some tbl => some tbl) =
      if (namesOf (pre ++ (tn, es) :: mid) ++ namesOf ((ty, entries body) :: inner body)).Nodup then
        some (pre ++ (tn, es ++ [⟨n, ty, [cnt]⟩]) :: (mid ++ (ty, entries body) :: inner body)) else none := by
    intro body n ty cnt ih hb hw tn pre es mid hn hd
    unfold create
    by_cases hin : ty ∈ (pre ++ (tn, es) :: mid).map (·.1)
    · rw [if_pos hin, if_neg]
      intro hnd
      rw [List.nodup_append] at hnd
      exact hnd.2.2 ty hin ty (by simp [namesOf]) rfl
    · rw [if_neg hin]
      simp only
      have hd2 : (namesOf ((pre ++ (tn, es) :: mid) ++ (ty, []) :: [])).Nodup := by
        rw [namesOf_append, List.nodup_append]
        refine ⟨hd, by simp [namesOf], ?_⟩
        intro a ha b hb' hab
        simp only [namesOf, List.map_cons, List.map_nil, List.mem_singleton] at hb'
        subst hb'; subst hab
        exact hin ha
      rw [ih ty (pre ++ (tn, es) :: mid) [] [] hb hw (by simp) hd2]
      have enames : namesOf ((pre ++ (tn, es) :: mid) ++ [(ty, [])]) ++ namesOf (inner body) =
          namesOf (pre ++ (tn, es) :: mid) ++ namesOf ((ty, entries body) :: inner body) := by
        simp [namesOf]
      rw [enames]
      by_cases hnd : (namesOf (pre ++ (tn, es) :: mid) ++ namesOf ((ty, entries body) :: inner body)).Nodup
      · rw [if_pos hnd, if_pos hnd]
        simp only [List.nil_append]
        have e3 : pre ++ (tn, es) :: mid ++ (ty, entries body) :: inner body = pre ++ (tn, es) :: (mid ++ (ty, entries body) :: inner body) := by simp
        rw [e3, addEntry_at tn ⟨n, ty, [cnt]⟩ pre es _ (notin pre tn es mid hd) hn]
      · rw [if_neg hnd, if_neg hnd]
  intro ms
  induction ms with
  | nil =>
    intro tn pre es mid _ _ _ hd
    rw [data, regKids, if_pos (by simpa [inner, namesOf] using hd)]
    simp [entries, inner]
  | value n t d rest ih =>
    intro tn pre es mid hl hw he hd
    obtain ⟨hc, hn, hw⟩ := hw
    rw [data, regKids]
    have hne : n ∉ es.map (·.name) := by
      intro hx
      obtain ⟨e, h1, h2⟩ := List.mem_map.mp hx
      exact he e h1 (by rw [h2]; simp [entries])
    rw [addEntry_at tn ⟨n, t, valueElems d⟩ pre es mid (notin pre tn es mid hd) hne]
    simp only
    rw [ih tn pre (es ++ [(⟨n, t, valueElems d⟩ : Entry)]) mid hl hw ?_ (by rw [names_mid pre tn _ es mid]; exact hd)]
    · rw [names_mid pre tn _ es mid]
      simp only [inner, entries, List.append_assoc, List.singleton_append]
      rfl
    · intro e hx
      rcases List.mem_append.mp hx with hx | hx
      · intro h; exact he e hx (by simp only [entries, List.map_cons]; exact List.mem_cons_of_mem _ h)
      · rw [List.mem_singleton] at hx; rw [hx]; exact hn
  | ident n rest ih =>
    intro tn pre es mid hl hw he hd
    rw [data, regKids]
    exact ih tn pre es mid hl hw he hd
  | struct n tid body rest ihb ihr =>
    intro tn pre es mid hl hw he hd
    obtain ⟨hlb, rfl⟩ := hl
    obtain ⟨hc, -, hwb, -⟩ := hw
    have hb := base_clean n hc
    have hne : n ∉ es.map (·.name) := by
      intro hx
      obtain ⟨e, h1, h2⟩ := List.mem_map.mp hx
      exact he e h1 (by rw [h2]; simp [entries])
    rw [data, regKids]
    have hel : elements n (data num .nil) = some (1, 0) := by
      unfold elements; rw [if_pos hb.2]; rfl
    rw [hel, hb.1, typeName_eq n tid n hb.1]
    simp only [data, regKids]
    refine (struct body n (nameOfType n tid) 1 ihb hlb hwb tn pre es mid hne hd).trans ?_
    simp only [inner, entries, List.append_nil]
  | array n tid body others rest ihb ihr =>
    intro tn pre es mid hl hw he hd
    obtain ⟨hlb, rfl⟩ := hl
    obtain ⟨hc, -, ho, hwb, -⟩ := hw
    have hb := base_elem n (num 0) hc
    have hne : n ∉ es.map (·.name) := by
      intro hx
      obtain ⟨e, h1, h2⟩ := List.mem_map.mp hx
      exact he e h1 (by rw [h2]; simp [entries])
    rw [data, regKids]
    have hel : elements (n ++ ['['] ++ num 0 ++ [']']) (elementsFrom num n 1 others (data num .nil)) = some (others.length + 1, others.length) := by
      unfold elements
      rw [if_pos hb.2, hb.1, data, scan_elems hnum n hc others 1 (by omega), Nat.add_comm]
    rw [hel, hb.1, typeName_eq n tid _ hb.1]
    simp only [reg_skip, data, regKids]
    refine (struct body n (nameOfType n tid) (others.length + 1) ihb hlb hwb tn pre es mid hne hd).trans ?_
    simp only [inner, entries, List.append_nil]

/-- The name of the type of the whole. -/
private def rootType (name : Option Text) (typeId : Text) : Text :=
  if typeId = [] then "AutoGenerated".toList ++ name.getD "Root".toList else typeId

private theorem register_eq (name : Option Text) (typeId : Text) (kids : Kids) (hn : ∀ n, name = some n → Clean n) :
    register name typeId kids = regKids (rootType name typeId) kids 0 [(rootType name typeId, [])] := by
  unfold register rootType
  cases name with
  | none => rfl
  | some n =>
    simp only [(base_clean n (hn n rfl)).1]
    rfl

/-- **C113 (partial).** Where structures are the last members, one type is made for each structure, with its members in their order,
their types and numbers of elements; the registration is refused if and only if two of the types have the same name.  For
structures followed by other members see `c113_dropped_fails`. -/
theorem c113_types_partial (hnum : ∀ k, k < 2 ^ 31 → IsNumeral k (num k) ∧ (num k).length < 2 ^ 31) (name : Option Text) (typeId : Text)
    (hn : ∀ n, name = some n → Clean n) (ms : Members) (hl : StructLast ms) (hw : WellNamed ms) :
    ∃ root, root = (if typeId = [] then "AutoGenerated".toList ++ name.getD "Root".toList else typeId) ∧
      register name typeId (data num ms) =
        if (root :: (inner ms).map (·.1)).Nodup then some ((root, entries ms) :: inner ms) else none := by
  refine ⟨rootType name typeId, rfl, ?_⟩
  rw [register_eq name typeId _ hn]
  have := reg_ok hnum ms (rootType name typeId) [] [] [] hl hw (by simp) (by simp [namesOf])
  rw [List.nil_append] at this
  rw [this]
  rfl

private theorem entry_type : ∀ (ms : Members) (e : Entry), e ∈ entries ms → e.type ∈ valueTypes ms ∨ e.type ∈ (inner ms).map (·.1)
  | .nil, e, h => by cases h
  | .value n t d rest, e, h => by
    rcases List.mem_cons.mp h with rfl | h
    · exact .inl List.mem_cons_self
    · exact (entry_type rest e h).imp (List.mem_cons_of_mem _) id
  | .ident n rest, e, h => entry_type rest e h
  | .struct n tid body rest, e, h => by
    rcases List.mem_cons.mp h with rfl | h
    · exact .inr (by simp [inner])
    · rcases entry_type rest e h with h | h
      · exact .inl (List.mem_append_right _ h)
      · exact .inr (by simp only [inner, List.map_append]; exact List.mem_append_right _ h)
  | .array n tid body _ rest, e, h => by
    rcases List.mem_cons.mp h with rfl | h
    · exact .inr (by simp [inner])
    · rcases entry_type rest e h with h | h
      · exact .inl (List.mem_append_right _ h)
      · exact .inr (by simp only [inner, List.map_append]; exact List.mem_append_right _ h)

private theorem later_type : ∀ (ms : Members) (pre : Table) (T : Text) (es : List Entry) (post : Table), inner ms = pre ++ (T, es) :: post →
    ∀ e ∈ es, e.type ∈ valueTypes ms ∨ e.type ∈ post.map (·.1)
  | .nil, pre, T, es, post, h => by simp [inner] at h
  | .value n t d rest, pre, T, es, post, h => fun e he =>
    (later_type rest pre T es post h e he).imp (List.mem_cons_of_mem _) id
  | .ident n rest, pre, T, es, post, h => later_type rest pre T es post h
  | .struct n tid body rest, pre, T, es, post, h => by
    intro e he
    simp only [inner] at h
    cases pre with
    | nil =>
      simp only [List.nil_append, List.cons_append, List.cons.injEq, Prod.mk.injEq] at h
      obtain ⟨⟨-, rfl⟩, rfl⟩ := h
      rcases entry_type body e he with h | h
      · exact .inl (List.mem_append_left _ h)
      · exact .inr (by rw [List.map_append]; exact List.mem_append_left _ h)
    | cons x pre =>
      simp only [List.cons_append, List.cons.injEq] at h
      rcases List.append_eq_append_iff.mp h.2 with ⟨as, h1, h2⟩ | ⟨as, h1, h2⟩
      · exact (later_type rest as T es post h2 e he).imp (List.mem_append_right _) id
      · cases as with
        | nil =>
          simp only [List.nil_append] at h2
          exact (later_type rest [] T es post h2.symm e he).imp (List.mem_append_right _) id
        | cons y as =>
          simp only [List.cons_append, List.cons.injEq] at h2
          obtain ⟨rfl, rfl⟩ := h2
          rcases later_type body pre T es as h1 e he with h | h
          · exact .inl (List.mem_append_left _ h)
          · exact .inr (by rw [List.map_append]; exact List.mem_append_left _ h)
  | .array n tid body _ rest, pre, T, es, post, h => by
    intro e he
    simp only [inner] at h
    cases pre with
    | nil =>
      simp only [List.nil_append, List.cons_append, List.cons.injEq, Prod.mk.injEq] at h
      obtain ⟨⟨-, rfl⟩, rfl⟩ := h
      rcases entry_type body e he with h | h
      · exact .inl (List.mem_append_left _ h)
      · exact .inr (by rw [List.map_append]; exact List.mem_append_left _ h)
    | cons x pre =>
      simp only [List.cons_append, List.cons.injEq] at h
      rcases List.append_eq_append_iff.mp h.2 with ⟨as, h1, h2⟩ | ⟨as, h1, h2⟩
      · exact (later_type rest as T es post h2 e he).imp (List.mem_append_right _) id
      · cases as with
        | nil =>
          simp only [List.nil_append] at h2
          exact (later_type rest [] T es post h2.symm e he).imp (List.mem_append_right _) id
        | cons y as =>
          simp only [List.cons_append, List.cons.injEq] at h2
          obtain ⟨rfl, rfl⟩ := h2
          rcases later_type body pre T es as h1 e he with h | h
          · exact .inl (List.mem_append_left _ h)
          · exact .inr (by rw [List.map_append]; exact List.mem_append_left _ h)

/-- **C113.** Each type is declared after the types of its members (those that are not types of values). -/
theorem c113_order (hnum : ∀ k, k < 2 ^ 31 → IsNumeral k (num k) ∧ (num k).length < 2 ^ 31) (name : Option Text) (typeId : Text)
    (hn : ∀ n, name = some n → Clean n) (ms : Members) (hl : StructLast ms) (hw : WellNamed ms) (tbl : Table)
    (hr : register name typeId (data num ms) = some tbl) (T : Text) (es : List Entry) (hT : (T, es) ∈ tbl) :
    ∃ before after, declared tbl = before ++ T :: after ∧ ∀ e ∈ es, e.type ∈ valueTypes ms ∨ e.type ∈ before := by
  obtain ⟨root, -, h⟩ := c113_types_partial hnum name typeId hn ms hl hw
  rw [h] at hr
  split at hr
  · simp only [Option.some.injEq] at hr
    subst hr
    rcases List.mem_cons.mp hT with e | hT
    · simp only [Prod.mk.injEq] at e
      obtain ⟨rfl, rfl⟩ := e
      refine ⟨((inner ms).map (·.1)).reverse, [], by simp [declared], ?_⟩
      intro e he
      exact (entry_type ms e he).imp id (List.mem_reverse.mpr)
    · obtain ⟨pre, post, hs⟩ := List.append_of_mem hT
      refine ⟨(post.map (·.1)).reverse, (root :: pre.map (·.1)).reverse, by simp [declared, hs], ?_⟩
      intro e he
      exact (later_type ms pre T es post hs e he).imp id (List.mem_reverse.mpr)
  · cases hr

/-! ## What is wrong -/

/-- **C113 (refuted).** A member that follows a structure is not registered: the types are those of the data without it. -/
theorem c113_dropped_fails (name : Option Text) (typeId : Text) (n tid : Text) (body : Members) (v t : Text) (d : List Nat) (hn : Clean n)
    (hv : Clean v) (hne : v ≠ n) :
    register name typeId (data num (.struct n tid body (.value v t d .nil))) = register name typeId (data num (.struct n tid body .nil)) ∧
    entries (.struct n tid body (.value v t d .nil)) ≠ entries (.struct n tid body .nil) := by
  have hb := base_clean n hn
  have hv' := tok_end '[' v hv.1 hv.2.1 hv.2.2.2.1 hv.2.2.2.2
  have h1 : elements n (data num (.value v t d .nil)) = some (1, 1) := by
    unfold elements
    rw [if_pos hb.2, hb.1, data, scan, scanOne, hv']
    simp [hne]
  have h2 : elements n (data num .nil) = some (1, 0) := by
    unfold elements
    rw [if_pos hb.2]; rfl
  refine ⟨?_, by simp [entries]⟩
  unfold register
  simp only [data, regKids] at h1 h2 ⊢
  rw [h1, h2]
  rfl

private theorem addEntry_names (tn : Text) (e : Entry) : ∀ (tbl tbl' : Table), addEntry tn e tbl = some tbl' → namesOf tbl' = namesOf tbl
  | [], _, h => by cases h
  | (n, es) :: tbl, tbl', h => by
    rw [addEntry] at h
    split at h
    · split at h
      · cases h
      · simp only [Option.some.injEq] at h; subst h; rfl
    · cases h2 : addEntry tn e tbl with
      | none => rw [h2] at h; cases h
      | some t =>
        rw [h2] at h
        simp only [Option.map_some, Option.some.injEq] at h
        subst h
        have := addEntry_names tn e tbl t h2
        simp only [namesOf, List.map_cons] at this ⊢
        rw [this]

private theorem reg_names : ∀ (k : Kids) (tn : Text) (s : Nat) (tbl tbl' : Table), regKids tn k s tbl = some tbl' → ∀ x ∈ namesOf tbl, x ∈ namesOf tbl' := by
  intro k
  induction k with
  | nil => intro tn s tbl tbl' h x hx; simp only [regKids, Option.some.injEq] at h; rw [← h]; exact hx
  | value n t d rest ih =>
    intro tn s tbl tbl' h x hx
    cases s with
    | succ s => exact ih tn s tbl tbl' h x hx
    | zero =>
      rw [regKids] at h
      split at h
      · cases h
      · rename_i t1 h1
        exact ih tn 0 t1 tbl' h x (by rw [addEntry_names _ _ _ _ h1]; exact hx)
  | ident n rest ih =>
    intro tn s tbl tbl' h x hx
    cases s with
    | succ s => exact ih tn s tbl tbl' h x hx
    | zero => exact ih tn 0 tbl tbl' h x hx
  | node n tid kids rest ihk ihr =>
    intro tn s tbl tbl' h x hx
    cases s with
    | succ s => exact ihr tn s tbl tbl' h x hx
    | zero =>
      rw [regKids] at h
      split at h
      · cases h
      · rename_i cnt skip h0
        split at h
        · cases h
        · rename_i t1 h1
          split at h
          · cases h
          · rename_i t2 h2
            split at h
            · cases h
            · rename_i t3 h3
              refine ihr tn skip t3 tbl' h x ?_
              rw [addEntry_names _ _ _ _ h3]
              refine ihk _ 0 t1 t2 h2 x ?_
              unfold create at h1
              split at h1
              · cases h1
              · simp only [Option.some.injEq] at h1
                rw [← h1, namesOf_append]
                exact List.mem_append_left _ hx

/-- **C113 (refuted).** Two members that are structures of the same type are refused. -/
theorem c113_twice_fails (name : Option Text) (typeId : Text) (n n' T : Text) (body body' rest : Members) (v t : Text) (d : List Nat) (hT : T ≠ [])
    (hn : Clean n) (hv : Clean v) (hne : v ≠ n) :
    register name typeId (data num (.struct n T body (.value v t d (.struct n' T body' rest)))) = none := by
  have hb := base_clean n hn
  have hv' := tok_end '[' v hv.1 hv.2.1 hv.2.2.2.1 hv.2.2.2.2
  have ht : ∀ x, typeName x T = T := by intro x; unfold typeName; rw [if_neg hT]
  have h1 : ∀ after, elements n (.value v t d after) = some (1, 1) := by
    intro after
    unfold elements
    rw [if_pos hb.2, hb.1, scan, scanOne, hv']
    simp [hne]
  unfold register
  simp only [data]
  generalize (if typeId = [] then (match name with | none => "AutoGeneratedRoot".toList | some n => "AutoGenerated".toList ++ baseOf n) else typeId) = root
  rw [regKids, h1]
  simp only [ht]
  cases h2 : create T [(root, [])] with
  | none => rfl
  | some t1 =>
    simp only
    cases h3 : regKids T (data num body) 0 t1 with
    | none => rfl
    | some t2 =>
      simp only
      cases h4 : addEntry root ⟨baseOf n, T, [1]⟩ t2 with
      | none => rfl
      | some t3 =>
        simp only
        rw [regKids, regKids]
        have hin : T ∈ namesOf t3 := by
          rw [addEntry_names _ _ _ _ h4]
          refine reg_names _ _ _ _ _ h3 T ?_
          unfold create at h2
          split at h2
          · cases h2
          · simp only [Option.some.injEq] at h2
            rw [← h2]; simp [namesOf]
        split
        · rfl
        · simp only [ht]
          have : create T t3 = none := by unfold create; rw [if_pos]; exact hin
          rw [this]

/-- The usual numerals are numerals. -/
private theorem numerals : ∀ k, k < 2 ^ 31 → IsNumeral k (Nat.toDigits 10 k) ∧ (Nat.toDigits 10 k).length < 2 ^ 31 := by
  have small : ∀ d : Fin 10, 48 ≤ (Nat.digitChar d).toNat ∧ (Nat.digitChar d).toNat ≤ 57 ∧ (Nat.digitChar d).toNat - 48 = d.1 ∧
      (Nat.digitChar d = '0' → d.1 = 0) := by decide
  have key : ∀ k, (Nat.toDigits 10 k) ≠ [] ∧ (∀ c ∈ Nat.toDigits 10 k, 48 ≤ c.toNat ∧ c.toNat ≤ 57) ∧
      (Nat.toDigits 10 k).foldl (fun a c => 10 * a + (c.toNat - 48)) 0 = k ∧ ((Nat.toDigits 10 k).head? = some '0' → k = 0) := by
    intro k
    induction k using Nat.strongRecOn with
    | ind k ih =>
      by_cases hk : k < 10
      · have s := small ⟨k, hk⟩
        rw [Nat.toDigits_of_lt_base hk]
        simp only at s
        refine ⟨by simp, by simpa using ⟨s.1, s.2.1⟩, by simpa using s.2.2.1, by simpa using s.2.2.2⟩
      · have h := ih (k / 10) (by omega)
        have hd : k % 10 < 10 := Nat.mod_lt _ (by decide)
        have s := small ⟨k % 10, hd⟩
        have e := Nat.toDigits_append_toDigits (b := 10) (n := k / 10) (d := k % 10) (by decide) (by omega) hd
        rw [Nat.toDigits_of_lt_base hd, show 10 * (k / 10) + k % 10 = k by omega] at e
        rw [← e]
        simp only at s
        refine ⟨by simp, ?_, ?_, ?_⟩
        · intro c hc
          rcases List.mem_append.mp hc with hc | hc
          · exact h.2.1 c hc
          · rw [List.mem_singleton] at hc; subst hc; exact ⟨s.1, s.2.1⟩
        · rw [List.foldl_append, h.2.2.1]
          simp only [List.foldl_cons, List.foldl_nil, s.2.2.1]
          omega
        · intro hh
          have := h.2.2.2 (by
            cases hx : Nat.toDigits 10 (k / 10) with
            | nil => exact absurd hx h.1
            | cons c t => rw [hx] at hh; exact hh)
          omega
  intro k hk
  obtain ⟨h1, h2, h3, h4⟩ := key k
  refine ⟨⟨h1, h2, h3, fun h => by rw [h4 h]; rfl⟩, ?_⟩
  have : (Nat.toDigits 10 k).length ≤ 10 := (Nat.length_toDigits_le_iff (by decide) (by decide)).mpr (by omega)
  omega

/-- The hypotheses of the theorems are met by these data. -/
example : ∃ ms, StructLast ms ∧ WellNamed ms ∧ (inner ms).length = 2 ∧
    register (some "A".toList) [] (data (Nat.toDigits 10) ms) = some (("AutoGeneratedA".toList, entries ms) :: inner ms) := by
  refine ⟨.value "a".toList "uint32".toList [] (.array "s".toList [] (.value "b".toList "float32".toList [4, 2] (.struct "t".toList "T".toList
        (.value "c".toList "int8".toList [3] .nil) .nil)) [([], .nil), ([], .nil)] .nil), ⟨⟨trivial, rfl⟩, rfl⟩, ?_, rfl, ?_⟩
  · simp [WellNamed, Clean, entries]
  · obtain ⟨root, h1, h2⟩ := c113_types_partial numerals (some "A".toList) [] (by intro n h; cases h; simp [Clean])
      (.value "a".toList "uint32".toList [] (.array "s".toList [] (.value "b".toList "float32".toList [4, 2] (.struct "t".toList "T".toList
        (.value "c".toList "int8".toList [3] .nil) .nil)) [([], .nil), ([], .nil)] .nil)) ⟨⟨trivial, rfl⟩, rfl⟩ (by simp [WellNamed, Clean, entries])
    rw [h2, if_pos (by rw [h1]; decide), h1]
    rfl

/-- Data with a value, an array of three structures with a value and a structure. -/
example : register (some "A".toList) [] (data (Nat.toDigits 10)
      (.value "a".toList "uint32".toList [] (.array "s".toList [] (.value "b".toList "float32".toList [4, 2] (.struct "t".toList "T".toList
        (.value "c".toList "int8".toList [3] .nil) .nil)) [([], .nil), ([], .nil)] .nil))) =
    some [("AutoGeneratedA".toList, [⟨"a".toList, "uint32".toList, [1]⟩, ⟨"s".toList, "AutoGenerateds".toList, [3]⟩]),
      ("AutoGenerateds".toList, [⟨"b".toList, "float32".toList, [4, 2]⟩, ⟨"t".toList, "T".toList, [1]⟩]),
      ("T".toList, [⟨"c".toList, "int8".toList, [3]⟩])] := by decide +kernel

end Verif.StructReg
