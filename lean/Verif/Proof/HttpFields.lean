import Verif.Proof.HttpUrl
import Verif.Model.HttpFields
import Verif.Spec.HttpFields
set_option linter.unusedSimpArgs false
set_option linter.unusedVariables false
set_option maxRecDepth 8000
/-! Proofs for C81. -/
namespace Verif.HttpFields
open Verif.Token (getToken getTokenLoop searchChar Res getLine)
open Verif.Spec.HttpFields
open Verif.HttpUrl (loop_word loop_end word_token word_end skip_term)

/-! ## Lines -/

theorem line_loop (rest : List Char) : ∀ (l out : List Char), OneLine l → out.length + l.length < 2 ^ 32 →
    getTokenLoop ['\n'] ['\r'] (l ++ newLine ++ rest) out.length out = ⟨true, out ++ l, '\n', rest⟩
  | [], out, _, _ => by
    simp [newLine, getTokenLoop, searchChar]
  | x :: l, out, hl, hn => by
    have hx := hl x (by simp)
    simp only [List.mem_cons, List.not_mem_nil, or_false, not_or] at hx
    obtain ⟨h1, h2, h3⟩ := hx
    simp only [List.length_cons] at hn
    have hs : searchChar ['\n'] x = false := by simp [searchChar, h2, h3]
    have hk : searchChar ['\r'] x = false := by simp [searchChar, h1, h3]
    rw [List.cons_append, List.cons_append, getTokenLoop]
    simp only [hs, hk, Bool.false_or, beq_iff_eq, h3, if_false, Bool.not_false, if_true]
    rw [show (out.length + 1) % 2 ^ 32 = (out ++ [x]).length by simp; omega,
      line_loop rest l (out ++ [x]) (fun y hy => hl y (List.mem_cons_of_mem _ hy)) (by simp; omega)]
    simp

theorem line_step (l rest : List Char) (hl : OneLine l) (hn : l.length < 2 ^ 32) :
    getLine true (l ++ newLine ++ rest) = ⟨true, l, '\n', rest⟩ := by
  have := line_loop rest l [] hl (by simpa using hn)
  simpa [getLine, getToken] using this

theorem line_end : getLine true [] = ⟨false, [], '\x00', []⟩ := rfl

/-! ## Header fields -/

theorem skip_blanks (term blank s : List Char) (h : ∀ c ∈ blank, c ∈ term) :
    getToken term none (blank ++ s) = getToken term none s := by
  induction blank with
  | nil => rfl
  | cons c b ih =>
    rw [List.cons_append, skip_term _ _ _ (h c (by simp)), ih (fun x hx => h x (by simp [hx]))]

theorem all_loop : ∀ (s out : List Char), (∀ x ∈ s, x ≠ '\x00') → out.length + s.length < 2 ^ 32 →
    (getTokenLoop [] [] s out.length out).out = out ++ s := by
  intro s out h hl
  rw [loop_end [] s out (fun x hx => ⟨by simp, h x hx⟩) hl]

theorem option_spec (f : Field) (hf : f.Ok) (hl : f.sent.length < 2 ^ 32) :
    storeOption (f.name ++ ':' :: f.blank ++ f.value) = some (f.name, f.value) := by
  obtain ⟨h1, h2, h3, h4, h5⟩ := hf
  unfold Field.sent at hl
  simp only [List.length_append, List.length_cons] at hl
  have hk : getToken [' ', '\t', ':'] none (f.name ++ ':' :: (f.blank ++ f.value)) = ⟨true, f.name, ':', f.blank ++ f.value⟩ := by
    apply word_token _ _ _ _ (by simp) _ h1 (by omega)
    intro x hx
    have := h2 x hx
    simp only [List.mem_cons, List.not_mem_nil, or_false, not_or] at this ⊢
    exact ⟨⟨this.1, this.2.1, this.2.2.1⟩, this.2.2.2.2.2⟩
  have hz : ∀ c ∈ f.value, c ≠ '\x00' := by
    intro c hc h; exact h4 c hc (by simp [h])
  unfold storeOption
  simp only [List.append_assoc, List.cons_append, hk, if_true]
  rw [skip_blanks _ _ _ (by intro c hc; rcases h3 c hc with rfl | rfl <;> simp)]
  rcases h5 with hv | ⟨w, r, hv, hw, hwb, hr⟩
  · rw [hv]; simp [getToken, getTokenLoop]
  · have hwz : ∀ x ∈ w, x ∉ [' ', '\t'] ∧ x ≠ '\x00' := by
      intro x hx
      have := hwb x hx
      exact ⟨by simp [this], hz x (by rw [hv]; simp [hx])⟩
    have hlv : f.value.length = w.length + r.length := by rw [hv]; simp
    rcases hr with hr | ⟨r', hr, hr'⟩
    · subst hr
      rw [List.append_nil] at hv
      rw [hv, word_end _ _ hwz (by omega)]
      simp [getToken, getTokenLoop]
    · subst hr
      rw [hv, word_token _ _ _ _ (by simp) hwz hw (by omega)]
      have hp : r'.length > 0 := List.length_pos_iff.2 hr'
      simp only [List.length_cons] at hlv
      have ha := all_loop r' [] (by intro x hx; exact hz x (by rw [hv]; simp [hx])) (by simp; omega)
      simp only [List.length_nil, List.nil_append] at ha
      simp only [hp, if_true, getToken, Option.getD_none, ha]
      simp

theorem field_line (f : Field) (hf : f.Ok) : OneLine (f.name ++ ':' :: f.blank ++ f.value) := by
  obtain ⟨h1, h2, h3, h4, h5⟩ := hf
  intro c hc
  simp only [List.mem_append, List.mem_cons] at hc
  rcases hc with (hc | hc | hc) | hc
  · have := h2 c hc
    simp only [List.mem_cons, List.not_mem_nil, or_false, not_or] at this ⊢
    exact ⟨this.2.2.2.1, this.2.2.2.2.1, this.2.2.2.2.2⟩
  · subst hc; decide
  · rcases h3 c hc with rfl | rfl <;> decide
  · exact h4 c hc

theorem options_spec (body : List Char) : ∀ (fs : List Field) (fuel : Nat) (w : Writes), (∀ f ∈ fs, f.Ok ∧ f.sent.length < 2 ^ 32) →
    fs.length < fuel →
    optionsLoop fuel (fs.flatMap Field.sent ++ newLine ++ body) w = some (true, w ++ fs.map (fun f => (f.name, f.value)), body)
  | [], fuel + 1, w, _, _ => by
    have := line_step [] body (by intro c hc; simp at hc) (by decide)
    simp only [List.nil_append] at this
    simp [optionsLoop, this]
  | f :: fs, fuel + 1, w, h, hf => by
    obtain ⟨h1, h2⟩ := h f (by simp)
    have e : (f :: fs).flatMap Field.sent ++ newLine ++ body =
        (f.name ++ ':' :: f.blank ++ f.value) ++ newLine ++ (fs.flatMap Field.sent ++ newLine ++ body) := by
      simp [Field.sent, List.append_assoc]
    have hlen : (f.name ++ ':' :: f.blank ++ f.value).length < 2 ^ 32 := by
      simp [Field.sent] at h2 ⊢; omega
    have hls := line_step _ (fs.flatMap Field.sent ++ newLine ++ body) (field_line f h1) hlen
    rw [e, optionsLoop]
    simp only [hls, if_true]
    rw [if_pos (by simp only [List.length_append, List.length_cons]; omega), option_spec f h1 h2,
      options_spec body fs fuel _ (fun g hg => h g (by simp [hg])) (by simpa using hf)]
    simp

/-! ## Searches -/

theorem search_here (sub s : List Char) (h : sub.isPrefixOf s = true) : searchString sub s = some s := by
  cases s <;> simp [searchString, h]

theorem search_absent (sub : List Char) (x : Char) (hx : x ∈ sub) : ∀ s, x ∉ s → searchString sub s = none
  | [], _ => by
    have : sub ≠ [] := by intro h; simp [h] at hx
    cases sub with
    | nil => exact absurd rfl this
    | cons _ _ => simp [searchString, List.isPrefixOf]
  | c :: cs, h => by
    have hn : sub.isPrefixOf (c :: cs) = false := by
      cases hb : sub.isPrefixOf (c :: cs) with
      | false => rfl
      | true =>
        have := (List.isPrefixOf_iff_prefix.1 hb).subset hx
        exact absurd this h
    rw [searchString, hn]
    simp only [Bool.false_eq_true, if_false]
    exact search_absent sub x hx cs (by intro h'; exact h (by simp [h']))

theorem search_none (sub : List Char) : ∀ s, ¬ sub <:+: s → searchString sub s = none
  | [], h => by
    cases sub with
    | nil => exact absurd (List.nil_infix) h
    | cons _ _ => simp [searchString, List.isPrefixOf]
  | c :: cs, h => by
    have hn : sub.isPrefixOf (c :: cs) = false := by
      cases hb : sub.isPrefixOf (c :: cs) with
      | false => rfl
      | true => exact absurd (List.isPrefixOf_iff_prefix.1 hb).isInfix h
    rw [searchString, hn]
    simp only [Bool.false_eq_true, if_false]
    exact search_none sub cs (fun h' => h (h'.trans (List.suffix_cons c cs).isInfix))

/-- The first special characters of a text and of its prefix are the same. -/
theorem first_special (p : Char → Prop) (x y : Char) (v t : List Char) (hx : ¬ p x) (hy : ¬ p y) : ∀ (u w : List Char),
    (∀ c ∈ u, p c) → (∀ c ∈ w, p c) → (u ++ x :: v) <+: (w ++ y :: t) → x = y
  | [], [], _, _, h => by
    rw [List.nil_append, List.nil_append, List.cons_prefix_cons] at h; exact h.1
  | [], c :: w, _, hw, h => by
    rw [List.nil_append, List.cons_append, List.cons_prefix_cons] at h
    exact absurd (h.1 ▸ hw c (by simp)) hx
  | c :: u, [], hu, _, h => by
    rw [List.nil_append, List.cons_append, List.cons_prefix_cons] at h
    exact absurd (h.1 ▸ hu c (by simp)) hy
  | c :: u, d :: w, hu, hw, h => by
    rw [List.cons_append, List.cons_append, List.cons_prefix_cons] at h
    exact first_special p x y v t hx hy u w (fun a ha => hu a (by simp [ha])) (fun a ha => hw a (by simp [ha])) h.2

theorem search_skip (p : Char → Prop) (x y : Char) (u v t : List Char) (hx : ¬ p x) (hy : ¬ p y) (hxy : x ≠ y)
    (hu : ∀ c ∈ u, p c) : ∀ w : List Char, (∀ c ∈ w, p c) →
    searchString (u ++ x :: v) (w ++ y :: t) = searchString (u ++ x :: v) (y :: t)
  | [], _ => rfl
  | c :: w, hw => by
    have hn : (u ++ x :: v).isPrefixOf (c :: (w ++ y :: t)) = false := by
      cases hb : (u ++ x :: v).isPrefixOf (c :: (w ++ y :: t)) with
      | false => rfl
      | true =>
        exact absurd (first_special p x y v t hx hy u (c :: w) hu hw (List.isPrefixOf_iff_prefix.1 hb)) hxy
    rw [List.cons_append, searchString, hn]
    simp only [Bool.false_eq_true, if_false]
    exact search_skip p x y u v t hx hy hxy hu w (fun a ha => hw a (by simp [ha]))

theorem quoted_spec (s t : List Char) (h : '"' ∉ s) : quoted (s ++ '"' :: t) = some s := by
  unfold quoted
  rw [if_pos (by simp), List.takeWhile_append_of_pos]
  · simp
  · intro a ha
    simp only [ne_eq, decide_not, Bool.not_eq_eq_eq_not, Bool.not_true, decide_eq_false_iff_not]
    intro h'; exact h (h' ▸ ha)

/-! ## The lines of a form -/

def disposition : List Char := "Content-Disposition: form-data; name=\"".toList

theorem search_name (s : List Char) : searchString kNameQuoted (disposition ++ s) = some (kNameQuoted ++ s) := rfl
theorem search_file_prefix (s : List Char) : searchString kFilename (disposition ++ s) = searchString kFilename s := rfl
theorem search_file (s : List Char) : searchString kFilename ('"' :: ("; filename=\"".toList ++ s)) = some (kFilename ++ s) := rfl

theorem header_boundary (B : List Char) (hB : '=' ∉ B) (f : Form) (hf : f.filename = []) :
    handlePostHeader ("--".toList ++ B) f = some (true, f) := by
  have h : '=' ∉ "--".toList ++ B := by
    intro h
    rw [List.mem_append] at h
    rcases h with h | h
    · revert h; decide
    · exact hB h
  unfold handlePostHeader
  rw [search_absent kNameQuoted '=' (by decide) _ h, search_absent kName '=' (by decide) _ h,
    search_absent kFilename '=' (by decide) _ h]
  simp only [Option.some.injEq, fileHeader]
  rw [if_neg (by simp [hf])]

theorem header_name (n : List Char) (hq : '"' ∉ n) (he : '=' ∉ n) (f : Form) (hf : f.filename = []) :
    handlePostHeader (disposition ++ n ++ "\"".toList) f = some (true, { f with name := n }) := by
  have e : disposition ++ n ++ "\"".toList = disposition ++ (n ++ ['"']) := by rw [List.append_assoc]; rfl
  rw [e]
  unfold handlePostHeader
  rw [search_name, search_file_prefix, search_absent kFilename '=' (by decide) _ (by simp [he])]
  simp only [List.drop_left]
  rw [quoted_spec n [] hq]
  simp only [Option.some.injEq, fileHeader]
  simp [hf]

theorem header_file (n fn ty rest : List Char) (hn : n ≠ []) (hq : '"' ∉ n) (he : '=' ∉ n) (hf : fn ≠ []) (hfq : '"' ∉ fn)
    (ht : OneLine ty) (hl : (kType ++ ty).length < 2 ^ 32) (f : Form) (hc : f.content = kType ++ ty ++ newLine ++ rest) :
    handlePostHeader (disposition ++ n ++ "\"".toList ++ "; filename=\"".toList ++ fn ++ "\"".toList) f =
      some (true, { f with name := n, filename := fn, content := rest, writes := f.writes ++ [(n ++ ":filename".toList, fn), (n ++ ":Content-Type".toList, ty)] }) := by
  have e : disposition ++ n ++ "\"".toList ++ "; filename=\"".toList ++ fn ++ "\"".toList =
      disposition ++ (n ++ '"' :: ("; filename=\"".toList ++ (fn ++ ['"']))) := by
    simp only [List.append_assoc]; rfl
  rw [e]
  unfold handlePostHeader
  rw [search_name, search_file_prefix]
  have hk : kFilename = "filename".toList ++ '=' :: ['"'] := rfl
  have hs : searchString kFilename (n ++ '"' :: ("; filename=\"".toList ++ (fn ++ ['"']))) = some (kFilename ++ (fn ++ ['"'])) := by
    rw [← search_file]
    rw [hk]
    apply search_skip (fun c => c ≠ '=' ∧ c ≠ '"') '=' '"' _ _ _ (by simp) (by simp) (by decide)
    · decide
    · intro c hc
      exact ⟨fun h => he (h ▸ hc), fun h => hq (h ▸ hc)⟩
  rw [hs]
  simp only [List.drop_left]
  rw [quoted_spec n _ hq, quoted_spec fn [] hfq]
  have hline := line_step (kType ++ ty) rest (by
    intro c hc
    rw [List.mem_append] at hc
    rcases hc with hc | hc
    · revert c; decide
    · exact ht c hc) hl
  have hp : fn.length > 0 := List.length_pos_iff.2 hf
  have hw : ∀ (g : Form) (k v : List Char), k ≠ [] → g.write k v = (true, { g with writes := g.writes ++ [(k, v)] }) := by
    intro g k v hk; simp [Form.write, hk]
  have h1 : n ++ ":filename".toList ≠ [] := by
    intro h; exact hn (List.append_eq_nil_iff.1 h).1
  have h2 : n ++ ":Content-Type".toList ≠ [] := by
    intro h; exact hn (List.append_eq_nil_iff.1 h).1
  have hsr := search_here kType (kType ++ ty) (by simp [List.isPrefixOf_iff_prefix])
  simp only [Option.some.injEq, fileHeader, hp, if_true, hw _ _ _ h1, hw _ _ _ h2, hc, hline, hsr, List.drop_left]
  simp

/-! ## Steps of the loop -/

theorem step_header (B : List Char) (fuel : Nat) (l rest : List Char) (hl : OneLine l) (hn : l.length < 2 ^ 32) (hne : l ≠ [])
    (f f' : Form) (hc : f.content = l ++ newLine ++ rest) (hh : f.headerHandled = false)
    (h : handlePostHeader l { f with content := rest } = some (true, f')) :
    formLoop B (fuel + 1) f = formLoop B fuel f' := by
  have hp : l.length > 0 := List.length_pos_iff.2 hne
  rw [formLoop]
  simp only [hc, line_step l rest hl hn, if_true, hh, hp, Nat.ne_of_gt hp, decide_false, Bool.or_self, Bool.false_eq_true, if_false]
  have e : ({ content := rest, name := f.name, filename := f.filename, value := f.value, headerHandled := false, writes := f.writes } : Form) =
      { f with content := rest } := by rw [← hh]
  rw [e, h]

theorem step_blank (B : List Char) (fuel : Nat) (rest : List Char) (f : Form) (hc : f.content = newLine ++ rest) :
    formLoop B (fuel + 1) f = formLoop B fuel { f with content := rest, headerHandled := true } := by
  have := line_step [] rest (by intro c hc; simp at hc) (by decide)
  simp only [List.nil_append] at this
  rw [formLoop]
  simp only [hc, this, if_true]
  simp

theorem step_content (B : List Char) (fuel : Nat) (l rest : List Char) (hl : OneLine l) (hn : l.length < 2 ^ 32) (hne : l ≠ [])
    (f f' : Form) (hc : f.content = l ++ newLine ++ rest) (hh : f.headerHandled = true)
    (h : handlePostContent B l { f with content := rest } = (true, f')) :
    formLoop B (fuel + 1) f = formLoop B fuel f' := by
  have hp : l.length > 0 := List.length_pos_iff.2 hne
  rw [formLoop]
  simp only [hc, line_step l rest hl hn, if_true, hh, hp, Bool.true_or]
  have e : ({ content := rest, name := f.name, filename := f.filename, value := f.value, headerHandled := true, writes := f.writes } : Form) =
      { f with content := rest } := by rw [← hh]
  rw [e, h]

/-- The lines of the content of a part. -/
theorem step_lines (B : List Char) (rest : List Char) : ∀ (ls : List (List Char)) (fuel : Nat) (f : Form) (before : List (List Char)),
    (∀ l ∈ before, l ≠ []) →
    (∀ l ∈ ls, l ≠ [] ∧ OneLine l ∧ l.length < 2 ^ 32 ∧ ¬ B <:+: l) → f.content = ls.flatMap (· ++ newLine) ++ rest →
    f.headerHandled = true → f.value = content before →
    formLoop B (ls.length + fuel) f = formLoop B fuel { f with content := rest, value := content (before ++ ls) }
  | [], fuel, f, before, _, _, hc, hh, hv => by
    simp only [List.flatMap_nil, List.nil_append] at hc
    simp only [List.length_nil, Nat.zero_add, List.append_nil]
    rw [← hc, ← hv]
  | l :: ls, fuel, f, before, hb, h, hc, hh, hv => by
    obtain ⟨h1, h2, h3, h4⟩ := h l (by simp)
    have e : f.content = l ++ newLine ++ (ls.flatMap (· ++ newLine) ++ rest) := by
      rw [hc]; simp [List.append_assoc]
    have hval : ∀ b : List (List Char), (∀ l ∈ b, l ≠ []) →
        (if (content b).length > 0 then content b ++ ['\n'] else content b) ++ l = content (b ++ [l]) := by
      intro b
      induction b with
      | nil => intro _; simp [content]
      | cons x b ih =>
        intro hx
        have hx0 : x ≠ [] := hx x (by simp)
        have ih := ih (fun y hy => hx y (by simp [hy]))
        cases b with
        | nil =>
          have : x.length > 0 := List.length_pos_iff.2 hx0
          simp [content, this]
        | cons y b =>
          have hy0 : y ≠ [] := hx y (by simp)
          have hcy : (content (y :: b)).length > 0 := by
            cases b <;> (simp only [content]; have := List.length_pos_iff.2 hy0; simp; try omega)
          have hcx : (content (x :: y :: b)).length > 0 := by simp only [content, List.length_append, List.length_cons]; omega
          rw [if_pos hcx]
          rw [if_pos hcy] at ih
          simp only [List.cons_append, content]
          rw [← List.cons_append, ← ih]
          simp [content]
    have hh' : handlePostContent B l { f with content := ls.flatMap (· ++ newLine) ++ rest } =
        (true, { f with content := ls.flatMap (· ++ newLine) ++ rest, value := content (before ++ [l]) }) := by
      unfold handlePostContent
      rw [search_none B l h4]
      simp only [hv]
      rw [hval before hb]
    rw [show (l :: ls).length + fuel = (ls.length + fuel) + 1 by simp; omega,
      step_content B _ l _ h2 h3 h1 f _ e hh hh']
    refine Eq.trans (step_lines B rest ls fuel { f with content := ls.flatMap (· ++ newLine) ++ rest, value := content (before ++ [l]) } (before ++ [l]) (by
        intro x hx; rcases List.mem_append.1 hx with hx | hx
        · exact hb x hx
        · simp at hx; exact hx ▸ h1)
        (fun x hx => h x (by simp [hx])) rfl hh rfl) ?_
    simp

/-- The line of a boundary, after the content of a part. -/
theorem step_boundary (B : List Char) (fuel : Nat) (tail rest : List Char) (hB : OneLine (B ++ tail)) (hn : (B ++ tail).length < 2 ^ 32)
    (hne : B ≠ []) (f : Form) (hc : f.content = B ++ tail ++ newLine ++ rest) (hh : f.headerHandled = true) (hname : f.name ≠ []) :
    formLoop B (fuel + 1) f = formLoop B fuel
      { content := rest, name := [], filename := [], value := [], headerHandled := false, writes := f.writes ++ [(f.name, f.value)] } := by
  apply step_content B fuel (B ++ tail) rest hB hn (by simp [hne]) f _ hc hh
  unfold handlePostContent
  rw [search_here B _ (by simp [List.isPrefixOf_iff_prefix])]
  simp [Form.write, hname]

/-! ## The form -/

def headerLine (p : Part) : List Char :=
  match p.file with
  | none => disposition ++ p.name ++ "\"".toList
  | some (f, _) => disposition ++ p.name ++ "\"".toList ++ "; filename=\"".toList ++ f ++ "\"".toList

def typeLine (p : Part) : List Char :=
  match p.file with
  | none => []
  | some (_, t) => kType ++ t ++ newLine

theorem sent_eq (B : List Char) (p : Part) : p.sent B = "--".toList ++ B ++ newLine ++
    (headerLine p ++ newLine ++ (typeLine p ++ (newLine ++ p.lines.flatMap (· ++ newLine)))) := by
  unfold Part.sent headerLine typeLine disposition kType
  generalize "Content-Disposition: form-data; name=\"".toList = D
  generalize "; filename=\"".toList = F
  generalize "Content-Type: ".toList = T
  generalize "\"".toList = Q
  generalize "--".toList = M
  generalize newLine = N
  cases p.file with
  | none => simp only [List.append_assoc, List.nil_append]
  | some ft => simp only [List.append_assoc]

def fileWrites (p : Part) : Writes :=
  match p.file with
  | none => []
  | some (f, t) => [(p.name ++ ":filename".toList, f), (p.name ++ ":Content-Type".toList, t)]

def fileName (p : Part) : List Char :=
  match p.file with
  | none => []
  | some (f, _) => f

theorem oneLine_append {a b : List Char} (ha : OneLine a) (hb : OneLine b) : OneLine (a ++ b) := by
  intro c hc
  rcases List.mem_append.1 hc with h | h
  · exact ha c h
  · exact hb c h

theorem header_oneLine (B : List Char) (p : Part) (h : p.Ok B) : OneLine (headerLine p) := by
  obtain ⟨_, h1, _, _, h2, _⟩ := h
  unfold headerLine
  have hd : OneLine disposition := by unfold OneLine disposition; decide
  have hq : OneLine "\"".toList := by unfold OneLine; decide
  have hf : OneLine "; filename=\"".toList := by unfold OneLine; decide
  cases hfile : p.file with
  | none => exact oneLine_append (oneLine_append hd h1) hq
  | some ft =>
    obtain ⟨f, t⟩ := ft
    exact oneLine_append (oneLine_append (oneLine_append (oneLine_append (oneLine_append hd h1) hq) hf) (h2 f t hfile).2.1) hq

/-- The header of a part, after its boundary. -/
theorem part_header (B : List Char) (p : Part) (h : p.Ok B) (hl : (p.sent B).length < 2 ^ 32) (fuel : Nat) (rest : List Char) (f : Form)
    (hc : f.content = headerLine p ++ newLine ++ (typeLine p ++ (newLine ++ rest))) (hh : f.headerHandled = false) (hf : f.filename = []) :
    formLoop ("--".toList ++ B) (fuel + 2) f = formLoop ("--".toList ++ B) fuel
      { f with content := rest, name := p.name, filename := fileName p, headerHandled := true, writes := f.writes ++ fileWrites p } := by
  have h1 := header_oneLine B p h
  rw [sent_eq] at hl
  simp only [List.length_append] at hl
  have hne : headerLine p ≠ [] := by
    unfold headerLine disposition
    cases p.file with
    | none => simp
    | some ft => obtain ⟨f, t⟩ := ft; simp
  have hh' : handlePostHeader (headerLine p) { f with content := typeLine p ++ (newLine ++ rest) } =
      some (true, { f with content := newLine ++ rest, name := p.name, filename := fileName p, writes := f.writes ++ fileWrites p }) := by
    obtain ⟨g0, g1, g2, g3, g4, g5⟩ := h
    unfold headerLine typeLine fileName fileWrites
    cases hfile : p.file with
    | none =>
      simp only [List.nil_append]
      refine Eq.trans (header_name p.name g2 g3 _ hf) ?_
      simp [hf]
    | some ft =>
      obtain ⟨fn, t⟩ := ft
      obtain ⟨e1, e2, e3, e4⟩ := g4 fn t hfile
      have hlt : (kType ++ t).length < 2 ^ 32 := by
        have : (typeLine p).length = (kType ++ t).length + 2 := by simp [typeLine, hfile, newLine]; omega
        omega
      simp only
      rw [header_file p.name fn t (newLine ++ rest) g0 g2 g3 e1 e3 e4 hlt _ rfl]
  rw [show fuel + 2 = (fuel + 1) + 1 from rfl,
    step_header _ _ _ _ h1 (by omega) hne f _ hc hh hh', step_blank _ _ rest _ rfl]

theorem stored_eq (p : Part) : p.stored = fileWrites p ++ [(p.name, content p.lines)] := rfl

theorem line_le : ∀ (ls : List (List Char)) (l : List Char), l ∈ ls → l.length ≤ (ls.flatMap (· ++ newLine)).length
  | x :: ls, l, h => by
    rw [List.flatMap_cons, List.length_append, List.length_append]
    rcases List.mem_cons.1 h with rfl | h
    · omega
    · have := line_le ls l h; omega

/-- The parts that remain, after the first boundary of the next one was read. -/
theorem parts_loop (B : List Char) (hB : '=' ∉ B) (hBl : OneLine B) : ∀ (ps : List Part) (p : Part) (fuel : Nat) (f : Form),
    (∀ q ∈ p :: ps, q.Ok B) → (sentForm B (p :: ps)).length < 2 ^ 32 →
    f.content = headerLine p ++ newLine ++ (typeLine p ++ (newLine ++ (p.lines.flatMap (· ++ newLine) ++ sentForm B ps))) →
    f.headerHandled = false → f.filename = [] → f.value = [] → f.content.length < fuel →
    formLoop ("--".toList ++ B) fuel f = some (true, f.writes ++ (p :: ps).flatMap Part.stored) := by
  intro ps
  induction ps with
  | nil =>
    intro p fuel f hok hlen hc hh hf hv hfuel
    have hp := hok p (by simp)
    have hlp : (p.sent B).length < 2 ^ 32 := by
      simp only [sentForm, List.flatMap_cons, List.flatMap_nil, List.length_append] at hlen; omega
    have hlines : ∀ l ∈ p.lines, l ≠ [] ∧ OneLine l ∧ l.length < 2 ^ 32 ∧ ¬ ("--".toList ++ B) <:+: l := by
      intro l hl
      obtain ⟨a, b, c⟩ := hp.2.2.2.2.2 l hl
      refine ⟨a, b, ?_, c⟩
      have : l.length ≤ (p.lines.flatMap (· ++ newLine)).length := by
        exact line_le p.lines l hl
      rw [sent_eq] at hlp
      simp only [List.length_append] at hlp
      omega
    have hcl := congrArg List.length hc
    have hll : p.lines.length ≤ (p.lines.flatMap (· ++ newLine)).length := by
      rw [List.length_flatMap]
      generalize p.lines = ls
      induction ls with
      | nil => simp
      | cons x xs ih => simp [newLine] at ih ⊢; omega
    have hsf : sentForm B [] = "--".toList ++ B ++ "--".toList ++ newLine ++ [] := by simp [sentForm]
    simp only [List.length_append, newLine, List.length_cons, List.length_nil] at hcl hll
    obtain ⟨k, rfl⟩ : ∃ k, fuel = (p.lines.length + (k + 2)) + 2 := ⟨fuel - p.lines.length - 4, by
      have : 6 ≤ (sentForm B []).length := by simp [sentForm, newLine]
      omega⟩
    rw [part_header B p hp hlp _ _ f hc hh hf,
      step_lines _ (sentForm B []) p.lines (k + 2) _ [] (by simp) hlines rfl rfl (by simp [hv, content])]
    simp only [List.nil_append]
    rw [show k + 2 = (k + 1) + 1 from rfl,
      step_boundary ("--".toList ++ B) (k + 1) "--".toList [] (by
        refine oneLine_append (oneLine_append ?_ hBl) ?_ <;> (unfold OneLine; decide)) (by
        simp only [sentForm, List.flatMap_cons, List.flatMap_nil, List.length_append] at hlen
        simp only [List.length_append]; omega) (by simp) _ hsf rfl hp.1]
    rw [formLoop]
    simp only [line_end, Bool.false_eq_true, if_false]
    simp [stored_eq]
  | cons q ps ih =>
    intro p fuel f hok hlen hc hh hf hv hfuel
    have hp := hok p (by simp)
    have hlp : (p.sent B).length < 2 ^ 32 := by
      simp only [sentForm, List.flatMap_cons, List.length_append] at hlen; omega
    have hlines : ∀ l ∈ p.lines, l ≠ [] ∧ OneLine l ∧ l.length < 2 ^ 32 ∧ ¬ ("--".toList ++ B) <:+: l := by
      intro l hl
      obtain ⟨a, b, c⟩ := hp.2.2.2.2.2 l hl
      refine ⟨a, b, ?_, c⟩
      have : l.length ≤ (p.lines.flatMap (· ++ newLine)).length := by
        exact line_le p.lines l hl
      rw [sent_eq] at hlp
      simp only [List.length_append] at hlp
      omega
    have hcl := congrArg List.length hc
    have hll : p.lines.length ≤ (p.lines.flatMap (· ++ newLine)).length := by
      rw [List.length_flatMap]
      generalize p.lines = ls
      induction ls with
      | nil => simp
      | cons x xs ih => simp [newLine] at ih ⊢; omega
    have hsf : sentForm B (q :: ps) = "--".toList ++ B ++ [] ++ newLine ++
        (headerLine q ++ newLine ++ (typeLine q ++ (newLine ++ (q.lines.flatMap (· ++ newLine) ++ sentForm B ps)))) := by
      rw [sentForm, List.flatMap_cons, sent_eq]
      simp [sentForm, List.append_assoc]
    have hsl := congrArg List.length hsf
    simp only [List.length_append, newLine, List.length_cons, List.length_nil] at hcl hll hsl
    obtain ⟨k, rfl⟩ : ∃ k, fuel = (p.lines.length + (k + 1)) + 2 := ⟨fuel - p.lines.length - 3, by omega⟩
    rw [part_header B p hp hlp _ _ f hc hh hf,
      step_lines _ (sentForm B (q :: ps)) p.lines (k + 1) _ [] (by simp) hlines rfl rfl (by simp [hv, content])]
    simp only [List.nil_append]
    rw [step_boundary ("--".toList ++ B) k [] _ (by
        refine oneLine_append (oneLine_append ?_ hBl) ?_ <;> (unfold OneLine; simp)) (by
        simp only [sentForm, List.flatMap_cons, List.length_append] at hlen
        simp only [List.length_append, List.length_nil]; omega) (by simp) _ hsf rfl hp.1]
    rw [ih q k _ (fun r hr => hok r (by simp at hr ⊢; right; exact hr)) (by
        simp only [sentForm, List.flatMap_cons, List.length_append] at hlen ⊢; omega) rfl rfl rfl rfl (by
        simp only [List.length_append, newLine, List.length_cons, List.length_nil]; omega)]
    simp [stored_eq]

end Verif.HttpFields
