import Verif.Proof.HttpFields
set_option linter.unusedSimpArgs false
set_option maxRecDepth 8000
/-!
# C81: fields of an HTTP request
-/
namespace Verif.HttpFields
open Verif.Spec.HttpFields
open Verif.Token (getLine)

private theorem fields_le : ∀ fs : List Field, (∀ f ∈ fs, f.sent.length ≤ (fs.flatMap Field.sent).length) ∧
    fs.length ≤ (fs.flatMap Field.sent).length
  | [] => by simp
  | f :: fs => by
    have ih := fields_le fs
    have h2 : 2 ≤ f.sent.length := by simp [Field.sent, newLine]; omega
    rw [List.flatMap_cons, List.length_append]
    constructor
    · intro g hg
      rcases List.mem_cons.1 hg with rfl | hg
      · omega
      · have := ih.1 g hg; omega
    · simp only [List.length_cons]; omega

/-- **C81 (fields).** The fields of a request are stored in their order, each one with its value and without the white
space in front of it, and what follows the empty line stays in the stream. -/
theorem c81_fields (fields : List Field) (body : List Char) (h : ∀ f ∈ fields, f.Ok)
    (hl : (fields.flatMap Field.sent).length < 2 ^ 32) :
    storeInputOptions (fields.flatMap Field.sent ++ newLine ++ body) = some (true, fields.map (fun f => (f.name, f.value)), body) := by
  have hle := fields_le fields
  unfold storeInputOptions
  rw [options_spec body fields _ [] (fun f hf => ⟨h f hf, Nat.lt_of_le_of_lt (hle.1 f hf) hl⟩) (by
    simp only [List.length_append]; have := hle.2; omega)]
  rfl

/-- **C81 (written and read).** The options that `WriteHeader` writes are read back as they were. -/
theorem c81_write_read (options : List (List Char × List Char)) (body : List Char)
    (hn : ∀ o ∈ options, o.1 ≠ [] ∧ ∀ c ∈ o.1, c ∉ [' ', '\t', ':', '\r', '\n', '\x00']) (hv : ∀ o ∈ options, Value o.2)
    (hl : (writeOptions options).length < 2 ^ 32) :
    storeInputOptions (writeOptions options ++ body) = some (true, options, body) := by
  have e : writeOptions options = (options.map fun o => (⟨o.1, [' '], o.2⟩ : Field)).flatMap Field.sent ++ newLine := by
    unfold writeOptions
    rw [List.flatMap_map]
    simp [Field.sent, newLine, List.append_assoc]
  rw [e] at hl ⊢
  rw [c81_fields _ _ (by
    intro f hf
    obtain ⟨o, ho, rfl⟩ := List.mem_map.1 hf
    exact ⟨(hn o ho).1, (hn o ho).2, by intro c hc; simp at hc; simp [hc], hv o ho⟩) (by
    rw [List.length_append] at hl; omega)]
  rw [List.map_map]
  have : ((fun f : Field => (f.name, f.value)) ∘ fun o : List Char × List Char => (⟨o.1, [' '], o.2⟩ : Field)) = id := rfl
  rw [this, List.map_id]

/-- **C81 (lookup).** A field is found under its name, unless another one with that name follows. -/
theorem c81_read (before after : List Field) (f : Field) (body : List Char) (h : ∀ g ∈ before ++ f :: after, g.Ok)
    (hl : ((before ++ f :: after).flatMap Field.sent).length < 2 ^ 32) (hlast : ∀ g ∈ after, g.name ≠ f.name) :
    ∃ writes, storeInputOptions ((before ++ f :: after).flatMap Field.sent ++ newLine ++ body) = some (true, writes, body) ∧
      read writes f.name = some f.value ∧ ∀ name, (∀ g ∈ before ++ f :: after, g.name ≠ name) → read writes name = none := by
  refine ⟨_, c81_fields _ _ h hl, ?_, ?_⟩
  · unfold read
    simp only [List.map_append, List.map_cons, List.reverse_append, List.reverse_cons, List.append_assoc]
    rw [List.find?_append, show (List.find? (fun w : List Char × List Char => w.1 == f.name)
      (after.map (fun f => (f.name, f.value))).reverse) = none from by
        rw [List.find?_eq_none]
        intro x hx
        obtain ⟨g, hg, rfl⟩ := List.mem_map.1 (List.mem_reverse.1 hx)
        simp [hlast g hg]]
    simp
  · intro name hname
    unfold read
    rw [List.find?_eq_none.2]
    · rfl
    · intro x hx
      obtain ⟨g, hg, rfl⟩ := List.mem_map.1 (List.mem_reverse.1 hx)
      simp [hname g hg]

example : storeInputOptions "Host: a b\r\nContent-Length:12\r\n\r\nrest".toList =
    some (true, [("Host".toList, "a b".toList), ("Content-Length".toList, "12".toList)], "rest".toList) := by
  have := c81_fields [⟨"Host".toList, [' '], "a b".toList⟩, ⟨"Content-Length".toList, [], "12".toList⟩] "rest".toList (by
    intro f hf
    simp only [List.mem_cons, List.not_mem_nil, or_false] at hf
    rcases hf with rfl | rfl
    · refine ⟨by decide, by decide, by decide, by decide, Or.inr ⟨['a'], [' ', 'b'], rfl, by decide, by decide, Or.inr ⟨['b'], rfl, by decide⟩⟩⟩
    · refine ⟨by decide, by decide, by decide, by decide, Or.inr ⟨['1', '2'], [], rfl, by decide, by decide, Or.inl rfl⟩⟩) (by decide)
  exact this

/-- **C81 fails** for names in other cases: the names of the fields do not depend on the case in the standard, but
`content-length` is not found as `Content-Length`. -/
theorem c81_case_fails (v : List Char) (hv : Value v) (hl : v.length < 2 ^ 31) :
    ∃ writes, storeInputOptions ("content-length: ".toList ++ v ++ "\r\n\r\n".toList) = some (true, writes, []) ∧
      read writes "content-length".toList = some v ∧ read writes "Content-Length".toList = none := by
  obtain ⟨w, h1, h2, h3⟩ := c81_read [] [] ⟨"content-length".toList, [' '], v⟩ [] (by
    intro g hg
    simp only [List.nil_append, List.mem_cons, List.not_mem_nil, or_false] at hg
    subst hg
    exact ⟨show "content-length".toList ≠ [] by decide, show ∀ c ∈ "content-length".toList, c ∉ [' ', '\t', ':', '\r', '\n', '\x00'] by decide,
      show ∀ c ∈ [' '], c = ' ' ∨ c = '\t' by decide, hv⟩) (by
    simp only [List.nil_append, List.flatMap_cons, List.flatMap_nil, Field.sent, List.length_append, List.length_cons, newLine]
    rw [show "content-length".toList.length = 14 from rfl]
    simp only [List.length_nil]
    omega) (by simp)
  refine ⟨w, ?_, h2, h3 _ (by
    intro g hg
    simp only [List.nil_append, List.mem_cons, List.not_mem_nil, or_false] at hg
    subst hg
    exact show "content-length".toList ≠ "Content-Length".toList by decide)⟩
  rw [← h1]
  congr 1
  simp only [List.nil_append, List.flatMap_cons, List.flatMap_nil, List.append_nil, List.append_assoc, Field.sent]
  rfl

/-- **C81 fails** for a tab after the first word of a value: it becomes a space. -/
theorem c81_tab_fails : storeInputOptions "A: b\tc\r\n\r\n".toList = some (true, [("A".toList, "b c".toList)], []) := by decide

/-! ## Forms -/

private theorem unquote_plain (B : List Char) (hq : '"' ∉ B) : unquote B = B := by
  unfold unquote
  cases B with
  | nil => rfl
  | cons c B =>
    have : c ≠ '"' := by intro h; exact hq (by simp [h])
    simp [this]

private theorem unquote_quoted (B : List Char) : unquote ('"' :: B ++ ['"']) = B := by
  unfold unquote
  have h : ('"' :: B ++ ['"']).getLast? = some '"' := by rw [List.getLast?_append]; rfl
  rw [h, if_pos (by simp), if_pos (by simp), if_pos rfl]
  rw [List.cons_append, List.tail_cons, List.dropLast_concat]

private theorem search_bound (s : List Char) : searchString "boundary=".toList ("multipart/form-data; boundary=".toList ++ s) =
    some ("boundary=".toList ++ s) := rfl

private theorem post_plain (B s : List Char) (hB : Boundary B) : postMultipart ("multipart/form-data; boundary=".toList ++ B) s =
    formLoop ("--".toList ++ B) (s.length + 1) ⟨s, "Unknown".toList, [], [], false, []⟩ := by
  unfold postMultipart
  rw [search_bound]
  simp only [List.drop_left]
  rw [unquote_plain B hB.2.2]

private theorem post_quoted (B s : List Char) : postMultipart ("multipart/form-data; boundary=".toList ++ ('"' :: B ++ ['"'])) s =
    formLoop ("--".toList ++ B) (s.length + 1) ⟨s, "Unknown".toList, [], [], false, []⟩ := by
  unfold postMultipart
  rw [search_bound]
  simp only [List.drop_left]
  rw [unquote_quoted B]

private theorem form_loop (B : List Char) (hB : Boundary B) (parts : List Part) (h : ∀ p ∈ parts, p.Ok B)
    (hl : (sentForm B parts).length < 2 ^ 32) :
    formLoop ("--".toList ++ B) ((sentForm B parts).length + 1) ⟨sentForm B parts, "Unknown".toList, [], [], false, []⟩ =
      some (true, parts.flatMap Part.stored) := by
  have ht : OneLine "--".toList := by unfold OneLine; decide
  cases parts with
  | nil =>
    have e : sentForm B [] = "--".toList ++ (B ++ "--".toList) ++ newLine ++ [] := by simp [sentForm]
    have h' : '=' ∉ B ++ "--".toList := by
      intro h
      rcases List.mem_append.1 h with h | h
      · exact hB.2.1 h
      · revert h; decide
    have hlen := congrArg List.length e
    simp only [List.length_append] at hlen
    rw [step_header _ _ ("--".toList ++ (B ++ "--".toList)) [] (oneLine_append ht (oneLine_append hB.1 ht)) (by
      simp only [List.length_append]; omega) (by simp) _ _ e rfl (header_boundary _ h' _ rfl)]
    have : 1 ≤ (sentForm B []).length := by rw [hlen]; simp [newLine]
    obtain ⟨k, hk⟩ : ∃ k, (sentForm B []).length = k + 1 := ⟨_, (Nat.succ_pred_eq_of_pos this).symm⟩
    rw [hk, formLoop]
    simp only [line_end, Bool.false_eq_true, if_false]
    rfl
  | cons p ps =>
    have e : sentForm B (p :: ps) = "--".toList ++ B ++ newLine ++
        (headerLine p ++ newLine ++ (typeLine p ++ (newLine ++ (p.lines.flatMap (· ++ newLine) ++ sentForm B ps)))) := by
      rw [sentForm, List.flatMap_cons, sent_eq]
      simp [sentForm, List.append_assoc]
    have hlen := congrArg List.length e
    simp only [List.length_append] at hlen
    rw [step_header _ _ ("--".toList ++ B) _ (oneLine_append ht hB.1) (by
      simp only [List.length_append]; omega) (by simp) _ _ e rfl (header_boundary _ hB.2.1 _ rfl)]
    rw [parts_loop B hB.2.1 hB.1 ps p _ _ h hl rfl rfl rfl rfl (by
      simp only [List.length_append]; simp only [newLine, List.length_cons, List.length_nil] at hlen ⊢
      rw [hlen]
      have : "--".toList.length = 2 := rfl
      omega)]
    rfl

/-- **C81 (forms).** A form that is sent as the standard says, with the boundary in quotes or not, is stored part by part in
its order: the content under the name of the part and, for files, the name and the type of the file. -/
theorem c81_form_partial (B : List Char) (hB : Boundary B) (parts : List Part) (h : ∀ p ∈ parts, p.Ok B)
    (hl : (sentForm B parts).length < 2 ^ 32) :
    postMultipart ("multipart/form-data; boundary=".toList ++ B) (sentForm B parts) = some (true, parts.flatMap Part.stored) ∧
    postMultipart ("multipart/form-data; boundary=".toList ++ ('"' :: B ++ ['"'])) (sentForm B parts) = some (true, parts.flatMap Part.stored) :=
  ⟨by rw [post_plain B _ hB, form_loop B hB parts h hl], by rw [post_quoted, form_loop B hB parts h hl]⟩

example : ∃ parts : List Part, (∀ p ∈ parts, p.Ok "xx".toList) ∧
    sentForm "xx".toList parts = ("--xx\r\nContent-Disposition: form-data; name=\"a\"\r\n\r\n1\r\n2\r\n" ++
      "--xx\r\nContent-Disposition: form-data; name=\"f\"; filename=\"t.txt\"\r\nContent-Type: text/plain\r\n\r\nhello\r\n--xx--\r\n").toList ∧
    parts.flatMap Part.stored = [("a".toList, "1\n2".toList), ("f:filename".toList, "t.txt".toList),
      ("f:Content-Type".toList, "text/plain".toList), ("f".toList, "hello".toList)] := by
  refine ⟨[⟨"a".toList, none, ["1".toList, "2".toList]⟩, ⟨"f".toList, some ("t.txt".toList, "text/plain".toList), ["hello".toList]⟩], ?_, by decide, by decide⟩
  intro p hp
  simp only [List.mem_cons, List.not_mem_nil, or_false] at hp
  rcases hp with rfl | rfl
  · refine ⟨by decide, by unfold OneLine; decide, by decide, by decide, by simp, ?_⟩
    unfold OneLine; decide
  · refine ⟨by decide, by unfold OneLine; decide, by decide, by decide, ?_, ?_⟩
    · intro f t h
      simp only [Option.some.injEq, Prod.mk.injEq] at h
      obtain ⟨rfl, rfl⟩ := h
      unfold OneLine; decide
    · unfold OneLine; decide

private theorem oneLine_disp : OneLine disposition := by unfold OneLine disposition; decide
private theorem oneLine_dash : OneLine "--".toList := by unfold OneLine; decide

/-- The first line of a form is its boundary. -/
private theorem first_line (B : List Char) (hB : Boundary B) (hl : B.length < 2 ^ 31) (rest : List Char) (fuel : Nat) :
    formLoop ("--".toList ++ B) (fuel + 1) ⟨"--".toList ++ B ++ newLine ++ rest, "Unknown".toList, [], [], false, []⟩ =
      formLoop ("--".toList ++ B) fuel ⟨rest, "Unknown".toList, [], [], false, []⟩ :=
  step_header _ _ _ rest (oneLine_append oneLine_dash hB.1) (by simp only [List.length_append]; rw [show "--".toList.length = 2 from rfl]; omega)
    (by simp) _ _ rfl rfl (header_boundary _ hB.2.1 _ rfl)

/-- **C81 fails** for requests that do not follow the standard: the name of a part without the closing quote makes the
service read memory after the end of the line, whatever the name is and whatever follows. -/
theorem c81_unclosed_fails (B name rest : List Char) (hB : Boundary B) (hl : B.length < 2 ^ 31) (hn : OneLine name) (hq : '"' ∉ name)
    (hnl : name.length < 2 ^ 31) :
    postMultipart ("multipart/form-data; boundary=".toList ++ B)
      ("--".toList ++ B ++ newLine ++ ("Content-Disposition: form-data; name=\"".toList ++ name ++ newLine ++ rest)) = none := by
  rw [post_plain B _ hB]
  rw [first_line B hB hl]
  obtain ⟨k, hk⟩ : ∃ k, ("--".toList ++ B ++ newLine ++ ("Content-Disposition: form-data; name=\"".toList ++ name ++ newLine ++ rest)).length = k + 1 :=
    ⟨_, (Nat.succ_pred_eq_of_pos (by simp only [List.length_append, newLine, List.length_cons]; omega)).symm⟩
  rw [hk, formLoop]
  have hline := line_step (disposition ++ name) rest (oneLine_append oneLine_disp hn) (by
    rw [List.length_append, show disposition.length = 38 from rfl]; omega)
  have hp : (disposition ++ name).length > 0 := by rw [List.length_append, show disposition.length = 38 from rfl]; omega
  have hd : "Content-Disposition: form-data; name=\"".toList = disposition := rfl
  have hh : ∀ f, handlePostHeader (disposition ++ name) f = none := by
    intro f
    unfold handlePostHeader
    rw [search_name]
    simp only [List.drop_left]
    rw [show quoted name = none from by simp [quoted, hq]]
  simp only [hd, hline, hh, if_true, hp, Nat.ne_of_gt hp, decide_false, Bool.or_self, Bool.false_eq_true, if_false]

example : Boundary "xx".toList ∧ OneLine "a".toList ∧ '"' ∉ "a".toList := by unfold Boundary OneLine; decide

/-- **C81 fails** for files without a type, which is optional in the standard: the content is lost and the name of the file
is stored twice. -/
theorem c81_no_type_fails (B n fn l : List Char) (hB : Boundary B) (hsp : ' ' ∉ B) (hn : n ≠ []) (hn1 : OneLine n) (hnq : '"' ∉ n) (hne : '=' ∉ n)
    (hf : fn ≠ []) (hf1 : OneLine fn) (hfq : '"' ∉ fn) (hl : l ≠ []) (hl1 : OneLine l) (hle : '=' ∉ l)
    (hlB : B.length < 2 ^ 30) (hln : n.length < 2 ^ 30) (hlf : fn.length < 2 ^ 30) (hll : l.length < 2 ^ 30) :
    postMultipart ("multipart/form-data; boundary=".toList ++ B)
      ("--".toList ++ B ++ newLine ++ ("Content-Disposition: form-data; name=\"".toList ++ n ++ "\"; filename=\"".toList ++ fn ++ "\"".toList ++ newLine ++
        (newLine ++ (l ++ newLine ++ ("--".toList ++ B ++ "--".toList ++ newLine))))) =
      some (true, [(n ++ ":filename".toList, fn), (n ++ ":filename".toList, fn)]) := by
  have hd : "Content-Disposition: form-data; name=\"".toList ++ n ++ "\"; filename=\"".toList ++ fn ++ "\"".toList =
      disposition ++ (n ++ '"' :: ("; filename=\"".toList ++ (fn ++ ['"']))) := by
    simp only [List.append_assoc]; rfl
  rw [post_plain B _ hB]
  rw [first_line B hB (by omega), hd]
  have hblank : getLine true (newLine ++ (l ++ newLine ++ ("--".toList ++ B ++ "--".toList ++ newLine))) =
      ⟨true, [], '\n', l ++ newLine ++ ("--".toList ++ B ++ "--".toList ++ newLine)⟩ :=
    line_step [] _ (by intro c hc; simp at hc) (by decide)
  have hw : ∀ (g : Form) (k v : List Char), k ≠ [] → g.write k v = (true, { g with writes := g.writes ++ [(k, v)] }) := by
    intro g k v hk; simp [Form.write, hk]
  have h1 : n ++ ":filename".toList ≠ [] := by
    intro h; exact hn (List.append_eq_nil_iff.1 h).1
  have hp : fn.length > 0 := List.length_pos_iff.2 hf
  have hs : searchString kFilename (n ++ '"' :: ("; filename=\"".toList ++ (fn ++ ['"']))) = some (kFilename ++ (fn ++ ['"'])) := by
    rw [← search_file, show kFilename = "filename".toList ++ '=' :: ['"'] from rfl]
    apply search_skip (fun c => c ≠ '=' ∧ c ≠ '"') '=' '"' _ _ _ (by simp) (by simp) (by decide)
    · decide
    · intro c hc
      exact ⟨fun h => hne (h ▸ hc), fun h => hnq (h ▸ hc)⟩
  have hline : OneLine (disposition ++ (n ++ '"' :: ("; filename=\"".toList ++ (fn ++ ['"'])))) := by
    refine oneLine_append oneLine_disp (oneLine_append hn1 ?_)
    rw [show '"' :: ("; filename=\"".toList ++ (fn ++ ['"'])) = "\"; filename=\"".toList ++ (fn ++ ['"']) from rfl]
    refine oneLine_append ?_ (oneLine_append hf1 ?_) <;> (unfold OneLine; decide)
  have hlen : (disposition ++ (n ++ '"' :: ("; filename=\"".toList ++ (fn ++ ['"'])))).length < 2 ^ 32 := by
    simp only [List.length_append, List.length_cons, List.length_nil]
    rw [show disposition.length = 38 from rfl, show "; filename=\"".toList.length = 12 from rfl]; omega
  obtain ⟨k, hk⟩ : ∃ k, ("--".toList ++ B ++ newLine ++ (disposition ++ (n ++ '"' :: ("; filename=\"".toList ++ (fn ++ ['"']))) ++ newLine ++
        (newLine ++ (l ++ newLine ++ ("--".toList ++ B ++ "--".toList ++ newLine))))).length = k + 3 :=
    ⟨_ - 3, (Nat.sub_add_cancel (by simp only [List.length_append, newLine, List.length_cons]; omega)).symm⟩
  rw [hk]
  rw [step_header _ _ _ _ hline hlen (by intro h; exact absurd (congrArg List.length h) (by rw [List.length_append, show disposition.length = 38 from rfl]; simp only [List.length_nil]; omega)) _ ⟨l ++ newLine ++ ("--".toList ++ B ++ "--".toList ++ newLine), n, fn, [], false,
    [(n ++ ":filename".toList, fn)]⟩ rfl rfl (by
      unfold handlePostHeader
      rw [search_name, search_file_prefix, hs]
      simp only [List.drop_left]
      rw [quoted_spec n _ hnq, quoted_spec fn [] hfq]
      simp only [fileHeader, hp, if_true, hw _ _ _ h1, hblank]
      rfl)]
  have hlast : getLine true ("--".toList ++ B ++ "--".toList ++ newLine) = ⟨true, "--".toList ++ B ++ "--".toList, '\n', []⟩ := by
    have := line_step ("--".toList ++ B ++ "--".toList) [] (oneLine_append (oneLine_append oneLine_dash hB.1) oneLine_dash) (by
      simp only [List.length_append]; rw [show "--".toList.length = 2 from rfl]; omega)
    rwa [List.append_nil] at this
  have hty : searchString kType ("--".toList ++ B ++ "--".toList) = none := by
    refine search_absent kType ' ' (by decide) _ ?_
    simp only [List.mem_append, not_or]
    exact ⟨⟨by decide, hsp⟩, by decide⟩
  rw [step_header _ _ _ _ hl1 (by omega) hl _ ⟨[], n, fn, [], false, [(n ++ ":filename".toList, fn), (n ++ ":filename".toList, fn)]⟩ rfl rfl (by
      unfold handlePostHeader
      rw [search_absent kNameQuoted '=' (by decide) _ hle, search_absent kName '=' (by decide) _ hle, search_absent kFilename '=' (by decide) _ hle]
      simp only [fileHeader, hp, if_true, hw _ _ _ h1, hlast, hty]
      rfl)]
  rw [formLoop]
  simp only [line_end, Bool.false_eq_true, if_false]

example : ∃ B n fn l : List Char, Boundary B ∧ ' ' ∉ B ∧ n ≠ [] ∧ OneLine n ∧ '"' ∉ n ∧ '=' ∉ n ∧ fn ≠ [] ∧ OneLine fn ∧ '"' ∉ fn ∧
    l ≠ [] ∧ OneLine l ∧ '=' ∉ l :=
  ⟨"xx".toList, "f".toList, "t.txt".toList, "hello".toList, by unfold Boundary OneLine; decide⟩

/-- **C81 fails** for files with a further field after the type: the content is lost too. -/
theorem c81_third_header_fails : postMultipart "multipart/form-data; boundary=xx".toList
    ("--xx\r\nContent-Disposition: form-data; name=\"f\"; filename=\"t\"\r\nContent-Type: a\r\nX-Y: z\r\n\r\nhello\r\n--xx--\r\n").toList =
    some (true, [("f:filename".toList, "t".toList), ("f:Content-Type".toList, "a".toList), ("f:filename".toList, "t".toList),
      ("f:filename".toList, "t".toList)]) := by decide +kernel

/-- **C81 fails** for the name of the file in front of the name of the part: the part is stored under the name of the file. -/
theorem c81_order_fails : postMultipart "multipart/form-data; boundary=xx".toList
    ("--xx\r\nContent-Disposition: form-data; filename=\"t\"; name=\"f\"\r\nContent-Type: a\r\n\r\nhello\r\n--xx--\r\n").toList =
    some (true, [("t:filename".toList, "t".toList), ("t:Content-Type".toList, "a".toList), ("t".toList, "hello".toList)]) := by decide +kernel

/-- **C81 fails** for empty lines in the content, which are lost. -/
theorem c81_empty_line_fails : postMultipart "multipart/form-data; boundary=xx".toList
    ("--xx\r\nContent-Disposition: form-data; name=\"a\"\r\n\r\n1\r\n\r\n2\r\n--xx--\r\n").toList =
    some (true, [("a".toList, "1\n2".toList)]) := by decide +kernel

/-- **C81 fails** for a boundary that is followed by another parameter: the boundary is not recognised and nothing is
stored. -/
theorem c81_parameter_fails : postMultipart "multipart/form-data; boundary=xx; charset=u".toList
    ("--xx\r\nContent-Disposition: form-data; name=\"a\"\r\n\r\n1\r\n--xx--\r\n").toList = some (true, []) := by decide +kernel

/-- **C81 fails** for a part with an empty name: the form is refused there, and the parts behind it are lost. -/
theorem c81_no_name_fails : postMultipart "multipart/form-data; boundary=xx".toList
    ("--xx\r\nContent-Disposition: form-data; name=\"a\"\r\n\r\n1\r\n--xx\r\nContent-Disposition: form-data; name=\"\"\r\n\r\n2\r\n" ++
      "--xx\r\nContent-Disposition: form-data; name=\"b\"\r\n\r\n3\r\n--xx--\r\n").toList =
    some (false, [("a".toList, "1".toList)]) := by decide +kernel

/-- A boundary of one quote is that quote. -/
theorem c81_quote : postMultipart "multipart/form-data; boundary=\"".toList
    ("--\"\r\nContent-Disposition: form-data; name=\"a\"\r\n\r\n1\r\n--\"--\r\n").toList = some (true, [("a".toList, "1".toList)]) ∧
    postMultipart "multipart/form-data; boundary=\"".toList
    ("--\r\nContent-Disposition: form-data; name=\"a\"\r\n\r\n1\r\n----\r\n").toList = some (true, []) := by decide +kernel

end Verif.HttpFields
