import Verif.Proof.HttpUrl
/-!
# C60: coding of URLs, paths and commands of a request
-/
set_option linter.unusedVariables false
set_option maxRecDepth 8000
namespace Verif.HttpUrl
open Verif.Spec.HttpUrl

variable (lit : List Char → Nat)

/-- **C60.** `HttpEncode` gives a percent-encoding of the text, without any of the characters with a meaning in a URL. -/
theorem c60_encode (t : List Char) (h : '\x00' ∉ t) :
    ∃ e, encode lit t = some (true, e) ∧ Percent e t ∧
      ∀ c ∈ e, c ∉ [' ', '#', '<', '>', '&', '~', ',', '$', '+', '=', ':', '/', '?', '[', ']', '"', '@', '{', '}'] := by
  obtain ⟨e, h1, h2, h3⟩ := encode_loop lit t [] h
  refine ⟨e, by simpa [encode] using h1, h2, ?_⟩
  intro c hc
  by_cases hp : c = '%'
  · subst hp; decide
  · have := (h3 c hc hp).1
    simp only [http2Convert, List.mem_cons, List.not_mem_nil, or_false, not_or] at this ⊢
    exact ⟨this.1, this.2.1, this.2.2.2⟩

/-- **C60.** `HttpDecode` gives the text that was encoded, by `HttpEncode` or by anybody else: any character may be coded, digits may
be of both cases. -/
theorem c60_decode (e t : List Char) (h : Percent e t) : decode e = some t := decode_percent h

/-- **C60.** Encoding and decoding gives back the text. -/
theorem c60_round_trip (t : List Char) (h : '\x00' ∉ t) : ∃ e, encode lit t = some (true, e) ∧ decode e = some t := by
  obtain ⟨e, h1, h2, _⟩ := c60_encode lit t h
  exact ⟨e, h1, decode_percent h2⟩

/-- A text without white space and `\` becomes by `HttpEncode` a part of a request. -/
theorem c60_encode_part (t : List Char) (h : ∀ c ∈ t, c ∉ ['\x00', '\t', '\r', '\n', '\\']) :
    ∃ p : Part, encode lit t = some (true, p.sent) ∧ p.text = t := by
  have h0 : '\x00' ∉ t := fun e => h _ e (by simp)
  obtain ⟨e, h1, h2, h3⟩ := encode_loop lit t [] h0
  refine ⟨⟨e, t, h2, ?_⟩, by simpa [encode] using h1, rfl⟩
  intro c hc
  by_cases hp : c = '%'
  · subst hp; decide
  · obtain ⟨r1, r2⟩ := h3 c hc hp
    rcases r2 with r2 | r2
    · have := h c r2
      simp only [http2Convert, separators, List.mem_cons, List.not_mem_nil, or_false, not_or] at this r1 ⊢
      exact ⟨r1.1, this.2.1, this.2.2.1, this.2.2.2.1, this.1, r1.2.2.2.2.2.2.2.2.2.2.2.2.2.1, r1.2.2.2.2.2.2.2.2.2.2.2.2.1, this.2.2.2.2,
        r1.2.2.2.2.2.1, r1.2.2.2.2.2.2.2.2.2.2.1⟩
    · exact r2

/-- **C60.** A request line `METHOD /a/b?x=1&y=2 VERSION`, with parts encoded in any way: the path is that of the parts with points
between them, the version is that of the line, and exactly the commands are stored, in their order, with their names and values — among
those of more than three characters (`x=1` is not; see `c60_short_fails`). -/
theorem c60_request_partial (method : List Char) (hm : method ∈ [['G', 'E', 'T'], ['P', 'U', 'T'], ['P', 'O', 'S', 'T'], ['H', 'E', 'A', 'D']])
    (path : List Part) (hp : path ≠ []) (hpt : ∀ p ∈ path, p.text ≠ [] ∧ '/' ∉ p.text ∧ '\\' ∉ p.text ∧ '\x00' ∉ p.text)
    (query : List (Part × Part)) (hq : ∀ c ∈ query, c.1.text ≠ [] ∧ '\x00' ∉ c.1.text ∧ '\x00' ∉ c.2.text)
    (version : List Char) (hv : version ≠ []) (hvc : ∀ c ∈ version, c ∉ [' ', '\r', '\n', '\t', '\x00'])
    (ending : List Char) (he : ending = [] ∨ ending = ['\r'])
    (hl : (sentPath path).length < 2 ^ 32) (hl2 : (sentQuery query).length < 2 ^ 32) (hl3 : version.length < 2 ^ 32) :
    requestLine (method ++ ' ' :: (sentPath path ++ (if query = [] then [] else '?' :: sentQuery query) ++ ' ' :: (version ++ ending))) =
      some (some ⟨method, joined '.' (path.map fun p => p.text),
        (query.filter fun c => (sentCommand c).length > 3).map (fun c => (c.1.text, c.2.text)), version⟩) := by
  have hmw : ∀ x ∈ method, x ∉ [' ', '\r', '\n', '\t'] ∧ x ≠ '\x00' := by
    simp only [List.mem_cons, List.not_mem_nil, or_false] at hm
    rcases hm with h | h | h | h <;> subst h <;> decide
  have hmn : method ≠ [] ∧ method.length < 2 ^ 32 := by
    simp only [List.mem_cons, List.not_mem_nil, or_false] at hm
    rcases hm with h | h | h | h <;> subst h <;> decide
  have hvw : ∀ x ∈ version, x ∉ [' ', '\r', '\n', '\t'] ∧ x ≠ '\x00' := by
    intro x hx
    have := hvc x hx
    simp only [List.mem_cons, List.not_mem_nil, or_false, not_or] at this ⊢
    exact ⟨⟨this.1, this.2.1, this.2.2.1, this.2.2.2.1⟩, this.2.2.2.2⟩
  have hver : ∃ sep rest, Token.getToken [' ', '\r', '\n', '\t'] none (version ++ ending) = ⟨true, version, sep, rest⟩ := by
    rcases he with h | h
    · subst h
      rw [List.append_nil, word_end _ _ hvw hl3]
      refine ⟨'\x00', [], ?_⟩
      congr
      cases version with
      | nil => exact absurd rfl hv
      | cons _ _ => rfl
    · subst h
      exact ⟨_, _, word_token _ _ _ _ (by decide) hvw hv hl3⟩
  obtain ⟨sep, rest, hver⟩ := hver
  have hmem : method = ['G', 'E', 'T'] ∨ method = ['P', 'U', 'T'] ∨ method = ['P', 'O', 'S', 'T'] ∨ method = ['H', 'E', 'A', 'D'] := by
    simpa using hm
  unfold requestLine
  have htok := word_token [' ', '\r', '\n', '\t'] method (sentPath path ++ (if query = [] then [] else '?' :: sentQuery query) ++ ' ' :: (version ++ ending)) ' '
    (by decide) hmw hmn.1 hmn.2
  simp only [token_some, htok, if_pos hmem]
  by_cases hqe : query = []
  · subst hqe
    simp only [if_true, List.append_nil]
    rw [buildUrl_spec path hp hpt ' ' (Or.inl rfl) _ hl]
    simp only [show ¬ (' ' = '?') by decide, if_false, hver, if_true, List.filter_nil, List.map_nil]
  · rw [if_neg hqe]
    rw [List.append_assoc, List.cons_append, buildUrl_spec path hp hpt '?' (Or.inr rfl) _ hl]
    simp only [if_true]
    rw [storeCommands_spec query hqe hq hl2]
    simp only [hver, if_true]

/-- **C60.** The commands of a form that is posted are stored in the same way, if no value contains `;`. -/
theorem c60_form_partial (query : List (Part × Part)) (hne : query ≠ [])
    (hq : ∀ c ∈ query, c.1.text ≠ [] ∧ '\x00' ∉ c.1.text ∧ '\x00' ∉ c.2.text) (hs : ∀ c ∈ query, ';' ∉ c.2.sent)
    (hl2 : (sentQuery query).length < 2 ^ 32) :
    postForm (sentQuery query) = some ((query.filter fun c => (sentCommand c).length > 3).map fun c => (c.1.text, c.2.text)) := by
  unfold postForm Token.getLine
  have hg : Token.getToken ['\n'] (some (if true = true then ['\r'] else [])) (sentQuery query) = ⟨true, sentQuery query, '\x00', []⟩ := by
    have := loop_line ['\n'] ['\r'] (sentQuery query) [] (by
      intro x hx
      obtain ⟨h1, h2⟩ := query_free query x hx
      simp only [List.mem_cons, List.not_mem_nil, or_false, not_or] at h1 ⊢
      exact ⟨h1.2.2.2.1, h1.2.2.1, h2⟩) (by simpa using hl2)
    simp only [List.length_nil, List.nil_append] at this
    simp only [Token.getToken, if_true, Option.getD_some]
    rw [this]
    congr
    cases h : sentQuery query with
    | nil => exact absurd h (query_ne query hne)
    | cons _ _ => rfl
  dsimp only
  rw [hg]
  simp only [if_true]
  have hlen := joined_length '&' (query.map sentCommand) (by
    intro t ht
    obtain ⟨d, _, rfl⟩ := List.mem_map.mp ht
    exact command_ne d)
  rw [List.length_map] at hlen
  rw [form_spec query _ [] hne hq hs (by show query.length < (joined '&' (query.map sentCommand)).length + 1; omega) hl2]
  simp

/-! ## A case -/

def pathA : Part := ⟨['M', '%', '2', '0', 'N'], ['M', ' ', 'N'], .plain (by decide) (.code (x := 2) (y := 0) rfl rfl (.plain (by decide) .nil)), by decide⟩
def nameA : Part := ⟨['k', 'e', 'y'], ['k', 'e', 'y'], .plain (by decide) (.plain (by decide) (.plain (by decide) .nil)), by decide⟩
def valueA : Part := ⟨['%', '3', 'd', '%', '2', 'F'], ['=', '/'], .code (x := 3) (y := 13) rfl rfl (.code (x := 2) (y := 15) rfl rfl .nil), by decide⟩

/-- `GET /M%20N/key?key=%3d%2F HTTP/1.1`. -/
example : requestLine ("GET /M%20N/key?key=%3d%2F&x=1 HTTP/1.1\r").toList =
    some (some ⟨"GET".toList, "M N.key".toList, [("key".toList, "=/".toList)], "HTTP/1.1".toList⟩) := by decide +kernel

example : sentPath [pathA, nameA] = "/M%20N/key".toList ∧ sentQuery [(nameA, valueA)] = "key=%3d%2F".toList := by decide +kernel

example : encode (fun _ => 0) "a b=c/é".toList = some (true, "a%20b%3Dc%2Fé".toList) := by decide +kernel

/-! ## Where it fails -/

/-- Commands of three characters are dropped. -/
theorem c60_short_fails : requestLine "GET /a?x=1&yy=2 HTTP/1.1".toList =
    some (some ⟨"GET".toList, "a".toList, [("yy".toList, "2".toList)], "HTTP/1.1".toList⟩) := by decide +kernel

/-- A request with an empty query is refused: the version is taken for a command. -/
theorem c60_empty_query_fails : requestLine "GET /a? HTTP/1.1".toList = some none := by decide +kernel

/-- An encoded `/` inside a part separates parts. -/
theorem c60_slash_fails : Percent "a%2Fb".toList "a/b".toList ∧
    requestLine "GET /a%2Fb HTTP/1.1".toList = requestLine "GET /a/b HTTP/1.1".toList ∧
    requestLine "GET /a/b HTTP/1.1".toList = some (some ⟨"GET".toList, "a.b".toList, [], "HTTP/1.1".toList⟩) := by
  refine ⟨.plain (by decide) (.code (x := 2) (y := 15) rfl rfl (.plain (by decide) .nil)), by decide +kernel, by decide +kernel⟩

/-- A form sent by a browser has `+` for a blank; it is stored as `+`. -/
theorem c60_plus_fails : postForm "text=a+b".toList = some [("text".toList, "a+b".toList)] := by decide +kernel

/-- `HttpEncode` leaves `;` and `HandlePostApplicationForm` ends the value there. -/
theorem c60_semicolon_fails : encode (fun _ => 0) "a;b".toList = some (true, "a;b".toList) ∧
    postForm "text=a;b".toList = some [("text".toList, "a".toList)] := by decide +kernel

/-- `HttpEncode` leaves white space other than blanks: the URL ends there. -/
theorem c60_newline_fails : encode (fun _ => 0) "a\nb".toList = some (true, "a\nb".toList) ∧
    requestLine "GET /a\nb HTTP/1.1".toList = some (some ⟨"GET".toList, "a".toList, [], "b".toList⟩) := by decide +kernel

/-- A code that is not one is decoded to some character, without an error. -/
theorem c60_bad_code_fails : (∀ t, ¬ Percent "%zz".toList t) ∧ decode "%zz".toList = some [Char.ofNat 0xEF] := by
  refine ⟨?_, by decide +kernel⟩
  intro t h
  have h : Percent ['%', 'z', 'z'] t := h
  cases h with
  | plain hc _ => exact absurd rfl hc
  | code ha _ _ => simp [show hexValue 'z' = none by decide] at ha

/-- A code that is cut reads a character that was not written. -/
theorem c60_cut_code_fails : decode "%4".toList = none := by decide +kernel

/-- So does a request with such a code, in the path or in a value. -/
theorem c60_cut_request_fails : requestLine "GET /%4 HTTP/1.1".toList = none ∧ requestLine "GET /a?xx=%4 HTTP/1.1".toList = none := by
  decide +kernel

/-- A name that is a coded zero is refused, a value without a name becomes a name. -/
theorem c60_no_name_fails : requestLine "GET /a?%00=abc HTTP/1.1".toList = some none ∧
    requestLine "GET /a?=abc HTTP/1.1".toList =
      some (some ⟨"GET".toList, "a".toList, [("abc".toList, [])], "HTTP/1.1".toList⟩) := by
  decide +kernel

/-- `HttpEncode` answers as its last character: the failure of the stream for the first one is lost. -/
theorem c60_encode_error_fails :
    encodeTo (fun _ => 0) (fun (s : List Char) t => if t = ['a'] then (false, s) else (true, s ++ t)) true [] "ab".toList =
      some (true, ['b']) := by decide +kernel

end Verif.HttpUrl
