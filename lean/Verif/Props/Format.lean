import Verif.Proof.Format4
import Verif.Props.FloatPrint
/-!
# C56: formatted printing
-/
set_option linter.unusedSimpArgs false
set_option maxRecDepth 8000
namespace Verif.Format
open Verif.IntText hiding digitChar
open Verif.Spec.Format
open Verif.Spec.IntText (IsCxxType InRange minVal maxVal)

variable (lit : List Char → Nat)

/-! ## Formats -/

/-- **C56.** The text of a field is understood as it is written: width, precision, padding, alignment, zeros, notation; and the
format goes on right after its letter. -/
theorem c56_directive (d : Directive) (hd : d.wf) (hs : d.small) (text rest : List Char) (h : '%' :: text = d.text ++ rest) :
    ∃ fd, initialise FD.default text = (true, fd, some rest) ∧ fd.size = d.size ∧ fd.precision = d.prec ∧
      fd.padded = d.padded ∧ fd.leftAligned = d.left ∧ fd.binaryPadded = d.zeros ∧ fd.fullNotation = d.full := by
  rw [text_eq, List.cons_append] at h
  injection h with _ h
  have hm := means d hs
  refine ⟨fdOf d, by rw [h]; exact initialise_text d hd rest, hm.size, ?_, hm.padded, hm.left, hm.zeros, hm.full⟩
  rw [precision_of d hs]
  rfl

/-- `%- 10.4f`: ten characters, left aligned. -/
example : (initialise FD.default "- 10.4f;".toList).2.1.size = 10 ∧ (initialise FD.default "- 10.4f;".toList).2.1.precision = 4 ∧
    (initialise FD.default "- 10.4f;".toList).2.2 = some [';'] := by decide +kernel

/-- **C56.** A format prints its texts as they are, and each field with the next parameter as if it was alone; fields for which
there is no parameter print nothing, parameters that are left are ignored, and after a field that fails nothing is printed. -/
theorem c56_formatted (ps : List Piece) (hw : ∀ p ∈ ps, p.wf) (args : List Arg) :
    printf lit (render ps) args = expected (fun d a => printf lit d.text [a]) ps args :=
  printf_pieces lit ps hw args

/-- **C56.** Printing succeeds for no format but those made of texts and of well formed fields; without parameters, for all
of these. -/
theorem c56_accepted_iff (format : List Char) :
    (∃ t, printf lit format [] = some (true, t)) ↔ ∃ ps : List Piece, (∀ p ∈ ps, p.wf) ∧ format = render ps := by
  constructor
  · rintro ⟨t, h⟩
    exact accepted lit (format.length + 1) format [] t (by omega) h
  · rintro ⟨ps, hw, rfl⟩
    rw [c56_formatted lit ps hw]
    clear hw
    induction ps with
    | nil => exact ⟨_, rfl⟩
    | cons p ps ih =>
      obtain ⟨t, ht⟩ := ih
      cases p with
      | text s => exact ⟨_, by simp only [expected, ht]; rfl⟩
      | field d => exact ⟨t, by simp only [expected, ht]⟩

/-- **C56.** Whatever the parameters, a print that succeeds had a well formed format. -/
theorem c56_accepted (format : List Char) (args : List Arg) (t : List Char) (h : printf lit format args = some (true, t)) :
    ∃ ps : List Piece, (∀ p ∈ ps, p.wf) ∧ format = render ps :=
  accepted lit (format.length + 1) format args t (by omega) h

/-- **C56.** There is no way to print a percent character with a format: with no parameters none is ever printed. -/
theorem c56_percent_fails (format : List Char) (b : Bool) (t : List Char) (h : printf lit format [] = some (b, t)) : '%' ∉ t :=
  no_percent lit (format.length + 1) format b t (by omega) h

example : printf (fun _ => 4096) "a %d, %s".toList [.scalar (.int ⟨32, true⟩ (-7))] = some (true, "a -7, ".toList) ∧
    printf (fun _ => 4096) "100%".toList [] = some (false, "100".toList) ∧
    printf (fun _ => 4096) "100%%d".toList [] = some (false, "100".toList) := by
  decide +kernel

/-! ## Texts -/

/-- **C56 (partial).** A text is printed in the field as it is: cut if it is too long, filled with blanks if padding is asked, in
quotes with the full notation.  With quotes the field must have place for them and, if it is not padded, be filled by the text:
see `c56_quoted_fails`. -/
theorem c56_text_partial (d : Directive) (hd : d.wf) (hs : d.small) (hb : d.base ≠ 16) (hl : d.letter ≠ .info) (addr : Nat)
    (ha : addr ≠ 0) (s : List Char) (h1 : d.full = true → d.size = 0 ∨ 2 ≤ d.size)
    (h2 : d.full = true → d.padded = true ∨ d.size = 0 ∨ d.size ≤ s.length) :
    printf lit d.text [.scalar (.text addr s)] = some (true, textField d.size d.padded d.left d.full s) := by
  have hm := means d hs
  have hbn : (fdOf d).binaryNotation ≠ 1 := by rw [hm.base, if_neg hb]; split <;> (try split) <;> decide
  rw [printf_single lit d hd]
  simp only [printArg, printScalar, if_neg ha, if_neg (fun h => hl (hm.info.mp h)), printText, if_neg hbn]
  rw [hm.size, hm.padded, hm.left, hm.full]
  exact printCCString_field _ _ _ _ _ h1 h2

/-- **C56.** If there is no place for the quotes the print fails and writes nothing. -/
theorem c56_no_place (d : Directive) (hd : d.wf) (hs : d.small) (hb : d.base ≠ 16) (hl : d.letter ≠ .info) (addr : Nat)
    (s : List Char) (h1 : d.full = true) (h2 : d.size = 1) :
    printf lit d.text [.scalar (.text addr s)] = some (false, []) := by
  have hm := means d hs
  have hbn : (fdOf d).binaryNotation ≠ 1 := by rw [hm.base, if_neg hb]; split <;> (try split) <;> decide
  rw [printf_single lit d hd]
  simp only [printArg, printScalar, if_neg (fun h => hl (hm.info.mp h)), printText, if_neg hbn, hm.size, hm.full, h1, h2]
  split
  · rfl
  · simp [Config.printCCString]

/-- **C56.** A text never takes more than the width of its field. -/
theorem c56_text_max (d : Directive) (hd : d.wf) (hs : d.small) (hb : d.base ≠ 16) (hl : d.letter ≠ .info) (addr : Nat)
    (s : List Char) (hw : 0 < d.size) (b : Bool) (t : List Char)
    (h : printf lit d.text [.scalar (.text addr s)] = some (b, t)) : t.length ≤ d.size := by
  have hm := means d hs
  have hbn : (fdOf d).binaryNotation ≠ 1 := by rw [hm.base, if_neg hb]; split <;> (try split) <;> decide
  rw [printf_single lit d hd] at h
  simp only [printArg, printScalar] at h
  split at h
  · cases h; simp
  · rw [if_neg (fun h => hl (hm.info.mp h)), printText, if_neg hbn, hm.size] at h
    exact printCCString_max _ _ _ _ _ b t hw h

/-- **C56.** A stream is printed as the text that follows its position (with a width, or up to 10000 characters). -/
theorem c56_stream_partial (d : Directive) (hd : d.wf) (hs : d.small) (hb : d.base ≠ 16) (hl : d.letter ≠ .info) (content : List Char)
    (pos : Nat) (hp : pos ≤ content.length) (hlen : content.length < 2 ^ 32)
    (hsz : 0 < d.size ∨ (content.length - pos) + (if d.full then 2 else 0) ≤ 10000) (addr : Nat) (ha : addr ≠ 0) :
    printf lit d.text [.scalar (.stream content pos true)] = printf lit d.text [.scalar (.text addr (content.drop pos))] := by
  have hm := means d hs
  have hbn : (fdOf d).binaryNotation ≠ 1 := by rw [hm.base, if_neg hb]; split <;> (try split) <;> decide
  rw [printf_single lit d hd, printf_single lit d hd]
  simp only [printArg, printScalar, if_neg ha, if_neg (fun h => hl (hm.info.mp h)), printText, if_neg hbn]
  refine printStream_text _ _ _ _ hp hlen ?_
  rw [hm.size, hm.full]
  rcases hsz with h | h
  · refine .inl ⟨h, ?_⟩
    unfold Directive.size; omega
  · exact .inr h

/-- **C56 (partial).** Booleans are printed as the texts `true` and `false`; not in base 16, see `c56_boolean_fails`. -/
theorem c56_boolean_partial (d : Directive) (hd : d.wf) (hs : d.small) (hb : d.base ≠ 16) (hl : d.letter ≠ .info) (b : Bool)
    (h1 : d.full = true → d.size = 0 ∨ 2 ≤ d.size) (h2 : d.full = true → d.padded = true ∨ d.size = 0 ∨ d.size ≤ 4) :
    printf lit d.text [.scalar (.bool b)] =
      some (true, textField d.size d.padded d.left d.full (if b then "true".toList else "false".toList)) := by
  have hm := means d hs
  have hbn : (fdOf d).binaryNotation ≠ 1 := by rw [hm.base, if_neg hb]; split <;> (try split) <;> decide
  rw [printf_single lit d hd]
  simp only [printArg, printScalar, if_neg (fun h => hl (hm.info.mp h)), printInfo, printText, if_neg hbn]
  rw [hm.size, hm.padded, hm.left, hm.full]
  have e : ∀ b : Bool, (if b = true then "true" else "false").toList = if b = true then "true".toList else "false".toList := by
    intro b; cases b <;> rfl
  rw [e]
  refine printCCString_field _ _ _ _ _ h1 (fun h => ?_)
  have : 4 ≤ (if b = true then "true".toList else "false".toList).length := by cases b <;> decide
  rcases h2 h with h | h | h
  · exact .inl h
  · exact .inr (.inl h)
  · exact .inr (.inr (by omega))

private theorem typeName_int (t v) : typeName (.int t v) = if t.signed then "Signed Integer" else "Unsigned Integer" := rfl
private theorem typeName_bool (b) : typeName (.bool b) = "BooleanType" := rfl
private theorem typeName_text (a s) : typeName (.text a s) = "Char String" := rfl
private theorem typeName_pointer (a) : typeName (.pointer a) = "Pointer" := rfl
private theorem typeName_stream (c p k) : typeName (.stream c p k) = "Stream" := rfl
private theorem typeName_float (w x) : typeName (.float w x) = "Float" := rfl

/-- **C56.** `%?` prints the type of the parameter, and not its value. -/
theorem c56_info (d : Directive) (hd : d.wf) (hs : d.small) (hl : d.letter = .info) (hf : d.full = false) (x : Scalar)
    (hx : (∀ s, x ≠ .text 0 s) ∧ x ≠ .pointer 0) :
    printf lit d.text [.scalar x] = some (true, textField d.size d.padded d.left false (typeName x).toList) := by
  have hm := means d hs
  have hb : d.base = 10 := by simp [Directive.base, hl]
  have hbn : (fdOf d).binaryNotation ≠ 1 := by rw [hm.base, hb]; decide
  have key : ∀ name : String, printInfo lit (fdOf d) name = some (true, textField d.size d.padded d.left false name.toList) := by
    intro name
    simp only [printInfo, printText, if_neg hbn, hm.size, hm.padded, hm.left, hm.full, hf]
    exact printCCString_field _ _ _ _ _ (by simp) (by simp)
  rw [printf_single lit d hd]
  cases x with
  | int t v => rw [printArg, printScalar, if_pos (hm.info.mpr hl), key, typeName_int]
  | bool b => rw [printArg, printScalar, if_pos (hm.info.mpr hl), key, typeName_bool]
  | text a s =>
    have : a ≠ 0 := by rintro rfl; exact hx.1 s rfl
    rw [printArg, printScalar, if_neg this, if_pos (hm.info.mpr hl), key, typeName_text]
  | pointer a =>
    have : a ≠ 0 := by rintro rfl; exact hx.2 rfl
    rw [printArg, printScalar, if_neg this, if_pos (hm.info.mpr hl), key, typeName_pointer]
  | stream c p k => rw [printArg, printScalar, if_pos (hm.info.mpr hl), key, typeName_stream]
  | float w x => rw [printArg, printScalar, if_pos (hm.info.mpr hl), key, typeName_float]

/-! ## Numbers -/

/-- **C56.** A floating point number is printed with the width, precision, padding and alignment of its field and the notation of
its letter (see C108 for what is printed); the print fails if and only if the text has a `!`. -/
theorem c56_float (d : Directive) (hd : d.wf) (hs : d.small) (hl : d.letter ≠ .info) (wide : Bool) (x : FloatPrint.Num) :
    ∃ t, t = FloatPrint.print (FloatPrint.ieee (if wide then FloatNum.f64 else FloatNum.f32)) wide
        ⟨d.size, d.prec, d.padded, d.left, floatStyle d.letter⟩ x ∧
      printf lit d.text [.scalar (.float wide x)] = some (decide ('!' ∉ t), t) := by
  have hm := means d hs
  obtain ⟨q, hq⟩ := precFD_same { flagsFD FD.default d.flags with size := min (value 10 d.width % 2 ^ 32) 255 } d.precision
  have hf : (flagsFD FD.default d.flags).floatNotation = 0 := (flagsFD_spec d.flags FD.default).2.2.2.2.1
  have hn : (fdOf d).floatNotation = (letterFD d.letter).floatNotation := by
    unfold fdOf; rw [hq]; simp only [FD.or]; rw [hf, Nat.zero_or]
  have hn' : notation' (fdOf d).floatNotation = floatStyle d.letter := by
    rw [hn]; cases d.letter <;> rfl
  have hp : (fdOf d).precision = d.prec := by rw [precision_of d hs]; rfl
  refine ⟨_, rfl, ?_⟩
  rw [printf_single lit d hd, printArg, printScalar, if_neg (fun h => hl (hm.info.mp h)), printFloat]
  rw [hm.size, hp, hm.padded, hm.left, hn']
  generalize FloatPrint.print _ _ _ _ = t
  congr 2
  by_cases h : '!' ∈ t <;> simp [h]

/-- **C56.** A floating point number never takes more than the width of its field, and if it is padded it takes exactly that. -/
theorem c56_float_width (d : Directive) (hd : d.wf) (hs : d.small) (hl : d.letter ≠ .info) (hw : 0 < d.size) (wide : Bool)
    (x : FloatPrint.Num) : ∃ b t, printf lit d.text [.scalar (.float wide x)] = some (b, t) ∧ t.length ≤ d.size ∧
      (b = true → d.padded = true → t.length = d.size) := by
  obtain ⟨t, ht, h⟩ := c56_float lit d hd hs hl wide x
  obtain ⟨h1, h2, -⟩ := FloatPrint.c108_width (FloatPrint.ieee (if wide then FloatNum.f64 else FloatNum.f32)) wide
    ⟨d.size, d.prec, d.padded, d.left, floatStyle d.letter⟩ (by show d.size ≠ 0; omega) x
  rw [← ht] at h1 h2
  exact ⟨_, t, h, h1, fun hb hp => h2 hp (of_decide_eq_true hb)⟩

/-- A padded field with zero, what is not a number, and an infinity which has no place. -/
example : printf (fun _ => 4096) "%-6.4f|%e|%3f|".toList [.scalar (.float true (.fin 0)), .scalar (.float false .nan),
      .scalar (.float false (.inf true))] = some (true, "0     |NaN|?|".toList) := by
  decide +kernel

/-- **C56 (partial).** An integer is printed in base ten as its sign and digits, without useless zeros, in its field: filled with
blanks or zeros if asked, or a question mark if there is no place.  Not for zeros in front of a negative number
(`c56_zeros_fails`) nor for padding of the minimum of a signed type (`c56_minimum_fails`). -/
theorem c56_decimal_partial (d : Directive) (hd : d.wf) (hs : d.small) (hb : d.base = 10) (hl : d.letter ≠ .info) (t : IType)
    (ht : IsCxxType t) (v : Int) (hv : InRange t v) (hz : d.zeros = true → 0 ≤ v)
    (hm : v = minVal t → v < 0 → d.padded = false ∨ d.size = 0) :
    ∃ ds, Numeral 10 ds v.natAbs ∧ (ds.head? = some 0 → ds = [0]) ∧
      printf lit d.text [.scalar (.int t v)] =
        some (true, decimalField d.size d.padded d.left d.zeros (decide (v < 0)) (ds.map digitChar)) := by
  have hmm := means d hs
  obtain ⟨ds, h1, h2, h3⟩ := printDecimal_field t ht v hv d.size d.padded d.left d.zeros hz hm
  refine ⟨ds, h1, h2, ?_⟩
  rw [printf_single lit d hd]
  simp only [printArg, printScalar, if_neg (fun h => hl (hmm.info.mp h)), printInteger]
  rw [hmm.base, hb]
  simp only [show ¬ (10 = 16) by decide, show ¬ (10 = 8) by decide, show ¬ (10 = 2) by decide, if_false, if_true, hmm.size,
    hmm.padded, hmm.left, hmm.zeros]
  exact congrArg (fun x => some (true, x)) h3

/-- **C56.** An integer is printed in base 16, 8 or 2 as the digits of its bits, with the header of the base in the full
notation, and with the zeros in front that were asked and that fit; then in its field, or a question mark if it does not
fit. -/
theorem c56_radix (d : Directive) (hd : d.wf) (hs : d.small) (hb : d.base ≠ 10) (t : IType) (ht : IsCxxType t) (v : Int)
    (hv : InRange t v) :
    ∃ ds, Numeral d.base ds (v % 2 ^ t.w).toNat ∧ d.minDigits t.w ≤ ds.length ∧
      (ds.length ≠ d.minDigits t.w → ds.head? = some 0 → ds = [0]) ∧
      printf lit d.text [.scalar (.int t v)] =
        some (true, numField d.size d.padded d.left ' ' ((if d.full then header d.base else []) ++ ds.map digitChar)) := by
  have hmm := means d hs
  have hl : d.letter ≠ .info := by intro h; simp [Directive.base, h] at hb
  have hw : t.w ≤ 64 := by rcases ht with h | h | h | h <;> omega
  rw [printf_single lit d hd]
  simp only [printArg, printScalar, if_neg (fun h => hl (hmm.info.mp h)), printInteger, hmm.size, hmm.padded, hmm.left, hmm.zeros,
    hmm.full, hmm.base]
  have key : ∀ r : Radix, d.base = r.base → digitBits d.base = r.bits →
      ∃ ds, Numeral d.base ds (v % 2 ^ t.w).toNat ∧ d.minDigits t.w ≤ ds.length ∧
      (ds.length ≠ d.minDigits t.w → ds.head? = some 0 → ds = [0]) ∧
      (printRadix r t v d.size d.padded d.left (if d.zeros = true then t.w else 0) d.full).map ch =
        numField d.size d.padded d.left ' ' ((if d.full then header d.base else []) ++ ds.map digitChar) := by
    intro r hr hbits
    obtain ⟨ds, h1, h2, h3, h4⟩ := printRadix_num r t ht v hv d.size d.padded d.left d.full (if d.zeros = true then t.w else 0)
      (by split <;> omega)
    have hZ : (if d.size = 0 then ((if d.zeros = true then t.w else 0) + r.bits - 1) / r.bits
        else min (((if d.zeros = true then t.w else 0) + r.bits - 1) / r.bits) (d.size - if d.full then 2 else 0)) =
        d.minDigits t.w := by
      unfold Directive.minDigits
      rw [hbits]
      have hk : 1 ≤ r.bits := by cases r <;> decide
      have h0 : (0 + r.bits - 1) / r.bits = 0 := Nat.div_eq_of_lt (by omega)
      cases d.zeros
      · simp only [Bool.false_eq_true, if_false, if_true, h0, Nat.zero_min, ite_self]
      · simp
    rw [hZ] at h2 h3
    exact ⟨ds, by rw [hr]; exact h1, h2, h3, by rw [hr]; exact h4⟩
  have hbase : d.base = 16 ∨ d.base = 8 ∨ d.base = 2 := by
    unfold Directive.base at hb ⊢
    generalize d.letter = l at hb ⊢
    cases l <;> simp at hb ⊢
  rcases hbase with h | h | h
  · obtain ⟨ds, h1, h2, h3, h4⟩ := key .hex h (by rw [h]; rfl)
    refine ⟨ds, h1, h2, h3, ?_⟩
    simp only [h, if_true] at h4 ⊢
    exact congrArg (fun x => some (true, x)) h4
  · obtain ⟨ds, h1, h2, h3, h4⟩ := key .oct h (by rw [h]; rfl)
    refine ⟨ds, h1, h2, h3, ?_⟩
    simp only [h, if_true, show ¬ ((8 : Nat) = 16) by decide, show ¬ ((3 : Nat) = 1) by decide, show ¬ ((3 : Nat) = 0) by decide,
      if_false] at h4 ⊢
    exact congrArg (fun x => some (true, x)) h4
  · obtain ⟨ds, h1, h2, h3, h4⟩ := key .bin h (by rw [h]; rfl)
    refine ⟨ds, h1, h2, h3, ?_⟩
    simp only [h, if_true, show ¬ ((2 : Nat) = 16) by decide, show ¬ ((2 : Nat) = 8) by decide, show ¬ ((2 : Nat) = 1) by decide,
      show ¬ ((2 : Nat) = 3) by decide, show ¬ ((2 : Nat) = 0) by decide, if_false] at h4 ⊢
    exact congrArg (fun x => some (true, x)) h4

/-- **C56.** A pointer is printed as its address. -/
theorem c56_pointer (d : Directive) (hd : d.wf) (hs : d.small) (hb : d.base = 16) (addr : Nat) (ha : addr ≠ 0) :
    printf lit d.text [.scalar (.pointer addr)] = printf lit d.text [.scalar (.int ⟨64, false⟩ addr)] := by
  have hmm := means d hs
  have hl : d.letter ≠ .info := by intro h; simp [Directive.base, h] at hb
  have hbn : (fdOf d).binaryNotation = 1 := by rw [hmm.base, hb]; rfl
  rw [printf_single lit d hd, printf_single lit d hd]
  simp only [printArg, printScalar, if_neg ha, if_neg (fun h => hl (hmm.info.mp h)), printInteger, hbn]

/-- `%#06x` of 255 is `0x00FF`, `%4o` of -1 does not fit, `% 8x` is aligned to the right. -/
example : printf (fun _ => 4096) "%#06x".toList [.scalar (.int ⟨32, false⟩ 255)] = some (true, "0x00FF".toList) ∧
    printf (fun _ => 4096) "%4o".toList [.scalar (.int ⟨16, true⟩ (-1))] = some (true, "?".toList) ∧
    printf (fun _ => 4096) "% 8x".toList [.scalar (.int ⟨8, true⟩ (-1))] = some (true, "      FF".toList) := by decide +kernel

/-! ## Arrays -/

private theorem marks_of (d : Directive) (hs : d.small) (hg : d.oneGrammar) : ∃ o c sep, marks (fdOf d).grammar = some (o, c, sep) ∧
    [o, ' '] = openMark d.json ∧ [c, ' '] = closeMark d.json ∧ sep = sepMark d.json := by
  have hm := (means d hs).grammar
  by_cases h1 : Flag.json ∈ d.flags
  · have h2 : Flag.xml ∉ d.flags := fun h => hg ⟨h1, h⟩
    rw [hm, if_pos h1, if_neg h2]
    have : d.json = true := by simp [Directive.json, h1]
    rw [this]
    exact ⟨_, _, _, rfl, rfl, rfl, rfl⟩
  · by_cases h2 : Flag.xml ∈ d.flags
    · rw [hm, if_neg h1, if_pos h2]
      have : d.json = true := by simp [Directive.json, h2]
      rw [this]
      exact ⟨_, _, _, rfl, rfl, rfl, rfl⟩
    · rw [hm, if_neg h1, if_neg h2]
      have : d.json = false := by simp [Directive.json, h1, h2]
      rw [this]
      exact ⟨_, _, _, rfl, rfl, rfl, rfl⟩

private theorem elements_ok (fd : FD) (sep : List Char) : ∀ (xs : List Scalar) (ts : List (List Char)),
    xs.map (printScalar lit fd) = ts.map (fun t => some (true, t)) →
    printElements lit fd sep xs = some (true, elements sep ts) := by
  intro xs
  induction xs with
  | nil =>
    intro ts h
    cases ts with
    | nil => rfl
    | cons t ts => simp at h
  | cons x xs ih =>
    intro ts h
    cases ts with
    | nil => simp at h
    | cons t ts =>
      simp only [List.map_cons, List.cons.injEq] at h
      simp only [printElements, h.1, ih ts h.2, Option.map_some]
      cases xs with
      | nil =>
        cases ts with
        | nil => simp [elements]
        | cons _ _ => simp at h
      | cons y ys =>
        cases ts with
        | nil => simp at h
        | cons u us => simp [elements]

private theorem rows_ok (fd : FD) (sep : List Char) : ∀ (xs : List (List Scalar)) (ts : List (List Char)),
    xs.map (printVector lit fd) = ts.map (fun t => some (true, t)) →
    printRows lit fd sep xs = some (true, rows sep ts) := by
  intro xs
  induction xs with
  | nil =>
    intro ts h
    cases ts with
    | nil => rfl
    | cons t ts => simp at h
  | cons x xs ih =>
    intro ts h
    cases ts with
    | nil => simp at h
    | cons t ts =>
      simp only [List.map_cons, List.cons.injEq] at h
      simp only [printRows, h.1, ih ts h.2, Option.map_some]
      cases xs with
      | nil =>
        cases ts with
        | nil => simp [rows]
        | cons _ _ => simp at h
      | cons y ys =>
        cases ts with
        | nil => simp at h
        | cons u us => simp [rows]

/-- **C56.** A vector is printed as its elements one by one with the same field, between the marks of the grammar. -/
theorem c56_vector (d : Directive) (hd : d.wf) (hs : d.small) (hg : d.oneGrammar) (xs : List Scalar) (ts : List (List Char))
    (h : xs.map (fun x => printf lit d.text [.scalar x]) = ts.map (fun t => some (true, t))) :
    printf lit d.text [.vector xs] =
      some (true, openMark d.json ++ elements (sepMark d.json) ts ++ closeMark d.json) := by
  obtain ⟨o, c, sep, h1, h2, h3, h4⟩ := marks_of d hs hg
  rw [printf_single lit d hd]
  have h' : xs.map (printScalar lit (fdOf d)) = ts.map (fun t => some (true, t)) := by
    rw [← h]
    apply List.map_congr_left
    intro x _
    rw [printf_single lit d hd, printArg]
  simp only [printArg, printVector, h1, h4, elements_ok lit (fdOf d) _ xs ts h', Option.map_some, if_true, h2, h3]

/-- **C56.** A matrix is printed as its rows one by one, between the marks of the grammar. -/
theorem c56_matrix (d : Directive) (hd : d.wf) (hs : d.small) (hg : d.oneGrammar) (xs : List (List Scalar))
    (ts : List (List Char)) (h : xs.map (fun x => printf lit d.text [.vector x]) = ts.map (fun t => some (true, t))) :
    printf lit d.text [.matrix xs] =
      some (true, openMark d.json ++ rows (sepMark d.json) ts ++ closeMark d.json) := by
  obtain ⟨o, c, sep, h1, h2, h3, h4⟩ := marks_of d hs hg
  rw [printf_single lit d hd]
  have h' : xs.map (printVector lit (fdOf d)) = ts.map (fun t => some (true, t)) := by
    rw [← h]
    apply List.map_congr_left
    intro x _
    rw [printf_single lit d hd, printArg]
  simp only [printArg, printMatrix, h1, h4, rows_ok lit (fdOf d) _ xs ts h', Option.map_some, if_true, h2, h3]

private theorem elements_bad (fd : FD) (sep : List Char) (x : Scalar) (t : List Char) (zs : List Scalar)
    (hx : printScalar lit fd x = some (false, t)) : ∀ (ys : List Scalar) (us : List (List Char)),
    ys.map (printScalar lit fd) = us.map (fun t => some (true, t)) →
    printElements lit fd sep (ys ++ x :: zs) = some (false, (us.map (fun u => u ++ sep ++ [' '])).flatten ++ t) := by
  intro ys
  induction ys with
  | nil =>
    intro us h
    cases us with
    | nil => simp [printElements, hx]
    | cons _ _ => simp at h
  | cons y ys ih =>
    intro us h
    cases us with
    | nil => simp at h
    | cons u us =>
      simp only [List.map_cons, List.cons.injEq] at h
      simp [printElements, h.1, ih us h.2]

/-- **C56.** If an element cannot be printed the print fails, after the elements before it and with no closing mark. -/
theorem c56_vector_failure (d : Directive) (hd : d.wf) (hs : d.small) (hg : d.oneGrammar) (ys zs : List Scalar) (x : Scalar)
    (us : List (List Char)) (t : List Char) (h : ys.map (fun x => printf lit d.text [.scalar x]) = us.map (fun t => some (true, t)))
    (hx : printf lit d.text [.scalar x] = some (false, t)) :
    printf lit d.text [.vector (ys ++ x :: zs)] =
      some (false, openMark d.json ++ (us.map (fun u => u ++ sepMark d.json ++ [' '])).flatten ++ t) := by
  obtain ⟨o, c, sep, h1, h2, h3, h4⟩ := marks_of d hs hg
  rw [printf_single lit d hd]
  have h' : ys.map (printScalar lit (fdOf d)) = us.map (fun t => some (true, t)) := by
    rw [← h]
    apply List.map_congr_left
    intro x _
    rw [printf_single lit d hd, printArg]
  rw [printf_single lit d hd, printArg] at hx
  simp only [printArg, printVector, h1, h4, elements_bad lit (fdOf d) _ x t zs hx ys us h', Option.map_some, Bool.false_eq_true,
    if_false, h2, h3, List.append_nil]
  simp

/-- Rows are separated by a comma with the grammar of JSON. -/
example : printf (fun _ => 4096) "%Jd;".toList [.matrix [[.int ⟨8, true⟩ 1, .int ⟨8, true⟩ (-2)], [.int ⟨8, true⟩ 3]]] =
      some (true, "[ [ 1, -2 ] ,[ 3 ] ] ;".toList) ∧
    printf (fun _ => 4096) "%d;".toList [.vector [.int ⟨8, true⟩ 1, .int ⟨8, true⟩ (-2)]] = some (true, "{ 1 -2 } ;".toList) ∧
    printf (fun _ => 4096) "%s".toList [.vector [.text 1 ['a'], .text 0 [], .text 2 ['b']]] = some (false, "{ a ".toList) := by
  decide +kernel

/-! ## What does not hold -/

/-- **C56 fails.** A text in quotes loses characters in a field that is not padded, although there is place, and a short one is
read beyond its end. -/
theorem c56_quoted_fails : printf lit "%#10s".toList [.scalar (.text 1 "abc".toList)] = some (true, "\"a\"".toList) ∧
    printf lit "%#10s".toList [.scalar (.text 1 "a".toList)] = none := by
  constructor <;> rfl

/-- **C56 fails.** The zeros in front of a negative number are written before its sign. -/
theorem c56_zeros_fails :
    printf (fun _ => 4096) "%06d".toList [.scalar (.int ⟨32, true⟩ (-42))] = some (true, "000-42".toList) := by
  decide +kernel

/-- **C56 fails.** The padding of the minimum of a signed type is lost. -/
theorem c56_minimum_fails :
    printf (fun _ => 4096) "% 8d".toList [.scalar (.int ⟨8, true⟩ (-128))] = some (true, "-128".toList) ∧
    printf (fun _ => 4096) "% 8d".toList [.scalar (.int ⟨8, true⟩ (-127))] = some (true, "    -127".toList) := by
  decide +kernel

/-- **C56 fails.** The width is taken modulo 2^32: a huge width prints one character. -/
theorem c56_width_fails : printf lit "%4294967297s".toList [.scalar (.text 1 "abc".toList)] = some (true, "a".toList) := by rfl

/-- **C56 fails.** A single character is never printed. -/
theorem c56_character_fails (d : Directive) (hd : d.wf) (c : Char) : printf lit d.text [.char c] = some (false, []) := by
  rw [printf_single lit d hd, printArg]

/-- **C56 fails.** Null pointers and null texts cannot be printed, whatever the format. -/
theorem c56_null_fails (d : Directive) (hd : d.wf) (s : List Char) :
    printf lit d.text [.scalar (.pointer 0)] = some (false, []) ∧ printf lit d.text [.scalar (.text 0 s)] = some (false, []) := by
  constructor <;> rw [printf_single lit d hd, printArg] <;> rfl

/-- **C56 fails.** In base 16 what is printed for a boolean is the address of the text of its value in the program. -/
theorem c56_boolean_fails (d : Directive) (hd : d.wf) (hs : d.small) (hb : d.base = 16) (b : Bool)
    (ha : lit (if b then "true" else "false").toList ≠ 0) :
    printf lit d.text [.scalar (.bool b)] = printf lit d.text [.scalar (.pointer (lit (if b then "true" else "false").toList))] := by
  have hmm := means d hs
  have hl : d.letter ≠ .info := by intro h; simp [Directive.base, h] at hb
  have hbn : (fdOf d).binaryNotation = 1 := by rw [hmm.base, hb]; rfl
  rw [printf_single lit d hd, printf_single lit d hd]
  simp only [printArg, printScalar, if_neg (fun h => hl (hmm.info.mp h)), printInfo, printText, hbn, if_true, if_neg ha]
  rfl

/-- **C56 fails.** A format that ends within a field leaves the reader beyond the end of the format. -/
theorem c56_unfinished_fails : (initialise FD.default "5".toList).2.2 = none ∧ (initialise FD.default " -".toList).2.2 = none := by
  decide

/-- **C56 fails.** With two grammars in a field arrays are refused. -/
theorem c56_grammars_fails (d : Directive) (hd : d.wf) (hs : d.small) (hg : ¬ d.oneGrammar) (xs : List Scalar) :
    printf lit d.text [.vector xs] = some (false, []) := by
  have hm := (means d hs).grammar
  have hg : Flag.json ∈ d.flags ∧ Flag.xml ∈ d.flags := Classical.not_not.mp hg
  rw [if_pos hg.1, if_pos hg.2] at hm
  rw [printf_single lit d hd]
  simp only [printArg, printVector, hm]
  rfl

/-- **C56 fails.** A stream of which more than 9998 characters are left is not printed in quotes without a width, while the same
text would be. -/
theorem c56_stream_fails (content : List Char) (h : content.length = 9999) :
    printf lit "%#s".toList [.scalar (.stream content 0 true)] = some (true, "!! too big > 10000 characters!!".toList) ∧
    printf lit "%s".toList [.scalar (.stream content 0 true)] = some (true, content) := by
  constructor
  · have e := printf_single lit ⟨[.full], [], none, .s⟩ (by simp [Directive.wf]) (.scalar (.stream content 0 true))
    rw [show Directive.text ⟨[.full], [], none, .s⟩ = "%#s".toList by decide,
      show fdOf ⟨[.full], [], none, .s⟩ = ⟨0, 255, false, false, 0, 0, false, true, 4, 0⟩ by decide] at e
    rw [e]
    simp only [printArg, printScalar, printStream, h]
    rfl
  · have e := printf_single lit ⟨[], [], none, .s⟩ (by simp [Directive.wf]) (.scalar (.stream content 0 true))
    rw [show Directive.text ⟨[], [], none, .s⟩ = "%s".toList by decide,
      show fdOf ⟨[], [], none, .s⟩ = ⟨0, 255, false, false, 0, 0, false, false, 4, 0⟩ by decide] at e
    rw [e]
    simp only [printArg, printScalar, show ¬ ((4 : Nat) = 5) by decide, if_false]
    rw [printStream_text _ _ _ _ (by omega) (by omega) (.inr (by simp [h]))]
    simp only [List.drop_zero]
    rw [printCCString_field _ _ _ _ _ (by simp) (by simp)]
    simp [textField, fill, quoted]

end Verif.Format
