import Verif.Proof.LogLine
/-! # C102: what a consumer of a logger prints of a message -/
namespace Verif.LogLine
open Verif.Format Verif.Spec.Format Verif.Spec.LogLine
open Verif.Spec.IntText (IsCxxType InRange minVal)
set_option linter.unusedSimpArgs false

variable (clock : Int → Option (Nat × Nat × Nat))

/-! ## Codes -/

private theorem contains_bit (code k : Nat) : contains code (2 ^ k) = code.testBit k := by
  unfold contains
  rw [Bool.eq_iff_iff, beq_iff_eq]
  constructor
  · intro h
    have := congrArg (Nat.testBit · k) h
    simpa [Nat.testBit_and, Nat.testBit_two_pow_self] using this
  · intro h
    apply Nat.eq_of_testBit_eq
    intro j
    rw [Nat.testBit_and, Nat.testBit_two_pow]
    by_cases hj : k = j
    · subst hj; simp [h]
    · simp [hj]

private theorem names_eq : errorNames = kinds.map fun k => (k.2, 2 ^ k.1) := by decide

private theorem first_name (code : Nat) (ks : List (Nat × Text)) (hz : ∀ k ∈ ks, '\x00' ∉ k.2) :
    (codeNames code false (ks.map fun k => (k.2, 2 ^ k.1))).1 = (ks.find? fun k => code.testBit k.1).isSome ∧
    ∀ k, ks.find? (fun k => code.testBit k.1) = some k →
      ∃ r, (codeNames code false (ks.map fun k => (k.2, 2 ^ k.1))).2 = k.2 ++ '\x00' :: r := by
  have ht : ∀ (l : List (Text × Nat)), (codeNames code true l).1 = true := by
    intro l
    induction l with
    | nil => rfl
    | cons x t ih => simp only [codeNames]; split <;> simp [ih]
  induction ks with
  | nil => simp [codeNames]
  | cons x t ih =>
    simp only [List.map_cons, codeNames, contains_bit, List.find?_cons]
    by_cases hx : code.testBit x.1 = true
    · simp [hx, ht]
    · simp [hx]
      have := ih (fun k hk => hz k (by simp [hk]))
      simpa using this

private theorem no_zero : ∀ k ∈ kinds, '\x00' ∉ k.2 := by decide

/-- **C102.** The text that is printed for a code is the name of the first kind of error, in the order of the table, that it
has; `NoError` if it has none of them. -/
theorem c102_code (code : Nat) : buffer (errorCodeToStream code) = codeName code := by
  have hf := first_name code kinds no_zero
  unfold errorCodeToStream codeName
  rw [names_eq]
  cases h : kinds.find? (fun k => code.testBit k.1) with
  | none =>
    rw [h] at hf
    have h1 := hf.1
    simp only [Option.isSome_none] at h1
    have h2 : ∀ (l : List (Text × Nat)), (codeNames code false l).1 = false → (codeNames code false l).2 = [] := by
      intro l
      induction l with
      | nil => intro _; rfl
      | cons x t ih =>
        intro h
        simp only [codeNames] at h ⊢
        split at h
        · rename_i hc
          exfalso
          have ht : ∀ (l : List (Text × Nat)), (codeNames code true l).1 = true := by
            intro l
            induction l with
            | nil => rfl
            | cons x t ih => simp only [codeNames]; split <;> simp [ih]
          rw [ht] at h
          cases h
        · rename_i hc
          rw [if_neg hc]
          exact ih h
    simp only [h1, h2 _ h1]
    decide
  | some k =>
    rw [h] at hf
    obtain ⟨r, hr⟩ := hf.2 k rfl
    have h1 := hf.1
    simp only [Option.isSome_some] at h1
    simp only [h1, hr, if_true]
    have hz := no_zero k (List.mem_of_find?_eq_some h)
    unfold buffer
    rw [List.takeWhile_append_of_pos]
    · simp
    · intro c hc
      simp only [bne_iff_ne, ne_eq]
      rintro rfl
      exact hz hc

/-! ## The line -/

/-- The preferences that a format asks for. -/
private def asked (f : Text) : Prefs :=
  { info := f.contains 'E', timeShort := f.contains 'T', timeFull := f.contains 't', objectName := f.contains 'O',
    objectPointer := f.contains 'o', functionName := f.contains 'f', fileName := f.contains 'F', message := f.contains 'm',
    threadId := f.contains 'R', className := f.contains 'C', platformSpecificString := f.contains 'P' }

/-- What a line has of one field. -/
private def part (keys : Bool) (f : Text) (i : Info) (msg : Text) (x : Field) : Text :=
  if f.contains x.letter then
    match content clock i msg x with
    | some t => mark keys x ++ t
    | none => []
  else []

private theorem line_parts (keys : Bool) (f : Text) (i : Info) (msg : Text) :
    line clock keys f i msg = order.flatMap (part clock keys f i msg) := by
  have gen : ∀ (l : List Field), ((l.filter fun x => f.contains x.letter).flatMap fun x =>
      match content clock i msg x with
      | some t => mark keys x ++ t
      | none => []) = l.flatMap (part clock keys f i msg) := by
    intro l
    induction l with
    | nil => rfl
    | cons x t ih =>
      rw [List.filter_cons, List.flatMap_cons, ← ih]
      by_cases h : f.contains x.letter = true
      · simp only [h, if_true, List.flatMap_cons, part]
      · simp only [h, if_false, part, Bool.false_eq_true, List.nil_append]
  exact gen order

private theorem key_mark (keys : Bool) (x : Field) (k : String) (h : k.toList = ['|'] ++ x.key ++ ['=']) :
    key keys k = cstr (some (mark keys x)) := by
  unfold key mark
  rw [h]

private theorem print_line (f : Text) (keys : Bool) (i : Info) (msg : Text) (hs : Sound clock i) :
    printToStream clock (asked f) keys i msg = some (line clock keys f i msg) := by
  obtain ⟨h1, h2, h3, h4, h5⟩ := hs
  have p1 : ∀ s, putInfo (asked f) keys i (some s) = some (s ++ part clock keys f i msg .code) := by
    intro s
    simp only [putInfo, asked, part, content, Field.letter]
    rcases Bool.eq_false_or_eq_true (List.contains f 'E') with hc | hc
    · simp only [hc, if_true]
      rw [key_mark keys .code "|E=" (by decide), c102_code, put_text]
    · simp [-List.contains_eq_mem, hc]
  have p2 : ∀ s, putTimeShort (asked f) keys i (some s) = some (s ++ part clock keys f i msg .ticks) := by
    intro s
    simp only [putTimeShort, asked, part, content, Field.letter]
    rcases Bool.eq_false_or_eq_true (List.contains f 'T') with hc | hc
    · simp only [hc, if_true]
      rw [key_mark keys .ticks "|TM=" (by decide), put_dec _ _ u64 (by simp [IsCxxType, u64]) _
        (by simp only [InRange, u64, minVal, Verif.Spec.IntText.maxVal]; simp; omega)]
    · simp [-List.contains_eq_mem, hc]
  have p3 : ∀ s, putTimeFull clock (asked f) keys i (some s) = some (s ++ part clock keys f i msg .time) := by
    intro s
    simp only [putTimeFull, asked, part, content, Field.letter]
    rcases Bool.eq_false_or_eq_true (List.contains f 't') with hc | hc
    · simp only [hc, if_true]
      cases hk : clock i.timeSeconds with
      | none => simp
      | some t =>
        obtain ⟨h, m, c⟩ := t
        obtain ⟨b1, b2, b3⟩ := h5 h m c hk
        rw [key_mark keys .time "|TM=" (by decide)]
        simp only [Option.map_some]
        rw [put_time _ _ h m c _ b1 b2 b3 h1]
    · simp [-List.contains_eq_mem, hc]
  have p4 : ∀ s, putObjectName (asked f) keys i (some s) = some (s ++ part clock keys f i msg .name) := by
    intro s
    simp only [putObjectName, asked, part, content, Field.letter]
    rcases Bool.eq_false_or_eq_true (List.contains f 'O') with hc | hc
    · simp only [hc, if_true]
      rw [key_mark keys .name "|o=" (by decide)]
      cases i.objectName with
      | none => simp [put_key]
      | some n => simp only [put_text, Option.getD_some]
    · simp [-List.contains_eq_mem, hc]
  have p5 : ∀ s, putObjectPointer (asked f) keys i (some s) = some (s ++ part clock keys f i msg .address) := by
    intro s
    simp only [putObjectPointer, asked, part, content, Field.letter]
    rcases Bool.eq_false_or_eq_true (List.contains f 'o') with hc | hc
    · simp only [hc, if_true]
      rw [key_mark keys .address "|O=" (by decide)]
      by_cases h0 : i.objectPointer = 0
      · simp [h0, put_key]
      · simp only [h0, ne_eq, not_false_eq_true, if_true, if_false, put_addr _ _ _ h0 h4]
    · simp [-List.contains_eq_mem, hc]
  have p6 : ∀ s, putClassName (asked f) keys i (some s) = some (s ++ part clock keys f i msg .cls) := by
    intro s
    simp only [putClassName, asked, part, content, Field.letter]
    rcases Bool.eq_false_or_eq_true (List.contains f 'C') with hc | hc
    · simp only [hc, if_true]
      rw [key_mark keys .cls "|C=" (by decide), put_opt]
    · simp [-List.contains_eq_mem, hc]
  have p7 : ∀ s, putThreadId (asked f) keys (some s) = some (s ++ part clock keys f i msg .thread) := by
    intro s
    simp only [putThreadId, asked, part, content, Field.letter]
    rcases Bool.eq_false_or_eq_true (List.contains f 'R') with hc | hc
    · simp only [hc, if_true]
      rw [key_mark keys .thread "|T=" (by decide), put_key, List.append_nil]
    · simp [-List.contains_eq_mem, hc]
  have p8 : ∀ s, putPlatform (asked f) keys i (some s) = some (s ++ part clock keys f i msg .platform) := by
    intro s
    simp only [putPlatform, asked, part, content, Field.letter]
    rcases Bool.eq_false_or_eq_true (List.contains f 'P') with hc | hc
    · simp only [hc, if_true]
      rw [key_mark keys .platform "|P=" (by decide), put_opt]
    · simp [-List.contains_eq_mem, hc]
  have p9 : ∀ s, putFunctionName (asked f) keys i (some s) = some (s ++ part clock keys f i msg .function) := by
    intro s
    simp only [putFunctionName, asked, part, content, Field.letter]
    rcases Bool.eq_false_or_eq_true (List.contains f 'f') with hc | hc
    · simp only [hc, if_true]
      rw [key_mark keys .function "|f=" (by decide), put_opt]
    · simp [-List.contains_eq_mem, hc]
  have p10 : ∀ s, putFileName (asked f) keys i (some s) = some (s ++ part clock keys f i msg .file) := by
    intro s
    simp only [putFileName, asked, part, content, Field.letter]
    rcases Bool.eq_false_or_eq_true (List.contains f 'F') with hc | hc
    · simp only [hc, if_true]
      rw [key_mark keys .file "|F=" (by decide)]
      cases i.fileName with
      | none => rw [put_nofile]
      | some n => rw [put_file _ _ _ _ h2 h3]
    · simp [-List.contains_eq_mem, hc]
  have p11 : ∀ s, putMessage (asked f) keys msg (some s) = some (s ++ part clock keys f i msg .message) := by
    intro s
    simp only [putMessage, asked, part, content, Field.letter]
    rcases Bool.eq_false_or_eq_true (List.contains f 'm') with hc | hc
    · simp only [hc, if_true]
      rw [key_mark keys .message "|D=" (by decide), put_text]
    · simp [-List.contains_eq_mem, hc]
  rw [printToStream, p1, p2, p3, p4, p5, p6, p7, p8, p9, p10, p11, line_parts]
  simp [order, List.flatMap_cons, List.append_assoc]

/-! ## The preferences -/

private def join (p : Prefs) (f : Text) : Prefs :=
  { info := p.info || f.contains 'E', timeShort := p.timeShort || f.contains 'T', timeFull := p.timeFull || f.contains 't',
    objectName := p.objectName || f.contains 'O', objectPointer := p.objectPointer || f.contains 'o',
    functionName := p.functionName || f.contains 'f', fileName := p.fileName || f.contains 'F',
    message := p.message || f.contains 'm', threadId := p.threadId || f.contains 'R',
    className := p.className || f.contains 'C', platformSpecificString := p.platformSpecificString || f.contains 'P' }

private theorem letters_known : ∀ (f : Text) (p : Prefs), (∀ c ∈ f, ∃ x : Field, c = x.letter) →
    loadLetters p f = (true, join p f) := by
  intro f
  induction f with
  | nil => intro p _; simp [loadLetters, join]
  | cons c t ih =>
    intro p h
    have ht := fun p => ih p (fun c hc => h c (by simp [hc]))
    obtain ⟨x, rfl⟩ := h c (by simp)
    cases x <;> simp [loadLetters, Field.letter, ht, join]

private theorem letters_unknown : ∀ (f : Text) (p : Prefs), ¬ (∀ c ∈ f, ∃ x : Field, c = x.letter) →
    (loadLetters p f).1 = false := by
  intro f
  induction f with
  | nil => intro p h; exact absurd (by simp) h
  | cons c t ih =>
    intro p h
    by_cases hc : ∃ x : Field, c = x.letter
    · have ht := fun p => ih p (fun hh => h (by
        intro d hd
        rcases List.mem_cons.mp hd with rfl | hd
        · exact hc
        · exact hh d hd))
      obtain ⟨x, rfl⟩ := hc
      cases x <;> simp [loadLetters, Field.letter, ht]
    · have hn : ∀ x : Field, c ≠ x.letter := fun x hx => hc ⟨x, hx⟩
      have e1 := hn .code; have e2 := hn .ticks; have e3 := hn .time; have e4 := hn .name; have e5 := hn .address
      have e6 := hn .cls; have e7 := hn .thread; have e8 := hn .platform; have e9 := hn .function; have e10 := hn .file
      have e11 := hn .message
      simp only [Field.letter] at e1 e2 e3 e4 e5 e6 e7 e8 e9 e10 e11
      simp [loadLetters, e1, e2, e3, e4, e5, e6, e7, e8, e9, e10, e11]

/-- **C102.** The preferences are accepted exactly when there is a `Format`, with at most eleven letters that are all known. -/
theorem c102_accepted (k : Bool) (format : Option Text) (keys : Option Nat) :
    (load k format keys).1 = true ↔ ∃ f, format = some f ∧ Known f := by
  cases format with
  | none => simp [load]
  | some f =>
    have hbo : bitOffset = 11 := rfl
    simp only [load]
    by_cases hl : f.length < bitOffset + 1
    · rw [if_pos hl]
      by_cases hk : ∀ c ∈ f, ∃ x : Field, c = x.letter
      · rw [letters_known f _ hk]
        constructor
        · intro _; exact ⟨f, rfl, by omega, hk⟩
        · intro _; cases keys <;> rfl
      · have := letters_unknown f {} hk
        constructor
        · intro h
          generalize loadLetters {} f = r at this h
          obtain ⟨b, p⟩ := r
          simp only at this
          subst this
          simp at h
        · rintro ⟨g, hg, _, h2⟩
          cases hg
          exact absurd h2 hk
    · rw [if_neg hl]
      constructor
      · intro h; cases h
      · rintro ⟨g, hg, h1, _⟩
        cases hg
        omega

/-- **C102.** A consumer with accepted preferences prints, of each message, the fields that are asked for and no others, in the
same order whatever the format, each after a bar and, unless `PrintKeys` is there and is not one, its key. -/
theorem c102_line (f : Text) (hf : Known f) (keys : Option Nat) (i : Info) (msg : Text) (hs : Sound clock i) :
    consume clock (some f) keys i msg = some (true, line clock (keys = none ∨ keys = some 1) f i msg) := by
  obtain ⟨hl, hk⟩ := hf
  have ha : join {} f = asked f := by simp [join, asked]
  have hbo : bitOffset = 11 := rfl
  unfold consume load
  simp only []
  rw [if_pos (by omega), letters_known f _ hk, ha]
  cases keys with
  | none => simp [print_line clock f _ i msg hs]
  | some k =>
    have e : (k == 1) = decide (some k = none ∨ some k = some 1) := by
      rw [Bool.eq_iff_iff]
      simp
    simp only [print_line clock f _ i msg hs, e, Option.map_some]


private def someInfo : Info := ⟨2 ^ 16, 215, 1234567, 3661, some "Thread1".toList, 4096, some "GAM".toList, some "GAM.cpp".toList,
  some "Setup".toList, none⟩
private def someClock (t : Int) : Option (Nat × Nat × Nat) := some (t.toNat / 3600, t.toNat / 60 % 60, t.toNat % 60)

example : Known "mtOEF".toList ∧ Sound someClock someInfo := by
  refine ⟨⟨by decide, ?_⟩, by decide, by decide, by decide, by decide, ?_⟩
  · intro c hc
    have : c = 'm' ∨ c = 't' ∨ c = 'O' ∨ c = 'E' ∨ c = 'F' := by simpa using hc
    rcases this with h | h | h | h | h
    · exact ⟨.message, h⟩
    · exact ⟨.time, h⟩
    · exact ⟨.name, h⟩
    · exact ⟨.code, h⟩
    · exact ⟨.file, h⟩
  intro h m s hc
  have : (h, m, s) = (1, 1, 1) := by
    have : someClock someInfo.timeSeconds = some (1, 1, 1) := by decide
    rw [this] at hc
    injection hc with hc
    exact hc.symm
  cases this
  decide

example : consume someClock (some "mtOEF".toList) none someInfo "Too late | by 3".toList =
    some (true, "|E=Warning|TM=01:01:01 (1234567)|o=Thread1|F=GAM.cpp:215|D=Too late | by 3".toList) ∧
  consume someClock (some "moP".toList) (some 0) someInfo "Too late".toList =
    some (true, "|0x0000000000001000||Too late".toList) := by
  decide +kernel

/-! ## Lines can be taken apart -/

private theorem bars_inj : ∀ (xs ys : List Text), xs.length = ys.length → (∀ x ∈ xs.dropLast, '|' ∉ x) →
    (∀ y ∈ ys.dropLast, '|' ∉ y) → xs.flatMap (fun t => '|' :: t) = ys.flatMap (fun t => '|' :: t) → xs = ys := by
  intro xs
  induction xs with
  | nil =>
    intro ys hl _ _ _
    cases ys with
    | nil => rfl
    | cons y t => simp at hl
  | cons x xs ih =>
    intro ys hl hx hy h
    cases ys with
    | nil => simp at hl
    | cons y ys =>
      have hl' : xs.length = ys.length := by simpa using hl
      cases xs with
      | nil =>
        have : ys = [] := List.eq_nil_of_length_eq_zero hl'.symm
        subst this
        simpa using h
      | cons x2 xs =>
        cases ys with
        | nil => simp at hl'
        | cons y2 ys =>
          have h1 : '|' ∉ x := hx x (by simp)
          have h2 : '|' ∉ y := hy y (by simp)
          simp only [List.flatMap_cons, List.cons_append, List.cons.injEq, true_and] at h
          have key : ∀ (a b r s : Text), '|' ∉ a → '|' ∉ b → a ++ '|' :: r = b ++ '|' :: s → a = b ∧ r = s := by
            intro a
            induction a with
            | nil =>
              intro b r s _ hb hh
              cases b with
              | nil => simpa using hh
              | cons c b => simp at hh; exact absurd hh.1 (fun hc => hb (by rw [hc]; simp))
            | cons c a iha =>
              intro b r s ha hb hh
              cases b with
              | nil => simp at hh; exact absurd hh.1 (fun hc => ha (by simp [hc]))
              | cons d b =>
                simp only [List.cons_append, List.cons.injEq] at hh
                have := iha b r s (fun hm => ha (by simp [hm])) (fun hm => hb (by simp [hm])) hh.2
                exact ⟨by rw [hh.1, this.1], this.2⟩
          obtain ⟨e1, e2⟩ := key x y _ _ h1 h2 h
          have := ih (y2 :: ys) hl' (fun z hz => hx z (by simp at hz ⊢; exact Or.inr hz)) (fun z hz => hy z (by simp at hz ⊢; exact Or.inr hz))
            (by simp only [List.flatMap_cons, List.cons_append]; rw [e2])
          rw [e1, this]

private def chosen (f : Text) : List Field := order.filter fun x => f.contains x.letter

private theorem chosen_last (f : Text) (x : Field) (h : x ∈ (chosen f).dropLast) : x ≠ .message ∧ x.letter ∈ f := by
  have e : order = order.dropLast ++ [.message] := by decide
  have hm : Field.message ∉ order.dropLast := by decide
  unfold chosen at h
  rw [e, List.filter_append] at h
  have hx : x ∈ order.dropLast.filter fun x => f.contains x.letter := by
    by_cases hc : f.contains Field.message.letter = true
    · simp only [List.filter_cons, hc, if_true, List.filter_nil, List.dropLast_concat] at h
      exact h
    · simp only [List.filter_cons, hc, if_false, List.filter_nil, List.append_nil, Bool.false_eq_true] at h
      exact List.dropLast_subset _ h
  have := List.mem_filter.mp hx
  exact ⟨fun hh => hm (hh ▸ this.1), by simpa using this.2⟩

private theorem line_bars (keys : Bool) (f : Text) (i : Info) (msg : Text) (hr : Readable clock f i msg) :
    line clock keys f i msg = ((chosen f).map fun x => (if keys then x.key ++ ['='] else []) ++
      (content clock i msg x).getD []).flatMap (fun t => '|' :: t) := by
  unfold line chosen
  rw [List.flatMap_map]
  have gen : ∀ (l : List Field), (∀ x ∈ l, x.letter ∈ f) → (l.flatMap fun x =>
      match content clock i msg x with
      | some t => mark keys x ++ t
      | none => []) = l.flatMap fun x => '|' :: ((if keys then x.key ++ ['='] else []) ++ (content clock i msg x).getD []) := by
    intro l
    induction l with
    | nil => intro _; rfl
    | cons x t ih =>
      intro h
      rw [List.flatMap_cons, List.flatMap_cons, ih (fun y hy => h y (by simp [hy]))]
      obtain ⟨c, hc, _⟩ := hr x (h x (by simp))
      rw [hc]
      congr 1
      cases keys <;> simp [mark]
  apply gen
  intro x hx
  simpa using (List.mem_filter.mp hx).2

/-- **C102.** Two messages that are printed alike have the same content in every field that is asked for, as long as there are
no bars in the fields before the message. -/
theorem c102_distinct (f : Text) (hf : Known f) (keys : Option Nat) (i j : Info) (m n : Text) (hi : Sound clock i) (hj : Sound clock j)
    (ri : Readable clock f i m) (rj : Readable clock f j n)
    (h : consume clock (some f) keys i m = consume clock (some f) keys j n) (x : Field) (hx : x.letter ∈ f) :
    content clock i m x = content clock j n x := by
  rw [c102_line clock f hf keys i m hi, c102_line clock f hf keys j n hj] at h
  injection h with h
  injection h with _ h
  generalize decide (keys = none ∨ keys = some 1) = k at h
  rw [line_bars clock k f i m ri, line_bars clock k f j n rj] at h
  have nokey : ∀ y : Field, '|' ∉ y.key ++ ['='] := by intro y; cases y <;> decide
  have side : ∀ (i : Info) (m : Text), Readable clock f i m → ∀ t ∈ ((chosen f).map fun x => (if k then x.key ++ ['='] else []) ++
      (content clock i m x).getD []).dropLast, '|' ∉ t := by
    intro i m r t ht
    rw [← List.map_dropLast] at ht
    obtain ⟨y, hy, rfl⟩ := List.mem_map.mp ht
    obtain ⟨hne, hm⟩ := chosen_last f y hy
    obtain ⟨c, hc, hb⟩ := r y hm
    rw [hc]
    simp only [List.mem_append, not_or, Option.getD_some]
    refine ⟨?_, hb hne⟩
    cases k
    · simp
    · simpa using nokey y
  have := bars_inj _ _ (by simp) (side i m ri) (side j n rj) h
  rw [List.map_inj_left] at this
  have hmem : x ∈ chosen f := List.mem_filter.mpr ⟨by cases x <;> decide, by simpa using hx⟩
  have e := List.append_cancel_left (this x hmem)
  obtain ⟨a, ha, _⟩ := ri x hx
  obtain ⟨b, hb, _⟩ := rj x hx
  rw [ha, hb] at e ⊢
  simpa using e

example : Readable someClock "mtOEF".toList someInfo "Too late | by 3".toList := by
  intro x hx
  cases x <;> first | exact absurd hx (by decide) | exact ⟨_, rfl, by decide +kernel⟩

/-! ## Where the code does not do what its documentation says -/

/-- **C102.** Of a code with several kinds of errors only one is printed: whatever else happened, a code with the bit of the
debug messages is printed as such. -/
theorem c102_codes_fails (i : Info) (msg : Text) (hs : Sound clock i) (h : i.errorType.testBit 14 = true) :
    consume clock (some ['E']) none i msg = some (true, "|E=Debug".toList) := by
  rw [c102_line clock _ ⟨by decide, by simp; exact ⟨.code, rfl⟩⟩ none i msg hs]
  have : codeName i.errorType = "Debug".toList := by simp [codeName, kinds, h]
  simp [line, order, Field.letter, content, this, mark, Field.key]

/-- **C102.** Overflows, underflows and values out of range are printed as if there was no error. -/
theorem c102_unnamed_fails (i : Info) (msg : Text) (hs : Sound clock i) (h : 2 ^ 19 ∣ i.errorType) :
    consume clock (some ['E']) none i msg = some (true, "|E=NoError".toList) := by
  rw [c102_line clock _ ⟨by decide, by simp; exact ⟨.code, rfl⟩⟩ none i msg hs]
  obtain ⟨q, hq⟩ := h
  have hb : ∀ k, k < 19 → i.errorType.testBit k = false := by
    intro k hk
    rw [hq, Nat.testBit_two_pow_mul]
    simp; omega
  have : codeName i.errorType = "NoError".toList := by simp [codeName, kinds, hb]
  simp [line, order, Field.letter, content, this, mark, Field.key]

/-- **C102.** The thread is never printed, only its key. -/
theorem c102_thread_fails (i : Info) (msg : Text) (hs : Sound clock i) :
    consume clock (some ['R']) none i msg = some (true, "|T=".toList) := by
  rw [c102_line clock _ ⟨by decide, by simp; exact ⟨.thread, rfl⟩⟩ none i msg hs]
  simp [line, order, Field.letter, content, mark, Field.key]

/-- **C102.** The format that the documentation gives as an example is refused, and so is any with more than eleven letters. -/
theorem c102_example_fails (keys : Option Nat) : (load true (some "ItOoFm".toList) keys).1 = false ∧
    ∀ f : Text, 11 < f.length → (load true (some f) keys).1 = false := by
  constructor
  · rfl
  · intro f hf
    apply Bool.eq_false_iff.mpr
    intro h
    obtain ⟨g, hg, hl, _⟩ := (c102_accepted true (some f) keys).mp h
    cases hg
    omega

/-- **C102.** The number of a line that does not fit in 16 bits is printed wrong. -/
theorem c102_number_fails : consume (fun _ => none) (some ['F']) none (report 1 none none 0 (some "a.cpp".toList) 40000 none 0 0 none) [] =
    some (true, "|F=a.cpp:-25536".toList) := by
  decide +kernel

/-- **C102.** With a bar in a name two different messages are printed alike. -/
theorem c102_bar_fails : ∃ i j : Info, i.objectName ≠ j.objectName ∧
    consume (fun _ => none) (some "Om".toList) (some 0) i "c".toList = consume (fun _ => none) (some "Om".toList) (some 0) j "b|c".toList := by
  refine ⟨⟨0, 0, 0, 0, some "a|b".toList, 0, none, none, none, none⟩, ⟨0, 0, 0, 0, some "a".toList, 0, none, none, none, none⟩, by decide, ?_⟩
  decide +kernel

end Verif.LogLine
