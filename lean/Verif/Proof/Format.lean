import Verif.Spec.Format
import Verif.Props.IntRadix
set_option linter.unusedSimpArgs false
set_option maxRecDepth 8000
namespace Verif.Format
open Verif.Spec.Format
open Verif.IntText (IType Radix printDecimal printRadix)

/-! ## Parsing of a field -/

/-- The contribution of a flag. -/
def flagFD : Flag → FD
  | .blank => ⟨0, 0, true, false, 0, 0, false, false, 0, 0⟩
  | .minus => ⟨0, 0, true, true, 0, 0, false, false, 0, 0⟩
  | .zero => ⟨0, 0, false, false, 0, 0, true, false, 0, 0⟩
  | .full => ⟨0, 0, false, false, 0, 0, false, true, 0, 0⟩
  | .standard => ⟨0, 0, false, false, 0, 0, false, false, 0, 0⟩
  | .json => ⟨0, 0, false, false, 0, 0, false, false, 0, 1⟩
  | .xml => ⟨0, 0, false, false, 0, 0, false, false, 0, 2⟩

def letterFD : Letter → FD
  | .any => ⟨0, 0, false, false, 0, 0, false, false, 0, 0⟩
  | .info => ⟨0, 0, false, false, 0, 0, false, false, 5, 0⟩
  | .struct => ⟨0, 0, false, false, 0, 0, false, false, 6, 0⟩
  | .d => ⟨0, 0, false, false, 0, 0, false, false, 1, 0⟩
  | .i => ⟨0, 0, false, false, 0, 0, false, false, 1, 0⟩
  | .u => ⟨0, 0, false, false, 0, 0, false, false, 1, 0⟩
  | .s => ⟨0, 0, false, false, 0, 0, false, false, 4, 0⟩
  | .c => ⟨0, 0, false, false, 0, 0, false, false, 4, 0⟩
  | .f => ⟨0, 0, false, false, 0, 0, false, false, 2, 0⟩
  | .F => ⟨0, 0, false, false, 1, 0, false, false, 2, 0⟩
  | .e => ⟨0, 0, false, false, 2, 0, false, false, 2, 0⟩
  | .E => ⟨0, 0, false, false, 3, 0, false, false, 2, 0⟩
  | .g => ⟨0, 0, false, false, 6, 0, false, false, 2, 0⟩
  | .G => ⟨0, 0, false, false, 7, 0, false, false, 2, 0⟩
  | .x => ⟨0, 0, false, false, 0, 1, false, false, 1, 0⟩
  | .p => ⟨0, 0, false, false, 0, 1, true, true, 3, 0⟩
  | .o => ⟨0, 0, false, false, 0, 3, false, false, 1, 0⟩
  | .b => ⟨0, 0, false, false, 0, 2, false, false, 1, 0⟩

theorem lookup_flag (f : Flag) : lookup flagsLookup f.char = some (flagFD f) := by cases f <;> decide
theorem lookup_letter (l : Letter) : lookup typesLookup l.char = some (letterFD l) := by cases l <;> decide
theorem lookup_mem : ∀ (t : List (Char × FD)) (c : Char) (r : FD), lookup t c = some r → (c, r) ∈ t := by
  intro t
  induction t with
  | nil => intro c r h; cases h
  | cons k t ih =>
    intro c r h
    obtain ⟨k, f⟩ := k
    simp only [lookup] at h
    by_cases hk : k = c
    · rw [if_pos hk] at h; injection h with h; subst h; subst hk; simp
    · rw [if_neg hk] at h; exact List.mem_cons_of_mem _ (ih c r h)
theorem flag_of_lookup (c : Char) (r : FD) (h : lookup flagsLookup c = some r) : ∃ f : Flag, c = f.char ∧ r = flagFD f := by
  have hm := lookup_mem _ _ _ h
  simp only [flagsLookup, List.mem_cons, List.not_mem_nil, or_false, Prod.mk.injEq] at hm
  rcases hm with ⟨rfl, rfl⟩ | ⟨rfl, rfl⟩ | ⟨rfl, rfl⟩ | ⟨rfl, rfl⟩ | ⟨rfl, rfl⟩ | ⟨rfl, rfl⟩ | ⟨rfl, rfl⟩
  · exact ⟨.blank, rfl, rfl⟩
  · exact ⟨.minus, rfl, rfl⟩
  · exact ⟨.zero, rfl, rfl⟩
  · exact ⟨.full, rfl, rfl⟩
  · exact ⟨.standard, rfl, rfl⟩
  · exact ⟨.json, rfl, rfl⟩
  · exact ⟨.xml, rfl, rfl⟩
theorem letter_of_lookup (c : Char) (r : FD) (h : lookup typesLookup c = some r) : ∃ f : Letter, c = f.char ∧ r = letterFD f := by
  have hm := lookup_mem _ _ _ h
  simp only [typesLookup, List.mem_cons, List.not_mem_nil, or_false, Prod.mk.injEq] at hm
  rcases hm with ⟨rfl, rfl⟩ | ⟨rfl, rfl⟩ | ⟨rfl, rfl⟩ | ⟨rfl, rfl⟩ | ⟨rfl, rfl⟩ | ⟨rfl, rfl⟩ | ⟨rfl, rfl⟩ | ⟨rfl, rfl⟩ | ⟨rfl, rfl⟩ | ⟨rfl, rfl⟩ | ⟨rfl, rfl⟩ | ⟨rfl, rfl⟩ | ⟨rfl, rfl⟩ | ⟨rfl, rfl⟩ | ⟨rfl, rfl⟩ | ⟨rfl, rfl⟩ | ⟨rfl, rfl⟩ | ⟨rfl, rfl⟩
  · exact ⟨.any, rfl, rfl⟩
  · exact ⟨.info, rfl, rfl⟩
  · exact ⟨.struct, rfl, rfl⟩
  · exact ⟨.d, rfl, rfl⟩
  · exact ⟨.i, rfl, rfl⟩
  · exact ⟨.u, rfl, rfl⟩
  · exact ⟨.s, rfl, rfl⟩
  · exact ⟨.c, rfl, rfl⟩
  · exact ⟨.f, rfl, rfl⟩
  · exact ⟨.F, rfl, rfl⟩
  · exact ⟨.e, rfl, rfl⟩
  · exact ⟨.E, rfl, rfl⟩
  · exact ⟨.g, rfl, rfl⟩
  · exact ⟨.G, rfl, rfl⟩
  · exact ⟨.x, rfl, rfl⟩
  · exact ⟨.p, rfl, rfl⟩
  · exact ⟨.o, rfl, rfl⟩
  · exact ⟨.b, rfl, rfl⟩

def flagsFD (fd : FD) (fs : List Flag) : FD := fs.foldl (fun a f => a.or (flagFD f)) fd

/-- What cannot be taken for a flag. -/
def NoFlag (rest : List Char) : Prop := ∀ c cs, rest = c :: cs → lookup flagsLookup c = none

theorem parseFlags_text (fs : List Flag) (rest : List Char) (hr : NoFlag rest) :
    ∀ fd, parseFlags fd (fs.map Flag.char ++ rest) = (flagsFD fd fs, rest) := by
  induction fs with
  | nil =>
    intro fd
    cases rest with
    | nil => rfl
    | cons c cs => simp only [List.map_nil, List.nil_append, parseFlags, hr c cs rfl, flagsFD, List.foldl_nil]
  | cons f fs ih =>
    intro fd
    simp only [List.map_cons, List.cons_append, parseFlags, lookup_flag, ih, flagsFD, List.foldl_cons]

theorem parseFlags_inv : ∀ (text : List Char) (fd : FD), ∃ fs : List Flag,
    text = fs.map Flag.char ++ (parseFlags fd text).2 ∧ (parseFlags fd text).1 = flagsFD fd fs ∧
    NoFlag (parseFlags fd text).2 := by
  intro text
  induction text with
  | nil => intro fd; exact ⟨[], rfl, rfl, by intro c cs h; cases h⟩
  | cons c cs ih =>
    intro fd
    cases h : lookup flagsLookup c with
    | none =>
      simp only [parseFlags, h]
      exact ⟨[], rfl, rfl, by intro c' cs' h'; injection h' with h1 h2; subst h1; exact h⟩
    | some r =>
      obtain ⟨f, hc, hr⟩ := flag_of_lookup c r h
      obtain ⟨fs, h1, h2, h3⟩ := ih (fd.or r)
      simp only [parseFlags, h]
      refine ⟨f :: fs, ?_, ?_, h3⟩
      · simp only [List.map_cons, List.cons_append, ← h1, hc]
      · rw [h2, hr]; rfl

theorem getDigit_digit : ∀ d, d < 10 → getDigit (digitChar d) = some d := by decide

theorem getDigit_inv (c : Char) (d : Nat) (h : getDigit c = some d) : d < 10 ∧ c = digitChar d := by
  unfold getDigit at h
  split at h
  · rename_i hc
    injection h with h
    have hd : d < 10 := by omega
    refine ⟨hd, ?_⟩
    have hcn : c.toNat = 48 + d := by omega
    have key : ∀ d, d < 10 → (digitChar d).toNat = 48 + d := by decide
    exact Char.toNat_inj.mp (by rw [hcn, key d hd])
  · exact absurd h (by simp)

/-- What cannot be taken for a digit. -/
def NoDigit (rest : List Char) : Prop := ∀ c cs, rest = c :: cs → getDigit c = none

theorem getInteger_text (ds : List Nat) (rest : List Char) (hr : NoDigit rest) (hd : ∀ x ∈ ds, x < 10) :
    ∀ n, getInteger (n % 2 ^ 32) (ds.map digitChar ++ rest) = (ds.foldl (fun a d => 10 * a + d) n % 2 ^ 32, rest) := by
  induction ds with
  | nil =>
    intro n
    cases rest with
    | nil => rfl
    | cons c cs => simp only [List.map_nil, List.nil_append, getInteger, hr c cs rfl, List.foldl_nil]
  | cons d ds ih =>
    intro n
    have e : (n % 2 ^ 32 * 10 + d) % 2 ^ 32 = (10 * n + d) % 2 ^ 32 := by omega
    simp only [List.map_cons, List.cons_append, getInteger, getDigit_digit d (hd d (by simp)), List.foldl_cons, e]
    exact ih (fun x hx => hd x (by simp [hx])) _

theorem getInteger_inv : ∀ (text : List Char) (n : Nat), ∃ ds : List Nat, (∀ x ∈ ds, x < 10) ∧
    text = ds.map digitChar ++ (getInteger n text).2 ∧ NoDigit (getInteger n text).2 := by
  intro text
  induction text with
  | nil => intro n; exact ⟨[], by simp, rfl, by intro c cs h; cases h⟩
  | cons c cs ih =>
    intro n
    cases h : getDigit c with
    | none =>
      simp only [getInteger, h]
      exact ⟨[], by simp, rfl, by intro c' cs' h'; injection h' with h1 h2; subst h1; exact h⟩
    | some d =>
      obtain ⟨hd, hc⟩ := getDigit_inv c d h
      obtain ⟨ds, h0, h1, h2⟩ := ih ((n * 10 + d) % 2 ^ 32)
      simp only [getInteger, h]
      refine ⟨d :: ds, ?_, ?_, h2⟩
      · intro x hx
        rcases List.mem_cons.mp hx with h | h
        · rw [h]; exact hd
        · exact h0 x h
      · simp only [List.map_cons, List.cons_append, ← h1, hc]

theorem digit_noflag : ∀ d, d < 10 → d ≠ 0 → lookup flagsLookup (digitChar d) = none := by decide
theorem letter_noflag (l : Letter) : lookup flagsLookup l.char = none := by cases l <;> decide
theorem letter_nodigit (l : Letter) : getDigit l.char = none := by cases l <;> decide
theorem letter_nodot (l : Letter) : l.char ≠ '.' := by cases l <;> decide

/-- The text of a precision. -/
def precText : Option (List Nat) → List Char
  | none => []
  | some ds => '.' :: ds.map digitChar

def precFD (fd : FD) : Option (List Nat) → FD
  | none => fd
  | some [] => { fd with precision := 255 }
  | some ds => { fd with precision := min (value 10 ds % 2 ^ 32) 255 }

/-- The description made of the parts of a field; numbers modulo 2^32. -/
def fdOf (d : Directive) : FD :=
  (precFD { flagsFD FD.default d.flags with size := min (value 10 d.width % 2 ^ 32) 255 } d.precision).or (letterFD d.letter)

/-- The text of a field after the percent. -/
def body (d : Directive) : List Char :=
  d.flags.map Flag.char ++ (d.width.map digitChar ++ (precText d.precision ++ [d.letter.char]))

theorem text_eq (d : Directive) : d.text = '%' :: body d := by
  unfold Directive.text body precText
  cases d.precision <;> simp

theorem parsePrecision_other (fd : FD) (c : Char) (cs : List Char) (h : c ≠ '.') : parsePrecision fd (c :: cs) = (fd, c :: cs) := by
  unfold parsePrecision
  split
  · rename_i heq; injection heq with h1 h2; exact absurd h1 h
  · rfl

theorem parsePrecision_text (fd : FD) (p : Option (List Nat)) (l : Letter) (rest : List Char) (hp : ∀ x ∈ p.getD [], x < 10) :
    parsePrecision fd (precText p ++ l.char :: rest) = (precFD fd p, l.char :: rest) := by
  match p with
  | none => simp only [List.nil_append, precText]; exact parsePrecision_other _ _ _ (letter_nodot l)
  | some [] =>
    simp only [precText, precFD, List.map_nil, List.append_nil, List.cons_append, List.nil_append, parsePrecision, letter_nodigit]
  | some (d :: ds) =>
    have hd : ∀ x ∈ d :: ds, x < 10 := hp
    have e := getInteger_text (d :: ds) (l.char :: rest) (by intro c cs h; injection h with h1 h2; subst h1; exact letter_nodigit l) hd 0
    simp only [Nat.zero_mod] at e
    simp only [precText, List.map_cons, List.cons_append, List.nil_append, parsePrecision, getDigit_digit d (hd d (by simp))]
    simp only [List.map_cons, List.cons_append] at e
    rw [e]; rfl

theorem initialise_eq (fd : FD) (text : List Char) (h : text ≠ []) : initialise fd text =
    (match (parsePrecision { (parseFlags fd text).1 with size := min (getInteger 0 (parseFlags fd text).2).1 255 }
        (getInteger 0 (parseFlags fd text).2).2).2 with
    | [] => (false, (parsePrecision { (parseFlags fd text).1 with size := min (getInteger 0 (parseFlags fd text).2).1 255 }
        (getInteger 0 (parseFlags fd text).2).2).1, none)
    | c :: cs =>
      match lookup typesLookup c with
      | some f => (true, (parsePrecision { (parseFlags fd text).1 with size := min (getInteger 0 (parseFlags fd text).2).1 255 }
        (getInteger 0 (parseFlags fd text).2).2).1.or f, some cs)
      | none => (false, (parsePrecision { (parseFlags fd text).1 with size := min (getInteger 0 (parseFlags fd text).2).1 255 }
        (getInteger 0 (parseFlags fd text).2).2).1, some cs)) := by
  cases text with
  | nil => exact absurd rfl h
  | cons c cs => rfl

theorem initialise_text (d : Directive) (hw : d.wf) (rest : List Char) :
    initialise FD.default (body d ++ rest) = (true, fdOf d, some rest) := by
  obtain ⟨h1, h2, h3⟩ := hw
  have hne : body d ++ rest ≠ [] := by unfold body; simp
  have htail : ∀ c cs, precText d.precision ++ (d.letter.char :: rest) = c :: cs →
      lookup flagsLookup c = none ∧ getDigit c = none := by
    intro c cs h
    cases hp : d.precision with
    | none => rw [hp] at h; simp only [precText, List.nil_append, List.cons_append] at h; injection h with a b; subst a
              exact ⟨letter_noflag _, letter_nodigit _⟩
    | some ds => rw [hp] at h; simp only [precText, List.nil_append, List.cons_append] at h; injection h with a b; subst a
                 exact ⟨by decide, by decide⟩
  have hnf : NoFlag (d.width.map digitChar ++ (precText d.precision ++ (d.letter.char :: rest))) := by
    intro c cs h
    cases hwd : d.width with
    | nil => rw [hwd] at h; exact (htail c cs h).1
    | cons x xs =>
      rw [hwd] at h
      simp only [List.map_cons, List.cons_append] at h
      injection h with a b
      subst a
      refine digit_noflag x (h1 x (by rw [hwd]; simp)) ?_
      intro h0; rw [hwd, h0] at h3; exact h3 rfl
  have hnd : NoDigit (precText d.precision ++ (d.letter.char :: rest)) := fun c cs h => (htail c cs h).2
  have e1 := parseFlags_text d.flags _ hnf FD.default
  have e2 := getInteger_text d.width _ hnd h1 0
  simp only [Nat.zero_mod] at e2
  have eb : body d ++ rest = d.flags.map Flag.char ++ (d.width.map digitChar ++ (precText d.precision ++ (d.letter.char :: rest))) := by
    unfold body; simp only [List.append_assoc, List.cons_append, List.nil_append]
  rw [initialise_eq _ _ hne, eb, e1]
  simp only [e2, parsePrecision_text _ d.precision d.letter rest h2, lookup_letter]
  rfl

/-- What cannot be taken for a precision. -/
theorem parsePrecision_inv (fd : FD) (text : List Char) : ∃ p : Option (List Nat), (∀ x ∈ p.getD [], x < 10) ∧
    text = precText p ++ (parsePrecision fd text).2 := by
  unfold parsePrecision
  split
  · split
    · exact ⟨some [], by simp, rfl⟩
    · rename_i c cs
      cases hd : getDigit c with
      | none => exact ⟨some [], by simp, rfl⟩
      | some d =>
        obtain ⟨ds, h1, h2, -⟩ := getInteger_inv (c :: cs) 0
        refine ⟨some ds, h1, ?_⟩
        simp only [precText, List.cons_append]
        rw [← h2]
  · exact ⟨none, by simp, rfl⟩

theorem initialise_inv (text : List Char) (fd : FD) (rest : Option (List Char)) (h : initialise FD.default text = (true, fd, rest)) :
    ∃ d : Directive, ∃ cs, d.wf ∧ rest = some cs ∧ text = body d ++ cs := by
  by_cases hne : text = []
  · subst hne; cases h
  · rw [initialise_eq _ _ hne] at h
    obtain ⟨fs, f1, -, f3⟩ := parseFlags_inv text FD.default
    obtain ⟨ds, d1, d2, -⟩ := getInteger_inv (parseFlags FD.default text).2 0
    obtain ⟨p, p1, p2⟩ := parsePrecision_inv
      { (parseFlags FD.default text).1 with size := min (getInteger 0 (parseFlags FD.default text).2).1 255 }
      (getInteger 0 (parseFlags FD.default text).2).2
    generalize parsePrecision { (parseFlags FD.default text).1 with size := min (getInteger 0 (parseFlags FD.default text).2).1 255 }
      (getInteger 0 (parseFlags FD.default text).2).2 = q at h p2
    obtain ⟨qf, ql⟩ := q
    cases ql with
    | nil => cases h
    | cons c cs =>
      simp only at h
      cases hl : lookup typesLookup c with
      | none => rw [hl] at h; cases h
      | some r =>
        rw [hl] at h
        obtain ⟨l, hc, -⟩ := letter_of_lookup c r hl
        injection h with _ h
        injection h with _ h
        refine ⟨⟨fs, ds, p, l⟩, cs, ⟨d1, p1, ?_⟩, h.symm, ?_⟩
        · intro h0
          cases ds with
          | nil => cases h0
          | cons x xs =>
            injection h0 with h0
            have := f3 (digitChar 0) (xs.map digitChar ++ (getInteger 0 (parseFlags FD.default text).2).2)
              (by rw [h0] at d2; exact d2)
            exact absurd this (by decide)
        · rw [f1, d2, p2, hc]; unfold body; simp

end Verif.Format
