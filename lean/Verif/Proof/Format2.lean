import Verif.Proof.Format
set_option linter.unusedSimpArgs false
set_option maxRecDepth 8000
namespace Verif.Format
open Verif.Spec.Format
open Verif.IntText (IType Radix printDecimal printRadix)

variable (lit : List Char → Nat)

/-! ## The rounds of `PrintFormatted` -/

theorem body_length (d : Directive) : 1 ≤ (body d).length := by unfold body; simp; omega

theorem rest_lt (cs : List Char) (fd : FD) (rest : List Char) (h : initialise FD.default cs = (true, fd, some rest)) :
    rest.length < cs.length := by
  obtain ⟨d, r, -, h1, h2⟩ := initialise_inv cs fd _ h
  injection h1 with h1
  subst h1
  rw [h2, List.length_append]
  have := body_length d
  omega

theorem printFrom_fuel : ∀ (n m : Nat) (text : List Char) (args : List Arg), text.length < n → text.length < m →
    printFrom lit n text args = printFrom lit m text args := by
  intro n
  induction n with
  | zero => intro m text args h; omega
  | succ n ih =>
    intro m text args hn hm
    cases m with
    | zero => omega
    | succ m =>
      cases text with
      | nil => rfl
      | cons c cs =>
        simp only [List.length_cons] at hn hm
        simp only [printFrom]
        by_cases hc : c = '%'
        · simp only [if_pos hc]
          generalize hi : initialise FD.default cs = q
          match q with
          | (true, fd, some rest) =>
            have hr := rest_lt cs fd rest hi
            have key : ∀ args, printFrom lit n rest args = printFrom lit m rest args :=
              fun args => ih m rest args (by omega) (by omega)
            cases args with
            | nil => exact key _
            | cons a args => simp only [key]
          | (true, fd, none) => rfl
          | (false, fd, x) => rfl
        · simp only [if_neg hc]
          rw [ih m cs args (by omega) (by omega)]

theorem printf_nil (args : List Arg) : printf lit [] args = some (true, []) := rfl

theorem printf_cons (c : Char) (hc : c ≠ '%') (cs : List Char) (args : List Arg) :
    printf lit (c :: cs) args = (printf lit cs args).map fun r => (r.1, c :: r.2) := by
  simp only [printf, List.length_cons, printFrom, if_neg hc]

theorem printf_text (s rest : List Char) (hs : '%' ∉ s) (args : List Arg) :
    printf lit (s ++ rest) args = (printf lit rest args).map fun r => (r.1, s ++ r.2) := by
  induction s with
  | nil => rw [List.nil_append]; cases printf lit rest args <;> rfl
  | cons c s ih =>
    rw [List.cons_append, printf_cons lit c (by intro h; exact hs (by simp [h])), ih (by intro h; exact hs (by simp [h]))]
    cases printf lit rest args <;> rfl

theorem printf_field (d : Directive) (hd : d.wf) (rest : List Char) (args : List Arg) :
    printf lit (d.text ++ rest) args =
    match args with
    | [] => printf lit rest []
    | a :: args =>
      match printArg lit (fdOf d) a with
      | none => none
      | some (false, t) => some (false, t)
      | some (true, t) => (printf lit rest args).map fun r => (r.1, t ++ r.2) := by
  have hi := initialise_text d hd rest
  have hl := rest_lt _ _ _ hi
  rw [text_eq, List.cons_append]
  simp only [printf, List.length_cons, printFrom, if_true, hi]
  have key : ∀ args, printFrom lit ((body d ++ rest).length + 1) rest args = printFrom lit (rest.length + 1) rest args :=
    fun args => printFrom_fuel lit _ _ rest args (by omega) (by omega)
  cases args with
  | nil => exact key _
  | cons a args => simp only [key]; rfl

theorem printf_single (d : Directive) (hd : d.wf) (a : Arg) : printf lit d.text [a] = printArg lit (fdOf d) a := by
  have h := printf_field lit d hd [] [a]
  rw [List.append_nil] at h
  rw [h]
  simp only [printf_nil, Option.map_some, List.append_nil]
  generalize printArg lit (fdOf d) a = q
  match q with
  | none => rfl
  | some (false, t) => rfl
  | some (true, t) => rfl

theorem printf_pieces (ps : List Piece) (hw : ∀ p ∈ ps, p.wf) : ∀ args,
    printf lit (render ps) args = expected (fun d a => printf lit d.text [a]) ps args := by
  induction ps with
  | nil => intro args; rfl
  | cons p ps ih =>
    intro args
    have ih := ih (fun q hq => hw q (by simp [hq]))
    have e : render (p :: ps) = p.render ++ render ps := by simp [render]
    have hp := hw p (by simp)
    rw [e]
    cases p with
    | text s =>
      simp only [Piece.render, expected]
      rw [printf_text lit s _ hp, ih]
    | field d =>
      simp only [Piece.render]
      rw [printf_field lit d hp]
      cases args with
      | nil => simp only [expected, ih]
      | cons a args =>
        simp only [expected, ih, printf_single lit d hp]; rfl

/-! ## Only such formats are accepted -/

theorem accepted : ∀ (n : Nat) (text : List Char) (args : List Arg) (t : List Char), text.length < n →
    printf lit text args = some (true, t) → ∃ ps : List Piece, (∀ p ∈ ps, p.wf) ∧ text = render ps := by
  intro n
  induction n with
  | zero => intro text args t h; omega
  | succ n ih =>
    intro text args t hn h
    cases text with
    | nil => exact ⟨[], by simp, rfl⟩
    | cons c cs =>
      simp only [List.length_cons] at hn
      by_cases hc : c = '%'
      · subst hc
        have h' := h
        simp only [printf, List.length_cons, printFrom, if_true] at h'
        generalize hi : initialise FD.default cs = q at h'
        match q, h' with
        | (true, fd, some rest), h' =>
          obtain ⟨d, r, hd, h1, h2⟩ := initialise_inv cs fd _ hi
          injection h1 with h1
          subst h1
          have hl := rest_lt cs fd _ hi
          have et : '%' :: cs = d.text ++ rest := by rw [text_eq, h2]; rfl
          rw [et, printf_field lit d hd] at h
          have fin : ∀ args t, printf lit rest args = some (true, t) →
              ∃ ps : List Piece, (∀ p ∈ ps, p.wf) ∧ '%' :: cs = render ps := by
            intro args t h
            obtain ⟨ps, p1, p2⟩ := ih rest args t (by omega) h
            refine ⟨.field d :: ps, ?_, ?_⟩
            · intro p hp
              rcases List.mem_cons.mp hp with h | h
              · subst h; exact hd
              · exact p1 p h
            · rw [et, p2]; simp [render, Piece.render]
          cases args with
          | nil => exact fin _ _ h
          | cons a args =>
            simp only at h
            generalize printArg lit (fdOf d) a = q at h
            match q, h with
            | some (true, u), h =>
              simp only at h
              cases hr : printf lit rest args with
              | none => rw [hr] at h; cases h
              | some r =>
                obtain ⟨b, v⟩ := r
                rw [hr] at h
                simp only [Option.map_some, Option.some.injEq, Prod.mk.injEq] at h
                rw [h.1] at hr
                exact fin _ _ hr
      · rw [printf_cons lit c hc] at h
        cases hr : printf lit cs args with
        | none => rw [hr] at h; cases h
        | some r =>
          obtain ⟨b, v⟩ := r
          rw [hr] at h
          simp only [Option.map_some, Option.some.injEq, Prod.mk.injEq] at h
          rw [h.1] at hr
          obtain ⟨ps, p1, p2⟩ := ih cs args v (by omega) hr
          refine ⟨.text [c] :: ps, ?_, ?_⟩
          · intro p hp
            rcases List.mem_cons.mp hp with h | h
            · subst h; intro h; simp at h; exact hc h.symm
            · exact p1 p h
          · rw [p2]; simp [render, Piece.render]

/-- Without parameters no percent is ever printed. -/
theorem no_percent : ∀ (n : Nat) (text : List Char) (b : Bool) (t : List Char), text.length < n →
    printf lit text [] = some (b, t) → '%' ∉ t := by
  intro n
  induction n with
  | zero => intro text b t h; omega
  | succ n ih =>
    intro text b t hn h
    cases text with
    | nil => simp only [printf_nil, Option.some.injEq, Prod.mk.injEq] at h; rw [← h.2]; simp
    | cons c cs =>
      simp only [List.length_cons] at hn
      by_cases hc : c = '%'
      · subst hc
        have h' := h
        simp only [printf, List.length_cons, printFrom, if_true] at h'
        generalize hi : initialise FD.default cs = q at h'
        match q, h' with
        | (true, fd, some rest), h' =>
          have hl := rest_lt cs fd _ hi
          refine ih rest b t (by omega) ?_
          rw [← h']
          exact printFrom_fuel lit _ _ rest [] (by omega) (by omega)
        | (true, fd, none), h' => simp only [Option.some.injEq, Prod.mk.injEq] at h'; rw [← h'.2]; simp
        | (false, fd, x), h' => simp only [Option.some.injEq, Prod.mk.injEq] at h'; rw [← h'.2]; simp
      · rw [printf_cons lit c hc] at h
        cases hr : printf lit cs [] with
        | none => rw [hr] at h; cases h
        | some r =>
          obtain ⟨b', v⟩ := r
          rw [hr] at h
          simp only [Option.map_some, Option.some.injEq, Prod.mk.injEq] at h
          rw [← h.2]
          have := ih cs b' v (by omega) hr
          simp only [List.mem_cons, not_or]
          exact ⟨fun e => hc e.symm, this⟩

/-! ## The description of a field -/

theorem flagsFD_spec : ∀ (fs : List Flag) (fd : FD),
    (flagsFD fd fs).size = fd.size ∧ (flagsFD fd fs).precision = fd.precision ∧
    (flagsFD fd fs).padded = (fd.padded || (fs.contains .blank || fs.contains .minus)) ∧
    (flagsFD fd fs).leftAligned = (fd.leftAligned || fs.contains .minus) ∧
    (flagsFD fd fs).floatNotation = fd.floatNotation ∧ (flagsFD fd fs).binaryNotation = fd.binaryNotation ∧
    (flagsFD fd fs).binaryPadded = (fd.binaryPadded || fs.contains .zero) ∧
    (flagsFD fd fs).fullNotation = (fd.fullNotation || fs.contains .full) ∧
    (flagsFD fd fs).action = fd.action ∧
    (flagsFD fd fs).grammar = (fd.grammar ||| (if fs.contains .json then 1 else 0)) ||| (if fs.contains .xml then 2 else 0) := by
  intro fs
  induction fs with
  | nil => intro fd; simp [flagsFD]
  | cons f fs ih =>
    intro fd
    have h := ih (fd.or (flagFD f))
    have e : flagsFD fd (f :: fs) = flagsFD (fd.or (flagFD f)) fs := rfl
    rw [e]
    obtain ⟨h1, h2, h3, h4, h5, h6, h7, h8, h9, h10⟩ := h
    rw [h1, h2, h3, h4, h5, h6, h7, h8, h9, h10]
    have hj : ∀ g : Nat, ∀ a b : Bool, (g ||| 1 ||| (if a then 1 else 0)) ||| (if b then 2 else 0) = g ||| 1 ||| (if b then 2 else 0) := by
      intro g a b
      cases a <;> simp [Nat.or_assoc]
    have hx : ∀ g : Nat, ∀ a b : Bool, (g ||| 2 ||| (if a then 1 else 0)) ||| (if b then 2 else 0) = g ||| (if a then 1 else 0) ||| 2 := by
      intro g a b
      cases a <;> cases b <;> simp [Nat.or_assoc]
    cases f <;> simp [FD.or, flagFD, List.contains_cons, Bool.or_assoc, hj, hx, beq_iff_eq]
    all_goals (by_cases a : Flag.json ∈ fs <;> by_cases b : Flag.xml ∈ fs <;> simp [a, b, Nat.or_assoc])

/-- The fields of the description, from the meaning of the format. -/
structure Means (d : Directive) (fd : FD) : Prop where
  size : fd.size = d.size
  padded : fd.padded = d.padded
  left : fd.leftAligned = d.left
  zeros : fd.binaryPadded = d.zeros
  full : fd.fullNotation = d.full
  info : fd.action = 5 ↔ d.letter = .info
  base : fd.binaryNotation = (if d.base = 16 then 1 else if d.base = 8 then 3 else if d.base = 2 then 2 else 0)
  grammar : fd.grammar = (if Flag.json ∈ d.flags then 1 else 0) ||| (if Flag.xml ∈ d.flags then 2 else 0)

theorem precFD_same (fd : FD) (p : Option (List Nat)) : ∃ q, precFD fd p = { fd with precision := q } := by
  match p with
  | none => exact ⟨_, rfl⟩
  | some [] => exact ⟨_, rfl⟩
  | some (_ :: _) => exact ⟨_, rfl⟩

theorem means (d : Directive) (hs : d.small) : Means d (fdOf d) := by
  obtain ⟨q, hq⟩ := precFD_same { flagsFD FD.default d.flags with size := min (value 10 d.width % 2 ^ 32) 255 } d.precision
  obtain ⟨h1, h2, h3, h4, h5, h6, h7, h8, h9, h10⟩ := flagsFD_spec d.flags FD.default
  have e : fdOf d = ({ flagsFD FD.default d.flags with size := min (value 10 d.width % 2 ^ 32) 255, precision := q } : FD).or
      (letterFD d.letter) := by
    unfold fdOf; rw [hq]
  have hsz : min (value 10 d.width % 2 ^ 32) 255 = d.size := by
    rw [Nat.mod_eq_of_lt hs.1]; rfl
  have hl : ∀ l : Letter, (letterFD l).size = 0 ∧ (letterFD l).padded = false ∧ (letterFD l).leftAligned = false ∧
      (letterFD l).binaryPadded = decide (l = .p) ∧ (letterFD l).fullNotation = decide (l = .p) ∧
      ((letterFD l).action = 5 ↔ l = .info) ∧ (letterFD l).grammar = 0 := by intro l; cases l <;> decide
  obtain ⟨l1, l2, l3, l4, l5, l6, l7⟩ := hl d.letter
  rw [e]
  clear e hq
  generalize flagsFD FD.default d.flags = F at *
  simp only [FD.default, Bool.false_or, Nat.zero_or] at h1 h2 h3 h4 h5 h6 h7 h8 h9 h10
  constructor
  · simp only [FD.or, l1, Nat.or_zero, hsz]
  · simp only [FD.or, h3, l2, FD.default, Bool.false_or, Bool.or_false]; rfl
  · simp only [FD.or, h4, l3, FD.default, Bool.false_or, Bool.or_false]; rfl
  · simp only [FD.or, h7, l4, FD.default, Bool.false_or]; rfl
  · simp only [FD.or, h8, l5, FD.default, Bool.false_or]; rfl
  · simp only [FD.or, h9, FD.default, Nat.zero_or, l6]
  · simp only [FD.or, h6, FD.default, Nat.zero_or]
    cases hl : d.letter <;> simp [Directive.base, hl, letterFD]
  · simp only [FD.or, h10, FD.default, Nat.zero_or, l7, Nat.or_zero]
    simp

theorem precision_of (d : Directive) (hs : d.small) : (fdOf d).precision =
    (match d.precision with
      | none => 255
      | some [] => 255
      | some ds => min (value 10 ds) 255) := by
  obtain ⟨-, h2, -⟩ := flagsFD_spec d.flags FD.default
  have hl : (letterFD d.letter).precision = 0 := by cases d.letter <;> rfl
  unfold fdOf
  simp only [FD.or, hl, Nat.or_zero]
  have h2 : (flagsFD FD.default d.flags).precision = 255 := h2
  obtain ⟨-, hp⟩ := hs
  match hd : d.precision with
  | none => exact h2
  | some [] => rfl
  | some (x :: xs) =>
    rw [hd] at hp
    have hp : value 10 (x :: xs) < 2 ^ 32 := hp
    simp only [precFD]
    rw [Nat.mod_eq_of_lt hp]

/-! ## Texts -/

theorem printCCString_field (w : Nat) (padded left quotes : Bool) (s : List Char)
    (h1 : quotes = true → w = 0 ∨ 2 ≤ w) (h2 : quotes = true → padded = true ∨ w = 0 ∨ w ≤ s.length) :
    Config.printCCString ⟨w, padded, left⟩ quotes s = some (true, textField w padded left quotes s) := by
  unfold Config.printCCString textField fill quoted
  cases quotes with
  | false =>
    simp only [Bool.false_eq_true, if_false, Nat.zero_le, Nat.sub_zero, ge_iff_le, if_true, Nat.add_zero, gt_iff_lt]
    by_cases hw : w = 0
    · subst hw
      have hx : ¬ s.length + 2 < 2 := by omega
      cases padded <;> cases left <;> simp [Config.sub32, hx]
    · have hw' : 0 < w := by omega
      simp only [hw', hw, if_true, if_false, true_and]
      by_cases hl : w < s.length
      · have hn : ¬ w < w := by omega
        have hm : min w s.length = w := by omega
        simp only [if_pos hl, hn, and_false, if_false]
        cases padded <;> cases left <;> simp [Config.sub32, hm] <;> omega
      · simp only [if_neg hl]
        have hm : min w s.length = s.length := by omega
        have ht : s.take w = s := List.take_of_length_le (by omega)
        cases padded
        · cases left <;> simp [Config.sub32, ht]
        · by_cases hlt : s.length < w
          · have : 0 < w - s.length := by omega
            cases left <;> simp [Config.sub32, ht, hlt]
          · have : w - s.length = 0 := by omega
            cases left <;> simp [Config.sub32, ht, hlt, this]
  | true =>
    simp only [if_true]
    by_cases hw : w = 0
    · subst hw
      have hx : ¬ s.length + 2 < 2 := by omega
      cases padded <;> cases left <;> simp [Config.sub32, hx]
    · have h1 : 2 ≤ w := by rcases h1 rfl with h | h <;> omega
      have h2 : padded = true ∨ w ≤ s.length := by
        rcases h2 rfl with h | h | h
        · exact .inl h
        · exact absurd h hw
        · exact .inr h
      have hw' : w > 0 := by omega
      simp only [hw', hw, if_true, if_false, true_and, ge_iff_le, h1]
      by_cases hl : s.length ≥ w
      · have e : (if s.length > w then w else s.length) = w := by split <;> omega
        have hn : ¬ w < w := by omega
        have hs : Config.sub32 w 2 = w - 2 := by unfold Config.sub32; rw [if_neg (by omega)]
        have hle : w - 2 ≤ s.length := by omega
        have hm : min (w - 2) s.length = w - 2 := by omega
        have hz : w - (w - 2 + 1 + 1) = 0 := by omega
        simp only [e, hn, and_false, if_false]
        cases padded <;> cases left <;> simp [hs, hle, hm, hz]
      · have hp : padded = true := by rcases h2 with h | h
                                      · exact h
                                      · omega
        have e : (if s.length > w then w else s.length) = s.length := by rw [if_neg (by omega)]
        have hlt : s.length < w := by omega
        subst hp
        simp only [e, true_and, if_pos hlt]
        by_cases hg : w - s.length > 2
        · have ht : s.take (w - 2) = s := List.take_of_length_le (by omega)
          have hc : w - (s.length + 1 + 1) = w - s.length - 2 := by omega
          cases left <;> simp [hg, ht, hc]
        · have hs : Config.sub32 s.length (2 - (w - s.length)) = w - 2 := by
            unfold Config.sub32; rw [if_neg (by omega)]; omega
          have hle : w - 2 ≤ s.length := by omega
          have hm : min (w - 2) s.length = w - 2 := by omega
          have hz : w - (w - 2 + 1 + 1) = 0 := by omega
          cases left <;> simp [hg, hs, hle, hm, hz]

/-- A field never gets more characters than its width. -/
theorem printCCString_max (w : Nat) (padded left quotes : Bool) (s : List Char) (b : Bool) (t : List Char) (hw : 0 < w)
    (h : Config.printCCString ⟨w, padded, left⟩ quotes s = some (b, t)) : t.length ≤ w := by
  by_cases h1 : quotes = true → w = 0 ∨ 2 ≤ w
  · by_cases h2 : quotes = true → padded = true ∨ w = 0 ∨ w ≤ s.length
    · rw [printCCString_field w padded left quotes s h1 h2] at h
      simp only [Option.some.injEq, Prod.mk.injEq] at h
      rw [← h.2]
      unfold textField fill quoted
      have hle : (s.take (w - if quotes = true then 2 else 0)).length ≤ w - if quotes = true then 2 else 0 := by
        rw [List.length_take]; omega
      rw [if_neg (show ¬ w = 0 by omega)]
      generalize s.take (w - if quotes = true then 2 else 0) = u at hle
      cases quotes with
      | false =>
        simp only [Bool.false_eq_true, if_false] at hle ⊢
        cases padded <;> cases left <;> simp <;> omega
      | true =>
        have := h1 rfl
        simp only [if_true] at hle ⊢
        cases padded <;> cases left <;> simp <;> omega
    · simp only [Classical.not_imp, not_or] at h2
      obtain ⟨hq, hp, h0, hl⟩ := h2
      have hp : padded = false := by simpa using hp
      subst hq hp
      unfold Config.printCCString at h
      have e : (if s.length > w then w else s.length) = s.length := by rw [if_neg (by omega)]
      simp only [if_true, hw, gt_iff_lt, e, Bool.false_eq_true, false_and, and_false, if_false, Nat.not_lt_zero, decide_false, Nat.sub_zero] at h
      split at h
      · split at h
        · rename_i h3 h4
          simp only [Option.some.injEq, Prod.mk.injEq] at h
          rw [← h.2]
          have : Config.sub32 s.length 2 + 2 ≤ w := by
            unfold Config.sub32 at h4 ⊢
            split at h4 <;> rename_i h5 <;> simp only [h5, if_true, if_false] <;> omega
          cases left <;> simp <;> omega
        · cases h
      · simp only [Option.some.injEq, Prod.mk.injEq] at h; rw [← h.2]; simp
  · simp only [Classical.not_imp, not_or] at h1
    obtain ⟨hq, h0, hl⟩ := h1
    subst hq
    unfold Config.printCCString at h
    simp only [if_true, gt_iff_lt, hw] at h
    rw [if_neg (by omega)] at h
    simp only [Option.some.injEq, Prod.mk.injEq] at h; rw [← h.2]; simp

/-! ## Streams -/

theorem printStream_text (fd : FD) (q : Bool) (content : List Char) (pos : Nat) (hp : pos ≤ content.length)
    (hlen : content.length < 2 ^ 32)
    (hs : 0 < fd.size ∧ fd.size ≤ 10000 ∨ (content.length - pos) + (if q then 2 else 0) ≤ 10000) :
    printStream fd q content pos true =
    Config.printCCString ⟨fd.size, fd.padded, fd.leftAligned⟩ q (content.drop pos) := by
  have hl : (content.length + 2 ^ 64 - pos) % 2 ^ 64 % 2 ^ 32 = content.length - pos := by omega
  have hd : (content.drop pos).length = content.length - pos := by simp
  unfold printStream Config.printCCString
  simp only [if_true, hl, hd]
  rw [if_neg]
  · by_cases h : fd.size > 0
    · simp only [h, if_true]
      split <;> omega
    · simp only [h, if_false]
      rcases hs with h' | h'
      · omega
      · omega

end Verif.Format
