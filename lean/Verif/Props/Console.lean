import Verif.Model.Console
import Verif.Spec.Console
/-!
# C123: the text shown by a console
-/
set_option linter.unusedSimpArgs false
namespace Verif.Console
open Spec

/-- One character after the other. -/
private def chars (columns : Nat) : Nat → List Char → List Char × Nat
  | column, [] => ([], column)
  | column, ch :: rest =>
    let c := if ch = '\n' then 0 else column
    let r := chars columns ((if c = columns then 0 else c) + 1) rest
    (ch :: (if c = columns then ['\n'] else []) ++ r.1, r.2)

private theorem loop_chars (columns : Nat) : ∀ (text pending : List Char) (column : Nat), (text = [] → pending = []) →
    ((loop columns column pending text).1.map fun w => w.2).flatten = pending ++ (chars columns column text).1 ∧
    (loop columns column pending text).2 = (chars columns column text).2 ∧
    (((loop columns column pending text).1.filter fun w => w.1).map fun w => w.2.length).sum = pending.length + text.length := by
  intro text
  induction text with
  | nil => intro pending column h; simp [loop, chars, h rfl]
  | cons ch rest ih =>
    intro pending column _
    unfold loop chars
    dsimp only
    generalize hc : (if ch = '\n' then 0 else column) = c
    by_cases hs : ch = '\n' ∨ rest = [] ∨ c = columns
    · rw [if_pos hs, if_pos hs]
      obtain ⟨i1, i2, i3⟩ := ih [] ((if c = columns then 0 else c) + 1) (fun _ => rfl)
      refine ⟨?_, i2, ?_⟩
      · by_cases hcc : c = columns
        · rw [if_pos hcc] at i1
          simp [hcc, i1]
        · rw [if_neg hcc] at i1
          simp [hcc, i1]
      · by_cases hcc : c = columns
        · rw [if_pos hcc] at i3
          simp [hcc, i3]
          omega
        · rw [if_neg hcc] at i3
          simp [hcc, i3]
          omega
    · rw [if_neg hs, if_neg hs]
      have hr : rest ≠ [] := fun e => hs (Or.inr (Or.inl e))
      have hcc : c ≠ columns := fun e => hs (Or.inr (Or.inr e))
      obtain ⟨i1, i2, i3⟩ := ih (pending ++ [ch]) ((if c = columns then 0 else c) + 1) (fun e => absurd e hr)
      simp only [if_neg hcc] at i1 i2 i3 ⊢
      refine ⟨?_, i2, ?_⟩
      · simp only [List.nil_append, i1]
        simp
      · simp only [List.nil_append, i3]
        simp
        omega

private theorem write_eq (columns column : Nat) (text : List Char) : write columns column text =
    ⟨decide (text.length ≠ 0), text.length, (chars columns column text).1, (chars columns column text).2⟩ := by
  obtain ⟨h1, h2, h3⟩ := loop_chars columns text [] column (fun _ => rfl)
  unfold write
  dsimp only
  rw [h1, h2, h3]
  simp

/-- **C123.** Whatever the columns, what is shown is the text with line breaks added; the size answered is the one of the text; only an empty text is
refused. -/
theorem c123_shown (columns column : Nat) (text : List Char) :
    Added text (write columns column text).shown ∧ (write columns column text).size = text.length ∧
    ((write columns column text).ok = true ↔ text ≠ []) := by
  rw [write_eq]
  refine ⟨?_, rfl, by simp⟩
  show Added text (chars columns column text).1
  induction text generalizing column with
  | nil => exact .nil
  | cons ch rest ih =>
    unfold chars
    dsimp only
    generalize (if ch = '\n' then 0 else column) = c
    refine .char ?_
    by_cases hc : c = columns
    · simp only [if_pos hc]
      exact .break (ih _)
    · simp only [if_neg hc]
      exact ih _

private theorem chars_append (columns : Nat) : ∀ (t u : List Char) (column : Nat),
    chars columns column (t ++ u) = ((chars columns column t).1 ++ (chars columns (chars columns column t).2 u).1,
      (chars columns (chars columns column t).2 u).2) := by
  intro t
  induction t with
  | nil => intro u column; rfl
  | cons ch t ih =>
    intro u column
    simp only [List.cons_append, chars, ih]
    simp

/-- **C123.** It does not matter in how many pieces a text is written. -/
theorem c123_pieces (columns column : Nat) (texts : List (List Char)) :
    writeAll columns column texts = ((write columns column texts.flatten).shown, (write columns column texts.flatten).column) := by
  induction texts generalizing column with
  | nil => rfl
  | cons t ts ih =>
    unfold writeAll
    dsimp only
    rw [ih, List.flatten_cons]
    simp only [write_eq, chars_append]

private theorem chars_wrapped {columns : Nat} (hn : 0 < columns) : ∀ (text : List Char) (column : Nat), 1 ≤ column → column ≤ columns →
    Wrapped columns (column - 1) text (chars columns column text).1 ∧
    1 ≤ (chars columns column text).2 ∧ (chars columns column text).2 ≤ columns := by
  intro text
  induction text with
  | nil => intro column h1 h2; exact ⟨.nil _, h1, h2⟩
  | cons ch rest ih =>
    intro column h1 h2
    unfold chars
    dsimp only
    by_cases hc : ch = '\n'
    · subst hc
      rw [if_pos rfl, if_neg (by omega), if_neg (by omega)]
      obtain ⟨i1, i2⟩ := ih (0 + 1) (by omega) (by omega)
      exact ⟨.newline i1, i2⟩
    · rw [if_neg hc]
      by_cases he : column = columns
      · rw [if_pos he, if_pos he]
        obtain ⟨i1, i2⟩ := ih (0 + 1) (by omega) (by omega)
        exact ⟨.full hc (by omega) i1, i2⟩
      · rw [if_neg he, if_neg he]
        obtain ⟨i1, i2⟩ := ih (column + 1) (by omega) (by omega)
        refine ⟨.char hc (by omega) ?_, i2⟩
        rw [show column - 1 + 1 = column + 1 - 1 by omega]
        exact i1

private theorem wrapped_fits {columns k : Nat} {text out : List Char} (h : Wrapped columns k text out) : Fits columns k out := by
  induction h with
  | nil k => simp [Fits]
  | newline _ ih => simp [Fits]; exact ih
  | char hc hk _ ih => simp [Fits, hc]; exact ⟨by omega, ih⟩
  | full hc hk _ ih => simp [Fits, hc]; exact ⟨by omega, ih⟩

/-- **C123.** After the first line of a console with columns, what is shown is the text with a line break after every full line, and nothing else; no line is
longer than the columns; and it goes on so. -/
theorem c123_lines_partial {columns column : Nat} (text : List Char) (h1 : 1 ≤ column) (h2 : column ≤ columns) :
    Wrapped columns (column - 1) text (write columns column text).shown ∧
    Fits columns (column - 1) (write columns column text).shown ∧
    1 ≤ (write columns column text).column ∧ (write columns column text).column ≤ columns := by
  rw [write_eq]
  obtain ⟨h3, h4⟩ := chars_wrapped (by omega) text column h1 h2
  exact ⟨h3, wrapped_fits h3, h4⟩

private theorem chars_first {columns : Nat} : ∀ (text : List Char) (column : Nat), (∀ c ∈ text, c ≠ '\n') → column + text.length ≤ columns →
    chars columns column text = (text, column + text.length) := by
  intro text
  induction text with
  | nil => intro column _ _; rfl
  | cons ch rest ih =>
    intro column h hl
    simp at hl
    unfold chars
    dsimp only
    rw [if_neg (h ch (by simp)), if_neg (by omega), if_neg (by omega), ih _ (fun c hc => h c (List.mem_cons_of_mem _ hc)) (by omega)]
    simp
    omega

/-- **C123 fails on the first line of a console**: it has one character more than the columns. -/
theorem c123_first_fails {columns : Nat} (hn : 0 < columns) (text : List Char) (h : ∀ c ∈ text, c ≠ '\n') (hl : text.length = columns + 1) :
    (write columns newColumn text).shown = text ++ ['\n'] ∧ ¬ Fits columns 0 (write columns newColumn text).shown := by
  obtain ⟨t, c, rfl⟩ : ∃ t c, text = t ++ [c] := by
    have : text ≠ [] := by intro e; rw [e] at hl; simp at hl
    exact ⟨text.dropLast, text.getLast this, (List.dropLast_concat_getLast this).symm⟩
  have hlt : t.length = columns := by simpa using hl
  have hs : (write columns newColumn (t ++ [c])).shown = t ++ [c] ++ ['\n'] := by
    rw [write_eq]
    dsimp only
    rw [chars_append, chars_first t newColumn (fun x hx => h x (List.mem_append_left _ hx)) (by simp [newColumn, hlt])]
    have hc : c ≠ '\n' := h c (by simp)
    simp [chars, hc, newColumn, hlt]
  refine ⟨hs, ?_⟩
  rw [hs]
  have key : ∀ (u v : List Char) (k : Nat), (∀ x ∈ u, x ≠ '\n') → columns < k + u.length → k ≤ columns → ¬ Fits columns k (u ++ v) := by
    intro u
    induction u with
    | nil => intro v k _ h1 h2; simp at h1; omega
    | cons x u ih =>
      intro v k hx h1 h2 hf
      simp only [List.cons_append, Fits, if_neg (hx x (by simp))] at hf
      simp at h1
      exact ih v (k + 1) (fun y hy => hx y (List.mem_cons_of_mem _ hy)) (by omega) hf.1 hf.2
  exact key (t ++ [c]) ['\n'] 0 h (by omega) (by omega)

/-- **C123 fails on a console whose size was not set**: a line break is added after the first character, and after every line break. -/
theorem c123_unset_fails (c : Char) (text : List Char) (hc : c ≠ '\n') (h : ∀ x ∈ text, x ≠ '\n') :
    (write newColumns newColumn (c :: (text ++ ['\n']))).shown = c :: '\n' :: (text ++ ['\n', '\n']) := by
  rw [write_eq]
  have key : ∀ (u : List Char) (k : Nat), (∀ x ∈ u, x ≠ '\n') → 0 < k → (chars 0 k (u ++ ['\n'])).1 = u ++ ['\n', '\n'] := by
    intro u
    induction u with
    | nil => intro k _ _; simp [chars]
    | cons x u ih =>
      intro k hx hk
      simp only [List.cons_append, chars, if_neg (hx x (by simp))]
      rw [if_neg (by omega), if_neg (by omega), ih (k + 1) (fun y hy => hx y (List.mem_cons_of_mem _ hy)) (by omega)]
      rfl
  show (chars 0 0 (c :: (text ++ ['\n']))).1 = _
  simp only [chars, if_neg hc, if_true]
  rw [key text 1 h (by omega)]
  rfl

/-- **C123 fails for a line that is just full**: its own line break makes an empty line. -/
theorem c123_full_fails {columns : Nat} (text : List Char) (h : ∀ c ∈ text, c ≠ '\n') (hl : text.length = columns) (hn : 0 < columns) :
    (write columns 1 (text ++ ['\n'])).shown = text ++ ['\n', '\n'] := by
  obtain ⟨t, c, rfl⟩ : ∃ t c, text = t ++ [c] := by
    have : text ≠ [] := by intro e; rw [e] at hl; simp at hl; omega
    exact ⟨text.dropLast, text.getLast this, (List.dropLast_concat_getLast this).symm⟩
  have hlt : t.length + 1 = columns := by simpa using hl
  have hc : c ≠ '\n' := h c (by simp)
  rw [write_eq]
  dsimp only
  rw [List.append_assoc, chars_append, chars_first t 1 (fun x hx => h x (List.mem_append_left _ hx)) (by omega)]
  dsimp only
  simp [chars, hc, show 1 + t.length = columns by omega, show ¬ (0 = columns) by omega]

/-- Five columns: a text that is cut twice. -/
example : (write 5 1 "abcdefg\nhijklmn".toList).shown = "abcde\nfg\nhijkl\nmn".toList ∧ (write 5 1 "abcdefg\nhijklmn".toList).size = 15 := by decide

end Verif.Console
