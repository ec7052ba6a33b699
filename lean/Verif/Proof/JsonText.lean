import Verif.Proof.ConfigText
import Verif.Model.JsonText
import Verif.Spec.JsonText
/-! ## From the text to the words, in the JSON language -/
set_option linter.unusedSimpArgs false
namespace Verif.Json
open Verif.Lexer hiding json
open Verif.Config (Conv Leaf allTokens parserTok all_tokens tokens_length actual_kind quote_value quote_ok)
open Verif.Spec.Lexer
open Verif.Spec.JsonText
open Verif.Spec.JsonDoc (JWord jtok)

variable {num : List Char → Bool}

theorem parser_tok (w : JWord) (t : Token) (h : view t = token w) : parserTok terminalNames t = jtok w := by
  obtain ⟨k, d, l⟩ := t
  cases w <;> (simp only [view, token, Prod.mk.injEq] at h; obtain ⟨rfl, rfl⟩ := h; simp only [parserTok, jtok]; congr 1)

theorem map_tok (ws : List JWord) (E : List Token) (h : E.map view = ws.map token) :
    E.map (parserTok terminalNames) = ws.map jtok := by
  induction ws generalizing E with
  | nil =>
    have : E = [] := by simpa using h
    rw [this]; rfl
  | cons w ws ih =>
    cases E with
    | nil => simp at h
    | cons t E =>
      simp only [List.map_cons, List.cons.injEq] at h ⊢
      exact ⟨parser_tok w t h.1, ih E h.2⟩

theorem json_ok : json.ok = true ∧ '\n' ∈ json.blanks := by decide

theorem text_words {B : Type} (conv : Conv B) (cap fuel : Nat) (db : ConfigDb.St (Leaf B)) (ps : List Piece)
    (ws : List JWord) (h : Says num ps ws) :
    parseJsonText conv num cap fuel db (text ps) = parseJson conv cap fuel db (ws.map jtok) := by
  have hl : (actual num 1 ps).length < (text ps).length + 1 := by
    have := tokens_length (num := num) ps h.1
    rw [← actual_view num ps 1, List.length_map] at this
    omega
  have := all_tokens (num := num) json_ok.1 json_ok.2 (actual num 1 ps) ((text ps).length + 1) (.new (text ps))
    (actual_kind ps 1) (inv_new ps h.1) hl
  have hg : json.grammar = Lexer.json := rfl
  rw [hg] at this
  rw [parseJsonText, this, map_tok ws _ (by rw [actual_view]; exact h.2)]

theorem write_says (ws : List JWord) (h : ∀ w ∈ ws, writable num w = true) : Says num (write ws) ws := by
  induction ws with
  | nil => exact ⟨rfl, rfl⟩
  | cons w ws ih =>
    obtain ⟨i1, i2⟩ := ih fun w hw => h w (by simp [hw])
    have hw := h w (by simp)
    have e : write (w :: ws) = piece w :: .blank ' ' :: write ws := rfl
    have hp : (piece w).ok json = true ∧ (piece w).token num = some (token w) := by
      cases w with
      | str s =>
        simp only [writable, Bool.not_eq_true', List.contains_eq_mem, decide_eq_false_iff_not] at hw
        exact ⟨quote_ok s hw, by simp [piece, Piece.token, token, quote_value]⟩
      | num s =>
        simp only [writable, Bool.and_eq_true] at hw
        refine ⟨hw.1.1, ?_⟩
        simp [piece, Piece.token, token, hw.1.2, hw.2]
      | lp => simp [writable] at hw
      | rp => simp [writable] at hw
      | _ => exact ⟨by decide, rfl⟩
    refine ⟨?_, ?_⟩
    · rw [e]
      have hb : (piece w).before json (some (.blank ' ')) = true := by cases w <;> rfl
      have hb2 : (Piece.blank ' ').ok json = true := by decide
      have hb3 : (Piece.blank ' ').before json (write ws).head? = true := by
        cases (write ws).head? <;> rfl
      simp only [ok, List.head?_cons, hp.1, hb, hb2, hb3, i1, Bool.and_self]
    · rw [e]
      have e2 : tokens num (.blank ' ' :: write ws) = tokens num (write ws) := rfl
      unfold tokens at *
      rw [List.filterMap_cons_some hp.2, e2, i2]
      rfl

/-- No text has parentheses as signs. -/
theorem no_paren (ps : List Piece) : Spec.Lexer.ok json ps = true → ∀ t ∈ tokens num ps, t ≠ (.terminal, ['(']) := by
  induction ps with
  | nil => intro _ t ht; simp [tokens] at ht
  | cons p ps ih =>
    intro h t ht
    obtain ⟨o1, _, o3⟩ := ok_cons h
    unfold tokens at ht
    rw [List.mem_filterMap] at ht
    obtain ⟨q, hq, hqt⟩ := ht
    rcases List.mem_cons.mp hq with rfl | hq
    · cases q with
      | sign c =>
        simp only [Piece.token, Option.some.injEq] at hqt
        rw [← hqt]
        intro e
        simp only [Prod.mk.injEq, List.cons.injEq, and_true, true_and] at e
        subst e
        revert o1; decide
      | bare w =>
        simp only [Piece.token, Option.some.injEq] at hqt
        rw [← hqt]
        intro e
        simp only [Prod.mk.injEq] at e
        have := e.1
        split at this <;> cases this
      | quoted s =>
        simp only [Piece.token, Option.some.injEq] at hqt
        rw [← hqt]
        intro e
        simp only [Prod.mk.injEq] at e
        cases e.1
      | blank c => simp [Piece.token] at hqt
      | lineComment c => simp [Piece.token] at hqt
      | blockComment c => simp [Piece.token] at hqt
    · exact ih o3 t (by unfold tokens; rw [List.mem_filterMap]; exact ⟨q, hq, hqt⟩)

end Verif.Json
