import Verif.Proof.Lexer3
import Verif.Model.ConfigText
import Verif.Spec.ConfigText
/-! ## From the text to the words -/
set_option linter.unusedSimpArgs false
namespace Verif.Config
open Verif.Lexer hiding standard
open Verif.Spec.Lexer
open Verif.Spec.ConfigText
open Verif.Spec.ConfigDoc (Word tok)

variable {L : Language} {num : List Char → Bool}

theorem actual_kind (ps : List Piece) (l : Nat) : ∀ t ∈ actual num l ps, t.kind ≠ .eof := by
  intro t ht
  have : view t ∈ tokens num ps := by rw [← actual_view num ps l]; exact List.mem_map_of_mem ht
  obtain ⟨p, _, hp⟩ := List.mem_filterMap.mp this
  intro e
  have hv : (view t).1 = .eof := e
  cases p <;> simp only [Piece.token, Option.some.injEq, reduceCtorEq] at hp
  · rw [← hp] at hv; cases hv
  · rw [← hp] at hv; simp only at hv; split at hv <;> cases hv
  · rw [← hp] at hv; cases hv

theorem all_tokens (hL : L.ok = true) (hnl : '\n' ∈ L.blanks) : ∀ (E : List Token) (n : Nat) (s : Lex),
    (∀ t ∈ E, t.kind ≠ .eof) → Inv L num s E → E.length < n → allTokens L.grammar num n s = E := by
  intro E
  induction E with
  | nil =>
    intro n s hE hi hn
    obtain ⟨n, rfl⟩ : ∃ m, n = m + 1 := ⟨n - 1, by simp at hn; omega⟩
    obtain ⟨i1, i2⟩ := inv_tokenize hL hnl hi 0 (Nat.zero_le _)
    obtain ⟨t, t1, t2⟩ := inv_is i1 0 (by omega)
    have hk : t.kind = .eof := t2.1
    simp only [allTokens, getToken, List.head?_eq_getElem?, t1, if_pos hk]
  | cons u E ih =>
    intro n s hE hi hn
    obtain ⟨n, rfl⟩ : ∃ m, n = m + 1 := ⟨n - 1, by simp at hn; omega⟩
    obtain ⟨i1, i2⟩ := inv_tokenize hL hnl hi 0 (Nat.zero_le _)
    obtain ⟨t, t1, t2⟩ := inv_is i1 0 (by omega)
    have hk : t = u := t2
    subst hk
    have hne := hE t (by simp)
    simp only [allTokens, getToken, List.head?_eq_getElem?, t1, if_neg hne]
    rw [ih n _ (fun t ht => hE t (by simp [ht])) (inv_tail i1 (by intro e; rw [e] at i2; simp at i2))
      (by simp at hn; omega)]

theorem tokens_length (ps : List Piece) (h : ok L ps = true) : (tokens num ps).length ≤ (text ps).length := by
  induction ps with
  | nil => simp [tokens]
  | cons p ps ih =>
    obtain ⟨o1, o2, o3⟩ := ok_cons h
    have := ih o3
    rw [text_cons, List.length_append]
    cases p with
    | bare w =>
      have hw := List.length_pos_iff.mpr (plain_of o1).1
      have e : tokens num (.bare w :: ps) = _ :: tokens num ps := rfl
      rw [e]
      simp only [List.length_cons, Piece.text]; omega
    | sign c =>
      have e : tokens num (.sign c :: ps) = _ :: tokens num ps := rfl
      rw [e]; simp only [List.length_cons, Piece.text, List.length_nil]; omega
    | quoted s =>
      have e : tokens num (.quoted s :: ps) = _ :: tokens num ps := rfl
      rw [e]; simp only [List.length_cons, Piece.text]; omega
    | blank c =>
      have e : tokens num (.blank c :: ps) = tokens num ps := rfl
      rw [e]; omega
    | lineComment c =>
      have e : tokens num (.lineComment c :: ps) = tokens num ps := rfl
      rw [e]; omega
    | blockComment c =>
      have e : tokens num (.blockComment c :: ps) = tokens num ps := rfl
      rw [e]; omega

theorem parser_tok (w : Word) (t : Token) (h : view t = token w) : parserTok terminalNames t = tok w := by
  obtain ⟨k, d, l⟩ := t
  cases w <;> (simp only [view, token, Prod.mk.injEq] at h; obtain ⟨rfl, rfl⟩ := h; simp only [parserTok, tok]; congr 1)

theorem map_tok (ws : List Word) (E : List Token) (h : E.map view = ws.map token) :
    E.map (parserTok terminalNames) = ws.map tok := by
  induction ws generalizing E with
  | nil =>
    have : E = [] := by simpa using h
    rw [this]; rfl
  | cons w ws ih =>
    cases E with
    | nil => simp at h
    | cons t E =>
      simp only [List.map_cons, List.cons.injEq] at h ⊢
      exact ⟨parser_tok w t h.1, ih E h.2⟩

theorem std_ok : standard.ok = true ∧ '\n' ∈ standard.blanks := by decide

theorem text_words {B : Type} (conv : Conv B) (cap fuel : Nat) (db : ConfigDb.St (Leaf B)) (ps : List Piece)
    (ws : List Word) (h : Says num ps ws) :
    parseText conv num cap fuel db (text ps) = parseStd conv cap fuel db (ws.map tok) := by
  have hl : (actual num 1 ps).length < (text ps).length + 1 := by
    have := tokens_length (num := num) ps h.1
    rw [← actual_view num ps 1, List.length_map] at this
    omega
  have := all_tokens (num := num) std_ok.1 std_ok.2 (actual num 1 ps) ((text ps).length + 1) (.new (text ps))
    (actual_kind ps 1) (inv_new ps h.1) hl
  have hg : standard.grammar = Lexer.standard := rfl
  rw [hg] at this
  rw [parseText, this, map_tok ws _ (by rw [actual_view]; exact h.2)]

theorem quote_value (s : List Char) : (s.map quote).flatMap QChar.value = s := by
  induction s with
  | nil => rfl
  | cons c s ih =>
    rw [List.map_cons, List.flatMap_cons, ih]
    unfold quote
    split
    · next h => rcases h with rfl | rfl <;> rfl
    · rfl

theorem quote_ok (s : List Char) (h : '\x00' ∉ s) : (s.map quote).all QChar.ok = true := by
  rw [List.all_eq_true]
  intro q hq
  obtain ⟨c, hc, rfl⟩ := List.mem_map.mp hq
  have h0 : c ≠ '\x00' := fun e => h (e ▸ hc)
  unfold quote
  split
  · simp [QChar.ok, h0]
  · next h1 => simp only [not_or] at h1; simp [QChar.ok, h0, h1.1, h1.2]

theorem write_says (ws : List Word) (h : ∀ w ∈ ws, writable num w = true) : Says num (write ws) ws := by
  induction ws with
  | nil => exact ⟨rfl, rfl⟩
  | cons w ws ih =>
    obtain ⟨i1, i2⟩ := ih fun w hw => h w (by simp [hw])
    have hw := h w (by simp)
    have e : write (w :: ws) = piece w :: .blank ' ' :: write ws := rfl
    have hp : (piece w).ok standard = true ∧ (piece w).token num = some (token w) := by
      cases w with
      | str s =>
        simp only [writable, Bool.not_eq_true', List.contains_eq_mem, decide_eq_false_iff_not] at hw
        exact ⟨quote_ok s hw, by simp [piece, Piece.token, token, quote_value]⟩
      | num s =>
        simp only [writable, Bool.and_eq_true] at hw
        refine ⟨hw.1.1, ?_⟩
        simp [piece, Piece.token, token, hw.1.2, hw.2]
      | _ => exact ⟨by decide, rfl⟩
    refine ⟨?_, ?_⟩
    · rw [e]
      have hb : (piece w).before standard (some (.blank ' ')) = true := by cases w <;> rfl
      have hb2 : (Piece.blank ' ').ok standard = true := by decide
      have hb3 : (Piece.blank ' ').before standard (write ws).head? = true := by
        cases (write ws).head? <;> rfl
      simp only [ok, List.head?_cons, hp.1, hb, hb2, hb3, i1, Bool.and_self]
    · rw [e]
      have e2 : tokens num (.blank ' ' :: write ws) = tokens num (write ws) := rfl
      unfold tokens at *
      rw [List.filterMap_cons_some hp.2, e2, i2]
      rfl

end Verif.Config
