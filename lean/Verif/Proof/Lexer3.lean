import Verif.Proof.Lexer2
/-! ## The queue of tokens -/
set_option linter.unusedSimpArgs false
namespace Verif.Lexer
open Verif.Spec.Lexer

variable {L : Language} {conv : List Char → Bool}

/-- The tokens to come are `E`. -/
def Inv (L : Language) (conv : List Char → Bool) (s : Lex) (E : List Token) : Prop :=
  ∃ a es ps, s.queue = a ++ es ∧ (∀ t ∈ es, t.kind = .eof ∧ t.data = []) ∧ s.rest = text ps ∧ ok L ps = true ∧
    E = a ++ actual conv s.line ps ∧ (es ≠ [] → actual conv s.line ps = [])

theorem inv_tokenize (hL : L.ok = true) (hnl : '\n' ∈ L.blanks) {s : Lex} {E : List Token} (h : Inv L conv s E) (p : Nat)
    (hp : p ≤ s.queue.length) : Inv L conv (tokenizeInput L.grammar conv p s) E ∧
      max s.queue.length (p + 1) ≤ (tokenizeInput L.grammar conv p s).queue.length := by
  unfold tokenizeInput
  by_cases hlt : s.queue.length < p + 1
  · rw [if_pos hlt]
    obtain ⟨a, es, ps, h1, h2, h3, h4, h5, h6⟩ := h
    obtain ⟨ts, ps', line', r1, r2, r3⟩ := round_pieces hL hnl conv ps h4 s.queue s.line
    have hs : s = ⟨s.queue, text ps, s.line⟩ := by rw [← h3]
    have hr : round L.grammar conv s = ⟨s.queue ++ ts, text ps', line'⟩ := by rw [hs]; exact r1
    have hts : 1 ≤ ts.length := by
      rcases r3 with ⟨_, _, rfl⟩ | ⟨e, _⟩
      · simp
      · exact List.length_pos_iff.mpr e
    have hlen : p + 1 - (s.queue ++ ts).length = 0 := by rw [List.length_append]; omega
    simp only [hr, hlen, List.replicate_zero, List.append_nil]
    refine ⟨?_, by rw [List.length_append]; omega⟩
    rcases r3 with ⟨e1, rfl, rfl⟩ | ⟨e1, e2⟩
    · refine ⟨a, es ++ [⟨.eof, [], line'⟩], [], by simp [h1], ?_, rfl, rfl, ?_, fun _ => rfl⟩
      · intro t ht
        simp only [List.mem_append, List.mem_singleton] at ht
        rcases ht with ht | rfl
        · exact h2 t ht
        · exact ⟨rfl, rfl⟩
      · rw [h5, e1]; simp [actual]
    · have he : es = [] := by
        apply Classical.byContradiction
        intro hne
        have := h6 hne
        rw [e2] at this
        exact e1 (List.append_eq_nil_iff.mp this).1
      subst he
      refine ⟨a ++ ts, [], ps', by simp [h1], by simp, rfl, r2, ?_, fun h => absurd rfl h⟩
      rw [h5, e2, List.append_assoc]
  · rw [if_neg hlt]
    exact ⟨h, by omega⟩

/-- A token is the one at a place. -/
def Is (E : List Token) (i : Nat) (t : Token) : Prop :=
  match E[i]? with
  | some t' => t = t'
  | none => t.kind = .eof ∧ t.data = []

theorem inv_is {s : Lex} {E : List Token} (h : Inv L conv s E) (p : Nat) (hp : p < s.queue.length) :
    ∃ t, s.queue[p]? = some t ∧ Is E p t := by
  obtain ⟨a, es, ps, h1, h2, h3, h4, h5, h6⟩ := h
  refine ⟨s.queue[p], List.getElem?_eq_getElem hp, ?_⟩
  have e : s.queue[p]? = some s.queue[p] := List.getElem?_eq_getElem hp
  generalize s.queue[p] = t at *
  rw [h1] at e
  by_cases hpa : p < a.length
  · rw [List.getElem?_append_left hpa] at e
    unfold Is
    rw [h5, List.getElem?_append_left hpa, e]
  · rw [List.getElem?_append_right (by omega)] at e
    have hm : t ∈ es := List.mem_of_getElem? e
    have : es ≠ [] := by rintro rfl; cases hm
    unfold Is
    rw [h5, h6 this, List.append_nil, List.getElem?_eq_none (by omega)]
    exact h2 t hm

theorem inv_tail {s : Lex} {E : List Token} (h : Inv L conv s E) (hs : s.queue ≠ []) :
    Inv L conv { s with queue := s.queue.tail } E.tail := by
  obtain ⟨a, es, ps, h1, h2, h3, h4, h5, h6⟩ := h
  cases a with
  | nil =>
    have hes : es ≠ [] := by rintro rfl; exact hs h1
    have h6' := h6 hes
    refine ⟨[], es.tail, ps, by simp [h1], fun t ht => h2 t (List.mem_of_mem_tail ht), h3, h4, ?_, fun _ => h6'⟩
    simp [h5, h6']
  | cons t a => exact ⟨a, es, ps, by simp [h1], h2, h3, h4, by simp [h5], h6⟩

/-- The answers fit the tokens. -/
def Good : List Token → List Call → List (Option Token) → Prop
  | _, [], outs => outs = []
  | E, .get :: cs, outs => ∃ t outs', outs = some t :: outs' ∧ Is E 0 t ∧ Good E.tail cs outs'
  | E, .peek p :: cs, outs => ∃ t outs', outs = some t :: outs' ∧ Is E p t ∧ Good E cs outs'

theorem calls_good (hL : L.ok = true) (hnl : '\n' ∈ L.blanks) (cs : List Call) : ∀ (s : Lex) (E : List Token) (n : Nat),
    Inv L conv s E → n ≤ s.queue.length → stepwise n cs = true → Good E cs (calls L.grammar conv s cs) := by
  induction cs with
  | nil => intro s E n _ _ _; rfl
  | cons c cs ih =>
    intro s E n hi hn hst
    cases c with
    | get =>
      obtain ⟨i1, i2⟩ := inv_tokenize hL hnl hi 0 (Nat.zero_le _)
      obtain ⟨t, t1, t2⟩ := inv_is i1 0 (by omega)
      refine ⟨t, _, ?_, t2, ih _ _ (n - 1) (inv_tail i1 ?_) ?_ hst⟩
      · simp only [calls, callStep, getToken, List.head?_eq_getElem?, t1]
      · intro e; rw [e] at i2; simp at i2
      · show n - 1 ≤ (List.tail _).length
        rw [List.length_tail]; omega
    | peek p =>
      simp only [stepwise, Bool.and_eq_true, decide_eq_true_eq] at hst
      obtain ⟨i1, i2⟩ := inv_tokenize hL hnl hi p (by omega)
      obtain ⟨t, t1, t2⟩ := inv_is i1 p (by omega)
      refine ⟨t, _, ?_, t2, ih _ _ (max n (p + 1)) i1 (Nat.le_trans (by omega) i2) hst.2⟩
      simp only [calls, callStep, peekToken, t1]

/-! ### What the answers are -/

def view (t : Token) : Kind × List Char := (t.kind, t.data)

theorem is_view {E : List Token} {i : Nat} {t : Token} (h : Is E i t) : view t = (E.map view).getD i (.eof, []) := by
  unfold Is at h
  rw [List.getD_eq_getElem?_getD, List.getElem?_map]
  cases e : E[i]? with
  | none => rw [e] at h; simp only at h; simp [view, h]
  | some t' => rw [e] at h; simp only at h; simp [h]

theorem good_view (cs : List Call) : ∀ (E : List Token) (outs : List (Option Token)), Good E cs outs →
    outs.map (·.map view) = (answers (E.map view) cs).map some := by
  induction cs with
  | nil => intro E outs h; rw [Good] at h; subst h; rfl
  | cons c cs ih =>
    intro E outs h
    cases c with
    | get =>
      obtain ⟨t, outs', rfl, h1, h2⟩ := h
      have := ih _ _ h2
      simp only [List.map_cons, Option.map_some, answers, List.map_tail] at this ⊢
      rw [this, is_view h1]
      simp [List.getD_eq_getElem?_getD, List.headD_eq_head?_getD, List.head?_eq_getElem?]
    | peek p =>
      obtain ⟨t, outs', rfl, h1, h2⟩ := h
      have := ih _ _ h2
      simp only [List.map_cons, Option.map_some, answers] at this ⊢
      rw [this, is_view h1]

theorem good_get : ∀ (E : List Token) (outs : List (Option Token)),
    Good E (List.replicate E.length .get) outs → outs = E.map some := by
  intro E
  induction E with
  | nil => intro outs h; simpa [Good] using h
  | cons t E ih =>
    intro outs h
    rw [List.length_cons, List.replicate_succ] at h
    obtain ⟨t', outs', rfl, h1, h2⟩ := h
    rw [ih _ h2]
    have : t' = t := h1
    rw [this]; rfl

theorem stepwise_get (m n : Nat) : stepwise m (List.replicate n .get) = true := by
  induction n generalizing m with
  | zero => rfl
  | succ n ih => exact ih _

theorem actual_view (conv : List Char → Bool) : ∀ (ps : List Piece) (l : Nat),
    (actual conv l ps).map view = tokens conv ps := by
  intro ps
  induction ps with
  | nil => intro l; rfl
  | cons p ps ih =>
    intro l
    have bare : ∀ w, (actual conv l (.bare w :: ps)).map view = tokens conv (.bare w :: ps) := by
      intro w
      cases ps with
      | nil => rfl
      | cons p2 ps2 =>
        cases p2 with
        | blockComment b =>
          have := ih l
          simp only [actual] at this
          have e : tokens conv (.bare w :: .blockComment b :: ps2) = (bareKind conv w, w) :: tokens conv ps2 := rfl
          have e2 : tokens conv (.blockComment b :: ps2) = tokens conv ps2 := rfl
          rw [e2] at this
          rw [e, actual, List.map_cons, this]
          rfl
        | _ =>
          have := ih l
          rw [actual, List.map_cons, this] <;> first | rfl | (intro _ _ h; cases h) | skip
          try (intro _ h; cases h)
    cases p with
    | bare w => exact bare w
    | blank c => rw [actual, ih]; rfl
    | lineComment b => rw [actual, ih]; rfl
    | blockComment b => rw [actual, ih]; rfl
    | sign c => rw [actual, List.map_cons, ih]; rfl
    | quoted s => rw [actual, List.map_cons, ih]; rfl

/-! ### Lines -/

theorem nls_zero {s : List Char} (h : '\n' ∉ s) : nls s = 0 := by
  rw [nls_count, List.count_eq_zero]; exact h

theorem qtext_nl (q : QChar) (h : '\n' ∉ q.value) : '\n' ∉ q.text := by
  cases q with
  | raw c => exact h
  | esc c =>
    simp only [QChar.text, List.mem_cons, List.not_mem_nil, or_false, not_or]
    refine ⟨by decide, ?_⟩
    rintro rfl
    exact h (by decide)

theorem actual_bare (l : Nat) (w : List Char) (ps : List Piece) (h : ∀ b qs, ps ≠ .blockComment b :: qs) :
    actual conv l (.bare w :: ps) = ⟨bareKind conv w, w, l⟩ :: actual conv l ps := by
  cases ps with
  | nil => rfl
  | cons p ps =>
    cases p with
    | blockComment b => exact absurd rfl (h b ps)
    | _ => rfl

def mk (x : Kind × List Char × Nat) : Token := ⟨x.1, x.2.1, x.2.2⟩

theorem actual_lines (hL : L.ok = true) (hnl : '\n' ∈ L.blanks) (conv : List Char → Bool) : ∀ (ps : List Piece)
    (b : List Char), ok L ps = true → oneLined ps = true →
    actual conv (b.count '\n' + 1) ps = (tokensAt conv b ps).map mk := by
  intro ps
  induction ps with
  | nil => intro b _ _; rfl
  | cons p ps ih =>
    intro b hok hone
    obtain ⟨o1, o2, o3⟩ := ok_cons hok
    have hone' : oneLined ps = true := by
      simp only [oneLined, List.all_cons, Bool.and_eq_true] at hone ⊢; exact hone.2
    have ih' := fun b => ih b o3 hone'
    have cnt : ∀ t, (b ++ t).count '\n' + 1 = b.count '\n' + 1 + nls t := fun t => by
      rw [List.count_append, ← nls_count t]; omega
    have keep : ∀ t, '\n' ∉ t → (b ++ t).count '\n' + 1 = b.count '\n' + 1 := fun t h => by
      rw [cnt, nls_zero h, Nat.add_zero]
    cases p with
    | blank c =>
      have := ih' (b ++ [c])
      rw [cnt] at this
      simpa [actual, tokensAt, Piece.token, Piece.text, nls_cons, nls_nil] using this
    | lineComment t =>
      simp only [Piece.ok, Bool.and_eq_true, decide_eq_true_eq, Bool.not_eq_true', List.contains_eq_mem,
        decide_eq_false_iff_not] at o1
      have := ih' (b ++ (Piece.lineComment t).text)
      rw [cnt] at this
      have e : nls (Piece.lineComment t).text = 1 := by
        simp only [Piece.text, nls_append, nls_zero o1.2]; decide
      rw [e] at this
      simpa [actual, tokensAt, Piece.token] using this
    | blockComment t =>
      have ht : '\n' ∉ t := by
        simp only [oneLined, List.all_cons, Bool.and_eq_true, Bool.not_eq_true', List.contains_eq_mem,
          decide_eq_false_iff_not] at hone
        exact hone.1
      have := ih' (b ++ (Piece.blockComment t).text)
      rw [cnt] at this
      have e : nls (Piece.blockComment t).text = nls t := by
        simp only [Piece.text, nls_append]
        rw [show nls "/*".toList = 0 from by decide, show nls "*/".toList = 0 from by decide]; omega
      rw [e] at this
      simpa [actual, tokensAt, Piece.token] using this
    | sign c =>
      have hc : c ∈ L.signs := by simpa [Piece.ok] using o1
      have := ih' (b ++ [c])
      rw [keep [c] (by simp only [List.mem_singleton]; rintro rfl; exact lang_disj hL _ hc hnl)] at this
      rw [actual, this]
      rfl
    | bare w =>
      obtain ⟨w0, wp, wc⟩ := plain_of o1
      have hw : '\n' ∉ w := fun h => (wp _ h).1 hnl
      have := ih' (b ++ w)
      rw [keep w hw] at this
      have e : actual conv (b.count '\n' + 1) (.bare w :: ps) = ⟨bareKind conv w, w, b.count '\n' + 1⟩ ::
          actual conv (b.count '\n' + 1) ps := by
        by_cases hb : ∃ t qs, ps = .blockComment t :: qs
        · obtain ⟨t, qs, rfl⟩ := hb
          have ht : '\n' ∉ t := by
            simp only [oneLined, List.all_cons, Bool.and_eq_true, Bool.not_eq_true', List.contains_eq_mem,
              decide_eq_false_iff_not] at hone'
            exact hone'.1
          simp only [actual, nls_zero ht, Nat.add_zero]
        · exact actual_bare _ w ps (fun t qs h => hb ⟨t, qs, h⟩)
      rw [e, this]
      rfl
    | quoted s =>
      have hs : '\n' ∉ s.flatMap QChar.value := by
        simp only [oneLined, List.all_cons, Bool.and_eq_true, Bool.not_eq_true', List.contains_eq_mem,
          decide_eq_false_iff_not] at hone
        exact hone.1
      have ht : '\n' ∉ (Piece.quoted s).text := by
        simp only [Piece.text, List.mem_cons, List.mem_append, not_or]
        refine ⟨by decide, ?_, by decide, by simp⟩
        intro h
        obtain ⟨q, hq, hv⟩ := List.mem_flatMap.mp h
        exact qtext_nl q (fun h => hs (List.mem_flatMap.mpr ⟨q, hq, h⟩)) hv
      have := ih' (b ++ (Piece.quoted s).text)
      rw [keep _ ht] at this
      rw [actual, nls_zero hs, Nat.add_zero, this]
      rfl

/-! ### The start -/

theorem inv_new (ps : List Piece) (h : ok L ps = true) : Inv L conv (.new (text ps)) (actual conv 1 ps) :=
  ⟨[], [], ps, rfl, by simp, rfl, h, rfl, fun h => absurd rfl h⟩

end Verif.Lexer
