import Verif.Proof.ConfigParser3
/-! What is not a document is refused. -/
namespace Verif.Parser
variable {σ : Type} {T : Tables} {exec : Exec σ}

/-- The inner loop ends with an error, or an action uses a null pointer. -/
def Stuck (T : Tables) (exec : Exec σ) (cap : Nat) (s : PS σ) : Prop :=
  ∃ n, ∀ m, 6 ≤ m → (∃ s', inner T exec cap (m + n) s = .ok s' ∧ s'.isError = true) ∨ inner T exec cap (m + n) s = .crash

theorem Fails.stuck {cap : Nat} {s : PS σ} (h : Fails T exec cap s) : Stuck T exec cap s := by
  obtain ⟨n, h⟩ := h
  exact ⟨n, fun m hm => .inl (h m hm)⟩

theorem Runs.stuck {cap : Nat} {a b : PS σ} (h : Runs T exec cap a b) (h' : Stuck T exec cap b) : Stuck T exec cap a := by
  obtain ⟨n, h⟩ := h
  obtain ⟨n', h'⟩ := h'
  refine ⟨n' + n, fun m hm => ?_⟩
  rw [← Nat.add_assoc, h (m + n') (by omega)]
  exact h' m hm

theorem after_isError (s : PS σ) : (after T s).isError = s.isError := by
  unfold after
  by_cases h1 : s.token ≠ s.newToken
  · rw [if_pos h1]
    by_cases h2 : 0 < s.newToken
    · simp only [if_pos h2]
      split <;> rfl
    · simp only [if_neg h2]
      split <;> rfl
  · rw [if_neg h1]
    rfl

section
variable {cap : Nat} {syms : List Nat} {ts : List Tok} {u u' : σ}

theorem stuck_crash {a : Nat} (ha : T.startAction ≤ a) (h0 : 0 < a)
    (h : exec (a - (T.startAction - 1)) (ts.headD eof) u = none) : Stuck T exec cap (at_ (a :: syms) ts u) := by
  refine ⟨1, fun m hm => .inr ?_⟩
  show inner T exec cap (m + 1) _ = _
  have hp : process T exec cap m (at_ (a :: syms) ts u) = .crash := by
    unfold process
    have ha' : T.startAction ≤ (at_ (a :: syms) ts u).symbol := ha
    rw [if_pos ha']
    have : exec ((at_ (a :: syms) ts u).symbol - (T.startAction - 1)) (at_ (a :: syms) ts u).cur
        (at_ (a :: syms) ts u).user = none := h
    rw [this]
  have h0' : 0 < (at_ (a :: syms) ts u).symbol := h0
  have h1' : (at_ (a :: syms) ts u).isError = false := rfl
  simp only [inner, h0', h1', and_self, if_true, hp]

/-- A terminal that is not there. -/
theorem fails_match {a : Nat} (h0 : 0 < a) (h1 : a < T.startSymbol) (h2 : T.startSymbol ≤ T.startAction)
    (h : a ≠ (ts.headD eof).ty) : Fails T exec cap (at_ (a :: syms) ts u) := by
  have := runs_step (T := T) (exec := exec) (cap := cap) (s := at_ (a :: syms) ts u)
    (s' := { at_ (a :: syms) ts u with isError := true, newToken := T.endOfInput }) h0 rfl (by
      intro fuel _
      unfold process
      have a1 : ¬ T.startAction ≤ (at_ (a :: syms) ts u).symbol := by
        show ¬ T.startAction ≤ a; omega
      have a2 : ¬ T.startSymbol ≤ (at_ (a :: syms) ts u).symbol := by
        show ¬ T.startSymbol ≤ a; omega
      have a3 : ¬ (at_ (a :: syms) ts u).symbol = (at_ (a :: syms) ts u).token := h
      rw [if_neg a1, if_neg a2, if_neg a3])
  refine this.fails (fails_error ?_)
  rw [after_isError]

/-- A symbol without production for these tokens. -/
theorem fails_reject {A entry : Nat} (h0 : 0 < A) (hA : T.startSymbol ≤ A) (hA' : A < T.startAction)
    (hl : ∀ fuel, 6 ≤ fuel → lookup T fuel A (ts.headD eof).ty ts.tail = .ok entry)
    (hp : ∃ B rhs, production? T entry = some (B, rhs) ∧ (entry = 0 ∨ B ≠ A))
    (ht : (ts.headD eof).ty ≠ 0) : Fails T exec cap (at_ (A :: syms) ts u) := by
  have := runs_step (T := T) (exec := exec) (cap := cap) (s := at_ (A :: syms) ts u)
    (s' := reject T (at_ (A :: syms) ts u)) h0 rfl (by
      intro fuel hf
      unfold process
      have a1 : ¬ T.startAction ≤ (at_ (A :: syms) ts u).symbol := by show ¬ T.startAction ≤ A; omega
      have a2 : T.startSymbol ≤ (at_ (A :: syms) ts u).symbol := hA
      rw [if_neg a1, if_pos a2]
      have : lookup T fuel (at_ (A :: syms) ts u).symbol (at_ (A :: syms) ts u).token
          (at_ (A :: syms) ts u).rest = .ok entry := hl fuel hf
      rw [this]
      obtain ⟨C, rhs, h1, h2⟩ := hp
      rcases h2 with h2 | h2
      · subst h2; rfl
      · simp only [h1]
        split
        · rw [if_neg]
          exact h2
        · rfl)
  refine this.fails (fails_error ?_)
  have ht' : ¬ (at_ (A :: syms) ts u).token = 0 := ht
  rw [after_isError]
  unfold reject
  rw [if_neg ht']
end
end Verif.Parser

namespace Verif.Config
open Verif.Parser Verif.Spec.ConfigDoc
open Verif.ConfigDb (Op Out St Name)
open Verif.Spec.ConfigDb (Db Item allowed allAllowed)

variable {B : Type} {conv : Conv B}

/-! ## Looking ahead on any words -/

/-- Types of the words. -/
def tys : List Nat := [1, 2, 3, 4, 6, 7, 8]

theorem ty_word (w : Word) (h : w ≠ .bar) : (tok w).ty ∈ tys := by
  cases w <;> simp_all [tok, tys]

/-- The types seen when looking ahead: those of words, then 0 for ever. -/
def Seen (rest : List Tok) : Prop :=
  ∀ l, (peek rest l = 0 ∧ peek rest (l + 1) = 0) ∨ peek rest l ∈ tys

theorem seen_words (ws : List Word) (h : .bar ∉ ws) : Seen (ws.map tok) := by
  intro l
  unfold peek
  by_cases hl : l < ws.length
  · right
    rw [List.getD_eq_getElem?_getD, List.getElem?_map, List.getElem?_eq_getElem hl]
    exact ty_word _ (by intro e; apply h; rw [← e]; exact List.getElem_mem hl)
  · left
    rw [List.getD_eq_getElem?_getD, List.getD_eq_getElem?_getD, List.getElem?_eq_none (by simp; omega),
      List.getElem?_eq_none (by simp; omega)]
    exact ⟨rfl, rfl⟩

/-- The entries at the end of looking ahead. -/
def ends : List Nat := [0, 3, 4, 5, 6, 8, 9]

private theorem res_end {rest : List Tok} {f l e : Nat} (he : e ∈ ends) (hf : 1 ≤ f) :
    ∃ e', resolve stdTables rest f l e = .ok e' ∧ e' ∈ ends :=
  ⟨e, resolve_plain (by revert he; revert e; decide) hf, he⟩

private theorem mem_ends {e : Nat} (h : ends.contains e = true) : e ∈ ends := by simpa using h

private theorem res30 {rest : List Tok} (hs : Seen rest) {f l : Nat} (hf : 2 ≤ f) :
    ∃ e', resolve stdTables rest f l 30 = .ok e' ∧ e' ∈ ends := by
  obtain ⟨f, rfl⟩ : ∃ g, f = g + 1 := ⟨f - 1, by omega⟩
  have key : ∀ t ∈ 0 :: tys, ∃ e, conf stdTables 30 t = some e ∧ e ∈ ends := by
    intro t ht
    have : ∀ t ∈ 0 :: tys, ends.contains ((conf stdTables 30 t).getD 99) = true := by decide
    have h := mem_ends (this t ht)
    cases hc : conf stdTables 30 t with
    | none => rw [hc] at h; exact absurd h (by decide)
    | some e => rw [hc] at h; exact ⟨e, rfl, h⟩
  have hm : peek rest l ∈ 0 :: tys := by
    rcases hs l with h | h
    · rw [h.1]; simp
    · exact List.mem_cons_of_mem _ h
  obtain ⟨e, h1, h2⟩ := key _ hm
  rw [resolve_conf (by decide) h1]
  exact res_end h2 (by omega)

private theorem res28 {rest : List Tok} (hs : Seen rest) {f l : Nat} (hf : 3 ≤ f) :
    ∃ e', resolve stdTables rest f l 28 = .ok e' ∧ e' ∈ ends := by
  obtain ⟨f, rfl⟩ : ∃ g, f = g + 1 := ⟨f - 1, by omega⟩
  have key : ∀ t ∈ 0 :: tys, ∃ e, conf stdTables 28 t = some e ∧ (e ∈ ends ∨ e = 30) := by
    intro t ht
    have : ∀ t ∈ 0 :: tys, (30 :: ends).contains ((conf stdTables 28 t).getD 99) = true := by decide
    have h := this t ht
    cases hc : conf stdTables 28 t with
    | none => rw [hc] at h; exact absurd h (by decide)
    | some e => rw [hc] at h; simp at h; exact ⟨e, rfl, h.symm⟩
  have hm : peek rest l ∈ 0 :: tys := by
    rcases hs l with h | h
    · rw [h.1]; simp
    · exact List.mem_cons_of_mem _ h
  obtain ⟨e, h1, h2⟩ := key _ hm
  rw [resolve_conf (by decide) h1]
  rcases h2 with h2 | rfl
  · exact res_end h2 (by omega)
  · exact res30 hs (by omega)

private theorem res29 {rest : List Tok} (hs : Seen rest) {f l : Nat} (hf : 3 ≤ f) :
    ∃ e', resolve stdTables rest f l 29 = .ok e' ∧ e' ∈ ends := by
  obtain ⟨f, rfl⟩ : ∃ g, f = g + 1 := ⟨f - 1, by omega⟩
  rcases hs l with h | h
  · have h1 : conf stdTables 29 (peek rest l) = some 28 := by rw [h.1]; decide
    rw [resolve_conf (by decide) h1]
    obtain ⟨g, rfl⟩ : ∃ g, f = g + 1 := ⟨f - 1, by omega⟩
    have h2 : conf stdTables 28 (peek rest (l + 1)) = some 3 := by rw [h.2]; decide
    rw [resolve_conf (by decide) h2]
    exact res_end (by decide) (by omega)
  · have key : ∀ t ∈ tys, ∃ e, conf stdTables 29 t = some e ∧ (e ∈ ends ∨ e = 30) := by
      intro t ht
      have : ∀ t ∈ tys, (30 :: ends).contains ((conf stdTables 29 t).getD 99) = true := by decide
      have h := this t ht
      cases hc : conf stdTables 29 t with
      | none => rw [hc] at h; exact absurd h (by decide)
      | some e => rw [hc] at h; simp at h; exact ⟨e, rfl, h.symm⟩
    obtain ⟨e, h1, h2⟩ := key _ h
    rw [resolve_conf (by decide) h1]
    rcases h2 with h2 | rfl
    · exact res_end h2 (by omega)
    · exact res30 hs (by omega)

private theorem res27 {rest : List Tok} (hs : Seen rest) {f l : Nat} (hf : 4 ≤ f) :
    ∃ e', resolve stdTables rest f l 27 = .ok e' ∧ e' ∈ ends := by
  obtain ⟨f, rfl⟩ : ∃ g, f = g + 1 := ⟨f - 1, by omega⟩
  rcases hs l with h | h
  · have h1 : conf stdTables 27 (peek rest l) = some 26 := by rw [h.1]; decide
    rw [resolve_conf (by decide) h1]
    obtain ⟨g, rfl⟩ : ∃ g, f = g + 1 := ⟨f - 1, by omega⟩
    have h2 : conf stdTables 26 (peek rest (l + 1)) = some 0 := by rw [h.2]; decide
    rw [resolve_conf (by decide) h2]
    exact res_end (by decide) (by omega)
  · have key : ∀ t ∈ tys, ∃ e, conf stdTables 27 t = some e ∧ (e ∈ ends ∨ e = 28 ∨ e = 29) := by
      intro t ht
      have : ∀ t ∈ tys, (28 :: 29 :: ends).contains ((conf stdTables 27 t).getD 99) = true := by decide
      have h := this t ht
      cases hc : conf stdTables 27 t with
      | none => rw [hc] at h; exact absurd h (by decide)
      | some e =>
        rw [hc] at h
        simp at h
        exact ⟨e, rfl, by rcases h with h | h | h; exact .inr (.inl h); exact .inr (.inr h); exact .inl h⟩
    obtain ⟨e, h1, h2⟩ := key _ h
    rw [resolve_conf (by decide) h1]
    rcases h2 with h2 | rfl | rfl
    · exact res_end h2 (by omega)
    · exact res28 hs (by omega)
    · exact res29 hs (by omega)

private theorem res26 {rest : List Tok} (hs : Seen rest) {f l : Nat} (hf : 5 ≤ f) :
    ∃ e', resolve stdTables rest f l 26 = .ok e' ∧ e' ∈ ends := by
  obtain ⟨f, rfl⟩ : ∃ g, f = g + 1 := ⟨f - 1, by omega⟩
  have key : ∀ t ∈ 0 :: tys, ∃ e, conf stdTables 26 t = some e ∧ (e ∈ ends ∨ e = 28 ∨ e = 27) := by
    intro t ht
    have : ∀ t ∈ 0 :: tys, (28 :: 27 :: ends).contains ((conf stdTables 26 t).getD 99) = true := by decide
    have h := this t ht
    cases hc : conf stdTables 26 t with
    | none => rw [hc] at h; exact absurd h (by decide)
    | some e =>
      rw [hc] at h
      simp at h
      exact ⟨e, rfl, by rcases h with h | h | h; exact .inr (.inl h); exact .inr (.inr h); exact .inl h⟩
  have hm : peek rest l ∈ 0 :: tys := by
    rcases hs l with h | h
    · rw [h.1]; simp
    · exact List.mem_cons_of_mem _ h
  obtain ⟨e, h1, h2⟩ := key _ hm
  rw [resolve_conf (by decide) h1]
  rcases h2 with h2 | rfl | rfl
  · exact res_end h2 (by omega)
  · exact res28 hs (by omega)
  · exact res27 hs (by omega)

private theorem res24 {rest : List Tok} (hs : Seen rest) {f l : Nat} (hf : 6 ≤ f) (E : Nat) (hE : E = 24 ∨ E = 25) :
    ∃ e', resolve stdTables rest f l E = .ok e' ∧ e' ∈ ends := by
  obtain ⟨f, rfl⟩ : ∃ g, f = g + 1 := ⟨f - 1, by omega⟩
  have hsame : ∀ t, conf stdTables E t = conf stdTables 24 t := by intro t; rcases hE with rfl | rfl <;> rfl
  have key : ∀ t ∈ 0 :: tys, ∃ e, conf stdTables 24 t = some e ∧ (e ∈ ends ∨ e = 26 ∨ e = 27 ∨ e = 29) := by
    intro t ht
    have : ∀ t ∈ 0 :: tys, (26 :: 27 :: 29 :: ends).contains ((conf stdTables 24 t).getD 99) = true := by decide
    have h := this t ht
    cases hc : conf stdTables 24 t with
    | none => rw [hc] at h; exact absurd h (by decide)
    | some e =>
      rw [hc] at h
      simp at h
      exact ⟨e, rfl, by
        rcases h with h | h | h | h
        · exact .inr (.inl h)
        · exact .inr (.inr (.inl h))
        · exact .inr (.inr (.inr h))
        · exact .inl h⟩
  have hm : peek rest l ∈ 0 :: tys := by
    rcases hs l with h | h
    · rw [h.1]; simp
    · exact List.mem_cons_of_mem _ h
  obtain ⟨e, h1, h2⟩ := key _ hm
  rw [resolve_conf (by rcases hE with rfl | rfl <;> decide) (by rw [hsame]; exact h1)]
  rcases h2 with h2 | rfl | rfl | rfl
  · exact res_end h2 (by omega)
  · exact res26 hs (by omega)
  · exact res27 hs (by omega)
  · exact res29 hs (by omega)

private theorem resolve_more {rest : List Tok} : ∀ (f l e e' : Nat), resolve stdTables rest f l e = .ok e' →
    ∀ g, f ≤ g → resolve stdTables rest g l e = .ok e' := by
  intro f
  induction f with
  | zero => intro l e e' h; cases h
  | succ f ih =>
    intro l e e' h g hg
    obtain ⟨g, rfl⟩ : ∃ k, g = k + 1 := ⟨g - 1, by omega⟩
    rw [resolve_succ] at h ⊢
    split
    · rename_i hc
      rw [if_pos hc] at h
      cases hconf : conf stdTables e (peek rest l) with
      | none => rw [hconf] at h; cases h
      | some x =>
        rw [hconf] at h
        simp only at h ⊢
        exact ih _ _ _ h g (by omega)
    · rename_i hc
      rw [if_neg hc] at h
      exact h

/-- Looking up a symbol on any words: an entry of the parse table, or what is found by looking ahead. -/
theorem lookup_total {rest : List Tok} (hs : Seen rest) {A t e : Nat} (h : entry0 stdTables A t = some e) (he : e < 26) :
    ∃ e', (∀ fuel, 6 ≤ fuel → lookup stdTables fuel A t rest = .ok e') ∧ ((e < 24 ∧ e' = e) ∨ (24 ≤ e ∧ e' ∈ ends)) := by
  by_cases h24 : e < 24
  · exact ⟨e, lookup_plain h h24, .inl ⟨h24, rfl⟩⟩
  · obtain ⟨e', h1, h2⟩ := res24 hs (f := 6) (l := 0) (Nat.le_refl 6) e (by omega)
    refine ⟨e', fun fuel hf => ?_, .inr ⟨by omega, h2⟩⟩
    unfold lookup
    rw [h]
    exact resolve_more _ _ _ _ h1 _ hf

/-- The tables have no production of `A` for a token of type `t`, whatever follows. -/
def bad (A t : Nat) : Bool :=
  match entry0 stdTables A t with
  | none => false
  | some e =>
    let no := fun e => match production? stdTables e with
      | none => false
      | some p => e == 0 || p.1 != A
    decide (e < 26) && (if e < 24 then no e else ends.all no)

theorem bad_lookup {A t : Nat} (h : bad A t = true) {rest : List Tok} (hs : Seen rest) :
    ∃ e, (∀ fuel, 6 ≤ fuel → lookup stdTables fuel A t rest = .ok e) ∧
      ∃ B rhs, production? stdTables e = some (B, rhs) ∧ (e = 0 ∨ B ≠ A) := by
  unfold bad at h
  cases h0 : entry0 stdTables A t with
  | none => rw [h0] at h; cases h
  | some e =>
    rw [h0] at h
    simp only [Bool.and_eq_true, decide_eq_true_eq] at h
    obtain ⟨he, h⟩ := h
    obtain ⟨e', h1, h2⟩ := lookup_total hs h0 he
    have hno : (match production? stdTables e' with
      | none => false
      | some p => e' == 0 || p.1 != A) = true := by
      rcases h2 with ⟨h2, rfl⟩ | ⟨h2, h3⟩
      · rw [if_pos h2] at h; exact h
      · rw [if_neg (by omega)] at h
        exact List.all_eq_true.mp h e' h3
    refine ⟨e', h1, ?_⟩
    cases hp : production? stdTables e' with
    | none => rw [hp] at hno; cases hno
    | some p =>
      rw [hp] at hno
      simp only [Bool.or_eq_true, beq_iff_eq, bne_iff_ne] at hno
      exact ⟨p.1, p.2, rfl, hno⟩

section
variable {cap : Nat} {syms : List Nat} {c : Cfg B}

theorem stuck_bad {w : Word} {ws : List Word} {A : Nat} (hb : .bar ∉ w :: ws) (hA : 10 ≤ A) (hA' : A < 23)
    (h : bad A (tok w).ty = true) : Stuck stdTables (stdExec conv) cap (at_ (A :: syms) ((w :: ws).map tok) c) := by
  obtain ⟨e, h1, h2⟩ := bad_lookup h (seen_words ws (by intro e; apply hb; simp [e]))
  refine (fails_reject (by omega) hA hA' h1 h2 ?_).stuck
  show (tok w).ty ≠ 0
  cases w <;> simp [tok]

theorem stuck_match {ws : List Word} {a : Nat} (h0 : 0 < a) (h1 : a < 10) (h : a ≠ ((ws.map tok).headD eof).ty) :
    Stuck stdTables (stdExec conv) cap (at_ (a :: syms) (ws.map tok) c) :=
  (fails_match h0 h1 (by decide) h).stuck

/-- The end of the text was found. -/
def ate (syms : List Nat) (c : Cfg B) : PS (Cfg B) := { at_ syms [] c with token := 9, newToken := 9, isEOF := true }

theorem eof_drop {A : Nat} (hA : 10 ≤ A) (hA' : A < 23) (h : bad A 0 = true) :
    Runs stdTables (stdExec conv) cap (at_ (A :: syms) [] c) (ate syms c) := by
  obtain ⟨e, h1, h2⟩ := bad_lookup h (rest := []) (by
    have := seen_words [] (by simp)
    exact this)
  have := runs_step (T := stdTables) (exec := stdExec conv) (cap := cap) (s := at_ (A :: syms) [] c)
    (s' := { at_ (A :: syms) [] c with isEOF := true, newToken := 9 }) (by show 0 < A; omega) rfl (by
      intro fuel hf
      unfold process
      have a1 : ¬ stdTables.startAction ≤ (at_ (A :: syms) [] c).symbol := by show ¬ 23 ≤ A; omega
      have a2 : stdTables.startSymbol ≤ (at_ (A :: syms) [] c).symbol := hA
      rw [if_neg a1, if_pos a2]
      have : lookup stdTables fuel (at_ (A :: syms) [] c).symbol (at_ (A :: syms) [] c).token
          (at_ (A :: syms) [] c).rest = .ok e := h1 fuel hf
      rw [this]
      obtain ⟨C, rhs, h1, h2⟩ := h2
      rcases h2 with h2 | h2
      · subst h2; rfl
      · simp only [h1]
        split
        · rw [if_neg]
          · rfl
          · exact h2
        · rfl)
  exact this

theorem ate_match {a : Nat} (h0 : 0 < a) (h1 : a < 9) : Stuck stdTables (stdExec conv) cap (ate (a :: syms) c) := by
  have := runs_step (T := stdTables) (exec := stdExec conv) (cap := cap) (s := ate (a :: syms) c)
    (s' := { ate (a :: syms) c with isError := true, newToken := 9 }) h0 rfl (by
      intro fuel _
      unfold process
      have a1 : ¬ stdTables.startAction ≤ (ate (a :: syms) c).symbol := by
        show ¬ 23 ≤ a; omega
      have a2 : ¬ stdTables.startSymbol ≤ (ate (a :: syms) c).symbol := by
        show ¬ 10 ≤ a; omega
      have a3 : ¬ (ate (a :: syms) c).symbol = (ate (a :: syms) c).token := by show ¬ a = 9; omega
      rw [if_neg a1, if_neg a2, if_neg a3]
      rfl)
  refine (this.fails (fails_error ?_)).stuck
  rw [after_isError]

theorem ate_reject {A e : Nat} (hA : 10 ≤ A) (hA' : A < 23) (h : entry0 stdTables A 9 = some e) (he : e < 24)
    (hp : ∃ B rhs, production? stdTables e = some (B, rhs) ∧ (e = 0 ∨ B ≠ A)) :
    Stuck stdTables (stdExec conv) cap (ate (A :: syms) c) := by
  have := runs_step (T := stdTables) (exec := stdExec conv) (cap := cap) (s := ate (A :: syms) c)
    (s' := { ate (A :: syms) c with isError := true, newToken := 9 }) (by show 0 < A; omega) rfl (by
      intro fuel hf
      unfold process
      have a1 : ¬ stdTables.startAction ≤ (ate (A :: syms) c).symbol := by show ¬ 23 ≤ A; omega
      have a2 : stdTables.startSymbol ≤ (ate (A :: syms) c).symbol := hA
      rw [if_neg a1, if_pos a2]
      have : lookup stdTables fuel (ate (A :: syms) c).symbol (ate (A :: syms) c).token
          (ate (A :: syms) c).rest = .ok e := lookup_plain h he fuel hf
      rw [this]
      obtain ⟨C, rhs, h1, h2⟩ := hp
      rcases h2 with h2 | h2
      · subst h2; rfl
      · simp only [h1]
        split
        · rw [if_neg]
          · rfl
          · exact h2
        · rfl)
  refine (this.fails (fails_error ?_)).stuck
  rw [after_isError]

/-! ## Values -/

/-- The symbols in front of `syms` are done: the words were `d` and what is left, or the parser is stuck. -/
def Done (conv : Conv B) (cap : Nat) (front syms : List Nat) (ws : List Word) (c : Cfg B) (P : List Word → Prop) : Prop :=
  Stuck stdTables (stdExec conv) cap (at_ (front ++ syms) (ws.map tok) c) ∨
  ∃ d ws', ws = d ++ ws' ∧ P d ∧
    ∃ c', Runs stdTables (stdExec conv) cap (at_ (front ++ syms) (ws.map tok) c) (at_ syms (ws'.map tok) c')

theorem leads_done {front : List Nat} {ws ws' : List Word} {o : Option (Cfg B)}
    (h : Leads conv cap (front ++ syms) (ws.map tok) c syms (ws'.map tok) o) :
    Stuck stdTables (stdExec conv) cap (at_ (front ++ syms) (ws.map tok) c) ∨
    ∃ c', Runs stdTables (stdExec conv) cap (at_ (front ++ syms) (ws.map tok) c) (at_ syms (ws'.map tok) c') := by
  cases o with
  | none => exact .inl (Fails.stuck h)
  | some c' => exact .inr ⟨c', h⟩

theorem done_lit {w : Word} {ws : List Word} (hb : .bar ∉ w :: ws) (room : syms.length + 2 ≤ cap) :
    Stuck stdTables (stdExec conv) cap (at_ (14 :: syms) ((w :: ws).map tok) c) ∨
    ∃ l : Lit, w = l.word ∧
      ∃ c', Runs stdTables (stdExec conv) cap (at_ (14 :: syms) ((w :: ws).map tok) c) (at_ syms (ws.map tok) c') := by
  have lit : ∀ l : Lit, w = l.word → _ := fun l hl => leads_done (conv := conv) (cap := cap) (syms := syms) (c := c) (front := [14]) (ws := w :: ws) (ws' := ws)
      (o := addAll conv c [l])
      (by subst hl; exact leads_lit l (c := c) room)
  cases w with
  | str s =>
    rcases lit ⟨false, s⟩ rfl with h | h
    · exact .inl h
    · exact .inr ⟨⟨false, s⟩, rfl, h⟩
  | num s =>
    rcases lit ⟨true, s⟩ rfl with h | h
    · exact .inl h
    · exact .inr ⟨⟨true, s⟩, rfl, h⟩
  | bar => simp at hb
  | eq => exact .inl (stuck_bad hb (by decide) (by decide) (by decide))
  | lp => exact .inl (stuck_bad hb (by decide) (by decide) (by decide))
  | rp => exact .inl (stuck_bad hb (by decide) (by decide) (by decide))
  | lb => exact .inl (stuck_bad hb (by decide) (by decide) (by decide))
  | rb => exact .inl (stuck_bad hb (by decide) (by decide) (by decide))

theorem done_lits (ws : List Word) : ∀ c : Cfg B, .bar ∉ ws → syms.length + 4 ≤ cap →
    Done conv cap [20, 7] syms ws c (fun d => ∃ ls : List Lit, d = ls.map Lit.word ++ [.rb]) := by
  induction ws with
  | nil =>
    intro c _ _
    exact .inl ((eof_drop (syms := 7 :: syms) (by decide) (by decide) (by decide)).stuck (ate_match (by decide) (by decide)))
  | cons w ws ih =>
    intro c hb room
    have hb' : .bar ∉ ws := by intro e; apply hb; simp [e]
    have more : ((tok w).ty = 1 ∨ (tok w).ty = 8) →
        Done conv cap [20, 7] syms (w :: ws) c (fun d => ∃ ls : List Lit, d = ls.map Lit.word ++ [.rb]) := by
      intro hk
      have r1 : Runs stdTables (stdExec conv) cap (at_ (20 :: 7 :: syms) ((w :: ws).map tok) c)
          (at_ (14 :: 20 :: 7 :: syms) ((w :: ws).map tok) c) := by
        rcases hk with hk | hk
        · exact run_plain (ts := (w :: ws).map tok) 20 18 [14, 20] 1 hk (by decide) (by decide) (by decide) (by decide)
            (by decide) (by decide) (by simp; omega)
        · exact run_plain (ts := (w :: ws).map tok) 20 18 [14, 20] 8 hk (by decide) (by decide) (by decide) (by decide)
            (by decide) (by decide) (by simp; omega)
      rcases done_lit (conv := conv) (cap := cap) (syms := 20 :: 7 :: syms) (c := c) hb (by simp; omega) with h | ⟨l, hl, c1, h⟩
      · exact .inl (r1.stuck h)
      · rcases ih c1 hb' room with h2 | ⟨d, ws', h2, ⟨ls, h3⟩, c2, h4⟩
        · exact .inl (r1.stuck (h.stuck h2))
        · exact .inr ⟨w :: d, ws', by rw [h2]; rfl, ⟨l :: ls, by rw [h3, hl]; rfl⟩, c2, (r1.trans h).trans h4⟩
    cases w with
    | str s => exact more (.inl rfl)
    | num s => exact more (.inr rfl)
    | bar => simp at hb
    | eq => exact .inl (stuck_bad hb (by decide) (by decide) (by decide))
    | lp => exact .inl (stuck_bad hb (by decide) (by decide) (by decide))
    | rp => exact .inl (stuck_bad hb (by decide) (by decide) (by decide))
    | lb => exact .inl (stuck_bad hb (by decide) (by decide) (by decide))
    | rb =>
      have r1 : Runs stdTables (stdExec conv) cap (at_ (20 :: 7 :: syms) ((Word.rb :: ws).map tok) c)
          (at_ (30 :: 7 :: syms) ((Word.rb :: ws).map tok) c) :=
        run_plain 20 19 [30] 7 rfl (by decide) (by decide) (by decide) (by decide) (by decide) (by decide)
          (by simp; omega)
      have h2 : Leads conv cap (30 :: 7 :: syms) ((Word.rb :: ws).map tok) c (7 :: syms) ((Word.rb :: ws).map tok)
          (if (endVector c).2 then none else some (endVector c).1) := leads_action (by decide) rfl
      rcases leads_done (front := [30]) (ws := .rb :: ws) (ws' := .rb :: ws) h2 with h | ⟨c', h⟩
      · exact .inl (r1.stuck h)
      · exact .inr ⟨[.rb], ws, rfl, ⟨[], rfl⟩, c', (r1.trans h).trans (run_word .rb 7 rfl (by decide) (by decide))⟩

theorem done_row (w : Word) (ws : List Word) (hb : .bar ∉ w :: ws) (room : syms.length + 6 ≤ cap)
    (next : ws = [] → ∀ c : Cfg B, Stuck stdTables (stdExec conv) cap (at_ (14 :: 20 :: 7 :: syms) [] c)) :
    Done conv cap [15] syms (w :: ws) c (fun d => ∃ r, d = rowWords r) := by
  have hb' : .bar ∉ ws := by intro e; apply hb; simp [e]
  cases w with
  | bar => simp at hb
  | str s => exact .inl (stuck_bad hb (by decide) (by decide) (by show bad 15 1 = true; decide))
  | num s => exact .inl (stuck_bad hb (by decide) (by decide) (by show bad 15 8 = true; decide))
  | eq => exact .inl (stuck_bad hb (by decide) (by decide) (by decide))
  | lp => exact .inl (stuck_bad hb (by decide) (by decide) (by decide))
  | rp => exact .inl (stuck_bad hb (by decide) (by decide) (by decide))
  | rb => exact .inl (stuck_bad hb (by decide) (by decide) (by decide))
  | lb =>
    have r1 : Runs stdTables (stdExec conv) cap (at_ (15 :: syms) ((Word.lb :: ws).map tok) c)
        (at_ (14 :: 20 :: 7 :: syms) (ws.map tok) c) := by
      refine (run_plain 15 11 [6, 14, 20, 7] 6 rfl (by decide) (by decide) (by decide) (by decide) (by decide) (by decide)
        (by simp; omega)).trans ?_
      exact run_word .lb 6 rfl (by decide) (by decide)
    cases ws with
    | nil => exact .inl (r1.stuck (next rfl c))
    | cons v ws =>
      rcases done_lit (conv := conv) (cap := cap) (syms := 20 :: 7 :: syms) (c := c) hb' (by simp; omega) with h | ⟨l, hl, c1, h⟩
      · exact .inl (r1.stuck h)
      · rcases done_lits (conv := conv) (cap := cap) (syms := syms) ws c1 (by intro e; apply hb'; simp [e]) (by omega) with
          h2 | ⟨d, ws', h2, ⟨ls, h3⟩, c2, h4⟩
        · exact .inl (r1.stuck (h.stuck h2))
        · refine .inr ⟨.lb :: v :: d, ws', by rw [h2]; rfl, ⟨(l, ls), ?_⟩, c2, (r1.trans h).trans h4⟩
          rw [h3, hl]; rfl

theorem done_rows (n : Nat) : ∀ (ws : List Word) (c : Cfg B), ws.length ≤ n → .bar ∉ ws → syms.length + 8 ≤ cap →
    Done conv cap [21, 7] syms ws c (fun d => ∃ rs : List (Lit × List Lit), d = rs.flatMap rowWords ++ [.rb]) := by
  induction n with
  | zero =>
    intro ws c hn _ _
    obtain rfl : ws = [] := List.length_eq_zero_iff.mp (by omega)
    exact .inl ((eof_drop (syms := 7 :: syms) (by decide) (by decide) (by decide)).stuck (ate_match (by decide) (by decide)))
  | succ n ih =>
    intro ws c hn hb room
    cases ws with
    | nil =>
      exact .inl ((eof_drop (syms := 7 :: syms) (by decide) (by decide) (by decide)).stuck (ate_match (by decide) (by decide)))
    | cons w ws =>
      have hb' : .bar ∉ ws := by intro e; apply hb; simp [e]
      cases w with
      | str s => exact .inl (stuck_bad hb (by decide) (by decide) (by show bad 21 1 = true; decide))
      | num s => exact .inl (stuck_bad hb (by decide) (by decide) (by show bad 21 8 = true; decide))
      | bar => simp at hb
      | eq => exact .inl (stuck_bad hb (by decide) (by decide) (by decide))
      | lp => exact .inl (stuck_bad hb (by decide) (by decide) (by decide))
      | rp => exact .inl (stuck_bad hb (by decide) (by decide) (by decide))
      | lb =>
        have r1 : Runs stdTables (stdExec conv) cap (at_ (21 :: 7 :: syms) ((Word.lb :: ws).map tok) c)
            (at_ (15 :: 21 :: 7 :: syms) ((Word.lb :: ws).map tok) c) :=
          run_plain 21 20 [15, 21] 6 rfl (by decide) (by decide) (by decide) (by decide) (by decide) (by decide)
            (by simp; omega)
        rcases done_row (conv := conv) (cap := cap) (syms := 21 :: 7 :: syms) (c := c) .lb ws hb (by simp; omega) (by
            intro _ c
            exact (eof_drop (syms := 20 :: 7 :: 21 :: 7 :: syms) (by decide) (by decide) (by decide)).stuck
              (ate_reject (e := 10) (by decide) (by decide) (by decide) (by decide) ⟨14, [29, 18], by decide, by decide⟩))
          with h | ⟨d, ws', h1, ⟨r, h2⟩, c1, h3⟩
        · exact .inl (r1.stuck h)
        · have hl : ws'.length ≤ n := by
            have := congrArg List.length h1
            rw [h2] at this
            simp [rowWords] at this hn
            omega
          have hb2 : .bar ∉ ws' := by intro e; apply hb; rw [h1]; simp [e]
          rcases ih ws' c1 hl hb2 room with h4 | ⟨d', ws'', h4, ⟨rs, h5⟩, c2, h6⟩
          · exact .inl (r1.stuck (h3.stuck h4))
          · refine .inr ⟨d ++ d', ws'', by rw [h1, h4, List.append_assoc], ⟨r :: rs, ?_⟩, c2, (r1.trans h3).trans h6⟩
            rw [h2, h5]; simp
      | rb =>
        have r1 : Runs stdTables (stdExec conv) cap (at_ (21 :: 7 :: syms) ((Word.rb :: ws).map tok) c)
            (at_ (31 :: 7 :: syms) ((Word.rb :: ws).map tok) c) :=
          run_plain 21 21 [31] 7 rfl (by decide) (by decide) (by decide) (by decide) (by decide) (by decide)
            (by simp; omega)
        refine .inr ⟨[.rb], ws, rfl, ⟨[], rfl⟩, endMatrix c, r1.trans ?_⟩
        refine (run_action (u' := endMatrix c) (by decide) (by decide) rfl).trans ?_
        exact run_word .rb 7 rfl (by decide) (by decide)

/-- `AddLeaf` ends with nothing gathered. -/
theorem addLeaf_mem (c c' : Cfg B) (e : Bool) (h : addLeaf c = some (c', e)) : c'.mem = none := by
  unfold addLeaf at h
  simp only at h
  split at h
  · cases h; rfl
  · split at h
    · cases h
    · cases h; rfl

theorem done_addLeaf {ws : List Word} :
    Stuck stdTables (stdExec conv) cap (at_ (25 :: syms) (ws.map tok) c) ∨
    ∃ c', c'.mem = none ∧ Runs stdTables (stdExec conv) cap (at_ (25 :: syms) (ws.map tok) c) (at_ syms (ws.map tok) c') := by
  cases h : addLeaf c with
  | none => exact .inl (stuck_crash (by decide) (by decide) h)
  | some r =>
    obtain ⟨c', e⟩ := r
    cases e with
    | true => exact .inl (fails_action (u' := c') (by decide) (by decide) h).stuck
    | false => exact .inr ⟨c', addLeaf_mem _ _ _ h, run_action (u' := c') (by decide) (by decide) h⟩

/-- The value of a statement, and the action that stores it. -/
theorem done_data (ws : List Word) (hb : .bar ∉ ws) (hm : c.mem = none) (room : syms.length + 10 ≤ cap) :
    Stuck stdTables (stdExec conv) cap (at_ (13 :: 25 :: syms) (ws.map tok) c) ∨
    ∃ (d : Data) (ws' : List Word), ws = d.words ++ ws' ∧ ∃ c', c'.mem = none ∧
      Runs stdTables (stdExec conv) cap (at_ (13 :: 25 :: syms) (ws.map tok) c) (at_ syms (ws'.map tok) c') := by
  have fin : ∀ (d : Data) (ws' : List Word), ws = d.words ++ ws' → (∃ c1,
      Runs stdTables (stdExec conv) cap (at_ (13 :: 25 :: syms) (ws.map tok) c) (at_ (25 :: syms) (ws'.map tok) c1)) →
      Stuck stdTables (stdExec conv) cap (at_ (13 :: 25 :: syms) (ws.map tok) c) ∨
      ∃ (d : Data) (ws' : List Word), ws = d.words ++ ws' ∧ ∃ c', c'.mem = none ∧
        Runs stdTables (stdExec conv) cap (at_ (13 :: 25 :: syms) (ws.map tok) c) (at_ syms (ws'.map tok) c') := by
    intro d ws' h1 ⟨c1, h2⟩
    rcases done_addLeaf (conv := conv) (cap := cap) (syms := syms) (c := c1) (ws := ws') with h | ⟨c', h3, h4⟩
    · exact .inl (h2.stuck h)
    · exact .inr ⟨d, ws', h1, c', h3, h2.trans h4⟩
  cases ws with
  | nil =>
    refine .inl ((eof_drop (syms := 25 :: syms) (by decide) (by decide) (by decide)).stuck ?_)
    have := runs_step (T := stdTables) (exec := stdExec conv) (cap := cap) (s := ate (25 :: syms) c)
      (s' := { ate (25 :: syms) (reset c) with isError := true }) (by show 0 < 25; decide) rfl (by
        intro fuel _
        refine process_action (e := true) (by show 23 ≤ 25; decide) ?_
        show addLeaf c = _
        unfold addLeaf
        rw [hm]
        rfl)
    refine (this.fails (fails_error ?_)).stuck
    rw [after_isError]
  | cons w ws =>
    have hb' : .bar ∉ ws := by intro e; apply hb; simp [e]
    have scalar : ∀ l : Lit, w = l.word → (tok w).ty = 1 ∨ (tok w).ty = 8 →
        Stuck stdTables (stdExec conv) cap (at_ (13 :: 25 :: syms) ((w :: ws).map tok) c) ∨
        ∃ (d : Data) (ws' : List Word), w :: ws = d.words ++ ws' ∧ ∃ c', c'.mem = none ∧
          Runs stdTables (stdExec conv) cap (at_ (13 :: 25 :: syms) ((w :: ws).map tok) c)
            (at_ syms (ws'.map tok) c') := fun l hl hk => by
      have r1 : Runs stdTables (stdExec conv) cap (at_ (13 :: 25 :: syms) ((w :: ws).map tok) c)
          (at_ (14 :: 25 :: syms) ((w :: ws).map tok) c) := by
        rcases hk with hk | hk
        · exact run_plain (ts := (w :: ws).map tok) 13 7 [14] 1 hk (by decide) (by decide) (by decide) (by decide)
            (by decide) (by decide) (by simp; omega)
        · exact run_plain (ts := (w :: ws).map tok) 13 7 [14] 8 hk (by decide) (by decide) (by decide) (by decide)
            (by decide) (by decide) (by simp; omega)
      rcases done_lit (conv := conv) (cap := cap) (syms := 25 :: syms) (c := c) hb (by simp; omega) with h | ⟨l', _, c1, h⟩
      · exact Or.inl (r1.stuck h)
      · exact fin (.scalar l) ws (by rw [hl]; rfl) ⟨c1, r1.trans h⟩
    cases w with
    | str s => exact scalar ⟨false, s⟩ rfl (.inl rfl)
    | num s => exact scalar ⟨true, s⟩ rfl (.inr rfl)
    | bar => simp at hb
    | eq => exact .inl (stuck_bad hb (by decide) (by decide) (by decide))
    | lp => exact .inl (stuck_bad hb (by decide) (by decide) (by decide))
    | rp => exact .inl (stuck_bad hb (by decide) (by decide) (by decide))
    | rb => exact .inl (stuck_bad hb (by decide) (by decide) (by decide))
    | lb =>
      obtain ⟨e, h1, h2⟩ := lookup_total (A := 13) (t := 6) (e := 25) (seen_words ws hb') (by decide) (by decide)
      rcases h2 with ⟨h2, _⟩ | ⟨_, h2⟩
      · omega
      have no : (∃ B rhs, production? stdTables e = some (B, rhs) ∧ (e = 0 ∨ B ≠ 13)) →
          Stuck stdTables (stdExec conv) cap (at_ (13 :: 25 :: syms) ((Word.lb :: ws).map tok) c) := fun hp =>
        (fails_reject (ts := (Word.lb :: ws).map tok) (by decide) (by decide) (by decide) h1 hp (by simp [tok])).stuck
      have hcases : e = 8 ∨ e = 9 ∨ (∃ B rhs, production? stdTables e = some (B, rhs) ∧ (e = 0 ∨ B ≠ 13)) := by
        simp only [ends, List.mem_cons, List.not_mem_nil, or_false] at h2
        rcases h2 with rfl | rfl | rfl | rfl | rfl | rfl | rfl
        · exact .inr (.inr ⟨3, [], by decide, .inl rfl⟩)
        · exact .inr (.inr ⟨12, _, rfl, .inr (by decide)⟩)
        · exact .inr (.inr ⟨12, _, rfl, .inr (by decide)⟩)
        · exact .inr (.inr ⟨12, _, rfl, .inr (by decide)⟩)
        · exact .inr (.inr ⟨12, _, rfl, .inr (by decide)⟩)
        · exact .inl rfl
        · exact .inr (.inl rfl)
      rcases hcases with rfl | rfl | hp
      · -- a vector
        have r1 : Runs stdTables (stdExec conv) cap (at_ (13 :: 25 :: syms) ((Word.lb :: ws).map tok) c)
            (at_ ([15] ++ 25 :: syms) ((Word.lb :: ws).map tok) c) :=
          run_prod (ts := (Word.lb :: ws).map tok) (by decide) (by decide) (by decide) h1 (by decide) (by decide)
            (by simp; omega)
        have hws : ws ≠ [] := by
          rintro rfl
          have := h1 6 (Nat.le_refl 6)
          exact absurd this (by decide)
        rcases done_row (conv := conv) (cap := cap) (syms := 25 :: syms) (c := c) .lb ws hb (by simp; omega)
          (fun h => absurd h hws) with h | ⟨d, ws', h3, ⟨r, h4⟩, c1, h5⟩
        · exact .inl (r1.stuck h)
        · exact fin (.vector r.1 r.2) ws' (by rw [h3, h4]; rfl) ⟨c1, r1.trans h5⟩
      · -- a matrix
        have r1 : Runs stdTables (stdExec conv) cap (at_ (13 :: 25 :: syms) ((Word.lb :: ws).map tok) c)
            (at_ ([16] ++ 25 :: syms) ((Word.lb :: ws).map tok) c) :=
          run_prod (ts := (Word.lb :: ws).map tok) (by decide) (by decide) (by decide) h1 (by decide) (by decide)
            (by simp; omega)
        have r2 : Runs stdTables (stdExec conv) cap (at_ ([16] ++ 25 :: syms) ((Word.lb :: ws).map tok) c)
            (at_ (15 :: 21 :: 7 :: 25 :: syms) (ws.map tok) c) := by
          refine (run_plain 16 12 [6, 15, 21, 7] 6 rfl (by decide) (by decide) (by decide) (by decide) (by decide)
            (by decide) (by simp; omega)).trans ?_
          exact run_word .lb 6 rfl (by decide) (by decide)
        cases ws with
        | nil =>
          have := h1 6 (Nat.le_refl 6)
          exact absurd this (by decide)
        | cons v ws =>
          rcases done_row (conv := conv) (cap := cap) (syms := 21 :: 7 :: 25 :: syms) (c := c) v ws hb' (by simp; omega) (by
              intro _ c
              exact (eof_drop (syms := 20 :: 7 :: 21 :: 7 :: 25 :: syms) (by decide) (by decide) (by decide)).stuck
                (ate_reject (e := 10) (by decide) (by decide) (by decide) (by decide) ⟨14, [29, 18], by decide, by decide⟩))
            with h | ⟨d, ws', h3, ⟨r, h4⟩, c1, h5⟩
          · exact .inl (r1.stuck (r2.stuck h))
          · have hb2 : .bar ∉ ws' := by intro e; apply hb'; rw [h3]; simp [e]
            rcases done_rows (conv := conv) (cap := cap) (syms := 25 :: syms) ws'.length ws' c1 (Nat.le_refl _) hb2 (by simp; omega) with
              h6 | ⟨d', ws'', h6, ⟨rs, h7⟩, c2, h8⟩
            · exact .inl (r1.stuck (r2.stuck (h5.stuck h6)))
            · refine fin (.matrix r rs) ws'' ?_ ⟨c2, ((r1.trans r2).trans h5).trans h8⟩
              rw [h3, h6, h4, h7]
              simp [Data.words]
      · exact .inl (no hp)
end

/-! ## Statements -/

theorem nest_drop {k : Nat} {a b : List Word} (h : Nest k (a ++ b)) (hb : a.count .lb = a.count .rb) : Nest k b := by
  intro p hp
  have := h (a ++ p) ((List.prefix_append_right_inj a).mpr hp)
  rw [List.count_append, List.count_append] at this
  omega

theorem nest_open {k : Nat} {n : Name} {ws : List Word} (h : Nest k (.str n :: .eq :: .lb :: ws)) :
    1 ≤ k ∧ Nest (k - 1) ws := by
  have h1 := h [.str n, .eq, .lb] ⟨ws, rfl⟩
  have e1 : List.count Word.lb [.str n, .eq, .lb] = 1 := by
    rw [List.count_cons, List.count_cons]; simp
  have e2 : List.count Word.rb [.str n, .eq, .lb] = 0 := by
    rw [List.count_cons, List.count_cons]; simp
  rw [e1, e2] at h1
  refine ⟨by omega, fun p hp => ?_⟩
  have h2 := h ([.str n, .eq, .lb] ++ p) ((List.prefix_append_right_inj [.str n, .eq, .lb]).mpr hp)
  rw [List.count_append, List.count_append, e1, e2] at h2
  omega

private theorem lits_count (ls : List Lit) : (ls.map Lit.word).count .lb = 0 ∧ (ls.map Lit.word).count .rb = 0 := by
  constructor <;>
  · rw [List.count_eq_zero]
    intro h
    obtain ⟨l, _, hl⟩ := List.mem_map.mp h
    unfold Lit.word at hl
    split at hl <;> cases hl

private theorem row_count (r : Lit × List Lit) : (rowWords r).count .lb = (rowWords r).count .rb := by
  unfold rowWords
  have := lits_count (rowLits r)
  simp [List.count_cons, List.count_append, this.1, this.2]

private theorem rows_count (rs : List (Lit × List Lit)) :
    (rs.flatMap rowWords).count .lb = (rs.flatMap rowWords).count .rb := by
  induction rs with
  | nil => rfl
  | cons r rs ih => simp only [List.flatMap_cons, List.count_append, ih, row_count]

private theorem data_count (d : Data) : d.words.count .lb = d.words.count .rb := by
  cases d with
  | scalar l =>
    have := lits_count [l]
    simp only [List.map_cons, List.map_nil] at this
    simp only [Data.words]
    rw [this.1, this.2]
  | vector l ls => exact row_count (l, ls)
  | matrix r rs =>
    have := rows_count (r :: rs)
    simp only [Data.words]
    simp only [List.count_cons, List.count_append, this]
    simp

theorem words_count : ∀ s : Stmt, s.words.count .lb = s.words.count .rb :=
  Stmt.rec (motive_1 := fun s => s.words.count .lb = s.words.count .rb)
    (motive_2 := fun d => d.words.count .lb = d.words.count .rb)
    (fun n c d => by
      have := data_count d
      have hc : (castWords c).count .lb = 0 ∧ (castWords c).count .rb = 0 := by
        cases c with
        | none => exact ⟨rfl, rfl⟩
        | some t => constructor <;> simp [castWords, List.count_cons]
      rw [Stmt.words]
      simp only [List.count_cons, List.count_append, this, hc.1, hc.2]
      simp)
    (fun n b ih => by
      rw [Stmt.words]
      simp only [List.count_cons, List.count_append, ih]
      simp)
    (fun s ih => by rw [Stmts.words]; exact ih)
    (fun s ss ih1 ih2 => by rw [Stmts.words, List.count_append, List.count_append, ih1, ih2])

theorem nest_prefix {k : Nat} {a b : List Word} (h : Nest k (a ++ b)) : Nest k a :=
  fun p hp => h p (hp.trans (List.prefix_append _ _))

theorem depth_nest : ∀ (d : Stmts) (k : Nat), Nest k d.words → d.depth ≤ k :=
  Stmts.rec (motive_1 := fun s => ∀ k, Nest k s.words → s.depth ≤ k)
    (motive_2 := fun d => ∀ k, Nest k d.words → d.depth ≤ k)
    (fun n c d k _ => by rw [Stmt.depth]; omega)
    (fun n b ih k h => by
      rw [Stmt.words] at h
      obtain ⟨h1, h2⟩ := nest_open h
      have := ih (k - 1) (nest_prefix h2)
      rw [Stmt.depth]; omega)
    (fun s ih k h => by rw [Stmts.words] at h; rw [Stmts.depth]; exact ih k h)
    (fun s ss ih1 ih2 k h => by
      rw [Stmts.words] at h
      have h1 := ih1 k (nest_prefix h)
      have h2 := ih2 k (nest_drop h (words_count s))
      rw [Stmts.depth]; omega)

theorem block_names_of_words : ∀ d : Stmts, (∀ n, [.str n, .eq, .lb] <:+: d.words → simpleName n = true) →
    d.blockNames = true :=
  Stmts.rec (motive_1 := fun s => (∀ n, [.str n, .eq, .lb] <:+: s.words → simpleName n = true) → s.blockNames = true)
    (motive_2 := fun d => (∀ n, [.str n, .eq, .lb] <:+: d.words → simpleName n = true) → d.blockNames = true)
    (fun n c d _ => by rw [Stmt.blockNames])
    (fun n b ih h => by
      rw [Stmt.blockNames, Bool.and_eq_true]
      refine ⟨h n ⟨[], b.words ++ [.rb], by rw [Stmt.words]; rfl⟩, ih fun m hm => h m (hm.trans ?_)⟩
      exact ⟨[.str n, .eq, .lb], [.rb], by rw [Stmt.words]; simp⟩)
    (fun s ih h => by rw [Stmts.blockNames]; exact ih (by rw [Stmts.words] at h; exact h))
    (fun s ss ih1 ih2 h => by
      rw [Stmts.words] at h
      rw [Stmts.blockNames, Bool.and_eq_true]
      exact ⟨ih1 fun m hm => h m (hm.trans (List.prefix_append _ _).isInfix),
        ih2 fun m hm => h m (hm.trans (List.suffix_append _ _).isInfix)⟩)

section
variable {cap : Nat} {c : Cfg B}

/-- The next terminal is there, or the parser is stuck. -/
theorem need (a : Nat) (w : Word → Prop) (syms : List Nat) (ws : List Word) (c : Cfg B) (h0 : 0 < a) (h1 : a < 10)
    (hw : ∀ v, (tok v).ty = a → w v) :
    Stuck stdTables (stdExec conv) cap (at_ (a :: syms) (ws.map tok) c) ∨
    ∃ v ws', ws = v :: ws' ∧ w v ∧
      Runs stdTables (stdExec conv) cap (at_ (a :: syms) (ws.map tok) c) (at_ syms (ws'.map tok) c) := by
  cases ws with
  | nil => exact .inl (stuck_match h0 h1 (by show a ≠ 0; omega))
  | cons v ws =>
    by_cases h : (tok v).ty = a
    · exact .inr ⟨v, ws, rfl, hw v h, run_word v a h h0 h1⟩
    · exact .inl (stuck_match h0 h1 (fun e => h e.symm))

theorem need_word (u : Word) (syms : List Nat) (ws : List Word) (c : Cfg B) (hu : u = .eq ∨ u = .lp ∨ u = .rp ∨ u = .lb ∨ u = .rb) :
    Stuck stdTables (stdExec conv) cap (at_ ((tok u).ty :: syms) (ws.map tok) c) ∨
    ∃ ws', ws = u :: ws' ∧
      Runs stdTables (stdExec conv) cap (at_ ((tok u).ty :: syms) (ws.map tok) c) (at_ syms (ws'.map tok) c) := by
  have h0 : 0 < (tok u).ty ∧ (tok u).ty < 10 := by
    rcases hu with rfl | rfl | rfl | rfl | rfl <;> decide
  rcases need (conv := conv) (cap := cap) (tok u).ty (fun v => v = u) syms ws c h0.1 h0.2 (by
      intro v hv
      rcases hu with rfl | rfl | rfl | rfl | rfl <;> cases v <;> simp_all [tok]) with h | ⟨v, ws', h1, h2, h3⟩
  · exact .inl h
  · exact .inr ⟨ws', by rw [h1, h2], h3⟩

theorem need_str (syms : List Nat) (ws : List Word) (c : Cfg B) :
    Stuck stdTables (stdExec conv) cap (at_ (1 :: syms) (ws.map tok) c) ∨
    ∃ n ws', ws = .str n :: ws' ∧
      Runs stdTables (stdExec conv) cap (at_ (1 :: syms) (ws.map tok) c) (at_ syms (ws'.map tok) c) := by
  rcases need (conv := conv) (cap := cap) 1 (fun v => ∃ n, v = .str n) syms ws c (by decide) (by decide) (by
      intro v hv
      cases v <;> simp_all [tok]) with h | ⟨v, ws', h1, ⟨n, h2⟩, h3⟩
  · exact .inl h
  · exact .inr ⟨n, ws', by rw [h1, h2], h3⟩

/-- A call on the database. -/
theorem done_call (a : Nat) (ha : 23 ≤ a) (syms : List Nat) (ws : List Word) (c : Cfg B) (op : Op (Leaf B))
    (h : stdExec conv (a - 22) ((ws.map tok).headD eof) c = call c op) :
    Stuck stdTables (stdExec conv) cap (at_ (a :: syms) (ws.map tok) c) ∨
    ∃ c', c'.mem = c.mem ∧
      Runs stdTables (stdExec conv) cap (at_ (a :: syms) (ws.map tok) c) (at_ syms (ws.map tok) c') := by
  cases hc : call c op with
  | none => exact .inl (stuck_crash ha (by omega) (h.trans hc))
  | some r =>
    obtain ⟨c', e⟩ := r
    have hm : c'.mem = c.mem := by
      unfold call at hc
      split at hc
      · cases hc
      · cases hc; rfl
    cases e with
    | true => exact .inl (fails_action (u' := c') ha (by omega) (h.trans hc)).stuck
    | false => exact .inr ⟨c', hm, run_action (u' := c') ha (by omega) (h.trans hc)⟩

/-- A statement. -/
def S12 (conv : Conv B) (cap : Nat) (ws : List Word) : Prop :=
  ∀ (k : Nat) (syms : List Nat) (c : Cfg B), Nest k ws → .bar ∉ ws → c.mem = none → syms.length + 2 * k + 11 ≤ cap →
    ws ≠ [] →
    Stuck stdTables (stdExec conv) cap (at_ (12 :: syms) (ws.map tok) c) ∨
    ∃ (s : Stmt) (ws' : List Word), ws = s.words ++ ws' ∧ ∃ c', c'.mem = none ∧
      Runs stdTables (stdExec conv) cap (at_ (12 :: syms) (ws.map tok) c) (at_ syms (ws'.map tok) c')

/-- What may follow a statement in a block, and the closing brace. -/
def S22 (conv : Conv B) (cap : Nat) (ws : List Word) : Prop :=
  ∀ (k : Nat) (syms : List Nat) (c : Cfg B), Nest k ws → .bar ∉ ws → c.mem = none → syms.length + 2 * k + 13 ≤ cap →
    Stuck stdTables (stdExec conv) cap (at_ (22 :: 7 :: syms) (ws.map tok) c) ∨
    ∃ (ss : Option Stmts) (ws' : List Word), ws = (ss.map Stmts.words).getD [] ++ .rb :: ws' ∧ ∃ c', c'.mem = none ∧
      Runs stdTables (stdExec conv) cap (at_ (22 :: 7 :: syms) (ws.map tok) c) (at_ syms (ws'.map tok) c')

theorem stmt_length (s : Stmt) : 2 ≤ s.words.length := by
  obtain ⟨n, ws, h⟩ := stmt_words s
  rw [h]; simp

theorem s22_of {ws : List Word} (h12 : S12 conv cap ws) (h22 : ∀ v : List Word, v.length < ws.length → S22 conv cap v) :
    S22 conv cap ws := by
  intro k syms c hn hb hm room
  cases ws with
  | nil =>
    exact .inl ((eof_drop (syms := 7 :: syms) (by decide) (by decide) (by decide)).stuck (ate_match (by decide) (by decide)))
  | cons w ws =>
    cases w with
    | bar => simp at hb
    | num s => exact .inl (stuck_bad hb (by decide) (by decide) (by show bad 22 8 = true; decide))
    | eq => exact .inl (stuck_bad hb (by decide) (by decide) (by decide))
    | lp => exact .inl (stuck_bad hb (by decide) (by decide) (by decide))
    | rp => exact .inl (stuck_bad hb (by decide) (by decide) (by decide))
    | lb => exact .inl (stuck_bad hb (by decide) (by decide) (by decide))
    | rb =>
      have r1 : Runs stdTables (stdExec conv) cap (at_ (22 :: 7 :: syms) ((Word.rb :: ws).map tok) c)
          (at_ (32 :: 7 :: syms) ((Word.rb :: ws).map tok) c) :=
        run_plain 22 23 [32] 7 rfl (by decide) (by decide) (by decide) (by decide) (by decide) (by decide)
          (by simp; omega)
      rcases done_call (conv := conv) (cap := cap) 32 (by decide) (7 :: syms) (.rb :: ws) c (.moveToAncestor 1) rfl with
        h | ⟨c', hm', h⟩
      · exact .inl (r1.stuck h)
      · exact .inr ⟨none, ws, rfl, c', by rw [hm', hm],
          (r1.trans h).trans (run_word .rb 7 rfl (by decide) (by decide))⟩
    | str s =>
      have r1 : Runs stdTables (stdExec conv) cap (at_ (22 :: 7 :: syms) ((Word.str s :: ws).map tok) c)
          (at_ (12 :: 22 :: 7 :: syms) ((Word.str s :: ws).map tok) c) :=
        run_plain 22 22 [12, 22] 1 rfl (by decide) (by decide) (by decide) (by decide) (by decide) (by decide)
          (by simp; omega)
      rcases h12 k (22 :: 7 :: syms) c hn hb hm (by simp; omega) (by simp) with h | ⟨s1, ws', h1, c1, hm1, h2⟩
      · exact .inl (r1.stuck h)
      · have hl := stmt_length s1
        have hlen := congrArg List.length h1
        rw [List.length_append] at hlen
        rcases h22 ws' (by omega) k syms c1 (by rw [h1] at hn; exact nest_drop hn (words_count s1))
          (by intro e; apply hb; rw [h1]; simp [e]) hm1 room with h | ⟨ss, ws'', h3, c2, hm2, h4⟩
        · exact .inl (r1.stuck (h2.stuck h))
        · cases ss with
          | none =>
            exact .inr ⟨some (.one s1), ws'', by rw [h1, h3]; simp [Stmts.words], c2, hm2, (r1.trans h2).trans h4⟩
          | some ss =>
            exact .inr ⟨some (.more s1 ss), ws'', by rw [h1, h3]; simp [Stmts.words], c2, hm2, (r1.trans h2).trans h4⟩

theorem s12_of {ws : List Word} (h12 : ∀ v : List Word, v.length < ws.length → S12 conv cap v)
    (h22 : ∀ v : List Word, v.length < ws.length → S22 conv cap v) : S12 conv cap ws := by
  intro k syms c hn hb hm room hne
  cases ws with
  | nil => exact absurd rfl hne
  | cons w ws =>
    cases w with
    | bar => simp at hb
    | num s => exact .inl (stuck_bad hb (by decide) (by decide) (by show bad 12 8 = true; decide))
    | eq => exact .inl (stuck_bad hb (by decide) (by decide) (by decide))
    | lp => exact .inl (stuck_bad hb (by decide) (by decide) (by decide))
    | rp => exact .inl (stuck_bad hb (by decide) (by decide) (by decide))
    | lb => exact .inl (stuck_bad hb (by decide) (by decide) (by decide))
    | rb => exact .inl (stuck_bad hb (by decide) (by decide) (by decide))
    | str n =>
      have hb' : .bar ∉ ws := by intro e; apply hb; simp [e]
      obtain ⟨e, h1, h2⟩ := lookup_total (A := 12) (t := 1) (e := 24) (seen_words ws hb') (by decide) (by decide)
      rcases h2 with ⟨h2, _⟩ | ⟨_, h2⟩
      · omega
      have prod : ∀ rhs, 0 < e → production? stdTables e = some (12, rhs) → rhs.length ≤ 10 →
          Runs stdTables (stdExec conv) cap (at_ (12 :: syms) ((Word.str n :: ws).map tok) c)
            (at_ (rhs ++ syms) ((Word.str n :: ws).map tok) c) := fun rhs h0 hp hr =>
        run_prod (ts := (Word.str n :: ws).map tok) (by decide) (by decide) (by decide) h1 h0 hp (by omega)
      have no : (∃ B rhs, production? stdTables e = some (B, rhs) ∧ (e = 0 ∨ B ≠ 12)) →
          Stuck stdTables (stdExec conv) cap (at_ (12 :: syms) ((Word.str n :: ws).map tok) c) := fun hp =>
        (fails_reject (ts := (Word.str n :: ws).map tok) (by decide) (by decide) (by decide) h1 hp (by simp [tok])).stuck
      simp only [ends, List.mem_cons, List.not_mem_nil, or_false] at h2
      rcases h2 with rfl | rfl | rfl | rfl | rfl | rfl | rfl
      · exact .inl (no ⟨3, [], by decide, .inl rfl⟩)
      · -- a value without type
        have r1 := (prod [24, 1, 2, 13, 25] (by decide) (by decide) (by decide)).trans
          ((run_action (u' := { c with nodeName := n }) (by decide) (by decide) rfl).trans
            (run_word (.str n) 1 rfl (by decide) (by decide)))
        rcases need_word (conv := conv) (cap := cap) .eq ([13, 25] ++ syms) ws { c with nodeName := n } (by simp) with
          h | ⟨ws', rfl, h⟩
        · exact .inl (r1.stuck h)
        · have hb2 : .bar ∉ ws' := by intro e; apply hb'; simp [e]
          rcases done_data (conv := conv) (cap := cap) (syms := syms) (c := { c with nodeName := n }) ws' hb2 hm (by omega)
            with h3 | ⟨d, ws'', rfl, c', hm', h3⟩
          · exact .inl (r1.stuck (h.stuck h3))
          · exact .inr ⟨.leaf n none d, ws'', by simp [Stmt.words, castWords], c', hm', (r1.trans h).trans h3⟩
      · -- a value with its type
        have r1 := (prod [24, 1, 2, 3, 26, 1, 4, 13, 25] (by decide) (by decide) (by decide)).trans
          ((run_action (u' := { c with nodeName := n }) (by decide) (by decide) rfl).trans
            (run_word (.str n) 1 rfl (by decide) (by decide)))
        rcases need_word (conv := conv) (cap := cap) .eq ([3, 26, 1, 4, 13, 25] ++ syms) ws { c with nodeName := n }
          (by simp) with h | ⟨ws1, rfl, h⟩
        · exact .inl (r1.stuck h)
        rcases need_word (conv := conv) (cap := cap) .lp ([26, 1, 4, 13, 25] ++ syms) ws1 { c with nodeName := n }
          (by simp) with h' | ⟨ws2, rfl, h'⟩
        · exact .inl (r1.stuck (h.stuck h'))
        have r2 : Runs stdTables (stdExec conv) cap (at_ ([26, 1, 4, 13, 25] ++ syms) (ws2.map tok) { c with nodeName := n })
            (at_ ([1, 4, 13, 25] ++ syms) (ws2.map tok)
              { c with nodeName := n, typeName := ((ws2.map tok).headD eof).data }) :=
          run_action (by decide) (by decide) rfl
        rcases need_str (conv := conv) (cap := cap) ([4, 13, 25] ++ syms) ws2
          { c with nodeName := n, typeName := ((ws2.map tok).headD eof).data } with h3 | ⟨t, ws3, rfl, h3⟩
        · exact .inl (r1.stuck (h.stuck (h'.stuck (r2.stuck h3))))
        rcases need_word (conv := conv) (cap := cap) .rp ([13, 25] ++ syms) ws3
          { c with nodeName := n, typeName := ((((Word.str t :: ws3).map tok).headD eof).data) } (by simp) with
          h4 | ⟨ws4, rfl, h4⟩
        · exact .inl (r1.stuck (h.stuck (h'.stuck (r2.stuck (h3.stuck h4)))))
        have hb2 : .bar ∉ ws4 := by intro e; apply hb'; simp [e]
        rcases done_data (conv := conv) (cap := cap) (syms := syms)
          (c := { c with nodeName := n, typeName := ((((Word.str t :: .rp :: ws4).map tok).headD eof).data) }) ws4 hb2 hm
          (by omega) with h5 | ⟨d, ws'', rfl, c', hm', h5⟩
        · exact .inl (r1.stuck (h.stuck (h'.stuck (r2.stuck (h3.stuck (h4.stuck h5))))))
        · exact .inr ⟨.leaf n (some t) d, ws'', by simp [Stmt.words, castWords], c', hm',
            r1.trans (h.trans (h'.trans (r2.trans (h3.trans (h4.trans h5)))))⟩
      · -- an expression
        have r1 := (prod [24, 1, 2, 3, 27, 1, 5, 14, 4, 25] (by decide) (by decide) (by decide)).trans
          ((run_action (u' := { c with nodeName := n }) (by decide) (by decide) rfl).trans
            (run_word (.str n) 1 rfl (by decide) (by decide)))
        rcases need_word (conv := conv) (cap := cap) .eq ([3, 27, 1, 5, 14, 4, 25] ++ syms) ws { c with nodeName := n }
          (by simp) with h | ⟨ws1, rfl, h⟩
        · exact .inl (r1.stuck h)
        rcases need_word (conv := conv) (cap := cap) .lp ([27, 1, 5, 14, 4, 25] ++ syms) ws1 { c with nodeName := n }
          (by simp) with h' | ⟨ws2, rfl, h'⟩
        · exact .inl (r1.stuck (h.stuck h'))
        refine .inl (r1.stuck (h.stuck (h'.stuck ?_)))
        exact (fails_action (u' := { c with nodeName := n }) (by decide) (by decide) rfl).stuck
      · -- a block
        have r1 := prod [28, 1, 2, 17] (by decide) (by decide) (by decide)
        rcases done_call (conv := conv) (cap := cap) 28 (by decide) ([1, 2, 17] ++ syms) (.str n :: ws) c
          (.createRelative n) rfl with h | ⟨c1, hm1, h⟩
        · exact .inl (r1.stuck h)
        have r2 := (r1.trans h).trans (run_word (.str n) 1 rfl (by decide) (by decide))
        rcases need_word (conv := conv) (cap := cap) .eq ([17] ++ syms) ws c1 (by simp) with h' | ⟨ws1, rfl, h'⟩
        · exact .inl (r2.stuck h')
        have r3 := r2.trans h'
        cases ws1 with
        | nil =>
          have := h1 6 (Nat.le_refl 6)
          exact absurd this (by decide)
        | cons v ws2 =>
          have hb1 : .bar ∉ v :: ws2 := by intro e; apply hb'; exact List.mem_cons_of_mem _ e
          cases v with
          | bar => simp at hb1
          | str s => exact .inl (r3.stuck (stuck_bad hb1 (by decide) (by decide) (by show bad 17 1 = true; decide)))
          | num s => exact .inl (r3.stuck (stuck_bad hb1 (by decide) (by decide) (by show bad 17 8 = true; decide)))
          | eq => exact .inl (r3.stuck (stuck_bad hb1 (by decide) (by decide) (by decide)))
          | lp => exact .inl (r3.stuck (stuck_bad hb1 (by decide) (by decide) (by decide)))
          | rp => exact .inl (r3.stuck (stuck_bad hb1 (by decide) (by decide) (by decide)))
          | rb => exact .inl (r3.stuck (stuck_bad hb1 (by decide) (by decide) (by decide)))
          | lb =>
            obtain ⟨hk, hn2⟩ := nest_open hn
            have hb2 : .bar ∉ ws2 := by intro e; apply hb1; simp [e]
            have r4 : Runs stdTables (stdExec conv) cap (at_ (17 :: syms) ((Word.lb :: ws2).map tok) c1)
                (at_ (12 :: 22 :: 7 :: syms) (ws2.map tok) c1) := by
              refine (run_plain 17 13 [6, 12, 22, 7] 6 rfl (by decide) (by decide) (by decide) (by decide) (by decide)
                (by decide) (by simp; omega)).trans ?_
              exact run_word .lb 6 rfl (by decide) (by decide)
            have r5 := r3.trans r4
            cases ws2 with
            | nil =>
              refine .inl (r5.stuck ((eof_drop (syms := 22 :: 7 :: syms) (by decide) (by decide) (by decide)).stuck ?_))
              exact ate_reject (e := 0) (by decide) (by decide) (by decide) (by decide) ⟨3, [], by decide, by decide⟩
            | cons v ws2 =>
              rcases h12 (v :: ws2) (by simp) (k - 1) (22 :: 7 :: syms) c1 hn2 hb2 (by rw [hm1, hm]) (by simp; omega)
                (by simp) with h6 | ⟨s1, ws3, h6, c2, hm2, h7⟩
              · exact .inl (r5.stuck h6)
              · have hlen := congrArg List.length h6
                rw [List.length_append] at hlen
                simp only [List.length_cons] at hlen
                rcases h22 ws3 (by simp; omega) (k - 1) syms c2
                  (by rw [h6] at hn2; exact nest_drop hn2 (words_count s1))
                  (by intro e; apply hb2; rw [h6]; simp [e]) hm2 (by omega) with h8 | ⟨ss, ws4, h8, c3, hm3, h9⟩
                · exact .inl (r5.stuck (h7.stuck h8))
                · cases ss with
                  | none =>
                    exact .inr ⟨.block n (.one s1), ws4, by rw [h6, h8]; simp [Stmt.words, Stmts.words], c3, hm3,
                      (r5.trans h7).trans h9⟩
                  | some ss =>
                    exact .inr ⟨.block n (.more s1 ss), ws4, by rw [h6, h8]; simp [Stmt.words, Stmts.words], c3, hm3,
                      (r5.trans h7).trans h9⟩
      · exact .inl (no ⟨13, _, rfl, .inr (by decide)⟩)
      · exact .inl (no ⟨13, _, rfl, .inr (by decide)⟩)

theorem s_all (n : Nat) : ∀ ws : List Word, ws.length ≤ n → S12 conv cap ws ∧ S22 conv cap ws := by
  induction n with
  | zero =>
    intro ws h
    have h12 : S12 conv cap ws := s12_of (fun v hv => by omega) (fun v hv => by omega)
    exact ⟨h12, s22_of h12 (fun v hv => by omega)⟩
  | succ n ih =>
    intro ws h
    have h12 : S12 conv cap ws := s12_of (fun v hv => (ih v (by omega)).1) (fun v hv => (ih v (by omega)).2)
    exact ⟨h12, s22_of h12 (fun v hv => (ih v (by omega)).2)⟩

/-- The rest of the text at the top level. -/
theorem s19 (n : Nat) : ∀ (ws : List Word) (k : Nat) (c : Cfg B), ws.length ≤ n → Nest k ws → .bar ∉ ws → c.mem = none →
    2 * k + 13 ≤ cap →
    Stuck stdTables (stdExec conv) cap (at_ [19, 23] (ws.map tok) c) ∨ ws = [] ∨ ∃ d : Stmts, ws = d.words := by
  induction n with
  | zero =>
    intro ws k c hn _ _ _ _
    exact .inr (.inl (List.length_eq_zero_iff.mp (by omega)))
  | succ n ih =>
    intro ws k c hl hn hb hm room
    cases ws with
    | nil => exact .inr (.inl rfl)
    | cons w ws =>
      cases w with
      | bar => simp at hb
      | num s => exact .inl (stuck_bad hb (by decide) (by decide) (by show bad 19 8 = true; decide))
      | eq => exact .inl (stuck_bad hb (by decide) (by decide) (by decide))
      | lp => exact .inl (stuck_bad hb (by decide) (by decide) (by decide))
      | rp => exact .inl (stuck_bad hb (by decide) (by decide) (by decide))
      | lb => exact .inl (stuck_bad hb (by decide) (by decide) (by decide))
      | rb => exact .inl (stuck_bad hb (by decide) (by decide) (by decide))
      | str s =>
        have r1 : Runs stdTables (stdExec conv) cap (at_ [19, 23] ((Word.str s :: ws).map tok) c)
            (at_ [12, 19, 23] ((Word.str s :: ws).map tok) c) :=
          run_plain 19 16 [12, 19] 1 rfl (by decide) (by decide) (by decide) (by decide) (by decide) (by decide)
            (by simp; omega)
        rcases (s_all (conv := conv) (cap := cap) _ _ (Nat.le_refl _)).1 k [19, 23] c hn hb hm (by simp; omega) (by simp) with
          h | ⟨s1, ws', h1, c1, hm1, h2⟩
        · exact .inl (r1.stuck h)
        · have hl1 := stmt_length s1
          have hlen := congrArg List.length h1
          rw [List.length_append] at hlen
          rcases ih ws' k c1 (by omega) (by rw [h1] at hn; exact nest_drop hn (words_count s1))
            (by intro e; apply hb; rw [h1]; simp [e]) hm1 room with h | rfl | ⟨d, rfl⟩
          · exact .inl (r1.stuck (h2.stuck h))
          · exact .inr (.inr ⟨.one s1, by rw [h1]; simp [Stmts.words]⟩)
          · exact .inr (.inr ⟨.more s1 d, by rw [h1, Stmts.words]⟩)
end

/-- Words that are no document are refused, or an action uses a null pointer. -/
theorem refuse {cap : Nat} (ws : List Word) (hb : .bar ∉ ws) (k : Nat) (hn : Nest k ws) (room : 2 * k + 13 ≤ cap)
    (h0 : ws ≠ []) (hd : ∀ d : Stmts, ws ≠ d.words) (s : St (Leaf B)) :
    ∃ N, ∀ fuel, N ≤ fuel → (∃ c, parseStd conv cap fuel s (ws.map tok) = .ok (false, c)) ∨
      parseStd conv cap fuel s (ws.map tok) = .crash := by
  have hb0 : begin stdTables cap (PS.new (Cfg.new s) (ws.map tok)) = at_ [10] (ws.map tok) (Cfg.new s) := by
    unfold begin push
    rw [if_pos (by simp; omega)]
    rfl
  have st : Stuck stdTables (stdExec conv) cap (at_ [10] (ws.map tok) (Cfg.new s)) := by
    cases ws with
    | nil => exact absurd rfl h0
    | cons w ws =>
      cases w with
      | bar => simp at hb
      | num s => exact stuck_bad hb (by decide) (by decide) (by show bad 10 8 = true; decide)
      | eq => exact stuck_bad hb (by decide) (by decide) (by decide)
      | lp => exact stuck_bad hb (by decide) (by decide) (by decide)
      | rp => exact stuck_bad hb (by decide) (by decide) (by decide)
      | lb => exact stuck_bad hb (by decide) (by decide) (by decide)
      | rb => exact stuck_bad hb (by decide) (by decide) (by decide)
      | str n =>
        have r1 : Runs stdTables (stdExec conv) cap (at_ [10] ((Word.str n :: ws).map tok) (Cfg.new s))
            (at_ [12, 19, 23] ((Word.str n :: ws).map tok) (Cfg.new s)) := by
          refine (run_plain 10 1 [11, 23] 1 rfl (by decide) (by decide) (by decide) (by decide) (by decide) (by decide)
            (by simp; omega)).trans ?_
          exact run_plain 11 2 [12, 19] 1 rfl (by decide) (by decide) (by decide) (by decide) (by decide) (by decide)
            (by simp; omega)
        rcases (s_all (conv := conv) (cap := cap) _ _ (Nat.le_refl _)).1 k [19, 23] (Cfg.new s) hn hb rfl
          (by simp; omega) h0 with h | ⟨s1, ws', h1, c1, hm1, h2⟩
        · exact r1.stuck h
        · rcases s19 (conv := conv) (cap := cap) _ ws' k c1 (Nat.le_refl _)
            (by rw [h1] at hn; exact nest_drop hn (words_count s1))
            (by intro e; apply hb; rw [h1]; simp [e]) hm1 room with h | rfl | ⟨d, rfl⟩
          · exact r1.stuck (h2.stuck h)
          · exact absurd (by rw [h1]; simp [Stmts.words]) (hd (.one s1))
          · exact absurd (by rw [h1, Stmts.words]) (hd (.more s1 d))
  obtain ⟨n, hn⟩ := st
  refine ⟨n + 8, fun fuel hf => ?_⟩
  obtain ⟨j, rfl⟩ : ∃ j, fuel = j + 6 + n + 2 := ⟨fuel - n - 8, by omega⟩
  rcases hn (j + 7) (by omega) with ⟨s', h1, h2⟩ | h1
  · left
    have h1' : inner stdTables (stdExec conv) cap (j + 6 + n + 1) (begin stdTables cap (PS.new (Cfg.new s) (ws.map tok))) =
        .ok s' := by
      rw [hb0, ← h1]; congr 1; omega
    obtain ⟨s'', h3, h4⟩ := outer_ok (s := PS.new (Cfg.new s) (ws.map tok)) rfl rfl h1' (.inl h2)
    refine ⟨s''.user, ?_⟩
    unfold parseStd parse
    rw [h3]
    have : s''.isError = true := by rw [h4]; unfold finish; split <;> simp [h2]
    simp [this]
  · right
    have h1' : inner stdTables (stdExec conv) cap (j + 6 + n + 1) (begin stdTables cap (PS.new (Cfg.new s) (ws.map tok))) =
        .crash := by
      rw [hb0, ← h1]; congr 1; omega
    unfold parseStd parse
    have e : outer stdTables (stdExec conv) cap (j + 6 + n + 1 + 1) (PS.new (Cfg.new s) (ws.map tok)) = .crash := by
      rw [outer, if_pos ⟨rfl, rfl⟩, h1']
    rw [e]

end Verif.Config
