import Verif.Model.ParserI
/-! Running the table-driven parser. -/
namespace Verif.Parser

variable {σ : Type} {T : Tables} {exec : Exec σ}

/-- The parser about to process the symbols `syms` on the tokens `ts`. -/
def at_ (syms : List Nat) (ts : List Tok) (u : σ) : PS σ :=
  { symbol := syms.headD 0, stack := syms.tail, token := (ts.headD eof).ty, newToken := (ts.headD eof).ty
    cur := ts.headD eof, rest := ts.tail, user := u, isEOF := false, isError := false }

/-- Some steps of the inner loop lead from `s` to `s'`. -/
def Runs (T : Tables) (exec : Exec σ) (cap : Nat) (s s' : PS σ) : Prop :=
  ∃ n, ∀ m, 6 ≤ m → inner T exec cap (m + n) s = inner T exec cap m s'

/-- The inner loop ends with an error. -/
def Fails (T : Tables) (exec : Exec σ) (cap : Nat) (s : PS σ) : Prop :=
  ∃ n, ∀ m, 6 ≤ m → ∃ s', inner T exec cap (m + n) s = .ok s' ∧ s'.isError = true

theorem Runs.refl (cap : Nat) (s : PS σ) : Runs T exec cap s s := ⟨0, fun _ _ => rfl⟩

theorem Runs.trans {cap : Nat} {a b c : PS σ} (h : Runs T exec cap a b) (h' : Runs T exec cap b c) :
    Runs T exec cap a c := by
  obtain ⟨n, h⟩ := h
  obtain ⟨n', h'⟩ := h'
  refine ⟨n' + n, fun m hm => ?_⟩
  rw [← Nat.add_assoc, h (m + n') (by omega), h' m hm]

theorem Runs.fails {cap : Nat} {a b : PS σ} (h : Runs T exec cap a b) (h' : Fails T exec cap b) :
    Fails T exec cap a := by
  obtain ⟨n, h⟩ := h
  obtain ⟨n', h'⟩ := h'
  refine ⟨n' + n, fun m hm => ?_⟩
  rw [← Nat.add_assoc, h (m + n') (by omega)]
  exact h' m hm

theorem runs_step {cap : Nat} {s s' : PS σ} (h0 : 0 < s.symbol) (h1 : s.isError = false)
    (h : ∀ fuel, 6 ≤ fuel → process T exec cap fuel s = .ok s') : Runs T exec cap s (after T s') := by
  refine ⟨1, fun m hm => ?_⟩
  show inner T exec cap (m + 1) s = _
  simp only [inner, h0, h1, and_self, if_true, h m hm]

theorem fails_error {cap : Nat} {s : PS σ} (h : s.isError = true) : Fails T exec cap s := by
  refine ⟨0, fun m hm => ⟨s, ?_, h⟩⟩
  obtain ⟨k, rfl⟩ : ∃ k, m = k + 1 := ⟨m - 1, by omega⟩
  simp only [inner, h, Bool.true_eq_false, and_false, if_false]

section
variable {cap : Nat} {syms : List Nat} {ts : List Tok} {u u' : σ}

theorem after_same {s : PS σ} (h : s.token = s.newToken) : after T s = pop s := by
  unfold after
  rw [if_neg (by simp [h])]

theorem process_action {s : PS σ} {fuel : Nat} (ha : T.startAction ≤ s.symbol) {e : Bool}
    (h : exec (s.symbol - (T.startAction - 1)) s.cur s.user = some (u', e)) :
    process T exec cap fuel s = .ok { s with user := u', isError := e } := by
  unfold process
  rw [if_pos ha, h]

theorem run_action {a : Nat} (ha : T.startAction ≤ a) (h0 : 0 < a)
    (h : exec (a - (T.startAction - 1)) (ts.headD eof) u = some (u', false)) :
    Runs T exec cap (at_ (a :: syms) ts u) (at_ syms ts u') := by
  have := runs_step (T := T) (exec := exec) (cap := cap) (s := at_ (a :: syms) ts u)
    (s' := at_ (a :: syms) ts u') h0 rfl (by
      intro fuel _
      rw [process_action (s := at_ (a :: syms) ts u) ha h]
      rfl)
  rw [after_same rfl] at this
  exact this

theorem fails_action {a : Nat} (ha : T.startAction ≤ a) (h0 : 0 < a)
    (h : exec (a - (T.startAction - 1)) (ts.headD eof) u = some (u', true)) :
    Fails T exec cap (at_ (a :: syms) ts u) := by
  have := runs_step (T := T) (exec := exec) (cap := cap) (s := at_ (a :: syms) ts u)
    (s' := { at_ (a :: syms) ts u' with isError := true }) h0 rfl (by
      intro fuel _
      rw [process_action (s := at_ (a :: syms) ts u) ha h]
      rfl)
  rw [after_same rfl] at this
  exact this.fails (fails_error rfl)

theorem run_match {t : Tok} (h0 : 0 < t.ty) (h1 : t.ty < T.startSymbol) (h2 : T.startSymbol ≤ T.startAction) :
    Runs T exec cap (at_ (t.ty :: syms) (t :: ts) u) (at_ syms ts u) := by
  have := runs_step (T := T) (exec := exec) (cap := cap) (s := at_ (t.ty :: syms) (t :: ts) u)
    (s' := { next (at_ (t.ty :: syms) (t :: ts) u) with
      token := (ts.headD eof).ty, newToken := (ts.headD eof).ty }) h0 rfl (by
      intro fuel _
      unfold process
      have a1 : ¬ T.startAction ≤ (at_ (t.ty :: syms) (t :: ts) u).symbol := by
        show ¬ T.startAction ≤ t.ty; omega
      have a2 : ¬ T.startSymbol ≤ (at_ (t.ty :: syms) (t :: ts) u).symbol := by
        show ¬ T.startSymbol ≤ t.ty; omega
      have a3 : (at_ (t.ty :: syms) (t :: ts) u).symbol = (at_ (t.ty :: syms) (t :: ts) u).token := rfl
      rw [if_neg a1, if_neg a2, if_pos a3]
      rfl)
  rw [after_same rfl] at this
  exact this

theorem push_all (rhs : List Nat) : ∀ st : List Nat, st.length + rhs.length ≤ cap →
    rhs.foldr (push cap) st = rhs ++ st := by
  induction rhs with
  | nil => intro st _; rfl
  | cons x xs ih =>
    intro st h
    rw [List.length_cons] at h
    rw [List.foldr_cons, ih st (by omega)]
    unfold push
    rw [if_pos (by rw [List.length_append]; omega)]
    rfl

theorem run_prod {A entry : Nat} {rhs : List Nat} (h0 : 0 < A) (hA : T.startSymbol ≤ A) (hA' : A < T.startAction)
    (hl : ∀ fuel, 6 ≤ fuel → lookup T fuel A (ts.headD eof).ty ts.tail = .ok entry) (he : 0 < entry)
    (hp : production? T entry = some (A, rhs)) (room : syms.length + rhs.length ≤ cap) :
    Runs T exec cap (at_ (A :: syms) ts u) (at_ (rhs ++ syms) ts u) := by
  have := runs_step (T := T) (exec := exec) (cap := cap) (s := at_ (A :: syms) ts u)
    (s' := { at_ (A :: syms) ts u with stack := rhs ++ syms }) h0 rfl (by
      intro fuel hf
      unfold process
      have a1 : ¬ T.startAction ≤ (at_ (A :: syms) ts u).symbol := by show ¬ T.startAction ≤ A; omega
      have a2 : T.startSymbol ≤ (at_ (A :: syms) ts u).symbol := hA
      rw [if_neg a1, if_pos a2]
      have : lookup T fuel (at_ (A :: syms) ts u).symbol (at_ (A :: syms) ts u).token
          (at_ (A :: syms) ts u).rest = .ok entry := hl fuel hf
      rw [this]
      simp only [he, if_true, hp]
      rw [if_pos (by rfl)]
      have : rhs.foldr (push cap) (at_ (A :: syms) ts u).stack = rhs ++ syms := push_all rhs syms room
      rw [this])
  rw [after_same rfl] at this
  exact this
end

/-! ## The tables -/

theorem resolve_succ (rest : List Tok) (fuel level entry : Nat) : resolve T rest (fuel + 1) level entry =
    if T.startConflict ≤ entry then
      match conf T entry (peek rest level) with
      | none => .oob
      | some e => resolve T rest fuel (level + 1) e
    else .ok entry := by rfl

theorem resolve_plain {rest : List Tok} {f level e : Nat} (h : e < T.startConflict) (hf : 1 ≤ f) :
    resolve T rest f level e = .ok e := by
  obtain ⟨f, rfl⟩ : ∃ g, f = g + 1 := ⟨f - 1, by omega⟩
  rw [resolve_succ, if_neg (by omega)]

theorem resolve_conf {rest : List Tok} {f level e e' : Nat} (h : T.startConflict ≤ e)
    (hc : conf T e (peek rest level) = some e') :
    resolve T rest (f + 1) level e = resolve T rest f (level + 1) e' := by
  rw [resolve_succ, if_pos h, hc]

/-- The entries met while looking ahead: each is got from the one before and the type of the next token. -/
def Path (T : Tables) (rest : List Tok) : (level entry : Nat) → List Nat → Prop
  | _, entry, [] => entry < T.startConflict
  | level, entry, e :: es =>
    T.startConflict ≤ entry ∧ conf T entry (peek rest level) = some e ∧ Path T rest (level + 1) e es

theorem resolve_path {rest : List Tok} (es : List Nat) : ∀ (f level e : Nat), es.length + 1 ≤ f →
    Path T rest level e es → resolve T rest f level e = .ok ((e :: es).getLast (by simp)) := by
  induction es with
  | nil => intro f level e hf h; exact resolve_plain h hf
  | cons e' es ih =>
    intro f level e hf h
    obtain ⟨h1, h2, h3⟩ := h
    obtain ⟨g, rfl⟩ : ∃ g, f = g + 1 := ⟨f - 1, by simp at hf; omega⟩
    rw [resolve_conf h1 h2, ih g (level + 1) e' (by simp at hf ⊢; omega) h3]
    rfl

theorem lookup_path {A ty e r : Nat} {rest : List Tok} (es : List Nat) (h : entry0 T A ty = some e)
    (hes : es.length ≤ 5) (hp : Path T rest 0 e es) (hr : (e :: es).getLast (by simp) = r) :
    ∀ fuel, 6 ≤ fuel → lookup T fuel A ty rest = .ok r := by
  intro fuel hf
  unfold lookup
  rw [h]
  simp only
  rw [resolve_path es fuel 0 e (by omega) hp, hr]

theorem lookup_plain {A ty e : Nat} {rest : List Tok} (h : entry0 T A ty = some e) (he : e < T.startConflict) :
    ∀ fuel, 6 ≤ fuel → lookup T fuel A ty rest = .ok e :=
  lookup_path [] h (by simp) he rfl

/-! ## The outer loop -/

theorem outer_ok {cap : Nat} {s s' : PS σ} (h1 : s.isError = false) (h2 : s.isEOF = false)
    {m : Nat} (h : inner T exec cap (m + 1) (begin T cap s) = .ok s')
    (h3 : s'.isError = true ∨ s'.isEOF = true) :
    ∃ s'', outer T exec cap (m + 2) s = .ok s'' ∧ s'' = finish T s' := by
  refine ⟨finish T s', ?_, rfl⟩
  show outer T exec cap (m + 1 + 1) s = _
  have e : ∀ f s, outer T exec cap (f + 1) s = if s.isError = false ∧ s.isEOF = false then
      match inner T exec cap f (begin T cap s) with
      | .ok s' => outer T exec cap f (finish T s')
      | .oob => .oob
      | .crash => .crash
      | .more => .more
    else .ok s := fun _ _ => rfl
  rw [e, if_pos ⟨h1, h2⟩, h]
  simp only
  rw [e, if_neg]
  unfold finish
  rcases h3 with h3 | h3 <;> split <;> simp [h3]

end Verif.Parser
