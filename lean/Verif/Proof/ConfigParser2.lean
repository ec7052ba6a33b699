import Verif.Proof.ConfigParser
import Verif.Props.ConfigDb
/-! Running the parser of the standard language on a document. -/
namespace Verif.Config
open Verif.Parser Verif.Spec.ConfigDoc
open Verif.ConfigDb (Op Out St Name)
open Verif.Spec.ConfigDb (Db allowed allAllowed)

variable {B : Type} {conv : Conv B}

/-! ## The database -/

/-- The database `s` was reached from a new one by calls that, according to the specification, lead to the tree `db`. -/
def Hist {V : Type} (s : St V) (db : Db V) : Prop :=
  ∃ ops, allAllowed Spec.ConfigDb.empty ops = true ∧ (ConfigDb.run ConfigDb.init ops).map (·.2) = some s ∧
    (Spec.ConfigDb.run Spec.ConfigDb.empty ops).2 = db

theorem run_append {V : Type} (s : St V) (a b : List (Op V)) : ConfigDb.run s (a ++ b) =
    (ConfigDb.run s a).bind fun r => (ConfigDb.run r.2 b).map fun q => (r.1 ++ q.1, q.2) := by
  induction a generalizing s with
  | nil =>
    simp only [List.nil_append, ConfigDb.run, Option.bind_some]
    cases ConfigDb.run s b <;> rfl
  | cons op a ih =>
    simp only [List.cons_append, ConfigDb.run]
    cases h : ConfigDb.step s op with
    | none => rfl
    | some r =>
      simp only [Option.bind_some, ih]
      cases h2 : ConfigDb.run r.2 a with
      | none => rfl
      | some q =>
        simp only [Option.bind_some, Option.map_some]
        cases ConfigDb.run q.2 b <;> rfl

theorem srun_append {V : Type} (db : Db V) (a b : List (Op V)) :
    Spec.ConfigDb.run db (a ++ b) = ((Spec.ConfigDb.run db a).1 ++ (Spec.ConfigDb.run (Spec.ConfigDb.run db a).2 b).1,
      (Spec.ConfigDb.run (Spec.ConfigDb.run db a).2 b).2) := by
  induction a generalizing db with
  | nil => rfl
  | cons op a ih => simp only [List.cons_append, Spec.ConfigDb.run, ih]

theorem allAllowed_append {V : Type} (db : Db V) (a b : List (Op V)) :
    allAllowed db (a ++ b) = (allAllowed db a && allAllowed (Spec.ConfigDb.run db a).2 b) := by
  induction a generalizing db with
  | nil => rfl
  | cons op a ih => simp only [List.cons_append, allAllowed, ih, Spec.ConfigDb.run, Bool.and_assoc]

theorem hist_init {V : Type} : Hist (ConfigDb.init : St V) Spec.ConfigDb.empty := ⟨[], rfl, rfl, rfl⟩

/-- The calls after a history behave as on the tree. -/
theorem hist_run {V : Type} {s : St V} {db : Db V} (h : Hist s db) (rest : List (Op V))
    (ha : allAllowed db rest = true) :
    ∃ s', ConfigDb.run s rest = some ((Spec.ConfigDb.run db rest).1, s') ∧ Hist s' (Spec.ConfigDb.run db rest).2 := by
  obtain ⟨ops, h1, h2, h3⟩ := h
  have hall : allAllowed Spec.ConfigDb.empty (ops ++ rest) = true := by
    rw [allAllowed_append, h1, h3, ha]; rfl
  have r1 := ConfigDb.c36_refines_tree ops h1
  have r2 := ConfigDb.c36_refines_tree (ops ++ rest) hall
  rw [run_append] at r2
  cases e1 : ConfigDb.run (ConfigDb.init : St V) ops with
  | none => rw [e1] at h2; simp at h2
  | some q =>
    rw [e1] at h2 r2 r1
    simp only [Option.map_some, Option.some.injEq] at h2 r1
    rw [Option.bind_some, h2] at r2
    cases e2 : ConfigDb.run s rest with
    | none => rw [e2] at r2; simp at r2
    | some w =>
      rw [e2, srun_append, h3, r1] at r2
      simp only [Option.map_some, Option.some.injEq, List.append_cancel_left_eq] at r2
      refine ⟨w.2, by rw [← r2], ops ++ rest, hall, ?_, ?_⟩
      · rw [run_append, e1, Option.bind_some, h2, e2]; rfl
      · rw [srun_append, h3]

theorem hist_step {V : Type} {s : St V} {db : Db V} (h : Hist s db) (op : Op V)
    (ha : allowed db op = true) :
    ∃ s', ConfigDb.step s op = some ((Spec.ConfigDb.step db op).1, s') ∧ Hist s' (Spec.ConfigDb.step db op).2 := by
  obtain ⟨s', h1, h2⟩ := hist_run h [op] (by simp [allAllowed, ha])
  refine ⟨s', ?_, h2⟩
  simp only [ConfigDb.run, Spec.ConfigDb.run] at h1
  cases e : ConfigDb.step s op with
  | none => rw [e] at h1; simp at h1
  | some r =>
    rw [e] at h1
    simp only [Option.bind_some, Option.map_some, Option.some.injEq, Prod.mk.injEq, List.cons.injEq, and_true] at h1
    rw [← h1.1, ← h1.2]

/-- A call of the parser on the database. -/
theorem call_spec {c : Cfg B} {db : Db (Leaf B)} (h : Hist c.db db) (op : Op (Leaf B)) (ha : allowed db op = true)
    (hf : ∃ b, (Spec.ConfigDb.step db op).1 = .flag b) :
    match must (Spec.ConfigDb.step db op) with
    | some db' => ∃ s', call c op = some ({ c with db := s' }, false) ∧ Hist s' db'
    | none => ∃ c', call c op = some (c', true) := by
  obtain ⟨s', h1, h2⟩ := hist_step h op ha
  obtain ⟨b, hb⟩ := hf
  unfold must call
  rw [h1, hb]
  cases b with
  | true => exact ⟨s', rfl, h2⟩
  | false => exact ⟨_, rfl⟩

/-! ## Leading from one state to another, or to an error -/

/-- The parser goes from one state to another, with the configuration `o`, or to an error. -/
def Leads (conv : Conv B) (cap : Nat) (syms : List Nat) (ts : List Tok) (c : Cfg B) (syms' : List Nat) (ts' : List Tok)
    (o : Option (Cfg B)) : Prop :=
  match o with
  | some c' => Runs stdTables (stdExec conv) cap (at_ syms ts c) (at_ syms' ts' c')
  | none => Fails stdTables (stdExec conv) cap (at_ syms ts c)

theorem Leads.bind {cap : Nat} {syms syms1 syms2 : List Nat} {ts ts1 ts2 : List Tok} {c : Cfg B} {o : Option (Cfg B)}
    {f : Cfg B → Option (Cfg B)} (h : Leads conv cap syms ts c syms1 ts1 o)
    (h' : ∀ c', o = some c' → Leads conv cap syms1 ts1 c' syms2 ts2 (f c')) :
    Leads conv cap syms ts c syms2 ts2 (o.bind f) := by
  cases o with
  | none => exact h
  | some c' =>
    have h2 := h' c' rfl
    unfold Leads at h h2 ⊢
    simp only [Option.bind_some]
    cases e : f c' with
    | none => rw [e] at h2; exact Runs.fails h h2
    | some c'' => rw [e] at h2; exact Runs.trans h h2

theorem Leads.before {cap : Nat} {syms syms1 syms2 : List Nat} {ts ts1 ts2 : List Tok} {c c1 : Cfg B}
    {o : Option (Cfg B)} (h : Runs stdTables (stdExec conv) cap (at_ syms ts c) (at_ syms1 ts1 c1))
    (h' : Leads conv cap syms1 ts1 c1 syms2 ts2 o) : Leads conv cap syms ts c syms2 ts2 o := by
  unfold Leads at h' ⊢
  cases o with
  | none => exact Runs.fails h h'
  | some c'' => exact Runs.trans h h'

theorem Leads.after {cap : Nat} {syms syms1 syms2 : List Nat} {ts ts1 ts2 : List Tok} {c : Cfg B}
    {o : Option (Cfg B)} (h : Leads conv cap syms ts c syms1 ts1 o)
    (h' : ∀ c', Runs stdTables (stdExec conv) cap (at_ syms1 ts1 c') (at_ syms2 ts2 c')) :
    Leads conv cap syms ts c syms2 ts2 o := by
  unfold Leads at h ⊢
  cases o with
  | none => exact h
  | some c'' => exact Runs.trans h (h' c'')

section
variable {cap : Nat} {syms : List Nat} {ts : List Tok} {c : Cfg B}

theorem run_word (w : Word) (n : Nat) (hn : (tok w).ty = n) (h0 : 0 < n) (h1 : n < 10) :
    Runs stdTables (stdExec conv) cap (at_ (n :: syms) (tok w :: ts) c) (at_ syms ts c) := by
  subst hn
  exact run_match h0 h1 (by decide)

/-- A production chosen by the current token alone. -/
theorem run_plain (A entry : Nat) (rhs : List Nat) (t : Nat) (ht : (ts.headD eof).ty = t)
    (h : entry0 stdTables A t = some entry) (hp : production? stdTables entry = some (A, rhs)) (hA : 10 ≤ A)
    (hA' : A < 23) (he : 0 < entry) (he' : entry < 24) (room : syms.length + rhs.length ≤ cap) :
    Runs stdTables (stdExec conv) cap (at_ (A :: syms) ts c) (at_ (rhs ++ syms) ts c) :=
  run_prod (by omega) hA hA' (by rw [ht]; exact lookup_plain h he') he hp room

/-- A production chosen by looking ahead. -/
theorem run_ahead (A entry : Nat) (rhs : List Nat) (t e : Nat) (es : List Nat) (ht : (ts.headD eof).ty = t)
    (h : entry0 stdTables A t = some e) (hp : production? stdTables entry = some (A, rhs)) (hA : 10 ≤ A)
    (hA' : A < 23) (hes : es.length ≤ 5) (hpath : Path stdTables ts.tail 0 e es)
    (hr : (e :: es).getLast (by simp) = entry) (he : 0 < entry) (room : syms.length + rhs.length ≤ cap) :
    Runs stdTables (stdExec conv) cap (at_ (A :: syms) ts c) (at_ (rhs ++ syms) ts c) :=
  run_prod (by omega) hA hA' (by rw [ht]; exact lookup_path es h hes hpath hr) he hp room

/-- An action that may fail. -/
theorem leads_action {a : Nat} (ha : 23 ≤ a) {r : Cfg B × Bool}
    (h : stdExec conv (a - 22) (ts.headD eof) c = some r) :
    Leads conv cap (a :: syms) ts c syms ts (if r.2 then none else some r.1) := by
  obtain ⟨c', e⟩ := r
  cases e with
  | true => exact fails_action (u' := c') ha (by omega) h
  | false => exact run_action (u' := c') ha (by omega) h

theorem leads_lit (l : Lit) (room : syms.length + 2 ≤ cap) :
    Leads conv cap (14 :: syms) (tok l.word :: ts) c syms ts (addAll conv c [l]) := by
  have hk : (tok l.word).ty = 1 ∨ (tok l.word).ty = 8 := by
    rw [tok_lit]; unfold kind; cases l.isNum <;> simp
  refine Leads.before (syms1 := 29 :: 18 :: syms) (ts1 := tok l.word :: ts) (c1 := c) ?_ ?_
  · rcases hk with hk | hk
    · exact run_plain 14 10 [29, 18] 1 hk (by decide) (by decide) (by decide) (by decide) (by decide) (by decide) room
    · exact run_plain 14 10 [29, 18] 8 hk (by decide) (by decide) (by decide) (by decide) (by decide) (by decide) room
  have h1 : Leads conv cap (29 :: 18 :: syms) (tok l.word :: ts) c (18 :: syms) (tok l.word :: ts)
      (if (addScalar conv c (tok l.word)).2 then none else some (addScalar conv c (tok l.word)).1) :=
    leads_action (by decide) rfl
  refine h1.after fun c' => ?_
  rcases hk with hk | hk
  · refine (run_plain (ts := tok l.word :: ts) 18 14 [1] 1 hk (by decide) (by decide) (by decide) (by decide) (by decide) (by decide)
      (by simp; omega)).trans ?_
    exact run_word l.word 1 hk (by decide) (by decide)
  · refine (run_plain (ts := tok l.word :: ts) 18 15 [8] 8 hk (by decide) (by decide) (by decide) (by decide) (by decide) (by decide)
      (by simp; omega)).trans ?_
    exact run_word l.word 8 hk (by decide) (by decide)

theorem addAll_cons (c : Cfg B) (l : Lit) (ls : List Lit) :
    addAll conv c (l :: ls) = (addAll conv c [l]).bind fun c' => addAll conv c' ls := by
  simp only [addAll]
  split <;> rfl

theorem leads_lits (ls : List Lit) : ∀ (c : Cfg B), syms.length + 3 ≤ cap →
    Leads conv cap (20 :: syms) (ls.map (fun l => tok l.word) ++ tok .rb :: ts) c (30 :: syms) (tok .rb :: ts)
      (addAll conv c ls) := by
  induction ls with
  | nil =>
    intro c room
    exact run_plain 20 19 [30] 7 rfl (by decide) (by decide) (by decide) (by decide) (by decide) (by decide)
      (by simp; omega)
  | cons l ls ih =>
    intro c room
    have hk : (tok l.word).ty = 1 ∨ (tok l.word).ty = 8 := by
      rw [tok_lit]; unfold kind; cases l.isNum <;> simp
    refine Leads.before (syms1 := 14 :: 20 :: syms) (ts1 := (l :: ls).map (fun l => tok l.word) ++ tok .rb :: ts)
      (c1 := c) ?_ ?_
    · rcases hk with hk | hk
      · exact run_plain 20 18 [14, 20] 1 hk (by decide) (by decide) (by decide) (by decide) (by decide) (by decide)
          (by simp; omega)
      · exact run_plain 20 18 [14, 20] 8 hk (by decide) (by decide) (by decide) (by decide) (by decide) (by decide)
          (by simp; omega)
    rw [addAll_cons]
    exact (leads_lit l (by simp; omega)).bind fun c' _ => ih c' room

theorem leads_row (r : Lit × List Lit) (room : syms.length + 5 ≤ cap) :
    Leads conv cap (15 :: syms) ((rowWords r).map tok ++ ts) c syms ts (rowRun conv c r) := by
  have ew : (rowWords r).map tok ++ ts =
      tok .lb :: tok r.1.word :: (r.2.map (fun l => tok l.word) ++ tok .rb :: ts) := by
    simp [rowWords, rowLits, Function.comp_def]
  rw [ew]
  refine Leads.before (syms1 := 14 :: 20 :: 7 :: syms) (c1 := c)
    (ts1 := tok r.1.word :: (r.2.map (fun l => tok l.word) ++ tok .rb :: ts)) ?_ ?_
  · refine (run_plain 15 11 [6, 14, 20, 7] 6 rfl (by decide) (by decide) (by decide) (by decide) (by decide) (by decide)
      (by simp; omega)).trans ?_
    exact run_word .lb 6 rfl (by decide) (by decide)
  have h1 : Leads conv cap (14 :: 20 :: 7 :: syms) (tok r.1.word :: (r.2.map (fun l => tok l.word) ++ tok .rb :: ts)) c
      (30 :: 7 :: syms) (tok .rb :: ts) (addAll conv c (rowLits r)) := by
    unfold rowLits
    rw [addAll_cons]
    exact (leads_lit r.1 (by simp; omega)).bind fun c' _ => leads_lits r.2 c' (by simp; omega)
  refine h1.bind fun c' _ => ?_
  have h2 : Leads conv cap (30 :: 7 :: syms) (tok .rb :: ts) c' (7 :: syms) (tok .rb :: ts)
      (if (endVector c').2 then none else some (endVector c').1) := leads_action (by decide) rfl
  exact h2.after fun c'' => run_word .rb 7 rfl (by decide) (by decide)

theorem leads_rows (rs : List (Lit × List Lit)) : ∀ (c : Cfg B), syms.length + 6 ≤ cap →
    Leads conv cap (21 :: syms) ((rs.flatMap rowWords).map tok ++ tok .rb :: ts) c (31 :: syms) (tok .rb :: ts)
      (rowsRun conv c rs) := by
  induction rs with
  | nil =>
    intro c room
    exact run_plain 21 21 [31] 7 rfl (by decide) (by decide) (by decide) (by decide) (by decide) (by decide)
      (by simp; omega)
  | cons r rs ih =>
    intro c room
    have ew : ((r :: rs).flatMap rowWords).map tok ++ tok .rb :: ts =
        (rowWords r).map tok ++ ((rs.flatMap rowWords).map tok ++ tok .rb :: ts) := by simp
    rw [ew]
    refine Leads.before (syms1 := 15 :: 21 :: syms)
      (ts1 := (rowWords r).map tok ++ ((rs.flatMap rowWords).map tok ++ tok .rb :: ts)) (c1 := c) ?_ ?_
    · exact run_plain 21 20 [15, 21] 6 rfl (by decide) (by decide) (by decide) (by decide) (by decide) (by decide)
          (by simp; omega)
    rw [rowsRun]
    exact (leads_row r (by simp; omega)).bind fun c' _ => ih c' room

theorem leads_data (d : Data) (room : syms.length + 8 ≤ cap) :
    Leads conv cap (13 :: syms) (d.words.map tok ++ ts) c syms ts (dataRun conv c d) := by
  cases d with
  | scalar l =>
    have hk : (tok l.word).ty = 1 ∨ (tok l.word).ty = 8 := by
      rw [tok_lit]; unfold kind; cases l.isNum <;> simp
    refine Leads.before (syms1 := 14 :: syms) (ts1 := tok l.word :: ts) (c1 := c) ?_ (leads_lit l (by omega))
    rcases hk with hk | hk
    · exact run_plain 13 7 [14] 1 hk (by decide) (by decide) (by decide) (by decide) (by decide) (by decide)
        (by simp; omega)
    · exact run_plain 13 7 [14] 8 hk (by decide) (by decide) (by decide) (by decide) (by decide) (by decide)
        (by simp; omega)
  | vector l ls =>
    have hk : (tok l.word).ty = 1 ∨ (tok l.word).ty = 8 := by
      rw [tok_lit]; unfold kind; cases l.isNum <;> simp
    refine Leads.before (syms1 := 15 :: syms) (ts1 := (rowWords (l, ls)).map tok ++ ts) (c1 := c) ?_
      (leads_row _ (by omega))
    refine run_ahead 13 8 [15] 6 25 [8] rfl (by decide) (by decide) (by decide) (by decide) (by decide) ?_ rfl
      (by decide) (by simp; omega)
    refine ⟨by decide, ?_, by show 8 < 24; decide⟩
    show conf stdTables 25 (tok l.word).ty = _
    rcases hk with hk | hk <;> rw [hk] <;> decide
  | matrix r rs =>
    have ew : (Data.matrix r rs).words.map tok ++ ts =
        tok .lb :: ((rowWords r).map tok ++ ((rs.flatMap rowWords).map tok ++ tok .rb :: ts)) := by
      simp [Data.words]
    rw [ew]
    refine Leads.before (syms1 := 15 :: 21 :: 7 :: syms) (c1 := c)
      (ts1 := (rowWords r).map tok ++ ((rs.flatMap rowWords).map tok ++ tok .rb :: ts)) ?_ ?_
    · refine (run_ahead 13 9 [16] 6 25 [9] rfl (by decide) (by decide) (by decide) (by decide) (by decide) ?_ rfl
        (by decide) (by simp; omega)).trans ?_
      · exact ⟨by decide, by show conf stdTables 25 6 = _; decide, by show 9 < 24; decide⟩
      refine (run_plain 16 12 [6, 15, 21, 7] 6 rfl (by decide) (by decide) (by decide) (by decide) (by decide) (by decide)
        (by simp; omega)).trans ?_
      exact run_word .lb 6 rfl (by decide) (by decide)
    have h1 : Leads conv cap (15 :: 21 :: 7 :: syms)
        ((rowWords r).map tok ++ ((rs.flatMap rowWords).map tok ++ tok .rb :: ts)) c (31 :: 7 :: syms) (tok .rb :: ts)
        (rowsRun conv c (r :: rs)) := by
      rw [rowsRun]
      exact (leads_row r (by simp; omega)).bind fun c' _ => leads_rows rs c' (by simp; omega)
    have e : dataRun conv c (.matrix r rs) = (rowsRun conv c (r :: rs)).bind fun c' => some (endMatrix c') := by
      show Option.map _ _ = _
      cases rowsRun conv c (r :: rs) <;> rfl
    rw [e]
    refine h1.bind fun c' _ => ?_
    show Runs _ _ _ _ _
    refine (run_action (u' := endMatrix c') (by decide) (by decide) rfl).trans ?_
    exact run_word .rb 7 rfl (by decide) (by decide)

end

/-! ## Statements -/

/-- Nothing has been gathered. -/
def Idle (c : Cfg B) : Prop := c = mk c 0 [] 0 0 0 0 ∧ c.typeName = "string".toList

theorem idle_new (s : St (Leaf B)) : Idle (Cfg.new s) := ⟨rfl, rfl⟩

theorem idle_reset (c : Cfg B) : Idle (reset c) := ⟨rfl, rfl⟩

theorem idle_db {c : Cfg B} (h : Idle c) (s : St (Leaf B)) : Idle { c with db := s } := by
  obtain ⟨h1, h2⟩ := h
  refine ⟨?_, h2⟩
  have : ({ c with db := s } : Cfg B) = { mk c 0 [] 0 0 0 0 with db := s } := by rw [← h1]
  rw [this]
  rfl

/-- The statements lead to the tree they are meant to lead to, or to an error. -/
def Good (conv : Conv B) (cap : Nat) (syms : List Nat) (ts : List Tok) (c : Cfg B) (syms' : List Nat) (ts' : List Tok)
    (o : Option (Db (Leaf B))) : Prop :=
  match o with
  | some db' => ∃ c', Runs stdTables (stdExec conv) cap (at_ syms ts c) (at_ syms' ts' c') ∧ Idle c' ∧ Hist c'.db db'
  | none => Fails stdTables (stdExec conv) cap (at_ syms ts c)

theorem Good.bind {cap : Nat} {syms syms1 syms2 : List Nat} {ts ts1 ts2 : List Tok} {c : Cfg B}
    {o : Option (Db (Leaf B))} {f : Db (Leaf B) → Option (Db (Leaf B))} (h : Good conv cap syms ts c syms1 ts1 o)
    (h' : ∀ c' db', Idle c' → Hist c'.db db' → Good conv cap syms1 ts1 c' syms2 ts2 (f db')) :
    Good conv cap syms ts c syms2 ts2 (o.bind f) := by
  cases o with
  | none => exact h
  | some db' =>
    obtain ⟨c', h1, h2, h3⟩ := h
    have h4 := h' c' db' h2 h3
    simp only [Option.bind_some]
    unfold Good at h4 ⊢
    cases e : f db' with
    | none => rw [e] at h4; exact Runs.fails h1 h4
    | some db'' =>
      rw [e] at h4
      obtain ⟨c'', h5, h6⟩ := h4
      exact ⟨c'', Runs.trans h1 h5, h6⟩

theorem Good.before {cap : Nat} {syms syms1 syms2 : List Nat} {ts ts1 ts2 : List Tok} {c c1 : Cfg B}
    {o : Option (Db (Leaf B))} (h : Runs stdTables (stdExec conv) cap (at_ syms ts c) (at_ syms1 ts1 c1))
    (h' : Good conv cap syms1 ts1 c1 syms2 ts2 o) : Good conv cap syms ts c syms2 ts2 o := by
  unfold Good at h' ⊢
  cases o with
  | none => exact Runs.fails h h'
  | some db' =>
    obtain ⟨c', h1, h2⟩ := h'
    exact ⟨c', Runs.trans h h1, h2⟩

theorem Good.after {cap : Nat} {syms syms1 syms2 : List Nat} {ts ts1 ts2 : List Tok} {c : Cfg B}
    {o : Option (Db (Leaf B))} (h : Good conv cap syms ts c syms1 ts1 o)
    (h' : ∀ c', Runs stdTables (stdExec conv) cap (at_ syms1 ts1 c') (at_ syms2 ts2 c')) :
    Good conv cap syms ts c syms2 ts2 o := by
  unfold Good at h ⊢
  cases o with
  | none => exact h
  | some db' =>
    obtain ⟨c', h1, h2⟩ := h
    exact ⟨c', Runs.trans h1 (h' c'), h2⟩

section
variable {cap : Nat} {syms : List Nat} {ts : List Tok} {c : Cfg B} {db : Db (Leaf B)}

/-- The value and the action that stores it. -/
theorem good_value (n : Name) (cast : Option (List Char)) (d : Data) (hd : Hist c.db db)
    (hi : c = mk c 0 [] 0 0 0 0) (ht : c.typeName = cast.getD "string".toList) (hn : c.nodeName = n)
    (room : syms.length + 9 ≤ cap) :
    Good conv cap (13 :: 25 :: syms) (d.words.map tok ++ ts) c syms ts ((Stmt.leaf n cast d).apply conv db) := by
  have hv := data_value (conv := conv) c cast ht d
  have hl := leads_data (conv := conv) (cap := cap) (syms := 25 :: syms) (ts := ts) (c := c) d (by simp; omega)
  rw [← hi] at hv
  rw [Stmt.apply]
  cases e : d.value conv cast with
  | none =>
    rw [e] at hv
    simp only at hv
    rw [hv] at hl
    exact hl
  | some v =>
    rw [e] at hv
    simp only at hv
    obtain ⟨c', h1, h2, h3, h4⟩ := hv
    rw [h1] at hl
    simp only [Option.bind_some]
    refine Good.before hl ?_
    have hcall := call_spec (c := c') (db := db) (by rw [h2]; exact hd) (.write n v) rfl (by
      simp only [Spec.ConfigDb.step]; split <;> exact ⟨_, rfl⟩)
    have hex : ∀ c'' e, call c' (.write n v) = some (c'', e) → addLeaf c' = some (reset c'', e) := by
      intro c'' e hc
      unfold addLeaf
      simp only
      rw [h4]
      simp only
      rw [h3, hn, hc]
    cases e2 : must (Spec.ConfigDb.step db (.write n v)) with
    | none =>
      rw [e2] at hcall
      obtain ⟨c'', hc⟩ := hcall
      exact fails_action (u' := reset c'') (by decide) (by decide) (hex _ _ hc)
    | some db' =>
      rw [e2] at hcall
      obtain ⟨s', hc, hh⟩ := hcall
      exact ⟨reset { c' with db := s' }, run_action (by decide) (by decide) (hex _ _ hc), idle_reset _, hh⟩

theorem lit_ty (l : Lit) : (tok l.word).ty = 1 ∨ (tok l.word).ty = 8 := by
  rw [tok_lit]; unfold kind; cases l.isNum <;> simp

theorem good_leaf (n : Name) (cast : Option (List Char)) (d : Data) (hi : Idle c) (hd : Hist c.db db)
    (room : syms.length + 10 ≤ cap) :
    Good conv cap (12 :: syms) ((Stmt.leaf n cast d).words.map tok ++ ts) c syms ts
      ((Stmt.leaf n cast d).apply conv db) := by
  cases cast with
  | some t =>
    have ew : (Stmt.leaf n (some t) d).words.map tok ++ ts =
        tok (.str n) :: tok .eq :: tok .lp :: tok (.str t) :: tok .rp :: (d.words.map tok ++ ts) := by
      simp [Stmt.words, castWords]
    rw [ew]
    refine Good.before (syms1 := 13 :: 25 :: syms) (ts1 := d.words.map tok ++ ts)
      (c1 := { c with nodeName := n, typeName := t }) ?_ ?_
    · refine (run_ahead 12 4 [24, 1, 2, 3, 26, 1, 4, 13, 25] 1 24 [26, 27, 29, 4] rfl (by decide) (by decide) (by decide)
        (by decide) (by decide) ?_ rfl (by decide) (by simp; omega)).trans ?_
      · exact ⟨by decide, by show conf stdTables 24 2 = _; decide, by decide, by show conf stdTables 26 3 = _; decide,
          by decide, by show conf stdTables 27 1 = _; decide, by decide, by show conf stdTables 29 4 = _; decide,
          by show 4 < 24; decide⟩
      refine (run_action (u' := { c with nodeName := n }) (by decide) (by decide) rfl).trans ?_
      refine (run_word (.str n) 1 rfl (by decide) (by decide)).trans ?_
      refine (run_word .eq 2 rfl (by decide) (by decide)).trans ?_
      refine (run_word .lp 3 rfl (by decide) (by decide)).trans ?_
      refine (run_action (u' := { c with nodeName := n, typeName := t }) (by decide) (by decide) rfl).trans ?_
      refine (run_word (.str t) 1 rfl (by decide) (by decide)).trans ?_
      exact run_word .rp 4 rfl (by decide) (by decide)
    · refine good_value n (some t) d hd ?_ rfl rfl (by omega)
      have : ({ c with nodeName := n, typeName := t } : Cfg B) = { mk c 0 [] 0 0 0 0 with nodeName := n, typeName := t } := by
        rw [← hi.1]
      rw [this]
      rfl
  | none =>
    have ew : (Stmt.leaf n none d).words.map tok ++ ts =
        tok (.str n) :: tok .eq :: (d.words.map tok ++ ts) := by
      simp [Stmt.words, castWords]
    rw [ew]
    refine Good.before (syms1 := 13 :: 25 :: syms) (ts1 := d.words.map tok ++ ts)
      (c1 := { c with nodeName := n }) ?_ ?_
    · have key : ∃ es : List Nat, es.length ≤ 5 ∧ ((24 :: es).getLast (by simp)) = 3 ∧
          Path stdTables (tok .eq :: (d.words.map tok ++ ts)) 0 24 es := by
        cases d with
        | scalar l =>
          refine ⟨[26, 3], by decide, rfl, by decide, by show conf stdTables 24 2 = _; decide, by decide, ?_,
            by show 3 < 24; decide⟩
          show conf stdTables 26 (tok l.word).ty = _
          rcases lit_ty l with h | h <;> rw [h] <;> decide
        | vector l ls =>
          rcases lit_ty l with h | h
          · refine ⟨[26, 28, 30, 3], by decide, rfl, by decide, by show conf stdTables 24 2 = _; decide, by decide,
              by show conf stdTables 26 6 = _; decide, by decide, ?_, by decide, ?_, by show 3 < 24; decide⟩
            · show conf stdTables 28 (tok l.word).ty = _
              rw [h]; decide
            · cases ls with
              | nil => show conf stdTables 30 7 = _; decide
              | cons m ms =>
                show conf stdTables 30 (tok m.word).ty = _
                rcases lit_ty m with h | h <;> rw [h] <;> decide
          · refine ⟨[26, 28, 3], by decide, rfl, by decide, by show conf stdTables 24 2 = _; decide, by decide,
              by show conf stdTables 26 6 = _; decide, by decide, ?_, by show 3 < 24; decide⟩
            show conf stdTables 28 (tok l.word).ty = _
            rw [h]; decide
        | matrix r rs =>
          exact ⟨[26, 28, 3], by decide, rfl, by decide, by show conf stdTables 24 2 = _; decide, by decide,
              by show conf stdTables 26 6 = _; decide, by decide, by show conf stdTables 28 6 = _; decide,
              by show 3 < 24; decide⟩
      obtain ⟨es, hes, hlast, hpath⟩ := key
      refine (run_ahead (ts := tok (.str n) :: tok .eq :: (d.words.map tok ++ ts)) 12 3 [24, 1, 2, 13, 25] 1 24 es rfl (by decide) (by decide) (by decide)
        (by decide) hes hpath hlast (by decide) (by simp; omega)).trans ?_
      refine (run_action (u' := { c with nodeName := n }) (by decide) (by decide) rfl).trans ?_
      refine (run_word (.str n) 1 rfl (by decide) (by decide)).trans ?_
      exact run_word .eq 2 rfl (by decide) (by decide)
    · refine good_value n none d hd ?_ hi.2 rfl (by omega)
      have : ({ c with nodeName := n } : Cfg B) = { mk c 0 [] 0 0 0 0 with nodeName := n } := by
        rw [← hi.1]
      rw [this]
      rfl

/-- Creating a node with a simple name is within the calls covered by C36. -/
theorem create_allowed (n : Name) (h : simpleName n = true) :
    allowed db (.createRelative n) = true := by
  have hs : ∀ m : Name, m.contains '.' = false → Spec.ConfigDb.splitDots m = [m] := by
    intro m hm
    induction m with
    | nil => rfl
    | cons x m ih =>
      rw [List.contains_cons, Bool.or_eq_false_iff] at hm
      rw [Spec.ConfigDb.splitDots, if_neg (by intro h; simp [h] at hm), ih hm.2]
  unfold simpleName at h
  simp only [Bool.and_eq_true, Bool.not_eq_true', decide_eq_true_eq] at h
  obtain ⟨⟨h1, h2⟩, h3⟩ := h
  have hsp := hs n h3
  simp only [allowed, Spec.ConfigDb.pathOk, h1, h2, decide_true, Bool.not_false, Bool.and_true, Bool.true_and,
    Bool.and_eq_true, Bool.or_eq_true, Bool.not_eq_true']
  constructor
  · rw [hsp]
    by_cases hn : n = []
    · left; simp [hn]
    · right; simp [hn]
  · unfold Spec.ConfigDb.names Spec.ConfigDb.throughLeaf
    split
    · rfl
    · rw [hsp]; rfl

theorem create_flag (n : Name) : ∃ b, (Spec.ConfigDb.step db (.createRelative n)).1 = .flag b := by
  simp only [Spec.ConfigDb.step, Spec.ConfigDb.create]
  split <;> exact ⟨_, rfl⟩

theorem ancestor_flag (k : Nat) : ∃ b, (Spec.ConfigDb.step db (.moveToAncestor k)).1 = .flag b := by
  simp only [Spec.ConfigDb.step]
  split <;> exact ⟨_, rfl⟩
end

mutual
/-- How statements begin. -/
theorem stmt_words (s : Stmt) : ∃ n ws, s.words = .str n :: .eq :: ws := by
  cases s with
  | leaf n c d => exact ⟨_, _, by rw [Stmt.words]⟩
  | block n b => exact ⟨_, _, by rw [Stmt.words]⟩
theorem stmts_words (ss : Stmts) : ∃ n ws, ss.words = .str n :: .eq :: ws := by
  match ss with
  | .one s => rw [Stmts.words]; exact stmt_words s
  | .more s ss =>
    obtain ⟨n, ws, h⟩ := stmt_words s
    rw [Stmts.words, h]
    exact ⟨n, _, rfl⟩
end

mutual
theorem good_stmt {cap : Nat} (s : Stmt) : ∀ (syms : List Nat) (ts : List Tok) (c : Cfg B) (db : Db (Leaf B)),
    s.blockNames = true → Idle c → Hist c.db db → syms.length + 2 * s.depth + 10 ≤ cap →
    Good conv cap (12 :: syms) (s.words.map tok ++ ts) c syms ts (s.apply conv db) := by
  intro syms ts c db hb hi hd room
  match s with
  | .leaf n cast d => exact good_leaf n cast d hi hd (by omega)
  | .block n b =>
    rw [Stmt.depth] at room
    rw [Stmt.blockNames, Bool.and_eq_true] at hb
    obtain ⟨m, ws, hw⟩ := stmts_words b
    have ew : (Stmt.block n b).words.map tok ++ ts =
        tok (.str n) :: tok .eq :: tok .lb :: (b.words.map tok ++ tok .rb :: ts) := by
      simp [Stmt.words]
    rw [ew, Stmt.apply]
    refine Good.before (syms1 := [28, 1, 2, 17] ++ syms)
      (ts1 := tok (.str n) :: tok .eq :: tok .lb :: (b.words.map tok ++ tok .rb :: ts)) (c1 := c) ?_ ?_
    · refine run_ahead 12 6 [28, 1, 2, 17] 1 24 [26, 28, 30, 6] rfl (by decide) (by decide) (by decide)
        (by decide) (by decide) ?_ rfl (by decide) (by simp; omega)
      rw [hw]
      exact ⟨by decide, by show conf stdTables 24 2 = _; decide, by decide, by show conf stdTables 26 6 = _; decide,
          by decide, by show conf stdTables 28 1 = _; decide, by decide, by show conf stdTables 30 2 = _; decide,
          by show 6 < 24; decide⟩
    have h1 : Good conv cap ([28, 1, 2, 17] ++ syms)
        (tok (.str n) :: tok .eq :: tok .lb :: (b.words.map tok ++ tok .rb :: ts)) c ([1, 2, 17] ++ syms)
        (tok (.str n) :: tok .eq :: tok .lb :: (b.words.map tok ++ tok .rb :: ts))
        (must (Spec.ConfigDb.step db (.createRelative n))) := by
      have hc := call_spec hd (.createRelative n) (create_allowed n hb.1) (create_flag n)
      cases e : must (Spec.ConfigDb.step db (.createRelative n)) with
      | none =>
        rw [e] at hc
        obtain ⟨c', hc⟩ := hc
        exact fails_action (u' := c') (by decide) (by decide) hc
      | some db' =>
        rw [e] at hc
        obtain ⟨s', hc, hh⟩ := hc
        exact ⟨{ c with db := s' }, run_action (by decide) (by decide) hc, idle_db hi s', hh⟩
    refine h1.bind fun c1 db1 hi1 hd1 => ?_
    refine Good.before (syms1 := 12 :: 22 :: 7 :: syms) (ts1 := b.words.map tok ++ tok .rb :: ts) (c1 := c1) ?_ ?_
    · refine (run_word (.str n) 1 rfl (by decide) (by decide)).trans ?_
      refine (run_word .eq 2 rfl (by decide) (by decide)).trans ?_
      refine (run_plain 17 13 [6, 12, 22, 7] 6 rfl (by decide) (by decide) (by decide) (by decide) (by decide) (by decide)
        (by simp; omega)).trans ?_
      exact run_word .lb 6 rfl (by decide) (by decide)
    have h2 := good_stmts (cap := cap) b 22 22 (7 :: syms) (tok .rb :: ts) c1 db1 (by decide) (by decide) (by decide)
      (by decide) hb.2 hi1 hd1 (by simp; omega)
    refine h2.bind fun c2 db2 hi2 hd2 => ?_
    refine Good.before (syms1 := 32 :: 7 :: syms) (ts1 := tok .rb :: ts) (c1 := c2) ?_ ?_
    · exact run_plain 22 23 [32] 7 rfl (by decide) (by decide) (by decide) (by decide) (by decide) (by decide)
        (by simp; omega)
    have h3 : Good conv cap (32 :: 7 :: syms) (tok .rb :: ts) c2 (7 :: syms) (tok .rb :: ts)
        (must (Spec.ConfigDb.step db2 (.moveToAncestor 1))) := by
      have hc := call_spec hd2 (.moveToAncestor 1) rfl (ancestor_flag 1)
      cases e : must (Spec.ConfigDb.step db2 (.moveToAncestor 1)) with
      | none =>
        rw [e] at hc
        obtain ⟨c', hc⟩ := hc
        exact fails_action (u' := c') (by decide) (by decide) hc
      | some db' =>
        rw [e] at hc
        obtain ⟨s', hc, hh⟩ := hc
        exact ⟨{ c2 with db := s' }, run_action (by decide) (by decide) hc, idle_db hi2 s', hh⟩
    exact h3.after fun c' => run_word .rb 7 rfl (by decide) (by decide)

/-- Statements followed by the symbol `X` that goes on with more of them. -/
theorem good_stmts {cap : Nat} (ss : Stmts) : ∀ (X entry : Nat) (syms : List Nat) (ts : List Tok) (c : Cfg B)
    (db : Db (Leaf B)), entry0 stdTables X 1 = some entry → production? stdTables entry = some (X, [12, X]) →
    10 ≤ X ∧ X < 23 → 0 < entry ∧ entry < 24 →
    ss.blockNames = true → Idle c → Hist c.db db → syms.length + 2 * ss.depth + 11 ≤ cap →
    Good conv cap (12 :: X :: syms) (ss.words.map tok ++ ts) c (X :: syms) ts (ss.apply conv db) := by
  intro X entry syms ts c db h1 h2 h3 h4 hb hi hd room
  match ss with
  | .one s =>
    rw [Stmts.words, Stmts.apply]
    rw [Stmts.depth] at room
    rw [Stmts.blockNames] at hb
    exact good_stmt s (X :: syms) ts c db hb hi hd (by simp; omega)
  | .more s ss =>
    rw [Stmts.words, Stmts.apply, List.map_append, List.append_assoc]
    rw [Stmts.depth] at room
    rw [Stmts.blockNames, Bool.and_eq_true] at hb
    have g := good_stmt (cap := cap) s (X :: syms) (ss.words.map tok ++ ts) c db hb.1 hi hd (by simp; omega)
    refine g.bind fun c1 db1 hi1 hd1 => ?_
    have g2 := good_stmts (cap := cap) ss X entry syms ts c1 db1 h1 h2 h3 h4 hb.2 hi1 hd1 (by omega)
    refine Good.before ?_ g2
    obtain ⟨m, ws, hw⟩ := stmts_words ss
    rw [hw]
    exact run_plain X entry [12, X] 1 rfl h1 h2 h3.1 h3.2 h4.1 h4.2 (by simp; omega)
end

theorem end_std {cap m : Nat} (c : Cfg B) (s' : St (Leaf B)) (db : Db (Leaf B)) (hd : Hist c.db db)
    (hs : ConfigDb.step c.db .moveToRoot = some (.flag true, s')) :
    inner stdTables (stdExec conv) cap (m + 6) (at_ [19, 23] [] c) =
      .ok { at_ [] [] { c with db := s' } with token := 9, newToken := 9, isEOF := true } := by
  have e : endAll c = some ({ c with db := s' }, false) := by
    unfold endAll call
    rw [hs]
    rfl
  have h1 : inner stdTables (stdExec conv) cap (m + 6) (at_ [19, 23] [] c) =
      inner stdTables (stdExec conv) cap (m + 5) { at_ [23] [] c with token := 9, newToken := 9, isEOF := true } := rfl
  have h2 : process stdTables (stdExec conv) cap (m + 4)
      { at_ [23] [] c with token := 9, newToken := 9, isEOF := true } =
      .ok { at_ [23] [] { c with db := s' } with token := 9, newToken := 9, isEOF := true } :=
    process_action (by show 23 ≤ 23; decide) e
  rw [h1]
  show inner stdTables (stdExec conv) cap (m + 4 + 1) _ = _
  rw [inner, if_pos ⟨by show 0 < 23; decide, rfl⟩, h2]
  rfl

/-- The whole text. -/
theorem parse_doc {cap : Nat} (d : Stmts) (s : St (Leaf B)) (db : Db (Leaf B)) (hb : d.blockNames = true)
    (hd : Hist s db) (room : 2 * d.depth + 12 ≤ cap) :
    ∃ N, ∀ fuel, N ≤ fuel → ∃ c, match d.apply conv db with
      | some db' => parseStd conv cap fuel s (d.words.map tok) = .ok (true, c) ∧
          Hist c.db (Spec.ConfigDb.step db' .moveToRoot).2
      | none => parseStd conv cap fuel s (d.words.map tok) = .ok (false, c) := by
  obtain ⟨m, ws, hw⟩ := stmts_words d
  have hb0 : begin stdTables cap (PS.new (Cfg.new s) (d.words.map tok)) = at_ [10] (d.words.map tok) (Cfg.new s) := by
    unfold begin push
    rw [if_pos (by simp; omega)]
    rfl
  have start : Runs stdTables (stdExec conv) cap (at_ [10] (d.words.map tok) (Cfg.new s))
      (at_ [12, 19, 23] (d.words.map tok) (Cfg.new s)) := by
    rw [hw]
    refine (run_plain 10 1 [11, 23] 1 rfl (by decide) (by decide) (by decide) (by decide) (by decide) (by decide)
        (by simp; omega)).trans ?_
    exact run_plain 11 2 [12, 19] 1 rfl (by decide) (by decide) (by decide) (by decide) (by decide) (by decide)
        (by simp; omega)
  have g := good_stmts (conv := conv) (cap := cap) d 19 16 [23] [] (Cfg.new s) db (by decide) (by decide) (by decide)
    (by decide) hb (idle_new s) hd (by simp; omega)
  rw [List.append_nil] at g
  cases e : d.apply conv db with
  | none =>
    rw [e] at g
    obtain ⟨n, hn⟩ := start.fails g
    refine ⟨n + 8, fun fuel hf => ?_⟩
    obtain ⟨k, rfl⟩ : ∃ k, fuel = k + 6 + n + 2 := ⟨fuel - n - 8, by omega⟩
    obtain ⟨s', h1, h2⟩ := hn (k + 7) (by omega)
    have h1' : inner stdTables (stdExec conv) cap (k + 6 + n + 1) (begin stdTables cap (PS.new (Cfg.new s) (d.words.map tok))) =
        .ok s' := by
      rw [hb0, ← h1]; congr 1; omega
    obtain ⟨s'', h3, h4⟩ := outer_ok (s := PS.new (Cfg.new s) (d.words.map tok)) rfl rfl h1' (.inl h2)
    refine ⟨s''.user, ?_⟩
    simp only
    unfold parseStd parse
    rw [h3]
    have : s''.isError = true := by rw [h4]; unfold finish; split <;> simp [h2]
    simp [this]
  | some db' =>
    rw [e] at g
    obtain ⟨c', g1, g2, g3⟩ := g
    obtain ⟨n, hn⟩ := start.trans g1
    obtain ⟨s', hs, hh⟩ := hist_step g3 .moveToRoot rfl
    refine ⟨n + 8, fun fuel hf => ⟨{ c' with db := s' }, ?_, hh⟩⟩
    obtain ⟨k, rfl⟩ : ∃ k, fuel = k + 6 + n + 2 := ⟨fuel - n - 8, by omega⟩
    have h1 := hn (k + 7) (by omega)
    rw [show k + 7 = k + 1 + 6 from by omega, end_std c' s' db' g3 hs] at h1
    have h1' : inner stdTables (stdExec conv) cap (k + 6 + n + 1) (begin stdTables cap (PS.new (Cfg.new s) (d.words.map tok))) =
        .ok { at_ [] [] { c' with db := s' } with token := 9, newToken := 9, isEOF := true } := by
      rw [hb0, ← h1]; congr 1; omega
    obtain ⟨s'', h3, h4⟩ := outer_ok (s := PS.new (Cfg.new s) (d.words.map tok)) rfl rfl h1' (.inr rfl)
    unfold parseStd parse
    rw [h3, h4]
    rfl

end Verif.Config
