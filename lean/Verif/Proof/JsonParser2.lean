import Verif.Proof.JsonParser
/-! Running the parser of the JSON language on a document: the values. -/
set_option linter.unusedSimpArgs false
set_option maxRecDepth 8000
namespace Verif.Json
open Verif.Parser Verif.Config Verif.Spec.ConfigDoc Verif.Spec.JsonDoc
open Verif.ConfigDb (Op Out St Name)
open Verif.Spec.ConfigDb (Db Item allowed allAllowed)

variable {B : Type} {conv : Conv B}

/-- The parser goes from one state to another, with the configuration `o`, or to an error. -/
def Leads (conv : Conv B) (cap : Nat) (syms : List Nat) (ts : List Tok) (c : Cfg B) (v : St Nat) (syms' : List Nat)
    (ts' : List Tok) (o : Option (Cfg B)) : Prop :=
  match o with
  | some c' => Runs jsonTables (jsonExec conv) cap (at_ syms ts ⟨c, v⟩) (at_ syms' ts' ⟨c', v⟩)
  | none => Fails jsonTables (jsonExec conv) cap (at_ syms ts ⟨c, v⟩)

section
variable {cap : Nat} {syms syms1 syms2 : List Nat} {ts ts1 ts2 : List Tok} {c c1 : Cfg B} {v : St Nat}
  {o : Option (Cfg B)}

theorem Leads.bind {f : Cfg B → Option (Cfg B)} (h : Leads conv cap syms ts c v syms1 ts1 o)
    (h' : ∀ c', o = some c' → Leads conv cap syms1 ts1 c' v syms2 ts2 (f c')) :
    Leads conv cap syms ts c v syms2 ts2 (o.bind f) := by
  cases o with
  | none => exact h
  | some c' =>
    have h2 := h' c' rfl
    unfold Leads at h h2 ⊢
    simp only [Option.bind_some]
    cases e : f c' with
    | none => rw [e] at h2; exact Runs.fails h h2
    | some c'' => rw [e] at h2; exact Runs.trans h h2

theorem Leads.before (h : Runs jsonTables (jsonExec conv) cap (at_ syms ts ⟨c, v⟩) (at_ syms1 ts1 ⟨c1, v⟩))
    (h' : Leads conv cap syms1 ts1 c1 v syms2 ts2 o) : Leads conv cap syms ts c v syms2 ts2 o := by
  unfold Leads at h' ⊢
  cases o with
  | none => exact Runs.fails h h'
  | some c'' => exact Runs.trans h h'

theorem Leads.after (h : Leads conv cap syms ts c v syms1 ts1 o)
    (h' : ∀ c', Runs jsonTables (jsonExec conv) cap (at_ syms1 ts1 ⟨c', v⟩) (at_ syms2 ts2 ⟨c', v⟩)) :
    Leads conv cap syms ts c v syms2 ts2 o := by
  unfold Leads at h ⊢
  cases o with
  | none => exact h
  | some c'' => exact Runs.trans h (h' c'')
end

section
variable {cap : Nat} {syms : List Nat} {ts : List Tok} {c : Cfg B} {v : St Nat} {u : JCfg B}

theorem run_word (w : JWord) (n : Nat) (hn : (jtok w).ty = n) (h0 : 0 < n) (h1 : n < 11) :
    Runs jsonTables (jsonExec conv) cap (at_ (n :: syms) (jtok w :: ts) u) (at_ syms ts u) := by
  subst hn
  exact run_match h0 h1 (by decide)

/-- A production chosen by the current token alone. -/
theorem run_plain (A entry : Nat) (rhs : List Nat) (t : Nat) (ht : (ts.headD eof).ty = t)
    (h : entry0 jsonTables A t = some entry) (hp : production? jsonTables entry = some (A, rhs)) (hA : 11 ≤ A)
    (hA' : A < 29) (he : 0 < entry) (he' : entry < 32) (room : syms.length + rhs.length ≤ cap) :
    Runs jsonTables (jsonExec conv) cap (at_ (A :: syms) ts u) (at_ (rhs ++ syms) ts u) :=
  run_prod (by omega) hA hA' (by rw [ht]; exact lookup_plain h he') he hp room

/-- A production chosen by looking ahead. -/
theorem run_ahead (A entry : Nat) (rhs : List Nat) (t e : Nat) (es : List Nat) (ht : (ts.headD eof).ty = t)
    (h : entry0 jsonTables A t = some e) (hp : production? jsonTables entry = some (A, rhs)) (hA : 11 ≤ A)
    (hA' : A < 29) (hes : es.length ≤ 5) (hpath : Path jsonTables ts.tail 0 e es)
    (hr : (e :: es).getLast (by simp) = entry) (he : 0 < entry) (room : syms.length + rhs.length ≤ cap) :
    Runs jsonTables (jsonExec conv) cap (at_ (A :: syms) ts u) (at_ (rhs ++ syms) ts u) :=
  run_prod (by omega) hA hA' (by rw [ht]; exact lookup_path es h hes hpath hr) he hp room

/-- An action that may fail. -/
theorem leads_action {a : Nat} (ha : 29 ≤ a) {r : Cfg B × Bool}
    (h : jsonExec conv (a - 28) (ts.headD eof) ⟨c, v⟩ = some (⟨r.1, v⟩, r.2)) :
    Leads conv cap (a :: syms) ts c v syms ts (if r.2 then none else some r.1) := by
  obtain ⟨c', e⟩ := r
  cases e with
  | true => exact fails_action (u' := JCfg.mk c' v) ha (by omega) h
  | false => exact run_action (u' := JCfg.mk c' v) ha (by omega) h

theorem lit_ty (l : Lit) : (jtok (litWord l)).ty = 1 ∨ (jtok (litWord l)).ty = 9 := by
  unfold litWord; cases l.isNum <;> simp [jtok]

theorem ident_lit (l : Lit) : ident (jtok (litWord l)) = tok l.word := by
  unfold litWord Lit.word; cases l.isNum <;> rfl

theorem leads_lit (l : Lit) (room : syms.length + 2 ≤ cap) :
    Leads conv cap (15 :: syms) (jtok (litWord l) :: ts) c v syms ts (addAll conv c [l]) := by
  have hk := lit_ty l
  refine Leads.before (syms1 := 35 :: 22 :: syms) (ts1 := jtok (litWord l) :: ts) (c1 := c) ?_ ?_
  · rcases hk with hk | hk
    · exact run_plain 15 11 [35, 22] 1 hk (by decide) (by decide) (by decide) (by decide) (by decide) (by decide) room
    · exact run_plain 15 11 [35, 22] 9 hk (by decide) (by decide) (by decide) (by decide) (by decide) (by decide) room
  have h1 : Leads conv cap (35 :: 22 :: syms) (jtok (litWord l) :: ts) c v (22 :: syms) (jtok (litWord l) :: ts)
      (if (addScalar conv c (tok l.word)).2 then none else some (addScalar conv c (tok l.word)).1) :=
    leads_action (by decide) (by
      show onCfg _ (some (addScalar conv c (ident (jtok (litWord l))))) = _
      rw [ident_lit]; rfl)
  refine h1.after fun c' => ?_
  rcases hk with hk | hk
  · refine (run_plain (ts := jtok (litWord l) :: ts) 22 18 [1] 1 hk (by decide) (by decide) (by decide) (by decide) (by decide) (by decide)
      (by simp; omega)).trans ?_
    exact run_word (litWord l) 1 hk (by decide) (by decide)
  · refine (run_plain (ts := jtok (litWord l) :: ts) 22 19 [9] 9 hk (by decide) (by decide) (by decide) (by decide) (by decide) (by decide)
      (by simp; omega)).trans ?_
    exact run_word (litWord l) 9 hk (by decide) (by decide)

theorem leads_lits (ls : List Lit) : ∀ (c : Cfg B), syms.length + 3 ≤ cap →
    Leads conv cap (25 :: syms) (ls.map (fun l => jtok (litWord l)) ++ jtok .rbk :: ts) c v (37 :: syms) (jtok .rbk :: ts)
      (addAll conv c ls) := by
  induction ls with
  | nil =>
    intro c room
    exact run_plain 25 25 [37] 6 rfl (by decide) (by decide) (by decide) (by decide) (by decide) (by decide)
      (by simp; omega)
  | cons l ls ih =>
    intro c room
    have hk := lit_ty l
    refine Leads.before (syms1 := 15 :: 25 :: syms) (ts1 := (l :: ls).map (fun l => jtok (litWord l)) ++ jtok .rbk :: ts)
      (c1 := c) ?_ ?_
    · rcases hk with hk | hk
      · exact run_plain 25 24 [15, 25] 1 hk (by decide) (by decide) (by decide) (by decide) (by decide) (by decide)
          (by simp; omega)
      · exact run_plain 25 24 [15, 25] 9 hk (by decide) (by decide) (by decide) (by decide) (by decide) (by decide)
          (by simp; omega)
    rw [addAll_cons]
    exact (leads_lit l (by simp; omega)).bind fun c' _ => ih c' room

theorem leads_row (r : Lit × List Lit) (room : syms.length + 5 ≤ cap) :
    Leads conv cap (17 :: syms) ((rowJ r).map jtok ++ ts) c v syms ts (rowRun conv c r) := by
  have ew : (rowJ r).map jtok ++ ts =
      jtok .lbk :: jtok (litWord r.1) :: (r.2.map (fun l => jtok (litWord l)) ++ jtok .rbk :: ts) := by
    simp [rowJ, Function.comp_def]
  rw [ew]
  refine Leads.before (syms1 := 15 :: 25 :: 6 :: syms) (c1 := c)
    (ts1 := jtok (litWord r.1) :: (r.2.map (fun l => jtok (litWord l)) ++ jtok .rbk :: ts)) ?_ ?_
  · refine (run_plain 17 13 [5, 15, 25, 6] 5 rfl (by decide) (by decide) (by decide) (by decide) (by decide) (by decide)
      (by simp; omega)).trans ?_
    exact run_word .lbk 5 rfl (by decide) (by decide)
  have h1 : Leads conv cap (15 :: 25 :: 6 :: syms)
      (jtok (litWord r.1) :: (r.2.map (fun l => jtok (litWord l)) ++ jtok .rbk :: ts)) c v
      (37 :: 6 :: syms) (jtok .rbk :: ts) (addAll conv c (rowLits r)) := by
    unfold rowLits
    rw [addAll_cons]
    exact (leads_lit r.1 (by simp; omega)).bind fun c' _ => leads_lits r.2 c' (by simp; omega)
  refine h1.bind fun c' _ => ?_
  have h2 : Leads conv cap (37 :: 6 :: syms) (jtok .rbk :: ts) c' v (6 :: syms) (jtok .rbk :: ts)
      (if (endVector c').2 then none else some (endVector c').1) := leads_action (by decide) rfl
  exact h2.after fun c'' => run_word .rbk 6 rfl (by decide) (by decide)

theorem leads_rows (rs : List (Lit × List Lit)) : ∀ (c : Cfg B), syms.length + 6 ≤ cap →
    Leads conv cap (26 :: syms) ((rs.flatMap rowJ).map jtok ++ jtok .rbk :: ts) c v (38 :: syms) (jtok .rbk :: ts)
      (rowsRun conv c rs) := by
  induction rs with
  | nil =>
    intro c room
    exact run_plain 26 27 [38] 6 rfl (by decide) (by decide) (by decide) (by decide) (by decide) (by decide)
      (by simp; omega)
  | cons r rs ih =>
    intro c room
    have ew : ((r :: rs).flatMap rowJ).map jtok ++ jtok .rbk :: ts =
        (rowJ r).map jtok ++ ((rs.flatMap rowJ).map jtok ++ jtok .rbk :: ts) := by simp
    rw [ew]
    refine Leads.before (syms1 := 17 :: 26 :: syms)
      (ts1 := (rowJ r).map jtok ++ ((rs.flatMap rowJ).map jtok ++ jtok .rbk :: ts)) (c1 := c) ?_ ?_
    · exact run_plain 26 26 [17, 26] 5 rfl (by decide) (by decide) (by decide) (by decide) (by decide) (by decide)
          (by simp; omega)
    rw [rowsRun]
    exact (leads_row r (by simp; omega)).bind fun c' _ => ih c' room

theorem leads_data (d : Data) (room : syms.length + 8 ≤ cap) :
    Leads conv cap (14 :: syms) ((dataJ d).map jtok ++ ts) c v syms ts (dataRun conv c d) := by
  cases d with
  | scalar l =>
    have hk := lit_ty l
    refine Leads.before (syms1 := 15 :: syms) (ts1 := jtok (litWord l) :: ts) (c1 := c) ?_ (leads_lit l (by omega))
    rcases hk with hk | hk
    · exact run_plain 14 8 [15] 1 hk (by decide) (by decide) (by decide) (by decide) (by decide) (by decide)
        (by simp; omega)
    · exact run_plain 14 8 [15] 9 hk (by decide) (by decide) (by decide) (by decide) (by decide) (by decide)
        (by simp; omega)
  | vector l ls =>
    have hk := lit_ty l
    refine Leads.before (syms1 := 17 :: syms) (ts1 := (rowJ (l, ls)).map jtok ++ ts) (c1 := c) ?_
      (leads_row _ (by omega))
    refine run_ahead 14 9 [17] 5 33 [9] rfl (by decide) (by decide) (by decide) (by decide) (by decide) ?_ rfl
      (by decide) (by simp; omega)
    refine ⟨by decide, ?_, by show 9 < 32; decide⟩
    show conf jsonTables 33 (jtok (litWord l)).ty = _
    rcases hk with hk | hk <;> rw [hk] <;> decide
  | matrix r rs =>
    have ew : (dataJ (Data.matrix r rs)).map jtok ++ ts =
        jtok .lbk :: ((rowJ r).map jtok ++ ((rs.flatMap rowJ).map jtok ++ jtok .rbk :: ts)) := by
      simp [dataJ]
    rw [ew]
    refine Leads.before (syms1 := 17 :: 26 :: 6 :: syms) (c1 := c)
      (ts1 := (rowJ r).map jtok ++ ((rs.flatMap rowJ).map jtok ++ jtok .rbk :: ts)) ?_ ?_
    · refine (run_ahead 14 10 [18] 5 33 [10] rfl (by decide) (by decide) (by decide) (by decide) (by decide) ?_ rfl
        (by decide) (by simp; omega)).trans ?_
      · exact ⟨by decide, by show conf jsonTables 33 5 = _; decide, by show 10 < 32; decide⟩
      refine (run_plain 18 14 [5, 17, 26, 6] 5 rfl (by decide) (by decide) (by decide) (by decide) (by decide) (by decide)
        (by simp; omega)).trans ?_
      exact run_word .lbk 5 rfl (by decide) (by decide)
    have h1 : Leads conv cap (17 :: 26 :: 6 :: syms)
        ((rowJ r).map jtok ++ ((rs.flatMap rowJ).map jtok ++ jtok .rbk :: ts)) c v (38 :: 6 :: syms) (jtok .rbk :: ts)
        (rowsRun conv c (r :: rs)) := by
      rw [rowsRun]
      exact (leads_row r (by simp; omega)).bind fun c' _ => leads_rows rs c' (by simp; omega)
    have e : dataRun conv c (.matrix r rs) = (rowsRun conv c (r :: rs)).bind fun c' => some (endMatrix c') := by
      show Option.map _ _ = _
      cases rowsRun conv c (r :: rs) <;> rfl
    rw [e]
    refine h1.bind fun c' _ => ?_
    show Runs _ _ _ _ _
    refine (run_action (u' := ⟨endMatrix c', v⟩) (by decide) (by decide) rfl).trans ?_
    exact run_word .rbk 6 rfl (by decide) (by decide)

end

/-! ## Statements -/

/-- The statements lead to the tree they are meant to lead to, with the counters `w`, or to an error. -/
def Good (conv : Conv B) (cap : Nat) (syms : List Nat) (ts : List Tok) (u : JCfg B) (syms' : List Nat) (ts' : List Tok)
    (w : Db Nat) (o : Option (Db (Leaf B))) : Prop :=
  match o with
  | some db' => ∃ u', Runs jsonTables (jsonExec conv) cap (at_ syms ts u) (at_ syms' ts' u') ∧ Idle u'.cfg ∧
      Hist u'.cfg.db db' ∧ Hist u'.vec w
  | none => Fails jsonTables (jsonExec conv) cap (at_ syms ts u)

section
variable {cap : Nat} {syms syms1 syms2 : List Nat} {ts ts1 ts2 : List Tok} {u u1 : JCfg B} {w w2 : Db Nat}
  {o : Option (Db (Leaf B))}

theorem Good.bind {f : Db (Leaf B) → Option (Db (Leaf B))} (h : Good conv cap syms ts u syms1 ts1 w o)
    (h' : ∀ u' db', Idle u'.cfg → Hist u'.cfg.db db' → Hist u'.vec w → Good conv cap syms1 ts1 u' syms2 ts2 w2 (f db')) :
    Good conv cap syms ts u syms2 ts2 w2 (o.bind f) := by
  cases o with
  | none => exact h
  | some db' =>
    obtain ⟨u', h1, h2, h3, h3'⟩ := h
    have h4 := h' u' db' h2 h3 h3'
    simp only [Option.bind_some]
    unfold Good at h4 ⊢
    cases e : f db' with
    | none => rw [e] at h4; exact Runs.fails h1 h4
    | some db'' =>
      rw [e] at h4
      obtain ⟨u'', h5, h6⟩ := h4
      exact ⟨u'', Runs.trans h1 h5, h6⟩

theorem Good.before (h : Runs jsonTables (jsonExec conv) cap (at_ syms ts u) (at_ syms1 ts1 u1))
    (h' : Good conv cap syms1 ts1 u1 syms2 ts2 w o) : Good conv cap syms ts u syms2 ts2 w o := by
  unfold Good at h' ⊢
  cases o with
  | none => exact Runs.fails h h'
  | some db' =>
    obtain ⟨u', h1, h2⟩ := h'
    exact ⟨u', Runs.trans h h1, h2⟩

theorem Good.after (h : Good conv cap syms ts u syms1 ts1 w o)
    (h' : ∀ u', Runs jsonTables (jsonExec conv) cap (at_ syms1 ts1 u') (at_ syms2 ts2 u')) :
    Good conv cap syms ts u syms2 ts2 w o := by
  unfold Good at h ⊢
  cases o with
  | none => exact h
  | some db' =>
    obtain ⟨u', h1, h2⟩ := h
    exact ⟨u', Runs.trans h1 (h' u'), h2⟩
end

section
variable {cap : Nat} {syms : List Nat} {ts : List Tok} {c : Cfg B} {v : St Nat} {db : Db (Leaf B)} {w : Db Nat}

/-- The value and the action that stores it. -/
theorem good_value (n : Name) (cast : Option (List Char)) (d : Data) (hd : Hist c.db db) (hw : Hist v w)
    (hi : c = mk c 0 [] 0 0 0 0) (ht : c.typeName = cast.getD "string".toList) (hn : c.nodeName = n)
    (room : syms.length + 9 ≤ cap) :
    Good conv cap (14 :: 31 :: syms) ((dataJ d).map jtok ++ ts) ⟨c, v⟩ syms ts w ((Stmt.leaf n cast d).apply conv db) := by
  have hv := data_value (conv := conv) c cast ht d
  have hl := leads_data (conv := conv) (cap := cap) (syms := 31 :: syms) (ts := ts) (c := c) (v := v) d (by simp; omega)
  rw [← hi] at hv
  rw [Stmt.apply]
  cases e : d.value conv cast with
  | none =>
    rw [e] at hv
    simp only at hv
    rw [hv] at hl
    exact hl
  | some x =>
    rw [e] at hv
    simp only at hv
    obtain ⟨c', h1, h2, h3, h4⟩ := hv
    rw [h1] at hl
    simp only [Option.bind_some]
    refine Good.before hl ?_
    have hcall := call_spec (c := c') (db := db) (by rw [h2]; exact hd) (.write n x) rfl (by
      simp only [Spec.ConfigDb.step]; split <;> exact ⟨_, rfl⟩)
    have hex : ∀ c'' e, call c' (.write n x) = some (c'', e) →
        jsonExec conv 3 (ts.headD eof) ⟨c', v⟩ = some (⟨reset c'', v⟩, e) := by
      intro c'' e hc
      show onCfg _ (addLeaf c') = _
      unfold addLeaf
      simp only
      rw [h4]
      simp only
      rw [h3, hn, hc]
      rfl
    cases e2 : must (Spec.ConfigDb.step db (.write n x)) with
    | none =>
      rw [e2] at hcall
      obtain ⟨c'', hc⟩ := hcall
      exact fails_action (u' := JCfg.mk (reset c'') v) (by decide) (by decide) (hex _ _ hc)
    | some db' =>
      rw [e2] at hcall
      obtain ⟨s', hc, hh⟩ := hcall
      exact ⟨⟨reset { c' with db := s' }, v⟩, run_action (by decide) (by decide) (hex _ _ hc), idle_reset _, hh, hw⟩

theorem good_leaf (n : Name) (cast : Option (List Char)) (d : Data) (hi : Idle c) (hd : Hist c.db db) (hw : Hist v w)
    (room : syms.length + 10 ≤ cap) :
    Good conv cap (13 :: syms) ((JStmt.leaf n cast d).words.map jtok ++ ts) ⟨c, v⟩ syms ts w
      ((Stmt.leaf n cast d).apply conv db) := by
  cases cast with
  | some t =>
    have ew : (JStmt.leaf n (some t) d).words.map jtok ++ ts =
        jtok (.str n) :: jtok .colon :: jtok .lp :: jtok (.str t) :: jtok .rp :: ((dataJ d).map jtok ++ ts) := by
      simp [JStmt.words, castJ]
    rw [ew]
    refine Good.before (syms1 := 14 :: 31 :: syms) (ts1 := (dataJ d).map jtok ++ ts)
      (u1 := ⟨{ c with nodeName := n, typeName := t }, v⟩) ?_ ?_
    · refine (run_ahead 13 4 [30, 1, 2, 3, 32, 1, 4, 14, 31] 1 32 [34, 4] rfl (by decide) (by decide) (by decide)
        (by decide) (by decide) ?_ rfl (by decide) (by simp; omega)).trans ?_
      · exact ⟨by decide, by show conf jsonTables 32 2 = _; decide, by decide, by show conf jsonTables 34 3 = _; decide,
          by show 4 < 32; decide⟩
      refine (run_action (u' := ⟨{ c with nodeName := n }, v⟩) (by decide) (by decide) rfl).trans ?_
      refine (run_word (.str n) 1 rfl (by decide) (by decide)).trans ?_
      refine (run_word .colon 2 rfl (by decide) (by decide)).trans ?_
      refine (run_word .lp 3 rfl (by decide) (by decide)).trans ?_
      refine (run_action (u' := ⟨{ c with nodeName := n, typeName := t }, v⟩) (by decide) (by decide) rfl).trans ?_
      refine (run_word (.str t) 1 rfl (by decide) (by decide)).trans ?_
      exact run_word .rp 4 rfl (by decide) (by decide)
    · refine good_value n (some t) d hd hw ?_ rfl rfl (by omega)
      have : ({ c with nodeName := n, typeName := t } : Cfg B) = { mk c 0 [] 0 0 0 0 with nodeName := n, typeName := t } := by
        rw [← hi.1]
      rw [this]
      rfl
  | none =>
    have ew : (JStmt.leaf n none d).words.map jtok ++ ts =
        jtok (.str n) :: jtok .colon :: ((dataJ d).map jtok ++ ts) := by
      simp [JStmt.words, castJ]
    rw [ew]
    refine Good.before (syms1 := 14 :: 31 :: syms) (ts1 := (dataJ d).map jtok ++ ts)
      (u1 := ⟨{ c with nodeName := n }, v⟩) ?_ ?_
    · have key : ∃ es : List Nat, es.length ≤ 5 ∧ ((32 :: es).getLast (by simp)) = 3 ∧
          Path jsonTables (jtok .colon :: ((dataJ d).map jtok ++ ts)) 0 32 es := by
        cases d with
        | scalar l =>
          refine ⟨[34, 3], by decide, rfl, by decide, by show conf jsonTables 32 2 = _; decide, by decide, ?_,
            by show 3 < 32; decide⟩
          show conf jsonTables 34 (jtok (litWord l)).ty = _
          rcases lit_ty l with h | h <;> rw [h] <;> decide
        | vector l ls =>
          refine ⟨[34, 35, 3], by decide, rfl, by decide, by show conf jsonTables 32 2 = _; decide, by decide,
              by show conf jsonTables 34 5 = _; decide, by decide, ?_, by show 3 < 32; decide⟩
          show conf jsonTables 35 (jtok (litWord l)).ty = _
          rcases lit_ty l with h | h <;> rw [h] <;> decide
        | matrix r rs =>
          exact ⟨[34, 35, 3], by decide, rfl, by decide, by show conf jsonTables 32 2 = _; decide, by decide,
              by show conf jsonTables 34 5 = _; decide, by decide, by show conf jsonTables 35 5 = _; decide,
              by show 3 < 32; decide⟩
      obtain ⟨es, hes, hlast, hpath⟩ := key
      refine (run_ahead (ts := jtok (.str n) :: jtok .colon :: ((dataJ d).map jtok ++ ts)) 13 3 [30, 1, 2, 14, 31] 1 32 es rfl (by decide) (by decide) (by decide)
        (by decide) hes hpath hlast (by decide) (by simp; omega)).trans ?_
      refine (run_action (u' := ⟨{ c with nodeName := n }, v⟩) (by decide) (by decide) rfl).trans ?_
      refine (run_word (.str n) 1 rfl (by decide) (by decide)).trans ?_
      exact run_word .colon 2 rfl (by decide) (by decide)
    · refine good_value n none d hd hw ?_ hi.2 rfl (by omega)
      have : ({ c with nodeName := n } : Cfg B) = { mk c 0 [] 0 0 0 0 with nodeName := n } := by
        rw [← hi.1]
      rw [this]
      rfl

end

end Verif.Json
