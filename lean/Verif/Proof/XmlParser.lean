import Verif.Model.XmlParser
import Verif.Spec.XmlDoc
import Verif.Proof.ConfigParser3
/-! Running the parser of the XML language on a document. -/
namespace Verif.Xml
open Verif.Parser Verif.Config Verif.Spec.XmlDoc
open Verif.Spec.ConfigDoc (Lit Data Stmt Stmts rowLits must simpleName)
open Verif.ConfigDb (Op Out St Name)
open Verif.Spec.ConfigDb (Db allowed allAllowed)

variable {B : Type} {conv : Conv B}

/-- The parser goes from one state to another, with the configuration `o`, or to an error. -/
def Leads (conv : Conv B) (cap : Nat) (syms : List Nat) (ts : List Tok) (c : Cfg B) (syms' : List Nat) (ts' : List Tok)
    (o : Option (Cfg B)) : Prop :=
  match o with
  | some c' => Runs xmlTables (xmlExec conv) cap (at_ syms ts c) (at_ syms' ts' c')
  | none => Fails xmlTables (xmlExec conv) cap (at_ syms ts c)

theorem Leads.bind {cap : Nat} {syms syms1 syms2 : List Nat} {ts ts1 ts2 : List Tok} {c : Cfg B} {o : Option (Cfg B)}
    {f : Cfg B → Option (Cfg B)} (h : Leads conv cap syms ts c syms1 ts1 o)
    (h' : ∀ c', o = some c' → Leads conv cap syms1 ts1 c' syms2 ts2 (f c')) :
    Leads conv cap syms ts c syms2 ts2 (o.bind f) := by
  cases o with
  | none => exact h
  | some c' =>
    have h2 := h' c' rfl
    unfold Leads at h h2 ⊢
    simp only [Option.bind_some]
    cases e : f c' with
    | none => rw [e] at h2; exact Runs.fails h h2
    | some c'' => rw [e] at h2; exact Runs.trans h h2

theorem Leads.before {cap : Nat} {syms syms1 syms2 : List Nat} {ts ts1 ts2 : List Tok} {c c1 : Cfg B}
    {o : Option (Cfg B)} (h : Runs xmlTables (xmlExec conv) cap (at_ syms ts c) (at_ syms1 ts1 c1))
    (h' : Leads conv cap syms1 ts1 c1 syms2 ts2 o) : Leads conv cap syms ts c syms2 ts2 o := by
  unfold Leads at h' ⊢
  cases o with
  | none => exact Runs.fails h h'
  | some c'' => exact Runs.trans h h'

theorem Leads.after {cap : Nat} {syms syms1 syms2 : List Nat} {ts ts1 ts2 : List Tok} {c : Cfg B}
    {o : Option (Cfg B)} (h : Leads conv cap syms ts c syms1 ts1 o)
    (h' : ∀ c', Runs xmlTables (xmlExec conv) cap (at_ syms1 ts1 c') (at_ syms2 ts2 c')) :
    Leads conv cap syms ts c syms2 ts2 o := by
  unfold Leads at h ⊢
  cases o with
  | none => exact h
  | some c'' => exact Runs.trans h (h' c'')

theorem lit_kind (l : Lit) : (xtok (litWord l)).ty = 2 ∨ (xtok (litWord l)).ty = 9 := by
  unfold litWord; cases l.isNum <;> simp [xtok]

theorem ident_lit (l : Lit) : ident (xtok (litWord l)) = Spec.ConfigDoc.tok l.word := by
  unfold litWord Spec.ConfigDoc.Lit.word; cases l.isNum <;> rfl

section
variable {cap : Nat} {syms : List Nat} {ts : List Tok} {c : Cfg B}

theorem run_word (w : XWord) (n : Nat) (hn : (xtok w).ty = n) (h0 : 0 < n) (h1 : n < 11) :
    Runs xmlTables (xmlExec conv) cap (at_ (n :: syms) (xtok w :: ts) c) (at_ syms ts c) := by
  subst hn
  exact run_match h0 h1 (by decide)

/-- A production chosen by the current token alone. -/
theorem run_plain (A entry : Nat) (rhs : List Nat) (t : Nat) (ht : (ts.headD eof).ty = t)
    (h : entry0 xmlTables A t = some entry) (hp : production? xmlTables entry = some (A, rhs)) (hA : 11 ≤ A)
    (hA' : A < 24) (he : 0 < entry) (he' : entry < 23) (room : syms.length + rhs.length ≤ cap) :
    Runs xmlTables (xmlExec conv) cap (at_ (A :: syms) ts c) (at_ (rhs ++ syms) ts c) :=
  run_prod (by omega) hA hA' (by rw [ht]; exact lookup_plain h he') he hp room

/-- A production chosen by looking ahead. -/
theorem run_ahead (A entry : Nat) (rhs : List Nat) (t e : Nat) (es : List Nat) (ht : (ts.headD eof).ty = t)
    (h : entry0 xmlTables A t = some e) (hp : production? xmlTables entry = some (A, rhs)) (hA : 11 ≤ A)
    (hA' : A < 24) (hes : es.length ≤ 5) (hpath : Path xmlTables ts.tail 0 e es)
    (hr : (e :: es).getLast (by simp) = entry) (he : 0 < entry) (room : syms.length + rhs.length ≤ cap) :
    Runs xmlTables (xmlExec conv) cap (at_ (A :: syms) ts c) (at_ (rhs ++ syms) ts c) :=
  run_prod (by omega) hA hA' (by rw [ht]; exact lookup_path es h hes hpath hr) he hp room

/-- An action that may fail. -/
theorem leads_action {a : Nat} (ha : 24 ≤ a) {r : Cfg B × Bool}
    (h : xmlExec conv (a - 23) (ts.headD eof) c = some r) :
    Leads conv cap (a :: syms) ts c syms ts (if r.2 then none else some r.1) := by
  obtain ⟨c', e⟩ := r
  cases e with
  | true => exact fails_action (u' := c') ha (by omega) h
  | false => exact run_action (u' := c') ha (by omega) h

theorem leads_lit (l : Lit) (room : syms.length + 2 ≤ cap) :
    Leads conv cap (15 :: syms) (xtok (litWord l) :: ts) c syms ts (addAll conv c [l]) := by
  have hk := lit_kind l
  refine Leads.before (syms1 := 29 :: 19 :: syms) (ts1 := xtok (litWord l) :: ts) (c1 := c) ?_ ?_
  · rcases hk with hk | hk
    · exact run_plain 15 9 [29, 19] 2 hk (by decide) (by decide) (by decide) (by decide) (by decide) (by decide) room
    · exact run_plain 15 9 [29, 19] 9 hk (by decide) (by decide) (by decide) (by decide) (by decide) (by decide) room
  have h1 : Leads conv cap (29 :: 19 :: syms) (xtok (litWord l) :: ts) c (19 :: syms) (xtok (litWord l) :: ts)
      (addAll conv c [l]) := by
    have := leads_action (conv := conv) (cap := cap) (syms := 19 :: syms) (ts := xtok (litWord l) :: ts) (c := c) (a := 29)
      (by decide) (r := addScalar conv c (ident (xtok (litWord l)))) rfl
    rw [ident_lit] at this
    exact this
  refine h1.after fun c' => ?_
  rcases hk with hk | hk
  · refine (run_plain (ts := xtok (litWord l) :: ts) 19 13 [2] 2 hk (by decide) (by decide) (by decide) (by decide)
      (by decide) (by decide) (by simp; omega)).trans ?_
    exact run_word (litWord l) 2 hk (by decide) (by decide)
  · refine (run_plain (ts := xtok (litWord l) :: ts) 19 14 [9] 9 hk (by decide) (by decide) (by decide) (by decide)
      (by decide) (by decide) (by simp; omega)).trans ?_
    exact run_word (litWord l) 9 hk (by decide) (by decide)

theorem leads_lits (ls : List Lit) : ∀ (c : Cfg B), syms.length + 3 ≤ cap →
    Leads conv cap (21 :: syms) (ls.map (fun l => xtok (litWord l)) ++ xtok .rb :: ts) c (30 :: syms) (xtok .rb :: ts)
      (addAll conv c ls) := by
  induction ls with
  | nil =>
    intro c room
    exact run_plain 21 18 [30] 8 rfl (by decide) (by decide) (by decide) (by decide) (by decide) (by decide)
      (by simp; omega)
  | cons l ls ih =>
    intro c room
    have hk := lit_kind l
    refine Leads.before (syms1 := 15 :: 21 :: syms) (ts1 := (l :: ls).map (fun l => xtok (litWord l)) ++ xtok .rb :: ts)
      (c1 := c) ?_ ?_
    · rcases hk with hk | hk
      · exact run_plain 21 17 [15, 21] 2 hk (by decide) (by decide) (by decide) (by decide) (by decide) (by decide)
          (by simp; omega)
      · exact run_plain 21 17 [15, 21] 9 hk (by decide) (by decide) (by decide) (by decide) (by decide) (by decide)
          (by simp; omega)
    rw [addAll_cons]
    exact (leads_lit l (by simp; omega)).bind fun c' _ => ih c' room

theorem leads_row (r : Lit × List Lit) (room : syms.length + 5 ≤ cap) :
    Leads conv cap (16 :: syms) ((rowWords r).map xtok ++ ts) c syms ts (rowRun conv c r) := by
  have ew : (rowWords r).map xtok ++ ts =
      xtok .lb :: xtok (litWord r.1) :: (r.2.map (fun l => xtok (litWord l)) ++ xtok .rb :: ts) := by
    simp [rowWords, rowLits, Function.comp_def]
  rw [ew]
  refine Leads.before (syms1 := 15 :: 21 :: 8 :: syms) (c1 := c)
    (ts1 := xtok (litWord r.1) :: (r.2.map (fun l => xtok (litWord l)) ++ xtok .rb :: ts)) ?_ ?_
  · refine (run_plain 16 10 [7, 15, 21, 8] 7 rfl (by decide) (by decide) (by decide) (by decide) (by decide) (by decide)
      (by simp; omega)).trans ?_
    exact run_word .lb 7 rfl (by decide) (by decide)
  have h1 : Leads conv cap (15 :: 21 :: 8 :: syms)
      (xtok (litWord r.1) :: (r.2.map (fun l => xtok (litWord l)) ++ xtok .rb :: ts)) c
      (30 :: 8 :: syms) (xtok .rb :: ts) (addAll conv c (rowLits r)) := by
    unfold rowLits
    rw [addAll_cons]
    exact (leads_lit r.1 (by simp; omega)).bind fun c' _ => leads_lits r.2 c' (by simp; omega)
  refine h1.bind fun c' _ => ?_
  have h2 : Leads conv cap (30 :: 8 :: syms) (xtok .rb :: ts) c' (8 :: syms) (xtok .rb :: ts)
      (if (endVector c').2 then none else some (endVector c').1) := leads_action (by decide) rfl
  exact h2.after fun c'' => run_word .rb 8 rfl (by decide) (by decide)

theorem leads_rows (rs : List (Lit × List Lit)) : ∀ (c : Cfg B), syms.length + 6 ≤ cap →
    Leads conv cap (22 :: syms) ((rs.flatMap rowWords).map xtok ++ xtok .rb :: ts) c (31 :: syms) (xtok .rb :: ts)
      (rowsRun conv c rs) := by
  induction rs with
  | nil =>
    intro c room
    exact run_plain 22 20 [31] 8 rfl (by decide) (by decide) (by decide) (by decide) (by decide) (by decide)
      (by simp; omega)
  | cons r rs ih =>
    intro c room
    have ew : ((r :: rs).flatMap rowWords).map xtok ++ xtok .rb :: ts =
        (rowWords r).map xtok ++ ((rs.flatMap rowWords).map xtok ++ xtok .rb :: ts) := by simp
    rw [ew]
    refine Leads.before (syms1 := 16 :: 22 :: syms)
      (ts1 := (rowWords r).map xtok ++ ((rs.flatMap rowWords).map xtok ++ xtok .rb :: ts)) (c1 := c) ?_ ?_
    · exact run_plain 22 19 [16, 22] 7 rfl (by decide) (by decide) (by decide) (by decide) (by decide) (by decide)
          (by simp; omega)
    rw [rowsRun]
    exact (leads_row r (by simp; omega)).bind fun c' _ => ih c' room

theorem leads_data (d : Data) (room : syms.length + 8 ≤ cap) :
    Leads conv cap (14 :: syms) ((dataWords d).map xtok ++ ts) c syms ts (dataRun conv c d) := by
  cases d with
  | scalar l =>
    have hk := lit_kind l
    refine Leads.before (syms1 := 15 :: syms) (ts1 := xtok (litWord l) :: ts) (c1 := c) ?_ (leads_lit l (by omega))
    rcases hk with hk | hk
    · exact run_plain 14 6 [15] 2 hk (by decide) (by decide) (by decide) (by decide) (by decide) (by decide)
        (by simp; omega)
    · exact run_plain 14 6 [15] 9 hk (by decide) (by decide) (by decide) (by decide) (by decide) (by decide)
        (by simp; omega)
  | vector l ls =>
    have hk := lit_kind l
    refine Leads.before (syms1 := 16 :: syms) (ts1 := (rowWords (l, ls)).map xtok ++ ts) (c1 := c) ?_
      (leads_row _ (by omega))
    refine run_ahead 14 7 [16] 7 24 [7] rfl (by decide) (by decide) (by decide) (by decide) (by decide) ?_ rfl
      (by decide) (by simp; omega)
    refine ⟨by decide, ?_, by show 7 < 23; decide⟩
    show conf xmlTables 24 (xtok (litWord l)).ty = _
    rcases hk with hk | hk <;> rw [hk] <;> decide
  | matrix r rs =>
    have ew : (dataWords (Data.matrix r rs)).map xtok ++ ts =
        xtok .lb :: ((rowWords r).map xtok ++ ((rs.flatMap rowWords).map xtok ++ xtok .rb :: ts)) := by
      simp [dataWords]
    rw [ew]
    refine Leads.before (syms1 := 16 :: 22 :: 8 :: syms) (c1 := c)
      (ts1 := (rowWords r).map xtok ++ ((rs.flatMap rowWords).map xtok ++ xtok .rb :: ts)) ?_ ?_
    · refine (run_ahead 14 8 [17] 7 24 [8] rfl (by decide) (by decide) (by decide) (by decide) (by decide) ?_ rfl
        (by decide) (by simp; omega)).trans ?_
      · exact ⟨by decide, by show conf xmlTables 24 7 = _; decide, by show 8 < 23; decide⟩
      refine (run_plain 17 11 [7, 16, 22, 8] 7 rfl (by decide) (by decide) (by decide) (by decide) (by decide) (by decide)
        (by simp; omega)).trans ?_
      exact run_word .lb 7 rfl (by decide) (by decide)
    have h1 : Leads conv cap (16 :: 22 :: 8 :: syms)
        ((rowWords r).map xtok ++ ((rs.flatMap rowWords).map xtok ++ xtok .rb :: ts)) c (31 :: 8 :: syms) (xtok .rb :: ts)
        (rowsRun conv c (r :: rs)) := by
      rw [rowsRun]
      exact (leads_row r (by simp; omega)).bind fun c' _ => leads_rows rs c' (by simp; omega)
    have e : dataRun conv c (.matrix r rs) = (rowsRun conv c (r :: rs)).bind fun c' => some (endMatrix c') := by
      show Option.map _ _ = _
      cases rowsRun conv c (r :: rs) <;> rfl
    rw [e]
    refine h1.bind fun c' _ => ?_
    show Runs _ _ _ _ _
    refine (run_action (u' := endMatrix c') (by decide) (by decide) rfl).trans ?_
    exact run_word .rb 8 rfl (by decide) (by decide)

end

/-! ## Statements -/

/-- The statements lead to the tree they are meant to lead to, or to an error. -/
def Good (conv : Conv B) (cap : Nat) (syms : List Nat) (ts : List Tok) (c : Cfg B) (syms' : List Nat) (ts' : List Tok)
    (o : Option (Db (Leaf B))) : Prop :=
  match o with
  | some db' => ∃ c', Runs xmlTables (xmlExec conv) cap (at_ syms ts c) (at_ syms' ts' c') ∧ Idle c' ∧ Hist c'.db db'
  | none => Fails xmlTables (xmlExec conv) cap (at_ syms ts c)

theorem Good.bind {cap : Nat} {syms syms1 syms2 : List Nat} {ts ts1 ts2 : List Tok} {c : Cfg B}
    {o : Option (Db (Leaf B))} {f : Db (Leaf B) → Option (Db (Leaf B))} (h : Good conv cap syms ts c syms1 ts1 o)
    (h' : ∀ c' db', Idle c' → Hist c'.db db' → Good conv cap syms1 ts1 c' syms2 ts2 (f db')) :
    Good conv cap syms ts c syms2 ts2 (o.bind f) := by
  cases o with
  | none => exact h
  | some db' =>
    obtain ⟨c', h1, h2, h3⟩ := h
    have h4 := h' c' db' h2 h3
    simp only [Option.bind_some]
    unfold Good at h4 ⊢
    cases e : f db' with
    | none => rw [e] at h4; exact Runs.fails h1 h4
    | some db'' =>
      rw [e] at h4
      obtain ⟨c'', h5, h6⟩ := h4
      exact ⟨c'', Runs.trans h1 h5, h6⟩

theorem Good.before {cap : Nat} {syms syms1 syms2 : List Nat} {ts ts1 ts2 : List Tok} {c c1 : Cfg B}
    {o : Option (Db (Leaf B))} (h : Runs xmlTables (xmlExec conv) cap (at_ syms ts c) (at_ syms1 ts1 c1))
    (h' : Good conv cap syms1 ts1 c1 syms2 ts2 o) : Good conv cap syms ts c syms2 ts2 o := by
  unfold Good at h' ⊢
  cases o with
  | none => exact Runs.fails h h'
  | some db' =>
    obtain ⟨c', h1, h2⟩ := h'
    exact ⟨c', Runs.trans h h1, h2⟩

theorem Good.after {cap : Nat} {syms syms1 syms2 : List Nat} {ts ts1 ts2 : List Tok} {c : Cfg B}
    {o : Option (Db (Leaf B))} (h : Good conv cap syms ts c syms1 ts1 o)
    (h' : ∀ c', Runs xmlTables (xmlExec conv) cap (at_ syms1 ts1 c') (at_ syms2 ts2 c')) :
    Good conv cap syms ts c syms2 ts2 o := by
  unfold Good at h ⊢
  cases o with
  | none => exact h
  | some db' =>
    obtain ⟨c', h1, h2⟩ := h
    exact ⟨c', Runs.trans h1 (h' c'), h2⟩

section
variable {cap : Nat} {syms : List Nat} {ts : List Tok} {c : Cfg B} {db : Db (Leaf B)}

theorem run_close (m : Name) :
    Runs xmlTables (xmlExec conv) cap (at_ (1 :: 4 :: 2 :: 3 :: syms) ((closeTag m).map xtok ++ ts) c) (at_ syms ts c) := by
  refine (run_word .lt 1 rfl (by decide) (by decide)).trans ?_
  refine (run_word .slash 4 rfl (by decide) (by decide)).trans ?_
  refine (run_word (.str m) 2 rfl (by decide) (by decide)).trans ?_
  exact run_word .gt 3 rfl (by decide) (by decide)

/-- The value, the closing tag and the action that stores the value. -/
theorem good_value (n : Name) (cast : Option (List Char)) (d : Data) (m : Name) (hd : Hist c.db db)
    (hi : c = mk c 0 [] 0 0 0 0) (ht : c.typeName = cast.getD "string".toList) (hn : c.nodeName = n)
    (room : syms.length + 13 ≤ cap) :
    Good conv cap (14 :: 1 :: 4 :: 2 :: 3 :: 26 :: syms) ((dataWords d).map xtok ++ ((closeTag m).map xtok ++ ts)) c syms ts
      ((Stmt.leaf n cast d).apply conv db) := by
  have hv := data_value (conv := conv) c cast ht d
  have hl := leads_data (conv := conv) (cap := cap) (syms := 1 :: 4 :: 2 :: 3 :: 26 :: syms)
    (ts := (closeTag m).map xtok ++ ts) (c := c) d (by simp; omega)
  rw [← hi] at hv
  rw [Stmt.apply]
  cases e : d.value conv cast with
  | none =>
    rw [e] at hv
    simp only at hv
    rw [hv] at hl
    exact hl
  | some v =>
    rw [e] at hv
    simp only at hv
    obtain ⟨c', h1, h2, h3, h4⟩ := hv
    rw [h1] at hl
    simp only [Option.bind_some]
    refine Good.before (Runs.trans hl (run_close m)) ?_
    have hcall := call_spec (c := c') (db := db) (by rw [h2]; exact hd) (.write n v) rfl (by
      simp only [Spec.ConfigDb.step]; split <;> exact ⟨_, rfl⟩)
    have hex : ∀ c'' e, call c' (.write n v) = some (c'', e) → addLeaf c' = some (reset c'', e) := by
      intro c'' e hc
      unfold addLeaf
      simp only
      rw [h4]
      simp only
      rw [h3, hn, hc]
    cases e2 : must (Spec.ConfigDb.step db (.write n v)) with
    | none =>
      rw [e2] at hcall
      obtain ⟨c'', hc⟩ := hcall
      exact fails_action (u' := reset c'') (by decide) (by decide) (hex _ _ hc)
    | some db' =>
      rw [e2] at hcall
      obtain ⟨s', hc, hh⟩ := hcall
      exact ⟨reset { c' with db := s' }, run_action (by decide) (by decide) (hex _ _ hc), idle_reset _, hh⟩

theorem good_leaf (n : Name) (cast : Option (List Char)) (d : Data) (m : Name) (hi : Idle c) (hd : Hist c.db db)
    (room : syms.length + 14 ≤ cap) :
    Good conv cap (13 :: syms) ((XStmt.leaf n cast d m).words.map xtok ++ ts) c syms ts
      ((Stmt.leaf n cast d).apply conv db) := by
  cases cast with
  | some t =>
    have ew : (XStmt.leaf n (some t) d m).words.map xtok ++ ts =
        xtok .lt :: xtok (.str n) :: xtok .gt :: xtok .lp :: xtok (.str t) :: xtok .rp ::
          ((dataWords d).map xtok ++ ((closeTag m).map xtok ++ ts)) := by
      simp [XStmt.words, castWords, openTag]
    rw [ew]
    refine Good.before (syms1 := 14 :: 1 :: 4 :: 2 :: 3 :: 26 :: syms)
      (ts1 := (dataWords d).map xtok ++ ((closeTag m).map xtok ++ ts))
      (c1 := { c with nodeName := n, typeName := t }) ?_ ?_
    · refine (run_ahead 13 4 [1, 25, 2, 3, 5, 27, 2, 6, 14, 1, 4, 2, 3, 26] 1 23 [26, 27, 4] rfl (by decide) (by decide)
        (by decide) (by decide) (by decide) ?_ rfl (by decide) (by simp; omega)).trans ?_
      · exact ⟨by decide, by show conf xmlTables 23 2 = _; decide, by decide, by show conf xmlTables 26 3 = _; decide,
          by decide, by show conf xmlTables 27 5 = _; decide, by show 4 < 23; decide⟩
      refine (run_word .lt 1 rfl (by decide) (by decide)).trans ?_
      refine (run_action (u' := { c with nodeName := n }) (by decide) (by decide) rfl).trans ?_
      refine (run_word (.str n) 2 rfl (by decide) (by decide)).trans ?_
      refine (run_word .gt 3 rfl (by decide) (by decide)).trans ?_
      refine (run_word .lp 5 rfl (by decide) (by decide)).trans ?_
      refine (run_action (u' := { c with nodeName := n, typeName := t }) (by decide) (by decide) rfl).trans ?_
      refine (run_word (.str t) 2 rfl (by decide) (by decide)).trans ?_
      exact run_word .rp 6 rfl (by decide) (by decide)
    · refine good_value n (some t) d m hd ?_ rfl rfl (by omega)
      have : ({ c with nodeName := n, typeName := t } : Cfg B) = { mk c 0 [] 0 0 0 0 with nodeName := n, typeName := t } := by
        rw [← hi.1]
      rw [this]
      rfl
  | none =>
    have ew : (XStmt.leaf n none d m).words.map xtok ++ ts =
        xtok .lt :: xtok (.str n) :: xtok .gt :: ((dataWords d).map xtok ++ ((closeTag m).map xtok ++ ts)) := by
      simp [XStmt.words, castWords, openTag]
    rw [ew]
    refine Good.before (syms1 := 14 :: 1 :: 4 :: 2 :: 3 :: 26 :: syms)
      (ts1 := (dataWords d).map xtok ++ ((closeTag m).map xtok ++ ts)) (c1 := { c with nodeName := n }) ?_ ?_
    · have key : conf xmlTables 27
          (peek (xtok (.str n) :: xtok .gt :: ((dataWords d).map xtok ++ ((closeTag m).map xtok ++ ts))) 2) = some 3 := by
        cases d with
        | scalar l =>
          show conf xmlTables 27 (xtok (litWord l)).ty = _
          rcases lit_kind l with h | h <;> rw [h] <;> decide
        | vector l ls => show conf xmlTables 27 7 = _; decide
        | matrix r rs => show conf xmlTables 27 7 = _; decide
      refine (run_ahead
        (ts := xtok .lt :: xtok (.str n) :: xtok .gt :: ((dataWords d).map xtok ++ ((closeTag m).map xtok ++ ts)))
        13 3 [1, 25, 2, 3, 14, 1, 4, 2, 3, 26] 1 23 [26, 27, 3] rfl (by decide) (by decide) (by decide)
        (by decide) (by decide) ?_ rfl (by decide) (by simp; omega)).trans ?_
      · exact ⟨by decide, by show conf xmlTables 23 2 = _; decide, by decide, by show conf xmlTables 26 3 = _; decide,
          by decide, key, by show 3 < 23; decide⟩
      refine (run_word .lt 1 rfl (by decide) (by decide)).trans ?_
      refine (run_action (u' := { c with nodeName := n }) (by decide) (by decide) rfl).trans ?_
      refine (run_word (.str n) 2 rfl (by decide) (by decide)).trans ?_
      exact run_word .gt 3 rfl (by decide) (by decide)
    · refine good_value n none d m hd ?_ hi.2 rfl (by omega)
      have : ({ c with nodeName := n } : Cfg B) = { mk c 0 [] 0 0 0 0 with nodeName := n } := by
        rw [← hi.1]
      rw [this]
      rfl
end

mutual
/-- How statements begin. -/
theorem stmt_words (s : XStmt) : ∃ n ws, s.words = .lt :: .str n :: .gt :: ws := by
  cases s with
  | leaf n c d => exact ⟨n, _, by rw [XStmt.words, openTag]; rfl⟩
  | block n b => exact ⟨n, _, by rw [XStmt.words, openTag]; rfl⟩
theorem stmts_words (ss : XStmts) : ∃ n ws, ss.words = .lt :: .str n :: .gt :: ws := by
  match ss with
  | .one s => rw [XStmts.words]; exact stmt_words s
  | .more s ss =>
    obtain ⟨n, ws, h⟩ := stmt_words s
    rw [XStmts.words, h]
    exact ⟨n, _, rfl⟩
end

mutual
theorem good_stmt {cap : Nat} (s : XStmt) : ∀ (syms : List Nat) (ts : List Tok) (c : Cfg B) (db : Db (Leaf B)),
    s.plain.blockNames = true → Idle c → Hist c.db db → syms.length + 5 * s.plain.depth + 14 ≤ cap →
    Good conv cap (13 :: syms) (s.words.map xtok ++ ts) c syms ts (s.plain.apply conv db) := by
  intro syms ts c db hb hi hd room
  match s with
  | .leaf n cast d m => rw [XStmt.plain]; exact good_leaf n cast d m hi hd (by omega)
  | .block n b m =>
    rw [XStmt.plain] at room hb ⊢
    rw [Stmt.depth] at room
    rw [Stmt.blockNames, Bool.and_eq_true] at hb
    obtain ⟨k, ws, hw⟩ := stmts_words b
    have ew : (XStmt.block n b m).words.map xtok ++ ts =
        xtok .lt :: xtok (.str n) :: xtok .gt :: (b.words.map xtok ++ ((closeTag m).map xtok ++ ts)) := by
      simp [XStmt.words, openTag]
    rw [ew, Stmt.apply]
    refine Good.before (syms1 := [28, 2, 3, 18, 1, 4, 2, 3] ++ syms)
      (ts1 := xtok (.str n) :: xtok .gt :: (b.words.map xtok ++ ((closeTag m).map xtok ++ ts))) (c1 := c) ?_ ?_
    · refine (run_ahead 13 5 [1, 28, 2, 3, 18, 1, 4, 2, 3] 1 23 [26, 27, 5] rfl (by decide) (by decide) (by decide)
        (by decide) (by decide) ?_ rfl (by decide) (by simp; omega)).trans ?_
      · rw [hw]
        exact ⟨by decide, by show conf xmlTables 23 2 = _; decide, by decide, by show conf xmlTables 26 3 = _; decide,
          by decide, by show conf xmlTables 27 1 = _; decide, by show 5 < 23; decide⟩
      exact run_word .lt 1 rfl (by decide) (by decide)
    have h1 : Good conv cap ([28, 2, 3, 18, 1, 4, 2, 3] ++ syms)
        (xtok (.str n) :: xtok .gt :: (b.words.map xtok ++ ((closeTag m).map xtok ++ ts))) c ([2, 3, 18, 1, 4, 2, 3] ++ syms)
        (xtok (.str n) :: xtok .gt :: (b.words.map xtok ++ ((closeTag m).map xtok ++ ts)))
        (must (Spec.ConfigDb.step db (.createRelative n))) := by
      have hc := call_spec hd (.createRelative n) (create_allowed n hb.1) (create_flag n)
      cases e : must (Spec.ConfigDb.step db (.createRelative n)) with
      | none =>
        rw [e] at hc
        obtain ⟨c', hc⟩ := hc
        exact fails_action (u' := c') (by decide) (by decide) hc
      | some db' =>
        rw [e] at hc
        obtain ⟨s', hc, hh⟩ := hc
        exact ⟨{ c with db := s' }, run_action (by decide) (by decide) hc, idle_db hi s', hh⟩
    refine h1.bind fun c1 db1 hi1 hd1 => ?_
    refine Good.before (syms1 := 13 :: 23 :: 1 :: 4 :: 2 :: 3 :: syms)
      (ts1 := b.words.map xtok ++ ((closeTag m).map xtok ++ ts)) (c1 := c1) ?_ ?_
    · refine (run_word (.str n) 2 rfl (by decide) (by decide)).trans ?_
      refine (run_word .gt 3 rfl (by decide) (by decide)).trans ?_
      rw [hw]
      exact run_plain 18 12 [13, 23] 1 rfl (by decide) (by decide) (by decide) (by decide) (by decide) (by decide)
        (by simp; omega)
    have h2 := good_inner (cap := cap) b (1 :: 4 :: 2 :: 3 :: syms) ((closeTag m).map xtok ++ ts) c1 db1
      hb.2 hi1 hd1 (by simp; omega)
    refine h2.bind fun c2 db2 hi2 hd2 => ?_
    refine Good.before (syms1 := 32 :: 1 :: 4 :: 2 :: 3 :: syms) (ts1 := (closeTag m).map xtok ++ ts) (c1 := c2) ?_ ?_
    · refine run_ahead 23 22 [32] 1 25 [22] rfl (by decide) (by decide) (by decide) (by decide) (by decide) ?_ rfl
        (by decide) (by simp; omega)
      exact ⟨by decide, by show conf xmlTables 25 4 = _; decide, by show 22 < 23; decide⟩
    have h3 : Good conv cap (32 :: 1 :: 4 :: 2 :: 3 :: syms) ((closeTag m).map xtok ++ ts) c2 (1 :: 4 :: 2 :: 3 :: syms)
        ((closeTag m).map xtok ++ ts) (must (Spec.ConfigDb.step db2 (.moveToAncestor 1))) := by
      have hc := call_spec hd2 (.moveToAncestor 1) rfl (ancestor_flag 1)
      cases e : must (Spec.ConfigDb.step db2 (.moveToAncestor 1)) with
      | none =>
        rw [e] at hc
        obtain ⟨c', hc⟩ := hc
        exact fails_action (u' := c') (by decide) (by decide) hc
      | some db' =>
        rw [e] at hc
        obtain ⟨s', hc, hh⟩ := hc
        exact ⟨{ c2 with db := s' }, run_action (by decide) (by decide) hc, idle_db hi2 s', hh⟩
    exact h3.after fun c' => run_close m

/-- The statements of a block. -/
theorem good_inner {cap : Nat} (ss : XStmts) : ∀ (syms : List Nat) (ts : List Tok) (c : Cfg B)
    (db : Db (Leaf B)), ss.plain.blockNames = true → Idle c → Hist c.db db → syms.length + 5 * ss.plain.depth + 15 ≤ cap →
    Good conv cap (13 :: 23 :: syms) (ss.words.map xtok ++ ts) c (23 :: syms) ts (ss.plain.apply conv db) := by
  intro syms ts c db hb hi hd room
  match ss with
  | .one s =>
    rw [XStmts.plain] at room hb ⊢
    rw [XStmts.words, Stmts.apply]
    rw [Stmts.depth] at room
    rw [Stmts.blockNames] at hb
    exact good_stmt s (23 :: syms) ts c db hb hi hd (by simp; omega)
  | .more s ss =>
    rw [XStmts.plain] at room hb ⊢
    rw [XStmts.words, Stmts.apply, List.map_append, List.append_assoc]
    rw [Stmts.depth] at room
    rw [Stmts.blockNames, Bool.and_eq_true] at hb
    have g := good_stmt (cap := cap) s (23 :: syms) (ss.words.map xtok ++ ts) c db hb.1 hi hd (by simp; omega)
    refine g.bind fun c1 db1 hi1 hd1 => ?_
    have g2 := good_inner (cap := cap) ss syms ts c1 db1 hb.2 hi1 hd1 (by omega)
    refine Good.before ?_ g2
    obtain ⟨m, ws, hw⟩ := stmts_words ss
    rw [hw]
    refine run_ahead 23 21 [13, 23] 1 25 [21] rfl (by decide) (by decide) (by decide) (by decide) (by decide) ?_ rfl
        (by decide) (by simp; omega)
    exact ⟨by decide, by show conf xmlTables 25 2 = _; decide, by show 21 < 23; decide⟩
end

/-- The statements of the text. -/
theorem good_outer {cap : Nat} (ss : XStmts) : ∀ (c : Cfg B) (db : Db (Leaf B)),
    ss.plain.blockNames = true → Idle c → Hist c.db db → 5 * ss.plain.depth + 16 ≤ cap →
    Good conv cap [13, 20, 24] (ss.words.map xtok) c [20, 24] [] (ss.plain.apply conv db) := by
  intro c db hb hi hd room
  match ss with
  | .one s =>
    rw [XStmts.plain] at room hb ⊢
    rw [XStmts.words, Stmts.apply]
    rw [Stmts.depth] at room
    rw [Stmts.blockNames] at hb
    have := good_stmt (conv := conv) (cap := cap) s [20, 24] [] c db hb hi hd (by simp; omega)
    rw [List.append_nil] at this
    exact this
  | .more s ss =>
    rw [XStmts.plain] at room hb ⊢
    rw [XStmts.words, Stmts.apply, List.map_append]
    rw [Stmts.depth] at room
    rw [Stmts.blockNames, Bool.and_eq_true] at hb
    have g := good_stmt (conv := conv) (cap := cap) s [20, 24] (ss.words.map xtok) c db hb.1 hi hd (by simp; omega)
    refine g.bind fun c1 db1 hi1 hd1 => ?_
    have g2 := good_outer (cap := cap) ss c1 db1 hb.2 hi1 hd1 (by omega)
    refine Good.before ?_ g2
    obtain ⟨m, ws, hw⟩ := stmts_words ss
    rw [hw]
    exact run_plain 20 15 [13, 20] 1 rfl (by decide) (by decide) (by decide) (by decide) (by decide) (by decide)
      (by simp; omega)

theorem end_xml {cap m : Nat} (c : Cfg B) (s' : St (Leaf B))
    (hs : ConfigDb.step c.db .moveToRoot = some (.flag true, s')) :
    inner xmlTables (xmlExec conv) cap (m + 6) (at_ [20, 24] [] c) =
      .ok { at_ [] [] { c with db := s' } with token := 10, newToken := 10, isEOF := true } := by
  have e : endAll c = some ({ c with db := s' }, false) := by
    unfold endAll call
    rw [hs]
    rfl
  have h1 : inner xmlTables (xmlExec conv) cap (m + 6) (at_ [20, 24] [] c) =
      inner xmlTables (xmlExec conv) cap (m + 5) { at_ [24] [] c with token := 10, newToken := 10, isEOF := true } := rfl
  have h2 : process xmlTables (xmlExec conv) cap (m + 4)
      { at_ [24] [] c with token := 10, newToken := 10, isEOF := true } =
      .ok { at_ [24] [] { c with db := s' } with token := 10, newToken := 10, isEOF := true } :=
    process_action (by show 24 ≤ 24; decide) e
  rw [h1]
  show inner xmlTables (xmlExec conv) cap (m + 4 + 1) _ = _
  rw [inner, if_pos ⟨by show 0 < 24; decide, rfl⟩, h2]
  rfl

/-- The whole text. -/
theorem parse_doc {cap : Nat} (d : XStmts) (s : St (Leaf B)) (db : Db (Leaf B)) (hb : d.plain.blockNames = true)
    (hd : Hist s db) (room : 5 * d.plain.depth + 16 ≤ cap) :
    ∃ N, ∀ fuel, N ≤ fuel → ∃ c, match d.plain.apply conv db with
      | some db' => parseXml conv cap fuel s (d.words.map xtok) = .ok (true, c) ∧
          Hist c.db (Spec.ConfigDb.step db' .moveToRoot).2
      | none => parseXml conv cap fuel s (d.words.map xtok) = .ok (false, c) := by
  obtain ⟨m, ws, hw⟩ := stmts_words d
  have hb0 : begin xmlTables cap (PS.new (Cfg.new s) (d.words.map xtok)) = at_ [11] (d.words.map xtok) (Cfg.new s) := by
    unfold begin push
    rw [if_pos (by simp; omega)]
    rfl
  have start : Runs xmlTables (xmlExec conv) cap (at_ [11] (d.words.map xtok) (Cfg.new s))
      (at_ [13, 20, 24] (d.words.map xtok) (Cfg.new s)) := by
    rw [hw]
    refine (run_plain 11 1 [12, 24] 1 rfl (by decide) (by decide) (by decide) (by decide) (by decide) (by decide)
        (by simp; omega)).trans ?_
    exact run_plain 12 2 [13, 20] 1 rfl (by decide) (by decide) (by decide) (by decide) (by decide) (by decide)
        (by simp; omega)
  have g := good_outer (conv := conv) (cap := cap) d (Cfg.new s) db hb (idle_new s) hd (by omega)
  cases e : d.plain.apply conv db with
  | none =>
    rw [e] at g
    obtain ⟨n, hn⟩ := start.fails g
    refine ⟨n + 8, fun fuel hf => ?_⟩
    obtain ⟨k, rfl⟩ : ∃ k, fuel = k + 6 + n + 2 := ⟨fuel - n - 8, by omega⟩
    obtain ⟨s', h1, h2⟩ := hn (k + 7) (by omega)
    have h1' : inner xmlTables (xmlExec conv) cap (k + 6 + n + 1) (begin xmlTables cap (PS.new (Cfg.new s) (d.words.map xtok))) =
        .ok s' := by
      rw [hb0, ← h1]; congr 1; omega
    obtain ⟨s'', h3, h4⟩ := outer_ok (s := PS.new (Cfg.new s) (d.words.map xtok)) rfl rfl h1' (.inl h2)
    refine ⟨s''.user, ?_⟩
    simp only
    unfold parseXml parse
    rw [h3]
    have : s''.isError = true := by rw [h4]; unfold finish; split <;> simp [h2]
    simp [this]
  | some db' =>
    rw [e] at g
    obtain ⟨c', g1, g2, g3⟩ := g
    obtain ⟨n, hn⟩ := start.trans g1
    obtain ⟨s', hs, hh⟩ := hist_step g3 .moveToRoot rfl
    refine ⟨n + 8, fun fuel hf => ⟨{ c' with db := s' }, ?_, hh⟩⟩
    obtain ⟨k, rfl⟩ : ∃ k, fuel = k + 6 + n + 2 := ⟨fuel - n - 8, by omega⟩
    have h1 := hn (k + 7) (by omega)
    rw [show k + 7 = k + 1 + 6 from by omega, end_xml c' s' hs] at h1
    have h1' : inner xmlTables (xmlExec conv) cap (k + 6 + n + 1) (begin xmlTables cap (PS.new (Cfg.new s) (d.words.map xtok))) =
        .ok { at_ [] [] { c' with db := s' } with token := 10, newToken := 10, isEOF := true } := by
      rw [hb0, ← h1]; congr 1; omega
    obtain ⟨s'', h3, h4⟩ := outer_ok (s := PS.new (Cfg.new s) (d.words.map xtok)) rfl rfl h1' (.inr rfl)
    unfold parseXml parse
    rw [h3, h4]
    rfl

mutual
theorem plain_close : ∀ s : Stmt, (close s).plain = s
  | .leaf n c d => rfl
  | .block n b => by rw [close, XStmt.plain, plain_closeAll b]
theorem plain_closeAll : ∀ s : Stmts, (closeAll s).plain = s
  | .one s => by rw [closeAll, XStmts.plain, plain_close s]
  | .more s ss => by rw [closeAll, XStmts.plain, plain_close s, plain_closeAll ss]
end

mutual
theorem matched_close : ∀ s : Stmt, (close s).matched = true
  | .leaf n c d => by rw [close, XStmt.matched, decide_eq_true rfl]
  | .block n b => by rw [close, XStmt.matched, matched_closeAll b, decide_eq_true rfl]; rfl
theorem matched_closeAll : ∀ s : Stmts, (closeAll s).matched = true
  | .one s => by rw [closeAll, XStmts.matched, matched_close s]
  | .more s ss => by rw [closeAll, XStmts.matched, matched_close s, matched_closeAll ss]; rfl
end

end Verif.Xml
