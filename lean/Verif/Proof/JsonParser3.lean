import Verif.Proof.JsonParser2
/-! Running the parser of the JSON language on a document: the statements. -/
set_option linter.unusedSimpArgs false
set_option maxRecDepth 8000
namespace Verif.Json
open Verif.Parser Verif.Config Verif.Spec.ConfigDoc Verif.Spec.JsonDoc
open Verif.ConfigDb (Op Out St Name)
open Verif.Spec.ConfigDb (Db Item allowed allAllowed)

variable {B : Type} {conv : Conv B}

theorem apply_cat (a b : Stmts) : ∀ db : Db (Leaf B), (cat a b).apply conv db =
    (a.apply conv db).bind fun db1 => b.apply conv db1 := by
  match a with
  | .one s => intro db; rw [cat, Stmts.apply, Stmts.apply]
  | .more s ss =>
    intro db
    rw [cat, Stmts.apply, Stmts.apply, Option.bind_assoc]
    congr 1
    funext db1
    exact apply_cat ss b db1

theorem blockNames_cat (a b : Stmts) : (cat a b).blockNames = (a.blockNames && b.blockNames) := by
  match a with
  | .one s => rw [cat, Stmts.blockNames, Stmts.blockNames]
  | .more s ss => rw [cat, Stmts.blockNames, Stmts.blockNames, blockNames_cat ss b, Bool.and_assoc]

theorem depth_cat (a b : Stmts) : (cat a b).depth = max a.depth b.depth := by
  match a with
  | .one s => rw [cat, Stmts.depth, Stmts.depth]
  | .more s ss => rw [cat, Stmts.depth, Stmts.depth, depth_cat ss b, Nat.max_assoc]

mutual
theorem plain_depth_stmt (s : JStmt) : s.plain.depth ≤ s.depth := by
  match s with
  | .leaf n c d => rw [JStmt.plain, JStmt.depth, Stmts.depth, Stmt.depth]; omega
  | .block n b =>
    rw [JStmt.plain, JStmt.depth, Stmts.depth, Stmt.depth]
    have := plain_depth b
    omega
  | .array n bs =>
    rw [JStmt.plain, JStmt.depth]
    have := plain_depth_blocks bs n 0
    omega
  | .braces b =>
    rw [JStmt.plain, JStmt.depth]
    have := plain_depth b
    omega
theorem plain_depth (d : JStmts) : d.plain.depth ≤ d.depth := by
  match d with
  | .one s => rw [JStmts.plain, JStmts.depth]; exact plain_depth_stmt s
  | .more s ss =>
    rw [JStmts.plain, JStmts.depth, depth_cat]
    have := plain_depth_stmt s
    have := plain_depth ss
    omega
theorem plain_depth_blocks (bs : JBlocks) (n : Name) (k : Nat) : (bs.plain n k).depth ≤ bs.depth + 1 := by
  match bs with
  | .one b =>
    rw [JBlocks.plain, JBlocks.depth, Stmts.depth, Stmt.depth]
    have := plain_depth b
    omega
  | .more b bs =>
    rw [JBlocks.plain, JBlocks.depth, Stmts.depth, Stmt.depth]
    have := plain_depth b
    have := plain_depth_blocks bs n (k + 1)
    omega
end

theorem count_pos (bs : JBlocks) : 1 ≤ bs.count := by
  cases bs <;> simp [JBlocks.count]

mutual
/-- How statements begin. -/
theorem stmt_words (s : JStmt) : ∃ w ws, s.words = w :: ws ∧ ((jtok w).ty = 1 ∨ (jtok w).ty = 7) := by
  cases s with
  | leaf n c d => exact ⟨_, _, by rw [JStmt.words], .inl rfl⟩
  | block n b => exact ⟨_, _, by rw [JStmt.words], .inl rfl⟩
  | array n b => exact ⟨_, _, by rw [JStmt.words], .inl rfl⟩
  | braces b => exact ⟨_, _, by rw [JStmt.words], .inr rfl⟩
theorem stmts_words (ss : JStmts) : ∃ w ws, ss.words = w :: ws ∧ ((jtok w).ty = 1 ∨ (jtok w).ty = 7) := by
  match ss with
  | .one s => rw [JStmts.words]; exact stmt_words s
  | .more s ss =>
    obtain ⟨n, ws, h, h'⟩ := stmt_words s
    rw [JStmts.words, h]
    exact ⟨n, _, rfl, h'⟩
end

theorem blocks_words (bs : JBlocks) : ∃ ws, bs.words = .lbr :: ws := by
  cases bs with
  | one b => exact ⟨_, by rw [JBlocks.words]⟩
  | more b bs => exact ⟨_, by rw [JBlocks.words]⟩

section
variable {cap : Nat} {syms : List Nat} {ts : List Tok} {db : Db (Leaf B)} {w : Db Nat}

/-- An action on the database that leaves the counters alone. -/
theorem good_call (a : Nat) (ha : 29 ≤ a) (op : Op (Leaf B)) (u : JCfg B) (hi : Idle u.cfg) (hd : Hist u.cfg.db db)
    (hw : Hist u.vec w) (hal : allowed db op = true) (hf : ∃ b, (Spec.ConfigDb.step db op).1 = .flag b)
    (he : jsonExec conv (a - 28) (ts.headD eof) u = onCfg u (call u.cfg op)) :
    Good conv cap (a :: syms) ts u syms ts w (must (Spec.ConfigDb.step db op)) := by
  have hc := call_spec hd op hal hf
  cases e : must (Spec.ConfigDb.step db op) with
  | none =>
    rw [e] at hc
    obtain ⟨c', hc⟩ := hc
    rw [hc] at he
    exact fails_action (u' := JCfg.mk c' u.vec) ha (by omega) he
  | some db' =>
    rw [e] at hc
    obtain ⟨s', hc, hh⟩ := hc
    rw [hc] at he
    exact ⟨JCfg.mk { u.cfg with db := s' } u.vec, run_action ha (by omega) he, idle_db hi s', hh, hw⟩
end

/-- The body of a block with a name. -/
theorem good_body {cap : Nat} (b : JStmts) (syms : List Nat) (ts : List Tok) (u : JCfg B) (db : Db (Leaf B))
    (w : Db Nat) (room : syms.length + 2 * b.depth + 12 ≤ cap)
    (h2 : Good conv cap (13 :: 27 :: 8 :: syms) (b.words.map jtok ++ jtok .rbr :: ts) u (27 :: 8 :: syms)
      (jtok .rbr :: ts) w (b.plain.apply conv db)) :
    Good conv cap (19 :: syms) (jtok .lbr :: (b.words.map jtok ++ jtok .rbr :: ts)) u syms ts w
      ((b.plain.apply conv db).bind fun db2 => must (Spec.ConfigDb.step db2 (.moveToAncestor 1))) := by
  refine Good.before (syms1 := 13 :: 27 :: 8 :: syms) (ts1 := b.words.map jtok ++ jtok .rbr :: ts) (u1 := u) ?_ ?_
  · refine (run_plain 19 15 [7, 13, 27, 8] 7 rfl (by decide) (by decide) (by decide) (by decide) (by decide)
      (by decide) (by simp; omega)).trans ?_
    exact run_word .lbr 7 rfl (by decide) (by decide)
  refine h2.bind fun u2 db2 hi2 hd2 hw2 => ?_
  refine Good.before (syms1 := 39 :: 8 :: syms) (ts1 := jtok .rbr :: ts) (u1 := u2) ?_ ?_
  · exact run_plain 27 29 [39] 8 rfl (by decide) (by decide) (by decide) (by decide) (by decide)
      (by decide) (by simp; omega)
  exact (good_call 39 (by decide) (.moveToAncestor 1) u2 hi2 hd2 hw2 rfl (ancestor_flag 1) rfl).after fun u' =>
    run_word .rbr 8 rfl (by decide) (by decide)

mutual
theorem good_stmt {cap : Nat} (s : JStmt) : ∀ (syms : List Nat) (ts : List Tok) (u : JCfg B) (db : Db (Leaf B))
    (inside : Bool) (w : Db Nat), VecOk inside w → Hist u.vec w → s.listsOk inside = true →
    s.plain.blockNames = true → Idle u.cfg → Hist u.cfg.db db → syms.length + 2 * s.depth + 10 ≤ cap →
    Good conv cap (13 :: syms) (s.words.map jtok ++ ts) u syms ts w (s.plain.apply conv db) := by
  intro syms ts u db inside w hv hw hl hb hi hd room
  match s with
  | .leaf n cast d => 
    rw [JStmt.plain, Stmts.apply]
    exact good_leaf n cast d hi hd hw (by omega)
  | .block n b =>
    rw [JStmt.depth] at room
    rw [JStmt.plain, Stmts.blockNames, Stmt.blockNames, Bool.and_eq_true] at hb
    rw [JStmt.listsOk] at hl
    have ew : (JStmt.block n b).words.map jtok ++ ts =
        jtok (.str n) :: jtok .colon :: jtok .lbr :: (b.words.map jtok ++ jtok .rbr :: ts) := by
      simp [JStmt.words]
    rw [ew, JStmt.plain, Stmts.apply, Stmt.apply]
    refine Good.before (syms1 := 33 :: 1 :: 2 :: 19 :: syms)
      (ts1 := jtok (.str n) :: jtok .colon :: jtok .lbr :: (b.words.map jtok ++ jtok .rbr :: ts)) (u1 := u) ?_ ?_
    · refine run_ahead 13 5 [33, 1, 2, 19] 1 32 [34, 5] rfl (by decide) (by decide) (by decide)
        (by decide) (by decide) ?_ rfl (by decide) (by simp; omega)
      exact ⟨by decide, by show conf jsonTables 32 2 = _; decide, by decide, by show conf jsonTables 34 7 = _; decide,
          by show 5 < 32; decide⟩
    refine (good_call 33 (by decide) (.createRelative n) u hi hd hw (create_allowed n hb.1) (create_flag n) rfl).bind
      fun u1 db1 hi1 hd1 hw1 => ?_
    refine Good.before (syms1 := 19 :: syms) (ts1 := jtok .lbr :: (b.words.map jtok ++ jtok .rbr :: ts)) (u1 := u1) ?_ ?_
    · refine (run_word (.str n) 1 rfl (by decide) (by decide)).trans ?_
      exact run_word .colon 2 rfl (by decide) (by decide)
    exact good_body b syms ts u1 db1 w (by omega) (good_stmts (cap := cap) b 27 28 (8 :: syms) (jtok .rbr :: ts) u1 db1
      inside w (by decide) (by decide) (by decide) (by decide) (by decide) hv hw1 hl hb.2 hi1 hd1 (by simp; omega))
  | .array n bs =>
    rw [JStmt.depth] at room
    rw [JStmt.plain] at hb
    rw [JStmt.listsOk, Bool.and_eq_true, Bool.and_eq_true, Bool.and_eq_true, decide_eq_true_eq] at hl
    obtain ⟨⟨⟨hn, hin⟩, hcount⟩, hbl⟩ := hl
    have hin' : inside = true → n ≠ idxName := by
      rintro rfl h
      rw [h] at hin
      exact absurd hin (by decide)
    have hbelow : ∀ r, w.item (w.cur ++ n :: r) = none := fun r => hv.2 n r hin'
    obtain ⟨ws, hws⟩ := blocks_words bs
    have ew : (JStmt.array n bs).words.map jtok ++ ts =
        jtok (.str n) :: jtok .colon :: jtok .lbk :: (bs.words.map jtok ++ jtok .rbk :: ts) := by
      simp [JStmt.words]
    rw [ew, JStmt.plain]
    obtain ⟨v1, e1, hw1⟩ := vec_begin (item := w.item) (p := w.cur) (n := n) hw hv hn hin' u.cfg (jtok (.str n)) rfl
    refine Good.before (syms1 := 20 :: 24 :: 6 :: syms) (ts1 := bs.words.map jtok ++ jtok .rbk :: ts)
      (u1 := ⟨u.cfg, v1⟩) ?_ ?_
    · refine (run_ahead 13 6 [34, 1, 2, 16] 1 32 [34, 35, 6] rfl (by decide) (by decide) (by decide)
        (by decide) (by decide) ?_ rfl (by decide) (by simp; omega)).trans ?_
      · rw [hws]
        exact ⟨by decide, by show conf jsonTables 32 2 = _; decide, by decide, by show conf jsonTables 34 5 = _; decide,
          by decide, by show conf jsonTables 35 7 = _; decide, by show 6 < 32; decide⟩
      refine (run_action (u' := JCfg.mk u.cfg v1) (by decide) (by decide) e1).trans ?_
      refine (run_word (.str n) 1 rfl (by decide) (by decide)).trans ?_
      refine (run_word .colon 2 rfl (by decide) (by decide)).trans ?_
      refine (run_plain 16 12 [5, 20, 24, 6] 5 rfl (by decide) (by decide) (by decide) (by decide) (by decide)
        (by decide) (by simp; omega)).trans ?_
      exact run_word .lbk 5 rfl (by decide) (by decide)
    have g := good_blocks (cap := cap) bs n 0 (6 :: syms) ts ⟨u.cfg, v1⟩ db w.item w.cur hbelow hw1 hbl (by omega) hb hi hd
      (by simp; omega)
    have e : (bs.plain n 0).apply conv db = ((bs.plain n 0).apply conv db).bind some := by
      cases (bs.plain n 0).apply conv db <;> rfl
    rw [e]
    refine g.bind fun u2 db2 hi2 hd2 hw2 => ?_
    have hnm : n ∉ (if inside then [idxName] else []) := by
      cases inside with
      | true => simpa using hin' rfl
      | false => simp
    obtain ⟨v3, e3, hw3⟩ := vec_end hw2 hv.1 hnm hbelow u2.cfg
    refine ⟨⟨u2.cfg, v3⟩, ?_, hi2, hd2, hw3⟩
    refine (run_plain 24 23 [36] 6 rfl (by decide) (by decide) (by decide) (by decide) (by decide)
        (by decide) (by simp; omega)).trans ?_
    refine (run_action (u' := JCfg.mk u2.cfg v3) (by decide) (by decide) e3).trans ?_
    exact run_word .rbk 6 rfl (by decide) (by decide)
  | .braces b =>
    rw [JStmt.depth] at room
    rw [JStmt.plain] at hb
    rw [JStmt.listsOk] at hl
    have ew : (JStmt.braces b).words.map jtok ++ ts = jtok .lbr :: (b.words.map jtok ++ jtok .rbr :: ts) := by
      simp [JStmt.words]
    rw [ew, JStmt.plain]
    refine Good.before (syms1 := 13 :: 28 :: 8 :: syms) (ts1 := b.words.map jtok ++ jtok .rbr :: ts) (u1 := u) ?_ ?_
    · refine (run_plain 13 7 [21] 7 rfl (by decide) (by decide) (by decide) (by decide) (by decide)
        (by decide) (by simp; omega)).trans ?_
      refine (run_plain 21 17 [7, 13, 28, 8] 7 rfl (by decide) (by decide) (by decide) (by decide) (by decide)
        (by decide) (by simp; omega)).trans ?_
      exact run_word .lbr 7 rfl (by decide) (by decide)
    have h2 := good_stmts (cap := cap) b 28 30 (8 :: syms) (jtok .rbr :: ts) u db inside w (by decide) (by decide)
      (by decide) (by decide) (by decide) hv hw hl hb hi hd (by simp; omega)
    refine h2.after fun u' => ?_
    refine (run_plain 28 31 [] 8 rfl (by decide) (by decide) (by decide) (by decide) (by decide)
        (by decide) (by simp; omega)).trans ?_
    exact run_word .rbr 8 rfl (by decide) (by decide)

/-- Statements followed by the symbol `X` that goes on with more of them. -/
theorem good_stmts {cap : Nat} (ss : JStmts) : ∀ (X entry : Nat) (syms : List Nat) (ts : List Tok) (u : JCfg B)
    (db : Db (Leaf B)) (inside : Bool) (w : Db Nat), entry0 jsonTables X 1 = some entry →
    entry0 jsonTables X 7 = some entry → production? jsonTables entry = some (X, [13, X]) →
    11 ≤ X ∧ X < 29 → 0 < entry ∧ entry < 32 →
    VecOk inside w → Hist u.vec w → ss.listsOk inside = true →
    ss.plain.blockNames = true → Idle u.cfg → Hist u.cfg.db db → syms.length + 2 * ss.depth + 11 ≤ cap →
    Good conv cap (13 :: X :: syms) (ss.words.map jtok ++ ts) u (X :: syms) ts w (ss.plain.apply conv db) := by
  intro X entry syms ts u db inside w h1 h1' h2 h3 h4 hv hw hl hb hi hd room
  match ss with
  | .one s =>
    rw [JStmts.words, JStmts.plain]
    rw [JStmts.depth] at room
    rw [JStmts.listsOk] at hl
    rw [JStmts.plain] at hb
    exact good_stmt s (X :: syms) ts u db inside w hv hw hl hb hi hd (by simp; omega)
  | .more s ss =>
    rw [JStmts.words, JStmts.plain, List.map_append, List.append_assoc, apply_cat]
    rw [JStmts.depth] at room
    rw [JStmts.listsOk, Bool.and_eq_true] at hl
    rw [JStmts.plain, blockNames_cat, Bool.and_eq_true] at hb
    have g := good_stmt (cap := cap) s (X :: syms) (ss.words.map jtok ++ ts) u db inside w hv hw hl.1 hb.1 hi hd
      (by simp; omega)
    refine g.bind fun u1 db1 hi1 hd1 hw1 => ?_
    have g2 := good_stmts (cap := cap) ss X entry syms ts u1 db1 inside w h1 h1' h2 h3 h4 hv hw1 hl.2 hb.2 hi1 hd1
      (by omega)
    refine Good.before ?_ g2
    obtain ⟨m, ws, hws, hty⟩ := stmts_words ss
    rw [hws]
    rcases hty with hty | hty
    · exact run_plain X entry [13, X] 1 hty h1 h2 h3.1 h3.2 h4.1 h4.2 (by simp; omega)
    · exact run_plain X entry [13, X] 7 hty h1' h2 h3.1 h3.2 h4.1 h4.2 (by simp; omega)

/-- The blocks of the list `n`, from the number `k` on. -/
theorem good_blocks {cap : Nat} (bs : JBlocks) : ∀ (n : Name) (k : Nat) (syms : List Nat) (ts : List Tok) (u : JCfg B)
    (db : Db (Leaf B)) (item : List Name → Option (Item Nat)) (p : List Name), (∀ r, item (p ++ n :: r) = none) →
    Hist u.vec ⟨within item p n k, p ++ [n]⟩ → bs.listsOk = true → k + bs.count ≤ 2 ^ 32 →
    (bs.plain n k).blockNames = true → Idle u.cfg → Hist u.cfg.db db → syms.length + 2 * bs.depth + 13 ≤ cap →
    Good conv cap (20 :: 24 :: syms) (bs.words.map jtok ++ jtok .rbk :: ts) u (24 :: syms) (jtok .rbk :: ts)
      ⟨within item p n ((k + bs.count) % 2 ^ 32), p ++ [n]⟩ ((bs.plain n k).apply conv db) := by
  intro n k syms ts u db item p hbelow hw hl hcount hb hi hd room
  -- one block
  have elem : ∀ (b : JStmts) (rest : List Tok), (∀ (u1 : JCfg B) (db1 : Db (Leaf B)), Idle u1.cfg → Hist u1.cfg.db db1 →
        Hist u1.vec ⟨within item p n ((k + 1) % 2 ^ 32), p ++ [n]⟩ →
        Good conv cap (13 :: 27 :: 8 :: 24 :: syms) (b.words.map jtok ++ jtok .rbr :: rest) u1 (27 :: 8 :: 24 :: syms)
          (jtok .rbr :: rest) ⟨within item p n ((k + 1) % 2 ^ 32), p ++ [n]⟩ (b.plain.apply conv db1)) →
      simpleName (blockName n k) = true → syms.length + 2 * b.depth + 13 ≤ cap →
      Good conv cap (20 :: 24 :: syms) (jtok .lbr :: (b.words.map jtok ++ jtok .rbr :: rest)) u (24 :: syms) rest
        ⟨within item p n ((k + 1) % 2 ^ 32), p ++ [n]⟩ ((Stmt.block (blockName n k) b.plain).apply conv db) := by
    intro b rest hbody hn room
    rw [Stmt.apply]
    refine Good.before (syms1 := 40 :: 19 :: 24 :: syms) (ts1 := jtok .lbr :: (b.words.map jtok ++ jtok .rbr :: rest))
      (u1 := u) ?_ ?_
    · exact run_plain 20 16 [40, 19] 7 rfl (by decide) (by decide) (by decide) (by decide) (by decide)
        (by decide) (by simp; omega)
    have hc := call_spec hd (.createRelative (blockName n k)) (create_allowed _ hn) (create_flag _)
    have h1 : Good conv cap (40 :: 19 :: 24 :: syms) (jtok .lbr :: (b.words.map jtok ++ jtok .rbr :: rest)) u
        (19 :: 24 :: syms) (jtok .lbr :: (b.words.map jtok ++ jtok .rbr :: rest))
        ⟨within item p n ((k + 1) % 2 ^ 32), p ++ [n]⟩ (must (Spec.ConfigDb.step db (.createRelative (blockName n k)))) := by
      cases e : must (Spec.ConfigDb.step db (.createRelative (blockName n k))) with
      | none =>
        rw [e] at hc
        obtain ⟨c', hc⟩ := hc
        obtain ⟨v', h3, _⟩ := vec_element hw hbelow u.cfg c' true hc
        exact fails_action (u' := JCfg.mk c' v') (by decide) (by decide) h3
      | some db' =>
        rw [e] at hc
        obtain ⟨s', hc, hh⟩ := hc
        obtain ⟨v', h3, h4⟩ := vec_element hw hbelow u.cfg _ false hc
        exact ⟨JCfg.mk { u.cfg with db := s' } v', run_action (by decide) (by decide) h3, idle_db hi s', hh, h4⟩
    refine h1.bind fun u1 db1 hi1 hd1 hw1 => ?_
    exact good_body b (24 :: syms) rest u1 db1 _ (by simp; omega) (hbody u1 db1 hi1 hd1 hw1)
  match bs with
  | .one b =>
    rw [JBlocks.depth] at room
    rw [JBlocks.listsOk] at hl
    rw [JBlocks.plain, Stmts.blockNames, Stmt.blockNames, Bool.and_eq_true] at hb
    have ew : (JBlocks.one b).words.map jtok ++ jtok .rbk :: ts =
        jtok .lbr :: (b.words.map jtok ++ jtok .rbr :: (jtok .rbk :: ts)) := by simp [JBlocks.words]
    rw [ew, JBlocks.plain, Stmts.apply, JBlocks.count]
    exact elem b _ (fun u1 db1 hi1 hd1 hw1 => good_stmts (cap := cap) b 27 28 (8 :: 24 :: syms) _ u1 db1
      true _ (by decide) (by decide) (by decide) (by decide) (by decide) (within_ok hbelow) hw1 hl hb.2 hi1 hd1
      (by simp; omega)) hb.1 (by omega)
  | .more b bs =>
    rw [JBlocks.depth] at room
    rw [JBlocks.listsOk, Bool.and_eq_true] at hl
    rw [JBlocks.plain, Stmts.blockNames, Stmt.blockNames, Bool.and_eq_true, Bool.and_eq_true] at hb
    rw [JBlocks.count] at hcount
    have ew : (JBlocks.more b bs).words.map jtok ++ jtok .rbk :: ts =
        jtok .lbr :: (b.words.map jtok ++ jtok .rbr :: (bs.words.map jtok ++ jtok .rbk :: ts)) := by
      simp [JBlocks.words]
    rw [ew, JBlocks.plain, Stmts.apply, JBlocks.count]
    have hpos := count_pos bs
    refine (elem b _ (fun u1 db1 hi1 hd1 hw1 => good_stmts (cap := cap) b 27 28 (8 :: 24 :: syms) _ u1 db1
      true _ (by decide) (by decide) (by decide) (by decide) (by decide) (within_ok hbelow) hw1 hl.1 hb.1.2 hi1 hd1
      (by simp; omega)) hb.1.1 (by omega)).bind fun u1 db1 hi1 hd1 hw1 => ?_
    have hk : (k + 1) % 2 ^ 32 = k + 1 := Nat.mod_eq_of_lt (by omega)
    rw [hk] at hw1
    have g := good_blocks (cap := cap) bs n (k + 1) syms ts u1 db1 item p hbelow hw1 hl.2 (by omega) hb.2 hi1 hd1 (by omega)
    rw [show k + (bs.count + 1) = k + 1 + bs.count from by omega]
    refine Good.before ?_ g
    obtain ⟨ws, hws⟩ := blocks_words bs
    rw [hws]
    exact run_plain 24 22 [20, 24] 7 rfl (by decide) (by decide) (by decide) (by decide) (by decide)
        (by decide) (by simp; omega)
end

theorem end_json {cap m : Nat} (u : JCfg B) (s' : St (Leaf B))
    (hs : ConfigDb.step u.cfg.db .moveToRoot = some (.flag true, s')) :
    inner jsonTables (jsonExec conv) cap (m + 6) (at_ [23, 29] [] u) =
      .ok { at_ [] [] (JCfg.mk { u.cfg with db := s' } u.vec) with token := 10, newToken := 10, isEOF := true } := by
  have e : jsonExec conv 1 eof u = some (JCfg.mk { u.cfg with db := s' } u.vec, false) := by
    show onCfg u (endAll u.cfg) = _
    unfold endAll call
    rw [hs]
    rfl
  have h1 : inner jsonTables (jsonExec conv) cap (m + 6) (at_ [23, 29] [] u) =
      inner jsonTables (jsonExec conv) cap (m + 5) { at_ [29] [] u with token := 10, newToken := 10, isEOF := true } := rfl
  have h2 : process jsonTables (jsonExec conv) cap (m + 4)
      { at_ [29] [] u with token := 10, newToken := 10, isEOF := true } =
      .ok { at_ [29] [] (JCfg.mk { u.cfg with db := s' } u.vec) with token := 10, newToken := 10, isEOF := true } :=
    process_action (by show 29 ≤ 29; decide) e
  rw [h1]
  show inner jsonTables (jsonExec conv) cap (m + 4 + 1) _ = _
  rw [inner, if_pos ⟨by show 0 < 29; decide, rfl⟩, h2]
  rfl

theorem vec_init : VecOk false (Spec.ConfigDb.empty : Db Nat) := ⟨rfl, fun _ _ _ => rfl⟩

/-- The whole text. -/
theorem parse_doc {cap : Nat} (d : JStmts) (s : St (Leaf B)) (db : Db (Leaf B)) (hl : d.listsOk false = true)
    (hb : d.plain.blockNames = true) (hd : Hist s db) (room : 2 * d.depth + 12 ≤ cap) :
    ∃ N, ∀ fuel, N ≤ fuel → ∃ u, match d.plain.apply conv db with
      | some db' => parseJson conv cap fuel s (d.words.map jtok) = .ok (true, u) ∧
          Hist u.cfg.db (Spec.ConfigDb.step db' .moveToRoot).2
      | none => parseJson conv cap fuel s (d.words.map jtok) = .ok (false, u) := by
  obtain ⟨m, ws, hws, hty⟩ := stmts_words d
  have hb0 : begin jsonTables cap (PS.new (JCfg.mk (Cfg.new s) ConfigDb.init) (d.words.map jtok)) =
      at_ [11] (d.words.map jtok) (JCfg.mk (Cfg.new s) ConfigDb.init) := by
    unfold begin push
    rw [if_pos (by simp; omega)]
    rfl
  have start : Runs jsonTables (jsonExec conv) cap (at_ [11] (d.words.map jtok) (JCfg.mk (Cfg.new s) ConfigDb.init))
      (at_ [13, 23, 29] (d.words.map jtok) (JCfg.mk (Cfg.new s) ConfigDb.init)) := by
    rw [hws]
    rcases hty with hty | hty
    · refine (run_plain (ts := (m :: ws).map jtok) 11 1 [12, 29] 1 hty (by decide) (by decide) (by decide) (by decide) (by decide) (by decide)
          (by simp; omega)).trans ?_
      exact run_plain (ts := (m :: ws).map jtok) 12 2 [13, 23] 1 hty (by decide) (by decide) (by decide) (by decide) (by decide) (by decide)
          (by simp; omega)
    · refine (run_plain (ts := (m :: ws).map jtok) 11 1 [12, 29] 7 hty (by decide) (by decide) (by decide) (by decide) (by decide) (by decide)
          (by simp; omega)).trans ?_
      exact run_plain (ts := (m :: ws).map jtok) 12 2 [13, 23] 7 hty (by decide) (by decide) (by decide) (by decide) (by decide) (by decide)
          (by simp; omega)
  have g := good_stmts (conv := conv) (cap := cap) d 23 20 [29] [] (JCfg.mk (Cfg.new s) ConfigDb.init) db false
    Spec.ConfigDb.empty (by decide) (by decide) (by decide) (by decide) (by decide) vec_init hist_init hl hb (idle_new s)
    hd (by simp; omega)
  rw [List.append_nil] at g
  cases e : d.plain.apply conv db with
  | none =>
    rw [e] at g
    obtain ⟨n, hn⟩ := start.fails g
    refine ⟨n + 8, fun fuel hf => ?_⟩
    obtain ⟨k, rfl⟩ : ∃ k, fuel = k + 6 + n + 2 := ⟨fuel - n - 8, by omega⟩
    obtain ⟨s', h1, h2⟩ := hn (k + 7) (by omega)
    have h1' : inner jsonTables (jsonExec conv) cap (k + 6 + n + 1)
        (begin jsonTables cap (PS.new (JCfg.mk (Cfg.new s) ConfigDb.init) (d.words.map jtok))) = .ok s' := by
      rw [hb0, ← h1]; congr 1; omega
    obtain ⟨s'', h3, h4⟩ := outer_ok (s := PS.new (JCfg.mk (Cfg.new s) ConfigDb.init) (d.words.map jtok)) rfl rfl h1' (.inl h2)
    refine ⟨s''.user, ?_⟩
    simp only
    unfold parseJson parse
    rw [h3]
    have : s''.isError = true := by rw [h4]; unfold finish; split <;> simp [h2]
    simp [this]
  | some db' =>
    rw [e] at g
    obtain ⟨u', g1, g2, g3, _⟩ := g
    obtain ⟨n, hn⟩ := start.trans g1
    obtain ⟨s', hs, hh⟩ := hist_step g3 .moveToRoot rfl
    refine ⟨n + 8, fun fuel hf => ⟨JCfg.mk { u'.cfg with db := s' } u'.vec, ?_, hh⟩⟩
    obtain ⟨k, rfl⟩ : ∃ k, fuel = k + 6 + n + 2 := ⟨fuel - n - 8, by omega⟩
    have h1 := hn (k + 7) (by omega)
    rw [show k + 7 = k + 1 + 6 from by omega, end_json u' s' hs] at h1
    have h1' : inner jsonTables (jsonExec conv) cap (k + 6 + n + 1)
        (begin jsonTables cap (PS.new (JCfg.mk (Cfg.new s) ConfigDb.init) (d.words.map jtok))) =
        .ok { at_ [] [] (JCfg.mk { u'.cfg with db := s' } u'.vec) with token := 10, newToken := 10, isEOF := true } := by
      rw [hb0, ← h1]; congr 1; omega
    obtain ⟨s'', h3, h4⟩ := outer_ok (s := PS.new (JCfg.mk (Cfg.new s) ConfigDb.init) (d.words.map jtok)) rfl rfl h1' (.inr rfl)
    unfold parseJson parse
    rw [h3, h4]
    rfl

end Verif.Json
