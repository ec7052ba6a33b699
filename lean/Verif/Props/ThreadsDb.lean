import Verif.Proof.ThreadsDb
/-!
# C74: the database of threads
-/
namespace Verif.Props.ThreadsDb
open Verif.ThreadsDb Verif.Spec.ThreadsDb

set_option maxRecDepth 20000

private theorem rep_empty : Rep empty [] := Or.inl ⟨rfl, rfl⟩

/-- **C74** (no memory fault).  No history of insertions and removals, of any records, reads outside of the array, and each
operation answers. -/
theorem c74_no_fault (g : Nat) (hg : 0 < g) (ops : List Op) :
    ∃ ans db, run g ops empty = some (ans, db) ∧ ans.length = ops.length := by
  obtain ⟨ans, db, h, hl, -⟩ := sound_run g hg ops empty ⟨[], rep_empty⟩
  exact ⟨ans, db, h, hl⟩

/-- **C74** (a table).  After every history in which each new identifier is not yet in the table: the lookup, the removal, the
number of threads, the enumeration and the search by name are those of the table. -/
theorem c74_history_partial (g : Nat) (hg : 0 < g) (ops : List Op) (ans : List Bool) (db : Db)
    (h : run g ops empty = some (ans, db)) (hf : Fresh [] ops ans) :
    (∀ i, getInfo i db = some (lookup (steps [] ops ans) i)) ∧
    (∀ i, (removeEntry i db).map (·.1) = some (lookup (steps [] ops ans) i)) ∧
    db.n = (steps [] ops ans).length ∧
    (db.n < 2 ^ 32 → ((List.range db.n).map fun k => getThreadId k db).Perm ((steps [] ops ans).map fun r => some r.id)) ∧
    (∀ k, db.n ≤ k → k + 1 < 2 ^ 32 → getThreadId k db = some 0) ∧
    (∀ name, (∃ r, r ∈ steps [] ops ans ∧ r.name = some name ∧ find name db = some r.id) ∨
      ((∀ r, r ∈ steps [] ops ans → r.name ≠ some name) ∧ find name db = some 0)) := by
  obtain ⟨hr, hd⟩ := rep_run g hg ops empty [] ans db h rep_empty (by simp) hf
  have hn : db.n = (steps [] ops ans).length := by
    rcases hr with ⟨e, e2⟩ | ⟨l, e, hp⟩
    · rw [e, e2]; rfl
    · rw [e]
  have ho := rep_order db _ hr
  have hlen := ho.length_eq
  refine ⟨fun i => rep_getInfo i db _ hr hd, fun i => ?_, hn, fun hlt => ?_, fun k hk hk2 => ?_, fun name => rep_find name db _ hr⟩
  · obtain ⟨d, e, -⟩ := rep_remove i db _ hr hd
    rw [e]; rfl
  · refine List.Perm.trans (.of_eq ?_) (ho.map fun r => some r.id)
    apply List.ext_getElem
    · simp [hn, hlen]
    · intro k h1 h2
      simp only [List.length_map, List.length_range] at h1
      simp only [List.getElem_map, List.getElem_range]
      rw [rep_threadId k (by omega) db _ hr, List.getElem?_eq_getElem (by omega)]
      rfl
  · rw [rep_threadId k hk2 db _ hr, List.getElem?_eq_none (by omega)]
    rfl

/-- **C74** (one insertion).  It is accepted, and only the lookup of its identifier changes, or it is refused, and nothing changes. -/
theorem c74_insert_then_lookup (g : Nat) (hg : 0 < g) (ops : List Op) (ans : List Bool) (db : Db) (r : Rec)
    (h : run g ops empty = some (ans, db)) (hf : Fresh [] ops ans) (hr : lookup (steps [] ops ans) r.id = none) :
    ∃ db', (newEntry g true r db = some (true, db') ∧ (∀ i, getInfo i db' = some (if i = r.id then some r else lookup (steps [] ops ans) i))) ∨
      (newEntry g true r db = some (false, db') ∧ db' = db) := by
  obtain ⟨hrep, hd⟩ := rep_run g hg ops empty [] ans db h rep_empty (by simp) hf
  obtain ⟨ok, db', h1, h2, h3⟩ := rep_new g hg r db _ hrep
  cases ok with
  | false => exact ⟨db', Or.inr ⟨h1, (h3 rfl).2.2⟩⟩
  | true =>
    refine ⟨db', Or.inl ⟨h1, fun i => ?_⟩⟩
    rw [rep_getInfo i db' _ h2 (step_nodup _ (.new r) true hd fun r' e => by cases e; exact hr)]
    show some (lookup (r :: steps [] ops ans) i) = _
    unfold lookup
    rw [List.find?_cons]
    by_cases e : i = r.id
    · subst e; simp
    · rw [if_neg e]
      have : (r.id == i) = false := by simp; exact fun h => e h.symm
      rw [this]

/-- **C74** (when an insertion is refused).  With memory to allocate, only if the table is not empty and the array has exactly
one free place. -/
theorem c74_refused (g : Nat) (hg : 0 < g) (ops : List Op) (ans : List Bool) (db : Db) (r : Rec)
    (h : run g ops empty = some (ans, db)) (hr : (newEntry g true r db).map (·.1) = some false) : 0 < db.n ∧ db.max = db.n + 1 := by
  obtain ⟨ans', db', h', -, t, hrep⟩ := sound_run g hg ops empty ⟨[], rep_empty⟩
  rw [h] at h'
  simp only [Option.some.injEq, Prod.mk.injEq] at h'
  obtain ⟨-, rfl⟩ := h'
  obtain ⟨ok, d, h1, -, h3⟩ := rep_new g hg r db t hrep
  rw [h1] at hr
  simp only [Option.map_some, Option.some.injEq] at hr
  obtain ⟨a, b, -⟩ := h3 hr
  rcases hrep with ⟨e, e2⟩ | ⟨l, e, -⟩
  · rw [e2] at a; simp at a
  · rw [e] at b ⊢; exact ⟨a, b⟩

/-- **C74** (no removals).  Any number of insertions in a row from the start is accepted. -/
theorem c74_insertions (g : Nat) (hg : 0 < g) (rs : List Rec) :
    ∃ db, run g (rs.map .new) empty = some (List.replicate rs.length true, db) := by
  cases rs with
  | nil => exact ⟨empty, rfl⟩
  | cons r rs =>
    obtain ⟨l, k, h⟩ := run_news g hg (r :: rs) [] g (Or.inr hg)
    refine ⟨⟨some (l.map some ++ List.replicate k none), l.length, l.length + k⟩, ?_⟩
    · rw [← h]
      simp only [List.map_cons, run]
      congr 1
      have e : allocMore g true empty = (true, ⟨some (List.replicate g none), 0, g⟩) := rfl
      have e2 : allocMore g true ⟨some (List.map some [] ++ List.replicate g none), ([] : List Rec).length, ([] : List Rec).length + g⟩ =
          (true, ⟨some (List.replicate g none), 0, g⟩) := by
        simp only [allocMore, List.length_nil, Nat.zero_add, List.map_nil, List.nil_append]
        rw [if_neg (by omega)]
      unfold newEntry
      rw [e, e2]

/-- Threads numbered from 1, without a name. -/
private def thread (k : Nat) : Rec := ⟨k + 1, none, k⟩

/-- **C74** fails (room that is not found).  `THREADS_DATABASE_GRANULARITY` is 64: with 64 threads, after the one before the
last ends, no other thread can be registered, although there is a free place and memory. -/
theorem c74_full_fails :
    (run 64 ((List.range 64).map (fun k => Op.new (thread k)) ++ [.remove 63, .new (thread 100), .new (thread 101)]) empty).map (fun x => (x.1.drop 64, x.2.n, x.2.max)) =
      some ([true, false, false], 63, 64) := by decide +kernel

/-- **C74** fails (no memory).  When the array cannot grow it is forgotten: the lookup of a thread that is there reads through a
null pointer, and the next insertion starts with an empty table. -/
theorem c74_realloc_fails :
    ((run 64 ((List.range 64).map fun k => Op.new (thread k)) empty).bind fun x => (newEntry 64 false (thread 64) x.2).bind fun y =>
      (newEntry 64 true (thread 64) y.2).map fun z => (getInfo 1 x.2, y.1, getInfo 1 y.2, getThreadId 0 y.2, z.1, getInfo 1 z.2, z.2.n)) =
      some (some (some (thread 0)), false, none, none, true, some none, 1) := by rfl

/-- **C74** fails (the largest index).  `GetThreadID(0xFFFFFFFF)` reads outside of the array. -/
theorem c74_index_fails (g : Nat) (hg : 0 < g) (ops : List Op) (ans : List Bool) (db : Db)
    (h : run g ops empty = some (ans, db)) (hm : db.max < 2 ^ 32) : getThreadId (2 ^ 32 - 1) db = none := by
  obtain ⟨ans', db', h', -, t, hrep⟩ := sound_run g hg ops empty ⟨[], rep_empty⟩
  rw [h] at h'
  simp only [Option.some.injEq, Prod.mk.injEq] at h'
  obtain ⟨-, rfl⟩ := h'
  have hc : ∀ (e : Option (List (Option Rec))) (m f : Nat), countTo e m f ((2 ^ 32 - 1 + 1) % 2 ^ 32) 0 = some (0, 0) := by
    intro e m f
    rw [show (2 ^ 32 - 1 + 1) % 2 ^ 32 = 0 by decide]
    cases f with
    | zero => rfl
    | succ f => simp [countTo]
  unfold getThreadId
  rw [hc]
  rcases hrep with ⟨e, e2⟩ | ⟨l, e, -⟩
  · rw [e]; rfl
  · rw [e] at hm ⊢
    simp only at hm
    have hnone : l[(2 ^ 32 - 1 : Nat)]? = none := List.getElem?_eq_none (by omega)
    simp only [Option.bind_some, if_true]
    rw [hnone]
    simp

/-- The same identifier twice: the second record stays hidden until the first is removed (the hypothesis `Fresh` is needed). -/
theorem c74_duplicate_fails :
    (run 64 [.new ⟨5, none, 1⟩, .new ⟨5, none, 2⟩] empty).map (fun x => (x.1, getInfo 5 x.2)) = some ([true, true], some (some ⟨5, none, 1⟩)) := by
  decide +kernel

-- A history with three threads and one end.
example : ∃ db, run 64 [.new (thread 0), .new ⟨9, some ['a'], 3⟩, .remove 1, .new (thread 4)] empty = some ([true, true, true, true], db) ∧
    Fresh [] [.new (thread 0), .new ⟨9, some ['a'], 3⟩, .remove 1, .new (thread 4)] [true, true, true, true] ∧
    getInfo 9 db = some (some ⟨9, some ['a'], 3⟩) ∧ getInfo 1 db = some none ∧ find ['a'] db = some 9 ∧ db.n = 2 := by
  refine ⟨_, rfl, ?_, ?_⟩
  · refine ⟨rfl, rfl, rfl, trivial⟩
  · decide +kernel

end Verif.Props.ThreadsDb
