import Verif.Spec.ThreadPool
namespace Verif.ThreadPool
open Verif.Spec.ThreadPool

theorem allOff_iff (s : Svc) : allOff s = true ↔ Quiet s.pool := by
  unfold allOff Quiet
  simp [List.all_eq_true]

theorem set_changed (c : Conf) (v : Setting) : Changed c (c.set v) v := by cases v <;> rfl

theorem startLoop_length : ∀ (a : List Bool) (p : List Thr), (startLoop a p).2.length = p.length
  | _, [] => rfl
  | a, t :: p => by
    rw [startLoop]
    split
    · simp [startLoop_length a.tail p]
    · rfl

theorem startLoop_get : ∀ (a : List Bool) (p : List Thr) (i : Nat) (t : Thr), (startLoop a p).2[i]? = some t →
    p[i]? = some t ∨ ∃ t0, p[i]? = some t0 ∧ t = { t0 with running := some t0.conf }
  | _, [], i, t, h => by simp [startLoop] at h
  | a, x :: p, i, t, h => by
    rw [startLoop] at h
    split at h
    · cases i with
      | zero => simp at h; exact Or.inr ⟨x, rfl, h.symm⟩
      | succ i => simp at h; simpa using startLoop_get a.tail p i t h
    · exact Or.inl h

theorem startLoop_ok : ∀ (a : List Bool) (p : List Thr), ((startLoop a p).1 = true ↔ ∀ i, i < p.length → a[i]? ≠ some false) ∧
    ((startLoop a p).1 = true → (startLoop a p).2 = p.map fun t => { t with running := some t.conf })
  | _, [] => by simp [startLoop]
  | a, x :: p => by
    obtain ⟨h1, h2⟩ := startLoop_ok a.tail p
    rw [startLoop]
    by_cases ha : a.headD true = true
    · rw [if_pos ha]
      simp only
      refine ⟨?_, fun h => by rw [h2 h]; rfl⟩
      rw [h1]
      constructor
      · intro h i hi
        cases i with
        | zero => cases a with
          | nil => simp
          | cons b a => simp at ha; simp [ha]
        | succ i => cases a with
          | nil => simp
          | cons b a => simpa using h i (by simpa using hi)
      · intro h i hi
        have := h (i + 1) (by simpa using hi)
        cases a with
        | nil => simp
        | cons b a => simpa using this
    · rw [if_neg ha]
      refine ⟨⟨by simp, fun h => ?_⟩, by simp⟩
      have := h 0 (by simp)
      cases a with
      | nil => simp at ha
      | cons b a => cases b <;> simp at ha this

theorem stopLoop_quiet : ∀ (a : List StopAnswer) (e : Bool) (p : List Thr), Quiet p → stopLoop a e p = (e, p)
  | _, _, [], _ => rfl
  | a, e, t :: p, h => by
    have ht := h t (by simp)
    rw [stopLoop, if_neg (by simp [ht])]
    simp only
    rw [stopLoop_quiet a.tail e p (fun x hx => h x (List.mem_cons_of_mem _ hx))]

theorem stopLoop_good : ∀ (a : List StopAnswer) (p : List Thr), (∀ i, i < p.length → (a[i]?).getD ⟨true, true⟩ = ⟨true, true⟩) →
    stopLoop a true p = (true, p.map fun t => { t with running := none })
  | _, [], _ => rfl
  | a, t :: p, h => by
    have h0 : a.headD ⟨true, true⟩ = ⟨true, true⟩ := by
      have := h 0 (by simp)
      cases a <;> simpa using this
    have ih := stopLoop_good a.tail p fun i hi => by
      have := h (i + 1) (by simpa using hi)
      cases a with
      | nil => simp
      | cons b a => simpa using this
    rw [stopLoop]
    cases hr : t.running with
    | none =>
      simp only [Option.isSome_none, Bool.false_eq_true, if_false, ih, List.map_cons]
      rw [show ({ t with running := none } : Thr) = t by rw [← hr]]
    | some c => simp only [Option.isSome_some, if_true, h0, ih, List.map_cons]

/-- What holds in every history. -/
structure Ok (s : Svc) : Prop where
  size : s.pool = [] ∨ s.pool.length = s.count
  number : ∀ i t, s.pool[i]? = some t → t.number = i % 2 ^ 16
  agree : ∀ t c, t ∈ s.pool → t.running = some c → SameButTimeout t.conf c

theorem create_get (stack0 : Nat) (s : Svc) (i : Nat) (t : Thr) :
    (createThreads stack0 s)[i]? = some t ↔ i < s.count ∧ t = ⟨{ s.conf with stack := stack0 }, i % 2 ^ 16, none⟩ := by
  unfold createThreads
  rw [List.getElem?_map]
  by_cases h : i < s.count
  · rw [List.getElem?_range h]; simp [h]; exact eq_comm
  · rw [List.getElem?_eq_none (by simpa using h)]; simp [h]

theorem create_length (stack0 : Nat) (s : Svc) : (createThreads stack0 s).length = s.count := by simp [createThreads]

theorem Ok.start_pool {pool : List Thr} {count : Nat} {conf : Conf} (hl : pool.length = count)
    (hn : ∀ i t, pool[i]? = some t → t.number = i % 2 ^ 16) (hq : Quiet pool) (a : List Bool) : Ok ⟨conf, count, (startLoop a pool).2⟩ := by
  refine ⟨Or.inr (by rw [startLoop_length, hl]), fun i t h => ?_, fun t c h hr => ?_⟩
  · rcases startLoop_get a pool i t h with e | ⟨t0, e, rfl⟩
    · exact hn i t e
    · exact hn i t0 e
  · obtain ⟨i, hi⟩ := List.getElem?_of_mem h
    rcases startLoop_get a pool i t hi with e | ⟨t0, e, rfl⟩
    · rw [hq t (List.mem_of_getElem? e)] at hr; simp at hr
    · simp at hr; subst hr; exact ⟨rfl, rfl, rfl, rfl⟩

theorem modify_get {α} (f : α → α) (l : List α) (i j : Nat) : (l.modify i f)[j]? = if i = j then l[j]?.map f else l[j]? := by
  rw [List.getElem?_modify]
  split <;> simp

theorem off_iff (s : Svc) (i : Nat) : off s i = true ↔ ∀ t, s.pool[i]? = some t → t.running = none := by
  unfold off
  cases s.pool[i]? <;> simp

theorem step_ok (stack0 : Nat) (s : Svc) (op : Op) (h : Ok s) : Ok (step stack0 s op) := by
  cases op with
  | setAll v =>
    show Ok (setAll v s)
    unfold setAll
    split
    · rename_i hq
      rw [allOff_iff] at hq
      refine ⟨by simpa using h.size, fun i t ht => ?_, fun t c ht hr => ?_⟩
      · simp only [List.getElem?_map, Option.map_eq_some_iff] at ht
        obtain ⟨t0, e, rfl⟩ := ht
        exact h.number i t0 e
      · simp only [List.mem_map] at ht
        obtain ⟨t0, e, rfl⟩ := ht
        rw [show ({ t0 with conf := t0.conf.set v } : Thr).running = t0.running from rfl, hq t0 e] at hr
        simp at hr
    · exact h
  | setTimeout v =>
    refine ⟨by simpa [step, setTimeout] using h.size, fun i t ht => ?_, fun t c ht hr => ?_⟩
    · simp only [step, setTimeout, List.getElem?_map, Option.map_eq_some_iff] at ht
      obtain ⟨t0, e, rfl⟩ := ht
      exact h.number i t0 e
    · simp only [step, setTimeout, List.mem_map] at ht
      obtain ⟨t0, e, rfl⟩ := ht
      exact h.agree t0 c e hr
  | setOne i v =>
    show Ok (setOne i v s)
    unfold setOne
    split
    · rename_i hq
      rw [off_iff] at hq
      refine ⟨?_, fun j t ht => ?_, fun t c ht hr => ?_⟩
      · rcases h.size with e | e
        · left; simp [e]
        · right; simpa using e
      · simp only at ht
        rw [modify_get] at ht
        split at ht
        · simp only [Option.map_eq_some_iff] at ht
          obtain ⟨t0, e, rfl⟩ := ht
          exact h.number j t0 e
        · exact h.number j t ht
      · obtain ⟨j, hj⟩ := List.getElem?_of_mem ht
        simp only at hj
        rw [modify_get] at hj
        split at hj
        · rename_i hij
          subst hij
          simp only [Option.map_eq_some_iff] at hj
          obtain ⟨t0, e, rfl⟩ := hj
          rw [show ({ t0 with conf := t0.conf.set v } : Thr).running = t0.running from rfl, hq t0 e] at hr
          simp at hr
        · exact h.agree t c (List.mem_of_getElem? hj) hr
    · exact h
  | setCount n =>
    show Ok (setCount n s)
    unfold setCount
    split
    · rename_i hl
      have he : s.pool = [] := List.eq_nil_of_length_eq_zero hl
      exact ⟨Or.inl he, h.number, h.agree⟩
    · exact h
  | start a =>
    show Ok (start stack0 a s).2
    unfold start
    split
    · apply Ok.start_pool (create_length stack0 s)
      · intro i t ht
        rw [create_get] at ht
        rw [ht.2]
      · intro t ht
        obtain ⟨i, hi⟩ := List.getElem?_of_mem ht
        rw [create_get] at hi
        rw [hi.2]
    · rename_i hne
      split
      · rename_i hq
        rw [allOff_iff] at hq
        apply Ok.start_pool
        · rcases h.size with e | e
          · rw [e] at hne; simp at hne
          · exact e
        · exact h.number
        · exact hq
      · exact h
  | stop a b => exact ⟨Or.inl rfl, fun i t ht => by simp [step, stop] at ht, fun t c ht => by simp [step, stop] at ht⟩
  | ends i =>
    refine ⟨?_, fun j t ht => ?_, fun t c ht hr => ?_⟩
    · rcases h.size with e | e
      · left; simp [step, e]
      · right; simpa [step] using e
    · simp only [step] at ht
      rw [modify_get] at ht
      split at ht
      · simp only [Option.map_eq_some_iff] at ht
        obtain ⟨t0, e, rfl⟩ := ht
        exact h.number j t0 e
      · exact h.number j t ht
    · obtain ⟨j, hj⟩ := List.getElem?_of_mem ht
      simp only [step] at hj
      rw [modify_get] at hj
      split at hj
      · simp only [Option.map_eq_some_iff] at hj
        obtain ⟨t0, e, rfl⟩ := hj
        simp at hr
      · exact h.agree t c (List.mem_of_getElem? hj) hr

theorem run_ok (stack0 : Nat) : ∀ (ops : List Op) (s : Svc), Ok s → Ok (run stack0 s ops)
  | [], _, h => h
  | op :: ops, s, h => run_ok stack0 ops (step stack0 s op) (step_ok stack0 s op h)

/-- The last row wins. -/
theorem given_cons (i v : Nat) (rows : List (Nat × Nat)) (j d : Nat) : given ((i, v) :: rows) j d = given rows j (if i = j then v else d) := by
  unfold given
  rw [List.reverse_cons, List.find?_append]
  cases rows.reverse.find? fun r => r.1 == j with
  | none =>
    by_cases h : i = j
    · simp [h]
    · have : (i == j) = false := by simp [h]
      simp [h, this]
  | some r => simp

/-- The thread with other settings. -/
def withConf (t : Thr) (c : Conf) : Thr := ⟨c, t.number, t.running⟩

/-- A table, on threads that are off: `get` reads the setting that `mk` writes. -/
theorem applyRows_spec (mk : Nat → Setting) : ∀ (rows : List (Nat × Nat)) (s : Svc), Quiet s.pool → s.pool.length = s.count →
    ((applyRows mk rows s).1 = true ↔ ∀ r, r ∈ rows → r.1 < s.count) ∧ Quiet (applyRows mk rows s).2.pool ∧
    (applyRows mk rows s).2.count = s.count ∧ (applyRows mk rows s).2.pool.length = s.count ∧
    ((applyRows mk rows s).1 = true → ∀ (i : Nat) (t : Thr), s.pool[i]? = some t →
      (applyRows mk rows s).2.pool[i]? = some (withConf t (rows.foldl (fun c r => if r.1 = i then c.set (mk r.2) else c) t.conf)))
  | [], s, hq, hl => by
    simp only [applyRows, List.not_mem_nil, false_implies, implies_true, true_and, hq, hl, List.foldl_nil]
    exact fun _ i t h => h
  | (i, v) :: rows, s, hq, hl => by
    rw [applyRows]
    by_cases hi : i < s.count
    · rw [if_pos hi]
      have hoff : off s i = true := by rw [off_iff]; exact fun t ht => hq t (List.mem_of_getElem? ht)
      have hset : setOne i (mk v) s = { s with pool := s.pool.modify i fun t => { t with conf := t.conf.set (mk v) } } := by
        unfold setOne; rw [if_pos hoff]
      have hq' : Quiet (setOne i (mk v) s).pool := by
        intro t ht
        obtain ⟨j, hj⟩ := List.getElem?_of_mem ht
        rw [hset] at hj
        simp only at hj
        rw [modify_get] at hj
        split at hj
        · simp only [Option.map_eq_some_iff] at hj
          obtain ⟨t0, e, rfl⟩ := hj
          exact hq t0 (List.mem_of_getElem? e)
        · exact hq t (List.mem_of_getElem? hj)
      have hc : (setOne i (mk v) s).count = s.count := by rw [hset]
      have hl' : (setOne i (mk v) s).pool.length = (setOne i (mk v) s).count := by rw [hset]; simpa using hl
      obtain ⟨h1, h2, h3, h4, h5⟩ := applyRows_spec mk rows _ hq' hl'
      rw [hc] at h1 h3 h4
      refine ⟨?_, h2, h3, h4, fun hok j t ht => ?_⟩
      · rw [h1]; simp [hi]
      · have hj : (setOne i (mk v) s).pool[j]? = some (withConf t (if i = j then t.conf.set (mk v) else t.conf)) := by
          rw [hset]
          simp only
          rw [modify_get, ht]
          by_cases e : i = j <;> simp [e, withConf]
        rw [h5 hok j _ hj]
        rfl
    · rw [if_neg hi]
      refine ⟨⟨by simp, fun h => absurd (h (i, v) (by simp)) hi⟩, hq, rfl, hl, by simp⟩

theorem foldl_cls : ∀ (rows : List (Nat × Nat)) (i : Nat) (c : Conf),
    rows.foldl (fun c r => if r.1 = i then c.set (.cls r.2) else c) c = { c with cls := given rows i c.cls }
  | [], i, c => by simp [given]
  | (j, v) :: rows, i, c => by
    rw [List.foldl_cons, foldl_cls rows i, given_cons]
    by_cases h : j = i <;> simp [h, Conf.set]

theorem foldl_stack : ∀ (rows : List (Nat × Nat)) (i : Nat) (c : Conf),
    rows.foldl (fun c r => if r.1 = i then c.set (.stack r.2) else c) c = { c with stack := given rows i c.stack }
  | [], i, c => by simp [given]
  | (j, v) :: rows, i, c => by
    rw [List.foldl_cons, foldl_stack rows i, given_cons]
    by_cases h : j = i <;> simp [h, Conf.set]

theorem foldl_cpu : ∀ (rows : List (Nat × Nat)) (i : Nat) (c : Conf),
    rows.foldl (fun c r => if r.1 = i then c.set (.cpu r.2) else c) c = { c with cpu := given rows i c.cpu }
  | [], i, c => by simp [given]
  | (j, v) :: rows, i, c => by
    rw [List.foldl_cons, foldl_cpu rows i, given_cons]
    by_cases h : j = i <;> simp [h, Conf.set]

theorem foldl_level : ∀ (rows : List (Nat × Nat)) (i : Nat) (c : Conf), (∀ r, r ∈ rows → r.2 < 256) →
    rows.foldl (fun c r => if r.1 = i then c.set (mkLevel r.2) else c) c = { c with level := given rows i c.level }
  | [], i, c, _ => by simp [given]
  | (j, v) :: rows, i, c, hr => by
    have hv : v < 256 := hr (j, v) (by simp)
    rw [List.foldl_cons, foldl_level rows i _ (fun r h => hr r (by simp [h])), given_cons]
    by_cases h : j = i <;> simp [h, Conf.set, mkLevel, Nat.mod_eq_of_lt hv]

end Verif.ThreadPool
