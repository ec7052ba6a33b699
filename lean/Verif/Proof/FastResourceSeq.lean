import Verif.Proof.FastResource2
import Verif.Proof.FastResource3

/-! One thread alone on a container, created with or without its elements. -/
set_option linter.unusedSimpArgs false
namespace Verif.FastResource

/-- No call is in progress and exactly the elements of `f` are in the container. -/
structure Quiet (n : Nat) (s : State) (f : Nat → Bool) : Prop where
  hn : s.n = n
  hL : s.L = levels n
  pcs : s.pcs = [.idle]
  bad : s.bad = false
  lt : ∀ p, f p = true → p < n
  sem : ∀ p, f p = true → s.sem p = false
  size : ∀ q, s.size q = freeCnt n (levels n) (fun p => !f p) q

def runs (m : Nat) : List Ev := List.replicate m (.run 0)

theorem run_runs_succ (s : State) (m : Nat) : run s (runs (m + 1)) = run (step s (.run 0)) (runs m) := rfl

theorem run_runs_add (s : State) (m m' : Nat) : run s (runs (m + m')) = run (run s (runs m)) (runs m') := by
  unfold runs run; rw [List.replicate_append_replicate.symm, List.foldl_append]

theorem run_runs_idle (s : State) (h : s.pcs = [.idle]) (m : Nat) : run s (runs m) = s := by
  induction m with
  | zero => rfl
  | succ m ih => rw [run_runs_succ, step_idle (by simp [At, h]), ih]

theorem run_runs_done {s s' : State} {m N : Nat} (h : run s (runs m) = s') (hi : s'.pcs = [.idle]) (hN : m ≤ N) :
    run s (runs N) = s' := by
  obtain ⟨d, rfl⟩ := Nat.exists_eq_add_of_le hN
  rw [run_runs_add, h, run_runs_idle _ hi]

def State.on (s : State) (pc : PC) : State := { s with pcs := [pc] }

theorem size_ge {n : Nat} {s : State} {f : Nat → Bool} (hq : Quiet n s f) {h q : Nat} (hf : f h = true)
    (hm : q ∈ chain (levels n) h) : 0 < s.size q := by
  rw [hq.size]
  have : 1 ≤ freeCnt n (levels n) (fun p => !f p) q := countP_pos' (hq.lt h hf) (by simp [hf, hm])
  omega

theorem size_zero {n : Nat} {s : State} {f : Nat → Bool} (hq : Quiet n s f) {q : Nat}
    (hm : ∀ p, f p = true → q ∉ chain (levels n) p) : s.size q = 0 := by
  rw [hq.size]
  have : freeCnt n (levels n) (fun p => !f p) q = 0 := by
    unfold freeCnt
    rw [List.countP_eq_zero]
    intro p _ hp
    simp only [Bool.not_not, Bool.and_eq_true, decide_eq_true_eq] at hp
    exact hm p hp.1 hp.2
  omega

theorem on_eq {s s' : State} (pc : PC) (h1 : s'.n = s.n) (h2 : s'.L = s.L) (h3 : s'.sem = s.sem) (h4 : s'.size = s.size)
    (h5 : s'.trace = s.trace) (h6 : s'.bad = s.bad) (h7 : s'.pcs = [pc]) : s' = s.on pc := by
  cases s; cases s'; simp_all [State.on]

theorem touch_eq {s : State} {p : Nat} (h : p < s.n) : s.touch p = s := by
  cases s
  simp only [State.touch] at h ⊢
  have : ¬ (_ ≤ p) := Nat.not_le_of_lt h
  simp [this]

theorem step_start {s : State} (h : s.pcs = [.start]) : step s (.run 0) =
    if s.n = 0 then (s.goto 0 .idle).emit (.took 0 0)
    else if s.size 0 ≠ 0 then s.goto 0 (.loop ⟨0, s.L, fun _ => false, fun _ => false⟩)
    else (s.goto 0 .idle).emit (.failed 0) := by
  have h' : s.pcs[0]? = some .start := by rw [h]; rfl
  unfold step; simp only [h']

theorem step_loop {s : State} {c : Cursor} (h : s.pcs = [.loop c]) (h1 : ¬ c.lvl > s.L) (h2 : ¬ c.lvl = 0) :
    step s (.run 0) = bodyStep s 0 c := by
  have h' : s.pcs[0]? = some (.loop c) := by rw [h]; rfl
  unfold step; simp only [h', h1, h2, if_false]

theorem step_leaf {s : State} {c : Cursor} (h : s.pcs = [.loop c]) (h2 : c.lvl = 0) (hs : s.sem c.pos = false) :
    step s (.run 0) = { s.touch c.pos with sem := fun i => if i = c.pos then true else s.sem i }.goto 0
            (.dec c.pos (chain s.L c.pos)) := by
  have h' : s.pcs[0]? = some (.loop c) := by rw [h]; rfl
  have h1 : ¬ c.lvl > s.L := by omega
  unfold step; simp only [h', h1, h2, hs, if_false, if_true, Bool.false_eq_true]
  simp only [h2 ▸ h1, if_false]

theorem step_right {s : State} {c : Cursor} {tot : Int} (h : s.pcs = [.right c tot]) (h1 : tot - s.rightOf c > 0) :
    step s (.run 0) = s.goto 0 (.loop { c with lvl := c.lvl - 1 }) := by
  have h' : s.pcs[0]? = some (.right c tot) := by rw [h]; rfl
  unfold step; simp only [h', h1, if_true]

theorem goto_on (s : State) (pc pc' : PC) : (s.on pc).goto 0 pc' = s.on pc' := rfl

theorem body_left {s : State} {pc : PC} {c : Cursor} {k : Nat} (hk : c.lvl = k + 1) (hr : c.ret k = false) (hp : c.path k = false)
    (hz : ¬ (s.on pc).rightOf c > 0) : bodyStep (s.on pc) 0 c = s.on (.loop { c with path := setBit c.path k true }) := by
  have hk1 : c.lvl - 1 = k := by omega
  unfold bodyStep
  simp only [hk1, hr, hp, Bool.false_eq_true, if_false, hz, goto_on]

theorem body_right {s : State} {pc : PC} {c : Cursor} {k : Nat} (hk : c.lvl = k + 1) (hr : c.ret k = false) (hp : c.path k = false)
    (hz : (s.on pc).rightOf c > 0) : bodyStep (s.on pc) 0 c =
      s.on (.loop { c with path := setBit c.path k true, pos := c.pos + 2 ^ k, lvl := k }) := by
  have hk1 : c.lvl - 1 = k := by omega
  unfold bodyStep
  simp only [hk1, hr, hp, Bool.false_eq_true, if_false, if_true, hz, goto_on]

theorem body_tot {s : State} {pc : PC} {c : Cursor} {k : Nat} (hk : c.lvl = k + 1) (hr : c.ret k = false) (hp : c.path k = true)
    (hlt : c.pos < s.n) : bodyStep (s.on pc) 0 c =
      s.on (.right { c with path := setBit c.path k false, ret := setBit c.ret k true } (s.size c.pos)) := by
  have hk1 : c.lvl - 1 = k := by omega
  have ht : (s.on pc).touch c.pos = s.on pc := touch_eq hlt
  unfold bodyStep
  simp only [hk1, hr, hp, Bool.false_eq_true, if_false, if_true, ht, goto_on]
  rfl

theorem descend {n : Nat} {s : State} {f : Nat → Bool} (hq : Quiet n s f) {h : Nat} (hf : f h = true)
    (hmax : ∀ p, f p = true → p ≤ h) : ∀ (lvl : Nat) (c : Cursor), c.lvl = lvl → lvl ≤ levels n → 2 ^ lvl ∣ c.pos →
    c.pos ≤ h → h < c.pos + 2 ^ lvl → (∀ k, k < lvl → c.path k = false ∧ c.ret k = false) →
    ∃ m c', m ≤ 3 * lvl ∧ c'.pos = h ∧ c'.lvl = 0 ∧ run (s.on (.loop c)) (runs m) = s.on (.loop c') := by
  intro lvl
  induction lvl with
  | zero =>
    intro c hc _ _ h1 h2 _
    exact ⟨0, c, Nat.le_refl 0, by simp at h2; omega, hc, rfl⟩
  | succ k ih =>
    intro c hc hk hd h1 h2 hpr
    obtain ⟨hp0, hr0⟩ := hpr k (Nat.lt_succ_self k)
    have hpow : 2 ^ (k + 1) = 2 ^ k + 2 ^ k := by rw [Nat.pow_succ]; omega
    have hdk : 2 ^ k ∣ c.pos := Nat.dvd_trans (Nat.pow_dvd_pow 2 (Nat.le_succ k)) hd
    have hlt : h < n := hq.lt h hf
    have hgt : ¬ c.lvl > s.L := by rw [hc, hq.hL]; omega
    have hne : ¬ c.lvl = 0 := by omega
    have hs1 : step (s.on (.loop c)) (.run 0) = bodyStep (s.on (.loop c)) 0 c := by
      exact step_loop rfl hgt hne
    have hk1 : c.lvl - 1 = k := by omega
    rcases Nat.lt_or_ge h (c.pos + 2 ^ k) with hl | hr
    · -- nothing in the right half
      have hz : s.size (c.pos + 2 ^ k) = 0 := by
        refine size_zero hq ?_
        intro p hp hm
        have := chain_le hm
        have := hmax p hp
        omega
      have hzr : ∀ (s' : State) (c' : Cursor), s'.size = s.size → c'.pos = c.pos → c'.lvl = c.lvl → s'.rightOf c' = 0 := by
        intro s' c' e1 e2 e3
        unfold State.rightOf
        rw [e1, e2, e3, hk1, hz]; split <;> rfl
      have hz1 := hzr (s.on (.loop c)) c rfl rfl rfl
      have hb1 : bodyStep (s.on (.loop c)) 0 c = s.on (.loop { c with path := setBit c.path k true }) := by
        exact body_left hc hr0 hp0 (by rw [hz1]; omega)
      have hs2 : step (s.on (.loop { c with path := setBit c.path k true })) (.run 0) =
          s.on (.right { c with path := setBit (setBit c.path k true) k false, ret := setBit c.ret k true } (s.size c.pos)) := by
        refine Eq.trans (step_loop (s := s.on (.loop { c with path := setBit c.path k true })) rfl hgt hne) ?_
        exact body_tot (c := { c with path := setBit c.path k true }) hc hr0 (by simp [setBit])
          (by show c.pos < s.n; rw [hq.hn]; omega)
      have htot : 0 < s.size c.pos := size_ge hq hf (mem_chain_node hk hd h1 (by omega))
      obtain ⟨c2, hc2⟩ : ∃ c2 : Cursor, c2 = { c with path := setBit (setBit c.path k true) k false, ret := setBit c.ret k true } := ⟨_, rfl⟩
      have hs3 : step (s.on (.right c2 (s.size c.pos))) (.run 0) = s.on (.loop { c2 with lvl := c2.lvl - 1 }) := by
        refine step_right rfl ?_
        rw [hzr (s.on (.right c2 (s.size c.pos))) c2 rfl (by rw [hc2]) (by rw [hc2])]
        omega
      rw [← hc2] at hs2
      obtain ⟨m, c', hm, hcp, hcl, hrun⟩ := ih { c2 with lvl := c2.lvl - 1 } (by rw [hc2]; exact hk1) (by omega)
        (by rw [hc2]; exact hdk) (by rw [hc2]; exact h1) (by rw [hc2]; exact hl) (by
          intro j hj
          obtain ⟨a, b⟩ := hpr j (by omega)
          have : ¬ j = k := by omega
          simp only [hc2, setBit, this, if_false]
          exact ⟨a, b⟩)
      refine ⟨m + 3, c', by omega, hcp, hcl, ?_⟩
      rw [run_runs_succ, hs1, hb1, run_runs_succ, hs2, run_runs_succ, hs3, hrun]
    · -- something in the right half
      have hpos : 0 < s.size (c.pos + 2 ^ k) := by
        refine size_ge hq hf (mem_chain_node (c := k) (by omega) ?_ hr (by omega))
        exact Nat.dvd_add hdk (Nat.dvd_refl _)
      have hz1 : (s.on (.loop c)).rightOf c > 0 := by
        unfold State.rightOf
        rw [hk1]
        show (if c.pos + 2 ^ k < s.n then s.size (c.pos + 2 ^ k) else 0) > 0
        rw [if_pos (by rw [hq.hn]; omega)]
        exact hpos
      have hb1 := body_right hc hr0 hp0 hz1
      obtain ⟨m, c', hm, hcp, hcl, hrun⟩ := ih { c with path := setBit c.path k true, pos := c.pos + 2 ^ k, lvl := k }
        rfl (by omega) (Nat.dvd_add hdk (Nat.dvd_refl _)) hr (by show h < c.pos + 2 ^ k + 2 ^ k; omega) (by
          intro j hj
          obtain ⟨a, b⟩ := hpr j (by omega)
          have : ¬ j = k := by omega
          simp only [setBit, this, if_false]
          exact ⟨a, b⟩)
      refine ⟨m + 1, c', by omega, hcp, hcl, ?_⟩
      rw [run_runs_succ, hs1, hb1, hrun]

theorem run_dec {s : State} (p : Nat) : ∀ (todo : List Nat) (size : Nat → Int),
    todo.Pairwise (· > ·) → (∀ q ∈ todo, q < s.n) →
    run { s with pcs := [.dec p todo], size := size } (runs (todo.length + 1)) =
      { s with pcs := [.idle], size := fun q => size q - (if q ∈ todo then 1 else 0), trace := s.trace ++ [.took 0 p] } := by
  intro todo
  induction todo with
  | nil => intro size _ _; simp [runs, run, step, State.goto, State.emit]
  | cons q todo ih =>
    intro size hp hlt
    rw [List.length_cons, run_runs_succ]
    have hs : step { s with pcs := [.dec p (q :: todo)], size := size } (.run 0) =
        { s with pcs := [.dec p todo], size := bump size q (-1) } := by
      have : ¬ s.n ≤ q := by have := hlt q List.mem_cons_self; omega
      simp [step, State.goto, State.touch, this]
    rw [hs, ih _ hp.of_cons fun x hx => hlt x (List.mem_cons_of_mem _ hx)]
    have hnot : q ∉ todo := by intro hx; have := List.rel_of_pairwise_cons hp hx; omega
    congr 1
    funext i
    rw [bump_get]
    by_cases e : i = q
    · subst e; simp [hnot]; omega
    · simp [e]

theorem run_inc {s : State} : ∀ (todo : List Nat) (size : Nat → Int),
    todo.Pairwise (· > ·) → (∀ q ∈ todo, q < s.n) →
    run { s with pcs := [.inc todo], size := size } (runs (todo.length + 1)) =
      { s with pcs := [.idle], size := fun q => size q + (if q ∈ todo then 1 else 0) } := by
  intro todo
  induction todo with
  | nil => intro size _ _; simp [runs, run, step, State.goto, State.emit]
  | cons q todo ih =>
    intro size hp hlt
    rw [List.length_cons, run_runs_succ]
    have hs : step { s with pcs := [.inc (q :: todo)], size := size } (.run 0) =
        { s with pcs := [.inc todo], size := bump size q 1 } := by
      have : ¬ s.n ≤ q := by have := hlt q List.mem_cons_self; omega
      simp [step, State.goto, State.touch, this]
    rw [hs, ih _ hp.of_cons fun x hx => hlt x (List.mem_cons_of_mem _ hx)]
    have hnot : q ∉ todo := by intro hx; have := List.rel_of_pairwise_cons hp hx; omega
    congr 1
    funext i
    rw [bump_get]
    by_cases e : i = q
    · subst e; simp [hnot]
    · simp [e]

theorem quiet_take {n : Nat} {s : State} {f : Nat → Bool} (hq : Quiet n s f) {h : Nat} (hf : f h = true)
    (hmax : ∀ p, f p = true → p ≤ h) {N : Nat} (hN : 4 * levels n + 4 ≤ N) :
    ∃ s', run (step s (.take 0)) (runs N) = s' ∧ s'.trace = s.trace ++ [.took 0 h] ∧
      Quiet n s' (fun p => if p = h then false else f p) := by
  have hlt : h < n := hq.lt h hf
  have hle := le_levels n
  have h0 : step s (.take 0) = s.on .start := by
    simp only [step, hq.pcs, List.getElem?_cons_zero, State.goto, State.on, List.set_cons_zero]
  have hroot : 0 < s.size 0 := size_ge hq hf (zero_mem_chain (by omega))
  have h1 : step (s.on .start) (.run 0) = s.on (.loop ⟨0, s.L, fun _ => false, fun _ => false⟩) := by
    rw [step_start rfl, if_neg (by show ¬ s.n = 0; rw [hq.hn]; omega), if_pos (by show s.size 0 ≠ 0; omega)]
    rfl
  obtain ⟨m, c', hm, hcp, hcl, hrun⟩ := descend hq hf hmax (levels n) ⟨0, s.L, fun _ => false, fun _ => false⟩ hq.hL
    (Nat.le_refl _) ⟨0, by simp⟩ (Nat.zero_le _) (by simpa using (by omega : h < 2 ^ levels n)) (fun _ _ => ⟨rfl, rfl⟩)
  have h2 : step (s.on (.loop c')) (.run 0) =
      { ({ s with sem := fun i => if i = h then true else s.sem i } : State) with
        pcs := [.dec h (chain (levels n) h)], size := s.size } := by
    rw [step_leaf rfl hcl (by rw [hcp]; exact hq.sem h hf), hcp,
      touch_eq (s := s.on (.loop c')) (by show h < s.n; rw [hq.hn]; exact hlt), ← hq.hL]
    rfl
  have h3 := run_dec (s := ({ s with sem := fun i => if i = h then true else s.sem i } : State)) h
    (chain (levels n) h) s.size (chain_pairwise _ _) (fun q hqm => by
      have := chain_le hqm
      show q < s.n
      rw [hq.hn]; omega)
  refine ⟨{ s with sem := (fun i => if i = h then true else s.sem i), pcs := [.idle], size := fun q => s.size q - (if q ∈ chain (levels n) h then 1 else 0), trace := s.trace ++ [.took 0 h] }, ?_, rfl, ?_⟩
  · have hcl' := chain_length (levels n) h
    refine run_runs_done (m := 1 + m + 1 + ((chain (levels n) h).length + 1)) ?_ rfl (by omega)
    rw [h0, run_runs_add _ (1 + m + 1) _, run_runs_add _ (1 + m) 1, run_runs_add _ 1 m]
    rw [show run (s.on .start) (runs 1) = step (s.on .start) (.run 0) from rfl, h1, hrun]
    exact Eq.trans (congrArg (fun x => run x (runs _)) h2) h3
  · refine ⟨hq.hn, hq.hL, rfl, hq.bad, ?_, ?_, ?_⟩
    · intro p hp
      by_cases e : p = h
      · rw [if_pos e] at hp; cases hp
      · rw [if_neg e] at hp; exact hq.lt p hp
    · intro p hp
      by_cases e : p = h
      · rw [if_pos e] at hp; cases hp
      · rw [if_neg e] at hp; show (if p = h then true else s.sem p) = false; rw [if_neg e]; exact hq.sem p hp
    · intro q
      show s.size q - _ = _
      rw [hq.size]
      unfold freeCnt
      rw [countP_range_update (f := fun p => !(!if p = h then false else f p) && decide (q ∈ chain (levels n) p))
        (g := fun p => !(!f p) && decide (q ∈ chain (levels n) p)) hlt]
      · simp [hf]
      · intro i hi; simp [hi]

theorem quiet_take_empty {n : Nat} {s : State} {f : Nat → Bool} (hq : Quiet n s f) (hn : 0 < n) (hf : ∀ p, f p = false)
    {N : Nat} (hN : 1 ≤ N) :
    ∃ s', run (step s (.take 0)) (runs N) = s' ∧ s'.trace = s.trace ++ [.failed 0] ∧ Quiet n s' f := by
  have h0 : step s (.take 0) = s.on .start := by
    simp only [step, hq.pcs, List.getElem?_cons_zero, State.goto, State.on, List.set_cons_zero]
  have hroot : s.size 0 = 0 := size_zero hq fun p hp => by rw [hf p] at hp; cases hp
  have h1 : step (s.on .start) (.run 0) = { s with pcs := [.idle], trace := s.trace ++ [.failed 0] } := by
    rw [step_start rfl, if_neg (by show ¬ s.n = 0; rw [hq.hn]; omega), if_neg (by show ¬ s.size 0 ≠ 0; omega)]
    rfl
  refine ⟨{ s with pcs := [.idle], trace := s.trace ++ [.failed 0] }, ?_, rfl, ?_⟩
  · refine run_runs_done (m := 1) ?_ rfl hN
    rw [h0]; exact h1
  · exact ⟨hq.hn, hq.hL, rfl, hq.bad, hq.lt, hq.sem, hq.size⟩

theorem quiet_give {n : Nat} {s : State} {f : Nat → Bool} (hq : Quiet n s f) {p : Nat} (hp : p < n) (hf : f p = false)
    {N : Nat} (hN : levels n + 4 ≤ N) :
    ∃ s', run (step s (.give 0 p)) (runs N) = s' ∧ s'.trace = s.trace ++ [.gave 0 p] ∧
      Quiet n s' (fun i => if i = p then true else f i) := by
  have h0 : step s (.give 0 p) = { s with pcs := [.giving p], trace := s.trace ++ [.gave 0 p] } := by
    simp only [step, hq.pcs, List.getElem?_cons_zero]
    rw [if_pos (by rw [hq.hn]; omega)]
    simp [State.goto, State.emit, hq.pcs]
  have h1 : step { s with pcs := [.giving p], trace := s.trace ++ [.gave 0 p] } (.run 0) =
      { ({ s with sem := (fun i => if i = p then false else s.sem i), trace := s.trace ++ [.gave 0 p] } : State) with
        pcs := [.inc (chain (levels n) p)], size := s.size } := by
    simp [step, State.goto, hq.hL]
  have h3 := run_inc (s := ({ s with sem := (fun i => if i = p then false else s.sem i), trace := s.trace ++ [.gave 0 p] } : State))
    (chain (levels n) p) s.size (chain_pairwise _ _) (fun q hqm => by
      have := chain_le hqm
      show q < s.n
      rw [hq.hn]; omega)
  refine ⟨{ s with sem := (fun i => if i = p then false else s.sem i), pcs := [.idle], size := fun q => s.size q + (if q ∈ chain (levels n) p then 1 else 0), trace := s.trace ++ [.gave 0 p] }, ?_, rfl, ?_⟩
  · have hcl' := chain_length (levels n) p
    refine run_runs_done (m := 1 + ((chain (levels n) p).length + 1)) ?_ rfl (by omega)
    rw [h0, run_runs_add _ 1 _]
    exact Eq.trans (congrArg (fun x => run x (runs _)) h1) h3
  · refine ⟨hq.hn, hq.hL, rfl, hq.bad, ?_, ?_, ?_⟩
    · intro i hi
      by_cases e : i = p
      · omega
      · rw [if_neg e] at hi; exact hq.lt i hi
    · intro i hi
      show (if i = p then false else s.sem i) = false
      by_cases e : i = p
      · rw [if_pos e]
      · rw [if_neg e] at hi ⊢; exact hq.sem i hi
    · intro q
      show s.size q + _ = _
      rw [hq.size]
      unfold freeCnt
      rw [countP_range_update (f := fun i => !(!if i = p then true else f i) && decide (q ∈ chain (levels n) i))
        (g := fun i => !(!f i) && decide (q ∈ chain (levels n) i)) hp]
      · simp [hf]
      · intro i hi; simp [hi]

theorem quiet_init_taken (n : Nat) : Quiet n (init 1 n true) (fun _ => false) := by
  refine ⟨rfl, rfl, rfl, rfl, fun p h => (by cases h), fun p h => (by cases h), ?_⟩
  intro q
  simp [init, freeCnt]

theorem quiet_init (n : Nat) : Quiet n (init 1 n false) (fun p => decide (p < n)) := by
  refine ⟨rfl, rfl, rfl, rfl, fun p h => (by simpa using h), fun p h => rfl, ?_⟩
  intro q
  simp only [init, Bool.false_eq_true, if_false, init_size n]
  unfold freeCnt
  congr 1
  refine List.countP_congr ?_
  intro p hp
  have := List.mem_range.mp hp
  simp [this]

end Verif.FastResource
