import Verif.Proof.FastResource

namespace Verif.FastResource
open Verif.Spec.FastResource

/-! ### The initial state -/

theorem foldl_bump (l : List Nat) (hl : l.Pairwise (· > ·)) (size : Nat → Int) (q : Nat) :
    l.foldl (fun size q => bump size q 1) size q = size q + if q ∈ l then 1 else 0 := by
  induction l generalizing size with
  | nil => simp
  | cons a l ih =>
    rw [List.foldl_cons, ih hl.of_cons, bump_get]
    have ha : ∀ b ∈ l, a > b := fun b hb => List.rel_of_pairwise_cons hl hb
    by_cases e : q = a
    · subst e
      have : q ∉ l := fun h => by have := ha q h; omega
      simp [this]
    · simp [e]

theorem init_size (n L m q : Nat) :
    (List.range m).foldl (fun size i => (chain L i).foldl (fun size q => bump size q 1) size) (fun _ => 0) q =
      ((List.range m).countP (fun p => decide (q ∈ chain L p)) : Int) := by
  induction m with
  | zero => simp
  | succ m ih =>
    rw [List.range_succ, List.foldl_append, List.foldl_cons, List.foldl_nil, foldl_bump _ (chain_pairwise _ _), ih,
      List.countP_append, List.countP_singleton]
    simp only [decide_eq_true_eq]
    split <;> simp

theorem adjSum_zero {pcs : List PC} {q : Nat} (h : ∀ p ∈ pcs, adj q p = 0) : adjSum pcs q = 0 := by
  unfold adjSum
  induction pcs with
  | nil => rfl
  | cons a l ih =>
    simp only [List.map_cons, List.sum_cons, h a (List.mem_cons_self), ih fun p hp => h p (List.mem_cons_of_mem _ hp)]
    rfl

theorem inv_init (threads n : Nat) (hn : 0 < n) : Inv (init threads n false) := by
  have hidle : ∀ u p, At (init threads n false) u p → p = .idle := by
    intro u p h
    simp only [At, init, List.getElem?_replicate] at h
    split at h
    · cases h; rfl
    · cases h
  have hi0 : ∀ i, ¬ Holds .idle i := by rintro i (⟨_, h⟩ | h) <;> cases h
  refine ⟨hn, le_levels n, rfl, ?_, ?_, trivial, List.nodup_range, ?_, ?_, ?_, ?_, ?_⟩
  · intro u p h; rw [hidle u p h]; trivial
  · intro q
    rw [adjSum_zero (by intro p hp; rw [List.eq_of_mem_replicate hp]; rfl)]
    simp only [init, freeCnt, Bool.false_eq_true, if_false]
    rw [init_size n]
    simp
  · intro p hp; exact List.mem_range.mp hp
  · intro u pc p hu hh; rw [hidle u pc hu] at hh; exact absurd hh (hi0 p)
  · intro u v pc pc' p hu _ hh _; rw [hidle u pc hu] at hh; exact absurd hh (hi0 p)
  · intro p hp _; exact List.mem_range.mpr hp
  · intro p _ h; cases h

theorem step_n (s : State) (e : Ev) : (step s e).n = s.n ∧ (step s e).L = s.L := by
  cases e <;> simp only [step, bodyStep, State.goto, State.emit, State.touch] <;> (repeat' split) <;>
    exact ⟨rfl, rfl⟩

theorem run_n (s : State) (es : List Ev) : (run s es).n = s.n ∧ (run s es).L = s.L := by
  induction es generalizing s with
  | nil => exact ⟨rfl, rfl⟩
  | cons e es ih =>
    have h1 := ih (step s e); have h2 := step_n s e
    exact ⟨h1.1.trans h2.1, h1.2.trans h2.2⟩

theorem inv_legal {s : State} (h : Inv s) (es : List Ev) (hl : Legal (List.range s.n) s es) : Inv (run s es) := by
  induction es generalizing s with
  | nil => exact h
  | cons e es ih =>
    have := hl.2
    rw [← (step_n s e).1] at this
    exact ih (inv_step h e hl.1) this

theorem legal_append (free : List Nat) (s : State) (es es' : List Ev) :
    Legal free s (es ++ es') ↔ Legal free s es ∧ Legal free (run s es) es' := by
  induction es generalizing s with
  | nil => simp [Legal, run]
  | cons e es ih =>
    simp only [List.cons_append, Legal, ih]
    exact and_assoc.symm

/-! ### Every call ends after a bounded number of its own steps -/

/-- Steps that a search of a whole subtree of `k` levels takes at most. -/
def full : Nat → Nat
  | 0 => 1
  | k + 1 => 4 + 2 * full k

theorem full_eq (k : Nat) : full k + 4 = 5 * 2 ^ k := by
  induction k with
  | zero => rfl
  | succ k ih => rw [full, Nat.pow_succ]; omega

def upSum (path : Nat → Bool) (k : Nat) : Nat → Nat
  | 0 => 0
  | m + 1 => (if path k then 3 + full k else 1) + upSum path (k + 1) m

theorem upSum_congr {path path' : Nat → Bool} (m k : Nat) (h : ∀ i, k ≤ i → path i = path' i) :
    upSum path k m = upSum path' k m := by
  induction m generalizing k with
  | zero => rfl
  | succ m ih => rw [upSum, upSum, h k (Nat.le_refl k), ih (k + 1) fun i hi => h i (by omega)]

def nodeCost (c : Cursor) : Nat :=
  match c.lvl with
  | 0 => 1
  | k + 1 => if c.ret k then 1 else if c.path k then 3 + full k else 4 + 2 * full k

/-- Steps left. -/
def PC.rem (L : Nat) : PC → Nat
  | .idle => 0
  | .start => full L + L + 4
  | .loop c => if c.lvl > L then 1 else nodeCost c + upSum c.path c.lvl (L - c.lvl) + L + 3
  | .body c => if c.lvl > L then 2 else nodeCost c + upSum c.path c.lvl (L - c.lvl) + L + 3
  | .right c _ => 2 + full (c.lvl - 1) + upSum c.path c.lvl (L - c.lvl) + L + 3
  | .dec _ todo => todo.length + 1
  | .giving _ => L + 3
  | .inc todo => todo.length + 1

theorem upSum_pred (path : Nat → Bool) {k L : Nat} (h : k < L) :
    upSum path k (L - k) = (if path k then 3 + full k else 1) + upSum path (k + 1) (L - (k + 1)) := by
  obtain ⟨d, rfl⟩ := Nat.exists_eq_add_of_lt h
  have h1 : k + d + 1 - k = d + 1 := by omega
  have h2 : k + d + 1 - (k + 1) = d := by omega
  rw [h1, h2]; rfl

theorem nodeCost_fresh (pos k : Nat) (path ret : Nat → Bool) (h : ∀ i, i + 1 = k → path i = false ∧ ret i = false) :
    nodeCost ⟨pos, k, path, ret⟩ = full k := by
  cases k with
  | zero => rfl
  | succ k => obtain ⟨h1, h2⟩ := h k rfl; simp [nodeCost, h1, h2, full]

theorem get_self {l : List PC} {t : Nat} {q : PC} (ht : l[t]? = some q) (p : PC) : (l.set t p)[t]? = some p :=
  (get_set ht p t p).mpr (Or.inl ⟨rfl, rfl⟩)

/-- The next place of a thread that executes the body of the loop. -/
theorem rem_bodyStep {s : State} (h : Inv s) {t : Nat} {q : PC} (ht : At s t q) (c : Cursor) (hc : CurOk s.n s.L c)
    (hl : 0 < c.lvl) :
    ∃ p', At (bodyStep s t c) t p' ∧
      p'.rem s.L < if c.lvl > s.L then 2 else nodeCost c + upSum c.path c.lvl (s.L - c.lvl) + s.L + 3 := by
  obtain ⟨pos, lvl, path, ret⟩ := c
  obtain ⟨k, rfl⟩ : ∃ k, lvl = k + 1 := ⟨lvl - 1, by simp only at hl; omega⟩
  obtain ⟨c1, c2, c3, c4, c5, c6⟩ := hc
  simp only at c1 c2 c3 c4 c5 c6
  simp only [bodyStep, Nat.add_sub_cancel]
  by_cases hr : ret k
  · rw [if_pos hr]
    have hkL : k < s.L := by
      rcases Nat.lt_or_ge k s.L with h | h
      · exact h
      · rw [(c5 k h).2] at hr; cases hr
    refine ⟨_, get_self ht _, ?_⟩
    have hnc : nodeCost ⟨pos, k + 1, path, ret⟩ = 1 := by simp [nodeCost, hr]
    rw [if_neg (show ¬ (k + 1 > s.L) by omega), hnc]
    simp only [PC.rem]
    split
    · omega
    · next hle =>
      obtain ⟨e1, e2⟩ := c3 (k + 1) (by omega) (by omega)
      rw [upSum_pred path (show k + 1 < s.L by omega)]
      have : nodeCost ⟨if path (k + 1) = true then pos - 2 ^ (k + 1) else pos, k + 1 + 1, path, setBit ret k false⟩ =
          if path (k + 1) then 3 + full (k + 1) else 1 := by
        simp only [nodeCost, setBit_get, if_neg (show ¬ (k + 1 = k) by omega), e2]
        by_cases hb : path (k + 1) = true <;> simp [hb]
      rw [this]
      omega
  · rw [if_neg hr]
    have hr' : ret k = false := by simpa using hr
    by_cases hp : path k
    · rw [if_pos hp]
      have hkL : k < s.L := by
        rcases Nat.lt_or_ge k s.L with h | h
        · exact h
        · rw [(c5 k h).1] at hp; cases hp
      refine ⟨_, get_self (l := s.pcs) ht _, ?_⟩
      have hnc : nodeCost ⟨pos, k + 1, path, ret⟩ = 3 + full k := by simp [nodeCost, hr', hp]
      rw [if_neg (show ¬ (k + 1 > s.L) by omega), hnc]
      simp only [PC.rem, Nat.add_sub_cancel]
      rw [upSum_congr (path := setBit path k false) (path' := path) _ _ (by intro i hi; rw [setBit_get, if_neg (by omega)])]
      omega
    · rw [if_neg hp]
      have hp' : path k = false := by simpa using hp
      have hnc : nodeCost ⟨pos, k + 1, path, ret⟩ = 4 + 2 * full k := by simp [nodeCost, hr', hp']
      have hcg : ∀ m, upSum (setBit path k true) (k + 1) m = upSum path (k + 1) m :=
        fun m => upSum_congr _ _ (by intro i hi; rw [setBit_get, if_neg (by omega)])
      split
      · next hgt =>
        have hlt : pos + 2 ^ k < s.n := by
          simp only [State.rightOf, Nat.add_sub_cancel] at hgt
          split at hgt
          · assumption
          · omega
        have hkL := lt_L_of_bit h.hn hlt
        refine ⟨_, get_self ht _, ?_⟩
        rw [if_neg (show ¬ (k + 1 > s.L) by omega), hnc]
        simp only [PC.rem]
        rw [if_neg (show ¬ (k > s.L) by omega), upSum_pred _ hkL, hcg, setBit_get, if_pos rfl, if_pos rfl,
          nodeCost_fresh]
        · omega
        · intro i hi
          have := c4 i (by omega)
          rw [setBit_get, if_neg (by omega)]; exact this
      · refine ⟨_, get_self ht _, ?_⟩
        simp only [PC.rem]
        split
        · omega
        · next hle =>
          have : nodeCost ⟨pos, k + 1, setBit path k true, ret⟩ = 3 + full k := by simp [nodeCost, hr', setBit_get]
          rw [this, hnc, hcg]; omega

theorem rem_step {s : State} (h : Inv s) {t : Nat} {q : PC} (ht : At s t q) (hq : q ≠ .idle) :
    ∃ p', At (step s (.run t)) t p' ∧ p'.rem s.L < q.rem s.L := by
  have hpos := h.pos
  have ht' : s.pcs[t]? = some q := ht
  cases q with
  | idle => exact absurd rfl hq
  | start =>
    simp only [step, ht']
    rw [if_neg (by omega)]
    split
    · refine ⟨_, get_self ht _, ?_⟩
      simp only [PC.rem, Nat.sub_self, upSum, Nat.lt_irrefl, gt_iff_lt, if_false]
      rw [nodeCost_fresh _ _ _ _ (fun _ _ => ⟨rfl, rfl⟩)]
      omega
    · exact ⟨_, get_self ht _, by simp [PC.rem]⟩
  | loop c =>
    simp only [step, ht']
    split
    · exact ⟨_, get_self ht _, by simp only [PC.rem]; split <;> omega⟩
    · next hle =>
      have hc : CurOk s.n s.L c := h.ok t _ ht (by omega)
      split
      · next h0 =>
        split
        · refine ⟨_, get_self (l := s.pcs) ht _, ?_⟩
          simp only [PC.rem]
          rw [if_neg hle, h0]
          obtain ⟨pos, lvl, path, ret⟩ := c
          simp only at h0
          subst h0
          split
          · simp [nodeCost]
          · next hL =>
            have hL' : 0 < s.L := by omega
            obtain ⟨e1, e2⟩ := hc.up 0 (Nat.le_refl 0) hL'
            simp only at e1 e2
            rw [upSum_pred _ hL']
            have : nodeCost ⟨if path 0 = true then pos - 1 else pos, 1, path, ret⟩ = if path 0 then 3 + full 0 else 1 := by
              simp only [nodeCost, e2]
              cases path 0 <;> simp
            rw [this]; simp only [nodeCost, Nat.zero_add]; omega
        · refine ⟨_, get_self (l := s.pcs) ht _, ?_⟩
          simp only [PC.rem]
          rw [if_neg hle]
          have := chain_length s.L c.pos
          show (chain s.L c.pos).length + 1 < _
          omega
      · obtain ⟨p', h1, h2⟩ := rem_bodyStep h ht c hc (by omega)
        refine ⟨p', h1, ?_⟩
        simp only [PC.rem]
        rw [if_neg hle] at h2 ⊢
        exact h2
  | body c =>
    simp only [step, ht']
    have := h.ok t _ ht
    obtain ⟨p', h1, h2⟩ := rem_bodyStep h ht c this.2 (by have := this.1; omega)
    exact ⟨p', h1, h2⟩
  | right c tot =>
    simp only [step, ht']
    obtain ⟨o1, o2, hc, o3, o4⟩ := h.ok t _ ht
    obtain ⟨pos, lvl, path, ret⟩ := c
    obtain ⟨k, rfl⟩ : ∃ k, lvl = k + 1 := ⟨lvl - 1, by simp only at o1; omega⟩
    simp only [Nat.add_sub_cancel] at o1 o2 o3 o4
    split
    · refine ⟨_, get_self ht _, ?_⟩
      simp only [PC.rem, Nat.add_sub_cancel]
      rw [if_neg (by omega), upSum_pred _ (show k < s.L by omega), o3, nodeCost_fresh]
      · simp; omega
      · intro i hi; exact hc.down i (by simp only; omega)
    · refine ⟨_, get_self ht _, ?_⟩
      simp only [PC.rem, Nat.add_sub_cancel]
      rw [if_neg (by omega)]
      have : nodeCost ⟨pos, k + 1, path, ret⟩ = 1 := by simp [nodeCost, o4]
      rw [this]; omega
  | dec p todo =>
    cases todo with
    | nil => simp only [step, ht']; exact ⟨_, get_self ht _, by simp [PC.rem]⟩
    | cons q todo => simp only [step, ht']; exact ⟨_, get_self (l := s.pcs) ht _, by simp [PC.rem]⟩
  | giving p =>
    simp only [step, ht']
    refine ⟨_, get_self (l := s.pcs) ht _, ?_⟩
    simp only [PC.rem]
    have := chain_length s.L p
    omega
  | inc todo =>
    cases todo with
    | nil => simp only [step, ht']; exact ⟨_, get_self ht _, by simp [PC.rem]⟩
    | cons q todo => simp only [step, ht']; exact ⟨_, get_self (l := s.pcs) ht _, by simp [PC.rem]⟩

/-- The thread an event belongs to. -/
def Ev.thread : Ev → Nat
  | .take t => t
  | .give t _ => t
  | .run t => t

theorem step_other {s : State} (e : Ev) {t : Nat} (h : e.thread ≠ t) : (step s e).pcs[t]? = s.pcs[t]? := by
  have key : ∀ u p, u ≠ t → (s.pcs.set u p)[t]? = s.pcs[t]? := fun u p hu => List.getElem?_set_ne hu
  cases e <;> simp only [Ev.thread] at h <;>
    simp only [step, bodyStep, State.goto, State.emit, State.touch] <;> (repeat' split) <;> first | rfl | exact key _ _ h

theorem step_idle {s : State} {t : Nat} (h : At s t .idle) : step s (.run t) = s := by
  have h' : s.pcs[t]? = some .idle := h
  simp only [step, h']

/-- A call of thread `t` is over after `rem` steps of `t`, whatever the others do. -/
theorem rem_run (es : List Ev) (t : Nat) : ∀ {s : State} {q : PC}, Inv s → Legal (List.range s.n) s es → At s t q →
    (∀ e ∈ es, e.thread = t → e = .run t) → q.rem s.L ≤ es.count (.run t) → At (run s es) t .idle := by
  induction es with
  | nil =>
    intro s q h _ ht _ hc
    simp only [List.count_nil, Nat.le_zero_eq] at hc
    have : q = .idle := by
      cases q with
      | loop c => simp only [PC.rem] at hc; split at hc <;> omega
      | body c => simp only [PC.rem] at hc; split at hc <;> omega
      | _ => first | rfl | (simp only [PC.rem] at hc; omega)
    rw [this] at ht; exact ht
  | cons e es ih =>
    intro s q h hl ht hes hc
    have h' := inv_step h e hl.1
    obtain ⟨hsn, hsL⟩ := step_n s e
    have hl' : Legal (List.range (step s e).n) (step s e) es := by rw [hsn]; exact hl.2
    have hes' : ∀ e ∈ es, e.thread = t → e = .run t := fun e he => hes e (List.mem_cons_of_mem _ he)
    by_cases e1 : e.thread = t
    · obtain rfl := hes e (List.mem_cons_self) e1
      simp only [List.count_cons_self] at hc
      by_cases hq : q = .idle
      · subst hq
        refine ih h' hl' (q := .idle) ?_ hes' (by simp [PC.rem])
        rw [step_idle ht]; exact ht
      · obtain ⟨p', h1, h2⟩ := rem_step h ht hq
        exact ih h' hl' h1 hes' (by rw [hsL]; omega)
    · have ht2 : At (step s e) t q := by rw [At, step_other e e1]; exact ht
      refine ih h' hl' ht2 hes' ?_
      rw [hsL]
      rw [List.count_cons_of_ne] at hc
      · exact hc
      · rintro rfl; exact e1 rfl

end Verif.FastResource
