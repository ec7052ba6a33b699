import Verif.Proof.FastResource2

/-! While no `Return` is in progress a search does not miss an element that stays free. -/
namespace Verif.FastResource
open Verif.Spec.FastResource

def NoReturn (s : State) : Prop := ∀ u pc, At s u pc → (∀ p, pc ≠ .giving p) ∧ (∀ todo, pc ≠ .inc todo)

theorem sum_le {f g : PC → Int} {l : List PC} (h : ∀ p ∈ l, f p ≤ g p) : (l.map f).sum ≤ (l.map g).sum := by
  induction l with
  | nil => simp
  | cons a l ih =>
    simp only [List.map_cons, List.sum_cons]
    have h1 := h a (List.mem_cons_self)
    have h2 := ih fun p hp => h p (List.mem_cons_of_mem _ hp)
    omega

theorem adj_nonneg {s : State} (h : NoReturn s) (q : Nat) : 0 ≤ adjSum s.pcs q := by
  have h1 : ((s.pcs.map fun _ => (0 : Int)).sum) ≤ adjSum s.pcs q := by
    refine sum_le ?_
    intro p hp
    obtain ⟨u, hu⟩ := List.mem_iff_getElem?.mp hp
    cases p with
    | inc todo => exact absurd rfl ((h u _ hu).2 todo)
    | dec p todo => simp only [adj]; split <;> omega
    | _ => exact Int.le_refl 0
  have h2 : ((s.pcs.map fun _ => (0 : Int)).sum) = 0 := by
    generalize s.pcs = l
    induction l with
    | nil => rfl
    | cons a l ih => simp only [List.map_cons, List.sum_cons, ih]; rfl
  omega

theorem countP_pos' {f : Nat → Bool} {p n : Nat} (hp : p < n) (h : f p = true) : 1 ≤ (List.range n).countP f :=
  List.countP_pos_iff.mpr ⟨p, List.mem_range.mpr hp, h⟩

theorem countP_strict {f g : Nat → Bool} {p : Nat} (l : List Nat) (hp : p ∈ l) (hfg : ∀ i, f i = true → g i = true)
    (h1 : f p = false) (h2 : g p = true) : l.countP f + 1 ≤ l.countP g := by
  induction l with
  | nil => cases hp
  | cons a l ih =>
    rw [List.countP_cons, List.countP_cons]
    have hmono : l.countP f ≤ l.countP g := List.countP_mono_left fun x _ => hfg x
    rcases List.mem_cons.mp hp with e | hp'
    · subst e; simp only [h1, h2, if_true]; simp; omega
    · have := ih hp'
      by_cases hf : f a = true
      · simp only [hf, hfg a hf, if_true]; omega
      · simp only [hf, if_false]; simp; split <;> omega

theorem size_pos {s : State} (h : Inv s) (hr : NoReturn s) {p q : Nat} (hp : p < s.n) (hs : s.sem p = false)
    (hq : q ∈ chain s.L p) : 1 ≤ s.size q := by
  rw [h.acc q]
  have h1 := adj_nonneg hr q
  have h2 : 1 ≤ freeCnt s.n s.L s.sem q := countP_pos' hp (by simp [hs, hq])
  omega

theorem trunc_testBit (p k : Nat) : (trunc p k).testBit k = p.testBit k := by
  unfold trunc
  rw [Nat.testBit_two_pow_mul, Nat.testBit_div_two_pow]
  simp

theorem trunc_split (p k : Nat) : trunc p k = trunc p (k + 1) + if p.testBit k then 2 ^ k else 0 := by
  have h1 := trunc_trunc p (Nat.le_succ k)
  have h2 := trunc_succ (dvd_trunc p k)
  rw [show k.succ = k + 1 from rfl] at h1
  rw [h1, trunc_testBit] at h2
  by_cases hb : p.testBit k
  · rw [if_pos hb] at h2 ⊢
    have := two_pow_le_of_testBit ((trunc_testBit p k).trans hb)
    omega
  · rw [if_neg hb] at h2 ⊢; omega

theorem size_left {s : State} (h : Inv s) (hr : NoReturn s) {p pos k : Nat} (hp : p < s.n) (hs : s.sem p = false)
    (hk : k + 1 ≤ s.L) (ht : trunc p (k + 1) = pos) (hb : p.testBit k = false) :
    1 + s.size (pos + 2 ^ k) ≤ s.size pos := by
  have hd : 2 ^ (k + 1) ∣ pos := ht ▸ dvd_trunc _ _
  have hpos : pos ∈ chain s.L p := (mem_chain _ _ _).mpr ⟨k + 1, hk, ht.symm⟩
  have hnot : pos + 2 ^ k ∉ chain s.L p := by
    intro hm
    obtain ⟨j, hj, e⟩ := (mem_chain _ _ _).mp hm
    have hne : ¬ 2 ^ (k + 1) ∣ pos + 2 ^ k := by
      intro h
      have := (Nat.dvd_add_right hd).mp h
      have := Nat.le_of_dvd (Nat.two_pow_pos k) this
      have := Nat.pow_lt_pow_right (a := 2) (by omega) (Nat.lt_succ_self k)
      omega
    have hj' : j ≤ k := by
      rcases Nat.lt_or_ge k j with h1 | h1
      · exfalso; apply hne; rw [e]; exact Nat.dvd_trans (Nat.pow_dvd_pow 2 h1) (dvd_trunc _ _)
      · exact h1
    have h1 : (pos + 2 ^ k).testBit k = true := by rw [add_bit hd]; simp
    have h2 : trunc p k = trunc (pos + 2 ^ k) k := by rw [e, trunc_trunc _ hj']
    rw [← trunc_testBit, ← h2, trunc_testBit, hb] at h1
    cases h1
  have hright : ∀ i, pos + 2 ^ k ∈ chain s.L i → pos ∈ chain s.L i :=
    fun i hi => right_child (c := k + 1) (by omega) hk hd (by simpa using hi)
  rw [h.acc, h.acc]
  have h1 : freeCnt s.n s.L s.sem (pos + 2 ^ k) + 1 ≤ freeCnt s.n s.L s.sem pos := by
    refine countP_strict (p := p) _ (List.mem_range.mpr hp) ?_ ?_ ?_
    · intro i hi
      simp only [Bool.and_eq_true, decide_eq_true_eq] at hi ⊢
      exact ⟨hi.1, hright i hi.2⟩
    · simp [hnot]
    · simp [hs, hpos]
  have h2 : adjSum s.pcs (pos + 2 ^ k) ≤ adjSum s.pcs pos := by
    refine sum_le ?_
    intro pc hpc
    obtain ⟨u, hu⟩ := List.mem_iff_getElem?.mp hpc
    cases pc with
    | inc todo => exact absurd rfl ((hr u _ hu).2 todo)
    | dec i todo =>
      obtain ⟨-, hsuf⟩ := h.ok u _ hu
      simp only [adj]
      by_cases hm : pos + 2 ^ k ∈ todo
      · have := suffix_down (chain_pairwise s.L i) hsuf hm (hright i (hsuf.subset hm))
          (by have := Nat.two_pow_pos k; omega)
        simp [hm, this]
      · rw [if_neg hm]; split <;> omega
    | _ => exact Int.le_refl 0
  omega

/-- The search of thread `t` has still to come across `p` higher up in the tree. -/
def Above (L : Nat) (c : Cursor) (p : Nat) : Prop :=
  ∃ j, c.lvl ≤ j ∧ j < L ∧ c.path j = true ∧ p.testBit j = false ∧ trunc p (j + 1) = trunc c.pos (j + 1)

def Ahead (L : Nat) (c : Cursor) (p : Nat) : Prop :=
  (trunc p c.lvl = c.pos ∧ ∀ k, k + 1 = c.lvl → c.ret k = false ∧ (c.path k = true → p.testBit k = false)) ∨ Above L c p

def Reach (s : State) (p : Nat) : PC → Prop
  | .start => True
  | .loop c => c.lvl ≤ s.L ∧ Ahead s.L c p
  | .body c => c.lvl ≤ s.L ∧ Ahead s.L c p
  | .right c tot =>
    (trunc p c.lvl = c.pos ∧ p.testBit (c.lvl - 1) = false ∧ 1 + s.rightOf c ≤ tot) ∨ Above s.L c p
  | .dec _ _ => True
  | _ => False

theorem reach_bodyStep {s : State} (h : Inv s) (hr : NoReturn s) {p : Nat} (hp : p < s.n) (hs : s.sem p = false)
    {t : Nat} {q : PC} (ht : At s t q) (c : Cursor) (hc : CurOk s.n s.L c) (hl : 0 < c.lvl) (hle : c.lvl ≤ s.L)
    (ha : Ahead s.L c p) : ∃ p', At (bodyStep s t c) t p' ∧ Reach (bodyStep s t c) p p' := by
  obtain ⟨pos, lvl, path, ret⟩ := c
  obtain ⟨k, rfl⟩ : ∃ k, lvl = k + 1 := ⟨lvl - 1, by simp only at hl; omega⟩
  obtain ⟨c1, c2, c3, c4, c5, c6⟩ := hc
  simp only at c1 c2 c3 c4 c5 c6 hle
  simp only [bodyStep, Nat.add_sub_cancel]
  by_cases hrt : ret k
  · rw [if_pos hrt]
    refine ⟨_, get_self ht _, ?_⟩
    rcases ha with ⟨-, h1⟩ | ⟨j, h1, h2, h3, h4, h5⟩
    · have := (h1 k rfl).1; simp only at this; rw [hrt] at this; cases this
    · simp only at h1 h2 h3 h5
      obtain ⟨e1, e2⟩ := c3 (k + 1) (by omega) (by omega)
      have hpos : (if path (k + 1) then pos - 2 ^ (k + 1) else pos) = trunc pos (k + 2) := by
        rw [trunc_succ c2, e1]
      refine ⟨by show k + 1 + 1 ≤ s.L; omega, ?_⟩
      simp only [hpos]
      rcases Nat.eq_or_lt_of_le h1 with rfl | h1
      · refine Or.inl ⟨h5, ?_⟩
        intro i hi
        simp only at hi
        obtain rfl : i = k + 1 := by omega
        refine ⟨?_, fun _ => h4⟩
        show setBit ret k false (k + 1) = false
        rw [setBit_get, if_neg (by omega), e2, h3]; rfl
      · refine Or.inr ⟨j, h1, h2, h3, h4, ?_⟩
        show trunc p (j + 1) = trunc (trunc pos (k + 2)) (j + 1)
        rw [trunc_trunc _ (by omega)]; exact h5
  · rw [if_neg hrt]
    by_cases hpt : path k
    · rw [if_pos hpt]
      refine ⟨_, get_self (l := s.pcs) ht _, ?_⟩
      rcases ha with ⟨h0, h1⟩ | ⟨j, h1, h2, h3, h4, h5⟩
      · have hb := (h1 k rfl).2 hpt
        refine Or.inl ⟨h0, hb, ?_⟩
        simp only at h0
        have := size_left h hr hp hs (by omega) h0 hb
        simp only [State.rightOf, State.goto, State.touch, Nat.add_sub_cancel]
        split
        · exact this
        · have := size_pos h hr hp hs ((mem_chain _ _ _).mpr ⟨k + 1, hle, h0.symm⟩); omega
      · simp only at h1 h2 h3 h5
        refine Or.inr ⟨j, h1, h2, ?_, h4, h5⟩
        show setBit path k false j = true
        rw [setBit_get, if_neg (by omega)]; exact h3
    · rw [if_neg hpt]
      have hkL : k < s.L := by omega
      have hlow : ∀ i, i + 1 = k → setBit path k true i = false ∧ ret i = false := by
        intro i hi
        rw [setBit_get, if_neg (by omega)]; exact c4 i (by omega)
      have hset : ∀ j, k + 1 ≤ j → setBit path k true j = path j := by
        intro j hj; rw [setBit_get, if_neg (by omega)]
      have htr : ∀ j, k + 1 ≤ j → trunc (pos + 2 ^ k) j = trunc pos j := by
        intro j hj
        have h0 : trunc (pos + 2 ^ k) (k + 1) = pos := by
          obtain ⟨m, rfl⟩ := c2
          unfold trunc
          have hlt : 2 ^ k < 2 ^ (k + 1) := Nat.pow_lt_pow_right (by omega) (by omega)
          rw [Nat.mul_add_div (Nat.two_pow_pos _), Nat.div_eq_of_lt hlt]; rfl
        rw [← trunc_trunc (pos + 2 ^ k) hj, h0]
      split
      · next hgt =>
        refine ⟨_, get_self ht _, ?_⟩
        refine ⟨by show k ≤ s.L; omega, ?_⟩
        rcases ha with ⟨h0, h1⟩ | ⟨j, h1, h2, h3, h4, h5⟩
        · simp only at h0
          have hsp := trunc_split p k
          rw [h0] at hsp
          by_cases hb : p.testBit k
          · rw [if_pos hb] at hsp
            refine Or.inl ⟨hsp, ?_⟩
            intro i hi
            have := hlow i hi
            exact ⟨this.2, fun hx => by simp only at hx; rw [this.1] at hx; cases hx⟩
          · refine Or.inr ⟨k, Nat.le_refl k, hkL, ?_, by simpa using hb, ?_⟩
            · show setBit path k true k = true
              rw [setBit_get, if_pos rfl]
            · show trunc p (k + 1) = trunc (pos + 2 ^ k) (k + 1)
              rw [htr _ (Nat.le_refl _), h0, trunc_of_dvd c2]
        · simp only at h1 h2 h3 h5
          refine Or.inr ⟨j, by show k ≤ j; omega, h2, ?_, h4, ?_⟩
          · show setBit path k true j = true
            rw [hset j h1]; exact h3
          · show trunc p (j + 1) = trunc (pos + 2 ^ k) (j + 1)
            rw [htr _ (by omega)]; exact h5
      · next hgt =>
        refine ⟨_, get_self ht _, ?_⟩
        refine ⟨hle, ?_⟩
        rcases ha with ⟨h0, h1⟩ | ⟨j, h1, h2, h3, h4, h5⟩
        · simp only at h0
          refine Or.inl ⟨h0, ?_⟩
          intro i hi
          simp only at hi
          obtain rfl : i = k := by omega
          refine ⟨by simpa using hrt, fun _ => ?_⟩
          have hsp := trunc_split p i
          rw [h0] at hsp
          cases hb : p.testBit i with
          | false => rfl
          | true =>
            exfalso
            rw [hb] at hsp
            simp only [if_true] at hsp
            have hlt : pos + 2 ^ i < s.n := by rw [← hsp]; have := trunc_le p i; omega
            apply hgt
            simp only [State.rightOf, Nat.add_sub_cancel]
            rw [if_pos hlt]
            have := size_pos h hr hp hs ((mem_chain _ _ _).mpr ⟨i, by omega, hsp.symm⟩)
            omega
        · simp only at h1 h2 h3 h5
          refine Or.inr ⟨j, h1, h2, ?_, h4, h5⟩
          show setBit path k true j = true
          rw [hset j h1]; exact h3

/-- The thread moves on and does not fail. -/
theorem reach_step {s : State} (h : Inv s) (hr : NoReturn s) {p : Nat} (hp : p < s.n) (hs : s.sem p = false)
    {t : Nat} {q : PC} (ht : At s t q) (hq : Reach s p q) :
    (∃ p', At (step s (.run t)) t p' ∧ Reach (step s (.run t)) p p') ∨
      ∃ i, (step s (.run t)).trace = s.trace ++ [.took t i] ∧ At (step s (.run t)) t .idle := by
  have hpos := h.pos
  have ht' : s.pcs[t]? = some q := ht
  cases q with
  | idle => cases hq
  | giving => cases hq
  | inc => cases hq
  | start =>
    simp only [step, ht']
    rw [if_neg (by omega)]
    have h0 := size_pos h hr hp hs (zero_mem_chain (by have := h.hn; omega))
    rw [if_pos (by omega)]
    refine Or.inl ⟨_, get_self ht _, Nat.le_refl s.L, Or.inl ⟨?_, ?_⟩⟩
    · exact trunc_of_lt (by have := h.hn; simp only; omega)
    · intro k _; exact ⟨rfl, fun h => by cases h⟩
  | loop c =>
    obtain ⟨hle, ha⟩ := hq
    simp only [step, ht']
    rw [if_neg (by omega)]
    have hc : CurOk s.n s.L c := h.ok t _ ht hle
    split
    · next h0 =>
      obtain ⟨pos, lvl, path, ret⟩ := c
      simp only at h0
      subst h0
      split
      · next hsem =>
        simp only at hsem
        refine Or.inl ⟨_, get_self (l := s.pcs) ht _, ?_⟩
        rcases ha with ⟨h0, h1⟩ | ⟨j, h1, h2, h3, h4, h5⟩
        · exfalso
          simp only [trunc, Nat.pow_zero, Nat.div_one, Nat.one_mul] at h0
          rw [← h0, hs] at hsem; cases hsem
        · simp only at h1 h2 h3 h5
          obtain ⟨e1, e2⟩ := hc.up 0 (Nat.le_refl 0) (by omega)
          simp only at e1 e2
          have hpos : (if path 0 then pos - 1 else pos) = trunc pos 1 := by
            rw [trunc_succ (k := 0) (by simp), e1]
          refine ⟨by show 1 ≤ s.L; omega, ?_⟩
          simp only [hpos]
          rcases Nat.eq_or_lt_of_le h1 with rfl | h1
          · refine Or.inl ⟨h5, ?_⟩
            intro i hi
            simp only at hi
            obtain rfl : i = 0 := by omega
            refine ⟨?_, fun _ => h4⟩
            show ret 0 = false
            rw [e2, h3]; rfl
          · refine Or.inr ⟨j, h1, h2, h3, h4, ?_⟩
            show trunc p (j + 1) = trunc (trunc pos 1) (j + 1)
            rw [trunc_trunc _ (by omega)]; exact h5
      · exact Or.inl ⟨_, get_self (l := s.pcs) ht _, trivial⟩
    · exact Or.inl (reach_bodyStep h hr hp hs ht c hc (by omega) hle ha)
  | body c =>
    obtain ⟨hle, ha⟩ := hq
    simp only [step, ht']
    have := h.ok t _ ht
    exact Or.inl (reach_bodyStep h hr hp hs ht c this.2 (by have := this.1; omega) hle ha)
  | right c tot =>
    obtain ⟨o1, o2, hc, o3, o4⟩ := h.ok t _ ht
    obtain ⟨pos, lvl, path, ret⟩ := c
    obtain ⟨k, rfl⟩ : ∃ k, lvl = k + 1 := ⟨lvl - 1, by simp only at o1; omega⟩
    simp only [Nat.add_sub_cancel] at o1 o2 o3 o4
    simp only [step, ht']
    rcases hq with ⟨h0, h1, h2⟩ | ⟨j, h1, h2, h3, h4, h5⟩
    · rw [if_pos (by omega)]
      refine Or.inl ⟨_, get_self ht _, by show k ≤ s.L; omega, Or.inl ⟨?_, ?_⟩⟩
      · have hsp := trunc_split p k
        simp only [Nat.add_sub_cancel] at h1
        simp only at h0
        rw [h0, h1] at hsp
        simpa using hsp
      · intro i hi
        have := hc.down i (by simp only at hi ⊢; omega)
        exact ⟨this.2, fun hx => by simp only at hx this; rw [this.1] at hx; cases hx⟩
    · simp only at h1 h2 h3 h5
      split
      · exact Or.inl ⟨_, get_self ht _, by show k ≤ s.L; omega, Or.inr ⟨j, by show k ≤ j; omega, h2, h3, h4, h5⟩⟩
      · exact Or.inl ⟨_, get_self ht _, o2, Or.inr ⟨j, h1, h2, h3, h4, h5⟩⟩
  | dec i todo =>
    cases todo with
    | nil =>
      simp only [step, ht']
      exact Or.inr ⟨i, rfl, get_self ht _⟩
    | cons a todo =>
      simp only [step, ht']
      exact Or.inl ⟨_, get_self (l := s.pcs) ht _, trivial⟩

/-- Steps of a system without returns: elements are only taken, counters only fall, and no return starts. -/
theorem noReturn_step {s : State} (hr : NoReturn s) (e : Ev) (he : ∀ t p, e ≠ .give t p) :
    NoReturn (step s e) ∧ (∀ p, (step s e).sem p = false → s.sem p = false) ∧ (∀ q, (step s e).size q ≤ s.size q) := by
  have keep : ∀ {t : Nat} {q : PC} (_ : s.pcs[t]? = some q) (p : PC), (∀ i, p ≠ .giving i) → (∀ l, p ≠ .inc l) →
      ∀ (u : Nat) (pc : PC), (s.pcs.set t p)[u]? = some pc → (∀ i, pc ≠ .giving i) ∧ (∀ l, pc ≠ .inc l) := by
    intro t q ht p h1 h2 u pc hu
    rcases (get_set ht p u pc).mp hu with ⟨-, rfl⟩ | ⟨-, hu⟩
    · exact ⟨h1, h2⟩
    · exact hr u pc hu
  have body : ∀ {t : Nat} {q : PC} (_ : s.pcs[t]? = some q) (c : Cursor),
      NoReturn (bodyStep s t c) ∧ (∀ p, (bodyStep s t c).sem p = false → s.sem p = false) ∧
        (∀ q, (bodyStep s t c).size q ≤ s.size q) := by
    intro t q ht c
    simp only [bodyStep]
    repeat' split
    all_goals exact ⟨keep ht _ (by simp) (by simp), fun _ h => h, fun _ => Int.le_refl _⟩
  cases e with
  | give t p => exact absurd rfl (he t p)
  | take t =>
    simp only [step]
    split
    · next ht => exact ⟨keep ht _ (by simp) (by simp), fun _ h => h, fun _ => Int.le_refl _⟩
    · exact ⟨hr, fun _ h => h, fun _ => Int.le_refl _⟩
  | run t =>
    simp only [step]
    split
    · next ht =>
      repeat' split
      all_goals exact ⟨keep ht _ (by simp) (by simp), fun _ h => h, fun _ => Int.le_refl _⟩
    · next c ht =>
      split
      · exact ⟨keep ht _ (by simp) (by simp), fun _ h => h, fun _ => Int.le_refl _⟩
      · split
        · split
          · exact ⟨keep ht _ (by simp) (by simp), fun _ h => h, fun _ => Int.le_refl _⟩
          · refine ⟨keep ht _ (by simp) (by simp), ?_, fun _ => Int.le_refl _⟩
            intro p hp
            simp only [State.goto, State.touch] at hp
            split at hp
            · cases hp
            · exact hp
        · exact body ht c
    · next c ht => exact body ht c
    · next c tot ht =>
      split
      all_goals exact ⟨keep ht _ (by simp) (by simp), fun _ h => h, fun _ => Int.le_refl _⟩
    · next p todo ht =>
      split
      · exact ⟨keep ht _ (by simp) (by simp), fun _ h => h, fun _ => Int.le_refl _⟩
      · refine ⟨keep ht _ (by simp) (by simp), fun _ h => h, ?_⟩
        intro i
        show bump s.size _ (-1) i ≤ _
        rw [bump_get]; split <;> omega
    · next p ht => exact absurd rfl ((hr t _ ht).1 p)
    · next todo ht => exact absurd rfl ((hr t _ ht).2 todo)
    · exact ⟨hr, fun _ h => h, fun _ => Int.le_refl _⟩

theorem reach_mono {s s' : State} {p : Nat} {q : PC} (hn : s'.n = s.n) (hL : s'.L = s.L)
    (hsz : ∀ i, s'.size i ≤ s.size i) (h : Reach s p q) : Reach s' p q := by
  cases q with
  | right c tot =>
    rcases h with ⟨h0, h1, h2⟩ | h
    · refine Or.inl ⟨h0, h1, ?_⟩
      have : s'.rightOf c ≤ s.rightOf c := by
        simp only [State.rightOf, hn]
        split
        · exact hsz _
        · exact Int.le_refl 0
      omega
    · exact Or.inr (by rw [hL]; exact h)
  | loop c => simp only [Reach] at h ⊢; rw [hL]; exact h
  | body c => simp only [Reach] at h ⊢; rw [hL]; exact h
  | _ => exact h

/-- The observations of thread `t`. -/
def Obs.thread : Obs → Nat
  | .took t _ => t
  | .failed t => t
  | .gave t _ => t

theorem step_trace (s : State) (e : Ev) : (step s e).trace = s.trace ∨ ∃ o, (step s e).trace = s.trace ++ [o] ∧ o.thread = e.thread := by
  cases e <;> simp only [step, bodyStep, State.goto, State.emit, State.touch] <;> (repeat' split) <;>
    first
    | exact Or.inl rfl
    | exact Or.inr ⟨_, rfl, rfl⟩

/-- A thread that is searching cannot fail while an element that nobody has taken exists at the end. -/
theorem no_failure (es : List Ev) (t p : Nat) : ∀ {s : State} {q : PC}, Inv s → Legal (List.range s.n) s es → NoReturn s →
    (∀ e ∈ es, ∀ u i, e ≠ .give u i) → p < s.n → At s t q → (q = .idle ∨ Reach s p q) →
    (∀ e ∈ es, e.thread = t → e = .run t) → (run s es).sem p = false →
    ∃ tr, (run s es).trace = s.trace ++ tr ∧ ∀ o ∈ tr, o ≠ .failed t := by
  induction es with
  | nil => intro s q _ _ _ _ _ _ _ _ _; exact ⟨[], by simp [run], by simp⟩
  | cons e es ih =>
    intro s q h hl hr hes hp ht hq ht2 hs
    have hmono : ∀ (es : List Ev) (s : State), NoReturn s → (∀ e ∈ es, ∀ u i, e ≠ .give u i) →
        (run s es).sem p = false → s.sem p = false := by
      intro es
      induction es with
      | nil => intro s _ _ h; exact h
      | cons e es ih =>
        intro s hr hes hs
        have h1 := noReturn_step hr e (hes e List.mem_cons_self)
        exact h1.2.1 p (ih _ h1.1 (fun e he => hes e (List.mem_cons_of_mem _ he)) hs)
    have hstep := noReturn_step hr e (hes e List.mem_cons_self)
    have hes' : ∀ e ∈ es, ∀ u i, e ≠ .give u i := fun e he => hes e (List.mem_cons_of_mem _ he)
    have hs1 : (step s e).sem p = false := hmono es _ hstep.1 hes' hs
    have hs0 : s.sem p = false := hstep.2.1 p hs1
    obtain ⟨hsn, hsL⟩ := step_n s e
    have hl' : Legal (List.range (step s e).n) (step s e) es := by rw [hsn]; exact hl.2
    have h' := inv_step h e hl.1
    have ht2' : ∀ e ∈ es, e.thread = t → e = .run t := fun e he => ht2 e (List.mem_cons_of_mem _ he)
    have fin : ∀ q', At (step s e) t q' → (q' = .idle ∨ Reach (step s e) p q') →
        ((step s e).trace = s.trace ∨ ∃ o, (step s e).trace = s.trace ++ [o] ∧ o ≠ .failed t) →
        ∃ tr, (run s (e :: es)).trace = s.trace ++ tr ∧ ∀ o ∈ tr, o ≠ .failed t := by
      intro q' hq1 hq2 htr
      obtain ⟨tr, h1, h2⟩ := ih h' hl' hstep.1 hes' (by rw [hsn]; exact hp) hq1 hq2 ht2' hs
      rcases htr with e1 | ⟨o, e1, e2⟩
      · exact ⟨tr, by rw [show run s (e :: es) = run (step s e) es from rfl, h1, e1], h2⟩
      · refine ⟨o :: tr, by rw [show run s (e :: es) = run (step s e) es from rfl, h1, e1]; simp, ?_⟩
        intro o' ho'
        rcases List.mem_cons.mp ho' with rfl | ho'
        · exact e2
        · exact h2 o' ho'
    by_cases e1 : e.thread = t
    · obtain rfl := ht2 e List.mem_cons_self e1
      rcases hq with rfl | hq
      · have := step_idle ht
        exact fin .idle (by rw [this]; exact ht) (Or.inl rfl) (Or.inl (by rw [this]))
      · rcases reach_step h hr hp hs0 ht hq with ⟨q', h1, h2⟩ | ⟨i, h1, h2⟩
        · refine fin q' h1 (Or.inr h2) ?_
          -- nothing is emitted, or an index
          rcases step_trace s (.run t) with h3 | ⟨o, h3, h4⟩
          · exact Or.inl h3
          · refine Or.inr ⟨o, h3, ?_⟩
            rintro rfl
            -- after a failure the thread is idle
            have hid : At (step s (.run t)) t .idle := by
              have ht' : s.pcs[t]? = some q := ht
              revert h3
              cases q with
              | start =>
                simp only [step, ht']
                repeat' split
                · intro _; exact get_self ht _
                · intro h3; simp [State.goto] at h3
                · intro _; exact get_self ht _
              | loop c =>
                simp only [step, ht', bodyStep, State.goto, State.touch, State.emit]
                repeat' split
                · intro _; exact get_self ht _
                all_goals intro h3; simp at h3
              | body c =>
                simp only [step, ht', bodyStep, State.goto, State.touch]
                repeat' split
                all_goals intro h3; simp at h3
              | right c tot =>
                simp only [step, ht', State.goto]
                split
                all_goals intro h3; simp at h3
              | dec i todo =>
                cases todo with
                | nil => simp only [step, ht', State.goto, State.emit]; intro h3; simp at h3
                | cons a todo => simp only [step, ht', State.goto, State.touch]; intro h3; simp at h3
              | idle => cases hq
              | giving => cases hq
              | inc => cases hq
            rw [At, h1] at hid
            cases hid; cases h2
        · exact fin .idle h2 (Or.inl rfl) (Or.inr ⟨_, h1, by simp⟩)
    · have ht3 : At (step s e) t q := by rw [At, step_other e e1]; exact ht
      refine fin q ht3 ?_ ?_
      · rcases hq with hq | hq
        · exact Or.inl hq
        · exact Or.inr (reach_mono hsn hsL hstep.2.2 hq)
      · rcases step_trace s e with h3 | ⟨o, h3, h4⟩
        · exact Or.inl h3
        · refine Or.inr ⟨o, h3, ?_⟩
          rintro rfl; exact e1 h4.symm

end Verif.FastResource
