import Verif.Proof.FastResourceChain
import Verif.Spec.FastResource

namespace Verif.FastResource
open Verif.Spec.FastResource

abbrev At (s : State) (u : Nat) (p : PC) : Prop := s.pcs[u]? = some p

theorem get_set {l : List PC} {t : Nat} {q : PC} (ht : l[t]? = some q) (p : PC) (u : Nat) (r : PC) :
    (l.set t p)[u]? = some r ↔ (u = t ∧ r = p) ∨ (u ≠ t ∧ l[u]? = some r) := by
  rw [List.getElem?_set]
  have : t < l.length := by
    rcases Nat.lt_or_ge t l.length with h | h
    · exact h
    · rw [List.getElem?_eq_none h] at ht; cases ht
  by_cases h : u = t
  · simp [h, this, eq_comm]
  · have : ¬ t = u := fun e => h e.symm
    simp [h, this]

theorem sum_set (f : PC → Int) (l : List PC) : ∀ (t : Nat) (q p : PC), l[t]? = some q →
    ((l.set t p).map f).sum = (l.map f).sum - f q + f p := by
  induction l with
  | nil => intro t q p h; simp at h
  | cons a l ih =>
    intro t q p h
    cases t with
    | zero => simp at h; subst h; simp; omega
    | succ t =>
      simp only [List.getElem?_cons_succ] at h
      simp only [List.set_cons_succ, List.map_cons, List.sum_cons, ih t q p h]
      omega

theorem countP_range_update {f g : Nat → Bool} {p n : Nat} (hp : p < n) (h : ∀ i, i ≠ p → f i = g i) :
    ((List.range n).countP f : Int) = (List.range n).countP g + (if f p then 1 else 0) - (if g p then 1 else 0) := by
  have key : ∀ n, ((List.range n).countP f : Int) = (List.range n).countP g +
      (if p < n then (if f p then 1 else 0) - (if g p then 1 else 0) else 0) := by
    intro n
    induction n with
    | zero => simp
    | succ n ih =>
      rw [List.range_succ, List.countP_append, List.countP_append, List.countP_singleton, List.countP_singleton]
      by_cases e : n = p
      · subst e
        simp only [Nat.lt_irrefl, if_false, Nat.lt_succ_self, if_true] at ih ⊢
        split <;> split <;> omega
      · rw [h n e]
        by_cases e2 : p < n
        · have : p < n + 1 := by omega
          simp only [e2, this, if_true] at ih ⊢
          omega
        · have : ¬ p < n + 1 := by omega
          simp only [e2, this, if_false] at ih ⊢
          omega
  have := key n
  simp only [hp, if_true] at this
  omega

/-- How much a call in progress still has to add to the counter of `q`, with the opposite sign. -/
def adj (q : Nat) : PC → Int
  | .dec _ todo => if q ∈ todo then 1 else 0
  | .inc todo => if q ∈ todo then -1 else 0
  | _ => 0

def adjSum (pcs : List PC) (q : Nat) : Int := (pcs.map (adj q)).sum

/-- The elements below `q` whose semaphore is clear. -/
def freeCnt (n L : Nat) (sem : Nat → Bool) (q : Nat) : Nat :=
  (List.range n).countP fun p => !sem p && decide (q ∈ chain L p)

structure CurOk (n L : Nat) (c : Cursor) : Prop where
  lt : c.pos < n
  dvd : 2 ^ c.lvl ∣ c.pos
  up : ∀ k, c.lvl ≤ k → k < L → c.path k = c.pos.testBit k ∧ c.ret k = !c.path k
  down : ∀ k, k + 1 < c.lvl → c.path k = false ∧ c.ret k = false
  out : ∀ k, L ≤ k → c.path k = false ∧ c.ret k = false
  one : ∀ k, k + 1 = c.lvl → c.path k = true → c.ret k = false

def PC.ok (n L : Nat) : PC → Prop
  | .loop c => c.lvl ≤ L → CurOk n L c
  | .body c => c.lvl = 1 ∧ CurOk n L c
  | .right c _ => 0 < c.lvl ∧ c.lvl ≤ L ∧ CurOk n L c ∧ c.path (c.lvl - 1) = false ∧ c.ret (c.lvl - 1) = true
  | .dec p todo => p < n ∧ todo <:+ chain L p
  | .giving p => p < n
  | .inc todo => ∃ p, p < n ∧ todo <:+ chain L p
  | _ => True

def Holds (pc : PC) (p : Nat) : Prop := (∃ todo, pc = .dec p todo) ∨ pc = .giving p

structure Inv (s : State) : Prop where
  pos : 0 < s.n
  hn : s.n ≤ 2 ^ s.L
  bad : s.bad = false
  ok : ∀ u p, At s u p → p.ok s.n s.L
  acc : ∀ q, s.size q = freeCnt s.n s.L s.sem q + adjSum s.pcs q
  exc : Exclusive (List.range s.n) s.trace
  nod : (freeAfter (List.range s.n) s.trace).Nodup
  ran : ∀ p ∈ freeAfter (List.range s.n) s.trace, p < s.n
  hold : ∀ u pc p, At s u pc → Holds pc p → s.sem p = true ∧ p ∈ freeAfter (List.range s.n) s.trace
  uniq : ∀ u v pc pc' p, At s u pc → At s v pc' → Holds pc p → Holds pc' p → u = v
  free : ∀ p, p < s.n → s.sem p = false → p ∈ freeAfter (List.range s.n) s.trace
  held : ∀ p ∈ freeAfter (List.range s.n) s.trace, s.sem p = true → ∃ u pc, At s u pc ∧ Holds pc p

/-- A step of thread `t` that only moves its cursor. -/
theorem inv_goto {s : State} (h : Inv s) {t : Nat} {q : PC} (ht : At s t q) (p : PC) (hp : p.ok s.n s.L)
    (hq : ∀ i, adj i q = adj i p) (hh : ∀ i, Holds q i ↔ Holds p i) : Inv (s.goto t p) := by
  refine ⟨h.pos, h.hn, h.bad, ?_, ?_, h.exc, h.nod, h.ran, ?_, ?_, h.free, ?_⟩
  · intro u r hu
    replace hu := (get_set ht p u r).mp hu
    rcases hu with ⟨-, rfl⟩ | ⟨-, hu⟩
    · exact hp
    · exact h.ok u r hu
  · intro i
    show s.size i = _ + adjSum (s.pcs.set t p) i
    rw [h.acc i, adjSum, adjSum, sum_set _ _ _ _ _ ht, hq i]
    simp only [State.goto]; omega
  · intro u r i hu hi
    replace hu := (get_set ht p u r).mp hu
    rcases hu with ⟨-, rfl⟩ | ⟨-, hu⟩
    · exact h.hold t q i ht ((hh i).mpr hi)
    · exact h.hold u r i hu hi
  · intro u v r r' i hu hv hr hr'
    replace hu := (get_set ht p u r).mp hu
    replace hv := (get_set ht p v r').mp hv
    rcases hu with ⟨e, e'⟩ | ⟨hne, hu⟩ <;> rcases hv with ⟨f, f'⟩ | ⟨hne', hv⟩
    · rw [e, f]
    · subst e e'; exact h.uniq u v _ _ i ht hv ((hh i).mpr hr) hr'
    · subst f f'; exact h.uniq u v _ _ i hu ht hr ((hh i).mpr hr')
    · exact h.uniq u v _ _ i hu hv hr hr'
  · intro i hi hs
    obtain ⟨u, pc, hu, hpc⟩ := h.held i hi hs
    by_cases e : u = t
    · subst e
      rw [At, ht] at hu; cases hu
      exact ⟨u, p, (get_set ht p u p).mpr (Or.inl ⟨rfl, rfl⟩), (hh i).mp hpc⟩
    · exact ⟨u, pc, (get_set ht p u pc).mpr (Or.inr ⟨e, hu⟩), hpc⟩

theorem exclusive_snoc (free : List Nat) (tr : List Obs) (o : Obs) :
    Exclusive free (tr ++ [o]) ↔ Exclusive free tr ∧ (match o with | .took _ p => p ∈ freeAfter free tr | _ => True) := by
  induction tr generalizing free with
  | nil => simp only [List.nil_append, Exclusive, freeAfter, List.foldl_nil, and_true, true_and]; cases o <;> rfl
  | cons a tr ih =>
    simp only [List.cons_append, Exclusive, ih, freeAfter, List.foldl_cons]
    exact ⟨fun h => ⟨⟨h.1, h.2.1⟩, h.2.2⟩, fun h => ⟨h.1.1, h.1.2, h.2⟩⟩

theorem freeAfter_snoc (free : List Nat) (tr : List Obs) (o : Obs) :
    freeAfter free (tr ++ [o]) = nextFree (freeAfter free tr) o := by simp [freeAfter]

theorem inv_failed {s : State} (h : Inv s) (t : Nat) : Inv (s.emit (.failed t)) := by
  refine ⟨h.pos, h.hn, h.bad, h.ok, h.acc, ?_, ?_, ?_, ?_, h.uniq, ?_, ?_⟩ <;>
    simp only [State.emit, exclusive_snoc, freeAfter_snoc, nextFree, and_true]
  · exact h.exc
  · exact h.nod
  · exact h.ran
  · exact h.hold
  · exact h.free
  · exact h.held

theorem inv_touch {s : State} (h : Inv s) {q : Nat} (hq : q < s.n) : Inv (s.touch q) := by
  have hb : (s.bad || decide (s.n ≤ q)) = false := by rw [h.bad]; simp; omega
  exact ⟨h.pos, h.hn, hb, h.ok, h.acc, h.exc, h.nod, h.ran, h.hold, h.uniq, h.free, h.held⟩

theorem lt_L_of_bit {n L c : Nat} {x : Nat} (hn : n ≤ 2 ^ L) (h : x + 2 ^ c < n) : c < L := by
  have : 2 ^ c < 2 ^ L := by omega
  exact (Nat.pow_lt_pow_iff_right (by omega)).mp this

theorem setBit_get (w : Nat → Bool) (k : Nat) (b : Bool) (i : Nat) : setBit w k b i = if i = k then b else w i := rfl

theorem inv_bodyStep {s : State} (h : Inv s) {t : Nat} {q : PC} (ht : At s t q) (c : Cursor) (hc : CurOk s.n s.L c)
    (hl : 0 < c.lvl) (hq : ∀ i, adj i q = 0) (hh : ∀ i, ¬ Holds q i) : Inv (bodyStep s t c) := by
  obtain ⟨pos, lvl, path, ret⟩ := c
  obtain ⟨k, rfl⟩ : ∃ k, lvl = k + 1 := ⟨lvl - 1, by simp only at hl; omega⟩
  have hk : k + 1 = k + 1 := rfl
  have hnh : ∀ c' i, ¬ Holds (.loop c') i := by rintro c' i (⟨_, h⟩ | h) <;> cases h
  have hnr : ∀ c' v i, ¬ Holds (.right c' v) i := by rintro c' v i (⟨_, h⟩ | h) <;> cases h
  obtain ⟨c1, c2, c3, c4, c5, c6⟩ := hc
  simp only at c1 c2 c3 c4 c5 c6
  simp only [bodyStep, Nat.add_sub_cancel]
  split
  · next hr =>
    have hp : path k = false := by
      cases hp : path k with
      | false => rfl
      | true => rw [c6 k hk.symm hp] at hr; cases hr
    refine inv_goto h ht _ ?_ (by intro i; rw [hq]; rfl) (by intro i; simp [hh, hnh])
    intro hle
    simp only at hle
    obtain ⟨e1, e2⟩ := c3 (k + 1) (by omega) (by omega)
    have hpos : (if path (k + 1) then pos - 2 ^ (k + 1) else pos) = trunc pos (k + 2) := by
      rw [trunc_succ c2, e1]
    have hdv := dvd_trunc pos (k + 2)
    have htl := trunc_le pos (k + 2)
    refine ⟨?_, ?_, ?_, ?_, ?_, ?_⟩
    · show (if path (k + 1) then _ else _) < _
      rw [hpos]; omega
    · show 2 ^ (k + 1 + 1) ∣ (if path (k + 1) then _ else _)
      rw [hpos]; exact hdv
    · intro i hi hiL
      have hi' : k + 2 ≤ i := hi
      have hi'' : k + 1 ≤ i := by omega
      have hik : ¬ i = k := by omega
      obtain ⟨d1, d2⟩ := c3 i hi'' hiL
      show path i = (if path (k + 1) then pos - 2 ^ (k + 1) else pos).testBit i ∧ setBit ret k false i = !path i
      rw [setBit_get, if_neg hik]
      refine ⟨?_, d2⟩
      rw [d1]
      by_cases hb : path (k + 1)
      · rw [if_pos hb] at hpos ⊢
        have hge := two_pow_le_of_testBit (e1 ▸ hb)
        have : pos = (pos - 2 ^ (k + 1)) + 2 ^ (k + 1) := by omega
        rw [this, add_bit (by rw [hpos]; exact hdv)]
        have : ¬ (k + 1 = i) := by omega
        simp [this]
      · rw [if_neg hb]
    · intro i hi
      have hi' : i + 1 < k + 2 := hi
      show path i = false ∧ setBit ret k false i = false
      rw [setBit_get]
      by_cases e : i = k
      · subst e; simp [hp]
      · have := c4 i (by omega)
        simp [e, this]
    · intro i hi
      have := c5 i hi
      show path i = false ∧ setBit ret k false i = false
      rw [setBit_get]; split <;> simp [this]
    · intro i hi
      have hi' : i + 1 = k + 2 := hi
      have : i = k + 1 := by omega
      subst this
      show path (k + 1) = true → setBit ret k false (k + 1) = false
      rw [setBit_get, if_neg (by omega), e2]; intro h; rw [h]; rfl
  · next hr =>
    have hr' : ret k = false := by simpa using hr
    split
    · next hp =>
      have hkL : k < s.L := by
        rcases Nat.lt_or_ge k s.L with h | h
        · exact h
        · rw [(c5 k h).1] at hp; cases hp
      refine inv_goto (inv_touch h c1) ht _ ?_ (by intro i; rw [hq]; rfl) (by intro i; simp [hh, hnr])
      refine ⟨by simp only; omega, by simp only [State.touch]; omega, ?_, ?_, ?_⟩
      · refine ⟨c1, c2, ?_, ?_, ?_, ?_⟩
        · intro i hi hiL
          have hi' : (k + 1) ≤ i := hi
          have := c3 i hi hiL
          show setBit path k false i = _ ∧ setBit ret k true i = !setBit path k false i
          rw [setBit_get, setBit_get, if_neg (by omega), if_neg (by omega)]; exact this
        · intro i hi
          have hi' : i + 1 < (k + 1) := hi
          show setBit path k false i = false ∧ setBit ret k true i = false
          rw [setBit_get, setBit_get, if_neg (by omega), if_neg (by omega)]; exact c4 i hi
        · intro i hi
          have hi' : s.L ≤ i := hi
          show setBit path k false i = false ∧ setBit ret k true i = false
          rw [setBit_get, setBit_get, if_neg (by omega), if_neg (by omega)]; exact c5 i hi
        · intro i hi
          have hi' : i + 1 = (k + 1) := hi
          have : i = k := by omega
          subst this
          show setBit path i false i = true → _
          rw [setBit_get]; simp
      · show setBit path k false ((k + 1) - 1) = false
        rw [Nat.add_sub_cancel, setBit_get]; simp
      · show setBit ret k true ((k + 1) - 1) = true
        rw [Nat.add_sub_cancel, setBit_get]; simp
    · next hp =>
      have hp' : path k = false := by simpa using hp
      split
      · next hgt =>
        have hlt : pos + 2 ^ k < s.n := by
          simp only [State.rightOf, Nat.add_sub_cancel] at hgt
          split at hgt
          · assumption
          · omega
        have hkL := lt_L_of_bit h.hn hlt
        refine inv_goto h ht _ ?_ (by intro i; rw [hq]; rfl) (by intro i; simp [hh, hnh])
        intro _
        refine ⟨hlt, ?_, ?_, ?_, ?_, ?_⟩
        · show 2 ^ k ∣ pos + 2 ^ k
          exact Nat.dvd_add (Nat.dvd_trans (Nat.pow_dvd_pow 2 (by omega)) c2) (Nat.dvd_refl _)
        · intro i hi hiL
          have hi' : k ≤ i := hi
          show setBit path k true i = (pos + 2 ^ k).testBit i ∧ ret i = !setBit path k true i
          rw [setBit_get, add_bit c2]
          by_cases e : i = k
          · subst e; simp [hr']
          · have e' : ¬ (k = i) := fun h => e h.symm
            have := c3 i (by omega) hiL
            simp [e, e', this]
        · intro i hi
          have hi' : i + 1 < k := hi
          show setBit path k true i = false ∧ ret i = false
          rw [setBit_get, if_neg (by omega)]; exact c4 i (by omega)
        · intro i hi
          have hi' : s.L ≤ i := hi
          show setBit path k true i = false ∧ ret i = false
          rw [setBit_get, if_neg (by omega)]; exact c5 i hi
        · intro i hi
          have hi' : i + 1 = k := hi
          show setBit path k true i = true → ret i = false
          intro _; exact (c4 i (by omega)).2
      · refine inv_goto h ht _ ?_ (by intro i; rw [hq]; rfl) (by intro i; simp [hh, hnh])
        intro hle
        have hle' : (k + 1) ≤ s.L := hle
        refine ⟨c1, c2, ?_, ?_, ?_, ?_⟩
        · intro i hi hiL
          have hi' : (k + 1) ≤ i := hi
          show setBit path k true i = _ ∧ ret i = !setBit path k true i
          rw [setBit_get, if_neg (by omega)]; exact c3 i hi hiL
        · intro i hi
          have hi' : i + 1 < (k + 1) := hi
          show setBit path k true i = false ∧ ret i = false
          rw [setBit_get, if_neg (by omega)]; exact c4 i hi
        · intro i hi
          have hi' : s.L ≤ i := hi
          show setBit path k true i = false ∧ ret i = false
          rw [setBit_get, if_neg (by omega)]; exact c5 i hi
        · intro i hi
          have hi' : i + 1 = (k + 1) := hi
          have : i = k := by omega
          subst this
          intro _; exact hr'

theorem bump_get (size : Nat → Int) (q : Nat) (d : Int) (i : Nat) : bump size q d i = if i = q then size i + d else size i := rfl

theorem inv_step {s : State} (h : Inv s) (e : Ev) (hr : Rule (List.range s.n) s e) : Inv (step s e) := by
  have hn : ∀ pc i, Holds pc i → (∃ todo, pc = .dec i todo) ∨ pc = .giving i := fun _ _ h => h
  have hi0 : ∀ i, ¬ Holds .idle i := by rintro i (⟨_, h⟩ | h) <;> cases h
  have hst : ∀ i, ¬ Holds .start i := by rintro i (⟨_, h⟩ | h) <;> cases h
  have hl : ∀ c i, ¬ Holds (.loop c) i := by rintro c i (⟨_, h⟩ | h) <;> cases h
  have hb : ∀ c i, ¬ Holds (.body c) i := by rintro c i (⟨_, h⟩ | h) <;> cases h
  have hrg : ∀ c v i, ¬ Holds (.right c v) i := by rintro c v i (⟨_, h⟩ | h) <;> cases h
  have hinc : ∀ c i, ¬ Holds (.inc c) i := by rintro c i (⟨_, h⟩ | h) <;> cases h
  cases e with
  | take t =>
    simp only [step]
    split
    · next ht => exact inv_goto h ht _ trivial (fun _ => rfl) (by simp [hi0, hst])
    · exact h
  | give t p =>
    simp only [step]
    split
    · next ht =>
      split
      · next hp =>
        obtain ⟨-, hnf⟩ := hr
        have hsem : s.sem p = true := by
          cases hs : s.sem p with
          | true => rfl
          | false => exact absurd (h.free p hp hs) hnf
        refine ⟨h.pos, h.hn, h.bad, ?_, ?_, ?_, ?_, ?_, ?_, ?_, ?_, ?_⟩
        · intro u r hu
          replace hu := (get_set ht _ u r).mp hu
          rcases hu with ⟨-, rfl⟩ | ⟨-, hu⟩
          · exact hp
          · exact h.ok u r hu
        · intro i
          show s.size i = _ + adjSum (s.pcs.set t _) i
          rw [h.acc i, adjSum, adjSum, sum_set _ _ _ _ _ ht]
          simp only [State.goto, State.emit, adj]; omega
        · simp only [State.emit, State.goto, exclusive_snoc, and_true]; exact h.exc
        · simp only [State.emit, State.goto, freeAfter_snoc, nextFree]; exact List.nodup_cons.mpr ⟨hnf, h.nod⟩
        · simp only [State.emit, State.goto, freeAfter_snoc, nextFree, List.mem_cons]
          rintro i (rfl | hi)
          · exact hp
          · exact h.ran i hi
        · intro u r i hu hh
          simp only [State.emit, State.goto, freeAfter_snoc, nextFree, List.mem_cons]
          replace hu := (get_set ht _ u r).mp hu
          rcases hu with ⟨-, rfl⟩ | ⟨-, hu⟩
          · rcases hh with ⟨_, hh⟩ | hh
            · cases hh
            · cases hh; exact ⟨hsem, Or.inl rfl⟩
          · have := h.hold u r i hu hh; exact ⟨this.1, Or.inr this.2⟩
        · intro u v r r' i hu hv hh hh'
          have hx : ∀ w x, At s w x → ¬ Holds x p := fun w x hw hx => hnf (h.hold w x p hw hx).2
          replace hu := (get_set ht _ u r).mp hu
          replace hv := (get_set ht _ v r').mp hv
          rcases hu with ⟨rfl, rfl⟩ | ⟨hne, hu⟩ <;> rcases hv with ⟨rfl, rfl⟩ | ⟨hne', hv⟩
          · rfl
          · rcases hh with ⟨_, hh⟩ | hh
            · cases hh
            · cases hh; exact absurd hh' (hx v _ hv)
          · rcases hh' with ⟨_, hh'⟩ | hh'
            · cases hh'
            · cases hh'; exact absurd hh (hx u _ hu)
          · exact h.uniq u v _ _ i hu hv hh hh'
        · intro i hi hs
          simp only [State.emit, State.goto, freeAfter_snoc, nextFree, List.mem_cons]
          exact Or.inr (h.free i hi hs)
        · intro i hi hs
          simp only [State.emit, State.goto, freeAfter_snoc, nextFree, List.mem_cons] at hi
          rcases hi with rfl | hi
          · exact ⟨t, .giving i, (get_set ht _ t _).mpr (Or.inl ⟨rfl, rfl⟩), Or.inr rfl⟩
          · obtain ⟨u, pc, hu, hpc⟩ := h.held i hi hs
            refine ⟨u, pc, (get_set ht _ u pc).mpr (Or.inr ⟨?_, hu⟩), hpc⟩
            rintro rfl; rw [At, ht] at hu; cases hu; exact hi0 i hpc
      · exact h
    · exact h
  | run t =>
    simp only [step]
    split
    · next ht =>
      have := h.pos
      rw [if_neg (by omega)]
      split
      · refine inv_goto h ht _ ?_ (fun _ => rfl) (by simp [hst, hl])
        intro _
        refine ⟨h.pos, Nat.dvd_zero _, ?_, ?_, ?_, ?_⟩
        · intro k h1 h2; exact absurd h2 (by have h1' : s.L ≤ k := h1; omega)
        · intro k _; exact ⟨rfl, rfl⟩
        · intro k _; exact ⟨rfl, rfl⟩
        · intro k _ h; cases h
      · exact inv_failed (inv_goto h ht .idle trivial (fun _ => rfl) (by simp [hst, hi0])) t
    · next c ht =>
      split
      · exact inv_failed (inv_goto h ht .idle trivial (fun _ => rfl) (by simp [hl, hi0])) t
      · next hle =>
        have hc : CurOk s.n s.L c := h.ok t _ ht (by omega)
        split
        · next h0 =>
          have h' := inv_touch h hc.lt
          split
          · obtain ⟨c1, c2, c3, c4, c5, c6⟩ := hc
            refine inv_goto h' ht _ ?_ (fun _ => rfl) (by simp [hl, hb])
            refine ⟨rfl, ?_⟩
            simp only [State.touch]
            by_cases hL : 0 < s.L
            · obtain ⟨e1, e2⟩ := c3 0 (by omega) hL
              have hpos : (if c.path 0 then c.pos - 1 else c.pos) = trunc c.pos 1 := by
                rw [trunc_succ (k := 0) (by simp), e1]
              have hdv := dvd_trunc c.pos 1
              have htl := trunc_le c.pos 1
              refine ⟨?_, ?_, ?_, ?_, ?_, ?_⟩
              · show (if c.path 0 then _ else _) < _
                rw [hpos]; omega
              · show 2 ^ 1 ∣ (if c.path 0 then _ else _)
                rw [hpos]; exact hdv
              · intro i hi hiL
                have hi' : 1 ≤ i := hi
                obtain ⟨d1, d2⟩ := c3 i (by omega) hiL
                show c.path i = (if c.path 0 then c.pos - 1 else c.pos).testBit i ∧ c.ret i = _
                refine ⟨?_, d2⟩
                rw [d1]
                by_cases hb : c.path 0
                · rw [if_pos hb] at hpos ⊢
                  have hge := two_pow_le_of_testBit (e1 ▸ hb)
                  have : c.pos = (c.pos - 1) + 2 ^ 0 := by omega
                  rw [this, add_bit (by rw [hpos]; exact hdv)]
                  have : ¬ (0 = i) := by omega
                  simp [this]
                · rw [if_neg hb]
              · intro i hi
                have hi' : i + 1 < 1 := hi
                omega
              · exact c5
              · intro i hi
                have hi' : i + 1 = 1 := hi
                have : i = 0 := by omega
                subst this
                show c.path 0 = true → c.ret 0 = false
                rw [e2]; intro h; rw [h]; rfl
            · have hL : s.L = 0 := by omega
              have hn1 := h.hn
              rw [hL] at hn1
              have hp0 : c.pos = 0 := by omega
              have hpa := c5 0 (by omega)
              refine ⟨?_, ?_, ?_, ?_, ?_, ?_⟩
              · show (if c.path 0 then _ else _) < _
                rw [hpa.1]; exact c1
              · show 2 ^ 1 ∣ (if c.path 0 then _ else _)
                rw [hpa.1]; simp [hp0]
              · intro i hi hiL; omega
              · intro i hi
                have hi' : i + 1 < 1 := hi
                omega
              · exact c5
              · intro i hi
                have hi' : i + 1 = 1 := hi
                have : i = 0 := by omega
                subst this
                intro _; exact hpa.2
          · next hs =>
            have hs' : s.sem c.pos = false := by simpa [State.touch] using hs
            clear hs
            have hnh : ∀ u pc, At s u pc → ¬ Holds pc c.pos := by
              intro u pc hu hh
              have := (h.hold u pc _ hu hh).1
              rw [hs'] at this; cases this
            refine ⟨h.pos, h.hn, h'.bad, ?_, ?_, h.exc, h.nod, h.ran, ?_, ?_, ?_, ?_⟩
            · intro u r hu
              replace hu := (get_set ht _ u r).mp hu
              rcases hu with ⟨-, rfl⟩ | ⟨-, hu⟩
              · exact ⟨hc.lt, List.suffix_refl _⟩
              · exact h.ok u r hu
            · intro i
              show s.size i = (freeCnt s.n s.L (fun j => if j = c.pos then true else s.sem j) i : Nat) +
                adjSum (s.pcs.set t (.dec c.pos (chain s.L c.pos))) i
              rw [h.acc i, adjSum, adjSum, sum_set _ _ _ _ _ ht]
              have := countP_range_update (p := c.pos) (n := s.n) hc.lt
                (f := fun p => !s.sem p && decide (i ∈ chain s.L p))
                (g := fun p => !(if p = c.pos then true else s.sem p) && decide (i ∈ chain s.L p))
                (by intro j hj; simp [hj])
              simp only [freeCnt, adj, this, hs']
              simp
              split <;> omega
            · intro u r i hu hh
              simp only [State.touch, State.goto]
              replace hu := (get_set ht _ u r).mp hu
              rcases hu with ⟨-, rfl⟩ | ⟨-, hu⟩
              · rcases hh with ⟨_, hh⟩ | hh
                · cases hh; exact ⟨by simp, h.free _ hc.lt hs'⟩
                · cases hh
              · have := h.hold u r i hu hh
                exact ⟨by simp [this.1], this.2⟩
            · intro u v r r' i hu hv hh hh'
              replace hu := (get_set ht _ u r).mp hu
              replace hv := (get_set ht _ v r').mp hv
              rcases hu with ⟨rfl, rfl⟩ | ⟨hne, hu⟩ <;> rcases hv with ⟨rfl, rfl⟩ | ⟨hne', hv⟩
              · rfl
              · rcases hh with ⟨_, hh⟩ | hh
                · cases hh; exact absurd hh' (hnh v _ hv)
                · cases hh
              · rcases hh' with ⟨_, hh'⟩ | hh'
                · cases hh'; exact absurd hh (hnh u _ hu)
                · cases hh'
              · exact h.uniq u v _ _ i hu hv hh hh'
            · intro i hi
              simp only [State.touch, State.goto]
              intro hsi
              split at hsi
              · cases hsi
              · exact h.free i hi hsi
            · intro i hi
              simp only [State.touch, State.goto]
              intro hsi
              by_cases e : i = c.pos
              · subst e
                exact ⟨t, _, (get_set ht _ t _).mpr (Or.inl ⟨rfl, rfl⟩), Or.inl ⟨_, rfl⟩⟩
              · rw [if_neg e] at hsi
                obtain ⟨u, pc, hu, hpc⟩ := h.held i hi hsi
                refine ⟨u, pc, (get_set ht _ u pc).mpr (Or.inr ⟨?_, hu⟩), hpc⟩
                rintro rfl; rw [At, ht] at hu; cases hu; exact hl _ i hpc
        · exact inv_bodyStep h ht c hc (by omega) (fun _ => rfl) (hl c)
    · next c ht =>
      have := h.ok t _ ht
      exact inv_bodyStep h ht c this.2 (by have := this.1; omega) (fun _ => rfl) (hb c)
    · next c tot ht =>
      obtain ⟨o1, o2, hc, o3, o4⟩ := h.ok t _ ht
      obtain ⟨c1, c2, c3, c4, c5, c6⟩ := hc
      obtain ⟨k, hk⟩ : ∃ k, c.lvl = k + 1 := ⟨c.lvl - 1, by omega⟩
      split
      · refine inv_goto h ht _ ?_ (fun _ => rfl) (by simp [hl, hrg])
        intro _
        simp only [hk, Nat.add_sub_cancel] at o3 o4 c2 c3 c4 ⊢
        refine ⟨c1, Nat.dvd_trans (Nat.pow_dvd_pow 2 (Nat.le_succ k)) c2, ?_, ?_, c5, ?_⟩
        · intro i hi hiL
          have hi' : k ≤ i := hi
          by_cases e : i = k
          · subst e
            refine ⟨?_, ?_⟩
            · show c.path i = c.pos.testBit i
              rw [o3]
              obtain ⟨m, hm⟩ := c2
              rw [hm, Nat.testBit_two_pow_mul]; simp; omega
            · show c.ret i = !c.path i
              rw [o3, o4]; rfl
          · exact c3 i (by omega) hiL
        · intro i hi
          have hi' : i + 1 < k := hi
          exact c4 i (by omega)
        · intro i hi
          have hi' : i + 1 = k := hi
          intro _; exact (c4 i (by omega)).2
      · exact inv_goto h ht _ (fun _ => ⟨c1, c2, c3, c4, c5, c6⟩) (fun _ => rfl) (by simp [hl, hrg])
    · next p todo ht =>
      obtain ⟨hp, hsuf⟩ := h.ok t _ ht
      split
      · -- the index is returned
        have hpf := (h.hold t _ p ht (Or.inl ⟨_, rfl⟩))
        have hun : ∀ u pc, At s u pc → Holds pc p → u = t := fun u pc hu hh => h.uniq u t _ _ p hu ht hh (Or.inl ⟨_, rfl⟩)
        refine ⟨h.pos, h.hn, h.bad, ?_, ?_, ?_, ?_, ?_, ?_, ?_, ?_, ?_⟩
        · intro u r hu
          replace hu := (get_set ht _ u r).mp hu
          rcases hu with ⟨-, rfl⟩ | ⟨-, hu⟩
          · trivial
          · exact h.ok u r hu
        · intro i
          show s.size i = _ + adjSum (s.pcs.set t _) i
          rw [h.acc i, adjSum, adjSum, sum_set _ _ _ _ _ ht]
          simp only [State.goto, State.emit, adj]; simp
        · simp only [State.emit, State.goto, exclusive_snoc]; exact ⟨h.exc, hpf.2⟩
        · simp only [State.emit, State.goto, freeAfter_snoc, nextFree]; exact h.nod.sublist List.filter_sublist
        · simp only [State.emit, State.goto, freeAfter_snoc, nextFree]
          intro i hi; exact h.ran i (List.mem_filter.mp hi).1
        · intro u r i hu hh
          simp only [State.emit, State.goto, freeAfter_snoc, nextFree]
          replace hu := (get_set ht _ u r).mp hu
          rcases hu with ⟨-, rfl⟩ | ⟨hne, hu⟩
          · exact absurd hh (hi0 i)
          · have := h.hold u r i hu hh
            refine ⟨this.1, List.mem_filter.mpr ⟨this.2, ?_⟩⟩
            simp only [ne_eq, decide_eq_true_eq]
            rintro rfl; exact hne (hun u r hu hh)
        · intro u v r r' i hu hv hh hh'
          replace hu := (get_set ht _ u r).mp hu
          rcases hu with ⟨rfl, rfl⟩ | ⟨hne, hu⟩
          · exact absurd hh (hi0 i)
          · replace hv := (get_set ht _ v r').mp hv
            rcases hv with ⟨rfl, rfl⟩ | ⟨hne', hv⟩
            · exact absurd hh' (hi0 i)
            · exact h.uniq u v _ _ i hu hv hh hh'
        · intro i hi hs
          simp only [State.emit, State.goto, freeAfter_snoc, nextFree]
          refine List.mem_filter.mpr ⟨h.free i hi hs, ?_⟩
          simp only [ne_eq, decide_eq_true_eq]
          rintro rfl
          have hs' : s.sem i = false := hs
          rw [hpf.1] at hs'; cases hs'
        · intro i hi hs
          simp only [State.emit, State.goto, freeAfter_snoc, nextFree] at hi
          obtain ⟨hi1, hi2⟩ := List.mem_filter.mp hi
          obtain ⟨u, pc, hu, hpc⟩ := h.held i hi1 hs
          refine ⟨u, pc, (get_set ht _ u pc).mpr (Or.inr ⟨?_, hu⟩), hpc⟩
          rintro rfl; rw [At, ht] at hu; cases hu
          rcases hpc with ⟨_, hpc⟩ | hpc
          · cases hpc; simp at hi2
          · cases hpc
      · next q todo =>
        have hq : q < s.n := by
          have := chain_le (hsuf.subset (List.mem_cons_self))
          omega
        have hnot := suffix_head_not_mem (chain_pairwise s.L p) hsuf
        have h' := inv_touch h hq
        have hg : Inv ((s.touch q).goto t (.dec p (q :: todo))) := inv_goto h' ht _ ⟨hp, hsuf⟩ (fun _ => rfl) (fun _ => Iff.rfl)
        refine ⟨h.pos, h.hn, h'.bad, ?_, ?_, h.exc, h.nod, h.ran, ?_, ?_, h.free, ?_⟩
        · intro u r hu
          replace hu := (get_set ht _ u r).mp hu
          rcases hu with ⟨-, rfl⟩ | ⟨-, hu⟩
          · exact ⟨hp, List.IsSuffix.trans (List.suffix_cons q todo) hsuf⟩
          · exact h.ok u r hu
        · intro i
          show bump s.size q (-1) i = (freeCnt s.n s.L s.sem i : Nat) + adjSum (s.pcs.set t _) i
          rw [bump_get, h.acc i, adjSum, adjSum, sum_set _ _ _ _ _ ht]
          simp only [adj, List.mem_cons]
          by_cases e : i = q
          · subst e; simp [hnot]; omega
          · simp only [e, if_false, false_or]; omega
        · intro u r i hu hh
          replace hu := (get_set ht _ u r).mp hu
          rcases hu with ⟨-, rfl⟩ | ⟨-, hu⟩
          · rcases hh with ⟨_, hh⟩ | hh
            · cases hh; exact h.hold t _ _ ht (Or.inl ⟨_, rfl⟩)
            · cases hh
          · exact h.hold u r i hu hh
        · have hh : ∀ i, Holds (.dec p todo) i → Holds (.dec p (q :: todo)) i := by
            rintro i (⟨_, hh⟩ | hh)
            · cases hh; exact Or.inl ⟨_, rfl⟩
            · cases hh
          intro u v r r' i hu hv h1 h1'
          replace hu := (get_set ht _ u r).mp hu
          replace hv := (get_set ht _ v r').mp hv
          rcases hu with ⟨rfl, rfl⟩ | ⟨hne, hu⟩ <;> rcases hv with ⟨rfl, rfl⟩ | ⟨hne', hv⟩
          · rfl
          · exact h.uniq u v _ _ i ht hv (hh i h1) h1'
          · exact h.uniq u v _ _ i hu ht h1 (hh i h1')
          · exact h.uniq u v _ _ i hu hv h1 h1'
        · intro i hi hs
          obtain ⟨u, pc, hu, hpc⟩ := h.held i hi hs
          by_cases e : u = t
          · subst e
            rw [At, ht] at hu; cases hu
            rcases hpc with ⟨_, hpc⟩ | hpc
            · cases hpc
              exact ⟨u, _, (get_set ht _ u _).mpr (Or.inl ⟨rfl, rfl⟩), Or.inl ⟨_, rfl⟩⟩
            · cases hpc
          · exact ⟨u, pc, (get_set ht _ u pc).mpr (Or.inr ⟨e, hu⟩), hpc⟩
    · next p ht =>
      have hp : p < s.n := h.ok t _ ht
      have hpf := h.hold t _ p ht (Or.inr rfl)
      have hun : ∀ u pc, At s u pc → Holds pc p → u = t := fun u pc hu hh => h.uniq u t _ _ p hu ht hh (Or.inr rfl)
      refine ⟨h.pos, h.hn, h.bad, ?_, ?_, h.exc, h.nod, h.ran, ?_, ?_, ?_, ?_⟩
      · intro u r hu
        replace hu := (get_set ht _ u r).mp hu
        rcases hu with ⟨-, rfl⟩ | ⟨-, hu⟩
        · exact ⟨p, hp, List.suffix_refl _⟩
        · exact h.ok u r hu
      · intro i
        show s.size i = (freeCnt s.n s.L (fun j => if j = p then false else s.sem j) i : Nat) + adjSum (s.pcs.set t _) i
        rw [h.acc i, adjSum, adjSum, sum_set _ _ _ _ _ ht]
        have := countP_range_update (p := p) (n := s.n) hp
          (f := fun p => !s.sem p && decide (i ∈ chain s.L p))
          (g := fun j => !(if j = p then false else s.sem j) && decide (i ∈ chain s.L j))
          (by intro j hj; simp [hj])
        simp only [freeCnt, adj, this, hpf.1]
        simp
        split <;> omega
      · intro u r i hu hh
        simp only [State.goto]
        replace hu := (get_set ht _ u r).mp hu
        rcases hu with ⟨-, rfl⟩ | ⟨hne, hu⟩
        · exact absurd hh (hinc _ i)
        · have := h.hold u r i hu hh
          refine ⟨?_, this.2⟩
          rw [if_neg]
          · exact this.1
          · rintro rfl; exact hne (hun u r hu hh)
      · intro u v r r' i hu hv hh hh'
        replace hu := (get_set ht _ u r).mp hu
        rcases hu with ⟨rfl, rfl⟩ | ⟨hne, hu⟩
        · exact absurd hh (hinc _ i)
        · replace hv := (get_set ht _ v r').mp hv
          rcases hv with ⟨rfl, rfl⟩ | ⟨hne', hv⟩
          · exact absurd hh' (hinc _ i)
          · exact h.uniq u v _ _ i hu hv hh hh'
      · intro i hi
        simp only [State.goto]
        intro hsi
        by_cases e : i = p
        · subst e; exact hpf.2
        · rw [if_neg e] at hsi; exact h.free i hi hsi
      · intro i hi
        simp only [State.goto]
        intro hsi
        by_cases e : i = p
        · rw [if_pos e] at hsi; cases hsi
        · rw [if_neg e] at hsi
          obtain ⟨u, pc, hu, hpc⟩ := h.held i hi hsi
          refine ⟨u, pc, (get_set ht _ u pc).mpr (Or.inr ⟨?_, hu⟩), hpc⟩
          rintro rfl; rw [At, ht] at hu; cases hu
          rcases hpc with ⟨_, hpc⟩ | hpc
          · cases hpc
          · cases hpc; exact e rfl
    · next todo ht =>
      obtain ⟨p, hp, hsuf⟩ := h.ok t _ ht
      split
      · refine inv_goto h ht _ trivial ?_ (by simp [hi0, hinc])
        intro i; simp [adj]
      · next q todo =>
        have hq : q < s.n := by
          have := chain_le (hsuf.subset (List.mem_cons_self))
          omega
        have hnot := suffix_head_not_mem (chain_pairwise s.L p) hsuf
        have h' := inv_touch h hq
        refine ⟨h.pos, h.hn, h'.bad, ?_, ?_, h.exc, h.nod, h.ran, ?_, ?_, h.free, ?_⟩
        · intro u r hu
          replace hu := (get_set ht _ u r).mp hu
          rcases hu with ⟨-, rfl⟩ | ⟨-, hu⟩
          · exact ⟨p, hp, List.IsSuffix.trans (List.suffix_cons q todo) hsuf⟩
          · exact h.ok u r hu
        · intro i
          show bump s.size q 1 i = (freeCnt s.n s.L s.sem i : Nat) + adjSum (s.pcs.set t _) i
          rw [bump_get, h.acc i, adjSum, adjSum, sum_set _ _ _ _ _ ht]
          simp only [adj, List.mem_cons]
          by_cases e : i = q
          · subst e; simp [hnot]; omega
          · simp only [e, if_false, false_or]; omega
        · intro u r i hu hh
          replace hu := (get_set ht _ u r).mp hu
          rcases hu with ⟨-, rfl⟩ | ⟨-, hu⟩
          · exact absurd hh (hinc _ i)
          · exact h.hold u r i hu hh
        · intro u v r r' i hu hv hh hh'
          replace hu := (get_set ht _ u r).mp hu
          rcases hu with ⟨rfl, rfl⟩ | ⟨hne, hu⟩
          · exact absurd hh (hinc _ i)
          · replace hv := (get_set ht _ v r').mp hv
            rcases hv with ⟨rfl, rfl⟩ | ⟨hne', hv⟩
            · exact absurd hh' (hinc _ i)
            · exact h.uniq u v _ _ i hu hv hh hh'
        · intro i hi hs
          obtain ⟨u, pc, hu, hpc⟩ := h.held i hi hs
          refine ⟨u, pc, (get_set ht _ u pc).mpr (Or.inr ⟨?_, hu⟩), hpc⟩
          rintro rfl; rw [At, ht] at hu; cases hu; exact hinc _ i hpc
    · exact h

end Verif.FastResource
