import Verif.Model.FastSched
import Verif.Spec.FastSched
set_option linter.unusedSimpArgs false
set_option linter.unusedVariables false
/-! Proofs for C82. -/
namespace Verif.FastSched
open Verif.Spec.FastSched

/-! ## The size of the pool -/

theorem most_nil (c : Nat) : most c [] = 0 := rfl
theorem most_cons (c : Nat) (st : List Nat) (l : List (List Nat)) : most c (st :: l) = max (st.count c) (most c l) := rfl

theorem most_append (c : Nat) : ∀ a b : List (List Nat), most c (a ++ b) = max (most c a) (most c b)
  | [], b => by simp [most_nil]
  | x :: a, b => by rw [List.cons_append, most_cons, most_append c a b, most_cons]; omega

theorem largest_fold (c : Nat) : ∀ (l : List (List Nat)) (m : Nat),
    l.foldl (fun m st => if st.count c > m then st.count c else m) m = max m (most c l)
  | [], m => by simp [most_nil]
  | st :: l, m => by
    rw [List.foldl_cons, largest_fold c l, most_cons]
    split <;> omega

theorem largest_eq (c : Nat) (l : List (List Nat)) : largest c l = most c l := by
  unfold largest; rw [largest_fold]; omega

theorem most_zero {c : Nat} {l : List (List Nat)} (h : ∀ st ∈ l, c ∉ st) : most c l = 0 := by
  induction l with
  | nil => rfl
  | cons st l ih =>
    rw [most_cons, ih (fun x hx => h x (by simp [hx])), List.count_eq_zero.2 (h st (by simp))]; rfl

theorem le_most {c : Nat} {l : List (List Nat)} {st : List Nat} (h : st ∈ l) : st.count c ≤ most c l := by
  induction l with
  | nil => simp at h
  | cons x l ih =>
    rw [most_cons]
    rcases List.mem_cons.1 h with rfl | h
    · omega
    · have := ih h; omega

/-- A sum in which one term changes. -/
theorem sum_update (f g : Nat → Nat) (a v : Nat) : ∀ cpus : List Nat, cpus.Nodup → (∀ c, c ≠ a → g c = f c) → g a = f a + v → a ∈ cpus →
    (cpus.map g).sum = (cpus.map f).sum + v
  | [], _, _, _, h => by simp at h
  | c :: cpus, hn, h1, h2, h => by
    rw [List.nodup_cons] at hn
    simp only [List.map_cons, List.sum_cons]
    by_cases e : c = a
    · subst e
      have : cpus.map g = cpus.map f := List.map_congr_left fun x hx => h1 x (fun e => hn.1 (e ▸ hx))
      rw [this, h2]; omega
    · have ha : a ∈ cpus := by
        rcases List.mem_cons.1 h with h | h
        · exact absurd h.symm e
        · exact h
      rw [sum_update f g a v cpus hn.2 h1 h2 ha, h1 c e]; omega

theorem threads_sum (before : List (List Nat)) (st : List Nat) (rest : List (List Nat)) (cpus : List Nat) (hn : cpus.Nodup) :
    ∀ (cs done : List Nat) (n : Nat), (∀ c ∈ cs, c ∈ cpus) →
    computeThreads before st rest done cs n =
      n + (cpus.map fun c => if c ∈ cs ∧ c ∉ done ∧ ∀ o ∈ before, c ∉ o then most c (st :: rest) else 0).sum
  | [], done, n, _ => by
    simp only [computeThreads, List.not_mem_nil, false_and, if_false]
    clear hn
    induction cpus with
    | nil => rfl
    | cons x l ih => simpa using ih (by simp)
  | a :: cs, done, n, h => by
    rw [computeThreads]
    rw [threads_sum before st rest cpus hn cs (done ++ [a]) _ (fun c hc => h c (by simp [hc]))]
    rw [largest_eq]
    by_cases hf : (before.any (fun o => o.contains a) || done.contains a) = true
    · rw [if_pos hf]
      congr 2
      apply List.map_congr_left
      intro c _
      have : (c ∈ cs ∧ c ∉ done ++ [a] ∧ ∀ o ∈ before, c ∉ o) ↔ (c ∈ a :: cs ∧ c ∉ done ∧ ∀ o ∈ before, c ∉ o) := by
        simp only [List.mem_append, List.mem_cons, List.not_mem_nil, or_false, not_or]
        simp only [Bool.or_eq_true, List.any_eq_true, List.contains_iff_mem] at hf
        constructor
        · rintro ⟨h1, h2, h3⟩; exact ⟨Or.inr h1, h2.1, h3⟩
        · rintro ⟨h1, h2, h3⟩
          have hca : c ≠ a := by
            rintro rfl
            rcases hf with ⟨o, ho, hc⟩ | hc
            · exact h3 o ho hc
            · exact h2 hc
          exact ⟨h1.resolve_left hca, ⟨h2, hca⟩, h3⟩
      simp only [this]
    · rw [if_neg hf, Nat.add_assoc]
      congr 1
      rw [Nat.add_comm]
      symm
      have hna : a ∉ done ∧ ∀ o ∈ before, a ∉ o := by
        simp only [Bool.or_eq_true, List.any_eq_true, List.contains_iff_mem, not_or, not_exists, not_and] at hf
        exact ⟨hf.2, fun o ho => hf.1 o ho⟩
      apply sum_update _ _ a _ cpus hn _ _ (h a (by simp))
      · intro c hc
        have : (c ∈ cs ∧ c ∉ done ++ [a] ∧ ∀ o ∈ before, c ∉ o) ↔ (c ∈ a :: cs ∧ c ∉ done ∧ ∀ o ∈ before, c ∉ o) := by
          simp only [List.mem_append, List.mem_cons, List.not_mem_nil, or_false, not_or, hc, false_or, not_false_eq_true, and_true]
        simp only [this]
      · rw [if_pos ⟨by simp, hna⟩, if_neg (by simp)]; omega

theorem states_sum (cpus : List Nat) (hn : cpus.Nodup) : ∀ (rest before : List (List Nat)) (n : Nat), (∀ st ∈ rest, ∀ c ∈ st, c ∈ cpus) →
    computeStates before rest n = n + (cpus.map fun c => if ∀ o ∈ before, c ∉ o then most c rest else 0).sum
  | [], before, n, _ => by
    simp only [computeStates, most_nil, ite_self]
    clear hn
    induction cpus with
    | nil => rfl
    | cons x l ih => simpa using ih (by simp)
  | st :: rest, before, n, h => by
    rw [computeStates, states_sum cpus hn rest _ _ (fun x hx => h x (by simp [hx])),
      threads_sum before st rest cpus hn st [] n (h st (by simp)), Nat.add_assoc]
    congr 1
    have hadd : ∀ (f g k : Nat → Nat) (l : List Nat), (∀ c, k c = f c + g c) → (l.map f).sum + (l.map g).sum = (l.map k).sum := by
      intro f g k l hk
      induction l with
      | nil => rfl
      | cons x l ih => simp only [List.map_cons, List.sum_cons, hk x]; omega
    apply hadd
    intro c
    by_cases hb : ∀ o ∈ before, c ∉ o
    · rw [if_pos hb]
      by_cases hc : c ∈ st
      · rw [if_pos ⟨hc, by simp, hb⟩, if_neg (by
          intro h; exact h st (by simp) hc)]; rfl
      · rw [if_neg (fun h => hc h.1), if_pos (by
          intro o ho
          rcases List.mem_append.1 ho with ho | ho
          · exact hb o ho
          · simp at ho; exact ho ▸ hc), most_cons, List.count_eq_zero.2 hc]; omega
    · rw [if_neg hb, if_neg (fun h => hb h.2.2), if_neg (fun h => hb fun o ho => h o (by simp [ho]))]

theorem computeMax_eq (states : List (List Nat)) (cpus : List Nat) (hm : Masks cpus states) (n : Nat) :
    computeMax states n = n + (cpus.map fun c => most c states).sum := by
  unfold computeMax
  rw [states_sum cpus hm.1 states [] n (fun st hst c hc => (hm.2 c).2 ⟨st, hst, hc⟩)]
  simp

/-! ## A place for a thread -/

theorem column_spec (cpu : Nat) : ∀ (l : List Nat) (a : Bool), (cpu ∈ l → (column cpu l a).1 = true) ∧
    (cpu ∉ l → column cpu l a = (false, (l.getLast?.map fun x => decide (x = allCpus)).getD a))
  | [], a => by simp [column]
  | x :: l, a => by
    have ih := column_spec cpu l (decide (x = allCpus))
    rw [column]
    by_cases e : x = cpu
    · rw [if_pos e]; exact ⟨fun _ => rfl, fun h => absurd (by simp [e]) h⟩
    · rw [if_neg e]
      have hm : cpu ∈ x :: l ↔ cpu ∈ l := by simp [Ne.symm e]
      rw [hm]
      refine ⟨ih.1, fun h => ?_⟩
      rw [ih.2 h]
      cases l with
      | nil => rfl
      | cons y l => rw [List.getLast?_cons_cons]; cases hl : (y :: l).getLast? with
        | none => simp at hl
        | some z => rfl

/-- The places that are taken for new. -/
def freshTest (rows : Nat → Nat → Nat) (s h : Nat) : Bool :=
  decide (rows s h = allCpus) && (s == 0 || decide (rows (s - 1) h = allCpus))

theorem place_spec (rows : Nat → Nat → Nat) (s cpu : Nat) : ∀ (hs : List Nat) (first : Option Nat),
    (∃ h ∈ hs, place rows s cpu hs first = (some h, true) ∧ rows s h = allCpus ∧ ∃ k, k < s ∧ rows k h = cpu) ∨
    ((∀ h ∈ hs, rows s h = allCpus → ∀ k, k < s → rows k h ≠ cpu) ∧
      place rows s cpu hs first = (first.or (hs.find? (freshTest rows s)), false))
  | [], first => Or.inr ⟨by simp, by simp [place]⟩
  | h :: hs, first => by
    rw [place]
    by_cases hr : rows s h = allCpus
    · rw [if_pos hr]
      have hc := column_spec cpu ((List.range s).map fun k => rows k h) false
      by_cases hm : cpu ∈ (List.range s).map fun k => rows k h
      · rw [if_pos (hc.1 hm)]
        obtain ⟨k, hk, e⟩ := List.mem_map.1 hm
        exact Or.inl ⟨h, by simp, rfl, hr, k, List.mem_range.1 hk, e⟩
      · rw [hc.2 hm]
        simp only [Bool.false_eq_true, if_false]
        have hno : ∀ k, k < s → rows k h ≠ cpu := fun k hk e => hm (List.mem_map.2 ⟨k, List.mem_range.2 hk, e⟩)
        have htest : ((((List.range s).map fun k => rows k h).getLast?.map fun x => decide (x = allCpus)).getD false || s == 0) = freshTest rows s h := by
          unfold freshTest
          cases s with
          | zero => simp [hr]
          | succ s => rw [List.range_succ, List.map_append]; simp [hr]
        rw [htest]
        rcases place_spec rows s cpu hs (if (freshTest rows s h && first.isNone) = true then some h else first) with
          ⟨h', hh, e, e2⟩ | ⟨h1, e⟩
        · exact Or.inl ⟨h', by simp [hh], e, e2⟩
        · refine Or.inr ⟨?_, ?_⟩
          · intro x hx hxr k hk
            rcases List.mem_cons.1 hx with rfl | hx
            · exact hno k hk
            · exact h1 x hx hxr k hk
          · rw [e, List.find?_cons]
            cases first with
            | some f => simp
            | none => cases hf : freshTest rows s h <;> simp
    · rw [if_neg hr]
      rcases place_spec rows s cpu hs first with ⟨h', hh, e, e2⟩ | ⟨h1, e⟩
      · exact Or.inl ⟨h', by simp [hh], e, e2⟩
      · refine Or.inr ⟨?_, ?_⟩
        · intro x hx hxr k hk
          rcases List.mem_cons.1 hx with rfl | hx
          · exact absurd hxr hr
          · exact h1 x hx hxr k hk
        · rw [e, List.find?_cons, show freshTest rows s h = false by simp [freshTest, hr]]

/-- What a step does, whenever it finds a place. -/
theorem create_some {n c s t : Nat} {m m' : Map} (h : createThreadMap n c s t m = some m') :
    ∃ p, p < n ∧ m.rows s p = allCpus ∧ m'.rows = set2 m.rows s p c ∧ m'.slot = set2 m.slot s t p := by
  unfold createThreadMap at h
  rcases place_spec m.rows s c (List.range n) none with ⟨p, hp, e, h1, -⟩ | ⟨h1, e⟩
  · rw [e] at h
    simp only [Option.some.injEq] at h
    exact ⟨p, List.mem_range.1 hp, h1, by rw [← h], by rw [← h]⟩
  · rw [e] at h
    cases hf : (List.range n).find? (freshTest m.rows s) with
    | none => rw [hf] at h; simp at h
    | some p =>
      rw [hf] at h
      simp only [Option.none_or, Option.some.injEq] at h
      have hp := List.mem_of_find?_eq_some hf
      have ht := List.find?_some hf
      simp only [freshTest, Bool.and_eq_true, decide_eq_true_eq] at ht
      exact ⟨p, List.mem_range.1 hp, ht.1, by rw [← h], by rw [← h]⟩

/-! ## Own threads -/

/-- The threads of the state have places of their own. -/
def OwnRow (n s : Nat) (cur : List Nat) (m : Map) : Prop :=
  (∀ i c, cur[i]? = some c → m.slot s i < n ∧ m.rows s (m.slot s i) = c) ∧
  ∀ i j, i < cur.length → j < cur.length → m.slot s i = m.slot s j → i = j

theorem own_threads (n s : Nat) : ∀ (cs cur : List Nat) (m m' : Map), (∀ c ∈ cs, c ≠ allCpus) → (∀ c ∈ cur, c ≠ allCpus) → OwnRow n s cur m →
    setupThreads n s cs cur.length m = some m' →
    OwnRow n s (cur ++ cs) m' ∧ ∀ k, k ≠ s → m'.rows k = m.rows k ∧ m'.slot k = m.slot k
  | [], cur, m, m', _, _, ho, h => by
    simp only [setupThreads, Option.some.injEq] at h
    subst h
    rw [List.append_nil]
    exact ⟨ho, fun _ _ => ⟨rfl, rfl⟩⟩
  | c :: cs, cur, m, m', hc, hcur, ho, h => by
    rw [setupThreads] at h
    cases h1 : createThreadMap n c s cur.length m with
    | none => rw [h1] at h; simp at h
    | some m1 =>
      rw [h1, Option.bind_some] at h
      obtain ⟨p, hp, hr, e1, e2⟩ := create_some h1
      have hne : ∀ i, i < cur.length → m.slot s i ≠ p := by
        intro i hi e
        have := (ho.1 i cur[i] (List.getElem?_eq_getElem hi)).2
        rw [e, hr] at this
        exact hcur _ (List.getElem_mem hi) this.symm
      have ho1 : OwnRow n s (cur ++ [c]) m1 := by
        have hslot : ∀ i, i < cur.length → m1.slot s i = m.slot s i := by
          intro i hi; rw [e2]; unfold set2; rw [if_neg (by omega)]
        have hlast : m1.slot s cur.length = p := by rw [e2]; simp [set2]
        constructor
        · intro i x hx
          rcases Nat.lt_trichotomy i cur.length with hi | hi | hi
          · rw [List.getElem?_append_left hi] at hx
            obtain ⟨a, b⟩ := ho.1 i x hx
            rw [hslot i hi, e1]
            refine ⟨a, ?_⟩
            unfold set2
            rw [if_neg (fun h => hne i hi h.2)]; exact b
          · subst hi
            simp at hx
            subst hx
            rw [hlast, e1]
            exact ⟨hp, by simp [set2]⟩
          · rw [List.getElem?_eq_none (by simp; omega)] at hx; simp at hx
        · intro i j hi hj e
          simp only [List.length_append, List.length_cons, List.length_nil] at hi hj
          rcases Nat.lt_or_ge i cur.length with a | a <;> rcases Nat.lt_or_ge j cur.length with b | b
          · rw [hslot i a, hslot j b] at e; exact ho.2 i j a b e
          · rw [hslot i a, show j = cur.length by omega, hlast] at e; exact absurd e (hne i a)
          · rw [hslot j b, show i = cur.length by omega, hlast] at e; exact absurd e.symm (hne j b)
          · omega
      have := own_threads n s cs (cur ++ [c]) m1 m' (fun x hx => hc x (by simp [hx])) (by
        intro x hx
        rcases List.mem_append.1 hx with hx | hx
        · exact hcur x hx
        · simp at hx; exact hx ▸ hc c (by simp)) ho1 (by simpa using h)
      rw [List.append_assoc] at this
      refine ⟨this.1, fun k hk => ?_⟩
      rw [(this.2 k hk).1, (this.2 k hk).2, e1, e2]
      constructor <;> (funext b; unfold set2; rw [if_neg (fun h => hk h.1)])

theorem own_states (n : Nat) : ∀ (rest past : List (List Nat)) (m m' : Map), (∀ st ∈ rest, ∀ c ∈ st, c ≠ allCpus) →
    (∀ k st, past[k]? = some st → OwnRow n k st m) → setupStates n rest past.length m = some m' →
    ∀ k st, (past ++ rest)[k]? = some st → OwnRow n k st m'
  | [], past, m, m', _, ho, h => by
    simp only [setupStates, Option.some.injEq] at h
    subst h
    rwa [List.append_nil]
  | st :: rest, past, m, m', hc, ho, h => by
    rw [setupStates] at h
    cases h1 : setupThreads n past.length st 0 m with
    | none => rw [h1] at h; simp at h
    | some m1 =>
      rw [h1, Option.bind_some] at h
      have hot := own_threads n past.length st [] m m1 (hc st (by simp)) (by simp) ⟨by simp, by simp⟩ h1
      have := own_states n rest (past ++ [st]) m1 m' (fun x hx => hc x (by simp [hx])) (by
        intro k x hx
        rcases Nat.lt_trichotomy k past.length with hk | hk | hk
        · rw [List.getElem?_append_left hk] at hx
          have := ho k x hx
          unfold OwnRow at this ⊢
          rw [(hot.2 k (by omega)).1, (hot.2 k (by omega)).2]
          exact this
        · subst hk
          simp at hx
          subst hx
          exact hot.1
        · rw [List.getElem?_eq_none (by simp; omega)] at hx; simp at hx) (by simpa using h)
      rwa [List.append_assoc] at this

/-! ## The masks of the pool -/

/-- The number of places with a property. -/
def tally (n : Nat) (p : Nat → Bool) : Nat := (List.range n).countP p

theorem tally_update (n : Nat) (p q : Nat → Bool) (h : Nat) (hh : h < n) (hp : p h = false) (hq : q h = true)
    (ho : ∀ x, x ≠ h → q x = p x) : tally n q = tally n p + 1 := by
  unfold tally
  induction n with
  | zero => omega
  | succ n ih =>
    rw [List.range_succ, List.countP_append, List.countP_append]
    simp only [List.countP_cons, List.countP_nil]
    by_cases e : h = n
    · subst e
      have : (List.range h).countP q = (List.range h).countP p := by
        apply List.countP_congr
        intro x hx
        rw [ho x (by have := List.mem_range.1 hx; omega)]
      rw [this, hp, hq]; simp
    · rw [ih (by omega), ho n (fun e' => e e'.symm)]; omega

theorem tally_congr (n : Nat) (p q : Nat → Bool) (h : ∀ x, x < n → p x = q x) : tally n p = tally n q :=
  List.countP_congr fun x hx => by rw [h x (List.mem_range.1 hx)]

theorem tally_le (n : Nat) (p q : Nat → Bool) (h : ∀ x, x < n → p x = true → q x = true) : tally n p ≤ tally n q :=
  List.countP_mono_left fun x hx => h x (List.mem_range.1 hx)

/-- Each place is without a mask or has one of the masks. -/
theorem tally_masks (n : Nat) (mask : Nat → Option Nat) (cpus : List Nat) (hn : cpus.Nodup) (h : ∀ x, x < n → ∀ c, mask x = some c → c ∈ cpus) :
    tally n (fun x => decide (mask x = none)) + (cpus.map fun c => tally n fun x => decide (mask x = some c)).sum = n := by
  unfold tally
  induction n with
  | zero =>
    simp
    clear h hn
    induction cpus with
    | nil => rfl
    | cons x l ih => simpa using ih
  | succ n ih =>
    have ih := ih (fun x hx => h x (by omega))
    simp only [List.range_succ, List.countP_append, List.countP_cons, List.countP_nil]
    cases hm : mask n with
    | none => simp; omega
    | some a =>
      have := sum_update (fun c => (List.range n).countP fun x => decide (mask x = some c))
        (fun c => (List.range n).countP (fun x => decide (mask x = some c)) + (0 + if decide (some a = some c) = true then 1 else 0)) a 1 cpus hn
        (by intro c hc; simp [Ne.symm hc]) (by simp) (h n (by omega) a hm)
      rw [this]
      simp; omega

/-- What holds while the state `s` is set up: `past` are the states before it, `cur` its threads so far. -/
structure Inv (n s : Nat) (past : List (List Nat)) (cur : List Nat) (m : Map) : Prop where
  rows : ∀ k h, m.rows k h ≠ allCpus → k ≤ s ∧ h < n ∧ m.mask h = some (m.rows k h)
  mask : ∀ h c, m.mask h = some c → h < n ∧ c ≠ allCpus ∧ ∃ k, k ≤ s ∧ m.rows k h = c
  row : ∀ c, c ≠ allCpus → tally n (fun h => decide (m.rows s h = c)) = cur.count c
  most : ∀ c, c ≠ allCpus → tally n (fun h => decide (m.mask h = some c)) = most c (past ++ [cur])

theorem inv_next {n s : Nat} {past : List (List Nat)} {cur : List Nat} {m : Map} (h : Inv n s past cur m) :
    Inv n (s + 1) (past ++ [cur]) [] m := by
  refine ⟨fun k x hx => ⟨by have := (h.rows k x hx).1; omega, (h.rows k x hx).2⟩, fun x c hx => ?_, fun c hc => ?_, fun c hc => ?_⟩
  · obtain ⟨a, b, k, hk, e⟩ := h.mask x c hx
    exact ⟨a, b, k, by omega, e⟩
  · have : ∀ x, m.rows (s + 1) x = allCpus := by
      intro x
      by_cases e : m.rows (s + 1) x = allCpus
      · exact e
      · have := (h.rows _ x e).1; omega
    rw [show tally n (fun x => decide (m.rows (s + 1) x = c)) = tally n (fun _ => false) from
      tally_congr _ _ _ fun x _ => by rw [this x]; simp [Ne.symm hc]]
    simp [tally]
  · rw [h.most c hc, most_append c (past ++ [cur]), show Verif.Spec.FastSched.most c [[]] = 0 from rfl]; omega

theorem inv_step {n s : Nat} {past : List (List Nat)} {cur : List Nat} {m : Map} (hi : Inv n s past cur m) (c t : Nat) (hc : c ≠ allCpus)
    (hs : past.length = s) (cpus : List Nat) (hn : cpus.Nodup) (hin : ∀ st ∈ past ++ [cur ++ [c]], ∀ x ∈ st, x ∈ cpus)
    (hroom : (cpus.map fun x => most x (past ++ [cur ++ [c]])).sum ≤ n)
    (htwo : s ≤ 1 ∨ (cur ++ [c]).count c ≤ most c past) :
    ∃ m', createThreadMap n c s t m = some m' ∧ Inv n s past (cur ++ [c]) m' := by
  have hcount : ∀ x, (cur ++ [c]).count x = cur.count x + if x = c then 1 else 0 := by
    intro x
    by_cases e : x = c
    · subst e; rw [List.count_append]; simp
    · rw [if_neg e, List.count_append, List.count_eq_zero (l := [c]) |>.2 (by simp [e])]
  -- the new rows
  have hrow : ∀ h, h < n → m.rows s h = allCpus → ∀ x, x ≠ allCpus →
      tally n (fun y => decide (set2 m.rows s h c s y = x)) = (cur ++ [c]).count x := by
    intro h hh hr x hx
    rw [hcount, ← hi.row x hx]
    by_cases e : x = c
    · subst e
      rw [if_pos rfl]
      apply tally_update n _ _ h hh
      · simp [hr, Ne.symm hc]
      · simp [set2]
      · intro y hy; simp [set2, hy]
    · rw [if_neg e, Nat.add_zero]
      apply tally_congr
      intro y _
      by_cases hy : y = h
      · subst hy; simp [set2, hr, Ne.symm e, Ne.symm hx]
      · simp [set2, hy]
  unfold createThreadMap
  rcases place_spec m.rows s c (List.range n) none with ⟨p, hp, e, hr, k, hk, hkc⟩ | ⟨hno, e⟩
  · -- a place of a state before
    have hpn := List.mem_range.1 hp
    have hmask : m.mask p = some c := by
      have := (hi.rows k p (by rw [hkc]; exact hc)).2.2
      rw [this, hkc]
    rw [e]
    refine ⟨_, rfl, ?_, ?_, hrow p hpn hr, ?_⟩
    · intro a b hab
      simp only at hab ⊢
      by_cases e2 : a = s ∧ b = p
      · obtain ⟨rfl, rfl⟩ := e2
        refine ⟨Nat.le_refl _, hpn, ?_⟩
        rw [hmask]; simp [set2]
      · have : set2 m.rows s p c a b = m.rows a b := if_neg e2
        rw [this] at hab ⊢
        exact hi.rows a b hab
    · intro a x hx
      obtain ⟨h1, h2, k', h3, h4⟩ := hi.mask a x hx
      refine ⟨h1, h2, ?_⟩
      by_cases e2 : a = p
      · subst e2
        rw [hmask] at hx
        simp only [Option.some.injEq] at hx
        exact ⟨s, Nat.le_refl _, by simp [set2, hx]⟩
      · exact ⟨k', h3, by simp [set2, e2, h4]⟩
    · intro x hx
      rw [hi.most x hx, most_append, most_append, show most x [cur] = cur.count x from by rw [most_cons, most_nil]; omega,
        show most x [cur ++ [c]] = (cur ++ [c]).count x from by rw [most_cons, most_nil]; omega]
      rw [hcount]
      by_cases e2 : x = c
      · subst e2
        rw [if_pos rfl]
        -- the free place is one more than those of the state
        have h1 := hi.most x hx
        rw [most_append, show most x [cur] = cur.count x from by rw [most_cons, most_nil]; omega] at h1
        have h2 : cur.count x + 1 ≤ tally n (fun y => decide (m.mask y = some x)) := by
          rw [← hi.row x hx, ← tally_update n (fun y => decide (m.rows s y = x)) (fun y => decide (y = p) || decide (m.rows s y = x)) p hpn
            (by simp [hr, Ne.symm hx]) (by simp) (by intro y hy; simp [hy])]
          apply tally_le
          intro y hy hyt
          simp only [Bool.or_eq_true, decide_eq_true_eq] at hyt ⊢
          rcases hyt with rfl | hyt
          · exact hmask
          · have := (hi.rows s y (by rw [hyt]; exact hx)).2.2
            rw [this, hyt]
        omega
      · rw [if_neg e2, Nat.add_zero]
  · -- a new place
    rw [e]
    -- all the places with this mask are in use
    have hall : tally n (fun h => decide (m.mask h = some c)) = cur.count c := by
      rw [← hi.row c hc]
      apply tally_congr
      intro h hh
      by_cases e2 : m.mask h = some c
      · have : m.rows s h = c := by
          obtain ⟨-, -, k, hk, hkc⟩ := hi.mask h c e2
          by_cases e3 : m.rows s h = allCpus
          · exfalso
            rcases Nat.lt_or_ge k s with hks | hks
            · exact hno h (List.mem_range.2 hh) e3 k hks hkc
            · rw [show k = s by omega, e3] at hkc; exact hc hkc.symm
          · have := (hi.rows s h e3).2.2
            rw [e2] at this
            simpa using this.symm
        simp [e2, this]
      · have : m.rows s h ≠ c := by
          intro e3
          have := (hi.rows s h (by rw [e3]; exact hc)).2.2
          rw [e3] at this; exact e2 this
        simp [e2, this]
    have hmostc := hi.most c hc
    rw [hall, most_append, show most c [cur] = cur.count c from by rw [most_cons, most_nil]; omega] at hmostc
    have hs1 : s ≤ 1 := by
      rcases htwo with h | h
      · exact h
      · rw [hcount, if_pos rfl] at h; omega
    -- there is a place without a mask
    have hcpus : ∀ x, x < n → ∀ a, m.mask x = some a → a ∈ cpus := by
      intro x hx a ha
      obtain ⟨-, h2, k, hk, hka⟩ := hi.mask x a ha
      have h1 := hi.most a h2
      have h3 : 0 < tally n (fun y => decide (m.mask y = some a)) := by
        unfold tally
        rw [List.countP_pos_iff]
        exact ⟨x, List.mem_range.2 hx, by simp [ha]⟩
      rw [h1] at h3
      have : ∃ st ∈ past ++ [cur], a ∈ st := by
        by_cases hex : ∃ st ∈ past ++ [cur], a ∈ st
        · exact hex
        · rw [most_zero (fun st hst ha => hex ⟨st, hst, ha⟩)] at h3; omega
      obtain ⟨st, hst, ha⟩ := this
      rcases List.mem_append.1 hst with hst | hst
      · exact hin st (by simp [hst]) a ha
      · simp at hst; subst hst
        exact hin (st ++ [c]) (by simp) a (by simp [ha])
    have hnone : 0 < tally n (fun x => decide (m.mask x = none)) := by
      have h1 := tally_masks n m.mask cpus hn hcpus
      have hcin : c ∈ cpus := hin (cur ++ [c]) (by simp) c (by simp)
      have hsum : (cpus.map fun x => most x (past ++ [cur ++ [c]])).sum = (cpus.map fun x => most x (past ++ [cur])).sum + 1 := by
        apply sum_update _ _ c 1 cpus hn _ _ hcin
        · intro x hx
          rw [most_append, most_append, most_cons, most_cons, hcount, if_neg hx]; rfl
        · rw [most_append, most_append, most_cons, most_cons, hcount, if_pos rfl, most_nil]; omega
      have hle : (cpus.map fun x => tally n fun y => decide (m.mask y = some x)).sum ≤ (cpus.map fun x => most x (past ++ [cur])).sum := by
        clear hsum h1 hn hin hroom hcpus hcin
        induction cpus with
        | nil => simp
        | cons x l ih =>
          simp only [List.map_cons, List.sum_cons]
          have : tally n (fun y => decide (m.mask y = some x)) ≤ most x (past ++ [cur]) := by
            by_cases e2 : x = allCpus
            · have : tally n (fun y => decide (m.mask y = some x)) = tally n (fun _ => false) := by
                apply tally_congr
                intro y _
                by_cases e3 : m.mask y = some x
                · exact absurd e2 (hi.mask y x e3).2.1
                · simp [e3]
              rw [this]; simp [tally]
            · rw [hi.most x e2]; exact Nat.le_refl _
          omega
      omega
    have hfree : ∀ x, m.mask x = none → ∀ k, m.rows k x = allCpus := by
      intro x hx k
      by_cases e2 : m.rows k x = allCpus
      · exact e2
      · have := (hi.rows k x e2).2.2; rw [hx] at this; simp at this
    cases hf : (List.range n).find? (freshTest m.rows s) with
    | none =>
      exfalso
      unfold tally at hnone
      rw [List.countP_pos_iff] at hnone
      obtain ⟨x, hx, hxn⟩ := hnone
      simp only [decide_eq_true_eq] at hxn
      rw [List.find?_eq_none] at hf
      exact hf x hx (by simp [freshTest, hfree x hxn])
    | some p =>
      have hpn := List.mem_range.1 (List.mem_of_find?_eq_some hf)
      have ht := List.find?_some hf
      simp only [freshTest, Bool.and_eq_true, Bool.or_eq_true, decide_eq_true_eq, beq_iff_eq] at ht
      have hmask : m.mask p = none := by
        cases hm : m.mask p with
        | none => rfl
        | some x =>
          exfalso
          obtain ⟨-, h2, k, hk, hkx⟩ := hi.mask p x hm
          have : m.rows k p = allCpus := by
            rcases Nat.lt_or_ge k s with hks | hks
            · rcases ht.2 with h | h
              · omega
              · rwa [show k = s - 1 by omega]
            · rw [show k = s by omega]; exact ht.1
          rw [this] at hkx; exact h2 hkx.symm
      refine ⟨_, rfl, ?_, ?_, hrow p hpn ht.1, ?_⟩
      · intro a b hab
        simp only at hab ⊢
        by_cases e2 : a = s ∧ b = p
        · obtain ⟨rfl, rfl⟩ := e2
          exact ⟨Nat.le_refl _, hpn, by simp [set2]⟩
        · have e3 : set2 m.rows s p c a b = m.rows a b := if_neg e2
          rw [e3] at hab ⊢
          obtain ⟨h1, h2, h3⟩ := hi.rows a b hab
          refine ⟨h1, h2, ?_⟩
          rw [if_neg (by rintro rfl; rw [hmask] at h3; simp at h3)]
          exact h3
      · intro a x hx
        simp only at hx
        by_cases e2 : a = p
        · subst e2
          rw [if_pos rfl] at hx
          simp only [Option.some.injEq] at hx
          subst hx
          exact ⟨hpn, hc, s, Nat.le_refl _, by simp [set2]⟩
        · rw [if_neg e2] at hx
          obtain ⟨h1, h2, k', h3, h4⟩ := hi.mask a x hx
          exact ⟨h1, h2, k', h3, by simp [set2, e2, h4]⟩
      · intro x hx
        simp only
        by_cases e2 : x = c
        · subst e2
          rw [most_append, show most x [cur ++ [x]] = (cur ++ [x]).count x from by rw [most_cons, most_nil]; omega, hcount, if_pos rfl]
          rw [tally_update n (fun y => decide (m.mask y = some x)) _ p hpn (by simp [hmask]) (by simp) (by intro y hy; simp [hy]), hall]
          omega
        · rw [most_append, show most x [cur ++ [c]] = (cur ++ [c]).count x from by rw [most_cons, most_nil]; omega, hcount, if_neg e2, Nat.add_zero]
          have h1 := hi.most x hx
          rw [most_append, show most x [cur] = cur.count x from by rw [most_cons, most_nil]; omega] at h1
          rw [← h1]
          apply tally_congr
          intro y _
          by_cases hy : y = p
          · subst hy; simp [hmask, Ne.symm e2]
          · simp [hy]

theorem inv_threads (n s : Nat) (past : List (List Nat)) (hs : past.length = s) (cpus : List Nat) (hn : cpus.Nodup) : ∀ (cs cur : List Nat) (m : Map),
    Inv n s past cur m → (∀ c ∈ cs, c ≠ allCpus) → (∀ st ∈ past ++ [cur ++ cs], ∀ x ∈ st, x ∈ cpus) →
    (cpus.map fun x => most x (past ++ [cur ++ cs])).sum ≤ n →
    (s ≤ 1 ∨ ∀ c ∈ cs, (cur ++ cs).count c ≤ most c past) →
    ∃ m', setupThreads n s cs cur.length m = some m' ∧ Inv n s past (cur ++ cs) m'
  | [], cur, m, hi, _, _, _, _ => ⟨m, rfl, by rwa [List.append_nil]⟩
  | c :: cs, cur, m, hi, hc, hin, hroom, htwo => by
    have hsub : ∀ x, (cur ++ [c]).count x ≤ (cur ++ c :: cs).count x := by
      intro x; rw [show cur ++ c :: cs = (cur ++ [c]) ++ cs by simp, List.count_append (l₁ := cur ++ [c])]; omega
    obtain ⟨m1, h1, hi1⟩ := inv_step hi c cur.length (hc c (by simp)) hs cpus hn (by
        intro st hst x hx
        rcases List.mem_append.1 hst with hst | hst
        · exact hin st (by simp [hst]) x hx
        · simp at hst; subst hst
          apply hin (cur ++ c :: cs) (by simp) x
          rcases List.mem_append.1 hx with hx | hx
          · simp [hx]
          · simp at hx; simp [hx]) (by
        refine Nat.le_trans ?_ hroom
        clear hn hin hroom
        induction cpus with
        | nil => simp
        | cons x l ih =>
          simp only [List.map_cons, List.sum_cons]
          have := hsub x
          rw [most_append, most_append, most_cons, most_cons]
          omega) (by
        rcases htwo with h | h
        · exact Or.inl h
        · exact Or.inr (Nat.le_trans (hsub c) (h c (by simp))))
    rw [setupThreads, h1, Option.bind_some]
    have := inv_threads n s past hs cpus hn cs (cur ++ [c]) m1 hi1 (fun x hx => hc x (by simp [hx]))
      (by simpa using hin) (by simpa using hroom) (by
        rcases htwo with h | h
        · exact Or.inl h
        · exact Or.inr fun x hx => by simpa using h x (by simp [hx]))
    simpa using this

theorem inv_states (n : Nat) (all : List (List Nat)) (hall : FirstTwo all) (cpus : List Nat) (hm : Masks cpus all)
    (hroom : (cpus.map fun x => most x all).sum ≤ n) (hno : ∀ st ∈ all, ∀ c ∈ st, c ≠ allCpus) : ∀ (rest past : List (List Nat)) (m : Map),
    past ++ rest = all → Inv n past.length past [] m →
    ∃ m', setupStates n rest past.length m = some m' ∧ ∃ s past', Inv n s past' [] m'
  | [], past, m, _, hi => ⟨m, rfl, past.length, past, hi⟩
  | st :: rest, past, m, he, hi => by
    obtain ⟨m1, h1, hi1⟩ := inv_threads n past.length past rfl cpus hm.1 st [] m hi (hno st (by rw [← he]; simp)) (by
        intro x hx c hc
        refine (hm.2 c).2 ⟨x, ?_, hc⟩
        rw [← he]
        rcases List.mem_append.1 hx with hx | hx
        · simp [hx]
        · simp at hx; simp [hx]) (by
        refine Nat.le_trans ?_ hroom
        clear hroom hm
        rw [← he]
        induction cpus with
        | nil => simp
        | cons x l ih =>
          simp only [List.map_cons, List.sum_cons, List.nil_append] at ih ⊢
          rw [most_append, most_append, most_cons, most_cons, most_nil]
          omega) (by
        by_cases hp : past.length ≤ 1
        · exact Or.inl hp
        · refine Or.inr fun c hc => ?_
          rw [List.nil_append]
          have h1 := hall c st (by rw [← he]; simp)
          rw [← he, List.take_append_of_le_length (by omega)] at h1
          refine Nat.le_trans h1 ?_
          have h2 : most c past = max (most c (past.take 2)) (most c (past.drop 2)) := by rw [← most_append, List.take_append_drop]
          omega)
    rw [setupStates, show setupThreads n past.length st 0 m = some m1 from h1, Option.bind_some]
    have := inv_states n all hall cpus hm hroom hno rest (past ++ [st]) m1 (by simpa using he) (by
      have := inv_next hi1
      simpa using this)
    simpa using this

/-! ## The preparation of a state -/

theorem prepare_spec {α : Type} (slot : Nat → Nat) : ∀ (ts : List α) (i : Nat) (info : Nat → Option α),
    (∀ a b, i ≤ a → a < i + ts.length → i ≤ b → b < i + ts.length → slot a = slot b → a = b) →
    (∀ k t, ts[k]? = some t → prepare slot ts i info (slot (i + k)) = some t) ∧
    ∀ j, (∀ k, k < ts.length → slot (i + k) ≠ j) → prepare slot ts i info j = info j
  | [], i, info, _ => ⟨by simp, fun _ _ => rfl⟩
  | t :: ts, i, info, h => by
    simp only [List.length_cons] at h
    have ih := prepare_spec slot ts (i + 1) (fun j => if j = slot i then some t else info j)
      (fun a b h1 h2 h3 h4 => h a b (by omega) (by omega) (by omega) (by omega))
    rw [prepare]
    constructor
    · intro k x hk
      cases k with
      | zero =>
        simp only [List.getElem?_cons_zero, Option.some.injEq] at hk
        subst hk
        rw [ih.2 _ (by
          intro k hk e
          rw [Nat.add_zero] at e
          have := h (i + 1 + k) i (by omega) (by omega) (by omega) (by omega) e
          omega), Nat.add_zero, if_pos rfl]
      | succ k =>
        rw [List.getElem?_cons_succ] at hk
        have := ih.1 k x hk
        rwa [show i + 1 + k = i + (k + 1) by omega] at this
    · intro j hj
      rw [ih.2 j (by
        intro k hk
        have := hj (k + 1) (by simp; omega)
        rwa [show i + (k + 1) = i + 1 + k by omega] at this), if_neg]
      intro e
      have := hj 0 (by simp)
      rw [Nat.add_zero] at this
      exact this e.symm

end Verif.FastSched
