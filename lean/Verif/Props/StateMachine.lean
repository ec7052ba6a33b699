import Verif.Model.StateMachine

/-!
# C29: StateMachine

Specification: a table. In state `s` the message `n` triggers the event of `s` named `n`, if any, and the machine goes to its `NextState` when
the messages of the event succeed and to its `NextStateError` otherwise.
-/

namespace Verif.Spec.StateMachine

open Verif.StateMachine (Machine Event Env Msg Id)

/-- The event of a state with that name, with its position. -/
def lookup (es : List Event) (n : Nat) : Option (Nat × Event) :=
  match es with
  | [] => none
  | e :: es => if e.name = n then some (0, e) else (lookup es n).map fun r => (r.1 + 1, r.2)

def step (m : Machine) (s : Nat) (msg : Msg) : Nat :=
  match lookup ((m[s]?).getD []) msg.name with
  | none => s
  | some (j, e) => if msg.env.send (s, j) then e.next else e.nextErr

def run (m : Machine) (s : Nat) (ms : List Msg) : Nat := ms.foldl (step m) s

/-- No two events of one state have the same name. -/
def DistinctNames (m : Machine) : Prop :=
  ∀ es ∈ m, ∀ (j j' : Nat) (e e' : Event), es[j]? = some e → es[j']? = some e' → e.name = e'.name → j = j'

/-- The history is tame: state `s` is only ever left through the event `exit s`; an event whose `NextState` is its own state does not
fail towards another one; and the `ENTER` messages of the state that is entered succeed, unless that state has no event with the name of the
message that led to it. -/
def Tame (m : Machine) (exit : Nat → Nat) : Nat → List Msg → Prop
  | _, [] => True
  | s, msg :: ms =>
    (∀ j e, lookup ((m[s]?).getD []) msg.name = some (j, e) →
      (e.next ≠ s → j = exit s) ∧ (e.next = s → step m s msg = s) ∧
      (msg.env.enter (step m s msg) = true ∨ lookup ((m[step m s msg]?).getD []) msg.name = none)) ∧
    Tame m exit (step m s msg) ms

/-- Every transition leads to a declared state (what `Initialise` checks). -/
def Closed (m : Machine) : Prop := ∀ es ∈ m, ∀ e ∈ es, e.next < m.length ∧ e.nextErr < m.length

end Verif.Spec.StateMachine

namespace Verif.Props

open Verif.StateMachine
open Verif.Spec.StateMachine (lookup DistinctNames Tame Closed)

private theorem mem_eventsOf (m : Machine) (s : Nat) (id : Id) : id ∈ eventsOf m s ↔ id.1 = s ∧ ∃ e, event m id = some e := by
  obtain ⟨a, j⟩ := id
  simp only [eventsOf, List.mem_map, List.mem_range, Prod.mk.injEq, event]
  constructor
  · rintro ⟨k, hk, rfl, rfl⟩
    refine ⟨rfl, ?_⟩
    cases h : m[s]? with
    | none => simp [h] at hk
    | some es => simp [h] at hk; exact ⟨es[k], by simp [hk]⟩
  · rintro ⟨rfl, e, he⟩
    refine ⟨j, ?_, rfl, rfl⟩
    cases h : m[a]? with
    | none => simp [h] at he
    | some es =>
      simp [h] at he
      simp only [Option.getD_some]
      exact (List.getElem?_eq_some_iff.mp he).1

private theorem event_of_getD (m : Machine) (s j : Nat) (e : Event) : event m (s, j) = some e ↔ ((m[s]?).getD [])[j]? = some e := by
  unfold event
  cases h : m[s]? <;> simp

private theorem nodup_eventsOf (m : Machine) (s : Nat) : (eventsOf m s).Nodup := by
  unfold eventsOf
  rw [List.nodup_iff_pairwise_ne, List.pairwise_map]
  refine List.Pairwise.imp ?_ (List.nodup_iff_pairwise_ne.mp List.nodup_range)
  intro a b h e
  simp at e; exact h e

private theorem lookup_spec (es : List Event) (n : Nat) :
    (∀ j e, lookup es n = some (j, e) → es[j]? = some e ∧ e.name = n) ∧ (lookup es n = none → ∀ (j : Nat) (e : Event), es[j]? = some e → e.name ≠ n) := by
  induction es with
  | nil => simp [lookup]
  | cons a es ih =>
    refine ⟨?_, ?_⟩
    · intro j e h
      simp only [lookup] at h
      split at h
      · rename_i hn; simp at h; obtain ⟨rfl, rfl⟩ := h; exact ⟨rfl, hn⟩
      · cases hl : lookup es n with
        | none => simp [hl] at h
        | some r =>
          simp [hl] at h
          obtain ⟨rfl, rfl⟩ := h
          exact ih.1 r.1 r.2 hl
    · intro h j e he
      simp only [lookup] at h
      split at h
      · simp at h
      · rename_i hn
        cases hl : lookup es n with
        | some r => simp [hl] at h
        | none =>
          cases j with
          | zero => simp at he; subst he; exact hn
          | succ j => simp at he; exact ih.2 hl j e he

/-! ### Safety without hypotheses on the history -/

private theorem receiveFrom_cur (m : Machine) (env : Env) (n : Nat) (P : Nat → Prop)
    (hP : ∀ id e, event m id = some e → P e.next ∧ P e.nextErr) : ∀ (f i : Nat) (x y : SM), P x.cur →
    receiveFrom m env n f i x = some y → P y.cur := by
  intro f
  induction f with
  | zero => intro i x y _ h; simp [receiveFrom] at h
  | succ f ih =>
    intro i x y hx h
    simp only [receiveFrom] at h
    split at h
    · simp at h; subst h; exact hx
    · split at h
      · exact ih _ _ _ hx h
      · rename_i id _ _ e he
        have ht : ∀ x', P (trigger m env x' id e).2.cur := by
          intro x'
          simp only [trigger]
          split
          · exact (hP id e he).1
          · exact (hP id e he).2
        split at h
        · split at h
          · split at h
            · simp at h; subst h; exact ht _
            · exact ih _ _ _ (ht _) h
          · simp at h; subst h; exact hx
        · exact ih _ _ _ hx h

/-- C29: for every machine and every history the current state is a declared state. -/
theorem c29_current_state_declared (m : Machine) (fuel : Nat) (ms : List Msg) (y : SM) (hc : Closed m) (hne : m ≠ [])
    (h : run m fuel (initial m) ms = some y) : y.cur < m.length := by
  have hP : ∀ id e, event m id = some e → e.next < m.length ∧ e.nextErr < m.length := by
    intro id e he
    unfold event at he
    cases hs : m[id.1]? with
    | none => simp [hs] at he
    | some es =>
      simp [hs] at he
      exact hc es (List.mem_of_getElem? hs) e (List.mem_of_getElem? he)
  have key : ∀ (ms : List Msg) (x y : SM), x.cur < m.length → run m fuel x ms = some y → y.cur < m.length := by
    intro ms
    induction ms with
    | nil => intro x y hx h; simp [run] at h; subst h; exact hx
    | cons msg ms ih =>
      intro x y hx h
      rw [run] at h
      cases hr : receive m fuel x msg with
      | none => simp [hr] at h
      | some z =>
        simp [hr] at h
        exact ih z y (receiveFrom_cur m msg.env msg.name (· < m.length) hP _ _ _ _ hx hr) h
  exact key ms (initial m) y (List.length_pos_iff.mpr hne) h

/-! ### The table, for tame histories -/

private structure Inv (m : Machine) (exit : Nat → Nat) (x : SM) : Prop where
  valid : ∀ id ∈ x.pool, ∃ e, event m id = some e
  armed : ∀ id ∈ x.pool, x.ready id = true → id.1 = x.cur
  front : ∃ rest, x.pool = (eventsOf m x.cur).reverse ++ rest
  here : ∀ id ∈ eventsOf m x.cur, x.ready id = true
  once : ∀ id ∈ eventsOf m x.cur, id.2 ≠ exit x.cur → x.pool.count id = 1
  gone : ∀ id, id.1 ≠ x.cur → id.2 ≠ exit id.1 → x.pool.count id = 0

private theorem removeFilters_count : ∀ (ids pool : List Id), ids.Nodup → (∀ i ∈ ids, pool.count i = 1) →
    ∀ i, (removeFilters ids pool).count i = if i ∈ ids then 0 else pool.count i := by
  intro ids
  induction ids with
  | nil => intro pool _ _ i; simp [removeFilters]
  | cons a ids ih =>
    intro pool hn h1 i
    have ha : a ∈ pool := List.count_pos_iff.mp (by rw [h1 a (by simp)]; omega)
    have hna : a ∉ ids := (List.nodup_cons.mp hn).1
    simp only [removeFilters, ha, if_true]
    rw [ih (pool.erase a) (List.nodup_cons.mp hn).2 (by
      intro j hj
      rw [List.count_erase_of_ne (fun (e : j = a) => hna (e ▸ hj))]
      exact h1 j (by simp [hj])) i]
    by_cases hi : i = a
    · subst hi
      simp only [hna, if_false, List.mem_cons, true_or, if_true]
      rw [List.count_erase_self, h1 i (by simp)]
    · by_cases hi' : i ∈ ids
      · simp [hi']
      · simp only [hi', if_false, List.mem_cons, hi, or_self]
        rw [List.count_erase_of_ne hi]

private theorem removeFilters_sub : ∀ (ids pool : List Id) (i : Id), i ∈ removeFilters ids pool → i ∈ pool := by
  intro ids
  induction ids with
  | nil => intro pool i h; exact h
  | cons a ids ih =>
    intro pool i h
    simp only [removeFilters] at h
    split at h
    · exact List.mem_of_mem_erase (ih _ _ h)
    · exact h

private theorem trigger_inv (m : Machine) (exit : Nat → Nat) (env : Env) (x : SM) (id : Id) (e : Event) (hi : Inv m exit x)
    (hid : id ∈ eventsOf m x.cur)
    (hex : e.next ≠ x.cur → id.2 = exit x.cur) (hself : e.next = x.cur → (if env.send id then e.next else e.nextErr) = x.cur) :
    Inv m exit (trigger m env { x with ready := fun j => if j = id then false else x.ready j } id e).2 := by
  have hid1 := (mem_eventsOf m x.cur id).mp hid
  by_cases hn : e.next = x.cur
  · -- self transition: the pool is unchanged
    have ht := hself hn
    simp only [trigger, hn, ne_eq, not_true_eq_false, if_false] at ht ⊢
    rw [ht]
    refine ⟨hi.valid, ?_, hi.front, ?_, hi.once, hi.gone⟩
    · intro i hip hr
      simp only at hr
      split at hr
      · rename_i h; exact ((mem_eventsOf _ _ _).mp h).1
      · split at hr
        · simp at hr
        · exact hi.armed i hip hr
    · intro i h; simp [h]
  · have hj := hex hn
    have hcnt : ∀ i, (removeFilters ((eventsOf m x.cur).filter (· ≠ id)) x.pool).count i =
        if i ∈ (eventsOf m x.cur).filter (· ≠ id) then 0 else x.pool.count i := by
      apply removeFilters_count
      · exact List.Nodup.sublist List.filter_sublist (nodup_eventsOf m x.cur)
      · intro i h
        simp only [List.mem_filter, ne_eq, decide_eq_true_eq] at h
        refine hi.once i h.1 ?_
        intro h'
        have h1 := ((mem_eventsOf _ _ _).mp h.1).1
        exact h.2 (Prod.ext (h1.trans hid1.1.symm) (h'.trans hj.symm))
    generalize htg : (if env.send id then e.next else e.nextErr) = tg
    have hcount : ∀ i, ((eventsOf m tg).reverse ++ removeFilters ((eventsOf m x.cur).filter (· ≠ id)) x.pool).count i =
        (if i ∈ eventsOf m tg then 1 else 0) + (if i ∈ (eventsOf m x.cur).filter (· ≠ id) then 0 else x.pool.count i) := by
      intro i
      rw [List.count_append, hcnt, List.count_reverse]
      congr 1
      split
      · rename_i h
        rw [(nodup_eventsOf m tg).count, if_pos h]
      · rename_i h; exact List.count_eq_zero_of_not_mem h
    simp only [trigger, hn, ne_eq, not_false_eq_true, if_true, htg]
    refine ⟨?_, ?_, ⟨_, rfl⟩, ?_, ?_, ?_⟩
    · intro i h
      rcases List.mem_append.mp h with h | h
      · exact ((mem_eventsOf _ _ _).mp (List.mem_reverse.mp h)).2
      · exact hi.valid i (removeFilters_sub _ _ _ h)
    · intro i hip hr
      simp only at hr
      split at hr
      · rename_i h; exact ((mem_eventsOf _ _ _).mp h).1
      · rename_i hnt
        split at hr
        · simp at hr
        · rename_i hne
          rcases List.mem_append.mp hip with h | h
          · exact absurd (List.mem_reverse.mp h) hnt
          · have hc := hi.armed i (removeFilters_sub _ _ _ h) hr
            have hpos := List.count_pos_iff.mpr h
            rw [hcnt, if_pos] at hpos
            · omega
            · simp only [List.mem_filter, ne_eq, decide_eq_true_eq]
              exact ⟨(mem_eventsOf _ _ _).mpr ⟨hc, hi.valid i (removeFilters_sub _ _ _ h)⟩, hne⟩
    · intro i h
      simp [h]
    · intro i h hne
      simp only at h hne
      show List.count i ((eventsOf m tg).reverse ++ removeFilters ((eventsOf m x.cur).filter (fun j => decide (j ≠ id))) x.pool) = 1
      rw [hcount, if_pos h]
      have h1 := ((mem_eventsOf _ _ _).mp h).1
      by_cases htc : tg = x.cur
      · rw [if_pos]
        simp only [List.mem_filter, ne_eq, decide_eq_true_eq]
        refine ⟨htc ▸ h, ?_⟩
        rintro rfl
        rw [htc] at hne; exact hne hj
      · have hz := hi.gone i (by rw [h1]; exact htc) (by rw [h1]; exact hne)
        split <;> omega
    · intro i h1 h2
      simp only at h1
      show List.count i ((eventsOf m tg).reverse ++ removeFilters ((eventsOf m x.cur).filter (fun j => decide (j ≠ id))) x.pool) = 0
      rw [hcount, if_neg (fun h => h1 ((mem_eventsOf _ _ _).mp h).1)]
      by_cases hc : i.1 = x.cur
      · by_cases hv : i ∈ (eventsOf m x.cur).filter (· ≠ id)
        · rw [if_pos hv]
        · rw [if_neg hv]
          have : i ∉ x.pool := by
            intro hm
            apply hv
            simp only [List.mem_filter, ne_eq, decide_eq_true_eq]
            refine ⟨(mem_eventsOf _ _ _).mpr ⟨hc, hi.valid i hm⟩, ?_⟩
            rintro rfl
            rw [hc] at h2; exact h2 hj
          rw [List.count_eq_zero_of_not_mem this]
      · have := hi.gone i hc h2
        split <;> omega

/-- Scanning filters that do not trigger changes nothing. -/
private theorem scan_idle (m : Machine) (env : Env) (n : Nat) (x : SM) (hq : ∀ id ∈ x.pool, ∀ e, event m id = some e → e.name = n → x.ready id = false) :
    ∀ (f i : Nat), 0 < f → x.pool.length < i + f → receiveFrom m env n f i x = some x := by
  intro f
  induction f with
  | zero =>
    intro i h0; omega
  | succ f ih =>
    intro i _ h
    simp only [receiveFrom]
    split
    · rfl
    · rename_i id hid
      have hlt := (List.getElem?_eq_some_iff.mp hid).1
      have hm : id ∈ x.pool := List.mem_of_getElem? hid
      have hrec : receiveFrom m env n f (i + 1) x = some x := ih (i + 1) (by omega) (by omega)
      split
      · exact hrec
      · rename_i e he
        split
        · rename_i hn
          rw [hq id hm e he hn]; simp
        · exact hrec

private theorem scan_skip (m : Machine) (env : Env) (n : Nat) (x : SM) (p : Nat)
    (h : ∀ (k : Nat) (id : Id), k < p → x.pool[k]? = some id → ∀ e, event m id = some e → e.name ≠ n) (hp : p ≤ x.pool.length) :
    ∀ (d i f : Nat), i + d = p → receiveFrom m env n (f + d) i x = receiveFrom m env n f p x := by
  intro d
  induction d with
  | zero => intro i f hi; simp at hi; subst hi; rfl
  | succ d ih =>
    intro i f hi
    rw [← ih (i + 1) f (by omega), show f + (d + 1) = (f + d) + 1 by omega]
    conv => lhs; rw [receiveFrom]
    have hlt : i < x.pool.length := by omega
    rw [List.getElem?_eq_getElem hlt]
    simp only
    split
    · rfl
    · rename_i e he
      rw [if_neg (h i _ (by omega) (List.getElem?_eq_getElem hlt) e he)]

private theorem named_unique (m : Machine) (hd : DistinctNames m) (s j j' : Nat) (e e' : Event) (h : event m (s, j) = some e)
    (h' : event m (s, j') = some e') (hn : e.name = e'.name) : j = j' := by
  unfold event at h h'
  cases hs : m[s]? with
  | none => simp [hs] at h
  | some es =>
    simp [hs] at h h'
    exact hd es (List.mem_of_getElem? hs) j j' e e' h h' hn

private theorem no_ready_named (m : Machine) (exit : Nat → Nat) (x : SM) (n : Nat) (hi : Inv m exit x)
    (hl : lookup ((m[x.cur]?).getD []) n = none) :
    ∀ id ∈ x.pool, ∀ e, event m id = some e → e.name = n → x.ready id = false := by
  intro id hm e he hn
  cases hr : x.ready id with
  | false => rfl
  | true =>
    exfalso
    have hc := hi.armed id hm hr
    obtain ⟨s, j⟩ := id
    simp only at hc
    subst hc
    exact (lookup_spec _ n).2 hl j e ((event_of_getD m x.cur j e).mp he) hn

private theorem receive_tame (m : Machine) (hd : DistinctNames m) (exit : Nat → Nat) (x : SM) (msg : Msg) (hi : Inv m exit x)
    (ht : ∀ j e, lookup ((m[x.cur]?).getD []) msg.name = some (j, e) →
      (e.next ≠ x.cur → j = exit x.cur) ∧ (e.next = x.cur → Spec.StateMachine.step m x.cur msg = x.cur) ∧
      (msg.env.enter (Spec.StateMachine.step m x.cur msg) = true ∨
        lookup ((m[Spec.StateMachine.step m x.cur msg]?).getD []) msg.name = none)) :
    ∃ y N, (∀ f, N ≤ f → receive m f x msg = some y) ∧ Inv m exit y ∧ y.cur = Spec.StateMachine.step m x.cur msg := by
  cases hl : lookup ((m[x.cur]?).getD []) msg.name with
  | none =>
    refine ⟨x, x.pool.length + 1, ?_, hi, by simp [Spec.StateMachine.step, hl]⟩
    intro f hf
    exact scan_idle m msg.env msg.name x (no_ready_named m exit x msg.name hi hl) f 0 (by omega) (by omega)
  | some r =>
    obtain ⟨j, e⟩ := r
    obtain ⟨h1, h2, h3⟩ := ht j e hl
    obtain ⟨hj, hname⟩ := (lookup_spec _ _).1 j e hl
    have hev : event m (x.cur, j) = some e := (event_of_getD m x.cur j e).mpr hj
    have hmem : (x.cur, j) ∈ eventsOf m x.cur := (mem_eventsOf _ _ _).mpr ⟨rfl, e, hev⟩
    have hstep : Spec.StateMachine.step m x.cur msg = if msg.env.send (x.cur, j) then e.next else e.nextErr := by
      simp [Spec.StateMachine.step, hl]
    have hti := trigger_inv m exit msg.env x (x.cur, j) e hi hmem h1 (fun hn => by rw [← hstep]; exact h2 hn)
    obtain ⟨rest, hfront⟩ := hi.front
    obtain ⟨p, hp⟩ := List.getElem?_of_mem (List.mem_reverse.mpr hmem)
    have hplt := (List.getElem?_eq_some_iff.mp hp).1
    have hpool : x.pool[p]? = some (x.cur, j) := by
      rw [hfront, List.getElem?_append_left hplt]; exact hp
    have hpl : p < x.pool.length := (List.getElem?_eq_some_iff.mp hpool).1
    have hskip : ∀ (k : Nat) (id : Id), k < p → x.pool[k]? = some id → ∀ e, event m id = some e → e.name ≠ msg.name := by
      intro k id hk hid e' he' hn
      rw [hfront, List.getElem?_append_left (by omega)] at hid
      have hmk : id ∈ eventsOf m x.cur := List.mem_reverse.mp (List.mem_of_getElem? hid)
      obtain ⟨s, j'⟩ := id
      have hs := ((mem_eventsOf _ _ _).mp hmk).1
      simp only at hs
      subst hs
      have := named_unique m hd x.cur j' j e' e he' hev (hn.trans hname.symm)
      subst this
      have hnd : (eventsOf m x.cur).reverse.Pairwise (· ≠ ·) := by
        rw [List.pairwise_reverse]
        exact (List.nodup_iff_pairwise_ne.mp (nodup_eventsOf m x.cur)).imp (fun h e => h e.symm)
      have := (List.pairwise_iff_getElem.mp hnd) k p (by omega) hplt hk
      rw [List.getElem?_eq_getElem (by omega)] at hid
      rw [List.getElem?_eq_getElem hplt] at hp
      exact this ((Option.some.inj hid).trans (Option.some.inj hp).symm)
    have hcur : (trigger m msg.env { x with ready := fun i => if i = (x.cur, j) then false else x.ready i } (x.cur, j) e).2.cur =
        Spec.StateMachine.step m x.cur msg := by rw [hstep]; rfl
    refine ⟨(trigger m msg.env { x with ready := fun i => if i = (x.cur, j) then false else x.ready i } (x.cur, j) e).2,
      (trigger m msg.env { x with ready := fun i => if i = (x.cur, j) then false else x.ready i } (x.cur, j) e).2.pool.length + p + 3, ?_, hti, hcur⟩
    intro f hf
    obtain ⟨g, rfl⟩ : ∃ g, f = (g + 1) + p := ⟨f - p - 1, by omega⟩
    unfold receive
    rw [scan_skip m msg.env msg.name x p hskip (by omega) p 0 (g + 1) (by omega), receiveFrom]
    rw [hpool]
    simp only
    rw [hev]
    simp only [hname, if_true, hi.here _ hmem]
    split
    · rfl
    · rename_i hent
      have hent' : msg.env.enter (Spec.StateMachine.step m x.cur msg) ≠ true := by rw [hstep]; exact hent
      rcases h3 with h3 | h3
      · exact absurd h3 hent'
      · exact scan_idle m msg.env msg.name _ (no_ready_named m exit _ msg.name hti (by rw [hcur]; exact h3)) g (p + 1) (by omega) (by omega)

private theorem initial_inv (m : Machine) (exit : Nat → Nat) : Inv m exit (initial m) := by
  refine ⟨?_, ?_, ⟨[], by simp [initial]⟩, fun _ _ => rfl, ?_, ?_⟩
  · intro id h; exact ((mem_eventsOf _ _ _).mp (List.mem_reverse.mp h)).2
  · intro id h _; exact ((mem_eventsOf _ _ _).mp (List.mem_reverse.mp h)).1
  · intro id h _
    show List.count id (eventsOf m 0).reverse = 1
    rw [List.count_reverse, (nodup_eventsOf m 0).count]
    exact if_pos h
  · intro id h _
    show List.count id (eventsOf m 0).reverse = 0
    rw [List.count_reverse]
    exact List.count_eq_zero_of_not_mem (fun hm => h ((mem_eventsOf _ _ _).mp hm).1)

/-- C29: for every machine whose states have no two events of the same name and every tame history, of any length, the machine is in the state
the table gives, and exactly the events of that state can be triggered. Missing: histories in which a state is left through two different
events, which `c29_old_event_still_triggers` shows to break the table, and the other cases below. -/
theorem c29_follows_table_partial (m : Machine) (hd : DistinctNames m) (exit : Nat → Nat) (ms : List Msg) (ht : Tame m exit 0 ms) :
    ∃ y N, (∀ f, N ≤ f → run m f (initial m) ms = some y) ∧ y.cur = Spec.StateMachine.run m 0 ms ∧
      ∀ s j, (((s, j) ∈ y.pool ∧ y.ready (s, j) = true) ↔ (s = y.cur ∧ j < ((m[y.cur]?).getD []).length)) := by
  have key : ∀ (ms : List Msg) (x : SM), Inv m exit x → Tame m exit x.cur ms →
      ∃ y N, (∀ f, N ≤ f → run m f x ms = some y) ∧ y.cur = Spec.StateMachine.run m x.cur ms ∧ Inv m exit y := by
    intro ms
    induction ms with
    | nil => intro x hi _; exact ⟨x, 0, fun _ _ => rfl, rfl, hi⟩
    | cons msg ms ih =>
      intro x hi ht
      obtain ⟨ht1, ht2⟩ := ht
      obtain ⟨y, N, hr, hiy, hc⟩ := receive_tame m hd exit x msg hi ht1
      obtain ⟨z, M, hz, hcz, hiz⟩ := ih y hiy (by rw [hc]; exact ht2)
      refine ⟨z, N + M, ?_, ?_, hiz⟩
      · intro f hf
        rw [run, hr f (by omega)]
        exact hz f (by omega)
      · rw [hcz, hc]; rfl
  obtain ⟨y, N, h, hc, hi⟩ := key ms (initial m) (initial_inv m exit) ht
  refine ⟨y, N, h, hc, ?_⟩
  intro s j
  have hlen : j < ((m[y.cur]?).getD []).length ↔ (y.cur, j) ∈ eventsOf m y.cur := by
    simp [eventsOf]
  rw [hlen]
  constructor
  · rintro ⟨hm, hr⟩
    have := hi.armed _ hm hr
    simp only at this
    subst this
    exact ⟨rfl, (mem_eventsOf _ _ _).mpr ⟨rfl, hi.valid _ hm⟩⟩
  · rintro ⟨rfl, hm⟩
    obtain ⟨rest, hp⟩ := hi.front
    exact ⟨by rw [hp]; exact List.mem_append.mpr (Or.inl (List.mem_reverse.mpr hm)), hi.here _ hm⟩

/-! ### Where the table is not followed -/

private def allOk : Env := ⟨fun _ => true, fun _ => true⟩
private def fails : Env := ⟨fun _ => false, fun _ => true⟩
private def enterFails : Env := ⟨fun _ => true, fun _ => false⟩

/-- Defect: three states, the first left once through event 1 and once through event 3. Back in the second state, the message 1 still triggers
event 1 of the first state, which leads to the third: the second state declares no such event. All events have different names. -/
theorem c29_old_event_still_triggers :
    let m : Machine := [[⟨1, 2, 1⟩, ⟨3, 1, 1⟩], [⟨2, 0, 0⟩], [⟨4, 0, 0⟩]]
    let h : List Msg := [⟨1, fails⟩, ⟨2, allOk⟩, ⟨3, allOk⟩, ⟨1, allOk⟩]
    Spec.StateMachine.run m 0 h = 1 ∧ (run m 100 (initial m) h).map (·.cur) = some 2 := by decide

/-- Defect: an event that stays in its state and whose messages fail: the machine moves to the error state but goes on listening to the events of
the previous one and not to those of the error state. -/
theorem c29_failed_self_transition_deaf :
    let m : Machine := [[⟨1, 0, 1⟩, ⟨3, 2, 2⟩], [⟨2, 0, 0⟩], [⟨4, 0, 0⟩]]
    (run m 100 (initial m) [⟨1, fails⟩]).map (·.cur) = some 1 ∧
    (run m 100 (initial m) [⟨1, fails⟩, ⟨2, allOk⟩]).map (·.cur) = some 1 ∧
    (run m 100 (initial m) [⟨1, fails⟩, ⟨3, allOk⟩]).map (·.cur) = some 2 := by decide

/-- Defect: when the `ENTER` messages of the new state fail, the same message is offered to the filters of the new state, and can trigger a second
transition. -/
theorem c29_one_message_two_transitions :
    let m : Machine := [[⟨1, 1, 1⟩], [⟨1, 2, 2⟩, ⟨2, 0, 0⟩], [⟨4, 0, 0⟩]]
    Spec.StateMachine.run m 0 [⟨1, enterFails⟩] = 1 ∧ (run m 100 (initial m) [⟨1, enterFails⟩]).map (·.cur) = some 2 := by decide

/-- Defect: an event whose messages fail, whose error state is its own state, and the `ENTER` messages of that state fail too: handling that single
message never ends, whatever the number of iterations. -/
theorem c29_message_handled_for_ever (fuel : Nat) :
    let m : Machine := [[⟨1, 1, 0⟩], [⟨2, 0, 0⟩]]
    run m fuel (initial m) [⟨1, ⟨fun _ => false, fun _ => false⟩⟩] = none := by
  intro m
  have key : ∀ (f i n : Nat) (x : SM), x.cur = 0 → x.pool = List.replicate n (0, 0) → i < n → x.ready (0, 0) = true →
      receiveFrom m ⟨fun _ => false, fun _ => false⟩ 1 f i x = none := by
    intro f
    induction f with
    | zero => intros; rfl
    | succ f ih =>
      intro i n x hc hp hin hr
      have hget : x.pool[i]? = some (0, 0) := by rw [hp]; simp [hin]
      have hev : event m (0, 0) = some ⟨1, 1, 0⟩ := rfl
      rw [receiveFrom, hget]
      simp only [hev, hr, if_true]
      rw [if_neg (by simp [trigger])]
      apply ih (i + 1) (n + 1)
      · simp [trigger]
      · have he : eventsOf m 0 = [(0, 0)] := rfl
        simp [trigger, hc, he, removeFilters, hp, List.replicate_succ]
      · omega
      · have he : eventsOf m 0 = [(0, 0)] := rfl
        simp [trigger, he]
  rw [run, receive, key fuel 0 1 (initial m) rfl rfl (by omega) rfl]
  rfl

/-- Non-vacuity: a tame history of a cycle of three states with several events, some failing; the same event name in two states. -/
example :
    let m : Machine := [[⟨1, 1, 2⟩, ⟨9, 0, 0⟩], [⟨2, 2, 2⟩, ⟨9, 0, 0⟩], [⟨3, 0, 0⟩]]
    let h : List Msg := [⟨1, allOk⟩, ⟨5, allOk⟩, ⟨2, fails⟩, ⟨3, allOk⟩, ⟨9, allOk⟩, ⟨1, fails⟩]
    Tame m (fun _ => 0) 0 h ∧ Spec.StateMachine.run m 0 h = 2 ∧ (run m 100 (initial m) h).map (·.cur) = some 2 := by
  refine ⟨?_, by decide, by decide⟩
  simp [Tame, lookup, Spec.StateMachine.step, allOk, fails]

end Verif.Props
