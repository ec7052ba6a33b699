import Verif.Proof.MultiClient
set_option maxRecDepth 8000
set_option linter.unusedSimpArgs false
set_option linter.unusedVariables false
namespace Verif.MultiClient
open Verif.Spec.MultiClient

/-! ## The pool, when its users come one by one -/

/-- What a thread inside knows. -/
def Loc (s : State) (i : Nat) : Prop :=
  match (s.ts i).pc with
  | .addStart => s.pool.length < s.max
  | .addInsert t => s.pool.length < s.max ∧ t ∉ s.pool ∧ t < s.n ∧ (s.ts t).pc ≠ .gone ∧ t ≠ i
  | .removeTop k => i ∉ s.pool.take k
  | .removeGet k => k < s.pool.length ∧ i ∉ s.pool.take k
  | _ => True

/-- What the owner knows. -/
def OLoc (s : State) : Prop :=
  match s.own with
  | .startBegin => s.pool.length < s.min
  | .startInsert t => s.pool.length < s.min ∧ t ∉ s.pool ∧ t < s.n ∧ (s.ts t).pc ≠ .gone
  | _ => True

/-- `t` was created and is not yet in the pool. -/
def Pending (s : State) (t : Nat) : Prop := s.own = .startInsert t ∨ ∃ j, (s.ts j).pc = .addInsert t

structure Inv (s : State) : Prop where
  ok : s.crashed = false
  new : ∀ i, s.n ≤ i → (s.ts i).pc = .gone
  nodup : s.pool.Nodup
  mem : ∀ i, i ∈ s.pool → i < s.n ∧ (s.ts i).pc ≠ .gone
  live : ∀ i, (s.ts i).pc ≠ .gone → i ∈ s.pool ∨ Pending s i
  loc : ∀ i, Loc s i
  oloc : OLoc s
  cap : s.pool.length ≤ s.max
  lim : s.min < s.max

theorem inv_init {mn mx : Nat} (h : mn < mx) : Inv (init mn mx) := by
  refine ⟨rfl, fun i _ => rfl, List.nodup_nil, fun i hi => by simp [init] at hi, fun i hi => absurd rfl hi,
    fun i => trivial, trivial, Nat.zero_le _, h⟩

theorem out_loc {s : State} {i : Nat} (h : inside (s.ts i).pc = false) : Loc s i := by
  unfold Loc
  cases hp : (s.ts i).pc <;> rw [hp] at h <;> simp [inside] at h ⊢

/-- What another thread knows does not change when thread `i` moves. -/
theorem loc_set {s : State} {i j : Nat} {t : T} (h : Loc s j) (hj : j ≠ i) (ht : t.pc ≠ .gone) : Loc (s.setT i t) j := by
  unfold Loc at h ⊢
  rw [setT_ne _ _ hj]
  cases hp : (s.ts j).pc <;> simp only [hp] at h ⊢ <;> try exact h
  case addInsert k =>
    refine ⟨h.1, h.2.1, h.2.2.1, ?_, h.2.2.2.2⟩
    by_cases e : k = i
    · subst e; rw [setT_same]; exact ht
    · rw [setT_ne _ _ e]; exact h.2.2.2.1

/-- Thread `i` moves, nothing else changes. -/
theorem inv_set {s : State} (h : Inv s) {i : Nat} {t : T} (hi : (s.ts i).pc ≠ .gone) (ht : t.pc ≠ .gone)
    (hold : ∀ k, (s.ts i).pc ≠ .addInsert k) (hloc : Loc (s.setT i t) i) : Inv (s.setT i t) := by
  refine ⟨h.ok, fun j hj => ?_, h.nodup, fun j hj => ?_, fun j hj => ?_, fun j => ?_, ?_, h.cap, h.lim⟩
  · by_cases e : j = i
    · subst e; exact absurd (h.new j hj) hi
    · rw [setT_ne _ _ e]; exact h.new j hj
  · refine ⟨(h.mem j hj).1, ?_⟩
    by_cases e : j = i
    · subst e; rw [setT_same]; exact ht
    · rw [setT_ne _ _ e]; exact (h.mem j hj).2
  · have hj' : (s.ts j).pc ≠ .gone := by
      by_cases e : j = i
      · subst e; exact hi
      · rw [setT_ne _ _ e] at hj; exact hj
    rcases h.live j hj' with hm | hm | ⟨q, hq⟩
    · exact .inl hm
    · exact .inr (.inl hm)
    · refine .inr (.inr ⟨q, ?_⟩)
      rw [setT_ne _ _ (by intro e; subst e; exact hold _ hq)]; exact hq
  · by_cases e : j = i
    · subst e; exact hloc
    · exact loc_set (h.loc j) e ht
  · have ho := h.oloc
    unfold OLoc at ho ⊢
    have hown : (s.setT i t).own = s.own := rfl
    rw [hown]
    cases hw : s.own <;> simp only [hw] at ho ⊢ <;> try exact ho
    case startInsert k =>
      refine ⟨ho.1, ho.2.1, ho.2.2.1, ?_⟩
      by_cases e : k = i
      · subst e; rw [setT_same]; exact ht
      · rw [setT_ne _ _ e]; exact ho.2.2.2

theorem inv_log {s : State} (h : Inv s) (o : Obs) : Inv (s.log o) :=
  ⟨h.ok, h.new, h.nodup, h.mem, h.live, h.loc, h.oloc, h.cap, h.lim⟩

/-- A thread that is inside is in the pool if nobody else is inside. -/
theorem in_pool {s : State} (h : Inv s) (ha : alone s) {i : Nat} (hg : (s.ts i).pc ≠ .gone)
    (hi : inside (s.ts i).pc = true) : i ∈ s.pool := by
  rcases h.live i hg with hm | hm | ⟨q, hq⟩
  · exact hm
  · have := ha.2 (by rw [hm]; rfl) i
    rw [hi] at this; simp at this
  · have hqi := ha.1 q i (by rw [hq]; rfl) hi
    subst hqi
    have := h.loc q
    unfold Loc at this; rw [hq] at this
    exact absurd rfl this.2.2.2.2

theorem others_out {s : State} (ha : alone s) {i : Nat} (hi : inside (s.ts i).pc = true) :
    (∀ j, j ≠ i → inside (s.ts j).pc = false) ∧ ownInside s.own = false := by
  refine ⟨fun j hj => ?_, ?_⟩
  · cases h : inside (s.ts j).pc
    · rfl
    · exact absurd (ha.1 j i h hi) hj
  · cases h : ownInside s.own
    · rfl
    · have := ha.2 h i; rw [hi] at this; simp at this

theorem out_oloc {s : State} (h : ownInside s.own = false) : OLoc s := by
  unfold OLoc
  cases hp : s.own <;> rw [hp] at h <;> simp [ownInside] at h ⊢

/-- Thread `i` leaves and takes itself out of the pool. -/
theorem inv_remove {s : State} (h : Inv s) (ha : alone s) {i : Nat} (hi : inside (s.ts i).pc = true)
    (hna : ∀ k, (s.ts i).pc ≠ .addInsert k) (hg : (s.ts i).pc ≠ .gone) (t : T) (ht : t.pc = .gone) :
    Inv ({ s with pool := s.pool.erase i }.setT i t) := by
  obtain ⟨h1, h2⟩ := others_out ha hi
  have hmem := in_pool h ha hg hi
  refine ⟨h.ok, fun j hj => ?_, h.nodup.erase i, fun j hj => ?_, fun j hj => ?_, fun j => ?_, out_oloc h2, ?_, h.lim⟩
  · by_cases e : j = i
    · subst e; rw [setT_same]; exact ht
    · rw [setT_ne _ _ e]; exact h.new j hj
  · have hj : j ∈ s.pool.erase i := hj
    rw [h.nodup.mem_erase_iff] at hj
    refine ⟨(h.mem j hj.2).1, ?_⟩
    rw [setT_ne _ _ hj.1]; exact (h.mem j hj.2).2
  · by_cases e : j = i
    · subst e; rw [setT_same] at hj; exact absurd ht hj
    · rw [setT_ne _ _ e] at hj
      rcases h.live j hj with hm | hm | ⟨q, hq⟩
      · left
        show j ∈ s.pool.erase i
        rw [h.nodup.mem_erase_iff]; exact ⟨e, hm⟩
      · rw [hm] at h2; simp [ownInside] at h2
      · by_cases e' : q = i
        · subst e'; exact absurd hq (hna _)
        · have := h1 q e'; rw [hq] at this; simp [inside] at this
  · by_cases e : j = i
    · subst e; unfold Loc; rw [setT_same, ht]; trivial
    · apply out_loc
      rw [setT_ne _ _ e]; exact h1 j e
  · show (s.pool.erase i).length ≤ s.max
    exact Nat.le_trans (List.length_erase_le) h.cap

theorem nodup_append_one {l : List Nat} {k : Nat} (h : l.Nodup) (hk : k ∉ l) : (l ++ [k]).Nodup := by
  rw [List.nodup_append]
  exact ⟨h, by simp, by intro a ha b hb; simp at hb; subst hb; intro e; subst e; exact hk ha⟩

theorem newThread_ts {s : State} {i : Nat} (h : i < s.n) : s.newThread.ts i = s.ts i := by
  simp only [State.newThread, State.setT]; rw [if_neg (by omega)]

theorem newThread_new (s : State) : (s.newThread.ts s.n).pc = .created := by simp [State.newThread, State.setT]

theorem inv_own {s : State} (h : Inv s) (ha : alone s) (a : Nat) : Inv (ownStep s a) := by
  unfold ownStep
  cases hw : s.own <;> simp only [hw]
  case idle => exact h
  case startSize =>
    split
    · refine ⟨h.ok, h.new, h.nodup, h.mem, fun j hj => ?_, h.loc, trivial, h.cap, h.lim⟩
      rcases h.live j hj with hm | hm | hq
      · exact .inl hm
      · rw [hw] at hm; simp at hm
      · exact .inr (.inr hq)
    · refine ⟨h.ok, h.new, h.nodup, h.mem, fun j hj => ?_, h.loc, trivial, h.cap, h.lim⟩
      rcases h.live j hj with hm | hm | hq
      · exact .inl hm
      · rw [hw] at hm; simp at hm
      · exact .inr (.inr hq)
  case startLoop =>
    split
    · next hlt =>
      refine ⟨h.ok, h.new, h.nodup, h.mem, fun j hj => ?_, h.loc, hlt, h.cap, h.lim⟩
      rcases h.live j hj with hm | hm | hq
      · exact .inl hm
      · rw [hw] at hm; simp at hm
      · exact .inr (.inr hq)
    · refine ⟨h.ok, h.new, h.nodup, h.mem, fun j hj => ?_, h.loc, trivial, h.cap, h.lim⟩
      rcases h.live j hj with hm | hm | hq
      · exact .inl hm
      · rw [hw] at hm; simp at hm
      · exact .inr (.inr hq)
  case startBegin =>
    have ho := h.oloc
    unfold OLoc at ho; rw [hw] at ho
    split
    · have hout := ha.2 (by rw [hw]; rfl)
      refine ⟨h.ok, fun j hj => ?_, h.nodup, fun j hj => ?_, fun j hj => ?_, fun j => ?_, ?_, h.cap, h.lim⟩
      · simp only [State.newThread, State.setT] at hj ⊢
        rw [if_neg (by omega)]; exact h.new j (by omega)
      · have := h.mem j hj
        refine ⟨by simp only [State.newThread, State.setT]; omega, ?_⟩
        have hts := newThread_ts this.1
        simp only at hts ⊢; rw [hts]; exact this.2
      · by_cases e : j = s.n
        · subst e; exact .inr (.inl rfl)
        · have hj' : (s.ts j).pc ≠ .gone := by
            simp only [State.newThread, State.setT] at hj; rw [if_neg e] at hj; exact hj
          rcases h.live j hj' with hm | hm | ⟨q, hq⟩
          · exact .inl hm
          · rw [hw] at hm; simp at hm
          · have := hout q; rw [hq] at this; simp [inside] at this
      · apply out_loc
        simp only [State.newThread, State.setT]
        split
        · rfl
        · exact hout j
      · refine ⟨ho, ?_, by simp only [State.newThread, State.setT]; omega, by
          have := newThread_new s; simp only at this ⊢; rw [this]; simp⟩
        intro hm; have := (h.mem _ hm).1; omega
    · refine ⟨h.ok, h.new, h.nodup, h.mem, fun j hj => ?_, h.loc, trivial, h.cap, h.lim⟩
      rcases h.live j hj with hm | hm | hq
      · exact .inl hm
      · rw [hw] at hm; simp at hm
      · exact .inr (.inr hq)
  case startInsert k =>
    have ho := h.oloc
    unfold OLoc at ho; rw [hw] at ho
    have hout := ha.2 (by rw [hw]; rfl)
    refine ⟨h.ok, h.new, nodup_append_one h.nodup ho.2.1, fun j hj => ?_, fun j hj => ?_, fun j => out_loc (hout j), trivial,
      ?_, h.lim⟩
    · have hj : j ∈ s.pool ++ [k] := hj
      rw [List.mem_append, List.mem_singleton] at hj
      rcases hj with hj | hj
      · exact h.mem j hj
      · subst hj; exact ho.2.2
    · rcases h.live j hj with hm | hm | hq
      · left; show j ∈ s.pool ++ [k]; simp [hm]
      · left; show j ∈ s.pool ++ [k]; rw [hw] at hm; simp at hm; simp [hm]
      · exact .inr (.inr hq)
    · show (s.pool ++ [k]).length ≤ s.max
      have := h.lim; have h0 := ho.1; simp only [List.length_append, List.length_cons, List.length_nil]; omega

theorem not_mem_take_succ {l : List Nat} {k i j : Nat} (h : i ∉ l.take k) (hk : l[k]? = some j) (hj : j ≠ i) :
    i ∉ l.take (k + 1) := by
  rw [List.take_add_one, hk]
  simp [h]; exact fun e => hj e.symm

theorem inv_thread {s : State} (h : Inv s) (ha : alone s) (i a : Nat) (ha' : alone (threadStep s i a)) :
    Inv (threadStep s i a) := by
  by_cases hg : (s.ts i).pc = .gone
  · unfold threadStep; simp only [hg]; exact h
  have hi : i < s.n := by
    apply Nat.lt_of_not_le; intro hh; exact hg (h.new i hh)
  have move : ∀ t : T, inside t.pc = false → t.pc ≠ .gone → (∀ k, (s.ts i).pc ≠ .addInsert k) → Inv (s.setT i t) := by
    intro t h1 h2 h3
    exact inv_set h hg h2 h3 (out_loc (by rw [setT_same]; exact h1))
  unfold threadStep at ha' ⊢
  cases hp : (s.ts i).pc <;> simp only [hp] at ha' ⊢
  case gone => exact h
  case created => exact move _ rfl (by simp) (by simp [hp])
  case outer b =>
    by_cases hc : (decide ((s.ts i).cmd = .keepRunning) && !b) = true
    · rw [if_pos hc]; exact move _ rfl (by simp) (by simp [hp])
    · rw [if_neg hc]
      exact inv_set h hg (by simp) (by simp [hp]) (by unfold Loc; rw [setT_same]; simp)
  case startTest =>
    split
    · exact inv_log (move _ rfl (by simp) (by simp [hp])) _
    · exact move _ rfl (by simp) (by simp [hp])
  case startupIn => exact inv_log (move _ rfl (by simp) (by simp [hp])) _
  case loop => split <;> exact move _ rfl (by simp) (by simp [hp])
  case waitLoop =>
    split
    · exact inv_log (move _ rfl (by simp) (by simp [hp])) _
    · exact move _ rfl (by simp) (by simp [hp])
  case waitIn => exact inv_log (move _ rfl (by simp) (by simp [hp])) _
  case afterWait =>
    by_cases hc : (decide ((s.ts i).cmd = .keepRunning) && (s.ts i).err == 0) = true
    · rw [if_pos hc]; exact move _ rfl (by simp) (by simp [hp])
    · rw [if_neg hc]; exact move _ rfl (by simp) (by simp [hp])
  case addSize =>
    split
    · exact inv_log (move _ rfl (by simp) (by simp [hp])) _
    · next hlt => exact inv_set h hg (by simp) (by simp [hp]) (by unfold Loc; rw [setT_same]; exact Nat.lt_of_not_ge hlt)
  case addStart =>
    have hl := h.loc i
    unfold Loc at hl; rw [hp] at hl
    split
    · obtain ⟨h1, h2⟩ := others_out ha (i := i) (by rw [hp]; rfl)
      have hn : s.n ≠ i := by omega
      refine ⟨h.ok, fun j hj => ?_, h.nodup, fun j hj => ?_, fun j hj => ?_, fun j => ?_, out_oloc h2, h.cap, h.lim⟩
      · simp only [State.newThread, State.setT] at hj ⊢
        rw [if_neg (by omega), if_neg (by omega)]; exact h.new j (by omega)
      · have := h.mem j hj
        refine ⟨by simp only [State.newThread, State.setT]; omega, ?_⟩
        by_cases e : j = i
        · subst e; rw [setT_same]; simp
        · rw [setT_ne _ _ e, newThread_ts this.1]; exact this.2
      · by_cases e : j = s.n
        · subst e; exact .inr (.inr ⟨i, by rw [setT_same]⟩)
        · have hj' : (s.ts j).pc ≠ .gone := by
            by_cases e' : j = i
            · subst e'; exact hg
            · rw [setT_ne _ _ e'] at hj
              simp only [State.newThread, State.setT] at hj; rw [if_neg e] at hj; exact hj
          rcases h.live j hj' with hm | hm | ⟨q, hq⟩
          · exact .inl hm
          · rw [hm] at h2; simp [ownInside] at h2
          · by_cases e' : q = i
            · subst e'; rw [hp] at hq; simp at hq
            · have := h1 q e'; rw [hq] at this; simp [inside] at this
      · by_cases e : j = i
        · subst e
          unfold Loc
          rw [setT_same]
          refine ⟨hl, ?_, by simp only [State.newThread, State.setT]; omega, ?_, hn⟩
          · intro hm; have := (h.mem _ hm).1; omega
          · rw [setT_ne _ _ hn, newThread_new]; simp
        · apply out_loc
          rw [setT_ne _ _ e]
          simp only [State.newThread, State.setT]
          split
          · rfl
          · exact h1 j e
    · exact inv_log (move _ rfl (by simp) (by simp [hp])) _
  case addInsert k =>
    have hl := h.loc i
    unfold Loc at hl; rw [hp] at hl
    obtain ⟨h1, h2⟩ := others_out ha (i := i) (by rw [hp]; rfl)
    apply inv_log
    refine ⟨h.ok, fun j hj => ?_, nodup_append_one h.nodup hl.2.1, fun j hj => ?_, fun j hj => ?_, fun j => ?_, out_oloc h2, ?_,
      h.lim⟩
    · by_cases e : j = i
      · subst e; exact absurd (h.new j hj) hg
      · rw [setT_ne _ _ e]; exact h.new j hj
    · have hj : j ∈ s.pool ++ [k] := hj
      have hx : j < s.n ∧ (s.ts j).pc ≠ .gone := by
        rw [List.mem_append, List.mem_singleton] at hj
        rcases hj with hj | hj
        · exact h.mem j hj
        · subst hj; exact ⟨hl.2.2.1, hl.2.2.2.1⟩
      refine ⟨hx.1, ?_⟩
      by_cases e : j = i
      · subst e; rw [setT_same]; simp
      · rw [setT_ne _ _ e]; exact hx.2
    · left
      show j ∈ s.pool ++ [k]
      by_cases e : j = i
      · subst e; have := in_pool h ha hg (by rw [hp]; rfl); simp [this]
      · rw [setT_ne _ _ e] at hj
        rcases h.live j hj with hm | hm | ⟨q, hq⟩
        · simp [hm]
        · rw [hm] at h2; simp [ownInside] at h2
        · by_cases e' : q = i
          · subst e'; rw [hp] at hq; simp at hq; simp [hq]
          · have := h1 q e'; rw [hq] at this; simp [inside] at this
    · apply out_loc
      by_cases e : j = i
      · subst e; rw [setT_same]; rfl
      · rw [setT_ne _ _ e]; exact h1 j e
    · show (s.pool ++ [k]).length ≤ s.max
      have := hl.1; simp only [List.length_append, List.length_cons, List.length_nil]; omega
  case service =>
    split
    · exact inv_log (move _ rfl (by simp) (by simp [hp])) _
    · exact move _ rfl (by simp) (by simp [hp])
  case serviceIn => exact inv_log (move _ rfl (by simp) (by simp [hp])) _
  case endCall => exact inv_log (move _ rfl (by simp) (by simp [hp])) _
  case endIn => exact inv_log (move _ rfl (by simp) (by simp [hp])) _
  case enough => exact inv_set h hg (by simp) (by simp [hp]) (by unfold Loc; rw [setT_same]; simp)
  case removeTop k =>
    have hl := h.loc i
    unfold Loc at hl; rw [hp] at hl
    by_cases hk : k < s.pool.length
    · rw [if_pos hk]
      exact inv_set h hg (by simp) (by simp [hp]) (by unfold Loc; rw [setT_same]; exact ⟨hk, hl⟩)
    · exfalso
      have := in_pool h ha hg (by rw [hp]; rfl)
      have hl : i ∉ s.pool.take k := hl
      rw [List.take_of_length_le (by omega)] at hl
      exact hl this
  case removeGet k =>
    have hl := h.loc i
    unfold Loc at hl; rw [hp] at hl
    cases hj : s.pool[k]? with
    | none => rw [List.getElem?_eq_none_iff] at hj; omega
    | some j =>
      simp only
      by_cases e : j = i
      · rw [if_pos e]
        exact inv_set h hg (by simp) (by simp [hp]) (by unfold Loc; rw [setT_same]; simp)
      · rw [if_neg e]
        exact inv_set h hg (by simp) (by simp [hp]) (by
          unfold Loc; rw [setT_same]; exact not_mem_take_succ hl.2 hj e)
  case removeDel => exact inv_remove h ha (by rw [hp]; rfl) (by simp [hp]) hg _ rfl

theorem inv_step {s : State} (h : Inv s) (ha : alone s) (e : Ev) (ha' : alone (step s e)) : Inv (step s e) := by
  unfold step at ha' ⊢
  rw [h.ok] at ha' ⊢
  simp only [Bool.false_eq_true, if_false] at ha' ⊢
  cases e with
  | callStart =>
    simp only
    split
    · next ho =>
      refine ⟨rfl, h.new, h.nodup, h.mem, fun j hj => ?_, h.loc, trivial, h.cap, h.lim⟩
      rcases h.live j hj with hm | hm | hq
      · exact .inl hm
      · rw [ho] at hm; simp at hm
      · exact .inr (.inr hq)
    · exact h
  | own a => exact inv_own h ha a
  | thread i a => exact inv_thread h ha i a ha'
  | stop i =>
    have hts : ∀ j, ((s.setT i { s.ts i with cmd := .stop }).ts j).pc = (s.ts j).pc := by
      intro j
      by_cases e : j = i
      · subst e; rw [setT_same]
      · rw [setT_ne _ _ e]
    refine ⟨h.ok, fun j hj => ?_, h.nodup, fun j hj => ?_, fun j hj => ?_, fun j => ?_, ?_, h.cap, h.lim⟩
    · rw [hts]; exact h.new j hj
    · simp only; rw [hts]; exact h.mem j hj
    · simp only at hj; rw [hts] at hj
      rcases h.live j hj with hm | hm | ⟨q, hq⟩
      · exact .inl hm
      · exact .inr (.inl hm)
      · exact .inr (.inr ⟨q, by simp only; rw [hts]; exact hq⟩)
    · have hl := h.loc j
      unfold Loc at hl ⊢
      simp only; rw [hts]
      cases hp : (s.ts j).pc <;> simp only [hp] at hl ⊢ <;> try exact hl
      rw [hts]; exact hl
    · have hl := h.oloc
      unfold OLoc at hl ⊢
      simp only
      cases hp : s.own <;> simp only [hp, State.setT] at hl ⊢ <;> try exact hl
      have := hts; simp only [State.setT] at this
      rw [this]; exact hl

theorem inv_run {s : State} (h : Inv s) (es : List Ev) (ho : oneByOne s es) : Inv (run s es) := by
  refine run_ind es h fun p e hp hi => ?_
  refine inv_step hi (ho p ⟨e :: hp.choose, by have := hp.choose_spec; simpa using this⟩) e ?_
  rw [← run_snoc]; exact ho _ hp

end Verif.MultiClient
