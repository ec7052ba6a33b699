import Verif.Spec.TimingSignals
/-!
# C115: the signals of the timing data source
-/
set_option linter.unusedSimpArgs false
set_option linter.unusedVariables false
namespace Verif.TimingSignals
open Verif.Spec.TimingSignals

private def names (ss : List Sig) : List Text := ss.map (·.name)

/-! ## The type of a time -/

private theorem nodes_word : ∀ (w rest : Text) (b : Bool), w ≠ [] → '.' ∉ w → '\x00' ∉ w → nodes (w ++ rest) b = nodes rest true
  | [], _, _, h, _, _ => absurd rfl h
  | c :: w, rest, b, _, h1, h2 => by
    have e1 : c ≠ '.' := fun e => h1 (e ▸ List.mem_cons_self)
    have e2 : c ≠ '\x00' := fun e => h2 (e ▸ List.mem_cons_self)
    rw [List.cons_append, nodes]
    simp only [e1, e2, decide_false, Bool.or_self, Bool.false_eq_true, if_false]
    cases w with
    | nil => rfl
    | cons d w => exact nodes_word (d :: w) rest true (by simp) (fun h => h1 (List.mem_cons_of_mem _ h)) (fun h => h2 (List.mem_cons_of_mem _ h))

private theorem nodes_joined : ∀ (parts : List Text), parts ≠ [] → (∀ t ∈ parts, IsPart t) →
    nodes (joined parts) false = (List.replicate (parts.length - 1) "Node.".toList).flatten
  | [], h, _ => absurd rfl h
  | [t], _, h => by
    have ht := h t List.mem_cons_self
    have := nodes_word t [] false ht.1 ht.2.1 ht.2.2
    rw [List.append_nil] at this
    rw [joined, this]; rfl
  | t :: u :: ts, _, h => by
    have ht := h t List.mem_cons_self
    have ih := nodes_joined (u :: ts) (by simp) (fun x hx => h x (List.mem_cons_of_mem _ hx))
    rw [joined, List.append_assoc, nodes_word t _ false ht.1 ht.2.1 ht.2.2, List.singleton_append, nodes]
    simp only [decide_true, Bool.true_or, if_true]
    rw [ih]
    simp [List.replicate_succ]
    all_goals simp

private theorem written_time (n : Text) : IsTime (written n) := by
  refine ⟨rfl, rfl, rfl, rfl, ?_⟩
  intro parts h1 h2 h3
  have h3' : n = joined parts := h3
  show some (fullTypeOf n) = _
  rw [h3', fullTypeOf, nodes_joined parts h1 h2]

private theorem fill_eq {α : Type} [DecidableEq α] (h : Option α) (w : α) (r : Option α) (e : fill h w = some r) : r = some w := by
  unfold fill at e
  cases h with
  | none => simpa using e.symm
  | some v =>
    simp only at e
    split at e
    · rename_i hv; subst hv; simpa using e.symm
    · cases e

private theorem checked_eq (s s' : Sig) (h : checked s = some s') : s' = written s.name := by
  unfold checked at h
  split at h
  · cases h
  rename_i t ht
  split at h
  · cases h
  rename_i f hf
  split at h
  · cases h
  rename_i d hd
  split at h
  · cases h
  rename_i e he
  split at h
  · cases h
  rename_i b hb
  simp only [Option.some.injEq] at h
  rw [← h, fill_eq _ _ _ ht, fill_eq _ _ _ hf, fill_eq _ _ _ hd, fill_eq _ _ _ he, fill_eq _ _ _ hb]
  rfl

private theorem fill_none {α : Type} [DecidableEq α] (v w : α) (h : v ≠ w) : fill (some v) w = none := by
  unfold fill; simp [h]

private theorem checked_none (s : Sig) (h : Contradicts s) : checked s = none := by
  cases hc : checked s with
  | none => rfl
  | some s' =>
    exfalso
    unfold checked at hc
    split at hc
    · cases hc
    rename_i t ht
    split at hc
    · cases hc
    rename_i f hf
    split at hc
    · cases hc
    rename_i d hd
    split at hc
    · cases hc
    rename_i e he
    split at hc
    · cases hc
    rename_i b hb
    rcases h with ⟨v, h1, h2⟩ | ⟨v, h1, h2⟩ | ⟨v, h1, h2⟩ | ⟨v, h1, h2⟩
    · rw [h1, fill_none v _ h2] at ht; cases ht
    · rw [h1, fill_none v _ h2] at hd; cases hd
    · rw [h1, fill_none v _ h2] at he; cases he
    · rw [h1, fill_none v _ h2] at hb; cases hb

/-! ## Lists of signals -/

private theorem ensure_names (n : Text) : ∀ (ss ss' : List Sig), ensure n ss = some ss' →
    names ss' = if n ∈ names ss then names ss else names ss ++ [n]
  | [], ss', h => by
    simp only [ensure, Option.some.injEq] at h
    subst h; rfl
  | s :: ss, ss', h => by
    rw [ensure] at h
    split at h
    · rename_i hn
      cases hc : checked s with
      | none => rw [hc] at h; cases h
      | some s1 =>
        rw [hc] at h
        simp only [Option.map_some, Option.some.injEq] at h
        subst h
        have := checked_eq s s1 hc
        rw [if_pos (by simp [names, hn])]
        simp [names, this, written]
    · rename_i hn
      cases hc : ensure n ss with
      | none => rw [hc] at h; cases h
      | some s1 =>
        rw [hc] at h
        simp only [Option.map_some, Option.some.injEq] at h
        subst h
        have ih := ensure_names n ss s1 hc
        have e : n ∈ names (s :: ss) ↔ n ∈ names ss := by
          have hne : n ≠ s.name := fun e => hn e.symm
          simp [names, hne]
        show s.name :: names s1 = _
        rw [ih]
        by_cases hm : n ∈ names ss
        · rw [if_pos hm, if_pos (e.mpr hm)]; rfl
        · rw [if_neg hm, if_neg (fun h => hm (e.mp h))]; rfl

private theorem ensure_mem (n : Text) : ∀ (ss ss' : List Sig), (names ss).Nodup → ensure n ss = some ss' →
    ∀ x, x ∈ ss' ↔ (x ∈ ss ∧ x.name ≠ n) ∨ x = written n
  | [], ss', _, h, x => by
    simp only [ensure, Option.some.injEq] at h
    subst h; simp
  | s :: ss, ss', hd, h, x => by
    have hd' : s.name ∉ names ss ∧ (names ss).Nodup := List.nodup_cons.mp hd
    rw [ensure] at h
    split at h
    · rename_i hn
      cases hc : checked s with
      | none => rw [hc] at h; cases h
      | some s1 =>
        rw [hc] at h
        simp only [Option.map_some, Option.some.injEq] at h
        subst h
        rw [checked_eq s s1 hc, hn]
        simp only [List.mem_cons]
        constructor
        · rintro (h | h)
          · exact .inr h
          · refine .inl ⟨.inr h, ?_⟩
            rintro rfl
            exact hd'.1 (hn ▸ List.mem_map.mpr ⟨x, h, rfl⟩)
        · rintro (⟨rfl | h, h2⟩ | h)
          · exact absurd hn h2
          · exact .inr h
          · exact .inl h
    · rename_i hn
      cases hc : ensure n ss with
      | none => rw [hc] at h; cases h
      | some s1 =>
        rw [hc] at h
        simp only [Option.map_some, Option.some.injEq] at h
        subst h
        have ih := ensure_mem n ss s1 hd'.2 hc x
        simp only [List.mem_cons, ih]
        constructor
        · rintro (rfl | h | h)
          · exact .inl ⟨.inl rfl, hn⟩
          · exact .inl ⟨.inr h.1, h.2⟩
          · exact .inr h
        · rintro (⟨rfl | h, h2⟩ | h)
          · exact .inl rfl
          · exact .inr (.inl ⟨h, h2⟩)
          · exact .inr (.inr h)

private theorem ensure_others (n : Text) (P : Sig → Bool) (hP : ∀ s, s.name = n → P s = false) : ∀ (ss ss' : List Sig), ensure n ss = some ss' →
    ss'.filter P = ss.filter P
  | [], ss', h => by
    simp only [ensure, Option.some.injEq] at h
    subst h
    rw [List.filter_cons_of_neg (by simp [hP (written n) rfl])]
  | s :: ss, ss', h => by
    rw [ensure] at h
    split at h
    · rename_i hn
      cases hc : checked s with
      | none => rw [hc] at h; cases h
      | some s1 =>
        rw [hc] at h
        simp only [Option.map_some, Option.some.injEq] at h
        subst h
        have e1 : P s1 = false := by rw [checked_eq s s1 hc]; exact hP (written s.name) hn
        rw [List.filter_cons_of_neg (by simp [e1]), List.filter_cons_of_neg (by simp [hP s hn])]
    · cases hc : ensure n ss with
      | none => rw [hc] at h; cases h
      | some s1 =>
        rw [hc] at h
        simp only [Option.map_some, Option.some.injEq] at h
        subst h
        rw [List.filter_cons, List.filter_cons, ensure_others n P hP ss s1 hc]

private theorem ensure_nodup (n : Text) (ss ss' : List Sig) (hd : (names ss).Nodup) (h : ensure n ss = some ss') : (names ss').Nodup := by
  rw [ensure_names n ss ss' h]
  split
  · exact hd
  · rename_i hn
    rw [List.nodup_append]
    refine ⟨hd, by simp, ?_⟩
    intro a ha b hb e
    rw [List.mem_singleton] at hb
    subst hb; subst e; exact hn ha

private theorem all_spec : ∀ (ns : List Text) (ss ss' : List Sig), (names ss).Nodup → ensureAll ns ss = some ss' →
    (names ss').Nodup ∧ (∀ x, x ∈ ss' ↔ (x ∈ ss ∧ x.name ∉ ns) ∨ ∃ n ∈ ns, x = written n)
  | [], ss, ss', hd, h => by
    simp only [ensureAll, Option.some.injEq] at h
    subst h
    exact ⟨hd, by simp⟩
  | n :: ns, ss, ss', hd, h => by
    rw [ensureAll] at h
    cases hc : ensure n ss with
    | none => rw [hc] at h; cases h
    | some s1 =>
      rw [hc] at h
      have hd1 := ensure_nodup n ss s1 hd hc
      have hm := ensure_mem n ss s1 hd hc
      obtain ⟨h1, h2⟩ := all_spec ns s1 ss' hd1 h
      refine ⟨h1, ?_⟩
      intro x
      rw [h2, hm]
      constructor
      · rintro (⟨⟨h, hx⟩ | rfl, hy⟩ | ⟨m, hm, rfl⟩)
        · exact .inl ⟨h, by simp [hx, hy]⟩
        · exact .inr ⟨n, List.mem_cons_self, rfl⟩
        · exact .inr ⟨m, List.mem_cons_of_mem _ hm, rfl⟩
      · rintro (⟨h, hx⟩ | ⟨m, hm, rfl⟩)
        · simp only [List.mem_cons, not_or] at hx
          exact .inl ⟨.inl ⟨h, hx.1⟩, hx.2⟩
        · rcases List.mem_cons.mp hm with rfl | hm
          · by_cases hin : m ∈ ns
            · exact .inr ⟨m, hin, rfl⟩
            · exact .inl ⟨.inr rfl, hin⟩
          · exact .inr ⟨m, hm, rfl⟩

private theorem all_others : ∀ (ns : List Text) (P : Sig → Bool), (∀ s, s.name ∈ ns → P s = false) → ∀ (ss ss' : List Sig),
    ensureAll ns ss = some ss' → ss'.filter P = ss.filter P
  | [], P, hP, ss, ss', h => by
    simp only [ensureAll, Option.some.injEq] at h
    rw [h]
  | n :: ns, P, hP, ss, ss', h => by
    rw [ensureAll] at h
    cases hc : ensure n ss with
    | none => rw [hc] at h; cases h
    | some s1 =>
      rw [hc] at h
      rw [all_others ns P (fun s hs => hP s (List.mem_cons_of_mem _ hs)) s1 ss' h,
        ensure_others n P (fun s hs => hP s (hs ▸ List.mem_cons_self)) ss s1 hc]

private theorem lookup_mem (ss : List Sig) (hd : (names ss).Nodup) (s : Sig) (hs : s ∈ ss) : lookup ss s.name = some s := by
  unfold lookup
  induction ss with
  | nil => cases hs
  | cons x ss ih =>
    have hd' : x.name ∉ names ss ∧ (names ss).Nodup := List.nodup_cons.mp hd
    rw [List.reverse_cons, List.find?_append]
    rcases List.mem_cons.mp hs with rfl | hs
    · have : ss.reverse.find? (fun t => t.name = s.name) = none := by
        rw [List.find?_eq_none]
        intro y hy
        simp only [decide_eq_true_eq]
        intro e
        exact hd'.1 (e ▸ List.mem_map.mpr ⟨y, List.mem_reverse.mp hy, rfl⟩)
      rw [this]; simp
    · rw [ih hd'.2 hs]; rfl

private theorem funNames_eq (functions : List Text) :
    (functions.flatMap fun f => [f ++ "_ReadTime".toList, f ++ "_ExecTime".toList, f ++ "_WriteTime".toList]) = functionNames functions := rfl

/-- **C115.** After the threads are added, the signal with the name of each thread is a time. -/
theorem c115_cycle_times (threads : List (Text × Text)) (ss ss' : List Sig) (hd : (ss.map (·.name)).Nodup) (h : addCycleTimes threads ss = some ss') :
    ∀ n ∈ threadNames threads, ∃ s, lookup ss' n = some s ∧ s.name = n ∧ IsTime s := by
  intro n hn
  obtain ⟨h1, h2⟩ := all_spec _ ss ss' hd h
  have hm : written n ∈ ss' := (h2 _).mpr (.inr ⟨n, hn, rfl⟩)
  exact ⟨written n, lookup_mem ss' h1 _ hm, rfl, written_time n⟩

private theorem not_current (n : Text) (functions : List Text) (h : n ∈ functionNames functions) : n ≠ "CurrentState".toList := by
  intro e
  unfold functionNames at h
  rw [List.mem_flatMap] at h
  obtain ⟨f, -, hf⟩ := h
  simp only [List.map_cons, List.map_nil, List.mem_cons, List.not_mem_nil, or_false] at hf
  rw [e] at hf
  rcases hf with hf | hf | hf <;>
  · have := congrArg (fun l : List Char => l.reverse.take 4) hf
    simp at this

/-- **C115.** After the functions are added, the signal with the name of each of their times is a time, and so is the one with the
state. -/
theorem c115_function_times (functions : List Text) (ss ss' : List Sig) (hd : (ss.map (·.name)).Nodup) (h : addTimingSignals functions ss = some ss') :
    ∀ n, n ∈ functionNames functions ∨ n = "CurrentState".toList → ∃ s, lookup ss' n = some s ∧ s.name = n ∧ IsTime s := by
  unfold addTimingSignals at h
  rw [funNames_eq] at h
  cases hc : ensureAll (functionNames functions) ss with
  | none => rw [hc] at h; cases h
  | some s1 =>
    rw [hc] at h
    simp only [Option.map_some, Option.some.injEq] at h
    subst h
    obtain ⟨h1, h2⟩ := all_spec _ ss s1 hd hc
    intro n hn
    have hl : lookup (s1 ++ [written "CurrentState".toList]) n =
        if n = "CurrentState".toList then some (written "CurrentState".toList) else lookup s1 n := by
      unfold lookup
      rw [List.reverse_append, List.reverse_singleton, List.singleton_append, List.find?_cons]
      by_cases e : n = "CurrentState".toList
      · subst e; simp [written]
      · have : (decide ((written "CurrentState".toList).name = n)) = false := by
          rw [decide_eq_false_iff_not]; intro e'; exact e e'.symm
        rw [this, if_neg e]
    rcases hn with hn | hn
    · have hm : written n ∈ s1 := (h2 _).mpr (.inr ⟨n, hn, rfl⟩)
      rw [hl, if_neg (not_current n functions hn)]
      exact ⟨written n, lookup_mem s1 h1 _ hm, rfl, written_time n⟩
    · rw [hl, if_pos hn]
      exact ⟨written "CurrentState".toList, rfl, hn.symm, written_time _⟩

/-- **C115.** All other signals are as they were, in the same order; no signal is lost, and no name is used twice unless the state
was declared. -/
theorem c115_others (threads : List (Text × Text)) (functions : List Text) (ss : List Sig) (hd : (ss.map (·.name)).Nodup) :
    (∀ ss', addCycleTimes threads ss = some ss' →
      (ss'.filter fun s => s.name ∉ threadNames threads) = (ss.filter fun s => s.name ∉ threadNames threads) ∧ (ss'.map (·.name)).Nodup ∧
      ∀ n, n ∈ ss'.map (·.name) ↔ n ∈ ss.map (·.name) ∨ n ∈ threadNames threads) ∧
    (∀ ss', addTimingSignals functions ss = some ss' →
      (ss'.filter fun s => s.name ∉ "CurrentState".toList :: functionNames functions) = (ss.filter fun s => s.name ∉ "CurrentState".toList :: functionNames functions) ∧
      ("CurrentState".toList ∉ ss.map (·.name) → (ss'.map (·.name)).Nodup) ∧
      ∀ n, n ∈ ss'.map (·.name) ↔ n ∈ ss.map (·.name) ∨ n ∈ functionNames functions ∨ n = "CurrentState".toList) := by
  have mem : ∀ (ns : List Text) (ss' : List Sig), ensureAll ns ss = some ss' → ∀ n, n ∈ ss'.map (·.name) ↔ n ∈ ss.map (·.name) ∨ n ∈ ns := by
    intro ns ss' h n
    obtain ⟨-, h2⟩ := all_spec _ ss ss' hd h
    constructor
    · intro hx
      obtain ⟨x, hx', rfl⟩ := List.mem_map.mp hx
      rcases (h2 x).mp hx' with hx | ⟨m, hm, rfl⟩
      · exact .inl (List.mem_map.mpr ⟨x, hx.1, rfl⟩)
      · exact .inr hm
    · rintro hx
      by_cases hn : n ∈ ns
      · exact List.mem_map.mpr ⟨written n, (h2 _).mpr (.inr ⟨n, hn, rfl⟩), rfl⟩
      · obtain ⟨x, hx', rfl⟩ := List.mem_map.mp (hx.resolve_right hn)
        exact List.mem_map.mpr ⟨x, (h2 _).mpr (.inl ⟨hx', hn⟩), rfl⟩
  constructor
  · intro ss' h
    refine ⟨all_others _ _ ?_ ss ss' h, (all_spec _ ss ss' hd h).1, mem _ _ h⟩
    intro s hs
    have hs' : s.name ∈ threadNames threads := hs
    simp [hs']
  · intro ss' h
    unfold addTimingSignals at h
    rw [funNames_eq] at h
    cases hc : ensureAll (functionNames functions) ss with
    | none => rw [hc] at h; cases h
    | some s1 =>
      rw [hc] at h
      simp only [Option.map_some, Option.some.injEq] at h
      subst h
      have hm := mem _ _ hc
      refine ⟨?_, ?_, ?_⟩
      · rw [List.filter_append, all_others _ _ (fun s hs => by simp [hs]) ss s1 hc]
        rw [List.filter_cons_of_neg (by simp [written])]
        simp
      · intro hn
        rw [List.map_append, List.nodup_append]
        refine ⟨(all_spec _ ss s1 hd hc).1, by simp, ?_⟩
        intro a ha b hb e
        simp only [List.map_cons, List.map_nil, List.mem_singleton] at hb
        subst hb; subst e
        rcases (hm _).mp ha with h | h
        · exact hn h
        · exact not_current _ functions h rfl
      · intro n
        rw [List.map_append, List.mem_append, hm n]
        simp only [List.map_cons, List.map_nil, List.mem_singleton, written]
        constructor
        · rintro ((h | h) | h)
          · exact .inl h
          · exact .inr (.inl h)
          · exact .inr (.inr h)
        · rintro (h | h | h)
          · exact .inl (.inl h)
          · exact .inl (.inr h)
          · exact .inr h

private theorem ensure_contra (n : Text) : ∀ (ss : List Sig), (names ss).Nodup → (∃ s ∈ ss, s.name = n ∧ checked s = none) → ensure n ss = none
  | [], _, ⟨s, hs, _⟩ => by cases hs
  | x :: ss, hd, ⟨s, hs, hn, hc⟩ => by
    have hd' : x.name ∉ names ss ∧ (names ss).Nodup := List.nodup_cons.mp hd
    rw [ensure]
    rcases List.mem_cons.mp hs with rfl | hs
    · rw [if_pos hn, hc]; rfl
    · have : x.name ≠ n := fun e => hd'.1 (e ▸ hn ▸ List.mem_map.mpr ⟨s, hs, rfl⟩)
      rw [if_neg this, ensure_contra n ss hd'.2 ⟨s, hs, hn, hc⟩]; rfl

private theorem all_contra : ∀ (ns : List Text) (ss : List Sig), (names ss).Nodup → (∃ s ∈ ss, s.name ∈ ns ∧ checked s = none) → ensureAll ns ss = none
  | [], ss, _, ⟨s, _, h, _⟩ => by cases h
  | n :: ns, ss, hd, ⟨s, hs, hn, hc⟩ => by
    rw [ensureAll]
    by_cases e : s.name = n
    · rw [ensure_contra n ss hd ⟨s, hs, e, hc⟩]
    · cases h1 : ensure n ss with
      | none => rfl
      | some s1 =>
        refine all_contra ns s1 (ensure_nodup n ss s1 hd h1) ⟨s, ((ensure_mem n ss s1 hd h1) s).mpr (.inl ⟨hs, e⟩), ?_, hc⟩
        rcases List.mem_cons.mp hn with hn | hn
        · exact absurd hn e
        · exact hn

private theorem ensure_ok (n : Text) : ∀ (ss : List Sig), (∀ s ∈ ss, s.name = n → ∃ s', checked s = some s') → ∃ ss', ensure n ss = some ss'
  | [], _ => ⟨_, rfl⟩
  | s :: ss, h => by
    rw [ensure]
    split
    · rename_i hn
      obtain ⟨s', hs⟩ := h s List.mem_cons_self hn
      exact ⟨_, by rw [hs]; rfl⟩
    · obtain ⟨s1, h1⟩ := ensure_ok n ss fun x hx => h x (List.mem_cons_of_mem _ hx)
      exact ⟨_, by rw [h1]; rfl⟩

private theorem checked_written (n : Text) : checked (written n) = some (written n) := by
  simp [checked, written, fill]

private theorem all_ok : ∀ (ns : List Text) (ss : List Sig), (names ss).Nodup → (∀ s ∈ ss, s.name ∈ ns → ∃ s', checked s = some s') → ∃ ss', ensureAll ns ss = some ss'
  | [], ss, _, _ => ⟨ss, rfl⟩
  | n :: ns, ss, hd, h => by
    obtain ⟨s1, h1⟩ := ensure_ok n ss fun s hs e => h s hs (e ▸ List.mem_cons_self)
    obtain ⟨s2, h2⟩ := all_ok ns s1 (ensure_nodup n ss s1 hd h1) (by
      intro s hs hn
      rcases (ensure_mem n ss s1 hd h1 s).mp hs with hx | rfl
      · exact h s hx.1 (List.mem_cons_of_mem _ hn)
      · exact ⟨_, checked_written n⟩)
    exact ⟨s2, by rw [ensureAll, h1]; exact h2⟩

private theorem checked_ok (s : Sig) (hc : ¬ Contradicts s) (hf : s.fullType = none) : ∃ s', checked s = some s' := by
  have one : ∀ {α : Type} [DecidableEq α] (h : Option α) (w : α), (∀ v, h = some v → v = w) → fill h w = some (some w) := by
    intro α _ h w hv
    unfold fill
    cases h with
    | none => rfl
    | some v =>
      have := hv v rfl
      subst this
      simp
  have h1 := one s.type "uint32".toList (fun v hv => Classical.byContradiction fun hne => hc (.inl ⟨v, hv, hne⟩))
  have h2 := one s.dims 0 (fun v hv => Classical.byContradiction fun hne => hc (.inr (.inl ⟨v, hv, hne⟩)))
  have h3 := one s.elems 1 (fun v hv => Classical.byContradiction fun hne => hc (.inr (.inr (.inl ⟨v, hv, hne⟩))))
  have h4 := one s.bytes 4 (fun v hv => Classical.byContradiction fun hne => hc (.inr (.inr (.inr ⟨v, hv, hne⟩))))
  have h5 := one s.fullType (fullTypeOf s.name) (by rw [hf]; simp)
  exact ⟨_, by unfold checked; rw [h1, h5, h2, h3, h4]⟩

/-- **C115.** Signals with the names of times that were declared without a full type are accepted if and only if they were not
declared as something else. -/
theorem c115_accepted_iff (threads : List (Text × Text)) (functions : List Text) (ss : List Sig) (hd : (ss.map (·.name)).Nodup)
    (hf : ∀ s ∈ ss, s.fullType = none) :
    ((∃ ss', addCycleTimes threads ss = some ss') ↔ ∀ s ∈ ss, s.name ∈ threadNames threads → ¬ Contradicts s) ∧
    ((∃ ss', addTimingSignals functions ss = some ss') ↔ ∀ s ∈ ss, s.name ∈ functionNames functions → ¬ Contradicts s) := by
  have key : ∀ ns, (∃ ss', ensureAll ns ss = some ss') ↔ ∀ s ∈ ss, s.name ∈ ns → ¬ Contradicts s := by
    intro ns
    constructor
    · rintro ⟨ss', h⟩ s hs hn hc
      rw [all_contra ns ss hd ⟨s, hs, hn, checked_none s hc⟩] at h
      cases h
    · intro h
      exact all_ok ns ss hd fun s hs hn => checked_ok s (h s hs hn) (hf s hs)
  refine ⟨key _, ?_⟩
  rw [← key]
  unfold addTimingSignals
  rw [funNames_eq]
  cases ensureAll (functionNames functions) ss <;> simp

/-- **C115 (refuted).** A signal `CurrentState` that was declared as something else is accepted, and a second signal with this name is
added, which is the one the name stands for from then on. -/
theorem c115_current_fails (functions : List Text) (ss ss' : List Sig) (s : Sig) (hs : s ∈ ss) (hn : s.name = "CurrentState".toList)
    (hc : Contradicts s) (hd : (ss.map (·.name)).Nodup) (h : addTimingSignals functions ss = some ss') :
    s ∈ ss' ∧ ∃ s' ∈ ss', s'.name = s.name ∧ s' ≠ s ∧ lookup ss' s.name = some s' := by
  have hne : ∀ t, IsTime t → t ≠ s := by
    rintro t ht rfl
    rcases hc with ⟨v, h1, h2⟩ | ⟨v, h1, h2⟩ | ⟨v, h1, h2⟩ | ⟨v, h1, h2⟩
    · rw [ht.type] at h1; exact h2 (Option.some.inj h1).symm
    · rw [ht.dims] at h1; exact h2 (Option.some.inj h1).symm
    · rw [ht.elems] at h1; exact h2 (Option.some.inj h1).symm
    · rw [ht.bytes] at h1; exact h2 (Option.some.inj h1).symm
  obtain ⟨s', h1, h2, h3⟩ := c115_function_times functions ss ss' hd h "CurrentState".toList (.inr rfl)
  refine ⟨?_, s', ?_, by rw [h2, hn], hne s' h3, by rw [hn]; exact h1⟩
  · unfold addTimingSignals at h
    rw [funNames_eq] at h
    cases hc2 : ensureAll (functionNames functions) ss with
    | none => rw [hc2] at h; cases h
    | some s1 =>
      rw [hc2] at h
      simp only [Option.map_some, Option.some.injEq] at h
      subst h
      exact List.mem_append_left _ ((((all_spec _ ss s1 hd hc2).2) s).mpr (.inl ⟨hs, fun hx => not_current _ functions hx hn⟩))
  · have := List.mem_of_find?_eq_some h1
    exact List.mem_reverse.mp this

/-- Two functions, one in a group, and a thread; one of the signals was declared with a type, and the state as a byte. -/
example : ∃ ss s1 s2, (ss.map (·.name)).Nodup ∧ addCycleTimes [("S".toList, "T".toList)] ss = some s1 ∧ s1.length = 3 ∧
    addTimingSignals ["A".toList, "G.B".toList] ss = some s2 ∧ s2.length = 8 ∧
    (lookup s2 "G.B_ExecTime".toList).bind (·.fullType) = some "Node.uint32".toList ∧ ∃ s ∈ ss, s.name = "CurrentState".toList ∧ Contradicts s := by
  refine ⟨[⟨"A_ReadTime".toList, some "uint32".toList, none, none, none, none⟩, ⟨"CurrentState".toList, some "uint8".toList, none, none, none, none⟩],
    _, _, by decide, rfl, by decide, rfl, by decide, by decide +kernel, _, List.mem_cons_of_mem _ List.mem_cons_self, rfl, .inl ⟨_, rfl, by decide⟩⟩

end Verif.TimingSignals
