import Verif.Spec.AppStates
/-!
# C114: functions and the threads that execute them
-/
set_option linter.unusedSimpArgs false
set_option linter.unusedVariables false
namespace Verif.AppStates
open Verif.Spec.AppStates

/-! ## The functions of a thread -/

private theorem inside_eq : ∀ (f : Forest) (pre : Path), inside pre f = (gams f).map fun x => (pre ++ x.1, x.2)
  | .nil, pre => rfl
  | .cons n g s k r, pre => by
    rw [inside, gams, inside_eq k, inside_eq r]
    simp only [List.map_append, List.map_map]
    congr 1
    congr 1
    · cases g <;> simp
    · apply List.map_congr_left; intro x _; simp

private theorem gams_roots : ∀ (f : Forest) (x : Path × Nat), x ∈ gams f → ∃ a p, x.1 = a :: p ∧ a ∈ roots f
  | .nil, x, h => by cases h
  | .cons n g s k r, x, h => by
    rw [gams, List.mem_append, List.mem_append] at h
    rcases h with (h | h) | h
    · cases g
      · cases h
      · rw [if_pos rfl, List.mem_singleton] at h
        exact ⟨n, [], by rw [h], List.mem_cons_self⟩
    · obtain ⟨y, -, rfl⟩ := List.mem_map.mp h
      exact ⟨n, y.1, rfl, List.mem_cons_self⟩
    · obtain ⟨a, p, h1, h2⟩ := gams_roots r x h
      exact ⟨a, p, h1, List.mem_cons_of_mem _ h2⟩

private theorem paths_roots : ∀ (f : Forest) (x : Path), x ∈ paths f → ∃ a p, x = a :: p ∧ a ∈ roots f
  | .nil, x, h => by cases h
  | .cons n g s k r, x, h => by
    rw [paths, List.cons_append, List.mem_cons, List.mem_append] at h
    rcases h with h | h | h
    · exact ⟨n, [], h, List.mem_cons_self⟩
    · obtain ⟨y, -, rfl⟩ := List.mem_map.mp h
      exact ⟨n, y, rfl, List.mem_cons_self⟩
    · obtain ⟨a, p, h1, h2⟩ := paths_roots r x h
      exact ⟨a, p, h1, List.mem_cons_of_mem _ h2⟩

private theorem filter_other (r : Forest) (a : String) (p : Path) (h : a ∉ roots r) :
    (gams r).filter (fun x => (a :: p).isPrefixOf x.1) = [] := by
  rw [List.filter_eq_nil_iff]
  intro x hx hp
  obtain ⟨b, q, h1, h2⟩ := gams_roots r x hx
  rw [h1, List.isPrefixOf_iff_prefix, List.cons_prefix_cons] at hp
  exact h (hp.1 ▸ h2)

private theorem gamsOf_eq : ∀ (f : Forest), Distinct f → ∀ p ∈ paths f, gamsOf f p = some ((gams f).filter fun x => p.isPrefixOf x.1)
  | .nil, _, p, h => by cases h
  | .cons n g s k r, ⟨hn, hk, hr⟩, p, h => by
    obtain ⟨a, q, rfl, -⟩ := paths_roots _ p h
    rw [paths, List.cons_append, List.mem_cons, List.mem_append] at h
    have hmap : ((gams k).map fun x => (n :: x.1, x.2)).filter (fun x => (n :: q).isPrefixOf x.1) =
        ((gams k).filter fun x => q.isPrefixOf x.1).map fun x => (n :: x.1, x.2) := by
      rw [List.filter_map]
      congr 1
      apply List.filter_congr
      intro x _
      simp [List.isPrefixOf]
    by_cases ha : n = a
    · subst ha
      rw [gams, List.filter_append, List.filter_append, filter_other r n q hn, List.append_nil, hmap]
      by_cases hq : q = []
      · subst hq
        simp only [gamsOf, find, if_true]
        rw [inside_eq]
        congr 1
        congr 1
        · cases g <;> simp [List.isPrefixOf]
        · have : (gams k).filter (fun x => ([] : Path).isPrefixOf x.1) = gams k := by
            rw [List.filter_eq_self]; intro x _; simp
          rw [this]; simp
      · have hqk : q ∈ paths k := by
          rcases h with h | h | h
          · simp at h; exact absurd h hq
          · obtain ⟨y, hy, he⟩ := List.mem_map.mp h
            simp only [List.cons.injEq, true_and] at he
            exact he ▸ hy
          · obtain ⟨b, q', h1, h2⟩ := paths_roots r _ h
            simp only [List.cons.injEq] at h1
            exact absurd (h1.1 ▸ h2) hn
        have ih := gamsOf_eq k hk q hqk
        unfold gamsOf at ih ⊢
        rw [find, if_pos rfl, if_neg hq]
        cases hf : find k q with
        | none => rw [hf] at ih; cases ih
        | some v =>
          obtain ⟨g', s', k'⟩ := v
          rw [hf] at ih
          simp only [Option.some.injEq] at ih ⊢
          rw [← ih, List.map_append, inside_eq, inside_eq, List.map_map]
          have e1 : (if g = true then [(([n] : Path), s)] else []).filter (fun x => (n :: q).isPrefixOf x.1) = [] := by
            cases g
            · rfl
            · cases q with
              | nil => exact absurd rfl hq
              | cons b q => simp [List.isPrefixOf]
          rw [e1, List.nil_append]
          congr 1
          cases g' <;> simp
    · have h' : a :: q ∈ paths r := by
        rcases h with h | h | h
        · simp only [List.cons.injEq] at h; exact absurd h.1.symm ha
        · obtain ⟨y, hy, he⟩ := List.mem_map.mp h
          simp only [List.cons.injEq] at he
          exact absurd he.1 ha
        · exact h
      have ih := gamsOf_eq r hr (a :: q) h'
      have e0 : gamsOf (.cons n g s k r) (a :: q) = gamsOf r (a :: q) := by
        unfold gamsOf
        rw [find, if_neg ha]
      rw [e0, ih, gams, List.filter_append, List.filter_append]
      have e1 : (if g = true then [(([n] : Path), s)] else []).filter (fun x => (a :: q).isPrefixOf x.1) = [] := by
        cases g
        · rfl
        · have hne : a ≠ n := fun e => ha e.symm
          simp [List.isPrefixOf, hne]
      have e2 : ((gams k).map fun x => (n :: x.1, x.2)).filter (fun x => (a :: q).isPrefixOf x.1) = [] := by
        rw [List.filter_eq_nil_iff]
        intro x hx hp
        obtain ⟨y, -, rfl⟩ := List.mem_map.mp hx
        rw [List.isPrefixOf_iff_prefix, List.cons_prefix_cons] at hp
        exact ha hp.1.symm
      rw [e1, e2]; rfl

private theorem find_paths : ∀ (f : Forest) (p : Path) (v : Bool × Nat × Forest), find f p = some v → p ∈ paths f
  | .nil, p, v, h => by simp [find] at h
  | .cons n g s k r, [], v, h => by simp [find] at h
  | .cons n g s k r, a :: p, v, h => by
    rw [paths, List.cons_append, List.mem_cons, List.mem_append]
    rw [find] at h
    split at h
    · rename_i ha
      subst ha
      split at h
      · rename_i hp; subst hp; exact .inl rfl
      · exact .inr (.inl (List.mem_map.mpr ⟨p, find_paths k p v h, rfl⟩))
    · exact .inr (.inr (find_paths r (a :: p) v h))

private theorem threadGams_ok (f : Forest) (hf : Distinct f) : ∀ (ps : List Path), (∀ p ∈ ps, p ∈ paths f) →
    threadGams f ps = some (ps.flatMap fun p => (gams f).filter fun x => p.isPrefixOf x.1)
  | [], _ => rfl
  | p :: ps, h => by
    rw [threadGams, gamsOf_eq f hf p (h p List.mem_cons_self), threadGams_ok f hf ps (fun q hq => h q (List.mem_cons_of_mem _ hq))]
    rfl

private theorem threadGams_some (f : Forest) : ∀ (ps : List Path) (gs : List (Path × Nat)), threadGams f ps = some gs → ∀ p ∈ ps, p ∈ paths f
  | [], _, _ => by simp
  | p :: ps, gs, h => by
    rw [threadGams] at h
    cases hg : gamsOf f p with
    | none => rw [hg] at h; cases h
    | some a =>
      rw [hg] at h
      cases ht : threadGams f ps with
      | none => rw [ht] at h; cases h
      | some b =>
        intro q hq
        rcases List.mem_cons.mp hq with rfl | hq
        · unfold gamsOf at hg
          cases hx : find f q with
          | none => rw [hx] at hg; cases hg
          | some v => exact find_paths f q v hx
        · exact threadGams_some f ps b ht q hq

/-! ## The table -/

/-- What was added: function, state and thread. -/
private abbrev Event := Path × String × String

private def occ (evs : List Event) (g : Path) (s : String) : List String :=
  (evs.filter fun e => e.1 = g ∧ e.2.1 = s).map (·.2.2)

private theorem occ_append (a b : List Event) (g : Path) (s : String) : occ (a ++ b) g s = occ a g s ++ occ b g s := by
  simp [occ]

private def Rel (check : Bool) (tbl : Table) (evs : List Event) : Prop :=
  ∀ g s, (check = true → (occ evs g s = [] → tbl g s = []) ∧ ∀ t ∈ occ evs g s, tbl g s = [t]) ∧ (check = false → tbl g s = occ evs g s)

private def Uniform (evs : List Event) : Prop := ∀ g s, ∀ a ∈ occ evs g s, ∀ b ∈ occ evs g s, a = b

private theorem rel_uniform (tbl : Table) (evs : List Event) (h : Rel true tbl evs) : Uniform evs := by
  intro g s a ha b hb
  have h1 := ((h g s).1 rfl).2 a ha
  have h2 := ((h g s).1 rfl).2 b hb
  rw [h1] at h2
  simpa using h2

private theorem occ_one (e : Event) (g : Path) (s : String) : occ [e] g s = if e.1 = g ∧ e.2.1 = s then [e.2.2] else [] := by
  unfold occ
  by_cases h : e.1 = g ∧ e.2.1 = s
  · simp [h]
  · rw [if_neg h, List.filter_cons_of_neg (by simpa using h)]; rfl

private theorem rel_empty (check : Bool) (tbl : Table) (evs : List Event) (h : Rel check tbl evs) (g : Path) (s : String) :
    tbl g s = [] ↔ occ evs g s = [] := by
  cases check with
  | false => rw [(h g s).2 rfl]
  | true =>
    refine ⟨fun he => ?_, ((h g s).1 rfl).1⟩
    cases ho : occ evs g s with
    | nil => rfl
    | cons t ts =>
      have := ((h g s).1 rfl).2 t (by rw [ho]; exact List.mem_cons_self)
      rw [he] at this; cases this

private theorem add_rel (check : Bool) (s th : String) (g : Path) (tbl tbl' : Table) (evs : List Event) (hr : Rel check tbl evs)
    (h : addThread check s th g tbl = some tbl') : Rel check tbl' (evs ++ [(g, s, th)]) := by
  unfold addThread at h
  intro g' s'
  rw [occ_append, occ_one]
  by_cases hg : g = g' ∧ s = s'
  · obtain ⟨rfl, rfl⟩ := hg
    rw [if_pos ⟨rfl, rfl⟩]
    split at h
    · rename_i he
      simp only [Option.some.injEq] at h
      have ho := (rel_empty check tbl evs hr g s).mp he
      rw [ho, ← h]
      simp [put]
    · rename_i hne
      split at h
      · rename_i hc
        split at h
        · rename_i ht
          simp only [Option.some.injEq] at h
          subst h
          subst hc
          refine ⟨fun _ => ⟨by simp, ?_⟩, by simp⟩
          intro t hx
          rcases List.mem_append.mp hx with hx | hx
          · exact ((hr g s).1 rfl).2 t hx
          · rw [List.mem_singleton] at hx; rw [hx]; exact ht
        · cases h
      · rename_i hc
        simp only [Option.some.injEq] at h
        subst h
        refine ⟨fun e => absurd e hc, fun e => ?_⟩
        show put tbl g s (tbl g s ++ [th]) g s = _
        rw [(hr g s).2 e]
        simp [put]
  · rw [if_neg hg, List.append_nil]
    have hsame : tbl' g' s' = tbl g' s' := by
      have hp : ∀ ts, put tbl g s ts g' s' = tbl g' s' := by
        intro ts
        unfold put
        rw [if_neg (fun e => hg ⟨e.1.symm, e.2.symm⟩)]
      split at h
      · simp only [Option.some.injEq] at h; rw [← h, hp]
      · split at h
        · split at h
          · simp only [Option.some.injEq] at h; rw [h]
          · cases h
        · simp only [Option.some.injEq] at h; rw [← h, hp]
    rw [hsame]
    exact hr g' s'

private theorem add_ok (check : Bool) (s th : String) (g : Path) (tbl : Table) (evs : List Event) (hr : Rel check tbl evs)
    (hu : check = true → ∀ t ∈ occ evs g s, t = th) : ∃ tbl', addThread check s th g tbl = some tbl' := by
  unfold addThread
  by_cases he : tbl g s = []
  · exact ⟨_, if_pos he⟩
  · rw [if_neg he]
    cases check with
    | false => exact ⟨_, rfl⟩
    | true =>
      cases ho : occ evs g s with
      | nil => exact absurd (((hr g s).1 rfl).1 ho) he
      | cons t ts =>
        have hm : t ∈ occ evs g s := by rw [ho]; exact List.mem_cons_self
        have h1 := ((hr g s).1 rfl).2 t hm
        rw [hu rfl t hm] at h1
        exact ⟨tbl, by rw [if_pos rfl, if_pos h1]⟩

private theorem addGams_rel (check : Bool) (s th : String) : ∀ (L : List (Path × Nat)) (tbl tbl' : Table) (evs : List Event),
    Rel check tbl evs → addGams check s th L tbl = some tbl' → Rel check tbl' (evs ++ L.map fun x => (x.1, s, th))
  | [], tbl, tbl', evs, hr, h => by
    simp only [addGams, Option.some.injEq] at h
    subst h
    simpa using hr
  | (g, k) :: L, tbl, tbl', evs, hr, h => by
    rw [addGams] at h
    cases ha : addThread check s th g tbl with
    | none => rw [ha] at h; cases h
    | some t1 =>
      rw [ha] at h
      have := addGams_rel check s th L t1 tbl' _ (add_rel check s th g tbl t1 evs hr ha) h
      simpa [List.append_assoc] using this

private theorem addGams_ok (check : Bool) (s th : String) : ∀ (L : List (Path × Nat)) (tbl : Table) (evs : List Event),
    Rel check tbl evs → (check = true → Uniform (evs ++ L.map fun x => (x.1, s, th))) → ∃ tbl', addGams check s th L tbl = some tbl'
  | [], tbl, evs, hr, hu => ⟨tbl, rfl⟩
  | (g, k) :: L, tbl, evs, hr, hu => by
    have hu1 : check = true → ∀ t ∈ occ evs g s, t = th := by
      intro hc t ht
      refine hu hc g s t ?_ th ?_
      · rw [occ_append]; exact List.mem_append_left _ ht
      · rw [occ_append]
        refine List.mem_append_right _ ?_
        simp [occ]
    obtain ⟨t1, ha⟩ := add_ok check s th g tbl evs hr hu1
    obtain ⟨t2, hb⟩ := addGams_ok check s th L t1 (evs ++ [(g, s, th)]) (add_rel check s th g tbl t1 evs hr ha)
      (by intro hc; have := hu hc; simpa [List.append_assoc] using this)
    exact ⟨t2, by rw [addGams, ha]; exact hb⟩

/-! ## Threads and states -/

private def evsT (fns : Forest) (s : String) (t : Thread) : List Event := (executes fns t).map fun x => (x.1, s, t.name)

private def Fine (fns : Forest) (t : Thread) : Prop := (∀ p ∈ t.functions, p ∈ paths fns) ∧ ((executes fns t).map (·.2)).sum ≤ 1

private theorem threads_sound (check : Bool) (fns : Forest) (hD : Distinct fns) (s : String) : ∀ (ts : List Thread) (tbl tbl' : Table) (evs : List Event),
    Rel check tbl evs → resolveThreads check fns s (ts.map some) tbl = .ok tbl' →
      Rel check tbl' (evs ++ ts.flatMap (evsT fns s)) ∧ ∀ t ∈ ts, Fine fns t
  | [], tbl, tbl', evs, hr, h => by
    simp only [List.map_nil, resolveThreads, Outcome.ok.injEq] at h
    subst h
    simpa using hr
  | t :: ts, tbl, tbl', evs, hr, h => by
    rw [List.map_cons, resolveThreads] at h
    cases hg : threadGams fns t.functions with
    | none => rw [hg] at h; cases h
    | some gs =>
      have hp := threadGams_some fns t.functions gs hg
      have he : gs = executes fns t := by
        have := threadGams_ok fns hD t.functions hp
        rw [hg] at this
        exact Option.some.inj this
      subst he
      rw [hg] at h
      simp only at h
      cases ha : addGams check s t.name (executes fns t) tbl with
      | none => rw [ha] at h; cases h
      | some t1 =>
        rw [ha] at h
        simp only at h
        split at h
        · rename_i hs
          have h1 := addGams_rel check s t.name (executes fns t) tbl t1 evs hr ha
          obtain ⟨h2, h3⟩ := threads_sound check fns hD s ts t1 tbl' _ h1 h
          refine ⟨by simpa [List.append_assoc, evsT] using h2, ?_⟩
          intro x hx
          rcases List.mem_cons.mp hx with rfl | hx
          · exact ⟨hp, hs⟩
          · exact h3 x hx
        · cases h

private theorem threads_complete (check : Bool) (fns : Forest) (hD : Distinct fns) (s : String) : ∀ (ts : List Thread) (tbl : Table) (evs : List Event),
    Rel check tbl evs → (∀ t ∈ ts, Fine fns t) → (check = true → Uniform (evs ++ ts.flatMap (evsT fns s))) →
      ∃ tbl', resolveThreads check fns s (ts.map some) tbl = .ok tbl'
  | [], tbl, evs, hr, hf, hu => ⟨tbl, rfl⟩
  | t :: ts, tbl, evs, hr, hf, hu => by
    have ht := hf t List.mem_cons_self
    have hu0 : ∀ a b : List Event, Uniform (a ++ b) → Uniform a := by
      intro a b h g s x hx y hy
      exact h g s x (by rw [occ_append]; exact List.mem_append_left _ hx) y (by rw [occ_append]; exact List.mem_append_left _ hy)
    have hu1 : check = true → Uniform (evs ++ evsT fns s t) := by
      intro hc
      have := hu hc
      rw [List.flatMap_cons, ← List.append_assoc] at this
      exact hu0 _ _ this
    obtain ⟨t1, ha⟩ := addGams_ok check s t.name (executes fns t) tbl evs hr hu1
    have h1 := addGams_rel check s t.name (executes fns t) tbl t1 evs hr ha
    obtain ⟨t2, hb⟩ := threads_complete check fns hD s ts t1 (evs ++ evsT fns s t) h1 (fun x hx => hf x (List.mem_cons_of_mem _ hx))
      (by intro hc; have := hu hc; rwa [List.flatMap_cons, ← List.append_assoc] at this)
    refine ⟨t2, ?_⟩
    rw [List.map_cons, resolveThreads, threadGams_ok fns hD t.functions ht.1]
    show (match addGams check s t.name (executes fns t) tbl with
      | none => Outcome.refused
      | some tbl => if syncs (executes fns t) ≤ 1 then resolveThreads check fns s (ts.map some) tbl else .refused) = _
    rw [ha]
    show (if syncs (executes fns t) ≤ 1 then resolveThreads check fns s (ts.map some) t1 else .refused) = _
    rw [if_pos (show syncs (executes fns t) ≤ 1 from ht.2), hb]

private theorem wf_threads (n : Nat) (st : State) (h : WellFormed n st) :
    threadsOf n st = some ((threads st).map some) ∧ ((st.kids.find? fun k => k.1 = "Threads").bind (·.2)) = some ((threads st).map some) := by
  obtain ⟨b, ts, a, hk, hl, hb, ha⟩ := h
  have e : threads st = ts := by
    unfold threads
    rw [hk, List.filter_append, List.filter_eq_nil_iff.mpr (by simpa using hb), List.filter_cons_of_pos (by simp),
      List.filter_eq_nil_iff.mpr (by simpa using ha)]
    simp [List.filterMap_map]
  rw [e]
  constructor
  · unfold threadsOf
    have : (st.kids.take n).find? (fun k => k.1 = "Threads" && k.2.isSome) = some ("Threads", some (ts.map some)) := by
      rw [hk, List.take_append, List.find?_append]
      have h0 : (b.take n).find? (fun k => k.1 = "Threads" && k.2.isSome) = none := by
        rw [List.find?_eq_none]
        intro x hx
        simp [hb x (List.mem_of_mem_take hx)]
      rw [h0]
      obtain ⟨m, hm⟩ : ∃ m, n - b.length = m + 1 := ⟨n - b.length - 1, by omega⟩
      rw [hm, List.take_succ_cons]
      simp
    rw [this]; rfl
  · have : st.kids.find? (fun k => k.1 = "Threads") = some ("Threads", some (ts.map some)) := by
      rw [hk, List.find?_append]
      have h0 : b.find? (fun k => k.1 = "Threads") = none := by
        rw [List.find?_eq_none]
        intro x hx
        simp [hb x hx]
      rw [h0]; simp
    rw [this]; rfl

private def evsS (fns : Forest) (st : State) : List Event := (threads st).flatMap (evsT fns st.name)

private theorem states_sound (n : Nat) (check : Bool) (fns : Forest) (hD : Distinct fns) : ∀ (sts : List State) (tbl tbl' : Table) (evs : List Event),
    (∀ st ∈ sts, WellFormed n st) → Rel check tbl evs → resolveStates n check fns sts tbl = .ok tbl' →
      Rel check tbl' (evs ++ sts.flatMap (evsS fns)) ∧ ∀ st ∈ sts, Sound fns st
  | [], tbl, tbl', evs, _, hr, h => by
    simp only [resolveStates, Outcome.ok.injEq] at h
    subst h
    simpa using hr
  | st :: sts, tbl, tbl', evs, hw, hr, h => by
    rw [resolveStates, (wf_threads n st (hw st List.mem_cons_self)).1] at h
    simp only at h
    cases ha : resolveThreads check fns st.name ((threads st).map some) tbl with
    | refused => rw [ha] at h; cases h
    | crash => rw [ha] at h; cases h
    | ok t1 =>
      rw [ha] at h
      obtain ⟨h1, h2⟩ := threads_sound check fns hD st.name (threads st) tbl t1 evs hr ha
      obtain ⟨h3, h4⟩ := states_sound n check fns hD sts t1 tbl' _ (fun x hx => hw x (List.mem_cons_of_mem _ hx)) h1 h
      refine ⟨by simpa [List.append_assoc, evsS] using h3, ?_⟩
      intro x hx
      rcases List.mem_cons.mp hx with rfl | hx
      · exact h2
      · exact h4 x hx

private theorem states_complete (n : Nat) (check : Bool) (fns : Forest) (hD : Distinct fns) : ∀ (sts : List State) (tbl : Table) (evs : List Event),
    (∀ st ∈ sts, WellFormed n st) → Rel check tbl evs → (∀ st ∈ sts, Sound fns st) → (check = true → Uniform (evs ++ sts.flatMap (evsS fns))) →
      ∃ tbl', resolveStates n check fns sts tbl = .ok tbl'
  | [], tbl, evs, _, hr, _, _ => ⟨tbl, rfl⟩
  | st :: sts, tbl, evs, hw, hr, hs, hu => by
    have hu0 : ∀ a b : List Event, Uniform (a ++ b) → Uniform a := by
      intro a b h g s x hx y hy
      exact h g s x (by rw [occ_append]; exact List.mem_append_left _ hx) y (by rw [occ_append]; exact List.mem_append_left _ hy)
    obtain ⟨t1, ha⟩ := threads_complete check fns hD st.name (threads st) tbl evs hr (hs st List.mem_cons_self) (by
      intro hc
      have := hu hc
      rw [List.flatMap_cons, ← List.append_assoc] at this
      exact hu0 _ _ this)
    obtain ⟨h1, -⟩ := threads_sound check fns hD st.name (threads st) tbl t1 evs hr ha
    obtain ⟨t2, hb⟩ := states_complete n check fns hD sts t1 _ (fun x hx => hw x (List.mem_cons_of_mem _ hx)) h1
      (fun x hx => hs x (List.mem_cons_of_mem _ hx)) (by
        intro hc
        have := hu hc
        rwa [List.flatMap_cons, ← List.append_assoc] at this)
    refine ⟨t2, ?_⟩
    rw [resolveStates, (wf_threads n st (hw st List.mem_cons_self)).1]
    simp only
    rw [ha]
    exact hb

private theorem configure_threads (fns : Forest) (hD : Distinct fns) : ∀ (ts : List Thread), (∀ t ∈ ts, Fine fns t) →
    configureThreads fns (ts.map some) = .ok ()
  | [], _ => rfl
  | t :: ts, h => by
    rw [List.map_cons, configureThreads, threadGams_ok fns hD t.functions (h t List.mem_cons_self).1]
    exact configure_threads fns hD ts fun x hx => h x (List.mem_cons_of_mem _ hx)

private theorem configure_ok (n : Nat) (fns : Forest) (hD : Distinct fns) : ∀ (sts : List State), (∀ st ∈ sts, WellFormed n st) →
    (∀ st ∈ sts, Sound fns st) → configure fns sts = .ok ()
  | [], _, _ => rfl
  | st :: sts, hw, hs => by
    rw [configure, (wf_threads n st (hw st List.mem_cons_self)).2]
    simp only
    rw [configure_threads fns hD (threads st) (hs st List.mem_cons_self)]
    exact configure_ok n fns hD sts (fun x hx => hw x (List.mem_cons_of_mem _ hx)) fun x hx => hs x (List.mem_cons_of_mem _ hx)

private theorem occ_evsS (fns : Forest) (st : State) (g : Path) (s : String) :
    occ (evsS fns st) g s = if st.name = s then executors fns st g else [] := by
  unfold evsS executors
  induction threads st with
  | nil => simp [occ]
  | cons t ts ih =>
    rw [List.flatMap_cons, occ_append, ih, List.flatMap_cons]
    have : occ (evsT fns st.name t) g s = if st.name = s then ((executes fns t).filter fun x => x.1 = g).map fun _ => t.name else [] := by
      unfold evsT occ
      rw [List.filter_map, List.map_map]
      by_cases hs : st.name = s
      · rw [if_pos hs]
        have : ((fun e : Event => decide (e.1 = g ∧ e.2.1 = s)) ∘ fun x : Path × Nat => (x.1, st.name, t.name)) = fun x => decide (x.1 = g) := by
          funext x; simp [hs]
        rw [this]; rfl
      · rw [if_neg hs]
        have : ((fun e : Event => decide (e.1 = g ∧ e.2.1 = s)) ∘ fun x : Path × Nat => (x.1, st.name, t.name)) = fun x => false := by
          funext x; simp [hs]
        rw [this]
        simp
    rw [this]
    by_cases hs : st.name = s <;> simp [hs]

private theorem occ_none (fns : Forest) (g : Path) (s : String) : ∀ (sts : List State), s ∉ sts.map (·.name) → occ (sts.flatMap (evsS fns)) g s = []
  | [], _ => rfl
  | st :: sts, h => by
    rw [List.map_cons, List.mem_cons, not_or] at h
    rw [List.flatMap_cons, occ_append, occ_evsS, if_neg (fun e => h.1 e.symm), occ_none fns g s sts h.2]
    rfl

private theorem occ_all (fns : Forest) (g : Path) : ∀ (sts : List State), (sts.map (·.name)).Nodup → ∀ st ∈ sts,
    occ (sts.flatMap (evsS fns)) g st.name = executors fns st g
  | [], _, st, h => by cases h
  | x :: sts, hn, st, h => by
    rw [List.map_cons, List.nodup_cons] at hn
    rw [List.flatMap_cons, occ_append, occ_evsS]
    rcases List.mem_cons.mp h with rfl | h
    · rw [if_pos rfl, occ_none fns g _ sts hn.1, List.append_nil]
    · have : x.name ≠ st.name := fun e => hn.1 (e ▸ List.mem_map.mpr ⟨st, h, rfl⟩)
      rw [if_neg this, List.nil_append, occ_all fns g sts hn.2 st h]

private theorem rel_nil (check : Bool) : Rel check (fun _ _ => []) [] := by intro g s; simp [occ]

private theorem resolve_ok (n : Nat) (check : Bool) (fns : Forest) (states : List State) (tbl : Table) (h : resolve n check fns states = .ok tbl) :
    resolveStates n check fns states (fun _ _ => []) = .ok tbl := by
  unfold resolve at h
  split at h
  · exact h
  · cases h
  · cases h

/-- **C114.** The states are resolved if and only if all functions of their threads exist, no thread waits for more than one signal
and, unless that check is disabled, no function is executed by two threads of the same state. -/
theorem c114_accepted_iff_partial (n : Nat) (check : Bool) (fns : Forest) (hD : Distinct fns) (states : List State)
    (hw : ∀ st ∈ states, WellFormed n st) (hn : (states.map (·.name)).Nodup) :
    (∃ tbl, resolve n check fns states = .ok tbl) ↔ ∀ st ∈ states, Sound fns st ∧ (check = true → Exclusive fns st) := by
  constructor
  · rintro ⟨tbl, h⟩ st hst
    obtain ⟨h1, h2⟩ := states_sound n check fns hD states _ tbl [] hw (rel_nil check) (resolve_ok _ _ _ _ _ h)
    refine ⟨h2 st hst, ?_⟩
    intro hc g a ha b hb
    subst hc
    rw [List.nil_append] at h1
    have := rel_uniform tbl _ h1 g st.name
    rw [occ_all fns g states hn st hst] at this
    exact this a ha b hb
  · intro h
    have hs : ∀ st ∈ states, Sound fns st := fun st hst => (h st hst).1
    obtain ⟨t, ht⟩ := states_complete n check fns hD states _ [] hw (rel_nil check) hs (by
      intro hc g s a ha b hb
      rw [List.nil_append] at ha hb
      by_cases hx : s ∈ states.map (·.name)
      · obtain ⟨st, hst, rfl⟩ := List.mem_map.mp hx
        rw [occ_all fns g states hn st hst] at ha hb
        exact (h st hst).2 hc g a ha b hb
      · rw [occ_none fns g s states hx] at ha; cases ha)
    exact ⟨t, by unfold resolve; rw [configure_ok n fns hD states hw hs]; exact ht⟩

/-- **C114.** After that each function has for each state the thread that executes it (all of them, once for each time, if the check
is disabled), and none if no thread executes it. -/
theorem c114_threads (n : Nat) (check : Bool) (fns : Forest) (hD : Distinct fns) (states : List State) (hw : ∀ st ∈ states, WellFormed n st)
    (hn : (states.map (·.name)).Nodup) (tbl : Table) (h : resolve n check fns states = .ok tbl) (st : State) (hst : st ∈ states) (g : Path) :
    (check = true → (executors fns st g = [] → tbl g st.name = []) ∧ ∀ t ∈ executors fns st g, tbl g st.name = [t]) ∧
    (check = false → tbl g st.name = executors fns st g) := by
  obtain ⟨h1, -⟩ := states_sound n check fns hD states _ tbl [] hw (rel_nil check) (resolve_ok _ _ _ _ _ h)
  rw [List.nil_append] at h1
  have := h1 g st.name
  rwa [occ_all fns g states hn st hst] at this

/-- **C114.** No state is added that the application does not have. -/
theorem c114_no_other (n : Nat) (check : Bool) (fns : Forest) (hD : Distinct fns) (states : List State) (hw : ∀ st ∈ states, WellFormed n st)
    (tbl : Table) (h : resolve n check fns states = .ok tbl) (s : String) (hs : s ∉ states.map (·.name)) (g : Path) : tbl g s = [] := by
  obtain ⟨h1, -⟩ := states_sound n check fns hD states _ tbl [] hw (rel_nil check) (resolve_ok _ _ _ _ _ h)
  rw [List.nil_append] at h1
  rw [rel_empty check tbl _ h1 g s, occ_none fns g s states hs]

/-- **C114 (refuted).** An application with a state without threads is not refused: a null pointer is used. -/
theorem c114_no_threads_fails (n : Nat) (check : Bool) (fns : Forest) (st : State) (others : List State) (h : ∀ k ∈ st.kids, k.1 ≠ "Threads") :
    resolve n check fns (st :: others) = .crash := by
  unfold resolve configure
  have : st.kids.find? (fun k => k.1 = "Threads") = none := by
    rw [List.find?_eq_none]
    intro x hx
    simp [h x hx]
  rw [this]
  rfl

/-- **C114 (refuted).** A state that contains as many objects before its threads as the application is refused, whatever its
threads are. -/
theorem c114_position_fails (n : Nat) (check : Bool) (fns : Forest) (name : String) (before after : List (String × Option (List (Option Thread))))
    (ts : List Thread) (hb : ∀ k ∈ before, k.1 ≠ "Threads") (hl : n ≤ before.length) (tbl : Table) :
    resolve n check fns [⟨name, before ++ ("Threads", some (ts.map some)) :: after⟩] ≠ .ok tbl := by
  intro h
  have := resolve_ok _ _ _ _ _ h
  rw [resolveStates] at this
  have e : threadsOf n ⟨name, before ++ ("Threads", some (ts.map some)) :: after⟩ = none := by
    unfold threadsOf
    have : ((before ++ ("Threads", some (ts.map some)) :: after).take n).find? (fun k => k.1 = "Threads" && k.2.isSome) = none := by
      rw [List.take_append_of_le_length hl, List.find?_eq_none]
      intro x hx
      simp [hb x (List.mem_of_mem_take hx)]
    rw [this]; rfl
  rw [e] at this
  cases this

/-- The same functions: accepted with each in one thread, refused with one of them in both threads, unless the check is disabled. -/
example : ∃ fns, ∃ one two : State,
    (match resolve 4 true fns [one] with | .ok t => t ["G", "A"] "S" | _ => []) = ["T1"] ∧
    (match resolve 4 true fns [two] with | .refused => true | _ => false) = true ∧
    (match resolve 4 false fns [two] with | .ok t => t ["C"] "S" | _ => []) = ["T1", "T2"] :=
  ⟨.cons "G" false 0 (.cons "A" true 1 .nil (.cons "B" true 0 .nil .nil)) (.cons "C" true 0 .nil .nil),
    ⟨"S", [("Threads", some [some ⟨"T1", [["G"]]⟩, some ⟨"T2", [["C"]]⟩])]⟩,
    ⟨"S", [("Threads", some [some ⟨"T1", [["G"], ["C"]]⟩, some ⟨"T2", [["C"]]⟩])]⟩, by decide, by decide, by decide⟩

/-- A group of two functions in one thread and another function in a second thread meet the hypotheses. -/
example : ∃ fns st, Distinct fns ∧ WellFormed 4 st ∧ Sound fns st ∧ Exclusive fns st ∧ executors fns st ["G", "A"] = ["T1"] := by
  refine ⟨.cons "G" false 0 (.cons "A" true 1 .nil (.cons "B" true 0 .nil .nil)) (.cons "C" true 1 .nil .nil),
    ⟨"S", [("Threads", some [some ⟨"T1", [["G"]]⟩, some ⟨"T2", [["C"]]⟩])]⟩, ?_, ?_, ?_, ?_, by decide⟩
  · simp [Distinct, roots]
  · exact ⟨[], [⟨"T1", [["G"]]⟩, ⟨"T2", [["C"]]⟩], [], rfl, by decide, by simp, by simp⟩
  · unfold Sound; decide
  · intro g a ha b hb
    have : executors (.cons "G" false 0 (.cons "A" true 1 .nil (.cons "B" true 0 .nil .nil)) (.cons "C" true 1 .nil .nil))
      ⟨"S", [("Threads", some [some ⟨"T1", [["G"]]⟩, some ⟨"T2", [["C"]]⟩])]⟩ g =
        (if (["G", "A"] : Path) = g then ["T1"] else []) ++ (if (["G", "B"] : Path) = g then ["T1"] else []) ++ (if (["C"] : Path) = g then ["T2"] else []) := by
      simp only [executors, threads, executes, gams]
      by_cases h1 : (["G", "A"] : Path) = g
      · subst h1; decide
      · by_cases h2 : (["G", "B"] : Path) = g
        · subst h2; decide
        · by_cases h3 : (["C"] : Path) = g
          · subst h3; decide
          · simp [h1, h2, h3]
    rw [this] at ha hb
    by_cases h1 : (["G", "A"] : Path) = g
    · subst h1; simp at ha hb; rw [ha, hb]
    · by_cases h2 : (["G", "B"] : Path) = g
      · subst h2; simp at ha hb; rw [ha, hb]
      · simp [h1, h2] at ha hb; rw [ha.2, hb.2]

end Verif.AppStates
