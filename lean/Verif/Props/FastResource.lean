import Verif.Proof.FastResource3

namespace Verif.FastResource
open Verif.Spec.FastResource

/-- **C23 exclusive use.**  For any number of elements, threads and any interleaving in which only owners return
elements: `Take` only hands out elements of the container that nobody owns, and no element outside the container is ever
accessed. -/
theorem c23_exclusive (threads n : Nat) (hn : 0 < n) (es : List Ev)
    (h : Legal (List.range n) (init threads n false) es) :
    Exclusive (List.range n) (run (init threads n false) es).trace ∧ (run (init threads n false) es).bad = false := by
  have hi := inv_legal (inv_init threads n hn) es h
  have he : (run (init threads n false) es).n = n := (run_n (init threads n false) es).1
  have := hi.exc
  rw [he] at this
  exact ⟨this, hi.bad⟩

/-- **C23 size.**  While no call is in progress `GetSize` is the number of elements nobody owns. -/
theorem c23_size (threads n : Nat) (hn : 0 < n) (es : List Ev)
    (h : Legal (List.range n) (init threads n false) es)
    (hq : ∀ (u : Nat) (pc : PC), (run (init threads n false) es).pcs[u]? = some pc → pc = .idle) :
    getSize (run (init threads n false) es) =
      (freeAfter (List.range n) (run (init threads n false) es).trace).length := by
  have hi := inv_legal (inv_init threads n hn) es h
  have he : (run (init threads n false) es).n = n := (run_n (init threads n false) es).1
  generalize run (init threads n false) es = s at *
  subst he
  have h1 : adjSum s.pcs 0 = 0 := by
    refine adjSum_zero ?_
    intro p hp
    obtain ⟨u, hu⟩ := List.mem_iff_getElem?.mp hp
    rw [hq u p hu]; rfl
  unfold getSize
  rw [if_neg (by omega), hi.acc, h1]
  have h2 : freeCnt s.n s.L s.sem 0 = ((List.range s.n).filter fun p => !s.sem p).length := by
    rw [freeCnt, List.countP_eq_length_filter]
    congr 1
    refine List.filter_congr ?_
    intro p hp
    have : 0 ∈ chain s.L p := zero_mem_chain (by have := hi.hn; have := List.mem_range.mp hp; omega)
    simp [this]
  have h3 : ((List.range s.n).filter fun p => !s.sem p).Perm (freeAfter (List.range s.n) s.trace) := by
    refine (List.perm_ext_iff_of_nodup (List.nodup_range.sublist List.filter_sublist) hi.nod).mpr ?_
    intro p
    simp only [List.mem_filter, List.mem_range, Bool.not_eq_true']
    constructor
    · rintro ⟨h1, h2⟩; exact hi.free p h1 h2
    · intro hp
      refine ⟨hi.ran p hp, ?_⟩
      cases hs : s.sem p with
      | false => rfl
      | true =>
        obtain ⟨u, pc, hu, hh⟩ := hi.held p hp hs
        rw [hq u pc hu] at hh
        rcases hh with ⟨_, hh⟩ | hh <;> cases hh
  rw [h2, h3.length_eq]; simp

/-- **C23 size** of a list of no elements. -/
theorem c23_size_none (threads : Nat) (es : List Ev) : getSize (run (init threads 0 false) es) = 0 := by
  unfold getSize
  rw [if_pos (show (run (init threads 0 false) es).n = 0 from (run_n (init threads 0 false) es).1)]

/-- **C23 wait freedom.**  A `Take` returns after a number of its own steps that depends only on the number of elements,
whatever the other threads do in between. -/
theorem c23_take_returns (threads n : Nat) (hn : 0 < n) (es es' : List Ev) (t : Nat)
    (h : Legal (List.range n) (init threads n false) (es ++ .take t :: es'))
    (ht : (run (init threads n false) es).pcs[t]? = some .idle)
    (hcalls : ∀ e ∈ es', e.thread = t → e = .run t)
    (hsteps : 5 * 2 ^ levels n + levels n ≤ es'.count (.run t)) :
    (run (init threads n false) (es ++ .take t :: es')).pcs[t]? = some .idle := by
  obtain ⟨h1, h2⟩ := (legal_append _ _ _ _).mp h
  have hi := inv_legal (inv_init threads n hn) es h1
  obtain ⟨hsn, hsL⟩ := run_n (init threads n false) es
  have hr : run (init threads n false) (es ++ .take t :: es') =
      run (step (run (init threads n false) es) (.take t)) es' := by simp [run]
  rw [hr]
  generalize run (init threads n false) es = s at *
  have hst : step s (.take t) = s.goto t .start := by simp only [step, ht]
  obtain ⟨hn2, hL2⟩ := step_n s (.take t)
  have hi' : Inv (step s (.take t)) := inv_step hi _ (by exact trivial)
  have hsn' : s.n = n := hsn
  have hsL' : s.L = levels n := hsL
  refine rem_run es' t hi' ?_ (q := .start) ?_ hcalls ?_
  · rw [hn2, hsn']; exact h2.2
  · rw [hst]; exact get_self ht _
  · rw [hL2, hsL']
    have := full_eq (levels n)
    simp only [PC.rem]; omega

/-- **C23 availability, with concurrent `Take`s.**  When no `Return` overlaps it, a `Take` fails only if every element is
owned or has already been obtained by another `Take` that is about to return it. -/
theorem c23_take_fails_only_if_empty (threads n : Nat) (hn : 0 < n) (es es' : List Ev) (t : Nat)
    (h : Legal (List.range n) (init threads n false) (es ++ .take t :: es'))
    (ht : (run (init threads n false) es).pcs[t]? = some .idle)
    (hnoret : ∀ (u : Nat) (pc : PC), (run (init threads n false) es).pcs[u]? = some pc →
      (∀ p, pc ≠ .giving p) ∧ (∀ todo, pc ≠ .inc todo))
    (hes' : ∀ e ∈ es', ∀ u p, e ≠ .give u p) (hcalls : ∀ e ∈ es', e.thread = t → e = .run t)
    (tr : List Obs) (htr : (run (init threads n false) (es ++ .take t :: es')).trace =
      (run (init threads n false) es).trace ++ tr) (hfail : .failed t ∈ tr) :
    ∀ p ∈ freeAfter (List.range n) (run (init threads n false) (es ++ .take t :: es')).trace,
      ∃ (u : Nat) (todo : List Nat), (run (init threads n false) (es ++ .take t :: es')).pcs[u]? = some (.dec p todo) := by
  obtain ⟨h1, h2⟩ := (legal_append _ _ _ _).mp h
  have hi := inv_legal (inv_init threads n hn) es h1
  have hfin := inv_legal (inv_init threads n hn) _ h
  obtain ⟨hsn, hsL⟩ := run_n (init threads n false) es
  have hfn : (run (init threads n false) (es ++ .take t :: es')).n = n := (run_n _ _).1
  have hr : run (init threads n false) (es ++ .take t :: es') =
      run (step (run (init threads n false) es) (.take t)) es' := by simp [run]
  rw [hr] at htr hfin hfn ⊢
  generalize run (init threads n false) es = s at *
  have hst : step s (.take t) = s.goto t .start := by simp only [step, ht]
  obtain ⟨hn2, hL2⟩ := step_n s (.take t)
  have hi' : Inv (step s (.take t)) := inv_step hi _ (by exact trivial)
  have hsn' : s.n = n := hsn
  have hnr := noReturn_step hnoret (.take t) (by simp)
  have hl' : Legal (List.range (step s (.take t)).n) (step s (.take t)) es' := by rw [hn2, hsn']; exact h2.2
  intro p hp
  rw [← hfn] at hp
  have hpn := hfin.ran p hp
  cases hs : (run (step s (.take t)) es').sem p with
  | false =>
    exfalso
    obtain ⟨tr', e1, e2⟩ := no_failure es' t p hi' hl' hnr.1 hes' (by rw [hn2, hsn']; rw [hfn] at hpn; exact hpn) (q := .start)
      (by rw [hst]; exact get_self ht _) (Or.inr trivial) hcalls hs
    rw [hst] at e1 htr
    rw [e1] at htr
    have : tr' = tr := List.append_cancel_left htr
    subst this
    exact e2 _ hfail rfl
  | true =>
    obtain ⟨u, pc, hu, hh⟩ := hfin.held p hp hs
    rcases hh with ⟨todo, rfl⟩ | rfl
    · exact ⟨u, todo, hu⟩
    · exfalso
      have : ∀ (es : List Ev) (s : State), NoReturn s → (∀ e ∈ es, ∀ u i, e ≠ .give u i) → NoReturn (run s es) := by
        intro es
        induction es with
        | nil => intro s h _; exact h
        | cons e es ih =>
          intro s h he
          exact ih _ (noReturn_step h e (he e List.mem_cons_self)).1 fun e he' => he e (List.mem_cons_of_mem _ he')
      exact (this es' _ hnr.1 hes' u _ hu).1 p rfl

/-- **C23 sequential use.**  A `Take` that is not disturbed succeeds if and only if an element is free. -/
theorem c23_take_alone (threads n : Nat) (hn : 0 < n) (es : List Ev) (t : Nat)
    (h : Legal (List.range n) (init threads n false) es)
    (hq : ∀ (u : Nat) (pc : PC), (run (init threads n false) es).pcs[u]? = some pc → pc = .idle)
    (ht : t < threads) (N : Nat) (hN : 5 * 2 ^ levels n + levels n ≤ N) :
    let s := run (init threads n false) es
    let s' := run (init threads n false) (es ++ .take t :: List.replicate N (.run t))
    (freeAfter (List.range n) s.trace ≠ [] → ∃ p ∈ freeAfter (List.range n) s.trace, s'.trace = s.trace ++ [.took t p]) ∧
      (freeAfter (List.range n) s.trace = [] → s'.trace = s.trace ++ [.failed t]) := by
  intro s s'
  have hlen : ∀ (es : List Ev) (s : State), (run s es).pcs.length = s.pcs.length := by
    intro es
    induction es with
    | nil => intro s; rfl
    | cons e es ih =>
      intro s
      rw [show run s (e :: es) = run (step s e) es from rfl, ih]
      cases e <;> simp only [step, bodyStep, State.goto, State.emit, State.touch] <;> (repeat' split) <;>
        simp only [List.length_set]
  have hti : s.pcs[t]? = some .idle := by
    have : t < s.pcs.length := by rw [hlen]; simp [init, ht]
    rw [List.getElem?_eq_getElem this]
    exact congrArg some (hq t _ (List.getElem?_eq_getElem this))
  have hn2 : s.n = n := (run_n _ _).1
  have hi : Inv s := inv_legal (inv_init threads n hn) es h
  have hlr : ∀ (N : Nat) (s : State), Legal (List.range n) s (List.replicate N (.run t)) := by
    intro N
    induction N with
    | zero => intro s; trivial
    | succ N ih => intro s; exact ⟨trivial, ih _⟩
  have hl : Legal (List.range n) (init threads n false) (es ++ .take t :: List.replicate N (.run t)) :=
    (legal_append _ _ _ _).mpr ⟨h, trivial, hlr _ _⟩
  have hcalls : ∀ e ∈ List.replicate N (Ev.run t), e.thread = t → e = .run t := fun e he _ => List.eq_of_mem_replicate he
  have hidle := c23_take_returns threads n hn es (List.replicate N (.run t)) t hl hti hcalls (by simpa using hN)
  have hi' : Inv s' := inv_legal (inv_init threads n hn) _ hl
  -- a thread emits exactly one observation between its call and its return
  have hs' : s' = run (step s (.take t)) (List.replicate N (.run t)) := by simp [s', s, run]
  have hone : ∀ (N : Nat) (s : State) (q : PC), At s t q → q ≠ .idle → (∀ p, q ≠ .giving p) → (∀ l, q ≠ .inc l) →
      At (run s (List.replicate N (.run t))) t .idle →
      ∃ o, (run s (List.replicate N (.run t))).trace = s.trace ++ [o] ∧ (o = .failed t ∨ ∃ p, o = .took t p) := by
    intro N
    induction N with
    | zero => intro s q h1 h2 _ _ h3; have h3' : At s t .idle := h3; rw [At, h1] at h3'; cases h3'; exact absurd rfl h2
    | succ N ih =>
      intro s q h1 h2 h2a h2b h3
      rw [List.replicate_succ] at h3 ⊢
      have hstay : ∀ s : State, At s t .idle → run s (List.replicate N (.run t)) = s := by
        intro s hs
        clear ih h3
        induction N with
        | zero => rfl
        | succ N ih => rw [List.replicate_succ, show run s (.run t :: List.replicate N (.run t)) = run (step s (.run t)) (List.replicate N (.run t)) from rfl, step_idle hs]; exact ih
      have key : (∃ q', At (step s (.run t)) t q' ∧ q' ≠ .idle ∧ (∀ p, q' ≠ .giving p) ∧ (∀ l, q' ≠ .inc l) ∧
          (step s (.run t)).trace = s.trace) ∨
          (At (step s (.run t)) t .idle ∧ ∃ o, (step s (.run t)).trace = s.trace ++ [o] ∧ (o = .failed t ∨ ∃ p, o = .took t p)) := by
        have h1' : s.pcs[t]? = some q := h1
        have hbody : ∀ c, ∃ q', At (bodyStep s t c) t q' ∧ q' ≠ .idle ∧ (∀ p, q' ≠ .giving p) ∧ (∀ l, q' ≠ .inc l) ∧
            (bodyStep s t c).trace = s.trace := by
          intro c
          simp only [bodyStep]
          repeat' split
          all_goals exact ⟨_, get_self (l := s.pcs) h1 _, by simp, by simp, by simp, rfl⟩
        cases q with
        | idle => exact absurd rfl h2
        | giving p => exact absurd rfl (h2a p)
        | inc l => exact absurd rfl (h2b l)
        | start =>
          simp only [step, h1']
          repeat' split
          · exact Or.inr ⟨get_self h1 _, _, rfl, Or.inr ⟨_, rfl⟩⟩
          · exact Or.inl ⟨_, get_self h1 _, by simp, by simp, by simp, rfl⟩
          · exact Or.inr ⟨get_self h1 _, _, rfl, Or.inl rfl⟩
        | loop c =>
          simp only [step, h1']
          split
          · exact Or.inr ⟨get_self h1 _, _, rfl, Or.inl rfl⟩
          · split
            · split
              · exact Or.inl ⟨_, get_self (l := s.pcs) h1 _, by simp, by simp, by simp, rfl⟩
              · exact Or.inl ⟨_, get_self (l := s.pcs) h1 _, by simp, by simp, by simp, rfl⟩
            · exact Or.inl (hbody c)
        | body c => simp only [step, h1']; exact Or.inl (hbody c)
        | right c tot =>
          simp only [step, h1']
          split
          all_goals exact Or.inl ⟨_, get_self h1 _, by simp, by simp, by simp, rfl⟩
        | dec p todo =>
          cases todo with
          | nil => simp only [step, h1']; exact Or.inr ⟨get_self h1 _, _, rfl, Or.inr ⟨_, rfl⟩⟩
          | cons a todo => simp only [step, h1']; exact Or.inl ⟨_, get_self (l := s.pcs) h1 _, by simp, by simp, by simp, rfl⟩
      rw [show run s (.run t :: List.replicate N (.run t)) = run (step s (.run t)) (List.replicate N (.run t)) from rfl] at h3 ⊢
      rcases key with ⟨q', k1, k2, k3, k4, k5⟩ | ⟨k1, k2⟩
      · rw [← k5]; exact ih _ q' k1 k2 k3 k4 h3
      · rw [hstay _ k1]; exact k2
  have hst : step s (.take t) = s.goto t .start := by simp only [step, hti]
  have hidle' : At s' t .idle := hidle
  obtain ⟨o, ho1, ho2⟩ := hone N (step s (.take t)) .start (by rw [hst]; exact get_self hti _) (by simp) (by simp) (by simp)
    (by rw [← hs']; exact hidle')
  have ho1' : s'.trace = s.trace ++ [o] := by rw [hs', ho1, hst]; rfl
  have hothers : ∀ (N : Nat) (s : State) u, u ≠ t → (run s (List.replicate N (.run t))).pcs[u]? = s.pcs[u]? := by
    intro N
    induction N with
    | zero => intro s u _; rfl
    | succ N ih =>
      intro s u hu
      rw [List.replicate_succ, show run s (.run t :: List.replicate N (.run t)) = run (step s (.run t)) (List.replicate N (.run t)) from rfl,
        ih _ u hu, step_other _ (by simpa [Ev.thread] using fun e => hu e.symm)]
  have hexc := hi'.exc
  have hn3 : s'.n = n := (run_n _ _).1
  rw [hn3, ho1', exclusive_snoc] at hexc
  constructor
  · intro hne
    rcases ho2 with rfl | ⟨p, rfl⟩
    · exfalso
      obtain ⟨p, hp⟩ := List.exists_mem_of_ne_nil _ hne
      have hfe := c23_take_fails_only_if_empty threads n hn es (List.replicate N (.run t)) t hl hti
        (fun u pc hu => by rw [hq u pc hu]; exact ⟨by simp, by simp⟩)
        (fun e he u p => by rw [List.eq_of_mem_replicate he]; simp) hcalls [.failed t] ho1' (by simp) p
        (by
          show p ∈ freeAfter (List.range n) s'.trace
          rw [ho1', freeAfter_snoc]; exact hp)
      obtain ⟨u, todo, hu⟩ := hfe
      by_cases e : u = t
      · subst e
        have hu' : s'.pcs[u]? = some (.dec p todo) := hu
        rw [hidle'] at hu'; cases hu'
      · have hu' : s'.pcs[u]? = some (.dec p todo) := hu
        rw [hs', hothers N _ u e, step_other _ (by simpa [Ev.thread] using fun e' => e e'.symm)] at hu'
        cases hq u _ hu'
    · exact ⟨p, hexc.2, ho1'⟩
  · intro he
    rcases ho2 with rfl | ⟨p, rfl⟩
    · exact ho1'
    · exfalso
      have := hexc.2
      simp only [he] at this
      cases this

/-- **C23 refuted with a container created `taken`.**  Its elements belong to the caller, but their semaphores are clear:
a `Take` that overlaps another one obtains element 0, which was never returned. -/
theorem c23_taken_container_hands_out_owned :
    ¬ Exclusive [] (run (init 3 2 true) ([.give 0 1] ++ List.replicate 4 (.run 0) ++ [.take 1, .take 2, .run 2] ++
      List.replicate 4 (.run 1) ++ List.replicate 7 (.run 2))).trace ∧
    Legal [] (init 3 2 true) ([.give 0 1] ++ List.replicate 4 (.run 0) ++ [.take 1, .take 2, .run 2] ++
      List.replicate 4 (.run 1) ++ List.replicate 7 (.run 2)) := by decide

/-- **C23 refuted with a concurrent `Return`.**  Element 0 or 1 is free at every moment, but the second `Take` fails: the
element it had seen taken is returned while the other one, which it has not reached yet, is taken. -/
theorem c23_take_fails_with_free_element :
    let es : List Ev := [.take 3] ++ List.replicate 6 (.run 3) ++
      [.take 1, .run 1, .run 1, .take 2, .run 2, .run 2, .give 3 1] ++ List.replicate 4 (.run 3) ++
      List.replicate 5 (.run 1) ++ List.replicate 4 (.run 2)
    Legal (List.range 2) (init 4 2 false) es ∧
    (run (init 4 2 false) es).trace = [.took 3 1, .gave 3 1, .took 1 0, .failed 2] := by decide

/-- **C23 refuted for a container without elements**: `Take` returns index 0. -/
theorem c23_no_elements_takes_zero : (run (init 1 0 false) [.take 0, .run 0]).trace = [.took 0 0] := by decide

/-- Three threads share five elements. -/
example :
    let es : List Ev := [.take 0, .take 1, .run 1, .run 0] ++ List.replicate 12 (.run 0) ++ [.run 1, .take 2, .run 2] ++
      List.replicate 12 (.run 1) ++ [.give 0 4] ++ List.replicate 12 (.run 2) ++ List.replicate 5 (.run 0)
    Legal (List.range 5) (init 3 5 false) es ∧
    (run (init 3 5 false) es).trace = [.took 0 4, .took 1 3, .gave 0 4, .took 2 2] := by decide +kernel

end Verif.FastResource
