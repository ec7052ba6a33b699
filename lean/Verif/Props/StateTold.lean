import Verif.Model.StateTold
import Verif.Spec.StateTold
/-!
# C132: who is told of a change of state
-/
namespace Verif.StateTold
open Spec

/-- **C132.** The objects of a state are those that were added, each once and in the order in which they came first. -/
theorem c132_added (xs : List Nat) : ∀ (l : List Nat), l.Nodup →
    ∃ m, addStatefuls l (xs.map some) = (m, true) ∧ m.Nodup ∧ l <+: m ∧ ∀ x, x ∈ m ↔ x ∈ l ∨ x ∈ xs := by
  induction xs with
  | nil => intro l h; exact ⟨l, rfl, h, List.prefix_rfl, by simp⟩
  | cons x xs ih =>
    intro l h
    by_cases hx : x ∈ l
    · obtain ⟨m, e, n, p, w⟩ := ih l h
      refine ⟨m, by simp [addStatefuls, hx, e], n, p, ?_⟩
      intro y
      rw [w]
      simp only [List.mem_cons]
      constructor
      · rintro (h | h)
        · exact Or.inl h
        · exact Or.inr (Or.inr h)
      · rintro (h | rfl | h)
        · exact Or.inl h
        · exact Or.inl hx
        · exact Or.inr h
    · have hn : (l ++ [x]).Nodup := by
        rw [List.nodup_append]
        refine ⟨h, by simp, ?_⟩
        intro a ha b hb
        simp at hb
        rintro rfl
        exact hx (hb ▸ ha)
      obtain ⟨m, e, n, p, w⟩ := ih (l ++ [x]) hn
      refine ⟨m, by simp [addStatefuls, hx, e], n, (List.prefix_append _ _).trans p, ?_⟩
      intro y
      rw [w]
      simp [or_assoc]

private theorem tell_spec (accept : Nat → Bool) (current next : Text) : ∀ l : List Nat,
    ((tell accept current next l).2 = true ↔ ∀ x ∈ l, accept x = true) ∧
    ((∀ x ∈ l, accept x = true) → (tell accept current next l).1 = l.map fun x => (x, current, next)) ∧
    (∀ pre x post, l = pre ++ x :: post → (∀ y ∈ pre, accept y = true) → accept x = false →
      (tell accept current next l).1 = (pre ++ [x]).map fun x => (x, current, next))
  | [] => by simp [tell]
  | a :: l => by
    obtain ⟨h1, h2, h3⟩ := tell_spec accept current next l
    unfold tell
    cases ha : accept a with
    | true =>
      simp only [if_true]
      refine ⟨by rw [h1]; simp [ha], fun h => by rw [h2 (fun x hx => h x (List.mem_cons_of_mem _ hx))]; simp, ?_⟩
      rintro pre x post e hp hx
      cases pre with
      | nil =>
        simp at e
        rw [← e.1, ha] at hx
        simp at hx
      | cons b pre =>
        simp at e
        obtain ⟨rfl, e⟩ := e
        rw [h3 pre x post e (fun y hy => hp y (List.mem_cons_of_mem _ hy)) hx]
        simp
    | false =>
      refine ⟨by simp [ha], fun h => ?_, ?_⟩
      · have := h a (by simp)
        rw [ha] at this
        simp at this
      · rintro pre x post e hp hx
        cases pre with
        | nil =>
          simp at e
          simp [← e.1]
        | cons b pre =>
          simp at e
          have := hp b (by simp)
          rw [← e.1, ha] at this
          simp at this

private theorem tell_append (accept : Nat → Bool) (current next : Text) : ∀ l m : List Nat,
    tell accept current next (l ++ m) =
      ((tell accept current next l).1 ++ (if (tell accept current next l).2 then tell accept current next m else ([], false)).1,
       (if (tell accept current next l).2 then tell accept current next m else ([], false)).2)
  | [], m => by simp [tell]
  | a :: l, m => by
    simp only [List.cons_append]
    rw [tell, tell]
    cases ha : accept a with
    | true =>
      simp only [if_true]
      rw [tell_append accept current next l m]
      simp
    | false => simp

private theorem takes_spec {data : List Nat} {next : Text} {states : List StateDecl} {l : List Nat} (h : Takes data next states l)
    (accept : Nat → Bool) (a : App) :
    (prepare states data accept next a).2 = tell accept (a.holder a.index) next l := by
  have key : (states.any fun s => s.name == next) = true ∧ ∃ l', l = l' ++ data ∧
      tellState accept (a.holder a.index) next states = tell accept (a.holder a.index) next l' := by
    induction h with
    | here s rest e => exact ⟨by simp [e], s.statefuls, rfl, by simp [tellState, e]⟩
    | later s rest l e _ ih =>
      obtain ⟨k, l', e1, e2⟩ := ih
      exact ⟨by rw [List.any_cons, k]; simp, l', e1, by simp [tellState, e, e2]⟩
  obtain ⟨k, l', rfl, e2⟩ := key
  rw [tell_append]
  unfold prepare
  dsimp only
  rw [k, e2]
  simp

/-- **C132.** A change to a state tells its objects and then those of the data, in order, each with the current and the next state, up to the first that
refuses; it succeeds exactly when none refuses. -/
theorem c132_told {data : List Nat} {next : Text} {states : List StateDecl} {l : List Nat} (h : Takes data next states l)
    (accept : Nat → Bool) (a : App) :
    ((prepare states data accept next a).2.2 = true ↔ ∀ x ∈ l, accept x = true) ∧
    ((∀ x ∈ l, accept x = true) → (prepare states data accept next a).2.1 = l.map fun x => (x, a.holder a.index, next)) ∧
    (∀ pre x post, l = pre ++ x :: post → (∀ y ∈ pre, accept y = true) → accept x = false →
      (prepare states data accept next a).2.1 = (pre ++ [x]).map fun x => (x, a.holder a.index, next)) := by
  rw [takes_spec h]
  exact tell_spec accept _ next l

private theorem no_takes {states : List StateDecl} {next : Text} (h : ∀ s ∈ states, s.name ≠ next) (accept : Nat → Bool) (current : Text) :
    tellState accept current next states = ([], true) ∧ (states.any fun s => s.name == next) = false := by
  induction states with
  | nil => exact ⟨rfl, rfl⟩
  | cons s rest ih =>
    obtain ⟨h1, h2⟩ := ih (fun x hx => h x (List.mem_cons_of_mem _ hx))
    have hs := h s (by simp)
    refine ⟨by simp [tellState, hs, h1], by rw [List.any_cons, h2]; simp [hs]⟩

/-- **C132.** A change to a state that does not exist is refused. -/
theorem c132_unknown {states : List StateDecl} {next : Text} (h : ∀ s ∈ states, s.name ≠ next) (data : List Nat) (accept : Nat → Bool) (a : App) :
    (prepare states data accept next a).2.2 = false := by
  unfold prepare
  dsimp only
  rw [(no_takes h accept []).2]
  simp

/-- **C132 fails for a state that does not exist**: all the data sources are told of the change to it, although it is refused. -/
theorem c132_unknown_fails {states : List StateDecl} {next : Text} (h : ∀ s ∈ states, s.name ≠ next) (data : List Nat) (accept : Nat → Bool)
    (ha : ∀ x ∈ data, accept x = true) (a : App) :
    (prepare states data accept next a).2.1 = data.map (fun x => (x, a.holder a.index, next)) ∧ (prepare states data accept next a).2.2 = false := by
  refine ⟨?_, c132_unknown h data accept a⟩
  unfold prepare
  dsimp only
  rw [(no_takes h accept _).1]
  simp [(tell_spec accept (a.holder a.index) next data).2.1 ha]

private theorem tell_names (accept : Nat → Bool) (current next : Text) : ∀ l : List Nat, ∀ t ∈ (tell accept current next l).1, t.2 = (current, next)
  | [] => by simp [tell]
  | a :: l => by
    unfold tell
    cases accept a with
    | true =>
      simp only [if_true]
      intro t ht
      rcases List.mem_cons.1 ht with rfl | ht
      · rfl
      · exact tell_names accept current next l t ht
    | false => simp

private theorem tellState_names (accept : Nat → Bool) (current next : Text) : ∀ l : List StateDecl, ∀ t ∈ (tellState accept current next l).1, t.2 = (current, next)
  | [] => by simp [tellState]
  | s :: l => by
    unfold tellState
    by_cases h : s.name = next
    · rw [if_pos h]; exact tell_names accept current next _
    · rw [if_neg h]; exact tellState_names accept current next l

/-- **C132.** In a history where every start comes after a preparation, each preparation tells of the state that was started last as the current one, and of the
state that is asked for as the next one. -/
theorem c132_current_partial {states : List StateDecl} {data : List Nat} {running : Text} {asked : Option Text} {ops : List Op} {names : List (Text × Text)}
    (h : Correct running asked ops names) : ∀ {a : App}, a.holder a.index = running → (∀ n ∈ asked, a.holder (!a.index) = n) →
    (run states data a ops).2.length = names.length ∧
    ∀ (i : Nat) (told : List Told), (run states data a ops).2[i]? = some told → ∃ n, names[i]? = some n ∧ ∀ t ∈ told, t.2 = n := by
  induction h with
  | nil => intro a _ _; simp [run]
  | prepare running next asked accept ops names _ ih =>
    intro a hr ha
    obtain ⟨l, w⟩ := ih (a := (prepare states data accept next a).1) (by
        show (if a.index = !a.index then next else a.holder a.index) = running
        rw [if_neg (by cases a.index <;> simp)]
        exact hr) (by
        intro n hn
        simp at hn
        subst hn
        show (if (!a.index) = !a.index then next else a.holder (!a.index)) = next
        rw [if_pos rfl])
    refine ⟨by simp [run, l], ?_⟩
    intro i told hi
    cases i with
    | zero =>
      simp [run] at hi
      refine ⟨(running, next), rfl, ?_⟩
      intro t ht
      rw [← hr]
      rw [← hi] at ht
      unfold prepare at ht
      dsimp only at ht
      rcases List.mem_append.1 ht with ht | ht
      · exact tellState_names accept _ _ _ t ht
      · split at ht
        · exact tell_names accept _ _ _ t ht
        · simp at ht
    | succ i =>
      simp only [run, List.getElem?_cons_succ] at hi ⊢
      exact w i told hi
  | start running next ops names _ ih =>
    intro a hr ha
    exact ih (a := start a) (ha next rfl) (by simp)

/-- **C132 fails after a refused change**: if the start is asked all the same, the objects are told that the state that was refused is the current one. -/
theorem c132_refused_fails (x : Nat) :
    (prepare [⟨['A'], [x]⟩, ⟨['B'], [x]⟩] [] (fun _ => false) ['A'] init).2.2 = false ∧
    (run [⟨['A'], [x]⟩, ⟨['B'], [x]⟩] [] init [.prepare ['A'] (fun _ => false), .start, .prepare ['B'] fun _ => true]).2 =
      [[(x, [], ['A'])], [(x, ['A'], ['B'])]] := by
  constructor <;> simp [prepare, run, tellState, tell, init, start]

/-- **C132.** When one of the objects of a state is none that can be told, the state refuses. -/
theorem c132_not_told (xs : List Nat) (post : List (Option Nat)) : ∀ (l : List Nat), (addStatefuls l (xs.map some ++ none :: post)).2 = false := by
  induction xs with
  | nil => intro l; rfl
  | cons x xs ih => intro l; exact ih _

/-- From the first state to the second one. -/
example : Takes [9] ['B'] [⟨['A'], [1]⟩, ⟨['B'], [1, 2]⟩] [1, 2, 9] ∧
    (run [⟨['A'], [1]⟩, ⟨['B'], [1, 2]⟩] [9] init [.prepare ['A'] fun _ => true, .start, .prepare ['B'] fun _ => true]).2 =
      [[(1, [], ['A']), (9, [], ['A'])], [(1, ['A'], ['B']), (2, ['A'], ['B']), (9, ['A'], ['B'])]] ∧
    ∃ names, Correct [] none [.prepare ['A'] fun _ => true, .start, .prepare ['B'] fun _ => true] names :=
  ⟨.later _ _ _ (by decide) (.here _ _ rfl), by simp [prepare, run, tellState, tell, init, start],
   _, .prepare _ _ _ _ _ _ (.start _ _ _ _ (.prepare _ _ _ _ _ _ (.nil _ _)))⟩

end Verif.StateTold
