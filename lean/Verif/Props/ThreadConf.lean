import Verif.Model.ThreadConf
import Verif.Spec.ThreadConf
import Verif.Proof.ThreadConf
/-! # C90: the functions of a thread -/
set_option maxRecDepth 8000
set_option linter.unusedSimpArgs false
namespace Verif.ThreadConf
open Verif.RefC Verif.Spec.RefC Verif.Spec.RefSearch Verif.Spec.ThreadConf Verif.Spec.Web

/-- **C90 (partial).** When a thread is configured for the first time, with all its functions in the application, it executes exactly the
GAMs of its functions: function by function in the order they are declared, and inside a group in the order of the configuration.  Each
stateful object of these functions is then once in the state of the thread, and nothing else is added there; other states do not change.
Missing: the names of the objects have to say where they are (`Clear`). -/
theorem c90_gams_partial (c : Classes) (fuel : Nat) (root : List Obj) (hc : Clear root) (hf : sizeObjs root ≤ fuel) (self : Nat)
    (names : List (List Char)) (hn : ∀ w ∈ names, w ≠ [] ∧ '.' ∉ w) (state : Nat) (hh : Home c root self names state)
    (fs : List (List Char)) (os : List Obj) (hfs : Functions root names fs os) (states : Nat → List Nat)
    (hst : (states state).Nodup) :
    ∃ states', configure c fuel root self ⟨fs, [], 0, false⟩ states =
        some (true, ⟨fs, members c.gam os, (members c.gam os).length, true⟩, states') ∧
      (states' state).Nodup ∧
      (∀ i, i ∈ states' state ↔ i ∈ states state ∨ ∃ o ∈ members c.stateful os, o.id = i) ∧
      ∀ s, s ≠ state → states' s = states s := by
  obtain ⟨r, e, hs⟩ := home_find c fuel root self hf names state hh
  have hl := loop_some c fuel root hc hf names hn fs os hfs [] [] 0 (states state) rfl
  simp only [List.append_nil, List.nil_append] at hl
  refine ⟨fun i => if i = state then addAll c (states state) os else states i, ?_, ?_, ?_, ?_⟩
  · simp only [configure, Bool.false_eq_true, if_false, e, Option.bind_some, hs, hl, functionsLoop]
  · simpa using nodup_addAll c os _ hst
  · simpa using mem_addAll c os (states state)
  · intro s h; simp [h]

/-- **C90.** If a function of the thread is not in the application, or is not a container, the configuration of the thread is refused; the
GAMs of the functions before it are kept. -/
theorem c90_missing (c : Classes) (fuel : Nat) (root : List Obj) (hc : Clear root) (hf : sizeObjs root ≤ fuel) (self : Nat)
    (names : List (List Char)) (hn : ∀ w ∈ names, w ≠ [] ∧ '.' ∉ w) (state : Nat) (hh : Home c root self names state)
    (fs : List (List Char)) (os : List Obj) (hfs : Functions root names fs os) (f : List Char) (hno : NoFunction root names f)
    (tail : List (List Char)) (states : Nat → List Nat) :
    ∃ states', configure c fuel root self ⟨fs ++ f :: tail, [], 0, false⟩ states =
        some (false, ⟨fs ++ f :: tail, members c.gam os, (members c.gam os).length, true⟩, states') := by
  obtain ⟨r, e, hs⟩ := home_find c fuel root self hf names state hh
  have hl := loop_some c fuel root hc hf names hn fs os hfs (f :: tail) [] 0 (states state) rfl
  rw [loop_none c fuel root hc hf names hn f hno] at hl
  simp only [List.nil_append] at hl
  refine ⟨fun i => if i = state then addAll c (states state) os else states i, ?_⟩
  simp only [configure, Bool.false_eq_true, if_false, e, Option.bind_some, hs, hl]

/-- **C90.** A thread that is not below a state of an application is refused, and nothing changes but that it counts as configured. -/
theorem c90_homeless (c : Classes) (fuel : Nat) (root : List Obj) (hf : sizeObjs root ≤ fuel) (self : Nat)
    (h : ∀ v ∈ found (isObject self) true false root, (∀ o ∈ v.chain, c.app o.id = false) ∨ ∀ o ∈ v.chain, c.state o.id = false)
    (fs : List (List Char)) (states : Nat → List Nat) :
    configure c fuel root self ⟨fs, [], 0, false⟩ states = some (false, ⟨fs, [], 0, true⟩, states) := by
  obtain ⟨f, ch, e, hch, hch0⟩ := find_path fuel root self hf
  have happ : ∀ (l : List Obj) p, (∀ o ∈ l, c.app o.id = false) → seekApp c l p = none := by
    intro l
    induction l with
    | nil => intros; rfl
    | cons o l ih => intro p hl; simp [seekApp, hl o (by simp), ih _ fun x hx => hl x (by simp [hx])]
  have hstate : ∀ (l : List Obj), (∀ o ∈ l, c.state o.id = false) → seekState c l = none := by
    intro l
    induction l with
    | nil => intros; rfl
    | cons o l ih => intro hl; simp [seekState, hl o (by simp), ih fun x hx => hl x (by simp [hx])]
  have hsub : ∀ (l : List Obj) p a, seekApp c l p = some a → ∀ o ∈ a.2, o ∈ l := by
    intro l
    induction l with
    | nil => intro p a h; simp [seekApp] at h
    | cons x l ih =>
      intro p a h o ho
      rw [seekApp] at h
      split at h
      · simp only [Option.some.injEq] at h; subst h; exact List.mem_cons_of_mem _ ho
      · exact List.mem_cons_of_mem _ (ih _ _ h o ho)
  have key : ∀ l : List Obj, ((∀ o ∈ l, c.app o.id = false) ∨ ∀ o ∈ l, c.state o.id = false) →
      ((seekApp c l []).bind fun a => (seekState c a.2).map fun s => (a.1, s)) = none := by
    intro l hl
    rcases hl with hl | hl
    · simp [happ l [] hl]
    · cases ha : seekApp c l [] with
      | none => rfl
      | some a => simp [hstate a.2 fun o ho => hl o (hsub l [] a ha o ho)]
  have hk : ((seekApp c ch []).bind fun a => (seekState c a.2).map fun s => (a.1, s)) = none := by
    apply key
    cases hF : found (isObject self) true false root with
    | nil => rw [hch0 hF]; simp
    | cons v r => rw [hch v r hF]; exact h v (by simp [hF])
  simp only [configure, Bool.false_eq_true, if_false, e, Option.bind_some, hk]

/-- **C90 (disagreement).** The refusal is given only once: a second configuration of the same thread is accepted, although the function
is still missing, and the thread executes the functions before it. -/
theorem c90_again_fails (c : Classes) (fuel : Nat) (root : List Obj) (hc : Clear root) (hf : sizeObjs root ≤ fuel) (self : Nat)
    (names : List (List Char)) (hn : ∀ w ∈ names, w ≠ [] ∧ '.' ∉ w) (state : Nat) (hh : Home c root self names state)
    (fs : List (List Char)) (os : List Obj) (hfs : Functions root names fs os) (f : List Char) (hno : NoFunction root names f)
    (tail : List (List Char)) (states : Nat → List Nat) :
    ∃ t states', configure c fuel root self ⟨fs ++ f :: tail, [], 0, false⟩ states = some (false, t, states') ∧
      configure c fuel root self t states' = some (true, t, states') ∧ t.gams = members c.gam os := by
  obtain ⟨states', h⟩ := c90_missing c fuel root hc hf self names hn state hh fs os hfs f hno tail states
  exact ⟨_, states', h, by simp [configure], rfl⟩

/-! ## A concrete case -/

private def L (i : Nat) (n : String) : Obj := .leaf i (some n.toList)
private def N (i : Nat) (n : String) (k : List Obj) : Obj := .cont i (some n.toList) k

/-- An application with two GAMs, one of them in a group, and a state with one thread. -/
private def appRoot : List Obj :=
  [N 1 "A" [N 2 "Functions" [N 3 "G" [N 4 "X" []], N 5 "Y" []], N 6 "States" [N 7 "S" [N 8 "Threads" [N 9 "T" []]]]]]
private def cls : Classes := ⟨(· == 1), (· == 7), fun i => i == 4 || i == 5, (· == 4)⟩

private theorem below_app (k : List Obj) (h : Below appRoot k) :
    k = appRoot ∨ k = [N 2 "Functions" [N 3 "G" [N 4 "X" []], N 5 "Y" []], N 6 "States" [N 7 "S" [N 8 "Threads" [N 9 "T" []]]]] ∨
    k = [N 3 "G" [N 4 "X" []], N 5 "Y" []] ∨ k = [N 4 "X" []] ∨ k = [] ∨ k = [N 7 "S" [N 8 "Threads" [N 9 "T" []]]] ∨
    k = [N 8 "Threads" [N 9 "T" []]] ∨ k = [N 9 "T" []] := by
  induction h with
  | self => exact Or.inl rfl
  | @child kids x ck _ hm hk ih =>
    rcases ih with rfl | rfl | rfl | rfl | rfl | rfl | rfl | rfl <;>
      simp only [appRoot, List.mem_cons, List.not_mem_nil, or_false] at hm <;>
      (try rcases hm with rfl | rfl) <;> (try subst hm) <;>
      simp only [N, Obj.kids?, Option.some.injEq] at hk <;> subst hk <;> simp [N, appRoot]

example : Clear appRoot := by
  refine ⟨?_, ?_, ?_⟩
  · intro k hk o ho
    rcases below_app k hk with rfl | rfl | rfl | rfl | rfl | rfl | rfl | rfl <;>
      simp only [appRoot, List.mem_cons, List.not_mem_nil, or_false] at ho <;>
      (try rcases ho with rfl | rfl) <;> (try subst ho) <;> rfl
  · intro k hk a ha b hb e
    rcases below_app k hk with rfl | rfl | rfl | rfl | rfl | rfl | rfl | rfl <;>
      simp only [appRoot, List.mem_cons, List.not_mem_nil, or_false] at ha hb <;>
      (try rcases ha with rfl | rfl) <;> (try subst ha) <;> (try rcases hb with rfl | rfl) <;> (try subst hb) <;>
      simp [N, Obj.name] at e ⊢
  · intro k hk x hx d hd e
    simp only [appRoot, List.mem_cons, List.not_mem_nil, or_false] at hd
    subst hd
    rcases below_app k hk with rfl | rfl | rfl | rfl | rfl | rfl | rfl | rfl <;>
      simp only [appRoot, List.mem_cons, List.not_mem_nil, or_false] at hx <;>
      (try rcases hx with rfl | rfl) <;> (try subst hx) <;> first | rfl | (simp [N, Obj.name] at e)

example : sizeObjs appRoot ≤ 40 := by decide

example : (configure cls 40 appRoot 9 ⟨["Y".toList, "G".toList], [], 0, false⟩ fun _ => []).map
    (fun r => (r.1, r.2.1.gams.map Obj.id, r.2.2 7)) = some (true, [5, 4], [4]) := by decide +kernel

example : (configure cls 40 appRoot 9 ⟨["Y".toList, "Z".toList, "G".toList], [], 0, false⟩ fun _ => []).bind
    (fun r => (configure cls 40 appRoot 9 r.2.1 r.2.2).map fun q => (r.1, q.1, q.2.1.gams.map Obj.id)) =
      some (false, true, [5]) := by decide +kernel

example : Home cls appRoot 9 ["A".toList] 7 := by
  refine ⟨⟨[_, _, _, _, _], _⟩, [], [], _, [_], _, [_, _], rfl, rfl, by simp, by decide, ?_, by decide, by decide, by decide⟩
  intro o ho; simp at ho; subst ho; decide

example : Functions appRoot ["A".toList] ["G.X".toList] [N 4 "X" []] := by
  refine .cons ⟨["G".toList, "X".toList], ⟨by simp, ?_, by decide, by decide⟩, ?_, rfl⟩ .nil
  · intro w hw; simp at hw; rcases hw with rfl | rfl <;> decide
  · simp [At, appRoot, N, Obj.name, Obj.kids?]

example : NoFunction appRoot ["A".toList] "Z".toList := by
  refine ⟨["Z".toList], ⟨by simp, ?_, by decide, by decide⟩, ?_⟩
  · intro w hw; simp at hw; subst hw; decide
  · intro o h; simp [At, appRoot, N, Obj.name, Obj.kids?] at h
    obtain ⟨rfl | rfl, h2⟩ := h <;> simp at h2

end Verif.ThreadConf
