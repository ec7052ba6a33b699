import Verif.Model.GlobalObjects
import Verif.Spec.GlobalObjects
/-!
# C138: the destruction of the global objects
-/
set_option linter.unusedSimpArgs false
namespace Verif.GlobalObjects
open Spec

private theorem flatMap_same {α β : Type} {f g : α → List β} : ∀ {l : List α}, (∀ x ∈ l, f x = g x) → l.flatMap f = l.flatMap g
  | [], _ => rfl
  | a :: l, h => by
    rw [List.flatMap_cons, List.flatMap_cons, h a List.mem_cons_self, flatMap_same (fun x hx => h x (List.mem_cons_of_mem _ hx))]

private theorem scan_spec : ∀ (os : List Nat) (i : Nat) (b : Nat × Nat),
    (scan os i b = b ∧ ∀ o ∈ os, b.1 ≤ o) ∨
      ∃ pre m post, os = pre ++ m :: post ∧ scan os i b = (m, i + pre.length) ∧ m < b.1 ∧ (∀ o ∈ pre, m < o) ∧ ∀ o ∈ post, m ≤ o
  | [], _, _ => Or.inl ⟨rfl, by simp⟩
  | o :: os, i, b => by
    rw [scan]
    by_cases h : b.1 > o
    · rw [if_pos h]
      rcases scan_spec os (i + 1) (o, i) with ⟨e, h1⟩ | ⟨pre, m, post, h1, h2, h3, h4, h5⟩
      · exact Or.inr ⟨[], o, os, rfl, e, h, by simp, h1⟩
      · refine Or.inr ⟨o :: pre, m, post, by rw [h1]; rfl, ?_, ?_, ?_, h5⟩
        · rw [h2]; simp; omega
        · dsimp only at h3; omega
        · intro x hx
          rcases List.mem_cons.1 hx with rfl | hx
          · exact h3
          · exact h4 x hx
    · rw [if_neg h]
      rcases scan_spec os (i + 1) b with ⟨e, h1⟩ | ⟨pre, m, post, h1, h2, h3, h4, h5⟩
      · refine Or.inl ⟨e, ?_⟩
        intro x hx
        rcases List.mem_cons.1 hx with rfl | hx
        · omega
        · exact h1 x hx
      · refine Or.inr ⟨o :: pre, m, post, by rw [h1]; rfl, ?_, h3, ?_, h5⟩
        · rw [h2]; simp; omega
        · intro x hx
          rcases List.mem_cons.1 hx with rfl | hx
          · omega
          · exact h4 x hx

private theorem forget_at (n : Nat) (x : Option Nat) (o : Nat) (post : Table) : ∀ pre : Table, forget n pre.length (pre ++ (x, o) :: post) = pre ++ (x, n) :: post
  | [] => rfl
  | e :: pre => by rw [List.length_cons, List.cons_append, forget, forget_at n x o post pre]; rfl

/-- The order of a table. -/
private def byOrder (n : Nat) (t : Table) : List (Option Nat) := (List.range n).flatMap fun k => (t.filter fun a => a.2 = k).map (·.1)

private theorem byOrder_step (n m : Nat) (hm : m < n) (x : Option Nat) (pre post : Table) (h1 : ∀ e ∈ pre, m < e.2) (h2 : ∀ e ∈ post, m ≤ e.2) :
    byOrder n (pre ++ (x, m) :: post) = x :: byOrder n (pre ++ (x, n) :: post) := by
  have hsplit : List.range n = List.range m ++ m :: (List.range (n - m - 1)).map (· + (m + 1)) := by
    have e : n = (m + 1) + (n - m - 1) := by omega
    have e2 : (fun x : Nat => x + (m + 1)) = fun x => (m + 1) + x := by funext x; omega
    conv => lhs; rw [e]
    rw [List.range_add, List.range_succ, e2, List.append_assoc]
    rfl
  have low : ∀ y : Nat, m ≤ y → (List.range m).flatMap (fun k => ((pre ++ (x, y) :: post).filter fun a => a.2 = k).map (·.1)) = [] := by
    intro y hy
    rw [List.flatMap_eq_nil_iff]
    intro k hk
    have hk := List.mem_range.1 hk
    rw [List.map_eq_nil_iff, List.filter_eq_nil_iff]
    intro e he
    simp only [decide_eq_true_eq]
    rcases List.mem_append.1 he with he | he
    · have := h1 e he; omega
    · rcases List.mem_cons.1 he with rfl | he
      · dsimp only; omega
      · have := h2 e he; omega
  have hpre : pre.filter (fun a => a.2 = m) = [] := by
    rw [List.filter_eq_nil_iff]
    intro e he
    have := h1 e he
    simp only [decide_eq_true_eq]; omega
  unfold byOrder
  rw [hsplit, List.flatMap_append, List.flatMap_append, low m (Nat.le_refl _), low n (by omega), List.flatMap_cons, List.flatMap_cons]
  have hn : ¬ n = m := by omega
  simp only [List.nil_append, List.filter_append, hpre, List.filter_cons, decide_true, if_true, hn, decide_false, Bool.false_eq_true, if_false, List.map_cons,
    List.cons_append]
  congr 2
  rw [List.flatMap_map, List.flatMap_map]
  apply flatMap_same
  intro k hk
  have hk := List.mem_range.1 hk
  have e1 : ¬ m = k + (m + 1) := by omega
  have e2 : ¬ n = k + (m + 1) := by omega
  simp [e1, e2]

private theorem destroy_eq (n : Nat) : ∀ (rounds : Nat) (t : Table), (t.filter fun e => e.2 < n).length < rounds → destroy n rounds t = some (byOrder n t)
  | 0, _, h => by omega
  | rounds + 1, t, h => by
    rw [destroy]
    rcases scan_spec (t.map (·.2)) 0 (n, 0) with ⟨e, h1⟩ | ⟨pre, m, post, h1, h2, h3, h4, h5⟩
    · rw [e, if_neg (by simp)]
      congr 1
      symm
      unfold byOrder
      rw [List.flatMap_eq_nil_iff]
      intro k hk
      have hk := List.mem_range.1 hk
      rw [List.map_eq_nil_iff, List.filter_eq_nil_iff]
      intro a ha
      have := h1 a.2 (List.mem_map_of_mem ha)
      dsimp only at this
      simp only [decide_eq_true_eq]; omega
    · rw [h2]
      dsimp only at h3 ⊢
      rw [if_pos (by omega)]
      obtain ⟨p, q, rfl, hp, hq⟩ := List.map_eq_append_iff.1 h1
      obtain ⟨a, q', rfl, ha, hq'⟩ := List.map_eq_cons_iff.1 hq
      obtain ⟨x, o⟩ := a
      dsimp only at ha
      subst ha
      have hl : 0 + pre.length = p.length := by rw [← hp]; simp
      rw [hl, forget_at]
      have hcount : ((p ++ (x, n) :: q').filter fun e => e.2 < n).length < rounds := by
        have e2 : (decide (n < n)) = false := by simp
        rw [List.filter_append, List.filter_cons] at h ⊢
        simp [h3] at h ⊢
        omega
      rw [destroy_eq n rounds _ hcount, byOrder_step n o h3 x p q']
      · simp
      · intro e he; exact h4 e.2 (by rw [← hp]; exact List.mem_map_of_mem he)
      · intro e he; exact h5 e.2 (by rw [← hq']; exact List.mem_map_of_mem he)

private theorem add_at (x o y z : Nat) (r : Table) : ∀ l : List (Nat × Nat),
    add x o (l.map (fun a => (some a.1, a.2)) ++ (none, y) :: r) = l.map (fun a => (some a.1, a.2)) ++ (some x, o) :: r
  | [] => rfl
  | a :: l => by rw [List.map_cons, List.cons_append, add, add_at x o y z r l]; rfl

private theorem add_full (x o : Nat) : ∀ l : List (Nat × Nat), add x o (l.map fun a => (some a.1, a.2)) = l.map fun a => (some a.1, a.2)
  | [] => rfl
  | a :: l => by rw [List.map_cons, add, add_full x o l]

private theorem run_eq (n : Nat) (adds : List (Nat × Nat)) :
    run n adds = (adds.take n).map (fun a => (some a.1, a.2)) ++ List.replicate (n - adds.length) (none, n) := by
  have gen : ∀ r : List (Nat × Nat), run n r.reverse = (r.reverse.take n).map (fun a => (some a.1, a.2)) ++ List.replicate (n - r.length) (none, n) := by
    intro r
    induction r with
    | nil => simp [run, init]
    | cons a r ih =>
      have e : run n (a :: r).reverse = add a.1 a.2 (run n r.reverse) := by simp [run, List.foldl_append]
      rw [e, ih]
      by_cases h : r.length < n
      · have e1 : r.reverse.take n = r.reverse := List.take_of_length_le (by simp; omega)
        have e2 : (a :: r).reverse.take n = r.reverse ++ [a] := by rw [List.reverse_cons]; exact List.take_of_length_le (by simp; omega)
        have e3 : n - r.length = (n - (a :: r).length) + 1 := by simp; omega
        rw [e1, e2, e3, List.replicate_succ, add_at _ _ _ 0]
        simp
      · have e1 : n - r.length = 0 := by omega
        have e2 : n - (a :: r).length = 0 := by simp; omega
        have e3 : (a :: r).reverse.take n = r.reverse.take n := by
          rw [List.reverse_cons, List.take_append_of_le_length (by simp; omega)]
        rw [e1, e2, e3, List.replicate_zero, List.append_nil, add_full]
  have := gen adds.reverse
  simpa using this

private theorem destroy_run (n : Nat) (adds : List (Nat × Nat)) : destroy n (n + 1) (run n adds) = some ((ascending n (adds.take n)).map some) := by
  rw [destroy_eq]
  · congr 1
    rw [run_eq]
    unfold byOrder ascending
    rw [List.map_flatMap]
    apply flatMap_same
    intro k hk
    have hk := List.mem_range.1 hk
    have e : (List.replicate (n - adds.length) ((none : Option Nat), n)).filter (fun a => a.2 = k) = [] := by
      rw [List.filter_eq_nil_iff]
      intro a ha
      rw [(List.mem_replicate.1 ha).2]
      simp; omega
    rw [List.filter_append, e, List.append_nil, List.filter_map, List.map_map, List.map_map]
    rfl
  · have : (run n adds).length = n := by rw [run_eq]; simp; omega
    have := List.length_filter_le (fun e : Option Nat × Nat => decide (e.2 < n)) (run n adds)
    omega

/-- **C138.** At the end, when no more objects were added than there are places, they are destroyed in ascending order, those of the same order as they were
added (those whose order is below the number of places), in at most one round for each place and one more. -/
theorem c138_order_partial {n : Nat} {adds : List (Nat × Nat)} (h : adds.length ≤ n) :
    destroy n (n + 1) (run n adds) = some ((ascending n adds).map some) := by
  rw [destroy_run, List.take_of_length_le h]

private theorem filter_split (n : Nat) : ∀ l : List (Nat × Nat), (l.filter fun a => a.2 < n + 1).Perm (l.filter (fun a => a.2 < n) ++ l.filter (fun a => a.2 = n))
  | [] => .refl _
  | a :: l => by
    have ih := filter_split n l
    simp only [List.filter_cons]
    by_cases h1 : a.2 < n
    · have h2 : a.2 < n + 1 := by omega
      have h3 : ¬ a.2 = n := by omega
      simp only [h1, h2, h3, decide_true, decide_false, if_true, Bool.false_eq_true, if_false, List.cons_append]
      exact ih.cons a
    · by_cases h3 : a.2 = n
      · have h2 : a.2 < n + 1 := by omega
        simp only [h1, h2, h3, Nat.lt_irrefl, Nat.lt_succ_self, decide_true, decide_false, if_true, Bool.false_eq_true, if_false]
        exact (ih.cons a).trans List.perm_middle.symm
      · have h2 : ¬ a.2 < n + 1 := by omega
        simp only [h1, h2, h3, decide_false, Bool.false_eq_true, if_false]
        exact ih

/-- **C138.** When no more objects were added than there are places, and all orders are below their number, every object is destroyed, once. -/
theorem c138_all_partial {n : Nat} {adds : List (Nat × Nat)} (h : adds.length ≤ n) (ho : ∀ a ∈ adds, a.2 < n) :
    ∃ out : List Nat, destroy n (n + 1) (run n adds) = some (out.map some) ∧ out.Perm (adds.map (·.1)) := by
  refine ⟨_, c138_order_partial h, ?_⟩
  have gen : ∀ m : Nat, (ascending m adds).Perm ((adds.filter fun a => a.2 < m).map (·.1)) := by
    intro m
    induction m with
    | zero => simp [ascending]
    | succ m ih =>
      have e : ascending (m + 1) adds = ascending m adds ++ (adds.filter fun a => a.2 = m).map (·.1) := by
        simp [ascending, List.range_succ, List.flatMap_append]
      rw [e]
      refine (ih.append_right _).trans ?_
      rw [← List.map_append]
      exact ((filter_split m adds).map _).symm
  have e : adds.filter (fun a => a.2 < n) = adds := List.filter_eq_self.2 (fun a ha => by simpa using ho a ha)
  have := gen n
  rwa [e] at this

/-- **C138.** The places show the objects in the order in which they were added, as many as there are places, and nothing after them. -/
theorem c138_peek (n : Nat) (adds : List (Nat × Nat)) (i : Nat) :
    peek (run n adds) i = if i < n then some (adds[i]?.map (·.1)) else none := by
  unfold peek
  rw [run_eq]
  by_cases h : i < n
  · rw [if_pos h]
    by_cases h2 : i < adds.length
    · rw [List.getElem?_append_left (by simp; omega)]
      simp [h, h2]
    · rw [List.getElem?_append_right (by simp; omega)]
      have : adds[i]? = none := by simp; omega
      rw [this]
      simp [List.getElem?_replicate]
      omega
  · rw [if_neg h]
    rw [Option.map_eq_none_iff, List.getElem?_eq_none_iff]
    simp; omega

/-- **C138 fails for an object that is added when all places are taken**: it is not destroyed, and nothing tells it. -/
theorem c138_full_fails {n : Nat} {adds : List (Nat × Nat)} (h : n ≤ adds.length) (x o : Nat) :
    run n (adds ++ [(x, o)]) = run n adds ∧ destroy n (n + 1) (run n (adds ++ [(x, o)])) = some ((ascending n (adds.take n)).map some) := by
  constructor
  · rw [run_eq, run_eq, List.take_append_of_le_length h]
    have e1 : n - (adds ++ [(x, o)]).length = 0 := by simp; omega
    have e2 : n - adds.length = 0 := by omega
    rw [e1, e2]
  · rw [destroy_run, List.take_append_of_le_length h]

/-- **C138 fails for an order that is not below the number of places**: the object takes a place and is not destroyed. -/
theorem c138_high_fails {n x o : Nat} (hn : 0 < n) (h : n ≤ o) : peek (run n [(x, o)]) 0 = some (some x) ∧ destroy n (n + 1) (run n [(x, o)]) = some [] := by
  constructor
  · rw [c138_peek, if_pos hn]; rfl
  · rw [c138_order_partial (show 1 ≤ n from hn)]
    congr 1
    rw [List.map_eq_nil_iff]
    unfold ascending
    rw [List.flatMap_eq_nil_iff]
    intro k hk
    have := List.mem_range.1 hk
    have : ¬ o = k := by omega
    simp [this]

/-- Four objects, two of them of the same order. -/
example : destroy 5 6 (run 5 [(10, 3), (11, 0), (12, 3), (13, 4)]) = some [some 11, some 10, some 12, some 13] ∧
    ascending 5 [(10, 3), (11, 0), (12, 3), (13, 4)] = [11, 10, 12, 13] := by decide

end Verif.GlobalObjects
