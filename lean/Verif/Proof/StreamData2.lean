import Verif.Proof.StreamData
/-! ## A tree written on a stream -/
set_option linter.unusedSimpArgs false
namespace Verif.StreamData
open Verif.Config (Leaf)
open Verif.ConfigDb (Name)
open Verif.Json (Printer)
open Verif.Token (getToken)
open Verif.Spec.ConfigDb (Forest)
open Verif.Spec.ConfigDoc (nameOk)
open Verif.Spec.StreamData

variable {B : Type}

/-- What is written of a tree, when there is a value before (`a`), a node before (`b`), and a value just before (`v`). -/
def evs (p : Printer B) : (a b v : Bool) → Forest (Leaf B) → List Ev
  | _, _, _, .nil => []
  | a, b, _, .leaf n x r =>
    (if a then [.varSep] else if b then [.blockSep] else []) ++ [.line, .openVar n, .value (shown p x), .closeVar n] ++
      evs p true b true r
  | a, b, v, .node n s r =>
    (if b then [.blockSep] else []) ++ [.line] ++ (if v then [.blockSep] else []) ++ [.openBlock n] ++ evs p false false false s ++
      [.line, .closeBlock n] ++ evs p a true false r

theorem set_self (s : St) (w : List Name) (n : Node) : (s.set w n).node w = n := by simp [St.set]
theorem set_ne (s : St) {w v : List Name} (n : Node) (h : v ≠ w) : (s.set w n).node v = s.node v := by simp [St.set, h]

theorem isThere_append (s : St) : ∀ (a b w : List Name), isThere s w (a ++ b) = (isThere s w a && isThere s (w ++ a) b)
  | [], b, w => by simp [isThere]
  | x :: a, b, w => by simp [isThere, isThere_append s a b, Bool.and_assoc]

theorem isThere_congr {s s' : St} : ∀ (a w : List Name), (∀ i, i < a.length → (s.node (w ++ a.take i)).kids = (s'.node (w ++ a.take i)).kids) →
    isThere s w a = isThere s' w a
  | [], _, _ => rfl
  | x :: a, w, h => by
    have h0 := h 0 (by simp)
    simp only [List.take_zero, List.append_nil] at h0
    rw [isThere, isThere, h0, isThere_congr a (w ++ [x])]
    intro i hi
    have := h (i + 1) (by simp; omega)
    simpa using this

theorem closeDown_none {k : Nat} : ∀ (m : Nat) {w : List Name} (s : St), w.length ≤ k → closeDown k m w s = s
  | 0, _, _, _ => rfl
  | m + 1, w, s, h => by rw [closeDown, if_neg (by omega)]

theorem createLoop_new (n : Name) (hn : nameOk n = true) (s : St) : ∀ (ws w : List Name) (fuel : Nat), Simple ws → isThere s w ws = true →
    n ∉ (s.node (w ++ ws)).kids → ws.length + 2 ≤ fuel →
    createLoop fuel w (dotted (ws ++ [n])) s =
      (s.set (w ++ ws ++ [n]) .new).set (w ++ ws) { s.node (w ++ ws) with kids := (s.node (w ++ ws)).kids ++ [n] }
  | [], w, fuel + 2, _, _, hk, _ => by
    rw [createLoop]
    simp only [List.nil_append, dotted, token_last hn, if_true, List.append_nil] at hk ⊢
    have : (s.node w).kids.contains n = false := by simpa using hk
    simp only [this, Bool.false_eq_true, if_false, createLoop, token_nil]
  | x :: ws, w, fuel + 1, hs, ht, hk, hf => by
    rw [List.cons_append, dotted_cons x (by simp), createLoop]
    simp only [isThere, Bool.and_eq_true] at ht
    simp only [token_dot (hs x (by simp)), if_true, ht.1]
    have := createLoop_new n hn s ws (w ++ [x]) fuel (fun y hy => hs y (by simp [hy])) ht.2 (by simpa using hk) (by simp at hf; omega)
    simpa using this
  | [], _, 0, _, _, _, hf => by simp at hf
  | [], _, 1, _, _, _, hf => by simp at hf
  | x :: ws, _, 0, _, _, _, hf => by simp at hf

theorem dotted_length : ∀ {ws : List Name}, Simple ws → ws.length ≤ (dotted ws).length
  | [], _ => by simp
  | [w], h => by
    have := List.length_pos_iff.mpr (nameOk_iff.mp (h w (by simp))).1.1
    simp only [dotted, List.length_singleton]; omega
  | w :: x :: ws, h => by
    have := dotted_length (ws := x :: ws) (fun y hy => h y (by simp [hy]))
    rw [dotted_cons w (by simp)]; simp at this ⊢; omega

/-- The state is at a node that is there. -/
def Here (s : St) : Prop := s.path = dotted s.cur ∧ Simple s.cur ∧ isThere s [] s.cur = true

theorem create_step {s : St} (h : Here s) {n : Name} (hn : nameOk n = true) (hnew : n ∉ (s.node s.cur).kids)
    (hl : (dotted (s.cur ++ [n])).length < 2 ^ 32) :
    ∃ s', createRelative n s = (true, s') ∧ Here s' ∧ s'.cur = s.cur ++ [n] ∧ s'.blockClosed = false ∧
      s'.out = s.out ++ ((if s.blockClosed then [.blockSep] else []) ++ [.line] ++
        (if (s.node s.cur).sepBlock then [.blockSep] else []) ++ [.openBlock n]) ∧
      s'.node (s.cur ++ [n]) = .new ∧
      s'.node s.cur = { s.node s.cur with kids := (s.node s.cur).kids ++ [n], sepBlock := false, sepWrite := true } ∧
      ∀ w, w ≠ s.cur → w ≠ s.cur ++ [n] → s'.node w = s.node w := by
  obtain ⟨hp, hs, ht⟩ := h
  have hsn : Simple (s.cur ++ [n]) := by
    intro x hx
    rcases List.mem_append.mp hx with h | h
    · exact hs x h
    · rw [List.mem_singleton.mp h]; exact hn
  have hne : s.cur ++ [n] ≠ s.cur := by simp
  have hu : under s n = dotted (s.cur ++ [n]) := under_eq (u := [n]) hp hs (by simp)
  rw [createRelative, hu, createAbsolute,
    createLoop_new n hn s s.cur [] _ hs ht (by simpa using hnew) (by have := dotted_length hsn; simp at this ⊢; omega)]
  simp only [List.nil_append]
  generalize hs1 : (s.set (s.cur ++ [n]) .new).set s.cur { s.node s.cur with kids := (s.node s.cur).kids ++ [n] } = s1
  have n1 : s1.node (s.cur ++ [n]) = .new := by rw [← hs1, set_ne _ _ hne, set_self]
  have n2 : s1.node s.cur = { s.node s.cur with kids := (s.node s.cur).kids ++ [n] } := by rw [← hs1, set_self]
  have n3 : ∀ w, w ≠ s.cur → w ≠ s.cur ++ [n] → s1.node w = s.node w := by
    intro w h1 h2; rw [← hs1, set_ne _ _ h1, set_ne _ _ h2]
  have c1 : s1.cur = s.cur := by rw [← hs1]; rfl
  have c2 : s1.path = s.path := by rw [← hs1]; rfl
  have c3 : s1.out = s.out := by rw [← hs1]; rfl
  have c4 : s1.blockClosed = s.blockClosed := by rw [← hs1]; rfl
  have there : ∀ s2 : St, (∀ w, (s2.node w).kids = (s1.node w).kids) → isThere s2 [] (s.cur ++ [n]) = true := by
    intro s2 h2
    rw [isThere_append, Bool.and_eq_true]
    constructor
    · rw [← ht]
      refine isThere_congr _ _ fun i hi => ?_
      rw [h2, n3]
      · intro e; have := congrArg List.length e; simp at this; omega
      · intro e; have := congrArg List.length e; simp at this; omega
    · simp [isThere, h2, n2]
  have hex : common (s.cur ++ [n]) '.' s1.path 0 = s.cur.length := by
    rw [c2, hp, common_eq _ _ _ hs hsn, lcp_prefix]; simp
  simp only [moveAbsolute, address hsn (by simp) hl, there s1 (fun _ => rfl), hex, c1, closeDown_none _ _ (Nat.le_refl _), n1]
  have hg : ¬ (s.cur.length > s.cur.length) := by omega
  have hg2 : (decide (s.cur.length > 0) && s.cur.length == 0) = false := by
    cases s.cur <;> simp
  have hg3 : (decide ((s.cur ++ [n]).length > 0) && true) = true := by simp
  simp only [hg, hg2, hg3, if_true, if_false, Bool.false_eq_true, Node.new, List.drop_left, Nat.lt_irrefl, openUp]
  refine ⟨_, rfl, ⟨rfl, hsn, there _ ?_⟩, rfl, rfl, ?_, ?_, ?_, ?_⟩
  · intro w
    by_cases hw : w = s.cur
    · subst hw; cases hb : s1.blockClosed <;> cases hv : (s1.node s.cur).sepBlock <;> simp [St.set, St.put, hb, hv, c1]
    · cases hb : s1.blockClosed <;> cases hv : (s1.node s.cur).sepBlock <;> simp [St.set, St.put, hb, hv, c1, hw]
  · have hv : (s.node s.cur).sepBlock = (s1.node s.cur).sepBlock := by rw [n2]
    rw [← c4, hv, ← c3]
    cases hb : s1.blockClosed <;> cases hv : (s1.node s.cur).sepBlock <;> simp [St.set, St.put, hb, hv, c1]
  · rw [← Node.new, ← n1]
    cases hb : s1.blockClosed <;> cases hv : (s1.node s.cur).sepBlock <;> simp [St.set, St.put, hb, hv, c1]
  · rw [show ({ s.node s.cur with kids := (s.node s.cur).kids ++ [n], sepBlock := false, sepWrite := true } : Node) =
      { s1.node s.cur with sepBlock := false, sepWrite := true } by rw [n2]]
    cases hb : s1.blockClosed <;> cases hv : (s1.node s.cur).sepBlock <;> simp [St.set, St.put, hb, hv, c1]
  · intro w h1 h2
    rw [← n3 w h1 h2]
    cases hb : s1.blockClosed <;> cases hv : (s1.node s.cur).sepBlock <;> simp [St.set, St.put, hb, hv, c1, h1]

theorem leave_step {s : St} (h : Here s) {w : List Name} {n : Name} (hc : s.cur = w ++ [n]) :
    ∃ s', moveToAncestor 1 s = (true, s') ∧ Here s' ∧ s'.cur = w ∧ s'.blockClosed = true ∧ s'.out = s.out ++ [.line, .closeBlock n] ∧
      ∀ v, v ≠ w ++ [n] → s'.node v = s.node v := by
  obtain ⟨hp, hs, ht⟩ := h
  rw [hc] at hp hs ht
  have hk : closeDown w.length (w.length + 1) (w ++ [n]) s =
      { (s.set (w ++ [n]) { s.node (w ++ [n]) with closed := true }).put [.line, .closeBlock n] with blockClosed := true } := by
    rw [closeDown, if_pos (by simp)]
    simp only [List.getLast?_append, List.getLast?_singleton, Option.some_or, Option.getD_some, List.dropLast_concat]
    rw [closeDown_none _ _ (Nat.le_refl _)]
  rw [moveToAncestor, if_pos (by omega)]
  simp only [hc, hp, List.length_append, List.length_singleton, Nat.add_sub_cancel, ge_iff_le, Nat.le_add_left, if_true]
  rw [first_names _ _ hs (by simp), hk]
  simp only [if_true, List.take_left, path_of_names]
  refine ⟨_, rfl, ⟨rfl, fun x hx => hs x (by simp [hx]), ?_⟩, rfl, rfl, rfl, fun v hv => set_ne _ _ hv⟩
  rw [isThere_append, Bool.and_eq_true] at ht
  rw [← ht.1]
  refine isThere_congr _ _ fun i hi => ?_
  show (if _ then _ else _ : Node).kids = _
  split
  · rename_i e; rw [e]
  · rfl

theorem run_append (p : Printer B) : ∀ (a b : List (Op B)) (s s1 s2 : St) (x y : List Bool), run p s a = some (x, s1) → run p s1 b = some (y, s2) →
    run p s (a ++ b) = some (x ++ y, s2)
  | [], b, s, s1, s2, x, y, h1, h2 => by
    simp only [run, Option.some.injEq, Prod.mk.injEq] at h1
    obtain ⟨rfl, rfl⟩ := h1
    simpa using h2
  | op :: a, b, s, s1, s2, x, y, h1, h2 => by
    simp only [run, Option.bind_eq_some_iff, Option.map_eq_some_iff] at h1
    obtain ⟨r, e1, ⟨z, s3⟩, e2, e3⟩ := h1
    simp only [Prod.mk.injEq] at e3
    obtain ⟨rfl, rfl⟩ := e3
    rw [List.cons_append, run, e1, Option.bind_some, run_append p a b _ _ _ _ _ e2 h2]
    rfl

theorem write_step {p : Printer B} {s : St} (h : Here s) {n : Name} {x : Leaf B} {b : Bool} (hx : (p.value x).any (·.1) = true)
    (hb : (s.node s.cur).vars = 0 → (s.node s.cur).sepWrite = b) :
    ∃ s', write p n x s = some (true, s') ∧ Here s' ∧ s'.cur = s.cur ∧ s'.blockClosed = s.blockClosed ∧
      s'.out = s.out ++ ((if decide ((s.node s.cur).vars > 0) then [.varSep] else if b then [.blockSep] else []) ++
        [.line, .openVar n, .value (shown p x), .closeVar n]) ∧
      (s'.node s.cur).kids = (s.node s.cur).kids ∧ (s'.node s.cur).vars = ((s.node s.cur).vars + 1) % 2 ^ 32 ∧
      (s'.node s.cur).sepBlock = true ∧ ∀ v, v ≠ s.cur → s'.node v = s.node v := by
  obtain ⟨hp, hs, ht⟩ := h
  obtain ⟨t, hv⟩ : ∃ t, p.value x = some (true, t) := by
    cases e : p.value x with
    | none => simp [e] at hx
    | some r => obtain ⟨a, t⟩ := r; simp [e] at hx; subst hx; exact ⟨t, rfl⟩
  have ht' : ∀ s' : St, (∀ v, (s'.node v).kids = (s.node v).kids) → isThere s' [] s.cur = true := by
    intro s' h; rw [← ht]; exact isThere_congr _ _ fun i _ => h _
  have hsh : shown p x = t := by simp [shown, hv]
  simp only [write, hv, hsh]
  by_cases h0 : (s.node s.cur).vars > 0
  · simp only [h0, if_true, Bool.false_eq_true, if_false, decide_true]
    refine ⟨_, rfl, ⟨hp, hs, ht' _ ?_⟩, rfl, rfl, by simp, ?_, ?_, ?_, ?_⟩
    · intro v; by_cases e : v = s.cur <;> simp [St.set, St.put, e]
    all_goals simp [St.set, St.put]
    intro v e; simp [e]
  · have e0 : (s.node s.cur).vars = 0 := by omega
    have hb' := hb e0
    simp only [h0, if_false, hb', decide_false, Bool.false_eq_true]
    cases b
    · simp only [Bool.false_eq_true, if_false]
      refine ⟨_, rfl, ⟨hp, hs, ht' _ ?_⟩, rfl, rfl, by simp, ?_, ?_, ?_, ?_⟩
      · intro v; by_cases e : v = s.cur <;> simp [St.set, St.put, e]
      all_goals simp [St.set, St.put]
      intro v e; simp [e]
    · simp only [if_true]
      refine ⟨_, rfl, ⟨hp, hs, ht' _ ?_⟩, rfl, rfl, by simp, ?_, ?_, ?_, ?_⟩
      · intro v; by_cases e : v = s.cur <;> simp [St.set, St.put, e]
      all_goals simp [St.set, St.put]
      intro v e; simp [e]

theorem run_calls (p : Printer B) : ∀ (F : Forest (Leaf B)) (s : St) (b v : Bool), Here s → differ F = true → F.allNodes nameOk = true →
    (∀ n ∈ nodeNames F, n ∉ (s.node s.cur).kids) → fewValues F (s.node s.cur).vars = true → (s.node s.cur).sepBlock = v →
    ((s.node s.cur).vars = 0 → (s.node s.cur).sepWrite = b) → s.blockClosed = b → (dotted s.cur).length + longest F < 2 ^ 32 →
    printable p F = true →
    ∃ s', run p s (calls F) = some (List.replicate (calls F).length true, s') ∧ Here s' ∧ s'.cur = s.cur ∧
      s'.out = s.out ++ evs p (decide ((s.node s.cur).vars > 0)) b v F ∧ ∀ w, w.take s.cur.length ≠ s.cur → s'.node w = s.node w
  | .nil, s, b, v, h, _, _, _, _, _, _, _, _, _ => ⟨s, rfl, h, rfl, by simp [evs], fun _ _ => rfl⟩
  | .leaf n x r, s, b, v, h, hd, hn, hk, hf, hv, hw, hb, hl, hp => by
    simp only [printable, Forest.allLeaves, Bool.and_eq_true] at hp
    simp only [fewValues, Bool.and_eq_true, decide_eq_true_eq] at hf
    obtain ⟨s1, e1, g1, c1, b1, o1, k1, v1, x1, f1⟩ := write_step (p := p) (n := n) (x := x) (b := b) h hp.1 hw
    rw [Nat.mod_eq_of_lt hf.1] at v1
    obtain ⟨s2, e2, g2, c2, o2, f2⟩ := run_calls p r s1 b true g1 hd hn (by rw [c1, k1]; exact hk) (by rw [c1, v1]; exact hf.2)
      (by rw [c1, x1]) (by rw [c1, v1]; omega) (by rw [b1, hb]) (by rw [c1]; exact hl) hp.2
    refine ⟨s2, ?_, g2, c2.trans c1, ?_, ?_⟩
    · simp only [calls, run, step, e1, Option.bind_some, e2, Option.map_some, List.length_cons, List.replicate_succ]
    · rw [o2, o1, c1, v1]
      simp [evs]
    · intro w hne
      rw [f2 w (by rw [c1]; exact hne), f1]
      intro e; subst e; simp at hne
  | .node n S r, s, b, v, h, hd, hn, hk, hf, hv, hw, hb, hl, hp => by
    simp only [printable, Forest.allLeaves, Bool.and_eq_true] at hp
    simp only [fewValues, Bool.and_eq_true] at hf
    simp only [differ, Bool.and_eq_true, decide_eq_true_eq] at hd
    simp only [Forest.allNodes, Bool.and_eq_true] at hn
    simp only [longest] at hl
    have hlen : (dotted (s.cur ++ [n])).length ≤ (dotted s.cur).length + (n.length + 1) := by
      by_cases h0 : s.cur = []
      · rw [h0]; simp [dotted]
      · rw [dotted_append h0 (by simp)]; simp [dotted]
    obtain ⟨s1, e1, g1, c1, b1, o1, n1, m1, f1⟩ := create_step h hn.1.1 (hk n (by simp [nodeNames])) (by omega)
    have hnew : s1.node s1.cur = .new := by rw [c1, n1]
    obtain ⟨s2, e2, g2, c2, o2, f2⟩ := run_calls p S s1 false false g1 hd.1.2 hn.1.2 (by rw [hnew]; simp [Node.new])
      (by rw [hnew]; exact hf.1) (by rw [hnew]; rfl) (by rw [hnew]; exact fun _ => rfl) b1 (by rw [c1]; omega) hp.1
    have f2' : ∀ w, w.take (s.cur.length + 1) ≠ s.cur ++ [n] → s2.node w = s1.node w := by
      intro w hw; apply f2; rw [c1]; simpa using hw
    obtain ⟨s3, e3, g3, c3, b3, o3, f3⟩ := leave_step g2 (c2.trans c1)
    have hcur : s3.node s.cur = { s.node s.cur with kids := (s.node s.cur).kids ++ [n], sepBlock := false, sepWrite := true } := by
      rw [f3 _ (by simp), f2', m1]
      intro e; have := congrArg List.length e; simp at this
    obtain ⟨s4, e4, g4, c4, o4, f4⟩ := run_calls p r s3 true false g3 hd.2 hn.2 (by
        rw [c3, hcur]; intro m hm
        simp only [List.mem_append, List.mem_singleton, not_or]
        refine ⟨hk m (by simp [nodeNames, hm]), fun e => ?_⟩
        subst e; exact hd.1.1 hm)
      (by rw [c3, hcur]; exact hf.2) (by rw [c3, hcur]) (by rw [c3, hcur]; exact fun _ => rfl) b3 (by rw [c3]; omega) hp.2
    refine ⟨s4, ?_, g4, c4.trans c3, ?_, ?_⟩
    · have r2 : run p s2 (.moveToAncestor 1 :: calls r) = some (true :: List.replicate (calls r).length true, s4) := by
        simp only [run, step, e3, Option.bind_some, e4, Option.map_some]
      have r1 := run_append p _ _ _ _ _ _ _ e2 r2
      simp only [calls, run, step, e1, Option.bind_some, r1, Option.map_some, List.length_cons, List.length_append, Option.some.injEq,
        Prod.mk.injEq, and_true]
      rw [← List.replicate_succ, List.replicate_append_replicate, ← List.replicate_succ]
    · rw [o4, o3, o2, o1, c3, hcur, hnew]
      simp [evs, hb, hv, Node.new]
    · intro w hne
      have t1 : w.take s.cur.length ≠ s.cur := hne
      have t2 : w.take (s.cur.length + 1) ≠ s.cur ++ [n] := by
        intro e
        apply t1
        have := congrArg (List.take s.cur.length) e
        simpa [List.take_take] using this
      have t3 : w ≠ s.cur := by intro e; subst e; simp at t1
      have t4 : w ≠ s.cur ++ [n] := by intro e; subst e; simp at t1
      rw [f4 w (by rw [c3]; exact hne), f3 w t4, f2' w t2, f1 w t3 t4]

end Verif.StreamData
