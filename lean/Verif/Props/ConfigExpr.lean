import Verif.Spec.ConfigExpr
/-! ## C107: expressions in configurations -/
set_option linter.unusedSimpArgs false
namespace Verif.ConfigExpr
open Verif.Spec.ConfigExpr

variable {V Ty : Type} (m : Math V Ty)

private theorem move_fields (p : List Name) (d : Db V) : (move p d).2.nodes = d.nodes ∧ (move p d).2.leaf = d.leaf := by
  rw [move]; split <;> exact ⟨rfl, rfl⟩

private theorem move_ok {p : List Name} {d : Db V} (h : p = [] ∨ p ∈ d.nodes) : move p d = (true, { d with here := p }) := by rw [move, if_pos h]

private theorem move_no {p : List Name} {d : Db V} (h : ¬ (p = [] ∨ p ∈ d.nodes)) : move p d = (false, d) := by rw [move, if_neg h]

private theorem browse_fields : ∀ (vs : List Var) (d : Db V) (q : List (Var × V) × Db V), browse vs d = some q → q.2.nodes = d.nodes ∧ q.2.leaf = d.leaf
  | [], d, q, h => by simp only [browse, Option.some_inj] at h; rw [← h]; exact ⟨rfl, rfl⟩
  | v :: vs, d, q, h => by
    have key : ∀ r : Bool × Db V, r.2.nodes = d.nodes ∧ r.2.leaf = d.leaf →
        (if r.1 then (match r.2.leaf r.2.here v.name with | some (.value x) => (browse vs r.2).map fun q => ((v, x) :: q.1, q.2) | _ => none) else none) = some q →
        q.2.nodes = d.nodes ∧ q.2.leaf = d.leaf := by
      intro r hr h
      split at h
      · split at h
        · rw [Option.map_eq_some_iff] at h
          obtain ⟨q', h1, rfl⟩ := h
          obtain ⟨a, b⟩ := browse_fields vs r.2 q' h1
          exact ⟨a.trans hr.1, b.trans hr.2⟩
        · cases h
      · cases h
    refine key (if v.path = [] then (true, d) else move v.path d) ?_ h
    split
    · exact ⟨rfl, rfl⟩
    · exact move_fields _ _

/-- The variables are looked for as they should be, if those of the root come first. -/
private theorem browse_eq : ∀ (vs : List Var) (d : Db V), Wf d.nodes d.leaf → rootFirst vs → (d.here = [] ∨ ∀ u ∈ vs, u.path ≠ []) →
    (browse vs d).map (·.1) = values d.leaf vs
  | [], d, _, _, _ => rfl
  | v :: vs, d, hw, hr, hh => by
    rw [rootFirst] at hr
    have key : ∀ e : Db V, e.leaf = d.leaf → e.nodes = d.nodes → e.here = v.path → (e.here = [] ∨ ∀ u ∈ vs, u.path ≠ []) →
        (((match e.leaf e.here v.name with | some (.value x) => (browse vs e).map fun q => ((v, x) :: q.1, q.2) | _ => none) : Option (List (Var × V) × Db V)).map (fun q => q.1)) = values d.leaf (v :: vs) := by
      intro e h1 h2 h3 h4
      have ih := browse_eq vs e (by rw [h1, h2]; exact hw) hr.2 h4
      rw [h1] at ih
      rw [values, ← ih, h1, h3]
      cases d.leaf v.path v.name with
      | none => rfl
      | some l =>
        cases l with
        | text t => rfl
        | value x =>
          simp only
          cases browse vs e <;> rfl
    simp only [browse]
    by_cases hp : v.path = []
    · simp only [hp, if_true]
      have h0 : d.here = [] := by
        rcases hh with h | h
        · exact h
        · exact absurd hp (h v (by simp))
      exact key d rfl rfl (h0.trans hp.symm) (.inl h0)
    · rw [if_neg hp]
      by_cases hm : v.path = [] ∨ v.path ∈ d.nodes
      · rw [move_ok hm]
        simp only [if_true]
        exact key { d with here := v.path } rfl rfl rfl (.inr (hr.1 hp))
      · rw [move_no hm]
        simp only [Bool.false_eq_true, if_false, Option.map_none]
        rw [values]
        cases hl : d.leaf v.path v.name with
        | none => rfl
        | some l => exact absurd (hw _ _ _ hl) hm

/-- The variables of the root come first in every expression. -/
private def AllFirst (m : Math V Ty) : Prop := ∀ t vs, m.vars t = some vs → rootFirst vs

private theorem expand_eq (e : Expr Ty) (d : Db V) (hw : Wf d.nodes d.leaf) (hf : AllFirst m) :
    (expand m e d).map (·.leaf) = replaced m e d.leaf ∧ ∀ d', expand m e d = some d' → d'.nodes = d.nodes ∧ Wf d'.nodes d'.leaf := by
  by_cases hm : e.path = [] ∨ e.path ∈ d.nodes
  · have h1 : move e.path d = (true, { d with here := e.path }) := move_ok hm
    rw [expand, replaced, h1]
    simp only [if_true]
    cases hl : d.leaf e.path e.leaf with
    | none => exact ⟨rfl, fun d' h => by cases h⟩
    | some l =>
      cases l with
      | value x => exact ⟨rfl, fun d' h => by cases h⟩
      | text t =>
        simp only
        cases hv : m.vars t with
        | none => exact ⟨rfl, fun d' h => by cases h⟩
        | some vars =>
          simp only [Option.bind_some]
          have h2 : (move [] ({ d with here := e.path } : Db V)).2 = { d with here := [] } := by rw [move_ok (.inl rfl)]
          have hb := browse_eq vars { d with here := [] } hw (hf t vars hv) (.inl rfl)
          rw [h2]
          simp only at hb
          rw [← hb]
          cases hn : m.numeric e.ty with
          | false =>
            simp only [Bool.false_eq_true, if_false]
            refine ⟨?_, fun d' h => by cases h⟩
            cases browse vars { d with here := [] } <;> rfl
          | true =>
            simp only [if_true]
            cases hq : browse vars { d with here := [] } with
            | none => exact ⟨rfl, fun d' h => by cases h⟩
            | some q =>
              obtain ⟨hq1, hq2⟩ := browse_fields _ _ _ hq
              simp only [Option.map_some, Option.bind_some]
              cases hx : m.run t e.ty q.1 with
              | none => exact ⟨rfl, fun d' h => by cases h⟩
              | some x =>
                simp only [Option.map_some]
                have h3 : move e.path q.2 = (true, { q.2 with here := e.path }) := move_ok (by rw [hq1]; exact hm)
                rw [h3]
                simp only [if_true, Option.map_some, write]
                refine ⟨?_, ?_⟩
                · rw [hq2]
                · intro d' h
                  rw [Option.some_inj] at h
                  subst h
                  refine ⟨hq1, ?_⟩
                  intro p n l hpl
                  simp only at hpl ⊢
                  rw [hq1]
                  by_cases hc : p = e.path ∧ n = e.leaf
                  · rw [hc.1]; exact hm
                  · rw [if_neg hc, hq2] at hpl
                    exact hw p n l hpl
  · have h1 : move e.path d = (false, d) := move_no hm
    rw [expand, replaced, h1]
    simp only [Bool.false_eq_true, if_false, Option.map_none]
    refine ⟨?_, fun d' h => by cases h⟩
    cases hl : d.leaf e.path e.leaf with
    | none => rfl
    | some l => exact absurd (hw _ _ _ hl) hm

/-- **C107 (partial).** Every expression is replaced by its value, in the order in which they are written, and all other leaves stay;
the parser answers an error exactly if one has no value.  For expressions in which the variables of the root come before the
others. Missing: other expressions, for which the claim fails (`c107_root_fails`). -/
theorem c107_expressions_partial (es : List (Expr Ty)) (d : Db V) (hw : Wf d.nodes d.leaf) (hf : ∀ t vs, m.vars t = some vs → rootFirst vs) :
    (expandAll m es d).map (·.leaf) = replacedAll m es d.leaf ∧ ∀ d', expandAll m es d = some d' → d'.nodes = d.nodes ∧ d'.here = [] := by
  induction es generalizing d with
  | nil =>
    refine ⟨?_, ?_⟩
    · simp only [expandAll, Option.map_some, replacedAll, (move_fields [] d).2]
    · intro d' h
      simp only [expandAll, Option.some_inj] at h
      rw [← h, move_ok (.inl rfl)]
      exact ⟨rfl, rfl⟩
  | cons e es ih =>
    obtain ⟨h1, h2⟩ := expand_eq m e d hw hf
    rw [expandAll, replacedAll, ← h1]
    cases he : expand m e d with
    | none => exact ⟨rfl, fun d' h => by cases h⟩
    | some d1 =>
      obtain ⟨a, b⟩ := h2 d1 he
      obtain ⟨i1, i2⟩ := ih d1 b
      simp only [Option.bind_some, Option.map_some]
      refine ⟨i1, ?_⟩
      intro d' h
      obtain ⟨j1, j2⟩ := i2 d' h
      exact ⟨j1.trans a, j2⟩

/-- **C107 (disagreement).** After a variable with a path, one of the root is looked for in the node of the first: another leaf is
used if there is one, and otherwise the variable is not found. -/
theorem c107_root_fails (e : Expr Ty) (d : Db V) (hm : e.path = [] ∨ e.path ∈ d.nodes) (t : List Char) (ht : d.leaf e.path e.leaf = some (.text t)) (a b : Var)
    (hv : m.vars t = some [a, b]) (ha : a.path ≠ []) (hb : b.path = []) (han : a.path ∈ d.nodes) (x : V) (hx : d.leaf a.path a.name = some (.value x))
    (hn : m.numeric e.ty = true) :
    (∀ y z, d.leaf a.path b.name = some (.value y) → m.run t e.ty [(a, x), (b, y)] = some z →
      ∃ d', expand m e d = some d' ∧ d'.leaf e.path e.leaf = some (.value z)) ∧
    (d.leaf a.path b.name = none → expand m e d = none) := by
  have h1 : move e.path d = (true, { d with here := e.path }) := move_ok hm
  have h2 : (move [] ({ d with here := e.path } : Db V)).2 = { d with here := [] } := by rw [move_ok (.inl rfl)]
  have h3 : move a.path ({ d with here := [] } : Db V) = (true, { d with here := a.path }) := move_ok (.inr han)
  constructor
  · intro y z hy hz
    have hbr : browse [a, b] ({ d with here := [] } : Db V) = some ([(a, x), (b, y)], { d with here := a.path }) := by
      simp only [browse, if_neg ha, h3, if_true, hx, hb, hy, Option.map_some]
    have h4 : move e.path ({ d with here := a.path } : Db V) = (true, { d with here := e.path }) := move_ok hm
    simp only [expand, h1, if_true, ht, hv, hn, h2, hbr, hz, h4]
    exact ⟨_, rfl, by simp [write]⟩
  · intro hy
    have hbr : browse [a, b] ({ d with here := [] } : Db V) = none := by
      simp only [browse, if_neg ha, h3, if_true, hx, hb, hy, Option.map_none]
    simp only [expand, h1, if_true, ht, hv, hn, h2, hbr]

/-- An expression that uses the leaf of one that is written later is refused. -/
theorem c107_later (e : Expr Ty) (d : Db V) (hw : Wf d.nodes d.leaf) (hf : ∀ t vs, m.vars t = some vs → rootFirst vs) (t : List Char)
    (ht : d.leaf e.path e.leaf = some (.text t)) (vs : List Var) (hv : m.vars t = some vs) (v : Var) (hin : v ∈ vs) (s : List Char)
    (hl : d.leaf v.path v.name = some (.text s)) (es : List (Expr Ty)) : expandAll m (e :: es) d = none := by
  have hval : values d.leaf vs = none := by
    clear hv
    induction vs with
    | nil => cases hin
    | cons u vs ih =>
      rw [values]
      rcases List.mem_cons.mp hin with rfl | h
      · rw [hl]
      · rw [ih h]
        split
        · rename_i hc; cases hc
        · rfl
  have h := (c107_expressions_partial m (e :: es) d hw hf).1
  rw [replacedAll, replaced, ht] at h
  simp only [hv, Option.bind_some, hval, Option.bind_none] at h
  rw [Option.map_eq_none_iff] at h
  exact h

/-! ### A concrete case: expressions are `x+y` with variables of one letter, or of two for a variable in a node -/

/-- `"a+bc"`: the sum of `a` and of `c` in the node `b`. -/
def sums : Math Nat Unit :=
  ⟨fun t => match t with
    | [a, '+', b, c] => some [⟨[], [a]⟩, ⟨[[b]], [c]⟩]
    | [b, c, '+', a] => some [⟨[[b]], [c]⟩, ⟨[], [a]⟩]
    | _ => none, fun _ => true, fun _ _ l => some (l.map (·.2)).sum⟩

/-- `a = 1`, `c = 10`, `n = { c = 5 }` and the expression `e`. -/
def conf (e : List Char) : Db Nat :=
  ⟨[[['n']]], fun p n => if p = [] ∧ n = ['a'] then some (.value 1) else if p = [] ∧ n = ['c'] then some (.value 10)
    else if p = [['n']] ∧ n = ['c'] then some (.value 5) else if p = [] ∧ n = ['e'] then some (.text e) else none, []⟩

/-- `a+nc` is 6; but `nc+c` is 10, with the `c` of the node, and `nc+a` is not found. -/
example : (expandAll sums [⟨[], ['e'], ()⟩] (conf "a+nc".toList)).map (fun d => d.leaf [] ['e']) = some (some (.value 6)) ∧
    (expandAll sums [⟨[], ['e'], ()⟩] (conf "nc+c".toList)).map (fun d => d.leaf [] ['e']) = some (some (.value 10)) ∧
    (expandAll sums [⟨[], ['e'], ()⟩] (conf "nc+a".toList)).isNone = true := by decide +kernel

example : Wf (conf "a+nc".toList).nodes (conf "a+nc".toList).leaf := by
  intro p n l h
  simp only [conf] at h ⊢
  by_cases h1 : p = []
  · exact .inl h1
  · by_cases h2 : p = [['n']]
    · right; rw [h2]; simp
    · simp [h1, h2] at h

end Verif.ConfigExpr
