import Verif.Model.WebTree
import Verif.Spec.WebTree
import Verif.Props.RefContainer
set_option linter.unusedSimpArgs false
set_option linter.unusedVariables false
namespace Verif.Web
open Verif.RefC Verif.Spec.RefC Verif.Spec.Web

/-! ## Searches that remove nothing are defined and stay in the tree -/

theorem setMode_quiet (f : Filter) : f.setMode.reverse = f.reverse ∧ f.setMode.remove = f.remove := by
  unfold Filter.setMode; split <;> exact ⟨rfl, rfl⟩

theorem inc_quiet (f : Filter) : f.incrementFound.reverse = f.reverse ∧ f.incrementFound.remove = f.remove := by
  unfold Filter.incrementFound; split <;> exact ⟨rfl, rfl⟩

theorem test_quiet (f : Filter) (prev : List Obj) (o : Obj) :
    (f.test prev o).2.reverse = f.reverse ∧ (f.test prev o).2.remove = f.remove := by
  unfold Filter.test
  cases f.kind with
  | byRef id => simp only [testRef]; split <;> simp [inc_quiet]
  | byName addr =>
    simp only [testName]
    split
    · cases o.name with
      | none => exact ⟨rfl, rfl⟩
      | some n =>
        simp only
        repeat' split
        all_goals simp [inc_quiet, setMode_quiet]
    · exact ⟨rfl, rfl⟩

theorem quiet_loop (P : Obj → Prop) (fuel : Nat) : ∀ (rest pre res : List Obj) (f : Filter), sizeObjs rest ≤ fuel →
    f.reverse = false → f.remove = false → (∀ o ∈ preorders rest, P o) → (∀ o ∈ res, P o) →
    ∃ f' res', findLoop fuel pre.length f res (pre ++ rest) = some (f', res', pre ++ rest) ∧ f'.reverse = false ∧
      f'.remove = false ∧ ∀ o ∈ res', P o := by
  induction fuel with
  | zero => intro rest pre res f hf; have := sizeObjs_pos rest; omega
  | succ fuel ih =>
    intro rest pre res f hf hr hm hP hres
    cases rest with
    | nil => exact ⟨f, res, by rw [List.append_nil]; exact loop_end hr, hr, hm, hres⟩
    | cons c rest =>
      by_cases hfin : f.finished = true
      · exact ⟨f, res, loop_finished hfin, hr, hm, hres⟩
      have hsz : sizeObj c + sizeObjs rest ≤ fuel + 1 := hf
      have hpos := sizeObj_pos c
      have hrp := sizeObjs_pos rest
      have happ : pre ++ c :: rest = (pre ++ [c]) ++ rest := by simp
      have hPc : P c := hP c (by cases c <;> simp [preorders, preorder])
      have hPr : ∀ o ∈ preorders rest, P o := fun o ho => hP o (by simp [preorders, ho])
      have hcont : ∀ (f2 : Filter) (res2 : List Obj), f2.reverse = false → f2.remove = false → (∀ o ∈ res2, P o) →
          ∃ f' res', findLoop fuel ((pre.length : Int) + 1) f2 res2 (pre ++ c :: rest) = some (f', res', pre ++ c :: rest) ∧
            f'.reverse = false ∧ f'.remove = false ∧ ∀ o ∈ res', P o := by
        intro f2 res2 h1 h2 h3
        have := ih rest (pre ++ [c]) res2 f2 (by omega) h1 h2 hPr h3
        rw [← happ] at this
        simpa only [List.length_append, List.length_singleton, Int.natCast_add, Int.natCast_one] using this
      unfold findLoop
      rw [if_pos (by simp [hfin, hr]; omega)]
      have hget : (pre ++ c :: rest)[(pre.length : Int).toNat]? = some c := by simp
      rw [hget]
      simp only [Option.bind_some]
      obtain ⟨tq1, tq2⟩ := test_quiet f res c
      rw [hr] at tq1; rw [hm] at tq2
      generalize f.test res c = t at tq1 tq2 ⊢
      rw [tq2, tq1]
      simp only [Bool.and_false, Bool.false_eq_true, if_false]
      have hres2 : ∀ o ∈ (if (t.1 && (t.2.searchAll || t.2.finished)) = true then res ++ [c] else res), P o := by
        split
        · intro o ho
          rcases List.mem_append.mp ho with h | h
          · exact hres o h
          · rw [List.mem_singleton.mp h]; exact hPc
        · exact hres
      generalize (if (t.1 && (t.2.searchAll || t.2.finished)) = true then res ++ [c] else res) = res2 at hres2 ⊢
      by_cases h1 : t.2.finished = true
      · rw [if_pos h1]; exact ⟨t.2, res2, rfl, tq1, tq2, hres2⟩
      rw [if_neg h1]
      cases hk : (if t.2.recursive = true then c.kids? else none) with
      | none => exact hcont t.2 res2 tq1 tq2 hres2
      | some ck =>
        have hck : c.kids? = some ck := by
          by_cases h : t.2.recursive = true
          · simpa [h] using hk
          · simp [h] at hk
        have hcs := sizeObj_kids hck
        have hckp := sizeObjs_pos ck
        have hPk : ∀ o ∈ preorders ck, P o := fun o ho => hP o (by
          cases c with
          | leaf i n => simp [Obj.kids?] at hck
          | cont i n k => simp only [Obj.kids?, Option.some.injEq] at hck; subst hck; simp [preorders, preorder, ho])
        simp only
        have hres3 : ∀ o ∈ (if t.2.path = true then res2 ++ [c] else res2), P o := by
          split
          · intro o ho
            rcases List.mem_append.mp ho with h | h
            · exact hres2 o h
            · rw [List.mem_singleton.mp h]; exact hPc
          · exact hres2
        generalize hg : (if t.2.path = true then res2 ++ [c] else res2) = res3 at hres3 ⊢
        have tail : ∀ X : Option (Filter × List Obj × List Obj), (∃ f' res', X = some (f', res', ck) ∧ f'.reverse = false ∧
            f'.remove = false ∧ ∀ o ∈ res', P o) →
            ∃ f' res', (X.bind fun r => findLoop fuel (if r.1.reverse = true then (pre.length : Int) - 1 else (pre.length : Int) + 1) r.1
              (if (!r.1.recursive) = true then []
                else if res3.length = r.2.1.length then if r.1.path = true then r.2.1.dropLast else r.2.1 else r.2.1)
              ((pre ++ c :: rest).set (pre.length : Int).toNat (c.withKids r.2.2))) = some (f', res', pre ++ c :: rest) ∧
              f'.reverse = false ∧ f'.remove = false ∧ ∀ o ∈ res', P o := by
          rintro X ⟨f4, res4, rfl, q1, q2, h4⟩
          simp only [Option.bind_some, q1, Bool.false_eq_true, if_false]
          have hset : (pre ++ c :: rest).set (pre.length : Int).toNat (c.withKids ck) = pre ++ c :: rest := by
            rw [withKids_self hck]; simp
          rw [hset]
          apply hcont _ _ q1 q2
          split
          · simp
          · split
            · split
              · exact fun o ho => h4 o ((List.dropLast_sublist _).subset ho)
              · exact h4
            · exact h4
        apply tail
        unfold startIndex
        by_cases h : ck.length > 0
        · rw [if_pos h, tq1]
          have := ih ck [] res3 t.2 (by omega) tq1 tq2 hPk hres3
          simpa using this
        · rw [if_neg h]; exact ⟨t.2, res3, rfl, tq1, tq2, hres3⟩

theorem nameFilter_quiet (n : Int) (rec : Bool) (s : List Char) :
    (nameFilter n rec false false false s).reverse = false ∧ (nameFilter n rec false false false s).remove = false := by
  unfold nameFilter
  simp only
  split <;> simp [setMode_quiet]

theorem findPath_quiet (P : Obj → Prop) (fuel : Nat) (s : List Char) (kids : List Obj) (hf : sizeObjs kids ≤ fuel)
    (hP : ∀ o ∈ preorders kids, P o) : ∃ r, findPath fuel s false kids = some r ∧ ∀ o, r = some o → P o := by
  have hp := sizeObjs_pos kids
  obtain ⟨m, rfl⟩ : ∃ m, fuel = m + 1 := ⟨fuel - 1, by omega⟩
  obtain ⟨h1, h2⟩ := nameFilter_quiet 1 false s
  obtain ⟨f', res', e, -, -, h⟩ := quiet_loop P (m + 1) kids [] [] _ hf h1 h2 hP (by simp)
  refine ⟨res'.getLast?, ?_, fun o ho => h o (List.mem_of_getLast? ho)⟩
  unfold findPath
  rw [find_eq_loop m _ kids h1]
  simp only [List.length_nil, List.nil_append, Int.natCast_zero] at e
  rw [e]; rfl

mutual
theorem preorder_below (top : List Obj) : ∀ o, (∀ kids, o.kids? = some kids → Below top kids) →
    ∀ x ∈ preorder o, x = o ∨ ∃ k, Below top k ∧ x ∈ k
  | .leaf i n, _, x, hx => by simp [preorder] at hx; exact Or.inl hx
  | .cont i n k, h, x, hx => by
    simp only [preorder, List.mem_cons] at hx
    rcases hx with rfl | hx
    · exact Or.inl rfl
    · exact Or.inr (preorders_below_aux top k k (h k rfl) (fun _ h => h) x hx)
theorem preorders_below_aux (top whole : List Obj) : ∀ ks, Below top whole → (∀ o ∈ ks, o ∈ whole) → ∀ x ∈ preorders ks,
    ∃ k, Below top k ∧ x ∈ k
  | [], _, _, x, hx => by simp [preorders] at hx
  | o :: os, hb, hm, x, hx => by
    simp only [preorders, List.mem_append] at hx
    rcases hx with hx | hx
    · rcases preorder_below top o (fun kids hk => .child hb (hm o (by simp)) hk) x hx with rfl | h
      · exact ⟨whole, hb, hm x (by simp)⟩
      · exact h
    · exact preorders_below_aux top whole os hb (fun y hy => hm y (by simp [hy])) x hx
end

theorem preorders_below (kids : List Obj) (x : Obj) (hx : x ∈ preorders kids) : ∃ k, Below kids k ∧ x ∈ k :=
  preorders_below_aux kids kids kids .self (fun _ h => h) x hx

/-! ## Looking a path up -/

theorem none_loop (ws : List (List Char)) (h2 : 1 < ws.length) (fuel : Nat) : ∀ (rest pre : List Obj) (b : Bool),
    sizeObjs rest ≤ fuel → (∀ c ∈ rest, c.name.isSome ∧ c.name ≠ ws.head?) →
    ∃ b', findLoop fuel pre.length (pf ws 1 b) [] (pre ++ rest) = some (pf ws 1 b', [], pre ++ rest) := by
  induction fuel with
  | zero => intro rest pre b hf; have := sizeObjs_pos rest; omega
  | succ fuel ih =>
    intro rest pre b hf hn
    cases rest with
    | nil => exact ⟨b, by rw [List.append_nil]; exact loop_end rfl⟩
    | cons c rest =>
      have hsz : sizeObj c + sizeObjs rest ≤ fuel + 1 := hf
      have hpos := sizeObj_pos c
      obtain ⟨h1, h3⟩ := hn c (by simp)
      obtain ⟨n, hname⟩ := Option.isSome_iff_exists.mp h1
      have ht := test_pf (addr := ws) (b := b) (prev := []) (o := c) h2 hname
      have hag : agrees ws [] n = false := by
        rw [hname] at h3
        cases ws with
        | nil => simp at h2
        | cons w ws => 
          have : ¬ w = n := fun e => h3 (by simp [e])
          simp [agrees, this]
      rw [hag] at ht
      have ih' := ih rest (pre ++ [c]) false (by omega) (fun d hd => hn d (by simp [hd]))
      obtain ⟨b', e⟩ := ih'
      refine ⟨b', ?_⟩
      rw [pf_skip (b' := false) (by simpa using ht) (by simp)]
      simpa using e

theorem at_prefix {root : List Obj} {a b : List (List Char)} {o : Obj} (ha : a ≠ []) (h : At root (a ++ b) o) :
    ∃ x, At root a x := by
  induction a generalizing root with
  | nil => exact absurd rfl ha
  | cons w a ih =>
    by_cases hab : a ++ b = []
    · rw [List.cons_append, hab] at h
      have : a = [] := (List.append_eq_nil_iff.mp hab).1
      subst this
      exact ⟨o, h⟩
    · rw [List.cons_append, At_cons hab] at h
      obtain ⟨c, hm, ck, hn, hk, hat⟩ := h
      by_cases h0 : a = []
      · subst h0; exact ⟨c, hm, hn⟩
      · obtain ⟨x, hx⟩ := ih h0 hat
        exact ⟨x, (At_cons h0).mpr ⟨c, hm, ck, hn, hk, hx⟩⟩

theorem at_head {root : List Obj} {w : List Char} {ws : List (List Char)} {o : Obj} (h : At root (w :: ws) o) :
    ∃ c ∈ root, c.name = some w := by
  by_cases h0 : ws = []
  · subst h0; exact ⟨o, h.1, h.2⟩
  · rw [At_cons h0] at h
    obtain ⟨c, hm, ck, hn, -⟩ := h
    exact ⟨c, hm, hn⟩

theorem lookup (fuel : Nat) (root : List Obj) (hc : Clear root) (hf : sizeObjs root ≤ fuel) (ws : List (List Char))
    (hw : Words ws) (hlen : (joinPath ws).length < 4294967296) :
    ∃ r, findPath fuel (joinPath ws) false root = some r ∧ ∀ o, r = some o ↔ At root ws o := by
  have hp := sizeObjs_pos root
  cases ws with
  | nil => exact absurd rfl hw.1
  | cons w ws =>
    by_cases h0 : ws = []
    · subst h0
      refine ⟨_, (c07_single_name fuel w hw hlen root hf).1, fun o => ?_⟩
      constructor
      · intro h
        exact ⟨List.mem_of_find?_eq_some h, by simpa using List.find?_some (p := fun x : Obj => x.name == some w) h⟩
      · intro h
        have := at_follow (kids := root) (ws := [w]) (fun k hk => hc.unique k hk) h
        exact this
    · have h2 : 1 < (w :: ws).length := by
        have := List.length_pos_iff.mpr h0
        simp; omega
      by_cases hh : ∃ d ∈ root, d.name = some w
      · obtain ⟨d, hd, hdn⟩ := hh
        have hN : Named root := by
          intro o ho
          obtain ⟨k, hk, hm⟩ := preorders_below root o ho
          exact hc.named k hk o hm
        obtain ⟨r, e, h3, h4⟩ := c07_find_path_partial fuel (w :: ws) hw h2 hlen false root hN hf
        refine ⟨r, e, fun o => ?_⟩
        have := c07_find_path_exact fuel (w :: ws) hw h2 hlen false root hN hf (fun k hk => hc.unique k hk)
          (fun k hk c hcm hcn => hc.top k hk c hcm d hd (by rw [hcn, hdn]; rfl)) o
        rw [e] at this
        simpa using this
      · refine ⟨none, ?_, fun o => ?_⟩
        · rw [findPath_eq fuel (w :: ws) hw h2 hlen false root (by omega)]
          obtain ⟨b', e⟩ := none_loop (w :: ws) h2 fuel root [] true hf (fun c hcm => ⟨hc.named root .self c hcm, by
            intro h; exact hh ⟨c, hcm, by simpa using h⟩⟩)
          simp only [List.length_nil, List.nil_append, Int.natCast_zero] at e
          rw [e]; rfl
        · constructor
          · intro h; simp at h
          · intro h
            exact absurd (at_head h) (fun ⟨c, h1, h2⟩ => hh ⟨c, h1, h2⟩)

/-! ## The cut at the last dot -/

theorem cutLast_none (w : List Char) (h : '.' ∉ w) : cutLast w = none := by
  induction w with
  | nil => rfl
  | cons c w ih =>
    simp only [List.mem_cons, not_or] at h
    have : ¬ c = '.' := fun e => h.1 e.symm
    simp [cutLast, ih h.2, this]

theorem cutLast_dot (a w : List Char) (h : '.' ∉ w) : cutLast (a ++ '.' :: w) = some (a, w) := by
  induction a with
  | nil => simp [cutLast, cutLast_none w h]
  | cons c a ih => simp [cutLast, ih]

theorem cutLast_length (s : List Char) : ∀ r, cutLast s = some r → r.1.length + 1 + r.2.length = s.length := by
  induction s with
  | nil => intro r h; simp [cutLast] at h
  | cons c s ih =>
    intro r h
    rw [cutLast] at h
    cases hc : cutLast s with
    | some q =>
      rw [hc] at h
      simp only [Option.some.injEq] at h
      have := ih q hc
      subst h
      simp only [List.length_cons]; omega
    | none =>
      rw [hc] at h
      by_cases hd : c = '.'
      · simp only [hd, if_true, Option.some.injEq] at h
        subst h
        simp; omega
      · simp [hd] at h

theorem join_snoc (ws : List (List Char)) (w : List Char) (h : ws ≠ []) : joinPath (ws ++ [w]) = joinPath ws ++ '.' :: w := by
  induction ws with
  | nil => exact absurd rfl h
  | cons x ws ih =>
    by_cases h0 : ws = []
    · subst h0; rfl
    · have e1 : joinPath (x :: (ws ++ [w])) = x ++ '.' :: joinPath (ws ++ [w]) := by
        cases ws with
        | nil => exact absurd rfl h0
        | cons y ws => rfl
      have e2 : joinPath (x :: ws) = x ++ '.' :: joinPath ws := by
        cases ws with
        | nil => exact absurd rfl h0
        | cons y ws => rfl
      rw [List.cons_append, e1, ih h0, e2]; simp

theorem join_cons (w : List Char) (ws : List (List Char)) (h : ws ≠ []) : joinPath (w :: ws) = w ++ '.' :: joinPath ws := by
  cases ws with
  | nil => exact absurd rfl h
  | cons y ws => rfl

theorem join_pos (ws : List (List Char)) (hw : Words ws) : 0 < (joinPath ws).length := by
  obtain ⟨c, r, e, -⟩ := join_head ws hw
  rw [e]; simp

theorem join_length_snoc (ws : List (List Char)) (w : List Char) : (joinPath ws).length ≤ (joinPath (ws ++ [w])).length := by
  by_cases h : ws = []
  · subst h; simp [joinPath]
  · rw [join_snoc ws w h]; simp

/-! ## The target -/

/-- What the loop does on a path of words. -/
theorem target_words (fuel : Nat) (root : List Obj) (hc : Clear root) (hf : sizeObjs root ≤ fuel) : ∀ (k n : Nat)
    (pre suf : List (List Char)), pre.length = k → Words pre → (joinPath pre).length < 4294967296 → k ≤ n →
    (∀ w ∈ suf, w ≠ [] ∧ '.' ∉ w) →
    (∀ o rest, Longest root pre o rest →
      findTarget fuel root n (joinPath pre) (joinPath suf) = some (some (.inr o), joinPath (rest ++ suf))) ∧
    (Nowhere root pre → ∃ r, findTarget fuel root n (joinPath pre) (joinPath suf) = some (none, r)) := by
  intro k
  induction k with
  | zero => intro n pre suf h1 h2; exact absurd (List.eq_nil_of_length_eq_zero h1) h2.1
  | succ k ih =>
    intro n pre suf h1 h2 hlen hn hs
    obtain ⟨n, rfl⟩ : ∃ m, n = m + 1 := ⟨n - 1, by omega⟩
    obtain ⟨r, er, hr⟩ := lookup fuel root hc hf pre h2 hlen
    have hpos := join_pos pre h2
    have efr : findReference fuel root (joinPath pre) = some (r.map .inr) := by
      unfold findReference
      rw [if_pos hpos, er]; rfl
    cases r with
    | some o' =>
      have hat : At root pre o' := (hr o').mp rfl
      constructor
      · rintro o rest ⟨p, e, ha, hmax⟩
        have hle := hmax pre [] o' (by simp) hat
        have hrest : rest = [] := by
          have := congrArg List.length e
          rw [List.length_append] at this
          exact List.eq_nil_of_length_eq_zero (by omega)
        subst hrest
        rw [List.append_nil] at e
        subst e
        have : some o' = some o := (hr o).mpr ha
        cases this
        simp only [findTarget, efr, Option.map_some, Option.bind_some, List.nil_append]
      · intro h; exact absurd hat (h pre [] o' (by simp))
    | none =>
      have hno : ∀ o, ¬ At root pre o := fun o h => by have := (hr o).mpr h; simp at this
      rcases List.eq_nil_or_concat pre with h0 | ⟨ps, w, e⟩
      · exact absurd h0 h2.1
      rw [List.concat_eq_append] at e
      subst e
      have hww := h2.2 w (by simp)
      by_cases h0 : ps = []
      · subst h0
        have ec : cutLast (joinPath ([] ++ [w])) = none := by
          show cutLast w = none
          exact cutLast_none w hww.2
        constructor
        · rintro o rest ⟨p, e, ha, hmax⟩
          have hp := at_ne_nil ha
          have : p = [w] := by
            cases p with
            | nil => exact absurd rfl hp
            | cons x p =>
              simp only [List.nil_append, List.cons_append, List.cons.injEq] at e
              have := List.append_eq_nil_iff.mp e.2.symm
              rw [this.1, e.1]
          subst this
          exact absurd ha (hno o)
        · intro _
          refine ⟨joinPath suf, ?_⟩
          simp only [findTarget, efr, Option.map_none, Option.bind_some, ec]
      · have hwp : Words ps := ⟨h0, fun x hx => h2.2 x (by simp [hx])⟩
        have ec : cutLast (joinPath (ps ++ [w])) = some (joinPath ps, w) := by
          rw [join_snoc ps w h0]; exact cutLast_dot _ _ hww.2
        have hlp : ps.length = k := by simp at h1; exact h1
        have hnew : (if (joinPath suf).length = 0 then w else w ++ '.' :: joinPath suf) = joinPath (w :: suf) := by
          by_cases h5 : suf = []
          · subst h5; rfl
          · rw [join_cons w suf h5, if_neg]
            have := join_pos suf ⟨h5, hs⟩
            omega
        have step : findTarget fuel root (n + 1) (joinPath (ps ++ [w])) (joinPath suf) =
            findTarget fuel root n (joinPath ps) (joinPath (w :: suf)) := by
          rw [← hnew]
          simp only [findTarget, efr, Option.map_none, Option.bind_some, ec]
        have hl2 := join_length_snoc ps w
        obtain ⟨i1, i2⟩ := ih n ps (w :: suf) hlp hwp (by omega) (by omega) (by
          intro x hx
          rcases List.mem_cons.mp hx with rfl | hx
          · exact hww
          · exact hs x hx)
        constructor
        · rintro o rest ⟨p, e, ha, hmax⟩
          have hrn : rest ≠ [] := by
            rintro rfl
            rw [List.append_nil] at e
            subst e
            exact hno o ha
          obtain ⟨rs, x, e5⟩ : ∃ rs x, rest = rs ++ [x] := by
            rcases List.eq_nil_or_concat rest with h | ⟨rs, x, h⟩
            · exact absurd h hrn
            · exact ⟨rs, x, by rw [h, List.concat_eq_append]⟩
          subst e5
          rw [← List.append_assoc] at e
          have e6 := List.append_inj' e rfl
          have hx : w = x := by simpa using e6.2
          subst hx
          have := i1 o rs ⟨p, e6.1, ha, fun p' r' o' e' ha' => hmax p' (r' ++ [w]) o' (by rw [e', List.append_assoc]) ha'⟩
          rw [step, this]
          simp
        · intro h
          obtain ⟨q, e⟩ := i2 (fun p' r' o' e' ha' => h p' (r' ++ [w]) o' (by rw [e', List.append_assoc]) ha')
          exact ⟨q, by rw [step]; exact e⟩

/-- What the loop does on any path. -/
theorem target_any (P : Obj → Prop) (fuel : Nat) (root : List Obj) (hf : sizeObjs root ≤ fuel)
    (hP : ∀ o ∈ preorders root, P o) : ∀ (n : Nat) (path reparsed : List Char), path.length < n →
    ∃ t r, findTarget fuel root n path reparsed = some (t, r) ∧ ∀ o, t = some (.inr o) → P o ∧
      r.length < path.length + (if reparsed.length = 0 then 0 else reparsed.length + 1) := by
  intro n
  induction n with
  | zero => intro path _ h; omega
  | succ n ih =>
    intro path rep hn
    unfold findTarget
    by_cases hp : path.length > 0
    · obtain ⟨r, er, hr⟩ := findPath_quiet P fuel path root hf hP
      have efr : findReference fuel root path = some (r.map .inr) := by unfold findReference; rw [if_pos hp, er]; rfl
      rw [efr]
      cases r with
      | some o =>
        refine ⟨_, _, rfl, fun o' h => ?_⟩
        simp only [Option.map_some, Option.some.injEq, Sum.inr.injEq] at h
        subst h
        refine ⟨hr o rfl, ?_⟩
        split <;> omega
      | none =>
        simp only [Option.map_none, Option.bind_some]
        cases hc : cutLast path with
        | none => exact ⟨_, _, rfl, fun o h => by simp at h⟩
        | some q =>
          have hl := cutLast_length path q hc
          obtain ⟨t, r, e, h⟩ := ih q.1 (if rep.length = 0 then q.2 else q.2 ++ '.' :: rep) (by omega)
          refine ⟨t, r, e, fun o ho => ⟨(h o ho).1, Nat.lt_of_lt_of_le (h o ho).2 ?_⟩⟩
          by_cases h0 : rep.length = 0
          · simp only [h0, if_true]
            split <;> omega
          · simp only [h0, if_false]
            have : (q.2 ++ '.' :: rep).length = q.2.length + 1 + rep.length := by simp; omega
            rw [this]
            split <;> omega
    · have efr : findReference fuel root path = some (some (.inl ())) := by unfold findReference; rw [if_neg hp]
      rw [efr]
      exact ⟨_, _, rfl, fun o h => by simp at h⟩

end Verif.Web
