import Verif.Spec.RegistryMsg
import Verif.Proof.RefContainer
namespace Verif.RefC
open Verif.Spec.RefC Verif.Spec.RegistryMsg

/-- The filter of `pf`, which removes. -/
def pfr (addr : List (List Char)) (occ : Int) (b : Bool) : Filter := ⟨.byName addr, occ, 1, b, false, b, true⟩

theorem testPath_sig {addr : List (List Char)} : ∀ {a b : List Obj} {i : Nat}, a.map Obj.name = b.map Obj.name →
    testPath addr a i = testPath addr b i
  | [], [], _, _ => rfl
  | [], _ :: _, _, h => by simp at h
  | _ :: _, [], _, h => by simp at h
  | x :: a, y :: b, i, h => by
    simp only [List.map_cons, List.cons.injEq] at h
    simp only [testPath, h.1, testPath_sig (i := i + 1) h.2]

theorem agrees_sig {addr : List (List Char)} {a b : List Obj} {n : List Char} (h : a.map Obj.name = b.map Obj.name) :
    agrees addr a n = agrees addr b n := by
  have hl : a.length = b.length := by simpa using congrArg List.length h
  simp [agrees, hl, testPath_sig h]

theorem test_pfr {addr b prev o n} (h2 : 1 < addr.length) (hn : o.name = some n) :
    (pfr addr 1 b).test prev o =
      (agrees addr prev n && prev.length == addr.length - 1,
        pfr addr (if agrees addr prev n && prev.length == addr.length - 1 then 0 else 1) (agrees addr prev n)) := by
  have h0 : 0 < addr.length := by omega
  simp only [Filter.test, pfr, testName, hn, gt_iff_lt, h0, h2, if_true, decide_true, Bool.not_true, Bool.false_or]
  cases h : agrees addr prev n with
  | true =>
    unfold agrees at h
    rw [h]
    cases hl : (prev.length == addr.length - 1) <;> simp [Filter.setMode, Filter.incrementFound, Filter.searchAll]
  | false =>
    unfold agrees at h
    rw [h]
    simp [Filter.setMode]

theorem loop_pfr {addr : List (List Char)} {fuel : Nat} {b : Bool} {res pre rest : List Obj} {c : Obj} :
    findLoop (fuel + 1) (pre.length : Int) (pfr addr 1 b) res (pre ++ c :: rest) =
      (let t := (pfr addr 1 b).test res c
      let f := t.2
      let store := t.1 && (f.searchAll || f.finished)
      let res := if store then res ++ [c] else res
      let removed := store && f.remove
      let kids := if removed then (pre ++ c :: rest).eraseIdx pre.length else pre ++ c :: rest
      if f.finished then some (f, res, kids)
      else if removed then none
      else
        match (if f.recursive then c.kids? else none) with
        | none => findLoop fuel (if f.reverse then (pre.length : Int) - 1 else (pre.length : Int) + 1) f res kids
        | some ck =>
          let res := if f.path then res ++ [c] else res
          let sizeBefore := res.length
          (match startIndex f ck with
            | none => some (f, res, ck)
            | some i => findLoop fuel i f res ck).bind fun r =>
          let f := r.1
          let res := if !f.recursive then []
            else if sizeBefore = r.2.1.length then (if f.path then r.2.1.dropLast else r.2.1) else r.2.1
          findLoop fuel (if f.reverse then (pre.length : Int) - 1 else (pre.length : Int) + 1) f res
            (kids.set pre.length (c.withKids r.2.2))) := by
  conv => lhs; unfold findLoop
  rw [if_pos (by simp [pfr, Filter.finished]; omega)]
  have hget : (pre ++ c :: rest)[(pre.length : Int).toNat]? = some c := by simp
  rw [hget]
  rfl

theorem pfr_found {addr fuel b res pre rest c} (ht : (pfr addr 1 b).test res c = (true, pfr addr 0 true)) :
    findLoop (fuel + 1) (pre.length : Int) (pfr addr 1 b) res (pre ++ c :: rest) =
      some (pfr addr 0 true, res ++ [c], pre ++ rest) := by
  rw [loop_pfr, ht]; simp [pfr, Filter.finished, List.eraseIdx_append_of_length_le]

theorem pfr_skip {addr fuel b b' res pre rest c} (ht : (pfr addr 1 b).test res c = (false, pfr addr 1 b'))
    (hc : b' = false ∨ c.kids? = none) :
    findLoop (fuel + 1) (pre.length : Int) (pfr addr 1 b) res (pre ++ c :: rest) =
      findLoop fuel ((pre ++ [c]).length : Int) (pfr addr 1 b') res ((pre ++ [c]) ++ rest) := by
  rw [loop_pfr, ht]
  rcases hc with rfl | h
  · simp [pfr, Filter.finished]
  · cases b' <;> simp [pfr, Filter.finished, h]

theorem pfr_branch {addr fuel b res pre rest c ck} (ht : (pfr addr 1 b).test res c = (false, pfr addr 1 true))
    (hk : c.kids? = some ck) :
    findLoop (fuel + 1 + 1) (pre.length : Int) (pfr addr 1 b) res (pre ++ c :: rest) =
      (findLoop (fuel + 1) 0 (pfr addr 1 true) (res ++ [c]) ck).bind fun r =>
        findLoop (fuel + 1) (if r.1.reverse then (pre.length : Int) - 1 else (pre.length : Int) + 1) r.1
          (if !r.1.recursive then []
            else if (res ++ [c]).length = r.2.1.length then (if r.1.path then r.2.1.dropLast else r.2.1) else r.2.1)
          ((pre ++ c :: rest).set pre.length (c.withKids r.2.2)) := by
  rw [loop_pfr, ht]
  have h1 : (match startIndex (pfr addr 1 true) ck with
            | none => some (pfr addr 1 true, res ++ [c], ck)
            | some i => findLoop (fuel + 1) i (pfr addr 1 true) (res ++ [c]) ck) =
      findLoop (fuel + 1) 0 (pfr addr 1 true) (res ++ [c]) ck := by
    unfold startIndex
    by_cases h : ck.length > 0
    · rw [if_pos h]; rfl
    · rw [if_neg h]
      have : ck = [] := List.eq_nil_of_length_eq_zero (by omega)
      subst this
      exact (loop_end (pre := []) rfl).symm
  rw [← h1]
  simp [pfr, Filter.finished, hk]

theorem pfr_branch_lost {addr fuel b res pre rest c ck res'} (ht : (pfr addr 1 b).test res c = (false, pfr addr 1 true))
    (hk : c.kids? = some ck)
    (hn : findLoop (fuel + 1) 0 (pfr addr 1 true) (res ++ [c]) ck = some (pfr addr 1 false, res', ck)) :
    findLoop (fuel + 1 + 1) (pre.length : Int) (pfr addr 1 b) res (pre ++ c :: rest) =
      findLoop (fuel + 1) ((pre ++ [c]).length : Int) (pfr addr 1 false) [] ((pre ++ [c]) ++ rest) := by
  rw [pfr_branch ht hk, hn]
  simp only [Option.bind_some, set_self hk]
  simp [pfr]

theorem pfr_branch_none {addr fuel b res pre rest c ck} (ht : (pfr addr 1 b).test res c = (false, pfr addr 1 true))
    (hk : c.kids? = some ck)
    (hn : findLoop (fuel + 1) 0 (pfr addr 1 true) (res ++ [c]) ck = some (pfr addr 1 true, res ++ [c], ck)) :
    findLoop (fuel + 1 + 1) (pre.length : Int) (pfr addr 1 b) res (pre ++ c :: rest) =
      findLoop (fuel + 1) ((pre ++ [c]).length : Int) (pfr addr 1 true) res ((pre ++ [c]) ++ rest) := by
  rw [pfr_branch ht hk, hn]
  simp only [Option.bind_some, set_self hk]
  simp [pfr]

theorem pfr_branch_nil {addr fuel b res pre rest c ck} (ht : (pfr addr 1 b).test res c = (false, pfr addr 1 true))
    (hk : c.kids? = some ck)
    (hn : findLoop (fuel + 1) 0 (pfr addr 1 true) (res ++ [c]) ck = some (pfr addr 1 true, [], ck)) :
    findLoop (fuel + 1 + 1) (pre.length : Int) (pfr addr 1 b) res (pre ++ c :: rest) =
      findLoop (fuel + 1) ((pre ++ [c]).length : Int) (pfr addr 1 true) [] ((pre ++ [c]) ++ rest) := by
  rw [pfr_branch ht hk, hn]
  simp only [Option.bind_some, set_self hk]
  simp [pfr]

theorem pfr_branch_found {addr fuel b res pre rest c ck ck' res'} (ht : (pfr addr 1 b).test res c = (false, pfr addr 1 true))
    (hk : c.kids? = some ck)
    (hn : findLoop (fuel + 1) 0 (pfr addr 1 true) (res ++ [c]) ck = some (pfr addr 0 true, res', ck'))
    (hl : (res ++ [c]).length ≠ res'.length) :
    findLoop (fuel + 1 + 1) (pre.length : Int) (pfr addr 1 b) res (pre ++ c :: rest) =
      some (pfr addr 0 true, res', pre ++ c.withKids ck' :: rest) := by
  rw [pfr_branch ht hk, hn]
  simp only [Option.bind_some]
  rw [loop_finished rfl, if_neg hl]
  simp [pfr]

/-- The search, and the same search that removes, on the tree and on the tree with another object of the same name at the place. -/
def RmStep (addr : List (List Char)) (fuel : Nat) (rest pre res : List Obj) (b : Bool) : Prop :=
    (∃ b' res', (res' = res ∨ res' = []) ∧
        findLoop fuel pre.length (pf addr 1 b) res (pre ++ rest) = some (pf addr 1 b', res', pre ++ rest) ∧
        ∀ resE, res.map Obj.name = resE.map Obj.name → ∃ resE', ((res' = res ∧ resE' = resE) ∨ (res' = [] ∧ resE' = [])) ∧
          findLoop fuel pre.length (pfr addr 1 b) resE (pre ++ rest) = some (pfr addr 1 b', resE', pre ++ rest)) ∨
      (∃ init o w p, findLoop fuel pre.length (pf addr 1 b) res (pre ++ rest) =
          some (pf addr 0 true, init ++ [o], pre ++ rest) ∧ init.length = addr.length - 1 ∧ Place rest o w p ∧
        ∀ o' resE, o'.name = o.name → res.map Obj.name = resE.map Obj.name → ∃ resE', resE'.length = addr.length ∧
          findLoop fuel pre.length (pfr addr 1 b) resE (pre ++ p o') = some (pfr addr 0 true, resE', pre ++ w))

theorem rm_loop (addr : List (List Char)) (h2 : 1 < addr.length) (fuel : Nat) :
    ∀ (rest pre res : List Obj) (b : Bool), sizeObjs rest ≤ fuel → Named rest → RmStep addr fuel rest pre res b := by
  induction fuel with
  | zero => intro rest pre res b hf _; have := sizeObjs_pos rest; omega
  | succ fuel ih =>
    intro rest pre res b hf hN
    have hlE : ∀ resE : List Obj, res.map Obj.name = resE.map Obj.name → resE.length = res.length :=
      fun resE hsig => by simpa using (congrArg List.length hsig).symm
    cases rest with
    | nil =>
      unfold RmStep
      rw [List.append_nil]
      exact .inl ⟨b, res, .inl rfl, loop_end rfl, fun resE _ => ⟨resE, .inl ⟨rfl, rfl⟩, loop_end rfl⟩⟩
    | cons c rest =>
      have hsz : sizeObj c + sizeObjs rest ≤ fuel + 1 := hf
      have hpos := sizeObj_pos c
      have hrp := sizeObjs_pos rest
      obtain ⟨⟨n, hn⟩, hNr, hNk⟩ := hN.cons
      have happ : ∀ l : List Obj, (pre ++ [c]) ++ l = pre ++ c :: l := by simp
      -- continuation after this element
      have cont : ∀ (b1 : Bool) (res1 : List Obj), (res1 = res ∨ res1 = []) →
          (∀ rest', findLoop (fuel + 1) (pre.length : Int) (pf addr 1 b) res (pre ++ c :: rest') =
            findLoop fuel ((pre ++ [c]).length : Int) (pf addr 1 b1) res1 ((pre ++ [c]) ++ rest')) →
          (∀ resE, res.map Obj.name = resE.map Obj.name → ∃ resE1, ((res1 = res ∧ resE1 = resE) ∨ (res1 = [] ∧ resE1 = [])) ∧
            ∀ rest', findLoop (fuel + 1) (pre.length : Int) (pfr addr 1 b) resE (pre ++ c :: rest') =
              findLoop fuel ((pre ++ [c]).length : Int) (pfr addr 1 b1) resE1 ((pre ++ [c]) ++ rest')) →
          RmStep addr (fuel + 1) (c :: rest) pre res b := by
        intro b1 res1 hr e1 e2
        have hs1 : ∀ resE resE1, ((res1 = res ∧ resE1 = resE) ∨ (res1 = [] ∧ resE1 = [])) → res.map Obj.name = resE.map Obj.name →
            res1.map Obj.name = resE1.map Obj.name := by
          intro resE resE1 h hs
          rcases h with ⟨rfl, rfl⟩ | ⟨rfl, rfl⟩
          · exact hs
          · rfl
        rcases ih rest (pre ++ [c]) res1 b1 (by omega) hNr with ⟨b', r', h, a1, a2⟩ | ⟨init, o, w, p, a1, hi, hP, a2⟩
        · refine .inl ⟨b', r', ?_, by rw [e1, a1, happ], ?_⟩
          · rcases h with rfl | h
            · exact hr
            · exact .inr h
          · intro resE hs
            obtain ⟨resE1, hx, e⟩ := e2 resE hs
            obtain ⟨rE', hy, e'⟩ := a2 resE1 (hs1 resE resE1 hx hs)
            refine ⟨rE', ?_, by rw [e, e', happ]⟩
            rcases hy with ⟨rfl, rfl⟩ | hy
            · exact hx
            · exact .inr hy
        · refine .inr ⟨init, o, c :: w, fun x => c :: p x, by rw [e1, a1, happ], hi, ?_, ?_⟩
          · cases hP with
            | here pre' _ post => exact Place.here (c :: pre') o post
            | under pre' i n post h => exact Place.under (c :: pre') i n post h
          · intro o' resE ho' hs
            obtain ⟨resE1, hx, e⟩ := e2 resE hs
            obtain ⟨rE, hl, e'⟩ := a2 o' resE1 ho' (hs1 resE resE1 hx hs)
            exact ⟨rE, hl, by rw [e, e', happ]⟩
      have ht := test_pf (b := b) (prev := res) h2 hn
      have htr : ∀ resE (c' : Obj), c'.name = some n → res.map Obj.name = resE.map Obj.name → (pfr addr 1 b).test resE c' =
          (agrees addr res n && res.length == addr.length - 1,
            pfr addr (if agrees addr res n && res.length == addr.length - 1 then 0 else 1) (agrees addr res n)) := by
        intro resE c' hc' hs
        have := test_pfr (b := b) (prev := resE) h2 hc'
        rwa [← agrees_sig hs, hlE resE hs] at this
      cases hag : agrees addr res n with
      | false =>
        rw [hag] at ht htr
        simp only [Bool.false_and, Bool.false_eq_true, if_false] at ht htr
        exact cont false res (.inl rfl) (fun _ => pf_skip ht (.inl rfl))
          (fun resE hs => ⟨resE, .inl ⟨rfl, rfl⟩, fun _ => pfr_skip (htr resE c hn hs) (.inl rfl)⟩)
      | true =>
        rw [hag] at ht htr
        have hlt : res.length < addr.length := by
          unfold agrees at hag
          simp only [Bool.and_eq_true, decide_eq_true_eq] at hag
          exact hag.1.1
        by_cases hlen : res.length = addr.length - 1
        · simp only [Bool.true_and, hlen, beq_self_eq_true, if_true] at ht htr
          refine .inr ⟨res, c, rest, fun x => x :: rest, pf_found ht, hlen, Place.here [] c rest, ?_⟩
          intro o' resE ho' hs
          exact ⟨resE ++ [o'], by have := hlE resE hs; simp; omega, pfr_found (htr resE o' (by rw [ho', hn]) hs)⟩
        · have hl' : (res.length == addr.length - 1) = false := by simpa using hlen
          simp only [Bool.true_and, hl', Bool.false_eq_true, if_false] at ht htr
          cases hk : c.kids? with
          | none =>
            exact cont true res (.inl rfl) (fun _ => pf_skip ht (.inr hk))
              (fun resE hs => ⟨resE, .inl ⟨rfl, rfl⟩, fun _ => pfr_skip (htr resE c hn hs) (.inr hk)⟩)
          | some ck =>
            have hcs := sizeObj_kids hk
            have hckp := sizeObjs_pos ck
            obtain ⟨m, rfl⟩ : ∃ m, fuel = m + 1 := ⟨fuel - 1, by omega⟩
            have hs1 : ∀ resE (c' : Obj), c'.name = some n → res.map Obj.name = resE.map Obj.name →
                (res ++ [c]).map Obj.name = (resE ++ [c']).map Obj.name := by
              intro resE c' hc' hs; simp [hs, hn, hc']
            rcases ih ck [] (res ++ [c]) true (by omega) (hNk ck hk) with
              ⟨b', r', hr, e, eE⟩ | ⟨init, o, w, p, e, hil, hP, eE⟩
            · replace e : findLoop (m + 1) 0 (pf addr 1 true) (res ++ [c]) ck = some (pf addr 1 b', r', ck) := e
              cases b' with
              | false =>
                refine cont false [] (.inr rfl) (fun _ => pf_branch_lost ht hk e) ?_
                intro resE hs
                obtain ⟨rE', _, e'⟩ := eE _ (hs1 resE c hn hs)
                exact ⟨[], .inr ⟨rfl, rfl⟩, fun _ => pfr_branch_lost (htr resE c hn hs) hk e'⟩
              | true =>
                rcases hr with rfl | rfl
                · refine cont true res (.inl rfl) (fun _ => pf_branch_none ht hk e) ?_
                  intro resE hs
                  obtain ⟨rE', hx, e'⟩ := eE _ (hs1 resE c hn hs)
                  rcases hx with ⟨_, rfl⟩ | ⟨hx, _⟩
                  · exact ⟨resE, .inl ⟨rfl, rfl⟩, fun _ => pfr_branch_none (htr resE c hn hs) hk e'⟩
                  · simp at hx
                · refine cont true [] (.inr rfl) (fun _ => pf_branch_nil ht hk e) ?_
                  intro resE hs
                  obtain ⟨rE', hx, e'⟩ := eE _ (hs1 resE c hn hs)
                  rcases hx with ⟨hx, _⟩ | ⟨_, rfl⟩
                  · simp at hx
                  · exact ⟨[], .inr ⟨rfl, rfl⟩, fun _ => pfr_branch_nil (htr resE c hn hs) hk e'⟩
            · replace e : findLoop (m + 1) 0 (pf addr 1 true) (res ++ [c]) ck = some (pf addr 0 true, init ++ [o], ck) := e
              cases c with
              | leaf i n => simp [Obj.kids?] at hk
              | cont i nm k =>
                simp only [Obj.kids?, Option.some.injEq] at hk
                subst hk
                refine .inr ⟨init, o, .cont i nm w :: rest, fun x => .cont i nm (p x) :: rest,
                  pf_branch_found ht rfl e (by simp; omega), hil, Place.under [] i nm rest hP, ?_⟩
                intro o' resE ho' hs
                have hn' : (Obj.cont i nm (p o')).name = some n := hn
                obtain ⟨rE', hl, e'⟩ := eE o' _ ho' (hs1 resE (.cont i nm (p o')) hn' hs)
                have hlx := hlE resE hs
                exact ⟨rE', hl, pfr_branch_found (htr resE (.cont i nm (p o')) hn' hs) rfl e' (by simp; omega)⟩

end Verif.RefC
