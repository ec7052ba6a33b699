import Verif.Proof.RuntimeEvaluator7

namespace Verif.Rt
open Verif.Rpn

/-- No function of the library ignores its arguments when an error is pending. -/
def NoSkip (lib : List Fn) : Prop := ∀ r ∈ lib, ∀ f, r.act ≠ .op true f

theorem call_progress {lib : List Fn} {s : St} {cmd : String} {want : Option Ty} {r : Fn}
    (hok : r.Ok) (hm : r ∈ lib) (hname : r.name = cmd)
    (n1 : cmd ≠ "READ") (n2 : cmd ≠ "WRITE") (n3 : cmd ≠ "RREAD") (n4 : cmd ≠ "RWRITE")
    (hp : pick lib cmd (s.stack.map (·.1)) want = some r) (he : s.err = false ∨ NoSkip lib) :
    ∃ s1, stepCall lib s cmd want = some s1 := by
  subst hname
  obtain ⟨skip, f, hact, _⟩ := op_of_name hok n1 n2 n3 n4
  unfold stepCall
  simp only [hp, apply, hact]
  have : (skip && s.err) = false := by
    rcases he with he | he
    · simp [he]
    · cases skip
      · rfl
      · exact absurd hact (he r hm f)
  simp only [this, Bool.false_eq_true, if_false]
  exact ⟨_, rfl⟩

/-- A line that compiles makes sense when it is executed. -/
theorem line_progress {lib N ins outs0 S B L} (h : Ctx lib N ins outs0 S B L) {c c1 : C} {s : St}
    {inD outD : String → Option Decl} (hiD : ∀ n, inD n = (find ins n).map decl)
    (hoD : ∀ n, outD n = (find outs0 n).map decl) {l : List String} {ls : List (List String)}
    (hts : s.stack.map (·.1) = c.ts) (hc : CI N outs0 S L s.written c (l :: ls))
    (hl : compLine lib N ins c l = .ok c1) (hw : ∀ n t, s.written n = some t → ∃ d, outD n = some d)
    (he : s.err = false ∨ NoSkip lib) (hrem : NoRemote l) :
    ∃ s1, step lib N inD outD s l = some s1 := by
  have hdep := hc.depth
  have hcon := hc.consts
  have hbnd := h.bound
  rw [constSum_cons] at hcon
  simp only [List.length_cons] at hdep
  cases l with
  | nil => exact ⟨s, rfl⟩
  | cons cmd ps =>
    simp only [compLine] at hl
    simp only [step]
    by_cases h1 : cmd = "CAST"
    · rw [if_pos h1] at hl
      rw [if_neg (by rw [h1]; decide), if_neg (by rw [h1]; decide), if_neg (by rw [h1]; decide), if_pos h1]
      match ps, hl with
      | [], hl => cases hl
      | _ :: _ :: _, hl => cases hl
      | [t], hl =>
        simp only at hl ⊢
        split at hl
        · obtain ⟨i, r, a1, a2, a3, a4, _⟩ := finish_ok h.lib (want := some (N.typeOf t)) (ts := c.ts) hl rfl hc.dss (by omega)
          rw [← hts] at a3
          exact call_progress a2 (List.mem_of_getElem? a1) (fits_prefix a4).1 (by rw [h1]; decide) (by rw [h1]; decide) (by rw [h1]; decide)
            (by rw [h1]; decide) a3 he
        · cases hl
    · rw [if_neg h1] at hl
      by_cases h2 : cmd = "WRITE"
      · rw [if_pos h2] at hl
        rw [if_neg (by rw [h2]; decide), if_pos h2]
        match ps, hl with
        | [], hl => cases hl
        | _ :: _ :: _, hl => cases hl
        | [n], hl =>
          simp only [compWrite] at hl
          simp only
          rw [hc.outs, find_upd] at hl
          cases hf : find outs0 n with
          | none => simp only [hf, Option.map_none] at hl; cases hl
          | some v0 =>
            obtain ⟨hm, hn⟩ := find_mem hf
            have hmem0 : v0 ∈ ins ++ outs0 := List.mem_append.2 (.inr hm)
            simp only [hf, Option.map_some] at hl
            obtain ⟨d, hd, hk0, hp0⟩ := putPtr_ok h (c := c) (v := upd s.written v0) (v0 := v0)
              hmem0 (upd_loc _ _) (upd_ext _ _) hc.len (by omega)
            simp only [hd] at hl
            cases htd : (if (upd s.written v0).type = .void ∧ (upd s.written v0).ext = none then c.ts.head?
             else if (upd s.written v0).type.numeric then some (upd s.written v0).type else none) with
            | none => simp only [htd] at hl; cases hl
            | some td =>
              simp only [htd] at hl
              rw [upd_ext, upd_loc] at hl
              obtain ⟨t1, t2, _⟩ := write_type h hc.types hf htd
              obtain ⟨i, r, a1, a2, a3, a4, _⟩ := finish_ok h.lib (want := some td) (ts := c.ts) hl rfl hc.dss (by omega)
              obtain ⟨f1, f2, _⟩ := fits_prefix a4
              have hod : outD n = some (decl v0) := by rw [hoD, hf]; rfl
              have hne : ∃ t v rest, s.stack = (t, v) :: rest := by
                cases hst : s.stack with
                | nil =>
                  rw [hst] at hts
                  rw [← hts] at f2
                  exfalso
                  cases hx : v0.ext with
                  | none =>
                    rw [hx] at f1
                    obtain ⟨_, _, _, _, q1, q2, q3, _⟩ := write_of_name a2 f1
                    rw [(outs_of_write q3 q1 q2).2] at f2
                    simp at f2
                  | some p =>
                    rw [hx] at f1
                    obtain ⟨_, _, _, _, q1, q2, q3, _⟩ := rwrite_of_name a2 f1
                    rw [(outs_of_write q3 q1 q2).2] at f2
                    simp at f2
                | cons x rest => exact ⟨x.1, x.2, rest, rfl⟩
              obtain ⟨t, v, rest, hst⟩ := hne
              have htop : c.ts = t :: rest.map (·.1) := by rw [← hts, hst]; rfl
              have hty : (if v0.type = .void then (s.written n).getD t else v0.type) = td := by
                by_cases hv : v0.type = .void
                · rw [if_pos hv, t2 hv, htop]; rfl
                · rw [if_neg hv, t1 hv]
              have hpick : pick lib (if v0.ext.isSome then "RWRITE" else "WRITE") (((t, v) :: rest).map (·.1)) (some td) = some r := by
                rw [← hst, hts]; exact a3
              unfold stepWrite
              simp only [hst, hod, decl, hty, hpick]
              cases hx : v0.ext with
              | none =>
                rw [hx] at f1
                obtain ⟨_, _, _, hact, _⟩ := write_of_name a2 f1
                simp only [hact]
                exact ⟨_, rfl⟩
              | some p =>
                rw [hx] at f1
                obtain ⟨_, _, _, hact, _⟩ := rwrite_of_name a2 f1
                simp only [hact]
                exact ⟨_, rfl⟩
      · rw [if_neg h2] at hl
        by_cases h3 : cmd = "READ"
        · rw [if_pos h3] at hl
          rw [if_pos h3]
          match ps, hl with
          | [], hl => cases hl
          | _ :: _ :: _, hl => cases hl
          | [n], hl =>
            simp only [compRead] at hl
            simp only
            cases hr : readVar ins c n with
            | none => simp only [hr] at hl; cases hl
            | some v =>
              unfold stepRead
              rcases readVar_spec h hc.outs hr with ⟨u, t, a, b, e1, e2, e3⟩ | ⟨a, b, e1, e2⟩
              · have hod : outD n = some (decl u) := by rw [hoD, b]; rfl
                simp only [e1, hod]
                exact ⟨_, rfl⟩
              · have hid : inD n = some (decl v) := by rw [hiD, b]; rfl
                cases hwn : s.written n with
                | some t =>
                  obtain ⟨d, hd⟩ := hw n t hwn
                  simp only [hd]
                  exact ⟨_, rfl⟩
                | none =>
                  simp only [hid]
                  exact ⟨_, rfl⟩
        · rw [if_neg h3] at hl
          by_cases h4 : cmd = "CONST"
          · rw [if_pos h4] at hl
            rw [if_neg h3, if_neg h2, if_pos h4]
            match ps, hl with
            | [], hl => cases hl
            | [_], hl => cases hl
            | _ :: _ :: _ :: _, hl => cases hl
            | [t, txt], hl =>
              simp only [compConst] at hl
              simp only
              split at hl
              · cases hlit : N.literal (N.typeOf t) txt with
                | none => simp only [hlit] at hl; cases hl
                | some v => exact ⟨_, rfl⟩
              · cases hl
          · rw [if_neg h4] at hl
            rw [if_neg h3, if_neg h2, if_neg h4, if_neg h1]
            obtain ⟨g1, g2⟩ := hrem
            obtain ⟨i, r, a1, a2, a3, a4, _⟩ := finish_ok h.lib (want := none) (ts := c.ts) hl rfl hc.dss (by omega)
            rw [← hts] at a3
            exact call_progress a2 (List.mem_of_getElem? a1) (fits_prefix a4).1 h3 h2
              (by intro hh; apply g1; rw [hh]; rfl) (by intro hh; apply g2; rw [hh]; rfl) a3 he

/-- Only declared outputs get written. -/
theorem step_written {lib N inD outD} {s s1 : St} {l : List String} (h : step lib N inD outD s l = some s1)
    (hw : ∀ n t, s.written n = some t → ∃ d, outD n = some d) :
    ∀ n t, s1.written n = some t → ∃ d, outD n = some d := by
  have hcall : ∀ (cmd : String) (want : Option Ty), stepCall lib s cmd want = some s1 → s1.written = s.written := by
    intro cmd want hh
    unfold stepCall at hh
    split at hh
    · unfold apply at hh
      split at hh
      · split at hh
        · cases hh
        · injection hh with hh; rw [← hh]
      · cases hh
    · cases hh
  cases l with
  | nil => simp only [step, Option.some.injEq] at h; subst h; exact hw
  | cons cmd ps =>
    simp only [step] at h
    split at h
    · split at h
      · unfold stepRead at h
        split at h
        · split at h
          · injection h with h; subst h; exact hw
          · cases h
        · split at h
          · injection h with h; subst h; exact hw
          · cases h
      · cases h
    · split at h
      · split at h
        · rename_i n
          unfold stepWrite at h
          split at h
          · rename_i d _ hd
            have key : ∀ (ty : Ty) (o : String → Val) (me : Nat → Word) (st : List (Ty × Val)) (e : Bool),
                some { s with stack := st, out := o, mem := me, err := e,
                              written := fun m => if m = n then some ty else s.written m } = some s1 →
                ∀ n t, s1.written n = some t → ∃ d, outD n = some d := by
              intro ty o me st e hh m t hm
              injection hh with hh
              subst hh
              simp only at hm
              by_cases he : m = n
              · subst he; exact ⟨_, hd⟩
              · rw [if_neg he] at hm; exact hw m t hm
            simp only at h
            generalize (if d.ty = .void then _ else _) = ty at h
            generalize pick lib _ _ _ = pk at h
            cases pk with
            | none => cases h
            | some r =>
              simp only at h
              split at h
              · exact key _ _ _ _ _ h
              · exact key _ _ _ _ _ h
              · cases h
          · cases h
        · cases h
      · split at h
        · split at h
          · split at h
            · injection h with h; subst h; exact hw
            · cases h
          · cases h
        · split at h
          · split at h
            · rw [hcall _ _ h]; exact hw
            · cases h
          · rw [hcall _ _ h]; exact hw

/-- A compiled program makes sense. -/
theorem run_total {lib N ins outs0 S B L} (h : Ctx lib N ins outs0 S B L) {D : List Word} {cE : C}
    {inD outD : String → Option Decl} (hiD : ∀ n, inD n = (find ins n).map decl)
    (hoD : ∀ n, outD n = (find outs0 n).map decl) (hD : D = cE.data) {safe : Bool}
    (hskip : safe = true ∨ NoSkip lib) :
    ∀ (ls : List (List String)) {c : C} {s : St} {m : M},
    Rel ins outs0 D c s m → CI N outs0 S L s.written c ls → compLines lib N ins c ls = .ok cE →
    cE.maxDss ≤ m.stack.length → (∀ l ∈ ls, NoRemote l) →
    (∀ n t, s.written n = some t → ∃ d, outD n = some d) →
    ∃ s', run safe lib N inD outD s ls = some s'
  | [], c, s, m, _, _, _, _, _, _ => ⟨s, rfl⟩
  | l :: ls, c, s, m, hR, hc, hl, hmax, hn, hw => by
    by_cases hs : (safe && s.err) = true
    · exact ⟨s, by simp only [run, if_pos hs]⟩
    · rw [run_cons hs]
      simp only [compLines] at hl
      cases hcl : compLine lib N ins c l with
      | crash => simp only [hcl] at hl; cases hl
      | error => simp only [hcl] at hl; cases hl
      | ok c1 =>
        simp only [hcl] at hl
        obtain ⟨w1, ci1, _, _, _, _⟩ := (line_ci h hc).2 c1 hcl
        obtain ⟨w2, ci2, k2, k3, k4, y, k5⟩ := (lines_ci h ls ci1).2 cE hl
        obtain ⟨s1, hst⟩ := line_progress h hiD hoD hR.types hc hcl hw
          (by
            rcases hskip with rfl | hk
            · left; simpa using hs
            · exact .inr hk) (hn l (by simp))
        rw [hst]
        simp only [Option.bind_some]
        have hw1 := step_written hst hw
        rcases line_sim h hiD hoD hR hc hcl (by rw [hD]; exact k2) k5 (by omega) (hn l (by simp)) hst with ⟨rfl, rfl⟩ | hsim
        · exact run_total h hiD hoD hD hskip ls hR (ci_written h ci1 hR.outs) hl hmax
            (fun x hx => hn x (List.mem_cons_of_mem _ hx)) hw1
        · obtain ⟨i, r, m1, a1, a2, a3, a4, a5⟩ := hsim
          exact run_total h hiD hoD hD hskip ls a4 (ci_written h ci1 a4.outs) hl (by omega)
            (fun x hx => hn x (List.mem_cons_of_mem _ hx)) hw1

/-- Without error, the fast mode and the safe mode agree. -/
theorem run_fast {lib N inD outD} : ∀ (ls : List (List String)) {s s' : St},
    run true lib N inD outD s ls = some s' → s'.err = false → run false lib N inD outD s ls = some s'
  | [], s, s', h, _ => h
  | l :: ls, s, s', h, he => by
    by_cases hs : (true && s.err) = true
    · simp only [run, if_pos hs, Option.some.injEq] at h
      subst h
      simp [he] at hs
    · rw [run_cons hs] at h
      rw [run_cons (by simp)]
      cases hst : step lib N inD outD s l with
      | none => rw [hst] at h; cases h
      | some s1 =>
        rw [hst] at h
        exact run_fast ls h he

end Verif.Rt
