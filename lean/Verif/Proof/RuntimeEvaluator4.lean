import Verif.Proof.RuntimeEvaluator3

namespace Verif.Rt
open Verif.Rpn

/-- What one compiled line preserves. -/
def LineOk (_lib : List Fn) (N : Names) (ins outs0 : List Var) (S L : Nat) (c : C) (ls : List (List String))
    (r : R C) : Prop :=
  r ≠ .crash ∧ ∀ c1, r = .ok c1 → ∃ w1, CI N outs0 S L w1 c1 ls ∧ Keep ins outs0 c c1.data ∧
    c.nextConst ≤ c1.nextConst ∧ c.maxDss ≤ c1.maxDss ∧ ∃ x, c1.code = c.code ++ x

theorem lineOk_error {lib N ins outs0 S L c ls} : LineOk lib N ins outs0 S L c ls .error :=
  ⟨by simp, by intro c1 h; cases h⟩

/-- `finish` after a change of the data memory and of the table of outputs. -/
theorem lineOk_finish {lib N ins outs0 S B L} (h : Ctx lib N ins outs0 S B L) {c c' : C} {cmd : String}
    {want : Option Ty} {code2 : Option Nat} {ls : List (List String)} {w1 : String → Option Ty}
    (hts : c'.ts = offered want c.ts) (hd : c'.dss = wsum c.ts) (hb : wsum c.ts + 2 * (ls.length + 1) ≤ 65534)
    (hcn : c'.nextConst + constSum N ls ≤ S) (ho : c'.outs = outs0.map (upd w1))
    (ht : ∀ r, fits cmd c.ts want r = true → r.Ok → TypesOk outs0 w1)
    (hk : Keep ins outs0 c c'.data) (hlen : c.data.length = L) (hn : c.nextConst ≤ c'.nextConst)
    (hm : c'.maxDss = c.maxDss) (hco : c'.code = c.code) :
    LineOk lib N ins outs0 S L c ls (finish lib c' cmd want.isSome code2) := by
  refine ⟨finish_nocrash _ _ _ _ _, ?_⟩
  intro c1 hf
  obtain ⟨i, r, _, hok, _, hfit, _, _⟩ := finish_ok h.lib hf hts hd (by omega)
  obtain ⟨a1, a2, a3, a4, x, a5⟩ := finish_ci (N := N) (outs0 := outs0) (S := S) (L := L) (ls := ls) (w := w1)
    h.lib hf hts hd hb hcn (by rw [hk.len, hlen]) ho (ht r hfit hok)
  refine ⟨w1, a1, ?_, by rw [a4]; exact hn, by omega, ⟨x, by rw [a5, hco]⟩⟩
  rw [a3]
  exact hk

/-- The type a `WRITE` gives to its variable. -/
theorem write_type {lib N ins outs0 S B L} (h : Ctx lib N ins outs0 S B L) {w : String → Option Ty}
    (hw : TypesOk outs0 w) {n : String} {v0 : Var} (hf : find outs0 n = some v0) {ts : List Ty} {td : Ty}
    (htd : (if (upd w v0).type = .void ∧ (upd w v0).ext = none then ts.head?
             else if (upd w v0).type.numeric then some (upd w v0).type else none) = some td) :
    (v0.type ≠ .void → td = v0.type) ∧
    (v0.type = .void → td = (w n).getD (ts.head?.getD .void)) ∧
    (v0.type = .void → w n = none → ts.head? = some td) := by
  obtain ⟨hm, hn⟩ := find_mem hf
  have hty : (upd w v0).type = (w n).getD v0.type := by
    unfold upd; rw [hn]; cases w n <;> rfl
  rw [hty, upd_ext] at htd
  cases hwn : w n with
  | none =>
    rw [hwn] at htd
    simp only [Option.getD_none] at htd
    by_cases hv : v0.type = .void
    · have hx : v0.ext = none := by
        rcases h.typO v0 hm with h1 | h1
        · rw [hv] at h1; cases h1
        · exact h1.2
      rw [if_pos ⟨hv, hx⟩] at htd
      refine ⟨fun hh => absurd hv hh, fun _ => ?_, fun _ _ => htd⟩
      rw [htd]; rfl
    · rw [if_neg (by simp [hv])] at htd
      split at htd
      · injection htd with htd
        exact ⟨fun _ => htd.symm, fun hh => absurd hh hv, fun hh => absurd hh hv⟩
      · cases htd
  | some t =>
    rw [hwn] at htd
    simp only [Option.getD_some] at htd
    obtain ⟨h1, h2, h3⟩ := hw v0 hm t (by rw [hn]; exact hwn)
    have hne : t ≠ .void := by intro hh; rw [hh] at h1; cases h1
    rw [if_neg (by simp [hne]), if_pos h1] at htd
    injection htd with htd
    subst htd
    exact ⟨h3, fun _ => rfl, fun _ hh => by cases hh⟩

theorem target_two {r : Fn} {t u : Ty} (h1 : r.types = [t, u]) (h2 : r.nIn = 1) : r.target = some u := by
  unfold Fn.target; rw [h1, h2]; rfl
theorem target_one {r : Fn} {t : Ty} (h1 : r.types = [t]) (h2 : r.nIn = 0) : r.target = some t := by
  unfold Fn.target; rw [h1, h2]; rfl

theorem line_ci {lib N ins outs0 S B L} (h : Ctx lib N ins outs0 S B L) {w : String → Option Ty} {c : C}
    {l : List String} {ls : List (List String)} (hc : CI N outs0 S L w c (l :: ls)) :
    LineOk lib N ins outs0 S L c ls (compLine lib N ins c l) := by
  have hdep := hc.depth
  have hcon := hc.consts
  rw [constSum_cons] at hcon
  simp only [List.length_cons] at hdep
  have hSL : S ≤ L := Nat.le_trans (chain_le h.chI) (chain_le h.chO)
  cases l with
  | nil =>
    refine ⟨by simp [compLine], ?_⟩
    intro c1 hh
    simp only [compLine, R.ok.injEq] at hh
    subst hh
    exact ⟨w, ⟨hc.dss, by omega, by omega, hc.len, hc.outs, hc.types, hc.maxd⟩, Keep.refl _ _ _,
      Nat.le_refl _, Nat.le_refl _, [], by simp⟩
  | cons cmd ps =>
    simp only [compLine]
    by_cases h1 : cmd = "CAST"
    · rw [if_pos h1]
      match ps with
      | [t] =>
        simp only
        split
        · exact lineOk_finish h (want := some (N.typeOf t)) rfl hc.dss (by omega) (by show c.nextConst + _ ≤ S; omega)
            hc.outs (fun _ _ _ => hc.types) (Keep.refl _ _ _) hc.len (Nat.le_refl _) rfl rfl
        · exact lineOk_error
      | [] => exact lineOk_error
      | _ :: _ :: _ => exact lineOk_error
    · rw [if_neg h1]
      by_cases h2 : cmd = "WRITE"
      · rw [if_pos h2]
        match ps with
        | [] => exact lineOk_error
        | _ :: _ :: _ => exact lineOk_error
        | [n] =>
          simp only [compWrite]
          rw [hc.outs, find_upd]
          cases hf : find outs0 n with
          | none => exact lineOk_error
          | some v0 =>
            obtain ⟨hm, hn⟩ := find_mem hf
            simp only [Option.map_some]
            obtain ⟨d, hd, hk, _⟩ := putPtr_ok h (c := c) (v := upd w v0) (v0 := v0)
              (List.mem_append.2 (.inr hm)) (upd_loc _ _) (upd_ext _ _) hc.len (by omega)
            simp only [hd]
            cases htd : (if (upd w v0).type = .void ∧ (upd w v0).ext = none then c.ts.head?
             else if (upd w v0).type.numeric then some (upd w v0).type else none) with
            | none => exact lineOk_error
            | some td =>
              simp only
              rw [setVar_upd]
              obtain ⟨t1, t2, t3⟩ := write_type h hc.types hf htd
              refine lineOk_finish h (want := some td) (w1 := fun m => if m = n then some td else w m) rfl hc.dss
                (by omega) (by show c.nextConst + _ ≤ S; omega) rfl ?_ hk hc.len (Nat.le_refl _) rfl rfl
              intro r hfit hok
              obtain ⟨f1, _, f3⟩ := fits_prefix hfit
              have htar := f3 td rfl
              have : td.numeric = true ∧ td.words ≤ 2 := by
                cases hx : (upd w v0).ext.isSome with
                | true =>
                  rw [hx] at f1
                  obtain ⟨_, t, u, _, a, _, b, e, g, _⟩ := rwrite_of_name hok f1
                  rw [target_two b a] at htar
                  injection htar with htar
                  subst htar
                  exact ⟨e, g⟩
                | false =>
                  rw [hx] at f1
                  obtain ⟨_, t, u, _, a, _, b, e, g, _⟩ := write_of_name hok f1
                  rw [target_two b a] at htar
                  injection htar with htar
                  subst htar
                  exact ⟨e, g⟩
              refine typesOk_set hc.types this.1 this.2 ?_
              intro v hv he hne
              have : v = v0 := nodup_name h.nodO hv hm (by rw [he, hn])
              subst this
              exact t1 hne
      · rw [if_neg h2]
        by_cases h3 : cmd = "READ"
        · rw [if_pos h3]
          match ps with
          | [] => exact lineOk_error
          | _ :: _ :: _ => exact lineOk_error
          | [n] =>
            simp only [compRead]
            cases hr : readVar ins c n with
            | none => exact lineOk_error
            | some v =>
              have hv : ∃ v0 ∈ ins ++ outs0, v.loc = v0.loc ∧ v.ext = v0.ext := by
                rcases readVar_spec h hc.outs hr with ⟨v0, t, a, _, _, e, _⟩ | ⟨a, _⟩
                · exact ⟨v0, List.mem_append.2 (.inr a), by rw [e], by rw [e]⟩
                · exact ⟨v, List.mem_append.2 (.inl a), rfl, rfl⟩
              obtain ⟨v0, hv0, hl, he⟩ := hv
              obtain ⟨d, hd, hk, _⟩ := putPtr_ok h (c := c) hv0 hl he hc.len (by omega)
              simp only [hd]
              split
              · exact lineOk_finish h (want := some v.type) rfl hc.dss (by omega)
                  (by show c.nextConst + _ ≤ S; omega)
                  hc.outs (fun _ _ _ => hc.types) hk hc.len (Nat.le_refl _) rfl rfl
              · exact lineOk_error
        · rw [if_neg h3]
          by_cases h4 : cmd = "CONST"
          · rw [if_pos h4]
            match ps with
            | [] => exact lineOk_error
            | [_] => exact lineOk_error
            | _ :: _ :: _ :: _ => exact lineOk_error
            | [t, txt] =>
              have hcw : constW N (cmd :: [t, txt]) = (N.typeOf t).words := by simp only [constW, if_pos h4]
              rw [hcw] at hcon
              simp only [compConst]
              split
              · cases hlit : N.literal (N.typeOf t) txt with
                | none => exact lineOk_error
                | some v =>
                  have hvl := h.names.1 _ _ _ hlit
                  have hb := h.bound
                  obtain ⟨d, hd⟩ := writeW_ok (m := c.data) (a := c.nextConst) (v := v) (by rw [hvl, hc.len]; omega)
                  obtain ⟨_, hdl, hde⟩ := writeW_some hd
                  simp only [hd]
                  have hadd : add16 c.nextConst (N.typeOf t).words = c.nextConst + (N.typeOf t).words := by
                    unfold add16; omega
                  rw [hadd]
                  refine lineOk_finish h (want := some (N.typeOf t)) rfl hc.dss (by omega)
                    (by show c.nextConst + _ + _ ≤ S; omega) hc.outs (fun _ _ _ => hc.types) ⟨hdl, ?_, ?_⟩ hc.len
                    (Nat.le_add_right _ _) rfl rfl
                  · intro a ha
                    show d[a]? = _
                    rw [hde, if_neg (by omega)]
                  · intro u hu p hp hread
                    obtain ⟨r1, r2⟩ := place_range h hu
                    exact read_write_disj hd hread (by rw [hvl]; omega)
              · exact lineOk_error
          · rw [if_neg h4]
            exact lineOk_finish h (want := none) rfl hc.dss (by omega) (by omega)
              hc.outs (fun _ _ _ => hc.types) (Keep.refl _ _ _) hc.len (Nat.le_refl _) rfl rfl

theorem lines_ci {lib N ins outs0 S B L} (h : Ctx lib N ins outs0 S B L) : ∀ (ls : List (List String))
    {w : String → Option Ty} {c : C}, CI N outs0 S L w c ls →
    LineOk lib N ins outs0 S L c [] (compLines lib N ins c ls)
  | [], w, c, hc => by
    refine ⟨by simp [compLines], ?_⟩
    intro c1 hh
    simp only [compLines, R.ok.injEq] at hh
    subst hh
    exact ⟨w, hc, Keep.refl _ _ _, Nat.le_refl _, Nat.le_refl _, [], by simp⟩
  | l :: ls, w, c, hc => by
    obtain ⟨hl1, hl2⟩ := line_ci h hc
    simp only [compLines]
    cases hl : compLine lib N ins c l with
    | crash => exact absurd hl hl1
    | error => exact lineOk_error
    | ok c1 =>
      simp only
      obtain ⟨w1, a1, a2, a3, a4, x, a5⟩ := hl2 c1 hl
      obtain ⟨b1, b2⟩ := lines_ci h ls a1
      refine ⟨b1, ?_⟩
      intro c2 hh
      obtain ⟨w2, d1, d2, d3, d4, y, d5⟩ := b2 c2 hh
      exact ⟨w2, d1, a2.trans a3 d2, by omega, by omega, x ++ y, by rw [d5, a5, List.append_assoc]⟩

end Verif.Rt
