import Verif.Proof.RuntimeEvaluator5

namespace Verif.Rt
open Verif.Rpn

/-- The data memory after a write to an output. -/
theorem data_write {lib N ins outs0 S B L} (h : Ctx lib N ins outs0 S B L) {D d : List Word} {s : St}
    (hd : DataRel ins outs0 D s d) (hw : TypesOk outs0 s.written) {v0 : Var} (hm : v0 ∈ outs0) (hx : v0.ext = none)
    {td : Ty} {x : Val} (hxl : x.length = td.words) (hfit : td.words ≤ slotW v0) (hlen : d.length = L)
    {st : List (Ty × Val)} {e : Bool} :
    ∃ d', writeW d v0.loc x = some d' ∧
      DataRel ins outs0 D { s with stack := st, out := fun m => if m = v0.name then x else s.out m
                                   written := fun m => if m = v0.name then some td else s.written m
                                   err := e } d' := by
  have hmem0 : v0 ∈ ins ++ outs0 := List.mem_append.2 (.inr hm)
  obtain ⟨r1, r2⟩ := place_range h hmem0
  obtain ⟨d', hd'⟩ := writeW_ok (m := d) (a := v0.loc) (v := x) (by rw [hxl, hlen]; omega)
  obtain ⟨_, hl, he⟩ := writeW_some hd'
  refine ⟨d', hd', ⟨hl.trans hd.len, ?_, ?_, ?_⟩⟩
  · intro v hv hvx
    have hnv : v.type ≠ .void := by intro hh; have := h.numI v hv; rw [hh] at this; cases this
    have hs : slotW v = v.type.words := by simp [slotW, hvx, hnv]
    refine read_write_disj hd' (hd.inp v hv hvx) ?_
    have a := chain_range h.chI v hv
    have b := chain_range h.chO v0 hm
    omega
  · intro v hv hvx t ht
    simp only at ht ⊢
    by_cases hn : v.name = v0.name
    · have : v = v0 := nodup_name h.nodO hv hm hn
      subst this
      simp only [if_true, Option.some.injEq] at ht
      subst ht
      rw [if_pos rfl, ← hxl]
      exact read_write_same hd'
    · simp only [if_neg hn] at ht ⊢
      refine read_write_disj hd' (hd.out v hv hvx t ht) ?_
      have hf := typeFits h hw hv hvx ht
      rcases chain_disj h.chO v hv v0 hm with rfl | hdj
      · exact absurd rfl hn
      · omega
  · intro a ha
    have := ha v0 hmem0 hx
    rw [he, if_neg (by omega)]
    exact hd.rest a ha

/-- A `WRITE` line. -/
theorem sim_write {lib N ins outs0 S B L} (h : Ctx lib N ins outs0 S B L) {D : List Word} {c c' c1 : C}
    {s s1 : St} {m : M} {outD : String → Option Decl} (hoD : ∀ n, outD n = (find outs0 n).map decl)
    (hR : Rel ins outs0 D c s m) (hw : TypesOk outs0 s.written) (hDL : D.length = L)
    {n : String} {td : Ty} {v0 : Var} {code y : List Nat} (hfv : find outs0 n = some v0)
    (htd : (if (upd s.written v0).type = .void ∧ (upd s.written v0).ext = none then c.ts.head?
             else if (upd s.written v0).type.numeric then some (upd s.written v0).type else none) = some td)
    (hf : finish lib c' (if v0.ext.isSome then "RWRITE" else "WRITE") true (some v0.loc) = .ok c1)
    (hts : c'.ts = td :: c.ts) (hd : c'.dss = wsum c.ts)
    (hb : wsum c.ts + 2 < 65536) (hcc : c'.code = c.code)
    (hoc : c'.outs = outs0.map (upd fun m => if m = n then some td else s.written m))
    (hcode : code = c1.code ++ y)
    (hptr : ∀ p, v0.ext = some p → readW m.data v0.loc 2 = some (ptrVal p))
    (hstep : stepWrite lib outD s n = some s1) : LineSim lib ins outs0 D code c1 s1 m := by
  obtain ⟨hm, hn⟩ := find_mem hfv
  have hmem0 : v0 ∈ ins ++ outs0 := List.mem_append.2 (.inr hm)
  obtain ⟨r1, r2⟩ := place_range h hmem0
  have hbnd := h.bound
  obtain ⟨t1, t2, _⟩ := write_type h hw hfv htd
  obtain ⟨i, r, h1, h2, h3, h4, _, h6⟩ := finish_ok h.lib (want := some td) hf hts hd hb
  obtain ⟨f1, f2, f3⟩ := fits_prefix h4
  have htar := f3 td rfl
  have hloc : v0.loc ≠ noLoc := by unfold noLoc; omega
  have hop : operand (some v0.loc) = [v0.loc] := by simp [operand, hloc]
  have hc1 : c1.code = c.code ++ [i] ++ [v0.loc] := by rw [h6, ← hop, ← hcc]
  have hcd : code = c.code ++ [i] ++ [v0.loc] ++ y := by rw [hcode, hc1]
  have k1 : code[m.pc]? = some i := by rw [hR.pc]; exact code_first (x := [v0.loc]) hcd
  have k2 : code[m.pc + 1]? = some v0.loc := by rw [hR.pc]; exact code_second hcd
  unfold stepWrite at hstep
  cases hst : s.stack with
  | nil => simp only [hst] at hstep; cases hstep
  | cons tv rest =>
    obtain ⟨t, v⟩ := tv
    have htop : c.ts = t :: rest.map (·.1) := by rw [← hR.types, hst]; rfl
    have hty : (if v0.type = .void then (s.written n).getD t else v0.type) = td := by
      by_cases hv : v0.type = .void
      · rw [if_pos hv, t2 hv, htop]; rfl
      · rw [if_neg hv, t1 hv]
    have hpick : pick lib (if v0.ext.isSome then "RWRITE" else "WRITE") (((t, v) :: rest).map (·.1)) (some td) = some r := by
      rw [← hst, hR.types]; exact h3
    have hod : outD n = some (decl v0) := by rw [hoD, hfv]; rfl
    simp only [hst, hod, decl, hty, hpick] at hstep
    have hvl : v.length = t.words := hR.sized (t, v) (by rw [hst]; simp)
    have hholds := hR.holds
    rw [hst] at hholds
    cases hx : v0.ext with
    | none =>
      rw [hx] at f1
      obtain ⟨f, t', u, hact, ai, ao, aty, an, aw, asz⟩ := write_of_name h2 f1
      rw [target_two aty ai] at htar
      injection htar with htar
      subst htar
      obtain ⟨o1, o2⟩ := outs_of_write aty ai ao
      rw [o2, htop] at f2
      simp only [List.isPrefixOf, Bool.and_true, beq_iff_eq] at f2
      subst f2
      have hts1 : c1.ts = rest.map (·.1) := by rw [h6, o1, o2, htop]; rfl
      simp only [hact, hx, Option.some.injEq] at hstep
      obtain ⟨p1, p2⟩ := pop_holds (m := { m with pc := m.pc + 1 + 1 }) hholds hvl
      have hfit : u.words ≤ slotW v0 := by
        unfold slotW; rw [hx]; simp only
        split
        · exact aw
        · rename_i hne; rw [t1 hne]; exact Nat.le_refl _
      obtain ⟨d', w1, w2⟩ := data_write h hR.data hw hm hx (x := (f v).1) (td := u) (asz v hvl) hfit
        (by rw [hR.data.len, hDL]) (st := rest) (e := s.err || (f v).2)
      refine ⟨i, r, { m with pc := m.pc + 1 + 1, sp := m.sp - t'.words, data := d', err := m.err || (f v).2 }, k1, h1, ?_, ?_, rfl⟩
      rotate_left
      · rw [← hstep]
        exact (show Rel ins outs0 D c1 _ { m with pc := m.pc + 1 + 1, sp := m.sp - t'.words, data := d', err := m.err || (f v).2 } from {
          pc := by show m.pc + 1 + 1 = _; rw [hc1, hR.pc]; simp
          types := hts1.symm
          sized := fun z hz => hR.sized z (by rw [hst]; exact List.mem_cons_of_mem _ hz)
          holds := p2
          err := by show (m.err || _) = (s.err || _); rw [hR.err]
          mem := hR.mem
          outs := by rw [show c1.outs = c'.outs by rw [h6]]; exact hoc
          data := by rw [hn] at w2; exact w2 })
      · unfold exec
        simp only [hact, fetch, k2, aty, List.headD_cons, p1, w1]
    | some p =>
      rw [hx] at f1
      obtain ⟨f, t', u, hact, ai, ao, aty, an, aw, asz⟩ := rwrite_of_name h2 f1
      rw [target_two aty ai] at htar
      injection htar with htar
      subst htar
      obtain ⟨o1, o2⟩ := outs_of_write aty ai ao
      rw [o2, htop] at f2
      simp only [List.isPrefixOf, Bool.and_true, beq_iff_eq] at f2
      subst f2
      have hts1 : c1.ts = rest.map (·.1) := by rw [h6, o1, o2, htop]; rfl
      simp only [hact, hx, Option.some.injEq] at hstep
      obtain ⟨p1, p2⟩ := pop_holds (m := { m with pc := m.pc + 1 + 1 }) hholds hvl
      have hrp := hptr p hx
      refine ⟨i, r, { m with pc := m.pc + 1 + 1, sp := m.sp - t'.words, mem := store m.mem p (f v).1, err := m.err || (f v).2 }, k1, h1, ?_, ?_, rfl⟩
      rotate_left
      · rw [← hstep]
        exact (show Rel ins outs0 D c1 _ { m with pc := m.pc + 1 + 1, sp := m.sp - t'.words, mem := store m.mem p (f v).1, err := m.err || (f v).2 } from {
          pc := by show m.pc + 1 + 1 = _; rw [hc1, hR.pc]; simp
          types := hts1.symm
          sized := fun z hz => hR.sized z (by rw [hst]; exact List.mem_cons_of_mem _ hz)
          holds := p2
          err := by show (m.err || _) = (s.err || _); rw [hR.err]
          mem := by show store m.mem p _ = store s.mem p _; rw [hR.mem]
          outs := by rw [show c1.outs = c'.outs by rw [h6]]; exact hoc
          data := by
            refine ⟨hR.data.len, hR.data.inp, ?_, hR.data.rest⟩
            intro z hz hzx t ht
            simp only at ht ⊢
            by_cases he : z.name = n
            · have : z = v0 := nodup_name h.nodO hz hm (by rw [he, hn])
              subst this
              rw [hx] at hzx; cases hzx
            · simp only [if_neg he] at ht
              exact hR.data.out z hz hzx t ht })
      · unfold exec
        simp only [hact, fetch, k2, aty, List.headD_cons, p1, ptrWords, hrp, ptr_roundtrip]

/-- The commands of a program that have no operand of their own in the text. -/
def NoRemote (l : List String) : Prop := l.head? ≠ some "RREAD" ∧ l.head? ≠ some "RWRITE"

/-- One line: simulation. -/
theorem line_sim {lib N ins outs0 S B L} (h : Ctx lib N ins outs0 S B L) {D : List Word} {c c1 : C}
    {s s1 : St} {m : M} {inD outD : String → Option Decl} (hiD : ∀ n, inD n = (find ins n).map decl)
    (hoD : ∀ n, outD n = (find outs0 n).map decl) {l : List String} {ls : List (List String)}
    (hR : Rel ins outs0 D c s m) (hc : CI N outs0 S L s.written c (l :: ls)) (hl : compLine lib N ins c l = .ok c1)
    (hk : Keep ins outs0 c1 D) {code y : List Nat} (hcode : code = c1.code ++ y)
    (hmax : c1.maxDss ≤ m.stack.length) (hrem : NoRemote l)
    (hstep : step lib N inD outD s l = some s1) :
    (c1 = c ∧ s1 = s) ∨ LineSim lib ins outs0 D code c1 s1 m := by
  obtain ⟨_, hci⟩ := line_ci h hc
  obtain ⟨w1, ci1, ck, _, _, _⟩ := hci c1 hl
  have hDL : D.length = L := by rw [hk.len, ci1.len]
  have hmx := ci1.maxd
  have hdep := hc.depth
  have hcon := hc.consts
  have hbnd := h.bound
  rw [constSum_cons] at hcon
  simp only [List.length_cons] at hdep
  have hSL : S ≤ L := Nat.le_trans (chain_le h.chI) (chain_le h.chO)
  cases l with
  | nil =>
    simp only [compLine, R.ok.injEq] at hl
    simp only [step, Option.some.injEq] at hstep
    exact .inl ⟨hl.symm, hstep.symm⟩
  | cons cmd ps =>
    right
    simp only [compLine] at hl
    simp only [step] at hstep
    by_cases h1 : cmd = "CAST"
    · rw [if_pos h1] at hl
      rw [if_neg (by rw [h1]; decide), if_neg (by rw [h1]; decide), if_neg (by rw [h1]; decide), if_pos h1] at hstep
      match ps, hl, hstep with
      | [], hl, _ => cases hl
      | _ :: _ :: _, hl, _ => cases hl
      | [t], hl, hstep =>
        simp only at hl hstep
        split at hl
        · exact sim_call h hR (want := some (N.typeOf t)) hl rfl hc.dss (by omega) rfl rfl hcode hmax hmx
            (by rw [h1]; decide) (by rw [h1]; decide) (by rw [h1]; decide) (by rw [h1]; decide) hstep
        · cases hl
    · rw [if_neg h1] at hl
      by_cases h2 : cmd = "WRITE"
      · rw [if_pos h2] at hl
        rw [if_neg (by rw [h2]; decide), if_pos h2] at hstep
        match ps, hl, hstep with
        | [], hl, _ => cases hl
        | _ :: _ :: _, hl, _ => cases hl
        | [n], hl, hstep =>
          simp only [compWrite] at hl
          rw [hc.outs, find_upd] at hl
          cases hf : find outs0 n with
          | none => simp only [hf, Option.map_none] at hl; cases hl
          | some v0 =>
            obtain ⟨hm, hn⟩ := find_mem hf
            have hmem0 : v0 ∈ ins ++ outs0 := List.mem_append.2 (.inr hm)
            simp only [hf, Option.map_some] at hl
            obtain ⟨d, hd, hk0, hp0⟩ := putPtr_ok h (c := c) (v := upd s.written v0) (v0 := v0)
              hmem0 (upd_loc _ _) (upd_ext _ _) hc.len (by omega)
            simp only [hd] at hl
            cases htd : (if (upd s.written v0).type = .void ∧ (upd s.written v0).ext = none then c.ts.head?
             else if (upd s.written v0).type.numeric then some (upd s.written v0).type else none) with
            | none => simp only [htd] at hl; cases hl
            | some td =>
              simp only [htd] at hl
              rw [setVar_upd, upd_ext, upd_loc] at hl
              have hdat : c1.data = d := by
                obtain ⟨i, r, _, _, _, _, _, h6⟩ := finish_ok h.lib (want := some td) (ts := c.ts) hl rfl hc.dss (by omega)
                rw [h6]
              refine sim_write h hoD hR hc.types hDL hf htd hl rfl hc.dss (by omega) rfl rfl hcode ?_ hstep
              intro p hp
              exact read_ptr h hR.data hmem0 hp (hk.ptrs v0 hmem0 p hp (by rw [hdat]; exact hp0 p hp))
      · rw [if_neg h2] at hl
        by_cases h3 : cmd = "READ"
        · rw [if_pos h3] at hl
          rw [if_pos h3] at hstep
          match ps, hl, hstep with
          | [], hl, _ => cases hl
          | _ :: _ :: _, hl, _ => cases hl
          | [n], hl, hstep =>
            simp only [compRead] at hl
            simp only at hstep
            cases hr : readVar ins c n with
            | none => simp only [hr] at hl; cases hl
            | some v =>
              simp only [hr] at hl
              have hspec := readVar_spec h hc.outs hr
              have hv : ∃ v0 ∈ ins ++ outs0, v.loc = v0.loc ∧ v.ext = v0.ext := by
                rcases hspec with ⟨v0, t, a, _, _, e, _⟩ | ⟨a, _⟩
                · exact ⟨v0, List.mem_append.2 (.inr a), by rw [e], by rw [e]⟩
                · exact ⟨v, List.mem_append.2 (.inl a), rfl, rfl⟩
              obtain ⟨v0, hv0, hvl, hve⟩ := hv
              obtain ⟨q1, q2⟩ := place_range h hv0
              obtain ⟨d, hd, hk0, hp0⟩ := putPtr_ok h (c := c) hv0 hvl hve hc.len (by omega)
              simp only [hd] at hl
              cases hnum : v.type.numeric with
              | false => rw [hnum] at hl; simp only [Bool.false_eq_true, if_false] at hl; cases hl
              | true =>
                rw [hnum] at hl
                simp only [if_true] at hl
                have hdat : c1.data = d := by
                  obtain ⟨i, r, _, _, _, _, _, h6⟩ := finish_ok h.lib (want := some v.type) (ts := c.ts) hl rfl hc.dss (by omega)
                  rw [h6]
                -- the abstract step
                have hs1 : ∃ x, s1 = { s with stack := (v.type, x) :: s.stack } ∧ x.length = v.type.words ∧
                    ((v.ext = none ∧ readW m.data v.loc v.type.words = some x) ∨
                     (∃ p, v.ext = some p ∧ x = load m.mem p v.type.words)) := by
                  unfold stepRead at hstep
                  rcases hspec with ⟨u, t, a, b, e1, e2, e3⟩ | ⟨a, b, e1, e2⟩
                  · have hod : outD n = some (decl u) := by rw [hoD, b]; rfl
                    simp only [e1, hod, decl, Option.some.injEq] at hstep
                    rw [e2]
                    simp only
                    cases hx : u.ext with
                    | none =>
                      rw [hx] at hstep
                      have := hR.data.out u a hx t (by rw [e3]; exact e1)
                      rw [e3] at this
                      exact ⟨s.out n, hstep.symm, ((readW_iff _ _ _ _).1 this).1, .inl ⟨rfl, this⟩⟩
                    | some p =>
                      rw [hx] at hstep
                      refine ⟨_, hstep.symm, load_length _ _ _, .inr ⟨p, rfl, ?_⟩⟩
                      rw [hR.mem]
                  · have hid : inD n = some (decl v) := by rw [hiD, b]; rfl
                    cases hwn : s.written n with
                    | some t =>
                      -- an output written before would have been found
                      simp only [hwn] at hstep
                      rcases e2 with e2 | e2
                      · rw [hoD, e2] at hstep; cases hstep
                      · rw [hwn] at e2; cases e2
                    | none =>
                      simp only [hwn, hid, decl, Option.some.injEq] at hstep
                      cases hx : v.ext with
                      | none =>
                        rw [hx] at hstep
                        have := hR.data.inp v a hx
                        rw [e1] at this
                        exact ⟨s.inp n, hstep.symm, ((readW_iff _ _ _ _).1 this).1, .inl ⟨rfl, this⟩⟩
                      | some p =>
                        rw [hx] at hstep
                        refine ⟨_, hstep.symm, load_length _ _ _, .inr ⟨p, rfl, ?_⟩⟩
                        rw [hR.mem]
                obtain ⟨x, e, hxl, hcase⟩ := hs1
                rw [e]
                refine sim_read h hR hl rfl hc.dss (by omega) rfl rfl (by unfold noLoc; omega) hcode hmax hmx hxl ?_
                rcases hcase with ⟨hx, hr'⟩ | ⟨p, hx, hr'⟩
                · left; exact ⟨by rw [hx]; rfl, hr'⟩
                · right
                  refine ⟨by rw [hx]; rfl, p, ?_, hr'⟩
                  rw [hvl]
                  exact read_ptr h hR.data hv0 (by rw [← hve]; exact hx)
                    (hk.ptrs v0 hv0 p (by rw [← hve]; exact hx) (by rw [hdat]; exact hp0 p (by rw [← hve]; exact hx)))
        · rw [if_neg h3] at hl
          by_cases h4 : cmd = "CONST"
          · rw [if_pos h4] at hl
            rw [if_neg h3, if_neg h2, if_pos h4] at hstep
            match ps, hl, hstep, hcon with
            | [], hl, _, _ => cases hl
            | [_], hl, _, _ => cases hl
            | _ :: _ :: _ :: _, hl, _, _ => cases hl
            | [t, txt], hl, hstep, hcon =>
              have hcw : constW N (cmd :: [t, txt]) = (N.typeOf t).words := by simp only [constW, if_pos h4]
              rw [hcw] at hcon
              simp only [compConst] at hl
              split at hl
              · cases hlit : N.literal (N.typeOf t) txt with
                | none => simp only [hlit] at hl; cases hl
                | some v =>
                  have hvl := h.names.1 _ _ _ hlit
                  simp only [hlit, Option.some.injEq] at hstep
                  simp only [hlit] at hl
                  obtain ⟨d, hd⟩ := writeW_ok (m := c.data) (a := c.nextConst) (v := v) (by rw [hvl, hc.len]; omega)
                  simp only [hd] at hl
                  have hadd : add16 c.nextConst (N.typeOf t).words = c.nextConst + (N.typeOf t).words := by
                    unfold add16; omega
                  rw [hadd] at hl
                  obtain ⟨i, r, _, _, _, _, _, h6⟩ := finish_ok h.lib (want := some (N.typeOf t)) (ts := c.ts) hl rfl hc.dss (by omega)
                  have hdat : c1.data = d := by rw [h6]
                  have hnc : c1.nextConst = c.nextConst + (N.typeOf t).words := by rw [h6]
                  rw [← hstep]
                  refine sim_read h hR hl rfl hc.dss (by omega) rfl rfl (by unfold noLoc; omega) hcode hmax hmx hvl
                    (.inl ⟨rfl, ?_⟩)
                  have hr0 : readW c1.data c.nextConst (N.typeOf t).words = some v := by
                    rw [hdat, ← hvl]; exact read_write_same hd
                  have hrD : readW D c.nextConst (N.typeOf t).words = some v := by
                    refine read_congr hr0 hk.len ?_
                    intro j _ hj
                    exact hk.consts j (by omega)
                  exact read_const h hR.data hrD (by omega)
              · cases hl
          · rw [if_neg h4] at hl
            rw [if_neg h3, if_neg h2, if_neg h4, if_neg h1] at hstep
            obtain ⟨g1, g2⟩ := hrem
            exact sim_call h hR (want := none) hl rfl hc.dss (by omega) rfl rfl hcode hmax hmx
              h3 h2 (by intro hh; apply g1; rw [hh]; rfl) (by intro hh; apply g2; rw [hh]; rfl) hstep

end Verif.Rt
