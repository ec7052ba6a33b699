import Verif.Proof.RuntimeEvaluator4

namespace Verif.Rt
open Verif.Rpn

/-- The data memory holds the variables; elsewhere it is what the compiler left (`D`). -/
structure DataRel (ins outs0 : List Var) (D : List Word) (s : St) (d : List Word) : Prop where
  len : d.length = D.length
  inp : ∀ v ∈ ins, v.ext = none → readW d v.loc v.type.words = some (s.inp v.name)
  out : ∀ v ∈ outs0, v.ext = none → ∀ t, s.written v.name = some t →
    readW d v.loc t.words = some (s.out v.name)
  rest : ∀ a, (∀ v ∈ ins ++ outs0, v.ext = none → a < v.loc ∨ v.loc + slotW v ≤ a) → d[a]? = D[a]?

/-- The machine before a line, the calculation at the same line, and the state of the compiler there. -/
structure Rel (ins outs0 : List Var) (D : List Word) (c : C) (s : St) (m : M) : Prop where
  pc : m.pc = c.code.length
  types : s.stack.map (·.1) = c.ts
  sized : Sized s.stack
  holds : Holds m.stack m.sp s.stack
  err : m.err = s.err
  mem : m.mem = s.mem
  outs : c.outs = outs0.map (upd s.written)
  data : DataRel ins outs0 D s m.data

theorem upd_inj {v : Var} {w1 w2 : String → Option Ty} (hu : v.used = false) (h : upd w1 v = upd w2 v) :
    w1 v.name = w2 v.name := by
  unfold upd at h
  cases h1 : w1 v.name <;> cases h2 : w2 v.name
  · rfl
  · rw [h1, h2] at h
    have := congrArg Var.used h
    simp [hu] at this
  · rw [h1, h2] at h
    have := congrArg Var.used h
    simp [hu] at this
  · rw [h1, h2] at h
    have := congrArg Var.type h
    simp only at this
    rw [this]

theorem ci_written {lib N ins outs0 S B L} (h : Ctx lib N ins outs0 S B L) {w1 w2 : String → Option Ty} {c : C}
    {ls : List (List String)} (hc : CI N outs0 S L w1 c ls) (ho : c.outs = outs0.map (upd w2)) :
    CI N outs0 S L w2 c ls := by
  refine { hc with outs := ho, types := ?_ }
  have he : outs0.map (upd w1) = outs0.map (upd w2) := by rw [← hc.outs, ho]
  intro v hv t ht
  have := List.map_inj_left.1 he v hv
  exact hc.types v hv t (by rw [upd_inj (h.new v hv) this]; exact ht)

/-- The constants are where the compiler put them. -/
theorem read_const {lib N ins outs0 S B L} (h : Ctx lib N ins outs0 S B L) {D : List Word} {s : St} {d : List Word}
    (hd : DataRel ins outs0 D s d) {a n : Nat} {x : Val} (hx : readW D a n = some x) (hb : a + n ≤ S) :
    readW d a n = some x := by
  refine read_congr hx hd.len ?_
  intro i h1 h2
  refine hd.rest i ?_
  intro v hv _
  have := place_range h hv
  omega

/-- So are the addresses of remote variables. -/
theorem read_ptr {lib N ins outs0 S B L} (h : Ctx lib N ins outs0 S B L) {D : List Word} {s : St} {d : List Word}
    (hd : DataRel ins outs0 D s d) {v : Var} (hv : v ∈ ins ++ outs0) {p : Nat} (hp : v.ext = some p) {x : Val}
    (hx : readW D v.loc 2 = some x) : readW d v.loc 2 = some x := by
  refine read_congr hx hd.len ?_
  intro i h1 h2
  refine hd.rest i ?_
  intro u hu hue
  have hs := slotW_ext hp
  rcases place_disj h hu hv with rfl | hdj
  · rw [hp] at hue; cases hue
  · omega

/-- The code words of an instruction. -/
theorem code_first {c : C} {i : Nat} {x y code : List Nat} (h : code = c.code ++ [i] ++ x ++ y) :
    code[c.code.length]? = some i := by
  subst h
  rw [List.append_assoc, List.append_assoc, List.getElem?_append_right (Nat.le_refl _)]
  simp

theorem code_second {c : C} {i a : Nat} {y code : List Nat} (h : code = c.code ++ [i] ++ [a] ++ y) :
    code[c.code.length + 1]? = some a := by
  subst h
  rw [List.append_assoc, List.append_assoc, List.getElem?_append_right (Nat.le_add_right _ _)]
  simp

/-- A value pushed by a reading function. -/
theorem sim_push {ins outs0 : List Var} {D : List Word} {c c1 : C} {s : St} {m : M} (hR : Rel ins outs0 D c s m)
    {t : Ty} {v : Val} (hv : v.length = t.words) {i a : Nat} (hts : c1.ts = t :: c.ts)
    (hcode : c1.code = c.code ++ [i] ++ [a]) (houts : c1.outs = c.outs)
    (hspace : wsum c1.ts ≤ m.stack.length) :
    ∃ m1, push { m with pc := m.pc + 1 + 1 } v = some m1 ∧
      Rel ins outs0 D c1 { s with stack := (t, v) :: s.stack } m1 ∧ m1.stack.length = m.stack.length := by
  have hsp : m.sp = wsum c.ts := by rw [hR.holds.1, flat_length hR.sized, hR.types]
  rw [hts, wsum_cons] at hspace
  obtain ⟨st, h1, h2, h3⟩ := push_holds (m := { m with pc := m.pc + 1 + 1 }) (t := t) (v := v) hR.holds
    (by show m.sp + v.length ≤ m.stack.length; omega)
  refine ⟨_, h1, ?_, h2⟩
  exact {
    pc := by show m.pc + 1 + 1 = _; rw [hcode, hR.pc]; simp
    types := by show t :: s.stack.map (·.1) = _; rw [hR.types, hts]
    sized := by
      intro x hx
      rcases List.mem_cons.1 hx with rfl | hx
      · exact hv
      · exact hR.sized x hx
    holds := h3
    err := hR.err
    mem := hR.mem
    outs := by rw [houts]; exact hR.outs
    data := ⟨hR.data.len, hR.data.inp, hR.data.out, hR.data.rest⟩ }

/-- What `exec` does for a function that reads a variable. -/
theorem exec_read {code : List Nat} {r : Fn} {m : M} {t : Ty} (hact : r.act = .read) (hty : r.types = [t])
    {a : Nat} (hc : code[m.pc]? = some a) {v : Val} (hr : readW m.data a t.words = some v) :
    exec code r m = push { m with pc := m.pc + 1 } v := by
  unfold exec
  simp only [hact, fetch, hc, hty, List.headD_cons, hr]

theorem exec_rread {code : List Nat} {r : Fn} {m : M} {t : Ty} (hact : r.act = .rread) (hty : r.types = [t])
    {a : Nat} (hc : code[m.pc]? = some a) {p : Nat} (hr : readW m.data a 2 = some (ptrVal p)) :
    exec code r m = push { m with pc := m.pc + 1 } (load m.mem p t.words) := by
  unfold exec
  simp only [hact, fetch, hc, hty, List.headD_cons, ptrWords, hr, ptr_roundtrip]

theorem load_length (mem : Nat → Word) (p n : Nat) : (load mem p n).length = n := by simp [load]

/-- The result of one line: the machine executes one function and the relation holds again. -/
def LineSim (lib : List Fn) (ins outs0 : List Var) (D : List Word) (code : List Nat) (c1 : C) (s1 : St) (m : M) : Prop :=
  ∃ i r m1, code[m.pc]? = some i ∧ lib[i]? = some r ∧ exec code r { m with pc := m.pc + 1 } = some m1 ∧
    Rel ins outs0 D c1 s1 m1 ∧ m1.stack.length = m.stack.length

theorem outs_of_read {r : Fn} {t : Ty} (h1 : r.types = [t]) (h2 : r.nIn = 0) (h3 : r.nOut = 1) :
    r.outs = [t] ∧ r.ins = [] := by
  unfold Fn.outs Fn.ins; rw [h1, h2, h3]; exact ⟨rfl, rfl⟩
theorem outs_of_write {r : Fn} {t u : Ty} (h1 : r.types = [t, u]) (h2 : r.nIn = 1) (h3 : r.nOut = 0) :
    r.outs = [] ∧ r.ins = [t] := by
  unfold Fn.outs Fn.ins; rw [h1, h2, h3]; exact ⟨rfl, rfl⟩

/-- A line that reads a value of type `t` at place `a` (directly, or through the address there). -/
theorem sim_read {lib N ins outs0 S B L} (h : Ctx lib N ins outs0 S B L) {D : List Word} {c c' c1 : C}
    {s : St} {m : M} (hR : Rel ins outs0 D c s m) {t : Ty} {a : Nat} {cmd : String} {code y : List Nat}
    (hf : finish lib c' cmd true (some a) = .ok c1) (hts : c'.ts = t :: c.ts) (hd : c'.dss = wsum c.ts)
    (hb : wsum c.ts + 2 < 65536) (hcc : c'.code = c.code) (hoc : c'.outs = c.outs) (ha : a ≠ noLoc)
    (hcode : code = c1.code ++ y) (hmax : c1.maxDss ≤ m.stack.length) (hmx : wsum c1.ts ≤ c1.maxDss) {v : Val}
    (hv : v.length = t.words)
    (hcase : (cmd = "READ" ∧ readW m.data a t.words = some v) ∨
      (cmd = "RREAD" ∧ ∃ p, readW m.data a 2 = some (ptrVal p) ∧ v = load m.mem p t.words)) :
    LineSim lib ins outs0 D code c1 { s with stack := (t, v) :: s.stack } m := by
  obtain ⟨i, r, h1, h2, _, h4, _, h6⟩ := finish_ok h.lib (want := some t) hf hts hd hb
  obtain ⟨f1, _, f3⟩ := fits_prefix h4
  have htar := f3 t rfl
  have hop : operand (some a) = [a] := by simp [operand, ha]
  have hc1 : c1.code = c.code ++ [i] ++ [a] := by rw [h6, ← hop, ← hcc]
  have hcd : code = c.code ++ [i] ++ [a] ++ y := by rw [hcode, hc1]
  have k1 : code[m.pc]? = some i := by rw [hR.pc]; exact code_first (x := [a]) hcd
  have k2 : code[m.pc + 1]? = some a := by rw [hR.pc]; exact code_second hcd
  rcases hcase with ⟨e, hr⟩ | ⟨e, p, hr, hvl⟩
  · obtain ⟨t', ha', hi, ho, hty, _⟩ := read_of_name h2 (f1.trans e)
    rw [target_one hty hi] at htar
    injection htar with htar
    subst htar
    obtain ⟨o1, o2⟩ := outs_of_read hty hi ho
    have hts1 : c1.ts = t' :: c.ts := by rw [h6, o1, o2]; rfl
    obtain ⟨m1, p1, p2, p3⟩ := sim_push hR hv hts1 hc1 (by rw [h6]; exact hoc) (by omega)
    refine ⟨i, r, m1, k1, h1, ?_, p2, p3⟩
    rw [exec_read (m := { m with pc := m.pc + 1 }) ha' hty k2 hr]
    exact p1
  · obtain ⟨t', ha', hi, ho, hty, _⟩ := rread_of_name h2 (f1.trans e)
    rw [target_one hty hi] at htar
    injection htar with htar
    subst htar
    obtain ⟨o1, o2⟩ := outs_of_read hty hi ho
    have hts1 : c1.ts = t' :: c.ts := by rw [h6, o1, o2]; rfl
    obtain ⟨m1, p1, p2, p3⟩ := sim_push hR hv hts1 hc1 (by rw [h6]; exact hoc) (by omega)
    refine ⟨i, r, m1, k1, h1, ?_, p2, p3⟩
    rw [exec_rread (m := { m with pc := m.pc + 1 }) ha' hty k2 hr, ← hvl]
    exact p1

/-- A line that calls a computing function. -/
theorem sim_call {lib N ins outs0 S B L} (h : Ctx lib N ins outs0 S B L) {D : List Word} {c c' c1 : C}
    {s s1 : St} {m : M} (hR : Rel ins outs0 D c s m) {want : Option Ty} {cmd : String} {code y : List Nat}
    (hf : finish lib c' cmd want.isSome none = .ok c1) (hts : c'.ts = offered want c.ts) (hd : c'.dss = wsum c.ts)
    (hb : wsum c.ts + 2 < 65536) (hcc : c'.code = c.code) (hoc : c'.outs = c.outs)
    (hcode : code = c1.code ++ y) (hmax : c1.maxDss ≤ m.stack.length) (hmx : wsum c1.ts ≤ c1.maxDss)
    (n1 : cmd ≠ "READ") (n2 : cmd ≠ "WRITE") (n3 : cmd ≠ "RREAD") (n4 : cmd ≠ "RWRITE")
    (hstep : stepCall lib s cmd want = some s1) : LineSim lib ins outs0 D code c1 s1 m := by
  obtain ⟨i, r, h1, h2, h3, h4, _, h6⟩ := finish_ok h.lib hf hts hd hb
  obtain ⟨f1, f2, _⟩ := fits_prefix h4
  obtain ⟨skip, f, hact, hlen, hsz⟩ := op_of_name h2 (by rw [f1]; exact n1) (by rw [f1]; exact n2)
    (by rw [f1]; exact n3) (by rw [f1]; exact n4)
  have hil : r.ins.length = r.nIn := by unfold Fn.ins; rw [List.length_take]; omega
  unfold stepCall at hstep
  rw [hR.types, h3] at hstep
  simp only [apply, hact] at hstep
  have hc1 : c1.code = c.code ++ [i] := by rw [h6]; simp only [operand, List.append_nil]; rw [hcc]
  have k1 : code[m.pc]? = some i := by
    rw [hR.pc]; exact code_first (x := []) (y := y) (by rw [hcode, hc1]; simp)
  have hts1 : c1.ts = r.outs.reverse ++ c.ts.drop r.ins.length := by rw [h6]
  split at hstep
  · cases hstep
  · rename_i hskip
    rw [← hR.err] at hskip
    injection hstep with hstep
    rw [← hR.types] at f2
    obtain ⟨p1, p2, p3⟩ := popAll_holds r.ins (m := { m with pc := m.pc + 1 }) hR.holds hR.sized f2
    simp only at p1 p2 p3
    have hvl : ((s.stack.take r.ins.length).map (·.2)).map List.length = r.ins.map Ty.words := by
      have hpre : r.ins = (s.stack.map (·.1)).take r.ins.length := by
        have := List.isPrefixOf_iff_prefix.1 f2
        exact List.prefix_iff_eq_take.1 this
      rw [List.map_map]
      conv => rhs; rw [hpre]
      rw [← List.map_take, List.map_map]
      apply List.map_congr_left
      intro x hx
      exact hR.sized x (List.mem_of_mem_take hx)
    have hrs := hsz _ hvl
    have hsp : m.sp = wsum c.ts := by rw [hR.holds.1, flat_length hR.sized, hR.types]
    rw [hR.types] at f2
    have hpw := prefix_wsum _ _ f2
    have hw1 : wsum c1.ts = wsum r.outs + wsum (c.ts.drop r.ins.length) := by
      rw [hts1, wsum_append, wsum_reverse]
    obtain ⟨st, q1, q2, q3⟩ := pushAll_holds r.outs (f ((s.stack.take r.ins.length).map (·.2))).1
      (m := { m with pc := m.pc + 1, sp := m.sp - wsum r.ins }) p2 hrs
      (by show m.sp - wsum r.ins + wsum r.outs ≤ m.stack.length; omega)
    simp only at q1 q2 q3
    refine ⟨i, r, { m with pc := m.pc + 1, stack := st, sp := m.sp - wsum r.ins + wsum r.outs
                           err := m.err || (f ((s.stack.take r.ins.length).map (·.2))).2 }, k1, h1, ?_, ?_, q2⟩
    · unfold exec
      simp only [hact]
      rw [if_neg hskip, p1]
      simp only [q1]
    · rw [hil] at q3
      rw [← hstep]
      have hol : r.outs.length = (f ((s.stack.take r.nIn).map (·.2))).1.length := by
        have := congrArg List.length hrs
        rw [hil] at this
        simpa using this.symm
      exact {
        pc := by show m.pc + 1 = _; rw [hc1, hR.pc]; simp
        types := by
          show ((r.outs.zip _).reverse ++ s.stack.drop r.nIn).map (fun x : Ty × Val => x.1) = _
          rw [hts1, List.map_append, List.map_reverse, List.map_fst_zip (by omega), List.map_drop, hR.types, hil]
        sized := by
          intro x hx
          rcases List.mem_append.1 hx with hx | hx
          · rw [List.mem_reverse] at hx
            obtain ⟨j, hj, e⟩ := List.mem_iff_getElem.1 hx
            rw [List.getElem_zip] at e
            subst e
            have := congrArg (fun l => l[j]?) hrs
            rw [hil] at this
            simp only [List.length_zip] at hj
            simp only [List.getElem?_map] at this
            rw [List.getElem?_eq_getElem (by omega), List.getElem?_eq_getElem (by omega)] at this
            simpa using this
          · exact hR.sized x (List.mem_of_mem_drop hx)
        holds := q3
        err := by show (m.err || _) = (s.err || _); rw [hR.err, hil]
        mem := hR.mem
        outs := by rw [show c1.outs = c'.outs by rw [h6], hoc]; exact hR.outs
        data := ⟨hR.data.len, hR.data.inp, hR.data.out, hR.data.rest⟩ }

end Verif.Rt
