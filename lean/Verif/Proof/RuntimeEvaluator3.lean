import Verif.Proof.RuntimeEvaluator2

namespace Verif.Rt
open Verif.Rpn

/-- The facts fixed during a compilation: library, variables in their places, end of the constants `S`, end of the
inputs `B`, size of the data memory `L`. -/
structure Ctx (lib : List Fn) (N : Names) (ins outs0 : List Var) (S B L : Nat) : Prop where
  lib : ∀ r ∈ lib, r.Ok
  names : N.Ok
  chI : Chain S ins B
  chO : Chain B outs0 L
  bound : L ≤ 65534
  nodI : (ins.map (·.name)).Nodup
  nodO : (outs0.map (·.name)).Nodup
  numI : ∀ v ∈ ins, v.type.numeric = true
  typO : ∀ v ∈ outs0, v.type.numeric = true ∨ (v.type = .void ∧ v.ext = none)
  new : ∀ v ∈ outs0, v.used = false

/-- The output variables during the compilation. -/
def upd (w : String → Option Ty) (v : Var) : Var :=
  match w v.name with
  | none => v
  | some t => { v with type := t, used := true }

theorem upd_name (w : String → Option Ty) (v : Var) : (upd w v).name = v.name := by
  unfold upd; split <;> rfl
theorem upd_loc (w : String → Option Ty) (v : Var) : (upd w v).loc = v.loc := by
  unfold upd; split <;> rfl
theorem upd_ext (w : String → Option Ty) (v : Var) : (upd w v).ext = v.ext := by
  unfold upd; split <;> rfl

theorem find_upd (w : String → Option Ty) (vs : List Var) (n : String) :
    find (vs.map (upd w)) n = (find vs n).map (upd w) := by
  unfold find
  rw [List.find?_map]
  congr 2
  funext v
  simp [Function.comp, upd_name]

theorem setVar_upd (w : String → Option Ty) (vs : List Var) (n : String) (t : Ty) :
    setVar (vs.map (upd w)) n (fun v => { v with type := t, used := true }) =
      vs.map (upd fun m => if m = n then some t else w m) := by
  unfold setVar
  rw [List.map_map]
  apply List.map_congr_left
  intro v _
  simp only [Function.comp, upd_name]
  by_cases h : v.name = n
  · simp only [if_pos h]
    unfold upd
    simp only [if_pos h]
    split <;> rfl
  · simp only [if_neg h]
    unfold upd
    simp only [if_neg h]

theorem find_mem {vs : List Var} {n : String} {v : Var} (h : find vs n = some v) : v ∈ vs ∧ v.name = n := by
  unfold find at h
  exact ⟨List.mem_of_find?_eq_some h, by simpa using List.find?_some h⟩

/-- The types given to outputs fit their places. -/
def TypesOk (outs0 : List Var) (w : String → Option Ty) : Prop :=
  ∀ v ∈ outs0, ∀ t, w v.name = some t →
    t.numeric = true ∧ t.words ≤ 2 ∧ (v.type ≠ .void → t = v.type)

theorem typeFits {lib N ins outs0 S B L} (_h : Ctx lib N ins outs0 S B L) {w} (hw : TypesOk outs0 w) {v : Var}
    (hv : v ∈ outs0) (hx : v.ext = none) {t : Ty} (ht : w v.name = some t) : t.words ≤ slotW v := by
  obtain ⟨_, h2, h3⟩ := hw v hv t ht
  unfold slotW
  rw [hx]
  simp only
  split
  · exact h2
  · rename_i hne; rw [h3 hne]; exact Nat.le_refl _

/-- The invariant of the compilation, `ls` being the lines to come. -/
structure CI (N : Names) (outs0 : List Var) (S L : Nat) (w : String → Option Ty) (c : C)
    (ls : List (List String)) : Prop where
  dss : c.dss = wsum c.ts
  depth : wsum c.ts + 2 * ls.length ≤ 65534
  consts : c.nextConst + constSum N ls ≤ S
  len : c.data.length = L
  outs : c.outs = outs0.map (upd w)
  types : TypesOk outs0 w
  maxd : wsum c.ts ≤ c.maxDss

/-- What later lines leave alone. -/
structure Keep (ins outs0 : List Var) (c : C) (d : List Word) : Prop where
  len : d.length = c.data.length
  consts : ∀ a, a < c.nextConst → d[a]? = c.data[a]?
  ptrs : ∀ v ∈ ins ++ outs0, ∀ p, v.ext = some p → readW c.data v.loc 2 = some (ptrVal p) →
    readW d v.loc 2 = some (ptrVal p)

/-- The function found for a line, and the new state of the compiler. -/
theorem finish_ok {lib : List Fn} (hlib : ∀ r ∈ lib, r.Ok) {c c1 : C} {cmd : String} {want : Option Ty}
    {code2 : Option Nat} {ts : List Ty} (h : finish lib c cmd want.isSome code2 = .ok c1)
    (hts : c.ts = offered want ts) (hd : c.dss = wsum ts) (hb : wsum ts + 2 < 65536) :
    ∃ i r, lib[i]? = some r ∧ r.Ok ∧ pick lib cmd ts want = some r ∧ fits cmd ts want r = true ∧
      wsum r.outs ≤ 2 ∧
      c1 = { c with ts := r.outs.reverse ++ ts.drop r.ins.length
                    dss := wsum (r.outs.reverse ++ ts.drop r.ins.length)
                    maxDss := if wsum (r.outs.reverse ++ ts.drop r.ins.length) > c.maxDss
                      then wsum (r.outs.reverse ++ ts.drop r.ins.length) else c.maxDss
                    code := c.code ++ [i] ++ operand code2 } := by
  unfold finish at h
  rw [hts] at h
  cases hf : findPCode lib cmd (offered want ts) want.isSome c.dss 0 with
  | none => simp only [hf] at h; cases h
  | some x =>
    obtain ⟨i, ts', d'⟩ := x
    simp only [hf, R.ok.injEq] at h
    obtain ⟨r, hr, _, h1, h2, h3, h4, h5⟩ := findPCode_some cmd want ts c.dss lib 0 i ts' d' hf
    have hok := hlib r hr
    have ho : wsum r.outs ≤ 2 := by
      unfold Fn.Ok at hok
      unfold Fn.outs
      split at hok
      · obtain ⟨_, a, b, t, e, f⟩ := hok
        rw [a, b, e]; simpa [wsum] using f
      · obtain ⟨_, a, b, t, e, f⟩ := hok
        rw [a, b, e]; simpa [wsum] using f
      · obtain ⟨_, a, b, _⟩ := hok
        rw [b]; simp [wsum]
      · obtain ⟨_, a, b, _⟩ := hok
        rw [b]; simp [wsum]
      · exact hok.2.2.2.2.2.1
    have hp : r.ins.isPrefixOf ts = true := by
      unfold fits at h3
      simp only [Bool.and_eq_true] at h3
      exact h3.1.2
    have hs : d' = wsum (r.outs.reverse ++ ts.drop r.ins.length) := by
      rw [h5, hd, consumeSize_eq r ts hp (by omega)]
    refine ⟨i, r, by simpa using h1, hok, h2, h3, ho, ?_⟩
    rw [← h, h4, hs]

theorem finish_nocrash (lib : List Fn) (c : C) (cmd : String) (m : Bool) (code2 : Option Nat) :
    finish lib c cmd m code2 ≠ .crash := by
  unfold finish
  split <;> simp

theorem wsum_drop_le (ws ts : List Ty) (h : ws.isPrefixOf ts = true) : wsum (ts.drop ws.length) ≤ wsum ts := by
  have := prefix_wsum ws ts h; omega

theorem fits_prefix {cmd : String} {ts : List Ty} {want : Option Ty} {r : Fn} (h : fits cmd ts want r = true) :
    r.name = cmd ∧ r.ins.isPrefixOf ts = true ∧ ∀ t, want = some t → r.target = some t := by
  unfold fits at h
  simp only [Bool.and_eq_true, beq_iff_eq] at h
  refine ⟨h.1.1, h.1.2, ?_⟩
  intro t ht
  subst ht
  simpa using h.2

/-- Result of `finish` in terms of the invariant. -/
theorem finish_ci {lib : List Fn} (hlib : ∀ r ∈ lib, r.Ok) {N outs0 S L} {c c1 : C} {cmd : String}
    {want : Option Ty} {code2 : Option Nat} {ts : List Ty} {ls : List (List String)}
    {w : String → Option Ty} (h : finish lib c cmd want.isSome code2 = .ok c1)
    (hts : c.ts = offered want ts) (hd : c.dss = wsum ts) (hb : wsum ts + 2 * (ls.length + 1) ≤ 65534)
    (hcn : c.nextConst + constSum N ls ≤ S) (hl : c.data.length = L) (ho : c.outs = outs0.map (upd w))
    (ht : TypesOk outs0 w) :
    CI N outs0 S L w c1 ls ∧ c.maxDss ≤ c1.maxDss ∧ c1.data = c.data ∧ c1.nextConst = c.nextConst ∧
      ∃ x, c1.code = c.code ++ x := by
  obtain ⟨i, r, _, _, _, h4, h5, h6⟩ := finish_ok hlib h hts hd (by omega)
  obtain ⟨_, hp, _⟩ := fits_prefix h4
  have hle := wsum_drop_le _ _ hp
  have hw : wsum (r.outs.reverse ++ ts.drop r.ins.length) ≤ wsum ts + 2 := by
    rw [wsum_append, wsum_reverse]; omega
  subst h6
  refine ⟨⟨rfl, ?_, hcn, hl, ho, ht, ?_⟩, ?_, rfl, rfl, ⟨_, List.append_assoc _ _ _⟩⟩
  · simp only; omega
  · simp only; split <;> omega
  · simp only; split <;> omega

theorem slotW_ext {v : Var} {p : Nat} (h : v.ext = some p) : slotW v = 2 := by simp [slotW, h]

/-- The place of a variable of the program is in the data memory, after the constants. -/
theorem place_range {lib N ins outs0 S B L} (h : Ctx lib N ins outs0 S B L) {v : Var} (hv : v ∈ ins ++ outs0) :
    S ≤ v.loc ∧ v.loc + slotW v ≤ L := by
  have h1 := chain_le h.chI
  have h2 := chain_le h.chO
  rcases List.mem_append.1 hv with hv | hv
  · have := chain_range h.chI v hv; omega
  · have := chain_range h.chO v hv; omega

theorem place_disj {lib N ins outs0 S B L} (h : Ctx lib N ins outs0 S B L) {v w : Var} (hv : v ∈ ins ++ outs0)
    (hw : w ∈ ins ++ outs0) : v = w ∨ v.loc + slotW v ≤ w.loc ∨ w.loc + slotW w ≤ v.loc := by
  rcases List.mem_append.1 hv with hv | hv <;> rcases List.mem_append.1 hw with hw | hw
  · exact chain_disj h.chI v hv w hw
  · have a := chain_range h.chI v hv
    have b := chain_range h.chO w hw
    right; left; omega
  · have a := chain_range h.chI w hw
    have b := chain_range h.chO v hv
    right; right; omega
  · exact chain_disj h.chO v hv w hw

/-- Writing the address of a variable. -/
theorem putPtr_ok {lib N ins outs0 S B L} (h : Ctx lib N ins outs0 S B L) {c : C} {v v0 : Var}
    (hv : v0 ∈ ins ++ outs0) (hl : v.loc = v0.loc) (he : v.ext = v0.ext) (hlen : c.data.length = L)
    (hc : c.nextConst ≤ S) :
    ∃ d, putPtr c.data v = some d ∧ Keep ins outs0 c d ∧
      ∀ p, v0.ext = some p → readW d v0.loc 2 = some (ptrVal p) := by
  obtain ⟨hr1, hr2⟩ := place_range h hv
  unfold putPtr
  rw [he]
  cases hx : v0.ext with
  | none =>
    exact ⟨c.data, rfl, ⟨rfl, fun _ _ => rfl, fun _ _ _ _ hr => hr⟩, by intro p hp; cases hp⟩
  | some p =>
    have hs := slotW_ext hx
    have h2 : (ptrVal p).length = 2 := rfl
    obtain ⟨d, hd⟩ := writeW_ok (m := c.data) (a := v.loc) (v := ptrVal p) (by rw [h2, hl, hlen]; omega)
    obtain ⟨_, hdl, hde⟩ := writeW_some hd
    refine ⟨d, hd, ⟨hdl, ?_, ?_⟩, ?_⟩
    · intro a ha
      rw [hde, if_neg (by omega)]
    · intro u hu q hq hread
      rcases place_disj h hu hv with rfl | hdisj
      · rw [hx] at hq
        injection hq with hq
        subst hq
        have := read_write_same hd
        rw [hl, h2] at this
        exact this
      · refine read_write_disj hd hread ?_
        rw [h2, hl]
        have hsu := slotW_ext hq
        omega
    · intro q hq
      injection hq with hq
      subst hq
      have := read_write_same hd
      rw [hl, h2] at this
      exact this

theorem Keep.refl (ins outs0 : List Var) (c : C) : Keep ins outs0 c c.data :=
  ⟨rfl, fun _ _ => rfl, fun _ _ _ _ h => h⟩

theorem Keep.trans {ins outs0 : List Var} {c c1 : C} {d : List Word} (h1 : Keep ins outs0 c c1.data)
    (hn : c.nextConst ≤ c1.nextConst) (h2 : Keep ins outs0 c1 d) : Keep ins outs0 c d :=
  ⟨h2.len.trans h1.len, fun a ha => (h2.consts a (by omega)).trans (h1.consts a ha),
   fun v hv p hp hr => h2.ptrs v hv p hp (h1.ptrs v hv p hp hr)⟩

/-- The variable a `READ` means. -/
theorem readVar_spec {lib N ins outs0 S B L} (h : Ctx lib N ins outs0 S B L) {w : String → Option Ty} {c : C} {n : String}
    {v : Var} (ho : c.outs = outs0.map (upd w)) (hr : readVar ins c n = some v) :
    (∃ v0 t, v0 ∈ outs0 ∧ find outs0 n = some v0 ∧ w n = some t ∧ v = { v0 with type := t, used := true } ∧ v0.name = n) ∨
    (v ∈ ins ∧ find ins n = some v ∧ v.name = n ∧ (find outs0 n = none ∨ w n = none)) := by
  unfold readVar at hr
  rw [ho, find_upd] at hr
  cases hf : find outs0 n with
  | none =>
    simp only [hf, Option.map_none] at hr
    exact .inr ⟨(find_mem hr).1, hr, (find_mem hr).2, .inl rfl⟩
  | some v0 =>
    obtain ⟨hm, hn⟩ := find_mem hf
    simp only [hf, Option.map_some] at hr
    cases hw : w n with
    | none =>
      have : upd w v0 = v0 := by unfold upd; rw [hn, hw]
      rw [this, h.new v0 hm] at hr
      simp only [Bool.false_eq_true, if_false] at hr
      exact .inr ⟨(find_mem hr).1, hr, (find_mem hr).2, .inr rfl⟩
    | some t =>
      have : upd w v0 = { v0 with type := t, used := true } := by unfold upd; rw [hn, hw]
      rw [this] at hr
      simp only [if_true, Option.some.injEq] at hr
      exact .inl ⟨v0, t, hm, rfl, rfl, hr.symm, hn⟩

/-- The type of the variable a `WRITE` means, and what it leaves in the table. -/
theorem typesOk_set {outs0 : List Var} {w : String → Option Ty} (hw : TypesOk outs0 w) {n : String} {t : Ty}
    (h1 : t.numeric = true) (h2 : t.words ≤ 2)
    (h3 : ∀ v ∈ outs0, v.name = n → v.type ≠ .void → t = v.type) :
    TypesOk outs0 (fun m => if m = n then some t else w m) := by
  intro v hv u hu
  by_cases he : v.name = n
  · simp only [if_pos he, Option.some.injEq] at hu
    subst hu
    exact ⟨h1, h2, h3 v hv he⟩
  · simp only [if_neg he] at hu
    exact hw v hv u hu

theorem nodup_name {vs : List Var} (h : (vs.map (·.name)).Nodup) {v w : Var} (hv : v ∈ vs) (hw : w ∈ vs)
    (he : v.name = w.name) : v = w := by
  induction vs with
  | nil => cases hv
  | cons x vs ih =>
    simp only [List.map_cons, List.nodup_cons] at h
    rcases List.mem_cons.1 hv with h1 | hv'
    · rcases List.mem_cons.1 hw with h2 | hw'
      · rw [h1, h2]
      · rw [← h1] at h
        exact absurd (List.mem_map.2 ⟨w, hw', he.symm⟩) h.1
    · rcases List.mem_cons.1 hw with h2 | hw'
      · rw [← h2] at h
        exact absurd (List.mem_map.2 ⟨v, hv', he⟩) h.1
      · exact ih h.2 hv' hw'

/-- A `WRITE` function, from its name. -/
theorem write_of_name {r : Fn} (h : r.Ok) (hn : r.name = "WRITE") :
    ∃ f t u, r.act = .write f ∧ r.nIn = 1 ∧ r.nOut = 0 ∧ r.types = [t, u] ∧ u.numeric = true ∧ u.words ≤ 2 ∧
      ∀ v : Val, v.length = t.words → (f v).1.length = u.words := by
  unfold Fn.Ok at h
  split at h
  · rw [h.1] at hn; exact absurd hn (by decide)
  · rw [h.1] at hn; exact absurd hn (by decide)
  · rename_i f hf
    obtain ⟨_, a, b, t, u, c, d, e, g⟩ := h
    exact ⟨f, t, u, hf, a, b, c, d, e, g⟩
  · rw [h.1] at hn; exact absurd hn (by decide)
  · exact absurd hn h.2.1

theorem rwrite_of_name {r : Fn} (h : r.Ok) (hn : r.name = "RWRITE") :
    ∃ f t u, r.act = .rwrite f ∧ r.nIn = 1 ∧ r.nOut = 0 ∧ r.types = [t, u] ∧ u.numeric = true ∧ u.words ≤ 2 ∧
      ∀ v : Val, v.length = t.words → (f v).1.length = u.words := by
  unfold Fn.Ok at h
  split at h
  · rw [h.1] at hn; exact absurd hn (by decide)
  · rw [h.1] at hn; exact absurd hn (by decide)
  · rw [h.1] at hn; exact absurd hn (by decide)
  · rename_i f hf
    obtain ⟨_, a, b, t, u, c, d, e, g⟩ := h
    exact ⟨f, t, u, hf, a, b, c, d, e, g⟩
  · exact absurd hn h.2.2.2.1

theorem read_of_name {r : Fn} (h : r.Ok) (hn : r.name = "READ") :
    ∃ t, r.act = .read ∧ r.nIn = 0 ∧ r.nOut = 1 ∧ r.types = [t] ∧ t.words ≤ 2 := by
  unfold Fn.Ok at h
  split at h
  · rename_i hf
    obtain ⟨_, a, b, t, u, c⟩ := h
    exact ⟨t, hf, a, b, u, c⟩
  · rw [h.1] at hn; exact absurd hn (by decide)
  · rw [h.1] at hn; exact absurd hn (by decide)
  · rw [h.1] at hn; exact absurd hn (by decide)
  · exact absurd hn h.1

theorem rread_of_name {r : Fn} (h : r.Ok) (hn : r.name = "RREAD") :
    ∃ t, r.act = .rread ∧ r.nIn = 0 ∧ r.nOut = 1 ∧ r.types = [t] ∧ t.words ≤ 2 := by
  unfold Fn.Ok at h
  split at h
  · rw [h.1] at hn; exact absurd hn (by decide)
  · rename_i hf
    obtain ⟨_, a, b, t, u, c⟩ := h
    exact ⟨t, hf, a, b, u, c⟩
  · rw [h.1] at hn; exact absurd hn (by decide)
  · rw [h.1] at hn; exact absurd hn (by decide)
  · exact absurd hn h.2.2.1

theorem op_of_name {r : Fn} (h : r.Ok) (h1 : r.name ≠ "READ") (h2 : r.name ≠ "WRITE") (h3 : r.name ≠ "RREAD")
    (h4 : r.name ≠ "RWRITE") : ∃ skip f, r.act = .op skip f ∧ r.nIn + r.nOut ≤ r.types.length ∧
      ∀ vs : List Val, vs.map List.length = r.ins.map Ty.words →
        (f vs).1.map List.length = r.outs.map Ty.words := by
  unfold Fn.Ok at h
  split at h
  · exact absurd h.1 h1
  · exact absurd h.1 h3
  · exact absurd h.1 h2
  · exact absurd h.1 h4
  · rename_i s f hf
    exact ⟨s, f, hf, h.2.2.2.2.1, h.2.2.2.2.2.2⟩

end Verif.Rt
