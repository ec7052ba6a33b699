import Verif.Proof.RuntimeEvaluator

namespace Verif.Rt
open Verif.Rpn

/-! ## The places of the variables -/

/-- Words kept for a variable. -/
def slotW (v : Var) : Nat :=
  match v.ext with
  | some _ => 2
  | none => if v.type = .void then 2 else v.type.words

/-- The variables lie one after the other from `a` to `b`. -/
def Chain : Nat → List Var → Nat → Prop
  | a, [], b => a = b
  | a, v :: vs, b => v.loc = a ∧ Chain (a + slotW v) vs b

theorem chain_le : ∀ {vs : List Var} {a b : Nat}, Chain a vs b → a ≤ b
  | [], _, _, h => by simp only [Chain] at h; omega
  | v :: vs, a, b, h => by have := chain_le h.2; omega

theorem chain_range : ∀ {vs : List Var} {a b : Nat}, Chain a vs b → ∀ v ∈ vs, a ≤ v.loc ∧ v.loc + slotW v ≤ b
  | [], _, _, _, _, hv => by cases hv
  | w :: vs, a, b, h, v, hv => by
    obtain ⟨h1, h2⟩ := h
    have hle := chain_le h2
    rcases List.mem_cons.1 hv with rfl | hv
    · omega
    · have := chain_range h2 v hv; omega

theorem chain_disj : ∀ {vs : List Var} {a b : Nat}, Chain a vs b → ∀ v ∈ vs, ∀ w ∈ vs,
    v = w ∨ v.loc + slotW v ≤ w.loc ∨ w.loc + slotW w ≤ v.loc
  | [], _, _, _, _, hv, _, _ => by cases hv
  | x :: vs, a, b, h, v, hv, w, hw => by
    obtain ⟨h1, h2⟩ := h
    rcases List.mem_cons.1 hv with rfl | hv
    · rcases List.mem_cons.1 hw with rfl | hw
      · exact .inl rfl
      · have := chain_range h2 w hw; right; left; omega
    · rcases List.mem_cons.1 hw with rfl | hw
      · have := chain_range h2 v ‹_›; right; right; omega
      · exact chain_disj h2 v hv w hw

/-- What a variable is, apart from its place. -/
def decl (v : Var) : Decl := { ty := v.type, ext := v.ext }

/-- Two lists of variables that differ in the places only. -/
inductive SameVars : List Var → List Var → Prop
  | nil : SameVars [] []
  | cons {v w vs ws} : w = { v with loc := w.loc } → SameVars vs ws → SameVars (v :: vs) (w :: ws)

theorem SameVars.find {vs ws : List Var} (h : SameVars vs ws) (n : String) :
    (find ws n).map decl = (find vs n).map decl := by
  induction h with
  | nil => rfl
  | @cons v w vs ws h _ ih =>
    have hn : w.name = v.name := by rw [h]
    unfold Rt.find at ih ⊢
    by_cases hv : v.name = n
    · rw [List.find?_cons_of_pos (by simp [hn, hv]), List.find?_cons_of_pos (by simp [hv])]
      simp only [Option.map_some, decl]
      rw [h]
    · rw [List.find?_cons_of_neg (by simp [hn, hv]), List.find?_cons_of_neg (by simp [hv])]
      exact ih

theorem SameVars.names {vs ws : List Var} (h : SameVars vs ws) : ws.map (·.name) = vs.map (·.name) := by
  induction h with
  | nil => rfl
  | @cons v w vs ws h _ ih => simp only [List.map_cons, ih]; rw [h]

theorem SameVars.mem {vs ws : List Var} (h : SameVars vs ws) : ∀ w ∈ ws, ∃ v ∈ vs, w = { v with loc := w.loc } := by
  induction h with
  | nil => intro w hw; cases hw
  | @cons v w vs ws h _ ih =>
    intro x hx
    rcases List.mem_cons.1 hx with rfl | hx
    · exact ⟨v, by simp, h⟩
    · obtain ⟨y, hy, e⟩ := ih x hx
      exact ⟨y, List.mem_cons_of_mem _ hy, e⟩

theorem placeIns_spec : ∀ (vs : List Var) (a : Nat) (vs' : List Var) (b : Nat),
    (∀ v ∈ vs, v.loc = noLoc ∧ v.type.words ≤ 2) → a + 2 * vs.length < 65536 →
    placeIns vs a = (true, vs', b) →
    Chain a vs' b ∧ b ≤ a + 2 * vs.length ∧ SameVars vs vs' ∧ ∀ v ∈ vs', v.type.numeric = true
  | [], a, vs', b, _, _, h => by
    simp only [placeIns, Prod.mk.injEq, true_and] at h
    obtain ⟨h1, h2⟩ := h
    subst h1; subst h2
    exact ⟨rfl, by simp, .nil, by simp⟩
  | v :: vs, a, vs', b, hv, hb, h => by
    obtain ⟨hl, hw⟩ := hv v (by simp)
    simp only [List.length_cons] at hb
    unfold placeIns at h
    cases hn : v.type.numeric with
    | false => simp only [hn, Bool.not_false, if_true] at h; cases h
    | true =>
      simp only [hn, Bool.not_true, Bool.false_eq_true, if_false, hl, if_true] at h
      have hnv : v.type ≠ .void := by intro hh; rw [hh] at hn; cases hn
      have hs : placeW v = slotW { v with loc := a } := by
        simp only [slotW, placeW, ptrWords, if_neg hnv]
        cases v.ext <;> rfl
      have hs2 : slotW { v with loc := a } ≤ 2 := by
        rw [← hs]; unfold placeW; cases v.ext
        · exact hw
        · simp [ptrWords]
      rw [hs] at h
      have hadd : add16 a (slotW { v with loc := a }) = a + slotW { v with loc := a } := by
        unfold add16; omega
      rw [hadd] at h
      simp only [Prod.mk.injEq] at h
      obtain ⟨h1, h2, h3⟩ := h
      have ih := placeIns_spec vs (a + slotW { v with loc := a }) _ b
        (fun x hx => hv x (List.mem_cons_of_mem _ hx)) (by omega) (Prod.ext h1 (Prod.ext rfl h3))
      obtain ⟨i1, i2, i3, i4⟩ := ih
      subst h2
      refine ⟨⟨rfl, i1⟩, by simp only [List.length_cons]; omega, .cons rfl i3, ?_⟩
      intro x hx
      rcases List.mem_cons.1 hx with rfl | hx
      · exact hn
      · exact i4 x hx

theorem placeOuts_spec : ∀ (vs : List Var) (a : Nat) (vs' : List Var) (b : Nat),
    (∀ v ∈ vs, v.type.words ≤ 2) → a + 2 * vs.length < 65536 →
    placeOuts vs a = (true, vs', b) →
    Chain a vs' b ∧ b ≤ a + 2 * vs.length ∧ SameVars vs vs' ∧
      ∀ v ∈ vs', v.type.numeric = true ∨ (v.type = .void ∧ v.ext = none)
  | [], a, vs', b, _, _, h => by
    simp only [placeOuts, Prod.mk.injEq, true_and] at h
    obtain ⟨h1, h2⟩ := h
    subst h1; subst h2
    exact ⟨rfl, by simp, .nil, by simp⟩
  | v :: vs, a, vs', b, hv, hb, h => by
    have hw := hv v (by simp)
    simp only [List.length_cons] at hb
    unfold placeOuts at h
    by_cases hvoid : v.type = .void ∧ v.ext = none
    · rw [if_pos hvoid] at h
      have hs : slotW { v with loc := a } = 2 := by simp [slotW, hvoid.1, hvoid.2]
      have hadd : add16 a 2 = a + slotW { v with loc := a } := by unfold add16; omega
      rw [hadd] at h
      simp only [Prod.mk.injEq] at h
      obtain ⟨h1, h2, h3⟩ := h
      obtain ⟨i1, i2, i3, i4⟩ := placeOuts_spec vs (a + slotW { v with loc := a }) _ b
        (fun x hx => hv x (List.mem_cons_of_mem _ hx)) (by omega) (Prod.ext h1 (Prod.ext rfl h3))
      subst h2
      refine ⟨⟨rfl, i1⟩, by simp only [List.length_cons]; omega, .cons rfl i3, ?_⟩
      intro x hx
      rcases List.mem_cons.1 hx with rfl | hx
      · exact .inr hvoid
      · exact i4 x hx
    · rw [if_neg hvoid] at h
      cases hn : v.type.numeric with
      | false => simp only [hn, Bool.not_false, if_true] at h; cases h
      | true =>
        simp only [hn, Bool.not_true, Bool.false_eq_true, if_false] at h
        have hnv : v.type ≠ .void := by intro hh; rw [hh] at hn; cases hn
        have hs : placeW v = slotW { v with loc := a } := by
          simp only [slotW, placeW, ptrWords, if_neg hnv]
          cases v.ext <;> rfl
        have hs2 : slotW { v with loc := a } ≤ 2 := by
          rw [← hs]; unfold placeW; cases v.ext
          · exact hw
          · simp [ptrWords]
        rw [hs] at h
        have hadd : add16 a (slotW { v with loc := a }) = a + slotW { v with loc := a } := by
          unfold add16; omega
        rw [hadd] at h
        simp only [Prod.mk.injEq] at h
        obtain ⟨h1, h2, h3⟩ := h
        obtain ⟨i1, i2, i3, i4⟩ := placeOuts_spec vs (a + slotW { v with loc := a }) _ b
          (fun x hx => hv x (List.mem_cons_of_mem _ hx)) (by omega) (Prod.ext h1 (Prod.ext rfl h3))
        subst h2
        refine ⟨⟨rfl, i1⟩, by simp only [List.length_cons]; omega, .cons rfl i3, ?_⟩
        intro x hx
        rcases List.mem_cons.1 hx with rfl | hx
        · exact .inl hn
        · exact i4 x hx

/-! ## The variables found in the program -/

/-- Words taken by the constant of a line. -/
def constW (N : Names) (line : List String) : Nat :=
  match line with
  | cmd :: ps => if cmd = "CONST" then (match ps with | [t, _] => (N.typeOf t).words | _ => 0) else 0
  | [] => 0

def constSum (N : Names) (lines : List (List String)) : Nat := (lines.map (constW N)).sum

theorem constSum_cons (N : Names) (l : List String) (ls : List (List String)) :
    constSum N (l :: ls) = constW N l + constSum N ls := by simp [constSum]

/-- A list of variables before the compilation. -/
structure FreshVars (vs : List Var) : Prop where
  nodup : (vs.map (·.name)).Nodup
  new : ∀ v ∈ vs, v.loc = noLoc ∧ v.used = false ∧ v.type.words ≤ 2

theorem find_none {vs : List Var} {n : String} (h : find vs n = none) : n ∉ vs.map (·.name) := by
  intro hm
  obtain ⟨v, hv, he⟩ := List.mem_map.1 hm
  have := List.find?_eq_none.1 h v hv
  simp [he] at this

theorem addVar_fresh {db db' : List Var} {n : String} (h : FreshVars db) (ha : addVar db n = some db') :
    FreshVars db' ∧ db'.length = db.length + 1 := by
  unfold addVar at ha
  split at ha
  · cases ha
  · rename_i hf
    injection ha with ha
    subst ha
    refine ⟨⟨?_, ?_⟩, by simp⟩
    · rw [List.map_append, List.nodup_append]
      refine ⟨h.nodup, by simp, ?_⟩
      intro a ha b hb
      simp only [List.map_cons, List.map_nil, List.mem_singleton] at hb
      subst hb
      intro he
      subst he
      exact find_none hf ha
    · intro v hv
      rcases List.mem_append.1 hv with hv | hv
      · exact h.new v hv
      · simp only [List.mem_singleton] at hv
        subst hv
        exact ⟨rfl, rfl, by show Ty.void.words ≤ 2; decide⟩

theorem extractLine_spec {N : Names} (hN : N.Ok) {i o : List Var} {c : Nat} {l : List String}
    {i' o' : List Var} {c' : Nat} (h : extractLine N (i, o, c) l = some (i', o', c'))
    (hi : FreshVars i) (ho : FreshVars o) (hc : c < 65534) :
    FreshVars i' ∧ FreshVars o' ∧ c' = c + constW N l ∧
    2 * i'.length + 2 * o'.length + c' ≤ 2 * i.length + 2 * o.length + c + 2 := by
  cases l with
  | nil =>
    simp only [extractLine, Option.some.injEq, Prod.mk.injEq] at h
    obtain ⟨rfl, rfl, rfl⟩ := h
    exact ⟨hi, ho, by simp [constW], by omega⟩
  | cons cmd ps =>
    simp only [extractLine] at h
    by_cases h1 : cmd = "READ"
    · have hcw : constW N (cmd :: ps) = 0 := by subst h1; rfl
      rw [hcw]
      rw [if_pos h1] at h
      match ps, h with
      | [n], h =>
        simp only at h
        cases hf : find o n with
        | some v =>
          simp only [hf, Option.some.injEq, Prod.mk.injEq] at h
          obtain ⟨rfl, rfl, rfl⟩ := h
          exact ⟨hi, ho, rfl, by omega⟩
        | none =>
          simp only [hf] at h
          cases ha : addVar i n with
          | none =>
            simp only [ha, Option.some.injEq, Prod.mk.injEq] at h
            obtain ⟨rfl, rfl, rfl⟩ := h
            exact ⟨hi, ho, rfl, by omega⟩
          | some db =>
            simp only [ha, Option.some.injEq, Prod.mk.injEq] at h
            obtain ⟨rfl, rfl, rfl⟩ := h
            obtain ⟨a1, a2⟩ := addVar_fresh hi ha
            exact ⟨a1, ho, rfl, by omega⟩
      | [], h => cases h
      | _ :: _ :: _, h => cases h
    · rw [if_neg h1] at h
      by_cases h2 : cmd = "WRITE"
      · have hcw : constW N (cmd :: ps) = 0 := by subst h2; rfl
        rw [hcw]
        rw [if_pos h2] at h
        match ps, h with
        | [n], h =>
          simp only at h
          cases ha : addVar o n with
          | none => simp only [ha] at h; cases h
          | some db =>
            simp only [ha, Option.some.injEq, Prod.mk.injEq] at h
            obtain ⟨rfl, rfl, rfl⟩ := h
            obtain ⟨a1, a2⟩ := addVar_fresh ho ha
            exact ⟨hi, a1, rfl, by omega⟩
        | [], h => cases h
        | _ :: _ :: _, h => cases h
      · rw [if_neg h2] at h
        by_cases h3 : cmd = "CONST"
        · rw [if_pos h3] at h
          match ps, h with
          | [t, x], h =>
            simp only at h
            split at h
            · cases h
            · split at h
              · cases h
              · simp only [Option.some.injEq, Prod.mk.injEq] at h
                obtain ⟨rfl, rfl, rfl⟩ := h
                have hw : (N.typeOf t).words ≤ 2 := hN.2 t
                have : constW N (cmd :: [t, x]) = (N.typeOf t).words := by
                  simp only [constW, if_pos h3]
                rw [this]
                have hadd : add16 c (N.typeOf t).words = c + (N.typeOf t).words := by unfold add16; omega
                rw [hadd]
                exact ⟨hi, ho, rfl, by omega⟩
          | [], h => cases h
          | [_], h => cases h
          | _ :: _ :: _ :: _, h => cases h
        · rw [if_neg h3] at h
          simp only [Option.some.injEq, Prod.mk.injEq] at h
          obtain ⟨rfl, rfl, rfl⟩ := h
          exact ⟨hi, ho, by simp only [constW, if_neg h3, Nat.add_zero], by omega⟩

theorem extractLines_spec {N : Names} (hN : N.Ok) : ∀ (ls : List (List String)) (i o : List Var) (c : Nat)
    (i' o' : List Var) (c' : Nat), extractLines N (i, o, c) ls = some (i', o', c') →
    FreshVars i → FreshVars o → 2 * i.length + 2 * o.length + c + 2 * ls.length ≤ 65534 →
    FreshVars i' ∧ FreshVars o' ∧ c' = c + constSum N ls ∧
    2 * i'.length + 2 * o'.length + c' ≤ 2 * i.length + 2 * o.length + c + 2 * ls.length
  | [], i, o, c, i', o', c', h, hi, ho, _ => by
    simp only [extractLines, Option.some.injEq, Prod.mk.injEq] at h
    obtain ⟨rfl, rfl, rfl⟩ := h
    exact ⟨hi, ho, by simp [constSum], by simp⟩
  | l :: ls, i, o, c, i', o', c', h, hi, ho, hb => by
    simp only [List.length_cons] at hb
    simp only [extractLines] at h
    cases hl : extractLine N (i, o, c) l with
    | none => simp only [hl] at h; cases h
    | some s =>
      obtain ⟨i1, o1, c1⟩ := s
      simp only [hl] at h
      obtain ⟨a1, a2, a3, a4⟩ := extractLine_spec hN hl hi ho (by omega)
      obtain ⟨b1, b2, b3, b4⟩ := extractLines_spec hN ls i1 o1 c1 i' o' c' h a1 a2 (by omega)
      refine ⟨b1, b2, by rw [b3, a3, constSum_cons]; omega, by simp only [List.length_cons]; omega⟩

/-! ## The setters -/

theorem setVar_names (db : List Var) (n : String) (f : Var → Var) (hf : ∀ v, (f v).name = v.name) :
    (setVar db n f).map (·.name) = db.map (·.name) := by
  unfold setVar
  rw [List.map_map]
  apply List.map_congr_left
  intro v _
  simp only [Function.comp]
  split
  · exact hf v
  · rfl

theorem setVar_fresh {db : List Var} (h : FreshVars db) (n : String) (f : Var → Var)
    (hf : ∀ v, (f v).name = v.name)
    (hv : ∀ v ∈ db, (f v).loc = v.loc ∧ (f v).used = v.used ∧ (f v).type.words ≤ 2) :
    FreshVars (setVar db n f) := by
  refine ⟨by rw [setVar_names db n f hf]; exact h.nodup, ?_⟩
  intro v hm
  unfold setVar at hm
  obtain ⟨w, hw, e⟩ := List.mem_map.1 hm
  obtain ⟨a, b, c⟩ := h.new w hw
  obtain ⟨a', b', c'⟩ := hv w hw
  subst e
  split
  · exact ⟨a'.trans a, b'.trans b, c'⟩
  · exact ⟨a, b, c⟩

/-- The setter gives a type of at most 64 bits. -/
def SetOp.Ok : SetOp → Prop
  | .inType _ t => t.words ≤ 2
  | .outType _ t => t.words ≤ 2
  | _ => True

/-- An evaluator after `ExtractVariables`, before `Compile`. -/
structure FreshEv (N : Names) (e : Ev) (lines : List (List String)) : Prop where
  ins : FreshVars e.ins
  outs : FreshVars e.outs
  start : e.startVar = constSum N lines
  bound : 2 * e.ins.length + 2 * e.outs.length + e.startVar ≤ 2 * lines.length

theorem extract_fresh {N : Names} (hN : N.Ok) {lines : List (List String)} (hlen : lines.length ≤ 32767) {e : Ev}
    (h : extract N Ev.new lines = some e) : FreshEv N e lines := by
  unfold extract at h
  cases hx : extractLines N (Ev.new.ins, Ev.new.outs, 0) lines with
  | none => simp only [hx] at h; cases h
  | some s =>
    obtain ⟨i, o, c⟩ := s
    simp only [hx, Option.some.injEq] at h
    have hf : FreshVars [] := ⟨by simp, by simp⟩
    obtain ⟨a, b, c1, d⟩ := extractLines_spec hN lines [] [] 0 i o c hx hf hf (by simp; omega)
    subst h
    exact ⟨a, b, by simpa using c1, by simpa using d⟩

theorem setOp_fresh {N : Names} {lines : List (List String)} {e : Ev} (h : FreshEv N e lines) (op : SetOp)
    (ho : op.Ok) : FreshEv N (setOp e op) lines := by
  cases op with
  | inType n t =>
    refine ⟨setVar_fresh h.ins n _ (fun _ => rfl) (fun v _ => ⟨rfl, rfl, ho⟩), h.outs, h.start, ?_⟩
    have := h.bound
    simpa [setOp, setVar] using this
  | inMem n p =>
    refine ⟨setVar_fresh h.ins n _ (fun _ => rfl) (fun v hv => ⟨rfl, rfl, (h.ins.new v hv).2.2⟩), h.outs, h.start, ?_⟩
    have := h.bound
    simpa [setOp, setVar] using this
  | outType n t =>
    refine ⟨h.ins, setVar_fresh h.outs n _ (fun _ => rfl) (fun v _ => ⟨rfl, rfl, ho⟩), h.start, ?_⟩
    have := h.bound
    simpa [setOp, setVar] using this
  | outMem n p =>
    refine ⟨h.ins, setVar_fresh h.outs n _ (fun _ => rfl) (fun v hv => ⟨rfl, rfl, (h.outs.new v hv).2.2⟩), h.start, ?_⟩
    have := h.bound
    simpa [setOp, setVar] using this

theorem setOps_fresh {N : Names} {lines : List (List String)} : ∀ (ops : List SetOp) {e : Ev},
    FreshEv N e lines → (∀ op ∈ ops, op.Ok) → FreshEv N (ops.foldl setOp e) lines
  | [], _, h, _ => h
  | op :: ops, _, h, ho =>
    setOps_fresh ops (setOp_fresh h op (ho op (by simp))) (fun x hx => ho x (List.mem_cons_of_mem _ hx))

end Verif.Rt
