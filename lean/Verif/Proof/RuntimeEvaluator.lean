import Verif.Model.RuntimeEvaluator

namespace Verif.Rt
open Verif.Rpn

/-! ## Memory -/

theorem readW_iff (m : List Word) (a n : Nat) (x : Val) :
    readW m a n = some x ↔ x.length = n ∧ a + n ≤ m.length ∧ ∀ i, i < n → m[a + i]? = x[i]? := by
  unfold readW
  constructor
  · intro h
    split at h
    · injection h with h; subst h
      refine ⟨by simp; omega, by assumption, ?_⟩
      intro i hi
      rw [List.getElem?_take_of_lt hi, List.getElem?_drop]
    · cases h
  · rintro ⟨h1, h2, h3⟩
    rw [if_pos h2]
    congr 1
    apply List.ext_getElem?
    intro i
    by_cases hi : i < n
    · rw [List.getElem?_take_of_lt hi, List.getElem?_drop, h3 i hi]
    · rw [List.getElem?_eq_none (by simp; omega), List.getElem?_eq_none (by omega)]

theorem writeW_some {m : List Word} {a : Nat} {v : Val} {m' : List Word} (h : writeW m a v = some m') :
    a + v.length ≤ m.length ∧ m'.length = m.length ∧
    ∀ i, m'[i]? = if a ≤ i ∧ i < a + v.length then v[i - a]? else m[i]? := by
  unfold writeW at h
  split at h
  · rename_i hb
    injection h with h; subst h
    refine ⟨hb, by simp; omega, ?_⟩
    intro i
    by_cases h1 : i < a
    · rw [if_neg (by omega), List.append_assoc, List.getElem?_append_left (by simp; omega),
        List.getElem?_take_of_lt h1]
    · by_cases h2 : i < a + v.length
      · rw [if_pos (by omega), List.append_assoc, List.getElem?_append_right (by simp; omega),
          List.getElem?_append_left (by simp; omega)]
        congr 1
        simp; omega
      · rw [if_neg (by omega), List.getElem?_append_right (by simp; omega), List.getElem?_drop]
        congr 1
        simp; omega
  · cases h

theorem writeW_ok {m : List Word} {a : Nat} {v : Val} (h : a + v.length ≤ m.length) :
    ∃ m', writeW m a v = some m' := by
  unfold writeW; rw [if_pos h]; exact ⟨_, rfl⟩

theorem read_write_same {m m' : List Word} {a : Nat} {v : Val} (h : writeW m a v = some m') :
    readW m' a v.length = some v := by
  obtain ⟨h1, h2, h3⟩ := writeW_some h
  rw [readW_iff]
  refine ⟨rfl, by omega, ?_⟩
  intro i hi
  rw [h3, if_pos (by omega)]
  congr 1; omega

theorem read_congr {m m' : List Word} {a n : Nat} {x : Val} (h : readW m a n = some x)
    (hl : m'.length = m.length) (he : ∀ i, a ≤ i → i < a + n → m'[i]? = m[i]?) :
    readW m' a n = some x := by
  rw [readW_iff] at h ⊢
  obtain ⟨h1, h2, h3⟩ := h
  refine ⟨h1, by omega, ?_⟩
  intro i hi
  rw [he _ (by omega) (by omega), h3 i hi]

theorem read_write_disj {m m' : List Word} {a b n : Nat} {v x : Val} (h : writeW m a v = some m')
    (hr : readW m b n = some x) (hd : a + v.length ≤ b ∨ b + n ≤ a) : readW m' b n = some x := by
  obtain ⟨_, h2, h3⟩ := writeW_some h
  refine read_congr hr h2 ?_
  intro i h4 h5
  rw [h3, if_neg (by omega)]

theorem ptr_roundtrip (p : Nat) : ptrOf (ptrVal p) = p := by
  simp only [ptrOf, ptrVal, List.getD_cons_zero, List.getD_cons_succ]
  omega

/-! ## The data stack -/

/-- The words of an abstract stack, bottom first. -/
def flat : List (Ty × Val) → List Word
  | [] => []
  | (_, v) :: st => flat st ++ v

/-- The block `stack`, with the pointer at `sp`, holds the abstract stack. -/
def Holds (stack : List Word) (sp : Nat) (st : List (Ty × Val)) : Prop :=
  sp = (flat st).length ∧ sp ≤ stack.length ∧ stack.take sp = flat st

/-- Values have the size of their type. -/
def Sized (st : List (Ty × Val)) : Prop := ∀ x ∈ st, x.2.length = x.1.words

def wsum (ts : List Ty) : Nat := (ts.map Ty.words).sum

theorem wsum_cons (t : Ty) (ts : List Ty) : wsum (t :: ts) = t.words + wsum ts := by simp [wsum]
theorem wsum_append (a b : List Ty) : wsum (a ++ b) = wsum a + wsum b := by simp [wsum]
theorem wsum_reverse (a : List Ty) : wsum a.reverse = wsum a := by simp [wsum, List.sum_reverse]

theorem flat_length {st : List (Ty × Val)} (h : Sized st) : (flat st).length = wsum (st.map (·.1)) := by
  induction st with
  | nil => rfl
  | cons x st ih =>
    obtain ⟨t, v⟩ := x
    have : v.length = t.words := h (t, v) (by simp)
    simp only [flat, List.length_append, List.map_cons, wsum_cons]
    rw [ih (fun y hy => h y (List.mem_cons_of_mem _ hy)), this]
    omega

theorem pop_holds {m : M} {t : Ty} {v : Val} {st : List (Ty × Val)}
    (h : Holds m.stack m.sp ((t, v) :: st)) (hv : v.length = t.words) :
    pop m t.words = some (v, { m with sp := m.sp - t.words }) ∧
    Holds m.stack (m.sp - t.words) st := by
  obtain ⟨h1, h2, h3⟩ := h
  simp only [flat, List.length_append] at h1
  have hle : t.words ≤ m.sp := by omega
  have hsp : m.sp - t.words = (flat st).length := by omega
  have hr : readW m.stack (m.sp - t.words) t.words = some v := by
    unfold readW
    rw [if_pos (by omega)]
    congr 1
    have : m.stack.take m.sp = flat st ++ v := h3
    have h4 : (m.stack.drop (m.sp - t.words)).take t.words = (m.stack.take m.sp).drop (m.sp - t.words) := by
      rw [List.drop_take]
      congr 1; omega
    rw [h4, this, hsp, List.drop_left]
  constructor
  · unfold pop
    rw [if_pos hle, hr]
  · refine ⟨hsp, by omega, ?_⟩
    have : (m.stack.take m.sp).take (m.sp - t.words) = flat st := by
      rw [h3]
      show (flat st ++ v).take (m.sp - t.words) = flat st
      rw [hsp, List.take_left]
    rw [List.take_take] at this
    rw [show min (m.sp - t.words) m.sp = m.sp - t.words by omega] at this
    exact this

theorem push_holds {m : M} {t : Ty} {v : Val} {st : List (Ty × Val)}
    (h : Holds m.stack m.sp st) (hb : m.sp + v.length ≤ m.stack.length) :
    ∃ s, push m v = some { m with stack := s, sp := m.sp + v.length } ∧ s.length = m.stack.length ∧
      Holds s (m.sp + v.length) ((t, v) :: st) := by
  obtain ⟨h1, h2, h3⟩ := h
  obtain ⟨s, hs⟩ := writeW_ok hb
  obtain ⟨_, h5, _⟩ := writeW_some hs
  refine ⟨s, by unfold push; rw [hs], h5, ?_⟩
  refine ⟨by simp [flat, h1], by omega, ?_⟩
  unfold writeW at hs
  rw [if_pos hb] at hs
  injection hs with hs
  subst hs
  show _ = flat st ++ v
  rw [h3, List.take_append_of_le_length (by simp; omega), List.take_of_length_le (by simp; omega)]

theorem popAll_holds (ns : List Ty) : ∀ {m : M} {st : List (Ty × Val)},
    Holds m.stack m.sp st → Sized st → ns.isPrefixOf (st.map (·.1)) →
    popAll m (ns.map Ty.words) = some ((st.take ns.length).map (·.2), { m with sp := m.sp - wsum ns }) ∧
    Holds m.stack (m.sp - wsum ns) (st.drop ns.length) ∧ wsum ns ≤ m.sp := by
  induction ns with
  | nil =>
    intro m st h _ _
    refine ⟨by simp [popAll, wsum], by simpa [wsum] using h, by simp [wsum]⟩
  | cons t ns ih =>
    intro m st h hs hp
    cases st with
    | nil => simp at hp
    | cons x st =>
      obtain ⟨t', v⟩ := x
      simp only [List.map_cons, List.isPrefixOf, Bool.and_eq_true, beq_iff_eq] at hp
      obtain ⟨hp1, hp2⟩ := hp
      subst hp1
      have hv : v.length = t.words := hs (t, v) (by simp)
      obtain ⟨h1, h2⟩ := pop_holds h hv
      have hsp : t.words ≤ m.sp := by
        have := h.1
        simp only [flat, List.length_append] at this
        omega
      obtain ⟨h3, h4, h5⟩ := ih (m := { m with sp := m.sp - t.words }) h2
        (fun y hy => hs y (List.mem_cons_of_mem _ hy)) hp2
      simp only at h3 h4 h5
      simp only [List.map_cons, popAll, h1, h3, wsum_cons, List.take_succ_cons, List.length_cons, List.drop_succ_cons]
      rw [show m.sp - (t.words + wsum ns) = m.sp - t.words - wsum ns by omega]
      exact ⟨rfl, h4, by omega⟩

theorem pushAll_holds : ∀ (ts : List Ty) (vs : List Val) {m : M} {st : List (Ty × Val)},
    Holds m.stack m.sp st → vs.map List.length = ts.map Ty.words →
    m.sp + wsum ts ≤ m.stack.length →
    ∃ s, pushAll m vs = some { m with stack := s, sp := m.sp + wsum ts } ∧ s.length = m.stack.length ∧
      Holds s (m.sp + wsum ts) ((ts.zip vs).reverse ++ st)
  | [], vs, m, st, h, hl, _ => by
    cases vs with
    | nil => exact ⟨m.stack, by simp [pushAll, wsum], rfl, by simpa [wsum] using h⟩
    | cons v vs => simp at hl
  | t :: ts, vs, m, st, h, hl, hb => by
    cases vs with
    | nil => simp at hl
    | cons v vs =>
      simp only [List.map_cons, List.cons.injEq] at hl
      rw [wsum_cons] at hb
      obtain ⟨s, h1, h2, h3⟩ := push_holds (t := t) (v := v) h (by omega)
      obtain ⟨s', h4, h5, h6⟩ := pushAll_holds ts vs (m := { m with stack := s, sp := m.sp + v.length }) h3 hl.2
        (by simp only; omega)
      simp only at h4 h5 h6
      refine ⟨s', ?_, by omega, ?_⟩
      · simp only [pushAll, h1, h4, wsum_cons]
        rw [show m.sp + v.length + wsum ts = m.sp + (t.words + wsum ts) by omega]
      · rw [wsum_cons, show m.sp + (t.words + wsum ts) = m.sp + v.length + wsum ts by omega]
        simpa using h6

/-! ## The look-up of functions -/

theorem dropTypes_iff (ws : List Ty) : ∀ ts rest, dropTypes ws ts = some rest ↔
    (ws.isPrefixOf ts = true ∧ rest = ts.drop ws.length) := by
  induction ws with
  | nil => intro ts rest; simp [dropTypes, eq_comm]
  | cons w ws ih =>
    intro ts rest
    cases ts with
    | nil => simp [dropTypes, List.isPrefixOf]
    | cons t ts =>
      simp only [dropTypes, List.isPrefixOf, Bool.and_eq_true, beq_iff_eq, List.length_cons, List.drop_succ_cons]
      by_cases h : t = w
      · rw [if_pos h, ih]
        subst h; simp
      · rw [if_neg h]
        constructor
        · intro h'; cases h'
        · rintro ⟨⟨h1, _⟩, _⟩; exact absurd h1.symm h

/-- The condition of `pick`. -/
def fits (name : String) (types : List Ty) (want : Option Ty) (r : Fn) : Bool :=
  r.name == name && r.ins.isPrefixOf types &&
    (match want with | none => true | some t => r.target == some t)

/-- The type stack the compiler offers: the wanted type on top, when there is one. -/
def offered (want : Option Ty) (ts : List Ty) : List Ty :=
  match want with | none => ts | some t => t :: ts

theorem tryConsume_eq (r : Fn) (name : String) (ts : List Ty) (want : Option Ty) :
    tryConsume r name (offered want ts) want.isSome =
      if fits name ts want r then some (r.outs.reverse ++ ts.drop r.ins.length) else none := by
  unfold tryConsume fits
  by_cases hn : r.name = name
  · rw [if_neg (by simpa using hn)]
    have hd : swapTypes r ts =
        if r.ins.isPrefixOf ts = true then some (r.outs.reverse ++ ts.drop r.ins.length) else none := by
      unfold swapTypes
      cases hdt : dropTypes r.ins ts with
      | none =>
        rw [if_neg]
        intro hp
        rw [(dropTypes_iff r.ins ts _).2 ⟨hp, rfl⟩] at hdt
        cases hdt
      | some rest =>
        obtain ⟨h1, h2⟩ := (dropTypes_iff r.ins ts rest).1 hdt
        rw [if_pos h1, h2]
    cases want with
    | none =>
      simp only [offered, Option.isSome, Bool.false_eq_true, if_false]
      rw [hd]
      simp only [hn, beq_self_eq_true, Bool.true_and, Bool.and_true]
    | some t =>
      simp only [offered, Option.isSome, if_true]
      by_cases ht : r.target = some t
      · rw [if_pos ht, hd]
        simp only [hn, ht, beq_self_eq_true, Bool.true_and, Bool.and_true]
      · rw [if_neg ht]
        simp [ht]
  · rw [if_pos (by simpa using hn)]
    simp [hn]

theorem findPCode_some (name : String) (want : Option Ty) (ts : List Ty) (d : Nat) :
    ∀ (lib : List Fn) (i j : Nat) (ts' : List Ty) (d' : Nat),
    findPCode lib name (offered want ts) want.isSome d i = some (j, ts', d') →
    ∃ r, r ∈ lib ∧ i ≤ j ∧ lib[j - i]? = some r ∧ pick lib name ts want = some r ∧ fits name ts want r = true ∧
      ts' = r.outs.reverse ++ ts.drop r.ins.length ∧ d' = consumeSize r d := by
  intro lib
  induction lib with
  | nil => intro i j ts' d' h; simp [findPCode] at h
  | cons r rs ih =>
    intro i j ts' d' h
    simp only [findPCode, tryConsume_eq] at h
    by_cases hf : fits name ts want r = true
    · rw [if_pos hf] at h
      simp only [Option.some.injEq, Prod.mk.injEq] at h
      obtain ⟨h1, h2, h3⟩ := h
      refine ⟨r, by simp, by omega, by subst h1; simp, ?_, hf, h2.symm, h3.symm⟩
      show (r :: rs).find? (fits name ts want) = some r
      rw [List.find?_cons_of_pos hf]
    · rw [if_neg hf] at h
      obtain ⟨r', h1, h2, h3, h4, h5⟩ := ih _ _ _ _ h
      refine ⟨r', List.mem_cons_of_mem _ h1, by omega, ?_, ?_, h5⟩
      · rw [show j - i = (j - (i + 1)) + 1 by omega, List.getElem?_cons_succ]; exact h3
      · show (r :: rs).find? (fits name ts want) = some r'
        rw [List.find?_cons_of_neg hf]; exact h4

theorem prefix_wsum : ∀ (ws ts : List Ty), ws.isPrefixOf ts = true →
    wsum ts = wsum ws + wsum (ts.drop ws.length)
  | [], ts, _ => by simp [wsum]
  | w :: ws, [], h => by simp [List.isPrefixOf] at h
  | w :: ws, t :: ts, h => by
    simp only [List.isPrefixOf, Bool.and_eq_true, beq_iff_eq] at h
    rw [wsum_cons, wsum_cons, List.length_cons, List.drop_succ_cons, prefix_wsum ws ts h.2, h.1]
    omega

theorem foldl_sub16 : ∀ (ws : List Ty) (d : Nat), wsum ws ≤ d → d < 65536 →
    ws.foldl (fun d t => sub16 d t.words) d = d - wsum ws
  | [], d, _, _ => by simp [wsum]
  | w :: ws, d, h, hd => by
    rw [wsum_cons] at h
    have : sub16 d w.words = d - w.words := by unfold sub16; omega
    rw [List.foldl_cons, this, foldl_sub16 ws _ (by omega) (by omega), wsum_cons]
    omega

theorem foldl_add16 : ∀ (ws : List Ty) (d : Nat), d + wsum ws < 65536 →
    ws.foldl (fun d t => add16 d t.words) d = d + wsum ws
  | [], d, _ => by simp [wsum]
  | w :: ws, d, h => by
    rw [wsum_cons] at h
    have : add16 d w.words = d + w.words := by unfold add16; omega
    rw [List.foldl_cons, this, foldl_add16 ws _ (by omega), wsum_cons]
    omega

theorem consumeSize_eq (r : Fn) (ts : List Ty) (hp : r.ins.isPrefixOf ts = true)
    (hb : wsum ts + wsum r.outs < 65536) :
    consumeSize r (wsum ts) = wsum (r.outs.reverse ++ ts.drop r.ins.length) := by
  have h := prefix_wsum _ _ hp
  unfold consumeSize
  rw [foldl_sub16 _ _ (by omega) (by omega), foldl_add16 _ _ (by omega), wsum_append, wsum_reverse]
  omega

end Verif.Rt
