import Verif.Proof.ParserI
import Verif.Spec.ConfigDoc
/-! Running the parser of the standard language: literals, vectors, matrices. -/
namespace Verif.Config
open Verif.Parser Verif.Spec.ConfigDoc
open Verif.ConfigDb (Op Out St Name)
open Verif.Spec.ConfigDb (Db)

variable {B : Type} {conv : Conv B}

/-! ## Gathering the elements -/

/-- Number of the terminal of a literal. -/
def kind (l : Lit) : Nat := if l.isNum then 8 else 1

theorem kind_pos (l : Lit) : kind l ≠ 0 := by unfold kind; split <;> decide

theorem tok_lit (l : Lit) : tok l.word = ⟨kind l, l.text⟩ := by
  unfold Lit.word kind
  split <;> rfl

/-- The literals of a row, one after the other; `none` after an error. -/
def addAll (conv : Conv B) (c : Cfg B) : List Lit → Option (Cfg B)
  | [] => some c
  | l :: ls =>
    let r := addScalar conv c (tok l.word)
    if r.2 then none else addAll conv r.1 ls

/-- A row. -/
def rowRun (conv : Conv B) (c : Cfg B) (r : Lit × List Lit) : Option (Cfg B) :=
  (addAll conv c (rowLits r)).bind fun c => let e := endVector c; if e.2 then none else some e.1

def rowsRun (conv : Conv B) (c : Cfg B) : List (Lit × List Lit) → Option (Cfg B)
  | [] => some c
  | r :: rs => (rowRun conv c r).bind fun c => rowsRun conv c rs

def dataRun (conv : Conv B) (c : Cfg B) : Data → Option (Cfg B)
  | .scalar l => addAll conv c [l]
  | .vector l ls => rowRun conv c (l, ls)
  | .matrix r rs => (rowsRun conv c (r :: rs)).map endMatrix

/-- The state while gathering. -/
def mk (c : Cfg B) (k : Nat) (xs : List (Val B)) (f cols rows dims : Nat) : Cfg B :=
  { c with tokenType := k, mem := if xs.isEmpty then none else some (typeIndex c.typeName, xs)
           firstCols := f, cols := cols, rows := rows, dims := dims }

theorem typeIndex_lt (n : List Char) : typeIndex n < 14 := by
  unfold typeIndex
  cases h : typeNames.findIdx? (· = n) with
  | none => decide
  | some i =>
    rw [List.findIdx?_eq_some_iff_findIdx_eq] at h
    exact h.1

theorem memAdd_mk (c : Cfg B) (xs : List (Val B)) (d : Lit) :
    memAdd conv (if xs.isEmpty then none else some (typeIndex c.typeName, xs)) c.typeName d.text =
      (element conv (typeIndex c.typeName) d).map fun x => (typeIndex c.typeName, xs ++ [x]) := by
  have key : ∀ old : List (Val B),
      (if typeIndex c.typeName = 0 then some (typeIndex c.typeName, old ++ [.text d.text])
        else if typeIndex c.typeName ≤ 8 ∨ typeIndex c.typeName = 10 ∨ typeIndex c.typeName = 11 then
          (conv (typeIndex c.typeName) d.text).map fun b => (typeIndex c.typeName, old ++ [.num b])
        else none) =
      (element conv (typeIndex c.typeName) d).map fun x => (typeIndex c.typeName, old ++ [x]) := by
    intro old
    unfold element
    by_cases h0 : typeIndex c.typeName = 0
    · simp [h0]
    · rw [if_neg h0, if_neg h0]
      have := typeIndex_lt c.typeName
      by_cases h1 : typeIndex c.typeName = 9 ∨ 12 ≤ typeIndex c.typeName
      · rw [if_pos h1, if_neg (by omega)]; rfl
      · rw [if_neg h1, if_pos (by omega), Option.map_map]; rfl
  cases xs with
  | nil => exact key []
  | cons x xs => exact key (x :: xs)

theorem addScalar_mk (c : Cfg B) (k : Nat) (xs : List (Val B)) (f cols rows dims : Nat) (l : Lit) :
    if k = 0 ∨ k = kind l then
      match element conv (typeIndex c.typeName) l with
      | some x => addScalar conv (mk c k xs f cols rows dims) (tok l.word) =
          (mk c (kind l) (xs ++ [x]) (f + 1) cols rows dims, false)
      | none => (addScalar conv (mk c k xs f cols rows dims) (tok l.word)).2 = true
    else (addScalar conv (mk c k xs f cols rows dims) (tok l.word)).2 = true := by
  rw [tok_lit]
  have hk := kind_pos l
  have hm := memAdd_mk (conv := conv) c xs l
  have htt : (if (mk c k xs f cols rows dims).tokenType = 0 then kind l else (mk c k xs f cols rows dims).tokenType) =
      if k = 0 then kind l else k := rfl
  by_cases h : k = 0 ∨ k = kind l
  · rw [if_pos h]
    have h2 : (if k = 0 then kind l else k) = kind l := by
      rcases h with h | h
      · rw [if_pos h]
      · rw [h, if_neg hk]
    cases he : element conv (typeIndex c.typeName) l with
    | none =>
      simp only
      unfold addScalar
      simp only
      rw [htt, h2, if_pos rfl]
      rw [he] at hm
      have : memAdd conv (mk c k xs f cols rows dims).mem (mk c k xs f cols rows dims).typeName l.text = none := hm
      rw [this]
    | some x =>
      simp only
      unfold addScalar
      simp only
      rw [htt, h2, if_pos rfl]
      rw [he] at hm
      have : memAdd conv (mk c k xs f cols rows dims).mem (mk c k xs f cols rows dims).typeName l.text =
        some (typeIndex c.typeName, xs ++ [x]) := hm
      rw [this]
      simp [mk]
  · rw [if_neg h]
    have h2 : ¬ (if k = 0 then kind l else k) = kind l := by
      intro h3
      by_cases h4 : k = 0
      · exact h (.inl h4)
      · rw [if_neg h4] at h3; exact h (.inr h3)
    unfold addScalar
    simp only
    rw [htt, if_neg h2]

theorem elements_cons (ti : Nat) (l : Lit) (ls : List Lit) : elements conv ti (l :: ls) =
    (element conv ti l).bind fun x => (elements conv ti ls).map fun xs => x :: xs := by
  rw [elements]
  cases element conv ti l <;> cases elements conv ti ls <;> rfl

theorem elements_append (ti : Nat) (ls ms : List Lit) : elements conv ti (ls ++ ms) =
    (elements conv ti ls).bind fun xs => (elements conv ti ms).map fun ys => xs ++ ys := by
  induction ls with
  | nil => simp only [List.nil_append, elements, Option.bind_some]; cases elements conv ti ms <;> rfl
  | cons l ls ih =>
    rw [List.cons_append, elements_cons, ih, elements_cons]
    cases element conv ti l <;> cases elements conv ti ls <;> cases elements conv ti ms <;> rfl

theorem elements_length {ti : Nat} {ls : List Lit} {xs : List (Val B)} (h : elements conv ti ls = some xs) :
    xs.length = ls.length := by
  induction ls generalizing xs with
  | nil => simp only [elements, Option.some.injEq] at h; subst h; rfl
  | cons l ls ih =>
    rw [elements_cons] at h
    cases h1 : element conv ti l with
    | none => rw [h1] at h; simp at h
    | some x =>
      cases h2 : elements conv ti ls with
      | none => rw [h1, h2] at h; simp at h
      | some ys =>
        rw [h1, h2] at h
        simp only [Option.bind_some, Option.map_some, Option.some.injEq] at h
        subst h
        simp [ih h2]

theorem addAll_mk (c : Cfg B) {k : Nat} (hk : k ≠ 0) (cols rows dims : Nat) (ls : List Lit) :
    ∀ (xs : List (Val B)) (f : Nat), addAll conv (mk c k xs f cols rows dims) ls =
      if ls.all (fun l => kind l == k) then
        (elements conv (typeIndex c.typeName) ls).map fun ys => mk c k (xs ++ ys) (f + ls.length) cols rows dims
      else none := by
  induction ls with
  | nil => intro xs f; simp [addAll, elements]
  | cons l ls ih =>
    intro xs f
    have h := addScalar_mk (conv := conv) c k xs f cols rows dims l
    rw [addAll]
    by_cases h1 : k = kind l
    · rw [if_pos (.inr h1)] at h
      rw [elements_cons]
      cases he : element conv (typeIndex c.typeName) l with
      | none => rw [he] at h; simp only at h; rw [h]; simp
      | some x =>
        rw [he] at h
        simp only at h
        rw [h, ← h1]
        simp only [Bool.false_eq_true, if_false]
        rw [ih]
        have : (l :: ls).all (fun l => kind l == k) = ls.all (fun l => kind l == k) := by simp [h1]
        rw [this]
        cases elements conv (typeIndex c.typeName) ls with
        | none => simp
        | some ys =>
          simp only [Option.map_some, Option.bind_some, List.append_assoc, List.singleton_append,
            List.length_cons]
          have : f + 1 + ls.length = f + (ls.length + 1) := by omega
          rw [this]
    · rw [if_neg (by intro h'; rcases h' with h' | h'; exact hk h'; exact h1 h')] at h
      rw [h]
      have : (l :: ls).all (fun l => kind l == k) = false := by
        simp only [List.all_cons, Bool.and_eq_false_iff, beq_eq_false_iff_ne]
        exact .inl fun e => h1 e.symm
      simp [this]

/-- From the state at rest. -/
theorem addAll_first (c : Cfg B) (l : Lit) (ls : List Lit) (cols rows dims : Nat) :
    addAll conv (mk c 0 [] 0 cols rows dims) (l :: ls) =
      if ls.all (fun m => kind m == kind l) then
        (elements conv (typeIndex c.typeName) (l :: ls)).map fun ys =>
          mk c (kind l) ys (ls.length + 1) cols rows dims
      else none := by
  have h := addScalar_mk (conv := conv) c 0 [] 0 cols rows dims l
  rw [if_pos (.inl rfl)] at h
  rw [addAll, elements_cons]
  cases he : element conv (typeIndex c.typeName) l with
  | none => rw [he] at h; simp only at h; rw [h]; simp
  | some x =>
    rw [he] at h
    simp only at h
    rw [h]
    simp only [Bool.false_eq_true, if_false]
    rw [addAll_mk c (kind_pos l)]
    cases elements conv (typeIndex c.typeName) ls with
    | none => simp
    | some ys => simp [Nat.add_comm]

theorem endVector_mk (c : Cfg B) (k : Nat) (xs : List (Val B)) (f cols rows dims : Nat) :
    endVector (mk c k xs f cols rows dims) =
      (mk c k xs 0 (if cols = 0 then f else cols) (rows + 1) (if dims = 0 then 1 else dims),
        if cols = 0 then false else decide (cols ≠ f)) := rfl

theorem rowRun_first (c : Cfg B) (r : Lit × List Lit) :
    rowRun conv (mk c 0 [] 0 0 0 0) r =
      if r.2.all (fun m => kind m == kind r.1) then
        (elements conv (typeIndex c.typeName) (rowLits r)).map fun ys =>
          mk c (kind r.1) ys 0 (rowLits r).length 1 1
      else none := by
  unfold rowRun rowLits
  rw [addAll_first]
  split
  · cases elements conv (typeIndex c.typeName) (r.1 :: r.2) with
    | none => rfl
    | some ys =>
      simp only [Option.map_some, Option.bind_some, endVector_mk, if_true, Bool.false_eq_true, if_false,
        List.length_cons]
  · rfl

theorem rowRun_next (c : Cfg B) {k n : Nat} (hk : k ≠ 0) (hn : n ≠ 0) (xs : List (Val B)) (rows : Nat)
    (r : Lit × List Lit) :
    rowRun conv (mk c k xs 0 n rows 1) r =
      if (rowLits r).all (fun m => kind m == k) ∧ (rowLits r).length = n then
        (elements conv (typeIndex c.typeName) (rowLits r)).map fun ys => mk c k (xs ++ ys) 0 n (rows + 1) 1
      else none := by
  unfold rowRun
  rw [addAll_mk c hk]
  by_cases h1 : (rowLits r).all (fun m => kind m == k) = true
  · rw [if_pos h1]
    by_cases h2 : (rowLits r).length = n
    · rw [if_pos ⟨h1, h2⟩]
      cases elements conv (typeIndex c.typeName) (rowLits r) with
      | none => rfl
      | some ys =>
        simp only [Option.map_some, Option.bind_some, endVector_mk, if_neg hn, Nat.zero_add, h2, ne_eq,
          not_true_eq_false, decide_false, Bool.false_eq_true, if_false]
        rfl
    · rw [if_neg (fun h => h2 h.2)]
      cases elements conv (typeIndex c.typeName) (rowLits r) with
      | none => rfl
      | some ys =>
        simp only [Option.map_some, Option.bind_some, endVector_mk, if_neg hn, Nat.zero_add]
        have : ¬ n = (rowLits r).length := fun h => h2 h.symm
        simp [this]
  · rw [if_neg h1, if_neg (fun h => h1 h.1)]
    rfl

theorem rowsRun_next (c : Cfg B) {k n : Nat} (hk : k ≠ 0) (hn : n ≠ 0) (rs : List (Lit × List Lit)) :
    ∀ (xs : List (Val B)) (rows : Nat), rowsRun conv (mk c k xs 0 n rows 1) rs =
      if rs.all (fun r => (rowLits r).all (fun m => kind m == k) && (rowLits r).length == n) then
        (elements conv (typeIndex c.typeName) (rs.flatMap rowLits)).map fun ys =>
          mk c k (xs ++ ys) 0 n (rows + rs.length) 1
      else none := by
  induction rs with
  | nil => intro xs rows; simp [rowsRun, elements]
  | cons r rs ih =>
    intro xs rows
    rw [rowsRun, rowRun_next c hk hn]
    by_cases h1 : (rowLits r).all (fun m => kind m == k) = true ∧ (rowLits r).length = n
    · rw [if_pos h1]
      have e : (r :: rs).all (fun r => (rowLits r).all (fun m => kind m == k) && (rowLits r).length == n) =
          rs.all (fun r => (rowLits r).all (fun m => kind m == k) && (rowLits r).length == n) := by
        rw [List.all_cons, h1.1, h1.2]; simp
      rw [e, List.flatMap_cons, elements_append]
      cases elements conv (typeIndex c.typeName) (rowLits r) with
      | none => simp
      | some ys =>
        simp only [Option.map_some, Option.bind_some]
        rw [ih]
        cases elements conv (typeIndex c.typeName) (rs.flatMap rowLits) with
        | none => simp
        | some zs =>
          simp only [Option.map_some, List.append_assoc, List.length_cons]
          have : rows + 1 + rs.length = rows + (rs.length + 1) := by omega
          rw [this]
    · rw [if_neg h1]
      have e : (r :: rs).all (fun r => (rowLits r).all (fun m => kind m == k) && (rowLits r).length == n) = false := by
        rw [List.all_cons, Bool.and_eq_false_iff]
        left
        rw [Bool.and_eq_false_iff]
        by_cases h2 : (rowLits r).all (fun m => kind m == k) = true
        · right; simpa using fun h => h1 ⟨h2, h⟩
        · left; simpa using h2
      rw [e]
      simp

theorem kinds_regular (l : Lit) (ls : List Lit) :
    ((l :: ls).all (·.isNum) || (l :: ls).all (!·.isNum)) = ls.all (fun m => kind m == kind l) := by
  have hk : ∀ m : Lit, (kind m == kind l) = (m.isNum == l.isNum) := by
    intro m
    unfold kind
    cases m.isNum <;> cases l.isNum <;> decide
  simp only [hk, List.all_cons]
  cases l.isNum with
  | true => simp
  | false => simp

/-- What is gathered is the value of the text. -/
theorem data_value (c : Cfg B) (cast : Option (List Char)) (hc : c.typeName = cast.getD "string".toList) (d : Data) :
    match d.value conv cast with
    | none => dataRun conv (mk c 0 [] 0 0 0 0) d = none
    | some v => ∃ c', dataRun conv (mk c 0 [] 0 0 0 0) d = some c' ∧ c'.db = c.db ∧ c'.nodeName = c.nodeName ∧
        memCreate c'.mem c'.dims (if c'.dims = 0 then c'.firstCols else c'.cols)
          (if c'.dims = 1 ∨ c'.dims = 0 then 1 else c'.rows) = some v := by
  unfold Data.value
  simp only
  rw [← hc]
  cases d with
  | scalar l =>
    simp only [dataRun, Data.rows, List.flatten_cons, List.flatten_nil, List.append_nil]
    have hreg : (Data.scalar l).regular = true := by
      unfold Data.regular Data.cols Data.rows
      simp only [List.flatten_cons, List.flatten_nil, List.append_nil, kinds_regular]
      simp
    rw [hreg, if_pos rfl, addAll_first, if_pos (by simp)]
    cases he : elements conv (typeIndex c.typeName) [l] with
    | none => rfl
    | some xs =>
      have hl := elements_length he
      refine ⟨_, rfl, rfl, rfl, ?_⟩
      have : xs.isEmpty = false := by cases xs with
        | nil => simp at hl
        | cons => rfl
      simp [mk, this, memCreate, hl, Data.dims, Data.cols, Data.rows]
  | vector l ls =>
    simp only [dataRun, Data.rows, List.flatten_cons, List.flatten_nil, List.append_nil]
    have hreg : (Data.vector l ls).regular = ls.all (fun m => kind m == kind l) := by
      unfold Data.regular Data.cols Data.rows
      simp only [List.flatten_cons, List.flatten_nil, List.append_nil, kinds_regular]
      simp
    rw [hreg, rowRun_first]
    simp only [rowLits]
    by_cases h : ls.all (fun m => kind m == kind l) = true
    · rw [if_pos h, if_pos h]
      cases he : elements conv (typeIndex c.typeName) (l :: ls) with
      | none => rfl
      | some xs =>
        have hl : xs.length = ls.length + 1 := elements_length he
        refine ⟨_, rfl, rfl, rfl, ?_⟩
        have : xs.isEmpty = false := by cases xs with
          | nil => simp at hl
          | cons => rfl
        simp only [mk, this, memCreate, hl, Data.dims, Data.cols, Data.rows, List.headD_cons, List.length_cons,
          List.length_nil]
        simp
        split <;> omega
    · rw [if_neg h, if_neg h]
  | matrix r rs =>
    simp only [dataRun, rowsRun, Data.rows]
    have hfl : ((r :: rs).map rowLits).flatten = r.1 :: (r.2 ++ rs.flatMap rowLits) := by
      rw [← List.flatMap_def, List.flatMap_cons]; rfl
    have hreg : (Data.matrix r rs).regular = (r.2.all (fun m => kind m == kind r.1) &&
        rs.all (fun q => (rowLits q).all (fun m => kind m == kind r.1) && (rowLits q).length == (rowLits r).length)) := by
      have hrows : (Data.matrix r rs).rows = rowLits r :: rs.map rowLits := rfl
      have hfl' : (rowLits r :: rs.map rowLits).flatten = r.1 :: (r.2 ++ rs.flatMap rowLits) := hfl
      unfold Data.regular Data.cols
      rw [hrows, hfl', kinds_regular, List.all_append, List.headD_cons, List.all_cons, decide_eq_true rfl,
        Bool.true_and, List.all_map, List.all_flatMap]
      clear hrows hfl hfl'
      generalize r.2.all (fun m => kind m == kind r.1) = b
      induction rs with
      | nil => simp
      | cons q rs ih =>
        rw [List.all_cons, List.all_cons, List.all_cons]
        revert ih
        simp only [Function.comp_apply]
        generalize rs.all _ = b1
        generalize rs.all _ = b2
        generalize rs.all _ = b3
        generalize (rowLits q).all _ = b4
        rw [show decide ((rowLits q).length = (rowLits r).length) = ((rowLits q).length == (rowLits r).length) from rfl]
        generalize ((rowLits q).length == (rowLits r).length) = b5
        revert b b1 b2 b3 b4 b5
        decide
    rw [hreg, rowRun_first, hfl]
    by_cases h1 : r.2.all (fun m => kind m == kind r.1) = true
    · rw [h1, Bool.true_and, if_pos rfl]
      have e : (r.1 :: (r.2 ++ rs.flatMap rowLits)) = rowLits r ++ rs.flatMap rowLits := rfl
      rw [e, elements_append]
      cases he : elements conv (typeIndex c.typeName) (rowLits r) with
      | none => simp
      | some xs =>
        simp only [Option.map_some, Option.bind_some]
        rw [rowsRun_next c (kind_pos _) (by simp [rowLits])]
        by_cases h2 : rs.all (fun q => (rowLits q).all (fun m => kind m == kind r.1) &&
          (rowLits q).length == (rowLits r).length) = true
        · rw [if_pos h2, if_pos h2]
          cases he2 : elements conv (typeIndex c.typeName) (rs.flatMap rowLits) with
          | none => rfl
          | some ys =>
            refine ⟨_, rfl, rfl, rfl, ?_⟩
            have hl := elements_length he
            have hl2 := elements_length he2
            have hz : (xs ++ ys).isEmpty = false := by cases xs with
              | nil => simp [rowLits] at hl
              | cons => rfl
            have hlen : (rs.flatMap rowLits).length = rs.length * (rowLits r).length := by
              clear he2 hl2 hfl hreg e
              induction rs with
              | nil => simp
              | cons q rs ih =>
                rw [List.all_cons, Bool.and_eq_true] at h2
                have hq := h2.1
                rw [Bool.and_eq_true, beq_iff_eq] at hq
                rw [List.flatMap_cons, List.length_append, hq.2, ih h2.2, List.length_cons, Nat.succ_mul, Nat.add_comm]
            have hprod : (rowLits r).length * (1 + rs.length) = xs.length + ys.length := by
              rw [hl, hl2, hlen, Nat.mul_add, Nat.mul_one, Nat.mul_comm rs.length]
            simp only [endMatrix, mk, hz, memCreate, Data.dims, Data.cols, Data.rows]
            simp only [Bool.false_eq_true, if_false, Nat.mul_one, List.length_append, hprod, if_true]
            simp
            refine ⟨by omega, ?_⟩
            generalize rs.length = a
            generalize (rowLits r).length = b
            split <;> (try split) <;> omega
        · rw [if_neg h2, if_neg h2]
          rfl
    · have : (r.2.all (fun m => kind m == kind r.1)) = false := by simpa using h1
      rw [this]
      simp

end Verif.Config
