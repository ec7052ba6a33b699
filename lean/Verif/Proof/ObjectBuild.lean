import Verif.Spec.ObjectBuild
import Verif.Proof.Forest
set_option linter.unusedSimpArgs false
set_option maxRecDepth 8000
namespace Verif.ObjectBuild
open Verif.ConfigDb (Op Out St Name)
open Verif.Spec.ConfigDb
open Verif.Spec.ObjectBuild
open Verif.Config (Hist hist_step hist_run)

variable {V : Type}

/-! ### Tokens -/

theorem isTokenLoop_kept (l : List Char) (t : Char) (z : Nat) (ht : '\x00' ∉ l) (hz : t ≠ '\x00') : ∀ (k i : Nat) (a : List Char),
    a.length = i → l.length + z = k →
    isTokenLoop (a ++ l ++ List.replicate z '\x00') t k i = decide (t ∈ l) := by
  induction l with
  | nil =>
    intro k i a ha hk
    cases k with
    | zero => simp [isTokenLoop]
    | succ k =>
      have : z = k + 1 := by simpa using hk
      subst this
      subst ha
      simp [isTokenLoop, List.replicate_succ]
  | cons c l ih =>
    intro k i a ha hk
    simp only [List.mem_cons, not_or] at ht
    cases k with
    | zero => simp at hk
    | succ k =>
      subst ha
      have e : (a ++ c :: l ++ List.replicate z '\x00')[a.length]? = some c := by simp
      rw [isTokenLoop, e]
      simp only [Ne.symm ht.1, if_false]
      by_cases h : c = t
      · simp [h]
      · simp only [h, if_false]
        have := ih ht.2 k (a.length + 1) (a ++ [c]) (by simp) (by simp at hk; omega)
        simp only [List.append_assoc, List.singleton_append, List.cons_append, List.nil_append] at this ⊢
        rw [this]
        simp [Ne.symm h]

theorem isTokenLoop_zero (l : List Char) : ∀ k i, isTokenLoop l '\x00' k i = false := by
  intro k
  induction k with
  | zero => intro i; rfl
  | succ k ih =>
    intro i
    rw [isTokenLoop]
    split
    · rfl
    · rename_i c _
      by_cases h : c = '\x00'
      · simp [h]
      · simp [h, ih]

theorem isToken_kept {l : List Char} (h : tokensOk l = true) (t : Char) : isToken (kept l) t = decide (t ∈ l) := by
  simp only [tokensOk, Bool.and_eq_true, decide_eq_true_eq, Bool.not_eq_true', List.contains_eq_mem,
    decide_eq_false_iff_not] at h
  by_cases ht : t = '\x00'
  · subst ht
    simp [isToken, isTokenLoop_zero, h.2]
  · have := isTokenLoop_kept l t (5 - l.length) h.2 ht 5 0 [] rfl (by omega)
    simpa [isToken, kept, places] using this

theorem addLoop_kept (l : List Char) (t : Char) (z : Nat) (ht : '\x00' ∉ l) (hz : t ≠ '\x00') : ∀ (k i : Nat) (a : List Char),
    a.length = i → l.length + z = k →
    (addLoop (a ++ l ++ List.replicate z '\x00') t k i).1 = decide (t ∈ l) ∧
      (t ∉ l → (addLoop (a ++ l ++ List.replicate z '\x00') t k i).2 = i + l.length) := by
  induction l with
  | nil =>
    intro k i a ha hk
    cases k with
    | zero => simp [addLoop]
    | succ k =>
      have : z = k + 1 := by simpa using hk
      subst this
      subst ha
      simp [addLoop, List.replicate_succ]
  | cons c l ih =>
    intro k i a ha hk
    simp only [List.mem_cons, not_or] at ht
    cases k with
    | zero => simp at hk
    | succ k =>
      subst ha
      have e : (a ++ c :: l ++ List.replicate z '\x00')[a.length]? = some c := by simp
      rw [addLoop, e]
      simp only [Ne.symm ht.1, if_false]
      by_cases h : c = t
      · simp [h]
      · simp only [h, if_false]
        have := ih ht.2 k (a.length + 1) (a ++ [c]) (by simp) (by simp at hk; omega)
        simp only [List.append_assoc, List.singleton_append, List.cons_append, List.nil_append] at this ⊢
        refine ⟨by rw [this.1]; simp [Ne.symm h], fun hn => ?_⟩
        rw [this.2 (fun x => hn (List.mem_cons_of_mem _ x)), List.length_cons]
        omega

theorem add_kept {l : List Char} (h : tokensOk l = true) {t : Char} (ht : t ≠ '\x00') :
    addToken (kept l) t = if t ∈ l then (true, kept l) else if l.length < 5 then (true, kept (l ++ [t])) else (false, kept l) := by
  simp only [tokensOk, Bool.and_eq_true, decide_eq_true_eq, Bool.not_eq_true', List.contains_eq_mem,
    decide_eq_false_iff_not] at h
  obtain ⟨a, b⟩ := addLoop_kept l t (5 - l.length) h.2 ht 5 0 [] rfl (by omega)
  simp only [List.nil_append] at a b
  have a' : (addLoop (kept l) t places 0).1 = decide (t ∈ l) := a
  simp only [addToken, a']
  by_cases hm : t ∈ l
  · simp [hm]
  · have b' : (addLoop (kept l) t places 0).2 = 0 + l.length := b hm
    simp only [b']
    simp only [kept, places, hm, decide_false, Bool.false_eq_true, if_false, Nat.zero_add]
    by_cases hl : l.length < 5
    · simp only [hl, if_true]
      obtain ⟨z, hz⟩ : ∃ z, 5 - l.length = z + 1 := ⟨4 - l.length, by omega⟩
      rw [hz, List.length_append, List.length_singleton, show 5 - (l.length + 1) = z by omega, List.replicate_succ]
      simp
    · simp only [hl, if_false]

theorem remove_kept {l : List Char} (h : tokensOk l = true) {t : Char} (ht : t ≠ '\x00') :
    removeToken (kept l) t = some (if t ∈ l ∨ l.length < 5 then kept (l.erase t) else kept l.dropLast) := by
  simp only [tokensOk, Bool.and_eq_true, decide_eq_true_eq, Bool.not_eq_true', List.contains_eq_mem,
    decide_eq_false_iff_not] at h
  obtain ⟨⟨h1, h2⟩, h3⟩ := h
  rcases l with _ | ⟨a, _ | ⟨b, _ | ⟨c, _ | ⟨d, _ | ⟨f, _ | ⟨g, l⟩⟩⟩⟩⟩⟩
  · simp [removeToken, kept, findToken, shiftTokens, places, List.replicate, Ne.symm ht]
  · by_cases ha : a = t <;>
      simp [removeToken, kept, findToken, shiftTokens, places, List.replicate, Ne.symm ht, ha, List.erase_cons]
  · by_cases ha : a = t <;> by_cases hb : b = t <;>
      simp [removeToken, kept, findToken, shiftTokens, places, List.replicate, Ne.symm ht, ha, hb, List.erase_cons]
  · by_cases ha : a = t <;> by_cases hb : b = t <;> by_cases hc : c = t <;>
      simp [removeToken, kept, findToken, shiftTokens, places, List.replicate, Ne.symm ht, ha, hb, hc, List.erase_cons]
  · by_cases ha : a = t <;> by_cases hb : b = t <;> by_cases hc : c = t <;> by_cases hd : d = t <;>
      simp [removeToken, kept, findToken, shiftTokens, places, List.replicate, Ne.symm ht, ha, hb, hc, hd, List.erase_cons]
  · by_cases ha : a = t <;> by_cases hb : b = t <;> by_cases hc : c = t <;> by_cases hd : d = t <;> by_cases hf : f = t <;>
      simp [removeToken, kept, findToken, shiftTokens, places, List.replicate, Ne.symm ht, ha, hb, hc, hd, hf, List.erase_cons,
        eq_comm (a := t)]
  · simp at h1

/-- The marks of the model are those of the specification. -/
structure Same (e : Env V) (w : World V) : Prop where
  build : e.build = kept w.build
  domain : e.domain = kept w.domain
  okb : tokensOk w.build = true
  okd : tokensOk w.domain = true
  text : e.text = w.text
  classes : e.classes = w.classes

theorem no_zero {l : List Char} (h : tokensOk l = true) : '\x00' ∉ l := by
  simp only [tokensOk, Bool.and_eq_true, decide_eq_true_eq, Bool.not_eq_true', List.contains_eq_mem,
    decide_eq_false_iff_not] at h
  exact h.2

theorem same_domain {e : Env V} {w : World V} (h : Same e w) (n : Name) : isToken e.domain (first n) = w.isDomain n := by
  rw [h.domain, isToken_kept h.okd]
  cases n with
  | nil => simp [first, World.isDomain, no_zero h.okd]
  | cons c n => simp [first, World.isDomain, List.contains_eq_mem]

theorem same_marked {e : Env V} {w : World V} (h : Same e w) (n : Name) :
    (isToken e.build (first n) || isToken e.domain (first n)) = w.marked n := by
  rw [h.build, h.domain, isToken_kept h.okd, isToken_kept h.okb]
  cases n with
  | nil => simp [first, World.marked, no_zero h.okd, no_zero h.okb]
  | cons c n => simp [first, World.marked, List.contains_eq_mem]

/-! ### Building -/

theorem reachable_step (n : Name) : reachable n = stepName n := rfl

theorem read_value {s : St V} {item : List Name → Option (Item V)} {p : List Name} {S : Forest V}
    (h : Hist s ⟨item, p⟩) (hp : ∀ k, item (p ++ [k]) = S.at k []) (k : Name) :
    ∃ s', ConfigDb.step s (.read k) = some (.value (value S k), s') ∧ Hist s' ⟨item, p⟩ := by
  obtain ⟨s', e, g⟩ := hist_read h k
  simp only [hp] at e
  exact ⟨s', e, g⟩

theorem read_params {item : List Name → Option (Item V)} {p : List Name} {S : Forest V}
    (hp : ∀ k, item (p ++ [k]) = S.at k []) (ps : List Name) : ∀ s : St V, Hist s ⟨item, p⟩ →
    ∃ s', readParams ps s = some (ps.map (value S), s') ∧ Hist s' ⟨item, p⟩ := by
  induction ps with
  | nil => intro s h; exact ⟨s, rfl, h⟩
  | cons k ps ih =>
    intro s h
    obtain ⟨s1, e1, g1⟩ := read_value h hp k
    obtain ⟨s2, e2, g2⟩ := ih s1 g1
    exact ⟨s2, by rw [readParams, e1]; simp only [e2, Option.map_some, List.map_cons], g2⟩

theorem hist_name {s : St V} {item : List Name → Option (Item V)} {p : List Name} {n : Name} (h : Hist s ⟨item, p ++ [n]⟩) :
    ∃ s', ConfigDb.step s .getName = some (.name (some n), s') ∧ Hist s' ⟨item, p ++ [n]⟩ := by
  obtain ⟨s', e, g⟩ := hist_step h .getName rfl
  refine ⟨s', ?_, g⟩
  rw [e]
  simp [Spec.ConfigDb.step]

theorem part_sub {item : List Name → Option (Item V)} {p : List Name} {i : Nat} {n : Name} {S G : Forest V}
    (h : Part item p i (.node n S G)) (k : Name) : item (p ++ [n] ++ [k]) = S.at k [] := by
  have := h.at' n (by simp [Forest.names]) [k]
  rw [List.append_assoc, List.singleton_append, this, Forest.at, if_pos rfl]

/-- Where the current node is left. -/
def after (db : Db V) : Option (List Name) → Db V
  | none => db
  | some p => { db with cur := db.cur ++ p }

theorem init_kids {e : Env V} {w : World V} (hw : Same e w) : ∀ (F : Forest V) (fuel i : Nat) (os : List (BObj V))
    (s : St V) (db : Db V), Hist s db → Part db.item db.cur i F → F.distinct = true →
    F.allLeaves (fun n _ => !w.marked n || reachable n) = true → F.allNodes (fun n => !w.marked n || reachable n) = true →
    3 * F.size < fuel →
    ∃ s', initKids e fuel (children db.item db.cur).length i os s =
        some ((w.build? F).2.isNone, os ++ (w.build? F).1, s') ∧ Hist s' (after db (w.build? F).2) := by
  intro F
  induction F with
  | nil =>
    intro fuel i os s db hs hp _ _ _ hf
    obtain ⟨fuel, rfl⟩ : ∃ m, fuel = m + 1 := ⟨fuel - 1, by omega⟩
    have := part_nil hp
    rw [initKids, if_neg (by omega)]
    exact ⟨s, by simp [World.build?], hs⟩
  | leaf n v r ih =>
    intro fuel i os s db hs hp hd hl hn hf
    obtain ⟨fuel, rfl⟩ : ∃ m, fuel = m + 1 := ⟨fuel - 1, by omega⟩
    simp only [Forest.distinct, Bool.and_eq_true, decide_eq_true_eq] at hd
    simp only [Forest.allLeaves, Bool.and_eq_true] at hl
    simp only [Forest.allNodes] at hn
    simp only [Forest.size] at hf
    obtain ⟨p1, p2, p3, p4⟩ := part_leaf hp hd.1
    obtain ⟨s1, e1, g1⟩ := hist_childName hs p2
    rw [initKids, if_pos p1, e1]
    simp only [same_marked hw, World.build?]
    cases hm : w.marked n with
    | false =>
      simp only [Bool.false_eq_true, if_false]
      exact ih fuel (i + 1) os s1 db g1 p3 hd.2 hl.2 hn (by omega)
    | true =>
      have hr : stepName n = true := by simpa [hm, reachable_step] using hl.1
      obtain ⟨a, b⟩ := stepName_path hr
      obtain ⟨s2, e2, g2⟩ := hist_not_into g1 a b p4
      simp only [if_true, e2]
      exact ⟨s2, by simp, by simpa [after] using g2⟩
  | node n S r ihS ih =>
    intro fuel i os s db hs hp hd hl hn hf
    obtain ⟨fuel, rfl⟩ : ∃ m, fuel = m + 1 := ⟨fuel - 1, by omega⟩
    simp only [Forest.distinct, Bool.and_eq_true, decide_eq_true_eq] at hd
    simp only [Forest.allLeaves, Bool.and_eq_true] at hl
    simp only [Forest.allNodes, Bool.and_eq_true] at hn
    simp only [Forest.size] at hf
    obtain ⟨p1, p2, p3, p4, p5⟩ := part_node hp hd.1.1
    obtain ⟨s1, e1, g1⟩ := hist_childName hs p2
    rw [initKids, if_pos p1, e1]
    have hmk := same_marked hw n
    simp only [hmk]
    cases hm : w.marked n with
    | false =>
      simp only [Bool.false_eq_true, if_false, World.build?, hm]
      exact ih fuel (i + 1) os s1 db g1 p3 hd.2 hl.2 hn.2 (by omega)
    | true =>
      have hr : stepName n = true := by simpa [hm, reachable_step] using hn.1.1
      obtain ⟨s2, e2, g2⟩ := hist_into g1 hr p4
      have hsub := part_sub hp
      simp only [if_true, e2]
      obtain ⟨fuel, rfl⟩ : ∃ m, fuel = m + 1 := ⟨fuel - 1, by omega⟩
      obtain ⟨s3, e3, g3⟩ := read_value g2 hsub "Class".toList
      simp only [World.build?, hm, if_true]
      rw [initRef, e3]
      cases hv : value S "Class".toList with
      | none =>
        have hc : w.className S = none := by simp only [World.className, hv, Option.bind_none]
        simp only [hc, Option.bind_none]
        exact ⟨s3, by simp, g3⟩
      | some v =>
        have hc : w.className S = e.text v := by simp only [World.className, hv, Option.bind_some, hw.text]
        simp only [hc]
        cases ht : e.text v with
        | none => exact ⟨s3, by simp, g3⟩
        | some cls =>
          simp only [Option.bind_some, ← hw.classes]
          cases hk : e.classes cls with
          | none => exact ⟨s3, by simp, g3⟩
          | some c =>
            obtain ⟨s4, e4, g4⟩ := hist_name g3
            simp only [e4]
            obtain ⟨fuel, rfl⟩ : ∃ m, fuel = m + 1 := ⟨fuel - 1, by omega⟩
            have hkids : ∃ s5, contents e (fuel + 1) c s4 =
                some ((if c.container then w.build? S else ([], none)).2.isNone, (if c.container then w.build? S else ([], none)).1, s5) ∧
                Hist s5 (after ⟨db.item, db.cur ++ [n]⟩ (if c.container then w.build? S else ([], none)).2) := by
              rw [contents]
              cases c.container with
              | false => exact ⟨s4, rfl, g4⟩
              | true =>
                obtain ⟨s5, e5, g5⟩ := hist_size g4
                obtain ⟨s6, e6, g6⟩ := ihS fuel 0 [] s5 _ g5 p5 hd.1.2 hl.1 hn.1.2 (by omega)
                refine ⟨s6, ?_, g6⟩
                simp only [if_true, e5]
                exact e6.trans (by simp)
            obtain ⟨s5, e5, g5⟩ := hkids
            simp only [e5]
            generalize hb : (if c.container = true then w.build? S else ([], none)) = b at g5 ⊢
            obtain ⟨ks, pp⟩ := b
            cases pp with
            | some q =>
              refine ⟨s5, by simp, ?_⟩
              simpa [after, List.append_assoc] using g5
            | none =>
              obtain ⟨s6, e6, g6⟩ := read_params hsub c.params s5 g5
              simp only [Option.isNone_none, e6]
              cases ha : c.accept (c.params.map (value S)) with
              | false => exact ⟨s6, by simp, g6⟩
              | true =>
                obtain ⟨s7, e7, g7⟩ := hist_back db.item db.cur n g6
                simp only [if_true, e7]
                have ho : (if w.isDomain n = true then
                      (BObj.mk cls (n.drop 1) false (c.params.map (value S)) ks).setDomain
                    else BObj.mk cls (n.drop 1) false (c.params.map (value S)) ks) =
                    BObj.mk cls n.tail (w.isDomain n) (c.params.map (value S)) ks := by
                  cases w.isDomain n <;> simp [BObj.setDomain]
                simp only [same_domain hw, ho]
                obtain ⟨s8, e8, g8⟩ := ih (fuel + 1 + 1) (i + 1)
                  (os ++ [BObj.mk cls n.tail (w.isDomain n) (c.params.map (value S)) ks]) s7 db g7 p3 hd.2 hl.2 hn.2 (by omega)
                exact ⟨s8, by rw [e8]; simp, g8⟩

end Verif.ObjectBuild
