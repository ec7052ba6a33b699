import Verif.Spec.RefSearch
import Verif.Proof.RefContainer
set_option linter.unusedSimpArgs false
set_option maxRecDepth 8000
namespace Verif.RefC
open Verif.Spec.RefSearch
open Verif.Spec.RefC (sizeObj sizeObjs)

/-- The test of a filter that looks at the object only. -/
def Simple (kind : Kind) (p : Obj → Bool) : Prop :=
  ∀ n orig rec rev path rem prev o, Filter.test ⟨kind, n, orig, rec, rev, path, rem⟩ prev o =
    (p o, if p o then Filter.incrementFound ⟨kind, n, orig, rec, rev, path, rem⟩ else ⟨kind, n, orig, rec, rev, path, rem⟩)

theorem hasName_eq (w : List Char) (o : Obj) : hasName w o = (o.name == some w) := by cases o <;> rfl

theorem simple_name (w : List Char) : Simple (.byName [w]) (hasName w) := by
  intro n orig rec rev path rem prev o
  rw [hasName_eq]
  cases hn : o.name with
  | none => simp [Filter.test, testName, hn]
  | some m =>
    by_cases h : m = w
    · subst h; simp [Filter.test, testName, hn]
    · have : ¬ w = m := fun e => h e.symm
      have h3 : (some m == some w) = false := by simp [h]
      rw [h3]
      simp [Filter.test, testName, hn, this]

theorem simple_ref (i : Nat) : Simple (.byRef (some i)) (isObject i) := by
  intro n orig rec rev path rem prev o
  have : isObject i o = (i == o.id) := by cases o <;> rfl
  rw [this]
  by_cases h : i = o.id <;> simp [Filter.test, testRef, h]

mutual
theorem placesIn_ne (deep backwards : Bool) : ∀ o : Obj, ∀ v ∈ placesIn deep backwards o, v.chain ≠ []
  | .leaf i n => by intro v hv; simp only [placesIn, List.mem_singleton] at hv; subst hv; simp
  | .cont i n ks => by
    intro v hv
    simp only [placesIn, List.mem_cons] at hv
    rcases hv with hv | hv
    · subst hv; simp
    · split at hv
      · obtain ⟨u, _, rfl⟩ := List.mem_map.mp hv; simp
      · cases hv

theorem places_ne (deep backwards : Bool) : ∀ ks : List Obj, ∀ v ∈ places deep backwards ks, v.chain ≠ []
  | [] => by intro v hv; cases hv
  | o :: os => by
    intro v hv
    have h1 := placesIn_ne deep backwards o
    have h2 := places_ne deep backwards os
    simp only [places] at hv
    split at hv <;> rcases List.mem_append.mp hv with hv | hv <;> obtain ⟨u, hu, rfl⟩ := List.mem_map.mp hv
    · exact h2 u hu
    · exact h1 u hu
    · exact h1 u hu
    · exact h2 u hu
end

/-- What a search stores of a place. -/
def stored (path : Bool) {α : Type} (v : Place α) : List Obj := if path then v.chain else v.chain.getLast?.toList

/-- The wanted places of the object between `pre` and `post`. -/
def here (p : Obj → Bool) (rec rev : Bool) (pre post : List Obj) (c : Obj) : List (Place (List Obj)) :=
  ((placesIn rec rev c).map fun v => (⟨v.chain, pre ++ v.without.toList ++ post⟩ : Place (List Obj))).filter (Wanted p)

def below (p : Obj → Bool) (rec rev : Bool) (pre post : List Obj) (c : Obj) : List (Place (List Obj)) :=
  match (if rec then c.kids? else none) with
  | none => []
  | some ck => (found p rec rev ck).map fun v => ⟨c :: v.chain, pre ++ c.withKids v.without :: post⟩

theorem wanted_map {α β : Type} (p : Obj → Bool) (l : List (Place α)) (f : Place α → Place β)
    (h : ∀ v ∈ l, (f v).chain.getLast? = v.chain.getLast?) : (l.map f).filter (Wanted p) = (l.filter (Wanted p)).map f := by
  induction l with
  | nil => rfl
  | cons v l ih =>
    have hv : Wanted p (f v) = Wanted p v := by simp only [Wanted, h v (by simp)]
    rw [List.map_cons, List.filter_cons, List.filter_cons, hv, ih (fun u hu => h u (List.mem_cons_of_mem _ hu))]
    split <;> simp

theorem here_eq (p : Obj → Bool) (rec rev : Bool) (pre post : List Obj) (c : Obj) :
    here p rec rev pre post c = (if p c then [⟨[c], pre ++ post⟩] else []) ++ below p rec rev pre post c := by
  cases c with
  | leaf i n =>
    cases hp : p (.leaf i n) <;> simp [here, below, placesIn, Obj.kids?, Wanted, hp, List.filter_cons]
  | cont i n ks =>
    have hb : ∀ v ∈ places rec rev ks, v.chain ≠ [] := places_ne rec rev ks
    simp only [here, below, placesIn, Obj.kids?, List.map_cons, Option.toList_none, List.append_nil]
    rw [List.filter_cons]
    have h1 : Wanted p (⟨[.cont i n ks], pre ++ post⟩ : Place (List Obj)) = p (.cont i n ks) := rfl
    rw [h1]
    cases rec with
    | false => cases hp : p (.cont i n ks) <;> simp
    | true =>
      simp only [if_true, List.map_map]
      rw [wanted_map]
      · cases hp : p (.cont i n ks) <;> simp [found, Obj.withKids, Function.comp_def]
      · intro v hv
        have := hb v hv
        simp only [Function.comp_def]
        cases hv : v.chain with
        | nil => exact absurd hv this
        | cons a l => simp [List.getLast?_cons_cons]

theorem found_cons (p : Obj → Bool) (rec : Bool) (pre rest : List Obj) (c : Obj) :
    (found p rec false (c :: rest)).map (fun v => (⟨v.chain, pre ++ v.without⟩ : Place (List Obj))) =
      here p rec false pre rest c ++ (found p rec false rest).map (fun v => ⟨v.chain, (pre ++ [c]) ++ v.without⟩) := by
  simp only [found, places, Bool.false_eq_true, if_false, List.filter_append, List.map_append, here]
  rw [wanted_map _ (places rec false rest) _ (by simp), List.map_map, ← wanted_map _ (List.map _ _) _ (by simp), List.map_map]
  simp [Function.comp_def]

theorem places_snoc (rec : Bool) (front : List Obj) (c : Obj) :
    places rec true (front ++ [c]) = ((placesIn rec true c).map fun v => ⟨v.chain, front ++ v.without.toList⟩) ++
      ((places rec true front).map fun v => ⟨v.chain, v.without ++ [c]⟩) := by
  induction front with
  | nil => simp [places]
  | cons o os ih => simp [places, ih, Function.comp_def]

theorem found_snoc (p : Obj → Bool) (rec : Bool) (front post : List Obj) (c : Obj) :
    (found p rec true (front ++ [c])).map (fun v => (⟨v.chain, v.without ++ post⟩ : Place (List Obj))) =
      here p rec true front post c ++ (found p rec true front).map (fun v => ⟨v.chain, v.without ++ c :: post⟩) := by
  simp only [found, places_snoc, List.filter_append, List.map_append, here]
  rw [wanted_map _ (places rec true front) _ (by simp), List.map_map, ← wanted_map _ (List.map _ _) _ (by simp), List.map_map]
  simp [Function.comp_def]

theorem found_ne (p : Obj → Bool) (rec rev : Bool) (ks : List Obj) : ∀ v ∈ found p rec rev ks, v.chain ≠ [] :=
  fun v hv => places_ne rec rev ks v (List.mem_filter.mp hv).1

section Nth
variable (kind : Kind) (orig : Int) (rec rev path rem : Bool)

/-- The filter with `n` occurrences to go. -/
abbrev fn (n : Nat) : Filter := ⟨kind, n, orig, rec, rev, path, rem⟩

/-- The answer of a search for the `n`-th of these places. -/
def answer (hs : List (Place (List Obj))) (n : Nat) (res kids : List Obj) : Filter × List Obj × List Obj :=
  match hs[n - 1]? with
  | some v => (fn kind orig rec rev path rem 0, res ++ stored path v, if rem then v.without else kids)
  | none => (fn kind orig rec rev path rem (n - hs.length), res, kids)

theorem nth_step (p : Obj → Bool) (hs : Simple kind p) (ho : orig ≠ -1) (fuel n : Nat) (hn : 1 ≤ n) (hf : 1 ≤ fuel)
    (pre post res : List Obj) (c : Obj)
    (ih : ∀ ck, rec = true → c.kids? = some ck → ∀ m, 1 ≤ m → ∀ r,
      find fuel (fn kind orig rec rev path rem m) r ck = some (answer kind orig rec rev path rem (found p rec rev ck) m r ck)) :
    findLoop (fuel + 1) pre.length (fn kind orig rec rev path rem n) res (pre ++ c :: post) =
      match (here p rec rev pre post c)[n - 1]? with
      | some v => some (fn kind orig rec rev path rem 0, res ++ stored path v, if rem then v.without else pre ++ c :: post)
      | none => findLoop fuel (if rev then (pre.length : Int) - 1 else (pre.length : Int) + 1)
          (fn kind orig rec rev path rem (n - (here p rec rev pre post c).length)) res (pre ++ c :: post) := by
  have hguard : (!(fn kind orig rec rev path rem n).finished && (rev && decide ((pre.length : Int) > -1) || !rev &&
      decide ((pre.length : Int) < ((pre ++ c :: post).length : Int)))) = true := by
    have : ¬ (n : Int) = 0 := by omega
    cases rev <;> simp [Filter.finished, this] <;> omega
  rw [findLoop]
  rw [if_pos hguard]
  have hget : (pre ++ c :: post)[((pre.length : Int)).toNat]? = some c := by simp
  rw [hget]
  simp only [Option.bind_some, hs n orig rec rev path rem res c, Int.toNat_natCast]
  rw [here_eq]
  have hsa : ∀ m : Nat, (fn kind orig rec rev path rem m).searchAll = false := fun m => by simp [Filter.searchAll, ho]
  by_cases hone : p c = true ∧ n = 1
  · obtain ⟨h1, h2⟩ := hone
    subst h2
    have he : (pre ++ c :: post).eraseIdx pre.length = pre ++ post := by
      rw [List.eraseIdx_append_of_length_le (Nat.le_refl _)]; simp
    cases path <;> simp [h1, Filter.incrementFound, Filter.finished, Filter.searchAll, stored, he]
  · -- the object is not the one: `m` are to go
    have key : ∀ m : Nat, 1 ≤ m →
        (match (if rec then c.kids? else none) with
          | none => findLoop fuel (if rev then (pre.length : Int) - 1 else (pre.length : Int) + 1) (fn kind orig rec rev path rem m) res (pre ++ c :: post)
          | some ck =>
            (find fuel (fn kind orig rec rev path rem m) (if path then res ++ [c] else res) ck).bind fun r =>
            findLoop fuel (if r.1.reverse then (pre.length : Int) - 1 else (pre.length : Int) + 1) r.1
              (if !r.1.recursive then []
                else if (if path then res ++ [c] else res).length = r.2.1.length then (if r.1.path then r.2.1.dropLast else r.2.1) else r.2.1)
              ((pre ++ c :: post).set pre.length (c.withKids r.2.2))) =
        match (below p rec rev pre post c)[m - 1]? with
        | some v => some (fn kind orig rec rev path rem 0, res ++ stored path v, if rem then v.without else pre ++ c :: post)
        | none => findLoop fuel (if rev then (pre.length : Int) - 1 else (pre.length : Int) + 1)
            (fn kind orig rec rev path rem (m - (below p rec rev pre post c).length)) res (pre ++ c :: post) := by
      intro m hm
      unfold below
      cases hk : (if rec then c.kids? else none) with
      | none => simp
      | some ck =>
        have hrec : rec = true := by cases rec with | true => rfl | false => simp at hk
        have hck : c.kids? = some ck := by simpa [hrec] using hk
        have e := ih ck hrec hck m hm (if path then res ++ [c] else res)
        simp only [e, Option.bind_some, answer, List.getElem?_map]
        cases hv : (found p rec rev ck)[m - 1]? with
        | none =>
          simp only [Option.map_none, List.length_map, hrec, Bool.not_true, Bool.false_eq_true, if_false, if_true]
          rw [withKids_self hck, List.set_append_right _ _ (Nat.le_refl _)]
          cases path <;> simp
        | some v =>
          have hne : v.chain ≠ [] := found_ne p rec rev ck v (List.mem_of_getElem? hv)
          obtain ⟨a, l, hal⟩ := List.exists_cons_of_ne_nil hne
          have hlast : ∃ z, v.chain.getLast? = some z := ⟨_, List.getLast?_eq_some_getLast hne⟩
          obtain ⟨z, hz⟩ := hlast
          have hsn : (stored path v).length ≠ 0 := by
            cases path <;> simp [stored, hal]
          obtain ⟨fu, rfl⟩ : ∃ fu, fuel = fu + 1 := ⟨fuel - 1, by omega⟩
          have hlen : ¬ (if path then res ++ [c] else res).length = ((if path then res ++ [c] else res) ++ stored path v).length := by
            rw [List.length_append]; omega
          simp only [Option.map_some, hrec, Bool.not_true, Bool.false_eq_true, if_false, hlen]
          rw [findLoop, if_neg (by simp [Filter.finished])]
          rw [List.set_append_right _ _ (Nat.le_refl _)]
          have hst : (if path then res ++ [c] else res) ++ stored path v = res ++ stored path (⟨c :: v.chain, pre ++ c.withKids v.without :: post⟩ : Place (List Obj)) := by
            cases path <;> simp [stored, hal, List.getLast?_cons_cons]
          rw [hst]
          cases rem <;> simp [withKids_self hck]
    by_cases hp : p c = true
    · have hn2 : 2 ≤ n := by
        rcases Nat.lt_or_ge n 2 with h | h
        · exact absurd ⟨hp, by omega⟩ hone
        · exact h
      have hinc : Filter.incrementFound (fn kind orig rec rev path rem n) = fn kind orig rec rev path rem (n - 1) := by
        simp only [Filter.incrementFound]
        rw [if_pos (by simp; omega)]
        simp only [Filter.mk.injEq, and_true, true_and]
        omega
      have hfin : (fn kind orig rec rev path rem (n - 1)).finished = false := by simp [Filter.finished]; omega
      simp only [hp, if_true, hinc, hsa, hfin, Bool.or_self, Bool.and_false, Bool.false_and, Bool.false_eq_true, if_false]
      refine (key (n - 1) (by omega)).trans ?_
      rw [List.getElem?_append_right (by simp; omega)]
      simp only [List.length_append, List.length_singleton]
      rw [show n - 1 - 1 = n - 1 - 1 by rfl, show n - (1 + (below p rec rev pre post c).length) = n - 1 - (below p rec rev pre post c).length by omega]
    · have hp' : p c = false := by simpa using hp
      have hfin : (fn kind orig rec rev path rem n).finished = false := by simp [Filter.finished]; omega
      simp only [hp', Bool.false_eq_true, if_false, Bool.false_and, hfin, List.nil_append]
      exact (key n hn).trans rfl

theorem nth_loop (p : Obj → Bool) (hs : Simple kind p) (ho : orig ≠ -1) : ∀ (fuel : Nat),
    (∀ ks : List Obj, sizeObjs ks ≤ fuel → ∀ n, 1 ≤ n → ∀ res,
      find fuel (fn kind orig rec rev path rem n) res ks = some (answer kind orig rec rev path rem (found p rec rev ks) n res ks)) ∧
    (rev = false → ∀ pre rest : List Obj, sizeObjs rest ≤ fuel → ∀ n, 1 ≤ n → ∀ res,
      findLoop fuel pre.length (fn kind orig rec rev path rem n) res (pre ++ rest) =
        some (answer kind orig rec rev path rem ((found p rec rev rest).map fun v => ⟨v.chain, pre ++ v.without⟩) n res (pre ++ rest))) ∧
    (rev = true → ∀ front post : List Obj, sizeObjs front ≤ fuel → ∀ n, 1 ≤ n → ∀ res,
      findLoop fuel ((front.length : Int) - 1) (fn kind orig rec rev path rem n) res (front ++ post) =
        some (answer kind orig rec rev path rem ((found p rec rev front).map fun v => ⟨v.chain, v.without ++ post⟩) n res (front ++ post))) := by
  intro fuel
  induction fuel with
  | zero =>
    refine ⟨fun ks h => ?_, fun _ _ ks h => ?_, fun _ ks _ h => ?_⟩ <;> have := sizeObjs_pos ks <;> omega
  | succ fuel ih =>
    obtain ⟨ih1, ih2, ih3⟩ := ih
    have combine : ∀ (hh tail : List (Place (List Obj))) (n : Nat) (res kids : List Obj), 1 ≤ n →
        (match hh[n - 1]? with
          | some v => some (fn kind orig rec rev path rem 0, res ++ stored path v, if rem then v.without else kids)
          | none => some (answer kind orig rec rev path rem tail (n - hh.length) res kids)) =
        some (answer kind orig rec rev path rem (hh ++ tail) n res kids) := by
      intro hh tail n res kids hn
      unfold answer
      cases h : hh[n - 1]? with
      | some v =>
        have : n - 1 < hh.length := by
          rcases Nat.lt_or_ge (n - 1) hh.length with h' | h'
          · exact h'
          · rw [List.getElem?_eq_none h'] at h; cases h
        rw [List.getElem?_append_left this, h]
      | none =>
        have : hh.length ≤ n - 1 := by simpa using h
        rw [List.getElem?_append_right this, show n - hh.length - 1 = n - 1 - hh.length by omega, List.length_append, Nat.sub_add_eq]
    have fwd : rev = false → ∀ pre rest : List Obj, sizeObjs rest ≤ fuel + 1 → ∀ n, 1 ≤ n → ∀ res,
      findLoop (fuel + 1) pre.length (fn kind orig rec rev path rem n) res (pre ++ rest) =
        some (answer kind orig rec rev path rem ((found p rec rev rest).map fun v => ⟨v.chain, pre ++ v.without⟩) n res (pre ++ rest)) := by
      intro hr pre rest hf n hn res
      cases rest with
      | nil =>
        rw [findLoop, if_neg (by simp [hr])]
        simp [answer, found, places]
      | cons c post =>
        have h1 : 1 + sizeObj c + sizeObjs post ≤ fuel + 2 := by simp only [sizeObjs] at hf; omega
        have hc := sizeObj_pos c
        have hp := sizeObjs_pos post
        rw [nth_step kind orig rec rev path rem p hs ho fuel n hn (by omega) pre post res c
          (fun ck _ hck m hm r => ih1 ck (by have := sizeObj_kids hck; omega) m hm r)]
        subst hr
        rw [found_cons, ← combine _ _ n res _ hn]
        cases hh : (here p rec false pre post c)[n - 1]? with
        | some v => rfl
        | none =>
          have hl : (here p rec false pre post c).length ≤ n - 1 := by simpa using hh
          have := ih2 rfl (pre ++ [c]) post (by omega) (n - (here p rec false pre post c).length) (by omega) res
          simp only [List.length_append, List.length_singleton, List.append_assoc, List.singleton_append] at this
          simp only [Bool.false_eq_true, if_false, List.append_assoc, List.singleton_append]
          exact this
    have bwd : rev = true → ∀ front post : List Obj, sizeObjs front ≤ fuel + 1 → ∀ n, 1 ≤ n → ∀ res,
      findLoop (fuel + 1) ((front.length : Int) - 1) (fn kind orig rec rev path rem n) res (front ++ post) =
        some (answer kind orig rec rev path rem ((found p rec rev front).map fun v => ⟨v.chain, v.without ++ post⟩) n res (front ++ post)) := by
      intro hr front post hf n hn res
      rcases List.eq_nil_or_concat front with h | ⟨fr, c, h⟩
      · subst h
        rw [findLoop, if_neg (by simp [hr])]
        simp [answer, found, places]
      · rw [List.concat_eq_append] at h
        subst h
        have hsz : ∀ (l : List Obj) (c : Obj), sizeObjs (l ++ [c]) = sizeObj c + sizeObjs l := by
          intro l c
          induction l with
          | nil => simp [sizeObjs]
          | cons a l ihl => simp only [List.cons_append, sizeObjs, ihl]; omega
        rw [hsz] at hf
        have hc := sizeObj_pos c
        have hp := sizeObjs_pos fr
        rw [show ((((fr ++ [c]).length : Nat) : Int) - 1) = (fr.length : Int) by simp, List.append_assoc, List.singleton_append,
          nth_step kind orig rec rev path rem p hs ho fuel n hn (by omega) fr post res c
          (fun ck _ hck m hm r => ih1 ck (by have := sizeObj_kids hck; omega) m hm r)]
        subst hr
        rw [found_snoc, ← combine _ _ n res _ hn]
        cases hh : (here p rec true fr post c)[n - 1]? with
        | some v => rfl
        | none =>
          have hl : (here p rec true fr post c).length ≤ n - 1 := by simpa using hh
          have := ih3 rfl fr (c :: post) (by omega) (n - (here p rec true fr post c).length) (by omega) res
          simp only [if_true]
          exact this
    refine ⟨?_, fwd, bwd⟩
    intro ks hf n hn res
    unfold find startIndex
    by_cases hk : ks.length > 0
    · simp only [hk, if_true]
      cases hr : rev with
      | false =>
        have := fwd hr [] ks hf n hn res
        rw [hr] at this
        simpa using this
      | true =>
        have := bwd hr ks [] hf n hn res
        rw [hr] at this
        simpa using this
    · have : ks = [] := List.eq_nil_of_length_eq_zero (by omega)
      subst this
      simp [answer, found, places]

end Nth

section All
variable (kind : Kind) (rec rev : Bool)

/-- A filter for all the occurrences. -/
abbrev fa : Filter := ⟨kind, -1, -1, rec, rev, false, false⟩

/-- The objects at these places. -/
def objects (hs : List (Place (List Obj))) : List Obj := hs.flatMap fun v => v.chain.getLast?.toList

theorem objects_append (a b : List (Place (List Obj))) : objects (a ++ b) = objects a ++ objects b := by simp [objects]

theorem objects_map (l : List (Place (List Obj))) (f : Place (List Obj) → Place (List Obj))
    (h : ∀ v ∈ l, (f v).chain.getLast? = v.chain.getLast?) : objects (l.map f) = objects l := by
  induction l with
  | nil => rfl
  | cons v l ih =>
    have := ih (fun u hu => h u (List.mem_cons_of_mem _ hu))
    simp only [objects, List.map_cons, List.flatMap_cons, h v (by simp)] at this ⊢
    rw [this]

theorem all_step (p : Obj → Bool) (hs : Simple kind p) (fuel : Nat) (pre post res : List Obj) (c : Obj)
    (ih : ∀ ck, rec = true → c.kids? = some ck → ∀ r,
      find fuel (fa kind rec rev) r ck = some (fa kind rec rev, r ++ objects (found p rec rev ck), ck)) :
    findLoop (fuel + 1) pre.length (fa kind rec rev) res (pre ++ c :: post) =
      findLoop fuel (if rev then (pre.length : Int) - 1 else (pre.length : Int) + 1) (fa kind rec rev)
        (res ++ objects (here p rec rev pre post c)) (pre ++ c :: post) := by
  have hguard : (!(fa kind rec rev).finished && (rev && decide ((pre.length : Int) > -1) || !rev &&
      decide ((pre.length : Int) < ((pre ++ c :: post).length : Int)))) = true := by
    cases rev <;> simp [Filter.finished] <;> omega
  rw [findLoop, if_pos hguard]
  have hget : (pre ++ c :: post)[((pre.length : Int)).toNat]? = some c := by simp
  rw [hget]
  simp only [Option.bind_some, hs (-1) (-1) rec rev false false res c, Int.toNat_natCast]
  have hf : ∀ b : Bool, (if b then Filter.incrementFound (fa kind rec rev) else fa kind rec rev) = fa kind rec rev := by
    intro b; cases b <;> simp [Filter.incrementFound]
  rw [hf, here_eq, objects_append]
  have hfin : (fa kind rec rev).finished = false := rfl
  have hsa : (fa kind rec rev).searchAll = true := rfl
  simp only [hfin, hsa, Bool.true_or, Bool.and_true, Bool.and_false, Bool.false_eq_true, if_false]
  have hres : (if p c = true then res ++ [c] else res) = res ++ objects (if p c = true then [⟨[c], pre ++ post⟩] else []) := by
    cases p c <;> simp [objects]
  rw [hres, ← List.append_assoc]
  generalize res ++ objects (if p c = true then [⟨[c], pre ++ post⟩] else []) = r1
  unfold below
  cases hk : (if rec then c.kids? else none) with
  | none => simp [objects]
  | some ck =>
    have hrec : rec = true := by cases rec with | true => rfl | false => simp at hk
    have hck : c.kids? = some ck := by simpa [hrec] using hk
    have e := ih ck hrec hck r1
    have e2 : ((find fuel (fa kind rec rev) r1 ck).bind fun r =>
        findLoop fuel (if r.1.reverse then (pre.length : Int) - 1 else (pre.length : Int) + 1) r.1
          (if !r.1.recursive then [] else if r1.length = r.2.1.length then (if r.1.path then r.2.1.dropLast else r.2.1) else r.2.1)
          ((pre ++ c :: post).set pre.length (c.withKids r.2.2))) =
      findLoop fuel (if rev then (pre.length : Int) - 1 else (pre.length : Int) + 1) (fa kind rec rev)
        (r1 ++ objects (found p rec rev ck)) (pre ++ c :: post) := by
      rw [e]
      simp only [Option.bind_some, hrec, Bool.not_true, Bool.false_eq_true, if_false, ite_self]
      rw [withKids_self hck, List.set_append_right _ _ (Nat.le_refl _)]
      simp
    refine Eq.trans e2 ?_
    simp only
    rw [objects_map]
    intro v hv
    have hne : v.chain ≠ [] := found_ne p rec rev ck v hv
    obtain ⟨a, l, hal⟩ := List.exists_cons_of_ne_nil hne
    simp [hal, List.getLast?_cons_cons]

theorem all_loop (p : Obj → Bool) (hs : Simple kind p) : ∀ (fuel : Nat),
    (∀ ks : List Obj, sizeObjs ks ≤ fuel → ∀ res,
      find fuel (fa kind rec rev) res ks = some (fa kind rec rev, res ++ objects (found p rec rev ks), ks)) ∧
    (rev = false → ∀ pre rest : List Obj, sizeObjs rest ≤ fuel → ∀ res,
      findLoop fuel pre.length (fa kind rec rev) res (pre ++ rest) = some (fa kind rec rev, res ++ objects (found p rec rev rest), pre ++ rest)) ∧
    (rev = true → ∀ front post : List Obj, sizeObjs front ≤ fuel → ∀ res,
      findLoop fuel ((front.length : Int) - 1) (fa kind rec rev) res (front ++ post) =
        some (fa kind rec rev, res ++ objects (found p rec rev front), front ++ post)) := by
  intro fuel
  induction fuel with
  | zero =>
    refine ⟨fun ks h => ?_, fun _ _ ks h => ?_, fun _ ks _ h => ?_⟩ <;> have := sizeObjs_pos ks <;> omega
  | succ fuel ih =>
    obtain ⟨ih1, ih2, ih3⟩ := ih
    have fwd : rev = false → ∀ pre rest : List Obj, sizeObjs rest ≤ fuel + 1 → ∀ res,
      findLoop (fuel + 1) pre.length (fa kind rec rev) res (pre ++ rest) = some (fa kind rec rev, res ++ objects (found p rec rev rest), pre ++ rest) := by
      intro hr pre rest hf res
      cases rest with
      | nil =>
        rw [findLoop, if_neg (by simp [hr])]
        simp [objects, found, places]
      | cons c post =>
        have h1 : 1 + sizeObj c + sizeObjs post ≤ fuel + 2 := by simp only [sizeObjs] at hf; omega
        have hc := sizeObj_pos c
        rw [all_step kind rec rev p hs fuel pre post res c (fun ck _ hck r => ih1 ck (by have := sizeObj_kids hck; omega) r)]
        subst hr
        have := ih2 rfl (pre ++ [c]) post (by omega) (res ++ objects (here p rec false pre post c))
        simp only [List.length_append, List.length_singleton, List.append_assoc, List.singleton_append] at this
        simp only [Bool.false_eq_true, if_false, List.append_assoc]
        refine Eq.trans this ?_
        have hh : objects (here p rec false pre post c) ++ objects (found p rec false post) = objects (found p rec false (c :: post)) := by
          have := congrArg objects (found_cons p rec pre post c)
          rw [objects_append, objects_map _ _ (by simp), objects_map _ _ (by simp)] at this
          exact this.symm
        rw [hh]
    have bwd : rev = true → ∀ front post : List Obj, sizeObjs front ≤ fuel + 1 → ∀ res,
      findLoop (fuel + 1) ((front.length : Int) - 1) (fa kind rec rev) res (front ++ post) =
        some (fa kind rec rev, res ++ objects (found p rec rev front), front ++ post) := by
      intro hr front post hf res
      rcases List.eq_nil_or_concat front with h | ⟨fr, c, h⟩
      · subst h
        rw [findLoop, if_neg (by simp [hr])]
        simp [objects, found, places]
      · rw [List.concat_eq_append] at h
        subst h
        have hsz : ∀ (l : List Obj) (c : Obj), sizeObjs (l ++ [c]) = sizeObj c + sizeObjs l := by
          intro l c
          induction l with
          | nil => simp [sizeObjs]
          | cons a l ihl => simp only [List.cons_append, sizeObjs, ihl]; omega
        rw [hsz] at hf
        have hc := sizeObj_pos c
        rw [show ((((fr ++ [c]).length : Nat) : Int) - 1) = (fr.length : Int) by simp, List.append_assoc, List.singleton_append,
          all_step kind rec rev p hs fuel fr post res c (fun ck _ hck r => ih1 ck (by have := sizeObj_kids hck; omega) r)]
        subst hr
        have := ih3 rfl fr (c :: post) (by omega) (res ++ objects (here p rec true fr post c))
        simp only [if_true]
        refine Eq.trans this ?_
        have hh : objects (here p rec true fr post c) ++ objects (found p rec true fr) = objects (found p rec true (fr ++ [c])) := by
          have := congrArg objects (found_snoc p rec fr post c)
          rw [objects_append, objects_map _ _ (by simp), objects_map _ _ (by simp)] at this
          exact this.symm
        rw [← hh, List.append_assoc]
    refine ⟨?_, fwd, bwd⟩
    intro ks hf res
    unfold find startIndex
    by_cases hk : ks.length > 0
    · simp only [hk, if_true]
      cases hr : rev with
      | false =>
        have := fwd hr [] ks hf res
        rw [hr] at this
        simpa using this
      | true =>
        have := bwd hr ks [] hf res
        rw [hr] at this
        simpa using this
    · have : ks = [] := List.eq_nil_of_length_eq_zero (by omega)
      subst this
      simp [objects, found, places]

end All
end Verif.RefC
