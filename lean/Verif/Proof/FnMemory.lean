import Verif.Model.FnMemory
import Verif.Spec.FnMemory
/-!
# Proofs for C120
-/
set_option linter.unusedSimpArgs false
namespace Verif.FnMemory
open Verif.AppBuild Verif.AppBuild.Spec

/-! ## Signals grouped by data source -/

/-- The signals of `rs` for the data source `d`. -/
def forDs (d : String) (rs : List RSig) : List RSig := rs.filter fun r => r.sig.ds = d

structure Grouped (rs : List RSig) (gs : List Group) : Prop where
  nodup : (gs.map fun g => g.ds).Nodup
  sigs : ∀ g ∈ gs, g.sigs = (forDs g.ds rs).map told ∧ g.byteSize = ((forDs g.ds rs).map area).sum % 2 ^ 32 ∧ forDs g.ds rs ≠ []
  all : ∀ r ∈ rs, ∃ g ∈ gs, g.ds = r.sig.ds

def Cached (fn : String) (out : Bool) (cache : GroupCache) (gs : List Group) : Prop :=
  ∀ d k, cache.lookup (fn, out, d) = some k ↔ ∃ g, gs[k]? = some g ∧ g.ds = d

theorem forDs_append (d : String) (rs : List RSig) (r : RSig) :
    forDs d (rs ++ [r]) = if r.sig.ds = d then forDs d rs ++ [r] else forDs d rs := by
  unfold forDs
  rw [List.filter_append]
  by_cases h : r.sig.ds = d <;> simp [h]

theorem nodup_index {gs : List Group} (h : (gs.map fun g => g.ds).Nodup) {i j : Nat} {a b : Group}
    (hi : gs[i]? = some a) (hj : gs[j]? = some b) (e : a.ds = b.ds) : i = j := by
  have hl : i < (gs.map fun g => g.ds).length := by
    have := (List.getElem?_eq_some_iff.1 hi).1
    simpa using this
  have h1 : (gs.map fun g => g.ds)[i]? = (gs.map fun g => g.ds)[j]? := by
    rw [List.getElem?_map, List.getElem?_map, hi, hj]
    simp [e]
  exact (List.getElem?_inj hl h).1 h1

theorem group_ok {fn : String} {out : Bool} {rs : List RSig} {gs : List Group} {cache : GroupCache} (hg : Grouped rs gs)
    (hc : Cached fn out cache gs) (r : RSig) :
    ∃ cache' gs', group fn out r cache gs = some (cache', gs') ∧ Grouped (rs ++ [r]) gs' ∧ Cached fn out cache' gs' ∧
      ∀ key, (key.1, key.2.1) ≠ (fn, out) → cache'.lookup key = cache.lookup key := by
  unfold group
  cases hl : cache.lookup (fn, out, r.sig.ds) with
  | some k =>
    obtain ⟨g, hk, hd⟩ := (hc _ _).1 hl
    have hlt := (List.getElem?_eq_some_iff.1 hk).1
    have hds : (gs.modify k (join r)).map (fun g => g.ds) = gs.map fun g => g.ds := by
      apply List.ext_getElem?
      intro i
      rw [List.getElem?_map, List.getElem?_map, List.getElem?_modify]
      cases hi : gs[i]? with
      | none => simp
      | some x => by_cases e : k = i <;> simp [e, join]
    refine ⟨_, _, if_pos hlt, ⟨by rw [hds]; exact hg.nodup, ?_, ?_⟩, ?_, fun _ _ => rfl⟩
    · intro x hx
      obtain ⟨i, hi⟩ := List.mem_iff_getElem?.1 hx
      rw [List.getElem?_modify] at hi
      cases hgi : gs[i]? with
      | none => rw [hgi] at hi; simp at hi
      | some y =>
        rw [hgi] at hi
        obtain ⟨s1, s2, s3⟩ := hg.sigs y (List.mem_of_getElem? hgi)
        by_cases e : k = i
        · subst e
          rw [hk] at hgi
          cases hgi
          simp at hi
          subst hi
          have e1 : forDs g.ds (rs ++ [r]) = forDs g.ds rs ++ [r] := by rw [forDs_append, if_pos hd.symm]
          refine ⟨?_, ?_, ?_⟩
          · show g.sigs ++ [told r] = (forDs g.ds (rs ++ [r])).map told
            rw [e1, s1]; simp
          · show (g.byteSize + r.byteSize * r.samples) % 2 ^ 32 = ((forDs g.ds (rs ++ [r])).map area).sum % 2 ^ 32
            rw [e1, s2]; simp [area]
          · show forDs g.ds (rs ++ [r]) ≠ []
            rw [e1]; simp
        · simp [e] at hi
          subst hi
          have hne : r.sig.ds ≠ y.ds := fun h => e (nodup_index hg.nodup hk hgi (hd.trans h))
          rw [forDs_append, if_neg hne]
          exact ⟨s1, s2, s3⟩
    · intro x hx
      have : ∃ g ∈ gs, g.ds = x.sig.ds := by
        rcases List.mem_append.1 hx with h | h
        · exact hg.all x h
        · rw [List.mem_singleton.1 h]; exact ⟨g, List.mem_of_getElem? hk, hd⟩
      obtain ⟨y, hy, hyd⟩ := this
      have : x.sig.ds ∈ (gs.modify k (join r)).map fun g => g.ds := by
        rw [hds]; exact List.mem_map.2 ⟨y, hy, hyd⟩
      obtain ⟨z, hz, hzd⟩ := List.mem_map.1 this
      exact ⟨z, hz, hzd⟩
    · intro d i
      rw [hc d i]
      rw [List.getElem?_modify]
      cases gs[i]? with
      | none => simp
      | some y => by_cases e : k = i <;> simp [e, join]
  | none =>
    have hnone : ∀ g ∈ gs, g.ds ≠ r.sig.ds := by
      intro g hm e
      obtain ⟨i, hi⟩ := List.mem_iff_getElem?.1 hm
      have := (hc _ _).2 ⟨g, hi, e⟩
      rw [hl] at this
      cases this
    have hempty : forDs r.sig.ds rs = [] := by
      unfold forDs
      rw [List.filter_eq_nil_iff]
      intro x hx h
      obtain ⟨g, hm, hd⟩ := hg.all x hx
      exact hnone g hm (hd.trans (by simpa using h))
    have e1 : forDs r.sig.ds (rs ++ [r]) = [r] := by rw [forDs_append, if_pos rfl, hempty]; rfl
    refine ⟨_, _, rfl, ⟨?_, ?_, ?_⟩, ?_, ?_⟩
    · rw [List.map_append, List.nodup_append]
      refine ⟨hg.nodup, by simp, ?_⟩
      intro a ha c hc' e
      obtain ⟨g, hm, rfl⟩ := List.mem_map.1 ha
      simp at hc'
      exact hnone g hm (e.trans hc')
    · intro g hm
      rcases List.mem_append.1 hm with h | h
      · rw [forDs_append, if_neg (fun e => hnone g h e.symm)]
        exact hg.sigs g h
      · rw [List.mem_singleton.1 h]
        dsimp only
        rw [e1]
        simp [area]
    · intro x hx
      rcases List.mem_append.1 hx with h | h
      · obtain ⟨g, hm, hd⟩ := hg.all x h
        exact ⟨g, List.mem_append_left _ hm, hd⟩
      · rw [List.mem_singleton.1 h]
        exact ⟨_, List.mem_append_right _ (List.mem_singleton.2 rfl), rfl⟩
    · intro d i
      rw [List.lookup_cons]
      by_cases e : d = r.sig.ds
      · subst e
        simp only [beq_self_eq_true]
        constructor
        · intro h
          cases h
          exact ⟨_, by rw [List.getElem?_append_right (Nat.le_refl _)]; simp; rfl, rfl⟩
        · rintro ⟨g, hi, hd⟩
          rcases Nat.lt_or_ge i gs.length with h | h
          · rw [List.getElem?_append_left h] at hi
            exact absurd hd (hnone g (List.mem_of_getElem? hi))
          · have := (List.getElem?_eq_some_iff.1 hi).1
            simp at this
            congr 1
            omega
      · have hb : ((fn, out, d) == (fn, out, r.sig.ds)) = false := by simp [e]
        rw [hb]
        show cache.lookup (fn, out, d) = some i ↔ _
        rw [hc d i]
        constructor
        · rintro ⟨g, hi, hd⟩
          exact ⟨g, by rw [List.getElem?_append_left (List.getElem?_eq_some_iff.1 hi).1]; exact hi, hd⟩
        · rintro ⟨g, hi, hd⟩
          rcases Nat.lt_or_ge i gs.length with h | h
          · rw [List.getElem?_append_left h] at hi
            exact ⟨g, hi, hd⟩
          · rw [List.getElem?_append_right h] at hi
            cases hz : i - gs.length with
            | zero => rw [hz] at hi; simp at hi; subst hi; exact absurd hd.symm e
            | succ n => rw [hz] at hi; simp at hi
    · intro key hk
      rw [List.lookup_cons]
      have hb : (key == (fn, out, r.sig.ds)) = false := by
        rw [beq_eq_false_iff_ne]
        intro e
        exact hk (by rw [e])
      rw [hb]

theorem groups_ok {fn : String} {out : Bool} (rs : List RSig) : ∀ {done : List RSig} {gs : List Group} {cache : GroupCache},
    Grouped done gs → Cached fn out cache gs →
    ∃ cache' gs', groups fn out rs cache gs = some (cache', gs') ∧ Grouped (done ++ rs) gs' ∧
      ∀ key, (key.1, key.2.1) ≠ (fn, out) → cache'.lookup key = cache.lookup key := by
  induction rs with
  | nil => intro done gs cache hg _; exact ⟨_, _, rfl, by simpa using hg, fun _ _ => rfl⟩
  | cons r rs ih =>
    intro done gs cache hg hc
    obtain ⟨c1, g1, e1, hg1, hc1, k1⟩ := group_ok hg hc r
    obtain ⟨c2, g2, e2, hg2, k2⟩ := ih hg1 hc1
    refine ⟨c2, g2, ?_, by simpa using hg2, fun key h => (k2 key h).trans (k1 key h)⟩
    unfold groups
    rw [e1]
    exact e2

/-- A function of which nothing is in the cache. -/
theorem groups_fresh {fn : String} {out : Bool} (rs : List RSig) {cache : GroupCache}
    (h : ∀ d, cache.lookup (fn, out, d) = none) :
    ∃ cache' gs', groups fn out rs cache [] = some (cache', gs') ∧ Grouped rs gs' ∧
      ∀ key, (key.1, key.2.1) ≠ (fn, out) → cache'.lookup key = cache.lookup key := by
  have := groups_ok (fn := fn) (out := out) rs (done := []) (gs := []) (cache := cache)
    ⟨by simp, by simp, by simp⟩ (by intro d k; rw [h d]; simp)
  simpa using this

/-! ## What the data sources are told, one function -/

def fin (after : Bool) (b : Brokers) (ds : String) (out : Bool) (t : Told) : Told :=
  if after then { t with broker := some (b ds out t) } else t

theorem copySigs_ok {after : Bool} {b : Brokers} {ds : String} {out : Bool} : ∀ (ts : List Told),
    (after = true → ∀ t ∈ ts, b ds out t ≠ "") → copySigs after b ds out ts = some (ts.map (fin after b ds out)) := by
  intro ts
  induction ts with
  | nil => intro _; rfl
  | cons t ts ih =>
    intro h
    unfold copySigs
    cases after with
    | false => simp [ih (by simp), fin]
    | true =>
      simp only [if_true, setBroker]
      rw [if_neg (h rfl t (by simp)), ih (fun _ x hx => h rfl x (List.mem_cons_of_mem _ hx))]
      simp [fin]

theorem copySigs_conv {b : Brokers} {ds : String} {out : Bool} : ∀ (ts : List Told) {r},
    copySigs true b ds out ts = some r → ∀ t ∈ ts, b ds out t ≠ "" := by
  intro ts
  induction ts with
  | nil => intro r _ t ht; simp at ht
  | cons t ts ih =>
    intro r h
    unfold copySigs at h
    simp only [if_true, setBroker] at h
    by_cases hb : b ds out t = ""
    · rw [if_pos hb] at h; cases h
    · rw [if_neg hb] at h
      dsimp only at h
      cases hc : copySigs true b ds out ts with
      | none => rw [hc] at h; cases h
      | some l =>
        intro x hx
        rcases List.mem_cons.1 hx with rfl | hx
        · exact hb
        · exact ih hc x hx

def cur (fn : String) (a c : Option Part) : List Entry := if a = none ∧ c = none then [] else [⟨fn, a, c⟩]

theorem inSource_ok {ds : String} {f : List Entry → Option (List Entry)} {F : Source → List Entry} {es : List Entry} :
    ∀ (base : List Source), (base.map fun S => S.name).Nodup → ∀ S0 ∈ base, S0.name = ds → f (F S0) = some es →
    inSource ds f (base.map fun S => ⟨S.name, F S⟩) =
      some ((F S0).length, base.map fun S => ⟨S.name, if S.name = ds then es else F S⟩) := by
  intro base
  induction base with
  | nil => intro _ S0 h; simp at h
  | cons S base ih =>
    intro hn S0 hm hd hf
    rw [List.map_cons, List.nodup_cons] at hn
    rw [List.map_cons, List.map_cons]
    unfold inSource
    dsimp only
    rcases List.mem_cons.1 hm with rfl | hm
    · rw [if_pos hd, if_pos hd, hf]
      have : (base.map fun S => (⟨S.name, if S.name = ds then es else F S⟩ : Source)) = base.map fun S => ⟨S.name, F S⟩ := by
        apply List.map_congr_left
        intro T hT
        rw [if_neg]
        intro e
        exact hn.1 (List.mem_map.2 ⟨T, hT, e.trans hd.symm⟩)
      rw [this]
      rfl
    · have hne : S.name ≠ ds := fun e => hn.1 (List.mem_map.2 ⟨S0, hm, hd.trans e.symm⟩)
      rw [if_neg hne, if_neg hne, ih hn.2 S0 hm hd hf]
      rfl

theorem inSource_names {ds : String} {f : List Entry → Option (List Entry)} : ∀ (ss : List Source) {r},
    inSource ds f ss = some r → ds ∈ ss.map (fun S => S.name) ∧ r.2.map (fun S => S.name) = ss.map fun S => S.name := by
  intro ss
  induction ss with
  | nil => intro r h; cases h
  | cons S ss ih =>
    intro r h
    unfold inSource at h
    by_cases e : S.name = ds
    · rw [if_pos e] at h
      cases hf : f S.entries with
      | none => rw [hf] at h; cases h
      | some es => rw [hf] at h; cases h; simp [e]
    · rw [if_neg e] at h
      cases hi : inSource ds f ss with
      | none => rw [hi] at h; cases h
      | some q =>
        rw [hi] at h
        cases h
        obtain ⟨h1, h2⟩ := ih hi
        exact ⟨by simpa using Or.inr (by simpa using h1), by simp [h2]⟩

theorem modify_last {α : Type} (f : α → α) (x : α) : ∀ (xs : List α), (xs ++ [x]).modify xs.length f = xs ++ [f x] := by
  intro xs
  induction xs with
  | nil => rfl
  | cons y xs ih => simpa using ih

theorem unique_source : ∀ (base : List Source), (base.map fun S => S.name).Nodup → ∀ {S T : Source}, S ∈ base → T ∈ base →
    S.name = T.name → S = T := by
  intro base
  induction base with
  | nil => intro _ S T h; simp at h
  | cons U base ih =>
    intro hn S T hS hT e
    rw [List.map_cons, List.nodup_cons] at hn
    rcases List.mem_cons.1 hS with h1 | h1 <;> rcases List.mem_cons.1 hT with h2 | h2
    · rw [h1, h2]
    · exact absurd (List.mem_map.2 ⟨T, h2, by rw [← e, h1]⟩) hn.1
    · exact absurd (List.mem_map.2 ⟨S, h1, by rw [e, h2]⟩) hn.1
    · exact ih hn.2 h1 h2 e

structure Mid (base : List Source) (fn : String) (p : Bool → String → Option Part) (cache : EntryCache) (ss : List Source) : Prop where
  here : ss = base.map fun S => ⟨S.name, S.entries ++ cur fn (p false S.name) (p true S.name)⟩
  cached : ∀ S ∈ base, cache.lookup (S.name, fn) =
    if p false S.name = none ∧ p true S.name = none then none else some S.entries.length

def upd (p : Bool → String → Option Part) (out : Bool) (ds : String) (v : Part) : Bool → String → Option Part :=
  fun o d => if o = out ∧ d = ds then some v else p o d

theorem cur_upd (fn : String) (p : Bool → String → Option Part) (out : Bool) (ds : String) (v : Part) (h : p out ds = none) :
    cur fn (upd p out ds v false ds) (upd p out ds v true ds) = [write out v ⟨fn, p false ds, p true ds⟩] := by
  cases out <;> simp [cur, upd, write, h, extend]

theorem assignGroup_ok {after : Bool} {b : Brokers} {fn : String} {out : Bool} {g : Group} {base : List Source}
    {p : Bool → String → Option Part} {cache : EntryCache} {ss : List Source} (hn : (base.map fun S => S.name).Nodup)
    (hm : Mid base fn p cache ss) (hk : g.ds ∈ base.map fun S => S.name) (hp : p out g.ds = none)
    (hb : after = true → ∀ t ∈ g.sigs, b g.ds out t ≠ "") :
    ∃ cache' ss', assignGroup after b fn out g cache ss = some (cache', ss') ∧
      Mid base fn (upd p out g.ds ⟨g.byteSize, g.sigs.map (fin after b g.ds out)⟩) cache' ss' ∧
      ∀ key, key.2 ≠ fn → cache'.lookup key = cache.lookup key := by
  obtain ⟨S0, hS, hSd⟩ := List.mem_map.1 hk
  have hcS := hm.cached S0 hS
  rw [hSd] at hcS
  have hcur := cur_upd fn p out g.ds ⟨g.byteSize, g.sigs.map (fin after b g.ds out)⟩ hp
  generalize hv : (⟨g.byteSize, g.sigs.map (fin after b g.ds out)⟩ : Part) = v at hcur ⊢
  have htell : tell fn out v (cache.lookup (g.ds, fn)) (S0.entries ++ cur fn (p false S0.name) (p true S0.name)) =
      some (S0.entries ++ [write out v ⟨fn, p false g.ds, p true g.ds⟩]) := by
    rw [hSd, hcS]
    by_cases h0 : p false g.ds = none ∧ p true g.ds = none
    · rw [if_pos h0]
      simp [tell, cur, h0]
    · rw [if_neg h0]
      simp only [tell, cur, if_neg h0]
      rw [if_pos (by simp)]
      congr 1
      exact modify_last _ _ _
  have hin := inSource_ok (F := fun S => S.entries ++ cur fn (p false S.name) (p true S.name)) base hn S0 hS hSd htell
  have hnew : (base.map fun S => (⟨S.name, if S.name = g.ds then S0.entries ++ [write out v ⟨fn, p false g.ds, p true g.ds⟩]
      else S.entries ++ cur fn (p false S.name) (p true S.name)⟩ : Source)) =
      base.map fun S => ⟨S.name, S.entries ++ cur fn (upd p out g.ds v false S.name) (upd p out g.ds v true S.name)⟩ := by
    apply List.map_congr_left
    intro T hT
    by_cases e : T.name = g.ds
    · have : T = S0 := unique_source base hn hT hS (e.trans hSd.symm)
      subst this
      rw [if_pos e, e, hcur]
    · rw [if_neg e]
      simp [upd, e]
  unfold assignGroup
  rw [copySigs_ok g.sigs hb]
  dsimp only
  rw [hv, hm.here, hin, hnew]
  dsimp only
  refine ⟨_, _, rfl, ⟨rfl, ?_⟩, ?_⟩
  · intro S hSm
    by_cases e : S.name = g.ds
    · have : S = S0 := unique_source base hn hSm hS (e.trans hSd.symm)
      subst this
      have hne : ¬ (upd p out g.ds v false S.name = none ∧ upd p out g.ds v true S.name = none) := by
        cases out <;> simp [upd, e]
      rw [if_neg hne, e, hcS]
      by_cases h0 : p false g.ds = none ∧ p true g.ds = none
      · rw [if_pos h0]
        simp [cur, h0, e]
      · rw [if_neg h0]
        simp [hcS, if_neg h0]
    · have h1 : upd p out g.ds v false S.name = p false S.name := by simp [upd, e]
      have h2 : upd p out g.ds v true S.name = p true S.name := by simp [upd, e]
      rw [h1, h2, ← hm.cached S hSm]
      split
      · rfl
      · rw [List.lookup_cons]
        have : ((S.name, fn) == (g.ds, fn)) = false := by simp [e]
        rw [this]
  · intro key hkey
    split
    · rfl
    · rw [List.lookup_cons]
      have : (key == (g.ds, fn)) = false := by
        rw [beq_eq_false_iff_ne]
        intro e
        exact hkey (by rw [e])
      rw [this]

theorem assignGroups_ok {after : Bool} {b : Brokers} {fn : String} {out : Bool} {base : List Source}
    (hn : (base.map fun S => S.name).Nodup) : ∀ (gs : List Group) {p : Bool → String → Option Part} {cache : EntryCache}
    {ss : List Source}, Mid base fn p cache ss → (gs.map fun g => g.ds).Nodup →
    (∀ g ∈ gs, g.ds ∈ (base.map fun S => S.name) ∧ p out g.ds = none ∧ (after = true → ∀ t ∈ g.sigs, b g.ds out t ≠ "")) →
    ∃ cache' ss' p', assignGroups after b fn out gs cache ss = some (cache', ss') ∧ Mid base fn p' cache' ss' ∧
      (∀ g ∈ gs, p' out g.ds = some ⟨g.byteSize, g.sigs.map (fin after b g.ds out)⟩) ∧
      (∀ o d, (o = out → d ∉ gs.map fun g => g.ds) → p' o d = p o d) ∧
      ∀ key, key.2 ≠ fn → cache'.lookup key = cache.lookup key := by
  intro gs
  induction gs with
  | nil => intro p cache ss hm _ _; exact ⟨_, _, p, rfl, hm, by simp, fun _ _ _ => rfl, fun _ _ => rfl⟩
  | cons g gs ih =>
    intro p cache ss hm hd hg
    rw [List.map_cons, List.nodup_cons] at hd
    obtain ⟨h1, h2, h3⟩ := hg g (by simp)
    obtain ⟨c1, s1, e1, m1, k1⟩ := assignGroup_ok hn hm h1 h2 h3
    obtain ⟨c2, s2, p2, e2, m2, a2, o2, k2⟩ := ih m1 hd.2 (by
      intro x hx
      obtain ⟨x1, x2, x3⟩ := hg x (List.mem_cons_of_mem _ hx)
      refine ⟨x1, ?_, x3⟩
      unfold upd
      rw [if_neg]
      · exact x2
      · rintro ⟨_, e⟩
        exact hd.1 (List.mem_map.2 ⟨x, hx, e⟩))
    refine ⟨c2, s2, p2, ?_, m2, ?_, ?_, fun key h => (k2 key h).trans (k1 key h)⟩
    · unfold assignGroups
      rw [e1]
      exact e2
    · intro x hx
      rcases List.mem_cons.1 hx with rfl | hx
      · rw [o2 out x.ds (fun _ => hd.1)]
        simp [upd]
      · exact a2 x hx
    · intro o d h
      rw [o2 o d (fun e hm => h e (by rw [List.map_cons]; exact List.mem_cons_of_mem _ hm))]
      unfold upd
      rw [if_neg]
      rintro ⟨e1, e2⟩
      exact h e1 (by rw [e2]; simp)

theorem assignGroup_conv {after : Bool} {b : Brokers} {fn : String} {out : Bool} {g : Group} {cache : EntryCache} {ss : List Source}
    {r : EntryCache × List Source} (h : assignGroup after b fn out g cache ss = some r) :
    g.ds ∈ (ss.map fun S => S.name) ∧ (after = true → ∀ t ∈ g.sigs, b g.ds out t ≠ "") ∧
      r.2.map (fun S => S.name) = ss.map fun S => S.name := by
  unfold assignGroup at h
  cases hc : copySigs after b g.ds out g.sigs with
  | none => rw [hc] at h; cases h
  | some sigs =>
    rw [hc] at h
    dsimp only at h
    cases hi : inSource g.ds (tell fn out ⟨g.byteSize, sigs⟩ (cache.lookup (g.ds, fn))) ss with
    | none => rw [hi] at h; cases h
    | some q =>
      rw [hi] at h
      cases h
      obtain ⟨h1, h2⟩ := inSource_names ss hi
      exact ⟨h1, fun ha => by subst ha; exact copySigs_conv _ hc, h2⟩

theorem assignGroups_conv {after : Bool} {b : Brokers} {fn : String} {out : Bool} : ∀ (gs : List Group) {cache : EntryCache}
    {ss : List Source} {r : EntryCache × List Source}, assignGroups after b fn out gs cache ss = some r →
    (∀ g ∈ gs, g.ds ∈ (ss.map fun S => S.name) ∧ (after = true → ∀ t ∈ g.sigs, b g.ds out t ≠ "")) ∧
      r.2.map (fun S => S.name) = ss.map fun S => S.name := by
  intro gs
  induction gs with
  | nil => intro cache ss r h; cases h; exact ⟨by simp, rfl⟩
  | cons g gs ih =>
    intro cache ss r h
    unfold assignGroups at h
    cases hg : assignGroup after b fn out g cache ss with
    | none => rw [hg] at h; cases h
    | some q =>
      rw [hg] at h
      obtain ⟨h1, h2, h3⟩ := assignGroup_conv hg
      obtain ⟨h4, h5⟩ := ih h
      rw [h3] at h4 h5
      refine ⟨?_, h5⟩
      intro x hx
      rcases List.mem_cons.1 hx with rfl | hx
      · exact ⟨h1, h2⟩
      · exact h4 x hx

/-- What is told of a direction, with the size as it is computed. -/
def part' (after : Bool) (b : Brokers) (ds : String) (out : Bool) (rs : List RSig) : Option Part :=
  if forDs ds rs = [] then none
  else some ⟨((forDs ds rs).map area).sum % 2 ^ 32, (forDs ds rs).map fun r => fin after b ds out (told r)⟩

theorem forDs_none {ds : String} {rs : List RSig} {gs : List Group} (hg : Grouped rs gs) (h : ds ∉ gs.map fun g => g.ds) :
    forDs ds rs = [] := by
  unfold forDs
  rw [List.filter_eq_nil_iff]
  intro r hr e
  obtain ⟨g, hm, hd⟩ := hg.all r hr
  exact h (List.mem_map.2 ⟨g, hm, hd.trans (by simpa using e)⟩)

theorem part'_of {after : Bool} {b : Brokers} {out : Bool} {rs : List RSig} {gs : List Group} (hg : Grouped rs gs)
    {q : String → Option Part} (h1 : ∀ g ∈ gs, q g.ds = some ⟨g.byteSize, g.sigs.map (fin after b g.ds out)⟩)
    (h2 : ∀ d, (d ∉ gs.map fun g => g.ds) → q d = none) (d : String) : q d = part' after b d out rs := by
  unfold part'
  by_cases hd : d ∈ gs.map fun g => g.ds
  · obtain ⟨g, hm, rfl⟩ := List.mem_map.1 hd
    obtain ⟨s1, s2, s3⟩ := hg.sigs g hm
    rw [h1 g hm, if_neg s3, s1, s2, List.map_map]
    rfl
  · rw [h2 d hd, if_pos (forDs_none hg hd)]

/-- All the conditions on one function. -/
def Good (after : Bool) (b : Brokers) (names : List String) (R : RFn) : Prop :=
  (R.ins ≠ [] ∨ R.outs ≠ []) ∧ (∀ r, r ∈ R.ins ∨ r ∈ R.outs → r.sig.ds ∈ names) ∧
  (after = true → (∀ r ∈ R.ins, b r.sig.ds false (told r) ≠ "") ∧ ∀ r ∈ R.outs, b r.sig.ds true (told r) ≠ "")

theorem grouped_nil {rs : List RSig} {gs : List Group} (h : Grouped rs gs) : gs = [] ↔ rs = [] := by
  constructor
  · intro e
    cases rs with
    | nil => rfl
    | cons r rs =>
      obtain ⟨g, hm, _⟩ := h.all r (by simp)
      rw [e] at hm
      simp at hm
  · intro e
    cases gs with
    | nil => rfl
    | cons g gs =>
      have := (h.sigs g (by simp)).2.2
      rw [e] at this
      exact absurd rfl this

theorem good_groups {after : Bool} {b : Brokers} {out : Bool} {names : List String} {rs : List RSig} {gs : List Group}
    (hg : Grouped rs gs) :
    (∀ g ∈ gs, g.ds ∈ names ∧ (after = true → ∀ t ∈ g.sigs, b g.ds out t ≠ "")) ↔
    ((∀ r ∈ rs, r.sig.ds ∈ names) ∧ (after = true → ∀ r ∈ rs, b r.sig.ds out (told r) ≠ "")) := by
  constructor
  · intro h
    refine ⟨?_, ?_⟩
    · intro r hr
      obtain ⟨g, hm, hd⟩ := hg.all r hr
      rw [← hd]
      exact (h g hm).1
    · intro ha r hr
      obtain ⟨g, hm, hd⟩ := hg.all r hr
      rw [← hd]
      refine (h g hm).2 ha (told r) ?_
      rw [(hg.sigs g hm).1]
      exact List.mem_map.2 ⟨r, List.mem_filter.2 ⟨hr, by simpa using hd.symm⟩, rfl⟩
  · rintro ⟨h1, h2⟩ g hm
    obtain ⟨s1, _, s3⟩ := hg.sigs g hm
    refine ⟨?_, ?_⟩
    · obtain ⟨r, hr⟩ := List.exists_mem_of_ne_nil _ s3
      obtain ⟨hr, hd⟩ := List.mem_filter.1 hr
      have := h1 r hr
      rw [show r.sig.ds = g.ds by simpa using hd] at this
      exact this
    · intro ha t ht
      rw [s1] at ht
      obtain ⟨r, hr, rfl⟩ := List.mem_map.1 ht
      obtain ⟨hr, hd⟩ := List.mem_filter.1 hr
      have := h2 ha r hr
      rw [show r.sig.ds = g.ds by simpa using hd] at this
      exact this

structure Fresh (R : RFn) (c : GroupCache) (d : EntryCache) (ss : List Source) : Prop where
  group : ∀ o ds, c.lookup (R.fn.name, o, ds) = none
  entry : ∀ S ∈ ss, d.lookup (S.name, R.fn.name) = none

theorem assignFn_ok {after : Bool} {b : Brokers} {R : RFn} {c : GroupCache} {d : EntryCache} {ss : List Source}
    (hn : (ss.map fun S => S.name).Nodup) (hf : Fresh R c d ss) (h : Good after b (ss.map fun S => S.name) R) :
    ∃ c' d', assignFn after b R c d ss = some (c', d', ss.map fun S => ⟨S.name, S.entries ++
        cur R.fn.name (part' after b S.name false R.ins) (part' after b S.name true R.outs)⟩) ∧
      (∀ key, key.1 ≠ R.fn.name → c'.lookup key = c.lookup key) ∧ ∀ key, key.2 ≠ R.fn.name → d'.lookup key = d.lookup key := by
  obtain ⟨c1, gi, e1, g1, k1⟩ := groups_fresh (fn := R.fn.name) (out := false) R.ins (hf.group false)
  obtain ⟨c2, go, e2, g2, k2⟩ := groups_fresh (fn := R.fn.name) (out := true) R.outs (cache := c1) (fun ds => by
    rw [k1 _ (by simp)]; exact hf.group true ds)
  obtain ⟨h1, h2, h3⟩ := h
  have hgi := (good_groups (after := after) (b := b) (out := false) (names := ss.map fun S => S.name) g1).2
    ⟨fun r hr => h2 r (Or.inl hr), fun ha => (h3 ha).1⟩
  have hgo := (good_groups (after := after) (b := b) (out := true) (names := ss.map fun S => S.name) g2).2
    ⟨fun r hr => h2 r (Or.inr hr), fun ha => (h3 ha).2⟩
  have m0 : Mid ss R.fn.name (fun _ _ => none) d ss := by
    refine ⟨?_, ?_⟩
    · simp [cur]
    · intro S hS
      rw [if_pos ⟨rfl, rfl⟩]
      exact hf.entry S hS
  obtain ⟨d1, s1, p1, a1, m1, i1, o1, q1⟩ := assignGroups_ok (after := after) (b := b) (out := false) hn gi m0 g1.nodup
    (fun g hg => ⟨(hgi g hg).1, rfl, (hgi g hg).2⟩)
  obtain ⟨d2, s2, p2, a2, m2, i2, o2, q2⟩ := assignGroups_ok (after := after) (b := b) (out := true) hn go m1 g2.nodup
    (fun g hg => ⟨(hgo g hg).1, o1 true g.ds (by simp), (hgo g hg).2⟩)
  have hin : ∀ ds, p2 false ds = part' after b ds false R.ins := by
    intro ds
    rw [o2 false ds (by simp)]
    exact part'_of g1 (q := p1 false) i1 (fun x hx => o1 false x (fun _ => hx)) ds
  have hout : ∀ ds, p2 true ds = part' after b ds true R.outs := by
    intro ds
    exact part'_of g2 (q := p2 true) i2 (fun x hx => by rw [o2 true x (fun _ => hx)]; exact o1 true x (by simp)) ds
  refine ⟨c2, d2, ?_, ?_, fun key hk => (q2 key hk).trans (q1 key hk)⟩
  · unfold assignFn
    rw [e1]
    dsimp only
    rw [e2]
    dsimp only
    rw [if_neg (by rw [grouped_nil g1, grouped_nil g2]; exact fun hx => h1.elim (fun y => y hx.1) (fun y => y hx.2)), a1]
    dsimp only
    rw [a2, m2.here]
    simp only [hin, hout]
    rfl
  · intro key hk
    rw [k2 key (by intro e; exact hk (Prod.mk.inj e).1), k1 key (by intro e; exact hk (Prod.mk.inj e).1)]

theorem assignFn_conv {after : Bool} {b : Brokers} {R : RFn} {c : GroupCache} {d : EntryCache} {ss : List Source}
    {r : GroupCache × EntryCache × List Source} (hf : Fresh R c d ss) (h : assignFn after b R c d ss = some r) :
    Good after b (ss.map fun S => S.name) R := by
  obtain ⟨c1, gi, e1, g1, k1⟩ := groups_fresh (fn := R.fn.name) (out := false) R.ins (hf.group false)
  obtain ⟨c2, go, e2, g2, k2⟩ := groups_fresh (fn := R.fn.name) (out := true) R.outs (cache := c1) (fun ds => by
    rw [k1 _ (by simp)]; exact hf.group true ds)
  unfold assignFn at h
  rw [e1] at h
  dsimp only at h
  rw [e2] at h
  dsimp only at h
  by_cases h0 : gi = [] ∧ go = []
  · rw [if_pos h0] at h; cases h
  · rw [if_neg h0] at h
    cases hi : assignGroups after b R.fn.name false gi d ss with
    | none => rw [hi] at h; cases h
    | some q =>
      rw [hi] at h
      dsimp only at h
      cases ho : assignGroups after b R.fn.name true go q.1 q.2 with
      | none => rw [ho] at h; cases h
      | some q' =>
        obtain ⟨x1, x2⟩ := assignGroups_conv gi hi
        obtain ⟨y1, _⟩ := assignGroups_conv go ho
        rw [x2] at y1
        obtain ⟨u1, u2⟩ := (good_groups g1).1 x1
        obtain ⟨v1, v2⟩ := (good_groups g2).1 y1
        refine ⟨?_, ?_, fun ha => ⟨u2 ha, v2 ha⟩⟩
        · rw [grouped_nil g1, grouped_nil g2] at h0
          by_cases hx : R.ins = []
          · exact Or.inr fun hy => h0 ⟨hx, hy⟩
          · exact Or.inl hx
        · rintro r (hr | hr)
          · exact u1 r hr
          · exact v1 r hr

/-! ## All the functions -/

def entries' (after : Bool) (b : Brokers) (ds : String) (app : List RFn) : List Entry :=
  (app.map fun R => cur R.fn.name (part' after b ds false R.ins) (part' after b ds true R.outs)).flatten

theorem fresh_next {R : RFn} {c c' : GroupCache} {d d' : EntryCache} {ss : List Source} {F : Source → List Entry} {R' : RFn}
    (hne : R'.fn.name ≠ R.fn.name) (hf : Fresh R' c d ss) (hc : ∀ key, key.1 ≠ R.fn.name → c'.lookup key = c.lookup key)
    (hd : ∀ key, key.2 ≠ R.fn.name → d'.lookup key = d.lookup key) : Fresh R' c' d' (ss.map fun S => ⟨S.name, F S⟩) := by
  refine ⟨fun o ds => by rw [hc _ hne]; exact hf.group o ds, ?_⟩
  intro S hS
  obtain ⟨T, hT, rfl⟩ := List.mem_map.1 hS
  rw [hd _ hne]
  exact hf.entry T hT

theorem assignFns_iff {after : Bool} {b : Brokers} : ∀ (app : List RFn) {c : GroupCache} {d : EntryCache} {ss : List Source},
    (ss.map fun S => S.name).Nodup → (app.map fun R => R.fn.name).Nodup → (∀ R ∈ app, Fresh R c d ss) → ∀ X,
    (assignFns after b app c d ss = some X ↔ (∀ R ∈ app, Good after b (ss.map fun S => S.name) R) ∧
      X = ss.map fun S => ⟨S.name, S.entries ++ entries' after b S.name app⟩) := by
  intro app
  induction app with
  | nil =>
    intro c d ss _ _ _ X
    simp [assignFns, entries']
    exact eq_comm
  | cons R app ih =>
    intro c d ss hn hd hf X
    rw [List.map_cons, List.nodup_cons] at hd
    have hne : ∀ R' ∈ app, R'.fn.name ≠ R.fn.name := fun R' h e => hd.1 (List.mem_map.2 ⟨R', h, e⟩)
    have step : Good after b (ss.map fun S => S.name) R →
        (assignFns after b (R :: app) c d ss = some X ↔ (∀ R ∈ app, Good after b (ss.map fun S => S.name) R) ∧
          X = ss.map fun S => ⟨S.name, S.entries ++ entries' after b S.name (R :: app)⟩) := by
      intro hg
      obtain ⟨c', d', e, hc, hd'⟩ := assignFn_ok hn (hf R (by simp)) hg
      have hnames : ∀ F : Source → List Entry, ((ss.map fun S => (⟨S.name, F S⟩ : Source)).map fun S => S.name) =
          ss.map fun S => S.name := by
        intro F
        rw [List.map_map]
        rfl
      have := ih (c := c') (d := d') (ss := ss.map fun S => ⟨S.name, S.entries ++
        cur R.fn.name (part' after b S.name false R.ins) (part' after b S.name true R.outs)⟩)
        (by rw [hnames]; exact hn) hd.2
        (fun R' h => fresh_next (hne R' h) (hf R' (List.mem_cons_of_mem _ h)) hc hd') X
      rw [hnames, List.map_map] at this
      unfold assignFns
      rw [e]
      dsimp only
      rw [this]
      have e2 : (ss.map ((fun S => (⟨S.name, S.entries ++ entries' after b S.name app⟩ : Source)) ∘ fun (S : Source) => (⟨S.name, S.entries ++
          cur R.fn.name (part' after b S.name false R.ins) (part' after b S.name true R.outs)⟩ : Source))) =
          ss.map fun S => ⟨S.name, S.entries ++ entries' after b S.name (R :: app)⟩ := by
        apply List.map_congr_left
        intro S _
        simp [entries', Function.comp]
      rw [e2]
    constructor
    · intro h
      have hg : Good after b (ss.map fun S => S.name) R := by
        unfold assignFns at h
        cases hfn : assignFn after b R c d ss with
        | none => rw [hfn] at h; cases h
        | some q => exact assignFn_conv (hf R (by simp)) hfn
      obtain ⟨h1, h2⟩ := (step hg).1 h
      refine ⟨?_, h2⟩
      intro R' h'
      rcases List.mem_cons.1 h' with rfl | h'
      · exact hg
      · exact h1 R' h'
    · rintro ⟨h1, h2⟩
      exact (step (h1 R (by simp))).2 ⟨fun R' h => h1 R' (List.mem_cons_of_mem _ h), h2⟩

theorem assign_iff {after : Bool} {b : Brokers} {names : List String} {app : List RFn} (hn : names.Nodup)
    (hd : (app.map fun R => R.fn.name).Nodup) (X : List Source) :
    assign after b names app = some X ↔ (∀ R ∈ app, Good after b names R) ∧ X = names.map fun n => ⟨n, entries' after b n app⟩ := by
  have e : ((names.map fun n => (⟨n, []⟩ : Source)).map fun S => S.name) = names := by
    rw [List.map_map]
    exact List.map_id _
  have := assignFns_iff (after := after) (b := b) app (c := []) (d := []) (ss := names.map fun n => ⟨n, []⟩)
    (by rw [e]; exact hn) hd (fun R _ => ⟨fun _ _ => rfl, fun _ _ => rfl⟩) X
  rw [e, List.map_map] at this
  unfold assign
  exact this

end Verif.FnMemory
