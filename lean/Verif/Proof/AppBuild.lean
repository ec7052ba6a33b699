import Verif.Spec.AppBuild
set_option linter.unusedSimpArgs false
set_option linter.unusedVariables false
/-! Proofs for C57. -/
namespace Verif.AppBuild
open Spec

theorem target_eq (f : FSig) : f.target = wanted f := by
  unfold FSig.target wanted
  cases f.alias with
  | none => rfl
  | some a => cases a <;> rfl

/-- Values that are there stay. -/
def Keeps {α : Type} (a b : Option α) : Prop := a ≠ none → b = a

theorem Keeps.refl {α : Type} (a : Option α) : Keeps a a := fun _ => rfl

theorem Keeps.trans {α : Type} {a b c : Option α} (h : Keeps a b) (h' : Keeps b c) : Keeps a c := by
  intro n
  have := h n
  subst this
  exact h' n

theorem mergeProp_facts {α : Type} [DecidableEq α] (f d : Option α) :
    Keeps f (mergeProp f d).2.1 ∧ Keeps d (mergeProp f d).2.2 ∧
      ((mergeProp f d).2.1 = none ↔ (mergeProp f d).2.2 = none) ∧
      ((mergeProp f d).1 = true → (mergeProp f d).2.1 = (mergeProp f d).2.2) ∧
      (∀ x, (mergeProp f d).2.2 = some x → f = some x ∨ d = some x) ∧
      (∀ x, (mergeProp f d).2.1 = some x → f = some x ∨ d = some x) := by
  cases f <;> cases d <;> simp [mergeProp, Keeps]

structure DLe (d d' : DSig) : Prop where
  name : d'.name = d.name
  ty : Keeps d.ty d'.ty
  elems : Keeps d.elems d'.elems
  uses : ∀ u, u ∈ d.uses → u ∈ d'.uses
  full : Spec.Complete d.fullType → d'.fullType = d.fullType

theorem DLe.refl (d : DSig) : DLe d d := ⟨rfl, Keeps.refl _, Keeps.refl _, fun _ h => h, fun _ => rfl⟩

theorem DLe.trans {a b c : DSig} (h : DLe a b) (h' : DLe b c) : DLe a c :=
  ⟨h'.name.trans h.name, h.ty.trans h'.ty, h.elems.trans h'.elems, fun u hu => h'.uses u (h.uses u hu),
    fun hc => by rw [h'.full (by rw [h.full hc]; exact hc), h.full hc]⟩

structure FLe (f f' : FSig) : Prop where
  name : f'.name = f.name
  alias : f'.alias = f.alias
  ds : f'.ds = f.ds
  fullType : f'.fullType = f.fullType
  ranges : f'.ranges = f.ranges
  samples : f'.samples = f.samples
  ty : Keeps f.ty f'.ty
  dims : Keeps f.dims f'.dims
  elems : Keeps f.elems f'.elems
  dflt : Keeps f.dflt f'.dflt
  member : Keeps f.member f'.member

theorem FLe.refl (f : FSig) : FLe f f :=
  ⟨rfl, rfl, rfl, rfl, rfl, rfl, Keeps.refl _, Keeps.refl _, Keeps.refl _, Keeps.refl _, Keeps.refl _⟩

structure FTyped (f : FSig) : Prop where
  full : f.fullType ≠ [] → f.ty ≠ none
  nonempty : f.ty ≠ some ""

structure DTyped (d : DSig) : Prop where
  full : d.fullType ≠ [] → d.ty ≠ none
  nonempty : d.ty ≠ some ""

theorem mergeFull_ne (f d : List String) (h : (mergeFull f d).2 ≠ []) : f ≠ [] ∨ d ≠ [] := by
  by_cases hd : d = []
  · left
    simpa [mergeFull, hd] using h
  · exact Or.inr hd

theorem replaceLoop_complete : ∀ (d f : List String), "Node" ∉ d → (replaceLoop d f).2 = false
  | [], f, _ => rfl
  | a :: d, [], _ => rfl
  | a :: d, b :: f, h => by
    have ha : a ≠ "Node" := fun e => h (by rw [e]; simp)
    simp [replaceLoop, ha]

theorem mergeFull_complete (f d : List String) (h : Complete d) : (mergeFull f d).2 = d := by
  unfold mergeFull
  rw [if_neg h.1]
  split
  · rfl
  · have := replaceLoop_complete d f h.2
    generalize replaceLoop d f = r at this
    obtain ⟨a, b⟩ := r
    dsimp only at this
    subst this
    cases a <;> rfl

structure MFacts (f : FSig) (d : DSig) (ok : Bool) (f' : FSig) (d' : DSig) : Prop where
  fle : FLe f f'
  dle : DLe d d'
  uses : d'.uses = d.uses
  both : f'.ty = none ↔ d'.ty = none
  agree : ok = true → f'.ty = d'.ty ∧ f'.elems = d'.elems ∧ f'.dims = d'.dims
  typed : FTyped f → DTyped d → DTyped d'

theorem mergeProps_facts (f : FSig) (d : DSig) :
    MFacts f d (mergeProps f d).1 (mergeProps f d).2.1 (mergeProps f d).2.2 := by
  have h1 := mergeProp_facts f.ty d.ty
  have h2 := mergeProp_facts f.dims d.dims
  have h3 := mergeProp_facts f.elems d.elems
  have h4 := mergeProp_facts f.dflt d.dflt
  have h5 := mergeProp_facts f.member d.member
  have h6 := mergeFull_ne f.fullType d.fullType
  have h7 := mergeFull_complete f.fullType d.fullType
  have hty : FTyped f → DTyped d → (mergeProp f.ty d.ty).2.2 ≠ some "" := by
    intro a b hh
    rcases h1.2.2.2.2.1 _ hh with h | h
    · exact a.nonempty h
    · exact b.nonempty h
  have hfull : FTyped f → DTyped d → f.fullType ≠ [] ∨ d.fullType ≠ [] → (mergeProp f.ty d.ty).2.2 ≠ none := by
    intro a b hor hn
    rcases hor with h | h
    · have h' := a.full h
      have := h1.1 h'
      have hn' := h1.2.2.1.mpr hn
      rw [this] at hn'
      exact h' hn'
    · have h' := b.full h
      have := h1.2.1 h'
      rw [this] at hn
      exact h' hn
  unfold mergeProps
  dsimp only
  generalize mergeProp f.ty d.ty = t1 at *
  generalize mergeProp f.dims d.dims = t2 at *
  generalize mergeProp f.elems d.elems = t3 at *
  generalize mergeProp f.dflt d.dflt = t4 at *
  generalize mergeProp f.member d.member = t5 at *
  generalize mergeFull f.fullType d.fullType = t6 at *
  obtain ⟨a1, a2, a3, a4, a5, a6⟩ := h1
  obtain ⟨b1, b2, b3, b4, b5, b6⟩ := h2
  obtain ⟨c1, c2, c3, c4, c5, c6⟩ := h3
  obtain ⟨e1, e2, e3, e4, e5, e6⟩ := h4
  obtain ⟨g1, g2, g3, g4, g5, g6⟩ := h5
  have kr : ∀ {α : Type} (a : Option α), Keeps a a := fun a => Keeps.refl a
  split
  · exact ⟨⟨rfl, rfl, rfl, rfl, rfl, rfl, a1, kr _, kr _, kr _, kr _⟩, ⟨rfl, a2, kr _, fun _ h => h, fun _ => rfl⟩, rfl, a3, by simp,
      fun x y => ⟨fun h => hfull x y (Or.inr h), hty x y⟩⟩
  · split
    · exact ⟨⟨rfl, rfl, rfl, rfl, rfl, rfl, a1, b1, kr _, kr _, kr _⟩, ⟨rfl, a2, kr _, fun _ h => h, fun _ => rfl⟩, rfl, a3, by simp,
        fun x y => ⟨fun h => hfull x y (Or.inr h), hty x y⟩⟩
    · split
      · exact ⟨⟨rfl, rfl, rfl, rfl, rfl, rfl, a1, b1, c1, kr _, kr _⟩, ⟨rfl, a2, c2, fun _ h => h, fun _ => rfl⟩, rfl, a3, by simp,
          fun x y => ⟨fun h => hfull x y (Or.inr h), hty x y⟩⟩
      · split
        · exact ⟨⟨rfl, rfl, rfl, rfl, rfl, rfl, a1, b1, c1, e1, kr _⟩, ⟨rfl, a2, c2, fun _ h => h, fun _ => rfl⟩, rfl, a3, by simp,
            fun x y => ⟨fun h => hfull x y (Or.inr h), hty x y⟩⟩
        · split
          · exact ⟨⟨rfl, rfl, rfl, rfl, rfl, rfl, a1, b1, c1, e1, g1⟩, ⟨rfl, a2, c2, fun _ h => h, fun _ => rfl⟩, rfl, a3, by simp,
              fun x y => ⟨fun h => hfull x y (Or.inr h), hty x y⟩⟩
          · rename_i q1 q2 q3 q4 q5
            refine ⟨⟨rfl, rfl, rfl, rfl, rfl, rfl, a1, b1, c1, e1, g1⟩, ⟨rfl, a2, c2, fun _ h => h, h7⟩, rfl, a3, ?_,
              fun x y => ⟨fun h => hfull x y (h6 h), hty x y⟩⟩
            intro _
            exact ⟨a4 (by simpa using q1), c4 (by simpa using q3), b4 (by simpa using q2)⟩

theorem defaults_facts (ok : Bool) (f : FSig) :
    FLe f (defaults ok f).2 ∧ (defaults ok f).2.ty = f.ty ∧ ((defaults ok f).1 = true → f.elems ≠ none → ok = true) := by
  unfold defaults
  by_cases he : f.elems = none
  · by_cases hd : f.dims = none
    · simp only [he, hd, if_pos, and_self, if_true]
      exact ⟨⟨rfl, rfl, rfl, rfl, rfl, rfl, Keeps.refl _, by simp [Keeps, hd], by simp [Keeps, he], Keeps.refl _, Keeps.refl _⟩, by simp, by simp⟩
    · simp only [he, hd, if_true, and_false, if_false]
      exact ⟨⟨rfl, rfl, rfl, rfl, rfl, rfl, Keeps.refl _, Keeps.refl _, by simp [Keeps, he], Keeps.refl _, Keeps.refl _⟩, by simp, by simp⟩
  · simp only [he, if_false]
    split
    · rename_i h
      exact ⟨⟨rfl, rfl, rfl, rfl, rfl, rfl, Keeps.refl _, by simp [Keeps, h.2], Keeps.refl _, Keeps.refl _, Keeps.refl _⟩, rfl, fun _ _ => h.1⟩
    · exact ⟨FLe.refl f, rfl, fun h _ => h⟩

theorem FLe.trans {a b c : FSig} (h : FLe a b) (h' : FLe b c) : FLe a c :=
  ⟨h'.name.trans h.name, h'.alias.trans h.alias, h'.ds.trans h.ds, h'.fullType.trans h.fullType, h'.ranges.trans h.ranges,
    h'.samples.trans h.samples, h.ty.trans h'.ty, h.dims.trans h'.dims, h.elems.trans h'.elems, h.dflt.trans h'.dflt,
    h.member.trans h'.member⟩

theorem findSig_some {name : Name} {l : List DSig} {i : Nat} (h : findSig name l = some i) :
    ∃ d, l[i]? = some d ∧ d.name = name := by
  induction l generalizing i with
  | nil => simp [findSig] at h
  | cons d ds ih =>
    rw [findSig] at h
    split at h
    · rename_i hn
      cases h
      exact ⟨d, rfl, hn⟩
    · cases hf : findSig name ds with
      | none => rw [hf] at h; simp at h
      | some k =>
        rw [hf] at h
        cases h
        obtain ⟨d', h1, h2⟩ := ih hf
        exact ⟨d', by simpa using h1, h2⟩

theorem findSig_none {name : Name} {l : List DSig} (h : findSig name l = none) : ∀ d ∈ l, d.name ≠ name := by
  induction l with
  | nil => simp
  | cons d ds ih =>
    rw [findSig] at h
    split at h
    · simp at h
    · rename_i hn
      simp only [Option.map_eq_none_iff] at h
      intro e he
      rcases List.mem_cons.mp he with rfl | he
      · exact hn
      · exact ih h e he

structure SLe (s s' : DS) : Prop where
  name : s'.name = s.name
  locked : s'.locked = s.locked
  timing : s'.timing = s.timing
  stray : s.stray = true → s'.stray = true
  sigs : ∀ d ∈ s.sigs, ∃ d' ∈ s'.sigs, DLe d d'
  lock : s.locked = true → s'.sigs.map (fun d => d.name) = s.sigs.map (fun d => d.name)

theorem SLe.refl (s : DS) : SLe s s := ⟨rfl, rfl, rfl, fun h => h, fun d hd => ⟨d, hd, DLe.refl d⟩, fun _ => rfl⟩

theorem SLe.trans {a b c : DS} (h : SLe a b) (h' : SLe b c) : SLe a c := by
  refine ⟨h'.name.trans h.name, h'.locked.trans h.locked, h'.timing.trans h.timing, fun x => h'.stray (h.stray x), ?_, ?_⟩
  · intro d hd
    obtain ⟨e, he, h1⟩ := h.sigs d hd
    obtain ⟨g, hg, h2⟩ := h'.sigs e he
    exact ⟨g, hg, h1.trans h2⟩
  · intro hl
    rw [h'.lock (h.locked.trans hl), h.lock hl]

/-- Invariant of a data source. -/
structure SInv (s : DS) : Prop where
  names : (s.sigs.map fun d => d.name).Nodup
  typed : ∀ d ∈ s.sigs, DTyped d

theorem set_names (l : List DSig) (i : Nat) (d d' : DSig) (h : l[i]? = some d) (hn : d'.name = d.name) :
    (l.set i d').map (fun d => d.name) = l.map (fun d => d.name) := by
  induction l generalizing i with
  | nil => rfl
  | cons x xs ih =>
    cases i with
    | zero => simp only [List.getElem?_cons_zero, Option.some.injEq] at h; subst h; simp [hn]
    | succ i => simp only [List.getElem?_cons_succ] at h; simp [ih i h]

theorem set_mem_le (l : List DSig) (i : Nat) (d d' : DSig) (h : l[i]? = some d) (hd : DLe d d') :
    ∀ e ∈ l, ∃ e' ∈ l.set i d', DLe e e' := by
  intro e he
  obtain ⟨j, hj⟩ := List.mem_iff_getElem?.mp he
  by_cases hij : i = j
  · subst hij
    rw [h] at hj
    cases hj
    have hlt : i < l.length := by
      rcases Nat.lt_or_ge i l.length with hl | hl
      · exact hl
      · rw [List.getElem?_eq_none hl] at h; cases h
    exact ⟨d', List.mem_of_getElem? (by rw [List.getElem?_set]; simp [hlt] : (l.set i d')[i]? = some d'), hd⟩
  · exact ⟨e, List.mem_of_getElem? (by rw [List.getElem?_set, if_neg hij]; exact hj : (l.set i d')[j]? = some e), DLe.refl e⟩

theorem mem_set {l : List DSig} {i : Nat} {d' e : DSig} (h : e ∈ l.set i d') : e ∈ l ∨ e = d' := by
  rcases List.mem_or_eq_of_mem_set h with h | h
  · exact Or.inl h
  · exact Or.inr h

structure AFacts (f : FSig) (s : DS) (ok : Bool) (f' : FSig) (s' : DS) (at_ : Option Nat) : Prop where
  fle : FLe f f'
  sle : SLe s s'
  stray : s'.stray = s.stray
  inv : FTyped f → SInv s → SInv s'
  node : ∀ i, at_ = some i → ∃ d, s'.sigs[i]? = some d ∧ d.name = wanted f ∧
    (FTyped f → SInv s → f'.ty ≠ none → d.ty ≠ none) ∧ (ok = true → f'.ty = d.ty ∧ f'.elems = d.elems)
  found : ok = true → at_ ≠ none

theorem addSignal_facts (f : FSig) (s : DS) :
    AFacts f s (addSignal f s).1 (addSignal f s).2.1 (addSignal f s).2.2.1 (addSignal f s).2.2.2 := by
  unfold addSignal
  rw [target_eq]
  cases hf : findSig (wanted f) s.sigs with
  | some i =>
    obtain ⟨d, hd, hn⟩ := findSig_some hf
    dsimp only
    rw [hd]
    dsimp only
    split
    · rename_i hc
      refine ⟨FLe.refl f, SLe.refl s, rfl, fun _ h => h, ?_, by simp⟩
      intro j hj
      cases hj
      refine ⟨d, hd, hn, fun _ hi _ => (hi.typed d (List.mem_of_getElem? hd)).full hc.2.1, by simp⟩
    · have hm := mergeProps_facts f d
      generalize mergeProps f d = r at hm
      obtain ⟨ok, f', d'⟩ := r
      dsimp only at hm ⊢
      have hlt : i < s.sigs.length := by
        rcases Nat.lt_or_ge i s.sigs.length with hl | hl
        · exact hl
        · rw [List.getElem?_eq_none hl] at hd; cases hd
      refine ⟨hm.fle, ⟨rfl, rfl, rfl, fun h => h, set_mem_le _ _ _ _ hd hm.dle, fun _ => set_names _ _ _ _ hd hm.dle.name⟩, rfl, ?_, ?_, by simp⟩
      · intro hft hi
        refine ⟨by show ((s.sigs.set i d').map _).Nodup; rw [set_names _ _ _ _ hd hm.dle.name]; exact hi.names, ?_⟩
        intro e he
        rcases mem_set he with he | rfl
        · exact hi.typed e he
        · exact hm.typed hft (hi.typed d (List.mem_of_getElem? hd))
      · intro j hj
        cases hj
        refine ⟨d', by rw [List.getElem?_set]; simp [hlt], hm.dle.name.trans hn, fun _ _ h h' => h (hm.both.mpr h'), ?_⟩
        intro ho
        exact ⟨(hm.agree ho).1, (hm.agree ho).2.1⟩
  | none =>
    dsimp only
    split
    · exact ⟨FLe.refl f, SLe.refl s, rfl, fun _ h => h, by simp, by simp⟩
    · rename_i hl
      have hm := mergeProps_facts f ⟨wanted f, none, [], none, none, none, none, []⟩
      generalize mergeProps f ⟨wanted f, none, [], none, none, none, none, []⟩ = r at hm
      obtain ⟨ok, f', d'⟩ := r
      dsimp only at hm ⊢
      refine ⟨hm.fle, ⟨rfl, rfl, rfl, fun h => h, fun d hd => ⟨d, List.mem_append_left _ hd, DLe.refl d⟩, fun h => absurd h hl⟩, rfl, ?_, ?_, by simp⟩
      · intro hft hi
        refine ⟨?_, ?_⟩
        · show ((s.sigs ++ [d']).map _).Nodup
          rw [List.map_append, List.nodup_append]
          refine ⟨hi.names, by simp, ?_⟩
          intro a ha b hb
          simp only [List.map_cons, List.map_nil, List.mem_singleton] at hb
          subst hb
          obtain ⟨e, he, rfl⟩ := List.mem_map.mp ha
          have := findSig_none hf e he
          intro h
          apply this
          rw [h]
          exact hm.dle.name
        · intro e he
          rcases List.mem_append.mp he with he | he
          · exact hi.typed e he
          · simp only [List.mem_singleton] at he
            subst he
            exact hm.typed hft ⟨by simp, by simp⟩
      · intro j hj
        cases hj
        refine ⟨d', by simp, hm.dle.name, fun _ _ h h' => h (hm.both.mpr h'), ?_⟩
        intro ho
        exact ⟨(hm.agree ho).1, (hm.agree ho).2.1⟩

end Verif.AppBuild
