import Verif.Proof.AppBuild4
set_option linter.unusedSimpArgs false
set_option linter.unusedVariables false
/-! Proofs for C57: types of structures. -/
namespace Verif.AppBuild
open Spec

theorem addSignal_same {f : FSig} {s : DS} {d : DSig} (hi : (s.sigs.map fun d => d.name).Nodup) (hd : d ∈ s.sigs) (hn : d.name = wanted f)
    (hf : f.fullType ≠ []) (hc : Complete d.fullType) (ho : (addSignal f s).1 = true) :
    f.fullType = d.fullType ∨ SameTypes d.name f.fullType d.fullType := by
  unfold addSignal at ho
  rw [target_eq] at ho
  cases hfind : findSig (wanted f) s.sigs with
  | none => exact absurd hn (findSig_none hfind d hd)
  | some i =>
    obtain ⟨e, he, hen⟩ := findSig_some hfind
    have hed : e = d := nodup_map_inj (fun d : DSig => d.name) hi e (List.mem_of_getElem? he) d hd (hen.trans hn.symm)
    subst hed
    rw [hfind] at ho
    dsimp only at ho
    rw [he] at ho
    dsimp only at ho
    split at ho
    · cases ho
    · rename_i hcc
      have : compatible f.fullType e.fullType (wanted f) e.name = true := by
        cases hh : compatible f.fullType e.fullType (wanted f) e.name with
        | true => rfl
        | false => exact absurd ⟨hf, hc.1, hh⟩ hcc
      unfold compatible at this
      split at this
      · rename_i h; exact Or.inl h
      · rw [← hn] at this
        exact Or.inr ((compatLoop_same _ _ _).mp this)

/-- The data sources after others, with a signal of a complete full type. -/
theorem resolveSig_same {bits : Types} {states : List String} {p : Bool} {k j : Nat} {f : FSig} {memory : Nat} {ss ss' : List DS} {m : RSig}
    (h : resolveSig bits states p k j f memory ss = some (m, ss')) (hnd : (ss.map fun s => s.name).Nodup)
    (hi : ∀ s ∈ ss, (s.sigs.map fun d => d.name).Nodup) {s : DS} {d : DSig} (hs : s ∈ ss) (hd : d ∈ s.sigs) (hc : Complete d.fullType)
    (hds : f.ds = s.name) (hn : d.name = wanted f) (he : f.elems ≠ none) (hf : f.fullType ≠ []) :
    f.fullType = d.fullType ∨ SameTypes d.name f.fullType d.fullType := by
  induction ss generalizing ss' m with
  | nil => cases hs
  | cons t ss ih =>
    rw [resolveSig] at h
    rw [List.map_cons, List.nodup_cons] at hnd
    split at h
    · rename_i htn
      have hst : s = t := by
        rcases List.mem_cons.mp hs with h | h
        · exact h
        · exact absurd (List.mem_map.mpr ⟨s, h, by rw [htn, hds]⟩) hnd.1
      subst hst
      dsimp only at h
      have ha := addSignal_facts f s
      have hsame := addSignal_same (hi s (by simp)) hd hn hf hc
      generalize addSignal f s = r at h ha hsame
      obtain ⟨ok, f₁, s₁, a⟩ := r
      dsimp only at h ha hsame
      have hdf := defaults_facts ok f₁
      generalize defaults ok f₁ = q at h hdf
      obtain ⟨ok₂, f₂⟩ := q
      dsimp only at h hdf
      split at h
      · cases h
      · rename_i hok
        have hok : ok₂ = true := by simpa using hok
        exact hsame (hdf.2.2 hok (by rw [ha.fle.elems he]; exact he))
    · rename_i htn
      have hs' : s ∈ ss := by
        rcases List.mem_cons.mp hs with h | h
        · subst h; exact absurd hds.symm htn
        · exact h
      cases hr : resolveSig bits states p k j f memory ss with
      | none => rw [hr] at h; cases h
      | some r =>
        obtain ⟨m₀, ss₁⟩ := r
        exact ih hr hnd.2 (fun s hs => hi s (List.mem_cons_of_mem _ hs)) hs'

/-- The data sources have a signal with this full type. -/
structure Has (ss : List DS) (ds : String) (sig : Name) (full : List String) : Prop where
  names : (ss.map fun s => s.name).Nodup
  inv : ∀ s ∈ ss, SInv s
  sig : ∃ s ∈ ss, s.name = ds ∧ ∃ d ∈ s.sigs, d.name = sig ∧ d.fullType = full

theorem Has.grown {ss ss' : List DS} {ds : String} {sig : Name} {full : List String} (h : Has ss ds sig full) (hc : Complete full)
    (g : Grown ss ss') (hi : ∀ s ∈ ss', SInv s) : Has ss' ds sig full := by
  obtain ⟨h1, h2, s, hs, hn, d, hd, hdn, hdf⟩ := h
  obtain ⟨s', hs', hl⟩ := g.le s hs
  obtain ⟨d', hd', hdl⟩ := hl.sigs d hd
  exact ⟨by rw [g.names]; exact h1, hi, s', hs', hl.name.trans hn, d', hd', hdl.name.trans hdn, by rw [hdl.full (by rw [hdf]; exact hc), hdf]⟩

theorem resolveSigs_same {bits : Types} {states : List String} {p : Bool} {k : Nat} {ds : String} {sig : Name} {full : List String}
    (hc : Complete full) (fs : List FSig) :
    ∀ {j memory : Nat} {ss ss' : List DS} {rs : List RSig} {total : Nat},
    resolveSigs bits states p k j memory fs ss = some (rs, total, ss') → (∀ f ∈ fs, FTyped f) → Has ss ds sig full →
    Has ss' ds sig full ∧ ∀ f ∈ fs, f.ds = ds → wanted f = sig → f.elems ≠ none → f.fullType ≠ [] →
      f.fullType = full ∨ SameTypes sig f.fullType full := by
  induction fs with
  | nil =>
    intro j memory ss ss' rs total h _ hh
    simp only [resolveSigs, Option.some.injEq, Prod.mk.injEq] at h
    obtain ⟨rfl, rfl, rfl⟩ := h
    exact ⟨hh, by simp⟩
  | cons f fs ih =>
    intro j memory ss ss' rs total h ht hh
    rw [resolveSigs] at h
    cases h1 : resolveSig bits states p k j f memory ss with
    | none => rw [h1] at h; cases h
    | some x =>
      obtain ⟨r, ss₁⟩ := x
      rw [h1] at h
      dsimp only at h
      cases h2 : resolveSigs bits states p k (j + 1) ((memory + r.byteSize * r.samples % 2 ^ 32) % 2 ^ 32) fs ss₁ with
      | none => rw [h2] at h; cases h
      | some y =>
        obtain ⟨rs₁, t₁, ss₂⟩ := y
        rw [h2] at h
        simp only [Option.some.injEq, Prod.mk.injEq] at h
        obtain ⟨rfl, rfl, rfl⟩ := h
        have hs := resolveSig_step h1
        have hh1 := hh.grown hc ⟨hs.le, hs.ge, hs.names⟩ (hs.inv (ht f (by simp)) hh.inv)
        obtain ⟨i1, i2⟩ := ih h2 (fun g hg => ht g (List.mem_cons_of_mem _ hg)) hh1
        refine ⟨i1, ?_⟩
        intro g hg e1 e2 e3 e4
        rcases List.mem_cons.mp hg with rfl | hg
        · obtain ⟨a1, a2, s, b1, b2, d, b3, b4, b5⟩ := hh
          have := resolveSig_same h1 a1 (fun s hs => (a2 s hs).names) b1 b3 (by rw [b5]; exact hc) (e1.trans b2.symm) (b4.trans e2.symm) e3 e4
          rw [b4, b5] at this
          exact this
        · exact i2 g hg e1 e2 e3 e4

theorem resolve_same {bits : Types} {ds : String} {sig : Name} {full : List String} (hc : Complete full) (fns : List Fn) :
    ∀ {k : Nat} {ss ss' : List DS} {rs : List RFn}, resolve bits k fns ss = some (rs, ss') → AllTyped fns → Has ss ds sig full →
    ∀ fn ∈ fns, ∀ f, f ∈ fn.ins ∨ f ∈ fn.outs → f.ds = ds → wanted f = sig → f.elems ≠ none → f.fullType ≠ [] →
      f.fullType = full ∨ SameTypes sig f.fullType full := by
  induction fns with
  | nil => intro k ss ss' rs _ _ _ fn hfn; cases hfn
  | cons fn fns ih =>
    intro k ss ss' rs h ha hh g hg f hf e1 e2 e3 e4
    rw [resolve] at h
    cases h1 : resolveSigs bits fn.states false k 0 0 fn.ins ss with
    | none => rw [h1] at h; cases h
    | some x =>
      obtain ⟨ins, isz, ss₁⟩ := x
      rw [h1] at h
      dsimp only at h
      cases h2 : resolveSigs bits fn.states true k 0 0 fn.outs ss₁ with
      | none => rw [h2] at h; cases h
      | some x =>
        obtain ⟨outs, osz, ss₂⟩ := x
        rw [h2] at h
        dsimp only at h
        cases h3 : resolve bits (k + 1) fns ss₂ with
        | none => rw [h3] at h; cases h
        | some y =>
          obtain ⟨a1, a2⟩ := resolveSigs_same hc _ h1 (ha.ins fn (by simp)) hh
          obtain ⟨b1, b2⟩ := resolveSigs_same hc _ h2 (ha.outs fn (by simp)) a1
          rcases List.mem_cons.mp hg with rfl | hg
          · rcases hf with hf | hf
            · exact a2 f hf e1 e2 e3 e4
            · exact b2 f hf e1 e2 e3 e4
          · exact ih h3 ⟨fun g hg => ha.ins g (List.mem_cons_of_mem _ hg), fun g hg => ha.outs g (List.mem_cons_of_mem _ hg)⟩ b1 g hg f hf
              e1 e2 e3 e4

end Verif.AppBuild
