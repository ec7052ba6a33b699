import Verif.Proof.AppBuild3
set_option linter.unusedSimpArgs false
set_option linter.unusedVariables false
/-! Proofs for C57: consistent configurations are accepted. -/
namespace Verif.AppBuild
open Spec

theorem mergeProp_same {α : Type} [DecidableEq α] (x : Option α) : mergeProp x x = (true, x, x) := by
  cases x <;> simp [mergeProp]

theorem mergeProp_new {α : Type} [DecidableEq α] (x : Option α) : mergeProp x none = (true, x, x) := by
  cases x <;> simp [mergeProp]

theorem replaceLoop_same (l : List String) : replaceLoop l l = (true, false) := by
  induction l with
  | nil => rfl
  | cons a l ih =>
    rw [replaceLoop]
    split
    · exact ih
    · rename_i h
      simp at h
      simp [h]

theorem mergeFull_same (l : List String) : mergeFull l l = (true, l) := by
  unfold mergeFull
  by_cases h : l = []
  · simp [h]
  · simp [h, replaceLoop_same]

theorem mergeProps_same (f : FSig) (d : DSig) (p : Profile) (hf : Says f p) (hd : Declares d p) : mergeProps f d = (true, f, d) := by
  obtain ⟨a1, a2, a3, a4, a5, a6⟩ := hf
  obtain ⟨b1, b2, b3, b4, b5, b6⟩ := hd
  unfold mergeProps
  simp only [a1, a2, a3, a4, a5, a6, b1, b2, b3, b4, b5, b6, mergeProp_same, mergeFull_same]
  cases f; cases d
  simp_all

theorem mergeProps_new (f : FSig) (n : Name) : mergeProps f ⟨n, none, [], none, none, none, none, []⟩ =
    (true, f, ⟨n, f.ty, f.fullType, f.dims, f.elems, f.dflt, f.member, []⟩) := by
  unfold mergeProps
  simp only [mergeProp_new, mergeFull]
  simp

/-- Places before `(K, J)`. -/
def Before (K J : Nat) (u : Use) : Prop := u.fn < K ∨ (u.fn = K ∧ u.sig < J)

/-- A use is what the configuration says. -/
def UseOk (fns : List Fn) (ds : String) (n : Name) (u : Use) : Prop :=
  ∃ fn, fns[u.fn]? = some fn ∧ u.state ∈ fn.states ∧
    (u.producer = true → ∃ f, fn.outs[u.sig]? = some f ∧ f.ds = ds ∧ wanted f = n)

def Distinct (u v : Use) : Prop := u.state = v.state → u.producer = true → v.producer = true → (u.fn, u.sig) ≠ (v.fn, v.sig)

structure DOk (fns : List Fn) (T : String → Name → Profile) (K J : Nat) (ds : String) (d : DSig) : Prop where
  says : Declares d (T ds d.name)
  named : d.name ≠ []
  uses : ∀ u ∈ d.uses, UseOk fns ds d.name u
  before : ∀ u ∈ d.uses, u.producer = true → Before K J u
  distinct : d.uses.Pairwise Distinct

structure SOk (fns : List Fn) (T : String → Name → Profile) (K J : Nat) (s : DS) : Prop where
  stray : s.stray = false
  sigs : ∀ d ∈ s.sigs, DOk fns T K J s.name d

theorem DOk.weaken {fns : List Fn} {T : String → Name → Profile} {K J K' J' : Nat} {ds : String} {d : DSig} (h : DOk fns T K J ds d)
    (hk : ∀ u, Before K J u → Before K' J' u) : DOk fns T K' J' ds d :=
  ⟨h.says, h.named, h.uses, fun u hu hp => hk u (h.before u hu hp), h.distinct⟩

theorem SOk.weaken {fns : List Fn} {T : String → Name → Profile} {K J K' J' : Nat} {s : DS} (h : SOk fns T K J s)
    (hk : ∀ u, Before K J u → Before K' J' u) : SOk fns T K' J' s :=
  ⟨h.stray, fun d hd => (h.sigs d hd).weaken hk⟩

/-- The conditions on one signal of a function. -/
structure FOk (bits : Types) (T : String → Name → Profile) (f : FSig) : Prop where
  says : Says f (T f.ds (wanted f))
  named : wanted f ≠ []
  samples : f.samples ≠ some 0
  ranges : ∀ rs, f.ranges = some rs → ∀ r ∈ rs, r.1 ≤ r.2 ∧ r.2 < (T f.ds (wanted f)).elems
  basic : bits (T f.ds (wanted f)).ty ≠ none

theorem memorySize_ok {bits : Types} {T : String → Name → Profile} {f : FSig} (h : FOk bits T f) (mem : Nat) :
    ∃ m, memorySize bits f mem = some m := by
  obtain ⟨a1, a2, a3, a4, a5, a6⟩ := h.says
  have hb := h.basic
  have hr := h.ranges
  generalize T f.ds (wanted f) = p at *
  cases hb' : bits p.ty with
  | none => exact absurd hb' hb
  | some b =>
    unfold memorySize
    rw [a4, a1]
    dsimp only
    rw [hb']
    dsimp only
    have fin : ∀ o : Nat × List (Nat × Nat), ∃ m, (match f.samples with
        | some 0 => none
        | some (n + 1) => some (⟨f, o.1, o.2, n + 1, mem⟩ : RSig)
        | none => some ⟨f, o.1, o.2, 1, mem⟩) = some m := by
      intro o
      cases hs : f.samples with
      | none => exact ⟨_, rfl⟩
      | some k =>
        cases k with
        | zero => exact absurd hs h.samples
        | succ k => exact ⟨_, rfl⟩
    cases hrr : f.ranges with
    | none => exact fin (_, _)
    | some rs =>
      cases rs with
      | nil => exact fin (_, _)
      | cons x xs =>
        dsimp only
        cases hbo : byteOffsets b p.elems (x :: xs) with
        | none => exact absurd hbo (byteOffsets_ok _ (hr _ hrr))
        | some l => exact fin (_, _)

theorem DOk.add {fns : List Fn} {T : String → Name → Profile} {K J K' J' : Nat} {ds : String} {d : DSig} (h : DOk fns T K J ds d)
    (hk : ∀ u, Before K J u → Before K' J' u) (states : List String) (p : Bool) (k j : Nat) (hnd : states.Nodup)
    (huse : ∀ st ∈ states, UseOk fns ds d.name ⟨st, p, k, j⟩) (hb' : p = true → Before K' J' ⟨"", p, k, j⟩)
    (hnb : p = true → ¬ Before K J ⟨"", p, k, j⟩) :
    DOk fns T K' J' ds { d with uses := d.uses ++ states.map fun st => ⟨st, p, k, j⟩ } := by
  refine ⟨h.says, h.named, ?_, ?_, ?_⟩
  · intro u hu
    rcases List.mem_append.mp hu with hu | hu
    · exact h.uses u hu
    · obtain ⟨st, hst, rfl⟩ := List.mem_map.mp hu
      exact huse st hst
  · intro u hu hp
    rcases List.mem_append.mp hu with hu | hu
    · exact hk u (h.before u hu hp)
    · obtain ⟨st, hst, rfl⟩ := List.mem_map.mp hu
      exact hb' hp
  · show (d.uses ++ _).Pairwise Distinct
    rw [List.pairwise_append]
    refine ⟨h.distinct, ?_, ?_⟩
    · rw [List.pairwise_map]
      refine List.Pairwise.imp ?_ hnd
      intro a b hab hst
      exact absurd hst hab
    · intro u hu v hv hst hpu hpv heq
      obtain ⟨st, _, rfl⟩ := List.mem_map.mp hv
      have hb := h.before u hu hpu
      apply hnb hpv
      unfold Before at hb ⊢
      simp only [Prod.mk.injEq] at heq
      dsimp only at heq ⊢
      rw [← heq.1, ← heq.2]
      exact hb

/-- One signal of a consistent configuration. -/
theorem resolveSig_ok {bits : Types} {T : String → Name → Profile} {fns : List Fn} {K J K' J' : Nat} {f : FSig} (hf : FOk bits T f)
    (states : List String) (hnd : states.Nodup) (p : Bool) (k j mem : Nat) (hk : ∀ u, Before K J u → Before K' J' u)
    (huse : ∀ st ∈ states, UseOk fns f.ds (wanted f) ⟨st, p, k, j⟩)
    (hb' : p = true → Before K' J' ⟨"", p, k, j⟩) (hnb : p = true → ¬ Before K J ⟨"", p, k, j⟩) (ss : List DS) :
    (∀ s ∈ ss, SOk fns T K J s) → (∃ s ∈ ss, s.name = f.ds) →
    (∀ s ∈ ss, s.name = f.ds → s.locked = true → ∃ d ∈ s.sigs, d.name = wanted f) →
    ∃ m ss', resolveSig bits states p k j f mem ss = some (m, ss') ∧ ∀ s ∈ ss', SOk fns T K' J' s := by
  induction ss with
  | nil => intro _ h; simp at h
  | cons s ss ih =>
    intro hok hex hlk
    rw [resolveSig]
    by_cases hn : s.name = f.ds
    · rw [if_pos hn]
      have hs := hok s (by simp)
      have rest : ∀ t ∈ ss, SOk fns T K' J' t := fun t ht => (hok t (List.mem_cons_of_mem _ ht)).weaken hk
      have hadd : ∃ d s₁ i, addSignal f s = (true, f, s₁, some i) ∧ s₁.stray = false ∧ s₁.name = s.name ∧ s₁.sigs[i]? = some d ∧
          d.name = wanted f ∧ ∀ e ∈ s₁.sigs, DOk fns T K J s.name e := by
        unfold addSignal
        rw [target_eq]
        cases hfs : findSig (wanted f) s.sigs with
        | some i =>
          obtain ⟨d, hd, hdn⟩ := findSig_some hfs
          have hdo := hs.sigs d (List.mem_of_getElem? hd)
          have hsays : Declares d (T f.ds (wanted f)) := by rw [← hn, ← hdn]; exact hdo.says
          dsimp only
          rw [hd]
          dsimp only
          rw [if_neg (by
            rintro ⟨_, _, hc⟩
            rw [hf.says.2.1, hsays.2.1] at hc
            simp [compatible] at hc), mergeProps_same f d _ hf.says hsays]
          have hset : s.sigs.set i d = s.sigs := by
            apply List.ext_getElem?
            intro q
            rw [List.getElem?_set]
            by_cases hiq : i = q
            · subst hiq
              have hlt : i < s.sigs.length := by
                rcases Nat.lt_or_ge i s.sigs.length with hl | hl
                · exact hl
                · rw [List.getElem?_eq_none hl] at hd; cases hd
              simp only [if_true, hlt]
              exact hd.symm
            · simp [hiq]
          refine ⟨d, _, i, rfl, hs.stray, rfl, ?_, hdn, ?_⟩
          · dsimp only; rw [hset]; exact hd
          · dsimp only; rw [hset]; exact hs.sigs
        | none =>
          dsimp only
          have hnl : s.locked = false := by
            cases hl : s.locked with
            | false => rfl
            | true =>
              obtain ⟨d, hd, hdn⟩ := hlk s (by simp) hn hl
              exact absurd hdn (findSig_none hfs d hd)
          rw [if_neg (by simp [hnl]), mergeProps_new]
          refine ⟨⟨wanted f, f.ty, f.fullType, f.dims, f.elems, f.dflt, f.member, []⟩, _, _, rfl, hs.stray, rfl, by simp, rfl, ?_⟩
          intro e he
          rcases List.mem_append.mp he with he | he
          · exact hs.sigs e he
          · simp only [List.mem_singleton] at he
            subst he
            obtain ⟨a1, a2, a3, a4, a5, a6⟩ := hf.says
            refine ⟨?_, hf.named, by simp, by simp, by simp⟩
            dsimp only
            rw [hn]
            exact ⟨a1, a2, a3, a4, a5, a6⟩
      obtain ⟨d, s₁, i, h1, h2, h3, h4, h5, h6⟩ := hadd
      have hdef : defaults true f = (true, f) := by
        obtain ⟨a1, a2, a3, a4, a5, a6⟩ := hf.says
        unfold defaults
        simp [a3, a4]
      obtain ⟨m, hm⟩ := memorySize_ok hf mem
      rw [h1]
      dsimp only
      rw [hdef]
      dsimp only
      rw [if_neg (by simp), hm]
      refine ⟨m, _, rfl, ?_⟩
      intro t ht
      rcases List.mem_cons.mp ht with rfl | ht
      · unfold addUses
        by_cases hu : (states.map fun st => (⟨st, p, k, j⟩ : Use)) = []
        · rw [if_pos hu]
          exact ⟨h2, fun e he => by rw [h3]; exact (h6 e he).weaken hk⟩
        · rw [if_neg hu]
          dsimp only
          rw [modify_as_set _ _ _ _ h4]
          refine ⟨h2, ?_⟩
          intro e he
          show DOk fns T K' J' s₁.name e
          rw [h3]
          rcases mem_set he with he | rfl
          · exact (h6 e he).weaken hk
          · exact (h6 d (List.mem_of_getElem? h4)).add hk states p k j hnd (by rw [h5, hn]; exact huse) hb' hnb
      · exact rest t ht
    · rw [if_neg hn]
      obtain ⟨m, ss', h1, h2⟩ := ih (fun t ht => hok t (List.mem_cons_of_mem _ ht))
        (by
          obtain ⟨t, ht, htn⟩ := hex
          rcases List.mem_cons.mp ht with rfl | ht
          · exact absurd htn hn
          · exact ⟨t, ht, htn⟩)
        (fun t ht => hlk t (List.mem_cons_of_mem _ ht))
      rw [h1]
      refine ⟨m, s :: ss', rfl, ?_⟩
      intro t ht
      rcases List.mem_cons.mp ht with rfl | ht
      · exact (hok t (by simp)).weaken hk
      · exact h2 t ht

/-- What is asked of the data sources stays when they grow. -/
theorem has_mono {dss ss : List DS} (hg : Grown dss ss) {f : FSig} (h : ∃ s ∈ dss, s.name = f.ds ∧ (s.locked = true → ∃ d ∈ s.sigs, d.name = wanted f))
    (hnd : (dss.map fun s => s.name).Nodup) :
    (∃ s ∈ ss, s.name = f.ds) ∧ (∀ s ∈ ss, s.name = f.ds → s.locked = true → ∃ d ∈ s.sigs, d.name = wanted f) := by
  obtain ⟨s, hs, hn, hl⟩ := h
  refine ⟨?_, ?_⟩
  · obtain ⟨s', hs', hle⟩ := hg.le s hs
    exact ⟨s', hs', hle.name.trans hn⟩
  · intro t ht htn htl
    obtain ⟨t₀, ht₀, hle⟩ := hg.ge t ht
    have : t₀ = s := nodup_map_inj (fun s : DS => s.name) hnd t₀ ht₀ s hs (by rw [hn, ← htn, hle.name])
    subst this
    obtain ⟨d, hd, hdn⟩ := hl (by rw [← hle.locked]; exact htl)
    obtain ⟨d', hd', hdl⟩ := hle.sigs d hd
    exact ⟨d', hd', hdl.name.trans hdn⟩

theorem resolveSigs_ok {bits : Types} {T : String → Name → Profile} {fns : List Fn} {dss : List DS} (hnd : (dss.map fun s => s.name).Nodup)
    (states : List String) (hst : states.Nodup) (p : Bool) (k : Nat) (fs : List FSig) :
    ∀ (j mem : Nat) (ss : List DS), Grown dss ss → (∀ f ∈ fs, FOk bits T f) →
    (∀ f ∈ fs, ∃ s ∈ dss, s.name = f.ds ∧ (s.locked = true → ∃ d ∈ s.sigs, d.name = wanted f)) →
    (∀ (i : Nat) f, fs[i]? = some f → ∀ st ∈ states, UseOk fns f.ds (wanted f) ⟨st, p, k, j + i⟩) →
    (∀ s ∈ ss, SOk fns T k (if p then j else 0) s) →
    ∃ rs total ss', resolveSigs bits states p k j mem fs ss = some (rs, total, ss') ∧
      ∀ s ∈ ss', SOk fns T k (if p then j + fs.length else 0) s := by
  induction fs with
  | nil =>
    intro j mem ss hg _ _ _ hok
    exact ⟨[], mem, ss, rfl, by simpa using hok⟩
  | cons f fs ih =>
    intro j mem ss hg hf hex huse hok
    have hm := has_mono hg (hex f (by simp)) hnd
    obtain ⟨m, ss₁, h1, h2⟩ := resolveSig_ok (K' := k) (J' := if p then j + 1 else 0) (hf f (by simp)) states hst p k j mem
      (by intro u hu; unfold Before at *; cases p <;> simp_all <;> omega)
      (by intro st hst'; have := huse 0 f rfl st hst'; rwa [Nat.add_zero] at this)
      (by intro hp; subst hp; unfold Before; simp)
      (by intro hp; subst hp; unfold Before; simp) ss hok hm.1 hm.2
    have hs := resolveSig_step h1
    obtain ⟨rs, total, ss₂, h3, h4⟩ := ih (j + 1) ((mem + m.byteSize * m.samples % 2 ^ 32) % 2 ^ 32) ss₁
      (hg.trans ⟨hs.le, hs.ge, hs.names⟩) (fun g hg => hf g (List.mem_cons_of_mem _ hg)) (fun g hg => hex g (List.mem_cons_of_mem _ hg))
      (by
        intro i g hg' st hst'
        have := huse (i + 1) g (by simpa using hg') st hst'
        rwa [show j + (i + 1) = j + 1 + i by omega] at this)
      h2
    rw [resolveSigs, h1]
    dsimp only
    rw [h3]
    refine ⟨_, _, _, rfl, ?_⟩
    rw [List.length_cons, show j + (fs.length + 1) = j + 1 + fs.length by omega]
    exact h4

theorem resolve_ok {bits : Types} {T : String → Name → Profile} {all : List Fn} {dss : List DS} (hc : Consistent bits T all dss)
    (hnd : (dss.map fun s => s.name).Nodup) (fns : List Fn) :
    ∀ (k : Nat) (ss : List DS), Grown dss ss → (∀ (i : Nat) fn, fns[i]? = some fn → all[k + i]? = some fn) → (∀ s ∈ ss, SOk all T k 0 s) →
    ∃ rs ss', resolve bits k fns ss = some (rs, ss') ∧ ∃ K, ∀ s ∈ ss', SOk all T K 0 s := by
  induction fns with
  | nil => intro k ss hg _ hok; exact ⟨[], ss, rfl, k, hok⟩
  | cons fn fns ih =>
    intro k ss hg hall hok
    have hfn : all[k]? = some fn := hall 0 fn rfl
    have hmem : fn ∈ all := List.mem_of_getElem? hfn
    have hfok : ∀ f, f ∈ fn.ins ∨ f ∈ fn.outs → FOk bits T f := by
      intro f hf
      obtain ⟨h1, h2, h3, h4, _⟩ := hc.funs fn hmem f hf
      exact ⟨h1, h2, h3, h4, (hc.basic _ _).1⟩
    have hex : ∀ f, f ∈ fn.ins ∨ f ∈ fn.outs → ∃ s ∈ dss, s.name = f.ds ∧ (s.locked = true → ∃ d ∈ s.sigs, d.name = wanted f) :=
      fun f hf => (hc.funs fn hmem f hf).2.2.2.2
    obtain ⟨ins, isz, ss₁, h1, h2⟩ := resolveSigs_ok (fns := all) hnd fn.states (hc.states fn hmem) false k fn.ins 0 0 ss hg
      (fun f hf => hfok f (Or.inl hf)) (fun f hf => hex f (Or.inl hf))
      (fun i f hf st hst => ⟨fn, hfn, hst, by simp⟩) (by simpa using hok)
    have g1 := (resolveSigs_facts _ h1).1
    obtain ⟨outs, osz, ss₂, h3, h4⟩ := resolveSigs_ok (fns := all) hnd fn.states (hc.states fn hmem) true k fn.outs 0 0 ss₁ (hg.trans g1)
      (fun f hf => hfok f (Or.inr hf)) (fun f hf => hex f (Or.inr hf))
      (fun i f hf st hst => ⟨fn, hfn, hst, fun _ => ⟨f, by simpa using hf, rfl, rfl⟩⟩) (by simpa using h2)
    have g2 := (resolveSigs_facts _ h3).1
    obtain ⟨rs, ss₃, h5, K, h6⟩ := ih (k + 1) ss₂ ((hg.trans g1).trans g2)
      (by
        intro i g hg'
        have := hall (i + 1) g (by simpa using hg')
        rwa [show k + (i + 1) = k + 1 + i by omega] at this)
      (fun s hs => (h4 s hs).weaken (by intro u hu; unfold Before at *; omega))
    rw [resolve, h1]
    dsimp only
    rw [h3]
    dsimp only
    rw [h5]
    exact ⟨_, _, rfl, K, h6⟩

theorem verifySigs_ok {bits : Types} (ds : List DSig) : ∀ (done : List VSig),
    (∀ d ∈ ds, d.name ≠ [] ∧ d.ty.bind bits ≠ none ∧ d.elems ≠ none ∧ d.elems ≠ some 0) → ∃ vs, verifySigs bits done ds = some vs := by
  induction ds with
  | nil => intro done _; exact ⟨done, rfl⟩
  | cons d ds ih =>
    intro done h
    obtain ⟨h1, h2, h3, h4⟩ := h d (by simp)
    rw [verifySigs, if_neg h1]
    cases hb : d.ty.bind bits with
    | none => exact absurd hb h2
    | some b =>
      dsimp only
      cases he : d.elems with
      | none => exact absurd he h3
      | some n =>
        cases n with
        | zero => exact absurd he h4
        | succ n => exact ih _ (fun e he => h e (List.mem_cons_of_mem _ he))

theorem producersRanges_ok {rs : List RFn} (Q : Nat × Nat → Prop) (P : Nat × Nat → Nat × Nat → Prop) (us : List Use) :
    (∀ u ∈ us, ∃ R r q, rs[u.fn]? = some R ∧ R.outs[u.sig]? = some r ∧ r.sig.ranges = some q ∧ q.Pairwise P) →
    (us.Pairwise fun u w => ∀ R r q R' r' q', rs[u.fn]? = some R → R.outs[u.sig]? = some r → r.sig.ranges = some q →
      rs[w.fn]? = some R' → R'.outs[w.sig]? = some r' → r'.sig.ranges = some q' → ∀ a ∈ q, ∀ b ∈ q', P a b) →
    ∃ l, producersRanges rs us = some l ∧ l.Pairwise P ∧ ∀ a ∈ l, ∃ u ∈ us, ∃ R r q, rs[u.fn]? = some R ∧ R.outs[u.sig]? = some r ∧
      r.sig.ranges = some q ∧ a ∈ q := by
  induction us with
  | nil => intro _ _; exact ⟨[], rfl, by simp, by simp⟩
  | cons u us ih =>
    intro h hp
    rw [List.pairwise_cons] at hp
    obtain ⟨l, h1, h2, h3⟩ := ih (fun w hw => h w (List.mem_cons_of_mem _ hw)) hp.2
    obtain ⟨R, r, q, e1, e2, e3, e4⟩ := h u (by simp)
    rw [producersRanges, e1]
    dsimp only
    rw [e2]
    dsimp only
    rw [e3]
    dsimp only
    rw [h1]
    refine ⟨q ++ l, rfl, ?_, ?_⟩
    · rw [List.pairwise_append]
      refine ⟨e4, h2, ?_⟩
      intro a ha b hb
      obtain ⟨w, hw, R', r', q', g1, g2, g3, g4⟩ := h3 b hb
      exact hp.1 w hw R r q R' r' q' e1 e2 e3 g1 g2 g3 a ha b g4
    · intro a ha
      rcases List.mem_append.mp ha with ha | ha
      · exact ⟨u, by simp, R, r, q, e1, e2, e3, ha⟩
      · obtain ⟨w, hw, g⟩ := h3 a ha
        exact ⟨w, List.mem_cons_of_mem _ hw, g⟩

/-- Of a list of more than one, all in pairs, each has another. -/
theorem other_of_pairwise {α : Type} (P : α → α → Prop) (hs : ∀ a b, P a b → P b a) {l : List α} (h : l.Pairwise P) (hl : 1 < l.length) :
    ∀ a ∈ l, ∃ b ∈ l, P a b := by
  match l, hl with
  | x :: y :: zs, _ =>
    rw [List.pairwise_cons] at h
    intro a ha
    rcases List.mem_cons.mp ha with rfl | ha
    · exact ⟨y, by simp, h.1 y (by simp)⟩
    · exact ⟨x, by simp, hs _ _ (h.1 a ha)⟩

theorem build_ok {bits : Types} {T : String → Name → Profile} {fns : List Fn} {dss : List DS} (check : Bool) (hc : Consistent bits T fns dss)
    (hf : Flat fns dss) (hw : check = true → OneWriter fns) : ∃ rs vs, build bits check fns dss = some (rs, vs) := by
  have h0 : ∀ s ∈ dss, SOk fns T 0 0 s := by
    intro s hs
    refine ⟨(hf.fresh s hs).1, ?_⟩
    intro d hd
    have hu := (hf.fresh s hs).2 d hd
    refine ⟨(hc.sources s hs d hd).1, (hc.sources s hs d hd).2, ?_, ?_, ?_⟩ <;> rw [hu] <;> simp
  obtain ⟨rs, ss, h1, K, h2⟩ := resolve_ok hc hf.dss_names fns 0 dss (Grown.refl _) (by simp) h0
  have hrf := resolve_facts fns h1
  -- every signal keeps its ranges
  have hkeep : ∀ (k j : Nat) fn f, fns[k]? = some fn → fn.outs[j]? = some f → ∃ R r, rs[k]? = some R ∧ R.outs[j]? = some r ∧ r.sig.ranges = f.ranges := by
    intro k j fn f hfn hfo
    obtain ⟨R, e1, e2, e3⟩ := hrf.2.2.2.1 k fn hfn
    have hlen := (e3 .output).1
    have hlt : j < R.outs.length := by
      have : j < fn.outs.length := by
        rcases Nat.lt_or_ge j fn.outs.length with hl | hl
        · exact hl
        · rw [List.getElem?_eq_none hl] at hfo; cases hfo
      have hl' : R.outs.length = fn.outs.length := hlen
      omega
    have hr : R.outs[j]? = some R.outs[j] := List.getElem?_eq_getElem hlt
    have hgood := hrf.2.2.2.2 hf.typed hf.inv k fn R hfn e1 .output j f _ hfo hr
    exact ⟨R, _, e1, hr, hgood.fle.ranges⟩
  have hver : ∀ s ∈ ss, ∃ V, verifyDS bits check rs s = some V := by
    intro s hs
    have hok := h2 s hs
    unfold verifyDS
    rw [if_neg (by simp [hok.stray])]
    obtain ⟨vs, hvs⟩ := verifySigs_ok (bits := bits) s.sigs [] (by
      intro d hd
      have hd' := hok.sigs d hd
      obtain ⟨a1, a2, a3, a4, _⟩ := hd'.says
      refine ⟨hd'.named, ?_, by rw [a4]; simp, ?_⟩
      · rw [a1]
        exact (hc.basic _ _).1
      · rw [a4]
        have := hc.some_elements s.name d.name
        simp
        omega)
    rw [hvs]
    dsimp only
    rw [if_pos ?_]
    · exact ⟨_, rfl⟩
    · apply List.all_eq_true.mpr
      intro v hv
      apply List.all_eq_true.mpr
      intro u hu
      obtain ⟨d, hd, e1, e2, e3, _⟩ : ∃ d ∈ s.sigs, v.sig.name = d.name ∧ v.sig.ty = d.ty ∧ v.sig.uses = d.uses ∧ True := by
        rcases (verifySigs_facts _ hvs).2.2.2 v hv with h | ⟨d, hd, e1, e2, e3, _⟩
        · simp at h
        · exact ⟨d, hd, e1, e2, e3, trivial⟩
      rw [e3] at hu ⊢
      have hdo := hok.sigs d hd
      generalize hst : u.state = st
      unfold verifyState
      have hpm : ∀ w ∈ d.uses.filter (fun u => u.producer && decide (u.state = st)), w ∈ d.uses ∧ w.producer = true ∧ w.state = st := by
        intro w hw
        rw [List.mem_filter] at hw
        simpa using hw
      have hpw : (d.uses.filter fun u => u.producer && decide (u.state = st)).Pairwise Distinct := hdo.distinct.filter _
      generalize d.uses.filter (fun u => u.producer && decide (u.state = st)) = prods at hpm hpw
      dsimp only
      have huse : ∀ w ∈ prods, ∃ fn f, fns[w.fn]? = some fn ∧ st ∈ fn.states ∧ fn.outs[w.sig]? = some f ∧ f.ds = s.name ∧ wanted f = d.name := by
        intro w hw
        obtain ⟨q1, q2, q3⟩ := hpm w hw
        obtain ⟨fn, g1, g2, g3⟩ := hdo.uses w q1
        obtain ⟨f, g4, g5, g6⟩ := g3 q2
        exact ⟨fn, f, g1, by rw [← q3]; exact g2, g4, g5, g6⟩
      split
      · rename_i ht
        cases hp : prods with
        | nil => rfl
        | cons w ws =>
          exfalso
          obtain ⟨fn, f, g1, g2, g4, g5, g6⟩ := huse w (by rw [hp]; simp)
          obtain ⟨s₀, hs₀, hle⟩ := hrf.1.ge s hs
          have := hc.not_timing fn (List.mem_of_getElem? g1) (by intro h; rw [h] at g2; simp at g2) f (List.mem_of_getElem? g4) s₀ hs₀
            (by rw [← hle.name]; exact g5.symm)
          rw [hle.timing, this] at ht
          cases ht
      · split
        · rename_i hcl
          obtain ⟨hch, hlen⟩ := hcl
          have ow := hw hch
          have hpw' : prods.Pairwise (fun u w => (u.fn, u.sig) ≠ (w.fn, w.sig)) := by
            refine List.Pairwise.imp_of_mem ?_ hpw
            intro a b ha hb hd'
            obtain ⟨_, a2, a3⟩ := hpm a ha
            obtain ⟨_, b2, b3⟩ := hpm b hb
            exact hd' (a3.trans b3.symm) a2 b2
          have hoth := other_of_pairwise _ (fun a b h => fun e => h e.symm) hpw' hlen
          have hone : ∀ w ∈ prods, ∃ R r q, rs[w.fn]? = some R ∧ R.outs[w.sig]? = some r ∧ r.sig.ranges = some q ∧ q.Pairwise Apart := by
            intro w hw'
            obtain ⟨w', hw'', hne⟩ := hoth w hw'
            obtain ⟨fn, f, g1, g2, g4, g5, g6⟩ := huse w hw'
            obtain ⟨fn', f', k1, k2, k4, k5, k6⟩ := huse w' hw''
            obtain ⟨q, q', m1, m2, m3, m4⟩ := ow w.fn w'.fn w.sig w'.sig fn fn' f f' g1 k1 g4 k4 hne (g5.trans k5.symm) (g6.trans k6.symm) ⟨st, g2, k2⟩
            obtain ⟨R, r, n1, n2, n3⟩ := hkeep w.fn w.sig fn f g1 g4
            exact ⟨R, r, q, n1, n2, n3.trans m1, m3⟩
          obtain ⟨l, l1, l2, l3⟩ := producersRanges_ok (rs := rs) (fun _ => True) Apart prods hone (by
            refine List.Pairwise.imp_of_mem ?_ hpw'
            intro a b ha hb hne R r q R' r' q' x1 x2 x3 y1 y2 y3
            obtain ⟨fn, f, g1, g2, g4, g5, g6⟩ := huse a ha
            obtain ⟨fn', f', k1, k2, k4, k5, k6⟩ := huse b hb
            obtain ⟨z, z', m1, m2, m3, m4⟩ := ow a.fn b.fn a.sig b.sig fn fn' f f' g1 k1 g4 k4 hne (g5.trans k5.symm) (g6.trans k6.symm) ⟨st, g2, k2⟩
            obtain ⟨R₁, r₁, n1, n2, n3⟩ := hkeep a.fn a.sig fn f g1 g4
            obtain ⟨R₂, r₂, o1, o2, o3⟩ := hkeep b.fn b.sig fn' f' k1 k4
            rw [x1] at n1; cases n1
            rw [x2] at n2; cases n2
            rw [y1] at o1; cases o1
            rw [y2] at o2; cases o2
            rw [x3, m1] at n3; cases n3
            rw [y3, m2] at o3; cases o3
            exact m4)
          rw [l1]
          dsimp only
          rw [checkRanges_iff]
          refine List.Pairwise.imp_of_mem ?_ l2
          have hle : ∀ a ∈ l, a.1 ≤ a.2 := by
            intro a ha
            obtain ⟨w, hw', R, r, q, x1, x2, x3, x4⟩ := l3 a ha
            obtain ⟨fn, f, g1, g2, g4, g5, g6⟩ := huse w hw'
            obtain ⟨R₁, r₁, n1, n2, n3⟩ := hkeep w.fn w.sig fn f g1 g4
            rw [x1] at n1; cases n1
            rw [x2] at n2; cases n2
            rw [x3] at n3
            have := (hc.funs fn (List.mem_of_getElem? g1) f (Or.inr (List.mem_of_getElem? g4))).2.2.2.1 q n3.symm a x4
            exact this.1
          intro a b ha hb hab
          have h1 := hle a ha
          have h2 := hle b hb
          unfold Apart at hab
          omega
        · rfl
  have hall : ∀ (l : List DS), (∀ s ∈ l, ∃ V, verifyDS bits check rs s = some V) → ∃ vs, verifyAll bits check rs l = some vs := by
    intro l
    induction l with
    | nil => intro _; exact ⟨[], rfl⟩
    | cons s l ih =>
      intro h
      obtain ⟨V, hV⟩ := h s (by simp)
      obtain ⟨vs, hvs⟩ := ih (fun t ht => h t (List.mem_cons_of_mem _ ht))
      rw [verifyAll, hV]
      dsimp only
      rw [hvs]
      exact ⟨_, rfl⟩
  obtain ⟨vs, hvs⟩ := hall ss hver
  refine ⟨rs, vs, ?_⟩
  unfold build
  rw [h1]
  dsimp only
  rw [hvs]
  rfl

end Verif.AppBuild
