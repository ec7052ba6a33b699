import Verif.Proof.AppBuild
set_option linter.unusedSimpArgs false
set_option linter.unusedVariables false
/-! Proofs for C57: all the functions. -/
namespace Verif.AppBuild
open Spec

theorem modify_as_set (l : List DSig) (i : Nat) (d : DSig) (g : DSig → DSig) (h : l[i]? = some d) : l.modify i g = l.set i (g d) := by
  apply List.ext_getElem?
  intro j
  rw [List.getElem?_modify, List.getElem?_set]
  by_cases hij : i = j
  · subst hij
    have hlt : i < l.length := by
      rcases Nat.lt_or_ge i l.length with hl | hl
      · exact hl
      · rw [List.getElem?_eq_none hl] at h; cases h
    rw [h]
    simp [hlt]
  · simp [hij]

theorem modify_out (l : List DSig) (i : Nat) (g : DSig → DSig) (h : l[i]? = none) : l.modify i g = l := by
  apply List.ext_getElem?
  intro j
  rw [List.getElem?_modify]
  by_cases hij : i = j
  · subst hij; rw [h]; rfl
  · simp [hij]

theorem addUses_facts (s : DS) (a : Option Nat) (us : List Use) :
    SLe s (addUses s a us) ∧ (SInv s → SInv (addUses s a us)) ∧ (a = none → us ≠ [] → (addUses s a us).stray = true) ∧
    (∀ i d, a = some i → s.sigs[i]? = some d → ∃ d' ∈ (addUses s a us).sigs, DLe d d' ∧ d'.ty = d.ty ∧ d'.elems = d.elems ∧
      ∀ u ∈ us, u ∈ d'.uses) := by
  unfold addUses
  by_cases hu : us = []
  · rw [if_pos hu]
    subst hu
    refine ⟨SLe.refl s, fun h => h, fun _ h => absurd rfl h, ?_⟩
    intro i d ha hd
    exact ⟨d, List.mem_of_getElem? hd, DLe.refl d, rfl, rfl, by simp⟩
  · rw [if_neg hu]
    cases a with
    | none =>
      exact ⟨⟨rfl, rfl, rfl, fun _ => rfl, fun d hd => ⟨d, hd, DLe.refl d⟩, fun _ => rfl⟩, fun h => ⟨h.names, h.typed⟩, fun _ _ => rfl,
        by simp⟩
    | some i =>
      dsimp only
      cases hd : s.sigs[i]? with
      | none =>
        rw [modify_out _ _ _ hd]
        refine ⟨SLe.refl s, fun h => h, by simp, ?_⟩
        intro j d hj hd'
        cases hj
        rw [hd] at hd'
        cases hd'
      | some d =>
        rw [modify_as_set _ _ _ _ hd]
        have hle : DLe d { d with uses := d.uses ++ us } :=
          ⟨rfl, Keeps.refl _, Keeps.refl _, fun u h => List.mem_append_left _ h, fun _ => rfl⟩
        have hlt : i < s.sigs.length := by
          rcases Nat.lt_or_ge i s.sigs.length with hl | hl
          · exact hl
          · rw [List.getElem?_eq_none hl] at hd; cases hd
        refine ⟨⟨rfl, rfl, rfl, fun h => h, set_mem_le _ _ _ _ hd hle, fun _ => set_names _ _ _ _ hd rfl⟩, ?_, by simp, ?_⟩
        · intro hi
          refine ⟨?_, ?_⟩
          · show ((s.sigs.set i _).map _).Nodup
            rw [set_names _ _ d { d with uses := d.uses ++ us } hd rfl]
            exact hi.names
          · intro e he
            rcases mem_set he with he | rfl
            · exact hi.typed e he
            · have := hi.typed d (List.mem_of_getElem? hd)
              exact ⟨this.full, this.nonempty⟩
        · intro j d₁ hj hd₁
          cases hj
          rw [hd] at hd₁
          cases hd₁
          refine ⟨{ d with uses := d.uses ++ us },
            List.mem_of_getElem? (i := i) (by show (s.sigs.set i _)[i]? = _; rw [List.getElem?_set]; simp [hlt]), hle, rfl, rfl, ?_⟩
          intro u hu
          exact List.mem_append_right _ hu

structure GoodSig (ss : List DS) (states : List String) (producer : Bool) (fn sig : Nat) (f : FSig) (m : RSig) : Prop where
  fle : FLe f m.sig
  node : ∃ s ∈ ss, s.name = f.ds ∧
    (∀ st ∈ states, s.stray = true ∨ ∃ d ∈ s.sigs, d.name = wanted f ∧ (⟨st, producer, fn, sig⟩ : Use) ∈ d.uses ∧ d.ty ≠ none) ∧
    (f.elems ≠ none → ∃ d ∈ s.sigs, d.name = wanted f ∧ d.ty = m.sig.ty ∧ d.elems = m.sig.elems)

def AllLe (ss ss' : List DS) : Prop := ∀ s ∈ ss, ∃ s' ∈ ss', SLe s s'
def AllGe (ss ss' : List DS) : Prop := ∀ s' ∈ ss', ∃ s ∈ ss, SLe s s'

theorem AllLe.trans {a b c : List DS} (h : AllLe a b) (h' : AllLe b c) : AllLe a c := by
  intro s hs
  obtain ⟨t, ht, h1⟩ := h s hs
  obtain ⟨u, hu, h2⟩ := h' t ht
  exact ⟨u, hu, h1.trans h2⟩

theorem AllGe.trans {a b c : List DS} (h : AllGe a b) (h' : AllGe b c) : AllGe a c := by
  intro s hs
  obtain ⟨t, ht, h1⟩ := h' s hs
  obtain ⟨u, hu, h2⟩ := h t ht
  exact ⟨u, hu, h2.trans h1⟩

theorem AllLe.refl (a : List DS) : AllLe a a := fun s hs => ⟨s, hs, SLe.refl s⟩
theorem AllGe.refl (a : List DS) : AllGe a a := fun s hs => ⟨s, hs, SLe.refl s⟩

/-- The elements of the signal are known to be some, for `GoodSig.mono`. -/
theorem memorySize_some {bits : Types} {f : FSig} {mem : Nat} {m : RSig} (h : memorySize bits f mem = some m) :
    m.sig = f ∧ m.memory = mem ∧ m.samples = f.samples.getD 1 ∧ 0 < m.samples ∧
    ∃ ty b n, f.ty = some ty ∧ bits ty = some b ∧ f.elems = some n ∧
      ((f.ranges = none ∧ m.byteSize = n * b % 2 ^ 32 / 8 ∧ m.offsets = [(0, m.byteSize)]) ∨
       (f.ranges = some [] ∧ m.byteSize = 0 ∧ m.offsets = [(0, 0)]) ∨
       ∃ rs, rs ≠ [] ∧ f.ranges = some rs ∧ byteOffsets b n rs = some m.offsets ∧
        m.byteSize = (m.offsets.map Prod.snd).foldl (fun a x => (a + x) % 2 ^ 32) 0) := by
  unfold memorySize at h
  cases he : f.elems with
  | none => rw [he] at h; cases h
  | some n =>
    cases ht : f.ty with
    | none => rw [he, ht] at h; cases h
    | some ty =>
      rw [he, ht] at h
      dsimp only at h
      cases hb : bits ty with
      | none => rw [hb] at h; cases h
      | some b =>
        rw [hb] at h
        dsimp only at h
        have fin : ∀ (o : Nat × List (Nat × Nat)) (hh : (match f.samples with
            | some 0 => none
            | some (n + 1) => some (⟨f, o.1, o.2, n + 1, mem⟩ : RSig)
            | none => some ⟨f, o.1, o.2, 1, mem⟩) = some m),
            m.sig = f ∧ m.memory = mem ∧ m.samples = f.samples.getD 1 ∧ 0 < m.samples ∧ m.byteSize = o.1 ∧ m.offsets = o.2 := by
          intro o hh
          cases hs : f.samples with
          | none => rw [hs] at hh; cases hh; simp
          | some k =>
            cases k with
            | zero => rw [hs] at hh; cases hh
            | succ k => rw [hs] at hh; cases hh; simp
        cases hr : f.ranges with
        | none =>
          rw [hr] at h
          obtain ⟨h1, h2, h3, h4, h5, h6⟩ := fin (n * b % 2 ^ 32 / 8, [(0, n * b % 2 ^ 32 / 8)]) h
          exact ⟨h1, h2, h3, h4, ty, b, n, rfl, hb, rfl, Or.inl ⟨rfl, h5, by rw [h5]; exact h6⟩⟩
        | some rs =>
          cases rs with
          | nil =>
            rw [hr] at h
            obtain ⟨h1, h2, h3, h4, h5, h6⟩ := fin (0, [(0, 0)]) h
            exact ⟨h1, h2, h3, h4, ty, b, n, rfl, hb, rfl, Or.inr (Or.inl ⟨rfl, h5, h6⟩)⟩
          | cons x xs =>
            rw [hr] at h
            dsimp only at h
            cases hbo : byteOffsets b n (x :: xs) with
            | none => rw [hbo] at h; cases h
            | some l =>
              rw [hbo] at h
              obtain ⟨h1, h2, h3, h4, h5, h6⟩ := fin ((l.map Prod.snd).foldl (fun a x => (a + x) % 2 ^ 32) 0, l) h
              refine ⟨h1, h2, h3, h4, ty, b, n, rfl, hb, rfl, Or.inr (Or.inr ⟨x :: xs, by simp, rfl, ?_, ?_⟩)⟩
              · rw [h6]; exact hbo
              · rw [h6]; exact h5

theorem GoodSig.mono {ss ss' : List DS} {states : List String} {p : Bool} {k j : Nat} {f : FSig} {m : RSig} {bits : Types} {mem : Nat}
    (hm : memorySize bits m.sig mem = some m) (h : GoodSig ss states p k j f m) (hle : AllLe ss ss') : GoodSig ss' states p k j f m := by
  obtain ⟨hf, s, hs, hn, h1, h2⟩ := h
  obtain ⟨s', hs', hl⟩ := hle s hs
  refine ⟨hf, s', hs', hl.name.trans hn, ?_, ?_⟩
  · intro st hst
    rcases h1 st hst with h | ⟨d, hd, hdn, hu, ht⟩
    · exact Or.inl (hl.stray h)
    · obtain ⟨d', hd', hdl⟩ := hl.sigs d hd
      exact Or.inr ⟨d', hd', hdl.name.trans hdn, hdl.uses _ hu, by rw [hdl.ty ht]; exact ht⟩
  · intro he
    obtain ⟨d, hd, hdn, ht, hel⟩ := h2 he
    obtain ⟨d', hd', hdl⟩ := hl.sigs d hd
    obtain ⟨_, _, _, _, ty, b, n, e1, _, e3, _⟩ := memorySize_some hm
    refine ⟨d', hd', hdl.name.trans hdn, ?_, ?_⟩
    · rw [hdl.ty (by rw [ht, e1]; simp)]; exact ht
    · rw [hdl.elems (by rw [hel, e3]; simp)]; exact hel

structure Step (bits : Types) (states : List String) (p : Bool) (k j : Nat) (f : FSig) (memory : Nat) (ss ss' : List DS) (m : RSig) : Prop where
  mem : memorySize bits m.sig memory = some m
  le : AllLe ss ss'
  ge : AllGe ss ss'
  names : ss'.map (fun s => s.name) = ss.map (fun s => s.name)
  inv : FTyped f → (∀ s ∈ ss, SInv s) → ∀ s ∈ ss', SInv s
  good : FTyped f → (∀ s ∈ ss, SInv s) → GoodSig ss' states p k j f m

theorem resolveSig_step {bits : Types} {states : List String} {p : Bool} {k j : Nat} {f : FSig} {memory : Nat} {ss ss' : List DS} {m : RSig}
    (h : resolveSig bits states p k j f memory ss = some (m, ss')) : Step bits states p k j f memory ss ss' m := by
  induction ss generalizing ss' with
  | nil => simp [resolveSig] at h
  | cons s ss ih =>
    rw [resolveSig] at h
    split at h
    · rename_i hn
      dsimp only at h
      have ha := addSignal_facts f s
      generalize addSignal f s = r at h ha
      obtain ⟨ok, f₁, s₁, a⟩ := r
      dsimp only at h ha
      have hd := defaults_facts ok f₁
      generalize defaults ok f₁ = q at h hd
      obtain ⟨ok₂, f₂⟩ := q
      dsimp only at h hd
      split at h
      · cases h
      · rename_i hok
        have hok : ok₂ = true := by simpa using hok
        cases hmem : memorySize bits f₂ memory with
        | none => rw [hmem] at h; cases h
        | some m₀ =>
          rw [hmem] at h
          simp only [Option.map_some, Option.some.injEq, Prod.mk.injEq] at h
          obtain ⟨rfl, rfl⟩ := h
          have hms := memorySize_some hmem
          have hsig : m₀.sig = f₂ := hms.1
          have hu := addUses_facts s₁ a (states.map fun st => (⟨st, p, k, j⟩ : Use))
          generalize addUses s₁ a (states.map fun st => (⟨st, p, k, j⟩ : Use)) = s₂ at hu
          obtain ⟨u1, u2, u3, u4⟩ := hu
          have hsle : SLe s s₂ := ha.sle.trans u1
          refine ⟨by rw [hsig]; exact hmem, ?_, ?_, by simp [hsle.name], ?_, ?_⟩
          · intro t ht
            rcases List.mem_cons.mp ht with rfl | ht
            · exact ⟨s₂, by simp, hsle⟩
            · exact ⟨t, List.mem_cons_of_mem _ ht, SLe.refl t⟩
          · intro t ht
            rcases List.mem_cons.mp ht with rfl | ht
            · exact ⟨s, by simp, hsle⟩
            · exact ⟨t, List.mem_cons_of_mem _ ht, SLe.refl t⟩
          · intro hft hi t ht
            rcases List.mem_cons.mp ht with rfl | ht
            · exact u2 (ha.inv hft (hi s (by simp)))
            · exact hi t (List.mem_cons_of_mem _ ht)
          · intro hft hi
            have hsi := hi s (by simp)
            have hty : f₁.ty ≠ none := by
              obtain ⟨_, _, _, _, ty, b, n, e1, _⟩ := hms
              rw [← hd.2.1, e1]; simp
            refine ⟨by rw [hsig]; exact ha.fle.trans hd.1, s₂, by simp, hsle.name.trans hn, ?_, ?_⟩
            · intro st hst
              cases a with
              | none => exact Or.inl (u3 rfl (by intro h0; rw [List.map_eq_nil_iff] at h0; rw [h0] at hst; simp at hst))
              | some i =>
                obtain ⟨d, hd1, hd2, hd3, hd4⟩ := ha.node i rfl
                obtain ⟨d', v1, v2, v3, v4, v5⟩ := u4 i d rfl hd1
                exact Or.inr ⟨d', v1, v2.name.trans hd2, v5 _ (List.mem_map.mpr ⟨st, hst, rfl⟩), by rw [v3]; exact hd3 hft hsi hty⟩
            · intro he
              have hel1 : f₁.elems = f.elems := ha.fle.elems he
              have hok1 : ok = true := hd.2.2 hok (by rw [hel1]; exact he)
              have hel2 : f₂.elems = f₁.elems := hd.1.elems (by rw [hel1]; exact he)
              cases a with
              | none => exact absurd rfl (ha.found hok1)
              | some i =>
                obtain ⟨d, hd1, hd2, hd3, hd4⟩ := ha.node i rfl
                obtain ⟨d', v1, v2, v3, v4, v5⟩ := u4 i d rfl hd1
                obtain ⟨w1, w2⟩ := hd4 hok1
                refine ⟨d', v1, v2.name.trans hd2, ?_, ?_⟩
                · rw [v3, ← w1, hsig, hd.2.1]
                · rw [v4, ← w2, hsig, hel2]
    · rename_i hn
      cases hr : resolveSig bits states p k j f memory ss with
      | none => rw [hr] at h; cases h
      | some r =>
        obtain ⟨m₀, ss₁⟩ := r
        rw [hr] at h
        simp only [Option.map_some, Option.some.injEq, Prod.mk.injEq] at h
        obtain ⟨rfl, rfl⟩ := h
        have hi := ih hr
        refine ⟨hi.mem, ?_, ?_, by simp [hi.names], ?_, ?_⟩
        · intro t ht
          rcases List.mem_cons.mp ht with rfl | ht
          · exact ⟨t, by simp, SLe.refl t⟩
          · obtain ⟨t', h1, h2⟩ := hi.le t ht
            exact ⟨t', List.mem_cons_of_mem _ h1, h2⟩
        · intro t ht
          rcases List.mem_cons.mp ht with rfl | ht
          · exact ⟨t, by simp, SLe.refl t⟩
          · obtain ⟨t', h1, h2⟩ := hi.ge t ht
            exact ⟨t', List.mem_cons_of_mem _ h1, h2⟩
        · intro hft hv t ht
          rcases List.mem_cons.mp ht with rfl | ht
          · exact hv t (by simp)
          · exact hi.inv hft (fun s hs => hv s (List.mem_cons_of_mem _ hs)) t ht
        · intro hft hv
          obtain ⟨g1, s', g2, g3⟩ := hi.good hft (fun s hs => hv s (List.mem_cons_of_mem _ hs))
          exact ⟨g1, s', List.mem_cons_of_mem _ g2, g3⟩

/-- A list of data sources after another. -/
structure Grown (ss ss' : List DS) : Prop where
  le : AllLe ss ss'
  ge : AllGe ss ss'
  names : ss'.map (fun s => s.name) = ss.map (fun s => s.name)

theorem Grown.refl (ss : List DS) : Grown ss ss := ⟨AllLe.refl _, AllGe.refl _, rfl⟩
theorem Grown.trans {a b c : List DS} (h : Grown a b) (h' : Grown b c) : Grown a c :=
  ⟨h.le.trans h'.le, h.ge.trans h'.ge, h'.names.trans h.names⟩

theorem resolveSigs_facts {bits : Types} {states : List String} {p : Bool} {k : Nat} (fs : List FSig) :
    ∀ {j memory : Nat} {ss ss' : List DS} {rs : List RSig} {total : Nat},
    resolveSigs bits states p k j memory fs ss = some (rs, total, ss') →
    Grown ss ss' ∧ rs.length = fs.length ∧
    ((∀ f ∈ fs, FTyped f) → (∀ s ∈ ss, SInv s) → ∀ s ∈ ss', SInv s) ∧
    (∀ (i : Nat) f, fs[i]? = some f → ∃ r mem, rs[i]? = some r ∧ memorySize bits r.sig mem = some r) ∧
    ((∀ f ∈ fs, FTyped f) → (∀ s ∈ ss, SInv s) → ∀ (i : Nat) f r, fs[i]? = some f → rs[i]? = some r → GoodSig ss' states p k (j + i) f r) := by
  induction fs with
  | nil =>
    intro j memory ss ss' rs total h
    simp only [resolveSigs, Option.some.injEq, Prod.mk.injEq] at h
    obtain ⟨rfl, rfl, rfl⟩ := h
    exact ⟨Grown.refl _, rfl, fun _ h => h, by simp, by simp⟩
  | cons f fs ih =>
    intro j memory ss ss' rs total h
    rw [resolveSigs] at h
    cases h1 : resolveSig bits states p k j f memory ss with
    | none => rw [h1] at h; cases h
    | some x =>
      obtain ⟨r, ss₁⟩ := x
      rw [h1] at h
      dsimp only at h
      cases h2 : resolveSigs bits states p k (j + 1) ((memory + r.byteSize * r.samples % 2 ^ 32) % 2 ^ 32) fs ss₁ with
      | none => rw [h2] at h; cases h
      | some y =>
        obtain ⟨rs₁, t₁, ss₂⟩ := y
        rw [h2] at h
        simp only [Option.some.injEq, Prod.mk.injEq] at h
        obtain ⟨rfl, rfl, rfl⟩ := h
        have hs := resolveSig_step h1
        obtain ⟨i1, i2, i3, i4, i5⟩ := ih h2
        refine ⟨(⟨hs.le, hs.ge, hs.names⟩ : Grown ss ss₁).trans i1, by simp [i2], ?_, ?_, ?_⟩
        · intro hf hi
          exact i3 (fun g hg => hf g (List.mem_cons_of_mem _ hg)) (hs.inv (hf f (by simp)) hi)
        · intro i g hg
          cases i with
          | zero => exact ⟨r, memory, rfl, hs.mem⟩
          | succ i => exact i4 i g (by simpa using hg)
        · intro hf hi i g q hg hq
          cases i with
          | zero =>
            simp only [List.getElem?_cons_zero, Option.some.injEq] at hg hq
            subst hg; subst hq
            exact (hs.good (hf _ (by simp)) hi).mono hs.mem i1.le
          | succ i =>
            have := i5 (fun g hg => hf g (List.mem_cons_of_mem _ hg)) (hs.inv (hf f (by simp)) hi) i g q (by simpa using hg) (by simpa using hq)
            rw [show j + (i + 1) = j + 1 + i by omega]
            exact this

structure AllTyped (fns : List Fn) : Prop where
  ins : ∀ fn ∈ fns, ∀ f ∈ fn.ins, FTyped f
  outs : ∀ fn ∈ fns, ∀ f ∈ fn.outs, FTyped f

def isOut : Dir → Bool
  | .input => false
  | .output => true

theorem resolve_facts {bits : Types} (fns : List Fn) :
    ∀ {k : Nat} {ss ss' : List DS} {rs : List RFn}, resolve bits k fns ss = some (rs, ss') →
    Grown ss ss' ∧ rs.map (fun r => r.fn) = fns ∧
    (AllTyped fns → (∀ s ∈ ss, SInv s) → ∀ s ∈ ss', SInv s) ∧
    (∀ (i : Nat) fn, fns[i]? = some fn → ∃ R, rs[i]? = some R ∧ R.fn = fn ∧ ∀ d : Dir, (resolved d R).length = (declared d fn).length ∧
      ∃ t t', resolveSigs bits fn.states (isOut d) (k + i) 0 0 (declared d fn) t = some (resolved d R, areaSize d R, t')) ∧
    (AllTyped fns → (∀ s ∈ ss, SInv s) → ∀ (i : Nat) fn R, fns[i]? = some fn → rs[i]? = some R → ∀ (d : Dir) (j : Nat) f r, (declared d fn)[j]? = some f →
      (resolved d R)[j]? = some r → GoodSig ss' fn.states (isOut d) (k + i) j f r) := by
  induction fns with
  | nil =>
    intro k ss ss' rs h
    simp only [resolve, Option.some.injEq, Prod.mk.injEq] at h
    obtain ⟨rfl, rfl⟩ := h
    exact ⟨Grown.refl _, rfl, fun _ h => h, by simp, by simp⟩
  | cons fn fns ih =>
    intro k ss ss' rs h
    rw [resolve] at h
    cases h1 : resolveSigs bits fn.states false k 0 0 fn.ins ss with
    | none => rw [h1] at h; cases h
    | some x =>
      obtain ⟨ins, isz, ss₁⟩ := x
      rw [h1] at h
      dsimp only at h
      cases h2 : resolveSigs bits fn.states true k 0 0 fn.outs ss₁ with
      | none => rw [h2] at h; cases h
      | some x =>
        obtain ⟨outs, osz, ss₂⟩ := x
        rw [h2] at h
        dsimp only at h
        cases h3 : resolve bits (k + 1) fns ss₂ with
        | none => rw [h3] at h; cases h
        | some y =>
          obtain ⟨rs₁, ss₃⟩ := y
          rw [h3] at h
          simp only [Option.some.injEq, Prod.mk.injEq] at h
          obtain ⟨rfl, rfl⟩ := h
          obtain ⟨a1, a2, a3, a4, a5⟩ := resolveSigs_facts _ h1
          obtain ⟨b1, b2, b3, b4, b5⟩ := resolveSigs_facts _ h2
          obtain ⟨c1, c2, c3, c4, c5⟩ := ih h3
          have rest : AllTyped (fn :: fns) → AllTyped fns := fun ha =>
            ⟨fun g hg => ha.ins g (List.mem_cons_of_mem _ hg), fun g hg => ha.outs g (List.mem_cons_of_mem _ hg)⟩
          refine ⟨(a1.trans b1).trans c1, by simp [c2], ?_, ?_, ?_⟩
          · intro ha hi
            exact c3 (rest ha) (b3 (ha.outs fn (by simp)) (a3 (ha.ins fn (by simp)) hi))
          · intro i g hg
            cases i with
            | zero =>
              simp only [List.getElem?_cons_zero, Option.some.injEq] at hg
              subst hg
              refine ⟨_, rfl, rfl, ?_⟩
              intro d
              cases d with
              | input => exact ⟨a2, ss, ss₁, h1⟩
              | output => exact ⟨b2, ss₁, ss₂, h2⟩
            | succ i =>
              obtain ⟨R, e1, e2, e3⟩ := c4 i g (by simpa using hg)
              refine ⟨R, by simpa using e1, e2, ?_⟩
              intro d
              rw [show k + (i + 1) = k + 1 + i by omega]
              exact e3 d
          · intro ha hi i g R hg hR d j f r hf hr
            cases i with
            | zero =>
              simp only [List.getElem?_cons_zero, Option.some.injEq] at hg hR
              subst hg; subst hR
              cases d with
              | input =>
                obtain ⟨r', mem, q1, q2⟩ := a4 j f hf
                have : r' = r := by
                  have hr' : ins[j]? = some r := hr
                  rw [q1] at hr'; exact Option.some.inj hr'
                subst this
                have := a5 (ha.ins _ (by simp)) hi j f r' hf hr
                rw [Nat.zero_add] at this
                exact (this.mono q2 b1.le).mono q2 c1.le
              | output =>
                obtain ⟨r', mem, q1, q2⟩ := b4 j f hf
                have : r' = r := by
                  have hr' : outs[j]? = some r := hr
                  rw [q1] at hr'; exact Option.some.inj hr'
                subst this
                have := b5 (ha.outs _ (by simp)) (a3 (ha.ins _ (by simp)) hi) j f r' hf hr
                rw [Nat.zero_add] at this
                exact this.mono q2 c1.le
            | succ i =>
              have := c5 (rest ha) (b3 (ha.outs fn (by simp)) (a3 (ha.ins fn (by simp)) hi)) i g R (by simpa using hg) (by simpa using hR)
                d j f r hf hr
              rw [show k + (i + 1) = k + 1 + i by omega]
              exact this

/-! ## Verification -/

theorem verifySigs_facts {bits : Types} (ds : List DSig) : ∀ {done vs : List VSig}, verifySigs bits done ds = some vs →
    (∀ v ∈ done, v ∈ vs) ∧
    (∀ d ∈ ds, d.ty ≠ none → d.ty ≠ some "" → ∃ v ∈ vs, v.sig.name = d.name ∧ v.sig.ty = d.ty ∧ v.sig.uses = d.uses ∧
      Keeps d.elems v.sig.elems ∧ ∃ b n, d.ty.bind bits = some b ∧ v.sig.elems = some n ∧ 0 < n ∧ v.byteSize = n * b % 2 ^ 32 / 8) ∧
    (∃ l : List Name, vs.map (fun v => v.sig.name) = done.map (fun v => v.sig.name) ++ l ∧ l.Sublist (ds.map fun d => d.name)) ∧
    (∀ v ∈ vs, v ∈ done ∨ ∃ d ∈ ds, v.sig.name = d.name ∧ v.sig.ty = d.ty ∧ v.sig.uses = d.uses ∧ Keeps d.elems v.sig.elems ∧
      ∃ b n, d.ty.bind bits = some b ∧ v.sig.elems = some n ∧ 0 < n ∧ v.byteSize = n * b % 2 ^ 32 / 8) := by
  induction ds with
  | nil =>
    intro done vs h
    simp only [verifySigs, Option.some.injEq] at h
    subst h
    exact ⟨fun _ h => h, by simp, ⟨[], by simp⟩, fun v hv => Or.inl hv⟩
  | cons d ds ih =>
    intro done vs h
    rw [verifySigs] at h
    split at h
    · cases h
    · cases hb : d.ty.bind bits with
      | none =>
        rw [hb] at h
        dsimp only at h
        split at h
        · split at h
          · rename_i hty
            obtain ⟨i1, i2, ⟨l, l1, l2⟩, i4⟩ := ih h
            refine ⟨i1, ?_, ⟨l, l1, l2.trans (by simp)⟩, ?_⟩
            · intro e he h1 h2
              rcases List.mem_cons.mp he with rfl | he
              · rcases hty with h | h
                · exact absurd h h1
                · exact absurd h h2
              · exact i2 e he h1 h2
            · intro v hv
              rcases i4 v hv with h | ⟨e, he, h⟩
              · exact Or.inl h
              · exact Or.inr ⟨e, List.mem_cons_of_mem _ he, h⟩
          · cases h
        · cases h
      | some b =>
        rw [hb] at h
        dsimp only at h
        have key : ∀ (n : Nat) (x : VSig), 0 < n → Keeps d.elems (some n) → x.sig.name = d.name → x.sig.ty = d.ty → x.sig.uses = d.uses →
            x.sig.elems = some n → x.byteSize = n * b % 2 ^ 32 / 8 → verifySigs bits (done ++ [x]) ds = some vs →
            (∀ v ∈ done, v ∈ vs) ∧
            (∀ e ∈ d :: ds, e.ty ≠ none → e.ty ≠ some "" → ∃ v ∈ vs, v.sig.name = e.name ∧ v.sig.ty = e.ty ∧ v.sig.uses = e.uses ∧
              Keeps e.elems v.sig.elems ∧ ∃ b n, e.ty.bind bits = some b ∧ v.sig.elems = some n ∧ 0 < n ∧ v.byteSize = n * b % 2 ^ 32 / 8) ∧
            (∃ l : List Name, vs.map (fun v => v.sig.name) = done.map (fun v => v.sig.name) ++ l ∧ l.Sublist ((d :: ds).map fun d => d.name)) ∧
            (∀ v ∈ vs, v ∈ done ∨ ∃ e ∈ d :: ds, v.sig.name = e.name ∧ v.sig.ty = e.ty ∧ v.sig.uses = e.uses ∧ Keeps e.elems v.sig.elems ∧
              ∃ b n, e.ty.bind bits = some b ∧ v.sig.elems = some n ∧ 0 < n ∧ v.byteSize = n * b % 2 ^ 32 / 8) := by
          intro n x hn hk hx1 hx2 hx3 hx4 hx5 hv
          obtain ⟨i1, i2, ⟨l, l1, l2⟩, i4⟩ := ih hv
          refine ⟨fun v hv => i1 v (List.mem_append_left _ hv), ?_, ⟨d.name :: l, ?_, ?_⟩, ?_⟩
          · intro e he h1 h2
            rcases List.mem_cons.mp he with rfl | he
            · exact ⟨x, i1 x (by simp), hx1, hx2, hx3, by rw [hx4]; exact hk, b, n, hb, hx4, hn, hx5⟩
            · exact i2 e he h1 h2
          · rw [l1]; simp [hx1]
          · simpa using l2
          · intro v hv
            rcases i4 v hv with h | ⟨e, he, h⟩
            · rcases List.mem_append.mp h with h | h
              · exact Or.inl h
              · simp only [List.mem_singleton] at h
                subst h
                exact Or.inr ⟨d, by simp, hx1, hx2, hx3, by rw [hx4]; exact hk, b, n, hb, hx4, hn, hx5⟩
            · exact Or.inr ⟨e, List.mem_cons_of_mem _ he, h⟩
        cases hel : d.elems with
        | none =>
          rw [hel] at h
          exact key 1 _ (by omega) (by simp [Keeps, hel]) rfl rfl rfl rfl rfl h
        | some n =>
          cases n with
          | zero => rw [hel] at h; cases h
          | succ n =>
            rw [hel] at h
            exact key (n + 1) _ (by omega) (by simp [Keeps, hel]) rfl rfl rfl rfl rfl h

theorem verifyAll_facts {bits : Types} {check : Bool} {rs : List RFn} (ss : List DS) : ∀ {vs : List VDS},
    verifyAll bits check rs ss = some vs →
    (∀ s ∈ ss, ∃ v ∈ vs, verifyDS bits check rs s = some v) ∧ (∀ v ∈ vs, ∃ s ∈ ss, verifyDS bits check rs s = some v) ∧
    vs.map (fun v => v.name) = ss.map (fun s => s.name) := by
  induction ss with
  | nil =>
    intro vs h
    simp only [verifyAll, Option.some.injEq] at h
    subst h
    simp
  | cons s ss ih =>
    intro vs h
    rw [verifyAll] at h
    cases h1 : verifyDS bits check rs s with
    | none => rw [h1] at h; cases h
    | some v =>
      rw [h1] at h
      dsimp only at h
      cases h2 : verifyAll bits check rs ss with
      | none => rw [h2] at h; cases h
      | some vs₁ =>
        rw [h2] at h
        simp only [Option.map_some, Option.some.injEq] at h
        subst h
        obtain ⟨i1, i2, i3⟩ := ih h2
        have hn : v.name = s.name := by
          unfold verifyDS at h1
          split at h1
          · cases h1
          · split at h1
            · cases h1
            · split at h1
              · cases h1; rfl
              · cases h1
        refine ⟨?_, ?_, by simp [hn, i3]⟩
        · intro t ht
          rcases List.mem_cons.mp ht with rfl | ht
          · exact ⟨v, by simp, h1⟩
          · obtain ⟨w, hw, h⟩ := i1 t ht
            exact ⟨w, List.mem_cons_of_mem _ hw, h⟩
        · intro t ht
          rcases List.mem_cons.mp ht with rfl | ht
          · exact ⟨s, by simp, h1⟩
          · obtain ⟨w, hw, h⟩ := i2 t ht
            exact ⟨w, List.mem_cons_of_mem _ hw, h⟩

theorem verifyDS_facts {bits : Types} {check : Bool} {rs : List RFn} {s : DS} {v : VDS} (h : verifyDS bits check rs s = some v) :
    s.stray = false ∧ v.name = s.name ∧ verifySigs bits [] s.sigs = some v.sigs ∧
    ∀ x ∈ v.sigs, ∀ u ∈ x.sig.uses, verifyState check s.timing rs x.sig.uses u.state = true := by
  unfold verifyDS at h
  split at h
  · cases h
  · rename_i hs
    split at h
    · cases h
    · rename_i vs hvs
      split at h
      · rename_i hall
        cases h
        refine ⟨by simpa using hs, rfl, hvs, ?_⟩
        intro x hx u hu
        have := (List.all_eq_true.mp hall) x hx
        exact (List.all_eq_true.mp this) u hu
      · cases h

theorem prefixOf_prefix : ∀ (n m : Name), prefixOf n m = true → n <+: m
  | [], m, _ => List.nil_prefix
  | a :: n, [], h => by simp [prefixOf] at h
  | a :: n, b :: m, h => by
    rw [prefixOf] at h
    split at h
    · rename_i hab
      subst hab
      obtain ⟨t, ht⟩ := prefixOf_prefix n m h
      exact ⟨t, by rw [List.cons_append, ht]⟩
    · cases h

/-- No signal is lost. -/
theorem verifySigs_kept {bits : Types} (ds : List DSig) : ∀ {done vs : List VSig}, verifySigs bits done ds = some vs →
    ∀ d ∈ ds, ∃ v ∈ vs, d.name <+: v.sig.name := by
  induction ds with
  | nil => intro done vs _ d hd; cases hd
  | cons d ds ih =>
    intro done vs h e he
    have hall := (verifySigs_facts (d :: ds) h).1
    rw [verifySigs] at h
    split at h
    · cases h
    · cases hb : d.ty.bind bits with
      | none =>
        rw [hb] at h
        dsimp only at h
        split at h
        · rename_i hany
          split at h
          · rcases List.mem_cons.mp he with heq | he
            · subst heq
              obtain ⟨n, hn, hp⟩ := List.any_eq_true.mp hany
              have hp := prefixOf_prefix _ _ hp
              rcases List.mem_append.mp hn with hn | hn
              · obtain ⟨v, hv, rfl⟩ := List.mem_map.mp hn
                exact ⟨v, hall v hv, hp⟩
              · obtain ⟨g, hg, rfl⟩ := List.mem_map.mp hn
                obtain ⟨v, hv, h2⟩ := ih h g hg
                exact ⟨v, hv, hp.trans h2⟩
            · exact ih h e he
          · cases h
        · cases h
      | some b =>
        rw [hb] at h
        dsimp only at h
        have key : ∀ (x : VSig), x.sig.name = d.name → verifySigs bits (done ++ [x]) ds = some vs → ∃ v ∈ vs, e.name <+: v.sig.name := by
          intro x hx hv
          rcases List.mem_cons.mp he with heq | he
          · subst heq
            exact ⟨x, (verifySigs_facts ds hv).1 x (by simp), by rw [hx]; exact List.prefix_rfl⟩
          · exact ih hv e he
        split at h
        · cases h
        · exact key _ rfl h

/-! ## Types of structures -/

theorem compatLoop_same : ∀ (n ft ot : List String), compatLoop n n ft ot = true ↔
    n.length ≤ ft.length ∧ n.length ≤ ot.length ∧
    ∀ (i : Nat) a b, i < n.length → ft[i]? = some a → ot[i]? = some b → a = "Node" ∨ b = "Node" ∨ a = b
  | [], ft, ot => by simp [compatLoop]
  | x :: n, [], ot => by simp [compatLoop]
  | x :: n, a :: ft, [] => by simp [compatLoop]
  | x :: n, a :: ft, b :: ot => by
    have ih := compatLoop_same n ft ot
    have tail : (∀ (i : Nat) p q, i < (x :: n).length → (a :: ft)[i]? = some p → (b :: ot)[i]? = some q → p = "Node" ∨ q = "Node" ∨ p = q) ↔
        (a = "Node" ∨ b = "Node" ∨ a = b) ∧
        ∀ (i : Nat) p q, i < n.length → ft[i]? = some p → ot[i]? = some q → p = "Node" ∨ q = "Node" ∨ p = q := by
      constructor
      · intro h
        refine ⟨h 0 a b (by simp) rfl rfl, fun i p q hi h1 h2 => h (i + 1) p q (by simpa using hi) (by simpa using h1) (by simpa using h2)⟩
      · rintro ⟨h0, h⟩ i p q hi h1 h2
        cases i with
        | zero =>
          simp only [List.getElem?_cons_zero, Option.some.injEq] at h1 h2
          subst h1; subst h2; exact h0
        | succ i => exact h i p q (by simpa using hi) (by simpa using h1) (by simpa using h2)
    rw [tail]
    simp only [compatLoop, if_true, List.length_cons, Nat.add_le_add_iff_right]
    by_cases ha : a = "Node"
    · simp [ha, ih]
    · by_cases hb : b = "Node"
      · simp [ha, hb, ih]
      · by_cases hab : a = b
        · subst hab; simp [ha, ih]
        · simp [ha, hb, hab]

end Verif.AppBuild
