import Verif.Proof.AppBuild2
set_option linter.unusedSimpArgs false
set_option linter.unusedVariables false
/-! Proofs for C57: what an accepted application is. -/
namespace Verif.AppBuild
open Spec

theorem Spec.Flat.typed {fns : List Fn} {dss : List DS} (h : Flat fns dss) : AllTyped fns :=
  ⟨fun fn hfn f hf => ⟨(h.fns_typed fn hfn f (Or.inl hf)).1, (h.fns_typed fn hfn f (Or.inl hf)).2⟩,
   fun fn hfn f hf => ⟨(h.fns_typed fn hfn f (Or.inr hf)).1, (h.fns_typed fn hfn f (Or.inr hf)).2⟩⟩

theorem Spec.Flat.inv {fns : List Fn} {dss : List DS} (h : Flat fns dss) : ∀ s ∈ dss, SInv s :=
  fun s hs => ⟨h.sig_names s hs, fun d hd => ⟨(h.dss_typed s hs d hd).1, (h.dss_typed s hs d hd).2⟩⟩

theorem build_some {bits : Types} {check : Bool} {fns : List Fn} {dss : List DS} {rs : List RFn} {vs : List VDS}
    (h : build bits check fns dss = some (rs, vs)) :
    ∃ ss, resolve bits 0 fns dss = some (rs, ss) ∧ verifyAll bits check rs ss = some vs := by
  unfold build at h
  cases h1 : resolve bits 0 fns dss with
  | none => rw [h1] at h; cases h
  | some x =>
    obtain ⟨rs', ss⟩ := x
    rw [h1] at h
    dsimp only at h
    cases h2 : verifyAll bits check rs' ss with
    | none => rw [h2] at h; cases h
    | some vs' =>
      rw [h2] at h
      simp only [Option.map_some, Option.some.injEq, Prod.mk.injEq] at h
      obtain ⟨rfl, rfl⟩ := h
      exact ⟨ss, rfl, h2⟩

theorem good_of_at {bits : Types} {fns : List Fn} {dss ss : List DS} {rs : List RFn} (hr : resolve bits 0 fns dss = some (rs, ss))
    (hf : Flat fns dss) {d : Dir} {k j : Nat} {fn : Fn} {f : FSig} {r : RSig} (h : At fns rs d k j fn f r) :
    GoodSig ss fn.states (isOut d) k j f r := by
  obtain ⟨R, hR, hr'⟩ := h.res_at
  have := (resolve_facts fns hr).2.2.2.2 hf.typed hf.inv k fn R h.fn_at hR d j f r h.sig_at hr'
  rwa [Nat.zero_add] at this

theorem memory_of_at {bits : Types} {fns : List Fn} {dss ss : List DS} {rs : List RFn} (hr : resolve bits 0 fns dss = some (rs, ss))
    {d : Dir} {k j : Nat} {fn : Fn} {f : FSig} {r : RSig} (h : At fns rs d k j fn f r) :
    ∃ mem, memorySize bits r.sig mem = some r := by
  obtain ⟨R, hR, hr'⟩ := h.res_at
  obtain ⟨R', h1, _, h3⟩ := (resolve_facts fns hr).2.2.2.1 k fn h.fn_at
  rw [hR] at h1
  cases h1
  obtain ⟨_, t, t', h4⟩ := h3 d
  obtain ⟨r', mem, q1, q2⟩ := (resolveSigs_facts _ h4).2.2.2.1 j f h.sig_at
  rw [hr'] at q1
  cases q1
  exact ⟨mem, q2⟩

theorem nodup_map_inj {α β : Type} (g : α → β) {l : List α} (h : (l.map g).Nodup) : ∀ a ∈ l, ∀ b ∈ l, g a = g b → a = b := by
  induction l with
  | nil => simp
  | cons x xs ih =>
    simp only [List.map_cons, List.nodup_cons, List.mem_map, not_exists, not_and] at h
    intro a ha b hb hab
    rcases List.mem_cons.mp ha with rfl | ha'
    · rcases List.mem_cons.mp hb with rfl | hb
      · rfl
      · exact absurd hab.symm (h.1 b hb)
    · rcases List.mem_cons.mp hb with rfl | hb
      · exact absurd hab (h.1 a ha')
      · exact ih h.2 a ha' b hb hab

theorem byteOffsets_some {b n : Nat} (rs : List (Nat × Nat)) : ∀ {l : List (Nat × Nat)}, byteOffsets b n rs = some l →
    (∀ x ∈ rs, x.1 ≤ x.2 ∧ x.2 < n) ∧ l = rs.map fun x => (x.1 * b % 2 ^ 32 / 8, (x.2 - x.1 + 1) * b % 2 ^ 32 / 8) := by
  induction rs with
  | nil => intro l h; simp only [byteOffsets, Option.some.injEq] at h; subst h; simp
  | cons x xs ih =>
    intro l h
    obtain ⟨lo, hi⟩ := x
    rw [byteOffsets] at h
    split at h
    · cases h
    · split at h
      · cases h
      · cases h1 : byteOffsets b n xs with
        | none => rw [h1] at h; cases h
        | some l' =>
          rw [h1] at h
          simp only [Option.map_some, Option.some.injEq] at h
          subst h
          obtain ⟨i1, i2⟩ := ih h1
          refine ⟨?_, by rw [i2]; rfl⟩
          intro y hy
          rcases List.mem_cons.mp hy with rfl | hy
          · exact ⟨by omega, by omega⟩
          · exact i1 y hy

theorem byteOffsets_ok {b n : Nat} (rs : List (Nat × Nat)) (h : ∀ x ∈ rs, x.1 ≤ x.2 ∧ x.2 < n) : byteOffsets b n rs ≠ none := by
  induction rs with
  | nil => simp [byteOffsets]
  | cons x xs ih =>
    obtain ⟨lo, hi⟩ := x
    have hx := h (lo, hi) (by simp)
    dsimp only at hx
    rw [byteOffsets, if_neg (by omega), if_neg (by omega)]
    simp only [ne_eq, Option.map_eq_none_iff]
    exact ih (fun y hy => h y (List.mem_cons_of_mem _ hy))

theorem foldl_mod (l : List Nat) : ∀ a, l.foldl (fun a x => (a + x) % 2 ^ 32) (a % 2 ^ 32) = (a + l.sum) % 2 ^ 32 := by
  induction l with
  | nil => simp
  | cons x xs ih =>
    intro a
    rw [List.foldl_cons, show (a % 2 ^ 32 + x) % 2 ^ 32 = (a + x) % 2 ^ 32 by omega, ih, List.sum_cons, Nat.add_assoc]

theorem div_add_le (x y z : Nat) (h : x + y ≤ z) : x / 8 + y / 8 ≤ z / 8 := by omega

theorem offsets_inside {bits : Types} {f : FSig} {mem : Nat} {m : RSig} (h : memorySize bits f mem = some m) (ty : String) (b n : Nat)
    (hty : f.ty = some ty) (hb : bits ty = some b) (hn : f.elems = some n) (hw : n * b < 2 ^ 32) :
    ∀ o ∈ m.offsets, o.1 + o.2 ≤ n * b / 8 := by
  obtain ⟨_, _, _, _, ty', b', n', e1, e2, e3, hc⟩ := memorySize_some h
  rw [hty] at e1; cases e1
  rw [hb] at e2; cases e2
  rw [hn] at e3; cases e3
  rcases hc with ⟨_, h1, h2⟩ | ⟨_, h1, h2⟩ | ⟨rs, _, _, h1, _⟩
  · intro o ho
    rw [h2] at ho
    simp only [List.mem_singleton] at ho
    subst ho
    rw [h1, Nat.mod_eq_of_lt hw]
    simp
  · intro o ho
    rw [h2] at ho
    simp only [List.mem_singleton] at ho
    subst ho
    simp
  · obtain ⟨i1, i2⟩ := byteOffsets_some rs h1
    intro o ho
    rw [i2] at ho
    obtain ⟨x, hx, rfl⟩ := List.mem_map.mp ho
    obtain ⟨x1, x2⟩ := i1 x hx
    dsimp only
    have hsum : x.1 * b + (x.2 - x.1 + 1) * b ≤ n * b := by
      rw [← Nat.add_mul]
      exact Nat.mul_le_mul_right _ (by omega)
    rw [Nat.mod_eq_of_lt (by omega), Nat.mod_eq_of_lt (by omega)]
    exact div_add_le _ _ _ hsum

theorem verified_sig {bits : Types} {check : Bool} {rs : List RFn} {ss : List DS} {vs : List VDS} (hv : verifyAll bits check rs ss = some vs)
    {s : DS} (hs : s ∈ ss) (hi : SInv s) {d : DSig} (hd : d ∈ s.sigs) (ht : d.ty ≠ none) :
    s.stray = false ∧ ∃ V ∈ vs, V.name = s.name ∧ ∃ v ∈ V.sigs, v.sig.name = d.name ∧ v.sig.ty = d.ty ∧ v.sig.uses = d.uses ∧
      Keeps d.elems v.sig.elems ∧ (∃ b n, d.ty.bind bits = some b ∧ v.sig.elems = some n ∧ 0 < n ∧ v.byteSize = n * b % 2 ^ 32 / 8) ∧
      ∀ u ∈ d.uses, verifyState check s.timing rs d.uses u.state = true := by
  obtain ⟨V, hV, hds⟩ := (verifyAll_facts ss hv).1 s hs
  obtain ⟨h1, h2, h3, h4⟩ := verifyDS_facts hds
  obtain ⟨v, g1, g2, g3, g4, g5, g6⟩ := (verifySigs_facts _ h3).2.1 d hd ht (hi.typed d hd).nonempty
  refine ⟨h1, V, hV, h2, v, g1, g2, g3, g4, g5, g6, ?_⟩
  intro u hu
  have := h4 v g1 u (by rw [g4]; exact hu)
  rwa [g4] at this

/-! ## Producers -/

theorem checkRanges_iff (l : List (Nat × Nat)) : checkRanges l = true ↔
    l.Pairwise fun a b => (a.1 < b.1 ∧ a.2 < b.1) ∨ (b.1 < a.1 ∧ b.2 < a.1) := by
  induction l with
  | nil => simp [checkRanges]
  | cons x xs ih => simp [checkRanges, ih]

theorem producersRanges_mem {rs : List RFn} (us : List Use) : ∀ {l : List (Nat × Nat)}, producersRanges rs us = some l →
    ∀ u ∈ us, ∃ R r q, rs[u.fn]? = some R ∧ R.outs[u.sig]? = some r ∧ r.sig.ranges = some q ∧ ∀ a ∈ q, a ∈ l := by
  induction us with
  | nil => intro l h; simp
  | cons u us ih =>
    intro l h
    rw [producersRanges] at h
    cases h1 : rs[u.fn]? with
    | none => rw [h1] at h; cases h
    | some R =>
      rw [h1] at h
      dsimp only at h
      cases h2 : R.outs[u.sig]? with
      | none => rw [h2] at h; cases h
      | some r =>
        rw [h2] at h
        dsimp only at h
        cases h3 : r.sig.ranges with
        | none => rw [h3] at h; cases h
        | some q =>
          rw [h3] at h
          dsimp only at h
          cases h4 : producersRanges rs us with
          | none => rw [h4] at h; cases h
          | some l' =>
            rw [h4] at h
            simp only [Option.map_some, Option.some.injEq] at h
            subst h
            intro w hw
            rcases List.mem_cons.mp hw with rfl | hw
            · exact ⟨R, r, q, h1, h2, h3, fun a ha => List.mem_append_left _ ha⟩
            · obtain ⟨R', r', q', g1, g2, g3, g4⟩ := ih h4 w hw
              exact ⟨R', r', q', g1, g2, g3, fun a ha => List.mem_append_right _ (g4 a ha)⟩

theorem producersRanges_apart {rs : List RFn} (P : Nat × Nat → Nat × Nat → Prop) (hsym : ∀ a b, P a b → P b a) (us : List Use) :
    ∀ {l : List (Nat × Nat)}, producersRanges rs us = some l → l.Pairwise P →
    ∀ u ∈ us, ∀ w ∈ us, u ≠ w → ∀ R r q R' r' q', rs[u.fn]? = some R → R.outs[u.sig]? = some r → r.sig.ranges = some q →
      rs[w.fn]? = some R' → R'.outs[w.sig]? = some r' → r'.sig.ranges = some q' → ∀ a ∈ q, ∀ b ∈ q', P a b := by
  induction us with
  | nil => intro l h; simp
  | cons u us ih =>
    intro l h hp
    rw [producersRanges] at h
    cases h1 : rs[u.fn]? with
    | none => rw [h1] at h; cases h
    | some R =>
      rw [h1] at h
      dsimp only at h
      cases h2 : R.outs[u.sig]? with
      | none => rw [h2] at h; cases h
      | some r =>
        rw [h2] at h
        dsimp only at h
        cases h3 : r.sig.ranges with
        | none => rw [h3] at h; cases h
        | some q =>
          rw [h3] at h
          dsimp only at h
          cases h4 : producersRanges rs us with
          | none => rw [h4] at h; cases h
          | some l' =>
            rw [h4] at h
            simp only [Option.map_some, Option.some.injEq] at h
            subst h
            rw [List.pairwise_append] at hp
            obtain ⟨p1, p2, p3⟩ := hp
            have cross : ∀ w ∈ us, ∀ R' r' q', rs[w.fn]? = some R' → R'.outs[w.sig]? = some r' → r'.sig.ranges = some q' →
                ∀ a ∈ q, ∀ b ∈ q', P a b := by
              intro w hw R' r' q' e1 e2 e3 a ha b hb
              obtain ⟨R'', r'', q'', g1, g2, g3, g4⟩ := producersRanges_mem us h4 w hw
              rw [e1] at g1; cases g1
              rw [e2] at g2; cases g2
              rw [e3] at g3; cases g3
              exact p3 a ha b (g4 b hb)
            intro x hx w hw hne R₁ r₁ q₁ R₂ r₂ q₂ e1 e2 e3 e4 e5 e6 a ha b hb
            rcases List.mem_cons.mp hx with hxu | hx'
            · rcases List.mem_cons.mp hw with hwu | hw'
              · exact absurd (hxu.trans hwu.symm) hne
              · subst hxu
                rw [h1] at e1; cases e1
                rw [h2] at e2; cases e2
                rw [h3] at e3; cases e3
                exact cross w hw' R₂ r₂ q₂ e4 e5 e6 a ha b hb
            · rcases List.mem_cons.mp hw with hwu | hw'
              · subst hwu
                rw [h1] at e4; cases e4
                rw [h2] at e5; cases e5
                rw [h3] at e6; cases e6
                exact hsym _ _ (cross x hx' R₁ r₁ q₁ e1 e2 e3 b hb a ha)
              · exact ih h4 p2 x hx' w hw' hne R₁ r₁ q₁ R₂ r₂ q₂ e1 e2 e3 e4 e5 e6 a ha b hb

theorem length_of_two {α : Type} {l : List α} {a b : α} (ha : a ∈ l) (hb : b ∈ l) (h : a ≠ b) : 1 < l.length := by
  cases l with
  | nil => simp at ha
  | cons x xs =>
    cases xs with
    | nil =>
      simp only [List.mem_singleton] at ha hb
      exact absurd (ha.trans hb.symm) h
    | cons y ys => simp

/-- The two nodes named by two signals with the same name in the same data source are the same. -/
theorem same_node {ss : List DS} (hn : (ss.map fun s => s.name).Nodup) (hi : ∀ s ∈ ss, SInv s) {s s' : DS} (hs : s ∈ ss) (hs' : s' ∈ ss)
    (he : s.name = s'.name) {d d' : DSig} (hd : d ∈ s.sigs) (hd' : d' ∈ s'.sigs) (hde : d.name = d'.name) : s = s' ∧ d = d' := by
  have h1 := nodup_map_inj (fun s : DS => s.name) hn s hs s' hs' he
  subst h1
  exact ⟨rfl, nodup_map_inj (fun d : DSig => d.name) (hi s hs).names d hd d' hd' hde⟩

/-- Memory of one direction. -/
theorem resolveSigs_memory {bits : Types} {states : List String} {p : Bool} {k : Nat} (fs : List FSig) :
    ∀ {j memory : Nat} {ss ss' : List DS} {rs : List RSig} {total : Nat},
    resolveSigs bits states p k j memory fs ss = some (rs, total, ss') → memory < 2 ^ 32 →
    total = (memory + (rs.map area).sum) % 2 ^ 32 ∧
    ∀ (i : Nat) r, rs[i]? = some r → r.memory = (memory + ((rs.take i).map area).sum) % 2 ^ 32 := by
  induction fs with
  | nil =>
    intro j memory ss ss' rs total h hm
    simp only [resolveSigs, Option.some.injEq, Prod.mk.injEq] at h
    obtain ⟨rfl, rfl, rfl⟩ := h
    exact ⟨by simp; omega, by simp⟩
  | cons f fs ih =>
    intro j memory ss ss' rs total h hm
    rw [resolveSigs] at h
    cases h1 : resolveSig bits states p k j f memory ss with
    | none => rw [h1] at h; cases h
    | some x =>
      obtain ⟨r, ss₁⟩ := x
      rw [h1] at h
      dsimp only at h
      cases h2 : resolveSigs bits states p k (j + 1) ((memory + r.byteSize * r.samples % 2 ^ 32) % 2 ^ 32) fs ss₁ with
      | none => rw [h2] at h; cases h
      | some y =>
        obtain ⟨rs₁, t₁, ss₂⟩ := y
        rw [h2] at h
        simp only [Option.some.injEq, Prod.mk.injEq] at h
        obtain ⟨rfl, rfl, rfl⟩ := h
        obtain ⟨i1, i2⟩ := ih h2 (by omega)
        have hmem := (memorySize_some (resolveSig_step h1).mem).2.1
        refine ⟨?_, ?_⟩
        · rw [i1, List.map_cons, List.sum_cons, show area r = r.byteSize * r.samples from rfl]
          omega
        · intro i q hq
          cases i with
          | zero =>
            simp only [List.getElem?_cons_zero, Option.some.injEq] at hq
            subst hq
            rw [hmem]
            simp
            omega
          | succ i =>
            rw [i2 i q (by simpa using hq), List.take_succ_cons, List.map_cons, List.sum_cons,
              show area r = r.byteSize * r.samples from rfl]
            omega

end Verif.AppBuild
