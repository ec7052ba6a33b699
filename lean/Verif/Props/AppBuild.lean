import Verif.Proof.AppBuild5
set_option maxRecDepth 8000
set_option synthInstance.maxSize 2000
/-!
# C57: what an accepted real-time application guarantees

`build bits check fns dss = some (app, sources)` reads: the functions `fns` and the data sources `dss` are accepted, and give the
resolved functions `app` and data sources `sources`; `bits` is the table of basic types, `check` the option
`CheckMultipleProducersWrites`.
-/
namespace Verif.AppBuild
open Spec

/-- All the functions and all their signals are there, in their places; what a signal declares is not changed. -/
theorem c57_shape {bits : Types} {check : Bool} {fns : List Fn} {dss : List DS} {app : List RFn} {sources : List VDS}
    (hf : Flat fns dss) (h : build bits check fns dss = some (app, sources)) :
    app.map (fun r => r.fn) = fns ∧ sources.map (fun s => s.name) = dss.map (fun s => s.name) ∧
    (∀ (k : Nat) fn, fns[k]? = some fn → ∃ R, app[k]? = some R ∧ ∀ d, (resolved d R).length = (declared d fn).length) ∧
    ∀ d k j fn f r, At fns app d k j fn f r →
      r.sig.name = f.name ∧ r.sig.alias = f.alias ∧ r.sig.ds = f.ds ∧ r.sig.ranges = f.ranges ∧ r.samples = f.samples.getD 1 ∧
      (f.ty ≠ none → r.sig.ty = f.ty) ∧ (f.elems ≠ none → r.sig.elems = f.elems) ∧ (f.dims ≠ none → r.sig.dims = f.dims) ∧
      (f.dflt ≠ none → r.sig.dflt = f.dflt) ∧ (f.member ≠ none → r.sig.member = f.member) ∧
      ∃ ty b n, r.sig.ty = some ty ∧ bits ty = some b ∧ r.sig.elems = some n := by
  obtain ⟨ss, h1, h2⟩ := build_some h
  have hr := resolve_facts fns h1
  refine ⟨hr.2.1, (verifyAll_facts ss h2).2.2.trans hr.1.names, ?_, ?_⟩
  · intro k fn hk
    obtain ⟨R, e1, _, e3⟩ := hr.2.2.2.1 k fn hk
    exact ⟨R, e1, fun d => (e3 d).1⟩
  · intro d k j fn f r ha
    have hg := (good_of_at h1 hf ha).fle
    obtain ⟨mem, hm⟩ := memory_of_at h1 ha
    obtain ⟨_, _, m3, _, ty, b, n, e1, e2, e3, _⟩ := memorySize_some hm
    exact ⟨hg.name, hg.alias, hg.ds, hg.ranges, by rw [m3, hg.samples], hg.ty, hg.elems, hg.dims, hg.dflt, hg.member, ty, b, n, e1, e2, e3⟩

/-- A name leads to at most one signal of the data sources. -/
theorem c57_unique {bits : Types} {check : Bool} {fns : List Fn} {dss : List DS} {app : List RFn} {sources : List VDS}
    (hf : Flat fns dss) (h : build bits check fns dss = some (app, sources)) (f : FSig) (v w : VSig)
    (hv : Named sources f v) (hw : Named sources f w) : v = w := by
  obtain ⟨ss, h1, h2⟩ := build_some h
  have hr := resolve_facts fns h1
  have hnd : (sources.map fun s => s.name).Nodup := by
    rw [(verifyAll_facts ss h2).2.2, hr.1.names]; exact hf.dss_names
  obtain ⟨s, s1, s2, s3, s4⟩ := hv
  obtain ⟨t, t1, t2, t3, t4⟩ := hw
  have hst := nodup_map_inj (fun s : VDS => s.name) hnd s s1 t t1 (s2.trans t2.symm)
  subst hst
  obtain ⟨s₀, hs₀, hds⟩ := (verifyAll_facts ss h2).2.1 s s1
  have hvs := (verifyDS_facts hds).2.2.1
  obtain ⟨l, l1, l2⟩ := (verifySigs_facts _ hvs).2.2.1
  have hn : (s.sigs.map fun v => v.sig.name).Nodup := by
    rw [l1]
    simp only [List.map_nil, List.nil_append]
    exact l2.nodup ((hr.2.2.1 hf.typed hf.inv s₀ hs₀).names)
  exact nodup_map_inj (fun v : VSig => v.sig.name) hn v s3 w t3 (s4.trans t4.symm)

/-- A signal of a function that declares its number of elements leads to a signal of its data source, of the same type, with as many
elements; if the size of that signal fits in 32 bits it is the one of its type and elements, and all that the function copies is
inside. (Partial: not for the signals that do not declare their number of elements: see `c57_type_fails` and `c57_order_fails`.) -/
theorem c57_agree_partial {bits : Types} {check : Bool} {fns : List Fn} {dss : List DS} {app : List RFn} {sources : List VDS}
    (hf : Flat fns dss) (h : build bits check fns dss = some (app, sources))
    {d : Dir} {k j : Nat} {fn : Fn} {f : FSig} {r : RSig} (ha : At fns app d k j fn f r) (hd : f.elems ≠ none) :
    ∃ v ty b n, Named sources f v ∧ v.sig.ty = some ty ∧ r.sig.ty = some ty ∧ bits ty = some b ∧
      v.sig.elems = some n ∧ r.sig.elems = some n ∧ 0 < n ∧
      (n * b < 2 ^ 32 → v.byteSize = n * b / 8 ∧ ∀ o ∈ r.offsets, o.1 + o.2 ≤ v.byteSize) := by
  obtain ⟨ss, h1, h2⟩ := build_some h
  have hr := resolve_facts fns h1
  obtain ⟨hle, s, hs, hn, _, hnode⟩ := good_of_at h1 hf ha
  obtain ⟨e, he, he1, he2, he3⟩ := hnode hd
  obtain ⟨mem, hm⟩ := memory_of_at h1 ha
  obtain ⟨_, _, _, _, ty, b, n, m1, m2, m3, _⟩ := memorySize_some hm
  have hty : e.ty ≠ none := by rw [he2, m1]; simp
  obtain ⟨_, V, hV, hVn, v, hv, v1, v2, v3, v4, ⟨b', n', w1, w2, w3, w4⟩, _⟩ := verified_sig h2 hs (hr.2.2.1 hf.typed hf.inv s hs) he hty
  have hel : v.sig.elems = e.elems := v4 (by rw [he3, m3]; simp)
  rw [he3, m3, w2] at hel
  cases hel
  rw [he2, m1] at w1
  have hbb : b' = b := by
    have : bits ty = some b' := w1
    rw [m2] at this
    cases this
    rfl
  subst hbb
  refine ⟨v, ty, b', n, ⟨V, hV, hVn.trans hn, hv, v1.trans he1⟩, by rw [v2, he2, m1], m1, m2, w2, m3, w3, ?_⟩
  intro hlt
  rw [w4, Nat.mod_eq_of_lt hlt]
  exact ⟨rfl, offsets_inside hm ty b' n m1 m2 m3 hlt⟩

/-- Each range a function asks for is a range of elements of its signal; the bytes it copies are those of the ranges, in their order
(or all those of the signal), and its size is their sum. -/
theorem c57_ranges {bits : Types} {check : Bool} {fns : List Fn} {dss : List DS} {app : List RFn} {sources : List VDS}
    (hf : Flat fns dss) (h : build bits check fns dss = some (app, sources))
    {d : Dir} {k j : Nat} {fn : Fn} {f : FSig} {r : RSig} (ha : At fns app d k j fn f r) :
    ∃ ty b n, r.sig.ty = some ty ∧ bits ty = some b ∧ r.sig.elems = some n ∧
      (∀ rs, f.ranges = some rs → ∀ x ∈ rs, x.1 ≤ x.2 ∧ x.2 < n) ∧
      (n * b < 2 ^ 32 →
        (f.ranges = none → r.offsets = [(0, n * b / 8)] ∧ r.byteSize = n * b / 8) ∧
        ∀ rs, f.ranges = some rs → rs ≠ [] →
          r.offsets = rs.map (fun x => (x.1 * b / 8, (x.2 - x.1 + 1) * b / 8)) ∧
          r.byteSize = (rs.map fun x => (x.2 - x.1 + 1) * b / 8).sum % 2 ^ 32) := by
  obtain ⟨ss, h1, h2⟩ := build_some h
  have hg := (good_of_at h1 hf ha).fle
  obtain ⟨mem, hm⟩ := memory_of_at h1 ha
  obtain ⟨_, _, _, _, ty, b, n, m1, m2, m3, hc⟩ := memorySize_some hm
  rw [hg.ranges] at hc
  refine ⟨ty, b, n, m1, m2, m3, ?_, ?_⟩
  · intro rs hrs x hx
    rcases hc with ⟨c1, _⟩ | ⟨c1, _⟩ | ⟨q, _, c1, c2, _⟩
    · rw [hrs] at c1; cases c1
    · rw [hrs] at c1; cases c1; simp at hx
    · rw [hrs] at c1; cases c1
      exact (byteOffsets_some _ c2).1 x hx
  · intro hw
    refine ⟨?_, ?_⟩
    · intro hn
      rcases hc with ⟨_, c2, c3⟩ | ⟨c1, _⟩ | ⟨q, _, c1, _⟩
      · rw [Nat.mod_eq_of_lt hw] at c2
        exact ⟨by rw [c3, c2], c2⟩
      · rw [hn] at c1; cases c1
      · rw [hn] at c1; cases c1
    · intro rs hrs hne
      rcases hc with ⟨c1, _⟩ | ⟨c1, _⟩ | ⟨q, _, c1, c2, c3⟩
      · rw [hrs] at c1; cases c1
      · rw [hrs] at c1; cases c1; exact absurd rfl hne
      · rw [hrs] at c1; cases c1
        obtain ⟨b1, b2⟩ := byteOffsets_some _ c2
        have hmap : rs.map (fun x => (x.1 * b % 2 ^ 32 / 8, (x.2 - x.1 + 1) * b % 2 ^ 32 / 8)) =
            rs.map (fun x => (x.1 * b / 8, (x.2 - x.1 + 1) * b / 8)) := by
          apply List.map_congr_left
          intro x hx
          obtain ⟨x1, x2⟩ := b1 x hx
          have hsum : x.1 * b + (x.2 - x.1 + 1) * b ≤ n * b := by
            rw [← Nat.add_mul]
            exact Nat.mul_le_mul_right _ (by omega)
          rw [Nat.mod_eq_of_lt (by omega), Nat.mod_eq_of_lt (by omega)]
        rw [hmap] at b2
        refine ⟨b2, ?_⟩
        rw [c3, b2]
        have := foldl_mod ((rs.map fun x => (x.1 * b / 8, (x.2 - x.1 + 1) * b / 8)).map Prod.snd) 0
        rw [show (0 : Nat) % 2 ^ 32 = 0 from rfl, Nat.zero_add] at this
        rw [this, List.map_map]
        rfl

/-- The signals of a function, inputs or outputs, are in its memory one after the other from the beginning, and fill it, if the sum
of their sizes fits in 32 bits. -/
theorem c57_memory {bits : Types} {check : Bool} {fns : List Fn} {dss : List DS} {app : List RFn} {sources : List VDS}
    (h : build bits check fns dss = some (app, sources)) (d : Dir) (k : Nat) (R : RFn) (hR : app[k]? = some R)
    (hw : ((resolved d R).map area).sum < 2 ^ 32) :
    areaSize d R = ((resolved d R).map area).sum ∧
    ∀ (i : Nat) r, (resolved d R)[i]? = some r → r.memory = (((resolved d R).take i).map area).sum := by
  obtain ⟨ss, h1, h2⟩ := build_some h
  have hr := resolve_facts fns h1
  have hfn : fns[k]? = some R.fn := by
    rw [← hr.2.1, List.getElem?_map, hR]
    rfl
  obtain ⟨R', e1, _, e3⟩ := hr.2.2.2.1 k R.fn hfn
  rw [hR] at e1
  cases e1
  obtain ⟨_, t, t', e4⟩ := e3 d
  obtain ⟨m1, m2⟩ := resolveSigs_memory _ e4 (by omega)
  refine ⟨by rw [m1, Nat.zero_add, Nat.mod_eq_of_lt hw], ?_⟩
  intro i r hi
  rw [m2 i r hi, Nat.zero_add, Nat.mod_eq_of_lt]
  refine Nat.lt_of_le_of_lt ?_ hw
  have hsplit : ((resolved d R).map area).sum = (((resolved d R).take i).map area).sum + (((resolved d R).drop i).map area).sum := by
    rw [← List.sum_append, ← List.map_append, List.take_append_drop]
  omega

/-- Two output signals that lead to the same signal of a data source, in functions of a common state: both say which elements they
write, and no element is written by both. -/
theorem c57_producers {bits : Types} {fns : List Fn} {dss : List DS} {app : List RFn} {sources : List VDS}
    (hf : Flat fns dss) (h : build bits true fns dss = some (app, sources))
    {k₁ k₂ j₁ j₂ : Nat} {fn₁ fn₂ : Fn} {f₁ f₂ : FSig} (hk₁ : fns[k₁]? = some fn₁) (hk₂ : fns[k₂]? = some fn₂)
    (hj₁ : fn₁.outs[j₁]? = some f₁) (hj₂ : fn₂.outs[j₂]? = some f₂) (hne : (k₁, j₁) ≠ (k₂, j₂))
    (hds : f₁.ds = f₂.ds) (hn : wanted f₁ = wanted f₂) (st : String) (hs₁ : st ∈ fn₁.states) (hs₂ : st ∈ fn₂.states) :
    ∃ rs₁ rs₂, f₁.ranges = some rs₁ ∧ f₂.ranges = some rs₂ ∧ ∀ a ∈ rs₁, ∀ b ∈ rs₂, Apart a b := by
  obtain ⟨ss, h1, h2⟩ := build_some h
  have hr := resolve_facts fns h1
  have hat : ∀ {k j : Nat} {fn : Fn} {f : FSig}, fns[k]? = some fn → fn.outs[j]? = some f → ∃ R r, app[k]? = some R ∧ R.outs[j]? = some r ∧
      At fns app .output k j fn f r := by
    intro k j fn f hk hj
    obtain ⟨R, e1, _, e3⟩ := hr.2.2.2.1 k fn hk
    have hl : R.outs.length = fn.outs.length := (e3 .output).1
    have hlt : j < fn.outs.length := by
      rcases Nat.lt_or_ge j fn.outs.length with hl | hl
      · exact hl
      · rw [List.getElem?_eq_none hl] at hj; cases hj
    have hrj : R.outs[j]? = some (R.outs[j]'(by omega)) := List.getElem?_eq_getElem (by omega)
    exact ⟨R, _, e1, hrj, hk, hj, R, e1, hrj⟩
  obtain ⟨R₁, r₁, a1, a2, a3⟩ := hat hk₁ hj₁
  obtain ⟨R₂, r₂, b1, b2, b3⟩ := hat hk₂ hj₂
  obtain ⟨l₁, s, hs, sn, su, _⟩ := good_of_at h1 hf a3
  obtain ⟨l₂, t, ht', tn, tu, _⟩ := good_of_at h1 hf b3
  have hinv := hr.2.2.1 hf.typed hf.inv
  have hnd : (ss.map fun s => s.name).Nodup := by rw [hr.1.names]; exact hf.dss_names
  have hst := nodup_map_inj (fun s : DS => s.name) hnd s hs t ht' (sn.trans (hds.trans tn.symm))
  subst hst
  have hstray : s.stray = false := by
    obtain ⟨V, _, hV⟩ := (verifyAll_facts ss h2).1 s hs
    exact (verifyDS_facts hV).1
  obtain ⟨d₁, c1, c2, c3, c4⟩ : ∃ d ∈ s.sigs, d.name = wanted f₁ ∧ (⟨st, true, k₁, j₁⟩ : Use) ∈ d.uses ∧ d.ty ≠ none := by
    rcases su st hs₁ with h | h
    · rw [hstray] at h; cases h
    · exact h
  obtain ⟨d₂, g1, g2, g3, g4⟩ : ∃ d ∈ s.sigs, d.name = wanted f₂ ∧ (⟨st, true, k₂, j₂⟩ : Use) ∈ d.uses ∧ d.ty ≠ none := by
    rcases tu st hs₂ with h | h
    · rw [hstray] at h; cases h
    · exact h
  have hdd := nodup_map_inj (fun d : DSig => d.name) (hinv s hs).names d₁ c1 d₂ g1 (by rw [c2, g2, hn])
  subst hdd
  obtain ⟨_, V, hV, _, v, _, _, _, _, _, _, hver⟩ := verified_sig h2 hs (hinv s hs) c1 c4
  have hvs := hver _ c3
  have m₁ : (⟨st, true, k₁, j₁⟩ : Use) ∈ d₁.uses.filter (fun u => u.producer && decide (u.state = st)) := by
    rw [List.mem_filter]; exact ⟨c3, by simp⟩
  have htm : s.timing = false := by
    cases ht : s.timing with
    | false => rfl
    | true =>
      unfold verifyState at hvs
      rw [ht] at hvs
      simp only [if_true, List.isEmpty_iff] at hvs
      rw [hvs] at m₁
      simp at m₁
  unfold verifyState at hvs
  rw [htm] at hvs
  simp only [Bool.false_eq_true, if_false] at hvs
  have m₂ : (⟨st, true, k₂, j₂⟩ : Use) ∈ d₁.uses.filter (fun u => u.producer && decide (u.state = st)) := by
    rw [List.mem_filter]; exact ⟨g3, by simp⟩
  have une : (⟨st, true, k₁, j₁⟩ : Use) ≠ ⟨st, true, k₂, j₂⟩ := by
    intro he
    simp only [Use.mk.injEq, true_and] at he
    exact hne (by rw [he.1, he.2])
  rw [if_pos ⟨trivial, length_of_two m₁ m₂ une⟩] at hvs
  cases hpr : producersRanges app (d₁.uses.filter fun u => u.producer && decide (u.state = st)) with
  | none => rw [hpr] at hvs; cases hvs
  | some l =>
    rw [hpr] at hvs
    have hp := (checkRanges_iff l).mp hvs
    obtain ⟨P₁, p₁, q₁, x1, x2, x3, _⟩ := producersRanges_mem _ hpr _ m₁
    obtain ⟨P₂, p₂, q₂, y1, y2, y3, _⟩ := producersRanges_mem _ hpr _ m₂
    have hap := producersRanges_apart _ (fun a b h => h.elim Or.inr Or.inl) _ hpr hp _ m₁ _ m₂ une _ _ _ _ _ _ x1 x2 x3 y1 y2 y3
    dsimp only at x1 x2 y1 y2
    rw [a1] at x1; cases x1
    rw [a2] at x2; cases x2
    rw [b1] at y1; cases y1
    rw [b2] at y2; cases y2
    refine ⟨q₁, q₂, by rw [← l₁.ranges]; exact x3, by rw [← l₂.ranges]; exact y3, ?_⟩
    intro a ha b hb
    rcases hap a ha b hb with h | h
    · exact Or.inl h.2
    · exact Or.inr h.2

/-- No function of a state writes to the timing data source. -/
theorem c57_timing {bits : Types} {check : Bool} {fns : List Fn} {dss : List DS} {app : List RFn} {sources : List VDS}
    (hf : Flat fns dss) (h : build bits check fns dss = some (app, sources))
    (fn : Fn) (hfn : fn ∈ fns) (hst : fn.states ≠ []) (f : FSig) (ho : f ∈ fn.outs) (s : DS) (hs : s ∈ dss) (hn : s.name = f.ds) :
    s.timing = false := by
  obtain ⟨ss, h1, h2⟩ := build_some h
  have hr := resolve_facts fns h1
  obtain ⟨k, hk⟩ := List.mem_iff_getElem?.mp hfn
  obtain ⟨j, hj⟩ := List.mem_iff_getElem?.mp ho
  obtain ⟨R, e1, _, e3⟩ := hr.2.2.2.1 k fn hk
  have hl : R.outs.length = fn.outs.length := (e3 .output).1
  have hlt : j < fn.outs.length := by
    rcases Nat.lt_or_ge j fn.outs.length with hl | hl
    · exact hl
    · rw [List.getElem?_eq_none hl] at hj; cases hj
  have hrj : R.outs[j]? = some (R.outs[j]'(by omega)) := List.getElem?_eq_getElem (by omega)
  obtain ⟨_, t, ht, tn, tu, _⟩ := good_of_at h1 hf (⟨hk, hj, R, e1, hrj⟩ : At fns app .output k j fn f _)
  have hinv := hr.2.2.1 hf.typed hf.inv
  cases hst' : fn.states with
  | nil => exact absurd hst' hst
  | cons st sts =>
    have hstray : t.stray = false := by
      obtain ⟨V, _, hV⟩ := (verifyAll_facts ss h2).1 t ht
      exact (verifyDS_facts hV).1
    obtain ⟨d, c1, c2, c3, c4⟩ : ∃ d ∈ t.sigs, d.name = wanted f ∧ (⟨st, true, k, j⟩ : Use) ∈ d.uses ∧ d.ty ≠ none := by
      rcases tu st (by rw [hst']; simp) with h | h
      · rw [hstray] at h; cases h
      · exact h
    obtain ⟨_, V, hV, _, v, _, _, _, _, _, _, hver⟩ := verified_sig h2 ht (hinv t ht) c1 c4
    have hvs := hver _ c3
    have htm : t.timing = s.timing := by
      obtain ⟨s₀, hs₀, hle⟩ := hr.1.ge t ht
      have : s₀ = s := nodup_map_inj (fun s : DS => s.name) hf.dss_names s₀ hs₀ s hs (by rw [← hle.name, tn, hn])
      rw [← this, hle.timing]
    rw [← htm]
    unfold verifyState at hvs
    cases ht' : t.timing with
    | false => rfl
    | true =>
      rw [ht'] at hvs
      simp only [if_true, List.isEmpty_iff] at hvs
      have m₁ : (⟨st, true, k, j⟩ : Use) ∈ d.uses.filter (fun u => u.producer && decide (u.state = st)) := by
        rw [List.mem_filter]; exact ⟨c3, by simp⟩
      rw [hvs] at m₁
      simp at m₁

/-- A locked data source gets no new signals, and the signals of functions of a state, or that declare their number of elements, are
among those it has. (Partial: see `c57_locked_fails`.) -/
theorem c57_locked_partial {bits : Types} {check : Bool} {fns : List Fn} {dss : List DS} {app : List RFn} {sources : List VDS}
    (hf : Flat fns dss) (h : build bits check fns dss = some (app, sources)) (s : DS) (hs : s ∈ dss) (hl : s.locked = true) :
    (∀ V ∈ sources, V.name = s.name → ∀ v ∈ V.sigs, ∃ d ∈ s.sigs, d.name = v.sig.name) ∧
    ∀ d k j fn f r, At fns app d k j fn f r → f.ds = s.name → fn.states ≠ [] ∨ f.elems ≠ none → ∃ e ∈ s.sigs, e.name = wanted f := by
  obtain ⟨ss, h1, h2⟩ := build_some h
  have hr := resolve_facts fns h1
  have back : ∀ t ∈ ss, t.name = s.name → ∀ d ∈ t.sigs, ∃ e ∈ s.sigs, e.name = d.name := by
    intro t ht htn d hd
    obtain ⟨s₀, hs₀, hle⟩ := hr.1.ge t ht
    have : s₀ = s := nodup_map_inj (fun s : DS => s.name) hf.dss_names s₀ hs₀ s hs (by rw [← hle.name, htn])
    subst this
    have hm : d.name ∈ t.sigs.map (fun d => d.name) := List.mem_map.mpr ⟨d, hd, rfl⟩
    rw [hle.lock hl] at hm
    exact List.mem_map.mp hm
  refine ⟨?_, ?_⟩
  · intro V hV hn v hv
    obtain ⟨t, ht, hds⟩ := (verifyAll_facts ss h2).2.1 V hV
    obtain ⟨_, g2, g3, _⟩ := verifyDS_facts hds
    rcases (verifySigs_facts _ g3).2.2.2 v hv with h | ⟨d, hd, e1, _⟩
    · simp at h
    · obtain ⟨e, he, hen⟩ := back t ht (g2.symm.trans hn) d hd
      exact ⟨e, he, hen.trans e1.symm⟩
  · intro d k j fn f r ha hfd hor
    obtain ⟨_, t, ht, tn, tu, te⟩ := good_of_at h1 hf ha
    have hstray : t.stray = false := by
      obtain ⟨V, _, hV⟩ := (verifyAll_facts ss h2).1 t ht
      exact (verifyDS_facts hV).1
    have : ∃ x ∈ t.sigs, x.name = wanted f := by
      rcases hor with hst | he
      · cases hst' : fn.states with
        | nil => exact absurd hst' hst
        | cons st sts =>
          rcases tu st (by rw [hst']; simp) with h | ⟨x, hx, hxn, _⟩
          · rw [hstray] at h; cases h
          · exact ⟨x, hx, hxn⟩
      · obtain ⟨x, hx, hxn, _⟩ := te he
        exact ⟨x, hx, hxn⟩
    obtain ⟨x, hx, hxn⟩ := this
    obtain ⟨e, he, hen⟩ := back t ht (tn.trans hfd) x hx
    exact ⟨e, he, hen.trans hxn⟩

/-- A configuration where every signal is described, and in the same way everywhere, is accepted: with the option, if no element is
written twice in a state.  (A function without signals is refused by the step that follows, see C120.) -/
theorem c57_accepts {bits : Types} {T : String → Name → Profile} {fns : List Fn} {dss : List DS} (check : Bool)
    (hc : Consistent bits T fns dss) (hf : Flat fns dss) (hw : check = true → OneWriter fns) :
    ∃ app sources, build bits check fns dss = some (app, sources) := build_ok check hc hf hw

/-- **C57.** No signal of a data source is lost: each is in the data source at the end, or its name is the beginning of the name of
one that is (it stands for a structure, whose members are there). A signal with a type is always there. -/
theorem c57_kept {bits : Types} {check : Bool} {fns : List Fn} {dss : List DS} {app : List RFn} {sources : List VDS}
    (hf : Flat fns dss) (h : build bits check fns dss = some (app, sources)) (s : DS) (hs : s ∈ dss) (e : DSig) (he : e ∈ s.sigs) :
    ∃ V ∈ sources, V.name = s.name ∧ ∃ v ∈ V.sigs, e.name <+: v.sig.name ∧ (e.ty ≠ none → v.sig.name = e.name ∧ v.sig.ty = e.ty) := by
  obtain ⟨ss, h1, h2⟩ := build_some h
  have hr := resolve_facts fns h1
  obtain ⟨s', hs', hle⟩ := hr.1.le s hs
  obtain ⟨d, hd, hdl⟩ := hle.sigs e he
  obtain ⟨V, hV, hvd⟩ := (verifyAll_facts ss h2).1 s' hs'
  have hvs := verifyDS_facts hvd
  refine ⟨V, hV, hvs.2.1.trans hle.name, ?_⟩
  by_cases ht : e.ty = none
  · obtain ⟨v, hv, hp⟩ := verifySigs_kept _ hvs.2.2.1 d hd
    exact ⟨v, hv, by rw [← hdl.name]; exact hp, fun h => absurd ht h⟩
  · have hty := hdl.ty ht
    obtain ⟨v, hv, n1, n2, _⟩ := (verifySigs_facts _ hvs.2.2.1).2.1 d hd (by rw [hty]; exact ht)
      (by rw [hty]; exact (hf.dss_typed s hs e he).2)
    exact ⟨v, hv, by rw [n1, hdl.name]; exact List.prefix_rfl, fun _ => ⟨n1.trans hdl.name, n2.trans hty⟩⟩

/-- **C57.** The types of the structures agree: if the data source knows all the types that lead to a signal, no function with this signal
says another (for functions that declare the number of elements; see `c57_type_fails` for the others). -/
theorem c57_full_type_partial {bits : Types} {check : Bool} {fns : List Fn} {dss : List DS} {app : List RFn} {sources : List VDS}
    (hf : Flat fns dss) (h : build bits check fns dss = some (app, sources)) (s : DS) (hs : s ∈ dss) (e : DSig) (he : e ∈ s.sigs)
    (hc : Complete e.fullType) (fn : Fn) (hfn : fn ∈ fns) (f : FSig) (hsig : f ∈ fn.ins ∨ f ∈ fn.outs) (hds : f.ds = s.name)
    (hn : wanted f = e.name) (hel : f.elems ≠ none) (hft : f.fullType ≠ []) :
    f.fullType = e.fullType ∨ SameTypes e.name f.fullType e.fullType := by
  obtain ⟨ss, h1, h2⟩ := build_some h
  refine resolve_same hc fns h1 ⟨fun g hg f hf' => ?_, fun g hg f hf' => ?_⟩ ⟨hf.dss_names, ?_, s, hs, rfl, e, he, rfl, rfl⟩ fn hfn f hsig hds hn hel hft
  · exact ⟨(hf.fns_typed g hg f (Or.inl hf')).1, (hf.fns_typed g hg f (Or.inl hf')).2⟩
  · exact ⟨(hf.fns_typed g hg f (Or.inr hf')).1, (hf.fns_typed g hg f (Or.inr hf')).2⟩
  · intro t ht
    exact ⟨hf.sig_names t ht, fun d hd => ⟨(hf.dss_typed t ht d hd).1, (hf.dss_typed t ht d hd).2⟩⟩

def member (full : List String) : FSig := ⟨["s", "a"], none, "DDB", some "uint32", full, some 1, some 10, none, none, none, none⟩
def memberSource (full : List String) : DS := ⟨"DDB", false, false, [⟨["s", "a"], some "uint32", full, some 1, some 10, none, none, []⟩], false⟩

/-- The function knows less than the data source; it knows something else; the data source learns from the function. -/
example : (build (fun t => if t = "uint32" then some 32 else none) true [⟨"A", ["Run"], [member ["Node", "uint32"]], []⟩]
      [memberSource ["S", "uint32"]]).isSome = true ∧
    build (fun t => if t = "uint32" then some 32 else none) true [⟨"A", ["Run"], [member ["T", "uint32"]], []⟩]
      [memberSource ["S", "uint32"]] = none ∧
    ((build (fun t => if t = "uint32" then some 32 else none) true [⟨"A", ["Run"], [member ["T", "uint32"]], []⟩]
      [memberSource ["Node", "uint32"]]).map fun r => r.2.map fun V => V.sigs.map fun v => v.sig.fullType) = some [[["T", "uint32"]]] ∧
    ((build (fun t => if t = "uint32" then some 32 else none) true [⟨"A", ["Run"], [member []], []⟩]
      [memberSource ["Node", "uint32"]]).map fun r => r.2.map fun V => V.sigs.map fun v => v.sig.fullType) = some [[["Node", "uint32"]]] := by
  decide +kernel

/-- A structure `s` without a type, and its member: the member is kept. A signal without a type and without members is refused. -/
example : ((build (fun t => if t = "uint32" then some 32 else none) true []
      [⟨"DDB", false, false, [⟨["s"], none, [], none, none, none, none, []⟩, ⟨["s", "a"], some "uint32", [], none, none, none, none, []⟩], false⟩]).map
        fun r => r.2.map fun V => V.sigs.map fun v => (v.sig.name, v.sig.dims, v.byteSize)) = some [[(["s", "a"], some 0, 4)]] ∧
    build (fun t => if t = "uint32" then some 32 else none) true []
      [⟨"DDB", false, false, [⟨["s"], none, [], none, none, none, none, []⟩, ⟨["t", "a"], some "uint32", [], none, none, none, none, []⟩], false⟩] = none := by
  decide +kernel

/-! ## Where it fails -/

/-- What two functions say may differ when the data source does not know all the types: it learns from the last one. -/
theorem c57_full_type_fails :
    (build (fun t => if t = "uint32" then some 32 else none) true
      [⟨"A", ["Run"], [⟨["s", "t", "a"], none, "DDB", some "uint32", ["Node", "T", "uint32"], some 1, some 10, none, none, none, none⟩], []⟩,
       ⟨"B", ["Run"], [⟨["s", "t", "a"], none, "DDB", some "uint32", ["S", "Node", "uint32"], some 1, some 10, none, none, none, none⟩], []⟩,
       ⟨"C", ["Run"], [⟨["s", "t", "a"], none, "DDB", some "uint32", ["S", "U", "uint32"], some 1, some 10, none, none, none, none⟩], []⟩]
      [⟨"DDB", false, false, [], false⟩]).isSome = true := by
  decide +kernel


def types : Types := fun t => if t = "uint32" then some 32 else if t = "float32" then some 32 else if t = "float64" then some 64 else none

def plain (n : String) (ds : String) (ty : String) (elems : Option Nat) : FSig :=
  ⟨[n], none, ds, some ty, [ty], none, elems, none, none, none, none⟩

def writer (ty : String) (elems : Option Nat) : Fn := ⟨"Writer", ["Run"], [], [plain "x" "DDB" ty elems]⟩
def reader (ty : String) (elems : Option Nat) : Fn := ⟨"Reader", ["Run"], [plain "x" "DDB" ty elems], []⟩
def ddb : DS := ⟨"DDB", false, false, [], false⟩

private theorem flat_two (a b : Fn) (ha : ∀ f, f ∈ a.ins ∨ f ∈ a.outs → ∃ t e, f = plain "x" "DDB" t e ∧ t ≠ "")
    (hb : ∀ f, f ∈ b.ins ∨ f ∈ b.outs → ∃ t e, f = plain "x" "DDB" t e ∧ t ≠ "") : Flat [a, b] [ddb] := by
  refine ⟨?_, by simp [ddb], by simp, by simp [ddb], by simp [ddb]⟩
  intro fn hfn f hf
  simp only [List.mem_cons, List.not_mem_nil, or_false] at hfn
  have : ∃ t e, f = plain "x" "DDB" t e ∧ t ≠ "" := by
    rcases hfn with rfl | rfl
    · exact ha f hf
    · exact hb f hf
  obtain ⟨t, e, rfl, ht⟩ := this
  simp [plain, ht]

private theorem flat_rw (t u : String) (m n : Option Nat) (ht : t ≠ "") (hu : u ≠ "") : Flat [reader u n, writer t m] [ddb] := by
  apply flat_two
  · intro f hf; simp [reader] at hf; exact ⟨u, n, hf, hu⟩
  · intro f hf; simp [writer] at hf; exact ⟨t, m, hf, ht⟩

private theorem flat_wr (t u : String) (m n : Option Nat) (ht : t ≠ "") (hu : u ≠ "") : Flat [writer t m, reader u n] [ddb] := by
  apply flat_two
  · intro f hf; simp [writer] at hf; exact ⟨t, m, hf, ht⟩
  · intro f hf; simp [reader] at hf; exact ⟨u, n, hf, hu⟩

/-- A function that reads as `float32` a signal that another writes as `uint32` is accepted, if it does not declare the number of
elements: the error of line 1210 is lost at line 1004. -/
theorem c57_type_fails : ∃ fns dss app sources f r, Flat fns dss ∧ build types true fns dss = some (app, sources) ∧
    At fns app .input 1 0 (reader "float32" none) f r ∧ r.sig.ty = some "float32" ∧
    ∀ v, Named sources f v → v.sig.ty = some "uint32" := by
  refine ⟨[writer "uint32" none, reader "float32" none], [ddb], _, _, plain "x" "DDB" "float32" none, _,
    flat_wr _ _ _ _ (by decide) (by decide), rfl, ⟨rfl, rfl, _, rfl, rfl⟩, rfl, ?_⟩
  rintro v ⟨s, hs, _, hv, _⟩
  simp only [List.mem_singleton] at hs
  subst hs
  simp only [List.nil_append, List.mem_singleton] at hv
  subst hv
  rfl

/-- The number of elements of a function that does not declare it depends on the place of the function: 10 after the one that does,
1 before (and the signal has 10). -/
theorem c57_order_fails :
    (∃ app sources r, build types true [writer "uint32" (some 10), reader "uint32" none] [ddb] = some (app, sources) ∧
      At [writer "uint32" (some 10), reader "uint32" none] app .input 1 0 (reader "uint32" none) (plain "x" "DDB" "uint32" none) r ∧
      r.byteSize = 40) ∧
    ∃ app sources r, build types true [reader "uint32" none, writer "uint32" (some 10)] [ddb] = some (app, sources) ∧
      At [reader "uint32" none, writer "uint32" (some 10)] app .input 0 0 (reader "uint32" none) (plain "x" "DDB" "uint32" none) r ∧
      r.byteSize = 4 ∧ ∀ v, Named sources (plain "x" "DDB" "uint32" none) v → v.byteSize = 40 := by
  refine ⟨⟨_, _, _, rfl, ⟨rfl, rfl, _, rfl, rfl⟩, rfl⟩, ⟨_, _, _, rfl, ⟨rfl, rfl, _, rfl, rfl⟩, rfl, ?_⟩⟩
  rintro v ⟨s, hs, _, hv, _⟩
  simp only [List.mem_singleton] at hs
  subst hs
  simp only [List.nil_append, List.mem_singleton] at hv
  subst hv
  rfl

/-- A signal of 4 GB and 8 bytes is accepted with a size of 8 bytes. -/
theorem c57_size_fails : ∃ app sources r, build types true [writer "float64" (some (2 ^ 26 + 1))] [ddb] = some (app, sources) ∧
      At [writer "float64" (some (2 ^ 26 + 1))] app .output 0 0 (writer "float64" (some (2 ^ 26 + 1)))
        (plain "x" "DDB" "float64" (some (2 ^ 26 + 1))) r ∧ r.byteSize = 8 :=
  ⟨_, _, _, rfl, ⟨rfl, rfl, _, rfl, rfl⟩, rfl⟩

def locked : DS := ⟨"DDB", true, false, [], false⟩
def idle : Fn := ⟨"Idle", [], [], [plain "x" "DDB" "uint32" none]⟩

/-- A function without states is accepted with a signal that its locked data source does not have. -/
theorem c57_locked_fails : ∃ app r, build types true [idle] [locked] = some (app, [⟨"DDB", []⟩]) ∧
    At [idle] app .output 0 0 idle (plain "x" "DDB" "uint32" none) r :=
  ⟨_, _, rfl, rfl, rfl, _, rfl, rfl⟩

/-- A vector of ten elements without declared dimensions has no dimensions in the function and one in the data source. -/
theorem c57_dimensions_fails : ∃ app sources r v, build types true [writer "uint32" (some 10)] [ddb] = some (app, sources) ∧
    At [writer "uint32" (some 10)] app .output 0 0 (writer "uint32" (some 10)) (plain "x" "DDB" "uint32" (some 10)) r ∧
    Named sources (plain "x" "DDB" "uint32" (some 10)) v ∧ r.sig.dims = some 0 ∧ v.sig.dims = some 1 :=
  ⟨_, _, _, _, rfl, ⟨rfl, rfl, _, rfl, rfl⟩, ⟨_, List.mem_singleton_self _, rfl, List.mem_singleton_self _, rfl⟩, rfl, rfl⟩

/-! ## Cases -/

example : Flat [writer "uint32" (some 10), reader "uint32" (some 10)] [ddb] := flat_wr _ _ _ _ (by decide) (by decide)

/-- Two writers of the same signal, in ranges. -/
def part (lo hi : Nat) : FSig := ⟨["x"], none, "DDB", some "uint32", ["uint32"], some 1, some 10, none, none, some [(lo, hi)], none⟩
def parts (a b c d : Nat) : List Fn := [⟨"A", ["Run"], [], [part a b]⟩, ⟨"B", ["Run"], [], [part c d]⟩]

example : (build types true (parts 0 4 5 9) [ddb]).isSome = true := by decide +kernel
example : (build types true (parts 0 5 5 9) [ddb]).isSome = false := by decide +kernel
example : (build types false (parts 0 5 5 9) [ddb]).isSome = true := by decide +kernel
example : (build types true (parts 0 4 5 10) [ddb]).isSome = false := by decide +kernel
example : (build types true [writer "uint32" (some 10), reader "float32" (some 10)] [ddb]).isSome = false := by decide +kernel
example : (build types true [writer "uint32" (some 10), reader "uint32" (some 10)] [ddb]).isSome = true := by decide +kernel
example : (build types true [⟨"A", ["Run"], [], [part 0 4]⟩] [locked]).isSome = false := by decide +kernel

example : Consistent types (fun _ _ => ⟨"uint32", ["uint32"], 1, 10, none, none⟩) (parts 0 4 5 9) [ddb] := by
  have hw : ∀ lo hi, wanted (part lo hi) = ["x"] := fun _ _ => rfl
  refine ⟨fun _ _ => by decide, fun _ _ => by decide, fun _ _ => by decide, ?_, by simp [ddb], by simp [parts], ?_⟩
  · intro fn hfn f hf
    have : f = part 0 4 ∨ f = part 5 9 := by
      simp only [parts, List.mem_cons, List.not_mem_nil, or_false] at hfn
      rcases hfn with rfl | rfl
      · left; simpa using hf
      · right; simpa using hf
    rcases this with rfl | rfl
    · refine ⟨by simp [Says, part], by simp [hw], by simp [part], ?_, ddb, by simp, rfl, by simp [ddb]⟩
      intro rs hrs r hr
      simp only [part, Option.some.injEq] at hrs
      subst hrs
      simp only [List.mem_singleton] at hr
      subst hr
      simp
    · refine ⟨by simp [Says, part], by simp [hw], by simp [part], ?_, ddb, by simp, rfl, by simp [ddb]⟩
      intro rs hrs r hr
      simp only [part, Option.some.injEq] at hrs
      subst hrs
      simp only [List.mem_singleton] at hr
      subst hr
      simp
  · intro fn _ _ f _ s hs _
    simp only [List.mem_singleton] at hs
    subst hs
    rfl

end Verif.AppBuild
