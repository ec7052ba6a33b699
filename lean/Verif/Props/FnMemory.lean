import Verif.Proof.FnMemory
/-!
# C120: each data source is told of the functions that use it and of their signals
-/
set_option linter.unusedSimpArgs false
set_option maxRecDepth 8000
namespace Verif.FnMemory
open Verif.AppBuild Verif.AppBuild.Spec Spec

private theorem told_plain {r : RSig} (h : r.sig.alias ≠ some []) : told r = plainTold r := by
  unfold told plainTold wanted
  cases ha : r.sig.alias with
  | none => rfl
  | some a =>
    cases a with
    | nil => exact absurd ha h
    | cons t ts => rfl

private theorem sum_filter (f : RSig → Bool) : ∀ (rs : List RSig), ((rs.filter f).map area).sum ≤ (rs.map area).sum := by
  intro rs
  induction rs with
  | nil => simp
  | cons r rs ih =>
    rw [List.filter_cons]
    split
    · simp; exact ih
    · simp; omega

private theorem part_eq {after : Bool} {b : Brokers} {ds : String} {out : Bool} {rs : List RSig}
    (ha : ∀ r ∈ rs, r.sig.alias ≠ some []) (hs : (rs.map area).sum < 2 ^ 32) :
    part' after b ds out rs = part (if after then some b else none) ds out rs := by
  unfold part' part forDs
  split
  · rfl
  · rw [Nat.mod_eq_of_lt (Nat.lt_of_le_of_lt (sum_filter _ rs) hs)]
    congr 2
    apply List.map_congr_left
    intro r hr
    rw [told_plain (ha r (List.mem_filter.1 hr).1)]
    cases after <;> rfl

private theorem part_none {o : Option Brokers} {ds : String} {out : Bool} {rs : List RSig} :
    part o ds out rs = none ↔ (rs.any fun r => r.sig.ds = ds) = false := by
  unfold part
  split
  · rename_i h
    rw [List.filter_eq_nil_iff] at h
    simpa using h
  · rename_i h
    rw [List.filter_eq_nil_iff] at h
    simpa using h

private theorem entries_eq {after : Bool} {b : Brokers} {ds : String} : ∀ (app : List RFn),
    (∀ R ∈ app, ∀ r, r ∈ R.ins ∨ r ∈ R.outs → r.sig.alias ≠ some []) →
    (∀ R ∈ app, (R.ins.map area).sum < 2 ^ 32 ∧ (R.outs.map area).sum < 2 ^ 32) →
    entries' after b ds app = entries (if after then some b else none) ds app := by
  intro app
  induction app with
  | nil => intro _ _; rfl
  | cons R app ih =>
    intro ha hs
    have := ih (fun R' h => ha R' (List.mem_cons_of_mem _ h)) (fun R' h => hs R' (List.mem_cons_of_mem _ h))
    unfold entries' entries at this ⊢
    rw [List.map_cons, List.flatten_cons, this, List.filter_cons,
      part_eq (fun r hr => ha R (by simp) r (Or.inl hr)) (hs R (by simp)).1,
      part_eq (fun r hr => ha R (by simp) r (Or.inr hr)) (hs R (by simp)).2]
    generalize (if after then some b else none) = o
    unfold cur
    by_cases h : ((R.ins ++ R.outs).any fun r => r.sig.ds = ds) = true
    · rw [if_pos h, if_neg]
      · rfl
      · rw [part_none, part_none]
        rintro ⟨h1, h2⟩
        rw [List.any_append, h1, h2] at h
        cases h
    · rw [if_neg h, if_pos]
      · rfl
      · rw [part_none, part_none]
        rw [List.any_append] at h
        cases h1 : R.ins.any fun r => r.sig.ds = ds <;> cases h2 : R.outs.any fun r => r.sig.ds = ds <;> simp_all

private theorem good_iff {after : Bool} {b : Brokers} {names : List String} {app : List RFn}
    (ha : ∀ R ∈ app, ∀ r, r ∈ R.ins ∨ r ∈ R.outs → r.sig.alias ≠ some []) :
    (∀ R ∈ app, Good after b names R) ↔ Known names app ∧ (after = true → Served b app) := by
  constructor
  · intro h
    refine ⟨fun R hR => ⟨(h R hR).1, (h R hR).2.1⟩, fun hafter R hR => ?_⟩
    obtain ⟨h1, h2⟩ := (h R hR).2.2 hafter
    exact ⟨fun r hr => by rw [← told_plain (ha R hR r (Or.inl hr))]; exact h1 r hr,
      fun r hr => by rw [← told_plain (ha R hR r (Or.inr hr))]; exact h2 r hr⟩
  · rintro ⟨h1, h2⟩ R hR
    refine ⟨(h1 R hR).1, (h1 R hR).2, fun hafter => ?_⟩
    obtain ⟨h3, h4⟩ := h2 hafter R hR
    exact ⟨fun r hr => by rw [told_plain (ha R hR r (Or.inl hr))]; exact h3 r hr,
      fun r hr => by rw [told_plain (ha R hR r (Or.inr hr))]; exact h4 r hr⟩

private theorem assign_eq {after : Bool} {b : Brokers} {names : List String} {app : List RFn} (hn : names.Nodup) (hf : Fine app)
    (X : List Source) : assign after b names app = some X ↔
      Known names app ∧ (after = true → Served b app) ∧ X = sources (if after then some b else none) names app := by
  rw [assign_iff hn hf.names, good_iff hf.aliases]
  have : (names.map fun n => (⟨n, entries' after b n app⟩ : Source)) = sources (if after then some b else none) names app := by
    unfold sources
    apply List.map_congr_left
    intro n _
    rw [entries_eq app hf.aliases hf.sizes]
  rw [this, and_assoc]

/-- **C120.** The configuration is accepted exactly if every function has signals and all are for known data sources (and, when the
brokers are chosen at once, the data sources have one for each); then each data source is told of exactly the functions with signals
for it, once each, and of exactly those signals, in order, each with the names, the bytes, the samples and the place in the memory of the
function. -/
theorem c120_told_partial {b : Brokers} {names : List String} {app : List RFn} (hn : names.Nodup) (hf : Fine app) (X : List Source) :
    (assign false b names app = some X ↔ Known names app ∧ X = sources none names app) ∧
    (assign true b names app = some X ↔ Known names app ∧ Served b app ∧ X = sources (some b) names app) := by
  constructor
  · rw [assign_eq hn hf]; simp
  · rw [assign_eq hn hf]; simp

private theorem late_part {b : Brokers} {ds : String} {out : Bool} {rs : List RSig} (X : Option Part) :
    latePart b ds out (part none ds out rs) = some X ↔
      (∀ r ∈ rs, r.sig.ds = ds → b ds out (plainTold r) ≠ "") ∧ X = part (some b) ds out rs := by
  unfold part
  by_cases h : rs.filter (fun r => r.sig.ds = ds) = []
  · rw [if_pos h, if_pos h]
    rw [List.filter_eq_nil_iff] at h
    unfold latePart
    constructor
    · intro e
      cases e
      exact ⟨fun r hr e => absurd (by simpa using e) (h r hr), rfl⟩
    · rintro ⟨_, rfl⟩; rfl
  · rw [if_neg h, if_neg h]
    unfold latePart
    dsimp only
    constructor
    · intro e
      cases hc : copySigs true b ds out ((rs.filter fun r => r.sig.ds = ds).map fun r => plainTold r) with
      | none => rw [hc] at e; cases e
      | some l =>
        have h1 := copySigs_conv _ hc
        rw [copySigs_ok _ (fun _ => h1)] at e
        refine ⟨?_, ?_⟩
        · intro r hr hd
          exact h1 _ (List.mem_map.2 ⟨r, List.mem_filter.2 ⟨hr, by simpa using hd⟩, rfl⟩)
        · rw [List.map_map] at e
          exact (Option.some.inj e).symm
    · rintro ⟨h1, rfl⟩
      rw [copySigs_ok _ (fun _ t ht => by
        obtain ⟨r, hr, rfl⟩ := List.mem_map.1 ht
        obtain ⟨hr, hd⟩ := List.mem_filter.1 hr
        exact h1 r hr (by simpa using hd)), List.map_map]
      rfl

private def ServedAt (b : Brokers) (ds : String) (app : List RFn) : Prop :=
  ∀ R ∈ app, (∀ r ∈ R.ins, r.sig.ds = ds → b ds false (plainTold r) ≠ "") ∧ ∀ r ∈ R.outs, r.sig.ds = ds → b ds true (plainTold r) ≠ ""

private theorem late_entries {b : Brokers} {ds : String} : ∀ (app : List RFn) (X : List Entry),
    lateEntries b ds (entries none ds app) = some X ↔ ServedAt b ds app ∧ X = entries (some b) ds app := by
  intro app
  induction app with
  | nil =>
    intro X
    unfold entries ServedAt
    simp [lateEntries]
  | cons R app ih =>
    intro X
    by_cases h : ((R.ins ++ R.outs).any fun r => r.sig.ds = ds) = true
    · have e : ∀ o, entries o ds (R :: app) = ⟨R.fn.name, part o ds false R.ins, part o ds true R.outs⟩ :: entries o ds app := by
        intro o
        unfold entries
        rw [List.filter_cons, if_pos h]
        rfl
      rw [e, e]
      unfold lateEntries
      dsimp only
      constructor
      · intro he
        cases h1 : latePart b ds false (part none ds false R.ins) with
        | none => rw [h1] at he; cases he
        | some i =>
          rw [h1] at he
          dsimp only at he
          cases h2 : latePart b ds true (part none ds true R.outs) with
          | none => rw [h2] at he; cases he
          | some o =>
            rw [h2] at he
            dsimp only at he
            cases h3 : lateEntries b ds (entries none ds app) with
            | none => rw [h3] at he; cases he
            | some es =>
              rw [h3] at he
              obtain ⟨a1, a2⟩ := (late_part i).1 h1
              obtain ⟨b1, b2⟩ := (late_part o).1 h2
              obtain ⟨c1, c2⟩ := (ih es).1 h3
              refine ⟨?_, ?_⟩
              · intro R' hR'
                rcases List.mem_cons.1 hR' with rfl | hR'
                · exact ⟨a1, b1⟩
                · exact c1 R' hR'
              · rw [← a2, ← b2, ← c2]
                exact (Option.some.inj he).symm
      · rintro ⟨hs, rfl⟩
        rw [(late_part _).2 ⟨(hs R (by simp)).1, rfl⟩]
        dsimp only
        rw [(late_part _).2 ⟨(hs R (by simp)).2, rfl⟩]
        dsimp only
        rw [(ih _).2 ⟨fun R' h' => hs R' (List.mem_cons_of_mem _ h'), rfl⟩]
        rfl
    · have e : ∀ o, entries o ds (R :: app) = entries o ds app := by
        intro o
        unfold entries
        rw [List.filter_cons, if_neg h]
      rw [e, e, ih]
      have hno : ∀ r, r ∈ R.ins ∨ r ∈ R.outs → r.sig.ds ≠ ds := by
        intro r hr e
        apply h
        rw [List.any_eq_true]
        exact ⟨r, List.mem_append.2 hr, by simpa using e⟩
      constructor
      · rintro ⟨h1, h2⟩
        refine ⟨?_, h2⟩
        intro R' hR'
        rcases List.mem_cons.1 hR' with rfl | hR'
        · exact ⟨fun r hr e => absurd e (hno r (Or.inl hr)), fun r hr e => absurd e (hno r (Or.inr hr))⟩
        · exact h1 R' hR'
      · rintro ⟨h1, h2⟩
        exact ⟨fun R' h' => h1 R' (List.mem_cons_of_mem _ h'), h2⟩

private theorem late_sources {b : Brokers} {app : List RFn} : ∀ (names : List String) (X : List Source),
    lateBrokers b (sources none names app) = some X ↔ (∀ n ∈ names, ServedAt b n app) ∧ X = sources (some b) names app := by
  intro names
  induction names with
  | nil => intro X; simp [sources, lateBrokers]
  | cons n names ih =>
    intro X
    unfold sources at ih ⊢
    rw [List.map_cons, List.map_cons]
    unfold lateBrokers
    dsimp only
    constructor
    · intro h
      cases h1 : lateEntries b n (entries none n app) with
      | none => rw [h1] at h; cases h
      | some es =>
        rw [h1] at h
        dsimp only at h
        cases h2 : lateBrokers b (names.map fun n => ⟨n, entries none n app⟩) with
        | none => rw [h2] at h; cases h
        | some ss =>
          rw [h2] at h
          obtain ⟨a1, a2⟩ := (late_entries app es).1 h1
          obtain ⟨b1, b2⟩ := (ih ss).1 h2
          refine ⟨?_, ?_⟩
          · intro m hm
            rcases List.mem_cons.1 hm with rfl | hm
            · exact a1
            · exact b1 m hm
          · rw [← a2, ← b2]
            exact (Option.some.inj h).symm
    · rintro ⟨h, rfl⟩
      rw [(late_entries app _).2 ⟨h n (by simp), rfl⟩]
      dsimp only
      rw [(ih _).2 ⟨fun m hm => h m (List.mem_cons_of_mem _ hm), rfl⟩]
      rfl

/-- **C120.** The brokers chosen later, in a second visit to the data sources, are those that would have been chosen at once: the
outcome of the two ways of configuring an application is the same. -/
theorem c120_late_partial {b : Brokers} {names : List String} {app : List RFn} (hn : names.Nodup) (hf : Fine app) :
    (assign false b names app).bind (lateBrokers b) = assign true b names app := by
  have key : ∀ X, (assign false b names app).bind (lateBrokers b) = some X ↔ assign true b names app = some X := by
    intro X
    rw [(c120_told_partial hn hf X).2, Option.bind_eq_some_iff]
    constructor
    · rintro ⟨Y, h1, h2⟩
      obtain ⟨hk, rfl⟩ := (c120_told_partial hn hf Y).1.1 h1
      obtain ⟨h3, h4⟩ := (late_sources names X).1 h2
      refine ⟨hk, fun R hR => ⟨fun r hr => ?_, fun r hr => ?_⟩, h4⟩
      · exact (h3 _ ((hk R hR).2 r (Or.inl hr)) R hR).1 r hr rfl
      · exact (h3 _ ((hk R hR).2 r (Or.inr hr)) R hR).2 r hr rfl
    · rintro ⟨hk, hs, rfl⟩
      refine ⟨_, (c120_told_partial hn hf _).1.2 ⟨hk, rfl⟩, (late_sources names _).2 ⟨fun n _ R hR => ⟨?_, ?_⟩, rfl⟩⟩
      · intro r hr e
        subst e
        exact (hs R hR).1 r hr
      · intro r hr e
        subst e
        exact (hs R hR).2 r hr
  cases h : assign true b names app with
  | some X => exact (key X).2 h
  | none =>
    cases h' : (assign false b names app).bind (lateBrokers b) with
    | none => rfl
    | some Y => rw [(key Y).1 h'] at h; cases h

/-- **C120 fails for functions without signals**: the whole configuration is refused. -/
theorem c120_idle_fails {after : Bool} {b : Brokers} {names : List String} {app : List RFn} (hn : names.Nodup)
    (hd : (app.map fun R => R.fn.name).Nodup) (R : RFn) (hR : R ∈ app) (hi : R.ins = []) (ho : R.outs = []) :
    assign after b names app = none := by
  cases h : assign after b names app with
  | none => rfl
  | some X =>
    have := (((assign_iff hn hd X).1 h).1 R hR).1
    simp [hi, ho] at this

private def sig (n ds : String) (alias : Option Name) : FSig := ⟨[n], alias, ds, some "uint32", [], some 0, some 1, none, none, none, none⟩

private def rsig (n ds : String) (alias : Option Name) (m : Nat) : RSig := ⟨sig n ds alias, 4, [(0, 4)], 1, m⟩

private def fn (name : String) (ins outs : List RSig) : RFn :=
  ⟨⟨name, [], ins.map (fun r => r.sig), outs.map fun r => r.sig⟩, ins, 4 * ins.length, outs, 4 * outs.length⟩

private def any : Brokers := fun _ out _ => if out then "MemoryMapOutputBroker" else "MemoryMapInputBroker"

/-- **C120 fails for signals with an empty alias**: the data source, which knows the signal by its name, is told of an empty one. -/
theorem c120_alias_fails : ∃ R r e p t, assign true any ["D"] [R] = some [⟨"D", [e]⟩] ∧ R.ins = [r] ∧ e.ins = some p ∧ p.sigs = [t] ∧
    wanted r.sig = ["x"] ∧ t.alias = [] :=
  ⟨fn "F" [rsig "x" "D" (some []) 0] [], _, _, _, _, rfl, rfl, rfl, rfl, rfl, rfl⟩

/-- **C120 fails for two functions with the same name**: a signal of the second one is told to a data source that is not its own. -/
theorem c120_names_fails : ∃ R₁ R₂ e₁ e₂ p t, assign true any ["D", "E"] [R₁, R₂] = some [⟨"D", [e₁]⟩, ⟨"E", [e₂]⟩] ∧
    R₂.ins.map (fun r => (r.sig.name, r.sig.ds)) = [(["y"], "E"), (["z"], "D")] ∧ e₂.ins = some p ∧ t ∈ p.sigs ∧ t.name = ["z"] :=
  ⟨fn "F" [rsig "x" "D" none 0] [], fn "F" [rsig "y" "E" none 0, rsig "z" "D" none 4] [], _, _, _, _, rfl, rfl, rfl,
    List.mem_cons_of_mem _ (List.mem_singleton.2 rfl), rfl⟩

/-- Two functions and three data sources; one data source is used by both, in both directions. -/
example : Fine [fn "F" [rsig "x" "D" none 0, rsig "y" "E" none 4, rsig "z" "D" none 8] [rsig "u" "D" none 0], fn "G" [] [rsig "x" "E" none 0]] ∧
    Known ["D", "E", "T"] [fn "F" [rsig "x" "D" none 0, rsig "y" "E" none 4, rsig "z" "D" none 8] [rsig "u" "D" none 0],
      fn "G" [] [rsig "x" "E" none 0]] ∧
    (assign true any ["D", "E", "T"] [fn "F" [rsig "x" "D" none 0, rsig "y" "E" none 4, rsig "z" "D" none 8] [rsig "u" "D" none 0],
      fn "G" [] [rsig "x" "E" none 0]]).map (fun l => l.map fun S => (S.name, S.entries.map fun e =>
        (e.fn, e.ins.map fun p => p.sigs.map fun t => (t.name, t.memory), e.outs.map fun p => p.byteSize))) =
      some [("D", [("F", some [(["x"], 0), (["z"], 8)], some 4)]), ("E", [("F", some [(["y"], 4)], none), ("G", none, some 4)]),
        ("T", [])] := by
  refine ⟨⟨by decide, ?_, ?_⟩, ?_, rfl⟩
  · intro R hR r hr
    simp [fn] at hR
    rcases hR with rfl | rfl <;> simp at hr <;> (try rcases hr with (rfl | rfl | rfl) | rfl) <;> (try subst hr) <;> simp [rsig, sig]
  · intro R hR
    simp [fn] at hR
    rcases hR with rfl | rfl <;> simp [area, rsig]
  · intro R hR
    simp [fn] at hR
    rcases hR with rfl | rfl
    · refine ⟨by simp, ?_⟩
      intro r hr
      simp at hr
      rcases hr with (rfl | rfl | rfl) | rfl <;> simp [rsig, sig]
    · refine ⟨by simp, ?_⟩
      intro r hr
      simp at hr
      subst hr
      simp [rsig, sig]

end Verif.FnMemory
